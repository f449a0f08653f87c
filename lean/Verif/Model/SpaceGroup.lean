import Verif.Model.SymmOp
import Verif.Model.Structure
import Verif.Model.PointGroup

set_option autoImplicit false

/-! # Model of src/spacegroup.rs

A `SpaceGroup` (src/spacegroup.rs:12-14) is its list of operations. -/

namespace CrystSymm

namespace SpaceGroup

section
variable {K : Type} [Add K] [Sub K] [Mul K] [Div K] [Neg K] [Zero K] [One K] [IntCast K]
  [LT K] [LE K] [DecidableLT K] [DecidableLE K] [BEq K] [FRound K]

/-- inner loop body of `ops_from_generators` (src/spacegroup.rs:141-152) on
`(symm_ops, generated)`. -/
def genStep (tols : Vec3 K) (acc : List (SymmOp K) × List (SymmOp K)) (p : SymmOp K × SymmOp K) :
    List (SymmOp K) × List (SymmOp K) :=
  let op := p.1 * p.2
  if acc.1.any fun symmOp => symmOp.isApproxEq op tols then acc
  else
    let op := op.normalize tols
    (acc.1 ++ [op], acc.2 ++ [op])

/-- one round: all products `m1 * m2`, `m1` in a snapshot of `symm_ops`, `m2` in `new_ops`
(src/spacegroup.rs:139-152). -/
def genRound (tols : Vec3 K) (symmOps newOps : List (SymmOp K)) :
    List (SymmOp K) × List (SymmOp K) :=
  (symmOps.flatMap fun m1 => newOps.map fun m2 => (m1, m2)).foldl (genStep tols) (symmOps, [])

/-- the `while` loop of `ops_from_generators` (src/spacegroup.rs:138-155), with fuel. -/
def genLoop (tols : Vec3 K) : Nat → List (SymmOp K) → List (SymmOp K) → Outcome (List (SymmOp K))
  | 0, _, _ => .running
  | fuel + 1, symmOps, newOps =>
    if newOps.isEmpty then .ret symmOps
    else genLoop tols fuel (genRound tols symmOps newOps).1 (genRound tols symmOps newOps).2

/-- `SpaceGroup::from_generators` / `ops_from_generators` (src/spacegroup.rs:22-28, 135-157). -/
def fromGenerators (fuel : Nat) (generators : List (SymmOp K)) (tols : Vec3 K) :
    Outcome (List (SymmOp K)) :=
  genLoop tols fuel generators generators

/-- the filter of src/spacegroup.rs:77-79: `any` entry within `ZERO_TOL` of 0 or ±1. -/
def someEntryIntegral (m : Mat3 K) : Bool :=
  m.toListCM.any fun val =>
    decide (FRound.abs val < zeroTol) || decide (FRound.abs (FRound.abs val - 1) < zeroTol)

/-- State of the `while` loop of `apply_transformation`. -/
structure TransState (K : Type) where
  newOperations : List (SymmOp K)
  foundVectors : List (Mat3 Int8 × List (Vec3 K))
  initialNumOps : Int

/-- is `v` within tolerance of an already found translation? (src/spacegroup.rs:94-113) -/
def seen (tols v : Vec3 K) (found : List (Vec3 K)) : Bool :=
  found.any fun f => SymmOp.allWithin (normFracVec tols (v - f)) tols

/-- body of the innermost loop (src/spacegroup.rs:90-128). -/
def transCandidate (tols : Vec3 K) (inv : Mat3 K) (op : SymmOp K) (rot : Mat3 Int8)
    (st : TransState K) (vec : Vec3 K) : TransState K :=
  let transVec := normFracVec tols (inv * (op.translation + vec))
  let found := (amapGet? st.foundVectors rot).getD []
  if seen tols transVec found then
    { st with foundVectors := amapUpsert st.foundVectors rot [] id }
  else
    let transVec := normFracVec tols transVec
    { st with
      foundVectors := amapUpsert st.foundVectors rot [] fun l => l ++ [transVec]
      newOperations := st.newOperations ++ [⟨rot, transVec⟩] }

/-- one operation (src/spacegroup.rs:71-129). -/
def transOp (tols : Vec3 K) (inv t : Mat3 K) (vecs : List (Vec3 K)) (st : TransState K)
    (op : SymmOp K) : TransState K :=
  let floatRot := inv * castRot op.rotation * t
  if !someEntryIntegral floatRot then { st with initialNumOps := st.initialNumOps - 1 }
  else
    let rot := floatRot.map fun x => FRound.toI8 (FRound.round x)
    vecs.foldl (transCandidate tols inv op rot) st

/-- `(new_operations.len() as f64 / initial_num_ops) < volume_ratio`; division by zero gives NaN
or `+∞`, for which the comparison is false. -/
def opsQuotLt (found : Nat) (initial : Int) (ratio : K) : Bool :=
  if initial = 0 then false else decide ((lit found : K) / lit initial < ratio)

/-- the `while` loop of `apply_transformation` (src/spacegroup.rs:62-131), with fuel. -/
def transLoop (tols : Vec3 K) (inv t : Mat3 K) (ratio : K) (ops : List (SymmOp K)) :
    Nat → Nat → TransState K → Outcome (TransState K)
  | 0, _, _ => .running
  | fuel + 1, mult, st =>
    if opsQuotLt st.newOperations.length st.initialNumOps ratio then
      transLoop tols inv t ratio ops fuel (mult + 1)
        (ops.foldl (transOp tols inv t (Structure.translationVecs mult)) st)
    else .ret st

/-- `SpaceGroup::apply_transformation` (src/spacegroup.rs:38-133). -/
def applyTransformation (fuel : Nat) (ops : List (SymmOp K)) (t : Mat3 K) (tols : Vec3 K) :
    Outcome (List (SymmOp K)) :=
  match t.tryInverse with
  | none => .panic "Transformation matrix is not invertible!"
  | some inv =>
    (transLoop tols inv t (Structure.volumeRatio t) ops fuel 2
      { newOperations := [], foundVectors := [], initialNumOps := ops.length }).bind
      fun st => .ret st.newOperations

end

end SpaceGroup

end CrystSymm
