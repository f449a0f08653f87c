import Verif.Model.SymmOp
import Verif.Model.Structure
import Verif.Data.PointGroup

set_option autoImplicit false

/-! # Model of src/pointgroup.rs -/

namespace CrystSymm

/-- Iteration order of hash containers.  `o n l` is the order in which the `n`-th iteration over a
container holding `l` visits its elements; theorems quantify over all `o` satisfying `IsHashOrd`. -/
abbrev HashOrd (α : Type) := Nat → List α → List α

/-- An iteration order visits every element exactly once. -/
def IsHashOrd {α : Type} (o : HashOrd α) : Prop := ∀ n l, (o n l).Perm l

/-- `PointGroup` (src/pointgroup.rs:8-12). -/
structure PointGroup where
  symbol : String
  operations : List (Mat3 Int8)
  generators : List (Mat3 Int8)
deriving Repr, DecidableEq

/-- `HashSet::insert`. -/
def setInsert {α : Type} [DecidableEq α] (s : List α) (a : α) : List α :=
  if a ∈ s then s else s ++ [a]

/-- `HashSet::from_iter`. -/
def setFromIter {α : Type} [DecidableEq α] (l : List α) : List α := l.foldl setInsert []

namespace PointGroup

/-- body of the inner loop of `generate_operations` (src/pointgroup.rs:67-73) on the state
`(symm_ops, generated)`. -/
def genStep {α : Type} [DecidableEq α] [Mul α] (acc : List α × List α) (p : α × α) : List α × List α :=
  let op := p.1 * p.2
  if op ∈ acc.1 then acc else (setInsert acc.1 op, setInsert acc.2 op)

/-- the `while` loop of `generate_operations` (src/pointgroup.rs:64-76), with fuel; `round` counts
the iterations and only selects the hash order. -/
def genLoop {α : Type} [DecidableEq α] [Mul α] (o : HashOrd α) :
    Nat → Nat → List α → List α → Outcome (List α)
  | 0, _, _, _ => .running
  | fuel + 1, round, symmOps, newOps =>
    if newOps.isEmpty then .ret (o (2 * round) symmOps)
    else
      let pairs := (o (2 * round) symmOps).flatMap fun m1 =>
        (o (2 * round + 1) newOps).map fun m2 => (m1, m2)
      let res := pairs.foldl genStep (symmOps, [])
      genLoop o fuel (round + 1) res.1 res.2

/-- `generate_operations` (src/pointgroup.rs:60-81). -/
def generateOperations {α : Type} [DecidableEq α] [Mul α] (o : HashOrd α) (fuel : Nat)
    (generators : List α) : Outcome (List α) :=
  genLoop o fuel 0 (setFromIter generators) (setFromIter generators)

/-- `Matrix3::from_iterator(v).transpose()`: the decoded integers row by row
(src/pointgroup.rs:24, src/analyzer.rs:118). -/
def rotationOfDigits (v : List Int8) : Outcome (Mat3 Int8) :=
  (Outcome.ofOption "Matrix init. from iterator: not enough elements" (Mat3.ofListCM v)).bind
    fun m => .ret m.transpose

/-- `PointGroup::from_number` (src/pointgroup.rs:15-36). -/
def fromNumber (o : HashOrd (Mat3 Int8)) (fuel : Nat) (pgNum : Nat) : Outcome PointGroup :=
  (Outcome.ofOption "called `Option::unwrap()` on a `None` value"
    (amapGet? pgNumToSymbol pgNum)).bind fun symbol =>
  (Outcome.ofOption "called `Option::unwrap()` on a `None` value"
    (amapGet? pgNumToGeneratorMatrices pgNum)).bind fun encoded =>
  (mapOutcome (fun e => (decode e 3 1 9).bind rotationOfDigits) encoded).bind fun decoded =>
  (generateOperations o fuel decoded).bind fun operations =>
  .ret { symbol, operations, generators := decoded }

section
variable {K : Type} [Add K] [Sub K] [Mul K] [Div K] [Zero K] [IntCast K] [BEq K] [FRound K]

/-- `T⁻¹ R T`, rounded to `i8` (src/pointgroup.rs:48-50, 54-56). -/
def conjRot (inv t : Mat3 K) (op : Mat3 Int8) : Mat3 Int8 :=
  (inv * castRot op * t).map fun x => FRound.toI8 (FRound.round x)

/-- `PointGroup::apply_transformation` (src/pointgroup.rs:39-58). -/
def applyTransformation (pg : PointGroup) (t : Mat3 K) : Outcome PointGroup :=
  match t.tryInverse with
  | none => .panic "Transformation matrix is not invertible!"
  | some inv =>
    .ret { pg with
      operations := pg.operations.map (conjRot inv t)
      generators := pg.generators.map (conjRot inv t) }

end

end PointGroup

end CrystSymm
