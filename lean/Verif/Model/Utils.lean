import Verif.Model.Scalar

set_option autoImplicit false

/-! # Model of src/utils.rs -/

namespace CrystSymm

section
variable {K : Type} [Add K] [Sub K] [Mul K] [Neg K] [Zero K] [One K]
  [LT K] [DecidableLT K] [FRound K]

/-- One component of `normalize_frac_vectors` (src/utils.rs:7-12). -/
def normComp (tol v : K) : K :=
  let r := FRound.fmod1 v
  if r < (-1 : K) * tol then r + 1
  else if 1 - tol < r then r - 1
  else r

/-- One vector of `normalize_frac_vectors` (src/utils.rs:6-13). -/
def normFracVec (tols v : Vec3 K) : Vec3 K :=
  ⟨normComp tols.x v.x, normComp tols.y v.y, normComp tols.z v.z⟩

/-- `normalize_frac_vectors` (src/utils.rs:4-15); the `&mut Vec` becomes a returned list. -/
def normalizeFracVectors (vecs : List (Vec3 K)) (tols : Vec3 K) : List (Vec3 K) :=
  vecs.map (normFracVec tols)

end

/-- loop body of `num_negative_zero` (src/utils.rs:22-28); counters are `i8`, wrapping. -/
def numNegativeZeroStep {K : Type} [Mul K] [Neg K] [One K] [LT K] [DecidableLT K]
    (epsilon : K) (acc : Int8 × Int8) (val : K) : Int8 × Int8 :=
  if val < (-1 : K) * epsilon then (acc.1 + 1, acc.2)
  else if val < epsilon then (acc.1, acc.2 + 1)
  else acc

/-- `num_negative_zero` (src/utils.rs:18-30). -/
def numNegativeZero {K : Type} [Mul K] [Neg K] [One K] [LT K] [DecidableLT K]
    (vec : List K) (epsilon : K) : Int8 × Int8 :=
  vec.foldl (numNegativeZeroStep epsilon) (0, 0)

/-- `cust_eq` (src/utils.rs:33-35). -/
def custEq {K : Type} [Sub K] [LT K] [DecidableLT K] (a b epsilon : K) : Bool :=
  !(decide (a < b - epsilon) || decide (b < a - epsilon))

/-- loop of `decode` (src/utils.rs:42-45): `n` more digits, least significant first, each inserted
in front.  `e as u32` is a `Nat` (only `%` and `/` are applied to it, so it never overflows);
`as i8` and `- sub` wrap. -/
def decodeLoop (base : Nat) (sub : Int8) : Nat → Nat → List Int8 → List Int8
  | 0, _, out => out
  | n + 1, e, out => decodeLoop base sub n (e / base) ((Int8.ofNat (e % base) - sub) :: out)

/-- `decode` (src/utils.rs:39-47); `% 0` panics in Rust (when at least one digit is asked for);
a negative `len` gives an empty range. -/
def decode (e : Nat) (base : Nat) (sub : Int8) (len : Int) : Outcome (List Int8) :=
  if base = 0 ∧ 0 < len then .panic "attempt to calculate the remainder with a divisor of zero"
  else .ret (decodeLoop base sub len.toNat e [])

/-- `base8_translation_map` (src/utils.rs:50). -/
def base8TranslationMap : List Int8 := [0, 2, 3, 4, 6, 8, 9, 10]

/-- `base8_translation_map[i as usize]` with Rust's bounds check (`i8 as usize` of a negative is
huge, hence out of bounds as well). -/
def translationLookup (i : Int8) : Outcome Int8 :=
  if i < 0 then .panic "index out of bounds"
  else .ofOption "index out of bounds" base8TranslationMap[i.toInt.toNat]?

/-- `.iter().map(..).collect()` with a panicking closure. -/
def mapOutcome {α β : Type} (f : α → Outcome β) : List α → Outcome (List β)
  | [] => .ret []
  | a :: as => (f a).bind fun b => (mapOutcome f as).bind fun bs => .ret (b :: bs)

/-- `decode_spg_op` (src/utils.rs:49-62). -/
def decodeSpgOp (num : Nat) : Outcome (List Int8 × List Int8) :=
  let numRot := num % 3 ^ 9
  let numTrans := num / 3 ^ 9
  (decode numRot 3 1 9).bind fun decRot =>
  (decode numTrans 8 0 3).bind fun digits =>
  (mapOutcome translationLookup digits).bind fun decTrans =>
  .ret (decRot, decTrans)

/-- `compare_matrices` (src/utils.rs:66-74): entries in nalgebra's linear (column-major) order;
indexing `tols` past its end panics, but only if no earlier entry already differed. -/
def compareEntries {K : Type} [Sub K] [LT K] [DecidableLT K] :
    List K → List K → List K → Outcome Bool
  | a :: as, b :: bs, t :: ts => if custEq a b t then compareEntries as bs ts else .ret false
  | _ :: _, _ :: _, [] => .panic "index out of bounds"
  | _, _, _ => .ret true

/-- `compare_matrices` (src/utils.rs:66-74). -/
def compareMatrices {K : Type} [Sub K] [LT K] [DecidableLT K] (a b : Mat3 K) (tols : List K) :
    Outcome Bool :=
  compareEntries a.toListCM b.toListCM tols

/-- `approx_equal` (src/utils.rs:77-79). -/
def approxEqual {K : Type} [Sub K] [LT K] [DecidableLT K] [FRound K] (a b tol : K) : Bool :=
  decide (FRound.abs (a - b) < tol)

/-- `approx_equal_iter` (src/utils.rs:81-89). -/
def approxEqualIter {K : Type} [Sub K] [LT K] [DecidableLT K] [FRound K] (a b : List K) (tol : K) :
    Outcome Bool :=
  if a.length ≠ b.length then
    .panic "Iterators provided for comparison do not have equal lengths"
  else .ret ((a.zip b).all fun p => approxEqual p.1 p.2 tol)

end CrystSymm
