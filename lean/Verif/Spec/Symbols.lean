import Verif.Spec.SpaceGroups
import Verif.Spec.Centring

/-! # Specification of Hermann–Mauguin symbols

A space-group symbol consists of a lattice letter and one component for each symmetry direction of the crystal system
(`International Tables`, tables 2.1.2.1 and 2.1.3.1).  A component names the symmetry elements along its direction: rotation and
screw axes parallel to it, and planes perpendicular to it. -/

set_option autoImplicit false

namespace CrystSymm.Spec

/-- a symmetry element named in a symbol: `n` or `n_k`, `-n`, or the letter of a reflection or glide plane. -/
inductive Element
  | axis (n k : ℕ)
  | roto (n : ℕ)
  | plane (letter : Char)
deriving DecidableEq, Repr

/-- the lattice letter. -/
def centringLetter : Centering → Char
  | .P => 'P' | .A => 'A' | .B => 'B' | .C => 'C' | .I => 'I' | .F => 'F' | .R => 'R'

/-- the number of a digit. -/
def digitVal (c : Char) : ℕ := c.toNat - 48

/-- the components of a symbol without its lattice letter; `H` (hexagonal axes) is not a component. -/
def components : List Char → List (List Element)
  | [] => []
  | '-' :: n :: r => [.roto (digitVal n)] :: components r
  | n :: '_' :: k :: '/' :: p :: r => [.axis (digitVal n) (digitVal k), .plane p] :: components r
  | n :: '_' :: k :: r => [.axis (digitVal n) (digitVal k)] :: components r
  | n :: '/' :: p :: r => [.axis (digitVal n) 0, .plane p] :: components r
  | 'H' :: r => components r
  | c :: r => (if c.isDigit then [.axis (digitVal c) 0] else [.plane c]) :: components r

/-- the symmetry directions of the crystal system of a space-group number, in the order of the symbol; equivalent
directions together.  (For triclinic groups any direction will do.) -/
def directions (num : ℕ) : List (List (Vec3 ℤ)) :=
  if num ≤ 2 then [[⟨1, 0, 0⟩]]
  else if num ≤ 74 then [[⟨1, 0, 0⟩], [⟨0, 1, 0⟩], [⟨0, 0, 1⟩]]
  else if num ≤ 142 then [[⟨0, 0, 1⟩], [⟨1, 0, 0⟩, ⟨0, 1, 0⟩], [⟨1, -1, 0⟩, ⟨1, 1, 0⟩]]
  else if num ≤ 194 then
    [[⟨0, 0, 1⟩], [⟨1, 0, 0⟩, ⟨0, 1, 0⟩, ⟨1, 1, 0⟩], [⟨1, -1, 0⟩, ⟨1, 2, 0⟩, ⟨2, 1, 0⟩]]
  else [[⟨1, 0, 0⟩, ⟨0, 1, 0⟩, ⟨0, 0, 1⟩], [⟨1, 1, 1⟩, ⟨1, -1, -1⟩, ⟨-1, 1, -1⟩, ⟨-1, -1, 1⟩],
    [⟨1, -1, 0⟩, ⟨1, 1, 0⟩, ⟨0, 1, -1⟩, ⟨0, 1, 1⟩, ⟨-1, 0, 1⟩, ⟨1, 0, 1⟩]]

/-- `-W`. -/
def negMat (W : Mat3 ℤ) : Mat3 ℤ := W.map fun x => -x

/-- trace of an `n`-fold rotation. -/
def rotTrace : ℕ → ℤ
  | 1 => 3 | 2 => -1 | 3 => 0 | 4 => 1 | 6 => 2 | _ => 4

/-- `W` is the rotation by `360°/n` about `d`, anticlockwise. -/
def RotationAbout (W : Mat3 ℤ) (n : ℕ) (d : Vec3 ℤ) : Prop :=
  opType W = (1, rotTrace n) ∧ W * d = d ∧ (n ≤ 2 ∨ ∃ x, 0 < (Mat3.ofCols d x (W * x)).det)

section
variable {K : Type} [CommRing K]

/-- `(W, t)` is, in the conventional basis, one of the operations `ops` followed by a lattice translation.  The
columns of `M` are the vectors of the primitive cell, to which `ops` refer. -/
def ConvOp (ops : List (Oper K)) (M : Mat3 K) (W : Mat3 ℤ) (t : Vec3 K) : Prop :=
  ∃ o ∈ ops, ∃ l : Vec3 ℤ, InBasis M W o.1 ∧ t = M * (o.2 + l.map fun x : ℤ => (x : K))

/-- `t + W t + … + W^(n-1) t`: `n` times the intrinsic translation. -/
def orbitSum (W : Mat3 K) : ℕ → Vec3 K → Vec3 K
  | 0, _ => 0
  | n + 1, t => t + W * orbitSum W n t

/-- how many components vanish. -/
def zeros (v : Vec3 ℤ) : ℕ := [v.x, v.y, v.z].count 0

/-- the diagonal directions in the plane perpendicular to `d`: for an axis `d` the vectors `(0, f, ±f)`, for a face diagonal
`(1, -1, 0)` the vectors `(f, f, ±f)`, and so on. -/
def inPlaneDiagonals (f : ℤ) (d : Vec3 ℤ) : List (Vec3 ℤ) :=
  ([f, -f, 0].flatMap fun x => [f, -f, 0].flatMap fun y => [f, -f, 0].map fun z => (⟨x, y, z⟩ : Vec3 ℤ)).filter
    fun v => v.dot d = 0 ∧ zeros v = zeros d - 1

/-- the glide vectors (in quarters of the cell vectors) that a letter stands for: one of the lists, all its members.
`e` stands for two glides along different axes. -/
def glideSets (letter : Char) (d : Vec3 ℤ) : List (List (Vec3 ℤ)) :=
  match letter with
  | 'm' => [[⟨0, 0, 0⟩]]
  | 'a' => [[⟨2, 0, 0⟩]]
  | 'b' => [[⟨0, 2, 0⟩]]
  | 'c' => [[⟨0, 0, 2⟩]]
  | 'e' => [[⟨2, 0, 0⟩, ⟨0, 2, 0⟩], [⟨2, 0, 0⟩, ⟨0, 0, 2⟩], [⟨0, 2, 0⟩, ⟨0, 0, 2⟩]]
  | 'n' => (inPlaneDiagonals 2 d).map fun g => [g]
  | 'd' => (inPlaneDiagonals 1 d).map fun g => [g]
  | _ => []

end

section
variable {K : Type} [Field K]

/-- the element occurs along `d`. -/
def Present (ops : List (Oper K)) (M : Mat3 K) (d : Vec3 ℤ) : Element → Prop
  | .axis n k => ∃ W t, ConvOp ops M W t ∧ RotationAbout W n d ∧
      orbitSum (overK K W) n t = Vec3.scale (k : K) (d.map fun x : ℤ => (x : K))
  | .roto n => ∃ W t, ConvOp ops M W t ∧ RotationAbout (negMat W) n d
  | .plane c => ∃ S ∈ glideSets c d, ∀ g ∈ S, ∃ W t, ConvOp ops M W t ∧ RotationAbout (negMat W) 2 d ∧
      t + overK K W * t = g.map fun x : ℤ => (x : K) / 2

/-- no rotation, rotoinversion or reflection belongs to the direction `d` (the inversion belongs to none). -/
def NothingAlong (ops : List (Oper K)) (M : Mat3 K) (d : Vec3 ℤ) : Prop :=
  ∀ o ∈ ops, ∃ W, InBasis M W o.1 ∧ (W.det = 1 ∨ W.det = -1) ∧
    (W.det = 1 → W * d = d → W = 1) ∧ (W.det = -1 → negMat W * d = d → negMat W = 1)

/-- the component describes the directions: a `1` says that there is nothing, another component that all its elements
occur along one of the equivalent directions. -/
def ComponentFits (ops : List (Oper K)) (M : Mat3 K) (dirs : List (Vec3 ℤ)) (c : List Element) : Prop :=
  if c = [.axis 1 0] then ∀ d ∈ dirs, NothingAlong ops M d else ∃ d ∈ dirs, ∀ e ∈ c, Present ops M d e

/-- the crystal class named by a symbol without its lattice letter: screw components and setting symbols dropped, glide
planes replaced by `m`. -/
def classChars : List Char → List Char
  | [] => []
  | '_' :: _ :: r => classChars r
  | '-' :: c :: r => '-' :: c :: classChars r
  | '1' :: r => classChars r
  | 'H' :: r => classChars r
  | c :: r => (if c.isDigit || c == '/' then c else 'm') :: classChars r

/-- the usual spelling of the class. -/
def classSymbol (rest : List Char) : String :=
  let s := String.ofList (classChars rest)
  if s = "" then "1" else if s = "-4m2" then "-42m" else if s = "-62m" then "-6m2" else s

/-- the components after the lattice letter describe the operations `ops` of a group with number `num`.  Directions without
a component have no symmetry.  One more `1` may follow three components: it is the number of the origin choice, which
exists for groups with an inversion only. -/
structure SymbolFits (num : ℕ) (ops : List (Oper K)) (M : Mat3 K) (rest : List Char) : Prop where
  crystalClass : classOf num = some (classSymbol rest)
  extra : ∀ c ∈ (components rest).drop (directions num).length,
    c = [.axis 1 0] ∧ ∃ o ∈ ops, o.1 = negMat 1
  fits : ∀ p ∈ (directions num).zip (components rest), ComponentFits ops M p.1 p.2
  unnamed : ∀ dirs ∈ (directions num).drop (components rest).length, ∀ d ∈ dirs, NothingAlong ops M d

end

end CrystSymm.Spec
