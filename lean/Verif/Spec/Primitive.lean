import Verif.Spec.Crystal
import Verif.Spec.Lattice

set_option autoImplicit false

/-! # Specification of translations of a crystal -/

namespace CrystSymm.Spec

/-- the fractional vector `t` maps every site onto a site of the same species, up to lattice vectors and a
distance of at most `δ`. -/
def TranslationWithin (s : Structure ℝ) (δ : ℝ) (t : Vec3 ℝ) : Prop :=
  ∀ p ∈ sites s, ∃ q ∈ sites s, q.1 = p.1 ∧
    ∃ d, SamePoint d (p.2 + t - q.2) ∧ lenSq (s.lattice * d) ≤ δ * δ

/-- `e` occurs in the structure, and no element occurs less often. -/
def Rarest (s : Structure ℝ) (e : String) : Prop :=
  e ∈ s.species ∧ ∀ e' ∈ s.species, s.species.count e ≤ s.species.count e'

/-- the cell is primitive, with a margin: there are sites, and the vector between two sites of a rarest element never is
a translation of the crystal within the distance `δ`. -/
def NoTranslation (s : Structure ℝ) (δ : ℝ) : Prop :=
  s.species ≠ [] ∧ (sites s).Pairwise fun x y => x.1 = y.1 → Rarest s x.1 →
    ¬ TranslationWithin s δ (y.2 - x.2) ∧ ¬ TranslationWithin s δ (x.2 - y.2)

/-- `u` is an integer combination of three vectors of which each satisfies `P`. -/
def IntCombOf (P : Vec3 ℝ → Prop) (u : Vec3 ℝ) : Prop :=
  ∃ t₁ t₂ t₃ : Vec3 ℝ, P t₁ ∧ P t₂ ∧ P t₃ ∧ ∃ n₁ n₂ n₃ : ℤ,
    u = ⟨n₁ * t₁.x + n₂ * t₂.x + n₃ * t₃.x, n₁ * t₁.y + n₂ * t₂.y + n₃ * t₃.y,
      n₁ * t₁.z + n₂ * t₂.z + n₃ * t₃.z⟩

end CrystSymm.Spec
