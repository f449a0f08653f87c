import Verif.Props.Generators

/-! # C55: the translations of generated operations -/

set_option autoImplicit false
set_option linter.unusedSectionVars false

namespace CrystSymm

open Spec SpaceGroup

section
variable {K : Type} [Field K] [LinearOrder K] [IsStrictOrderedRing K] [FloorRing K]

/-- **C55.** Every operation returned by `from_generators` that is not one of the generators has each translation
component between `-tol` and `1 - tol`. -/
theorem C55_generated_translations_in_cell (fuel : ℕ) (gens ops : List (SymmOp K)) (tols : Vec3 K)
    (hx : 0 ≤ tols.x ∧ tols.x ≤ 1) (hy : 0 ≤ tols.y ∧ tols.y ≤ 1) (hz : 0 ≤ tols.z ∧ tols.z ≤ 1)
    (h : fromGenerators fuel gens tols = .ret ops) :
    ∀ o ∈ ops, o ∉ gens →
      (-tols.x ≤ o.translation.x ∧ o.translation.x ≤ 1 - tols.x) ∧
      (-tols.y ≤ o.translation.y ∧ o.translation.y ≤ 1 - tols.y) ∧
      (-tols.z ≤ o.translation.z ∧ o.translation.z ≤ 1 - tols.z) := by
  intro o ho hng
  cases (C37_contains_generators_partial fuel gens ops tols h).2 o ho with
  | gen hg => exact absurd hg hng
  | prod => exact ⟨normComp_mem hx.1 hx.2 _, normComp_mem hy.1 hy.2 _, normComp_mem hz.1 hz.2 _⟩

end

/-- the hypotheses hold for `p4122Gens`, and one of the operations found has the translation `(0, 0, 3/4)`. -/
example : fromGenerators 10 p4122Gens ⟨1 / 100, 1 / 100, 1 / 100⟩ = .ret p4122Ops ∧
    ∃ o ∈ p4122Ops, o ∉ p4122Gens ∧ o.translation = ⟨0, 0, 3 / 4⟩ := by
  refine ⟨C37_false_not_closed.1, ⟨⟨0, 1, 0, 1, 0, 0, 0, 0, -1⟩, ⟨0, 0, 3 / 4⟩⟩, by simp [p4122Ops], ?_, rfl⟩
  simp only [p4122Gens, List.mem_cons, List.not_mem_nil, or_false, not_or]
  constructor <;> intro h <;> injection h with h1 h2 <;> revert h1 <;> decide

end CrystSymm
