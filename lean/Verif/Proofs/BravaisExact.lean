import Verif.Proofs.BravaisEntry

set_option autoImplicit false
set_option linter.unusedSectionVars false
set_option linter.unusedSimpArgs false
set_option linter.unusedTactic false
set_option linter.unreachableTactic false

/-! # The exact shape of the conventional cell, from the character found -/

namespace CrystSymm.NiggliCert

open Spec NiggliMin SymmetryAnalyzer Reducer PointGroup

section
variable {K : Type} [Field K] [LinearOrder K] [IsStrictOrderedRing K] [FloorRing K]

set_option hygiene false in
/-- one line of the table: the forms that vanish give the shape. -/
macro "shape_line" t:term:max : tactic => `(tactic| (
  simp only [Option.some.injEq, Prod.mk.injEq] at hE
  obtain ⟨rfl, rfl⟩ := hE
  simp only [allZero_cons, allZero_nil, and_true, Form.eval, sixP] at hz
  try push_cast at hz
  apply ($t) (le_refl (0 : K)) <;> rw [abs_le] <;> constructor <;> linarith))

set_option maxHeartbeats 4000000 in
theorem shape_exact {ε a b c d e f : K} {ch : ℕ} (hA : 0 < a)
    (hn : NiggliParams 0 a b c (2 * d) (2 * e) (2 * f)) (hr : Resolved ε a b c d e f)
    (h : characterOf (some ε) a b c d e f = .ret ch) : ConvShape ch (100 * 0) a b c d e f := by
  obtain ⟨cs, t, i, E, hcs, hsys, hedge, hE, hz, -⟩ := entry_of_character hA hn hr h
  obtain ⟨bA, bB, bC, bX, bY, bZ⟩ := base_eval (sixP a b c d e f)
  rcases hcs with rfl | rfl | rfl | rfl <;> cases t <;>
    simp only [edgeFacts, List.forall_mem_cons, FactHolds, Form.eval_sub, bA, bB, bC] at hedge <;>
    simp only [sixP] at hedge <;> obtain ⟨g1, g2, -⟩ := hedge <;> unfold charEntries at hE
  · match i, hE with
    | 0, hE => shape_line shape_3
    | 1, hE => shape_line shape_5
    | 2, hE => shape_line shape_4
    | 3, hE => shape_line shape_6
    | 4, hE => shape_line shape_7
    | 5, hE => shape_line shape_8
    | n + 6, hE => simp at hE
  · match i, hE with
    | 0, hE => shape_line shape_1
    | 1, hE => shape_line shape_2
    | n + 2, hE => simp at hE
  · match i, hE with
    | 0, hE => shape_line shape_11
    | 1, hE => shape_line shape_12
    | 2, hE => shape_line shape_13
    | 3, hE => shape_line shape_15
    | 4, hE => shape_line shape_16
    | 5, hE => shape_line shape_14
    | 6, hE => shape_line shape_17
    | n + 7, hE => simp at hE
  · match i, hE with
    | 0, hE => shape_line shape_9
    | 1, hE => shape_line shape_10
    | n + 2, hE => simp at hE
  · match i, hE with
    | 0, hE => shape_line shape_21
    | 1, hE => shape_line shape_22
    | 2, hE => shape_line shape_23
    | 3, hE => shape_line shape_24
    | 4, hE => shape_line shape_25
    | n + 5, hE => simp at hE
  · match i, hE with
    | 0, hE => shape_line shape_18
    | 1, hE => shape_line shape_19
    | 2, hE => shape_line shape_20
    | n + 3, hE => simp at hE
  · match i, hE with
    | 0, hE => shape_line shape_32
    | 1, hE => shape_line shape_40
    | 2, hE => shape_line shape_35
    | 3, hE => shape_line shape_36
    | 4, hE => shape_line shape_33
    | 5, hE => shape_line shape_38
    | 6, hE => shape_line shape_34
    | 7, hE => shape_line shape_42
    | 8, hE => shape_line shape_41
    | 9, hE => shape_line shape_37
    | 10, hE => shape_line shape_39
    | 11, hE => shape_line shape_43
    | 12, hE => shape_line shape_44
    | n + 13, hE => simp at hE
  · match i, hE with
    | 0, hE => shape_line shape_26
    | 1, hE => shape_line shape_27
    | 2, hE => shape_line shape_28
    | 3, hE => shape_line shape_29
    | 4, hE => shape_line shape_30
    | 5, hE => shape_line shape_31
    | n + 6, hE => simp at hE

end

end CrystSymm.NiggliCert
