import Verif.Props.Blocks

set_option autoImplicit false
set_option linter.unusedSectionVars false

/-! # C101: blocks of eight boxes -/

namespace CrystSymm

open Spec Reducer SymmetryAnalyzer

theorem box_acute {a b c : ℝ} {N : ℕ} {hs : List (Vec3 ℤ)} : AcuteOrRight (metalCell (box a b c) N hs) := by
  simp [AcuteOrRight, metalCell, Structure.new, box, Mat3.col0, Mat3.col1, Mat3.col2, Vec3.dot]

/-- eight boxes with one atom each. -/
noncomputable def eightBoxes (a b c : ℝ) : Structure ℝ := metalCell (box (2 * a) (2 * b) (2 * c)) (2 * 2 * 2) (blocks 2 2 2)

theorem eight_lengths {a b c : ℝ} (ha : 0 ≤ a) (hb : 0 ≤ b) (hc : 0 ≤ c) : (eightBoxes a b c).a / (2 : ℕ) = a ∧
    (eightBoxes a b c).b / (2 : ℕ) = b ∧ (eightBoxes a b c).c / (2 : ℕ) = c := by
  obtain ⟨ea, eb, ec⟩ := box_lengths (a := 2 * a) (b := 2 * b) (c := 2 * c) (N := 2 * 2 * 2) (hs := blocks 2 2 2) (by linarith) (by linarith)
    (by linarith)
  unfold eightBoxes
  rw [ea, eb, ec]
  push_cast
  exact ⟨by ring, by ring, by ring⟩

theorem eight_centred {a b c d : ℝ} (hd : d = 1 / 100) (ha : 2 ≤ a ∧ a ≤ 20) (hb : 2 ≤ b ∧ b ≤ 20) (hc : 2 ≤ c ∧ c ≤ 20) :
    CentredCell (eightBoxes a b c) (2 * 2 * 2) (blocks 2 2 2) d := by
  obtain ⟨a1, a2⟩ := ha
  obtain ⟨b1, b2⟩ := hb
  obtain ⟨c1, c2⟩ := hc
  obtain ⟨ea, eb, ec⟩ := box_lengths (a := 2 * a) (b := 2 * b) (c := 2 * c) (N := 2 * 2 * 2) (hs := blocks 2 2 2) (by linarith) (by linarith)
    (by linarith)
  have hdet : (box (2 * a) (2 * b) (2 * c)).det = 8 * (a * b * c) := by simp [box, Mat3.det]; ring
  have hfrob : frob (box (2 * a) (2 * b) (2 * c)) = 4 * (a ^ 2 + b ^ 2 + c ^ 2) := by
    simp [frob, lenSq, box, Mat3.col0, Mat3.col1, Mat3.col2]; ring
  have hV : 8 ≤ a * b * c := by
    have : 4 ≤ a * b := by nlinarith
    nlinarith
  have hF : a ^ 2 + b ^ 2 + c ^ 2 ≤ 1200 := by nlinarith
  have hF0 : 0 ≤ a ^ 2 + b ^ 2 + c ^ 2 := by positivity
  have hV2 : 64 ≤ (a * b * c) ^ 2 := by nlinarith
  refine metal_centred (by unfold GridVecs; decide +kernel) (by decide +kernel) (by unfold CentringGroup; decide +kernel) (by rw [hd]; norm_num) ?_ ?_ ?_ ?_
  · rw [ea, eb, ec, hd]; push_cast; exact ⟨by linarith, by linarith, by linarith⟩
  · rw [hdet, hfrob]; nlinarith
  · rw [hdet, hfrob, hd]; push_cast; nlinarith
  · rw [hdet, hd]; push_cast; linarith

/-- **C101 is false of the code, at the level of the space group:** nothing is ever reported for eight boxes `a × b × c` with
`b < a < c` and `2 b < c`, whatever the hash orders. The primitive cell of the same crystal with the edges `b × a × c` is found. -/
theorem C101_false_no_group (h : HashOrders ℝ) (hv : h.Valid) (atol a b c : ℝ) (hb : 2 ≤ b) (hba : b < a) (hac : a < c) (hbc : 2 * b < c)
    (hc : c ≤ 20) :
    (∀ fuel res, (⟨1 / 100, atol⟩ : SymmetryAnalyzer ℝ).getSpaceGroupInfo h fuel (eightBoxes a b c) ≠ .ret res) ∧
    ∃ s', (⟨1 / 100, atol⟩ : SymmetryAnalyzer ℝ).reducer.findPrimitiveCell h.minEle (eightBoxes b a c) = .ret s' ∧
      SpansTranslations (eightBoxes b a c) s' ∧ s'.volume = a * b * c := by
  constructor
  · intro fuel
    obtain ⟨ea, eb, ec⟩ := eight_lengths (a := a) (b := b) (c := c) (by linarith) (by linarith) (by linarith)
    obtain ⟨s', e, hv'⟩ := C101_false_left_handed (⟨1 / 100, atol⟩ : SymmetryAnalyzer ℝ).reducer h.minEle hv.minEle (n1 := 2) (n2 := 2) (n3 := 2)
      (by norm_num) (by norm_num) (by norm_num)
      (eight_centred (a := a) (b := b) (c := c) rfl ⟨by linarith, by linarith⟩ ⟨hb, by linarith⟩ ⟨by linarith, hc⟩) box_acute
      (Or.inl ⟨le_rfl, by rw [ea, eb]; exact hba, by rw [ea, ec]; exact hac, by rw [eb, ec]; exact hbc⟩)
    exact C79_no_answer _ h fuel _ s' e hv'
  · obtain ⟨ea, eb, ec⟩ := eight_lengths (a := b) (b := a) (c := c) (by linarith) (by linarith) (by linarith)
    obtain ⟨s', e, k1, k2⟩ := C101_right_handed (⟨1 / 100, atol⟩ : SymmetryAnalyzer ℝ).reducer h.minEle hv.minEle (n1 := 2) (n2 := 2) (n3 := 2)
      (by norm_num) (by norm_num) (by norm_num)
      (eight_centred (a := b) (b := a) (c := c) rfl ⟨hb, by linarith⟩ ⟨by linarith, by linarith⟩ ⟨by linarith, hc⟩) box_acute
      (Or.inl ⟨by rw [ea, eb]; exact hba, by rw [eb, ec]; exact hac⟩)
    refine ⟨s', e, k1, ?_⟩
    have : (eightBoxes b a c).volume = 8 * (a * b * c) := by
      simp [Structure.volume, eightBoxes, metalCell, Structure.new, box, Mat3.det]; ring
    rw [this] at k2
    push_cast at k2
    linarith

/-- a box of 4 x 3 x 7 is such a crystal. -/
example (h : HashOrders ℝ) (hv : h.Valid) (fuel : ℕ) : ∀ res,
    (⟨1 / 100, 5⟩ : SymmetryAnalyzer ℝ).getSpaceGroupInfo h fuel (eightBoxes 4 3 7) ≠ .ret res :=
  (C101_false_no_group h hv 5 4 3 7 (by norm_num) (by norm_num) (by norm_num) (by norm_num) (by norm_num)).1 fuel

/-- eight cubes are reduced to one, and so are eight boxes of 5 x 4 x 4.5, whose order is left-handed. -/
example (r : Reducer ℝ) (hd : r.dtol = 1 / 100) : (∃ s', r.findPrimitiveCell id (eightBoxes 3 3 3) = .ret s' ∧ s'.volume * 8 = (eightBoxes 3 3 3).volume) ∧
    ∃ s', r.findPrimitiveCell id (eightBoxes 5 4 (9 / 2)) = .ret s' ∧ s'.volume * 8 = (eightBoxes 5 4 (9 / 2)).volume := by
  have key : ∀ a b c : ℝ, (2 ≤ a ∧ a ≤ 20) → (2 ≤ b ∧ b ≤ 20) → (2 ≤ c ∧ c ≤ 20) → (∀ x ∈ [a, b, c], ∀ y ∈ [a, b, c], x ^ 2 < 2 * y ^ 2) →
      ∃ s', r.findPrimitiveCell id (eightBoxes a b c) = .ret s' ∧ s'.volume * 8 = (eightBoxes a b c).volume := by
    intro a b c ha hb hc hh
    obtain ⟨ea, eb, ec⟩ := eight_lengths (a := a) (b := b) (c := c) (by linarith) (by linarith) (by linarith)
    obtain ⟨s', e, -, k⟩ := C101_compact r id (fun _ => List.Perm.refl _) (n1 := 2) (n2 := 2) (n3 := 2) (by norm_num) (by norm_num)
      (by norm_num) (eight_centred (a := a) (b := b) (c := c) hd ha hb hc) box_acute (by rw [ea, eb, ec]; exact hh)
    exact ⟨s', e, by rw [← k]; norm_num⟩
  constructor
  · exact key 3 3 3 (by norm_num) (by norm_num) (by norm_num) (by simp)
  · exact key 5 4 (9 / 2) (by norm_num) (by norm_num) (by norm_num) (by simp; norm_num)

/-- the translations of eight boxes. -/
example : blocks 2 2 2 = [⟨0, 0, 4⟩, ⟨0, 4, 0⟩, ⟨0, 4, 4⟩, ⟨4, 0, 0⟩, ⟨4, 0, 4⟩, ⟨4, 4, 0⟩, ⟨4, 4, 4⟩] ∧
    blocks 2 1 3 = [⟨0, 0, 2⟩, ⟨0, 0, 4⟩, ⟨3, 0, 0⟩, ⟨3, 0, 2⟩, ⟨3, 0, 4⟩] := by decide +kernel

end CrystSymm
