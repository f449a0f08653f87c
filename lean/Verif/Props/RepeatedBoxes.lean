import Verif.Props.RepeatedCells
import Verif.Props.Unit

set_option autoImplicit false
set_option linter.unusedSectionVars false

/-! # C98: which repetitions are safe, and one that is not -/

namespace CrystSymm

open Spec Reducer SymmetryAnalyzer

section
variable {s : Structure ℝ} {n : ℕ}

/-- **C98 (safe repetitions).** Repeating a cell along an edge that is at least as long as the two others always leads back to a
primitive cell. -/
theorem C98_longest_edge (r : Reducer ℝ) (ord : List (String × ℕ) → List (String × ℕ)) (ho : ∀ l, (ord l).Perm l) (hn : 2 ≤ n)
    (h : (CentredCell s n (repeats n ⟨1, 0, 0⟩) r.dtol ∧ s.b ≤ s.a / n ∧ s.c ≤ s.a / n) ∨
      (CentredCell s n (repeats n ⟨0, 1, 0⟩) r.dtol ∧ s.a ≤ s.b / n ∧ s.c ≤ s.b / n) ∨
      (CentredCell s n (repeats n ⟨0, 0, 1⟩) r.dtol ∧ s.a ≤ s.c / n ∧ s.b ≤ s.c / n)) :
    ∃ s', r.findPrimitiveCell ord s = .ret s' ∧ SpansTranslations s s' ∧ s'.volume * n = s.volume := by
  have hn0 : (0 : ℝ) < n := by
    have : 0 < n := by omega
    exact_mod_cast this
  rcases h with ⟨h, h1, h2⟩ | ⟨h, h1, h2⟩ | ⟨h, h1, h2⟩
  · obtain ⟨p1, p2, p3⟩ := edge_pos h
    have hp : 0 < s.a / n := div_pos p1 hn0
    obtain ⟨s', e, -, k⟩ := C98_repeated_a r ord ho hn h
    refine ⟨s', e, k ?_⟩
    rintro (⟨-, hb | ⟨-, hb⟩⟩ | ⟨hb, -, -⟩) <;> linarith
  · obtain ⟨p1, p2, p3⟩ := edge_pos h
    have hp : 0 < s.b / n := div_pos p2 hn0
    obtain ⟨s', e, -, k⟩ := C98_repeated_b r ord ho hn h
    refine ⟨s', e, k ?_⟩
    rintro (⟨-, hb⟩ | ⟨hb, -, -⟩) <;> linarith
  · obtain ⟨p1, p2, p3⟩ := edge_pos h
    have hp : 0 < s.c / n := div_pos p3 hn0
    obtain ⟨s', e, -, k⟩ := C98_repeated_c r ord ho hn h
    refine ⟨s', e, k ?_⟩
    rintro (⟨-, hb⟩ | ⟨hb, -, -⟩) <;> linarith

end

theorem repeats_two (e : Vec3 ℤ) : repeats 2 e = [e] := by
  have : repeats 2 e = [Vec3.scale 1 e] := rfl
  rw [this, scale_one]

/-- **C98 is false of the code for other repetitions:** a tetragonal metal with one atom per lattice point, edges `a`, `a` and `c` and `c` at
least `2 a` is reported as 123 in its primitive cell. In the cell doubled along the first edge nothing is ever reported. -/
theorem C98_false_doubled (h : HashOrders ℝ) (hv : h.Valid) (atol a c : ℝ) (ha : 2 ≤ a) (hac : 2 * a ≤ c) (hc : c ≤ 100) :
    (∃ N, ∀ fuel ≥ N, ∃ sym ops, (⟨1 / 20, atol⟩ : SymmetryAnalyzer ℝ).getSpaceGroupInfo h fuel (metalCell (box a a c) 1 []) =
      .ret (123, sym, ops)) ∧
    ∀ fuel res, (⟨1 / 20, atol⟩ : SymmetryAnalyzer ℝ).getSpaceGroupInfo h fuel (metalCell (box (2 * a) a c) 2 [⟨1, 0, 0⟩]) ≠ .ret res := by
  have a0 : 0 < a := by linarith
  have c0 : 0 < c := by linarith
  constructor
  · obtain ⟨N, hN⟩ := C56_right_angles ⟨1 / 20, atol⟩ h hv (metalCell (box a a c) 1 []) "Fe"
      ⟨rfl, by simp [metalCell, Structure.new, gridPoint]; rfl⟩ a a c rfl le_rfl (by linarith) (by norm_num)
      (by show 24 * (1 / 20 : ℝ) ≤ a; linarith) (by show (1 / 20 : ℝ) < a * a; nlinarith)
      (by show (1 / 20 : ℝ) < a * a * c; nlinarith [mul_pos a0 a0]) (by linarith)
    refine ⟨N, fun fuel hf => ?_⟩
    obtain ⟨num, sym, ops, g1, -, g3, -⟩ := hN fuel hf
    obtain ⟨e1, e2⟩ := eps_bounds a0 (le_refl a) (show a ≤ c by linarith)
    have hne : ¬ |a ^ 2 - c ^ 2| ≤ eps tol1em5 (a * a * c) := by
      rw [not_le, abs_sub_comm, abs_of_nonneg (by nlinarith)]
      nlinarith
    rw [if_neg (fun hh => hne hh.2), sub_self, abs_zero, if_pos (Or.inl (le_trans (by positivity) e1)), Prod.mk.injEq] at g3
    obtain ⟨rfl, -⟩ := g3
    exact ⟨sym, ops, g1⟩
  · intro fuel
    have hcell := box_centred (a := 2 * a) (b := a) (c := c) (hs := [⟨1, 0, 0⟩]) (d := 1 / 20) (by unfold GridVecs; decide) (by simp)
      (by decide) (by norm_num) ⟨by linarith, by linarith⟩ ⟨ha, by linarith⟩ ⟨by linarith, hc⟩
    rw [← repeats_two] at hcell
    obtain ⟨s', e, k, -⟩ := C98_repeated_a (⟨1 / 20, atol⟩ : SymmetryAnalyzer ℝ).reducer h.minEle hv.minEle le_rfl hcell
    rw [repeats_two] at e k
    obtain ⟨ea, eb, ec⟩ := box_lengths (a := 2 * a) (b := a) (c := c) (N := 2) (hs := [⟨1, 0, 0⟩]) (by linarith) a0.le c0.le
    rw [ea, eb, ec] at k
    refine C79_no_answer _ h fuel _ s' e (k (Or.inl ⟨?_, ?_⟩))
    · push_cast; linarith
    · unfold Spec.Sooner
      push_cast
      rcases hac.lt_or_eq with hh | hh
      · exact Or.inl (by linarith)
      · exact Or.inr ⟨trivial, by linarith⟩

/-- a cell of 3 x 3 x 7 is such a crystal. -/
example (h : HashOrders ℝ) (hv : h.Valid) (fuel : ℕ) : ∀ res,
    (⟨1 / 20, 5⟩ : SymmetryAnalyzer ℝ).getSpaceGroupInfo h fuel (metalCell (box (2 * 3) 3 7) 2 [⟨1, 0, 0⟩]) ≠ .ret res :=
  (C98_false_doubled h hv 5 3 7 (by norm_num) (by norm_num) (by norm_num)).2 fuel

/-- three layers: a cell of 4 x 5 x 6 repeated along the third edge gives a primitive cell, one of 6 x 5 x 2 a cell without volume. -/
example (r : Reducer ℝ) (hd : r.dtol = 1 / 100) :
    (∃ s', r.findPrimitiveCell id (metalCell (box 4 5 18) 3 [⟨0, 0, 1⟩, ⟨0, 0, 2⟩]) = .ret s' ∧
      SpansTranslations (metalCell (box 4 5 18) 3 [⟨0, 0, 1⟩, ⟨0, 0, 2⟩]) s' ∧ s'.volume * 3 = 360) ∧
    ∃ s', r.findPrimitiveCell id (metalCell (box 6 5 6) 3 [⟨0, 0, 1⟩, ⟨0, 0, 2⟩]) = .ret s' ∧ s'.volume = 0 := by
  have cell : ∀ a b c : ℝ, 4 ≤ a → a ≤ 18 → 4 ≤ b → b ≤ 18 → 4 ≤ c → c ≤ 18 →
      CentredCell (metalCell (box a b c) 3 (repeats 3 ⟨0, 0, 1⟩)) 3 (repeats 3 ⟨0, 0, 1⟩) r.dtol := by
    intro a b c a1 a2 b1 b2 c1 c2
    obtain ⟨ea, eb, ec⟩ := box_lengths (a := a) (b := b) (c := c) (N := 3) (hs := repeats 3 ⟨0, 0, 1⟩) (by linarith) (by linarith) (by linarith)
    have hdet : (box a b c).det = a * b * c := by simp [box, Mat3.det]; ring
    have hfrob : frob (box a b c) = a ^ 2 + b ^ 2 + c ^ 2 := by
      simp [frob, lenSq, box, Mat3.col0, Mat3.col1, Mat3.col2]; ring
    have hV : 64 ≤ a * b * c := by
      have : 16 ≤ a * b := by nlinarith
      nlinarith
    have hF : a ^ 2 + b ^ 2 + c ^ 2 ≤ 972 := by nlinarith
    have hF0 : 0 ≤ a ^ 2 + b ^ 2 + c ^ 2 := by positivity
    refine metal_centred (by unfold GridVecs; decide) (by decide) (by decide) (by rw [hd]; norm_num) ?_ ?_ ?_ ?_
    · rw [ea, eb, ec, hd]; push_cast; exact ⟨by linarith, by linarith, by linarith⟩
    · rw [hdet, hfrob]; nlinarith
    · rw [hdet, hfrob, hd]; push_cast; nlinarith
    · rw [hdet, hd]; push_cast; linarith
  have e3 : repeats 3 (⟨0, 0, 1⟩ : Vec3 ℤ) = [⟨0, 0, 1⟩, ⟨0, 0, 2⟩] := by decide
  constructor
  · have hc := cell 4 5 18 (by norm_num) (by norm_num) (by norm_num) (by norm_num) (by norm_num) (by norm_num)
    obtain ⟨ea, eb, ec⟩ := box_lengths (a := 4) (b := 5) (c := 18) (N := 3) (hs := repeats 3 ⟨0, 0, 1⟩) (by norm_num) (by norm_num) (by norm_num)
    obtain ⟨s', e, k1, k2⟩ := C98_longest_edge r id (fun _ => List.Perm.refl _) (by norm_num)
      (Or.inr (Or.inr ⟨hc, by rw [ea, ec]; norm_num, by rw [eb, ec]; norm_num⟩))
    rw [e3] at e k1 k2
    refine ⟨s', e, k1, ?_⟩
    push_cast at k2
    rw [k2]
    norm_num [Structure.volume, metalCell, Structure.new, box, Mat3.det]
  · have hc := cell 6 5 6 (by norm_num) (by norm_num) (by norm_num) (by norm_num) (by norm_num) (by norm_num)
    obtain ⟨ea, eb, ec⟩ := box_lengths (a := 6) (b := 5) (c := 6) (N := 3) (hs := repeats 3 ⟨0, 0, 1⟩) (by norm_num) (by norm_num) (by norm_num)
    obtain ⟨s', e, k, -⟩ := C98_repeated_c r id (fun _ => List.Perm.refl _) (by norm_num) hc
    rw [ea, eb, ec] at k
    rw [e3] at e
    exact ⟨s', e, k (Or.inr ⟨by norm_num, by norm_num, by norm_num⟩)⟩

/-- two layers along the second edge: a cell of 5 x 6 x 8 is found again, one of 7 x 3 x 8 is not. -/
example (r : Reducer ℝ) (hd : r.dtol = 1 / 20) :
    (∃ s', r.findPrimitiveCell id (metalCell (box 5 12 8) 2 [⟨0, 1, 0⟩]) = .ret s' ∧ s'.volume * 2 = 480) ∧
    ∃ s', r.findPrimitiveCell id (metalCell (box 7 6 8) 2 [⟨0, 1, 0⟩]) = .ret s' ∧ s'.volume = 0 := by
  constructor
  · have hcell := box_centred (a := 5) (b := 12) (c := 8) (hs := [⟨0, 1, 0⟩]) (d := r.dtol) (by unfold GridVecs; decide) (by simp)
      (by decide) (by rw [hd]; norm_num) (by norm_num) (by norm_num) (by norm_num)
    rw [← repeats_two] at hcell
    obtain ⟨s', e, -, k⟩ := C98_repeated_b r id (fun _ => List.Perm.refl _) le_rfl hcell
    rw [repeats_two] at e k
    obtain ⟨ea, eb, ec⟩ := box_lengths (a := 5) (b := 12) (c := 8) (N := 2) (hs := [⟨0, 1, 0⟩]) (by norm_num) (by norm_num) (by norm_num)
    rw [ea, eb, ec] at k
    refine ⟨s', e, ?_⟩
    have := (k (by rintro (⟨h, -⟩ | ⟨h, -, -⟩) <;> norm_num at h)).2
    push_cast at this
    rw [this]
    norm_num [Structure.volume, metalCell, Structure.new, box, Mat3.det]
  · have hcell := box_centred (a := 7) (b := 6) (c := 8) (hs := [⟨0, 1, 0⟩]) (d := r.dtol) (by unfold GridVecs; decide) (by simp)
      (by decide) (by rw [hd]; norm_num) (by norm_num) (by norm_num) (by norm_num)
    rw [← repeats_two] at hcell
    obtain ⟨s', e, k, -⟩ := C98_repeated_b r id (fun _ => List.Perm.refl _) le_rfl hcell
    rw [repeats_two] at e k
    obtain ⟨ea, eb, ec⟩ := box_lengths (a := 7) (b := 6) (c := 8) (N := 2) (hs := [⟨0, 1, 0⟩]) (by norm_num) (by norm_num) (by norm_num)
    rw [ea, eb, ec] at k
    exact ⟨s', e, k (Or.inr ⟨by norm_num, by norm_num, Or.inl (by norm_num)⟩)⟩

end CrystSymm
