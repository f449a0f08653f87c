import Verif.Proofs.BravaisSymm

set_option autoImplicit false
set_option linter.unusedSectionVars false

/-! # The symmetries of an exact Niggli cell, from the character found -/

namespace CrystSymm.NiggliCert

open Spec NiggliMin SymmetryAnalyzer Reducer PointGroup

section
variable {K : Type} [Field K] [LinearOrder K] [IsStrictOrderedRing K] [FloorRing K]

/-- the correction of the number at the end. -/
def charAdj (ε a b d e f : K) (n : ℕ) : ℕ :=
  if n = 14 ∧ extraEvalA a b d e f (some ε) = true then n + 2
  else if n = 44 ∧ extraEvalB a b d e f (some ε) = true then n - 1 else n

theorem characterOf_find {ε a b c d e f : K} {ch : ℕ} (h : characterOf (some ε) a b c d e f = .ret ch) :
    ∃ p, (charVecs (some ε) a b c d e f).find? (fun p => defMatches (some ε) p.1 ⟨d, e, f⟩) = some p ∧
      ch = charAdj ε a b d e f p.2 := by
  unfold characterOf at h
  simp only at h
  rcases hf : (charVecs (some ε) a b c d e f).find? (fun p => defMatches (some ε) p.1 ⟨d, e, f⟩) with _ | p
  · unfold charVecs at hf
    rw [hf] at h
    simp at h
  · refine ⟨p, hf, ?_⟩
    unfold charVecs at hf
    rw [hf] at h
    simp only [Option.map_some, Option.getD_some] at h
    unfold charAdj
    split_ifs at h ⊢ <;> first | exact (Outcome.ret.inj h).symm | cases h

theorem entry_of_character {ε a b c d e f : K} {ch : ℕ} (hA : 0 < a)
    (hn : NiggliParams 0 a b c (2 * d) (2 * e) (2 * f)) (hr : Resolved ε a b c d e f)
    (h : characterOf (some ε) a b c d e f = .ret ch) :
    ∃ cs t i E, (cs = 1 ∨ cs = 2 ∨ cs = 3 ∨ cs = 4) ∧ SysHolds t base (sixP a b c d e f) ∧
      (∀ x ∈ edgeFacts cs, FactHolds (sixP a b c d e f) x) ∧ (charEntries cs t)[i]? = some (E, ch) ∧
      AllZero (sixP a b c d e f) E ∧ ∀ q ∈ (charEntries cs t).take i, ¬ AllZero (sixP a b c d e f) q.1 := by
  have hε := hr.1
  obtain ⟨p, hf, rfl⟩ := characterOf_find h
  obtain ⟨bA, bB, bC, bX, bY, bZ⟩ := base_eval (sixP a b c d e f)
  obtain ⟨t, hsys, hI, hII⟩ := sysHolds_of (f := base) (g := sixP a b c d e f) (by rw [bA]; exact hA)
    (by rw [bA, bB, bC, bX, bY, bZ]; exact hn)
  rw [bX, bY, bZ] at hI hII
  simp only [sixP] at hI hII
  have pos : ∀ x : K, x ∈ comparisons a b c d e f → 0 < x → ε ≤ x := by
    intro x hx h0
    by_contra hc
    have := hr.2 x hx (by rw [abs_of_pos h0]; exact (not_le.1 hc).le)
    exact h0.ne' this
  have ht : isTypeI (some ε) [d, e, f] = t := by
    cases t
    · obtain ⟨x1, x2, x3⟩ := hII rfl
      rw [← Bool.not_eq_true, isTypeI_iff hε.le]
      rintro (⟨y1, -, -⟩ | ⟨-, -, y3⟩ | ⟨-, y2, -⟩ | ⟨y1, -, -⟩) <;> linarith
    · obtain ⟨x1, x2, x3⟩ := hI rfl
      rw [isTypeI_iff hε.le]
      left
      exact ⟨pos d (by simp [comparisons]) (by linarith), pos e (by simp [comparisons]) (by linarith),
        pos f (by simp [comparisons]) (by linarith)⟩
  have eab : eqE (some ε) a b = true ↔ a = b := eqE_exact hε (hr.zero (by simp [comparisons]))
  have eac : eqE (some ε) a c = true ↔ a = c := eqE_exact hε (hr.zero (by simp [comparisons]))
  have ebc : eqE (some ε) b c = true ↔ b = c := eqE_exact hε (hr.zero (by simp [comparisons]))
  have hab : a ≤ b := by simpa using hn.ab
  have hbc : b ≤ c := by simpa using hn.bc
  have hφ : ∀ q : Vec3 K × ℕ, (fun q : Vec3 K × ℕ => defMatches (some ε) q.1 ⟨d, e, f⟩) q = true ↔ Hit ε d e f q.1 :=
    fun q => Iff.rfl
  have absE : ∀ x : K, (FRound.abs x : K) = |x| := fun _ => rfl
  -- the extra conditions
  have hEA : t = false → (extraEvalA a b d e f (some ε) = true ↔ a + b + 2 * d + 2 * e + 2 * f = 0) := by
    intro h
    obtain ⟨x1, x2, x3⟩ := hII h
    unfold extraEvalA
    rw [absE, l2, eqE_exact hε (hr.zero (by simp [comparisons])), abs_of_nonpos (by linarith)]
    constructor <;> intro h <;> linarith
  have hEB : t = false → (extraEvalB a b d e f (some ε) = true ↔
      a + b + 2 * d + 2 * e + 2 * f = 0 ∧ 2 * b + 4 * d + 2 * f = 0) := by
    intro h
    obtain ⟨x1, x2, x3⟩ := hII h
    have := hEA h
    unfold extraEvalA at this
    unfold extraEvalB
    rw [Bool.and_eq_true, this, absE (lit 2 * d + f), l2, eqE_exact hε (hr.zero (by simp [comparisons])),
      abs_of_nonpos (show 2 * d + f ≤ 0 by linarith)]
    refine and_congr Iff.rfl ?_
    constructor <;> intro h <;> linarith
  have hadj : ∀ n, n ≠ 14 → n ≠ 44 → charAdj ε a b d e f n = n := by
    intro n h1 h2
    unfold charAdj
    rw [if_neg (fun h => h1 h.1), if_neg (fun h => h2 h.1)]
  unfold charVecs at hf
  rw [ht] at hf
  split_ifs at hf with c1 c2 c3
  · rw [Bool.and_eq_true, eab, eac] at c1
    have hpar : Parallel (Hit ε d e f) (charAdj ε a b d e f) (sixP a b c d e f) (getFirstSet t a b d e f (some ε))
        (charEntries 1 t) := by
      cases t
      · by_cases hE : extraEvalA a b d e f (some ε) = true
        · exact first_II_pos hr hadj hE ((hEA rfl).1 hE)
        · exact first_II_neg hr hadj hE fun h => hE ((hEA rfl).2 h)
      · exact first_I hr hadj
    obtain ⟨i, E, e1, e2, e3⟩ := hpar.found hφ hf
    refine ⟨1, t, i, E, by simp, hsys, ?_, e1, e2, e3⟩
    simp only [edgeFacts, List.forall_mem_cons, FactHolds, Form.eval_sub, bA, bB, bC]
    simp only [sixP]
    exact ⟨by linarith [c1.1], by linarith [c1.1, c1.2], fun _ h => by cases h⟩
  · rw [eab] at c2
    rw [Bool.and_eq_true, eab, eac] at c1
    have hpar : Parallel (Hit ε d e f) (charAdj ε a b d e f) (sixP a b c d e f) (getSecondSet t a b d e f (some ε))
        (charEntries 2 t) := by
      cases t
      · by_cases hE : extraEvalA a b d e f (some ε) = true
        · exact second_II_pos hr hadj (by unfold charAdj; rw [if_pos ⟨rfl, hE⟩]) hE ((hEA rfl).1 hE)
        · exact second_II_neg hr hadj (by
            unfold charAdj; rw [if_neg (fun h => hE h.2), if_neg (fun h => absurd h.1 (by decide))]) hE
            fun h => hE ((hEA rfl).2 h)
      · exact second_I hr hadj
    obtain ⟨i, E, e1, e2, e3⟩ := hpar.found hφ hf
    refine ⟨2, t, i, E, by simp, hsys, ?_, e1, e2, e3⟩
    simp only [edgeFacts, List.forall_mem_cons, FactHolds, Form.eval_sub, bA, bB, bC]
    simp only [sixP]
    refine ⟨by linarith [c2], sub_pos.2 (lt_of_le_of_ne hbc fun h => c1 ⟨c2, c2.trans h⟩), fun _ h => by cases h⟩
  · rw [eab] at c2
    rw [ebc] at c3
    have hpar : Parallel (Hit ε d e f) (charAdj ε a b d e f) (sixP a b c d e f) (getThirdSet t a b d e f (some ε))
        (charEntries 3 t) := by
      cases t
      · by_cases hE : extraEvalA a b d e f (some ε) = true
        · exact third_II_pos hr hadj hE ((hEA rfl).1 hE)
        · exact third_II_neg hr hadj hE fun h => hE ((hEA rfl).2 h)
      · exact third_I hr hadj
    obtain ⟨i, E, e1, e2, e3⟩ := hpar.found hφ hf
    refine ⟨3, t, i, E, by simp, hsys, ?_, e1, e2, e3⟩
    simp only [edgeFacts, List.forall_mem_cons, FactHolds, Form.eval_sub, bA, bB, bC]
    simp only [sixP]
    refine ⟨sub_pos.2 (lt_of_le_of_ne hab c2), by linarith [c3], fun _ h => by cases h⟩
  · rw [eab] at c2
    rw [ebc] at c3
    have hpar : Parallel (Hit ε d e f) (charAdj ε a b d e f) (sixP a b c d e f) (getFourthSet t a b d e f)
        (charEntries 4 t) := by
      cases t
      · refine fourth_II hr hadj (hEB rfl) (fun h => ?_) fun h => ?_
        · unfold charAdj
          rw [if_neg (fun h => absurd h.1 (by decide)), if_pos ⟨rfl, h⟩]
        · unfold charAdj
          rw [if_neg (fun h => absurd h.1 (by decide)), if_neg (fun h' => h h'.2)]
      · exact fourth_I hr hadj
    obtain ⟨i, E, e1, e2, e3⟩ := hpar.found hφ hf
    refine ⟨4, t, i, E, by simp, hsys, ?_, e1, e2, e3⟩
    simp only [edgeFacts, List.forall_mem_cons, FactHolds, Form.eval_sub, bA, bB, bC]
    simp only [sixP]
    exact ⟨sub_pos.2 (lt_of_le_of_ne hab c2), sub_pos.2 (lt_of_le_of_ne hbc c3), fun _ h => by cases h⟩

theorem symmCheck_all (cs : ℕ) (hcs : cs = 1 ∨ cs = 2 ∨ cs = 3 ∨ cs = 4) (t : Bool) : symmCheck cs t = true := by
  rcases hcs with rfl | rfl | rfl | rfl <;> cases t
  exacts [symmCheck1II, symmCheck1I, symmCheck2II, symmCheck2I, symmCheck3II, symmCheck3I, symmCheck4II, symmCheck4I]

/-- a symmetry of determinant 1 is an operation of the holohedry. -/
theorem isHolo_of_symmetry {ε a b c d e f : K} {ch : ℕ} (hA : 0 < a)
    (hn : NiggliParams 0 a b c (2 * d) (2 * e) (2 * f)) (hr : Resolved ε a b c d e f)
    (h : characterOf (some ε) a b c d e f = .ret ch) {u v w : Vec3 ℤ} (hd : det3 u v w = 1)
    (ha : (qForm u).eval (sixP a b c d e f) = a) (hb : (qForm v).eval (sixP a b c d e f) = b)
    (hc : (qForm w).eval (sixP a b c d e f) = c) (hx : (bForm v w).eval (sixP a b c d e f) = 2 * d)
    (hy : (bForm u w).eval (sixP a b c d e f) = 2 * e) (hz : (bForm u v).eval (sixP a b c d e f) = 2 * f) :
    isHolo ch (colMat u v w) = true := by
  obtain ⟨cs, t, i, E, hcs, hsys, hedge, hE, hz0, hcl⟩ := entry_of_character hA hn hr h
  obtain ⟨hu, hv, hw⟩ := minima_small (g := sixP a b c d e f) hA hn hd ha hb hc
  have hk := symmCheck_all cs hcs t
  unfold symmCheck at hk
  rw [List.all_eq_true] at hk
  have hi : i < (charEntries cs t).length := by
    by_contra hh
    rw [List.getElem?_eq_none (not_lt.1 hh)] at hE
    cases hE
  obtain ⟨s', hs'⟩ := Option.isSome_iff_exists.1 (hk i (List.mem_range.2 hi))
  refine symmEntry_sound hs' hE hsys hedge hz0 (fun p hp => ?_) hu hv hw hd ha hb hc hx hy hz
  have := hcl p hp
  unfold AllZero at this
  push Not at this
  exact this

end

end CrystSymm.NiggliCert
