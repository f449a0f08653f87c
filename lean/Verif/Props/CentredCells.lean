import Verif.Proofs.Centred

set_option autoImplicit false
set_option linter.unusedSectionVars false

/-! # C79: the primitive cell of a centred cell -/

namespace CrystSymm

open Spec Reducer

/-- the lattice of `s'` consists exactly of the translations of the crystal `s`. -/
def SpansTranslations (s s' : Structure ℝ) : Prop :=
  ∀ t, TranslationWithin s 0 t ↔ ∃ n : Vec3 ℝ, IntVec n ∧ s.lattice * t = s'.lattice * n

/-- the three vectors picked from the sorted list are a basis of the lattice of all translations. -/
def goodPick (N : ℕ) (hs p : List (Vec3 ℤ)) : Bool :=
  match pickZ p with
  | some (x, y, z) =>
    decide ((Mat3.ofCols x y z).det.natAbs * (hs.length + 1) = N ^ 3) && decide ((Mat3.ofCols x y z).det ≠ 0) &&
      decide (x ∈ unitsZ N ++ hs ∧ y ∈ unitsZ N ++ hs ∧ z ∈ unitsZ N ++ hs) && (unitsZ N ++ hs).all fun k =>
        decide (((Mat3.ofCols x y z).adj * k).x % (Mat3.ofCols x y z).det = 0) &&
        decide (((Mat3.ofCols x y z).adj * k).y % (Mat3.ofCols x y z).det = 0) &&
        decide (((Mat3.ofCols x y z).adj * k).z % (Mat3.ofCols x y z).det = 0)
  | none => false

/-- the three vectors picked have the determinant `D`. -/
def pickDet (D : ℕ) (p : List (Vec3 ℤ)) : Bool :=
  match pickZ p with
  | some (x, y, z) => decide ((Mat3.ofCols x y z).det.natAbs = D)
  | none => false

variable {s : Structure ℝ} {N : ℕ} {hs : List (Vec3 ℤ)} {d : ℝ}

theorem translation_add (hdet : s.lattice.det ≠ 0) {t u : Vec3 ℝ} (ht : TranslationWithin s 0 t) (hu : TranslationWithin s 0 u) :
    TranslationWithin s 0 (t + u) := by
  have hz : ∀ {v w : Vec3 ℝ}, SamePoint v w → lenSq (s.lattice * v) ≤ 0 * 0 → IntVec w := by
    intro v w h1 h2
    have h3 : s.lattice * v = 0 := vec_zero_of_lenSq (le_antisymm (by simpa using h2) (lenSq_nonneg _))
    have h4 : v = 0 := mulVec_injective hdet (by rw [h3, Mat3.mulVec_zero])
    rw [h4, samePoint_iff_intVec] at h1
    have := intVec_neg h1
    simpa using this
  intro p hp
  obtain ⟨q, hq, e1, v, h1, h2⟩ := ht p hp
  obtain ⟨q', hq', e2, w, h3, h4⟩ := hu q hq
  refine ⟨q', hq', e2.trans e1, 0, ?_, by simp [lenSq]⟩
  rw [samePoint_iff_intVec]
  have h5 := intVec_neg (intVec_add (hz h1 h2) (hz h3 h4))
  convert h5 using 1
  show 0 - (p.2 + (t + u) - q'.2) = -(p.2 + t - q.2 + (q.2 + u - q'.2))
  abel

theorem translation_int {t : Vec3 ℝ} (ht : IntVec t) : TranslationWithin s 0 t := by
  intro p hp
  refine ⟨p, hp, rfl, 0, ?_, by simp [lenSq]⟩
  rw [samePoint_iff_intVec]
  have := intVec_neg ht
  convert this using 1
  show 0 - (p.2 + t - p.2) = -t
  abel

theorem gridPoint_add (N : ℕ) (u v : Vec3 ℤ) : gridPoint N (u + v) = gridPoint N u + gridPoint N v := by
  ext <;> simp [gridPoint] <;> ring

/-- integer multiples of translations on the grid are translations. -/
theorem translation_smul (hdet : s.lattice.det ≠ 0) (hN : 0 < N) {k : Vec3 ℤ} (hk : TranslationWithin s 0 (gridPoint N k)) (i : ℤ) :
    TranslationWithin s 0 (gridPoint N ⟨i * k.x, i * k.y, i * k.z⟩) := by
  have hn : (N : ℝ) ≠ 0 := by positivity
  have nat : ∀ n : ℕ, TranslationWithin s 0 (gridPoint N ⟨n * k.x, n * k.y, n * k.z⟩) := by
    intro n
    induction n with
    | zero => exact translation_int ⟨0, 0, 0, by simp [gridPoint]⟩
    | succ n ih =>
      have := translation_add hdet ih hk
      convert this using 1
      rw [← gridPoint_add]
      congr 1
      ext <;> simp <;> ring
  have hNz : (0 : ℤ) < N := by exact_mod_cast hN
  obtain ⟨n, hn'⟩ := Int.eq_ofNat_of_zero_le (Int.emod_nonneg i hNz.ne')
  have h1 := translation_add hdet (nat n) (translation_int (s := s) (t := ⟨((i / N * k.x : ℤ) : ℝ), ((i / N * k.y : ℤ) : ℝ), ((i / N * k.z : ℤ) : ℝ)⟩)
    ⟨_, _, _, rfl⟩)
  convert h1 using 1
  have e : (i : ℝ) = n + N * (i / N : ℤ) := by
    have := Int.emod_add_mul_ediv i N
    rw [hn'] at this
    exact_mod_cast this.symm
  ext <;> simp only [gridPoint, Vec3.add_x, Vec3.add_y, Vec3.add_z] <;> push_cast <;> rw [e] <;> field_simp

theorem translation_grid (hdet : s.lattice.det ≠ 0) (hN : 0 < N) {m : Mat3 ℤ} (h0 : TranslationWithin s 0 (gridPoint N m.col0))
    (h1 : TranslationWithin s 0 (gridPoint N m.col1)) (h2 : TranslationWithin s 0 (gridPoint N m.col2)) (v : Vec3 ℤ) :
    TranslationWithin s 0 (gridPoint N (m * v)) := by
  have := translation_add hdet (translation_add hdet (translation_smul hdet hN h0 v.x) (translation_smul hdet hN h1 v.y))
    (translation_smul hdet hN h2 v.z)
  convert this using 1
  rw [← gridPoint_add, ← gridPoint_add]
  congr 1
  ext <;> simp [Mat3.col0, Mat3.col1, Mat3.col2] <;> ring

/-- the outcome of the search, in terms of the sorted list. -/
theorem centred_outcome_list (r : Reducer ℝ) (ord : List (String × ℕ) → List (String × ℕ)) (ho : ∀ l, (ord l).Perm l)
    (h : CentredCell s N hs r.dtol) : ∃ l, l.Perm hs ∧ CandidateList s N r.dtol l ∧
      (goodPick N hs (gridSort s.lattice N (unitsZ N ++ l)) = true → ∃ s', r.findPrimitiveCell ord s = .ret s' ∧
        SpansTranslations s s' ∧ s'.volume * (hs.length + 1) = s.volume) ∧
      ∀ D, pickDet D (gridSort s.lattice N (unitsZ N ++ l)) = true → ∃ s', r.findPrimitiveCell ord s = .ret s' ∧
        s'.volume = s.volume * D / N ^ 3 := by
  obtain ⟨hN, -⟩ := h.grid
  have hn : (0 : ℝ) < N := by exact_mod_cast hN
  have hdpos : 0 < s.lattice.det := lt_of_le_of_lt (mul_nonneg h.tol.le (by positivity)) h.volume
  obtain ⟨l, hl, hlist, key⟩ := centred_search_list r ord ho h
  refine ⟨l, hl, hlist, ?_, ?_⟩
  · intro hg
    unfold goodPick at hg
    split at hg
    · rename_i x y z hp
      simp only [Bool.and_eq_true, decide_eq_true_eq, List.all_eq_true] at hg
      obtain ⟨⟨⟨g1, g2⟩, g3⟩, g4⟩ := hg
      obtain ⟨s', hs', -, k2⟩ := key x y z hp
      obtain ⟨hv, n, hn1, hlat⟩ := k2 g2
      refine ⟨s', hs', ?_, ?_⟩
      · set m := Mat3.ofCols x y z with hm
        have hunit : ∀ k ∈ unitsZ N ++ hs, TranslationWithin s 0 (gridPoint N k) := by
          intro k hk
          rcases List.mem_append.1 hk with hk | hk
          · apply translation_int
            have : gridPoint N k ∈ (unitVecs : List (Vec3 ℝ)) := by
              rw [← gridPoint_units hN]; exact List.mem_map.2 ⟨k, hk, rfl⟩
            simp only [unitVecs, List.mem_cons, List.not_mem_nil, or_false] at this
            rcases this with e | e | e <;> rw [e]
            · exact ⟨1, 0, 0, by simp⟩
            · exact ⟨0, 1, 0, by simp⟩
            · exact ⟨0, 0, 1, by simp⟩
          · exact (h.translations _).2 ⟨k, List.mem_cons_of_mem _ hk, by rw [sub_self]; exact intVec_zero⟩
        have hn1' : n.det = 1 ∨ n.det = -1 := by
          have := Int.natAbs_eq n.det
          rw [hn1] at this
          simpa using this
        -- integer vectors of the new lattice
        have hcomb : ∀ w : Vec3 ℤ, s'.lattice * (⟨w.x, w.y, w.z⟩ : Vec3 ℝ) = s.lattice * gridPoint N (m * n * w) := by
          intro w
          rw [hlat, Mat3.mul_mulVec, gridMat_mulVec]
        -- every vector of the old list is a combination
        have hspan : ∀ k ∈ unitsZ N ++ hs, ∃ w : Vec3 ℤ, m * w = k := by
          intro k hk
          obtain ⟨⟨d1, d2⟩, d3⟩ := g4 k hk
          obtain ⟨a, ha⟩ := Int.dvd_of_emod_eq_zero d1
          obtain ⟨b, hb⟩ := Int.dvd_of_emod_eq_zero d2
          obtain ⟨c, hc⟩ := Int.dvd_of_emod_eq_zero d3
          refine ⟨⟨a, b, c⟩, ?_⟩
          have e1 : m * (m.adj * k) = Vec3.scale m.det k := by
            ext <;> simp [Mat3.adj, Mat3.det, Vec3.scale] <;> ring
          have e2 : m.adj * k = Vec3.scale m.det ⟨a, b, c⟩ := by
            ext
            · exact ha
            · exact hb
            · exact hc
          rw [e2] at e1
          have e3 : Vec3.scale m.det (m * (⟨a, b, c⟩ : Vec3 ℤ)) = Vec3.scale m.det k := by
            rw [← e1]
            ext <;> simp [Vec3.scale] <;> ring
          have inj : ∀ {u v : ℤ}, m.det * u = m.det * v → u = v := fun h => mul_left_cancel₀ g2 h
          ext
          · exact inj (congrArg Vec3.x e3)
          · exact inj (congrArg Vec3.y e3)
          · exact inj (congrArg Vec3.z e3)
        have hspan' : ∀ v : Vec3 ℤ, (∃ w : Vec3 ℤ, m * w = v) → ∃ w : Vec3 ℤ, m * n * w = v := by
          rintro _ ⟨w, rfl⟩
          refine ⟨Vec3.scale n.det (n.adj * w), ?_⟩
          have e1 : n * (n.adj * w) = Vec3.scale n.det w := by
            ext <;> simp [Mat3.adj, Mat3.det, Vec3.scale] <;> ring
          have e2 : n * Vec3.scale n.det (n.adj * w) = w := by
            have : n * Vec3.scale n.det (n.adj * w) = Vec3.scale n.det (n * (n.adj * w)) := by
              ext <;> simp [Vec3.scale] <;> ring
            rw [this, e1]
            rcases hn1' with e | e <;> rw [e] <;> ext <;> simp [Vec3.scale]
          rw [Mat3.mul_mulVec, e2]
        intro t
        constructor
        · intro ht
          obtain ⟨k, hk, a, b, c, e⟩ := (h.translations t).1 ht
          have hw : ∃ w : Vec3 ℤ, m * w = k + ⟨N * a, N * b, N * c⟩ := by
            have hunits : ∀ v : Vec3 ℤ, ∃ w : Vec3 ℤ, m * w = ⟨N * v.x, N * v.y, N * v.z⟩ := by
              intro v
              obtain ⟨w1, e1⟩ := hspan ⟨N, 0, 0⟩ (by simp [unitsZ])
              obtain ⟨w2, e2⟩ := hspan ⟨0, N, 0⟩ (by simp [unitsZ])
              obtain ⟨w3, e3⟩ := hspan ⟨0, 0, N⟩ (by simp [unitsZ])
              refine ⟨Mat3.ofCols w1 w2 w3 * v, ?_⟩
              rw [← Mat3.mul_mulVec]
              have : m * Mat3.ofCols w1 w2 w3 = Mat3.ofCols (m * w1) (m * w2) (m * w3) := by
                ext <;> simp [Mat3.ofCols]
              rw [this, e1, e2, e3]
              ext <;> simp [Mat3.ofCols]
            obtain ⟨w1, e1⟩ := hunits ⟨a, b, c⟩
            rcases List.mem_cons.1 hk with rfl | hk
            · exact ⟨w1, by rw [e1]; ext <;> simp⟩
            · obtain ⟨w2, e2⟩ := hspan k (List.mem_append_right _ hk)
              exact ⟨w2 + w1, by rw [Mat3.mulVec_add, e1, e2]⟩
          obtain ⟨w, hw⟩ := hspan' _ hw
          refine ⟨⟨w.x, w.y, w.z⟩, ⟨_, _, _, rfl⟩, ?_⟩
          rw [hcomb, hw]
          congr 1
          have hn0 : (N : ℝ) ≠ 0 := hn.ne'
          have ex := congrArg Vec3.x e
          have ey := congrArg Vec3.y e
          have ez := congrArg Vec3.z e
          simp only [gridPoint, Vec3.sub_x, Vec3.sub_y, Vec3.sub_z] at ex ey ez
          ext <;> simp only [gridPoint, Vec3.add_x, Vec3.add_y, Vec3.add_z] <;> push_cast <;> rw [add_div, mul_div_cancel_left₀ _ hn0] <;> linarith
        · rintro ⟨w, ⟨a, b, c, rfl⟩, e⟩
          rw [hcomb ⟨a, b, c⟩] at e
          rw [mulVec_injective hdpos.ne' e, Mat3.mul_mulVec]
          exact translation_grid (m := Mat3.ofCols x y z) hdpos.ne' hN (hunit _ g3.1) (hunit _ g3.2.1) (hunit _ g3.2.2) _
      · rw [hv]
        have : |((Mat3.ofCols x y z).det : ℝ)| * (hs.length + 1) = N ^ 3 := by
          rw [← Int.cast_abs, Int.abs_eq_natAbs]
          exact_mod_cast g1
        rw [div_mul_eq_mul_div, mul_assoc, this]
        field_simp
    · exact absurd hg (by simp)
  · intro D hg
    unfold pickDet at hg
    split at hg
    · rename_i x y z hp
      rw [decide_eq_true_eq] at hg
      obtain ⟨s', hs', k1, k2⟩ := key x y z hp
      refine ⟨s', hs', ?_⟩
      by_cases h0 : (Mat3.ofCols x y z).det = 0
      · rw [k1 h0, ← hg, h0]
        simp
      · rw [(k2 h0).1, ← hg, ← Int.cast_abs, Int.abs_eq_natAbs, Int.cast_natCast]
    · exact absurd hg (by simp)

section Orders

variable {L : Mat3 ℝ}

theorem centred_outcome (r : Reducer ℝ) (ord : List (String × ℕ) → List (String × ℕ)) (ho : ∀ l, (ord l).Perm l)
    (h : CentredCell s N hs r.dtol) : ∃ l, l.Perm hs ∧
      (goodPick N hs (gridSort s.lattice N (unitsZ N ++ l)) = true → ∃ s', r.findPrimitiveCell ord s = .ret s' ∧
        SpansTranslations s s' ∧ s'.volume * (hs.length + 1) = s.volume) ∧
      ∀ D, pickDet D (gridSort s.lattice N (unitsZ N ++ l)) = true → ∃ s', r.findPrimitiveCell ord s = .ret s' ∧
        s'.volume = s.volume * D / N ^ 3 := by
  obtain ⟨l, hl, -, k⟩ := centred_outcome_list r ord ho h
  exact ⟨l, hl, k⟩

theorem units_sublist {l : List (Vec3 ℤ)} {u v : Vec3 ℤ} (hu : u ∈ unitsZ N) (hv : v ∈ l) : [u, v].Sublist (unitsZ N ++ l) :=
  List.Sublist.append (List.singleton_sublist.2 hu) (List.singleton_sublist.2 hv)

/-- the middle of two different points is closer to the origin than one of them. -/
theorem middle_short (hdet : L.det ≠ 0) {u v w : Vec3 ℝ} (hne : u ≠ v) (hw : w + w = u + v) :
    ¬ ((L * u).mag ≤ (L * w).mag ∧ (L * v).mag ≤ (L * w).mag) := by
  rintro ⟨h1, h2⟩
  rw [mag_le_mag_iff] at h1 h2
  have hd : 0 < lenSq (L * (u - v)) := by
    rcases (lenSq_nonneg (L * (u - v))).lt_or_eq with h | h
    · exact h
    · have h0 : L * (u - v) = 0 := vec_zero_of_lenSq h.symm
      exact absurd (sub_eq_zero.1 (mulVec_injective hdet (by rw [h0, Mat3.mulVec_zero]))) hne
  have hx := congrArg Vec3.x hw
  have hy := congrArg Vec3.y hw
  have hz := congrArg Vec3.z hw
  simp only [Vec3.add_x, Vec3.add_y, Vec3.add_z] at hx hy hz
  have e : 4 * lenSq (L * w) + lenSq (L * (u - v)) = 2 * lenSq (L * u) + 2 * lenSq (L * v) := by
    have ew : w = ⟨(u.x + v.x) / 2, (u.y + v.y) / 2, (u.z + v.z) / 2⟩ := by ext <;> simp <;> linarith
    rw [ew]
    simp only [lenSq, Mat3.mulVec_x, Mat3.mulVec_y, Mat3.mulVec_z, Vec3.sub_x, Vec3.sub_y, Vec3.sub_z]
    ring
  linarith

end Orders

/-- the distance from the origin to the point with the fractional coordinates `(x, y, z)`. -/
noncomputable def reach (s : Structure ℝ) (x y z : ℝ) : ℝ := (s.lattice * (⟨x, y, z⟩ : Vec3 ℝ)).mag

theorem reach_units (hN : 0 < N) : (s.lattice * gridPoint N ⟨N, 0, 0⟩).mag = s.a ∧
    (s.lattice * gridPoint N ⟨0, N, 0⟩).mag = s.b ∧ (s.lattice * gridPoint N ⟨0, 0, N⟩).mag = s.c := by
  have hn : (N : ℝ) ≠ 0 := by positivity
  refine ⟨?_, ?_, ?_⟩
  · unfold Structure.a; congr 1; ext <;> simp [gridPoint, hn, Mat3.col0]
  · unfold Structure.b; congr 1; ext <;> simp [gridPoint, hn, Mat3.col1]
  · unfold Structure.c; congr 1; ext <;> simp [gridPoint, hn, Mat3.col2]

/-- the order of the cell vectors and the centring vectors in the sorted list. -/
theorem sorted_units (hN : 0 < N) {l : List (Vec3 ℤ)} (hl : (unitsZ N ++ l).Nodup) :
    let p := gridSort s.lattice N (unitsZ N ++ l)
    (Before p ⟨N, 0, 0⟩ ⟨0, N, 0⟩ ↔ s.a ≤ s.b) ∧ (Before p ⟨N, 0, 0⟩ ⟨0, 0, N⟩ ↔ s.a ≤ s.c) ∧
    (Before p ⟨0, N, 0⟩ ⟨0, 0, N⟩ ↔ s.b ≤ s.c) ∧
    ∀ v ∈ l, (Before p ⟨N, 0, 0⟩ v ↔ s.a ≤ (s.lattice * gridPoint N v).mag) ∧
      (Before p ⟨0, N, 0⟩ v ↔ s.b ≤ (s.lattice * gridPoint N v).mag) ∧
      (Before p ⟨0, 0, N⟩ v ↔ s.c ≤ (s.lattice * gridPoint N v).mag) := by
  obtain ⟨ea, eb, ec⟩ := reach_units (s := s) hN
  intro p
  have hu : ∀ q : List (Vec3 ℤ), q.Sublist (unitsZ N) → q.Sublist (unitsZ N ++ l) := fun q hq =>
    hq.trans (List.sublist_append_left _ _)
  refine ⟨?_, ?_, ?_, fun v hv => ⟨?_, ?_, ?_⟩⟩
  · rw [gridSort_before hl (hu _ (by simp [unitsZ])), ea, eb]
  · rw [gridSort_before hl (hu _ (by simp [unitsZ])), ea, ec]
  · rw [gridSort_before hl (hu _ (by simp [unitsZ])), eb, ec]
  · rw [gridSort_before hl (units_sublist (by simp [unitsZ]) hv), ea]
  · rw [gridSort_before hl (units_sublist (by simp [unitsZ]) hv), eb]
  · rw [gridSort_before hl (units_sublist (by simp [unitsZ]) hv), ec]

theorem sorted_mem {l l' : List (Vec3 ℤ)} (h : l.Perm l') (L : Mat3 ℝ) :
    gridSort L N (unitsZ N ++ l) ∈ (unitsZ N ++ l').permutations' :=
  List.mem_permutations'.2 ((gridSort_perm _).trans (h.append_left _))

/-! ### body-centred cells -/

theorem body_picks : ∀ p ∈ (unitsZ 2 ++ [(⟨1, 1, 1⟩ : Vec3 ℤ)]).permutations',
    if Before p ⟨2, 0, 0⟩ ⟨1, 1, 1⟩ ∧ Before p ⟨0, 2, 0⟩ ⟨1, 1, 1⟩ ∧ Before p ⟨0, 0, 2⟩ ⟨1, 1, 1⟩ then pickDet 8 p = true
    else goodPick 2 [⟨1, 1, 1⟩] p = true := by
  decide +kernel

/-- **C79 (body-centred cells).**  The cell returned for a body-centred cell spans exactly the translations of the crystal if
half the body diagonal is shorter than the longest cell vector; otherwise it has the volume of the cell that was passed. -/
theorem C79_body_centred (r : Reducer ℝ) (ord : List (String × ℕ) → List (String × ℕ)) (ho : ∀ l, (ord l).Perm l)
    (h : CentredCell s 2 [⟨1, 1, 1⟩] r.dtol) : ∃ s', r.findPrimitiveCell ord s = .ret s' ∧
      (reach s (1/2) (1/2) (1/2) < max s.a (max s.b s.c) → SpansTranslations s s' ∧ s'.volume * 2 = s.volume) ∧
      (max s.a (max s.b s.c) ≤ reach s (1/2) (1/2) (1/2) → s'.volume = s.volume) := by
  obtain ⟨l, hl, k1, k2⟩ := centred_outcome r ord ho h
  obtain rfl := List.perm_singleton.1 hl
  have hc := body_picks _ (sorted_mem hl s.lattice)
  obtain ⟨-, -, -, hb⟩ := sorted_units (s := s) (N := 2) (by norm_num) (l := [⟨1, 1, 1⟩]) (by decide)
  obtain ⟨b1, b2, b3⟩ := hb ⟨1, 1, 1⟩ (by simp)
  have er : (s.lattice * gridPoint 2 ⟨1, 1, 1⟩).mag = reach s (1/2) (1/2) (1/2) := by simp [reach, gridPoint]
  rw [er] at b1 b2 b3
  simp only [Nat.cast_ofNat] at b1 b2 b3
  split at hc
  · rename_i hh
    rw [b1, b2, b3] at hh
    obtain ⟨s', e, hv⟩ := k2 8 hc
    refine ⟨s', e, fun hlt => absurd hlt (not_lt.2 (max_le hh.1 (max_le hh.2.1 hh.2.2))), fun _ => ?_⟩
    rw [hv]; norm_num
  · rename_i hh
    rw [b1, b2, b3] at hh
    obtain ⟨s', e, hv, hw⟩ := k1 hc
    refine ⟨s', e, fun _ => ⟨hv, ?_⟩, fun hle => absurd ?_ hh⟩
    · rw [← hw]; norm_num
    · exact ⟨(le_max_left _ _).trans hle, (le_max_left _ _).trans ((le_max_right _ _).trans hle),
        (le_max_right _ _).trans ((le_max_right _ _).trans hle)⟩

/-! ### base-centred cells -/

theorem baseC_picks : ∀ p ∈ (unitsZ 2 ++ [(⟨1, 1, 0⟩ : Vec3 ℤ)]).permutations', ¬ (Before p ⟨2, 0, 0⟩ ⟨1, 1, 0⟩ ∧ Before p ⟨0, 2, 0⟩ ⟨1, 1, 0⟩) →
    if ¬ Before p ⟨2, 0, 0⟩ ⟨1, 1, 0⟩ ∧ Before p ⟨2, 0, 0⟩ ⟨0, 0, 2⟩ ∧ Before p ⟨0, 2, 0⟩ ⟨0, 0, 2⟩ ∧
      (Before p ⟨2, 0, 0⟩ ⟨0, 2, 0⟩ ∨ Before p ⟨0, 2, 0⟩ ⟨1, 1, 0⟩) then pickDet 0 p = true
    else goodPick 2 [⟨1, 1, 0⟩] p = true := by
  decide +kernel

theorem baseA_picks : ∀ p ∈ (unitsZ 2 ++ [(⟨0, 1, 1⟩ : Vec3 ℤ)]).permutations', ¬ (Before p ⟨0, 2, 0⟩ ⟨0, 1, 1⟩ ∧ Before p ⟨0, 0, 2⟩ ⟨0, 1, 1⟩) →
    if ¬ Before p ⟨0, 2, 0⟩ ⟨0, 1, 1⟩ ∧ ¬ Before p ⟨2, 0, 0⟩ ⟨0, 2, 0⟩ ∧ ¬ Before p ⟨2, 0, 0⟩ ⟨0, 0, 2⟩ ∧
      (Before p ⟨0, 2, 0⟩ ⟨0, 0, 2⟩ ∨ Before p ⟨0, 0, 2⟩ ⟨0, 1, 1⟩) then pickDet 0 p = true
    else goodPick 2 [⟨0, 1, 1⟩] p = true := by
  decide +kernel

theorem baseB_picks : ∀ p ∈ (unitsZ 2 ++ [(⟨1, 0, 1⟩ : Vec3 ℤ)]).permutations', ¬ (Before p ⟨2, 0, 0⟩ ⟨1, 0, 1⟩ ∧ Before p ⟨0, 0, 2⟩ ⟨1, 0, 1⟩) →
    if ¬ Before p ⟨0, 0, 2⟩ ⟨1, 0, 1⟩ ∧ ¬ Before p ⟨0, 2, 0⟩ ⟨0, 0, 2⟩ ∧ Before p ⟨2, 0, 0⟩ ⟨0, 2, 0⟩ ∧
      (¬ Before p ⟨2, 0, 0⟩ ⟨0, 0, 2⟩ ∨ Before p ⟨2, 0, 0⟩ ⟨1, 0, 1⟩) then pickDet 0 p = true
    else goodPick 2 [⟨1, 0, 1⟩] p = true := by
  decide +kernel

/-- **C79 (cells centred on the face of `a` and `b`).** -/
theorem C79_base_centred_c (r : Reducer ℝ) (ord : List (String × ℕ) → List (String × ℕ)) (ho : ∀ l, (ord l).Perm l)
    (h : CentredCell s 2 [⟨1, 1, 0⟩] r.dtol) : ∃ s', r.findPrimitiveCell ord s = .ret s' ∧
      (reach s (1/2) (1/2) 0 < s.a ∧ s.a ≤ s.c ∧ s.b ≤ s.c ∧ (s.a ≤ s.b ∨ s.b ≤ reach s (1/2) (1/2) 0) → s'.volume = 0) ∧
      (¬ (reach s (1/2) (1/2) 0 < s.a ∧ s.a ≤ s.c ∧ s.b ≤ s.c ∧ (s.a ≤ s.b ∨ s.b ≤ reach s (1/2) (1/2) 0)) →
        SpansTranslations s s' ∧ s'.volume * 2 = s.volume) := by
  have hdet : s.lattice.det ≠ 0 := (lt_of_le_of_lt (mul_nonneg h.tol.le (by positivity)) h.volume).ne'
  obtain ⟨l, hl, k1, k2⟩ := centred_outcome r ord ho h
  obtain rfl := List.perm_singleton.1 hl
  have hc := baseC_picks _ (sorted_mem hl s.lattice)
  obtain ⟨u1, u2, u3, hb⟩ := sorted_units (s := s) (N := 2) (by norm_num) (l := [⟨1, 1, 0⟩]) (by decide)
  obtain ⟨b1, b2, b3⟩ := hb ⟨1, 1, 0⟩ (by simp)
  have er : (s.lattice * gridPoint 2 ⟨1, 1, 0⟩).mag = reach s (1/2) (1/2) 0 := by simp [reach, gridPoint]
  have hmid := middle_short hdet (u := gridPoint 2 ⟨2, 0, 0⟩) (v := gridPoint 2 ⟨0, 2, 0⟩) (w := gridPoint 2 ⟨1, 1, 0⟩)
    (fun e => by simpa [gridPoint] using congrArg Vec3.x e) (by ext <;> simp [gridPoint] <;> norm_num)
  obtain ⟨ea, eb, ec⟩ := reach_units (s := s) (N := 2) (by norm_num)
  simp only [Nat.cast_ofNat] at b1 b2 b3 u1 u2 u3 ea eb ec
  rw [er] at b1 b2 b3 hmid
  rw [ea, eb] at hmid
  have hc := hc (by rw [b1, b2]; exact hmid)
  split at hc
  · rename_i hh
    simp only [b1, b2, u1, u2, u3, not_le] at hh
    obtain ⟨s', e, hv⟩ := k2 0 hc
    exact ⟨s', e, fun _ => by rw [hv]; norm_num, fun hn => absurd hh hn⟩
  · rename_i hh
    simp only [b1, b2, u1, u2, u3, not_le] at hh
    obtain ⟨s', e, hv, hw⟩ := k1 hc
    refine ⟨s', e, fun hn => absurd hn hh, fun _ => ⟨hv, ?_⟩⟩
    rw [← hw]; norm_num

/-- **C79 (cells centred on the face of `b` and `c`).** -/
theorem C79_base_centred_a (r : Reducer ℝ) (ord : List (String × ℕ) → List (String × ℕ)) (ho : ∀ l, (ord l).Perm l)
    (h : CentredCell s 2 [⟨0, 1, 1⟩] r.dtol) : ∃ s', r.findPrimitiveCell ord s = .ret s' ∧
      (reach s 0 (1/2) (1/2) < s.b ∧ s.b < s.a ∧ s.c < s.a ∧ (s.b ≤ s.c ∨ s.c ≤ reach s 0 (1/2) (1/2)) → s'.volume = 0) ∧
      (¬ (reach s 0 (1/2) (1/2) < s.b ∧ s.b < s.a ∧ s.c < s.a ∧ (s.b ≤ s.c ∨ s.c ≤ reach s 0 (1/2) (1/2))) →
        SpansTranslations s s' ∧ s'.volume * 2 = s.volume) := by
  have hdet : s.lattice.det ≠ 0 := (lt_of_le_of_lt (mul_nonneg h.tol.le (by positivity)) h.volume).ne'
  obtain ⟨l, hl, k1, k2⟩ := centred_outcome r ord ho h
  obtain rfl := List.perm_singleton.1 hl
  have hc := baseA_picks _ (sorted_mem hl s.lattice)
  obtain ⟨u1, u2, u3, hb⟩ := sorted_units (s := s) (N := 2) (by norm_num) (l := [⟨0, 1, 1⟩]) (by decide)
  obtain ⟨b1, b2, b3⟩ := hb ⟨0, 1, 1⟩ (by simp)
  have er : (s.lattice * gridPoint 2 ⟨0, 1, 1⟩).mag = reach s 0 (1/2) (1/2) := by simp [reach, gridPoint]
  have hmid := middle_short hdet (u := gridPoint 2 ⟨0, 2, 0⟩) (v := gridPoint 2 ⟨0, 0, 2⟩) (w := gridPoint 2 ⟨0, 1, 1⟩)
    (fun e => by simpa [gridPoint] using congrArg Vec3.y e) (by ext <;> simp [gridPoint] <;> norm_num)
  obtain ⟨ea, eb, ec⟩ := reach_units (s := s) (N := 2) (by norm_num)
  simp only [Nat.cast_ofNat] at b1 b2 b3 u1 u2 u3 ea eb ec
  rw [er] at b1 b2 b3 hmid
  rw [eb, ec] at hmid
  have hc := hc (by rw [b2, b3]; exact hmid)
  split at hc
  · rename_i hh
    simp only [b2, b3, u1, u2, u3, not_le] at hh
    obtain ⟨s', e, hv⟩ := k2 0 hc
    exact ⟨s', e, fun _ => by rw [hv]; norm_num, fun hn => absurd hh hn⟩
  · rename_i hh
    simp only [b2, b3, u1, u2, u3, not_le] at hh
    obtain ⟨s', e, hv, hw⟩ := k1 hc
    refine ⟨s', e, fun hn => absurd hn hh, fun _ => ⟨hv, ?_⟩⟩
    rw [← hw]; norm_num

/-- **C79 (cells centred on the face of `a` and `c`).** -/
theorem C79_base_centred_b (r : Reducer ℝ) (ord : List (String × ℕ) → List (String × ℕ)) (ho : ∀ l, (ord l).Perm l)
    (h : CentredCell s 2 [⟨1, 0, 1⟩] r.dtol) : ∃ s', r.findPrimitiveCell ord s = .ret s' ∧
      (reach s (1/2) 0 (1/2) < s.c ∧ s.c < s.b ∧ s.a ≤ s.b ∧ (s.c < s.a ∨ s.a ≤ reach s (1/2) 0 (1/2)) → s'.volume = 0) ∧
      (¬ (reach s (1/2) 0 (1/2) < s.c ∧ s.c < s.b ∧ s.a ≤ s.b ∧ (s.c < s.a ∨ s.a ≤ reach s (1/2) 0 (1/2))) →
        SpansTranslations s s' ∧ s'.volume * 2 = s.volume) := by
  have hdet : s.lattice.det ≠ 0 := (lt_of_le_of_lt (mul_nonneg h.tol.le (by positivity)) h.volume).ne'
  obtain ⟨l, hl, k1, k2⟩ := centred_outcome r ord ho h
  obtain rfl := List.perm_singleton.1 hl
  have hc := baseB_picks _ (sorted_mem hl s.lattice)
  obtain ⟨u1, u2, u3, hb⟩ := sorted_units (s := s) (N := 2) (by norm_num) (l := [⟨1, 0, 1⟩]) (by decide)
  obtain ⟨b1, b2, b3⟩ := hb ⟨1, 0, 1⟩ (by simp)
  have er : (s.lattice * gridPoint 2 ⟨1, 0, 1⟩).mag = reach s (1/2) 0 (1/2) := by simp [reach, gridPoint]
  have hmid := middle_short hdet (u := gridPoint 2 ⟨2, 0, 0⟩) (v := gridPoint 2 ⟨0, 0, 2⟩) (w := gridPoint 2 ⟨1, 0, 1⟩)
    (fun e => by simpa [gridPoint] using congrArg Vec3.x e) (by ext <;> simp [gridPoint] <;> norm_num)
  obtain ⟨ea, eb, ec⟩ := reach_units (s := s) (N := 2) (by norm_num)
  simp only [Nat.cast_ofNat] at b1 b2 b3 u1 u2 u3 ea eb ec
  rw [er] at b1 b2 b3 hmid
  rw [ea, ec] at hmid
  have hc := hc (by rw [b1, b3]; exact hmid)
  split at hc
  · rename_i hh
    simp only [b1, b3, u1, u2, u3, not_le] at hh
    obtain ⟨s', e, hv⟩ := k2 0 hc
    exact ⟨s', e, fun _ => by rw [hv]; norm_num, fun hn => absurd hh hn⟩
  · rename_i hh
    simp only [b1, b3, u1, u2, u3, not_le] at hh
    obtain ⟨s', e, hv, hw⟩ := k1 hc
    refine ⟨s', e, fun hn => absurd hn hh, fun _ => ⟨hv, ?_⟩⟩
    rw [← hw]; norm_num

/-! ### face-centred cells -/

/-- the orders in which the three vectors picked lie in one plane. -/
def flatFace (p : List (Vec3 ℤ)) : Prop :=
  (Before p ⟨2, 0, 0⟩ ⟨0, 1, 1⟩ ∧ Before p ⟨0, 2, 0⟩ ⟨0, 1, 1⟩ ∧ Before p ⟨2, 0, 0⟩ ⟨1, 0, 1⟩ ∧ Before p ⟨0, 2, 0⟩ ⟨1, 0, 1⟩ ∧
    ¬ Before p ⟨0, 0, 2⟩ ⟨0, 1, 1⟩ ∧ ¬ Before p ⟨0, 0, 2⟩ ⟨1, 0, 1⟩ ∧ ¬ Before p ⟨2, 0, 0⟩ ⟨1, 1, 0⟩ ∧
    (Before p ⟨2, 0, 0⟩ ⟨0, 2, 0⟩ ∨ Before p ⟨0, 2, 0⟩ ⟨1, 1, 0⟩)) ∨
  (Before p ⟨0, 2, 0⟩ ⟨1, 0, 1⟩ ∧ Before p ⟨0, 0, 2⟩ ⟨1, 0, 1⟩ ∧ Before p ⟨0, 2, 0⟩ ⟨1, 1, 0⟩ ∧ Before p ⟨0, 0, 2⟩ ⟨1, 1, 0⟩ ∧
    ¬ Before p ⟨2, 0, 0⟩ ⟨1, 0, 1⟩ ∧ ¬ Before p ⟨2, 0, 0⟩ ⟨1, 1, 0⟩ ∧ ¬ Before p ⟨0, 2, 0⟩ ⟨0, 1, 1⟩ ∧
    (Before p ⟨0, 2, 0⟩ ⟨0, 0, 2⟩ ∨ Before p ⟨0, 0, 2⟩ ⟨0, 1, 1⟩)) ∨
  (Before p ⟨0, 0, 2⟩ ⟨1, 1, 0⟩ ∧ Before p ⟨2, 0, 0⟩ ⟨1, 1, 0⟩ ∧ Before p ⟨0, 0, 2⟩ ⟨0, 1, 1⟩ ∧ Before p ⟨2, 0, 0⟩ ⟨0, 1, 1⟩ ∧
    ¬ Before p ⟨0, 2, 0⟩ ⟨1, 1, 0⟩ ∧ ¬ Before p ⟨0, 2, 0⟩ ⟨0, 1, 1⟩ ∧ ¬ Before p ⟨0, 0, 2⟩ ⟨1, 0, 1⟩ ∧
    (¬ Before p ⟨2, 0, 0⟩ ⟨0, 0, 2⟩ ∨ Before p ⟨2, 0, 0⟩ ⟨1, 0, 1⟩))

instance (p : List (Vec3 ℤ)) : Decidable (flatFace p) := by unfold flatFace; infer_instance

theorem face_picks : ∀ p ∈ (unitsZ 2 ++ [(⟨0, 1, 1⟩ : Vec3 ℤ), ⟨1, 0, 1⟩, ⟨1, 1, 0⟩]).permutations',
    ¬ (Before p ⟨0, 2, 0⟩ ⟨0, 1, 1⟩ ∧ Before p ⟨0, 0, 2⟩ ⟨0, 1, 1⟩) → ¬ (Before p ⟨2, 0, 0⟩ ⟨1, 0, 1⟩ ∧ Before p ⟨0, 0, 2⟩ ⟨1, 0, 1⟩) →
    ¬ (Before p ⟨2, 0, 0⟩ ⟨1, 1, 0⟩ ∧ Before p ⟨0, 2, 0⟩ ⟨1, 1, 0⟩) →
    if flatFace p then pickDet 0 p = true else goodPick 2 [⟨0, 1, 1⟩, ⟨1, 0, 1⟩, ⟨1, 1, 0⟩] p = true := by
  decide +kernel

/-- two cell vectors `a`, `b` and half the diagonal `z` of their face come before the other two half diagonals `x`, `y`, and the
third cell vector `c` after them. -/
def FlatOrder (a b c x y z : ℝ) : Prop :=
  a ≤ x ∧ b ≤ x ∧ a ≤ y ∧ b ≤ y ∧ x < c ∧ y < c ∧ z < a

/-- **C79 (face-centred cells).** -/
theorem C79_face_centred (r : Reducer ℝ) (ord : List (String × ℕ) → List (String × ℕ)) (ho : ∀ l, (ord l).Perm l)
    (h : CentredCell s 2 [⟨0, 1, 1⟩, ⟨1, 0, 1⟩, ⟨1, 1, 0⟩] r.dtol) {x y z : ℝ} (hx : x = reach s 0 (1/2) (1/2))
    (hy : y = reach s (1/2) 0 (1/2)) (hz : z = reach s (1/2) (1/2) 0) : ∃ s', r.findPrimitiveCell ord s = .ret s' ∧
      ((FlatOrder s.a s.b s.c x y z ∧ (s.a ≤ s.b ∨ s.b ≤ z)) ∨ (FlatOrder s.b s.c s.a y z x ∧ (s.b ≤ s.c ∨ s.c ≤ x)) ∨
        (FlatOrder s.c s.a s.b z x y ∧ (s.c < s.a ∨ s.a ≤ y)) → s'.volume = 0) ∧
      (¬ ((FlatOrder s.a s.b s.c x y z ∧ (s.a ≤ s.b ∨ s.b ≤ z)) ∨ (FlatOrder s.b s.c s.a y z x ∧ (s.b ≤ s.c ∨ s.c ≤ x)) ∨
        (FlatOrder s.c s.a s.b z x y ∧ (s.c < s.a ∨ s.a ≤ y))) → SpansTranslations s s' ∧ s'.volume * 4 = s.volume) := by
  have hdet : s.lattice.det ≠ 0 := (lt_of_le_of_lt (mul_nonneg h.tol.le (by positivity)) h.volume).ne'
  obtain ⟨l, hl, k1, k2⟩ := centred_outcome r ord ho h
  have hc := face_picks _ (sorted_mem hl s.lattice)
  have hnd : (unitsZ 2 ++ l).Nodup := (hl.append_left _).nodup_iff.2 (by decide)
  obtain ⟨u1, u2, u3, hb⟩ := sorted_units (s := s) (N := 2) (by norm_num) hnd
  obtain ⟨x1, x2, x3⟩ := hb ⟨0, 1, 1⟩ (hl.mem_iff.2 (by simp))
  obtain ⟨y1, y2, y3⟩ := hb ⟨1, 0, 1⟩ (hl.mem_iff.2 (by simp))
  obtain ⟨z1, z2, z3⟩ := hb ⟨1, 1, 0⟩ (hl.mem_iff.2 (by simp))
  have ex : (s.lattice * gridPoint 2 ⟨0, 1, 1⟩).mag = x := by rw [hx]; simp [reach, gridPoint]
  have ey : (s.lattice * gridPoint 2 ⟨1, 0, 1⟩).mag = y := by rw [hy]; simp [reach, gridPoint]
  have ez : (s.lattice * gridPoint 2 ⟨1, 1, 0⟩).mag = z := by rw [hz]; simp [reach, gridPoint]
  have mx := middle_short hdet (u := gridPoint 2 ⟨0, 2, 0⟩) (v := gridPoint 2 ⟨0, 0, 2⟩) (w := gridPoint 2 ⟨0, 1, 1⟩)
    (fun e => by simpa [gridPoint] using congrArg Vec3.y e) (by ext <;> simp [gridPoint] <;> norm_num)
  have my := middle_short hdet (u := gridPoint 2 ⟨2, 0, 0⟩) (v := gridPoint 2 ⟨0, 0, 2⟩) (w := gridPoint 2 ⟨1, 0, 1⟩)
    (fun e => by simpa [gridPoint] using congrArg Vec3.x e) (by ext <;> simp [gridPoint] <;> norm_num)
  have mz := middle_short hdet (u := gridPoint 2 ⟨2, 0, 0⟩) (v := gridPoint 2 ⟨0, 2, 0⟩) (w := gridPoint 2 ⟨1, 1, 0⟩)
    (fun e => by simpa [gridPoint] using congrArg Vec3.x e) (by ext <;> simp [gridPoint] <;> norm_num)
  obtain ⟨ea, eb, ec⟩ := reach_units (s := s) (N := 2) (by norm_num)
  simp only [Nat.cast_ofNat] at u1 u2 u3 x1 x2 x3 y1 y2 y3 z1 z2 z3 ea eb ec
  rw [ex] at x1 x2 x3 mx
  rw [ey] at y1 y2 y3 my
  rw [ez] at z1 z2 z3 mz
  rw [eb, ec] at mx
  rw [ea, ec] at my
  rw [ea, eb] at mz
  have hc := hc (by rw [x2, x3]; exact mx) (by rw [y1, y3]; exact my) (by rw [z1, z2]; exact mz)
  have hiff : flatFace (gridSort s.lattice 2 (unitsZ 2 ++ l)) ↔
      (FlatOrder s.a s.b s.c x y z ∧ (s.a ≤ s.b ∨ s.b ≤ z)) ∨ (FlatOrder s.b s.c s.a y z x ∧ (s.b ≤ s.c ∨ s.c ≤ x)) ∨
        (FlatOrder s.c s.a s.b z x y ∧ (s.c < s.a ∨ s.a ≤ y)) := by
    unfold flatFace FlatOrder
    simp only [u1, u2, u3, x1, x2, x3, y1, y2, y3, z1, z2, z3, not_le, and_assoc]
  split at hc
  · rename_i hh
    rw [hiff] at hh
    obtain ⟨s', e, hv⟩ := k2 0 hc
    exact ⟨s', e, fun _ => by rw [hv]; norm_num, fun hn => absurd hh hn⟩
  · rename_i hh
    rw [hiff] at hh
    obtain ⟨s', e, hv, hw⟩ := k1 hc
    refine ⟨s', e, fun hn => absurd hn hh, fun _ => ⟨hv, ?_⟩⟩
    rw [← hw]; norm_num

/-! ### rhombohedral cells on hexagonal axes -/

/-- `a` and `b` have the same length and enclose 120°, `c` is perpendicular to both. -/
def HexagonalAxes (s : Structure ℝ) : Prop :=
  lenSq s.lattice.col1 = lenSq s.lattice.col0 ∧ 2 * dotp s.lattice.col0 s.lattice.col1 = - lenSq s.lattice.col0 ∧
  dotp s.lattice.col0 s.lattice.col2 = 0 ∧ dotp s.lattice.col1 s.lattice.col2 = 0

theorem hex_edges (hx : HexagonalAxes s) (hdet : s.lattice.det ≠ 0) :
    s.a = s.b ∧ 0 < lenSq s.lattice.col0 ∧ 0 < lenSq s.lattice.col2 := by
  refine ⟨?_, ?_, ?_⟩
  · unfold Structure.a Structure.b
    rw [mag_eq, mag_eq, hx.1]
  · rcases (lenSq_nonneg s.lattice.col0).lt_or_eq with h | h
    · exact h
    · have h0 := vec_zero_of_lenSq h.symm
      have e1 := congrArg Vec3.x h0
      have e2 := congrArg Vec3.y h0
      have e3 := congrArg Vec3.z h0
      simp only [Mat3.col0, Vec3.zero_x, Vec3.zero_y, Vec3.zero_z] at e1 e2 e3
      exact absurd (by simp [Mat3.det, e1, e2, e3]) hdet
  · rcases (lenSq_nonneg s.lattice.col2).lt_or_eq with h | h
    · exact h
    · have h0 := vec_zero_of_lenSq h.symm
      have e1 := congrArg Vec3.x h0
      have e2 := congrArg Vec3.y h0
      have e3 := congrArg Vec3.z h0
      simp only [Mat3.col2, Vec3.zero_x, Vec3.zero_y, Vec3.zero_z] at e1 e2 e3
      exact absurd (by simp [Mat3.det, e1, e2, e3]) hdet

theorem hex_len (hx : HexagonalAxes s) (k : Vec3 ℤ) : lenSq (s.lattice * gridPoint 3 k) =
    lenSq s.lattice.col0 * (((k.x * k.x + k.y * k.y - k.x * k.y : ℤ) : ℝ) / 9) + lenSq s.lattice.col2 * (((k.z * k.z : ℤ) : ℝ) / 9) := by
  obtain ⟨h1, h2, h3, h4⟩ := hx
  have e : lenSq (s.lattice * gridPoint 3 k) = (k.x / 3) ^ 2 * lenSq s.lattice.col0 + (k.y / 3) ^ 2 * lenSq s.lattice.col1 +
      (k.z / 3) ^ 2 * lenSq s.lattice.col2 + (k.x / 3) * (k.y / 3) * (2 * dotp s.lattice.col0 s.lattice.col1) +
      2 * (k.x / 3) * (k.z / 3) * dotp s.lattice.col0 s.lattice.col2 + 2 * (k.y / 3) * (k.z / 3) * dotp s.lattice.col1 s.lattice.col2 := by
    simp [lenSq, gridPoint, Mat3.col0, Mat3.col1, Mat3.col2, dotp]
    ring
  rw [e, h1, h2, h3, h4]
  push_cast
  ring

/-- of two centring vectors the shorter one comes first. -/
theorem sorted_strict {l : List (Vec3 ℤ)} {x y : Vec3 ℤ} (hnd : (unitsZ N ++ l).Nodup) (hne : x ≠ y) (hl : l.Perm [x, y])
    (h : (s.lattice * gridPoint N x).mag < (s.lattice * gridPoint N y).mag) : Before (gridSort s.lattice N (unitsZ N ++ l)) x y := by
  have hcase : l = [x, y] ∨ l = [y, x] := by
    have := List.mem_permutations'.2 hl
    simpa [List.permutations', List.permutations'Aux] using this
  rcases hcase with rfl | rfl
  · exact (gridSort_before hnd (List.sublist_append_right _ _)).2 h.le
  · have hn : ¬ Before (gridSort s.lattice N (unitsZ N ++ [y, x])) y x := fun hb =>
      absurd ((gridSort_before hnd (List.sublist_append_right _ _)).1 hb) (not_le.2 h)
    exact (before_total ((gridSort_perm _).mem_iff.2 (by simp)) hne.symm).1 hn

theorem obverse_picks : ∀ p ∈ (unitsZ 3 ++ [(⟨2, 1, 1⟩ : Vec3 ℤ), ⟨1, 2, 2⟩]).permutations', Before p ⟨3, 0, 0⟩ ⟨0, 3, 0⟩ → Before p ⟨2, 1, 1⟩ ⟨1, 2, 2⟩ →
    (Before p ⟨3, 0, 0⟩ ⟨0, 0, 3⟩ ↔ Before p ⟨0, 3, 0⟩ ⟨0, 0, 3⟩) → (Before p ⟨3, 0, 0⟩ ⟨2, 1, 1⟩ ↔ Before p ⟨0, 3, 0⟩ ⟨2, 1, 1⟩) →
    (Before p ⟨3, 0, 0⟩ ⟨1, 2, 2⟩ ↔ Before p ⟨0, 3, 0⟩ ⟨1, 2, 2⟩) → ¬ (Before p ⟨0, 0, 3⟩ ⟨1, 2, 2⟩ ∧ Before p ⟨3, 0, 0⟩ ⟨1, 2, 2⟩) →
    goodPick 3 [⟨2, 1, 1⟩, ⟨1, 2, 2⟩] p = true := by
  decide +kernel

/-- **C79 (rhombohedral cells, obverse setting of the hexagonal axes).**  The cell returned is always primitive. -/
theorem C79_rhombohedral_obverse (r : Reducer ℝ) (ord : List (String × ℕ) → List (String × ℕ)) (ho : ∀ l, (ord l).Perm l)
    (h : CentredCell s 3 [⟨2, 1, 1⟩, ⟨1, 2, 2⟩] r.dtol) (hx : HexagonalAxes s) :
    ∃ s', r.findPrimitiveCell ord s = .ret s' ∧ SpansTranslations s s' ∧ s'.volume * 3 = s.volume := by
  have hdet : s.lattice.det ≠ 0 := (lt_of_le_of_lt (mul_nonneg h.tol.le (by positivity)) h.volume).ne'
  obtain ⟨l, hl, k1, -⟩ := centred_outcome r ord ho h
  have hnd : (unitsZ 3 ++ l).Nodup := (hl.append_left _).nodup_iff.2 (by decide)
  obtain ⟨u1, u2, u3, hb⟩ := sorted_units (s := s) (N := 3) (by norm_num) hnd
  obtain ⟨x1, x2, -⟩ := hb ⟨2, 1, 1⟩ (hl.mem_iff.2 (by simp))
  obtain ⟨y1, y2, y3⟩ := hb ⟨1, 2, 2⟩ (hl.mem_iff.2 (by simp))
  simp only [Nat.cast_ofNat] at u1 u2 u3 x1 x2 y1 y2 y3
  obtain ⟨ea, hpos⟩ := hex_edges hx hdet
  have hX := hex_len hx ⟨2, 1, 1⟩
  have hY := hex_len hx ⟨1, 2, 2⟩
  norm_num at hX hY
  have hxy : (s.lattice * gridPoint 3 ⟨2, 1, 1⟩).mag < (s.lattice * gridPoint 3 ⟨1, 2, 2⟩).mag := by
    rw [← not_le, mag_le_mag_iff, hX, hY]
    linarith [hpos.2]
  have hc := obverse_picks _ (sorted_mem hl s.lattice) (by rw [u1, ea]) (sorted_strict hnd (by simp) hl hxy)
    (by rw [u2, u3, ea]) (by rw [x1, x2, ea]) (by rw [y1, y2, ea]) ?_
  · obtain ⟨s', e, hv, hw⟩ := k1 hc
    refine ⟨s', e, hv, ?_⟩
    rw [← hw]; norm_num
  · rw [y1, y3]
    rintro ⟨h1, h2⟩
    unfold Structure.a at h2
    unfold Structure.c at h1
    rw [mag_le_mag_iff, hY] at h1 h2
    linarith [hpos.1, hpos.2]

theorem reverse_picks : ∀ p ∈ (unitsZ 3 ++ [(⟨1, 2, 1⟩ : Vec3 ℤ), ⟨2, 1, 2⟩]).permutations', Before p ⟨3, 0, 0⟩ ⟨0, 3, 0⟩ → Before p ⟨1, 2, 1⟩ ⟨2, 1, 2⟩ →
    (Before p ⟨3, 0, 0⟩ ⟨0, 0, 3⟩ ↔ Before p ⟨0, 3, 0⟩ ⟨0, 0, 3⟩) → (Before p ⟨3, 0, 0⟩ ⟨1, 2, 1⟩ ↔ Before p ⟨0, 3, 0⟩ ⟨1, 2, 1⟩) →
    (Before p ⟨3, 0, 0⟩ ⟨2, 1, 2⟩ ↔ Before p ⟨0, 3, 0⟩ ⟨2, 1, 2⟩) → ¬ (Before p ⟨0, 0, 3⟩ ⟨2, 1, 2⟩ ∧ Before p ⟨3, 0, 0⟩ ⟨2, 1, 2⟩) →
    goodPick 3 [⟨1, 2, 1⟩, ⟨2, 1, 2⟩] p = true := by
  decide +kernel

/-- **C79 (rhombohedral cells, reverse setting of the hexagonal axes).**  The cell returned is always primitive. -/
theorem C79_rhombohedral_reverse (r : Reducer ℝ) (ord : List (String × ℕ) → List (String × ℕ)) (ho : ∀ l, (ord l).Perm l)
    (h : CentredCell s 3 [⟨1, 2, 1⟩, ⟨2, 1, 2⟩] r.dtol) (hx : HexagonalAxes s) :
    ∃ s', r.findPrimitiveCell ord s = .ret s' ∧ SpansTranslations s s' ∧ s'.volume * 3 = s.volume := by
  have hdet : s.lattice.det ≠ 0 := (lt_of_le_of_lt (mul_nonneg h.tol.le (by positivity)) h.volume).ne'
  obtain ⟨l, hl, k1, -⟩ := centred_outcome r ord ho h
  have hnd : (unitsZ 3 ++ l).Nodup := (hl.append_left _).nodup_iff.2 (by decide)
  obtain ⟨u1, u2, u3, hb⟩ := sorted_units (s := s) (N := 3) (by norm_num) hnd
  obtain ⟨x1, x2, -⟩ := hb ⟨1, 2, 1⟩ (hl.mem_iff.2 (by simp))
  obtain ⟨y1, y2, y3⟩ := hb ⟨2, 1, 2⟩ (hl.mem_iff.2 (by simp))
  simp only [Nat.cast_ofNat] at u1 u2 u3 x1 x2 y1 y2 y3
  obtain ⟨ea, hpos⟩ := hex_edges hx hdet
  have hX := hex_len hx ⟨1, 2, 1⟩
  have hY := hex_len hx ⟨2, 1, 2⟩
  norm_num at hX hY
  have hxy : (s.lattice * gridPoint 3 ⟨1, 2, 1⟩).mag < (s.lattice * gridPoint 3 ⟨2, 1, 2⟩).mag := by
    rw [← not_le, mag_le_mag_iff, hX, hY]
    linarith [hpos.2]
  have hc := reverse_picks _ (sorted_mem hl s.lattice) (by rw [u1, ea]) (sorted_strict hnd (by simp) hl hxy)
    (by rw [u2, u3, ea]) (by rw [x1, x2, ea]) (by rw [y1, y2, ea]) ?_
  · obtain ⟨s', e, hv, hw⟩ := k1 hc
    refine ⟨s', e, hv, ?_⟩
    rw [← hw]; norm_num
  · rw [y1, y3]
    rintro ⟨h1, h2⟩
    unfold Structure.a at h2
    unfold Structure.c at h1
    rw [mag_le_mag_iff, hY] at h1 h2
    linarith [hpos.1, hpos.2]

/-- a result that contains a cell without volume cannot be turned into a space group. -/
theorem C79_no_answer (sa : SymmetryAnalyzer ℝ) (h : HashOrders ℝ) (fuel : ℕ) (s prim : Structure ℝ)
    (hp : sa.reducer.findPrimitiveCell h.minEle s = .ret prim) (h0 : prim.volume = 0) :
    ∀ res, sa.getSpaceGroupInfo h fuel s ≠ .ret res := by
  intro res hr
  have hdet : prim.lattice.det = 0 := by
    simpa [Structure.volume] using h0
  unfold SymmetryAnalyzer.getSpaceGroupInfo at hr
  simp only [Outcome.bind_eq_ret] at hr
  obtain ⟨prim', h1, nig, h2, ⟨T, ch⟩, h3, conv, h4, ⟨P, bravais⟩, h5, sp, h6, gens, h7, sg, h8, system, h9, ident, h10,
    ⟨num', sym'⟩, h11, invP, h12, invT, h13, ops', h14, hfin⟩ := hr
  rw [hp] at h1
  obtain rfl := Outcome.ret.inj h1
  unfold SpaceGroup.applyTransformation at h14
  split at h14
  · exact absurd h14 (by simp)
  · rename_i inv hinv
    have := congrArg Mat3.det (Mat3.tryInverse_eq_some_iff.1 hinv)
    simp only [Mat3.det_mul, Structure.getTransformationMatrix, hdet, mul_zero, zero_mul, Mat3.det_one] at this
    exact zero_ne_one this

end CrystSymm
