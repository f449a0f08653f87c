import Verif.Proofs.RoundedGroup

/-! # The symmetry of a crystal in a box and in the nearly equal box found by the program -/

set_option autoImplicit false
set_option linter.unusedSectionVars false
set_option linter.unusedSimpArgs false

namespace CrystSymm

open Spec Reducer SymmetryAnalyzer

variable {ρ : Rounding} {a b c dtol : RNum ρ} {r A : ℝ} {sp : List String} {ps : List (Vec3 ℝ)}

/-- every entry of the tables contains the identity without a translation. -/
theorem table_identity {sys : LatticeSystem} {n num : ℕ} {codes : List ℕ} {table : List (SymmOp ℝ)}
    (hent : IsTableEntry sys n num codes) (htab : TableOps num codes table) :
    ∃ o ∈ table, intRot o.rotation = 1 ∧ o.translation = 0 := by
  have h := entry_check hent
  unfold entryCheck sgCheck at h
  simp only [Bool.and_eq_true] at h
  have h1 := hasZ_spec h.1.1.1.1.1.1
  refine ⟨opK ℝ oneZ, ?_, ?_, ?_⟩
  · rw [tableOps_eq htab]
    exact List.mem_map_of_mem h1
  · decide
  · ext <;> simp [opK, oneZ]

theorem table_entries {num : ℕ} {codes : List ℕ} {table : List (SymmOp ℝ)} (htab : TableOps num codes table)
    {o : SymmOp ℝ} (ho : o ∈ table) : EntriesOne o.rotation := by
  rw [tableOps_eq htab] at ho
  obtain ⟨z, hz, rfl⟩ := List.mem_map.1 ho
  unfold groupZ at hz
  obtain ⟨code, -, rfl⟩ := List.mem_map.1 hz
  have hr := opZ_range (aCent num) code
  have e := intRot_rotZ hr
  have h1 := hr.1
  rw [← e] at h1
  intro x hx
  refine h1 x.toInt ?_
  have e2 : (intRot (rotZ (opZ (aCent num) code))).toListCM = (rotZ (opZ (aCent num) code)).toListCM.map Int8.toInt := rfl
  rw [e2]
  exact List.mem_map_of_mem hx

theorem no_translations {sys : LatticeSystem} {n num : ℕ} {codes : List ℕ} {table : List (SymmOp ℝ)}
    (hent : IsTableEntry sys n num codes) (htab : TableOps num codes table) {M : Mat3 ℝ} {d : ℝ} (hd : 0 ≤ d) {rots : List (Mat3 Int8)}
    (h : HasSymmetry (idealOn M sp ps) (3 / 2 * d) rots table) (t : Vec3 ℝ)
    (ht : MapsWithin (idealOn M sp ps) (overK ℝ 1) t (3 * d)) : DistMod M (9 / 2 * d) t 0 := by
  obtain ⟨o, ho, h1, h2⟩ := table_identity hent htab
  obtain ⟨o', ho', h3, w, hw, hl⟩ := h.only o.rotation (h.exact o ho).1 t (by
    rw [h1]
    have e : 2 * (3 / 2 * d) = 3 * d := by ring
    rw [e]
    exact ht)
  have hoo := List.inj_on_of_nodup_map (table_rotations hent htab) ho' ho h3
  rw [hoo, h2] at hl
  refine ⟨w, hw, ?_⟩
  rw [mag_le_iff (by linarith)]
  have e : 9 / 2 * d = 3 * (3 / 2 * d) := by ring
  rw [e]
  exact hl

set_option maxHeartbeats 1000000 in
/-- the symmetry in the box found by the program. -/
theorem near_symmetry (hb : BoxBounds a b c dtol r A) {a' b' c' : RNum ρ} (ea : EdgeNear 34 (A * r ^ 2) a a')
    (eb : EdgeNear 34 (A * r ^ 2) b b') (ec : EdgeNear 34 (A * r ^ 2) c c') (hlen : sp.length = ps.length) (hsome : sp ≠ [])
    (hap : PosApart (valM (rbox a b c)) (8 * dtol.val) ps) {rots : List (Mat3 Int8)} {table : List (SymmOp ℝ)}
    (h : HasSymmetry (idealOn (valM (rbox a b c)) sp ps) (3 / 2 * dtol.val) rots table) :
    HasSymmetry (idealOn (valM (rbox a' b' c')) sp ps) (5 / 4 * dtol.val) rots table := by
  have hlo := hb.lo
  refine ⟨fun o ho => ⟨(h.exact o ho).1, (h.exact o ho).2⟩, fun W hW t ht => ?_⟩
  have hnear : MapsWithin (idealOn (valM (rbox a b c)) sp ps) (overK ℝ (intRot W)) t (21 / 8 * dtol.val) := by
    intro e p hep
    obtain ⟨q, hq, w, hw, hm⟩ := ht e p hep
    refine ⟨q, hq, w, hw, ?_⟩
    rw [← mag_le_iff (by linarith)] at hm ⊢
    refine (near_dist hb ea eb ec _).trans ?_
    have : 21 / 20 * (valM (rbox a' b' c') * (overK ℝ (intRot W) * p + t - q - w)).mag ≤ 21 / 20 * (2 * (5 / 4 * dtol.val)) :=
      mul_le_mul_of_nonneg_left hm (by norm_num)
    linarith
  obtain ⟨o, ho, hoW, w0, hw0, hl0⟩ := h.only W hW t (by
    intro e p hep
    obtain ⟨q, hq, w, hw, hm⟩ := hnear e p hep
    exact ⟨q, hq, w, hw, hm.trans (pow_le_pow_left₀ (by linarith) (by linarith) 2)⟩)
  refine ⟨o, ho, hoW, ?_⟩
  -- compare the images of one site
  obtain ⟨e0, he0⟩ : ∃ e0, sp[0]? = some e0 := ⟨_, List.getElem?_eq_getElem (List.length_pos_of_ne_nil hsome)⟩
  obtain ⟨p0, hp0⟩ : ∃ p0, ps[0]? = some p0 :=
    ⟨_, List.getElem?_eq_getElem (by rw [← hlen]; exact List.length_pos_of_ne_nil hsome)⟩
  have hs0 : (e0, p0) ∈ sp.zip ps := mem_zip_iff.2 ⟨0, he0, hp0⟩
  obtain ⟨q, hq, w1, hw1, hm1⟩ := ht e0 p0 hs0
  obtain ⟨q', hq', hsame⟩ := (h.exact o ho).2 e0 p0 hs0
  rw [hoW] at hsame
  obtain ⟨w2, hw2, he2⟩ : ∃ w2, IntVec w2 ∧ overK ℝ (intRot W) * p0 + o.translation - q' = w2 := by
    obtain ⟨⟨i, hi⟩, ⟨j, hj⟩, ⟨k, hk⟩⟩ := hsame
    exact ⟨⟨i, j, k⟩, ⟨_, _, _, rfl⟩, by ext <;> assumption⟩
  have hqq : q = q' := by
    obtain ⟨i, -, hqi⟩ := mem_zip_iff.1 hq
    obtain ⟨j, -, hqj⟩ := mem_zip_iff.1 hq'
    by_cases hij : i = j
    · subst hij
      exact Option.some.inj (hqi.symm.trans hqj)
    · exfalso
      refine hap.get hij hqi hqj ?_
      have d1 : DistMod (valM (rbox a b c)) (21 / 8 * dtol.val) (overK ℝ (intRot W) * p0 + t) q := by
        refine ⟨w1, hw1, (near_dist hb ea eb ec _).trans ?_⟩
        rw [← mag_le_iff (by linarith)] at hm1
        have : 21 / 20 * (valM (rbox a' b' c') * (overK ℝ (intRot W) * p0 + t - q - w1)).mag ≤ 21 / 20 * (2 * (5 / 4 * dtol.val)) :=
          mul_le_mul_of_nonneg_left hm1 (by norm_num)
        linarith
      have d2 : DistMod (valM (rbox a b c)) (9 / 2 * dtol.val) (overK ℝ (intRot W) * p0 + t) (overK ℝ (intRot W) * p0 + o.translation) := by
        refine ⟨w0, hw0, ?_⟩
        rw [mag_le_iff (by linarith)]
        have e : overK ℝ (intRot W) * p0 + t - (overK ℝ (intRot W) * p0 + o.translation) - w0 = t - o.translation - w0 := by
          ext <;> simp
        have e' : 9 / 2 * dtol.val = 3 * (3 / 2 * dtol.val) := by ring
        rw [e, e']
        exact hl0
      have d3 : DistMod (valM (rbox a b c)) 0 (overK ℝ (intRot W) * p0 + o.translation) q' := by
        refine ⟨w2, hw2, ?_⟩
        rw [he2, mag_le_iff le_rfl]
        simp [lenSq]
      exact ((d1.symm.trans d2).trans d3).mono (by linarith)
  subst hqq
  refine ⟨w1 - w2, by
    obtain ⟨i, j, k, rfl⟩ := hw1
    obtain ⟨i', j', k', rfl⟩ := hw2
    exact ⟨i - i', j - j', k - k', by ext <;> simp⟩, ?_⟩
  have e : t - o.translation - (w1 - w2) = overK ℝ (intRot W) * p0 + t - q - w1 := by
    rw [← he2]
    ext <;> simp <;> ring
  show lenSq (valM (rbox a' b' c') * (t - o.translation - (w1 - w2))) ≤ _
  rw [e]
  exact hm1.trans (pow_le_pow_left₀ (by linarith) (by linarith) 2)

theorem total_near (hi : BoxInput a b c dtol r A) {x : RNum ρ} (h1 : 1 / 2 ≤ x.val) (h2 : x.val ≤ A) (h3 : 1 / 2 ≤ (newEdge x).val)
    (h4 : (newEdge x).val ≤ A) : NearUnit (1 / newEdge x * newEdge x * (1 / newEdge x * x)) := by
  have hb := hi.bounds
  have hu := hb.u1
  have hhi := hb.hi
  have hu0 := hb.u0
  have e : EdgeNear 34 (A * r ^ 2) x (newEdge x) := edge_close hb h1 h2
  have k1 := trans_close hb (k := 0) ⟨le_rfl, by norm_num⟩ (by linarith) (by linarith) h3 (edge_refl hb (newEdge x))
  have k2 := trans_close hb (k := 34) ⟨by norm_num, by norm_num⟩ (by linarith) (by linarith) h3 e
  generalize A * r ^ 2 = u at *
  have k := near_mul hb (p := (2 * 0 + 15) * u) (q := (2 * 34 + 15) * u) (by norm_num; linarith) (by norm_num; linarith) k1 k2
  unfold NearUnit
  refine k.trans ?_
  norm_num
  linarith

end CrystSymm
