import Verif.Proofs.AxisPick
import Verif.Props.CentredBoxes

set_option autoImplicit false
set_option linter.unusedSectionVars false

/-! # C98: the primitive cell of a cell repeated along one axis -/

namespace CrystSymm

open Spec Reducer

/-- the vectors `e`, `2 e`, …, `(n - 1) e`. -/
def repeats (n : ℕ) (e : Vec3 ℤ) : List (Vec3 ℤ) := (List.range (n - 1)).map fun i : ℕ => Vec3.scale ((i : ℤ) + 1) e

theorem mem_repeats {n : ℕ} {e v : Vec3 ℤ} : v ∈ repeats n e ↔ ∃ k : ℤ, 1 ≤ k ∧ k < n ∧ v = Vec3.scale k e := by
  unfold repeats
  simp only [List.mem_map, List.mem_range]
  constructor
  · rintro ⟨i, hi, rfl⟩
    exact ⟨(i : ℤ) + 1, by omega, by omega, rfl⟩
  · rintro ⟨k, h1, h2, rfl⟩
    exact ⟨(k - 1).toNat, by omega, by congr 1; omega⟩

theorem repeats_length (n : ℕ) (e : Vec3 ℤ) : (repeats n e).length = n - 1 := by simp [repeats]

variable {s : Structure ℝ} {n : ℕ} {e F G : Vec3 ℤ} {L : Mat3 ℝ}

theorem edge_pos {d : ℝ} {hs : List (Vec3 ℤ)} (h : CentredCell s n hs d) : 0 < s.a ∧ 0 < s.b ∧ 0 < s.c := by
  obtain ⟨h1, h2, h3⟩ := h.cols
  have : 0 ≤ (n : ℝ) * d := mul_nonneg (Nat.cast_nonneg _) h.tol.le
  exact ⟨by linarith, by linarith, by linarith⟩

theorem before_of_lt {l : List (Vec3 ℤ)} (hl : l.Nodup) {u v : Vec3 ℤ} (hu : u ∈ l) (hv : v ∈ l)
    (h : (L * gridPoint n u).mag < (L * gridPoint n v).mag) : Before (gridSort L n l) u v := by
  have hnd : (gridSort L n l).Nodup := (gridSort_perm l).nodup_iff.2 hl
  have hne : v ≠ u := by
    rintro rfl
    exact lt_irrefl _ h
  rw [← before_total ((gridSort_perm l).mem_iff.2 hv) hne]
  intro hb
  have hs : (gridSort L n l).Pairwise fun a b => (L * gridPoint n a).mag ≤ (L * gridPoint n b).mag := by
    have := List.pairwise_mergeSort (le := fun u v : Vec3 ℤ => decide ((L * gridPoint n u).mag ≤ (L * gridPoint n v).mag))
      (by intro a b c; simp only [decide_eq_true_eq]; exact le_trans)
      (by intro a b; simp only [Bool.or_eq_true, decide_eq_true_eq]; exact le_total _ _) l
    exact this.imp fun h => by simpa using h
  obtain ⟨A, B, hp⟩ := List.append_of_mem ((gridSort_perm (L := L) (N := n) l).mem_iff.2 hu)
  rw [hp, before_split (hp ▸ hnd)] at hb
  rw [hp, List.pairwise_append] at hs
  exact absurd (hs.2.2 v hb u (by simp)) (not_le.2 h)

theorem gridPoint_scale (k : ℤ) (v : Vec3 ℤ) : gridPoint n (Vec3.scale k v) = Vec3.scale (k : ℝ) (gridPoint n v) := by
  ext <;> simp [gridPoint, Vec3.scale, mul_div_assoc]

theorem mag_multiple {k : ℤ} (hk : 0 ≤ k) (v : Vec3 ℤ) : (L * gridPoint n (Vec3.scale k v)).mag = k * (L * gridPoint n v).mag := by
  have e1 : L * gridPoint n (Vec3.scale k v) = Vec3.scale (k : ℝ) (L * gridPoint n v) := by
    rw [gridPoint_scale]
    ext <;> simp [Vec3.scale] <;> ring
  have hk' : (0 : ℝ) ≤ k := by exact_mod_cast hk
  rw [e1, mag_eq, mag_eq, show lenSq (Vec3.scale (k : ℝ) (L * gridPoint n v)) = (k : ℝ) ^ 2 * lenSq (L * gridPoint n v) by
    simp only [lenSq, Vec3.scale]; ring, Real.sqrt_mul (by positivity), Real.sqrt_sq hk']

/-- the sorted translations of a repeated cell. -/
theorem repeated_order (hdet : L.det ≠ 0) (hn : 2 ≤ n) (hu : [Vec3.scale (n : ℤ) e, F, G].Perm (unitsZ n)) (hr : 0 < (e.cross F).dot G)
    {l : List (Vec3 ℤ)} (hl : l.Perm (repeats n e)) (hnd : (unitsZ n ++ l).Nodup) :
    AxisOrder n (gridSort L n (unitsZ n ++ l)) e F G := by
  have hmem : ∀ v, v ∈ unitsZ n ++ l ↔ v = F ∨ v = G ∨ ∃ k : ℤ, 1 ≤ k ∧ k ≤ n ∧ v = Vec3.scale k e := by
    intro v
    rw [List.mem_append, ← hu.mem_iff, hl.mem_iff, mem_repeats]
    simp only [List.mem_cons, List.not_mem_nil, or_false]
    constructor
    · rintro ((h | h | h) | ⟨k, h1, h2, h3⟩)
      · exact Or.inr (Or.inr ⟨n, by omega, le_rfl, h⟩)
      · exact Or.inl h
      · exact Or.inr (Or.inl h)
      · exact Or.inr (Or.inr ⟨k, h1, h2.le, h3⟩)
    · rintro (h | h | ⟨k, h1, h2, h3⟩)
      · exact Or.inl (Or.inr (Or.inl h))
      · exact Or.inl (Or.inr (Or.inr h))
      · rcases h2.eq_or_lt with rfl | h2
        · exact Or.inl (Or.inl h3)
        · exact Or.inr ⟨k, h1, h2, h3⟩
  have e0 : e ≠ 0 := by
    rintro rfl
    exact absurd hr (by simp [Vec3.cross, Vec3.dot])
  have hpos : 0 < (L * gridPoint n e).mag := by
    rw [mag_eq, Real.sqrt_pos]
    rcases (lenSq_nonneg (L * gridPoint n e)).lt_or_eq with h | h
    · exact h
    · exfalso
      have h0 : gridPoint n e = 0 := mulVec_injective hdet (by rw [vec_zero_of_lenSq h.symm, Mat3.mulVec_zero]; rfl)
      have hn0 : (n : ℝ) ≠ 0 := by have : n ≠ 0 := by omega
                                   exact_mod_cast this
      apply e0
      have hx := congrArg Vec3.x h0
      have hy := congrArg Vec3.y h0
      have hz := congrArg Vec3.z h0
      simp [gridPoint, hn0] at hx hy hz
      ext
      · exact hx
      · exact hy
      · exact hz
  have hlt : ∀ j k : ℤ, 1 ≤ j → j < k → k ≤ n → Before (gridSort L n (unitsZ n ++ l)) (Vec3.scale j e) (Vec3.scale k e) := by
    intro j k h1 h2 h3
    refine before_of_lt hnd ((hmem _).2 (Or.inr (Or.inr ⟨j, h1, by omega, rfl⟩))) ((hmem _).2 (Or.inr (Or.inr ⟨k, by omega, h3, rfl⟩))) ?_
    rw [mag_multiple (by omega), mag_multiple (by omega)]
    have : (j : ℝ) < k := by exact_mod_cast h2
    exact mul_lt_mul_of_pos_right this hpos
  refine ⟨(gridSort_perm _).nodup_iff.2 hnd, fun v => by rw [(gridSort_perm _).mem_iff, hmem], hn, fun k h1 h2 => ?_,
    fun k h1 h2 => hlt 2 k (by norm_num) (by omega) h2, hr⟩
  have := hlt 1 k le_rfl (by omega) h2
  rwa [scale_one] at this

/-- three vectors in any order. -/
theorem perm_three {x y z : Vec3 ℤ} (h : [x, y, z].Perm [e, F, G]) : (x = e ∧ y = F ∧ z = G) ∨ (x = F ∧ y = e ∧ z = G) ∨
    (x = F ∧ y = G ∧ z = e) ∨ (x = e ∧ y = G ∧ z = F) ∨ (x = G ∧ y = e ∧ z = F) ∨ (x = G ∧ y = F ∧ z = e) := by
  have := List.mem_permutations'.2 h
  simpa [List.permutations', List.permutations'Aux] using this

theorem good_of_basis (hn : 2 ≤ n) (hu : [Vec3.scale (n : ℤ) e, F, G].Perm (unitsZ n)) (hr : (e.cross F).dot G = (n : ℤ) ^ 2)
    {p : List (Vec3 ℤ)} (hp : PicksBasis p e F G) : goodPick n (repeats n e) p = true := by
  obtain ⟨x, y, z, hz, hperm⟩ := hp
  have hdet : (Mat3.ofCols x y z).det.natAbs = n ^ 2 := by
    have d : (Mat3.ofCols x y z).det = (n : ℤ) ^ 2 ∨ (Mat3.ofCols x y z).det = -(n : ℤ) ^ 2 := by
      simp only [Vec3.cross, Vec3.dot] at hr
      rcases perm_three hperm with ⟨rfl, rfl, rfl⟩ | ⟨rfl, rfl, rfl⟩ | ⟨rfl, rfl, rfl⟩ | ⟨rfl, rfl, rfl⟩ | ⟨rfl, rfl, rfl⟩ | ⟨rfl, rfl, rfl⟩ <;>
        simp only [Mat3.ofCols, Mat3.det] <;> first | (left; linarith) | (right; linarith)
    have hnat : ((n : ℤ) ^ 2).natAbs = n ^ 2 := by
      rw [Int.natAbs_pow, Int.natAbs_natCast]
    rcases d with d | d <;> rw [d]
    · exact hnat
    · rw [Int.natAbs_neg]; exact hnat
  have hd0 : (Mat3.ofCols x y z).det ≠ 0 := by
    intro h0
    rw [h0] at hdet
    have : 0 < n ^ 2 := by positivity
    simp at hdet
    omega
  have hcol : ∀ w ∈ [x, y, z], ∀ j : ℤ, ∃ t : Vec3 ℤ, Mat3.ofCols x y z * t = Vec3.scale j w := by
    intro w hw j
    simp only [List.mem_cons, List.not_mem_nil, or_false] at hw
    rcases hw with rfl | rfl | rfl
    · exact ⟨⟨j, 0, 0⟩, by ext <;> simp [Mat3.ofCols, Vec3.scale, mul_comm]⟩
    · exact ⟨⟨0, j, 0⟩, by ext <;> simp [Mat3.ofCols, Vec3.scale, mul_comm]⟩
    · exact ⟨⟨0, 0, j⟩, by ext <;> simp [Mat3.ofCols, Vec3.scale, mul_comm]⟩
  have hspan : ∀ k ∈ unitsZ n ++ repeats n e, ∃ t : Vec3 ℤ, Mat3.ofCols x y z * t = k := by
    intro k hk
    rw [List.mem_append, ← hu.mem_iff, mem_repeats] at hk
    simp only [List.mem_cons, List.not_mem_nil, or_false] at hk
    rcases hk with (rfl | rfl | rfl) | ⟨j, -, -, rfl⟩
    · exact hcol e (hperm.mem_iff.2 (by simp)) n
    · obtain ⟨t, ht⟩ := hcol k (hperm.mem_iff.2 (by simp)) 1
      exact ⟨t, by rw [ht, scale_one]⟩
    · obtain ⟨t, ht⟩ := hcol k (hperm.mem_iff.2 (by simp)) 1
      exact ⟨t, by rw [ht, scale_one]⟩
    · exact hcol e (hperm.mem_iff.2 (by simp)) j
  have hin : ∀ w ∈ [x, y, z], w ∈ unitsZ n ++ repeats n e := by
    intro w hw
    have := hperm.mem_iff.1 hw
    rw [List.mem_append, ← hu.mem_iff, mem_repeats]
    simp only [List.mem_cons, List.not_mem_nil, or_false] at this ⊢
    rcases this with rfl | rfl | rfl
    · exact Or.inr ⟨1, le_rfl, by omega, (scale_one _).symm⟩
    · exact Or.inl (Or.inr (Or.inl rfl))
    · exact Or.inl (Or.inr (Or.inr rfl))
  unfold goodPick
  rw [hz]
  simp only [Bool.and_eq_true, decide_eq_true_eq, List.all_eq_true]
  refine ⟨⟨⟨?_, hd0⟩, hin x (by simp), hin y (by simp), hin z (by simp)⟩, fun k hk => ?_⟩
  · rw [hdet, repeats_length, Nat.sub_add_cancel (by omega)]
    ring
  · obtain ⟨t, rfl⟩ := hspan k hk
    have ha : (Mat3.ofCols x y z).adj * (Mat3.ofCols x y z * t) = Vec3.scale (Mat3.ofCols x y z).det t := by
      ext <;> simp [Mat3.adj, Mat3.det, Vec3.scale] <;> ring
    rw [ha]
    simp [Vec3.scale]

theorem flat_pickDet {p : List (Vec3 ℤ)} (hp : PicksFlat p) : pickDet 0 p = true := by
  obtain ⟨x, y, z, hz, h0⟩ := hp
  unfold pickDet
  rw [hz]
  simp [h0]

/-- what is returned for a repeated cell, in terms of the sorted list. -/
theorem repeated_outcome (r : Reducer ℝ) (ord : List (String × ℕ) → List (String × ℕ)) (ho : ∀ l, (ord l).Perm l) (hn : 2 ≤ n)
    (hu : [Vec3.scale (n : ℤ) e, F, G].Perm (unitsZ n)) (hr : (e.cross F).dot G = (n : ℤ) ^ 2) (h : CentredCell s n (repeats n e) r.dtol) :
    ∃ l s', l.Perm (repeats n e) ∧ (unitsZ n ++ l).Nodup ∧ r.findPrimitiveCell ord s = .ret s' ∧
      (BadOrder (gridSort s.lattice n (unitsZ n ++ l)) e F G → s'.volume = 0) ∧
      (¬ BadOrder (gridSort s.lattice n (unitsZ n ++ l)) e F G → SpansTranslations s s' ∧ s'.volume * n = s.volume) := by
  have hdet : s.lattice.det ≠ 0 := (lt_of_le_of_lt (mul_nonneg h.tol.le (by positivity)) h.volume).ne'
  obtain ⟨l, hl, k1, k2⟩ := centred_outcome r ord ho h
  have hnz : (0 : ℤ) < n := by omega
  have hnd : (unitsZ n ++ l).Nodup := by
    obtain ⟨-, h1, h2⟩ := h.grid
    rw [List.nodup_append]
    refine ⟨?_, hl.nodup_iff.2 h1, ?_⟩
    · have hn0 : n ≠ 0 := by omega
      simp [unitsZ, hn0]
    · rintro u hu _ hv rfl
      have := (h2 u (hl.mem_iff.1 hv)).2
      simp only [unitsZ, List.mem_cons, List.not_mem_nil, or_false] at hu
      rcases hu with rfl | rfl | rfl <;> simp at this
  have hord := repeated_order (L := s.lattice) hdet hn hu (by rw [hr]; positivity) hl hnd
  obtain ⟨hbad, hgood⟩ := axis_pick hord
  by_cases hb : BadOrder (gridSort s.lattice n (unitsZ n ++ l)) e F G
  · obtain ⟨s', hs', hv⟩ := k2 0 (flat_pickDet (hbad hb))
    exact ⟨l, s', hl, hnd, hs', fun _ => by rw [hv]; simp, fun hh => absurd hb hh⟩
  · obtain ⟨s', hs', hv, hw⟩ := k1 (good_of_basis hn hu hr (hgood hb))
    refine ⟨l, s', hl, hnd, hs', fun hh => absurd hh hb, fun _ => ⟨hv, ?_⟩⟩
    rw [← hw, repeats_length]
    congr 1
    have : ((n - 1 : ℕ) : ℝ) + 1 = n := by
      rw [← Nat.cast_succ, Nat.succ_eq_add_one, Nat.sub_add_cancel (by omega)]
    exact this.symm

/-- twice the repeated vector, with the length `u`, is sorted before an edge of the length `v`. If they are equally long this is the case
only for a doubled cell, where twice the repeated vector is an edge itself, the one listed first. -/
def Spec.Sooner (n : ℕ) (u v : ℝ) : Prop := u < v ∨ n = 2 ∧ u = v

theorem before_two (hn : 2 ≤ n) (he : Vec3.scale (n : ℤ) e ∈ unitsZ n) {l : List (Vec3 ℤ)} (hl : l.Perm (repeats n e))
    (hnd : (unitsZ n ++ l).Nodup) {X : Vec3 ℤ} (hX : X ∈ unitsZ n) (hne : Vec3.scale (n : ℤ) e ≠ X) :
    (n = 2 → Vec3.scale 2 e = Vec3.scale (n : ℤ) e) ∧
    (3 ≤ n → (Before (gridSort L n (unitsZ n ++ l)) (Vec3.scale 2 e) X ↔ 2 * (L * gridPoint n e).mag < (L * gridPoint n X).mag)) := by
  refine ⟨fun h => by rw [h]; rfl, fun h3 => ?_⟩
  have hm : Vec3.scale 2 e ∈ l := hl.mem_iff.2 (mem_repeats.2 ⟨2, by norm_num, by omega, rfl⟩)
  have hne2 : X ≠ Vec3.scale 2 e := by
    rintro rfl
    exact (List.nodup_append.1 hnd).2.2 _ hX _ hm rfl
  have hmem : X ∈ gridSort L n (unitsZ n ++ l) := (gridSort_perm _).mem_iff.2 (by simp [hX])
  rw [← before_total hmem hne2, gridSort_before hnd (units_sublist hX hm), not_le, mag_multiple (by norm_num)]
  norm_num

theorem before_axis (hn : 2 ≤ n) {l : List (Vec3 ℤ)} (hl : l.Perm (repeats n e)) (hnd : (unitsZ n ++ l).Nodup) {X : Vec3 ℤ}
    (hX : X ∈ unitsZ n) :
    (Before (gridSort L n (unitsZ n ++ l)) X e ↔ (L * gridPoint n X).mag ≤ (L * gridPoint n e).mag) ∧
    (Before (gridSort L n (unitsZ n ++ l)) e X ↔ (L * gridPoint n e).mag < (L * gridPoint n X).mag) := by
  have hm : e ∈ l := hl.mem_iff.2 (mem_repeats.2 ⟨1, le_rfl, by omega, (scale_one e).symm⟩)
  have hne : X ≠ e := by
    rintro rfl
    exact (List.nodup_append.1 hnd).2.2 _ hX _ hm rfl
  have hmem : X ∈ gridSort L n (unitsZ n ++ l) := (gridSort_perm _).mem_iff.2 (by simp [hX])
  have h1 := gridSort_before (L := L) (N := n) hnd (units_sublist hX hm)
  exact ⟨h1, by rw [← before_total hmem hne, h1, not_le]⟩

theorem axis_edge (hn : 2 ≤ n) {m : ℝ} (h : (L * gridPoint n (Vec3.scale (n : ℤ) e)).mag = m) : (L * gridPoint n e).mag = m / n := by
  have hn0 : (n : ℝ) ≠ 0 := by
    have : n ≠ 0 := by omega
    exact_mod_cast this
  rw [mag_multiple (by omega)] at h
  rw [← h]
  push_cast
  field_simp

theorem sooner_of (hn : 2 ≤ n) {p : List (Vec3 ℤ)} {E X : Vec3 ℤ} {a m : ℝ} (hE : n = 2 → Vec3.scale 2 e = E)
    (h3 : 3 ≤ n → (Before p (Vec3.scale 2 e) X ↔ 2 * (a / n) < m)) (h2 : n = 2 → (Before p E X ↔ a ≤ m)) :
    Before p (Vec3.scale 2 e) X ↔ Spec.Sooner n (2 * (a / n)) m := by
  unfold Spec.Sooner
  rcases (show n = 2 ∨ 3 ≤ n by omega) with rfl | h
  · have e2 : 2 * (a / ((2 : ℕ) : ℝ)) = a := by push_cast; ring
    rw [hE rfl, h2 rfl, e2]
    simp only [true_and]
    exact le_iff_lt_or_eq
  · rw [h3 h]
    constructor
    · exact Or.inl
    · rintro (h | ⟨h, -⟩)
      · exact h
      · omega

theorem later_of (hn : 2 ≤ n) {p : List (Vec3 ℤ)} {E X : Vec3 ℤ} {a m : ℝ} (hE : n = 2 → Vec3.scale 2 e = E)
    (h3 : 3 ≤ n → (Before p (Vec3.scale 2 e) X ↔ 2 * (a / n) < m)) (h2 : n = 2 → (Before p E X ↔ a < m)) :
    Before p (Vec3.scale 2 e) X ↔ 2 * (a / n) < m := by
  rcases (show n = 2 ∨ 3 ≤ n by omega) with rfl | h
  · have e2 : 2 * (a / ((2 : ℕ) : ℝ)) = a := by push_cast; ring
    rw [hE rfl, h2 rfl, e2]
  · exact h3 h

/-- **C98 (repeated along the first edge).** The vectors picked lie in one plane, and the cell returned has no volume, exactly in the
two cases named; otherwise the cell returned is primitive. -/
theorem C98_repeated_a (r : Reducer ℝ) (ord : List (String × ℕ) → List (String × ℕ)) (ho : ∀ l, (ord l).Perm l) (hn : 2 ≤ n)
    (h : CentredCell s n (repeats n ⟨1, 0, 0⟩) r.dtol) : ∃ s', r.findPrimitiveCell ord s = .ret s' ∧
      ((s.b ≤ s.a / n ∧ Spec.Sooner n (2 * (s.a / n)) s.c) ∨ (s.a / n < s.c ∧ s.c < s.b ∧ Spec.Sooner n (2 * (s.a / n)) s.b) →
        s'.volume = 0) ∧
      (¬ ((s.b ≤ s.a / n ∧ Spec.Sooner n (2 * (s.a / n)) s.c) ∨ (s.a / n < s.c ∧ s.c < s.b ∧ Spec.Sooner n (2 * (s.a / n)) s.b)) →
        SpansTranslations s s' ∧ s'.volume * n = s.volume) := by
  have hn0 : (n : ℝ) ≠ 0 := by
    have : n ≠ 0 := by omega
    exact_mod_cast this
  have hu : [Vec3.scale (n : ℤ) (⟨1, 0, 0⟩ : Vec3 ℤ), ⟨0, n, 0⟩, ⟨0, 0, n⟩].Perm (unitsZ n) := by
    rw [show Vec3.scale (n : ℤ) (⟨1, 0, 0⟩ : Vec3 ℤ) = ⟨n, 0, 0⟩ by ext <;> simp [Vec3.scale]]
    exact List.Perm.refl _
  obtain ⟨l, s', hl, hnd, hs', hb, hg⟩ := repeated_outcome r ord ho hn hu (by simp [Vec3.cross, Vec3.dot]; ring) h
  obtain ⟨ea, eb, ec⟩ := reach_units (s := s) (N := n) (by omega)
  have se : Vec3.scale (n : ℤ) (⟨1, 0, 0⟩ : Vec3 ℤ) = ⟨n, 0, 0⟩ := by ext <;> simp [Vec3.scale]
  have el : (s.lattice * gridPoint n ⟨1, 0, 0⟩).mag = s.a / n := axis_edge hn (by rw [se]; exact ea)
  obtain ⟨u1, u2, u3, -⟩ := sorted_units (s := s) (N := n) (by omega) hnd
  have hm : ∀ X ∈ [(⟨n, 0, 0⟩ : Vec3 ℤ), ⟨0, n, 0⟩, ⟨0, 0, n⟩], X ∈ unitsZ n := fun X hX => hX
  have xb := before_axis (L := s.lattice) hn hl hnd (hm ⟨0, n, 0⟩ (by simp))
  have xc := before_axis (L := s.lattice) hn hl hnd (hm ⟨0, 0, n⟩ (by simp))
  have tb := before_two (L := s.lattice) hn (by rw [se]; simp [unitsZ]) hl hnd (hm ⟨0, n, 0⟩ (by simp)) (by rw [se]; simp; omega)
  have tc := before_two (L := s.lattice) hn (by rw [se]; simp [unitsZ]) hl hnd (hm ⟨0, 0, n⟩ (by simp)) (by rw [se]; simp; omega)
  rw [el, eb] at xb tb
  rw [el, ec] at xc tc
  have cb : Before (gridSort s.lattice n (unitsZ n ++ l)) ⟨0, 0, n⟩ ⟨0, n, 0⟩ ↔ s.c < s.b := by
    rw [← before_total ((gridSort_perm _).mem_iff.2 (by simp [unitsZ])) (by simp; omega), u3, not_le]
  have hbad : BadOrder (gridSort s.lattice n (unitsZ n ++ l)) ⟨1, 0, 0⟩ ⟨0, n, 0⟩ ⟨0, 0, n⟩ ↔
      (s.b ≤ s.a / n ∧ Spec.Sooner n (2 * (s.a / n)) s.c) ∨ (s.a / n < s.c ∧ s.c < s.b ∧ Spec.Sooner n (2 * (s.a / n)) s.b) := by
    unfold BadOrder
    rw [xb.1, xc.2, cb, sooner_of (E := ⟨n, 0, 0⟩) hn (fun h => by rw [h]; rfl) tc.2 (fun _ => u2), sooner_of (E := ⟨n, 0, 0⟩) hn (fun h => by rw [h]; rfl) tb.2 (fun _ => u1)]
  exact ⟨s', hs', fun hh => hb (hbad.2 hh), fun hh => hg fun h2 => hh (hbad.1 h2)⟩

/-- **C98 (repeated along the second edge).** -/
theorem C98_repeated_b (r : Reducer ℝ) (ord : List (String × ℕ) → List (String × ℕ)) (ho : ∀ l, (ord l).Perm l) (hn : 2 ≤ n)
    (h : CentredCell s n (repeats n ⟨0, 1, 0⟩) r.dtol) : ∃ s', r.findPrimitiveCell ord s = .ret s' ∧
      ((s.c ≤ s.b / n ∧ 2 * (s.b / n) < s.a) ∨ (s.b / n < s.a ∧ s.a ≤ s.c ∧ Spec.Sooner n (2 * (s.b / n)) s.c) → s'.volume = 0) ∧
      (¬ ((s.c ≤ s.b / n ∧ 2 * (s.b / n) < s.a) ∨ (s.b / n < s.a ∧ s.a ≤ s.c ∧ Spec.Sooner n (2 * (s.b / n)) s.c)) →
        SpansTranslations s s' ∧ s'.volume * n = s.volume) := by
  have se : Vec3.scale (n : ℤ) (⟨0, 1, 0⟩ : Vec3 ℤ) = ⟨0, n, 0⟩ := by ext <;> simp [Vec3.scale]
  have hu : [Vec3.scale (n : ℤ) (⟨0, 1, 0⟩ : Vec3 ℤ), ⟨0, 0, n⟩, ⟨n, 0, 0⟩].Perm (unitsZ n) := by
    rw [se]
    exact List.perm_append_comm (l₁ := [_, _]) (l₂ := [_])
  obtain ⟨l, s', hl, hnd, hs', hb, hg⟩ := repeated_outcome r ord ho hn hu (by simp [Vec3.cross, Vec3.dot]; ring) h
  obtain ⟨ea, eb, ec⟩ := reach_units (s := s) (N := n) (by omega)
  have el : (s.lattice * gridPoint n ⟨0, 1, 0⟩).mag = s.b / n := axis_edge hn (by rw [se]; exact eb)
  obtain ⟨u1, u2, u3, -⟩ := sorted_units (s := s) (N := n) (by omega) hnd
  have hm : ∀ X ∈ [(⟨n, 0, 0⟩ : Vec3 ℤ), ⟨0, n, 0⟩, ⟨0, 0, n⟩], X ∈ unitsZ n := fun X hX => hX
  have xa := before_axis (L := s.lattice) hn hl hnd (hm ⟨n, 0, 0⟩ (by simp))
  have xc := before_axis (L := s.lattice) hn hl hnd (hm ⟨0, 0, n⟩ (by simp))
  have ta := before_two (L := s.lattice) hn (by rw [se]; simp [unitsZ]) hl hnd (hm ⟨n, 0, 0⟩ (by simp)) (by rw [se]; simp; omega)
  have tc := before_two (L := s.lattice) hn (by rw [se]; simp [unitsZ]) hl hnd (hm ⟨0, 0, n⟩ (by simp)) (by rw [se]; simp; omega)
  rw [el, ea] at xa ta
  rw [el, ec] at xc tc
  have ba : Before (gridSort s.lattice n (unitsZ n ++ l)) ⟨0, n, 0⟩ ⟨n, 0, 0⟩ ↔ s.b < s.a := by
    rw [← before_total ((gridSort_perm _).mem_iff.2 (by simp [unitsZ])) (by simp; omega), u1, not_le]
  have hbad : BadOrder (gridSort s.lattice n (unitsZ n ++ l)) ⟨0, 1, 0⟩ ⟨0, 0, n⟩ ⟨n, 0, 0⟩ ↔
      (s.c ≤ s.b / n ∧ 2 * (s.b / n) < s.a) ∨ (s.b / n < s.a ∧ s.a ≤ s.c ∧ Spec.Sooner n (2 * (s.b / n)) s.c) := by
    unfold BadOrder
    rw [xc.1, xa.2, u2, later_of (E := ⟨0, n, 0⟩) hn (fun h => by rw [h]; rfl) ta.2 (fun _ => ba),
      sooner_of (E := ⟨0, n, 0⟩) hn (fun h => by rw [h]; rfl) tc.2 (fun _ => u3)]
  exact ⟨s', hs', fun hh => hb (hbad.2 hh), fun hh => hg fun h2 => hh (hbad.1 h2)⟩

/-- **C98 (repeated along the third edge).** -/
theorem C98_repeated_c (r : Reducer ℝ) (ord : List (String × ℕ) → List (String × ℕ)) (ho : ∀ l, (ord l).Perm l) (hn : 2 ≤ n)
    (h : CentredCell s n (repeats n ⟨0, 0, 1⟩) r.dtol) : ∃ s', r.findPrimitiveCell ord s = .ret s' ∧
      ((s.a ≤ s.c / n ∧ 2 * (s.c / n) < s.b) ∨ (s.c / n < s.b ∧ s.b < s.a ∧ 2 * (s.c / n) < s.a) → s'.volume = 0) ∧
      (¬ ((s.a ≤ s.c / n ∧ 2 * (s.c / n) < s.b) ∨ (s.c / n < s.b ∧ s.b < s.a ∧ 2 * (s.c / n) < s.a)) →
        SpansTranslations s s' ∧ s'.volume * n = s.volume) := by
  have se : Vec3.scale (n : ℤ) (⟨0, 0, 1⟩ : Vec3 ℤ) = ⟨0, 0, n⟩ := by ext <;> simp [Vec3.scale]
  have hu : [Vec3.scale (n : ℤ) (⟨0, 0, 1⟩ : Vec3 ℤ), ⟨n, 0, 0⟩, ⟨0, n, 0⟩].Perm (unitsZ n) := by
    rw [se]
    exact List.perm_append_comm (l₁ := [_]) (l₂ := [_, _])
  obtain ⟨l, s', hl, hnd, hs', hb, hg⟩ := repeated_outcome r ord ho hn hu (by simp [Vec3.cross, Vec3.dot]; ring) h
  obtain ⟨ea, eb, ec⟩ := reach_units (s := s) (N := n) (by omega)
  have el : (s.lattice * gridPoint n ⟨0, 0, 1⟩).mag = s.c / n := axis_edge hn (by rw [se]; exact ec)
  obtain ⟨u1, u2, u3, -⟩ := sorted_units (s := s) (N := n) (by omega) hnd
  have hm : ∀ X ∈ [(⟨n, 0, 0⟩ : Vec3 ℤ), ⟨0, n, 0⟩, ⟨0, 0, n⟩], X ∈ unitsZ n := fun X hX => hX
  have xa := before_axis (L := s.lattice) hn hl hnd (hm ⟨n, 0, 0⟩ (by simp))
  have xb := before_axis (L := s.lattice) hn hl hnd (hm ⟨0, n, 0⟩ (by simp))
  have ta := before_two (L := s.lattice) hn (by rw [se]; simp [unitsZ]) hl hnd (hm ⟨n, 0, 0⟩ (by simp)) (by rw [se]; simp; omega)
  have tb := before_two (L := s.lattice) hn (by rw [se]; simp [unitsZ]) hl hnd (hm ⟨0, n, 0⟩ (by simp)) (by rw [se]; simp; omega)
  rw [el, ea] at xa ta
  rw [el, eb] at xb tb
  have tot : ∀ {X Y : Vec3 ℤ}, X ∈ unitsZ n → X ≠ Y → ∀ {x y : ℝ}, (Before (gridSort s.lattice n (unitsZ n ++ l)) X Y ↔ x ≤ y) →
      (Before (gridSort s.lattice n (unitsZ n ++ l)) Y X ↔ y < x) := by
    intro X Y hX hne x y hxy
    rw [← before_total ((gridSort_perm _).mem_iff.2 (by simp [hX])) hne, hxy, not_le]
  have hbad : BadOrder (gridSort s.lattice n (unitsZ n ++ l)) ⟨0, 0, 1⟩ ⟨n, 0, 0⟩ ⟨0, n, 0⟩ ↔
      (s.a ≤ s.c / n ∧ 2 * (s.c / n) < s.b) ∨ (s.c / n < s.b ∧ s.b < s.a ∧ 2 * (s.c / n) < s.a) := by
    unfold BadOrder
    rw [xa.1, xb.2, tot (hm ⟨n, 0, 0⟩ (by simp)) (by simp; omega) u1,
      later_of (E := ⟨0, 0, n⟩) hn (fun h => by rw [h]; rfl) tb.2 (fun _ => tot (hm ⟨0, n, 0⟩ (by simp)) (by simp; omega) u3),
      later_of (E := ⟨0, 0, n⟩) hn (fun h => by rw [h]; rfl) ta.2 (fun _ => tot (hm ⟨n, 0, 0⟩ (by simp)) (by simp; omega) u2)]
  exact ⟨s', hs', fun hh => hb (hbad.2 hh), fun hh => hg fun h2 => hh (hbad.1 h2)⟩

end CrystSymm
