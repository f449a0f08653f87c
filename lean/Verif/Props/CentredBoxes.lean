import Verif.Props.CentredCells

set_option autoImplicit false
set_option linter.unusedSectionVars false

/-! # C79: centred right-angled cells with one atom per lattice point -/

namespace CrystSymm

open Spec Reducer

/-- iron atoms at the lattice points of a centred cell. -/
noncomputable def metalCell (L : Mat3 ℝ) (N : ℕ) (hs : List (Vec3 ℤ)) : Structure ℝ :=
  Structure.new L ((0 :: hs).map fun _ => "Fe") ((0 :: hs).map (gridPoint N)) false

/-- the centring vectors and zero form a group modulo `N`. -/
def CentringGroup (N : ℕ) (hs : List (Vec3 ℤ)) : Prop :=
  (∀ u ∈ 0 :: hs, ∀ v ∈ 0 :: hs, ∃ w ∈ 0 :: hs, (N : ℤ) ∣ u.x + v.x - w.x ∧ (N : ℤ) ∣ u.y + v.y - w.y ∧ (N : ℤ) ∣ u.z + v.z - w.z) ∧
  (∀ u ∈ 0 :: hs, ∀ v ∈ 0 :: hs, ∃ w ∈ 0 :: hs, (N : ℤ) ∣ u.x - v.x - w.x ∧ (N : ℤ) ∣ u.y - v.y - w.y ∧ (N : ℤ) ∣ u.z - v.z - w.z)

instance (N : ℕ) (hs : List (Vec3 ℤ)) : Decidable (CentringGroup N hs) := by unfold CentringGroup; infer_instance

section Metal

variable {L : Mat3 ℝ} {N : ℕ} {hs : List (Vec3 ℤ)} {d : ℝ}

theorem metal_sites {p : String × Vec3 ℝ} : p ∈ sites (metalCell L N hs) ↔ ∃ k ∈ 0 :: hs, p = ("Fe", gridPoint N k) := by
  have : sites (metalCell L N hs) = (0 :: hs).map fun k => ("Fe", gridPoint N k) := by
    unfold sites metalCell Structure.new
    simp only [Bool.false_eq_true, if_false]
    exact List.zip_map'
  rw [this, List.mem_map]
  simp only [eq_comm]

theorem intVec_grid (hN : 0 < N) {k : Vec3 ℤ} (h : (N : ℤ) ∣ k.x ∧ (N : ℤ) ∣ k.y ∧ (N : ℤ) ∣ k.z) : IntVec (gridPoint N k) := by
  obtain ⟨⟨a, ha⟩, ⟨b, hb⟩, ⟨c, hc⟩⟩ := h
  have hn : (N : ℝ) ≠ 0 := by positivity
  refine ⟨a, b, c, ?_⟩
  ext <;> simp only [gridPoint] <;> simp [ha, hb, hc, hn]

theorem gridPoint_sub (u v : Vec3 ℤ) : gridPoint N (u - v) = gridPoint N u - gridPoint N v := by
  ext <;> simp [gridPoint, sub_div]

/-- the translations of the metal. -/
theorem metal_translations (hN : 0 < N) (hg : CentringGroup N hs) (hdet : L.det ≠ 0) (t : Vec3 ℝ) :
    TranslationWithin (metalCell L N hs) 0 t ↔ ∃ k ∈ 0 :: hs, IntVec (t - gridPoint N k) := by
  constructor
  · intro h
    obtain ⟨q, hq, -, v, h1, h2⟩ := h ("Fe", gridPoint N 0) (metal_sites.2 ⟨0, by simp, rfl⟩)
    obtain ⟨k, hk, rfl⟩ := metal_sites.1 hq
    refine ⟨k, hk, ?_⟩
    have h3 : L * v = 0 := vec_zero_of_lenSq (le_antisymm (h2.trans (by norm_num)) (lenSq_nonneg _))
    have h4 : v = 0 := mulVec_injective hdet (by rw [h3, Mat3.mulVec_zero])
    rw [h4, samePoint_iff_intVec] at h1
    have := intVec_neg h1
    convert this using 1
    simp only [gridPoint_zero]
    abel
  · rintro ⟨k, hk, hi⟩ p hp
    obtain ⟨j, hj, rfl⟩ := metal_sites.1 hp
    obtain ⟨w, hw, hd⟩ := hg.1 j hj k hk
    refine ⟨("Fe", gridPoint N w), metal_sites.2 ⟨w, hw, rfl⟩, rfl, 0, ?_, by simp [lenSq]⟩
    rw [samePoint_iff_intVec]
    have h1 := intVec_grid (k := j + k - w) hN hd
    rw [gridPoint_sub, gridPoint_add] at h1
    have := intVec_neg (intVec_add h1 hi)
    convert this using 1
    simp only
    abel

/-- a metal is a centred cell in the sense of C79. -/
theorem metal_centred (hgrid : GridVecs N hs) (hsmall : hs.length < 65535) (hg : CentringGroup N hs) (hd : 0 < d)
    (hcols : N * d < (metalCell L N hs).a ∧ N * d < (metalCell L N hs).b ∧ N * d < (metalCell L N hs).c)
    (hflat : frob L ^ 2 < 10 ^ 12 * L.det ^ 2) (harea : (d * N ^ 2) ^ 2 * frob L < L.det ^ 2) (hvol : d * N ^ 3 < L.det) :
    CentredCell (metalCell L N hs) N hs d := by
  obtain ⟨hN, hnd, hk⟩ := hgrid
  have hdet : L.det ≠ 0 := (lt_of_le_of_lt (mul_nonneg hd.le (by positivity)) hvol).ne'
  have htr := metal_translations hN hg hdet
  refine ⟨⟨hN, hnd, hk⟩, ?_, ?_, ?_, ?_, ?_, htr, hd, hcols, hflat, harea, hvol⟩
  · exact ⟨by simp [metalCell, Structure.new], rfl⟩
  · simp [metalCell, Structure.new, Structure.numSites]; omega
  · simp [metalCell, Structure.new]
  · have : sites (metalCell L N hs) = (0 :: hs).map fun k => ("Fe", gridPoint N k) := by
      unfold sites metalCell Structure.new
      simp only [Bool.false_eq_true, if_false]
      exact List.zip_map'
    unfold DistinctSites
    rw [this, List.pairwise_map]
    have hnd' : (0 :: hs).Nodup := List.nodup_cons.2 ⟨fun h0 => (hk 0 h0).1 rfl, hnd⟩
    have hb : ∀ k ∈ 0 :: hs, (0 ≤ k.x ∧ k.x < N) ∧ (0 ≤ k.y ∧ k.y < N) ∧ (0 ≤ k.z ∧ k.z < N) := by
      intro k hk'
      rcases List.mem_cons.1 hk' with rfl | h
      · have : (0 : ℤ) < N := by exact_mod_cast hN
        exact ⟨⟨le_rfl, this⟩, ⟨le_rfl, this⟩, ⟨le_rfl, this⟩⟩
      · exact (hk k h).2
    refine List.Pairwise.imp_of_mem ?_ hnd'
    rintro u v hu hv hne hsp
    rw [samePoint_iff_intVec] at hsp
    obtain ⟨a, b, c, e⟩ := hsp
    have hn : (N : ℝ) ≠ 0 := by positivity
    have ex := congrArg Vec3.x e
    have ey := congrArg Vec3.y e
    have ez := congrArg Vec3.z e
    simp only [gridPoint, Vec3.sub_x, Vec3.sub_y, Vec3.sub_z] at ex ey ez
    obtain ⟨u1, u2, u3⟩ := hb u hu
    obtain ⟨v1, v2, v3⟩ := hb v hv
    have key : ∀ {i j m : ℤ}, (0 ≤ i ∧ i < N) → (0 ≤ j ∧ j < N) → (i : ℝ) / N - j / N = m → i = j := by
      intro i j m hi hj h
      have h1 : (i : ℝ) - j = m * N := by field_simp at h; linarith
      have h2 : i - j = m * N := by exact_mod_cast h1
      have h3 : (N : ℤ) ∣ i - j := ⟨m, by rw [h2]; ring⟩
      have := Int.eq_zero_of_abs_lt_dvd h3 (by rw [abs_lt]; constructor <;> omega)
      omega
    exact hne (by ext; exacts [key u1 v1 ex, key u2 v2 ey, key u3 v3 ez])
  · intro x hx y hy _ _ _
    obtain ⟨i, hi, rfl⟩ := metal_sites.1 hx
    obtain ⟨j, hj, rfl⟩ := metal_sites.1 hy
    obtain ⟨w, hw, hdv⟩ := hg.2 j hj i hi
    refine (htr _).2 ⟨w, hw, ?_⟩
    have h1 := intVec_grid (k := j - i - w) hN hdv
    rwa [gridPoint_sub, gridPoint_sub] at h1

end Metal

/-! ### right-angled cells -/

/-- the lattice with three perpendicular vectors of the given lengths. -/
def box (a b c : ℝ) : Mat3 ℝ := ⟨a, 0, 0, 0, b, 0, 0, 0, c⟩

section Box

variable {a b c : ℝ} {N : ℕ} {hs : List (Vec3 ℤ)}

theorem box_lengths (ha : 0 ≤ a) (hb : 0 ≤ b) (hc : 0 ≤ c) : (metalCell (box a b c) N hs).a = a ∧
    (metalCell (box a b c) N hs).b = b ∧ (metalCell (box a b c) N hs).c = c :=
  ⟨mag_axis_x ha, mag_axis_y hb, mag_axis_z hc⟩

theorem box_reach (x y z : ℝ) : reach (metalCell (box a b c) N hs) x y z = √((a * x) ^ 2 + (b * y) ^ 2 + (c * z) ^ 2) := by
  unfold reach
  rw [mag_eq]
  congr 1
  simp [lenSq, metalCell, Structure.new, box]
  ring

/-- the iron cells to which C79 applies: edges between 2 and 100, distance tolerance at most one tenth. -/
theorem box_centred {d : ℝ} (hgrid : GridVecs 2 hs) (hsmall : hs.length < 65535) (hg : CentringGroup 2 hs)
    (hd : 0 < d ∧ d ≤ 1 / 10) (ha : 2 ≤ a ∧ a ≤ 100) (hb : 2 ≤ b ∧ b ≤ 100) (hc : 2 ≤ c ∧ c ≤ 100) :
    CentredCell (metalCell (box a b c) 2 hs) 2 hs d := by
  obtain ⟨ea, eb, ec⟩ := box_lengths (N := 2) (hs := hs) (by linarith : 0 ≤ a) (by linarith : 0 ≤ b) (by linarith : 0 ≤ c)
  have hdet : (box a b c).det = a * b * c := by simp [box, Mat3.det]; ring
  have hfrob : frob (box a b c) = a ^ 2 + b ^ 2 + c ^ 2 := by
    simp [frob, lenSq, box, Mat3.col0, Mat3.col1, Mat3.col2]; ring
  have hsq : ∀ {t : ℝ}, 2 ≤ t ∧ t ≤ 100 → 4 ≤ t ^ 2 ∧ t ^ 2 ≤ 10000 := fun h => ⟨by nlinarith, by nlinarith⟩
  obtain ⟨a1, a2⟩ := hsq ha
  obtain ⟨b1, b2⟩ := hsq hb
  obtain ⟨c1, c2⟩ := hsq hc
  have hab : 4 ≤ a * b := by nlinarith
  have habc : 8 ≤ a * b * c := by nlinarith
  have hpq : ∀ {p q r : ℝ}, 4 ≤ p → 4 ≤ q → 4 ≤ r → 16 * p ≤ p * q * r := by
    intro p q r hp hq hr
    have : 16 ≤ q * r := by nlinarith
    nlinarith
  have e : (a * b * c) ^ 2 = a ^ 2 * b ^ 2 * c ^ 2 := by ring
  have h1 := hpq a1 b1 c1
  have h2 := hpq b1 a1 c1
  have h3 := hpq c1 a1 b1
  have hf : 16 * (a ^ 2 + b ^ 2 + c ^ 2) ≤ 3 * (a * b * c) ^ 2 := by rw [e]; nlinarith
  have hdd : (d * 2 ^ 2) ^ 2 ≤ 16 / 100 := by nlinarith [hd.1, hd.2]
  refine metal_centred hgrid hsmall hg hd.1 ?_ ?_ ?_ ?_
  · rw [ea, eb, ec]
    push_cast
    exact ⟨by linarith [ha.1, hd.2], by linarith [hb.1, hd.2], by linarith [hc.1, hd.2]⟩
  · rw [hdet, hfrob]
    have : (a ^ 2 + b ^ 2 + c ^ 2) ^ 2 ≤ 30000 ^ 2 := pow_le_pow_left₀ (by positivity) (by linarith) 2
    nlinarith
  · rw [hdet, hfrob]
    push_cast
    have : 0 < a ^ 2 + b ^ 2 + c ^ 2 := by linarith
    nlinarith
  · rw [hdet]
    push_cast
    linarith [hd.2]

/-- a body-centred right-angled cell always gives a primitive cell. -/
theorem C79_body_centred_box (r : Reducer ℝ) (ord : List (String × ℕ) → List (String × ℕ)) (ho : ∀ l, (ord l).Perm l)
    (hd : 0 < r.dtol ∧ r.dtol ≤ 1 / 10) (ha : 2 ≤ a ∧ a ≤ 100) (hb : 2 ≤ b ∧ b ≤ 100) (hc : 2 ≤ c ∧ c ≤ 100) :
    ∃ s', r.findPrimitiveCell ord (metalCell (box a b c) 2 [⟨1, 1, 1⟩]) = .ret s' ∧
      SpansTranslations (metalCell (box a b c) 2 [⟨1, 1, 1⟩]) s' ∧ s'.volume * 2 = a * b * c := by
  have h := box_centred (a := a) (b := b) (c := c) (hs := [⟨1, 1, 1⟩]) (by unfold GridVecs; decide) (by simp) (by decide) hd ha hb hc
  obtain ⟨s', e, k, -⟩ := C79_body_centred r ord ho h
  obtain ⟨ea, eb, ec⟩ := box_lengths (N := 2) (hs := [⟨1, 1, 1⟩]) (by linarith : 0 ≤ a) (by linarith : 0 ≤ b) (by linarith : 0 ≤ c)
  rw [ea, eb, ec, box_reach] at k
  have hm0 : 0 < max a (max b c) := lt_max_of_lt_left (by linarith)
  have hlt : √((a * (1 / 2)) ^ 2 + (b * (1 / 2)) ^ 2 + (c * (1 / 2)) ^ 2) < max a (max b c) := by
    rw [Real.sqrt_lt' hm0]
    have h1 : a ^ 2 ≤ max a (max b c) ^ 2 := pow_le_pow_left₀ (by linarith) (le_max_left _ _) 2
    have h2 : b ^ 2 ≤ max a (max b c) ^ 2 := pow_le_pow_left₀ (by linarith) ((le_max_left _ _).trans (le_max_right _ _)) 2
    have h3 : c ^ 2 ≤ max a (max b c) ^ 2 := pow_le_pow_left₀ (by linarith) ((le_max_right _ _).trans (le_max_right _ _)) 2
    nlinarith [pow_pos hm0 2]
  refine ⟨s', e, (k hlt).1, (k hlt).2.trans ?_⟩
  simp [Structure.volume, metalCell, Structure.new, box, Mat3.det]
  ring

/-- a right-angled cell with edges `a ≤ b ≤ c` and `b < √3 a`, centred on the face of `a` and `b`, never gets a space group. -/
theorem C79_false_base_centred (sa : SymmetryAnalyzer ℝ) (h : HashOrders ℝ) (hv : h.Valid) (fuel : ℕ)
    (hd : 0 < sa.reducer.dtol ∧ sa.reducer.dtol ≤ 1 / 10) (ha : 2 ≤ a) (hab : a ≤ b) (hb : b ^ 2 < 3 * a ^ 2) (hbc : b ≤ c)
    (hc : c ≤ 100) :
    (∃ s', sa.reducer.findPrimitiveCell h.minEle (metalCell (box a b c) 2 [⟨1, 1, 0⟩]) = .ret s' ∧ s'.volume = 0) ∧
    ∀ res, sa.getSpaceGroupInfo h fuel (metalCell (box a b c) 2 [⟨1, 1, 0⟩]) ≠ .ret res := by
  have hcell := box_centred (a := a) (b := b) (c := c) (hs := [⟨1, 1, 0⟩]) (by unfold GridVecs; decide) (by simp) (by decide) hd
    ⟨ha, by linarith⟩ ⟨by linarith, by linarith⟩ ⟨by linarith, hc⟩
  obtain ⟨s', e, k, -⟩ := C79_base_centred_c sa.reducer h.minEle hv.minEle hcell
  obtain ⟨ea, eb, ec⟩ := box_lengths (N := 2) (hs := [⟨1, 1, 0⟩]) (by linarith : 0 ≤ a) (by linarith : 0 ≤ b) (by linarith : 0 ≤ c)
  rw [ea, eb, ec, box_reach] at k
  have h0 := k ⟨by rw [Real.sqrt_lt' (by linarith)]; nlinarith, by linarith, hbc, Or.inl hab⟩
  exact ⟨⟨s', e, h0⟩, C79_no_answer sa h fuel _ s' e h0⟩

/-- a right-angled face-centred cell with `a ≤ b ≤ c`, `b < √3 a` and `4 b² ≤ a² + c²` never gets a space group. -/
theorem C79_false_face_centred (sa : SymmetryAnalyzer ℝ) (h : HashOrders ℝ) (hv : h.Valid) (fuel : ℕ)
    (hd : 0 < sa.reducer.dtol ∧ sa.reducer.dtol ≤ 1 / 10) (ha : 2 ≤ a) (hab : a ≤ b) (hb : b ^ 2 < 3 * a ^ 2)
    (hbc : 4 * b ^ 2 ≤ a ^ 2 + c ^ 2) (hc : b ≤ c ∧ c ≤ 100) :
    (∃ s', sa.reducer.findPrimitiveCell h.minEle (metalCell (box a b c) 2 [⟨0, 1, 1⟩, ⟨1, 0, 1⟩, ⟨1, 1, 0⟩]) = .ret s' ∧ s'.volume = 0) ∧
    ∀ res, sa.getSpaceGroupInfo h fuel (metalCell (box a b c) 2 [⟨0, 1, 1⟩, ⟨1, 0, 1⟩, ⟨1, 1, 0⟩]) ≠ .ret res := by
  have hcell := box_centred (a := a) (b := b) (c := c) (hs := [⟨0, 1, 1⟩, ⟨1, 0, 1⟩, ⟨1, 1, 0⟩]) (by unfold GridVecs; decide) (by simp)
    (by decide) hd ⟨ha, by linarith⟩ ⟨by linarith, by linarith⟩ ⟨by linarith, hc.2⟩
  obtain ⟨s', e, k, -⟩ := C79_face_centred sa.reducer h.minEle hv.minEle hcell rfl rfl rfl
  obtain ⟨ea, eb, ec⟩ := box_lengths (N := 2) (hs := [⟨0, 1, 1⟩, ⟨1, 0, 1⟩, ⟨1, 1, 0⟩]) (by linarith : 0 ≤ a) (by linarith : 0 ≤ b)
    (by linarith : 0 ≤ c)
  rw [ea, eb, ec, box_reach, box_reach, box_reach] at k
  have hbp : 0 < b := by linarith
  have hcp : 0 < c := by linarith
  have hab2 : a ^ 2 ≤ b ^ 2 := pow_le_pow_left₀ (by linarith) hab 2
  have hbc2 : b ^ 2 < c ^ 2 := by nlinarith
  have h0 := k (Or.inl ⟨⟨Real.le_sqrt_of_sq_le (by nlinarith), Real.le_sqrt_of_sq_le (by nlinarith),
    Real.le_sqrt_of_sq_le (by nlinarith), Real.le_sqrt_of_sq_le (by nlinarith), by rw [Real.sqrt_lt' hcp]; nlinarith,
    by rw [Real.sqrt_lt' hcp]; nlinarith, by rw [Real.sqrt_lt' (by linarith)]; nlinarith⟩, Or.inl hab⟩)
  exact ⟨⟨s', e, h0⟩, C79_no_answer sa h fuel _ s' e h0⟩

end Box

/-- the hypotheses hold for the edges of orthorhombic sulfur (space group `Fddd`): 10.46, 12.87 and 24.49. -/
example (sa : SymmetryAnalyzer ℝ) (h : HashOrders ℝ) (hv : h.Valid) (fuel : ℕ) (hd : sa.reducer.dtol = 1 / 20) :
    ∀ res, sa.getSpaceGroupInfo h fuel (metalCell (box 10.46 12.87 24.49) 2 [⟨0, 1, 1⟩, ⟨1, 0, 1⟩, ⟨1, 1, 0⟩]) ≠ .ret res :=
  (C79_false_face_centred sa h hv fuel (by rw [hd]; norm_num) (by norm_num) (by norm_num) (by norm_num) (by norm_num)
    (by norm_num)).2

/-- the hypotheses hold for a base-centred cell with the edges 4, 5 and 6. -/
example (sa : SymmetryAnalyzer ℝ) (h : HashOrders ℝ) (hv : h.Valid) (fuel : ℕ) (hd : sa.reducer.dtol = 1 / 20) :
    ∀ res, sa.getSpaceGroupInfo h fuel (metalCell (box 4 5 6) 2 [⟨1, 1, 0⟩]) ≠ .ret res :=
  (C79_false_base_centred sa h hv fuel (by rw [hd]; norm_num) (by norm_num) (by norm_num) (by norm_num) (by norm_num)
    (by norm_num)).2

/-- a cell centred on the face of `a` and `c` whose remaining edge `b` is the shortest gets a primitive cell. -/
example (r : Reducer ℝ) (hd : r.dtol = 1 / 20) : ∃ s', r.findPrimitiveCell id (metalCell (box 5 4 6) 2 [⟨1, 0, 1⟩]) = .ret s' ∧
    SpansTranslations (metalCell (box 5 4 6) 2 [⟨1, 0, 1⟩]) s' := by
  have hcell := box_centred (a := 5) (b := 4) (c := 6) (hs := [⟨1, 0, 1⟩]) (d := r.dtol) (by unfold GridVecs; decide) (by simp)
    (by decide) (by rw [hd]; norm_num) (by norm_num) (by norm_num) (by norm_num)
  obtain ⟨s', e, -, k⟩ := C79_base_centred_b r id (fun _ => List.Perm.refl _) hcell
  obtain ⟨ea, eb, ec⟩ := box_lengths (a := 5) (b := 4) (c := 6) (N := 2) (hs := [⟨1, 0, 1⟩]) (by norm_num) (by norm_num) (by norm_num)
  rw [ea, eb, ec] at k
  exact ⟨s', e, (k (fun h => absurd h.2.1 (by norm_num))).1⟩

/-- the hexagonal lattice with edges `a` and `c`. -/
noncomputable def hexBox (a c : ℝ) : Mat3 ℝ := ⟨a, -a / 2, 0, 0, a * √3 / 2, 0, 0, 0, c⟩

/-- the hypotheses of the rhombohedral criterion hold for a cell with the edges 4 and 10 and one atom per lattice point. -/
example (r : Reducer ℝ) (hd : r.dtol = 1 / 20) : ∃ s', r.findPrimitiveCell id (metalCell (hexBox 4 10) 3 [⟨2, 1, 1⟩, ⟨1, 2, 2⟩]) = .ret s' ∧
    SpansTranslations (metalCell (hexBox 4 10) 3 [⟨2, 1, 1⟩, ⟨1, 2, 2⟩]) s' := by
  have h3 : √3 * √3 = (3 : ℝ) := Real.mul_self_sqrt (by norm_num)
  have h3' : (17 : ℝ) / 10 < √3 := by rw [Real.lt_sqrt (by norm_num)]; norm_num
  have l0 : lenSq (hexBox 4 10).col0 = 16 := by norm_num [lenSq, hexBox, Mat3.col0]
  have l1 : lenSq (hexBox 4 10).col1 = 16 := by simp only [lenSq, hexBox, Mat3.col1]; linear_combination 4 * h3
  have l2 : lenSq (hexBox 4 10).col2 = 100 := by norm_num [lenSq, hexBox, Mat3.col2]
  have hdet : (hexBox 4 10).det = 80 * √3 := by simp only [hexBox, Mat3.det]; ring
  have hlen : ∀ {v : Vec3 ℝ} {q : ℝ}, lenSq v = q → 1 < q → 3 * r.dtol < v.mag := by
    intro v q e hq
    rw [mag_eq, e, hd, Real.lt_sqrt (by norm_num)]
    linarith
  have hcell : CentredCell (metalCell (hexBox 4 10) 3 [⟨2, 1, 1⟩, ⟨1, 2, 2⟩]) 3 [⟨2, 1, 1⟩, ⟨1, 2, 2⟩] r.dtol := by
    refine metal_centred (by unfold GridVecs; decide) (by simp) (by decide) (by rw [hd]; norm_num) ?_ ?_ ?_ ?_
    · exact ⟨by exact_mod_cast hlen l0 (by norm_num), by exact_mod_cast hlen l1 (by norm_num), by exact_mod_cast hlen l2 (by norm_num)⟩
    · rw [hdet, frob, l0, l1, l2]; nlinarith
    · rw [hdet, frob, l0, l1, l2, hd]; push_cast; nlinarith
    · rw [hdet, hd]; push_cast; linarith
  obtain ⟨s', e, k, -⟩ := C79_rhombohedral_obverse r id (fun _ => List.Perm.refl _) hcell
    ⟨l1.trans l0.symm, by rw [show lenSq (metalCell (hexBox 4 10) 3 [⟨2, 1, 1⟩, ⟨1, 2, 2⟩]).lattice.col0 = 16 from l0]
                          norm_num [metalCell, Structure.new, dotp, hexBox, Mat3.col0, Mat3.col1],
      by norm_num [metalCell, Structure.new, dotp, hexBox, Mat3.col0, Mat3.col2],
      by norm_num [metalCell, Structure.new, dotp, hexBox, Mat3.col1, Mat3.col2]⟩
  exact ⟨s', e, k⟩

end CrystSymm
