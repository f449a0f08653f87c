import Verif.Props.Bravais

set_option autoImplicit false
set_option linter.unusedSectionVars false

/-! # C56: `get_space_group_info` on a structure with one atom per primitive cell -/

namespace CrystSymm

open Spec SymmetryAnalyzer PointGroup Reducer

/-- every vector of the lattice except zero has at least the length `d`. -/
def LongVectors (L : Mat3 ℝ) (d : ℝ) : Prop := ∀ n : Vec3 ℝ, IntVec n → n ≠ 0 → d ^ 2 ≤ lenSq (L * n)

theorem mulVec_injective {L : Mat3 ℝ} (h : L.det ≠ 0) {a b : Vec3 ℝ} (hab : L * a = L * b) : a = b := by
  cases hi : L.tryInverse with
  | none => exact absurd (Mat3.tryInverse_eq_none_iff.1 hi) h
  | some i =>
    have hm := Mat3.mul_eq_one_comm' (Mat3.tryInverse_eq_some_iff.1 hi)
    have := congrArg (fun v : Vec3 ℝ => i * v) hab
    simpa only [← Mat3.mul_mulVec, hm, Mat3.one_mulVec] using this

theorem LongVectors.same {L L' : Mat3 ℝ} {d : ℝ} (h : LongVectors L d) (hs : SameLattice L L') (hd : L'.det ≠ 0) :
    LongVectors L' d := by
  intro n hn hne
  obtain ⟨m, hm, e⟩ := (hs (L' * n)).2 ⟨n, hn, rfl⟩
  rw [e]
  refine h m hm fun hm0 => hne ?_
  apply mulVec_injective hd
  rw [e, hm0]
  ext <;> simp

theorem LongVectors.tols {L : Mat3 ℝ} {dtol : ℝ} (h : LongVectors L (24 * dtol)) (hd : 0 < dtol) :
    let t := Structure.fracTols L dtol
    (0 < t.x ∧ t.x ≤ 1 / 24) ∧ (0 < t.y ∧ t.y ≤ 1 / 24) ∧ (0 < t.z ∧ t.z ≤ 1 / 24) := by
  have key : ∀ v n : Vec3 ℝ, L * n = v → IntVec n → n ≠ 0 → 0 < dtol / v.mag ∧ dtol / v.mag ≤ 1 / 24 := by
    rintro v n rfl hn hne
    have h1 := h n hn hne
    have h2 : 24 * dtol ≤ (L * n : Vec3 ℝ).mag := by
      rw [mag_eq]
      exact Real.le_sqrt_of_sq_le h1
    have h3 : 0 < (L * n : Vec3 ℝ).mag := by linarith
    refine ⟨by positivity, ?_⟩
    rw [div_le_div_iff₀ h3 (by norm_num)]
    linarith
  refine ⟨key _ ⟨1, 0, 0⟩ ?_ ⟨1, 0, 0, by ext <;> simp⟩ (by simp [Vec3.ext_iff]),
    key _ ⟨0, 1, 0⟩ ?_ ⟨0, 1, 0, by ext <;> simp⟩ (by simp [Vec3.ext_iff]),
    key _ ⟨0, 0, 1⟩ ?_ ⟨0, 0, 1, by ext <;> simp⟩ (by simp [Vec3.ext_iff])⟩ <;>
  ext <;> simp [Mat3.col0, Mat3.col1, Mat3.col2]

theorem oneSite_of_sites {s : Structure ℝ} {e : String} (hc : s.species.length = s.fracCoords.length)
    (h : sites s = [(e, 0)]) : OneSite s e := by
  refine ⟨?_, ?_⟩
  · rw [species_eq_of_sites hc, h]; rfl
  · rw [frac_eq_of_sites hc, h]; rfl

theorem OneSite.sites {s : Structure ℝ} {e : String} (h : OneSite s e) : Spec.sites s = [(e, 0)] := by
  unfold Spec.sites
  rw [h.1, h.2]
  rfl

/-- normalising keeps the atom at the origin. -/
theorem OneSite.normalize {s : Structure ℝ} {e : String} {d : ℝ} (hs : s.species = [e]) (hf : s.fracCoords = [0])
    (hL : LongVectors s.lattice (24 * d)) (hd : 0 < d) : OneSite (s.normalizeCoords d) e := by
  apply oneSite_of_sites (normalizeCoords_consistent s d).1
  obtain ⟨hx, hy, hz⟩ := hL.tols hd
  rw [normalizeCoords_sites]
  unfold normedFrac normalizeFracVectors
  rw [hs, hf, List.map_singleton, normFracVec_int ⟨hx.1.le, by linarith [hx.2]⟩ ⟨hy.1.le, by linarith [hy.2]⟩
    ⟨hz.1.le, by linarith [hz.2]⟩ ⟨0, 0, 0, by ext <;> simp⟩]
  exact List.mergeSort_singleton _

/-- the primitive cell. -/
theorem oneSite_primitive {r : Reducer ℝ} {ord : List (String × ℕ) → List (String × ℕ)} {s s' : Structure ℝ}
    {e : String} (hs : OneSite s e) (hd : 0 < r.dtol) (hL : LongVectors s.lattice (24 * r.dtol))
    (hL' : LongVectors s'.lattice (24 * r.dtol)) (h : r.findPrimitiveCell ord s = .ret s') :
    OneSite s' e ∧ Consistent s' := by
  have hc : Consistent s' := by
    obtain ⟨minEle, inds, counts, baseInd, baseSite, s1, s2, s3, f1, f2, f3, -, -, -, h1, h2, e⟩ :=
      findPrimitiveCell_ret h
    rw [e]
    exact normalizeCoords_consistent _ _
  refine ⟨oneSite_of_sites hc.1 ?_, hc⟩
  obtain ⟨l, hl, hperm⟩ := primitive_folded h
  rw [(OneSite.normalize hs.1 hs.2 hL hd).sites] at hl
  have h0 : (FTrans.pinv s'.lattice * (s.lattice * (0 : Vec3 ℝ)) : Vec3 ℝ) = 0 := by ext <;> simp
  simp only [List.map_cons, List.map_nil, h0] at hl
  have hl' : l = [((0 : Vec3 ℝ), e)] := by
    rw [hl]
    simp [Reducer.foldSites, Structure.addSite]
  obtain ⟨hx, hy, hz⟩ := hL'.tols hd
  rw [hl', List.map_singleton, normFracVec_int ⟨hx.1.le, by linarith [hx.2]⟩ ⟨hy.1.le, by linarith [hy.2]⟩
    ⟨hz.1.le, by linarith [hz.2]⟩ ⟨0, 0, 0, by ext <;> simp⟩] at hperm
  exact List.perm_singleton.1 hperm

/-- the Niggli cell. -/
theorem oneSite_niggli {r : Reducer ℝ} {s s' : Structure ℝ} {tol : ℝ} {e : String} (hs : OneSite s e)
    (hc : Consistent s) (hd : 0 < r.dtol) (hL : LongVectors s.lattice (24 * r.dtol)) (hdet : s.lattice.det ≠ 0)
    (h : r.niggliReduce s tol = .ret s') :
    OneSite s' e ∧ Consistent s' ∧ s'.lattice.det ≠ 0 ∧
      ∃ n : Mat3 ℤ, n.det.natAbs = 1 ∧ s'.lattice = s.lattice * overK ℝ n := by
  obtain ⟨st, hl, rfl⟩ := niggliReduce_ret h
  obtain ⟨M, N, -, ⟨n, hn, rfl⟩, -, rfl⟩ := nigLoop_uni hl
  simp only [NigState.step, one_mul]
  have hn' : n.det.natAbs = 1 := by omega
  have e1 : (n.map fun k : ℤ => (k : ℝ)) = overK ℝ n := rfl
  have hdet' : (s.lattice * overK ℝ n).det ≠ 0 := by
    rw [Mat3.det_mul]
    refine mul_ne_zero hdet ?_
    have : (overK ℝ n).det = (n.det : ℝ) := by simp [overK, Mat3.det, Mat3.map]
    rw [this]
    have hne : n.det ≠ 0 := fun hz => by rw [hz] at hn'; simp at hn'
    exact_mod_cast hne
  refine ⟨?_, rebuild_consistent _ _ _, by rw [rebuild_lattice, e1]; exact hdet', n, hn', by rw [rebuild_lattice]; rfl⟩
  unfold Reducer.rebuild
  refine OneSite.normalize (s := Structure.new _ _ _ false) ?_ ?_ ?_ hd
  · simp only [Structure.new, Bool.false_eq_true, if_false]; exact hs.1
  · simp only [Structure.new, Bool.false_eq_true, if_false]
    rw [hc.2, hs.2]
    unfold Structure.getFracCoords
    simp only [List.map_cons, List.map_nil, List.cons.injEq, and_true]
    ext <;> simp
  · simp only [Structure.new, Bool.false_eq_true, if_false]
    exact hL.same (sameLattice_of_unimodular hn') hdet'

/-! ## the standard cells -/

theorem intVec_add {u v : Vec3 ℝ} (hu : IntVec u) (hv : IntVec v) : IntVec (u + v) := by
  obtain ⟨i, j, k, rfl⟩ := hu
  obtain ⟨i', j', k', rfl⟩ := hv
  exact ⟨i + i', j + j', k + k', by ext <;> simp⟩

theorem intVec_subV {u v : Vec3 ℝ} (hu : IntVec u) (hv : IntVec v) : IntVec (u - v) := by
  obtain ⟨i, j, k, rfl⟩ := hu
  obtain ⟨i', j', k', rfl⟩ := hv
  exact ⟨i - i', j - j', k - k', by ext <;> simp⟩

theorem intVec_zero : IntVec (0 : Vec3 ℝ) := ⟨0, 0, 0, by ext <;> simp⟩

theorem IntVec.of_samePoint {u v : Vec3 ℝ} (h : SamePoint u v) (hv : IntVec v) : IntVec u := by
  have := intVec_add (samePoint_iff_intVec.1 h) hv
  have e : u - v + v = u := by ext <;> simp
  rwa [e] at this

/-- the lattice spanned by integer combinations has no shorter vectors. -/
theorem LongVectors.mul {L : Mat3 ℝ} {d : ℝ} (h : LongVectors L d) {T : Mat3 ℤ} (hT : T.det ≠ 0) :
    LongVectors (L * realMat T) d := by
  intro n hn hne
  rw [Mat3.mul_mulVec]
  refine h _ (intVec_mulVec hn) fun h0 => hne ?_
  refine mulVec_injective (L := realMat T) (by rw [realMat_det]; exact_mod_cast hT) ?_
  rw [h0]
  ext <;> simp

theorem LongVectors.tolsInUnit {s : Structure ℝ} {d : ℝ} (h : LongVectors s.lattice (24 * d)) (hd : 0 < d) :
    TolsInUnit s d := by
  obtain ⟨hx, hy, hz⟩ := h.tols hd
  refine ⟨hd.le, hx.2.trans (by norm_num), hy.2.trans (by norm_num), hz.2.trans (by norm_num)⟩

theorem lenSq_smul (k : ℝ) (v : Vec3 ℝ) : lenSq (Vec3.scale k v) = k ^ 2 * lenSq v := by
  simp [lenSq, Vec3.scale]; ring

/-- one atom at the origin is far from its images in any supercell of at most four cells. -/
theorem oneSite_apart {s : Structure ℝ} {e : String} {d : ℝ} {T : Mat3 ℤ} (hs : OneSite s e) (hd : 0 < d)
    (hL : LongVectors s.lattice (24 * d)) (hT : T.det ≠ 0) (h4 : T.det.natAbs ≤ 4) : SitesApart s T d := by
  intro i j x y hx hy v hv
  rw [hs.2] at hx hy
  have hi : i = 0 ∧ x = 0 := by
    rcases i with _ | i
    · simpa using hx.symm
    · simp at hx
  have hj : j = 0 ∧ y = 0 := by
    rcases j with _ | j
    · simpa using hy.symm
    · simp at hy
  obtain ⟨rfl, rfl⟩ := hi
  obtain ⟨rfl, rfl⟩ := hj
  by_cases hvi : IntVec v
  · exact Or.inl ⟨rfl, hvi⟩
  right
  have e0 : realMat T * v - (0 - 0) = realMat T * v := by ext <;> simp
  rw [e0] at hv
  have hk : IntVec (Vec3.scale (T.det : ℝ) v) := by
    have := intVec_mulVec (n := T.adj) hv
    have e : ((T.adj.map fun k : ℤ => (k : ℝ)) * (realMat T * v : Vec3 ℝ) : Vec3 ℝ) = Vec3.scale (T.det : ℝ) v := by
      rw [← Mat3.mul_mulVec]
      ext <;> simp [Mat3.adj, Mat3.det, Mat3.map, realMat, Vec3.scale] <;> ring
    rwa [e] at this
  have hne : Vec3.scale (T.det : ℝ) v ≠ 0 := by
    intro h0
    apply hvi
    have : v = 0 := by
      have hTr : (T.det : ℝ) ≠ 0 := by exact_mod_cast hT
      have h1 := Vec3.ext_iff.1 h0
      simp only [Vec3.scale, Vec3.zero_x, Vec3.zero_y, Vec3.zero_z, mul_eq_zero, hTr, or_false, false_or] at h1
      ext
      · exact h1.1
      · exact h1.2.1
      · exact h1.2.2
    rw [this]
    exact intVec_zero
  have h1 := hL _ hk hne
  have e1 : (s.lattice * Vec3.scale (T.det : ℝ) v : Vec3 ℝ) = Vec3.scale (T.det : ℝ) (s.lattice * v) := by
    ext <;> simp [Vec3.scale] <;> ring
  rw [e1, lenSq_smul] at h1
  have h2 : (T.det : ℝ) ^ 2 ≤ 16 := by
    have : T.det ^ 2 ≤ 16 := by
      have h5 : T.det ≤ 4 := by omega
      have h6 : -4 ≤ T.det := by omega
      nlinarith
    exact_mod_cast this
  rw [mag_eq]
  refine Real.lt_sqrt_of_sq_lt ?_
  have h3 := lenSq_nonneg (s.lattice * v)
  nlinarith

theorem mem_sites_normalize {s : Structure ℝ} {d : ℝ} {q : String × Vec3 ℝ} (h : q ∈ sites (s.normalizeCoords d)) :
    ∃ v, q.2 = normFracVec (Structure.fracTols s.lattice d) v := by
  rw [normalizeCoords_sites, List.mem_mergeSort] at h
  have := (List.of_mem_zip h).2
  unfold normedFrac normalizeFracVectors at this
  obtain ⟨v, -, hv⟩ := List.mem_map.1 this
  exact ⟨v, hv.symm⟩

/-- the standard cells of a reduced structure with one atom at the origin. -/
theorem oneSite_standard {nig : Structure ℝ} {e : String} {d : ℝ} {ch : ℕ} {m : Mat3 Int8} {P : Mat3 ℝ}
    {b : BravaisType} (hs : OneSite nig e) (hc : Consistent nig) (hd : 0 < d)
    (hL : LongVectors nig.lattice (24 * d)) (hdet : nig.lattice.det ≠ 0)
    (hm : amapGet? latticeCharToConvTrans ch = some m) (hP : primitiveTransformationMatrix ch = .ret (P, b)) :
    ∃ N conv p, (∀ fuel ≥ N, nig.applyTransformation fuel (castRot m).transpose d = .ret conv ∧
        conv.applyTransformation fuel P d = .ret p) ∧
      OneSite p e ∧ LongVectors p.lattice (24 * d) ∧ ∃ n : Mat3 ℤ, n.det.natAbs = 1 ∧
        (castRot m).transpose * P = overK ℝ n ∧ p.lattice = nig.lattice * overK ℝ n := by
  obtain ⟨r1, r2⟩ := char_range hm
  obtain ⟨m', P', b', c, n, e1, e2, e3, e4, e5, e6, e7⟩ := C32_tables_consistent (K := ℝ) ch r1 r2
  rw [hm] at e1
  rw [hP] at e2
  simp only [Option.some.injEq, Outcome.ret.injEq, Prod.mk.injEq] at e1 e2
  obtain ⟨rfl, rfl⟩ := e2
  subst e1
  set T : Mat3 ℤ := (intRot m).transpose with hT
  have hTe : (castRot m : Mat3 ℝ).transpose = realMat T := by rw [castRot_overK]; rfl
  rw [hTe] at e5 e7 ⊢
  have hnr : (overK ℝ n).det = (n.det : ℝ) := by simp [overK, Mat3.det, Mat3.map]
  set k := (centringVectors c).2.length with hk
  have hk4 : 1 ≤ k ∧ k ≤ 4 := by rw [hk]; cases c <;> decide
  have hTk : T.det.natAbs = k := by
    have := e7 1
    rw [one_mul, e5, hnr, realMat_det] at this
    have h1 : |(n.det : ℝ)| = 1 := by rcases e6 with h | h <;> rw [h] <;> norm_num
    rw [h1, mul_one] at this
    have h2 : ((T.det.natAbs : ℤ) : ℝ) = ((k : ℤ) : ℝ) := by rw [Int.natCast_natAbs]; push_cast; exact this
    exact_mod_cast h2
  have hT0 : T.det ≠ 0 := by intro h0; rw [h0] at hTk; simp at hTk; omega
  obtain ⟨N0, conv, hret, hnum, -⟩ := C17_supercell_complete nig T d hT0 hc (hL.tolsInUnit hd)
    (oneSite_apart hs hd hL hT0 (by omega))
  obtain ⟨l1, c1, -, s1, -⟩ := C16_apply_transformation_sound N0 nig conv _ _ hc (hret N0 le_rfl)
  have hnumk : conv.numSites = k := by
    rw [hnum, hTk]
    unfold Structure.numSites
    rw [hs.1]; simp
  have hLc : LongVectors conv.lattice (24 * d) := by rw [l1]; exact hL.mul hT0
  have hconv : ∀ x ∈ sites conv, x.1 = e ∧ IntVec (realMat T * x.2) := by
    intro x hx
    obtain ⟨q, hq, hsp, y, mm, hxy, hmm, ey⟩ := s1 x hx
    rw [hs.sites, List.mem_singleton] at hq
    subst hq
    refine ⟨hsp.symm, ?_⟩
    have e' : realMat T * x.2 = realMat T * (x.2 - y) + mm := by
      have : realMat T * (x.2 - y) = realMat T * x.2 - realMat T * y := by ext <;> simp <;> ring
      rw [this, ey]
      ext <;> simp
    rw [e']
    exact intVec_add (intVec_mulVec (intVec_sub_iff_samePoint.2 hxy)) hmm
  -- the inverse of `P` is an integer matrix
  obtain ⟨ni, hni⟩ : ∃ ni : Mat3 ℤ, ni * n = 1 := by
    refine ⟨n.adj.map fun k => n.det * k, ?_⟩
    have e : (n.adj.map fun k => n.det * k) * n = ⟨n.det * n.det, 0, 0, 0, n.det * n.det, 0, 0, 0, n.det * n.det⟩ := by
      ext <;> simp only [Mat3.map, Mat3.adj, Mat3.det, Mat3.mul_m11, Mat3.mul_m12, Mat3.mul_m13, Mat3.mul_m21,
        Mat3.mul_m22, Mat3.mul_m23, Mat3.mul_m31, Mat3.mul_m32, Mat3.mul_m33] <;> ring
    rw [e]
    rcases e6 with hd | hd <;> rw [hd] <;> rfl
  have rm : ∀ a b : Mat3 ℤ, realMat (a * b) = realMat a * realMat b := by
    intro a b
    ext <;> simp [realMat, Mat3.map]
  have hN : P * realMat (ni * T) = 1 := by
    apply Mat3.mul_eq_one_comm'
    rw [rm, mul_assoc, e5]
    have : overK ℝ n = realMat n := rfl
    rw [this, ← rm, hni]
    ext <;> simp [realMat, Mat3.map]
  have hNv : ∀ v : Vec3 ℝ, IntVec (realMat T * v) → IntVec (realMat (ni * T) * v) := by
    intro v hv
    rw [rm, Mat3.mul_mulVec]
    exact intVec_mulVec hv
  have hfrac : ∀ x ∈ conv.fracCoords, IntVec (realMat T * x) := by
    intro x hx
    rw [frac_eq_of_sites c1.1] at hx
    obtain ⟨q, hq, rfl⟩ := List.mem_map.1 hx
    exact (hconv q hq).2
  have hfine : SitesApartFine conv (ni * T) d := by
    intro x hx y hy v hv
    left
    refine IntVec.of_samePoint hv (hNv _ ?_)
    have : realMat T * (x - y) = realMat T * x - realMat T * y := by ext <;> simp <;> ring
    rw [this]
    exact intVec_subV (hfrac x hx) (hfrac y hy)
  have hPdet : |P.det| = 1 / (k : ℝ) := by
    have h1 := congrArg (fun M : Mat3 ℝ => |M.det|) e5
    simp only [Mat3.det_mul, abs_mul, realMat_det, hnr] at h1
    have h2 : |(n.det : ℝ)| = 1 := by rcases e6 with h | h <;> rw [h] <;> norm_num
    have h3 : |(T.det : ℝ)| = k := by
      rw [← Int.cast_abs, ← Int.natCast_natAbs, hTk]; simp
    rw [h2, h3] at h1
    have hk0 : (k : ℝ) ≠ 0 := by have := hk4.1; positivity
    field_simp
    linarith
  have hclen : conv.coords.length = k := by
    rw [c1.2, List.length_map, ← c1.1]; exact hnumk
  have hzip : conv.fracCoords.zip conv.species ≠ [] := by
    intro h0
    have := congrArg List.length h0
    rw [List.length_zip, ← c1.1] at this
    have h1 : conv.species.length = k := hnumk
    simp at this
    rw [this] at h1
    simp at h1
    omega
  have hq : Structure.quotLt 1 conv.coords.length (Structure.volumeRatio P) = false := by
    rw [hclen]
    have hv : Structure.volumeRatio P ≤ 1 / (k : ℝ) := by
      unfold Structure.volumeRatio
      show ((roundZ (|P.det| * ((100 : ℤ) : ℝ)) : ℤ) : ℝ) / ((100 : ℤ) : ℝ) ≤ _
      rw [hPdet]
      have h100 : ∀ (x : ℝ) (r : ℤ), (r : ℝ) ≤ x + 1 / 2 → x + 1 / 2 < r + 1 → 0 ≤ x → roundZ x = r := by
        intro x r h1 h2 h3
        unfold roundZ
        rw [if_pos h3, Int.floor_eq_iff]
        exact ⟨h1, h2⟩
      obtain ⟨k1, k2⟩ := hk4
      interval_cases k
      · rw [h100 _ 100 (by norm_num) (by norm_num) (by norm_num)]; norm_num
      · rw [h100 _ 50 (by norm_num) (by norm_num) (by norm_num)]; norm_num
      · rw [h100 _ 33 (by norm_num) (by norm_num) (by norm_num)]; norm_num
      · rw [h100 _ 25 (by norm_num) (by norm_num) (by norm_num)]; norm_num
    unfold Structure.quotLt
    rw [if_neg (by omega)]
    simp only [decide_eq_false_iff_not, not_lt]
    simpa [lit] using hv
  rcases reduction_dichotomy conv P (ni * T) d hN (hLc.tolsInUnit hd) hfine with ⟨p, hp⟩ | ⟨-, hr⟩
  swap
  · rw [hr hzip] at hq
    exact absurd hq (by simp)
  obtain ⟨l2, c2, -, s2, hmin⟩ := C16_apply_transformation_sound 2 conv p _ _ c1 (hp 2 le_rfl)
  have hLp : LongVectors p.lattice (24 * d) := by
    have e : p.lattice = nig.lattice * overK ℝ n := by rw [l2, l1, mul_assoc, e5]
    rw [e]
    exact hL.mul (T := n) (by rcases e6 with h | h <;> rw [h] <;> norm_num)
  have hps : ∀ x ∈ sites p, x = (e, 0) := by
    intro x hx
    obtain ⟨q, hq, hsp, y, mm, hxy, hmm, ey⟩ := s2 x hx
    obtain ⟨he, hqi⟩ := hconv q hq
    have hyi : IntVec y := by
      have h1 : y = realMat (ni * T) * (q.2 + mm) := by
        rw [← ey, ← Mat3.mul_mulVec, Mat3.mul_eq_one_comm' hN, Mat3.one_mulVec]
      have h2 : realMat (ni * T) * (q.2 + mm) = realMat (ni * T) * q.2 + realMat (ni * T) * mm := by
        ext <;> simp <;> ring
      rw [h1, h2]
      exact intVec_add (hNv _ hqi) (intVec_mulVec hmm)
    have hxi := IntVec.of_samePoint hxy hyi
    obtain ⟨invT, F, -, -, hpn⟩ := applyTransformation_ret (hp 2 le_rfl)
    have hx' := hx
    rw [hpn] at hx'
    obtain ⟨v, hv⟩ := mem_sites_normalize hx'
    have hlat : (⟨conv.lattice * P, F.map Prod.snd, Structure.getCartCoords (conv.lattice * P) (F.map Prod.fst),
        F.map Prod.fst⟩ : Structure ℝ).lattice = p.lattice := l2.symm
    rw [hlat] at hv
    obtain ⟨tx, ty, tz⟩ := hLp.tols hd
    have hx0 : x.2 = 0 := by
      have hvi : IntVec v := by
        refine IntVec.of_samePoint ?_ hxi
        have h1 := samePoint_iff_intVec.1 (samePoint_normFracVec (Structure.fracTols p.lattice d) v)
        rw [← hv] at h1
        rw [samePoint_iff_intVec]
        obtain ⟨i, j, l, h1⟩ := h1
        refine ⟨-i, -j, -l, ?_⟩
        have h2 := Vec3.ext_iff.1 h1
        simp at h2
        ext <;> simp <;> linarith [h2.1, h2.2.1, h2.2.2]
      rw [hv, normFracVec_int ⟨tx.1.le, by linarith [tx.2]⟩ ⟨ty.1.le, by linarith [ty.2]⟩
        ⟨tz.1.le, by linarith [tz.2]⟩ hvi]
    exact Prod.ext (hsp.symm.trans he) hx0
  refine ⟨max N0 2, conv, p, fun fuel hf => ⟨hret fuel (le_of_max_le_left hf), hp fuel (le_of_max_le_right hf)⟩, ?_, hLp,
    n, by omega, e5, by rw [l2, l1, mul_assoc, e5]⟩
  apply oneSite_of_sites c2.1
  have hnd := (C16_apply_transformation_no_duplicates 2 conv p P d (hLc.tolsInUnit hd) (hp 2 le_rfl)).1
  have hlen : 1 ≤ (sites p).length := by
    have h0 : (sites p).length = p.numSites := by
      unfold sites Structure.numSites
      rw [List.length_zip, ← c2.1, min_self]
    rw [h0]
    by_contra hlt
    have hz : p.numSites = 0 := by omega
    rw [hPdet, hnumk, hz] at hmin
    have hk1 : (1 : ℝ) ≤ k := by exact_mod_cast hk4.1
    have hk2 : (k : ℝ) ≤ 4 := by exact_mod_cast hk4.2
    have h3 : (1 / (k : ℝ) - 1 / 200) * (k : ℝ) = 1 - k / 200 := by field_simp
    rw [h3] at hmin
    push_cast at hmin
    linarith
  match hsp : sites p, hlen with
  | [x], _ => rw [hps x (by rw [hsp]; simp)]
  | x :: y :: l, _ =>
    rw [hsp] at hnd
    have h1 := hps x (by rw [hsp]; simp)
    have h2 := hps y (by rw [hsp]; simp)
    simp only [List.pairwise_cons] at hnd
    exact absurd (samePoint_iff_intVec.2 (by rw [h1, h2]; exact intVec_subV intVec_zero intVec_zero))
      (hnd.1 y (by simp))

/-! ## the whole call -/

theorem int_inverse {n : Mat3 ℤ} (h : n.det.natAbs = 1) : ∃ m : Mat3 ℤ, n * m = 1 ∧ m * n = 1 ∧ m.det.natAbs = 1 := by
  have hd : n.det = 1 ∨ n.det = -1 := by omega
  have e : n * (n.adj.map fun k => n.det * k) = ⟨n.det * n.det, 0, 0, 0, n.det * n.det, 0, 0, 0, n.det * n.det⟩ := by
    ext <;> simp only [Mat3.map, Mat3.adj, Mat3.det, Mat3.mul_m11, Mat3.mul_m12, Mat3.mul_m13, Mat3.mul_m21,
      Mat3.mul_m22, Mat3.mul_m23, Mat3.mul_m31, Mat3.mul_m32, Mat3.mul_m33] <;> ring
  have e' : (n.adj.map fun k => n.det * k) * n = ⟨n.det * n.det, 0, 0, 0, n.det * n.det, 0, 0, 0, n.det * n.det⟩ := by
    ext <;> simp only [Mat3.map, Mat3.adj, Mat3.det, Mat3.mul_m11, Mat3.mul_m12, Mat3.mul_m13, Mat3.mul_m21,
      Mat3.mul_m22, Mat3.mul_m23, Mat3.mul_m31, Mat3.mul_m32, Mat3.mul_m33] <;> ring
  have h1 : n.det * n.det = 1 := by rcases hd with h | h <;> rw [h] <;> rfl
  rw [h1] at e e'
  refine ⟨_, e, e', ?_⟩
  have h2 := congrArg Mat3.det e
  rw [Mat3.det_mul] at h2
  have h3 : (1 : Mat3 ℤ).det = 1 := by decide
  have h4 : (⟨1, 0, 0, 0, 1, 0, 0, 0, 1⟩ : Mat3 ℤ).det = 1 := by decide
  rw [h4] at h2
  have h5 := congrArg Int.natAbs h2
  rw [Int.natAbs_mul, h, one_mul] at h5
  exact h5

theorem overK_det (n : Mat3 ℤ) : (overK ℝ n).det = (n.det : ℝ) := by simp [overK, Mat3.det, Mat3.map]

theorem natAbs_det_mul {a b : Mat3 ℤ} (ha : a.det.natAbs = 1) (hb : b.det.natAbs = 1) : (a * b).det.natAbs = 1 := by
  rw [Mat3.det_mul, Int.natAbs_mul, ha, hb]

theorem mat_mul_injective {L : Mat3 ℝ} (h : L.det ≠ 0) {a b : Mat3 ℝ} (hab : L * a = L * b) : a = b := by
  cases hi : L.tryInverse with
  | none => exact absurd (Mat3.tryInverse_eq_none_iff.1 hi) h
  | some i =>
    have hm := Mat3.mul_eq_one_comm' (Mat3.tryInverse_eq_some_iff.1 hi)
    have := congrArg (fun v : Mat3 ℝ => i * v) hab
    simpa only [← mul_assoc, hm, one_mul] using this

theorem uniform_bound {α : Type} {l : List α} {Q : α → ℕ → Prop} (h : ∀ x ∈ l, ∃ M, ∀ f ≥ M, Q x f) :
    ∃ M, ∀ x ∈ l, ∀ f ≥ M, Q x f := by
  induction l with
  | nil => exact ⟨0, by simp⟩
  | cons a l ih =>
    obtain ⟨M1, h1⟩ := h a (by simp)
    obtain ⟨M2, h2⟩ := ih fun x hx => h x (by simp [hx])
    refine ⟨max M1 M2, fun x hx f hf => ?_⟩
    rcases List.mem_cons.1 hx with rfl | hx
    · exact h1 f (le_of_max_le_left hf)
    · exact h2 x hx f (le_of_max_le_right hf)

/-- **C56, partial.** Let the structure have one atom, at the origin, on a lattice whose vectors are at least 24 times
as long as the distance tolerance, and let the primitive cell and its reduced form be returned, with Bravais type `b`.
If `b` is `mI` or `hR`, `get_space_group_info` panics: no space group is found.  Otherwise the input lattice is the
standard primitive lattice in another basis `n`; and if the operations of the holohedry are small in that basis, the
call returns the space group of the lattice, with exactly the operations of the holohedry in the input basis, without
translations.  Missing from the full claim: `mI` and `hR`, and bases with large entries, where it is false. -/
theorem C56_one_atom_partial (sa : SymmetryAnalyzer ℝ) (h : HashOrders ℝ) (hv : h.Valid) (s : Structure ℝ) (e : String)
    (hs : OneSite s e) (hsv : SvAbove s.lattice) (hd : 0 < sa.dtol)
    (hL : LongVectors s.lattice (24 * sa.dtol)) (hvol : sa.dtol < |s.volume|)
    (harea : ∀ u v : Vec3 ℝ, IntVec u → IntVec v → (s.lattice * u).cross (s.lattice * v) ≠ 0 →
      sa.dtol < ((s.lattice * u).cross (s.lattice * v)).mag)
    (prim nig : Structure ℝ) (ch : ℕ) (b : BravaisType)
    (h1 : sa.reducer.findPrimitiveCell h.minEle s = .ret prim) (h2 : sa.reducer.niggliReduce prim tol1em5 = .ret nig)
    (h3 : getLatticeCharacter nig tol1em5 = .ret ch) (h4 : amapGet? latticeCharToBravais ch = some b) :
    (b = .mI ∨ b = .hR → ∃ N, ∀ fuel ≥ N,
      sa.getSpaceGroupInfo h fuel s = .panic "Cannot identify spacegroup from operations!") ∧
    (b ≠ .mI → b ≠ .hR → SvAbove prim.lattice → SvAbove nig.lattice →
      ∃ (p : Structure ℝ) (n : Mat3 ℤ) (sym : String) (N : ℕ), n.det.natAbs = 1 ∧ p.lattice * overK ℝ n = s.lattice ∧
        amapGet? sgNumToSymbol (latticeGroup b) = some sym ∧
        (∀ fuel ≥ N, sa.getStandardPrimitiveStructure h fuel s = .ret p) ∧ OneSite p e ∧
        ((∀ W ∈ (holoCodes b).map dec8, ∃ r, FitsI8 r ∧ InBasis (overK ℝ n) (intRot W) r ∧
            ∃ k ∈ r.toListCM, k = 0 ∨ k = 1 ∨ k = -1) →
          ∃ N', ∀ fuel ≥ N', ∃ ops, sa.getSpaceGroupInfo h fuel s = .ret (latticeGroup b, sym, ops) ∧
            ops.length = (holoCodes b).length ∧
            (∀ o ∈ ops, IntVec o.translation ∧ ∃ W ∈ (holoCodes b).map dec8,
              InBasis (overK ℝ n) (intRot W) (intRot o.rotation)) ∧
            ∀ W ∈ (holoCodes b).map dec8, ∃ o ∈ ops, InBasis (overK ℝ n) (intRot W) (intRot o.rotation))) := by
  have hcol : ∀ v k : Vec3 ℝ, s.lattice * k = v → IntVec k → k ≠ 0 → sa.dtol < v.mag := by
    rintro v k rfl hk hk0
    have h5 := hL k hk hk0
    rw [mag_eq]
    have := Real.le_sqrt_of_sq_le h5
    linarith
  have hcols : sa.reducer.dtol < s.a ∧ sa.reducer.dtol < s.b ∧ sa.reducer.dtol < s.c := by
    refine ⟨hcol _ ⟨1, 0, 0⟩ ?_ ⟨1, 0, 0, by ext <;> simp⟩ (by simp [Vec3.ext_iff]),
      hcol _ ⟨0, 1, 0⟩ ?_ ⟨0, 1, 0, by ext <;> simp⟩ (by simp [Vec3.ext_iff]),
      hcol _ ⟨0, 0, 1⟩ ?_ ⟨0, 0, 1, by ext <;> simp⟩ (by simp [Vec3.ext_iff])⟩ <;>
    ext <;> simp [Mat3.col0, Mat3.col1, Mat3.col2]
  have hsdet := SvAbove.det_ne_zero hsv
  obtain ⟨prim', h1', -, a1, a2, a3, -, -, -, hpl, hpd, -⟩ :=
    C28_primitive_right_handed_partial sa.reducer h.minEle hv.minEle s (by
      unfold Structure.numSites; rw [hs.1]; simp) (by rw [hs.1, hs.2]; rfl) hsv
      (noTranslation_of_once _ ⟨e, by rw [hs.1]; simp⟩) hd hcols
      hvol harea
  rw [h1, Outcome.ret.injEq] at h1'
  subst h1'
  set A : Mat3 ℤ := Mat3.ofCols a1 a2 a3 with hA
  have hpl' : prim.lattice = s.lattice * overK ℝ A := hpl
  have hA0 : A.det ≠ 0 := by intro h0; rw [h0] at hpd; simp at hpd
  have hLp : LongVectors prim.lattice (24 * sa.dtol) := by rw [hpl']; exact hL.mul hA0
  have hpdet : prim.lattice.det ≠ 0 := by
    rw [hpl', Mat3.det_mul, overK_det]; exact mul_ne_zero hsdet (by exact_mod_cast hA0)
  obtain ⟨hps, hpc⟩ := oneSite_primitive (r := sa.reducer) hs hd hL hLp h1
  obtain ⟨hns, hnc, hndet, B, hB, hnl⟩ := oneSite_niggli hps hpc hd hLp hpdet h2
  have hB0 : B.det ≠ 0 := by intro h0; rw [h0] at hB; simp at hB
  have hLn : LongVectors nig.lattice (24 * sa.dtol) := by rw [hnl]; exact hLp.mul hB0
  obtain ⟨r1, r2⟩ : 1 ≤ ch ∧ ch ≤ 44 := by
    by_contra hc
    rw [(C32_no_other_character (ch := ch) (by omega)).2] at h4
    exact absurd h4 (by simp)
  obtain ⟨m, P, b', c, n, e1, e2, -, -, -, -, -⟩ := C32_tables_consistent (K := ℝ) ch r1 r2
  have hbb : b' = b := by
    have e2' := e2
    unfold primitiveTransformationMatrix at e2'
    rw [h4] at e2'
    simp only [Outcome.bind_eq_ret, Outcome.ofOption, Outcome.ret.injEq, Prod.mk.injEq, exists_eq_left'] at e2'
    obtain ⟨_, -, _, -, -, hb⟩ := e2'
    exact hb.symm
  subst hbb
  obtain ⟨N1, conv, p, hret, hos, hLs, n', hn', hTP, hpn⟩ := oneSite_standard hns hnc hd hLn hndet e1 e2
  obtain ⟨N2, hid⟩ := C56_lattice_identified
  have hct : conventionalTransformationMatrix nig = .ret ((castRot m : Mat3 ℝ).transpose, ch) := by
    unfold conventionalTransformationMatrix
    rw [h3, Outcome.ret_bind, e1]
    rfl
  obtain ⟨tx, ty, tz⟩ := hLs.tols hd
  set tols := Structure.fracTols p.lattice sa.dtol with htols
  constructor
  · intro hb
    refine ⟨max N1 N2, fun fuel hf => ?_⟩
    obtain ⟨r3, r4⟩ := hret fuel (le_of_max_le_left hf)
    obtain ⟨gens, sys, pg, g1, g2, g3, g4, g5, -, g6⟩ := hid fuel (le_of_max_le_right hf) sa h hv p e b' tols hos htols
      tx ty tz
    unfold getSpaceGroupInfo
    rw [h1, Outcome.ret_bind, h2, Outcome.ret_bind, hct, Outcome.ret_bind]
    simp only
    rw [r3, Outcome.ret_bind, e2, Outcome.ret_bind]
    simp only
    rw [r4, Outcome.ret_bind, g1, Outcome.ret_bind]
    rw [← htols, g2, Outcome.ret_bind, g3]
    simp only [Outcome.ofOption, Outcome.ret_bind]
    rw [g6 hb]
    rfl
  · intro hb1 hb2 hc1 hc2
    obtain ⟨D, hD1, hD2, hD3⟩ := int_inverse (natAbs_det_mul (natAbs_det_mul hpd hB) hn')
    have hpl2 : p.lattice = s.lattice * overK ℝ (A * B * n') := by
      rw [hpn, hnl, hpl', overK_mul, overK_mul]
      simp only [mul_assoc]
    have hpD : p.lattice * overK ℝ D = s.lattice := by
      rw [hpl2, mul_assoc, ← overK_mul, hD1, overK_one, mul_one]
    have hpd0 : p.lattice.det ≠ 0 := by
      intro h0
      have := congrArg Mat3.det hpD
      rw [Mat3.det_mul, h0, zero_mul] at this
      exact hsdet this.symm
    obtain ⟨_, _, _, -, -, -, -, -, g7, -⟩ := hid (max N1 N2) (le_max_right _ _) sa h hv p e b' tols hos htols tx ty tz
    obtain ⟨sym, hsym, -⟩ := g7 hb1 hb2
    refine ⟨p, D, sym, N1, hD3, hpD, hsym, fun fuel hf => ?_, hos, fun hfit => ?_⟩
    · obtain ⟨r3, r4⟩ := hret fuel hf
      unfold getStandardPrimitiveStructure
      rw [h1, Outcome.ret_bind, h2, Outcome.ret_bind, hct, Outcome.ret_bind]
      simp only
      rw [r3, Outcome.ret_bind, e2, Outcome.ret_bind]
      exact r4
    -- the change of basis is the integer matrix `D`
    have hTPdet : (castRot m : Mat3 ℝ).transpose.det ≠ 0 ∧ P.det ≠ 0 := by
      have := congrArg Mat3.det hTP
      rw [Mat3.det_mul, overK_det] at this
      have h0 : (n'.det : ℝ) ≠ 0 := by
        have : n'.det ≠ 0 := by intro h0; rw [h0] at hn'; simp at hn'
        exact_mod_cast this
      exact ⟨fun hz => h0 (by rw [← this, hz, zero_mul]), fun hz => h0 (by rw [← this, hz, mul_zero])⟩
    obtain ⟨invT, hinvT⟩ : ∃ i, (castRot m : Mat3 ℝ).transpose.tryInverse = some i := by
      cases hi : (castRot m : Mat3 ℝ).transpose.tryInverse with
      | none => exact absurd (Mat3.tryInverse_eq_none_iff.1 hi) hTPdet.1
      | some i => exact ⟨i, rfl⟩
    obtain ⟨invP, hinvP⟩ : ∃ i, P.tryInverse = some i := by
      cases hi : P.tryInverse with
      | none => exact absurd (Mat3.tryInverse_eq_none_iff.1 hi) hTPdet.2
      | some i => exact ⟨i, rfl⟩
    have hT1 := Mat3.tryInverse_eq_some_iff.1 hinvT
    have hP1 := Mat3.tryInverse_eq_some_iff.1 hinvP
    have htotal : invP * invT * nig.getTransformationMatrix prim * prim.getTransformationMatrix s = overK ℝ D := by
      apply mat_mul_injective hpd0
      rw [hpD, hpn, ← hTP]
      unfold Structure.getTransformationMatrix
      calc nig.lattice * ((castRot m : Mat3 ℝ).transpose * P) * (invP * invT *
            ((FTrans.pinv nig.lattice : Mat3 ℝ) * prim.lattice) * ((FTrans.pinv prim.lattice : Mat3 ℝ) * s.lattice))
          = nig.lattice * (castRot m : Mat3 ℝ).transpose * (P * invP) * invT * (FTrans.pinv nig.lattice : Mat3 ℝ) *
            (prim.lattice * (FTrans.pinv prim.lattice : Mat3 ℝ)) * s.lattice := by simp only [mul_assoc]
        _ = nig.lattice * ((castRot m : Mat3 ℝ).transpose * invT) * (FTrans.pinv nig.lattice : Mat3 ℝ) * s.lattice := by
            rw [hP1, mul_pinv hc1]; simp only [mul_one, mul_assoc]
        _ = s.lattice := by rw [hT1, mul_one, mul_pinv hc2, one_mul]
    obtain ⟨N3, hN3⟩ := uniform_bound (l := ((holoCodes b').map fun c => (⟨dec8 c, 0⟩ : SymmOp ℝ)).permutations)
      (Q := fun gens fuel => gens.Nodup → ∃ ops', SpaceGroup.applyTransformation fuel gens (overK ℝ D) tols = .ret ops' ∧
        ops'.length = gens.length * D.det.natAbs ∧
        (∀ o ∈ ops', ∃ op ∈ gens, ∃ v, IntVec v ∧ IsImage (overK ℝ D) op o v) ∧
        ∀ op ∈ gens, ∀ v, IntVec v → ∃ o ∈ ops', IsImage (overK ℝ D) op o v) (by
      intro gens hgens
      rw [List.mem_permutations] at hgens
      have hmem : ∀ op ∈ gens, op.translation = 0 ∧ op.rotation ∈ (holoCodes b').map dec8 := by
        intro op hop
        obtain ⟨c, hc, rfl⟩ := List.mem_map.1 (hgens.mem_iff.1 hop)
        exact ⟨rfl, List.mem_map.2 ⟨c, hc, rfl⟩⟩
      by_cases hnd : gens.Nodup
      swap
      · exact ⟨0, fun _ _ h0 => absurd h0 hnd⟩
      obtain ⟨M, hM⟩ := C38_supercell_grid_partial gens D tols 1 one_pos
        ⟨⟨tx.1, by linarith [tx.2]⟩, ⟨ty.1, by linarith [ty.2]⟩, ⟨tz.1, by linarith [tz.2]⟩⟩
        (by intro h0; rw [h0] at hD3; simp at hD3) (by rw [hD3]; norm_num; linarith [tx.2])
        (by rw [hD3]; norm_num; linarith [ty.2]) (by rw [hD3]; norm_num; linarith [tz.2])
        (by
          intro op hop
          rw [(hmem op hop).1]
          exact ⟨0, 0, 0, by ext <;> simp [Vec3.scale]⟩)
        (by
          refine hnd.imp_of_mem ?_
          intro x y hx hy hne hr
          exact absurd (by
            cases x; cases y
            have hx1 := (hmem _ hx).1
            have hy1 := (hmem _ hy).1
            simp only at hx1 hy1 hr
            rw [hx1, hy1, hr]) hne)
        (by
          intro op hop
          exact hfit _ (hmem op hop).2)
      exact ⟨M, fun f hf _ => hM f hf⟩)
    refine ⟨max (max N1 N2) N3, fun fuel hf => ?_⟩
    have hf12 := le_of_max_le_left hf
    obtain ⟨r3, r4⟩ := hret fuel (le_of_max_le_left hf12)
    obtain ⟨gens, sys, pg, g1, g2, g3, g4, g5, g6, -⟩ := hid fuel (le_of_max_le_right hf12) sa h hv p e b' tols hos htols
      tx ty tz
    obtain ⟨sym', hsym', hident⟩ := g6 hb1 hb2
    rw [hsym, Option.some.injEq] at hsym'
    subst hsym'
    have hperm : gens.Perm ((holoCodes b').map fun c => (⟨dec8 c, 0⟩ : SymmOp ℝ)) := by
      refine g5.trans (((holo_perm hv g4).map _).trans (List.Perm.of_eq ?_))
      rw [List.map_map]
      rfl
    have hnd : gens.Nodup := by
      refine (g5.nodup_iff).2 ?_
      refine List.Nodup.map ?_ (holo_group hv g4).1
      intro x y hxy
      exact congrArg SymmOp.rotation hxy
    obtain ⟨ops, ho1, ho2, ho3, ho4⟩ := hN3 gens (List.mem_permutations.2 hperm) fuel (le_of_max_le_right hf) hnd
    refine ⟨ops, ?_, by rw [ho2, hD3, mul_one, hperm.length_eq, List.length_map], ?_, ?_⟩
    · unfold getSpaceGroupInfo
      rw [h1, Outcome.ret_bind, h2, Outcome.ret_bind, hct, Outcome.ret_bind]
      simp only
      rw [r3, Outcome.ret_bind, e2, Outcome.ret_bind]
      simp only
      rw [r4, Outcome.ret_bind, g1, Outcome.ret_bind]
      rw [← htols, g2, Outcome.ret_bind, g3]
      simp only [Outcome.ofOption, Outcome.ret_bind]
      rw [hident, Outcome.ret_bind]
      simp only [Outcome.ret_bind]
      rw [hinvP]
      simp only [Outcome.ret_bind]
      rw [hinvT]
      simp only [Outcome.ret_bind]
      rw [htotal, ho1, Outcome.ret_bind]
    · intro o ho
      obtain ⟨op, hop, v, hvi, himg, w, hw, ht⟩ := ho3 o ho
      obtain ⟨c, hc, rfl⟩ := List.mem_map.1 (hperm.mem_iff.1 hop)
      refine ⟨?_, _, List.mem_map.2 ⟨c, hc, rfl⟩, himg⟩
      have h5 : o.translation + w = overK ℝ (A * B * n') * v := by
        have h6 : overK ℝ (A * B * n') * overK ℝ D = 1 := by rw [← overK_mul, hD1, overK_one]
        have h7 : overK ℝ D * overK ℝ (A * B * n') = 1 := Mat3.mul_eq_one_comm' h6
        have h8 := congrArg (fun x : Vec3 ℝ => overK ℝ (A * B * n') * x) ht
        simp only at h8
        rw [← Mat3.mul_mulVec, h6, Mat3.one_mulVec] at h8
        rw [h8]
        congr 1
        ext <;> simp
      have h9 : o.translation = overK ℝ (A * B * n') * v - w := by
        rw [← h5]; ext <;> simp
      rw [h9]
      exact intVec_subV (intVec_mulVec hvi) hw
    · intro W hW
      obtain ⟨c, hc, rfl⟩ := List.mem_map.1 hW
      obtain ⟨o, ho, himg, -⟩ := ho4 ⟨dec8 c, 0⟩ (hperm.mem_iff.2 (List.mem_map.2 ⟨c, hc, rfl⟩)) 0 intVec_zero
      exact ⟨o, ho, himg⟩

end CrystSymm
