import Verif.Proofs.RoundedApply

/-! # The primitive cell of a box in rounded arithmetic -/

set_option autoImplicit false
set_option linter.unusedSectionVars false
set_option linter.unusedSimpArgs false

namespace CrystSymm

open Spec Reducer SymmetryAnalyzer

variable {ρ : Rounding} {a b c dtol : RNum ρ} {r A : ℝ} {sp : List String} {ps : List (Vec3 ℝ)} {η : ℝ}
  {s : Structure (RNum ρ)}

/-- the crystal with exact positions `ps` in the lattice `M`. -/
def idealOn (M : Mat3 ℝ) (sp : List String) (ps : List (Vec3 ℝ)) : Structure ℝ :=
  ⟨M, sp, ps.map fun p => (M * p : Vec3 ℝ), ps⟩

theorem SitesNear.get {B : ℝ} {F : List (Vec3 (RNum ρ))} (h : SitesNear η B F ps) {i : ℕ} {p : Vec3 (RNum ρ)}
    (hp : F[i]? = some p) : ∃ q, ps[i]? = some q ∧ CompsLe (valV p) B ∧ CloseMod η (valV p) q := by
  unfold SitesNear at h
  induction h generalizing i with
  | nil => simp at hp
  | cons h0 _ ih =>
    cases i with
    | zero =>
      simp only [List.getElem?_cons_zero, Option.some.injEq] at hp
      subst hp
      exact ⟨_, rfl, h0⟩
    | succ i =>
      rw [List.getElem?_cons_succ] at hp
      obtain ⟨q, hq, h⟩ := ih hp
      exact ⟨q, by rw [List.getElem?_cons_succ]; exact hq, h⟩

theorem SitesNear.back {B : ℝ} {F : List (Vec3 (RNum ρ))} (h : SitesNear η B F ps) {i : ℕ} {q : Vec3 ℝ}
    (hq : ps[i]? = some q) : ∃ p, F[i]? = some p ∧ CompsLe (valV p) B ∧ CloseMod η (valV p) q := by
  have hi : i < F.length := by
    rw [h.length]
    exact (List.getElem?_eq_some_iff.1 hq).1
  obtain ⟨q', hq', h'⟩ := h.get (List.getElem?_eq_getElem hi)
  rw [hq, Option.some.injEq] at hq'
  subst hq'
  exact ⟨_, List.getElem?_eq_getElem hi, h'⟩

theorem PosApart.get {M : Mat3 ℝ} {d : ℝ} (h : PosApart M d ps) {i j : ℕ} (hij : i ≠ j) {p q : Vec3 ℝ} (hp : ps[i]? = some p)
    (hq : ps[j]? = some q) : ¬ DistMod M d p q := by
  obtain ⟨hi, rfl⟩ := List.getElem?_eq_some_iff.1 hp
  obtain ⟨hj, rfl⟩ := List.getElem?_eq_some_iff.1 hq
  unfold PosApart at h
  rw [List.pairwise_iff_getElem] at h
  rcases lt_or_gt_of_ne hij with h1 | h1
  · exact h i j hi hj h1
  · exact fun hd => h j i hj hi h1 hd.symm

theorem add_close (hb : BoxBounds a b c dtol r A) {p v : Vec3 (RNum ρ)} (hp : CompsLe (valV p) (3 / 2))
    (hv : CompsLe (valV v) (3 / 2)) :
    CompsLe (valV (p + v)) 8 ∧ CloseMod (8 * r ^ 2) (valV (p + v)) (valV p + valV v) := by
  have hr := tiny_r2 hb
  norm_num at hr
  have key : ∀ x y : RNum ρ, |x.val| ≤ 3 / 2 → |y.val| ≤ 3 / 2 → |(x + y).val| ≤ 8 ∧ |(x + y).val - (x.val + y.val)| ≤ 8 * r ^ 2 := by
    intro x y hx hy
    have k := fl_err hb (x := x.val + y.val) (B := 8) (by norm_num) (by
      rw [abs_le] at *; constructor <;> linarith [hx.1, hx.2, hy.1, hy.2])
    rw [← RNum.val_add] at k
    refine ⟨?_, by linarith⟩
    rw [abs_le] at *
    constructor <;> linarith [hx.1, hx.2, hy.1, hy.2, k.1, k.2]
  obtain ⟨x1, x2⟩ := key p.x v.x hp.1 hv.1
  obtain ⟨y1, y2⟩ := key p.y v.y hp.2.1 hv.2.1
  obtain ⟨z1, z2⟩ := key p.z v.z hp.2.2 hv.2.2
  refine ⟨⟨x1, y1, z1⟩, 0, intVec_zero, ?_, ?_, ?_⟩ <;>
    simp only [valV, Vec3.map, Vec3.add_x, Vec3.add_y, Vec3.add_z, Vec3.sub_x, Vec3.sub_y, Vec3.sub_z, Vec3.zero_x, Vec3.zero_y,
      Vec3.zero_z, sub_zero]
  · exact x2
  · exact y2
  · exact z2

theorem sub_close (hb : BoxBounds a b c dtol r A) {p v : Vec3 (RNum ρ)} (hp : CompsLe (valV p) (3 / 2))
    (hv : CompsLe (valV v) (3 / 2)) :
    CompsLe (valV (p - v)) 8 ∧ CloseMod (8 * r ^ 2) (valV (p - v)) (valV p - valV v) := by
  have hr := tiny_r2 hb
  norm_num at hr
  have key : ∀ x y : RNum ρ, |x.val| ≤ 3 / 2 → |y.val| ≤ 3 / 2 → |(x - y).val| ≤ 8 ∧ |(x - y).val - (x.val - y.val)| ≤ 8 * r ^ 2 := by
    intro x y hx hy
    have k := fl_err hb (x := x.val - y.val) (B := 8) (by norm_num) (by
      rw [abs_le] at *; constructor <;> linarith [hx.1, hx.2, hy.1, hy.2])
    rw [← RNum.val_sub] at k
    refine ⟨?_, by linarith⟩
    rw [abs_le] at *
    constructor <;> linarith [hx.1, hx.2, hy.1, hy.2, k.1, k.2]
  obtain ⟨x1, x2⟩ := key p.x v.x hp.1 hv.1
  obtain ⟨y1, y2⟩ := key p.y v.y hp.2.1 hv.2.1
  obtain ⟨z1, z2⟩ := key p.z v.z hp.2.2 hv.2.2
  refine ⟨⟨x1, y1, z1⟩, 0, intVec_zero, ?_, ?_, ?_⟩ <;>
    simp only [valV, Vec3.map, Vec3.sub_x, Vec3.sub_y, Vec3.sub_z, Vec3.zero_x, Vec3.zero_y, Vec3.zero_z, sub_zero]
  · exact x2
  · exact y2
  · exact z2

theorem CloseMod.shift {ν : ℝ} {u v u' v' : Vec3 ℝ} (h : CloseMod ν u v) (e : u - v = u' - v') : CloseMod ν u' v' := by
  obtain ⟨w, hw, hm⟩ := h
  exact ⟨w, hw, by rw [← e]; exact hm⟩

theorem mem_zip_iff {α β : Type} {l : List α} {m : List β} {x : α × β} :
    x ∈ l.zip m ↔ ∃ i : ℕ, l[i]? = some x.1 ∧ m[i]? = some x.2 := by
  rw [List.mem_iff_getElem?]
  refine exists_congr fun i => ?_
  rw [List.getElem?_zip_eq_some]

/-- a vector that passes the test of the program maps the ideal crystal onto itself. -/
theorem translation_maps (hb : BoxBounds a b c dtol r A) {F : List (Vec3 (RNum ρ))} (hF : SitesNear η (3 / 2) F ps)
    (hη : 100 * A * η ≤ dtol.val) {v : Vec3 (RNum ρ)} (hv : CompsLe (valV v) (3 / 2))
    (h : isTranslation (rbox a b c) (Structure.fracTols (rbox a b c) dtol) dtol (F.zip sp) v = true) :
    MapsWithin (idealOn (valM (rbox a b c)) sp ps) (overK ℝ 1) (valV v) (5 / 2 * dtol.val) := by
  have hlo := hb.lo
  intro e p0 hep
  obtain ⟨i, h1, h2⟩ := mem_zip_iff.1 hep
  simp only [idealOn] at h1 h2
  obtain ⟨p, hp, hpc, hpn⟩ := hF.back h2
  unfold isTranslation at h
  rw [List.all_eq_true] at h
  have h3 := h (p, e) (mem_zip_iff.2 ⟨i, hp, h1⟩)
  rw [List.any_eq_true] at h3
  obtain ⟨⟨q, e'⟩, hq, h4⟩ := h3
  rw [Bool.and_eq_true, decide_eq_true_eq] at h4
  obtain ⟨h5, h6⟩ := h4
  simp only at h5 h6
  subst h5
  obtain ⟨j, hj1, hj2⟩ := mem_zip_iff.1 hq
  simp only at hj1 hj2
  obtain ⟨q0, hq0, hqc, hqn⟩ := hF.get hj1
  obtain ⟨hac, han⟩ := add_close hb hpc hv
  have d1 := coincide_sound hb.search hac (hqc.mono (by norm_num)) h6
  have d2 := hb.search.dist hqn
  have d3 := hb.search.dist han
  have d4 : DistMod (valM (rbox a b c)) (6 * A * η) (valV p + valV v) (p0 + valV v) :=
    hb.search.dist (hpn.shift (by ext <;> simp))
  obtain ⟨w, hw, hm⟩ := ((d4.symm.trans d3.symm).trans d1).trans d2
  refine ⟨q0, mem_zip_iff.2 ⟨j, hj2, hq0⟩, w, hw, ?_⟩
  have e1 : overK ℝ 1 * p0 = p0 := by
    ext <;> simp [overK, Mat3.map, Mat3.mulVec_x, Mat3.mulVec_y, Mat3.mulVec_z]
  rw [e1, ← mag_le_iff (by linarith)]
  refine hm.trans ?_
  have hu := hb.u1
  have e2 : 6 * A * (8 * r ^ 2) = 48 * (A * r ^ 2) := by ring
  rw [e2]
  linarith

/-- the candidates that are not lattice vectors fail the test. -/
theorem candidate_fails (hb : BoxBounds a b c dtol r A) {F : List (Vec3 (RNum ρ))} (hF : SitesNear η (3 / 2) F ps)
    (hη : 100 * A * η ≤ dtol.val) (ha : PosApart (valM (rbox a b c)) (8 * dtol.val) ps)
    (hno : ∀ t, MapsWithin (idealOn (valM (rbox a b c)) sp ps) (overK ℝ 1) t (3 * dtol.val) →
      DistMod (valM (rbox a b c)) (9 / 2 * dtol.val) t 0)
    {i j : ℕ} (hij : i ≠ j) {p q : Vec3 (RNum ρ)} (hp : F[i]? = some p) (hq : F[j]? = some q) :
    isTranslation (rbox a b c) (Structure.fracTols (rbox a b c) dtol) dtol (F.zip sp)
      (normFracVec (Structure.fracTols (rbox a b c) dtol) (p - q)) = false := by
  have hlo := hb.lo
  by_contra hc
  rw [Bool.not_eq_false] at hc
  obtain ⟨p0, hp0, hpc, hpn⟩ := hF.get hp
  obtain ⟨q0, hq0, hqc, hqn⟩ := hF.get hq
  obtain ⟨hs1, hs2⟩ := sub_close hb hpc hqc
  obtain ⟨hn1, hn2⟩ := norm_close hb.search hs1
  have hm := translation_maps hb hF hη hn1 hc
  have hm' : MapsWithin (idealOn (valM (rbox a b c)) sp ps) (overK ℝ 1)
      (valV (normFracVec (Structure.fracTols (rbox a b c) dtol) (p - q))) (3 * dtol.val) := by
    intro e x hx
    obtain ⟨y, hy, w, hw, hl⟩ := hm e x hx
    exact ⟨y, hy, w, hw, hl.trans (pow_le_pow_left₀ (by linarith) (by linarith) 2)⟩
  have d1 := hno _ hm'
  have d2 := hb.search.dist (hn2.trans (hs2.trans (hpn.sub hqn)))
  have d3 := d2.symm.trans d1
  refine ha.get hij hp0 hq0 ((d3.shift (u' := p0) (v' := q0) (by ext <;> simp)).mono ?_)
  have hu := hb.u1
  have e2 : 6 * A * (2048 * r ^ 2 + (8 * r ^ 2 + (η + η))) = 12336 * (A * r ^ 2) + 12 * A * η := by ring
  rw [e2]
  linarith

/-- the unit vectors pass it. -/
theorem unit_passes (hb : BoxBounds a b c dtol r A) {F : List (Vec3 (RNum ρ))} (hF : SitesNear η (3 / 2) F ps)
    {v : Vec3 (RNum ρ)} (hv : v ∈ (unitVecs : List (Vec3 (RNum ρ)))) :
    isTranslation (rbox a b c) (Structure.fracTols (rbox a b c) dtol) dtol (F.zip sp) v = true := by
  unfold isTranslation
  rw [List.all_eq_true]
  intro p hp
  rw [List.any_eq_true]
  refine ⟨p, hp, ?_⟩
  rw [Bool.and_eq_true, decide_eq_true_eq]
  refine ⟨rfl, ?_⟩
  have hpc := hF.comps p.1 (List.of_mem_zip hp).1
  have hone : |(1 : RNum ρ).val| ≤ 3 / 2 := by rw [RNum.val_one]; norm_num
  have hzero : |(0 : RNum ρ).val| ≤ 3 / 2 := by rw [RNum.val_zero]; norm_num
  have hvc : CompsLe (valV v) (3 / 2) ∧ IntVec (valV v) := by
    unfold unitVecs at hv
    simp only [List.mem_cons, List.not_mem_nil, or_false] at hv
    rcases hv with rfl | rfl | rfl
    · exact ⟨⟨hone, hzero, hzero⟩, 1, 0, 0, by simp [valV, Vec3.map, RNum.val_one, RNum.val_zero]⟩
    · exact ⟨⟨hzero, hone, hzero⟩, 0, 1, 0, by simp [valV, Vec3.map, RNum.val_one, RNum.val_zero]⟩
    · exact ⟨⟨hzero, hzero, hone⟩, 0, 0, 1, by simp [valV, Vec3.map, RNum.val_one, RNum.val_zero]⟩
  obtain ⟨hac, w, hw, han⟩ := add_close hb hpc hvc.1
  refine coincide_complete hb.search hac (hpc.mono (by norm_num)) (ν := 8 * r ^ 2)
    ⟨w + valV v, intVec_add hw hvc.2, ?_⟩ ?_
  · have e : valV (p.1 + v) - valV p.1 - (w + valV v) = valV (p.1 + v) - (valV p.1 + valV v) - w := by
      ext <;> simp <;> ring
    rw [e]
    exact han
  · have hu := hb.u1
    have hlo := hb.lo
    have e2 : 6 * A * (8 * r ^ 2) = 48 * (A * r ^ 2) := by ring
    rw [e2]
    linarith

/-- what is assumed of the cell given to the program. -/
structure BoxInput (a b c dtol : RNum ρ) (r A : ℝ) : Prop where
  rel : Relative ρ (r ^ 2)
  r0 : 0 ≤ r
  r1 : r ≤ 1 / 2 ^ 20
  A1 : 1 ≤ A
  tol : 4000 * A * r ≤ dtol.val
  lo : 1 / 100 ≤ dtol.val
  hi : dtol.val ≤ 1
  res : A ≤ 16000 * dtol.val
  ea : 61 * dtol.val ≤ a.val
  ab : a = b ∨ a.val + dtol.val ≤ b.val
  bc : (a = b ∧ b = c) ∨ b.val + dtol.val ≤ c.val
  cA : c.val + dtol.val ≤ A

theorem BoxInput.bounds (h : BoxInput a b c dtol r A) : BoxBounds a b c dtol r A := by
  have := h.lo; have := h.ea; have := h.ab; have := h.bc; have := h.cA
  exact ⟨h.rel, h.r0, h.r1, h.A1, h.tol, h.lo, h.hi, h.res, by linarith, h.ab.imp id (by intro; linarith),
    h.bc.imp id (by intro; linarith), by linarith⟩

theorem edge_near_abs (hb : BoxBounds a b c dtol r A) {x x' : RNum ρ} (h0 : 0 ≤ x.val) (hx : x.val ≤ A) (h : EdgeNear 34 (A * r ^ 2) x x') :
    |x'.val - x.val| ≤ dtol.val / 100000 := by
  unfold EdgeNear at h
  have hu := hb.Au
  have hu0 := hb.u0
  have hlo := hb.lo
  have : 34 * (A * r ^ 2) * x.val ≤ 34 * (A * r ^ 2) * A := mul_le_mul_of_nonneg_left hx (by linarith)
  refine h.trans (this.trans ?_)
  have e : 34 * (A * r ^ 2) * A = 34 * (A * (A * r ^ 2)) := by ring
  rw [e]
  linarith

theorem BoxInput.near (h : BoxInput a b c dtol r A) {a' b' c' : RNum ρ} (ea : EdgeNear 34 (A * r ^ 2) a a')
    (eb : EdgeNear 34 (A * r ^ 2) b b') (ec : EdgeNear 34 (A * r ^ 2) c c') (hab : a = b → a' = b') (hbc : b = c → b' = c') :
    BoxBounds a' b' c' dtol r A := by
  have hb := h.bounds
  obtain ⟨l1, l2, l3⟩ := hb.lower
  obtain ⟨u1, u2, u3⟩ := hb.upper
  have k1 := edge_near_abs hb (by linarith) u1 ea
  have k2 := edge_near_abs hb (by linarith) u2 eb
  have k3 := edge_near_abs hb (by linarith) u3 ec
  have := h.lo; have := h.ea; have := h.ab; have := h.bc; have := h.cA
  rw [abs_le] at k1 k2 k3
  exact ⟨h.rel, h.r0, h.r1, h.A1, h.tol, h.lo, h.hi, h.res, by linarith [k1.1],
    h.ab.imp hab (by intro; linarith [k1.2, k2.1]), h.bc.imp (fun e => ⟨hab e.1, hbc e.2⟩) (by intro; linarith [k2.2, k3.1]),
    by linarith [k3.2]⟩

/-- lengths in two nearly equal boxes. -/
theorem near_length {x y z x' y' z' : ℝ} (hx : |x| ≤ 21 / 20 * |x'|) (hy : |y| ≤ 21 / 20 * |y'|) (hz : |z| ≤ 21 / 20 * |z'|)
    (v : Vec3 ℝ) : ((⟨x, 0, 0, 0, y, 0, 0, 0, z⟩ : Mat3 ℝ) * v).mag ≤
      21 / 20 * ((⟨x', 0, 0, 0, y', 0, 0, 0, z'⟩ : Mat3 ℝ) * v).mag := by
  have h0 : 0 ≤ ((⟨x', 0, 0, 0, y', 0, 0, 0, z'⟩ : Mat3 ℝ) * v).mag := by rw [mag_eq]; exact Real.sqrt_nonneg _
  rw [mag_le_iff (by linarith), mul_pow, mag_eq, Real.sq_sqrt (lenSq_nonneg _)]
  have key : ∀ {x x' t : ℝ}, |x| ≤ 21 / 20 * |x'| → (x * t) ^ 2 ≤ (21 / 20) ^ 2 * (x' * t) ^ 2 := by
    intro x x' t h
    have h1 : |x * t| ≤ 21 / 20 * |x' * t| := by
      rw [abs_mul, abs_mul, ← mul_assoc]
      exact mul_le_mul_of_nonneg_right h (abs_nonneg t)
    have := pow_le_pow_left₀ (abs_nonneg _) h1 2
    rwa [mul_pow, sq_abs, sq_abs] at this
  have k1 := key (t := v.x) hx
  have k2 := key (t := v.y) hy
  have k3 := key (t := v.z) hz
  simp only [lenSq, Mat3.mulVec_x, Mat3.mulVec_y, Mat3.mulVec_z]
  linarith

theorem edge_ratio (hb : BoxBounds a b c dtol r A) {x x' : RNum ρ} (hx : 1 / 2 ≤ x.val) (hxA : x.val ≤ A)
    (h : EdgeNear 34 (A * r ^ 2) x x') : |x.val| ≤ 21 / 20 * |x'.val| ∧ |x'.val| ≤ 21 / 20 * |x.val| := by
  have k := edge_near_abs hb (by linarith) hxA h
  have := hb.hi
  rw [abs_le] at k
  rw [abs_of_pos (by linarith), abs_of_pos (by linarith [k.1])]
  constructor <;> linarith [k.1, k.2]

/-- distances in the box found by the program and in the box given to it. -/
theorem near_dist (hb : BoxBounds a b c dtol r A) {a' b' c' : RNum ρ} (ea : EdgeNear 34 (A * r ^ 2) a a')
    (eb : EdgeNear 34 (A * r ^ 2) b b') (ec : EdgeNear 34 (A * r ^ 2) c c') (v : Vec3 ℝ) :
    (valM (rbox a b c) * v).mag ≤ 21 / 20 * (valM (rbox a' b' c') * v).mag := by
  obtain ⟨l1, l2, l3⟩ := hb.lower
  obtain ⟨u1, u2, u3⟩ := hb.upper
  rw [valM_rbox, valM_rbox]
  exact near_length (edge_ratio hb l1 u1 ea).1 (edge_ratio hb l2 u2 eb).1 (edge_ratio hb l3 u3 ec).1 v

theorem near_apart (hb : BoxBounds a b c dtol r A) {a' b' c' : RNum ρ} (ea : EdgeNear 34 (A * r ^ 2) a a')
    (eb : EdgeNear 34 (A * r ^ 2) b b') (ec : EdgeNear 34 (A * r ^ 2) c c') {d d' : ℝ} (hd : 21 / 20 * d' ≤ d)
    (h : PosApart (valM (rbox a b c)) d ps) : PosApart (valM (rbox a' b' c')) d' ps := by
  refine h.imp fun hn hd' => hn ?_
  obtain ⟨w, hw, hm⟩ := hd'
  exact ⟨w, hw, (near_dist hb ea eb ec _).trans (by linarith)⟩

theorem zeroTol_small (hb : BoxBounds a b c dtol r A) : (zeroTol : RNum ρ).val ≤ 1 / 100 := by
  have hr := tiny_r2 hb
  have k := fl_err hb (x := 1000000) (B := 1000000) (by norm_num) (by norm_num)
  have e : (zeroTol : RNum ρ).val = ρ.fl (1 / ρ.fl 1000000) := by
    show ρ.fl (ρ.fl ((1 : ℤ) : ℝ) / ρ.fl ((1000000 : ℤ) : ℝ)) = _
    rw [Int.cast_one, ρ.one]
    norm_num
  rw [e]
  set y := ρ.fl 1000000
  rw [abs_le] at k
  norm_num at k hr
  have hy : 999 ≤ y := by linarith [k.1]
  have h1 : 1 / y ≤ 1 / 999 := one_div_le_one_div_of_le (by norm_num) hy
  have h2 : 0 < 1 / y := by positivity
  have k2 := fl_err hb (x := 1 / y) (B := 1) le_rfl (by rw [abs_of_pos h2]; linarith)
  rw [abs_le] at k2
  linarith [k2.2]

theorem comb_long (hb : BoxBounds a b c dtol r A) {u v w : RNum ρ} (hu : |u.val - 1| ≤ 1 / 10) (hv : |v.val - 1| ≤ 1 / 10)
    (hw : |w.val - 1| ≤ 1 / 10) : ∀ e ∈ combLabels, (zeroTol : RNum ρ) < FRound.abs (boxVec u v w e).mag := by
  intro e he
  have hs := combLabels_signs e he
  have hne : ∀ e ∈ combLabels, e.x ≠ 0 ∨ e.y ≠ 0 ∨ e.z ≠ 0 := by decide
  have hr := tiny_r2 hb
  have big : ∀ {x : ℝ}, |x - 1| ≤ 1 / 10 → |x| ≤ 2 := by
    intro x h; rw [abs_le] at *; constructor <;> linarith [h.1, h.2]
  have k := boxVec_mag hb.rel hb.r0 hb.r1 (A := 2) (by norm_num) (big hu) (big hv) (big hw) hs
  have hz := zeroTol_small hb
  rw [RNum.lt_def', RNum.val_abs]
  have m : 1 / 2 ≤ (⟨e.x * u.val, e.y * v.val, e.z * w.val⟩ : Vec3 ℝ).mag := by
    by_contra hc
    rw [not_le] at hc
    have h1 := (mag_le_iff (by norm_num : (0 : ℝ) ≤ 1 / 2)).1 hc.le
    simp only [lenSq] at h1
    have key : ∀ {n : ℤ} {x : ℝ}, (n = -1 ∨ n = 0 ∨ n = 1) → n ≠ 0 → |x - 1| ≤ 1 / 10 → 81 / 100 ≤ (n * x) * (n * x) := by
      intro n x hn h0 hx
      rw [abs_le] at hx
      rcases hn with rfl | rfl | rfl
      · push_cast; nlinarith [hx.1]
      · exact absurd rfl h0
      · push_cast; nlinarith [hx.1]
    have sq := fun x : ℝ => mul_self_nonneg x
    rcases hne e he with h | h | h
    · have := key hs.1 h hu; nlinarith [sq (e.y * v.val), sq (e.z * w.val)]
    · have := key hs.2.1 h hv; nlinarith [sq (e.x * u.val), sq (e.z * w.val)]
    · have := key hs.2.2 h hw; nlinarith [sq (e.x * u.val), sq (e.y * v.val)]
  have hr1 := hb.r1
  norm_num at hr1
  rw [abs_le] at k
  have : (1 / 4 : ℝ) ≤ (boxVec u v w e).mag.val := by linarith [k.1]
  rw [abs_of_nonneg (by linarith)]
  linarith

/-- the axes of the new cell. -/
noncomputable def newEdge (x : RNum ρ) : RNum ρ := x * (1 / x * x)

set_option maxHeartbeats 1000000 in
/-- the primitive cell of the crystal is its own cell. -/
theorem prim_state (hi : BoxInput a b c dtol r A) (hlen : sp.length = ps.length) (hsome : sp ≠ []) (hfew : sp.length < 65536)
    (hord : sp.Pairwise (· ≤ ·)) (hap : PosApart (valM (rbox a b c)) (8 * dtol.val) ps)
    (hno : ∀ t, MapsWithin (idealOn (valM (rbox a b c)) sp ps) (overK ℝ 1) t (3 * dtol.val) →
      DistMod (valM (rbox a b c)) (9 / 2 * dtol.val) t 0)
    (hl : s.lattice = rbox a b c) (hsp : s.species = sp) (hF : SitesNear η 8 s.fracCoords ps)
    (hη : 100 * A * (2400 * (A * r ^ 2) + η) ≤ dtol.val) (rd : Reducer (RNum ρ)) (hd : rd.dtol = dtol)
    {ord : List (String × ℕ) → List (String × ℕ)} (ho : ∀ l, (ord l).Perm l) :
    ∃ s', rd.findPrimitiveCell ord s = .ret s' ∧
      BoxState (newEdge a) (newEdge b) (newEdge c) sp ps (4300 * (A * r ^ 2) + η) s' := by
  have hb := hi.bounds
  have hlo := hi.lo
  obtain ⟨l1, l2, l3⟩ := hb.lower
  obtain ⟨u1, u2, u3⟩ := hb.upper
  have hA := hb.A1
  have hu0 := hb.u0
  have hu1 := hb.u1
  have hru := hb.r2u
  have ea : EdgeNear 34 (A * r ^ 2) a (newEdge a) := edge_close hb l1 u1
  have eb : EdgeNear 34 (A * r ^ 2) b (newEdge b) := edge_close hb l2 u2
  have ec : EdgeNear 34 (A * r ^ 2) c (newEdge c) := edge_close hb l3 u3
  have hb' := hi.near ea eb ec (fun e => by rw [e]) (fun e => by rw [e])
  obtain ⟨l1', l2', l3'⟩ := hb'.lower
  have hatoms : BoxAtoms a b c dtol sp ps := ⟨hlen, hsome, hord, hap.imp fun h hd => h (hd.mono (by linarith))⟩
  have hatoms' : BoxAtoms (newEdge a) (newEdge b) (newEdge c) dtol sp ps :=
    ⟨hlen, hsome, hord, near_apart hb ea eb ec (by linarith) hap⟩
  -- the normalised input
  have htemp : BoxState a b c sp ps (2048 * r ^ 2 + η) (s.normalizeCoords dtol) := by
    have := normalised hb hatoms (C := s.coords) hF
    have e : s = ⟨rbox a b c, sp, s.coords, s.fracCoords⟩ := by rw [← hl, ← hsp]
    rwa [← e] at this
  have hη1 : 100 * A * (2048 * r ^ 2 + η) ≤ dtol.val := by
    refine le_trans (mul_le_mul_of_nonneg_left ?_ (by linarith)) hη
    linarith
  obtain ⟨t1, t2, t3, t4⟩ := htemp
  set temp := s.normalizeCoords dtol with htemp
  -- the base site
  obtain ⟨⟨e, inds, counts⟩, hmin⟩ := (C19_get_min_element_panics_iff temp ord ho).2 (by rw [t2]; exact hsome)
  obtain ⟨⟨he, -⟩, hinds, -⟩ := C19_get_min_element temp ord ho (by unfold Structure.numSites; rw [t2]; exact hfew) e inds counts hmin
  have hbase : amapGet? inds e = some (temp.species.idxOf e) := by rw [hinds, if_pos he]
  set base := temp.species.idxOf e with hbasedef
  have hbl : base < temp.fracCoords.length := by
    rw [t3.length, ← hlen, ← t2]
    exact List.idxOf_lt_length_of_mem he
  obtain ⟨q, hq⟩ : ∃ q, temp.fracCoords[base]? = some q := ⟨_, List.getElem?_eq_getElem hbl⟩
  -- the translations
  set tols := Structure.fracTols (rbox a b c) dtol with htols
  have hcand : (candidateVecs tols e base q temp.species temp.fracCoords).filter
      (isTranslation (rbox a b c) tols dtol (temp.fracCoords.zip temp.species)) = unitVecs := by
    unfold candidateVecs
    rw [List.filter_append, List.filter_eq_self.2 (fun v hv => unit_passes hb t3 hv), List.filter_eq_nil_iff.2, List.append_nil]
    intro v hv
    rw [List.mem_filterMap] at hv
    obtain ⟨⟨⟨p, e'⟩, i⟩, hp, hv⟩ := hv
    simp only at hv
    split at hv
    · rename_i hc
      rw [Option.some.injEq] at hv
      subst hv
      rw [List.mem_zipIdx_iff_getElem?] at hp
      simp only at hp
      rw [List.getElem?_zip_eq_some] at hp
      rw [Bool.not_eq_true, t2]
      exact candidate_fails hb t3 hη1 hap hno hc.2 hp.1 hq
    · simp at hv
  have hcart : Structure.getCartCoords (rbox a b c) (unitVecs : List (Vec3 (RNum ρ))) =
      ([⟨1, 0, 0⟩, ⟨0, 1, 0⟩, ⟨0, 0, 1⟩] : List (Vec3 ℤ)).map (boxVec a b c) := by
    simp [Structure.getCartCoords, unitVecs, rbox_mulVec, boxVec, signed, RNum.mul_one', RNum.mul_zero']
  have hcols : ∀ x y z : RNum ρ, Mat3.ofCols (boxVec x y z ⟨1, 0, 0⟩) (boxVec x y z ⟨0, 1, 0⟩) (boxVec x y z ⟨0, 0, 1⟩) =
      rbox x y z := by
    intro x y z
    simp [Mat3.ofCols, boxVec, signed, rbox]
  have hpinv : FTrans.pinv (rbox a b c) = rbox (1 / a) (1 / b) (1 / c) :=
    rbox_pinv (by linarith) (by linarith) (by linarith)
  have hsmall : 15 * (A * r ^ 2) ≤ 1 / 10 := by have := hb.hi; linarith
  have tc : ∀ x : RNum ρ, 1 / 2 ≤ x.val → x.val ≤ A → |(1 / x * x).val - 1| ≤ 1 / 10 := by
    intro x h1 h2
    have := trans_close hb (k := 0) ⟨le_rfl, by norm_num⟩ (by linarith) (by linarith) h1 (x := x) (x' := x) (edge_refl hb x)
    refine this.trans ?_
    linarith
  have hcomb : Structure.getCartCoords (rbox a b c) (combinationVecs (rbox (1 / a * a) (1 / b * b) (1 / c * c))) =
      combLabels.map (boxVec (newEdge a) (newEdge b) (newEdge c)) :=
    comb_list a b c _ _ _ (comb_long hb (tc a l1 u1) (tc b l2 u2) (tc c l3 u3))
  -- the sites in the new cell
  have hback := frac_back hb (k := 34) ⟨by norm_num, by norm_num⟩ l1' l2' l3' ea eb ec t3
  have hη2 : 100 * A * ((4 * 34 + 19) * (A * r ^ 2) + (2048 * r ^ 2 + η)) ≤ dtol.val := by
    refine le_trans (mul_le_mul_of_nonneg_left ?_ (by linarith)) hη
    linarith
  have hfold : foldSites (rbox a b c) tols dtol
      ((Structure.getFracCoords (rbox (newEdge a) (newEdge b) (newEdge c)) (Structure.getCartCoords (rbox a b c) temp.fracCoords)).zip sp) =
      (Structure.getFracCoords (rbox (newEdge a) (newEdge b) (newEdge c)) (Structure.getCartCoords (rbox a b c) temp.fracCoords)).zip sp :=
    foldSites_keeps _ (zip_apart sp (hback.apart hb.search hη2 hatoms.apart))
  set F' := Structure.getFracCoords (rbox (newEdge a) (newEdge b) (newEdge c)) (Structure.getCartCoords (rbox a b c) temp.fracCoords)
    with hF'
  have hF'l : F'.length = sp.length := by rw [hback.length, hlen]
  have hfinal := normalised hb' hatoms' (C := Structure.getCartCoords (rbox (newEdge a) (newEdge b) (newEdge c)) F') hback
  refine ⟨_, ?_, hfinal.lattice, hfinal.species, hfinal.sites.mono (by linarith) le_rfl, hfinal.cart⟩
  unfold findPrimitiveCell
  simp only []
  rw [hd, hl, ← htemp, hmin]
  simp only [Outcome.ret_bind]
  rw [hbase]
  simp only [Outcome.ofOption, Outcome.ret_bind]
  rw [hq]
  simp only [Outcome.ret_bind]
  rw [t1, hcand, hcart, select_axes hb]
  simp only [Outcome.ret_bind]
  rw [hpinv, rbox_boxVec, rbox_boxVec, rbox_boxVec, hcols, hcomb, select_box hb']
  simp only [Outcome.ret_bind]
  rw [hcols, t4, t1, t2, ← hF', hfold, List.map_fst_zip hF'l.le, List.map_snd_zip hF'l.ge]
  rfl

end CrystSymm
