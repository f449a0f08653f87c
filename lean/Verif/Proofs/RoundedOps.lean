import Verif.Props.Rounding
import Verif.Props.Generators
import Verif.Props.Identify
import Verif.Proofs.CrateProduct

/-! # Symmetry operations in rounded arithmetic -/

set_option autoImplicit false
set_option linter.unusedSectionVars false

namespace CrystSymm

open Spec

/-! ## Accuracy of binary64 -/

/-- below 1024 the rounding error of binary64 is at most `2^-43`. -/
theorem accurate_binary64 : Accurate binary64 (1 / 2 ^ 43) := by
  intro x h
  change |fl64 x - x| ≤ _
  by_cases hx : x = 0
  · subst hx; rw [fl64_zero]; norm_num
  · have he := exponent64_le_of_lt hx (j := 10) (by norm_num) (lt_of_le_of_lt h (by norm_num))
    have hu := ulp64_pos x
    have hu' : ulp64 x ≤ 1 / 2 ^ 42 := by
      unfold ulp64
      calc (2 : ℝ) ^ (exponent64 x - 52) ≤ 2 ^ (-42 : ℤ) := zpow_le_zpow_right₀ (by norm_num) (by omega)
        _ = 1 / 2 ^ 42 := by norm_num
    have hn := nearestEven_err (x / ulp64 x)
    have e : fl64 x - x = (nearestEven (x / ulp64 x) - x / ulp64 x) * ulp64 x := by
      unfold fl64; field_simp
    rw [e, abs_mul, abs_of_pos hu]
    calc _ ≤ 1 / 2 * (1 / 2 ^ 42 : ℝ) := mul_le_mul hn hu' hu.le (by norm_num)
      _ = 1 / 2 ^ 43 := by norm_num

section
variable {ρ : Rounding}

/-! ## Scalars -/

theorem accurate_nonneg {δ : ℝ} (h : Accurate ρ δ) : 0 ≤ δ := le_trans (abs_nonneg _) (h 0 (by norm_num))

@[simp] theorem RNum.val_zero : (0 : RNum ρ).val = 0 := fl_zero ρ
theorem RNum.val_cast (n : ℤ) : ((n : ℤ) : RNum ρ).val = ρ.fl n := rfl
theorem RNum.val_div (a b : RNum ρ) : (a / b).val = ρ.fl (a.val / b.val) := rfl
theorem RNum.val_abs (a : RNum ρ) : (FRound.abs a : RNum ρ).val = |a.val| := by
  change ρ.fl (|a.val|) = _
  rcases abs_cases a.val with ⟨h, -⟩ | ⟨h, -⟩ <;> rw [h]
  · exact RNum.fl_val a
  · rw [ρ.odd, RNum.fl_val]
theorem RNum.ext {a b : RNum ρ} (h : a.val = b.val) : a = b := Subtype.ext h

/-- one component of `normalize`, in terms of the exact remainder. -/
theorem normComp_cases {δ : ℝ} (hδ : Accurate ρ δ) (tol v : RNum ρ) (h0 : 0 ≤ tol.val) (h1 : tol.val ≤ 1) :
    ∃ e : ℝ, SameMod1 e v.val ∧ |(normComp tol v).val - e| ≤ δ ∧ -tol.val ≤ e ∧ e ≤ 1 - tol.val + δ := by
  have hlt := fmod1_lt_one v.val
  have hgt := neg_one_lt_fmod1 v.val
  have hd := accurate_nonneg hδ
  have hneg : ((-1 : RNum ρ) * tol).val = -tol.val := by
    rw [RNum.val_mul, RNum.val_neg, RNum.val_one, neg_one_mul, ρ.odd, RNum.fl_val]
  have hs := hδ (1 - tol.val) (by rw [abs_of_nonneg (by linarith)]; linarith)
  unfold normComp
  simp only
  split
  · rename_i h
    rw [RNum.lt_iff, hneg, RNum.val_fmod1] at h
    rw [RNum.val_add, RNum.val_one, RNum.val_fmod1]
    refine ⟨FRound.fmod1 v.val + 1, ⟨1 - truncZ v.val, by rw [fmod1_eq]; push_cast; ring⟩, hδ _ ?_, by linarith,
      by linarith⟩
    rw [abs_of_nonneg (by linarith)]; linarith
  · rename_i hn
    rw [RNum.lt_iff, hneg, RNum.val_fmod1, not_lt] at hn
    split
    · rename_i h
      rw [RNum.lt_iff, RNum.val_sub, RNum.val_one, RNum.val_fmod1] at h
      rw [RNum.val_sub, RNum.val_one, RNum.val_fmod1]
      have h' : 1 - tol.val < FRound.fmod1 v.val := by
        by_contra hc
        have := ρ.mono _ _ (not_lt.1 hc)
        have hfix : ρ.fl (FRound.fmod1 v.val) = FRound.fmod1 v.val := (FRound.fmod1 v : RNum ρ).2
        linarith
      refine ⟨FRound.fmod1 v.val - 1, ⟨-1 - truncZ v.val, by rw [fmod1_eq]; push_cast; ring⟩, hδ _ ?_, by linarith,
        by linarith⟩
      rw [abs_of_nonpos (by linarith)]; linarith
    · rename_i h
      rw [RNum.lt_iff, RNum.val_sub, RNum.val_one, RNum.val_fmod1, not_lt] at h
      rw [RNum.val_fmod1]
      refine ⟨FRound.fmod1 v.val, ⟨-truncZ v.val, by rw [fmod1_eq]; push_cast; ring⟩, by simpa using hd, hn, ?_⟩
      rw [abs_le] at hs
      linarith [hs.2]

theorem near_of_sameMod1 {e v t : ℝ} (h : SameMod1 e v) (he : |e| < t) : NearInt v t := by
  obtain ⟨n, hn⟩ := h
  exact ⟨-n, by rw [show v - ((-n : ℤ) : ℝ) = e by push_cast; rw [← hn]; ring]; exact he⟩

theorem near_add {x y t s : ℝ} (h : NearInt x t) (hy : |y - x| ≤ s) : NearInt y (t + s) := by
  obtain ⟨n, hn⟩ := h
  refine ⟨n, ?_⟩
  rw [abs_lt] at *
  rw [abs_le] at hy
  constructor <;> linarith [hn.1, hn.2, hy.1, hy.2]

/-- soundness of the comparison of one component. -/
theorem within_sound {δ : ℝ} (hδ : Accurate ρ δ) (tol a b : RNum ρ) (h0 : 0 ≤ tol.val) (h1 : tol.val ≤ 1)
    (hab : |a.val - b.val| ≤ 1024) (h : FRound.abs (normComp tol (a - b)) < tol) :
    NearInt (a.val - b.val) (tol.val + 2 * δ) := by
  rw [RNum.lt_iff, RNum.val_abs] at h
  obtain ⟨e, hs, he, -, -⟩ := normComp_cases hδ tol (a - b) h0 h1
  have h1 : |e| < tol.val + δ := by
    rw [abs_lt] at *
    rw [abs_le] at he
    constructor <;> linarith [h.1, h.2, he.1, he.2]
  have h2 := near_add (near_of_sameMod1 hs h1) (y := a.val - b.val) (s := δ) (by
    rw [RNum.val_sub, abs_sub_comm]; exact hδ _ hab)
  convert h2 using 1
  ring

/-- completeness of the comparison of one component. -/
theorem within_complete {δ : ℝ} (hδ : Accurate ρ δ) (tol a b : RNum ρ) (h1 : tol.val < 1 / 2)
    (hab : |a.val - b.val| ≤ 1024) (h : NearInt (a.val - b.val) (tol.val - 2 * δ)) :
    FRound.abs (normComp tol (a - b)) < tol := by
  have hd := accurate_nonneg hδ
  rw [RNum.lt_iff, RNum.val_abs]
  have h2 := near_add h (y := (a - b).val) (s := δ) (by rw [RNum.val_sub]; exact hδ _ hab)
  obtain ⟨n, hn⟩ := h2
  have ht : 0 ≤ tol.val := by
    have := abs_nonneg ((a - b).val - n)
    linarith
  obtain ⟨e, ⟨m, hm⟩, he, e1, e2⟩ := normComp_cases hδ tol (a - b) ht (by linarith)
  have hk : m + n = 0 := by
    have a1 : ((m + n : ℤ) : ℝ) < 1 := by
      push_cast
      rw [abs_lt] at hn
      linarith [hn.1, hn.2]
    have a2 : (-1 : ℝ) < ((m + n : ℤ) : ℝ) := by
      push_cast
      rw [abs_lt] at hn
      linarith [hn.1, hn.2]
    have b1 : m + n < 1 := by exact_mod_cast a1
    have b2 : -1 < m + n := by exact_mod_cast a2
    omega
  have hk' : (m : ℝ) + n = 0 := by exact_mod_cast hk
  rw [abs_lt] at *
  rw [abs_le] at he
  constructor <;> linarith [hn.1, hn.2, he.1, he.2]

/-! ## Operations -/

/-- the operation with the exact values of its translation. -/
def exactOp (o : SymmOp (RNum ρ)) : SymmOp ℝ := ⟨o.rotation, o.translation.map RNum.val⟩

/-- the tolerances plus `c`. -/
def widened (tols : Vec3 (RNum ρ)) (c : ℝ) : Vec3 ℝ := ⟨tols.x.val + c, tols.y.val + c, tols.z.val + c⟩

/-- the components of the translation are at most `B` in magnitude. -/
def TransLe (B : ℝ) (o : SymmOp (RNum ρ)) : Prop :=
  |o.translation.x.val| ≤ B ∧ |o.translation.y.val| ≤ B ∧ |o.translation.z.val| ≤ B

/-- the components of the translations differ by at most `c`. -/
def TransClose (c : ℝ) (s t : SymmOp ℝ) : Prop :=
  |s.translation.x - t.translation.x| ≤ c ∧ |s.translation.y - t.translation.y| ≤ c ∧
    |s.translation.z - t.translation.z| ≤ c

/-- tolerances between `c` and `1 / 2`. -/
def TolsIn (tols : Vec3 (RNum ρ)) (c : ℝ) : Prop :=
  (c < tols.x.val ∧ tols.x.val < 1 / 2) ∧ (c < tols.y.val ∧ tols.y.val < 1 / 2) ∧ c < tols.z.val ∧ tols.z.val < 1 / 2

theorem diff_le {a b : RNum ρ} {A B : ℝ} (ha : |a.val| ≤ A) (hb : |b.val| ≤ B) (h : A + B ≤ 1024) :
    |a.val - b.val| ≤ 1024 := by
  rw [abs_le] at *
  constructor <;> linarith [ha.1, ha.2, hb.1, hb.2]

theorem approx_sound {δ : ℝ} (hδ : Accurate ρ δ) {s t : SymmOp (RNum ρ)} {tols : Vec3 (RNum ρ)} {A B : ℝ}
    (hs : TransLe A s) (ht : TransLe B t) (hAB : A + B ≤ 1024) (htol : TolsIn tols 0)
    (h : s.isApproxEq t tols = true) : ApproxSame (exactOp s) (exactOp t) (widened tols (2 * δ)) := by
  unfold SymmOp.isApproxEq SymmOp.allWithin at h
  simp only [Bool.and_eq_true, decide_eq_true_eq] at h
  obtain ⟨hr, ⟨hx, hy⟩, hz⟩ := h
  obtain ⟨⟨x1, x2⟩, ⟨y1, y2⟩, z1, z2⟩ := htol
  exact ⟨hr, within_sound hδ _ _ _ x1.le (by linarith) (diff_le hs.1 ht.1 hAB) hx,
    within_sound hδ _ _ _ y1.le (by linarith) (diff_le hs.2.1 ht.2.1 hAB) hy,
    within_sound hδ _ _ _ z1.le (by linarith) (diff_le hs.2.2 ht.2.2 hAB) hz⟩

theorem approx_complete {δ : ℝ} (hδ : Accurate ρ δ) {s t : SymmOp (RNum ρ)} {tols : Vec3 (RNum ρ)} {A B : ℝ}
    (hs : TransLe A s) (ht : TransLe B t) (hAB : A + B ≤ 1024) (htol : TolsIn tols 0)
    (h : ApproxSame (exactOp s) (exactOp t) (widened tols (-(2 * δ)))) : s.isApproxEq t tols = true := by
  unfold SymmOp.isApproxEq SymmOp.allWithin
  simp only [Bool.and_eq_true, decide_eq_true_eq]
  obtain ⟨hr, hx, hy, hz⟩ := h
  obtain ⟨⟨x1, x2⟩, ⟨y1, y2⟩, z1, z2⟩ := htol
  refine ⟨hr, ⟨?_, ?_⟩, ?_⟩
  · exact within_complete hδ _ _ _ x2 (diff_le hs.1 ht.1 hAB) hx
  · exact within_complete hδ _ _ _ y2 (diff_le hs.2.1 ht.2.1 hAB) hy
  · exact within_complete hδ _ _ _ z2 (diff_le hs.2.2 ht.2.2 hAB) hz

/-- replacing the second operation by a close one. -/
theorem approxSame_close {s t t' : SymmOp ℝ} {tols tols' : Vec3 ℝ} {c : ℝ} (hr : t'.rotation = t.rotation)
    (hc : TransClose c t' t) (hx : tols.x + c ≤ tols'.x) (hy : tols.y + c ≤ tols'.y) (hz : tols.z + c ≤ tols'.z)
    (h : ApproxSame s t tols) : ApproxSame s t' tols' := by
  have key : ∀ {a b b' t t' : ℝ}, |b' - b| ≤ c → t + c ≤ t' → NearInt (a - b) t → NearInt (a - b') t' := by
    intro a b b' t t' h1 h2 ⟨n, hn⟩
    refine ⟨n, ?_⟩
    rw [abs_lt] at *
    rw [abs_le] at h1
    constructor <;> linarith [hn.1, hn.2, h1.1, h1.2]
  exact ⟨h.1.trans hr.symm, key hc.1 hx h.2.1, key hc.2.1 hy h.2.2.1, key hc.2.2 hz h.2.2.2⟩

/-! ## Products -/

theorem term_close {δ : ℝ} (hδ : Accurate ρ δ) (hd : δ ≤ 1 / 16) (m : Int8) {v : RNum ρ} (hv : |v.val| ≤ 2) :
    |(((m.toInt : ℤ) : RNum ρ) * v).val - (m.toInt : ℝ) * v.val| ≤ 3 * δ ∧
      |(((m.toInt : ℤ) : RNum ρ) * v).val| ≤ 257 ∧ |(m.toInt : ℝ) * v.val| ≤ 256 := by
  have h0 := accurate_nonneg hδ
  have hm : |((m.toInt : ℤ) : ℝ)| ≤ 128 := by
    have h1 := Int8.le_toInt m
    have h2 := Int8.toInt_lt m
    rw [abs_le]
    constructor
    · exact_mod_cast (by omega : (-128 : ℤ) ≤ m.toInt)
    · exact_mod_cast (by omega : m.toInt ≤ (128 : ℤ))
  have hb : |(m.toInt : ℝ) * v.val| ≤ 256 := by
    rw [abs_mul]
    calc _ ≤ (128 : ℝ) * 2 := mul_le_mul hm hv (abs_nonneg _) (by norm_num)
      _ = 256 := by norm_num
  have h1 := hδ _ (hm.trans (by norm_num))
  have h2 : |ρ.fl (m.toInt : ℝ) * v.val - (m.toInt : ℝ) * v.val| ≤ 2 * δ := by
    rw [← sub_mul, abs_mul]
    calc _ ≤ δ * 2 := mul_le_mul h1 hv (abs_nonneg _) h0
      _ = 2 * δ := by ring
  have h3 : |ρ.fl (m.toInt : ℝ) * v.val| ≤ 1024 := by
    rw [abs_le] at *
    constructor <;> linarith [h2.1, h2.2, hb.1, hb.2]
  have h4 := hδ _ h3
  rw [RNum.val_mul, RNum.val_cast]
  refine ⟨?_, ?_, hb⟩
  · rw [abs_le] at *
    constructor <;> linarith [h2.1, h2.2, h4.1, h4.2]
  · rw [abs_le] at *
    constructor <;> linarith [h2.1, h2.2, h4.1, h4.2, hb.1, hb.2]

theorem sum_close {δ : ℝ} (hδ : Accurate ρ δ) (hd : δ ≤ 1 / 16) (m1 m2 m3 : Int8) {v1 v2 v3 t : RNum ρ}
    (h1 : |v1.val| ≤ 2) (h2 : |v2.val| ≤ 2) (h3 : |v3.val| ≤ 2) (ht : |t.val| ≤ 2) :
    |(((m1.toInt : ℤ) : RNum ρ) * v1 + ((m2.toInt : ℤ) : RNum ρ) * v2 + ((m3.toInt : ℤ) : RNum ρ) * v3 + t).val -
      ((m1.toInt : ℝ) * v1.val + (m2.toInt : ℝ) * v2.val + (m3.toInt : ℝ) * v3.val + t.val)| ≤ 12 * δ ∧
    |(((m1.toInt : ℤ) : RNum ρ) * v1 + ((m2.toInt : ℤ) : RNum ρ) * v2 + ((m3.toInt : ℤ) : RNum ρ) * v3 + t).val| ≤
      800 := by
  obtain ⟨a1, b1, c1⟩ := term_close hδ hd m1 h1
  obtain ⟨a2, b2, c2⟩ := term_close hδ hd m2 h2
  obtain ⟨a3, b3, c3⟩ := term_close hδ hd m3 h3
  have h0 := accurate_nonneg hδ
  generalize ((m1.toInt : ℤ) : RNum ρ) * v1 = p1 at *
  generalize ((m2.toInt : ℤ) : RNum ρ) * v2 = p2 at *
  generalize ((m3.toInt : ℤ) : RNum ρ) * v3 = p3 at *
  generalize (m1.toInt : ℝ) * v1.val = q1 at *
  generalize (m2.toInt : ℝ) * v2.val = q2 at *
  generalize (m3.toInt : ℝ) * v3.val = q3 at *
  rw [abs_le] at a1 b1 c1 a2 b2 c2 a3 b3 c3 ht
  have k1 := hδ (p1.val + p2.val) (by rw [abs_le]; constructor <;> linarith)
  rw [← RNum.val_add, abs_le] at k1
  have k2 := hδ ((p1 + p2).val + p3.val) (by rw [abs_le]; constructor <;> linarith)
  rw [← RNum.val_add, abs_le] at k2
  have k3 := hδ ((p1 + p2 + p3).val + t.val) (by rw [abs_le]; constructor <;> linarith)
  rw [← RNum.val_add, abs_le] at k3
  constructor <;> rw [abs_le] <;> constructor <;> linarith

/-- the product has a translation close to the exact product of the values. -/
theorem mul_close {δ : ℝ} (hδ : Accurate ρ δ) (hd : δ ≤ 1 / 16) {a b : SymmOp (RNum ρ)} (ha : TransLe 2 a)
    (hb : TransLe 2 b) :
    (exactOp (a * b)).rotation = (exactOp a * exactOp b).rotation ∧
      TransClose (12 * δ) (exactOp (a * b)) (exactOp a * exactOp b) ∧ TransLe 800 (a * b) := by
  obtain ⟨x1, x2⟩ := sum_close hδ hd b.rotation.m11 b.rotation.m12 b.rotation.m13 ha.1 ha.2.1 ha.2.2 hb.1
  obtain ⟨y1, y2⟩ := sum_close hδ hd b.rotation.m21 b.rotation.m22 b.rotation.m23 ha.1 ha.2.1 ha.2.2 hb.2.1
  obtain ⟨z1, z2⟩ := sum_close hδ hd b.rotation.m31 b.rotation.m32 b.rotation.m33 ha.1 ha.2.1 ha.2.2 hb.2.2
  exact ⟨rfl, ⟨x1, y1, z1⟩, x2, y2, z2⟩

/-! ## Normalisation -/

theorem normalize_close {δ : ℝ} (hδ : Accurate ρ δ) (hd : δ ≤ 1 / 16) {tols : Vec3 (RNum ρ)} (htol : TolsIn tols 0)
    (o : SymmOp (RNum ρ)) :
    (∃ o' : SymmOp ℝ, o'.rotation = o.rotation ∧ SamePoint o'.translation (exactOp o).translation ∧
      TransClose δ (exactOp (o.normalize tols)) o') ∧ TransLe 2 (o.normalize tols) := by
  obtain ⟨⟨x1, x2⟩, ⟨y1, y2⟩, z1, z2⟩ := htol
  obtain ⟨ex, sx, cx, lx, ux⟩ := normComp_cases hδ tols.x o.translation.x x1.le (by linarith)
  obtain ⟨ey, sy, cy, ly, uy⟩ := normComp_cases hδ tols.y o.translation.y y1.le (by linarith)
  obtain ⟨ez, sz, cz, lz, uz⟩ := normComp_cases hδ tols.z o.translation.z z1.le (by linarith)
  refine ⟨⟨⟨o.rotation, ⟨ex, ey, ez⟩⟩, rfl, ⟨sx, sy, sz⟩, cx, cy, cz⟩, ?_, ?_, ?_⟩
  · change |(normComp tols.x o.translation.x).val| ≤ 2
    rw [abs_le] at *
    constructor <;> linarith
  · change |(normComp tols.y o.translation.y).val| ≤ 2
    rw [abs_le] at *
    constructor <;> linarith
  · change |(normComp tols.z o.translation.z).val| ≤ 2
    rw [abs_le] at *
    constructor <;> linarith

end

/-! ## Closure, for every scalar arithmetic -/

section
open SpaceGroup
variable {K : Type} [Add K] [Sub K] [Mul K] [Div K] [Neg K] [Zero K] [One K] [IntCast K]
  [LT K] [LE K] [DecidableLT K] [DecidableLE K] [BEq K] [FRound K]

/-- `z` matches `op` or is its normalisation. -/
def CoversProd (tols : Vec3 K) (z op : SymmOp K) : Prop := z.isApproxEq op tols = true ∨ z = op.normalize tols

theorem genFold_far {tols : Vec3 K} {G : SymmOp K → Prop} {D : SymmOp K → SymmOp K → Prop} (s : List (SymmOp K))
    (hs : ∀ x ∈ s, G x) :
    ∀ (ps : List (SymmOp K × SymmOp K)) (b : List (SymmOp K)), (∀ x ∈ b, G x) →
    (∀ p ∈ ps, G ((p.1 * p.2).normalize tols)) →
    (∀ x, G x → ∀ p ∈ ps, x.isApproxEq (p.1 * p.2) tols = false → D x ((p.1 * p.2).normalize tols)) →
    (∀ p ∈ ps, ∃ z ∈ (ps.foldl (genStep tols) (s ++ b, b)).1, CoversProd tols z (p.1 * p.2)) ∧
    ((s ++ b).Pairwise D → (ps.foldl (genStep tols) (s ++ b, b)).1.Pairwise D) ∧
    ((∀ x ∈ s, ∀ y ∈ b, D x y) → b.Pairwise D →
      (∀ x ∈ s, ∀ y ∈ (ps.foldl (genStep tols) (s ++ b, b)).2, D x y) ∧
      (ps.foldl (genStep tols) (s ++ b, b)).2.Pairwise D) := by
  intro ps
  induction ps with
  | nil => intro b _ _ _; exact ⟨by simp, id, fun h1 h2 => ⟨h1, h2⟩⟩
  | cons p ps ih =>
    intro b hb hG hD
    rw [List.foldl_cons]
    by_cases h : ((s ++ b).any fun symmOp => symmOp.isApproxEq (p.1 * p.2) tols) = true
    · have e : genStep tols (s ++ b, b) p = (s ++ b, b) := by simp only [genStep]; rw [if_pos h]
      rw [e]
      obtain ⟨h1, h2, h3⟩ := ih b hb (fun q hq => hG q (by simp [hq])) (fun x hx q hq => hD x hx q (by simp [hq]))
      refine ⟨fun q hq => ?_, h2, h3⟩
      rcases List.mem_cons.1 hq with rfl | hq
      · obtain ⟨z, hz, hh⟩ := List.any_eq_true.1 h
        refine ⟨z, ?_, Or.inl hh⟩
        obtain ⟨g1, g2, -⟩ := genFold tols s ps b
        rw [g1]
        rcases List.mem_append.1 hz with hz | hz
        · exact List.mem_append_left _ hz
        · exact List.mem_append_right _ (g2.subset hz)
      · exact h1 q hq
    · have e : genStep tols (s ++ b, b) p =
          (s ++ (b ++ [(p.1 * p.2).normalize tols]), b ++ [(p.1 * p.2).normalize tols]) := by
        simp only [genStep]; rw [if_neg h, List.append_assoc]
      rw [e]
      have hGn : G ((p.1 * p.2).normalize tols) := hG p (by simp)
      obtain ⟨h1, h2, h3⟩ := ih (b ++ [(p.1 * p.2).normalize tols]) (by
        intro x hx
        rcases List.mem_append.1 hx with hx | hx
        · exact hb x hx
        · rw [List.mem_singleton] at hx; subst hx; exact hGn) (fun q hq => hG q (by simp [hq]))
          (fun x hx q hq => hD x hx q (by simp [hq]))
      have hno : ∀ x ∈ s ++ b, D x ((p.1 * p.2).normalize tols) := by
        intro x hx
        refine hD x ?_ p (by simp) ?_
        · rcases List.mem_append.1 hx with hx | hx
          · exact hs x hx
          · exact hb x hx
        · rw [Bool.eq_false_iff]
          intro hc
          exact h (List.any_eq_true.2 ⟨x, hx, hc⟩)
      refine ⟨fun q hq => ?_, fun hp => h2 ?_, fun hsb hb' => h3 ?_ ?_⟩
      · rcases List.mem_cons.1 hq with rfl | hq
        · refine ⟨_, ?_, Or.inr rfl⟩
          obtain ⟨g1, g2, -⟩ := genFold tols s ps (b ++ [(q.1 * q.2).normalize tols])
          rw [g1]
          exact List.mem_append_right _ (g2.subset (by simp))
        · exact h1 q hq
      · rw [← List.append_assoc, List.pairwise_append]
        refine ⟨hp, by simp, fun x hx y hy => ?_⟩
        rw [List.mem_singleton] at hy; subst hy
        exact hno x hx
      · intro x hx y hy
        rcases List.mem_append.1 hy with hy | hy
        · exact hsb x hx y hy
        · rw [List.mem_singleton] at hy; subst hy
          exact hno x (List.mem_append_left _ hx)
      · rw [List.pairwise_append]
        refine ⟨hb', by simp, fun x hx y hy => ?_⟩
        rw [List.mem_singleton] at hy; subst hy
        exact hno x (List.mem_append_right _ hx)

theorem genRound_far {tols : Vec3 K} {G : SymmOp K → Prop} {D : SymmOp K → SymmOp K → Prop}
    (hG : ∀ a b, G a → G b → G ((a * b).normalize tols))
    (hD : ∀ x a b, G x → G a → G b → x.isApproxEq (a * b) tols = false → D x ((a * b).normalize tols))
    (s n : List (SymmOp K)) (hs : ∀ x ∈ s, G x) (hn : ∀ x ∈ n, G x) :
    (∀ m1 ∈ s, ∀ m2 ∈ n, ∃ z ∈ (genRound tols s n).1, CoversProd tols z (m1 * m2)) ∧
    (s.Pairwise D → (genRound tols s n).1.Pairwise D) ∧
    (∀ x ∈ s, ∀ y ∈ (genRound tols s n).2, D x y) ∧ (genRound tols s n).2.Pairwise D := by
  have hps : ∀ p ∈ (s.flatMap fun m1 => n.map fun m2 => (m1, m2)), G p.1 ∧ G p.2 := by
    intro p hp
    obtain ⟨m1, h1, hp⟩ := List.mem_flatMap.1 hp
    obtain ⟨m2, h2, rfl⟩ := List.mem_map.1 hp
    exact ⟨hs _ h1, hn _ h2⟩
  have h := genFold_far (tols := tols) (D := D) s hs (s.flatMap fun m1 => n.map fun m2 => (m1, m2)) [] (by simp)
    (fun p hp => hG _ _ (hps p hp).1 (hps p hp).2) (fun x hx p hp => hD x _ _ hx (hps p hp).1 (hps p hp).2)
  rw [List.append_nil] at h
  refine ⟨fun m1 h1 m2 h2 => ?_, h.2.1, h.2.2 (by simp) (by simp)⟩
  exact h.1 (m1, m2) (List.mem_flatMap.2 ⟨m1, h1, List.mem_map.2 ⟨m2, h2, rfl⟩⟩)

/-- lists that match all their products are returned unchanged. -/
theorem genRound_kept {tols : Vec3 K} {s n : List (SymmOp K)}
    (h : ∀ m1 ∈ s, ∀ m2 ∈ n, ∃ z ∈ s, z.isApproxEq (m1 * m2) tols = true) : genRound tols s n = (s, []) := by
  have key : ∀ ps : List (SymmOp K × SymmOp K), (∀ p ∈ ps, ∃ z ∈ s, z.isApproxEq (p.1 * p.2) tols = true) →
      ps.foldl (genStep tols) (s, []) = (s, []) := by
    intro ps
    induction ps with
    | nil => intro _; rfl
    | cons p ps ih =>
      intro hp
      rw [List.foldl_cons]
      have e : genStep tols (s, []) p = (s, []) := by
        simp only [genStep]
        rw [if_pos]
        exact List.any_eq_true.2 (hp p (by simp))
      rw [e]
      exact ih fun q hq => hp q (by simp [hq])
  apply key
  intro p hp
  obtain ⟨m1, h1, hp⟩ := List.mem_flatMap.1 hp
  obtain ⟨m2, h2, rfl⟩ := List.mem_map.1 hp
  exact h m1 h1 m2 h2

/-- the loop ends if the operations that can be added are bounded in number. -/
theorem genLoop_ends {tols : Vec3 K} {G : SymmOp K → Prop} {D : SymmOp K → SymmOp K → Prop} {N : ℕ}
    (hG : ∀ a b, G a → G b → G ((a * b).normalize tols))
    (hD : ∀ x a b, G x → G a → G b → x.isApproxEq (a * b) tols = false → D x ((a * b).normalize tols))
    (hN : ∀ l : List (SymmOp K), (∀ o ∈ l, G o) → l.Pairwise D → l.length ≤ N) (gens : List (SymmOp K))
    (hg : ∀ o ∈ gens, G o) (fuel : ℕ) (hf : N + 2 ≤ fuel) : ∃ ops, fromGenerators fuel gens tols = .ret ops := by
  have key : ∀ (fuel : ℕ) (s n add : List (SymmOp K)), s = gens ++ add → (∀ o ∈ add, G o) → (∀ o ∈ n, G o) →
      add.Pairwise D → N + 2 ≤ fuel + add.length → ∃ ops, genLoop tols fuel s n = .ret ops := by
    intro fuel
    induction fuel with
    | zero =>
      intro s n add _ h1 _ h2 h3
      have := hN add h1 h2
      omega
    | succ fuel ih =>
      intro s n add hs h1 hn h2 h3
      rw [genLoop]
      cases n with
      | nil => exact ⟨s, by simp⟩
      | cons a n =>
        rw [if_neg (by simp)]
        obtain ⟨e, hx⟩ := genRound_spec tols s (a :: n)
        have hsG : ∀ x ∈ s, G x := by
          intro x hx
          rw [hs] at hx
          rcases List.mem_append.1 hx with hx | hx
          · exact hg x hx
          · exact h1 x hx
        obtain ⟨-, -, c3, c4⟩ := genRound_far hG hD s (a :: n) hsG hn
        cases hr : (genRound tols s (a :: n)).2 with
        | nil =>
          have := hN add h1 h2
          obtain ⟨f, rfl⟩ : ∃ f, fuel = f + 1 := ⟨fuel - 1, by omega⟩
          rw [genLoop]
          exact ⟨_, if_pos (by simp)⟩
        | cons b bs =>
          rw [hr] at e hx c3 c4
          have hnew : ∀ o ∈ b :: bs, G o := by
            intro o ho
            obtain ⟨m1, hm1, m2, hm2, rfl⟩ := hx o ho
            exact hG _ _ (hsG _ hm1) (hn _ hm2)
          refine ih _ _ (add ++ b :: bs) (by rw [e, hs, List.append_assoc]) ?_ hnew ?_ ?_
          · intro o ho
            rcases List.mem_append.1 ho with ho | ho
            · exact h1 o ho
            · exact hnew o ho
          · rw [List.pairwise_append]
            exact ⟨h2, c4, fun x hxa y hy => c3 x (by rw [hs]; exact List.mem_append_right _ hxa) y hy⟩
          · rw [List.length_append, List.length_cons]; omega
  exact key fuel gens gens [] (by simp) (by simp) hg (by simp) (by simpa using hf)

end

/-! ## Identification, for every scalar arithmetic in which the tables can be decoded -/

section
open PointGroup SymmetryAnalyzer
variable {K : Type} [Add K] [Sub K] [Mul K] [Div K] [Neg K] [Zero K] [One K] [IntCast K]
  [LT K] [LE K] [DecidableLT K] [DecidableLE K] [BEq K] [FRound K] [FTrans K]

/-- every operation matches one of the table. -/
def MatchesAll (tols : Vec3 K) (ops table : List (SymmOp K)) : Prop :=
  ∀ op ∈ ops, ∃ o ∈ table, op.isApproxEq o tols = true

instance (tols : Vec3 K) (ops table : List (SymmOp K)) : Decidable (MatchesAll tols ops table) := by
  unfold MatchesAll; infer_instance

theorem allOpsFound_any {f : ZOp → SymmOp K} (hf : ∀ acent c, (tableOp acent c : Outcome (SymmOp K)) =
    .ret (f (opZ acent c))) (tols : Vec3 K) (acent : Bool) (codes : List ℕ) (ops : List (SymmOp K)) :
    allOpsFound tols acent codes ops =
      .ret (decide (MatchesAll tols ops (codes.map fun c => f (opZ acent c)))) := by
  have hm : mapOutcome (tableOp (K := K) acent) codes = .ret (codes.map fun c => f (opZ acent c)) := by
    induction codes with
    | nil => rfl
    | cons c cs ih =>
      rw [mapOutcome, hf, ih]
      rfl
  induction ops with
  | nil => simp [allOpsFound, MatchesAll]
  | cons op ops ih =>
    rw [allOpsFound, hm, Outcome.ret_bind, ih]
    by_cases h : ((codes.map fun c => f (opZ acent c)).any fun cand => op.isApproxEq cand tols) = true
    · rw [if_pos h, Outcome.ret.injEq]
      congr 1
      rw [List.any_eq_true] at h
      rw [eq_iff_iff]
      unfold MatchesAll
      rw [List.forall_mem_cons]
      exact ⟨fun hh => ⟨h, hh⟩, fun hh => hh.2⟩
    · rw [if_neg h, Outcome.ret.injEq, eq_comm, decide_eq_false_iff_not]
      intro hh
      exact h (List.any_eq_true.2 (hh op (by simp)))

theorem identifyLoop_any {f : ZOp → SymmOp K} (hf : ∀ acent c, (tableOp acent c : Outcome (SymmOp K)) =
    .ret (f (opZ acent c))) (tols : Vec3 K) (ops : List (SymmOp K)) :
    ∀ l : List (ℕ × List ℕ), (∀ p ∈ l, 1 ≤ p.1 ∧ p.1 ≤ 230) →
      identifyLoop tols ops l = .ret ((l.find? fun p =>
        decide (MatchesAll tols ops ((groupZ p).map f))).bind fun p =>
          (amapGet? sgNumToSymbol p.1).map fun sym => (p.1, sym)) := by
  intro l
  induction l with
  | nil => intro _; rfl
  | cons p l ih =>
    intro hp
    obtain ⟨num, codes⟩ := p
    obtain ⟨sym, hs⟩ := symbol_exists (hp (num, codes) (by simp)).1 (hp (num, codes) (by simp)).2
    rw [identifyLoop, hs]
    simp only [Outcome.ofOption, Outcome.ret_bind]
    rw [allOpsFound_any hf, Outcome.ret_bind, acent_iff _ (amapGet?_mem hs)]
    have hz : codes.map (fun c => f (opZ (aCent num) c)) = (groupZ (num, codes)).map f := by
      rw [groupZ, List.map_map]; rfl
    simp only
    rw [hz]
    by_cases h : MatchesAll tols ops ((groupZ (num, codes)).map f)
    · rw [if_pos (by simpa using h), List.find?_cons_of_pos (by simpa using h)]
      simp [hs]
    · rw [if_neg (by simpa using h), List.find?_cons_of_neg (by simpa using h), ih]
      intro p hp'
      exact hp p (by simp [hp'])

/-- how the identification of a list of operations proceeds. -/
theorem identify_any {f : ZOp → SymmOp K} (hf : ∀ acent c, (tableOp acent c : Outcome (SymmOp K)) =
    .ret (f (opZ acent c))) (h : HashOrders K) (ops : List (SymmOp K)) (sys : LatticeSystem) (tols : Vec3 K)
    (hv : h.Valid) :
    (∃ groups cands, (sys, groups) ∈ sgNumToFullMatrices ∧ (ops.length % 256, cands) ∈ groups ∧
      identifySpaceGroup h ops sys tols = .ret (((h.groups cands).find? fun p =>
        decide (MatchesAll tols ops ((groupZ p).map f))).bind fun p =>
          (amapGet? sgNumToSymbol p.1).map fun sym => (p.1, sym))) ∨
    ((∀ num codes, ¬ IsTableEntry sys (ops.length % 256) num codes) ∧
      identifySpaceGroup h ops sys tols =
        .panic "Could not find candidate group with the provided number of operations!") := by
  have hk2 : ∀ p ∈ sgNumToFullMatrices, (p.2.map Prod.fst).Nodup := by decide
  have hk1 : (sgNumToFullMatrices.map Prod.fst).Nodup := by decide
  have hg : ∃ groups, amapGet? sgNumToFullMatrices sys = some groups := by cases sys <;> exact ⟨_, rfl⟩
  obtain ⟨groups, hg⟩ := hg
  unfold identifySpaceGroup
  rw [hg]
  simp only [Outcome.ofOption, Outcome.ret_bind]
  cases hc : amapGet? groups (ops.length % 256) with
  | none =>
    right
    refine ⟨?_, rfl⟩
    rintro num codes ⟨groups', cands, h1, h2, -⟩
    have e := amapGet?_of_mem hk1 h1
    rw [hg] at e
    injection e with e
    subst e
    rw [amapGet?_of_mem (hk2 _ h1) h2] at hc
    exact absurd hc (by simp)
  | some cands =>
    left
    refine ⟨groups, cands, amapGet?_mem hg, amapGet?_mem hc, ?_⟩
    simp only [Outcome.ret_bind]
    apply identifyLoop_any hf
    intro p hp
    rw [(hv.groups cands).mem_iff] at hp
    exact (entry_system ⟨groups, cands, amapGet?_mem hg, amapGet?_mem hc, (hp : (p.1, p.2) ∈ cands)⟩).2

/-- operations that match one entry and no other of its table are identified. -/
theorem identify_unique {f : ZOp → SymmOp K} (hf : ∀ acent c, (tableOp acent c : Outcome (SymmOp K)) =
    .ret (f (opZ acent c))) (h : HashOrders K) (hv : h.Valid) (ops : List (SymmOp K)) (sys : LatticeSystem)
    (tols : Vec3 K) {n num : ℕ} {codes : List ℕ} (hent : IsTableEntry sys n num codes) (hlen : ops.length = n)
    (hself : MatchesAll tols ops ((groupZ (num, codes)).map f))
    (hother : ∀ p, (∃ a ∈ groupZ (num, codes), a ∉ groupZ p) → ¬ MatchesAll tols ops ((groupZ p).map f)) :
    ∃ sym, amapGet? sgNumToSymbol num = some sym ∧ identifySpaceGroup h ops sys tols = .ret (some (num, sym)) := by
  obtain ⟨hb1, hb2⟩ := (entry_system hent).2
  obtain ⟨sym, hs⟩ := symbol_exists hb1 hb2
  refine ⟨sym, hs, ?_⟩
  obtain ⟨groups, cands, h1, h2, h3⟩ := hent
  have hn256 : ops.length % 256 = n := by
    rw [hlen, Nat.mod_eq_of_lt (orders_small _ h1 _ h2)]
  rcases identify_any hf h ops sys tols hv with ⟨groups', cands', h1', h2', hid⟩ | ⟨hno, -⟩
  swap
  · exact absurd ⟨groups, cands, h1, by rw [hn256]; exact h2, h3⟩ (hno num codes)
  have hk2 : ∀ p ∈ sgNumToFullMatrices, (p.2.map Prod.fst).Nodup := by decide
  have hk1 : (sgNumToFullMatrices.map Prod.fst).Nodup := by decide
  obtain rfl : groups' = groups := by
    have a := amapGet?_of_mem hk1 h1; rw [amapGet?_of_mem hk1 h1'] at a; injection a
  obtain rfl : cands' = cands := by
    rw [hn256] at h2'
    have a := amapGet?_of_mem (hk2 _ h1) h2; rw [amapGet?_of_mem (hk2 _ h1) h2'] at a; injection a
  rw [hid]
  cases hfd : (h.groups cands').find? fun p => decide (MatchesAll tols ops ((groupZ p).map f)) with
  | none =>
    rw [List.find?_eq_none] at hfd
    exact absurd hself (by simpa using hfd _ ((hv.groups cands').mem_iff.2 h3))
  | some p =>
    have hpm := (hv.groups cands').mem_iff.1 (List.mem_of_find?_eq_some hfd)
    have ha := List.find?_some hfd
    rw [decide_eq_true_eq] at ha
    have : p = (num, codes) := by
      by_contra hne
      exact hother p (pairwise_of_differs (table_checked h1 h2).2 h3 hpm (Ne.symm hne)) ha
    rw [this]
    simp [hs]

end

/-! ## The tables in rounded arithmetic -/

section
open PointGroup SymmetryAnalyzer
variable {ρ : Rounding}

/-- the table operation, with quotients rounded. -/
noncomputable def opR (ρ : Rounding) (a : ZOp) : SymmOp (RNum ρ) :=
  ⟨rotZ a, ⟨(lit a.2.x : RNum ρ) / lit 12, lit a.2.y / lit 12, lit a.2.z / lit 12⟩⟩

theorem pick1 (a b c : RNum ρ) :
    ((((0 : Int8).toInt : ℤ) : RNum ρ) * a + (((1 : Int8).toInt : ℤ) : RNum ρ) * b +
      (((0 : Int8).toInt : ℤ) : RNum ρ) * c) = b := by
  apply RNum.ext
  simp [RNum.val_cast, fl_zero, ρ.one, RNum.fl_val]

theorem pick2 (a b c : RNum ρ) :
    ((((0 : Int8).toInt : ℤ) : RNum ρ) * a + (((0 : Int8).toInt : ℤ) : RNum ρ) * b +
      (((1 : Int8).toInt : ℤ) : RNum ρ) * c) = c := by
  apply RNum.ext
  simp [RNum.val_cast, fl_zero, ρ.one, RNum.fl_val]

theorem pick0 (a b c : RNum ρ) :
    ((((1 : Int8).toInt : ℤ) : RNum ρ) * a + (((0 : Int8).toInt : ℤ) : RNum ρ) * b +
      (((0 : Int8).toInt : ℤ) : RNum ρ) * c) = a := by
  apply RNum.ext
  simp [RNum.val_cast, fl_zero, ρ.one, RNum.fl_val]

theorem tableOp_rounded (acent : Bool) (c : ℕ) :
    (tableOp acent c : Outcome (SymmOp (RNum ρ))) = .ret (opR ρ (opZ acent c)) := by
  have hdig : ∀ w, Int8.ofNat (c % 3 ^ 9 / w % 3) - 1 = Int8.ofInt (digZ (c % 19683) w) := by
    intro w
    unfold digZ
    have := Nat.mod_lt (c % 3 ^ 9 / w) (show 0 < 3 by norm_num)
    norm_num only at this ⊢
    generalize c % 19683 / w % 3 = d at *
    interval_cases d <;> decide
  have hrot : rotationOfDigits ((digs 3 9 (c % 3 ^ 9)).map fun d => Int8.ofNat d - 1) = .ret (dec8 (c % 19683)) := by
    have := decode_rotation (c % 19683)
    rw [decode_eq (by norm_num)] at this
    exact this
  have htr : (digs 8 3 (c / 3 ^ 9)).map transEntry =
      [transEntry (c / 19683 / 64 % 8), transEntry (c / 19683 / 8 % 8), transEntry (c / 19683 % 8)] := by
    simp only [digs, List.map_cons, List.map_nil, List.nil_append, List.cons_append,
      Nat.div_div_eq_div_mul]
    norm_num only
  unfold tableOp
  rw [decodeSpgOp_eq]
  simp only [Outcome.ret_bind]
  rw [hrot, htr]
  simp only [Outcome.ret_bind, vecOfDigits]
  have e1 : ∀ n : ℕ, (transEntry (n % 8)).toInt = tw (n % 8) := fun n => tw_entry _ (Nat.mod_lt _ (by norm_num))
  have h8 : dec8 (c % 19683) = (decZ (c % 19683)).map Int8.ofInt := rfl
  cases acent
  · simp only [Bool.false_eq_true, if_false, Outcome.ret.injEq, opR, opZ, transZ, rotZ, SymmOp.mk.injEq]
    refine ⟨rfl, ?_⟩
    simp only [Vec3.divS, Vec3.map, e1]
  · simp only [if_true, Outcome.ret.injEq, opR, opZ, transZ, rotZ, SymmOp.mk.injEq]
    constructor
    · rw [h8]
      generalize decZ (c % 19683) = m
      ext <;> simp [cToA, cToAInv, Mat3.map]
    · have hm : ∀ (m : Mat3 (RNum ρ)) (v : Vec3 (RNum ρ)), m * v = ⟨m.m11 * v.x + m.m12 * v.y + m.m13 * v.z,
          m.m21 * v.x + m.m22 * v.y + m.m23 * v.z, m.m31 * v.x + m.m32 * v.y + m.m33 * v.z⟩ := fun _ _ => rfl
      rw [hm]
      simp only [castRot, cToAInv, Mat3.map, pick1, pick2, pick0, Vec3.divS, Vec3.map, e1]

theorem lit_close {δ : ℝ} (hδ : Accurate ρ δ) (hd : δ ≤ 1 / 16) {n : ℤ} (hn : 0 ≤ n ∧ n < 12) :
    |((lit n : RNum ρ) / lit 12).val - (n : ℝ) / 12| ≤ 2 * δ ∧ |((lit n : RNum ρ) / lit 12).val| ≤ 2 := by
  have h0 := accurate_nonneg hδ
  have n0 : (0 : ℝ) ≤ n := by exact_mod_cast hn.1
  have n1 : (n : ℝ) ≤ 11 := by exact_mod_cast (by omega : n ≤ 11)
  have h1 := hδ (n : ℝ) (by rw [abs_of_nonneg n0]; linarith)
  have h2 := hδ ((12 : ℤ) : ℝ) (by norm_num)
  have e : ((lit n : RNum ρ) / lit 12).val = ρ.fl (ρ.fl (n : ℝ) / ρ.fl ((12 : ℤ) : ℝ)) := rfl
  rw [e]
  generalize ρ.fl (n : ℝ) = a at *
  generalize ρ.fl ((12 : ℤ) : ℝ) = b at *
  push_cast at h2
  rw [abs_le] at h1 h2
  have hb : (0 : ℝ) < b := by linarith
  have hq : |a / b - (n : ℝ) / 12| ≤ δ := by
    rw [abs_le, div_sub_div _ _ hb.ne' (by norm_num)]
    constructor
    · rw [le_div_iff₀ (by positivity)]
      nlinarith
    · rw [div_le_iff₀ (by positivity)]
      nlinarith
  have hn' : (n : ℝ) / 12 ≤ 1 := by rw [div_le_one (by norm_num)]; linarith
  have hn'' : 0 ≤ (n : ℝ) / 12 := by positivity
  have h3 := hδ (a / b) (by rw [abs_le] at *; constructor <;> linarith)
  rw [abs_le] at hq h3
  constructor <;> rw [abs_le] <;> constructor <;> linarith

theorem opR_close {δ : ℝ} (hδ : Accurate ρ δ) (hd : δ ≤ 1 / 16) {a : ZOp} (ha : RangeZ a) :
    (exactOp (opR ρ a)).rotation = (opK ℝ a).rotation ∧ TransClose (2 * δ) (exactOp (opR ρ a)) (opK ℝ a) ∧
      TransLe 2 (opR ρ a) := by
  obtain ⟨-, hx, hy, hz⟩ := ha
  obtain ⟨x1, x2⟩ := lit_close hδ hd hx
  obtain ⟨y1, y2⟩ := lit_close hδ hd hy
  obtain ⟨z1, z2⟩ := lit_close hδ hd hz
  exact ⟨rfl, ⟨x1, y1, z1⟩, x2, y2, z2⟩

end

end CrystSymm
