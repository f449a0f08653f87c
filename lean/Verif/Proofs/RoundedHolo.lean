import Verif.Proofs.RoundedSearch
import Verif.Props.ChangeBasis

/-! # Holohedries in rounded arithmetic -/

set_option autoImplicit false
set_option linter.unusedSectionVars false

namespace CrystSymm

open Spec SymmetryAnalyzer

section
variable {ρ : Rounding} {δ : ℝ}

/-- `x` is within `c` rounding errors of `y`, which is at most `B`. -/
def Cl (δ c B : ℝ) (x : RNum ρ) (y : ℝ) : Prop := |x.val - y| ≤ c * δ ∧ |y| ≤ B

theorem cl_round (hδ : Accurate ρ δ) (h9 : δ ≤ 1 / 10 ^ 9) {c B x y : ℝ} (hc : c ≤ 10 ^ 8) (hB : B ≤ 1000)
    (h : |x - y| ≤ c * δ) (hy : |y| ≤ B) : |ρ.fl x - y| ≤ (c + 1) * δ := by
  have h0 := accurate_nonneg hδ
  have hcd : c * δ ≤ 1 := by nlinarith
  have hx : |x| ≤ 1024 := by
    rw [abs_le] at *
    constructor <;> linarith [h.1, h.2, hy.1, hy.2]
  have := hδ x hx
  rw [abs_le] at *
  constructor <;> linarith [h.1, h.2, this.1, this.2]

theorem cl_add (hδ : Accurate ρ δ) (h9 : δ ≤ 1 / 10 ^ 9) {c c' B B' : ℝ} {x x' : RNum ρ} {y y' : ℝ}
    (h : Cl δ c B x y) (h' : Cl δ c' B' x' y') (hc : c + c' ≤ 10 ^ 8) (hB : B + B' ≤ 1000) :
    Cl δ (c + c' + 1) (B + B') (x + x') (y + y') := by
  obtain ⟨h1, h2⟩ := h
  obtain ⟨h1', h2'⟩ := h'
  have hb : |y + y'| ≤ B + B' := (abs_add_le _ _).trans (add_le_add h2 h2')
  refine ⟨?_, hb⟩
  rw [RNum.val_add]
  refine cl_round hδ h9 hc hB ?_ hb
  rw [abs_le] at *
  constructor <;> linarith [h1.1, h1.2, h1'.1, h1'.2]

theorem cl_sub (hδ : Accurate ρ δ) (h9 : δ ≤ 1 / 10 ^ 9) {c c' B B' : ℝ} {x x' : RNum ρ} {y y' : ℝ}
    (h : Cl δ c B x y) (h' : Cl δ c' B' x' y') (hc : c + c' ≤ 10 ^ 8) (hB : B + B' ≤ 1000) :
    Cl δ (c + c' + 1) (B + B') (x - x') (y - y') := by
  obtain ⟨h1, h2⟩ := h
  obtain ⟨h1', h2'⟩ := h'
  have hb : |y - y'| ≤ B + B' := (abs_sub _ _).trans (add_le_add h2 h2')
  refine ⟨?_, hb⟩
  rw [RNum.val_sub]
  refine cl_round hδ h9 hc hB ?_ hb
  rw [abs_le] at *
  constructor <;> linarith [h1.1, h1.2, h1'.1, h1'.2]

theorem cl_mul (hδ : Accurate ρ δ) (h9 : δ ≤ 1 / 10 ^ 9) {c c' B B' : ℝ} {x x' : RNum ρ} {y y' : ℝ}
    (h : Cl δ c B x y) (h' : Cl δ c' B' x' y') (h0 : 0 ≤ c) (hB0 : 0 ≤ B) (hB0' : 0 ≤ B') (hc' : c' ≤ 10 ^ 8)
    (hc : c * (B' + 1) + B * c' ≤ 10 ^ 8) (hB : B * B' ≤ 1000) :
    Cl δ (c * (B' + 1) + B * c' + 1) (B * B') (x * x') (y * y') := by
  obtain ⟨h1, h2⟩ := h
  obtain ⟨h1', h2'⟩ := h'
  have hd := accurate_nonneg hδ
  have hb : |y * y'| ≤ B * B' := by rw [abs_mul]; exact mul_le_mul h2 h2' (abs_nonneg _) hB0
  refine ⟨?_, hb⟩
  rw [RNum.val_mul]
  refine cl_round hδ h9 hc hB ?_ hb
  have hx' : |x'.val| ≤ B' + 1 := by
    have : c' * δ ≤ 1 := by nlinarith
    rw [abs_le] at *
    constructor <;> linarith [h1'.1, h1'.2, h2'.1, h2'.2]
  have e : x.val * x'.val - y * y' = (x.val - y) * x'.val + y * (x'.val - y') := by ring
  rw [e]
  refine (abs_add_le _ _).trans ?_
  rw [abs_mul, abs_mul]
  have a1 : |x.val - y| * |x'.val| ≤ c * δ * (B' + 1) := mul_le_mul h1 hx' (abs_nonneg _) (by positivity)
  have a2 : |y| * |x'.val - y'| ≤ B * (c' * δ) := mul_le_mul h2 h1' (abs_nonneg _) hB0
  linarith

theorem cl_div (hδ : Accurate ρ δ) (h9 : δ ≤ 1 / 10 ^ 9) {c c' B B' β : ℝ} {x x' : RNum ρ} {y y' : ℝ}
    (h : Cl δ c B x y) (h' : Cl δ c' B' x' y') (h0 : 0 ≤ c) (h0' : 0 ≤ c') (hβ : 0 < β) (hy' : β ≤ |y'|)
    (hB0 : 0 ≤ B) (hcβ : c' / 10 ^ 9 ≤ β / 2) (hc : 2 * c / β + 2 * B * c' / β ^ 2 ≤ 10 ^ 8) (hB : B / β ≤ 1000) :
    Cl δ (2 * c / β + 2 * B * c' / β ^ 2 + 1) (B / β) (x / x') (y / y') := by
  obtain ⟨h1, h2⟩ := h
  obtain ⟨h1', -⟩ := h'
  have hd := accurate_nonneg hδ
  have hb : |y / y'| ≤ B / β := by rw [abs_div]; exact div_le_div₀ hB0 h2 hβ hy'
  refine ⟨?_, hb⟩
  rw [RNum.val_div]
  refine cl_round hδ h9 hc hB ?_ hb
  have hx' : β / 2 ≤ |x'.val| := by
    have a1 : c' * δ ≤ β / 2 := by
      refine le_trans ?_ hcβ
      rw [div_eq_mul_one_div]
      exact mul_le_mul_of_nonneg_left h9 h0'
    have a2 := abs_sub_abs_le_abs_sub y' x'.val
    rw [abs_sub_comm] at a2
    linarith
  have n1 : x'.val ≠ 0 := by
    intro e; rw [e, abs_zero] at hx'; linarith
  have n2 : y' ≠ 0 := by
    intro e; rw [e, abs_zero] at hy'; linarith
  have e : x.val / x'.val - y / y' = (x.val - y) / x'.val - y * (x'.val - y') / (x'.val * y') := by
    field_simp; ring
  rw [e]
  refine (abs_sub _ _).trans ?_
  rw [abs_div, abs_div, abs_mul, abs_mul]
  have a1 : |x.val - y| / |x'.val| ≤ c * δ / (β / 2) := div_le_div₀ (by positivity) h1 (by positivity) hx'
  have a2 : |y| * |x'.val - y'| / (|x'.val| * |y'|) ≤ B * (c' * δ) / (β / 2 * β) :=
    div_le_div₀ (by positivity) (mul_le_mul h2 h1' (abs_nonneg _) hB0) (by positivity)
      (mul_le_mul hx' hy' hβ.le (abs_nonneg _))
  have e2 : (2 * c / β + 2 * B * c' / β ^ 2) * δ = c * δ / (β / 2) + B * (c' * δ) / (β / 2 * β) := by
    field_simp
  linarith

theorem Cl.mono {c c' B B' : ℝ} {x : RNum ρ} {y : ℝ} (h : Cl δ c B x y) (hd : 0 ≤ δ) (hc : c ≤ c') (hB : B ≤ B') :
    Cl δ c' B' x y := ⟨h.1.trans (mul_le_mul_of_nonneg_right hc hd), h.2.trans hB⟩

theorem cl_int (hδ : Accurate ρ δ) {n : ℤ} {B : ℝ} (h : |(n : ℝ)| ≤ B) (hB : B ≤ 1000) :
    Cl δ 1 B ((n : ℤ) : RNum ρ) (n : ℝ) := by
  refine ⟨?_, h⟩
  rw [RNum.val_cast, one_mul]
  exact hδ _ (h.trans (by linarith))

/-- the nine entries. -/
def ClM (δ c B : ℝ) (m : Mat3 (RNum ρ)) (n : Mat3 ℝ) : Prop :=
  Cl δ c B m.m11 n.m11 ∧ Cl δ c B m.m12 n.m12 ∧ Cl δ c B m.m13 n.m13 ∧
  Cl δ c B m.m21 n.m21 ∧ Cl δ c B m.m22 n.m22 ∧ Cl δ c B m.m23 n.m23 ∧
  Cl δ c B m.m31 n.m31 ∧ Cl δ c B m.m32 n.m32 ∧ Cl δ c B m.m33 n.m33

theorem cl_dot (hδ : Accurate ρ δ) (h9 : δ ≤ 1 / 10 ^ 9) {c c' B B' : ℝ} {a b e a' b' e' : RNum ρ}
    {u v w u' v' w' : ℝ} (ha : Cl δ c B a u) (hb : Cl δ c B b v) (he : Cl δ c B e w)
    (ha' : Cl δ c' B' a' u') (hb' : Cl δ c' B' b' v') (he' : Cl δ c' B' e' w')
    (h0 : 0 ≤ c) (hB0 : 0 ≤ B) (hB0' : 0 ≤ B') (h0' : 0 ≤ c') (hc' : c' ≤ 10 ^ 8)
    (hc : c * (B' + 1) + B * c' ≤ 10 ^ 7) (hB : B * B' ≤ 100) :
    Cl δ (3 * (c * (B' + 1) + B * c') + 5) (3 * (B * B')) (a * a' + b * b' + e * e') (u * u' + v * v' + w * w') := by
  have hp : 0 ≤ c * (B' + 1) + B * c' := by positivity
  have m1 := cl_mul hδ h9 ha ha' h0 hB0 hB0' hc' (by linarith) (by linarith)
  have m2 := cl_mul hδ h9 hb hb' h0 hB0 hB0' hc' (by linarith) (by linarith)
  have m3 := cl_mul hδ h9 he he' h0 hB0 hB0' hc' (by linarith) (by linarith)
  have s1 := cl_add hδ h9 m1 m2 (by linarith) (by linarith)
  have s2 := cl_add hδ h9 s1 m3 (by linarith) (by linarith)
  exact s2.mono (accurate_nonneg hδ) (by linarith) (by linarith)

theorem clM_mul (hδ : Accurate ρ δ) (h9 : δ ≤ 1 / 10 ^ 9) {c c' B B' : ℝ} {m m' : Mat3 (RNum ρ)} {n n' : Mat3 ℝ}
    (h : ClM δ c B m n) (h' : ClM δ c' B' m' n') (h0 : 0 ≤ c) (hB0 : 0 ≤ B) (hB0' : 0 ≤ B') (h0' : 0 ≤ c')
    (hc' : c' ≤ 10 ^ 8) (hc : c * (B' + 1) + B * c' ≤ 10 ^ 7) (hB : B * B' ≤ 100) :
    ClM δ (3 * (c * (B' + 1) + B * c') + 5) (3 * (B * B')) (m * m') (n * n') := by
  obtain ⟨h1, h2, h3, h4, h5, h6, h7, h8, h9'⟩ := h
  obtain ⟨k1, k2, k3, k4, k5, k6, k7, k8, k9⟩ := h'
  have D := fun {a b e a' b' e' : RNum ρ} {u v w u' v' w' : ℝ} (ha : Cl δ c B a u) (hb : Cl δ c B b v)
    (he : Cl δ c B e w) (ha' : Cl δ c' B' a' u') (hb' : Cl δ c' B' b' v') (he' : Cl δ c' B' e' w') =>
    cl_dot hδ h9 ha hb he ha' hb' he' h0 hB0 hB0' h0' hc' hc hB
  exact ⟨D h1 h2 h3 k1 k4 k7, D h1 h2 h3 k2 k5 k8, D h1 h2 h3 k3 k6 k9,
    D h4 h5 h6 k1 k4 k7, D h4 h5 h6 k2 k5 k8, D h4 h5 h6 k3 k6 k9,
    D h7 h8 h9' k1 k4 k7, D h7 h8 h9' k2 k5 k8, D h7 h8 h9' k3 k6 k9⟩

/-- what is used of the entries of the table of primitive bases. -/
def primEntriesOk (m : Mat3 ℤ × ℤ) : Bool :=
  m.1.toListCM.all (fun e => decide (|e| ≤ 2 ∧ |e| ≤ m.2)) && decide (1 ≤ m.2 ∧ m.2 ≤ 3 ∧ m.2 ^ 3 ≤ 4 * |m.1.det|)

theorem primEntries_all : centeringToPrimTrans.all (fun p => primEntriesOk p.2) = true := by decide +kernel

theorem clM_prim (hδ : Accurate ρ δ) (h9 : δ ≤ 1 / 10 ^ 9) {m : Mat3 ℤ × ℤ} (hm : primEntriesOk m = true) :
    ClM δ 7 1 (primMatrix m : Mat3 (RNum ρ)) (primMatrix m : Mat3 ℝ) ∧ 1 / 4 ≤ |(primMatrix m : Mat3 ℝ).det| := by
  unfold primEntriesOk at hm
  simp only [Bool.and_eq_true, List.all_eq_true, decide_eq_true_eq] at hm
  obtain ⟨he, h1, h3, hdet⟩ := hm
  have hd0 := accurate_nonneg hδ
  have hdb : |((m.2 : ℤ) : ℝ)| ≤ 3 := by
    rw [abs_of_nonneg (by exact_mod_cast (by omega : (0 : ℤ) ≤ m.2))]; exact_mod_cast h3
  have h1' : (1 : ℝ) ≤ (m.2 : ℝ) := by exact_mod_cast h1
  have hd1 : (1 : ℝ) ≤ |((m.2 : ℤ) : ℝ)| := h1'.trans (le_abs_self _)
  have C : ∀ e : ℤ, e ∈ m.1.toListCM →
      Cl δ 7 1 (((e : ℤ) : RNum ρ) / ((m.2 : ℤ) : RNum ρ)) ((e : ℝ) / (m.2 : ℝ)) := by
    intro e hem
    obtain ⟨a1, a2⟩ := he e hem
    have c1 : Cl δ 1 2 ((e : ℤ) : RNum ρ) (e : ℝ) := cl_int hδ (by exact_mod_cast a1) (by norm_num)
    have c2 : Cl δ 1 3 ((m.2 : ℤ) : RNum ρ) (m.2 : ℝ) := cl_int hδ hdb (by norm_num)
    have q := cl_div hδ h9 c1 c2 (by norm_num) (by norm_num) (β := 1) (by norm_num) hd1 (by norm_num) (by norm_num)
      (by norm_num) (by norm_num)
    refine ⟨q.1.trans (mul_le_mul_of_nonneg_right (by norm_num) hd0), ?_⟩
    rw [abs_div, div_le_one (by linarith), abs_of_pos (by linarith : (0 : ℝ) < m.2)]
    exact_mod_cast a2
  refine ⟨?_, ?_⟩
  · refine ⟨C _ ?_, C _ ?_, C _ ?_, C _ ?_, C _ ?_, C _ ?_, C _ ?_, C _ ?_, C _ ?_⟩ <;> simp [Mat3.toListCM]
  · have e : (primMatrix m : Mat3 ℝ).det = (m.1.det : ℝ) / (m.2 : ℝ) ^ 3 := by
      rw [← det_overK, primMatrix_eq]
      have : (m.2 : ℝ) ≠ 0 := by linarith
      simp only [Mat3.det, Mat3.divS, Mat3.map]
      field_simp
    rw [e, abs_div, abs_of_pos (by positivity : (0 : ℝ) < (m.2 : ℝ) ^ 3), div_le_div_iff₀ (by norm_num) (by positivity)]
    have : ((m.2 : ℤ) : ℝ) ^ 3 ≤ 4 * |((m.1.det : ℤ) : ℝ)| := by exact_mod_cast hdet
    linarith

theorem clM_inv (hδ : Accurate ρ δ) (h9 : δ ≤ 1 / 10 ^ 9) {m : Mat3 (RNum ρ)} {n : Mat3 ℝ}
    (h : ClM δ 7 1 m n) (hd : 1 / 4 ≤ |n.det|) :
    m.det.val ≠ 0 ∧ ClM δ 14000 8 (m.adjDiv m.det) (n.adjDiv n.det) := by
  have hd0 := accurate_nonneg hδ
  obtain ⟨h1, h2, h3, h4, h5, h6, h7, h8, h9'⟩ := h
  have M : ∀ {x x' z z' : RNum ρ} {y y' w w' : ℝ}, Cl δ 7 1 x y → Cl δ 7 1 x' y' → Cl δ 7 1 z w → Cl δ 7 1 z' w' →
      Cl δ 45 2 (x * x' - z * z') (y * y' - w * w') := by
    intro x x' z z' y y' w w' a b c d
    have p1 := cl_mul hδ h9 a b (by norm_num) (by norm_num) (by norm_num) (by norm_num) (by norm_num) (by norm_num)
    have p2 := cl_mul hδ h9 c d (by norm_num) (by norm_num) (by norm_num) (by norm_num) (by norm_num) (by norm_num)
    exact (cl_sub hδ h9 p1 p2 (by norm_num) (by norm_num)).mono hd0 (by norm_num) (by norm_num)
  have T : ∀ {x z : RNum ρ} {y w : ℝ}, Cl δ 7 1 x y → Cl δ 45 2 z w → Cl δ 67 2 (x * z) (y * w) := by
    intro x z y w a b
    exact (cl_mul hδ h9 a b (by norm_num) (by norm_num) (by norm_num) (by norm_num) (by norm_num)
      (by norm_num)).mono hd0 (by norm_num) (by norm_num)
  have hdet : Cl δ 203 6 m.det n.det := by
    have t1 := T h1 (M h5 h9' h8 h6)
    have t2 := T h2 (M h4 h9' h7 h6)
    have t3 := T h3 (M h4 h8 h7 h5)
    exact (cl_add hδ h9 (cl_sub hδ h9 t1 t2 (by norm_num) (by norm_num)) t3 (by norm_num) (by norm_num)).mono hd0
      (by norm_num) (by norm_num)
  refine ⟨?_, ?_⟩
  · intro e
    have := hdet.1
    rw [e, zero_sub, abs_neg] at this
    linarith
  · have Q : ∀ {x : RNum ρ} {y : ℝ}, Cl δ 45 2 x y → Cl δ 14000 8 (x / m.det) (y / n.det) := by
      intro x y a
      exact (cl_div hδ h9 a hdet (by norm_num) (by norm_num) (β := 1 / 4) (by norm_num) hd (by norm_num) (by norm_num)
        (by norm_num) (by norm_num)).mono hd0 (by norm_num) (by norm_num)
    exact ⟨Q (M h5 h9' h8 h6), Q (M h3 h8 h9' h2), Q (M h2 h6 h5 h3), Q (M h7 h6 h4 h9'), Q (M h1 h9' h7 h3),
      Q (M h3 h4 h6 h1), Q (M h4 h8 h7 h5), Q (M h2 h7 h8 h1), Q (M h1 h5 h4 h2)⟩

theorem toI8_round_close {x : RNum ρ} {n : ℤ} (h1 : -1 ≤ n) (h2 : n ≤ 1) (h : |x.val - n| < 1 / 2) :
    ((FRound.toI8 (FRound.round x) : Int8)).toInt = n := by
  have hr : FRound.round x.val = (n : ℝ) := by
    show ((roundZ x.val : ℤ) : ℝ) = n
    rw [abs_lt] at h
    congr 1
    unfold roundZ
    split
    · rw [Int.floor_eq_iff]; constructor <;> linarith [h.1, h.2]
    · rw [Int.ceil_eq_iff]; constructor <;> linarith [h.1, h.2]
  have hf : ρ.fl (n : ℝ) = n := by
    obtain rfl | rfl | rfl : n = -1 ∨ n = 0 ∨ n = 1 := by omega
    · push_cast
      rw [ρ.odd]
      have := RNum.val_one (ρ := ρ)
      change ρ.fl 1 = 1 at this
      rw [this]
    · simpa using fl_zero ρ
    · have := RNum.val_one (ρ := ρ)
      change ρ.fl 1 = 1 at this
      simpa using this
  change ((FRound.toI8 (ρ.fl (FRound.round x.val)) : Int8)).toInt = n
  rw [hr, hf]
  have := toI8_int (K := ℝ) (n := n) (by omega) (by omega)
  have e : FRound.round (n : ℝ) = n := by
    show ((roundZ (n : ℝ) : ℤ) : ℝ) = n
    rw [roundZ_int]
  rwa [e] at this

theorem clM_castRot (hδ : Accurate ρ δ) {r : Mat3 Int8} (h : SmallEntries (intRot r)) :
    ClM δ 1 1 (castRot r : Mat3 (RNum ρ)) (castRot r : Mat3 ℝ) := by
  have C : ∀ e : Int8, (e.toInt ∈ (intRot r).toListCM) →
      Cl δ 1 1 (((e.toInt : ℤ)) : RNum ρ) ((e.toInt : ℤ) : ℝ) := by
    intro e he
    have := h _ he
    refine cl_int hδ ?_ (by norm_num)
    rw [abs_le]
    constructor
    · exact_mod_cast this.1
    · exact_mod_cast this.2
  refine ⟨C _ ?_, C _ ?_, C _ ?_, C _ ?_, C _ ?_, C _ ?_, C _ ?_, C _ ?_, C _ ?_⟩ <;>
    simp [Mat3.toListCM, intRot, castRot, Mat3.map]

theorem conjRot_rounded (hδ : Accurate ρ δ) (h9 : δ ≤ 1 / 10 ^ 9) {inv t : Mat3 (RNum ρ)} {inv' t' : Mat3 ℝ}
    (hinv : ClM δ 14000 8 inv inv') (ht : ClM δ 7 1 t t') (hi : t' * inv' = 1) {r : Mat3 Int8} {s : Mat3 ℤ}
    (hr : SmallEntries (intRot r)) (hs : SmallEntries s) (hb : InBasis t' (intRot r) s) :
    PointGroup.conjRot inv t r = PointGroup.conjRot inv' t' r := by
  have e : inv' * castRot r * t' = overK ℝ s := by
    rw [castRot_overK, mul_assoc, hb, ← mul_assoc, Mat3.mul_eq_one_comm' hi, one_mul]
  have e' := intRot_conjRot hi hb (fitsI8_of_small hs)
  have p1 := clM_mul hδ h9 hinv (clM_castRot hδ hr) (by norm_num) (by norm_num) (by norm_num) (by norm_num)
    (by norm_num) (by norm_num) (by norm_num)
  have p2 := clM_mul hδ h9 p1 ht (by norm_num) (by norm_num) (by norm_num) (by norm_num)
    (by norm_num) (by norm_num) (by norm_num)
  rw [e] at p2
  apply intRot_injective
  rw [e']
  have R : ∀ {x : RNum ρ} {n : ℤ}, n ∈ s.toListCM →
      Cl δ (3 * ((3 * (14000 * (1 + 1) + 8 * 1) + 5) * (1 + 1) + 3 * (8 * 1) * 7) + 5) (3 * (3 * (8 * 1) * 1)) x n →
      ((FRound.toI8 (FRound.round x) : Int8)).toInt = n := by
    intro x n hn hc
    obtain ⟨a, b⟩ := hs _ hn
    refine toI8_round_close a b (lt_of_le_of_lt hc.1 ?_)
    norm_num
    linarith
  obtain ⟨q1, q2, q3, q4, q5, q6, q7, q8, q9⟩ := p2
  unfold PointGroup.conjRot
  ext <;> simp only [intRot, castRot, Mat3.map, Int.cast_id]
  · exact R (by simp [Mat3.toListCM]) q1
  · exact R (by simp [Mat3.toListCM]) q2
  · exact R (by simp [Mat3.toListCM]) q3
  · exact R (by simp [Mat3.toListCM]) q4
  · exact R (by simp [Mat3.toListCM]) q5
  · exact R (by simp [Mat3.toListCM]) q6
  · exact R (by simp [Mat3.toListCM]) q7
  · exact R (by simp [Mat3.toListCM]) q8
  · exact R (by simp [Mat3.toListCM]) q9

theorem primEntries_mem {c : Centering} {m : Mat3 ℤ × ℤ} (h : amapGet? centeringToPrimTrans c = some m) :
    primEntriesOk m = true := by
  exact List.all_eq_true.1 primEntries_all _ (amapGet?_mem h)

/-- the table group in the primitive basis comes out the same. -/
theorem pgTransformation_rounded (hδ : Accurate ρ δ) (h9 : δ ≤ 1 / 10 ^ 9) {pg : PointGroup} {m : Mat3 ℤ × ℤ}
    (hm : primEntriesOk m = true)
    (hop : ∀ r, r ∈ pg.operations ∨ r ∈ pg.generators → SmallEntries (intRot r) ∧
      ∃ s, SmallEntries s ∧ InBasis (primMatrix m : Mat3 ℝ) (intRot r) s) :
    pg.applyTransformation (primMatrix m : Mat3 (RNum ρ)) = pg.applyTransformation (primMatrix m : Mat3 ℝ) := by
  obtain ⟨ht, hd⟩ := clM_prim hδ h9 hm
  obtain ⟨hz, hinv⟩ := clM_inv hδ h9 ht hd
  have hz' : (primMatrix m : Mat3 ℝ).det ≠ 0 := by
    intro e; rw [e, abs_zero] at hd; norm_num at hd
  have i1 : (primMatrix m : Mat3 (RNum ρ)).tryInverse =
      some ((primMatrix m : Mat3 (RNum ρ)).adjDiv (primMatrix m : Mat3 (RNum ρ)).det) := by
    unfold Mat3.tryInverse
    rw [if_neg]
    change ¬ (decide ((primMatrix m : Mat3 (RNum ρ)).det.val = (0 : RNum ρ).val) = true)
    simpa using hz
  have i2 : (primMatrix m : Mat3 ℝ).tryInverse = some ((primMatrix m : Mat3 ℝ).adjDiv (primMatrix m : Mat3 ℝ).det) := by
    unfold Mat3.tryInverse
    rw [if_neg]
    simpa using hz'
  have hi : (primMatrix m : Mat3 ℝ) * (primMatrix m : Mat3 ℝ).adjDiv (primMatrix m : Mat3 ℝ).det = 1 :=
    Mat3.mul_adjDiv hz'
  unfold PointGroup.applyTransformation
  rw [i1, i2]
  simp only
  have hc : ∀ r, r ∈ pg.operations ∨ r ∈ pg.generators → _ := fun r hr =>
    conjRot_rounded hδ h9 hinv ht hi (hop r hr).1 (hop r hr).2.choose_spec.1 (hop r hr).2.choose_spec.2
  congr 2
  · exact List.map_congr_left fun r hr => hc r (.inl hr)
  · exact List.map_congr_left fun r hr => hc r (.inr hr)

/-- the holohedry in the primitive basis comes out the same. -/
theorem primitiveHolohedry_rounded (hδ : Accurate ρ δ) (h9 : δ ≤ 1 / 10 ^ 9) {h : HashOrders (RNum ρ)}
    {h' : HashOrders ℝ} (hh : h.pointOps = h'.pointOps) (hv : IsHashOrd h'.pointOps) (fuel : ℕ) (b : BravaisType) :
    primitiveHolohedry h fuel b = primitiveHolohedry h' fuel b := by
  obtain ⟨c, sym, hb⟩ := bravais_mem b
  obtain ⟨num, m, gens, ops, e1, e2, e3, e4, -, -, h1, h2, hmem, hops⟩ := holo_spec hb
  unfold primitiveHolohedry
  rw [e1, hh, e3]
  simp only [Outcome.ofOption, Outcome.ret_bind]
  rw [e2]
  simp only [Outcome.ret_bind]
  cases hpg : PointGroup.fromNumber h'.pointOps fuel num with
  | panic msg => rfl
  | running => rfl
  | ret pg0 =>
    simp only [Outcome.ret_bind]
    obtain ⟨order, types, -, -, -, -, hgen⟩ := C33_point_group num h1 h2 _ hv _ _ hpg
    obtain ⟨gens', ops', hmem', -, -, hperm⟩ := fromNumber_perm h1 h2 _ hv _ hpg
    have hsame : ops' = ops := by
      have u1 := pgCodes_unique _ hmem
      have u2 := pgCodes_unique _ hmem'
      simp only at u1 u2
      rw [u1] at u2
      simp only [Option.some.injEq, Prod.mk.injEq] at u2
      exact u2.2.2.symm
    subst hsame
    refine pgTransformation_rounded hδ h9 (primEntries_mem e2) fun r hr => ?_
    obtain ⟨x, hx, rfl⟩ := List.mem_map.1 (hperm.mem_iff.1 (hr.elim id (hgen r)))
    rw [intRot_dec8]
    exact ⟨small_decZ _, _, small_decZ _, inBasis_primMatrix (hops x hx).1⟩

end

end CrystSymm
