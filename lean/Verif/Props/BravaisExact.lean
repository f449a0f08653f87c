import Verif.Proofs.BravaisExact
import Verif.Spec.Isometry
import Verif.Props.NiggliUnique
import Verif.Props.Pipeline
import Verif.Props.Bravais

set_option autoImplicit false
set_option linter.unusedSectionVars false

/-! # C69: the Bravais type found is the type of the full symmetry group of the lattice -/

namespace CrystSymm

open Spec Reducer SymmetryAnalyzer NiggliCert PointGroup

/-! ## checks over the tables -/

/-- the operation of the conventional basis in the reduced basis. -/
def redCode (T : Mat3 ℤ) (c : ℕ) : Mat3 ℤ := (T * decZ c * T.adj).map fun e => e / T.det

def redOk (ch : ℕ) : Bool :=
  decide ((convMat ch).det ≠ 0) && (holoConv (charBravais ch)).all fun c =>
    decide (redCode (convMat ch) c * convMat ch = convMat ch * decZ c)

theorem redOk_all : ((List.range 45).drop 1).all redOk = true := by decide +kernel

theorem redOk_of {ch : ℕ} (h1 : 1 ≤ ch) (h2 : ch ≤ 44) : (convMat ch).det ≠ 0 ∧
    ∀ c ∈ holoConv (charBravais ch), redCode (convMat ch) c * convMat ch = convMat ch * decZ c := by
  have h := List.all_eq_true.1 redOk_all ch (by
    rw [List.mem_iff_getElem?]
    refine ⟨ch - 1, ?_⟩
    rw [List.getElem?_drop, List.getElem?_range (by omega)]
    simp; omega)
  unfold redOk at h
  simpa using h

def holoTypes : List BravaisType := [.aP, .mP, .mC, .mI, .oP, .oC, .oI, .oF, .tP, .tI, .hR, .hP, .cP, .cI, .cF]

def negZ (m : Mat3 ℤ) : Mat3 ℤ := m.map fun e => -e

theorem negOk_all : (holoTypes.all fun b => (holoConv b).all fun c =>
    (holoConv b).any fun d => decide (decZ d = negZ (decZ c))) = true := by decide +kernel

theorem holo_neg {b : BravaisType} {c : ℕ} (hc : c ∈ holoConv b) : ∃ d ∈ holoConv b, decZ d = negZ (decZ c) := by
  have h := List.all_eq_true.1 negOk_all b (by cases b <;> simp [holoTypes])
  have h := List.all_eq_true.1 h c hc
  simpa using List.any_eq_true.1 h

/-! ## the symmetries of a lattice as integer matrices -/

theorem mapsLattice_iff {Q L : Mat3 ℝ} : MapsLattice Q L ↔ ∃ U : Mat3 ℤ, Q * L = L * overK ℝ U := by
  constructor
  · intro h
    obtain ⟨k₁, ⟨a1, a2, a3, rfl⟩, e₁⟩ := h ⟨1, 0, 0⟩ ⟨1, 0, 0, by ext <;> simp⟩
    obtain ⟨k₂, ⟨b1, b2, b3, rfl⟩, e₂⟩ := h ⟨0, 1, 0⟩ ⟨0, 1, 0, by ext <;> simp⟩
    obtain ⟨k₃, ⟨c1, c2, c3, rfl⟩, e₃⟩ := h ⟨0, 0, 1⟩ ⟨0, 0, 1, by ext <;> simp⟩
    refine ⟨⟨a1, b1, c1, a2, b2, c2, a3, b3, c3⟩, ?_⟩
    rw [Vec3.ext_iff] at e₁ e₂ e₃
    simp only [Mat3.mulVec_x, Mat3.mulVec_y, Mat3.mulVec_z, mul_one, mul_zero, add_zero, zero_add] at e₁ e₂ e₃
    obtain ⟨x1, y1, z1⟩ := e₁
    obtain ⟨x2, y2, z2⟩ := e₂
    obtain ⟨x3, y3, z3⟩ := e₃
    ext <;> simp only [Mat3.mul_m11, Mat3.mul_m12, Mat3.mul_m13, Mat3.mul_m21, Mat3.mul_m22, Mat3.mul_m23,
      Mat3.mul_m31, Mat3.mul_m32, Mat3.mul_m33, overK, Mat3.map] <;> assumption
  · rintro ⟨U, hU⟩ n hn
    refine ⟨overK ℝ U * n, int_mulVec U hn, ?_⟩
    rw [← Mat3.mul_mulVec, hU, Mat3.mul_mulVec]

/-- another basis of the same lattice. -/
theorem mapsLattice_mul {Q L : Mat3 ℝ} {n : Mat3 ℤ} (hn : n.det = 1 ∨ n.det = -1) :
    MapsLattice Q (L * overK ℝ n) ↔ MapsLattice Q L := by
  obtain ⟨k, hk1, hk2, -⟩ := unimodular_inverse hn
  have c1 : overK ℝ n * overK ℝ k = 1 := by rw [← overK_mul, hk1, overK_one]
  constructor
  · intro hQ v hv
    obtain ⟨w, hw, e⟩ := hQ (overK ℝ k * v) (int_mulVec k hv)
    rw [Mat3.mul_mulVec, ← Mat3.mul_mulVec (overK ℝ n), c1, Mat3.one_mulVec] at e
    exact ⟨overK ℝ n * w, int_mulVec n hw, by rw [e, Mat3.mul_mulVec]⟩
  · intro hQ v hv
    obtain ⟨w, hw, e⟩ := hQ (overK ℝ n * v) (int_mulVec n hv)
    refine ⟨overK ℝ k * w, int_mulVec k hw, ?_⟩
    rw [Mat3.mul_mulVec, e, Mat3.mul_mulVec, ← Mat3.mul_mulVec (overK ℝ n), c1, Mat3.one_mulVec]

theorem dotp_orthogonal {Q : Mat3 ℝ} (hQ : Orthogonal Q) (u v : Vec3 ℝ) : dotp (Q * u) (Q * v) = dotp u v := by
  unfold Orthogonal at hQ
  rw [Mat3.ext_iff] at hQ
  simp only [Mat3.mul_m11, Mat3.mul_m12, Mat3.mul_m13, Mat3.mul_m21, Mat3.mul_m22, Mat3.mul_m23,
      Mat3.mul_m31, Mat3.mul_m32, Mat3.mul_m33, Mat3.transpose, Mat3.one_m11, Mat3.one_m12, Mat3.one_m13, Mat3.one_m21,
      Mat3.one_m22, Mat3.one_m23, Mat3.one_m31, Mat3.one_m32, Mat3.one_m33] at hQ
  obtain ⟨h1, h2, h3, h4, h5, h6, h7, h8, h9⟩ := hQ
  simp only [dotp, Mat3.mulVec_x, Mat3.mulVec_y, Mat3.mulVec_z]
  linear_combination u.x * v.x * h1 + u.x * v.y * h2 + u.x * v.z * h3 + u.y * v.x * h4 + u.y * v.y * h5 +
    u.y * v.z * h6 + u.z * v.x * h7 + u.z * v.y * h8 + u.z * v.z * h9

theorem lenSq_orthogonal {Q : Mat3 ℝ} (hQ : Orthogonal Q) (v : Vec3 ℝ) : lenSq (Q * v) = lenSq v :=
  dotp_orthogonal hQ v v

theorem orthogonal_det {Q : Mat3 ℝ} (hQ : Orthogonal Q) : Q.det = 1 ∨ Q.det = -1 := by
  have h := congrArg Mat3.det hQ
  rw [Mat3.det_mul, Mat3.det_transpose, Mat3.det_one] at h
  exact mul_self_eq_one_iff.1 h

/-- `-Q`. -/
def negM (Q : Mat3 ℝ) : Mat3 ℝ := Q.map fun e => -e

theorem negM_mul (Q A : Mat3 ℝ) : negM Q * A = negM (Q * A) := by
  ext <;> simp [negM, Mat3.map] <;> ring

theorem mul_negZ (A : Mat3 ℝ) (U : Mat3 ℤ) : A * overK ℝ (negZ U) = negM (A * overK ℝ U) := by
  ext <;> simp [negM, negZ, overK, Mat3.map] <;> ring

theorem negM_negM (Q : Mat3 ℝ) : negM (negM Q) = Q := by ext <;> simp [negM, Mat3.map]

theorem negM_orthogonal {Q : Mat3 ℝ} (hQ : Orthogonal Q) : Orthogonal (negM Q) := by
  unfold Orthogonal at *
  rw [← hQ]
  ext <;> simp [negM, Mat3.map, Mat3.transpose]

theorem negZ_det (U : Mat3 ℤ) : (negZ U).det = -U.det := by
  simp only [negZ, Mat3.map, Mat3.det]; ring

theorem colMat_cols (U : Mat3 ℤ) : colMat U.col0 U.col1 U.col2 = U := rfl

theorem col_castV (L : Mat3 ℝ) (U : Mat3 ℤ) : (L * overK ℝ U).col0 = L * (castV U.col0 : Vec3 ℝ) ∧
    (L * overK ℝ U).col1 = L * (castV U.col1 : Vec3 ℝ) ∧ (L * overK ℝ U).col2 = L * (castV U.col2 : Vec3 ℝ) :=
  ⟨rfl, rfl, rfl⟩

theorem sixOf_eq (L : Mat3 ℝ) : sixOf L = sixP (lenSq L.col0) (lenSq L.col1) (lenSq L.col2) (dotp L.col1 L.col2)
    (dotp L.col0 L.col2) (dotp L.col0 L.col1) := rfl

theorem det_overK_ℝ (U : Mat3 ℤ) : (overK ℝ U).det = (U.det : ℝ) := intCast_det U

/-- cancelling an invertible factor on the right. -/
theorem mul_cancel_right {A B T : Mat3 ℝ} (hT : T.det ≠ 0) (h : A * T = B * T) : A = B := by
  have e := congrArg (· * T.adjDiv T.det) h
  simpa only [mul_assoc, Mat3.mul_adjDiv hT, mul_one] using e

theorem mul_cancel_left {A B T : Mat3 ℝ} (hT : T.det ≠ 0) (h : T * A = T * B) : A = B := by
  have e := congrArg (T.adjDiv T.det * ·) h
  simpa only [← mul_assoc, Mat3.adjDiv_mul hT, one_mul] using e

/-- an operation that preserves the metric of a cell is an isometry of space. -/
theorem orthogonal_of_metric {C : Mat3 ℝ} (hC : C.det ≠ 0) {r : Mat3 ℤ}
    (h : IsometryOf r (metric (lenSq C.col0) (lenSq C.col1) (lenSq C.col2) (dotp C.col1 C.col2) (dotp C.col0 C.col2)
      (dotp C.col0 C.col1))) : ∃ Q, Orthogonal Q ∧ Q * C = C * overK ℝ r := by
  have hG : metric (lenSq C.col0) (lenSq C.col1) (lenSq C.col2) (dotp C.col1 C.col2) (dotp C.col0 C.col2)
      (dotp C.col0 C.col1) = C.transpose * C := by
    ext <;> simp [metric, lenSq, dotp, Mat3.transpose, Mat3.col0, Mat3.col1, Mat3.col2] <;> ring
  unfold IsometryOf at h
  rw [hG] at h
  have hQ : C * overK ℝ r * C.adjDiv C.det * C = C * overK ℝ r := by
    rw [mul_assoc, Mat3.adjDiv_mul hC, mul_one]
  refine ⟨C * overK ℝ r * C.adjDiv C.det, ?_, hQ⟩
  unfold Orthogonal
  have e : C.transpose * ((C * overK ℝ r * C.adjDiv C.det).transpose * (C * overK ℝ r * C.adjDiv C.det)) * C =
      C.transpose * 1 * C := by
    have : C.transpose * ((C * overK ℝ r * C.adjDiv C.det).transpose * (C * overK ℝ r * C.adjDiv C.det)) * C =
        (C * overK ℝ r * C.adjDiv C.det * C).transpose * (C * overK ℝ r * C.adjDiv C.det * C) := by
      rw [Mat3.transpose_mul (C * overK ℝ r * C.adjDiv C.det) C]
      simp only [mul_assoc]
    rw [this, hQ, Mat3.transpose_mul, mul_one, ← h]
    simp only [mul_assoc]
  exact mul_cancel_left (by rw [Mat3.det_transpose]; exact hC) (mul_cancel_right hC e)

/-! ## the group, in terms of the tables -/

theorem shapeWithin_zero {b : BravaisType} {A B C D E F : ℝ} (h : ShapeWithin b (100 * 0) A B C D E F) :
    ShapeOf b A B C D E F := by
  have z : ∀ x : ℝ, |x| ≤ 100 * 0 → x = 0 := fun x hx => abs_eq_zero.1 (le_antisymm (by simpa using hx) (abs_nonneg x))
  have zs : ∀ x y : ℝ, |x - y| ≤ 100 * 0 → x = y := fun x y hx => sub_eq_zero.1 (z _ hx)
  cases b <;> simp only [ShapeWithin, ShapeOf] at h ⊢
  · exact ⟨z _ h.1, z _ h.2⟩
  · exact ⟨z _ h.1, z _ h.2⟩
  · exact ⟨z _ h.1, z _ h.2⟩
  · exact ⟨z _ h.1, z _ h.2.1, z _ h.2.2⟩
  · exact ⟨z _ h.1, z _ h.2.1, z _ h.2.2⟩
  · exact ⟨z _ h.1, z _ h.2.1, z _ h.2.2⟩
  · exact ⟨z _ h.1, z _ h.2.1, z _ h.2.2⟩
  · exact ⟨zs _ _ h.1, z _ h.2.1, z _ h.2.2.1, z _ h.2.2.2⟩
  · exact ⟨zs _ _ h.1, z _ h.2.1, z _ h.2.2.1, z _ h.2.2.2⟩
  · exact ⟨zs _ _ h.1, z _ h.2.1, z _ h.2.2.1, by linarith [z _ h.2.2.2]⟩
  · exact ⟨zs _ _ h.1, z _ h.2.1, z _ h.2.2.1, by linarith [z _ h.2.2.2]⟩
  · exact ⟨zs _ _ h.1, zs _ _ h.2.1, z _ h.2.2.1, z _ h.2.2.2.1, z _ h.2.2.2.2⟩
  · exact ⟨zs _ _ h.1, zs _ _ h.2.1, z _ h.2.2.1, z _ h.2.2.2.1, z _ h.2.2.2.2⟩
  · exact ⟨zs _ _ h.1, zs _ _ h.2.1, z _ h.2.2.1, z _ h.2.2.2.1, z _ h.2.2.2.2⟩

theorem holoConv_eq {b : BravaisType} {num : ℕ} {gens ops : List ℕ} (h : amapGet? bravaisToHolohedryNum b = some num)
    (hm : (num, gens, ops) ∈ pgCodes) : holoConv b = ops := by
  have u := pgCodes_unique _ hm
  simp only at u
  unfold holoConv
  rw [h]
  simp only [u]

/-- no difference that `get_lattice_character` forms from the cell is within the tolerance, unless it vanishes. -/
def ToleranceResolves (s : Structure ℝ) (tol : ℝ) : Prop :=
  Resolved (eps tol s.volume) (lenSq s.lattice.col0) (lenSq s.lattice.col1) (lenSq s.lattice.col2)
    (dotp s.lattice.col1 s.lattice.col2) (dotp s.lattice.col0 s.lattice.col2) (dotp s.lattice.col0 s.lattice.col1)

theorem symmetry_codes {s : Structure ℝ} {tol : ℝ} {ch : ℕ} (hV : 0 < s.volume) (hn : NiggliCell 0 s.lattice)
    (hr : ToleranceResolves s tol) (hc : getLatticeCharacter s tol = .ret ch) :
    ∃ m b, amapGet? latticeCharToConvTrans ch = some m ∧ amapGet? latticeCharToBravais ch = some b ∧
      (s.lattice * (castRot m : Mat3 ℝ).transpose).det ≠ 0 ∧
      (∀ Q, Orthogonal Q → (MapsLattice Q s.lattice ↔ ∃ c ∈ holoConv b,
        Q * (s.lattice * (castRot m : Mat3 ℝ).transpose) =
          s.lattice * (castRot m : Mat3 ℝ).transpose * overK ℝ (decZ c))) ∧
      ∀ c ∈ holoConv b, ∃ Q, Orthogonal Q ∧ Q * (s.lattice * (castRot m : Mat3 ℝ).transpose) =
          s.lattice * (castRot m : Mat3 ℝ).transpose * overK ℝ (decZ c) := by
  rw [getLatticeCharacter_eq hV.le] at hc
  have hdet : s.lattice.det ≠ 0 := hV.ne'
  have hA : 0 < lenSq s.lattice.col0 := by
    rcases (show 0 ≤ lenSq s.lattice.col0 from add_nonneg (add_nonneg (mul_self_nonneg _) (mul_self_nonneg _)) (mul_self_nonneg _)).lt_or_eq with h | h
    · exact h
    · exfalso
      apply hdet
      unfold lenSq at h
      have h1 : s.lattice.m11 = 0 := by simp only [Mat3.col0] at h; nlinarith [sq_nonneg s.lattice.m11, sq_nonneg s.lattice.m21, sq_nonneg s.lattice.m31]
      have h2 : s.lattice.m21 = 0 := by simp only [Mat3.col0] at h; nlinarith [sq_nonneg s.lattice.m11, sq_nonneg s.lattice.m21, sq_nonneg s.lattice.m31]
      have h3 : s.lattice.m31 = 0 := by simp only [Mat3.col0] at h; nlinarith [sq_nonneg s.lattice.m11, sq_nonneg s.lattice.m21, sq_nonneg s.lattice.m31]
      simp [Mat3.det, h1, h2, h3]
  obtain ⟨m, b, hm, hb, hs⟩ := convShape_lattice (shape_exact hA hn hr hc)
  obtain ⟨r1, r2⟩ := char_range hm
  obtain ⟨ht, hred⟩ := redOk_of r1 r2
  have hT : (castRot m : Mat3 ℝ).transpose = overK ℝ (convMat ch) := by
    rw [castRot_overK]
    unfold convMat
    rw [hm]
    rfl
  have hB : charBravais ch = b := by unfold charBravais; rw [hb]; rfl
  rw [hB] at hred
  have htR : (overK ℝ (convMat ch)).det ≠ 0 := by
    rw [det_overK_ℝ]; exact_mod_cast ht
  have hC : (s.lattice * (castRot m : Mat3 ℝ).transpose).det ≠ 0 := by
    rw [hT, Mat3.det_mul]; exact mul_ne_zero hdet htR
  refine ⟨m, b, hm, hb, hC, ?_, ?_⟩
  · intro Q hQ
    rw [mapsLattice_iff, hT]
    constructor
    · -- first for determinant 1
      have key : ∀ (Q : Mat3 ℝ) (U : Mat3 ℤ), Orthogonal Q → Q * s.lattice = s.lattice * overK ℝ U → U.det = 1 →
          ∃ c ∈ holoConv b, Q * (s.lattice * overK ℝ (convMat ch)) =
            s.lattice * overK ℝ (convMat ch) * overK ℝ (decZ c) := by
        intro Q U hQ hU hd
        obtain ⟨c0, c1, c2⟩ := col_castV s.lattice U
        have k0 : s.lattice * (castV U.col0 : Vec3 ℝ) = Q * s.lattice.col0 := by rw [← c0, ← hU]; rfl
        have k1 : s.lattice * (castV U.col1 : Vec3 ℝ) = Q * s.lattice.col1 := by rw [← c1, ← hU]; rfl
        have k2 : s.lattice * (castV U.col2 : Vec3 ℝ) = Q * s.lattice.col2 := by rw [← c2, ← hU]; rfl
        have hh := isHolo_of_symmetry (u := U.col0) (v := U.col1) (w := U.col2) hA hn hr hc
          (by rw [det3_cols]; exact hd)
          (by rw [← sixOf_eq, qForm_eval, k0, lenSq_orthogonal hQ])
          (by rw [← sixOf_eq, qForm_eval, k1, lenSq_orthogonal hQ])
          (by rw [← sixOf_eq, qForm_eval, k2, lenSq_orthogonal hQ])
          (by rw [← sixOf_eq, bForm_eval, k1, k2, dotp_orthogonal hQ])
          (by rw [← sixOf_eq, bForm_eval, k0, k2, dotp_orthogonal hQ])
          (by rw [← sixOf_eq, bForm_eval, k0, k1, dotp_orthogonal hQ])
        unfold isHolo at hh
        rw [hB, colMat_cols, List.any_eq_true] at hh
        obtain ⟨c, hc, e⟩ := hh
        refine ⟨c, hc, ?_⟩
        rw [← mul_assoc, hU, mul_assoc, ← overK_mul, of_decide_eq_true e, overK_mul, mul_assoc]
      rintro ⟨U, hU⟩
      have hd : U.det = 1 ∨ U.det = -1 := by
        have e := congrArg Mat3.det hU
        rw [Mat3.det_mul, Mat3.det_mul, det_overK_ℝ, mul_comm] at e
        have e := mul_left_cancel₀ hdet e
        rcases orthogonal_det hQ with h | h <;> rw [h] at e
        · exact .inl (by exact_mod_cast e.symm)
        · exact .inr (by exact_mod_cast e.symm)
      rcases hd with hd | hd
      · exact key Q U hQ hU hd
      · obtain ⟨c, hc, e⟩ := key (negM Q) (negZ U) (negM_orthogonal hQ) (by rw [negM_mul, mul_negZ, hU])
          (by rw [negZ_det, hd]; rfl)
        obtain ⟨d, hd, ed⟩ := holo_neg hc
        refine ⟨d, hd, ?_⟩
        rw [ed, mul_negZ, ← e, negM_mul, negM_negM]
    · rintro ⟨c, hc, e⟩
      refine ⟨redCode (convMat ch) c, mul_cancel_right htR ?_⟩
      rw [mul_assoc, e, mul_assoc, mul_assoc, ← overK_mul, ← overK_mul, hred c hc]
  · intro c hc
    obtain ⟨cen, sym, hbt⟩ := bravais_mem b
    obtain ⟨num, M, gens, ops, e1, e2, e3, e4, -, -, h1, h2, hmem, hops⟩ := holo_spec hbt
    rw [holoConv_eq e1 hmem] at hc
    exact orthogonal_of_metric hC (isometry_of_basis (hops c hc).2 (shapeWithin_zero hs))

/-! ## C69 -/

/-- the isometries that map the lattice of `L` into itself are those given, in the basis `C`, by the operations `ops`: each
such isometry is one of them, and each of them is an isometry of the lattice. -/
def FullSymmetry (L C : Mat3 ℝ) (ops : List (Mat3 Int8)) : Prop :=
  (∀ Q, Orthogonal Q → MapsLattice Q L → ∃ W ∈ ops, Q * C = C * overK ℝ (intRot W)) ∧
    ∀ W ∈ ops, ∃ Q, Orthogonal Q ∧ MapsLattice Q L ∧ Q * C = C * overK ℝ (intRot W)

/-- **C69.** If the cell satisfies the Niggli conditions exactly and the tolerance resolves it, the lattice character found
names the symmetry of the lattice: in the conventional basis of the character, the isometries of the lattice are exactly the
operations of the holohedry of its Bravais type, no fewer and no more. -/
theorem C69_symmetry_group (s : Structure ℝ) (tol : ℝ) (ch : ℕ) (hV : 0 < s.volume) (hn : NiggliCell 0 s.lattice)
    (hr : ToleranceResolves s tol) (hc : getLatticeCharacter s tol = .ret ch) :
    ∃ m b num, amapGet? latticeCharToConvTrans ch = some m ∧ amapGet? latticeCharToBravais ch = some b ∧
      amapGet? bravaisToHolohedryNum b = some num ∧
      ∀ (o : HashOrd (Mat3 Int8)), IsHashOrd o → ∀ fuel pg, fromNumber o fuel num = .ret pg →
        FullSymmetry s.lattice (s.lattice * (castRot m : Mat3 ℝ).transpose) pg.operations := by
  obtain ⟨m, b, hm, hb, hC, h1, h2⟩ := symmetry_codes hV hn hr hc
  obtain ⟨cen, sym, hbt⟩ := bravais_mem b
  obtain ⟨num, M, gens, ops, e1, e2, e3, e4, -, -, n1, n2, hmem, hops⟩ := holo_spec hbt
  rw [holoConv_eq e1 hmem] at h1 h2
  refine ⟨m, b, num, hm, hb, e1, fun o ho fuel pg hpg => ?_⟩
  obtain ⟨gens', ops', hmem', -, -, hperm⟩ := fromNumber_perm n1 n2 o ho fuel hpg
  have hsame : ops' = ops := by
    rw [← holoConv_eq e1 hmem, ← holoConv_eq e1 hmem']
  subst hsame
  constructor
  · intro Q hQ hL
    obtain ⟨c, hc, e⟩ := (h1 Q hQ).1 hL
    exact ⟨dec8 c, hperm.mem_iff.2 (List.mem_map.2 ⟨c, hc, rfl⟩), by rw [intRot_dec8]; exact e⟩
  · intro W hW
    obtain ⟨c, hc, rfl⟩ := List.mem_map.1 (hperm.mem_iff.1 hW)
    obtain ⟨Q, hQ, e⟩ := h2 c hc
    exact ⟨Q, hQ, (h1 Q hQ).2 ⟨c, hc, e⟩, by rw [intRot_dec8]; exact e⟩

/-- **C69 (primitive).** The same in the primitive basis in which the operations are searched for: the point group handed
to the search consists of exactly the isometries of the lattice. -/
theorem C69_primitive_group (s : Structure ℝ) (tol : ℝ) (ch : ℕ) (hV : 0 < s.volume) (hn : NiggliCell 0 s.lattice)
    (hr : ToleranceResolves s tol) (hc : getLatticeCharacter s tol = .ret ch) :
    ∃ m b P, amapGet? latticeCharToConvTrans ch = some m ∧ primitiveTransformationMatrix ch = .ret (P, b) ∧
      ∀ (h : HashOrders ℝ), h.Valid → ∀ fuel pg, primitiveHolohedry h fuel b = .ret pg →
        FullSymmetry (s.lattice * (castRot m : Mat3 ℝ).transpose * P) (s.lattice * (castRot m : Mat3 ℝ).transpose * P)
          pg.operations := by
  obtain ⟨m, b, hm, hb, hC, h1, h2⟩ := symmetry_codes hV hn hr hc
  obtain ⟨r1, r2⟩ := char_range hm
  obtain ⟨m', P, b', c, n, t1, t2, t3, t4, t5, t6, t7⟩ := C32_tables_consistent (K := ℝ) ch r1 r2
  rw [hm] at t1
  cases t1
  have hbb : b' = b := by
    unfold primitiveTransformationMatrix at t2
    rw [hb] at t2
    simp only [Outcome.ofOption, Outcome.bind_eq_ret, Outcome.ret.injEq, Prod.mk.injEq] at t2
    obtain ⟨b0, e0, -, -, -, -, -, e⟩ := t2
    rw [← e, ← e0]
  subst hbb
  refine ⟨m, b', P, hm, t2, fun h hv fuel pg hpg => ?_⟩
  obtain ⟨cen, sym, hbt⟩ := bravais_mem b'
  obtain ⟨num, M, gens, ops, e1, e2, e3, e4, -, -, n1, n2, hmem, hops⟩ := holo_spec hbt
  have hP : P = primMatrix M := by
    unfold primitiveTransformationMatrix at t2
    rw [hb] at t2
    simp only [Outcome.ofOption, Outcome.ret_bind, e3, e2, Outcome.ret.injEq, Prod.mk.injEq] at t2
    exact t2.1.symm
  rw [holoConv_eq e1 hmem] at h1 h2
  have hperm := holo_perm hv hpg
  have hcodes : holoCodes b' = ops.map (primCode M.1) := by
    have u := pgCodes_unique _ hmem
    simp only at u
    unfold holoCodes
    rw [e1, e3, Option.bind_some, e2]
    simp only [u]
  rw [hcodes, List.map_map] at hperm
  have hb' : ∀ x ∈ ops, overK ℝ (decZ x) * P = P * overK ℝ (decZ (primCode M.1 x)) := by
    intro x hx
    rw [hP]
    exact inBasis_primMatrix (hops x hx).1
  have hlat : s.lattice * (castRot m : Mat3 ℝ).transpose * P = s.lattice * overK ℝ n := by rw [mul_assoc, t5]
  -- the two lattices are the same
  have hmaps : ∀ Q, MapsLattice Q (s.lattice * (castRot m : Mat3 ℝ).transpose * P) ↔ MapsLattice Q s.lattice := by
    intro Q
    rw [hlat, mapsLattice_mul t6]
  constructor
  · intro Q hQ hL
    obtain ⟨x, hx, e⟩ := (h1 Q hQ).1 ((hmaps Q).1 hL)
    refine ⟨dec8 (primCode M.1 x), hperm.mem_iff.2 (List.mem_map.2 ⟨x, hx, rfl⟩), ?_⟩
    have e2 := congrArg (· * P) e
    rw [mul_assoc Q, mul_assoc (_ * _) (overK ℝ (decZ x)) P, hb' x hx, ← mul_assoc (_ * _) P] at e2
    rw [intRot_dec8]
    exact e2
  · intro W hW
    obtain ⟨x, hx, rfl⟩ := List.mem_map.1 (hperm.mem_iff.1 hW)
    obtain ⟨Q, hQ, e⟩ := h2 x hx
    refine ⟨Q, hQ, (hmaps Q).2 ((h1 Q hQ).2 ⟨x, hx, e⟩), ?_⟩
    simp only [Function.comp]
    have e2 := congrArg (· * P) e
    rw [mul_assoc Q, mul_assoc (_ * _) (overK ℝ (decZ x)) P, hb' x hx, ← mul_assoc (_ * _) P] at e2
    rw [intRot_dec8]
    exact e2

/-- **C69 (pipeline).** The standard primitive structure: if the reduced cell it comes from satisfies the Niggli conditions
exactly and the tolerance of the search resolves it, the operations tried in the search for the space group are exactly the
isometries of the lattice of the standard primitive structure, in its own basis. -/
theorem C69_pipeline (sa : SymmetryAnalyzer ℝ) (h : HashOrders ℝ) (hv : h.Valid) (fuel : ℕ) (s p : Structure ℝ)
    (hp : sa.getStandardPrimitiveStructure h fuel s = .ret p) :
    ∃ (prim nig : Structure ℝ) (ch : ℕ) (b : BravaisType), sa.reducer.findPrimitiveCell h.minEle s = .ret prim ∧
      sa.reducer.niggliReduce prim tol1em5 = .ret nig ∧ getLatticeCharacter nig tol1em5 = .ret ch ∧
      amapGet? latticeCharToBravais ch = some b ∧
      (0 < nig.volume → NiggliCell 0 nig.lattice → ToleranceResolves nig tol1em5 →
        ∀ pg, primitiveHolohedry h fuel b = .ret pg → FullSymmetry p.lattice p.lattice pg.operations) := by
  obtain ⟨prim, nig, conv, ch, m, P, b, h1, h2, h3, h4, h5, h6, h7, h8⟩ := standardPrimitive_ret hp
  have hb : amapGet? latticeCharToBravais ch = some b := by
    unfold primitiveTransformationMatrix at h5
    simp only [Outcome.bind_eq_ret, Outcome.ret.injEq, Prod.mk.injEq] at h5
    obtain ⟨b0, e0, -, -, -, -, -, rfl⟩ := h5
    exact ofOption_eq_ret e0
  refine ⟨prim, nig, ch, b, h1, h2, h8, hb, fun hV hn hr pg hpg => ?_⟩
  obtain ⟨m', b', P', t1, t2, key⟩ := C69_primitive_group nig tol1em5 ch hV hn hr h8
  rw [h3] at t1
  rw [h5] at t2
  cases t1
  cases t2
  have l1 := applyTransformation_lattice h4
  have l2 := applyTransformation_lattice h6
  have := key h hv fuel pg hpg
  rw [← l1, ← l2] at this
  exact this

/-- **C69 (every cell).** For every lattice there is a bound such that for all tolerances below it and all right-handed cells
of the lattice: whenever `niggli_reduce` returns and a lattice character is found for its result, the holohedry of the
Bravais type is the full symmetry group of the lattice. -/
theorem C69_every_cell (L : Mat3 ℝ) (hL : 0 < L.det) : ∃ δ > 0, ∀ (r : Reducer ℝ) (s s' : Structure ℝ) (tol tol' : ℝ)
    (ch : ℕ), CellOf L s → 0 < tol → tol < δ → 0 < tol' → tol' < δ → r.niggliReduce s tol = .ret s' →
    getLatticeCharacter s' tol' = .ret ch →
    ∃ m b num, amapGet? latticeCharToConvTrans ch = some m ∧ amapGet? latticeCharToBravais ch = some b ∧
      amapGet? bravaisToHolohedryNum b = some num ∧
      ∀ (o : HashOrd (Mat3 Int8)), IsHashOrd o → ∀ fuel pg, fromNumber o fuel num = .ret pg →
        FullSymmetry L (s'.lattice * (castRot m : Mat3 ℝ).transpose) pg.operations := by
  obtain ⟨δ, hδ, key⟩ := C63_niggli_exact L hL
  -- every exact Niggli cell of the lattice has the same products
  by_cases hex : ∃ N : Mat3 ℤ, N.det = 1 ∧ NiggliCell 0 (L * overK ℝ N)
  · obtain ⟨N₀, d₀, n₀⟩ := hex
    obtain ⟨η, hη, hres⟩ := resolved_of_lt (a := lenSq (L * overK ℝ N₀).col0) (b := lenSq (L * overK ℝ N₀).col1)
      (c := lenSq (L * overK ℝ N₀).col2) (d := dotp (L * overK ℝ N₀).col1 (L * overK ℝ N₀).col2)
      (e := dotp (L * overK ℝ N₀).col0 (L * overK ℝ N₀).col2) (f := dotp (L * overK ℝ N₀).col0 (L * overK ℝ N₀).col1)
    have hc0 : 0 < L.det ^ ((1 : ℝ) / 3) := Real.rpow_pos_of_pos hL _
    refine ⟨min δ (η / L.det ^ ((1 : ℝ) / 3)), lt_min hδ (by positivity), ?_⟩
    intro r s s' tol tol' ch hs h0 h1 h0' h1' hred hch
    obtain ⟨n', M, ⟨N, d, rfl⟩, e'⟩ := key r s s' tol hs h0 (h1.trans_le (min_le_left _ _)) hred
    have hv : s'.volume = L.det := by
      unfold Structure.volume
      rw [e', Mat3.det_mul, intCast_det, d]; simp
    obtain ⟨k, hk1, -, hkd⟩ := unimodular_inverse (.inl d₀)
    have hcast : overK ℝ N₀ * overK ℝ k = 1 := by rw [← overK_mul, hk1, overK_one]
    have e : s'.lattice = L * overK ℝ N₀ * overK ℝ (k * N) := by
      rw [overK_mul, mul_assoc, ← mul_assoc (overK ℝ N₀), hcast, one_mul, e']
      rfl
    have hshape : SameShape (L * overK ℝ N₀) s'.lattice := by
      rw [e]
      refine C63_niggli_cell_unique _ _ ?_ ⟨k * N, .inl ?_, rfl⟩ n₀ (e ▸ n')
      · rw [Mat3.det_mul, det_overK_ℝ, d₀]; simpa using hL.ne'
      · rw [Mat3.det_mul, hkd, d₀, d]; rfl
    obtain ⟨a1, a2, a3, a4, a5, a6⟩ := hshape
    have hr : ToleranceResolves s' tol' := by
      unfold ToleranceResolves
      rw [← a1, ← a2, ← a3, ← a4, ← a5, ← a6, hv]
      refine hres _ (mul_pos h0' hc0) ?_
      exact (lt_div_iff₀ hc0).1 (h1'.trans_le (min_le_right _ _))
    obtain ⟨m, b, num, t1, t2, t3, t4⟩ := C69_symmetry_group s' tol' ch (by rw [hv]; exact hL) n' hr hch
    refine ⟨m, b, num, t1, t2, t3, fun o ho fuel pg hpg => ?_⟩
    obtain ⟨f1, f2⟩ := t4 o ho fuel pg hpg
    have hmaps : ∀ Q, MapsLattice Q L ↔ MapsLattice Q s'.lattice := by
      intro Q
      have hl : s'.lattice = L * overK ℝ N := e'
      rw [hl, mapsLattice_mul (.inl d)]
    refine ⟨fun Q hQ hM => f1 Q hQ ((hmaps Q).1 hM), fun W hW => ?_⟩
    obtain ⟨Q, hQ, hM, e⟩ := f2 W hW
    exact ⟨Q, hQ, (hmaps Q).2 hM, e⟩
  · refine ⟨δ, hδ, ?_⟩
    intro r s s' tol tol' ch hs h0 h1 h0' h1' hred hch
    obtain ⟨n', M, ⟨N, d, rfl⟩, e'⟩ := key r s s' tol hs h0 h1 hred
    exact absurd ⟨N, d, e' ▸ n'⟩ hex

/-- a body-centred tetragonal lattice with edges 2, 2 and 4. -/
def tICell : Structure ℝ := ⟨⟨2, 0, -1, 0, 2, -1, 0, 0, 2⟩, [], [], []⟩

/-- all hypotheses hold for it with the tolerance of the crate; the symmetry group is 4/mmm. -/
theorem tICell_spec : 0 < tICell.volume ∧ NiggliCell 0 tICell.lattice ∧ ToleranceResolves tICell tol1em5 ∧
    getLatticeCharacter tICell tol1em5 = .ret 15 := by
  have hV : tICell.volume = 8 := by norm_num [tICell, Structure.volume, Mat3.det]
  have he : eps tol1em5 tICell.volume = 1 / 50000 := by rw [hV, eps_eight, tol1em5_real]; norm_num
  have p1 : lenSq tICell.lattice.col0 = 4 := by norm_num [tICell, lenSq, Mat3.col0]
  have p2 : lenSq tICell.lattice.col1 = 4 := by norm_num [tICell, lenSq, Mat3.col1]
  have p3 : lenSq tICell.lattice.col2 = 6 := by norm_num [tICell, lenSq, Mat3.col2]
  have p4 : dotp tICell.lattice.col1 tICell.lattice.col2 = -2 := by norm_num [tICell, dotp, Mat3.col1, Mat3.col2]
  have p5 : dotp tICell.lattice.col0 tICell.lattice.col2 = -2 := by norm_num [tICell, dotp, Mat3.col0, Mat3.col2]
  have p6 : dotp tICell.lattice.col0 tICell.lattice.col1 = 0 := by norm_num [tICell, dotp, Mat3.col0, Mat3.col1]
  have hc : getLatticeCharacter tICell tol1em5 = .ret 15 := by
    rw [getLatticeCharacter_eq (by rw [hV]; norm_num), he, p1, p2, p3, p4, p5, p6]
    have i1 : eqE (some (1 / 50000)) (4 : ℝ) 4 = true := by rw [eqE_some]; norm_num
    have i2 : eqE (some (1 / 50000)) (4 : ℝ) 6 = false := by
      rw [Bool.eq_false_iff, Ne, eqE_some]; norm_num [abs_le]
    have i3 : isTypeI (some (1 / 50000)) [(-2 : ℝ), -2, 0] = false := by
      rw [Bool.eq_false_iff, Ne, isTypeI_iff (by norm_num)]; norm_num [Acute]
    have i4 : defMatches (some (1 / 50000)) ⟨4 / -2, 4 / -2, 0⟩ (⟨-2, -2, 0⟩ : Vec3 ℝ) = true := by
      rw [defMatches_some]; norm_num
    have n1 : ∀ y z : ℝ, defMatches (some (1 / 50000)) ⟨0, y, z⟩ (⟨-2, -2, 0⟩ : Vec3 ℝ) = false := by
      intro y z
      rw [defMatches_false]
      rintro ⟨h, -, -⟩
      norm_num [abs_le] at h
    unfold characterOf
    simp only [i1, i2, i3, Bool.and_false, Bool.false_eq_true, if_false, if_true, getSecondSet, Vec3.divS, l2, lm2,
      zero_div]
    rw [List.cons_append, List.find?_cons_of_neg (by rw [n1]; exact Bool.false_ne_true),
      List.cons_append, List.find?_cons_of_neg (by rw [n1]; exact Bool.false_ne_true),
      List.cons_append, List.find?_cons_of_neg (by rw [n1]; exact Bool.false_ne_true),
      List.cons_append, List.find?_cons_of_pos (by rw [i4])]
    simp
  refine ⟨by rw [hV]; norm_num, ?_, ?_, hc⟩
  · unfold NiggliCell
    rw [p1, p2, p3, p4, p5, p6]
    constructor <;> norm_num [abs_le]
  · unfold ToleranceResolves
    rw [he, p1, p2, p3, p4, p5, p6]
    refine ⟨by norm_num, ?_⟩
    simp only [comparisons, List.forall_mem_cons]
    norm_num [abs_le]

/-- the group of that lattice: sixteen operations, and nothing else maps the lattice into itself. -/
example (h : HashOrders ℝ) (hv : h.Valid) (fuel : ℕ) (pg : PointGroup) (hpg : fromNumber h.pointOps fuel 19 = .ret pg) :
    ∃ m, amapGet? latticeCharToConvTrans 15 = some m ∧ pg.symbol = "4/mmm" ∧ pg.operations.length = 16 ∧
      FullSymmetry tICell.lattice (tICell.lattice * (castRot m : Mat3 ℝ).transpose) pg.operations := by
  obtain ⟨h1, h2, h3, h4⟩ := tICell_spec
  obtain ⟨m, b, num, e1, e2, e3, key⟩ := C69_symmetry_group tICell _ 15 h1 h2 h3 h4
  obtain rfl : BravaisType.tI = b := Option.some.inj e2
  obtain rfl : 19 = num := Option.some.inj e3
  obtain ⟨gens, ops, hm, hs, -, hp⟩ := fromNumber_perm (n := 19) (by norm_num) (by norm_num) _ hv.pointOps _ hpg
  have hl : ∀ q ∈ pgCodes, q.1 = 19 → q.2.2.length = 16 := by decide +kernel
  refine ⟨m, e1, (Option.some.inj hs).symm, ?_, key _ hv.pointOps _ _ hpg⟩
  rw [hp.length_eq, List.length_map]
  exact hl _ hm rfl

end CrystSymm
