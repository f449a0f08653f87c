import Verif.Props.OneAtom
import Verif.Props.ShortestCell

set_option autoImplicit false
set_option linter.unusedSectionVars false

/-! # C56 for cells with right angles: cubic, tetragonal and orthorhombic primitive cells -/

namespace CrystSymm

open Spec SymmetryAnalyzer PointGroup Reducer

/-- squared length of the vector with coefficients `n` in a cell with right angles and squared edges `X, Y, Z`. -/
def quadForm (X Y Z : ℝ) (n : Vec3 ℤ) : ℝ := X * (n.x : ℝ) ^ 2 + Y * (n.y : ℝ) ^ 2 + Z * (n.z : ℝ) ^ 2

theorem single_of_short {X Y Z : ℝ} (hX : 0 < X) (hXY : X ≤ Y) (hYZ : Y ≤ Z) {n : Vec3 ℤ} (hn : SmallVec n)
    (h0 : n ≠ 0) (h : quadForm X Y Z n ≤ Y) :
    n = ⟨1, 0, 0⟩ ∨ n = ⟨-1, 0, 0⟩ ∨ n = ⟨0, 1, 0⟩ ∨ n = ⟨0, -1, 0⟩ ∨ n = ⟨0, 0, 1⟩ ∨ n = ⟨0, 0, -1⟩ := by
  obtain ⟨p, q, r⟩ := n
  obtain ⟨hx, hy, hz⟩ := hn
  simp only [abs_le] at hx hy hz
  obtain ⟨hx1, hx2⟩ := hx
  obtain ⟨hy1, hy2⟩ := hy
  obtain ⟨hz1, hz2⟩ := hz
  unfold quadForm at h
  interval_cases p <;> interval_cases q <;> interval_cases r <;>
    first
    | exact absurd rfl h0
    | (simp; done)
    | (exfalso; norm_num at h; linarith)

theorem outside_x {X Y Z : ℝ} (hX : 0 < X) (hXY : X ≤ Y) (hYZ : Y ≤ Z) {n : Vec3 ℤ} (hn : SmallVec n)
    (h0 : n.x ≠ 0) (h : quadForm X Y Z n ≤ X) : n = ⟨1, 0, 0⟩ ∨ n = ⟨-1, 0, 0⟩ := by
  obtain ⟨p, q, r⟩ := n
  obtain ⟨hx, hy, hz⟩ := hn
  simp only [abs_le] at hx hy hz h0
  obtain ⟨hx1, hx2⟩ := hx
  obtain ⟨hy1, hy2⟩ := hy
  obtain ⟨hz1, hz2⟩ := hz
  unfold quadForm at h
  interval_cases p <;> interval_cases q <;> interval_cases r <;>
    first
    | exact absurd rfl h0
    | (simp; done)
    | (exfalso; norm_num at h; linarith)

theorem outside_y {X Y Z : ℝ} (hX : 0 < X) (hXY : X ≤ Y) (hYZ : Y ≤ Z) {n : Vec3 ℤ} (hn : SmallVec n)
    (h0 : n.y ≠ 0) (h : quadForm X Y Z n ≤ Y) : n = ⟨0, 1, 0⟩ ∨ n = ⟨0, -1, 0⟩ := by
  obtain ⟨p, q, r⟩ := n
  obtain ⟨hx, hy, hz⟩ := hn
  simp only [abs_le] at hx hy hz h0
  obtain ⟨hx1, hx2⟩ := hx
  obtain ⟨hy1, hy2⟩ := hy
  obtain ⟨hz1, hz2⟩ := hz
  unfold quadForm at h
  interval_cases p <;> interval_cases q <;> interval_cases r <;>
    first
    | exact absurd rfl h0
    | (simp; done)
    | (exfalso; norm_num at h; linarith)

theorem outside_z {X Y Z : ℝ} (hX : 0 < X) (hXY : X ≤ Y) (hYZ : Y ≤ Z) {n : Vec3 ℤ} (hn : SmallVec n)
    (h0 : n.z ≠ 0) (h : quadForm X Y Z n ≤ Z) : n = ⟨0, 0, 1⟩ ∨ n = ⟨0, 0, -1⟩ := by
  obtain ⟨p, q, r⟩ := n
  obtain ⟨hx, hy, hz⟩ := hn
  simp only [abs_le] at hx hy hz h0
  obtain ⟨hx1, hx2⟩ := hx
  obtain ⟨hy1, hy2⟩ := hy
  obtain ⟨hz1, hz2⟩ := hz
  unfold quadForm at h
  interval_cases p <;> interval_cases q <;> interval_cases r <;>
    first
    | exact absurd rfl h0
    | (simp; done)
    | (exfalso; norm_num at h; linarith)

/-- the shortest vectors of a cell with right angles are its edges. -/
theorem shortest_orthogonal {X Y Z : ℝ} (hX : 0 < X) (hXY : X ≤ Y) (hYZ : Y ≤ Z) {a b c : Vec3 ℤ} (ha : SmallVec a)
    (hb : SmallVec b) (hc : SmallVec c) (hdet : (Mat3.ofCols a b c).det ≠ 0)
    (h1 : ∀ n, SmallVec n → n ≠ 0 → quadForm X Y Z a ≤ quadForm X Y Z n)
    (h2 : ∀ n, SmallVec n → n ≠ 0 → a.cross n ≠ 0 → quadForm X Y Z b ≤ quadForm X Y Z n)
    (h3 : ∀ n, SmallVec n → n ≠ 0 → (Mat3.ofCols a b n).det ≠ 0 → quadForm X Y Z c ≤ quadForm X Y Z n) :
    (Mat3.ofCols a b c).transpose * Mat3.ofCols a b c = 1 ∧ quadForm X Y Z a = X ∧ quadForm X Y Z b = Y ∧
      quadForm X Y Z c = Z := by
  have s1 : SmallVec ⟨1, 0, 0⟩ := by unfold SmallVec; decide
  have s2 : SmallVec ⟨0, 1, 0⟩ := by unfold SmallVec; decide
  have s3 : SmallVec ⟨0, 0, 1⟩ := by unfold SmallVec; decide
  have n1 : (⟨1, 0, 0⟩ : Vec3 ℤ) ≠ 0 := by decide
  have n2 : (⟨0, 1, 0⟩ : Vec3 ℤ) ≠ 0 := by decide
  have n3 : (⟨0, 0, 1⟩ : Vec3 ℤ) ≠ 0 := by decide
  have f1 : quadForm X Y Z ⟨1, 0, 0⟩ = X := by simp [quadForm]
  have f2 : quadForm X Y Z ⟨0, 1, 0⟩ = Y := by simp [quadForm]
  have f3 : quadForm X Y Z ⟨0, 0, 1⟩ = Z := by simp [quadForm]
  have g1 : quadForm X Y Z ⟨-1, 0, 0⟩ = X := by simp [quadForm]
  have g2 : quadForm X Y Z ⟨0, -1, 0⟩ = Y := by simp [quadForm]
  have g3 : quadForm X Y Z ⟨0, 0, -1⟩ = Z := by simp [quadForm]
  have ha0 : a ≠ 0 := by
    rintro rfl
    apply hdet
    simp [Mat3.ofCols, Mat3.det]
  have hb0 : b ≠ 0 := by
    rintro rfl
    apply hdet
    simp [Mat3.ofCols, Mat3.det]
  have a1 := h1 _ s1 n1
  rw [f1] at a1
  have hbY : quadForm X Y Z b ≤ Y := by
    by_cases hc1 : a.cross ⟨1, 0, 0⟩ = 0
    · by_cases hc2 : a.cross ⟨0, 1, 0⟩ = 0
      · exfalso
        apply ha0
        simp only [Vec3.cross, Vec3.ext_iff, Vec3.zero_x, Vec3.zero_y, Vec3.zero_z] at hc1 hc2
        ext
        · simp only [Vec3.zero_x]; linarith [hc2.2.2]
        · simp only [Vec3.zero_y]; linarith [hc1.2.2]
        · simp only [Vec3.zero_z]; linarith [hc1.2.1]
      · have := h2 _ s2 n2 hc2
        rwa [f2] at this
    · have := h2 _ s1 n1 hc1
      rw [f1] at this
      linarith
  have hcx : (Mat3.ofCols a b ⟨1, 0, 0⟩).det ≠ 0 → quadForm X Y Z c ≤ X := fun h => by
    have := h3 _ s1 n1 h; rwa [f1] at this
  have hcy : (Mat3.ofCols a b ⟨0, 1, 0⟩).det ≠ 0 → quadForm X Y Z c ≤ Y := fun h => by
    have := h3 _ s2 n2 h; rwa [f2] at this
  have hcz : (Mat3.ofCols a b ⟨0, 0, 1⟩).det ≠ 0 → quadForm X Y Z c ≤ Z := fun h => by
    have := h3 _ s3 n3 h; rwa [f3] at this
  clear h1 h2 h3
  obtain ⟨p, q, r⟩ := c
  rcases single_of_short hX hXY hYZ ha ha0 (a1.trans hXY) with rfl | rfl | rfl | rfl | rfl | rfl <;>
    rcases single_of_short hX hXY hYZ hb hb0 hbY with rfl | rfl | rfl | rfl | rfl | rfl <;>
    (simp only [Mat3.ofCols, Mat3.det] at hdet hcx hcy hcz
     first
     | (exfalso; apply hdet; ring; done)
     | (have hk := outside_x hX hXY hYZ hc (by intro h0; simp only at h0; apply hdet; rw [h0]; ring) (hcx (by norm_num))
        rcases hk with hk | hk <;> obtain ⟨rfl, rfl, rfl⟩ := Vec3.mk.inj hk <;>
          refine ⟨by decide, ?_, ?_, ?_⟩ <;> simp only [f1, f2, f3, g1, g2, g3] at a1 hbY ⊢ <;> linarith)
     | (have hk := outside_y hX hXY hYZ hc (by intro h0; simp only at h0; apply hdet; rw [h0]; ring) (hcy (by norm_num))
        rcases hk with hk | hk <;> obtain ⟨rfl, rfl, rfl⟩ := Vec3.mk.inj hk <;>
          refine ⟨by decide, ?_, ?_, ?_⟩ <;> simp only [f1, f2, f3, g1, g2, g3] at a1 hbY ⊢ <;> linarith)
     | (have hk := outside_z hX hXY hYZ hc (by intro h0; simp only at h0; apply hdet; rw [h0]; ring) (hcz (by norm_num))
        rcases hk with hk | hk <;> obtain ⟨rfl, rfl, rfl⟩ := Vec3.mk.inj hk <;>
          refine ⟨by decide, ?_, ?_, ?_⟩ <;> simp only [f1, f2, f3, g1, g2, g3] at a1 hbY ⊢ <;> linarith))

/-! ## the lattice character of a cell with right angles -/

theorem custEq_self {x ε : ℝ} (h : 0 ≤ ε) : custEq x x ε = true := by
  unfold custEq
  simp [h]

theorem custEq_iff' {x y ε : ℝ} : custEq x y ε = true ↔ |x - y| ≤ ε := by
  unfold custEq
  simp only [Bool.not_eq_true', Bool.or_eq_false_iff, decide_eq_false_iff_not, not_lt, abs_le]
  constructor
  · rintro ⟨h1, h2⟩; constructor <;> linarith
  · rintro ⟨h1, h2⟩; constructor <;> linarith

/-- characters 3, 11, 21 and 32 are the primitive cubic, tetragonal and orthorhombic ones. -/
theorem characterOf_orthogonal {ε A B C : ℝ} (hε : 0 < ε) :
    characterOf (some ε) A B C 0 0 0 = .ret (if |A - B| ≤ ε ∧ |A - C| ≤ ε then 3 else if |A - B| ≤ ε then 11
      else if |B - C| ≤ ε then 21 else 32) := by
  have hz : custEq (0 : ℝ) 0 ε = true := custEq_self hε.le
  have hs : ∀ acc : Int8 × Int8, numNegativeZeroStep ε acc 0 = (acc.1, acc.2 + 1) := by
    intro acc
    unfold numNegativeZeroStep
    rw [if_neg (by linarith), if_pos hε]
  have ht : isTypeI (some ε) [(0 : ℝ), 0, 0] = false := by
    simp only [isTypeI, nnzE, numNegativeZero, List.foldl_cons, List.foldl_nil, hs]
    decide
  unfold characterOf
  simp only [ht, eqE, getFirstSet, getSecondSet, getThirdSet, getFourthSet, Bool.false_eq_true, if_false,
    Bool.and_eq_true, custEq_iff', defMatches, List.cons_append, List.find?_cons, sub_self, abs_zero, hε.le,
    hz, and_self, Bool.and_self]
  by_cases h1 : |A - B| ≤ ε
  · by_cases h2 : |A - C| ≤ ε
    · simp [h1, h2, hz, List.find?_cons]
    · simp [h1, h2, hz, List.find?_cons]
  · by_cases h3 : |B - C| ≤ ε
    · simp [h1, h3, hz, List.find?_cons]
    · simp [h1, h3, hz, List.find?_cons]

/-! ## integer matrices with orthonormal columns -/

/-- signed permutation matrices. -/
def OrthoInt (m : Mat3 ℤ) : Prop := m.transpose * m = 1

theorem OrthoInt.mul {a b : Mat3 ℤ} (ha : OrthoInt a) (hb : OrthoInt b) : OrthoInt (a * b) := by
  unfold OrthoInt at *
  have : (a * b).transpose = b.transpose * a.transpose := by ext <;> simp [Mat3.transpose] <;> ring
  rw [this, mul_assoc, ← mul_assoc a.transpose, ha, one_mul, hb]

theorem OrthoInt.entries {m : Mat3 ℤ} (h : OrthoInt m) : FitsI8 m ∧ ∃ k ∈ m.toListCM, k = 0 ∨ k = 1 ∨ k = -1 := by
  unfold OrthoInt at h
  have e1 := congrArg Mat3.m11 h
  have e2 := congrArg Mat3.m22 h
  have e3 := congrArg Mat3.m33 h
  simp [Mat3.transpose] at e1 e2 e3
  have sq : ∀ a b c : ℤ, a * a + b * b + c * c = 1 → (-1 ≤ a ∧ a ≤ 1) ∧ (-1 ≤ b ∧ b ≤ 1) ∧ (-1 ≤ c ∧ c ≤ 1) := by
    intro a b c h
    refine ⟨⟨?_, ?_⟩, ⟨?_, ?_⟩, ⟨?_, ?_⟩⟩ <;> nlinarith [mul_self_nonneg a, mul_self_nonneg b, mul_self_nonneg c]
  obtain ⟨a1, a2, a3⟩ := sq _ _ _ e1
  obtain ⟨b1, b2, b3⟩ := sq _ _ _ e2
  obtain ⟨c1, c2, c3⟩ := sq _ _ _ e3
  refine ⟨?_, m.m11, by simp [Mat3.toListCM], by omega⟩
  intro k hk
  simp only [Mat3.toListCM, List.mem_cons, List.not_mem_nil, or_false] at hk
  omega

/-- the operations of the primitive cubic, tetragonal and orthorhombic holohedries. -/
theorem holo_ortho : ∀ b ∈ [BravaisType.cP, .tP, .oP], ∀ c ∈ holoCodes b, OrthoInt (intRot (dec8 c)) := by
  unfold OrthoInt
  decide +kernel

theorem holo_lengths : (holoCodes .cP).length = 48 ∧ (holoCodes .tP).length = 16 ∧ (holoCodes .oP).length = 8 := by
  decide +kernel

/-- the matrices of the characters 3, 11, 21 and 32 only rename the axes. -/
theorem ortho_tables {ch : ℕ} (hch : ch = 3 ∨ ch = 11 ∨ ch = 21 ∨ ch = 32) {m : Mat3 Int8} {P : Mat3 ℝ}
    {b : BravaisType} (hm : amapGet? latticeCharToConvTrans ch = some m)
    (hP : primitiveTransformationMatrix ch = .ret (P, b)) :
    ∃ Q : Mat3 ℤ, OrthoInt Q ∧ (castRot m : Mat3 ℝ).transpose * P = overK ℝ Q := by
  have hP1 : P = 1 := by
    have hc : ∀ b', amapGet? latticeCharToBravais ch = some b' → b'.centering? = some .P := by
      rcases hch with rfl | rfl | rfl | rfl <;> (intro b' hb'; obtain rfl := Option.some.inj hb'; rfl)
    unfold primitiveTransformationMatrix at hP
    cases hb : amapGet? latticeCharToBravais ch with
    | none => rw [hb] at hP; simp [Outcome.ofOption, Outcome.bind] at hP
    | some b' =>
      rw [hb] at hP
      simp only [Outcome.ofOption, Outcome.ret_bind, hc b' hb] at hP
      rw [show amapGet? centeringToPrimTrans Centering.P = some (⟨1, 0, 0, 0, 1, 0, 0, 0, 1⟩, 1) from rfl] at hP
      simp only [Outcome.ret_bind, Outcome.ret.injEq, Prod.mk.injEq] at hP
      rw [← hP.1]
      ext <;> simp [primMatrix, Mat3.map, Mat3.divS, lit]
  refine ⟨(intRot m).transpose, ?_, ?_⟩
  · unfold OrthoInt
    rcases hch with rfl | rfl | rfl | rfl <;> (obtain rfl := Option.some.inj hm; decide)
  · rw [hP1, mul_one, castRot_overK]
    rfl

theorem vec_zero_of_lenSq {v : Vec3 ℝ} (h : lenSq v = 0) : v = ⟨0, 0, 0⟩ := by
  unfold lenSq at h
  have e1 := mul_self_nonneg v.x
  have e2 := mul_self_nonneg v.y
  have e3 := mul_self_nonneg v.z
  ext
  · exact mul_self_eq_zero.1 (by nlinarith)
  · exact mul_self_eq_zero.1 (by nlinarith)
  · exact mul_self_eq_zero.1 (by nlinarith)

theorem unit_int {u : Vec3 ℤ} (h : u.x * u.x + u.y * u.y + u.z * u.z = 1) :
    u = ⟨1, 0, 0⟩ ∨ u = ⟨-1, 0, 0⟩ ∨ u = ⟨0, 1, 0⟩ ∨ u = ⟨0, -1, 0⟩ ∨ u = ⟨0, 0, 1⟩ ∨ u = ⟨0, 0, -1⟩ := by
  obtain ⟨p, q, r⟩ := u
  simp only at h
  have hp1 : -1 ≤ p := by nlinarith
  have hp2 : p ≤ 1 := by nlinarith
  have hq1 : -1 ≤ q := by nlinarith
  have hq2 : q ≤ 1 := by nlinarith
  have hr1 : -1 ≤ r := by nlinarith
  have hr2 : r ≤ 1 := by nlinarith
  interval_cases p <;> interval_cases q <;> interval_cases r <;>
    first
    | (exfalso; omega)
    | (simp; done)

theorem unit_prods {u v : Vec3 ℤ} (hu : u.x * u.x + u.y * u.y + u.z * u.z = 1)
    (hv : v.x * v.x + v.y * v.y + v.z * v.z = 1) (h : u.x * v.x + u.y * v.y + u.z * v.z = 0) :
    u.x * v.x = 0 ∧ u.y * v.y = 0 ∧ u.z * v.z = 0 := by
  rcases unit_int hu with rfl | rfl | rfl | rfl | rfl | rfl <;>
    rcases unit_int hv with rfl | rfl | rfl | rfl | rfl | rfl <;> simp at h ⊢

theorem OrthoInt.lenSq {m : Mat3 ℤ} (h : OrthoInt m) (v : Vec3 ℝ) : Spec.lenSq (overK ℝ m * v) = Spec.lenSq v := by
  have h' := Mat3.ext_iff.1 h
  simp [Mat3.transpose] at h'
  obtain ⟨a1, a2, a3, b1, b2, b3, c1, c2, c3⟩ := h'
  have r1 : (m.m11 : ℝ) * m.m11 + m.m21 * m.m21 + m.m31 * m.m31 = 1 := by exact_mod_cast a1
  have r2 : (m.m11 : ℝ) * m.m12 + m.m21 * m.m22 + m.m31 * m.m32 = 0 := by exact_mod_cast a2
  have r3 : (m.m11 : ℝ) * m.m13 + m.m21 * m.m23 + m.m31 * m.m33 = 0 := by exact_mod_cast a3
  have r4 : (m.m12 : ℝ) * m.m12 + m.m22 * m.m22 + m.m32 * m.m32 = 1 := by exact_mod_cast b2
  have r5 : (m.m12 : ℝ) * m.m13 + m.m22 * m.m23 + m.m32 * m.m33 = 0 := by exact_mod_cast b3
  have r6 : (m.m13 : ℝ) * m.m13 + m.m23 * m.m23 + m.m33 * m.m33 = 1 := by exact_mod_cast c3
  simp [Spec.lenSq, overK, Mat3.map]
  linear_combination (v.x * v.x) * r1 + 2 * (v.x * v.y) * r2 + 2 * (v.x * v.z) * r3 + (v.y * v.y) * r4
    + 2 * (v.y * v.z) * r5 + (v.z * v.z) * r6

theorem InBasis.ortho {u n W : Mat3 ℤ} (hu : OrthoInt u) (hun : u * n = 1) (hW : OrthoInt W) :
    OrthoInt (u * W * n) ∧ InBasis (overK ℝ n) W (u * W * n) := by
  have hnt : n = u.transpose := by
    have := congrArg (fun x : Mat3 ℤ => u.transpose * x) hun
    simp only [← mul_assoc, mul_one] at this
    rwa [show u.transpose * u = 1 from hu, one_mul] at this
  have hnu : n * u = 1 := by rw [hnt]; exact hu
  have hn : OrthoInt n := by
    have e : n.transpose = u := by rw [hnt]; rfl
    unfold OrthoInt
    rw [e, hun]
  refine ⟨(hu.mul hW).mul hn, ?_⟩
  unfold InBasis
  rw [← overK_mul, ← overK_mul, ← mul_assoc, ← mul_assoc, hnu, one_mul]

set_option maxHeartbeats 1000000 in
/-- the cells that occur for a primitive input whose cell has right angles. -/
theorem right_angles_cells_of (sa : SymmetryAnalyzer ℝ) (h : HashOrders ℝ) (hv : h.Valid) (s : Structure ℝ)
    (hsm : s.numSites < 65536) (hcons : s.species.length = s.fracCoords.length) (hno : NoTranslation s (sa.dtol * 2)) (x y z : ℝ) (hl : s.lattice = ⟨x, 0, 0, 0, y, 0, 0, 0, z⟩) (hxy : x ≤ y) (hyz : y ≤ z)
    (hd : 0 < sa.dtol) (hx24 : 24 * sa.dtol ≤ x) (hxya : sa.dtol < x * y) (hvol : sa.dtol < x * y * z)
    (hcut : 1 / 1000000 < x) :
    ∃ prim nig S, SvAbove s.lattice ∧ LongVectors s.lattice (24 * sa.dtol) ∧ s.volume = x * y * z ∧
      (∀ u v : Vec3 ℝ, IntVec u → IntVec v → (s.lattice * u).cross (s.lattice * v) ≠ 0 →
        sa.dtol < ((s.lattice * u).cross (s.lattice * v)).mag) ∧
      sa.reducer.findPrimitiveCell h.minEle s = .ret prim ∧ prim.lattice = s.lattice * overK ℝ S ∧ OrthoInt S ∧
      prim.volume = x * y * z ∧ lenSq prim.lattice.col0 = x ^ 2 ∧ lenSq prim.lattice.col1 = y ^ 2 ∧
      lenSq prim.lattice.col2 = z ^ 2 ∧ dotp prim.lattice.col0 prim.lattice.col1 = 0 ∧
      dotp prim.lattice.col0 prim.lattice.col2 = 0 ∧ dotp prim.lattice.col1 prim.lattice.col2 = 0 ∧
      sa.reducer.niggliReduce prim tol1em5 = .ret nig ∧ nig.lattice = prim.lattice ∧ nig.volume = x * y * z := by
  have hx : 0 < x := by linarith
  have hy : 0 < y := by linarith
  have hz : 0 < z := by linarith
  have hX : 0 < x ^ 2 := by positivity
  have hXY : x ^ 2 ≤ y ^ 2 := by nlinarith
  have hYZ : y ^ 2 ≤ z ^ 2 := by nlinarith
  have hsv : SvAbove s.lattice := by rw [hl]; exact svAbove_diag hcut (by linarith) (by linarith)
  have hlen : ∀ p q r : ℝ, lenSq (s.lattice * (⟨p, q, r⟩ : Vec3 ℝ)) = x ^ 2 * p ^ 2 + y ^ 2 * q ^ 2 + z ^ 2 * r ^ 2 := by
    intro p q r
    rw [hl]
    simp [lenSq]; ring
  have hquad : ∀ n : Vec3 ℤ, lenSq (s.lattice * castVec n) = quadForm (x ^ 2) (y ^ 2) (z ^ 2) n := fun n => hlen _ _ _
  have hsq : ∀ n : ℤ, n ≠ 0 → (1 : ℝ) ≤ (n : ℝ) ^ 2 := by
    intro n hn
    have : 1 ≤ n ^ 2 := by have := sq_nonneg n; have := pow_ne_zero 2 hn; omega
    exact_mod_cast this
  have hL : LongVectors s.lattice (24 * sa.dtol) := by
    rintro n ⟨i, j, k, rfl⟩ hne
    rw [hlen]
    have h24 : (24 * sa.dtol) ^ 2 ≤ x ^ 2 := by nlinarith
    have hi := sq_nonneg (i : ℝ)
    have hj := sq_nonneg (j : ℝ)
    have hk := sq_nonneg (k : ℝ)
    by_cases h1 : i = 0
    · by_cases h2 : j = 0
      · have h3 : k ≠ 0 := by
          rintro rfl
          apply hne
          rw [h1, h2]
          ext <;> simp
        nlinarith [hsq k h3]
      · nlinarith [hsq j h2, mul_nonneg (sq_nonneg z) hk, mul_nonneg hX.le hi]
    · nlinarith [hsq i h1, mul_nonneg (sq_nonneg z) hk, mul_nonneg (sq_nonneg y) hj]
  have hvol' : s.volume = x * y * z := by
    unfold Structure.volume; rw [hl]; simp [Mat3.det]; ring
  have hV : 0 < x * y * z := by positivity
  have harea : ∀ u v : Vec3 ℝ, IntVec u → IntVec v → (s.lattice * u).cross (s.lattice * v) ≠ 0 →
      sa.dtol < ((s.lattice * u).cross (s.lattice * v)).mag := by
    rintro u v ⟨i, j, k, rfl⟩ ⟨i', j', k', rfl⟩ hne
    rw [hl] at hne ⊢
    have e1 : ((⟨x, 0, 0, 0, y, 0, 0, 0, z⟩ : Mat3 ℝ) * (⟨i, j, k⟩ : Vec3 ℝ)).cross
        ((⟨x, 0, 0, 0, y, 0, 0, 0, z⟩ : Mat3 ℝ) * (⟨i', j', k'⟩ : Vec3 ℝ))
        = ⟨y * z * ((j * k' - k * j' : ℤ) : ℝ), x * z * ((k * i' - i * k' : ℤ) : ℝ),
          x * y * ((i * j' - j * i' : ℤ) : ℝ)⟩ := by
      ext <;> simp [Vec3.cross] <;> ring
    rw [e1] at hne ⊢
    have hmag : x * y ≤ (⟨y * z * ((j * k' - k * j' : ℤ) : ℝ), x * z * ((k * i' - i * k' : ℤ) : ℝ),
          x * y * ((i * j' - j * i' : ℤ) : ℝ)⟩ : Vec3 ℝ).mag := by
      rw [mag_eq]
      refine Real.le_sqrt_of_sq_le ?_
      set A := j * k' - k * j'
      set B := k * i' - i * k'
      set C := i * j' - j * i'
      have e2 : lenSq (⟨y * z * (A : ℝ), x * z * (B : ℝ), x * y * (C : ℝ)⟩ : Vec3 ℝ)
          = (y * z) ^ 2 * (A : ℝ) ^ 2 + (x * z) ^ 2 * (B : ℝ) ^ 2 + (x * y) ^ 2 * (C : ℝ) ^ 2 := by
        simp [lenSq]; ring
      rw [e2]
      have m1 : (x * y) ^ 2 ≤ (x * z) ^ 2 := by
        rw [mul_pow, mul_pow]; exact mul_le_mul_of_nonneg_left hYZ hX.le
      have m2 : (x * z) ^ 2 ≤ (y * z) ^ 2 := by
        rw [mul_pow, mul_pow]; exact mul_le_mul_of_nonneg_right hXY (sq_nonneg z)
      have m0 : 0 ≤ (x * y) ^ 2 := sq_nonneg _
      have hA := sq_nonneg (A : ℝ)
      have hB := sq_nonneg (B : ℝ)
      have hC := sq_nonneg (C : ℝ)
      by_cases h1 : A = 0
      · by_cases h2 : B = 0
        · have h3 : C ≠ 0 := by
            intro h3
            apply hne
            rw [h1, h2, h3]
            ext <;> simp
          nlinarith [hsq C h3, mul_nonneg (sq_nonneg (y * z)) hA, mul_nonneg (sq_nonneg (x * z)) hB]
        · nlinarith [hsq B h2, mul_nonneg (sq_nonneg (y * z)) hA, mul_nonneg m0 hC]
      · nlinarith [hsq A h1, mul_nonneg m0 hC, mul_nonneg (sq_nonneg (x * z)) hB]
    linarith
  have hcols : sa.reducer.dtol < s.a ∧ sa.reducer.dtol < s.b ∧ sa.reducer.dtol < s.c := by
    have hr : sa.reducer.dtol = sa.dtol := rfl
    unfold Structure.a Structure.b Structure.c
    rw [hr, hl]
    simp only [Mat3.col0, Mat3.col1, Mat3.col2]
    rw [mag_axis_x hx.le, mag_axis_y hy.le, mag_axis_z hz.le]
    exact ⟨by linarith, by linarith, by linarith⟩
  -- the primitive cell
  obtain ⟨prim, a, b, c, h1, sa1, sb1, sc1, hpl, hpv, -, -, hmin⟩ := C54_primitive_cell_vectors sa.reducer h.minEle
    hv.minEle s hsm hcons hsv hno hd hcols (by rw [hvol', abs_of_pos hV]; exact hvol) harea
  set S : Mat3 ℤ := Mat3.ofCols a b c with hS
  have hpl' : prim.lattice = s.lattice * overK ℝ S := by
    rw [hpl]
    ext <;> simp [Mat3.ofCols, hS, overK, castVec, Vec3.map, Mat3.map]
  have hdetn : ∀ n : Vec3 ℤ, (Mat3.ofCols (s.lattice * castVec a) (s.lattice * castVec b) (s.lattice * castVec n)).det
      = x * y * z * ((Mat3.ofCols a b n).det : ℤ) := by
    intro n
    rw [hl]
    simp [Mat3.ofCols, Mat3.det, castVec, Vec3.map]
    ring
  have hS0 : S.det ≠ 0 := by
    intro h0
    have := hdetn c
    rw [← hpl] at this
    unfold Structure.volume at hpv
    rw [this, ← hS, h0] at hpv
    simp at hpv
    exact absurd hd (not_lt.2 hpv.le)
  have hle : ∀ m n : Vec3 ℤ, (s.lattice * castVec m).mag ≤ (s.lattice * castVec n).mag →
      quadForm (x ^ 2) (y ^ 2) (z ^ 2) m ≤ quadForm (x ^ 2) (y ^ 2) (z ^ 2) n := by
    intro m n hmn
    rw [mag_eq, mag_eq, Real.sqrt_le_sqrt_iff (lenSq_nonneg _)] at hmn
    rwa [← hquad, ← hquad]
  obtain ⟨hSo, qa, qb, qc⟩ := shortest_orthogonal hX hXY hYZ sa1 sb1 sc1 hS0
    (fun n hn h0 => hle _ _ (hmin n hn h0).1)
    (fun n hn h0 hcr => hle _ _ ((hmin n hn h0).2.1 (by
      intro hz0
      apply hcr
      have := Vec3.ext_iff.1 hz0
      rw [hl] at this
      simp [Vec3.cross, castVec, Vec3.map] at this
      obtain ⟨t1, t2, t3⟩ := this
      have u1 : y * z * ((a.y * n.z - a.z * n.y : ℤ) : ℝ) = 0 := by push_cast; linarith
      have u2 : x * z * ((a.z * n.x - a.x * n.z : ℤ) : ℝ) = 0 := by push_cast; linarith
      have u3 : x * y * ((a.x * n.y - a.y * n.x : ℤ) : ℝ) = 0 := by push_cast; linarith
      have v1 := (mul_eq_zero.1 u1).resolve_left (by positivity)
      have v2 := (mul_eq_zero.1 u2).resolve_left (by positivity)
      have v3 := (mul_eq_zero.1 u3).resolve_left (by positivity)
      ext
      · simp only [Vec3.cross, Vec3.zero_x]; exact_mod_cast v1
      · simp only [Vec3.cross, Vec3.zero_y]; exact_mod_cast v2
      · simp only [Vec3.cross, Vec3.zero_z]; exact_mod_cast v3)))
    (fun n hn h0 hdn => hle _ _ ((hmin n hn h0).2.2 (by
      rw [hdetn]
      exact mul_ne_zero hV.ne' (by exact_mod_cast hdn))))
  have hSo' : OrthoInt S := hSo
  have hent := Mat3.ext_iff.1 hSo
  simp [Mat3.transpose, Mat3.ofCols] at hent
  obtain ⟨a1, a2, a3, b1, b2, b3, c1, c2, c3⟩ := hent
  have hvp : prim.volume = x * y * z := by
    have hdet : S.det = 1 ∨ S.det = -1 := by
      have := congrArg Mat3.det hSo
      rw [Mat3.det_mul, show (Mat3.ofCols a b c).transpose.det = (Mat3.ofCols a b c).det by
        simp [Mat3.transpose, Mat3.det]; ring] at this
      have h1 : S.det * S.det = 1 := by rw [hS, this]; simp [Mat3.det]
      exact mul_self_eq_one_iff.1 h1
    have hv1 : prim.volume = x * y * z * (S.det : ℤ) := by
      unfold Structure.volume
      rw [hpl, hdetn c]
    rcases hdet with h1 | h1
    · rw [hv1, h1]; simp
    · rw [hv1, h1] at hpv
      have : sa.reducer.dtol = sa.dtol := rfl
      rw [this] at hpv
      push_cast at hpv
      linarith
  have hdot : ∀ u v : Vec3 ℤ, u.x * u.x + u.y * u.y + u.z * u.z = 1 → v.x * v.x + v.y * v.y + v.z * v.z = 1 →
      u.x * v.x + u.y * v.y + u.z * v.z = 0 → dotp (s.lattice * castVec u) (s.lattice * castVec v) = 0 := by
    intro u v hu hv' huv
    obtain ⟨p1, p2, p3⟩ := unit_prods hu hv' huv
    have q1 : (u.x : ℝ) * v.x = 0 := by exact_mod_cast p1
    have q2 : (u.y : ℝ) * v.y = 0 := by exact_mod_cast p2
    have q3 : (u.z : ℝ) * v.z = 0 := by exact_mod_cast p3
    rw [hl]
    simp [dotp, castVec, Vec3.map]
    linear_combination x ^ 2 * q1 + y ^ 2 * q2 + z ^ 2 * q3
  have l0 : lenSq prim.lattice.col0 = x ^ 2 := by
    rw [hpl]; exact (hquad a).trans qa
  have l1 : lenSq prim.lattice.col1 = y ^ 2 := by
    rw [hpl]; exact (hquad b).trans qb
  have l2 : lenSq prim.lattice.col2 = z ^ 2 := by
    rw [hpl]; exact (hquad c).trans qc
  have d01 : dotp prim.lattice.col0 prim.lattice.col1 = 0 := by
    rw [hpl]; exact hdot a b a1 b2 a2
  have d02 : dotp prim.lattice.col0 prim.lattice.col2 = 0 := by
    rw [hpl]; exact hdot a c a1 c3 a3
  have d12 : dotp prim.lattice.col1 prim.lattice.col2 = 0 := by
    rw [hpl]; exact hdot b c b2 c3 b3
  set ε := eps tol1em5 (x * y * z) with hεd
  have hε : 0 < ε := by
    rw [hεd]
    unfold eps
    rw [tol1em5_real]
    have := Real.rpow_pos_of_pos hV ((1 : ℝ) / 3)
    positivity
  have hYp : 0 < y ^ 2 := by positivity
  -- the Niggli cell
  obtain ⟨nig, h2, hnl⟩ := C27_niggli_returns_on_reduced_partial sa.reducer prim tol1em5
    (by rw [hvp]; exact hV.le) (by rw [hvp, ← hεd]; exact hε.le)
    (by
      unfold NiggliCellWeak
      rw [hvp, ← hεd, l0, l1, l2, d01, d02, d12]
      constructor
      case signs => exact Or.inr ⟨by linarith, by linarith, by linarith⟩
      case sum_eq =>
        intro h
        rw [abs_of_pos (by linarith)] at h
        linarith
      all_goals try simp
      all_goals first | linarith | (intros; linarith))
    (Or.inr (by rw [hvp, ← hεd, d01, d02, d12]; simpa using hε))
  have hvn : nig.volume = x * y * z := by unfold Structure.volume; rw [hnl]; exact hvp
  exact ⟨prim, nig, S, hsv, hL, hvol', harea, h1, hpl', hSo', hvp, l0, l1, l2, d01, d02, d12, h2, hnl, hvn⟩

/-- the cells that occur for one atom in a cell with right angles. -/
theorem right_angles_cells (sa : SymmetryAnalyzer ℝ) (h : HashOrders ℝ) (hv : h.Valid) (s : Structure ℝ) (e : String)
    (hs : OneSite s e) (x y z : ℝ) (hl : s.lattice = ⟨x, 0, 0, 0, y, 0, 0, 0, z⟩) (hxy : x ≤ y) (hyz : y ≤ z)
    (hd : 0 < sa.dtol) (hx24 : 24 * sa.dtol ≤ x) (hxya : sa.dtol < x * y) (hvol : sa.dtol < x * y * z)
    (hcut : 1 / 1000000 < x) :
    ∃ prim nig S, SvAbove s.lattice ∧ LongVectors s.lattice (24 * sa.dtol) ∧ s.volume = x * y * z ∧
      (∀ u v : Vec3 ℝ, IntVec u → IntVec v → (s.lattice * u).cross (s.lattice * v) ≠ 0 →
        sa.dtol < ((s.lattice * u).cross (s.lattice * v)).mag) ∧
      sa.reducer.findPrimitiveCell h.minEle s = .ret prim ∧ prim.lattice = s.lattice * overK ℝ S ∧ OrthoInt S ∧
      prim.volume = x * y * z ∧ lenSq prim.lattice.col0 = x ^ 2 ∧ lenSq prim.lattice.col1 = y ^ 2 ∧
      lenSq prim.lattice.col2 = z ^ 2 ∧ dotp prim.lattice.col0 prim.lattice.col1 = 0 ∧
      dotp prim.lattice.col0 prim.lattice.col2 = 0 ∧ dotp prim.lattice.col1 prim.lattice.col2 = 0 ∧
      sa.reducer.niggliReduce prim tol1em5 = .ret nig ∧ nig.lattice = prim.lattice ∧ nig.volume = x * y * z :=
  right_angles_cells_of sa h hv s (by unfold Structure.numSites; rw [hs.1]; simp) (by rw [hs.1, hs.2]; rfl)
    (noTranslation_of_once _ ⟨e, by rw [hs.1]; simp⟩) x y z hl hxy hyz hd hx24 hxya hvol hcut

set_option maxHeartbeats 1000000 in
/-- **C56 (right angles).** One atom at the origin of a cell with right angles and edges `x ≤ y ≤ z` that are long
compared with the tolerance: `get_space_group_info` returns number 221 with 48 operations if all edges are equal within
the tolerance of the lattice character, number 123 with 16 operations if two neighbouring ones are, and number 47 with
8 operations otherwise.  The operations are signed permutations of the axes without translations. -/
theorem C56_right_angles (sa : SymmetryAnalyzer ℝ) (h : HashOrders ℝ) (hv : h.Valid) (s : Structure ℝ) (e : String)
    (hs : OneSite s e) (x y z : ℝ) (hl : s.lattice = ⟨x, 0, 0, 0, y, 0, 0, 0, z⟩) (hxy : x ≤ y) (hyz : y ≤ z)
    (hd : 0 < sa.dtol) (hx24 : 24 * sa.dtol ≤ x) (hxya : sa.dtol < x * y) (hvol : sa.dtol < x * y * z)
    (hcut : 1 / 1000000 < x) :
    ∃ N, ∀ fuel ≥ N, ∃ num sym ops, sa.getSpaceGroupInfo h fuel s = .ret (num, sym, ops) ∧
      amapGet? sgNumToSymbol num = some sym ∧
      (num, ops.length) = (if |x ^ 2 - y ^ 2| ≤ eps tol1em5 (x * y * z) ∧ |x ^ 2 - z ^ 2| ≤ eps tol1em5 (x * y * z)
        then (221, 48) else if |x ^ 2 - y ^ 2| ≤ eps tol1em5 (x * y * z) ∨ |y ^ 2 - z ^ 2| ≤ eps tol1em5 (x * y * z)
        then (123, 16) else (47, 8)) ∧
      ∀ o ∈ ops, IntVec o.translation ∧ OrthoInt (intRot o.rotation) := by
  have hx : 0 < x := by linarith
  have hy : 0 < y := by linarith
  have hz : 0 < z := by linarith
  have hV : 0 < x * y * z := by positivity
  obtain ⟨prim, nig, S, hsv, hL, hvol', harea, h1, hpl', hSo', hvp, l0, l1, l2, d01, d02, d12, h2, hnl, hvn⟩ :=
    right_angles_cells sa h hv s e hs x y z hl hxy hyz hd hx24 hxya hvol hcut
  set ε := eps tol1em5 (x * y * z) with hεd
  have hε : 0 < ε := by
    rw [hεd]
    unfold eps
    rw [tol1em5_real]
    have := Real.rpow_pos_of_pos hV ((1 : ℝ) / 3)
    positivity
  have h3 : getLatticeCharacter nig tol1em5 = .ret (if |x ^ 2 - y ^ 2| ≤ ε ∧ |x ^ 2 - z ^ 2| ≤ ε then 3
      else if |x ^ 2 - y ^ 2| ≤ ε then 11 else if |y ^ 2 - z ^ 2| ≤ ε then 21 else 32) := by
    rw [getLatticeCharacter_eq (by rw [hvn]; exact hV.le), hvn, hnl, l0, l1, l2, d01, d02, d12]
    exact characterOf_orthogonal hε
  have hsp : SvAbove prim.lattice := by
    intro v hv0
    rw [hpl', Mat3.mul_mulVec, ← hSo'.lenSq v]
    apply hsv
    intro h0
    apply hv0
    have := hSo'.lenSq v
    rw [h0] at this
    have hz0 : lenSq v = 0 := by rw [← this]; simp [lenSq]
    exact vec_zero_of_lenSq hz0
  have main : ∀ ch b, getLatticeCharacter nig tol1em5 = .ret ch → (ch = 3 ∨ ch = 11 ∨ ch = 21 ∨ ch = 32) →
      amapGet? latticeCharToBravais ch = some b → (b = .cP ∨ b = .tP ∨ b = .oP) →
      ∃ N, ∀ fuel ≥ N, ∃ sym ops, sa.getSpaceGroupInfo h fuel s = .ret (latticeGroup b, sym, ops) ∧
        amapGet? sgNumToSymbol (latticeGroup b) = some sym ∧ ops.length = (holoCodes b).length ∧
        ∀ o ∈ ops, IntVec o.translation ∧ OrthoInt (intRot o.rotation) := by
    intro ch b' h3' hch h4 hb
    obtain ⟨p, n, sym, N, hn1, hpn, hsym, hstd, -, hfin⟩ := (C56_one_atom_partial sa h hv s e hs hsv hd hL
      (by rw [hvol', abs_of_pos hV]; exact hvol) harea prim nig ch b' h1 h2 h3' h4).2
      (by rintro rfl; simp at hb) (by rintro rfl; simp at hb) hsp (by rw [hnl]; exact hsp)
    obtain ⟨prim', nig', conv, ch', m, P, b'', k1, k2, k3, k4, k5, k6, -, k8⟩ := standardPrimitive_ret (hstd N le_rfl)
    rw [h1, Outcome.ret.injEq] at k1
    subst k1
    rw [h2, Outcome.ret.injEq] at k2
    subst k2
    rw [h3', Outcome.ret.injEq] at k8
    subst k8
    obtain ⟨Q, hQ, hQe⟩ := ortho_tables hch k3 k5
    have hpQ : p.lattice = s.lattice * overK ℝ (S * Q) := by
      rw [applyTransformation_lattice k6, applyTransformation_lattice k4, hnl, hpl', mul_assoc, mul_assoc, hQe,
        overK_mul]
    have hun : S * Q * n = 1 := by
      apply overK_injective (K := ℝ)
      rw [overK_mul, overK_one]
      apply mat_mul_injective (SvAbove.det_ne_zero hsv)
      rw [← mul_assoc, ← hpQ, hpn, mul_one]
    have hu : OrthoInt (S * Q) := hSo'.mul hQ
    have hWo : ∀ W ∈ (holoCodes b').map dec8, OrthoInt (intRot W) := by
      intro W hW
      obtain ⟨k, hk, rfl⟩ := List.mem_map.1 hW
      exact holo_ortho b' (by rcases hb with rfl | rfl | rfl <;> simp) k hk
    obtain ⟨N', hN'⟩ := hfin (by
      intro W hW
      obtain ⟨o1, o2⟩ := InBasis.ortho hu hun (hWo W hW)
      obtain ⟨f1, f2⟩ := o1.entries
      exact ⟨_, f1, o2, f2⟩)
    refine ⟨N', fun fuel hf => ?_⟩
    obtain ⟨ops, g1, g2, g3, -⟩ := hN' fuel hf
    refine ⟨sym, ops, g1, hsym, g2, fun o ho => ?_⟩
    obtain ⟨i1, W, hW, i2⟩ := g3 o ho
    refine ⟨i1, ?_⟩
    obtain ⟨o1, o2⟩ := InBasis.ortho hu hun (hWo W hW)
    have : intRot o.rotation = S * Q * intRot W * n := by
      apply overK_injective (K := ℝ)
      apply mat_mul_injective (L := overK ℝ n) (by
        rw [overK_det]; intro h0; rw [Int.cast_eq_zero.1 h0] at hn1; simp at hn1)
      exact (show overK ℝ (intRot W) * overK ℝ n = _ from i2).symm.trans o2
    rw [this]
    exact o1
  by_cases q1 : |x ^ 2 - y ^ 2| ≤ ε ∧ |x ^ 2 - z ^ 2| ≤ ε
  · rw [if_pos q1] at h3
    obtain ⟨N, hN⟩ := main 3 .cP h3 (by simp) rfl (by simp)
    refine ⟨N, fun fuel hf => ?_⟩
    obtain ⟨sym, ops, g1, g2, g3, g4⟩ := hN fuel hf
    exact ⟨_, sym, ops, g1, g2, by rw [if_pos q1, g3, holo_lengths.1]; rfl, g4⟩
  · rw [if_neg q1] at h3
    by_cases q2 : |x ^ 2 - y ^ 2| ≤ ε ∨ |y ^ 2 - z ^ 2| ≤ ε
    · have : ∃ ch, getLatticeCharacter nig tol1em5 = .ret ch ∧ (ch = 11 ∨ ch = 21) := by
        by_cases q3 : |x ^ 2 - y ^ 2| ≤ ε
        · rw [if_pos q3] at h3; exact ⟨_, h3, by simp⟩
        · rw [if_neg q3, if_pos (q2.resolve_left q3)] at h3; exact ⟨_, h3, by simp⟩
      obtain ⟨ch, h3', hch⟩ := this
      obtain ⟨N, hN⟩ := main ch .tP h3' (by omega) (by rcases hch with rfl | rfl <;> rfl) (by simp)
      refine ⟨N, fun fuel hf => ?_⟩
      obtain ⟨sym, ops, g1, g2, g3, g4⟩ := hN fuel hf
      exact ⟨_, sym, ops, g1, g2, by rw [if_neg q1, if_pos q2, g3, holo_lengths.2.1]; rfl, g4⟩
    · rw [if_neg (fun q => q2 (Or.inl q)), if_neg (fun q => q2 (Or.inr q))] at h3
      obtain ⟨N, hN⟩ := main 32 .oP h3 (by simp) rfl (by simp)
      refine ⟨N, fun fuel hf => ?_⟩
      obtain ⟨sym, ops, g1, g2, g3, g4⟩ := hN fuel hf
      exact ⟨_, sym, ops, g1, g2, by rw [if_neg q1, if_neg q2, g3, holo_lengths.2.2]; rfl, g4⟩

/-- `α`-polonium: one atom in a cube with edge 3.35; the group is number 221 with 48 operations. -/
example (h : HashOrders ℝ) (hv : h.Valid) (atol : ℝ) : ∃ N, ∀ fuel ≥ N, ∃ sym ops,
    (⟨1 / 20, atol⟩ : SymmetryAnalyzer ℝ).getSpaceGroupInfo h fuel
      (Structure.new ⟨67 / 20, 0, 0, 0, 67 / 20, 0, 0, 0, 67 / 20⟩ ["Po"] [0] false)
        = .ret (221, sym, ops) ∧ ops.length = 48 := by
  obtain ⟨N, hN⟩ := C56_right_angles ⟨1 / 20, atol⟩ h hv
    (Structure.new ⟨67 / 20, 0, 0, 0, 67 / 20, 0, 0, 0, 67 / 20⟩ ["Po"] [0] false) "Po" ⟨rfl, rfl⟩ (67 / 20) (67 / 20)
    (67 / 20) rfl le_rfl le_rfl (by norm_num) (by norm_num) (by norm_num) (by norm_num) (by norm_num)
  refine ⟨N, fun fuel hf => ?_⟩
  obtain ⟨num, sym, ops, g1, g2, g3, g4⟩ := hN fuel hf
  have he : (0 : ℝ) ≤ eps tol1em5 (67 / 20 * (67 / 20) * (67 / 20)) := by
    unfold eps
    rw [tol1em5_real]
    positivity
  rw [sub_self, abs_zero, if_pos ⟨he, he⟩, Prod.mk.injEq] at g3
  obtain ⟨rfl, hlen⟩ := g3
  exact ⟨sym, ops, g1, hlen⟩

end CrystSymm
