import Verif.Proofs.SymmOp

set_option autoImplicit false

/-! # C07–C10: symmetry operations -/

set_option linter.unusedSectionVars false

namespace CrystSymm

open Spec

section
variable {K : Type} [Field K] [LinearOrder K] [IsStrictOrderedRing K] [FloorRing K]

/-- per-axis tolerances in `(0, 1/2]`. -/
def TolOK (tols : Vec3 K) : Prop :=
  (0 < tols.x ∧ tols.x ≤ 1 / 2) ∧ (0 < tols.y ∧ tols.y ≤ 1 / 2) ∧ (0 < tols.z ∧ tols.z ≤ 1 / 2)

/-- the specification of "equal up to lattice translations and tolerance". -/
def ApproxSame (s t : SymmOp K) (tols : Vec3 K) : Prop :=
  s.rotation = t.rotation ∧ NearInt (s.translation.x - t.translation.x) tols.x ∧
  NearInt (s.translation.y - t.translation.y) tols.y ∧
  NearInt (s.translation.z - t.translation.z) tols.z

/-- **C07.** -/
theorem C07_is_approx_eq_iff (s t : SymmOp K) (tols : Vec3 K) (h : TolOK tols) :
    s.isApproxEq t tols = true ↔ ApproxSame s t tols := by
  unfold SymmOp.isApproxEq
  simp only [Bool.and_eq_true, decide_eq_true_eq, allWithin_normFracVec_iff h.1 h.2.1 h.2.2]
  rfl

/-- **C07 (reflexive).** -/
theorem C07_is_approx_eq_refl (s : SymmOp K) (tols : Vec3 K) (h : TolOK tols) :
    s.isApproxEq s tols = true := by
  rw [C07_is_approx_eq_iff _ _ _ h]
  refine ⟨rfl, ?_, ?_, ?_⟩ <;> rw [sub_self]
  exacts [nearInt_zero h.1.1, nearInt_zero h.2.1.1, nearInt_zero h.2.2.1]

/-- **C07 (symmetric).** -/
theorem C07_is_approx_eq_symm (s t : SymmOp K) (tols : Vec3 K) (h : TolOK tols) :
    s.isApproxEq t tols = t.isApproxEq s tols := by
  rw [Bool.eq_iff_iff, C07_is_approx_eq_iff _ _ _ h, C07_is_approx_eq_iff _ _ _ h]
  have key : ∀ a b : SymmOp K, ApproxSame a b tols → ApproxSame b a tols := by
    rintro a b ⟨r, x, y, z⟩
    exact ⟨r.symm, by simpa using nearInt_neg x, by simpa using nearInt_neg y,
      by simpa using nearInt_neg z⟩
  exact ⟨key _ _, key _ _⟩

/-- **C07 (lattice translations).** Only the translations modulo integers matter. -/
theorem C07_is_approx_eq_lattice (s s' t t' : SymmOp K) (tols : Vec3 K) (h : TolOK tols)
    (hs : s.rotation = s'.rotation ∧ SamePoint s.translation s'.translation)
    (ht : t.rotation = t'.rotation ∧ SamePoint t.translation t'.translation) :
    s.isApproxEq t tols = s'.isApproxEq t' tols := by
  rw [Bool.eq_iff_iff, C07_is_approx_eq_iff _ _ _ h, C07_is_approx_eq_iff _ _ _ h]
  have sub : ∀ {a b c d : K}, SameMod1 a b → SameMod1 c d → SameMod1 (a - c) (b - d) := by
    rintro a b c d ⟨m, hm⟩ ⟨n, hn⟩
    exact ⟨m - n, by push_cast; linarith⟩
  constructor
  · rintro ⟨r, x, y, z⟩
    exact ⟨by rw [← hs.1, ← ht.1, r], nearInt_of_sameMod1 (sub hs.2.1 ht.2.1) x,
      nearInt_of_sameMod1 (sub hs.2.2.1 ht.2.2.1) y, nearInt_of_sameMod1 (sub hs.2.2.2 ht.2.2.2) z⟩
  · rintro ⟨r, x, y, z⟩
    exact ⟨by rw [hs.1, ht.1, r], nearInt_of_sameMod1 (sub hs.2.1 ht.2.1).symm x,
      nearInt_of_sameMod1 (sub hs.2.2.1 ht.2.2.1).symm y,
      nearInt_of_sameMod1 (sub hs.2.2.2 ht.2.2.2).symm z⟩

/-- **C07 (not transitive).** -/
theorem C07_is_approx_eq_not_transitive : ∃ (s t u : SymmOp ℚ) (tols : Vec3 ℚ), TolOK tols ∧
    s.isApproxEq t tols = true ∧ t.isApproxEq u tols = true ∧ s.isApproxEq u tols = false :=
  ⟨⟨1, 0⟩, ⟨1, ⟨2 / 25, 0, 0⟩⟩, ⟨1, ⟨4 / 25, 0, 0⟩⟩, ⟨1 / 10, 1 / 10, 1 / 10⟩,
    by unfold TolOK; norm_num, by decide +kernel, by decide +kernel, by decide +kernel⟩

/-- tolerances meet the hypothesis; the test sees through a lattice translation. -/
example : TolOK (⟨1 / 10, 1 / 10, 1 / 10⟩ : Vec3 ℚ) ∧
    (⟨1, ⟨99 / 100, 1 / 2, 3⟩⟩ : SymmOp ℚ).isApproxEq ⟨1, ⟨0, -1 / 2, 0⟩⟩ ⟨1 / 10, 1 / 10, 1 / 10⟩ = true :=
  ⟨by unfold TolOK; norm_num, by decide +kernel⟩

/-! ### C08, C09 -/

theorem apply_eq_affine (s : SymmOp K) (x : Vec3 K) :
    s.apply x = affine (intRot s.rotation) s.translation x := by
  ext <;> simp [SymmOp.apply, affine, castRot, Mat3.map]

/-- **C08 is false of the code.** A four-fold rotation and a mirror: the product agrees with
neither order of composition, not even modulo lattice translations. -/
theorem C08_product_is_not_composition : ∃ (s t : SymmOp ℚ) (x : Vec3 ℚ),
    EntriesLe 1 s.rotation ∧ EntriesLe 1 t.rotation ∧
    ¬ SamePoint ((s * t).apply x) (s.apply (t.apply x)) ∧
    ¬ SamePoint ((s * t).apply x) (t.apply (s.apply x)) := by
  refine ⟨⟨⟨0, -1, 0, 1, 0, 0, 0, 0, 1⟩, ⟨1 / 3, 0, 0⟩⟩, ⟨⟨-1, 0, 0, 0, 1, 0, 0, 0, 1⟩, 0⟩,
    ⟨1 / 5, 0, 0⟩, by decide, by decide, ?_, ?_⟩
  · rintro ⟨⟨n, hn⟩, -⟩
    have h : ((⟨⟨0, -1, 0, 1, 0, 0, 0, 0, 1⟩, ⟨1 / 3, 0, 0⟩⟩ * ⟨⟨-1, 0, 0, 0, 1, 0, 0, 0, 1⟩, 0⟩ :
        SymmOp ℚ).apply ⟨1 / 5, 0, 0⟩).x = -1 / 3 := by decide +kernel
    have h' : ((⟨⟨0, -1, 0, 1, 0, 0, 0, 0, 1⟩, ⟨1 / 3, 0, 0⟩⟩ : SymmOp ℚ).apply
        ((⟨⟨-1, 0, 0, 0, 1, 0, 0, 0, 1⟩, 0⟩ : SymmOp ℚ).apply ⟨1 / 5, 0, 0⟩)).x = 1 / 3 := by
      decide +kernel
    rw [h, h'] at hn
    have : (-2 : ℚ) = 3 * n := by linarith
    have : (-2 : ℤ) = 3 * n := by exact_mod_cast this
    omega
  · rintro ⟨-, ⟨n, hn⟩, -⟩
    have h : ((⟨⟨0, -1, 0, 1, 0, 0, 0, 0, 1⟩, ⟨1 / 3, 0, 0⟩⟩ * ⟨⟨-1, 0, 0, 0, 1, 0, 0, 0, 1⟩, 0⟩ :
        SymmOp ℚ).apply ⟨1 / 5, 0, 0⟩).y = -1 / 5 := by decide +kernel
    have h' : ((⟨⟨-1, 0, 0, 0, 1, 0, 0, 0, 1⟩, 0⟩ : SymmOp ℚ).apply
        ((⟨⟨0, -1, 0, 1, 0, 0, 0, 0, 1⟩, ⟨1 / 3, 0, 0⟩⟩ : SymmOp ℚ).apply ⟨1 / 5, 0, 0⟩)).y = 1 / 5 := by
      decide +kernel
    rw [h, h'] at hn
    have : (-2 : ℚ) = 5 * n := by linarith
    have : (-2 : ℤ) = 5 * n := by exact_mod_cast this
    omega

/-- the exact defect of the product. -/
theorem mul_apply_defect (s t : SymmOp K) (x : Vec3 K) (hs : EntriesLe 6 s.rotation)
    (ht : EntriesLe 6 t.rotation) :
    (s * t).apply x - t.apply (s.apply x)
      = (castRot (s.rotation * t.rotation) : Mat3 K) * x - (castRot (t.rotation * s.rotation) : Mat3 K) * x := by
  have h : (s * t).apply x = (castRot (s.rotation * t.rotation) : Mat3 K) * x
      + ((castRot t.rotation : Mat3 K) * s.translation + t.translation) := rfl
  have h' : t.apply (s.apply x) = (castRot t.rotation : Mat3 K)
      * ((castRot s.rotation : Mat3 K) * x + s.translation) + t.translation := rfl
  rw [h, h', castRot_mul ht hs, Mat3.mul_mulVec, Mat3.mulVec_add]
  abel

/-- **C08, what does hold.** The product acts as "first `s`, then `t`" exactly when the two rotations
commute. (Full statement: for all pairs.) -/
theorem C08_product_is_composition_partial (s t : SymmOp K) (hs : EntriesLe 6 s.rotation)
    (ht : EntriesLe 6 t.rotation) :
    (∀ x, (s * t).apply x = t.apply (s.apply x)) ↔ s.rotation * t.rotation = t.rotation * s.rotation := by
  constructor
  · intro h
    have key : ∀ x : Vec3 K, (castRot (s.rotation * t.rotation) : Mat3 K) * x
        = (castRot (t.rotation * s.rotation) : Mat3 K) * x := by
      intro x
      have := mul_apply_defect s t x hs ht
      rw [h x, sub_self] at this
      exact (sub_eq_zero.1 this.symm)
    apply castRot_injective (K := K)
    have k1 := key ⟨1, 0, 0⟩
    have k2 := key ⟨0, 1, 0⟩
    have k3 := key ⟨0, 0, 1⟩
    simp only [Vec3.ext_iff, Mat3.mulVec_x, Mat3.mulVec_y, Mat3.mulVec_z, mul_one, mul_zero, add_zero,
      zero_add] at k1 k2 k3
    ext
    exacts [k1.1, k2.1, k3.1, k1.2.1, k2.2.1, k3.2.1, k1.2.2, k2.2.2, k3.2.2]
  · intro h x
    have := mul_apply_defect s t x hs ht
    rw [h, sub_self] at this
    exact sub_eq_zero.1 this

/-- a non-trivial commuting pair with translations. -/
example : let s : SymmOp ℚ := ⟨⟨0, -1, 0, 1, 0, 0, 0, 0, 1⟩, ⟨1 / 2, 0, 1 / 4⟩⟩
    EntriesLe 6 s.rotation ∧ s.rotation * (s * s).rotation = (s * s).rotation * s.rotation ∧
    (s * s).apply ⟨1 / 5, 1 / 7, 0⟩ = s.apply (s.apply ⟨1 / 5, 1 / 7, 0⟩) := by decide +kernel

/-- **C09 is false of the code**: the product is not associative. -/
theorem C09_product_not_associative : ∃ s t u : SymmOp ℚ,
    EntriesLe 1 s.rotation ∧ EntriesLe 1 t.rotation ∧ EntriesLe 1 u.rotation ∧
    s * t * u ≠ s * (t * u) :=
  ⟨⟨1, ⟨1 / 2, 1 / 3, 0⟩⟩, ⟨⟨0, -1, 0, 1, 0, 0, 0, 0, 1⟩, 0⟩, ⟨⟨-1, 0, 0, 0, 1, 0, 0, 0, 1⟩, 0⟩,
    by decide, by decide, by decide, by decide +kernel⟩

/-- **C09, what does hold.** A triple associates exactly when the rotations of the last two commute on
the translation of the first. (Full statement: for all triples.) -/
theorem C09_product_associative_partial (s t u : SymmOp K) (ht : EntriesLe 6 t.rotation)
    (hu : EntriesLe 6 u.rotation) :
    s * t * u = s * (t * u) ↔
      (castRot (u.rotation * t.rotation) : Mat3 K) * s.translation
        = (castRot (t.rotation * u.rotation) : Mat3 K) * s.translation := by
  have e1 : s * t * u = ⟨s.rotation * t.rotation * u.rotation, (castRot u.rotation : Mat3 K) *
    ((castRot t.rotation : Mat3 K) * s.translation + t.translation) + u.translation⟩ := rfl
  have e2 : s * (t * u) = ⟨s.rotation * (t.rotation * u.rotation),
    (castRot (t.rotation * u.rotation) : Mat3 K) * s.translation
      + ((castRot u.rotation : Mat3 K) * t.translation + u.translation)⟩ := rfl
  rw [e1, e2, mat3Int8_mul_assoc, castRot_mul hu ht, Mat3.mul_mulVec, Mat3.mulVec_add]
  rw [SymmOp.mk.injEq]
  simp only [true_and]
  constructor
  · intro h
    have := congrArg (fun v => v - ((castRot u.rotation : Mat3 K) * t.translation + u.translation)) h
    simpa [add_assoc] using this
  · intro h
    rw [h, add_assoc]

/-- **C09 (identity).** `{1|0}` is a two-sided identity. -/
theorem C09_identity (s : SymmOp K) : (⟨1, 0⟩ : SymmOp K) * s = s ∧ s * (⟨1, 0⟩ : SymmOp K) = s := by
  constructor
  · have : (⟨1, 0⟩ : SymmOp K) * s
        = ⟨1 * s.rotation, (castRot s.rotation : Mat3 K) * (0 : Vec3 K) + s.translation⟩ := rfl
    rw [this, mat3Int8_one_mul, Mat3.mulVec_zero, zero_add]
  · have : s * (⟨1, 0⟩ : SymmOp K)
        = ⟨s.rotation * 1, (castRot (1 : Mat3 Int8) : Mat3 K) * s.translation + 0⟩ := rfl
    rw [this, mat3Int8_mul_one, castRot_one, Mat3.one_mulVec, add_zero]

/-- a triple of non-trivial operations that does associate. -/
example : let s : SymmOp ℚ := ⟨⟨0, -1, 0, 1, 0, 0, 0, 0, 1⟩, ⟨1 / 2, 0, 1 / 4⟩⟩
    s * s * s = s * (s * s) ∧ EntriesLe 6 s.rotation := by decide +kernel

/-! ### C10 -/

/-- **C10 (affine).** The action is the affine map `x ↦ R x + t`, so differences transform with the
rotation alone. -/
theorem C10_action_affine (s : SymmOp K) (x y : Vec3 K) :
    s.apply x = affine (intRot s.rotation) s.translation x ∧
    s.apply x - s.apply y = affine (intRot s.rotation) 0 (x - y) := by
  refine ⟨apply_eq_affine s x, ?_⟩
  ext <;> simp [SymmOp.apply, affine, castRot, Mat3.map] <;> ring

/-- **C10 (lattice).** Points equal modulo the lattice have images equal modulo the lattice. -/
theorem C10_action_lattice (s : SymmOp K) (x y : Vec3 K) (h : SamePoint x y) :
    SamePoint (s.apply x) (s.apply y) := by
  obtain ⟨⟨i, hi⟩, ⟨j, hj⟩, ⟨k, hk⟩⟩ := h
  rw [apply_eq_affine, apply_eq_affine]
  have hx : x.x = y.x + i := by linarith
  have hy : x.y = y.y + j := by linarith
  have hz : x.z = y.z + k := by linarith
  set R := intRot s.rotation
  refine ⟨⟨R.m11 * i + R.m12 * j + R.m13 * k, ?_⟩, ⟨R.m21 * i + R.m22 * j + R.m23 * k, ?_⟩,
    ⟨R.m31 * i + R.m32 * j + R.m33 * k, ?_⟩⟩ <;> simp only [affine, hx, hy, hz] <;> push_cast <;> ring

/-- **C10 (isometry).** If the rotation preserves the metric tensor, distances are preserved. -/
theorem C10_action_isometry (s : SymmOp K) (G : Mat3 K) (hG : PreservesMetric G (castRot s.rotation))
    (x y : Vec3 K) : quadForm G (s.apply x - s.apply y) = quadForm G (x - y) := by
  have e : s.apply x - s.apply y = (castRot s.rotation : Mat3 K) * (x - y) := by
    have h : ∀ z, s.apply z = (castRot s.rotation : Mat3 K) * z + s.translation := fun z => rfl
    rw [h, h, Mat3.mulVec_sub]; abel
  rw [e]
  generalize (castRot s.rotation : Mat3 K) = R at hG
  generalize x - y = v
  conv_rhs => rw [← hG]
  simp only [quadForm, Mat3.mulVec_x, Mat3.mulVec_y, Mat3.mulVec_z, Mat3.mul_m11, Mat3.mul_m12,
    Mat3.mul_m13, Mat3.mul_m21, Mat3.mul_m22, Mat3.mul_m23, Mat3.mul_m31, Mat3.mul_m32, Mat3.mul_m33,
    Mat3.transpose]
  ring

/-- a four-fold screw axis preserves the metric of a tetragonal cell; a point and its translate. -/
example : PreservesMetric (⟨4, 0, 0, 0, 4, 0, 0, 0, 9⟩ : Mat3 ℚ)
      (castRot ⟨0, -1, 0, 1, 0, 0, 0, 0, 1⟩) ∧ SamePoint (⟨1 / 2, 1 / 3, 0⟩ : Vec3 ℚ) ⟨-1 / 2, 4 / 3, 5⟩ :=
  ⟨by unfold PreservesMetric; decide +kernel, ⟨1, by norm_num⟩, ⟨-1, by norm_num⟩, ⟨-5, by norm_num⟩⟩

end

end CrystSymm
