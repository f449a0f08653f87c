import Verif.Proofs.Normalize

set_option autoImplicit false

/-! # C01, C02: `normalize_frac_vectors` -/

namespace CrystSymm

open Spec

section
variable {K : Type} [Field K] [LinearOrder K] [IsStrictOrderedRing K] [FloorRing K]

/-- **C01.** Every vector of the result lies in `[-tol, 1 - tol]` per axis and is the same point of the
crystal as the input vector at the same position; the number of vectors is unchanged. -/
theorem C01_normalize_range (vecs : List (Vec3 K)) (tols : Vec3 K)
    (hx : 0 ≤ tols.x ∧ tols.x ≤ 1) (hy : 0 ≤ tols.y ∧ tols.y ≤ 1) (hz : 0 ≤ tols.z ∧ tols.z ≤ 1) :
    (normalizeFracVectors vecs tols).length = vecs.length ∧
    List.Forall₂ (fun out inp : Vec3 K =>
      (-tols.x ≤ out.x ∧ out.x ≤ 1 - tols.x) ∧ (-tols.y ≤ out.y ∧ out.y ≤ 1 - tols.y) ∧
      (-tols.z ≤ out.z ∧ out.z ≤ 1 - tols.z) ∧ SamePoint out inp)
      (normalizeFracVectors vecs tols) vecs := by
  refine ⟨by simp [normalizeFracVectors], ?_⟩
  unfold normalizeFracVectors
  rw [List.forall₂_map_left_iff, List.forall₂_same]
  intro v _
  exact ⟨normComp_mem hx.1 hx.2 _, normComp_mem hy.1 hy.2 _, normComp_mem hz.1 hz.2 _,
    normComp_sameMod1 _ _, normComp_sameMod1 _ _, normComp_sameMod1 _ _⟩

/-- the hypotheses of C01 are met and the result is not trivial. -/
example : normalizeFracVectors [(⟨-5 / 4, 1, 147 / 100⟩ : Vec3 ℚ)] ⟨1 / 1000, 1 / 1000, 1 / 1000⟩
    = [⟨3 / 4, 0, 47 / 100⟩] := by decide +kernel

/-- **C02a.** Normalisation is idempotent. -/
theorem C02_normalize_idempotent (vecs : List (Vec3 K)) (tols : Vec3 K)
    (hx : 0 ≤ tols.x ∧ tols.x < 1) (hy : 0 ≤ tols.y ∧ tols.y < 1) (hz : 0 ≤ tols.z ∧ tols.z < 1) :
    normalizeFracVectors (normalizeFracVectors vecs tols) tols = normalizeFracVectors vecs tols := by
  unfold normalizeFracVectors
  rw [List.map_map]
  apply List.map_congr_left
  intro v _
  simp only [Function.comp, normFracVec, normComp_idem hx.1 hx.2, normComp_idem hy.1 hy.2,
    normComp_idem hz.1 hz.2]

/-- on one axis: equal normal forms, or the two faces `-tol` and `1 - tol`. -/
def SameNormal (tol a b : K) : Prop :=
  a = b ∨ (a = -tol ∧ b = 1 - tol) ∨ (a = 1 - tol ∧ b = -tol)

/-- **C02b.** The normal forms of two vectors that differ by a lattice translation agree, except on the
faces. -/
theorem C02_normalize_canonical (u v : Vec3 K) (tols : Vec3 K)
    (hx : 0 ≤ tols.x ∧ tols.x ≤ 1) (hy : 0 ≤ tols.y ∧ tols.y ≤ 1) (hz : 0 ≤ tols.z ∧ tols.z ≤ 1)
    (h : SamePoint u v) (nu nv : Vec3 K) (hu : normalizeFracVectors [u] tols = [nu])
    (hv : normalizeFracVectors [v] tols = [nv]) :
    SameNormal tols.x nu.x nv.x ∧ SameNormal tols.y nu.y nv.y ∧ SameNormal tols.z nu.z nv.z := by
  simp only [normalizeFracVectors, List.map_cons, List.map_nil, List.cons.injEq, and_true] at hu hv
  subst hu hv
  exact ⟨normComp_canonical hx.1 hx.2 h.1, normComp_canonical hy.1 hy.2 h.2.1,
    normComp_canonical hz.1 hz.2 h.2.2⟩

/-- the exceptional case of C02b occurs: the two faces. -/
example : normComp (1 / 10 : ℚ) (9 / 10) = 9 / 10 ∧ normComp (1 / 10 : ℚ) (-1 / 10) = -1 / 10 := by
  decide +kernel

/-- and the regular one. -/
example : SamePoint (⟨-5 / 4, 1, 0⟩ : Vec3 ℚ) ⟨3 / 4, 0, 7⟩ ∧
    normFracVec (⟨1 / 10, 1 / 10, 1 / 10⟩ : Vec3 ℚ) ⟨-5 / 4, 1, 0⟩
      = normFracVec ⟨1 / 10, 1 / 10, 1 / 10⟩ ⟨3 / 4, 0, 7⟩ :=
  ⟨⟨⟨-2, by norm_num⟩, ⟨1, by norm_num⟩, ⟨-7, by norm_num⟩⟩, by decide +kernel⟩

end

end CrystSymm
