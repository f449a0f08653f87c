import Verif.Proofs.Structure
import Verif.Proofs.Pinv
import Verif.Spec.Same
import Verif.Model.Reduce

set_option autoImplicit false

/-! # The common ending of the two reductions -/

set_option linter.unusedSectionVars false

namespace CrystSymm

open Spec

theorem intVec_mulVec {n : Mat3 ℤ} {v : Vec3 ℝ} (h : IntVec v) :
    IntVec ((n.map fun k : ℤ => (k : ℝ)) * v) := by
  obtain ⟨i, j, k, rfl⟩ := h
  refine ⟨n.m11 * i + n.m12 * j + n.m13 * k, n.m21 * i + n.m22 * j + n.m23 * k,
    n.m31 * i + n.m32 * j + n.m33 * k, ?_⟩
  ext <;> simp [Mat3.map]

theorem samePoint_iff_intVec {u v : Vec3 ℝ} : SamePoint u v ↔ IntVec (u - v) := by
  constructor
  · rintro ⟨⟨i, hi⟩, ⟨j, hj⟩, ⟨k, hk⟩⟩
    exact ⟨i, j, k, by ext <;> assumption⟩
  · rintro ⟨i, j, k, h⟩
    have := Vec3.ext_iff.1 h
    exact ⟨⟨i, this.1⟩, ⟨j, this.2.1⟩, ⟨k, this.2.2⟩⟩

theorem samePoint_mulVec {n : Mat3 ℤ} {u v : Vec3 ℝ} (h : SamePoint u v) :
    SamePoint ((n.map fun k : ℤ => (k : ℝ)) * u) ((n.map fun k : ℤ => (k : ℝ)) * v) := by
  rw [samePoint_iff_intVec, ← Mat3.mulVec_sub]
  exact intVec_mulVec (samePoint_iff_intVec.1 h)

theorem rebuild_lattice {K : Type} [Add K] [Sub K] [Mul K] [Div K] [Neg K] [Zero K] [One K] [IntCast K]
    [LT K] [LE K] [DecidableLT K] [DecidableLE K] [BEq K] [FRound K] [FTrans K]
    (r : Reducer K) (s : Structure K) (L : Mat3 K) : (r.rebuild s L).lattice = L := rfl

theorem rebuild_consistent {K : Type} [Add K] [Sub K] [Mul K] [Div K] [Neg K] [Zero K] [One K] [IntCast K]
    [LT K] [LE K] [DecidableLT K] [DecidableLE K] [BEq K] [FRound K] [FTrans K]
    (r : Reducer K) (s : Structure K) (L : Mat3 K) : Consistent (r.rebuild s L) :=
  normalizeCoords_consistent _ _

theorem rebuild_sorted {K : Type} [Add K] [Sub K] [Mul K] [Div K] [Neg K] [Zero K] [One K] [IntCast K]
    [LT K] [LE K] [DecidableLT K] [DecidableLE K] [BEq K] [FRound K] [FTrans K]
    (r : Reducer K) (s : Structure K) (L : Mat3 K) : (r.rebuild s L).species.Pairwise (· ≤ ·) :=
  normalizeCoords_species_sorted _ _

theorem forall₂_comp {α β γ : Type} {R : α → β → Prop} {S : β → γ → Prop} {T : α → γ → Prop}
    (h : ∀ a b c, R a b → S b c → T a c) {l : List α} {m : List β} {n : List γ}
    (h1 : List.Forall₂ R l m) (h2 : List.Forall₂ S m n) : List.Forall₂ T l n := by
  induction h1 generalizing n with
  | nil => cases h2; exact .nil
  | cons hab _ ih =>
    cases h2 with
    | cons hbc h2 => exact .cons (h _ _ _ hab hbc) (ih h2)

/-- rebuilding a structure in the basis `L U` keeps the crystal. -/
theorem rebuild_sameCrystal (r : Reducer ℝ) (s : Structure ℝ) (hs : Consistent s) (n : Mat3 ℤ)
    (h : SvAbove (s.lattice * n.map fun k : ℤ => (k : ℝ))) :
    SameCrystalVia (n.map fun k : ℤ => (k : ℝ)) s (r.rebuild s (s.lattice * n.map fun k : ℤ => (k : ℝ))) := by
  set U := n.map fun k : ℤ => (k : ℝ) with hU
  refine ⟨rfl, ?_⟩
  set s1 : Structure ℝ := Structure.new (s.lattice * U) s.species
    (Structure.getFracCoords (s.lattice * U) s.coords) false with hs1
  have hr : r.rebuild s (s.lattice * U) = s1.normalizeCoords r.dtol := rfl
  obtain ⟨m, hperm, hf⟩ := normalizeCoords_sameSites s1 r.dtol
  rw [← hr] at hf
  -- the sites of `s1` correspond to those of `s`
  have hdet : (s.lattice * U).det ≠ 0 := SvAbove.det_ne_zero h
  have hL : s.lattice.det ≠ 0 := by
    intro h0; rw [Mat3.det_mul, h0, zero_mul] at hdet; exact hdet rfl
  have hinv : ∀ v : Vec3 ℝ, U * ((FTrans.pinv (s.lattice * U) : Mat3 ℝ) * (s.lattice * v)) = v := by
    intro v
    have h1 := mul_pinv h
    have h2 : s.lattice * (U * ((FTrans.pinv (s.lattice * U) : Mat3 ℝ) * (s.lattice * v))) = s.lattice * v := by
      rw [← Mat3.mul_mulVec, ← Mat3.mul_mulVec, h1, Mat3.one_mulVec]
    have h3 := Mat3.adjDiv_mul hL
    calc U * ((FTrans.pinv (s.lattice * U) : Mat3 ℝ) * (s.lattice * v))
        = (s.lattice.adjDiv s.lattice.det * s.lattice)
            * (U * ((FTrans.pinv (s.lattice * U) : Mat3 ℝ) * (s.lattice * v))) := by rw [h3, Mat3.one_mulVec]
      _ = v := by rw [Mat3.mul_mulVec, h2, ← Mat3.mul_mulVec, h3, Mat3.one_mulVec]
  have hs1f : s1.fracCoords = s.fracCoords.map fun v : Vec3 ℝ =>
      (FTrans.pinv (s.lattice * U) : Mat3 ℝ) * (s.lattice * v) := by
    show Structure.getFracCoords (s.lattice * U) s.coords = _
    unfold Structure.getFracCoords
    rw [hs.2, List.map_map]
    rfl
  have hsites : List.Forall₂ (fun p q : String × Vec3 ℝ => p.1 = q.1 ∧ U * p.2 = q.2) (sites s1) (sites s) := by
    unfold sites
    rw [hs1f]
    show List.Forall₂ _ (s.species.zip _) _
    rw [List.zip_map_right, List.forall₂_map_left_iff, List.forall₂_same]
    intro p _
    exact ⟨rfl, hinv _⟩
  obtain ⟨m', h1, h2⟩ := List.perm_comp_forall₂ hperm hsites
  refine ⟨m', h2, ?_⟩
  refine forall₂_comp ?_ hf h1
  rintro a b c ⟨hab, hab'⟩ ⟨hbc, hbc'⟩
  refine ⟨hab.trans hbc, ?_⟩
  rw [← hbc']
  exact samePoint_mulVec hab'

end CrystSymm
