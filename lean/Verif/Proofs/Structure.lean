import Verif.Proofs.Normalize
import Verif.Proofs.LinAlg
import Verif.Proofs.Sort
import Verif.Spec.Crystal

set_option autoImplicit false

/-! # Lemmas on `normalize_coords` -/

set_option linter.unusedSectionVars false

namespace CrystSymm

open Spec

section AnyK
variable {K : Type} [Add K] [Sub K] [Mul K] [Div K] [Neg K] [Zero K] [One K]
  [LT K] [DecidableLT K] [FRound K] [FTrans K]

theorem zip_map_fst {α β : Type} (a : List α) (b : List β) (h : a.length ≤ b.length) :
    (a.zip b).map Prod.fst = a := by
  rw [List.map_fst_zip h]

/-- normalised fractional positions before sorting. -/
def normedFrac (s : Structure K) (posTol : K) : List (Vec3 K) :=
  normalizeFracVectors s.fracCoords (Structure.fracTols s.lattice posTol)

theorem normalizeCoords_sites (s : Structure K) (posTol : K) :
    sites (s.normalizeCoords posTol)
      = (s.species.zip (normedFrac s posTol)).mergeSort (keyLe Prod.fst) := by
  have h : ∀ l : List (String × Vec3 K × Vec3 K),
      (l.map fun t => t.1).zip (l.map fun t => t.2.2) = l.map fun t => (t.1, t.2.2) := by
    intro l; rw [List.zip_map', ]
  unfold sites
  simp only [Structure.normalizeCoords]
  rw [h]
  unfold Structure.sortBySpecies
  rw [List.map_mergeSort (s := keyLe Prod.fst)]
  · congr 1
    rw [show (fun t : String × Vec3 K × Vec3 K => (t.1, t.2.2)) = Prod.map id Prod.snd from rfl,
      List.map_zip_eq_zipWith]
    rw [show normalizeFracVectors s.fracCoords (Structure.fracTols s.lattice posTol)
      = normedFrac s posTol from rfl]
    generalize normedFrac s posTol = f
    simp only [Structure.getCartCoords]
    clear h
    generalize s.species = sp
    induction f generalizing sp with
    | nil => simp
    | cons v f ih =>
      cases sp with
      | nil => simp
      | cons a sp => simpa using ih sp
  · intro a _ b _
    rfl

theorem normalizeCoords_consistent (s : Structure K) (posTol : K) :
    Consistent (s.normalizeCoords posTol) := by
  refine ⟨by simp [Structure.normalizeCoords], ?_⟩
  simp only [Structure.normalizeCoords, List.map_map]
  apply List.map_congr_left
  intro t ht
  simp only [Structure.sortBySpecies, List.mem_mergeSort] at ht
  have := List.of_mem_zip ht
  have h2 := this.2
  simp only [Structure.getCartCoords] at h2
  rw [List.mem_iff_getElem] at h2
  obtain ⟨n, hn, h2⟩ := h2
  simp only [List.getElem_zip, List.getElem_map] at h2
  simp [← h2, Function.comp]

theorem normalizeCoords_lattice (s : Structure K) (posTol : K) :
    (s.normalizeCoords posTol).lattice = s.lattice := rfl

theorem sites_length {s : Structure K} (h : Consistent s) : (sites s).length = s.species.length := by
  simp [sites, h.1]

theorem species_eq_of_sites {s : Structure K} (h : s.species.length = s.fracCoords.length) :
    s.species = (sites s).map Prod.fst := by
  unfold sites; rw [List.map_fst_zip h.le]

theorem frac_eq_of_sites {s : Structure K} (h : s.species.length = s.fracCoords.length) :
    s.fracCoords = (sites s).map Prod.snd := by
  unfold sites; rw [List.map_snd_zip h.ge]

/-- a consistent structure is determined by its lattice and sites. -/
theorem consistent_ext {s t : Structure K} (hs : Consistent s) (ht : Consistent t)
    (hl : s.lattice = t.lattice) (h : sites s = sites t) : s = t := by
  have h1 : s.species = t.species := by
    rw [species_eq_of_sites hs.1, species_eq_of_sites ht.1, h]
  have h2 : s.fracCoords = t.fracCoords := by
    rw [frac_eq_of_sites hs.1, frac_eq_of_sites ht.1, h]
  exact Structure.ext hl h1 (by rw [hs.2, ht.2, hl, h2]) h2

theorem normalizeCoords_species_sorted (s : Structure K) (posTol : K) :
    (s.normalizeCoords posTol).species.Pairwise (· ≤ ·) := by
  rw [species_eq_of_sites (normalizeCoords_consistent s posTol).1, normalizeCoords_sites,
    List.pairwise_map]
  exact mergeSort_key_sorted Prod.fst _

end AnyK

section
variable {K : Type} [Field K] [LinearOrder K] [IsStrictOrderedRing K] [FloorRing K] [FTrans K]

omit [FTrans K] in
theorem samePoint_normFracVec (tols v : Vec3 K) : SamePoint (normFracVec tols v) v :=
  ⟨normComp_sameMod1 _ _, normComp_sameMod1 _ _, normComp_sameMod1 _ _⟩

theorem normFracVec_idem {tols : Vec3 K} (hx : 0 ≤ tols.x ∧ tols.x < 1) (hy : 0 ≤ tols.y ∧ tols.y < 1)
    (hz : 0 ≤ tols.z ∧ tols.z < 1) (v : Vec3 K) :
    normFracVec tols (normFracVec tols v) = normFracVec tols v := by
  simp only [normFracVec, normComp_idem hx.1 hx.2, normComp_idem hy.1 hy.2, normComp_idem hz.1 hz.2]

theorem Spec.SamePoint.refl (v : Vec3 K) : SamePoint v v :=
  ⟨⟨0, by simp⟩, ⟨0, by simp⟩, ⟨0, by simp⟩⟩

theorem Spec.SamePoint.symm {u v : Vec3 K} (h : SamePoint u v) : SamePoint v u :=
  ⟨h.1.symm, h.2.1.symm, h.2.2.symm⟩

theorem Spec.SamePoint.trans {u v w : Vec3 K} (h : SamePoint u v) (h' : SamePoint v w) : SamePoint u w :=
  ⟨h.1.trans h'.1, h.2.1.trans h'.2.1, h.2.2.trans h'.2.2⟩

theorem normalizeCoords_sameSites (s : Structure K) (posTol : K) :
    SameSites (sites (s.normalizeCoords posTol)) (sites s) := by
  rw [normalizeCoords_sites]
  have hperm := List.mergeSort_perm (s.species.zip (normedFrac s posTol)) (keyLe Prod.fst)
  have hf : List.Forall₂ (fun p q : String × Vec3 K => p.1 = q.1 ∧ SamePoint p.2 q.2)
      (s.species.zip (normedFrac s posTol)) (sites s) := by
    unfold sites normedFrac normalizeFracVectors
    rw [List.zip_map_right, List.forall₂_map_left_iff, List.forall₂_same]
    intro p _
    exact ⟨rfl, samePoint_normFracVec _ _⟩
  obtain ⟨m', h1, h2⟩ := List.perm_comp_forall₂ hperm hf
  exact ⟨m', h2, h1⟩

end

end CrystSymm
