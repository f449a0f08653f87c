import Verif.Proofs.RoundedStage

/-! # The order in which the sites are given -/

set_option autoImplicit false
set_option linter.unusedSectionVars false
set_option linter.unusedSimpArgs false

namespace CrystSymm

open Spec Reducer SymmetryAnalyzer

section
variable {K : Type} [Add K] [Sub K] [Mul K] [Div K] [Neg K] [Zero K] [One K] [IntCast K]
  [LT K] [LE K] [DecidableLT K] [DecidableLE K] [BEq K] [FRound K] [FTrans K]

/-- the structure with its sites sorted by species, each site with a label of type `α`. -/
def sortedBy {α : Type} (L : Mat3 K) (T : List (String × Vec3 K × α)) : Structure K :=
  ⟨L, (T.mergeSort (keyLe Prod.fst)).map Prod.fst, ((T.mergeSort (keyLe Prod.fst)).map fun t => (L * t.2.1 : Vec3 K)),
    (T.mergeSort (keyLe Prod.fst)).map fun t => t.2.1⟩

theorem sortedBy_order {α : Type} (L : Mat3 K) (T : List (String × Vec3 K × α)) :
    (sortedBy L T).species.Pairwise (· ≤ ·) := by
  unfold sortedBy
  rw [List.pairwise_map]
  exact mergeSort_key_sorted Prod.fst T

theorem normalize_sortedBy {α : Type} {s : Structure K} {T : List (String × Vec3 K × α)} (h1 : s.species = T.map Prod.fst)
    (h2 : s.fracCoords = T.map fun t => t.2.1) (d : K) :
    s.normalizeCoords d = (sortedBy s.lattice T).normalizeCoords d := by
  refine consistent_ext (normalizeCoords_consistent s d) (normalizeCoords_consistent _ d) rfl ?_
  rw [normalizeCoords_sites, normalizeCoords_sites]
  have e1 : s.species.zip (normedFrac s d) =
      T.map fun t => (t.1, normFracVec (Structure.fracTols s.lattice d) t.2.1) := by
    unfold normedFrac normalizeFracVectors
    rw [h1, h2, List.map_map, List.zip_map']
    rfl
  have e2 : (sortedBy s.lattice T).species.zip (normedFrac (sortedBy s.lattice T) d) =
      (T.mergeSort (keyLe Prod.fst)).map fun t => (t.1, normFracVec (Structure.fracTols s.lattice d) t.2.1) := by
    unfold normedFrac normalizeFracVectors sortedBy
    simp only []
    rw [List.map_map, List.zip_map']
    rfl
  have e3 := List.map_mergeSort (r := keyLe Prod.fst) (s := keyLe Prod.fst) (l := T)
    (f := fun t => (t.1, normFracVec (Structure.fracTols s.lattice d) t.2.1)) (fun _ _ _ _ => rfl)
  have e4 := mergeSort_key_of_sorted Prod.fst
    (l := (T.mergeSort (keyLe Prod.fst)).map fun t => (t.1, normFracVec (Structure.fracTols s.lattice d) t.2.1))
    (by rw [List.pairwise_map]; exact mergeSort_key_sorted Prod.fst T)
  rw [e1, e2, ← e3, e4]

theorem findPrimitive_sortedBy {α : Type} {s : Structure K} {T : List (String × Vec3 K × α)} (h1 : s.species = T.map Prod.fst)
    (h2 : s.fracCoords = T.map fun t => t.2.1) (rd : Reducer K) (ord : List (String × ℕ) → List (String × ℕ)) :
    rd.findPrimitiveCell ord s = rd.findPrimitiveCell ord (sortedBy s.lattice T) := by
  unfold findPrimitiveCell
  simp only []
  rw [normalize_sortedBy h1 h2]
  rfl

theorem info_sortedBy {α : Type} {s : Structure K} {T : List (String × Vec3 K × α)} (h1 : s.species = T.map Prod.fst)
    (h2 : s.fracCoords = T.map fun t => t.2.1) (sa : SymmetryAnalyzer K) (h : HashOrders K) (fuel : ℕ) :
    sa.getSpaceGroupInfo h fuel s = sa.getSpaceGroupInfo h fuel (sortedBy s.lattice T) ∧
    sa.getStandardConventionalStructure h fuel s = sa.getStandardConventionalStructure h fuel (sortedBy s.lattice T) ∧
    sa.getStandardPrimitiveStructure h fuel s = sa.getStandardPrimitiveStructure h fuel (sortedBy s.lattice T) := by
  unfold getSpaceGroupInfo getStandardConventionalStructure getStandardPrimitiveStructure
  rw [findPrimitive_sortedBy h1 h2]
  exact ⟨rfl, rfl, rfl⟩

end

theorem PosApart.perm {M : Mat3 ℝ} {d : ℝ} {l m : List (Vec3 ℝ)} (h : PosApart M d l) (hp : l.Perm m) : PosApart M d m := by
  unfold PosApart at *
  exact (hp.pairwise_iff (fun {_ _} h1 h2 => h1 h2.symm)).1 h

end CrystSymm
