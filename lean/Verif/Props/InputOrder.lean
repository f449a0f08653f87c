import Verif.Props.Structure
import Verif.Model.Lib

set_option autoImplicit false
set_option linter.unusedSectionVars false

/-! # C95: what the answer depends on -/

namespace CrystSymm

open Spec

/-- lists sorted by their names are determined by the entries of each name. -/
theorem eq_of_filters {β : Type} [DecidableEq String] {l l' : List (String × β)} (h : (l.map Prod.fst).Pairwise (· ≤ ·))
    (h' : (l'.map Prod.fst).Pairwise (· ≤ ·)) (hf : ∀ e, (l.filter fun p => p.1 = e) = l'.filter fun p => p.1 = e) : l = l' := by
  have mem : ∀ {l l' : List (String × β)}, (∀ e, (l.filter fun p => p.1 = e) = l'.filter fun p => p.1 = e) → ∀ p ∈ l, p ∈ l' := by
    intro l l' hf p hp
    have : p ∈ l.filter fun q => q.1 = p.1 := List.mem_filter.2 ⟨hp, by simp⟩
    rw [hf] at this
    exact (List.mem_filter.1 this).1
  induction l generalizing l' with
  | nil =>
    cases l' with
    | nil => rfl
    | cons y l' => exact absurd (mem (fun e => (hf e).symm) y (by simp)) (by simp)
  | cons x l ih =>
    cases l' with
    | nil => exact absurd (mem hf x (by simp)) (by simp)
    | cons y l' =>
      rw [List.map_cons, List.pairwise_cons] at h h'
      have hxy : x.1 = y.1 := by
        apply le_antisymm
        · rcases List.mem_cons.1 (mem (fun e => (hf e).symm) y (by simp)) with e | e
          · rw [e]
          · exact h.1 _ (List.mem_map_of_mem e)
        · rcases List.mem_cons.1 (mem hf x (by simp)) with e | e
          · rw [e]
          · exact h'.1 _ (List.mem_map_of_mem e)
      have hx := hf x.1
      rw [List.filter_cons_of_pos (by simp), List.filter_cons_of_pos (by simp [hxy]), List.cons.injEq] at hx
      rw [hx.1, ih h.2 h'.2]
      intro e
      have he := hf e
      by_cases c : x.1 = e
      · rw [List.filter_cons_of_pos (by simp [c]), List.filter_cons_of_pos (by simp [← hxy, c]), List.cons.injEq] at he
        exact he.2
      · rwa [List.filter_cons_of_neg (by simp [c]), List.filter_cons_of_neg (by simp [← hxy, c])] at he

section
variable {K : Type} [Add K] [Sub K] [Mul K] [Div K] [Neg K] [Zero K] [One K] [IntCast K]
  [LT K] [LE K] [DecidableLT K] [DecidableLE K] [BEq K] [FRound K] [FTrans K]

/-- the same lattice, and for each species the same fractional positions in the same order.  Nothing is said about the order in which
the species are listed, nor about the Cartesian coordinates. -/
def Spec.SameFractional (s s' : Structure K) : Prop :=
  s'.lattice = s.lattice ∧
    ∀ e, ((s'.species.zip s'.fracCoords).filter fun p => p.1 = e) = (s.species.zip s.fracCoords).filter fun p => p.1 = e

/-- the same with Cartesian positions. -/
def Spec.SameCartesian (s s' : Structure K) : Prop :=
  s'.lattice = s.lattice ∧
    ∀ e, ((s'.species.zip s'.coords).filter fun p => p.1 = e) = (s.species.zip s.coords).filter fun p => p.1 = e

theorem normalizeCoords_of_same {s s' : Structure K} (h : Spec.SameFractional s s') (d : K) :
    s'.normalizeCoords d = s.normalizeCoords d := by
  obtain ⟨-, c1, p1, f1⟩ := C12_normalize_coords_discrete s d
  obtain ⟨-, c2, p2, f2⟩ := C12_normalize_coords_discrete s' d
  refine consistent_ext c2 c1 h.1 ?_
  have e : ∀ t : Structure K, Consistent t → (sites t).map Prod.fst = t.species := by
    intro t ht
    unfold sites
    rw [List.map_fst_zip (le_of_eq ht.1)]
  apply eq_of_filters
  · rw [e _ c2]; exact p2
  · rw [e _ c1]; exact p1
  · intro e
    rw [f1, f2, h.1]
    unfold sites
    rw [h.2 e]

theorem findPrimitiveCell_of_same {s s' : Structure K} (h : Spec.SameFractional s s') (r : Reducer K)
    (ord : List (String × ℕ) → List (String × ℕ)) : r.findPrimitiveCell ord s' = r.findPrimitiveCell ord s := by
  unfold Reducer.findPrimitiveCell
  rw [normalizeCoords_of_same h, h.1]

theorem rebuild_of_same {s s' : Structure K} (h : Spec.SameCartesian s s') (r : Reducer K) (L : Mat3 K) :
    r.rebuild s' L = r.rebuild s L := by
  unfold Reducer.rebuild
  apply normalizeCoords_of_same
  refine ⟨rfl, fun e => ?_⟩
  have key : ∀ t : Structure K, (t.species.zip (Structure.getFracCoords L t.coords)).filter (fun p => p.1 = e) =
      ((t.species.zip t.coords).filter fun p => p.1 = e).map fun p => (p.1, ((FTrans.pinv L : Mat3 K) * p.2 : Vec3 K)) := by
    intro t
    unfold Structure.getFracCoords
    rw [List.zip_map_right, List.filter_map]
    rfl
  show (s'.species.zip (Structure.getFracCoords L s'.coords)).filter _ = (s.species.zip (Structure.getFracCoords L s.coords)).filter _
  rw [key, key, h.2 e]

/-- **C95.** In any arithmetic `find_primitive_cell`, the standard structures and `get_space_group_info` depend only on the lattice and,
for each species, on the list of its fractional positions: neither the order in which the species are listed nor the stored Cartesian
coordinates matter.  The results are literally the same. -/
theorem C95_fractional_positions (sa : SymmetryAnalyzer K) (h : HashOrders K) (fuel : ℕ) (s s' : Structure K)
    (hs : Spec.SameFractional s s') :
    (∀ (r : Reducer K) ord, r.findPrimitiveCell ord s' = r.findPrimitiveCell ord s) ∧ (∀ d, s'.normalizeCoords d = s.normalizeCoords d) ∧
    sa.getStandardConventionalStructure h fuel s' = sa.getStandardConventionalStructure h fuel s ∧
    sa.getStandardPrimitiveStructure h fuel s' = sa.getStandardPrimitiveStructure h fuel s ∧
    sa.getSpaceGroupInfo h fuel s' = sa.getSpaceGroupInfo h fuel s := by
  refine ⟨fun r ord => findPrimitiveCell_of_same hs r ord, fun d => normalizeCoords_of_same hs d, ?_, ?_, ?_⟩
  · unfold SymmetryAnalyzer.getStandardConventionalStructure
    rw [findPrimitiveCell_of_same hs]
  · unfold SymmetryAnalyzer.getStandardPrimitiveStructure
    rw [findPrimitiveCell_of_same hs]
  · have e : ∀ prim : Structure K, prim.getTransformationMatrix s' = prim.getTransformationMatrix s := by
      intro prim
      unfold Structure.getTransformationMatrix
      rw [hs.1]
    unfold SymmetryAnalyzer.getSpaceGroupInfo
    rw [findPrimitiveCell_of_same hs]
    simp only [e]

/-- **C95, reductions.** `niggli_reduce` and `delaunay_reduce` depend only on the lattice and, for each species, on the list of its
Cartesian positions; the stored fractional coordinates do not matter. -/
theorem C95_cartesian_positions (r : Reducer K) (s s' : Structure K) (hs : Spec.SameCartesian s s') :
    (∀ tol, r.niggliReduce s' tol = r.niggliReduce s tol) ∧ ∀ full, r.delaunayReduce s' full = r.delaunayReduce s full := by
  constructor
  · intro tol
    unfold Reducer.niggliReduce Structure.volume Structure.metricTensor
    rw [hs.1]
    simp only [rebuild_of_same hs]
  · intro full
    have e : s'.delaunayMatrix = s.delaunayMatrix := by
      unfold Structure.delaunayMatrix
      rw [hs.1]
    unfold Reducer.delaunayReduce
    rw [e]
    simp only [rebuild_of_same hs]

/-- the structure the Python functions make of pairs of a species and a position. -/
theorem input_pairs (L : Mat3 K) (z : List (String × Vec3 K)) (cart : Bool) :
    PyApi.generateInputStructure L.toListCM (z.map Prod.fst) (z.map fun p => p.2.toList) cart =
      .ret (Structure.new L (z.map Prod.fst) (z.map Prod.snd) cart) := by
  have h1 : mapOutcome (PyApi.coordOfList (K := K)) (z.map fun p => p.2.toList) = .ret (z.map Prod.snd) := by
    induction z with
    | nil => rfl
    | cons p z ih =>
      simp only [List.map_cons, mapOutcome]
      rw [ih]
      rfl
  unfold PyApi.generateInputStructure
  rw [h1]
  rfl

theorem zip_pairs {β γ : Type} (z : List (String × β)) (g : β → γ) :
    (z.map Prod.fst).zip ((z.map Prod.snd).map g) = z.map fun p => (p.1, g p.2) := by
  induction z with
  | nil => rfl
  | cons p z ih => simpa using ih

theorem new_pairs_frac (L : Mat3 K) (z z' : List (String × Vec3 K)) (hz : ∀ e, (z'.filter fun p => p.1 = e) = z.filter fun p => p.1 = e)
    (cart : Bool) : Spec.SameFractional (Structure.new L (z.map Prod.fst) (z.map Prod.snd) cart)
      (Structure.new L (z'.map Prod.fst) (z'.map Prod.snd) cart) := by
  have key : ∀ (g : Vec3 K → Vec3 K) (e : String), (((z'.map Prod.fst).zip ((z'.map Prod.snd).map g)).filter fun p => p.1 = e) =
      ((z.map Prod.fst).zip ((z.map Prod.snd).map g)).filter fun p => p.1 = e := by
    intro g e
    rw [zip_pairs, zip_pairs, List.filter_map, List.filter_map]
    exact congrArg _ (hz e)
  unfold Structure.new
  cases cart with
  | true => exact ⟨rfl, fun e => key _ e⟩
  | false =>
    refine ⟨rfl, fun e => ?_⟩
    have := key id e
    simp only [List.map_id] at this
    exact this

/-- **C95 for the Python functions.** The order in which atoms of different species are listed does not matter. -/
theorem C95_python (h : HashOrders K) (fuel : ℕ) (L : Mat3 K) (z z' : List (String × Vec3 K))
    (hz : ∀ e, (z'.filter fun p => p.1 = e) = z.filter fun p => p.1 = e) (cart : Bool) (dtol atol : K) :
    PyApi.getSpaceGroupInfo h fuel L.toListCM (z'.map Prod.fst) (z'.map fun p => p.2.toList) cart dtol atol =
      PyApi.getSpaceGroupInfo h fuel L.toListCM (z.map Prod.fst) (z.map fun p => p.2.toList) cart dtol atol ∧
    PyApi.findPrimitive h L.toListCM (z'.map Prod.fst) (z'.map fun p => p.2.toList) cart dtol atol =
      PyApi.findPrimitive h L.toListCM (z.map Prod.fst) (z.map fun p => p.2.toList) cart dtol atol ∧
    PyApi.getStandardConventionalStructure h fuel L.toListCM (z'.map Prod.fst) (z'.map fun p => p.2.toList) cart dtol atol =
      PyApi.getStandardConventionalStructure h fuel L.toListCM (z.map Prod.fst) (z.map fun p => p.2.toList) cart dtol atol ∧
    PyApi.getStandardPrimitiveStructure h fuel L.toListCM (z'.map Prod.fst) (z'.map fun p => p.2.toList) cart dtol atol =
      PyApi.getStandardPrimitiveStructure h fuel L.toListCM (z.map Prod.fst) (z.map fun p => p.2.toList) cart dtol atol := by
  obtain ⟨h1, -, h2, h3, h4⟩ := C95_fractional_positions ⟨dtol, atol⟩ h fuel _ _ (new_pairs_frac L z z' hz cart)
  unfold PyApi.getSpaceGroupInfo PyApi.findPrimitive PyApi.getStandardConventionalStructure PyApi.getStandardPrimitiveStructure
  rw [input_pairs, input_pairs]
  simp only [Outcome.bind, h1, h2, h3, h4]
  exact ⟨trivial, trivial, trivial, trivial⟩

/-- rock salt listed as `Na Na Cl Cl` and as `Na Cl Na Cl`, in any arithmetic. -/
example (h : HashOrders K) (fuel : ℕ) (L : Mat3 K) (a b c d : Vec3 K) (dtol atol : K) :
    PyApi.getSpaceGroupInfo h fuel L.toListCM ["Na", "Cl", "Na", "Cl"] [a.toList, c.toList, b.toList, d.toList] false dtol atol =
      PyApi.getSpaceGroupInfo h fuel L.toListCM ["Na", "Na", "Cl", "Cl"] [a.toList, b.toList, c.toList, d.toList] false dtol atol := by
  refine (C95_python h fuel L [("Na", a), ("Na", b), ("Cl", c), ("Cl", d)] [("Na", a), ("Cl", c), ("Na", b), ("Cl", d)] ?_ false dtol atol).1
  intro e
  by_cases h1 : "Na" = e
  · subst h1; simp
  · by_cases h2 : "Cl" = e <;> simp [h1, h2]

end

end CrystSymm
