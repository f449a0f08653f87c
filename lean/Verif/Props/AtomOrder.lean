import Verif.Proofs.AtomOrder
import Verif.Props.RepeatedCells

set_option autoImplicit false
set_option linter.unusedSectionVars false

/-! # C102: the primitive cell and the order of the atoms -/

namespace CrystSymm

open Spec Reducer SymmetryAnalyzer

/-- the lattice of the structure that is returned, if one is. -/
def latticeOf {K : Type} (o : Outcome (Structure K)) : Outcome (Mat3 K) := o.bind fun s => .ret s.lattice

/-- the two selections of `find_primitive_cell`, from the cartesian translations to the lattice. -/
noncomputable def selectLattice (d : ℝ) (L : Mat3 ℝ) (cart : List (Vec3 ℝ)) : Outcome (Mat3 ℝ) :=
  (getShortestTranslationVecs d cart).bind fun (s1, s2, s3) =>
  (getShortestTranslationVecs d (Structure.getCartCoords L (combinationVecs
    (Mat3.ofCols (FTrans.pinv L * s1) (FTrans.pinv L * s2) (FTrans.pinv L * s3))))).bind fun (f1, f2, f3) =>
  .ret (Mat3.ofCols f1 f2 f3)

section
variable {s s' : Structure ℝ} {N : ℕ} {hs : List (Vec3 ℤ)}

theorem centred_lattice (r : Reducer ℝ) (ord : List (String × ℕ) → List (String × ℕ)) (ho : ∀ l, (ord l).Perm l)
    (h : CentredCell s N hs r.dtol) : ∃ l, l.Perm hs ∧
      latticeOf (r.findPrimitiveCell ord s) = selectLattice r.dtol s.lattice ((unitsZ N ++ l).map fun v => s.lattice * gridPoint N v) := by
  set temp := s.normalizeCoords r.dtol with htemp
  set tols := Structure.fracTols s.lattice r.dtol with htols
  have hlat : temp.lattice = s.lattice := rfl
  have hperm : temp.species.Perm s.species := by
    have h1 := normalizeCoords_sites s r.dtol
    have h2 : temp.species = (sites temp).map Prod.fst :=
      species_eq_of_sites (normalizeCoords_consistent s r.dtol).1
    rw [h2, h1]
    refine ((List.mergeSort_perm _ _).map _).trans ?_
    rw [List.map_fst_zip]
    simp [normedFrac, normalizeFracVectors, h.consistent.1]
  have hne : temp.species ≠ [] := by
    intro h0
    rw [h0] at hperm
    exact h.sites hperm.nil_eq.symm
  obtain ⟨⟨minEle, inds, counts⟩, hmin⟩ := (C19_get_min_element_panics_iff temp ord ho).2 hne
  have hn' : temp.numSites < 65536 := by
    have := h.small
    unfold Structure.numSites at this ⊢; rw [hperm.length_eq]; exact this
  obtain ⟨⟨hmem, hleast⟩, hinds, -⟩ := C19_get_min_element temp ord ho hn' minEle inds counts hmin
  have hrare : Rarest s minEle := by
    refine ⟨hperm.mem_iff.1 hmem, fun e he => ?_⟩
    have := hleast e (hperm.mem_iff.2 he)
    rw [hperm.count_eq, hperm.count_eq] at this
    rcases this with h | h
    · exact h.le
    · exact h.1.le
  have hind : amapGet? inds minEle = some (temp.species.idxOf minEle) := by rw [hinds, if_pos hmem]
  set i := temp.species.idxOf minEle with hi
  have hilt : i < temp.species.length := List.idxOf_lt_length_of_mem hmem
  have hi' : temp.species[i]? = some minEle := by
    rw [List.getElem?_eq_getElem hilt, List.getElem_idxOf]
  have hilt' : i < temp.fracCoords.length := by
    rw [← (normalizeCoords_consistent s r.dtol).1]; exact hilt
  obtain ⟨l, hl, hfilter⟩ := centred_candidates h hrare hi' (List.getElem?_eq_getElem hilt')
  refine ⟨l, hl, ?_⟩
  have hcart : Structure.getCartCoords temp.lattice ((unitsZ N ++ l).map (gridPoint N)) =
      (unitsZ N ++ l).map fun v => s.lattice * gridPoint N v := by
    rw [hlat]
    unfold Structure.getCartCoords
    rw [List.map_map]
    rfl
  unfold latticeOf selectLattice findPrimitiveCell
  simp only
  rw [← htemp, ← htols, hmin]
  simp only [Outcome.bind, hind, Outcome.ofOption]
  rw [List.getElem?_eq_getElem hilt']
  simp only
  rw [hlat] at hcart
  simp only [hlat]
  rw [hfilter, hcart]
  generalize getShortestTranslationVecs r.dtol ((unitsZ N ++ l).map fun v => s.lattice * gridPoint N v) = g
  cases g with
  | ret t =>
    simp only
    generalize getShortestTranslationVecs r.dtol (Structure.getCartCoords s.lattice (combinationVecs
      (Mat3.ofCols (FTrans.pinv s.lattice * t.1) (FTrans.pinv s.lattice * t.2.1) (FTrans.pinv s.lattice * t.2.2)))) = g'
    cases g' <;> rfl
  | panic m => rfl
  | running => rfl

/-- lists with different lengths are sorted in one way only. -/
theorem sort_unique {L : Mat3 ℝ} {l m : List (Vec3 ℤ)} (hp : l.Perm m)
    (hd : l.Pairwise fun u v => (L * gridPoint N u).mag ≠ (L * gridPoint N v).mag) : gridSort L N l = gridSort L N m := by
  have hs : ∀ l : List (Vec3 ℤ), (gridSort L N l).Pairwise fun a b => (L * gridPoint N a).mag ≤ (L * gridPoint N b).mag := by
    intro l
    have := List.pairwise_mergeSort (le := fun u v : Vec3 ℤ => decide ((L * gridPoint N u).mag ≤ (L * gridPoint N v).mag))
      (by intro a b c; simp only [decide_eq_true_eq]; exact le_trans)
      (by intro a b; simp only [Bool.or_eq_true, decide_eq_true_eq]; exact le_total _ _) l
    exact this.imp fun h => by simpa using h
  refine List.Perm.eq_of_pairwise ?_ (hs l) (hs m) (((gridSort_perm l).trans hp).trans (gridSort_perm m).symm)
  intro a b ha hb h1 h2
  by_contra hne
  have ha' : a ∈ l := (gridSort_perm l).mem_iff.1 ha
  have hb' : b ∈ l := hp.mem_iff.2 ((gridSort_perm m).mem_iff.1 hb)
  have k1 : l.Pairwise fun u v => u ≠ v → (L * gridPoint N u).mag ≠ (L * gridPoint N v).mag :=
    List.Pairwise.imp (S := fun u v => u ≠ v → (L * gridPoint N u).mag ≠ (L * gridPoint N v).mag) (fun h _ => h) hd
  have k2 : l.Pairwise (flip fun u v => u ≠ v → (L * gridPoint N u).mag ≠ (L * gridPoint N v).mag) := hd.imp fun h _ => h.symm
  exact List.Pairwise.forall_of_forall_of_flip (fun _ _ h => absurd rfl h) k1 k2 ha' hb' hne (le_antisymm h1 h2)

/-- **C102.** If the shortest translations of a crystal have pairwise different lengths, the lattice of the primitive cell depends only on the
lattice and the translations: not on the order of the atoms, not on which atoms there are, and not on the hash order. -/
theorem C102_distinct_lengths (r : Reducer ℝ) (ord ord' : List (String × ℕ) → List (String × ℕ)) (ho : ∀ l, (ord l).Perm l)
    (ho' : ∀ l, (ord' l).Perm l) (h : CentredCell s N hs r.dtol) (h' : CentredCell s' N hs r.dtol) (hL : s'.lattice = s.lattice)
    (hlen : (unitsZ N ++ hs).Pairwise fun u v => (s.lattice * gridPoint N u).mag ≠ (s.lattice * gridPoint N v).mag) :
    latticeOf (r.findPrimitiveCell ord s) = latticeOf (r.findPrimitiveCell ord' s') := by
  obtain ⟨l, hl, e⟩ := centred_lattice r ord ho h
  obtain ⟨l', hl', e'⟩ := centred_lattice r ord' ho' h'
  rw [hL] at e'
  rw [e, e']
  have hp : (unitsZ N ++ hs).Perm (unitsZ N ++ l) := hl.symm.append_left _
  have hp' : (unitsZ N ++ hs).Perm (unitsZ N ++ l') := hl'.symm.append_left _
  have es : sortByMag ((unitsZ N ++ l).map fun v => s.lattice * gridPoint N v) = sortByMag ((unitsZ N ++ l').map fun v => s.lattice * gridPoint N v) := by
    rw [sortByMag_grid, sortByMag_grid, ← sort_unique hp hlen, ← sort_unique hp' hlen]
  have eg : getShortestTranslationVecs r.dtol ((unitsZ N ++ l).map fun v => s.lattice * gridPoint N v) =
      getShortestTranslationVecs r.dtol ((unitsZ N ++ l').map fun v => s.lattice * gridPoint N v) := by
    unfold getShortestTranslationVecs
    rw [es]
  unfold selectLattice
  rw [eg]

/-- listing the atoms in another order. -/
theorem centred_perm {d : ℝ} (h : CentredCell s N hs d) (hL : s'.lattice = s.lattice) (hp : (sites s').Perm (sites s)) (hc : Consistent s') :
    CentredCell s' N hs d := by
  have e1 : s'.species.Perm s.species := by
    rw [species_eq_of_sites hc.1, species_eq_of_sites h.consistent.1]
    exact hp.map _
  have ht : ∀ δ t, TranslationWithin s' δ t ↔ TranslationWithin s δ t := by
    intro δ t
    unfold TranslationWithin
    simp only [hp.mem_iff, hL]
  have hr : ∀ e, Rarest s' e ↔ Rarest s e := by
    intro e
    unfold Rarest
    simp only [e1.mem_iff, e1.count_eq]
  refine ⟨h.grid, hc, ?_, ?_, ?_, ?_, fun t => by rw [ht]; exact h.translations t, h.tol, ?_, by rw [hL]; exact h.flat, by rw [hL]; exact h.area,
    by rw [hL]; exact h.volume⟩
  · have := h.small
    unfold Structure.numSites at this ⊢
    rwa [e1.length_eq]
  · intro h0
    rw [h0] at e1
    exact h.sites e1.nil_eq.symm
  · unfold DistinctSites
    rw [hp.pairwise_iff (by intro x y h h1; exact h h1.symm)]
    exact h.distinct
  · intro x hx y hy h1 h2 h3
    rw [ht] at h3 ⊢
    exact h.exact x (hp.mem_iff.1 hx) y (hp.mem_iff.1 hy) h1 ((hr _).1 h2) h3
  · have ea : s'.a = s.a := by unfold Structure.a; rw [hL]
    have eb : s'.b = s.b := by unfold Structure.b; rw [hL]
    have ec : s'.c = s.c := by unfold Structure.c; rw [hL]
    rw [ea, eb, ec]
    exact h.cols

/-- **C102 (order of the atoms).** With pairwise different lengths, listing the atoms in another order gives the same lattice. -/
theorem C102_permuted (r : Reducer ℝ) (ord ord' : List (String × ℕ) → List (String × ℕ)) (ho : ∀ l, (ord l).Perm l)
    (ho' : ∀ l, (ord' l).Perm l) (h : CentredCell s N hs r.dtol) (hL : s'.lattice = s.lattice) (hp : (sites s').Perm (sites s))
    (hc : Consistent s')
    (hlen : (unitsZ N ++ hs).Pairwise fun u v => (s.lattice * gridPoint N u).mag ≠ (s.lattice * gridPoint N v).mag) :
    latticeOf (r.findPrimitiveCell ord s) = latticeOf (r.findPrimitiveCell ord' s') :=
  C102_distinct_lengths r ord ord' ho ho' h (centred_perm h hL hp hc) hL hlen

end

/-! ### four square prisms -/

theorem four_picks : ∀ p ∈ (unitsZ 2 ++ [(⟨1, 0, 0⟩ : Vec3 ℤ), ⟨0, 1, 0⟩, ⟨1, 1, 0⟩]).permutations',
    Before p ⟨1, 1, 0⟩ ⟨2, 0, 0⟩ → Before p ⟨1, 1, 0⟩ ⟨0, 2, 0⟩ → Before p ⟨1, 1, 0⟩ ⟨0, 0, 2⟩ →
    Before p ⟨1, 0, 0⟩ ⟨1, 1, 0⟩ → Before p ⟨0, 1, 0⟩ ⟨1, 1, 0⟩ →
    (Before p ⟨1, 0, 0⟩ ⟨0, 1, 0⟩ → goodPick 2 [⟨1, 0, 0⟩, ⟨0, 1, 0⟩, ⟨1, 1, 0⟩] p = true) ∧
    (Before p ⟨0, 1, 0⟩ ⟨1, 0, 0⟩ → pickDet 0 p = true) := by
  decide +kernel

/-- **C102 is false of the code if lengths agree:** four square prisms `a × a × c` side by side, with one atom each and `c` longer than the
diagonal. Listed in one order the primitive cell is found. With the second and third atom exchanged a cell without volume is
returned, and a space group is never reported, whatever the hash orders. -/
theorem C102_false_atom_order (h : HashOrders ℝ) (hv : h.Valid) (atol a c : ℝ) (ha : 1 ≤ a) (hac : 2 * a ^ 2 < c ^ 2) (h2 : 2 ≤ c) (hc : c ≤ 100)
    (ha' : a ≤ 50) :
    (∃ s', (⟨1 / 20, atol⟩ : SymmetryAnalyzer ℝ).reducer.findPrimitiveCell h.minEle
        (metalCell (box (2 * a) (2 * a) c) 2 [⟨1, 0, 0⟩, ⟨0, 1, 0⟩, ⟨1, 1, 0⟩]) = .ret s' ∧
      SpansTranslations (metalCell (box (2 * a) (2 * a) c) 2 [⟨1, 0, 0⟩, ⟨0, 1, 0⟩, ⟨1, 1, 0⟩]) s' ∧ s'.volume = a * a * c) ∧
    (∃ s', (⟨1 / 20, atol⟩ : SymmetryAnalyzer ℝ).reducer.findPrimitiveCell h.minEle
        (metalCell (box (2 * a) (2 * a) c) 2 [⟨0, 1, 0⟩, ⟨1, 0, 0⟩, ⟨1, 1, 0⟩]) = .ret s' ∧ s'.volume = 0) ∧
    ∀ fuel res, (⟨1 / 20, atol⟩ : SymmetryAnalyzer ℝ).getSpaceGroupInfo h fuel
      (metalCell (box (2 * a) (2 * a) c) 2 [⟨0, 1, 0⟩, ⟨1, 0, 0⟩, ⟨1, 1, 0⟩]) ≠ .ret res := by
  have a0 : 0 < a := by linarith
  have c0 : 0 < c := by linarith
  have len : ∀ hs : List (Vec3 ℤ), ∀ k : Vec3 ℤ, ((metalCell (box (2 * a) (2 * a) c) 2 hs).lattice * gridPoint 2 k).mag =
      √((a * k.x) ^ 2 + (a * k.y) ^ 2 + (c * (k.z / 2)) ^ 2) := by
    intro hs k
    have := box_reach (a := 2 * a) (b := 2 * a) (c := c) (N := 2) (hs := hs) ((k.x : ℝ) / 2) ((k.y : ℝ) / 2) ((k.z : ℝ) / 2)
    unfold reach at this
    have e : gridPoint 2 k = (⟨(k.x : ℝ) / 2, (k.y : ℝ) / 2, (k.z : ℝ) / 2⟩ : Vec3 ℝ) := by ext <;> simp [gridPoint]
    rw [e, this]
    congr 1
    ring
  have before : ∀ hs : List (Vec3 ℤ), (unitsZ 2 ++ hs).Nodup → ∀ u ∈ unitsZ 2 ++ hs, ∀ v ∈ unitsZ 2 ++ hs,
      (a * (u.x : ℝ)) ^ 2 + (a * u.y) ^ 2 + (c * (u.z / 2)) ^ 2 < (a * v.x) ^ 2 + (a * v.y) ^ 2 + (c * (v.z / 2)) ^ 2 →
      Before (gridSort (metalCell (box (2 * a) (2 * a) c) 2 hs).lattice 2 (unitsZ 2 ++ hs)) u v := by
    intro hs hnd u hu v hv' hlt
    refine before_of_lt hnd hu hv' ?_
    rw [len, len]
    exact Real.sqrt_lt_sqrt (by positivity) hlt
  have same : ∀ hs : List (Vec3 ℤ), (unitsZ 2 ++ hs).Nodup → ∀ u v, [u, v].Sublist (unitsZ 2 ++ hs) →
      (a * (u.x : ℝ)) ^ 2 + (a * u.y) ^ 2 + (c * (u.z / 2)) ^ 2 = (a * v.x) ^ 2 + (a * v.y) ^ 2 + (c * (v.z / 2)) ^ 2 →
      Before (gridSort (metalCell (box (2 * a) (2 * a) c) 2 hs).lattice 2 (unitsZ 2 ++ hs)) u v := by
    intro hs hnd u v hsub he
    rw [gridSort_before hnd hsub, len, len, he]
  have good := fun hs : List (Vec3 ℤ) => fun hg : GridVecs 2 hs => fun hl : hs.length < 65535 => fun hc' : CentringGroup 2 hs =>
    box_centred (a := 2 * a) (b := 2 * a) (c := c) (d := (⟨1 / 20, atol⟩ : SymmetryAnalyzer ℝ).reducer.dtol) hg hl hc'
      (by show (0 : ℝ) < 1 / 20 ∧ (1 : ℝ) / 20 ≤ 1 / 10; norm_num) ⟨by linarith, by linarith⟩ ⟨by linarith, by linarith⟩ ⟨h2, hc⟩
  have five : ∀ hs : List (Vec3 ℤ), (unitsZ 2 ++ hs).Nodup → hs.Perm [⟨1, 0, 0⟩, ⟨0, 1, 0⟩, ⟨1, 1, 0⟩] →
      let p := gridSort (metalCell (box (2 * a) (2 * a) c) 2 hs).lattice 2 (unitsZ 2 ++ hs)
      (Before p ⟨1, 0, 0⟩ ⟨0, 1, 0⟩ → goodPick 2 [⟨1, 0, 0⟩, ⟨0, 1, 0⟩, ⟨1, 1, 0⟩] p = true) ∧
      (Before p ⟨0, 1, 0⟩ ⟨1, 0, 0⟩ → pickDet 0 p = true) := by
    intro hs hnd hperm p
    have b := before hs hnd
    have m : ∀ v, v ∈ unitsZ 2 ++ [(⟨1, 0, 0⟩ : Vec3 ℤ), ⟨0, 1, 0⟩, ⟨1, 1, 0⟩] → v ∈ unitsZ 2 ++ hs := fun v hv' =>
      (hperm.append_left _).mem_iff.2 hv'
    refine four_picks p (sorted_mem hperm _) (b _ (m _ (by decide)) _ (m _ (by decide)) ?_) (b _ (m _ (by decide)) _ (m _ (by decide)) ?_)
      (b _ (m _ (by decide)) _ (m _ (by decide)) ?_) (b _ (m _ (by decide)) _ (m _ (by decide)) ?_) (b _ (m _ (by decide)) _ (m _ (by decide)) ?_)
      <;> push_cast <;> nlinarith
  have vol : ∀ hs : List (Vec3 ℤ), (metalCell (box (2 * a) (2 * a) c) 2 hs).volume = 4 * (a * a * c) := by
    intro hs
    simp [Structure.volume, metalCell, Structure.new, box, Mat3.det]; ring
  have bad : ∃ s', (⟨1 / 20, atol⟩ : SymmetryAnalyzer ℝ).reducer.findPrimitiveCell h.minEle
      (metalCell (box (2 * a) (2 * a) c) 2 [⟨0, 1, 0⟩, ⟨1, 0, 0⟩, ⟨1, 1, 0⟩]) = .ret s' ∧ s'.volume = 0 := by
    have hcell := good [⟨0, 1, 0⟩, ⟨1, 0, 0⟩, ⟨1, 1, 0⟩] (by unfold GridVecs; decide) (by simp) (by decide)
    obtain ⟨l, hl, hlist, -, k2⟩ := centred_outcome_list _ h.minEle hv.minEle hcell
    obtain rfl := metal_list hcell hl hlist
    obtain ⟨s', e, e'⟩ := k2 0 ((five _ (by decide) (by decide)).2 (same _ (by decide) _ _ (by decide) (by push_cast; ring)))
    exact ⟨s', e, by rw [e']; simp⟩
  refine ⟨?_, bad, fun fuel => ?_⟩
  · have hcell := good [⟨1, 0, 0⟩, ⟨0, 1, 0⟩, ⟨1, 1, 0⟩] (by unfold GridVecs; decide) (by simp) (by decide)
    obtain ⟨l, hl, hlist, k1, -⟩ := centred_outcome_list _ h.minEle hv.minEle hcell
    obtain rfl := metal_list hcell hl hlist
    obtain ⟨s', e, e1, e2⟩ := k1 ((five _ (by decide) (by decide)).1 (same _ (by decide) _ _ (by decide) (by push_cast; ring)))
    refine ⟨s', e, e1, ?_⟩
    rw [vol] at e2
    simp only [List.length_cons, List.length_nil] at e2
    push_cast at e2
    linarith
  · obtain ⟨s', e, e'⟩ := bad
    exact C79_no_answer _ h fuel _ s' e e'

/-- four cells of 3 x 3 x 5: the two lists differ only by their order. -/
example (h : HashOrders ℝ) (hv : h.Valid) (fuel : ℕ) :
    (sites (metalCell (box 6 6 5) 2 [⟨0, 1, 0⟩, ⟨1, 0, 0⟩, ⟨1, 1, 0⟩])).Perm (sites (metalCell (box 6 6 5) 2 [⟨1, 0, 0⟩, ⟨0, 1, 0⟩, ⟨1, 1, 0⟩])) ∧
    ∀ res, (⟨1 / 20, 5⟩ : SymmetryAnalyzer ℝ).getSpaceGroupInfo h fuel (metalCell (box (2 * 3) (2 * 3) 5) 2 [⟨0, 1, 0⟩, ⟨1, 0, 0⟩, ⟨1, 1, 0⟩]) ≠ .ret res := by
  refine ⟨?_, (C102_false_atom_order h hv 5 3 5 (by norm_num) (by norm_num) (by norm_num) (by norm_num) (by norm_num)).2.2 fuel⟩
  simp only [sites, metalCell, Structure.new, List.map_cons, List.map_nil, Bool.false_eq_true, if_false, List.zip_cons_cons, List.zip_nil_right]
  exact List.Perm.cons _ (List.Perm.swap _ _ _)

/-- a body-centred box of 4 x 5 x 6 has five different lengths: another order, or other atoms, give the same lattice. -/
example (r : Reducer ℝ) (hd : r.dtol = 1 / 20) (s : Structure ℝ) (hs : CentredCell s 2 [⟨1, 1, 1⟩] r.dtol) (hL : s.lattice = box 4 5 6) :
    latticeOf (r.findPrimitiveCell id s) = latticeOf (r.findPrimitiveCell List.reverse (metalCell (box 4 5 6) 2 [⟨1, 1, 1⟩])) := by
  have hcell := box_centred (a := 4) (b := 5) (c := 6) (hs := [⟨1, 1, 1⟩]) (d := r.dtol) (by unfold GridVecs; decide) (by simp)
    (by decide) (by rw [hd]; norm_num) (by norm_num) (by norm_num) (by norm_num)
  refine C102_distinct_lengths r id List.reverse (fun _ => List.Perm.refl _) List.reverse_perm hs hcell (by rw [hL]; rfl) ?_
  have key : ∀ k : Vec3 ℤ, (s.lattice * gridPoint 2 k).mag = √((2 * k.x) ^ 2 + (5 / 2 * k.y) ^ 2 + (3 * k.z) ^ 2) := by
    intro k
    rw [hL, mag_eq]
    congr 1
    simp [lenSq, box, gridPoint]
    ring
  have ne : ∀ u v : Vec3 ℤ, (2 * (u.x : ℝ)) ^ 2 + (5 / 2 * u.y) ^ 2 + (3 * u.z) ^ 2 ≠ (2 * (v.x : ℝ)) ^ 2 + (5 / 2 * v.y) ^ 2 + (3 * v.z) ^ 2 →
      (s.lattice * gridPoint 2 u).mag ≠ (s.lattice * gridPoint 2 v).mag := by
    intro u v h e
    rw [key, key] at e
    exact h ((Real.sqrt_inj (by positivity) (by positivity)).1 e)
  simp only [unitsZ, List.cons_append, List.nil_append, List.pairwise_cons, List.mem_cons, List.not_mem_nil, or_false, forall_eq_or_imp,
    forall_eq, false_implies, implies_true, List.Pairwise.nil, and_true]
  refine ⟨⟨?_, ?_, ?_⟩, ⟨?_, ?_⟩, ?_⟩ <;> refine ne _ _ ?_ <;> norm_num

end CrystSymm
