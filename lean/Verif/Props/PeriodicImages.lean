import Verif.Props.InputOrder

set_option autoImplicit false
set_option linter.unusedSectionVars false

/-! # C96: periodic images -/

namespace CrystSymm

open Spec

/-- for each species the same number of positions, in the same order and up to lattice vectors. -/
def Spec.SameImages (s s' : Structure ℝ) : Prop :=
  s'.lattice = s.lattice ∧ ∀ e, List.Forall₂ (fun p q : String × Vec3 ℝ => p.1 = q.1 ∧ SamePoint p.2 q.2)
    ((s'.species.zip s'.fracCoords).filter fun p => p.1 = e) ((s.species.zip s.fracCoords).filter fun p => p.1 = e)

/-- no position lies exactly the distance `d` below a face of the cell, measured along an axis. -/
def Spec.OffFaces (s : Structure ℝ) (d : ℝ) : Prop :=
  ∀ v ∈ s.fracCoords, ∀ k : ℤ, v.x * √(lenSq s.lattice.col0) ≠ k * √(lenSq s.lattice.col0) - d ∧
    v.y * √(lenSq s.lattice.col1) ≠ k * √(lenSq s.lattice.col1) - d ∧ v.z * √(lenSq s.lattice.col2) ≠ k * √(lenSq s.lattice.col2) - d

theorem normComp_images {m d x y : ℝ} (hd : 0 ≤ d) (hm : d < m) (h : SameMod1 x y) (ho : ∀ k : ℤ, y * m ≠ k * m - d) :
    normComp (d / m) x = normComp (d / m) y := by
  have m0 : 0 < m := lt_of_le_of_lt hd hm
  have hy : ∃ k : ℤ, normComp (d / m) y - y = k := by
    obtain ⟨k, hk⟩ := normComp_sameMod1 (d / m) y
    exact ⟨k, hk⟩
  obtain ⟨k, hk⟩ := hy
  rcases normComp_canonical (div_nonneg hd m0.le) ((div_le_one m0).2 hm.le) h with e | ⟨-, e⟩ | ⟨-, e⟩
  · exact e
  · exfalso
    rw [e] at hk
    refine ho (1 - k) ?_
    have : y = 1 - d / m - k := by linarith
    rw [this]
    push_cast
    field_simp
    try ring
  · exfalso
    rw [e] at hk
    refine ho (-k) ?_
    have : y = -(d / m) - k := by linarith
    rw [this]
    push_cast
    field_simp
    try ring

theorem normalizeCoords_of_images {s s' : Structure ℝ} (h : Spec.SameImages s s') {d : ℝ} (hd : 0 ≤ d)
    (h1 : d < √(lenSq s.lattice.col0)) (h2 : d < √(lenSq s.lattice.col1)) (h3 : d < √(lenSq s.lattice.col2))
    (ho : Spec.OffFaces s d) : s'.normalizeCoords d = s.normalizeCoords d := by
  obtain ⟨-, c1, p1, f1⟩ := C12_normalize_coords_discrete s d
  obtain ⟨-, c2, p2, f2⟩ := C12_normalize_coords_discrete s' d
  refine consistent_ext c2 c1 h.1 ?_
  have e : ∀ t : Structure ℝ, Consistent t → (sites t).map Prod.fst = t.species := by
    intro t ht
    unfold sites
    rw [List.map_fst_zip (le_of_eq ht.1)]
  apply eq_of_filters
  · rw [e _ c2]; exact p2
  · rw [e _ c1]; exact p1
  · intro e
    rw [f1, f2, h.1]
    have key : ∀ l' l : List (String × Vec3 ℝ), (∀ p ∈ l, p.2 ∈ s.fracCoords) →
        List.Forall₂ (fun p q : String × Vec3 ℝ => p.1 = q.1 ∧ SamePoint p.2 q.2) l' l →
        l'.map (fun p => (p.1, normFracVec (Structure.fracTols s.lattice d) p.2)) =
          l.map fun p => (p.1, normFracVec (Structure.fracTols s.lattice d) p.2) := by
      intro l' l hl hF
      induction hF with
      | nil => rfl
      | @cons p q l₁ l₂ hpq _ ih =>
        rw [List.map_cons, List.map_cons, ih fun r hr => hl r (by simp [hr]), hpq.1]
        have hq := ho q.2 (hl q (by simp))
        have hm : ∀ v : Vec3 ℝ, v.mag = √(lenSq v) := fun v => rfl
        have : normFracVec (Structure.fracTols s.lattice d) p.2 = normFracVec (Structure.fracTols s.lattice d) q.2 := by
          simp only [normFracVec, Structure.fracTols, hm]
          rw [normComp_images hd h1 hpq.2.1 fun k => (hq k).1, normComp_images hd h2 hpq.2.2.1 fun k => (hq k).2.1,
            normComp_images hd h3 hpq.2.2.2 fun k => (hq k).2.2]
        rw [this]
    refine key _ _ ?_ (h.2 e)
    intro p hp
    exact (List.of_mem_zip (List.mem_filter.1 hp).1).2

/-- **C96.** In exact arithmetic, moving atoms by lattice vectors, each by another one, changes no digit of what `normalize_coords`,
`find_primitive_cell`, the standard structures and `get_space_group_info` return, whatever the structure and the order of the species in
the list, as long as the distance tolerance is below the edges and no atom lies exactly that far below a face of the cell. -/
theorem C96_periodic_images (sa : SymmetryAnalyzer ℝ) (h : HashOrders ℝ) (fuel : ℕ) (s s' : Structure ℝ) (hs : Spec.SameImages s s')
    (hd : 0 ≤ sa.dtol) (h1 : sa.dtol < √(lenSq s.lattice.col0)) (h2 : sa.dtol < √(lenSq s.lattice.col1))
    (h3 : sa.dtol < √(lenSq s.lattice.col2)) (ho : Spec.OffFaces s sa.dtol) :
    s'.normalizeCoords sa.dtol = s.normalizeCoords sa.dtol ∧
    (∀ ord, sa.reducer.findPrimitiveCell ord s' = sa.reducer.findPrimitiveCell ord s) ∧
    sa.getStandardConventionalStructure h fuel s' = sa.getStandardConventionalStructure h fuel s ∧
    sa.getStandardPrimitiveStructure h fuel s' = sa.getStandardPrimitiveStructure h fuel s ∧
    sa.getSpaceGroupInfo h fuel s' = sa.getSpaceGroupInfo h fuel s := by
  have hn := normalizeCoords_of_images hs hd h1 h2 h3 ho
  have hp : ∀ ord, sa.reducer.findPrimitiveCell ord s' = sa.reducer.findPrimitiveCell ord s := by
    intro ord
    unfold Reducer.findPrimitiveCell
    rw [show sa.reducer.dtol = sa.dtol from rfl, hn, hs.1]
  refine ⟨hn, hp, ?_, ?_, ?_⟩
  · unfold SymmetryAnalyzer.getStandardConventionalStructure
    rw [hp]
  · unfold SymmetryAnalyzer.getStandardPrimitiveStructure
    rw [hp]
  · have e : ∀ prim : Structure ℝ, prim.getTransformationMatrix s' = prim.getTransformationMatrix s := by
      intro prim
      unfold Structure.getTransformationMatrix
      rw [hs.1]
    unfold SymmetryAnalyzer.getSpaceGroupInfo
    rw [hp]
    simp only [e]

/-- a position as the caller writes it: Cartesian or fractional. -/
noncomputable def Spec.written (L : Mat3 ℝ) (cart : Bool) (v : Vec3 ℝ) : Vec3 ℝ := if cart then L * v else v

theorem new_written (L : Mat3 ℝ) (hL : SvAbove L) (z : List (String × Vec3 ℝ)) (cart : Bool) :
    (Structure.new L (z.map Prod.fst) (z.map fun p => Spec.written L cart p.2) cart).fracCoords = z.map Prod.snd := by
  cases cart with
  | false => simp [Structure.new, Spec.written]
  | true =>
    have h := (C11_round_trip L hL (z.map Prod.snd)).1
    simp only [Structure.getCartCoords, List.map_map] at h
    simpa [Structure.new, Spec.written, Function.comp_def] using h

theorem zip_self (z : List (String × Vec3 ℝ)) : (z.map Prod.fst).zip (z.map Prod.snd) = z := by
  simpa using zip_pairs z id

/-- **C96 for the Python functions.** One caller writes the crystal as `z`, in Cartesian or fractional coordinates; another one as `z'`,
with other images of the atoms, the species interleaved differently, and again in either kind of coordinates. They get the same answers. -/
theorem C96_python (h : HashOrders ℝ) (fuel : ℕ) (L : Mat3 ℝ) (hL : SvAbove L) (z z' : List (String × Vec3 ℝ))
    (hz : ∀ e, List.Forall₂ (fun p q : String × Vec3 ℝ => p.1 = q.1 ∧ SamePoint p.2 q.2)
      (z'.filter fun p => p.1 = e) (z.filter fun p => p.1 = e))
    (cart cart' : Bool) (dtol atol : ℝ) (hd : 0 ≤ dtol) (h1 : dtol < √(lenSq L.col0)) (h2 : dtol < √(lenSq L.col1))
    (h3 : dtol < √(lenSq L.col2)) (ho : ∀ p ∈ z, ∀ k : ℤ, p.2.x * √(lenSq L.col0) ≠ k * √(lenSq L.col0) - dtol ∧
      p.2.y * √(lenSq L.col1) ≠ k * √(lenSq L.col1) - dtol ∧ p.2.z * √(lenSq L.col2) ≠ k * √(lenSq L.col2) - dtol) :
    PyApi.getSpaceGroupInfo h fuel L.toListCM (z'.map Prod.fst) (z'.map fun p => (Spec.written L cart' p.2).toList) cart' dtol atol =
      PyApi.getSpaceGroupInfo h fuel L.toListCM (z.map Prod.fst) (z.map fun p => (Spec.written L cart p.2).toList) cart dtol atol ∧
    PyApi.findPrimitive h L.toListCM (z'.map Prod.fst) (z'.map fun p => (Spec.written L cart' p.2).toList) cart' dtol atol =
      PyApi.findPrimitive h L.toListCM (z.map Prod.fst) (z.map fun p => (Spec.written L cart p.2).toList) cart dtol atol ∧
    PyApi.getStandardConventionalStructure h fuel L.toListCM (z'.map Prod.fst) (z'.map fun p => (Spec.written L cart' p.2).toList) cart' dtol atol =
      PyApi.getStandardConventionalStructure h fuel L.toListCM (z.map Prod.fst) (z.map fun p => (Spec.written L cart p.2).toList) cart dtol atol ∧
    PyApi.getStandardPrimitiveStructure h fuel L.toListCM (z'.map Prod.fst) (z'.map fun p => (Spec.written L cart' p.2).toList) cart' dtol atol =
      PyApi.getStandardPrimitiveStructure h fuel L.toListCM (z.map Prod.fst) (z.map fun p => (Spec.written L cart p.2).toList) cart dtol atol := by
  have inp : ∀ (z : List (String × Vec3 ℝ)) (c : Bool),
      PyApi.generateInputStructure L.toListCM (z.map Prod.fst) (z.map fun p => (Spec.written L c p.2).toList) c =
        .ret (Structure.new L (z.map Prod.fst) (z.map fun p => Spec.written L c p.2) c) := by
    intro z c
    have := input_pairs L (z.map fun p => (p.1, Spec.written L c p.2)) c
    simpa [Function.comp_def] using this
  have lat : ∀ (z : List (String × Vec3 ℝ)) (c : Bool),
      (Structure.new L (z.map Prod.fst) (z.map fun p => Spec.written L c p.2) c).lattice = L ∧
      (Structure.new L (z.map Prod.fst) (z.map fun p => Spec.written L c p.2) c).species = z.map Prod.fst :=
    fun z c => ⟨(C11_new_fields _ _ _ _).1, (C11_new_fields _ _ _ _).2.1⟩
  have hs : Spec.SameImages (Structure.new L (z.map Prod.fst) (z.map fun p => Spec.written L cart p.2) cart)
      (Structure.new L (z'.map Prod.fst) (z'.map fun p => Spec.written L cart' p.2) cart') := by
    refine ⟨by rw [(lat z' cart').1, (lat z cart).1], fun e => ?_⟩
    rw [new_written L hL, new_written L hL, (lat z' cart').2, (lat z cart).2, zip_self, zip_self]
    exact hz e
  obtain ⟨-, g1, g2, g3, g4⟩ := C96_periodic_images ⟨dtol, atol⟩ h fuel _ _ hs hd (by rw [(lat z cart).1]; exact h1)
    (by rw [(lat z cart).1]; exact h2) (by rw [(lat z cart).1]; exact h3) (by
      intro v hv
      rw [new_written L hL] at hv
      obtain ⟨p, hp, rfl⟩ := List.mem_map.1 hv
      rw [(lat z cart).1]
      exact ho p hp)
  have g1' : ∀ ord, (⟨dtol, atol⟩ : Reducer ℝ).findPrimitiveCell ord (Structure.new L (z'.map Prod.fst) (z'.map fun p => Spec.written L cart' p.2) cart') =
      (⟨dtol, atol⟩ : Reducer ℝ).findPrimitiveCell ord (Structure.new L (z.map Prod.fst) (z.map fun p => Spec.written L cart p.2) cart) := g1
  unfold PyApi.getSpaceGroupInfo PyApi.findPrimitive PyApi.getStandardConventionalStructure PyApi.getStandardPrimitiveStructure
  rw [inp, inp]
  simp only [Outcome.bind, g1', g2, g3, g4]
  exact ⟨trivial, trivial, trivial, trivial⟩

/-- **C96 on a face:** two images of an atom exactly the tolerance below a face keep different coordinates, in the cell with edges 4 and
at tolerance 1. -/
theorem C96_false_on_face : ∃ s s' : Structure ℝ, Spec.SameImages s s' ∧ Consistent s ∧ Consistent s' ∧
    s.lattice = ⟨4, 0, 0, 0, 4, 0, 0, 0, 4⟩ ∧ s'.normalizeCoords 1 ≠ s.normalizeCoords 1 := by
  refine ⟨⟨⟨4, 0, 0, 0, 4, 0, 0, 0, 4⟩, ["Po"], [⟨3, 0, 0⟩], [⟨3 / 4, 0, 0⟩]⟩,
    ⟨⟨4, 0, 0, 0, 4, 0, 0, 0, 4⟩, ["Po"], [⟨-1, 0, 0⟩], [⟨-1 / 4, 0, 0⟩]⟩, ⟨rfl, fun e => ?_⟩, ⟨rfl, ?_⟩, ⟨rfl, ?_⟩, rfl, ?_⟩
  · by_cases c : "Po" = e
    · subst c
      simp only [List.zip_cons_cons, List.zip_nil_right, List.filter_cons, List.filter_nil, decide_true, if_true]
      refine .cons ⟨rfl, ⟨-1, by norm_num⟩, ⟨0, by norm_num⟩, ⟨0, by norm_num⟩⟩ .nil
    · simp [c]
  · simp only [List.map_cons, List.map_nil, List.cons.injEq, and_true]
    ext <;> norm_num
  · simp only [List.map_cons, List.map_nil, List.cons.injEq, and_true]
    ext <;> norm_num
  · intro he
    have f1 := (C12_normalize_coords_discrete (⟨⟨4, 0, 0, 0, 4, 0, 0, 0, 4⟩, ["Po"], [⟨3, 0, 0⟩], [⟨3 / 4, 0, 0⟩]⟩ : Structure ℝ) 1).2.2.2 "Po"
    have f2 := (C12_normalize_coords_discrete (⟨⟨4, 0, 0, 0, 4, 0, 0, 0, 4⟩, ["Po"], [⟨-1, 0, 0⟩], [⟨-1 / 4, 0, 0⟩]⟩ : Structure ℝ) 1).2.2.2 "Po"
    rw [he, f1] at f2
    have fl : ∀ v : Vec3 ℝ, (["Po"].zip [v]).filter (fun p => decide (p.1 = "Po")) = [("Po", v)] := fun v => by simp
    simp only [sites] at f2
    rw [fl, fl] at f2
    simp only [List.map_cons, List.map_nil, List.cons.injEq, Prod.mk.injEq, true_and, and_true, normFracVec, Vec3.mk.injEq] at f2
    have h4 : (Structure.fracTols (⟨4, 0, 0, 0, 4, 0, 0, 0, 4⟩ : Mat3 ℝ) 1).x = 1 / 4 := by
      have : (Mat3.col0 (⟨4, 0, 0, 0, 4, 0, 0, 0, 4⟩ : Mat3 ℝ)).mag = 4 := by
        show √(lenSq _) = 4
        rw [show lenSq (Mat3.col0 (⟨4, 0, 0, 0, 4, 0, 0, 0, 4⟩ : Mat3 ℝ)) = 4 ^ 2 by norm_num [lenSq, Mat3.col0]]
        exact Real.sqrt_sq (by norm_num)
      simp only [Structure.fracTols, this]
    have g := f2
    rw [h4, normComp_of_mem (by norm_num) (by norm_num) (by norm_num) (by norm_num),
      normComp_of_mem (by norm_num) (by norm_num) (by norm_num) (by norm_num)] at g
    norm_num at g

/-- caesium chloride with edges 4: the cell as usually written, and with chlorine listed first and both atoms in other cells. -/
example (h : HashOrders ℝ) (fuel : ℕ) (sa : SymmetryAnalyzer ℝ) (hd : sa.dtol = 1 / 10) :
    sa.getSpaceGroupInfo h fuel ⟨⟨4, 0, 0, 0, 4, 0, 0, 0, 4⟩, ["Cl", "Cs"], [⟨-2, 2, 10⟩, ⟨4, -8, 0⟩], [⟨-1 / 2, 1 / 2, 5 / 2⟩, ⟨1, -2, 0⟩]⟩ =
      sa.getSpaceGroupInfo h fuel ⟨⟨4, 0, 0, 0, 4, 0, 0, 0, 4⟩, ["Cs", "Cl"], [⟨0, 0, 0⟩, ⟨2, 2, 2⟩], [⟨0, 0, 0⟩, ⟨1 / 2, 1 / 2, 1 / 2⟩]⟩ := by
  have r4 : √(4 ^ 2 : ℝ) = 4 := Real.sqrt_sq (by norm_num)
  have e0 : √(lenSq (Mat3.col0 (⟨4, 0, 0, 0, 4, 0, 0, 0, 4⟩ : Mat3 ℝ))) = 4 := by rw [← r4]; norm_num [lenSq, Mat3.col0]
  have e1 : √(lenSq (Mat3.col1 (⟨4, 0, 0, 0, 4, 0, 0, 0, 4⟩ : Mat3 ℝ))) = 4 := by rw [← r4]; norm_num [lenSq, Mat3.col1]
  have e2 : √(lenSq (Mat3.col2 (⟨4, 0, 0, 0, 4, 0, 0, 0, 4⟩ : Mat3 ℝ))) = 4 := by rw [← r4]; norm_num [lenSq, Mat3.col2]
  have o0 : ∀ k : ℤ, (0 : ℝ) * 4 ≠ k * 4 - 1 / 10 := by
    intro k hk
    have : (40 * k : ℝ) = 1 := by linarith
    have : 40 * k = 1 := by exact_mod_cast this
    omega
  have o2 : ∀ k : ℤ, (1 / 2 : ℝ) * 4 ≠ k * 4 - 1 / 10 := by
    intro k hk
    have : (40 * k : ℝ) = 21 := by linarith
    have : 40 * k = 21 := by exact_mod_cast this
    omega
  refine (C96_periodic_images sa h fuel (⟨⟨4, 0, 0, 0, 4, 0, 0, 0, 4⟩, ["Cs", "Cl"], [⟨0, 0, 0⟩, ⟨2, 2, 2⟩],
    [⟨0, 0, 0⟩, ⟨1 / 2, 1 / 2, 1 / 2⟩]⟩ : Structure ℝ) _ ⟨?_, fun e => ?_⟩ ?_ ?_ ?_ ?_ ?_).2.2.2.2
  · rfl
  · by_cases c : "Cs" = e
    · subst c
      simp only [List.zip_cons_cons, List.zip_nil_right, List.filter_cons, List.filter_nil, decide_true, if_true,
        show decide ("Cl" = "Cs") = false from by decide, Bool.false_eq_true, if_false]
      exact .cons ⟨rfl, ⟨1, by norm_num⟩, ⟨-2, by norm_num⟩, ⟨0, by norm_num⟩⟩ .nil
    · by_cases c' : "Cl" = e
      · subst c'
        simp only [List.zip_cons_cons, List.zip_nil_right, List.filter_cons, List.filter_nil, decide_true, if_true,
          show decide ("Cs" = "Cl") = false from by decide, Bool.false_eq_true, if_false]
        exact .cons ⟨rfl, ⟨-1, by norm_num⟩, ⟨0, by norm_num⟩, ⟨2, by norm_num⟩⟩ .nil
      · simp [c, c']
  · rw [hd]; norm_num
  · rw [hd, e0]; norm_num
  · rw [hd, e1]; norm_num
  · rw [hd, e2]; norm_num
  · intro v hv k
    simp only [List.mem_cons, List.not_mem_nil, or_false] at hv
    rw [hd, e0, e1, e2]
    rcases hv with rfl | rfl
    · exact ⟨o0 k, o0 k, o0 k⟩
    · exact ⟨o2 k, o2 k, o2 k⟩

end CrystSymm
