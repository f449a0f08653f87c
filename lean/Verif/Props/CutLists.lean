import Verif.Props.PanicList
import Verif.Props.PyApi
import Verif.Props.Transform

set_option autoImplicit false
set_option linter.unusedSectionVars false

/-! # C100: species and positions of different number -/

namespace CrystSymm

open Spec Reducer SymmetryAnalyzer PyApi

namespace Spec

/-- the structure with the species and positions that have no partner left out. -/
def trimmed {K : Type} (s : Structure K) : Structure K :=
  ⟨s.lattice, s.species.take s.fracCoords.length, s.coords.take s.species.length, s.fracCoords.take s.species.length⟩

end Spec

theorem zip_cut {α β : Type} (l : List α) (m : List β) : (l.take m.length).zip (m.take l.length) = l.zip m := by
  induction l generalizing m with
  | nil => simp
  | cons a l ih =>
    cases m with
    | nil => simp
    | cons b m => simp [ih]

section
variable {K : Type} [Add K] [Sub K] [Mul K] [Div K] [Neg K] [Zero K] [One K] [IntCast K]
  [LT K] [LE K] [DecidableLT K] [DecidableLE K] [BEq K] [FRound K] [FTrans K]

theorem trimmed_normalize (s : Structure K) (d : K) : (trimmed s).normalizeCoords d = s.normalizeCoords d := by
  have e : ∀ (F G : Vec3 K → Vec3 K), (s.species.take s.fracCoords.length).zip
      (((s.fracCoords.take s.species.length).map F).zip ((s.fracCoords.take s.species.length).map G)) =
      s.species.zip ((s.fracCoords.map F).zip (s.fracCoords.map G)) := by
    intro F G
    rw [List.zip_map', List.zip_map', List.zip_map_right, List.zip_map_right, zip_cut]
  have e2 := e (fun v => s.lattice * normFracVec (Structure.fracTols s.lattice d) v) (normFracVec (Structure.fracTols s.lattice d))
  unfold Structure.normalizeCoords trimmed
  simp only [normalizeFracVectors, Structure.getCartCoords, List.map_map, Function.comp_def]
  rw [e2]

theorem trimmed_primitive (r : Reducer K) (ord : List (String × ℕ) → List (String × ℕ)) (s : Structure K) :
    r.findPrimitiveCell ord (trimmed s) = r.findPrimitiveCell ord s := by
  unfold findPrimitiveCell
  simp only [trimmed_normalize]
  rfl

theorem trimmed_rebuild (r : Reducer K) {s : Structure K} (hl : s.coords.length = s.fracCoords.length) (L : Mat3 K) :
    rebuild r (trimmed s) L = rebuild r s L := by
  have e : Structure.new L (trimmed s).species (Structure.getFracCoords L (trimmed s).coords) false =
      trimmed (Structure.new L s.species (Structure.getFracCoords L s.coords) false) := by
    simp [Structure.new, trimmed, Structure.getFracCoords, Structure.getCartCoords, List.map_take, hl]
  unfold rebuild
  rw [e, trimmed_normalize]

/-- **C100.** Species without position and positions without species are silently left out: the reductions, the standard structures
and the space group are those of the structure cut to the shorter list, in any arithmetic. -/
theorem C100_cut (r : Reducer K) (sa : SymmetryAnalyzer K) (h : HashOrders K) (fuel : ℕ) (s : Structure K)
    (hl : s.coords.length = s.fracCoords.length) (tol : K) (full : Bool) :
    r.findPrimitiveCell h.minEle s = r.findPrimitiveCell h.minEle (trimmed s) ∧
    r.niggliReduce s tol = r.niggliReduce (trimmed s) tol ∧
    r.delaunayReduce s full = r.delaunayReduce (trimmed s) full ∧
    sa.getStandardConventionalStructure h fuel s = sa.getStandardConventionalStructure h fuel (trimmed s) ∧
    sa.getStandardPrimitiveStructure h fuel s = sa.getStandardPrimitiveStructure h fuel (trimmed s) ∧
    sa.getSpaceGroupInfo h fuel s = sa.getSpaceGroupInfo h fuel (trimmed s) := by
  refine ⟨(trimmed_primitive _ _ _).symm, ?_, ?_, ?_, ?_, ?_⟩
  · unfold Reducer.niggliReduce
    simp only [trimmed_rebuild r hl]
    rfl
  · unfold delaunayReduce
    simp only [trimmed_rebuild r hl]
    rfl
  · unfold SymmetryAnalyzer.getStandardConventionalStructure
    rw [trimmed_primitive]
  · unfold SymmetryAnalyzer.getStandardPrimitiveStructure
    rw [trimmed_primitive]
  · unfold SymmetryAnalyzer.getSpaceGroupInfo
    rw [trimmed_primitive]
    rfl

theorem trimmed_furnished {s : Structure K} (hl : s.coords.length = s.fracCoords.length) (h0 : s.species ≠ []) (h1 : s.coords ≠ []) :
    Furnished (trimmed s) := by
  have a := List.length_pos_iff.2 h0
  have b := List.length_pos_iff.2 h1
  refine ⟨?_, ?_, ?_⟩
  · show s.species.take s.fracCoords.length ≠ []
    rw [← List.length_pos_iff, List.length_take]
    omega
  all_goals
    simp only [trimmed, List.length_take]
    omega

theorem ofListCM_take (l : List K) : Mat3.ofListCM (l.take 9) = Mat3.ofListCM l := by
  match l with
  | [] | [_] | [_, _] | [_, _, _] | [_, _, _, _] | [_, _, _, _, _] | [_, _, _, _, _, _] | [_, _, _, _, _, _, _]
  | [_, _, _, _, _, _, _, _] => rfl
  | a :: b :: c :: d :: e :: f :: g :: h :: i :: l => rfl

theorem coordOfList_take (l : List K) : coordOfList (l.take 3) = coordOfList l := by
  match l with
  | [] | [_] | [_, _] => rfl
  | a :: b :: c :: l => rfl

theorem mapCoord_take {cs : List (List K)} {vs : List (Vec3 K)} (h : mapOutcome coordOfList cs = .ret vs) (n : ℕ) :
    mapOutcome coordOfList ((cs.take n).map (List.take 3)) = .ret (vs.take n) := by
  rw [mapOutcome_eq_ret] at h ⊢
  rw [List.forall₂_map_left_iff]
  simp only [coordOfList_take]
  exact List.forall₂_take n h

/-- **C100 (Python, reading the arguments).** Numbers after the ninth of the lattice, after the third of a position, species without position and
positions without species make no difference. -/
theorem C100_python (h : HashOrders K) (fuel : ℕ) (lattice : List K) (species : List String) (coords : List (List K)) (cart : Bool)
    (dtol atol tol : K) (hc : ∀ c ∈ coords, 3 ≤ c.length) :
    let lattice' := lattice.take 9
    let species' := species.take coords.length
    let coords' := (coords.take species.length).map (List.take 3)
    PyApi.findPrimitive h lattice species coords cart dtol atol = PyApi.findPrimitive h lattice' species' coords' cart dtol atol ∧
    PyApi.niggliReduce lattice species coords cart tol = PyApi.niggliReduce lattice' species' coords' cart tol ∧
    PyApi.getStandardConventionalStructure h fuel lattice species coords cart dtol atol =
      PyApi.getStandardConventionalStructure h fuel lattice' species' coords' cart dtol atol ∧
    PyApi.getStandardPrimitiveStructure h fuel lattice species coords cart dtol atol =
      PyApi.getStandardPrimitiveStructure h fuel lattice' species' coords' cart dtol atol ∧
    PyApi.getSpaceGroupInfo h fuel lattice species coords cart dtol atol =
      PyApi.getSpaceGroupInfo h fuel lattice' species' coords' cart dtol atol := by
  intro lattice' species' coords'
  rcases mapCoord_cases coords with ⟨⟨c, hm, hlt⟩, -⟩ | ⟨-, vs, hvs⟩
  · exact absurd (hc c hm) (by omega)
  have hlen : coords.length = vs.length := (mapOutcome_eq_ret.1 hvs).length_eq
  have hvs' : mapOutcome coordOfList coords' = .ret (vs.take species.length) := mapCoord_take hvs _
  unfold PyApi.findPrimitive PyApi.niggliReduce PyApi.getStandardConventionalStructure PyApi.getStandardPrimitiveStructure
    PyApi.getSpaceGroupInfo generateInputStructure
  rw [ofListCM_take, hvs, hvs']
  cases Mat3.ofListCM lattice with
  | none => exact ⟨rfl, rfl, rfl, rfl, rfl⟩
  | some L =>
    simp only [Outcome.ofOption, Outcome.ret_bind]
    have hl : (Structure.new L species vs cart).coords.length = (Structure.new L species vs cart).fracCoords.length := by
      cases cart <;> simp [Structure.new, Structure.getFracCoords, Structure.getCartCoords]
    have e : Structure.new L species' (vs.take species.length) cart = trimmed (Structure.new L species vs cart) := by
      cases cart <;>
      simp [Structure.new, trimmed, Structure.getFracCoords, Structure.getCartCoords, List.map_take, species', hlen]
    rw [e]
    have k1 := fun (r : Reducer K) (t : K) => C100_cut r (⟨dtol, atol⟩ : SymmetryAnalyzer K) h fuel _ hl t false
    rw [(k1 ⟨dtol, atol⟩ tol).1, (k1 Reducer.default tol).2.1, (k1 ⟨dtol, atol⟩ tol).2.2.2.1, (k1 ⟨dtol, atol⟩ tol).2.2.2.2.1,
      (k1 ⟨dtol, atol⟩ tol).2.2.2.2.2]
    exact ⟨rfl, rfl, rfl, rfl, rfl⟩

/-- **C100 (Python, the panics).** The complete list of panics of `get_space_group_info` in Python, for any arguments: a lattice of fewer than nine
numbers; otherwise a position of fewer than three; otherwise no species or no positions; otherwise one of the messages of C99. -/
theorem C100_python_panics (ht : TablesUsable K) (h : HashOrders K) (hv : h.Valid) (fuel : ℕ) (lattice : List K) (species : List String)
    (coords : List (List K)) (cart : Bool) (dtol atol : K) :
    (lattice.length < 9 → PyApi.getSpaceGroupInfo h fuel lattice species coords cart dtol atol =
      .panic "Matrix init. from iterator: not enough elements") ∧
    (9 ≤ lattice.length → (∃ c ∈ coords, c.length < 3) →
      PyApi.getSpaceGroupInfo h fuel lattice species coords cart dtol atol = .panic "index out of bounds") ∧
    (9 ≤ lattice.length → (∀ c ∈ coords, 3 ≤ c.length) → species = [] ∨ coords = [] →
      PyApi.getSpaceGroupInfo h fuel lattice species coords cart dtol atol = .panic "called `Option::unwrap()` on a `None` value") ∧
    (9 ≤ lattice.length → (∀ c ∈ coords, 3 ≤ c.length) → species ≠ [] → coords ≠ [] →
      PanicsOnly (PyApi.getSpaceGroupInfo h fuel lattice species coords cart dtol atol)
        ["index out of bounds", "range start index out of range", "Could not find Niggli reduced structure!",
        "Cannot find lattice character of input structure!", "Could not find candidate group with the provided number of operations!",
        "Cannot identify spacegroup from operations!", "Transformation matrix is not invertible!"]) := by
  have hr : 9 ≤ lattice.length → (∀ c ∈ coords, 3 ≤ c.length) →
      ∃ L vs, coords.length = vs.length ∧ generateInputStructure lattice species coords cart = .ret (Structure.new L species vs cart) := by
    intro h9 hc
    rcases mapCoord_cases coords with ⟨⟨c, hm, hlt⟩, -⟩ | ⟨-, vs, hvs⟩
    · exact absurd (hc c hm) (by omega)
    cases hL : Mat3.ofListCM lattice with
    | none => exact absurd (ofListCM_eq_none.1 hL) (by omega)
    | some L =>
      refine ⟨L, vs, (mapOutcome_eq_ret.1 hvs).length_eq, ?_⟩
      unfold generateInputStructure
      rw [hL, hvs]
      rfl
  have hl : ∀ L (vs : List (Vec3 K)), (Structure.new L species vs cart).coords.length = (Structure.new L species vs cart).fracCoords.length := by
    intro L vs
    cases cart <;> simp [Structure.new, Structure.getFracCoords, Structure.getCartCoords]
  have hn : ∀ L (vs : List (Vec3 K)), (Structure.new L species vs cart).coords.length = vs.length := by
    intro L vs
    cases cart <;> simp [Structure.new, Structure.getCartCoords]
  have hsp : ∀ L (vs : List (Vec3 K)), (Structure.new L species vs cart).species = species := by
    intro L vs
    cases cart <;> rfl
  have hcut : ∀ L (vs : List (Vec3 K)), (⟨dtol, atol⟩ : SymmetryAnalyzer K).getSpaceGroupInfo h fuel (Structure.new L species vs cart) =
      (⟨dtol, atol⟩ : SymmetryAnalyzer K).getSpaceGroupInfo h fuel (trimmed (Structure.new L species vs cart)) := fun L vs =>
    (C100_cut ⟨dtol, atol⟩ (⟨dtol, atol⟩ : SymmetryAnalyzer K) h fuel _ (hl L vs) dtol false).2.2.2.2.2
  refine ⟨fun h9 => ?_, fun h9 hc => ?_, fun h9 hc he => ?_, fun h9 hc h0 h1 => ?_⟩
  · unfold PyApi.getSpaceGroupInfo generateInputStructure
    rw [ofListCM_eq_none.2 h9]
    rfl
  · have hp : mapOutcome coordOfList coords = .panic "index out of bounds" := by
      obtain ⟨c, hm, hlt⟩ := hc
      clear hr
      induction coords with
      | nil => cases hm
      | cons c' cs ih =>
        rw [mapOutcome]
        have hp : ∀ c : List K, c.length < 3 → coordOfList c = .panic "index out of bounds" := by
          intro c hc
          match c, hc with
          | [], _ | [_], _ | [_, _], _ => rfl
        rcases List.mem_cons.1 hm with rfl | hm
        · rw [hp _ hlt]
          rfl
        · rcases coordOfList_cases c' with ⟨h1, -⟩ | ⟨-, v, h2⟩
          · rw [hp _ h1]
            rfl
          · rw [h2, ih hm]
            rfl
    cases hL : Mat3.ofListCM lattice with
    | none => exact absurd (ofListCM_eq_none.1 hL) (by omega)
    | some L =>
      unfold PyApi.getSpaceGroupInfo generateInputStructure
      rw [hL, hp]
      rfl
  · obtain ⟨L, vs, hlen, e⟩ := hr h9 hc
    unfold PyApi.getSpaceGroupInfo
    rw [e, Outcome.ret_bind, hcut, (C99_no_atoms ⟨dtol, atol⟩ (⟨dtol, atol⟩ : SymmetryAnalyzer K) h hv fuel _ ?_).2.2.2]
    · rfl
    · show List.take _ _ = []
      rw [hsp, ← hl, hn, ← hlen]
      rcases he with rfl | rfl <;> simp
  · obtain ⟨L, vs, hlen, e⟩ := hr h9 hc
    have hf : Furnished (trimmed (Structure.new L species vs cart)) := by
      refine trimmed_furnished (hl L vs) (by rwa [hsp]) ?_
      rw [← List.length_pos_iff, hn, ← hlen, List.length_pos_iff]
      exact h1
    have := (C99_panics ht ⟨dtol, atol⟩ (⟨dtol, atol⟩ : SymmetryAnalyzer K) h hv fuel _ hf dtol false).2.2.2.2.2
    unfold PyApi.getSpaceGroupInfo
    rw [e, Outcome.ret_bind, hcut]
    exact panics_bind this fun _ _ => panics_ret

end

/-! ## `apply_transformation` -/

/-- one species, two positions. -/
noncomputable def unnamed : Structure ℝ :=
  ⟨⟨4, 0, 0, 0, 4, 0, 0, 0, 4⟩, ["A"], [⟨0, 0, 0⟩, ⟨2, 2, 2⟩], [⟨0, 0, 0⟩, ⟨1 / 2, 1 / 2, 1 / 2⟩]⟩

/-- **C100 is false for `apply_transformation`.** It counts the positions but looks only at those with a species, so that even the identity
transformation is never finished, whereas it is finished for the structure cut to the shorter list. -/
theorem C100_false_transformation :
    (∀ fuel, unnamed.applyTransformation fuel 1 (1 / 100) = .running) ∧
    ∃ N s', ∀ fuel ≥ N, (trimmed unnamed).applyTransformation fuel 1 (1 / 100) = .ret s' := by
  have e1 : (1 : Mat3 ℝ) = realMat 1 := by ext <;> simp [realMat, Mat3.map]
  constructor
  · intro fuel
    have htols : TolsInUnit unnamed (1 / 100) := cubicOne_tols
    have hinv : (1 : Mat3 ℝ).tryInverse = some 1 := Mat3.tryInverse_eq_some_iff.2 (one_mul _)
    have hr : Structure.volumeRatio (1 : Mat3 ℝ) = 1 := by
      rw [e1, volumeRatio_realMat, Mat3.det_one]
      norm_num
    unfold Structure.applyTransformation
    simp only [hinv]
    rw [searchLoop_stuck ?_ ?_ fuel 2 [] (by simp) List.Pairwise.nil]
    · rfl
    · intro p q hp hq
      obtain ⟨o, ho, m, ⟨a, b, c, rfl⟩, rfl⟩ := hp.exists_int
      obtain ⟨o', ho', m', ⟨a', b', c', rfl⟩, rfl⟩ := hq.exists_int
      simp only [unnamed, List.zip_cons_cons, List.zip_nil_right, List.mem_singleton] at ho ho'
      subst ho ho'
      apply coinc_of_samePoint htols
      rw [← intVec_sub_iff_samePoint]
      exact ⟨a - a', b - b', c - c', by ext <;> simp⟩
    · intro n hn
      rw [hr]
      have : n = 0 ∨ n = 1 := by omega
      rcases this with rfl | rfl <;> simp [Structure.quotLt, unnamed, lit] <;> norm_num
  · have et : trimmed unnamed = cubicOne := rfl
    rw [et, e1]
    obtain ⟨N, s', h, -⟩ := C17_supercell_complete cubicOne 1 (1 / 100) (by decide) cubicOne_consistent cubicOne_tols (by
      intro i j x y hx hy v hv
      have hi : i = 0 ∧ x = ⟨0, 0, 0⟩ := by
        cases i with
        | zero => simp [cubicOne] at hx; exact ⟨rfl, hx.symm⟩
        | succ n => simp [cubicOne] at hx
      have hj : j = 0 ∧ y = ⟨0, 0, 0⟩ := by
        cases j with
        | zero => simp [cubicOne] at hy; exact ⟨rfl, hy.symm⟩
        | succ n => simp [cubicOne] at hy
      obtain ⟨rfl, rfl⟩ := hi
      obtain ⟨rfl, rfl⟩ := hj
      obtain ⟨a, b, c, h⟩ := hv
      have hh := Vec3.ext_iff.1 h
      simp [realMat, Mat3.map] at hh
      exact Or.inl ⟨rfl, a, b, c, by ext <;> simp [hh]⟩)
    exact ⟨N, s', h⟩

/-- the second atom is given without a name and left out: the primitive cell of `unnamed` is that of one atom. -/
example (r : Reducer ℝ) (h : HashOrders ℝ) : r.findPrimitiveCell h.minEle unnamed = r.findPrimitiveCell h.minEle cubicOne :=
  (C100_cut r ⟨r.dtol, r.atol⟩ h 0 unnamed rfl 0 false).1

/-- the same through Python, with a fourth number in a position and a tenth in the lattice. -/
example (h : HashOrders ℝ) (fuel : ℕ) (d a : ℝ) :
    PyApi.getSpaceGroupInfo h fuel [4, 0, 0, 0, 4, 0, 0, 0, 4, 7] ["A"] [[0, 0, 0, 9], [1 / 2, 1 / 2, 1 / 2]] false d a =
    PyApi.getSpaceGroupInfo h fuel [4, 0, 0, 0, 4, 0, 0, 0, 4] ["A"] [[0, 0, 0]] false d a :=
  (C100_python h fuel _ _ _ _ d a 0 (by simp)).2.2.2.2

/-- too few numbers. -/
example (h : HashOrders ℝ) (hv : h.Valid) (fuel : ℕ) (d a : ℝ) :
    PyApi.getSpaceGroupInfo h fuel [4, 0, 0, 0, 4, 0, 0, 0, 4] ["A"] [[0, 0]] false d a = .panic "index out of bounds" ∧
    PyApi.getSpaceGroupInfo h fuel [4, 0, 0] ["A"] [[0, 0]] false d a = .panic "Matrix init. from iterator: not enough elements" :=
  ⟨(C100_python_panics C99_tables_exact h hv fuel _ _ _ _ d a).2.1 (by simp) ⟨[0, 0], by simp⟩,
    (C100_python_panics C99_tables_exact h hv fuel _ _ _ _ d a).1 (by simp)⟩

end CrystSymm
