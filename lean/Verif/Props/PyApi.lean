import Verif.Model.Lib
import Verif.Proofs.Outcome
import Verif.Proofs.Decode
import Verif.Spec.Crystal

set_option autoImplicit false
set_option linter.unusedSectionVars false

/-! # C47: the functions exported to Python -/

namespace CrystSymm

open Spec PyApi

section
variable {K : Type} [Add K] [Sub K] [Mul K] [Div K] [Neg K] [Zero K] [One K] [IntCast K]
  [LT K] [LE K] [DecidableLT K] [DecidableLE K] [BEq K] [FRound K] [FTrans K]

/-- the list is the matrix, column after column; further items are ignored. -/
def ReadsColumns (l : List K) (m : Mat3 K) : Prop :=
  l[0]? = some m.m11 ∧ l[1]? = some m.m21 ∧ l[2]? = some m.m31 ∧
  l[3]? = some m.m12 ∧ l[4]? = some m.m22 ∧ l[5]? = some m.m32 ∧
  l[6]? = some m.m13 ∧ l[7]? = some m.m23 ∧ l[8]? = some m.m33

/-- the list is the matrix, row after row. -/
def IsRows {α : Type} (l : List α) (m : Mat3 α) : Prop :=
  l = [m.m11, m.m12, m.m13, m.m21, m.m22, m.m23, m.m31, m.m32, m.m33]

/-- the list starts with the three components. -/
def ReadsVec (l : List K) (v : Vec3 K) : Prop := l[0]? = some v.x ∧ l[1]? = some v.y ∧ l[2]? = some v.z

/-- the data handed to Python is the lattice column after column, the species and the fractional coordinates. -/
def IsOutput (out : List K × List String × List (List K)) (s : Structure K) : Prop :=
  out.1.length = 9 ∧ ReadsColumns out.1 s.lattice ∧ out.2.1 = s.species ∧
    List.Forall₂ (fun l v => l.length = 3 ∧ ReadsVec l v) out.2.2 s.fracCoords

theorem ofListCM_eq_some {l : List K} {m : Mat3 K} : Mat3.ofListCM l = some m ↔ ReadsColumns l m := by
  unfold ReadsColumns
  match l with
  | [] | [_] | [_, _] | [_, _, _] | [_, _, _, _] | [_, _, _, _, _] | [_, _, _, _, _, _] | [_, _, _, _, _, _, _]
  | [_, _, _, _, _, _, _, _] => simp [Mat3.ofListCM]
  | a :: b :: c :: d :: e :: f :: g :: h :: i :: l =>
    simp only [Mat3.ofListCM, Option.some.injEq, List.getElem?_cons_zero, List.getElem?_cons_succ]
    constructor
    · rintro rfl; simp
    · rintro ⟨h1, h2, h3, h4, h5, h6, h7, h8, h9⟩
      ext <;> assumption

theorem ofListCM_eq_none {l : List K} : Mat3.ofListCM l = none ↔ l.length < 9 := by
  match l with
  | [] | [_] | [_, _] | [_, _, _] | [_, _, _, _] | [_, _, _, _, _] | [_, _, _, _, _, _] | [_, _, _, _, _, _, _]
  | [_, _, _, _, _, _, _, _] => simp [Mat3.ofListCM]
  | a :: b :: c :: d :: e :: f :: g :: h :: i :: l => simp [Mat3.ofListCM]

theorem coordOfList_eq_ret {l : List K} {v : Vec3 K} : coordOfList l = .ret v ↔ ReadsVec l v := by
  unfold ReadsVec
  match l with
  | [] | [_] | [_, _] => simp [coordOfList]
  | a :: b :: c :: l =>
    simp only [coordOfList, Outcome.ret.injEq, List.getElem?_cons_zero, List.getElem?_cons_succ, Option.some.injEq]
    constructor
    · rintro rfl; simp
    · rintro ⟨h1, h2, h3⟩; ext <;> assumption

theorem coordOfList_cases (l : List K) :
    (l.length < 3 ∧ ∃ m, coordOfList l = .panic m) ∨ (3 ≤ l.length ∧ ∃ v, coordOfList l = .ret v) := by
  match l with
  | [] | [_] | [_, _] => left; exact ⟨by simp, _, rfl⟩
  | a :: b :: c :: l => right; exact ⟨by simp, _, rfl⟩

theorem mapOutcome_eq_ret {α β : Type} {f : α → Outcome β} {l : List α} {r : List β} :
    mapOutcome f l = .ret r ↔ List.Forall₂ (fun a b => f a = .ret b) l r := by
  induction l generalizing r with
  | nil => simp [mapOutcome, eq_comm]
  | cons a l ih =>
    rw [mapOutcome]
    simp only [Outcome.bind_eq_ret]
    constructor
    · rintro ⟨b, hb, r', hr', e⟩
      rw [← Outcome.ret.inj e]
      exact .cons hb (ih.1 hr')
    · intro h
      cases h with
      | cons h1 h2 => exact ⟨_, h1, _, ih.2 h2, rfl⟩

theorem mapCoord_cases (cs : List (List K)) :
    ((∃ c ∈ cs, c.length < 3) ∧ ∃ m, mapOutcome coordOfList cs = .panic m) ∨
    ((∀ c ∈ cs, 3 ≤ c.length) ∧ ∃ vs, mapOutcome coordOfList cs = .ret vs) := by
  induction cs with
  | nil => right; exact ⟨by simp, [], rfl⟩
  | cons c cs ih =>
    rw [mapOutcome]
    rcases coordOfList_cases c with ⟨h1, m, h2⟩ | ⟨h1, v, h2⟩
    · left; exact ⟨⟨c, by simp, h1⟩, m, by rw [h2]; rfl⟩
    · rw [h2, Outcome.ret_bind]
      rcases ih with ⟨⟨c', h3, h4⟩, m, h5⟩ | ⟨h3, vs, h5⟩
      · left; exact ⟨⟨c', by simp [h3], h4⟩, m, by rw [h5]; rfl⟩
      · right
        refine ⟨?_, v :: vs, by rw [h5]; rfl⟩
        intro x hx
        rcases List.mem_cons.1 hx with rfl | hx
        · exact h1
        · exact h3 x hx

/-- **C47 (input).** The conversion of the Python arguments panics exactly when the lattice has fewer than nine numbers
or some coordinate fewer than three; otherwise it returns. -/
theorem C47_input_panics_iff (lattice : List K) (species : List String) (coords : List (List K)) (cart : Bool) :
    ((∃ m, generateInputStructure lattice species coords cart = .panic m) ↔
      lattice.length < 9 ∨ ∃ c ∈ coords, c.length < 3) ∧
    ((∃ s, generateInputStructure lattice species coords cart = .ret s) ↔
      9 ≤ lattice.length ∧ ∀ c ∈ coords, 3 ≤ c.length) := by
  unfold generateInputStructure
  cases hl : Mat3.ofListCM lattice with
  | none =>
    have h9 := ofListCM_eq_none.1 hl
    simp only [Outcome.ofOption, Outcome.bind]
    refine ⟨⟨fun _ => .inl h9, fun _ => ⟨_, rfl⟩⟩, ⟨fun ⟨s, h⟩ => by simp at h, fun h => ?_⟩⟩
    omega
  | some m =>
    have h9 : 9 ≤ lattice.length := by
      by_contra hc
      rw [ofListCM_eq_none.2 (by omega)] at hl
      exact absurd hl (by simp)
    simp only [Outcome.ofOption, Outcome.ret_bind]
    rcases mapCoord_cases coords with ⟨⟨c, hc, hc3⟩, msg, h⟩ | ⟨h3, vs, h⟩
    · rw [h]
      simp only [Outcome.bind]
      refine ⟨⟨fun _ => .inr ⟨c, hc, hc3⟩, fun _ => ⟨_, rfl⟩⟩, ⟨fun ⟨s, h⟩ => by simp at h, fun h => ?_⟩⟩
      have := h.2 c hc
      omega
    · rw [h]
      simp only [Outcome.bind]
      refine ⟨⟨fun ⟨m, h⟩ => by simp at h, fun h => ?_⟩, ⟨fun _ => ⟨h9, h3⟩, fun _ => ⟨_, rfl⟩⟩⟩
      rcases h with h | ⟨c, hc, hc3⟩
      · omega
      · have := h3 c hc
        omega

/-- **C47 (input).** What the structure contains: the lattice read column after column, the species, and the
coordinates read in order, as the cartesian or the fractional ones; the other ones are computed from them. -/
theorem C47_input_fields (lattice : List K) (species : List String) (coords : List (List K)) (cart : Bool)
    (s : Structure K) (h : generateInputStructure lattice species coords cart = .ret s) :
    ReadsColumns lattice s.lattice ∧ s.species = species ∧
    (cart = true → List.Forall₂ ReadsVec coords s.coords ∧
      s.fracCoords = s.coords.map fun v : Vec3 K => FTrans.pinv s.lattice * v) ∧
    (cart = false → List.Forall₂ ReadsVec coords s.fracCoords ∧
      s.coords = s.fracCoords.map fun v : Vec3 K => s.lattice * v) := by
  unfold generateInputStructure at h
  simp only [Outcome.bind_eq_ret] at h
  obtain ⟨l, hl, cs, hcs, e⟩ := h
  have hl' : Mat3.ofListCM lattice = some l := by
    cases ho : Mat3.ofListCM lattice with
    | none => rw [ho] at hl; simp [Outcome.ofOption] at hl
    | some m => rw [ho] at hl; simp only [Outcome.ofOption, Outcome.ret.injEq] at hl; rw [hl]
  have hf : List.Forall₂ ReadsVec coords cs :=
    (mapOutcome_eq_ret.1 hcs).imp fun _ _ h => coordOfList_eq_ret.1 h
  rw [← Outcome.ret.inj e]
  refine ⟨?_, ?_, ?_, ?_⟩
  · unfold Structure.new
    split <;> exact ofListCM_eq_some.1 hl'
  · unfold Structure.new
    split <;> rfl
  · rintro rfl
    exact ⟨hf, rfl⟩
  · rintro rfl
    exact ⟨hf, rfl⟩

theorem output_isOutput (s : Structure K) : IsOutput (generateOutputStructureData s) s := by
  refine ⟨rfl, by simp [ReadsColumns, generateOutputStructureData, Mat3.toListCM], rfl, ?_⟩
  unfold generateOutputStructureData
  rw [List.forall₂_map_left_iff, List.forall₂_same]
  intro v _
  simp [ReadsVec, Vec3.toList]

/-- **C47 (round trip).** Reading back what was handed to Python, as fractional coordinates, gives the structure, up
to cartesian coordinates that were not the lattice times the fractional ones. -/
theorem C47_round_trip (s : Structure K) :
    ∃ s', generateInputStructure (generateOutputStructureData s).1 (generateOutputStructureData s).2.1
        (generateOutputStructureData s).2.2 false = .ret s' ∧
      s'.lattice = s.lattice ∧ s'.species = s.species ∧ s'.fracCoords = s.fracCoords ∧
      s'.coords = s.fracCoords.map (fun v : Vec3 K => s.lattice * v) ∧ (Consistent s → s' = s) := by
  have hc : mapOutcome coordOfList (s.fracCoords.map Vec3.toList) = .ret s.fracCoords := by
    rw [mapOutcome_eq_ret, List.forall₂_map_left_iff, List.forall₂_same]
    intro v _
    rfl
  refine ⟨Structure.new s.lattice s.species s.fracCoords false, ?_, rfl, rfl, rfl, rfl, ?_⟩
  · unfold generateInputStructure generateOutputStructureData
    simp only
    rw [show Mat3.ofListCM s.lattice.toListCM = some s.lattice from rfl]
    simp only [Outcome.ofOption, Outcome.ret_bind]
    rw [hc]
    rfl
  · intro hs
    unfold Structure.new Structure.getCartCoords
    simp only [Bool.false_eq_true, if_false]
    obtain ⟨l, sp, co, fr⟩ := s
    simp only [Structure.mk.injEq, true_and, and_true]
    exact hs.2.symm

/-- `r` returns exactly when `f` does, with the data of its result. -/
def ReturnsOutputOf (r : Outcome (List K × List String × List (List K))) (f : Outcome (Structure K)) : Prop :=
  (∀ out, r = .ret out → ∃ p, f = .ret p ∧ IsOutput out p) ∧ (∀ p, f = .ret p → ∃ out, r = .ret out ∧ IsOutput out p) ∧
  (∀ m, r = .panic m ↔ f = .panic m)

theorem returnsOutputOf_bind (f : Outcome (Structure K)) :
    ReturnsOutputOf (f.bind fun p => .ret (generateOutputStructureData p)) f := by
  cases f with
  | ret p =>
    refine ⟨?_, ?_, ?_⟩
    · intro out h; exact ⟨p, rfl, by rw [← Outcome.ret.inj h]; exact output_isOutput p⟩
    · intro q h; rw [← Outcome.ret.inj h]; exact ⟨_, rfl, output_isOutput p⟩
    · intro m; simp [Outcome.bind]
  | panic m => refine ⟨?_, ?_, ?_⟩ <;> simp [Outcome.bind]
  | running => refine ⟨?_, ?_, ?_⟩ <;> simp [Outcome.bind]

/-- **C47 (structures).** On arguments that convert to the structure `s`, the four functions that return a structure
return (or panic) exactly when the corresponding function of the crate does so on `s`, and hand over the lattice
column after column, the species and the fractional coordinates of its result. -/
theorem C47_structure_functions (h : HashOrders K) (fuel : ℕ) (lattice : List K) (species : List String)
    (coords : List (List K)) (cart : Bool) (dtol atol tol : K) (s : Structure K)
    (hs : generateInputStructure lattice species coords cart = .ret s) :
    ReturnsOutputOf (PyApi.findPrimitive h lattice species coords cart dtol atol)
      ((⟨dtol, atol⟩ : Reducer K).findPrimitiveCell h.minEle s) ∧
    ReturnsOutputOf (PyApi.niggliReduce lattice species coords cart tol) (Reducer.default.niggliReduce s tol) ∧
    ReturnsOutputOf (PyApi.getStandardConventionalStructure h fuel lattice species coords cart dtol atol)
      ((⟨dtol, atol⟩ : SymmetryAnalyzer K).getStandardConventionalStructure h fuel s) ∧
    ReturnsOutputOf (PyApi.getStandardPrimitiveStructure h fuel lattice species coords cart dtol atol)
      ((⟨dtol, atol⟩ : SymmetryAnalyzer K).getStandardPrimitiveStructure h fuel s) := by
  unfold PyApi.findPrimitive PyApi.niggliReduce PyApi.getStandardConventionalStructure
    PyApi.getStandardPrimitiveStructure
  rw [hs]
  simp only [Outcome.ret_bind]
  exact ⟨returnsOutputOf_bind _, returnsOutputOf_bind _, returnsOutputOf_bind _, returnsOutputOf_bind _⟩

/-- **C47 (panics).** On arguments that are too short, every exported function panics. -/
theorem C47_short_arguments_panic (h : HashOrders K) (fuel : ℕ) (lattice : List K) (species : List String)
    (coords : List (List K)) (cart : Bool) (dtol atol tol : K)
    (hs : lattice.length < 9 ∨ ∃ c ∈ coords, c.length < 3) :
    (∃ m, PyApi.findPrimitive h lattice species coords cart dtol atol = .panic m) ∧
    (∃ m, PyApi.niggliReduce lattice species coords cart tol = .panic m) ∧
    (∃ m, PyApi.getStandardConventionalStructure h fuel lattice species coords cart dtol atol = .panic m) ∧
    (∃ m, PyApi.getStandardPrimitiveStructure h fuel lattice species coords cart dtol atol = .panic m) ∧
    ∃ m, PyApi.getSpaceGroupInfo h fuel lattice species coords cart dtol atol = .panic m := by
  obtain ⟨m, hm⟩ := (C47_input_panics_iff lattice species coords cart).1.2 hs
  unfold PyApi.findPrimitive PyApi.niggliReduce PyApi.getStandardConventionalStructure
    PyApi.getStandardPrimitiveStructure PyApi.getSpaceGroupInfo
  rw [hm]
  exact ⟨⟨m, rfl⟩, ⟨m, rfl⟩, ⟨m, rfl⟩, ⟨m, rfl⟩, m, rfl⟩

/-- **C47 (space group).** The number and symbol are handed over, and of every operation, in order, the rotation row
after row and the translation. -/
theorem C47_space_group_info (h : HashOrders K) (fuel : ℕ) (lattice : List K) (species : List String)
    (coords : List (List K)) (cart : Bool) (dtol atol : K) (s : Structure K)
    (hs : generateInputStructure lattice species coords cart = .ret s) :
    (∀ num sym l, PyApi.getSpaceGroupInfo h fuel lattice species coords cart dtol atol = .ret (num, sym, l) ↔
      ∃ ops, (⟨dtol, atol⟩ : SymmetryAnalyzer K).getSpaceGroupInfo h fuel s = .ret (num, sym, ops) ∧
        List.Forall₂ (fun p (op : SymmOp K) => IsRows p.1 op.rotation ∧
          p.2 = [op.translation.x, op.translation.y, op.translation.z]) l ops) ∧
    ∀ m, PyApi.getSpaceGroupInfo h fuel lattice species coords cart dtol atol = .panic m ↔
      (⟨dtol, atol⟩ : SymmetryAnalyzer K).getSpaceGroupInfo h fuel s = .panic m := by
  unfold PyApi.getSpaceGroupInfo
  rw [hs]
  simp only [Outcome.ret_bind]
  cases hr : (⟨dtol, atol⟩ : SymmetryAnalyzer K).getSpaceGroupInfo h fuel s with
  | panic m => simp [Outcome.bind]
  | running => simp [Outcome.bind]
  | ret r =>
    obtain ⟨n, sy, ops⟩ := r
    simp only [Outcome.ret_bind, Outcome.ret.injEq, Prod.mk.injEq, reduceCtorEq, iff_self, implies_true, and_true]
    intro num sym l
    constructor
    · rintro ⟨rfl, rfl, rfl⟩
      refine ⟨ops, ⟨rfl, rfl, rfl⟩, ?_⟩
      rw [List.forall₂_map_left_iff, List.forall₂_same]
      intro op _
      exact ⟨rfl, rfl⟩
    · rintro ⟨ops', ⟨rfl, rfl, rfl⟩, hf⟩
      refine ⟨rfl, rfl, ?_⟩
      have : List.Forall₂ Eq l (ops.map opToLists) := by
        rw [List.forall₂_map_right_iff]
        refine hf.imp ?_
        rintro ⟨r, t⟩ op ⟨h1, h2⟩
        simp only at h1 h2
        rw [h1, h2]
        rfl
      exact (List.forall₂_eq_eq_eq ▸ this : l = _).symm

end

/-- a case: nine numbers are read column after column; eight panic. -/
example : ReadsColumns [1, 2, 3, 4, 5, 6, 7, 8, 9] (⟨1, 4, 7, 2, 5, 8, 3, 6, 9⟩ : Mat3 ℤ) ∧
    ¬ ∃ m : Mat3 ℤ, ReadsColumns [1, 2, 3, 4, 5, 6, 7, 8] m := by
  constructor
  · simp [ReadsColumns]
  · rintro ⟨m, h⟩; simp [ReadsColumns] at h

end CrystSymm
