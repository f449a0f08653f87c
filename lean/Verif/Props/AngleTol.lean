import Verif.Model.Lib

set_option autoImplicit false
set_option linter.unusedSectionVars false

/-! # C94: the angle tolerance -/

namespace CrystSymm

section
variable {K : Type} [Add K] [Sub K] [Mul K] [Div K] [Neg K] [Zero K] [One K] [IntCast K]
  [LT K] [LE K] [DecidableLT K] [DecidableLE K] [BEq K] [FRound K] [FTrans K]

/-- **C94.** In any arithmetic, no result of any function of the crate that is given an angle tolerance depends on it. -/
theorem C94_angle_tolerance_unused (dtol atol atol' : K) (h : HashOrders K) (fuel : ℕ) (s : Structure K) :
    (∀ ord, (⟨dtol, atol⟩ : Reducer K).findPrimitiveCell ord s = (⟨dtol, atol'⟩ : Reducer K).findPrimitiveCell ord s) ∧
    (∀ tol, (⟨dtol, atol⟩ : Reducer K).niggliReduce s tol = (⟨dtol, atol'⟩ : Reducer K).niggliReduce s tol) ∧
    (∀ full, (⟨dtol, atol⟩ : Reducer K).delaunayReduce s full = (⟨dtol, atol'⟩ : Reducer K).delaunayReduce s full) ∧
    (⟨dtol, atol⟩ : SymmetryAnalyzer K).getStandardConventionalStructure h fuel s =
      (⟨dtol, atol'⟩ : SymmetryAnalyzer K).getStandardConventionalStructure h fuel s ∧
    (⟨dtol, atol⟩ : SymmetryAnalyzer K).getStandardPrimitiveStructure h fuel s =
      (⟨dtol, atol'⟩ : SymmetryAnalyzer K).getStandardPrimitiveStructure h fuel s ∧
    (⟨dtol, atol⟩ : SymmetryAnalyzer K).getSpaceGroupInfo h fuel s = (⟨dtol, atol'⟩ : SymmetryAnalyzer K).getSpaceGroupInfo h fuel s :=
  ⟨fun _ => rfl, fun _ => rfl, fun _ => rfl, rfl, rfl, rfl⟩

/-- **C94 for the Python functions.** -/
theorem C94_python (dtol atol atol' : K) (h : HashOrders K) (fuel : ℕ) (lattice : List K) (sp : List String) (cs : List (List K))
    (cart : Bool) :
    PyApi.findPrimitive h lattice sp cs cart dtol atol = PyApi.findPrimitive h lattice sp cs cart dtol atol' ∧
    PyApi.getSpaceGroupInfo h fuel lattice sp cs cart dtol atol = PyApi.getSpaceGroupInfo h fuel lattice sp cs cart dtol atol' ∧
    PyApi.getStandardConventionalStructure h fuel lattice sp cs cart dtol atol =
      PyApi.getStandardConventionalStructure h fuel lattice sp cs cart dtol atol' ∧
    PyApi.getStandardPrimitiveStructure h fuel lattice sp cs cart dtol atol =
      PyApi.getStandardPrimitiveStructure h fuel lattice sp cs cart dtol atol' :=
  ⟨rfl, rfl, rfl, rfl⟩

/-- an angle tolerance of zero and one of a thousand give the same. -/
example (h : HashOrders K) (fuel : ℕ) (s : Structure K) : (⟨lit 1 / lit 20, lit 0⟩ : SymmetryAnalyzer K).getSpaceGroupInfo h fuel s =
    (⟨lit 1 / lit 20, lit 1000⟩ : SymmetryAnalyzer K).getSpaceGroupInfo h fuel s :=
  (C94_angle_tolerance_unused _ _ _ h fuel s).2.2.2.2.2

end

end CrystSymm
