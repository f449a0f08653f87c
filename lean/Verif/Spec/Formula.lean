import Mathlib.Data.List.Count
import Mathlib.Data.String.Basic

set_option autoImplicit false

/-! # Specification of chemical formulas -/

namespace CrystSymm.Spec

/-- one entry of a formula: the symbol, followed by the number unless it is 1. -/
def formulaEntry (e : String) (n : ℕ) : String := if n = 1 then e else e ++ toString n

/-- the formula of a list of elements: strictly alphabetical, each with its number. -/
def formulaOf (es : List String) (n : String → ℕ) : String :=
  es.foldl (fun acc e => acc ++ formulaEntry e (n e)) ""

/-- `es` lists the elements that occur in `species`, alphabetically, each once. -/
def ElementsOf (es species : List String) : Prop :=
  es.Pairwise (· < ·) ∧ ∀ e, e ∈ es ↔ e ∈ species

/-- `g` is the greatest common divisor of the numbers of sites of the elements. -/
def IsGcdOfCounts (g : ℕ) (species : List String) : Prop :=
  (∀ e ∈ species, g ∣ species.count e) ∧ ∀ d, (∀ e ∈ species, d ∣ species.count e) → d ∣ g

end CrystSymm.Spec
