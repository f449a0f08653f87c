import Verif.Spec.Basic
import Mathlib.Data.List.Basic

set_option autoImplicit false

/-! # Specification of generated sets and matrix groups -/

namespace CrystSymm.Spec

/-- `x` is a non-empty finite product of members of `gens`. -/
def ProductOf {α : Type} [Mul α] (gens : List α) (x : α) : Prop :=
  ∃ (g : α) (l : List α), g ∈ gens ∧ (∀ y ∈ l, y ∈ gens) ∧ x = l.foldl (fun a b => a * b) g

/-- a finite group of integer matrices, listed without repetition, of the given order. -/
structure IsMatrixGroup (ops : List (Mat3 ℤ)) (order : ℕ) : Prop where
  nodup : ops.Nodup
  order : ops.length = order
  one : 1 ∈ ops
  mul : ∀ a ∈ ops, ∀ b ∈ ops, a * b ∈ ops
  inv : ∀ a ∈ ops, ∃ b ∈ ops, a * b = 1 ∧ b * a = 1

end CrystSymm.Spec
