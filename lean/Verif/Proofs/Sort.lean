import Verif.Model.Structure
import Mathlib.Data.List.Sort
import Mathlib.Order.Basic

set_option autoImplicit false

/-! # Stable sorting by a string key -/

namespace CrystSymm

section
variable {α : Type} (key : α → String)

/-- the comparison used by `sort_by(|a, b| a.0.cmp(b.0))`. -/
def keyLe (p q : α) : Bool := decide (key p ≤ key q)

theorem keyLe_trans (a b c : α) (h1 : keyLe key a b = true) (h2 : keyLe key b c = true) :
    keyLe key a c = true := by
  simp only [keyLe, decide_eq_true_eq] at *
  exact le_trans h1 h2

theorem keyLe_total (a b : α) : (keyLe key a b || keyLe key b a) = true := by
  simp only [keyLe, Bool.or_eq_true, decide_eq_true_eq]
  exact le_total _ _

theorem mergeSort_key_sorted (l : List α) :
    (l.mergeSort (keyLe key)).Pairwise fun a b => key a ≤ key b := by
  have := List.pairwise_mergeSort (keyLe_trans key) (keyLe_total key) l
  exact this.imp fun h => by simpa [keyLe] using h

theorem mergeSort_key_of_sorted {l : List α} (h : l.Pairwise fun a b => key a ≤ key b) :
    l.mergeSort (keyLe key) = l :=
  List.mergeSort_of_pairwise (h.imp fun h => by simpa [keyLe] using h)

theorem mergeSort_key_filter (l : List α) (k : String) :
    (l.mergeSort (keyLe key)).filter (fun a => key a = k) = l.filter (fun a => key a = k) := by
  have h1 : (l.filter fun a => key a = k).Pairwise fun a b => keyLe key a b = true := by
    apply List.Pairwise.imp_of_mem (R := fun _ _ => True)
    · intro a b ha hb _
      simp only [List.mem_filter, decide_eq_true_eq] at ha hb
      simp [keyLe, ha.2, hb.2]
    · exact List.pairwise_of_forall fun _ _ => trivial
  have h2 := List.sublist_mergeSort (keyLe_trans key) (keyLe_total key) h1 List.filter_sublist
  have h3 := h2.filter (fun a => decide (key a = k))
  rw [List.filter_filter] at h3
  simp only [Bool.and_self] at h3
  symm
  apply h3.eq_of_length
  exact ((List.mergeSort_perm l _).filter _).length_eq.symm

end

end CrystSymm
