import Mathlib.Data.List.Basic
import Mathlib.Data.List.Infix

set_option autoImplicit false

/-! # Greedy collection of pairwise different elements -/

namespace CrystSymm

variable {α : Type}

/-- append `c` unless it is similar to something already collected. -/
def greedyAdd (r : α → α → Bool) (acc : List α) (c : α) : List α :=
  if acc.any (fun p => r c p) then acc else acc ++ [c]

/-- collect from a list. -/
def greedy (r : α → α → Bool) (acc cs : List α) : List α := cs.foldl (greedyAdd r) acc

theorem greedy_cons (r : α → α → Bool) (acc : List α) (c : α) (cs : List α) :
    greedy r acc (c :: cs) = greedy r (greedyAdd r acc c) cs := rfl

theorem greedyAdd_prefix (r : α → α → Bool) (acc : List α) (c : α) : acc <+: greedyAdd r acc c := by
  unfold greedyAdd
  split
  · exact List.prefix_refl _
  · exact List.prefix_append _ _

theorem greedy_prefix (r : α → α → Bool) (acc cs : List α) : acc <+: greedy r acc cs := by
  induction cs generalizing acc with
  | nil => exact List.prefix_refl _
  | cons c cs ih => exact (greedyAdd_prefix r acc c).trans (ih _)

theorem mem_greedyAdd {r : α → α → Bool} {acc : List α} {c p : α} (h : p ∈ greedyAdd r acc c) :
    p ∈ acc ∨ p = c := by
  unfold greedyAdd at h
  split at h
  · exact Or.inl h
  · simpa using h

theorem mem_greedy {r : α → α → Bool} {acc cs : List α} {p : α} (h : p ∈ greedy r acc cs) :
    p ∈ acc ∨ p ∈ cs := by
  induction cs generalizing acc with
  | nil => exact Or.inl h
  | cons c cs ih =>
    rcases ih h with h | h
    · rcases mem_greedyAdd h with h | h
      · exact Or.inl h
      · right; simp [h]
    · right; simp [h]

/-- no element is similar to an earlier one. -/
def Distinct (r : α → α → Bool) (l : List α) : Prop := l.Pairwise fun p q => r q p = false

theorem greedyAdd_distinct {r : α → α → Bool} {acc : List α} (c : α) (h : Distinct r acc) :
    Distinct r (greedyAdd r acc c) := by
  unfold greedyAdd
  split
  · exact h
  · rename_i hn
    unfold Distinct
    rw [List.pairwise_append]
    refine ⟨h, by simp, ?_⟩
    intro p hp q hq
    simp only [List.mem_singleton] at hq
    subst hq
    by_contra hc
    apply hn
    rw [List.any_eq_true]
    exact ⟨p, hp, by simpa using hc⟩

theorem greedy_distinct {r : α → α → Bool} {acc : List α} (cs : List α) (h : Distinct r acc) :
    Distinct r (greedy r acc cs) := by
  induction cs generalizing acc with
  | nil => exact h
  | cons c cs ih => exact ih (greedyAdd_distinct c h)

theorem greedy_covers {r : α → α → Bool} {acc cs : List α} {c : α} (hc : c ∈ cs) :
    ∃ p ∈ greedy r acc cs, p = c ∨ r c p = true := by
  induction cs generalizing acc with
  | nil => simp at hc
  | cons d cs ih =>
    rcases List.mem_cons.1 hc with rfl | h
    · have : ∃ p ∈ greedyAdd r acc c, p = c ∨ r c p = true := by
        unfold greedyAdd
        split
        · rename_i h
          rw [List.any_eq_true] at h
          obtain ⟨p, hp, hr⟩ := h
          exact ⟨p, hp, Or.inr hr⟩
        · exact ⟨c, by simp, Or.inl rfl⟩
      obtain ⟨p, hp, h⟩ := this
      exact ⟨p, (greedy_prefix r _ cs).subset hp, h⟩
    · exact ih h

/-- if everything is already represented, nothing is added. -/
theorem greedy_eq_self {r : α → α → Bool} {acc cs : List α}
    (h : ∀ c ∈ cs, ∃ p ∈ acc, r c p = true) : greedy r acc cs = acc := by
  induction cs with
  | nil => rfl
  | cons c cs ih =>
    rw [greedy_cons]
    have : greedyAdd r acc c = acc := by
      unfold greedyAdd
      rw [if_pos]
      rw [List.any_eq_true]
      obtain ⟨p, hp, hr⟩ := h c (by simp)
      exact ⟨p, hp, hr⟩
    rw [this]
    exact ih fun c hc => h c (by simp [hc])

end CrystSymm
