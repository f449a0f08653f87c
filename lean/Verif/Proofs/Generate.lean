import Verif.Model.PointGroup
import Verif.Spec.Generated
import Mathlib.Algebra.Group.Defs
import Mathlib.Data.Fintype.Card
import Mathlib.Data.Finset.Card

set_option autoImplicit false

/-! # `generate_operations` -/

set_option linter.unusedSectionVars false

namespace CrystSymm

open Spec PointGroup

section
variable {α : Type} [DecidableEq α]

theorem mem_setInsert {s : List α} {a x : α} : x ∈ setInsert s a ↔ x ∈ s ∨ x = a := by
  unfold setInsert
  split
  · constructor
    · exact Or.inl
    · rintro (h | rfl)
      · exact h
      · assumption
  · simp

theorem nodup_setInsert {s : List α} {a : α} (h : s.Nodup) : (setInsert s a).Nodup := by
  unfold setInsert
  split
  · exact h
  · rename_i ha
    rw [List.nodup_append]
    exact ⟨h, by simp, by rintro x hx y hy rfl; simp at hy; subst hy; exact ha hx⟩

theorem foldl_setInsert (l s : List α) :
    (∀ x, x ∈ l.foldl setInsert s ↔ x ∈ s ∨ x ∈ l) ∧ (s.Nodup → (l.foldl setInsert s).Nodup) := by
  induction l generalizing s with
  | nil => simp
  | cons a l ih =>
    refine ⟨fun x => ?_, fun hs => (ih _).2 (nodup_setInsert hs)⟩
    rw [List.foldl_cons, (ih _).1, mem_setInsert, List.mem_cons, or_assoc]

theorem mem_setFromIter {l : List α} {x : α} : x ∈ setFromIter l ↔ x ∈ l := by
  unfold setFromIter; rw [(foldl_setInsert l []).1]; simp

theorem nodup_setFromIter (l : List α) : (setFromIter l).Nodup := (foldl_setInsert l []).2 List.nodup_nil

variable [Mul α]

/-- the inner double loop. -/
theorem foldl_genStep (ps : List (α × α)) (s n : List α) (hs : s.Nodup) (hn : n.Nodup) (hsub : ∀ x ∈ n, x ∈ s) :
    let r := ps.foldl genStep (s, n)
    r.1.Nodup ∧ r.2.Nodup ∧ (∀ x, x ∈ r.1 ↔ x ∈ s ∨ ∃ p ∈ ps, x = p.1 * p.2) ∧
      (∀ x, x ∈ r.2 ↔ x ∈ n ∨ (x ∈ r.1 ∧ x ∉ s)) := by
  induction ps generalizing s n with
  | nil =>
    refine ⟨hs, hn, by simp, fun x => ?_⟩
    simp only [List.foldl_nil]
    constructor
    · exact Or.inl
    · rintro (h | ⟨h1, h2⟩)
      · exact h
      · exact absurd h1 h2
  | cons p ps ih =>
    simp only [List.foldl_cons]
    by_cases hp : p.1 * p.2 ∈ s
    · have e : genStep (s, n) p = (s, n) := by simp [genStep, hp]
      rw [e]
      obtain ⟨h1, h2, h3, h4⟩ := ih s n hs hn hsub
      refine ⟨h1, h2, fun x => ?_, h4⟩
      rw [h3]
      constructor
      · rintro (h | ⟨q, hq, rfl⟩)
        · exact Or.inl h
        · exact Or.inr ⟨q, by simp [hq], rfl⟩
      · rintro (h | ⟨q, hq, rfl⟩)
        · exact Or.inl h
        · rcases List.mem_cons.1 hq with rfl | hq
          · exact Or.inl hp
          · exact Or.inr ⟨q, hq, rfl⟩
    · have e : genStep (s, n) p = (setInsert s (p.1 * p.2), setInsert n (p.1 * p.2)) := by simp [genStep, hp]
      rw [e]
      obtain ⟨h1, h2, h3, h4⟩ := ih _ _ (nodup_setInsert (a := p.1 * p.2) hs)
        (nodup_setInsert (a := p.1 * p.2) hn) (by
          intro x hx
          rw [mem_setInsert] at hx ⊢
          rcases hx with hx | hx
          · exact Or.inl (hsub x hx)
          · exact Or.inr hx)
      refine ⟨h1, h2, fun x => ?_, fun x => ?_⟩
      · rw [h3, mem_setInsert]
        simp only [List.mem_cons, exists_eq_or_imp]
        tauto
      · rw [h4, mem_setInsert, mem_setInsert]
        constructor
        · rintro ((h | rfl) | ⟨ha, hb⟩)
          · exact Or.inl h
          · exact Or.inr ⟨(h3 _).2 (Or.inl (mem_setInsert.2 (Or.inr rfl))), hp⟩
          · exact Or.inr ⟨ha, fun h => hb (Or.inl h)⟩
        · rintro (h | ⟨ha, hb⟩)
          · exact Or.inl (Or.inl h)
          · by_cases hx : x = p.1 * p.2
            · exact Or.inl (Or.inr hx)
            · exact Or.inr ⟨ha, by rintro (h | h); exacts [hb h, hx h]⟩

/-- loop invariant of the `while` loop. -/
structure GenInv (gens s n : List α) : Prop where
  nodupS : s.Nodup
  nodupN : n.Nodup
  sub : ∀ x ∈ n, x ∈ s
  base : ∀ g ∈ gens, g ∈ s
  sound : ∀ x ∈ s, ProductOf gens x
  closed : ∀ g ∈ gens, ∀ x ∈ s, x ∉ n → g * x ∈ s

end

section Semigroup
variable {α : Type} [DecidableEq α] [Semigroup α]

theorem foldl_mul_assoc (a b : α) (l : List α) :
    a * l.foldl (fun a b => a * b) b = l.foldl (fun a b => a * b) (a * b) := by
  induction l generalizing b with
  | nil => rfl
  | cons c l ih => rw [List.foldl_cons, List.foldl_cons, ih, mul_assoc]

theorem productOf_mul {gens : List α} {x y : α} (hx : ProductOf gens x) (hy : ProductOf gens y) :
    ProductOf gens (x * y) := by
  obtain ⟨g, l, hg, hl, rfl⟩ := hx
  obtain ⟨g', l', hg', hl', rfl⟩ := hy
  refine ⟨g, l ++ g' :: l', hg, ?_, ?_⟩
  · intro z hz
    rcases List.mem_append.1 hz with hz | hz
    · exact hl z hz
    · rcases List.mem_cons.1 hz with rfl | hz
      · exact hg'
      · exact hl' z hz
  · rw [List.foldl_append, List.foldl_cons, foldl_mul_assoc]

/-- a set containing the generators and closed under multiplication by them from the left contains all
products. -/
theorem productOf_mem {gens s : List α} (h1 : ∀ g ∈ gens, g ∈ s) (h2 : ∀ g ∈ gens, ∀ x ∈ s, g * x ∈ s)
    {x : α} (hx : ProductOf gens x) : x ∈ s := by
  obtain ⟨g, l, hg, hl, rfl⟩ := hx
  induction l generalizing g with
  | nil => exact h1 g hg
  | cons c l ih =>
    rw [List.foldl_cons, ← foldl_mul_assoc]
    exact h2 g hg _ (ih c (hl c (by simp)) fun y hy => hl y (by simp [hy]))

theorem genInv_step {gens s n : List α} (h : GenInv gens s n) {s' n' : List α} (hs' : s'.Perm s)
    (hn' : n'.Perm n) :
    let r := (s'.flatMap fun m1 => n'.map fun m2 => (m1, m2)).foldl genStep (s, [])
    GenInv gens r.1 r.2 ∧ (r.2 ≠ [] → s.length < r.1.length) := by
  intro r
  obtain ⟨h1, h2, h3, h4⟩ := foldl_genStep (s'.flatMap fun m1 => n'.map fun m2 => (m1, m2)) s [] h.nodupS
    List.nodup_nil (by simp)
  have hp : ∀ a b, a ∈ s → b ∈ n → (a, b) ∈ s'.flatMap fun m1 => n'.map fun m2 => (m1, m2) := by
    intro a b ha hb
    rw [List.mem_flatMap]
    exact ⟨a, hs'.mem_iff.2 ha, List.mem_map.2 ⟨b, hn'.mem_iff.2 hb, rfl⟩⟩
  have hq : ∀ p ∈ s'.flatMap fun m1 => n'.map fun m2 => (m1, m2), p.1 ∈ s ∧ p.2 ∈ n := by
    intro p hp
    obtain ⟨a, ha, hb'⟩ := List.mem_flatMap.1 hp
    obtain ⟨b, hb, rfl⟩ := List.mem_map.1 hb'
    exact ⟨hs'.mem_iff.1 ha, hn'.mem_iff.1 hb⟩
  refine ⟨⟨h1, h2, ?_, ?_, ?_, ?_⟩, ?_⟩
  · intro x hx
    rcases (h4 x).1 hx with hx | hx
    · simp at hx
    · exact hx.1
  · intro g hg
    exact (h3 g).2 (Or.inl (h.base g hg))
  · intro x hx
    rcases (h3 x).1 hx with hx | ⟨p, hp', rfl⟩
    · exact h.sound x hx
    · obtain ⟨ha, hb⟩ := hq p hp'
      exact productOf_mul (h.sound _ ha) (h.sound _ (h.sub _ hb))
  · intro g hg x hx hxn
    have hxs : x ∈ s := by
      by_contra hxs
      exact hxn ((h4 x).2 (Or.inr ⟨hx, hxs⟩))
    by_cases hxn' : x ∈ n
    · exact (h3 _).2 (Or.inr ⟨(g, x), hp g x (h.base g hg) hxn', rfl⟩)
    · exact (h3 _).2 (Or.inl (h.closed g hg x hxs hxn'))
  · intro hne
    obtain ⟨x, hx⟩ := List.exists_mem_of_ne_nil _ hne
    rcases (h4 x).1 hx with hx' | ⟨hx1, hx2⟩
    · simp at hx'
    · have hsub : s ⊆ r.1 := fun y hy => (h3 y).2 (Or.inl hy)
      have hcard := List.subperm_of_subset h.nodupS hsub
      rcases lt_or_eq_of_le hcard.length_le with hlt | heq
      · exact hlt
      · exact absurd ((hcard.perm_of_length_le heq.ge).mem_iff.2 hx1) hx2

theorem genLoop_spec {o : HashOrd α} (ho : IsHashOrd o) {gens : List α} :
    ∀ (fuel round : ℕ) (s n : List α), GenInv gens s n → ∀ ops, genLoop o fuel round s n = .ret ops →
      ops.Nodup ∧ ∀ x, x ∈ ops ↔ ProductOf gens x := by
  intro fuel
  induction fuel with
  | zero => intro round s n _ ops h; simp [genLoop] at h
  | succ fuel ih =>
    intro round s n hinv ops h
    unfold genLoop at h
    split at h
    · rename_i hn
      simp only [Outcome.ret.injEq] at h
      subst h
      have hn : n = [] := by simpa using hn
      subst hn
      have hp := ho (2 * round) s
      refine ⟨hp.nodup_iff.2 hinv.nodupS, fun x => ?_⟩
      rw [hp.mem_iff]
      exact ⟨hinv.sound x, productOf_mem hinv.base fun g hg x hx => hinv.closed g hg x hx (by simp)⟩
    · exact ih _ _ _ (genInv_step hinv (ho _ _) (ho _ _)).1 ops h

theorem genLoop_ret [Fintype α] {o : HashOrd α} (ho : IsHashOrd o) {gens : List α} :
    ∀ (fuel round : ℕ) (s n : List α), GenInv gens s n →
      (Fintype.card α + 2 ≤ fuel + s.length) → 2 ≤ fuel → ∃ ops, genLoop o fuel round s n = .ret ops := by
  intro fuel
  induction fuel with
  | zero => intro round s n _ _ h2; omega
  | succ fuel ih =>
    intro round s n hinv h1 h2
    unfold genLoop
    split
    · exact ⟨_, rfl⟩
    · obtain ⟨hi, hlt⟩ := genInv_step hinv (ho (2 * round) s) (ho (2 * round + 1) n)
      simp only at hi hlt ⊢
      set r := ((o (2 * round) s).flatMap fun m1 => (o (2 * round + 1) n).map fun m2 => (m1, m2)).foldl genStep
        (s, []) with hr
      by_cases hne : r.2 = []
      · obtain ⟨k, rfl⟩ : ∃ k, fuel = k + 1 := ⟨fuel - 1, by omega⟩
        unfold genLoop
        rw [if_pos (by simp [hne])]
        exact ⟨_, rfl⟩
      · have hlt := hlt hne
        have hle : r.1.length ≤ Fintype.card α := hi.nodupS.length_le_card
        exact ih _ _ _ hi (by omega) (by omega)

end Semigroup

end CrystSymm
