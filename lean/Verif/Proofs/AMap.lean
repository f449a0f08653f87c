import Verif.Model.Structure
import Mathlib.Data.List.Count
import Mathlib.Data.List.Nodup
import Mathlib.Data.List.Perm.Basic

set_option autoImplicit false

/-! # Association maps and the tallies of `get_min_element` -/

namespace CrystSymm

section
variable {κ β : Type} [DecidableEq κ]

theorem amapGet?_nil (k : κ) : amapGet? ([] : List (κ × β)) k = none := rfl

theorem amapGet?_cons (k' : κ) (v : β) (m : List (κ × β)) (k : κ) :
    amapGet? ((k', v) :: m) k = if k' = k then some v else amapGet? m k := by
  unfold amapGet?
  by_cases h : k' = k <;> simp [h]

theorem amapGet?_upsert (m : List (κ × β)) (k : κ) (d : β) (f : β → β) (k' : κ) :
    amapGet? (amapUpsert m k d f) k' = if k = k' then some (f ((amapGet? m k).getD d)) else amapGet? m k' := by
  induction m with
  | nil => simp [amapUpsert, amapGet?_cons, amapGet?_nil]
  | cons p m ih =>
    obtain ⟨q, v⟩ := p
    rw [amapUpsert]
    by_cases h : q = k
    · subst h
      rw [if_pos rfl, amapGet?_cons, amapGet?_cons, amapGet?_cons]
      by_cases h' : q = k' <;> simp [h']
    · rw [if_neg h, amapGet?_cons, ih, amapGet?_cons, amapGet?_cons, if_neg h]
      by_cases h' : q = k'
      · subst h'
        simp [Ne.symm h]
      · simp [h']

theorem amapUpsert_keys (m : List (κ × β)) (k : κ) (d : β) (f : β → β) :
    (amapUpsert m k d f).map Prod.fst = if k ∈ m.map Prod.fst then m.map Prod.fst else m.map Prod.fst ++ [k] := by
  induction m with
  | nil => simp [amapUpsert]
  | cons p m ih =>
    obtain ⟨q, v⟩ := p
    rw [amapUpsert]
    by_cases h : q = k
    · subst h; simp
    · rw [if_neg h, List.map_cons, ih]
      by_cases h2 : k ∈ m.map Prod.fst
      · rw [if_pos h2, if_pos (by simp [h2])]; rfl
      · rw [if_neg h2, if_neg]
        · rfl
        · rw [List.map_cons, List.mem_cons, not_or]
          exact ⟨fun h3 => h h3.symm, h2⟩

theorem amapUpsert_nodup {m : List (κ × β)} (h : (m.map Prod.fst).Nodup) (k : κ) (d : β) (f : β → β) :
    ((amapUpsert m k d f).map Prod.fst).Nodup := by
  rw [amapUpsert_keys]
  split
  · exact h
  · rename_i hk
    rw [List.nodup_append]
    refine ⟨h, by simp, ?_⟩
    intro a ha b hb
    simp only [List.mem_singleton] at hb
    subst hb
    rintro rfl
    exact hk ha

theorem mem_iff_amapGet? {m : List (κ × β)} (h : (m.map Prod.fst).Nodup) (k : κ) (v : β) :
    (k, v) ∈ m ↔ amapGet? m k = some v := by
  induction m with
  | nil => simp [amapGet?_nil]
  | cons p m ih =>
    obtain ⟨q, w⟩ := p
    rw [List.map_cons, List.nodup_cons] at h
    rw [List.mem_cons, ih h.2, amapGet?_cons, Prod.mk.injEq]
    by_cases hq : q = k
    · subst hq
      rw [if_pos rfl]
      constructor
      · rintro (⟨-, rfl⟩ | h')
        · rfl
        · exact absurd (List.mem_map_of_mem (f := Prod.fst) ((ih h.2).2 h')) h.1
      · intro h'
        simp only [Option.some.injEq] at h'
        exact Or.inl ⟨rfl, h'.symm⟩
    · rw [if_neg hq]
      constructor
      · rintro (⟨rfl, -⟩ | h')
        · exact absurd rfl hq
        · exact h'
      · exact Or.inr

theorem mem_keys_iff_amapGet? (m : List (κ × β)) (k : κ) :
    k ∈ m.map Prod.fst ↔ (amapGet? m k).isSome := by
  induction m with
  | nil => simp [amapGet?_nil]
  | cons p m ih =>
    obtain ⟨q, w⟩ := p
    rw [List.map_cons, List.mem_cons, ih, amapGet?_cons]
    by_cases hq : q = k
    · simp [hq]
    · simp [hq, Ne.symm hq]

/-- two association lists that are permutations of each other look up the same values. -/
theorem amapGet?_perm {m m' : List (κ × β)} (h : (m.map Prod.fst).Nodup) (hp : m'.Perm m) (k : κ) :
    amapGet? m' k = amapGet? m k := by
  have h' : (m'.map Prod.fst).Nodup := (hp.map Prod.fst).nodup_iff.2 h
  ext v
  rw [← mem_iff_amapGet? h', ← mem_iff_amapGet? h, hp.mem_iff]

end

/-! ### tallies -/

theorem typeCount_append (l : List String) (e : String) :
    Structure.typeCount (l ++ [e]) = amapUpsert (Structure.typeCount l) e 0 fun n => (n + 1) % 65536 := by
  simp [Structure.typeCount, List.foldl_append]

theorem typeCount_nodup (l : List String) : ((Structure.typeCount l).map Prod.fst).Nodup := by
  induction l using List.reverseRecOn with
  | nil => simp [Structure.typeCount]
  | append_singleton l e ih => rw [typeCount_append]; exact amapUpsert_nodup ih _ _ _

theorem typeCount_get (l : List String) (k : String) :
    amapGet? (Structure.typeCount l) k = if k ∈ l then some (l.count k % 65536) else none := by
  induction l using List.reverseRecOn generalizing k with
  | nil => simp [Structure.typeCount, amapGet?_nil]
  | append_singleton l e ih =>
    rw [typeCount_append, amapGet?_upsert, ih, ih]
    by_cases h : e = k
    · subst h
      rw [if_pos rfl, if_pos (show e ∈ l ++ [e] by simp)]
      by_cases h2 : e ∈ l
      · rw [if_pos h2]
        simp only [Option.getD_some, List.count_append, List.count_singleton_self, Option.some.injEq]
        omega
      · rw [if_neg h2]
        simp [List.count_append, List.count_eq_zero_of_not_mem h2]
    · rw [if_neg h]
      simp [List.count_append, h, Ne.symm h]

theorem eleInds_append (l : List String) (e : String) :
    Structure.eleInds (l ++ [e]) = amapUpsert (Structure.eleInds l) e (l.length % 65536) id := by
  simp [Structure.eleInds, List.zipIdx_append, List.foldl_append]

theorem eleInds_nodup (l : List String) : ((Structure.eleInds l).map Prod.fst).Nodup := by
  induction l using List.reverseRecOn with
  | nil => simp [Structure.eleInds]
  | append_singleton l e ih => rw [eleInds_append]; exact amapUpsert_nodup ih _ _ _

theorem eleInds_get (l : List String) (k : String) :
    amapGet? (Structure.eleInds l) k = if k ∈ l then some (l.idxOf k % 65536) else none := by
  induction l using List.reverseRecOn generalizing k with
  | nil => simp [Structure.eleInds, amapGet?_nil]
  | append_singleton l e ih =>
    rw [eleInds_append, amapGet?_upsert, ih, ih]
    by_cases h : e = k
    · subst h
      rw [if_pos rfl, if_pos (show e ∈ l ++ [e] by simp)]
      by_cases h2 : e ∈ l
      · rw [if_pos h2, List.idxOf_append_of_mem h2]; rfl
      · rw [if_neg h2, List.idxOf_append_of_notMem h2]
        simp
    · rw [if_neg h]
      by_cases h2 : k ∈ l
      · rw [if_pos h2, if_pos (by simp [h2]), List.idxOf_append_of_mem h2]
      · rw [if_neg h2, if_neg (by simp [h2, Ne.symm h])]

theorem minByKey_append (l : List (String × ℕ)) (e : String × ℕ) :
    Structure.minByKey (l ++ [e]) = match Structure.minByKey l with
      | none => some e
      | some m => if e.2 < m.2 then some e else some m := by
  unfold Structure.minByKey
  rw [List.foldl_append]
  rfl

theorem minByKey_eq_none (l : List (String × ℕ)) : Structure.minByKey l = none ↔ l = [] := by
  induction l using List.reverseRecOn with
  | nil => simp [Structure.minByKey]
  | append_singleton l e _ =>
    rw [minByKey_append]
    cases h : Structure.minByKey l with
    | none => simp
    | some m => simp only; split <;> simp

/-- on a list sorted by name, the entry selected has the least value and, among those, the first name. -/
theorem minByKey_spec {l : List (String × ℕ)} (hs : l.Pairwise fun a b => a.1 ≤ b.1) {m : String × ℕ}
    (h : Structure.minByKey l = some m) :
    m ∈ l ∧ ∀ e ∈ l, m.2 < e.2 ∨ (m.2 = e.2 ∧ m.1 ≤ e.1) := by
  induction l using List.reverseRecOn generalizing m with
  | nil => simp [Structure.minByKey] at h
  | append_singleton l e ih =>
    rw [minByKey_append] at h
    rw [List.pairwise_append] at hs
    cases h0 : Structure.minByKey l with
    | none =>
      rw [minByKey_eq_none] at h0
      subst h0
      simp [Structure.minByKey] at h
      subst h
      simp
    | some m0 =>
      obtain ⟨i1, i2⟩ := ih hs.1 h0
      rw [h0] at h
      simp only at h
      split at h
      · rename_i hlt
        simp only [Option.some.injEq] at h
        subst h
        refine ⟨by simp, ?_⟩
        intro x hx
        rcases List.mem_append.1 hx with hx | hx
        · rcases i2 x hx with h' | h' <;> left <;> omega
        · simp only [List.mem_singleton] at hx
          subst hx; right; exact ⟨rfl, le_refl _⟩
      · rename_i hlt
        simp only [Option.some.injEq] at h
        subst h
        refine ⟨by simp [i1], ?_⟩
        intro x hx
        rcases List.mem_append.1 hx with hx | hx
        · exact i2 x hx
        · simp only [List.mem_singleton] at hx
          subst hx
          rcases Nat.lt_or_ge m0.2 x.2 with h' | h'
          · exact Or.inl h'
          · exact Or.inr ⟨by omega, hs.2.2 m0 i1 x (by simp)⟩

end CrystSymm
