import Verif.Proofs.AMap
import Verif.Proofs.Sort
import Verif.Spec.Formula
import Mathlib.Algebra.GCDMonoid.Nat

set_option autoImplicit false

/-! # Tallies of `formulas` -/

namespace CrystSymm

open Spec

theorem toInt_ofNat {n : ℕ} (h : n < 128) : (Int8.ofNat n).toInt = n :=
  Int8.toInt_ofNat_of_lt (by omega)

theorem ofNat_succ (n : ℕ) : Int8.ofNat n + 1 = Int8.ofNat (n + 1) := by
  rw [Int8.ofNat_add]; rfl

theorem formulaTally_append (l : List String) (e : String) :
    Structure.formulaTally (l ++ [e]) =
      (let acc := Structure.formulaTally l
       let m := amapUpsert acc.1 e 0 fun n => n + 1
       let count := (amapGet? m e).getD 0
       (m, if acc.2 < count then count else acc.2)) := by
  unfold Structure.formulaTally
  rw [List.foldl_append]
  rfl

theorem formulaTally_nodup (l : List String) : ((Structure.formulaTally l).1.map Prod.fst).Nodup := by
  induction l using List.reverseRecOn with
  | nil => simp [Structure.formulaTally]
  | append_singleton l e ih => rw [formulaTally_append]; exact amapUpsert_nodup ih _ _ _

theorem formulaTally_get (l : List String) (k : String) :
    amapGet? (Structure.formulaTally l).1 k = if k ∈ l then some (Int8.ofNat (l.count k)) else none := by
  induction l using List.reverseRecOn generalizing k with
  | nil => simp [Structure.formulaTally, amapGet?_nil]
  | append_singleton l e ih =>
    rw [formulaTally_append]
    simp only
    rw [amapGet?_upsert, ih, ih]
    by_cases h : e = k
    · subst h
      rw [if_pos rfl, if_pos (show e ∈ l ++ [e] by simp)]
      by_cases h2 : e ∈ l
      · rw [if_pos h2]
        simp only [Option.getD_some, List.count_append, List.count_singleton_self, ofNat_succ]
      · rw [if_neg h2]
        simp [List.count_append, List.count_eq_zero_of_not_mem h2]
    · rw [if_neg h]
      simp [List.count_append, h, Ne.symm h]

theorem formulaTally_max (l : List String) (h : ∀ e, l.count e ≤ 127) :
    ∃ M : ℕ, (Structure.formulaTally l).2 = Int8.ofNat M ∧ (∀ e, l.count e ≤ M) ∧
      (M = 0 ∨ ∃ e ∈ l, l.count e = M) := by
  induction l using List.reverseRecOn with
  | nil => exact ⟨0, rfl, by simp, Or.inl rfl⟩
  | append_singleton l e ih =>
    have h' : ∀ x, l.count x ≤ 127 := fun x => le_trans (by simp) (h x)
    obtain ⟨M, h1, h2, h3⟩ := ih h'
    have hM : M ≤ 127 := by
      rcases h3 with rfl | ⟨x, -, rfl⟩
      · omega
      · exact h' x
    have hcount : (amapGet? (amapUpsert (Structure.formulaTally l).1 e 0 fun n => n + 1) e).getD 0
        = Int8.ofNat ((l ++ [e]).count e) := by
      have := formulaTally_get (l ++ [e]) e
      rw [formulaTally_append] at this
      simp only at this
      rw [this, if_pos (by simp)]
      rfl
    rw [formulaTally_append]
    simp only [hcount, h1]
    have hce := h e
    by_cases hlt : Int8.ofNat M < Int8.ofNat ((l ++ [e]).count e)
    · rw [if_pos hlt]
      rw [Int8.lt_iff_toInt_lt, toInt_ofNat (by omega), toInt_ofNat (by omega)] at hlt
      refine ⟨_, rfl, ?_, Or.inr ⟨e, by simp, rfl⟩⟩
      intro x
      by_cases hx : x = e
      · rw [hx]
      · have : (l ++ [e]).count x = l.count x := by simp [List.count_append, Ne.symm hx]
        rw [this]
        have := h2 x
        omega
    · rw [if_neg hlt]
      rw [Int8.lt_iff_toInt_lt, toInt_ofNat (by omega), toInt_ofNat (by omega)] at hlt
      refine ⟨M, rfl, ?_, ?_⟩
      · intro x
        by_cases hx : x = e
        · rw [hx]; omega
        · have : (l ++ [e]).count x = l.count x := by simp [List.count_append, Ne.symm hx]
          rw [this]; exact h2 x
      · rcases h3 with h3 | ⟨x, hx, h3⟩
        · exact Or.inl h3
        · refine Or.inr ⟨x, by simp [hx], ?_⟩
          by_cases hxe : x = e
          · subst hxe
            simp only [List.count_append, List.count_singleton_self] at hlt ⊢
            omega
          · simp [List.count_append, Ne.symm hxe, h3]

theorem mod_ofNat_eq_zero {a d : ℕ} (ha : a < 128) (hd : d < 128) (hd0 : 0 < d) :
    (Int8.ofNat a % Int8.ofNat d == 0) = true ↔ d ∣ a := by
  rw [beq_iff_eq, ← Int8.toInt_inj, Int8.toInt_mod, toInt_ofNat ha, toInt_ofNat hd]
  show (a : ℤ).tmod d = 0 ↔ _
  rw [← Int.dvd_iff_tmod_eq_zero, Int.natCast_dvd_natCast]

theorem div_ofNat {a d : ℕ} (ha : a < 128) (hd : d < 128) :
    Int8.ofNat a / Int8.ofNat d = Int8.ofNat (a / d) := by
  have h1 : Int8.ofNat d ≠ -1 := by
    intro h
    rw [← Int8.toInt_inj, toInt_ofNat hd] at h
    have : ((-1 : Int8)).toInt = -1 := by decide
    omega
  rw [← Int8.toInt_inj, Int8.toInt_div_of_ne_right _ _ h1, toInt_ofNat ha, toInt_ofNat hd,
    toInt_ofNat (lt_of_le_of_lt (Nat.div_le_self _ _) ha)]
  rw [Int.tdiv_eq_ediv_of_nonneg (by omega)]
  exact_mod_cast rfl

/-- the greatest-common-factor loop on a range. -/
theorem gcfLoop_spec (P : ℕ → Prop) (t : Int8 → Bool) (n : ℕ) (hn : n + 2 ≤ 128)
    (ht : ∀ d, 2 ≤ d → d < n + 2 → (t (Int8.ofNat d) = true ↔ P d)) :
    ∃ g : ℕ, ((List.range n).map fun (i : ℕ) => Int8.ofInt (2 + (i : ℤ))).foldl
        (fun gcf div => if t div then div else gcf) 1 = Int8.ofNat g ∧
      (g = 1 ∨ (2 ≤ g ∧ g < n + 2 ∧ P g)) ∧ ∀ d, 2 ≤ d → d < n + 2 → P d → d ≤ g := by
  induction n with
  | zero => exact ⟨1, rfl, Or.inl rfl, by omega⟩
  | succ n ih =>
    obtain ⟨g, h1, h2, h3⟩ := ih (by omega) (fun d a b => ht d a (by omega))
    rw [List.range_succ, List.map_append, List.foldl_append, h1]
    have e : Int8.ofInt (2 + (n : ℤ)) = Int8.ofNat (n + 2) := by
      rw [← Int8.toInt_inj, Int8.toInt_ofInt_of_le (by omega) (by omega), toInt_ofNat (by omega)]
      push_cast; ring
    simp only [List.map_cons, List.map_nil, List.foldl_cons, List.foldl_nil, e]
    by_cases hP : P (n + 2)
    · rw [if_pos ((ht _ (by omega) (by omega)).2 hP)]
      exact ⟨n + 2, rfl, Or.inr ⟨by omega, by omega, hP⟩, fun d _ _ _ => by omega⟩
    · rw [if_neg (fun h => hP ((ht _ (by omega) (by omega)).1 h))]
      refine ⟨g, rfl, ?_, ?_⟩
      · rcases h2 with h2 | ⟨a, b, c⟩
        · exact Or.inl h2
        · exact Or.inr ⟨a, by omega, c⟩
      · intro d hd hd' hPd
        rcases Nat.lt_or_ge d (n + 2) with h | h
        · exact h3 d hd h hPd
        · have : d = n + 2 := by omega
          subst this
          exact absurd hPd hP

theorem all_tallies (l : List String) (h : ∀ e, l.count e ≤ 127) {d : ℕ} (hd : 0 < d) (hd' : d < 128) :
    ((Structure.formulaTally l).1.all fun p => p.2 % Int8.ofNat d == 0) = true ↔
      ∀ e ∈ l, d ∣ l.count e := by
  rw [List.all_eq_true]
  constructor
  · intro hall e he
    have hm : (e, Int8.ofNat (l.count e)) ∈ (Structure.formulaTally l).1 := by
      rw [mem_iff_amapGet? (formulaTally_nodup l), formulaTally_get, if_pos he]
    have h5 := hall (e, Int8.ofNat (l.count e)) hm
    have h6 : l.count e < 128 := Nat.lt_of_le_of_lt (h e) (by omega)
    rwa [mod_ofNat_eq_zero h6 hd' hd] at h5
  · rintro hall ⟨e, c⟩ hm
    rw [mem_iff_amapGet? (formulaTally_nodup l), formulaTally_get] at hm
    split at hm
    · rename_i he
      simp only [Option.some.injEq] at hm
      subst hm
      have h6 : l.count e < 128 := Nat.lt_of_le_of_lt (h e) (by omega)
      rw [mod_ofNat_eq_zero h6 hd' hd]
      exact hall e he
    · exact absurd hm (by simp)

theorem formulaGcf_spec (l : List String) (h : ∀ e, l.count e ≤ 126) :
    ∃ g : ℕ, Structure.formulaGcf (Structure.formulaTally l).1 (Structure.formulaTally l).2 = Int8.ofNat g ∧
      0 < g ∧ g < 128 ∧ (l ≠ [] → IsGcdOfCounts g l) := by
  obtain ⟨M, h1, h2, h3⟩ := formulaTally_max l (fun e => le_trans (h e) (by omega))
  have hM : M ≤ 126 := by
    rcases h3 with rfl | ⟨x, -, rfl⟩
    · omega
    · exact h x
  have hr : Structure.divRange (Int8.ofNat M)
      = (List.range (M - 1)).map fun (i : ℕ) => Int8.ofInt (2 + (i : ℤ)) := by
    unfold Structure.divRange
    simp only
    rw [ofNat_succ, toInt_ofNat (by omega)]
    congr 2
    omega
  obtain ⟨g, g1, g2, g3⟩ := gcfLoop_spec (fun d => ∀ e ∈ l, d ∣ l.count e)
    (fun div => (Structure.formulaTally l).1.all fun p => p.2 % div == 0) (M - 1) (by omega)
    (fun d hd hd' => all_tallies l (fun e => le_trans (h e) (by omega)) (by omega) (by omega))
  refine ⟨g, ?_, by omega, by omega, ?_⟩
  · unfold Structure.formulaGcf
    rw [h1, hr]
    exact g1
  · intro hl
    have hPg : ∀ e ∈ l, g ∣ l.count e := by
      rcases g2 with rfl | ⟨-, -, h⟩
      · intro e _; exact one_dvd _
      · exact h
    refine ⟨hPg, ?_⟩
    intro d hd
    obtain ⟨e, he⟩ := List.exists_mem_of_ne_nil l hl
    have hpos : 0 < l.count e := List.count_pos_iff.2 he
    have hlcm : ∀ e ∈ l, d.lcm g ∣ l.count e := fun x hx => Nat.lcm_dvd (hd x hx) (hPg x hx)
    have hle : d.lcm g ≤ M := le_trans (Nat.le_of_dvd hpos (hlcm e he)) (h2 e)
    have hlcm0 : 0 < d.lcm g := Nat.pos_of_dvd_of_pos (hlcm e he) hpos
    have hge : g ≤ d.lcm g := Nat.le_of_dvd hlcm0 (Nat.dvd_lcm_right d g)
    have : d.lcm g ≤ g := by
      rcases Nat.lt_or_ge (d.lcm g) 2 with h | h
      · omega
      · exact g3 _ h (by omega) hlcm
    have heq : d.lcm g = g := by omega
    rw [← heq]
    exact Nat.dvd_lcm_left d g

/-! ### sorting -/

/-- comparison of `(&String, i8)` tuples. -/
def tallyLe (p q : String × Int8) : Bool := decide (p.1 < q.1) || (p.1 == q.1 && decide (p.2 ≤ q.2))

theorem tallyLe_iff (p q : String × Int8) :
    tallyLe p q = true ↔ p.1 < q.1 ∨ (p.1 = q.1 ∧ p.2 ≤ q.2) := by
  simp [tallyLe]

theorem tallyLe_trans (a b c : String × Int8) (h1 : tallyLe a b = true) (h2 : tallyLe b c = true) :
    tallyLe a c = true := by
  rw [tallyLe_iff] at *
  rcases h1 with h1 | ⟨h1, h1'⟩ <;> rcases h2 with h2 | ⟨h2, h2'⟩
  · exact Or.inl (h1.trans h2)
  · exact Or.inl (h2 ▸ h1)
  · exact Or.inl (h1 ▸ h2)
  · exact Or.inr ⟨h1.trans h2, Int8.le_trans h1' h2'⟩

theorem tallyLe_total (a b : String × Int8) : (tallyLe a b || tallyLe b a) = true := by
  rw [Bool.or_eq_true, tallyLe_iff, tallyLe_iff]
  rcases lt_trichotomy a.1 b.1 with h | h | h
  · exact Or.inl (Or.inl h)
  · rcases Int8.le_total a.2 b.2 with h' | h'
    · exact Or.inl (Or.inr ⟨h, h'⟩)
    · exact Or.inr (Or.inr ⟨h.symm, h'⟩)
  · exact Or.inr (Or.inl h)

/-- the sorted tallies are the elements in alphabetical order with their counts. -/
theorem sortTallies_spec (l : List String) (m : List (String × Int8))
    (hm : m.Perm (Structure.formulaTally l).1) :
    ∃ es, ElementsOf es l ∧
      Structure.sortTallies m = es.map fun e => (e, Int8.ofNat (l.count e)) := by
  have hp : (Structure.sortTallies m).Perm (Structure.formulaTally l).1 :=
    (List.mergeSort_perm m _).trans hm
  have hs : (Structure.sortTallies m).Pairwise fun a b => tallyLe a b = true :=
    List.pairwise_mergeSort tallyLe_trans tallyLe_total m
  have hnd : ((Structure.sortTallies m).map Prod.fst).Nodup :=
    (hp.map Prod.fst).nodup_iff.2 (formulaTally_nodup l)
  refine ⟨(Structure.sortTallies m).map Prod.fst, ⟨?_, ?_⟩, ?_⟩
  · have h2 : (Structure.sortTallies m).Pairwise fun a b => a.1 ≠ b.1 := List.pairwise_map.1 hnd
    rw [List.pairwise_map]
    refine (hs.and h2).imp ?_
    rintro a b ⟨h, h'⟩
    rw [tallyLe_iff] at h
    rcases h with h | h
    · exact h
    · exact absurd h.1 h'
  · intro e
    rw [(hp.map Prod.fst).mem_iff, mem_keys_iff_amapGet?, formulaTally_get]
    by_cases h : e ∈ l <;> simp [h]
  · rw [List.map_map]
    symm
    rw [List.map_congr_left (g := id), List.map_id]
    rintro ⟨e, c⟩ hmem
    have := hp.mem_iff.1 hmem
    rw [mem_iff_amapGet? (formulaTally_nodup l), formulaTally_get] at this
    split at this
    · simp only [Option.some.injEq] at this
      simp [this]
    · exact absurd this (by simp)

theorem formulaPart_eq (e : String) {n : ℕ} (h : n < 128) :
    Structure.formulaPart e (Int8.ofNat n) = formulaEntry e n := by
  unfold Structure.formulaPart formulaEntry
  have : Int8.ofNat n ≠ 1 ↔ n ≠ 1 := by
    rw [not_iff_not, ← Int8.toInt_inj, toInt_ofNat h]
    have : ((1 : Int8)).toInt = 1 := by decide
    omega
  by_cases h1 : n = 1
  · rw [if_pos h1, if_neg (fun h2 => (this.1 h2) h1)]
  · rw [if_neg h1, if_pos (this.2 h1), toInt_ofNat h]
    rfl

end CrystSymm
