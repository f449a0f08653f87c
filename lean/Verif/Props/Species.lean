import Verif.Proofs.Formula

set_option autoImplicit false

/-! # C19, C20: species bookkeeping -/

namespace CrystSymm

open Spec

/-- **C19.** For fewer than 65536 sites and every hash order: the returned element is the alphabetically
first among those with the fewest sites; the two maps hold, for exactly the elements present, the first
index and the number of sites. -/
theorem C19_get_min_element {K : Type} (s : Structure K) (ord : List (String × ℕ) → List (String × ℕ))
    (ho : ∀ l, (ord l).Perm l) (hn : s.numSites < 65536) (e : String) (inds counts : List (String × ℕ))
    (h : s.getMinElement ord = .ret (e, inds, counts)) :
    (e ∈ s.species ∧ ∀ e' ∈ s.species, s.species.count e < s.species.count e' ∨
      (s.species.count e = s.species.count e' ∧ e ≤ e')) ∧
    (∀ k, amapGet? inds k = if k ∈ s.species then some (s.species.idxOf k) else none) ∧
    (∀ k, amapGet? counts k = if k ∈ s.species then some (s.species.count k) else none) := by
  have hmod : ∀ k, s.species.count k % 65536 = s.species.count k := fun k =>
    Nat.mod_eq_of_lt (lt_of_le_of_lt List.count_le_length hn)
  unfold Structure.getMinElement at h
  simp only at h
  cases hm : Structure.minByKey ((ord (Structure.typeCount s.species)).mergeSort
      fun p q => decide (p.1 ≤ q.1)) with
  | none => rw [hm] at h; simp [Outcome.ofOption, Outcome.bind] at h
  | some m =>
    rw [hm] at h
    simp only [Outcome.ofOption, Outcome.bind, Outcome.ret.injEq, Prod.mk.injEq] at h
    obtain ⟨rfl, rfl, rfl⟩ := h
    have hp : ((ord (Structure.typeCount s.species)).mergeSort
      fun p q => decide (p.1 ≤ q.1)).Perm (Structure.typeCount s.species) :=
      (List.mergeSort_perm _ _).trans (ho _)
    have hmem : ∀ k n, (k, n) ∈ ((ord (Structure.typeCount s.species)).mergeSort
        fun p q => decide (p.1 ≤ q.1)) ↔ k ∈ s.species ∧ n = s.species.count k := by
      intro k n
      rw [hp.mem_iff, mem_iff_amapGet? (typeCount_nodup _), typeCount_get, hmod]
      by_cases hk : k ∈ s.species <;> simp [hk, eq_comm]
    obtain ⟨h1, h2⟩ := minByKey_spec (mergeSort_key_sorted Prod.fst _) hm
    obtain ⟨m1, m2⟩ := m
    have h1' := (hmem m1 m2).1 h1
    refine ⟨⟨h1'.1, ?_⟩, ?_, ?_⟩
    · intro e' he'
      have := h2 (e', s.species.count e') ((hmem _ _).2 ⟨he', rfl⟩)
      simp only [h1'.2] at this
      exact this
    · intro k
      rw [eleInds_get]
      by_cases hk : k ∈ s.species
      · rw [if_pos hk, if_pos hk, Nat.mod_eq_of_lt]
        exact lt_trans (List.idxOf_lt_length_of_mem hk) hn
      · rw [if_neg hk, if_neg hk]
    · intro k
      rw [typeCount_get, hmod]

/-- **C19 (panic).** `get_min_element` panics exactly on a structure without sites, and otherwise returns. -/
theorem C19_get_min_element_panics_iff {K : Type} (s : Structure K)
    (ord : List (String × ℕ) → List (String × ℕ)) (ho : ∀ l, (ord l).Perm l) :
    ((∃ msg, s.getMinElement ord = .panic msg) ↔ s.species = []) ∧
    (s.species ≠ [] → ∃ r, s.getMinElement ord = .ret r) := by
  have key : Structure.minByKey ((ord (Structure.typeCount s.species)).mergeSort
      fun p q => decide (p.1 ≤ q.1)) = none ↔ s.species = [] := by
    rw [minByKey_eq_none]
    have hp : ((ord (Structure.typeCount s.species)).mergeSort
      fun p q => decide (p.1 ≤ q.1)).Perm (Structure.typeCount s.species) :=
      (List.mergeSort_perm _ _).trans (ho _)
    constructor
    · intro h
      rw [h] at hp
      have hnil := List.nil_perm.1 hp
      by_contra hne
      obtain ⟨e, he⟩ := List.exists_mem_of_ne_nil _ hne
      have := typeCount_get s.species e
      rw [hnil, if_pos he] at this
      simp [amapGet?_nil] at this
    · intro h
      rw [h] at hp ⊢
      exact hp.eq_nil
  unfold Structure.getMinElement
  simp only
  cases hm : Structure.minByKey ((ord (Structure.typeCount s.species)).mergeSort
      fun p q => decide (p.1 ≤ q.1)) with
  | none => simp [Outcome.ofOption, Outcome.bind, key.1 hm]
  | some m =>
    have hne : s.species ≠ [] := fun h => by rw [key.2 h] at hm; simp at hm
    simp [Outcome.ofOption, Outcome.bind, hne]

/-- **C19 (determinism).** The result does not depend on the hash order. -/
theorem C19_get_min_element_order_independent {K : Type} (s : Structure K)
    (ord ord' : List (String × ℕ) → List (String × ℕ))
    (ho : ∀ l, (ord l).Perm l) (ho' : ∀ l, (ord' l).Perm l) :
    s.getMinElement ord = s.getMinElement ord' := by
  have : (ord (Structure.typeCount s.species)).mergeSort (fun p q => decide (p.1 ≤ q.1))
      = (ord' (Structure.typeCount s.species)).mergeSort (fun p q => decide (p.1 ≤ q.1)) := by
    have hp : ((ord (Structure.typeCount s.species)).mergeSort fun p q => decide (p.1 ≤ q.1)).Perm
        ((ord' (Structure.typeCount s.species)).mergeSort fun p q => decide (p.1 ≤ q.1)) :=
      (((List.mergeSort_perm _ _).trans (ho _)).trans (ho' _).symm).trans (List.mergeSort_perm _ _).symm
    have hnd : ∀ o : List (String × ℕ) → List (String × ℕ), (∀ l, (o l).Perm l) →
        ((o (Structure.typeCount s.species)).mergeSort fun p q => decide (p.1 ≤ q.1)).Pairwise
          fun a b => a.1 < b.1 := by
      intro o hoo
      have hperm : ((o (Structure.typeCount s.species)).mergeSort fun p q => decide (p.1 ≤ q.1)).Perm
          (Structure.typeCount s.species) := (List.mergeSort_perm _ _).trans (hoo _)
      have h1 := mergeSort_key_sorted Prod.fst (o (Structure.typeCount s.species))
      have h2 : (((o (Structure.typeCount s.species)).mergeSort
          fun p q => decide (p.1 ≤ q.1)).map Prod.fst).Nodup :=
        (hperm.map _).nodup_iff.2 (typeCount_nodup _)
      have h3 := List.pairwise_map.1 h2
      exact (h1.and h3).imp fun h => lt_of_le_of_ne h.1 h.2
    exact hp.eq_of_pairwise (fun a b _ _ h1 h2 => absurd (h1.trans h2) (lt_irrefl _)) (hnd ord ho) (hnd ord' ho')
  unfold Structure.getMinElement
  simp only [this]

/-- a non-trivial case: with the hash map listed backwards, `"B"` (2 sites) beats `"C"` (2) and `"A"` (3). -/
example : (⟨1, ["C", "B", "A", "A", "C", "B", "A"], [], []⟩ : Structure ℤ).getMinElement List.reverse
    = .ret ("B", [("C", 0), ("B", 1), ("A", 2)], [("C", 2), ("B", 2), ("A", 3)]) := by
  have h : List.mergeSort [("A", 3), ("B", 2), ("C", 2)] (keyLe Prod.fst) = [("A", 3), ("B", 2), ("C", 2)] :=
    mergeSort_key_of_sorted Prod.fst (by decide +kernel)
  have h1 : (Structure.typeCount ["C", "B", "A", "A", "C", "B", "A"]).reverse
      = [("A", 3), ("B", 2), ("C", 2)] := by decide +kernel
  unfold Structure.getMinElement
  simp only [h1]
  show (Outcome.ofOption _ (Structure.minByKey (List.mergeSort [("A", 3), ("B", 2), ("C", 2)]
    (keyLe Prod.fst)))).bind _ = _
  rw [h]
  decide +kernel

/-! ## C20 -/

/-- **C20, partial.** If no element has more than 126 sites then, for every hash order, the formula lists
the elements alphabetically with their exact counts, and the reduced formula lists them with the counts
divided by their greatest common divisor.  Missing from the full claim: elements with 127 or more sites,
for which it is false (below). -/
theorem C20_formulas_partial {K : Type} (s : Structure K) (ord : List (String × Int8) → List (String × Int8))
    (ho : ∀ l, (ord l).Perm l) (hn : ∀ e, s.species.count e ≤ 126) :
    ∃ es g, ElementsOf es s.species ∧ (s.species ≠ [] → IsGcdOfCounts g s.species) ∧
      s.formulas ord = (formulaOf es s.species.count, formulaOf es fun e => s.species.count e / g) := by
  obtain ⟨es, hes, hsort⟩ := sortTallies_spec s.species _ (ho (Structure.formulaTally s.species).1)
  obtain ⟨g, hg, hg0, hg1, hgcd⟩ := formulaGcf_spec s.species hn
  refine ⟨es, g, hes, hgcd, ?_⟩
  unfold Structure.formulas
  rw [show Structure.formulaTally s.species
    = ((Structure.formulaTally s.species).1, (Structure.formulaTally s.species).2) from rfl]
  simp only [hsort, hg, Prod.mk.injEq]
  unfold formulaOf
  rw [List.foldl_map, List.foldl_map]
  have h1 : ∀ e, Structure.formulaPart e (Int8.ofNat (s.species.count e))
      = formulaEntry e (s.species.count e) := fun e => formulaPart_eq e (by have := hn e; omega)
  have h2 : ∀ e, Structure.formulaPart e (Int8.ofNat (s.species.count e) / Int8.ofNat g)
      = formulaEntry e (s.species.count e / g) := by
    intro e
    have := hn e
    rw [div_ofNat (by omega) hg1, formulaPart_eq]
    exact lt_of_le_of_lt (Nat.div_le_self _ _) (by omega)
  simp only [h1, h2, and_self]

/-- **C20 (determinism).** For all species lists, of any size, the result does not depend on the hash order. -/
theorem C20_formulas_order_independent {K : Type} (s : Structure K)
    (ord ord' : List (String × Int8) → List (String × Int8))
    (ho : ∀ l, (ord l).Perm l) (ho' : ∀ l, (ord' l).Perm l) : s.formulas ord = s.formulas ord' := by
  have : Structure.sortTallies (ord (Structure.formulaTally s.species).1)
      = Structure.sortTallies (ord' (Structure.formulaTally s.species).1) := by
    obtain ⟨es, he, h⟩ := sortTallies_spec s.species _ (ho (Structure.formulaTally s.species).1)
    obtain ⟨es', he', h'⟩ := sortTallies_spec s.species _ (ho' (Structure.formulaTally s.species).1)
    have : es = es' := by
      have hp : es.Perm es' := by
        rw [List.perm_ext_iff_of_nodup (he.1.imp fun h => ne_of_lt h) (he'.1.imp fun h => ne_of_lt h)]
        intro a; rw [he.2, he'.2]
      exact hp.eq_of_pairwise (fun a b _ _ h1 h2 => absurd (h1.trans h2) (lt_irrefl _)) he.1 he'.1
    rw [h, h', this]
  unfold Structure.formulas
  rw [show Structure.formulaTally s.species
    = ((Structure.formulaTally s.species).1, (Structure.formulaTally s.species).2) from rfl]
  simp only [this]

/-- `n` atoms of one element. -/
def manyA (n : ℕ) : Structure ℤ := ⟨1, List.replicate n "A", [], []⟩

/-- **C20 is false (1).** 128 equal atoms: the `i8` count wraps to -128. -/
theorem C20_false_128 : (manyA 128).formulas id = ("A-128", "A-128") := by decide +kernel

/-- **C20 is false (2).** 127 equal atoms: the formula is right but it is not reduced (`max_count + 1`
wraps, so no divisor is tried). -/
theorem C20_false_127 : (manyA 127).formulas id = ("A127", "A127") := by decide +kernel

/-- a non-trivial case of the theorem. -/
example : ∃ es g, (⟨1, ["O", "Al", "O", "Al", "O", "O", "O", "Al", "Al", "O"], [], []⟩ : Structure ℤ).formulas
    List.reverse = (formulaOf es (["O", "Al", "O", "Al", "O", "O", "O", "Al", "Al", "O"].count ·),
      formulaOf es fun e => ["O", "Al", "O", "Al", "O", "O", "O", "Al", "Al", "O"].count e / g) ∧
    g = 2 ∧ es = ["Al", "O"] := by
  obtain ⟨es, g, he, hg, h⟩ := C20_formulas_partial
    (⟨1, ["O", "Al", "O", "Al", "O", "O", "O", "Al", "Al", "O"], [], []⟩ : Structure ℤ) List.reverse
    List.reverse_perm (fun e => le_trans List.count_le_length (by simp))
  refine ⟨es, g, h, ?_, ?_⟩
  · obtain ⟨h1, h2⟩ := hg (by simp)
    apply Nat.dvd_antisymm
    · have a := h1 "Al" (by simp)
      have b := h1 "O" (by simp)
      rw [show List.count "Al" ["O", "Al", "O", "Al", "O", "O", "O", "Al", "Al", "O"] = 4 by decide] at a
      rw [show List.count "O" ["O", "Al", "O", "Al", "O", "O", "O", "Al", "Al", "O"] = 6 by decide] at b
      exact (Nat.dvd_add_right a).1 (show g ∣ 4 + 2 from b)
    · apply h2
      decide
  · have hp : es.Perm ["Al", "O"] := by
      rw [List.perm_ext_iff_of_nodup (he.1.imp fun h => ne_of_lt h) (by decide)]
      intro a
      rw [he.2]
      simp
      tauto
    exact hp.eq_of_pairwise (fun a b _ _ h1 h2 => absurd (h1.trans h2) (lt_irrefl _)) he.1 (by decide)

end CrystSymm
