import Verif.Proofs.Codes
import Verif.Proofs.PointGroupOps
import Verif.Proofs.Outcome
import Mathlib.Data.Fintype.Pi

/-! # C33, C34: the point groups and their generation -/

set_option autoImplicit false

namespace CrystSymm

open Spec PointGroup

/-! ## C34 -/

section
variable {α : Type} [DecidableEq α] [Semigroup α]

theorem genInv_init (gens : List α) : GenInv gens (setFromIter gens) (setFromIter gens) where
  nodupS := nodup_setFromIter _
  nodupN := nodup_setFromIter _
  sub := fun _ h => h
  base := fun _ h => mem_setFromIter.2 h
  sound := fun x h => ⟨x, [], mem_setFromIter.1 h, by simp, rfl⟩
  closed := fun _ _ _ h h' => absurd h h'

/-- **C34.** Whatever the hash order: if generation ends, the list returned has no duplicates and holds
exactly the non-empty finite products of the generators.  (Any associative multiplication.) -/
theorem C34_generate_sound_complete (o : HashOrd α) (ho : IsHashOrd o) (fuel : ℕ) (gens ops : List α)
    (h : generateOperations o fuel gens = .ret ops) : ops.Nodup ∧ ∀ x, x ∈ ops ↔ ProductOf gens x :=
  genLoop_spec ho fuel 0 _ _ (genInv_init gens) ops h

end

instance : Finite Int8 := Finite.of_injective (fun x : Int8 => x.toBitVec.toFin) fun _ _ h =>
  Int8.toBitVec_inj.1 (BitVec.toFin_inj.1 h)

instance : Finite (Mat3 Int8) := Finite.of_injective
  (fun m : Mat3 Int8 => (m.m11, m.m12, m.m13, m.m21, m.m22, m.m23, m.m31, m.m32, m.m33)) fun a b h => by
    simp only [Prod.mk.injEq] at h
    ext <;> simp [h]

/-- **C34 (termination).** For `i8` matrices (with the wrapping arithmetic of the release build) generation
ends after a number of rounds that depends neither on the generators nor on the hash order. -/
theorem C34_generate_terminates : ∃ N, ∀ fuel ≥ N, ∀ (o : HashOrd (Mat3 Int8)), IsHashOrd o →
    ∀ gens : List (Mat3 Int8), ∃ ops, generateOperations o fuel gens = .ret ops := by
  have : Fintype (Mat3 Int8) := Fintype.ofFinite _
  refine ⟨Fintype.card (Mat3 Int8) + 2, fun fuel hf o ho gens => ?_⟩
  exact genLoop_ret ho fuel 0 _ _ (genInv_init gens) (by omega) (by omega)

/-- a case: two generators of `mmm` (signs flipped) and the group of four they generate. -/
example : generateOperations (fun _ l => l.reverse) 5
    [(⟨-1, 0, 0, 0, 1, 0, 0, 0, 1⟩ : Mat3 Int8), ⟨1, 0, 0, 0, -1, 0, 0, 0, 1⟩]
    = .ret [⟨-1, 0, 0, 0, -1, 0, 0, 0, 1⟩, ⟨1, 0, 0, 0, 1, 0, 0, 0, 1⟩, ⟨1, 0, 0, 0, -1, 0, 0, 0, 1⟩,
      ⟨-1, 0, 0, 0, 1, 0, 0, 0, 1⟩] := by decide +kernel

/-! ## C33 -/

/-- the codes of the operations are those of a matrix group with the right types. -/
def pgCheck2 (ops : List ℕ) (order : ℕ) (types : List ℕ) : Bool :=
  decide ops.Nodup && decide (ops.length = order) && ops.all (fun c => decide (c < 19683)) &&
    decide (typeCounts (ops.map decZ) = types) &&
    ops.all fun c =>
      let m := decZ c
      let d := m.det
      (decide (d = 1) || decide (d = -1)) && ops.any fun c' => decide (decZ c' = m.adj.map fun e => d * e)

/-- everything the kernel checks about the tables of point groups. -/
def pgTableOk (p : ℕ × List ℕ × List ℕ) : Bool :=
  pgCheck p.2.1 p.2.2 &&
  (match amapGet? pgNumToSymbol p.1, amapGet? pgNumToGeneratorMatrices p.1 with
    | some sym, some enc =>
      decide (enc = p.2.1) &&
      (match pointGroupTable.find? fun t => t.1 = sym with
        | some t => pgCheck2 p.2.2 t.2.1 t.2.2
        | none => false)
    | _, _ => false)

set_option maxRecDepth 100000 in
theorem pgTableOk_all : pgCodes.all pgTableOk = true := by decide +kernel

theorem mapOutcome_decode (l : List ℕ) :
    mapOutcome (fun e => (decode e 3 1 9).bind rotationOfDigits) l = .ret (l.map dec8) := by
  induction l with
  | nil => rfl
  | cons c l ih => rw [mapOutcome, decode_rotation, Outcome.ret_bind, ih, Outcome.ret_bind, List.map_cons]

theorem decZ_injOn {a b : ℕ} (ha : a < 19683) (hb : b < 19683) (h : decZ a = decZ b) : a = b := by
  simp only [decZ, digZ, Mat3.mk.injEq, sub_left_inj, Nat.cast_inj] at h
  omega

theorem pg_codes (n : ℕ) (h1 : 1 ≤ n) (h2 : n ≤ 32) : ∃ gens ops, (n, gens, ops) ∈ pgCodes := by
  have : ∀ k < 33, 1 ≤ k → pgCodes.any (fun p => p.1 = k) = true := by decide
  have h := this n (by omega) h1
  rw [List.any_eq_true] at h
  obtain ⟨⟨m, gens, ops⟩, hm, he⟩ := h
  have : m = n := by simpa using he
  subst this
  exact ⟨gens, ops, hm⟩

/-- the matrix group of a list of codes. -/
theorem codes_group {gens ops : List ℕ} {order : ℕ} {types : List ℕ} (h0 : 0 < order)
    (h1 : pgCheck gens ops = true)
    (h2 : pgCheck2 ops order types = true) :
    IsMatrixGroup (ops.map decZ) order ∧ typeCounts (ops.map decZ) = types ∧
      (∀ m ∈ ops.map decZ, (m.det = 1 ∨ m.det = -1) ∧ SmallEntries m) ∧ (ops.map dec8).Nodup := by
  unfold pgCheck2 at h2
  simp only [Bool.and_eq_true, decide_eq_true_eq, List.all_eq_true, Bool.or_eq_true] at h2
  obtain ⟨⟨⟨⟨hnd, hlen⟩, hlt⟩, hty⟩, hinv⟩ := h2
  have hnodup : (ops.map decZ).Nodup := by
    refine List.Nodup.map_on ?_ hnd
    intro a ha b hb hab
    exact decZ_injOn (hlt a ha) (hlt b hb) hab
  have hmul : ∀ a ∈ ops.map decZ, ∀ b ∈ ops.map decZ, a * b ∈ ops.map decZ := by
    intro a ha b hb
    obtain ⟨c, hc, rfl⟩ := List.mem_map.1 ha
    obtain ⟨d, hd, rfl⟩ := List.mem_map.1 hb
    have hp := productOf_mul ((pgCheck_spec h1 _).2 (List.mem_map.2 ⟨c, hc, rfl⟩))
      ((pgCheck_spec h1 _).2 (List.mem_map.2 ⟨d, hd, rfl⟩))
    obtain ⟨e, he, hm⟩ := List.mem_map.1 ((pgCheck_spec h1 _).1 hp)
    refine List.mem_map.2 ⟨e, he, ?_⟩
    rw [← intRot_dec8, hm, intRot_mul (entriesLe_dec8 c) (entriesLe_dec8 d), intRot_dec8, intRot_dec8]
  have hdet : ∀ c ∈ ops, (decZ c).det = 1 ∨ (decZ c).det = -1 := fun c hc => (hinv c hc).1
  have hadj : ∀ m : Mat3 ℤ, (m.det = 1 ∨ m.det = -1) →
      m * (m.adj.map fun e => m.det * e) = 1 ∧ (m.adj.map fun e => m.det * e) * m = 1 := by
    intro m hm
    have hsq : m.det * m.det = 1 := by rcases hm with h | h <;> rw [h] <;> norm_num
    have e1 : m * (m.adj.map fun e => m.det * e) = (1 : Mat3 ℤ).map fun e => m.det * m.det * e := by
      ext <;> simp [Mat3.adj, Mat3.map, Mat3.det] <;> ring
    have e2 : (m.adj.map fun e => m.det * e) * m = (1 : Mat3 ℤ).map fun e => m.det * m.det * e := by
      ext <;> simp [Mat3.adj, Mat3.map, Mat3.det] <;> ring
    rw [e1, e2, hsq]
    constructor <;> ext <;> simp [Mat3.map]
  have hI : ∀ a ∈ ops.map decZ, ∃ b ∈ ops.map decZ, a * b = 1 ∧ b * a = 1 := by
    intro a ha
    obtain ⟨c, hc, rfl⟩ := List.mem_map.1 ha
    have h := (hinv c hc).2
    rw [List.any_eq_true] at h
    obtain ⟨d, hd, he⟩ := h
    rw [decide_eq_true_eq] at he
    refine ⟨decZ d, List.mem_map.2 ⟨d, hd, rfl⟩, ?_⟩
    rw [he]
    exact hadj _ (hdet c hc)
  have hone : (1 : Mat3 ℤ) ∈ ops.map decZ := by
    have hne : ops ≠ [] := by
      rintro rfl
      rw [← hlen] at h0
      exact absurd h0 (by simp)
    obtain ⟨c, hc⟩ := List.exists_mem_of_ne_nil _ hne
    obtain ⟨b, hb, e, -⟩ := hI _ (List.mem_map.2 ⟨c, hc, rfl⟩)
    rw [← e]
    exact hmul _ (List.mem_map.2 ⟨c, hc, rfl⟩) _ hb
  refine ⟨⟨hnodup, by rw [List.length_map, hlen], hone, hmul, hI⟩, hty, ?_, ?_⟩
  · intro m hm
    obtain ⟨c, hc, rfl⟩ := List.mem_map.1 hm
    refine ⟨hdet c hc, ?_⟩
    intro e he
    simp only [Mat3.toListCM, decZ, List.mem_cons, List.not_mem_nil, or_false] at he
    rcases he with rfl | rfl | rfl | rfl | rfl | rfl | rfl | rfl | rfl <;> exact digZ_mem _ _
  · refine List.Nodup.map_on ?_ hnd
    intro a ha b hb hab
    exact decZ_injOn (hlt a ha) (hlt b hb) (by rw [← intRot_dec8, ← intRot_dec8, hab])

theorem table_pos : ∀ t ∈ pointGroupTable, 0 < t.2.1 := by decide

/-- what the kernel check of one table entry gives. -/
theorem pgTable_spec {n : ℕ} {gens ops : List ℕ} (h : (n, gens, ops) ∈ pgCodes) :
    ∃ sym order types, (sym, order, types) ∈ pointGroupTable ∧ amapGet? pgNumToSymbol n = some sym ∧
      amapGet? pgNumToGeneratorMatrices n = some gens ∧ 0 < order ∧ pgCheck gens ops = true ∧
      pgCheck2 ops order types = true := by
  have hk := List.all_eq_true.1 pgTableOk_all _ h
  unfold pgTableOk at hk
  rw [Bool.and_eq_true] at hk
  obtain ⟨h1, h2⟩ := hk
  split at h2
  · rename_i sym enc hs he
    rw [Bool.and_eq_true, decide_eq_true_eq] at h2
    obtain ⟨rfl, h2⟩ := h2
    split at h2
    · rename_i t ht
      have hm := List.mem_of_find?_eq_some ht
      have he' : t.1 = sym := by simpa using List.find?_some ht
      exact ⟨sym, t.2.1, t.2.2, by rw [← he']; exact hm, hs, he, table_pos t hm, h1, h2⟩
    · exact absurd h2 (by simp)
  · exact absurd h2 (by simp)

/-- the result of `from_number` in terms of the generation. -/
theorem fromNumber_eq {n : ℕ} {gens : List ℕ} {sym : String} (o : HashOrd (Mat3 Int8)) (fuel : ℕ)
    (hs : amapGet? pgNumToSymbol n = some sym) (hg : amapGet? pgNumToGeneratorMatrices n = some gens) :
    fromNumber o fuel n = (generateOperations o fuel (gens.map dec8)).bind fun operations =>
      .ret { symbol := sym, operations, generators := gens.map dec8 } := by
  unfold fromNumber
  rw [hs, hg]
  simp only [Outcome.ofOption, Outcome.ret_bind, mapOutcome_decode]

/-- the operations of `from_number` are a permutation of the group of the tables. -/
theorem fromNumber_perm {n : ℕ} (h1 : 1 ≤ n) (h2 : n ≤ 32) (o : HashOrd (Mat3 Int8)) (ho : IsHashOrd o)
    (fuel : ℕ) {pg : PointGroup} (h : fromNumber o fuel n = .ret pg) :
    ∃ gens ops, (n, gens, ops) ∈ pgCodes ∧ amapGet? pgNumToSymbol n = some pg.symbol ∧
      pg.generators = gens.map dec8 ∧ pg.operations.Perm (ops.map dec8) := by
  obtain ⟨gens, ops, hm⟩ := pg_codes n h1 h2
  obtain ⟨sym, order, types, ht, hs, hg, h0, hc1, hc2⟩ := pgTable_spec hm
  rw [fromNumber_eq o fuel hs hg] at h
  obtain ⟨l, hl, he⟩ := Outcome.bind_eq_ret.1 h
  simp only [Outcome.ret.injEq] at he
  subst he
  obtain ⟨hnd, hmem⟩ := C34_generate_sound_complete o ho fuel _ _ hl
  refine ⟨gens, ops, hm, hs, rfl, ?_⟩
  exact (List.perm_ext_iff_of_nodup hnd (codes_group h0 hc1 hc2).2.2.2).2 fun x =>
    (hmem x).trans (pgCheck_spec hc1 x)

theorem IsMatrixGroup.perm {l l' : List (Mat3 ℤ)} {order : ℕ} (h : l.Perm l') (hg : IsMatrixGroup l' order) :
    IsMatrixGroup l order where
  nodup := h.nodup_iff.2 hg.nodup
  order := by rw [h.length_eq, hg.order]
  one := h.mem_iff.2 hg.one
  mul := fun a ha b hb => h.mem_iff.2 (hg.mul a (h.mem_iff.1 ha) b (h.mem_iff.1 hb))
  inv := fun a ha => by
    obtain ⟨b, hb, hab⟩ := hg.inv a (h.mem_iff.1 ha)
    exact ⟨b, h.mem_iff.2 hb, hab⟩

theorem typeCounts_perm {l l' : List (Mat3 ℤ)} (h : l.Perm l') : typeCounts l = typeCounts l' := by
  unfold typeCounts
  refine List.map_congr_left fun t _ => ?_
  exact (h.map _).count_eq t

/-- **C33.** Whatever the hash order, what `from_number(n)`, `n = 1..32`, returns is a group: no duplicates,
identity, closed under products and inverses; determinants `±1` and entries `-1, 0, 1`; its order and the
numbers of operations of each type are those of the point group whose Hermann–Mauguin symbol it carries. -/
theorem C33_point_group (n : ℕ) (h1 : 1 ≤ n) (h2 : n ≤ 32) (o : HashOrd (Mat3 Int8)) (ho : IsHashOrd o)
    (fuel : ℕ) (pg : PointGroup) (h : fromNumber o fuel n = .ret pg) :
    ∃ order types, (pg.symbol, order, types) ∈ pointGroupTable ∧
      IsMatrixGroup (pg.operations.map intRot) order ∧ typeCounts (pg.operations.map intRot) = types ∧
      (∀ m ∈ pg.operations.map intRot, (m.det = 1 ∨ m.det = -1) ∧ SmallEntries m) ∧
      ∀ g ∈ pg.generators, g ∈ pg.operations := by
  obtain ⟨gens, ops, hm, hsym, hgen, hperm⟩ := fromNumber_perm h1 h2 o ho fuel h
  obtain ⟨sym, order, types, ht, hs, hg, h0, hc1, hc2⟩ := pgTable_spec hm
  obtain ⟨g1, g2, g3, -⟩ := codes_group h0 hc1 hc2
  have hsame : sym = pg.symbol := by rw [hs] at hsym; exact Option.some.inj hsym
  have hp : (pg.operations.map intRot).Perm (ops.map decZ) := by
    refine (hperm.map intRot).trans ?_
    rw [List.map_map]
    exact List.Perm.of_eq (List.map_congr_left fun c _ => intRot_dec8 c)
  refine ⟨order, types, hsame ▸ ht, IsMatrixGroup.perm hp g1, (typeCounts_perm hp).trans g2,
    fun m hm => g3 m (hp.mem_iff.1 hm), ?_⟩
  intro g hg'
  rw [hgen] at hg'
  exact hperm.mem_iff.2 ((pgCheck_spec hc1 g).1 ⟨g, [], hg', by simp, rfl⟩)

/-- **C33 (termination).** `from_number(n)`, `n = 1..32`, returns. -/
theorem C33_from_number_returns : ∃ N, ∀ n, 1 ≤ n → n ≤ 32 → ∀ fuel ≥ N, ∀ (o : HashOrd (Mat3 Int8)),
    IsHashOrd o → ∃ pg, fromNumber o fuel n = .ret pg := by
  obtain ⟨N, hN⟩ := C34_generate_terminates
  refine ⟨N, fun n h1 h2 fuel hf o ho => ?_⟩
  obtain ⟨gens, ops, hm⟩ := pg_codes n h1 h2
  obtain ⟨sym, order, types, ht, hs, hg, -⟩ := pgTable_spec hm
  obtain ⟨l, hl⟩ := hN fuel hf o ho (gens.map dec8)
  exact ⟨_, by rw [fromNumber_eq o fuel hs hg, hl, Outcome.ret_bind]⟩

/-- **C33 (hash order).** Two hash orders give the same set of operations. -/
theorem C33_hash_order_irrelevant (n : ℕ) (h1 : 1 ≤ n) (h2 : n ≤ 32) (o o' : HashOrd (Mat3 Int8))
    (ho : IsHashOrd o) (ho' : IsHashOrd o') (fuel fuel' : ℕ) (pg pg' : PointGroup)
    (h : fromNumber o fuel n = .ret pg) (h' : fromNumber o' fuel' n = .ret pg') :
    pg.operations.Perm pg'.operations ∧ pg.symbol = pg'.symbol ∧ pg.generators = pg'.generators := by
  obtain ⟨gens, ops, hm, hsym, hgen, hperm⟩ := fromNumber_perm h1 h2 o ho fuel h
  obtain ⟨gens', ops', hm', hsym', hgen', hperm'⟩ := fromNumber_perm h1 h2 o' ho' fuel' h'
  obtain ⟨_, _, _, _, _, hg, _, hc, _⟩ := pgTable_spec hm
  obtain ⟨_, _, _, _, _, hg', _, hc', _⟩ := pgTable_spec hm'
  have hgg : gens = gens' := by rw [hg] at hg'; exact Option.some.inj hg'
  subst hgg
  refine ⟨?_, ?_, hgen.trans hgen'.symm⟩
  · have e1 := (List.perm_ext_iff_of_nodup (hperm.nodup_iff.2 ?_) (hperm'.nodup_iff.2 ?_)).2
      fun x => ((hperm.mem_iff.trans (pgCheck_spec hc x).symm).trans
        ((pgCheck_spec hc' x).trans hperm'.mem_iff.symm))
    · exact e1
    · obtain ⟨_, _, _, _, _, _, h0, hc1, hc2⟩ := pgTable_spec hm
      exact (codes_group h0 hc1 hc2).2.2.2
    · obtain ⟨_, _, _, _, _, _, h0, hc1, hc2⟩ := pgTable_spec hm'
      exact (codes_group h0 hc1 hc2).2.2.2
  · rw [hsym] at hsym'
    exact Option.some.inj hsym'

/-- **C33 (all thirty-two).** Every one of the 32 symbols is that of exactly one number in `1..32`. -/
theorem C33_every_point_group : ∀ t ∈ pointGroupTable, ∃ n, (1 ≤ n ∧ n ≤ 32 ∧
    amapGet? pgNumToSymbol n = some t.1) ∧
    ∀ n', amapGet? pgNumToSymbol n' = some t.1 → n' = n := by
  have h : ∀ t ∈ pointGroupTable, ∃ n ∈ List.range 33, (1 ≤ n ∧ n ≤ 32 ∧
    amapGet? pgNumToSymbol n = some t.1) ∧ ∀ p ∈ pgNumToSymbol, p.2 = t.1 → p.1 = n := by decide +kernel
  intro t ht
  obtain ⟨n, -, hn, hu⟩ := h t ht
  refine ⟨n, hn, fun n' hn' => ?_⟩
  unfold amapGet? at hn'
  rw [Option.map_eq_some_iff] at hn'
  obtain ⟨p, hp, he⟩ := hn'
  have h1 : p.1 = n' := by simpa using List.find?_some hp
  rw [← h1]
  exact hu p (List.mem_of_find?_eq_some hp) he

/-- **C33 (bad numbers).** Any other number panics, at once. -/
theorem C33_bad_number_panics (n : ℕ) (h : n = 0 ∨ 32 < n) (o : HashOrd (Mat3 Int8)) (fuel : ℕ) :
    fromNumber o fuel n = .panic "called `Option::unwrap()` on a `None` value" := by
  have hk : ∀ p ∈ pgNumToSymbol, 1 ≤ p.1 ∧ p.1 ≤ 32 := by decide
  have hn : amapGet? pgNumToSymbol n = none := by
    unfold amapGet?
    rw [Option.map_eq_none_iff, List.find?_eq_none]
    intro p hp
    have := hk p hp
    simp only [decide_eq_true_eq]
    omega
  unfold fromNumber
  rw [hn]
  rfl

/-- a case: number 12 is `222`. -/
example : fromNumber (fun _ l => l) 4 12 = .ret ⟨"222",
    [⟨1, 0, 0, 0, 1, 0, 0, 0, 1⟩, ⟨-1, 0, 0, 0, -1, 0, 0, 0, 1⟩, ⟨-1, 0, 0, 0, 1, 0, 0, 0, -1⟩,
      ⟨1, 0, 0, 0, -1, 0, 0, 0, -1⟩],
    [⟨1, 0, 0, 0, 1, 0, 0, 0, 1⟩, ⟨-1, 0, 0, 0, -1, 0, 0, 0, 1⟩, ⟨-1, 0, 0, 0, 1, 0, 0, 0, -1⟩]⟩ := by decide +kernel

end CrystSymm
