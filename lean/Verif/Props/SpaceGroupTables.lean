import Verif.Proofs.SgCheckLow
import Verif.Proofs.SgCheckTetragonal
import Verif.Proofs.SgCheckHexagonal
import Verif.Proofs.SgCheckCubic

/-! # C39: the space-group tables are groups -/

set_option autoImplicit false
set_option linter.unusedSectionVars false

namespace CrystSymm

open Spec PointGroup SymmetryAnalyzer

/-- an entry of the space-group tables: `num` with its encoded operations, filed under the lattice system `sys`
and the number of operations `n`. -/
def IsTableEntry (sys : LatticeSystem) (n num : ℕ) (codes : List ℕ) : Prop :=
  ∃ groups cands, (sys, groups) ∈ sgNumToFullMatrices ∧ (n, cands) ∈ groups ∧ (num, codes) ∈ cands

/-- the rhombohedral space groups. -/
def rhombohedralNumbers : List ℕ := [146, 148, 155, 160, 161, 166, 167]

/-- the space-group numbers of a lattice system (`International Tables`, table 2.1.2.1). -/
def systemNumbers : LatticeSystem → List ℕ
  | .Triclinic => List.range' 1 2
  | .Monoclinic => List.range' 3 13
  | .Orthorhombic => List.range' 16 59
  | .Tetragonal => List.range' 75 68
  | .Rhombohedral => rhombohedralNumbers
  | .Hexagonal => (List.range' 143 52).filter fun n => !rhombohedralNumbers.contains n
  | .Cubic => List.range' 195 36

theorem table_checked {sys : LatticeSystem} {groups : List (ℕ × List (ℕ × List ℕ))} {n : ℕ}
    {cands : List (ℕ × List ℕ)} (h1 : (sys, groups) ∈ sgNumToFullMatrices) (h2 : (n, cands) ∈ groups) :
    cands.all (entryCheck n) = true ∧ tableDiffers cands = true := by
  simp only [sgNumToFullMatrices, List.mem_cons, List.not_mem_nil, or_false, Prod.mk.injEq] at h1
  rcases h1 with ⟨-, rfl⟩ | ⟨-, rfl⟩ | ⟨-, rfl⟩ | ⟨-, rfl⟩ | ⟨-, rfl⟩ | ⟨-, rfl⟩ | ⟨-, rfl⟩ <;>
    simp only [List.mem_cons, List.not_mem_nil, or_false, Prod.mk.injEq] at h2
  · rcases h2 with ⟨rfl, rfl⟩ | ⟨rfl, rfl⟩
    · exact ⟨sgTableTriclinic1_check, sgTableTriclinic1_differs⟩
    · exact ⟨sgTableTriclinic2_check, sgTableTriclinic2_differs⟩
  · rcases h2 with ⟨rfl, rfl⟩ | ⟨rfl, rfl⟩
    · exact ⟨sgTableMonoclinic2_check, sgTableMonoclinic2_differs⟩
    · exact ⟨sgTableMonoclinic4_check, sgTableMonoclinic4_differs⟩
  · rcases h2 with ⟨rfl, rfl⟩ | ⟨rfl, rfl⟩
    · exact ⟨sgTableOrthorhombic4_check, sgTableOrthorhombic4_differs⟩
    · exact ⟨sgTableOrthorhombic8_check, sgTableOrthorhombic8_differs⟩
  · rcases h2 with ⟨rfl, rfl⟩ | ⟨rfl, rfl⟩ | ⟨rfl, rfl⟩
    · exact ⟨sgTableTetragonal4_check, sgTableTetragonal4_differs⟩
    · exact ⟨sgTableTetragonal8_check, sgTableTetragonal8_differs⟩
    · exact ⟨sgTableTetragonal16_check, sgTableTetragonal16_differs⟩
  · rcases h2 with ⟨rfl, rfl⟩ | ⟨rfl, rfl⟩ | ⟨rfl, rfl⟩ | ⟨rfl, rfl⟩
    · exact ⟨sgTableHexagonal3_check, sgTableHexagonal3_differs⟩
    · exact ⟨sgTableHexagonal6_check, sgTableHexagonal6_differs⟩
    · exact ⟨sgTableHexagonal12_check, sgTableHexagonal12_differs⟩
    · exact ⟨sgTableHexagonal24_check, sgTableHexagonal24_differs⟩
  · rcases h2 with ⟨rfl, rfl⟩ | ⟨rfl, rfl⟩ | ⟨rfl, rfl⟩
    · exact ⟨sgTableRhombohedral3_check, sgTableRhombohedral3_differs⟩
    · exact ⟨sgTableRhombohedral6_check, sgTableRhombohedral6_differs⟩
    · exact ⟨sgTableRhombohedral12_check, sgTableRhombohedral12_differs⟩
  · rcases h2 with ⟨rfl, rfl⟩ | ⟨rfl, rfl⟩ | ⟨rfl, rfl⟩
    · exact ⟨sgTableCubic12_check, sgTableCubic12_differs⟩
    · exact ⟨sgTableCubic24_check, sgTableCubic24_differs⟩
    · exact ⟨sgTableCubic48_check, sgTableCubic48_differs⟩

set_option maxRecDepth 100000 in
theorem acent_iff : ∀ p ∈ sgNumToSymbol, isACentered p.2 = aCent p.1 := by decide +kernel

set_option maxRecDepth 100000 in
theorem symbols_once : sgNumToSymbol.map Prod.fst = List.range' 1 230 ∧ (sgNumToSymbol.map Prod.snd).Nodup := by
  decide +kernel

theorem amapGet?_mem {α β : Type} [DecidableEq α] {l : List (α × β)} {k : α} {v : β}
    (h : amapGet? l k = some v) : (k, v) ∈ l := by
  unfold amapGet? at h
  rw [Option.map_eq_some_iff] at h
  obtain ⟨p, hp, rfl⟩ := h
  have h1 := List.mem_of_find?_eq_some hp
  have h2 : p.1 = k := by simpa using List.find?_some hp
  rw [← h2]
  exact h1

set_option maxRecDepth 100000 in
theorem system_numbers : ∀ p ∈ sgNumToFullMatrices,
    (p.2.flatMap fun q => q.2.map Prod.fst).Perm (systemNumbers p.1) := by decide +kernel

set_option maxRecDepth 100000 in
theorem systemNumbers_range : ∀ s ∈ [LatticeSystem.Triclinic, .Monoclinic, .Orthorhombic, .Tetragonal, .Rhombohedral,
    .Hexagonal, .Cubic], ∀ n ∈ systemNumbers s, 1 ≤ n ∧ n ≤ 230 := by decide +kernel

theorem entry_system {sys : LatticeSystem} {n num : ℕ} {codes : List ℕ} (h : IsTableEntry sys n num codes) :
    num ∈ systemNumbers sys ∧ 1 ≤ num ∧ num ≤ 230 := by
  obtain ⟨groups, cands, h1, h2, h3⟩ := h
  have hp := system_numbers _ h1
  have hm : num ∈ systemNumbers sys := by
    rw [← hp.mem_iff, List.mem_flatMap]
    exact ⟨_, h2, List.mem_map.2 ⟨_, h3, rfl⟩⟩
  refine ⟨hm, systemNumbers_range sys ?_ num hm⟩
  cases sys <;> simp

theorem symbol_exists {num : ℕ} (h1 : 1 ≤ num) (h2 : num ≤ 230) : ∃ sym, amapGet? sgNumToSymbol num = some sym := by
  have hm : num ∈ sgNumToSymbol.map Prod.fst := by
    rw [symbols_once.1, List.mem_range']; exact ⟨num - 1, by omega, by omega⟩
  obtain ⟨p, hp, rfl⟩ := List.mem_map.1 hm
  unfold amapGet?
  cases h : sgNumToSymbol.find? fun q => decide (q.1 = p.1) with
  | none =>
    rw [List.find?_eq_none] at h
    exact absurd (h p hp) (by simp)
  | some q => exact ⟨q.2, rfl⟩

theorem groupZ_range {p : ℕ × List ℕ} : ∀ a ∈ groupZ p, RangeZ a := by
  intro a ha
  obtain ⟨c, -, rfl⟩ := List.mem_map.1 ha
  exact opZ_range _ _

section
variable {K : Type} [Field K] [LinearOrder K] [IsStrictOrderedRing K] [FloorRing K]

/-- the operations of a space group as the identification reads them from the tables. -/
def TableOps (num : ℕ) (codes : List ℕ) (ops : List (SymmOp K)) : Prop :=
  ∃ sym, amapGet? sgNumToSymbol num = some sym ∧ mapOutcome (tableOp (isACentered sym)) codes = .ret ops

theorem tableOps_eq {num : ℕ} {codes : List ℕ} {ops : List (SymmOp K)} (h : TableOps num codes ops) :
    ops = (groupZ (num, codes)).map (opK K) := by
  obtain ⟨sym, h1, h2⟩ := h
  rw [acent_iff _ (amapGet?_mem h1), mapOutcome_tableOp] at h2
  injection h2 with h2
  rw [← h2, groupZ, List.map_map]
  rfl

theorem tableOps_oper {num : ℕ} {codes : List ℕ} {ops : List (SymmOp K)} (h : TableOps num codes ops) :
    ops.map operOf = (groupZ (num, codes)).map (toK K) := by
  rw [tableOps_eq h, List.map_map]
  apply List.map_congr_left
  intro a ha
  exact operOf_opK (groupZ_range a ha)

theorem tableOps_exists {sys : LatticeSystem} {n num : ℕ} {codes : List ℕ} (h : IsTableEntry sys n num codes) :
    ∃ ops : List (SymmOp K), TableOps num codes ops := by
  obtain ⟨-, h1, h2⟩ := entry_system h
  obtain ⟨sym, hs⟩ := symbol_exists h1 h2
  exact ⟨_, sym, hs, mapOutcome_tableOp _ _⟩

theorem entry_check {sys : LatticeSystem} {n num : ℕ} {codes : List ℕ} (h : IsTableEntry sys n num codes) :
    entryCheck n (num, codes) = true := by
  obtain ⟨groups, cands, h1, h2, h3⟩ := h
  exact List.all_eq_true.1 (table_checked h1 h2).1 _ h3

/-- **C39.** Every entry of the tables, decoded as the identification does, is a list of `n` pairwise different
operations (even modulo lattice translations) that form a group modulo lattice translations. -/
theorem C39_tables_are_groups (sys : LatticeSystem) (n num : ℕ) (codes : List ℕ)
    (h : IsTableEntry sys n num codes) :
    ∃ ops : List (SymmOp K), TableOps num codes ops ∧ ops.length = n ∧ IsOperGroup (ops.map operOf) := by
  obtain ⟨ops, ho⟩ := tableOps_exists (K := K) h
  have hc := entry_check h
  unfold entryCheck at hc
  simp only [Bool.and_eq_true, decide_eq_true_eq] at hc
  refine ⟨ops, ho, ?_, ?_⟩
  · rw [tableOps_eq ho, List.length_map]; exact hc.1.2
  · rw [tableOps_oper ho]
    exact sgCheck_spec hc.1.1 groupZ_range

/-- **C39 (each once).** The tables of a lattice system contain each of its space-group numbers exactly once;
together these are the numbers `1, …, 230`; and each number has a symbol of its own. -/
theorem C39_each_group_once :
    (∀ sys, ∃ groups, amapGet? sgNumToFullMatrices sys = some groups ∧
      (groups.flatMap fun q => q.2.map Prod.fst).Perm (systemNumbers sys)) ∧
    (sgNumToFullMatrices.flatMap fun p => p.2.flatMap fun q => q.2.map Prod.fst).Perm (List.range' 1 230) ∧
    sgNumToSymbol.map Prod.fst = List.range' 1 230 ∧ (sgNumToSymbol.map Prod.snd).Nodup := by
  refine ⟨?_, ?_, symbols_once⟩
  · intro sys
    have h : ∃ groups, amapGet? sgNumToFullMatrices sys = some groups := by cases sys <;> exact ⟨_, rfl⟩
    obtain ⟨groups, h⟩ := h
    exact ⟨groups, h, system_numbers _ (amapGet?_mem h)⟩
  · set_option maxRecDepth 100000 in decide +kernel

/-- **C39 (crystal class).** The rotations of the group `num` have the types and number of the crystal class to
which `International Tables` assign `num`. -/
theorem C39_crystal_class (sys : LatticeSystem) (n num : ℕ) (codes : List ℕ) (h : IsTableEntry sys n num codes)
    (ops : List (SymmOp K)) (ho : TableOps num codes ops) :
    classData num = some (n, typeCounts (ops.map fun o => (operOf o).1)) := by
  have hc := entry_check h
  unfold entryCheck at hc
  simp only [Bool.and_eq_true, decide_eq_true_eq] at hc
  rw [hc.2]
  have := congrArg (List.map Prod.fst) (tableOps_oper ho)
  simp only [List.map_map] at this
  rw [show (fun o : SymmOp K => (operOf o).1) = Prod.fst ∘ operOf from rfl, this]
  rfl

end

/-! ### different groups -/

/-- neither list of numbers is contained in the other. -/
def KeysDiffer (a b : List ℕ) : Prop := (∃ k ∈ a, k ∉ b) ∧ ∃ k ∈ b, k ∉ a

theorem tails_pairwise : ∀ ks : List (List ℕ),
    (ks.tails.all fun t => match t with
      | [] => true
      | a :: rest => rest.all fun b => (a.any fun k => !b.contains k) && (b.any fun k => !a.contains k)) = true →
    ks.Pairwise KeysDiffer := by
  intro ks
  induction ks with
  | nil => intro _; exact List.Pairwise.nil
  | cons a rest ih =>
    intro h
    rw [List.tails_cons, List.all_cons, Bool.and_eq_true] at h
    refine List.Pairwise.cons ?_ (ih h.2)
    intro b hb
    have := List.all_eq_true.1 h.1 b hb
    rw [Bool.and_eq_true, List.any_eq_true, List.any_eq_true] at this
    obtain ⟨⟨k, hk, h1⟩, ⟨k', hk', h2⟩⟩ := this
    exact ⟨⟨k, hk, by simpa using h1⟩, ⟨k', hk', by simpa using h2⟩⟩

theorem pairwise_of_differs {l : List (ℕ × List ℕ)} (h : tableDiffers l = true) {p q : ℕ × List ℕ} (hp : p ∈ l)
    (hq : q ∈ l) (hne : p ≠ q) : ∃ a ∈ groupZ p, a ∉ groupZ q := by
  have hw := tails_pairwise _ h
  rw [List.pairwise_map] at hw
  have hsym : ∀ p q : ℕ × List ℕ, KeysDiffer ((groupZ p).map keyZ) ((groupZ q).map keyZ) →
      KeysDiffer ((groupZ q).map keyZ) ((groupZ p).map keyZ) := fun p q h => ⟨h.2, h.1⟩
  have : Std.Symm (fun p q : ℕ × List ℕ => KeysDiffer ((groupZ p).map keyZ) ((groupZ q).map keyZ)) := ⟨hsym⟩
  have := hw.forall hp hq hne
  obtain ⟨⟨k, hk, hn⟩, -⟩ := this
  obtain ⟨a, ha, rfl⟩ := List.mem_map.1 hk
  exact ⟨a, ha, fun h => hn (List.mem_map.2 ⟨a, h, rfl⟩)⟩

section
variable {K : Type} [Field K] [LinearOrder K] [IsStrictOrderedRing K] [FloorRing K]

/-- **C39 (no two alike).** Of two different groups of one lattice system and order, each has an operation that is
not in the other, even modulo lattice translations. -/
theorem C39_tables_differ (sys : LatticeSystem) (n num num' : ℕ) (codes codes' : List ℕ) (hne : num ≠ num')
    (h : IsTableEntry sys n num codes) (h' : IsTableEntry sys n num' codes') (ops ops' : List (SymmOp K))
    (ho : TableOps num codes ops) (ho' : TableOps num' codes' ops') :
    ∃ o ∈ ops, ∀ o' ∈ ops', ¬ SameOper (operOf o) (operOf o') := by
  obtain ⟨groups, cands, h1, h2, h3⟩ := h
  obtain ⟨groups', cands', h1', h2', h3'⟩ := h'
  have hk1 : (sgNumToFullMatrices.map Prod.fst).Nodup := by decide
  have hk2 : ∀ p ∈ sgNumToFullMatrices, (p.2.map Prod.fst).Nodup := by decide
  have uniq : ∀ {α β : Type} (l : List (α × β)), (l.map Prod.fst).Nodup → ∀ {k : α} {v w : β},
      (k, v) ∈ l → (k, w) ∈ l → v = w := by
    intro α β l hl k v w hv hw
    have := List.inj_on_of_nodup_map hl hv hw rfl
    exact congrArg Prod.snd this
  obtain rfl := uniq _ hk1 h1 h1'
  obtain rfl := uniq _ (hk2 _ h1) h2 h2'
  obtain ⟨a, ha, hn⟩ := pairwise_of_differs (table_checked h1 h2).2 h3 h3'
    (fun e => hne (congrArg Prod.fst e))
  refine ⟨opK K a, by rw [tableOps_eq ho]; exact List.mem_map.2 ⟨a, ha, rfl⟩, ?_⟩
  intro o' hb hs
  rw [tableOps_eq ho'] at hb
  obtain ⟨b, hb', rfl⟩ := List.mem_map.1 hb
  rw [operOf_opK (groupZ_range a ha), operOf_opK (groupZ_range b hb')] at hs
  exact hn (sameOper_eq (groupZ_range a ha) (groupZ_range b hb') hs ▸ hb')

end

/-- a case: the table of space group 14 (`P2₁/c`). -/
example : IsTableEntry .Monoclinic 4 14 [16484, 3198, 711948, 724910] ∧
    classData 14 = some (4, [1, 1, 0, 0, 0, 1, 1, 0, 0, 0]) := by
  refine ⟨⟨[(2, sgTableMonoclinic2), (4, sgTableMonoclinic4)], sgTableMonoclinic4, by simp [sgNumToFullMatrices],
    by simp, ?_⟩, by decide +kernel⟩
  decide +kernel

end CrystSymm
