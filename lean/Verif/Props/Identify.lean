import Verif.Props.SpaceGroupTables
import Verif.Props.SymmOp

/-! # C40–C43: identification of the space group -/

set_option autoImplicit false
set_option linter.unusedSectionVars false

namespace CrystSymm

open Spec PointGroup SymmetryAnalyzer

section
variable {K : Type} [Field K] [LinearOrder K] [IsStrictOrderedRing K] [FloorRing K]

/-! ## C40 -/

/-- every operation matches one of the table. -/
def AllMatch (tols : Vec3 K) (ops table : List (SymmOp K)) : Prop :=
  ∀ op ∈ ops, ∃ o ∈ table, op.isApproxEq o tols = true

instance (tols : Vec3 K) (ops table : List (SymmOp K)) : Decidable (AllMatch tols ops table) := by
  unfold AllMatch; infer_instance

theorem allOpsFound_eq (tols : Vec3 K) (acent : Bool) (codes : List ℕ) (ops : List (SymmOp K)) :
    allOpsFound tols acent codes ops =
      .ret (decide (AllMatch tols ops (codes.map fun c => opK K (opZ acent c)))) := by
  induction ops with
  | nil => simp [allOpsFound, AllMatch]
  | cons op ops ih =>
    rw [allOpsFound, mapOutcome_tableOp, Outcome.ret_bind, ih]
    by_cases h : ((codes.map fun c => opK K (opZ acent c)).any fun cand => op.isApproxEq cand tols) = true
    · rw [if_pos h, Outcome.ret.injEq]
      congr 1
      rw [List.any_eq_true] at h
      rw [eq_iff_iff]
      unfold AllMatch
      rw [List.forall_mem_cons]
      exact ⟨fun hh => ⟨h, hh⟩, fun hh => hh.2⟩
    · rw [if_neg h, Outcome.ret.injEq, eq_comm, decide_eq_false_iff_not]
      intro hh
      exact h (List.any_eq_true.2 (hh op (by simp)))

/-- the candidate loop in terms of the table groups. -/
theorem identifyLoop_eq (tols : Vec3 K) (ops : List (SymmOp K)) :
    ∀ l : List (ℕ × List ℕ), (∀ p ∈ l, 1 ≤ p.1 ∧ p.1 ≤ 230) →
      identifyLoop tols ops l = .ret ((l.find? fun p =>
        decide (AllMatch tols ops ((groupZ p).map (opK K)))).bind fun p =>
          (amapGet? sgNumToSymbol p.1).map fun sym => (p.1, sym)) := by
  intro l
  induction l with
  | nil => intro _; rfl
  | cons p l ih =>
    intro hp
    obtain ⟨num, codes⟩ := p
    obtain ⟨sym, hs⟩ := symbol_exists (hp (num, codes) (by simp)).1 (hp (num, codes) (by simp)).2
    rw [identifyLoop, hs]
    simp only [Outcome.ofOption, Outcome.ret_bind]
    rw [allOpsFound_eq, Outcome.ret_bind, acent_iff _ (amapGet?_mem hs)]
    have hz : codes.map (fun c => opK K (opZ (aCent num) c)) = (groupZ (num, codes)).map (opK K) := by
      rw [groupZ, List.map_map]; rfl
    simp only
    rw [hz]
    by_cases h : AllMatch tols ops ((groupZ (num, codes)).map (opK K))
    · rw [if_pos (by simpa using h), List.find?_cons_of_pos (by simpa using h)]
      simp [hs]
    · rw [if_neg (by simpa using h), List.find?_cons_of_neg (by simpa using h), ih]
      intro p hp'
      exact hp p (by simp [hp'])

theorem amapGet?_of_mem {α β : Type} [DecidableEq α] {l : List (α × β)} (hn : (l.map Prod.fst).Nodup) {k : α}
    {v : β} (h : (k, v) ∈ l) : amapGet? l k = some v := by
  cases hg : amapGet? l k with
  | none =>
    unfold amapGet? at hg
    rw [Option.map_eq_none_iff, List.find?_eq_none] at hg
    exact absurd (hg _ h) (by simp)
  | some w =>
    have := List.inj_on_of_nodup_map hn (amapGet?_mem hg) h rfl
    exact congrArg (fun p => some p.2) this

/-- how the identification of a list of operations proceeds. -/
theorem identify_cases (h : HashOrders K) (ops : List (SymmOp K)) (sys : LatticeSystem) (tols : Vec3 K)
    (hv : h.Valid) :
    (∃ groups cands, (sys, groups) ∈ sgNumToFullMatrices ∧ (ops.length % 256, cands) ∈ groups ∧
      identifySpaceGroup h ops sys tols = .ret (((h.groups cands).find? fun p =>
        decide (AllMatch tols ops ((groupZ p).map (opK K)))).bind fun p =>
          (amapGet? sgNumToSymbol p.1).map fun sym => (p.1, sym))) ∨
    ((∀ num codes, ¬ IsTableEntry sys (ops.length % 256) num codes) ∧
      identifySpaceGroup h ops sys tols =
        .panic "Could not find candidate group with the provided number of operations!") := by
  have hk2 : ∀ p ∈ sgNumToFullMatrices, (p.2.map Prod.fst).Nodup := by decide
  have hk1 : (sgNumToFullMatrices.map Prod.fst).Nodup := by decide
  have hg : ∃ groups, amapGet? sgNumToFullMatrices sys = some groups := by cases sys <;> exact ⟨_, rfl⟩
  obtain ⟨groups, hg⟩ := hg
  unfold identifySpaceGroup
  rw [hg]
  simp only [Outcome.ofOption, Outcome.ret_bind]
  cases hc : amapGet? groups (ops.length % 256) with
  | none =>
    right
    refine ⟨?_, rfl⟩
    rintro num codes ⟨groups', cands, h1, h2, -⟩
    have e := amapGet?_of_mem hk1 h1
    rw [hg] at e
    injection e with e
    subst e
    rw [amapGet?_of_mem (hk2 _ h1) h2] at hc
    exact absurd hc (by simp)
  | some cands =>
    left
    refine ⟨groups, cands, amapGet?_mem hg, amapGet?_mem hc, ?_⟩
    simp only [Outcome.ret_bind]
    apply identifyLoop_eq
    intro p hp
    rw [(hv.groups cands).mem_iff] at hp
    exact (entry_system ⟨groups, cands, amapGet?_mem hg, amapGet?_mem hc, (hp : (p.1, p.2) ∈ cands)⟩).2

theorem near_of_within {t d : K} (h : |normComp t d| < t) : NearInt d t := by
  obtain ⟨n, hn⟩ := normComp_sameMod1 t d
  refine ⟨-n, ?_⟩
  rw [show d - ((-n : ℤ) : K) = normComp t d by push_cast; rw [← hn]; ring]
  exact h

/-- for every tolerance, operations that match are the same up to lattice vectors and the tolerance. -/
theorem approxSame_of_match {s t : SymmOp K} {tols : Vec3 K} (h : s.isApproxEq t tols = true) :
    ApproxSame s t tols := by
  unfold SymmOp.isApproxEq at h
  simp only [Bool.and_eq_true, decide_eq_true_eq, allWithin_iff] at h
  exact ⟨h.1, near_of_within h.2.1, near_of_within h.2.2.1, near_of_within h.2.2.2⟩

/-- **C40.** If a number is returned, for whatever tolerances and hash order, then it is between 1 and 230, it is
returned with its own symbol, it is a number of the lattice system whose table has as many operations as were given
(modulo 256), and each of these matches an operation of the table. -/
theorem C40_identification_sound (h : HashOrders K) (hv : h.Valid) (ops : List (SymmOp K)) (sys : LatticeSystem)
    (tols : Vec3 K) (num : ℕ) (sym : String) (hr : identifySpaceGroup h ops sys tols = .ret (some (num, sym))) :
    1 ≤ num ∧ num ≤ 230 ∧ amapGet? sgNumToSymbol num = some sym ∧ num ∈ systemNumbers sys ∧
      ∃ codes table, IsTableEntry sys (ops.length % 256) num codes ∧ TableOps num codes table ∧
        ∀ op ∈ ops, ∃ o ∈ table, ApproxSame op o tols := by
  rcases identify_cases h ops sys tols hv with ⟨groups, cands, h1, h2, h3⟩ | ⟨-, h3⟩
  · rw [hr] at h3
    injection h3 with h3
    rw [eq_comm, Option.bind_eq_some_iff] at h3
    obtain ⟨p, hp, h3⟩ := h3
    rw [Option.map_eq_some_iff] at h3
    obtain ⟨sym', hs, e⟩ := h3
    injection e with e1 e2
    subst e1 e2
    have hm := List.mem_of_find?_eq_some hp
    rw [(hv.groups cands).mem_iff] at hm
    have hent : IsTableEntry sys (ops.length % 256) p.1 p.2 := ⟨groups, cands, h1, h2, hm⟩
    obtain ⟨hsys, hb⟩ := entry_system hent
    obtain ⟨table, ht⟩ := tableOps_exists (K := K) hent
    refine ⟨hb.1, hb.2, hs, hsys, p.2, table, hent, ht, ?_⟩
    intro op hop
    have ha := List.find?_some hp
    rw [decide_eq_true_eq] at ha
    obtain ⟨o, ho, hmat⟩ := ha op hop
    rw [tableOps_eq ht]
    exact ⟨o, ho, approxSame_of_match hmat⟩
  · rw [hr] at h3
    exact absurd h3 (by simp)

/-- **C40 (nothing returned).** If no number is returned then no table of the lattice system and order is matched by
all operations; the identification panics exactly if there is no table with as many operations. -/
theorem C40_identification_none (h : HashOrders K) (hv : h.Valid) (ops : List (SymmOp K)) (sys : LatticeSystem)
    (tols : Vec3 K) (ht : TolOK tols) :
    (identifySpaceGroup h ops sys tols = .ret none → ∀ num codes (table : List (SymmOp K)),
      IsTableEntry sys (ops.length % 256) num codes → TableOps num codes table →
        ∃ op ∈ ops, ∀ o ∈ table, ¬ ApproxSame op o tols) ∧
    ((∃ msg, identifySpaceGroup h ops sys tols = .panic msg) ↔
      ∀ num codes, ¬ IsTableEntry sys (ops.length % 256) num codes) := by
  rcases identify_cases h ops sys tols hv with ⟨groups, cands, h1, h2, h3⟩ | ⟨hno, h3⟩
  · constructor
    · intro hr num codes table hent htab
      obtain ⟨groups', cands', h1', h2', hm⟩ := hent
      have hk2 : ∀ p ∈ sgNumToFullMatrices, (p.2.map Prod.fst).Nodup := by decide
      have hk1 : (sgNumToFullMatrices.map Prod.fst).Nodup := by decide
      obtain rfl : groups' = groups := by
        have a := amapGet?_of_mem hk1 h1; rw [amapGet?_of_mem hk1 h1'] at a; injection a
      obtain rfl : cands' = cands := by
        have a := amapGet?_of_mem (hk2 _ h1) h2; rw [amapGet?_of_mem (hk2 _ h1) h2'] at a; injection a
      rw [hr] at h3
      injection h3 with h3
      by_contra hc
      push Not at hc
      have hall : AllMatch tols ops ((groupZ (num, codes)).map (opK K)) := by
        intro op hop
        obtain ⟨o, ho, ha⟩ := hc op hop
        rw [tableOps_eq htab] at ho
        exact ⟨o, ho, (C07_is_approx_eq_iff _ _ _ ht).2 ha⟩
      rw [eq_comm, Option.bind_eq_none_iff] at h3
      cases hf : (h.groups cands').find? fun p => decide (AllMatch tols ops ((groupZ p).map (opK K))) with
      | none =>
        rw [List.find?_eq_none] at hf
        exact hf _ ((hv.groups cands').mem_iff.2 hm) (by simpa using hall)
      | some p =>
        have := h3 p hf
        rw [Option.map_eq_none_iff] at this
        have hpm := (hv.groups cands').mem_iff.1 (List.mem_of_find?_eq_some hf)
        obtain ⟨-, hb⟩ := entry_system ⟨groups', cands', h1, h2, (hpm : (p.1, p.2) ∈ cands')⟩
        obtain ⟨sym, hs⟩ := symbol_exists hb.1 hb.2
        rw [hs] at this
        exact absurd this (by simp)
    · constructor
      · rintro ⟨msg, hm⟩
        rw [hm] at h3
        exact absurd h3 (by simp)
      · intro hno
        exfalso
        have hne : ∀ p ∈ sgNumToFullMatrices, ∀ q ∈ p.2, q.2 ≠ [] := by decide
        have := hne _ h1 _ h2
        obtain ⟨p, hp⟩ := List.exists_mem_of_ne_nil _ this
        exact hno p.1 p.2 ⟨groups, cands, h1, h2, hp⟩
  · constructor
    · intro hr
      rw [hr] at h3
      exact absurd h3 (by simp)
    · exact ⟨fun _ => hno, fun _ => ⟨_, h3⟩⟩

/-! ## C41 -/

/-- `a` and `b` list the same operations in some order, up to lattice vectors and `tols`. -/
def SameOps (tols : Vec3 K) (a b : List (SymmOp K)) : Prop :=
  ∃ b', b'.Perm b ∧ List.Forall₂ (fun x y => ApproxSame x y tols) a b'

theorem near_twelfths {a b : ℤ} (ha : 0 ≤ a ∧ a < 12) (hb : 0 ≤ b ∧ b < 12) {x t : K} (ht : t ≤ 1 / 24)
    (h1 : NearInt (x - (a : K) / 12) t) (h2 : NearInt (x - (b : K) / 12) t) : a = b := by
  obtain ⟨m, hm⟩ := h1
  obtain ⟨n, hn⟩ := h2
  rw [abs_lt] at hm hn
  have hlt : |(((b - a) - 12 * (m - n) : ℤ) : K)| < 1 := by
    push_cast
    rw [abs_lt]
    constructor <;> linarith [hm.1, hm.2, hn.1, hn.2]
  rw [← Int.cast_abs] at hlt
  have : |(b - a) - 12 * (m - n)| < 1 := by exact_mod_cast hlt
  have := Int.abs_lt_one_iff.1 this
  omega

theorem zop_eq_of_near {a b : ZOp} (ha : RangeZ a) (hb : RangeZ b) {op : SymmOp K} {tols : Vec3 K}
    (hx : tols.x ≤ 1 / 24) (hy : tols.y ≤ 1 / 24) (hz : tols.z ≤ 1 / 24)
    (h1 : ApproxSame op (opK K a) tols) (h2 : ApproxSame op (opK K b) tols) : a = b := by
  refine Prod.ext ?_ ?_
  · rw [← intRot_rotZ ha, ← intRot_rotZ hb]
    have : (opK K a).rotation = (opK K b).rotation := h1.1.symm.trans h2.1
    exact congrArg intRot this
  · ext
    · exact near_twelfths ha.2.1 hb.2.1 hx h1.2.1 h2.2.1
    · exact near_twelfths ha.2.2.1 hb.2.2.1 hy h1.2.2.1 h2.2.2.1
    · exact near_twelfths ha.2.2.2 hb.2.2.2 hz h1.2.2.2 h2.2.2.2

theorem forall₂_left {α β : Type} {R : α → β → Prop} {l : List α} {l' : List β} (h : List.Forall₂ R l l')
    {a : α} (ha : a ∈ l) : ∃ b ∈ l', R a b := by
  induction h with
  | nil => simp at ha
  | cons h _ ih =>
    rcases List.mem_cons.1 ha with rfl | ha
    · exact ⟨_, by simp, h⟩
    · obtain ⟨b, hb, hr⟩ := ih ha
      exact ⟨b, by simp [hb], hr⟩

theorem forall₂_right {α β : Type} {R : α → β → Prop} {l : List α} {l' : List β} (h : List.Forall₂ R l l')
    {b : β} (hb : b ∈ l') : ∃ a ∈ l, R a b := by
  induction h with
  | nil => simp at hb
  | cons h _ ih =>
    rcases List.mem_cons.1 hb with rfl | hb
    · exact ⟨_, by simp, h⟩
    · obtain ⟨a, ha, hr⟩ := ih hb
      exact ⟨a, by simp [ha], hr⟩

set_option maxRecDepth 100000 in
theorem orders_small : ∀ p ∈ sgNumToFullMatrices, ∀ q ∈ p.2, q.1 < 256 := by decide

theorem cands_nodup {sys : LatticeSystem} {groups : List (ℕ × List (ℕ × List ℕ))} {n : ℕ}
    {cands : List (ℕ × List ℕ)} (h1 : (sys, groups) ∈ sgNumToFullMatrices) (h2 : (n, cands) ∈ groups) :
    (cands.map Prod.fst).Nodup := by
  have hn : (systemNumbers sys).Nodup := by cases sys <;> decide
  have hp := (system_numbers _ h1).nodup_iff.2 hn
  rw [List.nodup_flatMap] at hp
  exact hp.1 _ h2

/-- **C41.** Given the operations of a table group, in any order and up to lattice vectors and the tolerance, with a
tolerance of at most `1/24`, the identification returns the number of the group with its symbol, for every hash
order. -/
theorem C41_table_groups_recognised (h : HashOrders K) (hv : h.Valid) (sys : LatticeSystem) (n num : ℕ)
    (codes : List ℕ) (table ops : List (SymmOp K)) (tols : Vec3 K) (ht : TolOK tols)
    (hx : tols.x ≤ 1 / 24) (hy : tols.y ≤ 1 / 24) (hz : tols.z ≤ 1 / 24)
    (hent : IsTableEntry sys n num codes) (htab : TableOps num codes table) (hops : SameOps tols ops table) :
    ∃ sym, amapGet? sgNumToSymbol num = some sym ∧
      identifySpaceGroup h ops sys tols = .ret (some (num, sym)) := by
  obtain ⟨hb1, hb2⟩ := (entry_system hent).2
  obtain ⟨sym, hs⟩ := symbol_exists hb1 hb2
  refine ⟨sym, hs, ?_⟩
  obtain ⟨tab', hperm, hf2⟩ := hops
  obtain ⟨table', htab', hlen, -⟩ := C39_tables_are_groups (K := K) sys n num codes hent
  have hlen' : ops.length = n := by
    rw [hf2.length_eq, hperm.length_eq, tableOps_eq htab, ← hlen, tableOps_eq htab']
  obtain ⟨groups, cands, h1, h2, h3⟩ := hent
  have hn256 : ops.length % 256 = n := by
    rw [hlen', Nat.mod_eq_of_lt (orders_small _ h1 _ h2)]
  rcases identify_cases h ops sys tols hv with ⟨groups', cands', h1', h2', hid⟩ | ⟨hno, -⟩
  swap
  · exact absurd ⟨groups, cands, h1, by rw [hn256]; exact h2, h3⟩ (hno num codes)
  have hk2 : ∀ p ∈ sgNumToFullMatrices, (p.2.map Prod.fst).Nodup := by decide
  have hk1 : (sgNumToFullMatrices.map Prod.fst).Nodup := by decide
  obtain rfl : groups' = groups := by
    have a := amapGet?_of_mem hk1 h1; rw [amapGet?_of_mem hk1 h1'] at a; injection a
  obtain rfl : cands' = cands := by
    rw [hn256] at h2'
    have a := amapGet?_of_mem (hk2 _ h1) h2; rw [amapGet?_of_mem (hk2 _ h1) h2'] at a; injection a
  have hself : AllMatch tols ops ((groupZ (num, codes)).map (opK K)) := by
    intro op hop
    obtain ⟨o, ho, ha⟩ := forall₂_left hf2 hop
    rw [hperm.mem_iff, tableOps_eq htab] at ho
    exact ⟨o, ho, (C07_is_approx_eq_iff _ _ _ ht).2 ha⟩
  have hother : ∀ p ∈ cands', AllMatch tols ops ((groupZ p).map (opK K)) → p = (num, codes) := by
    intro p hp hall
    by_contra hne
    obtain ⟨a, ha, hna⟩ := pairwise_of_differs (table_checked h1 h2).2 h3 hp (Ne.symm hne)
    have ham : opK K a ∈ tab' := by
      rw [hperm.mem_iff, tableOps_eq htab]
      exact List.mem_map.2 ⟨a, ha, rfl⟩
    obtain ⟨op, hop, hap⟩ := forall₂_right hf2 ham
    obtain ⟨o, ho, hmat⟩ := hall op hop
    obtain ⟨b, hb, rfl⟩ := List.mem_map.1 ho
    have := zop_eq_of_near (groupZ_range a ha) (groupZ_range b hb) hx hy hz hap (approxSame_of_match hmat)
    exact hna (this ▸ hb)
  rw [hid]
  cases hf : (h.groups cands').find? fun p => decide (AllMatch tols ops ((groupZ p).map (opK K))) with
  | none =>
    rw [List.find?_eq_none] at hf
    exact absurd hself (by simpa using hf _ ((hv.groups cands').mem_iff.2 h3))
  | some p =>
    have hpm := (hv.groups cands').mem_iff.1 (List.mem_of_find?_eq_some hf)
    have ha := List.find?_some hf
    rw [decide_eq_true_eq] at ha
    rw [hother p hpm ha]
    simp [hs]

/-! ## C42 -/

/-- the operation after moving the origin to `s`: `x ↦ g (x + s) - s`. -/
def shiftOrigin (s : Vec3 K) (o : SymmOp K) : SymmOp K :=
  ⟨o.rotation, act (operOf o) s - s⟩

/-- **C42 (partial).** The result depends on the translations only modulo lattice vectors; hence a shift of the
origin that changes every translation by a lattice vector does not matter.  Missing: other shifts, for which the
claim is false (below). -/
theorem C42_lattice_shift_partial (h : HashOrders K) (ops ops' : List (SymmOp K)) (sys : LatticeSystem)
    (tols : Vec3 K) (ht : TolOK tols) (hv : h.Valid)
    (hs : List.Forall₂ (fun x y : SymmOp K => x.rotation = y.rotation ∧ SamePoint x.translation y.translation)
      ops ops') :
    identifySpaceGroup h ops sys tols = identifySpaceGroup h ops' sys tols := by
  have hl := hs.length_eq
  have hiff : ∀ table : List (SymmOp K), AllMatch tols ops table ↔ AllMatch tols ops' table := by
    intro table
    constructor
    · intro ha op hop
      obtain ⟨x, hx, hr⟩ := forall₂_right hs hop
      obtain ⟨o, ho, hm⟩ := ha x hx
      exact ⟨o, ho, by
        rw [← C07_is_approx_eq_lattice x op o o tols ht hr ⟨rfl, samePoint_refl _⟩]; exact hm⟩
    · intro ha op hop
      obtain ⟨x, hx, hr⟩ := forall₂_left hs hop
      obtain ⟨o, ho, hm⟩ := ha x hx
      exact ⟨o, ho, by
        rw [C07_is_approx_eq_lattice op x o o tols ht hr ⟨rfl, samePoint_refl _⟩]; exact hm⟩
  have hk2 : ∀ p ∈ sgNumToFullMatrices, (p.2.map Prod.fst).Nodup := by decide
  have hk1 : (sgNumToFullMatrices.map Prod.fst).Nodup := by decide
  rcases identify_cases h ops sys tols hv with ⟨groups, cands, h1, h2, h3⟩ | ⟨hno, h3⟩ <;>
    rcases identify_cases h ops' sys tols hv with ⟨groups', cands', h1', h2', h3'⟩ | ⟨hno', h3'⟩
  · rw [hl] at h2
    obtain rfl : groups' = groups := by
      have a := amapGet?_of_mem hk1 h1; rw [amapGet?_of_mem hk1 h1'] at a; injection a
    obtain rfl : cands' = cands := by
      have a := amapGet?_of_mem (hk2 _ h1) h2; rw [amapGet?_of_mem (hk2 _ h1) h2'] at a; injection a
    rw [h3, h3']
    simp only [hiff]
  · exfalso
    have hne : ∀ p ∈ sgNumToFullMatrices, ∀ q ∈ p.2, q.2 ≠ [] := by decide
    obtain ⟨p, hp⟩ := List.exists_mem_of_ne_nil _ (hne _ h1 _ h2)
    rw [hl] at h2
    exact hno' p.1 p.2 ⟨groups, cands, h1, h2, hp⟩
  · exfalso
    have hne : ∀ p ∈ sgNumToFullMatrices, ∀ q ∈ p.2, q.2 ≠ [] := by decide
    obtain ⟨p, hp⟩ := List.exists_mem_of_ne_nil _ (hne _ h1' _ h2')
    rw [← hl] at h2'
    exact hno p.1 p.2 ⟨groups', cands', h1', h2', hp⟩
  · rw [h3, h3']

/-- the operations of `P-1` with the inversion centre at the origin. -/
def pBar1 (K : Type) [Field K] : List (SymmOp K) :=
  [⟨⟨1, 0, 0, 0, 1, 0, 0, 0, 1⟩, ⟨0, 0, 0⟩⟩, ⟨⟨-1, 0, 0, 0, -1, 0, 0, 0, -1⟩, ⟨0, 0, 0⟩⟩]

theorem groupZ_2 : groupZ (2, [16484, 3198]) =
    [(⟨1, 0, 0, 0, 1, 0, 0, 0, 1⟩, ⟨0, 0, 0⟩), (⟨-1, 0, 0, 0, -1, 0, 0, 0, -1⟩, ⟨0, 0, 0⟩)] := by decide +kernel

theorem opK_groupZ_2 : (groupZ (2, [16484, 3198])).map (opK K) = pBar1 K := by
  rw [groupZ_2]
  simp only [List.map_cons, List.map_nil, opK, pBar1, Int.cast_zero, zero_div]
  rfl

/-- **C42 is false:** `P-1` is identified with the inversion centre at the origin, but not after moving the origin
by an eighth of a lattice vector. -/
theorem C42_false_origin (h : HashOrders K) (hv : h.Valid) (tols : Vec3 K) (ht : TolOK tols)
    (hx : tols.x ≤ 1 / 24) (hy : tols.y ≤ 1 / 24) (hz : tols.z ≤ 1 / 24) :
    identifySpaceGroup h (pBar1 K) .Triclinic tols = .ret (some (2, "P-1")) ∧
      identifySpaceGroup h ((pBar1 K).map (shiftOrigin ⟨1 / 8, 0, 0⟩)) .Triclinic tols = .ret none := by
  have hent : IsTableEntry .Triclinic 2 2 [16484, 3198] :=
    ⟨[(1, sgTableTriclinic1), (2, sgTableTriclinic2)], sgTableTriclinic2, by simp [sgNumToFullMatrices], by simp,
      by decide +kernel⟩
  have htab : TableOps 2 [16484, 3198] (pBar1 K) := by
    obtain ⟨ops, ho⟩ := tableOps_exists (K := K) hent
    have := tableOps_eq ho
    rw [opK_groupZ_2] at this
    rwa [this] at ho
  constructor
  · obtain ⟨sym, hs, hid⟩ := C41_table_groups_recognised h hv .Triclinic 2 2 _ _ (pBar1 K) tols ht hx hy hz hent htab
      ⟨_, List.Perm.refl _, by
        rw [List.forall₂_same]
        intro x _
        exact (C07_is_approx_eq_iff x x tols ht).1 (C07_is_approx_eq_refl x tols ht)⟩
    have : amapGet? sgNumToSymbol 2 = some "P-1" := rfl
    rw [this] at hs
    injection hs with hs
    rw [hid, ← hs]
  · rcases identify_cases h ((pBar1 K).map (shiftOrigin ⟨1 / 8, 0, 0⟩)) .Triclinic tols hv with
      ⟨groups, cands, h1, h2, h3⟩ | ⟨hno, -⟩
    · rw [h3]
      cases hf : (h.groups cands).find? fun p =>
        decide (AllMatch tols ((pBar1 K).map (shiftOrigin ⟨1 / 8, 0, 0⟩)) ((groupZ p).map (opK K))) with
      | none => rfl
      | some p =>
        exfalso
        have hpm := (hv.groups cands).mem_iff.1 (List.mem_of_find?_eq_some hf)
        have ha := List.find?_some hf
        rw [decide_eq_true_eq] at ha
        have hk : ∀ q ∈ sgNumToFullMatrices, q.1 = .Triclinic → ∀ r ∈ q.2, r.1 = 2 →
            r.2 = [(2, [16484, 3198])] := by decide
        have hc := hk _ h1 rfl _ h2 (by simp [pBar1])
        simp only at hc
        rw [hc, List.mem_singleton] at hpm
        subst hpm
        rw [opK_groupZ_2] at ha
        obtain ⟨o, ho, hm⟩ := ha (shiftOrigin ⟨1 / 8, 0, 0⟩ ⟨⟨-1, 0, 0, 0, -1, 0, 0, 0, -1⟩, ⟨0, 0, 0⟩⟩)
          (List.mem_map.2 ⟨_, by simp [pBar1], rfl⟩)
        obtain ⟨hrot, ⟨n, hn⟩, -⟩ := approxSame_of_match hm
        have htr : o.translation.x = 0 := by
          simp only [pBar1, List.mem_cons, List.not_mem_nil, or_false] at ho
          rcases ho with rfl | rfl <;> rfl
        have hsx : (shiftOrigin (⟨1 / 8, 0, 0⟩ : Vec3 K)
            ⟨⟨-1, 0, 0, 0, -1, 0, 0, 0, -1⟩, ⟨0, 0, 0⟩⟩).translation.x = -(1 / 4) := by
          have hi : Int8.toInt (-1) = -1 := rfl
          simp only [shiftOrigin, act, affine, operOf, intRot, castRot, Mat3.map, Vec3.sub_x, hi]
          norm_num
        rw [htr, hsx, abs_lt] at hn
        have h4 : ((4 * n : ℤ) : K) < 0 := by push_cast; linarith [hn.1]
        have h5 : (-2 : K) < ((4 * n : ℤ) : K) := by push_cast; linarith [hn.2]
        have h4' : 4 * n < 0 := by exact_mod_cast h4
        have h5' : -2 < 4 * n := by exact_mod_cast h5
        omega
    · exact absurd hent (hno 2 _)

/-! ## C43 -/

/-- **C43 (partial).** The identification itself recognises the rhombohedral groups, if it is asked for the
rhombohedral system.  Missing: `get_space_group_info` never asks for it (below). -/
theorem C43_rhombohedral_tables_partial (h : HashOrders K) (hv : h.Valid) (tols : Vec3 K) (ht : TolOK tols)
    (hx : tols.x ≤ 1 / 24) (hy : tols.y ≤ 1 / 24) (hz : tols.z ≤ 1 / 24) (num : ℕ) (hnum : num ∈ rhombohedralNumbers) :
    ∃ n codes table, IsTableEntry .Rhombohedral n num codes ∧ TableOps num codes table ∧
      ∃ sym, identifySpaceGroup h table .Rhombohedral tols = .ret (some (num, sym)) := by
  have hex : ∃ n codes, IsTableEntry .Rhombohedral n num codes := by
    have : num ∈ systemNumbers .Rhombohedral := hnum
    have hg : ∃ groups, (LatticeSystem.Rhombohedral, groups) ∈ sgNumToFullMatrices :=
      ⟨_, by simp [sgNumToFullMatrices]; rfl⟩
    obtain ⟨groups, hg⟩ := hg
    rw [← (system_numbers _ hg).mem_iff, List.mem_flatMap] at this
    obtain ⟨q, hq, hm⟩ := this
    obtain ⟨p, hp, rfl⟩ := List.mem_map.1 hm
    exact ⟨q.1, p.2, groups, q.2, hg, hq, hp⟩
  obtain ⟨n, codes, hent⟩ := hex
  obtain ⟨table, htab⟩ := tableOps_exists (K := K) hent
  obtain ⟨sym, -, hid⟩ := C41_table_groups_recognised h hv .Rhombohedral n num codes table table tols ht hx hy hz hent
    htab ⟨_, List.Perm.refl _, by
      rw [List.forall₂_same]
      intro x _
      exact (C07_is_approx_eq_iff x x tols ht).1 (C07_is_approx_eq_refl x tols ht)⟩
  exact ⟨n, codes, table, hent, htab, sym, hid⟩

variable [FTrans K]

/-- **C43 is false:** `get_space_group_info` never reports a rhombohedral space group. -/
theorem C43_false_never_rhombohedral (sa : SymmetryAnalyzer K) (h : HashOrders K) (hv : h.Valid) (fuel : ℕ)
    (s : Structure K) (num : ℕ) (sym : String) (ops : List (SymmOp K))
    (hr : sa.getSpaceGroupInfo h fuel s = .ret (num, sym, ops)) : num ∉ rhombohedralNumbers := by
  unfold getSpaceGroupInfo at hr
  simp only [Outcome.bind_eq_ret] at hr
  obtain ⟨prim, -, nig, -, ⟨conv, ch⟩, -, cs, -, ⟨pm, bravais⟩, -, sp, -, gens, -, sg, -, system, hsys, ident, hid,
    ⟨num', sym'⟩, hsome, i1, -, i2, -, ops', -, hfin⟩ := hr
  simp only [Outcome.ret.injEq, Prod.mk.injEq] at hfin
  obtain ⟨rfl, rfl, rfl⟩ := hfin
  have hident : ident = some (num', sym') := by
    cases ident with
    | none => simp [Outcome.ofOption] at hsome
    | some p => simp only [Outcome.ofOption, Outcome.ret.injEq] at hsome; rw [hsome]
  subst hident
  have hm := (C40_identification_sound h hv _ _ _ _ _ hid).2.2.2.1
  have hs : system ≠ .Rhombohedral := by
    intro e
    subst e
    cases bravais <;> simp [BravaisType.latticeSystem?, Outcome.ofOption] at hsys <;> revert hsys <;> decide
  intro hrh
  revert hm hrh
  have key : ∀ l ∈ [LatticeSystem.Triclinic, .Monoclinic, .Orthorhombic, .Tetragonal, .Hexagonal, .Cubic],
      ∀ n ∈ rhombohedralNumbers, n ∉ systemNumbers l := by decide
  intro hm hrh
  exact key system (by cases system <;> simp_all) num' hrh hm

end

/-- hash tables that iterate in order of insertion. -/
def insertionOrders (K : Type) : HashOrders K :=
  { minEle := id, pointOps := fun _ => id, eleInds := id, opVecs := id, counts := fun _ => id
    groups := id }

/-- a case of C40 and C41: the table of `P2₁`, with the screw axis moved by a lattice vector and by 0.01, in reverse
order. -/
example : identifySpaceGroup (insertionOrders ℚ)
    [⟨⟨-1, 0, 0, 0, 1, 0, 0, 0, -1⟩, ⟨1, -51 / 100, 1 / 100⟩⟩, ⟨⟨1, 0, 0, 0, 1, 0, 0, 0, 1⟩, ⟨0, 0, 0⟩⟩]
    .Monoclinic ⟨1 / 50, 1 / 50, 1 / 50⟩ = .ret (some (4, "P12_11")) := by
  decide +kernel

/-- a case of C42: `P-1` with a quarter of a lattice vector in the inversion is not found. -/
example : identifySpaceGroup (insertionOrders ℚ) ((pBar1 ℚ).map (shiftOrigin ⟨1 / 8, 0, 0⟩)) .Triclinic
    ⟨1 / 50, 1 / 50, 1 / 50⟩ = .ret none := by
  decide +kernel

end CrystSymm
