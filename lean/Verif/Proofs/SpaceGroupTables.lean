import Verif.Proofs.Codes
import Verif.Proofs.Decode
import Verif.Proofs.Outcome
import Verif.Proofs.SpaceGroupGens
import Verif.Spec.SpaceGroups
import Verif.Model.Analyzer

/-! # The space-group tables in integers (translations in twelfths) -/

set_option autoImplicit false
set_option linter.unusedSectionVars false

namespace CrystSymm

open Spec PointGroup SymmetryAnalyzer

/-- the twelfths of a digit. -/
def tw (d : ℕ) : ℤ := match d with | 0 => 0 | 1 => 2 | 2 => 3 | 3 => 4 | 4 => 6 | 5 => 8 | 6 => 9 | _ => 10

def transZ (c : ℕ) : Vec3 ℤ :=
  let d := c / 19683
  ⟨tw (d / 64 % 8), tw (d / 8 % 8), tw (d % 8)⟩

/-- an operation with the translation in twelfths. -/
abbrev ZOp : Type := Mat3 ℤ × Vec3 ℤ

/-- the tabulated operation; `acent` permutes the axes. -/
def opZ (acent : Bool) (c : ℕ) : ZOp :=
  let m := decZ (c % 19683)
  let t := transZ c
  if acent then (⟨m.m22, m.m23, m.m21, m.m32, m.m33, m.m31, m.m12, m.m13, m.m11⟩, ⟨t.y, t.z, t.x⟩) else (m, t)

/-- composition. -/
def mulZ (a b : ZOp) : ZOp := (a.1 * b.1, ((a.1 * b.2 : Vec3 ℤ) + a.2).map fun x => x % 12)

/-- a number for an operation, to speed up the comparisons. -/
def keyZ (a : ZOp) : ℕ := ((encZ a.1 * 12 + a.2.x.toNat) * 12 + a.2.y.toNat) * 12 + a.2.z.toNat

def keyed (l : List ZOp) : List (ℕ × ZOp) := l.map fun z => (keyZ z, z)

def hasZ (l : List (ℕ × ZOp)) (m : ZOp) : Bool :=
  l.any fun p => p.1 == keyZ m && decide (p.2 = m)

/-- breadth-first closure under multiplication by `gens` from the left. -/
def bfs (gens : List ZOp) : ℕ → List ZOp → List (ℕ × ZOp) → List (ℕ × ZOp)
  | 0, _, acc => acc
  | _ + 1, [], acc => acc
  | n + 1, x :: q, acc =>
    let new := (gens.map fun g => mulZ g x).filter fun y => !hasZ acc y
    bfs gens n (q ++ new) (acc ++ keyed new)

def oneZ : ZOp := (1, ⟨0, 0, 0⟩)

/-- everything the kernel checks about one group. -/
def sgCheck (gens ops : List ZOp) : Bool :=
  let ko := keyed ops
  hasZ ko oneZ && decide (ko.map Prod.fst).Nodup &&
  gens.all (fun g => ops.all fun c => hasZ ko (mulZ g c)) &&
  gens.all (fun g => hasZ ko g && ops.any fun y => decide (mulZ g y = oneZ) && decide (mulZ y g = oneZ)) &&
  (let b := bfs gens 60 gens (keyed gens); ops.all fun x => hasZ b x)

/-- the space groups with an `A` in their symbol. -/
def aCent (num : ℕ) : Bool := decide (38 ≤ num ∧ num ≤ 41)

/-- the operations of a table entry. -/
def groupZ (p : ℕ × List ℕ) : List ZOp := p.2.map (opZ (aCent p.1))

/-- everything the kernel checks about one entry of a table of groups of order `n`. -/
def entryCheck (n : ℕ) (p : ℕ × List ℕ) : Bool :=
  let ops := groupZ p
  sgCheck (((amapGet? sgGens p.1).getD []).map (opZ (aCent p.1))) ops && decide (ops.length = n) &&
    decide (classData p.1 = some (n, typeCounts (ops.map Prod.fst)))

/-- different groups of one table are not contained in each other. -/
def tableDiffers (l : List (ℕ × List ℕ)) : Bool :=
  let ks := l.map fun p => (groupZ p).map keyZ
  ks.tails.all fun t => match t with
    | [] => true
    | a :: rest => rest.all fun b => (a.any fun k => !b.contains k) && (b.any fun k => !a.contains k)

theorem hasZ_spec {l : List ZOp} {m : ZOp} (h : hasZ (keyed l) m = true) : m ∈ l := by
  unfold hasZ keyed at h
  rw [List.any_eq_true] at h
  obtain ⟨p, hp, h⟩ := h
  obtain ⟨z, hz, rfl⟩ := List.mem_map.1 hp
  rw [Bool.and_eq_true, decide_eq_true_eq] at h
  exact h.2 ▸ hz

theorem bfs_ind {gens : List ZOp} {P : ZOp → Prop} (hP : ∀ g ∈ gens, ∀ x, P x → P (mulZ g x)) :
    ∀ (n : ℕ) (q acc : List ZOp), (∀ x ∈ q, P x) → (∀ x ∈ acc, P x) →
      ∃ l, bfs gens n q (keyed acc) = keyed l ∧ ∀ x ∈ l, P x := by
  intro n
  induction n with
  | zero => intro q acc _ ha; exact ⟨acc, by cases q <;> rfl, ha⟩
  | succ n ih =>
    intro q acc hq ha
    cases q with
    | nil => exact ⟨acc, rfl, ha⟩
    | cons x q =>
      rw [bfs]
      have hnew : ∀ y ∈ ((gens.map fun g => mulZ g x).filter fun y => !hasZ (keyed acc) y), P y := by
        intro y hy
        obtain ⟨g, hg, rfl⟩ := List.mem_map.1 (List.mem_filter.1 hy).1
        exact hP g hg x (hq x (by simp))
      obtain ⟨l, hl, hPl⟩ := ih (q ++ ((gens.map fun g => mulZ g x).filter fun y => !hasZ (keyed acc) y))
        (acc ++ ((gens.map fun g => mulZ g x).filter fun y => !hasZ (keyed acc) y))
        (by
          intro y hy
          rcases List.mem_append.1 hy with hy | hy
          · exact hq y (by simp [hy])
          · exact hnew y hy)
        (by
          intro y hy
          rcases List.mem_append.1 hy with hy | hy
          · exact ha y hy
          · exact hnew y hy)
      refine ⟨l, ?_, hPl⟩
      rw [← hl]
      simp only [keyed, List.map_append]

section
variable {K : Type} [Field K] [CharZero K]

/-- the operation over `K`. -/
def toK (K : Type) [Field K] (a : ZOp) : Oper K :=
  (a.1, ⟨(a.2.x : K) / 12, (a.2.y : K) / 12, (a.2.z : K) / 12⟩)

theorem sameMod1_refl {K : Type} [Ring K] (x : K) : SameMod1 x x := ⟨0, by simp⟩

theorem sameMod1_symm {K : Type} [Ring K] {x y : K} (h : SameMod1 x y) : SameMod1 y x := by
  obtain ⟨n, h⟩ := h
  exact ⟨-n, by push_cast; rw [← h]; abel⟩

theorem sameMod1_trans {K : Type} [Ring K] {x y z : K} (h : SameMod1 x y) (h' : SameMod1 y z) : SameMod1 x z := by
  obtain ⟨n, h⟩ := h
  obtain ⟨m, h'⟩ := h'
  exact ⟨n + m, by push_cast; rw [← h, ← h']; abel⟩

theorem samePoint_refl {K : Type} [Ring K] (u : Vec3 K) : SamePoint u u :=
  ⟨sameMod1_refl _, sameMod1_refl _, sameMod1_refl _⟩

theorem samePoint_symm {K : Type} [Ring K] {u v : Vec3 K} (h : SamePoint u v) : SamePoint v u :=
  ⟨sameMod1_symm h.1, sameMod1_symm h.2.1, sameMod1_symm h.2.2⟩

theorem samePoint_trans {K : Type} [Ring K] {u v w : Vec3 K} (h : SamePoint u v) (h' : SamePoint v w) :
    SamePoint u w :=
  ⟨sameMod1_trans h.1 h'.1, sameMod1_trans h.2.1 h'.2.1, sameMod1_trans h.2.2 h'.2.2⟩

theorem act_congr {K : Type} [CommRing K] (a : Oper K) {x y : Vec3 K} (h : SamePoint x y) :
    SamePoint (act a x) (act a y) := by
  obtain ⟨⟨i, hi⟩, ⟨j, hj⟩, ⟨k, hk⟩⟩ := h
  refine ⟨⟨a.1.m11 * i + a.1.m12 * j + a.1.m13 * k, ?_⟩, ⟨a.1.m21 * i + a.1.m22 * j + a.1.m23 * k, ?_⟩,
    ⟨a.1.m31 * i + a.1.m32 * j + a.1.m33 * k, ?_⟩⟩ <;>
    · simp only [act, affine]
      push_cast
      rw [← hi, ← hj, ← hk]
      ring

theorem emod_div (n : ℤ) : ((n % 12 : ℤ) : K) / 12 = (n : K) / 12 - ((n / 12 : ℤ) : K) := by
  have h : (n : K) = 12 * ((n / 12 : ℤ) : K) + ((n % 12 : ℤ) : K) := by
    exact_mod_cast (Int.mul_ediv_add_emod n 12).symm
  rw [h]
  field_simp
  ring

theorem act_mulZ (a b : ZOp) (x : Vec3 K) :
    SamePoint (act (toK K (mulZ a b)) x) (act (toK K a) (act (toK K b) x)) := by
  refine ⟨⟨-((a.1 * b.2 + a.2 : Vec3 ℤ).x / 12), ?_⟩, ⟨-((a.1 * b.2 + a.2 : Vec3 ℤ).y / 12), ?_⟩,
    ⟨-((a.1 * b.2 + a.2 : Vec3 ℤ).z / 12), ?_⟩⟩
  all_goals
    simp only [act, affine, toK, mulZ, Vec3.map, emod_div, Mat3.mul_m11, Mat3.mul_m12, Mat3.mul_m13, Mat3.mul_m21,
      Mat3.mul_m22, Mat3.mul_m23, Mat3.mul_m31, Mat3.mul_m32, Mat3.mul_m33, Mat3.mulVec_x, Mat3.mulVec_y, Mat3.mulVec_z,
      Vec3.add_x, Vec3.add_y, Vec3.add_z]
    push_cast
    field_simp
    ring

theorem act_oneZ (x : Vec3 K) : act (toK K oneZ) x = x := by
  simp [act, affine, toK, oneZ]

/-- entries in the ranges of the tables. -/
def RangeZ (a : ZOp) : Prop :=
  (∀ e ∈ a.1.toListCM, -1 ≤ e ∧ e ≤ 1) ∧ (0 ≤ a.2.x ∧ a.2.x < 12) ∧ (0 ≤ a.2.y ∧ a.2.y < 12) ∧
    0 ≤ a.2.z ∧ a.2.z < 12

theorem tw_range (d : ℕ) : 0 ≤ tw d ∧ tw d < 12 := by
  unfold tw
  split <;> norm_num

theorem opZ_range (acent : Bool) (c : ℕ) : RangeZ (opZ acent c) := by
  unfold opZ RangeZ
  cases acent
  · simp only [Bool.false_eq_true, if_false, transZ, decZ, Mat3.toListCM, List.mem_cons, List.not_mem_nil, or_false]
    refine ⟨?_, tw_range _, tw_range _, tw_range _⟩
    rintro e (rfl | rfl | rfl | rfl | rfl | rfl | rfl | rfl | rfl) <;> exact digZ_mem _ _
  · simp only [if_true, transZ, decZ, Mat3.toListCM, List.mem_cons, List.not_mem_nil, or_false]
    refine ⟨?_, tw_range _, tw_range _, tw_range _⟩
    rintro e (rfl | rfl | rfl | rfl | rfl | rfl | rfl | rfl | rfl) <;> exact digZ_mem _ _

theorem twelfth_eq {a b : ℤ} (ha : 0 ≤ a ∧ a < 12) (hb : 0 ≤ b ∧ b < 12)
    (h : SameMod1 ((a : K) / 12) ((b : K) / 12)) : a = b := by
  obtain ⟨n, h⟩ := h
  have h' : ((a - b : ℤ) : K) = ((12 * n : ℤ) : K) := by
    push_cast
    field_simp at h
    rw [h]
  have := Int.cast_injective h'
  omega

theorem third_eq {a b : ℤ} {t : K} (ha : -1 ≤ a ∧ a ≤ 1) (hb : -1 ≤ b ∧ b ≤ 1)
    (h : SameMod1 ((a : K) * (1 / 3) + t) ((b : K) * (1 / 3) + t)) : a = b := by
  obtain ⟨n, h⟩ := h
  have h' : ((a - b : ℤ) : K) = ((3 * n : ℤ) : K) := by
    push_cast
    have : (a : K) * (1 / 3) + t - (b * (1 / 3) + t) = (a - b) / 3 := by ring
    rw [this] at h
    field_simp at h
    rw [h]
  have := Int.cast_injective h'
  omega

/-- operations in the ranges of the tables with the same effect are equal. -/
theorem sameOper_eq {a b : ZOp} (ha : RangeZ a) (hb : RangeZ b) (h : SameOper (toK K a) (toK K b)) : a = b := by
  obtain ⟨ra, xa, ya, za⟩ := ha
  obtain ⟨rb, xb, yb, zb⟩ := hb
  have h0 := h ⟨0, 0, 0⟩
  simp only [SamePoint, act, affine, toK, mul_zero, zero_add, add_zero] at h0
  have e2 : a.2 = b.2 := by
    ext
    · exact twelfth_eq xa xb h0.1
    · exact twelfth_eq ya yb h0.2.1
    · exact twelfth_eq za zb h0.2.2
  have h1 := h ⟨1 / 3, 0, 0⟩
  have h2 := h ⟨0, 1 / 3, 0⟩
  have h3 := h ⟨0, 0, 1 / 3⟩
  simp only [SamePoint, act, affine, toK, mul_zero, zero_add, add_zero, e2] at h1 h2 h3
  simp only [Mat3.toListCM, List.mem_cons, List.not_mem_nil, or_false, forall_eq_or_imp, forall_eq] at ra rb
  obtain ⟨a1, a2, a3, a4, a5, a6, a7, a8, a9⟩ := ra
  obtain ⟨b1, b2, b3, b4, b5, b6, b7, b8, b9⟩ := rb
  refine Prod.ext ?_ e2
  ext
  · exact third_eq a1 b1 h1.1
  · exact third_eq a4 b4 h2.1
  · exact third_eq a7 b7 h3.1
  · exact third_eq a2 b2 h1.2.1
  · exact third_eq a5 b5 h2.2.1
  · exact third_eq a8 b8 h3.2.1
  · exact third_eq a3 b3 h1.2.2
  · exact third_eq a6 b6 h2.2.2
  · exact third_eq a9 b9 h3.2.2

/-- what the kernel check means. -/
theorem sgCheck_spec {gens ops : List ZOp} (h : sgCheck gens ops = true) (hr : ∀ a ∈ ops, RangeZ a) :
    IsOperGroup (ops.map (toK K)) := by
  unfold sgCheck at h
  simp only [Bool.and_eq_true, decide_eq_true_eq, List.all_eq_true] at h
  obtain ⟨⟨⟨⟨h1, hd⟩, hm⟩, hi⟩, hb⟩ := h
  -- the set of operations built from the generators
  let S : ZOp → Prop := fun a =>
    (∀ b ∈ ops, ∃ c ∈ ops, ∀ x, SamePoint (act (toK K c) x) (act (toK K a) (act (toK K b) x)))
  have hS : ∀ g ∈ gens, S g := by
    intro g hg b hb'
    exact ⟨mulZ g b, hasZ_spec (hm g hg b hb'), act_mulZ g b⟩
  have hSmul : ∀ g ∈ gens, ∀ x, S x → S (mulZ g x) := by
    intro g hg d hd' b hb'
    obtain ⟨c, hc, e⟩ := hd' b hb'
    obtain ⟨c', hc', e'⟩ := hS g hg c hc
    refine ⟨c', hc', fun x => ?_⟩
    refine samePoint_trans (e' x) (samePoint_trans (act_congr _ (e x)) ?_)
    exact samePoint_symm (act_mulZ g d _)
  have hclosed : ∀ a ∈ ops, S a := by
    intro a ha
    obtain ⟨l, hl, hPl⟩ := bfs_ind hSmul 60 gens gens hS hS
    have := hb a ha
    rw [hl] at this
    exact hPl a (hasZ_spec this)
  let I : ZOp → Prop := fun a => ∃ y ∈ ops,
    ∀ x, SamePoint (act (toK K a) (act (toK K y) x)) x ∧ SamePoint (act (toK K y) (act (toK K a) x)) x
  have hI : ∀ g ∈ gens, I g := by
    intro g hg
    have := hi g hg
    rw [List.any_eq_true] at this
    obtain ⟨-, y, hy, h⟩ := this
    simp only [Bool.and_eq_true, decide_eq_true_eq] at h
    refine ⟨y, hy, fun x => ⟨?_, ?_⟩⟩
    · have := act_mulZ g y x
      rw [h.1, act_oneZ] at this
      exact samePoint_symm this
    · have := act_mulZ y g x
      rw [h.2, act_oneZ] at this
      exact samePoint_symm this
  have hImul : ∀ g ∈ gens, ∀ x, I x → I (mulZ g x) := by
    rintro g hg d ⟨y, hy, e⟩
    obtain ⟨z, hz, e'⟩ := hI g hg
    obtain ⟨w, hw, e''⟩ := hclosed y hy z hz
    refine ⟨w, hw, fun x => ⟨?_, ?_⟩⟩
    · refine samePoint_trans (act_mulZ g d _) ?_
      refine samePoint_trans (act_congr _ (act_congr _ (e'' x))) ?_
      exact samePoint_trans (act_congr _ (e _).1) (e' x).1
    · refine samePoint_trans (e'' _) ?_
      refine samePoint_trans (act_congr _ (act_congr _ (act_mulZ g d x))) ?_
      exact samePoint_trans (act_congr _ (e' _).2) (e x).2
  have hinv : ∀ a ∈ ops, I a := by
    intro a ha
    obtain ⟨l, hl, hPl⟩ := bfs_ind hImul 60 gens gens hI hI
    have := hb a ha
    rw [hl] at this
    exact hPl a (hasZ_spec this)
  refine ⟨⟨toK K oneZ, List.mem_map.2 ⟨_, hasZ_spec h1, rfl⟩, fun x => by rw [act_oneZ]; exact samePoint_refl x⟩,
    ?_, ?_, ?_⟩
  · intro a ha b hb'
    obtain ⟨a', ha', rfl⟩ := List.mem_map.1 ha
    obtain ⟨b', hb'', rfl⟩ := List.mem_map.1 hb'
    obtain ⟨c, hc, e⟩ := hclosed a' ha' b' hb''
    exact ⟨toK K c, List.mem_map.2 ⟨c, hc, rfl⟩, e⟩
  · intro a ha
    obtain ⟨a', ha', rfl⟩ := List.mem_map.1 ha
    obtain ⟨y, hy, e⟩ := hinv a' ha'
    exact ⟨toK K y, List.mem_map.2 ⟨y, hy, rfl⟩, e⟩
  · have hn : ops.Nodup := by
      rw [keyed, List.map_map] at hd
      exact List.Nodup.of_map _ hd
    rw [List.pairwise_map]
    exact (List.Pairwise.and_mem.1 hn).imp fun ⟨ha, hb', hne⟩ hs =>
      hne (sameOper_eq (hr _ ha) (hr _ hb') hs)

end

/-! ### the tabulated operation -/

section
variable {K : Type} [Field K] [LinearOrder K] [IsStrictOrderedRing K] [FloorRing K]

/-- the operation of the model. -/
def operOf (o : SymmOp K) : Oper K := (intRot o.rotation, o.translation)

/-- the `i8` rotation of a table operation. -/
def rotZ (a : ZOp) : Mat3 Int8 := a.1.map Int8.ofInt

/-- the table operation. -/
def opK (K : Type) [Field K] (a : ZOp) : SymmOp K :=
  ⟨rotZ a, ⟨(a.2.x : K) / 12, (a.2.y : K) / 12, (a.2.z : K) / 12⟩⟩

theorem intRot_rotZ {a : ZOp} (h : RangeZ a) : intRot (rotZ a) = a.1 := by
  have key : ∀ e : ℤ, -1 ≤ e ∧ e ≤ 1 → (Int8.ofInt e).toInt = e := by
    intro e he
    rw [Int8.toInt_ofInt]
    exact Int.bmod_eq_of_le (by norm_num; omega) (by norm_num; omega)
  have h' := h.1
  simp only [Mat3.toListCM, List.mem_cons, List.not_mem_nil, or_false, forall_eq_or_imp, forall_eq] at h'
  obtain ⟨a1, a2, a3, a4, a5, a6, a7, a8, a9⟩ := h'
  ext <;> simp only [intRot, castRot, rotZ, Mat3.map, Int.cast_id] <;> apply key <;> assumption

theorem operOf_opK {a : ZOp} (h : RangeZ a) : operOf (opK K a) = toK K a := by
  unfold operOf opK toK
  rw [intRot_rotZ h]

theorem tw_entry (d : ℕ) (hd : d < 8) : (transEntry d).toInt = tw d := by
  interval_cases d <;> rfl

theorem tableOp_eq (acent : Bool) (c : ℕ) : (tableOp acent c : Outcome (SymmOp K)) = .ret (opK K (opZ acent c)) := by
  have hdig : ∀ w, Int8.ofNat (c % 3 ^ 9 / w % 3) - 1 = Int8.ofInt (digZ (c % 19683) w) := by
    intro w
    unfold digZ
    have := Nat.mod_lt (c % 3 ^ 9 / w) (show 0 < 3 by norm_num)
    norm_num only at this ⊢
    generalize c % 19683 / w % 3 = d at *
    interval_cases d <;> decide
  have h1 := hdig 1
  rw [Nat.div_one] at h1
  have hrot : rotationOfDigits ((digs 3 9 (c % 3 ^ 9)).map fun d => Int8.ofNat d - 1) = .ret (dec8 (c % 19683)) := by
    have := decode_rotation (c % 19683)
    rw [decode_eq (by norm_num)] at this
    exact this
  have htr : (digs 8 3 (c / 3 ^ 9)).map transEntry =
      [transEntry (c / 19683 / 64 % 8), transEntry (c / 19683 / 8 % 8), transEntry (c / 19683 % 8)] := by
    simp only [digs, List.map_cons, List.map_nil, List.nil_append, List.cons_append,
      Nat.div_div_eq_div_mul]
    norm_num only
  unfold tableOp
  rw [decodeSpgOp_eq]
  simp only [Outcome.ret_bind]
  rw [hrot, htr]
  simp only [Outcome.ret_bind, vecOfDigits]
  have e1 : ∀ n : ℕ, (transEntry (n % 8)).toInt = tw (n % 8) := fun n => tw_entry _ (Nat.mod_lt _ (by norm_num))
  have l12 : (lit 12 : K) = 12 := by simp [lit]
  have hl : ∀ n : ℤ, (lit n : K) = n := fun n => rfl
  have h8 : dec8 (c % 19683) = (decZ (c % 19683)).map Int8.ofInt := rfl
  cases acent
  · simp only [Bool.false_eq_true, if_false, Outcome.ret.injEq, opK, opZ, transZ, rotZ, SymmOp.mk.injEq]
    refine ⟨rfl, ?_⟩
    simp only [Vec3.divS, Vec3.map, e1, l12, hl]
  · simp only [if_true, Outcome.ret.injEq, opK, opZ, transZ, rotZ, SymmOp.mk.injEq]
    constructor
    · rw [h8]
      generalize decZ (c % 19683) = m
      ext <;> simp [cToA, cToAInv, Mat3.map]
    · ext <;> simp [Vec3.divS, Vec3.map, e1, hl, castRot, cToAInv, Mat3.map]

theorem mapOutcome_tableOp (acent : Bool) (codes : List ℕ) :
    mapOutcome (tableOp (K := K) acent) codes = .ret (codes.map fun c => opK K (opZ acent c)) := by
  induction codes with
  | nil => rfl
  | cons c cs ih =>
    rw [mapOutcome, tableOp_eq, ih]
    rfl

end

end CrystSymm
