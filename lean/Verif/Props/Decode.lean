import Verif.Proofs.Decode

set_option autoImplicit false

/-! # C05, C06: `decode` and `decode_spg_op` -/

namespace CrystSymm

open Spec

/-- **C05.** `decode` returns exactly `len` digits, each (after adding `sub` back) in `[0, base)`, whose
positional value is `e` modulo `base ^ len`. -/
theorem C05_decode_digits (e base len : ℕ) (sub : Int8) (hb : 0 < base) (hb' : base ≤ 128)
    (h2 : (base : ℤ) - 1 - sub.toInt ≤ 127) :
    ∃ out, decode e base sub len = .ret out ∧ out.length = len ∧
      (∀ x ∈ out, -sub.toInt ≤ x.toInt ∧ x.toInt ≤ base - 1 - sub.toInt) ∧
      ofDigits base (out.map fun x => (x.toInt + sub.toInt).toNat) = e % base ^ len := by
  refine ⟨_, decode_eq hb, by simp [digs_length], ?_, ?_⟩
  · intro x hx
    obtain ⟨d, hd, rfl⟩ := List.mem_map.1 hx
    have hd' := digs_lt hb _ _ d hd
    have := toInt_digit hd' hb' h2
    omega
  · rw [List.map_map]
    have : (digs base (Int.toNat len) e).map
        ((fun x : Int8 => (x.toInt + sub.toInt).toNat) ∘ fun d => Int8.ofNat d - sub)
        = digs base (Int.toNat len) e := by
      conv_rhs => rw [← List.map_id (digs base (Int.toNat len) e)]
      apply List.map_congr_left
      intro d hd
      have := toInt_digit (digs_lt hb _ _ d hd) hb' h2
      simp only [Function.comp, this, id]
      omega
    rw [this, ofDigits_digs]
    simp

/-- **C05 (injectivity).** Different numbers below `base ^ len` decode differently. -/
theorem C05_decode_injective (e e' base len : ℕ) (sub : Int8) (hb : 0 < base) (hb' : base ≤ 128)
    (h2 : (base : ℤ) - 1 - sub.toInt ≤ 127)
    (he : e < base ^ len) (he' : e' < base ^ len)
    (h : decode e base sub len = decode e' base sub len) : e = e' := by
  obtain ⟨o, ho, -, -, h3⟩ := C05_decode_digits e base len sub hb hb' h2
  obtain ⟨o', ho', -, -, h3'⟩ := C05_decode_digits e' base len sub hb hb' h2
  rw [ho, ho'] at h
  obtain rfl : o = o' := by injection h
  rw [h3, Nat.mod_eq_of_lt he, Nat.mod_eq_of_lt he'] at h3'
  exact h3'

/-- **C05 (panic).** `decode` panics exactly when asked for digits in base 0. -/
theorem C05_decode_panics_iff (e base : ℕ) (sub : Int8) (len : ℤ) :
    (∃ m, decode e base sub len = .panic m) ↔ base = 0 ∧ 0 < len := by
  unfold decode
  split <;> simp_all

/-- the parameters used by the crate (base 3, offset 1, nine digits) meet the hypotheses. -/
example : decode 3360 3 1 9 = .ret [-1, 0, 0, 0, 1, 0, 0, 0, -1] ∧
    ofDigits 3 [0, 1, 1, 1, 2, 1, 1, 1, 0] = 3360 ∧ 1 ≤ 3 ∧
    ((3 : ℕ) : ℤ) - 1 - (1 : Int8).toInt ≤ 127 := by decide +kernel

/-- the admissible entries of an encoded rotation. -/
def rotEntries : List Int8 := [-1, 0, 1]
/-- the admissible translation components in twelfths. -/
def transEntries : List Int8 := [0, 2, 3, 4, 6, 8, 9, 10]

/-- **C06a.** `decode_spg_op` never panics and its output is well-ranged, for every code. -/
theorem C06_decode_spg_op_total (num : ℕ) : ∃ rot trans, decodeSpgOp num = .ret (rot, trans) ∧
    rot.length = 9 ∧ trans.length = 3 ∧ (∀ x ∈ rot, x ∈ rotEntries) ∧
    (∀ x ∈ trans, x ∈ transEntries) := by
  refine ⟨_, _, decodeSpgOp_eq num, by simp [digs_length], by simp [digs_length], ?_, ?_⟩
  · intro x hx
    obtain ⟨d, hd, rfl⟩ := List.mem_map.1 hx
    have := digs_lt (by norm_num) _ _ d hd
    interval_cases d <;> decide
  · intro x hx
    obtain ⟨d, hd, rfl⟩ := List.mem_map.1 hx
    have := digs_lt (by norm_num) _ _ d hd
    interval_cases d <;> decide

theorem map_inj_on {α β : Type} {f : α → β} {l l' : List α} {P : α → Prop}
    (hf : ∀ a b, P a → P b → f a = f b → a = b) (hl : ∀ a ∈ l, P a) (hl' : ∀ a ∈ l', P a)
    (h : l.map f = l'.map f) : l = l' := by
  induction l generalizing l' with
  | nil => simp at h; exact h.symm
  | cons a l ih =>
    cases l' with
    | nil => simp at h
    | cons b l' =>
      simp only [List.map_cons, List.cons.injEq] at h
      rw [hf a b (hl a (by simp)) (hl' b (by simp)) h.1,
        ih (fun c hc => hl c (by simp [hc])) (fun c hc => hl' c (by simp [hc])) h.2]

/-- **C06b.** Different codes below `3^9 * 8^3` denote different operations. -/
theorem C06_decode_spg_op_injective (n m : ℕ) (hn : n < 3 ^ 9 * 8 ^ 3) (hm : m < 3 ^ 9 * 8 ^ 3)
    (h : decodeSpgOp n = decodeSpgOp m) : n = m := by
  rw [decodeSpgOp_eq, decodeSpgOp_eq] at h
  simp only [Outcome.ret.injEq, Prod.mk.injEq] at h
  have h1 : digs 3 9 (n % 3 ^ 9) = digs 3 9 (m % 3 ^ 9) := by
    refine map_inj_on (P := fun d => d < 3) ?_ (digs_lt (by norm_num) _ _) (digs_lt (by norm_num) _ _)
      h.1
    intro a b ha hb hab
    interval_cases a <;> interval_cases b <;> first | rfl | (revert hab; decide)
  have h2 : digs 8 3 (n / 3 ^ 9) = digs 8 3 (m / 3 ^ 9) := by
    refine map_inj_on (P := fun d => d < 8) ?_ (digs_lt (by norm_num) _ _) (digs_lt (by norm_num) _ _)
      h.2
    intro a b ha hb hab
    interval_cases a <;> interval_cases b <;> first | rfl | (revert hab; decide)
  have e1 := congrArg (ofDigits 3) h1
  have e2 := congrArg (ofDigits 8) h2
  rw [ofDigits_digs, ofDigits_digs] at e1 e2
  omega

/-- **C06c.** Every combination of admissible entries is the decoding of some code below
`3^9 * 8^3`. -/
theorem C06_decode_spg_op_surjective (rot trans : List Int8) (h9 : rot.length = 9)
    (h3 : trans.length = 3) (hr : ∀ x ∈ rot, x ∈ rotEntries) (ht : ∀ x ∈ trans, x ∈ transEntries) :
    ∃ num, num < 3 ^ 9 * 8 ^ 3 ∧ decodeSpgOp num = .ret (rot, trans) := by
  obtain ⟨dr, hdr, hdr', rfl⟩ : ∃ dr : List ℕ, dr.length = 9 ∧ (∀ d ∈ dr, d < 3) ∧
      rot = dr.map fun d => Int8.ofNat d - 1 := by
    refine ⟨rot.map fun x => (x + 1).toInt.toNat, by simpa using h9, ?_, ?_⟩
    · intro d hd
      obtain ⟨x, hx, rfl⟩ := List.mem_map.1 hd
      have := hr x hx
      simp only [rotEntries, List.mem_cons, List.not_mem_nil, or_false] at this
      rcases this with rfl | rfl | rfl <;> decide
    · rw [List.map_map]
      conv_lhs => rw [← List.map_id rot]
      apply List.map_congr_left
      intro x hx
      have := hr x hx
      simp only [rotEntries, List.mem_cons, List.not_mem_nil, or_false] at this
      rcases this with rfl | rfl | rfl <;> decide
  obtain ⟨dt, hdt, hdt', rfl⟩ : ∃ dt : List ℕ, dt.length = 3 ∧ (∀ d ∈ dt, d < 8) ∧
      trans = dt.map transEntry := by
    refine ⟨trans.map fun x => base8TranslationMap.idxOf x, by simpa using h3, ?_, ?_⟩
    · intro d hd
      obtain ⟨x, hx, rfl⟩ := List.mem_map.1 hd
      have := ht x hx
      simp only [transEntries, List.mem_cons, List.not_mem_nil, or_false] at this
      rcases this with rfl | rfl | rfl | rfl | rfl | rfl | rfl | rfl <;> decide
    · rw [List.map_map]
      conv_lhs => rw [← List.map_id trans]
      apply List.map_congr_left
      intro x hx
      have := ht x hx
      simp only [transEntries, List.mem_cons, List.not_mem_nil, or_false] at this
      rcases this with rfl | rfl | rfl | rfl | rfl | rfl | rfl | rfl <;> decide
  have l1 := ofDigits_lt dr hdr'
  have l2 := ofDigits_lt dt hdt'
  rw [hdr] at l1
  rw [hdt] at l2
  refine ⟨ofDigits 3 dr + 3 ^ 9 * ofDigits 8 dt, by nlinarith, ?_⟩
  rw [decodeSpgOp_eq, Nat.add_mul_mod_self_left, Nat.mod_eq_of_lt l1,
    Nat.add_mul_div_left _ _ (by norm_num), Nat.div_eq_of_lt l1, Nat.zero_add]
  have e1 := digs_ofDigits dr hdr'
  have e2 := digs_ofDigits dt hdt'
  rw [hdr] at e1
  rw [hdt] at e2
  rw [e1, e2]

/-- a code with a rotation and a translation part. -/
example : decodeSpgOp 5749288 = .ret ([-1, -1, 1, 0, 0, 1, 0, 1, 0], [6, 6, 6]) ∧
    5749288 < 3 ^ 9 * 8 ^ 3 := by decide +kernel

end CrystSymm
