import Verif.Model.Utils
import Verif.Spec.Basic
import Mathlib.Tactic.Linarith
import Mathlib.Tactic.Ring
import Mathlib.Tactic.IntervalCases

set_option autoImplicit false

/-! # Lemmas on the digit loop of `decode` -/

namespace CrystSymm

open Spec

/-- `n` least significant digits of `e`, most significant first. -/
def digs (b : ℕ) : ℕ → ℕ → List ℕ
  | 0, _ => []
  | n + 1, e => digs b n (e / b) ++ [e % b]

theorem digs_length (b n e : ℕ) : (digs b n e).length = n := by
  induction n generalizing e with
  | zero => rfl
  | succ n ih => simp [digs, ih]

theorem ofDigits_append_single (b : ℕ) (l : List ℕ) (d : ℕ) :
    ofDigits b (l ++ [d]) = ofDigits b l * b + d := by
  simp [ofDigits]

theorem ofDigits_digs (b n e : ℕ) : ofDigits b (digs b n e) = e % b ^ n := by
  induction n generalizing e with
  | zero => simp [digs, ofDigits, Nat.mod_one]
  | succ n ih =>
    rw [digs, ofDigits_append_single, ih, pow_succ', Nat.mod_mul]; ring

theorem digs_lt {b : ℕ} (hb : 0 < b) (n e : ℕ) : ∀ d ∈ digs b n e, d < b := by
  induction n generalizing e with
  | zero => simp [digs]
  | succ n ih =>
    intro d hd
    simp only [digs, List.mem_append, List.mem_singleton] at hd
    rcases hd with hd | rfl
    · exact ih _ d hd
    · exact Nat.mod_lt _ hb

theorem digs_ofDigits {b : ℕ} (l : List ℕ) (h : ∀ d ∈ l, d < b) :
    digs b l.length (ofDigits b l) = l := by
  induction l using List.reverseRecOn with
  | nil => rfl
  | append_singleton l d ih =>
    have hd : d < b := h d (by simp)
    rw [ofDigits_append_single, List.length_append, List.length_singleton, digs]
    rw [show (ofDigits b l * b + d) / b = ofDigits b l by
      rw [Nat.mul_comm, Nat.mul_add_div (by omega), Nat.div_eq_of_lt hd, Nat.add_zero]]
    rw [show (ofDigits b l * b + d) % b = d by
      rw [Nat.mul_comm, Nat.mul_add_mod, Nat.mod_eq_of_lt hd]]
    rw [ih fun d' h' => h d' (by simp [h'])]

theorem ofDigits_lt {b : ℕ} (l : List ℕ) (h : ∀ d ∈ l, d < b) : ofDigits b l < b ^ l.length := by
  induction l using List.reverseRecOn with
  | nil => simp [ofDigits]
  | append_singleton l d ih =>
    have hd : d < b := h d (by simp)
    have := ih fun d' h' => h d' (by simp [h'])
    rw [ofDigits_append_single, List.length_append, List.length_singleton, pow_succ]
    nlinarith

theorem decodeLoop_eq (base : ℕ) (sub : Int8) (n e : ℕ) (out : List Int8) :
    decodeLoop base sub n e out = (digs base n e).map (fun d => Int8.ofNat d - sub) ++ out := by
  induction n generalizing e out with
  | zero => rfl
  | succ n ih => simp [decodeLoop, ih, digs]

theorem decode_eq {e base : ℕ} {sub : Int8} {len : ℤ} (hb : 0 < base) :
    decode e base sub len = .ret ((digs base len.toNat e).map fun d => Int8.ofNat d - sub) := by
  rw [decode, if_neg (by omega), decodeLoop_eq, List.append_nil]

theorem toInt_digit {d base : ℕ} {sub : Int8} (hd : d < base) (hbase : base ≤ 128)
    (h2 : (base : ℤ) - 1 - sub.toInt ≤ 127) :
    (Int8.ofNat d - sub).toInt + sub.toInt = d := by
  rw [Int8.toInt_sub, Int8.toInt_ofNat_of_lt (by omega)]
  have := sub.toInt_lt
  have := sub.le_toInt
  have hmin : -128 ≤ (d : ℤ) - sub.toInt := by omega
  have hmax : (d : ℤ) - sub.toInt < 128 := by omega
  rw [Int.bmod_eq_of_le (by omega) (by omega)]
  omega

theorem mapOutcome_ret {α β : Type} (f : α → Outcome β) (g : α → β) (l : List α)
    (h : ∀ a ∈ l, f a = .ret (g a)) : mapOutcome f l = .ret (l.map g) := by
  induction l with
  | nil => rfl
  | cons a l ih =>
    rw [mapOutcome, h a (by simp), ih fun a' h' => h a' (by simp [h'])]
    rfl

/-- entry `d` of the translation map. -/
def transEntry (d : ℕ) : Int8 := base8TranslationMap.getD d 0

theorem translationLookup_digit {d : ℕ} (hd : d < 8) :
    translationLookup (Int8.ofNat d - 0) = .ret (transEntry d) := by
  interval_cases d <;> rfl

theorem decodeSpgOp_eq (num : ℕ) : decodeSpgOp num = .ret
    ((digs 3 9 (num % 3 ^ 9)).map fun d => Int8.ofNat d - 1,
     (digs 8 3 (num / 3 ^ 9)).map transEntry) := by
  unfold decodeSpgOp
  simp only
  rw [decode_eq (by norm_num), decode_eq (by norm_num)]
  simp only [Outcome.bind]
  have : mapOutcome translationLookup
      ((digs 8 (Int.toNat 3) (num / 3 ^ 9)).map fun d => Int8.ofNat d - 0)
      = .ret ((digs 8 3 (num / 3 ^ 9)).map transEntry) := by
    rw [mapOutcome_ret translationLookup (fun x => transEntry x.toInt.toNat)]
    · rw [List.map_map]
      congr 1
      apply List.map_congr_left
      intro d hd
      have hd8 := digs_lt (by norm_num) _ _ d hd
      simp only [Function.comp]
      interval_cases d <;> rfl
    · intro x hx
      obtain ⟨d, hd, rfl⟩ := List.mem_map.1 hx
      have hd8 := digs_lt (by norm_num) _ _ d hd
      interval_cases d <;> rfl
  rw [this]
  rfl

end CrystSymm
