import Verif.Proofs.LinAlg
import Verif.Proofs.Generate
import Verif.Spec.PointGroups
import Mathlib.Tactic.IntervalCases

/-! # Integer matrices with entries `-1, 0, 1` as numbers

The codes are those of the crate's tables: nine base-3 digits, row by row, most significant first. -/

set_option autoImplicit false

namespace CrystSymm

open Spec PointGroup

/-- the digit of weight `3^k`, minus 1. -/
def digZ (c w : ℕ) : ℤ := (c / w % 3 : ℕ) - 1

/-- the matrix of a code. -/
def decZ (c : ℕ) : Mat3 ℤ :=
  ⟨digZ c 6561, digZ c 2187, digZ c 729, digZ c 243, digZ c 81, digZ c 27, digZ c 9, digZ c 3, digZ c 1⟩

/-- Horner step. -/
def encStep (acc : ℕ) (e : ℤ) : ℕ := acc * 3 + (e + 1).toNat

/-- the code of a matrix. -/
def encZ (m : Mat3 ℤ) : ℕ :=
  [m.m11, m.m12, m.m13, m.m21, m.m22, m.m23, m.m31, m.m32, m.m33].foldl encStep 0

/-- the `i8` matrix of a code. -/
def dec8 (c : ℕ) : Mat3 Int8 := (decZ c).map Int8.ofInt

theorem digZ_mem (c w : ℕ) : -1 ≤ digZ c w ∧ digZ c w ≤ 1 := by
  unfold digZ
  have := Nat.mod_lt (c / w) (show 0 < 3 by norm_num)
  omega

theorem intRot_dec8 (c : ℕ) : intRot (dec8 c) = decZ c := by
  have h : ∀ w, (Int8.ofInt (digZ c w)).toInt = digZ c w := by
    intro w
    have := digZ_mem c w
    rw [Int8.toInt_ofInt]
    exact Int.bmod_eq_of_le (by norm_num; omega) (by norm_num; omega)
  ext <;> simp only [intRot, castRot, dec8, decZ, Mat3.map, Int.cast_id, h]

theorem entriesLe_dec8 (c : ℕ) : EntriesLe 6 (dec8 c) := by
  intro e he
  have h := intRot_dec8 c
  simp only [Mat3.toListCM, List.mem_cons, List.not_mem_nil, or_false] at he
  have key : ∃ w, e.toInt = digZ c w := by
    simp only [intRot, castRot, Mat3.map, Int.cast_id, decZ, Mat3.mk.injEq] at h
    obtain ⟨h1, h2, h3, h4, h5, h6, h7, h8, h9⟩ := h
    rcases he with rfl | rfl | rfl | rfl | rfl | rfl | rfl | rfl | rfl
    exacts [⟨_, h1⟩, ⟨_, h4⟩, ⟨_, h7⟩, ⟨_, h2⟩, ⟨_, h5⟩, ⟨_, h8⟩, ⟨_, h3⟩, ⟨_, h6⟩, ⟨_, h9⟩]
  obtain ⟨w, hw⟩ := key
  have := digZ_mem c w
  omega

/-- product of codes. -/
def mulC (a b : ℕ) : ℕ := encZ (decZ a * decZ b)

/-- the product of two codes is again a code (no entry leaves `{-1, 0, 1}`), and is in the list. -/
def mulOk (l : List ℕ) (a b : ℕ) : Bool :=
  let m := decZ a * decZ b
  let c := encZ m
  decide (decZ c = m) && l.contains c

/-- every code after the first ones is a generator times an earlier one. -/
def builtFrom (gens : List ℕ) : List ℕ → List ℕ → Bool
  | _, [] => true
  | prev, c :: cs =>
    (gens.contains c || gens.any fun g => prev.any fun d => decide (decZ g * decZ d = decZ c)) &&
      builtFrom gens (prev ++ [c]) cs

theorem dec8_mul {a b c : ℕ} (h : decZ a * decZ b = decZ c) : dec8 a * dec8 b = dec8 c := by
  apply intRot_injective
  rw [intRot_mul (entriesLe_dec8 a) (entriesLe_dec8 b), intRot_dec8, intRot_dec8, intRot_dec8, h]

theorem mulOk_spec {l : List ℕ} {a b : ℕ} (h : mulOk l a b = true) :
    ∃ c ∈ l, decZ a * decZ b = decZ c := by
  unfold mulOk at h
  simp only [Bool.and_eq_true, decide_eq_true_eq, List.contains_iff_mem] at h
  exact ⟨_, h.2, h.1.symm⟩

theorem mat3I8_mul_assoc (a b c : Mat3 Int8) : a * b * c = a * (b * c) := by
  ext <;> simp only [Mat3.mul_m11, Mat3.mul_m12, Mat3.mul_m13, Mat3.mul_m21, Mat3.mul_m22, Mat3.mul_m23,
    Mat3.mul_m31, Mat3.mul_m32, Mat3.mul_m33] <;> grind

/-- `i8` matrices with wrapping arithmetic. -/
instance instSemigroupI8 : Semigroup (Mat3 Int8) where
  mul_assoc := mat3I8_mul_assoc

/-- decoding a table entry. -/
theorem decode_rotation (c : ℕ) : (decode c 3 1 9).bind rotationOfDigits = .ret (dec8 c) := by
  have key : ∀ w, Int8.ofNat (c / w % 3) - 1 = Int8.ofInt (digZ c w) := by
    intro w
    unfold digZ
    have := Nat.mod_lt (c / w) (show 0 < 3 by norm_num)
    generalize c / w % 3 = d at *
    interval_cases d <;> decide
  have h1 := key 1
  rw [Nat.div_one] at h1
  unfold decode
  rw [if_neg (by norm_num)]
  simp only [Outcome.bind, decodeLoop, show (9 : ℤ).toNat = 9 from rfl, Nat.div_div_eq_div_mul]
  norm_num only
  simp only [h1, key, rotationOfDigits, Mat3.ofListCM, Outcome.ofOption, Outcome.bind, Mat3.transpose]
  rfl

theorem builtFrom_spec {gens : List ℕ} :
    ∀ (cs prev : List ℕ), (∀ c ∈ prev, ProductOf (gens.map dec8) (dec8 c)) → builtFrom gens prev cs = true →
      ∀ c ∈ cs, ProductOf (gens.map dec8) (dec8 c) := by
  intro cs
  induction cs with
  | nil => intro _ _ _ c hc; simp at hc
  | cons d cs ih =>
    intro prev hprev h
    unfold builtFrom at h
    rw [Bool.and_eq_true] at h
    have hd : ProductOf (gens.map dec8) (dec8 d) := by
      rcases (Bool.or_eq_true_iff).1 h.1 with h1 | h1
      · rw [List.contains_iff_mem] at h1
        exact ⟨dec8 d, [], List.mem_map.2 ⟨d, h1, rfl⟩, by simp, rfl⟩
      · rw [List.any_eq_true] at h1
        obtain ⟨g, hg, h2⟩ := h1
        rw [List.any_eq_true] at h2
        obtain ⟨e, he, h3⟩ := h2
        rw [decide_eq_true_eq] at h3
        rw [← dec8_mul h3]
        exact productOf_mul ⟨dec8 g, [], List.mem_map.2 ⟨g, hg, rfl⟩, by simp, rfl⟩ (hprev e he)
    intro c hc
    rcases List.mem_cons.1 hc with rfl | hc
    · exact hd
    · refine ih (prev ++ [d]) ?_ h.2 c hc
      intro x hx
      rcases List.mem_append.1 hx with hx | hx
      · exact hprev x hx
      · rw [List.mem_singleton] at hx; subst hx; exact hd

/-- everything the kernel checks about one point group. -/
def pgCheck (gens ops : List ℕ) : Bool :=
  gens.all (fun g => ops.contains g) && gens.all (fun g => ops.all fun c => mulOk ops g c) &&
    builtFrom gens [] ops

theorem pgCheck_spec {gens ops : List ℕ} (h : pgCheck gens ops = true) (x : Mat3 Int8) :
    ProductOf (gens.map dec8) x ↔ x ∈ ops.map dec8 := by
  unfold pgCheck at h
  rw [Bool.and_eq_true, Bool.and_eq_true, List.all_eq_true, List.all_eq_true] at h
  obtain ⟨⟨h1, h2⟩, h3⟩ := h
  constructor
  · refine productOf_mem ?_ ?_
    · intro g hg
      obtain ⟨c, hc, rfl⟩ := List.mem_map.1 hg
      exact List.mem_map.2 ⟨c, List.contains_iff_mem.1 (h1 c hc), rfl⟩
    · intro g hg y hy
      obtain ⟨c, hc, rfl⟩ := List.mem_map.1 hg
      obtain ⟨d, hd, rfl⟩ := List.mem_map.1 hy
      have := h2 c hc
      rw [List.all_eq_true] at this
      obtain ⟨e, he, hm⟩ := mulOk_spec (this d hd)
      rw [dec8_mul hm]
      exact List.mem_map.2 ⟨e, he, rfl⟩
  · intro hx
    obtain ⟨c, hc, rfl⟩ := List.mem_map.1 hx
    exact builtFrom_spec ops [] (by simp) h3 c hc

end CrystSymm
