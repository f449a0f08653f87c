import Verif.Proofs.BravaisCertData
import Verif.Proofs.NiggliUnique
import Verif.Props.LatticeChar

set_option autoImplicit false
set_option linter.unusedSectionVars false
set_option linter.unusedSimpArgs false
set_option linter.unusedTactic false
set_option linter.unreachableTactic false

/-! # The symmetries of an exact Niggli cell whose lattice character is found -/

namespace CrystSymm.NiggliCert

open Spec NiggliMin SymmetryAnalyzer Reducer

section
variable {K : Type} [Field K] [LinearOrder K] [IsStrictOrderedRing K] [FloorRing K]

/-- the differences that `get_lattice_character` compares with the tolerance. -/
def comparisons (a b c d e f : K) : List K :=
  [a - b, a - c, b - c, d, e, f, a / 2 - d, a / 2 - e, a / 2 - f, d - e, d - f, e - f, a / -3 - d, a / -3 - e,
    a / -3 - f, a / -2 - d, a / -2 - e, a / -2 - f, a / 4 - d, b / -2 - d, b / 2 - d, d * 2 - e, d * 2 - f, e * 2 - f,
    |d + e + f| * 2 - (a + b), |2 * d + f| - b]

/-- the tolerance is positive and no difference is within it, except differences that vanish. -/
def Resolved (ε a b c d e f : K) : Prop := 0 < ε ∧ ∀ x ∈ comparisons a b c d e f, |x| ≤ ε → x = 0

theorem resolved_of_lt {a b c d e f : K} : ∃ δ > 0, ∀ ε, 0 < ε → ε < δ → Resolved ε a b c d e f := by
  have key : ∀ l : List K, ∃ δ > 0, ∀ ε, 0 < ε → ε < δ → ∀ x ∈ l, |x| ≤ ε → x = 0 := by
    intro l
    induction l with
    | nil => exact ⟨1, one_pos, fun _ _ _ x hx => by cases hx⟩
    | cons y l ih =>
      obtain ⟨δ, hδ, h⟩ := ih
      by_cases hy : y = 0
      · refine ⟨δ, hδ, fun ε h0 h1 x hx => ?_⟩
        rcases List.mem_cons.1 hx with rfl | hx
        · exact fun _ => hy
        · exact h ε h0 h1 x hx
      · refine ⟨min δ |y|, lt_min hδ (abs_pos.2 hy), fun ε h0 h1 x hx => ?_⟩
        rcases List.mem_cons.1 hx with rfl | hx
        · intro hle
          exact absurd (h1.trans_le (min_le_right _ _)) (not_lt.2 hle)
        · exact h ε h0 (h1.trans_le (min_le_left _ _)) x hx
  obtain ⟨δ, hδ, h⟩ := key (comparisons a b c d e f)
  exact ⟨δ, hδ, fun ε h0 h1 => ⟨h0, h ε h0 h1⟩⟩

theorem eqE_exact {ε x y : K} (h0 : 0 < ε) (h : |x - y| ≤ ε → x - y = 0) : eqE (some ε) x y = true ↔ x = y := by
  rw [eqE_some]
  constructor
  · exact fun hh => sub_eq_zero.1 (h hh)
  · rintro rfl
    simpa using h0.le

/-! ## two lists in parallel -/

def AllZero (g : Six K) (l : List Form) : Prop := ∀ f ∈ l, f.eval g = 0

/-- the first line of the second list all of whose forms vanish is the first vector of the first list that matches. -/
inductive Parallel (P : Vec3 K → Prop) (adj : ℕ → ℕ) (g : Six K) : List (Vec3 K × ℕ) → List (List Form × ℕ) → Prop
  | nil {l} : (∀ q ∈ l, ¬ AllZero g q.1) → Parallel P adj g [] l
  | cons {p q l m} : adj p.2 = q.2 → (P p.1 ↔ AllZero g q.1) → Parallel P adj g l m → Parallel P adj g (p :: l) (q :: m)
  | hit {p q l m} : adj p.2 = q.2 → P p.1 → AllZero g q.1 → Parallel P adj g (p :: l) (q :: m)
  | skip {q l m} : ¬ AllZero g q.1 → Parallel P adj g l m → Parallel P adj g l (q :: m)

theorem Parallel.found {P : Vec3 K → Prop} {adj : ℕ → ℕ} {g : Six K} {l : List (Vec3 K × ℕ)}
    {m : List (List Form × ℕ)} (h : Parallel P adj g l m) {φ : Vec3 K × ℕ → Bool} (hφ : ∀ p, φ p = true ↔ P p.1)
    {p : Vec3 K × ℕ} (hp : l.find? φ = some p) :
    ∃ i E, m[i]? = some (E, adj p.2) ∧ AllZero g E ∧ ∀ q ∈ m.take i, ¬ AllZero g q.1 := by
  induction h with
  | nil => cases hp
  | @cons p' q l m h1 h2 h3 ih =>
    rw [List.find?_cons] at hp
    split at hp
    · rename_i hf
      cases hp
      exact ⟨0, q.1, by rw [h1]; rfl, h2.1 ((hφ _).1 hf), fun _ h => by cases h⟩
    · rename_i hf
      obtain ⟨i, E, e1, e2, e3⟩ := ih hp
      refine ⟨i + 1, E, e1, e2, fun q' hq' => ?_⟩
      rw [List.take_succ_cons] at hq'
      rcases List.mem_cons.1 hq' with rfl | hq'
      · intro hz
        rw [(hφ _).2 (h2.2 hz)] at hf
        cases hf
      · exact e3 q' hq'
  | @hit p' q l m h1 h2 h3 =>
    rw [List.find?_cons, (hφ _).2 h2] at hp
    cases hp
    exact ⟨0, q.1, by rw [h1]; rfl, h3, fun _ h => by cases h⟩
  | @skip q l m h1 h2 ih =>
    obtain ⟨i, E, e1, e2, e3⟩ := ih hp
    refine ⟨i + 1, E, e1, e2, fun q' hq' => ?_⟩
    rw [List.take_succ_cons] at hq'
    rcases List.mem_cons.1 hq' with rfl | hq'
    exacts [h1, e3 q' hq']

/-- the six parameters from the six products. -/
def sixP (a b c d e f : K) : Six K := ⟨a, b, c, 2 * d, 2 * e, 2 * f⟩

section
variable {ε a b c d e f : K} (hr : Resolved ε a b c d e f)
include hr

theorem Resolved.zero {x : K} (h : x ∈ comparisons a b c d e f ∨ -x ∈ comparisons a b c d e f ∨ x = 0) :
    |x| ≤ ε → x = 0 := by
  intro hx
  rcases h with h | h | h
  · exact hr.2 x h hx
  · exact neg_eq_zero.1 (hr.2 (-x) h (by rwa [abs_neg]))
  · exact h

theorem Resolved.le {x : K} (h : x = 0) : |x| ≤ ε := by rw [h, abs_zero]; exact hr.1.le

end

theorem allZero_nil {g : Six K} : AllZero g [] ↔ True := ⟨fun _ => trivial, fun _ _ h => by cases h⟩
theorem allZero_cons {g : Six K} {x : Form} {l : List Form} : AllZero g (x :: l) ↔ x.eval g = 0 ∧ AllZero g l :=
  List.forall_mem_cons

set_option hygiene false in
/-- closes a line of the comparison. -/
macro "char_line" : tactic => `(tactic| (
  refine ⟨fun h => ?_, fun h => ?_⟩
  · obtain ⟨h1, h2, h3⟩ := defMatches_some.1 h
    try simp only [Vec3.divS, l2, lm2, lm3, l4] at h1 h2 h3
    have h1 := hr.zero (by simp [comparisons]) h1
    have h2 := hr.zero (by simp [comparisons]) h2
    have h3 := hr.zero (by simp [comparisons]) h3
    simp only [allZero_cons, allZero_nil, and_true, Form.eval, sixP]
    try push_cast
    repeat' refine And.intro ?_ ?_
    all_goals first | trivial | linarith
  · try simp only [allZero_cons, allZero_nil, and_true, Form.eval, sixP] at h
    try push_cast at h
    try casesm* _ ∧ _
    refine defMatches_some.2 ⟨hr.le ?_, hr.le ?_, hr.le ?_⟩ <;> (try simp only [Vec3.divS, l2, lm2, lm3, l4]) <;> linarith))

set_option hygiene false in
/-- a line that needs the diagonal condition. -/
macro "char_skip" : tactic => `(tactic| (
  refine fun h => hS ?_
  simp only [allZero_cons, allZero_nil, and_true, Form.eval, sixP] at h
  push_cast at h
  try casesm* _ ∧ _
  linarith))

section
variable {ε a b c d e f : K} (hr : Resolved ε a b c d e f) {adj : ℕ → ℕ}
  (hadj : ∀ n, n ≠ 14 → n ≠ 44 → adj n = n)
include hr hadj

/-- the test of one vector. -/
def Hit (ε d e f : K) (v : Vec3 K) : Prop := defMatches (some ε) v ⟨d, e, f⟩ = true

theorem first_I : Parallel (Hit ε d e f) adj (sixP a b c d e f) (getFirstSet true a b d e f (some ε))
    (charEntries 1 true) := by
  unfold getFirstSet charEntries
  rw [if_pos rfl]
  refine .cons (hadj 1 (by decide) (by decide)) ?_ (.cons (hadj 2 (by decide) (by decide)) ?_
    (.nil fun q hq => by cases hq)) <;> char_line

theorem first_II_pos (hE : extraEvalA a b d e f (some ε) = true) (hS : a + b + 2 * d + 2 * e + 2 * f = 0) :
    Parallel (Hit ε d e f) adj (sixP a b c d e f) (getFirstSet false a b d e f (some ε)) (charEntries 1 false) := by
  unfold getFirstSet charEntries
  rw [if_neg (by decide), if_pos hE]
  refine .cons (hadj 3 (by decide) (by decide)) ?_ (.cons (hadj 5 (by decide) (by decide)) ?_
    (.cons (hadj 4 (by decide) (by decide)) ?_ (.cons (hadj 6 (by decide) (by decide)) ?_
    (.cons (hadj 7 (by decide) (by decide)) ?_ (.cons (hadj 8 (by decide) (by decide)) ?_
    (.nil fun q hq => by cases hq)))))) <;> char_line

theorem first_II_neg (hE : ¬ extraEvalA a b d e f (some ε) = true) (hS : ¬ a + b + 2 * d + 2 * e + 2 * f = 0) :
    Parallel (Hit ε d e f) adj (sixP a b c d e f) (getFirstSet false a b d e f (some ε)) (charEntries 1 false) := by
  unfold getFirstSet charEntries
  rw [if_neg (by decide), if_neg hE]
  refine .cons (hadj 3 (by decide) (by decide)) ?_ (.cons (hadj 5 (by decide) (by decide)) ?_
    (.cons (hadj 4 (by decide) (by decide)) ?_ (.skip ?_ (.skip ?_ (.skip ?_ (.nil fun q hq => by cases hq))))))
  iterate 3 char_line
  all_goals char_skip

theorem second_I : Parallel (Hit ε d e f) adj (sixP a b c d e f) (getSecondSet true a b d e f (some ε))
    (charEntries 2 true) := by
  unfold getSecondSet charEntries
  rw [if_pos rfl]
  refine .cons (hadj 9 (by decide) (by decide)) ?_ (.cons (hadj 10 (by decide) (by decide)) ?_
    (.nil fun q hq => by cases hq)) <;> char_line

theorem second_II_pos (h14 : adj 14 = 16) (hE : extraEvalA a b d e f (some ε) = true)
    (hS : a + b + 2 * d + 2 * e + 2 * f = 0) :
    Parallel (Hit ε d e f) adj (sixP a b c d e f) (getSecondSet false a b d e f (some ε)) (charEntries 2 false) := by
  unfold getSecondSet charEntries
  rw [if_neg (by decide), if_pos hE]
  refine .cons (hadj 11 (by decide) (by decide)) ?_ (.cons (hadj 12 (by decide) (by decide)) ?_
    (.cons (hadj 13 (by decide) (by decide)) ?_ (.cons (hadj 15 (by decide) (by decide)) ?_ ?_)))
  iterate 4 char_line
  by_cases hed : e = d
  · refine .hit h14 ?_ ?_
    · exact defMatches_some.2 ⟨hr.le (by simp), hr.le (by simp [hed]), hr.le (by simp)⟩
    · simp only [allZero_cons, allZero_nil, and_true, Form.eval, sixP]
      push_cast
      constructor <;> linarith
  · refine .cons h14 ?_ (.skip ?_ (.cons (hadj 17 (by decide) (by decide)) ?_ (.nil fun q hq => by cases hq)))
    · char_line
    · intro h
      simp only [allZero_cons, allZero_nil, and_true, Form.eval, sixP] at h
      push_cast at h
      exact hed (by linarith)
    · char_line

theorem second_II_neg (h14 : adj 14 = 14) (hE : ¬ extraEvalA a b d e f (some ε) = true)
    (hS : ¬ a + b + 2 * d + 2 * e + 2 * f = 0) :
    Parallel (Hit ε d e f) adj (sixP a b c d e f) (getSecondSet false a b d e f (some ε)) (charEntries 2 false) := by
  unfold getSecondSet charEntries
  rw [if_neg (by decide), if_neg hE]
  refine .cons (hadj 11 (by decide) (by decide)) ?_ (.cons (hadj 12 (by decide) (by decide)) ?_
    (.cons (hadj 13 (by decide) (by decide)) ?_ (.cons (hadj 15 (by decide) (by decide)) ?_
    (.skip ?_ (.cons h14 ?_ (.skip ?_ (.nil fun q hq => by cases hq)))))))
  iterate 4 char_line
  · char_skip
  · char_line
  · char_skip

theorem third_I : Parallel (Hit ε d e f) adj (sixP a b c d e f) (getThirdSet true a b d e f (some ε))
    (charEntries 3 true) := by
  unfold getThirdSet charEntries
  rw [if_pos rfl]
  refine .cons (hadj 18 (by decide) (by decide)) ?_ (.cons (hadj 19 (by decide) (by decide)) ?_
    (.cons (hadj 20 (by decide) (by decide)) ?_ (.nil fun q hq => by cases hq))) <;> char_line

theorem third_II_pos (hE : extraEvalA a b d e f (some ε) = true) (hS : a + b + 2 * d + 2 * e + 2 * f = 0) :
    Parallel (Hit ε d e f) adj (sixP a b c d e f) (getThirdSet false a b d e f (some ε)) (charEntries 3 false) := by
  unfold getThirdSet charEntries
  rw [if_neg (by decide), if_pos hE]
  refine .cons (hadj 21 (by decide) (by decide)) ?_ (.cons (hadj 22 (by decide) (by decide)) ?_
    (.cons (hadj 23 (by decide) (by decide)) ?_ (.cons (hadj 24 (by decide) (by decide)) ?_
    (.cons (hadj 25 (by decide) (by decide)) ?_ (.nil fun q hq => by cases hq))))) <;> char_line

theorem third_II_neg (hE : ¬ extraEvalA a b d e f (some ε) = true) (hS : ¬ a + b + 2 * d + 2 * e + 2 * f = 0) :
    Parallel (Hit ε d e f) adj (sixP a b c d e f) (getThirdSet false a b d e f (some ε)) (charEntries 3 false) := by
  unfold getThirdSet charEntries
  rw [if_neg (by decide), if_neg hE]
  refine .cons (hadj 21 (by decide) (by decide)) ?_ (.cons (hadj 22 (by decide) (by decide)) ?_
    (.cons (hadj 23 (by decide) (by decide)) ?_ (.skip ?_
    (.cons (hadj 25 (by decide) (by decide)) ?_ (.nil fun q hq => by cases hq)))))
  iterate 3 char_line
  · char_skip
  · char_line

theorem fourth_I : Parallel (Hit ε d e f) adj (sixP a b c d e f) (getFourthSet true a b d e f)
    (charEntries 4 true) := by
  unfold getFourthSet charEntries
  rw [if_pos rfl]
  refine .cons (hadj 26 (by decide) (by decide)) ?_ (.cons (hadj 27 (by decide) (by decide)) ?_
    (.cons (hadj 28 (by decide) (by decide)) ?_ (.cons (hadj 29 (by decide) (by decide)) ?_
    (.cons (hadj 30 (by decide) (by decide)) ?_ (.cons (hadj 31 (by decide) (by decide)) ?_
    (.nil fun q hq => by cases hq)))))) <;> char_line

set_option maxHeartbeats 1000000 in
theorem fourth_II {q : Prop} (hq : q ↔ a + b + 2 * d + 2 * e + 2 * f = 0 ∧ 2 * b + 4 * d + 2 * f = 0)
    (h43 : q → adj 44 = 43) (h44 : ¬ q → adj 44 = 44) :
    Parallel (Hit ε d e f) adj (sixP a b c d e f) (getFourthSet false a b d e f) (charEntries 4 false) := by
  unfold getFourthSet charEntries
  rw [if_neg (by decide)]
  refine .cons (hadj 32 (by decide) (by decide)) ?_ (.cons (hadj 40 (by decide) (by decide)) ?_
    (.cons (hadj 35 (by decide) (by decide)) ?_ (.cons (hadj 36 (by decide) (by decide)) ?_
    (.cons (hadj 33 (by decide) (by decide)) ?_ (.cons (hadj 38 (by decide) (by decide)) ?_
    (.cons (hadj 34 (by decide) (by decide)) ?_ (.cons (hadj 42 (by decide) (by decide)) ?_
    (.cons (hadj 41 (by decide) (by decide)) ?_ (.cons (hadj 37 (by decide) (by decide)) ?_
    (.cons (hadj 39 (by decide) (by decide)) ?_ ?_))))))))))
  iterate 11 char_line
  have hh : Hit ε d e f ⟨d, e, f⟩ := defMatches_some.2 ⟨hr.le (by simp), hr.le (by simp), hr.le (by simp)⟩
  by_cases h : q
  · obtain ⟨h1, h2⟩ := hq.1 h
    refine .hit (h43 h) hh ?_
    simp only [allZero_cons, allZero_nil, and_true, Form.eval, sixP]
    push_cast
    constructor <;> linarith
  · refine .skip (fun hz => h (hq.2 ?_)) (.hit (h44 h) hh (allZero_nil.2 trivial))
    simp only [allZero_cons, allZero_nil, and_true, Form.eval, sixP] at hz
    push_cast at hz
    constructor <;> linarith [hz.1, hz.2]

end

end

end CrystSymm.NiggliCert
