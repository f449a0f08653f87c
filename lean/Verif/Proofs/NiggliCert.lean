import Verif.Model.Linalg
import Mathlib.Algebra.Order.Field.Basic
import Mathlib.Tactic.Ring
import Mathlib.Tactic.Linarith

set_option autoImplicit false
set_option linter.unusedSectionVars false

/-! # Checker for systems of linear inequalities in six parameters

Used for the uniqueness of the Niggli cell.  A certificate says that a list of facts (linear forms that are `≥ 0`, `> 0`
or `= 0`) together with a list of rules (`p ≥ 0`, and `q ≥ 0` if `p = 0`) is contradictory: either some combination of
the facts with non-negative coefficients is `0 > 0`, or one of the rules is split into `p > 0` and `p = 0, q ≥ 0` and both
cases are contradictory.  Certificates are read from the base 64 digits of a number. -/

namespace CrystSymm.NiggliCert

/-- the six parameters `A, B, C, ξ, η, ζ`. -/
structure Six (α : Type) where
  (A B C X Y Z : α)
deriving DecidableEq

/-- a linear form with integer coefficients. -/
abbrev Form := Six ℤ

def Form.add (f g : Form) : Form := ⟨f.A + g.A, f.B + g.B, f.C + g.C, f.X + g.X, f.Y + g.Y, f.Z + g.Z⟩
def Form.smul (k : ℤ) (f : Form) : Form := ⟨k * f.A, k * f.B, k * f.C, k * f.X, k * f.Y, k * f.Z⟩
def Form.sub (f g : Form) : Form := ⟨f.A - g.A, f.B - g.B, f.C - g.C, f.X - g.X, f.Y - g.Y, f.Z - g.Z⟩
def Form.neg (f : Form) : Form := ⟨-f.A, -f.B, -f.C, -f.X, -f.Y, -f.Z⟩
def Form.zero : Form := ⟨0, 0, 0, 0, 0, 0⟩

inductive Kind | ge | gt | eq
deriving DecidableEq

/-- `k * g` added to `f`, and whether the sum is known to be positive. -/
def addFact (facts : List (Form × Kind)) (i : ℕ) (k : ℤ) (f : Form) (b : Bool) : Option (Form × Bool) :=
  match facts[i]? with
  | none => none
  | some (g, .eq) => some (f.add (g.smul k), b)
  | some (g, .ge) => if 0 ≤ k then some (f.add (g.smul k), b) else none
  | some (g, .gt) => if 0 < k then some (f.add (g.smul k), true) else none

/-- `n` summands, each given by two digits: index and coefficient + 32. -/
def sumCert (facts : List (Form × Kind)) : ℕ → ℕ → Form → Bool → Option (ℕ × Form × Bool)
  | 0, s, f, b => some (s, f, b)
  | n + 1, s, f, b =>
    match addFact facts (s % 64) (((s / 64 % 64 : ℕ) : ℤ) - 32) f b with
    | none => none
    | some (f', b') => sumCert facts n (s / 4096) f' b'

/-- reads a certificate; returns the rest of the digits. -/
def checkTree (rules : List (Form × Form)) : ℕ → List (Form × Kind) → ℕ → Option ℕ
  | 0, _, _ => none
  | fuel + 1, facts, s =>
    match Nat.blt (s % 64) 32 with
    | true =>
      match sumCert facts (s % 64) (s / 64) Form.zero false with
      | some (s', f, true) => if f = Form.zero then some s' else none
      | _ => none
    | false =>
      match rules[s % 64 - 32]? with
      | none => none
      | some (p, q) =>
        match checkTree rules fuel (facts ++ [(p, .gt)]) (s / 64) with
        | none => none
        | some s' => checkTree rules fuel (facts ++ [(p, .eq), (q, .ge)]) s'

section
variable {K : Type} [Field K] [LinearOrder K] [IsStrictOrderedRing K]

def Form.eval (f : Form) (g : Six K) : K :=
  f.A * g.A + f.B * g.B + f.C * g.C + f.X * g.X + f.Y * g.Y + f.Z * g.Z

theorem Form.eval_add (f h : Form) (g : Six K) : (f.add h).eval g = f.eval g + h.eval g := by
  simp only [Form.eval, Form.add, Int.cast_add]; ring
theorem Form.eval_sub (f h : Form) (g : Six K) : (f.sub h).eval g = f.eval g - h.eval g := by
  simp only [Form.eval, Form.sub, Int.cast_sub]; ring
theorem Form.eval_smul (k : ℤ) (h : Form) (g : Six K) : (h.smul k).eval g = k * h.eval g := by
  simp only [Form.eval, Form.smul, Int.cast_mul]; ring
theorem Form.eval_neg (h : Form) (g : Six K) : h.neg.eval g = -h.eval g := by
  simp only [Form.eval, Form.neg, Int.cast_neg]; ring
theorem Form.eval_zero (g : Six K) : Form.zero.eval g = 0 := by simp [Form.eval, Form.zero]

def FactHolds (g : Six K) : Form × Kind → Prop
  | (f, .ge) => 0 ≤ f.eval g
  | (f, .gt) => 0 < f.eval g
  | (f, .eq) => f.eval g = 0

def RuleHolds (g : Six K) (r : Form × Form) : Prop := 0 ≤ r.1.eval g ∧ (r.1.eval g = 0 → 0 ≤ r.2.eval g)

/-- what is known about a sum. -/
def SumHolds (g : Six K) (f : Form) (b : Bool) : Prop := 0 ≤ f.eval g ∧ (b = true → 0 < f.eval g)

theorem addFact_sound {facts : List (Form × Kind)} {g : Six K} (h : ∀ x ∈ facts, FactHolds g x) {i : ℕ} {k : ℤ}
    {f f' : Form} {b b' : Bool} (hf : SumHolds g f b) (he : addFact facts i k f b = some (f', b')) :
    SumHolds g f' b' := by
  unfold addFact at he
  split at he
  · cases he
  · rename_i h0 heq
    have := h _ (List.mem_of_getElem? heq)
    cases he
    simp only [FactHolds] at this
    unfold SumHolds
    rw [Form.eval_add, Form.eval_smul, this, mul_zero, add_zero]
    exact hf
  · rename_i h0 heq
    have := h _ (List.mem_of_getElem? heq)
    split at he
    · rename_i hk
      cases he
      simp only [FactHolds] at this
      have hm : (0 : K) ≤ k * h0.eval g := mul_nonneg (by exact_mod_cast hk) this
      unfold SumHolds
      rw [Form.eval_add, Form.eval_smul]
      exact ⟨add_nonneg hf.1 hm, fun hb => add_pos_of_pos_of_nonneg (hf.2 hb) hm⟩
    · cases he
  · rename_i h0 heq
    have := h _ (List.mem_of_getElem? heq)
    split at he
    · rename_i hk
      cases he
      simp only [FactHolds] at this
      have hm : (0 : K) < k * h0.eval g := mul_pos (by exact_mod_cast hk) this
      unfold SumHolds
      rw [Form.eval_add, Form.eval_smul]
      have := add_pos_of_nonneg_of_pos hf.1 hm
      exact ⟨this.le, fun _ => this⟩
    · cases he

theorem sumCert_sound {facts : List (Form × Kind)} {g : Six K} (h : ∀ x ∈ facts, FactHolds g x) (n : ℕ) :
    ∀ {s s' : ℕ} {f f' : Form} {b b' : Bool}, SumHolds g f b → sumCert facts n s f b = some (s', f', b') →
      SumHolds g f' b' := by
  induction n with
  | zero => intro s s' f f' b b' hf he; simp only [sumCert, Option.some.injEq, Prod.mk.injEq] at he
            obtain ⟨-, rfl, rfl⟩ := he; exact hf
  | succ n ih =>
    intro s s' f f' b b' hf he
    rw [sumCert] at he
    split at he
    · cases he
    · rename_i heq
      exact ih (addFact_sound h hf heq) he

theorem checkTree_sound {rules : List (Form × Form)} {g : Six K} (hr : ∀ r ∈ rules, RuleHolds g r) (fuel : ℕ) :
    ∀ {facts : List (Form × Kind)} {s s' : ℕ}, checkTree rules fuel facts s = some s' →
      ¬ ∀ x ∈ facts, FactHolds g x := by
  induction fuel with
  | zero => intro facts s s' he; simp [checkTree] at he
  | succ n ih =>
    intro facts s s' he h
    rw [checkTree] at he
    split at he
    · split at he
      · rename_i heq
        split at he
        · rename_i hz
          subst hz
          have := (sumCert_sound h _ (f := Form.zero) (b := false)
            ⟨(Form.eval_zero g).ge, fun h => by cases h⟩ heq).2 rfl
          rw [Form.eval_zero] at this
          exact lt_irrefl _ this
        · cases he
      · cases he
    · split at he
      · cases he
      · rename_i p q heq
        obtain ⟨hp, hq⟩ := hr _ (List.mem_of_getElem? heq)
        split at he
        · cases he
        · rename_i s1 h1
          rcases hp.lt_or_eq with hp | hp
          · refine ih h1 fun x hx => ?_
            rw [List.mem_append] at hx
            rcases hx with hx | hx
            · exact h x hx
            · rw [List.mem_singleton] at hx
              subst hx
              exact hp
          · refine ih he fun x hx => ?_
            rw [List.mem_append] at hx
            rcases hx with hx | hx
            · exact h x hx
            · simp only [List.mem_cons, List.not_mem_nil, or_false] at hx
              rcases hx with rfl | rfl
              · exact hp.symm
              · exact hq hp.symm

end

/-! ## the systems -/

def Form.lin (a b c x y z : ℤ) (g : Six Form) : Form :=
  (((((g.A.smul a).add (g.B.smul b)).add (g.C.smul c)).add (g.X.smul x)).add (g.Y.smul y)).add (g.Z.smul z)

/-- the facts of a Niggli cell of type I (`true`) or II (`false`) with the parameters `g`. -/
def sysFacts : Bool → Six Form → List (Form × Kind)
  | true, g => [(g.A, .gt), (g.B.sub g.A, .ge), (g.C.sub g.B, .ge), (g.X, .gt), (g.Y, .gt), (g.Z, .gt),
      (g.B.sub g.X, .ge), (g.A.sub g.Y, .ge), (g.A.sub g.Z, .ge)]
  | false, g => [(g.A, .gt), (g.B.sub g.A, .ge), (g.C.sub g.B, .ge), (g.X.neg, .ge), (g.Y.neg, .ge), (g.Z.neg, .ge),
      (g.B.add g.X, .ge), (g.A.add g.Y, .ge), (g.A.add g.Z, .ge), (Form.lin 1 1 0 1 1 1 g, .ge)]

def sysRules : Bool → Six Form → List (Form × Form)
  | true, g => [(g.B.sub g.A, g.Y.sub g.X), (g.C.sub g.B, g.Z.sub g.Y), (g.B.sub g.X, Form.lin 0 0 0 0 2 (-1) g),
      (g.A.sub g.Y, Form.lin 0 0 0 2 0 (-1) g), (g.A.sub g.Z, Form.lin 0 0 0 2 (-1) 0 g)]
  | false, g => [(g.B.sub g.A, g.X.sub g.Y), (g.C.sub g.B, g.Y.sub g.Z), (g.B.add g.X, g.Z), (g.A.add g.Y, g.Z),
      (g.A.add g.Z, g.Y), (Form.lin 1 1 0 1 1 1 g, Form.lin (-2) 0 0 0 (-2) (-1) g)]

def base : Six Form :=
  ⟨⟨1, 0, 0, 0, 0, 0⟩, ⟨0, 1, 0, 0, 0, 0⟩, ⟨0, 0, 1, 0, 0, 0⟩, ⟨0, 0, 0, 1, 0, 0⟩, ⟨0, 0, 0, 0, 1, 0⟩, ⟨0, 0, 0, 0, 0, 1⟩⟩

/-- the squared length of `v`. -/
def qForm (v : Vec3 ℤ) : Form := ⟨v.x * v.x, v.y * v.y, v.z * v.z, v.y * v.z, v.x * v.z, v.x * v.y⟩

/-- twice the scalar product of `u` and `v`. -/
def bForm (u v : Vec3 ℤ) : Form :=
  ⟨2 * (u.x * v.x), 2 * (u.y * v.y), 2 * (u.z * v.z), u.y * v.z + u.z * v.y, u.x * v.z + u.z * v.x,
    u.x * v.y + u.y * v.x⟩

/-- the parameters of the cell with the axes `u, v, w`. -/
def newForms (u v w : Vec3 ℤ) : Six Form := ⟨qForm u, qForm v, qForm w, bForm v w, bForm u w, bForm u v⟩

def det3 (u v w : Vec3 ℤ) : ℤ :=
  u.x * (v.y * w.z - v.z * w.y) - v.x * (u.y * w.z - u.z * w.y) + w.x * (u.y * v.z - u.z * v.y)

/-- the vectors with coordinates in `{0, 1, -1}`, without `0`. -/
def smallVecs : List (Vec3 ℤ) :=
  [⟨0, 0, 1⟩, ⟨0, 0, -1⟩, ⟨0, 1, 0⟩, ⟨0, 1, 1⟩, ⟨0, 1, -1⟩, ⟨0, -1, 0⟩, ⟨0, -1, 1⟩, ⟨0, -1, -1⟩,
   ⟨1, 0, 0⟩, ⟨1, 0, 1⟩, ⟨1, 0, -1⟩, ⟨1, 1, 0⟩, ⟨1, 1, 1⟩, ⟨1, 1, -1⟩, ⟨1, -1, 0⟩, ⟨1, -1, 1⟩, ⟨1, -1, -1⟩,
   ⟨-1, 0, 0⟩, ⟨-1, 0, 1⟩, ⟨-1, 0, -1⟩, ⟨-1, 1, 0⟩, ⟨-1, 1, 1⟩, ⟨-1, 1, -1⟩, ⟨-1, -1, 0⟩, ⟨-1, -1, 1⟩, ⟨-1, -1, -1⟩]

/-- runs `f` for all elements, passing the digits on. -/
def threadAll {α : Type} (f : α → ℕ → Option ℕ) : List α → ℕ → Option ℕ
  | [], s => some s
  | a :: l, s =>
    match f a s with
    | none => none
    | some s' => threadAll f l s'

theorem threadAll_sound {α : Type} {f : α → ℕ → Option ℕ} {l : List α} :
    ∀ {s s' : ℕ}, threadAll f l s = some s' → ∀ a ∈ l, ∃ t t', f a t = some t' := by
  induction l with
  | nil => intro s s' _ a ha; cases ha
  | cons b l ih =>
    intro s s' h a ha
    rw [threadAll] at h
    split at h
    · cases h
    · rename_i s1 h1
      rcases List.mem_cons.1 ha with rfl | ha
      · exact ⟨s, s1, h1⟩
      · exact ih h a ha

/-- the conclusion that a type `t` cell has no other cell of type `t2` with smaller products. -/
def goals (t t2 : Bool) (g : Six Form) : List (List (Form × Kind)) :=
  if t = t2 then [[(base.X.sub g.X, .gt)], [(base.Y.sub g.Y, .gt)], [(base.Z.sub g.Z, .gt)]] else [[]]

def checkGoals (t : Bool) (facts : List (Form × Kind)) (g : Six Form) (t2 : Bool) (s : ℕ) : Option ℕ :=
  threadAll (fun gl s => checkTree (sysRules t base ++ sysRules t2 g) 8 (facts ++ (sysFacts t2 g).tail ++ gl) s)
    (goals t t2 g) s

/-- either refuted (digit 1) or passed on to `next` (digit 0). -/
def refuteOr (t : Bool) (facts : List (Form × Kind)) (next : ℕ → Option ℕ) (s : ℕ) : Option ℕ :=
  match s % 64 with
  | 0 => next (s / 64)
  | _ => checkTree (sysRules t base) 8 facts (s / 64)

def check3 (t : Bool) (facts : List (Form × Kind)) (u v w : Vec3 ℤ) (s : ℕ) : Option ℕ :=
  match decide (det3 u v w = 1) with
  | true =>
    let facts := facts ++ [((qForm w).sub base.C, .eq)]
    refuteOr t facts (threadAll (checkGoals t facts (newForms u v w)) [true, false]) s
  | false => some s

def check2 (t : Bool) (facts : List (Form × Kind)) (u v : Vec3 ℤ) (s : ℕ) : Option ℕ :=
  match decide (v = u) || decide (v = ⟨-u.x, -u.y, -u.z⟩) with
  | true => some s
  | false =>
    let facts := facts ++ [((qForm v).sub base.B, .eq)]
    refuteOr t facts (threadAll (check3 t facts u v) smallVecs) s

/-- all cells whose first axis is `u`. -/
def check1 (t : Bool) (u : Vec3 ℤ) (s : ℕ) : Option ℕ :=
  let facts := sysFacts t base ++ [((qForm u).sub base.A, .eq)]
  refuteOr t facts (threadAll (check2 t facts u) smallVecs) s

/-! ## what the check means -/

section
variable {K : Type} [Field K] [LinearOrder K] [IsStrictOrderedRing K]

/-- the parameters `g`, and the forms `f` at them, are a Niggli cell of type `t`. -/
def SysHolds (t : Bool) (f : Six Form) (g : Six K) : Prop :=
  (∀ x ∈ sysFacts t f, FactHolds g x) ∧ ∀ r ∈ sysRules t f, RuleHolds g r

theorem refuteOr_sound {t : Bool} {facts : List (Form × Kind)} {next : ℕ → Option ℕ} {s s' : ℕ}
    (h : refuteOr t facts next s = some s') {g : Six K} (hr : ∀ r ∈ sysRules t base, RuleHolds g r)
    (hf : ∀ x ∈ facts, FactHolds g x) : ∃ t t', next t = some t' := by
  unfold refuteOr at h
  split at h
  · exact ⟨_, _, h⟩
  · exact absurd hf (checkTree_sound hr 8 h)

theorem holds_append {g : Six K} {l m : List (Form × Kind)} (hl : ∀ x ∈ l, FactHolds g x)
    (hm : ∀ x ∈ m, FactHolds g x) : ∀ x ∈ l ++ m, FactHolds g x := by
  intro x hx
  rcases List.mem_append.1 hx with h | h
  exacts [hl x h, hm x h]

theorem holds_single {g : Six K} {f : Form × Kind} (h : FactHolds g f) : ∀ x ∈ [f], FactHolds g x := by
  intro x hx
  rw [List.mem_singleton] at hx
  subst hx
  exact h

theorem checkGoals_sound {t t2 : Bool} {facts : List (Form × Kind)} {f : Six Form} {s s' : ℕ}
    (h : checkGoals t facts f t2 s = some s') {g : Six K} (hr : ∀ r ∈ sysRules t base, RuleHolds g r)
    (hf : ∀ x ∈ facts, FactHolds g x) (h2 : SysHolds t2 f g) :
    t = t2 ∧ g.X ≤ f.X.eval g ∧ g.Y ≤ f.Y.eval g ∧ g.Z ≤ f.Z.eval g := by
  have hrr : ∀ r ∈ sysRules t base ++ sysRules t2 f, RuleHolds g r := by
    intro r hx
    rcases List.mem_append.1 hx with h | h
    exacts [hr r h, h2.2 r h]
  have hff := holds_append hf fun x hx => h2.1 x (List.mem_of_mem_tail hx)
  have key : ∀ gl ∈ goals t t2 f, ¬ ∀ x ∈ gl, FactHolds g x := by
    intro gl hgl hx
    obtain ⟨a, b, hab⟩ := threadAll_sound h gl hgl
    exact checkTree_sound hrr 8 hab (holds_append hff hx)
  have hX : base.X.eval g = g.X := by simp [base, Form.eval]
  have hY : base.Y.eval g = g.Y := by simp [base, Form.eval]
  have hZ : base.Z.eval g = g.Z := by simp [base, Form.eval]
  unfold goals at key
  split at key
  · rename_i ht
    refine ⟨ht, ?_, ?_, ?_⟩
    · by_contra hc
      refine key _ (by simp) (holds_single (f := (base.X.sub f.X, .gt)) ?_)
      simp only [FactHolds, Form.eval_sub, hX]
      linarith
    · by_contra hc
      refine key _ (by simp) (holds_single (f := (base.Y.sub f.Y, .gt)) ?_)
      simp only [FactHolds, Form.eval_sub, hY]
      linarith
    · by_contra hc
      refine key _ (by simp) (holds_single (f := (base.Z.sub f.Z, .gt)) ?_)
      simp only [FactHolds, Form.eval_sub, hZ]
      linarith
  · exact absurd (fun x hx => by cases hx) (key [] (by simp))

theorem check1_sound {t : Bool} {u v w : Vec3 ℤ} {s s' : ℕ} (h : check1 t u s = some s') (hv : v ∈ smallVecs)
    (hw : w ∈ smallVecs) (hd : det3 u v w = 1) {g : Six K} (hg : SysHolds t base g)
    (ha : (qForm u).eval g = g.A) (hb : (qForm v).eval g = g.B) (hc : (qForm w).eval g = g.C)
    {t2 : Bool} (h2 : SysHolds t2 (newForms u v w) g) :
    t = t2 ∧ g.X ≤ (bForm v w).eval g ∧ g.Y ≤ (bForm u w).eval g ∧ g.Z ≤ (bForm u v).eval g := by
  have hA : base.A.eval g = g.A := by simp [base, Form.eval]
  have hB : base.B.eval g = g.B := by simp [base, Form.eval]
  have hC : base.C.eval g = g.C := by simp [base, Form.eval]
  have f1 := holds_append hg.1 (holds_single (f := ((qForm u).sub base.A, .eq))
    (by simp only [FactHolds, Form.eval_sub, ha, hA, sub_self]))
  have f2 := holds_append f1 (holds_single (f := ((qForm v).sub base.B, .eq))
    (by simp only [FactHolds, Form.eval_sub, hb, hB, sub_self]))
  have f3 := holds_append f2 (holds_single (f := ((qForm w).sub base.C, .eq))
    (by simp only [FactHolds, Form.eval_sub, hc, hC, sub_self]))
  obtain ⟨a1, b1, h1⟩ := refuteOr_sound h hg.2 f1
  obtain ⟨a2, b2, h2'⟩ := threadAll_sound h1 v hv
  unfold check2 at h2'
  split at h2'
  · rename_i he
    exfalso
    simp only [Bool.or_eq_true, decide_eq_true_eq] at he
    rcases he with rfl | rfl <;> simp only [det3] at hd <;> ring_nf at hd <;> omega
  obtain ⟨a3, b3, h3⟩ := refuteOr_sound h2' hg.2 f2
  obtain ⟨a4, b4, h4⟩ := threadAll_sound h3 w hw
  unfold check3 at h4
  simp only [hd, decide_true] at h4
  obtain ⟨a5, b5, h5⟩ := refuteOr_sound h4 hg.2 f3
  obtain ⟨a6, b6, h6⟩ := threadAll_sound h5 t2 (by cases t2 <;> simp)
  exact checkGoals_sound h6 hg.2 f3 h2

end

end CrystSymm.NiggliCert
