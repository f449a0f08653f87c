import Verif.Proofs.NiggliCert
import Verif.Props.ChangeBasis

set_option autoImplicit false
set_option linter.unusedSectionVars false

/-! # Checker for the symmetries of a Niggli cell with a given lattice character

As `NiggliCert`, with a third kind of node: a clause (a list of forms that do not all vanish) is split into one case for
each form and each sign. -/

namespace CrystSymm.NiggliCert

open PointGroup

/-- reads a certificate; returns the rest of the digits. -/
def checkTreeC (rules : List (Form × Form)) (clauses : List (List Form)) : ℕ → List (Form × Kind) → ℕ → Option ℕ
  | 0, _, _ => none
  | fuel + 1, facts, s =>
    match Nat.blt (s % 64) 32 with
    | true =>
      match sumCert facts (s % 64) (s / 64) Form.zero false with
      | some (s', f, true) => if f = Form.zero then some s' else none
      | _ => none
    | false =>
      match Nat.blt (s % 64) 48 with
      | true =>
        match rules[s % 64 - 32]? with
        | none => none
        | some (p, q) =>
          match checkTreeC rules clauses fuel (facts ++ [(p, .gt)]) (s / 64) with
          | none => none
          | some s' => checkTreeC rules clauses fuel (facts ++ [(p, .eq), (q, .ge)]) s'
      | false =>
        match clauses[s % 64 - 48]? with
        | none => none
        | some cl =>
          threadAll (fun (f : Form) s => checkTreeC rules clauses fuel (facts ++ [(f, .gt)]) s)
            (cl.flatMap fun f => [f, f.neg]) (s / 64)

/-- the lines of the table of characters: the forms that vanish, and the number.  First argument: which of the edge
lengths agree (1: all, 2: `a = b`, 3: `b = c`, 4: none); second argument: type I or II. -/
def charEntries : ℕ → Bool → List (List Form × ℕ)
  | 1, true => [([⟨-1, 0, 0, 1, 0, 0⟩, ⟨-1, 0, 0, 0, 1, 0⟩, ⟨-1, 0, 0, 0, 0, 1⟩], 1),
      ([⟨0, 0, 0, -1, 1, 0⟩, ⟨0, 0, 0, -1, 0, 1⟩], 2)]
  | 1, false => [([⟨0, 0, 0, 1, 0, 0⟩, ⟨0, 0, 0, 0, 1, 0⟩, ⟨0, 0, 0, 0, 0, 1⟩], 3),
      ([⟨2, 0, 0, 3, 0, 0⟩, ⟨2, 0, 0, 0, 3, 0⟩, ⟨2, 0, 0, 0, 0, 3⟩], 5), ([⟨0, 0, 0, -1, 1, 0⟩, ⟨0, 0, 0, -1, 0, 1⟩], 4),
      ([⟨1, 1, 0, 1, 1, 1⟩, ⟨0, 0, 0, -1, 1, 0⟩], 6), ([⟨1, 1, 0, 1, 1, 1⟩, ⟨0, 0, 0, 0, -1, 1⟩], 7),
      ([⟨1, 1, 0, 1, 1, 1⟩], 8)]
  | 2, true => [([⟨-1, 0, 0, 1, 0, 0⟩, ⟨-1, 0, 0, 0, 1, 0⟩, ⟨-1, 0, 0, 0, 0, 1⟩], 9), ([⟨0, 0, 0, -1, 1, 0⟩], 10)]
  | 2, false => [([⟨0, 0, 0, 1, 0, 0⟩, ⟨0, 0, 0, 0, 1, 0⟩, ⟨0, 0, 0, 0, 0, 1⟩], 11),
      ([⟨0, 0, 0, 1, 0, 0⟩, ⟨0, 0, 0, 0, 1, 0⟩, ⟨1, 0, 0, 0, 0, 1⟩], 12),
      ([⟨0, 0, 0, 1, 0, 0⟩, ⟨0, 0, 0, 0, 1, 0⟩], 13),
      ([⟨1, 0, 0, 1, 0, 0⟩, ⟨1, 0, 0, 0, 1, 0⟩, ⟨0, 0, 0, 0, 0, 1⟩], 15),
      ([⟨1, 1, 0, 1, 1, 1⟩, ⟨0, 0, 0, -1, 1, 0⟩], 16), ([⟨0, 0, 0, -1, 1, 0⟩], 14), ([⟨1, 1, 0, 1, 1, 1⟩], 17)]
  | 3, true => [([⟨-1, 0, 0, 2, 0, 0⟩, ⟨-1, 0, 0, 0, 1, 0⟩, ⟨-1, 0, 0, 0, 0, 1⟩], 18),
      ([⟨-1, 0, 0, 0, 1, 0⟩, ⟨-1, 0, 0, 0, 0, 1⟩], 19), ([⟨0, 0, 0, 0, -1, 1⟩], 20)]
  | 3, false => [([⟨0, 0, 0, 1, 0, 0⟩, ⟨0, 0, 0, 0, 1, 0⟩, ⟨0, 0, 0, 0, 0, 1⟩], 21),
      ([⟨0, 1, 0, 1, 0, 0⟩, ⟨0, 0, 0, 0, 1, 0⟩, ⟨0, 0, 0, 0, 0, 1⟩], 22),
      ([⟨0, 0, 0, 0, 1, 0⟩, ⟨0, 0, 0, 0, 0, 1⟩], 23),
      ([⟨1, 1, 0, 1, 1, 1⟩, ⟨2, 0, 0, 0, 3, 0⟩, ⟨2, 0, 0, 0, 0, 3⟩], 24), ([⟨0, 0, 0, 0, -1, 1⟩], 25)]
  | _, true => [([⟨-1, 0, 0, 2, 0, 0⟩, ⟨-1, 0, 0, 0, 1, 0⟩, ⟨-1, 0, 0, 0, 0, 1⟩], 26),
      ([⟨-1, 0, 0, 0, 1, 0⟩, ⟨-1, 0, 0, 0, 0, 1⟩], 27), ([⟨-1, 0, 0, 0, 1, 0⟩, ⟨0, 0, 0, -2, 0, 1⟩], 28),
      ([⟨0, 0, 0, -2, 1, 0⟩, ⟨-1, 0, 0, 0, 0, 1⟩], 29), ([⟨0, -1, 0, 1, 0, 0⟩, ⟨0, 0, 0, 0, -2, 1⟩], 30), ([], 31)]
  | _, false => [([⟨0, 0, 0, 1, 0, 0⟩, ⟨0, 0, 0, 0, 1, 0⟩, ⟨0, 0, 0, 0, 0, 1⟩], 32),
      ([⟨0, 1, 0, 1, 0, 0⟩, ⟨0, 0, 0, 0, 1, 0⟩, ⟨0, 0, 0, 0, 0, 1⟩], 40),
      ([⟨0, 0, 0, 0, 1, 0⟩, ⟨0, 0, 0, 0, 0, 1⟩], 35),
      ([⟨0, 0, 0, 1, 0, 0⟩, ⟨1, 0, 0, 0, 1, 0⟩, ⟨0, 0, 0, 0, 0, 1⟩], 36),
      ([⟨0, 0, 0, 1, 0, 0⟩, ⟨0, 0, 0, 0, 0, 1⟩], 33),
      ([⟨0, 0, 0, 1, 0, 0⟩, ⟨0, 0, 0, 0, 1, 0⟩, ⟨1, 0, 0, 0, 0, 1⟩], 38),
      ([⟨0, 0, 0, 1, 0, 0⟩, ⟨0, 0, 0, 0, 1, 0⟩], 34),
      ([⟨0, 1, 0, 1, 0, 0⟩, ⟨1, 0, 0, 0, 1, 0⟩, ⟨0, 0, 0, 0, 0, 1⟩], 42),
      ([⟨0, 1, 0, 1, 0, 0⟩, ⟨0, 0, 0, 0, 0, 1⟩], 41), ([⟨1, 0, 0, 0, 1, 0⟩, ⟨0, 0, 0, 0, 0, 1⟩], 37),
      ([⟨0, 0, 0, 0, 1, 0⟩, ⟨1, 0, 0, 0, 0, 1⟩], 39),
      ([⟨1, 1, 0, 1, 1, 1⟩, ⟨0, 2, 0, 2, 0, 1⟩], 43), ([], 44)]

def edgeFacts : ℕ → List (Form × Kind)
  | 1 => [(base.B.sub base.A, .eq), (base.C.sub base.B, .eq)]
  | 2 => [(base.B.sub base.A, .eq), (base.C.sub base.B, .gt)]
  | 3 => [(base.B.sub base.A, .gt), (base.C.sub base.B, .eq)]
  | _ => [(base.B.sub base.A, .gt), (base.C.sub base.B, .gt)]

/-- the operations of the holohedry of a Bravais type in the conventional basis, as numbers. -/
def holoConv (b : BravaisType) : List ℕ :=
  match amapGet? bravaisToHolohedryNum b with
  | some num =>
    match pgCodes.find? fun q => q.1 = num with
    | some q => q.2.2
    | none => []
  | none => []

/-- the integer matrix of the conventional basis of a character. -/
def convMat (ch : ℕ) : Mat3 ℤ :=
  match amapGet? latticeCharToConvTrans ch with
  | some m => (intRot m).transpose
  | none => ⟨0, 0, 0, 0, 0, 0, 0, 0, 0⟩

def charBravais (ch : ℕ) : BravaisType := (amapGet? latticeCharToBravais ch).getD .aP

def colMat (u v w : Vec3 ℤ) : Mat3 ℤ := ⟨u.x, v.x, w.x, u.y, v.y, w.y, u.z, v.z, w.z⟩

/-- `U` is an operation of the holohedry of the character, in the conventional basis. -/
def isHolo (ch : ℕ) (U : Mat3 ℤ) : Bool :=
  (holoConv (charBravais ch)).any fun c => decide (U * convMat ch = convMat ch * decZ c)

/-- refuted (digit 1) or passed on (digit 0). -/
def refuteOrC (rules : List (Form × Form)) (clauses : List (List Form)) (facts : List (Form × Kind))
    (next : ℕ → Option ℕ) (s : ℕ) : Option ℕ :=
  match s % 64 with
  | 0 => next (s / 64)
  | _ => checkTreeC rules clauses 8 facts (s / 64)

def symm3 (rules : List (Form × Form)) (clauses : List (List Form)) (ch : ℕ) (facts : List (Form × Kind))
    (u v w : Vec3 ℤ) (s : ℕ) : Option ℕ :=
  match decide (det3 u v w = 1) with
  | true =>
    refuteOrC rules clauses (facts ++ [((qForm w).sub base.C, .eq), ((bForm v w).sub base.X, .eq),
      ((bForm u w).sub base.Y, .eq)]) (fun s => if isHolo ch (colMat u v w) then some s else none) s
  | false => some s

def symm2 (rules : List (Form × Form)) (clauses : List (List Form)) (ch : ℕ) (facts : List (Form × Kind))
    (u v : Vec3 ℤ) (s : ℕ) : Option ℕ :=
  match decide (v = u) || decide (v = ⟨-u.x, -u.y, -u.z⟩) with
  | true => some s
  | false =>
    let facts := facts ++ [((qForm v).sub base.B, .eq), ((bForm u v).sub base.Z, .eq)]
    refuteOrC rules clauses facts (threadAll (symm3 rules clauses ch facts u v) smallVecs) s

def symm1 (rules : List (Form × Form)) (clauses : List (List Form)) (ch : ℕ) (facts : List (Form × Kind))
    (u : Vec3 ℤ) (s : ℕ) : Option ℕ :=
  let facts := facts ++ [((qForm u).sub base.A, .eq)]
  refuteOrC rules clauses facts (threadAll (symm2 rules clauses ch facts u) smallVecs) s

/-- all symmetries of the cells of line `i` are operations of the holohedry. -/
def symmEntry (cs : ℕ) (t : Bool) (i : ℕ) (s : ℕ) : Option ℕ :=
  match (charEntries cs t)[i]? with
  | none => none
  | some (E, ch) =>
    threadAll (symm1 (sysRules t base) (((charEntries cs t).take i).map Prod.fst) ch
      (sysFacts t base ++ edgeFacts cs ++ E.map fun f => (f, .eq))) smallVecs s

section
variable {K : Type} [Field K] [LinearOrder K] [IsStrictOrderedRing K]

def ClauseHolds (g : Six K) (cl : List Form) : Prop := ∃ f ∈ cl, f.eval g ≠ 0

theorem checkTreeC_sound {rules : List (Form × Form)} {clauses : List (List Form)} {g : Six K}
    (hr : ∀ r ∈ rules, RuleHolds g r) (hc : ∀ c ∈ clauses, ClauseHolds g c) (fuel : ℕ) :
    ∀ {facts : List (Form × Kind)} {s s' : ℕ}, checkTreeC rules clauses fuel facts s = some s' →
      ¬ ∀ x ∈ facts, FactHolds g x := by
  induction fuel with
  | zero => intro facts s s' he; simp [checkTreeC] at he
  | succ n ih =>
    intro facts s s' he h
    rw [checkTreeC] at he
    split at he
    · split at he
      · rename_i heq
        split at he
        · rename_i hz
          subst hz
          have := (sumCert_sound h _ (f := Form.zero) (b := false)
            ⟨(Form.eval_zero g).ge, fun h => by cases h⟩ heq).2 rfl
          rw [Form.eval_zero] at this
          exact lt_irrefl _ this
        · cases he
      · cases he
    · split at he
      · split at he
        · cases he
        · rename_i p q heq
          obtain ⟨hp, hq⟩ := hr _ (List.mem_of_getElem? heq)
          split at he
          · cases he
          · rename_i s1 h1
            rcases hp.lt_or_eq with hp | hp
            · exact ih h1 (holds_append h (holds_single (f := (p, .gt)) hp))
            · refine ih he (holds_append h fun x hx => ?_)
              simp only [List.mem_cons, List.not_mem_nil, or_false] at hx
              rcases hx with rfl | rfl
              · exact hp.symm
              · exact hq hp.symm
      · split at he
        · cases he
        · rename_i cl heq
          obtain ⟨f, hf, hne⟩ := hc _ (List.mem_of_getElem? heq)
          have key := threadAll_sound he
          rcases lt_or_gt_of_ne hne with hlt | hgt
          · obtain ⟨a, b, hab⟩ := key f.neg (List.mem_flatMap.2 ⟨f, hf, by simp⟩)
            refine ih hab (holds_append h (holds_single (f := (f.neg, .gt)) ?_))
            simp only [FactHolds, Form.eval_neg]
            linarith
          · obtain ⟨a, b, hab⟩ := key f (List.mem_flatMap.2 ⟨f, hf, by simp⟩)
            exact ih hab (holds_append h (holds_single (f := (f, .gt)) hgt))

theorem refuteOrC_sound {rules : List (Form × Form)} {clauses : List (List Form)} {facts : List (Form × Kind)}
    {next : ℕ → Option ℕ} {s s' : ℕ} (h : refuteOrC rules clauses facts next s = some s') {g : Six K}
    (hr : ∀ r ∈ rules, RuleHolds g r) (hc : ∀ c ∈ clauses, ClauseHolds g c) (hf : ∀ x ∈ facts, FactHolds g x) :
    ∃ t t', next t = some t' := by
  unfold refuteOrC at h
  split at h
  · exact ⟨_, _, h⟩
  · exact absurd hf (checkTreeC_sound hr hc 8 h)

theorem base_eval (g : Six K) : base.A.eval g = g.A ∧ base.B.eval g = g.B ∧ base.C.eval g = g.C ∧
    base.X.eval g = g.X ∧ base.Y.eval g = g.Y ∧ base.Z.eval g = g.Z := by
  refine ⟨?_, ?_, ?_, ?_, ?_, ?_⟩ <;> simp [base, Form.eval]

theorem symmEntry_sound {cs : ℕ} {t : Bool} {i s s' : ℕ} (h : symmEntry cs t i s = some s') {E : List Form} {ch : ℕ}
    (he : (charEntries cs t)[i]? = some (E, ch)) {g : Six K} (hg : SysHolds t base g)
    (hcs : ∀ x ∈ edgeFacts cs, FactHolds g x) (hE : ∀ f ∈ E, f.eval g = 0)
    (hcl : ∀ p ∈ (charEntries cs t).take i, ClauseHolds g p.1) {u v w : Vec3 ℤ} (hu : u ∈ smallVecs)
    (hv : v ∈ smallVecs) (hw : w ∈ smallVecs) (hd : det3 u v w = 1)
    (ha : (qForm u).eval g = g.A) (hb : (qForm v).eval g = g.B) (hc : (qForm w).eval g = g.C)
    (hx : (bForm v w).eval g = g.X) (hy : (bForm u w).eval g = g.Y) (hz : (bForm u v).eval g = g.Z) :
    isHolo ch (colMat u v w) = true := by
  obtain ⟨bA, bB, bC, bX, bY, bZ⟩ := base_eval g
  unfold symmEntry at h
  rw [he] at h
  simp only at h
  have hcl' : ∀ c ∈ ((charEntries cs t).take i).map Prod.fst, ClauseHolds g c := by
    intro c hc
    obtain ⟨p, hp, rfl⟩ := List.mem_map.1 hc
    exact hcl p hp
  have f0 : ∀ x ∈ sysFacts t base ++ edgeFacts cs ++ E.map fun f => (f, Kind.eq), FactHolds g x := by
    refine holds_append (holds_append hg.1 hcs) fun x hx => ?_
    obtain ⟨f, hf, rfl⟩ := List.mem_map.1 hx
    exact hE f hf
  have f1 := holds_append f0 (holds_single (f := ((qForm u).sub base.A, .eq))
    (by simp only [FactHolds, Form.eval_sub, ha, bA, sub_self]))
  have f2 := holds_append f1 (m := [((qForm v).sub base.B, .eq), ((bForm u v).sub base.Z, .eq)]) (by
    intro x hx
    simp only [List.mem_cons, List.not_mem_nil, or_false] at hx
    rcases hx with rfl | rfl
    · simp only [FactHolds, Form.eval_sub, hb, bB, sub_self]
    · simp only [FactHolds, Form.eval_sub, hz, bZ, sub_self])
  have f3 := holds_append f2 (m := [((qForm w).sub base.C, .eq), ((bForm v w).sub base.X, .eq),
      ((bForm u w).sub base.Y, .eq)]) (by
    intro x hx'
    simp only [List.mem_cons, List.not_mem_nil, or_false] at hx'
    rcases hx' with rfl | rfl | rfl
    · simp only [FactHolds, Form.eval_sub, hc, bC, sub_self]
    · simp only [FactHolds, Form.eval_sub, hx, bX, sub_self]
    · simp only [FactHolds, Form.eval_sub, hy, bY, sub_self])
  obtain ⟨a0, b0, h0⟩ := threadAll_sound h u hu
  obtain ⟨a1, b1, h1⟩ := refuteOrC_sound h0 hg.2 hcl' f1
  obtain ⟨a2, b2, h2⟩ := threadAll_sound h1 v hv
  unfold symm2 at h2
  split at h2
  · rename_i he
    exfalso
    simp only [Bool.or_eq_true, decide_eq_true_eq] at he
    rcases he with rfl | rfl <;> simp only [det3] at hd <;> ring_nf at hd <;> omega
  obtain ⟨a3, b3, h3⟩ := refuteOrC_sound h2 hg.2 hcl' f2
  obtain ⟨a4, b4, h4⟩ := threadAll_sound h3 w hw
  unfold symm3 at h4
  simp only [hd, decide_true] at h4
  obtain ⟨a5, b5, h5⟩ := refuteOrC_sound h4 hg.2 hcl' f3
  split at h5
  · assumption
  · cases h5

end

end CrystSymm.NiggliCert
