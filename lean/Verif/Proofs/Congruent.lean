import Verif.Proofs.Settings
import Verif.Spec.Motion

/-! # The space-group tables under a change of basis, a reflection and a change of the origin -/

set_option autoImplicit false
set_option linter.unusedSectionVars false

namespace CrystSymm

open Spec PointGroup SymmetryAnalyzer

/-- the operation in the mirror image: inverted at the origin. -/
def invertZ (a : ZOp) : ZOp := (a.1, a.2.map fun x => -x % 12)

def negN (p : NOp) : NOp := { p with x := Nat.mod (Nat.sub 12 p.x) 12, y := Nat.mod (Nat.sub 12 p.y) 12, z := Nat.mod (Nat.sub 12 p.z) 12 }

/-- the operation or its mirror image. -/
def signZ (neg : Bool) (a : ZOp) : ZOp := match neg with | true => invertZ a | false => a

def signN (neg : Bool) (a : NOp) : NOp := match neg with | true => negN a | false => a

/-- the number or that of the mirror image. -/
def signNumber (neg : Bool) (n : ℕ) : ℕ := match neg with | true => mirrorNumber n | false => n

/-! ## The check in natural numbers -/

/-- the operation with the given key. -/
def decN (k : ℕ) : NOp :=
  let k1 := Nat.div k 48
  let k2 := Nat.div k1 48
  let k3 := Nat.div k2 48
  let k4 := Nat.div k3 48
  let k5 := Nat.div k4 48
  let k6 := Nat.div k5 48
  let k7 := Nat.div k6 48
  let k8 := Nat.div k7 48
  let k9 := Nat.div k8 48
  let k10 := Nat.div k9 48
  let k11 := Nat.div k10 48
  ⟨k11, Nat.mod k10 48, Nat.mod k9 48, Nat.mod k8 48, Nat.mod k7 48, Nat.mod k6 48, Nat.mod k5 48, Nat.mod k4 48, Nat.mod k3 48,
    Nat.mod k2 48, Nat.mod k1 48, Nat.mod k 48⟩

/-- linear forms with the coefficients `0`, `1` and `-1`, up to the sign. -/
def forms : List (Vec3 ℤ) :=
  [⟨1, 0, 0⟩, ⟨0, 1, 0⟩, ⟨0, 0, 1⟩, ⟨1, 1, 0⟩, ⟨1, -1, 0⟩, ⟨1, 0, 1⟩, ⟨1, 0, -1⟩, ⟨0, 1, 1⟩, ⟨0, 1, -1⟩, ⟨1, 1, 1⟩, ⟨1, 1, -1⟩,
    ⟨1, -1, 1⟩, ⟨-1, 1, 1⟩]

/-- the same modulo `48`. -/
def formsN : List (ℕ × ℕ × ℕ) :=
  [(1, 0, 0), (0, 1, 0), (0, 0, 1), (1, 1, 0), (1, 47, 0), (1, 0, 1), (1, 0, 47), (0, 1, 1), (0, 1, 47), (1, 1, 1), (1, 1, 47),
    (1, 47, 1), (47, 1, 1)]

/-- the rotation does not change the form. -/
def fixN (l : ℕ × ℕ × ℕ) (o : NOp) : Bool :=
  Bool.rec false (Bool.rec false (Nat.beq (dotN 48 l.1 l.2.1 l.2.2 o.c o.f o.i) l.2.2)
    (Nat.beq (dotN 48 l.1 l.2.1 l.2.2 o.b o.e o.h) l.2.1)) (Nat.beq (dotN 48 l.1 l.2.1 l.2.2 o.a o.d o.g) l.1)

/-- a form that the rotation does not change has the same value at the two translations. -/
def agreeN (k k' : ℕ) : Bool :=
  allR (fun l => Bool.rec true (Nat.beq (dotN 12 l.1 l.2.1 l.2.2 (decN k).x (decN k).y (decN k).z)
    (dotN 12 l.1 l.2.1 l.2.2 (decN k').x (decN k').y (decN k').z)) (fixN l (decN k'))) formsN

/-- the keys have an operation of the same rotation, and the translations agree. -/
def consistentN (k : ℕ) (ks : List ℕ) : Bool :=
  List.rec false (fun k' _ r => Bool.rec r (Bool.rec r true (agreeN k k')) (Nat.beq (Nat.div k 110592) (Nat.div k' 110592))) ks

def force1 (x : ℕ) (k : ℕ → Bool) : Bool := Nat.rec (k 0) (fun m _ => k (Nat.succ m)) x

/-- the two groups that the forms do not tell apart. -/
def hardPair (x y : ℕ) : Bool :=
  Bool.or (Bool.and (Nat.beq x 23) (Nat.beq y 24)) (Bool.and (Nat.beq x 24) (Nat.beq y 23))

/-- a table in the basis changed by `v` and with another origin is not the table of another group of the list. -/
def shiftFrom (neg : Bool) (vs : List (Mat3 ℤ)) : List (ℕ × List ℕ) → Bool := fun l =>
  allR (fun y => forceN ((groupN y).map keyN) fun ks => allR (fun v => allR (fun x =>
    Bool.rec (Bool.rec (Bool.not (allR (fun a => force1 (keyN (conjN (matN v) (matN v.adj) (signN neg a))) fun k => consistentN k ks)
      (groupN x))) true (hardPair x.1 y.1)) true (Nat.beq (signNumber neg x.1) y.1)) l) vs) l

def shiftCheck (neg : Bool) (b : BravaisType) : Bool :=
  match b.latticeSystem?.bind fun sys => amapGet? sgNumToFullMatrices sys with
  | some groups => allR (fun q => shiftFrom neg (properHolo b) ((fitting b q.2).filter fun e => !memN e.1 crateBad)) groups
  | none => true

set_option maxRecDepth 100000 in
theorem shift_checked : ∀ neg b, shiftCheck neg b = true := by
  intro neg b
  cases neg <;> cases b <;> decide +kernel

/-- two operations, in the changed basis, that the second table has at other places relative to each other: the second row of one
minus the unit matrix and the first row of the other are equal. -/
def apartZ (G G' : List ZOp) : Bool :=
  G.any fun c1 => G.any fun c2 =>
    decide (-c1.1.m21 = 1 - c2.1.m11) && decide (1 - c1.1.m22 = -c2.1.m12) && decide (-c1.1.m23 = -c2.1.m13) &&
    G'.all fun a1 => !decide (a1.1 = c1.1) || G'.all fun a2 => !decide (a2.1 = c2.1) ||
      !decide (((c1.2.y - a1.2.y) - (c2.2.x - a2.2.x)) % 12 = 0)

def hardFrom (neg : Bool) (vs : List (Mat3 ℤ)) (l : List (ℕ × List ℕ)) : Bool :=
  l.all fun y => l.all fun x => !hardPair x.1 y.1 || vs.all fun v => apartZ ((groupZ x).map fun a => conjZ v (signZ neg a)) (groupZ y)

def hardCheck (neg : Bool) (b : BravaisType) : Bool :=
  match b.latticeSystem?.bind fun sys => amapGet? sgNumToFullMatrices sys with
  | some groups => groups.all fun q => hardFrom neg (properHolo b) ((fitting b q.2).filter fun e => !memN e.1 crateBad)
  | none => true

set_option maxRecDepth 100000 in
theorem hard_checked : ∀ neg b, hardCheck neg b = true := by
  intro neg b
  cases neg <;> cases b <;> decide +kernel

/-! ## What the checks mean -/

theorem negN_toN (a : ZOp) : negN (toN a) = toN (invertZ a) := by
  have key : ∀ x : ℤ, Nat.mod (Nat.sub 12 (remN 12 x)) 12 = remN 12 (-x % 12) := by
    intro x
    show (12 - (x % (12 : ℕ)).toNat) % 12 = (-x % 12 % (12 : ℕ)).toNat
    omega
  simp only [negN, toN, invertZ, Vec3.map, key]

theorem signN_toN (neg : Bool) (a : ZOp) : signN neg (toN a) = toN (signZ neg a) := by
  cases neg
  · rfl
  · exact negN_toN a

theorem decN_keyN {p : NOp} (hb : p.b < 48) (hc : p.c < 48) (hd : p.d < 48) (he : p.e < 48) (hf : p.f < 48) (hg : p.g < 48)
    (hh : p.h < 48) (hi : p.i < 48) (hx : p.x < 48) (hy : p.y < 48) (hz : p.z < 48) : decN (keyN p) = p := by
  have d : ∀ a x : ℕ, x < 48 → Nat.div (Nat.add (Nat.mul a 48) x) 48 = a := by
    intro a x hx
    show (a * 48 + x) / 48 = a
    omega
  have m : ∀ a x : ℕ, x < 48 → Nat.mod (Nat.add (Nat.mul a 48) x) 48 = x := by
    intro a x hx
    show (a * 48 + x) % 48 = x
    omega
  unfold decN keyN
  simp only [d _ _ hb, d _ _ hc, d _ _ hd, d _ _ he, d _ _ hf, d _ _ hg, d _ _ hh, d _ _ hi, d _ _ hx, d _ _ hy, d _ _ hz,
    m _ _ hb, m _ _ hc, m _ _ hd, m _ _ he, m _ _ hf, m _ _ hg, m _ _ hh, m _ _ hi, m _ _ hx, m _ _ hy, m _ _ hz]

theorem decN_toN (a : ZOp) : decN (keyN (toN a)) = toN a := by
  have l48 : ∀ x : ℤ, remN 48 x < 48 := fun x => remN_lt (by norm_num) x
  have l12 : ∀ x : ℤ, remN 12 x < 48 := fun x => lt_trans (remN_lt (by norm_num) x) (by norm_num)
  exact decN_keyN (l48 _) (l48 _) (l48 _) (l48 _) (l48 _) (l48 _) (l48 _) (l48 _) (l12 _) (l12 _) (l12 _)

theorem force1_eq (x : ℕ) (k : ℕ → Bool) : force1 x k = k x := by
  cases x <;> rfl

/-- the value of a linear form. -/
def formZ (l v : Vec3 ℤ) : ℤ := l.x * v.x + l.y * v.y + l.z * v.z

theorem formsN_eq : formsN = forms.map fun l => (remN 48 l.x, remN 48 l.y, remN 48 l.z) := by decide

theorem forms_bound : ∀ l ∈ forms, |l.x| ≤ 1 ∧ |l.y| ≤ 1 ∧ |l.z| ≤ 1 := by decide

theorem fixN_iff {l : Vec3 ℤ} (hl : |l.x| ≤ 1 ∧ |l.y| ≤ 1 ∧ |l.z| ≤ 1) {a : ZOp} (ha : Entries 1 a.1)
    (h : fixN (remN 48 l.x, remN 48 l.y, remN 48 l.z) (toN a) = true) :
    formZ l a.1.col0 = l.x ∧ formZ l a.1.col1 = l.y ∧ formZ l a.1.col2 = l.z := by
  have h0 : (0 : ℕ) < 48 := by norm_num
  unfold fixN at h
  simp only [toN, dotN_rem h0 h0 h0 (dvd_refl _) (dvd_refl _)] at h
  obtain ⟨⟨a1, a2, a3⟩, ⟨a4, a5, a6⟩, a7, a8, a9⟩ := ha
  obtain ⟨l1, l2, l3⟩ := hl
  have key : ∀ {u v w y : ℤ}, |u| ≤ 1 → |v| ≤ 1 → |w| ≤ 1 → |y| ≤ 1 →
      Nat.beq (remN 48 (l.x * u + l.y * v + l.z * w)) (remN 48 y) = true → l.x * u + l.y * v + l.z * w = y := by
    intro u v w y hu hv hw hy h
    refine eq_of_mod (modEq_of_remN (m := 48) (by norm_num) (Nat.eq_of_beq_eq_true h)) ?_ hy
    have := dot_bound l1 l2 l3 hu hv hw
    linarith
  cases e1 : Nat.beq (remN 48 (l.x * a.1.m11 + l.y * a.1.m21 + l.z * a.1.m31)) (remN 48 l.x) with
  | false => rw [e1] at h; cases h
  | true =>
    rw [e1] at h
    cases e2 : Nat.beq (remN 48 (l.x * a.1.m12 + l.y * a.1.m22 + l.z * a.1.m32)) (remN 48 l.y) with
    | false => simp only [e2] at h; cases h
    | true =>
      simp only [e2] at h
      exact ⟨key a1 a4 a7 l1 e1, key a2 a5 a8 l2 e2, key a3 a6 a9 l3 h⟩

theorem consistentN_of {k k' : ℕ} {ks : List ℕ} (hk : k' ∈ ks) (h : Nat.div k 110592 = Nat.div k' 110592) (ha : agreeN k k' = true) :
    consistentN k ks = true := by
  induction ks with
  | nil => cases hk
  | cons x ks ih =>
    have e : consistentN k (x :: ks) = Bool.rec (consistentN k ks) (Bool.rec (consistentN k ks) true (agreeN k x))
      (Nat.beq (Nat.div k 110592) (Nat.div x 110592)) := rfl
    rw [e]
    rcases List.mem_cons.1 hk with rfl | hk
    · rw [h, ha, Nat.beq_refl]
    · rw [ih hk]
      cases Nat.beq (Nat.div k 110592) (Nat.div x 110592) <;> cases agreeN k x <;> rfl

/-- the key without the translation. -/
theorem keyN_div {a a' : ZOp} (h : a.1 = a'.1) : Nat.div (keyN (toN a)) 110592 = Nat.div (keyN (toN a')) 110592 := by
  have l12 : ∀ x : ℤ, remN 12 x < 12 := fun x => remN_lt (by norm_num) x
  have key : ∀ A x y z : ℕ, x < 12 → y < 12 → z < 12 →
      Nat.div (Nat.add (Nat.mul (Nat.add (Nat.mul (Nat.add (Nat.mul A 48) x) 48) y) 48) z) 110592 = A := by
    intro A x y z hx hy hz
    show (((A * 48 + x) * 48 + y) * 48 + z) / 110592 = A
    omega
  unfold keyN toN
  simp only [key _ _ _ _ (l12 _) (l12 _) (l12 _)]
  rw [h]

/-- the operations of the first list in the basis changed by `v` and with the origin shifted by `t` are in the second list. -/
def ShiftRelated (v : Mat3 ℤ) (t : Vec3 ℝ) (G G' : List ZOp) : Prop :=
  ∀ a ∈ G, ∃ a' ∈ G', a'.1 = (conjZ v a).1 ∧
    IntVec ((opK ℝ (conjZ v a)).translation + (t - overK ℝ a'.1 * t) - (opK ℝ a').translation)

/-- an unchanged form does not see the shift of the origin. -/
theorem form_shift {l : Vec3 ℤ} {a c : ZOp} {t : Vec3 ℝ}
    (hl : formZ l a.1.col0 = l.x ∧ formZ l a.1.col1 = l.y ∧ formZ l a.1.col2 = l.z)
    (h : IntVec ((opK ℝ c).translation + (t - overK ℝ a.1 * t) - (opK ℝ a).translation)) :
    formZ l c.2 ≡ formZ l a.2 [ZMOD 12] := by
  obtain ⟨i, j, k, h⟩ := h
  obtain ⟨h1, h2, h3⟩ := hl
  have hx := congrArg Vec3.x h
  have hy := congrArg Vec3.y h
  have hz := congrArg Vec3.z h
  simp only [opK, overK, Mat3.map, Vec3.sub_x, Vec3.sub_y, Vec3.sub_z, Vec3.add_x, Vec3.add_y, Vec3.add_z, Mat3.mulVec_x, Mat3.mulVec_y,
    Mat3.mulVec_z] at hx hy hz
  simp only [formZ, Mat3.col0, Mat3.col1, Mat3.col2] at h1 h2 h3
  have g1 : (l.x : ℝ) * a.1.m11 + l.y * a.1.m21 + l.z * a.1.m31 = l.x := by exact_mod_cast h1
  have g2 : (l.x : ℝ) * a.1.m12 + l.y * a.1.m22 + l.z * a.1.m32 = l.y := by exact_mod_cast h2
  have g3 : (l.x : ℝ) * a.1.m13 + l.y * a.1.m23 + l.z * a.1.m33 = l.z := by exact_mod_cast h3
  have e : formZ l c.2 = formZ l a.2 + 12 * (l.x * i + l.y * j + l.z * k) := by
    have : ((formZ l c.2 : ℤ) : ℝ) = ((formZ l a.2 + 12 * (l.x * i + l.y * j + l.z * k) : ℤ) : ℝ) := by
      unfold formZ
      push_cast
      linear_combination 12 * (l.x : ℝ) * hx + 12 * (l.y : ℝ) * hy + 12 * (l.z : ℝ) * hz + 12 * t.x * g1 + 12 * t.y * g2 + 12 * t.z * g3
    exact_mod_cast this
  rw [e]
  exact Int.ModEq.symm (Int.modEq_iff_dvd.2 ⟨l.x * i + l.y * j + l.z * k, by ring⟩)

theorem agree_of_shift {a c : ZOp} {t : Vec3 ℝ} (ha : Entries 1 a.1)
    (h : IntVec ((opK ℝ c).translation + (t - overK ℝ a.1 * t) - (opK ℝ a).translation)) :
    agreeN (keyN (toN c)) (keyN (toN a)) = true := by
  unfold agreeN
  rw [allR_iff, formsN_eq, decN_toN, decN_toN]
  intro x hx
  obtain ⟨l, hl, rfl⟩ := List.mem_map.1 hx
  cases hf : fixN (remN 48 l.x, remN 48 l.y, remN 48 l.z) (toN a) with
  | false => rfl
  | true =>
    have h1 := form_shift (fixN_iff (forms_bound l hl) ha hf) h
    have h12 : (0 : ℕ) < 12 := by norm_num
    have h48 : (0 : ℕ) < 48 := by norm_num
    have hd : ((12 : ℕ) : ℤ) ∣ ((48 : ℕ) : ℤ) := by norm_num
    have e : ∀ o : ZOp, dotN 12 (remN 48 l.x) (remN 48 l.y) (remN 48 l.z) (toN o).x (toN o).y (toN o).z = remN 12 (formZ l o.2) :=
      fun o => dotN_rem h12 h48 h12 hd (dvd_refl _) _ _ _ _ _ _
    simp only [e]
    rw [remN_congr (m := 12) h1]
    exact Nat.beq_refl _

theorem apart_of_shift {G G' : List ZOp} {t : Vec3 ℝ}
    (h : ∀ c ∈ G, ∃ a ∈ G', a.1 = c.1 ∧ IntVec ((opK ℝ c).translation + (t - overK ℝ a.1 * t) - (opK ℝ a).translation)) :
    apartZ G G' = false := by
  by_contra hne
  have ht : apartZ G G' = true := by simpa using hne
  unfold apartZ at ht
  simp only [List.any_eq_true, Bool.and_eq_true, List.all_eq_true, Bool.or_eq_true, Bool.not_eq_true', decide_eq_true_eq,
    decide_eq_false_iff_not] at ht
  obtain ⟨c1, hc1, c2, hc2, ⟨⟨r1, r2⟩, r3⟩, hall⟩ := ht
  obtain ⟨a1, ha1, e1, i, j, k, h1⟩ := h c1 hc1
  obtain ⟨a2, ha2, e2, i', j', k', h2⟩ := h c2 hc2
  rcases hall a1 ha1 with hn | hall
  · exact hn e1
  rcases hall a2 ha2 with hn | hn
  · exact hn e2
  have hy := congrArg Vec3.y h1
  have hx := congrArg Vec3.x h2
  rw [e1] at hy
  rw [e2] at hx
  simp only [opK, overK, Mat3.map, Vec3.sub_x, Vec3.sub_y, Vec3.add_x, Vec3.add_y, Mat3.mulVec_x, Mat3.mulVec_y] at hx hy
  have g1 : -(c1.1.m21 : ℝ) = 1 - c2.1.m11 := by exact_mod_cast r1
  have g2 : 1 - (c1.1.m22 : ℝ) = -c2.1.m12 := by exact_mod_cast r2
  have g3 : -(c1.1.m23 : ℝ) = -c2.1.m13 := by exact_mod_cast r3
  have e : (c1.2.y - a1.2.y) - (c2.2.x - a2.2.x) = 12 * (j - i') := by
    have : (((c1.2.y - a1.2.y) - (c2.2.x - a2.2.x) : ℤ) : ℝ) = ((12 * (j - i') : ℤ) : ℝ) := by
      push_cast
      linear_combination 12 * hy - 12 * hx - 12 * t.x * g1 - 12 * t.y * g2 - 12 * t.z * g3
    exact_mod_cast this
  apply hn
  rw [e]
  omega

/-- no two entries of the same order are related by a rotation of the lattice and a shift of the origin, unless they have the same
number; and if one of them is inverted, they have the numbers of mirror images. -/
theorem tables_congruent (neg : Bool) {b : BravaisType} {sys : LatticeSystem} (hsys : b.latticeSystem? = some sys) {n num num' : ℕ}
    {codes codes' : List ℕ} (hent : IsTableEntry sys n num codes) (hent' : IsTableEntry sys n num' codes')
    (hrot : ∀ o ∈ groupZ (num, codes), ∃ c ∈ holoCodes b, o.1 = decZ c)
    (hrot' : ∀ o ∈ groupZ (num', codes'), ∃ c ∈ holoCodes b, o.1 = decZ c) (hgood : num ∉ crateBad) (hgood' : num' ∉ crateBad) {c : ℕ}
    (hc : c ∈ holoCodes b) (hd : (decZ c).det = 1) {t : Vec3 ℝ}
    (h : ShiftRelated (decZ c) t ((groupZ (num, codes)).map (signZ neg)) (groupZ (num', codes'))) : num' = signNumber neg num := by
  obtain ⟨groups, cands, h1, h2, h3⟩ := hent
  obtain ⟨groups', cands', h1', h2', h3'⟩ := hent'
  have hk1 : (sgNumToFullMatrices.map Prod.fst).Nodup := by decide
  have hk2 : ∀ p ∈ sgNumToFullMatrices, (p.2.map Prod.fst).Nodup := by decide
  have hg := amapGet?_of_mem hk1 h1
  have hg' := amapGet?_of_mem hk1 h1'
  rw [hg] at hg'
  cases hg'
  have hq := amapGet?_of_mem (hk2 _ h1) h2
  have hq' := amapGet?_of_mem (hk2 _ h1) h2'
  rw [hq] at hq'
  cases hq'
  have good : ∀ {m : ℕ}, m ∉ crateBad → (!memN m crateBad) = true := by
    intro m hm
    cases e : memN m crateBad with
    | false => rfl
    | true => exact absurd ((memN_iff _ _).1 e) hm
  have hx : (num, codes) ∈ (fitting b cands).filter fun e => !memN e.1 crateBad :=
    List.mem_filter.2 ⟨mem_fitting h3 hrot, good hgood⟩
  have hy : (num', codes') ∈ (fitting b cands).filter fun e => !memN e.1 crateBad :=
    List.mem_filter.2 ⟨mem_fitting h3' hrot', good hgood'⟩
  have hv := mem_properHolo hc hd
  by_contra hne
  have hb : Nat.beq (signNumber neg num) num' = false := by
    cases hb : Nat.beq (signNumber neg num) num' with
    | false => rfl
    | true => exact absurd (Nat.eq_of_beq_eq_true hb).symm hne
  cases hp : hardPair num num' with
  | true =>
    have key := hard_checked neg b
    unfold hardCheck at key
    rw [hsys, Option.bind_some, hg] at key
    simp only [hardFrom, List.all_eq_true, Bool.or_eq_true, Bool.not_eq_true'] at key
    rcases key _ h2 _ hy _ hx with e | e
    · rw [hp] at e
      cases e
    · have e1 := e _ hv
      rw [apart_of_shift (t := t)] at e1
      · cases e1
      · intro c' hc'
        obtain ⟨a, ha, rfl⟩ := List.mem_map.1 hc'
        exact h _ (List.mem_map.2 ⟨a, ha, rfl⟩)
  | false =>
    have key := shift_checked neg b
    unfold shiftCheck at key
    rw [hsys, Option.bind_some, hg] at key
    simp only [shiftFrom, allR_iff, forceN_eq] at key
    have := key _ h2 _ hy _ hv _ hx
    simp only [hb, hp] at this
    have hall : allR (fun a => force1 (keyN (conjN (matN (decZ c)) (matN (decZ c).adj) (signN neg a))) fun k =>
        consistentN k ((groupN (num', codes')).map keyN)) (groupN (num, codes)) = true := by
      rw [allR_iff, groupN_eq, groupN_eq]
      intro x hx
      obtain ⟨a, ha, rfl⟩ := List.mem_map.1 hx
      rw [force1_eq, signN_toN, conjN_toN, List.map_map]
      obtain ⟨a', ha', e1, e2⟩ := h _ (List.mem_map.2 ⟨a, ha, rfl⟩)
      exact consistentN_of (List.mem_map.2 ⟨a', ha', rfl⟩) (keyN_div e1.symm) (agree_of_shift (groupZ_entries ha') e2)
    rw [hall] at this
    cases this

end CrystSymm
