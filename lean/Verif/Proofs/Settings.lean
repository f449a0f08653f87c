import Verif.Props.Centred
import Verif.Proofs.CrateProduct
import Mathlib.Data.Int.ModEq

/-! # The space-group tables in other settings: a rotation of the lattice onto itself as a change of basis -/

set_option autoImplicit false
set_option linter.unusedSectionVars false

namespace CrystSymm

open Spec PointGroup SymmetryAnalyzer

/-- the operation in the basis changed by `v`, of determinant `1`. -/
def conjZ (v : Mat3 ℤ) (a : ZOp) : ZOp := (v.adj * a.1 * v, (v.adj * a.2 : Vec3 ℤ).map fun x => x % 12)

/-- the space groups for which the product of the crate is right, and whose table depends on the choice of the basis among those
related by rotations of the lattice. -/
def settingBad : List ℕ := [80, 88, 98, 109, 110, 122, 141, 142, 203, 210, 227, 228]

/-! ## Natural numbers, for speed: rotations modulo `48`, translations modulo `12` -/

/-- an operation in natural numbers. -/
structure NOp where
  a : ℕ
  b : ℕ
  c : ℕ
  d : ℕ
  e : ℕ
  f : ℕ
  g : ℕ
  h : ℕ
  i : ℕ
  x : ℕ
  y : ℕ
  z : ℕ

def remN (m : ℕ) (x : ℤ) : ℕ := (x % m).toNat

def toN (o : ZOp) : NOp :=
  ⟨remN 48 o.1.m11, remN 48 o.1.m12, remN 48 o.1.m13, remN 48 o.1.m21, remN 48 o.1.m22, remN 48 o.1.m23, remN 48 o.1.m31,
    remN 48 o.1.m32, remN 48 o.1.m33, remN 12 o.2.x, remN 12 o.2.y, remN 12 o.2.z⟩

def digN (c w : ℕ) : ℕ := Nat.mod (Nat.add (Nat.mod (Nat.div c w) 3) 47) 48

def twN (d : ℕ) : ℕ := match d with | 0 => 0 | 1 => 2 | 2 => 3 | 3 => 4 | 4 => 6 | 5 => 8 | 6 => 9 | _ => 10

def opN (acent : Bool) (c : ℕ) : NOp :=
  let r := Nat.mod c 19683
  let d := Nat.div c 19683
  let x := twN (Nat.mod (Nat.div d 64) 8)
  let y := twN (Nat.mod (Nat.div d 8) 8)
  let z := twN (Nat.mod d 8)
  match acent with
  | true => ⟨digN r 81, digN r 27, digN r 243, digN r 3, digN r 1, digN r 9, digN r 2187, digN r 729, digN r 6561, y, z, x⟩
  | false => ⟨digN r 6561, digN r 2187, digN r 729, digN r 243, digN r 81, digN r 27, digN r 9, digN r 3, digN r 1, x, y, z⟩

def dotN (m a b c x y z : ℕ) : ℕ := Nat.mod (Nat.add (Nat.add (Nat.mul a x) (Nat.mul b y)) (Nat.mul c z)) m

def mulN (p q : NOp) : NOp :=
  ⟨dotN 48 p.a p.b p.c q.a q.d q.g, dotN 48 p.a p.b p.c q.b q.e q.h, dotN 48 p.a p.b p.c q.c q.f q.i,
    dotN 48 p.d p.e p.f q.a q.d q.g, dotN 48 p.d p.e p.f q.b q.e q.h, dotN 48 p.d p.e p.f q.c q.f q.i,
    dotN 48 p.g p.h p.i q.a q.d q.g, dotN 48 p.g p.h p.i q.b q.e q.h, dotN 48 p.g p.h p.i q.c q.f q.i,
    dotN 12 p.a p.b p.c q.x q.y q.z, dotN 12 p.d p.e p.f q.x q.y q.z, dotN 12 p.g p.h p.i q.x q.y q.z⟩

/-- `v` and its inverse `w`. -/
def conjN (v w p : NOp) : NOp :=
  let q := mulN w p
  let r := mulN q v
  ⟨r.a, r.b, r.c, r.d, r.e, r.f, r.g, r.h, r.i, q.x, q.y, q.z⟩

def keyN (p : NOp) : ℕ :=
  let s := fun (a x : ℕ) => Nat.add (Nat.mul a 48) x
  s (s (s (s (s (s (s (s (s (s (s p.a p.b) p.c) p.d) p.e) p.f) p.g) p.h) p.i) p.x) p.y) p.z

def memN (k : ℕ) (l : List ℕ) : Bool := List.rec false (fun x _ r => Bool.rec r true (Nat.beq k x)) l

def allR {α : Type} (p : α → Bool) (l : List α) : Bool := List.rec true (fun x _ r => Bool.rec false r (p x)) l

/-- the list with its elements evaluated, for the kernel. -/
def forceN (l : List ℕ) (k : List ℕ → Bool) : Bool :=
  List.rec (motive := fun _ => (List ℕ → Bool) → Bool) (fun k => k [])
    (fun x _ r k => r fun t => Nat.rec (k (0 :: t)) (fun m _ => k (Nat.succ m :: t)) x) l k

/-- the operations of an entry. -/
def groupN (e : ℕ × List ℕ) : List NOp := e.2.map (opN (aCent e.1))

/-- the entries with rotations of the lattice. -/
def fitting (b : BravaisType) (l : List (ℕ × List ℕ)) : List (ℕ × List ℕ) :=
  let hol := (holoCodes b).map fun c => let o := opN false (Nat.mod c 19683); keyN { o with x := 0, y := 0, z := 0 }
  l.filter fun e => allR (fun o => memN (keyN { o with x := 0, y := 0, z := 0 }) hol) (groupN e)

/-- the rotations of the lattice. -/
def properHolo (b : BravaisType) : List (Mat3 ℤ) := ((holoCodes b).map decZ).filter fun v => decide (v.det = 1)

def matN (v : Mat3 ℤ) : NOp := toN (v, 0)

/-- a table in the basis changed by `v` is not the table of another group of the list. -/
def differFrom (vs : List (Mat3 ℤ)) : List (ℕ × List ℕ) → Bool := fun l =>
  allR (fun y => forceN ((groupN y).map keyN) fun ks => allR (fun v => allR (fun x =>
    Bool.rec (Bool.not (allR (fun a => memN (keyN (conjN (matN v) (matN v.adj) a)) ks) (groupN x))) true (Nat.beq x.1 y.1)) l) vs) l

def differCheck (b : BravaisType) : Bool :=
  match b.latticeSystem?.bind fun sys => amapGet? sgNumToFullMatrices sys with
  | some groups => allR (fun q => differFrom (properHolo b) (fitting b q.2)) groups
  | none => true

/-- the tables of the good groups do not depend on the setting, the others do. -/
def invariantFrom (vs : List (Mat3 ℤ)) (e : ℕ × List ℕ) : Bool :=
  forceN ((groupN e).map keyN) fun ks =>
    if memN e.1 settingBad then vs.any fun v => (groupN e).any fun a => !memN (keyN (conjN (matN v) (matN v.adj) a)) ks
    else memN e.1 crateBad || allR (fun v => allR (fun a =>
      memN (keyN (conjN (matN v) (matN v.adj) a)) ks) (groupN e)) vs

def invariantCheck (b : BravaisType) : Bool :=
  match b.latticeSystem?.bind fun sys => amapGet? sgNumToFullMatrices sys with
  | some groups => allR (fun q => allR (invariantFrom (properHolo b)) (fitting b q.2)) groups
  | none => true

/-! ## What the checks mean -/

theorem memN_iff (k : ℕ) (l : List ℕ) : memN k l = true ↔ k ∈ l := by
  induction l with
  | nil => simp [memN]
  | cons x l ih =>
    have e : memN k (x :: l) = Bool.rec (memN k l) true (Nat.beq k x) := rfl
    rw [e]
    cases h : Nat.beq k x with
    | true => simp [Nat.eq_of_beq_eq_true h]
    | false =>
      have : k ≠ x := Nat.ne_of_beq_eq_false h
      simp [this, ih]

theorem allR_iff {α : Type} (p : α → Bool) (l : List α) : allR p l = true ↔ ∀ x ∈ l, p x = true := by
  induction l with
  | nil => simp [allR]
  | cons x l ih =>
    have e : allR p (x :: l) = Bool.rec false (allR p l) (p x) := rfl
    rw [e]
    cases h : p x <;> simp [h, ih]

theorem forceN_eq (l : List ℕ) (k : List ℕ → Bool) : forceN l k = k l := by
  induction l generalizing k with
  | nil => rfl
  | cons x l ih =>
    have e : forceN (x :: l) k = forceN l fun t => Nat.rec (k (0 :: t)) (fun m _ => k (Nat.succ m :: t)) x := rfl
    rw [e, ih]
    cases x <;> rfl

theorem remN_cast {m : ℕ} (hm : 0 < m) (x : ℤ) : (remN m x : ℤ) = x % m :=
  Int.toNat_of_nonneg (Int.emod_nonneg _ (by omega))

theorem remN_congr {m : ℕ} {x y : ℤ} (h : x ≡ y [ZMOD m]) : remN m x = remN m y := by
  unfold remN
  rw [show x % m = y % m from h]

theorem modEq_of_remN {m : ℕ} (hm : 0 < m) {x y : ℤ} (h : remN m x = remN m y) : x ≡ y [ZMOD m] := by
  have := congrArg (Nat.cast : ℕ → ℤ) h
  rwa [remN_cast hm, remN_cast hm] at this

theorem remN_lt {m : ℕ} (hm : 0 < m) (x : ℤ) : remN m x < m := by
  have h1 := remN_cast hm x
  have h2 := Int.emod_lt_of_pos x (show (0 : ℤ) < m by omega)
  omega

theorem remN_modEq {m M : ℕ} (hM : 0 < M) (hd : (m : ℤ) ∣ M) (x : ℤ) : (remN M x : ℤ) ≡ x [ZMOD m] := by
  rw [remN_cast hM]
  exact Int.emod_emod_of_dvd x hd

theorem dotN_rem {m M M' : ℕ} (hm : 0 < m) (hM : 0 < M) (hM' : 0 < M') (hd : (m : ℤ) ∣ M) (hd' : (m : ℤ) ∣ M') (a b c x y z : ℤ) :
    dotN m (remN M a) (remN M b) (remN M c) (remN M' x) (remN M' y) (remN M' z) = remN m (a * x + b * y + c * z) := by
  have e : dotN m (remN M a) (remN M b) (remN M c) (remN M' x) (remN M' y) (remN M' z) =
      (remN M a * remN M' x + remN M b * remN M' y + remN M c * remN M' z) % m := rfl
  rw [e]
  have h : ((remN M a : ℤ) * remN M' x + remN M b * remN M' y + remN M c * remN M' z) ≡ a * x + b * y + c * z [ZMOD m] :=
    Int.ModEq.add (Int.ModEq.add ((remN_modEq hM hd a).mul (remN_modEq hM' hd' x)) ((remN_modEq hM hd b).mul (remN_modEq hM' hd' y)))
      ((remN_modEq hM hd c).mul (remN_modEq hM' hd' z))
  have h1 := congrArg Int.toNat (show _ % (m : ℤ) = _ % (m : ℤ) from h)
  unfold remN at h1 ⊢
  rw [← h1]
  norm_cast

theorem mulN_toN (m : Mat3 ℤ) (t : Vec3 ℤ) (a : ZOp) : mulN (toN (m, t)) (toN a) = toN (m * a.1, m * a.2) := by
  have h : (0 : ℕ) < 48 := by norm_num
  have h' : (0 : ℕ) < 12 := by norm_num
  have d : ((12 : ℕ) : ℤ) ∣ ((48 : ℕ) : ℤ) := by norm_num
  simp only [mulN, toN, dotN_rem h h h (dvd_refl _) (dvd_refl _), dotN_rem h' h h' d (dvd_refl _), Mat3.mulVec_x, Mat3.mulVec_y,
    Mat3.mulVec_z, Mat3.mul_m11, Mat3.mul_m12, Mat3.mul_m13, Mat3.mul_m21, Mat3.mul_m22, Mat3.mul_m23, Mat3.mul_m31, Mat3.mul_m32,
    Mat3.mul_m33]

theorem conjN_toN (v : Mat3 ℤ) (a : ZOp) : conjN (matN v) (matN v.adj) (toN a) = toN (conjZ v a) := by
  have e1 : mulN (matN v.adj) (toN a) = toN (v.adj * a.1, v.adj * a.2) := mulN_toN _ _ _
  have e2 : mulN (toN (v.adj * a.1, v.adj * a.2)) (matN v) = toN (v.adj * a.1 * v, v.adj * a.1 * (0 : Vec3 ℤ)) := mulN_toN _ _ (v, 0)
  have key : ∀ x : ℤ, remN 12 (x % 12) = remN 12 x := fun x => remN_congr (Int.mod_modEq _ _)
  unfold conjN
  simp only [e1, e2]
  simp only [toN, conjZ, Vec3.map, key]

theorem digN_eq (c w : ℕ) : digN c w = remN 48 (digZ c w) := by
  unfold digN digZ remN
  show (c / w % 3 + 47) % 48 = _
  omega

theorem twN_eq (d : ℕ) : twN d = remN 12 (tw d) := by
  rcases d with _ | _ | _ | _ | _ | _ | _ | d <;> rfl

theorem opN_eq (ac : Bool) (c : ℕ) : opN ac c = toN (opZ ac c) := by
  cases ac <;> simp only [opN, toN, opZ, transZ, decZ, digN_eq, twN_eq] <;> rfl

theorem groupN_eq (e : ℕ × List ℕ) : groupN e = (groupZ e).map toN := by
  unfold groupN groupZ
  rw [List.map_map]
  exact List.map_congr_left fun c _ => opN_eq _ _

/-- the key determines the residues. -/
theorem keyN_toN {a a' : ZOp} (h : keyN (toN a) = keyN (toN a')) : toN a = toN a' := by
  have l48 : ∀ x : ℤ, remN 48 x < 48 := fun x => remN_lt (by norm_num) x
  have l12 : ∀ x : ℤ, remN 12 x < 48 := fun x => lt_trans (remN_lt (by norm_num) x) (by norm_num)
  have step : ∀ a b x y : ℕ, x < 48 → y < 48 → Nat.add (Nat.mul a 48) x = Nat.add (Nat.mul b 48) y → a = b ∧ x = y := by
    intro a b x y hx hy h
    have h : a * 48 + x = b * 48 + y := h
    omega
  unfold keyN at h
  simp only at h
  obtain ⟨h, h1⟩ := step _ _ _ _ (l12 _) (l12 _) h
  obtain ⟨h, h2⟩ := step _ _ _ _ (l12 _) (l12 _) h
  obtain ⟨h, h3⟩ := step _ _ _ _ (l12 _) (l12 _) h
  obtain ⟨h, h4⟩ := step _ _ _ _ (l48 _) (l48 _) h
  obtain ⟨h, h5⟩ := step _ _ _ _ (l48 _) (l48 _) h
  obtain ⟨h, h6⟩ := step _ _ _ _ (l48 _) (l48 _) h
  obtain ⟨h, h7⟩ := step _ _ _ _ (l48 _) (l48 _) h
  obtain ⟨h, h8⟩ := step _ _ _ _ (l48 _) (l48 _) h
  obtain ⟨h, h9⟩ := step _ _ _ _ (l48 _) (l48 _) h
  obtain ⟨h, h10⟩ := step _ _ _ _ (l48 _) (l48 _) h
  obtain ⟨h12, h11⟩ := step _ _ _ _ (l48 _) (l48 _) h
  unfold toN
  congr 1 <;> assumption

theorem dot_bound {a b c x y z A B : ℤ} (ha : |a| ≤ A) (hb : |b| ≤ A) (hc : |c| ≤ A) (hx : |x| ≤ B) (hy : |y| ≤ B) (hz : |z| ≤ B) :
    |a * x + b * y + c * z| ≤ 3 * (A * B) := by
  have hA : 0 ≤ A := le_trans (abs_nonneg _) ha
  have key : ∀ {u v : ℤ}, |u| ≤ A → |v| ≤ B → |u * v| ≤ A * B := by
    intro u v hu hv
    rw [abs_mul]
    exact mul_le_mul hu hv (abs_nonneg _) hA
  have h1 := key ha hx
  have h2 := key hb hy
  have h3 := key hc hz
  rw [abs_le] at h1 h2 h3 ⊢
  constructor <;> linarith [h1.1, h1.2, h2.1, h2.2, h3.1, h3.2]

/-- all entries are at most `A` in absolute value. -/
def Entries (A : ℤ) (m : Mat3 ℤ) : Prop :=
  (|m.m11| ≤ A ∧ |m.m12| ≤ A ∧ |m.m13| ≤ A) ∧ (|m.m21| ≤ A ∧ |m.m22| ≤ A ∧ |m.m23| ≤ A) ∧ |m.m31| ≤ A ∧ |m.m32| ≤ A ∧ |m.m33| ≤ A

theorem Entries.mul {A B : ℤ} {m n : Mat3 ℤ} (h : Entries A m) (h' : Entries B n) : Entries (3 * (A * B)) (m * n) := by
  obtain ⟨⟨a1, a2, a3⟩, ⟨a4, a5, a6⟩, a7, a8, a9⟩ := h
  obtain ⟨⟨b1, b2, b3⟩, ⟨b4, b5, b6⟩, b7, b8, b9⟩ := h'
  simp only [Entries, Mat3.mul_m11, Mat3.mul_m12, Mat3.mul_m13, Mat3.mul_m21, Mat3.mul_m22, Mat3.mul_m23, Mat3.mul_m31, Mat3.mul_m32,
    Mat3.mul_m33]
  exact ⟨⟨dot_bound a1 a2 a3 b1 b4 b7, dot_bound a1 a2 a3 b2 b5 b8, dot_bound a1 a2 a3 b3 b6 b9⟩,
    ⟨dot_bound a4 a5 a6 b1 b4 b7, dot_bound a4 a5 a6 b2 b5 b8, dot_bound a4 a5 a6 b3 b6 b9⟩,
    dot_bound a7 a8 a9 b1 b4 b7, dot_bound a7 a8 a9 b2 b5 b8, dot_bound a7 a8 a9 b3 b6 b9⟩

theorem Entries.adj {m : Mat3 ℤ} (h : Entries 1 m) : Entries 2 m.adj := by
  have key : ∀ {a b c d : ℤ}, |a| ≤ 1 → |b| ≤ 1 → |c| ≤ 1 → |d| ≤ 1 → |a * b - c * d| ≤ 2 := by
    intro a b c d ha hb hc hd
    have h1 : |a * b| ≤ 1 := by rw [abs_mul]; nlinarith [abs_nonneg a, abs_nonneg b]
    have h2 : |c * d| ≤ 1 := by rw [abs_mul]; nlinarith [abs_nonneg c, abs_nonneg d]
    rw [abs_le] at h1 h2 ⊢
    constructor <;> linarith [h1.1, h1.2, h2.1, h2.2]
  obtain ⟨⟨a1, a2, a3⟩, ⟨a4, a5, a6⟩, a7, a8, a9⟩ := h
  refine ⟨⟨?_, ?_, ?_⟩, ⟨?_, ?_, ?_⟩, ?_, ?_, ?_⟩ <;> exact key (by assumption) (by assumption) (by assumption) (by assumption)

theorem decZ_entries (c : ℕ) : Entries 1 (decZ c) := by
  have key : ∀ w, |digZ c w| ≤ 1 := fun w => abs_le.2 (digZ_mem c w)
  exact ⟨⟨key _, key _, key _⟩, ⟨key _, key _, key _⟩, key _, key _, key _⟩

theorem groupZ_entries {e : ℕ × List ℕ} {a : ZOp} (ha : a ∈ groupZ e) : Entries 1 a.1 := by
  have h := (groupZ_range a ha).1
  simp only [Mat3.toListCM, List.forall_mem_cons] at h
  simp only [Entries, abs_le]
  tauto

theorem eq_of_mod {x y : ℤ} (h : x ≡ y [ZMOD 48]) (hx : |x| ≤ 18) (hy : |y| ≤ 1) : x = y := by
  have h : x % 48 = y % 48 := h
  rw [abs_le] at hx hy
  omega

/-- the changed operation is in the table when its key is. -/
theorem conj_mem {e : ℕ × List ℕ} {a : ZOp} (ha : a ∈ groupZ e) {c : ℕ}
    (h : keyN (conjN (matN (decZ c)) (matN (decZ c).adj) (toN a)) ∈ (groupN e).map keyN) : conjZ (decZ c) a ∈ groupZ e := by
  rw [groupN_eq, List.map_map] at h
  obtain ⟨a', ha', h⟩ := List.mem_map.1 h
  rw [conjN_toN] at h
  have hk := keyN_toN h
  have hE := ((decZ_entries c).adj.mul (groupZ_entries ha)).mul (decZ_entries c)
  have hE' := groupZ_entries ha'
  have hr := (groupZ_range a' ha').2
  have m48 : ∀ {x y : ℤ}, remN 48 x = remN 48 y → x ≡ y [ZMOD 48] := fun h => modEq_of_remN (by norm_num) h
  have m12 : ∀ {x y : ℤ}, remN 12 x = remN 12 y → 0 ≤ x ∧ x < 12 → 0 ≤ y ∧ y < 12 → x = y := by
    intro x y h hx hy
    have : x % 12 = y % 12 := modEq_of_remN (m := 12) (by norm_num) h
    omega
  have h12 : ∀ x : ℤ, 0 ≤ x % 12 ∧ x % 12 < 12 := fun x => ⟨Int.emod_nonneg _ (by norm_num), Int.emod_lt_of_pos _ (by norm_num)⟩
  suffices a' = conjZ (decZ c) a by rwa [← this]
  obtain ⟨⟨e1, e2, e3⟩, ⟨e4, e5, e6⟩, e7, e8, e9⟩ := hE
  obtain ⟨⟨f1, f2, f3⟩, ⟨f4, f5, f6⟩, f7, f8, f9⟩ := hE'
  obtain ⟨r1, r2, r3⟩ := hr
  unfold toN at hk
  injection hk with k1 k2 k3 k4 k5 k6 k7 k8 k9 k10 k11 k12
  refine Prod.ext (Mat3.ext ?_ ?_ ?_ ?_ ?_ ?_ ?_ ?_ ?_) (Vec3.ext (m12 k10 r1 (h12 _)) (m12 k11 r2 (h12 _)) (m12 k12 r3 (h12 _)))
  · exact (eq_of_mod (m48 k1).symm e1 f1).symm
  · exact (eq_of_mod (m48 k2).symm e2 f2).symm
  · exact (eq_of_mod (m48 k3).symm e3 f3).symm
  · exact (eq_of_mod (m48 k4).symm e4 f4).symm
  · exact (eq_of_mod (m48 k5).symm e5 f5).symm
  · exact (eq_of_mod (m48 k6).symm e6 f6).symm
  · exact (eq_of_mod (m48 k7).symm e7 f7).symm
  · exact (eq_of_mod (m48 k8).symm e8 f8).symm
  · exact (eq_of_mod (m48 k9).symm e9 f9).symm

theorem mem_fitting {b : BravaisType} {l : List (ℕ × List ℕ)} {e : ℕ × List ℕ} (he : e ∈ l)
    (hrot : ∀ o ∈ groupZ e, ∃ c ∈ holoCodes b, o.1 = decZ c) : e ∈ fitting b l := by
  unfold fitting
  rw [List.mem_filter, allR_iff]
  refine ⟨he, fun o ho => ?_⟩
  rw [groupN_eq] at ho
  obtain ⟨a, ha, rfl⟩ := List.mem_map.1 ho
  obtain ⟨c, hc, e1⟩ := hrot a ha
  rw [memN_iff, List.mem_map]
  refine ⟨c, hc, ?_⟩
  have e2 : decZ (Nat.mod (Nat.mod c 19683) 19683) = decZ c := by
    show decZ (c % 19683 % 19683) = decZ c
    unfold decZ digZ
    ext <;> simp only [] <;> omega
  rw [opN_eq]
  unfold toN
  have e4 : (opZ false (Nat.mod c 19683)).1 = a.1 := by
    rw [e1, ← e2]
    rfl
  simp only [e4]

theorem mem_properHolo {b : BravaisType} {c : ℕ} (hc : c ∈ holoCodes b) (hd : (decZ c).det = 1) : decZ c ∈ properHolo b :=
  List.mem_filter.2 ⟨List.mem_map.2 ⟨c, hc, rfl⟩, by simpa using hd⟩

/-! ## The checks -/

set_option maxRecDepth 100000 in
theorem differ_checked : ∀ b, differCheck b = true := by
  intro b
  cases b <;> decide +kernel

set_option maxRecDepth 100000 in
theorem invariant_checked : ∀ b, invariantCheck b = true := by
  intro b
  cases b <;> decide +kernel

/-- no two entries of the same order and with different numbers are related by a rotation of the lattice. -/
theorem tables_differ {b : BravaisType} {sys : LatticeSystem} (hsys : b.latticeSystem? = some sys) {n num num' : ℕ} {codes codes' : List ℕ}
    (hent : IsTableEntry sys n num codes) (hent' : IsTableEntry sys n num' codes')
    (hrot : ∀ o ∈ groupZ (num, codes), ∃ c ∈ holoCodes b, o.1 = decZ c)
    (hrot' : ∀ o ∈ groupZ (num', codes'), ∃ c ∈ holoCodes b, o.1 = decZ c) {c : ℕ} (hc : c ∈ holoCodes b) (hd : (decZ c).det = 1)
    (h : ∀ a ∈ groupZ (num, codes), conjZ (decZ c) a ∈ groupZ (num', codes')) : num = num' := by
  obtain ⟨groups, cands, h1, h2, h3⟩ := hent
  obtain ⟨groups', cands', h1', h2', h3'⟩ := hent'
  have hk1 : (sgNumToFullMatrices.map Prod.fst).Nodup := by decide
  have hk2 : ∀ p ∈ sgNumToFullMatrices, (p.2.map Prod.fst).Nodup := by decide
  have hg := amapGet?_of_mem hk1 h1
  have hg' := amapGet?_of_mem hk1 h1'
  rw [hg] at hg'
  cases hg'
  have hq := amapGet?_of_mem (hk2 _ h1) h2
  have hq' := amapGet?_of_mem (hk2 _ h1) h2'
  rw [hq] at hq'
  cases hq'
  have key := differ_checked b
  unfold differCheck at key
  rw [hsys, Option.bind_some, hg] at key
  simp only [differFrom, allR_iff, forceN_eq] at key
  have := key _ h2 _ (mem_fitting h3' hrot') _ (mem_properHolo hc hd) _ (mem_fitting h3 hrot)
  by_contra hne
  have hb : Nat.beq num num' = false := by
    cases hb : Nat.beq num num' with
    | false => rfl
    | true => exact absurd (Nat.eq_of_beq_eq_true hb) hne
  simp only [hb] at this
  have hall : allR (fun a => memN (keyN (conjN (matN (decZ c)) (matN (decZ c).adj) a)) ((groupN (num', codes')).map keyN))
      (groupN (num, codes)) = true := by
    rw [allR_iff, groupN_eq, groupN_eq]
    intro x hx
    obtain ⟨a, ha, rfl⟩ := List.mem_map.1 hx
    rw [memN_iff, conjN_toN, List.map_map]
    exact List.mem_map.2 ⟨_, h a ha, rfl⟩
  rw [hall] at this
  cases this

/-- the tables of the other groups do not change under the rotations of the lattice. -/
theorem table_invariant {b : BravaisType} {sys : LatticeSystem} (hsys : b.latticeSystem? = some sys) {n num : ℕ} {codes : List ℕ}
    (hent : IsTableEntry sys n num codes) (hrot : ∀ o ∈ groupZ (num, codes), ∃ c ∈ holoCodes b, o.1 = decZ c)
    (hgood : num ∉ crateBad) (hset : num ∉ settingBad) {c : ℕ} (hc : c ∈ holoCodes b) (hd : (decZ c).det = 1) :
    ∀ a ∈ groupZ (num, codes), conjZ (decZ c) a ∈ groupZ (num, codes) := by
  obtain ⟨groups, cands, h1, h2, h3⟩ := hent
  have hk1 : (sgNumToFullMatrices.map Prod.fst).Nodup := by decide
  have hg := amapGet?_of_mem hk1 h1
  have key := invariant_checked b
  unfold invariantCheck at key
  rw [hsys, Option.bind_some, hg] at key
  simp only [allR_iff] at key
  have := key _ h2 _ (mem_fitting h3 hrot)
  unfold invariantFrom at this
  rw [forceN_eq] at this
  have n1 : ¬ memN num settingBad = true := by rwa [memN_iff]
  have n2 : ¬ memN num crateBad = true := by rwa [memN_iff]
  simp only [n1, n2, Bool.false_or, Bool.false_eq_true, if_false, allR_iff] at this
  intro a ha
  have hm := this _ (mem_properHolo hc hd) (toN a) (by rw [groupN_eq]; exact List.mem_map.2 ⟨a, ha, rfl⟩)
  rw [memN_iff] at hm
  exact conj_mem ha hm

/-- the tables of the groups in `settingBad` do change. -/
theorem table_setting {b : BravaisType} {sys : LatticeSystem} (hsys : b.latticeSystem? = some sys) {n num : ℕ} {codes : List ℕ}
    (hent : IsTableEntry sys n num codes) (hrot : ∀ o ∈ groupZ (num, codes), ∃ c ∈ holoCodes b, o.1 = decZ c)
    (hset : num ∈ settingBad) : ∃ c ∈ holoCodes b, (decZ c).det = 1 ∧ ∃ a ∈ groupZ (num, codes), conjZ (decZ c) a ∉ groupZ (num, codes) := by
  obtain ⟨groups, cands, h1, h2, h3⟩ := hent
  have hk1 : (sgNumToFullMatrices.map Prod.fst).Nodup := by decide
  have hg := amapGet?_of_mem hk1 h1
  have key := invariant_checked b
  unfold invariantCheck at key
  rw [hsys, Option.bind_some, hg] at key
  simp only [allR_iff] at key
  have := key _ h2 _ (mem_fitting h3 hrot)
  unfold invariantFrom at this
  rw [forceN_eq] at this
  have n1 : memN num settingBad = true := by rwa [memN_iff]
  simp only [n1, if_true, List.any_eq_true] at this
  obtain ⟨v, hv, x, hx, hn⟩ := this
  obtain ⟨hv1, hv2⟩ := List.mem_filter.1 hv
  obtain ⟨c, hc, rfl⟩ := List.mem_map.1 hv1
  rw [groupN_eq] at hx
  obtain ⟨a, ha, rfl⟩ := List.mem_map.1 hx
  refine ⟨c, hc, by simpa using hv2, a, ha, fun hm => ?_⟩
  have : memN (keyN (conjN (matN (decZ c)) (matN (decZ c).adj) (toN a))) ((groupN (num, codes)).map keyN) = true := by
    rw [memN_iff, conjN_toN, groupN_eq, List.map_map]
    exact List.mem_map.2 ⟨_, hm, rfl⟩
  rw [this] at hn
  cases hn

end CrystSymm
