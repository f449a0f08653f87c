import Verif.Proofs.Congruent

/-! # The space-group tables in a changed basis: three origins are enough -/

set_option autoImplicit false
set_option linter.unusedSectionVars false

namespace CrystSymm

open Spec PointGroup SymmetryAnalyzer

/-- the shifts of the origin, in twelfths of the basis. -/
def origins : List (Vec3 ℤ) := [⟨0, 0, 0⟩, ⟨3, 3, 3⟩, ⟨3, 9, 6⟩]

/-- the operation with the origin shifted. -/
def shiftZ (w : Vec3 ℤ) (a : ZOp) : ZOp := (a.1, (a.2 + w - a.1 * w : Vec3 ℤ).map fun x => x % 12)

/-- the same, with `w'` the negative of `w` modulo `12`. -/
def shiftN (w w' : ℕ × ℕ × ℕ) (p : NOp) : NOp :=
  { p with
    x := Nat.mod (Nat.add (Nat.add p.x w.1) (dotN 12 p.a p.b p.c w'.1 w'.2.1 w'.2.2)) 12
    y := Nat.mod (Nat.add (Nat.add p.y w.2.1) (dotN 12 p.d p.e p.f w'.1 w'.2.1 w'.2.2)) 12
    z := Nat.mod (Nat.add (Nat.add p.z w.2.2) (dotN 12 p.g p.h p.i w'.1 w'.2.1 w'.2.2)) 12 }

def originsN : List ((ℕ × ℕ × ℕ) × (ℕ × ℕ × ℕ)) :=
  [((0, 0, 0), (0, 0, 0)), ((3, 3, 3), (9, 9, 9)), ((3, 9, 6), (9, 3, 6))]

def natTriple (w : Vec3 ℤ) : ℕ × ℕ × ℕ := (remN 12 w.x, remN 12 w.y, remN 12 w.z)

/-- the operation with its entries evaluated, for the kernel. -/
def forceOp (p : NOp) (k : NOp → Bool) : Bool :=
  force1 p.a fun a => force1 p.b fun b => force1 p.c fun c => force1 p.d fun d => force1 p.e fun e => force1 p.f fun f =>
  force1 p.g fun g => force1 p.h fun h => force1 p.i fun i => force1 p.x fun x => force1 p.y fun y => force1 p.z fun z =>
  k ⟨a, b, c, d, e, f, g, h, i, x, y, z⟩

def forceOps (l : List NOp) (k : List NOp → Bool) : Bool :=
  List.rec (motive := fun _ => (List NOp → Bool) → Bool) (fun k => k []) (fun x _ r k => r fun t => forceOp x fun x => k (x :: t)) l k

/-- `conjN`, evaluated. -/
def forceConj (v w p : NOp) (k : NOp → Bool) : Bool :=
  forceOp (mulN w p) fun q => forceOp (mulN q v) fun r => k ⟨r.a, r.b, r.c, r.d, r.e, r.f, r.g, r.h, r.i, q.x, q.y, q.z⟩

/-- for every rotation of the lattice there is an origin with the table of the expected group. -/
def movedFrom (neg : Bool) (vs : List (Mat3 ℤ)) (l : List (ℕ × List ℕ)) : Bool :=
  allR (fun x => Bool.rec (l.any fun y => Bool.rec false (Bool.rec (forceN ((groupN y).map keyN) fun ks =>
    forceOps ((groupN x).map (signN neg)) fun as => allR (fun v => forceOp (matN v) fun kv => forceOp (matN v.adj) fun kw =>
      originsN.any fun w => allR (fun a => forceConj kv kw a fun c => force1 (keyN (shiftN w.1 w.2 c)) fun k => memN k ks) as) vs) false
    (memN y.1 crateBad)) (Nat.beq (signNumber neg x.1) y.1)) true (memN x.1 crateBad)) l

def movedCheck (neg : Bool) (b : BravaisType) : Bool :=
  match b.latticeSystem?.bind fun sys => amapGet? sgNumToFullMatrices sys with
  | some groups => allR (fun q => movedFrom neg (properHolo b) (fitting b q.2)) groups
  | none => true

set_option maxHeartbeats 1000000 in
set_option maxRecDepth 100000 in
theorem moved_checked : ∀ neg b, movedCheck neg b = true := by
  intro neg b
  cases neg <;> cases b <;> decide +kernel

/-! ## What the check means -/

theorem forceOp_eq (p : NOp) (k : NOp → Bool) : forceOp p k = k p := by
  unfold forceOp
  simp only [force1_eq]

theorem forceOps_eq (l : List NOp) (k : List NOp → Bool) : forceOps l k = k l := by
  induction l generalizing k with
  | nil => rfl
  | cons x l ih =>
    have e : forceOps (x :: l) k = forceOps l fun t => forceOp x fun x => k (x :: t) := rfl
    rw [e, ih, forceOp_eq]

theorem forceConj_eq (v w p : NOp) (k : NOp → Bool) : forceConj v w p k = k (conjN v w p) := by
  unfold forceConj
  simp only [forceOp_eq]
  rfl

theorem originsN_eq : originsN = origins.map fun w => (natTriple w, natTriple ⟨-w.x, -w.y, -w.z⟩) := by decide

theorem shiftN_toN (w : Vec3 ℤ) (a : ZOp) : shiftN (natTriple w) (natTriple ⟨-w.x, -w.y, -w.z⟩) (toN a) = toN (shiftZ w a) := by
  have h12 : (0 : ℕ) < 12 := by norm_num
  have h48 : (0 : ℕ) < 48 := by norm_num
  have hd : ((12 : ℕ) : ℤ) ∣ ((48 : ℕ) : ℤ) := by norm_num
  have key : ∀ x y z : ℤ, Nat.mod (Nat.add (Nat.add (remN 12 x) (remN 12 y)) (remN 12 z)) 12 = remN 12 ((x + y + z) % 12) := by
    intro x y z
    show ((x % (12 : ℕ)).toNat + (y % (12 : ℕ)).toNat + (z % (12 : ℕ)).toNat) % 12 = ((x + y + z) % 12 % (12 : ℕ)).toNat
    omega
  unfold shiftN natTriple toN shiftZ
  simp only [dotN_rem h12 h48 h12 hd (dvd_refl _), key, Vec3.map]
  congr 1
  · congr 2
    simp only [Vec3.sub_x, Vec3.add_x, Mat3.mulVec_x]
    ring
  · congr 2
    simp only [Vec3.sub_y, Vec3.add_y, Mat3.mulVec_y]
    ring
  · congr 2
    simp only [Vec3.sub_z, Vec3.add_z, Mat3.mulVec_z]
    ring

/-- an operation in reach of the table with the key of one of its operations is this operation. -/
theorem mem_of_key {e : ℕ × List ℕ} {a : ZOp} (hE : Entries 18 a.1) (h2 : (0 ≤ a.2.x ∧ a.2.x < 12) ∧ (0 ≤ a.2.y ∧ a.2.y < 12) ∧
    0 ≤ a.2.z ∧ a.2.z < 12) (h : keyN (toN a) ∈ (groupN e).map keyN) : a ∈ groupZ e := by
  rw [groupN_eq, List.map_map] at h
  obtain ⟨a', ha', h⟩ := List.mem_map.1 h
  have hk := keyN_toN h
  have hE' := groupZ_entries ha'
  have hr := (groupZ_range a' ha').2
  have m48 : ∀ {x y : ℤ}, remN 48 x = remN 48 y → x ≡ y [ZMOD 48] := fun h => modEq_of_remN (by norm_num) h
  have m12 : ∀ {x y : ℤ}, remN 12 x = remN 12 y → 0 ≤ x ∧ x < 12 → 0 ≤ y ∧ y < 12 → x = y := by
    intro x y h hx hy
    have : x % 12 = y % 12 := modEq_of_remN (m := 12) (by norm_num) h
    omega
  suffices a' = a by rwa [← this]
  obtain ⟨⟨e1, e2, e3⟩, ⟨e4, e5, e6⟩, e7, e8, e9⟩ := hE
  obtain ⟨⟨f1, f2, f3⟩, ⟨f4, f5, f6⟩, f7, f8, f9⟩ := hE'
  obtain ⟨r1, r2, r3⟩ := hr
  obtain ⟨g1, g2, g3⟩ := h2
  unfold toN at hk
  injection hk with k1 k2 k3 k4 k5 k6 k7 k8 k9 k10 k11 k12
  refine Prod.ext (Mat3.ext ?_ ?_ ?_ ?_ ?_ ?_ ?_ ?_ ?_) (Vec3.ext (m12 k10 r1 g1) (m12 k11 r2 g2) (m12 k12 r3 g3))
  · exact (eq_of_mod (m48 k1).symm e1 f1).symm
  · exact (eq_of_mod (m48 k2).symm e2 f2).symm
  · exact (eq_of_mod (m48 k3).symm e3 f3).symm
  · exact (eq_of_mod (m48 k4).symm e4 f4).symm
  · exact (eq_of_mod (m48 k5).symm e5 f5).symm
  · exact (eq_of_mod (m48 k6).symm e6 f6).symm
  · exact (eq_of_mod (m48 k7).symm e7 f7).symm
  · exact (eq_of_mod (m48 k8).symm e8 f8).symm
  · exact (eq_of_mod (m48 k9).symm e9 f9).symm

theorem signZ_fst (neg : Bool) (a : ZOp) : (signZ neg a).1 = a.1 := by
  cases neg <;> rfl

/-- the table of the expected group at one of the three origins. -/
theorem table_moved (neg : Bool) {b : BravaisType} {sys : LatticeSystem} (hsys : b.latticeSystem? = some sys) {n num : ℕ} {codes : List ℕ}
    (hent : IsTableEntry sys n num codes) (hrot : ∀ o ∈ groupZ (num, codes), ∃ c ∈ holoCodes b, o.1 = decZ c)
    (hgood : num ∉ crateBad) {c : ℕ} (hc : c ∈ holoCodes b) (hd : (decZ c).det = 1) :
    ∃ codes', IsTableEntry sys n (signNumber neg num) codes' ∧ signNumber neg num ∉ crateBad ∧
      ∃ w ∈ origins, ∀ a ∈ groupZ (num, codes), shiftZ w (conjZ (decZ c) (signZ neg a)) ∈ groupZ (signNumber neg num, codes') := by
  obtain ⟨groups, cands, h1, h2, h3⟩ := hent
  have hk1 : (sgNumToFullMatrices.map Prod.fst).Nodup := by decide
  have hg := amapGet?_of_mem hk1 h1
  have key := moved_checked neg b
  unfold movedCheck at key
  rw [hsys, Option.bind_some, hg] at key
  simp only [allR_iff] at key
  have := key _ h2
  unfold movedFrom at this
  rw [allR_iff] at this
  have := this _ (mem_fitting h3 hrot)
  have n2 : memN num crateBad = false := by
    cases e : memN num crateBad with
    | false => rfl
    | true => exact absurd ((memN_iff _ _).1 e) hgood
  simp only [n2] at this
  obtain ⟨y, hy, hyt⟩ := List.any_eq_true.1 this
  have e1 : Nat.beq (signNumber neg num) y.1 = true := by
    cases e : Nat.beq (signNumber neg num) y.1 with
    | true => rfl
    | false => simp only [e] at hyt; cases hyt
  have e2 : memN y.1 crateBad = false := by
    cases e : memN y.1 crateBad with
    | false => rfl
    | true => simp only [e1, e] at hyt; cases hyt
  simp only [e1, e2, forceN_eq, forceOps_eq, forceOp_eq, allR_iff] at hyt
  obtain ⟨w, hw, hall⟩ := List.any_eq_true.1 (hyt _ (mem_properHolo hc hd))
  rw [originsN_eq] at hw
  obtain ⟨w, hw', rfl⟩ := List.mem_map.1 hw
  have hnum := Nat.eq_of_beq_eq_true e1
  have hyl : y ∈ cands := by
    unfold fitting at hy
    exact (List.mem_filter.1 hy).1
  refine ⟨y.2, ⟨groups, cands, h1, h2, by rw [hnum]; exact hyl⟩, ?_, w, hw', ?_⟩
  · rw [hnum]
    intro hm
    rw [(memN_iff _ _).2 hm] at e2
    cases e2
  · intro a ha
    rw [allR_iff] at hall
    have hm := hall (signN neg (toN a)) (List.mem_map.2 ⟨toN a, by rw [groupN_eq]; exact List.mem_map.2 ⟨a, ha, rfl⟩, rfl⟩)
    rw [forceConj_eq, force1_eq, memN_iff, signN_toN, conjN_toN, shiftN_toN] at hm
    rw [hnum]
    have h12 : ∀ x : ℤ, 0 ≤ x % 12 ∧ x % 12 < 12 := fun x => ⟨Int.emod_nonneg _ (by norm_num), Int.emod_lt_of_pos _ (by norm_num)⟩
    refine mem_of_key ?_ ⟨h12 _, h12 _, h12 _⟩ hm
    have hE := ((decZ_entries c).adj.mul (groupZ_entries ha)).mul (decZ_entries c)
    show Entries 18 ((decZ c).adj * (signZ neg a).1 * decZ c)
    rw [signZ_fst]
    exact hE

end CrystSymm
