import Verif.Proofs.Origins

/-! # Two orbits that show every space group of the tables

For every table of a good group the orbits of two points under the group, modulo the lattice, are mapped onto themselves by the
operations of the table and by no other motion with a rotation of the lattice.  Points are in 48ths of the basis. -/

set_option autoImplicit false
set_option linter.unusedSectionVars false

namespace CrystSymm

open Spec PointGroup SymmetryAnalyzer

/-- the number of a point of the grid. -/
def point48 (x y z : ℕ) : ℕ := Nat.add (Nat.mul (Nat.add (Nat.mul x 48) y) 48) z

/-- the image of a point; the translation is in 48ths. -/
def actN (o : NOp) (k : ℕ) : ℕ :=
  let x := Nat.div k 2304
  let y := Nat.mod (Nat.div k 48) 48
  let z := Nat.mod k 48
  point48 (Nat.mod (Nat.add (dotN 48 o.a o.b o.c x y z) o.x) 48) (Nat.mod (Nat.add (dotN 48 o.d o.e o.f x y z) o.y) 48)
    (Nat.mod (Nat.add (dotN 48 o.g o.h o.i x y z) o.z) 48)

/-- twelfths to 48ths. -/
def fourN (o : NOp) : NOp := { o with x := Nat.mul 4 o.x, y := Nat.mul 4 o.y, z := Nat.mul 4 o.z }

def nodupN (l : List ℕ) : Bool := List.rec true (fun x t r => Bool.rec r false (memN x t)) l

/-- the motion with the rotation of `o` that takes the first point to the second. -/
def viaN (o : NOp) (k q : ℕ) : NOp :=
  let x := Nat.div k 2304
  let y := Nat.mod (Nat.div k 48) 48
  let z := Nat.mod k 48
  { o with
    x := Nat.mod (Nat.add (Nat.div q 2304) (Nat.mul 47 (dotN 48 o.a o.b o.c x y z))) 48
    y := Nat.mod (Nat.add (Nat.mod (Nat.div q 48) 48) (Nat.mul 47 (dotN 48 o.d o.e o.f x y z))) 48
    z := Nat.mod (Nat.add (Nat.mod q 48) (Nat.mul 47 (dotN 48 o.g o.h o.i x y z))) 48 }

def idN (o : NOp) : Bool := Nat.beq (Nat.div (keyN o) 110592) (Nat.div (keyN ⟨1, 0, 0, 0, 1, 0, 0, 0, 1, 0, 0, 0⟩) 110592)

/-- both orbits are mapped into themselves. -/
def keepsN (A B : List ℕ) (o : NOp) : Bool := allR (fun k => memN (actN o k) A) A && allR (fun k => memN (actN o k) B) B

def orbitCheck (k0 k1 : ℕ) (b : BravaisType) (e : ℕ × List ℕ) : Bool :=
  forceOps ((groupN e).map fourN) fun ops => forceN (ops.map keyN) fun ks =>
  forceN (ops.map fun o => actN o k0) fun A => forceN (ops.map fun o => actN o k1) fun B =>
  memN k0 A && (memN k1 B && (nodupN (A ++ B) && (allR (keepsN A B) ops &&
  (allR (fun o => !idN o || (Nat.beq o.x 0 && Nat.beq o.y 0 && Nat.beq o.z 0)) ops &&
  allR (fun c => allR (fun q => forceOp (viaN (opN false c) k0 q) fun o => !memN (actN o k1) B || (memN (keyN o) ks || !keepsN A B o)) A)
    (holoCodes b)))))

/-- the tables of the good groups with the rotations of a lattice of the type `b`. -/
def entriesOf (b : BravaisType) : List (ℕ × List ℕ) :=
  match b.latticeSystem?.bind fun sys => amapGet? sgNumToFullMatrices sys with
  | some groups => groups.flatMap fun q => (fitting b q.2).filter fun e => !memN e.1 crateBad
  | none => []

/-- the two points. -/
def firstPoint : Vec3 ℤ := ⟨1, 5, 17⟩

def secondPoint : Vec3 ℤ := ⟨10, 23, 3⟩

/-- the check for the groups with numbers from `lo` to `hi`. -/
def orbitsOk (b : BravaisType) (lo hi : ℕ) : Bool :=
  allR (fun e => Bool.rec true (Bool.rec true (orbitCheck (point48 1 5 17) (point48 10 23 3) b e) (Nat.ble e.1 hi)) (Nat.ble lo e.1)) (entriesOf b)

/-! ## What the check means -/

theorem nodupN_iff (l : List ℕ) : nodupN l = true ↔ l.Nodup := by
  induction l with
  | nil => simp [nodupN]
  | cons x l ih =>
    have e : nodupN (x :: l) = Bool.rec (nodupN l) false (memN x l) := rfl
    rw [e, List.nodup_cons, ← memN_iff]
    cases memN x l <;> simp [ih]

/-- the number of a point modulo the lattice. -/
def keyW (w : Vec3 ℤ) : ℕ := point48 (remN 48 w.x) (remN 48 w.y) (remN 48 w.z)

/-- a rotation modulo `48` with a translation in 48ths. -/
def toM (W : Mat3 ℤ) (t : Vec3 ℤ) : NOp :=
  ⟨remN 48 W.m11, remN 48 W.m12, remN 48 W.m13, remN 48 W.m21, remN 48 W.m22, remN 48 W.m23, remN 48 W.m31, remN 48 W.m32,
    remN 48 W.m33, remN 48 t.x, remN 48 t.y, remN 48 t.z⟩

/-- twelfths to 48ths. -/
def fourZ (t : Vec3 ℤ) : Vec3 ℤ := ⟨4 * t.x, 4 * t.y, 4 * t.z⟩

theorem fourN_toN (a : ZOp) : fourN (toN a) = toM a.1 (fourZ a.2) := by
  have key : ∀ x : ℤ, Nat.mul 4 (remN 12 x) = remN 48 (4 * x) := by
    intro x
    show 4 * (x % (12 : ℕ)).toNat = (4 * x % (48 : ℕ)).toNat
    omega
  unfold fourN toN toM fourZ
  simp only [key]

theorem keyW_parts (w : Vec3 ℤ) : Nat.div (keyW w) 2304 = remN 48 w.x ∧ Nat.mod (Nat.div (keyW w) 48) 48 = remN 48 w.y ∧
    Nat.mod (keyW w) 48 = remN 48 w.z := by
  have h1 : remN 48 w.x < 48 := remN_lt (by norm_num) _
  have h2 : remN 48 w.y < 48 := remN_lt (by norm_num) _
  have h3 : remN 48 w.z < 48 := remN_lt (by norm_num) _
  have e : keyW w = (remN 48 w.x * 48 + remN 48 w.y) * 48 + remN 48 w.z := rfl
  refine ⟨?_, ?_, ?_⟩
  · show keyW w / 2304 = _
    omega
  · show keyW w / 48 % 48 = _
    omega
  · show keyW w % 48 = _
    omega

theorem keyW_iff {w w' : Vec3 ℤ} : keyW w = keyW w' ↔ w.x ≡ w'.x [ZMOD 48] ∧ w.y ≡ w'.y [ZMOD 48] ∧ w.z ≡ w'.z [ZMOD 48] := by
  constructor
  · intro h
    obtain ⟨a1, a2, a3⟩ := keyW_parts w
    obtain ⟨b1, b2, b3⟩ := keyW_parts w'
    rw [h] at a1 a2 a3
    exact ⟨modEq_of_remN (by norm_num) (a1.symm.trans b1), modEq_of_remN (by norm_num) (a2.symm.trans b2),
      modEq_of_remN (by norm_num) (a3.symm.trans b3)⟩
  · rintro ⟨h1, h2, h3⟩
    unfold keyW
    rw [remN_congr h1, remN_congr h2, remN_congr h3]

theorem actN_toM (W : Mat3 ℤ) (t w : Vec3 ℤ) : actN (toM W t) (keyW w) = keyW (W * w + t) := by
  have h48 : (0 : ℕ) < 48 := by norm_num
  have key : ∀ x y : ℤ, Nat.mod (Nat.add (remN 48 x) (remN 48 y)) 48 = remN 48 (x + y) := by
    intro x y
    show ((x % (48 : ℕ)).toNat + (y % (48 : ℕ)).toNat) % 48 = ((x + y) % (48 : ℕ)).toNat
    omega
  obtain ⟨a1, a2, a3⟩ := keyW_parts w
  unfold actN
  simp only [a1, a2, a3]
  unfold toM
  simp only [dotN_rem h48 h48 h48 (dvd_refl _) (dvd_refl _), key]
  rfl

theorem viaN_toN (a : ZOp) (w w' : Vec3 ℤ) : viaN (toN a) (keyW w) (keyW w') = toM a.1 (w' - a.1 * w) := by
  have h48 : (0 : ℕ) < 48 := by norm_num
  have key : ∀ x y : ℤ, Nat.mod (Nat.add (remN 48 x) (Nat.mul 47 (remN 48 y))) 48 = remN 48 (x - y) := by
    intro x y
    show ((x % (48 : ℕ)).toNat + 47 * (y % (48 : ℕ)).toNat) % 48 = ((x - y) % (48 : ℕ)).toNat
    omega
  obtain ⟨a1, a2, a3⟩ := keyW_parts w
  obtain ⟨b1, b2, b3⟩ := keyW_parts w'
  unfold viaN
  simp only [a1, a2, a3, b1, b2, b3]
  unfold toN toM
  simp only [dotN_rem h48 h48 h48 (dvd_refl _) (dvd_refl _), key]
  rfl

theorem keyN_toM {W W' : Mat3 ℤ} {t t' : Vec3 ℤ} (h : keyN (toM W t) = keyN (toM W' t')) : toM W t = toM W' t' := by
  have l48 : ∀ x : ℤ, remN 48 x < 48 := fun x => remN_lt (by norm_num) x
  have step : ∀ a b x y : ℕ, x < 48 → y < 48 → Nat.add (Nat.mul a 48) x = Nat.add (Nat.mul b 48) y → a = b ∧ x = y := by
    intro a b x y hx hy h
    have h : a * 48 + x = b * 48 + y := h
    omega
  unfold keyN at h
  simp only at h
  obtain ⟨h, h1⟩ := step _ _ _ _ (l48 _) (l48 _) h
  obtain ⟨h, h2⟩ := step _ _ _ _ (l48 _) (l48 _) h
  obtain ⟨h, h3⟩ := step _ _ _ _ (l48 _) (l48 _) h
  obtain ⟨h, h4⟩ := step _ _ _ _ (l48 _) (l48 _) h
  obtain ⟨h, h5⟩ := step _ _ _ _ (l48 _) (l48 _) h
  obtain ⟨h, h6⟩ := step _ _ _ _ (l48 _) (l48 _) h
  obtain ⟨h, h7⟩ := step _ _ _ _ (l48 _) (l48 _) h
  obtain ⟨h, h8⟩ := step _ _ _ _ (l48 _) (l48 _) h
  obtain ⟨h, h9⟩ := step _ _ _ _ (l48 _) (l48 _) h
  obtain ⟨h, h10⟩ := step _ _ _ _ (l48 _) (l48 _) h
  obtain ⟨h12, h11⟩ := step _ _ _ _ (l48 _) (l48 _) h
  unfold toM
  congr 1 <;> assumption

theorem idN_one (t : Vec3 ℤ) : idN (toM 1 t) = true := by
  have l48 : ∀ x : ℤ, remN 48 x < 48 := fun x => remN_lt (by norm_num) x
  have h1 := l48 t.x
  have h2 := l48 t.y
  have h3 := l48 t.z
  have e : keyN (toM 1 t) = ((28179285737473 * 48 + remN 48 t.x) * 48 + remN 48 t.y) * 48 + remN 48 t.z := by
    have r1 : remN 48 1 = 1 := rfl
    have r0 : remN 48 0 = 0 := rfl
    simp only [keyN, toM, Mat3.one_m11, Mat3.one_m12, Mat3.one_m13, Mat3.one_m21, Mat3.one_m22, Mat3.one_m23, Mat3.one_m31, Mat3.one_m32,
      Mat3.one_m33, r1, r0]
    rfl
  have e' : keyN ⟨1, 0, 0, 0, 1, 0, 0, 0, 1, 0, 0, 0⟩ / 110592 = 28179285737473 := by decide +kernel
  unfold idN
  rw [Nat.beq_eq]
  show keyN (toM 1 t) / 110592 = keyN ⟨1, 0, 0, 0, 1, 0, 0, 0, 1, 0, 0, 0⟩ / 110592
  omega

theorem decZ_mod (c : ℕ) : decZ (c % 19683) = decZ c := by
  have key : ∀ w k : ℕ, w * 3 * k = 19683 → 0 < w → digZ (c % 19683) w = digZ c w := by
    intro w k hk hw
    unfold digZ
    have e : c % 19683 / w % 3 = c / w % 3 := by
      rw [← hk, mul_assoc, Nat.mod_mul_right_div_self, Nat.mod_mul_right_mod]
    rw [e]
  unfold decZ
  rw [key 6561 1 rfl (by norm_num), key 2187 3 rfl (by norm_num), key 729 9 rfl (by norm_num), key 243 27 rfl (by norm_num),
    key 81 81 rfl (by norm_num), key 27 243 rfl (by norm_num), key 9 729 rfl (by norm_num), key 3 2187 rfl (by norm_num),
    key 1 6561 rfl (by norm_num)]

/-- the orbit of a point under the operations of an entry. -/
def orbitOf (e : ℕ × List ℕ) (w : Vec3 ℤ) : List ℕ := (groupZ e).map fun a => keyW (a.1 * w + fourZ a.2)

/-- what the check says about the two orbits. -/
structure Orbits (b : BravaisType) (e : ℕ × List ℕ) (A B : List ℕ) (w₀ : Vec3 ℤ) : Prop where
  start : keyW w₀ ∈ A
  nodup : (A ++ B).Nodup
  valid : ∀ k ∈ A ++ B, ∃ w, k = keyW w
  size : (A ++ B).length = 2 * (groupZ e).length
  keeps : ∀ a ∈ groupZ e, (∀ w, keyW w ∈ A → keyW (a.1 * w + fourZ a.2) ∈ A) ∧ ∀ w, keyW w ∈ B → keyW (a.1 * w + fourZ a.2) ∈ B
  primitive : ∀ a ∈ groupZ e, a.1 = 1 → a.2.x ≡ 0 [ZMOD 12] ∧ a.2.y ≡ 0 [ZMOD 12] ∧ a.2.z ≡ 0 [ZMOD 12]
  only : ∀ c ∈ holoCodes b, ∀ t : Vec3 ℤ, (∀ w, keyW w ∈ A → keyW (decZ c * w + t) ∈ A) → (∀ w, keyW w ∈ B → keyW (decZ c * w + t) ∈ B) →
    ∃ a ∈ groupZ e, a.1 = decZ c ∧ keyW t = keyW (fourZ a.2)

theorem keepsN_iff {A B : List ℕ} (hv : ∀ k ∈ A ++ B, ∃ w, k = keyW w) (W : Mat3 ℤ) (t : Vec3 ℤ) : keepsN A B (toM W t) = true ↔
    (∀ w, keyW w ∈ A → keyW (W * w + t) ∈ A) ∧ ∀ w, keyW w ∈ B → keyW (W * w + t) ∈ B := by
  unfold keepsN
  rw [Bool.and_eq_true, allR_iff, allR_iff]
  simp only [memN_iff]
  refine and_congr ⟨fun h w hw => ?_, fun h k hk => ?_⟩ ⟨fun h w hw => ?_, fun h k hk => ?_⟩
  · rw [← actN_toM]
    exact h _ hw
  · obtain ⟨w, rfl⟩ := hv k (List.mem_append_left _ hk)
    rw [actN_toM]
    exact h _ hk
  · rw [← actN_toM]
    exact h _ hw
  · obtain ⟨w, rfl⟩ := hv k (List.mem_append_right _ hk)
    rw [actN_toM]
    exact h _ hk

theorem orbits_of_check {b : BravaisType} {e : ℕ × List ℕ} {w₀ w₁ : Vec3 ℤ} (h : orbitCheck (keyW w₀) (keyW w₁) b e = true) :
    Orbits b e (orbitOf e w₀) (orbitOf e w₁) w₀ := by
  have hops : (groupN e).map fourN = (groupZ e).map fun a => toM a.1 (fourZ a.2) := by
    rw [groupN_eq, List.map_map]
    exact List.map_congr_left fun a _ => fourN_toN a
  have horb : ∀ w, (((groupZ e).map fun a => toM a.1 (fourZ a.2)).map fun o => actN o (keyW w)) = orbitOf e w := by
    intro w
    rw [List.map_map]
    exact List.map_congr_left fun a _ => actN_toM _ _ _
  unfold orbitCheck at h
  rw [hops, forceOps_eq, forceN_eq, forceN_eq, forceN_eq, horb, horb] at h
  simp only [Bool.and_eq_true, memN_iff, nodupN_iff, allR_iff, List.forall_mem_map, forceOp_eq] at h
  obtain ⟨h1, h1', h2, h3, h4, h5⟩ := h
  have hv : ∀ k ∈ orbitOf e w₀ ++ orbitOf e w₁, ∃ w, k = keyW w := by
    intro k hk
    rcases List.mem_append.1 hk with hk | hk
    all_goals
      obtain ⟨a, -, rfl⟩ := List.mem_map.1 hk
      exact ⟨_, rfl⟩
  refine ⟨h1, h2, hv, ?_, ?_, ?_, ?_⟩
  · simp [orbitOf]
    omega
  · intro a ha
    exact (keepsN_iff hv _ _).1 (h3 a ha)
  · intro a ha h
    have := h4 a ha
    rw [h, idN_one] at this
    simp only [Bool.not_true, Bool.false_or, Bool.and_eq_true, Nat.beq_eq] at this
    obtain ⟨⟨e1, e2⟩, e3⟩ := this
    have key : ∀ x : ℤ, remN 48 (4 * x) = 0 → x ≡ 0 [ZMOD 12] := by
      intro x hx
      have : 4 * x % 48 = 0 % 48 := modEq_of_remN (m := 48) (by norm_num) (hx.trans (by rfl))
      show x % 12 = 0 % 12
      omega
    exact ⟨key _ e1, key _ e2, key _ e3⟩
  · intro c hc t hA hB
    have h6 := h5 c hc _ (hA _ h1)
    rw [opN_eq, viaN_toN, show (opZ false c).1 = decZ c from decZ_mod c, add_sub_cancel_left, actN_toM, (memN_iff _ _).2 (hB _ h1'), Bool.not_true,
      Bool.false_or] at h6
    rw [Bool.or_eq_true, memN_iff, (keepsN_iff hv _ _).2 ⟨hA, hB⟩] at h6
    simp only [Bool.not_true, Bool.false_eq_true, or_false] at h6
    rw [List.map_map] at h6
    obtain ⟨a, ha, hk⟩ := List.mem_map.1 h6
    have hk := keyN_toM hk
    refine ⟨a, ha, ?_, ?_⟩
    · have m48 : ∀ {x y : ℤ}, remN 48 x = remN 48 y → x ≡ y [ZMOD 48] := fun h => modEq_of_remN (by norm_num) h
      obtain ⟨⟨e1, e2, e3⟩, ⟨e4, e5, e6⟩, e7, e8, e9⟩ := groupZ_entries ha
      obtain ⟨⟨f1, f2, f3⟩, ⟨f4, f5, f6⟩, f7, f8, f9⟩ := decZ_entries c
      unfold toM at hk
      injection hk with k1 k2 k3 k4 k5 k6 k7 k8 k9 k10 k11 k12
      have l : ∀ {x : ℤ}, |x| ≤ 1 → |x| ≤ 18 := fun h => h.trans (by norm_num)
      exact Mat3.ext (eq_of_mod (m48 k1) (l e1) f1) (eq_of_mod (m48 k2) (l e2) f2) (eq_of_mod (m48 k3) (l e3) f3)
        (eq_of_mod (m48 k4) (l e4) f4) (eq_of_mod (m48 k5) (l e5) f5) (eq_of_mod (m48 k6) (l e6) f6) (eq_of_mod (m48 k7) (l e7) f7)
        (eq_of_mod (m48 k8) (l e8) f8) (eq_of_mod (m48 k9) (l e9) f9)
    · unfold toM at hk
      injection hk with k1 k2 k3 k4 k5 k6 k7 k8 k9 k10 k11 k12
      unfold keyW
      rw [k10, k11, k12]

set_option maxRecDepth 100000 in
theorem orbits_low : (orbitsOk .aP 1 230 && orbitsOk .mP 1 230 && orbitsOk .mC 1 230 && orbitsOk .oP 1 230 && orbitsOk .oC 1 230 && orbitsOk .oI 1 230 && orbitsOk .oF 1 230) = true := by decide +kernel

set_option maxRecDepth 100000 in
theorem orbits_tP1 : orbitsOk .tP 1 130 = true := by decide +kernel

set_option maxRecDepth 100000 in
theorem orbits_tP2 : orbitsOk .tP 131 230 = true := by decide +kernel

set_option maxRecDepth 100000 in
theorem orbits_tI : orbitsOk .tI 1 230 = true := by decide +kernel

set_option maxRecDepth 100000 in
theorem orbits_hP1 : orbitsOk .hP 1 190 = true := by decide +kernel

set_option maxRecDepth 100000 in
theorem orbits_hP2 : orbitsOk .hP 191 230 = true := by decide +kernel

set_option maxRecDepth 100000 in
theorem orbits_cP1 : orbitsOk .cP 1 220 = true := by decide +kernel

set_option maxRecDepth 100000 in
theorem orbits_cP2 : orbitsOk .cP 221 222 = true := by decide +kernel

set_option maxRecDepth 100000 in
theorem orbits_cP3 : orbitsOk .cP 223 230 = true := by decide +kernel

set_option maxRecDepth 100000 in
theorem orbits_cI : orbitsOk .cI 1 230 = true := by decide +kernel

set_option maxRecDepth 100000 in
theorem orbits_cF1 : orbitsOk .cF 1 224 = true := by decide +kernel

set_option maxRecDepth 100000 in
theorem orbits_cF2 : orbitsOk .cF 225 226 = true := by decide +kernel

set_option maxRecDepth 100000 in
theorem orbits_cF3 : orbitsOk .cF 227 230 = true := by decide +kernel

end CrystSymm
