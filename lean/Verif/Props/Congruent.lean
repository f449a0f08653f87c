import Verif.Props.Settings
import Verif.Proofs.Origins

set_option autoImplicit false
set_option linter.unusedSectionVars false

/-! # C80: copies of a crystal, moved, turned and reflected -/

namespace CrystSymm

open Spec Reducer SymmetryAnalyzer NiggliCert PointGroup

theorem transpose_mul' (A B : Mat3 ℝ) : (A * B).transpose = B.transpose * A.transpose := by
  ext <;> simp [Mat3.transpose] <;> ring

/-- the inverse isometry. -/
theorem carries_symm {Q : Mat3 ℝ} (hQ : Orthogonal Q) {t : Vec3 ℝ} {s s' : Structure ℝ} (h : Carries Q t s s') :
    Carries Q.transpose (0 - Q.transpose * t) s' s := by
  intro e x
  rw [h e (Q.transpose * x + (0 - Q.transpose * t))]
  have : Q * (Q.transpose * x + (0 - Q.transpose * t)) + t = x := by
    rw [Mat3.mulVec_add, Mat3.mulVec_sub, ← Mat3.mul_mulVec, ← Mat3.mul_mulVec, orthogonal_right hQ, Mat3.one_mulVec, Mat3.one_mulVec,
      Mat3.mulVec_zero]
    abel
  rw [this]

/-- the symmetries of the copy. -/
theorem symmetry_carried {Q : Mat3 ℝ} (hQ : Orthogonal Q) {t : Vec3 ℝ} {s s' : Structure ℝ} (h : Carries Q t s s') {R : Mat3 ℝ}
    {u : Vec3 ℝ} (hs : CrystalSymmetry s R u) :
    CrystalSymmetry s' (Q * R * Q.transpose) (Q * u + t - Q * R * Q.transpose * t) := by
  obtain ⟨hR, hs⟩ := hs
  refine ⟨?_, fun e x => ?_⟩
  · show (Q * R * Q.transpose).transpose * (Q * R * Q.transpose) = 1
    have e : (Q * R * Q.transpose).transpose * (Q * R * Q.transpose) =
        Q * (R.transpose * (Q.transpose * Q) * R) * Q.transpose := by
      rw [transpose_mul', transpose_mul', show Q.transpose.transpose = Q from rfl]
      simp only [mul_assoc]
    rw [e, show Q.transpose * Q = 1 from hQ, mul_one, show R.transpose * R = 1 from hR, mul_one]
    exact orthogonal_right hQ
  · have hinv : x = Q * (Q.transpose * (x - t)) + t := by
      rw [← Mat3.mul_mulVec, orthogonal_right hQ, Mat3.one_mulVec]; abel
    have h1 := h e (Q.transpose * (x - t))
    rw [← hinv] at h1
    rw [← h1, hs, h]
    have : Q * (R * (Q.transpose * (x - t)) + u) + t = Q * R * Q.transpose * x + (Q * u + t - Q * R * Q.transpose * t) := by
      rw [Mat3.mulVec_add, ← Mat3.mul_mulVec, ← Mat3.mul_mulVec, Mat3.mulVec_sub]
      abel
    rw [this]

theorem carries_congr {Q : Mat3 ℝ} {t : Vec3 ℝ} {s s' r r' : Structure ℝ} (h : Carries Q t s s') (hs : SameAtoms s r)
    (hs' : SameAtoms s' r') : Carries Q t r r' := fun e x => (hs e x).symm.trans ((h e x).trans (hs' e _))

/-- the lattice of the copy. -/
theorem lattice_carried {Q : Mat3 ℝ} (hQ : Orthogonal Q) {t : Vec3 ℝ} {s s' : Structure ℝ} (h : Carries Q t s s')
    (hp : PrimitiveCell s) (hp' : PrimitiveCell s') : SameLattice (Q * s.lattice) s'.lattice := by
  have key : ∀ {Q : Mat3 ℝ} {t : Vec3 ℝ} {s s' : Structure ℝ}, Orthogonal Q → Carries Q t s s' → PrimitiveCell s' →
      ∀ n : Vec3 ℝ, IntVec n → ∃ k : Vec3 ℝ, IntVec k ∧ Q * (s.lattice * n) = s'.lattice * k := by
    intro Q t s s' hQ h hp' n hn
    refine hp' _ fun e x hx => ?_
    have hinv : x = Q * (Q.transpose * (x - t)) + t := by
      rw [← Mat3.mul_mulVec, orthogonal_right hQ, Mat3.one_mulVec]; abel
    rw [hinv] at hx
    have h1 := (h e _).1 (atomAt_add ((h e _).2 hx) hn)
    have e1 : Q * (Q.transpose * (x - t) + s.lattice * n) + t = x + Q * (s.lattice * n) := by
      rw [Mat3.mulVec_add, ← Mat3.mul_mulVec, orthogonal_right hQ, Mat3.one_mulVec]; abel
    rwa [e1] at h1
  intro v
  constructor
  · rintro ⟨n, hn, rfl⟩
    obtain ⟨k, hk, e⟩ := key hQ h hp' n hn
    exact ⟨k, hk, by rw [Mat3.mul_mulVec, e]⟩
  · rintro ⟨n, hn, rfl⟩
    obtain ⟨k, hk, e⟩ := key (Q := Q.transpose) (orthogonal_right hQ) (carries_symm hQ h) hp n hn
    refine ⟨k, hk, ?_⟩
    rw [Mat3.mul_mulVec, ← e, ← Mat3.mul_mulVec, orthogonal_right hQ, Mat3.one_mulVec]

/-- the negative of a matrix. -/
def flipM (Q : Mat3 ℝ) : Mat3 ℝ := Q.map fun x => -x

theorem flipM_mulVec (Q : Mat3 ℝ) (v : Vec3 ℝ) : flipM Q * v = 0 - Q * v := by
  ext <;> simp [flipM, Mat3.map] <;> ring

/-- `Q` is the proper rotation `Q₁`, or its negative. -/
structure SignOf (neg : Bool) (Q Q₁ : Mat3 ℝ) : Prop where
  orth : Orthogonal Q₁
  det : Q₁.det = 1
  val : ∀ v : Vec3 ℝ, Q * v = match neg with | true => 0 - Q₁ * v | false => Q₁ * v
  conj : ∀ R : Mat3 ℝ, Q * R * Q.transpose = Q₁ * R * Q₁.transpose

theorem exists_sign {Q : Mat3 ℝ} (hQ : Orthogonal Q) :
    ∃ neg Q₁, SignOf neg Q Q₁ ∧ ∀ n, copyNumber Q n = signNumber neg n := by
  rcases orthogonal_det hQ with h | h
  · exact ⟨false, Q, ⟨hQ, h, fun _ => rfl, fun _ => rfl⟩, fun n => by unfold copyNumber; rw [if_pos h]; rfl⟩
  · refine ⟨true, flipM Q, ⟨?_, ?_, fun v => ?_, fun R => ?_⟩, fun n => ?_⟩
    · unfold Orthogonal at hQ ⊢
      rw [← hQ]
      ext <;> simp [flipM, Mat3.map, Mat3.transpose]
    · have : (flipM Q).det = -Q.det := by unfold flipM Mat3.map Mat3.det; ring
      rw [this, h, neg_neg]
    · show Q * v = 0 - flipM Q * v
      rw [flipM_mulVec]
      abel
    · ext <;> simp [flipM, Mat3.map, Mat3.transpose] <;> ring
    · unfold copyNumber
      rw [if_neg (by rw [h]; norm_num)]
      rfl

theorem SignOf.lattice {neg : Bool} {Q Q₁ : Mat3 ℝ} (hs : SignOf neg Q Q₁) {L L' : Mat3 ℝ} (h : SameLattice (Q * L) L') :
    SameLattice (Q₁ * L) L' := by
  refine sameLattice_trans (fun v => ?_) h
  cases neg with
  | false =>
    have e : ∀ n : Vec3 ℝ, Q * L * n = Q₁ * L * n := fun n => by rw [Mat3.mul_mulVec, Mat3.mul_mulVec, hs.val]
    simp only [e]
  | true =>
    have e : ∀ n : Vec3 ℝ, Q * L * n = Q₁ * L * (0 - n) := fun n => by
      rw [Mat3.mul_mulVec, Mat3.mul_mulVec, hs.val, Mat3.mulVec_sub, Mat3.mulVec_sub, Mat3.mulVec_zero, Mat3.mulVec_zero]
    have hneg : ∀ n : Vec3 ℝ, IntVec n → IntVec (0 - n) := by
      rintro n ⟨i, j, k, rfl⟩
      exact ⟨-i, -j, -k, by ext <;> simp⟩
    constructor
    · rintro ⟨n, hn, rfl⟩
      exact ⟨0 - n, hneg n hn, by rw [e]; congr 1; abel⟩
    · rintro ⟨n, hn, rfl⟩
      exact ⟨0 - n, hneg n hn, by rw [e]⟩

/-- the translation of the inverted operation. -/
theorem signZ_trans (neg : Bool) (a : ZOp) :
    IntVec ((match neg with | true => 0 - (opK ℝ a).translation | false => (opK ℝ a).translation) - (opK ℝ (signZ neg a)).translation) := by
  cases neg with
  | false => exact ⟨0, 0, 0, by simp [signZ]; rfl⟩
  | true =>
    have key : ∀ x : ℤ, 0 - (x : ℝ) / 12 - ((-x % 12 : ℤ) : ℝ) / 12 = ((-x / 12 : ℤ) : ℝ) := by
      intro x
      have h1 : -x = -x % 12 + 12 * (-x / 12) := (Int.emod_add_mul_ediv (-x) 12).symm
      have h2 : (-x : ℝ) = ((-x % 12 : ℤ) : ℝ) + 12 * ((-x / 12 : ℤ) : ℝ) := by exact_mod_cast h1
      linear_combination h2 / 12
    refine ⟨-a.2.x / 12, -a.2.y / 12, -a.2.z / 12, ?_⟩
    ext
    · exact key a.2.x
    · exact key a.2.y
    · exact key a.2.z

/-- the vector or its negative. -/
def signV (neg : Bool) (x : Vec3 ℝ) : Vec3 ℝ := match neg with | true => 0 - x | false => x

theorem signV_signV (neg : Bool) (x : Vec3 ℝ) : signV neg (signV neg x) = x := by
  cases neg
  · rfl
  · show (0 : Vec3 ℝ) - (0 - x) = x
    abel

theorem mul_signV (neg : Bool) (A : Mat3 ℝ) (x : Vec3 ℝ) : A * signV neg x = signV neg (A * x) := by
  cases neg
  · rfl
  · show A * ((0 : Vec3 ℝ) - x) = 0 - A * x
    rw [Mat3.mulVec_sub, Mat3.mulVec_zero]

theorem signV_sub (neg : Bool) (x y : Vec3 ℝ) : signV neg (x - y) = signV neg x - signV neg y := by
  cases neg
  · rfl
  · show (0 : Vec3 ℝ) - (x - y) = 0 - x - (0 - y)
    abel

theorem signV_add (neg : Bool) (x y : Vec3 ℝ) : signV neg (x + y) = signV neg x + signV neg y := by
  cases neg
  · rfl
  · show (0 : Vec3 ℝ) - (x + y) = 0 - x + (0 - y)
    abel

theorem intVec_signV (neg : Bool) {x : Vec3 ℝ} (h : IntVec x) : IntVec (signV neg x) := by
  cases neg
  · exact h
  · obtain ⟨i, j, k, rfl⟩ := h
    exact ⟨-i, -j, -k, by ext <;> simp [signV]⟩

/-- the symmetries of the copy, expressed by those of the crystal. -/
theorem carried_iff {neg : Bool} {Q Q₁ : Mat3 ℝ} (hQ : Orthogonal Q) (hs : SignOf neg Q Q₁) {t : Vec3 ℝ} {s s' : Structure ℝ}
    (hcar : Carries Q t s s') (R : Mat3 ℝ) (u : Vec3 ℝ) :
    CrystalSymmetry s' R u ↔ CrystalSymmetry s (Q₁.transpose * R * Q₁) (signV neg (Q₁.transpose * (u + R * t - t))) := by
  have h1 : Q₁.transpose * Q₁ = 1 := hs.orth
  have h2 : Q₁ * Q₁.transpose = 1 := orthogonal_right hs.orth
  have hQ' : Q.transpose * Q = 1 := hQ
  have hval : ∀ x : Vec3 ℝ, Q * x = signV neg (Q₁ * x) := hs.val
  have e2 : Q₁ * (Q₁.transpose * R * Q₁) * Q₁.transpose = R := by
    rw [mul_assoc Q₁.transpose, ← mul_assoc Q₁, h2, one_mul, mul_assoc, h2, mul_one]
  have e1 := hs.conj (Q₁.transpose * R * Q₁)
  rw [e2] at e1
  have hQt : ∀ x : Vec3 ℝ, Q.transpose * x = signV neg (Q₁.transpose * x) := by
    intro x
    have e1 : x = Q * signV neg (Q₁.transpose * x) := by rw [hval, mul_signV, ← Mat3.mul_mulVec, h2, Mat3.one_mulVec, signV_signV]
    conv_lhs => rw [e1]
    rw [← Mat3.mul_mulVec, hQ', Mat3.one_mulVec]
  constructor
  · intro h
    have h3 := symmetry_carried (Q := Q.transpose) (orthogonal_right hQ) (carries_symm hQ hcar) h
    have e3 : Q.transpose * R * Q.transpose.transpose = Q₁.transpose * R * Q₁ := by
      show Q.transpose * R * Q = _
      conv_lhs => rw [← e1]
      rw [mul_assoc Q, ← mul_assoc Q.transpose Q, hQ', one_mul, mul_assoc, hQ', mul_one]
    rw [e3] at h3
    convert h3 using 1
    have e4 : Q₁.transpose * R * Q₁ * (0 - Q.transpose * t) = 0 - signV neg (Q₁.transpose * (R * t)) := by
      rw [Mat3.mulVec_sub, Mat3.mulVec_zero, hQt, mul_signV, ← Mat3.mul_mulVec, mul_assoc _ Q₁, h2, mul_one, Mat3.mul_mulVec]
    rw [e4, hQt, hQt, Mat3.mulVec_sub, Mat3.mulVec_add, signV_sub, signV_add]
    abel
  · intro h
    have h3 := symmetry_carried hQ hcar h
    rw [e1, hval, mul_signV, signV_signV, ← Mat3.mul_mulVec, h2, Mat3.one_mulVec] at h3
    convert h3 using 1
    abel

theorem mapsLattice_turn {Q R L : Mat3 ℝ} (hQ : Orthogonal Q) (h : MapsLattice R L) : MapsLattice (Q * R * Q.transpose) (Q * L) := by
  intro n hn
  obtain ⟨k, hk, e⟩ := h n hn
  refine ⟨k, hk, ?_⟩
  have e1 : Q * R * Q.transpose * (Q * L) = Q * (R * L) := by
    rw [mul_assoc, ← mul_assoc Q.transpose, show Q.transpose * Q = 1 from hQ, one_mul, mul_assoc]
  rw [← Mat3.mul_mulVec, e1, Mat3.mul_mulVec, Mat3.mul_mulVec, e, Mat3.mul_mulVec]

/-- a turned lattice belongs to the same system. -/
theorem inSystem_turn {Q L : Mat3 ℝ} (hQ : Orthogonal Q) {sys : LatticeSystem} (h : InSystem L sys) : InSystem (Q * L) sys := by
  obtain ⟨l, h1, h2, h3⟩ := h
  have hq : Q.transpose * Q = 1 := hQ
  have hq' := orthogonal_right hQ
  have horth : ∀ {A B : Mat3 ℝ}, Orthogonal A → Orthogonal B → Orthogonal (A * B * A.transpose) := by
    intro A B hA hB
    have e : (A * B * A.transpose).transpose * (A * B * A.transpose) = A * (B.transpose * (A.transpose * A) * B) * A.transpose := by
      rw [transpose_mul', transpose_mul', show A.transpose.transpose = A from rfl]
      simp only [mul_assoc]
    show _ = _
    rw [e, show A.transpose * A = 1 from hA, mul_one, show B.transpose * B = 1 from hB, mul_one]
    exact orthogonal_right hA
  refine ⟨l.map fun R => Q * R * Q.transpose, h1.map ?_, fun R => ?_, by rw [List.length_map, h3]⟩
  · intro A B hAB
    have := congrArg (fun X => Q.transpose * X * Q) hAB
    simp only [← mul_assoc, hq, one_mul] at this
    simpa only [mul_assoc, hq, mul_one] using this
  · rw [List.mem_map]
    constructor
    · rintro ⟨R, hR, rfl⟩
      obtain ⟨k1, k2⟩ := (h2 R).1 hR
      exact ⟨horth hQ k1, mapsLattice_turn hQ k2⟩
    · rintro ⟨k1, k2⟩
      have k3 := mapsLattice_turn (Q := Q.transpose) (orthogonal_right hQ) k2
      rw [← mul_assoc, hq, one_mul] at k3
      refine ⟨_, (h2 _).2 ⟨horth (A := Q.transpose) (orthogonal_right hQ) k1, k3⟩, ?_⟩
      show Q * (Q.transpose * R * Q) * Q.transpose = R
      rw [mul_assoc Q.transpose, ← mul_assoc Q, hq', one_mul, mul_assoc, hq', mul_one]

/-- the symmetries of the copy in the basis of its cell, with `t` the shift of the copy in this basis. -/
theorem group_carried {neg : Bool} {Q Q₁ : Mat3 ℝ} (hQ : Orthogonal Q) (hs : SignOf neg Q Q₁) {P P' : Mat3 ℝ} (hd : P'.det ≠ 0)
    {v : Mat3 ℤ} (hv : v.det = 1) (hP : P' = Q₁ * P * overK ℝ v) {t : Vec3 ℝ} {s s' : Structure ℝ} (hcar : Carries Q (P' * t) s s')
    {e : ℕ × List ℕ} (h : GroupIs s P ((groupZ e).map (opK ℝ))) (R : Mat3 ℝ) (u : Vec3 ℝ) :
    CrystalSymmetry s' R (P' * u) ↔ ∃ a ∈ groupZ e, R * P' = P' * overK ℝ (conjZ v (signZ neg a)).1 ∧
      IntVec (u - ((opK ℝ (conjZ v (signZ neg a))).translation + (t - overK ℝ (conjZ v (signZ neg a)).1 * t))) := by
  have hva : overK ℝ v * overK ℝ v.adj = 1 := by rw [← overK_mul, mul_adj_one hv, overK_one]
  have hav : overK ℝ v.adj * overK ℝ v = 1 := by rw [← overK_mul, adj_mul_one hv, overK_one]
  have hfst : ∀ a : ZOp, overK ℝ (conjZ v (signZ neg a)).1 = overK ℝ v.adj * overK ℝ a.1 * overK ℝ v := by
    intro a
    rw [← overK_mul, ← overK_mul]
    show overK ℝ (v.adj * (signZ neg a).1 * v) = _
    rw [signZ_fst]
  have h1 : Q₁.transpose * Q₁ = 1 := hs.orth
  have h2 : Q₁ * Q₁.transpose = 1 := orthogonal_right hs.orth
  have htr : ∀ a : ZOp, IntVec (overK ℝ v.adj * signV neg (opK ℝ a).translation - (opK ℝ (conjZ v (signZ neg a))).translation) := by
    intro a
    have e1 : IntVec (signV neg (opK ℝ a).translation - (opK ℝ (signZ neg a)).translation) := signZ_trans neg a
    have e2 := intVec_sum (intVec_overZ e1 v.adj) (conjZ_trans v (signZ neg a))
    rw [Mat3.mulVec_sub] at e2
    convert e2 using 1
    abel
  -- the rotation parts
  have hrot : ∀ a : ZOp, Q₁.transpose * R * Q₁ * P = P * overK ℝ a.1 ↔ R * P' = P' * overK ℝ (conjZ v (signZ neg a)).1 := by
    intro a
    have e1 : R * P' = Q₁ * (Q₁.transpose * R * Q₁ * P) * overK ℝ v := by
      rw [hP]
      simp only [← mul_assoc]
      rw [h2, one_mul]
    have e2 : P' * overK ℝ (conjZ v (signZ neg a)).1 = Q₁ * (P * overK ℝ a.1) * overK ℝ v := by
      rw [hP, hfst]
      simp only [← mul_assoc]
      rw [mul_assoc (Q₁ * P), hva, mul_one]
    rw [e1, e2]
    constructor
    · intro h
      rw [h]
    · intro h
      have := congrArg (fun X => Q₁.transpose * (X * overK ℝ v.adj)) h
      simp only [mul_assoc _ (overK ℝ v) (overK ℝ v.adj), hva, mul_one] at this
      rwa [← mul_assoc, ← mul_assoc Q₁.transpose, h1, one_mul, one_mul] at this
  -- the translation parts
  set z := P'.adjDiv P'.det * (R * (P' * t)) with hz
  have hz' : P' * z = R * (P' * t) := by
    rw [hz, ← Mat3.mul_mulVec, Mat3.mul_adjDiv hd, Mat3.one_mulVec]
  have hzR : ∀ a : ZOp, R * P' = P' * overK ℝ (conjZ v (signZ neg a)).1 → z = overK ℝ (conjZ v (signZ neg a)).1 * t := by
    intro a ha
    rw [hz, ← Mat3.mul_mulVec R, ha, Mat3.mul_mulVec, ← Mat3.mul_mulVec, Mat3.adjDiv_mul hd, Mat3.one_mulVec]
  have htl : signV neg (Q₁.transpose * (P' * u + R * (P' * t) - P' * t)) = P * signV neg (overK ℝ v * (u + z - t)) := by
    rw [← hz', ← Mat3.mulVec_add, ← Mat3.mulVec_sub, ← Mat3.mul_mulVec, hP, ← mul_assoc, ← mul_assoc, h1, one_mul, Mat3.mul_mulVec, mul_signV]
  rw [carried_iff hQ hs hcar, htl, h]
  constructor
  · rintro ⟨o, ho, k1, k2⟩
    obtain ⟨a, ha, rfl⟩ := List.mem_map.1 ho
    rw [castRot_overK, show (opK ℝ a).rotation = rotZ a from rfl, intRot_rotZ (groupZ_range a ha)] at k1
    have k3 := (hrot a).1 k1
    refine ⟨a, ha, k3, ?_⟩
    have k4 := intVec_sum (intVec_overZ (intVec_signV neg k2) v.adj) (htr a)
    rw [signV_sub, signV_signV, Mat3.mulVec_sub, ← Mat3.mul_mulVec, hav, Mat3.one_mulVec] at k4
    rw [← hzR a k3]
    convert k4 using 1
    abel
  · rintro ⟨a, ha, k3, k4⟩
    refine ⟨_, List.mem_map.2 ⟨a, ha, rfl⟩, ?_, ?_⟩
    · rw [castRot_overK, show (opK ℝ a).rotation = rotZ a from rfl, intRot_rotZ (groupZ_range a ha)]
      exact (hrot a).2 k3
    · rw [← hzR a k3] at k4
      have k5 := intVec_sum k4 (intVec_neg (htr a))
      have k6 := intVec_signV neg (intVec_overZ k5 v)
      convert k6 using 1
      have e1 : (opK ℝ a).translation = signV neg (overK ℝ v * (overK ℝ v.adj * signV neg (opK ℝ a).translation)) := by
        rw [← Mat3.mul_mulVec, hva, Mat3.one_mulVec, signV_signV]
      conv_lhs => rw [e1]
      rw [← signV_sub, ← Mat3.mulVec_sub]
      congr 2
      abel

/-- the tables of a crystal and its copy are related. -/
theorem shiftRelated_of_groups {neg : Bool} {Q Q₁ : Mat3 ℝ} (hQ : Orthogonal Q) (hs : SignOf neg Q Q₁) {P P' : Mat3 ℝ} (hd : P'.det ≠ 0)
    {v : Mat3 ℤ} (hv : v.det = 1) (hP : P' = Q₁ * P * overK ℝ v) {t : Vec3 ℝ} {s s' : Structure ℝ} (hcar : Carries Q (P' * t) s s')
    {e e' : ℕ × List ℕ} (h : GroupIs s P ((groupZ e).map (opK ℝ))) (h' : GroupIs s' P' ((groupZ e').map (opK ℝ))) :
    ShiftRelated v t ((groupZ e).map (signZ neg)) (groupZ e') := by
  intro b hb
  obtain ⟨a, ha, rfl⟩ := List.mem_map.1 hb
  set c := conjZ v (signZ neg a) with hc
  have h1 := (group_carried hQ hs hd hv hP hcar h (P' * overK ℝ c.1 * P'.adjDiv P'.det)
    ((opK ℝ c).translation + (t - overK ℝ c.1 * t))).2 ⟨a, ha, by rw [mul_assoc, Mat3.adjDiv_mul hd, mul_one], by
      rw [← hc, sub_self]; exact intVec_zero⟩
  obtain ⟨o, ho, k1, k2⟩ := (h' _ _).1 h1
  obtain ⟨a', ha', rfl⟩ := List.mem_map.1 ho
  rw [mul_assoc, Mat3.adjDiv_mul hd, mul_one, castRot_overK, show (opK ℝ a').rotation = rotZ a' from rfl,
    intRot_rotZ (groupZ_range a' ha')] at k1
  have e1 : c.1 = a'.1 := overK_injective (mat_mul_injective hd k1)
  exact ⟨a', ha', e1.symm, by rw [← e1]; exact k2⟩

/-- two related tables, in a basis of the same determinant: the second one is at least as long. -/
theorem shift_length {neg : Bool} {e e' : ℕ × List ℕ} {v : Mat3 ℤ} {t : Vec3 ℝ} (hv : v.det = 1) (hn : ((groupZ e).map Prod.fst).Nodup)
    (h : ShiftRelated v t ((groupZ e).map (signZ neg)) (groupZ e')) : (groupZ e).length ≤ (groupZ e').length := by
  have hinj : Function.Injective fun W : Mat3 ℤ => v.adj * W * v := by
    intro W W' hW
    have := congrArg (fun X => v * X * v.adj) hW
    simpa only [← mul_assoc, mul_adj_one hv, one_mul, mul_assoc _ v v.adj, mul_one] using this
  have h1 := (hn.map hinj).subperm (l₂ := (groupZ e').map Prod.fst) (by
    intro W hW
    obtain ⟨W', hW', rfl⟩ := List.mem_map.1 hW
    obtain ⟨a, ha, rfl⟩ := List.mem_map.1 hW'
    obtain ⟨a', ha', e1, -⟩ := h _ (List.mem_map.2 ⟨a, ha, rfl⟩)
    refine List.mem_map.2 ⟨a', ha', ?_⟩
    rw [e1]
    show v.adj * (signZ neg a).1 * v = _
    rw [signZ_fst])
  simpa using h1.length_le

/-- **C80 (the number).** A crystal `s` and a copy `s'` of it, obtained by any isometry of space: a shift of the origin, a rotation, a
reflection, or a combination of these.  The two may be given by different cells, with the atoms in different orders, and analysed with
different tolerances and hash orders.  If both descriptions are clean and `get_space_group_info` returns for both of them, the number
of the copy is that of the crystal when the isometry keeps right hands right, and otherwise that of the mirror image. -/
theorem C80_copy_number (sa sa' : SymmetryAnalyzer ℝ) (h h' : HashOrders ℝ) (hv : h.Valid) (hv' : h'.Valid) (f f' : ℕ)
    (s s' ref ref' : Structure ℝ) (hc : CleanCrystal sa h s ref) (hc' : CleanCrystal sa' h' s' ref') (Q : Mat3 ℝ) (t : Vec3 ℝ)
    (hQ : Orthogonal Q) (hcar : Carries Q t s s') (num num' : ℕ) (sym sym' : String) (ops ops' : List (SymmOp ℝ))
    (hr : sa.getSpaceGroupInfo h f s = .ret (num, sym, ops)) (hr' : sa'.getSpaceGroupInfo h' f' s' = .ret (num', sym', ops')) :
    num' = copyNumber Q num ∧ (Q.det = 1 → sym' = sym) := by
  obtain ⟨p, -, -, -, -, hp, -, -, hsym, -⟩ := group_of_cell sa h hv f s ref hc.clean hc.found hc.size hc.clear hc.resolved hc.grid num sym ops hr
  obtain ⟨p', -, -, -, -, hp', -, -, hsym', -⟩ := group_of_cell sa' h' hv' f' s' ref' hc'.clean hc'.found hc'.size hc'.clear hc'.resolved
    hc'.grid num' sym' ops' hr'
  obtain ⟨hgood, sys, n, codes, table, hR, hsys, hent, htab, hg⟩ := (reported_iff_of_cell sa h hv f s ref p hc.clean hc.found hc.same
    hc.nonsing hc.index hc.size hc.clear hc.resolved hc.grid hc.long hc.small hp num).1 ⟨f, sym, ops, hr⟩
  obtain ⟨hgood', sys', n', codes', table', hR', hsys', hent', htab', hg'⟩ := (reported_iff_of_cell sa' h' hv' f' s' ref' p' hc'.clean
    hc'.found hc'.same hc'.nonsing hc'.index hc'.size hc'.clear hc'.resolved hc'.grid hc'.long hc'.small hp' num').1 ⟨f', sym', ops', hr'⟩
  rw [tableOps_eq htab] at hg
  rw [tableOps_eq htab'] at hg'
  -- one direction
  have key : ∀ {sa sa' : SymmetryAnalyzer ℝ} {h h' : HashOrders ℝ} {f f' : ℕ} {s s' ref ref' p p' : Structure ℝ} {Q : Mat3 ℝ} {t : Vec3 ℝ}
      {e e' : ℕ × List ℕ} {neg : Bool} {Q₁ : Mat3 ℝ}, h.Valid → h'.Valid → CleanCrystal sa h s ref → CleanCrystal sa' h' s' ref' →
      Orthogonal Q → Carries Q t s s' → sa.getStandardPrimitiveStructure h f s = .ret p →
      sa'.getStandardPrimitiveStructure h' f' s' = .ret p' → GroupIs s p.lattice ((groupZ e).map (opK ℝ)) →
      GroupIs s' p'.lattice ((groupZ e').map (opK ℝ)) → SignOf neg Q Q₁ →
      ∃ (b : BravaisType) (c : ℕ) (t' : Vec3 ℝ), c ∈ holoCodes b ∧ (decZ c).det = 1 ∧
        ShiftRelated (decZ c) t' ((groupZ e).map (signZ neg)) (groupZ e') ∧
        (∀ o ∈ groupZ e, ∃ c ∈ holoCodes b, o.1 = decZ c) ∧ (∀ o ∈ groupZ e', ∃ c ∈ holoCodes b, o.1 = decZ c) ∧
        (∀ sys, sys ≠ .Rhombohedral → InSystem ref.lattice sys → b.latticeSystem? = some sys) ∧
        (∀ sys, sys ≠ .Rhombohedral → InSystem ref'.lattice sys → b.latticeSystem? = some sys) := by
    intro sa sa' h h' f f' s s' ref ref' p p' Q t e e' neg Q₁ hv hv' hc hc' hQ hcar hp hp' hg hg' hs
    have hlr := hs.lattice (lattice_carried hQ (carries_congr hcar hc.same hc'.same) (clean_primitiveCell hc.clean)
      (clean_primitiveCell hc'.clean))
    obtain ⟨b, c, hcb, hcd, hlat, pdet, hsp, hprim, pdet', hsp', hprim', hcode, hcode', -, hsy, hsy'⟩ :=
      settings_turned hv hv' hc hc' hs.orth hs.det hlr hp hp'
    have ht : t = p'.lattice * (p'.lattice.adjDiv p'.lattice.det * t) := by
      rw [← Mat3.mul_mulVec, Mat3.mul_adjDiv pdet', Mat3.one_mulVec]
    rw [ht] at hcar
    exact ⟨b, c, _, hcb, hcd, shiftRelated_of_groups hQ hs pdet' hcd hlat hcar hg hg', rotations_in_holo hsp hprim pdet hcode hg,
      rotations_in_holo hsp' hprim' pdet' hcode' hg', hsy, hsy'⟩
  obtain ⟨neg, Q₁, hs, hnum⟩ := exists_sign hQ
  obtain ⟨neg', Q₁', hs', -⟩ := exists_sign (Q := Q.transpose) (orthogonal_right hQ)
  obtain ⟨b, c, t', hcb, hcd, c1, hrot, hrot', hsy, hsy'⟩ := key hv hv' hc hc' hQ hcar hp hp' hg hg' hs
  obtain ⟨b', c', t'', hcb', hcd', c2, _⟩ := key hv' hv hc' hc (Q := Q.transpose) (orthogonal_right hQ) (carries_symm hQ hcar) hp' hp hg' hg hs'
  have hb := hsy sys hR hsys
  have hb' := hsy' sys' hR' hsys'
  rw [hb] at hb'
  cases hb'
  have hlen := le_antisymm (shift_length hcd (entry_nodup hent) c1) (shift_length hcd' (entry_nodup hent') c2)
  rw [entry_length hent, entry_length hent'] at hlen
  subst hlen
  have hres := tables_congruent neg hb hent hent' hrot hrot' hgood hgood' hcb hcd c1
  refine ⟨by rw [hnum]; exact hres, fun hd => ?_⟩
  have : num' = num := by
    rw [hres, ← hnum]
    unfold copyNumber
    rw [if_pos hd]
  subst this
  rw [hsym] at hsym'
  exact (Option.some.inj hsym').symm

/-- the three origins, in the basis of the cell. -/
noncomputable def goodOrigins : List (Vec3 ℝ) := [⟨0, 0, 0⟩, ⟨1 / 4, 1 / 4, 1 / 4⟩, ⟨1 / 4, 3 / 4, 1 / 2⟩]

theorem goodOrigins_eq : goodOrigins = origins.map fun w => ⟨(w.x : ℝ) / 12, (w.y : ℝ) / 12, (w.z : ℝ) / 12⟩ := by
  unfold goodOrigins origins
  simp only [List.map_cons, List.map_nil, List.cons.injEq, and_true]
  refine ⟨?_, ?_, ?_⟩ <;> ext <;> norm_num

/-- the translation of the operation with the origin shifted. -/
theorem shiftZ_trans (w : Vec3 ℤ) (a : ZOp) :
    IntVec ((opK ℝ a).translation + ((⟨(w.x : ℝ) / 12, (w.y : ℝ) / 12, (w.z : ℝ) / 12⟩ : Vec3 ℝ) -
      overK ℝ a.1 * (⟨(w.x : ℝ) / 12, (w.y : ℝ) / 12, (w.z : ℝ) / 12⟩ : Vec3 ℝ)) - (opK ℝ (shiftZ w a)).translation) := by
  have key : ∀ x : ℤ, (x : ℝ) / 12 - ((x % 12 : ℤ) : ℝ) / 12 = ((x / 12 : ℤ) : ℝ) := by
    intro x
    have h1 : x = x % 12 + 12 * (x / 12) := (Int.emod_add_mul_ediv x 12).symm
    have h2 : (x : ℝ) = ((x % 12 : ℤ) : ℝ) + 12 * ((x / 12 : ℤ) : ℝ) := by exact_mod_cast h1
    rw [h2]
    ring
  refine ⟨(a.2 + w - a.1 * w).x / 12, (a.2 + w - a.1 * w).y / 12, (a.2 + w - a.1 * w).z / 12, ?_⟩
  ext
  · refine Eq.trans ?_ (key (a.2 + w - a.1 * w).x)
    simp only [opK, shiftZ, Vec3.map, overK, Mat3.map, Vec3.sub_x, Vec3.add_x, Mat3.mulVec_x]
    push_cast
    ring
  · refine Eq.trans ?_ (key (a.2 + w - a.1 * w).y)
    simp only [opK, shiftZ, Vec3.map, overK, Mat3.map, Vec3.sub_y, Vec3.add_y, Mat3.mulVec_y]
    push_cast
    ring
  · refine Eq.trans ?_ (key (a.2 + w - a.1 * w).z)
    simp only [opK, shiftZ, Vec3.map, overK, Mat3.map, Vec3.sub_z, Vec3.add_z, Mat3.mulVec_z]
    push_cast
    ring

/-- **C80 (the origin).** If `get_space_group_info` reports the group `num` for the crystal `s`, then it finds the group of every copy
of `s`, turned or reflected by `Q`, at one of three origins: for every cell `P` there is one of `goodOrigins` such that whenever the copy
is shifted by this vector of the cell `P` (or differs from it by a lattice vector), is clean, and has the standard primitive cell `P`,
then the number of the copy is reported for it. -/
theorem C80_copy_origin (sa : SymmetryAnalyzer ℝ) (h : HashOrders ℝ) (hv : h.Valid) (f : ℕ) (s ref : Structure ℝ)
    (hc : CleanCrystal sa h s ref) (num : ℕ) (sym : String) (ops : List (SymmOp ℝ))
    (hr : sa.getSpaceGroupInfo h f s = .ret (num, sym, ops)) (Q : Mat3 ℝ) (hQ : Orthogonal Q) (P : Mat3 ℝ) :
    ∃ w ∈ goodOrigins, ∀ (sa' : SymmetryAnalyzer ℝ) (h' : HashOrders ℝ) (f' : ℕ) (s' ref' p' : Structure ℝ) (n : Vec3 ℝ), h'.Valid →
      CleanCrystal sa' h' s' ref' → IntVec n → Carries Q (P * (w + n)) s s' → sa'.getStandardPrimitiveStructure h' f' s' = .ret p' →
      p'.lattice = P → ∃ (sym' : String) (ops' : List (SymmOp ℝ)) (N : ℕ),
        ∀ fuel ≥ N, sa'.getSpaceGroupInfo h' fuel s' = .ret (copyNumber Q num, sym', ops') := by
  obtain ⟨p, -, -, -, -, hp, -, -, hsym, -⟩ := group_of_cell sa h hv f s ref hc.clean hc.found hc.size hc.clear hc.resolved hc.grid num sym ops hr
  obtain ⟨hgood, sys, n, codes, table, hR, hsys, hent, htab, hg⟩ := (reported_iff_of_cell sa h hv f s ref p hc.clean hc.found hc.same
    hc.nonsing hc.index hc.size hc.clear hc.resolved hc.grid hc.long hc.small hp num).1 ⟨f, sym, ops, hr⟩
  rw [tableOps_eq htab] at hg
  obtain ⟨neg, Q₁, hs, hnum⟩ := exists_sign hQ
  -- what the cell of a copy tells
  have key : ∀ (sa' : SymmetryAnalyzer ℝ) (h' : HashOrders ℝ) (f' : ℕ) (s' ref' p' : Structure ℝ) (t : Vec3 ℝ), h'.Valid →
      CleanCrystal sa' h' s' ref' → Carries Q t s s' → sa'.getStandardPrimitiveStructure h' f' s' = .ret p' →
      SameLattice (Q₁ * ref.lattice) ref'.lattice ∧ p'.lattice.det ≠ 0 ∧ ∃ (b : BravaisType) (c : ℕ), c ∈ holoCodes b ∧ (decZ c).det = 1 ∧
        p'.lattice = Q₁ * p.lattice * overK ℝ (decZ c) ∧ b.latticeSystem? = some sys ∧
        (∀ o ∈ groupZ (num, codes), ∃ c ∈ holoCodes b, o.1 = decZ c) := by
    intro sa' h' f' s' ref' p' t hv' hc' hcar hp'
    have hlr := hs.lattice (lattice_carried hQ (carries_congr hcar hc.same hc'.same) (clean_primitiveCell hc.clean)
      (clean_primitiveCell hc'.clean))
    obtain ⟨b, c, hcb, hcd, hlat, pdet, hsp, hprim, pdet', hsp', hprim', hcode, hcode', -, hsy, hsy'⟩ :=
      settings_turned hv hv' hc hc' hs.orth hs.det hlr hp hp'
    exact ⟨hlr, pdet', b, c, hcb, hcd, hlat, hsy sys hR hsys, rotations_in_holo hsp hprim pdet hcode hg⟩
  by_cases hex : ∃ (b : BravaisType) (c : ℕ), c ∈ holoCodes b ∧ (decZ c).det = 1 ∧ P = Q₁ * p.lattice * overK ℝ (decZ c) ∧
      b.latticeSystem? = some sys ∧ (∀ o ∈ groupZ (num, codes), ∃ c ∈ holoCodes b, o.1 = decZ c)
  · obtain ⟨b, c, hcb, hcd, hP, hb, hrot⟩ := hex
    obtain ⟨codes', hent', hgood', w, hw, hmem⟩ := table_moved neg hb hent hrot hgood hcb hcd
    refine ⟨⟨(w.x : ℝ) / 12, (w.y : ℝ) / 12, (w.z : ℝ) / 12⟩, by rw [goodOrigins_eq]; exact List.mem_map.2 ⟨w, hw, rfl⟩, ?_⟩
    intro sa' h' f' s' ref' p' m hv' hc' hm hcar hp' hpP
    obtain ⟨hlr, pdet', -⟩ := key sa' h' f' s' ref' p' _ hv' hc' hcar hp'
    obtain ⟨table', htab', -⟩ := C39_tables_are_groups (K := ℝ) _ _ _ _ hent'
    have hte := tableOps_eq htab'
    -- the image of the first table is the second table
    set g : ZOp → ZOp := fun a => shiftZ w (conjZ (decZ c) (signZ neg a)) with hgd
    have hg1 : ∀ a : ZOp, (g a).1 = (decZ c).adj * a.1 * decZ c := by
      intro a
      show (decZ c).adj * (signZ neg a).1 * decZ c = _
      rw [signZ_fst]
    have hinj : Function.Injective fun W : Mat3 ℤ => (decZ c).adj * W * decZ c := by
      intro W W' hW
      have := congrArg (fun X => decZ c * X * (decZ c).adj) hW
      simpa only [← mul_assoc, mul_adj_one hcd, one_mul, mul_assoc _ (decZ c) (decZ c).adj, mul_one] using this
    have hnd : ((groupZ (num, codes)).map g).Nodup := by
      have h1 := (entry_nodup hent).map hinj
      rw [List.map_map, show (fun W : Mat3 ℤ => (decZ c).adj * W * decZ c) ∘ Prod.fst = Prod.fst ∘ g from
        funext fun a => (hg1 a).symm, ← List.map_map] at h1
      exact h1.of_map
    have hsub : (groupZ (num, codes)).map g ⊆ groupZ (signNumber neg num, codes') := by
      intro x hx
      obtain ⟨a, ha, rfl⟩ := List.mem_map.1 hx
      exact hmem a ha
    have hperm : ((groupZ (num, codes)).map g).Perm (groupZ (signNumber neg num, codes')) :=
      (hnd.subperm hsub).perm_of_length_le (by rw [List.length_map, entry_length hent, entry_length hent'])
    have hg' : GroupIs s' p'.lattice ((groupZ (signNumber neg num, codes')).map (opK ℝ)) := by
      intro R u
      rw [← hpP] at hcar hP
      rw [group_carried hQ hs pdet' hcd hP hcar hg R u]
      have hop : ∀ a ∈ groupZ (num, codes), castRot (opK ℝ (g a)).rotation = overK ℝ (conjZ (decZ c) (signZ neg a)).1 := by
        intro a ha
        rw [castRot_overK, show (opK ℝ (g a)).rotation = rotZ (g a) from rfl, intRot_rotZ (groupZ_range _ (hmem a ha))]
        rfl
      have htr : ∀ a : ZOp, IntVec ((opK ℝ (conjZ (decZ c) (signZ neg a))).translation +
          (((⟨(w.x : ℝ) / 12, (w.y : ℝ) / 12, (w.z : ℝ) / 12⟩ : Vec3 ℝ) + m) - overK ℝ (conjZ (decZ c) (signZ neg a)).1 *
            ((⟨(w.x : ℝ) / 12, (w.y : ℝ) / 12, (w.z : ℝ) / 12⟩ : Vec3 ℝ) + m)) - (opK ℝ (g a)).translation) := by
        intro a
        have e1 := intVec_sum (shiftZ_trans w (conjZ (decZ c) (signZ neg a)))
          (intVec_sum hm (intVec_neg (intVec_overZ hm (conjZ (decZ c) (signZ neg a)).1)))
        convert e1 using 1
        rw [Mat3.mulVec_add]
        show _ = _ - (opK ℝ (g a)).translation + _
        abel
      constructor
      · rintro ⟨a, ha, k1, k2⟩
        refine ⟨_, List.mem_map.2 ⟨g a, hmem a ha, rfl⟩, by rw [hop a ha]; exact k1, ?_⟩
        have k3 := intVec_sum k2 (htr a)
        convert k3 using 1
        abel
      · rintro ⟨o, ho, k1, k2⟩
        obtain ⟨a', ha', rfl⟩ := List.mem_map.1 ho
        obtain ⟨a, ha, rfl⟩ := List.mem_map.1 (hperm.mem_iff.2 ha')
        refine ⟨a, ha, by rw [← hop a ha]; exact k1, ?_⟩
        have k3 := intVec_sum k2 (intVec_neg (htr a))
        convert k3 using 1
        abel
    rw [← hte] at hg'
    have hsys' : InSystem ref'.lattice sys := inSystem_congr hlr (inSystem_turn hs.orth hsys)
    obtain ⟨sym', ops', N, e1, e2⟩ := found_of_cell sa' h' hv' f' s' ref' p' hc'.clean hc'.found hc'.same hc'.nonsing hc'.index hc'.size
      hc'.clear hc'.resolved hc'.long hc'.small hp' sys n _ codes' table' hR hsys' hent' htab' hgood' hg'
    exact ⟨sym', ops', N, fun fuel hf => by rw [hnum]; exact e2 fuel hf⟩
  · refine ⟨⟨0, 0, 0⟩, by simp [goodOrigins], ?_⟩
    intro sa' h' f' s' ref' p' m hv' hc' hm hcar hp' hpP
    obtain ⟨-, -, b, c, k⟩ := key sa' h' f' s' ref' p' _ hv' hc' hcar hp'
    rw [hpP] at k
    exact absurd ⟨b, c, k⟩ hex

end CrystSymm
