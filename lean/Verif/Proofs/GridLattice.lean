import Verif.Props.RockSalt
import Verif.Props.LatticeChar

/-! # Reduction and lattice character of lattices of integer vectors

For a lattice of integer vectors, scaled by a length well above the tolerance, the tests of the Niggli reduction and of the lattice
character are tests in exact integer arithmetic. -/

set_option autoImplicit false
set_option linter.unusedSectionVars false

namespace CrystSymm

open Spec Reducer SymmetryAnalyzer PointGroup

/-- no product is zero and an even number of them is negative. -/
def typeZ (d e f : ℤ) : Bool :=
  decide ((1 ≤ d ∧ 1 ≤ e ∧ 1 ≤ f) ∨ (d ≤ -1 ∧ e ≤ -1 ∧ 1 ≤ f) ∨ (d ≤ -1 ∧ 1 ≤ e ∧ f ≤ -1) ∨ (1 ≤ d ∧ e ≤ -1 ∧ f ≤ -1))

def extraZ (a b d e f : ℤ) : Bool := decide (|d + e + f| * 2 = a + b)

def firstZ (t : Bool) (a b d e f : ℤ) : List (Vec3 ℤ × ℕ) :=
  if t then [(⟨a / 2, a / 2, a / 2⟩, 1), (⟨d, d, d⟩, 2)]
  else [(⟨0, 0, 0⟩, 3), (⟨a / -3, a / -3, a / -3⟩, 5), (⟨d, d, d⟩, 4)] ++
    (if extraZ a b d e f then [(⟨d, d, f⟩, 6), (⟨d, e, e⟩, 7), (⟨d, e, f⟩, 8)] else [])

def secondSetZ (t : Bool) (a b d e f : ℤ) : List (Vec3 ℤ × ℕ) :=
  if t then [(⟨a / 2, a / 2, a / 2⟩, 9), (⟨d, d, f⟩, 10)]
  else [(⟨0, 0, 0⟩, 11), (⟨0, 0, a / -2⟩, 12), (⟨0, 0, f⟩, 13), (⟨a / -2, a / -2, 0⟩, 15), (⟨d, d, f⟩, 14)] ++
    (if extraZ a b d e f then [(⟨d, e, f⟩, 17)] else [])

def thirdSetZ (t : Bool) (a b d e f : ℤ) : List (Vec3 ℤ × ℕ) :=
  if t then [(⟨a / 4, a / 2, a / 2⟩, 18), (⟨d, a / 2, a / 2⟩, 19), (⟨d, e, e⟩, 20)]
  else [(⟨0, 0, 0⟩, 21), (⟨b / -2, 0, 0⟩, 22), (⟨d, 0, 0⟩, 23)] ++
    (if extraZ a b d e f then [(⟨d, a / -3, a / -3⟩, 24)] else []) ++ [(⟨d, e, e⟩, 25)]

def fourthSetZ (t : Bool) (a b d e f : ℤ) : List (Vec3 ℤ × ℕ) :=
  if t then [(⟨a / 4, a / 2, a / 2⟩, 26), (⟨d, a / 2, a / 2⟩, 27), (⟨d, a / 2, d * 2⟩, 28), (⟨d, d * 2, a / 2⟩, 29),
    (⟨b / 2, e, e * 2⟩, 30), (⟨d, e, f⟩, 31)]
  else [(⟨0, 0, 0⟩, 32), (⟨b / -2, 0, 0⟩, 40), (⟨d, 0, 0⟩, 35), (⟨0, a / -2, 0⟩, 36), (⟨0, e, 0⟩, 33), (⟨0, 0, a / -2⟩, 38),
    (⟨0, 0, f⟩, 34), (⟨b / -2, a / -2, 0⟩, 42), (⟨b / -2, e, 0⟩, 41), (⟨d, a / -2, 0⟩, 37), (⟨d, 0, a / -2⟩, 39), (⟨d, e, f⟩, 44)]

def setZ (a b c d e f : ℤ) : List (Vec3 ℤ × ℕ) :=
  if a = b ∧ a = c then firstZ (typeZ d e f) a b d e f
  else if a = b then secondSetZ (typeZ d e f) a b d e f
  else if b = c then thirdSetZ (typeZ d e f) a b d e f
  else fourthSetZ (typeZ d e f) a b d e f

/-- the lattice character in integer arithmetic. -/
def charZ (a b c d e f : ℤ) : ℕ :=
  let n := (((setZ a b c d e f).find? fun p => decide (p.1 = ⟨d, e, f⟩)).map Prod.snd).getD 0
  if n = 14 ∧ extraZ a b d e f then n + 2
  else if n = 44 ∧ (extraZ a b d e f && decide (|2 * d + f| = b)) then n - 1
  else n

theorem eqE_scaled {g ε : ℝ} (hε : 0 < ε) (hg : ε < g) (x y : ℤ) : eqE (some ε) (g * x) (g * y) = decide (x = y) := by
  rw [Bool.eq_iff_iff, decide_eq_true_iff, eqE_some]
  constructor
  · intro h
    by_contra hne
    have h1 : (1 : ℝ) ≤ |(x : ℝ) - y| := by
      have : 1 ≤ |x - y| := Int.one_le_abs (sub_ne_zero.2 hne)
      have : ((1 : ℤ) : ℝ) ≤ ((|x - y| : ℤ) : ℝ) := by exact_mod_cast this
      simpa using this
    rw [← mul_sub, abs_mul, abs_of_pos (hε.trans hg)] at h
    nlinarith
  · rintro rfl
    simpa using hε.le

theorem isTypeI_scaled {g ε : ℝ} (hε : 0 < ε) (hg : ε < g) (d e f : ℤ) : isTypeI (some ε) [g * d, g * e, g * f] = typeZ d e f := by
  have g0 : 0 < g := hε.trans hg
  have k1 : ∀ x : ℤ, ε ≤ g * (x : ℝ) ↔ 1 ≤ x := by
    intro x
    constructor
    · intro h
      by_contra hn
      have : (x : ℝ) ≤ 0 := by exact_mod_cast (by omega : x ≤ 0)
      nlinarith
    · intro h
      have : (1 : ℝ) ≤ x := by exact_mod_cast h
      nlinarith
  have k2 : ∀ x : ℤ, g * (x : ℝ) < -ε ↔ x ≤ -1 := by
    intro x
    constructor
    · intro h
      by_contra hn
      have : (0 : ℝ) ≤ x := by exact_mod_cast (by omega : 0 ≤ x)
      nlinarith
    · intro h
      have : (x : ℝ) ≤ -1 := by exact_mod_cast h
      nlinarith
  rw [Bool.eq_iff_iff, isTypeI_iff hε.le]
  unfold Acute typeZ
  rw [decide_eq_true_iff]
  simp only [k1, k2]

theorem scaled_div {g : ℝ} {a : ℤ} {k : ℤ} (h : k ∣ a) (hk : k ≠ 0) : g * (a : ℝ) / lit k = g * ((a / k : ℤ) : ℝ) := by
  obtain ⟨m, rfl⟩ := h
  rw [Int.mul_ediv_cancel_left m hk]
  have : (k : ℝ) ≠ 0 := by exact_mod_cast hk
  show g * ((k * m : ℤ) : ℝ) / (k : ℝ) = _
  push_cast
  field_simp

/-- the lattice character of products that are multiples of a number above the tolerance. -/
theorem characterOf_scaled {g ε : ℝ} (hε : 0 < ε) (hg : ε < g) {a b : ℤ} (ha : 12 ∣ a) (hb : 12 ∣ b) (c d e f : ℤ)
    (h0 : charZ a b c d e f ≠ 0) : characterOf (some ε) (g * a) (g * b) (g * c) (g * d) (g * e) (g * f) = .ret (charZ a b c d e f) := by
  have eqz := eqE_scaled hε hg
  have g0 : 0 < g := hε.trans hg
  have d2 : ∀ {x : ℤ}, 12 ∣ x → g * (x : ℝ) / lit 2 = g * ((x / 2 : ℤ) : ℝ) := fun h => scaled_div (dvd_trans (by norm_num) h) (by norm_num)
  have d3 : ∀ {x : ℤ}, 12 ∣ x → g * (x : ℝ) / lit (-3) = g * ((x / -3 : ℤ) : ℝ) := fun h => scaled_div (dvd_trans (by norm_num) h) (by norm_num)
  have d4 : ∀ {x : ℤ}, 12 ∣ x → g * (x : ℝ) / lit 4 = g * ((x / 4 : ℤ) : ℝ) := fun h => scaled_div (dvd_trans (by norm_num) h) (by norm_num)
  have dm : ∀ {x : ℤ}, 12 ∣ x → g * (x : ℝ) / lit (-2) = g * ((x / -2 : ℤ) : ℝ) := fun h => scaled_div (dvd_trans (by norm_num) h) (by norm_num)
  have z0 : (0 : ℝ) = g * ((0 : ℤ) : ℝ) := by simp
  have zd : (0 : ℝ) / lit (-2) = g * ((0 : ℤ) : ℝ) := by simp
  have l2 : (lit 2 : ℝ) = 2 := by simp [lit]
  have m2 : ∀ x : ℤ, g * (x : ℝ) * lit 2 = g * ((x * 2 : ℤ) : ℝ) := fun x => by rw [l2]; push_cast; ring
  have eA : extraEvalA (g * a) (g * b) (g * d) (g * e) (g * f) (some ε) = extraZ a b d e f := by
    unfold extraEvalA extraZ
    have : (FRound.abs (g * (d : ℝ) + g * e + g * f) * lit 2 : ℝ) = g * ((|d + e + f| * 2 : ℤ) : ℝ) := by
      show |_| * _ = _
      rw [← mul_add, ← mul_add, abs_mul, abs_of_pos g0, l2]
      push_cast
      ring
    rw [this, ← mul_add, ← Int.cast_add, eqz]
  have eB : extraEvalB (g * a) (g * b) (g * d) (g * e) (g * f) (some ε) = (extraZ a b d e f && decide (|2 * d + f| = b)) := by
    unfold extraEvalB
    have : (FRound.abs (lit 2 * (g * (d : ℝ)) + g * f) : ℝ) = g * ((|2 * d + f| : ℤ) : ℝ) := by
      show |_| = _
      rw [l2, show 2 * (g * (d : ℝ)) + g * f = g * (2 * d + f) by ring, abs_mul, abs_of_pos g0]
      push_cast
      rfl
    rw [this, eqz]
    congr 1
  have hs1 : ∀ t, getFirstSet t (g * (a : ℝ)) (g * b) (g * d) (g * e) (g * f) (some ε) = (firstZ t a b d e f).map fun p => (cubicVec g p.1, p.2) := by
    intro t
    unfold getFirstSet firstZ
    rw [eA]
    cases t <;> cases extraZ a b d e f <;> simp only [Bool.false_eq_true, if_true, if_false, List.map_append, List.map_cons, List.map_nil, Vec3.divS, d2 ha, d3 ha, cubicVec, Int.cast_zero, mul_zero]
  have hs2 : ∀ t, getSecondSet t (g * (a : ℝ)) (g * b) (g * d) (g * e) (g * f) (some ε) = (secondSetZ t a b d e f).map fun p => (cubicVec g p.1, p.2) := by
    intro t
    unfold getSecondSet secondSetZ
    rw [eA]
    cases t <;> cases extraZ a b d e f <;> simp only [Bool.false_eq_true, if_true, if_false, List.map_append, List.map_cons, List.map_nil, Vec3.divS, d2 ha, dm ha, cubicVec, Int.cast_zero, mul_zero, zero_div]
  have hs3 : ∀ t, getThirdSet t (g * (a : ℝ)) (g * b) (g * d) (g * e) (g * f) (some ε) = (thirdSetZ t a b d e f).map fun p => (cubicVec g p.1, p.2) := by
    intro t
    unfold getThirdSet thirdSetZ
    rw [eA]
    cases t <;> cases extraZ a b d e f <;> simp only [Bool.false_eq_true, if_true, if_false, List.map_append, List.map_cons, List.map_nil, Vec3.divS, d2 ha, d3 ha, d4 ha, dm hb, cubicVec, Int.cast_zero, mul_zero, zero_div]
  have hs4 : ∀ t, getFourthSet t (g * (a : ℝ)) (g * b) (g * d) (g * e) (g * f) = (fourthSetZ t a b d e f).map fun p => (cubicVec g p.1, p.2) := by
    intro t
    unfold getFourthSet fourthSetZ
    cases t <;> simp only [Bool.false_eq_true, if_true, if_false, List.map_append, List.map_cons, List.map_nil, Vec3.divS, d2 ha, d2 hb, d4 ha, dm ha, dm hb, m2, cubicVec, Int.cast_zero, mul_zero, zero_div]
  have hm : ∀ v : Vec3 ℤ, defMatches (some ε) (cubicVec g v) ⟨g * d, g * e, g * f⟩ = decide (v = ⟨d, e, f⟩) := by
    intro v
    unfold defMatches cubicVec
    simp only [eqz]
    rw [Bool.eq_iff_iff]
    simp only [Bool.and_eq_true, decide_eq_true_eq, Vec3.ext_iff, and_assoc]
  have hset : (if eqE (some ε) (g * (a : ℝ)) (g * b) && eqE (some ε) (g * (a : ℝ)) (g * c) then
        getFirstSet (isTypeI (some ε) [g * (d : ℝ), g * e, g * f]) (g * (a : ℝ)) (g * b) (g * d) (g * e) (g * f) (some ε)
      else if eqE (some ε) (g * (a : ℝ)) (g * b) then
        getSecondSet (isTypeI (some ε) [g * (d : ℝ), g * e, g * f]) (g * (a : ℝ)) (g * b) (g * d) (g * e) (g * f) (some ε)
      else if eqE (some ε) (g * (b : ℝ)) (g * c) then
        getThirdSet (isTypeI (some ε) [g * (d : ℝ), g * e, g * f]) (g * (a : ℝ)) (g * b) (g * d) (g * e) (g * f) (some ε)
      else getFourthSet (isTypeI (some ε) [g * (d : ℝ), g * e, g * f]) (g * (a : ℝ)) (g * b) (g * d) (g * e) (g * f)) =
      (setZ a b c d e f).map fun p => (cubicVec g p.1, p.2) := by
    rw [hs1, hs2, hs3, hs4, isTypeI_scaled hε hg]
    simp only [eqz, Bool.and_eq_true, decide_eq_true_eq]
    unfold setZ
    split_ifs <;> rfl
  have hnum : (((setZ a b c d e f).map fun p => (cubicVec g p.1, p.2)).find? fun p => defMatches (some ε) p.1 ⟨g * d, g * e, g * f⟩).map Prod.snd =
      ((setZ a b c d e f).find? fun p => decide (p.1 = ⟨d, e, f⟩)).map Prod.snd := by
    rw [List.find?_map, Option.map_map]
    have : ((fun p : Vec3 ℝ × ℕ => defMatches (some ε) p.1 ⟨g * d, g * e, g * f⟩) ∘ fun p : Vec3 ℤ × ℕ => (cubicVec g p.1, p.2)) =
        fun p => decide (p.1 = ⟨d, e, f⟩) := by
      funext p
      exact hm p.1
    rw [this]
    rfl
  unfold characterOf
  simp only [hset, hnum, eA, eB]
  exact if_pos h0

/-! ## Niggli conditions -/

/-- the conditions on a reduced cell in integer arithmetic. -/
structure NiggliInt (A B C x y z : ℤ) : Prop where
  ab : A ≤ B
  bc : B ≤ C
  ab_eq : A = B → |x| ≤ |y|
  bc_eq : B = C → |y| ≤ |z|
  xi : |x| ≤ B
  eta : |y| ≤ A
  zeta : |z| ≤ A
  sum : 0 ≤ x + y + z + A + B
  signs : (1 ≤ x ∧ 1 ≤ y ∧ 1 ≤ z) ∨ (x ≤ 0 ∧ y ≤ 0 ∧ z ≤ 0)
  xi_eq : x = B → z ≤ 2 * y
  eta_eq : y = A → z ≤ 2 * x
  zeta_eq : z = A → y ≤ 2 * x
  xi_neg : x = -B → 0 ≤ z
  eta_neg : y = -A → 0 ≤ z
  zeta_neg : z = -A → 0 ≤ y
  sum_eq : x + y + z + A + B = 0 → 2 * (A + y) + z ≤ 0

theorem niggliWeak_scaled {g ε : ℝ} (hε : 0 < ε) (hg : ε < g) {A B C x y z : ℤ} (h : NiggliInt A B C x y z) :
    NiggliWeak ε (g * A) (g * B) (g * C) (g * x) (g * y) (g * z) := by
  have g0 : 0 < g := hε.trans hg
  have le : ∀ {m n : ℤ}, m ≤ n → g * (m : ℝ) ≤ g * n := fun h => mul_le_mul_of_nonneg_left (by exact_mod_cast h) g0.le
  have ab : ∀ m : ℤ, |g * (m : ℝ)| = g * ((|m| : ℤ) : ℝ) := by
    intro m
    rw [abs_mul, abs_of_pos g0]
    push_cast
    rfl
  have ez : ∀ {m : ℤ} {r : ℝ}, r = g * (m : ℝ) → |r| ≤ ε → m = 0 := by
    rintro m r rfl h
    rw [ab] at h
    by_contra hne
    have : ((1 : ℤ) : ℝ) ≤ ((|m| : ℤ) : ℝ) := by exact_mod_cast Int.one_le_abs hne
    push_cast at this h
    nlinarith
  constructor
  · linarith [le h.ab]
  · linarith [le h.bc]
  · intro h1
    have := ez (m := A - B) (by push_cast; ring) h1
    rw [ab, ab]
    linarith [le (h.ab_eq (by omega))]
  · intro h1
    have := ez (m := B - C) (by push_cast; ring) h1
    rw [ab, ab]
    linarith [le (h.bc_eq (by omega))]
  · rw [ab]
    linarith [le h.xi]
  · rw [ab]
    linarith [le h.eta]
  · rw [ab]
    linarith [le h.zeta]
  · have := le h.sum
    push_cast at this
    linarith
  · rcases h.signs with ⟨h1, h2, h3⟩ | ⟨h1, h2, h3⟩
    · left
      have h1 := le h1
      have h2 := le h2
      have h3 := le h3
      push_cast at h1 h2 h3
      refine ⟨?_, ?_, ?_⟩ <;> linarith
    · right
      have h1 := le h1
      have h2 := le h2
      have h3 := le h3
      push_cast at h1 h2 h3
      refine ⟨?_, ?_, ?_⟩ <;> linarith
  · intro h1
    have := ez (m := x - B) (by push_cast; ring) h1
    have h2 := le (h.xi_eq (by omega))
    push_cast at h2
    linarith
  · intro h1
    have := ez (m := y - A) (by push_cast; ring) h1
    have h2 := le (h.eta_eq (by omega))
    push_cast at h2
    linarith
  · intro h1
    have := ez (m := z - A) (by push_cast; ring) h1
    have h2 := le (h.zeta_eq (by omega))
    push_cast at h2
    linarith
  · intro h1
    have := ez (m := x + B) (by push_cast; ring) h1
    have h2 := le (h.xi_neg (by omega))
    push_cast at h2
    linarith
  · intro h1
    have := ez (m := y + A) (by push_cast; ring) h1
    have h2 := le (h.eta_neg (by omega))
    push_cast at h2
    linarith
  · intro h1
    have := ez (m := z + A) (by push_cast; ring) h1
    have h2 := le (h.zeta_neg (by omega))
    push_cast at h2
    linarith
  · intro h1
    have := ez (m := x + y + z + A + B) (by push_cast; ring) h1
    have h2 := le (h.sum_eq (by omega))
    push_cast at h2
    linarith

/-! ## Lattices of integer vectors -/

/-- the scalar products of the columns. -/
def gramZ (M : Mat3 ℤ) : Mat3 ℤ := M.transpose * M

/-- the lattice character. -/
def charOfZ (M : Mat3 ℤ) : ℕ :=
  charZ (12 * (gramZ M).m11) (12 * (gramZ M).m22) (12 * (gramZ M).m33) (12 * (gramZ M).m23) (12 * (gramZ M).m13) (12 * (gramZ M).m12)

def NiggliBasis (M : Mat3 ℤ) : Prop :=
  NiggliInt (gramZ M).m11 (gramZ M).m22 (gramZ M).m33 (2 * (gramZ M).m23) (2 * (gramZ M).m13) (2 * (gramZ M).m12)

theorem cubicLattice_products (u : ℝ) (M : Mat3 ℤ) :
    (lenSq (cubicLattice u M).col0 = u ^ 2 * (gramZ M).m11 ∧ lenSq (cubicLattice u M).col1 = u ^ 2 * (gramZ M).m22 ∧
      lenSq (cubicLattice u M).col2 = u ^ 2 * (gramZ M).m33) ∧
    dotp (cubicLattice u M).col1 (cubicLattice u M).col2 = u ^ 2 * (gramZ M).m23 ∧
    dotp (cubicLattice u M).col0 (cubicLattice u M).col2 = u ^ 2 * (gramZ M).m13 ∧
    dotp (cubicLattice u M).col0 (cubicLattice u M).col1 = u ^ 2 * (gramZ M).m12 := by
  refine ⟨⟨?_, ?_, ?_⟩, ?_, ?_, ?_⟩ <;>
    simp [cubicLattice, Mat3.ofCols, cubicVec, lenSq, dotp, gramZ, Mat3.transpose, Mat3.col0, Mat3.col1, Mat3.col2] <;> ring

theorem niggliCellWeak_cubic {u ε : ℝ} (hε : 0 < ε) (hg : ε < u ^ 2) {M : Mat3 ℤ} (h : NiggliBasis M) :
    NiggliCellWeak ε (cubicLattice u M) ∧
      ((ε ≤ 2 * dotp (cubicLattice u M).col1 (cubicLattice u M).col2 ∧ ε ≤ 2 * dotp (cubicLattice u M).col0 (cubicLattice u M).col2 ∧
        ε ≤ 2 * dotp (cubicLattice u M).col0 (cubicLattice u M).col1) ∨
      (2 * dotp (cubicLattice u M).col1 (cubicLattice u M).col2 < ε ∧ 2 * dotp (cubicLattice u M).col0 (cubicLattice u M).col2 < ε ∧
        2 * dotp (cubicLattice u M).col0 (cubicLattice u M).col1 < ε)) := by
  obtain ⟨⟨e1, e2, e3⟩, e4, e5, e6⟩ := cubicLattice_products u M
  have k : ∀ m : ℤ, 2 * (u ^ 2 * (m : ℝ)) = u ^ 2 * ((2 * m : ℤ) : ℝ) := fun m => by push_cast; ring
  unfold NiggliCellWeak
  rw [e1, e2, e3, e4, e5, e6, k, k, k]
  refine ⟨niggliWeak_scaled hε hg h, ?_⟩
  have up : ∀ {m : ℤ}, 1 ≤ m → ε ≤ u ^ 2 * (m : ℝ) := by
    intro m hm
    have : (1 : ℝ) ≤ m := by exact_mod_cast hm
    nlinarith
  have down : ∀ {m : ℤ}, m ≤ 0 → u ^ 2 * (m : ℝ) < ε := by
    intro m hm
    have : (m : ℝ) ≤ 0 := by exact_mod_cast hm
    nlinarith
  rcases h.signs with ⟨h1, h2, h3⟩ | ⟨h1, h2, h3⟩
  · exact .inl ⟨up h1, up h2, up h3⟩
  · exact .inr ⟨down h1, down h2, down h3⟩

theorem characterOf_cubic {u ε : ℝ} (hε : 0 < ε) (hg : 12 * ε < u ^ 2) {M : Mat3 ℤ} (h0 : charOfZ M ≠ 0) :
    characterOf (some ε) (lenSq (cubicLattice u M).col0) (lenSq (cubicLattice u M).col1) (lenSq (cubicLattice u M).col2)
      (dotp (cubicLattice u M).col1 (cubicLattice u M).col2) (dotp (cubicLattice u M).col0 (cubicLattice u M).col2)
      (dotp (cubicLattice u M).col0 (cubicLattice u M).col1) = .ret (charOfZ M) := by
  obtain ⟨⟨e1, e2, e3⟩, e4, e5, e6⟩ := cubicLattice_products u M
  have k : ∀ m : ℤ, u ^ 2 * (m : ℝ) = u ^ 2 / 12 * ((12 * m : ℤ) : ℝ) := fun m => by push_cast; ring
  rw [e1, e2, e3, e4, e5, e6, k, k, k, k, k, k]
  exact characterOf_scaled hε (by linarith) (dvd_mul_right _ _) (dvd_mul_right _ _) _ _ _ _ h0

end CrystSymm
