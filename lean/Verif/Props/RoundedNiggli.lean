import Verif.Proofs.RoundedTrans
import Verif.Props.RoundedInfo

set_option autoImplicit false
set_option linter.unusedSectionVars false

/-! # C88: the Niggli reduction in floating-point arithmetic keeps the crystal -/

namespace CrystSymm

open Spec Reducer

section
variable {ρ : Rounding}

/-! ## Sites of a rebuilt structure -/

theorem normComp_err {u : ℝ} (hu : Relative ρ u) (tol v : RNum ρ) : ∃ n : ℤ, |(normComp tol v).val - v.val - n| ≤ 2 * u := by
  have hu0 := relative_nonneg hu
  have er : (FRound.fmod1 v : RNum ρ).val = v.val - (truncZ v.val : ℝ) := rfl
  have hb : |v.val - (truncZ v.val : ℝ)| ≤ 1 := by
    unfold truncZ
    split
    · rw [abs_le]; constructor
      · linarith [Int.floor_le v.val]
      · linarith [Int.lt_floor_add_one v.val]
    · rw [abs_le]; constructor
      · linarith [Int.ceil_lt_add_one v.val]
      · linarith [Int.le_ceil v.val]
  rw [abs_le] at hb
  unfold normComp
  simp only []
  split
  · refine ⟨1 - truncZ v.val, ?_⟩
    rw [RNum.val_add, er, RNum.val_one]
    have := rel_le hu (x := v.val - (truncZ v.val : ℝ) + 1) (B := 2) (by norm_num) (by rw [abs_le]; constructor <;> linarith)
    push_cast
    rw [abs_le] at this ⊢
    constructor <;> linarith
  · split
    · refine ⟨-1 - truncZ v.val, ?_⟩
      rw [RNum.val_sub, er, RNum.val_one]
      have := rel_le hu (x := v.val - (truncZ v.val : ℝ) - 1) (B := 2) (by norm_num) (by rw [abs_le]; constructor <;> linarith)
      push_cast
      rw [abs_le] at this ⊢
      constructor <;> linarith
    · refine ⟨-truncZ v.val, ?_⟩
      rw [er]
      push_cast
      rw [show v.val - (truncZ v.val : ℝ) - v.val - -(truncZ v.val : ℝ) = 0 by ring, abs_zero]
      linarith

/-- all entries are at most `R`. -/
def EntsLe (P : Mat3 ℝ) (R : ℝ) : Prop :=
  (|P.m11| ≤ R ∧ |P.m12| ≤ R ∧ |P.m13| ≤ R) ∧ (|P.m21| ≤ R ∧ |P.m22| ≤ R ∧ |P.m23| ≤ R) ∧
    (|P.m31| ≤ R ∧ |P.m32| ≤ R ∧ |P.m33| ≤ R)

theorem row_close {u R C : ℝ} (hu : Relative ρ u) (h1 : u ≤ 1 / 1000) (hR : 1 ≤ R) (hC : 1 ≤ C) {p1 p2 p3 : ℝ} {c : Vec3 (RNum ρ)}
    (b1 : |p1| ≤ R) (b2 : |p2| ≤ R) (b3 : |p3| ≤ R) (hc : CompsLe (valV c) C) :
    |((RNum.round p1 : RNum ρ) * c.x + (RNum.round p2 : RNum ρ) * c.y + (RNum.round p3 : RNum ρ) * c.z).val -
      (p1 * c.x.val + p2 * c.y.val + p3 * c.z.val)| ≤ 23 * (u * (R * C)) := by
  have hu0 := relative_nonneg hu
  obtain ⟨c1, c2, c3⟩ := hc
  change |c.x.val| ≤ C at c1
  change |c.y.val| ≤ C at c2
  change |c.z.val| ≤ C at c3
  have key : ∀ {p x : ℝ}, |p| ≤ R → |x| ≤ C → |ρ.fl p * x| ≤ 2 * (R * C) ∧ |ρ.fl p * x - p * x| ≤ u * (R * C) := by
    intro p x hp hx
    have e1 := rel_le hu hR hp
    have hR0 : 0 ≤ R := by linarith
    have e2 : |ρ.fl p| ≤ 2 * R := by
      have := abs_sub_abs_le_abs_sub (ρ.fl p) p
      have : u * R ≤ 1 / 1000 * R := mul_le_mul_of_nonneg_right h1 hR0
      linarith
    refine ⟨?_, ?_⟩
    · rw [abs_mul]
      calc |ρ.fl p| * |x| ≤ 2 * R * C := mul_le_mul e2 hx (abs_nonneg _) (by linarith)
        _ = _ := by ring
    · rw [← sub_mul, abs_mul]
      calc |ρ.fl p - p| * |x| ≤ u * R * C := mul_le_mul e1 hx (abs_nonneg _) (by positivity)
        _ = _ := by ring
  obtain ⟨k1, l1⟩ := key b1 c1
  obtain ⟨k2, l2⟩ := key b2 c2
  obtain ⟨k3, l3⟩ := key b3 c3
  have hRC : 1 ≤ 2 * (R * C) := by nlinarith
  have hd := (dot_close hu h1 hRC (p1 := RNum.round p1) (p2 := RNum.round p2) (p3 := RNum.round p3) (q1 := c.x) (q2 := c.y) (q3 := c.z)
    k1 k2 k3).1
  change |_ - (ρ.fl p1 * c.x.val + ρ.fl p2 * c.y.val + ρ.fl p3 * c.z.val)| ≤ _ at hd
  rw [abs_le] at *
  constructor <;> linarith

/-- the fractional coordinates computed from Cartesian ones, and their positions. -/
theorem frac_near {u R C A : ℝ} (hu : Relative ρ u) (h1 : u ≤ 1 / 1000) (hR : 1 ≤ R) (hC : 1 ≤ C) {L : Mat3 (RNum ρ)}
    (hA : EntriesWithin L A) (hsv : SvAbove (valM L)) {P : Mat3 ℝ} (hP : valM L * P = 1) (hPR : EntsLe P R)
    {tols c : Vec3 (RNum ρ)} (hc : CompsLe (valV c) C) :
    ∃ w : Vec3 ℝ, IntVec w ∧ CompsLe (valM L * (valV (normFracVec tols (FTrans.pinv L * c)) - w) - valV c) (75 * (u * (A * (R * C)))) := by
  have hu0 := relative_nonneg hu
  have hpinv : (FTrans.pinv (valM L) : Mat3 ℝ) = P := by
    have h2 := pinv_mul hsv
    calc (FTrans.pinv (valM L) : Mat3 ℝ) = FTrans.pinv (valM L) * (valM L * P) := by rw [hP, mul_one]
      _ = P := by rw [← mul_assoc, h2, one_mul]
  have hL : (FTrans.pinv L : Mat3 (RNum ρ)) = P.map RNum.round := by
    show (FTrans.pinv (valM L)).map RNum.round = _
    rw [hpinv]
  obtain ⟨⟨a1, a2, a3⟩, ⟨a4, a5, a6⟩, ⟨a7, a8, a9⟩⟩ := hPR
  have r1 := row_close hu h1 hR hC a1 a2 a3 hc
  have r2 := row_close hu h1 hR hC a4 a5 a6 hc
  have r3 := row_close hu h1 hR hC a7 a8 a9 hc
  obtain ⟨n1, m1⟩ := normComp_err hu tols.x (FTrans.pinv L * c).x
  obtain ⟨n2, m2⟩ := normComp_err hu tols.y (FTrans.pinv L * c).y
  obtain ⟨n3, m3⟩ := normComp_err hu tols.z (FTrans.pinv L * c).z
  rw [hL] at m1 m2 m3
  have hx : ((P.map RNum.round : Mat3 (RNum ρ)) * c).x = (RNum.round P.m11 : RNum ρ) * c.x + (RNum.round P.m12 : RNum ρ) * c.y + (RNum.round P.m13 : RNum ρ) * c.z := rfl
  have hy : ((P.map RNum.round : Mat3 (RNum ρ)) * c).y = (RNum.round P.m21 : RNum ρ) * c.x + (RNum.round P.m22 : RNum ρ) * c.y + (RNum.round P.m23 : RNum ρ) * c.z := rfl
  have hz : ((P.map RNum.round : Mat3 (RNum ρ)) * c).z = (RNum.round P.m31 : RNum ρ) * c.x + (RNum.round P.m32 : RNum ρ) * c.y + (RNum.round P.m33 : RNum ρ) * c.z := rfl
  rw [hx] at m1; rw [hy] at m2; rw [hz] at m3
  refine ⟨⟨(n1 : ℝ), (n2 : ℝ), (n3 : ℝ)⟩, ⟨n1, n2, n3, rfl⟩, ?_⟩
  rw [hL]
  set f := normFracVec tols ((P.map RNum.round : Mat3 (RNum ρ)) * c) with hf
  have fx : f.x = normComp tols.x ((RNum.round P.m11 : RNum ρ) * c.x + (RNum.round P.m12 : RNum ρ) * c.y + (RNum.round P.m13 : RNum ρ) * c.z) := rfl
  have fy : f.y = normComp tols.y ((RNum.round P.m21 : RNum ρ) * c.x + (RNum.round P.m22 : RNum ρ) * c.y + (RNum.round P.m23 : RNum ρ) * c.z) := rfl
  have fz : f.z = normComp tols.z ((RNum.round P.m31 : RNum ρ) * c.x + (RNum.round P.m32 : RNum ρ) * c.y + (RNum.round P.m33 : RNum ρ) * c.z) := rfl
  rw [← fx] at m1; rw [← fy] at m2; rw [← fz] at m3
  have hRC : 1 ≤ R * C := by nlinarith
  have huRC : u ≤ u * (R * C) := by nlinarith
  have d : CompsLe (valV f - ⟨(n1 : ℝ), (n2 : ℝ), (n3 : ℝ)⟩ - P * valV c) (25 * (u * (R * C))) := by
    refine ⟨?_, ?_, ?_⟩
    · show |f.x.val - n1 - (P.m11 * c.x.val + P.m12 * c.y.val + P.m13 * c.z.val)| ≤ _
      rw [abs_le] at *; constructor <;> linarith
    · show |f.y.val - n2 - (P.m21 * c.x.val + P.m22 * c.y.val + P.m23 * c.z.val)| ≤ _
      rw [abs_le] at *; constructor <;> linarith
    · show |f.z.val - n3 - (P.m31 * c.x.val + P.m32 * c.y.val + P.m33 * c.z.val)| ≤ _
      rw [abs_le] at *; constructor <;> linarith
  have hback : valM L * (valV f - ⟨(n1 : ℝ), (n2 : ℝ), (n3 : ℝ)⟩) - valV c =
      valM L * (valV f - ⟨(n1 : ℝ), (n2 : ℝ), (n3 : ℝ)⟩ - P * valV c) := by
    rw [Mat3.mulVec_sub (valM L) _ (P * valV c), ← Mat3.mul_mulVec, hP, Mat3.one_mulVec]
  rw [hback]
  generalize valV f - ⟨(n1 : ℝ), (n2 : ℝ), (n3 : ℝ)⟩ - P * valV c = e at d
  obtain ⟨d1, d2, d3⟩ := d
  obtain ⟨⟨q1, q2, q3⟩, ⟨q4, q5, q6⟩, ⟨q7, q8, q9⟩⟩ := hA.all
  have hA0 : 0 ≤ A := (abs_nonneg _).trans q1
  have row : ∀ {x y z : ℝ}, |x| ≤ A → |y| ≤ A → |z| ≤ A → |x * e.x + y * e.y + z * e.z| ≤ 75 * (u * (A * (R * C))) := by
    intro x y z hx hy hz
    have t1 : |x * e.x| ≤ A * (25 * (u * (R * C))) := by rw [abs_mul]; exact mul_le_mul hx d1 (abs_nonneg _) hA0
    have t2 : |y * e.y| ≤ A * (25 * (u * (R * C))) := by rw [abs_mul]; exact mul_le_mul hy d2 (abs_nonneg _) hA0
    have t3 : |z * e.z| ≤ A * (25 * (u * (R * C))) := by rw [abs_mul]; exact mul_le_mul hz d3 (abs_nonneg _) hA0
    have s1 := abs_add_le (x * e.x) (y * e.y)
    have s2 := abs_add_le (x * e.x + y * e.y) (z * e.z)
    have : A * (25 * (u * (R * C))) = 25 * (u * (A * (R * C))) := by ring
    linarith
  exact ⟨row q1 q2 q3, row q4 q5 q6, row q7 q8 q9⟩

/-- up to order the sites of `s'` are those of `s`, with the same species, and their positions in space differ by at most `E` and
vectors of the lattice of `s'`. -/
def SitesKept (E : ℝ) (s s' : Structure (RNum ρ)) : Prop :=
  ∃ m, m.Perm (s.species.zip s.coords) ∧ List.Forall₂ (fun (p : String × Vec3 (RNum ρ)) (q : String × Vec3 (RNum ρ)) => p.1 = q.1 ∧
    ∃ w : Vec3 ℝ, IntVec w ∧ CompsLe (valM s'.lattice * (valV p.2 - w) - valV q.2) E) (sites s') m

theorem rebuild_kept {u R C A : ℝ} (hu : Relative ρ u) (h1 : u ≤ 1 / 1000) (hR : 1 ≤ R) (hC : 1 ≤ C) (r : Reducer (RNum ρ))
    (s : Structure (RNum ρ)) (hcs : ∀ c ∈ s.coords, CompsLe (valV c) C) {L : Mat3 (RNum ρ)} (hA : EntriesWithin L A)
    (hsv : SvAbove (valM L)) {P : Mat3 ℝ} (hP : valM L * P = 1) (hPR : EntsLe P R) :
    SitesKept (75 * (u * (A * (R * C)))) s (r.rebuild s L) := by
  unfold SitesKept rebuild
  rw [normalizeCoords_sites]
  set s1 : Structure (RNum ρ) := Structure.new L s.species (Structure.getFracCoords L s.coords) false with hs1
  have hperm := List.mergeSort_perm (s1.species.zip (normedFrac s1 r.dtol)) (keyLe Prod.fst)
  have hf : List.Forall₂ (fun (p q : String × Vec3 (RNum ρ)) => p.1 = q.1 ∧
      ∃ w : Vec3 ℝ, IntVec w ∧ CompsLe (valM L * (valV p.2 - w) - valV q.2) (75 * (u * (A * (R * C)))))
      (s1.species.zip (normedFrac s1 r.dtol)) (s.species.zip s.coords) := by
    have e1 : s1.species = s.species := rfl
    have e2 : s1.fracCoords = s.coords.map fun c : Vec3 (RNum ρ) => (FTrans.pinv L : Mat3 (RNum ρ)) * c := rfl
    unfold normedFrac normalizeFracVectors
    rw [e1, e2, List.map_map, List.zip_map_right, List.forall₂_map_left_iff, List.forall₂_same]
    intro p hp
    exact ⟨rfl, frac_near hu h1 hR hC hA hsv hP hPR (hcs _ (List.of_mem_zip hp).2)⟩
  obtain ⟨m', g1, g2⟩ := List.perm_comp_forall₂ hperm hf
  exact ⟨m', g2, g1⟩

/-! ## The lattice -/

/-- the product with a matrix of integers, in exact arithmetic. -/
noncomputable def timesInts (L : Mat3 ℝ) (N : Mat3 ℤ) : Mat3 ℝ := L * N.map fun (n : ℤ) => (n : ℝ)

/-- the entries differ by at most `e`. -/
def MatClose (M M' : Mat3 ℝ) (e : ℝ) : Prop :=
  (|M.m11 - M'.m11| ≤ e ∧ |M.m12 - M'.m12| ≤ e ∧ |M.m13 - M'.m13| ≤ e) ∧
    (|M.m21 - M'.m21| ≤ e ∧ |M.m22 - M'.m22| ≤ e ∧ |M.m23 - M'.m23| ≤ e) ∧
    (|M.m31 - M'.m31| ≤ e ∧ |M.m32 - M'.m32| ≤ e ∧ |M.m33 - M'.m33| ≤ e)

theorem mul_ints_close {u A : ℝ} {B : ℤ} (hu : Relative ρ u) (h1 : u ≤ 1 / 1000) (hA1 : 1 ≤ A) (hB : 1 ≤ B) {L T : Mat3 (RNum ρ)}
    {N : Mat3 ℤ} (hL : EntriesWithin L A) (hT : IsInts T N) (hN : EntLe N B) :
    MatClose (valM (L * T)) (timesInts (valM L) N) (10 * (u * (A * B))) := by
  have hB' : (1 : ℝ) ≤ B := by exact_mod_cast hB
  have hAB : 1 ≤ A * B := by nlinarith
  obtain ⟨⟨q1, q2, q3⟩, ⟨q4, q5, q6⟩, ⟨q7, q8, q9⟩⟩ := hL.all
  obtain ⟨⟨a1, a2, a3⟩, ⟨a4, a5, a6⟩, ⟨a7, a8, a9⟩⟩ := hN
  unfold IsInts at hT
  have u1 := congrArg Mat3.m11 hT; have u2 := congrArg Mat3.m12 hT; have u3 := congrArg Mat3.m13 hT
  have u4 := congrArg Mat3.m21 hT; have u5 := congrArg Mat3.m22 hT; have u6 := congrArg Mat3.m23 hT
  have u7 := congrArg Mat3.m31 hT; have u8 := congrArg Mat3.m32 hT; have u9 := congrArg Mat3.m33 hT
  simp only [valM, Mat3.map] at u1 u2 u3 u4 u5 u6 u7 u8 u9
  have key : ∀ {x1 x2 x3 y1 y2 y3 : RNum ρ} {c1 c2 c3 : ℤ}, |x1.val| ≤ A → |x2.val| ≤ A → |x3.val| ≤ A → y1.val = c1 → y2.val = c2 →
      y3.val = c3 → |c1| ≤ B → |c2| ≤ B → |c3| ≤ B →
      |(x1 * y1 + x2 * y2 + x3 * y3).val - (x1.val * c1 + x2.val * c2 + x3.val * c3)| ≤ 10 * (u * (A * B)) := by
    intro x1 x2 x3 y1 y2 y3 c1 c2 c3 b1 b2 b3 e1 e2 e3 k1 k2 k3
    have hp : ∀ {x y : RNum ρ} {c : ℤ}, |x.val| ≤ A → y.val = c → |c| ≤ B → |x.val * y.val| ≤ A * B := by
      intro x y c hx hy hc
      have hc' : |(c : ℝ)| ≤ B := by exact_mod_cast hc
      rw [abs_mul, hy]
      exact mul_le_mul hx hc' (abs_nonneg _) (by linarith)
    have := (dot_close hu h1 hAB (hp b1 e1 k1) (hp b2 e2 k2) (hp b3 e3 k3)).1
    rw [e1, e2, e3] at this
    exact this
  exact ⟨⟨key q1 q2 q3 u1 u4 u7 a1 a4 a7, key q1 q2 q3 u2 u5 u8 a2 a5 a8, key q1 q2 q3 u3 u6 u9 a3 a6 a9⟩,
    ⟨key q4 q5 q6 u1 u4 u7 a1 a4 a7, key q4 q5 q6 u2 u5 u8 a2 a5 a8, key q4 q5 q6 u3 u6 u9 a3 a6 a9⟩,
    ⟨key q7 q8 q9 u1 u4 u7 a1 a4 a7, key q7 q8 q9 u2 u5 u8 a2 a5 a8, key q7 q8 q9 u3 u6 u9 a3 a6 a9⟩⟩

theorem nigLoop_more {e : Option (RNum ρ)} {n k : ℕ} {st st' : NigState (RNum ρ)} (hk : n ≤ k) (h : nigLoop e n st = .ret st') :
    nigLoop e k st = .ret st' := by
  induction n generalizing st k with
  | zero => simp [nigLoop] at h
  | succ n ih =>
    obtain ⟨k, rfl⟩ : ∃ j, k = j + 1 := ⟨k - 1, by omega⟩
    rw [nigLoop] at h ⊢
    split at h
    · exact ih (by omega) h
    · exact h

/-- the tolerance of the comparisons is not negative and less than one, or not a number. -/
def EpsSmall (e : Option (RNum ρ)) : Prop := ∀ ε, e = some ε → 0 ≤ ε.val ∧ ε.val < 1

/-- **C88** If the integers up to `3 ^ n` are representable, and the loop of the Niggli reduction ends within `n` of its 100
iterations, then the change of basis is a matrix of integers, exactly, with determinant one or minus one (one if epsilon is in
range): the new lattice is the product of the old one with it, rounded, so within `10 u A B` of another basis of the same lattice,
where `A` bounds the entries of the lattice and `B` those of the change of basis. The species and positions of the sites are
kept up to vectors of the new lattice and `75 u A' R C`, where `A'`, `R`, `C` bound the new lattice, its inverse and the
coordinates. -/
theorem C88_niggli_keeps_crystal (ρ : Rounding) {u : ℝ} (hu : Relative ρ u) (h1 : u ≤ 1 / 1000) (n : ℕ) (hn : n ≤ 100)
    (hx : ExactInts ρ (3 ^ n)) (r : Reducer (RNum ρ)) (s : Structure (RNum ρ)) (tol : RNum ρ) (st : NigState (RNum ρ))
    (hl : nigLoop (epsilonOf tol s.volume) n ⟨s.metricTensor, 1⟩ = .ret st) :
    ∃ s', r.niggliReduce s tol = .ret s' ∧ s'.species.Pairwise (· ≤ ·) ∧ Consistent s' ∧
      (∃ N : Mat3 ℤ, EntLe N (3 ^ n) ∧ (N.det = 1 ∨ N.det = -1) ∧ (EpsSmall (epsilonOf tol s.volume) → N.det = 1) ∧
        ∀ A : ℝ, 1 ≤ A → EntriesWithin s.lattice A → ∀ B : ℤ, 1 ≤ B → EntLe N B →
          MatClose (valM s'.lattice) (timesInts (valM s.lattice) N) (10 * (u * (A * B)))) ∧
      (∀ A R C : ℝ, 1 ≤ R → 1 ≤ C → EntriesWithin s'.lattice A → SvAbove (valM s'.lattice) →
        ∀ P : Mat3 ℝ, valM s'.lattice * P = 1 → EntsLe P R → (∀ c ∈ s.coords, CompsLe (valV c) C) →
          SitesKept (75 * (u * (A * (R * C)))) s s') := by
  have hret : r.niggliReduce s tol = .ret (r.rebuild s (s.lattice * st.trans)) := by
    unfold niggliReduce
    rw [nigLoop_more hn hl]
    rfl
  have hx' : ExactInts ρ (1 * 3 ^ n) := by rw [one_mul]; exact hx
  refine ⟨_, hret, rebuild_sorted _ _ _, rebuild_consistent _ _ _, ?_, ?_⟩
  · obtain ⟨N, hN, hB, hd⟩ := nigLoop_ints (D := fun d => d = 1 ∨ d = -1)
      (by rintro a b (rfl | rfl) (rfl | rfl) <;> simp) (Or.inl rfl) (goodSigns_any _) n hx' (transInts_one (Or.inl rfl) s.metricTensor) hl
    rw [one_mul] at hB
    refine ⟨N, hB, hd, fun he => ?_, fun A hA hL B hB1 hNB => ?_⟩
    · obtain ⟨N', hN', -, hd'⟩ := nigLoop_ints (D := fun d => d = 1)
        (by rintro a b rfl rfl; rfl) rfl (goodSigns_pos he) n hx' (transInts_one (D := fun d => d = 1) rfl s.metricTensor) hl
      have e : N = N' := by
        unfold IsInts at hN hN'
        rw [hN'] at hN
        have inj : ∀ {i j : ℤ}, (i : ℝ) = j → i = j := fun h => by exact_mod_cast h
        have g1 := congrArg Mat3.m11 hN; have g2 := congrArg Mat3.m12 hN; have g3 := congrArg Mat3.m13 hN
        have g4 := congrArg Mat3.m21 hN; have g5 := congrArg Mat3.m22 hN; have g6 := congrArg Mat3.m23 hN
        have g7 := congrArg Mat3.m31 hN; have g8 := congrArg Mat3.m32 hN; have g9 := congrArg Mat3.m33 hN
        exact (Mat3.ext (inj g1) (inj g2) (inj g3) (inj g4) (inj g5) (inj g6) (inj g7) (inj g8) (inj g9)).symm
      rw [e]; exact hd'
    · exact mul_ints_close hu h1 hA hB1 hL hN hNB
  · intro A R C hR hC hA hsv P hP hPR hcs
    exact rebuild_kept hu h1 hR hC r s hcs hA hsv hP hPR

theorem exactInts64 : ExactInts binary64 (2 ^ 53 - 1) := by
  intro n hn
  refine fl64_of_grid (j := 52) (k := n) (by norm_num) (by norm_num) ?_
  have h2 : |(n : ℝ)| ≤ ((2 ^ 53 - 1 : ℤ) : ℝ) := by exact_mod_cast hn
  refine h2.trans_lt ?_
  norm_num

/-- **C88** in IEEE double precision: 33 iterations. -/
theorem C88_binary64 (r : Reducer (RNum binary64)) (s : Structure (RNum binary64)) (tol : RNum binary64) (st : NigState (RNum binary64))
    (hl : nigLoop (epsilonOf tol s.volume) 33 ⟨s.metricTensor, 1⟩ = .ret st) :
    ∃ s', r.niggliReduce s tol = .ret s' ∧ s'.species.Pairwise (· ≤ ·) ∧ Consistent s' ∧
      (∃ N : Mat3 ℤ, EntLe N (3 ^ 33) ∧ (N.det = 1 ∨ N.det = -1) ∧ (EpsSmall (epsilonOf tol s.volume) → N.det = 1) ∧
        ∀ A : ℝ, 1 ≤ A → EntriesWithin s.lattice A → ∀ B : ℤ, 1 ≤ B → EntLe N B →
          MatClose (valM s'.lattice) (timesInts (valM s.lattice) N) (A * B / 10 ^ 14)) ∧
      (∀ A R C : ℝ, 1 ≤ R → 1 ≤ C → EntriesWithin s'.lattice A → SvAbove (valM s'.lattice) →
        ∀ P : Mat3 ℝ, valM s'.lattice * P = 1 → EntsLe P R → (∀ c ∈ s.coords, CompsLe (valV c) C) →
          SitesKept (A * R * C / 10 ^ 13) s s') := by
  obtain ⟨s', g1, g2, g3, ⟨N, g4, g5, g6, g7⟩, g8⟩ := C88_niggli_keeps_crystal binary64 (u := 1 / 10 ^ 15) (fun x => by
    refine (relative_binary64 x).trans (mul_le_mul_of_nonneg_right ?_ (le_max_of_le_left zero_le_one))
    norm_num) (by norm_num) 33 (by norm_num) (exactInts64.mono (by norm_num)) r s tol st hl
  refine ⟨s', g1, g2, g3, ⟨N, g4, g5, g6, fun A hA hL B hB hN => ?_⟩, fun A R C hR hC hA hsv P hP hPR hcs => ?_⟩
  · have := g7 A hA hL B hB hN
    rwa [show (10 : ℝ) * (1 / 10 ^ 15 * (A * B)) = A * B / 10 ^ 14 by ring] at this
  · obtain ⟨m, m1, m2⟩ := g8 A R C hR hC hA hsv P hP hPR hcs
    refine ⟨m, m1, m2.imp fun p q h => ⟨h.1, ?_⟩⟩
    obtain ⟨w, w1, w2⟩ := h.2
    have hA0 : 0 ≤ A := (abs_nonneg _).trans hA.all.1.1
    refine ⟨w, w1, w2.mono ?_⟩
    rw [show A * R * C / 10 ^ 13 = 100 * (1 / 10 ^ 15 * (A * (R * C))) by ring]
    have : 0 ≤ 1 / 10 ^ 15 * (A * (R * C)) := by positivity
    linarith

end

end CrystSymm
