import Verif.Proofs.RoundedTwinLoop
import Verif.Props.Delaunay

set_option autoImplicit false
set_option linter.unusedSectionVars false

/-! # The Delaunay loop on integer multiples of a unit: rounded and exact arithmetic take the same steps -/

namespace CrystSymm

open Spec Reducer

section
variable {ρ : Rounding} {g : ℝ}

/-- a vector of multiples of `g`. -/
def UnitVec (g : ℝ) (v : Vec3 (RNum ρ)) (a : Vec3 ℤ) : Prop := v.x.val = a.x * g ∧ v.y.val = a.y * g ∧ v.z.val = a.z * g

/-- no multiple is larger than `B`. -/
def VecLe (a : Vec3 ℤ) (B : ℤ) : Prop := |a.x| ≤ B ∧ |a.y| ≤ B ∧ |a.z| ≤ B

theorem UnitVec.add {u v : Vec3 (RNum ρ)} {a b : Vec3 ℤ} {B : ℤ} (hx : ExactMult ρ g (2 * B)) (hu : UnitVec g u a) (hv : UnitVec g v b)
    (ha : VecLe a B) (hb : VecLe b B) : valV (u + v) = valV u + valV v ∧ UnitVec g (u + v) (a + b) := by
  obtain ⟨u1, u2, u3⟩ := hu
  obtain ⟨v1, v2, v3⟩ := hv
  obtain ⟨a1, a2, a3⟩ := ha
  obtain ⟨b1, b2, b3⟩ := hb
  have k : ∀ {x y : RNum ρ} {n m : ℤ}, x.val = n * g → y.val = m * g → |n| ≤ B → |m| ≤ B → (x + y).val = x.val + y.val ∧ (x + y).val = (n + m : ℤ) * g := by
    intro x y n m h1 h2 h3 h4
    have e := hx (n + m) ((abs_add_le n m).trans (by linarith))
    have : x.val + y.val = (n + m : ℤ) * g := by rw [h1, h2]; push_cast; ring
    rw [RNum.val_add, this, e]
    exact ⟨rfl, rfl⟩
  have r1 := k u1 v1 a1 b1
  have r2 := k u2 v2 a2 b2
  have r3 := k u3 v3 a3 b3
  exact ⟨Vec3.ext r1.1 r2.1 r3.1, r1.2, r2.2, r3.2⟩

theorem valV_neg (v : Vec3 (RNum ρ)) : valV (Vec3.scale (-1) v) = Vec3.scale (-1) (valV v) := by
  have k : ∀ x : RNum ρ, ((-1 : RNum ρ) * x).val = (-1) * x.val := fun x => by
    rw [RNum.neg_mul', RNum.one_mul', RNum.val_neg]; ring
  have k' : ∀ x : RNum ρ, (x * (-1 : RNum ρ)).val = x.val * (-1) := fun x => by
    rw [RNum.mul_neg', RNum.mul_one', RNum.val_neg]; ring
  first
    | exact Vec3.ext (k _) (k _) (k _)
    | exact Vec3.ext (k' _) (k' _) (k' _)

theorem UnitVec.neg {v : Vec3 (RNum ρ)} {a : Vec3 ℤ} (h : UnitVec g v a) : UnitVec g (Vec3.scale (-1) v) (-a) := by
  obtain ⟨h1, h2, h3⟩ := h
  have e := valV_neg v
  have e1 : (Vec3.scale (-1) v).x.val = (Vec3.scale (-1) (valV v)).x := congrArg Vec3.x e
  have e2 : (Vec3.scale (-1) v).y.val = (Vec3.scale (-1) (valV v)).y := congrArg Vec3.y e
  have e3 : (Vec3.scale (-1) v).z.val = (Vec3.scale (-1) (valV v)).z := congrArg Vec3.z e
  refine ⟨e1.trans ?_, e2.trans ?_, e3.trans ?_⟩
  · simp only [Vec3.scale, valV, Vec3.map, h1]; simp
  · simp only [Vec3.scale, valV, Vec3.map, h2]; simp
  · simp only [Vec3.scale, valV, Vec3.map, h3]; simp

theorem VecLe.neg {a : Vec3 ℤ} {B : ℤ} (h : VecLe a B) : VecLe (-a) B := by
  obtain ⟨h1, h2, h3⟩ := h
  exact ⟨by simpa using h1, by simpa using h2, by simpa using h3⟩

theorem UnitVec.dot {u v : Vec3 (RNum ρ)} {a b : Vec3 ℤ} {B : ℤ} (hx : ExactMult ρ (g * g) (3 * B * B)) (hu : UnitVec g u a) (hv : UnitVec g v b)
    (ha : VecLe a B) (hb : VecLe b B) : (u.dot v).val = (valV u).dot (valV v) ∧ (u.dot v).val = (a.dot b : ℤ) * (g * g) ∧ |a.dot b| ≤ 3 * B * B := by
  obtain ⟨u1, u2, u3⟩ := hu
  obtain ⟨v1, v2, v3⟩ := hv
  obtain ⟨a1, a2, a3⟩ := ha
  obtain ⟨b1, b2, b3⟩ := hb
  obtain ⟨r1, r2⟩ := mul_dot hx u1 u2 u3 v1 v2 v3 a1 a2 a3 b1 b2 b3
  refine ⟨?_, r1, r2⟩
  refine r1.trans ?_
  show _ = u.x.val * v.x.val + u.y.val * v.y.val + u.z.val * v.z.val
  rw [u1, u2, u3, v1, v2, v3]
  push_cast
  ring

/-- the size of the multiples from the length. -/
theorem UnitVec.le {v : Vec3 (RNum ρ)} {a : Vec3 ℤ} {c : ℤ} (hg : 0 < g) (hc : 0 ≤ c) (h : UnitVec g v a) (hl : lenSq (valV v) ≤ (c * g) ^ 2) :
    VecLe a c := by
  obtain ⟨h1, h2, h3⟩ := h
  have e : lenSq (valV v) = (a.x * g) ^ 2 + (a.y * g) ^ 2 + (a.z * g) ^ 2 := by
    rw [← h1, ← h2, ← h3]
    show v.x.val * v.x.val + v.y.val * v.y.val + v.z.val * v.z.val = _
    ring
  have hc' : (0 : ℝ) ≤ c := by exact_mod_cast hc
  have k : ∀ {n : ℤ}, ((n : ℝ) * g) ^ 2 ≤ (c * g) ^ 2 → |n| ≤ c := by
    intro n hn
    have := abs_le_of_sq_le_sq hn (by positivity)
    rw [abs_mul, abs_of_pos hg] at this
    exact_mod_cast le_of_mul_le_mul_right this hg
  exact ⟨k (by nlinarith [sq_nonneg ((a.y : ℝ) * g), sq_nonneg ((a.z : ℝ) * g)]), k (by nlinarith [sq_nonneg ((a.x : ℝ) * g), sq_nonneg ((a.z : ℝ) * g)]),
    k (by nlinarith [sq_nonneg ((a.x : ℝ) * g), sq_nonneg ((a.y : ℝ) * g)])⟩

/-! ## The tolerance and the largest product -/

/-- the unit is so large that its square is above the tolerance `1e-6`, in both arithmetics. -/
structure AboveTol (ρ : Rounding) (g : ℝ) : Prop where
  g0 : 0 < g
  tol : (zeroTol : RNum ρ).val < g * g
  tolE : 1 / 1000000 < g * g

theorem zeroTol_nonneg : 0 ≤ (zeroTol : RNum ρ).val := by
  have h0 : ρ.fl 0 = 0 := fl_zero ρ
  have k : ∀ n : ℤ, 0 ≤ n → 0 ≤ (lit n : RNum ρ).val := fun n hn => by
    have := ρ.mono 0 (n : ℝ) (by exact_mod_cast hn)
    rw [h0] at this
    exact this
  show 0 ≤ (lit 1 / lit 1000000 : RNum ρ).val
  rw [RNum.val_div]
  have := ρ.mono 0 _ (div_nonneg (k 1 (by norm_num)) (k 1000000 (by norm_num)))
  rwa [h0] at this

theorem AboveTol.iff (h : AboveTol ρ g) {x : RNum ρ} {n : ℤ} (hx : x.val = n * (g * g)) : zeroTol < x ↔ (zeroTol : ℝ) < x.val := by
  have hg : 0 < g * g := mul_pos h.g0 h.g0
  rw [zeroTol_eq]
  show (zeroTol : RNum ρ).val < x.val ↔ _
  rw [hx]
  rcases le_or_gt n 0 with hn | hn
  · have h1 : (n : ℝ) * (g * g) ≤ 0 := mul_nonpos_of_nonpos_of_nonneg (by exact_mod_cast hn) hg.le
    have := zeroTol_nonneg (ρ := ρ)
    exact ⟨fun h' => by linarith, fun h' => by linarith⟩
  · have h1 : g * g ≤ (n : ℝ) * (g * g) := le_mul_of_one_le_left hg.le (by exact_mod_cast hn)
    exact ⟨fun _ => by linarith [h.tolE], fun _ => by linarith [h.tol]⟩

theorem maxIndex_val (l : List (RNum ρ)) (h : ∀ x ∈ l, (zeroTol < x ↔ (zeroTol : ℝ) < x.val)) : maxIndex (l.map RNum.val) = maxIndex l := by
  have key : ∀ (q : List (RNum ρ × ℕ)) (acc : RNum ρ × ℕ), (∀ p ∈ q, (zeroTol < p.1 ↔ (zeroTol : ℝ) < p.1.val)) →
      (q.map fun p => (p.1.val, p.2)).foldl (fun acc p => if (zeroTol : ℝ) < p.1 ∧ acc.1 < p.1 then (p.1, p.2) else acc) (acc.1.val, acc.2) =
        ((q.foldl (fun acc p => if zeroTol < p.1 ∧ acc.1 < p.1 then (p.1, p.2) else acc) acc).1.val,
          (q.foldl (fun acc p => if zeroTol < p.1 ∧ acc.1 < p.1 then (p.1, p.2) else acc) acc).2) := by
    intro q
    induction q with
    | nil => intro acc _; rfl
    | cons p q ih =>
      intro acc hq
      have hp := hq p (by simp)
      have hi : ((zeroTol : ℝ) < p.1.val ∧ acc.1.val < p.1.val) ↔ (zeroTol < p.1 ∧ acc.1 < p.1) := and_congr hp.symm Iff.rfl
      simp only [List.map_cons, List.foldl_cons]
      by_cases hc : zeroTol < p.1 ∧ acc.1 < p.1
      · rw [if_pos (hi.2 hc), if_pos hc]
        exact ih (p.1, p.2) fun x hx => hq x (List.mem_cons_of_mem _ hx)
      · rw [if_neg (fun h' => hc (hi.1 h')), if_neg hc]
        exact ih acc fun x hx => hq x (List.mem_cons_of_mem _ hx)
  unfold maxIndex
  have e : (l.map RNum.val).zipIdx = l.zipIdx.map fun p => (p.1.val, p.2) := by
    rw [List.zipIdx_map]
    rfl
  have h2 := key l.zipIdx (0, 0) (fun p hp => h _ (List.fst_mem_of_mem_zipIdx hp))
  rw [RNum.val_zero] at h2
  rw [e, h2]

/-! ## The loop -/

theorem delaunayStep_apply {K : Type} [Add K] [Mul K] [Neg K] [One K] (p : Fin 4 × Fin 4) (hp : p ∈ pairMap) (d : Fin 4 → Vec3 K) (i : Fin 4) :
    delaunayStep p d i = if i = p.2 then Vec3.scale (-1) (d p.2) else if i = p.1 then d p.1 else d p.2 + d i := by
  simp only [pairMap, List.mem_cons, List.not_mem_nil, or_false] at hp
  rcases hp with rfl | rfl | rfl | rfl | rfl | rfl <;> unfold delaunayStep <;> fin_cases i <;> simp [setCol]

/-- the superbase consists of multiples of the unit, its vectors add up to zero and the sum of their squares is at most `(c g)²`. -/
structure SuperTwin (g : ℝ) (c : ℤ) (d : Fin 4 → Vec3 (RNum ρ)) : Prop where
  unit : ∀ i, ∃ a, UnitVec g (d i) a
  sum : valV (d 0) + valV (d 1) + valV (d 2) + valV (d 3) = 0
  size : superSq (fun i => valV (d i)) ≤ (c * g) ^ 2

variable {c : ℤ} {d : Fin 4 → Vec3 (RNum ρ)}

theorem lenSq_le_super (d : Fin 4 → Vec3 ℝ) (i : Fin 4) : lenSq (d i) ≤ superSq d := by
  unfold superSq
  have := lenSq_nonneg (d 0)
  have := lenSq_nonneg (d 1)
  have := lenSq_nonneg (d 2)
  have := lenSq_nonneg (d 3)
  have k : i = 0 ∨ i = 1 ∨ i = 2 ∨ i = 3 := by revert i; decide
  rcases k with rfl | rfl | rfl | rfl <;> linarith

theorem SuperTwin.vec (h : SuperTwin g c d) (hg : 0 < g) (hc : 0 ≤ c) (i : Fin 4) : ∃ a, UnitVec g (d i) a ∧ VecLe a c := by
  obtain ⟨a, ha⟩ := h.unit i
  exact ⟨a, ha, ha.le hg hc ((lenSq_le_super (fun i => valV (d i)) i).trans h.size)⟩

theorem SuperTwin.dots (h : SuperTwin g c d) (hg : 0 < g) (hc : 0 ≤ c) (hx : ExactMult ρ (g * g) (3 * c * c)) (i j : Fin 4) :
    ((d i).dot (d j)).val = (valV (d i)).dot (valV (d j)) ∧ ∃ n : ℤ, ((d i).dot (d j)).val = n * (g * g) ∧ |n| ≤ 3 * c * c := by
  obtain ⟨a, a1, a2⟩ := h.vec hg hc i
  obtain ⟨b, b1, b2⟩ := h.vec hg hc j
  obtain ⟨r1, r2, r3⟩ := a1.dot hx b1 a2 b2
  exact ⟨r1, _, r2, r3⟩

theorem SuperTwin.prods (h : SuperTwin g c d) (hg : 0 < g) (hc : 0 ≤ c) (hx : ExactMult ρ (g * g) (3 * c * c)) :
    scalarProds (fun i => valV (d i)) = (scalarProds d).map RNum.val := by
  unfold scalarProds
  simp only [List.map_cons, List.map_nil]
  rw [(h.dots hg hc hx 0 1).1, (h.dots hg hc hx 0 2).1, (h.dots hg hc hx 0 3).1, (h.dots hg hc hx 1 2).1, (h.dots hg hc hx 1 3).1,
    (h.dots hg hc hx 2 3).1]

theorem SuperTwin.tols (h : SuperTwin g c d) (ht : AboveTol ρ g) (hc : 0 ≤ c) (hx : ExactMult ρ (g * g) (3 * c * c)) :
    ∀ x ∈ scalarProds d, (zeroTol < x ↔ (zeroTol : ℝ) < x.val) := by
  have k := h.dots ht.g0 hc hx
  intro x hx'
  simp only [scalarProds, List.mem_cons, List.not_mem_nil, or_false] at hx'
  rcases hx' with rfl | rfl | rfl | rfl | rfl | rfl
  · obtain ⟨n, hn, -⟩ := (k 0 1).2; exact ht.iff hn
  · obtain ⟨n, hn, -⟩ := (k 0 2).2; exact ht.iff hn
  · obtain ⟨n, hn, -⟩ := (k 0 3).2; exact ht.iff hn
  · obtain ⟨n, hn, -⟩ := (k 1 2).2; exact ht.iff hn
  · obtain ⟨n, hn, -⟩ := (k 1 3).2; exact ht.iff hn
  · obtain ⟨n, hn, -⟩ := (k 2 3).2; exact ht.iff hn

theorem SuperTwin.step (h : SuperTwin g c d) (hg : 0 < g) (hc : 0 ≤ c) (hx : ExactMult ρ g (2 * c)) {p : Fin 4 × Fin 4} (hp : p ∈ pairMap)
    (hpos : 0 ≤ (valV (d p.1)).dot (valV (d p.2))) :
    (fun i => valV (delaunayStep p d i)) = delaunayStep p (fun i => valV (d i)) ∧ SuperTwin g c (delaunayStep p d) := by
  have e : (fun i => valV (delaunayStep p d i)) = delaunayStep p (fun i => valV (d i)) := by
    funext i
    rw [delaunayStep_apply p hp, delaunayStep_apply p hp]
    split
    · exact valV_neg _
    · split
      · rfl
      · obtain ⟨a, a1, a2⟩ := h.vec hg hc p.2
        obtain ⟨b, b1, b2⟩ := h.vec hg hc i
        exact (a1.add hx b1 a2 b2).1
  refine ⟨e, fun i => ?_, ?_, ?_⟩
  · rw [delaunayStep_apply p hp]
    obtain ⟨a, a1, a2⟩ := h.vec hg hc p.2
    split
    · exact ⟨_, a1.neg⟩
    · split
      · exact h.unit _
      · obtain ⟨b, b1, b2⟩ := h.vec hg hc i
        exact ⟨_, (a1.add hx b1 a2 b2).2⟩
  · have := sum_step (d := fun i => valV (d i)) h.sum hp
    rw [← e] at this
    exact this
  · rw [e, superSq_step (d := fun i => valV (d i)) h.sum hp]
    linarith [h.size]

theorem delaunayLoop_twin (ht : AboveTol ρ g) (hc : 0 ≤ c) (hx : ExactMult ρ g (2 * c)) (hx2 : ExactMult ρ (g * g) (3 * c * c)) (n count : ℕ)
    (h : SuperTwin g c d) :
    ∃ d' count', delaunayLoop n count d = .ret (d', count') ∧ delaunayLoop n count (fun i => valV (d i)) = .ret (fun i => valV (d' i), count') ∧
      SuperTwin g c d' := by
  induction n generalizing count d with
  | zero => exact ⟨d, count, rfl, rfl, h⟩
  | succ n ih =>
    have hp := h.prods ht.g0 hc hx2
    have htl := h.tols ht hc hx2
    have hm : maxIndex (scalarProds fun i => valV (d i)) = maxIndex (scalarProds d) := by rw [hp, maxIndex_val _ htl]
    have ha : ((scalarProds fun i => valV (d i)).any fun v => decide ((zeroTol : ℝ) < v)) =
        ((scalarProds d).any fun v => decide (zeroTol < v)) := by
      rw [hp, List.any_map, Bool.eq_iff_iff]
      simp only [List.any_eq_true, decide_eq_true_eq, Function.comp]
      exact ⟨fun ⟨x, h1, h2⟩ => ⟨x, h1, (htl x h1).2 h2⟩, fun ⟨x, h1, h2⟩ => ⟨x, h1, (htl x h1).1 h2⟩⟩
    rcases delaunayLoop_succ n count (fun i => valV (d i)) with ⟨h1, h2⟩ | ⟨p, h1, h2, h3, h4⟩
    · refine ⟨d, count, ?_, h2, h⟩
      rw [delaunayLoop, if_neg]
      rw [← ha]
      simpa using h1
    · have hany : ((scalarProds fun i => valV (d i)).any fun v => decide ((zeroTol : ℝ) < v)) = true := by
        by_contra hno
        rw [delaunayLoop, if_neg hno] at h4
        obtain ⟨d2, c2, q1, q2, -⟩ := delaunayLoop_ends n (count + 1) (delaunayStep p fun i => valV (d i))
        rw [q1, Outcome.ret.injEq, Prod.mk.injEq] at h4
        omega
      have hgt := maxIndex_spec (scalarProds fun i => valV (d i)) (by simpa using hany)
      obtain ⟨v, v1, v2, v3⟩ := hgt
      obtain ⟨q, q1, q2⟩ := scalarProds_pairMap (fun i => valV (d i)) v1
      have hq := getElem?_pairMap_mem q1
      have hpos : 0 ≤ (valV (d q.1)).dot (valV (d q.2)) := by
        have : (valV (d q.1)).dot (valV (d q.2)) = v := q2
        rw [this]
        exact ((zeroTol_pos (K := ℝ)).trans v2).le
      obtain ⟨s1, s2⟩ := h.step ht.g0 hc hx hq hpos
      obtain ⟨d', count', r1, r2, r3⟩ := ih (count + 1) s2
      refine ⟨d', count', ?_, ?_, r3⟩
      · rw [delaunayLoop, if_pos (by rw [← ha]; exact hany), ← hm, q1]
        exact r1
      · rw [delaunayLoop, if_pos hany, q1]
        rw [s1] at r2
        exact r2

/-! ## The choice of the lattice -/

/-- square roots of different multiples remain different when rounded. -/
def RootsApart (ρ : Rounding) (γ : ℝ) (B : ℤ) : Prop := ∀ n m : ℤ, 0 ≤ n → n < m → m ≤ B → ρ.fl (Real.sqrt (n * γ)) < ρ.fl (Real.sqrt (m * γ))

theorem mag_twin (hg : 0 < g) {B : ℤ} (hr : RootsApart ρ (g * g) B) {u v : Vec3 (RNum ρ)} {n m : ℤ} (hu : u.normSq.val = n * (g * g))
    (hv : v.normSq.val = m * (g * g)) (hu' : u.normSq.val = (valV u).normSq) (hv' : v.normSq.val = (valV v).normSq) (hm : 0 ≤ m)
    (hnB : n ≤ B) : u.mag ≤ v.mag ↔ (valV u).mag ≤ (valV v).mag := by
  have e1 : u.mag.val = ρ.fl (Real.sqrt (n * (g * g))) := by
    show ρ.fl (Real.sqrt u.normSq.val) = _; rw [hu]
  have e2 : v.mag.val = ρ.fl (Real.sqrt (m * (g * g))) := by
    show ρ.fl (Real.sqrt v.normSq.val) = _; rw [hv]
  have e3 : (valV u).mag = Real.sqrt (n * (g * g)) := by
    show Real.sqrt (valV u).normSq = _; rw [← hu', hu]
  have e4 : (valV v).mag = Real.sqrt (m * (g * g)) := by
    show Real.sqrt (valV v).normSq = _; rw [← hv', hv]
  show u.mag.val ≤ v.mag.val ↔ _
  rw [e1, e2, e3, e4]
  have hgg : 0 < g * g := mul_pos hg hg
  rcases le_or_gt n m with h | h
  · have h1 : (n : ℝ) * (g * g) ≤ m * (g * g) := mul_le_mul_of_nonneg_right (by exact_mod_cast h) hgg.le
    have h2 := Real.sqrt_le_sqrt h1
    exact ⟨fun _ => h2, fun _ => ρ.mono _ _ h2⟩
  · have h1 := hr m n hm h hnB
    have h2 : (m : ℝ) * (g * g) < n * (g * g) := mul_lt_mul_of_pos_right (by exact_mod_cast h) hgg
    have h3 : Real.sqrt (m * (g * g)) < Real.sqrt (n * (g * g)) :=
      Real.sqrt_lt_sqrt (mul_nonneg (by exact_mod_cast hm) hgg.le) h2
    exact ⟨fun h' => absurd h' (not_le.2 h1), fun h' => absurd h' (not_le.2 h3)⟩

theorem neg_lt_twin {x y : RNum ρ} : -x < -y ↔ -x.val < -y.val := by
  show (-x).val < (-y).val ↔ _
  rw [RNum.val_neg, RNum.val_neg]

theorem add_dots (hg : 0 < g) {c : ℤ} (hx : ExactMult ρ (g * g) (6 * c * c)) {x y : RNum ρ} {n m : ℤ} (h1 : x.val = n * (g * g)) (h2 : y.val = m * (g * g))
    (b1 : |n| ≤ 3 * c * c) (b2 : |m| ≤ 3 * c * c) : (x + y).val = x.val + y.val := by
  rw [RNum.val_add, h1, h2, ← add_mul, ← Int.cast_add]
  exact hx _ ((abs_add_le n m).trans (by linarith))

theorem triAcute_twin (hg : 0 < g) {c : ℤ} (hx : ExactMult ρ g (2 * c)) (hx2 : ExactMult ρ (g * g) (6 * c * c)) {b0 b1 b2 b3 : Vec3 (RNum ρ)}
    (h0 : ∃ a, UnitVec g b0 a ∧ VecLe a c) (h1 : ∃ a, UnitVec g b1 a ∧ VecLe a c) (h2 : ∃ a, UnitVec g b2 a ∧ VecLe a c)
    (h3 : ∃ a, UnitVec g b3 a ∧ VecLe a c) : valM (triAcute b0 b1 b2 b3) = triAcute (valV b0) (valV b1) (valV b2) (valV b3) := by
  obtain ⟨a0, u0, w0⟩ := h0
  obtain ⟨a1, u1, w1⟩ := h1
  obtain ⟨a2, u2, w2⟩ := h2
  obtain ⟨a3, u3, w3⟩ := h3
  have hx3 : ExactMult ρ (g * g) (3 * c * c) := hx2.mono (by nlinarith [mul_self_nonneg c])
  obtain ⟨p01, q01, z01⟩ := u0.dot hx3 u1 w0 w1
  obtain ⟨p02, q02, z02⟩ := u0.dot hx3 u2 w0 w2
  obtain ⟨p03, q03, z03⟩ := u0.dot hx3 u3 w0 w3
  obtain ⟨p12, q12, z12⟩ := u1.dot hx3 u2 w1 w2
  obtain ⟨p13, q13, z13⟩ := u1.dot hx3 u3 w1 w3
  have s1 := add_dots hg hx2 q02 q03 z02 z03
  have s2 := add_dots hg hx2 q01 q13 z01 z13
  have s3 := add_dots hg hx2 q01 q03 z01 z03
  have c1 : -(b0.dot b1) < -(b0.dot b2 + b0.dot b3) ↔ -(valV b0).dot (valV b1) < -((valV b0).dot (valV b2) + (valV b0).dot (valV b3)) := by
    rw [neg_lt_twin, s1, p01, p02, p03]
  have c2 : -(b1.dot b2) < -(b0.dot b1 + b1.dot b3) ↔ -(valV b1).dot (valV b2) < -((valV b0).dot (valV b1) + (valV b1).dot (valV b3)) := by
    rw [neg_lt_twin, s2, p12, p01, p13]
  have c3 : -(b0.dot b2) < -(b0.dot b1 + b0.dot b3) ↔ -(valV b0).dot (valV b2) < -((valV b0).dot (valV b1) + (valV b0).dot (valV b3)) := by
    rw [neg_lt_twin, s3, p02, p01, p03]
  have v01 := (u0.add hx u1 w0 w1).1
  have v12 := (u1.add hx u2 w1 w2).1
  have v02 := (u0.add hx u2 w0 w2).1
  have cols : ∀ x y z : Vec3 (RNum ρ), valM (Mat3.ofCols x y z) = Mat3.ofCols (valV x) (valV y) (valV z) := fun _ _ _ => rfl
  unfold triAcute
  simp only
  by_cases k1 : -(b0.dot b1) < -(b0.dot b2 + b0.dot b3)
  · rw [if_pos k1, if_pos (c1.1 k1), cols, valV_neg, valV_neg, v01]
  · rw [if_neg k1, if_neg (fun h => k1 (c1.2 h))]
    by_cases k2 : -(b1.dot b2) < -(b0.dot b1 + b1.dot b3)
    · rw [if_pos k2, if_pos (c2.1 k2), cols, valV_neg, valV_neg, v12]
    · rw [if_neg k2, if_neg (fun h => k2 (c2.2 h))]
      by_cases k3 : -(b0.dot b2) < -(b0.dot b1 + b0.dot b3)
      · rw [if_pos k3, if_pos (c3.1 k3), cols, valV_neg, valV_neg, v02]
      · rw [if_neg k3, if_neg (fun h => k3 (c3.2 h)), cols]

theorem SuperTwin.lattice (h : SuperTwin g c d) (hg : 0 < g) (hc : 0 ≤ c) (hx : ExactMult ρ g (2 * c)) (hx2 : ExactMult ρ (g * g) (6 * c * c))
    (full : Bool) (hr : full = true → RootsApart ρ (g * g) (c * c)) :
    ∃ M, delaunayLattice full d = .ret M ∧ delaunayLattice full (fun i => valV (d i)) = .ret (valM M) := by
  cases full with
  | false => exact ⟨Mat3.ofCols (d 0) (d 1) (d 2), rfl, rfl⟩
  | true =>
    have hx3 : ExactMult ρ (g * g) (3 * c * c) := hx2.mono (by nlinarith [mul_self_nonneg c])
    have hgg : 0 < g * g := mul_pos hg hg
    have hmag : ∀ i j, ((d i).mag ≤ (d j).mag ↔ (valV (d i)).mag ≤ (valV (d j)).mag) := by
      intro i j
      have sq : ∀ i, ∃ n : ℤ, (d i).normSq.val = n * (g * g) ∧ (d i).normSq.val = (valV (d i)).normSq ∧ 0 ≤ n ∧ n ≤ c * c := by
        intro i
        obtain ⟨k1, n, k2, k3⟩ := h.dots hg hc hx3 i i
        have e1 : (valV (d i)).normSq = lenSq (valV (d i)) := rfl
        have e2 : lenSq (valV (d i)) = n * (g * g) := k1.symm.trans k2
        refine ⟨n, k2, k1, ?_, ?_⟩
        · have := lenSq_nonneg (valV (d i))
          rw [e2] at this
          exact_mod_cast (mul_nonneg_iff_of_pos_right hgg).1 this
        · have := (lenSq_le_super (fun i => valV (d i)) i).trans h.size
          have this : lenSq (valV (d i)) ≤ (c * g) ^ 2 := this
          rw [e2, show ((c : ℝ) * g) ^ 2 = (c * c : ℤ) * (g * g) by push_cast; ring] at this
          exact_mod_cast le_of_mul_le_mul_right this hgg
      obtain ⟨n, a1, a2, a3, a4⟩ := sq i
      obtain ⟨m, b1, b2, b3, b4⟩ := sq j
      exact mag_twin hg (hr rfl) a1 b1 a2 b2 b3 a4
    have hmap : (sortByMag [d 0, d 1, d 2, d 3]).map valV = sortByMag [valV (d 0), valV (d 1), valV (d 2), valV (d 3)] := by
      unfold sortByMag
      have := List.map_mergeSort (r := fun u v : Vec3 (RNum ρ) => decide (u.mag ≤ v.mag)) (s := fun u v : Vec3 ℝ => decide (u.mag ≤ v.mag))
        (f := valV) (l := [d 0, d 1, d 2, d 3]) (by
          intro a ha b hb
          have mem : ∀ x ∈ [d 0, d 1, d 2, d 3], ∃ i, x = d i := by
            intro x hx'
            simp only [List.mem_cons, List.not_mem_nil, or_false] at hx'
            rcases hx' with e | e | e | e <;> exact ⟨_, e⟩
          obtain ⟨i, rfl⟩ := mem a ha
          obtain ⟨j, rfl⟩ := mem b hb
          exact decide_eq_decide.2 (hmag i j))
      exact this
    have hperm : (sortByMag [d 0, d 1, d 2, d 3]).Perm [d 0, d 1, d 2, d 3] := List.mergeSort_perm _ _
    obtain ⟨b0, b1, b2, b3, hb⟩ : ∃ b0 b1 b2 b3, sortByMag [d 0, d 1, d 2, d 3] = [b0, b1, b2, b3] := by
      have hl := hperm.length_eq
      generalize sortByMag [d 0, d 1, d 2, d 3] = l at hl
      match l, hl with
      | [x, y, z, w], _ => exact ⟨x, y, z, w, rfl⟩
    rw [hb] at hmap hperm
    have mem : ∀ x ∈ [b0, b1, b2, b3], ∃ a, UnitVec g x a ∧ VecLe a c := by
      intro x hx'
      have := hperm.mem_iff.1 hx'
      simp only [List.mem_cons, List.not_mem_nil, or_false] at this
      rcases this with rfl | rfl | rfl | rfl <;> exact h.vec hg hc _
    refine ⟨triAcute b0 b1 b2 b3, ?_, ?_⟩
    · unfold delaunayLattice
      simp only [if_true, hb]
    · unfold delaunayLattice
      simp only [if_true, ← hmap, List.map_cons, List.map_nil]
      rw [triAcute_twin hg hx hx2 (mem _ (by simp)) (mem _ (by simp)) (mem _ (by simp)) (mem _ (by simp))]

end

end CrystSymm
