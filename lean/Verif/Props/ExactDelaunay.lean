import Verif.Proofs.RoundedDelaunay
import Verif.Props.ExactNiggli
import Verif.Props.DelaunayFull
import Verif.Props.DelaunayUnique

set_option autoImplicit false
set_option linter.unusedSectionVars false

/-! # C91: Delaunay reduction makes no rounding error on lattices of integer multiples of a unit -/

namespace CrystSymm

open Spec Reducer

section
variable {ρ : Rounding} {g : ℝ} {A : ℤ} {Lz : Mat3 ℤ} {s : Structure (RNum ρ)}

/-- the multiples of `g` and of its square that occur are representable, the square is above the tolerance `1e-6`, and different multiples
have different rounded square roots. -/
structure DelaunayGrid (ρ : Rounding) (g : ℝ) (A : ℤ) : Prop where
  A1 : 1 ≤ A
  above : AboveTol ρ g
  unit : ExactMult ρ g (12 * A)
  square : ExactMult ρ (g * g) (216 * A ^ 2)
  roots : RootsApart ρ (g * g) (36 * A ^ 2)

theorem delaunay_start (hx : DelaunayGrid ρ g A) (hl : valM s.lattice = timesUnit g Lz) (he : EntLe Lz A) :
    (fun i => valV (s.delaunayMatrix i)) = (asReal s).delaunayMatrix ∧ SuperTwin g (6 * A) s.delaunayMatrix := by
  obtain ⟨⟨t1, t2, t3⟩, ⟨t4, t5, t6⟩, ⟨t7, t8, t9⟩⟩ := IsMul.entries hl
  obtain ⟨⟨a1, a2, a3⟩, ⟨a4, a5, a6⟩, ⟨a7, a8, a9⟩⟩ := he
  have hA := hx.A1
  have hg := hx.above.g0
  have u0 : UnitVec g s.lattice.col0 Lz.col0 := ⟨t1, t4, t7⟩
  have u1 : UnitVec g s.lattice.col1 Lz.col1 := ⟨t2, t5, t8⟩
  have u2 : UnitVec g s.lattice.col2 Lz.col2 := ⟨t3, t6, t9⟩
  have w0 : VecLe Lz.col0 A := ⟨a1, a4, a7⟩
  have w1 : VecLe Lz.col1 A := ⟨a2, a5, a8⟩
  have w2 : VecLe Lz.col2 A := ⟨a3, a6, a9⟩
  have up : ∀ {v : Vec3 ℤ} {B B' : ℤ}, VecLe v B → B ≤ B' → VecLe v B' := fun h hB => ⟨h.1.trans hB, h.2.1.trans hB, h.2.2.trans hB⟩
  obtain ⟨e01, u01⟩ := u0.add (B := A) (hx.unit.mono (by linarith)) u1 w0 w1
  have w01 : VecLe (Lz.col0 + Lz.col1) (2 * A) := by
    refine ⟨(abs_add_le _ _).trans ?_, (abs_add_le _ _).trans ?_, (abs_add_le _ _).trans ?_⟩
    · linarith [w0.1, w1.1]
    · linarith [w0.2.1, w1.2.1]
    · linarith [w0.2.2, w1.2.2]
  obtain ⟨e012, u012⟩ := u01.add (B := 2 * A) (hx.unit.mono (by linarith)) u2 w01 (up w2 (by linarith))
  have e : (fun i => valV (s.delaunayMatrix i)) = (asReal s).delaunayMatrix := by
    funext i
    have k : i = 0 ∨ i = 1 ∨ i = 2 ∨ i = 3 := by revert i; decide
    rcases k with rfl | rfl | rfl | rfl
    · rfl
    · rfl
    · rfl
    · show valV (Vec3.scale (-1) _) = Vec3.scale (-1) _
      rw [valV_neg, e012, e01]
      rfl
  refine ⟨e, fun i => ?_, ?_, ?_⟩
  · have k : i = 0 ∨ i = 1 ∨ i = 2 ∨ i = 3 := by revert i; decide
    rcases k with rfl | rfl | rfl | rfl
    · exact ⟨_, u0⟩
    · exact ⟨_, u1⟩
    · exact ⟨_, u2⟩
    · exact ⟨_, u012.neg⟩
  · have := delaunayMatrix_sum (asReal s)
    rw [← e] at this
    exact this
  · rw [e]
    have q : ∀ {n : ℤ}, |n| ≤ A → ((n : ℝ) * g) ^ 2 ≤ (A * g) ^ 2 := fun {n} hn => by
      have : |(n : ℝ) * g| ≤ A * g := by
        rw [abs_mul, abs_of_pos hg]
        exact mul_le_mul_of_nonneg_right (by exact_mod_cast hn) hg.le
      exact sq_le_sq' (abs_le.1 this).1 (abs_le.1 this).2
    have cl : ∀ {x y z : ℝ}, (x + y + z) ^ 2 ≤ 3 * (x ^ 2 + y ^ 2 + z ^ 2) := fun {x y z} => by
      nlinarith [sq_nonneg (x - y), sq_nonneg (y - z), sq_nonneg (x - z)]
    have ev : superSq (asReal s).delaunayMatrix = ((Lz.m11 * g) ^ 2 + (Lz.m21 * g) ^ 2 + (Lz.m31 * g) ^ 2) +
        ((Lz.m12 * g) ^ 2 + (Lz.m22 * g) ^ 2 + (Lz.m32 * g) ^ 2) + ((Lz.m13 * g) ^ 2 + (Lz.m23 * g) ^ 2 + (Lz.m33 * g) ^ 2) +
        ((Lz.m11 * g + Lz.m12 * g + Lz.m13 * g) ^ 2 + (Lz.m21 * g + Lz.m22 * g + Lz.m23 * g) ^ 2 + (Lz.m31 * g + Lz.m32 * g + Lz.m33 * g) ^ 2) := by
      have hl' : (asReal s).lattice = timesUnit g Lz := hl
      simp only [superSq, Structure.delaunayMatrix, hl', timesUnit, Mat3.map, Mat3.col0, Mat3.col1, Mat3.col2, lenSq, Vec3.scale, Vec3.add_x, Vec3.add_y, Vec3.add_z]
      ring
    rw [ev]
    have c1 := cl (x := Lz.m11 * g) (y := Lz.m12 * g) (z := Lz.m13 * g)
    have c2 := cl (x := Lz.m21 * g) (y := Lz.m22 * g) (z := Lz.m23 * g)
    have c3 := cl (x := Lz.m31 * g) (y := Lz.m32 * g) (z := Lz.m33 * g)
    have q1 := q a1; have q2 := q a2; have q3 := q a3; have q4 := q a4; have q5 := q a5; have q6 := q a6
    have q7 := q a7; have q8 := q a8; have q9 := q a9
    push_cast
    linarith

theorem delaunay_runs (hx : DelaunayGrid ρ g A) (hl : valM s.lattice = timesUnit g Lz) (he : EntLe Lz A) (full : Bool) :
    ∃ d count M, delaunayLoop 101 0 s.delaunayMatrix = .ret (d, count) ∧
      delaunayLoop 101 0 (asReal s).delaunayMatrix = .ret (fun i => valV (d i), count) ∧ delaunayLattice full d = .ret M ∧
      delaunayLattice full (fun i => valV (d i)) = .ret (valM M) ∧ SuperTwin g (6 * A) d := by
  obtain ⟨e, h⟩ := delaunay_start hx hl he
  have hA := hx.A1
  have hx1 : ExactMult ρ g (2 * (6 * A)) := hx.unit.mono (by linarith)
  have hx2 : ExactMult ρ (g * g) (6 * (6 * A) * (6 * A)) := hx.square.mono (by nlinarith)
  have hx3 : ExactMult ρ (g * g) (3 * (6 * A) * (6 * A)) := hx.square.mono (by nlinarith)
  obtain ⟨d, count, h1, h2, h3⟩ := delaunayLoop_twin hx.above (by linarith) hx1 hx3 101 0 h
  obtain ⟨M, m1, m2⟩ := h3.lattice hx.above.g0 (by linarith) hx1 hx2 full (fun _ => by
    rw [show 6 * A * (6 * A) = 36 * A ^ 2 by ring]; exact hx.roots)
  rw [e] at h2
  exact ⟨d, count, M, h1, h2, m1, m2, h3⟩

/-- **C91** Lattices of integer multiples of a unit whose square is above the tolerance: the rounded Delaunay reduction returns if and only if
the exact one does, and then with exactly the same lattice; otherwise both panic with the same message. -/
theorem C91_same_run (ρ : Rounding) (g : ℝ) (A : ℤ) (Lz : Mat3 ℤ) (s : Structure (RNum ρ)) (hx : DelaunayGrid ρ g A)
    (hl : valM s.lattice = timesUnit g Lz) (he : EntLe Lz A) (r : Reducer (RNum ρ)) (r' : Reducer ℝ) (full : Bool) :
    (∃ s' t', r.delaunayReduce s full = .ret s' ∧ r'.delaunayReduce (asReal s) full = .ret t' ∧ valM s'.lattice = t'.lattice) ∨
      (∃ msg, r.delaunayReduce s full = .panic msg ∧ r'.delaunayReduce (asReal s) full = .panic msg) := by
  obtain ⟨d, count, M, h1, h2, h3, h4, -⟩ := delaunay_runs hx hl he full
  unfold delaunayReduce
  rw [h1, h2]
  by_cases hc : count = 100
  · exact Or.inr ⟨_, by simp [Outcome.bind, hc]; rfl, by simp [Outcome.bind, hc]⟩
  · refine Or.inl ⟨r.rebuild s M, r'.rebuild (asReal s) (valM M), ?_, ?_, rfl⟩
    · simp [Outcome.bind, hc, h3]
    · simp [Outcome.bind, hc, h4]

theorem adjOver_neg {M : Mat3 ℝ} {d R : ℝ} (h : EntsLe (adjOver M (-d)) R) : EntsLe (adjOver M d) R := by
  simpa only [EntsLe, adjOver, div_neg, abs_neg] using h

theorem mul_adjOver_ne {M : Mat3 ℝ} {d : ℝ} (hd : M.det = d) (h0 : d ≠ 0) : M * adjOver M d = 1 := by
  unfold Mat3.det at hd
  ext <;> simp [adjOver] <;> field_simp <;> linarith [hd]

/-- **C91** The lattice that the rounded reduction returns is exactly another basis of the same lattice. The species and positions of
the sites are kept up to its vectors and a rounding error. -/
theorem C91_same_lattice (ρ : Rounding) (g : ℝ) (A : ℤ) (Lz : Mat3 ℤ) (s : Structure (RNum ρ)) (hx : DelaunayGrid ρ g A)
    (hl : valM s.lattice = timesUnit g Lz) (he : EntLe Lz A) (r : Reducer (RNum ρ)) (full : Bool) (s' : Structure (RNum ρ))
    (hr : r.delaunayReduce s full = .ret s') :
    s'.species.Pairwise (· ≤ ·) ∧ Consistent s' ∧
      (∃ N : Mat3 ℤ, (N.det = 1 ∨ N.det = -1) ∧ valM s'.lattice = timesInts (valM s.lattice) N) ∧
      ∀ u : ℝ, Relative ρ u → u ≤ 1 / 1000 → 11664 * (A : ℝ) ^ 4 < 10 ^ 12 * Lz.det ^ 2 * g ^ 2 →
        ∀ R C : ℝ, 1 ≤ R → 1 ≤ C → 288 * (A : ℝ) ^ 2 ≤ R * (|(Lz.det : ℝ)| * g) → (∀ c ∈ s.coords, CompsLe (valV c) C) →
          SitesKept (75 * (u * (12 * A * g * (R * C)))) s s' := by
  obtain ⟨d, count, M, h1, h2, h3, h4, h5⟩ := delaunay_runs hx hl he full
  obtain ⟨d', count', M', k1, -, k3, rfl⟩ := delaunayReduce_ret hr
  rw [h1, Outcome.ret.injEq, Prod.mk.injEq] at k1
  obtain ⟨rfl, rfl⟩ := k1
  rw [h3, Outcome.ret.injEq] at k3
  obtain rfl := k3
  obtain ⟨w, hw⟩ := delaunayLoop_super (superOf_init (asReal s)) h2
  obtain ⟨N, hN, hMN⟩ := delaunayLattice_unimodular hw h4
  have hg := hx.above.g0
  have hA := hx.A1
  have hA' : (1 : ℝ) ≤ A := by exact_mod_cast hA
  have hM : valM M = timesInts (valM s.lattice) N := hMN
  have hMz : valM M = timesUnit g (Lz * N) := by
    rw [hM]
    unfold timesInts
    rw [hl]
    exact unit_cell g Lz N
  refine ⟨rebuild_sorted _ _ _, rebuild_consistent _ _ _, ⟨N, hN, hM⟩, ?_⟩
  intro u hu hu1 hsize R C hR hC hRd hcs
  have hsq : lenSq (valM M).col0 + lenSq (valM M).col1 + lenSq (valM M).col2 ≤ 3 * ((6 * A : ℤ) * g) ^ 2 :=
    (delaunayLattice_size h4).trans (by linarith [h5.size])
  have es : lenSq (valM M).col0 + lenSq (valM M).col1 + lenSq (valM M).col2 = sumSq (Lz * N) * (g * g) := by
    rw [hMz]; exact edgeSum_unit g _
  have hgg : 0 < g * g := mul_pos hg hg
  have hsz : sumSq (Lz * N) ≤ 108 * A ^ 2 := by
    rw [es, show 3 * (((6 * A : ℤ) : ℝ) * g) ^ 2 = (108 * A ^ 2 : ℤ) * (g * g) by push_cast; ring] at hsq
    exact_mod_cast le_of_mul_le_mul_right hsq hgg
  have hE : EntLe (Lz * N) (3 * (4 * A)) := entLe_of_sumSq (by linarith) (by nlinarith)
  have hdN : (Lz * N).det = Lz.det ∨ (Lz * N).det = -Lz.det := by
    rw [Mat3.det_mul]
    rcases hN with e | e <;> rw [e]
    · left; ring
    · right; ring
  have hd0 : Lz.det ≠ 0 := by
    intro h0
    rw [h0] at hsize
    norm_num at hsize
    have : (0 : ℝ) ≤ 11664 * (A : ℝ) ^ 4 := by positivity
    linarith
  have hd2 : ((Lz * N).det : ℝ) ^ 2 = (Lz.det : ℝ) ^ 2 := by rcases hdN with e | e <;> rw [e] <;> push_cast <;> ring
  have hdn : (Lz * N).det ≠ 0 := by rcases hdN with e | e <;> rw [e] <;> simpa using hd0
  have hda : |((Lz * N).det : ℝ)| = |(Lz.det : ℝ)| := by rcases hdN with e | e <;> rw [e] <;> simp
  refine rebuild_kept hu hu1 hR hC r s hcs (A := 12 * A * g) ?_ ?_ (P := adjOver (timesUnit g (Lz * N)) ((Lz * N).det * (g * (g * g)))) ?_ ?_
  · have := entries_unit hg.le hMz hE
    push_cast at this
    rwa [show 3 * (4 * (A : ℝ)) * g = 12 * A * g by ring] at this
  · refine svAbove_of_size ?_
    rw [es, hMz, det_timesUnit]
    have h6 : ((sumSq (Lz * N) : ℤ) : ℝ) ≤ 108 * (A : ℝ) ^ 2 := by exact_mod_cast hsz
    have h7 : (0 : ℝ) ≤ (sumSq (Lz * N) : ℤ) := by rw [sumSq_eq]; push_cast; positivity
    have h8 : ((sumSq (Lz * N) : ℤ) : ℝ) ^ 2 ≤ 11664 * (A : ℝ) ^ 4 := by
      have := pow_le_pow_left₀ h7 h6 2
      linarith
    have h9 : ((sumSq (Lz * N) : ℤ) : ℝ) ^ 2 < 10 ^ 12 * ((Lz * N).det : ℝ) ^ 2 * g ^ 2 := by rw [hd2]; exact lt_of_le_of_lt h8 hsize
    have g4 : (0 : ℝ) < g ^ 4 := by positivity
    calc _ = ((sumSq (Lz * N) : ℤ) : ℝ) ^ 2 * g ^ 4 := by ring
      _ < 10 ^ 12 * ((Lz * N).det : ℝ) ^ 2 * g ^ 2 * g ^ 4 := mul_lt_mul_of_pos_right h9 g4
      _ = _ := by ring
  · rw [hMz]
    refine mul_adjOver_ne (by rw [det_timesUnit]) ?_
    have : ((Lz * N).det : ℝ) ≠ 0 := by exact_mod_cast hdn
    positivity
  · have hpos : (0 : ℝ) < |((Lz * N).det : ℝ)| := abs_pos.2 (by exact_mod_cast hdn)
    have key : ∀ D : ℤ, (0 : ℝ) < D → |((Lz * N).det : ℝ)| = D → EntsLe (adjOver (timesUnit g (Lz * N)) (D * (g * (g * g)))) R := by
      intro D hD hDe
      refine adjOver_le (A := 4 * A) hg (by linarith) hE hD ?_
      rw [← hDe, hda]
      push_cast
      linarith
    rcases lt_or_gt_of_ne hdn with hneg | hp
    · have hneg' : ((Lz * N).det : ℝ) < 0 := by exact_mod_cast hneg
      have := key (-(Lz * N).det) (by push_cast; linarith) (by rw [abs_of_neg hneg']; push_cast; rfl)
      refine adjOver_neg ?_
      rw [show -(((Lz * N).det : ℝ) * (g * (g * g))) = ((-(Lz * N).det : ℤ) : ℝ) * (g * (g * g)) by push_cast; ring]
      exact this
    · have hp' : (0 : ℝ) < (Lz * N).det := by exact_mod_cast hp
      exact key _ hp' (abs_of_pos hp')

/-- the sum of the squares of `a`, `b`, `c` and `a + b + c`. -/
def superSum (M : Mat3 ℤ) : ℤ := sumSq M + (M.m11 + M.m12 + M.m13) ^ 2 + (M.m21 + M.m22 + M.m23) ^ 2 + (M.m31 + M.m32 + M.m33) ^ 2

theorem superSq_unit {t : Structure ℝ} (hl : t.lattice = timesUnit g Lz) : superSq t.delaunayMatrix = superSum Lz * (g * g) := by
  simp only [superSq, Structure.delaunayMatrix, hl, timesUnit, Mat3.map, Mat3.col0, Mat3.col1, Mat3.col2, lenSq, Vec3.scale, Vec3.add_x, Vec3.add_y,
    Vec3.add_z, superSum, sumSq_eq]
  push_cast
  ring

theorem commensurate_unit {t : Structure ℝ} (hl : t.lattice = timesUnit g Lz) : Commensurate (g * g) t.delaunayMatrix := by
  have k : ∀ i, ∃ a : Vec3 ℤ, t.delaunayMatrix i = ⟨a.x * g, a.y * g, a.z * g⟩ := by
    intro i
    have k : i = 0 ∨ i = 1 ∨ i = 2 ∨ i = 3 := by revert i; decide
    rcases k with rfl | rfl | rfl | rfl
    · exact ⟨Lz.col0, by simp [Structure.delaunayMatrix, hl, timesUnit, Mat3.map, Mat3.col0]⟩
    · exact ⟨Lz.col1, by simp [Structure.delaunayMatrix, hl, timesUnit, Mat3.map, Mat3.col1]⟩
    · exact ⟨Lz.col2, by simp [Structure.delaunayMatrix, hl, timesUnit, Mat3.map, Mat3.col2]⟩
    · refine ⟨-(Lz.col0 + Lz.col1 + Lz.col2), ?_⟩
      ext <;> simp [Structure.delaunayMatrix, hl, timesUnit, Mat3.map, Mat3.col0, Mat3.col1, Mat3.col2, Vec3.scale] <;> ring
  intro i j
  obtain ⟨a, ha⟩ := k i
  obtain ⟨b, hb⟩ := k j
  refine ⟨a.dot b, ?_⟩
  rw [ha, hb]
  simp only [Vec3.dot]
  push_cast
  ring

/-- **C91** If the sum of the squares of `a`, `b`, `c` and `a + b + c` is less than 200 units, the rounded reduction returns: an exactly obtuse
superbase without full reduction, and a cell in which no angle is obtuse with it. -/
theorem C91_returns (ρ : Rounding) (g : ℝ) (A : ℤ) (Lz : Mat3 ℤ) (s : Structure (RNum ρ)) (hx : DelaunayGrid ρ g A)
    (hl : valM s.lattice = timesUnit g Lz) (he : EntLe Lz A) (hs : superSum Lz < 200) (r : Reducer (RNum ρ)) :
    (∃ s', r.delaunayReduce s false = .ret s' ∧ ExactObtuse (valM s'.lattice)) ∧
      (Lz.det ≠ 0 → 1 / 500000 < g * g → ∃ s', r.delaunayReduce s true = .ret s' ∧ 0 ≤ dotp (valM s'.lattice).col0 (valM s'.lattice).col1 ∧
        0 ≤ dotp (valM s'.lattice).col0 (valM s'.lattice).col2 ∧ 0 ≤ dotp (valM s'.lattice).col1 (valM s'.lattice).col2) := by
  have hg := hx.above.g0
  have hgg : 0 < g * g := mul_pos hg hg
  have hl' : (asReal s).lattice = timesUnit g Lz := hl
  have hc := commensurate_unit hl'
  have hsz : superSq (asReal s).delaunayMatrix < 200 * (g * g) := by
    rw [superSq_unit hl']
    exact mul_lt_mul_of_pos_right (by exact_mod_cast hs) hgg
  obtain ⟨t, t1, t2⟩ := C23_delaunay_reduces_commensurate_partial ⟨1, 1⟩ (asReal s) (g * g) hgg hc hsz
  constructor
  · rcases C91_same_run ρ g A Lz s hx hl he r ⟨1, 1⟩ false with ⟨s', t', k1, k2, k3⟩ | ⟨msg, -, k2⟩
    · rw [t1, Outcome.ret.injEq] at k2
      subst k2
      exact ⟨s', k1, by rw [k3]; exact exactObtuse_of_commensurate hx.above.tolE hc t1 t2⟩
    · rw [t1] at k2; cases k2
  · intro hd h2
    have hV : (asReal s).volume ≠ 0 := by
      show (asReal s).lattice.det ≠ 0
      rw [hl', det_timesUnit]
      have : (Lz.det : ℝ) ≠ 0 := by exact_mod_cast hd
      positivity
    obtain ⟨t', t3, t4⟩ := C66_full_no_obtuse_angle ⟨1, 1⟩ (asReal s) t hV t1 t2
    rcases C91_same_run ρ g A Lz s hx hl he r ⟨1, 1⟩ true with ⟨s', t'', k1, k2, k3⟩ | ⟨msg, -, k2⟩
    · rw [t3, Outcome.ret.injEq] at k2
      subst k2
      refine ⟨s', k1, ?_⟩
      obtain ⟨-, -, ⟨N, -, hN⟩, -⟩ := C91_same_lattice ρ g A Lz s hx hl he r true s' k1
      have hz : valM s'.lattice = timesUnit g (Lz * N) := by
        rw [hN]
        unfold timesInts
        rw [hl]
        exact unit_cell g Lz N
      rw [← k3, hz] at t4
      rw [hz]
      have q : ∀ {x : ℝ} {n : ℤ}, x = n * (g * g) → -(2 / 1000000) ≤ x → 0 ≤ x := by
        intro x n hx' h
        by_contra hc
        have hn : n < 0 := by
          by_contra hn
          have : (0 : ℝ) ≤ n := by exact_mod_cast not_lt.1 hn
          have := mul_nonneg this hgg.le
          linarith
        have hn' : (n : ℝ) ≤ -1 := by exact_mod_cast (by omega : n ≤ -1)
        have := mul_le_mul_of_nonneg_right hn' hgg.le
        linarith
      obtain ⟨c1, c2, c3⟩ := t4
      have d : ∀ u v : Vec3 ℤ, dotp (⟨u.x * g, u.y * g, u.z * g⟩ : Vec3 ℝ) ⟨v.x * g, v.y * g, v.z * g⟩ = (u.dot v : ℤ) * (g * g) := by
        intro u v
        simp only [dotp, Vec3.dot]
        push_cast
        ring
      exact ⟨q (d (Lz * N).col0 (Lz * N).col1) c1, q (d (Lz * N).col0 (Lz * N).col2) c2, q (d (Lz * N).col1 (Lz * N).col2) c3⟩
    · rw [t3] at k2; cases k2

/-- **C91** Two cells of one lattice for which the rounded reduction returns exactly obtuse superbases: the squared lengths of
`a, b, c, a+b, a+c, b+c, a+b+c` of the two results are exactly the same up to their order. -/
theorem C91_independent (ρ : Rounding) (g₁ g₂ : ℝ) (A₁ A₂ : ℤ) (L₁ L₂ : Mat3 ℤ) (s₁ s₂ t₁ t₂ : Structure (RNum ρ)) (hx₁ : DelaunayGrid ρ g₁ A₁)
    (hx₂ : DelaunayGrid ρ g₂ A₂) (hl₁ : valM s₁.lattice = timesUnit g₁ L₁) (hl₂ : valM s₂.lattice = timesUnit g₂ L₂) (he₁ : EntLe L₁ A₁)
    (he₂ : EntLe L₂ A₂) (U : Mat3 ℤ) (hU : U.det = 1 ∨ U.det = -1) (hs : valM s₂.lattice = timesInts (valM s₁.lattice) U) (r₁ r₂ : Reducer (RNum ρ))
    (h₁ : r₁.delaunayReduce s₁ false = .ret t₁) (h₂ : r₂.delaunayReduce s₂ false = .ret t₂) (o₁ : ExactObtuse (valM t₁.lattice))
    (o₂ : ExactObtuse (valM t₂.lattice)) : (sevenSq (valM t₂.lattice)).Perm (sevenSq (valM t₁.lattice)) := by
  rcases C91_same_run ρ g₁ A₁ L₁ s₁ hx₁ hl₁ he₁ r₁ ⟨1, 1⟩ false with ⟨x, y, k1, k2, k3⟩ | ⟨msg, k1, -⟩
  · rw [h₁, Outcome.ret.injEq] at k1
    subst k1
    rcases C91_same_run ρ g₂ A₂ L₂ s₂ hx₂ hl₂ he₂ r₂ ⟨1, 1⟩ false with ⟨x', y', j1, j2, j3⟩ | ⟨msg, j1, -⟩
    · rw [h₂, Outcome.ret.injEq] at j1
      subst j1
      rw [k3] at o₁ ⊢
      rw [j3] at o₂ ⊢
      exact C68_delaunay_independent ⟨1, 1⟩ ⟨1, 1⟩ (asReal s₁) (asReal s₂) y y' ⟨_, ⟨U, hU, rfl⟩, hs⟩ k2 j2 o₁ o₂
    · rw [h₂] at j1; cases j1
  · rw [h₁] at k1; cases k1

end

/-! ## Double precision -/

theorem rootsApart_of_relative {ρ : Rounding} {ε g : ℝ} (hr : Relative ρ ε) (h0 : 0 ≤ ε) {A : ℤ} (hA : 1 ≤ A) (hg : 0 < g)
    (h1 : 24 * A * ε < g) (h2 : 144 * (A : ℝ) ^ 2 * ε < 1) : RootsApart ρ (g * g) (36 * A ^ 2) := by
  intro n m hn hnm hm
  have hA' : (1 : ℝ) ≤ A := by exact_mod_cast hA
  have hgg : 0 < g * g := mul_pos hg hg
  have hn' : (0 : ℝ) ≤ n * (g * g) := mul_nonneg (by exact_mod_cast hn) hgg.le
  have hm' : (0 : ℝ) ≤ m * (g * g) := mul_nonneg (by exact_mod_cast (by omega : 0 ≤ m)) hgg.le
  obtain ⟨x, hx⟩ : ∃ x, x = Real.sqrt (n * (g * g)) := ⟨_, rfl⟩
  obtain ⟨y, hy⟩ : ∃ y, y = Real.sqrt (m * (g * g)) := ⟨_, rfl⟩
  have x0 : 0 ≤ x := by rw [hx]; exact Real.sqrt_nonneg _
  have y0 : 0 ≤ y := by rw [hy]; exact Real.sqrt_nonneg _
  have x2 : x * x = n * (g * g) := by rw [hx]; exact Real.mul_self_sqrt hn'
  have y2 : y * y = m * (g * g) := by rw [hy]; exact Real.mul_self_sqrt hm'
  have hxy : x ≤ y := by
    rw [hx, hy]
    exact Real.sqrt_le_sqrt (mul_le_mul_of_nonneg_right (by exact_mod_cast hnm.le) hgg.le)
  have yb : y ≤ 6 * A * g := by
    refine abs_le_of_sq_le_sq' ?_ (by positivity) |>.2
    rw [pow_two, y2, show (6 * (A : ℝ) * g) ^ 2 = (36 * A ^ 2 : ℤ) * (g * g) by push_cast; ring]
    exact mul_le_mul_of_nonneg_right (by exact_mod_cast hm) hgg.le
  have hdiff : g * g ≤ (y - x) * (12 * A * g) := by
    have h3 : g * g ≤ (y - x) * (y + x) := by
      have : (1 : ℝ) ≤ (m : ℝ) - n := by exact_mod_cast (by omega : 1 ≤ m - n)
      have := mul_le_mul_of_nonneg_right this hgg.le
      nlinarith
    exact h3.trans (mul_le_mul_of_nonneg_left (by linarith) (by linarith))
  have hd : g ≤ (y - x) * (12 * A) := by
    have : g * g ≤ ((y - x) * (12 * A)) * g := by linarith
    exact le_of_mul_le_mul_right this hg
  have hmax : ∀ z, 0 ≤ z → z ≤ 6 * A * g → |ρ.fl z - z| * (24 * A) < g := by
    intro z z0 z1
    have h3 := hr z
    rw [abs_of_nonneg z0] at h3
    have h4 : 0 ≤ 24 * (A : ℝ) := by linarith
    have h5 := mul_le_mul_of_nonneg_right h3 h4
    refine lt_of_le_of_lt h5 ?_
    rcases le_total 1 z with hz | hz
    · rw [max_eq_right hz]
      have h6 : ε * z * (24 * A) ≤ ε * (6 * A * g) * (24 * A) := mul_le_mul_of_nonneg_right (mul_le_mul_of_nonneg_left z1 h0) h4
      have h7 := mul_lt_mul_of_pos_right h2 hg
      linarith
    · rw [max_eq_left hz]
      linarith
  have e1 := hmax x x0 (hxy.trans yb)
  have e2 := hmax y y0 yb
  rw [← hx, ← hy]
  by_contra hc
  rw [not_lt] at hc
  have a1 := le_abs_self (ρ.fl x - x)
  have a2 := neg_abs_le (ρ.fl y - y)
  have h8 : y - x ≤ |ρ.fl x - x| + |ρ.fl y - y| := by linarith
  have h9 := mul_le_mul_of_nonneg_right h8 (by linarith : 0 ≤ 24 * (A : ℝ))
  linarith

theorem zeroTol_64 : (zeroTol : RNum binary64).val ≤ 1 / 2 ^ 19 := by
  have e1 : (lit 1 : RNum binary64).val = 1 := by
    have : (lit 1 : RNum binary64).val = binary64.fl (1 : ℤ) := rfl
    rw [this, exactInts64 1 (by norm_num)]; norm_num
  have e2 : (lit 1000000 : RNum binary64).val = 1000000 := by
    have : (lit 1000000 : RNum binary64).val = binary64.fl (1000000 : ℤ) := rfl
    rw [this, exactInts64 1000000 (by norm_num)]; norm_num
  have e : (zeroTol : RNum binary64).val = binary64.fl (1 / 1000000) := by
    show (lit 1 / lit 1000000 : RNum binary64).val = _
    rw [RNum.val_div, e1, e2]
  have k := exactMult64 (j := -19) (by norm_num) 1 (by norm_num)
  rw [Int.cast_one, one_mul] at k
  have m := binary64.mono (1 / 1000000) (2 ^ (-19 : ℤ)) (by norm_num)
  rw [k] at m
  rw [e]
  exact le_trans m (by norm_num)

theorem delaunayGrid64 {k : ℕ} (hk : k ≤ 9) {A : ℤ} (h1 : 1 ≤ A) (hA : A ≤ 1000000) : DelaunayGrid binary64 ((1 / 2) ^ k) A := by
  have e : ((1 / 2 : ℝ) ^ k) = 2 ^ (-(k : ℤ)) := by rw [zpow_neg, zpow_natCast, one_div, inv_pow]
  have e2 : (2 : ℝ) ^ (-(k : ℤ)) * 2 ^ (-(k : ℤ)) = 2 ^ (-(k : ℤ) + -(k : ℤ)) := by rw [zpow_add₀ (by norm_num)]
  have hA' : (1 : ℝ) ≤ A := by exact_mod_cast h1
  have hA2 : (A : ℝ) ≤ 1000000 := by exact_mod_cast hA
  have hg9 : (1 / 2 : ℝ) ^ 9 ≤ (1 / 2) ^ k := pow_le_pow_of_le_one (by norm_num) (by norm_num) hk
  have hgg : (1 / 2 : ℝ) ^ 9 * (1 / 2) ^ 9 ≤ (1 / 2) ^ k * (1 / 2) ^ k := mul_le_mul hg9 hg9 (by positivity) (by positivity)
  have p2 : A ^ 2 ≤ 1000000 ^ 2 := pow_le_pow_left₀ (by linarith) hA 2
  have p2' : (A : ℝ) ^ 2 ≤ 1000000 ^ 2 := by exact_mod_cast p2
  refine ⟨h1, ⟨by positivity, ?_, ?_⟩, ?_, ?_, ?_⟩
  · refine lt_of_lt_of_le (lt_of_le_of_lt zeroTol_64 ?_) hgg
    norm_num
  · refine lt_of_lt_of_le ?_ hgg
    norm_num
  · rw [e]
    exact (exactMult64 (by omega)).mono (by linarith)
  · rw [e, e2]
    exact (exactMult64 (by omega)).mono (by linarith)
  · refine rootsApart_of_relative relative_binary64 (by positivity) h1 (by positivity) (lt_of_lt_of_le ?_ hg9) ?_
    · norm_num
      linarith
    · norm_num
      linarith

/-- **C91** in IEEE double precision: lattices whose entries are multiples of `2 ^ -k` with `k` at most 9, at most a million of them. -/
theorem C91_binary64 (k : ℕ) (hk : k ≤ 9) (A : ℤ) (hA : 1 ≤ A) (hA' : A ≤ 1000000) (Lz : Mat3 ℤ) (s : Structure (RNum binary64))
    (hl : valM s.lattice = timesUnit ((1 / 2) ^ k) Lz) (he : EntLe Lz A) (r : Reducer (RNum binary64)) (r' : Reducer ℝ) :
    (∀ full, ((∃ s' t', r.delaunayReduce s full = .ret s' ∧ r'.delaunayReduce (asReal s) full = .ret t' ∧ valM s'.lattice = t'.lattice) ∨
      (∃ msg, r.delaunayReduce s full = .panic msg ∧ r'.delaunayReduce (asReal s) full = .panic msg)) ∧
      ∀ s', r.delaunayReduce s full = .ret s' → s'.species.Pairwise (· ≤ ·) ∧ Consistent s' ∧
        (∃ N : Mat3 ℤ, (N.det = 1 ∨ N.det = -1) ∧ valM s'.lattice = timesInts (valM s.lattice) N) ∧
        (11664 * (A : ℝ) ^ 4 < 10 ^ 12 * Lz.det ^ 2 * ((1 / 2) ^ k) ^ 2 → ∀ R C : ℝ, 1 ≤ R → 1 ≤ C →
          288 * (A : ℝ) ^ 2 ≤ R * (|(Lz.det : ℝ)| * (1 / 2) ^ k) → (∀ c ∈ s.coords, CompsLe (valV c) C) →
            SitesKept (A * (1 / 2) ^ k * R * C / 10 ^ 12) s s')) ∧
    (superSum Lz < 200 → (∃ s', r.delaunayReduce s false = .ret s' ∧ ExactObtuse (valM s'.lattice)) ∧
      (Lz.det ≠ 0 → ∃ s', r.delaunayReduce s true = .ret s' ∧ 0 ≤ dotp (valM s'.lattice).col0 (valM s'.lattice).col1 ∧
        0 ≤ dotp (valM s'.lattice).col0 (valM s'.lattice).col2 ∧ 0 ≤ dotp (valM s'.lattice).col1 (valM s'.lattice).col2)) := by
  have hx := delaunayGrid64 hk hA hA'
  refine ⟨fun full => ⟨C91_same_run _ _ _ _ _ hx hl he r r' full, fun s' hs' => ?_⟩, fun h200 => ?_⟩
  · obtain ⟨g1, g2, g3, g4⟩ := C91_same_lattice _ _ _ _ _ hx hl he r full s' hs'
    refine ⟨g1, g2, g3, fun hz R C hR hC hRd hcs => ?_⟩
    have q := g4 _ relative_binary64 (by norm_num) hz R C hR hC hRd hcs
    have hA0 : (0 : ℝ) ≤ A := by exact_mod_cast (by linarith : (0 : ℤ) ≤ A)
    have h2 : (0 : ℝ) ≤ A * (1 / 2) ^ k * (R * C) := by positivity
    refine sitesKept_mono (le_trans (b := 900 * (1 / 2 ^ 26) ^ 2 * (A * (1 / 2) ^ k * (R * C))) (le_of_eq (by ring)) ?_) q
    rw [show A * (1 / 2 : ℝ) ^ k * R * C / 10 ^ 12 = 1 / 10 ^ 12 * (A * (1 / 2) ^ k * (R * C)) by ring]
    exact mul_le_mul_of_nonneg_right (by norm_num) h2
  · obtain ⟨j1, j2⟩ := C91_returns _ _ _ _ _ hx hl he h200 r
    refine ⟨j1, fun hd => j2 hd ?_⟩
    have hg9 : (1 / 2 : ℝ) ^ 9 ≤ (1 / 2) ^ k := pow_le_pow_of_le_one (by norm_num) (by norm_num) hk
    have hgg : (1 / 2 : ℝ) ^ 9 * (1 / 2) ^ 9 ≤ (1 / 2) ^ k * (1 / 2) ^ k := mul_le_mul hg9 hg9 (by positivity) (by positivity)
    exact lt_of_lt_of_le (by norm_num) hgg

/-! ## Examples -/

/-- the cell `(1,0,0), (x,1,0), (0,0,1)` of the cubic lattice in double precision. -/
noncomputable def skew64 (x : ℤ) : Structure (RNum binary64) := ⟨dyadicMat 0 ⟨1, x, 0, 0, 1, 0, 0, 0, 1⟩, [], [], []⟩

theorem skew64_lattice {x : ℤ} (h : |x| ≤ 3500) : valM (skew64 x).lattice = timesUnit ((1 / 2) ^ 0) ⟨1, x, 0, 0, 1, 0, 0, 0, 1⟩ :=
  dyadicMat_val (by norm_num) ⟨⟨by norm_num, h, by norm_num⟩, ⟨by norm_num, by norm_num, by norm_num⟩, ⟨by norm_num, by norm_num, by norm_num⟩⟩

theorem skew64_real {x : ℤ} (h : |x| ≤ 3500) : asReal (skew64 x) = skew x := by
  unfold asReal
  rw [skew64_lattice h]
  simp [skew64, skew, timesUnit, Mat3.map]

theorem skew64_ents {x : ℤ} (h : |x| ≤ 3500) : EntLe (⟨1, x, 0, 0, 1, 0, 0, 0, 1⟩ : Mat3 ℤ) 3500 :=
  ⟨⟨by norm_num, h, by norm_num⟩, ⟨by norm_num, by norm_num, by norm_num⟩, ⟨by norm_num, by norm_num, by norm_num⟩⟩

/-- **C23** also fails in double precision: for `x` from 51 on `delaunay_reduce` returns a superbase that is not obtuse. -/
theorem C23_false_returns_unreduced_binary64 (r : Reducer (RNum binary64)) (x : ℤ) (h1 : 51 ≤ x) (h2 : x ≤ 3500) :
    ∃ s', r.delaunayReduce (skew64 x) false = .ret s' ∧ ¬ ObtuseSuperbase (valM s'.lattice) := by
  have h : |x| ≤ 3500 := abs_le.2 ⟨by linarith, h2⟩
  obtain ⟨t, t1, t2⟩ := C23_false_returns_unreduced ⟨1, 1⟩ x (by exact_mod_cast h1)
  rcases C91_same_run _ _ _ _ _ (delaunayGrid64 (k := 0) (by norm_num) (A := 3500) (by norm_num) (by norm_num)) (skew64_lattice h) (skew64_ents h) r ⟨1, 1⟩
    false with ⟨s', t', k1, k2, k3⟩ | ⟨msg, -, k2⟩
  · rw [skew64_real h, t1, Outcome.ret.injEq] at k2
    subst k2
    exact ⟨s', k1, by rw [k3]; exact t2⟩
  · rw [skew64_real h, t1] at k2; cases k2

/-- **C23** also fails in the other direction: for `x = 50` it panics. -/
theorem C23_false_panics_binary64 (r : Reducer (RNum binary64)) :
    r.delaunayReduce (skew64 50) false = .panic "Reached max number of iterations without reduction!" := by
  obtain ⟨t1, -⟩ := C23_false_panics_on_reduced ⟨1, 1⟩
  rcases C91_same_run _ _ _ _ _ (delaunayGrid64 (k := 0) (by norm_num) (A := 3500) (by norm_num) (by norm_num)) (skew64_lattice (x := 50) (by norm_num))
    (skew64_ents (x := 50) (by norm_num)) r ⟨1, 1⟩ false with ⟨s', t', k1, k2, k3⟩ | ⟨msg, k1, k2⟩
  · rw [skew64_real (by norm_num)] at k2
    rw [show (skew ((50 : ℤ) : ℝ)) = skew 50 by norm_num, t1] at k2
    cases k2
  · rw [skew64_real (by norm_num)] at k2
    rw [show (skew ((50 : ℤ) : ℝ)) = skew 50 by norm_num, t1] at k2
    rw [k1]
    injection k2 with k2
    rw [k2]

/-- an atom in a skewed cell: in double precision both kinds of reduction return, with an exactly obtuse superbase and without an
obtuse angle, other cells of exactly the same lattice, and keep the atom within `10 ^ -7`. -/
example (r : Reducer (RNum binary64)) (c f : Vec3 (RNum binary64)) (hc : CompsLe (valV c) 10) :
    let s : Structure (RNum binary64) := ⟨dyadicMat 1 ⟨1, 3, 0, 0, 1, 0, 0, 0, 1⟩, ["Po"], [c], [f]⟩
    (∃ s', r.delaunayReduce s false = .ret s' ∧ ExactObtuse (valM s'.lattice) ∧ valM s'.lattice ≠ valM s.lattice ∧ SitesKept (1 / 10 ^ 7) s s') ∧
    (∃ s', r.delaunayReduce s true = .ret s' ∧ 0 ≤ dotp (valM s'.lattice).col0 (valM s'.lattice).col1 ∧ SitesKept (1 / 10 ^ 7) s s') := by
  intro s
  have hv : valM s.lattice = timesUnit ((1 / 2) ^ 1) ⟨1, 3, 0, 0, 1, 0, 0, 0, 1⟩ := dyadicMat_val (by norm_num) (by decide)
  obtain ⟨h1, h2⟩ := C91_binary64 1 (by norm_num) 3 (by norm_num) (by norm_num) _ s hv (by decide) r ⟨1, 1⟩
  obtain ⟨⟨s', k1, k2⟩, h3⟩ := h2 (by decide)
  obtain ⟨s'', j1, j2, -⟩ := h3 (by decide)
  have hd : ((⟨1, 3, 0, 0, 1, 0, 0, 0, 1⟩ : Mat3 ℤ).det) = 1 := by decide
  have hcs : ∀ c' ∈ s.coords, CompsLe (valV c') 10 := by
    intro c' hc'
    have : c' = c := by simpa [s] using hc'
    subst this
    exact hc
  have kept : ∀ full s', r.delaunayReduce s full = .ret s' → SitesKept (1 / 10 ^ 7) s s' := by
    intro full s' hs'
    obtain ⟨-, -, -, q⟩ := (h1 full).2 s' hs'
    rw [hd] at q
    exact sitesKept_mono (by norm_num) (q (by norm_num) 5184 10 (by norm_num) (by norm_num) (by norm_num) hcs)
  refine ⟨⟨s', k1, k2, fun e => ?_, kept _ _ k1⟩, s'', j1, j2, kept _ _ j1⟩
  rw [e, hv] at k2
  have := k2.1
  norm_num [ExactObtuse, dotp, timesUnit, Mat3.map, Mat3.col0, Mat3.col1] at this

end CrystSymm
