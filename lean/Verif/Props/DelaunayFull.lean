import Verif.Props.Delaunay
import Verif.Props.Shortest
import Verif.Props.Niggli

set_option autoImplicit false
set_option linter.unusedSectionVars false

/-! # C65-C67: convergence of the Delaunay iteration, and what full reduction chooses -/

namespace CrystSymm

open Spec Reducer

/-! ## C65 -/

/-- every iteration shortens the superbase by more than `2e-6`. -/
theorem delaunayLoop_iterations {n count : ℕ} {d d' : Fin 4 → Vec3 ℝ} {c' : ℕ} (hd : d 0 + d 1 + d 2 + d 3 = 0)
    (h : delaunayLoop n count d = .ret (d', c')) : 2 * zeroTol * ((c' : ℝ) - count) ≤ superSq d := by
  have nn : ∀ d : Fin 4 → Vec3 ℝ, 0 ≤ superSq d := by
    intro d
    unfold superSq
    linarith [lenSq_nonneg (d 0), lenSq_nonneg (d 1), lenSq_nonneg (d 2), lenSq_nonneg (d 3)]
  induction n generalizing count d with
  | zero =>
    simp only [delaunayLoop, Outcome.ret.injEq, Prod.mk.injEq] at h
    rw [← h.2, sub_self, mul_zero]
    exact nn d
  | succ n ih =>
    rcases delaunayLoop_succ n count d with ⟨-, e⟩ | ⟨p, hp, hgt, -, e⟩
    · rw [e, Outcome.ret.injEq, Prod.mk.injEq] at h
      rw [← h.2, sub_self, mul_zero]
      exact nn d
    · rw [e] at h
      have h1 := ih (sum_step hd hp) h
      rw [superSq_step hd hp] at h1
      push_cast at h1
      linarith

/-- **C65.** For every cell the Delaunay iteration reaches an obtuse superbase (within `1e-6`) in at most
`(|a|² + |b|² + |c|² + |a + b + c|²) / 2e-6` iterations. -/
theorem C65_delaunay_converges (s : Structure ℝ) (n : ℕ)
    (hn : lenSq s.lattice.col0 + lenSq s.lattice.col1 + lenSq s.lattice.col2 +
      lenSq (s.lattice.col0 + s.lattice.col1 + s.lattice.col2) < n * (2 / 1000000)) :
    ∃ d count, delaunayLoop n 0 s.delaunayMatrix = .ret (d, count) ∧ count < n ∧
      ObtuseSuperbase (Mat3.ofCols (d 0) (d 1) (d 2)) ∧
      ∃ N, IsUnimodular N ∧ Mat3.ofCols (d 0) (d 1) (d 2) = s.lattice * N := by
  obtain ⟨d, c, h1, h2, h3, h4⟩ := delaunayLoop_ends n 0 s.delaunayMatrix
  have hsum := delaunayMatrix_sum s
  have hsq : superSq s.delaunayMatrix = lenSq s.lattice.col0 + lenSq s.lattice.col1 + lenSq s.lattice.col2 +
      lenSq (s.lattice.col0 + s.lattice.col1 + s.lattice.col2) := by
    unfold superSq
    have e3 : s.delaunayMatrix 3 = -(s.delaunayMatrix 0 + s.delaunayMatrix 1 + s.delaunayMatrix 2) :=
      eq_neg_of_add_eq_zero_right hsum
    have e : lenSq (s.delaunayMatrix 3) = lenSq (s.delaunayMatrix 0 + s.delaunayMatrix 1 + s.delaunayMatrix 2) := by
      rw [e3]
      simp only [lenSq, Vec3.neg_x, Vec3.neg_y, Vec3.neg_z]
      ring
    rw [e]
    rfl
  have hb := delaunayLoop_iterations hsum h1
  rw [hsq, zeroTol_eq] at hb
  have hlt : (c : ℝ) < n := by
    push_cast at hb
    nlinarith
  have hlt' : c < n := by exact_mod_cast hlt
  refine ⟨d, c, h1, hlt', ?_, ?_⟩
  · rw [obtuse_iff (delaunayLoop_superSq hsum h1).2]
    exact h4 (by omega)
  · obtain ⟨w, hw⟩ := delaunayLoop_super (superOf_init s) h1
    obtain ⟨m, hm, e⟩ := delaunayLattice_unimodular (full := false) hw rfl
    exact ⟨_, ⟨m, hm, rfl⟩, e⟩

/-- a cell on which `delaunay_reduce` returns too early (C23): the iteration would have ended. -/
example (r : Reducer ℝ) : (∃ s', r.delaunayReduce (skew 51) false = .ret s' ∧ ¬ ObtuseSuperbase s'.lattice) ∧
    ∃ d count, delaunayLoop 3000000000 0 (skew 51).delaunayMatrix = .ret (d, count) ∧
      ObtuseSuperbase (Mat3.ofCols (d 0) (d 1) (d 2)) := by
  refine ⟨C23_false_returns_unreduced r 51 (le_refl _), ?_⟩
  obtain ⟨d, c, h, -, ho, -⟩ := C65_delaunay_converges (skew 51) 3000000000
    (by norm_num [skew, lenSq, Mat3.col0, Mat3.col1, Mat3.col2])
  exact ⟨d, c, h, ho⟩

/-! ## C66 -/

/-- no angle of the cell is obtuse, up to products of `-2e-6`. -/
def NoObtuseAngle (L : Mat3 ℝ) : Prop :=
  -(2 / 1000000) ≤ dotp L.col0 L.col1 ∧ -(2 / 1000000) ≤ dotp L.col0 L.col2 ∧ -(2 / 1000000) ≤ dotp L.col1 L.col2

/-- full reduction works on the superbase sorted by length. -/
theorem full_sorted {d : Fin 4 → Vec3 ℝ} {M : Mat3 ℝ} (h : delaunayLattice true d = .ret M) :
    ∃ a b c e, [a, b, c, e].Perm [d 0, d 1, d 2, d 3] ∧ a.mag ≤ b.mag ∧ b.mag ≤ c.mag ∧ c.mag ≤ e.mag ∧
      M = triAcute a b c e := by
  have hp : (sortByMag [d 0, d 1, d 2, d 3]).Perm [d 0, d 1, d 2, d 3] := List.mergeSort_perm _ _
  have hs := sortByMag_sorted [d 0, d 1, d 2, d 3]
  have hl := hp.length_eq
  unfold delaunayLattice at h
  simp only [if_true] at h
  generalize sortByMag [d 0, d 1, d 2, d 3] = l at h hp hs hl
  match l, h, hp, hs, hl with
  | [a, b, c, e], h, hp, hs, _ =>
    simp only [Outcome.ret.injEq] at h
    simp only [List.pairwise_cons, List.mem_cons, List.not_mem_nil, or_false, forall_eq_or_imp, forall_eq] at hs
    exact ⟨a, b, c, e, hp, hs.1.1, hs.2.1.1, hs.2.2.1, h.symm⟩

theorem perm_sum {d : Fin 4 → Vec3 ℝ} {a b c e : Vec3 ℝ} (h : [a, b, c, e].Perm [d 0, d 1, d 2, d 3])
    (hd : d 0 + d 1 + d 2 + d 3 = 0) : a + b + c + e = 0 := by
  have := h.sum_eq
  simp only [List.sum_cons, List.sum_nil, add_zero] at this
  rw [← hd, add_assoc, add_assoc, this, ← add_assoc, ← add_assoc]

theorem lenSq_of_mag {u v : Vec3 ℝ} (h : u.mag ≤ v.mag) : lenSq u ≤ lenSq v := by
  have h' : √(lenSq u) ≤ √(lenSq v) := h
  exact (Real.sqrt_le_sqrt_iff (lenSq_nonneg v)).1 h'

/-- the three cases of the tri-acute step; the case without a change does not occur. -/
theorem triAcute_cases {a b c e : Vec3 ℝ} (hs : a + b + c + e = 0) (hce : lenSq c ≤ lenSq e)
    (hdet : (triAcute a b c e).det ≠ 0) :
    (triAcute a b c e = Mat3.ofCols (Vec3.scale (-1) a) (Vec3.scale (-1) (a + b)) c ∧ lenSq b < lenSq (a + b)) ∨
    (triAcute a b c e = Mat3.ofCols a (Vec3.scale (-1) b) (Vec3.scale (-1) (b + c)) ∧ lenSq c < lenSq (b + c)) ∨
    (triAcute a b c e = Mat3.ofCols (Vec3.scale (-1) a) b (Vec3.scale (-1) (a + c)) ∧ lenSq c < lenSq (a + c)) := by
  have he : e = -(a + b + c) := eq_neg_of_add_eq_zero_right hs
  generalize hM : triAcute a b c e = M at hdet ⊢
  unfold triAcute at hM
  simp only at hM
  subst he
  obtain ⟨a1, a2, a3⟩ := a
  obtain ⟨b1, b2, b3⟩ := b
  obtain ⟨c1, c2, c3⟩ := c
  split_ifs at hM with h1 h2 h3
  · left
    refine ⟨hM.symm, ?_⟩
    simp only [Vec3.dot, Vec3.add_x, Vec3.add_y, Vec3.add_z, Vec3.neg_x, Vec3.neg_y, Vec3.neg_z, lenSq] at h1 ⊢
    linarith
  · right; left
    refine ⟨hM.symm, ?_⟩
    simp only [Vec3.dot, Vec3.add_x, Vec3.add_y, Vec3.add_z, Vec3.neg_x, Vec3.neg_y, Vec3.neg_z, lenSq] at h2 ⊢
    linarith
  · right; right
    refine ⟨hM.symm, ?_⟩
    simp only [Vec3.dot, Vec3.add_x, Vec3.add_y, Vec3.add_z, Vec3.neg_x, Vec3.neg_y, Vec3.neg_z, lenSq] at h3 ⊢
    linarith
  · exfalso
    rw [not_lt] at h1 h2 h3
    simp only [Vec3.dot, Vec3.add_x, Vec3.add_y, Vec3.add_z, Vec3.neg_x, Vec3.neg_y, Vec3.neg_z, lenSq]
      at h1 h2 h3 hce
    have hz : a1 * a1 + a2 * a2 + a3 * a3 ≤ 0 := by linarith
    have z1 : a1 = 0 := mul_self_eq_zero.1 (by nlinarith [mul_self_nonneg a1, mul_self_nonneg a2, mul_self_nonneg a3])
    have z2 : a2 = 0 := mul_self_eq_zero.1 (by nlinarith [mul_self_nonneg a1, mul_self_nonneg a2, mul_self_nonneg a3])
    have z3 : a3 = 0 := mul_self_eq_zero.1 (by nlinarith [mul_self_nonneg a1, mul_self_nonneg a2, mul_self_nonneg a3])
    subst z1 z2 z3
    subst hM
    simp [Mat3.ofCols, Mat3.det] at hdet

theorem delaunay_det {r : Reducer ℝ} {s s' : Structure ℝ} {full : Bool} (h : r.delaunayReduce s full = .ret s')
    (hV : s.volume ≠ 0) : s'.lattice.det ≠ 0 := by
  obtain ⟨d, count, M, h1, -, h3, rfl⟩ := delaunayReduce_ret h
  obtain ⟨w, hw⟩ := delaunayLoop_super (superOf_init s) h1
  obtain ⟨m, hm, e⟩ := delaunayLattice_unimodular hw h3
  rw [rebuild_lattice, e, Mat3.det_mul, intCast_det]
  have : s.lattice.det ≠ 0 := hV
  rcases hm with hm | hm <;> rw [hm] <;> simpa using this

set_option maxHeartbeats 1000000 in
/-- **C66.** Whenever `delaunay_reduce` without full reduction gives an obtuse superbase (that is, apart from the
exceptions of C23), `delaunay_reduce` with full reduction returns a cell without obtuse angles. -/
theorem C66_full_no_obtuse_angle (r : Reducer ℝ) (s t : Structure ℝ) (hV : s.volume ≠ 0)
    (ht : r.delaunayReduce s false = .ret t) (ho : ObtuseSuperbase t.lattice) :
    ∃ s', r.delaunayReduce s true = .ret s' ∧ NoObtuseAngle s'.lattice := by
  obtain ⟨d, count, M, h1, h2, h3, rfl⟩ := delaunayReduce_ret ht
  have hsum := (delaunayLoop_superSq (delaunayMatrix_sum s) h1).2
  have hM : M = Mat3.ofCols (d 0) (d 1) (d 2) := by
    simp only [delaunayLattice, Bool.false_eq_true, if_false, Outcome.ret.injEq] at h3
    exact h3.symm
  rw [rebuild_lattice, hM, obtuse_iff hsum] at ho
  have hex : ∃ M', delaunayLattice true d = .ret M' := by
    have hl := (List.mergeSort_perm [d 0, d 1, d 2, d 3] fun u v => decide (u.mag ≤ v.mag)).length_eq
    unfold delaunayLattice sortByMag
    simp only [if_true]
    generalize [d 0, d 1, d 2, d 3].mergeSort _ = l at hl
    match l, hl with
    | [a, b, c, e], _ => exact ⟨_, rfl⟩
  obtain ⟨M', hM'⟩ := hex
  have hret : r.delaunayReduce s true = .ret (r.rebuild s M') := by
    unfold delaunayReduce
    rw [h1]
    simp [Outcome.bind, h2, hM']
  refine ⟨_, hret, ?_⟩
  have hdet := delaunay_det hret hV
  rw [rebuild_lattice] at hdet ⊢
  obtain ⟨a, b, c, e, hp, -, -, hce, rfl⟩ := full_sorted hM'
  have hs := perm_sum hp hsum
  -- the products of the sorted vectors
  have hpair : [d 0, d 1, d 2, d 3].Pairwise fun u v => dotp u v ≤ 1 / 1000000 := by
    simp only [scalarProds, List.mem_cons, List.not_mem_nil, or_false, forall_eq_or_imp, forall_eq, zeroTol_eq] at ho
    obtain ⟨q1, q2, q3, q4, q5, q6⟩ := ho
    simp only [List.pairwise_cons, List.mem_cons, List.not_mem_nil, or_false, forall_eq_or_imp, forall_eq,
      List.Pairwise.nil, and_true, false_imp_iff, implies_true]
    exact ⟨⟨q1, q2, q3⟩, ⟨q4, q5⟩, q6⟩
  have hpair' : [a, b, c, e].Pairwise fun u v => dotp u v ≤ 1 / 1000000 := by
    refine hpair.perm hp.symm ?_
    intro u v h
    unfold dotp at h ⊢
    linarith
  simp only [List.pairwise_cons, List.mem_cons, List.not_mem_nil, or_false, forall_eq_or_imp, forall_eq,
      List.Pairwise.nil, and_true, false_imp_iff, implies_true] at hpair'
  obtain ⟨⟨q1, q2, q3⟩, ⟨q4, q5⟩, q6⟩ := hpair'
  have he : e = -(a + b + c) := eq_neg_of_add_eq_zero_right hs
  unfold dotp at q1 q2 q3 q4 q5 q6
  rw [he] at q3 q5 q6
  simp only [Vec3.add_x, Vec3.add_y, Vec3.add_z, Vec3.neg_x, Vec3.neg_y, Vec3.neg_z] at q3 q5 q6
  rcases triAcute_cases hs (lenSq_of_mag hce) hdet with ⟨e1, -⟩ | ⟨e1, -⟩ | ⟨e1, -⟩ <;> rw [e1] <;>
    refine ⟨?_, ?_, ?_⟩ <;>
    simp only [dotp, Mat3.col0, Mat3.col1, Mat3.col2, Mat3.ofCols, Vec3.scale, Vec3.add_x, Vec3.add_y, Vec3.add_z] <;>
    linarith

/-- a skewed cell. -/
example (r : Reducer ℝ) : ∃ s', r.delaunayReduce (skew 3) true = .ret s' ∧ NoObtuseAngle s'.lattice := by
  obtain ⟨t, ht, ho⟩ := skew3_reduces r (skew 3) rfl
  exact C66_full_no_obtuse_angle r (skew 3) t (by norm_num [Structure.volume, skew, Mat3.det]) ht ho

/-! ## C67 -/

/-- the sum of the squared edge lengths. -/
def edgeSq (L : Mat3 ℝ) : ℝ := lenSq L.col0 + lenSq L.col1 + lenSq L.col2

/-- **C67 is false, for every cell:** whatever full reduction returns, the lattice has a basis with shorter edges (namely
the three shortest vectors of the superbase, one of which the code replaces by a longer one). -/
theorem C67_false_never_shortest (r : Reducer ℝ) (s s' : Structure ℝ) (hV : s.volume ≠ 0)
    (h : r.delaunayReduce s true = .ret s') : ∃ N, IsUnimodular N ∧ edgeSq (s'.lattice * N) < edgeSq s'.lattice := by
  have hdet := delaunay_det h hV
  obtain ⟨d, count, M, h1, -, h3, rfl⟩ := delaunayReduce_ret h
  have hsum := (delaunayLoop_superSq (delaunayMatrix_sum s) h1).2
  rw [rebuild_lattice] at hdet ⊢
  obtain ⟨a, b, c, e, hp, -, -, hce, rfl⟩ := full_sorted h3
  have hs := perm_sum hp hsum
  have u : ∀ n : Mat3 ℤ, n.det = 1 ∨ n.det = -1 → IsUnimodular (n.map fun k : ℤ => (k : ℝ)) := fun n hn => ⟨n, hn, rfl⟩
  rcases triAcute_cases hs (lenSq_of_mag hce) hdet with ⟨e1, hlt⟩ | ⟨e1, hlt⟩ | ⟨e1, hlt⟩
  · refine ⟨_, u ⟨-1, 1, 0, 0, -1, 0, 0, 0, 1⟩ (by decide), ?_⟩
    rw [e1]
    simp only [edgeSq, lenSq, Mat3.col0, Mat3.col1, Mat3.col2, Mat3.mul_m11, Mat3.mul_m12, Mat3.mul_m13, Mat3.mul_m21,
      Mat3.mul_m22, Mat3.mul_m23, Mat3.mul_m31, Mat3.mul_m32, Mat3.mul_m33, Mat3.ofCols, Mat3.map, Vec3.scale,
      Vec3.add_x, Vec3.add_y, Vec3.add_z] at hlt ⊢
    push_cast
    ring_nf at hlt ⊢
    linarith
  · refine ⟨_, u ⟨1, 0, 0, 0, -1, 1, 0, 0, -1⟩ (by decide), ?_⟩
    rw [e1]
    simp only [edgeSq, lenSq, Mat3.col0, Mat3.col1, Mat3.col2, Mat3.mul_m11, Mat3.mul_m12, Mat3.mul_m13, Mat3.mul_m21,
      Mat3.mul_m22, Mat3.mul_m23, Mat3.mul_m31, Mat3.mul_m32, Mat3.mul_m33, Mat3.ofCols, Mat3.map, Vec3.scale,
      Vec3.add_x, Vec3.add_y, Vec3.add_z] at hlt ⊢
    push_cast
    ring_nf at hlt ⊢
    linarith
  · refine ⟨_, u ⟨-1, 0, 1, 0, 1, 0, 0, 0, -1⟩ (by decide), ?_⟩
    rw [e1]
    simp only [edgeSq, lenSq, Mat3.col0, Mat3.col1, Mat3.col2, Mat3.mul_m11, Mat3.mul_m12, Mat3.mul_m13, Mat3.mul_m21,
      Mat3.mul_m22, Mat3.mul_m23, Mat3.mul_m31, Mat3.mul_m32, Mat3.mul_m33, Mat3.ofCols, Mat3.map, Vec3.scale,
      Vec3.add_x, Vec3.add_y, Vec3.add_z] at hlt ⊢
    push_cast
    ring_nf at hlt ⊢
    linarith

/-- the cubic lattice given by a skewed cell: full reduction does not return the cube. -/
example (r : Reducer ℝ) : ∃ s', r.delaunayReduce (skew 3) true = .ret s' ∧ ∃ N, IsUnimodular N ∧
    edgeSq (s'.lattice * N) < edgeSq s'.lattice := by
  have hV : (skew 3).volume ≠ 0 := by norm_num [Structure.volume, skew, Mat3.det]
  obtain ⟨t, ht, ho⟩ := skew3_reduces r (skew 3) rfl
  obtain ⟨s', hs', -⟩ := C66_full_no_obtuse_angle r (skew 3) t hV ht ho
  exact ⟨s', hs', C67_false_never_shortest r _ s' hV hs'⟩

end CrystSymm
