import Verif.Props.DelaunayFull
import Verif.Proofs.ChangeBasis

set_option autoImplicit false
set_option linter.unusedSectionVars false

/-! # C67, C68: the seven vectors of an obtuse superbase -/

namespace CrystSymm

open Spec Reducer

/-- the cell together with minus the sum of its vectors is an obtuse superbase, exactly. -/
def ExactObtuse (L : Mat3 ℝ) : Prop :=
  let a := L.col0; let b := L.col1; let c := L.col2
  let d : Vec3 ℝ := ⟨-(a.x + b.x + c.x), -(a.y + b.y + c.y), -(a.z + b.z + c.z)⟩
  dotp a b ≤ 0 ∧ dotp a c ≤ 0 ∧ dotp a d ≤ 0 ∧ dotp b c ≤ 0 ∧ dotp b d ≤ 0 ∧ dotp c d ≤ 0

/-- the coordinates of the seven vectors `a, b, c, a+b, a+c, b+c, a+b+c`. -/
def sevenCoords : List (Vec3 ℤ) :=
  [⟨1, 0, 0⟩, ⟨0, 1, 0⟩, ⟨0, 0, 1⟩, ⟨1, 1, 0⟩, ⟨1, 0, 1⟩, ⟨0, 1, 1⟩, ⟨1, 1, 1⟩]

/-- the lattice vector with given integer coordinates. -/
def latVec (L : Mat3 ℝ) (w : Vec3 ℤ) : Vec3 ℝ := L * w.map fun k : ℤ => (k : ℝ)

/-- the squared lengths of `a, b, c, a+b, a+c, b+c, a+b+c`. -/
def sevenSq (L : Mat3 ℝ) : List ℝ :=
  [lenSq L.col0, lenSq L.col1, lenSq L.col2, lenSq (L.col0 + L.col1), lenSq (L.col0 + L.col2), lenSq (L.col1 + L.col2),
    lenSq (L.col0 + L.col1 + L.col2)]

theorem latVec_eq (L : Mat3 ℝ) (w : Vec3 ℤ) : latVec L w = ⟨L.m11 * w.x + L.m12 * w.y + L.m13 * w.z,
    L.m21 * w.x + L.m22 * w.y + L.m23 * w.z, L.m31 * w.x + L.m32 * w.y + L.m33 * w.z⟩ := rfl

theorem sevenSq_eq (L : Mat3 ℝ) : sevenSq L = sevenCoords.map fun e => lenSq (latVec L e) := by
  simp only [sevenSq, sevenCoords, List.map_cons, List.map_nil, latVec_eq, lenSq, Mat3.col0, Mat3.col1, Mat3.col2,
    Vec3.add_x, Vec3.add_y, Vec3.add_z, Int.cast_one, Int.cast_zero, mul_one, mul_zero, add_zero, zero_add]

/-- same parity. -/
def SameClass (w e : Vec3 ℤ) : Prop := (2 : ℤ) ∣ w.x - e.x ∧ (2 : ℤ) ∣ w.y - e.y ∧ (2 : ℤ) ∣ w.z - e.z

theorem sq_parity {k j : ℤ} (h : (2 : ℤ) ∣ k - j) (hj : j = 0 ∨ j = 1 ∨ j = -1) : (j : ℝ) * j ≤ (k : ℝ) * k := by
  have : j * j ≤ k * k := by
    rcases hj with rfl | rfl | rfl
    · nlinarith [mul_self_nonneg k]
    · have : k ≠ 0 := by rintro rfl; omega
      have := mul_self_pos.2 this
      omega
    · have : k ≠ 0 := by rintro rfl; omega
      have := mul_self_pos.2 this
      omega
  exact_mod_cast this

/-- **the key fact**: among the lattice vectors of one parity class, the sum of superbase vectors is a shortest one. -/
theorem class_min {L : Mat3 ℝ} (h : ExactObtuse L) {w e : Vec3 ℤ} (hc : SameClass w e) (hx : e.x = 0 ∨ e.x = 1)
    (hy : e.y = 0 ∨ e.y = 1) (hz : e.z = 0 ∨ e.z = 1) : lenSq (latVec L e) ≤ lenSq (latVec L w) := by
  obtain ⟨c1, c2, c3⟩ := hc
  obtain ⟨h1, h2, h3, h4, h5, h6⟩ := h
  have s1 := sq_parity (k := w.x) (j := e.x) c1 (by omega)
  have s2 := sq_parity (k := w.y) (j := e.y) c2 (by omega)
  have s3 := sq_parity (k := w.z) (j := e.z) c3 (by omega)
  have s4 := sq_parity (k := w.x - w.y) (j := e.x - e.y) (by omega) (by omega)
  have s5 := sq_parity (k := w.x - w.z) (j := e.x - e.z) (by omega) (by omega)
  have s6 := sq_parity (k := w.y - w.z) (j := e.y - e.z) (by omega) (by omega)
  push_cast at s4 s5 s6
  have form : ∀ v : Vec3 ℤ, lenSq (latVec L v) =
      -(dotp L.col0 L.col1) * (((v.x : ℝ) - v.y) * ((v.x : ℝ) - v.y)) +
      -(dotp L.col0 L.col2) * (((v.x : ℝ) - v.z) * ((v.x : ℝ) - v.z)) +
      -(dotp L.col1 L.col2) * (((v.y : ℝ) - v.z) * ((v.y : ℝ) - v.z)) +
      -(dotp L.col0 ⟨-(L.col0.x + L.col1.x + L.col2.x), -(L.col0.y + L.col1.y + L.col2.y),
        -(L.col0.z + L.col1.z + L.col2.z)⟩) * ((v.x : ℝ) * v.x) +
      -(dotp L.col1 ⟨-(L.col0.x + L.col1.x + L.col2.x), -(L.col0.y + L.col1.y + L.col2.y),
        -(L.col0.z + L.col1.z + L.col2.z)⟩) * ((v.y : ℝ) * v.y) +
      -(dotp L.col2 ⟨-(L.col0.x + L.col1.x + L.col2.x), -(L.col0.y + L.col1.y + L.col2.y),
        -(L.col0.z + L.col1.z + L.col2.z)⟩) * ((v.z : ℝ) * v.z) := by
    intro v
    rw [latVec_eq]
    simp only [lenSq, dotp, Mat3.col0, Mat3.col1, Mat3.col2]
    ring
  rw [form, form]
  have m := fun {p q r : ℝ} (hp : p ≤ 0) (hqr : q ≤ r) => mul_le_mul_of_nonneg_left hqr (neg_nonneg.2 hp)
  linarith [m h1 s4, m h2 s5, m h4 s6, m h3 s1, m h5 s2, m h6 s3]

/-- the parity class of a vector, as one of the seven or zero. -/
def parity (w : Vec3 ℤ) : Vec3 ℤ := ⟨w.x % 2, w.y % 2, w.z % 2⟩

theorem parity_class (w : Vec3 ℤ) : SameClass w (parity w) := ⟨by simp only [parity]; omega, by simp only [parity]; omega,
  by simp only [parity]; omega⟩

theorem parity_01 (w : Vec3 ℤ) : ((parity w).x = 0 ∨ (parity w).x = 1) ∧ ((parity w).y = 0 ∨ (parity w).y = 1) ∧
    ((parity w).z = 0 ∨ (parity w).z = 1) := by
  simp only [parity]; omega

theorem mem_seven {e : Vec3 ℤ} (h : (e.x = 0 ∨ e.x = 1) ∧ (e.y = 0 ∨ e.y = 1) ∧ (e.z = 0 ∨ e.z = 1)) (h0 : e ≠ 0) :
    e ∈ sevenCoords := by
  obtain ⟨x, y, z⟩ := e
  obtain ⟨rfl | rfl, rfl | rfl, rfl | rfl⟩ := h
  · exact absurd rfl h0
  all_goals simp [sevenCoords]

/-- the seven vectors contain a shortest vector of the lattice. -/
theorem seven_shortest {L : Mat3 ℝ} (h : ExactObtuse L) : ∀ (n : ℕ) (w : Vec3 ℤ),
    w.x.natAbs + w.y.natAbs + w.z.natAbs ≤ n → w ≠ 0 → ∃ e ∈ sevenCoords, lenSq (latVec L e) ≤ lenSq (latVec L w) := by
  intro n
  induction n with
  | zero =>
    intro w hn hw
    exact absurd (by ext <;> simp <;> omega) hw
  | succ n ih =>
    intro w hn hw
    by_cases hp : parity w = 0
    · have hx : w.x % 2 = 0 := congrArg Vec3.x hp
      have hy : w.y % 2 = 0 := congrArg Vec3.y hp
      have hz : w.z % 2 = 0 := congrArg Vec3.z hp
      have hne : (⟨w.x / 2, w.y / 2, w.z / 2⟩ : Vec3 ℤ) ≠ 0 := by
        intro h0
        have a : w.x / 2 = 0 := congrArg Vec3.x h0
        have b : w.y / 2 = 0 := congrArg Vec3.y h0
        have c : w.z / 2 = 0 := congrArg Vec3.z h0
        exact hw (by ext <;> simp <;> omega)
      have hlt : 0 < w.x.natAbs + w.y.natAbs + w.z.natAbs := by
        by_contra h0
        exact hw (by ext <;> simp <;> omega)
      obtain ⟨e, he, hle⟩ := ih ⟨w.x / 2, w.y / 2, w.z / 2⟩ (by simp only; omega) hne
      refine ⟨e, he, hle.trans ?_⟩
      have hx' : (w.x : ℝ) = 2 * ((w.x / 2 : ℤ) : ℝ) := by
        have : w.x = 2 * (w.x / 2) := by omega
        exact_mod_cast this
      have hy' : (w.y : ℝ) = 2 * ((w.y / 2 : ℤ) : ℝ) := by
        have : w.y = 2 * (w.y / 2) := by omega
        exact_mod_cast this
      have hz' : (w.z : ℝ) = 2 * ((w.z / 2 : ℤ) : ℝ) := by
        have : w.z = 2 * (w.z / 2) := by omega
        exact_mod_cast this
      have e4 : lenSq (latVec L w) = 4 * lenSq (latVec L ⟨w.x / 2, w.y / 2, w.z / 2⟩) := by
        rw [latVec_eq, latVec_eq]
        simp only [lenSq, hx', hy', hz']
        ring
      rw [e4]
      linarith [lenSq_nonneg (latVec L ⟨w.x / 2, w.y / 2, w.z / 2⟩)]
    · exact ⟨parity w, mem_seven (parity_01 w) hp, class_min h (parity_class w) (parity_01 w).1 (parity_01 w).2.1
        (parity_01 w).2.2⟩

/-- **C67, partial.** When `delaunay_reduce` returns an exactly obtuse superbase, the seven vectors from which full reduction
is documented to choose contain a shortest vector of the lattice.  Missing: that full reduction chooses the shortest of
them, which is false (`C67_false_never_shortest`). -/
theorem C67_seven_contain_shortest_partial (r : Reducer ℝ) (s t : Structure ℝ) (h : r.delaunayReduce s false = .ret t)
    (ho : ExactObtuse t.lattice) (w : Vec3 ℤ) (hw : w ≠ 0) : ∃ q ∈ sevenSq t.lattice, q ≤ lenSq (latVec s.lattice w) := by
  obtain ⟨d, count, M, h1, -, h3, rfl⟩ := delaunayReduce_ret h
  obtain ⟨u, hu⟩ := delaunayLoop_super (superOf_init s) h1
  obtain ⟨m, hm, e⟩ := delaunayLattice_unimodular hu h3
  obtain ⟨k, hk1, hk2, -⟩ := unimodular_inverse hm
  rw [rebuild_lattice] at ho ⊢
  have hne : k * w ≠ 0 := by
    intro h0
    apply hw
    have : m * (k * w) = w := by rw [← Mat3.mul_mulVec, hk1, Mat3.one_mulVec]
    rw [← this, h0]
    ext <;> simp
  have hv : latVec M (k * w) = latVec s.lattice w := by
    have : (m.map fun k : ℤ => (k : ℝ)) * ((k * w).map fun k : ℤ => (k : ℝ)) = w.map fun k : ℤ => (k : ℝ) := by
      have hkw : m * (k * w) = w := by rw [← Mat3.mul_mulVec, hk1, Mat3.one_mulVec]
      conv_rhs => rw [← hkw]
      ext <;> simp [Mat3.map, Vec3.map]
    rw [latVec, latVec, e, Mat3.mul_mulVec, this]
  obtain ⟨e', he', hle⟩ := seven_shortest ho _ (k * w) (le_refl _) hne
  rw [hv] at hle
  exact ⟨_, by rw [sevenSq_eq]; exact List.mem_map_of_mem he', hle⟩

/-! ## C68 -/

theorem latVec_mul (L : Mat3 ℝ) (n : Mat3 ℤ) (w : Vec3 ℤ) :
    latVec (L * n.map fun k : ℤ => (k : ℝ)) w = latVec L (n * w) := by
  unfold latVec
  rw [Mat3.mul_mulVec]
  congr 1
  ext <;> simp [Mat3.map, Vec3.map]

theorem parity_mul {n : Mat3 ℤ} {u v : Vec3 ℤ} (h : SameClass u v) : SameClass (n * u) (n * v) := by
  obtain ⟨⟨a, ha⟩, ⟨b, hb⟩, ⟨c, hc⟩⟩ := h
  have hm : ∀ w : Vec3 ℤ, n * w = ⟨n.m11 * w.x + n.m12 * w.y + n.m13 * w.z,
    n.m21 * w.x + n.m22 * w.y + n.m23 * w.z, n.m31 * w.x + n.m32 * w.y + n.m33 * w.z⟩ := fun _ => rfl
  rw [hm, hm]
  refine ⟨⟨n.m11 * a + n.m12 * b + n.m13 * c, ?_⟩, ⟨n.m21 * a + n.m22 * b + n.m23 * c, ?_⟩,
    ⟨n.m31 * a + n.m32 * b + n.m33 * c, ?_⟩⟩
  · linear_combination n.m11 * ha + n.m12 * hb + n.m13 * hc
  · linear_combination n.m21 * ha + n.m22 * hb + n.m23 * hc
  · linear_combination n.m31 * ha + n.m32 * hb + n.m33 * hc

theorem SameClass.symm {u v : Vec3 ℤ} (h : SameClass u v) : SameClass v u :=
  ⟨by have := h.1; omega, by have := h.2.1; omega, by have := h.2.2; omega⟩

theorem SameClass.trans {u v w : Vec3 ℤ} (h : SameClass u v) (h' : SameClass v w) : SameClass u w :=
  ⟨by have := h.1; have := h'.1; omega, by have := h.2.1; have := h'.2.1; omega,
    by have := h.2.2; have := h'.2.2; omega⟩

theorem seven_01 {e : Vec3 ℤ} (h : e ∈ sevenCoords) : ((e.x = 0 ∨ e.x = 1) ∧ (e.y = 0 ∨ e.y = 1) ∧ (e.z = 0 ∨ e.z = 1)) ∧
    e ≠ 0 := by
  revert e
  decide

theorem same_01 {u v : Vec3 ℤ} (h : SameClass u v)
    (hu : (u.x = 0 ∨ u.x = 1) ∧ (u.y = 0 ∨ u.y = 1) ∧ (u.z = 0 ∨ u.z = 1))
    (hv : (v.x = 0 ∨ v.x = 1) ∧ (v.y = 0 ∨ v.y = 1) ∧ (v.z = 0 ∨ v.z = 1)) : u = v := by
  obtain ⟨a, b, c⟩ := h
  ext <;> omega

/-- **C68.** Two exactly obtuse superbases of one lattice have the same seven lengths. -/
theorem C68_seven_lengths (L N : Mat3 ℝ) (hN : IsUnimodular N) (h : ExactObtuse L) (h' : ExactObtuse (L * N)) :
    (sevenSq (L * N)).Perm (sevenSq L) := by
  obtain ⟨n, hn, rfl⟩ := hN
  obtain ⟨k, hk1, hk2, -⟩ := unimodular_inverse hn
  have inv : ∀ w : Vec3 ℤ, k * (n * w) = w := fun w => by rw [← Mat3.mul_mulVec, hk2, Mat3.one_mulVec]
  have inv' : ∀ w : Vec3 ℤ, n * (k * w) = w := fun w => by rw [← Mat3.mul_mulVec, hk1, Mat3.one_mulVec]
  -- the lengths agree class by class
  have key : ∀ e ∈ sevenCoords, lenSq (latVec (L * n.map fun k : ℤ => (k : ℝ)) e) = lenSq (latVec L (parity (n * e))) := by
    intro e he
    obtain ⟨⟨e1, e2, e3⟩, -⟩ := seven_01 he
    obtain ⟨p1, p2, p3⟩ := parity_01 (n * e)
    apply le_antisymm
    · have hcl : SameClass (k * parity (n * e)) e := by
        have := parity_mul (n := k) (parity_class (n * e)).symm
        rwa [inv] at this
      have := class_min h' hcl e1 e2 e3
      rwa [latVec_mul, latVec_mul, inv', ← latVec_mul] at this
    · have := class_min h (parity_class (n * e)) p1 p2 p3
      rwa [latVec_mul]
  have hinj : ∀ e ∈ sevenCoords, ∀ e' ∈ sevenCoords, parity (n * e) = parity (n * e') → e = e' := by
    intro e he e' he' heq
    have c1 : SameClass (n * e) (n * e') := by
      refine (parity_class (n * e)).trans ?_
      rw [heq]
      exact (parity_class (n * e')).symm
    have c2 := parity_mul (n := k) c1
    rw [inv, inv] at c2
    exact same_01 c2 (seven_01 he).1 (seven_01 he').1
  have hmem : ∀ e ∈ sevenCoords, parity (n * e) ∈ sevenCoords := by
    intro e he
    refine mem_seven (parity_01 _) fun h0 => ?_
    have c1 := parity_class (n * e)
    rw [h0] at c1
    have c2 := parity_mul (n := k) c1
    rw [inv] at c2
    have z : k * (0 : Vec3 ℤ) = 0 := by ext <;> simp
    rw [z] at c2
    exact (seven_01 he).2 (same_01 c2 (seven_01 he).1 (by simp))
  have hperm : (sevenCoords.map fun e => parity (n * e)).Perm sevenCoords := by
    have hnd : (sevenCoords.map fun e => parity (n * e)).Nodup :=
      List.Nodup.map_on hinj (by decide)
    refine (List.subperm_of_subset hnd ?_).perm_of_length_le (by simp)
    intro x hx
    obtain ⟨e, he, rfl⟩ := List.mem_map.1 hx
    exact hmem e he
  rw [sevenSq_eq, sevenSq_eq]
  have e1 : (sevenCoords.map fun e => lenSq (latVec (L * n.map fun k : ℤ => (k : ℝ)) e)) =
      (sevenCoords.map fun e => parity (n * e)).map fun e => lenSq (latVec L e) := by
    rw [List.map_map]
    exact List.map_congr_left key
  rw [e1]
  exact hperm.map _

theorem delaunayLoop_commensurate {g : ℝ} {n count : ℕ} {d d' : Fin 4 → Vec3 ℝ} {c' : ℕ} (hc : Commensurate g d)
    (h : delaunayLoop n count d = .ret (d', c')) : Commensurate g d' := by
  induction n generalizing count d with
  | zero =>
    simp only [delaunayLoop, Outcome.ret.injEq, Prod.mk.injEq] at h
    rw [← h.1]; exact hc
  | succ n ih =>
    rcases delaunayLoop_succ n count d with ⟨-, e⟩ | ⟨p, hp, -, -, e⟩
    · rw [e, Outcome.ret.injEq, Prod.mk.injEq] at h
      rw [← h.1]; exact hc
    · rw [e] at h
      exact ih (hc.step hp) h

/-- if all products of the cell are multiples of a number above `1e-6`, an obtuse result is exactly obtuse. -/
theorem exactObtuse_of_commensurate {r : Reducer ℝ} {s t : Structure ℝ} {g : ℝ} (hg : 1 / 1000000 < g)
    (hc : Commensurate g s.delaunayMatrix) (h : r.delaunayReduce s false = .ret t) (ho : ObtuseSuperbase t.lattice) :
    ExactObtuse t.lattice := by
  obtain ⟨d, count, M, h1, -, h3, rfl⟩ := delaunayReduce_ret h
  have hM : M = Mat3.ofCols (d 0) (d 1) (d 2) := by
    simp only [delaunayLattice, Bool.false_eq_true, if_false, Outcome.ret.injEq] at h3
    exact h3.symm
  have hsum := (delaunayLoop_superSq (delaunayMatrix_sum s) h1).2
  have hc' := delaunayLoop_commensurate hc h1
  rw [rebuild_lattice, hM] at ho ⊢
  have z : ∀ i j, dotp (d i) (d j) ≤ 1 / 1000000 → dotp (d i) (d j) ≤ 0 := by
    intro i j hle
    obtain ⟨k, hk⟩ := hc' i j
    have hk : dotp (d i) (d j) = g * k := hk
    rw [hk] at hle ⊢
    have h1 : (k : ℝ) < 1 := by
      by_contra h1
      rw [not_lt] at h1
      nlinarith
    have : k < 1 := by exact_mod_cast h1
    have : (k : ℝ) ≤ 0 := by
      have : k ≤ 0 := by omega
      exact_mod_cast this
    nlinarith
  have h3 : (⟨-((d 0).x + (d 1).x + (d 2).x), -((d 0).y + (d 1).y + (d 2).y),
      -((d 0).z + (d 1).z + (d 2).z)⟩ : Vec3 ℝ) = d 3 := by
    have := eq_neg_of_add_eq_zero_right hsum
    rw [this]
    ext <;> simp
  have hc0 : (Mat3.ofCols (d 0) (d 1) (d 2)).col0 = d 0 := rfl
  have hc1 : (Mat3.ofCols (d 0) (d 1) (d 2)).col1 = d 1 := rfl
  have hc2 : (Mat3.ofCols (d 0) (d 1) (d 2)).col2 = d 2 := rfl
  unfold ObtuseSuperbase at ho
  unfold ExactObtuse
  simp only [hc0, hc1, hc2, h3] at ho ⊢
  obtain ⟨q1, q2, q3, q4, q5, q6⟩ := ho
  exact ⟨z _ _ q1, z _ _ q2, z _ _ q3, z _ _ q4, z _ _ q5, z _ _ q6⟩

/-- **C68.** The seven lengths of the Delaunay superbase do not depend on the cell: for two cells of one lattice for which
`delaunay_reduce` returns exactly obtuse superbases, the squared lengths of `a, b, c, a+b, a+c, b+c, a+b+c` of the two
results are the same up to their order. -/
theorem C68_delaunay_independent (r₁ r₂ : Reducer ℝ) (s₁ s₂ t₁ t₂ : Structure ℝ)
    (hN : ∃ N, IsUnimodular N ∧ s₂.lattice = s₁.lattice * N) (h₁ : r₁.delaunayReduce s₁ false = .ret t₁)
    (h₂ : r₂.delaunayReduce s₂ false = .ret t₂) (o₁ : ExactObtuse t₁.lattice) (o₂ : ExactObtuse t₂.lattice) :
    (sevenSq t₂.lattice).Perm (sevenSq t₁.lattice) := by
  have uni : ∀ {r : Reducer ℝ} {s t : Structure ℝ}, r.delaunayReduce s false = .ret t →
      ∃ m : Mat3 ℤ, (m.det = 1 ∨ m.det = -1) ∧ t.lattice = s.lattice * m.map fun k : ℤ => (k : ℝ) := by
    intro r s t h
    obtain ⟨d, count, M, h1, -, h3, rfl⟩ := delaunayReduce_ret h
    obtain ⟨u, hu⟩ := delaunayLoop_super (superOf_init s) h1
    obtain ⟨m, hm, e⟩ := delaunayLattice_unimodular hu h3
    exact ⟨m, hm, by rw [rebuild_lattice, e]⟩
  obtain ⟨N, ⟨n, hn, rfl⟩, hs⟩ := hN
  obtain ⟨m₁, d₁, e₁⟩ := uni h₁
  obtain ⟨m₂, d₂, e₂⟩ := uni h₂
  obtain ⟨k, hk1, -, hkd⟩ := unimodular_inverse d₁
  have hcast : (m₁.map fun k : ℤ => (k : ℝ)) * (k.map fun k : ℤ => (k : ℝ)) = 1 := by
    rw [← map_intCast_mul, hk1]
    ext <;> simp [Mat3.map]
  have e : t₂.lattice = t₁.lattice * (k * (n * m₂)).map fun k : ℤ => (k : ℝ) := by
    rw [map_intCast_mul, map_intCast_mul, e₁, e₂, hs, mul_assoc, mul_assoc, ← mul_assoc (m₁.map _) (k.map _), hcast,
      one_mul]
  rw [e]
  refine C68_seven_lengths _ _ ⟨_, ?_, rfl⟩ o₁ (e ▸ o₂)
  rw [Mat3.det_mul, Mat3.det_mul, hkd]
  rcases d₁ with a | a <;> rcases hn with b | b <;> rcases d₂ with c | c <;> rw [a, b, c] <;> decide

/-- two skewed cells of the cubic lattice. -/
example (r : Reducer ℝ) : ∃ t₁ t₂, r.delaunayReduce (skew 2) false = .ret t₁ ∧ r.delaunayReduce (skew 3) false = .ret t₂ ∧
    (sevenSq t₂.lattice).Perm (sevenSq t₁.lattice) ∧ ∃ q ∈ sevenSq t₂.lattice, q ≤ 1 := by
  have comm : ∀ x : ℤ, Commensurate 1 (skew x).delaunayMatrix := by
    intro x
    have : ∀ i, ∃ a b c : ℤ, (skew x).delaunayMatrix i = ⟨a, b, c⟩ := by
      rw [skew_delaunayMatrix]
      intro i
      fin_cases i
      · exact ⟨1, 0, 0, by simp [skewSuper, cols4]⟩
      · exact ⟨x, 1, 0, by simp [skewSuper, cols4]⟩
      · exact ⟨0, 0, 1, by simp [skewSuper, cols4]⟩
      · exact ⟨-x - 1, -1, -1, by simp [skewSuper, cols4]⟩
    intro i j
    obtain ⟨a, b, c, h⟩ := this i
    obtain ⟨a', b', c', h'⟩ := this j
    rw [h, h']
    exact ⟨a * a' + b * b' + c * c', by simp [Vec3.dot]⟩
  have ret : ∀ x : ℤ, 0 ≤ x → x ≤ 3 → ∃ t, r.delaunayReduce (skew x) false = .ret t ∧ ExactObtuse t.lattice := by
    intro x h0 h3
    obtain ⟨t, ht, ho⟩ := C23_delaunay_reduces_commensurate_partial r (skew x) 1 one_pos (comm x) (by
      rw [skew_delaunayMatrix]
      have a : (0 : ℝ) ≤ x := by exact_mod_cast h0
      have b : (x : ℝ) ≤ 3 := by exact_mod_cast h3
      simp only [superSq, skewSuper, cols4, lenSq]
      nlinarith)
    exact ⟨t, ht, exactObtuse_of_commensurate (by norm_num) (comm x) ht ho⟩
  obtain ⟨t₁, h₁, o₁⟩ := ret 2 (by norm_num) (by norm_num)
  obtain ⟨t₂, h₂, o₂⟩ := ret 3 (by norm_num) (by norm_num)
  push_cast at h₁ h₂
  refine ⟨t₁, t₂, h₁, h₂, C68_delaunay_independent r r _ _ t₁ t₂ ⟨_, ⟨⟨1, 1, 0, 0, 1, 0, 0, 0, 1⟩, .inl (by decide), rfl⟩, ?_⟩
    h₁ h₂ o₁ o₂, ?_⟩
  · ext <;> norm_num [skew, Mat3.map]
  · obtain ⟨q, hq, hle⟩ := C67_seven_contain_shortest_partial r _ t₂ h₂ o₂ ⟨1, 0, 0⟩ (by decide)
    refine ⟨q, hq, hle.trans ?_⟩
    rw [latVec_eq]
    norm_num [skew, lenSq]

end CrystSymm
