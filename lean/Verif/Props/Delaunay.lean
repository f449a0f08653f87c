import Verif.Proofs.Delaunay
import Mathlib.Tactic.FinCases
import Mathlib.Tactic.Positivity

set_option autoImplicit false

/-! # C22, C23: `delaunay_reduce` -/

set_option linter.unusedSectionVars false

namespace CrystSymm

open Spec Reducer

/-- **C22.** Whenever `delaunay_reduce` returns (full reduction or not), the result is the same crystal:
an integer unimodular change of basis, sites and species kept one to one up to lattice vectors.
(The result's cell must be above the pseudo-inverse cut-off of the crate.) -/
theorem C22_delaunay_keeps_crystal (r : Reducer ℝ) (s s' : Structure ℝ) (full : Bool) (hs : Consistent s)
    (h : r.delaunayReduce s full = .ret s') (hsv : SvAbove s'.lattice) :
    SameCrystal s s' ∧ |s'.volume| = |s.volume| ∧ Consistent s' ∧ s'.species.Pairwise (· ≤ ·) := by
  obtain ⟨d, count, M, hd, -, hM, rfl⟩ := delaunayReduce_ret h
  obtain ⟨w, hw⟩ := delaunayLoop_super (superOf_init s) hd
  obtain ⟨n, hn, rfl⟩ := delaunayLattice_unimodular hw hM
  refine ⟨⟨_, ⟨n, hn, rfl⟩, rebuild_sameCrystal r s hs n hsv⟩, ?_, rebuild_consistent _ _ _,
    rebuild_sorted _ _ _⟩
  unfold Structure.volume
  rw [rebuild_lattice, Mat3.det_mul]
  have e : (n.map fun k : ℤ => (k : ℝ)).det = (n.det : ℝ) := by simp [Mat3.det, Mat3.map]
  rw [e, abs_mul]
  rcases hn with hn | hn <;> rw [hn] <;> simp

theorem delaunayMatrix_sum (s : Structure ℝ) :
    s.delaunayMatrix 0 + s.delaunayMatrix 1 + s.delaunayMatrix 2 + s.delaunayMatrix 3 = 0 := by
  ext <;> simp [Structure.delaunayMatrix, Vec3.scale]

theorem lenSq_nonneg' (v : Vec3 ℝ) : 0 ≤ lenSq v := lenSq_nonneg v

theorem lenSq_neg (v : Vec3 ℝ) : lenSq (Vec3.scale (-1) v) = lenSq v := by
  simp [lenSq, Vec3.scale]

theorem lenSq_add_le (u v : Vec3 ℝ) : lenSq (u + v) ≤ 2 * lenSq u + 2 * lenSq v := by
  simp only [lenSq, Vec3.add_x, Vec3.add_y, Vec3.add_z]
  nlinarith [sq_nonneg (u.x - v.x), sq_nonneg (u.y - v.y), sq_nonneg (u.z - v.z)]

theorem ofCols_size (a b c : Vec3 ℝ) :
    lenSq (Mat3.ofCols a b c).col0 + lenSq (Mat3.ofCols a b c).col1 + lenSq (Mat3.ofCols a b c).col2
      = lenSq a + lenSq b + lenSq c := rfl

theorem triAcute_size (a b c d : Vec3 ℝ) :
    lenSq (triAcute a b c d).col0 + lenSq (triAcute a b c d).col1 + lenSq (triAcute a b c d).col2
      ≤ 3 * (lenSq a + lenSq b + lenSq c + lenSq d) := by
  have ha := lenSq_nonneg a
  have hb := lenSq_nonneg b
  have hc := lenSq_nonneg c
  have hd := lenSq_nonneg d
  have h1 := lenSq_add_le a b
  have h2 := lenSq_add_le b c
  have h3 := lenSq_add_le a c
  unfold triAcute
  simp only
  split_ifs <;> rw [ofCols_size] <;> (try simp only [lenSq_neg]) <;> linarith

theorem delaunayLattice_size {full : Bool} {d : Fin 4 → Vec3 ℝ} {M : Mat3 ℝ}
    (h : delaunayLattice full d = .ret M) :
    lenSq M.col0 + lenSq M.col1 + lenSq M.col2 ≤ 3 * superSq d := by
  unfold delaunayLattice at h
  split at h
  · have hp : (sortByMag [d 0, d 1, d 2, d 3]).Perm [d 0, d 1, d 2, d 3] := List.mergeSort_perm _ _
    split at h
    · rename_i a b c e he
      rw [he] at hp
      have hsum := (hp.map lenSq).sum_eq
      simp only [List.map_cons, List.map_nil, List.sum_cons, List.sum_nil, add_zero] at hsum
      simp only [Outcome.ret.injEq] at h
      subst h
      refine (triAcute_size a b c e).trans (le_of_eq ?_)
      unfold superSq
      linarith
    · exact absurd h (by simp)
  · simp only [Outcome.ret.injEq] at h
    subst h
    rw [ofCols_size]
    unfold superSq
    linarith [lenSq_nonneg (d 0), lenSq_nonneg (d 1), lenSq_nonneg (d 2), lenSq_nonneg (d 3)]

/-- **C22, with a condition on the input only:** the cell must not be too flat for its size. -/
theorem C22_delaunay_keeps_crystal_of_size (r : Reducer ℝ) (s s' : Structure ℝ) (full : Bool)
    (hs : Consistent s) (h : r.delaunayReduce s full = .ret s')
    (hsize : (3 * superSq s.delaunayMatrix) ^ 2 < 10 ^ 12 * s.volume ^ 2) :
    SameCrystal s s' ∧ |s'.volume| = |s.volume| ∧ Consistent s' ∧ s'.species.Pairwise (· ≤ ·) := by
  refine C22_delaunay_keeps_crystal r s s' full hs h ?_
  obtain ⟨d, count, M, hd, -, hM, rfl⟩ := delaunayReduce_ret h
  obtain ⟨w, hw⟩ := delaunayLoop_super (superOf_init s) hd
  obtain ⟨n, hn, hMn⟩ := delaunayLattice_unimodular hw hM
  have hle := (delaunayLoop_superSq (delaunayMatrix_sum s) hd).1
  have hM' := delaunayLattice_size hM
  rw [rebuild_lattice]
  apply svAbove_of_size
  have hdet : M.det ^ 2 = s.volume ^ 2 := by
    unfold Structure.volume
    rw [hMn, Mat3.det_mul]
    have e : (n.map fun k : ℤ => (k : ℝ)).det = (n.det : ℝ) := by simp [Mat3.det, Mat3.map]
    rw [e]
    rcases hn with hn | hn <;> rw [hn] <;> simp
  rw [hdet]
  refine lt_of_le_of_lt ?_ hsize
  have h0 : 0 ≤ lenSq M.col0 + lenSq M.col1 + lenSq M.col2 := by
    linarith [lenSq_nonneg M.col0, lenSq_nonneg M.col1, lenSq_nonneg M.col2]
  exact pow_le_pow_left₀ h0 (hM'.trans (by linarith)) 2

/-! ## C23 -/

/-- the cell together with minus the sum of its vectors is an obtuse superbase within `1e-6`. -/
def ObtuseSuperbase (L : Mat3 ℝ) : Prop :=
  let a := L.col0; let b := L.col1; let c := L.col2
  let d : Vec3 ℝ := ⟨-(a.x + b.x + c.x), -(a.y + b.y + c.y), -(a.z + b.z + c.z)⟩
  dotp a b ≤ 1 / 1000000 ∧ dotp a c ≤ 1 / 1000000 ∧ dotp a d ≤ 1 / 1000000 ∧
  dotp b c ≤ 1 / 1000000 ∧ dotp b d ≤ 1 / 1000000 ∧ dotp c d ≤ 1 / 1000000

theorem zeroTol_eq : (zeroTol : ℝ) = 1 / 1000000 := by unfold zeroTol lit; norm_num

theorem obtuse_iff {d : Fin 4 → Vec3 ℝ} (h : d 0 + d 1 + d 2 + d 3 = 0) :
    ObtuseSuperbase (Mat3.ofCols (d 0) (d 1) (d 2)) ↔ ∀ v ∈ scalarProds d, v ≤ zeroTol := by
  have h3 : (⟨-((d 0).x + (d 1).x + (d 2).x), -((d 0).y + (d 1).y + (d 2).y),
      -((d 0).z + (d 1).z + (d 2).z)⟩ : Vec3 ℝ) = d 3 := by
    have := eq_neg_of_add_eq_zero_right h
    rw [this]
    ext <;> simp
  have hc0 : (Mat3.ofCols (d 0) (d 1) (d 2)).col0 = d 0 := rfl
  have hc1 : (Mat3.ofCols (d 0) (d 1) (d 2)).col1 = d 1 := rfl
  have hc2 : (Mat3.ofCols (d 0) (d 1) (d 2)).col2 = d 2 := rfl
  unfold ObtuseSuperbase
  simp only [hc0, hc1, hc2, h3, zeroTol_eq]
  simp only [scalarProds, List.mem_cons, List.not_mem_nil, or_false, forall_eq_or_imp, forall_eq]
  rfl

/-- **C23, partial.** Without full reduction, a call that returns gives an obtuse superbase unless all 101
iterations were used; and it panics exactly when it took exactly 100.  Missing from the full claim:
the two exceptions, which occur (below). -/
theorem C23_delaunay_reduced_partial (r : Reducer ℝ) (s : Structure ℝ) :
    ∃ d count, delaunayLoop 101 0 s.delaunayMatrix = .ret (d, count) ∧ count ≤ 101 ∧
      (r.delaunayReduce s false = .panic "Reached max number of iterations without reduction!" ↔ count = 100) ∧
      (count ≠ 100 → ∃ s', r.delaunayReduce s false = .ret s' ∧ (count < 100 → ObtuseSuperbase s'.lattice)) := by
  obtain ⟨d, c, h1, h2, h3, h4⟩ := delaunayLoop_ends 101 0 s.delaunayMatrix
  refine ⟨d, c, h1, by omega, ?_, ?_⟩
  · unfold delaunayReduce
    rw [h1]
    by_cases hc : c = 100 <;> simp [Outcome.bind, hc, delaunayLattice]
  · intro hc
    refine ⟨r.rebuild s (Mat3.ofCols (d 0) (d 1) (d 2)), ?_, ?_⟩
    · unfold delaunayReduce
      rw [h1]
      simp [Outcome.bind, hc, delaunayLattice]
    · intro hlt
      rw [rebuild_lattice, obtuse_iff (delaunayLoop_superSq (delaunayMatrix_sum s) h1).2]
      exact h4 (by omega)

/-- all products of the superbase are integer multiples of `g`. -/
def Commensurate (g : ℝ) (d : Fin 4 → Vec3 ℝ) : Prop := ∀ i j, ∃ k : ℤ, (d i).dot (d j) = g * k

theorem Commensurate.step {g : ℝ} {d : Fin 4 → Vec3 ℝ} (h : Commensurate g d) {p : Fin 4 × Fin 4}
    (hp : p ∈ pairMap) : Commensurate g (delaunayStep p d) := by
  have hne := pairMap_ne hp
  have hadd : ∀ u v w : Vec3 ℝ, (u + v).dot w = u.dot w + v.dot w := by
    intro u v w; simp [Vec3.dot]; ring
  have hadd' : ∀ u v w : Vec3 ℝ, u.dot (v + w) = u.dot v + u.dot w := by
    intro u v w; simp [Vec3.dot]; ring
  have hneg : ∀ u v : Vec3 ℝ, (-u).dot v = -u.dot v := by intro u v; simp [Vec3.dot]; ring
  have hneg' : ∀ u v : Vec3 ℝ, u.dot (-v) = -u.dot v := by intro u v; simp [Vec3.dot]; ring
  choose k hk using h
  intro i j
  rw [delaunayStep_eq p hne, delaunayStep_eq p hne]
  split_ifs <;> simp only [hadd, hadd', hneg, hneg', hk]
  · exact ⟨k p.2 p.2, by push_cast; ring⟩
  · exact ⟨-k p.2 p.1, by push_cast; ring⟩
  · exact ⟨-(k p.2 p.2 + k p.2 j), by push_cast; ring⟩
  · exact ⟨-k p.1 p.2, by push_cast; ring⟩
  · exact ⟨k p.1 p.1, by push_cast; ring⟩
  · exact ⟨k p.1 p.2 + k p.1 j, by push_cast; ring⟩
  · exact ⟨-(k p.2 p.2 + k i p.2), by push_cast; ring⟩
  · exact ⟨k p.2 p.1 + k i p.1, by push_cast; ring⟩
  · exact ⟨k p.2 p.2 + k p.2 j + (k i p.2 + k i j), by push_cast; ring⟩

theorem delaunayLoop_count {g : ℝ} (hg : 0 < g) {n count : ℕ} {d d' : Fin 4 → Vec3 ℝ} {c' : ℕ}
    (hd : d 0 + d 1 + d 2 + d 3 = 0) (hc : Commensurate g d)
    (h : delaunayLoop n count d = .ret (d', c')) : 2 * g * ((c' : ℝ) - count) ≤ superSq d := by
  induction n generalizing count d with
  | zero =>
    simp only [delaunayLoop, Outcome.ret.injEq, Prod.mk.injEq] at h
    rw [← h.2]
    unfold superSq
    simp only [sub_self, mul_zero]
    linarith [lenSq_nonneg (d 0), lenSq_nonneg (d 1), lenSq_nonneg (d 2), lenSq_nonneg (d 3)]
  | succ n ih =>
    rcases delaunayLoop_succ n count d with ⟨-, e⟩ | ⟨p, hp, hgt, -, e⟩
    · rw [e, Outcome.ret.injEq, Prod.mk.injEq] at h
      rw [← h.2]
      unfold superSq
      simp only [sub_self, mul_zero]
      linarith [lenSq_nonneg (d 0), lenSq_nonneg (d 1), lenSq_nonneg (d 2), lenSq_nonneg (d 3)]
    · rw [e] at h
      have h1 := ih (sum_step hd hp) (hc.step hp) h
      rw [superSq_step hd hp] at h1
      obtain ⟨k, hk⟩ := hc p.1 p.2
      have hpos := lt_trans (zeroTol_pos (K := ℝ)) hgt
      rw [hk] at hpos h1
      have hk1 : (1 : ℝ) ≤ k := by
        have : (0 : ℝ) < k := by
          by_contra hn
          rw [not_lt] at hn
          nlinarith
        have : 0 < k := by exact_mod_cast this
        exact_mod_cast this
      push_cast at h1
      nlinarith

/-- **C23, partial, with a condition on the input only.** If the scalar products of the cell vectors are
integer multiples of some `g` and the total squared length of the superbase is less than `200 g`, then
`delaunay_reduce` returns, and the result is an obtuse superbase. -/
theorem C23_delaunay_reduces_commensurate_partial (r : Reducer ℝ) (s : Structure ℝ) (g : ℝ) (hg : 0 < g)
    (hc : Commensurate g s.delaunayMatrix) (hs : superSq s.delaunayMatrix < 200 * g) :
    ∃ s', r.delaunayReduce s false = .ret s' ∧ ObtuseSuperbase s'.lattice := by
  obtain ⟨d, count, h1, -, -, h4⟩ := C23_delaunay_reduced_partial r s
  have hb := delaunayLoop_count hg (delaunayMatrix_sum s) hc h1
  have hlt : count < 100 := by
    have h0 : 2 * g * ((count : ℝ) - (0 : ℕ)) < 2 * g * 100 := by
      refine lt_of_le_of_lt hb ?_
      linarith
    have : (count : ℝ) - (0 : ℕ) < 100 := lt_of_mul_lt_mul_left h0 (by positivity)
    have : (count : ℝ) < 100 := by simpa using this
    exact_mod_cast this
  obtain ⟨s', hs', ho⟩ := h4 (by omega)
  exact ⟨s', hs', ho hlt⟩

/-- a skewed cell `(1,0,0), (x,1,0), (0,0,1)` without sites. -/
def skew (x : ℝ) : Structure ℝ := ⟨⟨1, x, 0, 0, 1, 0, 0, 0, 1⟩, [], [], []⟩

theorem skew3_reduces (r : Reducer ℝ) (s : Structure ℝ) (hL : s.lattice = (skew 3).lattice) :
    ∃ s', r.delaunayReduce s false = .ret s' ∧ ObtuseSuperbase s'.lattice := by
  have hm : s.delaunayMatrix = (skew 3).delaunayMatrix := by
    funext i
    fin_cases i <;> simp [Structure.delaunayMatrix, hL]
  refine C23_delaunay_reduces_commensurate_partial r _ 1 one_pos ?_ ?_ <;> rw [hm]
  · have : ∀ i, ∃ a b c : ℤ, (skew 3).delaunayMatrix i = ⟨a, b, c⟩ := by
      intro i
      fin_cases i
      · exact ⟨1, 0, 0, by simp [skew, Structure.delaunayMatrix, Mat3.col0]⟩
      · exact ⟨3, 1, 0, by simp [skew, Structure.delaunayMatrix, Mat3.col1]⟩
      · exact ⟨0, 0, 1, by simp [skew, Structure.delaunayMatrix, Mat3.col2]⟩
      · refine ⟨-4, -1, -1, ?_⟩
        ext <;> simp [skew, Structure.delaunayMatrix, Mat3.col0, Mat3.col1, Mat3.col2, Vec3.scale]
        norm_num
    intro i j
    obtain ⟨a, b, c, h⟩ := this i
    obtain ⟨a', b', c', h'⟩ := this j
    rw [h, h']
    exact ⟨a * a' + b * b' + c * c', by simp [Vec3.dot]⟩
  · simp [superSq, skew, Structure.delaunayMatrix, Mat3.col0, Mat3.col1, Mat3.col2, Vec3.scale, lenSq]
    norm_num

theorem superSq_skew3 : superSq (skew 3).delaunayMatrix = 30 := by
  simp [superSq, skew, Structure.delaunayMatrix, Mat3.col0, Mat3.col1, Mat3.col2, Vec3.scale, lenSq]
  norm_num

/-- two atoms in the cell `(1,0,0), (3,1,0), (0,0,1)`. -/
noncomputable def skewAtoms : Structure ℝ :=
  ⟨(skew 3).lattice, ["Na", "Cl"], [⟨0, 0, 0⟩, ⟨2, 1 / 2, 1 / 2⟩], [⟨0, 0, 0⟩, ⟨1 / 2, 1 / 2, 1 / 2⟩]⟩

/-- C22 and C23 apply to a skewed two-atom cell, which is really changed. -/
example (r : Reducer ℝ) : ∃ s', r.delaunayReduce skewAtoms false = .ret s' ∧ SameCrystal skewAtoms s' ∧
    ObtuseSuperbase s'.lattice ∧ s'.lattice ≠ skewAtoms.lattice := by
  obtain ⟨s', hs', ho⟩ := skew3_reduces r skewAtoms rfl
  refine ⟨s', hs', (C22_delaunay_keeps_crystal_of_size r _ s' false ?_ hs' ?_).1, ho, ?_⟩
  · refine ⟨rfl, ?_⟩
    simp only [skewAtoms, skew, List.map_cons, List.map_nil, List.cons.injEq, and_true]
    constructor <;> ext <;> simp <;> norm_num
  · have hm : skewAtoms.delaunayMatrix = (skew 3).delaunayMatrix := rfl
    have hv : skewAtoms.volume = 1 := by simp [Structure.volume, skewAtoms, skew, Mat3.det]
    rw [hm, superSq_skew3, hv]
    norm_num
  · intro h
    rw [h] at ho
    have := ho.1
    simp [skewAtoms, skew, Mat3.col0, Mat3.col1, dotp] at this
    norm_num at this

/-- four columns. -/
def cols4 (a b c d : Vec3 ℝ) : Fin 4 → Vec3 ℝ
  | 0 => a
  | 1 => b
  | 2 => c
  | 3 => d

theorem fold_keep (v : ℝ) (k : ℕ) : ∀ (l : List ℝ) (m : ℕ), (∀ u ∈ l, u ≤ v) →
    ((l.zipIdx m).foldl (init := (v, k)) fun acc p =>
      if zeroTol < p.1 ∧ acc.1 < p.1 then (p.1, p.2) else acc) = (v, k)
  | [], _, _ => rfl
  | u :: l, m, h => by
    have hu : ¬ (zeroTol < u ∧ v < u) := fun hc => absurd (h u (by simp)) (not_le.mpr hc.2)
    rw [List.zipIdx_cons, List.foldl_cons, if_neg hu]
    exact fold_keep v k l (m + 1) fun w hw => h w (by simp [hw])

theorem fold_below (v : ℝ) : ∀ (l : List ℝ) (m : ℕ) (acc : ℝ × ℕ), acc.1 < v → (∀ u ∈ l, u < v) →
    ((l.zipIdx m).foldl (init := acc) fun acc p =>
      if zeroTol < p.1 ∧ acc.1 < p.1 then (p.1, p.2) else acc).1 < v
  | [], _, _, h, _ => h
  | u :: l, m, acc, h, hl => by
    rw [List.zipIdx_cons, List.foldl_cons]
    refine fold_below v l (m + 1) _ ?_ fun w hw => hl w (by simp [hw])
    split
    · exact hl u (by simp)
    · exact h

theorem maxIndex_first (l₁ l₂ : List ℝ) (v : ℝ) (hv : zeroTol < v) (h₁ : ∀ u ∈ l₁, u < v)
    (h₂ : ∀ u ∈ l₂, u ≤ v) : maxIndex (l₁ ++ v :: l₂) = l₁.length := by
  unfold maxIndex
  rw [List.zipIdx_append, List.foldl_append, List.zipIdx_cons, List.foldl_cons]
  have h := fold_below v l₁ 0 (0, 0) (lt_trans zeroTol_pos hv) h₁
  rw [if_pos ⟨hv, h⟩, fold_keep v _ l₂ _ h₂]
  simp

theorem scalarProds_cols4 (a b c d : Vec3 ℝ) : scalarProds (cols4 a b c d) =
    [a.dot b, a.dot c, a.dot d, b.dot c, b.dot d, c.dot d] := rfl

theorem loop_step0 {n count : ℕ} (a b c d b' c' d' : Vec3 ℝ) (hb : b' = -b) (hc : c' = b + c) (hd : d' = b + d)
    (hv : zeroTol < a.dot b)
    (h : ∀ u ∈ [a.dot c, a.dot d, b.dot c, b.dot d, c.dot d], u ≤ a.dot b) :
    delaunayLoop (n + 1) count (cols4 a b c d) = delaunayLoop n (count + 1) (cols4 a b' c' d') := by
  subst hb hc hd
  have hm := maxIndex_first [] _ _ hv (by simp) h
  rw [delaunayLoop, scalarProds_cols4, if_pos (by simp [hv])]
  simp only [List.nil_append, List.length_nil] at hm
  rw [hm]
  have : delaunayStep (0, 1) (cols4 a b c d) = cols4 a (-b) (b + c) (b + d) := by
    funext i
    rw [delaunayStep_eq _ (by decide)]
    fin_cases i <;> rfl
  simp [pairMap, Outcome.ofOption, Outcome.bind, this]

theorem loop_step1 {n count : ℕ} (a b c d b' c' d' : Vec3 ℝ) (hb : b' = c + b) (hc : c' = -c) (hd : d' = c + d)
    (hv : zeroTol < a.dot c) (h₁ : a.dot b < a.dot c)
    (h : ∀ u ∈ [a.dot d, b.dot c, b.dot d, c.dot d], u ≤ a.dot c) :
    delaunayLoop (n + 1) count (cols4 a b c d) = delaunayLoop n (count + 1) (cols4 a b' c' d') := by
  subst hb hc hd
  have hm := maxIndex_first [a.dot b] _ _ hv (by simpa using h₁) h
  rw [delaunayLoop, scalarProds_cols4, if_pos (by simp [hv])]
  simp only [List.cons_append, List.nil_append, List.length_singleton] at hm
  rw [hm]
  have : delaunayStep (0, 2) (cols4 a b c d) = cols4 a (c + b) (-c) (c + d) := by
    funext i
    rw [delaunayStep_eq _ (by decide)]
    fin_cases i <;> rfl
  simp [pairMap, Outcome.ofOption, Outcome.bind, this]

theorem loop_step2 {n count : ℕ} (a b c d b' c' d' : Vec3 ℝ) (hb : b' = d + b) (hc : c' = d + c) (hd : d' = -d)
    (hv : zeroTol < a.dot d) (h₁ : ∀ u ∈ [a.dot b, a.dot c], u < a.dot d)
    (h : ∀ u ∈ [b.dot c, b.dot d, c.dot d], u ≤ a.dot d) :
    delaunayLoop (n + 1) count (cols4 a b c d) = delaunayLoop n (count + 1) (cols4 a b' c' d') := by
  subst hb hc hd
  have hm := maxIndex_first [a.dot b, a.dot c] _ _ hv h₁ h
  rw [delaunayLoop, scalarProds_cols4, if_pos (by simp [hv])]
  simp only [List.cons_append, List.nil_append, List.length_cons, List.length_nil] at hm
  rw [hm]
  have : delaunayStep (0, 3) (cols4 a b c d) = cols4 a (d + b) (d + c) (-d) := by
    funext i
    rw [delaunayStep_eq _ (by decide)]
    fin_cases i <;> rfl
  simp [pairMap, Outcome.ofOption, Outcome.bind, this]

/-- the superbase of `skew x`. -/
def skewSuper (x : ℝ) : Fin 4 → Vec3 ℝ := cols4 ⟨1, 0, 0⟩ ⟨x, 1, 0⟩ ⟨0, 0, 1⟩ ⟨-x - 1, -1, -1⟩

theorem skew_delaunayMatrix (x : ℝ) : (skew x).delaunayMatrix = skewSuper x := by
  funext i
  fin_cases i
  · rfl
  · rfl
  · rfl
  · show (_ : Vec3 ℝ) = ⟨-x - 1, -1, -1⟩
    ext <;> simp [skew, Structure.delaunayMatrix, Mat3.col0, Mat3.col1, Mat3.col2, Vec3.scale]
    ring

theorem tol_lt_one {y : ℝ} (h : 1 ≤ y) : (zeroTol : ℝ) < y := by
  rw [zeroTol_eq]; linarith

local macro "dots" : tactic => `(tactic| (simp only [List.mem_cons, List.not_mem_nil, or_false,
  forall_eq_or_imp, forall_eq, Vec3.dot]; and_intros <;> nlinarith))

local macro "vecs" : tactic => `(tactic| (ext <;> simp <;> ring))

local macro "dotn" : tactic => `(tactic| (simp only [List.mem_cons, List.not_mem_nil, or_false,
  forall_eq_or_imp, forall_eq, Vec3.dot]; norm_num))

local macro "vecn" : tactic => `(tactic| (ext <;> norm_num))

/-- the first five steps from `skewSuper x`. -/
theorem skew_five (n count : ℕ) (x : ℝ) (hx : 3 ≤ x) :
    delaunayLoop (n + 5) count (skewSuper x) = delaunayLoop n (count + 5)
      (cols4 ⟨1, 0, 0⟩ ⟨-1, 0, -1⟩ ⟨-(x - 2), -1, 0⟩ ⟨x - 2, 1, 1⟩) := by
  unfold skewSuper
  rw [loop_step0 (n := n + 4) _ _ _ _ ⟨-x, -1, 0⟩ ⟨x, 1, 1⟩ ⟨-1, 0, -1⟩ (by vecs) (by vecs)
      (by vecs) (tol_lt_one (by simp [Vec3.dot]; linarith))
      (by dots),
    loop_step1 (n := n + 3) _ _ _ _ ⟨0, 0, 1⟩ ⟨-x, -1, -1⟩ ⟨x - 1, 1, 0⟩ (by vecs) (by vecs)
      (by vecs) (tol_lt_one (by simp [Vec3.dot]; linarith)) (by simp [Vec3.dot]; linarith)
      (by dots),
    loop_step2 (n := n + 2) _ _ _ _ ⟨x - 1, 1, 1⟩ ⟨-1, 0, -1⟩ ⟨-(x - 1), -1, 0⟩ (by vecs)
      (by vecs) (by vecs) (tol_lt_one (by simp [Vec3.dot]; linarith))
      (by dots)
      (by dots),
    loop_step0 (n := n + 1) _ _ _ _ ⟨-(x - 1), -1, -1⟩ ⟨x - 2, 1, 0⟩ ⟨0, 0, 1⟩ (by vecs)
      (by vecs) (by vecs) (tol_lt_one (by simp [Vec3.dot]; linarith))
      (by dots),
    loop_step1 (n := n) _ _ _ _ ⟨-1, 0, -1⟩ ⟨-(x - 2), -1, 0⟩ ⟨x - 2, 1, 1⟩ (by vecs)
      (by vecs) (by vecs) (tol_lt_one (by simp [Vec3.dot]; linarith))
      (by simp [Vec3.dot]; linarith)
      (by dots)]

/-- six steps lower `x` by 3. -/
theorem skew_six (n count : ℕ) (x : ℝ) (hx : 3 ≤ x) :
    delaunayLoop (n + 6) count (skewSuper x) = delaunayLoop n (count + 6) (skewSuper (x - 3)) := by
  rw [show n + 6 = (n + 1) + 5 from rfl, skew_five _ _ x hx,
    loop_step2 (n := n) _ _ _ _ ⟨x - 3, 1, 0⟩ ⟨0, 0, 1⟩ ⟨-(x - 3) - 1, -1, -1⟩ (by vecs)
      (by vecs) (by vecs) (tol_lt_one (by simp [Vec3.dot]; linarith))
      (by dots)
      (by dots)]
  rfl

theorem skew_many (k n count : ℕ) (x : ℝ) (hx : 3 * (k : ℝ) ≤ x) :
    delaunayLoop (n + 6 * k) count (skewSuper x) = delaunayLoop n (count + 6 * k) (skewSuper (x - 3 * k)) := by
  induction k generalizing x count with
  | zero => simp
  | succ k ih =>
    push_cast at hx
    rw [show n + 6 * (k + 1) = (n + 6 * k) + 6 by ring, skew_six _ _ x (by nlinarith [k.cast_nonneg (α := ℝ)]),
      ih _ _ (by linarith)]
    congr 1
    · ring
    · congr 1; push_cast; ring

/-- **C23 is false:** for every `x ≥ 51` the cell `(1,0,0), (x,1,0), (0,0,1)` is returned after 101
iterations, without an error, although two of its vectors still have scalar product `x - 50 ≥ 1`. -/
theorem C23_false_returns_unreduced (r : Reducer ℝ) (x : ℝ) (hx : 51 ≤ x) :
    ∃ s', r.delaunayReduce (skew x) false = .ret s' ∧ ¬ ObtuseSuperbase s'.lattice := by
  have h : delaunayLoop 101 0 (skew x).delaunayMatrix = .ret
      (cols4 ⟨1, 0, 0⟩ ⟨-1, 0, -1⟩ ⟨-(x - 48 - 2), -1, 0⟩ ⟨x - 48 - 2, 1, 1⟩, 101) := by
    rw [skew_delaunayMatrix, show (101 : ℕ) = 5 + 6 * 16 from rfl, skew_many 16 5 0 x (by norm_num; linarith),
      show (5 : ℕ) = 0 + 5 from rfl, skew_five _ _ _ (by push_cast; linarith)]
    norm_num [delaunayLoop]
  refine ⟨r.rebuild (skew x) (Mat3.ofCols ⟨1, 0, 0⟩ ⟨-1, 0, -1⟩ ⟨-(x - 48 - 2), -1, 0⟩), ?_, ?_⟩
  · unfold delaunayReduce
    rw [h]
    simp [Outcome.bind, delaunayLattice, cols4]
  · rw [rebuild_lattice]
    intro ho
    have h3 := ho.2.2.1
    simp [Mat3.ofCols, Mat3.col0, Mat3.col1, Mat3.col2, dotp] at h3
    linarith

/-- **C23 is false in the other direction too:** for `x = 50` the loop reaches an obtuse superbase in exactly
100 iterations, and `delaunay_reduce` panics with "Reached max number of iterations". -/
theorem C23_false_panics_on_reduced (r : Reducer ℝ) :
    r.delaunayReduce (skew 50) false = .panic "Reached max number of iterations without reduction!" ∧
    ∃ d, delaunayLoop 101 0 (skew 50).delaunayMatrix = .ret (d, 100) ∧ ∀ v ∈ scalarProds d, v ≤ zeroTol := by
  have h : delaunayLoop 101 0 (skew 50).delaunayMatrix = .ret
      (cols4 ⟨1, 0, 0⟩ ⟨-1, -1, -1⟩ ⟨0, 1, 0⟩ ⟨0, 0, 1⟩, 100) := by
    rw [skew_delaunayMatrix, show (101 : ℕ) = 5 + 6 * 16 from rfl, skew_many 16 5 0 50 (by norm_num)]
    rw [show (50 : ℝ) - 3 * ((16 : ℕ) : ℝ) = 2 by norm_num]
    unfold skewSuper
    rw [loop_step0 (n := 4) _ _ _ _ ⟨-2, -1, 0⟩ ⟨2, 1, 1⟩ ⟨-1, 0, -1⟩ (by vecn) (by vecn)
        (by vecn) (tol_lt_one (by norm_num [Vec3.dot])) (by dotn),
      loop_step1 (n := 3) _ _ _ _ ⟨0, 0, 1⟩ ⟨-2, -1, -1⟩ ⟨1, 1, 0⟩ (by vecn) (by vecn) (by vecn)
        (tol_lt_one (by norm_num [Vec3.dot])) (by norm_num [Vec3.dot]) (by dotn),
      loop_step2 (n := 2) _ _ _ _ ⟨1, 1, 1⟩ ⟨-1, 0, -1⟩ ⟨-1, -1, 0⟩ (by vecn) (by vecn) (by vecn)
        (tol_lt_one (by norm_num [Vec3.dot])) (by dotn) (by dotn),
      loop_step0 (n := 1) _ _ _ _ ⟨-1, -1, -1⟩ ⟨0, 1, 0⟩ ⟨0, 0, 1⟩ (by vecn) (by vecn) (by vecn)
        (tol_lt_one (by norm_num [Vec3.dot])) (by dotn)]
    rcases delaunayLoop_succ 0 (0 + 6 * 16 + 1 + 1 + 1 + 1) (cols4 ⟨1, 0, 0⟩ ⟨-1, -1, -1⟩ ⟨0, 1, 0⟩ ⟨0, 0, 1⟩)
      with ⟨-, e⟩ | ⟨p, hp, hgt, -, -⟩
    · exact e
    · exfalso
      have := zeroTol_pos (K := ℝ)
      simp only [pairMap, List.mem_cons, List.not_mem_nil, or_false] at hp
      rcases hp with rfl | rfl | rfl | rfl | rfl | rfl <;> simp [cols4, Vec3.dot] at hgt <;> linarith
  refine ⟨?_, _, h, ?_⟩
  · unfold delaunayReduce
    rw [h]
    simp [Outcome.bind]
  · rw [scalarProds_cols4, zeroTol_eq]
    simp [Vec3.dot]
    norm_num

end CrystSymm
