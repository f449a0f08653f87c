import Verif.Props.DelaunayFull
import Verif.Props.NiggliIdem
import Verif.Props.ExactDelaunay

set_option autoImplicit false
set_option linter.unusedSectionVars false

/-! # C92: reducing a Delaunay reduced structure again -/

namespace CrystSymm

open Spec Reducer

theorem delaunayMatrix_cols (s : Structure ℝ) :
    Mat3.ofCols (s.delaunayMatrix 0) (s.delaunayMatrix 1) (s.delaunayMatrix 2) = s.lattice := by
  ext <;> rfl

theorem pairMap_mem_prods {d : Fin 4 → Vec3 ℝ} {p : Fin 4 × Fin 4} (h : p ∈ pairMap) : (d p.1).dot (d p.2) ∈ scalarProds d := by
  simp only [pairMap, List.mem_cons, List.not_mem_nil, or_false] at h
  rcases h with rfl | rfl | rfl | rfl | rfl | rfl <;> simp [scalarProds]

/-- a superbase is determined by its first three vectors. -/
theorem superSq_of_cols {d d' : Fin 4 → Vec3 ℝ} (h : d 0 + d 1 + d 2 + d 3 = 0) (h' : d' 0 + d' 1 + d' 2 + d' 3 = 0)
    (he : Mat3.ofCols (d 0) (d 1) (d 2) = Mat3.ofCols (d' 0) (d' 1) (d' 2)) : superSq d = superSq d' := by
  have e0 : d 0 = d' 0 := congrArg Mat3.col0 he
  have e1 : d 1 = d' 1 := congrArg Mat3.col1 he
  have e2 : d 2 = d' 2 := congrArg Mat3.col2 he
  have e3 : d 3 = d' 3 := by
    rw [eq_neg_of_add_eq_zero_right h, eq_neg_of_add_eq_zero_right h', e0, e1, e2]
  unfold superSq
  rw [e0, e1, e2, e3]

/-- **C92.** `delaunay_reduce` without full reduction leaves the lattice of a structure as it is exactly when the six scalar
products of the superbase are at most `1e-6`; the reduced cells are the fixed points and there are no others. -/
theorem C92_fixed_iff_reduced (r : Reducer ℝ) (s : Structure ℝ) :
    (∃ t, r.delaunayReduce s false = .ret t ∧ t.lattice = s.lattice) ↔ ObtuseSuperbase s.lattice := by
  have hsum := delaunayMatrix_sum s
  have ho := obtuse_iff hsum
  rw [delaunayMatrix_cols] at ho
  rw [ho]
  constructor
  · rintro ⟨t, ht, hl⟩
    obtain ⟨d, count, M, h1, -, h3, rfl⟩ := delaunayReduce_ret ht
    simp only [delaunayLattice, Bool.false_eq_true, if_false, Outcome.ret.injEq] at h3
    rw [rebuild_lattice, ← h3] at hl
    rcases delaunayLoop_succ 100 0 s.delaunayMatrix with ⟨h, -⟩ | ⟨p, hp, hgt, -, e⟩
    · exact h
    · rw [e] at h1
      obtain ⟨k1, k2⟩ := delaunayLoop_superSq (sum_step hsum hp) h1
      rw [superSq_step hsum hp, superSq_of_cols k2 hsum (hl.trans (delaunayMatrix_cols s).symm)] at k1
      have := zeroTol_eq
      linarith
  · intro h
    rcases delaunayLoop_succ 100 0 s.delaunayMatrix with ⟨-, e⟩ | ⟨p, hp, hgt, -, -⟩
    · refine ⟨r.rebuild s s.lattice, ?_, rebuild_lattice _ _ _⟩
      unfold delaunayReduce
      rw [e]
      simp [Outcome.bind, delaunayLattice, delaunayMatrix_cols]
    · exact absurd hgt (not_lt.2 (h _ (pairMap_mem_prods hp)))

/-- **C92 (partial).** Reducing a Delaunay reduced structure again returns the same lattice and, when the cell is not flat
and its axes are longer than the distance tolerance, the very same structure.  The first call has to have returned a reduced
cell (see `C92_false_unreduced`), and the reduction is the one without `full_reduction` (see `C92_false_full`). -/
theorem C92_delaunay_idempotent_partial (r : Reducer ℝ) (s s' : Structure ℝ) (h : r.delaunayReduce s false = .ret s')
    (ho : ObtuseSuperbase s'.lattice) : ∃ s'', r.delaunayReduce s' false = .ret s'' ∧ Unchanged r s' s'' := by
  obtain ⟨t, ht, hl⟩ := (C92_fixed_iff_reduced r s').2 ho
  obtain ⟨d, count, M, h1, h2, h3, rfl⟩ := delaunayReduce_ret ht
  rw [rebuild_lattice] at hl
  subst hl
  refine ⟨_, ht, rebuild_lattice _ _ _, fun hd hsv h1 h2 h3 => ?_⟩
  exact rebuild_self r s' ((C60_reductions_tidy r hd s s').2.2 false h) hsv h1 h2 h3

/-- **C92 is false for the cells which the iteration limit leaves unreduced:** the cell `(1,0,0), (x,1,0), (0,0,1)` with
`x ≥ 51` comes back without an error, and whatever a second call returns is another lattice. -/
theorem C92_false_unreduced (r : Reducer ℝ) (x : ℝ) (hx : 51 ≤ x) : ∃ s', r.delaunayReduce (skew x) false = .ret s' ∧
    ∀ s'', r.delaunayReduce s' false = .ret s'' → s''.lattice ≠ s'.lattice := by
  obtain ⟨s', h, hn⟩ := C23_false_returns_unreduced r x hx
  exact ⟨s', h, fun s'' h2 he => hn ((C92_fixed_iff_reduced r s').1 ⟨s'', h2, he⟩)⟩

/-- **C92 in rounded arithmetic.** On a lattice whose entries are whole multiples of a unit `g` and whose products the
arithmetic represents exactly, too, `delaunay_reduce` leaves the lattice as it is, to the last bit, exactly when it is reduced. -/
theorem C92_fixed_iff_reduced_rounded (ρ : Rounding) (g : ℝ) (A : ℤ) (Lz : Mat3 ℤ) (s : Structure (RNum ρ))
    (hx : DelaunayGrid ρ g A) (hl : valM s.lattice = timesUnit g Lz) (he : EntLe Lz A) (r : Reducer (RNum ρ)) :
    (∃ t, r.delaunayReduce s false = .ret t ∧ valM t.lattice = valM s.lattice) ↔ ObtuseSuperbase (valM s.lattice) := by
  have h := C92_fixed_iff_reduced ⟨1, 1⟩ (asReal s)
  rw [show (asReal s).lattice = valM s.lattice from rfl] at h
  rw [← h]
  rcases C91_same_run ρ g A Lz s hx hl he r ⟨1, 1⟩ false with ⟨s', t', k1, k2, k3⟩ | ⟨msg, k1, k2⟩
  · constructor
    · rintro ⟨t, ht, hv⟩
      rw [k1, Outcome.ret.injEq] at ht
      subst ht
      exact ⟨t', k2, by rw [← k3, hv]⟩
    · rintro ⟨t, ht, hv⟩
      rw [k2, Outcome.ret.injEq] at ht
      subst ht
      exact ⟨s', k1, by rw [k3, hv]⟩
  · constructor
    · rintro ⟨t, ht, -⟩
      rw [k1] at ht; cases ht
    · rintro ⟨t, ht, -⟩
      rw [k2] at ht; cases ht

/-- **C92 in binary64:** the lattices with entries `n / 2^k`, `k ≤ 9`, `|n| ≤ 10^6`. -/
theorem C92_fixed_iff_reduced_binary64 (k : ℕ) (hk : k ≤ 9) (Lz : Mat3 ℤ) (s : Structure (RNum binary64))
    (hl : valM s.lattice = timesUnit ((1 / 2) ^ k) Lz) (he : EntLe Lz 1000000) (r : Reducer (RNum binary64)) :
    (∃ t, r.delaunayReduce s false = .ret t ∧ valM t.lattice = valM s.lattice) ↔ ObtuseSuperbase (valM s.lattice) :=
  C92_fixed_iff_reduced_rounded binary64 _ _ Lz s (delaunayGrid64 hk (by norm_num) (le_refl _)) hl he r

/-- in double precision `(1,0,0), (3,1,0), (0,0,1)` is changed and the unit cube is not. -/
example (r : Reducer (RNum binary64)) (sp : List String) (c f : List (Vec3 (RNum binary64))) :
    (∃ t, r.delaunayReduce ⟨dyadicMat 0 1, sp, c, f⟩ false = .ret t ∧ valM t.lattice = 1) ∧
    ∀ t, r.delaunayReduce ⟨dyadicMat 0 ⟨1, 3, 0, 0, 1, 0, 0, 0, 1⟩, sp, c, f⟩ false = .ret t →
      valM t.lattice ≠ ⟨1, 3, 0, 0, 1, 0, 0, 0, 1⟩ := by
  have h1 : valM (dyadicMat 0 1) = timesUnit ((1 / 2) ^ 0) 1 := dyadicMat_val (by norm_num) (by decide)
  have h2 : valM (dyadicMat 0 ⟨1, 3, 0, 0, 1, 0, 0, 0, 1⟩) = timesUnit ((1 / 2) ^ 0) ⟨1, 3, 0, 0, 1, 0, 0, 0, 1⟩ :=
    dyadicMat_val (by norm_num) (by decide)
  have e1 : (timesUnit ((1 / 2) ^ 0) 1 : Mat3 ℝ) = 1 := by ext <;> norm_num [timesUnit, Mat3.map]
  have e2 : (timesUnit ((1 / 2) ^ 0) ⟨1, 3, 0, 0, 1, 0, 0, 0, 1⟩ : Mat3 ℝ) = ⟨1, 3, 0, 0, 1, 0, 0, 0, 1⟩ := by
    ext <;> norm_num [timesUnit, Mat3.map]
  constructor
  · have := (C92_fixed_iff_reduced_binary64 0 (by norm_num) 1 ⟨dyadicMat 0 1, sp, c, f⟩ h1 (by decide) r).2 (by
      show ObtuseSuperbase (valM (dyadicMat 0 1))
      rw [h1, e1]
      norm_num [ObtuseSuperbase, dotp, Mat3.col0, Mat3.col1, Mat3.col2])
    rwa [show valM (Structure.lattice ⟨dyadicMat 0 1, sp, c, f⟩) = 1 from h1.trans e1] at this
  · intro t ht hv
    have := (C92_fixed_iff_reduced_binary64 0 (by norm_num) _ ⟨dyadicMat 0 ⟨1, 3, 0, 0, 1, 0, 0, 0, 1⟩, sp, c, f⟩ h2 (by decide) r).1
      ⟨t, ht, hv.trans (h2.trans e2).symm⟩
    have h3 := (show ObtuseSuperbase (valM (dyadicMat 0 ⟨1, 3, 0, 0, 1, 0, 0, 0, 1⟩)) from this)
    rw [h2, e2] at h3
    have := h3.1
    norm_num [dotp, Mat3.col0, Mat3.col1] at this

/-! ## full reduction -/

theorem sortByMag_unique {l l' : List (Vec3 ℝ)} (hp : l'.Perm l) (h : l'.Pairwise fun u v => lenSq u < lenSq v) :
    sortByMag l = l' := by
  have hm : ∀ u : Vec3 ℝ, u.mag = √(lenSq u) := fun u => by
    simp only [Vec3.mag, lenSq, FTrans.sqrt]
    rfl
  have hp' : (sortByMag l).Perm l' := (List.mergeSort_perm _ _).trans hp.symm
  refine hp'.eq_of_pairwise ?_ (sortByMag_sorted l) (h.imp fun k => ?_)
  · intro u v hu hv h1 h2
    have hu' := hp'.subset hu
    rw [hm, hm] at h1 h2
    have e : lenSq u = lenSq v := by
      have := le_antisymm h1 h2
      rwa [Real.sqrt_inj (lenSq_nonneg u) (lenSq_nonneg v)] at this
    by_contra hne
    have key : ∀ l : List (Vec3 ℝ), l.Pairwise (fun u v => lenSq u < lenSq v) → u ∈ l → v ∈ l → False := by
      intro l
      induction l with
      | nil => simp
      | cons w l ih =>
        intro hl g1 g2
        rw [List.pairwise_cons] at hl
        rcases List.mem_cons.1 g1 with rfl | k1 <;> rcases List.mem_cons.1 g2 with k2 | k2
        · exact hne k2.symm
        · exact absurd (hl.1 _ k2) (by rw [e]; exact lt_irrefl _)
        · rw [← k2] at hl
          exact absurd (hl.1 _ k1) (by rw [e]; exact lt_irrefl _)
        · exact ih hl.2 k1 k2
    exact key l' h hu' hv
  · rw [hm, hm]
    exact Real.sqrt_le_sqrt k.le

/-- a right-angled box with edges 1, 2 and 4. -/
noncomputable def box124 (sp : List String) (c f : List (Vec3 ℝ)) : Structure ℝ := ⟨⟨1, 0, 0, 0, 2, 0, 0, 0, 4⟩, sp, c, f⟩

theorem full_of_loop {r : Reducer ℝ} {s : Structure ℝ} {d : Fin 4 → Vec3 ℝ} {count : ℕ} {a b c e : Vec3 ℝ}
    (h : delaunayLoop 101 0 s.delaunayMatrix = .ret (d, count)) (hc : count ≠ 100)
    (hs : sortByMag [d 0, d 1, d 2, d 3] = [a, b, c, e]) :
    r.delaunayReduce s true = .ret (r.rebuild s (triAcute a b c e)) := by
  unfold delaunayReduce
  rw [h]
  simp [Outcome.bind, hc, delaunayLattice, hs]

theorem loop_done {n count : ℕ} (a b c d : Vec3 ℝ) (h : ∀ v ∈ scalarProds (cols4 a b c d), v ≤ zeroTol) :
    delaunayLoop (n + 1) count (cols4 a b c d) = .ret (cols4 a b c d, count) := by
  rcases delaunayLoop_succ n count (cols4 a b c d) with ⟨-, e⟩ | ⟨p, hp, hgt, -, -⟩
  · exact e
  · exact absurd hgt (not_lt.2 (h _ (pairMap_mem_prods hp)))

/-- **C92 is false with full reduction:** the box with edges 1, 2 and 4 comes back as the cell
`(-1,0,0), (-1,-2,0), (0,0,4)`, and this one as `(1,0,0), (1,2,0), (0,0,4)`. -/
theorem C92_false_full (r : Reducer ℝ) (sp : List String) (c f : List (Vec3 ℝ)) : ∃ s' s'',
    r.delaunayReduce (box124 sp c f) true = .ret s' ∧ r.delaunayReduce s' true = .ret s'' ∧
    s'.lattice = ⟨-1, -1, 0, 0, -2, 0, 0, 0, 4⟩ ∧ s''.lattice = ⟨1, 1, 0, 0, 2, 0, 0, 0, 4⟩ := by
  have hm : (box124 sp c f).delaunayMatrix = cols4 ⟨1, 0, 0⟩ ⟨0, 2, 0⟩ ⟨0, 0, 4⟩ ⟨-1, -2, -4⟩ := by
    funext i
    have k : i = 0 ∨ i = 1 ∨ i = 2 ∨ i = 3 := by revert i; decide
    rcases k with rfl | rfl | rfl | rfl
    · rfl
    · rfl
    · rfl
    · show (_ : Vec3 ℝ) = ⟨-1, -2, -4⟩
      ext <;> simp [box124, Structure.delaunayMatrix, Mat3.col0, Mat3.col1, Mat3.col2, Vec3.scale]
  have h1 : delaunayLoop 101 0 (box124 sp c f).delaunayMatrix =
      .ret (cols4 ⟨1, 0, 0⟩ ⟨0, 2, 0⟩ ⟨0, 0, 4⟩ ⟨-1, -2, -4⟩, 0) := by
    rw [hm]
    apply loop_done
    rw [scalarProds_cols4, zeroTol_eq]
    simp [Vec3.dot]
    norm_num
  have h2 := full_of_loop (r := r) h1 (by norm_num) (sortByMag_unique (List.Perm.refl _) (by
    norm_num [cols4, lenSq]))
  have hl : (r.rebuild (box124 sp c f) (triAcute (cols4 ⟨1, 0, 0⟩ ⟨0, 2, 0⟩ ⟨0, 0, 4⟩ ⟨-1, -2, -4⟩ 0)
      (cols4 ⟨1, 0, 0⟩ ⟨0, 2, 0⟩ ⟨0, 0, 4⟩ ⟨-1, -2, -4⟩ 1) (cols4 ⟨1, 0, 0⟩ ⟨0, 2, 0⟩ ⟨0, 0, 4⟩ ⟨-1, -2, -4⟩ 2)
      (cols4 ⟨1, 0, 0⟩ ⟨0, 2, 0⟩ ⟨0, 0, 4⟩ ⟨-1, -2, -4⟩ 3))).lattice = ⟨-1, -1, 0, 0, -2, 0, 0, 0, 4⟩ := by
    rw [rebuild_lattice]
    norm_num [triAcute, cols4, Vec3.dot, Vec3.scale, Mat3.ofCols]
  generalize r.rebuild (box124 sp c f) _ = s' at h2 hl
  have hm' : s'.delaunayMatrix = cols4 ⟨-1, 0, 0⟩ ⟨-1, -2, 0⟩ ⟨0, 0, 4⟩ ⟨2, 2, -4⟩ := by
    funext i
    have k : i = 0 ∨ i = 1 ∨ i = 2 ∨ i = 3 := by revert i; decide
    rcases k with rfl | rfl | rfl | rfl <;>
      (show (_ : Vec3 ℝ) = ⟨_, _, _⟩
       ext <;> norm_num [Structure.delaunayMatrix, hl, Mat3.col0, Mat3.col1, Mat3.col2, Vec3.scale])
  have h3 : delaunayLoop 101 0 s'.delaunayMatrix =
      .ret (cols4 ⟨-1, 0, 0⟩ ⟨0, 0, 4⟩ ⟨1, 2, -4⟩ ⟨0, -2, 0⟩, 2) := by
    rw [hm', show (101 : ℕ) = 99 + 1 + 1 from rfl,
      loop_step0 (n := 99 + 1) _ _ _ _ ⟨1, 2, 0⟩ ⟨-1, -2, 4⟩ ⟨1, 0, -4⟩ (by ext <;> norm_num) (by ext <;> norm_num)
        (by ext <;> norm_num) (by rw [zeroTol_eq]; norm_num [Vec3.dot]) (by norm_num [Vec3.dot]),
      loop_step1 (n := 99) _ _ _ _ ⟨0, 0, 4⟩ ⟨1, 2, -4⟩ ⟨0, -2, 0⟩ (by ext <;> norm_num) (by ext <;> norm_num)
        (by ext <;> norm_num) (by rw [zeroTol_eq]; norm_num [Vec3.dot]) (by norm_num [Vec3.dot]) (by norm_num [Vec3.dot])]
    apply loop_done
    rw [scalarProds_cols4, zeroTol_eq]
    norm_num [Vec3.dot]
  have h4 := full_of_loop (r := r) (a := ⟨-1, 0, 0⟩) (b := ⟨0, -2, 0⟩) (c := ⟨0, 0, 4⟩) (e := ⟨1, 2, -4⟩) h3 (by norm_num)
    (sortByMag_unique (by
      show List.Perm [_, _, _, _] [(⟨-1, 0, 0⟩ : Vec3 ℝ), ⟨0, 0, 4⟩, ⟨1, 2, -4⟩, ⟨0, -2, 0⟩]
      refine List.Perm.cons _ ?_
      exact (List.perm_append_comm (l₁ := [(⟨0, -2, 0⟩ : Vec3 ℝ)]) (l₂ := [⟨0, 0, 4⟩, ⟨1, 2, -4⟩]))) (by norm_num [lenSq]))
  refine ⟨_, _, h2, h4, hl, ?_⟩
  rw [rebuild_lattice]
  norm_num [triAcute, Vec3.dot, Vec3.scale, Mat3.ofCols]

/-- the reduction of `(1,0,0), (3,1,0), (0,0,1)` with two atoms changes the lattice, and reducing the result does not. -/
example (r : Reducer ℝ) : ∃ s' s'', r.delaunayReduce skewAtoms false = .ret s' ∧ s'.lattice ≠ skewAtoms.lattice ∧
    r.delaunayReduce s' false = .ret s'' ∧ s''.lattice = s'.lattice := by
  obtain ⟨s', h, ho⟩ := skew3_reduces r skewAtoms rfl
  obtain ⟨s'', h2, h3, -⟩ := C92_delaunay_idempotent_partial r _ _ h ho
  refine ⟨s', s'', h, fun he => ?_, h2, h3⟩
  rw [he] at ho
  have := ho.1
  norm_num [skewAtoms, skew, dotp, Mat3.col0, Mat3.col1] at this

end CrystSymm
