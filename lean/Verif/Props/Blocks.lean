import Verif.Proofs.BlockFrame
import Verif.Props.RepeatedCells

set_option autoImplicit false
set_option linter.unusedSectionVars false

/-! # C101: the primitive cell of a cell repeated in all three directions -/

namespace CrystSymm

open Spec Reducer SymmetryAnalyzer

/-- the lattice points of a cell repeated `n1`, `n2` and `n3` times, in units of `1 / (n1 n2 n3)`. -/
def blockPoints (n1 n2 n3 : ℕ) : List (Vec3 ℤ) :=
  (List.range n1).flatMap fun i : ℕ => (List.range n2).flatMap fun j : ℕ => (List.range n3).map fun k : ℕ =>
    (⟨i * (n2 * n3), j * (n1 * n3), k * (n1 * n2)⟩ : Vec3 ℤ)

/-- the same points without the first one, which is zero. -/
def blocks (n1 n2 n3 : ℕ) : List (Vec3 ℤ) := (blockPoints n1 n2 n3).tail

/-- no angle between two edges is larger than a right angle. -/
def Spec.AcuteOrRight (s : Structure ℝ) : Prop :=
  0 ≤ s.lattice.col0.dot s.lattice.col1 ∧ 0 ≤ s.lattice.col0.dot s.lattice.col2 ∧ 0 ≤ s.lattice.col1.dot s.lattice.col2

section
variable {s : Structure ℝ} {n1 n2 n3 : ℕ}

theorem blockPoints_eq (h1 : 0 < n1) (h2 : 0 < n2) (h3 : 0 < n3) : blockPoints n1 n2 n3 = 0 :: blocks n1 n2 n3 := by
  obtain ⟨a, rfl⟩ := Nat.exists_eq_succ_of_ne_zero h1.ne'
  obtain ⟨b, rfl⟩ := Nat.exists_eq_succ_of_ne_zero h2.ne'
  obtain ⟨c, rfl⟩ := Nat.exists_eq_succ_of_ne_zero h3.ne'
  unfold blocks
  have : (blockPoints (a + 1) (b + 1) (c + 1)).head? = some 0 := by
    simp [blockPoints, List.range_succ_eq_map]
    rfl
  exact (List.cons_head?_tail this).symm

theorem blockPoints_length : (blockPoints n1 n2 n3).length = n1 * n2 * n3 := by
  simp [blockPoints, List.length_flatMap, mul_assoc]

theorem blocks_length (h1 : 0 < n1) (h2 : 0 < n2) (h3 : 0 < n3) : (blocks n1 n2 n3).length + 1 = n1 * n2 * n3 := by
  rw [← blockPoints_length, blockPoints_eq h1 h2 h3, List.length_cons]

theorem mem_blockPoints {v : Vec3 ℤ} : v ∈ blockPoints n1 n2 n3 ↔ ∃ i j k : ℤ, (0 ≤ i ∧ i < n1) ∧ (0 ≤ j ∧ j < n2) ∧ (0 ≤ k ∧ k < n3) ∧
    v = ⟨i * (n2 * n3), j * (n1 * n3), k * (n1 * n2)⟩ := by
  simp only [blockPoints, List.mem_flatMap, List.mem_range, List.mem_map]
  constructor
  · rintro ⟨i, hi, j, hj, k, hk, rfl⟩
    exact ⟨i, j, k, by omega, by omega, by omega, rfl⟩
  · rintro ⟨i, j, k, ⟨i0, i1⟩, ⟨j0, j1⟩, ⟨k0, k1⟩, rfl⟩
    refine ⟨i.toNat, by omega, j.toNat, by omega, k.toNat, by omega, ?_⟩
    rw [Int.toNat_of_nonneg i0, Int.toNat_of_nonneg j0, Int.toNat_of_nonneg k0]

/-- the shortest translations along the three edges. -/
def edgeA (n2 n3 : ℕ) : Vec3 ℤ := ⟨n2 * n3, 0, 0⟩
def edgeB (n1 n3 : ℕ) : Vec3 ℤ := ⟨0, n1 * n3, 0⟩
def edgeC (n1 n2 : ℕ) : Vec3 ℤ := ⟨0, 0, n1 * n2⟩

theorem block_comb (i j k : ℤ) : Mat3.ofCols (edgeA n2 n3) (edgeB n1 n3) (edgeC n1 n2) * (⟨i, j, k⟩ : Vec3 ℤ) =
    ⟨i * (n2 * n3), j * (n1 * n3), k * (n1 * n2)⟩ := by
  ext <;> simp [Mat3.ofCols, edgeA, edgeB, edgeC] <;> ring

theorem edge_multiple (h1 : 0 < n1) (h2 : 0 < n2) (h3 : 0 < n3) {i : ℤ} (hi : 1 ≤ i) :
    (i ≤ n1 → Vec3.scale i (edgeA n2 n3) ∈ unitsZ (n1 * n2 * n3) ++ blocks n1 n2 n3) ∧
    (i ≤ n2 → Vec3.scale i (edgeB n1 n3) ∈ unitsZ (n1 * n2 * n3) ++ blocks n1 n2 n3) ∧
    (i ≤ n3 → Vec3.scale i (edgeC n1 n2) ∈ unitsZ (n1 * n2 * n3) ++ blocks n1 n2 n3) := by
  have p1 : (0 : ℤ) < n1 := by exact_mod_cast h1
  have p2 : (0 : ℤ) < n2 := by exact_mod_cast h2
  have p3 : (0 : ℤ) < n3 := by exact_mod_cast h3
  have key : ∀ v : Vec3 ℤ, v ≠ 0 → v ∈ blockPoints n1 n2 n3 → v ∈ blocks n1 n2 n3 := by
    intro v hv hm
    rw [blockPoints_eq h1 h2 h3, List.mem_cons] at hm
    exact hm.resolve_left hv
  refine ⟨fun h => ?_, fun h => ?_, fun h => ?_⟩ <;> rw [List.mem_append] <;> rcases h.lt_or_eq with h | h
  · refine Or.inr (key _ ?_ (mem_blockPoints.2 ⟨i, 0, 0, ⟨by omega, h⟩, ⟨le_rfl, p2⟩, ⟨le_rfl, p3⟩, by ext <;> simp [Vec3.scale, edgeA] <;> ring⟩))
    intro e
    have := congrArg Vec3.x e
    simp [Vec3.scale, edgeA] at this
    omega
  · left
    subst h
    simp [unitsZ, Vec3.scale, edgeA, Vec3.ext_iff]
    left; ring
  · refine Or.inr (key _ ?_ (mem_blockPoints.2 ⟨0, i, 0, ⟨le_rfl, p1⟩, ⟨by omega, h⟩, ⟨le_rfl, p3⟩, by ext <;> simp [Vec3.scale, edgeB] <;> ring⟩))
    intro e
    have := congrArg Vec3.y e
    simp [Vec3.scale, edgeB] at this
    omega
  · left
    subst h
    simp [unitsZ, Vec3.scale, edgeB, Vec3.ext_iff]
    right; left; ring
  · refine Or.inr (key _ ?_ (mem_blockPoints.2 ⟨0, 0, i, ⟨le_rfl, p1⟩, ⟨le_rfl, p2⟩, ⟨by omega, h⟩, by ext <;> simp [Vec3.scale, edgeC] <;> ring⟩))
    intro e
    have := congrArg Vec3.z e
    simp [Vec3.scale, edgeC] at this
    omega
  · left
    subst h
    simp [unitsZ, Vec3.scale, edgeC, Vec3.ext_iff]
    right; ring

theorem block_members {v : Vec3 ℤ} (h1 : 0 < n1) (h2 : 0 < n2) (h3 : 0 < n3) (h0 : (0 : Vec3 ℤ) ∉ blocks n1 n2 n3)
    (hv : v ∈ unitsZ (n1 * n2 * n3) ++ blocks n1 n2 n3) : ∃ i j k : ℤ, (0 ≤ i ∧ 0 ≤ j ∧ 0 ≤ k) ∧ (1 ≤ i ∨ 1 ≤ j ∨ 1 ≤ k) ∧
      v = ⟨i * (n2 * n3), j * (n1 * n3), k * (n1 * n2)⟩ := by
  rcases List.mem_append.1 hv with hv | hv
  · simp only [unitsZ, List.mem_cons, List.not_mem_nil, or_false] at hv
    rcases hv with rfl | rfl | rfl
    · exact ⟨n1, 0, 0, by omega, by omega, by ext <;> simp; ring⟩
    · exact ⟨0, n2, 0, by omega, by omega, by ext <;> simp; ring⟩
    · exact ⟨0, 0, n3, by omega, by omega, by ext <;> simp; ring⟩
  · have hm : v ∈ blockPoints n1 n2 n3 := by rw [blockPoints_eq h1 h2 h3]; exact List.mem_cons_of_mem _ hv
    obtain ⟨i, j, k, ⟨i0, -⟩, ⟨j0, -⟩, ⟨k0, -⟩, rfl⟩ := mem_blockPoints.1 hm
    refine ⟨i, j, k, ⟨i0, j0, k0⟩, ?_, rfl⟩
    by_contra hc
    have e1 : i = 0 := by omega
    have e2 : j = 0 := by omega
    have e3 : k = 0 := by omega
    subst e1 e2 e3
    apply h0
    convert hv using 1
    ext <;> simp

theorem block_length_sq (h1 : 0 < n1) (h2 : 0 < n2) (h3 : 0 < n3) (i j k : ℤ) :
    (s.lattice * gridPoint (n1 * n2 * n3) ⟨i * (n2 * n3), j * (n1 * n3), k * (n1 * n2)⟩).mag ^ 2 =
      (i : ℝ) ^ 2 * (s.a / n1) ^ 2 + (j : ℝ) ^ 2 * (s.b / n2) ^ 2 + (k : ℝ) ^ 2 * (s.c / n3) ^ 2 +
      2 * ((i : ℝ) * j * (s.lattice.col0.dot s.lattice.col1 / (n1 * n2)) + i * k * (s.lattice.col0.dot s.lattice.col2 / (n1 * n3)) +
        j * k * (s.lattice.col1.dot s.lattice.col2 / (n2 * n3))) := by
  have p1 : (n1 : ℝ) ≠ 0 := by positivity
  have p2 : (n2 : ℝ) ≠ 0 := by positivity
  have p3 : (n3 : ℝ) ≠ 0 := by positivity
  have eg : gridPoint (n1 * n2 * n3) ⟨i * (n2 * n3), j * (n1 * n3), k * (n1 * n2)⟩ = (⟨i / n1, j / n2, k / n3⟩ : Vec3 ℝ) := by
    ext <;> simp [gridPoint] <;> field_simp
  have ea : s.a ^ 2 = lenSq s.lattice.col0 := by
    unfold Structure.a; rw [mag_eq, Real.sq_sqrt (lenSq_nonneg _)]
  have eb : s.b ^ 2 = lenSq s.lattice.col1 := by
    unfold Structure.b; rw [mag_eq, Real.sq_sqrt (lenSq_nonneg _)]
  have ec : s.c ^ 2 = lenSq s.lattice.col2 := by
    unfold Structure.c; rw [mag_eq, Real.sq_sqrt (lenSq_nonneg _)]
  rw [eg, mag_eq, Real.sq_sqrt (lenSq_nonneg _), div_pow, div_pow, div_pow, ea, eb, ec]
  simp [lenSq, Mat3.col0, Mat3.col1, Mat3.col2, Vec3.dot]
  field_simp
  ring

/-- the sorted translations of a repeated cell. -/
theorem block_frame {d : ℝ} (h1 : 0 < n1) (h2 : 0 < n2) (h3 : 0 < n3) (h : CentredCell s (n1 * n2 * n3) (blocks n1 n2 n3) d)
    (hob : AcuteOrRight s) {l : List (Vec3 ℤ)} (hl : l.Perm (blocks n1 n2 n3)) :
    BlockFrame (gridSort s.lattice (n1 * n2 * n3) (unitsZ (n1 * n2 * n3) ++ l))
      (fun u => (s.lattice * gridPoint (n1 * n2 * n3) u).mag) (edgeA n2 n3) (edgeB n1 n3) (edgeC n1 n2) (s.a / n1) (s.b / n2) (s.c / n3) := by
  have p1 : (0 : ℝ) < n1 := by exact_mod_cast h1
  have p2 : (0 : ℝ) < n2 := by exact_mod_cast h2
  have p3 : (0 : ℝ) < n3 := by exact_mod_cast h3
  obtain ⟨pa, pb, pc⟩ := edge_pos h
  obtain ⟨o1, o2, o3⟩ := hob
  have hmem : ∀ v, v ∈ gridSort s.lattice (n1 * n2 * n3) (unitsZ (n1 * n2 * n3) ++ l) ↔ v ∈ unitsZ (n1 * n2 * n3) ++ blocks n1 n2 n3 := by
    intro v
    rw [(gridSort_perm _).mem_iff, List.mem_append, List.mem_append, hl.mem_iff]
  have hnd : (unitsZ (n1 * n2 * n3) ++ l).Nodup := by
    obtain ⟨hN, h1', h2'⟩ := h.grid
    rw [List.nodup_append]
    refine ⟨?_, hl.nodup_iff.2 h1', ?_⟩
    · simp [unitsZ, h1.ne', h2.ne', h3.ne']
    · rintro u hu _ hv rfl
      have := (h2' u (hl.mem_iff.1 hv)).2
      simp only [unitsZ, List.mem_cons, List.not_mem_nil, or_false] at hu
      rcases hu with rfl | rfl | rfl <;> simp at this
  have nonneg : ∀ u : Vec3 ℤ, 0 ≤ (s.lattice * gridPoint (n1 * n2 * n3) u).mag := fun u => by rw [mag_eq]; exact Real.sqrt_nonneg _
  have edge : ∀ (i j k : ℤ) (x : ℝ), 0 ≤ x → (i : ℝ) ^ 2 * (s.a / n1) ^ 2 + (j : ℝ) ^ 2 * (s.b / n2) ^ 2 + (k : ℝ) ^ 2 * (s.c / n3) ^ 2 = x ^ 2 →
      i * j = 0 → i * k = 0 → j * k = 0 →
      (s.lattice * gridPoint (n1 * n2 * n3) ⟨i * (n2 * n3), j * (n1 * n3), k * (n1 * n2)⟩).mag = x := by
    intro i j k x hx e1 e2 e3 e4
    have e2' : (i : ℝ) * j = 0 := by exact_mod_cast e2
    have e3' : (i : ℝ) * k = 0 := by exact_mod_cast e3
    have e4' : (j : ℝ) * k = 0 := by exact_mod_cast e4
    have := block_length_sq (s := s) h1 h2 h3 i j k
    rw [e2', e3', e4', e1, zero_mul, zero_mul, zero_mul, add_zero, add_zero, mul_zero, add_zero] at this
    exact (pow_left_inj₀ (nonneg _) hx two_ne_zero).1 this
  have lA : (s.lattice * gridPoint (n1 * n2 * n3) (edgeA n2 n3)).mag = s.a / n1 := by
    have := edge 1 0 0 (s.a / n1) (by positivity) (by push_cast; ring) (by ring) (by ring) (by ring)
    simpa [edgeA] using this
  have lB : (s.lattice * gridPoint (n1 * n2 * n3) (edgeB n1 n3)).mag = s.b / n2 := by
    have := edge 0 1 0 (s.b / n2) (by positivity) (by push_cast; ring) (by ring) (by ring) (by ring)
    simpa [edgeB] using this
  have lC : (s.lattice * gridPoint (n1 * n2 * n3) (edgeC n1 n2)).mag = s.c / n3 := by
    have := edge 0 0 1 (s.c / n3) (by positivity) (by push_cast; ring) (by ring) (by ring) (by ring)
    simpa [edgeC] using this
  obtain ⟨mA, mB, mC⟩ := edge_multiple h1 h2 h3 (i := 1) le_rfl
  rw [scale_one] at mA mB mC
  refine ⟨(gridSort_perm _).nodup_iff.2 hnd, ?_, (hmem _).2 (mA (by exact_mod_cast h1)), (hmem _).2 (mB (by exact_mod_cast h2)),
    (hmem _).2 (mC (by exact_mod_cast h3)), ?_, lA, lB, lC, div_pos pa p1, div_pos pb p2, div_pos pc p3, fun u hu => ?_⟩
  · have := List.pairwise_mergeSort
      (le := fun u v : Vec3 ℤ => decide ((s.lattice * gridPoint (n1 * n2 * n3) u).mag ≤ (s.lattice * gridPoint (n1 * n2 * n3) v).mag))
      (by intro a b c; simp only [decide_eq_true_eq]; exact le_trans)
      (by intro a b; simp only [Bool.or_eq_true, decide_eq_true_eq]; exact le_total _ _) (unitsZ (n1 * n2 * n3) ++ l)
    exact this.imp fun h => by simpa using h
  · simp [Vec3.cross, Vec3.dot, edgeA, edgeB, edgeC]
    have q1 : (0 : ℤ) < n1 := by exact_mod_cast h1
    have q2 : (0 : ℤ) < n2 := by exact_mod_cast h2
    have q3 : (0 : ℤ) < n3 := by exact_mod_cast h3
    positivity
  · obtain ⟨i, j, k, hn, ho, rfl⟩ := block_members h1 h2 h3 (fun h0 => (h.grid.2.2 0 h0).1 rfl) ((hmem u).1 hu)
    refine ⟨i, j, k, hn, ho, (block_comb i j k).symm, nonneg _, ?_⟩
    have e := block_length_sq (s := s) h1 h2 h3 i j k
    have hi : (0 : ℝ) ≤ i := by exact_mod_cast hn.1
    have hj : (0 : ℝ) ≤ j := by exact_mod_cast hn.2.1
    have hk : (0 : ℝ) ≤ k := by exact_mod_cast hn.2.2
    show _ ≤ (s.lattice * gridPoint (n1 * n2 * n3) ⟨i * (n2 * n3), j * (n1 * n3), k * (n1 * n2)⟩).mag ^ 2
    rw [e]
    have t1 : 0 ≤ (i : ℝ) * j * (s.lattice.col0.dot s.lattice.col1 / (n1 * n2)) := mul_nonneg (mul_nonneg hi hj) (div_nonneg o1 (by positivity))
    have t2 : 0 ≤ (i : ℝ) * k * (s.lattice.col0.dot s.lattice.col2 / (n1 * n3)) := mul_nonneg (mul_nonneg hi hk) (div_nonneg o2 (by positivity))
    have t3 : 0 ≤ (j : ℝ) * k * (s.lattice.col1.dot s.lattice.col2 / (n2 * n3)) := mul_nonneg (mul_nonneg hj hk) (div_nonneg o3 (by positivity))
    linarith

/-- a basis of shortest edges is a primitive cell. -/
theorem block_good {d : ℝ} (h1 : 0 < n1) (h2 : 0 < n2) (h3 : 0 < n3) (h : CentredCell s (n1 * n2 * n3) (blocks n1 n2 n3) d)
    {p : List (Vec3 ℤ)} (hp : PicksBasis p (edgeA n2 n3) (edgeB n1 n3) (edgeC n1 n2)) : goodPick (n1 * n2 * n3) (blocks n1 n2 n3) p = true := by
  obtain ⟨mA, mB, mC⟩ := edge_multiple h1 h2 h3 (i := 1) le_rfl
  rw [scale_one] at mA mB mC
  have hd : ((edgeA n2 n3).cross (edgeB n1 n3)).dot (edgeC n1 n2) = ((n1 * n2 * n3 : ℕ) : ℤ) ^ 2 := by
    simp [Vec3.cross, Vec3.dot, edgeA, edgeB, edgeC]; ring
  refine good_of_frame ?_ ?_ (fun w hw => ?_) (fun u hu => ?_) hp
  · rw [hd]
    have : 0 < n1 * n2 * n3 := by positivity
    positivity
  · rw [hd, ← blocks_length h1 h2 h3]
    push_cast
    ring
  · simp only [List.mem_cons, List.not_mem_nil, or_false] at hw
    rcases hw with rfl | rfl | rfl
    · exact mA (by exact_mod_cast h1)
    · exact mB (by exact_mod_cast h2)
    · exact mC (by exact_mod_cast h3)
  · obtain ⟨i, j, k, -, -, rfl⟩ := block_members h1 h2 h3 (fun h0 => (h.grid.2.2 0 h0).1 rfl) hu
    exact ⟨⟨i, j, k⟩, (block_comb i j k).symm⟩

theorem block_card (h1 : 0 < n1) (h2 : 0 < n2) (h3 : 0 < n3) : ((blocks n1 n2 n3).length : ℝ) + 1 = n1 * n2 * n3 := by
  have := blocks_length h1 h2 h3
  exact_mod_cast this

/-- **C101 (right-handed order).** A cell without obtuse angles repeated `n1`, `n2` and `n3` times along its edges leads back to a primitive
cell if the edges of the small cell have different lengths that increase in a right-handed order. -/
theorem C101_right_handed (r : Reducer ℝ) (ord : List (String × ℕ) → List (String × ℕ)) (ho : ∀ l, (ord l).Perm l)
    (h1 : 0 < n1) (h2 : 0 < n2) (h3 : 0 < n3) (h : CentredCell s (n1 * n2 * n3) (blocks n1 n2 n3) r.dtol) (hob : AcuteOrRight s)
    (hr : (s.a / n1 < s.b / n2 ∧ s.b / n2 < s.c / n3) ∨ (s.b / n2 < s.c / n3 ∧ s.c / n3 < s.a / n1) ∨
      (s.c / n3 < s.a / n1 ∧ s.a / n1 < s.b / n2)) :
    ∃ s', r.findPrimitiveCell ord s = .ret s' ∧ SpansTranslations s s' ∧ s'.volume * (n1 * n2 * n3) = s.volume := by
  obtain ⟨l, hl, k1, -⟩ := centred_outcome r ord ho h
  have hf := block_frame h1 h2 h3 h hob hl
  obtain ⟨s', e1, e2, e3⟩ := k1 (block_good h1 h2 h3 h (by
    rcases hr with ⟨q1, q2⟩ | ⟨q1, q2⟩ | ⟨q1, q2⟩
    · exact ⟨_, _, _, hf.picks q1 q2, List.Perm.refl _⟩
    · exact ⟨_, _, _, hf.rotate.picks q1 q2, (List.perm_append_comm (l₁ := [edgeA n2 n3]) (l₂ := [edgeB n1 n3, edgeC n1 n2])).symm⟩
    · exact ⟨_, _, _, hf.rotate.rotate.picks q1 q2, (List.perm_append_comm (l₁ := [edgeA n2 n3, edgeB n1 n3]) (l₂ := [edgeC n1 n2])).symm⟩))
  rw [block_card h1 h2 h3] at e3
  exact ⟨s', e1, e2, e3⟩

/-- **C101 (edges of similar length).** The same holds for any order of the edges if the square of the longest edge of the small cell is
smaller than twice the square of the shortest one, in particular for cubic cells. -/
theorem C101_compact (r : Reducer ℝ) (ord : List (String × ℕ) → List (String × ℕ)) (ho : ∀ l, (ord l).Perm l)
    (h1 : 0 < n1) (h2 : 0 < n2) (h3 : 0 < n3) (h : CentredCell s (n1 * n2 * n3) (blocks n1 n2 n3) r.dtol) (hob : AcuteOrRight s)
    (hr : ∀ x ∈ [s.a / n1, s.b / n2, s.c / n3], ∀ y ∈ [s.a / n1, s.b / n2, s.c / n3], x ^ 2 < 2 * y ^ 2) :
    ∃ s', r.findPrimitiveCell ord s = .ret s' ∧ SpansTranslations s s' ∧ s'.volume * (n1 * n2 * n3) = s.volume := by
  obtain ⟨l, hl, k1, -⟩ := centred_outcome r ord ho h
  obtain ⟨s', e1, e2, e3⟩ := k1 (block_good h1 h2 h3 h ((block_frame h1 h2 h3 h hob hl).compact hr))
  rw [block_card h1 h2 h3] at e3
  exact ⟨s', e1, e2, e3⟩

/-- **C101 is false of the code for the left-handed order:** if the lengths of the edges of the small cell increase in a left-handed order, twice
the shortest is shorter than the longest and the cell is repeated along the shortest edge, the cell that is returned has no volume. -/
theorem C101_false_left_handed (r : Reducer ℝ) (ord : List (String × ℕ) → List (String × ℕ)) (ho : ∀ l, (ord l).Perm l)
    (h1 : 0 < n1) (h2 : 0 < n2) (h3 : 0 < n3) (h : CentredCell s (n1 * n2 * n3) (blocks n1 n2 n3) r.dtol) (hob : AcuteOrRight s)
    (hr : (2 ≤ n2 ∧ s.b / n2 < s.a / n1 ∧ s.a / n1 < s.c / n3 ∧ 2 * (s.b / n2) < s.c / n3) ∨
      (2 ≤ n3 ∧ s.c / n3 < s.b / n2 ∧ s.b / n2 < s.a / n1 ∧ 2 * (s.c / n3) < s.a / n1) ∨
      (2 ≤ n1 ∧ s.a / n1 < s.c / n3 ∧ s.c / n3 < s.b / n2 ∧ 2 * (s.a / n1) < s.b / n2)) :
    ∃ s', r.findPrimitiveCell ord s = .ret s' ∧ s'.volume = 0 := by
  obtain ⟨l, hl, -, k2⟩ := centred_outcome r ord ho h
  have hf := block_frame h1 h2 h3 h hob hl
  obtain ⟨mA, mB, mC⟩ := edge_multiple h1 h2 h3 (i := 2) (by norm_num)
  have hmem : ∀ v, v ∈ unitsZ (n1 * n2 * n3) ++ blocks n1 n2 n3 → v ∈ gridSort s.lattice (n1 * n2 * n3) (unitsZ (n1 * n2 * n3) ++ l) := by
    intro v hv
    rw [(gridSort_perm _).mem_iff]
    rwa [List.mem_append, hl.mem_iff, ← List.mem_append]
  obtain ⟨s', e1, e2⟩ := k2 0 (flat_pickDet (by
    rcases hr with ⟨q0, q1, q2, q3⟩ | ⟨q0, q1, q2, q3⟩ | ⟨q0, q1, q2, q3⟩
    · refine hf.flat q1 q2 (hmem _ (mB (by exact_mod_cast q0))) ?_
      rw [mag_multiple (by norm_num)]
      have := hf.lenF
      rw [this]
      exact_mod_cast q3
    · refine hf.rotate.flat q1 q2 (hmem _ (mC (by exact_mod_cast q0))) ?_
      rw [mag_multiple (by norm_num)]
      have := hf.lenG
      rw [this]
      exact_mod_cast q3
    · refine hf.rotate.rotate.flat q1 q2 (hmem _ (mA (by exact_mod_cast q0))) ?_
      rw [mag_multiple (by norm_num)]
      have := hf.lenE
      rw [this]
      exact_mod_cast q3))
  exact ⟨s', e1, by rw [e2]; simp⟩

end

end CrystSymm
