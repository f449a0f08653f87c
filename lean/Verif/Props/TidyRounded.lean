import Verif.Props.InputOrder
import Verif.Props.Rounding
import Verif.Proofs.Primitive
import Verif.Proofs.Search
import Verif.Proofs.Delaunay
import Verif.Props.DelaunayIdem

set_option autoImplicit false
set_option linter.unusedSectionVars false

/-! # C97: returned structures are tidy in any arithmetic -/

namespace CrystSymm

open Spec Reducer SymmetryAnalyzer

section
variable {K : Type} [Add K] [Sub K] [Mul K] [Div K] [Neg K] [Zero K] [One K] [IntCast K]
  [LT K] [LE K] [DecidableLT K] [DecidableLE K] [BEq K] [FRound K] [FTrans K]

/-- the last thing done to the structure was `normalize_coords`. -/
def EndsNormalised (s : Structure K) (d : K) : Prop := ∃ t : Structure K, s = t.normalizeCoords d

theorem ends_transformation {fuel : ℕ} {s s' : Structure K} {t : Mat3 K} {d : K} (h : s.applyTransformation fuel t d = .ret s') :
    EndsNormalised s' d := by
  obtain ⟨_, _, -, -, rfl⟩ := applyTransformation_ret h
  exact ⟨_, rfl⟩

theorem ends_primitive {r : Reducer K} {ord : List (String × ℕ) → List (String × ℕ)} {s s' : Structure K}
    (h : r.findPrimitiveCell ord s = .ret s') : EndsNormalised s' r.dtol := by
  obtain ⟨_, _, _, _, _, _, _, _, _, _, _, -, -, -, -, -, h⟩ := findPrimitiveCell_ret h
  exact ⟨_, h⟩

theorem ends_niggli {r : Reducer K} {s s' : Structure K} {tol : K} (h : r.niggliReduce s tol = .ret s') : EndsNormalised s' r.dtol := by
  unfold niggliReduce at h
  rw [Outcome.bind_eq_ret] at h
  obtain ⟨st, -, h⟩ := h
  cases h
  exact ⟨_, rfl⟩

theorem ends_delaunay {r : Reducer K} {s s' : Structure K} {full : Bool} (h : r.delaunayReduce s full = .ret s') :
    EndsNormalised s' r.dtol := by
  obtain ⟨_, _, _, -, -, -, rfl⟩ := delaunayReduce_ret h
  exact ⟨_, rfl⟩

theorem ends_conventional {sa : SymmetryAnalyzer K} {ho : HashOrders K} {fuel : ℕ} {s s' : Structure K}
    (h : sa.getStandardConventionalStructure ho fuel s = .ret s') : EndsNormalised s' sa.dtol := by
  unfold getStandardConventionalStructure at h
  rw [Outcome.bind_eq_ret] at h
  obtain ⟨prim, -, h⟩ := h
  rw [Outcome.bind_eq_ret] at h
  obtain ⟨red, -, h⟩ := h
  rw [Outcome.bind_eq_ret] at h
  obtain ⟨⟨m, ch⟩, -, h⟩ := h
  exact ends_transformation h

theorem ends_standard {sa : SymmetryAnalyzer K} {ho : HashOrders K} {fuel : ℕ} {s s' : Structure K}
    (h : sa.getStandardPrimitiveStructure ho fuel s = .ret s') : EndsNormalised s' sa.dtol := by
  unfold getStandardPrimitiveStructure at h
  rw [Outcome.bind_eq_ret] at h
  obtain ⟨prim, -, h⟩ := h
  rw [Outcome.bind_eq_ret] at h
  obtain ⟨red, -, h⟩ := h
  rw [Outcome.bind_eq_ret] at h
  obtain ⟨⟨m, ch⟩, -, h⟩ := h
  rw [Outcome.bind_eq_ret] at h
  obtain ⟨conv, -, h⟩ := h
  rw [Outcome.bind_eq_ret] at h
  obtain ⟨⟨P, b⟩, -, h⟩ := h
  exact ends_transformation h

/-- `s'` is returned by one of the functions of the crate that return structures, run with the distance tolerance `d`. -/
def Spec.ReturnedStructure (s' : Structure K) (d : K) : Prop :=
  (∃ s fuel t, Structure.applyTransformation s fuel t d = .ret s') ∨
  (∃ atol s ord, (⟨d, atol⟩ : Reducer K).findPrimitiveCell ord s = .ret s') ∨
  (∃ atol s tol, (⟨d, atol⟩ : Reducer K).niggliReduce s tol = .ret s') ∨
  (∃ atol s full, (⟨d, atol⟩ : Reducer K).delaunayReduce s full = .ret s') ∨
  (∃ atol s h fuel, (⟨d, atol⟩ : SymmetryAnalyzer K).getStandardConventionalStructure h fuel s = .ret s') ∨
  (∃ atol s h fuel, (⟨d, atol⟩ : SymmetryAnalyzer K).getStandardPrimitiveStructure h fuel s = .ret s')

theorem Spec.ReturnedStructure.ends {s' : Structure K} {d : K} (h : Spec.ReturnedStructure s' d) : EndsNormalised s' d := by
  rcases h with ⟨s, fuel, t, h⟩ | ⟨atol, s, ord, h⟩ | ⟨atol, s, tol, h⟩ | ⟨atol, s, full, h⟩ | ⟨atol, s, ho, fuel, h⟩ | ⟨atol, s, ho, fuel, h⟩
  · exact ends_transformation h
  · exact ends_primitive (r := ⟨d, atol⟩) h
  · exact ends_niggli (r := ⟨d, atol⟩) h
  · exact ends_delaunay (r := ⟨d, atol⟩) h
  · exact ends_conventional (sa := ⟨d, atol⟩) h
  · exact ends_standard (sa := ⟨d, atol⟩) h

/-- **C97.** In any arithmetic, every structure that is returned has as many species as positions, its Cartesian coordinates are the
products, computed in that arithmetic, of its lattice and its fractional ones, and its species are sorted. -/
theorem C97_consistent_and_sorted (s' : Structure K) (d : K) (h : Spec.ReturnedStructure s' d) :
    Consistent s' ∧ s'.species.Pairwise (· ≤ ·) := by
  obtain ⟨t, rfl⟩ := h.ends
  obtain ⟨-, h1, h2, -⟩ := C12_normalize_coords_discrete t d
  exact ⟨h1, h2⟩

theorem ends_mem {s' : Structure K} {d : K} (h : EndsNormalised s' d) {v : Vec3 K} (hv : v ∈ s'.fracCoords) :
    ∃ w : Vec3 K, v = normFracVec (Structure.fracTols s'.lattice d) w := by
  obtain ⟨t, rfl⟩ := h
  obtain ⟨p, hp, rfl⟩ := List.mem_map.1 hv
  unfold Structure.sortBySpecies at hp
  rw [List.mem_mergeSort] at hp
  have := (List.of_mem_zip (List.of_mem_zip hp).2).2
  unfold normalizeFracVectors at this
  obtain ⟨w, -, hw⟩ := List.mem_map.1 this
  exact ⟨w, hw.symm⟩

/-- a consistent sorted structure whose positions are fixed by the folding is fixed by `normalize_coords`. -/
theorem normalizeCoords_of_fixed {s : Structure K} {d : K} (c : Consistent s) (hs : s.species.Pairwise (· ≤ ·))
    (hf : ∀ v ∈ s.fracCoords, normFracVec (Structure.fracTols s.lattice d) v = v) : s.normalizeCoords d = s := by
  obtain ⟨-, c1, p1, f1⟩ := C12_normalize_coords_discrete s d
  refine consistent_ext c1 c rfl ?_
  have e : ∀ t : Structure K, Consistent t → (sites t).map Prod.fst = t.species := by
    intro t ht
    unfold sites
    rw [List.map_fst_zip (le_of_eq ht.1)]
  apply eq_of_filters
  · rw [e _ c1]; exact p1
  · rw [e _ c]; exact hs
  · intro e
    rw [f1]
    conv_rhs => rw [← List.map_id (List.filter (fun p => decide (p.1 = e)) (sites s))]
    apply List.map_congr_left
    intro p hp
    have := (List.of_mem_zip (List.mem_filter.1 hp).1).2
    rw [hf _ this]
    rfl

end

section
variable {ρ : Rounding}

theorem tol_range {d m : RNum ρ} (h0 : 0 ≤ d.val) (h1 : d.val ≤ m.val) : 0 ≤ (d / m).val ∧ (d / m).val ≤ 1 := by
  have hm : 0 ≤ m.val := h0.trans h1
  have e : (d / m).val = ρ.fl (d.val / m.val) := rfl
  rw [e]
  constructor
  · have := ρ.mono 0 (d.val / m.val) (div_nonneg h0 hm)
    rwa [fl_zero] at this
  · have := ρ.mono (d.val / m.val) 1 (div_le_one_of_le₀ h1 hm)
    rwa [ρ.one] at this

/-- an edge of the cell, its length computed with rounding, and one component of a position: within the tolerance of the cell. -/
def Spec.OnRoundedAxis (d m x : RNum ρ) : Prop := -(d / m) ≤ x ∧ x ≤ 1 - d / m

/-- **C97.** Under any rounding: along every axis whose computed length is at least the tolerance, every position of a returned structure
lies between minus the tolerance and one minus the tolerance, both computed as fractions of the edge. -/
theorem C97_in_cell (s' : Structure (RNum ρ)) (d : RNum ρ) (h : Spec.ReturnedStructure s' d) (h0 : 0 ≤ d.val) :
    ∀ v ∈ s'.fracCoords, (d.val ≤ s'.lattice.col0.mag.val → Spec.OnRoundedAxis d s'.lattice.col0.mag v.x) ∧
      (d.val ≤ s'.lattice.col1.mag.val → Spec.OnRoundedAxis d s'.lattice.col1.mag v.y) ∧
      (d.val ≤ s'.lattice.col2.mag.val → Spec.OnRoundedAxis d s'.lattice.col2.mag v.z) := by
  intro v hv
  obtain ⟨w, rfl⟩ := ends_mem h.ends hv
  have key : ∀ m x : RNum ρ, d.val ≤ m.val → Spec.OnRoundedAxis d m (normComp (d / m) x) := fun m x hm =>
    (normComp_rounded _ _ (tol_range h0 hm).1 (tol_range h0 hm).2).1
  exact ⟨fun hm => key _ _ hm, fun hm => key _ _ hm, fun hm => key _ _ hm⟩

theorem normComp_again {tol w : RNum ρ} (h1 : tol.val < 1) (h2 : (1 - tol).val < 1) (ha : -tol ≤ w) (hb : w ≤ 1 - tol) :
    normComp tol w = w := by
  rw [RNum.le_iff, RNum.val_neg] at ha
  rw [RNum.le_iff] at hb
  have e : FRound.fmod1 w = w := by
    apply Subtype.ext
    show FRound.fmod1 w.val = w.val
    exact fmod1_of_abs_lt_one (by linarith) (by linarith)
  have hneg : ((-1 : RNum ρ) * tol).val = -tol.val := by
    rw [RNum.val_mul, RNum.val_neg, RNum.val_one, neg_one_mul, ρ.odd, RNum.fl_val]
  unfold normComp
  simp only
  rw [e, if_neg (by rw [RNum.lt_iff, hneg]; linarith), if_neg (by rw [RNum.lt_iff]; linarith)]

/-- **C97.** Under any rounding: if the tolerance is at most each edge, and as a fraction of it neither rounds to one nor is so small that one
minus it rounds to one, then folding a returned structure again changes no digit of it. -/
theorem C97_stable (s' : Structure (RNum ρ)) (d : RNum ρ) (h : Spec.ReturnedStructure s' d) (h0 : 0 ≤ d.val)
    (hm : ∀ m ∈ [s'.lattice.col0.mag, s'.lattice.col1.mag, s'.lattice.col2.mag], d.val ≤ m.val ∧ (d / m).val < 1 ∧ (1 - d / m).val < 1) :
    s'.normalizeCoords d = s' := by
  obtain ⟨c, hs⟩ := C97_consistent_and_sorted s' d h
  refine normalizeCoords_of_fixed c hs fun v hv => ?_
  obtain ⟨a0, a1, a2⟩ := C97_in_cell s' d h h0 v hv
  have m0 := hm s'.lattice.col0.mag (by simp)
  have m1 := hm s'.lattice.col1.mag (by simp)
  have m2 := hm s'.lattice.col2.mag (by simp)
  have k : ∀ {m x : RNum ρ}, d.val ≤ m.val ∧ (d / m).val < 1 ∧ (1 - d / m).val < 1 → Spec.OnRoundedAxis d m x → normComp (d / m) x = x :=
    fun hm hx => normComp_again hm.2.1 hm.2.2 hx.1 hx.2
  unfold normFracVec Structure.fracTols
  rw [k m0 (a0 m0.1), k m1 (a1 m1.1), k m2 (a2 m2.1)]

end

/-- **C97 in double precision.** If the distance tolerance is positive, at most half of every computed edge, and not smaller than the
edge by a factor above `2^53`, normalising a returned structure again changes no bit of it. -/
theorem C97_binary64 (s' : Structure (RNum binary64)) (d : RNum binary64) (h : Spec.ReturnedStructure s' d) (h0 : 0 < d.val)
    (hm : ∀ m ∈ [s'.lattice.col0.mag, s'.lattice.col1.mag, s'.lattice.col2.mag], 2 * d.val ≤ m.val ∧ m.val ≤ 2 ^ 53 * d.val) :
    s'.normalizeCoords d = s' := by
  refine C97_stable s' d h h0.le fun m hmem => ?_
  obtain ⟨h1, h2⟩ := hm m hmem
  have hmp : 0 < m.val := by linarith
  have lo : (2 : ℝ) ^ (-53 : ℤ) ≤ (d / m).val := by
    have e : fl64 ((2 : ℝ) ^ (-53 : ℤ)) = (2 : ℝ) ^ (-53 : ℤ) :=
      fl64_of_grid (j := -53) (k := 2 ^ 52) (by norm_num) (by norm_num) (by rw [abs_of_pos (by positivity)]; norm_num)
    rw [← e, RNum.val_div]
    refine fl64_mono ?_
    rw [le_div_iff₀ hmp]
    have e2 : (2 : ℝ) ^ (-53 : ℤ) = 1 / 2 ^ 53 := by norm_num
    rw [e2, one_div, inv_mul_le_iff₀ (by positivity)]
    exact h2
  have hi : (d / m).val ≤ 1 / 2 := by
    have e : fl64 (1 / 2) = 1 / 2 := fl64_of_grid (j := 0) (k := 2 ^ 51) (by norm_num) (by norm_num) (by norm_num [abs_of_pos])
    rw [← e, RNum.val_div]
    refine fl64_mono ?_
    rw [div_le_div_iff₀ hmp (by norm_num)]
    linarith
  refine ⟨by linarith, by linarith, ?_⟩
  have e : fl64 (1 - (2 : ℝ) ^ (-53 : ℤ)) = 1 - (2 : ℝ) ^ (-53 : ℤ) :=
    fl64_of_grid (j := -1) (k := 2 ^ 53 - 1) (by norm_num) (by norm_num) (by norm_num [abs_of_pos])
  have : (1 - d / m).val ≤ 1 - (2 : ℝ) ^ (-53 : ℤ) := by
    rw [← e, RNum.val_sub, RNum.val_one]
    exact fl64_mono (by linarith)
  have hp : (0 : ℝ) < 2 ^ (-53 : ℤ) := by positivity
  linarith

/-- reducing a unit cube with any atoms whatever, in double precision, gives a structure which normalisation leaves alone. -/
example (atol : RNum binary64) (sp : List String) (c f : List (Vec3 (RNum binary64))) : ∃ t : Structure (RNum binary64),
    (⟨RNum.round (1 / 20), atol⟩ : Reducer (RNum binary64)).delaunayReduce ⟨dyadicMat 0 1, sp, c, f⟩ false = .ret t ∧
    t.normalizeCoords (RNum.round (1 / 20)) = t ∧ t.species.Pairwise (· ≤ ·) := by
  have h1 : valM (dyadicMat 0 1 : Mat3 (RNum binary64)) = timesUnit ((1 / 2) ^ 0) 1 := dyadicMat_val (by norm_num) (by decide)
  have e1 : (timesUnit ((1 / 2) ^ 0) 1 : Mat3 ℝ) = 1 := by ext <;> norm_num [timesUnit, Mat3.map]
  obtain ⟨t, ht, hl⟩ := (C92_fixed_iff_reduced_binary64 0 (by norm_num) 1 ⟨dyadicMat 0 1, sp, c, f⟩ h1 (by decide)
    ⟨RNum.round (1 / 20), atol⟩).2 (by
      show ObtuseSuperbase (valM (dyadicMat 0 1))
      rw [h1, e1]
      norm_num [ObtuseSuperbase, dotp, Mat3.col0, Mat3.col1, Mat3.col2])
  replace hl : valM t.lattice = 1 := hl.trans (h1.trans e1)
  refine ⟨t, ht, ?_⟩
  have hr : Spec.ReturnedStructure t (RNum.round (1 / 20)) := Or.inr (Or.inr (Or.inr (Or.inl ⟨atol, _, _, ht⟩)))
  refine ⟨?_, (C97_consistent_and_sorted t _ hr).2⟩
  have he := relative_binary64 (1 / 20)
  change |(RNum.round (1 / 20) : RNum binary64).val - 1 / 20| ≤ _ at he
  rw [abs_le] at he
  have unit : ∀ v : Vec3 (RNum binary64), (v.x.val = 1 ∧ v.y.val = 0 ∧ v.z.val = 0 ∨ v.x.val = 0 ∧ v.y.val = 1 ∧ v.z.val = 0 ∨
      v.x.val = 0 ∧ v.y.val = 0 ∧ v.z.val = 1) → v.mag.val = 1 := by
    intro v hv
    have : v.mag.val = fl64 (Real.sqrt (fl64 (fl64 (fl64 (v.x.val * v.x.val) + fl64 (v.y.val * v.y.val)) + fl64 (v.z.val * v.z.val)))) := rfl
    rw [this]
    rcases hv with ⟨a, b, c⟩ | ⟨a, b, c⟩ | ⟨a, b, c⟩ <;> simp [a, b, c, fl64_one, fl64_zero]
  simp only [Mat3.ext_iff] at hl
  obtain ⟨l1, l2, l3, l4, l5, l6, l7, l8, l9⟩ := hl
  refine C97_binary64 t _ hr (by norm_num at he ⊢; linarith) fun m hm => ?_
  have hm1 : m.val = 1 := by
    simp only [List.mem_cons, List.not_mem_nil, or_false] at hm
    rcases hm with rfl | rfl | rfl
    · exact unit _ (Or.inl ⟨l1, l4, l7⟩)
    · exact unit _ (Or.inr (Or.inl ⟨l2, l5, l8⟩))
    · exact unit _ (Or.inr (Or.inr ⟨l3, l6, l9⟩))
  rw [hm1]
  norm_num at he ⊢
  constructor <;> linarith

end CrystSymm
