import Verif.Proofs.TransOps
import Verif.Data.SpaceGroup

/-! # C38: `SpaceGroup::apply_transformation` -/

set_option autoImplicit false
set_option linter.unusedSectionVars false

namespace CrystSymm

open Spec SpaceGroup

section
variable {K : Type} [Field K] [LinearOrder K] [IsStrictOrderedRing K] [FloorRing K]

/-- the integer `s` is nearest to `x`, or the nearest one in eight bits when `x` lies outside. -/
def RoundsTo (x : K) (s : ℤ) : Prop :=
  |x - s| ≤ 1 / 2 ∨ (s = 127 ∧ 127 ≤ x) ∨ (s = -128 ∧ x ≤ -128)

/-- entry by entry. -/
def RoundsToMat (m : Mat3 K) (s : Mat3 ℤ) : Prop :=
  RoundsTo m.m11 s.m11 ∧ RoundsTo m.m12 s.m12 ∧ RoundsTo m.m13 s.m13 ∧
  RoundsTo m.m21 s.m21 ∧ RoundsTo m.m22 s.m22 ∧ RoundsTo m.m23 s.m23 ∧
  RoundsTo m.m31 s.m31 ∧ RoundsTo m.m32 s.m32 ∧ RoundsTo m.m33 s.m33

/-- `o` is `op` followed by the translation `v`, in the basis made of the columns of `T` and up to a
translation of the lattice of that basis. -/
def IsImage (T : Mat3 K) (op o : SymmOp K) (v : Vec3 K) : Prop :=
  InBasis T (intRot op.rotation) (intRot o.rotation) ∧
    ∃ w, IntVec w ∧ T * (o.translation + w) = op.translation + v

theorem roundsTo_toI8 (x : K) : RoundsTo x (FRound.toI8 (FRound.round x) : Int8).toInt := by
  show RoundsTo x (Int8.ofInt (satZ (-128) 127 (truncZ ((roundZ x : ℤ) : K)))).toInt
  rw [truncZ_int, Int8.toInt_ofInt]
  have hb : |x - (roundZ x : ℤ)| ≤ 1 / 2 := by
    unfold roundZ
    split
    · have h1 := Int.floor_le (x + 1 / 2)
      have h2 := Int.lt_floor_add_one (x + 1 / 2)
      rw [abs_le]; constructor <;> linarith
    · have h1 := Int.le_ceil (x - 1 / 2)
      have h2 := Int.ceil_lt_add_one (x - 1 / 2)
      rw [abs_le]; constructor <;> linarith
  have hb' := abs_le.1 hb
  unfold satZ RoundsTo
  rcases lt_trichotomy (roundZ x) (-128) with h | h | h
  · right; right
    have e : max (-128) (min 127 (roundZ x)) = -128 := by omega
    rw [e]
    refine ⟨by decide, ?_⟩
    have : ((roundZ x : ℤ) : K) ≤ -129 := by exact_mod_cast (by omega : roundZ x ≤ -129)
    linarith
  · left
    have e : max (-128) (min 127 (roundZ x)) = -128 := by omega
    rw [e]
    have : ((-128 : ℤ).bmod 256 : ℤ) = roundZ x := by rw [h]; decide
    show |x - (((-128 : ℤ).bmod 256 : ℤ) : K)| ≤ 1 / 2
    rw [this]; exact hb
  · by_cases h' : roundZ x ≤ 127
    · left
      have e : max (-128) (min 127 (roundZ x)) = roundZ x := by omega
      rw [e, Int.bmod_eq_of_le (by norm_num; omega) (by norm_num; omega)]
      exact hb
    · right; left
      have e : max (-128) (min 127 (roundZ x)) = 127 := by omega
      rw [e]
      refine ⟨by decide, ?_⟩
      have : (128 : K) ≤ ((roundZ x : ℤ) : K) := by exact_mod_cast (by omega : (128 : ℤ) ≤ roundZ x)
      linarith

theorem roundsToMat_newRot (inv t : Mat3 K) (op : SymmOp K) :
    RoundsToMat (floatRot inv t op) (intRot (newRot inv t op)) :=
  ⟨roundsTo_toI8 _, roundsTo_toI8 _, roundsTo_toI8 _, roundsTo_toI8 _, roundsTo_toI8 _, roundsTo_toI8 _,
    roundsTo_toI8 _, roundsTo_toI8 _, roundsTo_toI8 _⟩

/-- what is known of every operation of the result. -/
theorem trans_mem {fuel : ℕ} {ops ops' : List (SymmOp K)} {T : Mat3 K} {tols : Vec3 K}
    (h : applyTransformation fuel ops T tols = .ret ops') :
    ∃ inv, T * inv = 1 ∧ ∀ o ∈ ops', ∃ op ∈ ops, ∃ v : Vec3 K, IntVec v ∧
      someEntryIntegral (floatRot inv T op) = true ∧ o.rotation = newRot inv T op ∧
      SamePoint o.translation (inv * (op.translation + v)) := by
  unfold applyTransformation at h
  cases hi : T.tryInverse with
  | none => rw [hi] at h; simp at h
  | some inv =>
    rw [hi] at h
    simp only at h
    refine ⟨inv, Mat3.tryInverse_eq_some_iff.1 hi, ?_⟩
    cases hl : transLoop tols inv T (Structure.volumeRatio T) ops fuel 2
        { newOperations := [], foundVectors := [], initialNumOps := ops.length } with
    | panic m => rw [hl] at h; simp [Outcome.bind] at h
    | running => rw [hl] at h; simp [Outcome.bind] at h
    | ret st =>
      rw [hl] at h
      simp only [Outcome.ret_bind, Outcome.ret.injEq] at h
      subst h
      refine transLoop_ind (P := fun l => ∀ o ∈ l, ∃ op ∈ ops, ∃ v : Vec3 K, IntVec v ∧
        someEntryIntegral (floatRot inv T op) = true ∧ o.rotation = newRot inv T op ∧
        SamePoint o.translation (inv * (op.translation + v))) ?_ fuel 2 (mirror_init _) (by simp) hl
      intro mult l hP o ho
      rcases mem_addOps ho with ho | ⟨c, hc, rfl⟩
      · exact hP o ho
      · obtain ⟨op, hop, hc⟩ := List.mem_flatMap.1 hc
        obtain ⟨v, hv, rfl⟩ := List.mem_map.1 hc
        obtain ⟨i, j, k, -, -, -, rfl⟩ := mem_translationVecs.1 hv
        obtain ⟨hop, hk⟩ := List.mem_filter.1 hop
        exact ⟨op, hop, _, ⟨i, j, k, by simp⟩, hk, rfl,
          samePoint_trans' (normalize_same _ _).2 (samePoint_normFracVec _ _)⟩

theorem samePoint_preimage {T inv : Mat3 K} (hi : T * inv = 1) {u x : Vec3 K} (h : SamePoint u (inv * x)) :
    ∃ w, IntVec w ∧ T * (u + w) = x := by
  obtain ⟨⟨i, hi'⟩, ⟨j, hj⟩, ⟨k, hk⟩⟩ := h
  refine ⟨⟨((-i : ℤ) : K), ((-j : ℤ) : K), ((-k : ℤ) : K)⟩, ⟨-i, -j, -k, rfl⟩, ?_⟩
  have : u + ⟨((-i : ℤ) : K), ((-j : ℤ) : K), ((-k : ℤ) : K)⟩ = inv * x := by
    ext <;> simp only [Vec3.add_x, Vec3.add_y, Vec3.add_z] <;> push_cast <;> linarith
  rw [this, ← Mat3.mul_mulVec, hi, Mat3.one_mulVec]

/-- **C38 (partial).** Whatever the tolerances and the invertible matrix `T`: every operation after
`apply_transformation(T)` comes from an input operation `{R | t}` and a lattice vector `v`, its translation is
`T⁻¹(t + v)` up to a translation of the new lattice, and its rotation is `T⁻¹ R T` rounded entry by entry.

The full claim also says that the rotation *is* `T⁻¹ R T`; this is false (`C38_false_not_a_symmetry`). -/
theorem C38_origin_partial (fuel : ℕ) (ops ops' : List (SymmOp K)) (T : Mat3 K) (tols : Vec3 K)
    (h : applyTransformation fuel ops T tols = .ret ops') :
    ∃ inv, T * inv = 1 ∧ ∀ o ∈ ops', ∃ op ∈ ops, ∃ v w : Vec3 K, IntVec v ∧ IntVec w ∧
      T * (o.translation + w) = op.translation + v ∧
      RoundsToMat (inv * overK K (intRot op.rotation) * T) (intRot o.rotation) := by
  obtain ⟨inv, hi, ha⟩ := trans_mem h
  refine ⟨inv, hi, fun o ho => ?_⟩
  obtain ⟨op, hop, v, hv, -, hr, ht⟩ := ha o ho
  obtain ⟨w, hw, e⟩ := samePoint_preimage hi ht
  refine ⟨op, hop, v, w, hv, hw, e, ?_⟩
  have := roundsToMat_newRot inv T op
  rw [← hr] at this
  unfold floatRot at this
  rwa [castRot_overK] at this

/-- **C38 (partial).** If `T⁻¹ R T` is an integer matrix with entries of eight bits for every input rotation
`R`, then every operation after `apply_transformation(T)` is exactly `{T⁻¹ R T | T⁻¹(t + v)}` for an input
operation `{R | t}` and a lattice vector `v`, up to a translation of the new lattice.

Missing from the full claim: the operations for which `T⁻¹ R T` is not integral are kept when one of the entries
happens to be `0` or `±1` (`C38_false_not_a_symmetry`). -/
theorem C38_change_of_basis_partial (fuel : ℕ) (ops ops' : List (SymmOp K)) (T : Mat3 K) (tols : Vec3 K)
    (hint : ∀ op ∈ ops, ∃ s, FitsI8 s ∧ InBasis T (intRot op.rotation) s)
    (h : applyTransformation fuel ops T tols = .ret ops') :
    ∀ o ∈ ops', ∃ op ∈ ops, ∃ v, IntVec v ∧ IsImage T op o v := by
  obtain ⟨inv, hi, ha⟩ := trans_mem h
  intro o ho
  obtain ⟨op, hop, v, hv, -, hr, ht⟩ := ha o ho
  obtain ⟨s, hs, hb⟩ := hint op hop
  refine ⟨op, hop, v, hv, ?_, samePoint_preimage hi ht⟩
  rw [hr, show newRot inv T op = PointGroup.conjRot inv T op.rotation from rfl, intRot_conjRot hi hb hs]
  exact hb

/-- **C38.** No two operations after `apply_transformation(T)` are equal up to lattice translations and the
tolerances. -/
theorem C38_pairwise_different (fuel : ℕ) (ops ops' : List (SymmOp K)) (T : Mat3 K) (tols : Vec3 K)
    (ht : TolOK tols) (h : applyTransformation fuel ops T tols = .ret ops') :
    ops'.Pairwise fun a b => ¬ ApproxSame a b tols := by
  unfold applyTransformation at h
  cases hi : T.tryInverse with
  | none => rw [hi] at h; simp at h
  | some inv =>
    rw [hi] at h
    simp only at h
    cases hl : transLoop tols inv T (Structure.volumeRatio T) ops fuel 2
        { newOperations := [], foundVectors := [], initialNumOps := ops.length } with
    | panic m => rw [hl] at h; simp [Outcome.bind] at h
    | running => rw [hl] at h; simp [Outcome.bind] at h
    | ret st =>
      rw [hl] at h
      simp only [Outcome.ret_bind, Outcome.ret.injEq] at h
      subst h
      have hd : Distinct (fun a b : SymmOp K => a.isApproxEq b tols) st.newOperations := by
        refine transLoop_ind (P := Distinct (fun a b : SymmOp K => a.isApproxEq b tols)) ?_ fuel 2
          (mirror_init _) (by simp [Distinct]) hl
        intro mult l hP
        rw [addOps_eq_greedy ht]
        exact greedy_distinct _ hP
      refine hd.imp fun {a b} hab hs => ?_
      rw [← C07_is_approx_eq_iff _ _ _ ht, C07_is_approx_eq_symm _ _ _ ht] at hs
      rw [show b.isApproxEq a tols = false from hab] at hs
      exact absurd hs (by simp)

theorem transLoop_never_panics {tols : Vec3 K} {inv t : Mat3 K} {ratio : K} {ops : List (SymmOp K)} :
    ∀ (fuel mult : ℕ) (st : TransState K) (m : String), transLoop tols inv t ratio ops fuel mult st ≠ .panic m := by
  intro fuel
  induction fuel with
  | zero => intro mult st m h; simp [transLoop] at h
  | succ fuel ih =>
    intro mult st m h
    rw [transLoop] at h
    split at h
    · exact ih _ _ _ h
    · simp at h

/-- **C38.** `apply_transformation` panics exactly on singular matrices. -/
theorem C38_panics_iff_singular (fuel : ℕ) (ops : List (SymmOp K)) (T : Mat3 K) (tols : Vec3 K) :
    (∃ m, applyTransformation fuel ops T tols = .panic m) ↔ T.det = 0 := by
  unfold applyTransformation
  constructor
  · rintro ⟨m, h⟩
    by_contra hd
    cases hi : T.tryInverse with
    | none =>
      simp only [Mat3.tryInverse] at hi
      split at hi <;> simp_all
    | some inv =>
      rw [hi] at h
      simp only at h
      cases hl : transLoop tols inv T (Structure.volumeRatio T) ops fuel 2
          { newOperations := [], foundVectors := [], initialNumOps := ops.length } with
      | panic m' => exact transLoop_never_panics _ _ _ _ hl
      | running => rw [hl] at h; simp [Outcome.bind] at h
      | ret st => rw [hl] at h; simp [Outcome.bind] at h
  · intro hd
    have : T.tryInverse = none := by
      cases hi : T.tryInverse with
      | none => rfl
      | some inv =>
        have := congrArg Mat3.det (Mat3.tryInverse_eq_some_iff.1 hi)
        rw [Mat3.det_mul, hd, zero_mul, Mat3.det_one] at this
        exact absurd this.symm one_ne_zero
    rw [this]
    exact ⟨_, rfl⟩

/-- the copies of the operations by different lattice vectors stay apart: if an operation and the translate of
another one with the same rotation agree within the tolerances in the new cell, they are the same up to a
translation of the new lattice. -/
def StayApart (T : Mat3 K) (ops : List (SymmOp K)) (tols : Vec3 K) : Prop :=
  ∀ (i j : Fin ops.length) (v u : Vec3 K), IntVec v → ops[i].rotation = ops[j].rotation →
    T * u = ops[i].translation - ops[j].translation + v →
    NearInt u.x tols.x → NearInt u.y tols.y → NearInt u.z tols.z → i = j ∧ IntVec u

/-- the test of the crate on an integral rotation. -/
theorem someEntryIntegral_of {inv t : Mat3 K} (hi : t * inv = 1) {op : SymmOp K} {s : Mat3 ℤ}
    (h : InBasis t (intRot op.rotation) s) (he : ∃ e ∈ s.toListCM, e = 0 ∨ e = 1 ∨ e = -1) :
    someEntryIntegral (floatRot inv t op) = true := by
  have e : floatRot inv t op = overK K s := by
    unfold floatRot
    rw [castRot_overK, mul_assoc, h, ← mul_assoc, Mat3.mul_eq_one_comm' hi, one_mul]
  rw [e]
  obtain ⟨x, hx, hv⟩ := he
  unfold someEntryIntegral
  rw [List.any_eq_true]
  refine ⟨(x : K), ?_, ?_⟩
  · have : (overK K s).toListCM = s.toListCM.map fun n : ℤ => (n : K) := rfl
    rw [this]
    exact List.mem_map_of_mem hx
  · have hz : (0 : K) < zeroTol := by unfold zeroTol lit; norm_num
    rw [Bool.or_eq_true, decide_eq_true_eq, decide_eq_true_eq]
    show |(x : K)| < zeroTol ∨ |(|(x : K)|) - 1| < zeroTol
    rcases hv with rfl | rfl | rfl
    · left; simpa using hz
    · right; simpa using hz
    · right; simpa using hz

/-- **C38 (partial).** For an integer matrix `T` with `det T ≠ 0`, integral images `T⁻¹ R T` having an entry
`0` or `±1`, and operations whose copies stay apart, `apply_transformation(T)` terminates, returns `|det T|`
times as many operations, every one of them is `{T⁻¹ R T | T⁻¹(t + v)}`, and every such operation is there. -/
theorem C38_supercell_partial (ops : List (SymmOp K)) (T : Mat3 ℤ) (tols : Vec3 K) (ht : TolOK tols)
    (hd : T.det ≠ 0)
    (hint : ∀ op ∈ ops, ∃ s, FitsI8 s ∧ InBasis (overK K T) (intRot op.rotation) s ∧
      ∃ e ∈ s.toListCM, e = 0 ∨ e = 1 ∨ e = -1)
    (ha : StayApart (overK K T) ops tols) :
    ∃ N, ∀ fuel ≥ N, ∃ ops', applyTransformation fuel ops (overK K T) tols = .ret ops' ∧
      ops'.length = ops.length * T.det.natAbs ∧
      (∀ o ∈ ops', ∃ op ∈ ops, ∃ v, IntVec v ∧ IsImage (overK K T) op o v) ∧
      ∀ op ∈ ops, ∀ v, IntVec v → ∃ o ∈ ops', IsImage (overK K T) op o v := by
  have hdK : (overK K T).det ≠ 0 := by
    have : (overK K T).det = (T.det : K) := by simp [overK, Mat3.det, Mat3.map]
    rw [this]; exact_mod_cast hd
  have hinv : ∃ inv, (overK K T).tryInverse = some inv := by
    cases hi : (overK K T).tryInverse with
    | none =>
      simp only [Mat3.tryInverse] at hi
      split at hi <;> simp_all
    | some inv => exact ⟨inv, rfl⟩
  obtain ⟨inv, htry⟩ := hinv
  have hi := Mat3.tryInverse_eq_some_iff.1 htry
  have hrot : ∀ op ∈ ops, InBasis (overK K T) (intRot op.rotation) (intRot (newRot inv (overK K T) op)) := by
    intro op hop
    obtain ⟨s, hs, hb, -⟩ := hint op hop
    rw [show newRot inv (overK K T) op = PointGroup.conjRot inv (overK K T) op.rotation from rfl,
      intRot_conjRot hi hb hs]
    exact hb
  have hcopies : CopiesApart inv (overK K T) ops T tols := by
    intro i j m hr hn
    have h1 := hrot ops[i] (List.getElem_mem _)
    have h2 := hrot ops[j] (List.getElem_mem _)
    rw [hr] at h1
    have hri : ops[i].rotation = ops[j].rotation := intRot_injective (inBasis_unique' hi h1 h2)
    obtain ⟨hij, hu⟩ := ha i j (kVec m) _ ((intVec_iff_kVec _).2 ⟨m, rfl⟩) hri
      (by rw [← Mat3.mul_mulVec, hi, Mat3.one_mulVec]) hn.1 hn.2.1 hn.2.2
    refine ⟨hij, ?_⟩
    subst hij
    have z : ops[i].translation - ops[i].translation + (kVec m : Vec3 K) = kVec m := by ext <;> simp
    rw [z] at hu
    exact (intVec_inv_iff hi _).1 hu
  have hk : ∀ op ∈ ops, someEntryIntegral (floatRot inv (overK K T) op) = true := by
    intro op hop
    obtain ⟨s, -, hb, he⟩ := hint op hop
    exact someEntryIntegral_of hi hb he
  refine ⟨max T.det.natAbs 2, fun fuel hf => ?_⟩
  obtain ⟨st, hst, hlen, hcov⟩ := transLoop_complete ht hi hcopies hd hk fuel 2
    { newOperations := [], foundVectors := [], initialNumOps := ops.length } (by omega) (by omega)
    (mirror_init _) rfl (by simp) (by simp [Distinct]) (by intro h; omega)
  have hret : applyTransformation fuel ops (overK K T) tols = .ret st.newOperations := by
    unfold applyTransformation
    simp only [htry, volumeRatio_overK, hst, Outcome.ret_bind]
  refine ⟨st.newOperations, hret, hlen, ?_, ?_⟩
  · exact C38_change_of_basis_partial fuel ops _ _ tols
      (fun op hop => by obtain ⟨s, h1, h2, -⟩ := hint op hop; exact ⟨s, h1, h2⟩) hret
  · intro op hop v hv
    obtain ⟨n, hn, rfl⟩ := List.mem_iff_getElem.1 hop
    obtain ⟨m, rfl⟩ := (intVec_iff_kVec v).1 hv
    obtain ⟨o, ho, m', hm, h1, h2⟩ := hcov (⟨n, hn⟩, Submodule.Quotient.mk m)
    refine ⟨o, ho, ?_, samePoint_preimage hi ?_⟩
    · rw [h1]; exact hrot _ (List.getElem_mem _)
    · have hmem : m' - m ∈ subLattice (matZ T) := (Submodule.Quotient.eq _).1 hm.symm
      have hsp : SamePoint (inv * (ops[n].translation + (kVec m' : Vec3 K)))
          (inv * (ops[n].translation + kVec m)) := by
        obtain ⟨i, j, k, e⟩ := (intVec_inv_iff (K := K) hi _).2 hmem
        have e2 : inv * (ops[n].translation + (kVec m' : Vec3 K)) - inv * (ops[n].translation + kVec m) =
            inv * (kVec (m' - m) : Vec3 K) := by
          rw [kVec_sub]; ext <;> simp <;> ring
        rw [e] at e2
        exact ⟨⟨i, congrArg Vec3.x e2⟩, ⟨j, congrArg Vec3.y e2⟩, ⟨k, congrArg Vec3.z e2⟩⟩
      exact samePoint_trans' h2 hsp

/-- operations whose translations are multiples of `1/N` stay apart when the tolerances are at most
`1/(N |det T|)`. -/
theorem stayApart_of_grid {ops : List (SymmOp K)} {T : Mat3 ℤ} {tols : Vec3 K} {N : ℕ} (hN : 0 < N)
    (hd : T.det ≠ 0) (hgrid : ∀ op ∈ ops, IntVec (Vec3.scale (N : K) op.translation))
    (hx : tols.x ≤ 1 / (N * T.det.natAbs)) (hy : tols.y ≤ 1 / (N * T.det.natAbs))
    (hz : tols.z ≤ 1 / (N * T.det.natAbs))
    (hdiff : ops.Pairwise fun a b => a.rotation = b.rotation → ¬ SamePoint a.translation b.translation) :
    StayApart (overK K T) ops tols := by
  intro i j v u hv hr hu hnx hny hnz
  have hNK : (0 : K) < N := by exact_mod_cast hN
  have hD : (0 : K) < (T.det.natAbs : K) := by exact_mod_cast Int.natAbs_pos.2 hd
  -- `N det(T) u` is integral
  have hint : IntVec (Vec3.scale ((N : K) * (T.det : K)) u) := by
    have h1 : IntVec (Vec3.scale (N : K) (ops[i].translation - ops[j].translation + v)) := by
      obtain ⟨a1, a2, a3, ha⟩ := hgrid ops[i] (List.getElem_mem _)
      obtain ⟨b1, b2, b3, hb⟩ := hgrid ops[j] (List.getElem_mem _)
      obtain ⟨c1, c2, c3, rfl⟩ := hv
      have ax := congrArg Vec3.x ha
      have ay := congrArg Vec3.y ha
      have az := congrArg Vec3.z ha
      have bx := congrArg Vec3.x hb
      have by' := congrArg Vec3.y hb
      have bz := congrArg Vec3.z hb
      simp only [Vec3.scale] at ax ay az bx by' bz
      refine ⟨a1 - b1 + N * c1, a2 - b2 + N * c2, a3 - b3 + N * c3, ?_⟩
      ext <;> simp only [Vec3.scale, Vec3.add_x, Vec3.add_y, Vec3.add_z, Vec3.sub_x, Vec3.sub_y, Vec3.sub_z] <;>
        push_cast <;> linarith
    have h2 := intVec_overK (m := T.adj) h1
    have e : Vec3.scale ((N : K) * (T.det : K)) u =
        overK K T.adj * Vec3.scale (N : K) (ops[i].translation - ops[j].translation + v) := by
      rw [← hu]
      ext <;> simp [Vec3.scale, overK, Mat3.adj, Mat3.map, Mat3.det] <;> ring
    rw [e]; exact h2
  have key : ∀ {x tol : K} (a : ℤ), (N : K) * (T.det : K) * x = a → tol ≤ 1 / (N * T.det.natAbs) →
      NearInt x tol → ∃ n : ℤ, x = n := by
    intro x tol a ha htol hn
    obtain ⟨n, hn⟩ := hn
    refine ⟨n, ?_⟩
    have h1 : |x - n| * (N * (T.det.natAbs : K)) < 1 := by
      have := lt_of_lt_of_le hn htol
      rwa [lt_div_iff₀ (by positivity)] at this
    have h2 : |((a - N * T.det * n : ℤ) : K)| < 1 := by
      have e : ((a - N * T.det * n : ℤ) : K) = (x - n) * ((N : K) * (T.det : K)) := by
        push_cast; rw [← ha]; ring
      rw [e, abs_mul, abs_mul, abs_of_pos hNK]
      rw [Nat.cast_natAbs] at h1
      push_cast at h1
      exact h1
    have h3 : a - N * T.det * n = 0 := by
      rw [← Int.cast_abs] at h2
      have : |a - N * T.det * n| < 1 := by exact_mod_cast h2
      rwa [Int.abs_lt_one_iff] at this
    have h4 : (N : K) * (T.det : K) * (x - n) = 0 := by
      have := congrArg (fun z : ℤ => (z : K)) h3
      simp only [Int.cast_sub, Int.cast_mul, Int.cast_natCast, Int.cast_zero] at this
      rw [mul_sub, ha]; exact this
    have h5 : (N : K) * (T.det : K) ≠ 0 := mul_ne_zero hNK.ne' (by exact_mod_cast hd)
    have := (mul_eq_zero.1 h4).resolve_left h5
    linarith
  obtain ⟨a, b, c, habc⟩ := hint
  obtain ⟨n1, e1⟩ := key a (congrArg Vec3.x habc) hx hnx
  obtain ⟨n2, e2⟩ := key b (congrArg Vec3.y habc) hy hny
  obtain ⟨n3, e3⟩ := key c (congrArg Vec3.z habc) hz hnz
  have hui : IntVec u := ⟨n1, n2, n3, by ext <;> assumption⟩
  refine ⟨?_, hui⟩
  have hsp : SamePoint ops[i].translation ops[j].translation := by
    obtain ⟨p1, p2, p3, hp⟩ := intVec_overK (m := T) hui
    obtain ⟨c1, c2, c3, rfl⟩ := hv
    rw [hu] at hp
    have px := congrArg Vec3.x hp
    have py := congrArg Vec3.y hp
    have pz := congrArg Vec3.z hp
    simp only [Vec3.add_x, Vec3.add_y, Vec3.add_z, Vec3.sub_x, Vec3.sub_y, Vec3.sub_z] at px py pz
    exact ⟨⟨p1 - c1, by push_cast; linarith⟩, ⟨p2 - c2, by push_cast; linarith⟩, ⟨p3 - c3, by push_cast; linarith⟩⟩
  rcases lt_trichotomy i j with h | h | h
  · exact absurd hsp ((List.pairwise_iff_getElem.1 hdiff) i j i.2 j.2 h hr)
  · exact h
  · exact absurd (samePoint_symm' hsp) ((List.pairwise_iff_getElem.1 hdiff) j i j.2 i.2 h hr.symm)

/-- **C38 (partial, groups given on a grid).** The same for operations whose translations are multiples of
`1/N` (`N = 24` for the tables) and tolerances of at most `1/(N |det T|)`. -/
theorem C38_supercell_grid_partial (ops : List (SymmOp K)) (T : Mat3 ℤ) (tols : Vec3 K) (N : ℕ) (hN : 0 < N)
    (ht : TolOK tols) (hd : T.det ≠ 0)
    (hx : tols.x ≤ 1 / (N * T.det.natAbs)) (hy : tols.y ≤ 1 / (N * T.det.natAbs))
    (hz : tols.z ≤ 1 / (N * T.det.natAbs))
    (hgrid : ∀ op ∈ ops, IntVec (Vec3.scale (N : K) op.translation))
    (hdiff : ops.Pairwise fun a b => a.rotation = b.rotation → ¬ SamePoint a.translation b.translation)
    (hint : ∀ op ∈ ops, ∃ s, FitsI8 s ∧ InBasis (overK K T) (intRot op.rotation) s ∧
      ∃ e ∈ s.toListCM, e = 0 ∨ e = 1 ∨ e = -1) :
    ∃ M, ∀ fuel ≥ M, ∃ ops', applyTransformation fuel ops (overK K T) tols = .ret ops' ∧
      ops'.length = ops.length * T.det.natAbs ∧
      (∀ o ∈ ops', ∃ op ∈ ops, ∃ v, IntVec v ∧ IsImage (overK K T) op o v) ∧
      ∀ op ∈ ops, ∀ v, IntVec v → ∃ o ∈ ops', IsImage (overK K T) op o v :=
  C38_supercell_partial ops T tols ht hd hint (stayApart_of_grid hN hd hgrid hx hy hz hdiff)

end

/-! ### where the code falls short -/

/-- the four-fold rotation about the third axis. -/
def rot4 : Mat3 Int8 := ⟨0, -1, 0, 1, 0, 0, 0, 0, 1⟩

/-- **C38 is false.** For the cell doubled along the first axis the four-fold rotation has no integral form, yet
an operation with the rotation `T⁻¹ R T` rounded to integers is returned: its rotation is not the image of any
input rotation (its determinant is 2). -/
theorem C38_false_not_a_symmetry : ∃ (ops ops' : List (SymmOp ℚ)) (T : Mat3 ℚ) (tols : Vec3 ℚ) (fuel : ℕ),
    TolOK tols ∧ T.det ≠ 0 ∧ applyTransformation fuel ops T tols = .ret ops' ∧
    ∃ o ∈ ops', (intRot o.rotation).det = 2 ∧
      ∀ op ∈ ops, ¬ InBasis T (intRot op.rotation) (intRot o.rotation) := by
  refine ⟨[⟨1, 0⟩, ⟨rot4, 0⟩], [⟨1, 0⟩, ⟨1, ⟨1 / 2, 0, 0⟩⟩, ⟨⟨0, -1, 0, 2, 0, 0, 0, 0, 1⟩, 0⟩,
    ⟨⟨0, -1, 0, 2, 0, 0, 0, 0, 1⟩, ⟨1 / 2, 0, 0⟩⟩], ⟨2, 0, 0, 0, 1, 0, 0, 0, 1⟩, ⟨1 / 10, 1 / 10, 1 / 10⟩, 3,
    by unfold TolOK; norm_num, by decide +kernel, by decide +kernel, ⟨⟨0, -1, 0, 2, 0, 0, 0, 0, 1⟩, 0⟩, by simp,
    by decide +kernel, ?_⟩
  unfold InBasis
  decide +kernel

/-- the eight half translations, the centring of a cell with doubled edges. -/
def halfTranslations : List (SymmOp ℚ) :=
  [⟨1, ⟨0, 0, 0⟩⟩, ⟨1, ⟨1 / 2, 0, 0⟩⟩, ⟨1, ⟨0, 1 / 2, 0⟩⟩, ⟨1, ⟨0, 0, 1 / 2⟩⟩,
    ⟨1, ⟨1 / 2, 1 / 2, 0⟩⟩, ⟨1, ⟨1 / 2, 0, 1 / 2⟩⟩, ⟨1, ⟨0, 1 / 2, 1 / 2⟩⟩, ⟨1, ⟨1 / 2, 1 / 2, 1 / 2⟩⟩]

/-- **C38 (no result).** Reducing the eight half translations to the cell with halved edges never ends: the
volume ratio `1/8` is rounded up to `0.13`. -/
theorem C38_false_no_result : ∀ fuel, applyTransformation fuel halfTranslations
    (⟨1 / 2, 0, 0, 0, 1 / 2, 0, 0, 0, 1 / 2⟩ : Mat3 ℚ) ⟨1 / 10, 1 / 10, 1 / 10⟩ = .running := by
  intro fuel
  set T : Mat3 ℚ := ⟨1 / 2, 0, 0, 0, 1 / 2, 0, 0, 0, 1 / 2⟩ with hT
  set tols : Vec3 ℚ := ⟨1 / 10, 1 / 10, 1 / 10⟩ with htols
  have ht : TolOK tols := by rw [htols]; unfold TolOK; norm_num
  have hinv : T.tryInverse = some ⟨2, 0, 0, 0, 2, 0, 0, 0, 2⟩ := by rw [hT]; decide +kernel
  have hratio : Structure.volumeRatio T = 13 / 100 := by rw [hT]; decide +kernel
  have hcand : ∀ mult, ∀ c ∈ candOps tols ⟨2, 0, 0, 0, 2, 0, 0, 0, 2⟩ T (Structure.translationVecs mult)
      halfTranslations, c.rotation = 1 ∧ IntVec c.translation := by
    intro mult c hc
    obtain ⟨op, hop, hc⟩ := List.mem_flatMap.1 hc
    obtain ⟨v, hv, rfl⟩ := List.mem_map.1 hc
    obtain ⟨i, j, k, -, -, -, rfl⟩ := mem_translationVecs.1 hv
    have hop := (List.mem_filter.1 hop).1
    have hrot : ∀ op ∈ halfTranslations, newRot ⟨2, 0, 0, 0, 2, 0, 0, 0, 2⟩ T op = 1 := by
      rw [hT]; decide +kernel
    have htr : ∀ op ∈ halfTranslations, ∃ a b c : ℤ, op.translation = ⟨a / 2, b / 2, c / 2⟩ := by
      intro op hop
      simp only [halfTranslations, List.mem_cons, List.not_mem_nil, or_false] at hop
      rcases hop with rfl | rfl | rfl | rfl | rfl | rfl | rfl | rfl
      exacts [⟨0, 0, 0, by simp⟩, ⟨1, 0, 0, by simp⟩, ⟨0, 1, 0, by simp⟩, ⟨0, 0, 1, by simp⟩,
        ⟨1, 1, 0, by simp⟩, ⟨1, 0, 1, by simp⟩, ⟨0, 1, 1, by simp⟩, ⟨1, 1, 1, by simp⟩]
    refine ⟨hrot op hop, ?_⟩
    obtain ⟨a, b, c, e⟩ := htr op hop
    obtain ⟨⟨n1, h1⟩, ⟨n2, h2⟩, ⟨n3, h3⟩⟩ := samePoint_normFracVec tols
      ((⟨2, 0, 0, 0, 2, 0, 0, 0, 2⟩ : Mat3 ℚ) * (op.translation + ⟨(i : ℚ), (j : ℚ), (k : ℚ)⟩))
    rw [e] at h1 h2 h3
    simp only [Mat3.mulVec_x, Mat3.mulVec_y, Mat3.mulVec_z, Vec3.add_x, Vec3.add_y, Vec3.add_z] at h1 h2 h3
    refine ⟨n1 + a + 2 * i, n2 + b + 2 * j, n3 + c + 2 * k, ?_⟩
    simp only [candOp]
    rw [e]
    ext <;> push_cast <;> linarith
  have hkeep : (halfTranslations.filter fun op => !someEntryIntegral (floatRot ⟨2, 0, 0, 0, 2, 0, 0, 0, 2⟩ T op)) =
      [] := by rw [hT]; decide +kernel
  have hloop : ∀ (fuel mult : ℕ) (st : TransState ℚ), Mirror st → st.initialNumOps = 8 →
      st.newOperations.length ≤ 1 → (∀ x ∈ st.newOperations, x.rotation = 1 ∧ IntVec x.translation) →
      transLoop tols ⟨2, 0, 0, 0, 2, 0, 0, 0, 2⟩ T (13 / 100) halfTranslations fuel mult st = .running := by
    intro fuel
    induction fuel with
    | zero => intros; rfl
    | succ fuel ih =>
      intro mult st hM hn hl hx
      have hq : opsQuotLt st.newOperations.length st.initialNumOps ((13 / 100 : ℚ)) = true := by
        rw [hn]
        unfold opsQuotLt
        rw [if_neg (by norm_num), decide_eq_true_eq]
        have : (st.newOperations.length : ℚ) ≤ 1 := by exact_mod_cast hl
        simp only [lit]
        push_cast
        rw [div_lt_iff₀ (by norm_num)]
        linarith
      rw [transLoop, if_pos hq]
      obtain ⟨g1, g2, g3⟩ := transPass_spec (tols := tols) (inv := ⟨2, 0, 0, 0, 2, 0, 0, 0, 2⟩) (t := T)
        (Structure.translationVecs mult) halfTranslations hM
      rw [hkeep] at g3
      have hsim : ∀ a b : SymmOp ℚ, a.rotation = 1 ∧ IntVec a.translation → b.rotation = 1 ∧ IntVec b.translation →
          a.isApproxEq b tols = true := by
        intro a b ha hb
        rw [C07_is_approx_eq_iff _ _ _ ht]
        obtain ⟨h1, i, j, k, e⟩ := ha
        obtain ⟨h1', i', j', k', e'⟩ := hb
        rw [htols] at *
        refine ⟨by rw [h1, h1'], ⟨i - i', ?_⟩, ⟨j - j', ?_⟩, ⟨k - k', ?_⟩⟩ <;> rw [e, e'] <;> push_cast <;>
          simp
      have hfold : ∀ (cs l : List (SymmOp ℚ)), (∀ c ∈ cs, c.rotation = 1 ∧ IntVec c.translation) →
          l.length ≤ 1 → (∀ x ∈ l, x.rotation = 1 ∧ IntVec x.translation) →
          (cs.foldl (addOp tols) l).length ≤ 1 ∧
            ∀ x ∈ cs.foldl (addOp tols) l, x.rotation = 1 ∧ IntVec x.translation := by
        intro cs
        induction cs with
        | nil => intro l _ h1 h2; exact ⟨h1, h2⟩
        | cons c cs ihc =>
          intro l hc h1 h2
          rw [List.foldl_cons]
          have hnorm : (c.normalize tols).rotation = 1 ∧ IntVec (c.normalize tols).translation := by
            obtain ⟨hr, i, j, k, e⟩ := hc c (by simp)
            obtain ⟨-, ⟨a, h1⟩, ⟨b, h2⟩, ⟨d, h3⟩⟩ := normalize_same c tols
            refine ⟨hr, a + i, b + j, d + k, ?_⟩
            rw [e] at h1 h2 h3
            simp only at h1 h2 h3
            ext <;> push_cast <;> linarith
          apply ihc _ (fun x hx => hc x (by simp [hx]))
          · unfold addOp
            split
            · exact h1
            · rename_i hany
              cases l with
              | nil => simp
              | cons y l =>
                exfalso
                apply hany
                rw [List.any_eq_true]
                exact ⟨y, by simp, hsim c y (hc c (by simp)) (h2 y (by simp))⟩
          · unfold addOp
            split
            · exact h2
            · intro x hx
              rcases List.mem_append.1 hx with hx | hx
              · exact h2 x hx
              · rw [List.mem_singleton.1 hx]; exact hnorm
      obtain ⟨k1, k2⟩ := hfold _ _ (hcand mult) hl hx
      refine ih (mult + 1) _ g1 (by rw [g3, hn]; simp) ?_ ?_
      · rw [g2]; exact k1
      · rw [g2]; exact k2
  unfold applyTransformation
  rw [hinv]
  simp only
  rw [hratio, hloop fuel 2 _ (mirror_init _) (by decide) (by simp) (by simp)]
  rfl

/-- the identity and the inversion doubled along the first axis: four operations, all of the stated form. -/
example : applyTransformation 3 [⟨1, 0⟩, ⟨⟨-1, 0, 0, 0, -1, 0, 0, 0, -1⟩, ⟨1 / 2, 0, 0⟩⟩]
    (⟨2, 0, 0, 0, 1, 0, 0, 0, 1⟩ : Mat3 ℚ) ⟨1 / 10, 1 / 10, 1 / 10⟩ =
    .ret [⟨1, 0⟩, ⟨1, ⟨1 / 2, 0, 0⟩⟩, ⟨⟨-1, 0, 0, 0, -1, 0, 0, 0, -1⟩, ⟨1 / 4, 0, 0⟩⟩,
      ⟨⟨-1, 0, 0, 0, -1, 0, 0, 0, -1⟩, ⟨3 / 4, 0, 0⟩⟩] := by decide +kernel

/-- the hypotheses of the theorem on supercells hold for these. -/
example : ∃ M, ∀ fuel ≥ M, ∃ ops', applyTransformation fuel
    [⟨1, 0⟩, ⟨⟨-1, 0, 0, 0, -1, 0, 0, 0, -1⟩, ⟨1 / 2, 0, 0⟩⟩] (overK ℚ ⟨2, 0, 0, 0, 1, 0, 0, 0, 1⟩)
    ⟨1 / 10, 1 / 10, 1 / 10⟩ = .ret ops' ∧ ops'.length = 4 := by
  obtain ⟨M, h⟩ := C38_supercell_grid_partial (K := ℚ) [⟨1, 0⟩, ⟨⟨-1, 0, 0, 0, -1, 0, 0, 0, -1⟩, ⟨1 / 2, 0, 0⟩⟩]
    ⟨2, 0, 0, 0, 1, 0, 0, 0, 1⟩ ⟨1 / 10, 1 / 10, 1 / 10⟩ 2 (by norm_num) (by unfold TolOK; norm_num)
    (by decide) (by decide +kernel) (by decide +kernel) (by decide +kernel)
    (by
      intro op hop
      simp only [List.mem_cons, List.not_mem_nil, or_false] at hop
      rcases hop with rfl | rfl
      · exact ⟨0, 0, 0, by decide +kernel⟩
      · exact ⟨1, 0, 0, by decide +kernel⟩)
    (by
      simp only [List.pairwise_cons, List.mem_singleton, forall_eq, List.not_mem_nil, false_implies, implies_true,
        List.Pairwise.nil, and_true]
      intro h
      exact absurd h (by decide))
    (by
      intro op hop
      refine ⟨intRot op.rotation, ?_⟩
      simp only [List.mem_cons, List.not_mem_nil, or_false] at hop
      rcases hop with rfl | rfl
      · unfold FitsI8 InBasis; decide +kernel
      · unfold FitsI8 InBasis; decide +kernel)
  exact ⟨M, fun fuel hf => by obtain ⟨ops', h1, h2, -⟩ := h fuel hf; exact ⟨ops', h1, h2⟩⟩

end CrystSymm
