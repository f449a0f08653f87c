import Verif.Proofs.Search
import Verif.Proofs.Mag
import Verif.Proofs.Round
import Verif.Proofs.Coset

set_option autoImplicit false

/-! # Completeness of the site search for integer transformations -/

set_option linter.unusedSectionVars false

namespace CrystSymm

open Spec

/-- an integer matrix as a model matrix over `ℝ`. -/
def realMat (T : Mat3 ℤ) : Mat3 ℝ := T.map fun n : ℤ => (n : ℝ)

/-- an integer vector as a real one. -/
def realVec (m : Fin 3 → ℤ) : Vec3 ℝ := ⟨m 0, m 1, m 2⟩

/-- Mathlib matrix of an integer model matrix. -/
def intMatrix (T : Mat3 ℤ) : Matrix (Fin 3) (Fin 3) ℤ :=
  !![T.m11, T.m12, T.m13; T.m21, T.m22, T.m23; T.m31, T.m32, T.m33]

theorem det_intMatrix (T : Mat3 ℤ) : (intMatrix T).det = T.det := by
  rw [Matrix.det_fin_three]
  simp [intMatrix, Mat3.det]
  ring

theorem realMat_det (T : Mat3 ℤ) : (realMat T).det = (T.det : ℝ) := by
  simp [realMat, Mat3.det, Mat3.map]

theorem realMat_mulVec (T : Mat3 ℤ) (m : Fin 3 → ℤ) :
    realMat T * realVec m = realVec ((intMatrix T).mulVec m) := by
  ext <;> simp [realMat, realVec, intMatrix, Mat3.map, Matrix.mulVec, dotProduct, Fin.sum_univ_three]

theorem realVec_injective {m m' : Fin 3 → ℤ} (h : realVec m = realVec m') : m = m' := by
  simp only [realVec, Vec3.mk.injEq, Int.cast_inj] at h
  funext i
  fin_cases i
  exacts [h.1, h.2.1, h.2.2]

theorem intVec_iff (v : Vec3 ℝ) : IntVec v ↔ ∃ m, v = realVec m := by
  constructor
  · rintro ⟨i, j, k, rfl⟩
    exact ⟨![i, j, k], by simp [realVec]⟩
  · rintro ⟨m, rfl⟩
    exact ⟨m 0, m 1, m 2, rfl⟩

theorem realVec_sub (m m' : Fin 3 → ℤ) : realVec (m - m') = realVec m - realVec m' := by
  ext <;> simp [realVec]

theorem realVec_add (m m' : Fin 3 → ℤ) : realVec (m + m') = realVec m + realVec m' := by
  ext <;> simp [realVec]

section
variable {s : Structure ℝ} {T : Mat3 ℤ} {posTol : ℝ} {invT : Mat3 ℝ}

/-- copy of old site `q` shifted by `m`, in new coordinates. -/
def copyOf (invT : Mat3 ℝ) (q : Vec3 ℝ × String) (m : Fin 3 → ℤ) : Vec3 ℝ × String :=
  (invT * (q.1 + realVec m), q.2)

theorem volumeRatio_realMat (T : Mat3 ℤ) :
    Structure.volumeRatio (realMat T) = ((T.det.natAbs : ℕ) : ℝ) := by
  unfold Structure.volumeRatio
  rw [realMat_det]
  show ((roundZ (|(T.det : ℝ)| * ((100 : ℤ) : ℝ)) : ℤ) : ℝ) / ((100 : ℤ) : ℝ) = _
  have : |(T.det : ℝ)| * ((100 : ℤ) : ℝ) = ((|T.det| * 100 : ℤ) : ℝ) := by push_cast; ring
  rw [this, roundZ_intCast]
  push_cast
  rw [Nat.cast_natAbs]
  push_cast
  field_simp

/-- abstract form of the separation hypothesis, as used by the search. -/
def ClassTest (r : Vec3 ℝ × String → Vec3 ℝ × String → Bool) (invT : Mat3 ℝ) (T : Mat3 ℤ)
    (old : List (Vec3 ℝ × String)) : Prop :=
  ∀ (i j : Fin old.length) (m m' : Fin 3 → ℤ),
    r (copyOf invT old[i] m) (copyOf invT old[j] m') = true ↔ i = j ∧ m - m' ∈ subLattice (intMatrix T)

variable {r : Vec3 ℝ × String → Vec3 ℝ × String → Bool} {old F : List (Vec3 ℝ × String)}

theorem exists_classes (hF : ∀ p ∈ F, IsCand invT old p) :
    ∀ k : Fin F.length, ∃ (i : Fin old.length) (m : Fin 3 → ℤ), F[k] = copyOf invT old[i] m := by
  intro k
  obtain ⟨q, hq, v, hv, h⟩ := (hF F[k] (List.getElem_mem _)).exists_int
  obtain ⟨n, hn, rfl⟩ := List.mem_iff_getElem.1 hq
  obtain ⟨m, rfl⟩ := (intVec_iff v).1 hv
  exact ⟨⟨n, hn⟩, m, h⟩

/-- every class is represented. -/
def Covers (r : Vec3 ℝ × String → Vec3 ℝ × String → Bool) (invT : Mat3 ℝ)
    (old F : List (Vec3 ℝ × String)) : Prop :=
  ∀ (i : Fin old.length) (m : Fin 3 → ℤ), ∃ p ∈ F, r (copyOf invT old[i] m) p = true

theorem finite_cosets (hd : T.det ≠ 0) : Finite ((Fin 3 → ℤ) ⧸ subLattice (intMatrix T)) := by
  have h := card_cosets (intMatrix T) (by rw [det_intMatrix]; exact hd)
  apply Nat.finite_of_card_ne_zero
  rw [h, det_intMatrix]
  exact Int.natAbs_ne_zero.2 hd

theorem card_classes (hd : T.det ≠ 0) (n : ℕ) :
    Nat.card (Fin n × ((Fin 3 → ℤ) ⧸ subLattice (intMatrix T))) = n * T.det.natAbs := by
  rw [Nat.card_prod, card_cosets _ (by rw [det_intMatrix]; exact hd), det_intMatrix]
  simp

theorem length_le (hd : T.det ≠ 0) (hr : ClassTest r invT T old) (hF : ∀ p ∈ F, IsCand invT old p)
    (hD : Distinct r F) : F.length ≤ old.length * T.det.natAbs := by
  have := finite_cosets hd
  choose fi fm hf using exists_classes hF
  let g : Fin F.length → Fin old.length × ((Fin 3 → ℤ) ⧸ subLattice (intMatrix T)) :=
    fun k => (fi k, Submodule.Quotient.mk (fm k))
  have key : ∀ k k' : Fin F.length, k < k' → g k ≠ g k' := by
    intro k k' hlt he
    have h1 : r F[k'] F[k] = false := (List.pairwise_iff_getElem.1 hD) k k' k.2 k'.2 hlt
    have h2 : r F[k'] F[k] = true := by
      rw [hf k, hf k', hr]
      simp only [g, Prod.mk.injEq] at he
      exact ⟨he.1.symm, (Submodule.Quotient.eq _).1 he.2.symm⟩
    rw [h1] at h2
    exact absurd h2 (by simp)
  have hinj : Function.Injective g := by
    intro k k' he
    rcases lt_trichotomy k k' with h | h | h
    · exact absurd he (key k k' h)
    · exact h
    · exact absurd he.symm (key k' k h)
  have := Nat.card_le_card_of_injective g hinj
  rw [card_classes hd] at this
  simpa using this

theorem le_length (hd : T.det ≠ 0) (hr : ClassTest r invT T old) (hF : ∀ p ∈ F, IsCand invT old p)
    (hC : Covers r invT old F) : old.length * T.det.natAbs ≤ F.length := by
  choose fi fm hf using exists_classes hF
  let g : Fin F.length → Fin old.length × ((Fin 3 → ℤ) ⧸ subLattice (intMatrix T)) :=
    fun k => (fi k, Submodule.Quotient.mk (fm k))
  have hsurj : Function.Surjective g := by
    rintro ⟨i, c⟩
    obtain ⟨m, rfl⟩ := Submodule.Quotient.mk_surjective _ c
    obtain ⟨p, hp, hrp⟩ := hC i m
    obtain ⟨n, hn, rfl⟩ := List.mem_iff_getElem.1 hp
    have e : F[n] = copyOf invT old[fi ⟨n, hn⟩] (fm ⟨n, hn⟩) := hf ⟨n, hn⟩
    rw [e, hr] at hrp
    refine ⟨⟨n, hn⟩, ?_⟩
    simp only [g, Prod.mk.injEq]
    exact ⟨hrp.1.symm, ((Submodule.Quotient.eq _).2 hrp.2).symm⟩
  have := Nat.card_le_card_of_surjective g hsurj
  rw [card_classes hd] at this
  simpa using this

/-- with as many sites as classes, every class is represented. -/
theorem covers_of_length (hd : T.det ≠ 0) (hr : ClassTest r invT T old)
    (hF : ∀ p ∈ F, IsCand invT old p) (hD : Distinct r F)
    (hl : F.length = old.length * T.det.natAbs) : Covers r invT old F := by
  have := finite_cosets hd
  choose fi fm hf using exists_classes hF
  let g : Fin F.length → Fin old.length × ((Fin 3 → ℤ) ⧸ subLattice (intMatrix T)) :=
    fun k => (fi k, Submodule.Quotient.mk (fm k))
  have key : ∀ k k' : Fin F.length, k < k' → g k ≠ g k' := by
    intro k k' hlt he
    have h1 : r F[k'] F[k] = false := (List.pairwise_iff_getElem.1 hD) k k' k.2 k'.2 hlt
    have h2 : r F[k'] F[k] = true := by
      rw [hf k, hf k', hr]
      simp only [g, Prod.mk.injEq] at he
      exact ⟨he.1.symm, (Submodule.Quotient.eq _).1 he.2.symm⟩
    rw [h1] at h2
    exact absurd h2 (by simp)
  have hinj : Function.Injective g := by
    intro k k' he
    rcases lt_trichotomy k k' with h | h | h
    · exact absurd he (key k k' h)
    · exact h
    · exact absurd he.symm (key k' k h)
  have hb : Function.Bijective g := by
    rw [Nat.bijective_iff_injective_and_card]
    refine ⟨hinj, ?_⟩
    rw [card_classes hd, Nat.card_eq_fintype_card, Fintype.card_fin, hl]
  intro i m
  obtain ⟨k, hk⟩ := hb.2 (i, Submodule.Quotient.mk m)
  refine ⟨F[k], List.getElem_mem _, ?_⟩
  simp only [g, Prod.mk.injEq] at hk
  rw [hf k, hr]
  exact ⟨hk.1.symm, (Submodule.Quotient.eq _).1 hk.2.symm⟩

/-- the pass with `mult = |det T| + 1` reaches every class. -/
theorem covers_after_pass (hd : T.det ≠ 0) (hr : ClassTest r invT T old)
    (hF : ∀ p ∈ F, IsCand invT old p) :
    Covers r invT old (greedy r F (passCands invT (T.det.natAbs + 1) old)) := by
  intro i m
  set D : ℕ := T.det.natAbs with hDdef
  have hDpos : 0 < D := Int.natAbs_pos.2 hd
  have hDZ : (D : ℤ) ≠ 0 := by exact_mod_cast hDpos.ne'
  -- the residues of `m` modulo `D`
  have hres : ∀ a : Fin 3, ∃ k : ℕ, k < D + 1 ∧ ∃ q : ℤ, (k : ℤ) - m a = D * q := by
    intro a
    refine ⟨(m a % D).toNat, ?_, -(m a / D), ?_⟩
    · have := Int.emod_lt_of_pos (m a) (by exact_mod_cast hDpos : (0 : ℤ) < D)
      omega
    · rw [Int.toNat_of_nonneg (Int.emod_nonneg _ hDZ)]
      have := Int.emod_add_mul_ediv (m a) D
      linarith [mul_neg (D : ℤ) (m a / D)]
  choose k hk q hq using hres
  let mm : Fin 3 → ℤ := fun a => (D + 1) * k a
  have hmm : mm - m ∈ subLattice (intMatrix T) := by
    have e : mm - m = (D : ℤ) • fun a => ((k a : ℤ) + q a) := by
      funext a
      simp only [mm, Pi.sub_apply, Pi.smul_apply, smul_eq_mul]
      have := hq a
      linarith [mul_add (D : ℤ) (k a) (q a)]
    rw [e]
    have h := det_smul_mem (intMatrix T) (fun a => ((k a : ℤ) + q a))
    rw [det_intMatrix] at h
    rcases Int.natAbs_eq T.det with h' | h'
    · rw [h'] at h; exact h
    · rw [h'] at h
      rw [neg_smul] at h
      exact (Submodule.neg_mem_iff _).1 h
  have hc : copyOf invT old[i] mm ∈ passCands invT (D + 1) old := by
    unfold passCands
    rw [List.mem_flatMap]
    refine ⟨old[i], List.getElem_mem _, ?_⟩
    rw [List.mem_map]
    refine ⟨⟨(k 0 : ℝ), (k 1 : ℝ), (k 2 : ℝ)⟩, ?_, ?_⟩
    · rw [mem_translationVecs]
      exact ⟨k 0, k 1, k 2, hk 0, hk 1, hk 2, rfl⟩
    · simp only [copyOf, realVec, Vec3.scale, lit, mm]
      push_cast
      rfl
  obtain ⟨p, hp, hpc⟩ := greedy_covers (r := r) (acc := F) hc
  have hcand : ∀ p ∈ greedy r F (passCands invT (D + 1) old), IsCand invT old p := by
    intro p hp
    rcases mem_greedy hp with hp | hp
    · exact hF p hp
    · exact isCand_of_mem_passCands hp
  obtain ⟨n, hn, rfl⟩ := List.mem_iff_getElem.1 hp
  obtain ⟨j, m', e⟩ := exists_classes hcand ⟨n, hn⟩
  refine ⟨_, hp, ?_⟩
  have e' : (greedy r F (passCands invT (D + 1) old))[n] = copyOf invT old[j] m' := e
  have hcc : r (copyOf invT old[i] mm) (copyOf invT old[j] m') = true := by
    rcases hpc with h | h
    · rw [e'] at h
      rw [h, hr]
      exact ⟨rfl, by simp⟩
    · rw [e'] at h; exact h
  rw [hr] at hcc
  rw [e', hr]
  refine ⟨hcc.1, ?_⟩
  have : m - m' = (mm - m') - (mm - m) := by abel
  rw [this]
  exact Submodule.sub_mem _ hcc.2 hmm

theorem searchLoop_mono {K : Type} [Add K] [Sub K] [Mul K] [Div K] [Neg K] [Zero K] [One K] [IntCast K]
    [LT K] [LE K] [DecidableLT K] [DecidableLE K] [BEq K] [FRound K] [FTrans K]
    {L : Mat3 K} {tols : Vec3 K} {posTol : K} {invT : Mat3 K} {ratio : K} {total : ℕ}
    {old : List (Vec3 K × String)} {fuel mult : ℕ} {F F' : List (Vec3 K × String)}
    (h : Structure.searchLoop L tols posTol invT ratio total old fuel mult F = .ret F') (n : ℕ) :
    Structure.searchLoop L tols posTol invT ratio total old (fuel + n) mult F = .ret F' := by
  induction fuel generalizing mult F with
  | zero => simp [Structure.searchLoop] at h
  | succ fuel ih =>
    rw [Nat.succ_add, Structure.searchLoop]
    rw [Structure.searchLoop] at h
    split at h
    · rename_i hq
      rw [if_pos hq]; exact ih h
    · rename_i hq
      rw [if_neg hq]; exact h

theorem applyTransformation_mono {K : Type} [Add K] [Sub K] [Mul K] [Div K] [Neg K] [Zero K] [One K]
    [IntCast K] [LT K] [LE K] [DecidableLT K] [DecidableLE K] [BEq K] [FRound K] [FTrans K]
    {fuel : ℕ} {s s' : Structure K} {t : Mat3 K} {posTol : K}
    (h : s.applyTransformation fuel t posTol = .ret s') (n : ℕ) :
    s.applyTransformation (fuel + n) t posTol = .ret s' := by
  obtain ⟨invT, F, hi, hF, rfl⟩ := applyTransformation_ret h
  unfold Structure.applyTransformation
  simp only [hi, searchLoop_mono hF n, Outcome.bind]

/-- the search loop ends with all classes. -/
theorem searchLoop_complete {L : Mat3 ℝ} {tols : Vec3 ℝ} (hd : T.det ≠ 0)
    (hr : ClassTest (coinc L tols posTol) invT T old) (fuel mult : ℕ) (hm : mult ≤ T.det.natAbs + 2)
    (hfuel : T.det.natAbs + 3 ≤ fuel + mult)
    (hF : ∀ p ∈ F, IsCand invT old p) (hD : Distinct (coinc L tols posTol) F)
    (hC : mult = T.det.natAbs + 2 → Covers (coinc L tols posTol) invT old F) :
    ∃ F', Structure.searchLoop L tols posTol invT ((T.det.natAbs : ℕ) : ℝ) old.length old fuel mult F
        = .ret F' ∧ F'.length = old.length * T.det.natAbs := by
  induction fuel generalizing mult F with
  | zero => omega
  | succ fuel ih =>
    rw [Structure.searchLoop]
    by_cases hq : Structure.quotLt F.length old.length ((T.det.natAbs : ℕ) : ℝ) = true
    · rw [if_pos hq]
      have hlt : F.length < old.length * T.det.natAbs := by
        unfold Structure.quotLt at hq
        split at hq
        · simp at hq
        · rename_i h0
          simp only [decide_eq_true_eq, lit, Int.cast_natCast] at hq
          rw [div_lt_iff₀ (by exact_mod_cast Nat.pos_of_ne_zero h0)] at hq
          have : F.length < T.det.natAbs * old.length := by exact_mod_cast hq
          rwa [Nat.mul_comm]
      have hm' : mult ≠ T.det.natAbs + 2 := by
        intro h
        have := le_length hd hr hF (hC h)
        omega
      rw [searchPass_eq]
      refine ih (mult + 1) (by omega) (by omega) ?_ (greedy_distinct _ hD) ?_
      · intro p hp
        rcases mem_greedy hp with hp | hp
        · exact hF p hp
        · exact isCand_of_mem_passCands hp
      · intro h
        have : mult = T.det.natAbs + 1 := by omega
        rw [this]
        exact covers_after_pass hd hr hF
    · rw [if_neg hq]
      refine ⟨F, rfl, ?_⟩
      apply le_antisymm (length_le hd hr hF hD)
      rw [Bool.not_eq_true] at hq
      unfold Structure.quotLt at hq
      split at hq
      · rename_i h0
        rw [h0]; simp
      · rename_i h0
        simp only [decide_eq_false_iff_not, not_lt, lit, Int.cast_natCast] at hq
        rw [le_div_iff₀ (by exact_mod_cast Nat.pos_of_ne_zero h0)] at hq
        have : T.det.natAbs * old.length ≤ F.length := by exact_mod_cast hq
        rwa [Nat.mul_comm]

end

end CrystSymm
