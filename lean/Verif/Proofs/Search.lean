import Verif.Proofs.Greedy
import Verif.Proofs.Outcome
import Verif.Proofs.Structure

set_option autoImplicit false

/-! # The site search of `apply_transformation` -/

set_option linter.unusedSectionVars false

namespace CrystSymm

open Spec

section AnyK
variable {K : Type} [Add K] [Sub K] [Mul K] [Div K] [Neg K] [Zero K] [One K] [IntCast K]
  [LT K] [LE K] [DecidableLT K] [DecidableLE K] [BEq K] [FRound K] [FTrans K]

/-- the similarity test on candidate sites. -/
def coinc (L : Mat3 K) (tols : Vec3 K) (posTol : K) (c p : Vec3 K × String) : Bool :=
  Structure.sitesCoincide L tols posTol c.1 p.1

/-- the candidates of one pass. -/
def passCands (invT : Mat3 K) (mult : ℕ) (old : List (Vec3 K × String)) : List (Vec3 K × String) :=
  old.flatMap fun s => (Structure.translationVecs mult).map fun tv =>
    (invT * (s.1 + Vec3.scale (lit mult) tv), s.2)

theorem searchPass_eq (L : Mat3 K) (tols : Vec3 K) (posTol : K) (invT : Mat3 K) (mult : ℕ)
    (old found : List (Vec3 K × String)) :
    Structure.searchPass L tols posTol invT mult old found
      = greedy (coinc L tols posTol) found (passCands invT mult old) := by
  unfold Structure.searchPass greedy passCands
  rw [List.foldl_flatMap]
  congr 1
  funext acc s
  rw [List.foldl_map]
  rfl

/-- `p` is an old site moved by an integer vector and expressed in the new basis. -/
def IsCand (invT : Mat3 K) (old : List (Vec3 K × String)) (p : Vec3 K × String) : Prop :=
  ∃ s ∈ old, ∃ mult : ℕ, ∃ tv ∈ (Structure.translationVecs mult : List (Vec3 K)),
    p = (invT * (s.1 + Vec3.scale (lit mult) tv), s.2)

theorem isCand_of_mem_passCands {invT : Mat3 K} {mult : ℕ} {old : List (Vec3 K × String)}
    {p : Vec3 K × String} (h : p ∈ passCands invT mult old) : IsCand invT old p := by
  unfold passCands at h
  rw [List.mem_flatMap] at h
  obtain ⟨s, hs, h⟩ := h
  rw [List.mem_map] at h
  obtain ⟨tv, htv, rfl⟩ := h
  exact ⟨s, hs, mult, tv, htv, rfl⟩

/-- invariant of the search loop. -/
theorem searchLoop_inv {L : Mat3 K} {tols : Vec3 K} {posTol : K} {invT : Mat3 K} {ratio : K}
    {total : ℕ} {old : List (Vec3 K × String)} {fuel mult : ℕ} {F F' : List (Vec3 K × String)}
    (h : Structure.searchLoop L tols posTol invT ratio total old fuel mult F = .ret F')
    (h1 : ∀ p ∈ F, IsCand invT old p) (h2 : Distinct (coinc L tols posTol) F) :
    (∀ p ∈ F', IsCand invT old p) ∧ Distinct (coinc L tols posTol) F' ∧
      Structure.quotLt F'.length total ratio = false := by
  induction fuel generalizing mult F with
  | zero => simp [Structure.searchLoop] at h
  | succ fuel ih =>
    rw [Structure.searchLoop] at h
    split at h
    · rw [searchPass_eq] at h
      refine ih h ?_ (greedy_distinct _ h2)
      intro p hp
      rcases mem_greedy hp with hp | hp
      · exact h1 p hp
      · exact isCand_of_mem_passCands hp
    · rename_i hq
      simp only [Outcome.ret.injEq] at h
      subst h
      exact ⟨h1, h2, by simpa using hq⟩

/-- shape of a terminating call. -/
theorem applyTransformation_ret {fuel : ℕ} {s s' : Structure K} {t : Mat3 K} {posTol : K}
    (h : s.applyTransformation fuel t posTol = .ret s') :
    ∃ invT F, t.tryInverse = some invT ∧
      Structure.searchLoop s.lattice (Structure.fracTols s.lattice posTol) posTol invT
        (Structure.volumeRatio t) s.coords.length (s.fracCoords.zip s.species) fuel 2 [] = .ret F ∧
      s' = Structure.normalizeCoords ⟨s.lattice * t, F.map Prod.snd,
        Structure.getCartCoords (s.lattice * t) (F.map Prod.fst), F.map Prod.fst⟩ posTol := by
  unfold Structure.applyTransformation at h
  simp only at h
  split at h
  · exact absurd h (by simp)
  · rename_i invT hi
    rw [Outcome.bind_eq_ret] at h
    obtain ⟨F, hF, h⟩ := h
    rw [Outcome.ret.injEq] at h
    exact ⟨invT, F, hi, hF, h.symm⟩

theorem zip_swap_map (F : List (Vec3 K × String)) :
    (F.map Prod.snd).zip (F.map Prod.fst) = F.map Prod.swap := by
  induction F with
  | nil => rfl
  | cons p F ih => simp [ih, Prod.swap]

end AnyK

section
variable {K : Type} [Field K] [LinearOrder K] [IsStrictOrderedRing K] [FloorRing K] [FTrans K]

omit [FTrans K] in
theorem mem_translationVecs {mult : ℕ} {tv : Vec3 K} :
    tv ∈ (Structure.translationVecs mult : List (Vec3 K)) ↔
      ∃ i j k : ℕ, i < mult ∧ j < mult ∧ k < mult ∧ tv = ⟨(i : K), (j : K), (k : K)⟩ := by
  unfold Structure.translationVecs
  simp only [List.mem_flatMap, List.mem_range, List.mem_map, lit, Int.cast_natCast]
  constructor
  · rintro ⟨i, hi, j, hj, k, hk, rfl⟩
    exact ⟨i, j, k, hi, hj, hk, rfl⟩
  · rintro ⟨i, j, k, hi, hj, hk, rfl⟩
    exact ⟨i, hi, j, hj, k, hk, rfl⟩

theorem IsCand.exists_int {invT : Mat3 K} {old : List (Vec3 K × String)} {p : Vec3 K × String}
    (h : IsCand invT old p) : ∃ s ∈ old, ∃ m : Vec3 K, IntVec m ∧ p = (invT * (s.1 + m), s.2) := by
  obtain ⟨s, hs, mult, tv, htv, rfl⟩ := h
  obtain ⟨i, j, k, -, -, -, rfl⟩ := mem_translationVecs.1 htv
  refine ⟨s, hs, _, ⟨mult * i, mult * j, mult * k, ?_⟩, rfl⟩
  simp [Vec3.scale, lit]

/-- an integer component normalises to zero. -/
theorem normComp_intCast {tol : K} (h0 : 0 ≤ tol) (h1 : tol ≤ 1) (n : ℤ) : normComp tol (n : K) = 0 := by
  have e : (FRound.fmod1 (n : K) : K) = 0 := by
    rw [fmod1_eq, truncZ]
    split <;> simp
  unfold normComp
  simp only [e]
  rw [if_neg (by linarith), if_neg (by linarith)]

theorem normFracVec_intVec {tols : Vec3 K} (hx : 0 ≤ tols.x ∧ tols.x ≤ 1) (hy : 0 ≤ tols.y ∧ tols.y ≤ 1)
    (hz : 0 ≤ tols.z ∧ tols.z ≤ 1) {v : Vec3 K} (h : IntVec v) : normFracVec tols v = 0 := by
  obtain ⟨i, j, k, rfl⟩ := h
  ext <;> simp only [normFracVec, Vec3.zero_x, Vec3.zero_y, Vec3.zero_z]
  exacts [normComp_intCast hx.1 hx.2 i, normComp_intCast hy.1 hy.2 j, normComp_intCast hz.1 hz.2 k]

theorem intVec_sub_iff_samePoint {u v : Vec3 K} : IntVec (u - v) ↔ SamePoint u v := by
  constructor
  · rintro ⟨i, j, k, h⟩
    have := Vec3.ext_iff.1 h
    exact ⟨⟨i, this.1⟩, ⟨j, this.2.1⟩, ⟨k, this.2.2⟩⟩
  · rintro ⟨⟨i, hi⟩, ⟨j, hj⟩, ⟨k, hk⟩⟩
    exact ⟨i, j, k, by ext <;> assumption⟩

theorem abs_volumeRatio_sub_le (t : Mat3 K) : |Structure.volumeRatio t - (|t.det|)| ≤ 1 / 200 := by
  have e : Structure.volumeRatio t = ((roundZ (|t.det| * 100) : ℤ) : K) / 100 := by
    unfold Structure.volumeRatio
    show ((roundZ (|t.det| * ((100 : ℤ) : K)) : ℤ) : K) / ((100 : ℤ) : K) = _
    push_cast; rfl
  have h0 : 0 ≤ |t.det| * 100 := by positivity
  have r1 : ((roundZ (|t.det| * 100) : ℤ) : K) ≤ |t.det| * 100 + 1 / 2 := by
    rw [roundZ, if_pos h0]; exact Int.floor_le _
  have r2 : |t.det| * 100 + 1 / 2 < ((roundZ (|t.det| * 100) : ℤ) : K) + 1 := by
    rw [roundZ, if_pos h0]; exact Int.lt_floor_add_one _
  rw [e, abs_le]
  constructor
  · rw [le_sub_iff_add_le, le_div_iff₀ (by norm_num)]; linarith
  · rw [sub_le_iff_le_add, div_le_iff₀ (by norm_num)]; linarith

end

end CrystSymm
