import Verif.Proofs.ChangeBasis
import Verif.Props.PointGroup
import Verif.Proofs.Centring
import Mathlib.Tactic.FieldSimp
import Mathlib.Tactic.NormNum.Inv
import Mathlib.Tactic.NormNum.DivMod

/-! # C35, C36, C48: changes of basis of point groups, centrings, enums -/

set_option autoImplicit false
set_option linter.unusedSectionVars false

namespace CrystSymm

open Spec PointGroup SymmetryAnalyzer

/-! ## C36 -/

section
variable {K : Type} [Field K] [LinearOrder K] [IsStrictOrderedRing K] [FloorRing K]

/-- in the basis `t` every operation and generator is an integer matrix that fits `i8`. -/
def IntegralIn (t : Mat3 K) (pg : PointGroup) : Prop :=
  ∀ r, r ∈ pg.operations ∨ r ∈ pg.generators → ∃ s, InBasis t (intRot r) s ∧ FitsI8 s

theorem pgTransformation_ret {pg pg' : PointGroup} {t : Mat3 K} (h : pg.applyTransformation t = .ret pg') :
    ∃ inv, t * inv = 1 ∧ pg' = { pg with
      operations := pg.operations.map (conjRot inv t), generators := pg.generators.map (conjRot inv t) } := by
  unfold applyTransformation at h
  split at h
  · exact absurd h (by simp)
  · rename_i inv hi
    rw [Mat3.tryInverse_eq_some_iff] at hi
    exact ⟨inv, hi, by simpa using h.symm⟩

theorem conjRot_inBasis {inv t : Mat3 K} (hi : t * inv = 1) {r : Mat3 Int8}
    (h : ∃ s, InBasis t (intRot r) s ∧ FitsI8 s) : InBasis t (intRot r) (intRot (conjRot inv t r)) := by
  obtain ⟨s, hs, hf⟩ := h
  rw [intRot_conjRot hi hs hf]
  exact hs

/-- **C36.** Operations and generators are replaced, one by one and in place, by the same operations in the
basis `t`; the symbol is kept. -/
theorem C36_change_of_basis (pg pg' : PointGroup) (t : Mat3 K) (hint : IntegralIn t pg)
    (h : pg.applyTransformation t = .ret pg') :
    List.Forall₂ (fun r r' => InBasis t (intRot r) (intRot r')) pg.operations pg'.operations ∧
    List.Forall₂ (fun r r' => InBasis t (intRot r) (intRot r')) pg.generators pg'.generators ∧
    pg'.symbol = pg.symbol := by
  obtain ⟨inv, hi, rfl⟩ := pgTransformation_ret h
  refine ⟨?_, ?_, rfl⟩
  · rw [List.forall₂_map_right_iff, List.forall₂_same]
    exact fun r hr => conjRot_inBasis hi (hint r (.inl hr))
  · rw [List.forall₂_map_right_iff, List.forall₂_same]
    exact fun r hr => conjRot_inBasis hi (hint r (.inr hr))

/-- **C36 (what is preserved).** Determinant and trace of every operation, all products between operations,
the number of distinct operations, and being a group. -/
theorem C36_structure_preserved (pg pg' : PointGroup) (t : Mat3 K) (hint : IntegralIn t pg)
    (h : pg.applyTransformation t = .ret pg') :
    (pg'.operations.map intRot).map opType = (pg.operations.map intRot).map opType ∧
    (∃ hl : pg'.operations.length = pg.operations.length, ∀ (i j k : Fin pg.operations.length),
      intRot (pg.operations.get i) * intRot (pg.operations.get j) = intRot (pg.operations.get k) ↔
      intRot (pg'.operations.get (i.cast hl.symm)) * intRot (pg'.operations.get (j.cast hl.symm))
        = intRot (pg'.operations.get (k.cast hl.symm))) ∧
    (pg'.operations.Nodup ↔ pg.operations.Nodup) ∧
    ∀ order, IsMatrixGroup (pg.operations.map intRot) order →
      IsMatrixGroup (pg'.operations.map intRot) order := by
  obtain ⟨inv, hi, rfl⟩ := pgTransformation_ret h
  have hb : ∀ r ∈ pg.operations, InBasis t (intRot r) (intRot (conjRot inv t r)) :=
    fun r hr => conjRot_inBasis hi (hint r (.inl hr))
  refine ⟨?_, ⟨by simp, ?_⟩, ?_, ?_⟩
  · simp only [List.map_map]
    exact List.map_congr_left fun r hr => inBasis_opType hi (hb r hr)
  · intro i j k
    have hm : ∀ i : Fin pg.operations.length, InBasis t (intRot (pg.operations.get i))
        (intRot (conjRot inv t (pg.operations.get i))) := fun i => hb _ (List.get_mem _ _)
    have hij := inBasis_mul (hm i) (hm j)
    simp only [List.get_eq_getElem, Fin.val_cast, List.getElem_map]
    constructor
    · intro e
      simp only [List.get_eq_getElem] at hij
      rw [e] at hij
      exact inBasis_unique hi hij (hm k)
    · intro e
      simp only [List.get_eq_getElem] at hij
      rw [e] at hij
      exact inBasis_unique' hi hij (hm k)
  · refine ⟨List.Nodup.of_map _, List.Nodup.map_on ?_⟩
    intro a ha b hb' e
    have h1 := hb a ha
    rw [e] at h1
    exact intRot_injective (inBasis_unique' hi h1 (hb b hb'))
  · intro order hg
    have hmem : ∀ s, s ∈ (pg.operations.map (conjRot inv t)).map intRot ↔
        ∃ r ∈ pg.operations.map intRot, InBasis t r s := by
      intro s
      simp only [List.mem_map, exists_exists_and_eq_and]
      constructor
      · rintro ⟨r, hr, rfl⟩; exact ⟨r, hr, hb r hr⟩
      · rintro ⟨r, hr, hs⟩; exact ⟨r, hr, inBasis_unique hi (hb r hr) hs⟩
    refine ⟨?_, ?_, ?_, ?_, ?_⟩
    · have := hg.nodup
      rw [List.map_map]
      refine List.Nodup.map_on ?_ (List.Nodup.of_map _ this)
      intro a ha b hb' e
      have h1 := hb a ha
      simp only [Function.comp_apply] at e
      rw [e] at h1
      exact intRot_injective (inBasis_unique' hi h1 (hb b hb'))
    · simpa using hg.order
    · exact (hmem 1).2 ⟨1, hg.one, inBasis_one⟩
    · intro a ha b hb'
      obtain ⟨r, hr, ha⟩ := (hmem a).1 ha
      obtain ⟨s, hs, hb'⟩ := (hmem b).1 hb'
      exact (hmem _).2 ⟨_, hg.mul r hr s hs, inBasis_mul ha hb'⟩
    · intro a ha
      obtain ⟨r, hr, ha⟩ := (hmem a).1 ha
      obtain ⟨s, hs, h1, h2⟩ := hg.inv r hr
      have hs' := hs
      rw [List.mem_map] at hs'
      obtain ⟨s8, hs8, rfl⟩ := hs'
      refine ⟨intRot (conjRot inv t s8), (hmem _).2 ⟨_, hs, hb s8 hs8⟩, ?_, ?_⟩
      · have := inBasis_mul ha (hb s8 hs8)
        rw [h1] at this
        exact inBasis_unique hi this inBasis_one
      · have := inBasis_mul (hb s8 hs8) ha
        rw [h2] at this
        exact inBasis_unique hi this inBasis_one

/-- **C36 (panics).** Exactly the singular transformations panic; all others return. -/
theorem C36_panics_iff_singular (pg : PointGroup) (t : Mat3 K) :
    (t.det = 0 ∧ pg.applyTransformation t = .panic "Transformation matrix is not invertible!") ∨
    (t.det ≠ 0 ∧ ∃ pg', pg.applyTransformation t = .ret pg') := by
  unfold applyTransformation
  cases hi : t.tryInverse with
  | none => exact .inl ⟨Mat3.tryInverse_eq_none_iff.1 hi, rfl⟩
  | some inv =>
    refine .inr ⟨?_, _, rfl⟩
    intro h0
    rw [Mat3.tryInverse_eq_none_iff.2 h0] at hi
    exact absurd hi (by simp)

/-- **C36 (round trip).** Transforming with `t` and then with its inverse restores the group. -/
theorem C36_round_trip (pg pg' : PointGroup) (t inv : Mat3 K) (hi : t * inv = 1) (hint : IntegralIn t pg)
    (h : pg.applyTransformation t = .ret pg') : pg'.applyTransformation inv = .ret pg := by
  obtain ⟨inv', hi', rfl⟩ := pgTransformation_ret h
  have e : inv' = inv := by
    have := (Mat3.eq_adjDiv_of_mul_eq_one hi').2
    rw [(Mat3.eq_adjDiv_of_mul_eq_one hi).2, this]
  subst e
  have hback : ∀ r, r ∈ pg.operations ∨ r ∈ pg.generators → conjRot t inv' (conjRot inv' t r) = r := by
    intro r hr
    apply intRot_injective
    refine intRot_conjRot (Mat3.mul_eq_one_comm' hi) (inBasis_symm hi (conjRot_inBasis hi (hint r hr))) ?_
    intro e he
    simp only [Mat3.toListCM, intRot, castRot, Mat3.map, Int.cast_id, List.mem_cons, List.not_mem_nil,
      or_false] at he
    have key : ∀ x : Int8, -128 ≤ x.toInt ∧ x.toInt ≤ 127 := fun x =>
      ⟨x.minValue_le_toInt, x.toInt_le⟩
    rcases he with rfl | rfl | rfl | rfl | rfl | rfl | rfl | rfl | rfl <;> exact key _
  unfold applyTransformation
  rw [(Mat3.tryInverse_eq_some_iff (m := inv') (i := t)).2 (Mat3.mul_eq_one_comm' hi)]
  simp only [List.map_map]
  have h1 : pg.operations.map (conjRot t inv' ∘ conjRot inv' t) = pg.operations := by
    conv_rhs => rw [← List.map_id pg.operations]
    exact List.map_congr_left fun r hr => hback r (.inl hr)
  have h2 : pg.generators.map (conjRot t inv' ∘ conjRot inv' t) = pg.generators := by
    conv_rhs => rw [← List.map_id pg.generators]
    exact List.map_congr_left fun r hr => hback r (.inr hr)
  rw [h1, h2]

end

/-- a case: a four-fold axis seen from the basis `a + b, b - a, c`, and a case outside the hypothesis, where
rounding turns a four-fold rotation into something else. -/
example : applyTransformation ⟨"x", [⟨0, -1, 0, 1, 0, 0, 0, 0, 1⟩], []⟩ (⟨1, -1, 0, 1, 1, 0, 0, 0, 1⟩ : Mat3 ℚ)
    = .ret ⟨"x", [⟨0, -1, 0, 1, 0, 0, 0, 0, 1⟩], []⟩ ∧
    applyTransformation ⟨"x", [⟨0, -1, 0, 1, 0, 0, 0, 0, 1⟩], []⟩ (⟨2, 0, 0, 0, 1, 0, 0, 0, 1⟩ : Mat3 ℚ)
    = .ret ⟨"x", [⟨0, -1, 0, 2, 0, 0, 0, 0, 1⟩], []⟩ ∧
    applyTransformation ⟨"x", [⟨0, -1, 0, 1, 0, 0, 0, 0, 1⟩], []⟩ (⟨1, 1, 0, 0, 1, 0, 0, 0, 1⟩ : Mat3 ℚ)
    = .ret ⟨"x", [⟨-1, -2, 0, 1, 1, 0, 0, 0, 1⟩], []⟩ := by decide +kernel

/-! ## C35 -/

/-- the operation `r` in the basis `m / d`, by exact integer division (checked below). -/
def primCode (m : Mat3 ℤ) (c : ℕ) : ℕ := encZ ((m.adj * decZ c * m).map fun e => e / m.det)

/-- integer metrics whose combinations are the metrics of a shape. -/
def shapeBasis : BravaisType → List (Mat3 ℤ)
  | .aP => [metric 1 0 0 0 0 0, metric 0 1 0 0 0 0, metric 0 0 1 0 0 0, metric 0 0 0 1 0 0,
      metric 0 0 0 0 1 0, metric 0 0 0 0 0 1]
  | .mP | .mC | .mI => [metric 1 0 0 0 0 0, metric 0 1 0 0 0 0, metric 0 0 1 0 0 0, metric 0 0 0 0 1 0]
  | .oP | .oC | .oI | .oF => [metric 1 0 0 0 0 0, metric 0 1 0 0 0 0, metric 0 0 1 0 0 0]
  | .tP | .tI => [metric 1 1 0 0 0 0, metric 0 0 1 0 0 0]
  | .hR | .hP => [metric 2 2 0 0 0 (-1), metric 0 0 1 0 0 0]
  | .cP | .cI | .cF => [metric 1 1 1 0 0 0]

/-- everything the kernel checks about the holohedries. -/
def holoOk (p : BravaisType × Centering × String) : Bool :=
  match amapGet? bravaisToHolohedryNum p.1, amapGet? centeringToPrimTrans p.2.1 with
  | some num, some m =>
    decide (p.1.centering? = some p.2.1) && decide (amapGet? pgNumToSymbol num = some p.2.2) &&
    decide (m.1.det ≠ 0) && decide (m.2 ≠ 0) && decide (1 ≤ num) && decide (num ≤ 32) &&
    (match pgCodes.find? fun q => q.1 = num with
      | some q => q.2.2.all fun c => decide (decZ c * m.1 = m.1 * decZ (primCode m.1 c)) &&
          (shapeBasis p.1).all fun g => decide ((decZ c).transpose * g * decZ c = g)
      | none => false)
  | _, _ => false

set_option maxRecDepth 100000 in
theorem holoOk_all : bravaisTable.all holoOk = true := by decide +kernel

theorem pgCodes_unique : ∀ p ∈ pgCodes, (pgCodes.find? fun q => q.1 = p.1) = some p := by decide +kernel

theorem bravais_mem (b : BravaisType) : ∃ c sym, (b, c, sym) ∈ bravaisTable := by
  cases b <;> simp [bravaisTable]

theorem holo_spec {b : BravaisType} {c : Centering} {sym : String} (h : (b, c, sym) ∈ bravaisTable) :
    ∃ num m gens ops, amapGet? bravaisToHolohedryNum b = some num ∧
      amapGet? centeringToPrimTrans c = some m ∧ b.centering? = some c ∧
      amapGet? pgNumToSymbol num = some sym ∧ m.1.det ≠ 0 ∧ m.2 ≠ 0 ∧ 1 ≤ num ∧ num ≤ 32 ∧
      (num, gens, ops) ∈ pgCodes ∧
      ∀ x ∈ ops, decZ x * m.1 = m.1 * decZ (primCode m.1 x) ∧
        ∀ g ∈ shapeBasis b, (decZ x).transpose * g * decZ x = g := by
  have hk := List.all_eq_true.1 holoOk_all _ h
  unfold holoOk at hk
  split at hk
  · rename_i num m hn hm
    simp only [Bool.and_eq_true, decide_eq_true_eq] at hk
    obtain ⟨⟨⟨⟨⟨⟨h1, h2⟩, h3⟩, h4⟩, h5⟩, h6⟩, h7⟩ := hk
    split at h7
    · rename_i q hq
      simp only [List.all_eq_true, Bool.and_eq_true, decide_eq_true_eq] at h7
      have hq1 : q.1 = num := by simpa using List.find?_some hq
      refine ⟨num, m, q.2.1, q.2.2, hn, hm, h1, h2, h3, h4, h5, h6, ?_, h7⟩
      rw [← hq1]
      exact List.mem_of_find?_eq_some hq
    · exact absurd h7 (by simp)
  · exact absurd hk (by simp)

section
variable {K : Type} [Field K] [LinearOrder K] [IsStrictOrderedRing K] [FloorRing K]

theorem primMatrix_eq (m : Mat3 ℤ × ℤ) : (primMatrix m : Mat3 K) = (overK K m.1).divS (m.2 : K) := by
  simp [primMatrix, overK, Mat3.map, lit]

theorem inBasis_primMatrix {m : Mat3 ℤ × ℤ} {r s : Mat3 ℤ} (h : r * m.1 = m.1 * s) :
    InBasis (primMatrix m : Mat3 K) r s := by
  have e := congrArg (overK K) h
  rw [overK_mul, overK_mul] at e
  unfold InBasis
  rw [primMatrix_eq]
  have l : ∀ a b : Mat3 K, ∀ d : K, a * b.divS d = (a * b).divS d := by
    intro a b d; ext <;> simp [Mat3.divS, Mat3.map] <;> ring
  have l' : ∀ a b : Mat3 K, ∀ d : K, a.divS d * b = (a * b).divS d := by
    intro a b d; ext <;> simp [Mat3.divS, Mat3.map] <;> ring
  rw [l, l', e]

theorem isometry_comb {r : Mat3 ℤ} (x y : K) {A B C D E F A' B' C' D' E' F' : K}
    (h : IsometryOf r (metric A B C D E F)) (h' : IsometryOf r (metric A' B' C' D' E' F')) :
    IsometryOf r (metric (x * A + y * A') (x * B + y * B') (x * C + y * C') (x * D + y * D')
      (x * E + y * E') (x * F + y * F')) := by
  unfold IsometryOf metric at *
  rw [Mat3.ext_iff] at h h'
  simp only [Mat3.mul_m11, Mat3.mul_m12, Mat3.mul_m13, Mat3.mul_m21, Mat3.mul_m22, Mat3.mul_m23,
    Mat3.mul_m31, Mat3.mul_m32, Mat3.mul_m33] at h h'
  obtain ⟨a1, a2, a3, a4, a5, a6, a7, a8, a9⟩ := h
  obtain ⟨b1, b2, b3, b4, b5, b6, b7, b8, b9⟩ := h'
  ext <;> simp only [Mat3.mul_m11, Mat3.mul_m12, Mat3.mul_m13, Mat3.mul_m21, Mat3.mul_m22, Mat3.mul_m23,
    Mat3.mul_m31, Mat3.mul_m32, Mat3.mul_m33]
  · linear_combination x * a1 + y * b1
  · linear_combination x * a2 + y * b2
  · linear_combination x * a3 + y * b3
  · linear_combination x * a4 + y * b4
  · linear_combination x * a5 + y * b5
  · linear_combination x * a6 + y * b6
  · linear_combination x * a7 + y * b7
  · linear_combination x * a8 + y * b8
  · linear_combination x * a9 + y * b9

/-- an isometry of the basis metrics of a shape is an isometry of all metrics of that shape. -/
theorem isometry_of_basis {b : BravaisType} {r : Mat3 ℤ}
    (h : ∀ g ∈ shapeBasis b, r.transpose * g * r = g) {A B C D E F : K} (hs : ShapeOf b A B C D E F) :
    IsometryOf r (metric A B C D E F) := by
  have h' : ∀ A B C D E F : ℤ, metric A B C D E F ∈ shapeBasis b →
      IsometryOf r (metric (A : K) B C D E F) := by
    intro A B C D E F hg
    have e := congrArg (overK K) (h _ hg)
    rw [overK_mul, overK_mul] at e
    exact e
  have tri : b = .aP → IsometryOf r (metric A B C D E F) := by
    rintro rfl
    have c1 := isometry_comb A B (h' 1 0 0 0 0 0 (by simp [shapeBasis])) (h' 0 1 0 0 0 0 (by simp [shapeBasis]))
    have c2 := isometry_comb C D (h' 0 0 1 0 0 0 (by simp [shapeBasis])) (h' 0 0 0 1 0 0 (by simp [shapeBasis]))
    have c3 := isometry_comb E F (h' 0 0 0 0 1 0 (by simp [shapeBasis])) (h' 0 0 0 0 0 1 (by simp [shapeBasis]))
    simpa using isometry_comb 1 1 (isometry_comb 1 1 c1 c2) c3
  have mon : shapeBasis b = shapeBasis .mP → D = 0 ∧ F = 0 → IsometryOf r (metric A B C D E F) := by
    rintro hb ⟨rfl, rfl⟩
    rw [hb] at h'
    have c1 := isometry_comb A B (h' 1 0 0 0 0 0 (by simp [shapeBasis])) (h' 0 1 0 0 0 0 (by simp [shapeBasis]))
    have c2 := isometry_comb C E (h' 0 0 1 0 0 0 (by simp [shapeBasis])) (h' 0 0 0 0 1 0 (by simp [shapeBasis]))
    simpa using isometry_comb 1 1 c1 c2
  have ort : shapeBasis b = shapeBasis .oP → D = 0 ∧ E = 0 ∧ F = 0 → IsometryOf r (metric A B C D E F) := by
    rintro hb ⟨rfl, rfl, rfl⟩
    rw [hb] at h'
    have c1 := isometry_comb A B (h' 1 0 0 0 0 0 (by simp [shapeBasis])) (h' 0 1 0 0 0 0 (by simp [shapeBasis]))
    simpa using isometry_comb 1 C c1 (h' 0 0 1 0 0 0 (by simp [shapeBasis]))
  have tet : shapeBasis b = shapeBasis .tP → A = B ∧ D = 0 ∧ E = 0 ∧ F = 0 →
      IsometryOf r (metric A B C D E F) := by
    rintro hb ⟨rfl, rfl, rfl, rfl⟩
    rw [hb] at h'
    simpa using isometry_comb A C (h' 1 1 0 0 0 0 (by simp [shapeBasis])) (h' 0 0 1 0 0 0 (by simp [shapeBasis]))
  have hex : shapeBasis b = shapeBasis .hP → A = B ∧ D = 0 ∧ E = 0 ∧ 2 * F = -A →
      IsometryOf r (metric A B C D E F) := by
    rintro hb ⟨rfl, rfl, rfl, hF⟩
    rw [hb] at h'
    have c1 := isometry_comb (A / 2) C (h' 2 2 0 0 0 (-1) (by simp [shapeBasis]))
      (h' 0 0 1 0 0 0 (by simp [shapeBasis]))
    have eF : F = -(A / 2) := by linarith
    subst eF
    have eA : A / 2 * 2 = A := by ring
    simpa [eA] using c1
  have cub : shapeBasis b = shapeBasis .cP → A = B ∧ B = C ∧ D = 0 ∧ E = 0 ∧ F = 0 →
      IsometryOf r (metric A B C D E F) := by
    rintro hb ⟨rfl, rfl, rfl, rfl, rfl⟩
    rw [hb] at h'
    have c0 := h' 1 1 1 0 0 0 (by simp [shapeBasis])
    simpa using isometry_comb A 0 c0 c0
  cases b
  exacts [tri rfl, mon rfl hs, mon rfl hs, mon rfl hs, ort rfl hs, ort rfl hs, ort rfl hs, ort rfl hs,
    tet rfl hs, tet rfl hs, hex rfl hs, hex rfl hs, cub rfl hs, cub rfl hs, cub rfl hs]

theorem fitsI8_of_small {m : Mat3 ℤ} (h : SmallEntries m) : FitsI8 m := fun e he => by
  have := h e he
  omega

theorem small_decZ (c : ℕ) : SmallEntries (decZ c) := by
  intro e he
  simp only [Mat3.toListCM, decZ, List.mem_cons, List.not_mem_nil, or_false] at he
  rcases he with rfl | rfl | rfl | rfl | rfl | rfl | rfl | rfl | rfl <;> exact digZ_mem _ _

/-- **C35.** For every Bravais type `b` and every hash order, the point group handed to the search for
symmetry operations is, operation by operation and without any rounding, the holohedry `conv` of `b` (the point
group of the specified symbol, all of whose operations are isometries of every conventional cell of the shape
of `b`) expressed in a basis `p` of the centred lattice; it is a group of the same order and type with entries
`-1, 0, 1`. -/
theorem C35_primitive_holohedry (h : HashOrders K) (hv : h.Valid) (fuel : ℕ) (b : BravaisType)
    (pg : PointGroup) (hr : primitiveHolohedry h fuel b = .ret pg) :
    ∃ (c : Centering) (sym : String) (p : Mat3 K) (conv : List (Mat3 ℤ)) (order : ℕ) (types : List ℕ),
      (b, c, sym) ∈ bravaisTable ∧ PrimitiveBasisOf c p ∧ pg.symbol = sym ∧
      (sym, order, types) ∈ pointGroupTable ∧
      IsMatrixGroup conv order ∧ typeCounts conv = types ∧
      (∀ r ∈ conv, ∀ A B C D E F : K, ShapeOf b A B C D E F → IsometryOf r (metric A B C D E F)) ∧
      List.Forall₂ (InBasis p) conv (pg.operations.map intRot) ∧
      IsMatrixGroup (pg.operations.map intRot) order ∧ typeCounts (pg.operations.map intRot) = types ∧
      ∀ s ∈ pg.operations.map intRot, SmallEntries s := by
  obtain ⟨c, sym, hb⟩ := bravais_mem b
  obtain ⟨num, m, gens, ops, e1, e2, e3, e4, -, -, h1, h2, hmem, hops⟩ := holo_spec hb
  unfold primitiveHolohedry at hr
  rw [e1] at hr
  simp only [Outcome.ofOption, Outcome.ret_bind] at hr
  obtain ⟨pg0, hpg0, hr⟩ := Outcome.bind_eq_ret.1 hr
  rw [e3] at hr
  simp only [Outcome.ret_bind] at hr
  rw [e2] at hr
  simp only [Outcome.ret_bind] at hr
  obtain ⟨order, types, ht, hg, hty, -, hgen⟩ := C33_point_group num h1 h2 _ hv.pointOps _ _ hpg0
  obtain ⟨gens', ops', hmem', hsym', -, hperm⟩ := fromNumber_perm h1 h2 _ hv.pointOps _ hpg0
  have hsame : ops' = ops := by
    have u1 := pgCodes_unique _ hmem
    have u2 := pgCodes_unique _ hmem'
    simp only at u1 u2
    rw [u1] at u2
    simp only [Option.some.injEq, Prod.mk.injEq] at u2
    exact u2.2.2.symm
  subst hsame
  have hz : ∀ r ∈ pg0.operations, ∃ x ∈ ops', intRot r = decZ x := by
    intro r hr
    obtain ⟨x, hx, rfl⟩ := List.mem_map.1 (hperm.mem_iff.1 hr)
    exact ⟨x, hx, intRot_dec8 x⟩
  have hint : IntegralIn (primMatrix m : Mat3 K) pg0 := by
    intro r hr
    obtain ⟨x, hx, e⟩ := hz r (hr.elim id (hgen r))
    rw [e]
    exact ⟨_, inBasis_primMatrix (hops x hx).1, fitsI8_of_small (small_decZ _)⟩
  obtain ⟨f2, -, es⟩ := C36_change_of_basis pg0 pg _ hint hr
  obtain ⟨ty, -, -, gr⟩ := C36_structure_preserved pg0 pg _ hint hr
  have hsym : pg0.symbol = sym := by rw [e4] at hsym'; exact (Option.some.inj hsym').symm
  refine ⟨c, sym, primMatrix m, pg0.operations.map intRot, order, types, hb, primBasis e2, es.trans hsym,
    hsym ▸ ht, hg, hty, ?_, ?_, gr order hg, ?_, ?_⟩
  · intro r hr A B C D E F hsh
    obtain ⟨r8, hr8, rfl⟩ := List.mem_map.1 hr
    obtain ⟨x, hx, e⟩ := hz r8 hr8
    rw [e]
    exact isometry_of_basis (hops x hx).2 hsh
  · rw [List.forall₂_map_left_iff, List.forall₂_map_right_iff]
    exact f2
  · unfold typeCounts at hty ⊢
    rw [ty]
    exact hty
  · obtain ⟨inv, hi, rfl⟩ := pgTransformation_ret hr
    intro s hs
    simp only [List.mem_map, exists_exists_and_eq_and] at hs
    obtain ⟨r, hr, rfl⟩ := hs
    obtain ⟨x, hx, e⟩ := hz r hr
    rw [intRot_conjRot hi (e ▸ inBasis_primMatrix (hops x hx).1) (fitsI8_of_small (small_decZ _))]
    exact small_decZ _

/-- **C35 (always available).** For every Bravais type that computation returns. -/
theorem C35_primitive_holohedry_returns : ∃ N, ∀ fuel ≥ N, ∀ (h : HashOrders K), h.Valid → ∀ b,
    ∃ pg, primitiveHolohedry h fuel b = .ret pg := by
  obtain ⟨N, hN⟩ := C33_from_number_returns
  refine ⟨N, fun fuel hf h hv b => ?_⟩
  obtain ⟨c, sym, hb⟩ := bravais_mem b
  obtain ⟨num, m, gens, ops, e1, e2, e3, e4, hd, hm2, h1, h2, -⟩ := holo_spec hb
  obtain ⟨pg, hpg⟩ := hN num h1 h2 fuel hf h.pointOps hv.pointOps
  unfold primitiveHolohedry
  rw [e1]
  simp only [Outcome.ofOption, Outcome.ret_bind]
  rw [hpg]
  simp only [Outcome.ret_bind]
  rw [e3]
  simp only [Outcome.ret_bind]
  rw [e2]
  simp only [Outcome.ret_bind]
  rcases C36_panics_iff_singular pg (primMatrix m : Mat3 K) with ⟨h0, -⟩ | ⟨-, h0⟩
  · exfalso
    have e : (primMatrix m : Mat3 K).det = (m.1.det : K) / (m.2 : K) ^ 3 := by
      rw [← det_overK, primMatrix_eq]
      have : (m.2 : K) ≠ 0 := by exact_mod_cast hm2
      simp only [Mat3.det, Mat3.divS, Mat3.map]
      field_simp
    rw [e, div_eq_zero_iff] at h0
    rcases h0 with h0 | h0
    · exact hd (by exact_mod_cast h0)
    · exact hm2 (by exact_mod_cast (pow_eq_zero_iff (by norm_num)).1 h0)
  · exact h0

end

/-- a case: the triclinic holohedry. -/
example : primitiveHolohedry (K := ℚ) ⟨id, fun _ => id, id, id, fun _ => id, id⟩ 4 .aP
    = .ret ⟨"-1", [⟨1, 0, 0, 0, 1, 0, 0, 0, 1⟩, ⟨-1, 0, 0, 0, -1, 0, 0, 0, -1⟩],
      [⟨1, 0, 0, 0, 1, 0, 0, 0, 1⟩, ⟨-1, 0, 0, 0, -1, 0, 0, 0, -1⟩]⟩ := by decide +kernel

/-! ## C48 -/

/-- the name of a centring. -/
def centringName : Centering → String
  | .P => "P" | .A => "A" | .B => "B" | .C => "C" | .I => "I" | .F => "F" | .R => "R"

/-- the name and the letter of a lattice system. -/
def systemNames : LatticeSystem → String × String
  | .Triclinic => ("Triclinic", "a") | .Monoclinic => ("Monoclinic", "m")
  | .Orthorhombic => ("Orthorhombic", "o") | .Tetragonal => ("Tetragonal", "t")
  | .Rhombohedral => ("Rhombohedral", "r") | .Hexagonal => ("Hexagonal", "h") | .Cubic => ("Cubic", "c")

/-- **C48.** Parsing the printed form of a centring gives the centring back, the printed form is its name, and
no other string parses. -/
theorem C48_centering_round_trip (s : String) (x : Centering) :
    Centering.fromStr s = some x ↔ s = centringName x := by
  constructor
  · intro h
    unfold Centering.fromStr at h
    repeat' split at h
    all_goals cases h
    all_goals assumption
  · rintro rfl
    cases x <;> rfl

theorem C48_centering_display (x : Centering) : x.display = centringName x := by cases x <;> rfl

/-- **C48.** A string parses to a lattice system exactly if it is its name or its letter. -/
theorem C48_lattice_system_round_trip (s : String) (x : LatticeSystem) :
    LatticeSystem.fromStr s = some x ↔ s = (systemNames x).1 ∨ s = (systemNames x).2 := by
  constructor
  · intro h
    unfold LatticeSystem.fromStr at h
    by_cases h1 : s = "Triclinic"
    · rw [if_pos h1] at h; cases h; left; exact h1
    rw [if_neg h1] at h
    by_cases h1 : s = "Monoclinic"
    · rw [if_pos h1] at h; cases h; left; exact h1
    rw [if_neg h1] at h
    by_cases h1 : s = "Orthorhombic"
    · rw [if_pos h1] at h; cases h; left; exact h1
    rw [if_neg h1] at h
    by_cases h1 : s = "Tetragonal"
    · rw [if_pos h1] at h; cases h; left; exact h1
    rw [if_neg h1] at h
    by_cases h1 : s = "Rhombohedral"
    · rw [if_pos h1] at h; cases h; left; exact h1
    rw [if_neg h1] at h
    by_cases h1 : s = "Hexagonal"
    · rw [if_pos h1] at h; cases h; left; exact h1
    rw [if_neg h1] at h
    by_cases h1 : s = "Cubic"
    · rw [if_pos h1] at h; cases h; left; exact h1
    rw [if_neg h1] at h
    by_cases h1 : s = "a"
    · rw [if_pos h1] at h; cases h; right; exact h1
    rw [if_neg h1] at h
    by_cases h1 : s = "m"
    · rw [if_pos h1] at h; cases h; right; exact h1
    rw [if_neg h1] at h
    by_cases h1 : s = "o"
    · rw [if_pos h1] at h; cases h; right; exact h1
    rw [if_neg h1] at h
    by_cases h1 : s = "t"
    · rw [if_pos h1] at h; cases h; right; exact h1
    rw [if_neg h1] at h
    by_cases h1 : s = "r"
    · rw [if_pos h1] at h; cases h; right; exact h1
    rw [if_neg h1] at h
    by_cases h1 : s = "h"
    · rw [if_pos h1] at h; cases h; right; exact h1
    rw [if_neg h1] at h
    by_cases h1 : s = "c"
    · rw [if_pos h1] at h; cases h; right; exact h1
    rw [if_neg h1] at h
    exact absurd h (by simp)
  · rintro (rfl | rfl) <;> cases x <;> rfl

theorem C48_lattice_system_display (x : LatticeSystem) : x.display = (systemNames x).1 := by cases x <;> rfl

/-- **C48.** `centering()` and `lattice_system()` never panic and give the letters of the Bravais symbol; in
particular `hR` is filed under the hexagonal system. -/
theorem C48_bravais_parts (b : BravaisType) : ∃ c l, b.centering? = some c ∧ b.latticeSystem? = some l ∧
    b.display = (systemNames l).2 ++ centringName c := by
  cases b <;> exact ⟨_, _, rfl, rfl, rfl⟩

example : Centering.fromStr "Q" = none ∧ LatticeSystem.fromStr "cubic" = none ∧
    LatticeSystem.fromStr "h" = some .Hexagonal ∧ BravaisType.hR.latticeSystem? = some .Hexagonal := by
  decide +kernel

end CrystSymm
