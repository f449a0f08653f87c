import Verif.Proofs.LatticeChar
import Verif.Props.Niggli
import Verif.Props.Structure

/-! # C30, C31: lattice characters and the shape of the conventional cell -/

set_option autoImplicit false
set_option linter.unusedSectionVars false
set_option linter.unusedSimpArgs false

namespace CrystSymm

open Spec SymmetryAnalyzer Reducer

/-! ## C30 -/

section
variable {K : Type} [Field K] [LinearOrder K] [IsStrictOrderedRing K] [FloorRing K]

/-- no product is within `ε` of zero and an even number of them is negative. -/
def Acute (ε d e f : K) : Prop :=
  (ε ≤ d ∧ ε ≤ e ∧ ε ≤ f) ∨ (d < -ε ∧ e < -ε ∧ ε ≤ f) ∨ (d < -ε ∧ ε ≤ e ∧ f < -ε) ∨ (ε ≤ d ∧ e < -ε ∧ f < -ε)

theorem isTypeI_iff {ε d e f : K} (h0 : 0 ≤ ε) : isTypeI (some ε) [d, e, f] = true ↔ Acute ε d e f := by
  have key : ∀ x : K, (x < -ε ∧ ¬ ε ≤ x) ∨ (¬ x < -ε ∧ x < ε ∧ ¬ ε ≤ x) ∨ (¬ x < -ε ∧ ¬ x < ε ∧ ε ≤ x) := by
    intro x
    rcases lt_or_ge x (-ε) with h | h
    · exact .inl ⟨h, by linarith⟩
    · rcases lt_or_ge x ε with h' | h'
      · exact .inr (.inl ⟨by linarith, h', by linarith⟩)
      · exact .inr (.inr ⟨by linarith, by linarith, h'⟩)
  unfold Acute
  rcases key d with ⟨a1, a2⟩ | ⟨a1, a2, a3⟩ | ⟨a1, a2, a3⟩ <;>
    rcases key e with ⟨b1, b2⟩ | ⟨b1, b2, b3⟩ | ⟨b1, b2, b3⟩ <;>
    rcases key f with ⟨c1, c2⟩ | ⟨c1, c2, c3⟩ | ⟨c1, c2, c3⟩ <;>
    simp [isTypeI, nnzE, numNegativeZero, numNegativeZeroStep, List.foldl, neg_one_mul, *]

/-- the diagonal condition `2|D + E + F| = A + B` within `ε`. -/
def SumCond (ε a b d e f : K) : Prop := |2 * |d + e + f| - (a + b)| ≤ ε

theorem extraEvalA_iff {ε a b d e f : K} : extraEvalA a b d e f (some ε) = true ↔ SumCond ε a b d e f := by
  unfold extraEvalA SumCond
  rw [eqE_some]
  have absE : ∀ x : K, (FRound.abs x : K) = |x| := fun _ => rfl
  rw [absE, l2, mul_comm]

/-- the products match `(x, y, z)` within `ε`. -/
def Near (ε d e f x y z : K) : Prop := |x - d| ≤ ε ∧ |y - e| ≤ ε ∧ |z - f| ≤ ε

/-- the situations in which no character is found: two edge lengths agree within `ε` and the products match
no line of the corresponding part of the table.  The table of characters would have to be continued with the
lines for fewer equalities, which the code does not do. -/
def NoCharacter (ε a b c d e f : K) : Prop :=
  (|a - b| ≤ ε ∧ |a - c| ≤ ε ∧ Acute ε d e f ∧ ¬ Near ε d e f (a / 2) (a / 2) (a / 2) ∧ ¬ Near ε d e f d d d) ∨
  (|a - b| ≤ ε ∧ |a - c| ≤ ε ∧ ¬ Acute ε d e f ∧ ¬ Near ε d e f 0 0 0 ∧
    ¬ Near ε d e f (a / -3) (a / -3) (a / -3) ∧ ¬ Near ε d e f d d d ∧ ¬ SumCond ε a b d e f) ∨
  (|a - b| ≤ ε ∧ ¬ |a - c| ≤ ε ∧ Acute ε d e f ∧ ¬ Near ε d e f (a / 2) (a / 2) (a / 2) ∧
    ¬ Near ε d e f d d f) ∨
  (|a - b| ≤ ε ∧ ¬ |a - c| ≤ ε ∧ ¬ Acute ε d e f ∧ ¬ Near ε d e f 0 0 0 ∧ ¬ Near ε d e f 0 0 (a / -2) ∧
    ¬ Near ε d e f 0 0 f ∧ ¬ Near ε d e f (a / -2) (a / -2) 0 ∧ ¬ Near ε d e f d d f ∧ ¬ SumCond ε a b d e f) ∨
  (¬ |a - b| ≤ ε ∧ |b - c| ≤ ε ∧ Acute ε d e f ∧ ¬ Near ε d e f (a / 4) (a / 2) (a / 2) ∧
    ¬ Near ε d e f d (a / 2) (a / 2) ∧ ¬ Near ε d e f d e e) ∨
  (¬ |a - b| ≤ ε ∧ |b - c| ≤ ε ∧ ¬ Acute ε d e f ∧ ¬ Near ε d e f 0 0 0 ∧ ¬ Near ε d e f (b / -2) 0 0 ∧
    ¬ Near ε d e f d 0 0 ∧ ¬ (SumCond ε a b d e f ∧ Near ε d e f d (a / -3) (a / -3)) ∧ ¬ Near ε d e f d e e)

theorem characterOf_panic_iff {eps : Option K} {a b c d e f : K} :
    characterOf eps a b c d e f = .panic "Cannot find lattice character of input structure!" ↔
      ∀ p ∈ charVecs eps a b c d e f, defMatches eps p.1 ⟨d, e, f⟩ = false := by
  refine ⟨characterOf_panic, fun h => ?_⟩
  rcases characterOf_total (eps := eps) (a := a) (b := b) (c := c) (d := d) (e := e) (f := f) with ⟨ch, hc⟩ | hc
  · obtain ⟨p, hp, hm, -⟩ := characterOf_ret hc
    rw [h p hp] at hm
    exact absurd hm (by simp)
  · exact hc

theorem defMatches_false {ε d e f : K} {v : Vec3 K} :
    defMatches (some ε) v ⟨d, e, f⟩ = false ↔ ¬ Near ε d e f v.x v.y v.z := by
  rw [← Bool.not_eq_true, defMatches_some]
  rfl

theorem near_self_self {ε d e f : K} (h0 : 0 ≤ ε) : Near ε d e f d e f := by simp [Near, h0]

/-- **C30 (partial).** Exactly when the search for the lattice character of a right-handed cell panics; in
particular never when no two consecutive edges agree within `ε`.  Missing from the full claim: the cells of
`NoCharacter`, which include Niggli cells (below). -/
theorem C30_no_character_iff_partial (ε a b c d e f : K) (h0 : 0 ≤ ε) :
    characterOf (some ε) a b c d e f = .panic "Cannot find lattice character of input structure!" ↔
      NoCharacter ε a b c d e f := by
  rw [characterOf_panic_iff]
  unfold charVecs NoCharacter
  have hself : Near ε d e f d e f := near_self_self h0
  by_cases h1 : |a - b| ≤ ε <;> by_cases h2 : |a - c| ≤ ε <;> by_cases h3 : |b - c| ≤ ε <;>
    by_cases ht : Acute ε d e f <;> by_cases hA : SumCond ε a b d e f
  all_goals
    have e1 : eqE (some ε) a b = decide (|a - b| ≤ ε) := by rw [Bool.eq_iff_iff, eqE_some, decide_eq_true_eq]
    have e2 : eqE (some ε) a c = decide (|a - c| ≤ ε) := by rw [Bool.eq_iff_iff, eqE_some, decide_eq_true_eq]
    have e3 : eqE (some ε) b c = decide (|b - c| ≤ ε) := by rw [Bool.eq_iff_iff, eqE_some, decide_eq_true_eq]
    have e4 : isTypeI (some ε) [d, e, f] = true ↔ Acute ε d e f := isTypeI_iff h0
    have e5 : extraEvalA a b d e f (some ε) = true ↔ SumCond ε a b d e f := extraEvalA_iff
    simp [e1, e2, e3, e4, e5, h1, h2, h3, ht, hA, getFirstSet, getSecondSet, getThirdSet, getFourthSet,
      defMatches_false, Vec3.divS, l2, lm2, lm3, l4, hself]

end


/-- the right-handed Niggli cell `(1,0,0), (4/9,1/9,-8/9), (5/13,12/13,0)`, with three equal edges. -/
noncomputable def equalEdges : Structure ℝ :=
  ⟨⟨1, 4 / 9, 5 / 13, 0, 1 / 9, 12 / 13, 0, -8 / 9, 0⟩, [], [], []⟩

theorem equalEdges_volume : equalEdges.volume = 32 / 39 := by
  norm_num [Structure.volume, equalEdges, Mat3.det]

theorem equalEdges_products :
    lenSq equalEdges.lattice.col0 = 1 ∧ lenSq equalEdges.lattice.col1 = 1 ∧ lenSq equalEdges.lattice.col2 = 1 ∧
    dotp equalEdges.lattice.col1 equalEdges.lattice.col2 = 32 / 117 ∧
    dotp equalEdges.lattice.col0 equalEdges.lattice.col2 = 45 / 117 ∧
    dotp equalEdges.lattice.col0 equalEdges.lattice.col1 = 52 / 117 := by
  norm_num [equalEdges, lenSq, dotp, Mat3.col0, Mat3.col1, Mat3.col2]

theorem equalEdges_niggli {ε : ℝ} (h0 : 0 ≤ ε) (h1 : ε ≤ 1 / 50) :
    NiggliCell ε equalEdges.lattice ∧ NiggliCellWeak ε equalEdges.lattice := by
  obtain ⟨p1, p2, p3, p4, p5, p6⟩ := equalEdges_products
  have a1 : |(2 * (32 / 117 : ℝ))| = 64 / 117 := by norm_num [abs_of_pos]
  have a2 : |(2 * (45 / 117 : ℝ))| = 90 / 117 := by norm_num [abs_of_pos]
  have a3 : |(2 * (52 / 117 : ℝ))| = 104 / 117 := by norm_num [abs_of_pos]
  unfold NiggliCell NiggliCellWeak
  rw [p1, p2, p3, p4, p5, p6]
  constructor <;> constructor <;> (try rw [a1]) <;> (try rw [a2]) <;> (try rw [a3]) <;>
    first
    | linarith
    | (intro _; linarith)
    | (left; norm_num; done)
    | (left; refine ⟨?_, ?_, ?_⟩ <;> linarith)
    | (intro h; rw [abs_le] at h; linarith [h.1, h.2])

/-- the message of the panic. -/
abbrev noCharacterMsg : String := "Cannot find lattice character of input structure!"

theorem eps_tiny {tol V : ℝ} (h0 : 0 ≤ tol) (hV : 0 ≤ V) (h1 : V ≤ 1) : 0 ≤ eps tol V ∧ eps tol V ≤ tol := by
  have a := Real.rpow_nonneg hV ((1 : ℝ) / 3)
  have b := Real.rpow_le_one hV h1 (show (0 : ℝ) ≤ 1 / 3 by norm_num)
  unfold eps
  constructor <;> nlinarith

theorem tol1em5_real : (tol1em5 : ℝ) = 1 / 100000 := by simp [tol1em5, lit]

theorem getLatticeCharacter_eq {s : Structure ℝ} {tol : ℝ} (hV : 0 ≤ s.volume) :
    getLatticeCharacter s tol = characterOf (some (eps tol s.volume)) (lenSq s.lattice.col0)
      (lenSq s.lattice.col1) (lenSq s.lattice.col2) (dotp s.lattice.col1 s.lattice.col2)
      (dotp s.lattice.col0 s.lattice.col2) (dotp s.lattice.col0 s.lattice.col1) := by
  unfold getLatticeCharacter
  rw [epsilonOf_nonneg hV]
  rfl

/-- **C30 is false:** the exact Niggli cell `equalEdges` is returned unchanged by the Niggli reduction and no
lattice character is found for it. -/
theorem C30_false_no_character (r : Reducer ℝ) (s : Structure ℝ) (hl : s.lattice = equalEdges.lattice) :
    NiggliCell 0 s.lattice ∧ 0 < s.volume ∧
      ∃ s', r.niggliReduce s tol1em5 = .ret s' ∧ s'.lattice = s.lattice ∧
        conventionalTransformationMatrix s' = .panic noCharacterMsg := by
  obtain ⟨p1, p2, p3, p4, p5, p6⟩ := equalEdges_products
  have hV : s.volume = 32 / 39 := by
    rw [← equalEdges_volume]; unfold Structure.volume; rw [hl]
  have key := fun {s' : Structure ℝ} (h : s'.lattice = s.lattice) => by
    have hV' : s'.volume = 32 / 39 := by rw [← hV]; unfold Structure.volume; rw [h]
    obtain ⟨e0, e1⟩ := eps_tiny (tol := tol1em5) (V := s'.volume) (by rw [tol1em5_real]; norm_num)
      (by rw [hV']; norm_num) (by rw [hV']; norm_num)
    replace e1 := e1.trans_eq tol1em5_real
    have h0 : getLatticeCharacter s' tol1em5 = .panic noCharacterMsg := by
      rw [getLatticeCharacter_eq (by rw [hV']; norm_num), h, hl, p1, p2, p3, p4, p5, p6,
        C30_no_character_iff_partial _ _ _ _ _ _ _ e0]
      left
      refine ⟨by simpa using e0, by simpa using e0, .inl ⟨by linarith, by linarith, by linarith⟩, ?_, ?_⟩
      · rintro ⟨h, -, -⟩
        rw [abs_le] at h
        linarith [h.1, h.2]
      · rintro ⟨-, h, -⟩
        rw [abs_le] at h
        linarith [h.1, h.2]
    show conventionalTransformationMatrix s' = .panic noCharacterMsg
    unfold conventionalTransformationMatrix
    rw [h0]
    rfl
  refine ⟨by rw [hl]; exact (equalEdges_niggli le_rfl (by norm_num)).1, by rw [hV]; norm_num, ?_⟩
  obtain ⟨e0, e1⟩ := eps_tiny (tol := tol1em5) (V := s.volume) (by rw [tol1em5_real]; norm_num)
    (by rw [hV]; norm_num) (by rw [hV]; norm_num)
  replace e1 := e1.trans_eq tol1em5_real
  obtain ⟨s', h, hl'⟩ := C27_niggli_returns_on_reduced_partial r s tol1em5 (by rw [hV]; norm_num) e0
    (by rw [hl]; exact (equalEdges_niggli e0 (by linarith)).2)
    (by
      left
      rw [hl, p4, p5, p6]
      refine ⟨?_, ?_, ?_⟩ <;> linarith)
  exact ⟨s', h, hl', key hl'⟩

/-- the public functions panic on any input whose primitive cell is `equalEdges`. -/
theorem C30_false_api (sa : SymmetryAnalyzer ℝ) (ho : HashOrders ℝ) (fuel : ℕ) (s prim : Structure ℝ)
    (h : sa.reducer.findPrimitiveCell ho.minEle s = .ret prim) (hl : prim.lattice = equalEdges.lattice) :
    sa.getStandardConventionalStructure ho fuel s = .panic noCharacterMsg ∧
      sa.getStandardPrimitiveStructure ho fuel s = .panic noCharacterMsg := by
  obtain ⟨-, -, s', h1, -, h2⟩ := C30_false_no_character sa.reducer prim hl
  constructor
  · unfold getStandardConventionalStructure
    rw [h, Outcome.ret_bind, h1, Outcome.ret_bind, h2]
    rfl
  · unfold getStandardPrimitiveStructure
    rw [h, Outcome.ret_bind, h1, Outcome.ret_bind, h2]
    rfl

/-- a monoclinic Niggli cell for which a character is found: `NoCharacter` does not hold. -/
example : characterOf (some (1 / 100 : ℚ)) 1 2 3 0 (-1 / 4) 0 = .ret 33 := by decide +kernel

/-! ## C31 -/

section
variable {K : Type} [Field K]

theorem dotp_mul_bil (L : Mat3 K) (u v : Vec3 K) :
    dotp (L * u) (L * v) = bil u v (lenSq L.col0) (lenSq L.col1) (lenSq L.col2) (dotp L.col1 L.col2)
      (dotp L.col0 L.col2) (dotp L.col0 L.col1) := by
  have hm : ∀ w : Vec3 K, L * w = ⟨L.m11 * w.x + L.m12 * w.y + L.m13 * w.z,
    L.m21 * w.x + L.m22 * w.y + L.m23 * w.z, L.m31 * w.x + L.m32 * w.y + L.m33 * w.z⟩ := fun _ => rfl
  simp only [dotp, bil, lenSq, Mat3.col0, Mat3.col1, Mat3.col2, hm]
  ring

theorem col_mul (L T : Mat3 K) :
    (L * T).col0 = L * T.col0 ∧ (L * T).col1 = L * T.col1 ∧ (L * T).col2 = L * T.col2 := by
  refine ⟨?_, ?_, ?_⟩ <;> rfl

end

/-- the products of the columns of `L` have the shape `b` within `δ`. -/
def LatticeShape (b : BravaisType) (δ : ℝ) (L : Mat3 ℝ) : Prop :=
  ShapeWithin b δ (lenSq L.col0) (lenSq L.col1) (lenSq L.col2) (dotp L.col1 L.col2) (dotp L.col0 L.col2)
    (dotp L.col0 L.col1)

theorem convShape_lattice {ch : ℕ} {δ : ℝ} {L : Mat3 ℝ}
    (h : ConvShape ch δ (lenSq L.col0) (lenSq L.col1) (lenSq L.col2) (dotp L.col1 L.col2)
      (dotp L.col0 L.col2) (dotp L.col0 L.col1)) :
    ∃ m b, amapGet? latticeCharToConvTrans ch = some m ∧ amapGet? latticeCharToBravais ch = some b ∧
      LatticeShape b δ (L * (castRot m : Mat3 ℝ).transpose) := by
  obtain ⟨m, b, hm, hb, hs⟩ := h
  refine ⟨m, b, hm, hb, ?_⟩
  unfold LatticeShape
  obtain ⟨c0, c1, c2⟩ := col_mul L (castRot m : Mat3 ℝ).transpose
  have hl : ∀ v : Vec3 ℝ, lenSq v = dotp v v := fun v => rfl
  rw [hl (Mat3.col0 _), hl (Mat3.col1 _), hl (Mat3.col2 _), c0, c1, c2]
  simp only [dotp_mul_bil]
  exact hs

/-- no product of two cell vectors lies just below `ε`, where the Niggli reduction and the search for the
character disagree about its sign. -/
def OffBand (ε : ℝ) (L : Mat3 ℝ) : Prop :=
  ∀ x ∈ [dotp L.col1 L.col2, dotp L.col0 L.col2, dotp L.col0 L.col1], ¬ (ε / 2 ≤ x ∧ x < ε)

/-- **C31 (partial).** For a right-handed cell satisfying the conditions that the Niggli reduction establishes,
with no product of two vectors in the band below `ε`, the conventional cell of the character found has the
shape of the character's Bravais type within `100 ε`.  Missing: products in the band, and left-handed cells; the
claim is false for both (below). -/
theorem C31_conventional_shape_partial (s : Structure ℝ) (tol : ℝ) (ch : ℕ) (hV : 0 ≤ s.volume)
    (h0 : 0 ≤ eps tol s.volume) (hn : NiggliCellWeak (eps tol s.volume) s.lattice)
    (hb : OffBand (eps tol s.volume) s.lattice) (h : getLatticeCharacter s tol = .ret ch) :
    ∃ m b, amapGet? latticeCharToConvTrans ch = some m ∧ amapGet? latticeCharToBravais ch = some b ∧
      LatticeShape b (100 * eps tol s.volume) (s.lattice * (castRot m : Mat3 ℝ).transpose) := by
  rw [getLatticeCharacter_eq hV] at h
  have b1 := hb (dotp s.lattice.col1 s.lattice.col2) (by simp)
  have b2 := hb (dotp s.lattice.col0 s.lattice.col2) (by simp)
  have b3 := hb (dotp s.lattice.col0 s.lattice.col1) (by simp)
  refine convShape_lattice (convShape_of_character h0 ?_ h)
  rcases hn.signs with ⟨x, y, z⟩ | ⟨x, y, z⟩
  · left
    refine ⟨?_, ?_, ?_⟩
    · by_contra hc; exact b1 ⟨by linarith, by linarith⟩
    · by_contra hc; exact b2 ⟨by linarith, by linarith⟩
    · by_contra hc; exact b3 ⟨by linarith, by linarith⟩
  · right
    refine ⟨?_, ?_, ?_⟩ <;> linarith

/-- the same for the structure returned by `get_standard_conventional_structure`. -/
theorem C31_standard_conventional_partial (sa : SymmetryAnalyzer ℝ) (ho : HashOrders ℝ) (fuel : ℕ)
    (s prim red s' : Structure ℝ) (hp : sa.reducer.findPrimitiveCell ho.minEle s = .ret prim)
    (hr : sa.reducer.niggliReduce prim tol1em5 = .ret red) (hV : 0 ≤ prim.volume)
    (h1 : eps tol1em5 prim.volume < 1) (hVr : red.volume = prim.volume)
    (hb : OffBand (eps tol1em5 red.volume) red.lattice)
    (h : sa.getStandardConventionalStructure ho fuel s = .ret s') :
    ∃ ch b, getLatticeCharacter red tol1em5 = .ret ch ∧ amapGet? latticeCharToBravais ch = some b ∧
      LatticeShape b (100 * eps tol1em5 red.volume) s'.lattice := by
  have he : 0 ≤ eps tol1em5 prim.volume :=
    mul_nonneg (by rw [tol1em5_real]; norm_num) (Real.rpow_nonneg hV _)
  have hn := niggli_exit hr hV he h1
  unfold getStandardConventionalStructure at h
  rw [hp, Outcome.ret_bind, hr, Outcome.ret_bind, Outcome.bind_eq_ret] at h
  obtain ⟨⟨t, ch'⟩, ht, h⟩ := h
  unfold conventionalTransformationMatrix at ht
  rw [Outcome.bind_eq_ret] at ht
  obtain ⟨ch, hch, ht⟩ := ht
  rw [← hVr] at he hn hV
  obtain ⟨m, b, hm, hbr, hs⟩ := C31_conventional_shape_partial red tol1em5 ch hV he hn hb hch
  rw [hm] at ht
  simp only [Outcome.ofOption, Outcome.ret_bind, Outcome.ret.injEq, Prod.mk.injEq] at ht
  refine ⟨ch, b, hch, hbr, ?_⟩
  rw [applyTransformation_lattice h, ← ht.1]
  exact hs

/-- **C31 is false for left-handed cells:** `ε` is not a number then and every left-handed cell is taken for
face-centred cubic. -/
theorem C31_false_left_handed (s : Structure ℝ) (tol : ℝ) (hV : s.volume < 0) :
    getLatticeCharacter s tol = .ret 1 ∧ amapGet? latticeCharToBravais 1 = some .cF := by
  refine ⟨?_, rfl⟩
  unfold getLatticeCharacter
  rw [epsilonOf_neg hV]
  simp [characterOf, eqE, isTypeI, nnzE, numNegativeZero, numNegativeZeroStep, getFirstSet, defMatches]

/-- e.g. the reduced cell `(1,0,0), (0,2,0), (0,0,-3)`. -/
example (tol δ : ℝ) (hδ : δ < 1) :
    let s : Structure ℝ := ⟨⟨1, 0, 0, 0, 2, 0, 0, 0, -3⟩, [], [], []⟩
    getLatticeCharacter s tol = .ret 1 ∧ ∀ m, amapGet? latticeCharToConvTrans 1 = some m →
      ¬ LatticeShape .cF δ (s.lattice * (castRot m : Mat3 ℝ).transpose) := by
  intro s
  refine ⟨(C31_false_left_handed s tol (by norm_num [s, Structure.volume, Mat3.det])).1, ?_⟩
  intro m hm h
  obtain rfl : _ = m := Option.some.inj hm
  simp only [LatticeShape, ShapeWithin, castRot, Mat3.map, Mat3.transpose, ti_m1, ti_1] at h
  have h3 := h.2.2.1
  rw [abs_le] at h3
  norm_num [s, dotp, Mat3.col1, Mat3.col2] at h3
  linarith [h3.1, h3.2]

/-- a Niggli cell of volume 8 with `a·b = q` small and `b·c = a·c = 1/2`. -/
noncomputable def bandCell (q : ℝ) : Structure ℝ :=
  ⟨⟨1, q, 1 / 2, 0, 1, 1 / 2 - q / 2, 0, 0, 8⟩, [], [], []⟩

theorem bandCell_volume (q : ℝ) : (bandCell q).volume = 8 := by
  norm_num [Structure.volume, bandCell, Mat3.det]

theorem bandCell_products (q : ℝ) :
    lenSq (bandCell q).lattice.col0 = 1 ∧ lenSq (bandCell q).lattice.col1 = 1 + q ^ 2 ∧
    lenSq (bandCell q).lattice.col2 = 1 / 4 + (1 / 2 - q / 2) ^ 2 + 64 ∧
    dotp (bandCell q).lattice.col1 (bandCell q).lattice.col2 = 1 / 2 ∧
    dotp (bandCell q).lattice.col0 (bandCell q).lattice.col2 = 1 / 2 ∧
    dotp (bandCell q).lattice.col0 (bandCell q).lattice.col1 = q := by
  simp only [bandCell, lenSq, dotp, Mat3.col0, Mat3.col1, Mat3.col2]
  refine ⟨?_, ?_, ?_, ?_, ?_, ?_⟩ <;> ring

theorem eps_eight (tol : ℝ) : eps tol 8 = 2 * tol := by
  have h : (8 : ℝ) ^ ((1 : ℝ) / 3) = 2 := by
    have : (8 : ℝ) = 2 ^ (3 : ℝ) := by norm_num
    rw [this, ← Real.rpow_mul (by norm_num)]
    norm_num
  unfold eps
  rw [h]; ring

theorem bandCell_niggli {q ε : ℝ} (h0 : 0 < q) (h1 : q < 1 / 8) (he : ε = 0 ∨ ε = 2 * q) :
    NiggliCell ε (bandCell q).lattice ∧ NiggliCellWeak ε (bandCell q).lattice := by
  obtain ⟨p1, p2, p3, p4, p5, p6⟩ := bandCell_products q
  have a1 : |(2 * (1 / 2 : ℝ))| = 1 := by norm_num
  have a2 : |2 * q| = 2 * q := abs_of_pos (by linarith)
  have q2 : q ^ 2 < q := by nlinarith
  have q3 : 0 < q ^ 2 := by positivity
  have e0 : 0 ≤ ε := by rcases he with h | h <;> linarith
  have e1 : ε ≤ 2 * q := by rcases he with h | h <;> linarith
  unfold NiggliCell NiggliCellWeak
  rw [p1, p2, p3, p4, p5, p6]
  constructor <;> constructor <;> (try rw [a1]) <;> (try rw [a2]) <;>
    first
    | linarith
    | nlinarith
    | (intro _; linarith)
    | (left; norm_num; linarith; done)
    | (left; refine ⟨?_, ?_, ?_⟩ <;> linarith)
    | (intro h; rw [abs_le] at h; linarith [h.1, h.2])
    | (intro h; rw [abs_le] at h; nlinarith [h.1, h.2])

/-- **C31 is false in the band below `ε`:** for every tolerance `0 < tol < 1/8` the cell `bandCell tol` is an
exact Niggli cell, is returned unchanged by the reduction, and is taken for face-centred orthorhombic (character
16), although the conventional cell has `|a·c| ≥ 4`. -/
theorem C31_false_band (r : Reducer ℝ) (tol : ℝ) (h0 : 0 < tol) (h1 : tol < 1 / 8) :
    NiggliCell 0 (bandCell tol).lattice ∧
      (∃ s', r.niggliReduce (bandCell tol) tol = .ret s' ∧ s'.lattice = (bandCell tol).lattice) ∧
      getLatticeCharacter (bandCell tol) tol = .ret 16 ∧ amapGet? latticeCharToBravais 16 = some .oF ∧
      ∀ m, amapGet? latticeCharToConvTrans 16 = some m → ∀ δ < 4,
        ¬ LatticeShape .oF δ ((bandCell tol).lattice * (castRot m : Mat3 ℝ).transpose) := by
  obtain ⟨p1, p2, p3, p4, p5, p6⟩ := bandCell_products tol
  have hV := bandCell_volume tol
  have he := eps_eight tol
  have q2 : tol ^ 2 < tol := by nlinarith
  have q3 : 0 < tol ^ 2 := by positivity
  refine ⟨(bandCell_niggli h0 h1 (.inl rfl)).1, ?_, ?_, rfl, ?_⟩
  · refine C27_niggli_returns_on_reduced_partial r _ tol (by rw [hV]; norm_num) (by rw [hV, he]; linarith)
      (by rw [hV, he]; exact (bandCell_niggli h0 h1 (.inr rfl)).2) ?_
    left
    rw [hV, he, p4, p5, p6]
    refine ⟨?_, ?_, ?_⟩ <;> linarith
  · rw [getLatticeCharacter_eq (by rw [hV]; norm_num), hV, he, p1, p2, p3, p4, p5, p6]
    have i1 : eqE (some (2 * tol)) (1 : ℝ) (1 + tol ^ 2) = true := by
      rw [eqE_some, abs_le]; constructor <;> linarith
    have i2 : eqE (some (2 * tol)) (1 : ℝ) (1 / 4 + (1 / 2 - tol / 2) ^ 2 + 64) = false := by
      rw [Bool.eq_false_iff]; intro h
      rw [eqE_some, abs_le] at h; nlinarith [h.1]
    have i3 : isTypeI (some (2 * tol)) [1 / 2, 1 / 2, tol] = false := by
      rw [Bool.eq_false_iff]; intro h
      rw [isTypeI_iff (by linarith)] at h
      rcases h with ⟨-, -, h⟩ | ⟨h, -, -⟩ | ⟨h, -, -⟩ | ⟨-, h, -⟩ <;> linarith
    have i4 : extraEvalA 1 (1 + tol ^ 2) (1 / 2) (1 / 2) tol (some (2 * tol)) = true := by
      rw [extraEvalA_iff, SumCond, abs_of_pos (by linarith : (0 : ℝ) < 1 / 2 + 1 / 2 + tol), abs_le]
      constructor <;> nlinarith
    have n1 : ∀ y z : ℝ, defMatches (some (2 * tol)) ⟨0, y, z⟩ ⟨1 / 2, 1 / 2, tol⟩ = false := by
      intro y z
      rw [defMatches_false]
      rintro ⟨h, -, -⟩
      rw [abs_le] at h
      simp only at h
      linarith [h.1]
    have n2 : ∀ y z : ℝ, defMatches (some (2 * tol)) ⟨1 / -2, y, z⟩ ⟨1 / 2, 1 / 2, tol⟩ = false := by
      intro y z
      rw [defMatches_false]
      rintro ⟨h, -, -⟩
      rw [abs_le] at h
      simp only at h
      linarith [h.1]
    have n3 : defMatches (some (2 * tol)) ⟨1 / 2, 1 / 2, tol⟩ ⟨1 / 2, 1 / 2, tol⟩ = true := by
      rw [defMatches_some]
      simp only [sub_self, abs_zero]
      refine ⟨?_, ?_, ?_⟩ <;> linarith
    unfold characterOf
    simp only [i1, i2, i3, Bool.and_false, Bool.false_eq_true, if_false, if_true, getSecondSet, Vec3.divS, l2, lm2,
      zero_div, i4]
    rw [List.cons_append, List.find?_cons_of_neg (by rw [n1]; exact Bool.false_ne_true),
      List.cons_append, List.find?_cons_of_neg (by rw [n1]; exact Bool.false_ne_true),
      List.cons_append, List.find?_cons_of_neg (by rw [n1]; exact Bool.false_ne_true),
      List.cons_append, List.find?_cons_of_neg (by rw [n2]; exact Bool.false_ne_true),
      List.cons_append, List.find?_cons_of_pos (by rw [n3])]
    simp
  · intro m hm δ hδ h
    obtain rfl : _ = m := Option.some.inj hm
    simp only [LatticeShape, ShapeWithin, castRot, Mat3.map, Mat3.transpose, ti_m1, ti_1, ti_0, ti_2, ti_m2] at h
    have h3 := h.2.1
    rw [abs_le] at h3
    rw [(col_mul _ _).1, (col_mul _ _).2.2, dotp_mul_bil, p1, p2, p3, p4, p5, p6] at h3
    simp only [bil, Mat3.col0, Mat3.col2] at h3
    push_cast at h3
    nlinarith [h3.1, h3.2]

/-- Not vacuous: the primitive cell `(2,0,0), (0,2,0), (-1,-1,2)` is found to be body-centred tetragonal
(character 15) and C31 applies to it. -/
example : let s : Structure ℝ := ⟨⟨2, 0, -1, 0, 2, -1, 0, 0, 2⟩, [], [], []⟩
    getLatticeCharacter s tol1em5 = .ret 15 ∧
      ∃ m, amapGet? latticeCharToConvTrans 15 = some m ∧
        LatticeShape .tI (100 * eps tol1em5 8) (s.lattice * (castRot m : Mat3 ℝ).transpose) := by
  intro s
  have hV : s.volume = 8 := by norm_num [s, Structure.volume, Mat3.det]
  have he : eps tol1em5 s.volume = 1 / 50000 := by rw [hV, eps_eight, tol1em5_real]; norm_num
  have p1 : lenSq s.lattice.col0 = 4 := by norm_num [s, lenSq, Mat3.col0]
  have p2 : lenSq s.lattice.col1 = 4 := by norm_num [s, lenSq, Mat3.col1]
  have p3 : lenSq s.lattice.col2 = 6 := by norm_num [s, lenSq, Mat3.col2]
  have p4 : dotp s.lattice.col1 s.lattice.col2 = -2 := by norm_num [s, dotp, Mat3.col1, Mat3.col2]
  have p5 : dotp s.lattice.col0 s.lattice.col2 = -2 := by norm_num [s, dotp, Mat3.col0, Mat3.col2]
  have p6 : dotp s.lattice.col0 s.lattice.col1 = 0 := by norm_num [s, dotp, Mat3.col0, Mat3.col1]
  have hc : getLatticeCharacter s tol1em5 = .ret 15 := by
    rw [getLatticeCharacter_eq (by rw [hV]; norm_num), he, p1, p2, p3, p4, p5, p6]
    have i1 : eqE (some (1 / 50000)) (4 : ℝ) 4 = true := by rw [eqE_some]; norm_num
    have i2 : eqE (some (1 / 50000)) (4 : ℝ) 6 = false := by
      rw [Bool.eq_false_iff, Ne, eqE_some]; norm_num [abs_le]
    have i3 : isTypeI (some (1 / 50000)) [(-2 : ℝ), -2, 0] = false := by
      rw [Bool.eq_false_iff, Ne, isTypeI_iff (by norm_num)]; norm_num [Acute]
    have i4 : defMatches (some (1 / 50000)) ⟨4 / -2, 4 / -2, 0⟩ (⟨-2, -2, 0⟩ : Vec3 ℝ) = true := by
      rw [defMatches_some]; norm_num
    have n1 : ∀ y z : ℝ, defMatches (some (1 / 50000)) ⟨0, y, z⟩ (⟨-2, -2, 0⟩ : Vec3 ℝ) = false := by
      intro y z
      rw [defMatches_false]
      rintro ⟨h, -, -⟩
      norm_num [abs_le] at h
    unfold characterOf
    simp only [i1, i2, i3, Bool.and_false, Bool.false_eq_true, if_false, if_true, getSecondSet, Vec3.divS, l2, lm2,
      zero_div]
    rw [List.cons_append, List.find?_cons_of_neg (by rw [n1]; exact Bool.false_ne_true),
      List.cons_append, List.find?_cons_of_neg (by rw [n1]; exact Bool.false_ne_true),
      List.cons_append, List.find?_cons_of_neg (by rw [n1]; exact Bool.false_ne_true),
      List.cons_append, List.find?_cons_of_pos (by rw [i4])]
    simp
  refine ⟨hc, ?_⟩
  obtain ⟨m, b, hm, hb, hs⟩ := C31_conventional_shape_partial s tol1em5 15 (by rw [hV]; norm_num)
    (by rw [he]; norm_num)
    (by
      rw [he]
      unfold NiggliCellWeak
      rw [p1, p2, p3, p4, p5, p6]
      constructor <;> norm_num [abs_le])
    (by
      rw [he]
      intro x hx
      rw [p4, p5, p6] at hx
      simp only [List.mem_cons, List.not_mem_nil, or_false] at hx
      rcases hx with rfl | rfl | rfl <;> norm_num)
    hc
  obtain rfl : BravaisType.tI = b := Option.some.inj hb
  rw [hV] at hs
  exact ⟨m, hm, hs⟩

end CrystSymm
