import Verif.Model.Analyzer

set_option autoImplicit false
set_option linter.unusedSectionVars false

/-! # C75: a run that ends has one outcome

The `while` loops of the crate are modelled with fuel: `running` says that the loop has not ended after that many rounds.  If a
function ends with some fuel, it ends in the same way with more fuel. -/

namespace CrystSymm

/-- `a` is `b`, or has not ended yet. -/
def Outcome.Le {α : Type} (a b : Outcome α) : Prop := a = .running ∨ a = b

theorem Outcome.Le.refl {α : Type} (a : Outcome α) : Outcome.Le a a := .inr rfl

theorem Outcome.Le.bind {α β : Type} {a a' : Outcome α} {f f' : α → Outcome β} (h : Outcome.Le a a')
    (hf : ∀ x, Outcome.Le (f x) (f' x)) : Outcome.Le (a.bind f) (a'.bind f') := by
  rcases h with rfl | rfl
  · exact .inl rfl
  · cases a with
    | ret x => exact hf x
    | panic m => exact .inr rfl
    | running => exact .inl rfl

theorem Outcome.Le.bind' {α β : Type} {a : Outcome α} {f f' : α → Outcome β} (hf : ∀ x, Outcome.Le (f x) (f' x)) :
    Outcome.Le (a.bind f) (a.bind f') := Outcome.Le.bind (Outcome.Le.refl a) hf

theorem Outcome.Le.ret {α : Type} {a b : Outcome α} (h : Outcome.Le a b) {x : α} (hx : a = .ret x) : b = .ret x := by
  rcases h with h | h
  · rw [h] at hx; cases hx
  · rw [← h]; exact hx

section
variable {K : Type} [Add K] [Sub K] [Mul K] [Div K] [Neg K] [Zero K] [One K] [IntCast K]
  [LT K] [LE K] [DecidableLT K] [DecidableLE K] [BEq K] [FRound K] [FTrans K]

theorem pgGenLoop_le {α : Type} [DecidableEq α] [Mul α] (o : HashOrd α) (n : ℕ) : ∀ (fuel round : ℕ) (a b : List α),
    Outcome.Le (PointGroup.genLoop o fuel round a b) (PointGroup.genLoop o (fuel + n) round a b) := by
  intro fuel
  induction fuel with
  | zero => intro _ _ _; exact .inl rfl
  | succ f ih =>
    intro round a b
    rw [Nat.add_right_comm, PointGroup.genLoop, PointGroup.genLoop]
    split_ifs
    · exact Outcome.Le.refl _
    · exact ih _ _ _

theorem fromNumber_le (o : HashOrd (Mat3 Int8)) (fuel n num : ℕ) :
    Outcome.Le (PointGroup.fromNumber o fuel num) (PointGroup.fromNumber o (fuel + n) num) := by
  unfold PointGroup.fromNumber PointGroup.generateOperations
  refine Outcome.Le.bind' fun _ => Outcome.Le.bind' fun _ => Outcome.Le.bind' fun _ => ?_
  exact Outcome.Le.bind (pgGenLoop_le _ _ _ _ _ _) fun _ => Outcome.Le.refl _

theorem searchLoop_le (lattice : Mat3 K) (tols : Vec3 K) (posTol : K) (invT : Mat3 K) (ratio : K) (total : ℕ)
    (sites : List (Vec3 K × String)) (n : ℕ) : ∀ (fuel mult : ℕ) (found : List (Vec3 K × String)),
    Outcome.Le (Structure.searchLoop lattice tols posTol invT ratio total sites fuel mult found)
      (Structure.searchLoop lattice tols posTol invT ratio total sites (fuel + n) mult found) := by
  intro fuel
  induction fuel with
  | zero => intro _ _; exact .inl rfl
  | succ f ih =>
    intro mult found
    rw [Nat.add_right_comm, Structure.searchLoop, Structure.searchLoop]
    split_ifs
    · exact ih _ _
    · exact Outcome.Le.refl _

theorem applyTransformation_le (fuel n : ℕ) (s : Structure K) (t : Mat3 K) (d : K) :
    Outcome.Le (s.applyTransformation fuel t d) (s.applyTransformation (fuel + n) t d) := by
  unfold Structure.applyTransformation
  cases t.tryInverse with
  | none => exact Outcome.Le.refl _
  | some inv => exact Outcome.Le.bind (searchLoop_le _ _ _ _ _ _ _ _ _ _ _) fun _ => Outcome.Le.refl _

theorem sgGenLoop_le (tols : Vec3 K) (n : ℕ) : ∀ (fuel : ℕ) (a b : List (SymmOp K)),
    Outcome.Le (SpaceGroup.genLoop tols fuel a b) (SpaceGroup.genLoop tols (fuel + n) a b) := by
  intro fuel
  induction fuel with
  | zero => intro _ _; exact .inl rfl
  | succ f ih =>
    intro a b
    rw [Nat.add_right_comm, SpaceGroup.genLoop, SpaceGroup.genLoop]
    split_ifs
    · exact Outcome.Le.refl _
    · exact ih _ _

theorem transLoop_le (tols : Vec3 K) (inv t : Mat3 K) (ratio : K) (ops : List (SymmOp K)) (n : ℕ) :
    ∀ (fuel mult : ℕ) (st : SpaceGroup.TransState K),
    Outcome.Le (SpaceGroup.transLoop tols inv t ratio ops fuel mult st)
      (SpaceGroup.transLoop tols inv t ratio ops (fuel + n) mult st) := by
  intro fuel
  induction fuel with
  | zero => intro _ _; exact .inl rfl
  | succ f ih =>
    intro mult st
    rw [Nat.add_right_comm, SpaceGroup.transLoop, SpaceGroup.transLoop]
    split_ifs
    · exact ih _ _
    · exact Outcome.Le.refl _

theorem sgApply_le (fuel n : ℕ) (ops : List (SymmOp K)) (t : Mat3 K) (tols : Vec3 K) :
    Outcome.Le (SpaceGroup.applyTransformation fuel ops t tols) (SpaceGroup.applyTransformation (fuel + n) ops t tols) := by
  unfold SpaceGroup.applyTransformation
  cases t.tryInverse with
  | none => exact Outcome.Le.refl _
  | some inv => exact Outcome.Le.bind (transLoop_le _ _ _ _ _ _ _ _ _) fun _ => Outcome.Le.refl _

theorem primitiveHolohedry_le (h : HashOrders K) (fuel n : ℕ) (b : BravaisType) :
    Outcome.Le (SymmetryAnalyzer.primitiveHolohedry h fuel b) (SymmetryAnalyzer.primitiveHolohedry h (fuel + n) b) := by
  unfold SymmetryAnalyzer.primitiveHolohedry
  refine Outcome.Le.bind' fun _ => Outcome.Le.bind (fromNumber_le _ _ _ _) fun _ => Outcome.Le.refl _

theorem primitiveOps_le (sa : SymmetryAnalyzer K) (h : HashOrders K) (fuel n : ℕ) (s : Structure K) (b : BravaisType) :
    Outcome.Le (sa.getPrimitiveSpaceGroupOps h fuel s b) (sa.getPrimitiveSpaceGroupOps h (fuel + n) s b) := by
  unfold SymmetryAnalyzer.getPrimitiveSpaceGroupOps
  exact Outcome.Le.bind (primitiveHolohedry_le _ _ _ _) fun _ => Outcome.Le.refl _

theorem standardLe (sa : SymmetryAnalyzer K) (h : HashOrders K) (fuel n : ℕ) (s : Structure K) :
    Outcome.Le (sa.getStandardPrimitiveStructure h fuel s) (sa.getStandardPrimitiveStructure h (fuel + n) s) := by
  unfold SymmetryAnalyzer.getStandardPrimitiveStructure
  refine Outcome.Le.bind' fun _ => Outcome.Le.bind' fun _ => Outcome.Le.bind' fun _ => ?_
  exact Outcome.Le.bind (applyTransformation_le _ _ _ _ _) fun _ => Outcome.Le.bind' fun _ => applyTransformation_le _ _ _ _ _

theorem infoLe (sa : SymmetryAnalyzer K) (h : HashOrders K) (fuel n : ℕ) (s : Structure K) :
    Outcome.Le (sa.getSpaceGroupInfo h fuel s) (sa.getSpaceGroupInfo h (fuel + n) s) := by
  unfold SymmetryAnalyzer.getSpaceGroupInfo
  refine Outcome.Le.bind' fun _ => Outcome.Le.bind' fun _ => Outcome.Le.bind' fun _ => ?_
  refine Outcome.Le.bind (applyTransformation_le _ _ _ _ _) fun _ => Outcome.Le.bind' fun _ => ?_
  refine Outcome.Le.bind (applyTransformation_le _ _ _ _ _) fun _ => ?_
  refine Outcome.Le.bind (primitiveOps_le _ _ _ _ _ _) fun _ => ?_
  refine Outcome.Le.bind (sgGenLoop_le _ _ _ _ _) fun _ => ?_
  refine Outcome.Le.bind' fun _ => Outcome.Le.bind' fun _ => Outcome.Le.bind' fun _ => ?_
  refine Outcome.Le.bind' fun _ => Outcome.Le.bind' fun _ => ?_
  exact Outcome.Le.bind (sgApply_le _ _ _ _ _) fun _ => Outcome.Le.refl _

/-- **C75.** Every function with loops has at most one outcome: what it returns, or how it panics, after some number of rounds is what
it does after any larger number of rounds. -/
theorem C75_one_outcome (sa : SymmetryAnalyzer K) (h : HashOrders K) (s : Structure K) (f₁ f₂ : ℕ) :
    (sa.getSpaceGroupInfo h f₁ s ≠ .running → sa.getSpaceGroupInfo h f₂ s ≠ .running →
      sa.getSpaceGroupInfo h f₁ s = sa.getSpaceGroupInfo h f₂ s) ∧
    (sa.getStandardPrimitiveStructure h f₁ s ≠ .running → sa.getStandardPrimitiveStructure h f₂ s ≠ .running →
      sa.getStandardPrimitiveStructure h f₁ s = sa.getStandardPrimitiveStructure h f₂ s) ∧
    (sa.getStandardConventionalStructure h f₁ s ≠ .running → sa.getStandardConventionalStructure h f₂ s ≠ .running →
      sa.getStandardConventionalStructure h f₁ s = sa.getStandardConventionalStructure h f₂ s) ∧
    (∀ t d, s.applyTransformation f₁ t d ≠ .running → s.applyTransformation f₂ t d ≠ .running →
      s.applyTransformation f₁ t d = s.applyTransformation f₂ t d) ∧
    (∀ (ops : List (SymmOp K)) t tols, SpaceGroup.applyTransformation f₁ ops t tols ≠ .running →
      SpaceGroup.applyTransformation f₂ ops t tols ≠ .running →
      SpaceGroup.applyTransformation f₁ ops t tols = SpaceGroup.applyTransformation f₂ ops t tols) ∧
    (∀ (gens : List (SymmOp K)) tols, SpaceGroup.fromGenerators f₁ gens tols ≠ .running →
      SpaceGroup.fromGenerators f₂ gens tols ≠ .running →
      SpaceGroup.fromGenerators f₁ gens tols = SpaceGroup.fromGenerators f₂ gens tols) ∧
    (∀ (o : HashOrd (Mat3 Int8)) num, PointGroup.fromNumber o f₁ num ≠ .running →
      PointGroup.fromNumber o f₂ num ≠ .running → PointGroup.fromNumber o f₁ num = PointGroup.fromNumber o f₂ num) := by
  have key : ∀ {α : Type} (F : ℕ → Outcome α), (∀ f n, Outcome.Le (F f) (F (f + n))) → F f₁ ≠ .running → F f₂ ≠ .running →
      F f₁ = F f₂ := by
    intro α F hF h1 h2
    rcases le_total f₁ f₂ with h | h
    · obtain ⟨n, rfl⟩ := Nat.exists_eq_add_of_le h
      exact (hF f₁ n).resolve_left h1
    · obtain ⟨n, rfl⟩ := Nat.exists_eq_add_of_le h
      exact ((hF f₂ n).resolve_left h2).symm
  refine ⟨key (fun f => sa.getSpaceGroupInfo h f s) fun f n => ?_, key (fun f => sa.getStandardPrimitiveStructure h f s) fun f n => ?_,
    key (fun f => sa.getStandardConventionalStructure h f s) fun f n => ?_,
    fun t d => key (fun f => s.applyTransformation f t d) fun f n => ?_,
    fun ops t tols => key (fun f => SpaceGroup.applyTransformation f ops t tols) fun f n => ?_,
    fun gens tols => key (fun f => SpaceGroup.fromGenerators f gens tols) fun f n => ?_,
    fun o num => key (fun f => PointGroup.fromNumber o f num) fun f n => ?_⟩
  · exact infoLe sa h f n s
  · exact standardLe sa h f n s
  · unfold SymmetryAnalyzer.getStandardConventionalStructure
    exact Outcome.Le.bind' fun _ => Outcome.Le.bind' fun _ => Outcome.Le.bind' fun _ => applyTransformation_le _ _ _ _ _
  · exact applyTransformation_le _ _ _ _ _
  · exact sgApply_le _ _ _ _ _
  · exact sgGenLoop_le _ _ _ _ _
  · exact fromNumber_le _ _ _ _

end

/-- the operations of point group 20 are not complete after three rounds; after ten they are the eight operations found after a hundred. -/
example : PointGroup.fromNumber (fun _ l => l) 3 20 = .running ∧ ∃ pg, PointGroup.fromNumber (fun _ l => l) 10 20 = .ret pg ∧
    pg.operations.length = 8 ∧ PointGroup.fromNumber (fun _ l => l) 100 20 = .ret pg := by
  have h3 : (match PointGroup.fromNumber (fun _ l => l) 3 20 with | .running => true | _ => false) = true := by decide +kernel
  have h10 : (match PointGroup.fromNumber (fun _ l => l) 10 20 with | .ret pg => decide (pg.operations.length = 8) | _ => false) =
      true := by decide +kernel
  cases e : PointGroup.fromNumber (fun _ l => l) 10 20 with
  | ret pg =>
    rw [e] at h10
    refine ⟨?_, pg, rfl, of_decide_eq_true h10, (fromNumber_le (fun _ l => l) 10 90 20).ret e⟩
    cases e3 : PointGroup.fromNumber (fun _ l => l) 3 20 with
    | running => rfl
    | ret _ => rw [e3] at h3; cases h3
    | panic _ => rw [e3] at h3; cases h3
  | panic _ => rw [e] at h10; cases h10
  | running => rw [e] at h10; cases h10

end CrystSymm
