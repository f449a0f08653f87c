import Verif.Model.SpaceGroup
import Verif.Props.SymmOp

/-! # The loops of `ops_from_generators` -/

set_option autoImplicit false
set_option linter.unusedSectionVars false

namespace CrystSymm

open Spec SpaceGroup

section
variable {K : Type} [Add K] [Sub K] [Mul K] [Div K] [Neg K] [Zero K] [One K] [IntCast K]
  [LT K] [LE K] [DecidableLT K] [DecidableLE K] [BEq K] [FRound K]

/-- the operations derived from the generators by the crate's product, each product normalised. -/
inductive Derived (tols : Vec3 K) (gens : List (SymmOp K)) : SymmOp K → Prop
  | gen {g} : g ∈ gens → Derived tols gens g
  | prod {a b} : Derived tols gens a → Derived tols gens b → Derived tols gens ((a * b).normalize tols)

theorem genFold (tols : Vec3 K) (s : List (SymmOp K)) : ∀ (ps : List (SymmOp K × SymmOp K)) (b : List (SymmOp K)),
    (ps.foldl (genStep tols) (s ++ b, b)).1 = s ++ (ps.foldl (genStep tols) (s ++ b, b)).2 ∧
    b <+: (ps.foldl (genStep tols) (s ++ b, b)).2 ∧
    ∀ x ∈ (ps.foldl (genStep tols) (s ++ b, b)).2, x ∈ b ∨ ∃ p ∈ ps, x = (p.1 * p.2).normalize tols := by
  intro ps
  induction ps with
  | nil => intro b; exact ⟨rfl, List.prefix_refl _, fun x hx => Or.inl hx⟩
  | cons p ps ih =>
    intro b
    rw [List.foldl_cons]
    by_cases h : ((s ++ b).any fun symmOp => symmOp.isApproxEq (p.1 * p.2) tols) = true
    · have e : genStep tols (s ++ b, b) p = (s ++ b, b) := by simp only [genStep]; rw [if_pos h]
      rw [e]
      obtain ⟨h1, h2, h3⟩ := ih b
      refine ⟨h1, h2, fun x hx => ?_⟩
      rcases h3 x hx with hx | ⟨q, hq, rfl⟩
      · exact Or.inl hx
      · exact Or.inr ⟨q, by simp [hq], rfl⟩
    · have e : genStep tols (s ++ b, b) p =
          (s ++ (b ++ [(p.1 * p.2).normalize tols]), b ++ [(p.1 * p.2).normalize tols]) := by
        simp only [genStep]; rw [if_neg h, List.append_assoc]
      rw [e]
      obtain ⟨h1, h2, h3⟩ := ih (b ++ [(p.1 * p.2).normalize tols])
      refine ⟨h1, (List.prefix_append _ _).trans h2, fun x hx => ?_⟩
      rcases h3 x hx with hx | ⟨q, hq, rfl⟩
      · rcases List.mem_append.1 hx with hx | hx
        · exact Or.inl hx
        · exact Or.inr ⟨p, by simp, List.mem_singleton.1 hx⟩
      · exact Or.inr ⟨q, by simp [hq], rfl⟩

/-- what one round adds. -/
theorem genRound_spec (tols : Vec3 K) (s n : List (SymmOp K)) :
    (genRound tols s n).1 = s ++ (genRound tols s n).2 ∧
    ∀ x ∈ (genRound tols s n).2, ∃ m1 ∈ s, ∃ m2 ∈ n, x = (m1 * m2).normalize tols := by
  have h := genFold tols s (s.flatMap fun m1 => n.map fun m2 => (m1, m2)) []
  rw [List.append_nil] at h
  refine ⟨h.1, fun x hx => ?_⟩
  rcases h.2.2 x hx with hx | ⟨p, hp, rfl⟩
  · simp at hx
  · obtain ⟨m1, h1, hp⟩ := List.mem_flatMap.1 hp
    obtain ⟨m2, h2, rfl⟩ := List.mem_map.1 hp
    exact ⟨m1, h1, m2, h2, rfl⟩

/-- an invariant of the rounds holds at the end. -/
theorem genLoop_ind {tols : Vec3 K} {P : List (SymmOp K) → List (SymmOp K) → Prop}
    (hP : ∀ s n, n ≠ [] → P s n → P (genRound tols s n).1 (genRound tols s n).2) :
    ∀ (fuel : ℕ) (s n ops : List (SymmOp K)), P s n → genLoop tols fuel s n = .ret ops → P ops [] := by
  intro fuel
  induction fuel with
  | zero => intro s n ops _ h; simp [genLoop] at h
  | succ fuel ih =>
    intro s n ops hs h
    rw [genLoop] at h
    cases n with
    | nil =>
      rw [if_pos (by simp), Outcome.ret.injEq] at h
      exact h ▸ hs
    | cons a n =>
      rw [if_neg (by simp)] at h
      exact ih _ _ _ (hP _ _ (by simp) hs) h

end

section
variable {K : Type} [Field K] [LinearOrder K] [IsStrictOrderedRing K] [FloorRing K]

theorem normalize_same (o : SymmOp K) (tols : Vec3 K) :
    (o.normalize tols).rotation = o.rotation ∧ SamePoint (o.normalize tols).translation o.translation :=
  ⟨rfl, normComp_sameMod1 _ _, normComp_sameMod1 _ _, normComp_sameMod1 _ _⟩

theorem samePoint_rfl (u : Vec3 K) : SamePoint u u :=
  ⟨⟨0, by simp⟩, ⟨0, by simp⟩, ⟨0, by simp⟩⟩

theorem isApproxEq_normalize {tols : Vec3 K} (ht : TolOK tols) (a o : SymmOp K) :
    a.isApproxEq (o.normalize tols) tols = a.isApproxEq o tols :=
  C07_is_approx_eq_lattice a a _ _ tols ht ⟨rfl, samePoint_rfl _⟩ (normalize_same o tols)

theorem normalize_isApproxEq {tols : Vec3 K} (ht : TolOK tols) (o : SymmOp K) :
    (o.normalize tols).isApproxEq o tols = true := by
  rw [C07_is_approx_eq_symm _ _ _ ht, isApproxEq_normalize ht]
  exact C07_is_approx_eq_refl o tols ht

theorem genFold_cover {tols : Vec3 K} (ht : TolOK tols) (s : List (SymmOp K)) :
    ∀ (ps : List (SymmOp K × SymmOp K)) (b : List (SymmOp K)),
    (∀ p ∈ ps, ∃ z ∈ (ps.foldl (genStep tols) (s ++ b, b)).1, z.isApproxEq (p.1 * p.2) tols = true) ∧
    ((s ++ b).Pairwise (fun x y => x.isApproxEq y tols = false) →
      (ps.foldl (genStep tols) (s ++ b, b)).1.Pairwise fun x y => x.isApproxEq y tols = false) ∧
    ((∀ x ∈ s, ∀ y ∈ b, x.isApproxEq y tols = false) → b.Pairwise (fun x y => x.isApproxEq y tols = false) →
      (∀ x ∈ s, ∀ y ∈ (ps.foldl (genStep tols) (s ++ b, b)).2, x.isApproxEq y tols = false) ∧
      (ps.foldl (genStep tols) (s ++ b, b)).2.Pairwise fun x y => x.isApproxEq y tols = false) := by
  intro ps
  induction ps with
  | nil => intro b; exact ⟨by simp, id, fun h1 h2 => ⟨h1, h2⟩⟩
  | cons p ps ih =>
    intro b
    rw [List.foldl_cons]
    by_cases h : ((s ++ b).any fun symmOp => symmOp.isApproxEq (p.1 * p.2) tols) = true
    · have e : genStep tols (s ++ b, b) p = (s ++ b, b) := by simp only [genStep]; rw [if_pos h]
      rw [e]
      obtain ⟨h1, h2, h3⟩ := ih b
      refine ⟨fun q hq => ?_, h2, h3⟩
      rcases List.mem_cons.1 hq with rfl | hq
      · obtain ⟨z, hz, hh⟩ := List.any_eq_true.1 h
        refine ⟨z, ?_, hh⟩
        obtain ⟨g1, g2, -⟩ := genFold tols s ps b
        rw [g1]
        rcases List.mem_append.1 hz with hz | hz
        · exact List.mem_append_left _ hz
        · exact List.mem_append_right _ (g2.subset hz)
      · exact h1 q hq
    · have e : genStep tols (s ++ b, b) p =
          (s ++ (b ++ [(p.1 * p.2).normalize tols]), b ++ [(p.1 * p.2).normalize tols]) := by
        simp only [genStep]; rw [if_neg h, List.append_assoc]
      rw [e]
      obtain ⟨h1, h2, h3⟩ := ih (b ++ [(p.1 * p.2).normalize tols])
      have hno : ∀ x ∈ s ++ b, x.isApproxEq ((p.1 * p.2).normalize tols) tols = false := by
        intro x hx
        rw [isApproxEq_normalize ht, Bool.eq_false_iff]
        intro hc
        exact h (List.any_eq_true.2 ⟨x, hx, hc⟩)
      refine ⟨fun q hq => ?_, fun hp => h2 ?_, fun hsb hb => h3 ?_ ?_⟩
      · rcases List.mem_cons.1 hq with rfl | hq
        · refine ⟨_, ?_, normalize_isApproxEq ht _⟩
          obtain ⟨g1, g2, -⟩ := genFold tols s ps (b ++ [(q.1 * q.2).normalize tols])
          rw [g1]
          exact List.mem_append_right _ (g2.subset (by simp))
        · exact h1 q hq
      · rw [← List.append_assoc, List.pairwise_append]
        exact ⟨hp, by simp, fun x hx y hy => by rw [List.mem_singleton.1 hy]; exact hno x hx⟩
      · intro x hx y hy
        rcases List.mem_append.1 hy with hy | hy
        · exact hsb x hx y hy
        · rw [List.mem_singleton.1 hy]; exact hno x (by simp [hx])
      · rw [List.pairwise_append]
        exact ⟨hb, by simp, fun x hx y hy => by
          rw [List.mem_singleton.1 hy]; exact hno x (by simp [hx])⟩

theorem genRound_cover {tols : Vec3 K} (ht : TolOK tols) (s n : List (SymmOp K)) :
    (∀ m1 ∈ s, ∀ m2 ∈ n, ∃ z ∈ (genRound tols s n).1, z.isApproxEq (m1 * m2) tols = true) ∧
    (s.Pairwise (fun x y => x.isApproxEq y tols = false) →
      (genRound tols s n).1.Pairwise fun x y => x.isApproxEq y tols = false) ∧
    (∀ x ∈ s, ∀ y ∈ (genRound tols s n).2, x.isApproxEq y tols = false) ∧
    (genRound tols s n).2.Pairwise fun x y => x.isApproxEq y tols = false := by
  have h := genFold_cover ht s (s.flatMap fun m1 => n.map fun m2 => (m1, m2)) []
  rw [List.append_nil] at h
  refine ⟨fun m1 h1 m2 h2 => ?_, h.2.1, h.2.2 (by simp) (by simp)⟩
  exact h.1 (m1, m2) (List.mem_flatMap.2 ⟨m1, h1, List.mem_map.2 ⟨m2, h2, rfl⟩⟩)

end

end CrystSymm
