import Verif.Proofs.Generators
import Verif.Props.PointGroup
import Verif.Props.SpaceGroupTables
import Verif.Proofs.CrateProduct
import Mathlib.Data.Int.Interval
import Mathlib.Data.Fintype.Prod
import Mathlib.Order.Interval.Finset.Defs

/-! # C37: `SpaceGroup::from_generators` -/

set_option autoImplicit false
set_option linter.unusedSectionVars false

namespace CrystSymm

open Spec SpaceGroup

section
variable {K : Type} [Add K] [Sub K] [Mul K] [Div K] [Neg K] [Zero K] [One K] [IntCast K]
  [LT K] [LE K] [DecidableLT K] [DecidableLE K] [BEq K] [FRound K]

/-- **C37 (partial): generators and soundness.** For every scalar arithmetic and all tolerances the operations returned
begin with the generators, and every other one is derived from them by products. -/
theorem C37_contains_generators_partial (fuel : ℕ) (gens ops : List (SymmOp K)) (tols : Vec3 K)
    (h : fromGenerators fuel gens tols = .ret ops) : gens <+: ops ∧ ∀ x ∈ ops, Derived tols gens x := by
  have := genLoop_ind (tols := tols) (P := fun s n => gens <+: s ∧ (∀ x ∈ s, Derived tols gens x) ∧
    ∀ x ∈ n, x ∈ s) (by
      rintro s n - ⟨h1, h2, h3⟩
      obtain ⟨e, hx⟩ := genRound_spec tols s n
      refine ⟨?_, ?_, ?_⟩
      · rw [e]; exact h1.trans (List.prefix_append _ _)
      · intro x hm
        rw [e] at hm
        rcases List.mem_append.1 hm with hm | hm
        · exact h2 x hm
        · obtain ⟨m1, hm1, m2, hm2, rfl⟩ := hx x hm
          exact .prod (h2 m1 hm1) (h2 m2 (h3 m2 hm2))
      · intro x hm
        rw [e]
        exact List.mem_append_right _ hm) fuel gens gens ops
    ⟨List.prefix_refl _, fun x hx => .gen hx, fun x hx => hx⟩ h
  exact ⟨this.1, this.2.1⟩

end

section
variable {K : Type} [Field K] [LinearOrder K] [IsStrictOrderedRing K] [FloorRing K]

/-- **C37 (partial): pairwise different.** If the generators are pairwise different (up to lattice vectors and
tolerance), so are the operations returned; and every product of two generators, and of a generator and an operation
returned, is among them. -/
theorem C37_pairwise_different_partial (fuel : ℕ) (gens ops : List (SymmOp K)) (tols : Vec3 K) (ht : TolOK tols)
    (h : fromGenerators fuel gens tols = .ret ops) :
    (gens.Pairwise (fun x y => ¬ ApproxSame x y tols) → ops.Pairwise fun x y => ¬ ApproxSame x y tols) ∧
      ∀ g ∈ gens, ∀ x ∈ ops, ∃ z ∈ ops, ApproxSame z (g * x) tols := by
  have hiff : ∀ l : List (SymmOp K), l.Pairwise (fun x y => ¬ ApproxSame x y tols) ↔
      l.Pairwise fun x y => x.isApproxEq y tols = false := by
    intro l
    apply List.Pairwise.iff
    intro x y
    rw [← C07_is_approx_eq_iff _ _ _ ht, Bool.not_eq_true]
  have := genLoop_ind (tols := tols) (P := fun s n =>
    (gens.Pairwise (fun x y => ¬ ApproxSame x y tols) → s.Pairwise fun x y => ¬ ApproxSame x y tols) ∧
    (∀ g ∈ gens, g ∈ s) ∧ ∀ g ∈ gens, ∀ x ∈ s, x ∉ n → ∃ z ∈ s, ApproxSame z (g * x) tols) (by
      rintro s n - ⟨h1, h2, h3⟩
      obtain ⟨c1, c2, -⟩ := genRound_cover ht s n
      obtain ⟨e, -⟩ := genRound_spec tols s n
      refine ⟨fun hg => (hiff _).2 (c2 ((hiff _).1 (h1 hg))), ?_, ?_⟩
      · intro g hg
        rw [e]
        exact List.mem_append_left _ (h2 g hg)
      · intro g hg x hx hn
        rw [e] at hx
        rcases List.mem_append.1 hx with hx | hx
        · by_cases hxn : x ∈ n
          · obtain ⟨z, hz, hh⟩ := c1 g (h2 g hg) x hxn
            exact ⟨z, hz, (C07_is_approx_eq_iff _ _ _ ht).1 hh⟩
          · obtain ⟨z, hz, hh⟩ := h3 g hg x hx hxn
            exact ⟨z, by rw [e]; exact List.mem_append_left _ hz, hh⟩
        · exact absurd hx hn) fuel gens gens ops
    ⟨id, fun g hg => hg, fun g _ x hx hn => absurd hx hn⟩ h
  exact ⟨this.1, fun g hg x hx => this.2.2 g hg x hx (by simp)⟩

/-! ## Termination -/

/-- the cell of a translation in a partition of the unit cell into boxes of the size of the tolerances. -/
def boxOf (tols : Vec3 K) (o : SymmOp K) : Mat3 Int8 × ℤ × ℤ × ℤ :=
  (o.rotation, ⌊o.translation.x / tols.x⌋, ⌊o.translation.y / tols.y⌋, ⌊o.translation.z / tols.z⌋)

theorem near_of_floor {x y t : K} (ht : 0 < t) (h : ⌊x / t⌋ = ⌊y / t⌋) : NearInt (x - y) t := by
  refine ⟨0, ?_⟩
  have := Int.abs_sub_lt_one_of_floor_eq_floor h
  rw [← sub_div, abs_div, abs_of_pos ht, div_lt_one ht] at this
  simpa using this

/-- normalised operations. -/
def Normalised (tols : Vec3 K) (o : SymmOp K) : Prop := ∃ o', o = SymmOp.normalize o' tols

theorem floor_mem {t v : K} (h0 : 0 < t) (h1 : t ≤ 1 / 2) : ⌊normComp t v / t⌋ ∈ Finset.Icc (-1 : ℤ) ⌊1 / t⌋ := by
  obtain ⟨a, b⟩ := normComp_mem h0.le (by linarith) v
  rw [Finset.mem_Icc]
  constructor
  · rw [Int.le_floor, le_div_iff₀ h0]
    push_cast
    linarith
  · apply Int.floor_le_floor
    rw [div_le_div_iff_of_pos_right h0]
    linarith

/-- pairwise different normalised operations are bounded in number. -/
theorem normalised_bound {tols : Vec3 K} (ht : TolOK tols) : ∃ N : ℕ, ∀ l : List (SymmOp K),
    (∀ o ∈ l, Normalised tols o) → l.Pairwise (fun x y => x.isApproxEq y tols = false) → l.length ≤ N := by
  have : Fintype (Mat3 Int8) := Fintype.ofFinite _
  classical
  let F : Finset (Mat3 Int8 × ℤ × ℤ × ℤ) := Finset.univ ×ˢ (Finset.Icc (-1 : ℤ) ⌊1 / tols.x⌋ ×ˢ
    (Finset.Icc (-1 : ℤ) ⌊1 / tols.y⌋ ×ˢ Finset.Icc (-1 : ℤ) ⌊1 / tols.z⌋))
  refine ⟨F.card, fun l hl hp => ?_⟩
  have hnd : (l.map (boxOf tols)).Nodup := by
    rw [List.Nodup, List.pairwise_map]
    refine hp.imp ?_
    intro x y hxy he
    rw [Bool.eq_false_iff] at hxy
    apply hxy
    rw [C07_is_approx_eq_iff _ _ _ ht]
    simp only [boxOf, Prod.mk.injEq] at he
    exact ⟨he.1, near_of_floor ht.1.1 he.2.1, near_of_floor ht.2.1.1 he.2.2.1, near_of_floor ht.2.2.1 he.2.2.2⟩
  have hsub : (l.map (boxOf tols)).toFinset ⊆ F := by
    intro b hb
    rw [List.mem_toFinset] at hb
    obtain ⟨o, ho, rfl⟩ := List.mem_map.1 hb
    obtain ⟨o', rfl⟩ := hl o ho
    simp only [F, Finset.mem_product, Finset.mem_univ, true_and]
    exact ⟨floor_mem ht.1.1 ht.1.2, floor_mem ht.2.1.1 ht.2.1.2, floor_mem ht.2.2.1 ht.2.2.2⟩
  have := Finset.card_le_card hsub
  rwa [List.toFinset_card_of_nodup hnd, List.length_map] at this

/-- **C37 (termination).** `from_generators` ends after a number of rounds that depends only on the tolerances. -/
theorem C37_terminates (tols : Vec3 K) (ht : TolOK tols) : ∃ N, ∀ fuel ≥ N, ∀ gens : List (SymmOp K),
    ∃ ops, fromGenerators fuel gens tols = .ret ops := by
  obtain ⟨N, hN⟩ := normalised_bound ht
  refine ⟨N + 2, fun fuel hf gens => ?_⟩
  have key : ∀ (fuel : ℕ) (s n add : List (SymmOp K)), s = gens ++ add → (∀ o ∈ add, Normalised tols o) →
      add.Pairwise (fun x y => x.isApproxEq y tols = false) → N + 2 ≤ fuel + add.length →
      ∃ ops, genLoop tols fuel s n = .ret ops := by
    intro fuel
    induction fuel with
    | zero =>
      intro s n add _ h1 h2 h3
      have := hN add h1 h2
      omega
    | succ fuel ih =>
      intro s n add hs h1 h2 h3
      rw [genLoop]
      cases n with
      | nil => exact ⟨s, by simp⟩
      | cons a n =>
        rw [if_neg (by simp)]
        obtain ⟨e, hx⟩ := genRound_spec tols s (a :: n)
        obtain ⟨-, -, c3, c4⟩ := genRound_cover ht s (a :: n)
        cases hr : (genRound tols s (a :: n)).2 with
        | nil =>
          have := hN add h1 h2
          obtain ⟨f, rfl⟩ : ∃ f, fuel = f + 1 := ⟨fuel - 1, by omega⟩
          rw [genLoop]
          exact ⟨_, if_pos (by simp)⟩
        | cons b bs =>
          rw [hr] at e hx c3 c4
          refine ih _ _ (add ++ b :: bs) (by rw [e, hs, List.append_assoc]) ?_ ?_ ?_
          · intro o ho
            rcases List.mem_append.1 ho with ho | ho
            · exact h1 o ho
            · obtain ⟨m1, -, m2, -, rfl⟩ := hx o ho
              exact ⟨_, rfl⟩
          · rw [List.pairwise_append]
            exact ⟨h2, c4, fun x hxa y hy => c3 x (by rw [hs]; exact List.mem_append_right _ hxa) y hy⟩
          · rw [List.length_append, List.length_cons]; omega
  exact key fuel gens gens [] (by simp) (by simp) (by simp) (by simpa using hf)

/-! ## Commuting rotations -/

/-- the translation is a multiple of `1 / N`. -/
def OnGrid (N : ℕ) (o : SymmOp K) : Prop :=
  ∃ i j k : ℤ, o.translation = ⟨(i : K) / N, (j : K) / N, (k : K) / N⟩

theorem sameMod1_of_near {N : ℕ} (hN : 0 < N) {i j : ℤ} {t : K} (ht : t ≤ 1 / N)
    (h : NearInt ((i : K) / N - (j : K) / N) t) : SameMod1 ((i : K) / N) ((j : K) / N) := by
  obtain ⟨n, hn⟩ := h
  have hN' : (0 : K) < N := by exact_mod_cast hN
  have h1 : |(i : K) / N - (j : K) / N - n| < 1 / N := lt_of_lt_of_le hn ht
  rw [show (i : K) / N - (j : K) / N - n = ((i - j - n * N : ℤ) : K) / N by push_cast; field_simp, abs_div,
    abs_of_pos hN', div_lt_div_iff_of_pos_right hN', ← Int.cast_abs] at h1
  have h2 : |i - j - n * N| < 1 := by exact_mod_cast h1
  have h3 := Int.abs_lt_one_iff.1 h2
  refine ⟨n, ?_⟩
  rw [← sub_div, div_eq_iff hN'.ne']
  have : i - j = n * N := by omega
  exact_mod_cast this

theorem onGrid_prod {N : ℕ} {a b : SymmOp K} (ha : OnGrid N a) (hb : OnGrid N b) : OnGrid N (a * b) := by
  obtain ⟨i, j, k, h⟩ := ha
  obtain ⟨i', j', k', h'⟩ := hb
  have e : (a * b).translation = (castRot b.rotation : Mat3 K) * a.translation + b.translation := rfl
  refine ⟨(intRot b.rotation).m11 * i + (intRot b.rotation).m12 * j + (intRot b.rotation).m13 * k + i',
    (intRot b.rotation).m21 * i + (intRot b.rotation).m22 * j + (intRot b.rotation).m23 * k + j',
    (intRot b.rotation).m31 * i + (intRot b.rotation).m32 * j + (intRot b.rotation).m33 * k + k', ?_⟩
  rw [e, h, h']
  ext <;> simp [castRot, Mat3.map] <;> ring

theorem onGrid_normalize {N : ℕ} (hN : 0 < N) {a : SymmOp K} (ha : OnGrid N a) (tols : Vec3 K) :
    OnGrid N (a.normalize tols) := by
  have hN' : (N : K) ≠ 0 := by exact_mod_cast hN.ne'
  obtain ⟨i, j, k, h⟩ := ha
  obtain ⟨-, ⟨p, hp⟩, ⟨q, hq⟩, ⟨r, hr⟩⟩ := normalize_same a tols
  refine ⟨i + p * N, j + q * N, k + r * N, ?_⟩
  rw [h] at hp hq hr
  rw [sub_eq_iff_eq_add] at hp hq hr
  ext
  · rw [hp]; push_cast; field_simp; ring
  · rw [hq]; push_cast; field_simp; ring
  · rw [hr]; push_cast; field_simp; ring

theorem apply_congr {a b : SymmOp K} (h : a.rotation = b.rotation ∧ SamePoint a.translation b.translation)
    (x : Vec3 K) : SamePoint (a.apply x) (b.apply x) := by
  obtain ⟨hr, ⟨p, hp⟩, ⟨q, hq⟩, ⟨r, hs⟩⟩ := h
  have e : ∀ o : SymmOp K, o.apply x = (castRot o.rotation : Mat3 K) * x + o.translation := fun _ => rfl
  rw [e, e, hr]
  refine ⟨⟨p, ?_⟩, ⟨q, ?_⟩, ⟨r, ?_⟩⟩
  · rw [← hp]; simp
  · rw [← hq]; simp
  · rw [← hs]; simp

/-- **C37 (partial): closed, for commuting rotations.** If the rotations of the generators commute, their translations
are multiples of `1/N` and the tolerances are at most `1/N`, then the operations returned are closed under composition
modulo lattice translations.  (`ProductOf` and `EntriesLe` exclude overflow of `i8`.)  Missing: rotations that do not
commute, for which the claim is false (below). -/
theorem C37_closed_partial (fuel N : ℕ) (hN : 0 < N) (gens ops : List (SymmOp K)) (tols : Vec3 K) (ht : TolOK tols)
    (hx : tols.x ≤ 1 / N) (hy : tols.y ≤ 1 / N) (hz : tols.z ≤ 1 / N) (hgrid : ∀ g ∈ gens, OnGrid N g)
    (hcomm : ∀ g ∈ gens, ∀ g' ∈ gens, g.rotation * g'.rotation = g'.rotation * g.rotation)
    (hsmall : ∀ m, ProductOf (gens.map SymmOp.rotation) m → EntriesLe 6 m)
    (h : fromGenerators fuel gens tols = .ret ops) :
    ∀ a ∈ ops, ∀ b ∈ ops, ∃ c ∈ ops, ∀ x, SamePoint (c.apply x) (a.apply (b.apply x)) := by
  obtain ⟨-, hder⟩ := C37_contains_generators_partial fuel gens ops tols h
  obtain ⟨-, hleft⟩ := C37_pairwise_different_partial fuel gens ops tols ht h
  have hg1 : ∀ o, Derived tols gens o → OnGrid N o := by
    intro o ho
    induction ho with
    | gen hg => exact hgrid _ hg
    | prod _ _ h1 h2 => exact onGrid_normalize hN (onGrid_prod h1 h2) tols
  have hg2 : ∀ o, Derived tols gens o → ProductOf (gens.map SymmOp.rotation) o.rotation := by
    intro o ho
    induction ho with
    | gen hg => exact ⟨_, [], List.mem_map.2 ⟨_, hg, rfl⟩, by simp, rfl⟩
    | prod _ _ h1 h2 => exact productOf_mul h1 h2
  have hg3 : ∀ o, Derived tols gens o → ∀ g ∈ gens, g.rotation * o.rotation = o.rotation * g.rotation := by
    intro o ho
    induction ho with
    | gen hg => intro g hg'; exact hcomm g hg' _ hg
    | @prod a b _ _ h1 h2 =>
      intro g hg
      show g.rotation * (a.rotation * b.rotation) = a.rotation * b.rotation * g.rotation
      rw [← mat3Int8_mul_assoc, h1 g hg, mat3Int8_mul_assoc, h2 g hg, mat3Int8_mul_assoc]
  have hg4 : ∀ o, Derived tols gens o → ∀ o', Derived tols gens o' →
      o.rotation * o'.rotation = o'.rotation * o.rotation := by
    intro o ho o' ho'
    induction ho with
    | gen hg => exact hg3 o' ho' _ hg
    | @prod a b _ _ h1 h2 =>
      show a.rotation * b.rotation * o'.rotation = o'.rotation * (a.rotation * b.rotation)
      rw [mat3Int8_mul_assoc, h2, ← mat3Int8_mul_assoc, h1, mat3Int8_mul_assoc]
  have hcomp : ∀ o, Derived tols gens o → ∀ o', Derived tols gens o' → ∀ x,
      (o * o').apply x = o'.apply (o.apply x) := by
    intro o ho o' ho'
    exact (C08_product_is_composition_partial o o' (hsmall _ (hg2 o ho)) (hsmall _ (hg2 o' ho'))).2 (hg4 o ho o' ho')
  -- an operation followed by any operation returned is among those returned
  have key : ∀ a, Derived tols gens a → ∀ b ∈ ops, ∃ z ∈ ops, ∀ x, SamePoint (z.apply x) (b.apply (a.apply x)) := by
    intro a ha
    induction ha with
    | @gen g hg =>
      intro b hb
      obtain ⟨z, hz', hr, hx', hy', hz''⟩ := hleft g hg b hb
      refine ⟨z, hz', fun x => ?_⟩
      rw [← hcomp g (.gen hg) b (hder b hb)]
      apply apply_congr
      obtain ⟨i, j, k, e⟩ := hg1 z (hder z hz')
      obtain ⟨i', j', k', e'⟩ := onGrid_prod (hg1 g (.gen hg)) (hg1 b (hder b hb))
      rw [e, e'] at hx' hy' hz''
      rw [e, e']
      exact ⟨hr, sameMod1_of_near hN hx hx', sameMod1_of_near hN hy hy', sameMod1_of_near hN hz hz''⟩
    | @prod m1 m2 d1 d2 h1 h2 =>
      intro b hb
      obtain ⟨z2, hz2, e2⟩ := h2 b hb
      obtain ⟨z1, hz1, e1⟩ := h1 z2 hz2
      refine ⟨z1, hz1, fun x => ?_⟩
      refine samePoint_trans (e1 x) (samePoint_trans (e2 _) ?_)
      apply C10_action_lattice
      rw [← hcomp m1 d1 m2 d2]
      exact samePoint_symm (apply_congr (normalize_same (m1 * m2) tols) x)
  intro a ha b hb
  exact key b (hder b hb) a ha

end

theorem sameMod1_rat {x y : ℚ} : SameMod1 x y ↔ (x - y).den = 1 := by
  constructor
  · rintro ⟨n, hn⟩
    rw [hn]; exact Rat.den_intCast n
  · intro h
    exact ⟨(x - y).num, (Rat.coe_int_num_of_den_eq_one h).symm⟩

instance (u v : Vec3 ℚ) : Decidable (SamePoint u v) :=
  decidable_of_iff ((u.x - v.x).den = 1 ∧ (u.y - v.y).den = 1 ∧ (u.z - v.z).den = 1) (by
    unfold SamePoint; rw [sameMod1_rat, sameMod1_rat, sameMod1_rat])

/-- generators of `P4₁22`: a four-fold screw axis and a two-fold axis. -/
def p4122Gens : List (SymmOp ℚ) :=
  [⟨⟨0, -1, 0, 1, 0, 0, 0, 0, 1⟩, ⟨0, 0, 1 / 4⟩⟩, ⟨⟨1, 0, 0, 0, -1, 0, 0, 0, -1⟩, ⟨0, 0, 0⟩⟩]

/-- what `from_generators` makes of them. -/
def p4122Ops : List (SymmOp ℚ) :=
  [⟨⟨0, -1, 0, 1, 0, 0, 0, 0, 1⟩, ⟨0, 0, 1 / 4⟩⟩, ⟨⟨1, 0, 0, 0, -1, 0, 0, 0, -1⟩, ⟨0, 0, 0⟩⟩,
   ⟨⟨-1, 0, 0, 0, -1, 0, 0, 0, 1⟩, ⟨0, 0, 1 / 2⟩⟩, ⟨⟨0, 1, 0, 1, 0, 0, 0, 0, -1⟩, ⟨0, 0, 3 / 4⟩⟩,
   ⟨⟨0, -1, 0, -1, 0, 0, 0, 0, -1⟩, ⟨0, 0, 1 / 4⟩⟩, ⟨⟨1, 0, 0, 0, 1, 0, 0, 0, 1⟩, ⟨0, 0, 0⟩⟩,
   ⟨⟨0, 1, 0, -1, 0, 0, 0, 0, 1⟩, ⟨0, 0, 3 / 4⟩⟩, ⟨⟨-1, 0, 0, 0, 1, 0, 0, 0, -1⟩, ⟨0, 0, 1 / 2⟩⟩]

/-- **C37 is false:** from generators of `P4₁22` operations are returned that are not closed under composition. -/
theorem C37_false_not_closed : fromGenerators 10 p4122Gens ⟨1 / 100, 1 / 100, 1 / 100⟩ = .ret p4122Ops ∧
    ∃ a ∈ p4122Ops, ∃ b ∈ p4122Ops, ∀ c ∈ p4122Ops,
      ¬ SamePoint (c.apply ⟨1 / 5, 1 / 7, 1 / 11⟩) (a.apply (b.apply ⟨1 / 5, 1 / 7, 1 / 11⟩)) := by
  constructor
  · decide +kernel
  · decide +kernel

/-- a case of C37 for commuting rotations: `Pna2₁` from two generators. -/
example : ∃ ops : List (SymmOp ℚ), fromGenerators 10 [⟨⟨-1, 0, 0, 0, -1, 0, 0, 0, 1⟩, ⟨0, 0, 1 / 2⟩⟩,
      ⟨⟨1, 0, 0, 0, -1, 0, 0, 0, 1⟩, ⟨1 / 2, 1 / 2, 0⟩⟩] ⟨1 / 100, 1 / 100, 1 / 100⟩ = .ret ops ∧ ops.length = 4 ∧
    ∀ a ∈ ops, ∀ b ∈ ops, ∃ c ∈ ops, SamePoint (c.apply ⟨1 / 5, 1 / 7, 1 / 11⟩) (a.apply (b.apply ⟨1 / 5, 1 / 7, 1 / 11⟩)) := by
  refine ⟨[⟨⟨-1, 0, 0, 0, -1, 0, 0, 0, 1⟩, ⟨0, 0, 1 / 2⟩⟩, ⟨⟨1, 0, 0, 0, -1, 0, 0, 0, 1⟩, ⟨1 / 2, 1 / 2, 0⟩⟩,
    ⟨⟨1, 0, 0, 0, 1, 0, 0, 0, 1⟩, ⟨0, 0, 0⟩⟩, ⟨⟨-1, 0, 0, 0, 1, 0, 0, 0, 1⟩, ⟨1 / 2, 1 / 2, 1 / 2⟩⟩], ?_, rfl, ?_⟩ <;>
    decide +kernel

/-! ## The table groups -/

section
variable {K : Type} [Field K] [LinearOrder K] [IsStrictOrderedRing K] [FloorRing K]

theorem rotZ_mul (a b : ZOp) : rotZ a * rotZ b = rotZ (crateZ a b) := by
  have h : ∀ x y : ℤ, Int8.ofInt (x * y) = Int8.ofInt x * Int8.ofInt y := Int8.ofInt_mul
  have h' : ∀ x y : ℤ, Int8.ofInt (x + y) = Int8.ofInt x + Int8.ofInt y := Int8.ofInt_add
  ext <;> simp [rotZ, crateZ, Mat3.map, h, h']

theorem opK_prod (a : ZOp) {b : ZOp} (hb : RangeZ b) : (opK K a * opK K b).rotation = (opK K (crateZ a b)).rotation ∧
    SamePoint (opK K a * opK K b).translation (opK K (crateZ a b)).translation := by
  refine ⟨rotZ_mul a b, ?_⟩
  have e : (opK K a * opK K b).translation =
    (castRot (rotZ b) : Mat3 K) * (opK K a).translation + (opK K b).translation := rfl
  rw [e, castRot_eq_map_intRot, intRot_rotZ hb]
  refine ⟨⟨(b.1 * a.2 + b.2 : Vec3 ℤ).x / 12, ?_⟩, ⟨(b.1 * a.2 + b.2 : Vec3 ℤ).y / 12, ?_⟩,
    ⟨(b.1 * a.2 + b.2 : Vec3 ℤ).z / 12, ?_⟩⟩
  all_goals
    simp only [opK, crateZ, Vec3.map, emod_div, Mat3.mulVec_x, Mat3.mulVec_y, Mat3.mulVec_z,
      Vec3.add_x, Vec3.add_y, Vec3.add_z, Mat3.map]
    push_cast
    field_simp
    ring

theorem rangeZ_crateZ {a b : ZOp} (h : RangeZ (mulZ a b)) : RangeZ (crateZ a b) := by
  refine ⟨h.1, ?_, ?_, ?_⟩ <;> exact ⟨Int.emod_nonneg _ (by norm_num), Int.emod_lt_of_pos _ (by norm_num)⟩

theorem zop_eq_of_approx {a b : ZOp} (ha : RangeZ a) (hb : RangeZ b) {tols : Vec3 K} (hx : tols.x ≤ 1 / 12)
    (hy : tols.y ≤ 1 / 12) (hz : tols.z ≤ 1 / 12) (h : ApproxSame (opK K a) (opK K b) tols) : a = b := by
  refine Prod.ext ?_ ?_
  · rw [← intRot_rotZ ha, ← intRot_rotZ hb]
    exact congrArg intRot (h.1 : rotZ a = rotZ b)
  · have key : ∀ {i j : ℤ} {t : K}, t ≤ 1 / 12 → NearInt ((i : K) / 12 - (j : K) / 12) t →
        SameMod1 ((i : K) / 12) ((j : K) / 12) := by
      intro i j t ht hn
      have := sameMod1_of_near (N := 12) (by norm_num) (i := i) (j := j) (t := t) (by exact_mod_cast ht)
        (by exact_mod_cast hn)
      exact_mod_cast this
    ext
    · exact twelfth_eq ha.2.1 hb.2.1 (key hx h.2.1)
    · exact twelfth_eq ha.2.2.1 hb.2.2.1 (key hy h.2.2.1)
    · exact twelfth_eq ha.2.2.2 hb.2.2.2 (key hz h.2.2.2)

theorem genRound_fixed {tols : Vec3 K} {s n : List (SymmOp K)}
    (h : ∀ m1 ∈ s, ∀ m2 ∈ n, ∃ z ∈ s, z.isApproxEq (m1 * m2) tols = true) : genRound tols s n = (s, []) := by
  have key : ∀ ps : List (SymmOp K × SymmOp K), (∀ p ∈ ps, ∃ z ∈ s, z.isApproxEq (p.1 * p.2) tols = true) →
      ps.foldl (genStep tols) (s, []) = (s, []) := by
    intro ps
    induction ps with
    | nil => intro _; rfl
    | cons p ps ih =>
      intro hp
      rw [List.foldl_cons]
      have e : genStep tols (s, []) p = (s, []) := by
        simp only [genStep]
        rw [if_pos]
        exact List.any_eq_true.2 (hp p (by simp))
      rw [e]
      exact ih fun q hq => hp q (by simp [hq])
  apply key
  intro p hp
  obtain ⟨m1, h1, hp⟩ := List.mem_flatMap.1 hp
  obtain ⟨m2, h2, rfl⟩ := List.mem_map.1 hp
  exact h m1 h1 m2 h2

/-- **C37 (partial): the table groups.** Given all operations of one of the 230 groups (which are closed under
composition, C39), `from_generators` returns exactly these, except for the 21 groups of `crateBad`, for which it adds
operations that do not belong to the group. -/
theorem C37_table_groups_partial (fuel : ℕ) (hf : 2 ≤ fuel) (sys : LatticeSystem) (n num : ℕ) (codes : List ℕ)
    (table : List (SymmOp K)) (tols : Vec3 K) (ht : TolOK tols) (hx : tols.x ≤ 1 / 12) (hy : tols.y ≤ 1 / 12)
    (hz : tols.z ≤ 1 / 12) (hent : IsTableEntry sys n num codes) (htab : TableOps num codes table) :
    fromGenerators fuel table tols = .ret table ↔ num ∉ crateBad := by
  have hck := entry_check hent
  unfold entryCheck at hck
  simp only [Bool.and_eq_true, decide_eq_true_eq] at hck
  have hsg := hck.1.1
  have hcc : crateCheck (num, codes) = true := by
    obtain ⟨groups, cands, h1, h2, h3⟩ := hent
    exact List.all_eq_true.1 (List.all_eq_true.1 (List.all_eq_true.1 crate_checked _ h1) _ h2) _ h3
  have hcl := closedZ hsg
  rw [tableOps_eq htab]
  unfold crateCheck at hcc
  constructor
  · intro hret hbad
    simp only [List.contains_iff_mem, hbad, if_true] at hcc
    rw [List.any_eq_true] at hcc
    obtain ⟨a, ha, hcc⟩ := hcc
    rw [List.any_eq_true] at hcc
    obtain ⟨b, hb, hcc⟩ := hcc
    obtain ⟨z, hz', hap⟩ := (C37_pairwise_different_partial fuel _ _ tols ht hret).2 (opK K a)
      (List.mem_map.2 ⟨a, ha, rfl⟩) (opK K b) (List.mem_map.2 ⟨b, hb, rfl⟩)
    obtain ⟨c, hc, rfl⟩ := List.mem_map.1 hz'
    rw [← C07_is_approx_eq_iff _ _ _ ht, C07_is_approx_eq_lattice _ _ _ _ tols ht ⟨rfl, samePoint_refl _⟩
        (opK_prod a (groupZ_range b hb)),
      C07_is_approx_eq_iff _ _ _ ht] at hap
    have := zop_eq_of_approx (groupZ_range c hc) (rangeZ_crateZ (groupZ_range _ (hcl a ha b hb))) hx hy hz hap
    rw [this] at hc
    simp only [Bool.not_eq_true', ← Bool.not_eq_true, List.contains_iff_mem] at hcc
    exact hcc (List.mem_map.2 ⟨_, hc, rfl⟩)
  · intro hgood
    simp only [List.contains_iff_mem, hgood, if_false] at hcc
    simp only [List.all_eq_true, decide_eq_true_eq] at hcc
    have hcls := classZ hsg hcc
    obtain ⟨f, rfl⟩ : ∃ f, fuel = f + 2 := ⟨fuel - 2, by omega⟩
    unfold fromGenerators
    rw [SpaceGroup.genLoop]
    by_cases hemp : ((groupZ (num, codes)).map (opK K)).isEmpty = true
    · rw [if_pos hemp]
    · rw [if_neg hemp, genRound_fixed, SpaceGroup.genLoop, if_pos (by simp)]
      intro m1 h1 m2 h2
      obtain ⟨a, ha, rfl⟩ := List.mem_map.1 h1
      obtain ⟨b, hb, rfl⟩ := List.mem_map.1 h2
      refine ⟨opK K (mulZ a b), List.mem_map.2 ⟨_, hcl a ha b hb, rfl⟩, ?_⟩
      rw [C07_is_approx_eq_lattice _ _ _ _ tols ht ⟨rfl, samePoint_refl _⟩
        (opK_prod a (groupZ_range b hb)),
        crateZ_of_class (hcls a ha b hb)]
      exact C07_is_approx_eq_refl _ tols ht

end

end CrystSymm
