import Verif.Proofs.RoundedOps
import Verif.Props.Complete

/-! # C85: comparison, closure and identification of operations in rounded arithmetic -/

set_option autoImplicit false
set_option linter.unusedSectionVars false

namespace CrystSymm

open Spec PointGroup SymmetryAnalyzer SpaceGroup

section
variable {ρ : Rounding} {δ : ℝ}

/-- **C85 (comparison).** Let roundings below 1024 be off by at most `δ`.  If the operations compare equal, then their
values are the same up to lattice vectors and the tolerance plus `2δ`; if these are the same up to the tolerance minus
`2δ`, the operations compare equal. -/
theorem C85_comparison (hδ : Accurate ρ δ) (s t : SymmOp (RNum ρ)) (tols : Vec3 (RNum ρ)) (hs : TransLe 512 s)
    (ht : TransLe 512 t) (htol : TolsIn tols 0) :
    (s.isApproxEq t tols = true → ApproxSame (exactOp s) (exactOp t) (widened tols (2 * δ))) ∧
      (ApproxSame (exactOp s) (exactOp t) (widened tols (-(2 * δ))) → s.isApproxEq t tols = true) :=
  ⟨approx_sound hδ hs ht (by norm_num) htol, approx_complete hδ hs ht (by norm_num) htol⟩

/-! ## Closure -/

theorem TolsIn.zero {tols : Vec3 (RNum ρ)} {c : ℝ} (hc : 0 ≤ c) (h : TolsIn tols c) : TolsIn tols 0 :=
  ⟨⟨by linarith [h.1.1], h.1.2⟩, ⟨by linarith [h.2.1.1], h.2.1.2⟩, by linarith [h.2.2.1], h.2.2.2⟩

theorem near_congr {a b b' t : ℝ} (h : SameMod1 b' b) (hn : NearInt (a - b') t) : NearInt (a - b) t := by
  obtain ⟨m, hm⟩ := h
  obtain ⟨n, hn⟩ := hn
  refine ⟨n + m, ?_⟩
  rw [show a - b - ((n + m : ℤ) : ℝ) = a - b' - n by push_cast; rw [← hm]; ring]
  exact hn

theorem approxSame_mod {s t t' : SymmOp ℝ} {tols : Vec3 ℝ} (hr : t'.rotation = t.rotation)
    (hp : SamePoint t'.translation t.translation) (h : ApproxSame s t' tols) : ApproxSame s t tols :=
  ⟨h.1.trans hr, near_congr hp.1 h.2.1, near_congr hp.2.1 h.2.2.1, near_congr hp.2.2 h.2.2.2⟩

theorem TransClose.symm {c : ℝ} {s t : SymmOp ℝ} (h : TransClose c s t) : TransClose c t s :=
  ⟨by rw [abs_sub_comm]; exact h.1, by rw [abs_sub_comm]; exact h.2.1, by rw [abs_sub_comm]; exact h.2.2⟩

theorem samePoint_comm {a b : Vec3 ℝ} (h : SamePoint a b) : SamePoint b a := by
  obtain ⟨⟨i, hi⟩, ⟨j, hj⟩, ⟨k, hk⟩⟩ := h
  exact ⟨⟨-i, by push_cast; linarith⟩, ⟨-j, by push_cast; linarith⟩, ⟨-k, by push_cast; linarith⟩⟩

/-- what does not match a product is away from its normalisation. -/
theorem far_of_no_match (hδ : Accurate ρ δ) (hd : δ ≤ 1 / 16) {tols : Vec3 (RNum ρ)} (htol : TolsIn tols 0)
    (x a b : SymmOp (RNum ρ)) (hx : TransLe 2 x) (ha : TransLe 2 a) (hb : TransLe 2 b)
    (h : x.isApproxEq (a * b) tols = false) :
    ¬ ApproxSame (exactOp x) (exactOp ((a * b).normalize tols)) (widened tols (-(3 * δ))) := by
  intro hc
  rw [Bool.eq_false_iff] at h
  apply h
  obtain ⟨-, -, hle⟩ := mul_close hδ hd ha hb
  obtain ⟨⟨o', hr, hp, hcl⟩, -⟩ := normalize_close hδ hd htol (a * b)
  refine approx_complete hδ hx hle (by norm_num) htol ?_
  have h1 : ApproxSame (exactOp x) o' (widened tols (-(2 * δ))) :=
    approxSame_close (c := δ) (t := exactOp ((a * b).normalize tols)) hr hcl.symm
      (by simp only [widened]; linarith) (by simp only [widened]; linarith) (by simp only [widened]; linarith) hc
  exact approxSame_mod (t' := o') hr hp h1

/-- translations of bounded size and pairwise apart are bounded in number. -/
theorem apart_bound {tols : Vec3 (RNum ρ)} (htol : TolsIn tols (3 * δ)) :
    ∃ N : ℕ, ∀ l : List (SymmOp (RNum ρ)), (∀ o ∈ l, TransLe 2 o) →
      l.Pairwise (fun x y => ¬ ApproxSame (exactOp x) (exactOp y) (widened tols (-(3 * δ)))) → l.length ≤ N := by
  have : Fintype (Mat3 Int8) := Fintype.ofFinite _
  classical
  obtain ⟨⟨x1, -⟩, ⟨y1, -⟩, z1, -⟩ := htol
  set w := widened tols (-(3 * δ)) with hw
  have wx : 0 < w.x := by rw [hw]; simp only [widened]; linarith
  have wy : 0 < w.y := by rw [hw]; simp only [widened]; linarith
  have wz : 0 < w.z := by rw [hw]; simp only [widened]; linarith
  let F : Finset (Mat3 Int8 × ℤ × ℤ × ℤ) := Finset.univ ×ˢ (Finset.Icc ⌊-2 / w.x⌋ ⌊2 / w.x⌋ ×ˢ
    (Finset.Icc ⌊-2 / w.y⌋ ⌊2 / w.y⌋ ×ˢ Finset.Icc ⌊-2 / w.z⌋ ⌊2 / w.z⌋))
  have hmem : ∀ {v t : ℝ}, 0 < t → |v| ≤ 2 → ⌊v / t⌋ ∈ Finset.Icc ⌊-2 / t⌋ ⌊2 / t⌋ := by
    intro v t ht hv
    rw [abs_le] at hv
    rw [Finset.mem_Icc]
    exact ⟨Int.floor_le_floor (div_le_div_of_nonneg_right hv.1 ht.le),
      Int.floor_le_floor (div_le_div_of_nonneg_right hv.2 ht.le)⟩
  refine ⟨F.card, fun l hl hp => ?_⟩
  have hnd : (l.map fun o => boxOf w (exactOp o)).Nodup := by
    rw [List.Nodup, List.pairwise_map]
    refine hp.imp ?_
    intro x y hxy he
    apply hxy
    simp only [boxOf, Prod.mk.injEq] at he
    exact ⟨he.1, near_of_floor wx he.2.1, near_of_floor wy he.2.2.1, near_of_floor wz he.2.2.2⟩
  have hsub : (l.map fun o => boxOf w (exactOp o)).toFinset ⊆ F := by
    intro b hb
    rw [List.mem_toFinset] at hb
    obtain ⟨o, ho, rfl⟩ := List.mem_map.1 hb
    obtain ⟨h1, h2, h3⟩ := hl o ho
    simp only [F, boxOf, Finset.mem_product, Finset.mem_univ, true_and]
    exact ⟨hmem wx h1, hmem wy h2, hmem wz h3⟩
  have := Finset.card_le_card hsub
  rwa [List.toFinset_card_of_nodup hnd, List.length_map] at this

/-- **C85 (termination).** With rounding errors of less than a third of the tolerances, `from_generators` ends, after a
number of rounds that depends only on the tolerances, for all generators with translations of at most two cells. -/
theorem C85_from_generators_ends (hδ : Accurate ρ δ) (hd : δ ≤ 1 / 16) (tols : Vec3 (RNum ρ))
    (htol : TolsIn tols (3 * δ)) : ∃ N, ∀ fuel ≥ N, ∀ gens : List (SymmOp (RNum ρ)), (∀ g ∈ gens, TransLe 2 g) →
      ∃ ops, fromGenerators fuel gens tols = .ret ops := by
  have h0 := accurate_nonneg hδ
  have ht0 := htol.zero (by linarith)
  obtain ⟨N, hN⟩ := apart_bound htol
  exact ⟨N + 2, fun fuel hf gens hg => genLoop_ends (fun a b _ _ => (normalize_close hδ hd ht0 (a * b)).2)
    (fun x a b => far_of_no_match hδ hd ht0 x a b) hN gens hg fuel hf⟩

/-- what covers a product is close to the exact product of the values. -/
theorem covers_close (hδ : Accurate ρ δ) (hd : δ ≤ 1 / 16) {tols : Vec3 (RNum ρ)} (htol : TolsIn tols 0)
    {z a b : SymmOp (RNum ρ)} (hz : TransLe 2 z) (ha : TransLe 2 a) (hb : TransLe 2 b) (h : CoversProd tols z (a * b)) :
    ApproxSame (exactOp z) (exactOp a * exactOp b) (widened tols (14 * δ)) := by
  have h0 := accurate_nonneg hδ
  obtain ⟨hr, hc, hle⟩ := mul_close hδ hd ha hb
  have h1 : ApproxSame (exactOp z) (exactOp (a * b)) (widened tols (2 * δ)) := by
    rcases h with h | rfl
    · exact approx_sound hδ hz hle (by norm_num) htol h
    · obtain ⟨⟨o', hr', hp, hcl⟩, -⟩ := normalize_close hδ hd htol (a * b)
      have hself : ∀ {t : ℝ}, 0 < t → ∀ x : ℝ, NearInt (x - x) t := fun ht x => ⟨0, by simpa using ht⟩
      refine approxSame_mod (t' := o') hr' hp ?_
      refine approxSame_close (c := δ) (tols := widened tols 0) (t := exactOp ((a * b).normalize tols)) hr' hcl.symm
        (by simp only [widened]; linarith) (by simp only [widened]; linarith) (by simp only [widened]; linarith) ?_
      refine ⟨rfl, hself ?_ _, hself ?_ _, hself ?_ _⟩ <;> simp only [widened, add_zero]
      exacts [htol.1.1, htol.2.1.1, htol.2.2.1]
  exact approxSame_close (c := 12 * δ) hr.symm hc.symm (by simp only [widened]; linarith)
    (by simp only [widened]; linarith) (by simp only [widened]; linarith) h1

/-- **C85 (what is returned).** The list returned begins with the generators; if these are apart by the tolerances minus
`3δ`, then so are the operations returned; and the exact product of the values of a generator and of an operation
returned is among the values of these, up to lattice vectors and the tolerances plus `14δ`. -/
theorem C85_products_found (hδ : Accurate ρ δ) (hd : δ ≤ 1 / 16) (tols : Vec3 (RNum ρ)) (htol : TolsIn tols 0)
    (fuel : ℕ) (gens ops : List (SymmOp (RNum ρ))) (hg : ∀ g ∈ gens, TransLe 2 g)
    (h : fromGenerators fuel gens tols = .ret ops) :
    gens <+: ops ∧ (∀ o ∈ ops, TransLe 2 o) ∧
      (gens.Pairwise (fun x y => ¬ ApproxSame (exactOp x) (exactOp y) (widened tols (-(3 * δ)))) →
        ops.Pairwise fun x y => ¬ ApproxSame (exactOp x) (exactOp y) (widened tols (-(3 * δ)))) ∧
      ∀ g ∈ gens, ∀ x ∈ ops, ∃ z ∈ ops, ApproxSame (exactOp z) (exactOp g * exactOp x) (widened tols (14 * δ)) := by
  have := genLoop_ind (tols := tols) (P := fun s n =>
    gens <+: s ∧ (∀ x ∈ s, TransLe 2 x) ∧ (∀ x ∈ n, x ∈ s) ∧
    (gens.Pairwise (fun x y => ¬ ApproxSame (exactOp x) (exactOp y) (widened tols (-(3 * δ)))) →
      s.Pairwise fun x y => ¬ ApproxSame (exactOp x) (exactOp y) (widened tols (-(3 * δ)))) ∧
    ∀ g ∈ gens, ∀ x ∈ s, x ∉ n → ∃ z ∈ s, CoversProd tols z (g * x)) (by
      rintro s n - ⟨h1, h2, h3, h4, h5⟩
      obtain ⟨c1, c2, -⟩ := genRound_far
        (D := fun x y => ¬ ApproxSame (exactOp x) (exactOp y) (widened tols (-(3 * δ))))
        (fun a b _ _ => (normalize_close hδ hd htol (a * b)).2)
        (fun x a b => far_of_no_match hδ hd htol x a b) s n h2 (fun x hx => h2 x (h3 x hx))
      obtain ⟨e, hnew⟩ := genRound_spec tols s n
      refine ⟨?_, ?_, ?_, fun hg => c2 (h4 hg), ?_⟩
      · rw [e]; exact h1.trans (List.prefix_append _ _)
      · intro x hx
        rw [e] at hx
        rcases List.mem_append.1 hx with hx | hx
        · exact h2 x hx
        · obtain ⟨m1, -, m2, -, rfl⟩ := hnew x hx
          exact (normalize_close hδ hd htol (m1 * m2)).2
      · intro x hx
        rw [e]
        exact List.mem_append_right _ hx
      · intro g hg x hx hn
        rw [e] at hx
        rcases List.mem_append.1 hx with hx | hx
        · by_cases hxn : x ∈ n
          · exact c1 g (h1.subset hg) x hxn
          · obtain ⟨z, hz, hh⟩ := h5 g hg x hx hxn
            exact ⟨z, by rw [e]; exact List.mem_append_left _ hz, hh⟩
        · exact absurd hx hn) fuel gens gens ops
    ⟨List.prefix_refl _, hg, fun x hx => hx, id, fun g _ x hx hn => absurd hx hn⟩ h
  obtain ⟨t1, t2, -, t4, t5⟩ := this
  refine ⟨t1, t2, t4, fun g hg' x hx => ?_⟩
  obtain ⟨z, hz, hc⟩ := t5 g hg' x hx (by simp)
  exact ⟨z, hz, covers_close hδ hd htol (t2 z hz) (hg g hg') (t2 x hx) hc⟩

/-! ## Identification -/

/-- **C85 (identification is sound).** If a number is returned, for whatever hash order, then it is between 1 and 230, it
is returned with its own symbol, it is a number of the lattice system whose table has as many operations as were given
(modulo 256), and the value of each of these is that of an operation of the table up to lattice vectors and the
tolerances plus `4δ`. -/
theorem C85_identification_sound (hδ : Accurate ρ δ) (hd : δ ≤ 1 / 16) (h : HashOrders (RNum ρ)) (hv : h.Valid)
    (ops : List (SymmOp (RNum ρ))) (hops : ∀ o ∈ ops, TransLe 512 o) (sys : LatticeSystem) (tols : Vec3 (RNum ρ))
    (htol : TolsIn tols 0) (num : ℕ) (sym : String)
    (hr : identifySpaceGroup h ops sys tols = .ret (some (num, sym))) :
    1 ≤ num ∧ num ≤ 230 ∧ amapGet? sgNumToSymbol num = some sym ∧ num ∈ systemNumbers sys ∧
      ∃ codes, ∃ table : List (SymmOp ℝ), IsTableEntry sys (ops.length % 256) num codes ∧ TableOps num codes table ∧
        ∀ op ∈ ops, ∃ o ∈ table, ApproxSame (exactOp op) o (widened tols (4 * δ)) := by
  rcases identify_any tableOp_rounded h ops sys tols hv with ⟨groups, cands, h1, h2, h3⟩ | ⟨-, h3⟩
  · rw [hr] at h3
    injection h3 with h3
    rw [eq_comm, Option.bind_eq_some_iff] at h3
    obtain ⟨p, hp, h3⟩ := h3
    rw [Option.map_eq_some_iff] at h3
    obtain ⟨sym', hs, e⟩ := h3
    injection e with e1 e2
    subst e1 e2
    have hm := List.mem_of_find?_eq_some hp
    rw [(hv.groups cands).mem_iff] at hm
    have hent : IsTableEntry sys (ops.length % 256) p.1 p.2 := ⟨groups, cands, h1, h2, hm⟩
    obtain ⟨hsys, hb⟩ := entry_system hent
    obtain ⟨table, ht⟩ := tableOps_exists (K := ℝ) hent
    refine ⟨hb.1, hb.2, hs, hsys, p.2, table, hent, ht, ?_⟩
    intro op hop
    have ha := List.find?_some hp
    rw [decide_eq_true_eq] at ha
    obtain ⟨o, ho, hmat⟩ := ha op hop
    obtain ⟨z, hz, rfl⟩ := List.mem_map.1 ho
    obtain ⟨c1, c2, c3⟩ := opR_close hδ hd (groupZ_range z hz)
    rw [tableOps_eq ht]
    refine ⟨opK ℝ z, List.mem_map.2 ⟨z, hz, rfl⟩, ?_⟩
    exact approxSame_close (c := 2 * δ) c1.symm c2.symm (by simp only [widened]; linarith)
      (by simp only [widened]; linarith) (by simp only [widened]; linarith)
      (approx_sound hδ (hops op hop) c3 (by norm_num) htol hmat)
  · rw [hr] at h3
    exact absurd h3 (by simp)

/-- **C85 (table groups are recognised).** Given operations whose values are those of a table group, in any order and up
to lattice vectors and the tolerances minus `4δ`, with tolerances of at most `1/24 - 4δ`, the identification returns
the number of the group with its symbol, for every hash order. -/
theorem C85_table_groups_recognised (hδ : Accurate ρ δ) (hd : δ ≤ 1 / 16) (h : HashOrders (RNum ρ)) (hv : h.Valid)
    (sys : LatticeSystem) (n num : ℕ) (codes : List ℕ) (table : List (SymmOp ℝ)) (ops : List (SymmOp (RNum ρ)))
    (hops : ∀ o ∈ ops, TransLe 512 o) (tols : Vec3 (RNum ρ)) (htol : TolsIn tols 0)
    (hx : tols.x.val ≤ 1 / 24 - 4 * δ) (hy : tols.y.val ≤ 1 / 24 - 4 * δ) (hz : tols.z.val ≤ 1 / 24 - 4 * δ)
    (hent : IsTableEntry sys n num codes) (htab : TableOps num codes table)
    (hsame : SameOps (widened tols (-(4 * δ))) (ops.map exactOp) table) :
    ∃ sym, amapGet? sgNumToSymbol num = some sym ∧
      identifySpaceGroup h ops sys tols = .ret (some (num, sym)) := by
  have h0 := accurate_nonneg hδ
  obtain ⟨tab', hperm, hf2⟩ := hsame
  obtain ⟨table', htab', hlen, -⟩ := C39_tables_are_groups (K := ℝ) sys n num codes hent
  have hlen' : ops.length = n := by
    rw [← List.length_map (f := exactOp), hf2.length_eq, hperm.length_eq, tableOps_eq htab, ← hlen,
      tableOps_eq htab']
  refine identify_unique tableOp_rounded h hv ops sys tols hent hlen' ?_ ?_
  · intro op hop
    obtain ⟨o, ho, ha⟩ := forall₂_left hf2 (List.mem_map_of_mem (f := exactOp) hop)
    rw [hperm.mem_iff, tableOps_eq htab] at ho
    obtain ⟨z, hz', rfl⟩ := List.mem_map.1 ho
    obtain ⟨c1, c2, c3⟩ := opR_close hδ hd (groupZ_range z hz')
    refine ⟨opR ρ z, List.mem_map.2 ⟨z, hz', rfl⟩, ?_⟩
    refine approx_complete hδ (hops op hop) c3 (by norm_num) htol ?_
    exact approxSame_close (c := 2 * δ) c1 c2 (by simp only [widened]; linarith)
      (by simp only [widened]; linarith) (by simp only [widened]; linarith) ha
  · rintro p ⟨a, ha, hna⟩ hall
    have ham : opK ℝ a ∈ tab' := by
      rw [hperm.mem_iff, tableOps_eq htab]
      exact List.mem_map.2 ⟨a, ha, rfl⟩
    obtain ⟨op', hop', hap⟩ := forall₂_right hf2 ham
    obtain ⟨op, hop, rfl⟩ := List.mem_map.1 hop'
    obtain ⟨o, ho, hmat⟩ := hall op hop
    obtain ⟨b, hb, rfl⟩ := List.mem_map.1 ho
    obtain ⟨c1, c2, c3⟩ := opR_close hδ hd (groupZ_range b hb)
    have h1 : ApproxSame (exactOp op) (opK ℝ b) (widened tols (4 * δ)) :=
      approxSame_close (c := 2 * δ) c1.symm c2.symm (by simp only [widened]; linarith)
        (by simp only [widened]; linarith) (by simp only [widened]; linarith)
        (approx_sound hδ (hops op hop) c3 (by norm_num) htol hmat)
    have hself : ∀ t : SymmOp ℝ, TransClose 0 t t := fun t => by simp [TransClose]
    have h2 : ApproxSame (exactOp op) (opK ℝ a) (widened tols (4 * δ)) :=
      approxSame_close (c := 0) rfl (hself _) (by simp only [widened]; linarith)
        (by simp only [widened]; linarith) (by simp only [widened]; linarith) hap
    have := zop_eq_of_near (groupZ_range a ha) (groupZ_range b hb) (by simp only [widened]; linarith)
      (by simp only [widened]; linarith) (by simp only [widened]; linarith) h2 h1
    exact hna (this ▸ hb)

/-! ## Closure and identification of the table groups -/

/-- same rotation, and the translations agree up to a lattice vector and `ν`. -/
def NearlyBy (ν : ℝ) (o q : SymmOp ℝ) : Prop :=
  o.rotation = q.rotation ∧ ∃ w d : Vec3 ℝ, IntVec w ∧ o.translation = q.translation + w + d ∧
    |d.x| < ν ∧ |d.y| < ν ∧ |d.z| < ν

theorem NearlyBy.approx {ν : ℝ} {o q : SymmOp ℝ} (h : NearlyBy ν o q) {tols : Vec3 ℝ} (hx : ν ≤ tols.x)
    (hy : ν ≤ tols.y) (hz : ν ≤ tols.z) : ApproxSame o q tols := by
  obtain ⟨hr, w, d, ⟨i, j, k, rfl⟩, ht, dx, dy, dz⟩ := h
  refine ⟨hr, ⟨i, ?_⟩, ⟨j, ?_⟩, ⟨k, ?_⟩⟩ <;> rw [ht]
  · simp only [Vec3.add_x]
    rw [show q.translation.x + (i : ℝ) + d.x - q.translation.x - i = d.x by ring]; linarith
  · simp only [Vec3.add_y]
    rw [show q.translation.y + (j : ℝ) + d.y - q.translation.y - j = d.y by ring]; linarith
  · simp only [Vec3.add_z]
    rw [show q.translation.z + (k : ℝ) + d.z - q.translation.z - k = d.z by ring]; linarith

/-- operations that are nearly those of a table multiply nearly like these. -/
theorem nearlyBy_prod {ν : ℝ} {a b c : ZOp} (hb : RangeZ b) (hc : c = crateZ a b) {a' b' c' : SymmOp ℝ}
    (ha' : NearlyBy ν a' (opK ℝ a)) (hb' : NearlyBy ν b' (opK ℝ b)) (hc' : NearlyBy ν c' (opK ℝ c)) {tols : Vec3 ℝ}
    (hx : 5 * ν ≤ tols.x) (hy : 5 * ν ≤ tols.y) (hz : 5 * ν ≤ tols.z) :
    ApproxSame c' (a' * b') tols := by
  subst hc
  obtain ⟨ra, w1, d1, ⟨i1, j1, k1, rfl⟩, ta, ax, ay, az⟩ := ha'
  obtain ⟨rb, w2, d2, ⟨i2, j2, k2, rfl⟩, tb, bx, by', bz⟩ := hb'
  obtain ⟨rc, w3, d3, ⟨i3, j3, k3, rfl⟩, tc, cx, cy, cz⟩ := hc'
  obtain ⟨pr, ⟨mx, px⟩, ⟨my, py⟩, ⟨mz, pz⟩⟩ := opK_prod (K := ℝ) a hb
  have e : (a' * b').translation = (castRot b'.rotation : Mat3 ℝ) * a'.translation + b'.translation := rfl
  have e0 : (opK ℝ a * opK ℝ b).translation =
    (castRot (rotZ b) : Mat3 ℝ) * (opK ℝ a).translation + (opK ℝ b).translation := rfl
  have hcr : (castRot (rotZ b) : Mat3 ℝ) = b.1.map fun k : ℤ => (k : ℝ) := by
    rw [castRot_eq_map_intRot, intRot_rotZ hb]
  rw [rb, show (opK ℝ b).rotation = rotZ b from rfl, hcr] at e
  rw [hcr] at e0
  rw [e0] at px py pz
  have hent := hb.1
  simp only [Mat3.toListCM, List.mem_cons, List.not_mem_nil, or_false, forall_eq_or_imp, forall_eq] at hent
  obtain ⟨h11, h21, h31, h12, h22, h32, h13, h23, h33⟩ := hent
  refine ⟨?_, ⟨i3 - (b.1.m11 * i1 + b.1.m12 * j1 + b.1.m13 * k1) - i2 - mx, ?_⟩,
    ⟨j3 - (b.1.m21 * i1 + b.1.m22 * j1 + b.1.m23 * k1) - j2 - my, ?_⟩,
    ⟨k3 - (b.1.m31 * i1 + b.1.m32 * j1 + b.1.m33 * k1) - k2 - mz, ?_⟩⟩
  · rw [rc, ← pr]
    change rotZ a * rotZ b = a'.rotation * b'.rotation
    rw [ra, rb]; rfl
  all_goals rw [e, tc, ta, tb]
  · have hr := row_bound h11 h12 h13 ax ay az
    simp only [Vec3.add_x, Vec3.add_y, Vec3.add_z, Mat3.mulVec_x, Mat3.map] at px ⊢
    push_cast
    rw [abs_lt] at *
    constructor <;> linarith [hr.1, hr.2, cx.1, cx.2, bx.1, bx.2]
  · have hr := row_bound h21 h22 h23 ax ay az
    simp only [Vec3.add_x, Vec3.add_y, Vec3.add_z, Mat3.mulVec_y, Mat3.map] at py ⊢
    push_cast
    rw [abs_lt] at *
    constructor <;> linarith [hr.1, hr.2, cy.1, cy.2, by'.1, by'.2]
  · have hr := row_bound h31 h32 h33 ax ay az
    simp only [Vec3.add_x, Vec3.add_y, Vec3.add_z, Mat3.mulVec_z, Mat3.map] at pz ⊢
    push_cast
    rw [abs_lt] at *
    constructor <;> linarith [hr.1, hr.2, cz.1, cz.2, bz.1, bz.2]

/-- **C85 (closure and identification).** Let the values of the operations be those of a table group, in any order, up to
lattice vectors and `ν`, and the tolerances be between `5ν + 14δ` and `1/24 - 4δ`.  Then the number of the group
is identified, and unless the group is one of the 21 of `crateBad`, `from_generators` returns the list unchanged. -/
theorem C85_group_identified (hδ : Accurate ρ δ) (hd : δ ≤ 1 / 16) (h : HashOrders (RNum ρ)) (hv : h.Valid) (fuel : ℕ)
    (hf : 2 ≤ fuel) (sys : LatticeSystem) (n num : ℕ) (codes : List ℕ) (table table' : List (SymmOp ℝ))
    (ops : List (SymmOp (RNum ρ))) (hops : ∀ o ∈ ops, TransLe 2 o) (tols : Vec3 (RNum ρ))
    {ν : ℝ} (hν : 0 ≤ ν) (htol : TolsIn tols (5 * ν + 14 * δ))
    (hx : tols.x.val ≤ 1 / 24 - 4 * δ) (hy : tols.y.val ≤ 1 / 24 - 4 * δ) (hz : tols.z.val ≤ 1 / 24 - 4 * δ)
    (hent : IsTableEntry sys n num codes) (htab : TableOps num codes table) (hperm : table'.Perm table)
    (hnear : List.Forall₂ (fun o q => NearlyBy ν (exactOp o) q) ops table') :
    (num ∉ crateBad → fromGenerators fuel ops tols = .ret ops) ∧
      ∃ sym, amapGet? sgNumToSymbol num = some sym ∧
        identifySpaceGroup h ops sys tols = .ret (some (num, sym)) := by
  have h0 := accurate_nonneg hδ
  have ht0 := htol.zero (by linarith)
  obtain ⟨⟨x1, -⟩, ⟨y1, -⟩, z1, -⟩ := htol
  have h512 : ∀ o ∈ ops, TransLe 512 o := fun o ho =>
    ⟨(hops o ho).1.trans (by norm_num), (hops o ho).2.1.trans (by norm_num), (hops o ho).2.2.trans (by norm_num)⟩
  refine ⟨?_, C85_table_groups_recognised hδ hd h hv sys n num codes table ops h512 tols ht0 hx hy hz hent htab
    ⟨table', hperm, ?_⟩⟩
  swap
  · rw [List.forall₂_map_left_iff]
    exact hnear.imp fun o q hq => hq.approx (by simp only [widened]; linarith) (by simp only [widened]; linarith)
      (by simp only [widened]; linarith)
  intro hgood
  have htabeq := tableOps_eq htab
  have hck := entry_check hent
  unfold entryCheck at hck
  simp only [Bool.and_eq_true, decide_eq_true_eq] at hck
  have hsg := hck.1.1
  have hcc : crateCheck (num, codes) = true := by
    obtain ⟨groups, cands, h1, h2, h3⟩ := hent
    exact List.all_eq_true.1 (List.all_eq_true.1 (List.all_eq_true.1 crate_checked _ h1) _ h2) _ h3
  have hcl := closedZ hsg
  unfold crateCheck at hcc
  simp only [List.contains_iff_mem, hgood, if_false] at hcc
  simp only [List.all_eq_true, decide_eq_true_eq] at hcc
  have hcls := classZ hsg hcc
  obtain ⟨f, rfl⟩ : ∃ f, fuel = f + 2 := ⟨fuel - 2, by omega⟩
  unfold SpaceGroup.fromGenerators
  rw [SpaceGroup.genLoop]
  by_cases hemp : ops.isEmpty = true
  · rw [if_pos hemp]
  · rw [if_neg hemp, genRound_kept, SpaceGroup.genLoop, if_pos (by simp)]
    intro m1 h1 m2 h2
    obtain ⟨q1, hq1, n1⟩ := forall₂_left hnear h1
    obtain ⟨q2, hq2, n2⟩ := forall₂_left hnear h2
    rw [hperm.mem_iff, htabeq] at hq1 hq2
    obtain ⟨a, ha, rfl⟩ := List.mem_map.1 hq1
    obtain ⟨b, hb, rfl⟩ := List.mem_map.1 hq2
    have hm : opK ℝ (mulZ a b) ∈ table' := by
      rw [hperm.mem_iff, htabeq]; exact List.mem_map.2 ⟨_, hcl a ha b hb, rfl⟩
    obtain ⟨m3, h3, n3⟩ := forall₂_right hnear hm
    refine ⟨m3, h3, ?_⟩
    obtain ⟨c1, c2, c3⟩ := mul_close hδ hd (hops _ h1) (hops _ h2)
    refine approx_complete hδ (hops _ h3) c3 (by norm_num) ht0 ?_
    have := nearlyBy_prod (tols := ⟨5 * ν, 5 * ν, 5 * ν⟩) (groupZ_range b hb)
      (crateZ_of_class (hcls a ha b hb)).symm n1 n2 n3 le_rfl le_rfl le_rfl
    exact approxSame_close (c := 12 * δ) c1 c2 (by simp only [widened]; linarith) (by simp only [widened]; linarith)
      (by simp only [widened]; linarith) this

/-- **C85 (the 21 groups that are not closed under the product of the crate).** If the values of the operations are those
of an entry of `crateBad`, up to lattice vectors and `ν ≤ 1/4096`, then nothing is identified in what `from_generators`
returns. -/
theorem C85_bad_group_not_identified (hδ : Accurate ρ δ) (hd : δ ≤ 1 / 2 ^ 20) (h : HashOrders (RNum ρ)) (hv : h.Valid)
    (fuel : ℕ) (sys : LatticeSystem) (n num : ℕ) (codes : List ℕ) (table table' : List (SymmOp ℝ))
    (ops sg : List (SymmOp (RNum ρ))) (hops : ∀ o ∈ ops, TransLe 2 o) (tols : Vec3 (RNum ρ)) (htol : TolsIn tols 0)
    {ν : ℝ} (hν0 : 0 < ν) (hν : ν ≤ 1 / 4096) (hx : tols.x.val ≤ 1 / 48) (hy : tols.y.val ≤ 1 / 48) (hz : tols.z.val ≤ 1 / 48)
    (hent : IsTableEntry sys n num codes) (htab : TableOps num codes table) (hperm : table'.Perm table)
    (hnear : List.Forall₂ (fun o q => NearlyBy ν (exactOp o) q) ops table') (hbad : num ∈ crateBad)
    (hsg : fromGenerators fuel ops tols = .ret sg) (sys' : LatticeSystem) (x : ℕ × String) :
    identifySpaceGroup h sg sys' tols ≠ .ret (some x) := by
  have hd' : δ ≤ 1 / 16 := hd.trans (by norm_num)
  have hck := entry_check hent
  unfold entryCheck at hck
  simp only [Bool.and_eq_true, decide_eq_true_eq] at hck
  have hcc : crateCheck (num, codes) = true := by
    obtain ⟨groups, cands, h1, h2, h3⟩ := hent
    exact List.all_eq_true.1 (List.all_eq_true.1 (List.all_eq_true.1 crate_checked _ h1) _ h2) _ h3
  have hcl := closedZ hck.1.1
  unfold crateCheck at hcc
  simp only [List.contains_iff_mem, hbad, if_true] at hcc
  rw [List.any_eq_true] at hcc
  obtain ⟨a, ha, hcc⟩ := hcc
  rw [List.any_eq_true] at hcc
  obtain ⟨b', hb, hcc⟩ := hcc
  simp only [Bool.not_eq_true', ← Bool.not_eq_true, List.contains_iff_mem] at hcc
  have hcm := hcl a ha b' hb
  have htabeq := tableOps_eq htab
  have hmem : ∀ z ∈ groupZ (num, codes), opK ℝ z ∈ table' := by
    intro z hz; rw [hperm.mem_iff, htabeq]; exact List.mem_map.2 ⟨z, hz, rfl⟩
  obtain ⟨hpre, hle, -, hprod⟩ := C85_products_found hδ hd' tols htol fuel ops sg hops hsg
  obtain ⟨oa, hoa, na⟩ := forall₂_right hnear (hmem a ha)
  obtain ⟨ob, hob, nb⟩ := forall₂_right hnear (hmem b' hb)
  obtain ⟨oc, hoc, nc⟩ := forall₂_right hnear (hmem _ hcm)
  obtain ⟨z, hz', rz, zx, zy, zz⟩ := hprod oa hoa ob (hpre.subset hob)
  have nself : NearlyBy ν (opK ℝ (crateZ a b')) (opK ℝ (crateZ a b')) :=
    ⟨rfl, 0, 0, ⟨0, 0, 0, by ext <;> simp⟩, by ext <;> simp, by simpa using hν0, by simpa using hν0, by simpa using hν0⟩
  obtain ⟨rp, px, py, pz⟩ := nearlyBy_prod (tols := ⟨5 * ν, 5 * ν, 5 * ν⟩) (groupZ_range b' hb) rfl
    na nb nself le_rfl le_rfl le_rfl
  obtain ⟨rc, cx, cy, cz⟩ := nc.approx (tols := ⟨ν, ν, ν⟩) le_rfl le_rfl le_rfl
  intro hid
  obtain ⟨num', sym'⟩ := x
  have h512 : ∀ o ∈ sg, TransLe 512 o := fun o ho =>
    ⟨(hle o ho).1.trans (by norm_num), (hle o ho).2.1.trans (by norm_num), (hle o ho).2.2.trans (by norm_num)⟩
  obtain ⟨-, -, -, -, codes', tab, hent', htab', hall⟩ :=
    C85_identification_sound hδ hd' h hv sg h512 sys' tols htol num' sym' hid
  obtain ⟨t1, ht1, r1, tx1, ty1, tz1⟩ := hall z hz'
  obtain ⟨t2, ht2, r2, tx2, ty2, tz2⟩ := hall oc (hpre.subset hoc)
  have hrr : (opK ℝ (crateZ a b')).rotation = (opK ℝ (mulZ a b')).rotation := rfl
  have htt : t1 = t2 := by
    refine List.inj_on_of_nodup_map (table_rotations hent' htab') ht1 ht2 ?_
    rw [← r1, ← r2, rc, rz, ← rp, hrr]
  subst htt
  have hsum : ∀ {q ab zz t c cc τ : ℝ}, τ ≤ 1 / 48 → NearInt (q - ab) (5 * ν) →
      NearInt (zz - ab) (τ + 14 * δ) → NearInt (zz - t) (τ + 4 * δ) → NearInt (c - t) (τ + 4 * δ) →
      NearInt (c - cc) ν → NearInt (q - cc) (1 / 12) := by
    intro q ab zz t c cc τ hτ h1 h2 h3 h4 h5
    have h2' : NearInt (ab - zz) (τ + 14 * δ) := by simpa using nearInt_neg h2
    have h4' : NearInt (t - c) (τ + 4 * δ) := by simpa using nearInt_neg h4
    have h6 := nearInt_sum (nearInt_sum (nearInt_sum (nearInt_sum h1 h2') h3) h4') h5
    obtain ⟨m, hm⟩ := h6
    refine ⟨m, ?_⟩
    rw [show q - ab + (ab - zz) + (zz - t) + (t - c) + (c - cc) - m = q - cc - (m : ℝ) by ring] at hm
    have hd'' : δ ≤ 1 / 1048576 := hd.trans (by norm_num)
    linarith
  have heq : crateZ a b' = mulZ a b' := by
    refine zop_eq_of_approx (K := ℝ) (tols := ⟨1 / 12, 1 / 12, 1 / 12⟩) (rangeZ_crateZ (groupZ_range _ hcm))
      (groupZ_range _ hcm) le_rfl le_rfl le_rfl ⟨rfl, ?_, ?_, ?_⟩
    · exact hsum hx px zx tx1 tx2 cx
    · exact hsum hy py zy ty1 ty2 cy
    · exact hsum hz pz zz tz1 tz2 cz
  exact hcc (List.mem_map.2 ⟨_, heq ▸ hcm, rfl⟩)

/-- the decoded and rounded operations of an entry are within `10⁻⁹` of the exact ones. -/
theorem opR_nearly (hδ : Accurate ρ δ) (hd : δ ≤ 1 / 4000000000) {a : ZOp} (ha : RangeZ a) :
    Nearly (exactOp (opR ρ a)) (opK ℝ a) := by
  obtain ⟨hr, ⟨hx, hy, hz⟩, -⟩ := opR_close hδ (hd.trans (by norm_num)) ha
  refine ⟨hr, 0, (exactOp (opR ρ a)).translation - (opK ℝ a).translation, ⟨0, 0, 0, by ext <;> simp⟩,
    by ext <;> simp, ?_, ?_, ?_⟩ <;> simp only [Vec3.sub_x, Vec3.sub_y, Vec3.sub_z] <;> linarith

end

/-- **C85 (binary64).** In IEEE double precision, for tolerances between `10⁻⁸` and `1/25`: `from_generators` ends for all
generators with translations of at most two cells; and operations that are those of a table group up to lattice vectors
and `10⁻⁹` are identified as that group, and are returned unchanged by `from_generators` unless the group is one of the
21 of `crateBad`. -/
theorem C85_binary64 (tols : Vec3 (RNum binary64)) (hx : 1 / 100000000 ≤ tols.x.val ∧ tols.x.val ≤ 1 / 25)
    (hy : 1 / 100000000 ≤ tols.y.val ∧ tols.y.val ≤ 1 / 25) (hz : 1 / 100000000 ≤ tols.z.val ∧ tols.z.val ≤ 1 / 25) :
    (∃ N, ∀ fuel ≥ N, ∀ gens : List (SymmOp (RNum binary64)), (∀ g ∈ gens, TransLe 2 g) →
      ∃ ops, fromGenerators fuel gens tols = .ret ops) ∧
    ∀ (h : HashOrders (RNum binary64)), h.Valid → ∀ (fuel : ℕ), 2 ≤ fuel → ∀ (sys : LatticeSystem) (n num : ℕ)
      (codes : List ℕ) (table table' : List (SymmOp ℝ)) (ops : List (SymmOp (RNum binary64))),
      (∀ o ∈ ops, TransLe 2 o) → IsTableEntry sys n num codes → TableOps num codes table → table'.Perm table →
      List.Forall₂ (fun o q => Nearly (exactOp o) q) ops table' →
      (num ∉ crateBad → fromGenerators fuel ops tols = .ret ops) ∧
        ∃ sym, amapGet? sgNumToSymbol num = some sym ∧
          identifySpaceGroup h ops sys tols = .ret (some (num, sym)) := by
  have hd : (1 / 2 ^ 43 : ℝ) ≤ 1 / 16 := by norm_num
  have t3 : TolsIn tols (3 * (1 / 2 ^ 43)) := by
    refine ⟨⟨?_, ?_⟩, ⟨?_, ?_⟩, ?_, ?_⟩ <;> norm_num <;> linarith
  have t14 : TolsIn tols (1 / 200000000 + 14 * (1 / 2 ^ 43)) := by
    refine ⟨⟨?_, ?_⟩, ⟨?_, ?_⟩, ?_, ?_⟩ <;> norm_num <;> linarith
  refine ⟨C85_from_generators_ends accurate_binary64 hd tols t3, ?_⟩
  intro h hv fuel hf sys n num codes table table' ops hops hent htab hperm hnear
  refine C85_group_identified accurate_binary64 hd h hv fuel hf sys n num codes table table' ops hops tols
    (ν := 1 / 1000000000) (by norm_num) (by norm_num at t14 ⊢; exact t14) ?_ ?_ ?_ hent htab hperm hnear
  all_goals norm_num; linarith

/-- **C85 (the tables themselves, binary64).** The operations that the program decodes from one of its own table entries,
with thirds and sixths rounded, are returned unchanged by `from_generators` and identified as that entry, unless it is
one of the 21 of `crateBad`; for these nothing is identified after `from_generators`. -/
theorem C85_own_tables_binary64 (tols : Vec3 (RNum binary64)) (hx : 1 / 100000000 ≤ tols.x.val ∧ tols.x.val ≤ 1 / 48)
    (hy : 1 / 100000000 ≤ tols.y.val ∧ tols.y.val ≤ 1 / 48) (hz : 1 / 100000000 ≤ tols.z.val ∧ tols.z.val ≤ 1 / 48)
    (h : HashOrders (RNum binary64)) (hv : h.Valid) (fuel : ℕ) (hf : 2 ≤ fuel) (sys : LatticeSystem) (n num : ℕ)
    (codes : List ℕ) (hent : IsTableEntry sys n num codes) :
    ∃ sym ops, amapGet? sgNumToSymbol num = some sym ∧
      mapOutcome (tableOp (K := RNum binary64) (isACentered sym)) codes = .ret ops ∧
      (num ∉ crateBad → fromGenerators fuel ops tols = .ret ops ∧
        identifySpaceGroup h ops sys tols = .ret (some (num, sym))) ∧
      (num ∈ crateBad → ∀ sg sys' x, fromGenerators fuel ops tols = .ret sg →
        identifySpaceGroup h sg sys' tols ≠ .ret (some x)) := by
  obtain ⟨table, htab⟩ := tableOps_exists (K := ℝ) hent
  obtain ⟨sym, hs⟩ := symbol_exists (entry_system hent).2.1 (entry_system hent).2.2
  have hm : ∀ codes : List ℕ, mapOutcome (tableOp (K := RNum binary64) (isACentered sym)) codes =
      .ret ((groupZ (num, codes)).map (opR binary64)) := by
    intro codes
    rw [acent_iff _ (amapGet?_mem hs)]
    induction codes with
    | nil => rfl
    | cons c cs ih =>
      rw [mapOutcome, tableOp_rounded, ih]
      rfl
  have hnear : List.Forall₂ (fun o q => Nearly (exactOp o) q) ((groupZ (num, codes)).map (opR binary64)) table := by
    rw [tableOps_eq htab, List.forall₂_map_left_iff, List.forall₂_map_right_iff, List.forall₂_same]
    intro z hz
    exact opR_nearly accurate_binary64 (by norm_num) (groupZ_range z hz)
  have hle : ∀ o ∈ (groupZ (num, codes)).map (opR binary64), TransLe 2 o := by
    intro o ho
    obtain ⟨z, hz, rfl⟩ := List.mem_map.1 ho
    exact (opR_close accurate_binary64 (by norm_num) (groupZ_range z hz)).2.2
  refine ⟨sym, _, hs, hm codes, fun hgood => ?_, fun hbad sg sys' x hsg => ?_⟩
  · obtain ⟨k1, sym', k2, k3⟩ := (C85_binary64 tols ⟨hx.1, by linarith [hx.2]⟩ ⟨hy.1, by linarith [hy.2]⟩
      ⟨hz.1, by linarith [hz.2]⟩).2 h hv fuel hf sys n num codes table table _ hle hent htab (List.Perm.refl _) hnear
    rw [hs] at k2
    injection k2 with k2
    subst k2
    exact ⟨k1 hgood, k3⟩
  · exact C85_bad_group_not_identified accurate_binary64 (by norm_num) h hv fuel sys n num codes table table _ sg hle tols
      ⟨⟨by linarith [hx.1], by linarith [hx.2]⟩, ⟨by linarith [hy.1], by linarith [hy.2]⟩, by linarith [hz.1],
        by linarith [hz.2]⟩ (ν := 1 / 1000000000) (by norm_num) (by norm_num) hx.2 hy.2 hz.2 hent htab (List.Perm.refl _) hnear hbad hsg sys' x

/-- a third is not representable. -/
theorem third_not_representable (a : RNum binary64) : a.val ≠ 1 / 3 := by
  intro h
  have h1 : a.val = nearestEven (a.val / ulp64 a.val) * 2 ^ (exponent64 a.val - 52) := by
    rw [← fl64_grid]; exact a.2.symm
  generalize nearestEven (a.val / ulp64 a.val) = k at h1
  generalize exponent64 a.val = e at h1
  rw [h] at h1
  rcases le_or_gt 52 e with he | he
  · obtain ⟨d, hd⟩ : ∃ d : ℕ, e - 52 = d := ⟨(e - 52).toNat, by omega⟩
    rw [hd, zpow_natCast] at h1
    have h2 : (1 : ℤ) = 3 * (k * 2 ^ d) := by
      have : (1 : ℝ) = 3 * (k * 2 ^ d) := by linarith
      exact_mod_cast this
    omega
  · obtain ⟨d, hd⟩ : ∃ d : ℕ, 52 - e = d := ⟨(52 - e).toNat, by omega⟩
    have h2 : (2 : ℤ) ^ d = 3 * k := by
      have h3 : (2 : ℝ) ^ (e - 52) * 2 ^ d = 1 := by
        rw [← zpow_natCast, ← zpow_add₀ (by norm_num), ← hd]; simp
      have : (2 : ℝ) ^ d = 3 * k := by
        have : (2 : ℝ) ^ d = 3 * (1 / 3) * 2 ^ d := by ring
        rw [this, h1, mul_assoc 3, mul_assoc (k : ℝ), h3, mul_one]
      exact_mod_cast this
    have h4 : (3 : ℤ) ∣ 2 ^ d := ⟨k, h2⟩
    have h5 := (Int.prime_three).dvd_of_dvd_pow h4
    omega

/-- the translations of the screw axis of `P3₁` are thirds, which are not representable; the operations decoded in binary64
are recognised all the same, with a tolerance of `2⁻⁷`. -/
example (h : HashOrders (RNum binary64)) (hv : h.Valid) :
    ∃ t : RNum binary64, t.val = 1 / 128 ∧ ∃ ops : List (SymmOp (RNum binary64)),
      mapOutcome (tableOp (K := RNum binary64) false) [103640, 66866, 16484] = .ret ops ∧
      fromGenerators 2 ops ⟨t, t, t⟩ = .ret ops ∧
      identifySpaceGroup h ops .Hexagonal ⟨t, t, t⟩ = .ret (some (144, "P3_1")) ∧
      ∃ o ∈ ops, o.translation.z.val ≠ 1 / 3 ∧ |o.translation.z.val - 1 / 3| ≤ 1 / 2 ^ 42 := by
  have ht : fl64 (1 / 128) = 1 / 128 :=
    fl64_of_grid (j := -7) (k := 2 ^ 52) (by norm_num) (by norm_num) (by norm_num)
  let t : RNum binary64 := ⟨1 / 128, ht⟩
  have htv : t.val = 1 / 128 := rfl
  have hent : IsTableEntry .Hexagonal 3 144 [103640, 66866, 16484] := by
    refine ⟨[(3, sgTableHexagonal3), (6, sgTableHexagonal6), (12, sgTableHexagonal12), (24, sgTableHexagonal24)],
      sgTableHexagonal3, by simp [sgNumToFullMatrices], by simp, by decide +kernel⟩
  have hb : 1 / 100000000 ≤ t.val ∧ t.val ≤ 1 / 48 := by rw [htv]; norm_num
  obtain ⟨sym, ops, h1, h2, h3, -⟩ := C85_own_tables_binary64 ⟨t, t, t⟩ hb hb hb h hv 2 le_rfl _ _ _ _ hent
  have hs : sym = "P3_1" := by
    have e : amapGet? sgNumToSymbol 144 = some "P3_1" := by decide +kernel
    rw [e] at h1; injection h1 with h1; exact h1.symm
  subst hs
  obtain ⟨k1, k2⟩ := h3 (by decide)
  refine ⟨t, htv, ops, h2, k1, k2, opR binary64 (opZ false 66866), ?_, third_not_representable _, ?_⟩
  · have := h2
    rw [mapOutcome, show isACentered "P3_1" = false by decide +kernel, tableOp_rounded, Outcome.ret_bind,
      Outcome.bind_eq_ret] at this
    obtain ⟨r, hr', hr⟩ := this
    rw [mapOutcome, tableOp_rounded, Outcome.ret_bind, Outcome.bind_eq_ret] at hr'
    obtain ⟨r', -, hr'⟩ := hr'
    injection hr with hr
    injection hr' with hr'
    rw [← hr, ← hr']
    simp
  · have e : (opZ false 66866).2.z = 4 := by decide +kernel
    have := (lit_close (n := 4) accurate_binary64 (by norm_num) (by norm_num)).1
    refine le_trans (le_of_eq ?_) (this.trans (by norm_num))
    simp only [opR, e]
    norm_num

end CrystSymm
