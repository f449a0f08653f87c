import Verif.Proofs.AMap
import Verif.Proofs.Decode
import Verif.Proofs.Mag
import Verif.Proofs.Search
import Verif.Proofs.Outcome
import Verif.Proofs.SymmOp
import Verif.Model.Analyzer

/-! # The search for symmetry operations by counting translations -/

set_option autoImplicit false
set_option linter.unusedSectionVars false

namespace CrystSymm

open Spec SymmetryAnalyzer

/-! ### sorted species occupy intervals -/

theorem sorted_interval {l : List String} (hs : l.Pairwise (· ≤ ·)) {e : String} (he : e ∈ l) (i : ℕ) :
    l[i]? = some e ↔ l.idxOf e ≤ i ∧ i < l.idxOf e + l.count e := by
  induction l generalizing i with
  | nil => simp at he
  | cons a l ih =>
    rw [List.pairwise_cons] at hs
    by_cases hea : e = a
    · subst hea
      rw [List.idxOf_cons_self, List.count_cons_self]
      cases i with
      | zero => simp
      | succ i =>
        rw [List.getElem?_cons_succ]
        by_cases hel : e ∈ l
        · rw [ih hs.2 hel]
          have h0 : l.idxOf e = 0 := by
            cases l with
            | nil => simp at hel
            | cons b l' =>
              have h1 := hs.1 b (by simp)
              have h2 : b ≤ e := by
                rcases List.mem_cons.1 hel with rfl | h
                · exact le_refl _
                · exact (List.pairwise_cons.1 hs.2).1 e h
              have : b = e := le_antisymm h2 h1
              subst this
              exact List.idxOf_cons_self
          rw [h0]; omega
        · rw [List.count_eq_zero_of_not_mem hel]
          constructor
          · intro h; exact absurd (List.mem_of_getElem? h) hel
          · omega
    · have hel : e ∈ l := by
        rcases List.mem_cons.1 he with h | h
        · exact absurd h hea
        · exact h
      rw [List.idxOf_cons_ne _ (Ne.symm hea), List.count_cons_of_ne (Ne.symm hea)]
      cases i with
      | zero =>
        rw [List.getElem?_cons_zero]
        constructor
        · intro h; exact absurd (Option.some.inj h).symm hea
        · omega
      | succ i =>
        rw [List.getElem?_cons_succ, ih hs.2 hel]
        omega

theorem idxOf_add_count_le {l : List String} (hs : l.Pairwise (· ≤ ·)) {e : String} (he : e ∈ l) :
    l.idxOf e + l.count e ≤ l.length := by
  have hc : 0 < l.count e := List.count_pos_iff.2 he
  have := (sorted_interval hs he (l.idxOf e + l.count e - 1)).2 (by omega)
  have := (List.getElem?_eq_some_iff.1 this).1
  omega

/-! ### the pairs of sites that are compared -/

/-- pairs of indices, for the elements in the listed order. -/
def sitePairs (species : List String) (es : List String) : List (ℕ × ℕ) :=
  es.flatMap fun e =>
    (List.range' (species.idxOf e) (species.count e)).flatMap fun a =>
      (List.range' (species.idxOf e) (species.count e)).map fun b => (a, b)

theorem mem_sitePairs {species es : List String} (hs : species.Pairwise (· ≤ ·))
    (hes : ∀ e, e ∈ es ↔ e ∈ species) (a b : ℕ) :
    (a, b) ∈ sitePairs species es ↔ ∃ e, species[a]? = some e ∧ species[b]? = some e := by
  unfold sitePairs
  simp only [List.mem_flatMap, List.mem_map, List.mem_range'_1, Prod.mk.injEq]
  constructor
  · rintro ⟨e, he, a', ha, b', hb, rfl, rfl⟩
    exact ⟨e, (sorted_interval hs ((hes e).1 he) _).2 ha, (sorted_interval hs ((hes e).1 he) _).2 hb⟩
  · rintro ⟨e, ha, hb⟩
    have he := List.mem_of_getElem? ha
    exact ⟨e, (hes e).2 he, a, (sorted_interval hs he _).1 ha, b, (sorted_interval hs he _).1 hb, rfl, rfl⟩

theorem nodup_sitePairs {species es : List String} (hs : species.Pairwise (· ≤ ·))
    (hes : ∀ e, e ∈ es ↔ e ∈ species) (hn : es.Nodup) : (sitePairs species es).Nodup := by
  unfold sitePairs
  rw [List.nodup_flatMap]
  refine ⟨fun e _ => ?_, ?_⟩
  · rw [List.nodup_flatMap]
    refine ⟨fun a _ => (List.nodup_range' ..).map fun _ _ h => (Prod.mk.inj h).2, ?_⟩
    refine (List.nodup_range' ..).imp fun {a a'} hne => ?_
    intro x hx hx'
    obtain ⟨b, -, rfl⟩ := List.mem_map.1 hx
    obtain ⟨b', -, h⟩ := List.mem_map.1 hx'
    exact hne (Prod.mk.inj h).1.symm
  · refine hn.imp_of_mem fun {e e'} he he' hne => ?_
    intro x hx hx'
    obtain ⟨a, ha, hx⟩ := List.mem_flatMap.1 hx
    obtain ⟨b, -, rfl⟩ := List.mem_map.1 hx
    obtain ⟨a', ha', hx'⟩ := List.mem_flatMap.1 hx'
    obtain ⟨b', -, h⟩ := List.mem_map.1 hx'
    rw [List.mem_range'_1] at ha ha'
    have h1 := (sorted_interval hs ((hes e).1 he) a).2 ha
    have h2 := (sorted_interval hs ((hes e').1 he') a').2 ha'
    rw [(Prod.mk.inj h).1, h1] at h2
    exact hne (Option.some.inj h2)

section
variable {K : Type} [Add K] [Sub K] [Mul K] [Div K] [Neg K] [Zero K] [One K] [IntCast K]
  [LT K] [LE K] [DecidableLT K] [DecidableLE K] [BEq K] [FRound K] [FTrans K]

/-- the position of a site. -/
def posOf (frac : List (Vec3 K)) (i : ℕ) : Vec3 K := frac[i]?.getD 0

/-- the candidate translation of a pair of sites. -/
def pairTrans (tols : Vec3 K) (frac : List (Vec3 K)) (op : Mat3 Int8) (p : ℕ × ℕ) : Vec3 K :=
  normFracVec tols (posOf frac p.2 - (castRot op : Mat3 K) * posOf frac p.1)

theorem siteRange_eq {frac : List (Vec3 K)} {start count : ℕ} (h : start + count ≤ frac.length)
    (h' : frac.length < 65536) :
    siteRange frac start count = .ret ((List.range' start count).map (posOf frac)) := by
  unfold siteRange
  rw [Nat.mod_eq_of_lt (by omega), Nat.add_sub_cancel_left]
  apply mapOutcome_ret
  intro i hi
  rw [List.mem_range'_1] at hi
  unfold posOf
  rw [List.getElem?_eq_getElem (by omega)]
  rfl

theorem candidateTranslations_eq {tols : Vec3 K} {frac : List (Vec3 K)} {species : List String}
    (hs : species.Pairwise (· ≤ ·)) (hl : frac.length = species.length) (hn : species.length < 65536)
    {inds counts : List (String × ℕ)}
    (hi : ∀ p ∈ inds, p.1 ∈ species ∧ p.2 = species.idxOf p.1)
    (hc : ∀ e ∈ species, amapGet? counts e = some (species.count e)) (op : Mat3 Int8) :
    candidateTranslations tols frac inds counts op =
      .ret ((sitePairs species (inds.map Prod.fst)).map (pairTrans tols frac op)) := by
  unfold candidateTranslations
  simp only
  rw [mapOutcome_ret (g := fun p : String × ℕ =>
    ((List.range' (species.idxOf p.1) (species.count p.1)).flatMap fun a =>
      (List.range' (species.idxOf p.1) (species.count p.1)).map fun b => pairTrans tols frac op (a, b)))]
  · simp only [Outcome.ret_bind, Outcome.ret.injEq]
    unfold sitePairs
    rw [List.flatMap_map, List.map_flatMap, List.flatMap_def]
    congr 1
    apply List.map_congr_left
    intro p _
    rw [List.map_flatMap]
    congr 1
    funext a
    rw [List.map_map]
    rfl
  · intro p hp
    obtain ⟨h1, h2⟩ := hi p hp
    rw [hc p.1 h1]
    simp only [Outcome.ofOption, Outcome.ret_bind]
    rw [siteRange_eq (by rw [h2, hl]; exact idxOf_add_count_le hs h1) (by omega), h2]
    simp only [Outcome.ret_bind, Outcome.ret.injEq, List.flatMap_map, List.map_map]
    rfl

/-! ### buckets -/

/-- the candidate belongs to the bucket `k`. -/
def inBucket (L : Mat3 K) (tols : Vec3 K) (dtol : K) (c : Vec3 K) (k : Vec3 Int) : Bool :=
  Structure.sitesCoincide L tols dtol c (ofIntVec k)

/-- the candidates `cs` have been put in the buckets `ks`, one by one. -/
inductive Bucketed (L : Mat3 K) (tols : Vec3 K) (dtol : K) : List (Vec3 K) → List (Vec3 Int) → Prop
  | nil : Bucketed L tols dtol [] []
  | old {cs ks c k} : Bucketed L tols dtol cs ks → k ∈ ks → inBucket L tols dtol c k = true →
      Bucketed L tols dtol (cs ++ [c]) (ks ++ [k])
  | new {cs ks c} : Bucketed L tols dtol cs ks → (∀ k ∈ ks, inBucket L tols dtol c k = false) →
      Bucketed L tols dtol (cs ++ [c]) (ks ++ [toIntVec c])

/-- the map of counters tells how often each bucket occurs. -/
def Tally (m : List (Vec3 Int × ℕ)) (ks : List (Vec3 Int)) : Prop :=
  (m.map Prod.fst).Nodup ∧ ∀ k, amapGet? m k = if k ∈ ks then some (ks.count k) else none

theorem tally_mem_keys {m : List (Vec3 Int × ℕ)} {ks : List (Vec3 Int)} (h : Tally m ks) (k : Vec3 Int) :
    k ∈ m.map Prod.fst ↔ k ∈ ks := by
  rw [mem_keys_iff_amapGet?, h.2]
  by_cases hk : k ∈ ks <;> simp [hk]

theorem tally_old {m : List (Vec3 Int × ℕ)} {ks : List (Vec3 Int)} (h : Tally m ks) {k : Vec3 Int} (hk : k ∈ ks) :
    Tally (amapUpsert m k 0 fun n => n + 1) (ks ++ [k]) := by
  refine ⟨amapUpsert_nodup h.1 _ _ _, fun q => ?_⟩
  rw [amapGet?_upsert, h.2, h.2]
  by_cases hq : k = q
  · subst hq
    rw [if_pos rfl, if_pos hk, if_pos (by simp), List.count_append, List.count_singleton_self]
    rfl
  · rw [if_neg hq]
    simp [List.count_append, hq, Ne.symm hq]

theorem tally_new {m : List (Vec3 Int × ℕ)} {ks : List (Vec3 Int)} (h : Tally m ks) {k : Vec3 Int} (hk : k ∉ ks) :
    Tally (amapUpsert m k 1 fun _ => 1) (ks ++ [k]) := by
  refine ⟨amapUpsert_nodup h.1 _ _ _, fun q => ?_⟩
  rw [amapGet?_upsert, h.2]
  by_cases hq : k = q
  · subst hq
    rw [if_pos rfl, if_pos (by simp), List.count_append, List.count_singleton_self,
      List.count_eq_zero_of_not_mem hk]
  · rw [if_neg hq]
    simp [List.count_append, hq, Ne.symm hq]

theorem countFold {h : HashOrders K} (hv : h.Valid) {L : Mat3 K} {tols : Vec3 K} {dtol : K} (cs : List (Vec3 K))
    (hself : ∀ c ∈ cs, inBucket L tols dtol c (toIntVec c) = true) :
    ∃ ks, Bucketed L tols dtol cs ks ∧ Tally (cs.foldl (countStep h L tols dtol) (0, [])).2 ks := by
  induction cs using List.reverseRecOn with
  | nil => exact ⟨[], .nil, by simp [Tally, amapGet?_nil]⟩
  | append_singleton cs c ih =>
    obtain ⟨ks, hb, ht⟩ := ih fun c hc => hself c (by simp [hc])
    rw [List.foldl_append, List.foldl_cons, List.foldl_nil]
    generalize cs.foldl (countStep h L tols dtol) (0, []) = st at ht
    have hperm := hv.counts st.1 st.2
    unfold countStep bumpCount
    cases hf : (h.counts st.1 st.2).find? fun p =>
        Structure.sitesCoincide L tols dtol c (ofIntVec p.1) with
    | some p =>
      simp only [Option.map_some]
      have hp := List.mem_of_find?_eq_some hf
      have hk : p.1 ∈ ks := (tally_mem_keys ht _).1 (List.mem_map_of_mem (hperm.subset hp))
      have hc := List.find?_some hf
      exact ⟨ks ++ [p.1], .old hb hk hc, tally_old ht hk⟩
    | none =>
      simp only [Option.map_none]
      rw [List.find?_eq_none] at hf
      have hno : ∀ k ∈ ks, inBucket L tols dtol c k = false := by
        intro k hk
        obtain ⟨p, hp, rfl⟩ := List.mem_map.1 ((tally_mem_keys ht k).2 hk)
        have := hf p (hperm.symm.subset hp)
        exact Bool.eq_false_iff.2 this
      have hn : toIntVec c ∉ ks := by
        intro hc
        have h1 := hno _ hc
        rw [hself c (by simp)] at h1
        exact absurd h1 (by simp)
      exact ⟨ks ++ [toIntVec c], .new hb hno, tally_new ht hn⟩

theorem Bucketed.forall₂ {L : Mat3 K} {tols : Vec3 K} {dtol : K} {cs : List (Vec3 K)} {ks : List (Vec3 Int)}
    (h : Bucketed L tols dtol cs ks) (hself : ∀ c ∈ cs, inBucket L tols dtol c (toIntVec c) = true) :
    List.Forall₂ (fun c k => inBucket L tols dtol c k = true) cs ks := by
  induction h with
  | nil => exact .nil
  | old hb hk hc ih =>
    exact List.rel_append (ih fun c hc => hself c (by simp [hc])) (.cons hc .nil)
  | new hb hk ih =>
    exact List.rel_append (ih fun c hc => hself c (by simp [hc])) (.cons (hself _ (by simp)) .nil)

/-- the operations reported for one rotation. -/
theorem mem_opsForRotation {h : HashOrders K} (hv : h.Valid) {L : Mat3 K} {tols : Vec3 K} {dtol : K} {n : ℕ}
    (p : Mat3 Int8 × List (Vec3 K)) (hself : ∀ c ∈ p.2, inBucket L tols dtol c (toIntVec c) = true) :
    ∃ ks, Bucketed L tols dtol p.2 ks ∧ ∀ o : SymmOp K, o ∈ opsForRotation h L tols dtol n p ↔
      ∃ k ∈ ks, ks.count k = n ∧ o = ⟨p.1, ofIntVec k⟩ := by
  obtain ⟨ks, hb, ht⟩ := countFold hv p.2 hself
  refine ⟨ks, hb, fun o => ?_⟩
  unfold opsForRotation
  simp only [List.mem_filterMap]
  constructor
  · rintro ⟨q, hq, ho⟩
    have hq' := (hv.counts _ _).subset hq
    rw [show q = (q.1, q.2) from rfl, mem_iff_amapGet? ht.1, ht.2] at hq'
    split at ho
    · rename_i hn
      split at hq'
      · rename_i hk
        exact ⟨q.1, hk, by rw [← hn]; exact Option.some.inj hq', (Option.some.inj ho).symm⟩
      · simp at hq'
    · simp at ho
  · rintro ⟨k, hk, hc, rfl⟩
    refine ⟨(k, n), ?_, by simp⟩
    apply (hv.counts _ _).symm.subset
    rw [mem_iff_amapGet? ht.1, ht.2, if_pos hk, hc]

end

/-! ### lengths -/

theorem mag_le_iff {v : Vec3 ℝ} {r : ℝ} (hr : 0 ≤ r) : v.mag ≤ r ↔ lenSq v ≤ r ^ 2 := by
  rw [mag_eq, Real.sqrt_le_left hr]

theorem mag_add_le (u v : Vec3 ℝ) : (u + v).mag ≤ u.mag + v.mag := by
  rw [mag_le_iff (add_nonneg (mag_nonneg u) (mag_nonneg v))]
  have h := (abs_le.1 (abs_dotp_le u v)).2
  have e : lenSq (u + v) = lenSq u + lenSq v + 2 * dotp u v := by simp [lenSq, dotp]; ring
  rw [e, ← mag_mul_self u, ← mag_mul_self v]
  nlinarith

theorem mag_neg (v : Vec3 ℝ) : (-v).mag = v.mag := by
  rw [mag_eq, mag_eq]; congr 1; simp [lenSq]

theorem mag_sub_le (u v : Vec3 ℝ) : (u - v).mag ≤ u.mag + v.mag := by
  have : u - v = u + -v := by ext <;> simp <;> ring
  rw [this, ← mag_neg v]
  exact mag_add_le _ _

theorem mag_scale (a : ℝ) (v : Vec3 ℝ) : (Vec3.scale a v).mag = |a| * v.mag := by
  rw [mag_eq, mag_eq]
  have : lenSq (Vec3.scale a v) = a ^ 2 * lenSq v := by simp [lenSq, Vec3.scale]; ring
  rw [this, Real.sqrt_mul (sq_nonneg a), Real.sqrt_sq_eq_abs]

theorem mag_mulVec_le (L : Mat3 ℝ) (e : Vec3 ℝ) :
    (L * e).mag ≤ |e.x| * L.col0.mag + |e.y| * L.col1.mag + |e.z| * L.col2.mag := by
  have : L * e = Vec3.scale e.x L.col0 + Vec3.scale e.y L.col1 + Vec3.scale e.z L.col2 := by
    ext <;> simp [Vec3.scale, Mat3.col0, Mat3.col1, Mat3.col2] <;> ring
  rw [this, ← mag_scale, ← mag_scale, ← mag_scale]
  exact (mag_add_le _ _).trans (add_le_add (mag_add_le _ _) le_rfl)

theorem mulVec_add' (L : Mat3 ℝ) (u v : Vec3 ℝ) : L * (u + v) = L * u + L * v := by ext <;> simp <;> ring

theorem mulVec_sub' (L : Mat3 ℝ) (u v : Vec3 ℝ) : L * (u - v) = L * u - L * v := by ext <;> simp <;> ring

/-! ### the tolerances -/

/-- the distance tolerance is positive, at most half of every cell edge, and not too small in comparison with
the resolution `1e-9` of the counting. -/
def ResolvedTol (L : Mat3 ℝ) (dtol : ℝ) : Prop :=
  0 < dtol ∧ ∀ v, v = L.col0 ∨ v = L.col1 ∨ v = L.col2 → 2 * dtol ≤ v.mag ∧ 3 * v.mag ≤ dtol * 1000000000

theorem ResolvedTol.tols {L : Mat3 ℝ} {dtol : ℝ} (h : ResolvedTol L dtol) :
    let t := Structure.fracTols L dtol
    (1 / 1000000000 < t.x ∧ t.x ≤ 1 / 2) ∧ (1 / 1000000000 < t.y ∧ t.y ≤ 1 / 2) ∧
      (1 / 1000000000 < t.z ∧ t.z ≤ 1 / 2) := by
  obtain ⟨h0, hc⟩ := h
  have key : ∀ v, v = L.col0 ∨ v = L.col1 ∨ v = L.col2 → 1 / 1000000000 < dtol / v.mag ∧ dtol / v.mag ≤ 1 / 2 := by
    intro v hv
    obtain ⟨h1, h2⟩ := hc v hv
    have hp : 0 < v.mag := by linarith
    rw [div_lt_div_iff₀ (by norm_num) hp, div_le_div_iff₀ hp (by norm_num)]
    constructor <;> linarith
  exact ⟨key _ (Or.inl rfl), key _ (Or.inr (Or.inl rfl)), key _ (Or.inr (Or.inr rfl))⟩

theorem normComp_near {tol e : ℝ} (h0 : 0 < tol) (h1 : tol ≤ 1 / 2) (he : |e| < tol) {x : ℝ} (n : ℤ)
    (hx : x = n + e) : normComp tol x = e := by
  obtain ⟨lo, hi⟩ := normComp_mem h0.le (by linarith) x
  obtain ⟨m, hm⟩ := normComp_sameMod1 tol x
  obtain ⟨e1, e2⟩ := abs_lt.1 he
  have hk : normComp tol x = ((m + n : ℤ) : ℝ) + e := by push_cast; linarith
  have hz : m + n = 0 := by
    have a1 : (-1 : ℝ) < ((m + n : ℤ) : ℝ) := by linarith
    have a2 : ((m + n : ℤ) : ℝ) < 1 := by linarith
    have b1 : -1 < m + n := by exact_mod_cast a1
    have b2 : m + n < 1 := by exact_mod_cast a2
    omega
  rw [hk, hz]; simp

theorem inBucket_iff (L : Mat3 ℝ) (tols : Vec3 ℝ) (dtol : ℝ) (c : Vec3 ℝ) (k : Vec3 Int) :
    inBucket L tols dtol c k = true ↔ (L * normFracVec tols (c - ofIntVec k)).mag ≤ 2 * dtol := by
  unfold inBucket Structure.sitesCoincide
  simp only [decide_eq_true_eq]
  have : (FRound.abs (L * normFracVec tols (c - ofIntVec k)).mag : ℝ)
      = (L * normFracVec tols (c - ofIntVec k)).mag := abs_of_nonneg (mag_nonneg _)
  rw [this, mul_comm]
  simp [lit]

theorem near_of_inBucket {L : Mat3 ℝ} {tols : Vec3 ℝ} {dtol : ℝ} {c : Vec3 ℝ} {k : Vec3 Int}
    (h : inBucket L tols dtol c k = true) :
    ∃ w, IntVec w ∧ (L * (c - ofIntVec k - w)).mag ≤ 2 * dtol := by
  rw [inBucket_iff] at h
  obtain ⟨i, j, l, e⟩ := intVec_sub_iff_samePoint.2 (samePoint_normFracVec tols (c - ofIntVec k))
  refine ⟨⟨((-i : ℤ) : ℝ), ((-j : ℤ) : ℝ), ((-l : ℤ) : ℝ)⟩, ⟨-i, -j, -l, rfl⟩, ?_⟩
  have : c - ofIntVec k - ⟨((-i : ℤ) : ℝ), ((-j : ℤ) : ℝ), ((-l : ℤ) : ℝ)⟩ = normFracVec tols (c - ofIntVec k) := by
    have ex := congrArg Vec3.x e
    have ey := congrArg Vec3.y e
    have ez := congrArg Vec3.z e
    simp only [Vec3.sub_x, Vec3.sub_y, Vec3.sub_z] at ex ey ez
    ext <;> simp only [Vec3.sub_x, Vec3.sub_y, Vec3.sub_z] <;> push_cast <;> linarith
  rw [this]; exact h

/-- all components are smaller than the resolution of the counting. -/
def Tiny (e : Vec3 ℝ) : Prop :=
  |e.x| < 1 / 1000000000 ∧ |e.y| < 1 / 1000000000 ∧ |e.z| < 1 / 1000000000

theorem mag_tiny {L : Mat3 ℝ} {dtol : ℝ} (h : ResolvedTol L dtol) {e : Vec3 ℝ} (he : Tiny e) :
    (L * e).mag ≤ dtol := by
  refine (mag_mulVec_le L e).trans ?_
  have h0 := (h.2 L.col0 (Or.inl rfl)).2
  have h1 := (h.2 L.col1 (Or.inr (Or.inl rfl))).2
  have h2 := (h.2 L.col2 (Or.inr (Or.inr rfl))).2
  have a0 : |e.x| * L.col0.mag ≤ 1 / 1000000000 * L.col0.mag := mul_le_mul_of_nonneg_right he.1.le (mag_nonneg _)
  have a1 : |e.y| * L.col1.mag ≤ 1 / 1000000000 * L.col1.mag := mul_le_mul_of_nonneg_right he.2.1.le (mag_nonneg _)
  have a2 : |e.z| * L.col2.mag ≤ 1 / 1000000000 * L.col2.mag := mul_le_mul_of_nonneg_right he.2.2.le (mag_nonneg _)
  linarith

theorem inBucket_of_tiny {L : Mat3 ℝ} {dtol : ℝ} (h : ResolvedTol L dtol) {c w e : Vec3 ℝ} {k : Vec3 Int}
    (hw : IntVec w) (he : Tiny e) (hc : c - ofIntVec k = w + e) :
    inBucket L (Structure.fracTols L dtol) dtol c k = true := by
  rw [inBucket_iff]
  obtain ⟨⟨x1, x2⟩, ⟨y1, y2⟩, ⟨z1, z2⟩⟩ := h.tols
  obtain ⟨i, j, l, rfl⟩ := hw
  have : normFracVec (Structure.fracTols L dtol) (c - ofIntVec k) = e := by
    rw [hc]
    ext <;> simp only [normFracVec, Vec3.add_x, Vec3.add_y, Vec3.add_z]
    · exact normComp_near (by linarith) x2 (he.1.trans x1) i rfl
    · exact normComp_near (by linarith) y2 (he.2.1.trans y1) j rfl
    · exact normComp_near (by linarith) z2 (he.2.2.trans z1) l rfl
  rw [this]
  linarith [mag_tiny h he, h.1]

theorem trunc_tiny {x : ℝ} (h : |x| ≤ 1) :
    |x - (lit (FRound.toI64 (x * intConversionMult)) : ℝ) / intConversionMult| < 1 / 1000000000 := by
  have hm : (intConversionMult : ℝ) = 1000000000 := by simp [intConversionMult, lit]
  rw [hm]
  show |x - ((satZ (-9223372036854775808) 9223372036854775807 (truncZ (x * 1000000000)) : ℤ) : ℝ) / 1000000000| < _
  obtain ⟨h1, h2⟩ := abs_le.1 h
  have hb : |x * 1000000000 - (truncZ (x * 1000000000) : ℤ)| < 1 := by
    unfold truncZ
    split
    · rw [abs_lt]
      constructor <;> linarith [Int.floor_le (x * 1000000000), Int.lt_floor_add_one (x * 1000000000)]
    · rw [abs_lt]
      constructor <;> linarith [Int.le_ceil (x * 1000000000), Int.ceil_lt_add_one (x * 1000000000)]
  obtain ⟨b1, b2⟩ := abs_lt.1 hb
  have hs : satZ (-9223372036854775808) 9223372036854775807 (truncZ (x * 1000000000)) = truncZ (x * 1000000000) := by
    have c1 : ((truncZ (x * 1000000000) : ℤ) : ℝ) < (1000000001 : ℤ) := by push_cast; linarith
    have c2 : ((-1000000001 : ℤ) : ℝ) < (truncZ (x * 1000000000) : ℤ) := by push_cast; linarith
    have d1 := Int.cast_lt.1 c1
    have d2 := Int.cast_lt.1 c2
    unfold satZ
    omega
  rw [hs]
  have e : x - ((truncZ (x * 1000000000) : ℤ) : ℝ) / 1000000000 =
      (x * 1000000000 - (truncZ (x * 1000000000) : ℤ)) / 1000000000 := by ring
  rw [e, abs_div, abs_of_pos (by norm_num : (0 : ℝ) < 1000000000)]
  gcongr

/-- all components are at most one. -/
def UnitBox (c : Vec3 ℝ) : Prop := |c.x| ≤ 1 ∧ |c.y| ≤ 1 ∧ |c.z| ≤ 1

theorem tiny_toIntVec {c : Vec3 ℝ} (h : UnitBox c) : Tiny (c - ofIntVec (toIntVec c)) :=
  ⟨trunc_tiny h.1, trunc_tiny h.2.1, trunc_tiny h.2.2⟩

theorem unitBox_norm {L : Mat3 ℝ} {dtol : ℝ} (h : ResolvedTol L dtol) (v : Vec3 ℝ) :
    UnitBox (normFracVec (Structure.fracTols L dtol) v) := by
  obtain ⟨⟨x1, x2⟩, ⟨y1, y2⟩, ⟨z1, z2⟩⟩ := h.tols
  have key : ∀ {tol x : ℝ}, 1 / 1000000000 < tol → tol ≤ 1 / 2 → |normComp tol x| ≤ 1 := by
    intro tol x h1 h2
    have h0 : (0 : ℝ) < tol := lt_trans (by norm_num) h1
    obtain ⟨lo, hi⟩ := normComp_mem h0.le (by linarith) x
    rw [abs_le]; constructor <;> linarith
  exact ⟨key x1 x2, key y1 y2, key z1 z2⟩

theorem inBucket_self {L : Mat3 ℝ} {dtol : ℝ} (h : ResolvedTol L dtol) {c : Vec3 ℝ} (hc : UnitBox c) :
    inBucket L (Structure.fracTols L dtol) dtol c (toIntVec c) = true :=
  inBucket_of_tiny h ⟨0, 0, 0, by simp⟩ (tiny_toIntVec hc) (w := ⟨0, 0, 0⟩) (by ext <;> simp)

/-! ### counting -/

/-- a duplicate-free list of `n` numbers below `n` contains all of them. -/
theorem mem_of_nodup_range {l : List ℕ} {n : ℕ} (hn : l.Nodup) (hl : l.length = n) (h : ∀ a ∈ l, a < n) {a : ℕ}
    (ha : a < n) : a ∈ l := by
  have hsub : l.Subperm (List.range n) := List.Nodup.subperm hn fun x hx => List.mem_range.2 (h x hx)
  have hperm : l.Perm (List.range n) := hsub.perm_of_length_le (by simp [hl])
  exact hperm.symm.subset (List.mem_range.2 ha)

/-- if the bucket `k` holds as many candidates as there are sites, and each site gives at most one, then each
site gives one. -/
theorem bucket_full {β : Type} [DecidableEq β] {pairs : List (ℕ × ℕ)} {ks : List β} {k : β} {n : ℕ}
    (hl : pairs.length = ks.length) (hnd : pairs.Nodup) (hlt : ∀ p ∈ pairs, p.1 < n)
    (hone : ∀ a b b', ((a, b), k) ∈ pairs.zip ks → ((a, b'), k) ∈ pairs.zip ks → b = b')
    (hc : ks.count k = n) {a : ℕ} (ha : a < n) : ∃ b, ((a, b), k) ∈ pairs.zip ks := by
  set Z := (pairs.zip ks).filter fun z => decide (z.2 = k) with hZ
  have hlen : Z.length = n := by
    rw [← hc]
    have e : ks = (pairs.zip ks).map Prod.snd := (List.map_snd_zip (by omega)).symm
    conv_rhs => rw [e]
    rw [List.count, List.countP_map, hZ, List.countP_eq_length_filter]
    congr 1
  have hznd : (pairs.zip ks).Nodup := by
    have e : pairs = (pairs.zip ks).map Prod.fst := (List.map_fst_zip (by omega)).symm
    rw [e] at hnd
    exact List.Nodup.of_map _ hnd
  have hmem : ∀ z, z ∈ Z ↔ z ∈ pairs.zip ks ∧ z.2 = k := by
    intro z; rw [hZ, List.mem_filter, decide_eq_true_eq]
  have hmn : (Z.map fun z => z.1.1).Nodup := by
    apply List.Nodup.map_on _ (hznd.filter _)
    rintro ⟨⟨a1, b1⟩, k1⟩ h1 ⟨⟨a2, b2⟩, k2⟩ h2 he
    obtain ⟨g1, e1⟩ := (hmem _).1 h1
    obtain ⟨g2, e2⟩ := (hmem _).1 h2
    clear h1 h2
    simp only at he e1 e2
    rw [← he, e2] at g2
    rw [e1] at g1
    rw [hone _ _ _ g1 g2, he, e1, e2]
  have := mem_of_nodup_range hmn (by rw [List.length_map, hlen]) (by
    intro x hx
    obtain ⟨z, hz, rfl⟩ := List.mem_map.1 hx
    exact hlt z.1 (List.of_mem_zip ((hmem z).1 hz).1).1) ha
  obtain ⟨⟨⟨a', b⟩, k'⟩, hz, rfl⟩ := List.mem_map.1 this
  obtain ⟨h1, rfl⟩ := (hmem _).1 hz
  exact ⟨b, h1⟩

/-- if each site gives exactly one candidate with the property, there are as many as sites. -/
theorem countP_pairs {pairs : List (ℕ × ℕ)} {P : ℕ × ℕ → Bool} {n : ℕ} (hnd : pairs.Nodup)
    (hlt : ∀ p ∈ pairs, p.1 < n) (hex : ∀ a < n, ∃ b, (a, b) ∈ pairs ∧ P (a, b) = true)
    (hone : ∀ a b b', (a, b) ∈ pairs → (a, b') ∈ pairs → P (a, b) = true → P (a, b') = true → b = b') :
    pairs.countP P = n := by
  rw [List.countP_eq_length_filter]
  have hmn : ((pairs.filter P).map Prod.fst).Nodup := by
    apply List.Nodup.map_on _ (hnd.filter _)
    rintro ⟨a1, b1⟩ h1 ⟨a2, b2⟩ h2 he
    simp only at he
    subst he
    obtain ⟨h1, p1⟩ := List.mem_filter.1 h1
    obtain ⟨h2, p2⟩ := List.mem_filter.1 h2
    rw [hone _ _ _ h1 h2 p1 p2]
  have hperm : ((pairs.filter P).map Prod.fst).Perm (List.range n) := by
    rw [List.perm_ext_iff_of_nodup hmn List.nodup_range]
    intro a
    rw [List.mem_range]
    constructor
    · intro h
      obtain ⟨p, hp, rfl⟩ := List.mem_map.1 h
      exact hlt p (List.mem_filter.1 hp).1
    · intro h
      obtain ⟨b, hb, hp⟩ := hex a h
      exact List.mem_map.2 ⟨(a, b), List.mem_filter.2 ⟨hb, hp⟩, rfl⟩
  have := hperm.length_eq
  rwa [List.length_map, List.length_range] at this

/-- the candidates equal to `τ` modulo lattice translations fill one bucket, when the others are far from `τ`. -/
theorem bucket_exact {L : Mat3 ℝ} {dtol : ℝ} (h : ResolvedTol L dtol) {τ : Vec3 ℝ} {cs : List (Vec3 ℝ)}
    {ks : List (Vec3 Int)} (hb : Bucketed L (Structure.fracTols L dtol) dtol cs ks) (P : Vec3 ℝ → Bool)
    (hbox : ∀ c ∈ cs, UnitBox c) (hP : ∀ c ∈ cs, P c = true → SamePoint c τ)
    (hF : ∀ c ∈ cs, P c = false → ∀ w, IntVec w → 4 * dtol < (L * (c - τ - w)).mag) :
    ((∀ c ∈ cs, P c = false) ∧ ∀ k ∈ ks, ∀ w, IntVec w → 3 * dtol < (L * (ofIntVec k - τ - w)).mag) ∨
    ∃ k0 ∈ ks, (∃ w e, IntVec w ∧ Tiny e ∧ ofIntVec k0 = τ + w + e) ∧ ks.count k0 = cs.countP P ∧
      ∀ k ∈ ks, k ≠ k0 → ∀ w, IntVec w → 3 * dtol < (L * (ofIntVec k - τ - w)).mag := by
  have hd := h.1
  -- a bucket founded by a far candidate is far
  have far_key : ∀ c : Vec3 ℝ, UnitBox c → (∀ w, IntVec w → 4 * dtol < (L * (c - τ - w)).mag) →
      ∀ w, IntVec w → 3 * dtol < (L * (ofIntVec (toIntVec c) - τ - w)).mag := by
    intro c hc hf w hw
    have h1 := hf w hw
    have h2 := mag_tiny h (tiny_toIntVec hc)
    have e : L * (c - τ - w) = L * (ofIntVec (toIntVec c) - τ - w) + L * (c - ofIntVec (toIntVec c)) := by
      rw [← mulVec_add']; congr 1; ext <;> simp <;> ring
    rw [e] at h1
    have := mag_add_le (L * (ofIntVec (toIntVec c) - τ - w)) (L * (c - ofIntVec (toIntVec c)))
    linarith
  -- an exact candidate does not fall in a far bucket
  have exact_not_far : ∀ (c : Vec3 ℝ) (k : Vec3 Int), SamePoint c τ →
      (∀ w, IntVec w → 3 * dtol < (L * (ofIntVec k - τ - w)).mag) →
      inBucket L (Structure.fracTols L dtol) dtol c k = true → False := by
    intro c k hc hf hk
    obtain ⟨w, hw, hm⟩ := near_of_inBucket hk
    obtain ⟨i, j, l, e⟩ := intVec_sub_iff_samePoint.2 hc
    obtain ⟨i', j', l', rfl⟩ := hw
    have := hf ⟨((i - i' : ℤ) : ℝ), ((j - j' : ℤ) : ℝ), ((l - l' : ℤ) : ℝ)⟩ ⟨_, _, _, rfl⟩
    have e2 : ofIntVec k - τ - ⟨((i - i' : ℤ) : ℝ), ((j - j' : ℤ) : ℝ), ((l - l' : ℤ) : ℝ)⟩ =
        -(c - ofIntVec k - ⟨(i' : ℝ), (j' : ℝ), (l' : ℝ)⟩) := by
      have ex := congrArg Vec3.x e
      have ey := congrArg Vec3.y e
      have ez := congrArg Vec3.z e
      simp only [Vec3.sub_x, Vec3.sub_y, Vec3.sub_z] at ex ey ez
      ext <;> simp only [Vec3.sub_x, Vec3.sub_y, Vec3.sub_z, Vec3.neg_x, Vec3.neg_y, Vec3.neg_z] <;> push_cast <;>
        linarith
    have e3 : L * -(c - ofIntVec k - ⟨(i' : ℝ), (j' : ℝ), (l' : ℝ)⟩) =
        -(L * (c - ofIntVec k - ⟨(i' : ℝ), (j' : ℝ), (l' : ℝ)⟩)) := by ext <;> simp <;> ring
    rw [e2, e3, mag_neg] at this
    linarith
  -- a far candidate does not fall in the exact bucket
  have far_not_exact : ∀ (c : Vec3 ℝ) (k : Vec3 Int), (∀ w, IntVec w → 4 * dtol < (L * (c - τ - w)).mag) →
      (∃ w e, IntVec w ∧ Tiny e ∧ ofIntVec k = τ + w + e) →
      inBucket L (Structure.fracTols L dtol) dtol c k = true → False := by
    rintro c k hf ⟨w, e, ⟨i, j, l, rfl⟩, he, hk⟩ hin
    obtain ⟨w', ⟨i', j', l', rfl⟩, hm⟩ := near_of_inBucket hin
    have := hf ⟨((i + i' : ℤ) : ℝ), ((j + j' : ℤ) : ℝ), ((l + l' : ℤ) : ℝ)⟩ ⟨_, _, _, rfl⟩
    have e2 : L * (c - τ - ⟨((i + i' : ℤ) : ℝ), ((j + j' : ℤ) : ℝ), ((l + l' : ℤ) : ℝ)⟩) =
        L * (c - ofIntVec k - ⟨(i' : ℝ), (j' : ℝ), (l' : ℝ)⟩) + L * e := by
      rw [← mulVec_add', hk]
      congr 1
      ext <;> simp <;> ring
    rw [e2] at this
    have h1 := mag_add_le (L * (c - ofIntVec k - ⟨(i' : ℝ), (j' : ℝ), (l' : ℝ)⟩)) (L * e)
    have h2 := mag_tiny h he
    linarith
  have exact_key : ∀ c : Vec3 ℝ, UnitBox c → SamePoint c τ →
      ∃ w e, IntVec w ∧ Tiny e ∧ ofIntVec (toIntVec c) = τ + w + e := by
    intro c hc hs
    refine ⟨c - τ, ofIntVec (toIntVec c) - c, intVec_sub_iff_samePoint.2 hs, ?_, by ext <;> simp⟩
    obtain ⟨h1, h2, h3⟩ := tiny_toIntVec hc
    simp only [Vec3.sub_x, Vec3.sub_y, Vec3.sub_z] at h1 h2 h3
    refine ⟨?_, ?_, ?_⟩ <;> simp only [Vec3.sub_x, Vec3.sub_y, Vec3.sub_z] <;> rw [abs_sub_comm] <;> assumption
  have exact_in : ∀ (c : Vec3 ℝ) (k : Vec3 Int), SamePoint c τ →
      (∃ w e, IntVec w ∧ Tiny e ∧ ofIntVec k = τ + w + e) →
      inBucket L (Structure.fracTols L dtol) dtol c k = true := by
    rintro c k hs ⟨w, e, ⟨i, j, l, rfl⟩, he, hk⟩
    obtain ⟨i', j', l', e'⟩ := intVec_sub_iff_samePoint.2 hs
    refine inBucket_of_tiny h (w := ⟨((i' - i : ℤ) : ℝ), ((j' - j : ℤ) : ℝ), ((l' - l : ℤ) : ℝ)⟩) (e := -e)
      ⟨_, _, _, rfl⟩ ?_ ?_
    · obtain ⟨h1, h2, h3⟩ := he
      refine ⟨?_, ?_, ?_⟩ <;> simp only [Vec3.neg_x, Vec3.neg_y, Vec3.neg_z, abs_neg] <;> assumption
    · rw [hk]
      have ex := congrArg Vec3.x e'
      have ey := congrArg Vec3.y e'
      have ez := congrArg Vec3.z e'
      simp only [Vec3.sub_x, Vec3.sub_y, Vec3.sub_z] at ex ey ez
      ext <;> simp only [Vec3.sub_x, Vec3.sub_y, Vec3.sub_z, Vec3.add_x, Vec3.add_y, Vec3.add_z, Vec3.neg_x,
        Vec3.neg_y, Vec3.neg_z] <;> push_cast <;> linarith
  induction hb with
  | nil => left; simp
  | @old cs ks c k hb hk hc ih =>
    have hcm : c ∈ cs ++ [c] := by simp
    rcases ih (fun c hc => hbox c (by simp [hc])) (fun c hc => hP c (by simp [hc]))
      (fun c hc => hF c (by simp [hc])) with ⟨i1, i2⟩ | ⟨k0, h0, h1, h2, h3⟩
    · left
      have hPc : P c = false := by
        by_contra hne
        rw [Bool.not_eq_false] at hne
        exact exact_not_far c k (hP c hcm hne) (i2 k hk) hc
      refine ⟨fun x hx => ?_, fun x hx => ?_⟩
      · rcases List.mem_append.1 hx with hx | hx
        · exact i1 x hx
        · rw [List.mem_singleton.1 hx]; exact hPc
      · rcases List.mem_append.1 hx with hx | hx
        · exact i2 x hx
        · rw [List.mem_singleton.1 hx]; exact i2 k hk
    · right
      refine ⟨k0, by simp [h0], h1, ?_, ?_⟩
      · rw [List.count_append, List.countP_append, h2]
        congr 1
        cases hPc : P c with
        | true =>
          have : k = k0 := by
            by_contra hne
            exact exact_not_far c k (hP c hcm hPc) (h3 k hk hne) hc
          subst this
          simp [hPc]
        | false =>
          have : k ≠ k0 := by
            rintro rfl
            exact far_not_exact c k (hF c hcm hPc) h1 hc
          simp [hPc, this]
      · intro x hx hne
        rcases List.mem_append.1 hx with hx | hx
        · exact h3 x hx hne
        · rw [List.mem_singleton.1 hx] at hne ⊢; exact h3 k hk hne
  | @new cs ks c hb hno ih =>
    have hcm : c ∈ cs ++ [c] := by simp
    have hcb := hbox c hcm
    rcases ih (fun c hc => hbox c (by simp [hc])) (fun c hc => hP c (by simp [hc]))
      (fun c hc => hF c (by simp [hc])) with ⟨i1, i2⟩ | ⟨k0, h0, h1, h2, h3⟩
    · cases hPc : P c with
      | true =>
        right
        have hex := exact_key c hcb (hP c hcm hPc)
        refine ⟨toIntVec c, by simp, hex, ?_, ?_⟩
        · have hn : toIntVec c ∉ ks := by
            intro hm
            exact exact_not_far c _ (hP c hcm hPc) (i2 _ hm) (inBucket_self h hcb)
          rw [List.count_append, List.countP_append, List.count_eq_zero_of_not_mem hn,
            List.countP_eq_zero.2 (by intro x hx; simp [i1 x hx])]
          simp [hPc]
        · intro x hx hne
          rcases List.mem_append.1 hx with hx | hx
          · exact i2 x hx
          · exact absurd (List.mem_singleton.1 hx) hne
      | false =>
        left
        refine ⟨fun x hx => ?_, fun x hx => ?_⟩
        · rcases List.mem_append.1 hx with hx | hx
          · exact i1 x hx
          · rw [List.mem_singleton.1 hx]; exact hPc
        · rcases List.mem_append.1 hx with hx | hx
          · exact i2 x hx
          · rw [List.mem_singleton.1 hx]; exact far_key c hcb (hF c hcm hPc)
    · right
      have hPc : P c = false := by
        by_contra hne
        rw [Bool.not_eq_false] at hne
        have h4 := exact_in c k0 (hP c hcm hne) h1
        rw [hno k0 h0] at h4
        exact absurd h4 (by simp)
      have hne : toIntVec c ≠ k0 := by
        intro he
        have h4 := inBucket_self h hcb
        rw [he, hno k0 h0] at h4
        exact absurd h4 (by simp)
      refine ⟨k0, by simp [h0], h1, ?_, ?_⟩
      · rw [List.count_append, List.countP_append, h2]
        simp [hPc, hne]
      · intro x hx hxne
        rcases List.mem_append.1 hx with hx | hx
        · exact h3 x hx hxne
        · rw [List.mem_singleton.1 hx]; exact far_key c hcb (hF c hcm hPc)

end CrystSymm
