import Verif.Proofs.RoundedBox
import Verif.Proofs.Structure

set_option autoImplicit false
set_option linter.unusedSectionVars false

/-! # Stages of the analysis of a box in rounded arithmetic -/

namespace CrystSymm

open Spec Reducer

section
variable {K : Type} [Add K] [Sub K] [Mul K] [Div K] [Neg K] [Zero K] [One K] [IntCast K]
  [LT K] [LE K] [DecidableLT K] [DecidableLE K] [BEq K] [FRound K] [FTrans K]

/-- with the species in order, `normalize_coords` keeps the order of the sites. -/
theorem normalize_in_order (s : Structure K) (d : K) (hlen : s.species.length = s.fracCoords.length)
    (hs : s.species.Pairwise (· ≤ ·)) :
    s.normalizeCoords d = ⟨s.lattice, s.species, Structure.getCartCoords s.lattice (normedFrac s d), normedFrac s d⟩ := by
  have hl : s.species.length = (normedFrac s d).length := by simp [normedFrac, normalizeFracVectors, hlen]
  refine consistent_ext (normalizeCoords_consistent s d) ⟨hl, rfl⟩ rfl ?_
  rw [normalizeCoords_sites]
  refine mergeSort_key_of_sorted Prod.fst ?_
  rw [← List.map_fst_zip hl.le, List.pairwise_map] at hs
  exact hs

theorem foldl_addSite_any {L : Mat3 K} {tols : Vec3 K} {d : K} (l acc : List (Vec3 K × String))
    (h : ∀ p ∈ acc, ∀ q ∈ l, Structure.sitesCoincide L tols d q.1 p.1 = false)
    (hp : l.Pairwise fun p q => Structure.sitesCoincide L tols d q.1 p.1 = false) :
    l.foldl (fun acc p => Structure.addSite L tols d acc p.1 p.2) acc = acc ++ l := by
  induction l generalizing acc with
  | nil => simp
  | cons q l ih =>
    rw [List.pairwise_cons] at hp
    have h1 : Structure.addSite L tols d acc q.1 q.2 = acc ++ [q] := by
      unfold Structure.addSite
      rw [if_neg]
      simp only [List.any_eq_true, not_exists, not_and, Bool.not_eq_true]
      exact fun p hp => h p hp q (by simp)
    rw [List.foldl_cons, h1, ih]
    · simp
    · intro p hp' q' hq'
      rcases List.mem_append.1 hp' with hp' | hp'
      · exact h p hp' q' (by simp [hq'])
      · rw [List.mem_singleton] at hp'
        subst hp'
        exact hp.1 q' hq'
    · exact hp.2

theorem foldSites_keeps {L : Mat3 K} {tols : Vec3 K} {d : K} (l : List (Vec3 K × String))
    (hp : l.Pairwise fun p q => Structure.sitesCoincide L tols d q.1 p.1 = false) : foldSites L tols d l = l := by
  unfold foldSites
  rw [foldl_addSite_any l [] (by simp) hp, List.nil_append]

/-- candidates that coincide with a site already found are skipped. -/
theorem foldl_skip {L : Mat3 K} {tols : Vec3 K} {d : K} (f : Vec3 K → Vec3 K) (e : String) (tvs : List (Vec3 K))
    (acc : List (Vec3 K × String)) {x : Vec3 K × String} (hx : x ∈ acc)
    (h : ∀ tv ∈ tvs, Structure.sitesCoincide L tols d (f tv) x.1 = true) :
    tvs.foldl (fun acc tv => Structure.addSite L tols d acc (f tv) e) acc = acc := by
  induction tvs with
  | nil => rfl
  | cons tv tvs ih =>
    have h1 : Structure.addSite L tols d acc (f tv) e = acc := by
      unfold Structure.addSite
      rw [if_pos]
      rw [List.any_eq_true]
      exact ⟨x, hx, h tv (by simp)⟩
    rw [List.foldl_cons, h1]
    exact ih fun tv htv => h tv (by simp [htv])

theorem secondScan_any {d : K} {x y : Vec3 K} {pre post : List (Vec3 K)} (n : ℕ) (c : Vec3 K)
    (h1 : ∀ v ∈ pre, ¬ d < FRound.abs (x.cross v).mag) (h2 : d < FRound.abs (x.cross y).mag) :
    secondScan d x (pre ++ y :: post) n c = (n + pre.length + 1, x.cross y) := by
  induction pre generalizing n c with
  | nil => simp only [List.nil_append, secondScan, if_pos h2, List.length_nil, Nat.add_zero]
  | cons v pre ih =>
    simp only [List.cons_append, secondScan, if_neg (h1 v (by simp)), List.length_cons]
    rw [ih (n + 1) (x.cross v) (fun v hv => h1 v (by simp [hv]))]
    congr 1
    omega

theorem thirdScan_any {d : K} {c z : Vec3 K} {pre post : List (Vec3 K)} (k n : ℕ)
    (h1 : ∀ v ∈ pre, ¬ d < c.dot v) (h2 : d < c.dot z) :
    thirdScan d c k (pre ++ z :: post) n = n + pre.length + k + 1 := by
  induction pre generalizing n with
  | nil => simp only [List.nil_append, thirdScan, if_pos h2, List.length_nil, Nat.add_zero]
  | cons v pre ih =>
    simp only [List.cons_append, thirdScan, if_neg (h1 v (by simp)), List.length_cons]
    rw [ih (n + 1) (fun v hv => h1 v (by simp [hv]))]
    omega

theorem shortest_any {d : K} {l : List (Vec3 K)} {x y z : Vec3 K} {pre pre2 post : List (Vec3 K)}
    (hS : sortByMag l = x :: (pre ++ y :: (pre2 ++ z :: post)))
    (h1 : ∀ v ∈ pre, ¬ d < FRound.abs (x.cross v).mag) (h2 : d < FRound.abs (x.cross y).mag)
    (h3 : ∀ v ∈ pre2, ¬ d < (x.cross y).dot v) (h4 : d < (x.cross y).dot z) :
    getShortestTranslationVecs d l = .ret (x, y, z) := by
  unfold getShortestTranslationVecs
  simp only
  rw [hS]
  have e2 : secondScan d x ((x :: (pre ++ y :: (pre2 ++ z :: post))).drop 1) 0 0 = (pre.length + 1, x.cross y) := by
    rw [List.drop_one, List.tail_cons, secondScan_any 0 0 h1 h2, Nat.zero_add]
  have e3 : (x :: (pre ++ y :: (pre2 ++ z :: post))).drop (pre.length + 1 + 1) = pre2 ++ z :: post := by
    rw [List.drop_succ_cons, List.drop_append]
    simp
  simp only [List.getElem?_cons_zero, Outcome.ofOption, Outcome.ret_bind]
  rw [e2]
  simp only
  rw [if_neg (by simp only [List.length_cons, List.length_append]; omega), e3, thirdScan_any _ _ h3 h4]
  have g1 : (x :: (pre ++ y :: (pre2 ++ z :: post)))[pre.length + 1]? = some y := by
    rw [List.getElem?_cons_succ, List.getElem?_append_right (le_refl _)]
    simp
  have g2 : (x :: (pre ++ y :: (pre2 ++ z :: post)))[0 + pre2.length + (pre.length + 1) + 1]? = some z := by
    rw [List.getElem?_cons_succ, List.getElem?_append_right (by omega),
      show 0 + pre2.length + (pre.length + 1) - pre.length = pre2.length + 1 by omega, List.getElem?_cons_succ,
      List.getElem?_append_right (le_refl _)]
    simp
  rw [g1, g2]
  rfl

end

section
variable {ρ : Rounding} {L : Mat3 (RNum ρ)} {dtol : RNum ρ} {r A : ℝ}

/-! ## Coincidence -/

theorem sitesCoincide_rounded {tols : Vec3 (RNum ρ)} {c k : Vec3 (RNum ρ)} :
    Structure.sitesCoincide L tols dtol c k = true ↔
      |(L * normFracVec tols (c - k)).mag.val| ≤ (dtol * lit 2 : RNum ρ).val := by
  unfold Structure.sitesCoincide
  simp only [decide_eq_true_eq]
  rw [← RNum.val_abs]
  rfl

theorem coincide_sound (h : SearchBounds L dtol r A) {c k : Vec3 (RNum ρ)} (hc : CompsLe (valV c) 8)
    (hk : CompsLe (valV k) 8) (hb : Structure.sitesCoincide L (Structure.fracTols L dtol) dtol c k = true) :
    DistMod (valM L) (201 / 100 * dtol.val) (valV c) (valV k) := by
  rw [sitesCoincide_rounded] at hb
  obtain ⟨hδ, hd⟩ := h.delta
  obtain ⟨⟨x1, x2⟩, ⟨y1, y2⟩, ⟨z1, z2⟩⟩ := h.tols
  have hq : 0 ≤ dtol.val / A := by have := h.tolOverA; norm_num at this; linarith
  norm_num at x1 y1 z1
  generalize Structure.fracTols L dtol = tols at *
  obtain ⟨hn, ⟨w, hw, he⟩, -⟩ := norm_vec hδ ⟨by linarith, x2⟩ ⟨by linarith, y2⟩ ⟨by linarith, z2⟩ (by linarith) hc hk
  refine ⟨w, hw, ?_⟩
  have hi := image_close h.rel h.r0 h.r1 h.A1 h.entries hn (he.mono (by nlinarith [sq_nonneg r]))
  have h2 := h.double
  have h3 := h.Ar
  have h4 := h.pos
  rw [abs_le] at hb hi h2
  linarith [hb.2, hi.1, h2.2]

theorem coincide_complete (h : SearchBounds L dtol r A) {c k : Vec3 (RNum ρ)} (hc : CompsLe (valV c) 8)
    (hk : CompsLe (valV k) 8) {ν : ℝ} (hce : CloseMod ν (valV c) (valV k)) (hν : 6 * A * ν ≤ dtol.val) :
    Structure.sitesCoincide L (Structure.fracTols L dtol) dtol c k = true := by
  rw [sitesCoincide_rounded]
  obtain ⟨w, hw, he⟩ := hce
  have hce : valV c - valV k = w + (valV c - valV k - w) := by ext <;> simp
  generalize valV c - valV k - w = e at *
  obtain ⟨hδ, hd⟩ := h.delta
  obtain ⟨⟨x1, x2⟩, ⟨y1, y2⟩, ⟨z1, z2⟩⟩ := h.tols
  have hA := h.A1
  have hq := h.tolOverA
  have hνq : ν ≤ 1 / 6 * (dtol.val / A) := by
    rw [← mul_div_assoc, le_div_iff₀ (by linarith)]
    linarith
  norm_num at x1 y1 z1 hq
  generalize Structure.fracTols L dtol = tols at *
  obtain ⟨hn, -, hf⟩ := norm_vec hδ ⟨by linarith, x2⟩ ⟨by linarith, y2⟩ ⟨by linarith, z2⟩ (by linarith) hc hk
  have he' := hf w e hw hce (by linarith [he.1]) (by linarith [he.2.1]) (by linarith [he.2.2])
  have hi := image_close h.rel h.r0 h.r1 h.A1 h.entries hn (he'.mono (by nlinarith [sq_nonneg r]))
  have h2 := h.double
  have h3 := h.Ar
  have h4 := h.pos
  have h5 := h.short he
  have h6 := mag_nonneg (valM L * e)
  rw [abs_le] at hi h2 ⊢
  constructor <;> linarith [hi.1, hi.2, h2.1, h2.2]

theorem norm_close (h : SearchBounds L dtol r A) {v : Vec3 (RNum ρ)} (hv : CompsLe (valV v) 8) :
    CompsLe (valV (normFracVec (Structure.fracTols L dtol) v)) (3 / 2) ∧
      CloseMod (2048 * r ^ 2) (valV (normFracVec (Structure.fracTols L dtol) v)) (valV v) := by
  obtain ⟨hδ, hd⟩ := h.delta
  obtain ⟨⟨x1, x2⟩, ⟨y1, y2⟩, ⟨z1, z2⟩⟩ := h.tols
  have hq := h.tolOverA
  norm_num at x1 y1 z1 hq
  generalize Structure.fracTols L dtol = tols at *
  have hz : valV (0 : Vec3 (RNum ρ)) = 0 := by ext <;> exact RNum.val_zero
  have e : v - 0 = v := by ext <;> exact RNum.sub_zero' _
  obtain ⟨hn, ⟨w, hw, he⟩, -⟩ := norm_vec hδ (tols := tols) (a := v) (b := 0) ⟨by linarith, x2⟩ ⟨by linarith, y2⟩
    ⟨by linarith, z2⟩ (by linarith) hv (by rw [hz]; simp [CompsLe])
  rw [e] at hn he
  have hw' : IntVec (-w) := by
    obtain ⟨i, j, k, rfl⟩ := hw
    exact ⟨-i, -j, -k, by ext <;> simp⟩
  refine ⟨hn, -w, hw', ?_⟩
  have e2 : valV (normFracVec tols v) - valV v - -w = valV (normFracVec tols v) - (valV v - valV (0 : Vec3 (RNum ρ)) - w) := by
    rw [hz]; ext <;> simp <;> ring
  rw [e2]
  exact he.mono (by linarith)

/-! ## Sites -/

/-- the positions are the ideal ones up to `η` and lattice translations, with components of at most `B`. -/
def SitesNear (η B : ℝ) (F : List (Vec3 (RNum ρ))) (ps : List (Vec3 ℝ)) : Prop :=
  List.Forall₂ (fun p q => CompsLe (valV p) B ∧ CloseMod η (valV p) q) F ps

theorem SitesNear.mono {η B η' B' : ℝ} {F : List (Vec3 (RNum ρ))} {ps : List (Vec3 ℝ)} (h : SitesNear η B F ps)
    (hη : η ≤ η') (hB : B ≤ B') : SitesNear η' B' F ps :=
  h.imp fun _ _ hp => ⟨hp.1.mono hB, hp.2.mono hη⟩

theorem SitesNear.map {η B η' B' : ℝ} {F : List (Vec3 (RNum ρ))} {ps : List (Vec3 ℝ)} (h : SitesNear η B F ps)
    {f : Vec3 (RNum ρ) → Vec3 (RNum ρ)} (hf : ∀ p, CompsLe (valV p) B → CompsLe (valV (f p)) B' ∧
      CloseMod η' (valV (f p)) (valV p)) : SitesNear (η' + η) B' (F.map f) ps := by
  unfold SitesNear
  rw [List.forall₂_map_left_iff]
  refine h.imp fun p q hp => ?_
  obtain ⟨h1, h2⟩ := hf p hp.1
  exact ⟨h1, h2.trans hp.2⟩

theorem SitesNear.norm (hb : SearchBounds L dtol r A) {η : ℝ} {F : List (Vec3 (RNum ρ))} {ps : List (Vec3 ℝ)}
    (h : SitesNear η 8 F ps) :
    SitesNear (2048 * r ^ 2 + η) (3 / 2) (normalizeFracVectors F (Structure.fracTols L dtol)) ps :=
  h.map fun _ hp => norm_close hb hp

/-- no two of the positions are closer than `d`. -/
def PosApart (M : Mat3 ℝ) (d : ℝ) (ps : List (Vec3 ℝ)) : Prop := ps.Pairwise fun p q => ¬ DistMod M d p q

theorem SitesNear.apart (hb : SearchBounds L dtol r A) {η : ℝ} {F : List (Vec3 (RNum ρ))} {ps : List (Vec3 ℝ)}
    (h : SitesNear η 8 F ps) (hη : 100 * A * η ≤ dtol.val) (ha : PosApart (valM L) (9 / 4 * dtol.val) ps) :
    F.Pairwise fun p q => Structure.sitesCoincide L (Structure.fracTols L dtol) dtol q p = false := by
  have hp := hb.pos
  unfold PosApart at ha
  unfold SitesNear at h
  induction h with
  | nil => exact List.Pairwise.nil
  | @cons p q F ps hpq hF ih =>
    rw [List.pairwise_cons] at ha ⊢
    refine ⟨fun p' hp' => ?_, ih ha.2⟩
    obtain ⟨q', hq', h1, h2⟩ : ∃ q' ∈ ps, CompsLe (valV p') 8 ∧ CloseMod η (valV p') q' := by
      clear ih ha
      induction hF with
      | nil => simp at hp'
      | cons h0 _ ih' =>
        rcases List.mem_cons.1 hp' with rfl | hp'
        · exact ⟨_, by simp, h0⟩
        · obtain ⟨q', hq', h⟩ := ih' hp'
          exact ⟨q', by simp [hq'], h⟩
    by_contra hc
    rw [Bool.not_eq_false] at hc
    have h3 := coincide_sound hb h1 hpq.1 hc
    apply ha.1 q' hq'
    have d1 := hb.dist h2
    have d2 := hb.dist hpq.2
    exact ((d2.symm.trans (h3.symm.trans d1)).mono (by linarith))

end

end CrystSymm
