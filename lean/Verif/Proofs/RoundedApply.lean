import Verif.Proofs.RoundedNiggli

/-! # The identity transformation of a box in rounded arithmetic -/

set_option autoImplicit false
set_option linter.unusedSectionVars false
set_option linter.unusedSimpArgs false

namespace CrystSymm

open Spec Reducer SymmetryAnalyzer

variable {ρ : Rounding} {a b c dtol : RNum ρ} {r A : ℝ}

theorem lit_ge_one {n : ℤ} (h : 1 ≤ n) : 1 ≤ (lit n : RNum ρ).val := by
  show 1 ≤ ρ.fl (n : ℝ)
  have := ρ.mono 1 (n : ℝ) (by exact_mod_cast h)
  rwa [ρ.one] at this

theorem lit_err (hb : BoxBounds a b c dtol r A) {n : ℤ} {B : ℝ} (hB : 1 ≤ B) (hn : |(n : ℝ)| ≤ B) :
    |(lit n : RNum ρ).val - n| ≤ r ^ 2 * B := fl_err hb hB hn

theorem ratio_of_hundred (hb : BoxBounds a b c dtol r A) {x : RNum ρ} (hx : |x.val - 100| < 1 / 2) :
    FRound.round x / lit 100 = (1 : RNum ρ) := by
  have e : FRound.round x = (lit 100 : RNum ρ) := by
    refine RNum.ext ?_
    show ρ.fl (FRound.round x.val) = ρ.fl ((100 : ℤ) : ℝ)
    congr 1
    show ((roundZ x.val : ℤ) : ℝ) = _
    rw [abs_lt] at hx
    congr 1
    unfold roundZ
    rw [if_pos (by linarith), Int.floor_eq_iff]
    norm_num
    constructor <;> linarith [hx.1, hx.2]
  rw [e]
  refine RNum.div_self' ?_
  have := lit_ge_one (ρ := ρ) (n := 100) (by norm_num)
  linarith

theorem volumeRatio_one (hb : BoxBounds a b c dtol r A) : Structure.volumeRatio (1 : Mat3 (RNum ρ)) = 1 := by
  unfold Structure.volumeRatio
  have e : FRound.abs (1 : Mat3 (RNum ρ)).det = (1 : RNum ρ) := by
    rw [rbox_one, rbox_det, RNum.one_mul', RNum.one_mul']
    exact RNum.ext (by rw [RNum.val_abs, RNum.val_one, abs_one])
  rw [e, RNum.one_mul']
  refine ratio_of_hundred hb ?_
  have h := lit_err hb (n := 100) (B := 100) (by norm_num) (by norm_num)
  have hr := tiny_r2 hb
  norm_num at h hr ⊢
  linarith

theorem quotLt_zero {n : ℕ} (hn : n ≠ 0) : Structure.quotLt 0 n (1 : RNum ρ) = true := by
  unfold Structure.quotLt
  rw [if_neg hn]
  refine decide_eq_true ?_
  have e : (lit ((0 : ℕ) : ℤ) : RNum ρ) = 0 := RNum.lit_zero
  rw [e, RNum.zero_div', RNum.lt_def', RNum.val_zero, RNum.val_one]
  norm_num

theorem quotLt_full {n : ℕ} (hn : n ≠ 0) : Structure.quotLt n n (1 : RNum ρ) = false := by
  unfold Structure.quotLt
  rw [if_neg hn]
  refine decide_eq_false ?_
  have := lit_ge_one (ρ := ρ) (n := (n : ℤ)) (by omega)
  rw [RNum.div_self' (by linarith), RNum.lt_def']
  exact lt_irrefl _

theorem translationVecs_two : Structure.translationVecs 2 = (⟨lit 0, lit 0, lit 0⟩ : Vec3 (RNum ρ)) ::
    [⟨lit 0, lit 0, lit 1⟩, ⟨lit 0, lit 1, lit 0⟩, ⟨lit 0, lit 1, lit 1⟩, ⟨lit 1, lit 0, lit 0⟩, ⟨lit 1, lit 0, lit 1⟩,
      ⟨lit 1, lit 1, lit 0⟩, ⟨lit 1, lit 1, lit 1⟩] := rfl

theorem shift_close (hb : BoxBounds a b c dtol r A) {x t : RNum ρ} (hx : |x.val| ≤ 3 / 2) (ht : t = lit 0 ∨ t = lit 1) :
    |(x + lit 2 * t).val| ≤ 8 ∧ ∃ n : ℤ, |(x + lit 2 * t).val - x.val - n| ≤ 20 * r ^ 2 := by
  have h0 : 0 ≤ r ^ 2 := sq_nonneg r
  have hr := tiny_r2 hb
  norm_num at hr
  rcases ht with rfl | rfl
  · rw [RNum.lit_zero, RNum.mul_zero', RNum.add_zero']
    exact ⟨by linarith, 0, by simp; linarith⟩
  · rw [RNum.lit_one, RNum.mul_one']
    have h := lit_err hb (n := 2) (B := 2) (by norm_num) (by norm_num)
    set y := (lit 2 : RNum ρ)
    have k := fl_err hb (x := x.val + y.val) (B := 8) (by norm_num) (by
      norm_num at h; rw [abs_le] at *; constructor <;> linarith [h.1, h.2, hx.1, hx.2])
    have e : (x + y).val = ρ.fl (x.val + y.val) := rfl
    rw [e]
    norm_num at h
    rw [abs_le] at h hx k
    refine ⟨?_, 2, ?_⟩ <;> rw [abs_le] <;> push_cast <;> constructor <;> linarith [h.1, h.2, hx.1, hx.2, k.1, k.2]

theorem shift_coincides (hb : BoxBounds a b c dtol r A) {p tv : Vec3 (RNum ρ)} (hp : CompsLe (valV p) (3 / 2))
    (hx : tv.x = lit 0 ∨ tv.x = lit 1) (hy : tv.y = lit 0 ∨ tv.y = lit 1) (hz : tv.z = lit 0 ∨ tv.z = lit 1) :
    Structure.sitesCoincide (rbox a b c) (Structure.fracTols (rbox a b c) dtol) dtol
      ((1 : Mat3 (RNum ρ)) * (p + Vec3.scale (lit 2) tv)) p = true := by
  rw [one_mulVec']
  obtain ⟨p1, p2, p3⟩ := hp
  obtain ⟨x1, i, x2⟩ := shift_close hb p1 hx
  obtain ⟨y1, j, y2⟩ := shift_close hb p2 hy
  obtain ⟨z1, k, z2⟩ := shift_close hb p3 hz
  refine coincide_complete hb.search (ν := 20 * r ^ 2) ⟨x1, y1, z1⟩ ⟨?_, ?_, ?_⟩ ⟨⟨i, j, k⟩, ⟨i, j, k, rfl⟩, x2, y2, z2⟩ ?_
  · exact p1.trans (by norm_num)
  · exact p2.trans (by norm_num)
  · exact p3.trans (by norm_num)
  · have := hb.u1
    have := hb.lo
    have e : 6 * A * (20 * r ^ 2) = 120 * (A * r ^ 2) := by ring
    rw [e]
    linarith

theorem searchPass_one (hb : BoxBounds a b c dtol r A) (l acc : List (Vec3 (RNum ρ) × String))
    (hc : ∀ p ∈ l, CompsLe (valV p.1) (3 / 2))
    (h : ∀ p ∈ acc, ∀ q ∈ l, Structure.sitesCoincide (rbox a b c) (Structure.fracTols (rbox a b c) dtol) dtol q.1 p.1 = false)
    (hp : l.Pairwise fun p q => Structure.sitesCoincide (rbox a b c) (Structure.fracTols (rbox a b c) dtol) dtol q.1 p.1 = false) :
    Structure.searchPass (rbox a b c) (Structure.fracTols (rbox a b c) dtol) dtol 1 2 l acc = acc ++ l := by
  unfold Structure.searchPass
  induction l generalizing acc with
  | nil => simp
  | cons q l ih =>
    rw [List.pairwise_cons] at hp
    rw [List.foldl_cons]
    have h1 : (Structure.translationVecs 2).foldl (fun acc tv => Structure.addSite (rbox a b c)
        (Structure.fracTols (rbox a b c) dtol) dtol acc
        ((1 : Mat3 (RNum ρ)) * (q.1 + Vec3.scale (lit ((2 : ℕ) : ℤ)) tv)) q.2) acc = acc ++ [q] := by
      rw [translationVecs_two, List.foldl_cons]
      have e0 : (1 : Mat3 (RNum ρ)) * (q.1 + Vec3.scale (lit ((2 : ℕ) : ℤ)) ⟨lit 0, lit 0, lit 0⟩) = q.1 := by
        rw [one_mulVec']
        ext1 <;> simp only [Vec3.scale, Vec3.add_x, Vec3.add_y, Vec3.add_z, RNum.lit_zero, RNum.mul_zero', RNum.add_zero']
      have e1 : Structure.addSite (rbox a b c) (Structure.fracTols (rbox a b c) dtol) dtol acc q.1 q.2 = acc ++ [q] := by
        unfold Structure.addSite
        rw [if_neg]
        simp only [List.any_eq_true, not_exists, not_and, Bool.not_eq_true]
        exact fun p hp => h p hp q (by simp)
      rw [e0, e1]
      refine foldl_skip (fun tv => (1 : Mat3 (RNum ρ)) * (q.1 + Vec3.scale (lit ((2 : ℕ) : ℤ)) tv)) q.2 _ _ (x := q) (by simp) ?_
      intro tv htv
      have hs := fun h1 h2 h3 => shift_coincides hb (p := q.1) (tv := tv) (hc q (by simp)) h1 h2 h3
      simp only [List.mem_cons, List.not_mem_nil, or_false] at htv
      rcases htv with rfl | rfl | rfl | rfl | rfl | rfl | rfl <;> exact hs (by simp) (by simp) (by simp)
    rw [h1, ih _ (fun p hp => hc p (by simp [hp])) ?_ hp.2]
    · simp
    · intro p hp' q' hq'
      rcases List.mem_append.1 hp' with hp' | hp'
      · exact h p hp' q' (by simp [hq'])
      · rw [List.mem_singleton] at hp'
        subst hp'
        exact hp.1 q' hq'

/-- a crystal on its way through the pipeline. -/
structure BoxState (a b c : RNum ρ) (sp : List String) (ps : List (Vec3 ℝ)) (η : ℝ) (s : Structure (RNum ρ)) : Prop where
  lattice : s.lattice = rbox a b c
  species : s.species = sp
  sites : SitesNear η (3 / 2) s.fracCoords ps
  cart : s.coords = Structure.getCartCoords s.lattice s.fracCoords

/-- the species and positions of the crystal. -/
structure BoxAtoms (a b c dtol : RNum ρ) (sp : List String) (ps : List (Vec3 ℝ)) : Prop where
  len : sp.length = ps.length
  some : sp ≠ []
  order : sp.Pairwise (· ≤ ·)
  apart : PosApart (valM (rbox a b c)) (9 / 4 * dtol.val) ps

variable {sp : List String} {ps : List (Vec3 ℝ)} {η : ℝ} {s : Structure (RNum ρ)}

theorem SitesNear.length {B : ℝ} {F : List (Vec3 (RNum ρ))} (h : SitesNear η B F ps) : F.length = ps.length :=
  List.Forall₂.length_eq h

theorem SitesNear.comps {B : ℝ} {F : List (Vec3 (RNum ρ))} (h : SitesNear η B F ps) : ∀ p ∈ F, CompsLe (valV p) B := by
  unfold SitesNear at h
  induction h with
  | nil => simp
  | cons h0 _ ih =>
    intro p hp
    rcases List.mem_cons.1 hp with rfl | hp
    · exact h0.1
    · exact ih p hp

theorem zip_apart {L : Mat3 (RNum ρ)} {tols : Vec3 (RNum ρ)} {F : List (Vec3 (RNum ρ))} (sp : List String)
    (h : F.Pairwise fun p q => Structure.sitesCoincide L tols dtol q p = false) :
    (F.zip sp).Pairwise fun p q => Structure.sitesCoincide L tols dtol q.1 p.1 = false := by
  induction F generalizing sp with
  | nil => simp
  | cons p F ih =>
    cases sp with
    | nil => simp
    | cons e sp =>
      rw [List.pairwise_cons] at h
      rw [List.zip_cons_cons, List.pairwise_cons]
      exact ⟨fun q hq => h.1 q.1 (List.of_mem_zip hq).1, ih sp h.2⟩

/-- what normalising does to a crystal on its way. -/
theorem normalised (hb : BoxBounds a b c dtol r A) (ha : BoxAtoms a b c dtol sp ps) {F C : List (Vec3 (RNum ρ))}
    (h : SitesNear η 8 F ps) :
    BoxState a b c sp ps (2048 * r ^ 2 + η) ((⟨rbox a b c, sp, C, F⟩ : Structure (RNum ρ)).normalizeCoords dtol) := by
  rw [normalize_in_order _ _ (by rw [ha.len, h.length]) ha.order]
  exact ⟨rfl, rfl, h.norm hb.search, rfl⟩

theorem apply_box (hb : BoxBounds a b c dtol r A) (ha : BoxAtoms a b c dtol sp ps) (hs : BoxState a b c sp ps η s)
    (hη : 100 * A * η ≤ dtol.val) {fuel : ℕ} (hf : 2 ≤ fuel) :
    ∃ s', s.applyTransformation fuel 1 dtol = .ret s' ∧ BoxState a b c sp ps (2048 * r ^ 2 + η) s' := by
  obtain ⟨n, rfl⟩ : ∃ n, fuel = n + 2 := ⟨fuel - 2, by omega⟩
  have hn : sp.length ≠ 0 := by have := ha.some; simpa using this
  have hl : s.fracCoords.length = sp.length := by rw [hs.sites.length, ha.len]
  have hcl : s.coords.length = sp.length := by
    rw [hs.cart]
    simp [Structure.getCartCoords, hl]
  have hz : (s.fracCoords.zip sp).length = sp.length := by rw [List.length_zip, hl, min_self]
  have hap := (hs.sites.mono le_rfl (by norm_num)).apart hb.search hη ha.apart
  have hpass := searchPass_one hb (s.fracCoords.zip sp) [] (fun p hp => hs.sites.comps p.1 (List.of_mem_zip hp).1)
    (by simp) (zip_apart sp hap)
  have e : Structure.searchLoop s.lattice (Structure.fracTols s.lattice dtol) dtol 1 (Structure.volumeRatio 1) s.coords.length
      (s.fracCoords.zip s.species) (n + 2) 2 [] = .ret (s.fracCoords.zip sp) := by
    rw [hs.lattice, hs.species, volumeRatio_one hb, hcl]
    simp only [Structure.searchLoop]
    rw [List.length_nil, quotLt_zero hn, if_pos rfl, hpass, List.nil_append, hz, quotLt_full hn]
    rfl
  refine ⟨_, ?_, normalised hb ha (F := s.fracCoords) (C := Structure.getCartCoords (rbox a b c) s.fracCoords)
    (hs.sites.mono le_rfl (by norm_num))⟩
  unfold Structure.applyTransformation
  rw [one_tryInverse]
  simp only []
  rw [e, Outcome.ret_bind, hs.lattice, rbox_mul_one, List.map_fst_zip hl.le, List.map_snd_zip hl.ge]


theorem frac_back (hb : BoxBounds a b c dtol r A) {a' b' c' : RNum ρ} {k : ℝ} (hk : 0 ≤ k ∧ k ≤ 1000)
    (la : 1 / 2 ≤ a'.val) (lb : 1 / 2 ≤ b'.val) (lc : 1 / 2 ≤ c'.val) (ea : EdgeNear k (A * r ^ 2) a a')
    (eb : EdgeNear k (A * r ^ 2) b b') (ec : EdgeNear k (A * r ^ 2) c c') {F : List (Vec3 (RNum ρ))}
    (h : SitesNear η (3 / 2) F ps) :
    SitesNear ((4 * k + 19) * (A * r ^ 2) + η) 8
      (Structure.getFracCoords (rbox a' b' c') (Structure.getCartCoords (rbox a b c) F)) ps := by
  obtain ⟨l1, l2, l3⟩ := hb.lower
  obtain ⟨u1, u2, u3⟩ := hb.upper
  have hu1 := hb.u1
  have hu0 := hb.u0
  have hhi := hb.hi
  have e : Structure.getFracCoords (rbox a' b' c') (Structure.getCartCoords (rbox a b c) F) =
      F.map fun y => (⟨1 / a' * (a * y.x), 1 / b' * (b * y.y), 1 / c' * (c * y.z)⟩ : Vec3 (RNum ρ)) := by
    unfold Structure.getFracCoords Structure.getCartCoords
    simp only [List.map_map]
    refine List.map_congr_left fun y _ => ?_
    simp only [Function.comp]
    rw [rbox_pinv (by linarith) (by linarith) (by linarith), rbox_mulVec, rbox_mulVec]
  rw [e]
  refine h.map fun p hp => ?_
  have hk' : 0 ≤ k ∧ k ≤ 1000000 := ⟨hk.1, by linarith [hk.2]⟩
  obtain ⟨p1, p2, p3⟩ := hp
  have k1 := back_close hb hk' l1 u1 la ea (y := p.x) (p1.trans (by norm_num))
  have k2 := back_close hb hk' l2 u2 lb eb (y := p.y) (p2.trans (by norm_num))
  have k3 := back_close hb hk' l3 u3 lc ec (y := p.z) (p3.trans (by norm_num))
  have hsmall : (4 * k + 19) * (A * r ^ 2) ≤ 1 := by
    have : (4 * k + 19) * (A * r ^ 2) ≤ 5000 * (dtol.val / 4000000000) := mul_le_mul (by linarith [hk.2]) hu1 hu0 (by norm_num)
    linarith
  have big : ∀ {x y : ℝ}, |x - y| ≤ (4 * k + 19) * (A * r ^ 2) → |y| ≤ 3 / 2 → |x| ≤ 8 := by
    intro x y h1 h2
    rw [abs_le] at *
    constructor <;> linarith [h1.1, h1.2, h2.1, h2.2]
  refine ⟨⟨big k1 p1, big k2 p2, big k3 p3⟩, 0, intVec_zero, ?_, ?_, ?_⟩ <;>
    simp only [valV, Vec3.map, Vec3.sub_x, Vec3.sub_y, Vec3.sub_z, Vec3.zero_x, Vec3.zero_y, Vec3.zero_z, sub_zero]
  · exact k1
  · exact k2
  · exact k3

theorem edge_refl (hb : BoxBounds a b c dtol r A) (x : RNum ρ) : EdgeNear 0 (A * r ^ 2) x x := by
  unfold EdgeNear
  simp

/-- the Niggli reduction of a crystal on its way. -/
theorem niggli_state (hb : BoxBounds a b c dtol r A) (ha : BoxAtoms a b c dtol sp ps) (hs : BoxState a b c sp ps η s)
    (rd : Reducer (RNum ρ)) (hd : rd.dtol = dtol) :
    ∃ s', rd.niggliReduce s tol1em5 = .ret s' ∧ BoxState a b c sp ps (2048 * r ^ 2 + (19 * (A * r ^ 2) + η)) s' := by
  refine ⟨_, niggli_box hb rd s hs.lattice, ?_⟩
  obtain ⟨l1, l2, l3⟩ := hb.lower
  have hF := frac_back hb (k := 0) ⟨le_rfl, by norm_num⟩ l1 l2 l3 (edge_refl hb a) (edge_refl hb b) (edge_refl hb c) hs.sites
  unfold rebuild
  rw [hs.cart, hs.lattice, hs.species, hd]
  rw [mul_zero, zero_add] at hF
  exact normalised hb ha hF

end CrystSymm
