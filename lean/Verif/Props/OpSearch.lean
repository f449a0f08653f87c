import Verif.Proofs.OpSearch
import Verif.Proofs.ChangeBasis
import Verif.Props.Species
import Verif.Props.ChangeBasis

set_option autoImplicit false
set_option linter.unusedSectionVars false

/-! # C44, C45: the search for the symmetry operations of the standard primitive cell -/

namespace CrystSymm

open Spec SymmetryAnalyzer

/-- the distance tolerance is positive, at most half of every cell edge, and not smaller than `3e-9` cell edges. -/
def SearchTol (L : Mat3 ℝ) (dtol : ℝ) : Prop :=
  0 < dtol ∧ ∀ v, v = L.col0 ∨ v = L.col1 ∨ v = L.col2 →
    (2 * dtol) ^ 2 ≤ lenSq v ∧ 9 * lenSq v ≤ (dtol * 1000000000) ^ 2

/-- different sites of one species are more than `4 * dtol` apart, lattice translations included. -/
def Separated (s : Structure ℝ) (dtol : ℝ) : Prop :=
  ∀ (a b : ℕ) (e : String) (p q : Vec3 ℝ), (sites s)[a]? = some (e, p) → (sites s)[b]? = some (e, q) → a ≠ b → ∀ w, IntVec w →
    (4 * dtol) ^ 2 < lenSq (s.lattice * (p - q - w))

/-- what the search needs of the structure; `Structure::normalize_coords` provides the order. -/
structure Searchable (s : Structure ℝ) (dtol : ℝ) : Prop where
  sameLength : s.species.length = s.fracCoords.length
  small : s.species.length < 65536
  sorted : s.species.Pairwise (· ≤ ·)
  tol : SearchTol s.lattice dtol
  separated : Separated s dtol

/-- `{W | t}` maps every site onto a site of the same species, up to a lattice translation and the distance `d`. -/
def MapsWithin (s : Structure ℝ) (W : Mat3 ℝ) (t : Vec3 ℝ) (d : ℝ) : Prop :=
  ∀ e p, (e, p) ∈ sites s → ∃ q, (e, q) ∈ sites s ∧ ∃ w, IntVec w ∧ lenSq (s.lattice * (W * p + t - q - w)) ≤ d ^ 2

/-- `{W | t}` maps every site onto a site of the same species, up to a lattice translation. -/
def MapsExactly (s : Structure ℝ) (W : Mat3 ℝ) (t : Vec3 ℝ) : Prop :=
  ∀ e p, (e, p) ∈ sites s → ∃ q, (e, q) ∈ sites s ∧ SamePoint (W * p + t) q

theorem SearchTol.resolved {L : Mat3 ℝ} {dtol : ℝ} (h : SearchTol L dtol) : ResolvedTol L dtol := by
  refine ⟨h.1, fun v hv => ?_⟩
  obtain ⟨h1, h2⟩ := h.2 v hv
  have hd := h.1
  have hm := mag_nonneg v
  have hs : v.mag * v.mag = lenSq v := mag_mul_self v
  constructor
  · nlinarith
  · nlinarith

theorem site_iff {s : Structure ℝ} (a : ℕ) (e : String) (p : Vec3 ℝ) :
    (sites s)[a]? = some (e, p) ↔ s.species[a]? = some e ∧ s.fracCoords[a]? = some p := by
  unfold sites
  rw [List.getElem?_zip_eq_some]

theorem site_pos {s : Structure ℝ} (hl : s.species.length = s.fracCoords.length) {a : ℕ} {e : String}
    (h : s.species[a]? = some e) : (sites s)[a]? = some (e, posOf s.fracCoords a) := by
  have ha : a < s.species.length := (List.getElem?_eq_some_iff.1 h).1
  rw [site_iff]
  refine ⟨h, ?_⟩
  unfold posOf
  rw [List.getElem?_eq_getElem (by omega)]
  rfl

theorem pos_of_site {s : Structure ℝ} {a : ℕ} {e : String} {p : Vec3 ℝ} (h : (sites s)[a]? = some (e, p)) :
    s.species[a]? = some e ∧ p = posOf s.fracCoords a := by
  obtain ⟨h1, h2⟩ := (site_iff a e p).1 h
  refine ⟨h1, ?_⟩
  unfold posOf
  rw [h2]
  rfl

section
variable {α β : Type} [DecidableEq α]

theorem upsert_all_get (F : α → β) (l : List α) :
    (((l.map fun a => (a, F a)).foldl (fun m p => amapUpsert m p.1 p.2 fun _ => p.2) []).map Prod.fst).Nodup ∧
    ∀ k, amapGet? ((l.map fun a => (a, F a)).foldl (fun m p => amapUpsert m p.1 p.2 fun _ => p.2) []) k =
      if k ∈ l then some (F k) else none := by
  induction l using List.reverseRecOn with
  | nil => simp [amapGet?_nil]
  | append_singleton l a ih =>
    rw [List.map_append, List.foldl_append]
    simp only [List.map_cons, List.map_nil, List.foldl_cons, List.foldl_nil]
    refine ⟨amapUpsert_nodup ih.1 _ _ _, fun k => ?_⟩
    rw [amapGet?_upsert, ih.2]
    by_cases h : a = k
    · subst h; simp
    · rw [if_neg h]
      by_cases h2 : k ∈ l
      · simp [h2]
      · rw [if_neg h2, if_neg (by simp [h2, Ne.symm h])]

end

/-- the operations found, rotation by rotation. -/
theorem primitiveOps_eq {sa : SymmetryAnalyzer ℝ} {h : HashOrders ℝ} (hv : h.Valid) {fuel : ℕ} {s : Structure ℝ}
    {bravais : BravaisType} {ops : List (SymmOp ℝ)} (hs : Searchable s sa.dtol)
    (hr : sa.getPrimitiveSpaceGroupOps h fuel s bravais = .ret ops) :
    ∃ pg es m, primitiveHolohedry (K := ℝ) h fuel bravais = .ret pg ∧ s.species ≠ [] ∧ (∀ e, e ∈ es ↔ e ∈ s.species) ∧
      es.Nodup ∧ (m.map Prod.fst).Nodup ∧
      (∀ k, amapGet? m k = if k ∈ pg.operations then some ((sitePairs s.species es).map
          (pairTrans (Structure.fracTols s.lattice sa.dtol) s.fracCoords k)) else none) ∧
      ops = (h.opVecs m).flatMap (opsForRotation h s.lattice (Structure.fracTols s.lattice sa.dtol)
        sa.dtol s.species.length) := by
  unfold getPrimitiveSpaceGroupOps at hr
  simp only [Outcome.bind_eq_ret] at hr
  obtain ⟨pg, hpg, ⟨e, inds, counts⟩, hmin, entries, hent, hfin⟩ := hr
  have hn : s.numSites < 65536 := by
    have := hs.small; have h2 := hs.sameLength
    unfold Structure.numSites
    omega
  obtain ⟨⟨he0, -⟩, hi, hc⟩ := C19_get_min_element s h.minEle hv.minEle hn e inds counts hmin
  have hnd : (inds.map Prod.fst).Nodup := by
    unfold Structure.getMinElement at hmin
    simp only [Outcome.bind_eq_ret, Outcome.ret.injEq, Prod.mk.injEq] at hmin
    obtain ⟨_, _, _, rfl, _⟩ := hmin
    exact eleInds_nodup _
  have hip := hv.eleInds inds
  have hmem : ∀ p ∈ h.eleInds inds, p.1 ∈ s.species ∧ p.2 = s.species.idxOf p.1 := by
    intro p hp
    have h1 := hip.subset hp
    rw [show p = (p.1, p.2) from rfl, mem_iff_amapGet? hnd, hi] at h1
    split at h1
    · rename_i hm; exact ⟨hm, (Option.some.inj h1).symm⟩
    · simp at h1
  have hcand := candidateTranslations_eq (tols := Structure.fracTols s.lattice sa.dtol) hs.sorted
    hs.sameLength.symm hs.small hmem (fun e he => by rw [hc, if_pos he])
  rw [mapOutcome_ret _ (fun op => (op, (sitePairs s.species ((h.eleInds inds).map Prod.fst)).map
      (pairTrans (Structure.fracTols s.lattice sa.dtol) s.fracCoords op)))
    _ (fun op _ => by rw [hcand op]; rfl)] at hent
  have hent' := (Outcome.ret.inj hent).symm
  subst hent'
  obtain ⟨g1, g2⟩ := upsert_all_get (fun op => (sitePairs s.species ((h.eleInds inds).map Prod.fst)).map
      (pairTrans (Structure.fracTols s.lattice sa.dtol) s.fracCoords op)) pg.operations
  have hnum : s.numSites = s.species.length := by
    have h2 := hs.sameLength
    unfold Structure.numSites
    omega
  refine ⟨pg, (h.eleInds inds).map Prod.fst, _, hpg, List.ne_nil_of_mem he0, ?_, ?_, g1, g2, ?_⟩
  · intro e
    rw [(hip.map Prod.fst).mem_iff, mem_keys_iff_amapGet?, hi]
    by_cases he : e ∈ s.species <;> simp [he]
  · exact (hip.map Prod.fst).symm.nodup hnd
  · rw [← Outcome.ret.inj hfin, hnum]

theorem mem_primitiveOps {sa : SymmetryAnalyzer ℝ} {h : HashOrders ℝ} (hv : h.Valid) {fuel : ℕ} {s : Structure ℝ}
    {bravais : BravaisType} {ops : List (SymmOp ℝ)} (hs : Searchable s sa.dtol)
    (hr : sa.getPrimitiveSpaceGroupOps h fuel s bravais = .ret ops) :
    ∃ pg es, primitiveHolohedry (K := ℝ) h fuel bravais = .ret pg ∧ s.species ≠ [] ∧ (∀ e, e ∈ es ↔ e ∈ s.species) ∧ es.Nodup ∧
      ∀ o, o ∈ ops ↔ ∃ op ∈ pg.operations, o ∈ opsForRotation h s.lattice (Structure.fracTols s.lattice sa.dtol)
        sa.dtol s.species.length (op, (sitePairs s.species es).map
          (pairTrans (Structure.fracTols s.lattice sa.dtol) s.fracCoords op)) := by
  obtain ⟨pg, es, m, hpg, hne, hes, hnd, g1, g2, rfl⟩ := primitiveOps_eq hv hs hr
  refine ⟨pg, es, hpg, hne, hes, hnd, fun o => ?_⟩
  rw [List.mem_flatMap]
  constructor
  · rintro ⟨p, hp, ho⟩
    have h1 := (hv.opVecs _).subset hp
    rw [show p = (p.1, p.2) from rfl, mem_iff_amapGet? g1, g2] at h1
    split at h1
    · rename_i hm
      refine ⟨p.1, hm, ?_⟩
      rw [Option.some.inj h1]
      exact ho
    · simp at h1
  · rintro ⟨op, hop, ho⟩
    refine ⟨_, (hv.opVecs _).symm.subset ?_, ho⟩
    rw [mem_iff_amapGet? g1, g2, if_pos hop]

theorem opsForRotation_rotation {h : HashOrders ℝ} {L : Mat3 ℝ} {tols : Vec3 ℝ} {dtol : ℝ} {n : ℕ}
    {p : Mat3 Int8 × List (Vec3 ℝ)} {o : SymmOp ℝ} (ho : o ∈ opsForRotation h L tols dtol n p) : o.rotation = p.1 := by
  unfold opsForRotation at ho
  simp only [List.mem_filterMap] at ho
  obtain ⟨q, -, ho⟩ := ho
  split at ho
  · rw [← Option.some.inj ho]
  · simp at ho

theorem ofIntVec_injective {k k' : Vec3 Int} (h : (ofIntVec k : Vec3 ℝ) = ofIntVec k') : k = k' := by
  have hx := congrArg Vec3.x h
  have hy := congrArg Vec3.y h
  have hz := congrArg Vec3.z h
  simp only [ofIntVec, Vec3.map, lit, intConversionMult] at hx hy hz
  ext
  · field_simp at hx; exact_mod_cast hx
  · field_simp at hy; exact_mod_cast hy
  · field_simp at hz; exact_mod_cast hz

/-- no operation is listed twice. -/
theorem primitiveOps_nodup {sa : SymmetryAnalyzer ℝ} {h : HashOrders ℝ} (hv : h.Valid) {fuel : ℕ} {s : Structure ℝ}
    {bravais : BravaisType} {ops : List (SymmOp ℝ)} (hs : Searchable s sa.dtol)
    (hr : sa.getPrimitiveSpaceGroupOps h fuel s bravais = .ret ops) : ops.Nodup := by
  obtain ⟨pg, es, m, hpg, hne, hes, hnd, g1, g2, rfl⟩ := primitiveOps_eq hv hs hr
  have hres := hs.tol.resolved
  have hperm := hv.opVecs m
  rw [List.nodup_flatMap]
  constructor
  · intro p hp
    have h1 := hperm.subset hp
    rw [show p = (p.1, p.2) from rfl, mem_iff_amapGet? g1, g2] at h1
    split at h1
    · have h2 := Option.some.inj h1
      obtain ⟨ks, -, ht⟩ := countFold (h := h) hv (L := s.lattice) (tols := Structure.fracTols s.lattice sa.dtol)
        (dtol := sa.dtol) p.2 (by
          intro c hc
          rw [← h2] at hc
          obtain ⟨q, -, rfl⟩ := List.mem_map.1 hc
          exact inBucket_self hres (unitBox_norm hres _))
      unfold opsForRotation
      refine List.Nodup.filterMap ?_ ((hv.counts _ _).symm.nodup (List.Nodup.of_map _ ht.1))
      intro q q' o ho ho'
      simp only [Option.mem_def, Option.ite_none_right_eq_some, Option.some.injEq] at ho ho'
      obtain ⟨e1, rfl⟩ := ho
      obtain ⟨e2, ho'⟩ := ho'
      have := congrArg SymmOp.translation ho'
      exact Prod.ext (ofIntVec_injective this).symm (e1.trans e2.symm)
    · simp at h1
  · have hk : ((h.opVecs m).map Prod.fst).Nodup := (hperm.map Prod.fst).symm.nodup g1
    rw [List.Nodup, List.pairwise_map] at hk
    refine hk.imp ?_
    intro p q hpq
    rw [Function.onFun, List.disjoint_left]
    intro o ho ho'
    exact hpq ((opsForRotation_rotation ho).symm.trans (opsForRotation_rotation ho'))

theorem zip_inBucket {L : Mat3 ℝ} {tols : Vec3 ℝ} {dtol : ℝ} {f : ℕ × ℕ → Vec3 ℝ}
    {pairs : List (ℕ × ℕ)} {ks : List (Vec3 Int)} (hb : Bucketed L tols dtol (pairs.map f) ks)
    (hself : ∀ c ∈ pairs.map f, inBucket L tols dtol c (toIntVec c) = true) :
    pairs.length = ks.length ∧ ∀ p k, (p, k) ∈ pairs.zip ks → inBucket L tols dtol (f p) k = true := by
  have h1 := hb.forall₂ hself
  rw [List.forall₂_map_left_iff, List.forall₂_iff_zip] at h1
  exact ⟨h1.1, fun p k hp => h1.2 hp⟩

/-- sites of one species closer than `4 * dtol` are the same. -/
theorem Searchable.unique {s : Structure ℝ} {dtol : ℝ} (hs : Searchable s dtol) {b b' : ℕ} {e : String}
    (hb : s.species[b]? = some e) (hb' : s.species[b']? = some e) {w : Vec3 ℝ} (hw : IntVec w)
    (hm : (s.lattice * (posOf s.fracCoords b - posOf s.fracCoords b' - w)).mag ≤ 4 * dtol) : b = b' := by
  by_contra hne
  have h1 := hs.separated b b' e _ _ (site_pos hs.sameLength hb) (site_pos hs.sameLength hb') hne w hw
  have h0 := hs.tol.1
  rw [mag_le_iff (by linarith)] at hm
  linarith

/-- **C44.** Every operation found for the standard primitive cell has a rotation of the holohedry and maps every
site onto a site of the same species, up to a lattice translation and a distance of twice the tolerance. -/
theorem C44_operations_are_symmetries (sa : SymmetryAnalyzer ℝ) (h : HashOrders ℝ) (hv : h.Valid) (fuel : ℕ)
    (s : Structure ℝ) (bravais : BravaisType) (ops : List (SymmOp ℝ)) (hs : Searchable s sa.dtol)
    (hr : sa.getPrimitiveSpaceGroupOps h fuel s bravais = .ret ops) :
    ∃ pg, primitiveHolohedry (K := ℝ) h fuel bravais = .ret pg ∧ ∀ o ∈ ops, o.rotation ∈ pg.operations ∧
      MapsWithin s (overK ℝ (intRot o.rotation)) o.translation (2 * sa.dtol) := by
  obtain ⟨pg, es, hpg, hne, hes, hnd, hmem⟩ := mem_primitiveOps hv hs hr
  refine ⟨pg, hpg, fun o ho => ?_⟩
  obtain ⟨op, hop, ho⟩ := (hmem o).1 ho
  have hres := hs.tol.resolved
  set tols := Structure.fracTols s.lattice sa.dtol with htols
  set pairs := sitePairs s.species es with hpairs
  have hself : ∀ c ∈ pairs.map (pairTrans tols s.fracCoords op),
      inBucket s.lattice tols sa.dtol c (toIntVec c) = true := by
    intro c hc
    obtain ⟨p, -, rfl⟩ := List.mem_map.1 hc
    exact inBucket_self hres (unitBox_norm hres _)
  obtain ⟨ks, hb, hk⟩ := mem_opsForRotation (n := s.species.length) hv
    (op, pairs.map (pairTrans tols s.fracCoords op)) hself
  obtain ⟨k, hkm, hcount, rfl⟩ := (hk o).1 ho
  obtain ⟨hlen, hz⟩ := zip_inBucket hb hself
  refine ⟨hop, ?_⟩
  -- a pair in the bucket
  have near : ∀ a b, ((a, b), k) ∈ pairs.zip ks → ∃ w, IntVec w ∧
      (s.lattice * (posOf s.fracCoords b - (castRot op : Mat3 ℝ) * posOf s.fracCoords a - ofIntVec k - w)).mag
        ≤ 2 * sa.dtol := by
    intro a b hab
    obtain ⟨w, ⟨i, j, l, rfl⟩, hm⟩ := near_of_inBucket (hz _ _ hab)
    obtain ⟨i', j', l', e'⟩ := intVec_sub_iff_samePoint.2 (samePoint_normFracVec tols
      (posOf s.fracCoords b - (castRot op : Mat3 ℝ) * posOf s.fracCoords a))
    refine ⟨⟨((i - i' : ℤ) : ℝ), ((j - j' : ℤ) : ℝ), ((l - l' : ℤ) : ℝ)⟩, ⟨_, _, _, rfl⟩, ?_⟩
    have : posOf s.fracCoords b - (castRot op : Mat3 ℝ) * posOf s.fracCoords a - ofIntVec k -
        ⟨((i - i' : ℤ) : ℝ), ((j - j' : ℤ) : ℝ), ((l - l' : ℤ) : ℝ)⟩ =
        pairTrans tols s.fracCoords op (a, b) - ofIntVec k - ⟨(i : ℝ), (j : ℝ), (l : ℝ)⟩ := by
      unfold pairTrans
      have ex := congrArg Vec3.x e'
      have ey := congrArg Vec3.y e'
      have ez := congrArg Vec3.z e'
      simp only [Vec3.sub_x, Vec3.sub_y, Vec3.sub_z] at ex ey ez
      ext <;> simp only [Vec3.sub_x, Vec3.sub_y, Vec3.sub_z] <;> push_cast <;> linarith
    rw [this]
    exact hm
  have hpm : ∀ a b, ((a, b), k) ∈ pairs.zip ks → ∃ e, s.species[a]? = some e ∧ s.species[b]? = some e := by
    intro a b hab
    exact (mem_sitePairs hs.sorted hes a b).1 (List.of_mem_zip hab).1
  have hfull : ∀ a < s.species.length, ∃ b, ((a, b), k) ∈ pairs.zip ks := fun a ha => bucket_full hlen (nodup_sitePairs hs.sorted hes hnd) (by
      rintro ⟨a, b⟩ hab
      obtain ⟨e, he, -⟩ := (mem_sitePairs hs.sorted hes a b).1 hab
      exact (List.getElem?_eq_some_iff.1 he).1) (by
      intro a b b' h1 h2
      obtain ⟨w, ⟨i, j, l, rfl⟩, hw⟩ := near a b h1
      obtain ⟨w', ⟨i', j', l', rfl⟩, hw'⟩ := near a b' h2
      obtain ⟨e, he, hbe⟩ := hpm a b h1
      obtain ⟨e', he', hbe'⟩ := hpm a b' h2
      rw [he] at he'
      obtain rfl := Option.some.inj he'
      refine hs.unique hbe hbe' (w := ⟨((i - i' : ℤ) : ℝ), ((j - j' : ℤ) : ℝ), ((l - l' : ℤ) : ℝ)⟩)
        ⟨_, _, _, rfl⟩ ?_
      have := mag_sub_le _ _ |>.trans (add_le_add hw hw')
      rw [← mulVec_sub'] at this
      refine le_trans (le_of_eq ?_) (this.trans (by linarith))
      congr 2
      ext <;> simp only [Vec3.sub_x, Vec3.sub_y, Vec3.sub_z] <;> push_cast <;> ring) hcount ha
  intro e p hep
  obtain ⟨a, ha⟩ := List.mem_iff_getElem?.1 hep
  obtain ⟨hae, rfl⟩ := pos_of_site ha
  obtain ⟨b, hab⟩ := hfull a (List.getElem?_eq_some_iff.1 hae).1
  obtain ⟨e', he', hbe⟩ := hpm a b hab
  rw [hae] at he'
  obtain rfl := Option.some.inj he'
  obtain ⟨w, ⟨i, j, l, rfl⟩, hw⟩ := near a b hab
  refine ⟨posOf s.fracCoords b, List.mem_of_getElem? (site_pos hs.sameLength hbe),
    ⟨((-i : ℤ) : ℝ), ((-j : ℤ) : ℝ), ((-l : ℤ) : ℝ)⟩, ⟨_, _, _, rfl⟩, ?_⟩
  have h0 := hs.tol.1
  rw [← mag_le_iff (by linarith), ← castRot_overK, ← mag_neg]
  refine le_trans (le_of_eq ?_) hw
  congr 1
  rw [show -(s.lattice * ((castRot op : Mat3 ℝ) * posOf s.fracCoords a + ofIntVec k - posOf s.fracCoords b -
    ⟨((-i : ℤ) : ℝ), ((-j : ℤ) : ℝ), ((-l : ℤ) : ℝ)⟩)) = s.lattice * -((castRot op : Mat3 ℝ) * posOf s.fracCoords a
    + ofIntVec k - posOf s.fracCoords b - ⟨((-i : ℤ) : ℝ), ((-j : ℤ) : ℝ), ((-l : ℤ) : ℝ)⟩) from by
      ext <;> simp only [Vec3.neg_x, Vec3.neg_y, Vec3.neg_z, Mat3.mulVec_x, Mat3.mulVec_y, Mat3.mulVec_z] <;> ring]
  congr 1
  ext <;> simp only [Vec3.neg_x, Vec3.neg_y, Vec3.neg_z, Vec3.sub_x, Vec3.sub_y, Vec3.sub_z, Vec3.add_x, Vec3.add_y,
    Vec3.add_z] <;> push_cast <;> ring

/-- **C45 (once).** Every rotation of the holohedry with a translation that maps the structure exactly onto itself is
found, with a translation that differs by a lattice translation and less than `1e-9` in each fractional coordinate; every
other translation found for that rotation is more than `3 * dtol` away. -/
theorem C45_found_once (sa : SymmetryAnalyzer ℝ) (h : HashOrders ℝ) (hv : h.Valid) (fuel : ℕ)
    (s : Structure ℝ) (bravais : BravaisType) (ops : List (SymmOp ℝ)) (hs : Searchable s sa.dtol)
    (hr : sa.getPrimitiveSpaceGroupOps h fuel s bravais = .ret ops) :
    ∃ pg, primitiveHolohedry (K := ℝ) h fuel bravais = .ret pg ∧ ∀ W ∈ pg.operations, ∀ t,
      MapsExactly s (overK ℝ (intRot W)) t → ∃ o ∈ ops, o.rotation = W ∧ (∃ w d : Vec3 ℝ, IntVec w ∧
        o.translation = t + w + d ∧ lenSq (s.lattice * d) ≤ sa.dtol ^ 2 ∧
        |d.x| < 1 / 1000000000 ∧ |d.y| < 1 / 1000000000 ∧ |d.z| < 1 / 1000000000) ∧
        ∀ o' ∈ ops, o'.rotation = W → o' ≠ o → ∀ w, IntVec w →
          (3 * sa.dtol) ^ 2 < lenSq (s.lattice * (o'.translation - t - w)) := by
  classical
  obtain ⟨pg, es, hpg, hne, hes, hnd, hmem⟩ := mem_primitiveOps hv hs hr
  refine ⟨pg, hpg, fun op hop t hmap => ?_⟩
  have hres := hs.tol.resolved
  set tols := Structure.fracTols s.lattice sa.dtol with htols
  set pairs := sitePairs s.species es with hpairs
  set f := pairTrans tols s.fracCoords op with hf
  have hself : ∀ c ∈ pairs.map f, inBucket s.lattice tols sa.dtol c (toIntVec c) = true := by
    intro c hc
    obtain ⟨p, -, rfl⟩ := List.mem_map.1 hc
    exact inBucket_self hres (unitBox_norm hres _)
  obtain ⟨ks, hb, hk⟩ := mem_opsForRotation (n := s.species.length) hv (op, pairs.map f) hself
  rw [← castRot_overK] at hmap
  have hpm : ∀ a b, (a, b) ∈ pairs ↔ ∃ e, s.species[a]? = some e ∧ s.species[b]? = some e :=
    mem_sitePairs hs.sorted hes
  -- the candidate of a pair
  have hsame : ∀ a b, SamePoint (f (a, b)) (posOf s.fracCoords b - (castRot op : Mat3 ℝ) * posOf s.fracCoords a) :=
    fun a b => samePoint_normFracVec tols _
  -- the partner of a site
  have partner : ∀ a e, s.species[a]? = some e → ∃ b, s.species[b]? = some e ∧ SamePoint (f (a, b)) t := by
    intro a e ha
    obtain ⟨q, hq, hsp⟩ := hmap e _ (List.mem_of_getElem? (site_pos hs.sameLength ha))
    obtain ⟨b, hbq⟩ := List.mem_iff_getElem?.1 hq
    obtain ⟨hbe, rfl⟩ := pos_of_site hbq
    refine ⟨b, hbe, ?_⟩
    rw [← intVec_sub_iff_samePoint] at hsp ⊢
    obtain ⟨i, j, l, e1⟩ := hsp
    obtain ⟨i', j', l', e2⟩ := intVec_sub_iff_samePoint.2 (hsame a b)
    refine ⟨i' - i, j' - j, l' - l, ?_⟩
    have ex := congrArg Vec3.x e1
    have ey := congrArg Vec3.y e1
    have ez := congrArg Vec3.z e1
    have ex' := congrArg Vec3.x e2
    have ey' := congrArg Vec3.y e2
    have ez' := congrArg Vec3.z e2
    simp only [Vec3.sub_x, Vec3.sub_y, Vec3.sub_z, Vec3.add_x, Vec3.add_y, Vec3.add_z] at ex ey ez ex' ey' ez'
    ext <;> simp only [Vec3.sub_x, Vec3.sub_y, Vec3.sub_z] <;> push_cast <;> linarith
  -- the candidates of two pairs with the same first site
  have apart : ∀ a b b' e, s.species[b]? = some e → s.species[b']? = some e → SamePoint (f (a, b')) t → ∀ w, IntVec w →
      (s.lattice * (f (a, b) - t - w)).mag ≤ 4 * sa.dtol → b = b' := by
    rintro a b b' e hbe hbe' hsp _ ⟨i, j, l, rfl⟩ hm
    obtain ⟨i1, j1, l1, e1⟩ := intVec_sub_iff_samePoint.2 (hsame a b)
    obtain ⟨i2, j2, l2, e2⟩ := intVec_sub_iff_samePoint.2 (hsame a b')
    obtain ⟨i3, j3, l3, e3⟩ := intVec_sub_iff_samePoint.2 hsp
    refine hs.unique hbe hbe' (w := ⟨((i - i1 + i2 - i3 : ℤ) : ℝ), ((j - j1 + j2 - j3 : ℤ) : ℝ),
      ((l - l1 + l2 - l3 : ℤ) : ℝ)⟩) ⟨_, _, _, rfl⟩ ?_
    refine le_trans (le_of_eq ?_) hm
    congr 2
    have ex := congrArg Vec3.x e1
    have ey := congrArg Vec3.y e1
    have ez := congrArg Vec3.z e1
    have ex' := congrArg Vec3.x e2
    have ey' := congrArg Vec3.y e2
    have ez' := congrArg Vec3.z e2
    have ex3 := congrArg Vec3.x e3
    have ey3 := congrArg Vec3.y e3
    have ez3 := congrArg Vec3.z e3
    simp only [Vec3.sub_x, Vec3.sub_y, Vec3.sub_z] at ex ey ez ex' ey' ez' ex3 ey3 ez3
    ext <;> simp only [Vec3.sub_x, Vec3.sub_y, Vec3.sub_z] <;> push_cast <;> linarith
  have h0 := hs.tol.1
  have hcnt : (pairs.map f).countP (fun c => decide (SamePoint c t)) = s.species.length := by
    rw [List.countP_map]
    refine countP_pairs (nodup_sitePairs hs.sorted hes hnd) ?_ ?_ ?_
    · rintro ⟨a, b⟩ hab
      obtain ⟨e, he, -⟩ := (hpm a b).1 hab
      exact (List.getElem?_eq_some_iff.1 he).1
    · intro a ha
      obtain ⟨b, hbe, hsp⟩ := partner a _ (List.getElem?_eq_getElem ha)
      exact ⟨b, (hpm a b).2 ⟨_, List.getElem?_eq_getElem ha, hbe⟩, by simpa using hsp⟩
    · intro a b b' h1 h2 h3 h4
      obtain ⟨e, he, hbe⟩ := (hpm a b).1 h1
      obtain ⟨e', he', hbe'⟩ := (hpm a b').1 h2
      rw [he] at he'
      obtain rfl := Option.some.inj he'
      simp only [Function.comp_apply, decide_eq_true_eq] at h3 h4
      refine apart a b b' e hbe hbe' h4 (f (a, b) - t) (intVec_sub_iff_samePoint.2 h3) ?_
      have : s.lattice * (f (a, b) - t - (f (a, b) - t)) = 0 := by ext <;> simp
      rw [this, mag_le_iff (by linarith)]
      simp only [lenSq, Vec3.zero_x, Vec3.zero_y, Vec3.zero_z]
      nlinarith
  rcases bucket_exact hres (τ := t) hb (fun c => decide (SamePoint c t)) (by
      intro c hc
      obtain ⟨p, -, rfl⟩ := List.mem_map.1 hc
      exact unitBox_norm hres _) (fun c _ hc => of_decide_eq_true hc) (by
      intro c hc hPc w hw
      obtain ⟨⟨a, b⟩, hab, rfl⟩ := List.mem_map.1 hc
      obtain ⟨e, hae, hbe⟩ := (hpm a b).1 hab
      obtain ⟨b', hbe', hsp⟩ := partner a e hae
      by_contra hlt
      have := apart a b b' e hbe hbe' hsp w hw (not_lt.1 hlt)
      subst this
      exact of_decide_eq_false hPc hsp) with ⟨h1, -⟩ | ⟨k0, hk0, ⟨w, d, hw, hd, hkd⟩, hc0, hfar⟩
  · exfalso
    rw [List.countP_eq_zero.2 (by intro c hc; simp [h1 c hc])] at hcnt
    exact hne (List.length_eq_zero_iff.1 hcnt.symm)
  · refine ⟨⟨op, ofIntVec k0⟩, (hmem _).2 ⟨op, hop, (hk _).2 ⟨k0, hk0, by rw [hc0, hcnt], rfl⟩⟩, rfl,
      ⟨w, d, hw, hkd, ?_, hd⟩, ?_⟩
    · rw [← mag_le_iff h0.le]
      exact mag_tiny hres hd
    · intro o' ho' hrot hne' w' hw'
      obtain ⟨op', -, ho'⟩ := (hmem o').1 ho'
      have hop' : op' = op := by
        rw [← hrot, opsForRotation_rotation ho']
      subst hop'
      obtain ⟨k, hkm, -, rfl⟩ := (hk o').1 ho'
      have := hfar k hkm (by rintro rfl; exact hne' rfl) w' hw'
      rw [← not_le, mag_le_iff (by linarith), not_le] at this
      exact this

/-- **C45.** Every rotation of the holohedry with a translation that maps the structure exactly onto itself is found,
with a translation that differs by a lattice translation and less than `1e-9` in each fractional coordinate (less
than the tolerance as a distance). -/
theorem C45_symmetries_are_found (sa : SymmetryAnalyzer ℝ) (h : HashOrders ℝ) (hv : h.Valid) (fuel : ℕ)
    (s : Structure ℝ) (bravais : BravaisType) (ops : List (SymmOp ℝ)) (hs : Searchable s sa.dtol)
    (hr : sa.getPrimitiveSpaceGroupOps h fuel s bravais = .ret ops) :
    ∃ pg, primitiveHolohedry (K := ℝ) h fuel bravais = .ret pg ∧ ∀ W ∈ pg.operations, ∀ t,
      MapsExactly s (overK ℝ (intRot W)) t → ∃ o ∈ ops, o.rotation = W ∧ ∃ w d : Vec3 ℝ, IntVec w ∧
        o.translation = t + w + d ∧ lenSq (s.lattice * d) ≤ sa.dtol ^ 2 ∧
        |d.x| < 1 / 1000000000 ∧ |d.y| < 1 / 1000000000 ∧ |d.z| < 1 / 1000000000 := by
  obtain ⟨pg, hpg, hf⟩ := C45_found_once sa h hv fuel s bravais ops hs hr
  refine ⟨pg, hpg, fun W hW t ht => ?_⟩
  obtain ⟨o, ho, hrot, hd, -⟩ := hf W hW t ht
  exact ⟨o, ho, hrot, hd⟩

/-- the search returns when the holohedry does. -/
theorem search_returns (sa : SymmetryAnalyzer ℝ) {h : HashOrders ℝ} (hv : h.Valid) {fuel : ℕ} {s : Structure ℝ}
    {bravais : BravaisType} (hs : Searchable s sa.dtol) {pg : PointGroup}
    (hpg : primitiveHolohedry (K := ℝ) h fuel bravais = .ret pg) (hne : s.species ≠ []) :
    ∃ ops, sa.getPrimitiveSpaceGroupOps h fuel s bravais = .ret ops := by
  obtain ⟨-, hm2⟩ := C19_get_min_element_panics_iff s h.minEle hv.minEle
  obtain ⟨⟨e, inds, counts⟩, hmin⟩ := hm2 hne
  have hn : s.numSites < 65536 := by
    have := hs.small; have h2 := hs.sameLength
    unfold Structure.numSites
    omega
  obtain ⟨⟨he0, -⟩, hi, hc⟩ := C19_get_min_element s h.minEle hv.minEle hn e inds counts hmin
  have hnd : (inds.map Prod.fst).Nodup := by
    have hmin' := hmin
    unfold Structure.getMinElement at hmin'
    simp only [Outcome.bind_eq_ret, Outcome.ret.injEq, Prod.mk.injEq] at hmin'
    obtain ⟨_, _, _, rfl, _⟩ := hmin'
    exact eleInds_nodup _
  have hmem : ∀ p ∈ h.eleInds inds, p.1 ∈ s.species ∧ p.2 = s.species.idxOf p.1 := by
    intro p hp
    have h1 := (hv.eleInds inds).subset hp
    rw [show p = (p.1, p.2) from rfl, mem_iff_amapGet? hnd, hi] at h1
    split at h1
    · rename_i hm; exact ⟨hm, (Option.some.inj h1).symm⟩
    · simp at h1
  have hcand := candidateTranslations_eq (tols := Structure.fracTols s.lattice sa.dtol) hs.sorted
    hs.sameLength.symm hs.small hmem (fun e he => by rw [hc, if_pos he])
  unfold getPrimitiveSpaceGroupOps
  simp only
  rw [hpg, Outcome.ret_bind, hmin, Outcome.ret_bind, mapOutcome_ret _ _ _ (fun op _ => by rw [hcand op]; rfl)]
  exact ⟨_, rfl⟩

/-- **C45 (returns).** Given enough steps for the closure of the generators, the search returns on every such structure
that has a site; without sites it panics. -/
theorem C45_search_returns : ∃ N, ∀ fuel ≥ N, ∀ (sa : SymmetryAnalyzer ℝ) (h : HashOrders ℝ), h.Valid →
    ∀ (s : Structure ℝ) (bravais : BravaisType), Searchable s sa.dtol →
      (s.species ≠ [] → ∃ ops, sa.getPrimitiveSpaceGroupOps h fuel s bravais = .ret ops) ∧
      (s.species = [] → ∃ msg, sa.getPrimitiveSpaceGroupOps h fuel s bravais = .panic msg) := by
  obtain ⟨N, hN⟩ := C35_primitive_holohedry_returns (K := ℝ)
  refine ⟨N, fun fuel hf sa h hv s bravais hs => ?_⟩
  obtain ⟨pg, hpg⟩ := hN fuel hf h hv bravais
  obtain ⟨hm1, -⟩ := C19_get_min_element_panics_iff s h.minEle hv.minEle
  constructor
  · exact search_returns sa hv hs hpg
  · intro hnil
    obtain ⟨msg, hmsg⟩ := hm1.2 hnil
    unfold getPrimitiveSpaceGroupOps
    simp only
    rw [hpg, Outcome.ret_bind, hmsg]
    exact ⟨_, rfl⟩

/-! ### a case: one `A` at the corner and two `B` in a cubic cell of edge 4 -/

/-- the structure. -/
noncomputable def cubeABB : Structure ℝ where
  lattice := ⟨4, 0, 0, 0, 4, 0, 0, 0, 4⟩
  species := ["A", "B", "B"]
  fracCoords := [⟨0, 0, 0⟩, ⟨1 / 4, 1 / 4, 1 / 4⟩, ⟨3 / 4, 3 / 4, 3 / 4⟩]
  coords := [⟨0, 0, 0⟩, ⟨1, 1, 1⟩, ⟨3, 3, 3⟩]

example : Searchable cubeABB (1 / 100) := by
  refine ⟨rfl, by decide, by decide, ⟨by norm_num, ?_⟩, ?_⟩
  · rintro v (rfl | rfl | rfl) <;> norm_num [cubeABB, lenSq, Mat3.col0, Mat3.col1, Mat3.col2]
  · rintro a b e p q ha hb hne w ⟨i, j, l, rfl⟩
    have half : ∀ n : ℤ, ((1 : ℝ) / 2 - n) ^ 2 ≥ 1 / 4 ∧ ((-1 : ℝ) / 2 - n) ^ 2 ≥ 1 / 4 := by
      intro n
      have h1 : (n : ℝ) ≤ 0 ∨ (1 : ℝ) ≤ n := by
        rcases le_or_gt n 0 with h | h
        · left; exact_mod_cast h
        · right; exact_mod_cast h
      have h2 : (n : ℝ) ≤ -1 ∨ (0 : ℝ) ≤ n := by
        rcases le_or_gt 0 n with h | h
        · right; exact_mod_cast h
        · left; exact_mod_cast (by omega : n ≤ -1)
      constructor
      · rcases h1 with h | h <;> nlinarith
      · rcases h2 with h | h <;> nlinarith
    match a, b, ha, hb, hne with
    | 0, 0, _, _, hne => exact absurd rfl hne
    | 1, 1, _, _, hne => exact absurd rfl hne
    | 2, 2, _, _, hne => exact absurd rfl hne
    | 0, 1, ha, hb, _ => simp [sites, cubeABB] at ha hb; exact absurd (ha.1.trans hb.1.symm) (by decide)
    | 0, 2, ha, hb, _ => simp [sites, cubeABB] at ha hb; exact absurd (ha.1.trans hb.1.symm) (by decide)
    | 1, 0, ha, hb, _ => simp [sites, cubeABB] at ha hb; exact absurd (ha.1.trans hb.1.symm) (by decide)
    | 2, 0, ha, hb, _ => simp [sites, cubeABB] at ha hb; exact absurd (ha.1.trans hb.1.symm) (by decide)
    | 1, 2, ha, hb, _ =>
      simp [sites, cubeABB] at ha hb
      obtain ⟨-, rfl⟩ := ha
      obtain ⟨-, rfl⟩ := hb
      have := (half i).2
      simp only [lenSq, cubeABB, Mat3.mulVec_x, Mat3.mulVec_y, Mat3.mulVec_z, Vec3.sub_x, Vec3.sub_y, Vec3.sub_z]
      nlinarith [(half i).2, (half j).2, (half l).2]
    | 2, 1, ha, hb, _ =>
      simp [sites, cubeABB] at ha hb
      obtain ⟨-, rfl⟩ := ha
      obtain ⟨-, rfl⟩ := hb
      simp only [lenSq, cubeABB, Mat3.mulVec_x, Mat3.mulVec_y, Mat3.mulVec_z, Vec3.sub_x, Vec3.sub_y, Vec3.sub_z]
      nlinarith [(half i).1, (half j).1, (half l).1]
    | 0, b + 3, ha, hb, _ => simp [sites, cubeABB] at hb
    | 1, b + 3, ha, hb, _ => simp [sites, cubeABB] at hb
    | 2, b + 3, ha, hb, _ => simp [sites, cubeABB] at hb
    | a + 3, b, ha, hb, _ => simp [sites, cubeABB] at ha

/-- the inversion maps it onto itself; the shift by `1/4` along the diagonal does not. -/
example : MapsExactly cubeABB (overK ℝ ⟨-1, 0, 0, 0, -1, 0, 0, 0, -1⟩) ⟨0, 0, 0⟩ ∧
    ¬ MapsExactly cubeABB 1 ⟨1 / 4, 1 / 4, 1 / 4⟩ := by
  constructor
  · intro e p hp
    simp [sites, cubeABB] at hp
    rcases hp with ⟨rfl, rfl⟩ | ⟨rfl, rfl⟩ | ⟨rfl, rfl⟩
    · refine ⟨⟨0, 0, 0⟩, by simp [sites, cubeABB], ?_⟩
      rw [← intVec_sub_iff_samePoint]
      exact ⟨0, 0, 0, by ext <;> simp [overK, Mat3.map]⟩
    · refine ⟨⟨3 / 4, 3 / 4, 3 / 4⟩, by simp [sites, cubeABB], ?_⟩
      rw [← intVec_sub_iff_samePoint]
      exact ⟨-1, -1, -1, by ext <;> simp [overK, Mat3.map] <;> norm_num⟩
    · refine ⟨⟨1 / 4, 1 / 4, 1 / 4⟩, by simp [sites, cubeABB], ?_⟩
      rw [← intVec_sub_iff_samePoint]
      exact ⟨-1, -1, -1, by ext <;> simp [overK, Mat3.map] <;> norm_num⟩
  · intro h
    obtain ⟨q, hq, hs⟩ := h "A" ⟨0, 0, 0⟩ (by simp [sites, cubeABB])
    simp [sites, cubeABB] at hq
    subst hq
    rw [← intVec_sub_iff_samePoint] at hs
    obtain ⟨i, j, l, e⟩ := hs
    have := congrArg Vec3.x e
    simp at this
    have h4 : ((4 * i : ℤ) : ℝ) = (1 : ℤ) := by push_cast; linarith
    have := Int.cast_injective h4
    omega

end CrystSymm
