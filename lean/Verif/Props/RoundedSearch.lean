import Verif.Proofs.RoundedHolo
import Verif.Props.Complete

/-! # C86: the search for symmetry operations in rounded arithmetic -/

set_option autoImplicit false
set_option linter.unusedSectionVars false

namespace CrystSymm

open Spec SymmetryAnalyzer

/-! ## Vectors up to lattice vectors -/

/-- the same up to a lattice vector and `ν` in each component. -/
def CloseMod (ν : ℝ) (u v : Vec3 ℝ) : Prop := ∃ w, IntVec w ∧ CompsLe (u - v - w) ν

/-- at most `d` apart in the lattice `L`, up to a lattice vector. -/
def DistMod (L : Mat3 ℝ) (d : ℝ) (u v : Vec3 ℝ) : Prop := ∃ w, IntVec w ∧ (L * (u - v - w)).mag ≤ d

theorem CloseMod.symm {ν : ℝ} {u v : Vec3 ℝ} (h : CloseMod ν u v) : CloseMod ν v u := by
  obtain ⟨w, ⟨i, j, k, rfl⟩, hx, hy, hz⟩ := h
  refine ⟨⟨((-i : ℤ) : ℝ), ((-j : ℤ) : ℝ), ((-k : ℤ) : ℝ)⟩, ⟨_, _, _, rfl⟩, ?_, ?_, ?_⟩ <;>
    simp only [Vec3.sub_x, Vec3.sub_y, Vec3.sub_z] at * <;> push_cast
  · rw [← abs_neg]; refine le_trans (le_of_eq (congrArg abs ?_)) hx; ring
  · rw [← abs_neg]; refine le_trans (le_of_eq (congrArg abs ?_)) hy; ring
  · rw [← abs_neg]; refine le_trans (le_of_eq (congrArg abs ?_)) hz; ring

theorem CloseMod.mono {ν ν' : ℝ} {u v : Vec3 ℝ} (h : CloseMod ν u v) (hν : ν ≤ ν') : CloseMod ν' u v :=
  h.imp fun _ hw => ⟨hw.1, hw.2.mono hν⟩

theorem CloseMod.trans {ν ν' : ℝ} {u v z : Vec3 ℝ} (h : CloseMod ν u v) (h' : CloseMod ν' v z) :
    CloseMod (ν + ν') u z := by
  obtain ⟨w, ⟨i, j, k, rfl⟩, hx, hy, hz⟩ := h
  obtain ⟨w', ⟨i', j', k', rfl⟩, hx', hy', hz'⟩ := h'
  refine ⟨⟨((i + i' : ℤ) : ℝ), ((j + j' : ℤ) : ℝ), ((k + k' : ℤ) : ℝ)⟩, ⟨_, _, _, rfl⟩, ?_, ?_, ?_⟩ <;>
    simp only [Vec3.sub_x, Vec3.sub_y, Vec3.sub_z] at * <;> push_cast
  · rw [abs_le] at *; constructor <;> linarith [hx.1, hx.2, hx'.1, hx'.2]
  · rw [abs_le] at *; constructor <;> linarith [hy.1, hy.2, hy'.1, hy'.2]
  · rw [abs_le] at *; constructor <;> linarith [hz.1, hz.2, hz'.1, hz'.2]

theorem CloseMod.sub {ν ν' : ℝ} {u v u' v' : Vec3 ℝ} (h : CloseMod ν u v) (h' : CloseMod ν' u' v') :
    CloseMod (ν + ν') (u - u') (v - v') := by
  obtain ⟨w, ⟨i, j, k, rfl⟩, hx, hy, hz⟩ := h
  obtain ⟨w', ⟨i', j', k', rfl⟩, hx', hy', hz'⟩ := h'
  refine ⟨⟨((i - i' : ℤ) : ℝ), ((j - j' : ℤ) : ℝ), ((k - k' : ℤ) : ℝ)⟩, ⟨_, _, _, rfl⟩, ?_, ?_, ?_⟩ <;>
    simp only [Vec3.sub_x, Vec3.sub_y, Vec3.sub_z] at * <;> push_cast
  · rw [abs_le] at *; constructor <;> linarith [hx.1, hx.2, hx'.1, hx'.2]
  · rw [abs_le] at *; constructor <;> linarith [hy.1, hy.2, hy'.1, hy'.2]
  · rw [abs_le] at *; constructor <;> linarith [hz.1, hz.2, hz'.1, hz'.2]

theorem closeMod_rot {ν : ℝ} {u v : Vec3 ℝ} {op : Mat3 Int8} (hop : SmallEntries (intRot op)) (h : CloseMod ν u v) :
    CloseMod (3 * ν) ((castRot op : Mat3 ℝ) * u) ((castRot op : Mat3 ℝ) * v) := by
  obtain ⟨w, ⟨i, j, k, rfl⟩, hx, hy, hz⟩ := h
  simp only [SmallEntries, Mat3.toListCM, intRot, castRot, Mat3.map, Int.cast_id, List.mem_cons, List.not_mem_nil,
    or_false, forall_eq_or_imp, forall_eq] at hop
  obtain ⟨h11, h21, h31, h12, h22, h32, h13, h23, h33⟩ := hop
  have row : ∀ {p q r : ℤ}, (-1 ≤ p ∧ p ≤ 1) → (-1 ≤ q ∧ q ≤ 1) → (-1 ≤ r ∧ r ≤ 1) → ∀ {x y z : ℝ}, |x| ≤ ν → |y| ≤ ν →
      |z| ≤ ν → |(p : ℝ) * x + q * y + r * z| ≤ 3 * ν := by
    intro p q r hp hq hr x y z hx hy hz
    have key : ∀ {a : ℤ} {u : ℝ}, -1 ≤ a ∧ a ≤ 1 → |u| ≤ ν → |(a : ℝ) * u| ≤ ν := by
      rintro a u ⟨h1, h2⟩ hu
      have he : 0 ≤ ν := (abs_nonneg u).trans hu
      have : a = -1 ∨ a = 0 ∨ a = 1 := by omega
      rcases this with rfl | rfl | rfl <;> simp [hu, he]
    calc _ ≤ |(p : ℝ) * x| + |(q : ℝ) * y| + |(r : ℝ) * z| := abs_add_three _ _ _
      _ ≤ 3 * ν := by linarith [key hp hx, key hq hy, key hr hz]
  refine ⟨⟨((op.m11.toInt * i + op.m12.toInt * j + op.m13.toInt * k : ℤ) : ℝ),
    ((op.m21.toInt * i + op.m22.toInt * j + op.m23.toInt * k : ℤ) : ℝ),
    ((op.m31.toInt * i + op.m32.toInt * j + op.m33.toInt * k : ℤ) : ℝ)⟩, ⟨_, _, _, rfl⟩, ?_, ?_, ?_⟩
  · refine le_trans (le_of_eq (congrArg abs ?_)) (row h11 h12 h13 hx hy hz)
    simp only [Vec3.sub_x, Vec3.sub_y, Vec3.sub_z, Mat3.mulVec_x, castRot, Mat3.map]; push_cast; ring
  · refine le_trans (le_of_eq (congrArg abs ?_)) (row h21 h22 h23 hx hy hz)
    simp only [Vec3.sub_x, Vec3.sub_y, Vec3.sub_z, Mat3.mulVec_y, castRot, Mat3.map]; push_cast; ring
  · refine le_trans (le_of_eq (congrArg abs ?_)) (row h31 h32 h33 hx hy hz)
    simp only [Vec3.sub_x, Vec3.sub_y, Vec3.sub_z, Mat3.mulVec_z, castRot, Mat3.map]; push_cast; ring

theorem closeMod_of_samePoint {u v : Vec3 ℝ} (h : SamePoint u v) : CloseMod 0 u v := by
  obtain ⟨⟨i, hi⟩, ⟨j, hj⟩, ⟨k, hk⟩⟩ := h
  refine ⟨⟨((i : ℤ) : ℝ), ((j : ℤ) : ℝ), ((k : ℤ) : ℝ)⟩, ⟨_, _, _, rfl⟩, ?_, ?_, ?_⟩ <;>
    simp only [Vec3.sub_x, Vec3.sub_y, Vec3.sub_z]
  · rw [show u.x - v.x - (i : ℝ) = 0 by linarith]; simp
  · rw [show u.y - v.y - (j : ℝ) = 0 by linarith]; simp
  · rw [show u.z - v.z - (k : ℝ) = 0 by linarith]; simp

theorem DistMod.mono {L : Mat3 ℝ} {d d' : ℝ} {u v : Vec3 ℝ} (h : DistMod L d u v) (hd : d ≤ d') : DistMod L d' u v :=
  h.imp fun _ hw => ⟨hw.1, hw.2.trans hd⟩

theorem DistMod.symm {L : Mat3 ℝ} {d : ℝ} {u v : Vec3 ℝ} (h : DistMod L d u v) : DistMod L d v u := by
  obtain ⟨w, ⟨i, j, k, rfl⟩, hm⟩ := h
  refine ⟨⟨((-i : ℤ) : ℝ), ((-j : ℤ) : ℝ), ((-k : ℤ) : ℝ)⟩, ⟨_, _, _, rfl⟩, ?_⟩
  rw [← mag_neg]
  refine le_trans (le_of_eq (congrArg Vec3.mag ?_)) hm
  ext <;> simp only [Vec3.neg_x, Vec3.neg_y, Vec3.neg_z, Mat3.mulVec_x, Mat3.mulVec_y, Mat3.mulVec_z, Vec3.sub_x,
    Vec3.sub_y, Vec3.sub_z] <;> push_cast <;> ring

theorem DistMod.trans {L : Mat3 ℝ} {d d' : ℝ} {u v z : Vec3 ℝ} (h : DistMod L d u v) (h' : DistMod L d' v z) :
    DistMod L (d + d') u z := by
  obtain ⟨w, ⟨i, j, k, rfl⟩, hm⟩ := h
  obtain ⟨w', ⟨i', j', k', rfl⟩, hm'⟩ := h'
  refine ⟨⟨((i + i' : ℤ) : ℝ), ((j + j' : ℤ) : ℝ), ((k + k' : ℤ) : ℝ)⟩, ⟨_, _, _, rfl⟩, ?_⟩
  refine le_trans (le_of_eq (congrArg Vec3.mag ?_)) ((mag_add_le _ _).trans (add_le_add hm hm'))
  ext <;> simp only [Vec3.add_x, Vec3.add_y, Vec3.add_z, Mat3.mulVec_x, Mat3.mulVec_y, Mat3.mulVec_z, Vec3.sub_x,
    Vec3.sub_y, Vec3.sub_z] <;> push_cast <;> ring

/-- both points moved by the same vector. -/
theorem DistMod.shift {L : Mat3 ℝ} {d : ℝ} {u v u' v' : Vec3 ℝ} (h : DistMod L d u v) (e : u - v = u' - v') :
    DistMod L d u' v' := by
  obtain ⟨w, hw, hm⟩ := h
  exact ⟨w, hw, by rw [← e]; exact hm⟩

section
variable {ρ : Rounding} {L : Mat3 (RNum ρ)} {dtol : RNum ρ} {r A : ℝ}

theorem SearchBounds.dist (h : SearchBounds L dtol r A) {u v : Vec3 ℝ} {ν : ℝ} (hc : CloseMod ν u v) :
    DistMod (valM L) (6 * A * ν) u v := by
  obtain ⟨w, hw, hcl⟩ := hc
  exact ⟨w, hw, h.short hcl⟩

/-! ## Structures -/

/-- the structure with the exact values of its numbers. -/
def exactStructure (s : Structure (RNum ρ)) : Structure ℝ :=
  ⟨valM s.lattice, s.species, s.coords.map valV, s.fracCoords.map valV⟩

theorem posOf_valV (frac : List (Vec3 (RNum ρ))) (i : ℕ) : posOf (frac.map valV) i = valV (posOf frac i) := by
  unfold posOf
  rw [List.getElem?_map]
  cases frac[i]? with
  | some v => rfl
  | none => ext <;> exact (RNum.val_zero).symm

/-- what the search needs of a structure of representable numbers: one position for each species, fewer than 65536, the
species in order; the bounds `SearchBounds`; positions of at most two cells; sites of the same species more than `4.5`
tolerances apart. -/
structure SearchReady (s : Structure (RNum ρ)) (dtol : RNum ρ) (r A : ℝ) : Prop where
  sorted : Sorted s
  bounds : SearchBounds s.lattice dtol r A
  coords : ∀ p ∈ s.fracCoords, CompsLe (valV p) 2
  separated : Separated (exactStructure s) (9 / 8 * dtol.val)

variable {s : Structure (RNum ρ)}

theorem SearchReady.pos (h : SearchReady s dtol r A) (i : ℕ) : CompsLe (valV (posOf s.fracCoords i)) 2 := by
  unfold posOf
  cases e : s.fracCoords[i]? with
  | some v => exact h.coords v (List.mem_of_getElem? e)
  | none =>
    have : valV (0 : Vec3 (RNum ρ)) = 0 := by ext <;> exact RNum.val_zero
    rw [Option.getD_none, this]
    simp [CompsLe]

theorem SearchReady.unique (h : SearchReady s dtol r A) {b b' : ℕ} {e : String} (hb : s.species[b]? = some e)
    (hb' : s.species[b']? = some e)
    (hm : DistMod (valM s.lattice) (9 / 2 * dtol.val) (valV (posOf s.fracCoords b)) (valV (posOf s.fracCoords b'))) :
    b = b' := by
  by_contra hne
  obtain ⟨w, hw, hm⟩ := hm
  have hl : (exactStructure s).species.length = (exactStructure s).fracCoords.length := by
    simp [exactStructure, h.sorted.sameLength]
  have h1 := h.separated b b' e _ _ (site_pos hl hb) (site_pos hl hb') hne w hw
  have h0 := h.bounds.pos
  rw [mag_le_iff (by linarith)] at hm
  simp only [exactStructure, posOf_valV] at h1
  have e2 : 4 * (9 / 8 * dtol.val) = 9 / 2 * dtol.val := by ring
  rw [e2] at h1
  linarith

/-- the candidate of a pair of sites. -/
theorem SearchReady.cand (h : SearchReady s dtol r A) {op : Mat3 Int8} (hop : SmallEntries (intRot op)) (a b : ℕ) :
    CompsLe (valV (pairTrans (Structure.fracTols s.lattice dtol) s.fracCoords op (a, b))) (3 / 2) ∧
    CloseMod (3072 * r ^ 2) (valV (pairTrans (Structure.fracTols s.lattice dtol) s.fracCoords op (a, b)))
      (valV (posOf s.fracCoords b) - (castRot op : Mat3 ℝ) * valV (posOf s.fracCoords a)) := by
  obtain ⟨h1, w, ⟨i, j, k, rfl⟩, hx, hy, hz⟩ := cand_close h.bounds hop h.pos a b
  refine ⟨h1, ⟨((-i : ℤ) : ℝ), ((-j : ℤ) : ℝ), ((-k : ℤ) : ℝ)⟩, ⟨_, _, _, rfl⟩, ?_, ?_, ?_⟩ <;>
    simp only [Vec3.sub_x, Vec3.sub_y, Vec3.sub_z] at * <;> push_cast
  · refine le_trans (le_of_eq (congrArg abs ?_)) hx; ring
  · refine le_trans (le_of_eq (congrArg abs ?_)) hy; ring
  · refine le_trans (le_of_eq (congrArg abs ?_)) hz; ring

/-- the key of a candidate. -/
theorem SearchBounds.key (h : SearchBounds L dtol r A) {c : Vec3 (RNum ρ)} (hc : CompsLe (valV c) (3 / 2)) :
    CompsLe (valV (ofIntVec (toIntVec c) : Vec3 (RNum ρ))) 2 ∧
    CompsLe (valV c - valV (ofIntVec (toIntVec c) : Vec3 (RNum ρ))) (1 / 900000000) := by
  have h2 := h.r2
  have X := fun {x : RNum ρ} (hx : |x.val| ≤ 3 / 2) => (key_of h.rel h2 (x := x) (hx.trans (by norm_num))).2
  have x1 := X hc.1
  have y1 := X hc.2.1
  have z1 := X hc.2.2
  obtain ⟨cx, cy, cz⟩ := hc
  have hcl : CompsLe (valV c - valV (ofIntVec (toIntVec c) : Vec3 (RNum ρ))) (1 / 900000000) := ⟨x1, y1, z1⟩
  refine ⟨?_, hcl⟩
  obtain ⟨x1, y1, z1⟩ := hcl
  simp only [Vec3.sub_x, Vec3.sub_y, Vec3.sub_z] at x1 y1 z1
  refine ⟨?_, ?_, ?_⟩
  · rw [abs_le] at *; constructor <;> linarith [x1.1, x1.2, cx.1, cx.2]
  · rw [abs_le] at *; constructor <;> linarith [y1.1, y1.2, cy.1, cy.2]
  · rw [abs_le] at *; constructor <;> linarith [z1.1, z1.2, cz.1, cz.2]

theorem CompsLe.closeMod {u v : Vec3 ℝ} {ν : ℝ} (h : CompsLe (u - v) ν) : CloseMod ν u v :=
  ⟨0, ⟨0, 0, 0, by ext <;> simp⟩, by simpa [CompsLe] using h⟩

theorem SearchBounds.self (h : SearchBounds L dtol r A) {c : Vec3 (RNum ρ)} (hc : CompsLe (valV c) (3 / 2)) :
    inBucket L (Structure.fracTols L dtol) dtol c (toIntVec c) = true := by
  obtain ⟨h1, h2⟩ := h.key hc
  refine bucket_complete h (hc.mono (by norm_num)) (h1.mono (by norm_num)) (w := 0)
    (e := valV c - valV (ofIntVec (toIntVec c) : Vec3 (RNum ρ))) ⟨0, 0, 0, by ext <;> simp⟩ h2 ?_ (by ext <;> simp)
  have := h.res
  have := h.pos
  linarith

/-! ## The operations found are symmetries -/

/-- **C86 (holohedry).** With rounding errors of at most `10⁻⁹` the holohedry handed to the search is the one of exact
arithmetic, although a third is not representable and the inverse is computed in rounded arithmetic. -/
theorem C86_holohedry {δ : ℝ} (hδ : Accurate ρ δ) (h9 : δ ≤ 1 / 10 ^ 9) (h : HashOrders (RNum ρ)) (h' : HashOrders ℝ)
    (hh : h.pointOps = h'.pointOps) (hv : IsHashOrd h'.pointOps) (fuel : ℕ) (b : BravaisType) :
    primitiveHolohedry h fuel b = primitiveHolohedry h' fuel b :=
  primitiveHolohedry_rounded hδ h9 hh hv fuel b

/-- a hash order of exact arithmetic with the same order of point operations. -/
def exactOrders (h : HashOrders (RNum ρ)) : HashOrders ℝ :=
  { minEle := id, pointOps := h.pointOps, eleInds := id, opVecs := id, counts := fun _ => id, groups := id }

theorem small_holohedry (hb : SearchBounds L dtol r A) {h : HashOrders (RNum ρ)} (hv : h.Valid) {fuel : ℕ}
    {b : BravaisType} {pg : PointGroup} (hpg : primitiveHolohedry (K := RNum ρ) h fuel b = .ret pg) :
    ∀ op ∈ pg.operations, SmallEntries (intRot op) := by
  obtain ⟨hδ, hd⟩ := hb.delta
  have hv' : (exactOrders h).Valid := ⟨fun _ => .refl _, hv.pointOps, fun _ => .refl _, fun _ => .refl _,
    fun _ _ => .refl _, fun _ => .refl _⟩
  rw [C86_holohedry hδ (hd.trans (by norm_num)) h (exactOrders h) rfl hv.pointOps] at hpg
  obtain ⟨c, sym, p, conv, order, types, -, -, -, -, -, -, -, -, -, -, hsm⟩ :=
    C35_primitive_holohedry (K := ℝ) _ hv' fuel b pg hpg
  exact fun op hop => hsm _ (List.mem_map_of_mem hop)

theorem SearchBounds.tiny (h : SearchBounds L dtol r A) : 6 * A * (3072 * r ^ 2) ≤ dtol.val / 100 := by
  have := h.Ar2
  have hp := h.pos
  have e : 6 * A * (3072 * r ^ 2) = 18432 * (A * r ^ 2) := by ring
  rw [e]
  linarith

/-- **C86 (the operations are symmetries).** In rounded arithmetic, every operation found has a rotation of the holohedry,
a translation of at most two cells, and maps every site onto a site of the same species, up to a lattice translation and
a distance of `2.1` tolerances between the exact values. -/
theorem C86_operations_are_symmetries (sa : SymmetryAnalyzer (RNum ρ)) (h : HashOrders (RNum ρ)) (hv : h.Valid) (fuel : ℕ)
    (s : Structure (RNum ρ)) (bravais : BravaisType) (ops : List (SymmOp (RNum ρ))) (hs : SearchReady s sa.dtol r A)
    (hr : sa.getPrimitiveSpaceGroupOps h fuel s bravais = .ret ops) :
    ∃ pg, primitiveHolohedry (K := RNum ρ) h fuel bravais = .ret pg ∧ ∀ o ∈ ops, o.rotation ∈ pg.operations ∧
      TransLe 2 o ∧ MapsWithin (exactStructure s) (overK ℝ (intRot o.rotation)) (valV o.translation)
        (21 / 10 * sa.dtol.val) := by
  obtain ⟨pg, es, hpg, hne, hes, hnd, hmem⟩ := mem_primitiveOps_any hv hs.sorted hr
  refine ⟨pg, hpg, fun o ho => ?_⟩
  obtain ⟨op, hop, ho⟩ := (hmem o).1 ho
  have hsm := small_holohedry hs.bounds hv hpg op hop
  have hp := hs.bounds.pos
  set tols := Structure.fracTols s.lattice sa.dtol with htols
  set pairs := sitePairs s.species es with hpairs
  have hself : ∀ c ∈ pairs.map (pairTrans tols s.fracCoords op),
      inBucket s.lattice tols sa.dtol c (toIntVec c) = true := by
    intro c hc
    obtain ⟨⟨a, b⟩, -, rfl⟩ := List.mem_map.1 hc
    exact hs.bounds.self (hs.cand hsm a b).1
  obtain ⟨ks, hb, hk⟩ := mem_opsForRotation (n := s.species.length) hv
    (op, pairs.map (pairTrans tols s.fracCoords op)) hself
  obtain ⟨k, hkm, hcount, rfl⟩ := (hk o).1 ho
  obtain ⟨hlen, hz⟩ := zip_inBucket_any hb hself
  have hk2 : CompsLe (valV (ofIntVec k : Vec3 (RNum ρ))) 2 := by
    obtain ⟨c, hc, rfl⟩ := hb.keys k hkm
    obtain ⟨⟨a, b⟩, -, rfl⟩ := List.mem_map.1 hc
    exact (hs.bounds.key (hs.cand hsm a b).1).1
  refine ⟨hop, hk2, ?_⟩
  -- a pair in the bucket
  have near : ∀ a b, ((a, b), k) ∈ pairs.zip ks → DistMod (valM s.lattice) (21 / 10 * sa.dtol.val)
      ((castRot op : Mat3 ℝ) * valV (posOf s.fracCoords a) + valV (ofIntVec k : Vec3 (RNum ρ)))
      (valV (posOf s.fracCoords b)) := by
    intro a b hab
    obtain ⟨h1, h2⟩ := hs.cand hsm a b
    have h3 : DistMod _ _ _ _ := bucket_sound hs.bounds (h1.mono (by norm_num)) (hk2.mono (by norm_num)) (hz _ _ hab)
    have h4 := (h3.symm.trans (hs.bounds.dist h2)).mono (d' := 21 / 10 * sa.dtol.val) (by
      have := hs.bounds.tiny
      linarith)
    exact h4.shift (by ext <;> simp only [Vec3.sub_x, Vec3.sub_y, Vec3.sub_z, Vec3.add_x, Vec3.add_y, Vec3.add_z] <;> ring)
  have hpm : ∀ a b, ((a, b), k) ∈ pairs.zip ks → ∃ e, s.species[a]? = some e ∧ s.species[b]? = some e := by
    intro a b hab
    exact (mem_sitePairs hs.sorted.sorted hes a b).1 (List.of_mem_zip hab).1
  have hfull : ∀ a < s.species.length, ∃ b, ((a, b), k) ∈ pairs.zip ks := fun a ha =>
    bucket_full hlen (nodup_sitePairs hs.sorted.sorted hes hnd) (by
      rintro ⟨a, b⟩ hab
      obtain ⟨e, he, -⟩ := (mem_sitePairs hs.sorted.sorted hes a b).1 hab
      exact (List.getElem?_eq_some_iff.1 he).1) (by
      intro a b b' h1 h2
      obtain ⟨e, he, hbe⟩ := hpm a b h1
      obtain ⟨e', he', hbe'⟩ := hpm a b' h2
      rw [he] at he'
      obtain rfl := Option.some.inj he'
      exact hs.unique hbe hbe' (((near a b h1).symm.trans (near a b' h2)).mono (by linarith))) hcount ha
  have hl : (exactStructure s).species.length = (exactStructure s).fracCoords.length := by
    simp [exactStructure, hs.sorted.sameLength]
  intro e p hep
  obtain ⟨a, ha⟩ := List.mem_iff_getElem?.1 hep
  obtain ⟨hae, rfl⟩ := pos_of_site ha
  obtain ⟨b, hab⟩ := hfull a (List.getElem?_eq_some_iff.1 hae).1
  obtain ⟨e', he', hbe⟩ := hpm a b hab
  have hae' : s.species[a]? = some e := hae
  rw [hae'] at he'
  obtain rfl := Option.some.inj he'
  obtain ⟨w, hw, hm⟩ := near a b hab
  refine ⟨_, List.mem_of_getElem? (site_pos hl hbe), w, hw, ?_⟩
  rw [← mag_le_iff (by linarith), ← castRot_overK]
  simp only [exactStructure, posOf_valV]
  exact hm

/-! ## The symmetries are found -/

/-- the structure is the ideal one up to `η` in each fractional coordinate, and lattice translations. -/
structure Approximates (s : Structure (RNum ρ)) (ideal : Structure ℝ) (η : ℝ) : Prop where
  lattice : ideal.lattice = valM s.lattice
  species : ideal.species = s.species
  count : ideal.fracCoords.length = s.fracCoords.length
  coords : ∀ (i : ℕ) p q, s.fracCoords[i]? = some p → ideal.fracCoords[i]? = some q →
    ∃ w, IntVec w ∧ CompsLe (valV p - q - w) η

theorem Approximates.pos {ideal : Structure ℝ} {η : ℝ} (h : Approximates s ideal η) (hη : 0 ≤ η) (i : ℕ) :
    CloseMod η (valV (posOf s.fracCoords i)) (posOf ideal.fracCoords i) := by
  unfold posOf
  rcases lt_or_ge i s.fracCoords.length with hi | hi
  · have e1 := List.getElem?_eq_getElem hi
    have e2 := List.getElem?_eq_getElem (h.count ▸ hi : i < ideal.fracCoords.length)
    rw [e1, e2]
    exact h.coords i _ _ e1 e2
  · rw [List.getElem?_eq_none hi, List.getElem?_eq_none (by rw [h.count]; exact hi)]
    have : valV (0 : Vec3 (RNum ρ)) = 0 := by ext <;> exact RNum.val_zero
    rw [Option.getD_none, this]
    exact ⟨0, ⟨0, 0, 0, by ext <;> simp⟩, by simpa [CompsLe] using hη⟩

theorem closeMod_iff_sub {ν : ℝ} {u v : Vec3 ℝ} {u' v' : Vec3 ℝ} (h : CloseMod ν u v) (e : u - v = u' - v') :
    CloseMod ν u' v' := by
  obtain ⟨w, hw, hm⟩ := h
  exact ⟨w, hw, by rw [← e]; exact hm⟩

set_option maxHeartbeats 1000000 in
/-- **C86 (the symmetries are found).** Let the stored structure be an ideal one up to a noise `η` in the fractional
coordinates with `100 A η ≤ dtol`.  Every rotation of the holohedry with a translation that maps the ideal structure
exactly onto itself is found, with a translation that differs by a lattice translation and at most `4η + 5 · 10⁻⁹` in each
fractional coordinate; every other translation found for that rotation is more than four tolerances away. -/
theorem C86_symmetries_are_found (sa : SymmetryAnalyzer (RNum ρ)) (h : HashOrders (RNum ρ)) (hv : h.Valid) (fuel : ℕ)
    (s : Structure (RNum ρ)) (bravais : BravaisType) (ops : List (SymmOp (RNum ρ))) (hs : SearchReady s sa.dtol r A)
    (ideal : Structure ℝ) (η : ℝ) (hη : 0 ≤ η) (hid : Approximates s ideal η) (hnoise : 100 * A * η ≤ sa.dtol.val)
    (hr : sa.getPrimitiveSpaceGroupOps h fuel s bravais = .ret ops) :
    ∃ pg, primitiveHolohedry (K := RNum ρ) h fuel bravais = .ret pg ∧ ∀ W ∈ pg.operations, ∀ t,
      MapsExactly ideal (overK ℝ (intRot W)) t → ∃ o ∈ ops, o.rotation = W ∧
        (∃ w d : Vec3 ℝ, IntVec w ∧ valV o.translation = t + w + d ∧ CompsLe d (4 * η + 1 / 200000000)) ∧
        ∀ o' ∈ ops, o'.rotation = W → o' ≠ o → ∀ w, IntVec w →
          4 * sa.dtol.val < (valM s.lattice * (valV o'.translation - t - w)).mag := by
  classical
  obtain ⟨pg, es, hpg, hne, hes, hnd, hmem⟩ := mem_primitiveOps_any hv hs.sorted hr
  refine ⟨pg, hpg, fun op hop t hmap => ?_⟩
  have hsm := small_holohedry hs.bounds hv hpg op hop
  have hp := hs.bounds.pos
  have hA := hs.bounds.A1
  have hres := hs.bounds.res
  have hr2 := hs.bounds.r2
  have htiny := hs.bounds.tiny
  have hεs : (0 : ℝ) ≤ 3072 * r ^ 2 := by positivity
  have hε9 : 3072 * r ^ 2 ≤ 1 / 340000000 := by norm_num at hr2; linarith
  have hAη : 6 * A * η ≤ 6 / 100 * sa.dtol.val := by linarith
  set tols := Structure.fracTols s.lattice sa.dtol with htols
  set pairs := sitePairs s.species es with hpairs
  set f := pairTrans tols s.fracCoords op with hf
  have hcand : ∀ c ∈ pairs.map f, CompsLe (valV c) (3 / 2) := by
    intro c hc
    obtain ⟨⟨a, b⟩, -, rfl⟩ := List.mem_map.1 hc
    exact (hs.cand hsm a b).1
  have hself : ∀ c ∈ pairs.map f, inBucket s.lattice tols sa.dtol c (toIntVec c) = true :=
    fun c hc => hs.bounds.self (hcand c hc)
  obtain ⟨ks, hb, hk⟩ := mem_opsForRotation (n := s.species.length) hv (op, pairs.map f) hself
  have hkeys : ∀ k ∈ ks, CompsLe (valV (ofIntVec k : Vec3 (RNum ρ))) 2 := by
    intro k hkm
    obtain ⟨c, hc, rfl⟩ := hb.keys k hkm
    exact (hs.bounds.key (hcand c hc)).1
  rw [← castRot_overK] at hmap
  have hpm : ∀ a b, (a, b) ∈ pairs ↔ ∃ e, s.species[a]? = some e ∧ s.species[b]? = some e :=
    mem_sitePairs hs.sorted.sorted hes
  have hl : ideal.species.length = ideal.fracCoords.length := by
    rw [hid.species, hid.count, hs.sorted.sameLength]
  -- the candidate of a pair, compared with the ideal positions
  have hsame : ∀ a b, CloseMod (4 * η + 3072 * r ^ 2) (valV (f (a, b)))
      (posOf ideal.fracCoords b - (castRot op : Mat3 ℝ) * posOf ideal.fracCoords a) := by
    intro a b
    have h1 := (hs.cand hsm a b).2
    have h2 := (hid.pos hη b).sub (closeMod_rot hsm (hid.pos hη a))
    exact (h1.trans h2).mono (by linarith)
  set ν0 := 4 * η + 3072 * r ^ 2 with hν0
  have hν0' : 6 * A * ν0 ≤ 1 / 4 * sa.dtol.val := by
    rw [hν0, mul_add]; linarith
  -- the partner of a site
  have partner : ∀ a e, s.species[a]? = some e → ∃ b, s.species[b]? = some e ∧ CloseMod ν0 (valV (f (a, b))) t := by
    intro a e ha
    obtain ⟨q, hq, hsp⟩ := hmap e _ (List.mem_of_getElem? (site_pos hl (hid.species ▸ ha)))
    obtain ⟨b, hbq⟩ := List.mem_iff_getElem?.1 hq
    obtain ⟨hbe, rfl⟩ := pos_of_site hbq
    refine ⟨b, hid.species ▸ hbe, ?_⟩
    have h1 := closeMod_of_samePoint hsp
    have h2 := closeMod_iff_sub (u' := posOf ideal.fracCoords b - (castRot op : Mat3 ℝ) * posOf ideal.fracCoords a)
      (v' := t) h1.symm (by
        ext <;> simp only [Vec3.sub_x, Vec3.sub_y, Vec3.sub_z, Vec3.add_x, Vec3.add_y, Vec3.add_z] <;> ring)
    exact ((hsame a b).trans h2).mono (by linarith)
  -- the candidates of two pairs with the same first site
  have apart : ∀ a b b' e, s.species[b]? = some e → s.species[b']? = some e → CloseMod ν0 (valV (f (a, b'))) t →
      DistMod (valM s.lattice) (415 / 100 * sa.dtol.val) (valV (f (a, b))) t → b = b' := by
    intro a b b' e hbe hbe' hsp hm
    refine hs.unique hbe hbe' ?_
    have h1 := (hs.bounds.dist (hs.cand hsm a b).2).symm.trans (hm.trans (hs.bounds.dist hsp).symm)
    have h2 := h1.trans (hs.bounds.dist (hs.cand hsm a b').2)
    refine (h2.mono (d' := 9 / 2 * sa.dtol.val) (by linarith)).shift ?_
    ext <;> simp only [Vec3.sub_x, Vec3.sub_y, Vec3.sub_z] <;> ring
  have hcnt : (pairs.map f).countP (fun c => decide (CloseMod ν0 (valV c) t)) = s.species.length := by
    rw [List.countP_map]
    refine countP_pairs (nodup_sitePairs hs.sorted.sorted hes hnd) ?_ ?_ ?_
    · rintro ⟨a, b⟩ hab
      obtain ⟨e, he, -⟩ := (hpm a b).1 hab
      exact (List.getElem?_eq_some_iff.1 he).1
    · intro a ha
      obtain ⟨b, hbe, hsp⟩ := partner a _ (List.getElem?_eq_getElem ha)
      exact ⟨b, (hpm a b).2 ⟨_, List.getElem?_eq_getElem ha, hbe⟩, by simpa using hsp⟩
    · intro a b b' h1 h2 h3 h4
      obtain ⟨e, he, hbe⟩ := (hpm a b).1 h1
      obtain ⟨e', he', hbe'⟩ := (hpm a b').1 h2
      rw [he] at he'
      obtain rfl := Option.some.inj he'
      simp only [Function.comp_apply, decide_eq_true_eq] at h3 h4
      exact apart a b b' e hbe hbe' h4 ((hs.bounds.dist h3).mono (by linarith))
  have hfarc : ∀ c ∈ pairs.map f, decide (CloseMod ν0 (valV c) t) = false →
      ¬ DistMod (valM s.lattice) (415 / 100 * sa.dtol.val) (valV c) t := by
    intro c hc hPc hlt
    obtain ⟨⟨a, b⟩, hab, rfl⟩ := List.mem_map.1 hc
    obtain ⟨e, hae, hbe⟩ := (hpm a b).1 hab
    obtain ⟨b', hbe', hsp⟩ := partner a e hae
    have := apart a b b' e hbe hbe' hsp hlt
    subst this
    exact of_decide_eq_false hPc hsp
  have hAk : 6 * A * (1 / 900000000) ≤ 1 / 100 * sa.dtol.val := by linarith
  have hcoin : ∀ c ∈ pairs.map f, ∀ k ∈ ks, inBucket s.lattice tols sa.dtol c k = true →
      DistMod (valM s.lattice) (201 / 100 * sa.dtol.val) (valV c) (valV (ofIntVec k : Vec3 (RNum ρ))) :=
    fun c hc k hkm hin => bucket_sound hs.bounds ((hcand c hc).mono (by norm_num)) ((hkeys k hkm).mono (by norm_num)) hin
  have hG' : ∀ c ∈ pairs.map f, (fun c => decide (CloseMod ν0 (valV c) t)) c = true →
      CloseMod (ν0 + 1 / 900000000) (valV (ofIntVec (toIntVec c) : Vec3 (RNum ρ))) t := by
    intro c hc hPc
    have h1 := of_decide_eq_true hPc
    exact ((hs.bounds.key (hcand c hc)).2.closeMod.symm.trans h1).mono (by linarith)
  have hF' : ∀ c ∈ pairs.map f, (fun c => decide (CloseMod ν0 (valV c) t)) c = false →
      ¬ DistMod (valM s.lattice) (4 * sa.dtol.val) (valV (ofIntVec (toIntVec c) : Vec3 (RNum ρ))) t := by
    intro c hc hPc hd
    have h1 := hs.bounds.dist (hs.bounds.key (hcand c hc)).2.closeMod
    exact hfarc c hc hPc ((h1.trans hd).mono (by linarith))
  have hGP' : ∀ c ∈ pairs.map f, ∀ k ∈ ks, (fun c => decide (CloseMod ν0 (valV c) t)) c = true →
      CloseMod (ν0 + 1 / 900000000) (valV (ofIntVec k : Vec3 (RNum ρ))) t → inBucket s.lattice tols sa.dtol c k = true := by
    intro c hc k hkm hPc hgood
    have h1 := of_decide_eq_true hPc
    obtain ⟨w, hw, hd⟩ := h1.trans hgood.symm
    refine bucket_complete hs.bounds ((hcand c hc).mono (by norm_num)) ((hkeys k hkm).mono (by norm_num)) hw hd ?_ ?_
    · have : 6 * A * (ν0 + (ν0 + 1 / 900000000)) = 6 * A * ν0 + 6 * A * ν0 + 6 * A * (1 / 900000000) := by ring
      rw [this]; linarith
    · ext <;> simp only [Vec3.sub_x, Vec3.sub_y, Vec3.sub_z, Vec3.add_x, Vec3.add_y, Vec3.add_z] <;> ring
  have hFP' : ∀ c ∈ pairs.map f, ∀ k ∈ ks, (fun c => decide (CloseMod ν0 (valV c) t)) c = true →
      ¬ DistMod (valM s.lattice) (4 * sa.dtol.val) (valV (ofIntVec k : Vec3 (RNum ρ))) t →
      inBucket s.lattice tols sa.dtol c k = false := by
    intro c hc k hkm hPc hfar
    rw [Bool.eq_false_iff]
    intro hin
    have h1 := of_decide_eq_true hPc
    exact hfar (((hcoin c hc k hkm hin).symm.trans (hs.bounds.dist h1)).mono (by linarith))
  have hGN' : ∀ c ∈ pairs.map f, ∀ k ∈ ks, (fun c => decide (CloseMod ν0 (valV c) t)) c = false →
      CloseMod (ν0 + 1 / 900000000) (valV (ofIntVec k : Vec3 (RNum ρ))) t → inBucket s.lattice tols sa.dtol c k = false := by
    intro c hc k hkm hPc hgood
    rw [Bool.eq_false_iff]
    intro hin
    refine hfarc c hc hPc (((hcoin c hc k hkm hin).trans (hs.bounds.dist hgood)).mono ?_)
    rw [mul_add]; linarith
  rcases bucket_split hb (fun c => decide (CloseMod ν0 (valV c) t))
    (fun k => CloseMod (ν0 + 1 / 900000000) (valV (ofIntVec k : Vec3 (RNum ρ))) t)
    (fun k => ¬ DistMod (valM s.lattice) (4 * sa.dtol.val) (valV (ofIntVec k : Vec3 (RNum ρ))) t)
    hself hG' hF' hGP' hFP' hGN' with ⟨h1, -⟩ | ⟨k0, hk0, hgood, hc0, hfar⟩
  · exfalso
    rw [List.countP_eq_zero.2 (by intro c hc; simp [h1 c hc])] at hcnt
    exact hne (List.length_eq_zero_iff.1 hcnt.symm)
  · refine ⟨⟨op, ofIntVec k0⟩, (hmem _).2 ⟨op, hop, (hk _).2 ⟨k0, hk0, by rw [hc0, hcnt], rfl⟩⟩, rfl, ?_, ?_⟩
    · obtain ⟨w, hw, hd⟩ := hgood
      refine ⟨w, _, hw, ?_, hd.mono (by rw [hν0]; linarith)⟩
      ext <;> simp only [Vec3.sub_x, Vec3.sub_y, Vec3.sub_z, Vec3.add_x, Vec3.add_y, Vec3.add_z] <;> ring
    · intro o' ho' hrot hne' w' hw'
      obtain ⟨op', -, ho'⟩ := (hmem o').1 ho'
      have hop' : op' = op := by
        rw [← hrot, opsForRotation_rotation_any ho']
      subst hop'
      obtain ⟨k, hkm, -, rfl⟩ := (hk o').1 ho'
      by_contra hlt
      exact hfar k hkm (by rintro rfl; exact hne' rfl) ⟨w', hw', not_lt.1 hlt⟩

/-! ## Closure and identification -/

theorem key_injective (h : SearchBounds L dtol r A) {a b : Vec3 (RNum ρ)} (ha : CompsLe (valV a) (3 / 2))
    (hb : CompsLe (valV b) (3 / 2))
    (e : (ofIntVec (toIntVec a) : Vec3 (RNum ρ)) = ofIntVec (toIntVec b)) : toIntVec a = toIntVec b := by
  have h2 := h.r2
  have key : ∀ {x y : RNum ρ}, |x.val| ≤ 3 / 2 → |y.val| ≤ 3 / 2 →
      (lit (FRound.toI64 (x * intConversionMult)) / intConversionMult : RNum ρ) =
        lit (FRound.toI64 (y * intConversionMult)) / intConversionMult →
      (FRound.toI64 (x * intConversionMult) : ℤ) = FRound.toI64 (y * intConversionMult) := by
    intro x y hx hy e
    have k1 := key_value h.rel h2 (key_of h.rel h2 (x := x) (hx.trans (by norm_num))).1
    have k2 := key_value h.rel h2 (key_of h.rel h2 (x := y) (hy.trans (by norm_num))).1
    rw [e] at k1
    generalize (FRound.toI64 (x * intConversionMult) : ℤ) = m at *
    generalize (FRound.toI64 (y * intConversionMult) : ℤ) = n at *
    norm_num at h2
    rw [abs_le] at k1 k2
    have a1 : ((m - n : ℤ) : ℝ) < 1 := by push_cast; linarith [k1.1, k1.2, k2.1, k2.2]
    have a2 : (-1 : ℝ) < ((m - n : ℤ) : ℝ) := by push_cast; linarith [k1.1, k1.2, k2.1, k2.2]
    have b1 : m - n < 1 := by exact_mod_cast a1
    have b2 : -1 < m - n := by exact_mod_cast a2
    omega
  ext
  · exact key ha.1 hb.1 (congrArg Vec3.x e)
  · exact key ha.2.1 hb.2.1 (congrArg Vec3.y e)
  · exact key ha.2.2 hb.2.2 (congrArg Vec3.z e)

/-- no operation is listed twice. -/
theorem rounded_nodup {sa : SymmetryAnalyzer (RNum ρ)} {h : HashOrders (RNum ρ)} (hv : h.Valid) {fuel : ℕ}
    {bravais : BravaisType} {ops : List (SymmOp (RNum ρ))} (hs : SearchReady s sa.dtol r A)
    (hr : sa.getPrimitiveSpaceGroupOps h fuel s bravais = .ret ops) : ops.Nodup := by
  obtain ⟨pg, es, m, hpg, hne, hes, hnd, g1, g2, rfl⟩ := primitiveOps_eq_any hv hs.sorted hr
  have hperm := hv.opVecs m
  rw [List.nodup_flatMap]
  constructor
  · intro p hp
    have h1 := hperm.subset hp
    rw [show p = (p.1, p.2) from rfl, mem_iff_amapGet? g1, g2] at h1
    split at h1
    · rename_i hop
      have h2 := Option.some.inj h1
      have hsm := small_holohedry hs.bounds hv hpg _ hop
      have hcand : ∀ c ∈ p.2, CompsLe (valV c) (3 / 2) := by
        intro c hc
        rw [← h2] at hc
        obtain ⟨⟨a, b⟩, -, rfl⟩ := List.mem_map.1 hc
        exact (hs.cand hsm a b).1
      obtain ⟨ks, hb, ht⟩ := countFold (h := h) hv (L := s.lattice) (tols := Structure.fracTols s.lattice sa.dtol)
        (dtol := sa.dtol) p.2 (fun c hc => hs.bounds.self (hcand c hc))
      unfold opsForRotation
      rw [List.Nodup, List.pairwise_filterMap]
      refine List.Pairwise.imp_of_mem ?_ ((hv.counts _ _).symm.nodup (List.Nodup.of_map _ ht.1))
      intro q q' hq hq' hne' o ho o' ho' e
      subst e
      simp only [Option.ite_none_right_eq_some, Option.some.injEq] at ho ho'
      obtain ⟨e1, rfl⟩ := ho
      obtain ⟨e2, ho'⟩ := ho'
      have e3 : (ofIntVec q'.1 : Vec3 (RNum ρ)) = ofIntVec q.1 := congrArg SymmOp.translation ho'
      obtain ⟨c, hc, ec⟩ := hb.keys _ ((tally_mem_keys ht q.1).1 (List.mem_map_of_mem ((hv.counts _ _).subset hq)))
      obtain ⟨c', hc', ec'⟩ := hb.keys _ ((tally_mem_keys ht q'.1).1 (List.mem_map_of_mem ((hv.counts _ _).subset hq')))
      refine hne' (Prod.ext ?_ (e1.trans e2.symm))
      rw [ec, ec'] at e3 ⊢
      exact (key_injective hs.bounds (hcand c' hc') (hcand c hc) e3).symm
    · simp at h1
  · have hk : ((h.opVecs m).map Prod.fst).Nodup := (hperm.map Prod.fst).symm.nodup g1
    rw [List.Nodup, List.pairwise_map] at hk
    refine hk.imp ?_
    intro p q hpq
    rw [Function.onFun, List.disjoint_left]
    intro o ho ho'
    exact hpq ((opsForRotation_rotation_any ho).symm.trans (opsForRotation_rotation_any ho'))

/-- what maps the stored structure onto itself also maps the ideal one. -/
theorem Approximates.maps {ideal : Structure ℝ} {η : ℝ} (h : Approximates s ideal η) (hη : 0 ≤ η)
    (hs : SearchReady s dtol r A) (hnoise : 100 * A * η ≤ dtol.val) {W : Mat3 Int8} (hW : SmallEntries (intRot W))
    {t : Vec3 ℝ} (hm : MapsWithin (exactStructure s) (overK ℝ (intRot W)) t (21 / 10 * dtol.val)) :
    MapsWithin ideal (overK ℝ (intRot W)) t (2 * (5 / 4 * dtol.val)) := by
  have hp := hs.bounds.pos
  have hl : (exactStructure s).species.length = (exactStructure s).fracCoords.length := by
    simp [exactStructure, hs.sorted.sameLength]
  have hl' : ideal.species.length = ideal.fracCoords.length := by
    rw [h.species, h.count, hs.sorted.sameLength]
  rw [← castRot_overK] at hm ⊢
  intro e p hep
  obtain ⟨a, ha⟩ := List.mem_iff_getElem?.1 hep
  obtain ⟨hae, rfl⟩ := pos_of_site ha
  have hae' : (exactStructure s).species[a]? = some e := by rw [h.species] at hae; exact hae
  obtain ⟨q, hq, w, hw, hd⟩ := hm e _ (List.mem_of_getElem? (site_pos hl hae'))
  obtain ⟨b, hb⟩ := List.mem_iff_getElem?.1 hq
  obtain ⟨hbe, rfl⟩ := pos_of_site hb
  rw [← mag_le_iff (by linarith)] at hd
  have d1 : DistMod (valM s.lattice) (21 / 10 * dtol.val)
      ((castRot W : Mat3 ℝ) * valV (posOf s.fracCoords a) + t) (valV (posOf s.fracCoords b)) :=
    ⟨w, hw, by simpa only [exactStructure, posOf_valV] using hd⟩
  have c1 := closeMod_iff_sub (u' := (castRot W : Mat3 ℝ) * posOf ideal.fracCoords a + t)
    (v' := (castRot W : Mat3 ℝ) * valV (posOf s.fracCoords a) + t) (closeMod_rot hW (h.pos hη a)).symm (by
      ext <;> simp only [Vec3.sub_x, Vec3.sub_y, Vec3.sub_z, Vec3.add_x, Vec3.add_y, Vec3.add_z] <;> ring)
  obtain ⟨w', hw', hd'⟩ := ((hs.bounds.dist c1).trans d1).trans (hs.bounds.dist (h.pos hη b))
  refine ⟨_, List.mem_of_getElem? (site_pos hl' (by rw [h.species]; exact hbe)), w', hw', ?_⟩
  rw [← mag_le_iff (by linarith), h.lattice]
  exact hd'.trans (by linarith)

/-- every edge of the cell is at least `k` tolerances long. -/
def EdgesAtLeast (L : Mat3 (RNum ρ)) (dtol : RNum ρ) (k : ℝ) : Prop :=
  ∀ v, v = (valM L).col0 ∨ v = (valM L).col1 ∨ v = (valM L).col2 → (k * dtol.val) ^ 2 ≤ lenSq v

theorem SearchBounds.small_tols (h : SearchBounds L dtol r A) {k : ℝ} (hk : 0 < k) (he : EdgesAtLeast L dtol k) :
    let t := Structure.fracTols L dtol
    t.x.val ≤ 101 / 100 / k ∧ t.y.val ≤ 101 / 100 / k ∧ t.z.val ≤ 101 / 100 / k := by
  obtain ⟨⟨m11, m12, m13⟩, ⟨m21, m22, m23⟩, m31, m32, m33⟩ := h.entries.all
  have hp := h.pos
  have key : ∀ {v : Vec3 ℝ} {t : ℝ}, (k * dtol.val) ^ 2 ≤ lenSq v → t ≤ 101 / 100 * (dtol.val / v.mag) →
      t ≤ 101 / 100 / k := by
    intro v t h1 h2
    have hm : k * dtol.val ≤ v.mag := by
      have h3 := mag_nonneg v
      have h4 : v.mag * v.mag = lenSq v := mag_mul_self v
      have h5 : 0 < k * dtol.val := by positivity
      nlinarith
    have hm0 : 0 < v.mag := lt_of_lt_of_le (by positivity) hm
    refine h2.trans ?_
    rw [div_eq_mul_one_div (101 / 100) k]
    refine mul_le_mul_of_nonneg_left ?_ (by norm_num)
    rw [div_le_div_iff₀ hm0 hk]
    linarith
  exact ⟨key (he _ (Or.inl rfl)) (h.tol_close (v := L.col0) m11 m21 m31 (Or.inl rfl)).2,
    key (he _ (Or.inr (Or.inl rfl))) (h.tol_close (v := L.col1) m12 m22 m32 (Or.inr (Or.inl rfl))).2,
    key (he _ (Or.inr (Or.inr rfl))) (h.tol_close (v := L.col2) m13 m23 m33 (Or.inr (Or.inr rfl))).2⟩

/-- the operations found correspond to those of the table. -/
theorem rounded_search_table {sa : SymmetryAnalyzer (RNum ρ)} {h : HashOrders (RNum ρ)} (hv : h.Valid) {fuel : ℕ}
    {b : BravaisType} (hs : SearchReady s sa.dtol r A) {pg : PointGroup}
    (hpg : primitiveHolohedry (K := RNum ρ) h fuel b = .ret pg) {ideal : Structure ℝ} {η : ℝ} (hη : 0 ≤ η)
    (hid : Approximates s ideal η) (hnoise : 100 * A * η ≤ sa.dtol.val) {sys : LatticeSystem} {n num : ℕ}
    {codes : List ℕ} {table : List (SymmOp ℝ)} {gens : List (SymmOp (RNum ρ))} (hent : IsTableEntry sys n num codes)
    (htab : TableOps num codes table) (hsym : HasSymmetry ideal (5 / 4 * sa.dtol.val) pg.operations table)
    (hr : sa.getPrimitiveSpaceGroupOps h fuel s b = .ret gens) :
    (∀ o ∈ gens, TransLe 2 o) ∧ ∃ table' : List (SymmOp ℝ), table'.Perm table ∧
      List.Forall₂ (fun o q => NearlyBy (4 * η + 1 / 160000000) (exactOp o) q) gens table' := by
  obtain ⟨pg1, hpg1, hC44⟩ := C86_operations_are_symmetries sa h hv fuel s b gens hs hr
  obtain ⟨pg2, hpg2, hC45⟩ := C86_symmetries_are_found sa h hv fuel s b gens hs ideal η hη hid hnoise hr
  rw [hpg, Outcome.ret.injEq] at hpg1 hpg2
  subst hpg1
  subst hpg2
  have hp := hs.bounds.pos
  refine ⟨fun o ho => (hC44 o ho).2.1, ?_⟩
  have hfound : ∀ q ∈ table, ∃ o ∈ gens, NearlyBy (4 * η + 1 / 160000000) (exactOp o) q ∧
      ∀ o' ∈ gens, o'.rotation = q.rotation → o' ≠ o → ∀ w, IntVec w →
        4 * sa.dtol.val < (valM s.lattice * (valV o'.translation - q.translation - w)).mag := by
    intro q hq
    obtain ⟨h1, h2⟩ := hsym.exact q hq
    obtain ⟨o, ho, hrot, ⟨w, d, hw, htr, dx, dy, dz⟩, hu⟩ := hC45 _ h1 _ h2
    exact ⟨o, ho, ⟨hrot, w, d, hw, htr, lt_of_le_of_lt dx (by linarith), lt_of_le_of_lt dy (by linarith),
      lt_of_le_of_lt dz (by linarith)⟩, hu⟩
  have : Nonempty (SymmOp (RNum ρ)) := ⟨⟨default, ⟨sa.dtol, sa.dtol, sa.dtol⟩⟩⟩
  choose! g hg hnear huniq using hfound
  have hback : ∀ o ∈ gens, ∃ q ∈ table, g q = o := by
    intro o ho
    obtain ⟨h1, -, h2⟩ := hC44 o ho
    have h3 := hid.maps hη hs hnoise (small_holohedry hs.bounds hv hpg _ h1) h2
    obtain ⟨q, hq, hrot, w, hw, hle⟩ := hsym.only _ h1 _ h3
    refine ⟨q, hq, ?_⟩
    by_contra hne
    have h4 := huniq q hq o ho hrot.symm (Ne.symm hne) w hw
    rw [hid.lattice, ← mag_le_iff (by linarith)] at hle
    linarith
  have hgnd : (table.map g).Nodup := by
    apply List.Nodup.of_map (fun o : SymmOp (RNum ρ) => o.rotation)
    rw [List.map_map]
    have : table.map ((fun o : SymmOp (RNum ρ) => o.rotation) ∘ g) = table.map fun o => o.rotation :=
      List.map_congr_left fun q hq => (hnear q hq).1
    rw [this]
    exact table_rotations hent htab
  have hperm : gens.Perm (table.map g) := by
    rw [List.perm_ext_iff_of_nodup (rounded_nodup hv hs hr) hgnd]
    intro o
    constructor
    · intro ho
      obtain ⟨q, hq, rfl⟩ := hback o ho
      exact List.mem_map.2 ⟨q, hq, rfl⟩
    · intro ho
      obtain ⟨q, hq, rfl⟩ := List.mem_map.1 ho
      exact hg q hq
  obtain ⟨m, h1, h2⟩ := List.perm_comp_forall₂
    (r := fun (o : SymmOp (RNum ρ)) q => NearlyBy (4 * η + 1 / 160000000) (exactOp o) q) hperm (v := table) (by
      rw [List.forall₂_map_left_iff, List.forall₂_same]
      exact hnear)
  exact ⟨m, h2, h1⟩

/-- **C86 (search, closure and table).** Let the stored structure be an ideal one up to the noise `η`, and the symmetry
operations of the ideal structure be those of a table entry of the lattice system, separated by the tolerance; let no
edge be shorter than 25 tolerances.  Then the search returns; the operations found are those of the entry up to lattice
vectors and `4η + 7 · 10⁻⁹`; `from_generators` returns them unchanged unless the entry is one of the 21 of `crateBad`; and
the entry is identified. -/
theorem C86_group_identified (sa : SymmetryAnalyzer (RNum ρ)) (h : HashOrders (RNum ρ)) (hv : h.Valid) (fuel : ℕ)
    (hf : 2 ≤ fuel) (s : Structure (RNum ρ)) (b : BravaisType) (hs : SearchReady s sa.dtol r A)
    (hne : s.species ≠ []) (hedge : EdgesAtLeast s.lattice sa.dtol 25)
    (pg : PointGroup) (hpg : primitiveHolohedry (K := RNum ρ) h fuel b = .ret pg) (ideal : Structure ℝ) (η : ℝ)
    (hη : 0 ≤ η) (hid : Approximates s ideal η) (hnoise : 100 * A * η ≤ sa.dtol.val) (sys : LatticeSystem) (n num : ℕ)
    (codes : List ℕ) (table : List (SymmOp ℝ)) (hent : IsTableEntry sys n num codes) (htab : TableOps num codes table)
    (hsym : HasSymmetry ideal (5 / 4 * sa.dtol.val) pg.operations table) :
    ∃ gens, sa.getPrimitiveSpaceGroupOps h fuel s b = .ret gens ∧
      (∃ table' : List (SymmOp ℝ), table'.Perm table ∧
        List.Forall₂ (fun o q => NearlyBy (4 * η + 1 / 160000000) (exactOp o) q) gens table') ∧
      (num ∉ crateBad → SpaceGroup.fromGenerators fuel gens (Structure.fracTols s.lattice sa.dtol) = .ret gens) ∧
      ∃ sym, amapGet? sgNumToSymbol num = some sym ∧
        identifySpaceGroup h gens sys (Structure.fracTols s.lattice sa.dtol) = .ret (some (num, sym)) := by
  obtain ⟨gens, hr⟩ := search_returns_any sa hv hs.sorted hpg hne
  obtain ⟨hle, table', hperm, hnear⟩ := rounded_search_table hv hs hpg hη hid hnoise hent htab hsym hr
  refine ⟨gens, hr, ⟨table', hperm, hnear⟩, ?_⟩
  obtain ⟨hδ, hd⟩ := hs.bounds.delta
  obtain ⟨⟨x1, x2⟩, ⟨y1, y2⟩, ⟨z1, z2⟩⟩ := hs.bounds.tols
  obtain ⟨x3, y3, z3⟩ := hs.bounds.small_tols (by norm_num) hedge
  have hq := hs.bounds.tolOverA
  have hA := hs.bounds.A1
  have hη' : η ≤ 1 / 100 * (sa.dtol.val / A) := by
    rw [← mul_div_assoc, le_div_iff₀ (by linarith)]; linarith
  generalize Structure.fracTols s.lattice sa.dtol = tols at *
  generalize 1024 * r ^ 2 = δ at *
  norm_num at x1 y1 z1 x3 y3 z3 hd
  have hin : TolsIn tols (5 * (4 * η + 1 / 160000000) + 14 * δ) := by
    refine ⟨⟨?_, ?_⟩, ⟨?_, ?_⟩, ?_, ?_⟩ <;> linarith
  exact C85_group_identified hδ (by linarith) h hv fuel hf sys n num codes table table' gens hle tols (by linarith) hin
    (by linarith) (by linarith) (by linarith) hent htab hperm hnear

/-- **C86 (the 21 groups that are not closed under the product of the crate).** If the symmetry operations of the ideal
structure are those of an entry of `crateBad`, no edge is shorter than 49 tolerances, and the noise is at most 1/20000 of the cell, then nothing is identified in
what `from_generators` returns. -/
theorem C86_bad_group_not_identified (sa : SymmetryAnalyzer (RNum ρ)) (h : HashOrders (RNum ρ)) (hv : h.Valid) (fuel : ℕ)
    (s : Structure (RNum ρ)) (b : BravaisType) (hs : SearchReady s sa.dtol r A)
    (hedge : EdgesAtLeast s.lattice sa.dtol 49)
    (pg : PointGroup) (hpg : primitiveHolohedry (K := RNum ρ) h fuel b = .ret pg) (ideal : Structure ℝ) (η : ℝ)
    (hη : 0 ≤ η) (hη2 : η ≤ 1 / 20000) (hid : Approximates s ideal η) (hnoise : 100 * A * η ≤ sa.dtol.val) (sys : LatticeSystem) (n num : ℕ)
    (codes : List ℕ) (table : List (SymmOp ℝ)) (hent : IsTableEntry sys n num codes) (htab : TableOps num codes table)
    (hsym : HasSymmetry ideal (5 / 4 * sa.dtol.val) pg.operations table) (hbad : num ∈ crateBad)
    (gens sg : List (SymmOp (RNum ρ))) (hr : sa.getPrimitiveSpaceGroupOps h fuel s b = .ret gens)
    (hsg : SpaceGroup.fromGenerators fuel gens (Structure.fracTols s.lattice sa.dtol) = .ret sg) (sys' : LatticeSystem)
    (x : ℕ × String) : identifySpaceGroup h sg sys' (Structure.fracTols s.lattice sa.dtol) ≠ .ret (some x) := by
  obtain ⟨hle, table', hperm, hnear⟩ := rounded_search_table hv hs hpg hη hid hnoise hent htab hsym hr
  obtain ⟨hδ, hd⟩ := hs.bounds.delta
  obtain ⟨⟨x1, x2⟩, ⟨y1, y2⟩, ⟨z1, z2⟩⟩ := hs.bounds.tols
  obtain ⟨x3, y3, z3⟩ := hs.bounds.small_tols (by norm_num) hedge
  have hq := hs.bounds.tolOverA
  generalize Structure.fracTols s.lattice sa.dtol = tols at *
  generalize 1024 * r ^ 2 = δ at *
  norm_num at x1 y1 z1 x3 y3 z3 hd
  exact C85_bad_group_not_identified hδ (by norm_num; linarith) h hv fuel sys n num codes table table' gens sg hle tols
    ⟨⟨by linarith, by linarith⟩, ⟨by linarith, by linarith⟩, by linarith, by linarith⟩
    (ν := 4 * η + 1 / 160000000) (by linarith) (by linarith) (by linarith) (by linarith) (by linarith) hent htab hperm
    hnear hbad hsg sys' x

end

end CrystSymm
