import Verif.Proofs.CubicSearch
import Verif.Props.ExactNiggli
import Verif.Props.CentredBoxes

set_option autoImplicit false
set_option linter.unusedSectionVars false

/-! # The primitive cell of a cube in double arithmetic -/

namespace CrystSymm

open Spec Reducer

/-- a cube with the edge `e` and at least one site; every coordinate is `0` or `1/2`. -/
structure HalfCube (e : ℝ) (s : Structure ℝ) : Prop where
  lattice : s.lattice = ⟨e, 0, 0, 0, e, 0, 0, 0, e⟩
  lists : s.species.length = s.fracCoords.length
  sites : s.species ≠ []
  few : s.species.length < 65536
  halves : ∀ v ∈ s.fracCoords, (v.x = 0 ∨ v.x = 1 / 2) ∧ (v.y = 0 ∨ v.y = 1 / 2) ∧ (v.z = 0 ∨ v.z = 1 / 2)

/-- `s'` holds the exact values of the numbers of `s`. -/
structure SameValues {ρ : Rounding} (s : Structure (RNum ρ)) (s' : Structure ℝ) : Prop where
  lattice : valM s.lattice = s'.lattice
  species : s.species = s'.species
  frac : s.fracCoords.map valV = s'.fracCoords

theorem findPrimitiveCell_congr {K : Type} [Add K] [Sub K] [Mul K] [Div K] [Neg K] [Zero K] [One K] [LT K] [LE K] [DecidableLT K]
    [DecidableLE K] [BEq K] [IntCast K] [FRound K] [FTrans K] (r : Reducer K) (ord : List (String × ℕ) → List (String × ℕ))
    {s t : Structure K} (h1 : s.lattice = t.lattice) (h2 : s.normalizeCoords r.dtol = t.normalizeCoords r.dtol) :
    r.findPrimitiveCell ord s = r.findPrimitiveCell ord t := by
  unfold findPrimitiveCell
  simp only [h1, h2]

theorem dyadicCube64 {k : ℕ} (h1 : 1 ≤ k) (h2 : k ≤ 6) : DyadicCube binary64 (2 ^ (k - 1)) (2 ^ (10 - k)) where
  exact := by
    intro n hn
    have := exactMult64 (j := -10) (by norm_num) n (hn.trans (by norm_num))
    rwa [show (2 : ℝ) ^ (-10 : ℤ) = 1 / 1024 by norm_num] at this
  acc := fun x hx => (accurate_binary64 x hx).trans (by norm_num)
  pos := one_le_pow₀ (by norm_num)
  le := by
    have : (2 : ℤ) ^ (k - 1) ≤ 2 ^ 5 := pow_le_pow_right₀ (by norm_num) (by omega)
    simpa using this
  inv := by rw [← pow_add, show k - 1 + (10 - k) = 9 by omega]; norm_num

/-- the sites in units of half the edge. -/
noncomputable def halfUnits (v : Vec3 ℝ) : Vec3 ℤ := ⟨if v.x = 0 then 0 else 1, if v.y = 0 then 0 else 1, if v.z = 0 then 0 else 1⟩

theorem halfUnits_unit (v : Vec3 ℝ) : UnitCoords (halfUnits v) := by
  unfold UnitCoords halfUnits
  refine ⟨?_, ?_, ?_⟩ <;> simp only <;> split_ifs <;> norm_num

theorem halfUnits_halfVec {v : Vec3 ℝ} (h : (v.x = 0 ∨ v.x = 1 / 2) ∧ (v.y = 0 ∨ v.y = 1 / 2) ∧ (v.z = 0 ∨ v.z = 1 / 2)) :
    halfVec (halfUnits v) = v := by
  obtain ⟨h1, h2, h3⟩ := h
  unfold halfVec halfUnits
  ext
  · rcases h1 with h | h <;> simp [h]
  · rcases h2 with h | h <;> simp [h]
  · rcases h3 with h | h <;> simp [h]

theorem sort_units (l : List (String × Vec3 ℤ)) (hl : ∀ p ∈ l, UnitCoords p.2) : (∀ p ∈ l.mergeSort (keyLe Prod.fst), UnitCoords p.2) ∧
    (l.mergeSort (keyLe Prod.fst)).Pairwise fun p q => p.1 ≤ q.1 := by
  refine ⟨fun p hp => hl p ((List.mergeSort_perm _ _).mem_iff.1 hp), ?_⟩
  exact (List.pairwise_mergeSort (keyLe_trans _) (keyLe_total _) l).imp fun h => of_decide_eq_true h

section
variable {ρ : Rounding} {γ κ : ℤ}

theorem cube_sorted (h : DyadicCube ρ γ κ) {s : Structure (RNum ρ)} {l : List (String × Vec3 ℤ)} (hl : ∀ p ∈ l, UnitCoords p.2)
    (h1 : s.lattice = (cubeOf ρ γ l).lattice) (h2 : s.species = l.map Prod.fst) (h3 : s.fracCoords = l.map fun p => dyv 512 p.2) {d : RNum ρ}
    (hd : 0 ≤ d.val) (hd1 : d.val ≤ 1 / 4) : s.normalizeCoords d = cubeOf ρ γ (l.mergeSort (keyLe Prod.fst)) := by
  obtain ⟨t0, t1⟩ := cubeTol_bounds h hd hd1
  have hfrac : normalizeFracVectors (l.map fun p => (dyv 512 p.2 : Vec3 (RNum ρ))) ⟨cubeTol ρ γ d, cubeTol ρ γ d, cubeTol ρ γ d⟩ = l.map fun p => dyv 512 p.2 := by
    unfold normalizeFracVectors
    rw [List.map_map]
    apply List.map_congr_left
    intro p hp
    obtain ⟨h1, h2, h3⟩ := hl p hp
    show normFracVec _ (dyv 512 p.2) = _
    rw [normFrac_dy h t0 t1 (by omega) (by omega) (by omega), mod2_unit (hl p hp)]
  have hz : (l.map Prod.fst).zip ((Structure.getCartCoords (cubeOf ρ γ l).lattice (l.map fun p => (dyv 512 p.2 : Vec3 (RNum ρ)))).zip
      (l.map fun p => (dyv 512 p.2 : Vec3 (RNum ρ)))) = l.map fun p => (p.1, (cubeOf ρ γ l).lattice * (dyv 512 p.2 : Vec3 (RNum ρ)), dyv 512 p.2) := by
    unfold Structure.getCartCoords
    rw [List.map_map, List.zip_map', List.zip_map']
    rfl
  have hsort : Structure.sortBySpecies (l.map fun p => (p.1, (cubeOf ρ γ l).lattice * (dyv 512 p.2 : Vec3 (RNum ρ)), (dyv 512 p.2 : Vec3 (RNum ρ)))) =
      (l.mergeSort (keyLe Prod.fst)).map fun p => (p.1, (cubeOf ρ γ l).lattice * (dyv 512 p.2 : Vec3 (RNum ρ)), dyv 512 p.2) := by
    unfold Structure.sortBySpecies
    rw [List.map_mergeSort]
    intro a _ b _
    rfl
  unfold Structure.normalizeCoords
  simp only [h1, h2, h3, cube_tols h, hfrac, hz, hsort, List.map_map]
  unfold cubeOf Structure.new
  simp [Structure.getCartCoords, Function.comp_def]

theorem cubic_sorted {c : ℝ} (hc : 1 ≤ c) {s : Structure ℝ} {l : List (String × Vec3 ℤ)} (hl : ∀ p ∈ l, UnitCoords p.2)
    (h1 : s.lattice = (cubicCell c l).lattice) (h2 : s.species = l.map Prod.fst) (h3 : s.fracCoords = l.map fun p => halfVec p.2) {d : ℝ}
    (hd : 0 ≤ d) (hd1 : d ≤ 1 / 4) : s.normalizeCoords d = cubicCell c (l.mergeSort (keyLe Prod.fst)) := by
  have hc0 : 0 < c := by linarith
  have ht0 : 0 ≤ d / (2 * c) := by positivity
  have ht1 : d / (2 * c) < 1 / 2 := by rw [div_lt_div_iff₀ (by positivity) (by norm_num)]; linarith
  have hfrac : normalizeFracVectors (l.map fun p => halfVec p.2) ⟨d / (2 * c), d / (2 * c), d / (2 * c)⟩ = l.map fun p => halfVec p.2 := by
    unfold normalizeFracVectors
    rw [List.map_map]
    apply List.map_congr_left
    intro p hp
    obtain ⟨h1, h2, h3⟩ := hl p hp
    show normFracVec _ (halfVec p.2) = _
    rw [normFrac_halves ht0 ht1 (by omega) (by omega) (by omega), mod2_unit (hl p hp)]
  have hz : (l.map Prod.fst).zip ((Structure.getCartCoords (cubicCell c l).lattice (l.map fun p => halfVec p.2)).zip
      (l.map fun p => halfVec p.2)) = l.map fun p => (p.1, (cubicCell c l).lattice * halfVec p.2, halfVec p.2) := by
    unfold Structure.getCartCoords
    rw [List.map_map, List.zip_map', List.zip_map']
    rfl
  have hsort : Structure.sortBySpecies (l.map fun p => (p.1, (cubicCell c l).lattice * halfVec p.2, halfVec p.2)) =
      (l.mergeSort (keyLe Prod.fst)).map fun p => (p.1, (cubicCell c l).lattice * halfVec p.2, halfVec p.2) := by
    unfold Structure.sortBySpecies
    rw [List.map_mergeSort]
    intro a _ b _
    rfl
  unfold Structure.normalizeCoords
  simp only [h1, h2, h3, cubic_tols hc0, hfrac, hz, hsort, List.map_map]
  unfold cubicCell Structure.new
  simp [Structure.getCartCoords, Function.comp_def]

theorem valV_injective : Function.Injective (valV (ρ := ρ)) := by
  intro u v huv
  have hx := congrArg Vec3.x huv
  have hy := congrArg Vec3.y huv
  have hz := congrArg Vec3.z huv
  exact Vec3.ext (RNum.ext hx) (RNum.ext hy) (RNum.ext hz)

theorem valM_injective : Function.Injective (valM (ρ := ρ)) := by
  intro a b hab
  have q := fun f : Mat3 ℝ → ℝ => congrArg f hab
  exact Mat3.ext (RNum.ext (q Mat3.m11)) (RNum.ext (q Mat3.m12)) (RNum.ext (q Mat3.m13)) (RNum.ext (q Mat3.m21)) (RNum.ext (q Mat3.m22))
    (RNum.ext (q Mat3.m23)) (RNum.ext (q Mat3.m31)) (RNum.ext (q Mat3.m32)) (RNum.ext (q Mat3.m33))

theorem valV_half (h : DyadicCube ρ γ κ) {w : Vec3 ℤ} (hw : Fits w) : valV (dyv 512 w : Vec3 (RNum ρ)) = halfVec w := by
  have key : ∀ {a : ℤ}, |a| ≤ 6 → (dy (512 * a) : RNum ρ).val = (a : ℝ) / 2 := by
    intro a ha
    rw [abs_le] at ha
    rw [val_dy h.exact (abs_le.2 (by omega))]
    push_cast
    ring
  exact Vec3.ext (key hw.1) (key hw.2.1) (key hw.2.2)

theorem valV_cart (h : DyadicCube ρ γ κ) {w : Vec3 ℤ} (hw : Fits w) : valV (dyv (1024 * γ) w : Vec3 (RNum ρ)) = cubicVec γ w := by
  have key : ∀ {a : ℤ}, |a| ≤ 6 → (dy (1024 * γ * a) : RNum ρ).val = γ * a := by
    intro a ha
    have := abs_mul_le' h.small.1 ha
    rw [val_dy h.exact (by omega)]
    push_cast
    ring
  exact Vec3.ext (key hw.1) (key hw.2.1) (key hw.2.2)

theorem primZ_fits {e : String} {i : ℕ} {base : Vec3 ℤ} {l : List (String × Vec3 ℤ)} {f g k : Vec3 ℤ} (hp : primZ e i base l = some (f, g, k)) :
    Fits f ∧ Fits g ∧ Fits k := by
  unfold primZ at hp
  obtain ⟨⟨x, y, z⟩, hfirst, hsecond⟩ := Option.bind_eq_some_iff.1 hp
  obtain ⟨mx, my, mz⟩ := shortestZ_mem hfirst
  obtain ⟨m1, m2, m3⟩ := shortestZ_mem hsecond
  have hcb : ∀ k ∈ (candZ e i base l).filter (repeatsZ l), (0 ≤ k.x ∧ k.x ≤ 2) ∧ (0 ≤ k.y ∧ k.y ≤ 2) ∧ (0 ≤ k.z ∧ k.z ≤ 2) :=
    fun k hk => candZ_bound (List.mem_of_mem_filter hk)
  have b := fun w hw => combs_bound (w := w) (hcb x mx) (hcb y my) (hcb z mz) hw
  exact ⟨b _ m1, b _ m2, b _ m3⟩

/-- the sites of a cube, in integers, in both arithmetics. -/
theorem cube_data (h : DyadicCube ρ γ κ) {s : Structure (RNum ρ)} {s' : Structure ℝ} (hv : SameValues s s') (hc : HalfCube (2 * γ) s') :
    ∃ l : List (String × Vec3 ℤ), l ≠ [] ∧ l.length < 65536 ∧ (∀ p ∈ l, UnitCoords p.2) ∧ l.map Prod.fst = s'.species ∧
      l.map Prod.snd = s'.fracCoords.map halfUnits ∧
      (s.lattice = (cubeOf ρ γ l).lattice ∧ s.species = l.map Prod.fst ∧ s.fracCoords = l.map fun p => dyv 512 p.2) ∧
      (s'.lattice = (cubicCell γ l).lattice ∧ s'.species = l.map Prod.fst ∧ s'.fracCoords = l.map fun p => halfVec p.2) := by
  set l := s'.species.zip (s'.fracCoords.map halfUnits) with hldef
  have e1 : l.map Prod.fst = s'.species := List.map_fst_zip (by rw [List.length_map, hc.lists])
  have e2 : l.map Prod.snd = s'.fracCoords.map halfUnits := List.map_snd_zip (by rw [List.length_map, hc.lists])
  have hu : ∀ p ∈ l, UnitCoords p.2 := by
    intro p hp
    have : p.2 ∈ s'.fracCoords.map halfUnits := (List.of_mem_zip hp).2
    obtain ⟨v, -, hv⟩ := List.mem_map.1 this
    rw [← hv]; exact halfUnits_unit v
  have hlen : l.length = s'.species.length := by rw [← e1, List.length_map]
  have f1 : s'.fracCoords = l.map fun p => halfVec p.2 := by
    have : (l.map fun p => halfVec p.2) = (l.map Prod.snd).map halfVec := by rw [List.map_map]; rfl
    rw [this, e2, List.map_map]
    conv_lhs => rw [← List.map_id s'.fracCoords]
    exact List.map_congr_left fun v hv => (halfUnits_halfVec (hc.halves v hv)).symm
  have f2 : s.fracCoords = l.map fun p => dyv 512 p.2 := by
    apply List.map_injective_iff.2 valV_injective
    rw [hv.frac, f1, List.map_map]
    exact List.map_congr_left fun p hp => (valV_half h (unit_fits (hu p hp))).symm
  obtain ⟨s1, -⟩ := h.small
  rw [abs_le] at s1
  have hp := h.pos
  have hval : (dy (2048 * γ) : RNum ρ).val = 2 * γ := by
    rw [val_dy h.exact (abs_le.2 (by omega))]; push_cast; ring
  have g1 : s.lattice = (cubeOf ρ γ l).lattice := by
    apply valM_injective
    rw [hv.lattice, hc.lattice, cubeOf_lattice, valM_rbox, hval]
  refine ⟨l, ?_, by rw [hlen]; exact hc.few, hu, e1, e2, ⟨g1, by rw [hv.species, e1], f2⟩, hc.lattice.trans (cubicCell_lattice _ _).symm, e1.symm, f1⟩
  intro h0
  apply hc.sites
  rw [← e1, h0]
  rfl

/-- the base site in a list that is sorted by the species. -/
theorem base_site {l : List (String × Vec3 ℤ)} (hne : l ≠ []) (hlen : l.length < 65536) :
    ∃ e i base, (∀ e' ∈ l.map Prod.fst, (∀ k ∈ l.map Prod.fst, (l.map Prod.fst).count e' < (l.map Prod.fst).count k ∨
      ((l.map Prod.fst).count e' = (l.map Prod.fst).count k ∧ e' ≤ k)) → e' = e) ∧ (l.map Prod.fst).idxOf e = i ∧ l[i]? = some (e, base) := by
  have hs : (cubicCell 1 l).species = l.map Prod.fst := rfl
  obtain ⟨⟨e, inds, counts⟩, hmin⟩ := (C19_get_min_element_panics_iff (cubicCell 1 l) id (fun _ => List.Perm.refl _)).2 (by
    rw [hs]; simpa using hne)
  obtain ⟨⟨hmem, hleast⟩, -, -⟩ := C19_get_min_element (cubicCell 1 l) id (fun _ => List.Perm.refl _) (by
    unfold Structure.numSites; rw [hs, List.length_map]; exact hlen) e inds counts hmin
  rw [hs] at hmem hleast
  have hi : (l.map Prod.fst).idxOf e < (l.map Prod.fst).length := List.idxOf_lt_length_of_mem hmem
  have hi' : (l.map Prod.fst).idxOf e < l.length := by simpa using hi
  have hget : (l.map Prod.fst)[(l.map Prod.fst).idxOf e] = e := List.getElem_idxOf hi
  rw [List.getElem_map] at hget
  refine ⟨e, _, (l[(l.map Prod.fst).idxOf e]).2, ?_, rfl, ?_⟩
  · intro e' he' hl'
    have a := hl' e hmem
    have b := hleast e' he'
    rcases a with a | ⟨a, a'⟩ <;> rcases b with b | ⟨b, b'⟩
    · omega
    · omega
    · omega
    · exact le_antisymm a' b'
  · rw [List.getElem?_eq_getElem hi']
    congr 1
    exact Prod.ext hget rfl

/-- **C103.** For every rounding with `DyadicCube` (multiples of 1/1024 are exact) and a cube with the edge `2 γ`, a power of two: the search
for the primitive cell in rounded arithmetic returns exactly the lattice that is found in exact arithmetic. -/
theorem C103_same_lattice (h : DyadicCube ρ γ κ) (r : Reducer (RNum ρ)) (r' : Reducer ℝ) (ord ord' : List (String × ℕ) → List (String × ℕ))
    (ho : ∀ l, (ord l).Perm l) (ho' : ∀ l, (ord' l).Perm l) (hd : 0 ≤ r.dtol.val ∧ r.dtol.val ≤ 1 / 4) (hd' : 0 ≤ r'.dtol ∧ r'.dtol ≤ 1 / 4)
    (s : Structure (RNum ρ)) (s' : Structure ℝ) (hv : SameValues s s') (hc : HalfCube (2 * γ) s') :
    ∃ p p', r.findPrimitiveCell ord s = .ret p ∧ r'.findPrimitiveCell ord' s' = .ret p' ∧ valM p.lattice = p'.lattice := by
  obtain ⟨l, hne, hlen, hu, -, -, ⟨a1, a2, a3⟩, b1, b2, b3⟩ := cube_data h hv hc
  obtain ⟨hu', hs⟩ := sort_units l hu
  have hγ : (1 : ℝ) ≤ γ := by exact_mod_cast h.pos
  set m := l.mergeSort (keyLe Prod.fst) with hm
  have hpm : m.Perm l := List.mergeSort_perm _ _
  have hne' : m ≠ [] := fun h0 => hne (by rw [h0] at hpm; exact hpm.symm.eq_nil)
  have hlen' : m.length < 65536 := by rw [hpm.length_eq]; exact hlen
  have x1 := findPrimitiveCell_congr r ord (s := s) (t := cubeOf ρ γ m) a1 (by
    rw [cube_sorted h hu a1 a2 a3 hd.1 hd.2, cube_normalize h hd.1 hd.2 hu' hs])
  have x2 := findPrimitiveCell_congr r' ord' (s := s') (t := cubicCell γ m) b1 (by
    rw [cubic_sorted hγ hu b1 b2 b3 hd'.1 hd'.2, cubic_normalize (by linarith) hd'.1 (by linarith [hd'.2]) hu' hs])
  obtain ⟨e, i, base, he, hi, hb⟩ := base_site hne' hlen'
  obtain ⟨⟨f, g, k⟩, hp⟩ := primZ_some e i base hu'
  obtain ⟨p, hp1, hp2⟩ := cube_primitive h ho hd.1 hd.2 hu' hs hlen' e i base he hi hb hp
  obtain ⟨p', hp1', hp2'⟩ := cubic_search hγ ho' hd'.1 hd'.2 hu' hs hlen' e i base he hi hb hp
  obtain ⟨q1, q2, q3⟩ := primZ_fits hp
  refine ⟨p, p', x1.trans hp1, x2.trans hp1', ?_⟩
  rw [hp2, hp2', ← valV_cart h q1, ← valV_cart h q2, ← valV_cart h q3]
  rfl

end

/-- **C103 (binary64).** For a cube whose edge is 2, 4, 8, 16, 32 or 64, with any elements at coordinates 0 and 1/2 in any order, the
search for the primitive cell in double arithmetic returns a lattice. It is exactly the lattice that is found in exact arithmetic, for
all tolerances up to 1/4 in either run. -/
theorem C103_double (r : Reducer (RNum binary64)) (r' : Reducer ℝ) (ord ord' : List (String × ℕ) → List (String × ℕ))
    (ho : ∀ l, (ord l).Perm l) (ho' : ∀ l, (ord' l).Perm l) (hd : 0 ≤ r.dtol.val ∧ r.dtol.val ≤ 1 / 4) (hd' : 0 ≤ r'.dtol ∧ r'.dtol ≤ 1 / 4)
    (k : ℕ) (hk : 1 ≤ k ∧ k ≤ 6) (s : Structure (RNum binary64)) (s' : Structure ℝ) (hv : SameValues s s') (hc : HalfCube (2 ^ k) s') :
    ∃ p p', r.findPrimitiveCell ord s = .ret p ∧ r'.findPrimitiveCell ord' s' = .ret p' ∧ valM p.lattice = p'.lattice := by
  refine C103_same_lattice (dyadicCube64 hk.1 hk.2) r r' ord ord' ho ho' hd hd' s s' hv ?_
  have : (2 : ℝ) * ((2 ^ (k - 1) : ℤ) : ℝ) = 2 ^ k := by
    push_cast
    rw [← pow_succ', Nat.sub_add_cancel hk.1]
  rw [this]
  exact hc

end CrystSymm
