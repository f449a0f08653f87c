import Verif.Props.Panics
import Verif.Proofs.RoundedHolo
import Verif.Proofs.RoundedApply

set_option autoImplicit false
set_option linter.unusedSectionVars false

/-! # C99: the panics of the public functions -/

namespace CrystSymm

open Spec Reducer SymmetryAnalyzer

section
variable {K : Type} [Add K] [Sub K] [Mul K] [Div K] [Neg K] [Zero K] [One K] [IntCast K]
  [LT K] [LE K] [DecidableLT K] [DecidableLE K] [BEq K] [FRound K] [FTrans K]

/-- **C99.** The complete list of panics, in any arithmetic that can handle the matrices of the tables, for any structure with
atoms, any tolerances and any iteration orders of the hash maps. No look-up in a table, no decoding of an entry, no parsing of an enum and no
access to the lists of atoms ever fails. -/
theorem C99_panics (ht : TablesUsable K) (r : Reducer K) (sa : SymmetryAnalyzer K) (h : HashOrders K) (hv : h.Valid) (fuel : ℕ)
    (s : Structure K) (hs : Furnished s) (tol : K) (full : Bool) :
    PanicsOnly (r.findPrimitiveCell h.minEle s) ["index out of bounds", "range start index out of range"] ∧
    PanicsOnly (r.niggliReduce s tol) ["Could not find Niggli reduced structure!"] ∧
    PanicsOnly (r.delaunayReduce s full) ["Reached max number of iterations without reduction!"] ∧
    PanicsOnly (sa.getStandardConventionalStructure h fuel s) ["index out of bounds", "range start index out of range",
      "Could not find Niggli reduced structure!", "Cannot find lattice character of input structure!"] ∧
    PanicsOnly (sa.getStandardPrimitiveStructure h fuel s) ["index out of bounds", "range start index out of range",
      "Could not find Niggli reduced structure!", "Cannot find lattice character of input structure!"] ∧
    PanicsOnly (sa.getSpaceGroupInfo h fuel s) ["index out of bounds", "range start index out of range",
      "Could not find Niggli reduced structure!", "Cannot find lattice character of input structure!",
      "Could not find candidate group with the provided number of operations!", "Cannot identify spacegroup from operations!",
      "Transformation matrix is not invertible!"] := by
  have p : ∀ r : Reducer K, PanicsOnly (r.findPrimitiveCell h.minEle s) ["index out of bounds", "range start index out of range"] :=
    fun r => primitive_panics r hv.minEle hs fun _ _ _ => shortest_panics _ _
  exact ⟨p r, niggli_panics r s tol, delaunay_panics r s full, conventional_structure_panics ht (p _), primitive_structure_panics ht (p _),
    info_panics ht hv hs (p _)⟩

/-- **C99 (primitive cell).** `find_primitive_cell` panics only when it accepts fewer than three translations, so that it has nothing to
choose from. -/
theorem C99_primitive_cell (r : Reducer K) (ord : List (String × ℕ) → List (String × ℕ)) (ho : ∀ l, (ord l).Perm l) (s : Structure K)
    (hs : Furnished s) (m : String) (h : r.findPrimitiveCell ord s = .panic m) :
    ∃ e i v, (acceptedTranslations r s e i v).length < 3 := by
  by_contra hn
  simp only [not_exists, not_lt] at hn
  have := primitive_panics (ms := []) r ho hs fun e i v => shortest_safe r.dtol (by
    rw [Structure.getCartCoords, List.length_map]
    exact hn e i v)
  exact absurd (this m h) (by simp)

/-- **C99 (no atoms).** Without atoms, `find_primitive_cell` and with it everything built on it panics on an `unwrap`. -/
theorem C99_no_atoms (r : Reducer K) (sa : SymmetryAnalyzer K) (h : HashOrders K) (hv : h.Valid) (fuel : ℕ) (s : Structure K)
    (hs : s.species = []) :
    r.findPrimitiveCell h.minEle s = .panic "called `Option::unwrap()` on a `None` value" ∧
    sa.getStandardConventionalStructure h fuel s = .panic "called `Option::unwrap()` on a `None` value" ∧
    sa.getStandardPrimitiveStructure h fuel s = .panic "called `Option::unwrap()` on a `None` value" ∧
    sa.getSpaceGroupInfo h fuel s = .panic "called `Option::unwrap()` on a `None` value" := by
  have key : ∀ r : Reducer K, r.findPrimitiveCell h.minEle s = .panic "called `Option::unwrap()` on a `None` value" := by
    intro r
    have e : (s.normalizeCoords r.dtol).species = [] := by
      simp [Structure.normalizeCoords, Structure.sortBySpecies, hs]
    have hm : (s.normalizeCoords r.dtol).getMinElement h.minEle = .panic "called `Option::unwrap()` on a `None` value" := by
      have h0 : h.minEle [] = [] := List.perm_nil.1 (hv.minEle [])
      unfold Structure.getMinElement
      rw [e]
      have : Structure.typeCount [] = [] := rfl
      simp only [this, h0, List.mergeSort_nil]
      rfl
    unfold findPrimitiveCell
    simp only
    rw [hm]
    rfl
  refine ⟨key r, ?_, ?_, ?_⟩
  · unfold getStandardConventionalStructure; rw [key]; rfl
  · unfold getStandardPrimitiveStructure; rw [key]; rfl
  · unfold getSpaceGroupInfo; rw [key]; rfl

end

/-! ## exact arithmetic -/

theorem halts_bind {α β : Type} {o : Outcome α} {f : α → Outcome β} (ho : o ≠ .running) (hf : ∀ a, f a ≠ .running) : o.bind f ≠ .running := by
  cases o with
  | ret a => exact hf a
  | panic m => exact fun h => by cases h
  | running => exact absurd rfl ho

theorem halts_option {α : Type} {o : Option α} {m : String} : Outcome.ofOption m o ≠ .running := by
  cases o <;> exact fun h => by cases h

theorem shortest_halts (d : ℝ) (l : List (Vec3 ℝ)) : getShortestTranslationVecs d l ≠ .running := by
  unfold getShortestTranslationVecs
  refine halts_bind halts_option fun _ => ?_
  simp only
  split_ifs
  · exact fun h => by cases h
  · exact halts_bind halts_option fun _ => halts_bind halts_option fun _ h => by cases h

theorem primitive_halts (r : Reducer ℝ) (ord : List (String × ℕ) → List (String × ℕ)) (s : Structure ℝ) :
    r.findPrimitiveCell ord s ≠ .running := by
  unfold findPrimitiveCell
  refine halts_bind (halts_bind halts_option fun _ h => by cases h) fun _ => halts_bind halts_option fun _ => halts_bind halts_option fun _ => ?_
  exact halts_bind (shortest_halts _ _) fun _ => halts_bind (shortest_halts _ _) fun _ h => by cases h

theorem convDet_ne : ∀ p ∈ latticeCharToConvTrans, (intRot p.2).det ≠ 0 ∧ (intRot p.2).toListCM.all (fun e => decide (|e| ≤ 4)) = true := by
  decide +kernel

theorem castRot_det (m : Mat3 Int8) : (Mat3.transpose (castRot m) : Mat3 ℝ).det = ((intRot m).det : ℝ) := by
  simp only [castRot, intRot, Mat3.det, Mat3.transpose, Mat3.map]
  push_cast
  ring

theorem primDet {p : Centering × Mat3 ℤ × ℤ} (h : p ∈ centeringToPrimTrans) : 1 / 4 ≤ |(primMatrix p.2 : Mat3 ℝ).det| := by
  have hm := List.all_eq_true.1 primEntries_all p h
  have hδ : Accurate ⟨id, fun _ _ h => h, fun _ => rfl, fun _ => rfl, rfl, fun _ _ => rfl⟩ 0 := fun x _ => by simp
  exact (clM_prim hδ (by norm_num) hm).2

theorem usable_real {t : Mat3 ℝ} (h : 1 / 4 ≤ |t.det|) : Usable t := by
  refine ⟨?_, fun n hn => ?_⟩
  · rw [beq_eq_false_iff_ne]
    intro e
    rw [e, abs_zero] at h
    norm_num at h
  · have := abs_volumeRatio_sub_le t
    rw [abs_le] at this
    unfold Structure.quotLt
    rw [if_neg hn]
    refine decide_eq_true ?_
    have e : ((lit ((0 : ℕ) : ℤ) : ℝ)) = 0 := by simp [lit]
    rw [e, zero_div]
    linarith [this.1]

/-- exact arithmetic handles the tables. -/
theorem C99_tables_exact : TablesUsable ℝ := by
  refine ⟨fun p hp => usable_real ?_, fun p hp => usable_real (primDet hp)⟩
  rw [castRot_det]
  have : (1 : ℝ) ≤ |((intRot p.2).det : ℝ)| := by exact_mod_cast Int.one_le_abs (convDet_ne p hp).1
  linarith

theorem tols_range {L : Mat3 ℝ} {d : ℝ} (h0 : 0 ≤ d) (ha : 0 < L.col0.mag ∧ d ≤ L.col0.mag) (hb : 0 < L.col1.mag ∧ d ≤ L.col1.mag)
    (hc : 0 < L.col2.mag ∧ d ≤ L.col2.mag) : let t := Structure.fracTols L d
    (0 ≤ t.x ∧ t.x ≤ 1) ∧ (0 ≤ t.y ∧ t.y ≤ 1) ∧ (0 ≤ t.z ∧ t.z ≤ 1) := by
  have key : ∀ x : ℝ, 0 < x ∧ d ≤ x → 0 ≤ d / x ∧ d / x ≤ 1 := fun x hx =>
    ⟨div_nonneg h0 hx.1.le, (div_le_one hx.1).2 hx.2⟩
  exact ⟨key _ ha, key _ hb, key _ hc⟩

theorem units_accepted {L : Mat3 ℝ} {d : ℝ} {tols : Vec3 ℝ} (h0 : 0 ≤ d) (hx : 0 ≤ tols.x ∧ tols.x ≤ 1) (hy : 0 ≤ tols.y ∧ tols.y ≤ 1)
    (hz : 0 ≤ tols.z ∧ tols.z ≤ 1) (sites : List (Vec3 ℝ × String)) {v : Vec3 ℝ} (hv : v ∈ (unitVecs : List (Vec3 ℝ))) :
    isTranslation L tols d sites v = true := by
  unfold isTranslation
  rw [List.all_eq_true]
  intro p hp
  rw [List.any_eq_true]
  refine ⟨p, hp, ?_⟩
  rw [Bool.and_eq_true, decide_eq_true_eq]
  refine ⟨rfl, ?_⟩
  have hi : IntVec (p.1 + v - p.1) := by
    have e : p.1 + v - p.1 = v := by ext <;> simp
    rw [e]
    unfold unitVecs at hv
    simp only [List.mem_cons, List.not_mem_nil, or_false] at hv
    rcases hv with rfl | rfl | rfl
    exacts [⟨1, 0, 0, by simp⟩, ⟨0, 1, 0, by simp⟩, ⟨0, 0, 1, by simp⟩]
  unfold Structure.sitesCoincide
  simp only
  rw [normFracVec_intVec hx hy hz hi, decide_eq_true_eq]
  have e : Vec3.mag (L * (0 : Vec3 ℝ)) = 0 := by
    have : L * (0 : Vec3 ℝ) = 0 := by ext <;> simp
    rw [this]
    show √(lenSq (0 : Vec3 ℝ)) = 0
    simp [lenSq]
  rw [e]
  show |(0 : ℝ)| ≤ d * ((2 : ℤ) : ℝ)
  rw [abs_zero]
  push_cast
  linarith

/-- **C99 (exact arithmetic).** With exact arithmetic and a tolerance that is not negative and at most as long as the edges,
`find_primitive_cell` never panics, and neither do the other functions for want of a translation. -/
theorem C99_exact (r : Reducer ℝ) (h : HashOrders ℝ) (hv : h.Valid) (fuel : ℕ) (s : Structure ℝ) (hs : Furnished s)
    (h0 : 0 ≤ r.dtol) (ha : 0 < s.a ∧ r.dtol ≤ s.a) (hb : 0 < s.b ∧ r.dtol ≤ s.b) (hc : 0 < s.c ∧ r.dtol ≤ s.c) :
    (∃ s', r.findPrimitiveCell h.minEle s = .ret s') ∧
    PanicsOnly ((⟨r.dtol, r.atol⟩ : SymmetryAnalyzer ℝ).getStandardConventionalStructure h fuel s)
      ["Could not find Niggli reduced structure!", "Cannot find lattice character of input structure!"] ∧
    PanicsOnly ((⟨r.dtol, r.atol⟩ : SymmetryAnalyzer ℝ).getStandardPrimitiveStructure h fuel s)
      ["Could not find Niggli reduced structure!", "Cannot find lattice character of input structure!"] ∧
    PanicsOnly ((⟨r.dtol, r.atol⟩ : SymmetryAnalyzer ℝ).getSpaceGroupInfo h fuel s)
      ["Could not find Niggli reduced structure!", "Cannot find lattice character of input structure!",
      "Could not find candidate group with the provided number of operations!", "Cannot identify spacegroup from operations!",
      "Transformation matrix is not invertible!"] := by
  obtain ⟨hx, hy, hz⟩ := tols_range (L := s.lattice) h0 ha hb hc
  have p : PanicsOnly (r.findPrimitiveCell h.minEle s) [] := by
    intro m hm
    obtain ⟨e, i, v, hlt⟩ := C99_primitive_cell r h.minEle hv.minEle s hs m hm
    exfalso
    unfold acceptedTranslations candidateVecs at hlt
    rw [List.filter_append, List.length_append, List.filter_eq_self.2 fun v hv => units_accepted h0 hx hy hz _ hv] at hlt
    have : (unitVecs : List (Vec3 ℝ)).length = 3 := rfl
    omega
  refine ⟨?_, conventional_structure_panics (sa := ⟨r.dtol, r.atol⟩) C99_tables_exact p,
    primitive_structure_panics (sa := ⟨r.dtol, r.atol⟩) C99_tables_exact p, info_panics (sa := ⟨r.dtol, r.atol⟩) C99_tables_exact hv hs p⟩
  cases hr : r.findPrimitiveCell h.minEle s with
  | ret s' => exact ⟨s', rfl⟩
  | panic m => exact absurd (p m hr) (by simp)
  | running => exact absurd hr (primitive_halts _ _ _)

/-! ## rounded arithmetic -/

section
variable {ρ : Rounding} {δ : ℝ}

theorem clM_det (hδ : Accurate ρ δ) (h9 : δ ≤ 1 / 10 ^ 9) {m : Mat3 (RNum ρ)} {n : Mat3 ℝ} (h : ClM δ 7 4 m n) :
    Cl δ 3000 384 m.det n.det := by
  have hd0 := accurate_nonneg hδ
  obtain ⟨h1, h2, h3, h4, h5, h6, h7, h8, h9'⟩ := h
  have M : ∀ {x x' z z' : RNum ρ} {y y' w w' : ℝ}, Cl δ 7 4 x y → Cl δ 7 4 x' y' → Cl δ 7 4 z w → Cl δ 7 4 z' w' →
      Cl δ 129 32 (x * x' - z * z') (y * y' - w * w') := by
    intro x x' z z' y y' w w' a b c d
    have p1 := cl_mul hδ h9 a b (by norm_num) (by norm_num) (by norm_num) (by norm_num) (by norm_num) (by norm_num)
    have p2 := cl_mul hδ h9 c d (by norm_num) (by norm_num) (by norm_num) (by norm_num) (by norm_num) (by norm_num)
    exact (cl_sub hδ h9 p1 p2 (by norm_num) (by norm_num)).mono hd0 (by norm_num) (by norm_num)
  have T : ∀ {x z : RNum ρ} {y w : ℝ}, Cl δ 7 4 x y → Cl δ 129 32 z w → Cl δ 800 128 (x * z) (y * w) := by
    intro x z y w a b
    exact (cl_mul hδ h9 a b (by norm_num) (by norm_num) (by norm_num) (by norm_num) (by norm_num)
      (by norm_num)).mono hd0 (by norm_num) (by norm_num)
  have t1 := T h1 (M h5 h9' h8 h6)
  have t2 := T h2 (M h4 h9' h7 h6)
  have t3 := T h3 (M h4 h8 h7 h5)
  exact (cl_add hδ h9 (cl_sub hδ h9 t1 t2 (by norm_num) (by norm_num)) t3 (by norm_num) (by norm_num)).mono hd0
    (by norm_num) (by norm_num)

theorem usable_rounded (hδ : Accurate ρ δ) (h9 : δ ≤ 1 / 10 ^ 9) {m : Mat3 (RNum ρ)} {n : Mat3 ℝ} (h : ClM δ 7 4 m n)
    (hn : 1 / 4 ≤ |n.det|) : Usable m := by
  have hd0 := accurate_nonneg hδ
  have hc := (clM_det hδ h9 h).1
  have hdet : 1 / 5 ≤ |m.det.val| := by
    have h1 : |n.det| ≤ |m.det.val| + |m.det.val - n.det| := by
      have := abs_sub_abs_le_abs_sub n.det m.det.val
      rw [abs_sub_comm] at this
      linarith
    nlinarith
  refine ⟨?_, fun k hk => ?_⟩
  · show decide (m.det.val = (0 : RNum ρ).val) = false
    rw [decide_eq_false_iff_not, RNum.val_zero]
    intro e
    rw [e, abs_zero] at hdet
    norm_num at hdet
  · have h100 := hδ ((100 : ℤ) : ℝ) (by norm_num)
    rw [abs_le] at h100
    push_cast at h100
    have hfa : 1 / 6 ≤ ρ.fl |m.det.val| := by
      have h1 := ρ.mono _ _ hdet
      have h2 := hδ (1 / 5) (by rw [abs_of_pos] <;> norm_num)
      rw [abs_le] at h2
      linarith [h2.1]
    have hprod : 1 ≤ ρ.fl (ρ.fl |m.det.val| * ρ.fl 100) := by
      have : (1 : ℝ) ≤ ρ.fl |m.det.val| * ρ.fl 100 := by nlinarith [h100.1]
      exact ρ.one ▸ ρ.mono _ _ this
    have hround : 1 ≤ ρ.fl (FRound.round (ρ.fl (ρ.fl |m.det.val| * ρ.fl 100)) : ℝ) := by
      rw [← ρ.one]
      apply ρ.mono
      generalize ρ.fl (ρ.fl |m.det.val| * ρ.fl 100) = x at hprod
      show (1 : ℝ) ≤ ((roundZ x : ℤ) : ℝ)
      have : (1 : ℤ) ≤ roundZ x := by
        unfold roundZ
        rw [if_pos (by linarith), Int.le_floor]
        push_cast
        linarith
      exact_mod_cast this
    have hq : 0 < ρ.fl (ρ.fl (FRound.round (ρ.fl (ρ.fl |m.det.val| * ρ.fl 100)) : ℝ) / ρ.fl 100) := by
      have h1 : (1 : ℝ) / 101 ≤ ρ.fl (FRound.round (ρ.fl (ρ.fl |m.det.val| * ρ.fl 100)) : ℝ) / ρ.fl 100 := by
        apply div_le_div₀ (by linarith) hround (by linarith [h100.1]) (by linarith [h100.2])
      have h2 := hδ (1 / 101) (by rw [abs_of_pos] <;> norm_num)
      rw [abs_le] at h2
      have := ρ.mono _ _ h1
      linarith [h2.1]
    unfold Structure.quotLt
    rw [if_neg hk]
    refine decide_eq_true ?_
    have e : (lit ((0 : ℕ) : ℤ) : RNum ρ) = 0 := RNum.lit_zero
    rw [e, RNum.zero_div', RNum.lt_def', RNum.val_zero]
    have ev : (Structure.volumeRatio m : RNum ρ).val =
        ρ.fl (ρ.fl (FRound.round (ρ.fl (ρ.fl |m.det.val| * ρ.fl ((100 : ℤ) : ℝ))) : ℝ) / ρ.fl ((100 : ℤ) : ℝ)) := rfl
    rw [ev]
    push_cast
    exact hq

/-- **C99 (rounded arithmetic).** Arithmetic that rounds with an error of at most `10⁻⁹` up to 1024, double precision for one, handles the tables, so the
list of panics is complete for it too. -/
theorem C99_tables_rounded (hδ : Accurate ρ δ) (h9 : δ ≤ 1 / 10 ^ 9) : TablesUsable (RNum ρ) := by
  have hd0 := accurate_nonneg hδ
  refine ⟨fun p hp => ?_, fun p hp => ?_⟩
  · obtain ⟨hne, hle⟩ := convDet_ne p hp
    rw [List.all_eq_true] at hle
    have he : ∀ e ∈ (intRot p.2).toListCM, Cl δ 7 4 ((e : ℤ) : RNum ρ) (e : ℝ) := by
      intro e hm
      have := of_decide_eq_true (hle e hm)
      refine (cl_int hδ (B := 4) ?_ (by norm_num)).mono hd0 (by norm_num) le_rfl
      exact_mod_cast this
    refine usable_rounded hδ h9 (n := Mat3.transpose (castRot p.2)) ?_ ?_
    · simp only [Mat3.toListCM, List.mem_cons, List.not_mem_nil, or_false, forall_eq_or_imp, forall_eq] at he
      obtain ⟨e1, e2, e3, e4, e5, e6, e7, e8, e9⟩ := he
      exact ⟨e1, e2, e3, e4, e5, e6, e7, e8, e9⟩
    · rw [castRot_det]
      have : (1 : ℝ) ≤ |((intRot p.2).det : ℝ)| := by exact_mod_cast Int.one_le_abs hne
      linarith
  · obtain ⟨h1, h2⟩ := clM_prim hδ h9 (List.all_eq_true.1 primEntries_all p hp)
    have w : ∀ {x : RNum ρ} {y : ℝ}, Cl δ 7 1 x y → Cl δ 7 4 x y := fun h => h.mono hd0 le_rfl (by norm_num)
    obtain ⟨e1, e2, e3, e4, e5, e6, e7, e8, e9⟩ := h1
    exact usable_rounded hδ h9 ⟨w e1, w e2, w e3, w e4, w e5, w e6, w e7, w e8, w e9⟩ h2

end

/-- **C99 (double precision).** -/
theorem C99_binary64 (sa : SymmetryAnalyzer (RNum binary64)) (h : HashOrders (RNum binary64)) (hv : h.Valid) (fuel : ℕ)
    (s : Structure (RNum binary64)) (hs : Furnished s) (m : String) (hm : sa.getSpaceGroupInfo h fuel s = .panic m) :
    m ∈ ["index out of bounds", "range start index out of range",
      "Could not find Niggli reduced structure!", "Cannot find lattice character of input structure!",
      "Could not find candidate group with the provided number of operations!", "Cannot identify spacegroup from operations!",
      "Transformation matrix is not invertible!"] :=
  (C99_panics (C99_tables_rounded accurate_binary64 (by norm_num)) sa.reducer sa h hv fuel s hs 0 false).2.2.2.2.2 m hm

theorem accepted_negative {r : Reducer ℝ} {s : Structure ℝ} (hs : Furnished s) (hneg : r.dtol < 0) {e : String} {i : ℕ} {v : Vec3 ℝ} :
    acceptedTranslations r s e i v = [] := by
  unfold acceptedTranslations
  rw [List.filter_eq_nil_iff]
  intro w _ ht
  obtain ⟨t0, t1, -⟩ := furnished_normalize r.dtol hs.1 hs.2.1
  unfold isTranslation at ht
  rw [List.all_eq_true] at ht
  have hne : (s.normalizeCoords r.dtol).fracCoords.zip (s.normalizeCoords r.dtol).species ≠ [] := by
    intro h
    have hl := congrArg List.length h
    have h1 := List.length_pos_iff.2 t0
    rw [List.length_zip] at hl
    simp only [List.length_nil] at hl
    omega
  obtain ⟨p, hp⟩ := List.exists_mem_of_ne_nil _ hne
  have := ht p hp
  rw [List.any_eq_true] at this
  obtain ⟨q, _, hq⟩ := this
  rw [Bool.and_eq_true] at hq
  have h2 := hq.2
  unfold Structure.sitesCoincide at h2
  simp only at h2
  rw [decide_eq_true_eq] at h2
  have h3 : (0 : ℝ) ≤ r.dtol * ((2 : ℤ) : ℝ) := le_trans (abs_nonneg _) h2
  push_cast at h3
  linarith

theorem shortest_nil (d : ℝ) (L : Mat3 ℝ) :
    getShortestTranslationVecs d (Structure.getCartCoords L []) = .panic "index out of bounds" := by
  unfold getShortestTranslationVecs
  simp [Structure.getCartCoords, sortByMag, Outcome.ofOption, Outcome.bind]

/-- **C99 (the list is exact for a negative tolerance).** With a negative tolerance no translation is accepted, not even an edge, and
`find_primitive_cell` panics for every structure with atoms. -/
theorem C99_negative (r : Reducer ℝ) (ord : List (String × ℕ) → List (String × ℕ)) (ho : ∀ l, (ord l).Perm l) (s : Structure ℝ)
    (hs : Furnished s) (hneg : r.dtol < 0) : r.findPrimitiveCell ord s = .panic "index out of bounds" := by
  have key : ∀ m, r.findPrimitiveCell ord s = .panic m → m = "index out of bounds" := by
    have hp : PanicsOnly (r.findPrimitiveCell ord s) ["index out of bounds"] := by
      refine primitive_panics r ho hs fun e i v => ?_
      rw [accepted_negative hs hneg, shortest_nil]
      intro m hm
      cases hm
      simp
    intro m hm
    exact List.mem_singleton.1 (hp m hm)
  cases hr : r.findPrimitiveCell ord s with
  | panic m => rw [key m hr]
  | running => exact absurd hr (primitive_halts _ _ _)
  | ret s' =>
    exfalso
    revert hr
    unfold findPrimitiveCell
    simp only
    cases (s.normalizeCoords r.dtol).getMinElement ord with
    | panic m => exact fun h => by cases h
    | running => exact fun h => by cases h
    | ret q =>
      obtain ⟨e, inds, counts⟩ := q
      simp only [Outcome.bind]
      cases amapGet? inds e with
      | none => exact fun h => by cases h
      | some i =>
        simp only [Outcome.ofOption]
        cases (s.normalizeCoords r.dtol).fracCoords[i]? with
        | none => exact fun h => by cases h
        | some v =>
          have := accepted_negative (e := e) (i := i) (v := v) hs hneg
          unfold acceptedTranslations at this
          have hl : (s.normalizeCoords r.dtol).lattice = s.lattice := rfl
          simp only [hl, this, shortest_nil]
          exact fun h => by cases h

/-- a cube with one atom. -/
noncomputable def oneAtomCube : Structure ℝ := ⟨1, ["Po"], [0], [0]⟩

theorem oneAtomCube_furnished : Furnished oneAtomCube := ⟨by simp [oneAtomCube], rfl, rfl⟩

/-- with a negative tolerance not even the edges are accepted as translations and the first of the messages appears; with the default
tolerance there is no panic. -/
example (h : HashOrders ℝ) (hv : h.Valid) :
    (⟨-1, 5⟩ : Reducer ℝ).findPrimitiveCell h.minEle oneAtomCube = .panic "index out of bounds" ∧
    ∃ s', (⟨1 / 20, 5⟩ : Reducer ℝ).findPrimitiveCell h.minEle oneAtomCube = .ret s' := by
  refine ⟨C99_negative _ _ hv.minEle _ oneAtomCube_furnished (by norm_num), ?_⟩
  have ea : oneAtomCube.a = 1 := by
    show √(lenSq _) = 1
    simp [oneAtomCube, lenSq, Mat3.col0]
  have eb : oneAtomCube.b = 1 := by
    show √(lenSq _) = 1
    simp [oneAtomCube, lenSq, Mat3.col1]
  have ec : oneAtomCube.c = 1 := by
    show √(lenSq _) = 1
    simp [oneAtomCube, lenSq, Mat3.col2]
  exact (C99_exact ⟨1 / 20, 5⟩ h hv 0 oneAtomCube oneAtomCube_furnished (by norm_num) (by rw [ea]; norm_num) (by rw [eb]; norm_num)
    (by rw [ec]; norm_num)).1

/-- a structure without atoms is rejected at once. -/
example (r : Reducer ℝ) (h : HashOrders ℝ) (hv : h.Valid) :
    r.findPrimitiveCell h.minEle ⟨1, [], [], []⟩ = .panic "called `Option::unwrap()` on a `None` value" :=
  (C99_no_atoms r ⟨r.dtol, r.atol⟩ h hv 0 _ rfl).1

end CrystSymm
