import Verif.Props.SpaceGroupTables
import Verif.Props.PointGroup
import Verif.Props.Species
import Verif.Props.Structure
import Verif.Proofs.Search
import Verif.Proofs.Primitive
import Verif.Proofs.OpSearch

set_option autoImplicit false
set_option linter.unusedSectionVars false

/-! # C99: the complete list of panics -/

namespace CrystSymm

open Spec Reducer SymmetryAnalyzer

/-- a panic, if there is one, carries one of the messages `ms`. -/
def Spec.PanicsOnly {α : Type} (o : Outcome α) (ms : List String) : Prop := ∀ m, o = .panic m → m ∈ ms

section
variable {α β : Type}

theorem panics_ret {a : α} {ms : List String} : PanicsOnly (.ret a) ms := by
  intro m h; cases h

theorem panics_bind {o : Outcome α} {f : α → Outcome β} {ms : List String} (ho : PanicsOnly o ms)
    (hf : ∀ a, o = .ret a → PanicsOnly (f a) ms) : PanicsOnly (o.bind f) ms := by
  intro m h
  cases o with
  | ret a => exact hf a rfl m h
  | panic m' => cases h; exact ho _ rfl
  | running => cases h

theorem panics_some {o : Option α} {s : String} {ms : List String} (h : o.isSome = true) : PanicsOnly (Outcome.ofOption s o) ms := by
  obtain ⟨a, rfl⟩ := Option.isSome_iff_exists.1 h
  exact panics_ret

theorem panics_option {o : Option α} {s : String} {ms : List String} (h : s ∈ ms) : PanicsOnly (Outcome.ofOption s o) ms := by
  intro m e
  cases o with
  | none => cases e; exact h
  | some a => cases e

theorem panics_mono {o : Outcome α} {ms ms' : List String} (h : PanicsOnly o ms) (hs : ∀ m ∈ ms, m ∈ ms') : PanicsOnly o ms' :=
  fun m e => hs m (h m e)

theorem panics_map {f : α → Outcome β} {ms : List String} {l : List α} (h : ∀ a ∈ l, PanicsOnly (f a) ms) :
    PanicsOnly (mapOutcome f l) ms := by
  induction l with
  | nil => exact panics_ret
  | cons a l ih =>
    rw [mapOutcome]
    exact panics_bind (h a (by simp)) fun _ _ => panics_bind (ih fun b hb => h b (by simp [hb])) fun _ _ => panics_ret

theorem ofOption_ret {o : Option α} {s : String} {a : α} (h : Outcome.ofOption s o = .ret a) : o = some a := by
  cases o with
  | none => cases h
  | some b => cases h; rfl

end

section
variable {K : Type} [Add K] [Sub K] [Mul K] [Div K] [Neg K] [Zero K] [One K] [IntCast K]
  [LT K] [LE K] [DecidableLT K] [DecidableLE K] [BEq K] [FRound K] [FTrans K]

/-! ## the shortest translations -/

theorem secondScan_inRange (d : K) (e : Vec3 K) (l : List (Vec3 K)) (i : ℕ) (c : Vec3 K) :
    (secondScan d e l i c).1 ≤ i + l.length ∨ (secondScan d e l i c).1 = 1 := by
  induction l generalizing i c with
  | nil => right; rfl
  | cons v l ih =>
    rw [secondScan]
    split_ifs
    · left; simp only [List.length_cons]; omega
    · rcases ih (i + 1) (e.cross v) with h | h
      · left; simp only [List.length_cons]; omega
      · right; exact h

theorem thirdScan_inRange (d : K) (c : Vec3 K) (k : ℕ) (l : List (Vec3 K)) (i : ℕ) :
    thirdScan d c k l i ≤ i + l.length + k ∨ thirdScan d c k l i = 2 := by
  induction l generalizing i with
  | nil => right; rfl
  | cons v l ih =>
    rw [thirdScan]
    split_ifs
    · left; simp only [List.length_cons]; omega
    · rcases ih (i + 1) with h | h
      · left; simp only [List.length_cons]; omega
      · right; exact h

theorem shortest_safe (d : K) {l : List (Vec3 K)} (h : 3 ≤ l.length) : PanicsOnly (getShortestTranslationVecs d l) [] := by
  have hs : (sortByMag l).length = l.length := (List.mergeSort_perm _ _).length_eq
  unfold getShortestTranslationVecs
  simp only
  generalize sortByMag l = s at hs ⊢
  refine panics_bind (panics_some (by rw [List.getElem?_eq_getElem (by omega)]; rfl)) fun first _ => ?_
  have h2 := secondScan_inRange d first (s.drop 1) 0 0
  rw [List.length_drop] at h2
  generalize secondScan d first (s.drop 1) 0 0 = sec at h2 ⊢
  have hk : sec.1 < s.length := by omega
  rw [if_neg (by omega)]
  have h3 := thirdScan_inRange d sec.2 sec.1 (s.drop (sec.1 + 1)) 0
  rw [List.length_drop] at h3
  generalize thirdScan d sec.2 sec.1 (s.drop (sec.1 + 1)) 0 = t at h3 ⊢
  have ht : t < s.length := by omega
  refine panics_bind (panics_some (by rw [List.getElem?_eq_getElem hk]; rfl)) fun _ _ => ?_
  exact panics_bind (panics_some (by rw [List.getElem?_eq_getElem ht]; rfl)) fun _ _ => panics_ret

theorem shortest_panics (d : K) (l : List (Vec3 K)) :
    PanicsOnly (getShortestTranslationVecs d l) ["index out of bounds", "range start index out of range"] := by
  unfold getShortestTranslationVecs
  simp only
  refine panics_bind (panics_option (by simp)) fun first _ => ?_
  split_ifs
  · intro m h; cases h; simp
  · exact panics_bind (panics_option (by simp)) fun _ _ => panics_bind (panics_option (by simp)) fun _ _ => panics_ret

theorem combinations_enough (m : Mat3 K) : 3 ≤ (combinationVecs m).length := by
  unfold combinationVecs baseCombVecs
  simp only [List.flatMap_cons, List.length_append, List.length_cons, List.length_nil]
  omega

/-! ## lists of atoms -/

/-- there are atoms, and as many names as positions. -/
def Spec.Furnished (s : Structure K) : Prop :=
  s.species ≠ [] ∧ s.species.length = s.fracCoords.length ∧ s.coords.length = s.fracCoords.length

theorem furnished_normalize {s : Structure K} (d : K) (h0 : s.species ≠ []) (h1 : s.species.length = s.fracCoords.length) :
    Furnished (s.normalizeCoords d) := by
  have hl : (Structure.sortBySpecies (s.species.zip ((Structure.getCartCoords s.lattice
      (normalizeFracVectors s.fracCoords (Structure.fracTols s.lattice d))).zip
      (normalizeFracVectors s.fracCoords (Structure.fracTols s.lattice d))))).length = s.species.length := by
    unfold Structure.sortBySpecies
    rw [(List.mergeSort_perm _ _).length_eq]
    simp [Structure.getCartCoords, normalizeFracVectors, h1]
  refine ⟨fun e => h0 ?_, ?_, ?_⟩
  · have := congrArg List.length e
    rw [← List.length_eq_zero_iff, ← hl]
    simpa [Structure.normalizeCoords] using this
  · simp [Structure.normalizeCoords]
  · simp [Structure.normalizeCoords]

theorem minEle_ret {s : Structure K} {ord : List (String × ℕ) → List (String × ℕ)} (ho : ∀ l, (ord l).Perm l)
    {e : String} {inds counts : List (String × ℕ)} (h : s.getMinElement ord = .ret (e, inds, counts)) :
    e ∈ s.species ∧ inds = Structure.eleInds s.species ∧ counts = Structure.typeCount s.species := by
  unfold Structure.getMinElement at h
  simp only at h
  rw [Outcome.bind_eq_ret] at h
  obtain ⟨m, hm, he⟩ := h
  cases he
  refine ⟨?_, rfl, rfl⟩
  have hmem := (minByKey_spec ?_ (ofOption_ret hm)).1
  · have := ((List.mergeSort_perm _ _).trans (ho _)).mem_iff.1 hmem
    have hk : m.1 ∈ (Structure.typeCount s.species).map Prod.fst := List.mem_map.2 ⟨m, this, rfl⟩
    rw [mem_keys_iff_amapGet?, typeCount_get] at hk
    by_contra hn
    rw [if_neg hn] at hk
    exact absurd hk (by simp)
  · have := List.pairwise_mergeSort (le := fun p q : String × ℕ => decide (p.1 ≤ q.1))
      (fun a b c h1 h2 => by simp only [decide_eq_true_eq] at *; exact le_trans h1 h2)
      (fun a b => by simp only [Bool.or_eq_true, decide_eq_true_eq]; exact le_total _ _) (ord (Structure.typeCount s.species))
    exact this.imp fun h => by simpa using h

theorem minEle_safe {s : Structure K} {ord : List (String × ℕ) → List (String × ℕ)} (ho : ∀ l, (ord l).Perm l) (h : s.species ≠ []) :
    PanicsOnly (s.getMinElement ord) [] := by
  obtain ⟨r, hr⟩ := (C19_get_min_element_panics_iff s ord ho).2 h
  rw [hr]
  exact panics_ret

/-! ## the primitive cell -/

/-- the translations that `find_primitive_cell` accepts when it starts from the atom `i` of the element `e`. -/
def acceptedTranslations (r : Reducer K) (s : Structure K) (e : String) (i : ℕ) (v : Vec3 K) : List (Vec3 K) :=
  (candidateVecs (Structure.fracTols s.lattice r.dtol) e i v (s.normalizeCoords r.dtol).species
    (s.normalizeCoords r.dtol).fracCoords).filter (isTranslation s.lattice (Structure.fracTols s.lattice r.dtol) r.dtol
      ((s.normalizeCoords r.dtol).fracCoords.zip (s.normalizeCoords r.dtol).species))

theorem primitive_panics (r : Reducer K) {ord : List (String × ℕ) → List (String × ℕ)} (ho : ∀ l, (ord l).Perm l) {s : Structure K}
    (hs : Furnished s) {ms : List String}
    (hm : ∀ e i v, PanicsOnly (getShortestTranslationVecs r.dtol (Structure.getCartCoords s.lattice
      (acceptedTranslations r s e i v))) ms) : PanicsOnly (r.findPrimitiveCell ord s) ms := by
  obtain ⟨t0, t1, -⟩ := furnished_normalize r.dtol hs.1 hs.2.1
  unfold findPrimitiveCell
  simp only
  refine panics_bind (panics_mono (minEle_safe ho t0) (by simp)) fun ⟨e, inds, counts⟩ he => ?_
  obtain ⟨hmem, rfl, rfl⟩ := minEle_ret ho he
  refine panics_bind (panics_some (by rw [eleInds_get, if_pos hmem]; rfl)) fun i hi => ?_
  have hi := ofOption_ret hi
  rw [eleInds_get, if_pos hmem, Option.some.injEq] at hi
  have hlt : i < (s.normalizeCoords r.dtol).fracCoords.length := by
    rw [← t1, ← hi]
    exact lt_of_le_of_lt (Nat.mod_le _ _) (List.idxOf_lt_length_of_mem hmem)
  refine panics_bind (panics_some (by rw [List.getElem?_eq_getElem hlt]; rfl)) fun v _ => ?_
  refine panics_bind (hm e i v) fun ⟨s1, s2, s3⟩ _ => ?_
  refine panics_bind (panics_mono (shortest_safe r.dtol ?_) (by simp)) fun _ _ => panics_ret
  rw [Structure.getCartCoords, List.length_map]
  exact combinations_enough _

theorem foldSites_ne {L : Mat3 K} {tols : Vec3 K} {d : K} {l : List (Vec3 K × String)} (h : l ≠ []) : foldSites L tols d l ≠ [] := by
  have key : ∀ (l acc : List (Vec3 K × String)), acc ≠ [] →
      l.foldl (fun acc p => Structure.addSite L tols d acc p.1 p.2) acc ≠ [] := by
    intro l
    induction l with
    | nil => intro acc h; exact h
    | cons p l ih =>
      intro acc h
      rw [List.foldl_cons]
      apply ih
      unfold Structure.addSite
      split_ifs
      · exact h
      · simp
  cases l with
  | nil => exact absurd rfl h
  | cons p l =>
    unfold foldSites
    rw [List.foldl_cons]
    exact key l _ (by simp [Structure.addSite])

theorem furnished_primitive {r : Reducer K} {ord : List (String × ℕ) → List (String × ℕ)} {s s' : Structure K} (hs : Furnished s)
    (h : r.findPrimitiveCell ord s = .ret s') : Furnished s' := by
  obtain ⟨t0, t1, t2⟩ := furnished_normalize r.dtol hs.1 hs.2.1
  obtain ⟨_, _, _, _, _, _, _, _, f1, f2, f3, -, -, -, -, -, rfl⟩ := findPrimitiveCell_ret h
  apply furnished_normalize
  · have : (Structure.getFracCoords (Mat3.ofCols f1 f2 f3) (s.normalizeCoords r.dtol).coords).zip (s.normalizeCoords r.dtol).species
        ≠ [] := by
      intro e
      have := congrArg List.length e
      rw [List.length_zip, Structure.getFracCoords, List.length_map, t2, ← t1, Nat.min_self, List.length_nil, List.length_eq_zero_iff] at this
      exact t0 this
    have := foldSites_ne (L := (s.normalizeCoords r.dtol).lattice) (tols := Structure.fracTols s.lattice r.dtol) (d := r.dtol) this
    simpa [Structure.new] using this
  · simp [Structure.new]

/-! ## reductions and transformations -/

theorem nigLoop_panics (e : Option K) (n : ℕ) (st : NigState K) :
    PanicsOnly (nigLoop e n st) ["Could not find Niggli reduced structure!"] := by
  induction n generalizing st with
  | zero => intro m h; cases h; simp
  | succ n ih =>
    rw [nigLoop]
    cases nigIter e st with
    | inl st' => exact ih st'
    | inr st' => exact panics_ret

theorem niggli_panics (r : Reducer K) (s : Structure K) (tol : K) :
    PanicsOnly (r.niggliReduce s tol) ["Could not find Niggli reduced structure!"] :=
  panics_bind (nigLoop_panics _ _ _) fun _ _ => panics_ret

theorem furnished_niggli {r : Reducer K} {s s' : Structure K} {tol : K} (hs : Furnished s) (h : r.niggliReduce s tol = .ret s') :
    Furnished s' := by
  unfold niggliReduce at h
  rw [Outcome.bind_eq_ret] at h
  obtain ⟨st, -, h⟩ := h
  cases h
  apply furnished_normalize
  · simpa [Structure.new] using hs.1
  · simp [Structure.new, Structure.getFracCoords, hs.2.1, hs.2.2]

theorem foldl_maxIndex (l : List (K × ℕ)) (N : ℕ) (h : ∀ p ∈ l, p.2 < N) (acc : K × ℕ) (ha : acc.2 < N) :
    (l.foldl (fun acc p => if zeroTol < p.1 ∧ acc.1 < p.1 then (p.1, p.2) else acc) acc).2 < N := by
  induction l generalizing acc with
  | nil => exact ha
  | cons p l ih =>
    rw [List.foldl_cons]
    apply ih (fun q hq => h q (by simp [hq]))
    split_ifs
    · exact h p (by simp)
    · exact ha

theorem maxIndex_lt (d : Fin 4 → Vec3 K) : maxIndex (scalarProds d) < 6 := by
  unfold maxIndex
  apply foldl_maxIndex
  · intro p hp
    have := List.mem_zipIdx hp
    simp [scalarProds] at this
    omega
  · simp

theorem delaunayLoop_safe (n c : ℕ) (d : Fin 4 → Vec3 K) : PanicsOnly (delaunayLoop n c d) [] := by
  induction n generalizing c d with
  | zero => exact panics_ret
  | succ n ih =>
    rw [delaunayLoop]
    split_ifs
    · refine panics_bind (panics_some ?_) fun _ _ => ih _ _
      have := maxIndex_lt d
      rw [List.getElem?_eq_getElem (by simpa [pairMap] using this)]
      rfl
    · exact panics_ret

theorem delaunay_panics (r : Reducer K) (s : Structure K) (full : Bool) :
    PanicsOnly (r.delaunayReduce s full) ["Reached max number of iterations without reduction!"] := by
  unfold delaunayReduce
  refine panics_bind (panics_mono (delaunayLoop_safe _ _ _) (by simp)) fun ⟨d, count⟩ _ => ?_
  simp only
  split_ifs
  · intro m h; cases h; simp
  · refine panics_bind ?_ fun _ _ => panics_ret
    unfold delaunayLattice
    cases full
    · exact panics_ret
    · simp only [if_true]
      have hl : (sortByMag [d 0, d 1, d 2, d 3]).length = 4 := (List.mergeSort_perm _ _).length_eq
      generalize sortByMag [d 0, d 1, d 2, d 3] = l at hl
      match l, hl with
      | [_, _, _, _], _ => exact panics_ret

/-- in the arithmetic `K` the matrix is recognised as invertible and its volume as positive. -/
def Spec.Usable (t : Mat3 K) : Prop :=
  (t.det == 0) = false ∧ ∀ n : ℕ, n ≠ 0 → Structure.quotLt 0 n (Structure.volumeRatio t) = true

theorem searchLoop_safe {L : Mat3 K} {tols : Vec3 K} {d : K} {inv : Mat3 K} {ratio : K} {total : ℕ} {sites : List (Vec3 K × String)} :
    ∀ (fuel mult : ℕ) (F : List (Vec3 K × String)), PanicsOnly (Structure.searchLoop L tols d inv ratio total sites fuel mult F) [] := by
  intro fuel
  induction fuel with
  | zero => intro _ _ m h; simp [Structure.searchLoop] at h
  | succ f ih =>
    intro mult F
    rw [Structure.searchLoop]
    split_ifs
    · exact ih _ _
    · exact panics_ret

theorem searchLoop_ne {L : Mat3 K} {tols : Vec3 K} {d : K} {inv : Mat3 K} {ratio : K} {total : ℕ} {sites : List (Vec3 K × String)}
    (hq : Structure.quotLt 0 total ratio = true) :
    ∀ (fuel mult : ℕ) (F F' : List (Vec3 K × String)), Structure.searchLoop L tols d inv ratio total sites fuel mult F = .ret F' →
      F' ≠ [] := by
  intro fuel
  induction fuel with
  | zero => intro _ _ F' h; simp [Structure.searchLoop] at h
  | succ f ih =>
    intro mult F F' h
    rw [Structure.searchLoop] at h
    split_ifs at h with hf
    · exact ih _ _ _ h
    · cases h
      rintro rfl
      exact hf hq

theorem transform_safe {fuel : ℕ} {s : Structure K} {t : Mat3 K} {d : K} (ht : Usable t) : PanicsOnly (s.applyTransformation fuel t d) [] := by
  unfold Structure.applyTransformation Mat3.tryInverse
  simp only [ht.1, Bool.false_eq_true, if_false]
  exact panics_bind (searchLoop_safe _ _ _) fun _ _ => panics_ret

theorem furnished_transform {fuel : ℕ} {s s' : Structure K} {t : Mat3 K} {d : K} (ht : Usable t) (hs : Furnished s)
    (h : s.applyTransformation fuel t d = .ret s') : Furnished s' := by
  obtain ⟨_, F, -, hF, rfl⟩ := applyTransformation_ret h
  have hne := searchLoop_ne (ht.2 s.coords.length (by
    rw [hs.2.2, ← hs.2.1]
    exact fun e => hs.1 (List.length_eq_zero_iff.1 e))) _ _ _ _ hF
  apply furnished_normalize
  · simpa using hne
  · simp

/-! ## the tables -/

/-- the arithmetic `K` can handle the matrices of the tables. -/
def Spec.TablesUsable (K : Type) [Add K] [Sub K] [Mul K] [Div K] [Neg K] [Zero K] [One K] [IntCast K]
    [LT K] [LE K] [DecidableLT K] [DecidableLE K] [BEq K] [FRound K] [FTrans K] : Prop :=
  (∀ p ∈ latticeCharToConvTrans, Usable (Mat3.transpose (castRot p.2) : Mat3 K)) ∧
  (∀ p ∈ centeringToPrimTrans, Usable (primMatrix p.2 : Mat3 K))

theorem character_panics (eps : Option K) (a b c d e f : K) :
    PanicsOnly (characterOf eps a b c d e f) ["Cannot find lattice character of input structure!"] := by
  have key : ∀ (n : ℕ) (m : String), (if n ≠ 0 then Outcome.ret n
      else .panic "Cannot find lattice character of input structure!") = .panic m →
      m ∈ ["Cannot find lattice character of input structure!"] := by
    intro n m h
    split_ifs at h
    cases h
    simp
  unfold characterOf
  exact fun m h => key _ m h

/-- the entries of the four lists. -/
theorem sets_range (t : Bool) (a b d e f : K) (eps : Option K) {v : List (Vec3 K × ℕ)}
    (h : v = getFirstSet t a b d e f eps ∨ v = getSecondSet t a b d e f eps ∨ v = getThirdSet t a b d e f eps ∨
      v = getFourthSet t a b d e f) : ∀ p ∈ v, p.2 ≤ 44 := by
  intro p hp
  rcases h with rfl | rfl | rfl | rfl
  all_goals
    first | unfold getFirstSet at hp | unfold getSecondSet at hp | unfold getThirdSet at hp | unfold getFourthSet at hp
    split_ifs at hp <;> simp only [List.mem_append, List.mem_cons, List.not_mem_nil, or_false, false_or] at hp <;> aesop

theorem character_found {eps : Option K} {a b c d e f : K} {ch : ℕ} (h : characterOf eps a b c d e f = .ret ch) : 1 ≤ ch ∧ ch ≤ 44 := by
  unfold characterOf at h
  simp only at h
  have hv := sets_range (K := K) (isTypeI eps [d, e, f]) a b d e f eps (v := if eqE eps a b && eqE eps a c then
      getFirstSet (isTypeI eps [d, e, f]) a b d e f eps
    else if eqE eps a b then getSecondSet (isTypeI eps [d, e, f]) a b d e f eps
    else if eqE eps b c then getThirdSet (isTypeI eps [d, e, f]) a b d e f eps
    else getFourthSet (isTypeI eps [d, e, f]) a b d e f) (by split_ifs <;> simp)
  generalize (if eqE eps a b && eqE eps a c then
      getFirstSet (isTypeI eps [d, e, f]) a b d e f eps
    else if eqE eps a b then getSecondSet (isTypeI eps [d, e, f]) a b d e f eps
    else if eqE eps b c then getThirdSet (isTypeI eps [d, e, f]) a b d e f eps
    else getFourthSet (isTypeI eps [d, e, f]) a b d e f) = v at h hv
  have hn : ((v.find? fun p => defMatches eps p.1 ⟨d, e, f⟩).map Prod.snd).getD 0 ≤ 44 := by
    cases hf : v.find? fun p => defMatches eps p.1 ⟨d, e, f⟩ with
    | none => simp
    | some p => exact hv p (List.mem_of_find?_eq_some hf)
  generalize ((v.find? fun p => defMatches eps p.1 ⟨d, e, f⟩).map Prod.snd).getD 0 = n at h hn
  split_ifs at h with h1 h2 h3 h4 h5 <;> cases h <;> omega

theorem tables_complete : (∀ ch ∈ List.range' 1 44, (amapGet? latticeCharToConvTrans ch).isSome ∧ (amapGet? latticeCharToBravais ch).isSome) ∧
    (∀ b : BravaisType, b.centering?.isSome ∧ b.latticeSystem?.isSome ∧ (amapGet? bravaisToHolohedryNum b).isSome) ∧
    (∀ c : Centering, (amapGet? centeringToPrimTrans c).isSome) := by
  refine ⟨by decide +kernel, fun b => ?_, fun c => ?_⟩
  · cases b <;> decide +kernel
  · cases c <;> decide +kernel

theorem systems_complete (b : BravaisType) {sys : LatticeSystem} (h : b.latticeSystem? = some sys) :
    (amapGet? sgNumToFullMatrices sys).isSome := by
  cases sys <;> decide +kernel

theorem conventional_panics (s : Structure K) :
    PanicsOnly (conventionalTransformationMatrix s) ["Cannot find lattice character of input structure!"] := by
  unfold conventionalTransformationMatrix getLatticeCharacter
  refine panics_bind (character_panics _ _ _ _ _ _ _) fun ch h => ?_
  obtain ⟨h1, h2⟩ := character_found h
  exact panics_bind (panics_some (tables_complete.1 ch (by rw [List.mem_range'_1]; omega)).1) fun _ _ => panics_ret

theorem conventional_ret (ht : TablesUsable K) {s : Structure K} {m : Mat3 K} {ch : ℕ}
    (h : conventionalTransformationMatrix s = .ret (m, ch)) : Usable m ∧ 1 ≤ ch ∧ ch ≤ 44 := by
  unfold conventionalTransformationMatrix getLatticeCharacter at h
  rw [Outcome.bind_eq_ret] at h
  obtain ⟨c, hc, h⟩ := h
  rw [Outcome.bind_eq_ret] at h
  obtain ⟨r, hr, h⟩ := h
  have hu := ht.1 (c, r) (amapGet?_mem (ofOption_ret hr))
  cases h
  exact ⟨hu, character_found hc⟩

theorem primitiveMatrix_safe {ch : ℕ} (h1 : 1 ≤ ch) (h2 : ch ≤ 44) : PanicsOnly (primitiveTransformationMatrix (K := K) ch) [] := by
  unfold primitiveTransformationMatrix
  refine panics_bind (panics_some (tables_complete.1 ch (by rw [List.mem_range'_1]; omega)).2) fun b _ => ?_
  refine panics_bind (panics_some (tables_complete.2.1 b).1) fun c _ => ?_
  exact panics_bind (panics_some (tables_complete.2.2 c)) fun _ _ => panics_ret

theorem primitiveMatrix_ret (ht : TablesUsable K) {ch : ℕ} {m : Mat3 K} {b : BravaisType}
    (h : primitiveTransformationMatrix (K := K) ch = .ret (m, b)) : Usable m := by
  unfold primitiveTransformationMatrix at h
  rw [Outcome.bind_eq_ret] at h
  obtain ⟨b', -, h⟩ := h
  rw [Outcome.bind_eq_ret] at h
  obtain ⟨c, -, h⟩ := h
  rw [Outcome.bind_eq_ret] at h
  obtain ⟨r, hr, h⟩ := h
  cases h
  exact ht.2 _ (amapGet?_mem (ofOption_ret hr))

/-! ## the operations -/

theorem genLoop_safe {γ : Type} [DecidableEq γ] [Mul γ] (o : HashOrd γ) (fuel : ℕ) :
    ∀ (i : ℕ) (l l' : List γ), PanicsOnly (PointGroup.genLoop o fuel i l l') [] := by
  induction fuel with
  | zero => intro _ _ _ m h; simp [PointGroup.genLoop] at h
  | succ f ih =>
    intro i l l'
    rw [PointGroup.genLoop]
    split_ifs
    · exact panics_ret
    · exact ih _ _ _

theorem holohedry_numbers : ∀ p ∈ bravaisToHolohedryNum, (amapGet? pgNumToSymbol p.2).isSome ∧ (amapGet? pgNumToGeneratorMatrices p.2).isSome := by
  decide +kernel

theorem holohedry_safe (ht : TablesUsable K) (h : HashOrders K) (fuel : ℕ) (b : BravaisType) :
    PanicsOnly (primitiveHolohedry h fuel b) [] := by
  unfold primitiveHolohedry
  refine panics_bind (panics_some (tables_complete.2.1 b).2.2) fun num hnum => ?_
  obtain ⟨e1, e2⟩ := holohedry_numbers _ (amapGet?_mem (ofOption_ret hnum))
  refine panics_bind ?_ fun pg _ => ?_
  · unfold PointGroup.fromNumber
    refine panics_bind (panics_some e1) fun _ _ => panics_bind (panics_some e2) fun codes _ => ?_
    rw [mapOutcome_decode]
    exact panics_bind panics_ret fun _ _ => panics_bind (genLoop_safe _ _ _ _ _) fun _ _ => panics_ret
  · refine panics_bind (panics_some (tables_complete.2.1 b).1) fun c _ => ?_
    refine panics_bind (panics_some (tables_complete.2.2 c)) fun m hm => ?_
    have := (ht.2 _ (amapGet?_mem (ofOption_ret hm))).1
    unfold PointGroup.applyTransformation Mat3.tryInverse
    simp only [this, Bool.false_eq_true, if_false]
    exact panics_ret

theorem first_add_count_le (l : List String) (e : String) : l.idxOf e + l.count e ≤ l.length := by
  induction l with
  | nil => simp
  | cons a l ih =>
    by_cases h : a = e
    · subst h
      simp only [List.idxOf_cons_self, List.count_cons_self, List.length_cons]
      have := List.count_le_length (a := a) (l := l)
      omega
    · rw [List.idxOf_cons_ne _ h, List.count_cons_of_ne h]
      simp only [List.length_cons]
      omega

theorem siteRange_safe {frac : List (Vec3 K)} {species : List String} (hl : frac.length = species.length) {e : String} (he : e ∈ species) :
    PanicsOnly (siteRange frac (species.idxOf e % 65536) (species.count e % 65536)) [] := by
  unfold siteRange
  refine panics_map fun i hi => panics_some ?_
  rw [List.mem_range'_1] at hi
  have h1 := first_add_count_le species e
  have h2 := List.idxOf_lt_length_of_mem he
  rw [List.getElem?_eq_getElem]
  · rfl
  · rw [hl]
    have h3 := Nat.mod_lt (species.idxOf e % 65536 + species.count e % 65536) (show 0 < 65536 by norm_num)
    rcases Nat.lt_or_ge species.length 65536 with hlt | hge
    · rw [Nat.mod_eq_of_lt (a := species.idxOf e) (by omega), Nat.mod_eq_of_lt (a := species.count e) (by omega)] at hi
      have := Nat.mod_le (species.idxOf e + species.count e) 65536
      omega
    · omega

theorem primitiveOps_safe (ht : TablesUsable K) (sa : SymmetryAnalyzer K) {h : HashOrders K} (hv : h.Valid) (fuel : ℕ) {s : Structure K}
    (hs : Furnished s) (b : BravaisType) : PanicsOnly (sa.getPrimitiveSpaceGroupOps h fuel s b) [] := by
  unfold getPrimitiveSpaceGroupOps
  simp only
  refine panics_bind (holohedry_safe ht h fuel b) fun pg _ => ?_
  refine panics_bind (minEle_safe hv.minEle hs.1) fun ⟨e, inds, counts⟩ he => ?_
  obtain ⟨-, rfl, rfl⟩ := minEle_ret hv.minEle he
  refine panics_bind (panics_map fun op _ => panics_bind ?_ fun _ _ => panics_ret) fun _ _ => panics_ret
  unfold candidateTranslations
  simp only
  refine panics_bind (panics_map fun p hp => ?_) fun _ _ => panics_ret
  have hp := (hv.eleInds _).mem_iff.1 hp
  rw [mem_iff_amapGet? (eleInds_nodup _), eleInds_get] at hp
  have hmem : p.1 ∈ s.species := by
    by_contra hn
    rw [if_neg hn] at hp
    exact absurd hp (by simp)
  rw [if_pos hmem, Option.some.injEq] at hp
  rw [typeCount_get, if_pos hmem, ← hp]
  exact panics_bind panics_ret fun c hc => panics_bind (by cases hc; exact siteRange_safe hs.2.1.symm hmem) fun _ _ => panics_ret

theorem sgGenLoop_safe (tols : Vec3 K) (fuel : ℕ) :
    ∀ l l' : List (SymmOp K), PanicsOnly (SpaceGroup.genLoop tols fuel l l') [] := by
  induction fuel with
  | zero => intro _ _ m h; simp [SpaceGroup.genLoop] at h
  | succ f ih =>
    intro l l'
    rw [SpaceGroup.genLoop]
    split_ifs
    · exact panics_ret
    · exact ih _ _

/-! ## identification -/

theorem tableOp_safe (acent : Bool) (c : ℕ) : PanicsOnly (tableOp acent c : Outcome (SymmOp K)) [] := by
  have hrot : PointGroup.rotationOfDigits ((digs 3 9 (c % 3 ^ 9)).map fun d => Int8.ofNat d - 1) = .ret (dec8 (c % 3 ^ 9)) := by
    have := decode_rotation (c % 3 ^ 9)
    rw [decode_eq (by norm_num)] at this
    exact this
  unfold tableOp
  rw [decodeSpgOp_eq]
  refine panics_bind panics_ret fun ⟨x, y⟩ hxy => ?_
  cases hxy
  simp only
  rw [hrot]
  refine panics_bind panics_ret fun _ _ => panics_bind ?_ fun _ _ => ?_
  · simp only [digs, List.map_cons, List.map_nil, List.nil_append, List.cons_append, vecOfDigits]
    exact panics_ret
  · cases acent <;> exact panics_ret

theorem allOps_safe (tols : Vec3 K) (acent : Bool) (codes : List ℕ) (ops : List (SymmOp K)) :
    PanicsOnly (allOpsFound tols acent codes ops) [] := by
  induction ops with
  | nil => exact panics_ret
  | cons op ops ih =>
    rw [allOpsFound]
    refine panics_bind (panics_map fun c _ => tableOp_safe acent c) fun table _ => ?_
    split_ifs
    · exact ih
    · exact panics_ret

theorem identifyLoop_safe (tols : Vec3 K) (ops : List (SymmOp K)) :
    ∀ l : List (ℕ × List ℕ), (∀ p ∈ l, 1 ≤ p.1 ∧ p.1 ≤ 230) → PanicsOnly (identifyLoop tols ops l) [] := by
  intro l
  induction l with
  | nil => intro _; exact panics_ret
  | cons p l ih =>
    intro hp
    obtain ⟨num, codes⟩ := p
    obtain ⟨sym, hs⟩ := symbol_exists (hp (num, codes) (by simp)).1 (hp (num, codes) (by simp)).2
    rw [identifyLoop, hs]
    refine panics_bind panics_ret fun _ _ => panics_bind (allOps_safe _ _ _ _) fun found _ => ?_
    split_ifs
    · exact panics_ret
    · exact ih fun q hq => hp q (by simp [hq])

theorem table_numbers : ∀ p ∈ sgNumToFullMatrices, ∀ q ∈ p.2, ∀ r ∈ q.2, 1 ≤ r.1 ∧ r.1 ≤ 230 := by decide +kernel

theorem identify_panics {h : HashOrders K} (hv : h.Valid) (ops : List (SymmOp K)) (b : BravaisType) {sys : LatticeSystem}
    (hb : b.latticeSystem? = some sys) (tols : Vec3 K) : PanicsOnly (identifySpaceGroup h ops sys tols)
      ["Could not find candidate group with the provided number of operations!"] := by
  unfold identifySpaceGroup
  refine panics_bind (panics_some (systems_complete b hb)) fun groups hg => ?_
  refine panics_bind (panics_option (by simp)) fun cands hc => ?_
  refine panics_mono (identifyLoop_safe _ _ _ fun p hp => ?_) (by simp)
  exact table_numbers _ (amapGet?_mem (ofOption_ret hg)) _ (amapGet?_mem (ofOption_ret hc)) p ((hv.groups _).mem_iff.1 hp)

theorem spaceGroup_transform_panics (fuel : ℕ) (ops : List (SymmOp K)) (t : Mat3 K) (tols : Vec3 K) :
    PanicsOnly (SpaceGroup.applyTransformation fuel ops t tols) ["Transformation matrix is not invertible!"] := by
  have key : ∀ (inv : Mat3 K) (ratio : K) (fuel mult : ℕ) (st : SpaceGroup.TransState K),
      PanicsOnly (SpaceGroup.transLoop tols inv t ratio ops fuel mult st) [] := by
    intro inv ratio fuel
    induction fuel with
    | zero => intro _ _ m h; simp [SpaceGroup.transLoop] at h
    | succ f ih =>
      intro mult st
      rw [SpaceGroup.transLoop]
      split_ifs
      · exact ih _ _
      · exact panics_ret
  unfold SpaceGroup.applyTransformation
  cases t.tryInverse with
  | none => intro m h; cases h; simp
  | some inv => exact panics_mono (panics_bind (key _ _ _ _ _) fun _ _ => panics_ret) (by simp)

/-! ## the public functions -/

variable {sa : SymmetryAnalyzer K} {h : HashOrders K} {fuel : ℕ} {s : Structure K}

theorem conventional_structure_panics (ht : TablesUsable K) {ms : List String}
    (hp : PanicsOnly (sa.reducer.findPrimitiveCell h.minEle s) ms) : PanicsOnly (sa.getStandardConventionalStructure h fuel s)
      (ms ++ ["Could not find Niggli reduced structure!", "Cannot find lattice character of input structure!"]) := by
  unfold getStandardConventionalStructure
  refine panics_bind (panics_mono hp (by simp +contextual)) fun prim _ => ?_
  refine panics_bind (panics_mono (niggli_panics _ _ _) (by simp)) fun nig _ => ?_
  refine panics_bind (panics_mono (conventional_panics _) (by simp)) fun ⟨m, ch⟩ hm => ?_
  exact panics_mono (transform_safe (conventional_ret ht hm).1) (by simp)

theorem primitive_structure_panics (ht : TablesUsable K) {ms : List String}
    (hp : PanicsOnly (sa.reducer.findPrimitiveCell h.minEle s) ms) : PanicsOnly (sa.getStandardPrimitiveStructure h fuel s)
      (ms ++ ["Could not find Niggli reduced structure!", "Cannot find lattice character of input structure!"]) := by
  unfold getStandardPrimitiveStructure
  refine panics_bind (panics_mono hp (by simp +contextual)) fun prim _ => ?_
  refine panics_bind (panics_mono (niggli_panics _ _ _) (by simp)) fun nig _ => ?_
  refine panics_bind (panics_mono (conventional_panics _) (by simp)) fun ⟨m, ch⟩ hm => ?_
  obtain ⟨hu, h1, h2⟩ := conventional_ret ht hm
  refine panics_bind (panics_mono (transform_safe hu) (by simp)) fun conv _ => ?_
  refine panics_bind (panics_mono (primitiveMatrix_safe h1 h2) (by simp)) fun ⟨P, b⟩ hP => ?_
  exact panics_mono (transform_safe (primitiveMatrix_ret ht hP)) (by simp)

theorem info_panics (ht : TablesUsable K) (hv : h.Valid) (hs : Furnished s) {ms : List String}
    (hp : PanicsOnly (sa.reducer.findPrimitiveCell h.minEle s) ms) : PanicsOnly (sa.getSpaceGroupInfo h fuel s)
      (ms ++ ["Could not find Niggli reduced structure!", "Cannot find lattice character of input structure!",
        "Could not find candidate group with the provided number of operations!", "Cannot identify spacegroup from operations!",
        "Transformation matrix is not invertible!"]) := by
  unfold getSpaceGroupInfo
  refine panics_bind (panics_mono hp (by simp +contextual)) fun prim hprim => ?_
  refine panics_bind (panics_mono (niggli_panics _ _ _) (by simp)) fun nig hnig => ?_
  refine panics_bind (panics_mono (conventional_panics _) (by simp)) fun ⟨m, ch⟩ hm => ?_
  obtain ⟨hu, h1, h2⟩ := conventional_ret ht hm
  refine panics_bind (panics_mono (transform_safe hu) (by simp)) fun conv hconv => ?_
  refine panics_bind (panics_mono (primitiveMatrix_safe h1 h2) (by simp)) fun ⟨P, b⟩ hP => ?_
  have hu' := primitiveMatrix_ret ht hP
  refine panics_bind (panics_mono (transform_safe hu') (by simp)) fun std hstd => ?_
  have hf : Furnished std := furnished_transform hu' (furnished_transform hu (furnished_niggli (furnished_primitive hs hprim) hnig) hconv) hstd
  refine panics_bind (panics_mono (primitiveOps_safe ht sa hv fuel hf b) (by simp)) fun gens _ => ?_
  simp only
  refine panics_bind (panics_mono (sgGenLoop_safe _ _ _ _) (by simp)) fun sg _ => ?_
  refine panics_bind (panics_some (tables_complete.2.1 b).2.1) fun sys hsys => ?_
  refine panics_bind (panics_mono (identify_panics hv sg b (ofOption_ret hsys) _) (by simp)) fun id _ => ?_
  refine panics_bind (panics_option (by simp)) fun ⟨num, sym⟩ _ => ?_
  refine panics_bind (panics_some (by unfold Mat3.tryInverse; simp [hu'.1])) fun _ _ => ?_
  refine panics_bind (panics_some (by unfold Mat3.tryInverse; simp [hu.1])) fun _ _ => ?_
  exact panics_bind (panics_mono (spaceGroup_transform_panics _ _ _ _) (by simp)) fun _ _ => panics_ret

end

end CrystSymm
