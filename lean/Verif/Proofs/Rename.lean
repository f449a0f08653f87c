import Verif.Model.Analyzer

set_option autoImplicit false
set_option linter.unusedSectionVars false

/-! # Renaming the species: the model up to the operations of the primitive cell -/

namespace CrystSymm

/-- apply a function to the value that is returned. -/
def mapOut {α β : Type} (g : α → β) : Outcome α → Outcome β
  | .ret a => .ret (g a)
  | .panic m => .panic m
  | .running => .running

theorem bind_mapOut {α β γ : Type} (g : α → β) (o : Outcome α) (k : β → Outcome γ) :
    (mapOut g o).bind k = o.bind fun a => k (g a) := by
  cases o <;> rfl

theorem mapOut_bind {α β γ : Type} (g : β → γ) (o : Outcome α) (k : α → Outcome β) :
    mapOut g (o.bind k) = o.bind fun a => mapOut g (k a) := by
  cases o <;> rfl

theorem mapOut_ofOption {α β : Type} (g : α → β) (msg : String) (o : Option α) :
    Outcome.ofOption msg (o.map g) = mapOut g (Outcome.ofOption msg o) := by
  cases o <;> rfl

theorem bind_congr_fun {α β : Type} {o : Outcome α} {k k' : α → Outcome β} (h : ∀ a, k a = k' a) : o.bind k = o.bind k' := by
  cases o <;> simp [Outcome.bind, h]

/-- the structure with other names. -/
def ren {K : Type} (f : String → String) (s : Structure K) : Structure K := { s with species := s.species.map f }

/-- the entry with another name. -/
def renP {β : Type} (f : String → String) (p : String × β) : String × β := (f p.1, p.2)

/-- the site with another name. -/
def renS {β : Type} (f : String → String) (p : β × String) : β × String := (p.1, f p.2)

theorem zip_ren {β : Type} (f : String → String) (cs : List β) (sp : List String) :
    cs.zip (sp.map f) = (cs.zip sp).map (renS f) := by
  rw [List.zip_map_right]
  rfl

theorem map_fst_renS {β : Type} (f : String → String) (l : List (β × String)) :
    (l.map (renS f)).map Prod.fst = l.map Prod.fst := by
  rw [List.map_map]; rfl

theorem map_snd_renS {β : Type} (f : String → String) (l : List (β × String)) :
    (l.map (renS f)).map Prod.snd = (l.map Prod.snd).map f := by
  rw [List.map_map, List.map_map]; rfl

section
variable {f : String → String} (hf : StrictMono f)
include hf

theorem amapUpsert_ren {β : Type} (m : List (String × β)) (k : String) (d : β) (g : β → β) :
    amapUpsert (m.map (renP f)) (f k) d g = (amapUpsert m k d g).map (renP f) := by
  induction m with
  | nil => rfl
  | cons p m ih =>
    obtain ⟨k', v⟩ := p
    simp only [List.map_cons, renP, amapUpsert, hf.injective.eq_iff]
    split
    · rfl
    · simp only [List.map_cons, renP, ← ih]

theorem amapGet_ren {β : Type} (m : List (String × β)) (k : String) : amapGet? (m.map (renP f)) (f k) = amapGet? m k := by
  unfold amapGet?
  induction m with
  | nil => rfl
  | cons p m ih =>
    simp only [List.map_cons, List.find?_cons, renP, hf.injective.eq_iff]
    by_cases h : p.1 = k
    · simp [h]
    · simpa [h] using ih

theorem typeCount_ren (sp : List String) : Structure.typeCount (sp.map f) = (Structure.typeCount sp).map (renP f) := by
  have key : ∀ (l : List String) (m : List (String × ℕ)),
      (l.map f).foldl (fun m e => amapUpsert m e 0 fun n => (n + 1) % 65536) (m.map (renP f)) =
        (l.foldl (fun m e => amapUpsert m e 0 fun n => (n + 1) % 65536) m).map (renP f) := by
    intro l
    induction l with
    | nil => intro m; rfl
    | cons a l ih =>
      intro m
      rw [List.map_cons, List.foldl_cons, List.foldl_cons, amapUpsert_ren hf, ih]
  exact key sp []

theorem eleInds_ren (sp : List String) : Structure.eleInds (sp.map f) = (Structure.eleInds sp).map (renP f) := by
  have key : ∀ (l : List (String × ℕ)) (m : List (String × ℕ)),
      (l.map (renP f)).foldl (fun m p => amapUpsert m p.1 (p.2 % 65536) id) (m.map (renP f)) =
        (l.foldl (fun m p => amapUpsert m p.1 (p.2 % 65536) id) m).map (renP f) := by
    intro l
    induction l with
    | nil => intro m; rfl
    | cons a l ih =>
      intro m
      rw [List.map_cons, List.foldl_cons, List.foldl_cons]
      show List.foldl _ (amapUpsert (m.map (renP f)) (f a.1) (a.2 % 65536) id) _ = _
      rw [amapUpsert_ren hf, ih]
  have e : (sp.map f).zipIdx = sp.zipIdx.map (renP f) := by
    rw [List.zipIdx_map]
    rfl
  unfold Structure.eleInds
  rw [e]
  exact key _ []

theorem minByKey_ren (l : List (String × ℕ)) : Structure.minByKey (l.map (renP f)) = (Structure.minByKey l).map (renP f) := by
  have key : ∀ (l : List (String × ℕ)) (acc : Option (String × ℕ)),
      (l.map (renP f)).foldl (fun acc e => match acc with
        | none => some e
        | some m => if e.2 < m.2 then some e else some m) (acc.map (renP f)) =
      (l.foldl (fun acc e => match acc with
        | none => some e
        | some m => if e.2 < m.2 then some e else some m) acc).map (renP f) := by
    intro l
    induction l with
    | nil => intro acc; rfl
    | cons a l ih =>
      intro acc
      rw [List.map_cons, List.foldl_cons, List.foldl_cons, ← ih]
      congr 1
      cases acc with
      | none => rfl
      | some m =>
        simp only [Option.map_some, renP]
        by_cases h : a.2 < m.2
        · simp only [h, if_true]; rfl
        · simp only [h, if_false]; rfl
  exact key l none

theorem sortNames_ren {β : Type} (l : List (String × β)) :
    (l.map (renP f)).mergeSort (fun p q => decide (p.1 ≤ q.1)) =
      (l.mergeSort fun p q => decide (p.1 ≤ q.1)).map (renP f) := by
  symm
  apply List.map_mergeSort
  intro a _ b _
  simp [renP, hf.le_iff_le]

end

section
variable {K : Type} [Add K] [Sub K] [Mul K] [Div K] [Neg K] [Zero K] [One K] [IntCast K]
  [LT K] [LE K] [DecidableLT K] [DecidableLE K] [BEq K] [FRound K] [FTrans K]
variable {f : String → String} (hf : StrictMono f)
include hf

/-- the triple that `get_min_element` returns, with other names. -/
def renMin (f : String → String) (m : String × List (String × ℕ) × List (String × ℕ)) :
    String × List (String × ℕ) × List (String × ℕ) := (f m.1, m.2.1.map (renP f), m.2.2.map (renP f))

theorem getMinElement_ren (s : Structure K) {ord ord' : List (String × ℕ) → List (String × ℕ)}
    (ho : ∀ l, ord' (l.map (renP f)) = (ord l).map (renP f)) :
    (ren f s).getMinElement ord' = mapOut (renMin f) (s.getMinElement ord) := by
  unfold Structure.getMinElement
  simp only [ren, typeCount_ren hf, eleInds_ren hf, ho, sortNames_ren hf, minByKey_ren hf, mapOut_ofOption, bind_mapOut,
    mapOut_bind]
  rfl

theorem normalizeCoords_ren (s : Structure K) (t : K) : (ren f s).normalizeCoords t = ren f (s.normalizeCoords t) := by
  have e : ∀ (sp : List String) (l : List (Vec3 K × Vec3 K)), (sp.map f).zip l = (sp.zip l).map (renP f) := by
    intro sp l
    rw [List.zip_map_left]
    rfl
  unfold Structure.normalizeCoords
  simp only [ren, e, Structure.sortBySpecies, sortNames_ren hf, List.map_map]
  rfl

theorem new_ren (L : Mat3 K) (sp : List String) (cs : List (Vec3 K)) (b : Bool) :
    Structure.new L (sp.map f) cs b = ren f (Structure.new L sp cs b) := by
  unfold Structure.new
  split <;> rfl

theorem rebuild_ren (r : Reducer K) (s : Structure K) (L : Mat3 K) : r.rebuild (ren f s) L = ren f (r.rebuild s L) := by
  unfold Reducer.rebuild
  rw [show (ren f s).species = s.species.map f from rfl, new_ren hf, normalizeCoords_ren hf]
  rfl

theorem niggliReduce_ren (r : Reducer K) (s : Structure K) (tol : K) :
    r.niggliReduce (ren f s) tol = mapOut (ren f) (r.niggliReduce s tol) := by
  unfold Reducer.niggliReduce
  rw [mapOut_bind]
  refine bind_congr_fun fun st => ?_
  rw [rebuild_ren hf]
  rfl

theorem delaunayReduce_ren (r : Reducer K) (s : Structure K) (full : Bool) :
    r.delaunayReduce (ren f s) full = mapOut (ren f) (r.delaunayReduce s full) := by
  unfold Reducer.delaunayReduce
  rw [mapOut_bind]
  refine bind_congr_fun fun ⟨d, count⟩ => ?_
  simp only
  split
  · rfl
  · rw [mapOut_bind]
    refine bind_congr_fun fun L => ?_
    rw [rebuild_ren hf]
    rfl

/-! ### sites -/

theorem addSite_ren (L : Mat3 K) (tols : Vec3 K) (t : K) (found : List (Vec3 K × String)) (c : Vec3 K) (e : String) :
    Structure.addSite L tols t (found.map (renS f)) c (f e) = (Structure.addSite L tols t found c e).map (renS f) := by
  unfold Structure.addSite
  have h : ((found.map (renS f)).any fun p => Structure.sitesCoincide L tols t c p.1) =
      found.any fun p => Structure.sitesCoincide L tols t c p.1 := by
    rw [List.any_map]
    rfl
  rw [h]
  split
  · rfl
  · simp [renS]

theorem searchPass_ren (L : Mat3 K) (tols : Vec3 K) (t : K) (invT : Mat3 K) (mult : ℕ) (sites found : List (Vec3 K × String)) :
    Structure.searchPass L tols t invT mult (sites.map (renS f)) (found.map (renS f)) =
      (Structure.searchPass L tols t invT mult sites found).map (renS f) := by
  unfold Structure.searchPass
  induction sites generalizing found with
  | nil => rfl
  | cons p sites ih =>
    rw [List.map_cons, List.foldl_cons, List.foldl_cons, ← ih]
    congr 1
    generalize (Structure.translationVecs mult : List (Vec3 K)) = tvs
    induction tvs generalizing found with
    | nil => rfl
    | cons tv tvs ih2 =>
      rw [List.foldl_cons, List.foldl_cons, ← ih2, ← addSite_ren hf]
      rfl

theorem searchLoop_ren (L : Mat3 K) (tols : Vec3 K) (t : K) (invT : Mat3 K) (ratio : K) (total : ℕ)
    (sites : List (Vec3 K × String)) (fuel mult : ℕ) (found : List (Vec3 K × String)) :
    Structure.searchLoop L tols t invT ratio total (sites.map (renS f)) fuel mult (found.map (renS f)) =
      mapOut (fun l => l.map (renS f)) (Structure.searchLoop L tols t invT ratio total sites fuel mult found) := by
  induction fuel generalizing mult found with
  | zero => rfl
  | succ n ih =>
    unfold Structure.searchLoop
    rw [List.length_map]
    split
    · rw [searchPass_ren hf, ih]
    · rfl

theorem applyTransformation_ren (fuel : ℕ) (s : Structure K) (t : Mat3 K) (d : K) :
    (ren f s).applyTransformation fuel t d = mapOut (ren f) (s.applyTransformation fuel t d) := by
  unfold Structure.applyTransformation
  simp only
  cases t.tryInverse with
  | none => rfl
  | some invT =>
    simp only [ren]
    rw [zip_ren f, show ([] : List (Vec3 K × String)) = ([] : List (Vec3 K × String)).map (renS f) from rfl, searchLoop_ren hf,
      bind_mapOut, mapOut_bind]
    refine bind_congr_fun fun found => ?_
    simp only [map_fst_renS f, map_snd_renS f, mapOut]
    exact congrArg _ (normalizeCoords_ren hf ⟨_, found.map Prod.snd, _, _⟩ d)

/-! ### the primitive cell -/

theorem candidateVecs_ren (tols : Vec3 K) (e : String) (i : ℕ) (b : Vec3 K) (sp : List String) (cs : List (Vec3 K)) :
    Reducer.candidateVecs tols (f e) i b (sp.map f) cs = Reducer.candidateVecs tols e i b sp cs := by
  unfold Reducer.candidateVecs
  rw [zip_ren f, List.zipIdx_map, List.filterMap_map]
  congr 1
  apply List.filterMap_congr
  intro p _
  simp [Function.comp, renS, Prod.map, hf.injective.eq_iff]

theorem isTranslation_ren (L : Mat3 K) (tols : Vec3 K) (d : K) (sites : List (Vec3 K × String)) (v : Vec3 K) :
    Reducer.isTranslation L tols d (sites.map (renS f)) v = Reducer.isTranslation L tols d sites v := by
  unfold Reducer.isTranslation
  simp only [List.all_map, List.any_map, Function.comp_def, renS, hf.injective.eq_iff]

theorem foldSites_ren (L : Mat3 K) (tols : Vec3 K) (d : K) (sites : List (Vec3 K × String)) :
    Reducer.foldSites L tols d (sites.map (renS f)) = (Reducer.foldSites L tols d sites).map (renS f) := by
  have key : ∀ (l acc : List (Vec3 K × String)),
      (l.map (renS f)).foldl (fun acc p => Structure.addSite L tols d acc p.1 p.2) (acc.map (renS f)) =
        (l.foldl (fun acc p => Structure.addSite L tols d acc p.1 p.2) acc).map (renS f) := by
    intro l
    induction l with
    | nil => intro acc; rfl
    | cons p l ih =>
      intro acc
      rw [List.map_cons, List.foldl_cons, List.foldl_cons, ← ih, ← addSite_ren hf]
      rfl
  exact key sites []

theorem findPrimitiveCell_ren (r : Reducer K) (s : Structure K) {ord ord' : List (String × ℕ) → List (String × ℕ)}
    (ho : ∀ l, ord' (l.map (renP f)) = (ord l).map (renP f)) :
    r.findPrimitiveCell ord' (ren f s) = mapOut (ren f) (r.findPrimitiveCell ord s) := by
  unfold Reducer.findPrimitiveCell
  simp only
  rw [normalizeCoords_ren hf, getMinElement_ren hf _ ho, bind_mapOut, mapOut_bind]
  refine bind_congr_fun fun ⟨e, inds, counts⟩ => ?_
  simp only [renMin]
  rw [amapGet_ren hf, mapOut_bind]
  refine bind_congr_fun fun i => ?_
  rw [mapOut_bind]
  refine bind_congr_fun fun b => ?_
  simp only [ren, zip_ren f, candidateVecs_ren (K := K) hf]
  have hfil : ∀ (cs : List (Vec3 K)) (L : Mat3 K) (tols : Vec3 K) (sites : List (Vec3 K × String)),
      cs.filter (Reducer.isTranslation L tols r.dtol (sites.map (renS f))) = cs.filter (Reducer.isTranslation L tols r.dtol sites) := by
    intro cs L tols sites
    congr 1
    funext v
    exact isTranslation_ren hf L tols r.dtol sites v
  rw [hfil, mapOut_bind]
  refine bind_congr_fun fun ⟨s1, s2, s3⟩ => ?_
  simp only
  rw [mapOut_bind]
  refine bind_congr_fun fun ⟨f1, f2, f3⟩ => ?_
  simp only [foldSites_ren (K := K) hf, map_fst_renS f, map_snd_renS f, new_ren (K := K) hf, normalizeCoords_ren (K := K) hf, mapOut]

/-! ### operations -/

omit hf in
theorem mapOutcome_map {α β γ : Type} (g : α → β) (k : β → Outcome γ) (l : List α) :
    mapOutcome k (l.map g) = mapOutcome (fun a => k (g a)) l := by
  induction l with
  | nil => rfl
  | cons a l ih => simp only [List.map_cons, mapOutcome, ih]

theorem candidateTranslations_ren (tols : Vec3 K) (cs : List (Vec3 K)) (inds counts : List (String × ℕ)) (op : Mat3 Int8) :
    SymmetryAnalyzer.candidateTranslations tols cs (inds.map (renP f)) (counts.map (renP f)) op =
      SymmetryAnalyzer.candidateTranslations tols cs inds counts op := by
  unfold SymmetryAnalyzer.candidateTranslations
  simp only [mapOutcome_map]
  have e : ∀ p : String × ℕ, amapGet? (counts.map (renP f)) (renP f p).1 = amapGet? counts p.1 := fun p => amapGet_ren hf counts p.1
  simp only [e]
  rfl

/-- the same orders, up to the names. -/
structure SameOrders (f : String → String) (h h' : HashOrders K) : Prop where
  minEle : ∀ l, h'.minEle (l.map (renP f)) = (h.minEle l).map (renP f)
  eleInds : ∀ l, h'.eleInds (l.map (renP f)) = (h.eleInds l).map (renP f)
  pointOps : h'.pointOps = h.pointOps
  opVecs : h'.opVecs = h.opVecs
  counts : h'.counts = h.counts
  groups : h'.groups = h.groups

theorem getPrimitiveSpaceGroupOps_ren (sa : SymmetryAnalyzer K) {h h' : HashOrders K} (ho : SameOrders f h h') (fuel : ℕ)
    (s : Structure K) (b : BravaisType) :
    sa.getPrimitiveSpaceGroupOps h' fuel (ren f s) b = sa.getPrimitiveSpaceGroupOps h fuel s b := by
  unfold SymmetryAnalyzer.getPrimitiveSpaceGroupOps
  have e1 : SymmetryAnalyzer.primitiveHolohedry h' fuel b = SymmetryAnalyzer.primitiveHolohedry h fuel b := by
    unfold SymmetryAnalyzer.primitiveHolohedry
    rw [ho.pointOps]
  have e2 : ∀ (L : Mat3 K) (tols : Vec3 K) (d : K) (n : ℕ) (p : Mat3 Int8 × List (Vec3 K)),
      SymmetryAnalyzer.opsForRotation h' L tols d n p = SymmetryAnalyzer.opsForRotation h L tols d n p := by
    intro L tols d n p
    have : SymmetryAnalyzer.countStep h' L tols d = SymmetryAnalyzer.countStep h L tols d := by
      funext st v
      unfold SymmetryAnalyzer.countStep
      rw [ho.counts]
    unfold SymmetryAnalyzer.opsForRotation
    rw [this, ho.counts]
  simp only
  rw [e1]
  refine bind_congr_fun fun pg => ?_
  rw [getMinElement_ren hf s ho.minEle, bind_mapOut]
  refine bind_congr_fun fun ⟨e, inds, counts⟩ => ?_
  simp only [renMin, ho.eleInds, candidateTranslations_ren (K := K) hf, ren, ho.opVecs]
  refine bind_congr_fun fun entries => ?_
  congr 2
  funext p
  rw [e2]
  simp only [Structure.numSites, List.length_map]

end

end CrystSymm
