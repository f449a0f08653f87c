import Verif.Proofs.Rename
import Verif.Model.Lib

set_option autoImplicit false
set_option linter.unusedSectionVars false

/-! # C93: the names of the species are only labels -/

namespace CrystSymm

/-! ## the iteration orders of the hash maps -/

section
variable {K : Type} {f : String → String}

theorem renP_comp {β : Type} (g f : String → String) (h : ∀ e, g (f e) = e) (l : List (String × β)) :
    (l.map (renP f)).map (renP g) = l := by
  rw [List.map_map]
  conv_rhs => rw [← List.map_id l]
  apply List.map_congr_left
  intro p _
  simp [renP, h]

theorem renP_back {β : Type} {g f : String → String} {l : List (String × β)} (h : ∀ p ∈ l, f (g p.1) = p.1) :
    (l.map (renP g)).map (renP f) = l := by
  rw [List.map_map]
  conv_rhs => rw [← List.map_id l]
  apply List.map_congr_left
  intro p hp
  simp [renP, h p hp]

open Classical in
/-- an order carried over to other names. -/
noncomputable def carry (f : String → String) (o : List (String × ℕ) → List (String × ℕ)) (l : List (String × ℕ)) :
    List (String × ℕ) :=
  if ∀ p ∈ l, ∃ e, f e = p.1 then (o (l.map (renP (Function.invFun f)))).map (renP f) else l

theorem carry_map (hf : StrictMono f) (o : List (String × ℕ) → List (String × ℕ)) (l : List (String × ℕ)) :
    carry f o (l.map (renP f)) = (o l).map (renP f) := by
  have h : ∀ p ∈ l.map (renP f), ∃ e, f e = p.1 := by
    intro p hp
    obtain ⟨q, -, rfl⟩ := List.mem_map.1 hp
    exact ⟨q.1, rfl⟩
  unfold carry
  rw [if_pos h, renP_comp _ _ (Function.leftInverse_invFun hf.injective)]

theorem carry_perm (o : List (String × ℕ) → List (String × ℕ)) (ho : ∀ l, (o l).Perm l) (l : List (String × ℕ)) :
    (carry f o l).Perm l := by
  unfold carry
  split
  · rename_i h
    refine ((ho _).map _).trans ?_
    rw [renP_back]
    intro p hp
    exact Function.invFun_eq (h p hp)
  · exact .refl _

/-- an order brought back from other names. -/
noncomputable def fetch (f : String → String) (o : List (String × ℕ) → List (String × ℕ)) (l : List (String × ℕ)) :
    List (String × ℕ) := (o (l.map (renP f))).map (renP (Function.invFun f))

theorem fetch_map (o : List (String × ℕ) → List (String × ℕ)) (ho : ∀ l, (o l).Perm l) (l : List (String × ℕ)) :
    o (l.map (renP f)) = (fetch f o l).map (renP f) := by
  unfold fetch
  rw [renP_back]
  intro p hp
  obtain ⟨q, -, rfl⟩ := List.mem_map.1 ((ho _).subset hp)
  exact Function.invFun_eq ⟨q.1, rfl⟩

theorem fetch_perm (hf : StrictMono f) (o : List (String × ℕ) → List (String × ℕ)) (ho : ∀ l, (o l).Perm l)
    (l : List (String × ℕ)) : (fetch f o l).Perm l := by
  unfold fetch
  refine ((ho _).map _).trans ?_
  rw [renP_comp _ _ (Function.leftInverse_invFun hf.injective)]

end

section
variable {K : Type} [Add K] [Sub K] [Mul K] [Div K] [Neg K] [Zero K] [One K] [IntCast K]
  [LT K] [LE K] [DecidableLT K] [DecidableLE K] [BEq K] [FRound K] [FTrans K]
variable {f : String → String}

theorem sameOrders_of (hf : StrictMono f) (h : HashOrders K) (hv : h.Valid) : ∃ h' : HashOrders K, h'.Valid ∧ SameOrders f h h' :=
  ⟨{ h with minEle := carry f h.minEle, eleInds := carry f h.eleInds },
    ⟨carry_perm _ hv.minEle, hv.pointOps, carry_perm _ hv.eleInds, hv.opVecs, hv.counts, hv.groups⟩,
    ⟨carry_map hf _, carry_map hf _, rfl, rfl, rfl, rfl⟩⟩

theorem sameOrders_for (hf : StrictMono f) (h' : HashOrders K) (hv : h'.Valid) : ∃ h : HashOrders K, h.Valid ∧ SameOrders f h h' :=
  ⟨{ h' with minEle := fetch f h'.minEle, eleInds := fetch f h'.eleInds },
    ⟨fetch_perm hf _ hv.minEle, hv.pointOps, fetch_perm hf _ hv.eleInds, hv.opVecs, hv.counts, hv.groups⟩,
    ⟨fetch_map _ hv.minEle, fetch_map _ hv.eleInds, rfl, rfl, rfl, rfl⟩⟩

/-! ## C93 -/

/-- the structure with the species renamed. -/
def Spec.Renamed (f : String → String) (s s' : Structure K) : Prop :=
  s'.lattice = s.lattice ∧ s'.species = s.species.map f ∧ s'.coords = s.coords ∧ s'.fracCoords = s.fracCoords

theorem renamed_iff {s s' : Structure K} : Spec.Renamed f s s' ↔ s' = ren f s := by
  unfold Spec.Renamed ren
  constructor
  · rintro ⟨h1, h2, h3, h4⟩
    cases s'
    simp_all
  · rintro rfl
    exact ⟨rfl, rfl, rfl, rfl⟩

/-- both calls return, with structures that differ by the renaming; or both panic, with the same message; or neither has ended. -/
def Spec.SameUpToNames (f : String → String) (o o' : Outcome (Structure K)) : Prop :=
  (∃ t t', o = .ret t ∧ o' = .ret t' ∧ Spec.Renamed f t t') ∨ (∃ msg, o = .panic msg ∧ o' = .panic msg) ∨ (o = .running ∧ o' = .running)

theorem sameUpToNames_of {o o' : Outcome (Structure K)} (h : o' = mapOut (ren f) o) : Spec.SameUpToNames f o o' := by
  subst h
  cases o with
  | ret t => exact .inl ⟨t, _, rfl, rfl, renamed_iff.2 rfl⟩
  | panic m => exact .inr (.inl ⟨m, rfl, rfl⟩)
  | running => exact .inr (.inr ⟨rfl, rfl⟩)

/-- **C93, reductions.** In any arithmetic, if the species are renamed in a way that keeps their alphabetical order, the two
reductions return the same as before with the names exchanged, or panic with the same message. -/
theorem C93_reductions (hf : StrictMono f) (r : Reducer K) (s s' : Structure K) (hs : Spec.Renamed f s s') :
    (∀ tol, Spec.SameUpToNames f (r.niggliReduce s tol) (r.niggliReduce s' tol)) ∧
    (∀ full, Spec.SameUpToNames f (r.delaunayReduce s full) (r.delaunayReduce s' full)) ∧
    (∀ fuel t d, Spec.SameUpToNames f (s.applyTransformation fuel t d) (s'.applyTransformation fuel t d)) ∧
    ∀ d, Spec.Renamed f (s.normalizeCoords d) (s'.normalizeCoords d) := by
  rw [renamed_iff] at hs
  subst hs
  exact ⟨fun tol => sameUpToNames_of (niggliReduce_ren hf r s tol), fun full => sameUpToNames_of (delaunayReduce_ren hf r s full),
    fun fuel t d => sameUpToNames_of (applyTransformation_ren hf fuel s t d), fun d => renamed_iff.2 (normalizeCoords_ren hf s d)⟩

theorem conventional_ren (sa : SymmetryAnalyzer K) (hf : StrictMono f) {h h' : HashOrders K} (ho : SameOrders f h h') (fuel : ℕ)
    (s : Structure K) : sa.getStandardConventionalStructure h' fuel (ren f s) =
      mapOut (ren f) (sa.getStandardConventionalStructure h fuel s) := by
  unfold SymmetryAnalyzer.getStandardConventionalStructure
  rw [findPrimitiveCell_ren hf _ _ ho.minEle, bind_mapOut, mapOut_bind]
  refine bind_congr_fun fun prim => ?_
  rw [niggliReduce_ren hf, bind_mapOut, mapOut_bind]
  refine bind_congr_fun fun nig => ?_
  rw [mapOut_bind]
  refine bind_congr_fun fun ⟨t, ch⟩ => ?_
  exact applyTransformation_ren hf fuel nig t sa.dtol

theorem primitive_ren (sa : SymmetryAnalyzer K) (hf : StrictMono f) {h h' : HashOrders K} (ho : SameOrders f h h') (fuel : ℕ)
    (s : Structure K) : sa.getStandardPrimitiveStructure h' fuel (ren f s) =
      mapOut (ren f) (sa.getStandardPrimitiveStructure h fuel s) := by
  unfold SymmetryAnalyzer.getStandardPrimitiveStructure
  rw [findPrimitiveCell_ren hf _ _ ho.minEle, bind_mapOut, mapOut_bind]
  refine bind_congr_fun fun prim => ?_
  rw [niggliReduce_ren hf, bind_mapOut, mapOut_bind]
  refine bind_congr_fun fun nig => ?_
  rw [mapOut_bind]
  refine bind_congr_fun fun ⟨t, ch⟩ => ?_
  simp only
  rw [applyTransformation_ren hf, bind_mapOut, mapOut_bind]
  refine bind_congr_fun fun conv => ?_
  rw [mapOut_bind]
  refine bind_congr_fun fun ⟨t', b⟩ => ?_
  exact applyTransformation_ren hf fuel conv t' sa.dtol

theorem info_ren (sa : SymmetryAnalyzer K) (hf : StrictMono f) {h h' : HashOrders K} (ho : SameOrders f h h') (fuel : ℕ)
    (s : Structure K) : sa.getSpaceGroupInfo h' fuel (ren f s) = sa.getSpaceGroupInfo h fuel s := by
  have hid : ∀ ops sys tols, SymmetryAnalyzer.identifySpaceGroup h' ops sys tols = SymmetryAnalyzer.identifySpaceGroup h ops sys tols := by
    intro ops sys tols
    unfold SymmetryAnalyzer.identifySpaceGroup
    rw [ho.groups]
  unfold SymmetryAnalyzer.getSpaceGroupInfo
  rw [findPrimitiveCell_ren hf _ _ ho.minEle, bind_mapOut]
  refine bind_congr_fun fun prim => ?_
  rw [niggliReduce_ren hf, bind_mapOut]
  refine bind_congr_fun fun nig => ?_
  refine bind_congr_fun fun ⟨t, ch⟩ => ?_
  simp only
  rw [applyTransformation_ren hf, bind_mapOut]
  refine bind_congr_fun fun conv => ?_
  refine bind_congr_fun fun ⟨t', b⟩ => ?_
  simp only
  rw [applyTransformation_ren hf, bind_mapOut]
  refine bind_congr_fun fun std => ?_
  rw [getPrimitiveSpaceGroupOps_ren hf sa ho]
  simp only [hid]
  rfl

/-- **C93.** In any arithmetic, for every iteration order of the hash maps: if the species are renamed in a way that keeps their
alphabetical order, then (with the same orders up to the names) the primitive cell and the two standard structures are the same
with the names exchanged, and `get_space_group_info` gives literally the same answer: number, symbol and operations, or the same
panic. -/
theorem C93_names_are_labels (hf : StrictMono f) (sa : SymmetryAnalyzer K) (h h' : HashOrders K) (ho : SameOrders f h h') (fuel : ℕ)
    (s s' : Structure K) (hs : Spec.Renamed f s s') :
    Spec.SameUpToNames f (sa.reducer.findPrimitiveCell h.minEle s) (sa.reducer.findPrimitiveCell h'.minEle s') ∧
    Spec.SameUpToNames f (sa.getStandardConventionalStructure h fuel s) (sa.getStandardConventionalStructure h' fuel s') ∧
    Spec.SameUpToNames f (sa.getStandardPrimitiveStructure h fuel s) (sa.getStandardPrimitiveStructure h' fuel s') ∧
    sa.getSpaceGroupInfo h' fuel s' = sa.getSpaceGroupInfo h fuel s := by
  rw [renamed_iff] at hs
  subst hs
  exact ⟨sameUpToNames_of (findPrimitiveCell_ren hf _ _ ho.minEle), sameUpToNames_of (conventional_ren sa hf ho fuel s),
    sameUpToNames_of (primitive_ren sa hf ho fuel s), info_ren sa hf ho fuel s⟩

/-- **C93, over all iteration orders.** The answers that `get_space_group_info` can give, over all iteration orders of the hash
maps, are the same before and after renaming. -/
theorem C93_same_answers (hf : StrictMono f) (sa : SymmetryAnalyzer K) (fuel : ℕ) (s s' : Structure K) (hs : Spec.Renamed f s s')
    (o : Outcome (ℕ × String × List (SymmOp K))) :
    (∃ h : HashOrders K, h.Valid ∧ sa.getSpaceGroupInfo h fuel s = o) ↔
      ∃ h : HashOrders K, h.Valid ∧ sa.getSpaceGroupInfo h fuel s' = o := by
  rw [renamed_iff] at hs
  subst hs
  constructor
  · rintro ⟨h, hv, e⟩
    obtain ⟨h', hv', ho⟩ := sameOrders_of hf h hv
    exact ⟨h', hv', by rw [info_ren sa hf ho, e]⟩
  · rintro ⟨h', hv, e⟩
    obtain ⟨h, hv', ho⟩ := sameOrders_for hf h' hv
    exact ⟨h, hv', by rw [← info_ren sa hf ho, e]⟩

/-- the output of the Python functions, with the species renamed. -/
def Spec.namesOut (f : String → String) (d : List K × List String × List (List K)) : List K × List String × List (List K) :=
  (d.1, d.2.1.map f, d.2.2)

theorem input_ren (f : String → String) (lattice : List K) (sp : List String) (cs : List (List K)) (cart : Bool) :
    PyApi.generateInputStructure lattice (sp.map f) cs cart = mapOut (ren f) (PyApi.generateInputStructure lattice sp cs cart) := by
  unfold PyApi.generateInputStructure
  rw [mapOut_bind]
  refine bind_congr_fun fun L => ?_
  rw [mapOut_bind]
  refine bind_congr_fun fun c => ?_
  unfold Structure.new
  split <;> rfl

theorem output_ren (s : Structure K) :
    PyApi.generateOutputStructureData (ren f s) = Spec.namesOut f (PyApi.generateOutputStructureData s) := rfl

/-- **C93 for the Python functions.** -/
theorem C93_python (hf : StrictMono f) (h h' : HashOrders K) (ho : SameOrders f h h') (fuel : ℕ) (lattice : List K)
    (sp : List String) (cs : List (List K)) (cart : Bool) (dtol atol : K) :
    PyApi.getSpaceGroupInfo h' fuel lattice (sp.map f) cs cart dtol atol = PyApi.getSpaceGroupInfo h fuel lattice sp cs cart dtol atol ∧
    PyApi.findPrimitive h' lattice (sp.map f) cs cart dtol atol =
      (PyApi.findPrimitive h lattice sp cs cart dtol atol).bind (fun d => .ret (Spec.namesOut f d)) ∧
    PyApi.niggliReduce lattice (sp.map f) cs cart dtol =
      (PyApi.niggliReduce lattice sp cs cart dtol).bind (fun d => .ret (Spec.namesOut f d)) ∧
    PyApi.getStandardConventionalStructure h' fuel lattice (sp.map f) cs cart dtol atol =
      (PyApi.getStandardConventionalStructure h fuel lattice sp cs cart dtol atol).bind (fun d => .ret (Spec.namesOut f d)) ∧
    PyApi.getStandardPrimitiveStructure h' fuel lattice (sp.map f) cs cart dtol atol =
      (PyApi.getStandardPrimitiveStructure h fuel lattice sp cs cart dtol atol).bind (fun d => .ret (Spec.namesOut f d)) := by
  have hb : ∀ {α β γ : Type} (o : Outcome α) (k : α → Outcome β) (k' : β → Outcome γ),
      (o.bind k).bind k' = o.bind fun a => (k a).bind k' := by
    intro α β γ o k k'
    cases o <;> rfl
  refine ⟨?_, ?_, ?_, ?_, ?_⟩
  · unfold PyApi.getSpaceGroupInfo
    rw [input_ren, bind_mapOut]
    exact bind_congr_fun fun s => by rw [info_ren _ hf ho]
  · unfold PyApi.findPrimitive
    rw [input_ren, bind_mapOut, hb]
    refine bind_congr_fun fun s => ?_
    rw [findPrimitiveCell_ren hf _ _ ho.minEle, bind_mapOut, hb]
    rfl
  · unfold PyApi.niggliReduce
    rw [input_ren, bind_mapOut, hb]
    refine bind_congr_fun fun s => ?_
    rw [niggliReduce_ren hf, bind_mapOut, hb]
    rfl
  · unfold PyApi.getStandardConventionalStructure
    rw [input_ren, bind_mapOut, hb]
    refine bind_congr_fun fun s => ?_
    rw [conventional_ren _ hf ho, bind_mapOut, hb]
    rfl
  · unfold PyApi.getStandardPrimitiveStructure
    rw [input_ren, bind_mapOut, hb]
    refine bind_congr_fun fun s => ?_
    rw [primitive_ren _ hf ho, bind_mapOut, hb]
    rfl

end

/-! ## renamings of the species that occur -/

/-- a name for `e` that only depends on the species of `sp` below `e`, if `e` is one of `sp`. -/
def spell (sp : List String) (e : String) : String :=
  String.ofList (List.replicate (sp.countP fun d => decide (d < e)) 'b' ++ if e ∈ sp then ['b'] else 'a' :: e.toList)

theorem replicate_lt (k : ℕ) {x y : List Char} (h : x < y) : List.replicate k 'b' ++ x < List.replicate k 'b' ++ y := by
  induction k with
  | zero => simpa using h
  | succ k ih =>
    rw [List.replicate_succ, List.cons_append, List.cons_append, List.cons_lt_cons_iff]
    exact .inr ⟨rfl, ih⟩

theorem spell_strictMono (sp : List String) : StrictMono (spell sp) := by
  intro e e' h
  rw [String.lt_iff_toList_lt]
  unfold spell
  rw [String.toList_ofList, String.toList_ofList]
  have hle : ∀ l : List String, (l.countP fun d => decide (d < e)) ≤ l.countP fun d => decide (d < e') := by
    intro l
    apply List.countP_mono_left
    intro d _ hd
    simp only [decide_eq_true_eq] at hd ⊢
    exact hd.trans h
  rcases (hle sp).eq_or_lt with hk | hk
  · -- the same number of species below
    have hmem : e ∉ sp := by
      intro hm
      have : ∀ l : List String, e ∈ l → (l.countP fun d => decide (d < e)) < l.countP fun d => decide (d < e') := by
        intro l
        induction l with
        | nil => simp
        | cons a l ih =>
          intro hm
          rw [List.countP_cons, List.countP_cons]
          rcases List.mem_cons.1 hm with rfl | hm
          · have := hle l
            rw [if_neg (by simp only [lt_irrefl, decide_false, Bool.false_eq_true, not_false_eq_true]), if_pos (decide_eq_true h)]
            omega
          · have := ih hm
            by_cases h1 : a < e
            · rw [if_pos (decide_eq_true h1), if_pos (decide_eq_true (h1.trans h))]
              omega
            · simp only [h1, decide_false, Bool.false_eq_true, if_false]
              omega
      exact absurd hk (this sp hm).ne
    rw [hk, if_neg hmem]
    apply replicate_lt
    split
    · rw [List.cons_lt_cons_iff]
      exact .inl (by decide)
    · rw [List.cons_lt_cons_iff]
      exact .inr ⟨rfl, String.lt_iff_toList_lt.1 h⟩
  · -- more species below
    generalize (sp.countP fun d => decide (d < e)) = k at hk
    obtain ⟨j, hj⟩ := Nat.exists_eq_add_of_lt hk
    rw [hj, show k + j + 1 = k + (j + 1) from rfl, List.replicate_add, List.append_assoc]
    apply replicate_lt
    rw [List.replicate_succ, List.cons_append]
    split
    · rw [List.cons_lt_cons_iff]
      refine .inr ⟨rfl, ?_⟩
      have : List.replicate j 'b' ++ (if e' ∈ sp then ['b'] else 'a' :: e'.toList) ≠ [] := by
        split <;> simp
      cases hl : List.replicate j 'b' ++ (if e' ∈ sp then ['b'] else 'a' :: e'.toList) with
      | nil => exact absurd hl this
      | cons x l => exact List.nil_lt_cons x l
    · rw [List.cons_lt_cons_iff]
      exact .inl (by decide)

theorem spell_map {f : String → String} {sp : List String} (hf : StrictMonoOn f {e | e ∈ sp}) :
    (sp.map f).map (spell (sp.map f)) = sp.map (spell sp) := by
  rw [List.map_map]
  apply List.map_congr_left
  intro e he
  have h1 : f e ∈ sp.map f := List.mem_map_of_mem he
  have h2 : ((sp.map f).countP fun d => decide (d < f e)) = sp.countP fun d => decide (d < e) := by
    rw [List.countP_map]
    apply List.countP_congr
    intro d hd
    simp only [Function.comp, decide_eq_true_eq]
    exact hf.lt_iff_lt hd he
  show spell (sp.map f) (f e) = spell sp e
  unfold spell
  rw [if_pos h1, if_pos he, h2]

section
variable {K : Type} [Add K] [Sub K] [Mul K] [Div K] [Neg K] [Zero K] [One K] [IntCast K]
  [LT K] [LE K] [DecidableLT K] [DecidableLE K] [BEq K] [FRound K] [FTrans K]
variable {f : String → String}

/-- **C93, isostructural compounds.** In any arithmetic: if the species that occur are exchanged for others in the same alphabetical
order, the answers that `get_space_group_info` can give, over all iteration orders of the hash maps, are literally the same. -/
theorem C93_isostructural (sa : SymmetryAnalyzer K) (fuel : ℕ) (s s' : Structure K) (hf : StrictMonoOn f {e | e ∈ s.species})
    (hs : Spec.Renamed f s s') (o : Outcome (ℕ × String × List (SymmOp K))) :
    (∃ h : HashOrders K, h.Valid ∧ sa.getSpaceGroupInfo h fuel s = o) ↔
      ∃ h : HashOrders K, h.Valid ∧ sa.getSpaceGroupInfo h fuel s' = o := by
  have e : Spec.Renamed (spell s.species) s (ren (spell s.species) s) := renamed_iff.2 rfl
  have e' : Spec.Renamed (spell s'.species) s' (ren (spell s.species) s) := by
    obtain ⟨h1, h2, h3, h4⟩ := hs
    refine ⟨h1.symm, ?_, h3.symm, h4.symm⟩
    rw [h2]
    exact (spell_map hf).symm
  rw [C93_same_answers (spell_strictMono _) sa fuel s _ e o, C93_same_answers (spell_strictMono _) sa fuel s' _ e' o]

/-- rock salt in any cell and any arithmetic: `Na`, `Cl` can be exchanged for `K`, `Br`. -/
example (sa : SymmetryAnalyzer K) (fuel : ℕ) (L : Mat3 K) (cs fs : List (Vec3 K)) (o : Outcome (ℕ × String × List (SymmOp K))) :
    (∃ h : HashOrders K, h.Valid ∧ sa.getSpaceGroupInfo h fuel ⟨L, ["Na", "Cl", "Na", "Cl"], cs, fs⟩ = o) ↔
      ∃ h : HashOrders K, h.Valid ∧ sa.getSpaceGroupInfo h fuel ⟨L, ["K", "Br", "K", "Br"], cs, fs⟩ = o := by
  have hr : Spec.Renamed (fun e => if e = "Na" then "K" else "Br") (⟨L, ["Na", "Cl", "Na", "Cl"], cs, fs⟩ : Structure K)
      ⟨L, ["K", "Br", "K", "Br"], cs, fs⟩ := ⟨rfl, by simp, rfl, rfl⟩
  refine C93_isostructural sa fuel _ _ ?_ hr o
  intro a ha b hb hab
  simp only [List.mem_cons, List.not_mem_nil, or_false, Set.mem_setOf_eq] at ha hb
  have h1 : "Br" < "K" := by decide
  have h2 : ¬ "Na" < "Cl" := by decide
  rcases ha with rfl | rfl | rfl | rfl <;> rcases hb with rfl | rfl | rfl | rfl <;>
    first
      | exact absurd hab (lt_irrefl _)
      | exact absurd hab h2
      | simpa using h1

end

end CrystSymm
