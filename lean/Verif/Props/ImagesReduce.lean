import Verif.Props.PeriodicImages
import Verif.Props.Delaunay
import Verif.Props.Niggli
import Verif.Props.DelaunayIdem
import Verif.Proofs.ChangeBasis

set_option autoImplicit false
set_option linter.unusedSectionVars false

/-! # C96 for the two reductions -/

namespace CrystSymm

open Spec Reducer

theorem samePoint_rebase {L : Mat3 ℝ} {n : Mat3 ℤ} (hn : n.det = 1 ∨ n.det = -1) (h : SvAbove (L * n.map fun k : ℤ => (k : ℝ)))
    {u v : Vec3 ℝ} (huv : SamePoint u v) :
    SamePoint ((FTrans.pinv (L * n.map fun k : ℤ => (k : ℝ)) : Mat3 ℝ) * (L * u))
      ((FTrans.pinv (L * n.map fun k : ℤ => (k : ℝ)) : Mat3 ℝ) * (L * v)) := by
  obtain ⟨m, hm, -, -⟩ := unimodular_inverse hn
  have e : ∀ w : Vec3 ℝ, (FTrans.pinv (L * n.map fun k : ℤ => (k : ℝ)) : Mat3 ℝ) * (L * w) = (m.map fun k : ℤ => (k : ℝ)) * w := by
    intro w
    have h2 : L * w = (L * n.map fun k : ℤ => (k : ℝ)) * ((m.map fun k : ℤ => (k : ℝ)) * w) := by
      have h3 : (n.map fun k : ℤ => (k : ℝ)) * (m.map fun k : ℤ => (k : ℝ)) = 1 := by
        rw [← map_intCast_mul, hm]
        ext <;> simp [Mat3.map]
      rw [Mat3.mul_mulVec, ← Mat3.mul_mulVec (n.map _), h3, Mat3.one_mulVec]
    rw [h2, ← Mat3.mul_mulVec, pinv_mul h, Mat3.one_mulVec]
  rw [e, e]
  exact samePoint_mulVec huv

theorem offFaces_of_normalised {t : Structure ℝ} (ht : t.species.length = t.fracCoords.length) {d : ℝ}
    (ho : Spec.OffFaces (t.normalizeCoords d) d) : Spec.OffFaces t d := by
  intro v hv k
  obtain ⟨c, p, f, g⟩ := C12_normalize_coords_discrete t d
  have hw : normFracVec (Structure.fracTols t.lattice d) v ∈ (t.normalizeCoords d).fracCoords := by
    obtain ⟨i, hi, rfl⟩ := List.getElem_of_mem hv
    have hz : (t.species[i]'(by rw [ht]; exact hi), t.fracCoords[i]) ∈ t.species.zip t.fracCoords := by
      rw [List.mem_iff_getElem]
      exact ⟨i, by simp [ht, hi], by simp⟩
    have hm : (t.species[i]'(by rw [ht]; exact hi), normFracVec (Structure.fracTols t.lattice d) t.fracCoords[i]) ∈
        sites (t.normalizeCoords d) := by
      have := g (t.species[i]'(by rw [ht]; exact hi))
      refine (List.mem_filter (p := fun p : String × Vec3 ℝ => decide (p.1 = t.species[i]'(by rw [ht]; exact hi)))).1 ?_ |>.1
      rw [this]
      exact List.mem_map.2 ⟨_, List.mem_filter.2 ⟨hz, by simp⟩, rfl⟩
    exact (List.of_mem_zip hm).2
  obtain ⟨a, ha⟩ := normComp_sameMod1 (Structure.fracTols t.lattice d).x v.x
  obtain ⟨b, hb⟩ := normComp_sameMod1 (Structure.fracTols t.lattice d).y v.y
  obtain ⟨c, hc⟩ := normComp_sameMod1 (Structure.fracTols t.lattice d).z v.z
  have hl : (t.normalizeCoords d).lattice = t.lattice := rfl
  refine ⟨fun hk => (ho _ hw (k + a)).1 ?_, fun hk => (ho _ hw (k + b)).2.1 ?_, fun hk => (ho _ hw (k + c)).2.2 ?_⟩
  · rw [hl]
    show normComp _ _ * _ = _
    rw [sub_eq_iff_eq_add.1 ha]
    push_cast
    linear_combination hk
  · rw [hl]
    show normComp _ _ * _ = _
    rw [sub_eq_iff_eq_add.1 hb]
    push_cast
    linear_combination hk
  · rw [hl]
    show normComp _ _ * _ = _
    rw [sub_eq_iff_eq_add.1 hc]
    push_cast
    linear_combination hk

theorem rebuild_of_images (r : Reducer ℝ) {s s' : Structure ℝ} (hs : Spec.SameImages s s') (c : Consistent s) (c' : Consistent s')
    {n : Mat3 ℤ} (hn : n.det = 1 ∨ n.det = -1) (h : SvAbove (s.lattice * n.map fun k : ℤ => (k : ℝ))) (hd : 0 ≤ r.dtol)
    (h1 : r.dtol < √(lenSq (s.lattice * n.map fun k : ℤ => (k : ℝ)).col0)) (h2 : r.dtol < √(lenSq (s.lattice * n.map fun k : ℤ => (k : ℝ)).col1))
    (h3 : r.dtol < √(lenSq (s.lattice * n.map fun k : ℤ => (k : ℝ)).col2))
    (ho : Spec.OffFaces (r.rebuild s (s.lattice * n.map fun k : ℤ => (k : ℝ))) r.dtol) :
    r.rebuild s' (s.lattice * n.map fun k : ℤ => (k : ℝ)) = r.rebuild s (s.lattice * n.map fun k : ℤ => (k : ℝ)) := by
  have hf : ∀ t : Structure ℝ, Consistent t → t.lattice = s.lattice →
      Structure.getFracCoords (s.lattice * n.map fun k : ℤ => (k : ℝ)) t.coords =
        t.fracCoords.map fun v : Vec3 ℝ => (FTrans.pinv (s.lattice * n.map fun k : ℤ => (k : ℝ)) : Mat3 ℝ) * (s.lattice * v) := by
    intro t ht hl
    unfold Structure.getFracCoords
    rw [ht.2, List.map_map, hl]
    rfl
  have key : ∀ (g : Vec3 ℝ → Vec3 ℝ) (a : List String) (b : List (Vec3 ℝ)) (e : String),
      ((a.zip (b.map g)).filter fun p => p.1 = e) = ((a.zip b).filter fun p => p.1 = e).map fun p => (p.1, g p.2) := by
    intro g a b e
    rw [List.zip_map_right, List.filter_map]
    rfl
  unfold rebuild at ho ⊢
  refine normalizeCoords_of_images (s := Structure.new _ s.species (Structure.getFracCoords _ s.coords) false)
    (s' := Structure.new _ s'.species (Structure.getFracCoords _ s'.coords) false)
    ⟨rfl, fun e => ?_⟩ hd h1 h2 h3 (offFaces_of_normalised ?_ ho)
  · show List.Forall₂ _ ((s'.species.zip (Structure.getFracCoords _ s'.coords)).filter _)
      ((s.species.zip (Structure.getFracCoords _ s.coords)).filter _)
    rw [hf s' c' hs.1, hf s c rfl, key, key, List.forall₂_map_left_iff, List.forall₂_map_right_iff]
    exact (hs.2 e).imp fun p q hpq => ⟨hpq.1, samePoint_rebase hn h hpq.2⟩
  · show s.species.length = (Structure.getFracCoords _ s.coords).length
    rw [hf s c rfl, List.length_map]
    exact c.1

/-- **C96 for the reductions.** `niggli_reduce` and `delaunay_reduce` return literally the same structure for any images
of the atoms, provided the reduced cell is above the cut-off of the pseudo-inverse, its edges exceed the tolerance and no atom of the
result lies exactly the tolerance below one of its faces. -/
theorem C96_reductions (r : Reducer ℝ) (s s' t : Structure ℝ) (hs : Spec.SameImages s s') (c : Consistent s) (c' : Consistent s')
    (hd : 0 ≤ r.dtol) (hsv : SvAbove t.lattice) (h1 : r.dtol < √(lenSq t.lattice.col0)) (h2 : r.dtol < √(lenSq t.lattice.col1))
    (h3 : r.dtol < √(lenSq t.lattice.col2)) (ho : Spec.OffFaces t r.dtol) :
    (∀ tol, r.niggliReduce s tol = .ret t → r.niggliReduce s' tol = .ret t) ∧
    ∀ full, r.delaunayReduce s full = .ret t → r.delaunayReduce s' full = .ret t := by
  constructor
  · intro tol h
    obtain ⟨st, hl, rfl⟩ := niggliReduce_ret h
    obtain ⟨M, N, -, ⟨n, hn, rfl⟩, -, hst⟩ := nigLoop_uni hl
    have ht : st.trans = n.map fun k : ℤ => (k : ℝ) := by rw [hst]; simp only [NigState.step, one_mul]
    rw [ht] at hsv h1 h2 h3 ho ⊢
    have := rebuild_of_images r hs c c' hn hsv hd h1 h2 h3 ho
    unfold niggliReduce Structure.volume Structure.metricTensor at *
    rw [hs.1, hl]
    show Outcome.ret _ = _
    rw [ht, this]
  · intro full h
    obtain ⟨d, count, M, hd', hc, hM, rfl⟩ := delaunayReduce_ret h
    obtain ⟨w, hw⟩ := delaunayLoop_super (superOf_init s) hd'
    obtain ⟨n, hn, rfl⟩ := delaunayLattice_unimodular hw hM
    have := rebuild_of_images r hs c c' hn hsv hd h1 h2 h3 ho
    have e : s'.delaunayMatrix = s.delaunayMatrix := by
      unfold Structure.delaunayMatrix
      rw [hs.1]
    unfold delaunayReduce
    rw [e, hd']
    show (if count = 100 then _ else _) = _
    rw [if_neg hc, hM]
    show Outcome.ret _ = _
    rw [this]

/-- **C96 for the reductions that fail.** They look at the atoms only in the end, so they panic for all images alike. -/
theorem C96_reductions_panic (r : Reducer ℝ) (s s' : Structure ℝ) (hs : s'.lattice = s.lattice) (m : String) :
    (∀ tol, r.niggliReduce s tol = .panic m → r.niggliReduce s' tol = .panic m) ∧
    ∀ full, r.delaunayReduce s full = .panic m → r.delaunayReduce s' full = .panic m := by
  constructor
  · intro tol h
    unfold niggliReduce Structure.volume Structure.metricTensor at *
    rw [hs]
    cases hl : nigLoop (epsilonOf tol s.lattice.det) 100 ⟨s.lattice.transpose * s.lattice, 1⟩ with
    | ret st => rw [hl] at h; exact absurd h (by simp [Outcome.bind])
    | panic m' => rw [hl] at h; exact h
    | running => rw [hl] at h; exact h
  · intro full h
    have e : s'.delaunayMatrix = s.delaunayMatrix := by
      unfold Structure.delaunayMatrix
      rw [hs]
    unfold delaunayReduce at *
    rw [e]
    cases hl : delaunayLoop 101 0 s.delaunayMatrix with
    | ret dc =>
      rw [hl] at h
      obtain ⟨d, count⟩ := dc
      simp only [Outcome.bind] at h ⊢
      by_cases hc : count = 100
      · rw [if_pos hc] at h ⊢; exact h
      · rw [if_neg hc] at h ⊢
        cases hM : delaunayLattice full d with
        | ret M => rw [hM] at h; simp at h
        | panic m' => rw [hM] at h; exact h
        | running => rw [hM] at h; exact h
    | panic m' => rw [hl] at h; exact h
    | running => rw [hl] at h; exact h

/-- a cube of edge 4. -/
def cube4 : Mat3 ℝ := ⟨4, 0, 0, 0, 4, 0, 0, 0, 4⟩

theorem cube4_edges : √(lenSq cube4.col0) = 4 ∧ √(lenSq cube4.col1) = 4 ∧ √(lenSq cube4.col2) = 4 := by
  have r4 : √(4 ^ 2 : ℝ) = 4 := Real.sqrt_sq (by norm_num)
  have h0 : lenSq cube4.col0 = 4 ^ 2 := by norm_num [lenSq, Mat3.col0, cube4]
  have h1 : lenSq cube4.col1 = 4 ^ 2 := by norm_num [lenSq, Mat3.col1, cube4]
  have h2 : lenSq cube4.col2 = 4 ^ 2 := by norm_num [lenSq, Mat3.col2, cube4]
  rw [h0, h1, h2]
  exact ⟨r4, r4, r4⟩

theorem cube4_sv : SvAbove cube4 := svAbove_of_size (by norm_num [lenSq, Mat3.col0, Mat3.col1, Mat3.col2, Mat3.det, cube4])

/-- an atom at a quarter of the diagonal of the cube, and an image of it. -/
noncomputable def quarter : Structure ℝ := ⟨cube4, ["Po"], [⟨1, 1, 1⟩], [⟨1 / 4, 1 / 4, 1 / 4⟩]⟩
noncomputable def quarter' : Structure ℝ := ⟨cube4, ["Po"], [⟨5, -3, 9⟩], [⟨5 / 4, -3 / 4, 9 / 4⟩]⟩

theorem quarter_consistent : Consistent quarter := by
  refine ⟨rfl, ?_⟩
  simp only [quarter, List.map_cons, List.map_nil, List.cons.injEq, and_true]
  ext <;> norm_num [cube4]

theorem quarter'_consistent : Consistent quarter' := by
  refine ⟨rfl, ?_⟩
  simp only [quarter', List.map_cons, List.map_nil, List.cons.injEq, and_true]
  ext <;> norm_num [cube4]

theorem quarter_images : Spec.SameImages quarter quarter' := by
  refine ⟨rfl, fun e => ?_⟩
  by_cases c : "Po" = e
  · subst c
    simp only [quarter, quarter', List.zip_cons_cons, List.zip_nil_right, List.filter_cons, List.filter_nil, decide_true, if_true]
    exact .cons ⟨rfl, ⟨1, by norm_num⟩, ⟨-1, by norm_num⟩, ⟨2, by norm_num⟩⟩ .nil
  · simp [quarter, quarter', c]

theorem quarter_offFaces : Spec.OffFaces quarter (1 / 10) := by
  have o : ∀ k : ℤ, (1 / 4 : ℝ) * 4 ≠ k * 4 - 1 / 10 := by
    intro k hk
    have : (40 * k : ℝ) = 11 := by linarith
    have : 40 * k = 11 := by exact_mod_cast this
    omega
  intro v hv k
  have hv' : v = ⟨1 / 4, 1 / 4, 1 / 4⟩ := by simpa [quarter] using hv
  subst hv'
  rw [show quarter.lattice = cube4 from rfl, cube4_edges.1, cube4_edges.2.1, cube4_edges.2.2]
  exact ⟨o k, o k, o k⟩

theorem quarter_normal : quarter.normalizeCoords (1 / 10) = quarter := by
  refine consistent_ext (C12_normalize_coords_discrete quarter (1 / 10)).2.1 quarter_consistent rfl ?_
  have e : ∀ v : Vec3 ℝ, v.mag = √(lenSq v) := fun v => rfl
  have hn : normComp ((1 / 10 : ℝ) / 4) (1 / 4) = 1 / 4 :=
    normComp_of_mem (by norm_num) (by norm_num) (by norm_num) (by norm_num)
  unfold sites Structure.normalizeCoords Structure.sortBySpecies
  simp only [quarter, normalizeFracVectors, Structure.getCartCoords, List.map_cons, List.map_nil, List.zip_cons_cons, List.zip_nil_right,
    List.mergeSort_singleton, normFracVec, Structure.fracTols, e, cube4_edges.1, cube4_edges.2.1, cube4_edges.2.2, hn]

/-- `delaunay_reduce` returns the atom at a quarter of the diagonal from its image in another cell. -/
example : (⟨1 / 10, 5⟩ : Reducer ℝ).delaunayReduce quarter' false = .ret quarter := by
  have hself : (⟨1 / 10, 5⟩ : Reducer ℝ).rebuild quarter quarter.lattice = quarter := by
    have e : Structure.getFracCoords quarter.lattice quarter.coords = quarter.fracCoords := by
      rw [quarter_consistent.2]
      exact (C11_round_trip cube4 cube4_sv quarter.fracCoords).1
    have e' : Structure.new quarter.lattice quarter.species quarter.fracCoords false = quarter := by
      have := quarter_consistent.2
      ext1
      · rfl
      · rfl
      · exact this.symm
      · rfl
    unfold rebuild
    rw [e, e']
    exact quarter_normal
  have hred : (⟨1 / 10, 5⟩ : Reducer ℝ).delaunayReduce quarter false = .ret quarter := by
    obtain ⟨t, ht, hl⟩ := (C92_fixed_iff_reduced ⟨1 / 10, 5⟩ quarter).2 (by
      norm_num [ObtuseSuperbase, dotp, quarter, cube4, Mat3.col0, Mat3.col1, Mat3.col2])
    obtain ⟨d, count, M, h1, h2, h3, rfl⟩ := delaunayReduce_ret ht
    rw [rebuild_lattice] at hl
    rw [ht, hl, hself]
  refine (C96_reductions ⟨1 / 10, 5⟩ quarter quarter' quarter quarter_images quarter_consistent quarter'_consistent ?_ cube4_sv ?_ ?_ ?_
    quarter_offFaces).2 false hred
  · norm_num
  · show (1 / 10 : ℝ) < √(lenSq cube4.col0)
    rw [cube4_edges.1]; norm_num
  · show (1 / 10 : ℝ) < √(lenSq cube4.col1)
    rw [cube4_edges.2.1]; norm_num
  · show (1 / 10 : ℝ) < √(lenSq cube4.col2)
    rw [cube4_edges.2.2]; norm_num

end CrystSymm
