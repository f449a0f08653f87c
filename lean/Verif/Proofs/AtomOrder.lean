import Verif.Props.CentredBoxes

set_option autoImplicit false
set_option linter.unusedSectionVars false

/-! # The order in which the centring vectors of a crystal with one element are found -/

namespace CrystSymm

open Spec Reducer

variable {L : Mat3 ℝ} {N : ℕ} {hs : List (Vec3 ℤ)} {d : ℝ}

theorem normFracVec_gridPoint {s : Structure ℝ} (h : CentredCell s N hs d) {k : Vec3 ℤ} (hk : k ∈ 0 :: hs) :
    normFracVec (Structure.fracTols s.lattice d) (gridPoint N k) = gridPoint N k := by
  obtain ⟨hN, -, hb⟩ := h.grid
  obtain ⟨tx, ty, tz⟩ := h.tols
  have hk' : (0 ≤ k.x ∧ k.x < N) ∧ (0 ≤ k.y ∧ k.y < N) ∧ (0 ≤ k.z ∧ k.z < N) := by
    rcases List.mem_cons.1 hk with rfl | hk
    · have : (0 : ℤ) < N := by exact_mod_cast hN
      exact ⟨⟨le_rfl, this⟩, ⟨le_rfl, this⟩, ⟨le_rfl, this⟩⟩
    · exact (hb k hk).2
  unfold normFracVec
  ext
  · exact normComp_grid tx.1 tx.2 hN hk'.1 ⟨0, by simp [gridPoint]⟩
  · exact normComp_grid ty.1 ty.2 hN hk'.2.1 ⟨0, by simp [gridPoint]⟩
  · exact normComp_grid tz.1 tz.2 hN hk'.2.2 ⟨0, by simp [gridPoint]⟩

theorem metal_normalized (h : CentredCell (metalCell L N hs) N hs d) :
    ((metalCell L N hs).normalizeCoords d).species = (0 :: hs).map (fun _ => "Fe") ∧
    ((metalCell L N hs).normalizeCoords d).fracCoords = (0 :: hs).map (gridPoint N) := by
  have e1 : normalizeFracVectors (metalCell L N hs).fracCoords (Structure.fracTols (metalCell L N hs).lattice d) = (0 :: hs).map (gridPoint N) := by
    unfold normalizeFracVectors
    show ((0 :: hs).map (gridPoint N)).map _ = _
    rw [List.map_map]
    exact List.map_congr_left fun k hk => normFracVec_gridPoint h hk
  have e2 : Structure.sortBySpecies (((0 :: hs).map fun _ => "Fe").zip
      ((((0 :: hs).map (gridPoint N)).map fun v : Vec3 ℝ => L * v).zip ((0 :: hs).map (gridPoint N)))) =
      (0 :: hs).map fun k => ("Fe", L * gridPoint N k, gridPoint N k) := by
    rw [List.map_map, List.zip_map', List.zip_map']
    unfold Structure.sortBySpecies
    refine List.mergeSort_of_pairwise ?_
    rw [List.pairwise_map]
    exact List.pairwise_of_forall fun _ _ => by simp
  have e3 : (metalCell L N hs).species = (0 :: hs).map fun _ => "Fe" := rfl
  have e4 : (metalCell L N hs).lattice = L := rfl
  unfold Structure.normalizeCoords
  dsimp only
  rw [e1, e3, e4]
  unfold Structure.getCartCoords
  rw [e2]
  simp [Function.comp_def]

theorem unitVecs_grid (hN : 0 < N) : (unitVecs : List (Vec3 ℝ)) = (unitsZ N).map (gridPoint N) := by
  have hn : (N : ℝ) ≠ 0 := by positivity
  simp [unitVecs, unitsZ, gridPoint, hn]

/-- in a crystal with one element, listed from the origin, the centring vectors are found in the order of the atoms. -/
theorem metal_list (h : CentredCell (metalCell L N hs) N hs d) {l : List (Vec3 ℤ)} (hl : l.Perm hs)
    (hc : CandidateList (metalCell L N hs) N d l) : l = hs := by
  obtain ⟨hN, -, -⟩ := h.grid
  obtain ⟨e1, e2⟩ := metal_normalized h
  obtain ⟨e, base, he, hb, hf⟩ := hc
  rw [e1, List.mem_map] at he
  obtain ⟨-, -, rfl⟩ := he
  rw [e1, e2] at hb hf
  have hi : ((0 :: hs).map fun _ => "Fe").idxOf "Fe" = 0 := by simp
  rw [hi] at hb hf
  have hb0 : base = 0 := by
    simp at hb
    rw [← hb]
    ext <;> simp [gridPoint]
  subst hb0
  have key : ∀ (m : List (Vec3 ℤ)) (n : ℕ), (∀ k ∈ m, k ∈ hs) → 1 ≤ n → ((m.map fun k => (gridPoint N k, "Fe")).zipIdx n).filterMap
      (fun p : (Vec3 ℝ × String) × ℕ => if p.1.2 = "Fe" ∧ p.2 ≠ 0 then some (normFracVec (Structure.fracTols (metalCell L N hs).lattice d) (p.1.1 - 0)) else none) =
      m.map (gridPoint N) := by
    intro m
    induction m with
    | nil => intro n _ _; rfl
    | cons k m ih =>
      intro n hm hn
      have e0 : gridPoint N k - 0 = gridPoint N k := by ext <;> simp
      have hf0 : (if ("Fe" = "Fe" ∧ n ≠ 0) then some (normFracVec (Structure.fracTols (metalCell L N hs).lattice d) (gridPoint N k - 0)) else none) =
          some (gridPoint N k) := by
        rw [if_pos ⟨rfl, by omega⟩, e0, normFracVec_gridPoint h (List.mem_cons_of_mem _ (hm k (by simp)))]
      rw [List.map_cons, List.zipIdx_cons, List.filterMap_cons_some (a := ((gridPoint N k, "Fe"), n)) (b := gridPoint N k) hf0,
        ih (n + 1) (fun k' hk' => hm k' (by simp [hk'])) (by omega), List.map_cons]
  have hcand : candidateVecs (Structure.fracTols (metalCell L N hs).lattice d) "Fe" 0 0 ((0 :: hs).map fun _ => "Fe") ((0 :: hs).map (gridPoint N)) =
      (unitsZ N ++ hs).map (gridPoint N) := by
    unfold candidateVecs
    rw [List.zip_map', List.map_cons, List.zipIdx_cons, List.filterMap_cons, key hs _ (fun _ hk => hk) (by omega), unitVecs_grid hN, List.map_append]
    simp
  rw [hcand] at hf
  have hlen := congrArg List.length hf
  rw [List.length_map, List.length_append, hl.length_eq, ← List.length_append, ← List.length_map (f := gridPoint N)] at hlen
  rw [List.filter_eq_self.2 (List.length_filter_eq_length_iff.1 hlen)] at hf
  exact (List.append_cancel_left ((List.map_injective_iff.2 (fun _ _ => gridPoint_injective hN)) hf)).symm

end CrystSymm
