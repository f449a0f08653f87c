import Verif.Proofs.Rebuild
import Verif.Proofs.Outcome
import Verif.Proofs.Mag
import Mathlib.Data.List.Permutation

set_option autoImplicit false

/-! # The Delaunay loop -/

set_option linter.unusedSectionVars false

namespace CrystSymm

open Spec Reducer

theorem delaunayStep_eq {K : Type} [CommRing K] (p : Fin 4 × Fin 4) (hp : p.1 ≠ p.2) (d : Fin 4 → Vec3 K)
    (i : Fin 4) :
    delaunayStep p d i = if i = p.2 then -d p.2 else if i = p.1 then d p.1 else d p.2 + d i := by
  have hneg : ∀ v : Vec3 K, Vec3.scale (-1) v = -v := by
    intro v; ext <;> simp [Vec3.scale]
  obtain ⟨a, b⟩ := p
  unfold delaunayStep
  fin_cases a <;> fin_cases b <;> first
    | exact absurd rfl hp
    | (fin_cases i <;> simp [setCol, hneg])

theorem pairMap_ne {p : Fin 4 × Fin 4} (h : p ∈ pairMap) : p.1 ≠ p.2 := by
  revert p; decide

/-- integer coordinates of a superbase of the lattice `L`. -/
structure SuperOf (L : Mat3 ℝ) (d : Fin 4 → Vec3 ℝ) (w : Fin 4 → Vec3 ℤ) : Prop where
  eq : ∀ i, d i = L * (w i).map fun k : ℤ => (k : ℝ)
  sum : w 0 + w 1 + w 2 + w 3 = 0
  det : (Mat3.ofCols (w 0) (w 1) (w 2)).det = 1 ∨ (Mat3.ofCols (w 0) (w 1) (w 2)).det = -1

theorem vmap_add (u v : Vec3 ℤ) :
    ((u + v).map fun k : ℤ => (k : ℝ)) = (u.map fun k : ℤ => (k : ℝ)) + v.map fun k : ℤ => (k : ℝ) := by
  ext <;> simp [Vec3.map]

theorem vmap_neg (u : Vec3 ℤ) :
    ((-u).map fun k : ℤ => (k : ℝ)) = -(u.map fun k : ℤ => (k : ℝ)) := by
  ext <;> simp [Vec3.map]

theorem SuperOf.step {L : Mat3 ℝ} {d : Fin 4 → Vec3 ℝ} {w : Fin 4 → Vec3 ℤ} (h : SuperOf L d w)
    {p : Fin 4 × Fin 4} (hp : p ∈ pairMap) : SuperOf L (delaunayStep p d) (delaunayStep p w) := by
  have hne := pairMap_ne hp
  have h3 : w 3 = -(w 0 + w 1 + w 2) := by
    have := h.sum
    exact eq_neg_of_add_eq_zero_right this
  refine ⟨?_, ?_, ?_⟩
  · intro i
    rw [delaunayStep_eq p hne, delaunayStep_eq p hne]
    split
    · rw [vmap_neg, Mat3.mulVec_neg, ← h.eq]
    · split
      · exact h.eq _
      · rw [vmap_add, Mat3.mulVec_add, ← h.eq, ← h.eq]
  · simp only [pairMap, List.mem_cons, List.not_mem_nil, or_false] at hp
    simp only [delaunayStep_eq p hne]
    rcases hp with rfl | rfl | rfl | rfl | rfl | rfl <;> simp [h3] <;> abel
  · have hd := h.det
    simp only [pairMap, List.mem_cons, List.not_mem_nil, or_false] at hp
    simp only [delaunayStep_eq p hne]
    have key : ∀ a b : ℤ, (b = a ∨ b = -a) → (a = 1 ∨ a = -1) → (b = 1 ∨ b = -1) := by
      intro a b; omega
    refine key _ _ ?_ hd
    rcases hp with rfl | rfl | rfl | rfl | rfl | rfl <;>
      simp [h3, Mat3.ofCols, Mat3.det] <;> first | (left; ring1) | (right; ring1)

theorem superOf_init (s : Structure ℝ) : ∃ w, SuperOf s.lattice s.delaunayMatrix w := by
  refine ⟨![⟨1, 0, 0⟩, ⟨0, 1, 0⟩, ⟨0, 0, 1⟩, ⟨-1, -1, -1⟩], ?_, ?_, Or.inl ?_⟩
  · intro i
    fin_cases i <;> ext <;>
      simp [Structure.delaunayMatrix, Mat3.col0, Mat3.col1, Mat3.col2, Vec3.map, Vec3.scale] <;> ring
  · ext <;> simp
  · simp [Mat3.ofCols, Mat3.det]

theorem getElem?_pairMap_mem {i : ℕ} {p : Fin 4 × Fin 4} (h : pairMap[i]? = some p) : p ∈ pairMap :=
  List.mem_of_getElem? h

theorem delaunayLoop_super {L : Mat3 ℝ} {n count : ℕ} {d d' : Fin 4 → Vec3 ℝ} {c' : ℕ}
    (hd : ∃ w, SuperOf L d w) (h : delaunayLoop n count d = .ret (d', c')) : ∃ w, SuperOf L d' w := by
  induction n generalizing count d with
  | zero =>
    simp only [delaunayLoop, Outcome.ret.injEq, Prod.mk.injEq] at h
    rw [← h.1]; exact hd
  | succ n ih =>
    rw [delaunayLoop] at h
    split at h
    · rw [Outcome.bind_eq_ret] at h
      obtain ⟨p, hp, h⟩ := h
      cases hq : pairMap[maxIndex (scalarProds d)]? with
      | none => rw [hq] at hp; simp [Outcome.ofOption] at hp
      | some q =>
        rw [hq] at hp
        simp only [Outcome.ofOption, Outcome.ret.injEq] at hp
        subst hp
        obtain ⟨w, hw⟩ := hd
        exact ih ⟨_, hw.step (getElem?_pairMap_mem hq)⟩ h
    · simp only [Outcome.ret.injEq, Prod.mk.injEq] at h
      rw [← h.1]; exact hd

/-- the property of four integer vectors that is invariant under permutation. -/
def IntSuper (l : List (Vec3 ℤ)) : Prop :=
  ∃ a b c d, l = [a, b, c, d] ∧ a + b + c + d = 0 ∧
    ((Mat3.ofCols a b c).det = 1 ∨ (Mat3.ofCols a b c).det = -1)

theorem IntSuper.perm {l l' : List (Vec3 ℤ)} (h : IntSuper l) (hp : l'.Perm l) : IntSuper l' := by
  obtain ⟨a, b, c, d, rfl, hs, hd⟩ := h
  have hd4 : d = -(a + b + c) := eq_neg_of_add_eq_zero_right hs
  have hmem : l' ∈ [a, b, c, d].permutations := List.mem_permutations.2 hp
  have key : ∀ x y : ℤ, (y = x ∨ y = -x) → (x = 1 ∨ x = -1) → (y = 1 ∨ y = -1) := by
    intro x y; omega
  have hperms : [a, b, c, d].permutations.Forall fun l => ∃ a' b' c' d', l = [a', b', c', d'] ∧
      a' + b' + c' + d' = a + b + c + d ∧
      ((Mat3.ofCols a' b' c').det = (Mat3.ofCols a b c).det ∨
        (Mat3.ofCols a' b' c').det = -(Mat3.ofCols a b c).det) := by
    simp only [List.permutations, List.permutationsAux, List.permutationsAux.rec, List.permutationsAux2,
      List.foldr, List.Forall]
    subst hd4
    refine ⟨?_, ?_, ?_, ?_, ?_, ?_, ?_, ?_, ?_, ?_, ?_, ?_, ?_, ?_, ?_, ?_, ?_, ?_, ?_, ?_, ?_, ?_, ?_, ?_⟩ <;>
      refine ⟨_, _, _, _, rfl, by abel, ?_⟩ <;>
      simp [Mat3.ofCols, Mat3.det] <;> first | (left; ring1) | (right; ring1)
  rw [List.forall_iff_forall_mem] at hperms
  obtain ⟨a', b', c', d', rfl, h1, h2⟩ := hperms l' hmem
  exact ⟨a', b', c', d', rfl, h1.trans hs, key _ _ h2 hd⟩

theorem perm_map_lift {α β : Type} (f : α → β) {l : List α} {m : List β} (h : m.Perm (l.map f)) :
    ∃ l' : List α, l'.Perm l ∧ m = l'.map f := by
  have hrel : List.Forall₂ (fun b a => b = f a) (l.map f) l := by
    rw [List.forall₂_map_left_iff, List.forall₂_same]
    intro _ _; rfl
  obtain ⟨l', h1, h2⟩ := List.perm_comp_forall₂ h hrel
  refine ⟨l', h2, ?_⟩
  clear h h2 hrel
  induction h1 with
  | nil => rfl
  | cons hab _ ih => rw [List.map_cons, ← hab, ih]

theorem mul_ofCols_map (L : Mat3 ℝ) (a b c : Vec3 ℤ) :
    Mat3.ofCols (L * a.map fun k : ℤ => (k : ℝ)) (L * b.map fun k : ℤ => (k : ℝ)) (L * c.map fun k : ℤ => (k : ℝ))
      = L * (Mat3.ofCols a b c).map fun k : ℤ => (k : ℝ) := by
  ext <;> simp [Mat3.ofCols, Mat3.map, Vec3.map]

theorem triAcute_unimodular (L : Mat3 ℝ) (a b c d : Vec3 ℤ)
    (h : (Mat3.ofCols a b c).det = 1 ∨ (Mat3.ofCols a b c).det = -1) :
    ∃ n : Mat3 ℤ, (n.det = 1 ∨ n.det = -1) ∧
      triAcute (L * a.map fun k : ℤ => (k : ℝ)) (L * b.map fun k : ℤ => (k : ℝ))
        (L * c.map fun k : ℤ => (k : ℝ)) (L * d.map fun k : ℤ => (k : ℝ))
        = L * n.map fun k : ℤ => (k : ℝ) := by
  have hneg : ∀ v : Vec3 ℝ, Vec3.scale (-1) v = -v := by
    intro v; ext <;> simp [Vec3.scale]
  unfold triAcute
  simp only [hneg, ← Mat3.mulVec_neg, ← Mat3.mulVec_add, ← vmap_add, ← vmap_neg, mul_ofCols_map]
  split
  · refine ⟨_, ?_, rfl⟩
    rw [show (Mat3.ofCols (-a) (-(a + b)) c).det = (Mat3.ofCols a b c).det by
      simp [Mat3.ofCols, Mat3.det]; ring]
    exact h
  · split
    · refine ⟨_, ?_, rfl⟩
      rw [show (Mat3.ofCols a (-b) (-(b + c))).det = (Mat3.ofCols a b c).det by
        simp [Mat3.ofCols, Mat3.det]; ring]
      exact h
    · split
      · refine ⟨_, ?_, rfl⟩
        rw [show (Mat3.ofCols (-a) b (-(a + c))).det = (Mat3.ofCols a b c).det by
          simp [Mat3.ofCols, Mat3.det]; ring]
        exact h
      · exact ⟨_, h, rfl⟩

theorem delaunayLattice_unimodular {L M : Mat3 ℝ} {full : Bool} {d : Fin 4 → Vec3 ℝ} {w : Fin 4 → Vec3 ℤ}
    (hw : SuperOf L d w) (h : delaunayLattice full d = .ret M) :
    ∃ n : Mat3 ℤ, (n.det = 1 ∨ n.det = -1) ∧ M = L * n.map fun k : ℤ => (k : ℝ) := by
  unfold delaunayLattice at h
  split at h
  · have hp : (sortByMag [d 0, d 1, d 2, d 3]).Perm
        ([w 0, w 1, w 2, w 3].map fun u : Vec3 ℤ => L * u.map fun k : ℤ => (k : ℝ)) := by
      refine (List.mergeSort_perm _ _).trans ?_
      simp only [List.map_cons, List.map_nil, ← hw.eq]
      exact List.Perm.refl _
    obtain ⟨l', hl', he⟩ := perm_map_lift _ hp
    have hs : IntSuper [w 0, w 1, w 2, w 3] := ⟨_, _, _, _, rfl, hw.sum, hw.det⟩
    obtain ⟨a, b, c, e, rfl, -, hdet⟩ := hs.perm hl'
    rw [he] at h
    simp only [List.map_cons, List.map_nil, Outcome.ret.injEq] at h
    obtain ⟨n, hn, hn'⟩ := triAcute_unimodular L a b c e hdet
    exact ⟨n, hn, by rw [← h, hn']⟩
  · simp only [Outcome.ret.injEq] at h
    exact ⟨_, hw.det, by rw [← h, hw.eq, hw.eq, hw.eq, mul_ofCols_map]⟩

theorem delaunayReduce_ret {K : Type} [Add K] [Sub K] [Mul K] [Div K] [Neg K] [Zero K] [One K] [IntCast K]
    [LT K] [LE K] [DecidableLT K] [DecidableLE K] [BEq K] [FRound K] [FTrans K]
    {r : Reducer K} {s s' : Structure K} {full : Bool} (h : r.delaunayReduce s full = .ret s') :
    ∃ d count M, delaunayLoop 101 0 s.delaunayMatrix = .ret (d, count) ∧ count ≠ 100 ∧
      delaunayLattice full d = .ret M ∧ s' = r.rebuild s M := by
  unfold delaunayReduce at h
  rw [Outcome.bind_eq_ret] at h
  obtain ⟨⟨d, count⟩, hd, h⟩ := h
  simp only at h
  split at h
  · exact absurd h (by simp)
  · rename_i hc
    rw [Outcome.bind_eq_ret] at h
    obtain ⟨M, hM, h⟩ := h
    simp only [Outcome.ret.injEq] at h
    exact ⟨d, count, M, hd, hc, hM, h.symm⟩

/-! ### the largest product -/

section
variable {K : Type} [Field K] [LinearOrder K] [IsStrictOrderedRing K]

theorem zeroTol_pos : (0 : K) < zeroTol := by unfold zeroTol lit; norm_num

/-- if some product exceeds the tolerance, the chosen pair has one that does, and none is larger. -/
theorem maxIndex_spec (prods : List K) (h : ∃ v ∈ prods, zeroTol < v) :
    ∃ v, prods[maxIndex prods]? = some v ∧ zeroTol < v ∧ ∀ u ∈ prods, u ≤ v := by
  have inv : ∀ l : List K, ∀ acc, acc = (l.zipIdx.foldl (init := ((0 : K), 0)) fun acc p =>
      if zeroTol < p.1 ∧ acc.1 < p.1 then (p.1, p.2) else acc) →
      ((acc = (0, 0) ∧ ∀ u ∈ l, u ≤ zeroTol) ∨
        (l[acc.2]? = some acc.1 ∧ zeroTol < acc.1 ∧ ∀ u ∈ l, u ≤ acc.1)) := by
    intro l
    induction l using List.reverseRecOn with
    | nil => intro acc h; left; simpa using h
    | append_singleton l x ih =>
      intro acc hacc
      rw [List.zipIdx_append, List.foldl_append] at hacc
      simp only [List.zipIdx_cons, List.zipIdx_nil, List.foldl_cons, List.foldl_nil, Nat.zero_add] at hacc
      set acc0 := (l.zipIdx.foldl (init := ((0 : K), 0)) fun acc p =>
        if zeroTol < p.1 ∧ acc.1 < p.1 then (p.1, p.2) else acc) with h0
      rcases ih acc0 h0 with ⟨e, hle⟩ | ⟨hget, hgt, hle⟩
      · rw [e] at hacc
        by_cases hx : zeroTol < x
        · rw [if_pos ⟨hx, lt_trans zeroTol_pos hx⟩] at hacc
          right
          rw [hacc]
          refine ⟨by simp, hx, ?_⟩
          intro u hu
          rcases List.mem_append.1 hu with hu | hu
          · exact (hle u hu).trans hx.le
          · simp only [List.mem_singleton] at hu; exact hu.le
        · rw [if_neg (fun h => hx h.1)] at hacc
          left
          refine ⟨hacc, ?_⟩
          intro u hu
          rcases List.mem_append.1 hu with hu | hu
          · exact hle u hu
          · simp only [List.mem_singleton] at hu; rw [hu]; exact not_lt.1 hx
      · right
        by_cases hx : zeroTol < x ∧ acc0.1 < x
        · rw [if_pos hx] at hacc
          rw [hacc]
          refine ⟨by simp, hx.1, ?_⟩
          intro u hu
          rcases List.mem_append.1 hu with hu | hu
          · exact (hle u hu).trans hx.2.le
          · simp only [List.mem_singleton] at hu; exact hu.le
        · rw [if_neg hx] at hacc
          rw [hacc]
          have hlt : acc0.2 < l.length := by
            by_contra hc
            rw [List.getElem?_eq_none (not_lt.1 hc)] at hget
            simp at hget
          refine ⟨by rw [List.getElem?_append_left hlt]; exact hget, hgt, ?_⟩
          intro u hu
          rcases List.mem_append.1 hu with hu | hu
          · exact hle u hu
          · simp only [List.mem_singleton] at hu
            rw [hu]
            by_contra hc
            rw [not_le] at hc
            exact hx ⟨hgt.trans hc, hc⟩
  rcases inv prods _ rfl with ⟨-, hle⟩ | h'
  · obtain ⟨v, hv, hv'⟩ := h
    exact absurd hv' (not_lt.2 (hle v hv))
  · exact ⟨_, h'⟩

end

/-- the pair with the given index has the given product. -/
theorem scalarProds_pairMap {K : Type} [Add K] [Mul K] (d : Fin 4 → Vec3 K) {i : ℕ} {v : K}
    (h : (scalarProds d)[i]? = some v) :
    ∃ p, pairMap[i]? = some p ∧ (d p.1).dot (d p.2) = v := by
  have hl : i < 6 := by
    by_contra hc
    rw [List.getElem?_eq_none (by simpa [scalarProds] using hc)] at h
    simp at h
  interval_cases i <;>
    · simp only [scalarProds, List.getElem?_cons_zero, List.getElem?_cons_succ, Option.some.injEq] at h
      exact ⟨_, rfl, h⟩

/-- one step of the loop: some pair has a product above the tolerance; it is transformed. -/
theorem delaunayLoop_succ {K : Type} [Field K] [LinearOrder K] [IsStrictOrderedRing K]
    (n count : ℕ) (d : Fin 4 → Vec3 K) :
    ((∀ v ∈ scalarProds d, v ≤ zeroTol) ∧ delaunayLoop (n + 1) count d = .ret (d, count)) ∨
    ∃ p ∈ pairMap, zeroTol < (d p.1).dot (d p.2) ∧ (∀ u ∈ scalarProds d, u ≤ (d p.1).dot (d p.2)) ∧
      delaunayLoop (n + 1) count d = delaunayLoop n (count + 1) (delaunayStep p d) := by
  by_cases h : ∃ v ∈ scalarProds d, zeroTol < v
  · right
    obtain ⟨v, h1, h2, h3⟩ := maxIndex_spec _ h
    obtain ⟨p, hp, hv⟩ := scalarProds_pairMap d h1
    refine ⟨p, getElem?_pairMap_mem hp, by rw [hv]; exact h2, by rw [hv]; exact h3, ?_⟩
    rw [delaunayLoop, if_pos]
    · rw [hp]; rfl
    · simpa using h
  · left
    push Not at h
    refine ⟨h, ?_⟩
    rw [delaunayLoop, if_neg]
    simpa using h

/-- total squared length of a superbase. -/
def superSq (d : Fin 4 → Vec3 ℝ) : ℝ := lenSq (d 0) + lenSq (d 1) + lenSq (d 2) + lenSq (d 3)

theorem superSq_step {d : Fin 4 → Vec3 ℝ} (h : d 0 + d 1 + d 2 + d 3 = 0) {p : Fin 4 × Fin 4}
    (hp : p ∈ pairMap) : superSq (delaunayStep p d) = superSq d - 2 * (d p.1).dot (d p.2) := by
  have hne := pairMap_ne hp
  have h3 : d 3 = -(d 0 + d 1 + d 2) := eq_neg_of_add_eq_zero_right h
  unfold superSq
  simp only [delaunayStep_eq p hne]
  simp only [pairMap, List.mem_cons, List.not_mem_nil, or_false] at hp
  rcases hp with rfl | rfl | rfl | rfl | rfl | rfl <;> simp [h3, lenSq, Vec3.dot] <;> ring

theorem sum_step {d : Fin 4 → Vec3 ℝ} (h : d 0 + d 1 + d 2 + d 3 = 0) {p : Fin 4 × Fin 4}
    (hp : p ∈ pairMap) :
    delaunayStep p d 0 + delaunayStep p d 1 + delaunayStep p d 2 + delaunayStep p d 3 = 0 := by
  have hne := pairMap_ne hp
  have h3 : d 3 = -(d 0 + d 1 + d 2) := eq_neg_of_add_eq_zero_right h
  simp only [delaunayStep_eq p hne]
  simp only [pairMap, List.mem_cons, List.not_mem_nil, or_false] at hp
  rcases hp with rfl | rfl | rfl | rfl | rfl | rfl <;> simp [h3] <;> abel

theorem delaunayLoop_superSq {n count : ℕ} {d d' : Fin 4 → Vec3 ℝ} {c' : ℕ}
    (hd : d 0 + d 1 + d 2 + d 3 = 0) (h : delaunayLoop n count d = .ret (d', c')) :
    superSq d' ≤ superSq d ∧ d' 0 + d' 1 + d' 2 + d' 3 = 0 := by
  induction n generalizing count d with
  | zero =>
    simp only [delaunayLoop, Outcome.ret.injEq, Prod.mk.injEq] at h
    rw [← h.1]; exact ⟨le_refl _, hd⟩
  | succ n ih =>
    rcases delaunayLoop_succ n count d with ⟨-, e⟩ | ⟨p, hp, hgt, -, e⟩
    · rw [e, Outcome.ret.injEq, Prod.mk.injEq] at h
      rw [← h.1]; exact ⟨le_refl _, hd⟩
    · rw [e] at h
      obtain ⟨h1, h2⟩ := ih (sum_step hd hp) h
      rw [superSq_step hd hp] at h1
      have := lt_trans (zeroTol_pos (K := ℝ)) hgt
      exact ⟨by linarith, h2⟩

/-- the loop never panics, and ends reduced unless all steps were used. -/
theorem delaunayLoop_ends {K : Type} [Field K] [LinearOrder K] [IsStrictOrderedRing K]
    (n count : ℕ) (d : Fin 4 → Vec3 K) :
    ∃ d' c', delaunayLoop n count d = .ret (d', c') ∧ count ≤ c' ∧ c' ≤ count + n ∧
      (c' < count + n → ∀ v ∈ scalarProds d', v ≤ zeroTol) := by
  induction n generalizing count d with
  | zero => exact ⟨d, count, rfl, le_refl _, le_refl _, fun h => absurd h (by omega)⟩
  | succ n ih =>
    rcases delaunayLoop_succ n count d with ⟨hle, e⟩ | ⟨p, hp, -, -, e⟩
    · exact ⟨d, count, e, le_refl _, by omega, fun _ => hle⟩
    · obtain ⟨d', c', h1, h2, h3, h4⟩ := ih (count + 1) (delaunayStep p d)
      exact ⟨d', c', by rw [e, h1], by omega, by omega, fun h => h4 (by omega)⟩

end CrystSymm
