import Verif.Proofs.Generators
import Verif.Proofs.Greedy
import Verif.Proofs.AMap
import Verif.Proofs.Coset
import Verif.Proofs.ChangeBasis
import Verif.Proofs.Search

/-! # The loop of `SpaceGroup::apply_transformation` -/

set_option autoImplicit false
set_option linter.unusedSectionVars false

namespace CrystSymm

open Spec SpaceGroup

section
variable {K : Type} [Add K] [Sub K] [Mul K] [Div K] [Neg K] [Zero K] [One K] [IntCast K]
  [LT K] [LE K] [DecidableLT K] [DecidableLE K] [BEq K] [FRound K]

/-- append the normalised operation unless it is similar to one already there. -/
def addOp (tols : Vec3 K) (l : List (SymmOp K)) (c : SymmOp K) : List (SymmOp K) :=
  if l.any (fun p => c.isApproxEq p tols) then l else l ++ [c.normalize tols]

/-- the rotation before rounding. -/
def floatRot (inv t : Mat3 K) (op : SymmOp K) : Mat3 K := inv * castRot op.rotation * t

/-- the rotation after rounding. -/
def newRot (inv t : Mat3 K) (op : SymmOp K) : Mat3 Int8 :=
  (floatRot inv t op).map fun x => FRound.toI8 (FRound.round x)

/-- the candidate for one operation and one translation. -/
def candOp (tols : Vec3 K) (inv t : Mat3 K) (op : SymmOp K) (v : Vec3 K) : SymmOp K :=
  ⟨newRot inv t op, normFracVec tols (inv * (op.translation + v))⟩

/-- the candidates of one pass. -/
def candOps (tols : Vec3 K) (inv t : Mat3 K) (vecs : List (Vec3 K)) (ops : List (SymmOp K)) : List (SymmOp K) :=
  (ops.filter fun op => someEntryIntegral (floatRot inv t op)).flatMap fun op => vecs.map (candOp tols inv t op)

/-- the mapping of found translations mirrors the list of new operations. -/
def Mirror (st : TransState K) : Prop :=
  ∀ rot, (amapGet? st.foundVectors rot).getD [] =
    (st.newOperations.filter fun o => decide (o.rotation = rot)).map SymmOp.translation

theorem seen_mirror {st : TransState K} (h : Mirror st) (tols v : Vec3 K) (rot : Mat3 Int8) :
    seen tols v ((amapGet? st.foundVectors rot).getD []) =
      st.newOperations.any fun p => (⟨rot, v⟩ : SymmOp K).isApproxEq p tols := by
  rw [h rot]
  unfold seen
  rw [List.any_map, List.any_filter]
  congr 1
  funext p
  simp only [SymmOp.isApproxEq, Function.comp, eq_comm]

theorem transCandidate_spec {tols : Vec3 K} {inv t : Mat3 K} {op : SymmOp K} {st : TransState K} (h : Mirror st)
    (v : Vec3 K) :
    Mirror (transCandidate tols inv op (newRot inv t op) st v) ∧
    (transCandidate tols inv op (newRot inv t op) st v).newOperations =
      addOp tols st.newOperations (candOp tols inv t op v) ∧
    (transCandidate tols inv op (newRot inv t op) st v).initialNumOps = st.initialNumOps := by
  unfold transCandidate addOp
  rw [show candOp tols inv t op v = ⟨newRot inv t op, normFracVec tols (inv * (op.translation + v))⟩ from rfl,
    ← seen_mirror h]
  generalize newRot inv t op = rot
  generalize normFracVec tols (inv * (op.translation + v)) = w
  by_cases hs : seen tols w ((amapGet? st.foundVectors rot).getD []) = true
  · simp only [hs, if_true, and_self, and_true]
    intro r
    simp only [amapGet?_upsert]
    by_cases hr : rot = r
    · subst hr; rw [if_pos rfl]; exact h rot
    · rw [if_neg hr]; exact h r
  · simp only [hs]
    refine ⟨?_, by simp [SymmOp.normalize], by simp⟩
    intro r
    simp only [Bool.false_eq_true, if_false, amapGet?_upsert, List.filter_append, List.map_append]
    by_cases hr : rot = r
    · subst hr
      rw [if_pos rfl, Option.getD_some, h rot]
      simp
    · rw [if_neg hr, h r]
      simp [hr]

theorem transFold_spec {tols : Vec3 K} {inv t : Mat3 K} {op : SymmOp K} (vecs : List (Vec3 K)) :
    ∀ {st : TransState K}, Mirror st →
    Mirror (vecs.foldl (transCandidate tols inv op (newRot inv t op)) st) ∧
    (vecs.foldl (transCandidate tols inv op (newRot inv t op)) st).newOperations =
      (vecs.map (candOp tols inv t op)).foldl (addOp tols) st.newOperations ∧
    (vecs.foldl (transCandidate tols inv op (newRot inv t op)) st).initialNumOps = st.initialNumOps := by
  induction vecs with
  | nil => intro st h; exact ⟨h, rfl, rfl⟩
  | cons v vecs ih =>
    intro st h
    obtain ⟨h1, h2, h3⟩ := transCandidate_spec (tols := tols) (inv := inv) (t := t) (op := op) h v
    obtain ⟨g1, g2, g3⟩ := ih h1
    rw [List.foldl_cons, List.map_cons, List.foldl_cons, ← h2, ← h3]
    exact ⟨g1, g2, g3⟩

/-- one pass over the operations. -/
theorem transPass_spec {tols : Vec3 K} {inv t : Mat3 K} (vecs : List (Vec3 K)) (ops : List (SymmOp K)) :
    ∀ {st : TransState K}, Mirror st →
    Mirror (ops.foldl (transOp tols inv t vecs) st) ∧
    (ops.foldl (transOp tols inv t vecs) st).newOperations =
      (candOps tols inv t vecs ops).foldl (addOp tols) st.newOperations ∧
    (ops.foldl (transOp tols inv t vecs) st).initialNumOps = st.initialNumOps -
      ((ops.filter fun op => !someEntryIntegral (floatRot inv t op)).length : ℤ) := by
  induction ops with
  | nil => intro st h; exact ⟨h, rfl, by simp⟩
  | cons op ops ih =>
    intro st h
    rw [List.foldl_cons]
    by_cases hk : someEntryIntegral (floatRot inv t op) = true
    · have e : transOp tols inv t vecs st op = vecs.foldl (transCandidate tols inv op (newRot inv t op)) st := by
        unfold transOp
        rw [show inv * castRot op.rotation * t = floatRot inv t op from rfl]
        simp only [hk, Bool.not_true, Bool.false_eq_true, if_false]
        rfl
      obtain ⟨h1, h2, h3⟩ := transFold_spec (tols := tols) (inv := inv) (t := t) (op := op) vecs h
      rw [← e] at h1 h2 h3
      obtain ⟨g1, g2, g3⟩ := ih h1
      refine ⟨g1, ?_, ?_⟩
      · rw [g2, h2]
        simp only [candOps, List.filter_cons, hk, if_true, List.flatMap_cons, List.foldl_append]
      · rw [g3, h3]
        simp [hk]
    · rw [Bool.not_eq_true] at hk
      have e : transOp tols inv t vecs st op = { st with initialNumOps := st.initialNumOps - 1 } := by
        unfold transOp
        rw [show inv * castRot op.rotation * t = floatRot inv t op from rfl]
        simp only [hk, Bool.not_false, if_true]
      rw [e]
      obtain ⟨g1, g2, g3⟩ := ih (st := { st with initialNumOps := st.initialNumOps - 1 }) h
      refine ⟨g1, ?_, ?_⟩
      · rw [g2]
        simp [candOps, hk]
      · rw [g3]
        simp [hk]
        omega

/-- an invariant of the passes holds at the end. -/
theorem transLoop_ind {tols : Vec3 K} {inv t : Mat3 K} {ratio : K} {ops : List (SymmOp K)}
    {P : List (SymmOp K) → Prop}
    (hP : ∀ mult l, P l → P ((candOps tols inv t (Structure.translationVecs mult) ops).foldl (addOp tols) l)) :
    ∀ (fuel mult : ℕ) {st st' : TransState K}, Mirror st → P st.newOperations →
      transLoop tols inv t ratio ops fuel mult st = .ret st' → P st'.newOperations := by
  intro fuel
  induction fuel with
  | zero => intro mult st st' _ _ h; simp [transLoop] at h
  | succ fuel ih =>
    intro mult st st' hm hp h
    rw [transLoop] at h
    split at h
    · obtain ⟨g1, g2, -⟩ := transPass_spec (tols := tols) (inv := inv) (t := t) (Structure.translationVecs mult) ops hm
      exact ih (mult + 1) g1 (by rw [g2]; exact hP mult _ hp) h
    · rw [Outcome.ret.injEq] at h
      rw [← h]; exact hp

theorem mirror_init (n : ℤ) : Mirror ({ newOperations := [], foundVectors := [], initialNumOps := n } : TransState K) := by
  intro rot
  simp [amapGet?_nil]

theorem mem_addOps {tols : Vec3 K} {cs : List (SymmOp K)} : ∀ {l : List (SymmOp K)} {x : SymmOp K},
    x ∈ cs.foldl (addOp tols) l → x ∈ l ∨ ∃ c ∈ cs, x = c.normalize tols := by
  induction cs with
  | nil => intro l x h; exact Or.inl h
  | cons c cs ih =>
    intro l x h
    rw [List.foldl_cons] at h
    rcases ih h with h | ⟨c', hc', rfl⟩
    · unfold addOp at h
      split at h
      · exact Or.inl h
      · rcases List.mem_append.1 h with h | h
        · exact Or.inl h
        · exact Or.inr ⟨c, by simp, List.mem_singleton.1 h⟩
    · exact Or.inr ⟨c', by simp [hc'], rfl⟩

end

section
variable {K : Type} [Field K] [LinearOrder K] [IsStrictOrderedRing K] [FloorRing K]

/-- with admissible tolerances the passes are a greedy collection. -/
theorem addOps_eq_greedy {tols : Vec3 K} (ht : TolOK tols) (cs l : List (SymmOp K)) :
    cs.foldl (addOp tols) l =
      greedy (fun a b => a.isApproxEq b tols) l (cs.map fun c => c.normalize tols) := by
  unfold greedy
  rw [List.foldl_map]
  congr 1
  funext acc c
  unfold addOp greedyAdd
  have : ∀ p, (c.normalize tols).isApproxEq p tols = c.isApproxEq p tols := fun p => by
    rw [C07_is_approx_eq_symm _ _ _ ht, isApproxEq_normalize ht, C07_is_approx_eq_symm _ _ _ ht]
  simp only [this]

/-! ### counting classes -/

section
variable {α C : Type} {r : α → α → Bool} {P : α → C → Prop} {F : List α}

theorem classes_inj (hP : ∀ a ∈ F, ∃ c, P a c) (hr : ∀ a b c c', P a c → P b c' → (r a b = true ↔ c = c'))
    (hD : Distinct r F) : ∃ g : Fin F.length → C, Function.Injective g ∧ ∀ k, P F[k] (g k) := by
  have h : ∀ k : Fin F.length, ∃ c, P F[k] c := fun k => hP _ (List.getElem_mem _)
  choose g hg using h
  refine ⟨g, ?_, hg⟩
  have key : ∀ k k' : Fin F.length, k < k' → g k ≠ g k' := by
    intro k k' hlt he
    have h1 : r F[k'] F[k] = false := (List.pairwise_iff_getElem.1 hD) k k' k.2 k'.2 hlt
    have h2 := (hr _ _ _ _ (hg k') (hg k)).2 he.symm
    rw [h1] at h2
    exact absurd h2 (by simp)
  intro k k' he
  rcases lt_trichotomy k k' with h | h | h
  · exact absurd he (key k k' h)
  · exact h
  · exact absurd he.symm (key k' k h)

theorem classes_length_le [Finite C] (hP : ∀ a ∈ F, ∃ c, P a c)
    (hr : ∀ a b c c', P a c → P b c' → (r a b = true ↔ c = c')) (hD : Distinct r F) :
    F.length ≤ Nat.card C := by
  obtain ⟨g, hg, -⟩ := classes_inj hP hr hD
  simpa using Nat.card_le_card_of_injective g hg

theorem classes_le_length (hu : ∀ a c c', P a c → P a c' → c = c') (hC : ∀ c, ∃ a ∈ F, P a c) :
    Nat.card C ≤ F.length := by
  have : ∀ c, ∃ k : Fin F.length, P F[k] c := fun c => by
    obtain ⟨a, ha, h⟩ := hC c
    obtain ⟨n, hn, rfl⟩ := List.mem_iff_getElem.1 ha
    exact ⟨⟨n, hn⟩, h⟩
  choose g hg using this
  have hinj : Function.Injective g := fun c c' he => hu _ _ _ (hg c) (he ▸ hg c')
  simpa using Nat.card_le_card_of_injective g hinj

theorem classes_covers [Finite C] (hP : ∀ a ∈ F, ∃ c, P a c)
    (hr : ∀ a b c c', P a c → P b c' → (r a b = true ↔ c = c')) (hD : Distinct r F)
    (hl : F.length = Nat.card C) : ∀ c, ∃ a ∈ F, P a c := by
  obtain ⟨g, hg, h⟩ := classes_inj hP hr hD
  have hb : Function.Bijective g := by
    rw [Nat.bijective_iff_injective_and_card]
    exact ⟨hg, by simpa using hl⟩
  intro c
  obtain ⟨k, rfl⟩ := hb.2 c
  exact ⟨_, List.getElem_mem _, h k⟩

end

/-- an integer vector over `K`. -/
def kVec (m : Fin 3 → ℤ) : Vec3 K := ⟨m 0, m 1, m 2⟩

theorem intVec_iff_kVec (v : Vec3 K) : IntVec v ↔ ∃ m, v = kVec m := by
  constructor
  · rintro ⟨i, j, k, rfl⟩
    exact ⟨![i, j, k], by simp [kVec]⟩
  · rintro ⟨m, rfl⟩
    exact ⟨m 0, m 1, m 2, rfl⟩

theorem kVec_sub (m m' : Fin 3 → ℤ) : (kVec (m - m') : Vec3 K) = kVec m - kVec m' := by
  ext <;> simp [kVec]

theorem kVec_injective {m m' : Fin 3 → ℤ} (h : (kVec m : Vec3 K) = kVec m') : m = m' := by
  simp only [kVec, Vec3.mk.injEq, Int.cast_inj] at h
  funext i
  fin_cases i
  exacts [h.1, h.2.1, h.2.2]

/-- Mathlib matrix of an integer model matrix. -/
def matZ (T : Mat3 ℤ) : Matrix (Fin 3) (Fin 3) ℤ :=
  !![T.m11, T.m12, T.m13; T.m21, T.m22, T.m23; T.m31, T.m32, T.m33]

theorem det_matZ (T : Mat3 ℤ) : (matZ T).det = T.det := by
  rw [Matrix.det_fin_three]
  simp [matZ, Mat3.det]
  ring

theorem overK_kVec (T : Mat3 ℤ) (m : Fin 3 → ℤ) :
    overK K T * (kVec m : Vec3 K) = kVec ((matZ T).mulVec m) := by
  ext <;> simp [overK, kVec, matZ, Mat3.map, Matrix.mulVec, dotProduct, Fin.sum_univ_three]

theorem volumeRatio_overK (T : Mat3 ℤ) :
    Structure.volumeRatio (overK K T) = ((T.det.natAbs : ℕ) : K) := by
  unfold Structure.volumeRatio
  have hd : (overK K T).det = (T.det : K) := by simp [overK, Mat3.det, Mat3.map]
  rw [hd]
  show ((roundZ (|(T.det : K)| * ((100 : ℤ) : K)) : ℤ) : K) / ((100 : ℤ) : K) = _
  have : |(T.det : K)| * ((100 : ℤ) : K) = ((|T.det| * 100 : ℤ) : K) := by push_cast; ring
  rw [this, roundZ_int]
  push_cast
  rw [Nat.cast_natAbs]
  push_cast
  field_simp

/-- `m` lies in the sublattice spanned by the columns of `T`. -/
theorem intVec_inv_iff {T : Mat3 ℤ} {inv : Mat3 K} (hi : overK K T * inv = 1) (m : Fin 3 → ℤ) :
    IntVec (inv * (kVec m : Vec3 K)) ↔ m ∈ subLattice (matZ T) := by
  rw [mem_subLattice, intVec_iff_kVec]
  constructor
  · rintro ⟨w, hw⟩
    refine ⟨w, ?_⟩
    apply kVec_injective (K := K)
    rw [← overK_kVec, ← hw, ← Mat3.mul_mulVec, hi, Mat3.one_mulVec]
  · rintro ⟨w, rfl⟩
    refine ⟨w, ?_⟩
    rw [← overK_kVec, ← Mat3.mul_mulVec, Mat3.mul_eq_one_comm' hi, Mat3.one_mulVec]

/-- the classes of new operations: an old operation and a coset of the new lattice. -/
abbrev OpClass (ops : List (SymmOp K)) (T : Mat3 ℤ) : Type :=
  Fin ops.length × ((Fin 3 → ℤ) ⧸ subLattice (matZ T))

theorem card_opClass {ops : List (SymmOp K)} {T : Mat3 ℤ} (hd : T.det ≠ 0) :
    Finite (OpClass ops T) ∧ Nat.card (OpClass ops T) = ops.length * T.det.natAbs := by
  have h := card_cosets (matZ T) (by rw [det_matZ]; exact hd)
  rw [det_matZ] at h
  have hf : Finite ((Fin 3 → ℤ) ⧸ subLattice (matZ T)) := by
    apply Nat.finite_of_card_ne_zero
    rw [h]
    exact Int.natAbs_ne_zero.2 hd
  refine ⟨inferInstance, ?_⟩
  rw [Nat.card_prod, h]
  simp

/-- `a` belongs to a class. -/
def InClass (inv t : Mat3 K) (ops : List (SymmOp K)) (T : Mat3 ℤ) (a : SymmOp K) (c : OpClass ops T) : Prop :=
  ∃ m : Fin 3 → ℤ, c.2 = Submodule.Quotient.mk m ∧ a.rotation = newRot inv t ops[c.1] ∧
    SamePoint a.translation (inv * (ops[c.1].translation + kVec m))

/-- the components are within tolerance of integers. -/
def NearVec (v tols : Vec3 K) : Prop := NearInt v.x tols.x ∧ NearInt v.y tols.y ∧ NearInt v.z tols.z

theorem nearVec_of_samePoint {u v tols : Vec3 K} (h : SamePoint u v) (hn : NearVec u tols) : NearVec v tols :=
  ⟨nearInt_of_sameMod1 h.1 hn.1, nearInt_of_sameMod1 h.2.1 hn.2.1, nearInt_of_sameMod1 h.2.2 hn.2.2⟩

theorem nearVec_of_intVec {v tols : Vec3 K} (ht : TolOK tols) (h : IntVec v) : NearVec v tols := by
  obtain ⟨i, j, k, rfl⟩ := h
  exact ⟨⟨i, by simpa using ht.1.1⟩, ⟨j, by simpa using ht.2.1.1⟩, ⟨k, by simpa using ht.2.2.1⟩⟩

theorem samePoint_sub {a b c d : Vec3 K} (h : SamePoint a b) (h' : SamePoint c d) : SamePoint (a - c) (b - d) := by
  obtain ⟨⟨i, hi⟩, ⟨j, hj⟩, ⟨k, hk⟩⟩ := h
  obtain ⟨⟨i', hi'⟩, ⟨j', hj'⟩, ⟨k', hk'⟩⟩ := h'
  refine ⟨⟨i - i', ?_⟩, ⟨j - j', ?_⟩, ⟨k - k', ?_⟩⟩ <;> simp only [Vec3.sub_x, Vec3.sub_y, Vec3.sub_z] <;>
    push_cast <;> linarith

theorem samePoint_symm' {u v : Vec3 K} (h : SamePoint u v) : SamePoint v u := by
  obtain ⟨⟨i, hi⟩, ⟨j, hj⟩, ⟨k, hk⟩⟩ := h
  exact ⟨⟨-i, by push_cast; linarith⟩, ⟨-j, by push_cast; linarith⟩, ⟨-k, by push_cast; linarith⟩⟩

/-- what completeness needs of the operations: distinct copies stay apart. -/
def CopiesApart (inv t : Mat3 K) (ops : List (SymmOp K)) (T : Mat3 ℤ) (tols : Vec3 K) : Prop :=
  ∀ (i j : Fin ops.length) (m : Fin 3 → ℤ), newRot inv t ops[i] = newRot inv t ops[j] →
    NearVec (inv * (ops[i].translation - ops[j].translation + kVec m)) tols →
    i = j ∧ m ∈ subLattice (matZ T)

variable {inv : Mat3 K} {T : Mat3 ℤ} {ops : List (SymmOp K)} {tols : Vec3 K}

theorem inClass_test (ht : TolOK tols) (hi : overK K T * inv = 1)
    (ha : CopiesApart inv (overK K T) ops T tols) (a b : SymmOp K) (c c' : OpClass ops T)
    (h : InClass inv (overK K T) ops T a c) (h' : InClass inv (overK K T) ops T b c') :
    a.isApproxEq b tols = true ↔ c = c' := by
  obtain ⟨m, hm, h1, h2⟩ := h
  obtain ⟨m', hm', h1', h2'⟩ := h'
  rw [C07_is_approx_eq_iff _ _ _ ht]
  have hsub := samePoint_sub h2 h2'
  have e : inv * (ops[c.1].translation + kVec m) - inv * (ops[c'.1].translation + kVec m') =
      inv * (ops[c.1].translation - ops[c'.1].translation + kVec (m - m')) := by
    rw [kVec_sub]
    ext <;> simp <;> ring
  rw [e] at hsub
  constructor
  · rintro ⟨hr, hx, hy, hz⟩
    have hn : NearVec (a.translation - b.translation) tols := ⟨hx, hy, hz⟩
    obtain ⟨g1, g2⟩ := ha c.1 c'.1 (m - m') (by rw [← h1, ← h1', hr]) (nearVec_of_samePoint hsub hn)
    exact Prod.ext g1 (by rw [hm, hm']; exact (Submodule.Quotient.eq _).2 g2)
  · rintro rfl
    have hmem : m - m' ∈ subLattice (matZ T) := (Submodule.Quotient.eq _).1 (hm.symm.trans hm')
    refine ⟨by rw [h1, h1'], ?_⟩
    have : NearVec (inv * (ops[c.1].translation - ops[c.1].translation + kVec (m - m'))) tols := by
      have z : ops[c.1].translation - ops[c.1].translation + (kVec (m - m') : Vec3 K) = kVec (m - m') := by
        ext <;> simp
      rw [z]
      exact nearVec_of_intVec ht ((intVec_inv_iff hi _).2 hmem)
    exact nearVec_of_samePoint (samePoint_symm' hsub) this

theorem inClass_unique (ht : TolOK tols) (hi : overK K T * inv = 1)
    (ha : CopiesApart inv (overK K T) ops T tols) (a : SymmOp K) (c c' : OpClass ops T)
    (h : InClass inv (overK K T) ops T a c) (h' : InClass inv (overK K T) ops T a c') : c = c' :=
  (inClass_test ht hi ha a a c c' h h').1 (C07_is_approx_eq_refl a tols ht)

theorem samePoint_trans' {u v w : Vec3 K} (h : SamePoint u v) (h' : SamePoint v w) : SamePoint u w := by
  obtain ⟨⟨i, hi⟩, ⟨j, hj⟩, ⟨k, hk⟩⟩ := h
  obtain ⟨⟨i', hi'⟩, ⟨j', hj'⟩, ⟨k', hk'⟩⟩ := h'
  exact ⟨⟨i + i', by push_cast; linarith⟩, ⟨j + j', by push_cast; linarith⟩, ⟨k + k', by push_cast; linarith⟩⟩

theorem candOp_inClass (n : Fin ops.length) (m : Fin 3 → ℤ) :
    InClass inv (overK K T) ops T ((candOp tols inv (overK K T) ops[n] (kVec m)).normalize tols)
      (n, Submodule.Quotient.mk m) :=
  ⟨m, rfl, rfl, samePoint_trans' (normalize_same _ _).2 (samePoint_normFracVec _ _)⟩

theorem candOps_inClass {mult : ℕ} {x : SymmOp K}
    (h : ∃ c ∈ candOps tols inv (overK K T) (Structure.translationVecs mult) ops, x = c.normalize tols) :
    ∃ c, InClass inv (overK K T) ops T x c := by
  obtain ⟨c, hc, rfl⟩ := h
  obtain ⟨op, hop, hc⟩ := List.mem_flatMap.1 hc
  obtain ⟨v, hv, rfl⟩ := List.mem_map.1 hc
  obtain ⟨n, hn, rfl⟩ := List.mem_iff_getElem.1 (List.mem_filter.1 hop).1
  obtain ⟨i, j, k, -, -, -, rfl⟩ := mem_translationVecs.1 hv
  have : (⟨(i : K), (j : K), (k : K)⟩ : Vec3 K) = kVec ![(i : ℤ), j, k] := by simp [kVec]
  rw [this]
  exact ⟨_, candOp_inClass ⟨n, hn⟩ _⟩

/-- a pass with `mult ≥ |det T|` reaches every class. -/
theorem pass_covers (ht : TolOK tols) (hi : overK K T * inv = 1)
    (ha : CopiesApart inv (overK K T) ops T tols) (hd : T.det ≠ 0)
    (hk : ∀ op ∈ ops, someEntryIntegral (floatRot inv (overK K T) op) = true)
    {mult : ℕ} (hm : T.det.natAbs ≤ mult) {l : List (SymmOp K)}
    (hl : ∀ x ∈ l, ∃ c, InClass inv (overK K T) ops T x c) (c : OpClass ops T) :
    ∃ a ∈ (candOps tols inv (overK K T) (Structure.translationVecs mult) ops).foldl (addOp tols) l,
      InClass inv (overK K T) ops T a c := by
  obtain ⟨i, q⟩ := c
  obtain ⟨m, rfl⟩ := Submodule.Quotient.mk_surjective _ q
  set D : ℕ := T.det.natAbs with hDdef
  have hDpos : 0 < D := Int.natAbs_pos.2 hd
  have hDZ : (D : ℤ) ≠ 0 := by exact_mod_cast hDpos.ne'
  have hres : ∀ a : Fin 3, ∃ k : ℕ, k < mult ∧ ∃ q : ℤ, (k : ℤ) - m a = D * q := by
    intro a
    refine ⟨(m a % D).toNat, ?_, -(m a / D), ?_⟩
    · have := Int.emod_lt_of_pos (m a) (by exact_mod_cast hDpos : (0 : ℤ) < D)
      omega
    · rw [Int.toNat_of_nonneg (Int.emod_nonneg _ hDZ)]
      have := Int.emod_add_mul_ediv (m a) D
      linarith [mul_neg (D : ℤ) (m a / D)]
  choose k hkm q hq using hres
  let mm : Fin 3 → ℤ := fun a => k a
  have hmm : mm - m ∈ subLattice (matZ T) := by
    have e : mm - m = (D : ℤ) • q := by
      funext a
      simp only [mm, Pi.sub_apply, Pi.smul_apply, smul_eq_mul]
      exact hq a
    rw [e]
    have h := det_smul_mem (matZ T) q
    rw [det_matZ] at h
    rcases Int.natAbs_eq T.det with h' | h'
    · rw [h'] at h; exact h
    · rw [h', neg_smul] at h
      exact (Submodule.neg_mem_iff _).1 h
  have hmem : candOp tols inv (overK K T) ops[i] (kVec mm) ∈
      candOps tols inv (overK K T) (Structure.translationVecs mult) ops := by
    unfold candOps
    rw [List.mem_flatMap]
    refine ⟨ops[i], List.mem_filter.2 ⟨List.getElem_mem _, hk _ (List.getElem_mem _)⟩, ?_⟩
    exact List.mem_map_of_mem (mem_translationVecs.2 ⟨k 0, k 1, k 2, hkm 0, hkm 1, hkm 2, by simp [kVec, mm]⟩)
  have hc0 : InClass inv (overK K T) ops T ((candOp tols inv (overK K T) ops[i] (kVec mm)).normalize tols)
      (i, Submodule.Quotient.mk m) := by
    have := candOp_inClass (inv := inv) (T := T) (tols := tols) i mm
    rwa [(Submodule.Quotient.eq _).2 hmm] at this
  rw [addOps_eq_greedy ht]
  obtain ⟨p, hp, h⟩ := greedy_covers (r := fun a b : SymmOp K => a.isApproxEq b tols) (acc := l)
    (List.mem_map_of_mem (f := fun c : SymmOp K => c.normalize tols) hmem)
  refine ⟨p, hp, ?_⟩
  rcases h with rfl | h
  · exact hc0
  · have : ∃ c, InClass inv (overK K T) ops T p c := by
      rw [← addOps_eq_greedy ht] at hp
      rcases mem_addOps hp with hp | hp
      · exact hl p hp
      · exact candOps_inClass hp
    obtain ⟨c', hc'⟩ := this
    rwa [(inClass_test ht hi ha _ _ _ _ hc0 hc').1 h]

theorem opsQuotLt_iff (n N D : ℕ) :
    opsQuotLt n (N : ℤ) ((D : ℕ) : K) = true ↔ n < N * D := by
  unfold opsQuotLt
  by_cases h0 : N = 0
  · subst h0; simp
  · rw [if_neg (by exact_mod_cast h0)]
    have hp : (0 : K) < N := by exact_mod_cast Nat.pos_of_ne_zero h0
    simp only [decide_eq_true_eq, lit, Int.cast_natCast]
    rw [div_lt_iff₀ hp]
    constructor
    · intro h; rw [Nat.mul_comm]; exact_mod_cast h
    · intro h; rw [Nat.mul_comm] at h; exact_mod_cast h

theorem transLoop_complete (ht : TolOK tols) (hi : overK K T * inv = 1)
    (ha : CopiesApart inv (overK K T) ops T tols) (hd : T.det ≠ 0)
    (hk : ∀ op ∈ ops, someEntryIntegral (floatRot inv (overK K T) op) = true) :
    ∀ (fuel mult : ℕ) (st : TransState K), mult ≤ max T.det.natAbs 2 + 1 →
      max T.det.natAbs 2 + 2 ≤ fuel + mult → Mirror st → st.initialNumOps = (ops.length : ℤ) →
      (∀ x ∈ st.newOperations, ∃ c, InClass inv (overK K T) ops T x c) →
      Distinct (fun a b : SymmOp K => a.isApproxEq b tols) st.newOperations →
      (mult = max T.det.natAbs 2 + 1 → ∀ c, ∃ a ∈ st.newOperations, InClass inv (overK K T) ops T a c) →
      ∃ st', transLoop tols inv (overK K T) ((T.det.natAbs : ℕ) : K) ops fuel mult st = .ret st' ∧
        st'.newOperations.length = ops.length * T.det.natAbs ∧
        ∀ c, ∃ a ∈ st'.newOperations, InClass inv (overK K T) ops T a c := by
  obtain ⟨hfin, hcard⟩ := card_opClass (ops := ops) hd
  intro fuel
  induction fuel with
  | zero => intro mult st h1 h2; omega
  | succ fuel ih =>
    intro mult st h1 h2 hM hn hc hD hcov
    rw [transLoop, hn]
    by_cases hq : opsQuotLt st.newOperations.length (ops.length : ℤ) ((T.det.natAbs : ℕ) : K) = true
    · rw [if_pos hq]
      rw [opsQuotLt_iff] at hq
      have hm' : mult ≠ max T.det.natAbs 2 + 1 := by
        intro h
        have := classes_le_length (fun a c c' => inClass_unique ht hi ha a c c') (hcov h)
        omega
      obtain ⟨g1, g2, g3⟩ := transPass_spec (tols := tols) (inv := inv) (t := overK K T)
        (Structure.translationVecs mult) ops hM
      have hz : (ops.filter fun op => !someEntryIntegral (floatRot inv (overK K T) op)) = [] := by
        rw [List.filter_eq_nil_iff]
        intro op hop
        simp [hk op hop]
      rw [hz] at g3
      have hc' : ∀ x ∈ (ops.foldl (transOp tols inv (overK K T) (Structure.translationVecs mult)) st).newOperations,
          ∃ c, InClass inv (overK K T) ops T x c := by
        intro x hx
        rw [g2] at hx
        rcases mem_addOps hx with hx | hx
        · exact hc x hx
        · exact candOps_inClass hx
      refine ih (mult + 1) _ (by omega) (by omega) g1 (by rw [g3, hn]; simp) hc' ?_ ?_
      · rw [g2, addOps_eq_greedy ht]
        exact greedy_distinct _ hD
      · intro h c
        rw [g2]
        exact pass_covers ht hi ha hd hk (by omega) hc c
    · rw [if_neg hq]
      rw [opsQuotLt_iff] at hq
      have hlen : st.newOperations.length = ops.length * T.det.natAbs := by
        apply le_antisymm _ (by omega)
        rw [← hcard]
        exact classes_length_le hc (fun a b c c' => inClass_test ht hi ha a b c c') hD
      exact ⟨st, rfl, hlen, classes_covers hc (fun a b c c' => inClass_test ht hi ha a b c c') hD
        (by rw [hcard]; exact hlen)⟩

end

end CrystSymm
