import Verif.Props.Settings
import Verif.Props.NiggliRun
import Verif.Spec.Angles

set_option autoImplicit false
set_option linter.unusedSectionVars false

/-! # C83: for which clean crystals the standard structures exist -/

namespace CrystSymm

open Spec Reducer SymmetryAnalyzer NiggliCert PointGroup

/-- the cells for which no character is found, in terms of exact equalities. -/
theorem noCharacter_exact {ε : ℝ} {L : Mat3 ℝ} (h0 : 0 < ε) (hn : NiggliCell 0 L)
    (hr : ∀ x ∈ shapeDifferences (lenSq L.col0) (lenSq L.col1) (lenSq L.col2) (dotp L.col1 L.col2) (dotp L.col0 L.col2)
      (dotp L.col0 L.col1), |x| ≤ ε → x = 0) :
    NoCharacter ε (lenSq L.col0) (lenSq L.col1) (lenSq L.col2) (dotp L.col1 L.col2) (dotp L.col0 L.col2) (dotp L.col0 L.col1) ↔
      ¬ AnglesFollow L := by
  have hs := hn.signs
  have hdiag : lenSq (L.col0 + L.col1 + L.col2) = lenSq L.col2 ↔
      lenSq L.col0 + lenSq L.col1 + 2 * (dotp L.col1 L.col2 + dotp L.col0 L.col2 + dotp L.col0 L.col1) = 0 := by
    simp only [lenSq, dotp]
    simp only [Vec3.add_x, Vec3.add_y, Vec3.add_z]
    constructor <;> intro h <;> linarith
  have hac := hn.ab
  have hbc := hn.bc
  unfold AnglesFollow EqualDiagonal
  rw [hdiag]
  generalize lenSq L.col0 = a at *
  generalize lenSq L.col1 = b at *
  generalize lenSq L.col2 = c at *
  generalize dotp L.col1 L.col2 = d at *
  generalize dotp L.col0 L.col2 = e at *
  generalize dotp L.col0 L.col1 = f at *
  have z : ∀ x, x ∈ shapeDifferences a b c d e f → (|x| ≤ ε ↔ x = 0) := fun x hx =>
    ⟨hr x hx, fun h => by rw [h, abs_zero]; exact h0.le⟩
  unfold shapeDifferences at z
  simp only [List.mem_cons, List.not_mem_nil, or_false, forall_eq_or_imp, forall_eq] at z
  obtain ⟨zab, zac, zbc, zd, ze, zf, z1, z2, z3, zde, zdf, zef, z4, z5, z6, z7, z8, z9, z10, z11, z12, -, -, -, zS, -⟩ := z
  have hself : ∀ x : ℝ, |x - x| ≤ ε := fun x => by rw [sub_self, abs_zero]; exact h0.le
  have hA : Acute ε d e f ↔ 0 < d ∧ 0 < e ∧ 0 < f := by
    have hp : ∀ x : ℝ, (|x| ≤ ε ↔ x = 0) → 0 < x → ε ≤ x := by
      intro x hx h
      by_contra hlt
      have := hx.1 (by rw [abs_of_pos h]; linarith)
      linarith
    unfold Acute
    constructor
    · rintro (⟨h1, h2, h3⟩ | ⟨h1, h2, h3⟩ | ⟨h1, h2, h3⟩ | ⟨h1, h2, h3⟩)
      · exact ⟨by linarith, by linarith, by linarith⟩
      all_goals rcases hs with ⟨k1, k2, k3⟩ | ⟨k1, k2, k3⟩ <;> exfalso <;> linarith
    · rintro ⟨h1, h2, h3⟩
      exact .inl ⟨hp d zd h1, hp e ze h2, hp f zf h3⟩
  have hS : SumCond ε a b d e f ↔ |d + e + f| * 2 = a + b := by
    unfold SumCond
    rw [mul_comm, zS, sub_eq_zero]
  have hO : (¬ (0 < d ∧ 0 < e ∧ 0 < f) ∧ |d + e + f| * 2 = a + b) ↔ (d ≤ 0 ∧ e ≤ 0 ∧ f ≤ 0) ∧ a + b + 2 * (d + e + f) = 0 := by
    rcases hs with ⟨k1, k2, k3⟩ | ⟨k1, k2, k3⟩
    · constructor
      · rintro ⟨h, -⟩
        exact absurd ⟨by linarith, by linarith, by linarith⟩ h
      · rintro ⟨⟨h, -, -⟩, -⟩
        exfalso; linarith
    · have hneg : |d + e + f| = -(d + e + f) := abs_of_nonpos (by linarith)
      rw [hneg]
      constructor
      · rintro ⟨-, h⟩
        exact ⟨⟨by linarith, by linarith, by linarith⟩, by linarith⟩
      · rintro ⟨-, h⟩
        exact ⟨fun k => by linarith [k.1], by linarith⟩
  have zab : |a - b| ≤ ε ↔ a = b := by rw [zab, sub_eq_zero]
  have zac : |a - c| ≤ ε ↔ a = c := by rw [zac, sub_eq_zero]
  have zbc : |b - c| ≤ ε ↔ b = c := by rw [zbc, sub_eq_zero]
  have zde : |d - e| ≤ ε ↔ d = e := by rw [zde, sub_eq_zero]
  have zdf : |d - f| ≤ ε ↔ d = f := by rw [zdf, sub_eq_zero]
  have zef : |e - f| ≤ ε ↔ e = f := by rw [zef, sub_eq_zero]
  have zd' : |0 - d| ≤ ε ↔ d = 0 := by rw [zero_sub, abs_neg, zd]
  have ze' : |0 - e| ≤ ε ↔ e = 0 := by rw [zero_sub, abs_neg, ze]
  have zf' : |0 - f| ≤ ε ↔ f = 0 := by rw [zero_sub, abs_neg, zf]
  unfold NoCharacter Near
  simp only [hA, hS, zab, zac, zbc, zde, zdf, zef, zd', ze', zf', z1, z2, z3, z4, z5, z6, z7, z8, z9, z10, z11, hself,
    true_and, and_true, sub_eq_zero]
  rw [← hO]
  constructor
  · rintro (⟨h1, h2, h3, h4, h5⟩ | ⟨h1, h2, h3, h4, h5, h6, h7⟩ | ⟨h1, h2, h3, h4, h5⟩ | ⟨h1, h2, h3, h4, h5, h6, h7, h8, h9⟩ |
      ⟨h1, h2, h3, h4, h5, h6⟩ | ⟨h1, h2, h3, h4, h5, h6, h7, h8⟩) ⟨g1, g2⟩
    · rcases g1 h1 with g | ⟨g, -⟩
      · rcases g2 (by rw [← h1, h2]) with g' | ⟨-, g', -⟩
        · exact h5 ⟨g, by rw [g, g']⟩
        · exact g' h3
      · exact g h3
    · rcases g1 h1 with g | ⟨-, g⟩
      · rcases g2 (by rw [← h1, h2]) with g' | ⟨-, -, g'⟩
        · exact h6 ⟨g, by rw [g, g']⟩
        · exact h7 g'
      · exact h7 g
    · rcases g1 h1 with g | ⟨g, -⟩
      · exact h5 g
      · exact g h3
    · rcases g1 h1 with g | ⟨-, g⟩
      · exact h8 g
      · exact h9 g
    · rcases g2 h2 with g | ⟨g, -⟩
      · exact h6 g
      · exact h1 g
    · rcases g2 h2 with g | ⟨g, -⟩
      · exact h8 g
      · exact h1 g
  · intro hnot
    by_contra hnc
    push_neg at hnc
    obtain ⟨n1, n2, n3, n4, n5, n6⟩ := hnc
    apply hnot
    by_cases hp : 0 < d ∧ 0 < e ∧ 0 < f
    · refine ⟨fun h1 => .inl ?_, fun h2 => ?_⟩
      · by_contra hde
        by_cases h2 : a = c
        · exact hde (n1 h1 h2 hp (fun k1 k2 => absurd (k1.symm.trans k2) hde)).1
        · exact hde (n3 h1 h2 hp (fun k1 k2 => absurd (k1.symm.trans k2) hde))
      · left
        by_contra hef
        by_cases h1 : a = b
        · have := n1 h1 (h1.trans h2) hp (fun k1 k2 k3 => hef (k2.symm.trans k3))
          exact hef (this.1.symm.trans this.2)
        · exact hef (n5 h1 h2 hp (fun k1 k2 k3 => hef (k2.symm.trans k3)) (fun k2 k3 => hef (k2.symm.trans k3)))
    · have hq : 0 < d → 0 < e → f ≤ 0 := fun k1 k2 => not_lt.1 fun k3 => hp ⟨k1, k2, k3⟩
      refine ⟨fun h1 => ?_, fun h2 => ?_⟩
      · by_cases hsum : |d + e + f| * 2 = a + b
        · exact .inr ⟨hp, hsum⟩
        · left
          by_contra hde
          by_cases h2 : a = c
          · exact hsum (n2 h1 h2 hq (fun k1 k2 => absurd (k1.trans k2.symm) hde) (fun k1 k2 => absurd (k1.symm.trans k2) hde)
              (fun k => absurd k hde))
          · exact hsum (n4 h1 h2 hq (fun k1 k2 => absurd (k1.trans k2.symm) hde) (fun k1 k2 => absurd (k1.trans k2.symm) hde)
              (fun k1 k2 => absurd (k1.trans k2.symm) hde) (fun k1 k2 => absurd (k1.symm.trans k2) hde) hde)
      · by_cases h1 : a = b
        · by_cases hsum : |d + e + f| * 2 = a + b
          · exact .inr ⟨h1, hp, hsum⟩
          · left
            by_contra hef
            exact hsum (n2 h1 (h1.trans h2) hq (fun k1 k2 k3 => hef (k2.trans k3.symm)) (fun k1 k2 k3 => hef (k2.symm.trans k3))
              (fun k1 k2 => hef (k1.symm.trans k2)))
        · left
          by_contra hef
          exact hef (n6 h1 h2 hq (fun k1 k2 k3 => hef (k2.trans k3.symm)) (fun k1 k2 k3 => hef (k2.trans k3.symm))
            (fun k2 k3 => hef (k2.trans k3.symm)) (fun _ k2 k3 => hef (k2.symm.trans k3)))

/-- `AnglesFollow` depends on the shape of the cell only. -/
theorem anglesFollow_congr {L L' : Mat3 ℝ} (h : SameShape L L') : AnglesFollow L ↔ AnglesFollow L' := by
  have hdiag : ∀ L : Mat3 ℝ, lenSq (L.col0 + L.col1 + L.col2) = lenSq L.col2 ↔
      lenSq L.col0 + lenSq L.col1 + 2 * (dotp L.col1 L.col2 + dotp L.col0 L.col2 + dotp L.col0 L.col1) = 0 := by
    intro L
    simp only [lenSq, dotp]
    simp only [Vec3.add_x, Vec3.add_y, Vec3.add_z]
    constructor <;> intro h <;> linarith
  obtain ⟨a1, a2, a3, a4, a5, a6⟩ := h
  unfold AnglesFollow EqualDiagonal
  rw [hdiag, hdiag, a1, a2, a3, a4, a5, a6]

/-- the primitive cell found is reduced. -/
theorem clean_niggli_returns {r : Reducer ℝ} {s prim : Structure ℝ} (hc : CleanInput s r.dtol)
    (hcl : ClearLattice s.lattice (eps tol1em5 |s.volume|)) (hres : EdgesResolved s.lattice (eps tol1em5 |s.volume|))
    (hd : (smallerSums s.lattice).ncard < 25) (hf : FoundPrim s prim) : ∃ nig, r.niggliReduce prim tol1em5 = .ret nig := by
  obtain ⟨⟨n, hn, hl⟩, hvol, hfrob, -⟩ := hf
  have hV : 0 < prim.volume := by rw [hvol]; exact abs_pos.2 hc.det_ne
  have hle : edgeSum prim.lattice ≤ edgeSum s.lattice := hfrob
  have hmul : ∀ N : Mat3 ℤ, N.det = 1 ∨ N.det = -1 → (n * N).det = 1 ∨ (n * N).det = -1 := by
    intro N hN
    rw [Mat3.det_mul]
    rcases hn with e | e <;> rcases hN with e' | e' <;> rw [e, e'] <;> simp
  have hcomp : ∀ N : Mat3 ℤ, prim.lattice * overK ℝ N = s.lattice * overK ℝ (n * N) := by
    intro N
    rw [hl, mul_assoc, overK_mul]
  have hfin : (smallerSums s.lattice).Finite := by
    refine ((finite_trace hc.det_ne (edgeSum s.lattice)).image fun N => edgeSum (s.lattice * castM N)).subset ?_
    rintro t ⟨ht, N, -, rfl⟩
    refine ⟨N, ?_, rfl⟩
    show ((⟨s.lattice.transpose * s.lattice, 1⟩ : NigState ℝ).step (castM N)).tr ≤ _
    rw [step_metric, tr_metric]
    exact ht.le
  have hsub : smallerSums prim.lattice ⊆ smallerSums s.lattice := by
    rintro t ⟨ht, N, hN, rfl⟩
    exact ⟨ht.trans_le hle, n * N, hmul N hN, by rw [hcomp]⟩
  have hd' : (smallerSums prim.lattice).ncard ≤ 24 := by
    have := Set.ncard_le_ncard hsub hfin
    omega
  have hres' : EdgesResolved prim.lattice (eps tol1em5 prim.volume) := by
    intro N hN ht
    rw [hcomp] at ht ⊢
    rw [hvol]
    exact hres _ (hmul N hN) (ht.trans hle)
  obtain ⟨e0, e1, -⟩ := hcl
  rw [← hvol] at e0 e1
  obtain ⟨st, hst⟩ := niggli_run hV.ne' e0 e1 hres' hd'
  obtain ⟨s', N, k1, -⟩ := niggli_result hV e0 e1 (by norm_num) hst r
  exact ⟨s', k1⟩

/-- the reduced cell has the shape of every Niggli cell of the lattice. -/
theorem clean_shape {r : Reducer ℝ} {s prim nig : Structure ℝ} {L₀ : Mat3 ℝ} (hc : CleanInput s r.dtol)
    (hcl : ClearLattice s.lattice (eps tol1em5 |s.volume|)) (hf : FoundPrim s prim) (h2 : r.niggliReduce prim tol1em5 = .ret nig)
    (hL : SameLattice s.lattice L₀) (hn : NiggliCell 0 L₀) : SameShape nig.lattice L₀ := by
  obtain ⟨hV, hnig, -⟩ := clean_resolves hc hcl hf h2
  obtain ⟨-, -, -, -, -, -, -, hlat⟩ := clean_niggli hc hf h2
  obtain ⟨D, hD, hD1⟩ := sameLattice_matrix hV.ne' (sameLattice_trans (fun v => (hlat v).symm) hL)
  rw [hD] at hn ⊢
  exact C63_niggli_cell_unique _ _ hV.ne' ⟨D, hD1, rfl⟩ hnig hn

/-- the standard structures exist exactly if the angles of the Niggli cell follow its edges. -/
theorem standard_of_found (sa : SymmetryAnalyzer ℝ) (h : HashOrders ℝ) (hv : h.Valid) (s ref prim : Structure ℝ) (L₀ : Mat3 ℝ)
    (hc : CleanInput ref sa.dtol) (hf : Finds sa.reducer h.minEle s ref) (h1 : sa.reducer.findPrimitiveCell h.minEle s = .ret prim)
    (hcl : ClearLattice ref.lattice (eps tol1em5 |ref.volume|)) (hres : EdgesResolved ref.lattice (eps tol1em5 |ref.volume|))
    (hd : (smallerSums ref.lattice).ncard < 25) (hL : SameLattice ref.lattice L₀) (hn : NiggliCell 0 L₀) :
    (AnglesFollow L₀ → ∃ (N : ℕ) (conv p : Structure ℝ), ∀ fuel ≥ N, sa.getStandardConventionalStructure h fuel s = .ret conv ∧
      sa.getStandardPrimitiveStructure h fuel s = .ret p) ∧
    (¬ AnglesFollow L₀ → ∀ fuel, sa.getStandardConventionalStructure h fuel s = .panic noCharacterMsg ∧
      sa.getStandardPrimitiveStructure h fuel s = .panic noCharacterMsg ∧ sa.getSpaceGroupInfo h fuel s = .panic noCharacterMsg) := by
  have hcr : CleanInput ref sa.reducer.dtol := hc
  obtain ⟨nig, h2⟩ := clean_niggli_returns hcr hcl hres hd (hf _ h1)
  obtain ⟨hV, hnig, hr0, hr⟩ := clean_resolves hcr hcl (hf _ h1) h2
  have hsh := anglesFollow_congr (clean_shape hcr hcl (hf _ h1) h2 hL hn)
  have hno := noCharacter_exact hr0 hnig hr
  have hch : getLatticeCharacter nig tol1em5 = .panic noCharacterMsg ↔ ¬ AnglesFollow L₀ := by
    rw [getLatticeCharacter_eq hV.le, C30_no_character_iff_partial _ _ _ _ _ _ _ hr0.le, hno, hsh]
  constructor
  · intro ha
    have h3 : ∃ ch, getLatticeCharacter nig tol1em5 = .ret ch := by
      have hp : ¬ getLatticeCharacter nig tol1em5 = .panic noCharacterMsg := fun k => hch.1 k ha
      rw [getLatticeCharacter_eq hV.le] at hp ⊢
      rcases characterOf_total (eps := some (eps tol1em5 nig.volume)) (a := lenSq nig.lattice.col0) (b := lenSq nig.lattice.col1)
        (c := lenSq nig.lattice.col2) (d := dotp nig.lattice.col1 nig.lattice.col2) (e := dotp nig.lattice.col0 nig.lattice.col2)
        (f := dotp nig.lattice.col0 nig.lattice.col1) with k | k
      · exact k
      · exact absurd k hp
    obtain ⟨ch, h3⟩ := h3
    obtain ⟨N, -, conv, p, hret, -⟩ := clean_standard sa h hv hc hf h1 h2 h3
    exact ⟨N, conv, p, hret⟩
  · intro ha fuel
    have h3 : conventionalTransformationMatrix nig = .panic noCharacterMsg := by
      unfold conventionalTransformationMatrix
      rw [hch.2 ha]
      rfl
    refine ⟨?_, ?_, ?_⟩
    · unfold getStandardConventionalStructure
      rw [h1, Outcome.ret_bind, h2, Outcome.ret_bind, h3]
      rfl
    · unfold getStandardPrimitiveStructure
      rw [h1, Outcome.ret_bind, h2, Outcome.ret_bind, h3]
      rfl
    · unfold getSpaceGroupInfo
      rw [h1, Outcome.ret_bind, h2, Outcome.ret_bind, h3]
      rfl

/-- **C83.** Let `s` be a clean primitive cell whose lattice has a clear-cut shape, with fewer than 25 smaller sums of squared edges among
its bases.  If in the Niggli cell of the lattice equal edges come with equal angles (`AnglesFollow`), the standard structures are
returned; otherwise all three functions of the analyzer panic. -/
theorem C83_standard_structures (sa : SymmetryAnalyzer ℝ) (h : HashOrders ℝ) (hv : h.Valid) (s : Structure ℝ) (L₀ : Mat3 ℝ)
    (hc : CleanInput s sa.dtol) (hcl : ClearLattice s.lattice (eps tol1em5 |s.volume|))
    (hres : EdgesResolved s.lattice (eps tol1em5 |s.volume|)) (hd : (smallerSums s.lattice).ncard < 25)
    (hL : SameLattice s.lattice L₀) (hn : NiggliCell 0 L₀) :
    (AnglesFollow L₀ → ∃ (N : ℕ) (conv p : Structure ℝ), ∀ fuel ≥ N, sa.getStandardConventionalStructure h fuel s = .ret conv ∧
      sa.getStandardPrimitiveStructure h fuel s = .ret p) ∧
    (¬ AnglesFollow L₀ → ∀ fuel, sa.getStandardConventionalStructure h fuel s = .panic noCharacterMsg ∧
      sa.getStandardPrimitiveStructure h fuel s = .panic noCharacterMsg ∧ sa.getSpaceGroupInfo h fuel s = .panic noCharacterMsg) := by
  obtain ⟨prim, -, h1, -⟩ := clean_primitive (r := sa.reducer) (ord := h.minEle) hv.minEle hc
  exact standard_of_found sa h hv s s prim L₀ hc (clean_finds (r := sa.reducer) hv.minEle hc) h1 hcl hres hd hL hn

/-- **C83 (the space group, from the input alone).** For a clean crystal under the same conditions: if the angles of the Niggli cell do
not follow its edges, `get_space_group_info` panics; if they do, the standard primitive structure `p` is returned, and a number is
reported exactly if it is the group in the tables of the system of the lattice whose operations are the symmetries of the crystal and
the product of operations of the crate is right for it. -/
theorem C83_space_group (sa : SymmetryAnalyzer ℝ) (h : HashOrders ℝ) (hv : h.Valid) (s ref prim : Structure ℝ) (L₀ : Mat3 ℝ)
    (hc : CleanCrystal sa h s ref) (h1 : sa.reducer.findPrimitiveCell h.minEle s = .ret prim)
    (hres : EdgesResolved ref.lattice (eps tol1em5 |ref.volume|)) (hd : (smallerSums ref.lattice).ncard < 25)
    (hL : SameLattice ref.lattice L₀) (hn : NiggliCell 0 L₀) :
    (¬ AnglesFollow L₀ → ∀ fuel, sa.getSpaceGroupInfo h fuel s = .panic noCharacterMsg) ∧
    (AnglesFollow L₀ → ∃ (N : ℕ) (p : Structure ℝ), (∀ fuel ≥ N, sa.getStandardPrimitiveStructure h fuel s = .ret p) ∧
      SameAtoms s p ∧ SameLattice ref.lattice p.lattice ∧ ∀ num : ℕ,
        (∃ fuel sym ops, sa.getSpaceGroupInfo h fuel s = .ret (num, sym, ops)) ↔
          num ∉ crateBad ∧ ∃ (sys : LatticeSystem) (n : ℕ) (codes : List ℕ) (table : List (SymmOp ℝ)),
            sys ≠ .Rhombohedral ∧ InSystem ref.lattice sys ∧ IsTableEntry sys n num codes ∧ TableOps num codes table ∧
            ∀ (Q : Mat3 ℝ) (u : Vec3 ℝ), CrystalSymmetry s Q (p.lattice * u) ↔ ∃ o ∈ table,
              Q * p.lattice = p.lattice * castRot o.rotation ∧ IntVec (u - o.translation)) := by
  obtain ⟨key1, key2⟩ := standard_of_found sa h hv s ref prim L₀ hc.clean hc.found h1 hc.clear hres hd hL hn
  refine ⟨fun ha fuel => (key2 ha fuel).2.2, fun ha => ?_⟩
  obtain ⟨N, _, p, hret⟩ := key1 ha
  have hp := (hret N le_rfl).2
  obtain ⟨prim', nig, ch, b, k1, k2, -⟩ := clean_system sa h hv N s ref p hc.clean hc.found hc.size hc.clear hp
  obtain ⟨psame, plat, -⟩ := clean_pipeline hv hc.clean hc.found hc.size k1 k2 hp
  exact ⟨N, p, fun fuel hf => (hret fuel hf).2, sameAtoms_trans hc.same psame, plat, fun num =>
    reported_iff_of_cell sa h hv N s ref p hc.clean hc.found hc.same hc.nonsing hc.index hc.size hc.clear hc.resolved hc.grid hc.long
      hc.small hp num⟩

/-- **C83 (two descriptions).** If a number is reported for one description of a clean crystal, and the table of this group is the same in
all settings (C78), then the same number and symbol are reported for every other clean description whose lattice is given in a cell
with fewer than 25 smaller sums of squared edges. -/
theorem C83_other_description (sa sa' : SymmetryAnalyzer ℝ) (h h' : HashOrders ℝ) (hv : h.Valid) (hv' : h'.Valid) (f : ℕ)
    (s s' ref ref' prim' : Structure ℝ) (hc : CleanCrystal sa h s ref) (hc' : CleanCrystal sa' h' s' ref') (hsame : SameAtoms s s')
    (h1 : sa'.reducer.findPrimitiveCell h'.minEle s' = .ret prim')
    (hres : EdgesResolved ref'.lattice (eps tol1em5 |ref'.volume|)) (hd : (smallerSums ref'.lattice).ncard < 25)
    (num : ℕ) (sym : String) (ops : List (SymmOp ℝ)) (hr : sa.getSpaceGroupInfo h f s = .ret (num, sym, ops)) (hset : num ∉ settingBad) :
    ∃ (ops' : List (SymmOp ℝ)) (N : ℕ), ∀ fuel ≥ N, sa'.getSpaceGroupInfo h' fuel s' = .ret (num, sym, ops') := by
  obtain ⟨p, -, -, -, -, hp, -⟩ := group_of_cell sa h hv f s ref hc.clean hc.found hc.size hc.clear hc.resolved hc.grid num sym ops hr
  obtain ⟨prim, nig, ch, b, k1, k2, k3, -⟩ := clean_system sa h hv f s ref p hc.clean hc.found hc.size hc.clear hp
  have hcr : CleanInput ref sa.reducer.dtol := hc.clean
  obtain ⟨hV, hnig, hr0, hres0⟩ := clean_resolves hcr hc.clear (hc.found _ k1) k2
  obtain ⟨-, -, -, -, -, -, -, hlat⟩ := clean_niggli hcr (hc.found _ k1) k2
  have ha : AnglesFollow nig.lattice := by
    by_contra ha
    rw [getLatticeCharacter_eq hV.le, (C30_no_character_iff_partial _ _ _ _ _ _ _ hr0.le).2 ((noCharacter_exact hr0 hnig hres0).2 ha)] at k3
    cases k3
  have hll : SameLattice ref'.lattice ref.lattice := sameLattice_of_primitive
    (sameAtoms_trans (sameAtoms_symm hc'.same) (sameAtoms_trans (sameAtoms_symm hsame) hc.same))
    (clean_primitiveCell hc'.clean) (clean_primitiveCell hc.clean)
  obtain ⟨N, _, p', hret⟩ := (standard_of_found sa' h' hv' s' ref' prim' nig.lattice hc'.clean hc'.found h1 hc'.clear hres hd
    (sameLattice_trans hll hlat) hnig).1 ha
  exact C78_same_answer_partial sa sa' h h' hv hv' f N s s' ref ref' p' hc hc' hsame num sym ops hr (hret N le_rfl).2 hset

/-- one atom in the cell `(3,0,0), (1,2,2), (1,-2,2)` with three edges of length 3. -/
noncomputable def threeCell : Structure ℝ := Structure.new ⟨3, 1, 1, 0, 2, -2, 0, 2, 2⟩ ["X"] [0] false

theorem threeCell_lattice : threeCell.lattice = ⟨3, 1, 1, 0, 2, -2, 0, 2, 2⟩ := rfl

theorem threeCell_volume : threeCell.volume = 24 := by
  unfold Structure.volume; rw [threeCell_lattice]; norm_num [Mat3.det]

theorem threeCell_eps : 0 < eps tol1em5 |threeCell.volume| ∧ eps tol1em5 |threeCell.volume| < 1 / 20000 := by
  rw [threeCell_volume, abs_of_pos (by norm_num)]
  unfold eps
  rw [tol1em5_real]
  have h1 : (0 : ℝ) < (24 : ℝ) ^ ((1 : ℝ) / 3) := by positivity
  have h2 : (24 : ℝ) ^ ((1 : ℝ) / 3) ≤ 3 := by
    have e : (27 : ℝ) ^ ((1 : ℝ) / 3) = 3 := by
      rw [show (27 : ℝ) = 3 ^ (3 : ℝ) by norm_num, ← Real.rpow_mul (by norm_num)]; norm_num
    have := Real.rpow_le_rpow (x := (24 : ℝ)) (y := 27) (z := (1 : ℝ) / 3) (by norm_num) (by norm_num) (by norm_num)
    rwa [e] at this
  constructor
  · positivity
  · linarith

theorem threeCell_clean : CleanInput threeCell (1 / 20) := by
  have hl := threeCell_lattice
  have hvol := threeCell_volume
  have hs : OneSite threeCell "X" := ⟨rfl, rfl⟩
  have hsz : cellSize threeCell = 27 + 100 * |eps tol1em5 (|threeCell.volume|)| := by
    unfold cellSize
    rw [hl]
    norm_num [lenSq, Mat3.col0, Mat3.col1, Mat3.col2]
  obtain ⟨e0, e1⟩ := threeCell_eps
  rw [abs_of_pos e0] at hsz
  have hlo : 0 ≤ cellSize threeCell := by linarith
  have hhi : cellSize threeCell ≤ 28 := by linarith
  have h2 : cellSize threeCell ^ 2 ≤ 28 ^ 2 := by gcongr
  have h3 : cellSize threeCell ^ 3 ≤ 28 ^ 3 := by gcongr
  refine ⟨⟨rfl, rfl⟩, by decide, ?_, noTranslation_of_once _ ⟨"X", rfl⟩, by norm_num, by rw [hvol]; norm_num,
    by rw [hvol]; linarith, by rw [hvol]; linarith, ?_⟩
  · exact List.pairwise_singleton _ _
  · rw [hvol]
    intro e e' x y hx hy
    obtain ⟨rfl, n, ⟨i, j, k, rfl⟩, rfl⟩ := (atomAt_oneSite hs).1 hx
    obtain ⟨rfl, m, ⟨i', j', k', rfl⟩, rfl⟩ := (atomAt_oneSite hs).1 hy
    by_cases h0 : i = i' ∧ j = j' ∧ k = k'
    · left
      rw [h0.1, h0.2.1, h0.2.2]
      exact ⟨rfl, rfl⟩
    · right
      have h1 : 8 ≤ (3 * (i - i') + (j - j') + (k - k')) ^ 2 + 8 * ((j - j') ^ 2 + (k - k') ^ 2) := by
        by_contra hlt
        have a1 := sq_nonneg (3 * (i - i') + (j - j') + (k - k'))
        have a2 := sq_nonneg (j - j')
        have a3 := sq_nonneg (k - k')
        have b2 : (j - j') ^ 2 = 0 := by omega
        have b3 : (k - k') ^ 2 = 0 := by omega
        rw [sq_eq_zero_iff] at b2 b3
        rw [b2, b3] at hlt
        have : 1 ≤ (i - i') ^ 2 := by
          have : i - i' ≠ 0 := by omega
          have := sq_pos_of_ne_zero this
          omega
        apply hlt
        nlinarith
      have h2 : (8 : ℝ) ≤ (3 * ((i : ℝ) - i') + (j - j') + (k - k')) ^ 2 + 8 * (((j : ℝ) - j') ^ 2 + ((k : ℝ) - k') ^ 2) := by
        exact_mod_cast h1
      have e : lenSq (threeCell.lattice * (⟨i, j, k⟩ : Vec3 ℝ) - threeCell.lattice * (⟨i', j', k'⟩ : Vec3 ℝ))
          = (3 * ((i : ℝ) - i') + (j - j') + (k - k')) ^ 2 + 8 * (((j : ℝ) - j') ^ 2 + ((k : ℝ) - k') ^ 2) := by
        rw [hl]; simp [lenSq]; ring
      rw [e]
      linarith

/-- an integer cell is clear-cut and resolved. -/
theorem threeCell_resolved : ClearLattice threeCell.lattice (eps tol1em5 |threeCell.volume|) ∧
    EdgesResolved threeCell.lattice (eps tol1em5 |threeCell.volume|) := by
  obtain ⟨e0, e1⟩ := threeCell_eps
  constructor
  · refine clearLattice_integral threeCell_clean.det_ne (g := 1) e0 (by linarith) (by linarith) ⟨9, 3, 3, 3, 9, 1, 3, 1, 9⟩ ?_
    rw [threeCell_lattice]
    ext <;> norm_num [Mat3.transpose, Mat3.scale, overK, Mat3.map]
  · refine multiples_resolved (g := 1) (by linarith) e0 ⟨9, 9, 9, 2, 6, 6, ?_⟩
    rw [threeCell_lattice]
    norm_num [lenSq, dotp, Mat3.col0, Mat3.col1, Mat3.col2]

theorem threeCell_niggli : NiggliCell 0 threeCell.lattice := by
  rw [threeCell_lattice]
  constructor <;> norm_num [lenSq, dotp, Mat3.col0, Mat3.col1, Mat3.col2]

theorem threeCell_buerger : BuergerCell threeCell.lattice := by
  rw [threeCell_lattice]
  constructor <;> norm_num [lenSq, Mat3.col0, Mat3.col1, Mat3.col2]

/-- **C83 (a crystal without standard structures).** The crystal with one atom in the cell `(3,0,0), (1,2,2), (1,-2,2)` satisfies all
conditions, and its lattice has the mirror plane `y = 0`; `b = c` and `β = γ`, but `a = b` without `α = β`.  All three functions of the
analyzer panic, although the cell is already a Niggli cell. -/
theorem C83_equal_edges_panic (h : HashOrders ℝ) (hv : h.Valid) (atol : ℝ) (fuel : ℕ) :
    NiggliCell 0 threeCell.lattice ∧
    (⟨1 / 20, atol⟩ : SymmetryAnalyzer ℝ).getStandardConventionalStructure h fuel threeCell = .panic noCharacterMsg ∧
    (⟨1 / 20, atol⟩ : SymmetryAnalyzer ℝ).getStandardPrimitiveStructure h fuel threeCell = .panic noCharacterMsg ∧
    (⟨1 / 20, atol⟩ : SymmetryAnalyzer ℝ).getSpaceGroupInfo h fuel threeCell = .panic noCharacterMsg := by
  obtain ⟨k1, k2⟩ := threeCell_resolved
  refine ⟨threeCell_niggli, (C83_standard_structures ⟨1 / 20, atol⟩ h hv threeCell threeCell.lattice threeCell_clean k1 k2 ?_
    (fun _ => Iff.rfl) threeCell_niggli).2 ?_ fuel⟩
  · have : LeastEdges threeCell.lattice := fun N hN => buerger_least threeCell_clean.det_ne threeCell_buerger
      (by rcases hN with e | e <;> rw [e] <;> norm_num)
    rw [leastEdges_none this]
    simp
  · rintro ⟨ha, -⟩
    rw [threeCell_lattice] at ha
    rcases ha (by norm_num [lenSq, Mat3.col0, Mat3.col1]) with k | ⟨⟨k, -⟩, -⟩
    · norm_num [dotp, Mat3.col0, Mat3.col1, Mat3.col2] at k
    · norm_num [dotp, Mat3.col0, Mat3.col1, Mat3.col2] at k

/-- the condition holds for `α`-polonium. -/
example (h : HashOrders ℝ) (hv : h.Valid) (atol : ℝ) : ∃ (N : ℕ) (conv p : Structure ℝ), ∀ fuel ≥ N,
    (⟨1 / 20, atol⟩ : SymmetryAnalyzer ℝ).getStandardConventionalStructure h fuel poCell = .ret conv ∧
      (⟨1 / 20, atol⟩ : SymmetryAnalyzer ℝ).getStandardPrimitiveStructure h fuel poCell = .ret p := by
  have hl : poCell.lattice = ⟨67 / 20, 0, 0, 0, 67 / 20, 0, 0, 0, 67 / 20⟩ := rfl
  have hdet : poCell.lattice.det ≠ 0 := by rw [hl]; norm_num [Mat3.det]
  have he : eps tol1em5 |poCell.volume| = 67 / 2000000 := by
    have hvol : poCell.volume = (67 / 20) ^ (3 : ℝ) := by unfold Structure.volume; rw [hl]; norm_num [Mat3.det]
    unfold eps
    rw [hvol, abs_of_pos (by positivity), ← Real.rpow_mul (by norm_num), tol1em5_real]
    norm_num
  have hn : NiggliCell 0 poCell.lattice := by
    rw [hl]
    constructor <;> norm_num [lenSq, dotp, Mat3.col0, Mat3.col1, Mat3.col2]
  have hb : BuergerCell poCell.lattice := by
    rw [hl]
    constructor <;> norm_num [lenSq, Mat3.col0, Mat3.col1, Mat3.col2]
  refine (C83_standard_structures ⟨1 / 20, atol⟩ h hv poCell poCell.lattice poCell_clean ?_ ?_ ?_ (fun _ => Iff.rfl) hn).1 ?_
  · rw [he]
    refine clearLattice_integral hdet (g := (67 / 20) ^ 2) (by norm_num) (by norm_num) (by norm_num) 1 ?_
    rw [hl, overK_one]
    ext <;> simp [Mat3.transpose, Mat3.scale, Mat3.map] <;> norm_num
  · rw [he]
    refine multiples_resolved (g := (67 / 20) ^ 2) (by norm_num) (by norm_num) ⟨1, 1, 1, 0, 0, 0, ?_⟩
    rw [hl]
    norm_num [lenSq, dotp, Mat3.col0, Mat3.col1, Mat3.col2]
  · have : LeastEdges poCell.lattice := fun N hN => buerger_least hdet hb (by rcases hN with e | e <;> rw [e] <;> norm_num)
    rw [leastEdges_none this]
    simp
  · rw [hl]
    constructor <;> intro _ <;> left <;> norm_num [dotp, Mat3.col0, Mat3.col1, Mat3.col2]

end CrystSymm
