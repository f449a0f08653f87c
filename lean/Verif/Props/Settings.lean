import Verif.Props.Conventional
import Verif.Proofs.Settings
import Verif.Props.NiggliUnique

set_option autoImplicit false
set_option linter.unusedSectionVars false

/-! # C78: one crystal described in two ways -/

namespace CrystSymm

open Spec Reducer SymmetryAnalyzer NiggliCert PointGroup

/-- the assumptions of C76 and C77 on the crystal in the cell `s`: `ref` is a clean primitive cell of the same crystal and
`find_primitive_cell` finds one of the same size (`CleanCrystal.of_input`, `CleanCrystal.of_cell`), there is no pseudosymmetry, the
origin is a position of the tables, the shape of the lattice is clear-cut, and the lattice vectors are `48` tolerances long. -/
structure CleanCrystal (sa : SymmetryAnalyzer ℝ) (h : HashOrders ℝ) (s ref : Structure ℝ) : Prop where
  clean : CleanInput ref sa.dtol
  found : Finds sa.reducer h.minEle s ref
  same : SameAtoms s ref
  nonsing : s.lattice.det ≠ 0
  index : |s.volume| ≤ 24 * |ref.volume|
  size : 81 * cellSize ref ≤ (200000000 * sa.dtol) ^ 2
  clear : ClearLattice ref.lattice (eps tol1em5 |ref.volume|)
  resolved : Resolved ref sa.dtol
  grid : GridOrigin ref
  long : LongVectors ref.lattice (48 * sa.dtol)
  small : SmallSymmetries s

/-- clean primitive inputs. -/
theorem CleanCrystal.of_input {sa : SymmetryAnalyzer ℝ} {h : HashOrders ℝ} (hv : h.Valid) {s : Structure ℝ}
    (hc : CleanInput s sa.dtol) (hsize : 81 * cellSize s ≤ (200000000 * sa.dtol) ^ 2)
    (hcl : ClearLattice s.lattice (eps tol1em5 |s.volume|)) (hres : Resolved s sa.dtol) (hgrid : GridOrigin s)
    (hlong : LongVectors s.lattice (48 * sa.dtol)) (hsm : SmallMatrices s.lattice) : CleanCrystal sa h s s :=
  ⟨hc, clean_finds (r := sa.reducer) hv.minEle hc, fun _ _ => Iff.rfl, hc.det_ne, by linarith [abs_nonneg s.volume], hsize, hcl, hres,
    hgrid, hlong, smallSymmetries_of (clean_primitiveCell hc) hsm⟩

/-- clean cells that are not primitive. -/
theorem CleanCrystal.of_cell {sa : SymmetryAnalyzer ℝ} {h : HashOrders ℝ} (hv : h.Valid) {s ref prim : Structure ℝ}
    (hc : CleanInput ref sa.dtol) (hs : CleanCell s ref sa.dtol) (hprim : sa.reducer.findPrimitiveCell h.minEle s = .ret prim)
    (hvol : prim.volume = |ref.volume|) (hfrob : frob prim.lattice ≤ frob ref.lattice)
    (hsize : 81 * cellSize ref ≤ (200000000 * sa.dtol) ^ 2) (hcl : ClearLattice ref.lattice (eps tol1em5 |ref.volume|))
    (hres : Resolved ref sa.dtol) (hgrid : GridOrigin ref) (hlong : LongVectors ref.lattice (48 * sa.dtol)) (hsm : SmallSymmetries s) :
    CleanCrystal sa h s ref :=
  ⟨hc, cell_finds (r := sa.reducer) hv.minEle hc hs hprim hvol hfrob, hs.same, hs.nonsing, hs.index, hsize, hcl, hres, hgrid, hlong, hsm⟩

/-- two primitive cells of a crystal generate the same lattice. -/
theorem sameLattice_of_primitive {s s' : Structure ℝ} (h : SameAtoms s s') (hp : PrimitiveCell s) (hp' : PrimitiveCell s') :
    SameLattice s.lattice s'.lattice := fun v =>
  ⟨fun hv => cell_sublattice h hp' v hv, fun hv => cell_sublattice (sameAtoms_symm h) hp v hv⟩

/-- cells of the same shape differ by a rotation. -/
theorem rotation_of_shape {L L' : Mat3 ℝ} (hd : L.det ≠ 0) (h : SameShape L L') : ∃ Q, Orthogonal Q ∧ L' = Q * L := by
  have hg : L'.transpose * L' = L.transpose * L := by
    obtain ⟨a1, a2, a3, a4, a5, a6⟩ := h
    simp only [lenSq, dotp, Mat3.col0, Mat3.col1, Mat3.col2] at a1 a2 a3 a4 a5 a6
    ext <;> simp [Mat3.transpose] <;> linarith
  refine ⟨L' * L.adjDiv L.det, ?_, by rw [mul_assoc, Mat3.adjDiv_mul hd, mul_one]⟩
  have ht : ∀ A B : Mat3 ℝ, (A * B).transpose = B.transpose * A.transpose := by
    intro A B
    ext <;> simp [Mat3.transpose] <;> ring
  have h1 : (L.adjDiv L.det).transpose * L.transpose = 1 := by
    rw [← ht, Mat3.mul_adjDiv hd]
    ext <;> simp [Mat3.transpose]
  show (L' * L.adjDiv L.det).transpose * (L' * L.adjDiv L.det) = 1
  rw [ht, mul_assoc, ← mul_assoc L'.transpose, hg, mul_assoc L.transpose, Mat3.mul_adjDiv hd, mul_one, h1]

theorem sameLattice_left (Q : Mat3 ℝ) {L L' : Mat3 ℝ} (h : SameLattice L L') : SameLattice (Q * L) (Q * L') := by
  have key : ∀ {A B : Mat3 ℝ}, (∀ v, (∃ n : Vec3 ℝ, IntVec n ∧ v = A * n) → ∃ n : Vec3 ℝ, IntVec n ∧ v = B * n) →
      ∀ v, (∃ n : Vec3 ℝ, IntVec n ∧ v = Q * A * n) → ∃ n : Vec3 ℝ, IntVec n ∧ v = Q * B * n := by
    rintro A B h v ⟨n, hn, rfl⟩
    obtain ⟨k, hk, e⟩ := h _ ⟨n, hn, rfl⟩
    exact ⟨k, hk, by rw [Mat3.mul_mulVec, e, Mat3.mul_mulVec]⟩
  exact fun v => ⟨key (fun v => (h v).1) v, key (fun v => (h v).2) v⟩

/-- a rotated cell has the same shape. -/
theorem sameShape_rot {Q : Mat3 ℝ} (hQ : Orthogonal Q) (L : Mat3 ℝ) : SameShape L (Q * L) := by
  have e0 : (Q * L).col0 = Q * L.col0 := by ext <;> simp [Mat3.col0]
  have e1 : (Q * L).col1 = Q * L.col1 := by ext <;> simp [Mat3.col1]
  have e2 : (Q * L).col2 = Q * L.col2 := by ext <;> simp [Mat3.col2]
  unfold SameShape
  rw [e0, e1, e2]
  simp only [lenSq_orthogonal hQ, dotp_orthogonal hQ, and_self]

theorem niggliCell_shape {ε : ℝ} {L L' : Mat3 ℝ} (h : SameShape L L') (hn : NiggliCell ε L) : NiggliCell ε L' := by
  obtain ⟨a1, a2, a3, a4, a5, a6⟩ := h
  unfold NiggliCell at hn ⊢
  rw [← a1, ← a2, ← a3, ← a4, ← a5, ← a6]
  exact hn

/-- the standard primitive cells of two crystals whose lattices differ by a rotation differ by this rotation and a rotation of the
lattice onto itself. -/
theorem settings_turned {sa sa' : SymmetryAnalyzer ℝ} {h h' : HashOrders ℝ} (hv : h.Valid) (hv' : h'.Valid) {f f' : ℕ}
    {s s' ref ref' p p' : Structure ℝ} (hc : CleanCrystal sa h s ref) (hc' : CleanCrystal sa' h' s' ref') {Q₁ : Mat3 ℝ} (hQ₁ : Orthogonal Q₁) (hd₁ : Q₁.det = 1)
    (hlr : SameLattice (Q₁ * ref.lattice) ref'.lattice)
    (hp : sa.getStandardPrimitiveStructure h f s = .ret p) (hp' : sa'.getStandardPrimitiveStructure h' f' s' = .ret p') :
    ∃ (b : BravaisType) (c : ℕ), c ∈ holoCodes b ∧ (decZ c).det = 1 ∧ p'.lattice = Q₁ * p.lattice * overK ℝ (decZ c) ∧
      p.lattice.det ≠ 0 ∧ SameAtoms s p ∧ PrimitiveCell p ∧ p'.lattice.det ≠ 0 ∧ SameAtoms s' p' ∧ PrimitiveCell p' ∧
      (∀ Q, Orthogonal Q → MapsLattice Q p.lattice → ∃ c ∈ holoCodes b, Q * p.lattice = p.lattice * overK ℝ (decZ c)) ∧
      (∀ Q, Orthogonal Q → MapsLattice Q p'.lattice → ∃ c ∈ holoCodes b, Q * p'.lattice = p'.lattice * overK ℝ (decZ c)) ∧
      (∃ Q, Orthogonal Q ∧ Q * p.lattice = p.lattice * overK ℝ (decZ c)) ∧
      (∀ sys, sys ≠ .Rhombohedral → InSystem ref.lattice sys → b.latticeSystem? = some sys) ∧
      ∀ sys, sys ≠ .Rhombohedral → InSystem ref'.lattice sys → b.latticeSystem? = some sys := by
  obtain ⟨N₁, hN₁⟩ := C35_primitive_holohedry_returns (K := ℝ)
  have hq : sa.getStandardPrimitiveStructure h (f + N₁) s = .ret p := (standardLe sa h f N₁ s).of_ret hp
  obtain ⟨prim, nig, conv, ch, m, P, b, k1, k2, k3, k4, k5, k6, -, k8⟩ := standardPrimitive_ret hq
  have hq' : sa'.getStandardPrimitiveStructure h' (f' + N₁) s' = .ret p' := (standardLe sa' h' f' N₁ s').of_ret hp'
  obtain ⟨prim', nig', conv', ch', m', P', b', j1, j2, j3, j4, j5, j6, -, j8⟩ := standardPrimitive_ret hq'
  obtain ⟨n1, n2, n3⟩ := clean_resolves (r := sa.reducer) hc.clean hc.clear (hc.found _ k1) k2
  obtain ⟨n1', n2', n3'⟩ := clean_resolves (r := sa'.reducer) hc'.clean hc'.clear (hc'.found _ j1) j2
  obtain ⟨-, san, -, pn, -, -, dn, ln⟩ := clean_niggli (r := sa.reducer) hc.clean (hc.found _ k1) k2
  obtain ⟨-, san', -, pn', -, -, dn', ln'⟩ := clean_niggli (r := sa'.reducer) hc'.clean (hc'.found _ j1) j2
  have hrn := sameLattice_of_primitive san (clean_primitiveCell hc.clean) pn
  have hrn' := sameLattice_of_primitive san' (clean_primitiveCell hc'.clean) pn'
  have hnn : SameLattice (Q₁ * nig.lattice) nig'.lattice :=
    sameLattice_trans (fun v => (sameLattice_left Q₁ hrn v).symm) (sameLattice_trans hlr hrn')
  have hnd : nig.lattice.det ≠ 0 := n1.ne'
  have hdm : (Q₁ * nig.lattice).det = nig.lattice.det := by rw [Mat3.det_mul, hd₁, one_mul]
  obtain ⟨D, hD, hD1⟩ := sameLattice_matrix (by rw [hdm]; exact hnd) hnn
  have hshape : SameShape nig.lattice nig'.lattice := by
    have h2 : SameShape (Q₁ * nig.lattice) nig'.lattice := by
      rw [hD] at n2' ⊢
      exact C63_niggli_cell_unique _ _ (by rw [hdm]; exact hnd) ⟨D, hD1, rfl⟩ (niggliCell_shape (sameShape_rot hQ₁ _) n2) n2'
    obtain ⟨a1, a2, a3, a4, a5, a6⟩ := sameShape_rot hQ₁ nig.lattice
    obtain ⟨b1, b2, b3, b4, b5, b6⟩ := h2
    exact ⟨a1.trans b1, a2.trans b2, a3.trans b3, a4.trans b4, a5.trans b5, a6.trans b6⟩
  have hvol : nig'.volume = nig.volume := by
    have e : nig'.volume = nig.volume * D.det := by
      unfold Structure.volume
      rw [hD, Mat3.det_mul, hdm]
      congr 1
      exact overK_det D
    rcases hD1 with h1 | h1
    · rw [e, h1]; simp
    · exfalso
      rw [h1] at e
      push_cast at e
      linarith
  have hch : ch' = ch := by
    have e1 := k8
    have e2 := j8
    rw [getLatticeCharacter_eq n1.le] at e1
    rw [getLatticeCharacter_eq n1'.le, hvol] at e2
    obtain ⟨a1, a2, a3, a4, a5, a6⟩ := hshape
    rw [← a1, ← a2, ← a3, ← a4, ← a5, ← a6, e1] at e2
    exact (Outcome.ret.inj e2).symm
  subst hch
  rw [k3] at j3
  cases j3
  rw [k5] at j5
  cases j5
  obtain ⟨Q, hQ, hQL⟩ := rotation_of_shape hnd hshape
  have hlat : p'.lattice = Q * p.lattice := by
    rw [applyTransformation_lattice j6, applyTransformation_lattice j4, applyTransformation_lattice k6, applyTransformation_lattice k4,
      hQL, mul_assoc, mul_assoc, mul_assoc]
  obtain ⟨psame, plat, pdet, pprim, -⟩ := clean_pipeline hv hc.clean hc.found hc.size k1 k2 hq
  obtain ⟨psame', plat', pdet', pprim', -⟩ := clean_pipeline hv' hc'.clean hc'.found hc'.size j1 j2 hq'
  have hpp : SameLattice (Q₁ * p.lattice) p'.lattice :=
    sameLattice_trans (fun v => (sameLattice_left Q₁ (sameLattice_of_primitive psame (clean_primitiveCell hc.clean) pprim) v).symm)
      (sameLattice_trans hlr (sameLattice_of_primitive psame' (clean_primitiveCell hc'.clean) pprim'))
  have hmaps : MapsLattice (Q₁.transpose * Q) p.lattice := by
    intro n hn
    obtain ⟨k, hk, e⟩ := (hpp (p'.lattice * n)).2 ⟨n, hn, rfl⟩
    refine ⟨k, hk, ?_⟩
    rw [hlat, Mat3.mul_mulVec, Mat3.mul_mulVec] at e
    rw [Mat3.mul_mulVec, e, ← Mat3.mul_mulVec, show Q₁.transpose * Q₁ = 1 from hQ₁, Mat3.one_mulVec]
  have hRo : Orthogonal (Q₁.transpose * Q) := by
    have ht : ∀ A B : Mat3 ℝ, (A * B).transpose = B.transpose * A.transpose := by
      intro A B
      ext <;> simp [Mat3.transpose] <;> ring
    have htt : Q₁.transpose.transpose = Q₁ := rfl
    show (Q₁.transpose * Q).transpose * (Q₁.transpose * Q) = 1
    rw [ht, htt, mul_assoc, ← mul_assoc Q₁, orthogonal_right hQ₁, one_mul]
    exact hQ
  obtain ⟨prim2, nig2, ch2, b2, g1, g2, g3, g4, key⟩ := clean_system sa h hv _ s ref p hc.clean hc.found hc.size hc.clear hq
  obtain ⟨prim3, nig3, ch3, b3, i1, i2, i3, i4, key'⟩ := clean_system sa' h' hv' _ s' ref' p' hc'.clean hc'.found hc'.size hc'.clear hq'
  rw [k1] at g1
  cases g1
  rw [k2] at g2
  cases g2
  rw [k8] at g3
  cases g3
  rw [j1] at i1
  cases i1
  rw [j2] at i2
  cases i2
  rw [j8] at i3
  cases i3
  rw [g4] at i4
  cases i4
  obtain ⟨pg, hpg⟩ := hN₁ (f + N₁) (by omega) h hv b2
  obtain ⟨pg', hpg'⟩ := hN₁ (f' + N₁) (by omega) h' hv' b2
  obtain ⟨hfull', hsy'⟩ := key' pg' hpg'
  obtain ⟨hfull, hsy⟩ := key pg hpg
  have hperm := holo_perm hv hpg
  have hcode : ∀ R, Orthogonal R → MapsLattice R p.lattice → ∃ c ∈ holoCodes b2, R * p.lattice = p.lattice * overK ℝ (decZ c) := by
    intro R hR hm
    obtain ⟨W, hW, e⟩ := hfull.1 R hR hm
    obtain ⟨c, hc, rfl⟩ := List.mem_map.1 (hperm.mem_iff.1 hW)
    exact ⟨c, hc, by rw [e, intRot_dec8]⟩
  have hcode' : ∀ R, Orthogonal R → MapsLattice R p'.lattice → ∃ c ∈ holoCodes b2, R * p'.lattice = p'.lattice * overK ℝ (decZ c) := by
    intro R hR hm
    obtain ⟨W, hW, e⟩ := hfull'.1 R hR hm
    obtain ⟨c, hc, rfl⟩ := List.mem_map.1 ((holo_perm hv' hpg').mem_iff.1 hW)
    exact ⟨c, hc, by rw [e, intRot_dec8]⟩
  obtain ⟨c, hcc, hce⟩ := hcode _ hRo hmaps
  refine ⟨b2, c, hcc, ?_, ?_, pdet, sameAtoms_trans hc.same psame, pprim, pdet', sameAtoms_trans hc'.same psame', pprim', hcode, hcode',
    ⟨_, hRo, hce⟩, fun sys hR => (hsy sys hR).1, fun sys hR => (hsy' sys hR).1⟩
  · have h1 : Q.det = 1 := by
      have e := congrArg Mat3.det hQL
      rw [Mat3.det_mul] at e
      have e2 : nig'.lattice.det = nig.lattice.det := hvol
      rw [e2] at e
      exact (mul_right_cancel₀ hnd (by rw [one_mul]; exact e)).symm
    have e := congrArg Mat3.det hce
    rw [Mat3.det_mul, Mat3.det_mul, Mat3.det_mul, Mat3.det_transpose, hd₁, h1, one_mul, one_mul, overK_det] at e
    have e2 : ((decZ c).det : ℝ) = 1 := (mul_left_cancel₀ pdet (by rw [mul_one]; exact e)).symm
    exact_mod_cast e2
  · rw [hlat, mul_assoc, ← hce, ← mul_assoc, ← mul_assoc, orthogonal_right hQ₁, one_mul]

/-- the standard primitive cells of two descriptions of a crystal differ by a rotation of the lattice. -/
theorem settings_related {sa sa' : SymmetryAnalyzer ℝ} {h h' : HashOrders ℝ} (hv : h.Valid) (hv' : h'.Valid) {f f' : ℕ}
    {s s' ref ref' p p' : Structure ℝ} (hc : CleanCrystal sa h s ref) (hc' : CleanCrystal sa' h' s' ref') (hsame : SameAtoms s s')
    (hp : sa.getStandardPrimitiveStructure h f s = .ret p) (hp' : sa'.getStandardPrimitiveStructure h' f' s' = .ret p') :
    ∃ (b : BravaisType) (c : ℕ), c ∈ holoCodes b ∧ (decZ c).det = 1 ∧ p'.lattice = p.lattice * overK ℝ (decZ c) ∧
      p.lattice.det ≠ 0 ∧ SameAtoms s p ∧ PrimitiveCell p ∧ SameLattice ref.lattice ref'.lattice ∧
      (∀ Q, Orthogonal Q → MapsLattice Q p.lattice → ∃ c ∈ holoCodes b, Q * p.lattice = p.lattice * overK ℝ (decZ c)) ∧
      (∀ Q, Orthogonal Q → MapsLattice Q p'.lattice → ∃ c ∈ holoCodes b, Q * p'.lattice = p'.lattice * overK ℝ (decZ c)) ∧
      (∃ Q, Orthogonal Q ∧ Q * p.lattice = p.lattice * overK ℝ (decZ c)) ∧
      ∀ sys, sys ≠ .Rhombohedral → InSystem ref.lattice sys → b.latticeSystem? = some sys := by
  have hrr : SameAtoms ref ref' := sameAtoms_trans (sameAtoms_symm hc.same) (sameAtoms_trans hsame hc'.same)
  have hlr := sameLattice_of_primitive hrr (clean_primitiveCell hc.clean) (clean_primitiveCell hc'.clean)
  have ho : Orthogonal (1 : Mat3 ℝ) := by
    unfold Orthogonal
    ext <;> simp [Mat3.transpose]
  obtain ⟨b, c, h1, h2, h3, h4, h5, h6, -, -, -, h7, h8, h9, h10, -⟩ := settings_turned hv hv' hc hc' ho Mat3.det_one
    (by rw [one_mul]; exact hlr) hp hp'
  rw [one_mul] at h3
  exact ⟨b, c, h1, h2, h3, h4, h5, h6, hlr, h7, h8, h9, h10⟩

/-- the symmetries of the crystal `s` are, in the basis `P`, the operations of the table. -/
def GroupIs (s : Structure ℝ) (P : Mat3 ℝ) (table : List (SymmOp ℝ)) : Prop :=
  ∀ (Q : Mat3 ℝ) (u : Vec3 ℝ), CrystalSymmetry s Q (P * u) ↔
    ∃ o ∈ table, Q * P = P * castRot o.rotation ∧ IntVec (u - o.translation)

theorem adj_mul_one {v : Mat3 ℤ} (h : v.det = 1) : v.adj * v = 1 := by
  unfold Mat3.det at h
  ext <;> simp [Mat3.adj] <;> first | ring1 | linear_combination h

theorem mul_adj_one {v : Mat3 ℤ} (h : v.det = 1) : v * v.adj = 1 := by
  unfold Mat3.det at h
  ext <;> simp [Mat3.adj] <;> first | ring1 | linear_combination h

/-- in the second basis, the operations of the first table are in the second table. -/
theorem conj_of_group {s s' : Structure ℝ} (hsame : SameAtoms s s') {P : Mat3 ℝ} (hd : P.det ≠ 0) {v : Mat3 ℤ} (hv : v.det = 1)
    {e e' : ℕ × List ℕ} (h : GroupIs s P ((groupZ e).map (opK ℝ))) (h' : GroupIs s' (P * overK ℝ v) ((groupZ e').map (opK ℝ))) :
    ∀ a ∈ groupZ e, conjZ v a ∈ groupZ e' := by
  intro a ha
  have hQP : P * overK ℝ a.1 * P.adjDiv P.det * P = P * castRot (opK ℝ a).rotation := by
    rw [mul_assoc, Mat3.adjDiv_mul hd, mul_one, castRot_overK, show (opK ℝ a).rotation = rotZ a from rfl, intRot_rotZ (groupZ_range a ha)]
  have h1 := (h (P * overK ℝ a.1 * P.adjDiv P.det) (opK ℝ a).translation).2
    ⟨opK ℝ a, List.mem_map.2 ⟨a, ha, rfl⟩, hQP, by rw [sub_self]; exact intVec_zero⟩
  have h2 := crystalSymmetry_congr hsame h1
  have hva : overK ℝ v * overK ℝ v.adj = 1 := by rw [← overK_mul, mul_adj_one hv, overK_one]
  have e1 : P * (opK ℝ a).translation = P * overK ℝ v * (overK ℝ v.adj * (opK ℝ a).translation) := by
    rw [← Mat3.mul_mulVec (P * overK ℝ v), mul_assoc P, hva, mul_one]
  rw [e1] at h2
  obtain ⟨o, ho, h3, h4⟩ := (h' _ _).1 h2
  obtain ⟨a', ha', rfl⟩ := List.mem_map.1 ho
  rw [← mul_assoc, hQP, castRot_overK, castRot_overK, show (opK ℝ a).rotation = rotZ a from rfl,
    show (opK ℝ a').rotation = rotZ a' from rfl, intRot_rotZ (groupZ_range a ha), intRot_rotZ (groupZ_range a' ha'), mul_assoc, mul_assoc,
    ← overK_mul, ← overK_mul] at h3
  have h5 : a.1 * v = v * a'.1 := overK_injective (mat_mul_injective hd h3)
  suffices conjZ v a = a' by rwa [this]
  refine Prod.ext ?_ ?_
  · show v.adj * a.1 * v = a'.1
    rw [mul_assoc, h5, ← mul_assoc, adj_mul_one hv, one_mul]
  · obtain ⟨i, j, k, h6⟩ := h4
    obtain ⟨r1, r2, r3⟩ := (groupZ_range a' ha').2
    have key : ∀ (x y i : ℤ), 0 ≤ y ∧ y < 12 → (x : ℝ) / 12 - (y : ℝ) / 12 = i → x % 12 = y := by
      intro x y i hy h
      have h7 : x = y + 12 * i := by
        have : (x : ℝ) = y + 12 * i := by linarith
        exact_mod_cast this
      omega
    have hx := congrArg Vec3.x h6
    have hy := congrArg Vec3.y h6
    have hz := congrArg Vec3.z h6
    simp only [opK, overK, Mat3.map, Vec3.sub_x, Vec3.sub_y, Vec3.sub_z, Mat3.mulVec_x, Mat3.mulVec_y, Mat3.mulVec_z] at hx hy hz
    refine Vec3.ext (key _ _ i r1 ?_) (key _ _ j r2 ?_) (key _ _ k r3 ?_)
    · rw [← hx]; simp only [Mat3.mulVec_x]; push_cast; ring
    · rw [← hy]; simp only [Mat3.mulVec_y]; push_cast; ring
    · rw [← hz]; simp only [Mat3.mulVec_z]; push_cast; ring

theorem conj_length {e e' : ℕ × List ℕ} {v : Mat3 ℤ} (hv : v.det = 1) (hn : ((groupZ e).map Prod.fst).Nodup)
    (h : ∀ a ∈ groupZ e, conjZ v a ∈ groupZ e') : (groupZ e).length ≤ (groupZ e').length := by
  have hinj : Function.Injective fun W : Mat3 ℤ => v.adj * W * v := by
    intro W W' hW
    have := congrArg (fun X => v * X * v.adj) hW
    simpa only [← mul_assoc, mul_adj_one hv, one_mul, mul_assoc _ v v.adj, mul_one] using this
  have h1 := (hn.map hinj).subperm (l₂ := (groupZ e').map Prod.fst) (by
    intro W hW
    obtain ⟨W', hW', rfl⟩ := List.mem_map.1 hW
    obtain ⟨a, ha, rfl⟩ := List.mem_map.1 hW'
    exact List.mem_map.2 ⟨_, h a ha, rfl⟩)
  simpa using h1.length_le

theorem entry_length {sys : LatticeSystem} {n num : ℕ} {codes : List ℕ} (hent : IsTableEntry sys n num codes) :
    (groupZ (num, codes)).length = n := by
  obtain ⟨table, htab, hlen, -⟩ := C39_tables_are_groups (K := ℝ) _ _ _ _ hent
  rw [tableOps_eq htab, List.length_map] at hlen
  exact hlen

theorem entry_nodup {sys : LatticeSystem} {n num : ℕ} {codes : List ℕ} (hent : IsTableEntry sys n num codes) :
    ((groupZ (num, codes)).map Prod.fst).Nodup := by
  obtain ⟨groups, cands, h1, h2, h3⟩ := hent
  exact rotations_once _ h1 _ h2 _ h3

/-- the rotations of the group of a crystal are among the isometries of its lattice. -/
theorem rotations_in_holo {s p : Structure ℝ} (hsp : SameAtoms s p) (hprim : PrimitiveCell p) (hd : p.lattice.det ≠ 0)
    {b : BravaisType} (hcode : ∀ Q, Orthogonal Q → MapsLattice Q p.lattice → ∃ c ∈ holoCodes b, Q * p.lattice = p.lattice * overK ℝ (decZ c))
    {e : ℕ × List ℕ} (h : GroupIs s p.lattice ((groupZ e).map (opK ℝ))) : ∀ o ∈ groupZ e, ∃ c ∈ holoCodes b, o.1 = decZ c := by
  intro a ha
  have hQP : p.lattice * overK ℝ a.1 * p.lattice.adjDiv p.lattice.det * p.lattice = p.lattice * overK ℝ a.1 := by
    rw [mul_assoc, Mat3.adjDiv_mul hd, mul_one]
  have h1 := (h (p.lattice * overK ℝ a.1 * p.lattice.adjDiv p.lattice.det) (opK ℝ a).translation).2
    ⟨opK ℝ a, List.mem_map.2 ⟨a, ha, rfl⟩, by
      rw [hQP, castRot_overK, show (opK ℝ a).rotation = rotZ a from rfl, intRot_rotZ (groupZ_range a ha)],
      by rw [sub_self]; exact intVec_zero⟩
  have h2 := crystalSymmetry_congr hsp h1
  obtain ⟨c, hc, e1⟩ := hcode _ h2.1 (symmetry_mapsLattice hprim h2)
  rw [hQP] at e1
  exact ⟨c, hc, overK_injective (mat_mul_injective hd e1)⟩

/-- **C78 (the number).** One crystal described in two ways: by different cells, with the atoms in different orders, analysed with
different tolerances and hash orders.  If both descriptions are clean and `get_space_group_info` returns for both of them, it returns
the same number and symbol. -/
theorem C78_same_number (sa sa' : SymmetryAnalyzer ℝ) (h h' : HashOrders ℝ) (hv : h.Valid) (hv' : h'.Valid) (f f' : ℕ)
    (s s' ref ref' : Structure ℝ) (hc : CleanCrystal sa h s ref) (hc' : CleanCrystal sa' h' s' ref') (hsame : SameAtoms s s')
    (num num' : ℕ) (sym sym' : String) (ops ops' : List (SymmOp ℝ)) (hr : sa.getSpaceGroupInfo h f s = .ret (num, sym, ops))
    (hr' : sa'.getSpaceGroupInfo h' f' s' = .ret (num', sym', ops')) : num = num' ∧ sym = sym' := by
  obtain ⟨p, -, -, -, -, hp, -, -, hsym, -⟩ := group_of_cell sa h hv f s ref hc.clean hc.found hc.size hc.clear hc.resolved hc.grid num sym ops hr
  obtain ⟨p', -, -, -, -, hp', -, -, hsym', -⟩ := group_of_cell sa' h' hv' f' s' ref' hc'.clean hc'.found hc'.size hc'.clear hc'.resolved
    hc'.grid num' sym' ops' hr'
  obtain ⟨-, sys, n, codes, table, hR, hsys, hent, htab, hg⟩ := (reported_iff_of_cell sa h hv f s ref p hc.clean hc.found hc.same hc.nonsing
    hc.index hc.size hc.clear hc.resolved hc.grid hc.long hc.small hp num).1 ⟨f, sym, ops, hr⟩
  obtain ⟨-, sys', n', codes', table', hR', hsys', hent', htab', hg'⟩ := (reported_iff_of_cell sa' h' hv' f' s' ref' p' hc'.clean hc'.found
    hc'.same hc'.nonsing hc'.index hc'.size hc'.clear hc'.resolved hc'.grid hc'.long hc'.small hp' num').1 ⟨f', sym', ops', hr'⟩
  rw [tableOps_eq htab] at hg
  rw [tableOps_eq htab'] at hg'
  obtain ⟨b, c, hcb, hcd, hlat, pdet, hsp, hprim, hlr, hcode, hcode', hrel, hsy⟩ := settings_related hv hv' hc hc' hsame hp hp'
  obtain ⟨b', c', hcb', hcd', hlat', pdet', hsp', hprim', -⟩ := settings_related hv' hv hc' hc (sameAtoms_symm hsame) hp' hp
  have hb := hsy sys hR hsys
  have hb' := hsy sys' hR' (inSystem_congr (fun v => (hlr v).symm) hsys')
  rw [hb] at hb'
  cases hb'
  have c1 := conj_of_group hsame pdet hcd hg (by rw [← hlat]; exact hg')
  have c2 := conj_of_group (sameAtoms_symm hsame) pdet' hcd' hg' (by rw [← hlat']; exact hg)
  have hlen := le_antisymm (conj_length hcd (entry_nodup hent) c1) (conj_length hcd' (entry_nodup hent') c2)
  rw [entry_length hent, entry_length hent'] at hlen
  subst hlen
  have hnum := tables_differ hb hent hent' (rotations_in_holo hsp hprim pdet hcode hg) (rotations_in_holo hsp' hprim' pdet' hcode' hg') hcb hcd c1
  subst hnum
  rw [hsym] at hsym'
  exact ⟨rfl, Option.some.inj hsym'⟩

theorem intVec_overZ {n : Vec3 ℝ} (hn : IntVec n) (v : Mat3 ℤ) : IntVec (overK ℝ v * n) := by
  obtain ⟨i, j, k, rfl⟩ := hn
  refine ⟨v.m11 * i + v.m12 * j + v.m13 * k, v.m21 * i + v.m22 * j + v.m23 * k, v.m31 * i + v.m32 * j + v.m33 * k, ?_⟩
  ext <;> simp [overK, Mat3.map]

/-- the translation of the changed operation. -/
theorem conjZ_trans (v : Mat3 ℤ) (a : ZOp) : IntVec (overK ℝ v.adj * (opK ℝ a).translation - (opK ℝ (conjZ v a)).translation) := by
  have key : ∀ x : ℤ, (x : ℝ) / 12 - ((x % 12 : ℤ) : ℝ) / 12 = ((x / 12 : ℤ) : ℝ) := by
    intro x
    have h1 : x = x % 12 + 12 * (x / 12) := (Int.emod_add_mul_ediv x 12).symm
    have h2 : (x : ℝ) = ((x % 12 : ℤ) : ℝ) + 12 * ((x / 12 : ℤ) : ℝ) := by exact_mod_cast h1
    rw [h2]
    ring
  refine ⟨(v.adj * a.2).x / 12, (v.adj * a.2).y / 12, (v.adj * a.2).z / 12, ?_⟩
  ext
  · refine Eq.trans ?_ (key (v.adj * a.2).x)
    simp only [opK, conjZ, Vec3.map, overK, Mat3.map, Vec3.sub_x, Mat3.mulVec_x]
    push_cast
    ring
  · refine Eq.trans ?_ (key (v.adj * a.2).y)
    simp only [opK, conjZ, Vec3.map, overK, Mat3.map, Vec3.sub_y, Mat3.mulVec_y]
    push_cast
    ring
  · refine Eq.trans ?_ (key (v.adj * a.2).z)
    simp only [opK, conjZ, Vec3.map, overK, Mat3.map, Vec3.sub_z, Mat3.mulVec_z]
    push_cast
    ring

theorem group_forward {P : Mat3 ℝ} {v : Mat3 ℤ} (hv : v.det = 1) {e e' : ℕ × List ℕ}
    (h : ∀ a ∈ groupZ e, conjZ v a ∈ groupZ e') {Q : Mat3 ℝ} {u : Vec3 ℝ}
    (ho : ∃ o ∈ (groupZ e).map (opK ℝ), Q * P = P * castRot o.rotation ∧ IntVec (overK ℝ v * u - o.translation)) :
    ∃ o ∈ (groupZ e').map (opK ℝ), Q * (P * overK ℝ v) = P * overK ℝ v * castRot o.rotation ∧ IntVec (u - o.translation) := by
  obtain ⟨o, ho, h1, h2⟩ := ho
  obtain ⟨a, ha, rfl⟩ := List.mem_map.1 ho
  have hm := h a ha
  refine ⟨_, List.mem_map.2 ⟨_, hm, rfl⟩, ?_, ?_⟩
  · rw [castRot_overK, show (opK ℝ a).rotation = rotZ a from rfl, intRot_rotZ (groupZ_range a ha)] at h1
    rw [castRot_overK, show (opK ℝ (conjZ v a)).rotation = rotZ (conjZ v a) from rfl, intRot_rotZ (groupZ_range _ hm), ← mul_assoc, h1,
      mul_assoc P, mul_assoc P, ← overK_mul, ← overK_mul]
    congr 2
    show a.1 * v = v * (v.adj * a.1 * v)
    rw [mul_assoc, ← mul_assoc v, mul_adj_one hv, one_mul]
  · have h3 := intVec_sum (intVec_overZ h2 v.adj) (conjZ_trans v a)
    have h4 : overK ℝ v.adj * (overK ℝ v * u) = u := by
      rw [← Mat3.mul_mulVec, ← overK_mul, adj_mul_one hv, overK_one, Mat3.one_mulVec]
    rw [Mat3.mulVec_sub, h4] at h3
    convert h3 using 1
    abel

theorem adj_det {v : Mat3 ℤ} (hv : v.det = 1) : v.adj.det = 1 := by
  have := congrArg Mat3.det (adj_mul_one hv)
  rw [Mat3.det_mul, hv, mul_one, Mat3.det_one] at this
  exact this

/-- the group in another basis of the lattice. -/
theorem group_transport {s s' : Structure ℝ} (hsame : SameAtoms s s') {P : Mat3 ℝ} {v w : Mat3 ℤ} (hv : v.det = 1) (hw : w.det = 1)
    (hvw : v * w = 1) {e e' : ℕ × List ℕ} (h : GroupIs s P ((groupZ e).map (opK ℝ))) (h1 : ∀ a ∈ groupZ e, conjZ v a ∈ groupZ e')
    (h2 : ∀ a ∈ groupZ e', conjZ w a ∈ groupZ e) : GroupIs s' (P * overK ℝ v) ((groupZ e').map (opK ℝ)) := by
  have hP : P * overK ℝ v * overK ℝ w = P := by rw [mul_assoc, ← overK_mul, hvw, overK_one, mul_one]
  have hwv : w * v = 1 := by
    have h3 := congrArg (fun X => v.adj * X * v) hvw
    simpa only [mul_assoc, adj_mul_one hv, mul_one, ← mul_assoc v.adj v, one_mul] using h3
  intro Q u
  have e1 : P * overK ℝ v * u = P * (overK ℝ v * u) := by rw [Mat3.mul_mulVec]
  constructor
  · intro hs
    have hs' := crystalSymmetry_congr (sameAtoms_symm hsame) hs
    rw [e1] at hs'
    exact group_forward hv h1 ((h _ _).1 hs')
  · intro ho
    have h3 := group_forward (P := P * overK ℝ v) (u := overK ℝ v * u) hw h2 (by
      rw [← Mat3.mul_mulVec, ← overK_mul, hwv, overK_one, Mat3.one_mulVec]
      exact ho)
    rw [hP] at h3
    rw [e1]
    exact crystalSymmetry_congr hsame ((h _ _).2 h3)

/-- **C78 (the answer).** Under the same assumptions: if `get_space_group_info` reports the group `num` for the first description, and
the standard primitive structure of the second one is returned, then `num` is reported for the second description as well — unless
`num` is one of the twelve groups whose table depends on the choice of the axes. -/
theorem C78_same_answer_partial (sa sa' : SymmetryAnalyzer ℝ) (h h' : HashOrders ℝ) (hv : h.Valid) (hv' : h'.Valid) (f f' : ℕ)
    (s s' ref ref' p' : Structure ℝ) (hc : CleanCrystal sa h s ref) (hc' : CleanCrystal sa' h' s' ref') (hsame : SameAtoms s s')
    (num : ℕ) (sym : String) (ops : List (SymmOp ℝ)) (hr : sa.getSpaceGroupInfo h f s = .ret (num, sym, ops))
    (hp' : sa'.getStandardPrimitiveStructure h' f' s' = .ret p') (hset : num ∉ settingBad) :
    ∃ (ops' : List (SymmOp ℝ)) (N : ℕ), ∀ fuel ≥ N, sa'.getSpaceGroupInfo h' fuel s' = .ret (num, sym, ops') := by
  obtain ⟨p, -, -, -, -, hp, -, -, hsym, -⟩ := group_of_cell sa h hv f s ref hc.clean hc.found hc.size hc.clear hc.resolved hc.grid num sym ops hr
  obtain ⟨hgood, sys, n, codes, table, hR, hsys, hent, htab, hg⟩ := (reported_iff_of_cell sa h hv f s ref p hc.clean hc.found hc.same hc.nonsing
    hc.index hc.size hc.clear hc.resolved hc.grid hc.long hc.small hp num).1 ⟨f, sym, ops, hr⟩
  have hte := tableOps_eq htab
  rw [hte] at hg
  obtain ⟨b, c, hcb, hcd, hlat, pdet, hsp, hprim, hlr, hcode, hcode', hrel, hsy⟩ := settings_related hv hv' hc hc' hsame hp hp'
  have hb := hsy sys hR hsys
  have hrot := rotations_in_holo hsp hprim pdet hcode hg
  -- the inverse change of basis
  obtain ⟨R, hR', hRm, hRe⟩ : ∃ R, Orthogonal R ∧ MapsLattice R p.lattice ∧ R * p.lattice = p.lattice * overK ℝ (decZ c).adj := by
    obtain ⟨Q, hQ, hQe⟩ := hrel
    have e1 : Q.transpose * p.lattice = p.lattice * overK ℝ (decZ c).adj := by
      have e2 := congrArg (fun X => Q.transpose * X * overK ℝ (decZ c).adj) hQe
      rw [← mul_assoc Q.transpose, show Q.transpose * Q = 1 from hQ, one_mul, mul_assoc, mul_assoc, ← overK_mul, mul_adj_one hcd, overK_one,
        mul_one] at e2
      exact e2.symm
    refine ⟨Q.transpose, orthogonal_right hQ, fun n hn => ⟨_, intVec_overZ hn (decZ c).adj, ?_⟩, e1⟩
    rw [← Mat3.mul_mulVec, e1, Mat3.mul_mulVec]
  obtain ⟨c', hcb', hce'⟩ := hcode R hR' hRm
  have hinv : (decZ c).adj = decZ c' := overK_injective (mat_mul_injective pdet (hRe.symm.trans hce'))
  have hcd' : (decZ c').det = 1 := by rw [← hinv]; exact adj_det hcd
  have hg' : GroupIs s' (p.lattice * overK ℝ (decZ c)) ((groupZ (num, codes)).map (opK ℝ)) :=
    group_transport hsame hcd hcd' (by rw [← hinv]; exact mul_adj_one hcd) hg (table_invariant hb hent hrot hgood hset hcb hcd)
      (table_invariant hb hent hrot hgood hset hcb' hcd')
  rw [← hlat, ← hte] at hg'
  obtain ⟨sym', ops', N, e1, e2⟩ := found_of_cell sa' h' hv' f' s' ref' p' hc'.clean hc'.found hc'.same hc'.nonsing hc'.index hc'.size hc'.clear
    hc'.resolved hc'.long hc'.small hp' sys n num codes table hR (inSystem_congr hlr hsys) hent htab hgood hg'
  rw [hsym] at e1
  cases e1
  exact ⟨ops', N, e2⟩

end CrystSymm
