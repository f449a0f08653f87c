import Verif.Proofs.RoundedChar
import Verif.Props.ExactNiggli
import Verif.Props.BravaisExact
import Verif.Props.NiggliUnique
import Verif.Props.RoundedInfo
import Verif.Props.Structure

set_option autoImplicit false
set_option linter.unusedSectionVars false

/-! # C90: the lattice character and the conventional cell are exact for lattices of integer multiples of a unit -/

namespace CrystSymm

open Spec Reducer SymmetryAnalyzer NiggliCert PointGroup

section
variable {ρ : Rounding} {g : ℝ} {A m : ℤ} {Lz : Mat3 ℤ} {s : Structure (RNum ρ)} {tol : RNum ρ}

/-- the products of the cell vectors. -/
theorem GridRun.six (h : GridRun g A m Lz s tol) (hx : ExactGrid ρ g A) :
    SixTwin (g * g) (3 * A ^ 2) s.lattice.col0.normSq s.lattice.col1.normSq s.lattice.col2.normSq (s.lattice.col1.dot s.lattice.col2)
      (s.lattice.col0.dot s.lattice.col2) (s.lattice.col0.dot s.lattice.col1) (lenSq (valM s.lattice).col0) (lenSq (valM s.lattice).col1)
      (lenSq (valM s.lattice).col2) (dotp (valM s.lattice).col1 (valM s.lattice).col2) (dotp (valM s.lattice).col0 (valM s.lattice).col2)
      (dotp (valM s.lattice).col0 (valM s.lattice).col1) := by
  obtain ⟨⟨t1, t2, t3⟩, ⟨t4, t5, t6⟩, ⟨t7, t8, t9⟩⟩ := IsMul.entries h.lat
  obtain ⟨⟨a1, a2, a3⟩, ⟨a4, a5, a6⟩, ⟨a7, a8, a9⟩⟩ := h.ents
  have hA := h.A1
  have hx2 : ExactMult ρ (g * g) (3 * A * A) := exact_gg hx (by nlinarith)
  have hb : 3 * A * A = 3 * A ^ 2 := by ring
  have k : ∀ {u v : Vec3 (RNum ρ)} {n1 n2 n3 c1 c2 c3 : ℤ}, u.x.val = n1 * g → u.y.val = n2 * g → u.z.val = n3 * g → v.x.val = c1 * g →
      v.y.val = c2 * g → v.z.val = c3 * g → |n1| ≤ A → |n2| ≤ A → |n3| ≤ A → |c1| ≤ A → |c2| ≤ A → |c3| ≤ A →
      NumTwin (g * g) (3 * A ^ 2) (u.dot v) (dotp (valV u) (valV v)) := by
    intro u v n1 n2 n3 c1 c2 c3 e1 e2 e3 f1 f2 f3 b1 b2 b3 w1 w2 w3
    obtain ⟨p1, p2⟩ := mul_dot hx2 e1 e2 e3 f1 f2 f3 b1 b2 b3 w1 w2 w3
    refine ⟨_, p1, ?_, by rw [← hb]; exact p2⟩
    show u.x.val * v.x.val + u.y.val * v.y.val + u.z.val * v.z.val = _
    rw [e1, e2, e3, f1, f2, f3]; push_cast; ring
  exact ⟨k t1 t4 t7 t1 t4 t7 a1 a4 a7 a1 a4 a7, k t2 t5 t8 t2 t5 t8 a2 a5 a8 a2 a5 a8, k t3 t6 t9 t3 t6 t9 a3 a6 a9 a3 a6 a9,
    k t2 t5 t8 t3 t6 t9 a2 a5 a8 a3 a6 a9, k t1 t4 t7 t3 t6 t9 a1 a4 a7 a3 a6 a9, k t1 t4 t7 t2 t5 t8 a1 a4 a7 a2 a5 a8⟩

theorem smallInts_of (h1 : 1 ≤ A) (hx : ExactGrid ρ g A) : SmallInts ρ := by
  have hA3 : (1 : ℤ) ≤ A ^ 3 := one_le_pow₀ h1
  have k : ∀ n : ℤ, |n| ≤ 4 → ρ.fl (n : ℝ) = n := fun n hn => by
    have := hx.one n (by linarith)
    simpa using this
  exact ⟨by exact_mod_cast k 2 (by norm_num), by exact_mod_cast k 3 (by norm_num), by exact_mod_cast k 4 (by norm_num)⟩

/-- the character is that of the exact products, for every positive tolerance up to an eighth of the squared unit. -/
theorem character_exact (h : GridRun g A m Lz s tol) (hx : ExactGrid ρ g A) (h8 : ExactMult ρ (g * g / 8) (288 * A ^ 2))
    (ht : 8 * m * tol.val ≤ g) :
    (0 < eps tol.val (asReal s).volume ∧ eps tol.val (asReal s).volume ≤ g * g / 8) ∧ ∀ ε', 0 < ε' → ε' ≤ g * g / 8 →
      getLatticeCharacter s tol = characterOf (some ε') (lenSq (valM s.lattice).col0) (lenSq (valM s.lattice).col1) (lenSq (valM s.lattice).col2)
        (dotp (valM s.lattice).col1 (valM s.lattice).col2) (dotp (valM s.lattice).col0 (valM s.lattice).col2)
        (dotp (valM s.lattice).col0 (valM s.lattice).col1) := by
  obtain ⟨ε, e1, -, e3, -, -, e6⟩ := h.eps_more hx
  have hA2 : (1 : ℤ) ≤ A ^ 2 := one_le_pow₀ h.A1
  have f8 : ρ.fl (g * g / 8) = g * g / 8 := by
    have := h8 1 (by norm_num; linarith)
    simpa using this
  obtain ⟨e7, e8⟩ := e6 ht f8
  refine ⟨⟨e3.f0, e8⟩, fun ε' p0 p1 => ?_⟩
  have gg := e3.γ0
  have hf : FineEps (g * g) (18 * A ^ 2) ε ε' :=
    ⟨⟨gg, by linarith, e3.e0, e3.e1, p0, by linarith, e3.ex.mono (by linarith)⟩, e7, p1, h8.mono (by linarith)⟩
  unfold getLatticeCharacter
  simp only []
  rw [e1]
  exact characterOf_twin hf (smallInts_of h.A1 hx) (h.six hx) (by linarith) (by linarith)

/-- **C90** The rounded lattice character of a right-handed lattice of integer multiples of a unit is the exact one. -/
theorem C90_same_character (ρ : Rounding) (g : ℝ) (A m : ℤ) (Lz : Mat3 ℤ) (s : Structure (RNum ρ)) (tol : RNum ρ) (h : GridRun g A m Lz s tol)
    (hx : ExactGrid ρ g A) (h8 : ExactMult ρ (g * g / 8) (288 * A ^ 2)) (ht : 8 * m * tol.val ≤ g) :
    getLatticeCharacter s tol = getLatticeCharacter (asReal s) tol.val := by
  obtain ⟨⟨e0, e1⟩, k⟩ := character_exact h hx h8 ht
  have hV : 0 ≤ (asReal s).volume := by
    rw [asReal_volume h]
    have := h.g0
    have : (0 : ℝ) < Lz.det := by exact_mod_cast h.det
    positivity
  rw [k _ e0 e1, getLatticeCharacter_eq hV]
  rfl

/-- a shape held within every small error is exact. -/
theorem shape_limit {b : BravaisType} {L : Mat3 ℝ} {c : ℝ} (hc : 0 < c) (h : ∀ δ, 0 < δ → δ ≤ c → LatticeShape b δ L) : LatticeShape b 0 L := by
  have key : ∀ x : ℝ, (∀ δ, 0 < δ → δ ≤ c → |x| ≤ δ) → |x| ≤ 0 := by
    intro x hx
    refine le_of_forall_pos_le_add fun η hη => ?_
    have := hx (min η c) (lt_min hη hc) (min_le_right _ _)
    linarith [min_le_left η c]
  unfold LatticeShape ShapeWithin at h ⊢
  cases b <;> simp only [] at h ⊢ <;>
  first
  | exact ⟨key _ fun δ p q => (h δ p q).1, key _ fun δ p q => (h δ p q).2⟩
  | exact ⟨key _ fun δ p q => (h δ p q).1, key _ fun δ p q => (h δ p q).2.1, key _ fun δ p q => (h δ p q).2.2⟩
  | exact ⟨key _ fun δ p q => (h δ p q).1, key _ fun δ p q => (h δ p q).2.1, key _ fun δ p q => (h δ p q).2.2.1, key _ fun δ p q => (h δ p q).2.2.2⟩
  | exact ⟨key _ fun δ p q => (h δ p q).1, key _ fun δ p q => (h δ p q).2.1, key _ fun δ p q => (h δ p q).2.2.1, key _ fun δ p q => (h δ p q).2.2.2.1,
      key _ fun δ p q => (h δ p q).2.2.2.2⟩

/-- **C90** The conventional cell of the character found for an exact Niggli cell has exactly the shape of its Bravais type. -/
theorem C90_exact_shape (ρ : Rounding) (g : ℝ) (A m : ℤ) (Lz : Mat3 ℤ) (s : Structure (RNum ρ)) (tol : RNum ρ) (h : GridRun g A m Lz s tol)
    (hx : ExactGrid ρ g A) (h8 : ExactMult ρ (g * g / 8) (288 * A ^ 2)) (ht : 8 * m * tol.val ≤ g) (hn : NiggliCell 0 (valM s.lattice)) (ch : ℕ)
    (hc : getLatticeCharacter s tol = .ret ch) :
    ∃ t b, amapGet? latticeCharToConvTrans ch = some t ∧ amapGet? latticeCharToBravais ch = some b ∧
      LatticeShape b 0 (valM s.lattice * (castRot t : Mat3 ℝ).transpose) := by
  obtain ⟨-, k⟩ := character_exact h hx h8 ht
  have gg : 0 < g * g := mul_pos h.g0 h.g0
  have hs := h.six hx
  have unit : ∀ {x : RNum ρ} {y : ℝ}, NumTwin (g * g) (3 * A ^ 2) x y → 0 < y → g * g ≤ y := by
    rintro x _ ⟨n, -, rfl, -⟩ hy
    have : (1 : ℝ) ≤ n := by
      have : 0 < n := by
        by_contra hcn
        have : (n : ℝ) ≤ 0 := by exact_mod_cast not_lt.1 hcn
        nlinarith
      exact_mod_cast this
    nlinarith
  have hk : ∀ ε', 0 < ε' → ε' ≤ g * g / 8 → ConvShape ch (100 * ε') (lenSq (valM s.lattice).col0) (lenSq (valM s.lattice).col1)
      (lenSq (valM s.lattice).col2) (dotp (valM s.lattice).col1 (valM s.lattice).col2) (dotp (valM s.lattice).col0 (valM s.lattice).col2)
      (dotp (valM s.lattice).col0 (valM s.lattice).col1) := by
    intro ε' p0 p1
    refine convShape_of_character p0.le ?_ (by rw [← k ε' p0 p1]; exact hc)
    rcases hn.signs with ⟨x, y, z⟩ | ⟨x, y, z⟩
    · left
      exact ⟨by linarith [unit hs.d (by linarith)], by linarith [unit hs.e (by linarith)], by linarith [unit hs.f (by linarith)]⟩
    · right
      exact ⟨by linarith, by linarith, by linarith⟩
  obtain ⟨t, b, ht, hb, -⟩ := convShape_lattice (hk (g * g / 8) (by linarith) le_rfl)
  refine ⟨t, b, ht, hb, shape_limit (c := 100 * (g * g / 8)) (by linarith) fun δ d0 d1 => ?_⟩
  obtain ⟨t', b', ht', hb', q⟩ := convShape_lattice (hk (δ / 100) (by linarith) (by linarith))
  rw [ht] at ht'
  rw [hb] at hb'
  obtain rfl := Option.some.inj ht'
  obtain rfl := Option.some.inj hb'
  rwa [show 100 * (δ / 100) = δ by ring] at q

/-- **C90** The character found for an exact Niggli cell names the symmetry of the lattice: in the conventional basis the isometries of the
lattice are exactly the operations of the holohedry of its Bravais type, no fewer and no more. -/
theorem C90_symmetry_group (ρ : Rounding) (g : ℝ) (A m : ℤ) (Lz : Mat3 ℤ) (s : Structure (RNum ρ)) (tol : RNum ρ) (h : GridRun g A m Lz s tol)
    (hx : ExactGrid ρ g A) (h8 : ExactMult ρ (g * g / 8) (288 * A ^ 2)) (ht : 8 * m * tol.val ≤ g) (hn : NiggliCell 0 (valM s.lattice)) (ch : ℕ)
    (hc : getLatticeCharacter s tol = .ret ch) :
    ∃ t b num, amapGet? latticeCharToConvTrans ch = some t ∧ amapGet? latticeCharToBravais ch = some b ∧
      amapGet? bravaisToHolohedryNum b = some num ∧
      ∀ (o : HashOrd (Mat3 Int8)), IsHashOrd o → ∀ fuel pg, fromNumber o fuel num = .ret pg →
        FullSymmetry (valM s.lattice) (valM s.lattice * (castRot t : Mat3 ℝ).transpose) pg.operations := by
  obtain ⟨-, k⟩ := character_exact h hx h8 ht
  have gg : 0 < g * g := mul_pos h.g0 h.g0
  have hV : 0 < (asReal s).volume := by
    rw [asReal_volume h]
    have := h.g0
    have : (0 : ℝ) < Lz.det := by exact_mod_cast h.det
    positivity
  obtain ⟨δ, hδ, hres⟩ := resolved_of_lt (a := lenSq (valM s.lattice).col0) (b := lenSq (valM s.lattice).col1) (c := lenSq (valM s.lattice).col2)
    (d := dotp (valM s.lattice).col1 (valM s.lattice).col2) (e := dotp (valM s.lattice).col0 (valM s.lattice).col2)
    (f := dotp (valM s.lattice).col0 (valM s.lattice).col1)
  have hc0 : 0 < (asReal s).volume ^ ((1 : ℝ) / 3) := Real.rpow_pos_of_pos hV _
  obtain ⟨ε', p0, p1, p2⟩ : ∃ ε' : ℝ, 0 < ε' ∧ ε' ≤ g * g / 8 ∧ ε' < δ :=
    ⟨min (g * g / 8) (δ / 2), lt_min (by linarith) (by linarith), min_le_left _ _, lt_of_le_of_lt (min_le_right _ _) (by linarith)⟩
  have e : eps (ε' / (asReal s).volume ^ ((1 : ℝ) / 3)) (asReal s).volume = ε' := by
    unfold CrystSymm.eps
    field_simp
  have hE : getLatticeCharacter (asReal s) (ε' / (asReal s).volume ^ ((1 : ℝ) / 3)) = .ret ch := by
    rw [getLatticeCharacter_eq hV.le, e, ← hc, k ε' p0 p1]
    rfl
  refine C69_symmetry_group (asReal s) _ ch hV hn ?_ hE
  unfold ToleranceResolves
  rw [e]
  exact hres ε' p0 p2

/-! ## After the reduction -/

theorem timesUnit_inj {g : ℝ} (hg : g ≠ 0) {M N : Mat3 ℤ} (h : timesUnit g M = timesUnit g N) : M = N := by
  have k : ∀ {m n : ℤ}, (m : ℝ) * g = n * g → m = n := fun h1 => by exact_mod_cast mul_right_cancel₀ hg h1
  exact Mat3.ext (k (congrArg Mat3.m11 h)) (k (congrArg Mat3.m12 h)) (k (congrArg Mat3.m13 h)) (k (congrArg Mat3.m21 h))
    (k (congrArg Mat3.m22 h)) (k (congrArg Mat3.m23 h)) (k (congrArg Mat3.m31 h)) (k (congrArg Mat3.m32 h)) (k (congrArg Mat3.m33 h))

theorem ExactGrid.mono {A A' : ℤ} (hx : ExactGrid ρ g A') (h0 : 0 ≤ A) (h : A ≤ A') : ExactGrid ρ g A := by
  have p2 := pow_le_pow_left₀ h0 h 2
  have p3 := pow_le_pow_left₀ h0 h 3
  have p4 := pow_le_pow_left₀ h0 h 4
  exact ⟨hx.one.mono (by linarith), hx.unit.mono (by linarith), hx.quarter.mono (by linarith), hx.cube.mono (by linarith)⟩

/-- the reduced lattice is again one of multiples of the unit, with entries at most three times as large. -/
theorem GridRun.reduced (h : GridRun g A m Lz s tol) (hx : ExactGrid ρ g A) {r : Reducer (RNum ρ)} {s' : Structure (RNum ρ)}
    (hr : r.niggliReduce s tol = .ret s') :
    ∃ N : Mat3 ℤ, N.det = 1 ∧ GridRun g (3 * A) m (Lz * N) s' tol ∧ NiggliCell 0 (valM s'.lattice) := by
  obtain ⟨-, -, k3, ⟨N, hN, k4⟩, -⟩ := C89_reduced_cell ρ g A m Lz s tol h hx r s' hr
  have hA := h.A1
  have e : valM s'.lattice = timesUnit g (Lz * N) := by
    rw [k4, h.lat, ← unit_cell]
    rfl
  refine ⟨N, hN, ⟨h.g0, h.g1, by linarith, e, ?_, by rw [Mat3.det_mul, hN, mul_one]; exact h.det, by rw [Mat3.det_mul, hN, mul_one]; exact h.vol,
    by linarith [h.m2], h.tol0, h.tol1⟩, k3⟩
  rcases grid_runs h hx 100 with ⟨s2, t2, N', j1, j2, j3, j4, j5, j6⟩ | ⟨msg, j1, -⟩
  · have hs' : s' = r.rebuild s (s.lattice * s2.trans) := by
      unfold niggliReduce at hr
      rw [j1] at hr
      exact (Outcome.ret.inj hr).symm
    have e' : valM s'.lattice = timesUnit g (Lz * N') := by rw [hs']; exact j3
    have := timesUnit_inj h.g0.ne' (e.symm.trans e')
    rw [this]
    exact entLe_of_sumSq (by linarith) (by linarith [j6])
  · unfold niggliReduce at hr
    rw [j1] at hr
    simp [Outcome.bind] at hr

/-- **C90** Two right-handed cells of one lattice that are both integer multiples of a unit (not necessarily the same one) are reduced, in
rounded arithmetic, to cells with exactly the same lengths and angles and the same lattice character. -/
theorem C90_independent (ρ : Rounding) (g₁ g₂ : ℝ) (A₁ A₂ m₁ m₂ : ℤ) (L₁ L₂ U : Mat3 ℤ) (s₁ s₂ s₁' s₂' : Structure (RNum ρ)) (tol₁ tol₂ : RNum ρ)
    (h₁ : GridRun g₁ A₁ m₁ L₁ s₁ tol₁) (h₂ : GridRun g₂ A₂ m₂ L₂ s₂ tol₂) (x₁ : ExactGrid ρ g₁ (3 * A₁)) (x₂ : ExactGrid ρ g₂ (3 * A₂))
    (y₁ : ExactMult ρ (g₁ * g₁ / 8) (2592 * A₁ ^ 2)) (y₂ : ExactMult ρ (g₂ * g₂ / 8) (2592 * A₂ ^ 2))
    (t₁ : 8 * m₁ * tol₁.val ≤ g₁) (t₂ : 8 * m₂ * tol₂.val ≤ g₂) (hU : U.det = 1)
    (hs : valM s₂.lattice = timesInts (valM s₁.lattice) U) (r₁ r₂ : Reducer (RNum ρ)) (e₁ : r₁.niggliReduce s₁ tol₁ = .ret s₁')
    (e₂ : r₂.niggliReduce s₂ tol₂ = .ret s₂') :
    SameShape (valM s₁'.lattice) (valM s₂'.lattice) ∧ getLatticeCharacter s₁' tol₁ = getLatticeCharacter s₂' tol₂ := by
  have a₁ := h₁.A1
  have a₂ := h₂.A1
  obtain ⟨N₁, d₁, G₁, n₁⟩ := h₁.reduced (x₁.mono (by linarith) (by linarith)) e₁
  obtain ⟨N₂, d₂, G₂, n₂⟩ := h₂.reduced (x₂.mono (by linarith) (by linarith)) e₂
  obtain ⟨V, hV1, -, hVd⟩ := unimodular_inverse (.inl d₁)
  have l₁ : valM s₁'.lattice = timesInts (valM s₁.lattice) N₁ := by rw [G₁.lat, h₁.lat, ← unit_cell]; rfl
  have l₂ : valM s₂'.lattice = timesInts (valM s₂.lattice) N₂ := by rw [G₂.lat, h₂.lat, ← unit_cell]; rfl
  have l₃ : valM s₂'.lattice = valM s₁'.lattice * (V * (U * N₂)).map fun k : ℤ => (k : ℝ) := by
    rw [l₂, hs, l₁]
    unfold timesInts
    rw [map_intCast_mul V, map_intCast_mul U, ← mul_assoc (valM s₁.lattice * _), mul_assoc (valM s₁.lattice) _ (V.map _), ← map_intCast_mul, hV1]
    rw [show ((1 : Mat3 ℤ).map fun k : ℤ => (k : ℝ)) = 1 by ext <;> simp [Mat3.map], mul_one, mul_assoc]
  have hdet : (valM s₁'.lattice).det ≠ 0 := by
    rw [G₁.lat, det_timesUnit]
    have := h₁.g0
    have : (0 : ℝ) < (L₁ * N₁).det := by exact_mod_cast G₁.det
    positivity
  have sh : SameShape (valM s₁'.lattice) (valM s₂'.lattice) := by
    have := C63_niggli_cell_unique (valM s₁'.lattice) ((V * (U * N₂)).map fun k : ℤ => (k : ℝ)) hdet
      ⟨_, by left; rw [Mat3.det_mul, Mat3.det_mul, hU, d₂]; simp [hVd, d₁], rfl⟩ n₁ (by rw [← l₃]; exact n₂)
    rwa [← l₃] at this
  refine ⟨sh, ?_⟩
  have q₁ := (character_exact G₁ x₁ (by rw [show 288 * (3 * A₁) ^ 2 = 2592 * A₁ ^ 2 by ring]; exact y₁) t₁).2
  have q₂ := (character_exact G₂ x₂ (by rw [show 288 * (3 * A₂) ^ 2 = 2592 * A₂ ^ 2 by ring]; exact y₂) t₂).2
  have p₁ := mul_pos h₁.g0 h₁.g0
  have p₂ := mul_pos h₂.g0 h₂.g0
  obtain ⟨ε', w0, w1, w2⟩ : ∃ ε' : ℝ, 0 < ε' ∧ ε' ≤ g₁ * g₁ / 8 ∧ ε' ≤ g₂ * g₂ / 8 :=
    ⟨min (g₁ * g₁ / 8) (g₂ * g₂ / 8), lt_min (by linarith) (by linarith), min_le_left _ _, min_le_right _ _⟩
  obtain ⟨c1, c2, c3, c4, c5, c6⟩ := sh
  rw [q₁ ε' w0 w1, q₂ ε' w0 w2, c1, c2, c3, c4, c5, c6]

theorem convTrans_small {ch : ℕ} {t : Mat3 Int8} (h : amapGet? latticeCharToConvTrans ch = some t) : EntLe (intRot t) 4 := by
  have key : ∀ p ∈ latticeCharToConvTrans, EntLe (intRot p.2) 4 := by decide +kernel
  unfold amapGet? at h
  obtain ⟨p, hp, rfl⟩ := Option.map_eq_some_iff.1 h
  exact key p (List.mem_of_find?_eq_some hp)

theorem castRot_isMul (h1 : 1 ≤ A) (hx : ExactGrid ρ g A) {t : Mat3 Int8} (ht : EntLe (intRot t) 4) : IsMul 1 (castRot t : Mat3 (RNum ρ)) (intRot t) := by
  obtain ⟨⟨a1, a2, a3⟩, ⟨a4, a5, a6⟩, ⟨a7, a8, a9⟩⟩ := ht
  have hA3 : (1 : ℤ) ≤ A ^ 3 := one_le_pow₀ h1
  have q : ∀ {n : ℤ}, |n| ≤ 4 → ρ.fl (n : ℝ) = n * 1 := fun {n} hn => by
    have := hx.one n (by linarith)
    rwa [mul_one] at this ⊢
  exact Mat3.ext (q a1) (q a2) (q a3) (q a4) (q a5) (q a6) (q a7) (q a8) (q a9)

/-- **C90** The lattice that the rounded `get_standard_conventional_structure` returns, when the primitive cell is a right-handed lattice of
integer multiples of a unit: exactly integer combinations of the primitive vectors, by the matrix of the lattice character that exact
arithmetic finds for the exact Niggli cell, with exactly the shape of the Bravais type. -/
theorem C90_standard_conventional (ρ : Rounding) (g : ℝ) (A m : ℤ) (Lz : Mat3 ℤ) (sa : SymmetryAnalyzer (RNum ρ)) (ho : HashOrders (RNum ρ))
    (fuel : ℕ) (s prim s' : Structure (RNum ρ)) (hp : sa.reducer.findPrimitiveCell ho.minEle s = .ret prim)
    (h : GridRun g A m Lz prim tol1em5) (hx : ExactGrid ρ g (3 * A)) (h8 : ExactMult ρ (g * g / 8) (2592 * A ^ 2))
    (ht : 8 * m * (tol1em5 : RNum ρ).val ≤ g) (hs : sa.getStandardConventionalStructure ho fuel s = .ret s') :
    ∃ N t red ch b num, N.det = 1 ∧ sa.reducer.niggliReduce prim tol1em5 = .ret red ∧ NiggliCell 0 (valM red.lattice) ∧
      valM red.lattice = timesInts (valM prim.lattice) N ∧
      getLatticeCharacter red tol1em5 = .ret ch ∧ getLatticeCharacter (asReal red) (tol1em5 : RNum ρ).val = .ret ch ∧
      amapGet? latticeCharToConvTrans ch = some t ∧ amapGet? latticeCharToBravais ch = some b ∧
      valM s'.lattice = timesInts (valM prim.lattice) (N * (intRot t).transpose) ∧ LatticeShape b 0 (valM s'.lattice) ∧
      amapGet? bravaisToHolohedryNum b = some num ∧
      ∀ (o : HashOrd (Mat3 Int8)), IsHashOrd o → ∀ fuel pg, fromNumber o fuel num = .ret pg →
        FullSymmetry (valM red.lattice) (valM s'.lattice) pg.operations := by
  have hA := h.A1
  have hx1 : ExactGrid ρ g A := hx.mono (by linarith) (by linarith)
  unfold getStandardConventionalStructure at hs
  rw [hp, Outcome.ret_bind, Outcome.bind_eq_ret] at hs
  obtain ⟨red, hr, hs⟩ := hs
  rw [Outcome.bind_eq_ret] at hs
  obtain ⟨⟨tm, ch'⟩, hc, hs⟩ := hs
  unfold conventionalTransformationMatrix at hc
  rw [Outcome.bind_eq_ret] at hc
  obtain ⟨ch, hch, hc⟩ := hc
  obtain ⟨N, hN, hg, hn⟩ := h.reduced hx1 hr
  have h8' : ExactMult ρ (g * g / 8) (288 * (3 * A) ^ 2) := by rw [show 288 * (3 * A) ^ 2 = 2592 * A ^ 2 by ring]; exact h8
  obtain ⟨t, b, ht', hb, hsh⟩ := C90_exact_shape ρ g (3 * A) m (Lz * N) red tol1em5 hg hx h8' ht hn ch hch
  obtain ⟨t', b', num, ht'', hb', hnum, hfull⟩ := C90_symmetry_group ρ g (3 * A) m (Lz * N) red tol1em5 hg hx h8' ht hn ch hch
  rw [ht'] at ht''
  rw [hb] at hb'
  obtain rfl := Option.some.inj ht''
  obtain rfl := Option.some.inj hb'
  rw [ht'] at hc
  simp only [Outcome.ofOption, Outcome.ret_bind, Outcome.ret.injEq, Prod.mk.injEq] at hc
  have hl := applyTransformation_lattice hs
  rw [← hc.1] at hl
  have hts := convTrans_small ht'
  have lat : IsMul g red.lattice (Lz * N) := hg.lat
  have hA4 : A ≤ (3 * A) ^ 4 := by
    have : A ≤ A ^ 4 := le_self_pow₀ hA (by norm_num)
    nlinarith
  have p := IsMul.mul (B1 := 3 * A) (B2 := 4) (γ1 := g) (γ2 := 1) (by rw [mul_one]; exact hx.unit.mono (by linarith)) lat
    (castRot_isMul (by linarith) hx hts).transpose hg.ents hts.transpose
  rw [mul_one] at p
  have hv : valM s'.lattice = timesUnit g (Lz * N * (intRot t).transpose) := by rw [hl]; exact p.1
  have e1 : valM red.lattice = timesInts (valM prim.lattice) N := by
    rw [hg.lat, h.lat, ← unit_cell]; rfl
  have e2 : valM s'.lattice = valM red.lattice * (castRot t : Mat3 ℝ).transpose := by
    rw [hv, hg.lat, ← unit_cell, castRot_overK]; rfl
  refine ⟨N, t, red, ch, b, num, hN, hr, hn, e1, hch, ?_, ht', hb, ?_, by rw [e2]; exact hsh, hnum, by rw [e2]; exact hfull⟩
  · rw [← C90_same_character ρ g (3 * A) m (Lz * N) red tol1em5 hg hx h8' ht]; exact hch
  · rw [hv, h.lat, mul_assoc, ← unit_cell]; rfl

end

/-! ## Double precision -/

theorem exactEighth64 {k : ℕ} (hk : k ≤ 300) {A : ℤ} (h1 : 1 ≤ A) (hA : A ≤ 3500) :
    ExactMult binary64 ((1 / 2) ^ k * (1 / 2) ^ k / 8) (288 * A ^ 2) := by
  have p2 : A ^ 2 ≤ 3500 ^ 2 := pow_le_pow_left₀ (by linarith) hA 2
  have e : ((1 / 2 : ℝ) ^ k) = 2 ^ (-(k : ℤ)) := by rw [zpow_neg, zpow_natCast, one_div, inv_pow]
  have e2 : (2 : ℝ) ^ (-(k : ℤ)) * 2 ^ (-(k : ℤ)) / 8 = 2 ^ (-(k : ℤ) + -(k : ℤ) + -3) := by
    rw [zpow_add₀ (by norm_num), zpow_add₀ (by norm_num)]; norm_num; ring
  rw [e, e2]
  exact (exactMult64 (by omega)).mono (by linarith)

/-- **C90** in IEEE double precision. -/
theorem C90_binary64 (k : ℕ) (hk : k ≤ 300) (A m : ℤ) (hA : 1 ≤ A) (hA' : A ≤ 1166) (Lz : Mat3 ℤ) (sa : SymmetryAnalyzer (RNum binary64))
    (ho : HashOrders (RNum binary64)) (fuel : ℕ) (s prim s' : Structure (RNum binary64))
    (hp : sa.reducer.findPrimitiveCell ho.minEle s = .ret prim) (hlat : valM prim.lattice = timesUnit ((1 / 2) ^ k) Lz) (hents : EntLe Lz A)
    (hdet : 0 < Lz.det) (hvol : Lz.det ≤ m ^ 3) (hm : m ≤ 2 * A) (h1 : (m : ℝ) ≤ 2 ^ 13 * (1 / 2) ^ k)
    (hs : sa.getStandardConventionalStructure ho fuel s = .ret s') :
    ∃ N t red ch b num, N.det = 1 ∧ sa.reducer.niggliReduce prim tol1em5 = .ret red ∧ NiggliCell 0 (valM red.lattice) ∧
      valM red.lattice = timesInts (valM prim.lattice) N ∧
      getLatticeCharacter red tol1em5 = .ret ch ∧ getLatticeCharacter (asReal red) (tol1em5 : RNum binary64).val = .ret ch ∧
      amapGet? latticeCharToConvTrans ch = some t ∧ amapGet? latticeCharToBravais ch = some b ∧
      valM s'.lattice = timesInts (valM prim.lattice) (N * (intRot t).transpose) ∧ LatticeShape b 0 (valM s'.lattice) ∧
      amapGet? bravaisToHolohedryNum b = some num ∧
      ∀ (o : HashOrd (Mat3 Int8)), IsHashOrd o → ∀ fuel pg, fromNumber o fuel num = .ret pg →
        FullSymmetry (valM red.lattice) (valM s'.lattice) pg.operations := by
  obtain ⟨t1, t2⟩ := tol1em5_64
  have hm1 : 1 ≤ m := by
    by_contra hc
    have h1 : m ≤ 0 := by omega
    have h2 : m ^ 3 ≤ 0 := by nlinarith [sq_nonneg m]
    omega
  have hm1' : (0 : ℝ) ≤ m := by exact_mod_cast (by omega : (0 : ℤ) ≤ m)
  have ht : 8 * m * (tol1em5 : RNum binary64).val ≤ (1 / 2) ^ k := by
    have := mul_le_mul_of_nonneg_left t2 (by linarith : (0 : ℝ) ≤ 8 * m)
    norm_num at this h1 ⊢
    linarith
  have hp0 : (0 : ℝ) < (1 / 2) ^ k := by positivity
  have hr := gridRun64 hk hA hlat hents hdet hvol hm (tol := tol1em5) (le_trans (by norm_num) t1)
    (le_trans (by nlinarith [mul_nonneg hm1' (le_trans (by norm_num : (0 : ℝ) ≤ 1 / 2 ^ 20) t1)]) ht)
  refine C90_standard_conventional binary64 _ A m Lz sa ho fuel s prim s' hp hr (exactGrid64 hk (by linarith) (by linarith)) ?_ ht hs
  have := exactEighth64 hk (A := 3 * A) (by linarith) (by linarith)
  rwa [show 288 * (3 * A) ^ 2 = 2592 * A ^ 2 by ring] at this

/-! ## Example -/

/-- the primitive vectors of a face-centred cubic lattice of edge 8, in halves. -/
def fccCell : Mat3 ℤ := ⟨0, 8, 8, 8, 0, 8, 8, 8, 0⟩

/-- in double precision this cell has the character 1, face-centred cubic, and the conventional cell is exactly cubic. -/
example : getLatticeCharacter (⟨dyadicMat 1 fccCell, [], [], []⟩ : Structure (RNum binary64)) tol1em5 = .ret 1 ∧
    amapGet? latticeCharToBravais 1 = some .cF ∧
    ∃ t, amapGet? latticeCharToConvTrans 1 = some t ∧ LatticeShape .cF 0 (valM (dyadicMat 1 fccCell) * (castRot t : Mat3 ℝ).transpose) := by
  have hv : valM (dyadicMat 1 fccCell) = timesUnit ((1 / 2) ^ 1) fccCell := dyadicMat_val (by norm_num) (by decide)
  obtain ⟨t1, t2⟩ := tol1em5_64
  have ht : 8 * ((11 : ℤ) : ℝ) * (tol1em5 : RNum binary64).val ≤ (1 / 2) ^ 1 := by norm_num; linarith
  have ht4 : 4 * ((11 : ℤ) : ℝ) * (tol1em5 : RNum binary64).val ≤ (1 / 2) ^ 1 := by norm_num; linarith
  have hr : GridRun ((1 / 2) ^ 1) 8 11 fccCell (⟨dyadicMat 1 fccCell, [], [], []⟩ : Structure (RNum binary64)) tol1em5 :=
    gridRun64 (by norm_num) (by norm_num) hv (by decide) (by decide) (by decide) (by norm_num) (le_trans (by norm_num) t1) ht4
  have hx := exactGrid64 (k := 1) (A := 8) (by norm_num) (by norm_num) (by norm_num)
  have h8 := exactEighth64 (k := 1) (A := 8) (by norm_num) (by norm_num) (by norm_num)
  have hc : getLatticeCharacter (⟨dyadicMat 1 fccCell, [], [], []⟩ : Structure (RNum binary64)) tol1em5 = .ret 1 := by
    rw [(character_exact hr hx h8 ht).2 (1 / 32) (by norm_num) (by norm_num)]
    show characterOf (some (1 / 32)) (lenSq (valM (dyadicMat 1 fccCell)).col0) (lenSq (valM (dyadicMat 1 fccCell)).col1)
      (lenSq (valM (dyadicMat 1 fccCell)).col2) (dotp (valM (dyadicMat 1 fccCell)).col1 (valM (dyadicMat 1 fccCell)).col2)
      (dotp (valM (dyadicMat 1 fccCell)).col0 (valM (dyadicMat 1 fccCell)).col2)
      (dotp (valM (dyadicMat 1 fccCell)).col0 (valM (dyadicMat 1 fccCell)).col1) = _
    rw [hv]
    norm_num [timesUnit, Mat3.map, fccCell, lenSq, dotp, Mat3.col0, Mat3.col1, Mat3.col2, characterOf, eqE, custEq, isTypeI, nnzE, numNegativeZero,
      numNegativeZeroStep, getFirstSet, defMatches, Vec3.divS, lit]
  have hn : NiggliCell 0 (valM (dyadicMat 1 fccCell)) := by
    rw [hv]
    constructor <;> norm_num [timesUnit, Mat3.map, fccCell, lenSq, dotp, Mat3.col0, Mat3.col1, Mat3.col2]
  refine ⟨hc, rfl, ?_⟩
  obtain ⟨t, b, e1, e2, e3⟩ := C90_exact_shape _ _ _ _ _ _ _ hr hx h8 ht hn 1 hc
  have : b = .cF := (Option.some.inj e2).symm
  subst this
  exact ⟨t, e1, e3⟩

theorem newEdge_pow {j : ℤ} (h1 : -1000 ≤ j) (h2 : j ≤ 1000) {x : RNum binary64} (hx : x.val = 2 ^ j) : (newEdge x).val = 2 ^ j := by
  have q : ∀ i : ℤ, -1074 ≤ i → binary64.fl (2 ^ i) = 2 ^ i := fun i hi => by
    have := exactMult64 hi 1 (by norm_num)
    simpa using this
  have e1 : (1 / x).val = 2 ^ (-j) := by
    rw [RNum.val_div, RNum.val_one, hx, one_div, ← zpow_neg]
    exact q _ (by omega)
  have e2 : (1 / x * x).val = 1 := by
    rw [RNum.val_mul, e1, hx, ← zpow_add₀ (by norm_num)]
    have := q 0 (by norm_num)
    simpa using this
  show (x * (1 / x * x)).val = _
  rw [RNum.val_mul, e2, hx, mul_one]
  exact q _ (by omega)

/-- one atom in a box of 4 by 8 by 16 with the default tolerance `0.05`: the primitive cell is found with exactly these edges, so that the
theorem applies, for all hash orders, to what `get_standard_conventional_structure` returns. -/
example (atol : RNum binary64) (h : HashOrders (RNum binary64)) (hv : h.Valid) (a b c : RNum binary64) (ha : a.val = 4) (hb : b.val = 8)
    (hc : c.val = 16) (fuel : ℕ) (hf : 2 ≤ fuel) :
    let s : Structure (RNum binary64) := ⟨⟨a, 0, 0, 0, b, 0, 0, 0, c⟩, ["A"], [⟨0, 0, 0⟩], [⟨0, 0, 0⟩]⟩
    let sa : SymmetryAnalyzer (RNum binary64) := ⟨RNum.round (1 / 20), atol⟩
    ∃ prim s', sa.reducer.findPrimitiveCell h.minEle s = .ret prim ∧ valM prim.lattice = timesUnit ((1 / 2) ^ 0) ⟨4, 0, 0, 0, 8, 0, 0, 0, 16⟩ ∧
      sa.getStandardConventionalStructure h fuel s = .ret s' ∧ ∃ b num, LatticeShape b 0 (valM s'.lattice) ∧
        amapGet? bravaisToHolohedryNum b = some num := by
  intro s sa
  have hd := round64_close (x := 1 / 20) (by norm_num [abs_le])
  have hsa : sa.dtol = RNum.round (1 / 20) := rfl
  rw [← hsa] at hd
  norm_num at hd
  rw [abs_le] at hd
  obtain ⟨d1, d2⟩ := hd
  have z : valV (⟨0, 0, 0⟩ : Vec3 (RNum binary64)) = ⟨0, 0, 0⟩ := by
    show (⟨(0 : RNum binary64).val, (0 : RNum binary64).val, (0 : RNum binary64).val⟩ : Vec3 ℝ) = _
    rw [RNum.val_zero]
  have hcr : BoxOrdered s a b c sa.dtol (1 / 2 ^ 26) 17 0 ["A"] [⟨0, 0, 0⟩] := by
    refine ⟨⟨⟨relative_binary64, by norm_num, by norm_num, by norm_num, by norm_num; linarith, by linarith, by linarith, by linarith,
      by rw [ha]; linarith, Or.inr (by rw [ha, hb]; linarith), Or.inr (by rw [hb, hc]; linarith), by rw [hc]; linarith⟩, rfl, rfl, ?_, le_rfl, by linarith, rfl,
      by simp, by norm_num, List.pairwise_singleton _ _⟩, List.pairwise_singleton _ _⟩
    refine List.Forall₂.cons ⟨?_, ⟨0, 0, 0⟩, ⟨0, 0, 0, by simp⟩, ?_⟩ List.Forall₂.nil
    · rw [z]; norm_num [CompsLe]
    · rw [z]; norm_num [CompsLe]
  have hno : NoShifts (valM (rbox a b c)) sa.dtol.val ["A"] [⟨0, 0, 0⟩] := by
    intro t ht
    obtain ⟨q, hq, w, hw, hl⟩ := ht "A" ⟨0, 0, 0⟩ (by simp [idealOn, sites])
    have hq0 : q = ⟨0, 0, 0⟩ := by simpa [idealOn, sites] using hq
    subst hq0
    refine ⟨w, hw, ?_⟩
    have e : overK ℝ 1 * (⟨0, 0, 0⟩ : Vec3 ℝ) + t - ⟨0, 0, 0⟩ - w = t - 0 - w := by
      ext <;> simp
    rw [e] at hl
    have := Real.sqrt_le_sqrt hl
    rw [Real.sqrt_sq (by linarith)] at this
    exact this.trans (by linarith)
  obtain ⟨prim, nig, conv, std, st⟩ := box_stages sa h hv hf hcr
    (.orthorhombic (ne_of_val (by rw [ha, hb]; norm_num)) (ne_of_val (by rw [hb, hc]; norm_num))) hno
  have hs' : sa.getStandardConventionalStructure h fuel s = .ret conv := by
    unfold getStandardConventionalStructure
    rw [st.prim_eq, Outcome.ret_bind, st.nig_eq, Outcome.ret_bind, st.char_eq, Outcome.ret_bind]
    exact st.conv_eq
  have hl : valM prim.lattice = timesUnit ((1 / 2) ^ 0) ⟨4, 0, 0, 0, 8, 0, 0, 0, 16⟩ := by
    have ea := newEdge_pow (j := 2) (by norm_num) (by norm_num) (x := a) (by rw [ha]; norm_num)
    have eb := newEdge_pow (j := 3) (by norm_num) (by norm_num) (x := b) (by rw [hb]; norm_num)
    have ec := newEdge_pow (j := 4) (by norm_num) (by norm_num) (x := c) (by rw [hc]; norm_num)
    rw [st.prim_box]
    have z0 : (0 : RNum binary64).val = ((0 : ℤ) : ℝ) * (1 / 2) ^ 0 := by rw [RNum.val_zero]; norm_num
    refine Mat3.ext ?_ z0 z0 z0 ?_ z0 z0 z0 ?_
    · exact ea.trans (by norm_num [timesUnit, Mat3.map])
    · exact eb.trans (by norm_num [timesUnit, Mat3.map])
    · exact ec.trans (by norm_num [timesUnit, Mat3.map])
  refine ⟨prim, conv, st.prim_eq, hl, hs', ?_⟩
  obtain ⟨N, t, red, ch, b', num, -, -, -, -, -, -, -, -, -, k1, k2, -⟩ := C90_binary64 0 (by norm_num) 16 8 (by norm_num) (by norm_num) _ sa h fuel s prim conv
    st.prim_eq hl (by decide) (by decide) (by decide) (by norm_num) (by norm_num) hs'
  exact ⟨b', num, k1, k2⟩

end CrystSymm
