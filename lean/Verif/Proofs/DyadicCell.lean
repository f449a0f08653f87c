import Verif.Proofs.DyadicCube
import Verif.Proofs.RoundedBox

set_option autoImplicit false
set_option linter.unusedSectionVars false

/-! # The search for the primitive cell in a cube whose edge is a power of two, with sites at halves -/

namespace CrystSymm

open Spec Reducer

/-- do the sites repeat after the vector `k`, in units of half the edge? -/
def repeatsZ (l : List (String × Vec3 ℤ)) (k : Vec3 ℤ) : Bool :=
  l.all fun p => l.any fun q => decide (p.1 = q.1) && decide (mod2 (p.2 + k - q.2) = 0)

/-- the combinations in integer arithmetic; the opposite of a vector is listed twice unless it is zero. -/
def combs (M : Mat3 ℤ) : List (Vec3 ℤ) :=
  ([⟨1, 0, 0⟩, ⟨0, 1, 0⟩, ⟨0, 0, 1⟩, ⟨1, 1, 0⟩, ⟨1, 0, 1⟩, ⟨0, 1, 1⟩, ⟨-1, 1, 0⟩, ⟨-1, 0, 1⟩,
   ⟨0, -1, 1⟩, ⟨1, 1, 1⟩, ⟨-1, 1, 1⟩, ⟨1, -1, 1⟩, ⟨1, 1, -1⟩] : List (Vec3 ℤ)).flatMap fun v =>
    let w : Vec3 ℤ := M * v
    [w, -w] ++ if w = 0 then [] else [-w]

/-- the search in integer arithmetic, from the site `i` at `base` of the element `e`. -/
def primZ (e : String) (i : ℕ) (base : Vec3 ℤ) (l : List (String × Vec3 ℤ)) : Option (Vec3 ℤ × Vec3 ℤ × Vec3 ℤ) :=
  (shortestZ 200 ((candZ e i base l).filter (repeatsZ l))).bind fun f => shortestZ 200 (combs (Mat3.ofCols f.1 f.2.1 f.2.2))

theorem candZ_bound {e : String} {i : ℕ} {base : Vec3 ℤ} {l : List (String × Vec3 ℤ)} {k : Vec3 ℤ} (hk : k ∈ candZ e i base l) :
    (0 ≤ k.x ∧ k.x ≤ 2) ∧ (0 ≤ k.y ∧ k.y ≤ 2) ∧ (0 ≤ k.z ∧ k.z ≤ 2) := by
  unfold candZ at hk
  rcases List.mem_append.1 hk with hk | hk
  · simp only [List.mem_cons, List.not_mem_nil, or_false] at hk
    rcases hk with rfl | rfl | rfl <;> decide
  · obtain ⟨p, -, hp⟩ := List.mem_filterMap.1 hk
    split_ifs at hp
    obtain rfl := Option.some.inj hp
    simp only [mod2]
    omega

theorem combs_bound {x y z w : Vec3 ℤ} (hx : (0 ≤ x.x ∧ x.x ≤ 2) ∧ (0 ≤ x.y ∧ x.y ≤ 2) ∧ (0 ≤ x.z ∧ x.z ≤ 2))
    (hy : (0 ≤ y.x ∧ y.x ≤ 2) ∧ (0 ≤ y.y ∧ y.y ≤ 2) ∧ (0 ≤ y.z ∧ y.z ≤ 2))
    (hz : (0 ≤ z.x ∧ z.x ≤ 2) ∧ (0 ≤ z.y ∧ z.y ≤ 2) ∧ (0 ≤ z.z ∧ z.z ≤ 2)) (hw : w ∈ combs (Mat3.ofCols x y z)) : Fits w := by
  unfold combs at hw
  obtain ⟨v, hv, hw⟩ := List.mem_flatMap.1 hw
  have hw' : w = Mat3.ofCols x y z * v ∨ w = -(Mat3.ofCols x y z * v) := by
    rcases List.mem_append.1 hw with hw | hw
    · simpa using hw
    · split_ifs at hw
      · simp at hw
      · right; simpa using hw
  have hb : Fits (Mat3.ofCols x y z * v) := by
    simp only [List.mem_cons, List.not_mem_nil, or_false] at hv
    unfold Fits
    simp only [Mat3.mulVec_x, Mat3.mulVec_y, Mat3.mulVec_z, Mat3.ofCols, abs_le]
    rcases hv with rfl | rfl | rfl | rfl | rfl | rfl | rfl | rfl | rfl | rfl | rfl | rfl | rfl <;> simp only <;> omega
  rcases hw' with rfl | rfl
  · exact hb
  · unfold Fits at *
    simpa only [Vec3.neg_x, Vec3.neg_y, Vec3.neg_z, abs_neg] using hb

theorem shortestZ_mem {N : ℕ} {l : List (Vec3 ℤ)} {x y z : Vec3 ℤ} (h : shortestZ N l = some (x, y, z)) : x ∈ l ∧ y ∈ l ∧ z ∈ l := by
  have hm : ∀ {i : ℕ} {v : Vec3 ℤ}, (bucketSort normZ N l)[i]? = some v → v ∈ l := fun hv => by
    have hv := List.mem_of_getElem? hv
    unfold bucketSort at hv
    obtain ⟨k, -, hk⟩ := List.mem_flatMap.1 hv
    exact List.mem_of_mem_filter hk
  unfold shortestZ at h
  simp only at h
  obtain ⟨first, hf, h⟩ := Option.bind_eq_some_iff.1 h
  split_ifs at h
  obtain ⟨second, hs, h⟩ := Option.bind_eq_some_iff.1 h
  obtain ⟨third, ht, h⟩ := Option.bind_eq_some_iff.1 h
  cases h
  exact ⟨hm hf, hm hs, hm ht⟩

section
variable {ρ : Rounding} {γ κ : ℤ}

/-- a cube with edge `2 γ`; the sites are given in units of half the edge. -/
noncomputable def cubeOf (ρ : Rounding) (γ : ℤ) (l : List (String × Vec3 ℤ)) : Structure (RNum ρ) :=
  Structure.new (rbox (dy (2048 * γ)) (dy (2048 * γ)) (dy (2048 * γ))) (l.map Prod.fst) (l.map fun p => dyv 512 p.2) false

theorem cubeOf_lattice (l : List (String × Vec3 ℤ)) :
    (cubeOf ρ γ l).lattice = rbox (dy (2048 * γ)) (dy (2048 * γ)) (dy (2048 * γ)) := rfl

theorem cubeOf_species (l : List (String × Vec3 ℤ)) : (cubeOf ρ γ l).species = l.map Prod.fst := rfl

theorem cubeOf_frac (l : List (String × Vec3 ℤ)) : (cubeOf ρ γ l).fracCoords = l.map fun p => dyv 512 p.2 := by
  simp [cubeOf, Structure.new]

variable (h : DyadicCube ρ γ κ)
include h

theorem cube_mulVec {w : Vec3 ℤ} (hw : Fits w) (l : List (String × Vec3 ℤ)) : (cubeOf ρ γ l).lattice * (dyv 512 w : Vec3 (RNum ρ)) = dyv (1024 * γ) w := by
  have key : ∀ {a : ℤ}, |a| ≤ 6 → (dy (2048 * γ) : RNum ρ) * dy (512 * a) = dy (1024 * γ * a) := by
    intro a ha
    obtain ⟨s1, -⟩ := h.small
    rw [abs_le] at ha s1
    exact dy_mul h.exact (by ring) (abs_le.2 (by omega)) (abs_le.2 (by omega))
  rw [cubeOf_lattice, rbox_mulVec]
  exact Vec3.ext (key hw.1) (key hw.2.1) (key hw.2.2)

theorem cube_pinv {w : Vec3 ℤ} (hw : Fits w) (l : List (String × Vec3 ℤ)) :
    (FTrans.pinv (cubeOf ρ γ l).lattice : Mat3 (RNum ρ)) * (dyv (1024 * γ) w : Vec3 (RNum ρ)) = dyv 512 w := by
  obtain ⟨s1, -⟩ := h.small
  rw [abs_le] at s1
  have hp := h.pos
  have g1 : (1 : ℝ) ≤ γ := by exact_mod_cast hp
  have hv : (dy (2048 * γ) : RNum ρ).val = 2 * γ := by
    rw [val_dy h.exact (abs_le.2 (by omega))]; push_cast; ring
  have hκ : |κ| ≤ 512 := by
    have := h.inv
    rw [abs_le]
    constructor <;> nlinarith
  have hinv : (1 : RNum ρ) / dy (2048 * γ) = dy κ := by
    apply RNum.ext
    rw [RNum.val_div, RNum.val_one, hv]
    show _ = ρ.fl ((κ : ℝ) / 1024)
    congr 1
    have : (γ : ℝ) * κ = 512 := by exact_mod_cast h.inv
    field_simp
    linarith
  have hlt : 1 / 1000000 < (dy (2048 * γ) : RNum ρ).val := by rw [hv]; linarith
  have key : ∀ {a : ℤ}, |a| ≤ 6 → (dy κ : RNum ρ) * dy (1024 * γ * a) = dy (512 * a) := by
    intro a ha
    have hb := abs_mul_le' (h.small).1 ha
    exact dy_mul h.exact (by linear_combination (1024 * a) * h.inv) (by omega) (by omega)
  rw [cubeOf_lattice, rbox_pinv hlt hlt hlt, hinv, rbox_mulVec]
  exact Vec3.ext (key hw.1) (key hw.2.1) (key hw.2.2)

/-- the tolerance in units of the edge. -/
noncomputable def cubeTol (ρ : Rounding) (γ : ℤ) (d : RNum ρ) : RNum ρ := d / dy (2048 * γ)

theorem cube_tols (d : RNum ρ) (l : List (String × Vec3 ℤ)) :
    Structure.fracTols (cubeOf ρ γ l).lattice d = ⟨cubeTol ρ γ d, cubeTol ρ γ d, cubeTol ρ γ d⟩ := by
  obtain ⟨s1, s2, -, -⟩ := h.small
  have hp := h.pos
  have e1 : |1024 * (2 * γ)| ≤ 2 ^ 20 := by rw [abs_le] at *; omega
  have e2 : |1024 * (2 * γ) ^ 2| ≤ 2 ^ 30 := by rw [abs_le] at *; constructor <;> nlinarith
  have key : ∀ {w : Vec3 ℤ}, (|w.x| ≤ 72 ∧ |w.y| ≤ 72 ∧ |w.z| ≤ 72) → normZ w = 1 → (dyv (1024 * (2 * γ)) w : Vec3 (RNum ρ)).mag = dy (2048 * γ) := by
    intro w hw h1
    apply RNum.ext
    rw [dyv_mag h (by omega) e1 e2 hw, h1]
    show _ = ρ.fl (((2048 * γ : ℤ) : ℝ) / 1024)
    congr 1
    rw [Nat.cast_one, Real.sqrt_one]
    push_cast
    ring
  have c0 : (cubeOf ρ γ l).lattice.col0 = dyv (1024 * (2 * γ)) ⟨1, 0, 0⟩ := by
    refine Vec3.ext ?_ ?_ ?_
    · show dy (2048 * γ) = dy (1024 * (2 * γ) * 1); congr 1; ring
    · show 0 = dy (1024 * (2 * γ) * 0); rw [mul_zero, dy_zero]
    · show 0 = dy (1024 * (2 * γ) * 0); rw [mul_zero, dy_zero]
  have c1 : (cubeOf ρ γ l).lattice.col1 = dyv (1024 * (2 * γ)) ⟨0, 1, 0⟩ := by
    refine Vec3.ext ?_ ?_ ?_
    · show 0 = dy (1024 * (2 * γ) * 0); rw [mul_zero, dy_zero]
    · show dy (2048 * γ) = dy (1024 * (2 * γ) * 1); congr 1; ring
    · show 0 = dy (1024 * (2 * γ) * 0); rw [mul_zero, dy_zero]
  have c2 : (cubeOf ρ γ l).lattice.col2 = dyv (1024 * (2 * γ)) ⟨0, 0, 1⟩ := by
    refine Vec3.ext ?_ ?_ ?_
    · show 0 = dy (1024 * (2 * γ) * 0); rw [mul_zero, dy_zero]
    · show 0 = dy (1024 * (2 * γ) * 0); rw [mul_zero, dy_zero]
    · show dy (2048 * γ) = dy (1024 * (2 * γ) * 1); congr 1; ring
  unfold Structure.fracTols
  rw [c0, c1, c2, key (by decide) (by decide), key (by decide) (by decide), key (by decide) (by decide)]
  rfl

theorem fl_quarter {n : ℤ} (hn : |n| ≤ 2 ^ 40) : ρ.fl ((n : ℝ) / 4) = (n : ℝ) / 4 := by
  have := h.exact (256 * n) (by rw [abs_mul, show |(256 : ℤ)| = 256 from rfl]; omega)
  push_cast at this
  rwa [show (256 : ℝ) * n * (1 / 1024) = n / 4 by ring] at this

theorem cubeTol_bounds {d : RNum ρ} (hd : 0 ≤ d.val) (hd1 : d.val ≤ 1 / 4) : 0 ≤ (cubeTol ρ γ d).val ∧ (cubeTol ρ γ d).val ≤ 1 / 4 := by
  obtain ⟨s1, -⟩ := h.small
  rw [abs_le] at s1
  have g1 : (1 : ℝ) ≤ γ := by exact_mod_cast h.pos
  have hp := h.pos
  have hv : (dy (2048 * γ) : RNum ρ).val = 2 * γ := by
    rw [val_dy h.exact (abs_le.2 (by omega))]; push_cast; ring
  unfold cubeTol
  rw [RNum.val_div, hv]
  constructor
  · rw [← fl_zero ρ]
    exact ρ.mono _ _ (by positivity)
  · have := fl_quarter h (n := 1) (by norm_num)
    rw [Int.cast_one] at this
    rw [← this]
    apply ρ.mono
    rw [div_le_iff₀ (by linarith)]
    linarith

/-- one coordinate is brought into the cell without error. -/
theorem normComp_dy {t : RNum ρ} (h0 : 0 ≤ t.val) (h1 : t.val ≤ 1 / 4) {k : ℤ} (hk : -1 ≤ k ∧ k ≤ 3) :
    normComp t (dy (512 * k)) = dy (512 * (k % 2)) := by
  have hneg : ((-1 : RNum ρ) * t).val = -t.val := by
    rw [RNum.val_mul, RNum.val_neg, RNum.val_one, neg_one_mul, ρ.odd, RNum.fl_val]
  have hsub : 3 / 4 ≤ (1 - t).val := by
    have := fl_quarter h (n := 3) (by norm_num)
    push_cast at this
    rw [RNum.val_sub, RNum.val_one, ← this]
    exact ρ.mono _ _ (by linarith)
  have hv : ∀ n : ℤ, |n| ≤ 2000 → (dy n : RNum ρ).val = (n : ℝ) / 1024 := fun n hn => val_dy h.exact (by omega)
  have hr : ∀ (n m : ℤ), |n| ≤ 2000 → |m| ≤ 2000 → truncZ ((n : ℝ) / 1024) = (n - m) / 1024 → (1024 : ℤ) ∣ n - m →
      (FRound.fmod1 (dy n : RNum ρ)) = dy m := by
    intro n m hn hm ht hdvd
    apply RNum.ext
    rw [RNum.val_fmod1, fmod1_eq, hv n hn, hv m hm, ht]
    obtain ⟨q, hq⟩ := hdvd
    rw [hq, Int.mul_ediv_cancel_left _ (by norm_num)]
    have : (n : ℝ) - m = 1024 * q := by exact_mod_cast hq
    rw [show (n : ℝ) = m + 1024 * q by linarith]
    ring
  have ht1 : truncZ (((-512 : ℤ) : ℝ) / 1024) = 0 := truncZ_of_abs_lt_one (by norm_num) (by norm_num)
  have ht2 : truncZ (((0 : ℤ) : ℝ) / 1024) = 0 := truncZ_of_abs_lt_one (by norm_num) (by norm_num)
  have ht3 : truncZ (((512 : ℤ) : ℝ) / 1024) = 0 := truncZ_of_abs_lt_one (by norm_num) (by norm_num)
  have ht4 : truncZ (((1024 : ℤ) : ℝ) / 1024) = 1 := by
    rw [show ((1024 : ℤ) : ℝ) / 1024 = ((1 : ℤ) : ℝ) by norm_num, truncZ_int]
  have ht5 : truncZ (((1536 : ℤ) : ℝ) / 1024) = 1 := by
    unfold truncZ
    rw [if_pos (by norm_num), Int.floor_eq_iff]
    norm_num
  have done0 : ∀ n : ℤ, FRound.fmod1 (dy n : RNum ρ) = dy 0 → normComp t (dy n) = dy 0 := by
    intro n hn
    unfold normComp
    simp only [hn]
    rw [if_neg (by rw [RNum.lt_iff, hneg, dy_zero, RNum.val_zero]; linarith),
      if_neg (by rw [RNum.lt_iff, dy_zero, RNum.val_zero]; linarith)]
  have done1 : ∀ n : ℤ, FRound.fmod1 (dy n : RNum ρ) = dy 512 → normComp t (dy n) = dy 512 := by
    intro n hn
    unfold normComp
    simp only [hn]
    rw [if_neg (by rw [RNum.lt_iff, hneg, hv 512 (by norm_num)]; push_cast; linarith),
      if_neg (by rw [RNum.lt_iff, hv 512 (by norm_num)]; push_cast; linarith)]
  have : k = -1 ∨ k = 0 ∨ k = 1 ∨ k = 2 ∨ k = 3 := by omega
  rcases this with rfl | rfl | rfl | rfl | rfl
  · have e := hr (-512) (-512) (by norm_num) (by norm_num) (by rw [ht1]; norm_num) (by norm_num)
    show normComp t (dy (-512)) = dy 512
    unfold normComp
    simp only [e]
    rw [if_pos (by rw [RNum.lt_iff, hneg, hv (-512) (by norm_num)]; push_cast; linarith), ← dy_one, dy_add h.exact (by norm_num) (by norm_num)]
    norm_num
  · exact done0 0 (hr 0 0 (by norm_num) (by norm_num) (by rw [ht2]; norm_num) (by norm_num))
  · exact done1 512 (hr 512 512 (by norm_num) (by norm_num) (by rw [ht3]; norm_num) (by norm_num))
  · exact done0 1024 (hr 1024 0 (by norm_num) (by norm_num) (by rw [ht4]; norm_num) (by norm_num))
  · exact done1 1536 (hr 1536 512 (by norm_num) (by norm_num) (by rw [ht5]; norm_num) (by norm_num))

theorem normFrac_dy {t : RNum ρ} (h0 : 0 ≤ t.val) (h1 : t.val ≤ 1 / 4) {v : Vec3 ℤ} (hx : -1 ≤ v.x ∧ v.x ≤ 3) (hy : -1 ≤ v.y ∧ v.y ≤ 3)
    (hz : -1 ≤ v.z ∧ v.z ≤ 3) : normFracVec ⟨t, t, t⟩ (dyv 512 v) = dyv 512 (mod2 v) := by
  unfold normFracVec dyv mod2
  simp only [normComp_dy h h0 h1 hx, normComp_dy h h0 h1 hy, normComp_dy h h0 h1 hz]

theorem dyv_sub {u v : Vec3 ℤ} (hu : Fits u) (hv : Fits v) : (dyv 512 u : Vec3 (RNum ρ)) - dyv 512 v = dyv 512 (u - v) := by
  have key : ∀ {a b : ℤ}, |a| ≤ 6 → |b| ≤ 6 → (dy (512 * a) : RNum ρ) - dy (512 * b) = dy (512 * (a - b)) := by
    intro a b ha hb
    rw [abs_le] at ha hb
    rw [dy_sub h.exact (abs_le.2 (by omega)) (abs_le.2 (by omega))]
    congr 1
    ring
  exact Vec3.ext (key hu.1 hv.1) (key hu.2.1 hv.2.1) (key hu.2.2 hv.2.2)

theorem dyv_add {u v : Vec3 ℤ} (hu : Fits u) (hv : Fits v) : (dyv 512 u : Vec3 (RNum ρ)) + dyv 512 v = dyv 512 (u + v) := by
  have key : ∀ {a b : ℤ}, |a| ≤ 6 → |b| ≤ 6 → (dy (512 * a) : RNum ρ) + dy (512 * b) = dy (512 * (a + b)) := by
    intro a b ha hb
    rw [abs_le] at ha hb
    rw [dy_add h.exact (abs_le.2 (by omega)) (abs_le.2 (by omega))]
    congr 1
    ring
  exact Vec3.ext (key hu.1 hv.1) (key hu.2.1 hv.2.1) (key hu.2.2 hv.2.2)

omit h in
theorem unit_fits {v : Vec3 ℤ} (hv : UnitCoords v) : Fits v := by
  obtain ⟨a, b, c⟩ := hv
  unfold Fits
  simp only [abs_le]
  omega

/-- two sites are recognised without error. -/
theorem coincide_dy {d : RNum ρ} (hd : 0 ≤ d.val) (hd1 : d.val ≤ 1 / 4) (l : List (String × Vec3 ℤ)) {p k q : Vec3 ℤ} (hp : UnitCoords p)
    (hk : (0 ≤ k.x ∧ k.x ≤ 2) ∧ (0 ≤ k.y ∧ k.y ≤ 2) ∧ (0 ≤ k.z ∧ k.z ≤ 2)) (hq : UnitCoords q) :
    Structure.sitesCoincide (cubeOf ρ γ l).lattice (Structure.fracTols (cubeOf ρ γ l).lattice d) d (dyv 512 p + dyv 512 k) (dyv 512 q) =
      decide (mod2 (p + k - q) = 0) := by
  have fk : Fits k := by unfold Fits; simp only [abs_le]; omega
  have fpk : Fits (p + k) := by
    obtain ⟨a, b, c⟩ := hp
    unfold Fits; simp only [abs_le, Vec3.add_x, Vec3.add_y, Vec3.add_z]; omega
  obtain ⟨t0, t1⟩ := cubeTol_bounds h hd hd1
  have hm : UnitCoords (mod2 (p + k - q)) := by unfold UnitCoords mod2; simp only; omega
  obtain ⟨s1, s2, -, -⟩ := h.small
  have hp0 := h.pos
  unfold Structure.sitesCoincide
  simp only
  rw [decide_eq_decide, cube_tols h, dyv_add h (unit_fits hp) fk, dyv_sub h fpk (unit_fits hq)]
  obtain ⟨a1, a2, a3⟩ := hp
  obtain ⟨b1, b2, b3⟩ := hq
  rw [normFrac_dy h t0 t1 (by simp only [Vec3.add_x, Vec3.sub_x]; omega) (by simp only [Vec3.add_y, Vec3.sub_y]; omega)
    (by simp only [Vec3.add_z, Vec3.sub_z]; omega), cube_mulVec h (unit_fits hm)]
  generalize mod2 (p + k - q) = w at *
  have hlit : (d * lit 2).val = ρ.fl (d.val * 2) := by
    have e : (lit 2 : RNum ρ).val = 2 := by
      show ρ.fl ((2 : ℤ) : ℝ) = 2
      rw [fl_int h (by norm_num)]; norm_num
    rw [RNum.val_mul, e]
  have hw := unit_fits hm
  rw [RNum.le_iff, RNum.val_abs, dyv_mag h (by omega) (by omega) (by omega) (by obtain ⟨x, y, z⟩ := hw; omega), hlit]
  constructor
  · intro hle
    by_contra hne
    have g1 : (1 : ℝ) ≤ γ := by exact_mod_cast hp0
    have n1 : (1 : ℝ) ≤ √(normZ w) := by
      rw [Real.one_le_sqrt]
      exact_mod_cast one_le_normZ hne
    have l1 : 1 ≤ ρ.fl (γ * √(normZ w)) := by
      rw [← ρ.one]
      exact ρ.mono _ _ (by nlinarith)
    have l2 : ρ.fl (d.val * 2) ≤ 1 / 2 := by
      have := fl_quarter h (n := 2) (by norm_num)
      rw [show ((2 : ℤ) : ℝ) / 4 = 1 / 2 by norm_num] at this
      rw [← this]
      exact ρ.mono _ _ (by linarith)
    linarith [le_abs_self (ρ.fl (γ * √(normZ w)))]
  · rintro rfl
    rw [show normZ 0 = 0 from rfl, Nat.cast_zero, Real.sqrt_zero, mul_zero, fl_zero, abs_zero, ← fl_zero ρ]
    exact ρ.mono _ _ (by linarith)

theorem cube_normalize {d : RNum ρ} (hd : 0 ≤ d.val) (hd1 : d.val ≤ 1 / 4) {l : List (String × Vec3 ℤ)} (hl : ∀ p ∈ l, UnitCoords p.2)
    (hs : l.Pairwise fun p q => p.1 ≤ q.1) : (cubeOf ρ γ l).normalizeCoords d = cubeOf ρ γ l := by
  obtain ⟨t0, t1⟩ := cubeTol_bounds h hd hd1
  have hfrac : normalizeFracVectors (cubeOf ρ γ l).fracCoords ⟨cubeTol ρ γ d, cubeTol ρ γ d, cubeTol ρ γ d⟩ = (cubeOf ρ γ l).fracCoords := by
    unfold normalizeFracVectors
    rw [cubeOf_frac, List.map_map]
    apply List.map_congr_left
    intro p hp
    obtain ⟨h1, h2, h3⟩ := hl p hp
    show normFracVec _ (dyv 512 p.2) = _
    rw [normFrac_dy h t0 t1 (by omega) (by omega) (by omega), mod2_unit (hl p hp)]
  have hz : (cubeOf ρ γ l).species.zip ((Structure.getCartCoords (cubeOf ρ γ l).lattice (cubeOf ρ γ l).fracCoords).zip
      (cubeOf ρ γ l).fracCoords) = l.map fun p => (p.1, (cubeOf ρ γ l).lattice * (dyv 512 p.2 : Vec3 (RNum ρ)), dyv 512 p.2) := by
    unfold Structure.getCartCoords
    rw [cubeOf_species, cubeOf_frac, List.map_map, List.zip_map', List.zip_map']
    rfl
  unfold Structure.normalizeCoords
  simp only [cube_tols h, hfrac, hz]
  have hsort : Structure.sortBySpecies (l.map fun p => (p.1, (cubeOf ρ γ l).lattice * (dyv 512 p.2 : Vec3 (RNum ρ)), (dyv 512 p.2 : Vec3 (RNum ρ)))) =
      l.map fun p => (p.1, (cubeOf ρ γ l).lattice * (dyv 512 p.2 : Vec3 (RNum ρ)), dyv 512 p.2) := by
    apply mergeSort_key_of_sorted Prod.fst
    rw [List.pairwise_map]
    exact hs
  rw [hsort]
  simp only [List.map_map]
  unfold cubeOf Structure.new
  simp [Structure.getCartCoords, Function.comp_def]

theorem cube_candidates {d : RNum ρ} (hd : 0 ≤ d.val) (hd1 : d.val ≤ 1 / 4) {l : List (String × Vec3 ℤ)} (hl : ∀ p ∈ l, UnitCoords p.2)
    (e : String) (i : ℕ) {base : Vec3 ℤ} (hb : UnitCoords base) :
    candidateVecs (Structure.fracTols (cubeOf ρ γ l).lattice d) e i (dyv 512 base) (cubeOf ρ γ l).species (cubeOf ρ γ l).fracCoords =
      (candZ e i base l).map (dyv 512) := by
  obtain ⟨t0, t1⟩ := cubeTol_bounds h hd hd1
  unfold candidateVecs candZ
  rw [List.map_append]
  congr 1
  · have e0 : (dy (512 * 0) : RNum ρ) = 0 := by rw [mul_zero, dy_zero]
    have e2 : (dy (512 * 2) : RNum ρ) = 1 := dy_one
    simp only [unitVecs, List.map_cons, List.map_nil, dyv, e0, e2]
  · rw [cubeOf_species, cubeOf_frac, List.zip_map', List.zipIdx_map, List.filterMap_map, List.map_filterMap]
    apply List.filterMap_congr
    rintro ⟨⟨e', v⟩, j⟩ hp
    have hv : UnitCoords v := hl (e', v) (by obtain ⟨_, _, h⟩ := List.mem_zipIdx hp; rw [h]; exact List.getElem_mem _)
    simp only [Function.comp, Prod.map]
    by_cases hc : e' = e ∧ j ≠ i
    · simp only [id]
      rw [if_pos hc, if_pos hc, Option.map_some, cube_tols h, dyv_sub h (unit_fits hv) (unit_fits hb)]
      obtain ⟨a1, a2, a3⟩ := hv
      obtain ⟨b1, b2, b3⟩ := hb
      rw [normFrac_dy h t0 t1]
      · show -1 ≤ v.x - base.x ∧ v.x - base.x ≤ 3; omega
      · show -1 ≤ v.y - base.y ∧ v.y - base.y ≤ 3; omega
      · show -1 ≤ v.z - base.z ∧ v.z - base.z ≤ 3; omega
    · simp only [id]
      rw [if_neg hc, if_neg hc, Option.map_none]

theorem cube_combinations (l : List (String × Vec3 ℤ)) {x y z : Vec3 ℤ} (hx : (0 ≤ x.x ∧ x.x ≤ 2) ∧ (0 ≤ x.y ∧ x.y ≤ 2) ∧ (0 ≤ x.z ∧ x.z ≤ 2))
    (hy : (0 ≤ y.x ∧ y.x ≤ 2) ∧ (0 ≤ y.y ∧ y.y ≤ 2) ∧ (0 ≤ y.z ∧ y.z ≤ 2)) (hz : (0 ≤ z.x ∧ z.x ≤ 2) ∧ (0 ≤ z.y ∧ z.y ≤ 2) ∧ (0 ≤ z.z ∧ z.z ≤ 2)) :
    Structure.getCartCoords (cubeOf ρ γ l).lattice (combinationVecs (Mat3.ofCols (dyv 512 x) (dyv 512 y) (dyv 512 z))) =
      (combs (Mat3.ofCols x y z)).map (dyv (1024 * γ)) := by
  have z0 : (dy (1024 * 0) : RNum ρ) = 0 := by rw [mul_zero, dy_zero]
  have z1 : (dy (1024 * 1) : RNum ρ) = 1 := dy_one
  have z2 : (dy (1024 * (-1)) : RNum ρ) = -1 := by rw [mul_neg, dy_neg, z1]
  have hbase : (baseCombVecs : List (Vec3 (RNum ρ))) = ([⟨1, 0, 0⟩, ⟨0, 1, 0⟩, ⟨0, 0, 1⟩, ⟨1, 1, 0⟩, ⟨1, 0, 1⟩, ⟨0, 1, 1⟩, ⟨-1, 1, 0⟩,
      ⟨-1, 0, 1⟩, ⟨0, -1, 1⟩, ⟨1, 1, 1⟩, ⟨-1, 1, 1⟩, ⟨1, -1, 1⟩, ⟨1, 1, -1⟩] : List (Vec3 ℤ)).map (dyv 1024) := by
    simp only [baseCombVecs, List.map_cons, List.map_nil, dyv, z0, z1, z2]
  have hfit : ∀ w ∈ combs (Mat3.ofCols x y z), Fits w := fun w hw => combs_bound hx hy hz hw
  have hcart : ∀ w ∈ combs (Mat3.ofCols x y z), (cubeOf ρ γ l).lattice * (dyv 512 w : Vec3 (RNum ρ)) = dyv (1024 * γ) w := fun w hw =>
    cube_mulVec h (hfit w hw) l
  have hcomb : combinationVecs (Mat3.ofCols (dyv 512 x) (dyv 512 y) (dyv 512 z) : Mat3 (RNum ρ)) = (combs (Mat3.ofCols x y z)).map (dyv 512) := by
    unfold combinationVecs combs
    rw [hbase, List.flatMap_map, List.map_flatMap]
    apply List.flatMap_congr
    intro v hv
    have hw : Fits (Mat3.ofCols x y z * v) := hfit _ (by
      unfold combs
      rw [List.mem_flatMap]
      exact ⟨v, hv, by simp⟩)
    have hvb : |v.x| ≤ 1 ∧ |v.y| ≤ 1 ∧ |v.z| ≤ 1 := by
      simp only [List.mem_cons, List.not_mem_nil, or_false] at hv
      rcases hv with rfl | rfl | rfl | rfl | rfl | rfl | rfl | rfl | rfl | rfl | rfl | rfl | rfl <;> decide
    have row : ∀ {a b c : ℤ}, (0 ≤ a ∧ a ≤ 2) → (0 ≤ b ∧ b ≤ 2) → (0 ≤ c ∧ c ≤ 2) →
        (dy (512 * a) : RNum ρ) * dy (1024 * v.x) + dy (512 * b) * dy (1024 * v.y) + dy (512 * c) * dy (1024 * v.z) =
          dy (512 * (a * v.x + b * v.y + c * v.z)) := by
      intro a b c ha hb hc
      have ma := abs_mul_le' (abs_le.2 ⟨by omega, ha.2⟩ : |a| ≤ 2) hvb.1
      have mb := abs_mul_le' (abs_le.2 ⟨by omega, hb.2⟩ : |b| ≤ 2) hvb.2.1
      have mc := abs_mul_le' (abs_le.2 ⟨by omega, hc.2⟩ : |c| ≤ 2) hvb.2.2
      obtain ⟨v1, v2, v3⟩ := hvb
      rw [abs_le] at ma mb mc v1 v2 v3
      rw [dy_mul h.exact (k := 512 * (a * v.x)) (by ring) (abs_le.2 (by omega)) (abs_le.2 (by omega)),
        dy_mul h.exact (k := 512 * (b * v.y)) (by ring) (abs_le.2 (by omega)) (abs_le.2 (by omega)),
        dy_mul h.exact (k := 512 * (c * v.z)) (by ring) (abs_le.2 (by omega)) (abs_le.2 (by omega)),
        dy_add h.exact (abs_le.2 (by omega)) (abs_le.2 (by omega)), dy_add h.exact (abs_le.2 (by omega)) (abs_le.2 (by omega))]
      congr 1
      ring
    have e1 : (Mat3.ofCols (dyv 512 x) (dyv 512 y) (dyv 512 z) : Mat3 (RNum ρ)) * (dyv 1024 v : Vec3 (RNum ρ)) = dyv 512 (Mat3.ofCols x y z * v) :=
      Vec3.ext (row hx.1 hy.1 hz.1) (row hx.2.1 hy.2.1 hz.2.1) (row hx.2.2 hy.2.2 hz.2.2)
    have e2 : ∀ w : Vec3 ℤ, Vec3.scale (-1) (dyv 512 w : Vec3 (RNum ρ)) = dyv 512 (-w) := by
      intro w
      have k : ∀ a : ℤ, (-1 : RNum ρ) * dy (512 * a) = dy (512 * -a) := fun a => by
        rw [RNum.neg_mul', RNum.one_mul', mul_neg, dy_neg]
      exact Vec3.ext (k _) (k _) (k _)
    simp only [e1, e2]
    generalize Mat3.ofCols x y z * v = w at *
    have hz6 : (zeroTol : RNum ρ).val ≤ 1 / 4 ∧ 0 ≤ (zeroTol : RNum ρ).val := by
      have l1 : (lit 1 : RNum ρ).val = 1 := by rw [RNum.lit_one, RNum.val_one]
      have l2 : (lit 1000000 : RNum ρ).val = 1000000 := by
        show ρ.fl ((1000000 : ℤ) : ℝ) = 1000000
        rw [fl_int h (by norm_num)]; norm_num
      have e : (zeroTol : RNum ρ).val = ρ.fl (1 / 1000000) := by
        unfold zeroTol
        rw [RNum.val_div, l1, l2]
      have hq := fl_quarter h (n := 1) (by norm_num)
      rw [Int.cast_one] at hq
      rw [e]
      constructor
      · rw [← hq]; exact ρ.mono _ _ (by norm_num)
      · rw [← fl_zero ρ]; exact ρ.mono _ _ (by norm_num)
    have hmag : ((dyv 512 (-w) : Vec3 (RNum ρ)).mag).val = ρ.fl (√(normZ w) / 2) := by
      show ρ.fl (Real.sqrt ((dyv 512 (-w) : Vec3 (RNum ρ)).normSq).val) = _
      obtain ⟨w1, w2, w3⟩ := hw
      rw [dyv_normSq h (m := 512) (M := 256) (by norm_num) (by norm_num) (by norm_num)
        (by simp only [Vec3.neg_x, Vec3.neg_y, Vec3.neg_z, abs_neg]; omega)]
      congr 1
      have hn : normZ (-w) = normZ w := by unfold normZ; simp
      rw [hn, show ((256 : ℤ) : ℝ) * (normZ w : ℝ) / 1024 = (normZ w : ℝ) / 2 ^ 2 by push_cast; ring, Real.sqrt_div (Nat.cast_nonneg _),
        Real.sqrt_sq (by norm_num)]
    have hiff : (zeroTol : RNum ρ) < FRound.abs ((dyv 512 (-w) : Vec3 (RNum ρ)).mag) ↔ w ≠ 0 := by
      rw [RNum.lt_iff, RNum.val_abs, hmag]
      constructor
      · rintro hlt rfl
        rw [show normZ 0 = 0 from rfl, Nat.cast_zero, Real.sqrt_zero, zero_div, fl_zero, abs_zero] at hlt
        linarith
      · intro hne
        have n1 : (1 : ℝ) ≤ √(normZ w) := by
          rw [Real.one_le_sqrt]
          exact_mod_cast one_le_normZ hne
        have hq := fl_quarter h (n := 2) (by norm_num)
        have : (1 : ℝ) / 2 ≤ ρ.fl (√(normZ w) / 2) := by
          rw [show ((2 : ℤ) : ℝ) / 4 = 1 / 2 by norm_num] at hq
          rw [← hq]; exact ρ.mono _ _ (by linarith)
        linarith [le_abs_self (ρ.fl (√(normZ w : ℝ) / 2))]
    by_cases h0 : w = 0
    · rw [if_neg (by rw [hiff]; simpa using h0), if_pos h0]
      rfl
    · rw [if_pos (hiff.2 h0), if_neg h0]
      rfl
  unfold Structure.getCartCoords
  rw [hcomb, List.map_map]
  exact List.map_congr_left fun w hw => hcart w hw

/-- the search in rounded arithmetic follows the search in integers. -/
theorem cube_primitive {r : Reducer (RNum ρ)} {ord : List (String × ℕ) → List (String × ℕ)} (ho : ∀ l, (ord l).Perm l)
    {l : List (String × Vec3 ℤ)} (hd : 0 ≤ r.dtol.val) (hd1 : r.dtol.val ≤ 1 / 4) (hl : ∀ p ∈ l, UnitCoords p.2)
    (hs : l.Pairwise fun p q => p.1 ≤ q.1) (hlen : l.length < 65536) (e : String) (i : ℕ) (base : Vec3 ℤ)
    (he : ∀ e' ∈ l.map Prod.fst, (∀ k ∈ l.map Prod.fst, (l.map Prod.fst).count e' < (l.map Prod.fst).count k ∨
      ((l.map Prod.fst).count e' = (l.map Prod.fst).count k ∧ e' ≤ k)) → e' = e)
    (hi : (l.map Prod.fst).idxOf e = i) (hb : l[i]? = some (e, base)) {f g k : Vec3 ℤ} (hprim : primZ e i base l = some (f, g, k)) :
    ∃ prim, r.findPrimitiveCell ord (cubeOf ρ γ l) = .ret prim ∧
      prim.lattice = Mat3.ofCols (dyv (1024 * γ) f) (dyv (1024 * γ) g) (dyv (1024 * γ) k) := by
  set s := cubeOf ρ γ l with hsdef
  have hnorm : s.normalizeCoords r.dtol = s := cube_normalize h hd hd1 hl hs
  have hmemb : e ∈ l.map Prod.fst := List.mem_map.2 ⟨_, List.mem_of_getElem? hb, rfl⟩
  obtain ⟨⟨minEle, inds, counts⟩, hmin⟩ := (C19_get_min_element_panics_iff s ord ho).2 (by
    rw [cubeOf_species]; exact List.ne_nil_of_mem hmemb)
  obtain ⟨⟨hmem, hleast⟩, hinds, -⟩ := C19_get_min_element s ord ho (by
    unfold Structure.numSites; rw [cubeOf_species, List.length_map]; exact hlen) minEle inds counts hmin
  have hE : minEle = e := he _ hmem hleast
  subst hE
  have hind : amapGet? inds minEle = some i := by
    rw [hinds, if_pos hmem, cubeOf_species, hi]
  have hbase : s.fracCoords[i]? = some (dyv 512 base) := by
    rw [cubeOf_frac, List.getElem?_map, hb]; rfl
  have hub : UnitCoords base := hl _ (List.mem_of_getElem? hb)
  have hcand := cube_candidates h hd hd1 hl minEle i hub
  have hfilter : ((candZ minEle i base l).map (dyv 512)).filter
      (isTranslation s.lattice (Structure.fracTols s.lattice r.dtol) r.dtol (s.fracCoords.zip s.species)) =
      ((candZ minEle i base l).filter (repeatsZ l)).map (dyv 512) := by
    rw [List.filter_map]
    congr 1
    apply List.filter_congr
    intro k hk
    have hzip : s.fracCoords.zip s.species = l.map fun p => (dyv 512 p.2, p.1) := by
      rw [cubeOf_species, cubeOf_frac, List.zip_map']
    show isTranslation _ _ _ _ _ = _
    unfold isTranslation repeatsZ
    rw [hzip, List.all_map]
    rw [Bool.eq_iff_iff, List.all_eq_true, List.all_eq_true]
    refine forall₂_congr fun p hp => ?_
    show (List.any _ _ = true) ↔ _
    rw [List.any_map, List.any_eq_true, List.any_eq_true]
    refine exists_congr fun q => and_congr_right fun hq => ?_
    show (decide (p.1 = q.1) && Structure.sitesCoincide _ _ _ (dyv 512 p.2 + dyv 512 k) (dyv 512 q.2)) = true ↔ _
    rw [coincide_dy h hd hd1 l (hl p hp) (candZ_bound hk) (hl q hq)]
  have hcb : ∀ k ∈ (candZ minEle i base l).filter (repeatsZ l), (0 ≤ k.x ∧ k.x ≤ 2) ∧ (0 ≤ k.y ∧ k.y ≤ 2) ∧ (0 ≤ k.z ∧ k.z ≤ 2) :=
    fun k hk => candZ_bound (List.mem_of_mem_filter hk)
  have hcf : ∀ k ∈ (candZ minEle i base l).filter (repeatsZ l), Fits k := fun k hk => by
    have := hcb k hk
    unfold Fits; simp only [abs_le]; omega
  have hcart : Structure.getCartCoords s.lattice (((candZ minEle i base l).filter (repeatsZ l)).map (dyv 512)) =
      ((candZ minEle i base l).filter (repeatsZ l)).map (dyv (1024 * γ)) := by
    unfold Structure.getCartCoords
    rw [List.map_map]
    exact List.map_congr_left fun k hk => cube_mulVec h (hcf k hk) l
  have hd2 : r.dtol.val < 1 := by linarith
  unfold primZ at hprim
  obtain ⟨⟨x, y, z⟩, hfirst, hsecond⟩ := Option.bind_eq_some_iff.1 hprim
  simp only at hsecond
  obtain ⟨mx, my, mz⟩ := shortestZ_mem hfirst
  have hF := getShortest_dy h hd hd2 hcf (fun v hv => lt_of_le_of_lt (fits_norm h (hcf v hv)) (by norm_num)) hfirst
  have hcb2 : ∀ w ∈ combs (Mat3.ofCols x y z), Fits w := fun w hw => combs_bound (hcb x mx) (hcb y my) (hcb z mz) hw
  have hS := getShortest_dy h hd hd2 hcb2 (fun v hv => lt_of_le_of_lt (fits_norm h (hcb2 v hv)) (by norm_num)) hsecond
  unfold findPrimitiveCell
  simp only
  rw [hnorm, hmin]
  simp only [Outcome.bind, hind, Outcome.ofOption, hbase]
  rw [hcand, hfilter, hcart, hF]
  simp only
  rw [cube_pinv h (hcf x mx), cube_pinv h (hcf y my), cube_pinv h (hcf z mz), cube_combinations h l (hcb x mx) (hcb y my) (hcb z mz), hS]
  exact ⟨_, rfl, rfl⟩

end

end CrystSymm
