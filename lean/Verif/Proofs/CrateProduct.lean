import Verif.Proofs.SpaceGroupTables

/-! # The product of the crate on the space-group tables -/

set_option autoImplicit false

namespace CrystSymm

open PointGroup SymmetryAnalyzer

/-- the product of the crate. -/
def crateZ (a b : ZOp) : ZOp := (a.1 * b.1, ((b.1 * a.2 : Vec3 ℤ) + b.2).map fun x => x % 12)

/-- the space groups whose operations are not closed under the product of the crate. -/
def crateBad : List ℕ :=
  [91, 92, 95, 96, 151, 152, 153, 154, 178, 179, 180, 181, 198, 199, 205, 206, 212, 213, 214, 220, 230]

/-- for the good groups: translations are the same for both orders of a product with a generator; for the bad ones: some
product is not in the table. -/
def crateCheck (p : ℕ × List ℕ) : Bool :=
  let ops := groupZ p
  if crateBad.contains p.1 then
    let ks := ops.map keyZ
    ops.any fun a => ops.any fun b => !ks.contains (keyZ (crateZ a b))
  else (((amapGet? sgGens p.1).getD []).map (opZ (aCent p.1))).all fun g =>
    ops.all fun x => decide ((mulZ g x).2 = (mulZ x g).2)

set_option maxRecDepth 100000 in
theorem crate_checked : (sgNumToFullMatrices.all fun p => p.2.all fun q => q.2.all crateCheck) = true := by
  decide +kernel

theorem emod_lin (a b c x y z t n : ℤ) :
    (a * (x % n) + b * (y % n) + c * (z % n) + t) % n = (a * x + b * y + c * z + t) % n := by
  rw [Int.emod_eq_emod_iff_emod_sub_eq_zero, ← Int.dvd_iff_emod_eq_zero]
  refine ⟨-(a * (x / n) + b * (y / n) + c * (z / n)), ?_⟩
  have hx := Int.emod_add_mul_ediv x n
  have hy := Int.emod_add_mul_ediv y n
  have hz := Int.emod_add_mul_ediv z n
  linear_combination a * hx + b * hy + c * hz

theorem mulZ_assoc (a b c : ZOp) : mulZ (mulZ a b) c = mulZ a (mulZ b c) := by
  refine Prod.ext (mul_assoc a.1 b.1 c.1) ?_
  simp only [mulZ]
  ext <;> simp only [Vec3.map, Vec3.add_x, Vec3.add_y, Vec3.add_z, Mat3.mulVec_x, Mat3.mulVec_y, Mat3.mulVec_z,
    Mat3.mul_m11, Mat3.mul_m12, Mat3.mul_m13, Mat3.mul_m21, Mat3.mul_m22, Mat3.mul_m23, Mat3.mul_m31, Mat3.mul_m32,
    Mat3.mul_m33, emod_lin]
  all_goals
    rw [Int.add_emod, Int.emod_emod, ← Int.add_emod]
    congr 1
    ring

theorem closedZ {gens ops : List ZOp} (h : sgCheck gens ops = true) :
    ∀ a ∈ ops, ∀ b ∈ ops, mulZ a b ∈ ops := by
  unfold sgCheck at h
  simp only [Bool.and_eq_true, decide_eq_true_eq, List.all_eq_true] at h
  obtain ⟨⟨⟨⟨-, -⟩, hm⟩, -⟩, hb⟩ := h
  have hS : ∀ g ∈ gens, ∀ b ∈ ops, mulZ g b ∈ ops := fun g hg b hb' => hasZ_spec (hm g hg b hb')
  obtain ⟨l, hl, hPl⟩ := bfs_ind (gens := gens) (P := fun a => ∀ b ∈ ops, mulZ a b ∈ ops)
    (fun g hg x hx b hb' => by rw [mulZ_assoc]; exact hS g hg _ (hx b hb')) 60 gens gens hS hS
  intro a ha
  have := hb a ha
  rw [hl] at this
  exact hPl a (hasZ_spec this)

theorem classZ {gens ops : List ZOp} (h : sgCheck gens ops = true)
    (hc : ∀ g ∈ gens, ∀ x ∈ ops, (mulZ g x).2 = (mulZ x g).2) :
    ∀ a ∈ ops, ∀ b ∈ ops, (mulZ a b).2 = (mulZ b a).2 := by
  have hcl := closedZ h
  unfold sgCheck at h
  simp only [Bool.and_eq_true, decide_eq_true_eq, List.all_eq_true] at h
  obtain ⟨⟨⟨⟨-, -⟩, -⟩, hi⟩, hb⟩ := h
  have hg : ∀ g ∈ gens, g ∈ ops := fun g hg => hasZ_spec (hi g hg).1
  obtain ⟨l, hl, hPl⟩ := bfs_ind (gens := gens) (P := fun a => a ∈ ops ∧ ∀ b ∈ ops, (mulZ a b).2 = (mulZ b a).2)
    (fun g hg' x ⟨hx, hx'⟩ => ⟨hcl g (hg g hg') x hx, fun b hb' => by
      rw [mulZ_assoc, hc g hg' _ (hcl x hx b hb'), mulZ_assoc, hx' _ (hcl b hb' g (hg g hg')), mulZ_assoc]⟩)
    60 gens gens (fun g hg' => ⟨hg g hg', hc g hg'⟩) (fun g hg' => ⟨hg g hg', hc g hg'⟩)
  intro a ha
  have := hb a ha
  rw [hl] at this
  exact (hPl a (hasZ_spec this)).2

theorem crateZ_of_class {a b : ZOp} (h : (mulZ a b).2 = (mulZ b a).2) : crateZ a b = mulZ a b :=
  Prod.ext rfl h.symm

end CrystSymm
