import Verif.Proofs.SpaceGroupTables
import Verif.Spec.Symbols
import Verif.Proofs.ChangeBasis
import Verif.Proofs.Centring

/-! # The symbols of the space groups, checked in integers -/

set_option autoImplicit false
set_option linter.unusedSectionVars false

namespace CrystSymm

open Spec PointGroup SymmetryAnalyzer

/-- the rotation in the conventional basis; `P` is a multiple of the basis of the primitive cell. -/
def convZ (P W : Mat3 ℤ) : Mat3 ℤ := (P * W * P.adjDiv 1).map fun x => x / P.det

def shiftsZ : List (Vec3 ℤ) :=
  [0, 1, -1].flatMap fun x => [0, 1, -1].flatMap fun y => [0, 1, -1].map fun z => ⟨x, y, z⟩

def rotationAboutZ (W : Mat3 ℤ) (n : ℕ) (d : Vec3 ℤ) : Bool :=
  decide (opType W = (1, rotTrace n)) && decide (W * d = d) &&
    (decide (n ≤ 2) || [(⟨1, 0, 0⟩ : Vec3 ℤ), ⟨0, 1, 0⟩, ⟨0, 0, 1⟩].any fun x => decide (0 < (Mat3.ofCols d x (W * x)).det))

/-- the operations: conventional rotation, primitive rotation, primitive translation in twelfths. -/
def convOpsZ (P : Mat3 ℤ) (ops : List ZOp) : List (Mat3 ℤ × ZOp) := ops.map fun o => (convZ P o.1, o)

/-- the translations in the conventional basis, in `1/(12 den)`. -/
def transConvZ (P : Mat3 ℤ) (t l : Vec3 ℤ) : Vec3 ℤ := P * (t + Vec3.scale 12 l : Vec3 ℤ)

def presentZ (P : Mat3 ℤ) (den : ℤ) (cops : List (Mat3 ℤ × ZOp)) (d : Vec3 ℤ) : Element → Bool
  | .axis n k => cops.any fun o => rotationAboutZ o.1 n d && shiftsZ.any fun l =>
      decide (orbitSum o.1 n (transConvZ P o.2.2 l) = Vec3.scale (12 * den * k) d)
  | .roto n => cops.any fun o => rotationAboutZ (negMat o.1) n d
  | .plane c => (glideSets c d).any fun S => S.all fun g => cops.any fun o => rotationAboutZ (negMat o.1) 2 d &&
      shiftsZ.any fun l =>
        let u := transConvZ P o.2.2 l
        decide (u + o.1 * u = Vec3.scale (6 * den) g)

def nothingAlongZ (cops : List (Mat3 ℤ × ZOp)) (d : Vec3 ℤ) : Bool :=
  cops.all fun o => (decide (o.1.det = 1) || decide (o.1.det = -1)) &&
    (decide (o.1.det ≠ 1) || decide (o.1 * d ≠ d) || decide (o.1 = 1)) &&
    (decide (o.1.det ≠ -1) || decide (negMat o.1 * d ≠ d) || decide (negMat o.1 = 1))

def componentFitsZ (P : Mat3 ℤ) (den : ℤ) (cops : List (Mat3 ℤ × ZOp)) (dirs : List (Vec3 ℤ)) (c : List Element) : Bool :=
  if c = [.axis 1 0] then dirs.all (nothingAlongZ cops) else dirs.any fun d => c.all (presentZ P den cops d)

def symbolFitsZ (num : ℕ) (ops : List ZOp) (P : Mat3 ℤ) (den : ℤ) (rest : List Char) : Bool :=
  let cops := convOpsZ P ops
  let comps := components rest
  let dirs := directions num
  cops.all (fun o => decide (o.1 * P = P * o.2.1)) &&
  decide (classOf num = some (classSymbol rest)) &&
  (comps.drop dirs.length).all (fun c => decide (c = [.axis 1 0]) && ops.any fun o => decide (o.1 = negMat 1)) &&
  (dirs.zip comps).all (fun p => componentFitsZ P den cops p.1 p.2) &&
  (dirs.drop comps.length).all fun ds => ds.all (nothingAlongZ cops)

/-- the primitive basis for a lattice letter: the matrix of the table; for `A` with the axes permuted as the operations
are. -/
def basisZ (letter : Char) : Mat3 ℤ × ℤ :=
  if letter = 'A' then (⟨0, 0, 2, 1, -1, 0, 1, 1, 0⟩, 2)
  else
    match ([Centering.P, .B, .C, .I, .F, .R].find? fun c => centringLetter c = letter).bind
      (amapGet? centeringToPrimTrans) with
    | some m => m
    | none => (1, 1)

def entrySymbolOk (e : ℕ × List ℕ) : Bool :=
  match (amapGet? sgNumToSymbol e.1).map String.toList with
  | some (letter :: rest) => symbolFitsZ e.1 (groupZ e) (basisZ letter).1 (basisZ letter).2 rest
  | _ => false

section
variable {K : Type} [Field K] [LinearOrder K] [IsStrictOrderedRing K] [FloorRing K]

/-- an integer vector over `K`. -/
def vecZ (K : Type) [Field K] (v : Vec3 ℤ) : Vec3 K := v.map fun x : ℤ => (x : K)

theorem vecZ_mul (W : Mat3 ℤ) (v : Vec3 ℤ) : vecZ K (W * v) = overK K W * vecZ K v := by
  ext <;> simp [vecZ, overK, Vec3.map, Mat3.map]

theorem vecZ_add (u v : Vec3 ℤ) : vecZ K (u + v) = vecZ K u + vecZ K v := by
  ext <;> simp [vecZ, Vec3.map]

theorem mul_scaleV (A : Mat3 K) (s : K) (v : Vec3 K) : A * Vec3.scale s v = Vec3.scale s (A * v) := by
  ext <;> simp [Vec3.scale] <;> ring

theorem scale_addV (s : K) (u v : Vec3 K) : Vec3.scale s (u + v) = Vec3.scale s u + Vec3.scale s v := by
  ext <;> simp [Vec3.scale] <;> ring

theorem orbitSum_vecZ (W : Mat3 ℤ) (s : K) (u : Vec3 ℤ) : ∀ n : ℕ,
    orbitSum (overK K W) n (Vec3.scale s (vecZ K u)) = Vec3.scale s (vecZ K (orbitSum W n u))
  | 0 => by ext <;> simp [orbitSum, vecZ, Vec3.scale, Vec3.map]
  | n + 1 => by
    rw [orbitSum, orbitSum_vecZ W s u n, mul_scaleV, ← vecZ_mul, ← scale_addV, ← vecZ_add]
    rfl

theorem inBasis_prim {P W Q : Mat3 ℤ} (den : ℤ) (h : W * P = P * Q) : InBasis (primMatrix (P, den) : Mat3 K) W Q := by
  have h' : overK K W * overK K P = overK K P * overK K Q := by rw [← overK_mul, h, overK_mul]
  have e : (primMatrix (P, den) : Mat3 K) = (overK K P).divS (den : K) := rfl
  unfold InBasis
  rw [e]
  have l : overK K W * (overK K P).divS (den : K) = (overK K W * overK K P).divS (den : K) := by
    ext <;> simp [Mat3.divS, Mat3.map] <;> ring
  have r : (overK K P).divS (den : K) * overK K Q = (overK K P * overK K Q).divS (den : K) := by
    ext <;> simp [Mat3.divS, Mat3.map] <;> ring
  rw [l, r, h']

theorem trans_prim (P : Mat3 ℤ) {den : ℤ} (hd : den ≠ 0) (o : ZOp) (l : Vec3 ℤ) :
    (primMatrix (P, den) : Mat3 K) * ((toK K o).2 + l.map fun x : ℤ => (x : K)) =
      Vec3.scale (1 / (12 * den : K)) (vecZ K (transConvZ P o.2 l)) := by
  have hd' : (den : K) ≠ 0 := by exact_mod_cast hd
  have h12 : (12 : K) ≠ 0 := by norm_num
  ext <;> simp [primMatrix, toK, vecZ, transConvZ, Vec3.scale, Vec3.map, Mat3.map, Mat3.divS, lit] <;> field_simp

theorem rotationAboutZ_spec {W : Mat3 ℤ} {n : ℕ} {d : Vec3 ℤ} (h : rotationAboutZ W n d = true) : RotationAbout W n d := by
  unfold rotationAboutZ at h
  simp only [Bool.and_eq_true, Bool.or_eq_true, decide_eq_true_eq, List.any_eq_true] at h
  obtain ⟨⟨h1, h2⟩, h3⟩ := h
  refine ⟨h1, h2, h3.imp id ?_⟩
  rintro ⟨x, -, hx⟩
  exact ⟨x, hx⟩

variable {P : Mat3 ℤ} {den : ℤ} {ops : List ZOp}

theorem convOp_of_mem (hd : den ≠ 0) (hb : ∀ o ∈ convOpsZ P ops, o.1 * P = P * o.2.1) {o : Mat3 ℤ × ZOp}
    (ho : o ∈ convOpsZ P ops) (l : Vec3 ℤ) : ConvOp (ops.map (toK K)) (primMatrix (P, den)) o.1
      (Vec3.scale (1 / (12 * den : K)) (vecZ K (transConvZ P o.2.2 l))) := by
  have hb' := hb o ho
  unfold convOpsZ at ho
  obtain ⟨q, hq, rfl⟩ := List.mem_map.1 ho
  exact ⟨toK K q, List.mem_map_of_mem hq, l, inBasis_prim den hb', (trans_prim P hd q l).symm⟩

theorem presentZ_spec (hd : den ≠ 0) (hb : ∀ o ∈ convOpsZ P ops, o.1 * P = P * o.2.1) {d : Vec3 ℤ} {e : Element}
    (h : presentZ P den (convOpsZ P ops) d e = true) : Present (ops.map (toK K)) (primMatrix (P, den)) d e := by
  have hd' : (den : K) ≠ 0 := by exact_mod_cast hd
  have h12 : (12 : K) ≠ 0 := by norm_num
  cases e with
  | axis n k =>
    simp only [presentZ, List.any_eq_true, Bool.and_eq_true, decide_eq_true_eq] at h
    obtain ⟨o, ho, hr, l, -, hl⟩ := h
    refine ⟨o.1, _, convOp_of_mem hd hb ho l, rotationAboutZ_spec hr, ?_⟩
    rw [orbitSum_vecZ, hl]
    ext <;> simp [vecZ, Vec3.scale, Vec3.map] <;> field_simp
  | roto n =>
    simp only [presentZ, List.any_eq_true] at h
    obtain ⟨o, ho, hr⟩ := h
    exact ⟨o.1, _, convOp_of_mem hd hb ho 0, rotationAboutZ_spec hr⟩
  | plane c =>
    simp only [presentZ, List.any_eq_true, List.all_eq_true, Bool.and_eq_true, decide_eq_true_eq] at h
    obtain ⟨S, hS, h⟩ := h
    refine ⟨S, hS, fun g hg => ?_⟩
    obtain ⟨o, ho, hr, l, -, hl⟩ := h g hg
    refine ⟨o.1, _, convOp_of_mem hd hb ho l, rotationAboutZ_spec hr, ?_⟩
    rw [mul_scaleV, ← vecZ_mul, ← scale_addV, ← vecZ_add, hl]
    ext <;> simp [vecZ, Vec3.scale, Vec3.map] <;> field_simp <;> ring

theorem nothingAlongZ_spec (hb : ∀ o ∈ convOpsZ P ops, o.1 * P = P * o.2.1) {d : Vec3 ℤ}
    (h : nothingAlongZ (convOpsZ P ops) d = true) : NothingAlong (ops.map (toK K)) (primMatrix (P, den)) d := by
  intro q hq
  obtain ⟨z, hz, rfl⟩ := List.mem_map.1 hq
  have hm : (convZ P z.1, z) ∈ convOpsZ P ops := List.mem_map_of_mem hz
  have h' := List.all_eq_true.1 h _ hm
  simp only [Bool.and_eq_true, Bool.or_eq_true, decide_eq_true_eq] at h'
  exact ⟨convZ P z.1, inBasis_prim den (hb _ hm), h'.1.1, by tauto, by tauto⟩

theorem componentFitsZ_spec (hd : den ≠ 0) (hb : ∀ o ∈ convOpsZ P ops, o.1 * P = P * o.2.1) {dirs : List (Vec3 ℤ)}
    {c : List Element} (h : componentFitsZ P den (convOpsZ P ops) dirs c = true) :
    ComponentFits (ops.map (toK K)) (primMatrix (P, den)) dirs c := by
  unfold componentFitsZ at h
  unfold ComponentFits
  split at h
  · rw [if_pos (by assumption)]
    intro d hdm
    exact nothingAlongZ_spec hb (List.all_eq_true.1 h d hdm)
  · rw [if_neg (by assumption)]
    rw [List.any_eq_true] at h
    obtain ⟨d, hdm, h⟩ := h
    exact ⟨d, hdm, fun e he => presentZ_spec hd hb (List.all_eq_true.1 h e he)⟩

theorem symbolFitsZ_spec {num : ℕ} {rest : List Char} (hd : den ≠ 0) (h : symbolFitsZ num ops P den rest = true) :
    SymbolFits num (ops.map (toK K)) (primMatrix (P, den)) rest := by
  unfold symbolFitsZ at h
  simp only [Bool.and_eq_true, List.all_eq_true, decide_eq_true_eq] at h
  obtain ⟨⟨⟨⟨hb, h1⟩, h2⟩, h3⟩, h4⟩ := h
  refine ⟨h1, ?_, fun p hp => componentFitsZ_spec hd hb (h3 p hp), fun ds hds d hdm => nothingAlongZ_spec hb (h4 ds hds d hdm)⟩
  intro c hc
  obtain ⟨e, h⟩ := h2 c hc
  rw [List.any_eq_true] at h
  obtain ⟨o, ho, h⟩ := h
  rw [decide_eq_true_eq] at h
  exact ⟨e, toK K o, List.mem_map_of_mem ho, h⟩

end

end CrystSymm
