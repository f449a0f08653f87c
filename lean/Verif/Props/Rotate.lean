import Verif.Spec.Rotate
import Verif.Props.CrystalSymm
import Verif.Props.Delaunay

set_option autoImplicit false
set_option linter.unusedSectionVars false

/-! # C72: the results do not depend on the orientation of the crystal -/

namespace CrystSymm

open Spec Structure Reducer SymmetryAnalyzer

variable {Q : Mat3 ℝ}

theorem rot_dot (hQ : Rotation Q) (u v : Vec3 ℝ) : (Q * u).dot (Q * v) = u.dot v := dotp_orthogonal hQ.1 u v

theorem rot_mag (hQ : Rotation Q) (v : Vec3 ℝ) : (Q * v).mag = v.mag := by
  rw [mag_eq, mag_eq, lenSq_orthogonal hQ.1]

theorem rot_cross (hQ : Rotation Q) (u v : Vec3 ℝ) : (Q * u).cross (Q * v) = Q * u.cross v := by
  obtain ⟨ho, hd⟩ := hQ
  -- `Qᵀ (Qu × Qv) = det Q (u × v)`
  have e : Q.transpose * (Q * u).cross (Q * v) = u.cross v := by
    have : Q.transpose * (Q * u).cross (Q * v) = Vec3.scale Q.det (u.cross v) := by
      ext <;> simp [Mat3.transpose, Vec3.cross, Vec3.scale, Mat3.det] <;> ring
    rw [this, hd]
    ext <;> simp [Vec3.scale]
  rw [← e, ← Mat3.mul_mulVec, orthogonal_right ho, Mat3.one_mulVec]

theorem rot_metric (hQ : Rotation Q) (L : Mat3 ℝ) : (Q * L).transpose * (Q * L) = L.transpose * L := by
  have e : (Q * L).transpose = L.transpose * Q.transpose := by
    ext <;> simp [Mat3.transpose] <;> ring
  have h1 : Q.transpose * Q = 1 := hQ.1
  rw [e, mul_assoc, ← mul_assoc Q.transpose, h1, one_mul]

theorem rot_det (hQ : Rotation Q) (L : Mat3 ℝ) : (Q * L).det = L.det := by rw [Mat3.det_mul, hQ.2, one_mul]

theorem rot_col0 (L : Mat3 ℝ) : (Q * L).col0 = Q * L.col0 := by ext <;> simp [Mat3.col0]
theorem rot_col1 (L : Mat3 ℝ) : (Q * L).col1 = Q * L.col1 := by ext <;> simp [Mat3.col1]
theorem rot_col2 (L : Mat3 ℝ) : (Q * L).col2 = Q * L.col2 := by ext <;> simp [Mat3.col2]
theorem rot_ofCols (a b c : Vec3 ℝ) : Mat3.ofCols (Q * a) (Q * b) (Q * c) = Q * Mat3.ofCols a b c := by
  ext <;> simp [Mat3.ofCols]

theorem rot_tols (hQ : Rotation Q) (L : Mat3 ℝ) (d : ℝ) : fracTols (Q * L) d = fracTols L d := by
  unfold fracTols
  rw [rot_col0, rot_col1, rot_col2, rot_mag hQ, rot_mag hQ, rot_mag hQ]

theorem toMatrix_transpose (a : Mat3 ℝ) : a.transpose.toMatrix = a.toMatrix.conjTranspose := by
  ext i j
  fin_cases i <;> fin_cases j <;> simp [Mat3.toMatrix, Mat3.transpose]

/-- the pseudo-inverse of the turned lattice. -/
theorem rot_pinv (hQ : Rotation Q) (L : Mat3 ℝ) : (FTrans.pinv (Q * L) : Mat3 ℝ) = FTrans.pinv L * Q.transpose := by
  apply toMatrix_injective
  rw [toMatrix_mul]
  show (Mat3.ofMatrix (pinvMatrix _ _)).toMatrix = (Mat3.ofMatrix (pinvMatrix _ _)).toMatrix * _
  rw [toMatrix_ofMatrix, toMatrix_ofMatrix]
  have hm : (Q * L).toMatrix.conjTranspose * (Q * L).toMatrix = L.toMatrix.conjTranspose * L.toMatrix := by
    rw [← toMatrix_transpose, ← toMatrix_transpose, ← toMatrix_mul, ← toMatrix_mul, rot_metric hQ]
  unfold pinvMatrix
  have key : ∀ (A B : Matrix (Fin 3) (Fin 3) ℝ) (hA : A.IsHermitian) (hB : B.IsHermitian) (f : ℝ → ℝ), A = B → hA.cfc f = hB.cfc f := by
    intro A B hA hB f e
    subst e
    rfl
  rw [key _ _ _ (Matrix.isHermitian_conjTranspose_mul_self L.toMatrix) _ hm, Matrix.mul_assoc]
  congr 1
  rw [toMatrix_mul, Matrix.conjTranspose_mul, toMatrix_transpose]

theorem rot_pinv_vec (hQ : Rotation Q) (L : Mat3 ℝ) (v : Vec3 ℝ) :
    (FTrans.pinv (Q * L) : Mat3 ℝ) * (Q * v) = (FTrans.pinv L : Mat3 ℝ) * v := by
  have h1 : Q.transpose * Q = 1 := hQ.1
  rw [rot_pinv hQ, Mat3.mul_mulVec, ← Mat3.mul_mulVec Q.transpose, h1, Mat3.one_mulVec]

theorem rot_pinv_mat (hQ : Rotation Q) (L M : Mat3 ℝ) :
    (FTrans.pinv (Q * L) : Mat3 ℝ) * (Q * M) = (FTrans.pinv L : Mat3 ℝ) * M := by
  have h1 : Q.transpose * Q = 1 := hQ.1
  rw [rot_pinv hQ, mul_assoc, ← mul_assoc Q.transpose, h1, one_mul]

theorem rot_frac (hQ : Rotation Q) (L : Mat3 ℝ) (l : List (Vec3 ℝ)) :
    getFracCoords (Q * L) (l.map (fun x : Vec3 ℝ => Q * x)) = getFracCoords L l := by
  unfold getFracCoords
  rw [List.map_map]
  exact List.map_congr_left fun v _ => rot_pinv_vec hQ L v

theorem rot_cart (L : Mat3 ℝ) (l : List (Vec3 ℝ)) :
    getCartCoords (Q * L) l = (getCartCoords L l).map (fun x : Vec3 ℝ => Q * x) := by
  unfold getCartCoords
  rw [List.map_map]
  exact List.map_congr_left fun v _ => Mat3.mul_mulVec Q L v

theorem rot_coincide (hQ : Rotation Q) (L : Mat3 ℝ) (tols : Vec3 ℝ) (d : ℝ) (x y : Vec3 ℝ) :
    sitesCoincide (Q * L) tols d x y = sitesCoincide L tols d x y := by
  unfold sitesCoincide
  simp only [Mat3.mul_mulVec, rot_mag hQ]

theorem rot_addSite (hQ : Rotation Q) (L : Mat3 ℝ) : addSite (Q * L) = addSite L := by
  funext tols d found x e
  unfold addSite
  simp only [rot_coincide hQ]

theorem rot_new (hQ : Rotation Q) (L : Mat3 ℝ) (sp : List String) (l : List (Vec3 ℝ)) :
    Structure.new (Q * L) sp (l.map (fun x : Vec3 ℝ => Q * x)) true = turned Q (Structure.new L sp l true) := by
  unfold Structure.new turned
  simp [rot_frac hQ]

theorem rot_new_frac (L : Mat3 ℝ) (sp : List String) (l : List (Vec3 ℝ)) :
    Structure.new (Q * L) sp l false = turned Q (Structure.new L sp l false) := by
  unfold Structure.new turned
  simp [rot_cart]

theorem zip_map_left' {α β γ : Type} (f : α → β) (l : List α) (m : List γ) :
    (l.map f).zip m = (l.zip m).map fun p => (f p.1, p.2) := by
  rw [List.zip_map_left]; rfl

theorem rot_normalize (hQ : Rotation Q) (s : Structure ℝ) (d : ℝ) :
    (turned Q s).normalizeCoords d = turned Q (s.normalizeCoords d) := by
  unfold Structure.normalizeCoords turned
  simp only [rot_tols hQ]
  set frac := normalizeFracVectors s.fracCoords (fracTols s.lattice d)
  set f : String × Vec3 ℝ × Vec3 ℝ → String × Vec3 ℝ × Vec3 ℝ := fun t => (t.1, Q * t.2.1, t.2.2) with hf
  have e1 : s.species.zip ((getCartCoords (Q * s.lattice) frac).zip frac)
      = (s.species.zip ((getCartCoords s.lattice frac).zip frac)).map f := by
    rw [rot_cart, zip_map_left', List.zip_map_right]
    rfl
  have e2 : sortBySpecies ((s.species.zip ((getCartCoords s.lattice frac).zip frac)).map f)
      = (sortBySpecies (s.species.zip ((getCartCoords s.lattice frac).zip frac))).map f := by
    unfold sortBySpecies
    rw [← List.map_mergeSort]
    intro a _ b _
    rfl
  rw [e1, e2]
  simp [hf, List.map_map, Function.comp_def]

theorem rot_sortByMag (hQ : Rotation Q) (l : List (Vec3 ℝ)) :
    sortByMag (l.map (fun x : Vec3 ℝ => Q * x)) = (sortByMag l).map (fun x : Vec3 ℝ => Q * x) := by
  unfold sortByMag
  rw [← List.map_mergeSort]
  intro a _ b _
  rw [rot_mag hQ, rot_mag hQ]

theorem rot_second (hQ : Rotation Q) (d : ℝ) (f : Vec3 ℝ) (l : List (Vec3 ℝ)) (n : ℕ) (c : Vec3 ℝ) :
    secondScan d (Q * f) (l.map (fun x : Vec3 ℝ => Q * x)) n (Q * c)
      = ((secondScan d f l n c).1, Q * (secondScan d f l n c).2) := by
  induction l generalizing n c with
  | nil => rfl
  | cons v l ih =>
    simp only [List.map_cons, secondScan, rot_cross hQ, rot_mag hQ, ih]
    split_ifs <;> rfl

theorem rot_third (hQ : Rotation Q) (d : ℝ) (c : Vec3 ℝ) (k : ℕ) (l : List (Vec3 ℝ)) (n : ℕ) :
    thirdScan d (Q * c) k (l.map (fun x : Vec3 ℝ => Q * x)) n = thirdScan d c k l n := by
  induction l generalizing n with
  | nil => rfl
  | cons v l ih => simp only [List.map_cons, thirdScan, rot_dot hQ, ih]

/-- three vectors turned. -/
def turn3 (Q : Mat3 ℝ) (t : Vec3 ℝ × Vec3 ℝ × Vec3 ℝ) : Vec3 ℝ × Vec3 ℝ × Vec3 ℝ := (Q * t.1, Q * t.2.1, Q * t.2.2)

theorem bind_ret_bind {α β γ : Type} (o : Outcome α) (f : α → β) (g : β → Outcome γ) :
    (o.bind fun a => .ret (f a)).bind g = o.bind fun a => g (f a) := by
  cases o <;> rfl

theorem bind_bind' {α β γ : Type} (o : Outcome α) (f : α → Outcome β) (g : β → Outcome γ) :
    (o.bind f).bind g = o.bind fun a => (f a).bind g := by
  cases o <;> rfl

theorem bind_congr' {α β : Type} {o : Outcome α} {f g : α → Outcome β} (h : ∀ a, f a = g a) : o.bind f = o.bind g := by
  cases o
  · exact h _
  · rfl
  · rfl

theorem ofOption_map {α β : Type} (m : String) (f : α → β) (o : Option α) :
    Outcome.ofOption m (o.map f) = (Outcome.ofOption m o).bind fun a => .ret (f a) := by
  cases o <;> rfl

theorem rot_shortest (hQ : Rotation Q) (d : ℝ) (l : List (Vec3 ℝ)) :
    getShortestTranslationVecs d (l.map (fun x : Vec3 ℝ => Q * x))
      = (getShortestTranslationVecs d l).bind fun t => .ret (turn3 Q t) := by
  unfold getShortestTranslationVecs
  simp only [rot_sortByMag hQ, List.getElem?_map, ofOption_map, bind_ret_bind, ← List.map_drop, List.length_map]
  rw [bind_bind']
  refine bind_congr' fun f => ?_
  have h0 : (0 : Vec3 ℝ) = Q * (0 : Vec3 ℝ) := (Mat3.mulVec_zero Q).symm
  have hs := rot_second hQ d f ((sortByMag l).drop 1) 0 0
  rw [← h0] at hs
  rw [hs]
  simp only [rot_third hQ]
  split_ifs
  · rfl
  · rw [bind_bind']
    refine bind_congr' fun g => ?_
    rw [bind_bind']
    rfl

theorem rot_translation (hQ : Rotation Q) (L : Mat3 ℝ) : isTranslation (Q * L) = isTranslation L := by
  funext tols d sites v
  unfold isTranslation
  simp only [rot_coincide hQ]

theorem rot_foldSites (hQ : Rotation Q) (L : Mat3 ℝ) : foldSites (Q * L) = foldSites L := by
  funext tols d sites
  unfold foldSites
  simp only [rot_addSite hQ]

/-- **C72, primitive cell.** The primitive cell of the turned structure is the turned primitive cell. -/
theorem C72_primitive_cell_turns (r : Reducer ℝ) (ord : List (String × ℕ) → List (String × ℕ)) (hQ : Rotation Q) (s : Structure ℝ) :
    r.findPrimitiveCell ord (turned Q s) = (r.findPrimitiveCell ord s).bind fun p => .ret (turned Q p) := by
  unfold findPrimitiveCell
  simp only [rot_normalize hQ]
  set t := s.normalizeCoords r.dtol
  have hl : (turned Q t).lattice = Q * t.lattice := rfl
  have hsp : (turned Q t).species = t.species := rfl
  have hfr : (turned Q t).fracCoords = t.fracCoords := rfl
  have hco : (turned Q t).coords = t.coords.map (fun x : Vec3 ℝ => Q * x) := rfl
  have hls : (turned Q s).lattice = Q * s.lattice := rfl
  have hmin : (turned Q t).getMinElement ord = t.getMinElement ord := rfl
  rw [hmin, hls]
  simp only [hl, hsp, hfr, hco, rot_tols hQ, rot_translation hQ, rot_cart, rot_foldSites hQ]
  rw [bind_bind']
  refine bind_congr' fun m => ?_
  rw [bind_bind']
  refine bind_congr' fun i => ?_
  rw [bind_bind']
  refine bind_congr' fun b => ?_
  rw [rot_shortest hQ, bind_ret_bind, bind_bind']
  refine bind_congr' fun v => ?_
  simp only [turn3, rot_pinv_vec hQ]
  rw [rot_shortest hQ, bind_ret_bind, bind_bind']
  refine bind_congr' fun w => ?_
  simp only [turn3, rot_ofCols, rot_frac hQ, rot_new_frac, rot_normalize hQ]
  rfl

theorem rot_volume (hQ : Rotation Q) (s : Structure ℝ) : (turned Q s).volume = s.volume := rot_det hQ _

theorem rot_rebuild (hQ : Rotation Q) (r : Reducer ℝ) (s : Structure ℝ) (L : Mat3 ℝ) :
    rebuild r (turned Q s) (Q * L) = turned Q (rebuild r s L) := by
  unfold rebuild
  have hsp : (turned Q s).species = s.species := rfl
  have hco : (turned Q s).coords = s.coords.map (fun x : Vec3 ℝ => Q * x) := rfl
  rw [hsp, hco, rot_frac hQ, rot_new_frac, rot_normalize hQ]

/-- **C72, Niggli reduction.** -/
theorem C72_niggli_turns (r : Reducer ℝ) (hQ : Rotation Q) (s : Structure ℝ) (tol : ℝ) :
    r.niggliReduce (turned Q s) tol = (r.niggliReduce s tol).bind fun p => .ret (turned Q p) := by
  unfold niggliReduce
  have hm : (turned Q s).metricTensor = s.metricTensor := rot_metric hQ _
  rw [rot_volume hQ, hm, bind_bind']
  refine bind_congr' fun st => ?_
  have hl : (turned Q s).lattice * st.trans = Q * (s.lattice * st.trans) := mul_assoc _ _ _
  rw [hl, rot_rebuild hQ]
  rfl

theorem rot_delaunayStep (p : Fin 4 × Fin 4) (d : Fin 4 → Vec3 ℝ) :
    delaunayStep p (fun i => Q * d i) = fun i => Q * delaunayStep p d i := by
  have hset : ∀ (d : Fin 4 → Vec3 ℝ) i v, setCol (fun i => Q * d i) i (Q * v) = fun j => Q * setCol d i v j := by
    intro d i v
    funext j
    unfold setCol
    split_ifs <;> rfl
  have hneg : ∀ v : Vec3 ℝ, Vec3.scale (-1) (Q * v) = Q * Vec3.scale (-1) v := by
    intro v
    ext <;> simp [Vec3.scale] <;> ring
  unfold delaunayStep
  simp only [List.foldl]
  have hstep : ∀ (d : Fin 4 → Vec3 ℝ) (i : Fin 4), (if p.1 = i ∨ p.2 = i then (fun i => Q * d i)
      else setCol (fun i => Q * d i) i (Q * d p.2 + Q * d i))
      = fun j => Q * (if p.1 = i ∨ p.2 = i then d else setCol d i (d p.2 + d i)) j := by
    intro d i
    split_ifs
    · rfl
    · rw [← Mat3.mulVec_add, hset]
  simp only [hstep, hneg, hset]

theorem rot_delaunayLoop (hQ : Rotation Q) (n count : ℕ) (d : Fin 4 → Vec3 ℝ) :
    delaunayLoop n count (fun i => Q * d i) = (delaunayLoop n count d).bind fun p => .ret (fun i => Q * p.1 i, p.2) := by
  have hs : ∀ d : Fin 4 → Vec3 ℝ, scalarProds (fun i => Q * d i) = scalarProds d := by
    intro d
    unfold scalarProds
    simp only [rot_dot hQ]
  induction n generalizing count d with
  | zero => rfl
  | succ n ih =>
    unfold delaunayLoop
    rw [hs]
    split_ifs
    · rw [bind_bind']
      refine bind_congr' fun p => ?_
      rw [rot_delaunayStep, ih]
    · rfl

theorem rot_triAcute (hQ : Rotation Q) (a b c d : Vec3 ℝ) : triAcute (Q * a) (Q * b) (Q * c) (Q * d) = Q * triAcute a b c d := by
  have hneg : ∀ v : Vec3 ℝ, Vec3.scale (-1) (Q * v) = Q * Vec3.scale (-1) v := by
    intro v
    ext <;> simp [Vec3.scale] <;> ring
  unfold triAcute
  simp only [rot_dot hQ, ← Mat3.mulVec_add, hneg, rot_ofCols]
  split_ifs <;> rfl

theorem rot_delaunayLattice (hQ : Rotation Q) (f : Bool) (d : Fin 4 → Vec3 ℝ) :
    delaunayLattice f (fun i => Q * d i) = (delaunayLattice f d).bind fun L => .ret (Q * L) := by
  unfold delaunayLattice
  split_ifs
  · have e : [Q * d 0, Q * d 1, Q * d 2, Q * d 3] = [d 0, d 1, d 2, d 3].map (fun x : Vec3 ℝ => Q * x) := rfl
    rw [e, rot_sortByMag hQ]
    have hlen : (sortByMag [d 0, d 1, d 2, d 3]).length = 4 := by unfold sortByMag; simp
    match h : sortByMag [d 0, d 1, d 2, d 3], hlen with
    | [a, b, c, d], _ =>
      simp only [List.map_cons, List.map_nil, rot_triAcute hQ]
      rfl
  · simp only [rot_ofCols]
    rfl

/-- **C72, Delaunay reduction.** -/
theorem C72_delaunay_turns (r : Reducer ℝ) (hQ : Rotation Q) (s : Structure ℝ) (full : Bool) :
    r.delaunayReduce (turned Q s) full = (r.delaunayReduce s full).bind fun p => .ret (turned Q p) := by
  unfold delaunayReduce
  have hm : (turned Q s).delaunayMatrix = fun i => Q * s.delaunayMatrix i := by
    funext i
    unfold delaunayMatrix turned
    fin_cases i
    · exact rot_col0 _
    · exact rot_col1 _
    · exact rot_col2 _
    · simp only [rot_col0, rot_col1, rot_col2]
      ext <;> simp [Vec3.scale] <;> ring
  rw [hm, rot_delaunayLoop hQ, bind_ret_bind, bind_bind']
  refine bind_congr' fun p => ?_
  simp only
  split_ifs
  · rfl
  · rw [rot_delaunayLattice hQ, bind_ret_bind, bind_bind']
    refine bind_congr' fun L => ?_
    rw [rot_rebuild hQ]
    rfl

theorem rot_character (hQ : Rotation Q) (s : Structure ℝ) (tol : ℝ) :
    getLatticeCharacter (turned Q s) tol = getLatticeCharacter s tol := by
  unfold getLatticeCharacter
  have hn : ∀ v : Vec3 ℝ, (Q * v).normSq = v.normSq := fun v => rot_dot hQ v v
  rw [rot_volume hQ]
  simp only [turned, rot_col0, rot_col1, rot_col2, rot_dot hQ, hn]

theorem rot_searchLoop (hQ : Rotation Q) (L : Mat3 ℝ) (tols : Vec3 ℝ) (d : ℝ) (T : Mat3 ℝ) (ratio : ℝ) (total : ℕ)
    (sites : List (Vec3 ℝ × String)) (fuel mult : ℕ) (found : List (Vec3 ℝ × String)) :
    searchLoop (Q * L) tols d T ratio total sites fuel mult found = searchLoop L tols d T ratio total sites fuel mult found := by
  have hp : ∀ mult found, searchPass (Q * L) tols d T mult sites found = searchPass L tols d T mult sites found := by
    intro mult found
    unfold searchPass
    simp only [rot_addSite hQ]
  induction fuel generalizing mult found with
  | zero => rfl
  | succ fuel ih => simp only [searchLoop, hp, ih]

/-- **C72, change of basis.** -/
theorem C72_transformation_turns (hQ : Rotation Q) (fuel : ℕ) (s : Structure ℝ) (T : Mat3 ℝ) (d : ℝ) :
    (turned Q s).applyTransformation fuel T d = (s.applyTransformation fuel T d).bind fun p => .ret (turned Q p) := by
  unfold applyTransformation
  have hl : (turned Q s).lattice = Q * s.lattice := rfl
  have hsp : (turned Q s).species = s.species := rfl
  have hfr : (turned Q s).fracCoords = s.fracCoords := rfl
  have hco : (turned Q s).coords.length = s.coords.length := List.length_map _
  simp only [hl, hsp, hfr, hco, rot_tols hQ, rot_searchLoop hQ]
  cases T.tryInverse with
  | none => rfl
  | some T' =>
    simp only
    rw [bind_bind']
    refine bind_congr' fun F => ?_
    rw [mul_assoc, rot_cart]
    exact congrArg Outcome.ret (rot_normalize hQ ⟨s.lattice * T, F.map Prod.snd, getCartCoords (s.lattice * T) (F.map Prod.fst), F.map Prod.fst⟩ d)

theorem rot_conv (hQ : Rotation Q) (s : Structure ℝ) :
    conventionalTransformationMatrix (turned Q s) = conventionalTransformationMatrix s := by
  unfold conventionalTransformationMatrix
  rw [rot_character hQ]

/-- **C72, standard structures.** The standard structures of the turned crystal are the turned standard structures. -/
theorem C72_standard_structures_turn (sa : SymmetryAnalyzer ℝ) (h : HashOrders ℝ) (fuel : ℕ) (hQ : Rotation Q) (s : Structure ℝ) :
    sa.getStandardConventionalStructure h fuel (turned Q s)
        = (sa.getStandardConventionalStructure h fuel s).bind (fun p => .ret (turned Q p)) ∧
      sa.getStandardPrimitiveStructure h fuel (turned Q s)
        = (sa.getStandardPrimitiveStructure h fuel s).bind (fun p => .ret (turned Q p)) := by
  unfold getStandardConventionalStructure getStandardPrimitiveStructure
  rw [C72_primitive_cell_turns _ _ hQ, bind_ret_bind, bind_ret_bind, bind_bind', bind_bind']
  constructor
  · refine bind_congr' fun prim => ?_
    rw [C72_niggli_turns _ hQ, bind_ret_bind, bind_bind']
    refine bind_congr' fun nig => ?_
    rw [rot_conv hQ, bind_bind']
    refine bind_congr' fun t => ?_
    exact C72_transformation_turns hQ _ _ _ _
  · refine bind_congr' fun prim => ?_
    rw [C72_niggli_turns _ hQ, bind_ret_bind, bind_bind']
    refine bind_congr' fun nig => ?_
    rw [rot_conv hQ, bind_bind']
    refine bind_congr' fun t => ?_
    simp only
    rw [C72_transformation_turns hQ, bind_ret_bind, bind_bind']
    refine bind_congr' fun conv => ?_
    rw [bind_bind']
    refine bind_congr' fun P => ?_
    exact C72_transformation_turns hQ _ _ _ _

theorem rot_ops (sa : SymmetryAnalyzer ℝ) (h : HashOrders ℝ) (fuel : ℕ) (hQ : Rotation Q) (s : Structure ℝ) (b : BravaisType) :
    sa.getPrimitiveSpaceGroupOps h fuel (turned Q s) b = sa.getPrimitiveSpaceGroupOps h fuel s b := by
  have hcs : ∀ L tols d, countStep h (Q * L) tols d = countStep h L tols d := by
    intro L tols d
    funext st t
    unfold countStep bumpCount
    simp only [rot_coincide hQ]
  have hops : ∀ L tols d n, opsForRotation h (Q * L) tols d n = opsForRotation h L tols d n := by
    intro L tols d n
    funext p
    unfold opsForRotation
    rw [hcs]
  unfold getPrimitiveSpaceGroupOps
  have hl : (turned Q s).lattice = Q * s.lattice := rfl
  have hfr : (turned Q s).fracCoords = s.fracCoords := rfl
  have hn : (turned Q s).numSites = s.numSites := rfl
  have hmin : (turned Q s).getMinElement h.minEle = s.getMinElement h.minEle := rfl
  simp only [hl, hfr, hn, hmin, rot_tols hQ, hops]

/-- **C72.** The answer of `get_space_group_info` -- number, symbol and operations, or the failure -- is the same for the structure
and for the structure turned by any rotation of space. -/
theorem C72_space_group_info_turns (sa : SymmetryAnalyzer ℝ) (h : HashOrders ℝ) (fuel : ℕ) (hQ : Rotation Q) (s : Structure ℝ) :
    sa.getSpaceGroupInfo h fuel (turned Q s) = sa.getSpaceGroupInfo h fuel s := by
  unfold getSpaceGroupInfo
  rw [C72_primitive_cell_turns _ _ hQ, bind_ret_bind]
  refine bind_congr' fun prim => ?_
  rw [C72_niggli_turns _ hQ, bind_ret_bind]
  refine bind_congr' fun nig => ?_
  rw [rot_conv hQ]
  refine bind_congr' fun t => ?_
  simp only
  rw [C72_transformation_turns hQ, bind_ret_bind]
  refine bind_congr' fun conv => ?_
  refine bind_congr' fun P => ?_
  rw [C72_transformation_turns hQ, bind_ret_bind]
  refine bind_congr' fun p => ?_
  rw [rot_ops _ _ _ hQ]
  have hl : ∀ s, (turned Q s).lattice = Q * s.lattice := fun _ => rfl
  have ht : ∀ a b : Structure ℝ, (turned Q a).getTransformationMatrix (turned Q b) = a.getTransformationMatrix b :=
    fun a b => rot_pinv_mat hQ _ _
  simp only [hl, rot_tols hQ, ht]

/-- **C72, cell parameters.** Lengths, angles, volume and metric tensor are those of the original; the reciprocal lattice is turned. -/
theorem C72_cell_parameters (hQ : Rotation Q) (s : Structure ℝ) :
    (turned Q s).a = s.a ∧ (turned Q s).b = s.b ∧ (turned Q s).c = s.c ∧ (turned Q s).alpha = s.alpha ∧
      (turned Q s).beta = s.beta ∧ (turned Q s).gamma = s.gamma ∧ (turned Q s).volume = s.volume ∧
      (turned Q s).metricTensor = s.metricTensor ∧
      (turned Q s).reciprocalLattice = s.reciprocalLattice.bind fun R => .ret (Q * R) := by
  have ha : (turned Q s).a = s.a := by unfold Structure.a turned; rw [rot_col0, rot_mag hQ]
  have hb : (turned Q s).b = s.b := by unfold Structure.b turned; rw [rot_col1, rot_mag hQ]
  have hc : (turned Q s).c = s.c := by unfold Structure.c turned; rw [rot_col2, rot_mag hQ]
  have hl : (turned Q s).lattice = Q * s.lattice := rfl
  refine ⟨ha, hb, hc, ?_, ?_, ?_, rot_volume hQ s, rot_metric hQ _, ?_⟩
  · unfold Structure.alpha; rw [hb, hc, hl, rot_col1, rot_col2, rot_dot hQ]
  · unfold Structure.beta; rw [ha, hc, hl, rot_col0, rot_col2, rot_dot hQ]
  · unfold Structure.gamma; rw [ha, hb, hl, rot_col0, rot_col1, rot_dot hQ]
  · unfold Structure.reciprocalLattice Mat3.tryInverse
    rw [hl, rot_det hQ]
    split_ifs with h
    · rfl
    · simp only [Outcome.bind]
      congr 1
      set R := (s.lattice.adjDiv s.lattice.det) with hR
      have h0 : s.lattice.det ≠ 0 := by simpa using h
      have e1 : (Q * s.lattice).adjDiv s.lattice.det = R * Q.transpose := by
        have hd : (Q * s.lattice).det ≠ 0 := by rw [rot_det hQ]; exact h0
        have i1 : (Q * s.lattice) * ((Q * s.lattice).adjDiv s.lattice.det) = 1 := by
          rw [← rot_det hQ s.lattice]; exact Mat3.mul_adjDiv hd
        have i2 : (Q * s.lattice) * (R * Q.transpose) = 1 := by
          rw [mul_assoc, ← mul_assoc s.lattice, hR, Mat3.mul_adjDiv h0, one_mul, orthogonal_right hQ.1]
        exact mat_mul_injective hd (i1.trans i2.symm)
      rw [e1]
      ext <;> simp [Mat3.transpose, Mat3.scale, Mat3.map] <;> ring

/-- the rotation by a right angle about the third axis. -/
def quarterTurn : Mat3 ℝ := ⟨0, -1, 0, 1, 0, 0, 0, 0, 1⟩

theorem quarterTurn_rotation : Rotation quarterTurn := by
  constructor
  · unfold Orthogonal quarterTurn
    ext <;> simp [Mat3.transpose]
  · simp [quarterTurn, Mat3.det]

/-- polonium turned by a right angle: 221 as well (the turned structure is not equal to the original one). -/
example (h : HashOrders ℝ) (hv : h.Valid) (atol : ℝ) : turned quarterTurn poCell ≠ poCell ∧ ∃ N, ∀ fuel ≥ N, ∃ (sym : String)
    (ops : List (SymmOp ℝ)),
    (⟨1 / 20, atol⟩ : SymmetryAnalyzer ℝ).getSpaceGroupInfo h fuel (turned quarterTurn poCell) = .ret (221, sym, ops) := by
  constructor
  · intro he
    have := congrArg (fun s => s.lattice.m11) he
    norm_num [turned, quarterTurn, poCell, Structure.new] at this
  · obtain ⟨N, hN⟩ := C56_right_angles (⟨1 / 20, atol⟩ : SymmetryAnalyzer ℝ) h hv poCell "Po" ⟨rfl, rfl⟩ (67 / 20) (67 / 20) (67 / 20) rfl
      le_rfl le_rfl (by norm_num) (by norm_num) (by norm_num) (by norm_num) (by norm_num)
    refine ⟨N, fun fuel hf => ?_⟩
    obtain ⟨num, sym, ops, g1, g2, g3, -⟩ := hN fuel hf
    have hpos : (0 : ℝ) ≤ eps tol1em5 (67 / 20 * (67 / 20) * (67 / 20)) := by
      unfold eps
      rw [tol1em5_real]
      positivity
    rw [sub_self, abs_zero, if_pos ⟨hpos, hpos⟩, Prod.mk.injEq] at g3
    obtain ⟨rfl, -⟩ := g3
    exact ⟨sym, ops, by rw [C72_space_group_info_turns _ _ _ quarterTurn_rotation]; exact g1⟩

end CrystSymm
