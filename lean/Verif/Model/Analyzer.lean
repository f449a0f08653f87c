import Verif.Model.Reduce
import Verif.Model.SpaceGroup
import Verif.Data.Core
import Verif.Data.SpaceGroup

set_option autoImplicit false

/-! # Model of src/analyzer.rs -/

namespace CrystSymm

/-- `SymmetryAnalyzer` (src/analyzer.rs:17-20). -/
structure SymmetryAnalyzer (K : Type) where
  dtol : K
  atol : K

/-- The hash iteration orders met by one call: every field is an arbitrary listing order. -/
structure HashOrders (K : Type) where
  /-- `type_count` inside `get_min_element` (src/structure.rs:320) -/
  minEle : List (String × Nat) → List (String × Nat)
  /-- `HashSet<Matrix3<i8>>` inside `generate_operations` (src/pointgroup.rs:67, 78) -/
  pointOps : HashOrd (Mat3 Int8)
  /-- `ele_inds.iter()` (src/analyzer.rs:204) -/
  eleInds : List (String × Nat) → List (String × Nat)
  /-- `op_trans_vecs.iter()` (src/analyzer.rs:229) -/
  opVecs : List (Mat3 Int8 × List (Vec3 K)) → List (Mat3 Int8 × List (Vec3 K))
  /-- `translation_counts.iter_mut()` / `.into_iter()` (src/analyzer.rs:241, 266) -/
  counts : HashOrd (Vec3 Int × Nat)
  /-- `candidate_groups.iter()` (src/analyzer.rs:104) -/
  groups : List (Nat × List Nat) → List (Nat × List Nat)

/-- every order lists exactly the elements of the container. -/
structure HashOrders.Valid {K : Type} (h : HashOrders K) : Prop where
  minEle : ∀ l, (h.minEle l).Perm l
  pointOps : IsHashOrd h.pointOps
  eleInds : ∀ l, (h.eleInds l).Perm l
  opVecs : ∀ l, (h.opVecs l).Perm l
  counts : IsHashOrd h.counts
  groups : ∀ l, (h.groups l).Perm l

namespace SymmetryAnalyzer

section
variable {K : Type} [Add K] [Sub K] [Mul K] [Div K] [Neg K] [Zero K] [One K] [IntCast K]
  [LT K] [LE K] [DecidableLT K] [DecidableLE K] [BEq K] [FRound K] [FTrans K]

/-! ## Lattice characters -/

/-- `extra_eval_a` (src/analyzer.rs:423-425). -/
def extraEvalA (a b d e f : K) (eps : Option K) : Bool :=
  Reducer.eqE eps (FRound.abs (d + e + f) * lit 2) (a + b)

/-- `extra_eval_b` (src/analyzer.rs:427-431). -/
def extraEvalB (a b d e f : K) (eps : Option K) : Bool :=
  Reducer.eqE eps (FRound.abs (d + e + f) * lit 2) (a + b)
    && Reducer.eqE eps (FRound.abs (lit 2 * d + f)) b

/-- `get_first_set` (src/analyzer.rs:434-459). -/
def getFirstSet (typeI : Bool) (a b d e f : K) (eps : Option K) : List (Vec3 K × Nat) :=
  if typeI then
    [(Vec3.divS ⟨a, a, a⟩ (lit 2), 1), (⟨d, d, d⟩, 2)]
  else
    [(⟨0, 0, 0⟩, 3), (Vec3.divS ⟨a, a, a⟩ (lit (-3)), 5), (⟨d, d, d⟩, 4)] ++
      (if extraEvalA a b d e f eps then [(⟨d, d, f⟩, 6), (⟨d, e, e⟩, 7), (⟨d, e, f⟩, 8)] else [])

/-- `get_second_set` (src/analyzer.rs:462-487). -/
def getSecondSet (typeI : Bool) (a b d e f : K) (eps : Option K) : List (Vec3 K × Nat) :=
  if typeI then
    [(Vec3.divS ⟨a, a, a⟩ (lit 2), 9), (⟨d, d, f⟩, 10)]
  else
    [(⟨0, 0, 0⟩, 11), (Vec3.divS ⟨0, 0, a⟩ (lit (-2)), 12), (⟨0, 0, f⟩, 13),
     (Vec3.divS ⟨a, a, 0⟩ (lit (-2)), 15), (⟨d, d, f⟩, 14)] ++
      (if extraEvalA a b d e f eps then [(⟨d, e, f⟩, 17)] else [])

/-- `get_third_set` (src/analyzer.rs:490-515). -/
def getThirdSet (typeI : Bool) (a b d e f : K) (eps : Option K) : List (Vec3 K × Nat) :=
  if typeI then
    [(⟨a / lit 4, a / lit 2, a / lit 2⟩, 18), (⟨d, a / lit 2, a / lit 2⟩, 19), (⟨d, e, e⟩, 20)]
  else
    [(⟨0, 0, 0⟩, 21), (Vec3.divS ⟨b, 0, 0⟩ (lit (-2)), 22), (⟨d, 0, 0⟩, 23)] ++
      (if extraEvalA a b d e f eps then [(⟨d, a / lit (-3), a / lit (-3)⟩, 24)] else []) ++
      [(⟨d, e, e⟩, 25)]

/-- `get_fourth_set` (src/analyzer.rs:518-551). -/
def getFourthSet (typeI : Bool) (a b d e f : K) : List (Vec3 K × Nat) :=
  if typeI then
    [(⟨a / lit 4, a / lit 2, a / lit 2⟩, 26), (⟨d, a / lit 2, a / lit 2⟩, 27),
     (⟨d, a / lit 2, d * lit 2⟩, 28), (⟨d, d * lit 2, a / lit 2⟩, 29),
     (⟨b / lit 2, e, e * lit 2⟩, 30), (⟨d, e, f⟩, 31)]
  else
    [(⟨0, 0, 0⟩, 32), (Vec3.divS ⟨b, 0, 0⟩ (lit (-2)), 40), (⟨d, 0, 0⟩, 35),
     (Vec3.divS ⟨0, a, 0⟩ (lit (-2)), 36), (⟨0, e, 0⟩, 33),
     (Vec3.divS ⟨0, 0, a⟩ (lit (-2)), 38), (⟨0, 0, f⟩, 34),
     (Vec3.divS ⟨b, a, 0⟩ (lit (-2)), 42), (⟨b / lit (-2), e, 0⟩, 41),
     (⟨d, a / lit (-2), 0⟩, 37), (⟨d, 0, a / lit (-2)⟩, 39), (⟨d, e, f⟩, 44)]

/-- the test of src/analyzer.rs:400-403. -/
def defMatches (eps : Option K) (v def_ : Vec3 K) : Bool :=
  Reducer.eqE eps v.x def_.x && Reducer.eqE eps v.y def_.y && Reducer.eqE eps v.z def_.z

/-- the decision part of `get_lattice_character` (src/analyzer.rs:378-420) as a function of the six
scalar products of the reduced cell. -/
def characterOf (eps : Option K) (a b c d e f : K) : Outcome Nat :=
  let typeI := Reducer.isTypeI eps [d, e, f]
  let vecs :=
    if Reducer.eqE eps a b && Reducer.eqE eps a c then getFirstSet typeI a b d e f eps
    else if Reducer.eqE eps a b then getSecondSet typeI a b d e f eps
    else if Reducer.eqE eps b c then getThirdSet typeI a b d e f eps
    else getFourthSet typeI a b d e f
  let charNum := ((vecs.find? fun p => defMatches eps p.1 ⟨d, e, f⟩).map Prod.snd).getD 0
  let charNum :=
    if charNum = 14 ∧ extraEvalA a b d e f eps then charNum + 2
    else if charNum = 44 ∧ extraEvalB a b d e f eps then charNum - 1
    else charNum
  if charNum ≠ 0 then .ret charNum
  else .panic "Cannot find lattice character of input structure!"

/-- `get_lattice_character` (src/analyzer.rs:363-421). -/
def getLatticeCharacter (s : Structure K) (tol : K) : Outcome Nat :=
  let av := s.lattice.col0
  let bv := s.lattice.col1
  let cv := s.lattice.col2
  characterOf (Reducer.epsilonOf tol s.volume) av.normSq bv.normSq cv.normSq
    (bv.dot cv) (av.dot cv) (av.dot bv)

/-- the literal `1e-5`. -/
def tol1em5 : K := lit 1 / lit 100000

/-- `conventional_transformation_matrix` (src/analyzer.rs:347-360). -/
def conventionalTransformationMatrix (s : Structure K) : Outcome (Mat3 K × Nat) :=
  (getLatticeCharacter s tol1em5).bind fun ch =>
  (Outcome.ofOption "Could not find the appropriate conventional transformation matrix!"
    (amapGet? latticeCharToConvTrans ch)).bind fun m =>
  .ret ((castRot m).transpose, ch)

/-- `Matrix3::from(float_mat.fixed_slice::<3, 3>(0, 0)) / float_mat.m44`
(src/analyzer.rs:184-187, 320-323). -/
def primMatrix (m : Mat3 Int × Int) : Mat3 K := (m.1.map fun e => lit e).divS (lit m.2)

/-- `primitive_transformation_matrix` (src/analyzer.rs:308-326). -/
def primitiveTransformationMatrix (ch : Nat) : Outcome (Mat3 K × BravaisType) :=
  (Outcome.ofOption "Could not find the appropriate lattice character or bravais symbol!"
    (amapGet? latticeCharToBravais ch)).bind fun bravais =>
  (Outcome.ofOption "Problem determining centering." bravais.centering?).bind fun centering =>
  (Outcome.ofOption "Could not find the appropriate primitive transformation matrix!"
    (amapGet? centeringToPrimTrans centering)).bind fun m =>
  .ret (primMatrix m, bravais)

/-! ## Standard structures -/

/-- the `Reducer` with the analyzer's tolerances (src/analyzer.rs:29-32, 287-290, 331-334). -/
def reducer (sa : SymmetryAnalyzer K) : Reducer K := ⟨sa.dtol, sa.atol⟩

/-- `get_standard_conventional_structure` (src/analyzer.rs:330-345). -/
def getStandardConventionalStructure (sa : SymmetryAnalyzer K) (h : HashOrders K) (fuel : Nat)
    (s : Structure K) : Outcome (Structure K) :=
  (sa.reducer.findPrimitiveCell h.minEle s).bind fun prim =>
  (sa.reducer.niggliReduce prim tol1em5).bind fun reduced =>
  (conventionalTransformationMatrix reduced).bind fun (transMat, _) =>
  reduced.applyTransformation fuel transMat sa.dtol

/-- `get_standard_primitive_structure` (src/analyzer.rs:286-306). -/
def getStandardPrimitiveStructure (sa : SymmetryAnalyzer K) (h : HashOrders K) (fuel : Nat)
    (s : Structure K) : Outcome (Structure K) :=
  (sa.reducer.findPrimitiveCell h.minEle s).bind fun prim =>
  (sa.reducer.niggliReduce prim tol1em5).bind fun reduced =>
  (conventionalTransformationMatrix reduced).bind fun (transMat, ch) =>
  (reduced.applyTransformation fuel transMat sa.dtol).bind fun conv =>
  (primitiveTransformationMatrix (K := K) ch).bind fun (primTransMat, _) =>
  conv.applyTransformation fuel primTransMat sa.dtol

/-! ## Space-group operations of the standard primitive cell -/

/-- `frac_coords[start..end]` by index, with bounds checks (src/analyzer.rs:205-213). -/
def siteRange (frac : List (Vec3 K)) (start count : Nat) : Outcome (List (Vec3 K)) :=
  mapOutcome (fun i => Outcome.ofOption "index out of bounds" frac[i]?)
    (List.range' start ((start + count) % 65536 - start))

/-- candidate translations of one rotation (src/analyzer.rs:200-220). -/
def candidateTranslations (tols : Vec3 K) (frac : List (Vec3 K)) (inds counts : List (String × Nat))
    (op : Mat3 Int8) : Outcome (List (Vec3 K)) :=
  let floatOp : Mat3 K := castRot op
  (mapOutcome (fun p : String × Nat =>
    (Outcome.ofOption "called `Option::unwrap()` on a `None` value" (amapGet? counts p.1)).bind
      fun count =>
    (siteRange frac p.2 count).bind fun sites =>
    .ret (sites.flatMap fun ca => sites.map fun cb => normFracVec tols (cb - floatOp * ca)))
    inds).bind fun ls => .ret ls.flatten

/-- `(x * INT_CONVERSION_MULT) as i64` (src/analyzer.rs:233-237). -/
def toIntVec (v : Vec3 K) : Vec3 Int := v.map fun x => FRound.toI64 (x * intConversionMult)

/-- `x as f64 / INT_CONVERSION_MULT` (src/analyzer.rs:242-244, 268-272). -/
def ofIntVec (v : Vec3 Int) : Vec3 K := v.map fun x => lit x / intConversionMult

/-- increment the first matching counter in the listed order (src/analyzer.rs:241-257); `none` =
no match. -/
def bumpCount (lattice : Mat3 K) (tols : Vec3 K) (dtol : K) (translation : Vec3 K)
    (listed : List (Vec3 Int × Nat)) : Option (Vec3 Int) :=
  (listed.find? fun p =>
    Structure.sitesCoincide lattice tols dtol translation (ofIntVec p.1)).map Prod.fst

/-- one candidate translation (src/analyzer.rs:232-262); the first component counts iterations and
only selects the hash order. -/
def countStep (h : HashOrders K) (lattice : Mat3 K) (tols : Vec3 K) (dtol : K)
    (st : Nat × List (Vec3 Int × Nat)) (translation : Vec3 K) : Nat × List (Vec3 Int × Nat) :=
  match bumpCount lattice tols dtol translation (h.counts st.1 st.2) with
  | some k => (st.1 + 1, amapUpsert st.2 k 0 fun n => n + 1)
  | none => (st.1 + 1, amapUpsert st.2 (toIntVec translation) 1 fun _ => 1)

/-- operations found for one rotation (src/analyzer.rs:230-279). -/
def opsForRotation (h : HashOrders K) (lattice : Mat3 K) (tols : Vec3 K) (dtol : K) (numSites : Nat)
    (p : Mat3 Int8 × List (Vec3 K)) : List (SymmOp K) :=
  let st := p.2.foldl (countStep h lattice tols dtol) (0, [])
  (h.counts st.1 st.2).filterMap fun q =>
    if q.2 = numSites then some ⟨p.1, ofIntVec q.1⟩ else none

/-- holohedry of a Bravais type in the standard primitive basis (src/analyzer.rs:176-189). -/
def primitiveHolohedry (h : HashOrders K) (fuel : Nat) (bravais : BravaisType) :
    Outcome PointGroup :=
  (Outcome.ofOption "called `Option::unwrap()` on a `None` value"
    (amapGet? bravaisToHolohedryNum bravais)).bind fun num =>
  (PointGroup.fromNumber h.pointOps fuel num).bind fun pg =>
  (Outcome.ofOption "Problem determining centering." bravais.centering?).bind fun centering =>
  (Outcome.ofOption "called `Option::unwrap()` on a `None` value"
    (amapGet? centeringToPrimTrans centering)).bind fun m =>
  pg.applyTransformation (primMatrix m : Mat3 K)

/-- `get_primitive_space_group_ops` (src/analyzer.rs:164-283). -/
def getPrimitiveSpaceGroupOps (sa : SymmetryAnalyzer K) (h : HashOrders K) (fuel : Nat)
    (prim : Structure K) (bravais : BravaisType) : Outcome (List (SymmOp K)) :=
  let tols := Structure.fracTols prim.lattice sa.dtol
  (primitiveHolohedry h fuel bravais).bind fun pg =>
  (prim.getMinElement h.minEle).bind fun (_, inds, counts) =>
  (mapOutcome (fun op =>
    (candidateTranslations tols prim.fracCoords (h.eleInds inds) counts op).bind fun vs =>
    .ret (op, vs)) pg.operations).bind fun entries =>
  let opTransVecs := entries.foldl (init := []) fun m p => amapUpsert m p.1 p.2 fun _ => p.2
  .ret ((h.opVecs opTransVecs).flatMap
    (opsForRotation h prim.lattice tols sa.dtol prim.numSites))

/-! ## Identification -/

/-- `c_to_a_transformation` (src/analyzer.rs:123-124). -/
def cToA : Mat3 Int8 := ⟨0, 0, 1, 1, 0, 0, 0, 1, 0⟩
/-- `c_to_a_transformation_inv` (src/analyzer.rs:126-127). -/
def cToAInv : Mat3 Int8 := ⟨0, 1, 0, 0, 0, 1, 1, 0, 0⟩

/-- `Vector3::from_iterator(trans_vec)`. -/
def vecOfDigits : List Int8 → Outcome (Vec3 Int8)
  | x :: y :: z :: _ => .ret ⟨x, y, z⟩
  | _ => .panic "Matrix init. from iterator: not enough elements"

/-- the operation encoded in the tables (src/analyzer.rs:117-136). -/
def tableOp (isACentered : Bool) (encoded : Nat) : Outcome (SymmOp K) :=
  (decodeSpgOp encoded).bind fun (matrixVec, transVec) =>
  (PointGroup.rotationOfDigits matrixVec).bind fun rotation =>
  (vecOfDigits transVec).bind fun tv =>
  let translation : Vec3 K := (tv.map fun x => lit x.toInt).divS (lit 12)
  if isACentered then
    .ret ⟨cToAInv * rotation * cToA, (castRot cToAInv : Mat3 K) * translation⟩
  else .ret ⟨rotation, translation⟩

/-- symbol contains the letter `A` (src/analyzer.rs:106-111). -/
def isACentered (symbol : String) : Bool := symbol.toList.any fun c => c == 'A'

/-- does every operation of `sg` match a table operation? (src/analyzer.rs:113-147) -/
def allOpsFound (tols : Vec3 K) (acent : Bool) (encodedOps : List Nat) :
    List (SymmOp K) → Outcome Bool
  | [] => .ret true
  | op :: ops =>
    (mapOutcome (tableOp acent) encodedOps).bind fun table =>
    if table.any fun cand => op.isApproxEq cand tols then allOpsFound tols acent encodedOps ops
    else .ret false

/-- the candidate loop (src/analyzer.rs:104-159). -/
def identifyLoop (tols : Vec3 K) (ops : List (SymmOp K)) :
    List (Nat × List Nat) → Outcome (Option (Nat × String))
  | [] => .ret none
  | (num, encodedOps) :: rest =>
    (Outcome.ofOption "ITA space group number provided is not valid!"
      (amapGet? sgNumToSymbol num)).bind fun symbol =>
    (allOpsFound tols (isACentered symbol) encodedOps ops).bind fun found =>
    if found then .ret (some (num, symbol)) else identifyLoop tols ops rest

/-- `identify_space_group` (src/analyzer.rs:87-162); `len() as u8` wraps modulo 256. -/
def identifySpaceGroup (h : HashOrders K) (ops : List (SymmOp K)) (system : LatticeSystem)
    (tols : Vec3 K) : Outcome (Option (Nat × String)) :=
  (Outcome.ofOption "Cannot find candidate groups with the provided lattice system!"
    (amapGet? sgNumToFullMatrices system)).bind fun latticeGroups =>
  (Outcome.ofOption "Could not find candidate group with the provided number of operations!"
    (amapGet? latticeGroups (ops.length % 256))).bind fun candidates =>
  identifyLoop tols ops (h.groups candidates)

/-! ## `get_space_group_info` -/

/-- `get_space_group_info` (src/analyzer.rs:27-85). -/
def getSpaceGroupInfo (sa : SymmetryAnalyzer K) (h : HashOrders K) (fuel : Nat) (s : Structure K) :
    Outcome (Nat × String × List (SymmOp K)) :=
  (sa.reducer.findPrimitiveCell h.minEle s).bind fun prim =>
  (sa.reducer.niggliReduce prim tol1em5).bind fun niggli =>
  (conventionalTransformationMatrix niggli).bind fun (convTransMat, ch) =>
  (niggli.applyTransformation fuel convTransMat sa.dtol).bind fun conv =>
  (primitiveTransformationMatrix (K := K) ch).bind fun (primTransMat, bravais) =>
  (conv.applyTransformation fuel primTransMat sa.dtol).bind fun stdPrim =>
  (sa.getPrimitiveSpaceGroupOps h fuel stdPrim bravais).bind fun sgGenerators =>
  let tols := Structure.fracTols stdPrim.lattice sa.dtol
  (SpaceGroup.fromGenerators fuel sgGenerators tols).bind fun sg =>
  (Outcome.ofOption "Problem determining lattice system." bravais.latticeSystem?).bind fun system =>
  (identifySpaceGroup h sg system tols).bind fun identified =>
  (Outcome.ofOption "Cannot identify spacegroup from operations!" identified).bind
    fun (intNum, sgSymbol) =>
  let initialTransMat := prim.getTransformationMatrix s
  let niggliTransMat := niggli.getTransformationMatrix prim
  (Outcome.ofOption "Primitive transformation is not invertible." primTransMat.tryInverse).bind
    fun invPrim =>
  (Outcome.ofOption "Conventional transformation is not invertible." convTransMat.tryInverse).bind
    fun invConv =>
  let total := invPrim * invConv * niggliTransMat * initialTransMat
  (SpaceGroup.applyTransformation fuel sg total tols).bind fun ops =>
  .ret (intNum, sgSymbol, ops)

end

end SymmetryAnalyzer

end CrystSymm
