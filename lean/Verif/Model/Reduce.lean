import Verif.Model.Structure

set_option autoImplicit false

/-! # Model of src/reduce.rs -/

namespace CrystSymm

/-- `Reducer` (src/reduce.rs:10-13). -/
structure Reducer (K : Type) where
  dtol : K
  atol : K

/-- `impl Default for Reducer` (src/reduce.rs:555-562). -/
def Reducer.default {K : Type} [IntCast K] [Div K] : Reducer K := ⟨lit 5 / lit 100, lit 5⟩

namespace Reducer

section
variable {K : Type} [Add K] [Sub K] [Mul K] [Div K] [Neg K] [Zero K] [One K] [IntCast K]
  [LT K] [LE K] [DecidableLT K] [DecidableLE K] [BEq K] [FRound K] [FTrans K]

/-! ## `get_shortest_translation_vecs` -/

/-- `sort_by(|a, b| a.magnitude().partial_cmp(&b.magnitude()).unwrap())`
(src/reduce.rs:471, 513): stable sort by length. -/
def sortByMag (l : List (Vec3 K)) : List (Vec3 K) :=
  l.mergeSort fun u v => decide (u.mag ≤ v.mag)

/-- the scan for the second vector (src/reduce.rs:520-527): returns `(second_ind, cross_vec)`;
without a hit `second_ind` keeps its initial value 1 and `cross_vec` the last value computed. -/
def secondScan (dtol : K) (first : Vec3 K) : List (Vec3 K) → Nat → Vec3 K → Nat × Vec3 K
  | [], _, crossVec => (1, crossVec)
  | v :: vs, vecNum, _ =>
    let crossVec := first.cross v
    if dtol < FRound.abs crossVec.mag then (vecNum + 1, crossVec)
    else secondScan dtol first vs (vecNum + 1) crossVec

/-- the scan for the third vector (src/reduce.rs:529-534): without a hit `third_ind` keeps its
initial value 2. -/
def thirdScan (dtol : K) (crossVec : Vec3 K) (secondInd : Nat) : List (Vec3 K) → Nat → Nat
  | [], _ => 2
  | v :: vs, vecNum =>
    if dtol < crossVec.dot v then vecNum + secondInd + 1
    else thirdScan dtol crossVec secondInd vs (vecNum + 1)

/-- `get_shortest_translation_vecs` (src/reduce.rs:512-539).  Out-of-range slices and indices
panic. -/
def getShortestTranslationVecs (dtol : K) (cartVecs : List (Vec3 K)) :
    Outcome (Vec3 K × Vec3 K × Vec3 K) :=
  let sorted := sortByMag cartVecs
  (Outcome.ofOption "index out of bounds" sorted[0]?).bind fun first =>
  let sec := secondScan dtol first (sorted.drop 1) 0 0
  if sorted.length < sec.1 + 1 then .panic "range start index out of range"
  else
    let thirdInd := thirdScan dtol sec.2 sec.1 (sorted.drop (sec.1 + 1)) 0
    (Outcome.ofOption "index out of bounds" sorted[sec.1]?).bind fun second =>
    (Outcome.ofOption "index out of bounds" sorted[thirdInd]?).bind fun third =>
    .ret (first, second, third)

/-! ## `find_primitive_cell` -/

/-- the three unit vectors that start `candidate_vecs` (src/reduce.rs:54-58). -/
def unitVecs : List (Vec3 K) := [⟨1, 0, 0⟩, ⟨0, 1, 0⟩, ⟨0, 0, 1⟩]

/-- candidate translations (src/reduce.rs:60-70). -/
def candidateVecs (tols : Vec3 K) (minEle : String) (baseInd : Nat) (baseSite : Vec3 K)
    (species : List String) (frac : List (Vec3 K)) : List (Vec3 K) :=
  unitVecs ++ ((frac.zip species).zipIdx.filterMap fun p =>
    if p.1.2 = minEle ∧ p.2 ≠ baseInd then some (normFracVec tols (p.1.1 - baseSite)) else none)

/-- does `vec` map every site onto a site of the same species? (src/reduce.rs:77-112) -/
def isTranslation (lattice : Mat3 K) (tols : Vec3 K) (dtol : K) (sites : List (Vec3 K × String))
    (vec : Vec3 K) : Bool :=
  sites.all fun p => sites.any fun q =>
    decide (p.2 = q.2) && Structure.sitesCoincide lattice tols dtol (p.1 + vec) q.1

/-- `base_comb_vecs` (src/reduce.rs:132-146). -/
def baseCombVecs : List (Vec3 K) :=
  [⟨1, 0, 0⟩, ⟨0, 1, 0⟩, ⟨0, 0, 1⟩, ⟨1, 1, 0⟩, ⟨1, 0, 1⟩, ⟨0, 1, 1⟩, ⟨-1, 1, 0⟩, ⟨-1, 0, 1⟩,
   ⟨0, -1, 1⟩, ⟨1, 1, 1⟩, ⟨-1, 1, 1⟩, ⟨1, -1, 1⟩, ⟨1, 1, -1⟩]

/-- `combination_vecs` (src/reduce.rs:148-160). -/
def combinationVecs (fracMatrix : Mat3 K) : List (Vec3 K) :=
  (baseCombVecs : List (Vec3 K)).flatMap fun comb =>
    let tv : Vec3 K := fracMatrix * comb
    let nv := Vec3.scale (-1) tv
    [tv, nv] ++ (if zeroTol < FRound.abs nv.mag then [nv] else [])

/-- folding of the sites into the new cell (src/reduce.rs:180-199).  (The normalisation on
src/reduce.rs:195 acts on a temporary and has no effect.) -/
def foldSites (oldLattice : Mat3 K) (tols : Vec3 K) (dtol : K) (sites : List (Vec3 K × String)) :
    List (Vec3 K × String) :=
  sites.foldl (init := []) fun acc p => Structure.addSite oldLattice tols dtol acc p.1 p.2

/-- `find_primitive_cell` (src/reduce.rs:26-205); `ord` is the hash order inside
`get_min_element`. -/
def findPrimitiveCell (r : Reducer K) (ord : List (String × Nat) → List (String × Nat))
    (structure_ : Structure K) : Outcome (Structure K) :=
  let tols := Structure.fracTols structure_.lattice r.dtol
  let temp := structure_.normalizeCoords r.dtol
  (temp.getMinElement ord).bind fun (minEle, inds, _) =>
  (Outcome.ofOption "called `Option::unwrap()` on a `None` value" (amapGet? inds minEle)).bind
    fun baseInd =>
  (Outcome.ofOption "index out of bounds" temp.fracCoords[baseInd]?).bind fun baseSite =>
  let candidates := candidateVecs tols minEle baseInd baseSite temp.species temp.fracCoords
  let sites := temp.fracCoords.zip temp.species
  let translations := candidates.filter (isTranslation temp.lattice tols r.dtol sites)
  (getShortestTranslationVecs r.dtol (Structure.getCartCoords temp.lattice translations)).bind
    fun (s1, s2, s3) =>
  let pinv := FTrans.pinv temp.lattice
  let fracMatrix := Mat3.ofCols (pinv * s1) (pinv * s2) (pinv * s3)
  (getShortestTranslationVecs r.dtol
    (Structure.getCartCoords temp.lattice (combinationVecs fracMatrix))).bind fun (f1, f2, f3) =>
  let newLattice := Mat3.ofCols f1 f2 f3
  let tempFrac := Structure.getFracCoords newLattice temp.coords
  let folded := foldSites temp.lattice tols r.dtol (tempFrac.zip temp.species)
  .ret ((Structure.new newLattice (folded.map Prod.snd) (folded.map Prod.fst) false).normalizeCoords
    r.dtol)

/-! ## `niggli_reduce`

`epsilon` is an `Option K`: `none` is the NaN produced by `volume.powf(1/3)` for a negative volume.
Every comparison with NaN is false. -/

/-- `(x - epsilon) > y`. -/
def subGt (e : Option K) (x y : K) : Bool :=
  match e with
  | none => false
  | some ε => decide (y < x - ε)

/-- `x < -epsilon`. -/
def ltNeg (e : Option K) (x : K) : Bool :=
  match e with
  | none => false
  | some ε => decide (x < -ε)

/-- `cust_eq(&a, &b, &epsilon)`. -/
def eqE (e : Option K) (a b : K) : Bool :=
  match e with
  | none => true
  | some ε => custEq a b ε

/-- `num_negative_zero(&vec![x, y, z], &epsilon)`. -/
def nnzE (e : Option K) (l : List K) : Int8 × Int8 :=
  match e with
  | none => (0, 0)
  | some ε => numNegativeZero l ε

/-- `(num_negative % 2 == 0) && (num_zero == 0)` (src/reduce.rs:273, src/analyzer.rs:381). -/
def isTypeI (e : Option K) (l : List K) : Bool :=
  (nnzE e l).1 % 2 == 0 && (nnzE e l).2 == 0

/-- `C1` (src/reduce.rs:238). -/
def c1 : Mat3 K := ⟨0, -1, 0, -1, 0, 0, 0, 0, -1⟩
/-- `C2` (src/reduce.rs:256). -/
def c2 : Mat3 K := ⟨-1, 0, 0, 0, 0, -1, 0, -1, 0⟩
/-- diagonal sign matrix (src/reduce.rs:313). -/
def c34 (s : K × K × K) : Mat3 K := ⟨s.1, 0, 0, 0, s.2.1, 0, 0, 0, s.2.2⟩
/-- `C5` (src/reduce.rs:332-333). -/
def c5 (xi : K) : Mat3 K := ⟨1, 0, 0, 0, 1, (-1) * FRound.signum xi, 0, 0, 1⟩
/-- `C6` (src/reduce.rs:345-346). -/
def c6 (eta : K) : Mat3 K := ⟨1, 0, (-1) * FRound.signum eta, 0, 1, 0, 0, 0, 1⟩
/-- `C7` (src/reduce.rs:358-359). -/
def c7 (zeta : K) : Mat3 K := ⟨1, (-1) * FRound.signum zeta, 0, 0, 1, 0, 0, 0, 1⟩
/-- `C8` (src/reduce.rs:373). -/
def c8 : Mat3 K := ⟨1, 0, 1, 0, 1, 1, 0, 0, 1⟩

/-- metric tensor and accumulated transformation. -/
@[ext] structure NigState (K : Type) where
  metric : Mat3 K
  trans : Mat3 K

/-- `metric_tensor = C^T * metric_tensor * C; transformation *= C`. -/
def NigState.step (st : NigState K) (m : Mat3 K) : NigState K :=
  ⟨m.transpose * st.metric * m, st.trans * m⟩

/-- `a` -/ abbrev NigState.a (st : NigState K) : K := st.metric.m11
/-- `b` -/ abbrev NigState.b (st : NigState K) : K := st.metric.m22
/-- `c` -/ abbrev NigState.c (st : NigState K) : K := st.metric.m33
/-- `xi = 2 m23` -/ abbrev NigState.xi (st : NigState K) : K := lit 2 * st.metric.m23
/-- `eta = 2 m13` -/ abbrev NigState.eta (st : NigState K) : K := lit 2 * st.metric.m13
/-- `zeta = 2 m12` -/ abbrev NigState.zeta (st : NigState K) : K := lit 2 * st.metric.m12

/-- condition A1 (src/reduce.rs:239-240). -/
def condA1 (e : Option K) (st : NigState K) : Bool :=
  subGt e st.a st.b || (eqE e st.a st.b && subGt e (FRound.abs st.xi) (FRound.abs st.eta))

/-- condition A2 (src/reduce.rs:257-258). -/
def condA2 (e : Option K) (st : NigState K) : Bool :=
  subGt e st.b st.c || (eqE e st.b st.c && subGt e (FRound.abs st.eta) (FRound.abs st.zeta))

/-- which of `i`, `j`, `k` the pointer `p` refers to (src/reduce.rs:284-306). -/
inductive SignVar | none | i | j | k
deriving DecidableEq

/-- the signs `i, j, k` of steps A3 and A4 (src/reduce.rs:267-311). -/
def signs (e : Option K) (xi eta zeta : K) : K × K × K :=
  if isTypeI e [xi, eta, zeta] then
    (if ltNeg e xi then -1 else 1, if ltNeg e eta then -1 else 1, if ltNeg e zeta then -1 else 1)
  else
    let i : K := if subGt e xi 0 then -1 else 1
    let j : K := if subGt e eta 0 then -1 else 1
    let k : K := if subGt e zeta 0 then -1 else 1
    let prod : K := 1
    let prod := if subGt e xi 0 then prod * -1 else prod
    let prod := if subGt e eta 0 then prod * -1 else prod
    let prod := if subGt e zeta 0 then prod * -1 else prod
    let p := SignVar.none
    let p := if subGt e xi 0 then p else if !ltNeg e xi then .i else p
    let p := if subGt e eta 0 then p else if !ltNeg e eta then .j else p
    let p := if subGt e zeta 0 then p else if !ltNeg e zeta then .k else p
    if ltNeg e prod then
      match p with
      | .none => (i, j, k)
      | .i => (-1, j, k)
      | .j => (i, -1, k)
      | .k => (i, j, -1)
    else (i, j, k)

/-- condition A5 (src/reduce.rs:328-330). -/
def condA5 (e : Option K) (st : NigState K) : Bool :=
  subGt e (FRound.abs st.xi) st.b
    || (eqE e st.xi st.b && subGt e st.zeta (lit 2 * st.eta))
    || (eqE e st.xi ((-1) * st.b) && ltNeg e st.zeta)

/-- condition A6 (src/reduce.rs:341-343). -/
def condA6 (e : Option K) (st : NigState K) : Bool :=
  subGt e (FRound.abs st.eta) st.a
    || (eqE e st.eta st.a && subGt e st.zeta (lit 2 * st.xi))
    || (eqE e st.eta ((-1) * st.a) && ltNeg e st.zeta)

/-- condition A7 (src/reduce.rs:354-356). -/
def condA7 (e : Option K) (st : NigState K) : Bool :=
  subGt e (FRound.abs st.zeta) st.a
    || (eqE e st.zeta st.a && subGt e st.eta (lit 2 * st.xi))
    || (eqE e st.zeta ((-1) * st.a) && ltNeg e st.eta)

/-- `bool_sum` (src/reduce.rs:367). -/
def boolSum (st : NigState K) : K := st.xi + st.eta + st.zeta + st.a + st.b

/-- condition A8 (src/reduce.rs:369-371). -/
def condA8 (e : Option K) (st : NigState K) : Bool :=
  ltNeg e (boolSum st)
    || (eqE e (boolSum st) 0 && subGt e (lit 2 * (st.a + st.eta) + st.zeta) 0)

/-- One iteration of the loop (src/reduce.rs:228-379): `.inl` = `continue`, `.inr` = `break`. -/
def nigIter (e : Option K) (st : NigState K) : NigState K ⊕ NigState K :=
  let st := if condA1 e st then st.step c1 else st
  if condA2 e st then .inl (st.step c2)
  else
    let st := st.step (c34 (signs e st.xi st.eta st.zeta))
    if condA5 e st then .inl (st.step (c5 st.xi))
    else if condA6 e st then .inl (st.step (c6 st.eta))
    else if condA7 e st then .inl (st.step (c7 st.zeta))
    else if condA8 e st then .inl (st.step c8)
    else .inr st

/-- `for iteration in 0..101` with the panic at iteration 100 (src/reduce.rs:223-380). -/
def nigLoop (e : Option K) : Nat → NigState K → Outcome (NigState K)
  | 0, _ => .panic "Could not find Niggli reduced structure!"
  | n + 1, st =>
    match nigIter e st with
    | .inl st' => nigLoop e n st'
    | .inr st' => .ret st'

/-- `tol * volume.powf(1.0 / 3.0)` (src/reduce.rs:215, src/analyzer.rs:364). -/
def epsilonOf (tol volume : K) : Option K := (FTrans.powThird volume).map fun v => tol * v

/-- the common ending of the two reductions (src/reduce.rs:386-397, 503-506). -/
def rebuild (r : Reducer K) (s : Structure K) (newLattice : Mat3 K) : Structure K :=
  (Structure.new newLattice s.species (Structure.getFracCoords newLattice s.coords)
    false).normalizeCoords r.dtol

/-- `niggli_reduce` (src/reduce.rs:214-398). -/
def niggliReduce (r : Reducer K) (s : Structure K) (tol : K) : Outcome (Structure K) :=
  (nigLoop (epsilonOf tol s.volume) 100 ⟨s.metricTensor, 1⟩).bind fun st =>
  .ret (rebuild r s (s.lattice * st.trans))

/-! ## `delaunay_reduce` -/

/-- `get_scalar_prods` (src/reduce.rs:542-552). -/
def scalarProds (d : Fin 4 → Vec3 K) : List K :=
  [(d 0).dot (d 1), (d 0).dot (d 2), (d 0).dot (d 3), (d 1).dot (d 2), (d 1).dot (d 3),
   (d 2).dot (d 3)]

/-- `pair_map` (src/reduce.rs:413-420). -/
def pairMap : List (Fin 4 × Fin 4) := [(0, 1), (0, 2), (0, 3), (1, 2), (1, 3), (2, 3)]

/-- the search for the largest scalar product (src/reduce.rs:430-437): index of the first maximum
above `ZERO_TOL`, 0 if there is none. -/
def maxIndex (prods : List K) : Nat :=
  (prods.zipIdx.foldl (init := ((0 : K), 0)) fun acc p =>
    if zeroTol < p.1 ∧ acc.1 < p.1 then (p.1, p.2) else acc).2

/-- `set_column`. -/
def setCol (d : Fin 4 → Vec3 K) (i : Fin 4) (v : Vec3 K) : Fin 4 → Vec3 K :=
  fun j => if j = i then v else d j

/-- the Delaunay transformation for the pair `(p0, p1)` (src/reduce.rs:443-451). -/
def delaunayStep (p : Fin 4 × Fin 4) (d : Fin 4 → Vec3 K) : Fin 4 → Vec3 K :=
  let d := ([0, 1, 2, 3] : List (Fin 4)).foldl (init := d) fun d i =>
    if p.1 = i ∨ p.2 = i then d else setCol d i (d p.2 + d i)
  setCol d p.2 (Vec3.scale (-1) (d p.2))

/-- the `while` loop (src/reduce.rs:429-456): at most `n` further iterations, returns the matrix and
`count`. -/
def delaunayLoop : Nat → Nat → (Fin 4 → Vec3 K) → Outcome ((Fin 4 → Vec3 K) × Nat)
  | 0, count, d => .ret (d, count)
  | n + 1, count, d =>
    if (scalarProds d).any fun v => decide (zeroTol < v) then
      (Outcome.ofOption "called `Option::unwrap()` on a `None` value"
        pairMap[maxIndex (scalarProds d)]?).bind fun p =>
      delaunayLoop n (count + 1) (delaunayStep p d)
    else .ret (d, count)

/-- the tri-acute adjustment (src/reduce.rs:473-497). -/
def triAcute (b0 b1 b2 b3 : Vec3 K) : Mat3 K :=
  let g12 := b0.dot b1
  let g13 := b0.dot b2
  let g14 := b0.dot b3
  let g23 := b1.dot b2
  let g24 := b1.dot b3
  if -g12 < -(g13 + g14) then
    Mat3.ofCols (Vec3.scale (-1) b0) (Vec3.scale (-1) (b0 + b1)) b2
  else if -g23 < -(g12 + g24) then
    Mat3.ofCols b0 (Vec3.scale (-1) b1) (Vec3.scale (-1) (b1 + b2))
  else if -g13 < -(g12 + g14) then
    Mat3.ofCols (Vec3.scale (-1) b0) b1 (Vec3.scale (-1) (b0 + b2))
  else Mat3.ofCols b0 b1 b2

/-- choice of the new lattice (src/reduce.rs:464-500). -/
def delaunayLattice (fullReduction : Bool) (d : Fin 4 → Vec3 K) : Outcome (Mat3 K) :=
  if fullReduction then
    match sortByMag [d 0, d 1, d 2, d 3] with
    | [b0, b1, b2, b3] => .ret (triAcute b0 b1 b2 b3)
    | _ => .panic "index out of bounds"
  else .ret (Mat3.ofCols (d 0) (d 1) (d 2))

/-- `delaunay_reduce` (src/reduce.rs:409-509): the loop runs while `count <= 100`, i.e. at most 101
times. -/
def delaunayReduce (r : Reducer K) (s : Structure K) (fullReduction : Bool) :
    Outcome (Structure K) :=
  (delaunayLoop 101 0 s.delaunayMatrix).bind fun (d, count) =>
  if count = 100 then .panic "Reached max number of iterations without reduction!"
  else
    (delaunayLattice fullReduction d).bind fun newLattice =>
    .ret (rebuild r s newLattice)

end

end Reducer

end CrystSymm
