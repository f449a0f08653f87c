import Verif.Model.Utils
import Mathlib.Data.String.Basic

set_option autoImplicit false

/-! # Model of src/structure.rs -/

namespace CrystSymm

/-- `Structure` (src/structure.rs:13-18). -/
@[ext] structure Structure (K : Type) where
  lattice : Mat3 K
  species : List String
  coords : List (Vec3 K)
  fracCoords : List (Vec3 K)
deriving DecidableEq, Repr

/-! ## Hash maps

A `HashMap` is an association list without repeated keys (`get?`, `insert`); its iteration order is
unspecified, and every place where the crate iterates over one is modelled explicitly. -/

/-- `map.get(&k)`. -/
def amapGet? {κ β : Type} [DecidableEq κ] (m : List (κ × β)) (k : κ) : Option β :=
  (m.find? fun p => p.1 = k).map Prod.snd

/-- `*map.entry(k).or_insert(d) = f(..)`: insert `d`, then update in place with `f`. -/
def amapUpsert {κ β : Type} [DecidableEq κ] (m : List (κ × β)) (k : κ) (d : β) (f : β → β) :
    List (κ × β) :=
  match m with
  | [] => [(k, f d)]
  | (k', v) :: rest => if k' = k then (k', f v) :: rest else (k', v) :: amapUpsert rest k d f

namespace Structure

section Pure
variable {K : Type} [Add K] [Sub K] [Mul K] [Div K] [Neg K] [Zero K] [One K] [IntCast K]
  [LT K] [LE K] [DecidableLT K] [DecidableLE K] [BEq K] [FRound K] [FTrans K]

/-- `Structure::get_cart_coords` (src/structure.rs:262-272). -/
def getCartCoords (lattice : Mat3 K) (fracCoords : List (Vec3 K)) : List (Vec3 K) :=
  fracCoords.map fun c => lattice * c

/-- `Structure::get_frac_coords` (src/structure.rs:280-294). -/
def getFracCoords (lattice : Mat3 K) (cartCoords : List (Vec3 K)) : List (Vec3 K) :=
  let invertedLattice := FTrans.pinv lattice
  cartCoords.map fun c => invertedLattice * c

/-- `Structure::new` (src/structure.rs:53-76). -/
def new (lattice : Mat3 K) (species : List String) (coords : List (Vec3 K)) (coordsAreCart : Bool) :
    Structure K :=
  if coordsAreCart then
    { lattice, species, coords := coords, fracCoords := getFracCoords lattice coords }
  else
    { lattice, species, coords := getCartCoords lattice coords, fracCoords := coords }

/-- `num_sites` (src/structure.rs:79-81). -/
def numSites (s : Structure K) : Nat := s.species.length

/-- `a` (src/structure.rs:84-86). -/
def a (s : Structure K) : K := s.lattice.col0.mag
/-- `b` (src/structure.rs:89-91). -/
def b (s : Structure K) : K := s.lattice.col1.mag
/-- `c` (src/structure.rs:94-96). -/
def c (s : Structure K) : K := s.lattice.col2.mag

/-- `alpha` (src/structure.rs:99-104). -/
def alpha (s : Structure K) : K :=
  FTrans.acos (s.lattice.col1.dot s.lattice.col2 / (FRound.abs s.b * FRound.abs s.c))
    * (lit 180 / FTrans.pi)
/-- `beta` (src/structure.rs:107-112). -/
def beta (s : Structure K) : K :=
  FTrans.acos (s.lattice.col0.dot s.lattice.col2 / (FRound.abs s.a * FRound.abs s.c))
    * (lit 180 / FTrans.pi)
/-- `gamma` (src/structure.rs:115-120). -/
def gamma (s : Structure K) : K :=
  FTrans.acos (s.lattice.col0.dot s.lattice.col1 / (FRound.abs s.a * FRound.abs s.b))
    * (lit 180 / FTrans.pi)

/-- `volume` (src/structure.rs:123-125). -/
def volume (s : Structure K) : K := s.lattice.det

/-- `metric_tensor` (src/structure.rs:128-130). -/
def metricTensor (s : Structure K) : Mat3 K := s.lattice.transpose * s.lattice

/-- the per-axis fractional tolerances `pos_tol / |column|`
(src/structure.rs:142-146, 227-231, src/reduce.rs:29-34, src/analyzer.rs:53-58, 169-174). -/
def fracTols (lattice : Mat3 K) (posTol : K) : Vec3 K :=
  ⟨posTol / lattice.col0.mag, posTol / lattice.col1.mag, posTol / lattice.col2.mag⟩

/-- `zipped_coords.sort_by(|a, b| a.0.cmp(b.0))` (src/structure.rs:241): Rust's `sort_by` is a stable
sort; `String`'s `Ord` is lexicographic. -/
def sortBySpecies (z : List (String × Vec3 K × Vec3 K)) : List (String × Vec3 K × Vec3 K) :=
  z.mergeSort fun p q => decide (p.1 ≤ q.1)

/-- `normalize_coords` (src/structure.rs:226-254). -/
def normalizeCoords (s : Structure K) (posTol : K) : Structure K :=
  let tols := fracTols s.lattice posTol
  let frac := normalizeFracVectors s.fracCoords tols
  let cart := getCartCoords s.lattice frac
  let zipped := s.species.zip (cart.zip frac)
  let sorted := sortBySpecies zipped
  { lattice := s.lattice
    species := sorted.map fun t => t.1
    coords := sorted.map fun t => t.2.1
    fracCoords := sorted.map fun t => t.2.2 }

/-- `delaunay_matrix` (src/structure.rs:208-219): `Matrix3x4` as its four columns. -/
def delaunayMatrix (s : Structure K) : Fin 4 → Vec3 K
  | 0 => s.lattice.col0
  | 1 => s.lattice.col1
  | 2 => s.lattice.col2
  | 3 => Vec3.scale (-1) (s.lattice.col0 + s.lattice.col1 + s.lattice.col2)

/-- `reciprocal_lattice` (src/structure.rs:297-306). -/
def reciprocalLattice (s : Structure K) : Outcome (Mat3 K) :=
  match s.lattice.tryInverse with
  | none => .panic "Crystal lattice is not invertible!"
  | some inv => .ret (((inv.transpose).scale (lit 2)).scale FTrans.pi)

/-- `get_transformation_matrix` (src/structure.rs:385-392). -/
def getTransformationMatrix (self structure_ : Structure K) : Mat3 K :=
  FTrans.pinv self.lattice * structure_.lattice

end Pure

/-! ### `apply_transformation` -/

section Transform
variable {K : Type} [Add K] [Sub K] [Mul K] [Div K] [Neg K] [Zero K] [One K] [IntCast K]
  [LT K] [LE K] [DecidableLT K] [DecidableLE K] [BEq K] [FRound K] [FTrans K]

/-- `(det.abs() * 100.0).round() / 100.0` (src/structure.rs:161, src/spacegroup.rs:53). -/
def volumeRatio (t : Mat3 K) : K := FRound.round (FRound.abs t.det * lit 100) / lit 100

/-- `iproduct!(0..mult, 0..mult, 0..mult)` as vectors (src/structure.rs:168-170,
src/spacegroup.rs:67-69). -/
def translationVecs (mult : Nat) : List (Vec3 K) :=
  (List.range mult).flatMap fun (i : Nat) => (List.range mult).flatMap fun (j : Nat) =>
    (List.range mult).map fun (k : Nat) => ⟨lit (i : Int), lit (j : Int), lit (k : Int)⟩

/-- the coincidence test of src/structure.rs:179-188 and src/reduce.rs:182-191: is `frac - new_coord`,
normalised, at most `2 * pos_tol` long when converted with `lattice`? -/
def sitesCoincide (lattice : Mat3 K) (tols : Vec3 K) (posTol : K) (coord newCoord : Vec3 K) : Bool :=
  let delta := normFracVec tols (coord - newCoord)
  decide (FRound.abs (Vec3.mag (lattice * delta)) ≤ posTol * lit 2)

/-- One candidate position (src/structure.rs:174-194): appended unless it coincides with a site
already found.  (The `normalize_frac_vectors` call on src/structure.rs:191 acts on a temporary and
has no effect.) -/
def addSite (lattice : Mat3 K) (tols : Vec3 K) (posTol : K) (found : List (Vec3 K × String))
    (fracCoord : Vec3 K) (specie : String) : List (Vec3 K × String) :=
  if found.any fun p => sitesCoincide lattice tols posTol fracCoord p.1 then found
  else found ++ [(fracCoord, specie)]

/-- One pass of the `while` body (src/structure.rs:166-196). -/
def searchPass (lattice : Mat3 K) (tols : Vec3 K) (posTol : K) (invT : Mat3 K) (mult : Nat)
    (sites : List (Vec3 K × String)) (found : List (Vec3 K × String)) :
    List (Vec3 K × String) :=
  sites.foldl (init := found) fun acc site =>
    (translationVecs mult).foldl (init := acc) fun acc tv =>
      addSite lattice tols posTol acc (invT * (site.1 + Vec3.scale (lit mult) tv)) site.2

/-- `(found as f64 / total as f64) < volume_ratio`: with `total = 0` the quotient is NaN or
`+∞`, so the comparison is false. -/
def quotLt (found total : Nat) (ratio : K) : Bool :=
  if total = 0 then false else decide ((lit found : K) / lit total < ratio)

/-- The `while` loop (src/structure.rs:164-198), with fuel. -/
def searchLoop (lattice : Mat3 K) (tols : Vec3 K) (posTol : K) (invT : Mat3 K) (ratio : K)
    (total : Nat) (sites : List (Vec3 K × String)) :
    Nat → Nat → List (Vec3 K × String) → Outcome (List (Vec3 K × String))
  | 0, _, _ => .running
  | fuel + 1, mult, found =>
    if quotLt found.length total ratio then
      searchLoop lattice tols posTol invT ratio total sites fuel (mult + 1)
        (searchPass lattice tols posTol invT mult sites found)
    else .ret found

/-- `apply_transformation` (src/structure.rs:141-205).  `new_frac_coords` and `new_species` are
always pushed together and are kept as one list of pairs. -/
def applyTransformation (fuel : Nat) (s : Structure K) (t : Mat3 K) (posTol : K) :
    Outcome (Structure K) :=
  let tols := fracTols s.lattice posTol
  match t.tryInverse with
  | none => .panic "Transformation matrix is not invertible!"
  | some invT =>
    let newLattice := s.lattice * t
    (searchLoop s.lattice tols posTol invT (volumeRatio t) s.coords.length
        (s.fracCoords.zip s.species) fuel 2 []).bind fun found =>
    let frac := found.map Prod.fst
    .ret (normalizeCoords
      { lattice := newLattice
        species := found.map Prod.snd
        coords := getCartCoords newLattice frac
        fracCoords := frac } posTol)

end Transform

/-! ### species bookkeeping -/

section Species
variable {K : Type}

/-- `type_count` loop (src/structure.rs:314-315); `u16` counters wrap in release. -/
def typeCount (species : List String) : List (String × Nat) :=
  species.foldl (init := []) fun m e => amapUpsert m e 0 fun n => (n + 1) % 65536

/-- `ele_inds` loop (src/structure.rs:314, 316): index of the first occurrence, `as u16`. -/
def eleInds (species : List String) : List (String × Nat) :=
  (species.zipIdx).foldl (init := []) fun m p => amapUpsert m p.1 (p.2 % 65536) id

/-- `Iterator::min_by_key(|e| e.1)`: the first entry with the least key, `None` when empty. -/
def minByKey (l : List (String × Nat)) : Option (String × Nat) :=
  l.foldl (init := none) fun acc e =>
    match acc with
    | none => some e
    | some m => if e.2 < m.2 then some e else some m

/-- `get_min_element` (src/structure.rs:309-332).  The hash map is listed in arbitrary order
(`ord`), then sorted by element name. -/
def getMinElement (ord : List (String × Nat) → List (String × Nat)) (s : Structure K) :
    Outcome (String × List (String × Nat) × List (String × Nat)) :=
  let counts := typeCount s.species
  let inds := eleInds s.species
  let sortedPairs := (ord counts).mergeSort fun p q => decide (p.1 ≤ q.1)
  (Outcome.ofOption "called `Option::unwrap()` on a `None` value" (minByKey sortedPairs)).bind
    fun m => .ret (m.1, inds, counts)

/-- tally loop of `formulas` (src/structure.rs:340-347): counts are `i8`; second component is
`max_count`. -/
def formulaTally (species : List String) : List (String × Int8) × Int8 :=
  species.foldl (init := ([], 0)) fun acc sp =>
    let m := amapUpsert acc.1 sp 0 fun n => n + 1
    let count := (amapGet? m sp).getD 0
    (m, if acc.2 < count then count else acc.2)

/-- the range `2..(max_count + 1)` of `i8` (src/structure.rs:350). -/
def divRange (maxCount : Int8) : List Int8 :=
  let hi := (maxCount + 1).toInt
  (List.range (hi - 2).toNat).map fun (i : Nat) => Int8.ofInt (2 + (i : Int))

/-- greatest common factor loop (src/structure.rs:348-354). -/
def formulaGcf (tallies : List (String × Int8)) (maxCount : Int8) : Int8 :=
  (divRange maxCount).foldl (init := 1) fun gcf div =>
    if tallies.all fun p => p.2 % div == 0 then div else gcf

/-- `.sorted()` on `(&String, i8)` tuples (src/structure.rs:361): lexicographic. -/
def sortTallies (tallies : List (String × Int8)) : List (String × Int8) :=
  tallies.mergeSort fun p q => decide (p.1 < q.1) || (p.1 == q.1 && decide (p.2 ≤ q.2))

/-- one element of a formula: the symbol and the count unless it is 1
(src/structure.rs:363-374). -/
def formulaPart (element : String) (count : Int8) : String :=
  if count ≠ 1 then element ++ toString count.toInt else element

/-- `formulas` (src/structure.rs:335-378); `ord` is the arbitrary hash-map order. -/
def formulas (ord : List (String × Int8) → List (String × Int8)) (s : Structure K) :
    String × String :=
  let (tallies, maxCount) := formulaTally s.species
  let gcf := formulaGcf tallies maxCount
  let sorted := sortTallies (ord tallies)
  (sorted.foldl (init := "") fun acc p => acc ++ formulaPart p.1 p.2,
   sorted.foldl (init := "") fun acc p => acc ++ formulaPart p.1 (p.2 / gcf))

end Species

end Structure

end CrystSymm
