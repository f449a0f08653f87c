import Verif.Model.Analyzer

set_option autoImplicit false

/-! # Model of src/lib.rs (the functions exported to Python) -/

namespace CrystSymm

namespace PyApi

section
variable {K : Type} [Add K] [Sub K] [Mul K] [Div K] [Neg K] [Zero K] [One K] [IntCast K]
  [LT K] [LE K] [DecidableLT K] [DecidableLE K] [BEq K] [FRound K] [FTrans K]

/-- `Vector3::new(vec[0], vec[1], vec[2])` with bounds checks (src/lib.rs:27). -/
def coordOfList : List K → Outcome (Vec3 K)
  | x :: y :: z :: _ => .ret ⟨x, y, z⟩
  | _ => .panic "index out of bounds"

/-- `generate_input_structure` (src/lib.rs:17-36). -/
def generateInputStructure (lattice : List K) (species : List String) (coords : List (List K))
    (coordsAreCart : Bool) : Outcome (Structure K) :=
  (Outcome.ofOption "Matrix init. from iterator: not enough elements"
    (Mat3.ofListCM lattice)).bind fun l =>
  (mapOutcome coordOfList coords).bind fun cs =>
  .ret (Structure.new l species cs coordsAreCart)

/-- `generate_output_structure_data` (src/lib.rs:38-49). -/
def generateOutputStructureData (s : Structure K) : List K × List String × List (List K) :=
  (s.lattice.toListCM, s.species, s.fracCoords.map Vec3.toList)

/-- `find_primitive` (src/lib.rs:52-69). -/
def findPrimitive (h : HashOrders K) (lattice : List K) (species : List String)
    (coords : List (List K)) (coordsAreCart : Bool) (dtol atol : K) :
    Outcome (List K × List String × List (List K)) :=
  (generateInputStructure lattice species coords coordsAreCart).bind fun s =>
  ((⟨dtol, atol⟩ : Reducer K).findPrimitiveCell h.minEle s).bind fun p =>
  .ret (generateOutputStructureData p)

/-- `niggli_reduce` (src/lib.rs:72-90). -/
def niggliReduce (lattice : List K) (species : List String)
    (coords : List (List K)) (coordsAreCart : Bool) (tol : K) :
    Outcome (List K × List String × List (List K)) :=
  (generateInputStructure lattice species coords coordsAreCart).bind fun s =>
  (Reducer.default.niggliReduce s tol).bind fun p =>
  .ret (generateOutputStructureData p)

/-- one operation as handed to Python (src/lib.rs:108-112). -/
def opToLists (op : SymmOp K) : List Int8 × List K :=
  (op.rotation.transpose.toListCM, op.translation.toList)

/-- `get_space_group_info` (src/lib.rs:93-115). -/
def getSpaceGroupInfo (h : HashOrders K) (fuel : Nat) (lattice : List K) (species : List String)
    (coords : List (List K)) (coordsAreCart : Bool) (dtol atol : K) :
    Outcome (Nat × String × List (List Int8 × List K)) :=
  (generateInputStructure lattice species coords coordsAreCart).bind fun s =>
  ((⟨dtol, atol⟩ : SymmetryAnalyzer K).getSpaceGroupInfo h fuel s).bind fun (num, symbol, ops) =>
  .ret (num, symbol, ops.map opToLists)

/-- `get_standard_conventional_structure` (src/lib.rs:118-134). -/
def getStandardConventionalStructure (h : HashOrders K) (fuel : Nat) (lattice : List K)
    (species : List String) (coords : List (List K)) (coordsAreCart : Bool) (dtol atol : K) :
    Outcome (List K × List String × List (List K)) :=
  (generateInputStructure lattice species coords coordsAreCart).bind fun s =>
  ((⟨dtol, atol⟩ : SymmetryAnalyzer K).getStandardConventionalStructure h fuel s).bind fun p =>
  .ret (generateOutputStructureData p)

/-- `get_standard_primitive_structure` (src/lib.rs:137-153). -/
def getStandardPrimitiveStructure (h : HashOrders K) (fuel : Nat) (lattice : List K)
    (species : List String) (coords : List (List K)) (coordsAreCart : Bool) (dtol atol : K) :
    Outcome (List K × List String × List (List K)) :=
  (generateInputStructure lattice species coords coordsAreCart).bind fun s =>
  ((⟨dtol, atol⟩ : SymmetryAnalyzer K).getStandardPrimitiveStructure h fuel s).bind fun p =>
  .ret (generateOutputStructureData p)

end

end PyApi

end CrystSymm
