import Verif.Model.Lib

set_option autoImplicit false

/-! # The unit tests of /repo, run on the model with IEEE doubles

These are *tests* (they only show that the model computes what the crate's own tests expect); no
theorem depends on this file.  `K = Float` uses the closed 3×3 inverse in place of the SVD
pseudo-inverse. -/

namespace CrystSymm.Tests

/-- `approx_equal_iter(a, b, tol)`, false on panic. -/
def approx (a b : List Float) (tol : Float) : Bool :=
  match approxEqualIter a b tol with
  | .ret r => r
  | _ => false

/-- some hash order: insertion order. -/
def orders : HashOrders Float :=
  ⟨id, fun _ l => l, id, id, fun _ l => l, id⟩

/-- reversed hash order. -/
def ordersRev : HashOrders Float :=
  ⟨List.reverse, fun _ l => l.reverse, List.reverse, List.reverse, fun _ l => l.reverse,
   List.reverse⟩

/-- `generate_structure` (src/structure.rs:400-418, src/reduce.rs:569-587). -/
def generateStructure : Structure Float :=
  Structure.new (Mat3.ofCols ⟨-3.748244, 0.0, 0.0⟩ ⟨1.874122, -4.750729, 0.0⟩
    ⟨0.0, 1.5562529, 6.25794799⟩) ["Au", "Au", "Se", "Se"]
    [⟨-1.8741, 0.7781, 3.1290⟩, ⟨0.0, 0.0, 0.0⟩, ⟨-1.8741, -3.0213, 1.7273⟩,
     ⟨0.0, -0.1732, 4.5307⟩] true

-- src/utils.rs:98-160
#guard approx [0.1, 0.2, 0.3] [0.11, 0.21, 0.31] 1e-3 == false
#guard approx [0.1, 0.2, 0.3] [0.10001, 0.20001, 0.30001] 1e-3
#guard numNegativeZero [0.1, 0.2, 0.3, 1e-7, -0.1] (1e-6 : Float) == (1, 1)
#guard decode 3360 3 1 9 = .ret [-1, 0, 0, 0, 1, 0, 0, 0, -1]
#guard compareMatrices (⟨1.0, 0.0, 0.0, 0.0, -1.0, 0.0, 0.0, 0.0, 1.0⟩ : Mat3 Float)
  ⟨1.01, 0.0, 0.0, 0.0, -1.01, 0.0, 0.0, 0.0, 1.01⟩ (List.replicate 9 0.001) = .ret false
#guard compareMatrices (⟨1.0, 0.0, 0.0, 0.0, -1.0, 0.0, 0.0, 0.0, 1.0⟩ : Mat3 Float)
  ⟨1.00001, 0.0, 1e-6, 0.0, -1.000001, 0.0, 0.0, 0.0, 1.0⟩ (List.replicate 9 0.001) = .ret true
#guard approx (normFracVec (⟨1e-3, 1e-3, 1e-3⟩ : Vec3 Float) ⟨-1.25, 1.000001, 1.47⟩).toList
  [0.75, 0.000001, 0.47] 1e-6
#guard approx (normFracVec (⟨1e-3, 1e-3, 1e-3⟩ : Vec3 Float) ⟨-1e-5, 0.47, -0.78⟩).toList
  [-1e-5, 0.47, 0.22] 1e-6

-- src/symmop.rs:95-145
def op1 : SymmOp Float := ⟨⟨0, 0, 1, 0, -1, 0, 1, 0, 0⟩, ⟨0.0, 0.5, -0.75⟩⟩
def op2 : SymmOp Float := ⟨⟨0, 1, 0, 1, 0, 0, 0, 0, 1⟩, ⟨0.0, 0.50001, -0.74999⟩⟩
#guard approx (op1.normalize ⟨1e-3, 1e-3, 1e-3⟩).translation.toList [0.0, 0.5, 0.25] 1e-4
#guard (op1.normalize ⟨1e-3, 1e-3, 1e-3⟩).isApproxEq ⟨op1.rotation, ⟨0.9999, 0.4999, 0.25001⟩⟩
  ⟨1e-3, 1e-3, 1e-3⟩
#guard approx (op1 * op2).translation.toList [0.5, 0.5, -1.5] 1e-4
#guard (op1 * op2).rotation = ⟨0, 0, 1, -1, 0, 0, 0, 1, 0⟩
#guard approx (op1.apply ⟨0.5, 0.25, -0.75⟩).toList [-0.75, 0.25, -0.25] 1e-4

-- src/structure.rs:420-647
#guard approx [Float.ofNat generateStructure.numSites, generateStructure.a, generateStructure.b,
    generateStructure.c, generateStructure.alpha, generateStructure.beta, generateStructure.gamma,
    generateStructure.volume]
  [4.0, 3.748244, 5.107030380008033, 6.44855306023863, 102.97327735350085, 90.0,
    111.52881069906073, 111.43460086012757] 1e-6
#guard generateStructure.formulas id == ("Au2Se2", "AuSe")
#guard generateStructure.formulas List.reverse == ("Au2Se2", "AuSe")
#guard ({ generateStructure with species := ["Si", "Si", "Si", "Si", "Si", "Si", "O", "O", "P", "P",
    "P", "P"] } : Structure Float).formulas id == ("O2P4Si6", "OP2Si3")
#guard generateStructure.getMinElement id =
  .ret ("Au", [("Au", 0), ("Se", 2)], [("Au", 2), ("Se", 2)])
#guard approx generateStructure.metricTensor.toListCM
  (⟨14.04933308, -7.02466654, 0.0, -7.02466654, 26.0817593, -7.39333626, 0.0, -7.39333626,
    41.58383657⟩ : Mat3 Float).toListCM 1e-6
#guard match generateStructure.reciprocalLattice with
  | .ret m => approx m.toListCM (⟨-1.67630104, -0.66128644, 0.16445151, 0.0, -1.32257287,
      0.32890302, 0.0, 0.0, 1.00403284⟩ : Mat3 Float).transpose.toListCM 1e-6
  | _ => false
#guard approx (generateStructure.delaunayMatrix 3).toList
  [1.874122, 3.1944760999999997, -6.25794799] 1e-6
#guard ((generateStructure.fracCoords.zip [[0.4999, 0.0000, 0.5], [0.0, 0.0, 0.0],
    [0.863192, 0.726384, 0.276014], [0.136808, 0.273616, 0.723986]]).all fun p =>
  approx (p.1.map fun x => if x < -1e-5 then x + 1 else x).toList p.2 2e-4)
#guard ((({ generateStructure with fracCoords := [⟨1.05, 2.6, 1.5⟩, ⟨0.0, 0.0, 0.0⟩,
    ⟨-0.75, 0.5, 0.5⟩, ⟨-1.05, -2.61, -1.5⟩] } : Structure Float).normalizeCoords
    0.05).fracCoords.zip [[0.05, 0.6, 0.5], [0.0, 0.0, 0.0], [0.25, 0.5, 0.5],
    [0.95, 0.39, 0.5]]).all fun p => approx p.1.toList p.2 1e-4
#guard match generateStructure.applyTransformation 50 ⟨2, 1, 0, 0, 1, 0, 0, 0, 1⟩ 0.01 with
  | .ret s => approx s.lattice.toListCM (⟨-7.496488, -1.874122, 0.0, 0.0, -4.750729, 1.556253, 0.0,
      0.0, 6.257948⟩ : Mat3 Float).toListCM 1e-6 && s.species.length == 8
      && approx (generateStructure.getTransformationMatrix s).toListCM
        (⟨2, 1, 0, 0, 1, 0, 0, 0, 1⟩ : Mat3 Float).toListCM 1e-6
  | _ => false

-- src/reduce.rs:595-645.  In the first two tests the vectors `b` and `a + b` have exactly the same
-- length, so which of the two is chosen depends on the last bit of the SVD inverse, which this file
-- does not reproduce; the lengths and the metric do not depend on it.
#guard match (generateStructure.applyTransformation 50 ⟨2, 1, 0, 0, 1, 0, 0, 0, 2⟩ 0.05).bind
    (Reducer.default.findPrimitiveCell id) with
  | .ret s => approx [s.a, s.b, s.c, s.volume] [generateStructure.a, generateStructure.b,
      generateStructure.c, generateStructure.volume] 1e-6
  | _ => false
#guard match (Reducer.default.findPrimitiveCell id generateStructure).bind
    (Reducer.default.niggliReduce · 1e-5) with
  | .ret s => approx s.metricTensor.toListCM
      (Structure.metricTensor ⟨⟨-3.748244, 1.874122, 0.0, 0.0, 4.750729, -1.556253, 0.0,
        0.0, -6.257948⟩, [], [], []⟩ : Mat3 Float).toListCM 1e-5
  | _ => false
-- starting from the other choice of `b` gives the lattice of the test
#guard match Reducer.default.niggliReduce { generateStructure with
      lattice := Mat3.ofCols ⟨-3.748244, 0.0, 0.0⟩ ⟨-1.874122, -4.750729, 0.0⟩
        ⟨0.0, 1.5562529, 6.25794799⟩ } 1e-5 with
  | .ret s => approx s.lattice.toListCM (⟨-3.748244, 1.874122, 0.0, 0.0, 4.750729, -1.556253, 0.0,
      0.0, -6.257948⟩ : Mat3 Float).toListCM 1e-6
  | _ => false
#guard match (Reducer.default.findPrimitiveCell id generateStructure).bind
    (Reducer.default.delaunayReduce · true) with
  | .ret s => approx s.lattice.toListCM (⟨-3.748244, -1.874122, -1.874122, 0.0, 4.750729, 3.1944761,
      0.0, 0.0, -6.257948⟩ : Mat3 Float).toListCM 1e-6
  | _ => false

-- src/spacegroup.rs:167-314
def gens : List (SymmOp Float) :=
  [⟨1, ⟨0, 0, 0⟩⟩, ⟨⟨1, 0, 0, 0, -1, 0, 0, 0, 1⟩, ⟨0, 0, 0.5⟩⟩, ⟨1, ⟨0.5, 0.5, 0⟩⟩]
def hasOp (ops : List (SymmOp Float)) (op : SymmOp Float) : Bool :=
  ops.any fun o => decide (o.rotation = op.rotation)
    && approx o.translation.toList op.translation.toList 1e-6
#guard match SpaceGroup.fromGenerators 50 gens ⟨1e-3, 1e-3, 1e-3⟩ with
  | .ret ops => [(⟨1, ⟨0, 0, 0⟩⟩ : SymmOp Float), ⟨1, ⟨0.5, 0.5, 0⟩⟩,
      ⟨⟨1, 0, 0, 0, -1, 0, 0, 0, 1⟩, ⟨0, 0, 0.5⟩⟩,
      ⟨⟨1, 0, 0, 0, -1, 0, 0, 0, 1⟩, ⟨0.5, 0.5, 0.5⟩⟩].all (hasOp ops)
  | _ => false
#guard match (SpaceGroup.fromGenerators 50 gens ⟨1e-3, 1e-3, 1e-3⟩).bind
    (SpaceGroup.applyTransformation 50 · ⟨2, 0, 0, 0, 1, 0, 0, 0, 1⟩ ⟨1e-3, 1e-3, 1e-3⟩) with
  | .ret ops => [(⟨1, ⟨0, 0, 0⟩⟩ : SymmOp Float), ⟨1, ⟨0.25, 0.5, 0⟩⟩, ⟨1, ⟨0.5, 0, 0⟩⟩,
      ⟨1, ⟨0.75, 0.5, 0⟩⟩, ⟨⟨1, 0, 0, 0, -1, 0, 0, 0, 1⟩, ⟨0, 0, 0.5⟩⟩,
      ⟨⟨1, 0, 0, 0, -1, 0, 0, 0, 1⟩, ⟨0.75, 0.5, 0.5⟩⟩,
      ⟨⟨1, 0, 0, 0, -1, 0, 0, 0, 1⟩, ⟨0.5, 0, 0.5⟩⟩].all (hasOp ops)
  | _ => false

-- whole pipeline on examples/analyzer.rs (the 2×2×2 supercell), under two hash orders
/-- number, symbol and number of operations. -/
def info (h : HashOrders Float) (s : Structure Float) : Outcome (Nat × String × Nat) :=
  ((⟨0.05, 5.0⟩ : SymmetryAnalyzer Float).getSpaceGroupInfo h 100 s).bind fun r =>
    .ret (r.1, r.2.1, r.2.2.length)
#guard (generateStructure.applyTransformation 50 ⟨2, 0, 0, 0, 2, 0, 0, 0, 2⟩ 0.05).bind (info orders)
  = .ret (12, "C12/m1", 32)
#guard info ordersRev generateStructure = .ret (12, "C12/m1", 4)

end CrystSymm.Tests
