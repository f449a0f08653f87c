import Verif.Model.Analyzer
import Verif.Model.Core
import Verif.Model.Lib
import Verif.Model.Linalg
import Verif.Model.PointGroup
import Verif.Model.Reduce
import Verif.Model.Scalar
import Verif.Model.SpaceGroup
import Verif.Model.Structure
import Verif.Model.SymmOp
import Verif.Model.Utils
import Verif.Data.Core
import Verif.Data.PointGroup
import Verif.Data.SpaceGroup
import Verif.Tests.UnitTests
import Verif.Spec.Affine
import Verif.Spec.Angles
import Verif.Spec.Basic
import Verif.Spec.Binary64
import Verif.Spec.Centring
import Verif.Spec.Clear
import Verif.Spec.Crystal
import Verif.Spec.Edges
import Verif.Spec.Formula
import Verif.Spec.Generated
import Verif.Spec.Isometry
import Verif.Spec.Lattice
import Verif.Spec.Motion
import Verif.Spec.Niggli
import Verif.Spec.PointGroups
import Verif.Spec.Primitive
import Verif.Spec.Relative
import Verif.Spec.Resolved
import Verif.Spec.Rotate
import Verif.Spec.Rounding
import Verif.Spec.Same
import Verif.Spec.SpaceGroups
import Verif.Spec.Symbols
import Verif.Spec.System
import Verif.Proofs.AMap
import Verif.Proofs.AtomOrder
import Verif.Proofs.AxisPick
import Verif.Proofs.Binary64
import Verif.Proofs.BlockFrame
import Verif.Proofs.BlockPick
import Verif.Proofs.BravaisCert
import Verif.Proofs.BravaisCertData
import Verif.Proofs.BravaisEntry
import Verif.Proofs.BravaisExact
import Verif.Proofs.BravaisSymm
import Verif.Proofs.BucketSort
import Verif.Proofs.Centred
import Verif.Proofs.Centring
import Verif.Proofs.ChangeBasis
import Verif.Proofs.Codes
import Verif.Proofs.Congruent
import Verif.Proofs.ConvShape
import Verif.Proofs.Coset
import Verif.Proofs.CrateProduct
import Verif.Proofs.CubicCell
import Verif.Proofs.CubicSearch
import Verif.Proofs.Decode
import Verif.Proofs.Delaunay
import Verif.Proofs.Distortion
import Verif.Proofs.DyadicCell
import Verif.Proofs.DyadicCube
import Verif.Proofs.Formula
import Verif.Proofs.Generate
import Verif.Proofs.Generators
import Verif.Proofs.Greedy
import Verif.Proofs.GridCrystal
import Verif.Proofs.GridLattice
import Verif.Proofs.GridStandard
import Verif.Proofs.Index
import Verif.Proofs.LatticeChar
import Verif.Proofs.LinAlg
import Verif.Proofs.Mag
import Verif.Proofs.Niggli
import Verif.Proofs.NiggliBound
import Verif.Proofs.NiggliCert
import Verif.Proofs.NiggliCertData
import Verif.Proofs.NiggliMin
import Verif.Proofs.NiggliRun
import Verif.Proofs.NiggliTerm
import Verif.Proofs.NiggliUnique
import Verif.Proofs.Normalize
import Verif.Proofs.OpSearch
import Verif.Proofs.Orbits
import Verif.Proofs.Origins
import Verif.Proofs.Outcome
import Verif.Proofs.Pinv
import Verif.Proofs.PointGroupOps
import Verif.Proofs.Primitive
import Verif.Proofs.Rebuild
import Verif.Proofs.Rename
import Verif.Proofs.Round
import Verif.Proofs.RoundedApply
import Verif.Proofs.RoundedBox
import Verif.Proofs.RoundedChar
import Verif.Proofs.RoundedDelaunay
import Verif.Proofs.RoundedFinish
import Verif.Proofs.RoundedGroup
import Verif.Proofs.RoundedHolo
import Verif.Proofs.RoundedNiggli
import Verif.Proofs.RoundedOps
import Verif.Proofs.RoundedOrder
import Verif.Proofs.RoundedPrim
import Verif.Proofs.RoundedSearch
import Verif.Proofs.RoundedSelect
import Verif.Proofs.RoundedStage
import Verif.Proofs.RoundedTrans
import Verif.Proofs.RoundedTwin
import Verif.Proofs.RoundedTwinLoop
import Verif.Proofs.SameAtoms
import Verif.Proofs.Search
import Verif.Proofs.Selection
import Verif.Proofs.Settings
import Verif.Proofs.SgCheckCubic
import Verif.Proofs.SgCheckHexagonal
import Verif.Proofs.SgCheckLow
import Verif.Proofs.SgCheckTetragonal
import Verif.Proofs.Sort
import Verif.Proofs.SpaceGroupGens
import Verif.Proofs.SpaceGroupTables
import Verif.Proofs.Structure
import Verif.Proofs.Supercell
import Verif.Proofs.Symbols
import Verif.Proofs.SymmOp
import Verif.Proofs.TransOps
import Verif.Props.AngleTol
import Verif.Props.AtomOrder
import Verif.Props.BlockBoxes
import Verif.Props.Blocks
import Verif.Props.Bravais
import Verif.Props.BravaisExact
import Verif.Props.Centred
import Verif.Props.CentredBoxes
import Verif.Props.CentredCells
import Verif.Props.ChangeBasis
import Verif.Props.Compare
import Verif.Props.Complete
import Verif.Props.CompleteCases
import Verif.Props.Congruent
import Verif.Props.Conventional
import Verif.Props.Copies
import Verif.Props.CrystalSymm
import Verif.Props.CutLists
import Verif.Props.Decode
import Verif.Props.Delaunay
import Verif.Props.DelaunayFull
import Verif.Props.DelaunayIdem
import Verif.Props.DelaunayUnique
import Verif.Props.Diamond
import Verif.Props.DyadicCubes
import Verif.Props.DyadicOrder
import Verif.Props.Ends
import Verif.Props.ExactChar
import Verif.Props.ExactDelaunay
import Verif.Props.ExactGroup
import Verif.Props.ExactNiggli
import Verif.Props.Fuel
import Verif.Props.GeneratorRange
import Verif.Props.Generators
import Verif.Props.Identify
import Verif.Props.Iff
import Verif.Props.ImagesReduce
import Verif.Props.InputOrder
import Verif.Props.Instances
import Verif.Props.LatticeChar
import Verif.Props.LatticeTables
import Verif.Props.Niggli
import Verif.Props.NiggliIdem
import Verif.Props.NiggliRun
import Verif.Props.NiggliTerm
import Verif.Props.NiggliUnique
import Verif.Props.Normalize
import Verif.Props.OneAtom
import Verif.Props.OpSearch
import Verif.Props.Orthogonal
import Verif.Props.PanicList
import Verif.Props.Panics
import Verif.Props.PeriodicImages
import Verif.Props.Pipeline
import Verif.Props.PointGroup
import Verif.Props.Primitive
import Verif.Props.PrimitiveIndex
import Verif.Props.PrimitiveSites
import Verif.Props.PyApi
import Verif.Props.Realized
import Verif.Props.Rename
import Verif.Props.RepeatedBoxes
import Verif.Props.RepeatedCells
import Verif.Props.Report
import Verif.Props.Returns
import Verif.Props.RockSalt
import Verif.Props.Rotate
import Verif.Props.RoundedCases
import Verif.Props.RoundedInfo
import Verif.Props.RoundedNiggli
import Verif.Props.RoundedOps
import Verif.Props.RoundedSearch
import Verif.Props.Rounding
import Verif.Props.Salt
import Verif.Props.SameCrystal
import Verif.Props.Settings
import Verif.Props.Shortest
import Verif.Props.ShortestCell
import Verif.Props.SpaceGroupTables
import Verif.Props.Species
import Verif.Props.Structure
import Verif.Props.Symbols
import Verif.Props.SymmOp
import Verif.Props.Tidy
import Verif.Props.TidyRounded
import Verif.Props.TransOps
import Verif.Props.Transform
import Verif.Props.Unit
