import Verif.Props.MeshIndex
import Verif.Props.BoxMesh
import Verif.Props.Geometry
import Verif.Props.Geometry2D
import Verif.Props.HexVolume
import Verif.Props.BoundaryVelocity
import Verif.Props.Sgh
import Verif.Props.SghEnergy
import Verif.Props.SghKinematics
import Verif.Props.TimeStep
import Verif.Props.SolverLoop
import Verif.Props.Materials
import Verif.Props.Mars
import Verif.Props.RegionFill
import Verif.Props.MaterialMaps
import Verif.Props.Shapes
import Verif.Props.Output
import Verif.Props.BoundarySets
import Verif.Props.Equilibration
import Verif.Props.Table
import Verif.Props.Strings
import Verif.Props.InputDeck
import Verif.Props.YamlNode
import Verif.Props.YamlParse
import Verif.Props.Sgtm
import Verif.Props.SgtmBoundary
import Verif.Props.SghRz
import Verif.Props.SghRzKinematics
import Verif.Props.Parallel
import Verif.Props.InitialFields
import Verif.Props.StressBC
import Verif.Props.LevelSet
import Verif.Model.EvpLinalg
import Verif.Proofs.EvpLinalg
import Verif.Props.EvpLinalg
import Verif.Model.EvpTensor
import Verif.Proofs.EvpTensor
import Verif.Props.EvpTensor
import Verif.Props.EvpElastic
import Verif.Props.EvpReference
import Verif.Model.EvpOrient
import Verif.Props.EvpOrient
import Verif.Model.EvpCrystal
import Verif.Proofs.EvpCrystal
import Verif.Props.EvpCrystal
import Verif.Model.EvpHarden
import Verif.Props.EvpHarden
import Verif.Model.EvpStress
import Verif.Props.EvpStress
import Verif.Model.EvpGreen
import Verif.Proofs.EvpGreen
import Verif.Props.EvpGreen
import Verif.Props.EvpField
import Verif.Model.EvpStep
import Verif.Props.EvpStep
import Verif.Model.EvpCouple
import Verif.Props.EvpCouple
import Verif.Model.Contact
import Verif.Model.ContactSearch
import Verif.Model.ContactForce
import Verif.Model.ContactPairs
import Verif.Props.ContactPatch
import Verif.Props.ContactElement
import Verif.Props.ContactSearch
import Verif.Props.ContactForce
import Verif.Props.ContactPairs
import Verif.Model.Cohesive
import Verif.Props.CohesiveTopology
import Verif.Props.CohesiveGeometry
import Verif.Props.CohesiveLaw
import Verif.Props.CohesiveForce
import Verif.Model.EvpLarge
import Verif.Model.EvpLargeLaw
import Verif.Model.EvpLargeStiff
import Verif.Model.EvpLargeGrid
import Verif.Props.EvpLargeExp
import Verif.Props.EvpLargeAverage
import Verif.Props.EvpLargePolar
import Verif.Props.EvpLargeSplit
import Verif.Props.EvpLargeFlow
import Verif.Props.EvpLargeIso
import Verif.Props.EvpLargeNewton
import Verif.Props.EvpLargeStiff
import Verif.Props.EvpLargeGrid
import Verif.Model.YamlWrite
import Verif.Props.YamlRoundTrip
import Verif.Model.MaxEigen
import Verif.Props.MaxEigen
import Verif.Model.OutputFields
import Verif.Proofs.OutputFields
import Verif.Props.OutputFields
import Verif.Model.MeshRead
import Verif.Props.MeshRead
import Verif.Model.PolarMesh
import Verif.Props.PolarMesh
import Verif.Model.RzState
import Verif.Props.RzState
import Verif.Model.ParseBcs
import Verif.Proofs.EachWord
import Verif.Props.ParseBcs
import Verif.Model.Jmatpro
import Verif.Props.Jmatpro
import Verif.Model.ParseMaterials
import Verif.Props.ParseMaterials
import Verif.Model.ParseMesh
import Verif.Props.ParseMesh
import Verif.Model.ParseRegions
import Verif.Props.ParseRegions
import Verif.Props.DeckFill
import Verif.Model.VoxelFile
import Verif.Props.VoxelFile
import Verif.Model.EvpColors
import Verif.Props.EvpColors
import Verif.Model.EvpPiece
import Verif.Props.EvpPiece
import Verif.Model.CStream
import Verif.Model.EvpGrains
import Verif.Proofs.CStream
import Verif.Props.EvpGrains
import Verif.Model.EvpDeck
import Verif.Proofs.DeckLines
import Verif.Props.EvpDeck
import Verif.Model.EvpCrystalFile
import Verif.Props.EvpCrystalFile
import Verif.Model.DumpFiles
import Verif.Props.DumpFiles
import Verif.Model.StateFiles
import Verif.Props.StateFiles
import Verif.Model.ThermRun
import Verif.Props.ThermRun
import Verif.Model.EvpRotated
import Verif.Proofs.EvpRotated
import Verif.Proofs.EvpRotatedGrid
import Verif.Props.EvpRotated
import Verif.Model.EvpFrame
import Verif.Props.EvpFrame
import Verif.Model.EvpTangent
import Verif.Props.EvpTangent
import Verif.Model.FractureRun
import Verif.Props.FractureRun
import Verif.Model.StateAlloc
import Verif.Props.StateAlloc
import Verif.Model.SghRzDir
import Verif.Props.SghRzDir
import Verif.Model.TiptonMesh
import Verif.Proofs.TiptonMesh
import Verif.Props.TiptonMesh
import Verif.Model.EvpLargeJ2
import Verif.Props.EvpLargeJ2
import Verif.Model.DualMemory
import Verif.Proofs.DualMemory
import Verif.Props.DualMemory
import Verif.Props.EvpHdf5
import Verif.Props.AnnStrength
import Verif.Model.EvpRanks
import Verif.Proofs.EvpRanks
import Verif.Props.EvpRanks
import Verif.Model.EvpLink
import Verif.Props.EvpLink
import Verif.Model.SghWhole
import Verif.Props.SghWhole
import Verif.Model.RzWhole
import Verif.Props.RzWhole
import Verif.Model.LsWhole
import Verif.Props.LsWhole
import Verif.Model.EvpCommand
import Verif.Props.EvpCommand
import Verif.Model.SghCracks
import Verif.Props.SghCracks
import Verif.Model.HeatChain
import Verif.Props.HeatChain
import Verif.Props.LevelSet2
import Verif.Props.MarsLaw
import Verif.Model.RefQuad
import Verif.Model.RefElem
import Verif.Proofs.RefElem
import Verif.Props.RefElem
import Verif.Props.RefQuad
import Verif.Props.RefElemOrder
import Verif.Model.YamlIter
import Verif.Props.YamlIter
import Verif.Model.OldMesh
import Verif.Props.OldMesh
import Verif.Props.OldCylinder
import Verif.Model.Voxel
import Verif.Props.Voxel
import Verif.Props.VoxelRay
import Verif.Model.YamlStruct
import Verif.Props.YamlStruct
import Verif.Props.YamlTypes
import Verif.Props.YamlStrict
import Verif.Model.StlFile
import Verif.Props.StlFile
import Verif.Model.OldEnsight
import Verif.Props.OldEnsight
import Verif.Model.Checkpoint
import Verif.Props.Checkpoint
import Verif.Model.BoundaryPatch
import Verif.Props.BoundaryPatch
import Verif.Model.OldVolume
import Verif.Props.OldVolume
import Verif.Model.Mma
import Verif.Props.Mma
import Verif.Model.OptModules
import Verif.Props.OptModules
import Verif.Model.TagPatches
import Verif.Props.TagPatches
