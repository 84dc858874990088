import Verif.Base
import Verif.Model.Utilities
import Verif.Spec.Utilities
import Verif.Lemmas.Utilities
import Verif.Props.Utilities
import Verif.Model.LookupTables
import Verif.Spec.LookupTables
import Verif.Lemmas.LookupTables
import Verif.Props.LookupTables
import Verif.Model.PicsarVector
import Verif.Spec.PicsarVector
import Verif.Lemmas.PicsarVector
import Verif.Props.PicsarVector
import Verif.Model.TableIO
import Verif.Spec.TableIO
import Verif.Lemmas.TableIO
import Verif.Props.TableIO
import Verif.Model.Vec3
import Verif.Lemmas.Vec3
import Verif.Model.Chi
import Verif.Props.Chi
import Verif.Model.BreitWheeler
import Verif.Spec.BreitWheeler
import Verif.Lemmas.BreitWheeler
import Verif.Model.QuantumSync
import Verif.Spec.OpticalDepth
import Verif.Lemmas.OpticalDepth
import Verif.Props.OpticalDepth
import Verif.Props.BreitWheeler
import Verif.Spec.QuantumSync
import Verif.Lemmas.QuantumSync
import Verif.Props.QuantumSync
import Verif.Model.Schwinger
import Verif.Props.Schwinger
import Verif.Model.OmpTables
import Verif.Lemmas.OmpTables
import Verif.Props.OmpTables
import Verif.Model.Innards
import Verif.Props.Innards
import Verif.Model.Species
import Verif.Spec.Species
import Verif.Lemmas.Species
import Verif.Props.Species
import Verif.Model.Pushers
import Verif.Spec.Pushers
import Verif.Lemmas.Pushers
import Verif.Props.Pushers
import Verif.Model.Grid
import Verif.Lemmas.Grid
import Verif.Model.Maxwell
import Verif.Spec.Maxwell
import Verif.Lemmas.Maxwell
import Verif.Props.Maxwell
import Verif.Spec.MaxwellGeo
import Verif.Lemmas.MaxwellGeo
import Verif.Props.MaxwellRz
import Verif.Props.MaxwellCkc
import Verif.Props.MaxwellN
import Verif.Model.Norder2d
import Verif.Props.Norder2d
import Verif.Model.Deposition
import Verif.Spec.Deposition
import Verif.Lemmas.Deposition
import Verif.Props.Deposition
import Verif.Lemmas.Esirkepov
import Verif.Model.PicLoop
import Verif.Spec.PicLoop
import Verif.Model.Topology
import Verif.Spec.Topology
import Verif.Lemmas.Topology
import Verif.Props.Topology
import Verif.Model.Mpi
import Verif.Spec.Mpi
import Verif.Lemmas.Mpi
import Verif.Model.FieldExchange
import Verif.Spec.FieldExchange
import Verif.Lemmas.FieldExchange
import Verif.Props.FieldExchange
import Verif.Model.Datatypes
import Verif.Spec.Datatypes
import Verif.Lemmas.Datatypes
import Verif.Props.Datatypes
import Verif.Model.FArr
import Verif.Lemmas.FArr
import Verif.Model.Sorting
import Verif.Spec.Sorting
import Verif.Lemmas.Sorting
import Verif.Props.Sorting
import Verif.Model.LoadBalance
import Verif.Spec.LoadBalance
import Verif.Lemmas.LoadBalance
import Verif.Props.LoadBalance
import Verif.Model.Remap
import Verif.Spec.Remap
import Verif.Lemmas.Remap
import Verif.Props.Remap
import Verif.Model.Tiling
import Verif.Spec.Tiling
import Verif.Lemmas.Tiling
import Verif.Props.Tiling
import Verif.Lemmas.TileSplit
import Verif.Model.TileOmp
import Verif.Spec.TileOmp
import Verif.Lemmas.TileOmp
import Verif.Props.TileOmp
import Verif.Model.SendCount
import Verif.Props.SendCount
import Verif.Model.ParticleBcs
import Verif.Spec.ParticleBcs
import Verif.Lemmas.ParticleBcs
import Verif.Props.ParticleBcs
import Verif.Model.MpiLists
import Verif.Lemmas.MpiLists
import Verif.Model.PartExchange
import Verif.Spec.PartExchange
import Verif.Props.PartExchange
import Verif.Lemmas.PartBuffers
import Verif.Lemmas.PartMatch
import Verif.Lemmas.PartNonBlocking
import Verif.Lemmas.PartBlocking
import Verif.Model.Window
import Verif.Spec.Window
import Verif.Lemmas.Window
import Verif.Props.Window
import Verif.Model.Pml
import Verif.Spec.Pml
import Verif.Lemmas.Pml
import Verif.Props.Pml
import Verif.Model.Energy
import Verif.Spec.Energy
import Verif.Lemmas.Energy
import Verif.Props.Energy
import Verif.Model.Gather
import Verif.Spec.Gather
import Verif.Lemmas.Gather
import Verif.Props.Gather
import Verif.Model.GatherUnrolled
import Verif.Lemmas.GatherSum
import Verif.Lemmas.GatherSym
import Verif.Lemmas.GatherDefault
import Verif.Lemmas.GatherAll
import Verif.Spec.Current
import Verif.Props.Current
import Verif.Lemmas.EsirkClosed
import Verif.Lemmas.TileRun
import Verif.Model.TileReduce
import Verif.Spec.TileReduce
import Verif.Lemmas.TileReduce
import Verif.Lemmas.TileCurrent
import Verif.Props.TileReduce
import Verif.Lemmas.DeposeFault
import Verif.Props.TileCharge
import Verif.Model.Input
import Verif.Spec.Input
import Verif.Lemmas.Input
import Verif.Lemmas.InputCl
import Verif.Lemmas.InputFile
import Verif.Props.Input
import Verif.Lemmas.Esirk2dLoop
import Verif.Model.Deposition2d
import Verif.Spec.Deposition2d
import Verif.Lemmas.Deposition2d
import Verif.Props.Deposition2d
import Verif.Model.RzVolume
import Verif.Spec.RzVolume
import Verif.Lemmas.RzVolume
import Verif.Props.RzVolume
import Verif.Model.ChargeVec
import Verif.Spec.ChargeVec
import Verif.Lemmas.ChargeVec
import Verif.Props.ChargeVec
import Verif.Model.Loading
import Verif.Spec.Loading
import Verif.Lemmas.Loading
import Verif.Props.Loading
import Verif.Model.Antenna
import Verif.Spec.Antenna
import Verif.Lemmas.Antenna
import Verif.Props.Antenna
import Verif.Model.FieldFile
import Verif.Spec.FieldFile
import Verif.Lemmas.FieldFile
import Verif.Props.FieldFile
import Verif.Model.DivDiag
import Verif.Spec.DivDiag
import Verif.Lemmas.DivDiag
import Verif.Props.DivDiag
import Verif.Model.PartDump
import Verif.Spec.PartDump
import Verif.Lemmas.PartDump
import Verif.Props.PartDump
import Verif.Model.TempDiag
import Verif.Spec.TempDiag
import Verif.Lemmas.TempDiag
import Verif.Props.TempDiag
import Verif.Model.Stencil
import Verif.Spec.Stencil
import Verif.Lemmas.Stencil
import Verif.Props.Stencil
import Verif.Model.Psatd
import Verif.Spec.Psatd
import Verif.Props.Psatd
import Verif.Lemmas.PsatdSymbol
import Verif.Lemmas.PsatdKvec
import Verif.Lemmas.PsatdMode
import Verif.Lemmas.PsatdGrid
import Verif.Lemmas.PsatdStep
import Verif.Lemmas.PsatdFinal
import Verif.Lemmas.PsatdEnergy
import Verif.Model.PsatdMat
import Verif.Lemmas.PsatdMat
import Verif.Props.PsatdMat
import Verif.Model.PsatdCopy
import Verif.Lemmas.PsatdCopy
import Verif.Props.PsatdCopy
import Verif.Model.Rates
import Verif.Spec.Rates
import Verif.Lemmas.Rates
import Verif.Props.Rates
import Verif.Model.DirectJ
import Verif.Spec.DirectJ
import Verif.Lemmas.DirectJ
import Verif.Props.DirectJ
import Verif.Model.GodfreyTable
import Verif.Model.Godfrey
import Verif.Spec.Godfrey
import Verif.Lemmas.Godfrey
import Verif.Props.Godfrey
import Verif.Model.PushKernels
import Verif.Model.PushManager
import Verif.Spec.PushManager
import Verif.Lemmas.PushManager
import Verif.Props.PushManager
import Verif.Lemmas.PushWork
import Verif.Model.TestProgram
import Verif.Spec.TestProgram
import Verif.Lemmas.TestProgram
import Verif.Props.TestProgram
import Verif.Model.FftGroups
import Verif.Spec.FftGroups
import Verif.Lemmas.FftGroups
import Verif.Props.FftGroups
import Verif.Lemmas.FftGroupsRun
import Verif.Lemmas.FftGroupsSetup
import Verif.Model.Combined
import Verif.Spec.Combined
import Verif.Lemmas.Combined
import Verif.Props.Combined
import Verif.Lemmas.CombinedSend
import Verif.Lemmas.CombinedRecv
import Verif.Lemmas.CombinedMpi
import Verif.Lemmas.CombinedCount
import Verif.Model.CircGather
import Verif.Spec.CircGather
import Verif.Lemmas.CircGather
import Verif.Props.CircGather
import Verif.Model.CircDeposit
import Verif.Spec.CircDeposit
import Verif.Lemmas.CircDeposit
import Verif.Props.CircDeposit
import Verif.Lemmas.CircVolume
import Verif.Model.External
import Verif.Spec.External
import Verif.Lemmas.External
import Verif.Props.External
import Verif.Model.Multimode
import Verif.Spec.Multimode
import Verif.Lemmas.Multimode
import Verif.Props.Multimode
import Verif.Model.Lorentz
import Verif.Spec.Lorentz
import Verif.Lemmas.Lorentz
import Verif.Props.Lorentz
import Verif.Model.EngineHeap
import Verif.Spec.EngineHeap
import Verif.Lemmas.EngineHeap
import Verif.Props.EngineHeap
import Verif.Lemmas.EngineHeapRun
import Verif.Lemmas.EngineHeapInv
import Verif.Model.Retile
import Verif.Spec.Retile
import Verif.Lemmas.Retile
import Verif.Props.Retile
import Verif.Model.ProjLoad
import Verif.Spec.ProjLoad
import Verif.Lemmas.ProjLoad
import Verif.Props.ProjLoad
import Verif.Model.RemapPart
import Verif.Spec.RemapPart
import Verif.Lemmas.RemapPart
import Verif.Props.RemapPart
import Verif.Lemmas.RemapPartMsg
import Verif.Lemmas.RemapPartRoute
import Verif.Lemmas.RemapPartRun
import Verif.Model.Tile2d
import Verif.Spec.Tile2d
import Verif.Lemmas.Tile2d
import Verif.Props.Tile2d
import Verif.Model.PlaneDiag
import Verif.Spec.PlaneDiag
import Verif.Lemmas.PlaneDiag
import Verif.Props.PlaneDiag
import Verif.Model.PersistSum
import Verif.Spec.PersistSum
import Verif.Lemmas.PersistSum
import Verif.Props.PersistSum
import Verif.Model.Exchange2d
import Verif.Spec.Exchange2d
import Verif.Lemmas.Exchange2d
import Verif.Props.Exchange2d
import Verif.Model.TileOmp2
import Verif.Spec.TileOmp2
import Verif.Lemmas.TileOmp2
import Verif.Props.TileOmp2
import Verif.Model.Remap2d
import Verif.Spec.Remap2d
import Verif.Lemmas.Remap2d
import Verif.Props.Remap2d
import Verif.Model.TempEnergy
import Verif.Spec.TempEnergy
import Verif.Lemmas.TempEnergy
import Verif.Props.TempEnergy
import Verif.Spec.TempPlane
import Verif.Props.TempPlane
import Verif.Model.FftwSplit
import Verif.Spec.FftwSplit
import Verif.Lemmas.FftwSplit
import Verif.Props.FftwSplit
import Verif.Model.Realloc
import Verif.Spec.Realloc
import Verif.Lemmas.Realloc
import Verif.Props.Realloc
import Verif.Model.PyAdd
import Verif.Props.PyAdd
import Verif.Model.TileMem
import Verif.Lemmas.TileMem
import Verif.Props.TileMem
