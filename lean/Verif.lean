import Verif.Basic
import Verif.Spec
import Verif.SRow
import Verif.Ellpack.Model
import Verif.Ellpack.Rep
import Verif.Ellpack.Accum
import Verif.Ellpack.Kernel
import Verif.Ellpack.Model2
import Verif.Ellpack.Reduce
import Verif.Ellpack.Norms
import Verif.Ellpack.Update
import Verif.Ellpack.Update2
import Verif.Ellpack.AddNorm
import Verif.Ellpack.Access
import Verif.Ellpack.OfRows
import Verif.Ellpack.Stored
import Verif.Props.EllAccess
import Verif.Props.EllOps
import Verif.Ellpack.Model3
import Verif.Ellpack.Construct
import Verif.Ellpack.Construct2
import Verif.Wlp
import Verif.Ellpack.Overflow
import Verif.Props.EllConstruct
import Verif.Ellpack.Model4
import Verif.Ellpack.Apps
import Verif.Ellpack.Rows
import Verif.Ellpack.TransposeInPlace
import Verif.Ellpack.Adjungate
import Verif.Props.EllTranspose
import Verif.Gershgorin
import Verif.Ellpack.Normalize
import Verif.Props.EllNormalize
import Verif.Ellpack.Submatrix
import Verif.Props.EllSub
import Verif.Common.Domain
import Verif.Common.DomainProof
import Verif.Props.Domain
import Verif.Csr.Hash
import Verif.Props.CsrHash
import Verif.Dense.Gemm
import Verif.Props.Gemm
import Verif.Own
import Verif.Dense.Model
import Verif.Dense.Rep
import Verif.Dense.Ops
import Verif.Norm
import Verif.Props.Dense
import Verif.Props.Dense2
import Verif.Csr.Model
import Verif.Csr.Rep
import Verif.Csr.Ops
import Verif.Csr.Ops2
import Verif.Csr.Model2
import Verif.Csr.Ops3
import Verif.Csr.Transpose
import Verif.Csr.Ops4
import Verif.Csr.OfRows
import Verif.Props.Csr
import Verif.Props.Csr2
import Verif.Ellpack.Adjust
import Verif.Props.EllAdjust
import Verif.Ellpack.Halo
import Verif.Ellpack.Group
import Verif.Ellpack.Model5
import Verif.Ellpack.Adjacency
import Verif.Props.EllHalo
import Verif.Props.EllGroup
import Verif.Props.EllAdjacency
import Verif.Ellblock.Model
import Verif.Ellblock.Rep
import Verif.Ellblock.Ops
import Verif.Ellblock.Ops2
import Verif.Ellblock.Ops3
import Verif.Ellblock.Ops4
import Verif.Ellblock.Ops5
import Verif.Ellblock.Ops6
import Verif.Ellblock.Hist
import Verif.Common.MatrixMarket
import Verif.Ellpack.MatrixMarket
import Verif.Ellblock.MatrixMarket
import Verif.Props.Ellblock
import Verif.Props.MatrixMarket
import Verif.Dist.Async
import Verif.Dist.Grid
import Verif.Dist.Cannon
import Verif.Dist.Message
import Verif.Dist.Formats
import Verif.Props.Dist
import Verif.Dist.Wrappers
import Verif.Dist.WrapProof
import Verif.Dist.WrapFormats
import Verif.Props.Dist2
import Verif.Dist.Gather
import Verif.Props.Gather
import Verif.Common.Handle
import Verif.Common.HandleProof
import Verif.Common.HandleInv
import Verif.Props.Handle
import Verif.Common.DomainSave
import Verif.Props.DomainSave
import Verif.Common.History
import Verif.Props.History
import Verif.Ellblock.Reduce
import Verif.Ellblock.Ops7
import Verif.Ellblock.Ops8
import Verif.Ellblock.Model2
import Verif.Ellblock.Ops9
import Verif.Props.Ellblock2
import Verif.Ellblock.Model3
import Verif.Ellblock.Ops10
import Verif.Ellblock.Ops11
import Verif.Ellblock.Ops12
import Verif.Ellblock.Ops13
import Verif.Props.Ellblock3
import Verif.FloatArg
import Verif.Props.FloatArg
import Verif.Ellblock.Ops14
import Verif.Ellblock.Ops15
import Verif.Ellblock.Ops16
import Verif.Ellblock.Ops17
import Verif.Props.Ellblock4
import Verif.Ellblock.Model4
import Verif.Ellblock.Ops18
import Verif.Ellblock.Ops19
import Verif.Ellblock.Ops20
import Verif.Ellblock.Ops21
import Verif.Props.Ellblock5
import Verif.Ellblock.Model5
import Verif.Ellblock.Ops22
import Verif.Ellblock.Ops23
import Verif.Props.Ellblock6
import Verif.Ellblock.Model6
import Verif.Ellblock.Ops24
import Verif.Ellblock.Ops25
import Verif.Props.Ellblock7
import Verif.Ellblock.Model7
import Verif.Ellblock.Ops26
import Verif.Dist.EllbFormats
import Verif.Props.Ellblock8
import Verif.Dist.Collect
import Verif.Dist.Files
import Verif.Dist.FilesProof
import Verif.Props.Files
import Verif.Sparsity
import Verif.Dist.Wrappers2
import Verif.Props.Dist3
import Verif.Large
import Verif.Props.Large
import Verif.Elemental
import Verif.Props.Elemental
import Verif.Fortran.Handle
import Verif.Fortran.HandleProof
import Verif.Props.Fortran
import Verif.Fortran.Access
import Verif.Fortran.DenseArrays
import Verif.Props.FortranAccess
import Verif.Props.FortranDense
import Verif.Lapack
import Verif.LapackSpec
import Verif.Props.Inverse
import Verif.Props.Diagonalize
import Verif.Print
import Verif.Props.Print
import Verif.Dist.AddNorm
import Verif.Props.Dist4
import Verif.Race.Basic
import Verif.Race.Sim
import Verif.Race.Locks
import Verif.Race.Ellpack
import Verif.Race.EllTranspose
import Verif.Props.Race
import Verif.Props.Race2
import Verif.Common.MmAny
import Verif.Props.MmAny
import Verif.Csr.Wide
import Verif.Common.Program
import Verif.Props.Program
import Verif.Fortran.Program
import Verif.Props.FortranProgram
import Verif.Common.BlockProgram
import Verif.Props.BlockProgram
import Verif.Round.Spec
import Verif.Round.Rows
import Verif.Round.Ops
import Verif.Round.Ops2
import Verif.Round.Read
import Verif.Round.Toy
import Verif.Round.Error
import Verif.Props.Reproducible
import Verif.Props.Rounding
import Verif.Props.RoundProgram
import Verif.Round.Dense
import Verif.Props.DenseRound
import Verif.Round.Csr
import Verif.Round.Csr2
import Verif.Props.CsrRound
import Verif.Common.Dispatch
import Verif.Props.Dispatch
import Verif.Race.Dense
import Verif.Props.RaceDense
import Verif.Memory.Basic
import Verif.Memory.Model
import Verif.Memory.Proof
import Verif.Memory.Program
import Verif.Props.Memory
import Verif.Memory.Block
import Verif.Memory.BlockProof
import Verif.Props.MemoryBlock
import Verif.Memory.Dist
import Verif.Props.MemoryDist
import Verif.Ellblock.Random
import Verif.Props.EllblockRandom
import Verif.Dist.EllbFiles
import Verif.Props.EllbFiles
import Verif.Memory.DistFiles
import Verif.Props.MemoryFiles
import Verif.Memory.DistCsr
import Verif.Memory.BlockMove
import Verif.Props.MemoryMove
import Verif.Fortran.Block
import Verif.Props.FortranBlock
import Verif.Ellblock.Reorder
import Verif.Props.EllblockReorder
import Verif.Dist.Diagonalize
import Verif.Props.DistDiagonalize
import Verif.Memory.DistDiagonalize
import Verif.Props.MemoryDiagonalize
import Verif.Ellblock.ReorderOne
