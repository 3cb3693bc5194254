import Verif.Model.ArangeFlt
import Verif.Model.Arg
import Verif.Model.Args
import Verif.Model.AsArray
import Verif.Model.AxesIter
import Verif.Model.Basic
import Verif.Model.Blas
import Verif.Model.Blas3
import Verif.Model.BlasThreads
import Verif.Model.Broadcast
import Verif.Model.Chain
import Verif.Model.Close
import Verif.Model.Complex
import Verif.Model.Copy
import Verif.Model.Creation
import Verif.Model.DeclaredRank
import Verif.Model.Distance
import Verif.Model.Eig
import Verif.Model.Einsum
import Verif.Model.ElemFns
import Verif.Model.ElemIter
import Verif.Model.Elementwise
import Verif.Model.Faer
import Verif.Model.FaerDevice
import Verif.Model.FaerLinalg
import Verif.Model.Flags
import Verif.Model.Fnmut
import Verif.Model.Format
import Verif.Model.Gather
import Verif.Model.GatherPar
import Verif.Model.Indexer
import Verif.Model.Iter
import Verif.Model.Kernel
import Verif.Model.Layout
import Verif.Model.LayoutText
import Verif.Model.Lebedev
import Verif.Model.LebedevTable
import Verif.Model.Linalg
import Verif.Model.LinalgLU
import Verif.Model.LinalgSym
import Verif.Model.LinspaceBy
import Verif.Model.LogAddExp
import Verif.Model.Machine
import Verif.Model.Manip
import Verif.Model.Matmul
import Verif.Model.Memory
import Verif.Model.NextAfter
import Verif.Model.Own
import Verif.Model.PackArray
import Verif.Model.Parallel
import Verif.Model.Pinv
import Verif.Model.Program
import Verif.Model.ProgramPar
import Verif.Model.Rearrange
import Verif.Model.Reduce
import Verif.Model.ReduceAxes
import Verif.Model.Reshape
import Verif.Model.Scalar
import Verif.Model.Svd
import Verif.Model.Tensor
import Verif.Model.Tensordot
import Verif.Model.Transpose
import Verif.Model.Tri
import Verif.Model.Utility
import Verif.Model.Vecdot
import Verif.Proof.Apart
import Verif.Proof.Arg
import Verif.Proof.Assign
import Verif.Proof.Axes
import Verif.Proof.BinaryLayout
import Verif.Proof.Blas
import Verif.Proof.Blas3
import Verif.Proof.BlasThreads
import Verif.Proof.Bounds
import Verif.Proof.Broadcast
import Verif.Proof.BroadcastSame
import Verif.Proof.Close
import Verif.Proof.Composition
import Verif.Proof.Concat
import Verif.Proof.Concurrent
import Verif.Proof.Copy
import Verif.Proof.Core
import Verif.Proof.Dense
import Verif.Proof.Diagonal
import Verif.Proof.Distance
import Verif.Proof.Eig
import Verif.Proof.Elementwise
import Verif.Proof.Faer
import Verif.Proof.FaerLinalg
import Verif.Proof.FaerSvd
import Verif.Proof.Float
import Verif.Proof.FloatDot
import Verif.Proof.FloatMean
import Verif.Proof.FloatSum
import Verif.Proof.Fnmut
import Verif.Proof.Format
import Verif.Proof.Gather
import Verif.Proof.GatherPar
import Verif.Proof.Index
import Verif.Proof.Iter
import Verif.Proof.Kernel
import Verif.Proof.Lebedev
import Verif.Proof.LebedevCheck
import Verif.Proof.LebedevGrid
import Verif.Proof.LebedevRun1
import Verif.Proof.LebedevRun2
import Verif.Proof.LebedevRun3
import Verif.Proof.LebedevRun4
import Verif.Proof.LebedevSum
import Verif.Proof.Linalg
import Verif.Proof.LinalgLU
import Verif.Proof.LinalgSym
import Verif.Proof.Machine
import Verif.Proof.MatKernel
import Verif.Proof.Matmul
import Verif.Proof.MoveAxis
import Verif.Proof.MultiSlice
import Verif.Proof.Narrow
import Verif.Proof.Order
import Verif.Proof.Own
import Verif.Proof.Parallel
import Verif.Proof.Pinv
import Verif.Proof.Program
import Verif.Proof.Race
import Verif.Proof.Rank
import Verif.Proof.Rearrange
import Verif.Proof.Reduce
import Verif.Proof.ReduceAxes
import Verif.Proof.ReduceAxesPar
import Verif.Proof.ReduceHom
import Verif.Proof.ReduceRel
import Verif.Proof.Res
import Verif.Proof.Reshape
import Verif.Proof.ReshapeValid
import Verif.Proof.Scalar
import Verif.Proof.Single
import Verif.Proof.Slices
import Verif.Proof.Sphere
import Verif.Proof.Strides
import Verif.Proof.Svd
import Verif.Proof.Tri
import Verif.Proof.Vecdot
import Verif.Proof.VecdotKernel
import Verif.Proof.VecdotRel
import Verif.Proof.Views
import Verif.Proof.Writes
import Verif.Spec.Axes
import Verif.Spec.Blas3
import Verif.Spec.Broadcast
import Verif.Spec.Calls
import Verif.Spec.Close
import Verif.Spec.Complex
import Verif.Spec.Concurrent
import Verif.Spec.Creation
import Verif.Spec.DeclaredRank
import Verif.Spec.Distance
import Verif.Spec.Eig
import Verif.Spec.Einsum
import Verif.Spec.ElemFns
import Verif.Spec.Faer
import Verif.Spec.Flags
import Verif.Spec.FloatComplex
import Verif.Spec.FloatDot
import Verif.Spec.FloatMean
import Verif.Spec.FloatRange
import Verif.Spec.FloatSpace
import Verif.Spec.FloatSum
import Verif.Spec.FloatUpdate
import Verif.Spec.Format
import Verif.Spec.Heap
import Verif.Spec.Index
import Verif.Spec.IntTypes
import Verif.Spec.LayoutText
import Verif.Spec.Linalg
import Verif.Spec.LinalgLU
import Verif.Spec.LinalgSym
import Verif.Spec.LogAddExp
import Verif.Spec.Matmul
import Verif.Spec.Multi
import Verif.Spec.Nested
import Verif.Spec.NextAfter
import Verif.Spec.Order
import Verif.Spec.PackArray
import Verif.Spec.Parts
import Verif.Spec.Pinv
import Verif.Spec.Program
import Verif.Spec.Reduce
import Verif.Spec.Scalar
import Verif.Spec.Slice
import Verif.Spec.Sphere
import Verif.Spec.Svd
import Verif.Spec.Tblis
import Verif.Spec.Tensor
import Verif.Spec.Tensordot
import Verif.Spec.Threads
import Verif.Spec.Tri
import Verif.Spec.Utility
import Verif.Spec.Vecdot
import Verif.Spec.Views
import Verif.Spec.Word
import Verif.Thm.Arg
import Verif.Thm.Args
import Verif.Thm.AsArray
import Verif.Thm.AxesIter
import Verif.Thm.Blas
import Verif.Thm.Blas3
import Verif.Thm.BlasThreads
import Verif.Thm.Broadcast
import Verif.Thm.Chain
import Verif.Thm.Close
import Verif.Thm.Complex
import Verif.Thm.Concat
import Verif.Thm.Copy
import Verif.Thm.CopyOrder
import Verif.Thm.Core
import Verif.Thm.Creation
import Verif.Thm.DeclaredRank
import Verif.Thm.Diag
import Verif.Thm.Distance
import Verif.Thm.Eig
import Verif.Thm.Einsum
import Verif.Thm.ElemFns
import Verif.Thm.ElemIter
import Verif.Thm.Elementwise
import Verif.Thm.Faer
import Verif.Thm.FaerDevice
import Verif.Thm.FaerEig
import Verif.Thm.FaerLinalg
import Verif.Thm.FaerSvd
import Verif.Thm.Flags
import Verif.Thm.FlatOrder
import Verif.Thm.FloatComplex
import Verif.Thm.FloatComplexDiv
import Verif.Thm.FloatComplexDot
import Verif.Thm.FloatDot
import Verif.Thm.FloatMean
import Verif.Thm.FloatRange
import Verif.Thm.FloatSpace
import Verif.Thm.FloatSum
import Verif.Thm.FloatUpdate
import Verif.Thm.FloatVecdot
import Verif.Thm.Fnmut
import Verif.Thm.Format
import Verif.Thm.Gather
import Verif.Thm.GatherPar
import Verif.Thm.Gemm
import Verif.Thm.Iter
import Verif.Thm.LayoutText
import Verif.Thm.Lebedev
import Verif.Thm.Linalg
import Verif.Thm.LinalgLU
import Verif.Thm.LinalgSym
import Verif.Thm.LogAddExp
import Verif.Thm.Machine
import Verif.Thm.Matmul
import Verif.Thm.Memory
import Verif.Thm.Mesh
import Verif.Thm.NextAfter
import Verif.Thm.Own
import Verif.Thm.Pack
import Verif.Thm.PackArray
import Verif.Thm.PackOrder
import Verif.Thm.PackRoot
import Verif.Thm.Parallel
import Verif.Thm.Perm
import Verif.Thm.Pinv
import Verif.Thm.Program
import Verif.Thm.ProgramPar
import Verif.Thm.Promote
import Verif.Thm.Rearrange
import Verif.Thm.Reduce
import Verif.Thm.ReduceAxes
import Verif.Thm.ReduceFloat
import Verif.Thm.Reshape
import Verif.Thm.Slice
import Verif.Thm.Svd
import Verif.Thm.Symm
import Verif.Thm.Tensordot
import Verif.Thm.Transpose
import Verif.Thm.Tri
import Verif.Thm.Utility
import Verif.Thm.Vecdot
import Verif.Thm.Views
