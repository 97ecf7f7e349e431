import Verif.Core.Basic
import Verif.Core.CMath
import Verif.Model.Aabb
import Verif.Model.Alias
import Verif.Model.BoxAlias
import Verif.Model.Constants
import Verif.Model.DctFloat
import Verif.Model.Diagnostics
import Verif.Model.Encoding
import Verif.Model.Failure
import Verif.Model.FilterFloat
import Verif.Model.Float
import Verif.Model.Frustum
import Verif.Model.FrustumCuller
import Verif.Model.Ieee
import Verif.Model.Intersection
import Verif.Model.Iter
import Verif.Model.LowpassFilter
import Verif.Model.Machine
import Verif.Model.Matrix
import Verif.Model.MatrixAlias
import Verif.Model.MatrixStats
import Verif.Model.MatrixTransform
import Verif.Model.Memory
import Verif.Model.MixedFloat
import Verif.Model.Print
import Verif.Model.QR
import Verif.Model.QuantizeFloat
import Verif.Model.QuatFloat
import Verif.Model.QuatMatrixFloat
import Verif.Model.Quaternion
import Verif.Model.Rounding
import Verif.Model.SlerpFloat
import Verif.Model.Stream
import Verif.Model.Threads
import Verif.Model.Traits
import Verif.Model.Util
import Verif.Model.Vector
import Verif.Model.VectorFloat
import Verif.Model.View
import Verif.Proofs.Approx
import Verif.Proofs.DoubleRounding
import Verif.Proofs.FApprox
import Verif.Proofs.FClose
import Verif.Proofs.FloatLemmas
import Verif.Proofs.MatrixLemmas
import Verif.Proofs.MatrixPaint
import Verif.Proofs.MatrixTransformLemmas
import Verif.Proofs.SlerpReal
import Verif.Proofs.Total
import Verif.Proofs.TotalMatrix
import Verif.Proofs.TotalRest
import Verif.Proofs.TotalVector
import Verif.Proofs.VectorLemmas
import Verif.Proofs.VectorReal
import Verif.Props.Aabb
import Verif.Props.BoxAlias
import Verif.Props.Config
import Verif.Props.Constants
import Verif.Props.CullerState
import Verif.Props.Diagnostics
import Verif.Props.Failure
import Verif.Props.Float
import Verif.Props.FloatAkin
import Verif.Props.FloatAxis
import Verif.Props.FloatBits
import Verif.Props.FloatBox
import Verif.Props.FloatBuilders
import Verif.Props.FloatCast
import Verif.Props.FloatChain
import Verif.Props.FloatConvolve
import Verif.Props.FloatCorners
import Verif.Props.FloatCube
import Verif.Props.FloatCull
import Verif.Props.FloatCullLaws
import Verif.Props.FloatDct
import Verif.Props.FloatDerived
import Verif.Props.FloatDrift
import Verif.Props.FloatEndToEnd
import Verif.Props.FloatFilter
import Verif.Props.FloatFrustum
import Verif.Props.FloatGeom
import Verif.Props.FloatHom
import Verif.Props.FloatInt
import Verif.Props.FloatInverse
import Verif.Props.FloatInverted
import Verif.Props.FloatLaws
import Verif.Props.FloatManhattan
import Verif.Props.FloatMesh
import Verif.Props.FloatMixed
import Verif.Props.FloatMonotone
import Verif.Props.FloatMove
import Verif.Props.FloatNorm
import Verif.Props.FloatOrder
import Verif.Props.FloatPerspective
import Verif.Props.FloatPlanes
import Verif.Props.FloatPosDef
import Verif.Props.FloatPythag
import Verif.Props.FloatQR
import Verif.Props.FloatQuantize
import Verif.Props.FloatQuantizeSigned
import Verif.Props.FloatQuat
import Verif.Props.FloatQuatMatrix
import Verif.Props.FloatRay
import Verif.Props.FloatRotation
import Verif.Props.FloatScale
import Verif.Props.FloatScaleTo
import Verif.Props.FloatSetup
import Verif.Props.FloatSlerp
import Verif.Props.FloatSums
import Verif.Props.FloatTurn
import Verif.Props.FloatTurnHistory
import Verif.Props.FloatUndo
import Verif.Props.FloatUtil
import Verif.Props.FloatVecRotate
import Verif.Props.FloatVector
import Verif.Props.FloatView
import Verif.Props.FloatWorld
import Verif.Props.FloatZeros
import Verif.Props.Frustum
import Verif.Props.FrustumCuller
import Verif.Props.FrustumCullerBox
import Verif.Props.Intersection
import Verif.Props.InverseAlias
import Verif.Props.Iter
import Verif.Props.Locked
import Verif.Props.LowpassFilter
import Verif.Props.Machine
import Verif.Props.MatrixAccess
import Verif.Props.MatrixAlgebra
import Verif.Props.MatrixHistory
import Verif.Props.MatrixInverse
import Verif.Props.MatrixQuantize
import Verif.Props.MatrixSignal
import Verif.Props.MatrixStats
import Verif.Props.MatrixTransform
import Verif.Props.Memory
import Verif.Props.NaN
import Verif.Props.PositiveDefinite
import Verif.Props.Print
import Verif.Props.QR
import Verif.Props.QRUnique
import Verif.Props.Quaternion
import Verif.Props.QuaternionRotation
import Verif.Props.RawFile
import Verif.Props.Rounding
import Verif.Props.RoundingCull
import Verif.Props.RoundingInverse
import Verif.Props.RoundingNorm
import Verif.Props.RoundingPoly
import Verif.Props.Stream
import Verif.Props.StreamFail
import Verif.Props.Threads
import Verif.Props.Traits
import Verif.Props.Util
import Verif.Props.VectorAccess
import Verif.Props.VectorArith
import Verif.Props.VectorGeom
import Verif.Props.VectorOrder
import Verif.Props.View
import Verif.Props.ViewCulling
import Verif.Props.Witness
import Verif.Props.Witness2
