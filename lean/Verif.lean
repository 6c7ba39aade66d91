import Verif.Tactics
import Verif.Model.Scalar
import Verif.Model.Orders
import Verif.Model.Hash
import Verif.Model.Promotion
import Verif.Props.Scalar
import Verif.Props.Orders
import Verif.Props.Hash
import Verif.Props.Promotion
import Verif.Props.VecExpr
import Verif.Props.Assign
import Verif.Props.VecConst
import Verif.Props.VecRead
import Verif.Props.MatSmall
import Verif.Props.Lu
import Verif.Props.LuPivot
import Verif.Props.LuSolve
import Verif.Props.InvPivot
import Verif.Props.MatAssign
import Verif.Props.MatView
import Verif.Props.Int32
import Verif.Props.SizeErrors
import Verif.Props.Strong
import Verif.Props.MatAccess
import Verif.Props.MatRows
import Verif.Props.MatMem
import Verif.Props.MatProduct
import Verif.Props.Storage
import Verif.Props.Quat
import Verif.Props.QuatReal
import Verif.Props.Transform
import Verif.Props.Builders
import Verif.Props.InvertRT
import Verif.Props.Projection
import Verif.Props.Decompose
import Verif.Props.Rotation
import Verif.Props.EulerDeriv
import Verif.Props.QuatRot
import Verif.Props.Extract
import Verif.Props.Basis
import Verif.Props.Align
import Verif.Props.Angles
import Verif.Props.Coord
import Verif.Props.Fov
import Verif.Props.Random
import Verif.Props.Misc
import Verif.Props.StaticType
import Verif.Model.Float
import Verif.Spec.Round
import Verif.Lemmas.LuOps
import Verif.Lemmas.Round
import Verif.Lemmas.RoundExpr
import Verif.Props.Rounding
import Verif.Props.RoundExpr
import Verif.Spec.RoundQuat
import Verif.Props.RoundDet
import Verif.Props.RoundQuat
import Verif.Lemmas.RoundSqrt
import Verif.Props.RoundNormalize
import Verif.Spec.RoundRot
import Verif.Props.RoundRot
import Verif.Model.Nan
import Verif.Spec.Nan
import Verif.Props.Nan
import Verif.Spec.Program
import Verif.Lemmas.Program
import Verif.Lemmas.ProgramStep
import Verif.Lemmas.ProgramFail
import Verif.Props.Program
import Verif.Spec.Deferred
import Verif.Lemmas.Deferred
import Verif.Lemmas.DeferredProgram
import Verif.Props.Deferred
import Verif.Lemmas.ExtractBand
import Verif.Props.ExtractBand
import Verif.Props.MatMove
import Verif.Props.Raw
import Verif.Model.LinStmt
import Verif.Spec.LinProgram
import Verif.Lemmas.LinProgram
import Verif.Lemmas.LinProgramStep
import Verif.Lemmas.LinProgramAlg
import Verif.Lemmas.LinProgramReject
import Verif.Props.PivotSolve
import Verif.Props.LinProgram
import Verif.Model.IntAngle
import Verif.Lemmas.IntAngle
import Verif.Props.IntAngle
import Verif.Model.IntElem
import Verif.Lemmas.IntElem
import Verif.Props.IntElem
import Verif.Model.SelfArg
import Verif.Spec.SelfArg
import Verif.Lemmas.SelfArg
import Verif.Props.SelfArg
import Verif.Model.SelfBuild
import Verif.Spec.SelfBuild
import Verif.Lemmas.SelfBuild
import Verif.Props.SelfBuild
import Verif.Model.SelfLook
import Verif.Props.SelfLook
import Verif.Model.OutArg
import Verif.Spec.OutArg
import Verif.Lemmas.OutArg
import Verif.Lemmas.OutRot
import Verif.Props.OutArg
import Verif.Props.OutRot
import Verif.Model.Mixed
import Verif.Spec.Mixed
import Verif.Lemmas.Mixed
import Verif.Props.Mixed
import Verif.Props.MixedSum
import Verif.Props.MixedCmp
import Verif.Model.IntScalar
import Verif.Props.IntScalar
import Verif.Model.IntProj
import Verif.Props.IntProj
import Verif.Lemmas.IntQuat
import Verif.Props.IntQuat
import Verif.Model.FovZoom
import Verif.Props.FovZoom
import Verif.Model.RandomSelf
import Verif.Props.RandomSelf
import Verif.Model.RoundBuild
import Verif.Spec.RoundBuild
import Verif.Props.RoundBuild
import Verif.Model.EulerTypes
import Verif.Props.EulerTypes
import Verif.Model.AxisTypes
import Verif.Props.AxisTypes
import Verif.Props.QAxisTypes
import Verif.Model.RoundVec
import Verif.Props.RoundVec
import Verif.Model.RoundProj
import Verif.Props.RoundProj
