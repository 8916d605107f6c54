import Verif.Props.Masks
import Verif.Props.Abi
import Verif.Props.NativeMasks
import Verif.Props.FixedSize
import Verif.Props.FixedSizeCases
import Verif.Props.CastCases
import Verif.Props.Rebind
import Verif.Props.MixedCall
import Verif.Props.MixedOps
import Verif.Props.MixedExp
import Verif.Props.NativeCases
import Verif.Props.NativeValues
import Verif.Props.Reduce
import Verif.Proofs.ReduceFloat
import Verif.Props.ReduceFloat
import Verif.Props.ReduceExtremum
import Verif.Props.X86Int
import Verif.Props.Division
import Verif.Props.BoolArray
import Verif.Props.Resize
import Verif.Props.Split
import Verif.Props.SplitFixed
import Verif.Props.FloatBits
import Verif.Props.Rounding
import Verif.Props.Narrowing
import Verif.Props.Compare
import Verif.Props.SmartRef
import Verif.Props.Align
import Verif.Props.Convert
import Verif.Props.X86Convert
import Verif.Props.Math
import Verif.Props.Hypot
import Verif.Props.OtherMask
import Verif.Props.PpcInt
import Verif.Props.X86FloatConvert
import Verif.Props.Chunks
import Verif.Props.ClassifyRet
import Verif.Props.Trig
import Verif.Props.WhereRange
import Verif.Props.Scalar
import Verif.Props.Ldexp
import Verif.Props.MathCall
import Verif.Props.Image
import Verif.Props.IntAbs
import Verif.Props.WhereExpr
import Verif.Props.SimdClass
import Verif.Props.SimdNative
import Verif.Props.SimdX86
import Verif.Props.Control
import Verif.Props.Multi
import Verif.Props.MultiAbi
import Verif.Props.Pack
import Verif.Props.PackTypes
import Verif.Spec.ElemFuns
import Verif.Model.SimdMath
import Verif.Proofs.SimdMath
import Verif.Props.SimdMath
import Verif.Spec.ArithTypes
import Verif.Model.ArithTypes
import Verif.Props.ArithTypes
import Verif.Spec.FpExc
import Verif.Model.FpExc
import Verif.Proofs.FpExc
import Verif.Props.FpExc
import Verif.Spec.NumTraits
import Verif.Model.NumTraits
import Verif.Proofs.NumTraits
import Verif.Props.NumTraits
import Verif.Model.SimdPpc
import Verif.Proofs.SimdPpc
import Verif.Props.SimdPpc
import Verif.Model.ArithX86
import Verif.Props.ArithX86
import Verif.Model.KnownX86
import Verif.Proofs.KnownX86
import Verif.Props.KnownX86
import Verif.Props.Bitset
import Verif.Props.CastType
import Verif.Props.UninitMask
import Verif.Model.MaskedConvert
import Verif.Proofs.MaskedConvert
import Verif.Proofs.MaskedConvertAbi
import Verif.Props.MaskedConvert
import Verif.Spec.RefTypes
import Verif.Model.RefTypes
import Verif.Props.RefTypes
import Verif.Spec.WhereTypes
import Verif.Model.WhereTypes
import Verif.Props.WhereTypes
import Verif.Spec.Intrin
import Verif.Model.Intrin
import Verif.Proofs.Intrin
import Verif.Props.Intrin
import Verif.Model.MathExc
import Verif.Props.MathExc
import Verif.Model.FrexpExc
import Verif.Props.FrexpExc
import Verif.Props.Frexp512Exc
import Verif.Props.LdexpExc
import Verif.Spec.RegBits
import Verif.Model.RegBits
import Verif.Proofs.RegBits
import Verif.Props.RegBits
import Verif.Model.SignMask
import Verif.Proofs.SignMask
import Verif.Props.SignMask
