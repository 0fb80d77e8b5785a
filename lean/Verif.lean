import Verif.Props.Passes
import Verif.Props.Store
import Verif.Props.Weights
import Verif.Props.Nearest
import Verif.Props.Resize
import Verif.Props.Alpha
import Verif.Props.AlphaResize
import Verif.Props.Floating
import Verif.Props.ResizeU16
import Verif.Props.Accuracy
import Verif.Props.Ar30
import Verif.Props.Sched
import Verif.Props.X86
import Verif.Props.CApi
import Verif.Props.AlphaX86
import Verif.Props.AlphaX86Resize
import Verif.Props.AlphaX86U16
import Verif.Props.AlphaX86U16Resize
import Verif.Props.AlphaX86F32
import Verif.Props.X86U16
import Verif.Props.X86F32
import Verif.Props.AlphaF32Resize
import Verif.Props.Colors
import Verif.Props.X86Ar30
import Verif.Props.WeightBounds
import Verif.Props.F16
import Verif.Props.F16Bits
import Verif.Props.AlphaF16
import Verif.Props.AlphaF16Resize
import Verif.Props.Neon
import Verif.Props.NeonAlpha
import Verif.Props.NeonAlphaResize
import Verif.Props.NeonAlphaU16
import Verif.Props.NeonAlphaF32
import Verif.Props.NeonF32
import Verif.Props.NeonAlphaF32Resize
import Verif.Props.NeonU16
import Verif.Props.NeonU16Accuracy
import Verif.Props.NeonAlphaU16Resize
import Verif.Props.NeonAr30
import Verif.Props.SchedVector
import Verif.Props.VectorRange
import Verif.Props.VectorAccuracy
import Verif.Props.VectorAgree
import Verif.Props.Avx512
import Verif.Props.Avx512Alpha
import Verif.Props.Avx512U16
import Verif.Props.NeonF16
import Verif.Props.NeonAlphaF16
import Verif.Props.NeonAlphaF16Resize
import Verif.Props.Geometry
import Verif.Props.GeometryBox
import Verif.Props.CApiF16
import Verif.Props.Kernels
import Verif.Props.Taps
import Verif.Props.OddReduction
import Verif.Props.NoBleed
import Verif.Props.Kaiser
import Verif.Props.KaiserResize
import Verif.Props.Ringing
import Verif.Props.CubicFlat
import Verif.Props.FlatF32
import Verif.Props.CubicKernels
import Verif.Props.OrderF32
import Verif.Props.OrderU16
import Verif.Props.OrderU16Deep
import Verif.Props.Reach
import Verif.Props.RangeU16
import Verif.Props.Negative
