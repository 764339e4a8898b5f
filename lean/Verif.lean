import Verif.Props.UBigInt
import Verif.Props.UBigIntRem
import Verif.Props.BigInt
import Verif.Props.Ratio
import Verif.Props.Mutating
import Verif.Props.Funcs
import Verif.Props.Str
import Verif.Props.Log
import Verif.Props.Matrix
import Verif.Props.Poly
import Verif.Props.Series
import Verif.Props.Convert
import Verif.Props.PowLog
import Verif.Props.RatioStr
import Verif.Props.Ieee
import Verif.Props.Fp192
import Verif.Props.Fp192Float
import Verif.Props.Fp192Div
import Verif.Props.Fp192Quot
import Verif.Props.Fp192High
import Verif.Props.Fp192Sum
import Verif.Props.Fp192Pow
import Verif.Props.Fp192PowNeg
import Verif.Props.Fp192Sqrt
import Verif.Props.Fp192SqrtWide
import Verif.Props.Fp192Code
import Verif.Props.Fp192Str
import Verif.Props.Fp192Const
import Verif.Props.Fp192Log
import Verif.Props.Fp192Print
import Verif.Model.Fp192Trigo
import Verif.Proofs.Fp192Acc
import Verif.Proofs.Fp192Trigo
import Verif.Proofs.Fp192Eval
import Verif.Props.Fp192Trigo
import Verif.Proofs.Fp192Atrigo
import Verif.Props.Fp192Atrigo
import Verif.Proofs.Fp192Exp
import Verif.Props.Fp192Exp
import Verif.Model.RatioPrint
import Verif.Spec.RatioPrint
import Verif.Proofs.RatioEst
import Verif.Proofs.RatioPrint
import Verif.Proofs.RatioPrintVal
import Verif.Proofs.RatioHuge
import Verif.Props.RatioPrint
import Verif.Model.Exp2
import Verif.Proofs.Exp2
import Verif.Props.Exp2
import Verif.Proofs.Cbrt
import Verif.Props.Cbrt
import Verif.Model.Text
import Verif.Spec.PolyText
import Verif.Proofs.PolyText
import Verif.Props.Text
import Verif.Model.Misc
import Verif.Props.Misc
import Verif.Model.ErrText
import Verif.Model.Basics
import Verif.Props.ErrText
import Verif.Props.Basics
import Verif.Props.Fp192LogHigh
import Verif.Props.Fp192Tiny
import Verif.Proofs.Fp192Sm
import Verif.Props.Fp192Exp2
import Verif.Props.Fp192TrigoHigh
import Verif.Props.Fp192SqrtHigh
import Verif.Props.Exp2Inv
import Verif.Proofs.Fp192Fast
import Verif.Props.Fp192Fast
import Verif.Props.Fp192Sym
import Verif.Props.Fp192Mono
