import Verif.Lemmas.ApproxError
import Verif.Lemmas.ArcsinSeries
import Verif.Lemmas.Asin
import Verif.Lemmas.AsinSeries
import Verif.Lemmas.Atan
import Verif.Lemmas.CLex
import Verif.Lemmas.CTypes
import Verif.Lemmas.ChebAlias
import Verif.Lemmas.ChebList
import Verif.Lemmas.ChebNodes
import Verif.Lemmas.ChebSeries
import Verif.Lemmas.CodePoly
import Verif.Lemmas.Dec
import Verif.Lemmas.DecText
import Verif.Lemmas.Div
import Verif.Lemmas.DivDiff
import Verif.Lemmas.Enc
import Verif.Lemmas.EncBox
import Verif.Lemmas.EncCode
import Verif.Lemmas.EncLast
import Verif.Lemmas.EncPoly
import Verif.Lemmas.Erf
import Verif.Lemmas.Eval
import Verif.Lemmas.Expand
import Verif.Lemmas.Expr
import Verif.Lemmas.Float
import Verif.Lemmas.Functions
import Verif.Lemmas.GeoSeries
import Verif.Lemmas.Grammar
import Verif.Lemmas.Ieee
import Verif.Lemmas.IeeeCode
import Verif.Lemmas.IeeePoly
import Verif.Lemmas.IeeeRound
import Verif.Lemmas.Interp
import Verif.Lemmas.Leaves
import Verif.Lemmas.Ln
import Verif.Lemmas.LogBounds
import Verif.Lemmas.Main
import Verif.Lemmas.NearTargets
import Verif.Lemmas.Newton
import Verif.Lemmas.NewtonIeee
import Verif.Lemmas.NodeBounds
import Verif.Lemmas.Normal
import Verif.Lemmas.NormalNumbers
import Verif.Lemmas.Paren
import Verif.Lemmas.Pi
import Verif.Lemmas.Poly
import Verif.Lemmas.PowBounds
import Verif.Lemmas.Program
import Verif.Lemmas.QnormNodes
import Verif.Lemmas.Quantile
import Verif.Lemmas.RealCode
import Verif.Lemmas.Round
import Verif.Lemmas.RunifCount
import Verif.Lemmas.RunifCountA
import Verif.Lemmas.RunifCountB
import Verif.Lemmas.RunifCountC
import Verif.Lemmas.RunifCountD
import Verif.Lemmas.RunifCountE
import Verif.Lemmas.RunifCountF
import Verif.Lemmas.RunifCounts
import Verif.Lemmas.RustText
import Verif.Lemmas.Seeds
import Verif.Lemmas.Series
import Verif.Lemmas.SeriesErr
import Verif.Lemmas.SeriesError
import Verif.Lemmas.SeriesReal
import Verif.Lemmas.SharpSeries
import Verif.Lemmas.SharpTan
import Verif.Lemmas.Simd
import Verif.Lemmas.SimdText
import Verif.Lemmas.TanSeries
import Verif.Lemmas.Terms
import Verif.Model.Approximants
import Verif.Model.BdMath
import Verif.Model.CCode
import Verif.Model.Constants
import Verif.Model.Dec
import Verif.Model.DecText
import Verif.Model.Eval
import Verif.Model.Format
import Verif.Model.FunctionTable
import Verif.Model.Functions
import Verif.Model.Generated
import Verif.Model.Main
import Verif.Model.Poly
import Verif.Model.Res
import Verif.Model.Round
import Verif.Model.RustCode
import Verif.Model.Shipped
import Verif.Model.Simd
import Verif.Model.Syntax
import Verif.Model.Test
import Verif.Model.TestIeee
import Verif.Model.TestSpecs
import Verif.Model.Transform
import Verif.Props.Accuracy
import Verif.Props.Approx
import Verif.Props.ApproxError
import Verif.Props.ApproxExp
import Verif.Props.ApproxSeries
import Verif.Props.ApproxSharp
import Verif.Props.CCode
import Verif.Props.CCompiles
import Verif.Props.CGenerated
import Verif.Props.CGroups
import Verif.Props.CLibrary
import Verif.Props.CPolynomials
import Verif.Props.CReads
import Verif.Props.Constants
import Verif.Props.EndToEnd
import Verif.Props.Eval
import Verif.Props.EvalReal
import Verif.Props.Expand
import Verif.Props.Format
import Verif.Props.Functions
import Verif.Props.GenBits
import Verif.Props.GenExp
import Verif.Props.GenInvTrig
import Verif.Props.GenPower
import Verif.Props.GenSeeds
import Verif.Props.GenStats
import Verif.Props.GenTrig
import Verif.Props.GenTypes
import Verif.Props.HistogramLibrary
import Verif.Props.HistogramSpecs
import Verif.Props.Ieee
import Verif.Props.IeeeArea
import Verif.Props.IeeeBase
import Verif.Props.IeeeDerived
import Verif.Props.IeeeExamples
import Verif.Props.IeeeExp
import Verif.Props.IeeeHyperbolic
import Verif.Props.IeeeHypot
import Verif.Props.IeeeInvTrig
import Verif.Props.IeeeLibrary
import Verif.Props.IeeeNormal
import Verif.Props.IeeeParity
import Verif.Props.IeeeRecipLarge
import Verif.Props.IeeeRecipZero
import Verif.Props.IeeeRootSymmetry
import Verif.Props.IeeeSeeds
import Verif.Props.IeeeSpecial
import Verif.Props.IeeeSpecialExamples
import Verif.Props.IeeeSpecialLib
import Verif.Props.IeeeSpecialLog
import Verif.Props.IeeeSpecialRoot
import Verif.Props.IeeeSqrtZero
import Verif.Props.IeeeSymmetry
import Verif.Props.IeeeTrig
import Verif.Props.Inverse
import Verif.Props.LiteralText
import Verif.Props.LogPow
import Verif.Props.Main
import Verif.Props.Normal
import Verif.Props.NumberType
import Verif.Props.Paren
import Verif.Props.Poly
import Verif.Props.Program
import Verif.Props.QnormError
import Verif.Props.QnormIeee
import Verif.Props.QnormTest
import Verif.Props.Quantile
import Verif.Props.ReadBack
import Verif.Props.Rounding
import Verif.Props.RunifIeee
import Verif.Props.RunifUniform
import Verif.Props.RustReads
import Verif.Props.Series
import Verif.Props.Simd
import Verif.Props.SimdAccepts
import Verif.Props.SimdGenerated
import Verif.Props.Symbolic
import Verif.Props.Tables
import Verif.Props.Test
import Verif.Props.TestAsin
import Verif.Props.TestAsin64
import Verif.Props.TestExp
import Verif.Props.TestExpPass
import Verif.Props.TestFails
import Verif.Props.TestFailsAcos
import Verif.Props.TestFailsLog
import Verif.Props.TestFailsLog2
import Verif.Props.TestIeee
import Verif.Props.TestInvTrig
import Verif.Props.TestLog
import Verif.Props.TestLogBase
import Verif.Props.TestPass
import Verif.Props.TestPasses
import Verif.Props.TestRnorm
import Verif.Props.TestRows
import Verif.Props.TestRunif
import Verif.Props.TestTypes
import Verif.Props.VectorTypes
import Verif.Spec.CPlaces
import Verif.Spec.CText
import Verif.Spec.CTokens
import Verif.Spec.CTypes
import Verif.Spec.DecVal
import Verif.Spec.Grammar
import Verif.Spec.Idents
import Verif.Spec.Ieee
import Verif.Spec.Lanes
import Verif.Spec.LitValue
import Verif.Spec.Main
import Verif.Spec.Meaning
import Verif.Spec.Program
import Verif.Spec.Reach
import Verif.Spec.RealMeaning
import Verif.Spec.RustMeaning
import Verif.Spec.RustText
import Verif.Spec.RustTokens
import Verif.Spec.RustTypes
import Verif.Spec.SimdAccepts
import Verif.Spec.Sqrt
import Verif.Spec.VectorTypes
