import Verif.Model.Basic
import Verif.Model.NumInst
import Verif.Model.Outcome
import Verif.Model.Tree
import Verif.Model.Matrix
import Verif.Model.Simplify
import Verif.Model.Diff
import Verif.Model.Integrate
import Verif.Model.Run
import Verif.Model.Poly
import Verif.Model.Text
import Verif.Model.InFix
import Verif.Model.Serialize
import Verif.Model.Palm
import Verif.Model.Linear
import Verif.Model.Cli
import Verif.Props.Tree
import Verif.Props.Budget
import Verif.Props.Nodes
import Verif.Props.Arith
import Verif.Props.Calculus
import Verif.Props.Subst
import Verif.Props.Matrices
import Verif.Proofs.PolyVars
import Verif.Proofs.PolyBound
import Verif.Props.Poly
import Verif.Props.Value
import Verif.Props.InFix
import Verif.Props.Serialize
import Verif.Props.Palm
import Verif.Props.Linear
import Verif.Props.Derivative
import Verif.Props.Integral
import Verif.Props.Definite
import Verif.Props.Polynomial
import Verif.Props.PolyDerivative
import Verif.Props.PolyIntegral
import Verif.Props.Evaluate
import Verif.Props.LinearPoly
import Verif.Props.Cli
import Verif.Props.CliCalculus
import Verif.Props.Product
import Verif.Props.Quotient
import Verif.Props.Unambiguous
import Verif.Props.Number
import Verif.Props.Like
import Verif.Props.PolyLost
import Verif.Props.LogLaws
import Verif.Props.PowerLaws
import Verif.Props.Typing
import Verif.Props.Monomials
import Verif.Props.Cartesian
import Verif.Props.Reading
import Verif.Props.Markup
import Verif.Spec.Rename
import Verif.Proofs.Rename
import Verif.Proofs.RenameRun
import Verif.Proofs.RenameDiff
import Verif.Proofs.RenamePoly
import Verif.Props.Rename
import Verif.Props.Endless
import Verif.Spec.Table
import Verif.Props.Table
import Verif.Model.Double
import Verif.Spec.Double
import Verif.Proofs.Double
import Verif.Proofs.DoubleCalc
import Verif.Proofs.DoubleTyped
import Verif.Proofs.DoubleOrder
import Verif.Props.Double
import Verif.Spec.DoubleText
import Verif.Proofs.DoubleText
import Verif.Props.DoubleText
import Verif.Spec.Forms
import Verif.Proofs.Forms
import Verif.Proofs.FormsDouble
import Verif.Props.Forms
import Verif.Spec.Matrices
import Verif.Proofs.Matrices
import Verif.Props.MatrixCalc
import Verif.Spec.Back
import Verif.Spec.Nested
import Verif.Spec.HigherDeriv
import Verif.Proofs.PolyBack
import Verif.Proofs.CliNested
import Verif.Proofs.HigherDeriv
import Verif.Props.PolyBack
import Verif.Props.HigherDeriv
import Verif.Tests
import Verif.TestsDouble
import Verif.Spec.Terms
import Verif.Proofs.Terms
import Verif.Props.Terms
import Verif.Spec.Occur
import Verif.Proofs.Occur
import Verif.Props.Occur
import Verif.Props.Whole
import Verif.Spec.Equality
import Verif.Proofs.Covered
import Verif.Proofs.CoveredValue
import Verif.Props.Covered
import Verif.Proofs.Missing
import Verif.Props.Missing
import Verif.Spec.Literal
import Verif.Proofs.Literal
import Verif.Spec.Words
import Verif.Proofs.Words
import Verif.Props.Words
import Verif.Spec.PolyDouble
import Verif.Proofs.PolyDouble
import Verif.Props.PolyDouble
import Verif.Spec.PolyRational
import Verif.Proofs.PolyRational
import Verif.Props.PolyRational
import Verif.Props.PolyFraction
import Verif.Proofs.Settled
import Verif.Proofs.SettledQuotient
import Verif.Proofs.Unsettled
import Verif.Proofs.Rest
import Verif.Props.Settled
import Verif.Spec.Retyped
import Verif.Proofs.Retyped
import Verif.Props.Retyped
import Verif.Spec.Running
import Verif.Proofs.Running
import Verif.Props.Running
import Verif.Spec.Parts
import Verif.Proofs.Parts
import Verif.Props.Parts
import Verif.Spec.Exchange
import Verif.Proofs.Exchange
import Verif.Props.Exchange
import Verif.Spec.Strict
import Verif.Proofs.Strict
import Verif.Props.Strict
