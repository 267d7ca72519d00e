import Verif.Model.Api
import Verif.Spec.RealScalar
import Verif.Spec.Residual
import Verif.Proofs.Core
import Verif.Proofs.Simulation
import Verif.Proofs.Loops
import Verif.Proofs.DenseSem
import Verif.Proofs.Blocks
import Verif.Proofs.RiccatiSem
import Verif.Spec.Api
import Verif.Spec.XReal
import Verif.Spec.Options
import Verif.Spec.Outcome
import Verif.Proofs.ApiSem
import Verif.Proofs.CoreFacts
import Verif.Proofs.OptionsCongr
import Verif.Proofs.Workspace
import Verif.Proofs.Errors
import Verif.Proofs.Trace
import Verif.Props.Options
import Verif.Props.Control
import Verif.Props.Isolation
import Verif.Props.Printing
import Verif.Props.Sizes
import Verif.Spec.QP
import Verif.Spec.Ocp
import Verif.Proofs.Ops
import Verif.Proofs.QPMath
import Verif.Props.Mpc
import Verif.Spec.RealApi
import Verif.Proofs.RealCore
import Verif.Proofs.Suboptimal
import Verif.Proofs.Certificates
import Verif.Props.Kkt
import Verif.Props.Infeasible
import Verif.Spec.Newton
import Verif.Spec.Gradient
import Verif.Proofs.Triangular
import Verif.Proofs.Factor
import Verif.Proofs.Newton
import Verif.Proofs.Pfb
import Verif.Props.Newton
import Verif.Props.NewtonMpc
import Verif.Props.Agreement
import Verif.Props.Sequences
import Verif.Proofs.EnvCongr
import Verif.Proofs.Riccati
import Verif.Model.OcpGen
import Verif.Props.Generator
import Verif.Proofs.NoThrow
import Verif.Proofs.Witness
import Verif.Proofs.WitnessMpc
import Verif.Props.NoThrow
import Verif.Spec.LineSearch
import Verif.Props.LineSearch
import Verif.Proofs.NewtonRun
import Verif.Proofs.FirstStep
import Verif.Props.FalseAlarms
import Verif.Props.StaleResidual
import Verif.Proofs.ExactStep
import Verif.Props.EqualityOnly
import Verif.Props.Stall
import Verif.Spec.Log
import Verif.Props.Log
import Verif.Spec.Convergence
import Verif.Proofs.ProxMath
import Verif.Proofs.Outer
import Verif.Props.Convergence
import Verif.Spec.Finite
import Verif.Proofs.Up
import Verif.Proofs.UpCore
import Verif.Proofs.UpDense
import Verif.Proofs.UpMpc
import Verif.Props.Finite
import Verif.Props.Uninitialised
import Verif.Props.NewtonLimit
import Verif.Props.FullConvergence
import Verif.Props.GeneratorSolve
import Verif.Proofs.Limits
import Verif.Proofs.WitnessRun
import Verif.Props.Limits
import Verif.Props.FullConvergenceMpc
import Verif.Props.Method
import Verif.Proofs.Runs
import Verif.Props.Examples
import Verif.Spec.Benchmarks
import Verif.Props.Benchmarks
import Verif.Spec.Dual
import Verif.Props.Duality
import Verif.Spec.Shift
import Verif.Proofs.Shift
import Verif.Proofs.ProxExists
import Verif.Proofs.Alternative
import Verif.Proofs.ShiftInner
import Verif.Props.Detection
import Verif.Spec.Symmetry
import Verif.Proofs.Symmetry
import Verif.Props.Symmetry
import Verif.Spec.Special
import Verif.Proofs.Nan
import Verif.Proofs.NanOps
import Verif.Proofs.NanMpc
import Verif.Proofs.NanApi
import Verif.Proofs.NanDense
import Verif.Proofs.Stuck
import Verif.Props.NaN
import Verif.Proofs.NanRun
import Verif.Props.NaNHessian
import Verif.Props.NaNExamples
import Verif.Proofs.Inf
import Verif.Proofs.NanRiccati
import Verif.Props.Infinite
import Verif.Props.InfiniteExamples
import Verif.Spec.Rounding
import Verif.Spec.Binary64
import Verif.Proofs.Rounding
import Verif.Proofs.RoundingNorm
import Verif.Proofs.RoundingKkt
import Verif.Proofs.MpcBlocks
import Verif.Proofs.RoundingMpc
import Verif.Spec.SumOrder
import Verif.Proofs.SumOrder
import Verif.Proofs.Binary64
import Verif.Props.Rounding
import Verif.Props.RoundingExamples
import Verif.Props.RoundingExamplesMpc
import Verif.Spec.RoundedCertificates
import Verif.Proofs.RoundingFeas
import Verif.Props.RoundedCertificates
import Verif.Spec.Decoupled
import Verif.Props.Decoupled
import Verif.Props.DecoupledExamples
import Verif.Props.RoundedCertificatesExamples
import Verif.Spec.RoundedMargin
import Verif.Props.RoundedMargin
import Verif.Props.RoundedMarginExamples
import Verif.Proofs.OneStep
import Verif.Proofs.Binary64Eval
import Verif.Props.Drift
import Verif.Props.Singular
import Verif.Props.SingularMpc
import Verif.Model.Print
import Verif.Spec.Text
import Verif.Proofs.Text
import Verif.Spec.Printf
import Verif.Proofs.Printf
import Verif.Props.Text
import Verif.Proofs.Parts
import Verif.Props.SummaryParts
import Verif.Props.TextExamples
import Verif.Spec.Comparisons
import Verif.Proofs.Comparisons
import Verif.Props.OptionsBinary64
import Verif.Tests.Conformance
import Verif.Proofs.UpWs
import Verif.Props.History
import Verif.Props.NonFiniteHistory
import Verif.Spec.Memory
import Verif.Props.Existence
import Verif.Props.Memory
import Verif.Model.Qdldl
import Verif.Spec.Qdldl
import Verif.Props.Qdldl
import Verif.Spec.Quadratic
import Verif.Proofs.Quadratic
import Verif.Proofs.QuadraticMethod
import Verif.Props.Quadratic
import Verif.Props.QuadraticMpc
import Verif.Props.AgreementLog
import Verif.Spec.Sensitivity
import Verif.Proofs.Sensitivity
import Verif.Props.Sensitivity
import Verif.Props.SensitivityExamples
import Verif.Spec.Accuracy
import Verif.Proofs.Accuracy
import Verif.Props.Accuracy
import Verif.Spec.Origin
import Verif.Proofs.Origin
import Verif.Props.Origin
import Verif.Props.OriginMatters
import Verif.Spec.Boxes
import Verif.Proofs.Boxes
import Verif.Proofs.Slopes
import Verif.Props.DoubleHistory
import Verif.Props.FalseAlarmsAll
import Verif.Props.UnsolvableRounded
import Verif.Spec.Padding
import Verif.Proofs.Padding
import Verif.Props.Padding
import Verif.Spec.Tolerance
import Verif.Proofs.Tolerance
import Verif.Props.Tolerance
import Verif.Proofs.Longer
import Verif.Props.Longer
import Verif.Proofs.Suspicious
import Verif.Props.Suspicious
import Verif.Spec.Widening
import Verif.Proofs.Widening
import Verif.Props.Widening
