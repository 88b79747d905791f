import Verif.Props.Solvers
import Verif.Props.Stencils
import Verif.Props.Ortho
import Verif.Props.Compo
import Verif.Props.Fourier
import Verif.Props.Axis
import Verif.Props.Spaces
import Verif.Props.SpaceOps
import Verif.Props.SpaceFns
import Verif.Props.SpaceInst
import Verif.Props.Utils
import Verif.Props.Mpi
import Verif.Props.SpaceMpi
import Verif.Props.Sizes
import Verif.Props.Calculus
import Verif.Props.Calculus2
import Verif.Props.Kinds
import Verif.Props.Poisson
import Verif.Props.Field
import Verif.Props.ExampleMpi
import Verif.Props.Spmd
import Verif.Props.FourierRel
import Verif.Props.AnyArith
import Verif.Props.AnyMpi
import Verif.Props.Rounding
import Verif.Props.RoundingCheb
import Verif.Props.Accuracy
import Verif.Props.RoundingGrid
import Verif.Props.Total
import Verif.Props.RoundingFourier
import Verif.Props.Misuse
import Verif.Props.Accuracy2
import Verif.Props.Symmetry
import Verif.Props.ChebInner
import Verif.Props.Minors
import Verif.Spec.Checked
import Verif.Spec.Checks
import Verif.Proof.Checks
import Verif.Props.Checks
import Verif.Proof.RndPenta
import Verif.Proof.RndPenta2
import Verif.Proof.RndPenta3
import Verif.Proof.RndPenta4
import Verif.Proof.RndPentaErr
import Verif.Proof.RndPentaDom
import Verif.Props.RoundingPenta
import Verif.Validate.Tests
import Verif.Proof.RndMixed
import Verif.Proof.RndMixedSolve
import Verif.Props.RoundingMixed
import Verif.Spec.Parts
import Verif.Proof.Natural
import Verif.Proof.NaturalArr
import Verif.Props.Parts
import Verif.Props.Accurate
import Verif.Props.Total2
import Verif.Props.Boundary
import Verif.Props.BoundaryTotal
import Verif.Props.Boundary2
import Verif.Props.Large
import Verif.Props.History
import Verif.Props.HistorySpaces
import Verif.Props.Crash
import Verif.Props.Tau
import Verif.Props.Witness
import Verif.Props.RndMat
import Verif.Props.Poisson2
import Verif.Props.FieldN
import Verif.Props.Euler
import Verif.Props.Product
import Verif.Props.ProductCompo
import Verif.Props.Product2
import Verif.Props.Energy
import Verif.Props.EulerModes
import Verif.Props.Parent
import Verif.Props.Tensor
import Verif.Props.Calculus3
import Verif.Props.Symmetry2
import Verif.Props.RealComplex2
import Verif.Props.Swap
import Verif.Proof.Alias3
import Verif.Props.Accuracy3
import Verif.Spec.ByParts
import Verif.Props.ByParts
import Verif.Spec.Nonlinear
import Verif.Proof.TrigSpan
import Verif.Props.Nonlinear
import Verif.Spec.Explicit
import Verif.Props.Explicit
import Verif.Spec.Convolution
import Verif.Props.Convolution
import Verif.Proof.Decay
import Verif.Props.Smooth
import Verif.Proof.Interp
import Verif.Props.SolverRate
import Verif.Proof.EulerRate
import Verif.Props.HeatRate
import Verif.Proof.Rate2
import Verif.Props.PoissonRate
import Verif.Props.PoissonRateModes
import Verif.Proof.HeatMode
import Verif.Props.HeatRateModes
import Verif.Props.GridRate
import Verif.Proof.Euler2Rate
import Verif.Props.HeatRate2
import Verif.Proof.Interp2
import Verif.Props.Smooth2
