import Verif.Jax
import Verif.Model.SplineBases
import Verif.Spec.BSpline
import Verif.Proofs.BSpline
import Verif.Proofs.SplineRefine
import Verif.Proofs.Knots
import Verif.Proofs.SplineEval
import Verif.Props.Splines
import Verif.Proofs.BSplineDeriv
import Verif.Proofs.Index
import Verif.Props.Splines2
import Verif.Model.Quadrature
import Verif.Spec.Integral
import Verif.Proofs.Quadrature
import Verif.Props.Quadrature
import Verif.Model.Forms
import Verif.Proofs.Forms
import Verif.Spec.Forms
import Verif.Proofs.FormEval
import Verif.Model.Sequence
import Verif.Proofs.Getters
import Verif.Props.Forms
import Verif.Spec.Calculus
import Verif.Proofs.GetterDeriv
import Verif.Props.FormsDeriv
import Verif.Props.FormsDerivNeg
import Verif.Props.ExactIff
import Verif.Props.ExactIff2
import Verif.Props.Geometry
import Verif.Props.Boundary
import Verif.Props.BoundaryVec
import Verif.Proofs.PolarSums
import Verif.Proofs.Polar
import Verif.Proofs.PolarRange
import Verif.Props.Polar
import Verif.Props.Incidence
import Verif.Props.PolarRank
import Verif.Model.Assembly
import Verif.Proofs.LocalIndep
import Verif.Proofs.Collocation
import Verif.Proofs.FieldSums
import Verif.Spec.Linear
import Verif.Proofs.Linear
import Verif.Proofs.Regular
import Verif.Proofs.Setting
import Verif.Proofs.Exact
import Verif.Proofs.Exists
import Verif.Proofs.Case
import Verif.Model.Projectors
import Verif.Spec.Fields
import Verif.Proofs.Fields
import Verif.Props.Mass
import Verif.Spec.Pinv
import Verif.Proofs.Pinv
import Verif.Props.Laplace
import Verif.Props.Pointwise
import Verif.Props.Cross
import Verif.Model.LazyMatrices
import Verif.Model.LazyDispatch
import Verif.Props.Lazy
import Verif.Model.Float
import Verif.Model.Loop
import Verif.Model.Solvers
import Verif.Spec.Loop
import Verif.Proofs.Loop
import Verif.Props.Solvers
import Verif.Model.Relaxation
import Verif.Model.Objects
import Verif.Props.Relaxation
import Verif.Props.Objects
import Verif.Props.Energy
import Verif.Props.Helicity
import Verif.Props.IO
import Verif.Props.Sweep
import Verif.Props.Mappings
import Verif.Props.Mappings2
import Verif.Props.Grids
import Verif.Props.Poincare
import Verif.Proofs.Arrays
import Verif.Spec.Topology
import Verif.Proofs.Cohomology
import Verif.Proofs.Cohomology2
import Verif.Props.Harmonic
import Verif.Model.Diagnostics
import Verif.Props.Diagnostics
import Verif.Props.Traces
import Verif.Proofs.CodeComplex
import Verif.Proofs.CodeComplex2
import Verif.Proofs.CodeComplex3
import Verif.Props.Constants
import Verif.Props.Accept
import Verif.Proofs.ByParts
import Verif.Proofs.ByParts2
import Verif.Proofs.ByParts3
import Verif.Proofs.HelicityDrift
import Verif.Proofs.LocalPoly
import Verif.Proofs.RuleByParts
import Verif.Proofs.DirByParts
import Verif.Proofs.SeqByParts
import Verif.Props.Drift
import Verif.Proofs.AllSizes
import Verif.Props.HarmonicNeg
import Verif.Proofs.AllBetti
import Verif.Proofs.AllBetti2
import Verif.Proofs.AllBetti3
import Verif.Props.HarmonicAll
import Verif.Model.Scripts
import Verif.Props.Start
import Verif.Props.Poisson
import Verif.Props.Spectrum
import Verif.Model.Lifecycle
import Verif.Props.Lifecycle
import Verif.Spec.Lstsq
import Verif.Model.Gvec
import Verif.Proofs.Lstsq
import Verif.Props.Gvec
import Verif.Props.Picard
import Verif.Model.Scan
import Verif.Props.Scan
import Verif.Spec.Laplacian
import Verif.Proofs.Laplacian
import Verif.Model.Manufactured
import Verif.Props.Manufactured
import Verif.Props.InitialFields
import Verif.Proofs.Marsden
import Verif.Spec.SplineSpace
import Verif.Proofs.SplineSpace
import Verif.Props.SplineSpace
import Verif.Props.Bounds
import Verif.Props.Reproduce
import Verif.Props.NaN
import Verif.Spec.Cholesky
import Verif.Model.Drum
import Verif.Proofs.MinMax
import Verif.Proofs.Cholesky
import Verif.Proofs.Drum
import Verif.Props.Drum
import Verif.Model.Iota
import Verif.Proofs.Iota
import Verif.Props.Iota
import Verif.Model.SavedPlots
import Verif.Props.SavedPlots
import Verif.Model.Perturbation
import Verif.Props.Perturbation
import Verif.Model.Cavity
import Verif.Props.Cavity
import Verif.Model.DrumTarget
import Verif.Props.DrumTarget
import Verif.Props.ExactIff3
import Verif.Props.ExactIff4
import Verif.Props.Crossings
import Verif.Proofs.Cover
import Verif.Props.LazyExact
import Verif.Props.LazyDispatch
import Verif.Props.DrumScale
import Verif.Model.ScriptCalls
import Verif.Props.ScriptCalls
import Verif.Spec.Similarity
import Verif.Props.Units
import Verif.Props.UnitsRun
import Verif.Props.UnitsFields
import Verif.Spec.Symmetry
import Verif.Proofs.Shift1
import Verif.Proofs.Shift2
import Verif.Proofs.Shift3
import Verif.Proofs.Shift4
import Verif.Proofs.Shift5
import Verif.Proofs.Shift6
import Verif.Proofs.Shift7
import Verif.Props.Symmetry
import Verif.Props.SymmetricMaps
import Verif.Props.SymmetryIff
import Verif.Proofs.NormBounds
import Verif.Props.Progress
import Verif.Props.ProgressRun
import Verif.Spec.Approx
import Verif.Props.Approx
import Verif.Props.ApproxForms
import Verif.Props.ApproxVector
import Verif.Props.PoissonError
import Verif.Props.GradApprox
import Verif.Model.Figures
import Verif.Props.Figures
import Verif.Props.Figures2
import Verif.Proofs.Resolution
import Verif.Props.Resolution
import Verif.Props.VectorPoisson
import Verif.Model.RunSetup
import Verif.Props.RunSetup
import Verif.Props.Helix
import Verif.Model.RunFile
import Verif.Props.RunFile
import Verif.Props.HelicityRun
import Verif.Model.Studies
import Verif.Props.Studies
import Verif.Props.OnePoint
import Verif.Model.ToroidScript
import Verif.Props.ToroidScript
import Verif.Model.PlotScripts
import Verif.Props.PlotScripts
import Verif.Model.Panels
import Verif.Props.Panels
import Verif.Model.Multiplot
import Verif.Props.Multiplot
import Verif.Props.Multiplot2
import Verif.Model.SinglePlot
import Verif.Props.SinglePlot
import Verif.Model.GvecScripts
import Verif.Props.Outside
import Verif.Props.GvecScripts
import Verif.Spec.SmoothDir
import Verif.Proofs.HighOrder
import Verif.Props.HighOrder
import Verif.Props.HighOrder2
import Verif.Proofs.HighSlope
import Verif.Props.HighSlope
import Verif.Props.HighPoisson
import Verif.Props.HighTorus
import Verif.Model.EigenPlots
import Verif.Props.EigenPlots
import Verif.Props.Averages
import Verif.Model.Demo
import Verif.Props.Demo
import Verif.Props.Demo2
import Verif.Model.RunScripts
import Verif.Props.RunScripts
import Verif.Props.RunScripts2
import Verif.Model.SolovevPlots
import Verif.Props.SolovevPlots
