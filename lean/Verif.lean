import Verif.Common.Res
import Verif.Common.Sum
import Verif.Common.Par
import Verif.Crs.Model
import Verif.Crs.Spec
import Verif.Crs.Lemmas
import Verif.Crs.Props
import Verif.Crs.SortModel
import Verif.Crs.Sort
import Verif.Crs.RowSum
import Verif.Crs.ConvertModel
import Verif.Crs.Convert
import Verif.Crs.ConvertBack
import Verif.Crs.ConvertProps
import Verif.Crs.CondenseModel
import Verif.Crs.CondenseSpec
import Verif.Crs.Condense
import Verif.Fem.GraphModel
import Verif.Fem.Graph
import Verif.Fem.GraphScalar
import Verif.Fem.AssemblyModel
import Verif.Fem.Lookup
import Verif.Fem.Scatter
import Verif.Fem.Assembly
import Verif.Fem.Residual
import Verif.Fem.AssemblyProps
import Verif.Bc.ConstraintsModel
import Verif.Bc.Micro
import Verif.Bc.Threads
import Verif.Bc.Constraints
import Verif.Bc.ConstraintsProps
import Verif.Bc.EssentialModel
import Verif.Bc.Essential
import Verif.Alg.PenaltyModel
import Verif.Alg.Penalty
import Verif.Time.Constrain
import Verif.Time.Model
import Verif.Time.Forward
import Verif.Time.Steady
import Verif.Time.Adjoint
import Verif.Time.AdjointFalse
import Verif.Time.TotalDeriv
import Verif.Time.TotalDerivPar
import Verif.Time.TotalDerivHyp
import Verif.Time.Examples
import Verif.Blas.Model
import Verif.Blas.Vector
import Verif.Blas.Matrix
import Verif.Plastic.Newton
import Verif.Plastic.Model
import Verif.Plastic.Forward
import Verif.Plastic.ForwardFalse
import Verif.Plastic.Adjoint
import Verif.Plastic.AdjointFalse
import Verif.Plastic.TotalDeriv
import Verif.MeshMap.Model
import Verif.MeshMap.Transpose
import Verif.MeshMap.TransposeFill
import Verif.MeshMap.Adjoint
import Verif.MeshMap.Filter
import Verif.MeshMap.Plane
import Verif.MeshMap.Parent
import Verif.MeshMap.ParentMatrix
import Verif.Blas.Extract
import Verif.Expr.Model
import Verif.Expr.Heap
import Verif.Expr.Walk
import Verif.Expr.Scan
import Verif.Expr.Safe
import Verif.Expr.Brackets
import Verif.Expr.Steps
import Verif.Expr.Grammar
import Verif.Expr.Parse
import Verif.Expr.Lex
import Verif.Expr.Natural
import Verif.Simplex.Integral
import Verif.Simplex.Model
import Verif.Simplex.Cubature
import Verif.Simplex.Basis
import Verif.Simplex.Gradient
import Verif.Simplex.Volume
import Verif.Simplex.Workset
import Verif.Mech.Model
import Verif.Mech.Cell
import Verif.Mech.GradForm
import Verif.Mech.Element
import Verif.Mech.Fad
import Verif.Mech.Track
import Verif.Mech.VectorModel
import Verif.Mech.VectorWorkset
import Verif.Mech.Vector
import Verif.Mech.Gradients
import Verif.Mech.Elastic
import Verif.Mech.ElasticForm
import Verif.Mech.Stiffness
import Verif.Mech.LoadModel
import Verif.Mech.Load
import Verif.Mech.LoadGrad
import Verif.Mech.LoadFalse
import Verif.Mech.LoadResultant
import Verif.Material.Model
import Verif.Material.Stiffness
import Verif.Material.Isotropic
import Verif.Material.Orthotropic
import Verif.Material.Tables
import Verif.Material.Link
import Verif.Crit.Model
import Verif.Crit.Composite
import Verif.Crit.SolutionProps
import Verif.Crit.CompositeFalse
import Verif.Crit.PhysicsModel
import Verif.Crit.Physics
import Verif.Crit.Energy
import Verif.Crit.Elastic
import Verif.Crit.ElasticProps
import Verif.Crit.NormProps
import Verif.Crit.AugLagModel
import Verif.Crit.AugLag
import Verif.Crit.AugLagProps
import Verif.Tensor.EigenModel
import Verif.Tensor.Eigen
import Verif.App.UnusedModel
import Verif.App.Unused
import Verif.Rocket.Model
import Verif.Rocket.Newton
import Verif.Rocket.Props
import Verif.Bnd.Model
import Verif.Bnd.Kernel
import Verif.Bnd.Race
import Verif.Bnd.Face
import Verif.Bnd.Value
import Verif.Bnd.Work
import Verif.Bnd.Tracks
import Verif.Bnd.Gradients
import Verif.Bnd.False
import Verif.Mech.Rows
import Verif.Thermal.Model
import Verif.Thermal.Functors
import Verif.Thermal.Element
import Verif.Thermal.Track
import Verif.Thermal.Static
import Verif.Thermal.Form
import Verif.Thermal.Parabolic
import Verif.Thermal.Heat
import Verif.Thermal.Example
import Verif.Dyn.Model
import Verif.Dyn.Shared
import Verif.Dyn.Element
import Verif.Dyn.Hyperbolic
import Verif.Dyn.Track
import Verif.Dyn.Form
import Verif.Dyn.Props
import Verif.Dyn.Energy
import Verif.Dyn.Output
import Verif.Tm.Model
import Verif.Tm.Element
import Verif.Tm.Track
import Verif.Tm.Form
import Verif.Tm.Props
import Verif.Tm.Output
import Verif.Em.Model
import Verif.Em.Element
import Verif.Em.Track
import Verif.Em.Props
import Verif.Em.Output
import Verif.Em.Material
import Verif.Mass.Model
import Verif.Mass.Moment
import Verif.Mass.Integral
import Verif.Mass.Props
import Verif.Mass.Inertia
import Verif.Mass.Least
import Verif.Mass.Input
import Verif.Mass.False
import Verif.J2.Model
import Verif.J2.Cell
import Verif.J2.Element
import Verif.J2.Return
import Verif.J2.Local
import Verif.J2.Function
import Verif.J2.Props
import Verif.J2.Example
import Verif.J2.Track
import Verif.Blas.Inverse
import Verif.J2.Pivot
import Verif.J2.Inverse
import Verif.J2.ExampleInverse
import Verif.Plast.Model
import Verif.Plast.Element
import Verif.Plast.Loop
import Verif.Plast.GlobalModel
import Verif.Plast.Global
import Verif.Plast.Eval
import Verif.Plast.Work
import Verif.Plast.Props
import Verif.Plast.Balance
import Verif.Plast.Example
import Verif.Plast.Track
import Verif.Plast.Gradient
import Verif.Plast.ExampleGradient
import Verif.Plast.Scaling
import Verif.Plast.Length
import Verif.Plast.ExampleScaling
import Verif.Plast.ProjectionModel
import Verif.Plast.Projection
import Verif.Plast.ProjectionProps
import Verif.Plast.ProjectionMean
import Verif.Plast.ProjectionLinear
import Verif.Plast.ExampleProjection
import Verif.PWork.Model
import Verif.PWork.Element
import Verif.PWork.Function
import Verif.PWork.Work
import Verif.PWork.Steps
import Verif.PWork.Plastic
import Verif.PWork.False
import Verif.PWork.Gradient
import Verif.PWork.Example
import Verif.Plast.ContinuationModel
import Verif.Plast.Continuation
import Verif.Bnd.InputModel
import Verif.Bnd.Input
import Verif.HeatBnd.Model
import Verif.HeatBnd.Value
import Verif.HeatBnd.Props
import Verif.Plast.OutputModel
import Verif.Plast.Output
import Verif.Plast.OutputProps
import Verif.Cond.Model
import Verif.Cond.Lemmas
import Verif.Cond.Newton
import Verif.Cond.Adjoint
import Verif.Cond.SweepModel
import Verif.Cond.Sweep
import Verif.Cond.Gradient
import Verif.Cond.GradientX
import Verif.Cond.Example
import Verif.J2.Active
import Verif.Cond.Plastic
import Verif.Cond.PlasticExample
import Verif.HeatCrit.Model
import Verif.HeatCrit.Cells
import Verif.HeatCrit.Props
import Verif.HeatCrit.Example
import Verif.Homog.Model
import Verif.Homog.Cells
import Verif.Homog.Props
import Verif.Homog.Example
import Verif.Trans.Model
import Verif.Trans.Loops
import Verif.Trans.Deriv
import Verif.Trans.Props
import Verif.Trans.Shipped
import Verif.Trans.Example
import Verif.TmCrit.Model
import Verif.TmCrit.Cells
import Verif.TmCrit.Props
import Verif.TmCrit.Material
import Verif.TmCrit.Example
import Verif.Mpmd.Inline
import Verif.Mpmd.Model
import Verif.Mpmd.Frame
import Verif.Mpmd.Values
import Verif.Mpmd.Toy
import Verif.Mpmd.MapProps
import Verif.Mpmd.Fresh
import Verif.Mpmd.Stale
import Verif.Mpmd.StaleToy
import Verif.Mpmd.Target
import Verif.Mpmd.Reinit
import Verif.Mpmd.Rounds
import Verif.Mpmd.File
import Verif.Mpmd.Chain
import Verif.Mpmd.Sizes
import Verif.Mpmd.Names
import Verif.Vms.Model
import Verif.Vms.Forward
import Verif.Vms.Gradient
import Verif.Vms.Refute
import Verif.Solver.Model
import Verif.Solver.Fill
import Verif.Solver.Props
import Verif.Crit.GeneralModel
import Verif.Crit.General
import Verif.Crit.GeneralProps
import Verif.Crit.GeneralFalse
import Verif.Field.Model
import Verif.Field.Props
import Verif.Field.False
import Verif.Output.DataModel
import Verif.Output.Data
import Verif.Output.FrameModel
import Verif.Output.Frame
import Verif.LevelSet.Model
import Verif.LevelSet.Props
import Verif.LevelSet.Reinit
import Verif.LevelSet.History
import Verif.Stab.Model
import Verif.Stab.Loop
import Verif.Stab.Props
import Verif.Stab.Refute
import Verif.Stab.EnergyModel
import Verif.Stab.Energy
import Verif.Bingo.Model
import Verif.Bingo.Props
import Verif.Tensor.TensileModel
import Verif.Tensor.Tensile
import Verif.Crit.DensityPenaltyModel
import Verif.Crit.DensityPenalty
import Verif.Crit.PenaltyChoiceModel
import Verif.Crit.PenaltyChoice
import Verif.Em.NormModel
import Verif.Em.Norm
import Verif.Crit.BarlatModel
import Verif.Crit.Barlat
import Verif.Tm.MeasureModel
import Verif.Tm.Measure
