import Verif.Common.Loops
import Verif.Common.ND
import Verif.Common.Folds
import Verif.MK.SortModel
import Verif.MK.SortLemmas
import Verif.MK.Spec
import Verif.MK.Kernels
import Verif.MK.PairLemmas
import Verif.MK.MedianLemmas
import Verif.MK.SenLemmas
import Verif.MK.VarLemmas
import Verif.MK.RankLemmas
import Verif.MK.GroupLemmas
import Verif.MK.PartialLemmas
import Verif.MK.KernelProps
import Verif.MK.PyModel
import Verif.MK.PyLemmas
import Verif.MK.PyPlain
import Verif.MK.PySeason
import Verif.MK.PyGrid
import Verif.MK.PyProps
import Verif.MK.PyWitness
import Verif.Spectral.Model
import Verif.Spectral.Lemmas
import Verif.Spectral.Closed
import Verif.Spectral.Props
import Verif.Common.Grid2
import Verif.Gridfill.Model
import Verif.Gridfill.Spec
import Verif.Gridfill.Lemmas
import Verif.Gridfill.Sweep
import Verif.Gridfill.Init
import Verif.Gridfill.Props
import Verif.Gridfill.Converge
import Verif.Common.Axes
import Verif.Gridfill.Fill
import Verif.Gridfill.FillProps
import Verif.Gridfill.Xr
import Verif.Gridfill.XrFill
import Verif.Gridfill.XrDetect
import Verif.Gridfill.XrCoverage
import Verif.Windspharm.Tools
import Verif.Windspharm.ToolsProps
import Verif.Windspharm.LatProps
import Verif.Common.FlatLoops
import Verif.Regrid.Model
import Verif.Regrid.Spec
import Verif.Regrid.Lemmas
import Verif.Regrid.LatProps
import Verif.Regrid.LonLemmas
import Verif.Regrid.LonProps
import Verif.Regrid.ConsLemmas
import Verif.Regrid.PyModel
import Verif.Regrid.ConsProps
import Verif.Regrid.BilinLemmas
import Verif.Regrid.BilinProps
import Verif.Regrid.NearProps
import Verif.Regrid.Dataset
import Verif.Regrid.DatasetProps
import Verif.Regrid.DatasetThms
import Verif.Interp.Missing
import Verif.Gradients.Zonal
import Verif.Calc.EmergentProps
import Verif.MK.VariantProps
import Verif.MK.PartialPyTrend
import Verif.MK.PartialPyXr
import Verif.MK.PartialPyStats
import Verif.MK.PartialPyProps
import Verif.MK.PartialPyGrid
import Verif.MK.PartialPyLemmas
import Verif.MK.PartialPy
import Verif.Interp.Pressure1D
import Verif.Interp.Pressure1DLemmas
import Verif.Interp.Pressure1DProps
import Verif.Interp.Hybrid
import Verif.Interp.HybridLemmas
import Verif.Interp.HybridPaths
import Verif.Interp.HybridProps
import Verif.Interp.HybridEcmwf
import Verif.Interp.SigmaProps
import Verif.Interp.HeightProps
import Verif.Interp.Isentropic
import Verif.Interp.IsentropicLemmas
import Verif.Interp.IsentropicColumn
import Verif.Interp.IsentropicProps
import Verif.Interp.Multi
import Verif.Interp.MultiProps
import Verif.Trop.Model
import Verif.Trop.Spec
import Verif.Trop.Lemmas
import Verif.Trop.Profile
import Verif.Trop.Grid
import Verif.Trop.Layout
import Verif.Trop.Columns
import Verif.Trop.Props
import Verif.Trop.Height
import Verif.Trop.Witness
import Verif.Trop.Rejects
import Verif.Trop.Xr
import Verif.Trop.XrColumns
import Verif.Trop.XrProps
import Verif.Trop.XrDetect
import Verif.Geo.Model
import Verif.Geo.Spec
import Verif.Geo.Lemmas
import Verif.Geo.Kernel
import Verif.Geo.Api
import Verif.Geo.Props
import Verif.Geo.Props2
import Verif.Geo.Names
import Verif.Stats.Model
import Verif.Stats.Spec
import Verif.Stats.Regression
import Verif.Stats.Correlation
import Verif.Stats.LonTheta
import Verif.Stats.Liang
import Verif.Stats.Phase
import Verif.ROF.Model
import Verif.ROF.Eigen
import Verif.ROF.Project
import Verif.ROF.Split
import Verif.ROF.Spec
import Verif.ROF.Creg
import Verif.ROF.Ols
import Verif.ROF.Ribes
import Verif.ROF.Ensemble
import Verif.Dcape.Model
import Verif.Dcape.Spec
import Verif.Dcape.Run
import Verif.Dcape.Thermo
import Verif.Dcape.Props
import Verif.Dcape.Props2
import Verif.Triple.Model
import Verif.Triple.Spec
import Verif.Triple.Run
import Verif.Triple.Grid
import Verif.Triple.Props
import Verif.Triple.Props2
import Verif.Triple.Props3
import Verif.Triple.Props4
import Verif.Sphere.Lengths
import Verif.Sphere.LenProps
import Verif.Sphere.Legendre
import Verif.Sphere.Field
import Verif.Sphere.Spharmt
import Verif.Sphere.SpharmtLemmas
import Verif.Sphere.VecLemmas
import Verif.Sphere.Wind
import Verif.Sphere.WindLemmas
import Verif.Sphere.Unique
import Verif.Sphere.UniqueField
import Verif.Sphere.Exact
import Verif.Sphere.WindProps
import Verif.Sphere.WindProps2
import Verif.Sphere.WindProps3
import Verif.Sphere.WindProps4
import Verif.Sphere.WindProps5
import Verif.Sphere.Session
import Verif.Sphere.SessionProps
import Verif.Sphere.SessionProps2
import Verif.Sphere.Slices
import Verif.Sphere.RegridProps
import Verif.Rcm.Model
import Verif.Rcm.Search
import Verif.Rcm.Gaps
import Verif.Rcm.Curv
import Verif.Rcm.Kernel
import Verif.Rcm.Dist
import Verif.Rcm.Api
import Verif.Rcm.CurvProps
import Verif.Rcm.CurvProps2
import Verif.Rcm.CurvProps3
import Verif.Rcm.Reg
import Verif.Rcm.RegProps
import Verif.Rcm.RegProps2
import Verif.Rcm.RegProps3
import Verif.Rcm.Points
import Verif.Rcm.PointsProps
import Verif.Rcm.PointsProps2
import Verif.Rcm.Witness
import Verif.Sphere.Truncation
import Verif.Growth.Model
import Verif.Growth.Eig
import Verif.Growth.Ops
import Verif.Growth.Spectrum
import Verif.Growth.Barot
import Verif.Growth.BarotProps
import Verif.Growth.Baroc
import Verif.Growth.Api
import Verif.Growth.Column
import Verif.Growth.Call
import Verif.Growth.Run
import Verif.Growth.BarocProps
import Verif.Growth.BarocSym
import Verif.Growth.Mirror
import Verif.Growth.Units
import Verif.Growth.Batch
import Verif.Growth.BatchAuto
import Verif.Growth.Band
import Verif.Growth.Layout
import Verif.Growth.Gaps
import Verif.Gpi.Model
import Verif.Gpi.Api
import Verif.Gpi.Cape
import Verif.Gpi.Core
import Verif.Gpi.Call
import Verif.Gpi.Witness
import Verif.Gpi.Results
import Verif.Gpi.Slices
import Verif.Gpi.Flags
import Verif.Gpi.Flags4
import Verif.Gpi.Reverse
import Verif.Gpi.Missing
import Verif.Gpi.Holes
import Verif.Gpi.Levels
import Verif.Gpi.Diagnostics
import Verif.Gpi.Terms
import Verif.Gpi.Examples
import Verif.Gpi.Physics
import Verif.Calc.EmergentModel
import Verif.Gradients.Model
import Verif.Gradients.Lemmas
import Verif.Gradients.Props
import Verif.RedGauss.Analysis
import Verif.RedGauss.Cases
import Verif.RedGauss.Circle
import Verif.RedGauss.Dtype
import Verif.RedGauss.Grad
import Verif.RedGauss.GradIter
import Verif.RedGauss.GradModel
import Verif.RedGauss.GradRows
import Verif.RedGauss.History
import Verif.RedGauss.Legendre
import Verif.RedGauss.Lemmas
import Verif.RedGauss.Model
import Verif.RedGauss.Paths
import Verif.RedGauss.PyKernels
import Verif.RedGauss.PyMethods
import Verif.RedGauss.PyModel
import Verif.RedGauss.PyShapes
import Verif.RedGauss.PyTables
import Verif.RedGauss.PyWinds
import Verif.RedGauss.Refuse
import Verif.RedGauss.Results
import Verif.RedGauss.Round
import Verif.RedGauss.Rows
import Verif.RedGauss.Same
import Verif.RedGauss.SameProps
import Verif.RedGauss.Sample
import Verif.RedGauss.Spec
import Verif.RedGauss.Synthesis
import Verif.RedGauss.Tables
import Verif.RedGauss.Tri
import Verif.RedGauss.Vec
import Verif.RedGauss.VecLoops
import Verif.RedGauss.VecModel
import Verif.RedGauss.VecRows
import Verif.RedGauss.WindResults
import Verif.RedGauss.Witness
import Verif.RedWind.Dtype
import Verif.RedWind.Fields
import Verif.RedWind.History
import Verif.RedWind.Methods
import Verif.RedWind.Model
import Verif.RedWind.Refuse
import Verif.RedWind.Rossby
import Verif.RedWind.Sample
import Verif.RedWind.Spectra
import Verif.RedWind.Tri
import Verif.Sphere.Ortho
import Verif.Sphere.TrigPoly
import Verif.Sphere.LegFunc
import Verif.Sphere.LegFuncProps
import Verif.Sphere.PointValue
import Verif.Sphere.GeodesicThms
import Verif.Sphere.Gaqd
import Verif.Sphere.GaqdThms
import Verif.WindXr.Model
import Verif.WindXr.Lemmas
import Verif.WindXr.Arrange
import Verif.WindXr.Construct
import Verif.WindXr.Answers
import Verif.WindXr.Props
import Verif.WindXr.Accept
import Verif.WindXr.Fields
import Verif.WindXr.Physics
import Verif.WindXr.Exact
import Verif.WindXr.Witness
import Verif.WindXr.False
import Verif.WindXr.Present
import Verif.Gpi.Xr
import Verif.Gpi.XrUnits
import Verif.Gpi.XrProps
import Verif.Gpi.XrFalse
import Verif.Plot.Thin
import Verif.Plot.Cells
import Verif.Plot.Lattice
import Verif.Plot.Scatter
import Verif.Plot.Contour
import Verif.Plot.ContourArrows
import Verif.Plot.ContourDraw
import Verif.Plot.Length
import Verif.Plot.Sample
import Verif.Plot.Trace
import Verif.Plot.Curve
import Verif.Plot.Head
import Verif.Plot.HeadBatch
import Verif.Plot.CellValid
import Verif.Plot.Centers
import Verif.Plot.Glyphs
import Verif.Plot.Uniform
import Verif.Plot.Prepare
import Verif.Plot.Longitude
import Verif.Plot.Uneven
import Verif.Plot.Gradient
import Verif.Plot.GradientThms
