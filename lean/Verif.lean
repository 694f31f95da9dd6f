import Verif.Props.Interpolate
import Verif.Props.Dataproc
import Verif.Props.Mask
import Verif.Props.Frame
import Verif.Props.Grid
import Verif.Props.Binning
import Verif.Props.Reduction
import Verif.Props.Stats
import Verif.Props.Regression
import Verif.Props.Field
import Verif.Props.Fourier
import Verif.Props.Neighbor
import Verif.Props.DataDict
import Verif.Props.DataTable
import Verif.Props.TableRow
import Verif.Props.H5
import Verif.Props.H5Objs
import Verif.Props.H5File
import Verif.Props.H5What
import Verif.Props.H5Like
import Verif.Props.H5Link
import Verif.Props.FieldH5
import Verif.Props.PointGroup
import Verif.Props.Cosmology
import Verif.Props.PowerSpectrum
import Verif.Props.Transfer
import Verif.Props.NFW
import Verif.Props.Coords
import Verif.Props.Param
import Verif.Props.Cache
import Verif.Props.Yaml
import Verif.Props.Excel
import Verif.Props.Fortran
import Verif.Model.Plot
import Verif.Props.Plot
import Verif.Model.RuntimeConfig
import Verif.Props.RuntimeConfig
import Verif.Model.ArrayObj
import Verif.Props.ArrayObj
import Verif.Model.TwoDim
import Verif.Props.TwoDim
import Verif.Model.Axes
import Verif.Props.Axes
import Verif.Model.Figure
import Verif.Model.Lss
import Verif.Model.SecAxis
import Verif.Props.Figure
import Verif.Props.Lss
import Verif.Props.SecAxis
import Verif.Model.H5Txt
import Verif.Props.H5Txt
import Verif.Model.Repr
import Verif.Model.Summary
import Verif.Model.LambdaCDM
import Verif.Model.HaloTheory
import Verif.Props.Repr
import Verif.Props.ConcreteRepr
import Verif.Props.Summary
import Verif.Props.LambdaCDM
import Verif.Props.HaloTheory
import Verif.Model.KernelReg
import Verif.Model.ReduceSpec
import Verif.Model.ArrayRef
import Verif.Props.KernelReg
import Verif.Props.ReduceSpec
import Verif.Props.ArrayRef
import Verif.Base.Float64
import Verif.Base.Slice
import Verif.Model.FloatBins
import Verif.Model.FloatBox
import Verif.Model.FloatMesh
import Verif.Model.FloatHist
import Verif.Model.FloatInterp
import Verif.Props.FloatBins
import Verif.Props.FloatBox
import Verif.Props.FloatMesh
import Verif.Props.FloatCIC
import Verif.Props.FloatHist
import Verif.Props.FloatInterp
import Verif.Props.Float32
import Verif.Props.FloatWeb
import Verif.Props.FloatLinear
import Verif.Props.H5More
import Verif.Props.Scatter2D
import Verif.Props.TableStack
import Verif.Props.GridMake
import Verif.Props.GridApplied
import Verif.Props.FloatReduce
import Verif.Props.FloatWeightedSd
import Verif.Props.AxesView
import Verif.Props.AttrAccess
import Verif.Props.H5Views
import Verif.Props.MapMixins
import Verif.Props.Int64
import Verif.Props.FloatQuantile
import Verif.Props.FloatQuantileW
import Verif.Props.FloatBilinear
import Verif.Props.FloatNum
import Verif.Props.FloatStandardize
import Verif.Props.FloatCoords
import Verif.Props.FloatContour
import Verif.Props.DataDictRepr
import Verif.Props.FloatGrid
import Verif.Props.TransferLimits
import Verif.Props.FloatSubBins
import Verif.Props.FloatOverlap
import Verif.Props.FloatVolume
import Verif.Props.HistDensity
import Verif.Props.FloatHistDensity
import Verif.Props.FloatHistWeights
import Verif.Props.RngArrays
import Verif.Model.TrailingAxes
import Verif.Props.TrailingAxes
import Verif.Props.MaskMemory
import Verif.Model.FloatCosmology
import Verif.Props.FloatCosmology
import Verif.Model.FloatContrast
import Verif.Props.FloatContrast
import Verif.Model.FloatKernel
import Verif.Props.FloatKernel
import Verif.Props.FloatNeighbour
import Verif.Props.FloatUnits
import Verif.Props.FloatHalo
import Verif.Props.FloatNFW
import Verif.Model.FloatOverlap
import Verif.Model.FloatVolume
import Verif.Props.FloatProb
import Verif.Props.FloatNoise
import Verif.Props.FloatGrowth
