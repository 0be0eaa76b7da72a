import Verif.Props.Shapes
import Verif.Props.Elementwise
import Verif.Props.Axes
import Verif.Props.Indexing
import Verif.Props.Reductions
import Verif.Props.Ordering
import Verif.Props.Sorting
import Verif.Props.Joining
import Verif.Props.Comparing
import Verif.Props.Selecting
import Verif.Props.Flattening
import Verif.Props.Vectors
import Verif.Props.VectorReduce
import Verif.Matrix.Basic
import Verif.Matrix.Lemmas
import Verif.Matrix.Named
import Verif.Props.Matrices
import Verif.Props.MatrixLaws
import Verif.Props.Inverses
import Verif.Props.Rotations
import Verif.Transform.Basic
import Verif.Transform.Lemmas
import Verif.Transform.Typed
import Verif.Props.Transformations
import Verif.Props.TransformInverses
import Verif.Props.TransformNumbers
import Verif.Nested.Basic
import Verif.Props.Packing
import Verif.Props.Nesting
import Verif.Scalar.Arith
import Verif.Interp.Basic
import Verif.Interp.Spec
import Verif.Interp.Centers
import Verif.Interp.Linear
import Verif.Props.CellCenters
import Verif.Props.Interpolation
import Verif.Space.Basic
import Verif.Space.Lemmas
import Verif.Props.Spaces
import Verif.Props.Stratified
import Verif.Scalar.Trim
import Verif.Props.Trimmed
import Verif.Optimize.Basic
import Verif.Optimize.Lemmas
import Verif.Props.Newton
import Verif.Props.GradientDescent
import Verif.Optimize.Secant
import Verif.Props.Secant
import Verif.Uncertain.Basic
import Verif.Uncertain.Lemmas
import Verif.Uncertain.Index
import Verif.Props.Uncertain
import Verif.Props.UncertainReshape
import Verif.Props.UncertainCopy
import Verif.Props.UncertainReduce
import Verif.Props.UncertainSort
import Verif.Props.UncertainIndex
import Verif.Props.UncertainMask
import Verif.Props.UncertainSet
import Verif.Function.Basic
import Verif.Props.Functions
import Verif.Props.FunctionIndex
import Verif.Function.Integrate
import Verif.Props.Integrals
import Verif.Function.Polynomial
import Verif.Props.Polynomials
import Verif.Vector.Doppler
import Verif.Props.Doppler
import Verif.Scalar.Rep
import Verif.Vector.Volume
import Verif.Props.CellAreas
import Verif.Props.CellVolumes
import Verif.Scalar.Loop
import Verif.Scalar.Histogram
import Verif.Scalar.HistogramLemmas
import Verif.Props.Histograms
import Verif.Props.HistogramBins
import Verif.Props.UncertainAxes
import Verif.Props.UncertainArrays
import Verif.Props.UncertainArg
import Verif.Stats.Basic
import Verif.Stats.RankLemmas
import Verif.Stats.Named
import Verif.Stats.RankNamed
import Verif.Stats.RankLine
import Verif.Stats.Combined
import Verif.Props.Ranks
import Verif.Scalar.RepReduce
import Verif.Stats.Correlation
import Verif.Props.Correlations
import Verif.Props.RankCorrelations
import Verif.Pdf.Basic
import Verif.Pdf.Line
import Verif.Pdf.Lemmas
import Verif.Props.Percentiles
import Verif.Interp.Table
import Verif.Props.Tables
import Verif.Pdf.Percentile
import Verif.Props.Quantiles
import Verif.Pdf.Width
import Verif.Props.Widths
import Verif.Function.Structure
import Verif.Function.Reduce
import Verif.Props.FunctionStructure
import Verif.Props.FunctionReductions
import Verif.Vector.Structure
import Verif.Vector.Nary
import Verif.Props.VectorStructure
import Verif.Vector.Set
import Verif.Props.VectorSet
import Verif.Function.Set
import Verif.Props.FunctionSet
import Verif.Scalar.Out
import Verif.Props.OutWhere
import Verif.Vector.Inplace
import Verif.Props.Inplace
import Verif.Scalar.Percentile
import Verif.Props.ArrayPercentiles
import Verif.Scalar.Fourier
import Verif.Props.Fourier
import Verif.Uncertain.Structure
import Verif.Props.UncertainStructure
import Verif.Uncertain.Along
import Verif.Props.UncertainAlong
import Verif.Vector.Along
import Verif.Props.VectorAlong
import Verif.Vector.Compare
import Verif.Props.VectorComparing
import Verif.Vector.ArrayIndex
import Verif.Props.VectorArgsort
import Verif.Vector.CopyTo
import Verif.Props.VectorCopy
import Verif.Function.Percentile
import Verif.Props.FunctionPercentiles
import Verif.Matrix.Power
import Verif.Props.MatrixPowers
import Verif.Function.Flatten
import Verif.Props.FunctionFlatten
import Verif.Random.Basic
import Verif.Props.RandomSamples
import Verif.Scalar.Kernels
import Verif.Props.Kernels
import Verif.Scalar.Regrid
import Verif.Props.Regridding
import Verif.Scalar.Convolve
import Verif.Uncertain.Convolve
import Verif.Vector.Convolve
import Verif.Props.Convolution
import Verif.Scalar.Linalg
import Verif.Matrix.Stack
import Verif.Props.LargeInverses
import Verif.Function.Regrid
import Verif.Props.FunctionRegridding
import Verif.Units.Basic
import Verif.Props.Units
import Verif.Uncertain.Kernels
import Verif.Vector.Kernels
import Verif.Function.Kernels
import Verif.Props.LiftedKernels
import Verif.Mixed.Basic
import Verif.Mixed.Spec
import Verif.Mixed.Lemmas
import Verif.Props.MixedTypes
import Verif.Mixed.Convert
import Verif.Mixed.ConvertLemmas
import Verif.Props.Conversions
import Verif.Interp.Composite
import Verif.Props.CompositeTables
import Verif.Vector.SolidAngle
import Verif.Props.SolidAngles
import Verif.Space.Volume
import Verif.Props.SpaceVolumes
import Verif.Function.Locate
import Verif.Props.FunctionLocate
import Verif.Optimize.Jacobian
import Verif.Props.Jacobians
import Verif.Uncertain.Roots
import Verif.Uncertain.RootsLemmas
import Verif.Props.UncertainRoots
import Verif.Uncertain.Histogram
import Verif.Vector.Histogram
import Verif.Props.CompositeHistograms
import Verif.Vector.Combine
import Verif.Props.CombinedAxes
import Verif.Stats.Moments
import Verif.Props.Moments
import Verif.Random.Choice
import Verif.Props.Choices
import Verif.Scalar.Indices
import Verif.Props.Indices
import Verif.Scalar.RegridTranspose
import Verif.Props.RegridTranspose
import Verif.Uncertain.Implicit
import Verif.Props.WithUncertainty
import Verif.Vector.Grid
import Verif.Props.VectorGrids
import Verif.Uncertain.Space
import Verif.Props.UncertainSpaces
import Verif.Uncertain.Partition
import Verif.Props.Partitions
import Verif.Scalar.Expression
import Verif.Props.Expressions
import Verif.Uncertain.Compress
import Verif.Props.CompressedArrays
import Verif.Scalar.MatrixMultiply
import Verif.Props.MatrixMultiply
import Verif.Vector.Length
import Verif.Props.Lengths
import Verif.Uncertain.Unravel
import Verif.Props.UncertainUnravel
import Verif.Vector.NanToNum
import Verif.Props.NonFinite
import Verif.Transform.Shape
import Verif.Props.TransformationShapes
import Verif.Props.VectorBroadcast
import Verif.Scalar.StringArray
import Verif.Props.StringArrays
import Verif.Scalar.StringMod
import Verif.Props.StringFormats
import Verif.Scalar.Emath
import Verif.Props.AutomaticDomain
import Verif.Scalar.MedianFilter
import Verif.Props.MedianFilter
