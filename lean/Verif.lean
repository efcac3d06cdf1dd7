import Verif.Lemmas.Absorb
import Verif.Lemmas.AbsorbConv
import Verif.Lemmas.AbsorbModes
import Verif.Lemmas.AbsorbSolve
import Verif.Lemmas.AbsorbSpec
import Verif.Lemmas.AbsorbTE
import Verif.Lemmas.Angles
import Verif.Lemmas.AnglesTorch
import Verif.Lemmas.Axes
import Verif.Lemmas.AxesConv
import Verif.Lemmas.BackendLaws
import Verif.Lemmas.Bare
import Verif.Lemmas.BareExample
import Verif.Lemmas.Branch
import Verif.Lemmas.Bvp
import Verif.Lemmas.BvpFields
import Verif.Lemmas.BvpSolve
import Verif.Lemmas.Canon
import Verif.Lemmas.CellWave
import Verif.Lemmas.Cfs
import Verif.Lemmas.CfsConv
import Verif.Lemmas.Clear
import Verif.Lemmas.Coatings
import Verif.Lemmas.Compress
import Verif.Lemmas.ConTo2D
import Verif.Lemmas.ConvGen
import Verif.Lemmas.ConvMats
import Verif.Lemmas.Crystal
import Verif.Lemmas.CrystalSolve
import Verif.Lemmas.Diag
import Verif.Lemmas.DiscreteConv
import Verif.Lemmas.Dispatch
import Verif.Lemmas.Dispersion
import Verif.Lemmas.Edges
import Verif.Lemmas.EigBasis
import Verif.Lemmas.EigGradient
import Verif.Lemmas.Ellipse
import Verif.Lemmas.EllipseGeom
import Verif.Lemmas.Energy1D
import Verif.Lemmas.Energy1DSolve
import Verif.Lemmas.Energy2D
import Verif.Lemmas.Engine
import Verif.Lemmas.Example
import Verif.Lemmas.Example1D
import Verif.Lemmas.Example2D
import Verif.Lemmas.Exchange
import Verif.Lemmas.FieldExample
import Verif.Lemmas.FieldFunction
import Verif.Lemmas.FieldMatch
import Verif.Lemmas.FieldMirror
import Verif.Lemmas.FieldMoved
import Verif.Lemmas.FieldSpec
import Verif.Lemmas.FieldStack
import Verif.Lemmas.FieldTile
import Verif.Lemmas.FieldUnique
import Verif.Lemmas.Flat
import Verif.Lemmas.Fourier
import Verif.Lemmas.Gauge
import Verif.Lemmas.Gradient
import Verif.Lemmas.Grid
import Verif.Lemmas.GridPaint
import Verif.Lemmas.GridSorted
import Verif.Lemmas.Guided
import Verif.Lemmas.Header
import Verif.Lemmas.Homog
import Verif.Lemmas.Image
import Verif.Lemmas.ImageConv
import Verif.Lemmas.Invariance
import Verif.Lemmas.Jax
import Verif.Lemmas.JaxKwargs
import Verif.Lemmas.JaxObject
import Verif.Lemmas.LayerCount
import Verif.Lemmas.Listing
import Verif.Lemmas.Loop
import Verif.Lemmas.Lorentz
import Verif.Lemmas.MaterialFiles
import Verif.Lemmas.Materials
import Verif.Lemmas.Mirror
import Verif.Lemmas.Modes2D
import Verif.Lemmas.Nan
import Verif.Lemmas.Object
import Verif.Lemmas.ObjectExample
import Verif.Lemmas.Optimizer
import Verif.Lemmas.Orders
import Verif.Lemmas.Oscillators
import Verif.Lemmas.Passive
import Verif.Lemmas.Passive1D
import Verif.Lemmas.Passive2D
import Verif.Lemmas.PassiveExample
import Verif.Lemmas.PassiveExample2D
import Verif.Lemmas.Pattern
import Verif.Lemmas.PatternAnywhere
import Verif.Lemmas.PatternDraw
import Verif.Lemmas.Persym
import Verif.Lemmas.PhiRuns
import Verif.Lemmas.PhiSuccess
import Verif.Lemmas.PhiZero
import Verif.Lemmas.Pinv
import Verif.Lemmas.Pipeline
import Verif.Lemmas.Poynting
import Verif.Lemmas.PoyntingEnds
import Verif.Lemmas.Propagator
import Verif.Lemmas.Reciprocity
import Verif.Lemmas.ReciprocityExample
import Verif.Lemmas.ReciprocitySolve
import Verif.Lemmas.Rotated
import Verif.Lemmas.RotatedChords
import Verif.Lemmas.RotatedCover
import Verif.Lemmas.Scale
import Verif.Lemmas.ScaleEdge
import Verif.Lemmas.ScaleField
import Verif.Lemmas.ScaleVector
import Verif.Lemmas.Scattering
import Verif.Lemmas.Scattering2D
import Verif.Lemmas.ScatteringEnergy
import Verif.Lemmas.ScatteringEnergy2D
import Verif.Lemmas.ScatteringExample
import Verif.Lemmas.ScatteringFilm
import Verif.Lemmas.ScatteringFlip
import Verif.Lemmas.ScatteringNormal
import Verif.Lemmas.ScatteringReciprocity
import Verif.Lemmas.ScatteringReciprocity2D
import Verif.Lemmas.ScatteringSource
import Verif.Lemmas.ScatteringTmm
import Verif.Lemmas.ScatteringTmmExample
import Verif.Lemmas.Script
import Verif.Lemmas.Shift
import Verif.Lemmas.Side
import Verif.Lemmas.Sign
import Verif.Lemmas.SignSpec
import Verif.Lemmas.SmallCell
import Verif.Lemmas.Smooth
import Verif.Lemmas.SmoothAll
import Verif.Lemmas.SmoothConv
import Verif.Lemmas.SmoothSolve
import Verif.Lemmas.Stack1D
import Verif.Lemmas.Stack2D
import Verif.Lemmas.StackSpec
import Verif.Lemmas.StackSpec2D
import Verif.Lemmas.Stacks
import Verif.Lemmas.Substitution
import Verif.Lemmas.Substrate
import Verif.Lemmas.SubstrateNeg
import Verif.Lemmas.ThinFilm
import Verif.Lemmas.Tile
import Verif.Lemmas.TileConv
import Verif.Lemmas.Torch
import Verif.Lemmas.TorchAniso
import Verif.Lemmas.TorchBare
import Verif.Lemmas.TorchField
import Verif.Lemmas.TorchFieldFunction
import Verif.Lemmas.TorchNeg
import Verif.Lemmas.TorchObject
import Verif.Lemmas.TorchObjectExample
import Verif.Lemmas.TorchOblique
import Verif.Lemmas.TorchSolve
import Verif.Lemmas.TorchSubstrate
import Verif.Lemmas.TorchVector
import Verif.Lemmas.Transmission
import Verif.Lemmas.VectorOne
import Verif.Lemmas.YConst
import Verif.Lemmas.YRows
import Verif.Model.BackendMaterials
import Verif.Model.Basic
import Verif.Model.Compress
import Verif.Model.Dispersion
import Verif.Model.Field
import Verif.Model.Fourier
import Verif.Model.Jax
import Verif.Model.JaxObject
import Verif.Model.JaxPrimitives
import Verif.Model.Materials
import Verif.Model.Object
import Verif.Model.Optimizer
import Verif.Model.Rcwa
import Verif.Model.Scattering
import Verif.Model.Scattering2D
import Verif.Model.ScatteringSource
import Verif.Model.Torch
import Verif.Model.TorchField
import Verif.Model.TorchObject
import Verif.Model.TorchPrimitives
import Verif.Model.Transfer1D
import Verif.Model.Transfer2D
import Verif.Model.Vector
import Verif.Props.C01
import Verif.Props.C02
import Verif.Props.C03
import Verif.Props.C04
import Verif.Props.C05
import Verif.Props.C06
import Verif.Props.C07
import Verif.Props.C08
import Verif.Props.C08Torch
import Verif.Props.C09
import Verif.Props.C10
import Verif.Props.C100
import Verif.Props.C101
import Verif.Props.C102
import Verif.Props.C103
import Verif.Props.C10Torch
import Verif.Props.C11
import Verif.Props.C12
import Verif.Props.C12b
import Verif.Props.C13
import Verif.Props.C14
import Verif.Props.C15
import Verif.Props.C16
import Verif.Props.C17
import Verif.Props.C18
import Verif.Props.C19
import Verif.Props.C20
import Verif.Props.C21
import Verif.Props.C22
import Verif.Props.C23
import Verif.Props.C24
import Verif.Props.C25
import Verif.Props.C26
import Verif.Props.C27
import Verif.Props.C28
import Verif.Props.C29
import Verif.Props.C30
import Verif.Props.C31
import Verif.Props.C32
import Verif.Props.C33
import Verif.Props.C34
import Verif.Props.C35
import Verif.Props.C36
import Verif.Props.C37
import Verif.Props.C38
import Verif.Props.C39
import Verif.Props.C40
import Verif.Props.C40b
import Verif.Props.C41
import Verif.Props.C42
import Verif.Props.C43
import Verif.Props.C44
import Verif.Props.C45
import Verif.Props.C46
import Verif.Props.C47
import Verif.Props.C48
import Verif.Props.C49
import Verif.Props.C50
import Verif.Props.C51
import Verif.Props.C52
import Verif.Props.C53
import Verif.Props.C54
import Verif.Props.C55
import Verif.Props.C56
import Verif.Props.C57
import Verif.Props.C57Ellipse
import Verif.Props.C58
import Verif.Props.C59
import Verif.Props.C60
import Verif.Props.C61
import Verif.Props.C61b
import Verif.Props.C62
import Verif.Props.C63
import Verif.Props.C64
import Verif.Props.C65
import Verif.Props.C66
import Verif.Props.C67
import Verif.Props.C68
import Verif.Props.C69
import Verif.Props.C70
import Verif.Props.C71
import Verif.Props.C72
import Verif.Props.C73
import Verif.Props.C74
import Verif.Props.C75
import Verif.Props.C76
import Verif.Props.C77
import Verif.Props.C78
import Verif.Props.C79
import Verif.Props.C79b
import Verif.Props.C80
import Verif.Props.C81
import Verif.Props.C81b
import Verif.Props.C82
import Verif.Props.C83
import Verif.Props.C83b
import Verif.Props.C84
import Verif.Props.C85
import Verif.Props.C85b
import Verif.Props.C86
import Verif.Props.C87
import Verif.Props.C88
import Verif.Props.C89
import Verif.Props.C90
import Verif.Props.C91
import Verif.Props.C92
import Verif.Props.C93
import Verif.Props.C94
import Verif.Props.C95
import Verif.Props.C96
import Verif.Props.C97
import Verif.Props.C98
import Verif.Props.C99
import Verif.Spec.Absorb
import Verif.Spec.Angles
import Verif.Spec.Aniso
import Verif.Spec.Axes
import Verif.Spec.BackendLaws
import Verif.Spec.Backends
import Verif.Spec.Branch
import Verif.Spec.Coatings
import Verif.Spec.ContinuousConv
import Verif.Spec.Conv
import Verif.Spec.Crystal
import Verif.Spec.Eigen
import Verif.Spec.Ellipse
import Verif.Spec.FieldFunction
import Verif.Spec.FieldMirror
import Verif.Spec.FieldMoved
import Verif.Spec.FieldStack
import Verif.Spec.Fields
import Verif.Spec.Fourier
import Verif.Spec.Fresnel
import Verif.Spec.Gain
import Verif.Spec.Gradient
import Verif.Spec.Grid
import Verif.Spec.Image
import Verif.Spec.JaxGradient
import Verif.Spec.JaxObject
import Verif.Spec.Materials
import Verif.Spec.Maxwell
import Verif.Spec.Normal
import Verif.Spec.Object
import Verif.Spec.Optics
import Verif.Spec.Optimizer
import Verif.Spec.Orders
import Verif.Spec.Oscillators
import Verif.Spec.Passive
import Verif.Spec.Pattern
import Verif.Spec.Phi
import Verif.Spec.Pieces
import Verif.Spec.Pinv
import Verif.Spec.Pipeline
import Verif.Spec.Poynting
import Verif.Spec.Reciprocity
import Verif.Spec.Rotated
import Verif.Spec.Rows
import Verif.Spec.Scale
import Verif.Spec.Scattering
import Verif.Spec.Scattering2D
import Verif.Spec.ScatteringPower
import Verif.Spec.ScatteringSource
import Verif.Spec.Script
import Verif.Spec.Shift
import Verif.Spec.Sides
import Verif.Spec.Smooth
import Verif.Spec.Stack
import Verif.Spec.Stacks
import Verif.Spec.Structures
import Verif.Spec.Substrate
import Verif.Spec.ThinFilm
import Verif.Spec.Tile
import Verif.Spec.TorchFieldFunction
import Verif.Spec.TorchFields
import Verif.Spec.TorchObject
