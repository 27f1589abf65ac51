import Verif.Spec.Aperture
import Verif.Spec.Fresnel
import Verif.Spec.Grating
import Verif.Spec.Noise
import Verif.Spec.Optics
import Verif.Spec.Profile
import Verif.Spec.Rigid
import Verif.Spec.Shapes
import Verif.Spec.Silicon
import Verif.Spec.Surface
import Verif.Spec.Typeset
import Verif.Spec.Vec
import Verif.Spec.Waves
import Verif.Model.Apertures
import Verif.Model.Approx
import Verif.Model.Axes
import Verif.Model.Caching
import Verif.Model.Calibrate
import Verif.Model.Catalogue
import Verif.Model.Coatings
import Verif.Model.Depletion
import Verif.Model.Drawing
import Verif.Model.Electrons
import Verif.Model.Fit
import Verif.Model.FitEqe
import Verif.Model.Formula
import Verif.Model.Glass
import Verif.Model.Image
import Verif.Model.Infinite
import Verif.Model.Interp
import Verif.Model.LayerPicture
import Verif.Model.Layers
import Verif.Model.Lost
import Verif.Model.Mixins
import Verif.Model.Numeric
import Verif.Model.Printing
import Verif.Model.Profiles
import Verif.Model.Ramanathan
import Verif.Model.RayArithmetic
import Verif.Model.Residual
import Verif.Model.RoundedSum
import Verif.Model.Rounding
import Verif.Model.RulingEfficiency
import Verif.Model.Rulings
import Verif.Model.Sags
import Verif.Model.Seed
import Verif.Model.Sensor
import Verif.Model.SensorMaterial
import Verif.Model.Shapes
import Verif.Model.Silicon
import Verif.Model.Slab
import Verif.Model.Snell
import Verif.Model.SolvedSag
import Verif.Model.Spots
import Verif.Model.StopRays
import Verif.Model.Surface
import Verif.Model.System
import Verif.Model.Target
import Verif.Lemmas.Apertures
import Verif.Lemmas.Electrons
import Verif.Lemmas.Energy
import Verif.Lemmas.Fit
import Verif.Lemmas.Grating
import Verif.Lemmas.Histogram
import Verif.Lemmas.Image
import Verif.Lemmas.Interp
import Verif.Lemmas.Kernel
import Verif.Lemmas.Layers
import Verif.Lemmas.Noise
import Verif.Lemmas.Profiles
import Verif.Lemmas.Rounding
import Verif.Lemmas.Rulings
import Verif.Lemmas.SagNormals
import Verif.Lemmas.Sags
import Verif.Lemmas.Shapes
import Verif.Lemmas.Silicon
import Verif.Lemmas.Snell
import Verif.Lemmas.StopRays
import Verif.Lemmas.Surface
import Verif.Lemmas.Weights
import Verif.Lemmas.Wires
import Verif.Props.Angles
import Verif.Props.Apertures
import Verif.Props.Approx
import Verif.Props.ApproxVariance
import Verif.Props.Astigmatism
import Verif.Props.Averages
import Verif.Props.Axes
import Verif.Props.Caching
import Verif.Props.Calibrate
import Verif.Props.Catalogue
import Verif.Props.CoatedSurfaces
import Verif.Props.Colours
import Verif.Props.ConcaveVaried
import Verif.Props.ConicVertex
import Verif.Props.Conics
import Verif.Props.Defaults
import Verif.Props.Depletion
import Verif.Props.Details
import Verif.Props.Distortion
import Verif.Props.Doubles
import Verif.Props.Drawing
import Verif.Props.ElectronLaws
import Verif.Props.Electrons
import Verif.Props.Etendue
import Verif.Props.ExactAbsorbance
import Verif.Props.Fermat
import Verif.Props.Fit
import Verif.Props.FitEqe
import Verif.Props.FlatConic
import Verif.Props.Formula
import Verif.Props.Fresnel
import Verif.Props.Gaussian
import Verif.Props.Glass
import Verif.Props.Groups
import Verif.Props.Holograms
import Verif.Props.IdealCosine
import Verif.Props.Image
import Verif.Props.ImageArea
import Verif.Props.Infinite
import Verif.Props.Interp
import Verif.Props.Kernel
import Verif.Props.LayerPicture
import Verif.Props.Layers
import Verif.Props.Lines
import Verif.Props.Lost
import Verif.Props.Mirrors
import Verif.Props.Mixins
import Verif.Props.Multilayer
import Verif.Props.PairBetween
import Verif.Props.PairEnds
import Verif.Props.Parabola
import Verif.Props.Paraxial
import Verif.Props.PlaneGrating
import Verif.Props.Plates
import Verif.Props.Polygons
import Verif.Props.Printing
import Verif.Props.Profiles
import Verif.Props.Propagation
import Verif.Props.QuantumChain
import Verif.Props.QuarterWave
import Verif.Props.Ramanathan
import Verif.Props.RayArithmetic
import Verif.Props.Reciprocity
import Verif.Props.Recoated
import Verif.Props.Residual
import Verif.Props.Reverse
import Verif.Props.ReverseCurved
import Verif.Props.ReverseGrating
import Verif.Props.Rough
import Verif.Props.RoundedSum
import Verif.Props.Rounding
import Verif.Props.Rowland
import Verif.Props.RulingEfficiency
import Verif.Props.Rulings
import Verif.Props.SagNormals
import Verif.Props.SagObjects
import Verif.Props.Sags
import Verif.Props.Sampling
import Verif.Props.Seed
import Verif.Props.Sensor
import Verif.Props.SensorMaterial
import Verif.Props.Shapes
import Verif.Props.Silicon
import Verif.Props.SineCondition
import Verif.Props.Slab
import Verif.Props.Smoothness
import Verif.Props.Snell
import Verif.Props.SolidAngle
import Verif.Props.SolvedSag
import Verif.Props.Spacing
import Verif.Props.Sphere
import Verif.Props.Spots
import Verif.Props.StopGrid
import Verif.Props.StopRays
import Verif.Props.StopSelect
import Verif.Props.Stops
import Verif.Props.Superposition
import Verif.Props.SurfaceOptics
import Verif.Props.Symmetries
import Verif.Props.Symmetry
import Verif.Props.System
import Verif.Props.Target
import Verif.Props.Tolerance
import Verif.Props.Transformed
import Verif.Props.Units
import Verif.Props.VariedSpacing
import Verif.Props.Vertices
import Verif.Props.Vmr
import Verif.Props.Wavefronts
import Verif.Props.Waves
import Verif.Props.Wires
