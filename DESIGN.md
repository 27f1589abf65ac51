# Design of the formal model of optika

Source: `/repo` (sun-data/optika, pinned).  Model and proofs: `lean/Verif`.

## Trusted base

* Lean 4.33 kernel, Mathlib 4.33.  Every theorem depends at most on
  `propext`, `Classical.choice`, `Quot.sound`; no axioms are added, and there is no
  `sorry`, `native_decide` or `bv_decide`.
* The transcription of the Python source into the definitions under `lean/Verif/Model`
  (each definition cites the file and lines it transcribes).
* Idealisations, the same everywhere:
  * floating point numbers are real (or complex) numbers; rounding is modelled only in `Model/Rounding` (C112), as relative errors of single
    operations and as rounding to nearest doubles, without overflow and underflow;
  * `NaN`/`inf` are modelled as `none` of an `Option`: a square root of a negative
    number or a division by zero makes the whole result `none`.  In numpy only the
    affected fields become non-finite, so `none` is coarser than the code;
  * units (astropy) are consistent and dropped, except where a unit decides a branch,
    in which case the unit is an explicit enumeration;
  * numpy/named_arrays broadcasting is elementwise: the model works on one ray, or on
    a `List`/`Finset`-indexed family of rays where the code reduces over an axis;
  * random numbers are an explicit argument (a tape) and theorems hold for all tapes.

## Layout

* `Verif/Spec`   – small specifications, independent of the model.
* `Verif/Model`  – transcription of the code.
* `Verif/Lemmas` – helper lemmas.
* `Verif/Props`  – property theorems, with a non-vacuity `example` beside each.

## Plan per property

| id | model | proof |
|---|---|---|
| C01–C05 | `snells_law` on real 3-vectors, `Option` for the square root | vector algebra, sign case split |
| C06 | `incident_effective` + `snells_law` | algebra from C01 |
| C07 | `HolographicRulingSpacing` + mirror | triple product algebra |
| C08 | `intercept` of each closed-form sag, including guards and branches | quadratic root algebra; negations for fall-back branches |
| C09 | `normal`, `__call__` | derivative of the sag (`HasDerivAt`) against normal components |
| C10 | `__call__` of sags | algebra; negation for negative torus radius |
| C11 | surface with parabolic sag and mirror | algebra |
| C12 | `AbstractSag.propagate_rays` | `Real.exp` algebra |
| C13 | `propagate_rays`, `accumulate_rays` | list induction |
| C14, C15 | `AbstractSurface.propagate_rays` | invariant by list induction |
| C16 | same with rigid motions acting | equivariance, list induction |
| C17 | wavelength update of a surface | negation with a witness; what is conserved instead |
| C18–C20 | apertures | set reasoning, `Nat`/`Int` arithmetic for `wire` |
| C21 | `direction`, `angles` | trigonometry |
| C22 | `surfaces_all`, `index_*_stop`, stop pairing loop | list induction, termination |
| C23 | state machine with the cached input rays | negation with a witness history, partial theorem for the calls that are independent |
| C24 | `raytrace`, `rayfunction` | equivariance; negation for transformed systems |
| C25 | `_denormalize_grid` | ordered field algebra |
| C26 | reductions of `area_effective`, `vignetting`, `distortion` | finite sums |
| C27 | `distort`/`undistort` | matrix algebra |
| C28 | `snells_law_scalar` | principal square root |
| C29 | `matrices.refraction`, `matrices.propagation` | 2×2 matrix algebra |
| C30, C31 | `Layer.transfer`, `LayerSequence`, `PeriodicLayerSequence` | induction |
| C32, C33 | `multilayer_efficiency`, `layer_absorbance` | energy flux invariant, induction on layers |
| C34 | efficiency of multilayer mirrors/films | negation with witness; partial theorem |
| C35 | opaque mask | induction on the layers below |
| C36, C37 | profiles | calculus |
| C38–C40 | ruling efficiencies | trigonometric series; negations with witnesses |
| C41, C42 | `collect` | finite sums |
| C43–C45 | `_electrons_measured_numba` with explicit random tape | induction over loops, schedules as permutations |
| C46–C48 | charge collection, diffusion, kernel | integrals, convexity, telescoping series |
| C49–C51 | `vmr_signal`, `signal`, `photons_absorbed`, bounds | algebra, integrals |
| C52 | linear interpolation | list induction |
| C53 | `Glass.index_refraction` | monotonicity |

## What is modelled

* `Model/Apertures.lean` – Apertures `optika/apertures/_apertures.py`: masks (`__call__`), bounds and wires of the apertures. One element of each (broadcast) array at a time; units are dropped.
* `Model/Approx.lean` – The approximate simulation of measured electrons `optika/sensors/materials/_materials.py`, `_discrete_gamma` and `electrons_measured_approx`.
* `Model/Axes.lean` – The logical axes of a grid `optika/systems/_sequential.py` lines 165–292 and 1514–1582. A shape is the set of the names of the axes; `tuple(set)` has no definite order, so the results are sets. `none` is an exception.
* `Model/Caching.lean` – A system as an object with cached properties `optika/systems/_sequential.py`, lines 830–1002. The object holds its parameters, which can be assigned, and the values of two cached properties: `_rayfunction_input` (lines 830–834) and `rayfunction_default` (lines 990–1001). An assignment of a parameter leaves both as they are.
* `Model/Calibrate.lean` – The models that a system fits to its rays `AbstractSequentialSystem.distortion` and `vignetting`, `optika/systems/_sequential.py` lines 1246–1285 and 1331–1368, from the rays on the sensor to the models. Simplified: the grid is a product of wavelengths and field points, so that the exception for wavelengths without an axis of their own (lines 1254–1259 and 1339–1344) does not occur.
* `Model/Catalogue.lean` – The sensors of the catalogue `e2v_ccd97`, `e2v_ccd203` and `tektronix_tk512cb` in `optika/sensors/materials`, `e2v_ccd64_thick` and `e2v_ccd64_thin` in `optika/sensors/materials/depletion`, and the cache `optika.memory`, `optika/_caching.py`. Lengths are in ångström. The numbers in the data files are parameters. `joblib.Memory` is taken to store a copy of the result of the first call and to return a new object in every later call.
* `Model/Coatings.lean` – Coated materials `optika/materials/_multilayers.py`, `_thin_films.py` and `_materials.py`, `optika/sensors/materials/_materials.py`: coatings and sensors as the material of a surface.
* `Model/Depletion.lean` – Depletion regions `optika/sensors/materials/depletion/_depletion.py`.
* `Model/Drawing.lean` – Drawings `plot` and `_write_to_dxf` of apertures, surfaces, rays and sequential systems: which polylines they draw, as lists of vertices. The style, the projection of `plot` onto the selected components and the file format are not modelled. A vertex whose coordinates are not finite is `none`.
* `Model/Electrons.lean` – Simulating the electrons measured by a sensor `optika/sensors/materials/_ramanathan_2020/_ramanathan_2020.py`, `_electrons_measured_numba`, lines 767–876. Random numbers are explicit: for each photon a record of the numbers drawn. The counts in the result are natural numbers (`+= 1` on floats is exact below `2 ** 53`).
* `Model/Fit.lean` – Models that are fitted to rays `PolynomialDistortionModel`, `optika/distortion/_distortion.py` lines 276–500, and `PolynomialVignettingModel`, `optika/radiometry/_vignetting.py` lines 99–190. `na.PolynomialFitFunctionArray.from_degree` of named_arrays: the coefficients of all monomials in wavelength and position, relative to a centre, up to the degree, from the normal equations of the points selected by the mask.
* `Model/FitEqe.lean` – Fit of the quantum efficiency of a sensor `BackIlluminatedSiliconSensorMaterial.fit_eqe`, `optika/sensors/materials/_materials.py` lines 2284–2377. Lengths are in ångström.
* `Model/Formula.lean` – Formulas and files of chemicals `optika/chemicals/_chemicals.py` lines 26–144. Strings are lists of characters.
* `Model/Glass.lean` – Glass `optika/materials/_materials.py` lines 308–455.
* `Model/Image.lean` – The image of a scene `optika/systems/_sequential.py` lines 1002–1205, `optika/vectors/_vectors_object.py` lines 42–133 and `AbstractImagingSensor.measure`, `optika/sensors/_sensors.py` lines 374–430, without noise. The vertices of the field and of the pupil have two axes of their own each. Field and pupil have units of length or are angles as the position of the object requires. From named_arrays: `volume_cell` is the (signed) difference along one axis or the (signed) area of a quadrilateral, `solid_angle_cell` the sum of the solid angles of two triangles, `cell_centers` the mean of the vertices of a cell or, with `random=True`, a point at random between them.
* `Model/Infinite.lean` – Surfaces with an infinite radius The default radius of the spherical, conic, cylindrical, parabolic and toroidal surfaces is infinite (`optika/sags`). Here the formulas of `Model/Sags` are transcribed once more, for numbers that may be infinite or not a number, with the rules of IEEE 754. Of a division by zero it is only recorded that it is not finite.
* `Model/Interp.lean` – Linear interpolation in tables `na.interp`, taken to be `numpy.interp` for each element, as used by the measured mirror (`optika/materials/_materials.py` lines 279–305), measured rulings (`optika/rulings/_rulings.py` lines 287–313), optical constants (`optika/chemicals/_chemicals.py` lines 101–144), effective areas (`optika/radiometry/_effective_area.py` lines 93–102) and properties of silicon (`optika/sensors/materials/_ramanathan_2020/_ramanathan_2020.py`).
* `Model/LayerPicture.lean` – Pictures of layers `AbstractLayer.plot`, `optika/materials/_layers.py` lines 279–362, 501–523 and 647–675, and `plot_layers` of coatings, `optika/materials/_multilayers.py` lines 868–877 and 937–981: the rectangles that are drawn and the points that labels refer to. Not modelled: colours, texts, and layers without thickness.
* `Model/Layers.lean` – Multilayer coatings `optika/materials/_snells_law.py` (scalar form), `matrices.py`, `_layers.py`, `_multilayers.py` and `_thin_films.py`. One polarization at a time (`polarizedS`). `none` is a coefficient that is not finite. The index of refraction of a chemical (interpolation of a table) is a function of the wavelength.
* `Model/Lost.lean` – Rays of which some components are not finite `optika/surfaces.py` lines 123–198, `optika/sags/_abc.py` lines 109–122 and `optika/apertures/_apertures.py` lines 82–102 for rays that miss a surface, are totally reflected or have no efficiency. The code keeps on propagating such rays: some of their components are not finite, the others are, and the flag `unvignetted` is only ever changed by apertures. In `Verif/Model/Surface.lean` such a ray is `none`; here every component has its own fate. Simplified: a vector is finite in all components or in none. An attenuation of an infinite path is not finite (in the code the factor is zero if the medium absorbs).
* `Model/Mixins.lean` – Mixins for the placement of objects `optika/mixins.py` lines 166–248.
* `Model/Numeric.lean` – Numerical primitives Floating point results that are `NaN` or infinite are modelled by `none`.
* `Model/Printing.lean` – Printing of objects `optika/mixins.py` lines 40–122. Texts are lists of characters.
* `Model/Profiles.lean` – Interface profiles `optika/materials/profiles.py`. The profiles themselves are modelled for a width that is not zero (the code divides by it); the Fourier transforms for every width, with `none` for `0/0`.
* `Model/Ramanathan.lean` – Electron-hole pairs in silicon `optika/sensors/materials/_ramanathan_2020/_ramanathan_2020.py`. The tables of the files `p0K.dat`, `p100K.dat` and `p300K.dat` are a parameter; energies are in eV, temperatures in K. `none` is not a finite number.
* `Model/RayArithmetic.lean` – Arithmetic of rays `optika/rays/_ray_vectors.py` lines 105–187: matrices times rays and sums of rays and vectors, by which transformations act on rays. Rays are one ray at a time.
* `Model/Residual.lean` – Pictures of the errors of fits `PolynomialDistortionModel.plot_residual`, `optika/distortion/_distortion.py` lines 398–500, and `PolynomialVignettingModel.plot_residual`, `plot` and `inverse`, `optika/radiometry/_vignetting.py` lines 44–58 and 187–347: the numbers that are drawn and the range of the colours. Not modelled: figures, axes and labels.
* `Model/RoundedSum.lean` – Sums with rounding errors `np.sum` and `np.mean` over the rays of a field point as in `area_effective` (`optika/systems/_sequential.py` lines 1498–1504) and `distortion` (lines 1266–1276), and the sum over the rays of a pixel in `AbstractImagingSensor.collect` (`optika/sensors/_sensors.py` lines 125–155), with an error in every addition. The order of the additions is left open: numpy adds in blocks and pairwise.
* `Model/Rounding.lean` – Arithmetic with rounding errors The rest of the model computes with real numbers. Here the formulas by which a surface propagates a ray are written as expressions, with the operations in the order of the code. An expression can be evaluated exactly, or with an error in every operation.
* `Model/RulingEfficiency.lean` – Efficiency of rulings `optika/rulings/_rulings.py`. Diffraction orders are integers.
* `Model/Rulings.lean` – Diffraction gratings: effective incident direction and ruling spacings `optika/rulings/_rulings.py` and `optika/rulings/_spacing.py`.
* `Model/Sags.lean` – Sag profiles `optika/sags/*.py`. A sag is a triple of functions: the height `__call__`, the normal vector and the intercept of a line with the surface. `none` is a result that is not finite.
* `Model/Seed.lean` – Where the search for the rays that connect the stops starts `object_is_at_infinity`, `_anchor_surface` and the seed of `_calc_rayfunction_stops_only`, `optika/systems/_sequential.py` lines 45–63, 344–361 and 496–546, for one sample of the border of each of the two stops.
* `Model/Sensor.lean` – Imaging sensors `optika/sensors/_sensors.py`. Rays are a list (the logical axes along which the photons are collected are flattened); the other axes are elementwise.
* `Model/SensorMaterial.lean` – Materials of imaging sensors `optika/sensors/materials/_materials.py` and the detector part of `optika/sensors/_sensors.py`. Refractive indices are functions of the wavelength, the quantum yield and the Fano factor functions of wavelength and temperature. Results that are not a number are `none`.
* `Model/Shapes.lean` – Shapes of optical elements The `shape` properties of the library and `optika.shape` (`optika/_util.py` lines 21–38): the shape of an array, a transformation or a shaped object is its `shape`, that of anything else (`None`, numbers, strings, `dict`) is that of a scalar. Objects are represented by the shapes of their fields; `none` is an exception.
* `Model/Silicon.lean` – Silicon sensors `optika/sensors/materials/_materials.py`, `_diffusion.py` and `optika/sensors/_sensors.py`. The refractive index of silicon, the quantum yield and the Fano factor are functions of the wavelength (and of the temperature). Quotients with denominator zero, which are `NaN` or infinite, are `none`.
* `Model/Slab.lean` – The transfer matrix of a slab `transfer` of `optika/materials/matrices.py`, which no other code of the repository calls.
* `Model/Snell.lean` – Vector form of Snell's law `optika/materials/_snells_law.py`.
* `Model/SolvedSag.lean` – Sags whose intercept is solved for `AbstractSag.intercept`, `optika/sags/_abc.py` lines 76–110, which `ToroidalSag` and sags defined by a user inherit.
* `Model/Spots.lean` – Spot diagrams `AbstractSequentialSystem.spot_diagram`, `optika/systems/_sequential.py` lines 1663–1791: the points drawn in one panel for one wavelength. The layout of the figure is not modelled.
* `Model/StopRays.lean` – Rays that connect the stops `_ray_error`, `_calc_rayfunction_stops_only` and `_calc_rayfunction_stops` of `optika/systems/_sequential.py`, lines 363–668, for one sample of the border of each of the two stops. Only the last pair of stops that is connected determines the result (`stopPairs`); the pairs before it can only raise an exception. The coordinates of the samples are those returned by `AbstractAperture.wire`.
* `Model/Surface.lean` – Rays, materials, apertures and surfaces `optika/rays/_ray_vectors.py`, `optika/materials/_materials.py`, `optika/surfaces.py` and `optika/propagators.py`. A ray here is one element of the (broadcast) ray array. `none` is a ray with a component that is not finite, or an exception.
* `Model/System.lean` – Sequential systems `optika/_util.py` and `optika/systems/_sequential.py`. One element of each array; the Newton iteration that connects the stops is not modelled, its result (the extent of field and pupil) is a parameter of the model of a system.
* `Model/Target.lean` – The resolution target `optika/targets/_airforce/_airforce.py`. The page of the chart is drawn by `pymupdf` and read by `matplotlib`; the rows of the picture run from the top to the bottom, and a pixel is the list of its channels.

### Assumed about code outside the repository

* `numpy`, `astropy`, `named_arrays`: elementwise arithmetic, `np.sqrt`, `np.sign`, `np.emath.sqrt` (principal root),
  `na.histogram` as `numpy.histogramdd`, `na.interp` as `numpy.interp`, matrix product, power and inverse as usual.
* `scipy.special.erf` is the Gaussian integral, `scipy.special.jv` the Bessel integral.
* `na.geometry.point_in_polygon` is a parameter of the polygon aperture.  The theorems about regular polygons and
  trapezoids (`C18_regular`, `C18_trapezoid`, `C18_sectors`) assume that it is right about strictly convex polygons
  (`PolygonTest`), and say nothing about points on the sides.
* `copy.copy` and `dataclasses.replace` are shallow.
* Random number generators are a tape of draws in the range that their documentation states; `numba` compilation
  (`fastmath`, `parallel`) keeps the meaning of the loops, in any order of the iterations (C44).

* `volume_cell` of `named_arrays` is the signed difference or area, `solid_angle_cell` the sum of the formula of van
  Oosterom and Strackee for two triangles, `cell_centers(random=True)` a point between the vertices (C63, C64).

* `na.PolynomialFitFunctionArray.from_degree` solves the normal equations for all monomials in wavelength and
  position up to the given total degree, for the points selected by the mask; excluded points enter only through the
  centre that the code passes (C66).

* The rotation matrices of `named_arrays` are the usual right-handed ones (C73).

* The minimizer of `fit_eqe` is a structure `BoxMinimizer`: its result is within the bounds and not worse than the
  guess (C78).

### Simplified

* `none` stands for any result that is not finite and for exceptions.
* `snells_law_scalar` divides by the new index; theorems assume that it is not zero.
* Interface profiles, diffusion widths and the kernel are modelled for nonzero widths where the code divides by them.
* The secant iteration that solves for the intercept of sags without closed form is a function `LineSolver` whose
  result, if there is one, is an exact root (C08), or has a residual below a tolerance (`C08_tolerance`); likewise `ScalarMinimizer` for the fit of a depletion model (C71).
  The iteration that solves for the rays of the
  stops is a function `RootFinder` whose result, if there is one, is an exact root (C68, C69), or `TolerantFinder`,
  whose result has a residual of at most `max_abs_error` (`C68_tolerance_…`, `C69_tolerance_partial`); its first guess is
  arbitrary, so the choice of the guess in the code is not modelled. In C25 the extents of the stops are a parameter.
* `Option`-valued reductions over rays ignore masked elements in the way the code does (`where=`).

### Not modelled

Plotting apart from which polylines are drawn (C72), the texts of numbers, quantities and arrays in `to_string` (C96), unit conversion, caching and memory-mapped files (`_caching.py`), the drawing of the chart that `airforce` reads, metrology
reports, the steps of the Newton iteration, mesh geometry.

## Disagreements between code and property

Each is a theorem with a concrete witness; the rest of the property is proved under the hypothesis
that excludes the witness.

* `C03_grazing_counterexample` – The hypothesis of `C03_normal_flip_partial` is needed: for a ray grazing the surface (`a·u = 0`) the sign convention of `copysign` decides, and the two orientations differ.
* `C07_specular_point_counterexample` – Disagreement: at a surface point where the two beams have the same tangential component (where the mirror alone already sends the ray to `x2`), the computed spacing is not finite.
* `C07_with_normal_counterexample` – Disagreement: a ray travelling with the normal (`a·u > 0`) along the first recording beam is not sent along the second one in order `+1` (it is in order `-1`).
* `C08_conic_vertex_counterexample` – The vertex is on the line of sight and on the surface of a paraboloid written as a `ConicSag`, but almost axial rays do not find it.
* `C08_cylinder_miss_counterexample` – Disagreement with C08: a line that misses the cylinder is intersected with the plane `z = 0` instead of giving a result that is not finite.
* `C08_parabola_near_axial_counterexample` – Disagreement with C08: a ray inclined by `1e-5` gets an intercept off the paraboloid.
* `C08_parabola_perpendicular_counterexample` – Disagreement with C08: perpendicular rays and the parabola (`sign(0) = 0`).
* `C08_sphere_far_half_counterexample` – Disagreement with C08: a line which crosses only the far half of the sphere, hence misses the sag surface, gets a finite intercept that is not on the surface.
* `C08_sphere_perpendicular_counterexample` – Disagreement with C08: a ray travelling perpendicular to the axis towards the sphere gets a finite intercept that is not on the surface (`sign(0) = 0`).
* `C08_torus_moved_counterexample` – Disagreement with C08: the toroidal sag cannot be moved along `z`. The other curved sags map the ray to their local frame (`C08_transformed`), the inherited intercept compares the position of the ray with the height in the local frame; whichever point the iteration finds, it is not on the moved torus.
* `C08_transformed_counterexample` – Disagreement with C08: with a transformation, `__call__` is evaluated in the local frame of the sag and not mapped back, so that intercept and height disagree (a sag shifted by one unit along `z`).
* `C09_flat_turned_counterexample` – C09: `NoSag.normal` ignores the transformation: the normal of a plane that is turned by a right angle lies in the plane.
* `C09_turned_counterexample` – Disagreement with C09: if the transformation of a sag turns it, `normal` returns the normal in the frame of the sag, which is not perpendicular to the surface that the intercepts lie on. Here a paraboloid is turned by a right angle.
* `C104_conic_counterexample` – C104 , a conic surface where it fails: a line meets it in two points, at the same angle and the same distance from the start; moving the start along the line, the point jumps from the one to the other.
* `C10_torus_negative_counterexample` – Disagreement with C10: a torus whose two radii are equal and negative is not the sphere of that radius; its vertex is not at the origin.
* `C112_vertex_counterexample` – C112 fails at the vertex of conic surfaces. A ray along the axis of a conic mirror of radius 3 is reflected at the vertex, and the errors of double precision, with whichever rounding to nearest, make the code lose it: the computed point is not quite the vertex, and all points of the axis except the vertex are considered to be on the other sheet.
* `C113_conic_rounding_counterexample` – C113 fails in double precision for conics: a ray that starts at `z = -1` and has the component `49/64` along `z` strikes a plane, but is lost by a conic surface of infinite radius (the default): with whichever rounding to nearest the computed point is not quite on the plane, and all points next to the plane are considered to be on the other sheet.
* `C113_parabola_counterexample` – C113 fails for paraboloids: with an infinite focal length, which is the default, neither the normal nor the points that rays strike are finite, although the height is zero.
* `C113_sphere_counterexample` – C113 fails for spheres: rays strike a sphere of infinite radius, which is the default, at no finite point, although its height is zero and its normal that of a plane.
* `C113_torus_counterexample` – C113 fails for tori: with an infinite radius of rotation the height is finite nowhere.
* `C114_fallback_counterexample` – C114: for a field point all rays of which are vignetted, `distortion` takes the mean over all rays "so that the mean is never empty"; if one of them is lost, the mean is not finite even on a sensor.
* `C114_no_aperture_counterexample` – C114: without aperture behind the surface that is missed, the lost ray is unvignetted, and the effective area is not finite.
* `C114_obscuration_counterexample` – C114: an aperture that is inverted, that is an obscuration, lets lost rays pass.
* `C114_vignetted_image_counterexample` – C114: a ray that strikes the sensor and has no efficiency spoils the bin it falls into even though it is vignetted, since the image weighs it with `rays.intensity * where`; the effective area, the sum over the unvignetted rays, is not affected.
* `C115_undistort_counterexample` – C115: since the rays of one field point are lost, the mapping back from the sensor to the scene is not finite anywhere, though this field point is excluded and the mapping to the sensor is the identity.
* `C116_vignetting_excluded_counterexample` – C116: the picture for a vignetting model shows points that the fit does not use, unlike that for a distortion model, and they set the range of the colours: here the model is exact at all points that it uses, and the picture shows an error of one.
* `C117_brace_counterexample` – C117: the brace beside a periodic sequence that contains another one is longer than the layers that are drawn.
* `C117_label_counterexample` – C117: a label to the left of a layer that is drawn from five to six has an arrow that points to zero.
* `C117_nested_counterexample` – C117: a periodic sequence inside of a sequence inside of a sequence is drawn as one period and leaves room for all of them, so that the next layer floats above a gap.
* `C118_deep_counterexample` – C118 The hypothesis of `C118_diffusion_iff` is not met by construction. The depletion region of the e2v CCD97 is fitted to measurements of another detector, within a substrate of 15 µm, and its own substrate has 14 µm. If the measurements say that the other detector is depleted to 14.5 µm, the width of the charge diffusion of the CCD97 is not finite at any wavelength. (The measurements in the file of the present release are of a detector that is depleted much less.)
* `C17_frequency_counterexample` – Disagreement with C17: entering glass of index 3/2 at normal incidence, the wavelength grows from 1 to 3/2 instead of shrinking to 2/3: `index * wavelength` is not conserved.
* `C18_ellipse_degenerate_counterexample` – C18: an aperture without extent in one direction accepts nothing, not even its centre.
* `C18_sector_boundary_counterexample` – C18: the straight sides do not belong to the mask of a sector: the default half disk (from 0 to π) rejects the middle of its own straight side, and the full disk (from 0 to 2π) has a slit along the positive x axis.
* `C19_off_plane_counterexample` – C19: masks ignore the distance from the plane of the aperture, bounds do not: a point far above the plane is accepted and is not within the bounds.
* `C19_sector_full_counterexample` – C19: the bounds of a sector with an opening of a full turn (from 0 to 2π, which the documentation allows) are wrong: the opening is reduced modulo a full turn to zero, and the lower bound along x is the apex instead of the far side of the disk.
* `C20_polygon_binary64_counterexample` – C20: in binary64 arithmetic the number of samples may be one too small: 61 samples of a heptagon are only 60, because `7 * (61 / 7)` is rounded to a number less than 61. (The end point is then missing, too: the wire is not closed.)
* `C22_loop_result_counterexample` – The assumption of `C22_loop_result_partial` is needed: if the first surface is field and pupil stop, the second one a pupil stop and the third one a field stop, the loop ends with rays that start at the first surface, although the earlier of the two selected stops is the second.
* `C23_history_counterexample` – Disagreement with C23: `raytrace()` returns rays of intensity one, but after `raytrace(intensity=2)` the same call returns rays of intensity two.
* `C24_global_counterexample` – Disagreement with C24: for a system shifted by one along `z` the returned rays have `z = 0` on both surfaces, although both surfaces are in the plane `z = 1`.
* `C31_critical_angle_counterexample` – C31 is violated for one period that ends exactly at the critical angle: light at 30° in an index of 2 on a single layer of index 1. The list has a finite matrix, the periodic sequence has not.
* `C31_zero_periods_counterexample` – C31 is violated for zero periods: the code still moves into the medium of the period.
* `C32_rough_counterexample` – An absorbing layer with a rough back: more light is transmitted than arrives, whatever the width of the interface. The film of index `1 + i` has no thickness; without roughness everything is transmitted.
* `C33_below_opaque_counterexample` – C33 is violated below an opaque layer: of two identical opaque layers each is said to absorb 4/5 of the light, although 1/5 is reflected.
* `C33_last_layer_counterexample` – C33 is violated for the last layer counted from the end: a single opaque layer absorbs 4/5 of the light as layer `0`, and nothing as layer `-1`.
* `C34_film_backward_counterexample` – C34 is violated by every film: for rays that travel along the normal the transmissivity is never positive.
* `C34_mirror_counterexample` – C34 is violated by a bare mirror of index 3/2: a ray that travels along the normal is reflected with an efficiency of 25.
* `C34_surface_counterexample` – C34 fails for light that strikes a coated surface along its normal, such as the light that returns to the second mirror of a telescope: a plane mirror of glass multiplies the intensity by 25.
* `C36_zero_width_linear_counterexample` – The linear profile of width zero, which is the default, divides zero by zero: the reflection is not a number for every wavelength, direction and medium.
* `C37_linear_units_counterexample` – For a width in nanometres and a wavelength in ångström the factor of the linear profile is wrong: `x.value` is a tenth of the number that is divided by.
* `C37_linear_zero_counterexample` – Nothing is transferred at grazing incidence; the factor of the linear profile should be one and is not a number.
* `C37_sinusoidal_counterexample` – At its removable singularity the factor of the sinusoidal profile is not a number.
* `C38_duty_counterexample` – C38 fails for rectangular rulings of duty ratio zero or one (a flat surface).
* `C38_sinusoidal_counterexample` – C55 / C38 / C39 fail for sinusoidal rulings: the Bessel function is not squared, so order −1 has a negative efficiency (and order +1 the opposite one).
* `C38_zero_depth_counterexample` – C38 fails for sawtooth and triangular rulings of zero depth, the efficiency of which is `0 / 0` for order zero.
* `C39_sinusoidal_counterexample` – C39 fails for sinusoidal rulings: the first orders of this symmetric profile differ.
* `C40_counterexample` – C40 fails: two rays which differ only by the sign of the component along the rulings. One has all of its light in order zero removed, the other one not.
* `C43_no_axes_counterexample` – C43 fails without `axis_xy`: "there is no charge diffusion", but the electrons that diffuse out of the pixel are lost.
* `C46_zero_counterexample` – C46 fails for a transparent material, or without an implant layer: the result is `NaN`, although every electron is collected in the limit.
* `C47_zero_counterexample` – C47 fails for a transparent material: `NaN`.
* `C49_temperature_counterexample` – C49: the Fano factor is that of 300 K at every temperature. Here each photon creates one pair at 100 K, so that with full collection only the Poisson noise of the photons is left and the ratio is one; the code returns the ratio for the Fano factor of 300 K.
* `C50_uncertainty_counterexample` – C50: a pixel in which read noise gives a negative number of electrons has no uncertainty, not even that of the read noise.
* `C53_cemented_counterexample` – Disagreement with C53: on the second of two cemented glasses the index is evaluated at the wavelength multiplied by the index of the first one, so it is smaller than the index of that glass at the vacuum wavelength, for every pair of surfaces and every ray.
* `C53_infrared_counterexample` – The limits of C53: N-BK7 has no index at ten micrometres, just below its infrared resonance (the square root of a negative number).
* `C54_sinusoidal_counterexample` – The transition of the sinusoidal profile is narrower than its width.
* `C55_sawtooth_counterexample` – C55 / C38 fail at the blaze of a sawtooth grating: all the light goes into that order, but the efficiency is `0 / 0`.
* `C55_triangular_counterexample` – C55 fails for triangular rulings, whose formula has a sum in place of a difference: for a groove half a wavelength deep (a quarter each way) the code sends nothing into order one …
* `C56_p_counterexample` – C56 fails for light polarized in the plane of incidence on an absorbing substrate: the code conjugates the cosine but not the index (`matrices.py` lines 130–131; the documentation has no conjugate). At an index of `(1 + i) / 2` and the cosine 1/4 the reflectivity is 53/85, the code returns 65/73.
* `C57_bias_counterexample` – C57: so the two never agree if some electrons are lost at the back surface.
* `C58_between_counterexample` – C58 fails between the temperatures of the tables: the mean number of pairs interpolates the means, the quantum yield their inverses. Here the mean is 1 at 0 K and 2 at 100 K; at 50 K the simulation has the mean 3/2, the quantum yield is 4/3.
* `C59_below_gap_counterexample` – C59 fails below the gap: if a row of the table is empty, as at 1.1 eV, a photon of this energy (or less, for the first row) creates the largest number of pairs in the table, 20, whatever the random numbers, although the quantum yield is zero.
* `C60_counterexample` – C60 fails for photons that create exactly two pairs: since both start at the same depth, they are lost together more often than the formula has it.
* `C61_variance_counterexample` – C61 fails: where all charges are collected, the variance of the approximate number of electrons is larger than that of the exact simulation for every number of photons and every distribution of pairs with Fano noise, since the variance of the rounding comes on top.
* `C62_holographic_counterexample` – C62: the transformation from surface coordinates to ruling coordinates has no effect for holographic rulings: if they are shifted by three along `x`, the code still computes the spacing at the position before the shift.
* `C63_descending_counterexample` – Disagreement with C63: with decreasing wavelengths and `integrate=True` the image of a scene of positive radiance is negative, because the width of a wavelength bin has a sign.
* `C64_energy_counterexample` – Disagreement with C64: with light in units of energy the image integrated over wavelength is not the sum of the images of the wavelength bins, because the photons are counted as if they all had the wavelength in the middle of the whole band.
* `C65_crossed_counterexample` – Disagreement with C65: if the origin is between the two bases, the legs cross each other at the origin: the polygon is not a trapezoid.
* `C66_masked_nan_counterexample` – C66, what does not hold. A calibration point that is excluded has no influence on `undistort` only as long as its position on the sensor is finite: if it is not (no ray of this field point reaches the sensor), `distort` is as before, but `undistort` is undefined everywhere.
* `C67_flags_counterexample` – C67, what does not hold. The flags for physical units are ignored if neither wavelength nor field nor pupil are given: the pupil coordinate `1` of the grid is then taken as the border of the pupil, at `2`; if the same wavelength is given, it is taken as `1`.
* `C68_glass_counterexample` – C68 fails for glass: if the front of a block of glass is the first stop, the ray that is returned for its centre, and the point `x = 3 / 4` of the sensor behind it, arrives at the glass at `x = 1 / 3`, whichever way the root has been found: the ray inside the glass is taken for a ray in vacuum, and is refracted in the wrong sense on the way back.
* `C68_grating_counterexample` – C68 fails for a grating: of a system of an object, a grating that is the pupil stop, and a sensor that is the field stop, the ray that is returned for the centres of both stops does not pass the grating at all, whichever way the root has been found. The grating diffracts the light on the way back by the same angle as on the way forth. There is a ray from the object that does pass through the centres of both stops.
* `C68_several_counterexample` – C68 fails for a pupil stop which is followed by two field stops: `field_stop` is the last of them, but the rays are determined for the border of the other one.
* `C69_moved_object_counterexample` – C69 fails for an object that is moved sideways: the rays of the stops are those of the moved object, but the position of the ray is taken as a position relative to the object, and is moved again.
* `C69_moved_system_counterexample` – C69 fails for a system that is moved along its axis: the rays of the stops are moved with the system, whereas the positions of the input rays are relative to an object that is not moved.
* `C72_style_counterexample` – Disagreement with C72: `kwargs_plot` of a system is documented as what is used by default, but it prevails over the arguments of the call.
* `C73_origin_counterexample` – Disagreement with C73: with the base classes in the order `Translatable`, `Rollable` the displacement is turned as well.
* `C74_delete_counterexample` – Disagreement with C74: the documentation of `rayfunction_default` says that after an update of `grid_input` the cache is cleared with `del system.rayfunction_default`. Doing so, the property still returns the rays of the old grid, because the private cached input was not cleared: the ray at the centre of the pupil rather than the one at height 1/2.
* `C75_attributes_counterexample` – Disagreement with C75: the field has a third axis, time, and the attributes of the system say which two are the axes of the field. `vignetting()` finds them, but `vignetting(wavelength=...)` with the same wavelengths raises an exception: the attributes are ignored as soon as one of the grids is given.
* `C76_subscripts_counterexample` – Disagreement with C76: the formula of polyethylene terephthalate, `C10H8O4`, is one of those in the tables; of the number 10 only the digit 1 is a subscript.
* `C78_oxide_counterexample` – C78 fails for the tables of the code: the fit uses the index of one oxide and the sensor that it returns the index of another. The fit reproduces the measurement exactly: a sensor with the parameters found and the oxide of the fit has it; but the sensor that is returned has not.
* `C79_subtract_counterexample` – The claim is false for differences: `rays - vector` is neither the rays shifted back nor refused, but `None`.
* `C84_flat_counterexample` – The shape of a flat sag misses the axes of its transformation.
* `C84_holographic_counterexample` – The shape of a holographic spacing misses the axes of its wavelength.
* `C84_polynomial_counterexample` – The shape of a polynomial spacing misses the axes of its coefficients.
* `C84_sensor_counterexample` – The shape of a sensor misses the axes of its material, even if the shape of the material does not.
* `C84_silicon_counterexample` – The shape of the silicon of a sensor misses the axes of all its parameters.
* `C84_system_counterexample` – A flat mirror shifted along an axis spoils the shape of the system.
* `C85_conic_counterexample` – C85 is false of conic surfaces: of the two points of a line on the surface the code takes the one that is nearer to the start of the ray. The hemisphere of radius one below `z = 1`, and a ray that crosses it at the height `2 / 5`.
* `C86_glass_grating_counterexample` – Rulings on glass: a ray that enters it and returns, in the opposite order, does not come back on its way, since the code multiplies the wavelength by the index (C17), so that the rulings deflect the light more on its way back.
* `C86_order_counterexample` – A ray that strikes a transmission grating along its normal, with three wavelengths to a period, and returns: with the order that it had on the way there it does not come back on its way, since the code counts the order from the side of the incident light.
* `C89_conic_counterexample` – C89 (what fails). A paraboloid given as a conic with a radius of one: the oblique line through its vertex meets it there. With all lengths in a unit that is `10¹³` times smaller the code takes the equation to be linear, rejects the point that it finds, and there is no intercept.
* `C90_absorbing_counterexample` – C90 (what fails: absorbing slabs at oblique incidence). The index `1 + i`: the slab, which refracts with the real part of the index, differs from the layer of the same index and thickness.
* `C90_total_reflection_counterexample` – C90 (what fails: total reflection). Beyond the critical angle the slab has no matrix, whatever its thickness, although a thin film transmits there, as the layers say.
* `C92_missing_counterexample` – C92 (what fails: rays that miss). One ray that misses a surface, and so has no position, empties the diagram of its wavelength, even though it would not be drawn.
* `C92_vignetted_counterexample` – C92 (what fails: vignetting). A single ray that reaches the detector is drawn away from the center, because a ray that was stopped takes part in the mean.
* `C93_finite_counterexample` – Disagreement with C93 for objects at a finite distance: the pupil is measured in angles, and the size of a cell of the pupil is a solid angle for `image` and a product of angles for `area_effective`. For the cell from 0 to π/2 along both axes, an eighth of the sphere, the one is π/2 and the other π²/4.
* `C94_add_counterexample` – C94: a straight and an oblique ray of the same colour give fewer electrons together than one at a time.

### How the log of wrong programs was made

`seeded/LOG.jsonl` has two kinds of entries.

* Edits chosen by hand. Definition, edit and the claim it breaks were written down before the run. In most runs only the
  modules of the properties named beforehand, and what they import, were rebuilt, so `failed` can be a part of the
  theorems that fail.
* Edits generated by a script (`generated edit`). No claim was chosen before the run: `claim` lists the properties of the
  theorems in `failed`. A run stops at the first group of modules that does not build, and `failed` lists the theorems
  that depend on a declaration that did not build there. Survivors were tested against the modules that mention the
  definition or its callers (two levels, at most nine modules each), and then looked at by hand.
  Edits that are not well typed are not logged.

In both kinds a theorem counts as failed when its proof, or one that it uses, no longer compiles. That does not by itself
show that its statement is false of the edited program.
Entries with `tightened` were survivors, or were stopped by a lemma only; `failed` is what the run recorded, which can be
one after the tightening if the edit was run again. Entries with neither say in `note` why nothing was tightened.
The file is written anew from the records of the runs at each milestone.

### Seen while reading, not stated as theorems

* The docstring of `inverted` (apertures) says the opposite of what the code does.
* `energy_bandgap`: the docstring has 1.192 where the code has 1.1692.
* `NoSag.normal` ignores its transformation.
* `AbstractVignettingModel` is documented as one at the centre of the field, `system.vignetting` as one on average.
* The bounds of a circular aperture extend by the radius along `z`.
* The efficiencies of multilayers take `rays.wavelength` as the wavelength in vacuum, while refraction changes it in
  proportion to the index.
* A scalar `translation` is a translation by the same amount along all three axes.
* `SimpleDistortionModel.matrix`, the fits of the polynomial models and `rayfunction_stops` are cached as
  `rayfunction_default` is (C74); after an assignment the matrix is the old one, while the centre and the intercept are
  the new ones.
* `grid_input` says that absolute positions are measured in the coordinates of the stops; they are field angles and
  positions on the first surface.
* Axes are sets of names: `tuple(set)` has no definite order, and the code does not depend on one (C75).
* `\d` also matches digits that are not ASCII; only ASCII formulas are modelled (C76).
* Many tables of refractive indices list a wavelength twice, the last value is the one that is used; those of AlAs
  contain indices of zero.
* `spot_diagram` subtracts the mean over all rays, those that are vignetted included.
* `RayVectorArray.__array_ufunc__` returns `None` rather than `NotImplemented` for a function it does not support, such as
  the difference of rays and a vector.
* `optika/sags/_conic.py` lines 139-142: `degenerate = np.abs(a) < (1e-12 * unit_a)`, where `a` is a
  reciprocal length. Whether the quadratic equation is treated as linear depends on the unit of the
  radius: a paraboloid with a radius of 10 m given in micrometres takes the linear branch for rays
  within about 3 mrad of the axis, given in metres it does not. `C89_conic_counterexample`.
* `optika/materials/matrices.py` `transfer` refracts into the slab with `np.real(n)`. For absorbing slabs at oblique
  incidence it differs from the layers, and for grazing incidence on materials with an index below one it is not finite.
  No other code of the repository calls it. `C90_absorbing_counterexample`, `C90_total_reflection_counterexample`.
* `area_effective` and `image` weigh the rays of an object at a finite distance differently: `area_effective` takes
  the volume of the pupil cell in angles (`volume_cell`), `image` its solid angle. `C93_finite_counterexample`. The
  documentation of `area_effective` also says that rays start in the centers of the cells, but they are drawn at random.
* `AbstractImagingSensor.measure` computes the signal of a pixel from the flux-weighted mean of the refracted
  directions. The charge collection efficiency is not linear in the direction, so the images of two sources on a
  silicon sensor do not add up. `C94_strict`, `C94_add_counterexample`.
* `NoSag.normal` ignores the transformation of the sag, which `NoSag.__call__` and `NoSag.intercept` do not: a flat sag
  that is turned keeps the normal of the flat sag that is not. `C09_flat_turned_counterexample`.
* Below the first energy of the table of pair creation, the simulated number of electrons keeps the probabilities of the
  first row, while `quantum_yield_ideal` goes on in proportion to the energy. `C58_low`.
* The sign of the term of the rulings in `incident_effective` follows the side from which the ray comes. A ray that is
  turned around behind a transmission grating and passes the same grating again does not come back on its way, unless
  the sign of the order is changed. `C86_order_counterexample`; reflection gratings can be passed both ways.
* Objects in a tuple or a dictionary are printed with `repr` and therefore without the indentation of their place.
* `ConicSag` with a conic constant of (or extremely near) -1 solves a linear equation where the leading coefficient is below 1e-12; the point found is not exactly on the surface and the test for the sheet of the vertex then rejects it, so that almost axial rays through the vertex get an infinite position (`C08_conic_vertex_counterexample`). `ParabolicSag` has its own formula and is not affected.
