{"id": "C01", "title": "Refraction obeys Snell's law in vector form", "statement": "For a unit incident direction a, a unit normal u and positive indices n1, n2 below the critical angle, the direction b returned by snells_law has unit length, n2*b and n1*a have the same component tangential to the surface (so n2 sin t2 = n1 sin t1 and b stays in the plane of incidence), and b crosses to the side of the surface that a was heading to.", "quantifier": "every incident direction, every normal (either orientation), every pair of positive indices without total internal reflection", "why_tests_cant": "the claim is a vector identity over a continuum of directions and indices; a test samples finitely many angles and cannot see a sign or branch error at unsampled geometry", "anchors": ["optika/materials/_snells_law.py:_snells_law_numba", "optika/materials/_snells_law.py:snells_law"]}
{"id": "C02", "title": "Mirror reflection law", "statement": "With is_mirror=True and equal indices, snells_law returns exactly a - 2 (a.u) u: the length is preserved, the tangential component is preserved and the normal component is reversed.", "quantifier": "every unit incident direction (including a.u = 0), every unit normal, every positive index", "why_tests_cant": "continuum of geometries; the sign logic via copysign must be right in all octants", "anchors": ["optika/materials/_snells_law.py:_snells_law_numba"]}
{"id": "C03", "title": "Snell result does not depend on the orientation of the normal", "statement": "Replacing the surface normal u by -u does not change the direction computed by snells_law, for refraction and for reflection.", "quantifier": "every direction with a.u != 0, every normal, every pair of indices, both values of is_mirror", "why_tests_cant": "a symmetry over all inputs, including the inputs for which no finite result exists", "anchors": ["optika/materials/_snells_law.py:_snells_law_numba"]}
{"id": "C04", "title": "Reversibility of refraction", "statement": "Sending the refracted direction backwards through the same interface (indices exchanged) returns the reversed original direction; whenever the forward refraction is finite so is the backward one.", "quantifier": "every unit direction, unit normal and positive indices below the critical angle", "why_tests_cant": "a round-trip law over a continuum", "anchors": ["optika/materials/_snells_law.py:snells_law"]}
{"id": "C05", "title": "Total internal reflection is exactly the failing case", "statement": "snells_law yields a non-finite result if and only if the square of the tangential component of n1*a exceeds n2^2; refraction into a denser medium never fails.", "quantifier": "every unit direction, unit normal, positive indices", "why_tests_cant": "the boundary of a failure region over a continuum cannot be settled by sampling", "anchors": ["optika/materials/_snells_law.py:_snells_law_numba"]}
{"id": "C06", "title": "Diffraction grating equation", "statement": "For a surface with rulings of local spacing d, direction g perpendicular to the surface normal and order m, the outgoing direction has unit length and n2*b_t = n1*a_t + sign(a.u) * m*lambda/d * g; order zero behaves exactly as if the surface had no rulings.", "quantifier": "every incident direction, wavelength, order, spacing, pair of indices, mirror or not, whenever the diffracted order exists", "why_tests_cant": "vector identity over all inputs", "anchors": ["optika/rulings/_rulings.py:incident_effective", "optika/surfaces.py:AbstractSurface.propagate_rays", "optika/materials/_snells_law.py:snells_law"]}
{"id": "C07", "title": "Holographic rulings are stigmatic", "statement": "A mirror with HolographicRulingSpacing recorded with a diverging beam from x1 and a converging beam at x2 sends every ray emitted from x1 at the recording wavelength in first order exactly towards x2, from every point of the surface and for every surface shape.", "quantifier": "every pair of recording points on the illuminated side, every surface point and unit normal", "why_tests_cant": "the statement is about all surface points and all recording geometries at once", "anchors": ["optika/rulings/_spacing.py:HolographicRulingSpacing.__call__", "optika/rulings/_rulings.py:incident_effective", "optika/materials/_snells_law.py:snells_law"]}
{"id": "C08", "title": "Ray intercepts lie on the ray and on the sag surface", "statement": "sag.intercept(rays) returns a point of the line through the ray that satisfies z = sag(x, y) (flat, spherical, conic, parabolic and cylindrical sags); when the line misses the surface the result is not finite.", "quantifier": "every ray (unit direction), every radius, conic constant and focal length for which the line meets the surface", "why_tests_cant": "root selection must be right for every ray direction and sign of curvature; tests sample a few rays", "anchors": ["optika/sags/_spherical.py:SphericalSag.intercept", "optika/sags/_conic.py:ConicSag.intercept", "optika/sags/_parabolic.py:ParabolicSag.intercept", "optika/sags/_cylindrical.py:CylindricalSag.intercept", "optika/sags/_flat.py:NoSag.intercept"]}
{"id": "C09", "title": "Sag normals are unit vectors perpendicular to the surface", "statement": "sag.normal(position) has unit length, a negative z component, and is orthogonal to both tangent vectors of the surface z = sag(x, y) obtained by differentiating the sag.", "quantifier": "every position strictly inside the domain of the sag, every curvature, conic constant, focal length, torus radius", "why_tests_cant": "a derivative identity at every point of a surface", "anchors": ["optika/sags/_spherical.py:SphericalSag.normal", "optika/sags/_conic.py:ConicSag.normal", "optika/sags/_parabolic.py:ParabolicSag.normal", "optika/sags/_cylindrical.py:CylindricalSag.normal", "optika/sags/_toroidal.py:ToroidalSag.normal"]}
{"id": "C10", "title": "Sag families agree where they overlap", "statement": "ConicSag with conic 0 equals SphericalSag, ConicSag with conic -1 equals ParabolicSag with focal_length = radius/2 (heights and normals), CylindricalSag equals SphericalSag on y = 0, and a ToroidalSag whose two radii are equal is a sphere; every sag passes through the origin.", "quantifier": "every position in the domain, every radius of either sign", "why_tests_cant": "functional equality over a continuum, including negative radii", "anchors": ["optika/sags/_conic.py:ConicSag.__call__", "optika/sags/_spherical.py:SphericalSag.__call__", "optika/sags/_parabolic.py:ParabolicSag", "optika/sags/_cylindrical.py:CylindricalSag.__call__", "optika/sags/_toroidal.py:ToroidalSag.__call__"]}
{"id": "C11", "title": "A parabolic mirror focuses axial light", "statement": "Every ray parallel to the axis reflected by a Mirror surface with a ParabolicSag passes through the focus (0, 0, focal_length), from either side and for either sign of the focal length; conversely every ray through the focus leaves parallel to the axis.", "quantifier": "every transverse ray position and every non-zero focal length", "why_tests_cant": "composition of intercept, normal and reflection over a continuum", "anchors": ["optika/sags/_parabolic.py:ParabolicSag", "optika/surfaces.py:AbstractSurface.propagate_rays"]}
{"id": "C12", "title": "Beer-Lambert attenuation along the path", "statement": "Propagating a ray to a surface multiplies its intensity by exp(-attenuation * distance) where distance is the length of the segment travelled; splitting the path at an intermediate plane gives the same intensity; with non-negative attenuation the intensity never increases, and other ray properties are unchanged.", "quantifier": "every ray, attenuation, pair of intermediate surfaces", "why_tests_cant": "real-valued identity for all inputs", "anchors": ["optika/sags/_abc.py:AbstractSag.propagate_rays"]}
{"id": "C13", "title": "Propagation through a list is compositional", "statement": "Propagating through a concatenated list of surfaces equals propagating through the first part and then the second; accumulate_rays records one entry per surface, its k-th entry is the propagation through the first k surfaces, and its last entry is the result of propagate_rays; a lone propagator behaves as a one-element list.", "quantifier": "every list of propagators of any length and every ray", "why_tests_cant": "unbounded list lengths; requires induction", "anchors": ["optika/propagators.py:propagate_rays", "optika/propagators.py:accumulate_rays"]}
{"id": "C14", "title": "A vignetted ray stays vignetted", "statement": "After any sequence of surfaces the unvignetted flag is true exactly when it was initially true and the ray lies inside the active aperture of every surface that has one; in particular it never returns from False to True.", "quantifier": "every sequence of surfaces of any length, every ray", "why_tests_cant": "history property over unbounded sequences", "anchors": ["optika/apertures/_apertures.py:AbstractAperture.clip_rays", "optika/surfaces.py:AbstractSurface.propagate_rays"]}
{"id": "C15", "title": "No surface sequence creates energy", "statement": "If every material and ruling efficiency lies in [0, 1] and every attenuation is non-negative, the intensity of a ray after any sequence of surfaces lies between zero and its initial intensity, and equals the product of the efficiencies times the attenuation factors of each segment.", "quantifier": "every sequence of surfaces of any length, every ray", "why_tests_cant": "history property over unbounded sequences", "anchors": ["optika/surfaces.py:AbstractSurface.propagate_rays", "optika/sags/_abc.py:AbstractSag.propagate_rays"]}
{"id": "C16", "title": "Ray tracing does not depend on the coordinate frame", "statement": "Moving every surface of a system and the incoming ray by the same rigid motion moves the outgoing ray by that motion and leaves wavelength, intensity, index and vignetting unchanged; a translation alone never changes a direction.", "quantifier": "every rigid motion, every list of surfaces, every ray", "why_tests_cant": "symmetry over a group action and unbounded lists", "anchors": ["optika/surfaces.py:AbstractSurface.propagate_rays", "optika/rays/_ray_vectors.py:AbstractRayVectorArray.__array_matmul__", "optika/rays/_ray_vectors.py:AbstractRayVectorArray.__array_add__"]}
{"id": "C17", "title": "The wavelength carried by a ray after an index change", "statement": "The ray's vacuum frequency is conserved across a refracting surface, i.e. index*wavelength is the same before and after (wavelength shrinks in a denser medium), and a ray that enters and leaves a slab gets its wavelength back.", "quantifier": "every sequence of indices", "why_tests_cant": "an invariant over every sequence of surfaces", "anchors": ["optika/surfaces.py:AbstractSurface.propagate_rays"]}
{"id": "C18", "title": "Aperture membership semantics", "statement": "For every aperture the mask is the stated region including its boundary (disk |xy| <= radius; |x| <= hx and |y| <= hy; ellipse equation <= 1; angular sector), inverted=True gives exactly the complement, and active=False accepts every point; clipping only ever clears the unvignetted flag and only fails on a unit error.", "quantifier": "every point, every aperture size, both flags, every transformation of the aperture", "why_tests_cant": "set equality over a continuum and boundary cases", "anchors": ["optika/apertures/_apertures.py:CircularAperture.__call__", "optika/apertures/_apertures.py:RectangularAperture.__call__", "optika/apertures/_apertures.py:EllipticalAperture.__call__", "optika/apertures/_apertures.py:AbstractAperture.clip_rays"]}
{"id": "C19", "title": "Aperture bounds contain the aperture", "statement": "Every point accepted by a (not inverted, active) aperture lies, componentwise, between bound_lower and bound_upper, and so does every point of its wire outline; for circles, ellipses and axis-aligned rectangles the bounds are attained.", "quantifier": "every aperture size, every point and every rigid transformation", "why_tests_cant": "a containment over continua", "anchors": ["optika/apertures/_apertures.py:CircularAperture.bound_lower", "optika/apertures/_apertures.py:EllipticalAperture.bound_lower", "optika/apertures/_apertures.py:AbstractPolygonalAperture.bound_lower", "optika/apertures/_apertures.py:CircularSectorAperture.bound_lower"]}
{"id": "C20", "title": "Aperture wires have the requested number of samples and lie on the boundary", "statement": "wire(num) of any polygonal or sector aperture returns exactly num samples for any num and any number of sides (each side gets its share), and every returned sample lies on the boundary of the aperture; the wire of a circle or ellipse goes all the way around.", "quantifier": "every num, every number of sides, every sample index", "why_tests_cant": "integer rounding over unbounded counts", "anchors": ["optika/apertures/_apertures.py:AbstractPolygonalAperture.wire", "optika/apertures/_apertures.py:CircularSectorAperture.wire", "optika/apertures/_apertures.py:CircularAperture.wire"]}
{"id": "C21", "title": "direction and angles are mutually inverse", "statement": "optika.direction(angles) always returns a unit vector; optika.angles(direction(v)) = v for field angles in the open hemisphere, and direction(angles(d)) = d/|d| for every direction except the poles along y.", "quantifier": "every pair of angles, every non-degenerate direction", "why_tests_cant": "inverse trigonometric branches over a continuum", "anchors": ["optika/_util.py:direction", "optika/_util.py:angles"]}
{"id": "C22", "title": "Stop selection in a sequential system", "statement": "surfaces_all always contains a field stop (the first surface is promoted if none is marked, and nothing else is changed), index_field_stop/index_pupil_stop return the last marked surface or raise exactly when none is marked, and the loop connecting successive stops terminates after finitely many pairs.", "quantifier": "every list of surfaces with any combination of stop flags", "why_tests_cant": "all flag combinations over unbounded lists", "anchors": ["optika/systems/_sequential.py:AbstractSequentialSystem.surfaces_all", "optika/systems/_sequential.py:AbstractSequentialSystem.index_field_stop", "optika/systems/_sequential.py:AbstractSequentialSystem._calc_rayfunction_stops_only"]}
{"id": "C23", "title": "raytrace calls are independent of each other", "statement": "raytrace and rayfunction depend only on the system and their arguments: passing an intensity in one call does not influence the result of a later call with different arguments.", "quantifier": "every history of calls", "why_tests_cant": "a history property: the effect of any earlier call sequence on a later call", "anchors": ["optika/systems/_sequential.py:AbstractSequentialSystem.raytrace", "optika/systems/_sequential.py:AbstractSequentialSystem._rayfunction_input"]}
{"id": "C24", "title": "raytrace returns global coordinates and rayfunction sensor coordinates", "statement": "raytrace returns rays in global coordinates also when the system as a whole is transformed, and rayfunction returns the last of those rays expressed in the coordinates of the sensor.", "quantifier": "every system transformation, list of surfaces and ray", "why_tests_cant": "quantifies over all transformations and systems", "anchors": ["optika/systems/_sequential.py:AbstractSequentialSystem.raytrace", "optika/systems/_sequential.py:AbstractSequentialSystem.rayfunction"]}
{"id": "C25", "title": "Normalized grids map onto the full field and pupil", "statement": "Denormalizing maps -1 to the minimum and +1 to the maximum of the stop extent, is monotone and affine, maps [-1, 1] into the extent, and leaves grids given in physical units untouched.", "quantifier": "every extent and every normalized coordinate", "why_tests_cant": "a law for all grids", "anchors": ["optika/systems/_sequential.py:AbstractSequentialSystem._denormalize_grid"]}
{"id": "C26", "title": "Effective area, relative illumination and mean position are proper averages", "statement": "The effective area is non-negative, at most the total pupil area when efficiencies are at most one, additive over pupil cells and unaffected by vignetted rays; relative illumination averages to one over the unvignetted field points; the sensor coordinate of a field point is the mean of its unvignetted rays (of all rays if none survive) and lies within their range.", "quantifier": "every finite set of rays with arbitrary intensities and flags, every set of field points", "why_tests_cant": "sums over arbitrary finite sets", "anchors": ["optika/systems/_sequential.py:AbstractSequentialSystem.area_effective", "optika/systems/_sequential.py:AbstractSequentialSystem.vignetting", "optika/systems/_sequential.py:AbstractSequentialSystem.distortion"]}
{"id": "C27", "title": "Linear distortion models invert exactly", "statement": "SimpleDistortionModel.undistort is the exact two-sided inverse of distort, the wavelength is carried through unchanged, and the field centre at the reference wavelength maps to the reference position.", "quantifier": "every angle, plate scale, dispersion and reference, every coordinate", "why_tests_cant": "a round-trip law over a continuum", "anchors": ["optika/distortion/_distortion.py:AbstractLinearDistortionModel", "optika/distortion/_distortion.py:SimpleDistortionModel"]}
{"id": "C28", "title": "Scalar Snell refraction through a stack is path independent", "statement": "Refracting a cosine through a chain of layers gives the same result as refracting directly from the ambient medium into the last layer, n*sin is conserved, and the refracted wave always decays into the medium (non-negative real part of the cosine).", "quantifier": "every chain of complex indices of any length and every incident cosine", "why_tests_cant": "complex branch choices over unbounded chains", "anchors": ["optika/materials/_snells_law.py:snells_law_scalar", "optika/materials/_layers.py:Layer.transfer"]}
{"id": "C29", "title": "Refraction and propagation matrices compose", "statement": "matrices.refraction from i to j times that from j to k equals that from i to k, refraction i to i is the identity and j to i is the inverse; propagation through h1 then h2 equals propagation through h1+h2, zero thickness is the identity; a layer of the same medium as its surroundings changes nothing but the phase.", "quantifier": "all complex impedances for which the coefficients exist, all thicknesses, both polarizations", "why_tests_cant": "matrix identities over complex parameters", "anchors": ["optika/materials/matrices.py:refraction", "optika/materials/matrices.py:propagation"]}
{"id": "C30", "title": "A layer sequence is the ordered product of its layers", "statement": "The transfer of a concatenated sequence is the product of the transfers of its parts with the internal index, direction and mask threaded through; nesting a sequence inside a sequence changes nothing, and thickness adds up.", "quantifier": "every list of layers of any length, including nested and periodic sequences", "why_tests_cant": "induction over unbounded nested lists", "anchors": ["optika/materials/_layers.py:LayerSequence.transfer", "optika/materials/_layers.py:LayerSequence.thickness"]}
{"id": "C31", "title": "A periodic sequence equals the repeated sequence", "statement": "PeriodicLayerSequence(layers, N).transfer equals the transfer of the list layers repeated N times (index, direction, matrix and mask), for every N.", "quantifier": "every period (any list of layers), every repeat count N, every wavelength, ambient medium and direction", "why_tests_cant": "unbounded repeat counts; requires induction on N and an invariant of complex refraction", "anchors": ["optika/materials/_layers.py:PeriodicLayerSequence.transfer", "optika/materials/_layers.py:PeriodicLayerSequence.layer_sequence"]}
{"id": "C32", "title": "Multilayer coatings conserve energy", "statement": "For light incident from a transparent medium, reflectivity and transmissivity from multilayer_efficiency are non-negative with R + T <= 1 for any stack of passive (absorbing or transparent) layers and substrate, with equality when all layers are transparent.", "quantifier": "every stack of any length, thickness, complex index with non-negative imaginary part, angle and both polarizations", "why_tests_cant": "a physical bound over unbounded stacks and continuous complex parameters", "anchors": ["optika/materials/_multilayers.py:multilayer_efficiency", "optika/materials/_multilayers.py:multilayer_coefficients", "optika/materials/_layers.py:Layer.transfer"]}
{"id": "C33", "title": "Layer absorbances account for all missing energy", "statement": "layer_absorbance of each layer is non-negative and the absorbances of all layers plus R plus T sum to one.", "quantifier": "every stack, every layer index (counted from either end), angle and polarization", "why_tests_cant": "telescoping identity over unbounded stacks", "anchors": ["optika/materials/_multilayers.py:layer_absorbance"]}
{"id": "C34", "title": "Coating efficiency does not depend on the side the normal points to", "statement": "A multilayer mirror or film on a surface returns an efficiency between 0 and 1 whichever way the rays travel relative to the surface normal.", "quantifier": "every direction of travel, every stack", "why_tests_cant": "tests use a single orientation of the normal", "anchors": ["optika/materials/_multilayers.py:AbstractMultilayerMirror.efficiency", "optika/materials/_multilayers.py:AbstractMultilayerFilm.efficiency"]}
{"id": "C35", "title": "Opaque layers hide what is below", "statement": "Once a layer is so absorbing that its propagation factor exceeds 1e10, the layers and substrate beneath have no influence on the reflected amplitude and the transmissivity is exactly zero.", "quantifier": "every stack below an opaque layer", "why_tests_cant": "two arbitrary continuations of a stack are compared", "anchors": ["optika/materials/_layers.py:Layer.transfer", "optika/materials/_multilayers.py:multilayer_coefficients"]}
{"id": "C36", "title": "Interface profiles are monotone transitions from 0 to 1", "statement": "Each interface profile is non-decreasing in depth, lies in [0, 1], equals 1/2 at the interface, is antisymmetric about it, and a zero-width interface leaves the Fresnel reflection unchanged.", "quantifier": "every depth and every positive width", "why_tests_cant": "an order property on the whole real line", "anchors": ["optika/materials/profiles.py:ErfInterfaceProfile", "optika/materials/profiles.py:ExponentialInterfaceProfile", "optika/materials/profiles.py:LinearInterfaceProfile", "optika/materials/profiles.py:SinusoidalInterfaceProfile"]}
{"id": "C37", "title": "Interface smoothing factors are the Fourier transform of the profile derivative", "statement": "The factor applied to the reflection coefficient is the Fourier transform of the derivative of the corresponding profile; hence it never exceeds one in magnitude and roughness can only reduce the reflectivity of an interface between transparent media.", "quantifier": "every width and every momentum transfer", "why_tests_cant": "an integral identity for a continuum of parameters", "anchors": ["optika/materials/profiles.py:AbstractInterfaceProfile.reflectivity", "optika/materials/profiles.py:LinearInterfaceProfile._derivative_fourier_transform"]}
{"id": "C38", "title": "Ruling efficiencies are energy fractions", "statement": "Every ruling model returns an efficiency in [0, 1] for every order and the efficiencies over all orders of a lossless profile sum to one (square, rectangular, sawtooth); zero depth puts everything into order zero.", "quantifier": "every integer order, every depth, wavelength, angle and duty ratio", "why_tests_cant": "an infinite series over orders", "anchors": ["optika/rulings/_rulings.py:SquareRulings.efficiency", "optika/rulings/_rulings.py:RectangularRulings.efficiency", "optika/rulings/_rulings.py:SawtoothRulings.efficiency", "optika/rulings/_rulings.py:SinusoidalRulings.efficiency", "optika/rulings/_rulings.py:TriangularRulings.efficiency"]}
{"id": "C39", "title": "Square rulings are rectangular rulings with duty ratio one half", "statement": "SquareRulings and RectangularRulings(ratio_duty=0.5) return the same efficiency for every order, depth, wavelength and direction; positive and negative orders of symmetric profiles are equally efficient.", "quantifier": "every order, depth, wavelength, direction", "why_tests_cant": "functional equality over a continuum and all integers", "anchors": ["optika/rulings/_rulings.py:SquareRulings.efficiency", "optika/rulings/_rulings.py:RectangularRulings.efficiency"]}
{"id": "C40", "title": "Ruling efficiency ignores the direction component along the grooves", "statement": "The efficiency depends on the incident direction only through its component perpendicular to the rulings, as the in-plane angle.", "quantifier": "every conical incidence direction", "why_tests_cant": "quantifies over all directions", "anchors": ["optika/rulings/_rulings.py:SquareRulings.efficiency"]}
{"id": "C41", "title": "Sensor binning conserves flux", "statement": "The sum of the per-pixel image returned by collect equals the total intensity of the unvignetted rays that fall inside the pixel grid and wavelength bins, every such ray is counted in exactly one pixel, vignetted rays contribute nothing, and the pixel grid exactly tiles the sensor aperture.", "quantifier": "every finite cloud of rays, every pixel grid", "why_tests_cant": "sums over arbitrary clouds and boundary cases of bins", "anchors": ["optika/sensors/_sensors.py:AbstractImagingSensor.collect", "optika/sensors/_sensors.py:AbstractImagingSensor.aperture"]}
{"id": "C42", "title": "Per-pixel refracted cosine is a flux-weighted mean", "statement": "The direction returned by collect is one in empty pixels and otherwise lies between the smallest and largest refracted cosine of the rays in that pixel.", "quantifier": "every finite cloud of rays with non-negative flux", "why_tests_cant": "convexity over arbitrary finite sums", "anchors": ["optika/sensors/_sensors.py:AbstractImagingSensor.collect"]}
{"id": "C43", "title": "Charge diffusion never creates electrons", "statement": "In electrons_measured, whatever the random numbers drawn, with wrap=True the total charge on the pixel grid equals the number of collected photoelectrons, with wrap=False it is at most that, every pixel count is a non-negative integer, and without charge diffusion each pixel holds exactly its own electrons.", "quantifier": "every random tape, every photon image of any size, every parameter", "why_tests_cant": "holds for every outcome of the random number generator", "anchors": ["optika/sensors/materials/_ramanathan_2020/_ramanathan_2020.py:_electrons_measured_numba"]}
{"id": "C44", "title": "Parallel frames do not interfere", "statement": "The frames processed in parallel by electrons_measured write disjoint parts of the result, so every interleaving of the per-electron updates of different frames gives the same image.", "quantifier": "every schedule of the parallel loop", "why_tests_cant": "all interleavings", "anchors": ["optika/sensors/materials/_ramanathan_2020/_ramanathan_2020.py:_electrons_measured_numba"]}
{"id": "C45", "title": "Sampled absorption depth and pair number follow the stated distributions", "statement": "The depth computed from a uniform number lies in [0, thickness) and is at most t exactly for uniform numbers below the truncated exponential CDF at t; the number of pairs selected from the cumulative table is n_k exactly for uniform numbers in the k-th interval of the table.", "quantifier": "every uniform number, absorption, thickness and probability table", "why_tests_cant": "exactness for every draw", "anchors": ["optika/sensors/materials/_ramanathan_2020/_ramanathan_2020.py:_electrons_measured_numba"]}
{"id": "C46", "title": "Charge collection efficiency is the depth-weighted average of the Stern profile", "statement": "charge_collection_efficiency equals the average of the piecewise linear profile weighted by exponential absorption, lies between cce_backsurface and 1, decreases with absorption and implant thickness and increases with cce_backsurface.", "quantifier": "every positive absorption and implant thickness, every back-surface efficiency in [0, 1]", "why_tests_cant": "an integral identity and monotonicity on a continuum", "anchors": ["optika/sensors/materials/_materials.py:charge_collection_efficiency"]}
{"id": "C47", "title": "Charge diffusion width is the absorption-weighted average", "statement": "charge_diffusion squared equals the average of the squared diffusion width over the absorption depth, is well defined for every depletion depth between 0 and the substrate thickness, never exceeds the field-free thickness and vanishes for a fully depleted sensor.", "quantifier": "every positive absorption and thicknesses", "why_tests_cant": "an integral identity on a continuum", "anchors": ["optika/sensors/materials/_diffusion.py:charge_diffusion"]}
{"id": "C48", "title": "The diffusion kernel is a symmetric probability kernel", "statement": "kernel_diffusion is positive, symmetric under reflection of either axis and exchange of the axes, sums to one; the un-normalized one-dimensional weights over all pixels sum to one and the squared central weight is mean_charge_capture, which lies in (0, 1).", "quantifier": "every positive diffusion width and pixel width", "why_tests_cant": "positivity needs convexity on the whole line; the sum is an infinite series", "anchors": ["optika/sensors/materials/_diffusion.py:_kernel_1d", "optika/sensors/materials/_diffusion.py:kernel_diffusion", "optika/sensors/materials/_diffusion.py:mean_charge_capture"]}
{"id": "C49", "title": "The analytic noise model matches the simulated process", "statement": "vmr_signal equals the variance-to-mean ratio of the photon-by-photon process (Poisson photons, pair number with the given mean and Fano factor, depth-dependent collection), is non-negative, is additive in its shot, Fano and partial-collection parts, and uses the temperature of the sensor.", "quantifier": "every quantum yield, Fano factor, absorption, implant thickness, back-surface efficiency and temperature", "why_tests_cant": "a moment identity over continuous parameters", "anchors": ["optika/sensors/materials/_materials.py:vmr_signal"]}
{"id": "C50", "title": "photons_absorbed inverts the noiseless signal", "statement": "For a sensor with a silicon material, photons_absorbed(expose(image, noise=False)) returns the image, in either order, for every refracted cosine produced by the sensor; uncertainty adds read noise in quadrature.", "quantifier": "every image, wavelength, refracted cosine, exposure time", "why_tests_cant": "round-trip law with complex square root branch", "anchors": ["optika/sensors/_sensors.py:AbstractImagingSensor.photons_absorbed", "optika/sensors/_sensors.py:AbstractImagingSensor.expose", "optika/sensors/materials/_materials.py:signal"]}
{"id": "C51", "title": "Quantum efficiency bounds", "statement": "The absorbance by Beer-Lambert lies between 0 and the transmittance, the effective quantum efficiency lies between 0 and the absorbance, and the probability of measuring an absorbed photon lies in [0, 1] and increases with quantum yield and with the collection efficiency.", "quantifier": "every angle, thickness, absorption, quantum yield", "why_tests_cant": "bounds over continuous parameters", "anchors": ["optika/sensors/materials/_materials.py:absorbance", "optika/sensors/materials/_materials.py:quantum_efficiency_effective", "optika/sensors/materials/_materials.py:probability_measurement"]}
{"id": "C52", "title": "Tabulated quantities are interpolated within the table", "statement": "Linear interpolation of measured efficiencies, effective areas and optical constants returns the tabulated value at every node, stays between the neighbouring values, and is constant outside the table.", "quantifier": "every table in increasing order and every query", "why_tests_cant": "arbitrary table lengths", "anchors": ["optika/radiometry/_effective_area.py:InterpolatedEffectiveAreaModel.__call__", "optika/materials/_materials.py:MeasuredMirror.efficiency", "optika/chemicals/_chemicals.py:AbstractChemical.n"]}
{"id": "C53", "title": "Glass dispersion", "statement": "Between its ultraviolet and infrared resonances the Sellmeier index of a glass strictly decreases with vacuum wavelength (normal dispersion: blue light is bent more than red), and above all resonances it is greater than one; the index used at the second of two cemented glasses is the one at the vacuum wavelength.", "quantifier": "every set of positive Sellmeier coefficients and every wavelength between resonances", "why_tests_cant": "monotonicity on an interval for a family of functions", "anchors": ["optika/materials/_materials.py:Glass.index_refraction"]}
{"id": "C54", "title": "The width of an interface is its standard deviation", "statement": "For every interface profile the width is the root mean square depth of the transition, weighted by the derivative of the profile, so that profiles of different shape and equal width are comparable.", "quantifier": "every positive width, every profile", "why_tests_cant": "an improper integral over a continuum of widths", "anchors": ["optika/materials/profiles.py:SinusoidalInterfaceProfile.__call__", "optika/materials/profiles.py:ErfInterfaceProfile.__call__", "optika/materials/profiles.py:ExponentialInterfaceProfile.__call__", "optika/materials/profiles.py:LinearInterfaceProfile.__call__"]}
{"id": "C55", "title": "Ruling efficiencies follow the theory of thin gratings", "statement": "The efficiency of an order is the squared modulus of the Fourier coefficient of the phase factor along one period of the groove, with the phase 4 pi depth / (wavelength cos theta) at full depth, for the groove shape that the class is named after.", "quantifier": "every order, depth, wavelength and angle", "why_tests_cant": "an integral over the period for all orders and a continuum of depths", "anchors": ["optika/rulings/_rulings.py:SquareRulings.efficiency", "optika/rulings/_rulings.py:RectangularRulings.efficiency", "optika/rulings/_rulings.py:SawtoothRulings.efficiency", "optika/rulings/_rulings.py:SinusoidalRulings.efficiency", "optika/rulings/_rulings.py:TriangularRulings.efficiency"]}
{"id": "C56", "title": "A bare surface obeys the Fresnel equations", "statement": "The reflectivity and transmissivity of a substrate without layers are those that follow from the continuity of the tangential electric and magnetic fields, for both polarizations.", "quantifier": "every angle of incidence from a transparent medium, every complex index of the substrate", "why_tests_cant": "a continuum of complex indices, and a branch of the complex square root", "anchors": ["optika/materials/matrices.py:refraction", "optika/materials/_multilayers.py:multilayer_efficiency"]}
{"id": "C57", "title": "The signal without noise is the expectation of the signal with noise", "statement": "The mean of the number of electrons returned by signal with noise is the number returned without noise.", "quantifier": "every number of photons, wavelength, direction, material and thickness", "why_tests_cant": "the mean of a random process with a continuum of parameters; a bias below the statistical error of a test goes unnoticed", "anchors": ["optika/sensors/materials/_materials.py:signal", "optika/sensors/materials/_ramanathan_2020/_ramanathan_2020.py:electrons_measured"]}
{"id": "C58", "title": "Quantum yield and Fano factor are the moments of the simulated number of pairs", "statement": "The probabilities of pair numbers are a distribution at every energy and temperature, quantum_yield_ideal is its mean and fano_factor its variance divided by its mean, and above the tables the quantum yield is the energy divided by the pair energy used by the simulation.", "quantifier": "every photon energy and temperature, every table of probabilities", "why_tests_cant": "interpolation in two variables of a distribution over a continuum of energies and temperatures", "anchors": ["optika/sensors/materials/_ramanathan_2020/_ramanathan_2020.py:quantum_yield_ideal", "optika/sensors/materials/_ramanathan_2020/_ramanathan_2020.py:fano_factor", "optika/sensors/materials/_ramanathan_2020/_ramanathan_2020.py:probability_of_n_pairs"]}
{"id": "C59", "title": "Simulated photons only create possible numbers of pairs", "statement": "The number of pairs that the simulation draws for a photon has a positive probability at the energy of the photon; a photon below the gap of silicon creates no pairs.", "quantifier": "every photon energy in the range of the tables, every temperature, every random number", "why_tests_cant": "a rare random number or a narrow range of energies decides", "anchors": ["optika/sensors/materials/_ramanathan_2020/_ramanathan_2020.py:electrons_measured", "optika/sensors/materials/_ramanathan_2020/_ramanathan_2020.py:probability_of_n_pairs"]}
{"id": "C60", "title": "The probability of a measurement is that of the simulated process", "statement": "probability_measurement is the probability that at least one electron of an absorbed photon is collected, for the depth and pair number distributions of the simulation.", "quantifier": "every absorption coefficient, implant thickness, collection efficiency and distribution of pairs", "why_tests_cant": "an expectation over depth and pair number for a continuum of parameters", "anchors": ["optika/sensors/materials/_materials.py:probability_measurement"]}
{"id": "C61", "title": "The approximate simulation has the moments of the exact one", "statement": "electrons_measured_approx returns whole numbers of electrons whose mean is that of electrons_measured for the same photons, and the variance of the photons absorbed in the implant is that of the exact process.", "quantifier": "every number of photons, absorption coefficient, thickness, collection efficiency and distribution of pairs", "why_tests_cant": "means and variances over a continuum of parameters; a bias below the statistical error of a test goes unnoticed", "anchors": ["optika/sensors/materials/_materials.py:electrons_measured_approx", "optika/sensors/materials/_materials.py:_discrete_gamma"]}
{"id": "C62", "title": "Rulings of varied spacing obey the grating equation at each point", "statement": "With a spacing given by a polynomial of the position along the normal of the rulings, the outgoing ray satisfies the grating equation with the value of the polynomial at the point where the ray meets the surface; a polynomial of degree zero is a constant spacing, and a transformation moves the rulings with respect to the surface.", "quantifier": "every polynomial, position, incident direction, order, wavelength and pair of indices", "why_tests_cant": "a continuum of positions, coefficients and directions", "anchors": ["optika/rulings/_spacing.py:Polynomial1dRulingSpacing", "optika/rulings/_spacing.py:ConstantRulingSpacing", "optika/rulings/_spacing.py:HolographicRulingSpacing", "optika/rulings/_rulings.py:AbstractRulings.incident_effective"]}
{"id": "C63", "title": "The image of a scene counts the light that reaches each pixel", "statement": "For an ideal sensor, each pixel of system.image(scene) is the exposure time times the sum over the cells of the scene of the radiance, the size of the cell and the throughput of the system for the ray of that cell, if that ray arrives unvignetted in the pixel and wavelength bin, and zero otherwise. The image is linear in the radiance, never negative for a scene that is not, and in total at most the light emitted by the scene.", "quantifier": "every system, scene, grid of vertices, exposure time and random sample of rays", "why_tests_cant": "a sum over arbitrary grids, systems and random rays; conservation over all pixels of all scenes", "anchors": ["optika/systems/_sequential.py:AbstractSequentialSystem.image", "optika/systems/_sequential.py:AbstractSequentialSystem._rayfunction_from_vertices", "optika/vectors/_vectors_object.py:AbstractObjectVectorArray.cell_area", "optika/sensors/_sensors.py:AbstractImagingSensor.measure"]}
{"id": "C64", "title": "Integrating an image over wavelength is the sum of its wavelength bins", "statement": "The light of a wavelength bin of the scene appears in the same wavelength bin of the image, and image(integrate=True) is the sum over the wavelength bins of image(integrate=False) for the same rays.", "quantifier": "every system, scene with increasing wavelengths, and random sample of rays", "why_tests_cant": "agreement of two calls for every scene and every sample", "anchors": ["optika/systems/_sequential.py:AbstractSequentialSystem.image", "optika/sensors/_sensors.py:AbstractImagingSensor.expose"]}
{"id": "C65", "title": "Polygonal apertures have the vertices of the shape they are named after", "statement": "The vertices of a regular polygon with n vertices are the n corners of a regular polygon at the given radius, in counterclockwise order; those of a rectangle are the four corners at the half widths; those of an isosceles trapezoid have the bases at x_left and x_right, mirror symmetry with respect to the x axis, and legs which make the given angle and do not cross.", "quantifier": "every radius, number of vertices, half widths, positions of the bases and angle", "why_tests_cant": "equality of shapes for every number of vertices and a continuum of parameters", "anchors": ["optika/apertures/_apertures.py:AbstractRegularPolygonalAperture.vertices", "optika/apertures/_apertures.py:RectangularAperture.vertices", "optika/apertures/_apertures.py:AbstractIsoscelesTrapezoidalAperture.vertices"]}
{"id": "C66", "title": "A fitted distortion or vignetting model reproduces what is polynomial", "statement": "If the calibration points of a PolynomialDistortionModel or PolynomialVignettingModel are samples of polynomials of at most its degree, the model is these polynomials at every wavelength and position, provided that the selected points determine a polynomial; otherwise it is the polynomial with the least squared residual. Points excluded by the mask have no influence, and for affine mappings undistort and distort are inverse to each other.", "quantifier": "every degree, set of calibration points, mask, polynomial, wavelength and position", "why_tests_cant": "identity of functions for every set of calibration points and every degree", "anchors": ["optika/distortion/_distortion.py:PolynomialDistortionModel", "optika/radiometry/_vignetting.py:PolynomialVignettingModel"]}
{"id": "C67", "title": "Arguments that are not given are those of the grid of the system", "statement": "Where wavelength, field or pupil are not given to raytrace or rayfunction, those of grid_input are used, and interpreted as the flags normalized_field and normalized_pupil say; what is given is used as it is.", "quantifier": "every system and every combination of arguments and flags", "why_tests_cant": "all combinations of optional arguments for every grid and system", "anchors": ["optika/systems/_sequential.py:AbstractSequentialSystem.raytrace", "optika/systems/_sequential.py:AbstractSequentialSystem.rayfunction", "optika/systems/_sequential.py:AbstractSequentialSystem._calc_rayfunction_input"]}
{"id": "C68", "title": "rayfunction_stops strikes the borders of both stops", "statement": "Every ray of rayfunction_stops starts on the object and, traced forward through the surfaces of the system, strikes the requested point of the border of the first stop and the requested point of the border of the last stop. With several stops of one kind, these are the stops that field_stop and pupil_stop name.", "quantifier": "every system, choice of stops, points of their borders, wavelength, transformation and initial guess for which a root is found", "why_tests_cant": "existence of a root does not show that the ray traced backwards and forwards again passes through the same points, for every system", "anchors": ["optika/systems/_sequential.py:AbstractSequentialSystem.rayfunction_stops", "optika/systems/_sequential.py:AbstractSequentialSystem._calc_rayfunction_stops", "optika/systems/_sequential.py:AbstractSequentialSystem._calc_rayfunction_stops_only", "optika/systems/_sequential.py:AbstractSequentialSystem._ray_error"]}
{"id": "C69", "title": "The field and pupil coordinates of the stops reproduce the rays of the stops", "statement": "Every ray of rayfunction_stops has field and pupil coordinates for which rayfunction with absolute coordinates gives a ray that strikes the same points of the stops. field_min, field_max, pupil_min and pupil_max are the smallest intervals that contain these coordinates, and each ray has normalized coordinates between -1 and 1 that give the same input ray.", "quantifier": "every system, ray of the stops and wavelength", "why_tests_cant": "a round trip through angles, extents and transformations, for every system", "anchors": ["optika/systems/_sequential.py:AbstractSequentialSystem.field_min", "optika/systems/_sequential.py:AbstractSequentialSystem.pupil_max", "optika/systems/_sequential.py:AbstractSequentialSystem._denormalize_grid", "optika/systems/_sequential.py:AbstractSequentialSystem._calc_rayfunction_input"]}
{"id": "C70", "title": "Reflectivity and transmissivity of a coating are those of the waves in it", "statement": "There are waves that travel both ways in every layer, whose electric and magnetic fields along every boundary are continuous, with nothing but a transmitted wave in the substrate; they are unique, and multilayer_efficiency returns their reflected and transmitted flux. The efficiency of a multilayer mirror or film is the mean for both polarizations, with the complex index that belongs to the index and attenuation of the ray, and that of a thin-film filter is the transmissivity of oxide, layer and oxide times the open fraction of the mesh.", "quantifier": "every nested and periodic sequence of layers, complex indices, thickness, angle, polarization and wavelength", "why_tests_cant": "the program multiplies matrices; that they solve the boundary conditions must hold for every number of layers and a continuum of indices, angles and thicknesses", "anchors": ["optika/materials/_multilayers.py:multilayer_efficiency", "optika/materials/_multilayers.py:multilayer_coefficients", "optika/materials/_multilayers.py:AbstractMultilayerFilm.efficiency", "optika/materials/_multilayers.py:AbstractMultilayerMirror.efficiency", "optika/materials/_thin_films.py:AbstractThinFilmFilter.efficiency", "optika/materials/_layers.py:Layer.transfer", "optika/materials/matrices.py:transfer"]}
{"id": "C71", "title": "Fitting a depletion model recovers the thickness that produced the measurements", "statement": "The mean charge capture of a depletion model decreases strictly as the depletion region gets thinner, so that measurements which were produced by some thickness of the depletion region are fitted by that thickness only: fit_mcc returns it, whatever the wavelengths, the noise-free measurements and the first guess are.", "quantifier": "every substrate, wavelengths, thickness of the depletion region within the substrate and first guess", "why_tests_cant": "uniqueness of the minimum over a continuum of thicknesses", "anchors": ["optika/sensors/materials/depletion/_depletion.py:AbstractDepletionModel.mean_charge_capture", "optika/sensors/materials/depletion/_depletion.py:JanesickDepletionModel.fit_mcc"]}
{"id": "C72", "title": "Drawings show the system where it is placed", "statement": "plot and to_dxf draw the outline of every aperture lifted onto the sag of its surface and moved by the transformations of the aperture, the surface and the system, and every ray as the polyline through its positions on the surfaces; rays that strike a surface end on the surface that is drawn. Keyword arguments given in a call take precedence over those of the object.", "quantifier": "every system, surface, aperture, sag, ray and set of keyword arguments", "why_tests_cant": "agreement of two computations for all compositions of transformations", "anchors": ["optika/surfaces.py:AbstractSurface.plot", "optika/surfaces.py:AbstractSurface._write_to_dxf", "optika/apertures/_apertures.py:AbstractAperture.plot", "optika/apertures/_apertures.py:AbstractAperture._write_to_dxf", "optika/rays/_ray_vectors.py:AbstractRayVectorArray._write_to_dxf", "optika/systems/_sequential.py:AbstractSequentialSystem.plot", "optika/systems/_sequential.py:AbstractSequentialSystem._write_to_dxf"]}
{"id": "C73", "title": "Objects placed by translations and rotations are placed rigidly", "statement": "The transformation of an object that is translatable, pitchable, yawable and rollable is a rigid motion, composed of its translation and the rotations by its pitch, yaw and roll in the order of the base classes; with a single one of them it is that motion, and the origin of the object lies at its translation.", "quantifier": "every combination and order of the mixins, angles and translations", "why_tests_cant": "a composition in an order that depends on the class hierarchy, for every class a user can write", "anchors": ["optika/mixins.py:Transformable", "optika/mixins.py:Translatable", "optika/mixins.py:Pitchable", "optika/mixins.py:Yawable", "optika/mixins.py:Rollable"]}
{"id": "C74", "title": "Results follow the parameters of the system", "statement": "rayfunction_default and rayfunction give what a new system with the present parameters would give, whatever was computed before; after an update of grid_input, clearing the cache with del system.rayfunction_default, as documented, is enough.", "quantifier": "every system and every sequence of reads, calls, assignments and clearings", "why_tests_cant": "sequences of operations of any length on an object with hidden state", "anchors": ["optika/systems/_sequential.py:AbstractSequentialSystem.rayfunction_default", "optika/systems/_sequential.py:AbstractSequentialSystem._rayfunction_input", "optika/systems/_sequential.py:AbstractSequentialSystem.raytrace", "optika/systems/_sequential.py:AbstractSequentialSystem.rayfunction"]}
{"id": "C75", "title": "The axes of wavelength, field and pupil of a grid are recognized", "statement": "A system tells the axes of the wavelength, the field and the pupil of its grid apart, whether they are given by axis_wavelength, axis_field and axis_pupil or left to be inferred: if the wavelength has at most one axis of its own, and field and pupil two each besides those of the system and of the coordinates before them, these are the axes over which distortion, vignetting and effective area are fitted and averaged; any other layout is refused. The axes given as attributes also hold for a grid given in a call.", "quantifier": "every shape of a system, every grid and every combination of grids given in a call", "why_tests_cant": "all assignments of axis names to coordinates", "anchors": ["optika/systems/_sequential.py:AbstractSequentialSystem.axis_wavelength_", "optika/systems/_sequential.py:AbstractSequentialSystem.axis_field_", "optika/systems/_sequential.py:AbstractSequentialSystem.axis_pupil_", "optika/systems/_sequential.py:AbstractSequentialSystem._rayfunction_and_axes", "optika/systems/_sequential.py:AbstractSequentialSystem.distortion", "optika/systems/_sequential.py:AbstractSequentialSystem.area_effective"]}
{"id": "C76", "title": "Numbers in a chemical formula are typeset as subscripts", "statement": "formula_latex typesets exactly the characters of the formula, every digit as a subscript and every other character on the line.", "quantifier": "every chemical formula", "why_tests_cant": "all strings", "anchors": ["optika/chemicals/_chemicals.py:AbstractChemical.formula_latex"]}
{"id": "C77", "title": "Every chemical is read from its own table", "statement": "Chemicals that differ in formula, amorphousness or table name are read from different files; the index of refraction is n + i k of the lines of that file, interpolated in wavelength, and at a wavelength of the table it is the value of the table.", "quantifier": "every pair of chemicals, every table and every wavelength", "why_tests_cant": "injectivity of a naming scheme, and all tables", "anchors": ["optika/chemicals/_chemicals.py:AbstractChemical.file_nk", "optika/chemicals/_chemicals.py:AbstractChemical.index_refraction", "optika/chemicals/_chemicals.py:AbstractChemical.n"]}
{"id": "C78", "title": "A sensor that is fitted to a measured quantum efficiency reproduces it", "statement": "BackIlluminatedSiliconSensorMaterial.fit_eqe returns a sensor with sensible parameters, the substrate and temperature that were given, and whose own quantum_efficiency_effective at normal incidence agrees with the measurements at least as well as the first guess; if the minimizer finds the minimum, no other sensor of the same substrate agrees better, and measurements made with such a sensor are reproduced.", "quantifier": "every set of measurements, substrate, tables of refractive indices and minimizer", "why_tests_cant": "all measurements, and agreement of the function that is fitted with the function of the result", "anchors": ["optika/sensors/materials/_materials.py:BackIlluminatedSiliconSensorMaterial.fit_eqe", "optika/sensors/materials/_materials.py:AbstractBackIlluminatedSiliconSensorMaterial.quantum_efficiency_effective", "optika/sensors/materials/_materials.py:quantum_efficiency_effective"]}
{"id": "C79", "title": "Matrices and vectors move rays as rigid bodies", "statement": "Multiplying rays by a matrix and adding a vector moves every point of the rays by that affine map: positions are turned and shifted, directions only turned, and wavelength, intensity, index, attenuation and vignetting stay the same. A matrix on the right undoes a rotation on the left, products act like successive factors, and subtracting a vector is adding its opposite; operations without meaning are refused.", "quantifier": "every ray, matrix and vector, and every combination of operands", "why_tests_cant": "all rays and matrices, and all pairs of operand types", "anchors": ["optika/rays/_ray_vectors.py:AbstractRayVectorArray.__array_matmul__", "optika/rays/_ray_vectors.py:AbstractRayVectorArray.__array_add__", "optika/rays/_ray_vectors.py:AbstractRayVectorArray.__array_ufunc__"]}
{"id": "C80", "title": "Coatings transmit the same light in both directions", "statement": "The transmissivity computed by multilayer_efficiency for a stack of smooth layers is the same for light that comes back along the transmitted ray through the reversed stack, for absorbing layers as well; without absorption the reflectivity is the same, too. A MultilayerFilm in vacuum therefore transmits the same when it is turned around.", "quantifier": "every stack of layers, nested and periodic ones included, angle, polarization and pair of media", "why_tests_cant": "all stacks, by induction on the layers", "anchors": ["optika/materials/_multilayers.py:multilayer_efficiency", "optika/materials/_multilayers.py:AbstractMultilayerFilm.efficiency"]}
{"id": "C81", "title": "Layers of a quarter and of half a wave", "statement": "At normal incidence layers of a quarter of a wave act like a surface with the index given by alternately dividing the squares of their indices; one layer with the geometric mean of the neighbouring indices does not reflect, and periodic pairs reflect all light as their number grows, as given in closed form. A layer of any number of half waves along the ray changes neither reflectivity nor transmissivity, wherever it is in a stack.", "quantifier": "every stack, number of layers, periods, index, thickness, angle and polarization", "why_tests_cant": "all numbers of layers, and a limit", "anchors": ["optika/materials/_multilayers.py:multilayer_efficiency", "optika/materials/_layers.py:Layer.transfer", "optika/materials/_layers.py:PeriodicLayerSequence.transfer"]}
{"id": "C82", "title": "Conic surfaces image one focus onto the other", "statement": "A mirror with a conic sag sends every ray through one focus through the other one (or makes the rays parallel for a paraboloid), and a conic boundary between two media whose indices have the ratio given by the conic constant gathers rays parallel to the axis in its far focus; this holds wherever the surface is placed and however it is turned, and successive surfaces that share a focus image the first focus onto the last.", "quantifier": "every radius, eccentricity, rigid placement and ray through the focus whose intercept is computed", "why_tests_cant": "all rays and all conics; tests trace a few rays to rounding error", "anchors": ["optika/sags/_conic.py:ConicSag", "optika/sags/_conic.py:ConicSag.intercept", "optika/surfaces.py:AbstractSurface.propagate_rays", "optika/materials/_snells_law.py:snells_law"]}
{"id": "C83", "title": "Parallel plane boundaries refract like a single one", "statement": "Rays that pass any number of parallel plane boundaries between media leave in the direction in which a single boundary between the first and the last medium would have refracted them; if these media are the same (a window) the direction does not change.", "quantifier": "every list of indices, distance and ray that is not totally reflected", "why_tests_cant": "all numbers of boundaries, by induction", "anchors": ["optika/surfaces.py:AbstractSurface.propagate_rays", "optika/propagators.py:propagate_rays", "optika/sags/_flat.py:NoSag", "optika/materials/_snells_law.py:snells_law"]}
{"id": "C84", "title": "The shape of an object is the common shape of all its parts", "statement": "The shape property of sags, apertures, rulings, chemicals, layers, materials, surfaces, sensors and systems is the smallest shape to which every array that the object computes with can be broadcast: no axis is missing, none is invented, an axis of length one gives way to a longer one, and objects whose parts do not fit together are refused.", "quantifier": "every object, with nested and periodic layers and any number of surfaces, and every shape of its fields", "why_tests_cant": "all combinations of axes of all fields, by induction on the structure of the object", "anchors": ["optika/_util.py:shape", "optika/mixins.py:Shaped.shape", "optika/surfaces.py:Surface.shape", "optika/systems/_sequential.py:SequentialSystem.shape", "optika/sensors/_sensors.py:ImagingSensor.shape", "optika/sags/_flat.py:NoSag.shape", "optika/rulings/_spacing.py:Polynomial1dRulingSpacing.shape", "optika/rulings/_spacing.py:HolographicRulingSpacing.shape", "optika/materials/_layers.py:LayerSequence.shape"]}
{"id": "C85", "title": "The point that a ray strikes depends only on its line", "statement": "The intercept of a ray with a surface does not change when the ray starts from another point of its own line, behind or before the surface, or when it runs the other way: the point found by the sag is a function of the line.", "quantifier": "every sag (plane, sphere, paraboloid, cylinder, conic, iterated), with any transformation, every start point and every sense along the line", "why_tests_cant": "a continuum of starts for each of a continuum of lines, and roots that swap when the sense changes", "anchors": ["optika/sags/_flat.py:NoSag.intercept", "optika/sags/_spherical.py:SphericalSag.intercept", "optika/sags/_parabolic.py:ParabolicSag.intercept", "optika/sags/_cylindrical.py:CylindricalSag.intercept", "optika/sags/_conic.py:AbstractConicSag.intercept", "optika/sags/_abc.py:AbstractSag.intercept"]}
{"id": "C86", "title": "Rays can be followed backwards", "statement": "If the ray that leaves a system of refracting and reflecting surfaces is turned around and sent through the surfaces in reverse order, each followed by the medium that preceded it, it strikes the same points in reverse order, arrives on the line of the ray that entered with the opposite direction, with its wavelength, index and vignetting.", "quantifier": "systems of any number of surfaces with any frames, materials and apertures, and every ray that reaches the end", "why_tests_cant": "induction over the number of surfaces with a continuum of rays", "anchors": ["optika/propagators.py:propagate_rays", "optika/surfaces.py:AbstractSurface.propagate_rays", "optika/materials/_snells_law.py:snells_law", "optika/sags/_spherical.py:SphericalSag.intercept"]}
{"id": "C87", "title": "The exact images of a spherical surface", "statement": "A ray towards the center of curvature of a spherical surface passes undeviated, or returns along itself from a mirror. A ray towards the aplanatic point at R (1 + n2/n1) on the axis is refracted so that its line passes through the conjugate point at R (1 + n1/n2), for all angles, not only small ones.", "quantifier": "every radius of either sign, every pair of indices, every rigid placement of the surface and every ray with a unit direction that meets the sphere of the surface", "why_tests_cant": "exact geometric identities over a continuum of angles, which samples meet only within tolerance", "anchors": ["optika/surfaces.py:Surface", "optika/sags/_spherical.py:SphericalSag", "optika/materials/_snells_law.py:snells_law"]}
{"id": "C88", "title": "Where a spherical surface focuses a beam along its axis", "statement": "A ray parallel to the axis of a spherical surface at the distance d crosses the axis at z = R + R / (sqrt((n2/n1)^2 - (d/R)^2) - sqrt(1 - (d/R)^2)) after refraction and at z = R - R / (2 sqrt(1 - (d/R)^2)) after reflection. As d tends to zero these places tend to the paraxial foci n2 R / (n2 - n1) and R / 2.", "quantifier": "every radius of either sign, every pair of different positive indices, both senses along the axis, every rigid placement of the surface and every distance below the radius", "why_tests_cant": "an exact formula for all distances and a limit, which no finite set of rays settles", "anchors": ["optika/surfaces.py:Surface", "optika/sags/_spherical.py:SphericalSag", "optika/materials/_snells_law.py:snells_law", "optika/materials/_materials.py:Mirror"]}
{"id": "C89", "title": "Results do not depend on the unit of length", "statement": "If every length of a system and of its rays is expressed in a unit that is k times smaller (positions, radii, focal lengths, shifts, apertures, spacings and recording geometry of rulings, wavelengths, thicknesses; coefficients of attenuation per length), the trace gives the same rays expressed in that unit: same directions, intensities, indices and vignetting, same failures.", "quantifier": "every factor k > 0, systems of any number of surfaces (planes, spheres, paraboloids, cylinders, with any frames; mirrors, glasses, multilayers; circular, elliptical, rectangular, polygonal and sector apertures; constant, polynomial and holographic rulings) and every ray", "why_tests_cant": "a continuum of scale factors; a guard written with an absolute number shows only for particular combinations of unit and geometry", "anchors": ["optika/propagators.py:propagate_rays", "optika/surfaces.py:AbstractSurface.propagate_rays", "optika/sags/_conic.py:AbstractConicSag.intercept", "optika/sags/_parabolic.py:ParabolicSag.intercept", "optika/rulings/_spacing.py:Polynomial1dRulingSpacing", "optika/materials/_multilayers.py:multilayer_efficiency", "optika/materials/_materials.py:Glass"]}
{"id": "C90", "title": "The transfer matrix of a slab composes like a slab", "statement": "The transfer matrix of a homogeneous slab in vacuum is the identity for zero thickness, the product of the matrices of two slices is the matrix of the slab, N slices are one slab of N times the thickness, and the determinant is one. It is the matrix that multilayer_efficiency uses for a film of the same single layer.", "quantifier": "every complex index, thickness, wavelength, direction, normal and polarization for which the matrix is finite, and every number of slices", "why_tests_cant": "identities over a continuum of complex indices and angles; a test compares a few of them", "anchors": ["optika/materials/matrices.py:transfer", "optika/materials/matrices.py:refraction", "optika/materials/matrices.py:propagation", "optika/materials/_multilayers.py:multilayer_efficiency"]}
{"id": "C91", "title": "Trains of plane mirrors image perfectly", "statement": "Through any number of plane mirrors, placed anywhere, each ray is moved by one and the same isometry of space, the product of the reflections in the planes: rays from a point leave on lines through its image, angles between rays are kept, handedness changes with each mirror. Two mirrors turn a ray in their common plane of incidence by twice their angle however it strikes, and three perpendicular mirrors return every ray antiparallel.", "quantifier": "any number of plane mirrors in any frames with any apertures and coatings, and every ray that gets through", "why_tests_cant": "induction over the number of mirrors with a continuum of placements and rays", "anchors": ["optika/propagators.py:propagate_rays", "optika/surfaces.py:AbstractSurface.propagate_rays", "optika/sags/_flat.py:NoSag", "optika/materials/_materials.py:Mirror", "optika/materials/_snells_law.py:snells_law"]}
{"id": "C92", "title": "Spot diagrams show the spot", "statement": "In each panel and for each wavelength the points of a spot diagram are the positions of the unvignetted rays relative to their own centroid: the shape of the spot is not changed, the points are centered, and rays that do not reach the detector have no influence.", "quantifier": "every number of rays, positions and vignetting", "why_tests_cant": "a mean over any subset of rays; a smoke test of a figure does not look at the points", "anchors": ["optika/systems/_sequential.py:AbstractSequentialSystem.spot_diagram"]}
{"id": "C93", "title": "The counts in an image follow from the effective area", "statement": "For an object at infinity and an ideal sensor, all pixels of an image together hold the exposure time times the sum over wavelengths and field cells of radiance, width of the wavelength bin, solid angle of the field cell and effective area of the field cell, for the rays that are drawn. For a uniform scene that is exposure time, radiance, bandwidth, total solid angle and effective area of the system. The effective area that the API gives for an object at a finite distance has the same meaning.", "quantifier": "every system, scene, grid of cells, random sample within the cells and exposure time", "why_tests_cant": "sums over any number of cells and rays that the random draws place anywhere; a test runs one system and compares shapes", "anchors": ["optika/systems/_sequential.py:AbstractSequentialSystem.image", "optika/systems/_sequential.py:AbstractSequentialSystem.area_effective", "optika/systems/_sequential.py:AbstractSequentialSystem._rayfunction_from_vertices"]}
{"id": "C94", "title": "Images on silicon sensors superpose", "statement": "The expected signal in each pixel of a backilluminated sensor is proportional to the brightness of the light, and the signal of two sources together is the sum of the signals of each alone.", "quantifier": "every sensor, every two sets of rays, every brightness", "why_tests_cant": "a statement about all pairs of illuminations; a test uses a single one", "anchors": ["optika/sensors/_sensors.py:AbstractImagingSensor.measure", "optika/sensors/_sensors.py:AbstractImagingSensor.collect", "optika/sensors/materials/_materials.py:AbstractBackIlluminatedSiliconSensorMaterial.signal", "optika/sensors/materials/_materials.py:charge_collection_efficiency"]}
{"id": "C95", "title": "Plane gratings obey the scalar grating equation", "statement": "In the frame of a plane ruled surface the component of the wave vector along the rulings is kept, and the component across them changes by order times wavelength over period, with the sign set by the side from which the light comes. An order leaves the surface exactly if the new tangential component is no longer than the wave vector. Longer wavelengths are turned further, at the rate order over index, period and cosine of the angle of diffraction. Light that meets the Littrow condition returns where it came from, and a pair of equal parallel reflection gratings sends light of every wavelength on in its old direction.", "quantifier": "every period, order, wavelength, direction, index and placement of the grating", "why_tests_cant": "the statements are about all wavelengths and directions and about limits in the wavelength; a test traces a few rays", "anchors": ["optika/surfaces.py:AbstractSurface.propagate_rays", "optika/rulings/_rulings.py:Rulings", "optika/rulings/_rulings.py:incident_effective", "optika/materials/_snells_law.py:snells_law", "optika/sags/_flat.py:NoSag"]}
{"id": "C96", "title": "Printed objects can be read", "statement": "The printed form of a surface, system or any other printable object has one field or list item per line, indented by four blanks for each level of nesting, with every bracket closed on the level of the line that opened it. A prefix given to to_string shifts all lines but the first by its length and changes nothing else. Two objects are printed alike only if they have the same class, the same field names, the same nesting of lists and objects and the same printed numbers, quantities and strings.", "quantifier": "every object with any number of fields, nested to any depth in objects and lists, whose numbers, quantities and strings are printed on one line; every prefix", "why_tests_cant": "a recursive function on trees of any depth; the tests only check that a string is returned", "anchors": ["optika/mixins.py:Printable.to_string", "optika/mixins.py:Printable._val_to_string", "optika/mixins.py:Printable.__repr__"]}
{"id": "C97", "title": "Fermat's principle", "statement": "The optical path that a ray takes through a sequence of surfaces, between a fixed point before and a fixed point behind them, is stationary: if the points where the ray is bent are moved along the surfaces, all at once and in any way, the sum over the pieces of index times length does not change to first order. At a ruled surface the order times the wavelength for each ruling that is crossed is added.", "quantifier": "every sequence of refracting, reflecting and ruled surfaces at any places, every ray that passes them forwards, every smooth variation of the points", "why_tests_cant": "a statement about derivatives in infinitely many directions, for every system", "anchors": ["optika/surfaces.py:AbstractSurface.propagate_rays", "optika/propagators.py:propagate_rays", "optika/materials/_snells_law.py:snells_law", "optika/rulings/_rulings.py:incident_effective", "optika/sags/_abc.py:AbstractSag.normal"]}
{"id": "C98", "title": "Gaussian optics near the axis", "statement": "A pencil of rays around the common axis of a train of surfaces is traced, to first order in its heights and slopes, by the rules of Gaussian optics: straight lines between the vertex planes and n' a' = n a + (n - n') c x at each surface, with the reversed sense for mirrors. So mirrors focus parallel light at half their radius of curvature, refracting surfaces, mirrors and thin lenses obey their conjugate equations with the usual magnifications, and the Lagrange invariant n (x b - y a) is conserved.", "quantifier": "every train of flat, spherical, parabolic and conic surfaces on a common axis (conic constants that are not within rounding of a paraboloid), every sequence of media and mirrors, every pencil of rays that contains the axis", "why_tests_cant": "a limit over rays approaching the axis, for every system; a trace at finite heights always contains aberrations", "anchors": ["optika/surfaces.py:AbstractSurface.propagate_rays", "optika/sags/_spherical.py:SphericalSag", "optika/sags/_conic.py:ConicSag", "optika/sags/_parabolic.py:ParabolicSag", "optika/sags/_flat.py:NoSag", "optika/materials/_snells_law.py:snells_law", "optika/propagators.py:propagate_rays"]}
{"id": "C99", "title": "Rays are perpendicular to wavefronts", "statement": "The optical length along the rays of a beam, from their starting points through a system to points behind it, changes along the beam by n' d' . w - n d . v, where v and w are the velocities of the ends. Hence rays that start from a point or perpendicularly to a surface are perpendicular to every surface that is reached after equal optical lengths (Malus and Dupin), and only to such; all rays between a point and its sharp image have the same optical length; and systems that image small objects sharply obey the cosine theorem and the sine condition of Abbe.", "quantifier": "every sequence of refracting, reflecting and ruled surfaces, every smooth family of traced rays", "why_tests_cant": "a statement about all rays of a continuous beam and about derivatives", "anchors": ["optika/surfaces.py:AbstractSurface.propagate_rays", "optika/propagators.py:propagate_rays", "optika/materials/_snells_law.py:snells_law", "optika/rulings/_rulings.py:incident_effective", "optika/sags/_abc.py:AbstractSag.normal"]}
{"id": "C100", "title": "Systems conserve etendue", "statement": "Let two curves of rays share a ray, and let p1, d1 and p2, d2 be the velocities of positions and directions along them. Then n (p1 . d2 - p2 . d1) is the same before and behind every system of refracting and reflecting surfaces, and of plane gratings of constant rulings for light of one wavelength. So the rays of a beam keep their volume in the space of positions and directions, and where a system images a point to first order the product of index, displacement and angle is that of the object (Helmholtz).", "quantifier": "every sequence of plane, spherical, conic, parabolic, cylindrical and toroidal surfaces in any positions, and every pair of smooth curves of traced rays through a common ray", "why_tests_cant": "a statement about derivatives along all curves of rays; the law couples the normals of the sags, the refraction and the transformations, and finite differences only approximate it", "anchors": ["optika/surfaces.py:AbstractSurface.propagate_rays", "optika/propagators.py:propagate_rays", "optika/materials/_snells_law.py:snells_law", "optika/rulings/_rulings.py:incident_effective", "optika/sags/_abc.py:AbstractSag.normal"]}
{"id": "C101", "title": "Narrow fans of rays focus where the equations of Coddington put them", "statement": "Let a narrow fan of rays of one wavelength strike a surface at a point with normal N and curvature k in the direction of the fan, diverging from a point at the distance r, or parallel. A fan in the plane of incidence diverges behind the surface from the distance r' with n2 (N.b)^2 / r' = n1 (N.a)^2 / r + (n2 b.N - n1 a.N - G.N) k, minus the slope of a varied line spacing; a fan perpendicular to it with n2 / r' = n1 / r + (n2 b.N - n1 a.N) k. Here a and b are the directions and G what the rulings add. So an inclined mirror has two foci; on a spherical surface, with or without straight rulings, the circle over the segment from the point to the centre of curvature is imaged to itself (Rowland). The curvatures are those of the plane, the sphere, the conic, the paraboloid, the cylinder and the torus.", "quantifier": "every surface with one of these sags, any rulings of constant or polynomial spacing and any order, material, position and orientation, and every smooth fan of traced rays", "why_tests_cant": "a statement about derivatives along all curves of rays; a test can only trace some rays and compare their crossings approximately", "anchors": ["optika/surfaces.py:AbstractSurface.propagate_rays", "optika/materials/_snells_law.py:snells_law", "optika/rulings/_rulings.py:incident_effective", "optika/rulings/_spacing.py:Polynomial1dRulingSpacing", "optika/sags/_spherical.py:SphericalSag", "optika/sags/_toroidal.py:ToroidalSag", "optika/sags/_conic.py:ConicSag"]}
{"id": "C102", "title": "Stops with no optics between them are connected by the first guess", "statement": "The rays that connect two stops are searched for from a guess that aims at a point: the sample of the last stop itself if no surface with power (mirror, curved, ruled) lies between the stops, else the vertex of the first surface with power behind the first stop. If everything between the stops is clear the guess is already the straight line between the samples (or, for a first stop given as directions, the line with that direction through the sample of the last stop), so that it is what every solver returns that stops at a root. An object is at infinity exactly if it has no aperture or one given as directions; apertures of other units are refused.", "quantifier": "every sequential system, every pair of stops in it, every sample of their borders, every number of clear surfaces between them wherever and however inclined they are", "why_tests_cant": "a statement about all systems and all samples; a test sees that a solver converged for some of them, not from where it started", "anchors": ["optika/systems/_sequential.py:AbstractSequentialSystem._anchor_surface", "optika/systems/_sequential.py:AbstractSequentialSystem._calc_rayfunction_stops_only", "optika/systems/_sequential.py:AbstractSequentialSystem.object_is_at_infinity"]}
{"id": "C103", "title": "Systems with a symmetry treat symmetric rays alike", "statement": "If a system looks the same after an isometry (a rotation about its axis, a reflection in a plane), tracing the image of a ray gives the image of the traced ray, with the same wavelength, intensity and vignetting. Hence light in the plane of symmetry of a spectrograph stays in it, a bundle that is symmetric about this plane is centred on it wherever it arrives, light along the axis of a system of surfaces of revolution stays on the axis, the skewness of a ray (index times angular momentum about the axis) is the same before and behind such a system, and the mirror image of a ray goes into the opposite order of rulings as the ray goes into the order.", "quantifier": "every number of surfaces, every sag (planes, spheres, conics, paraboloids, cylinders, tori), every ray, azimuth, weight of the rays, order and spacing", "why_tests_cant": "a test follows a few rays through one system; that no ray, surface or branch of an intercept prefers a side is a statement about all of them", "anchors": ["optika/surfaces.py:AbstractSurface.propagate_rays", "optika/propagators.py:propagate_rays", "optika/sags", "optika/rulings/_rulings.py:AbstractRulings.incident_effective", "optika/apertures/_apertures.py"]}
{"id": "C104", "title": "Rays close to a ray arrive close to it", "statement": "If a ray passes all surfaces of a system at an angle (it is not incident, diffracted or refracted along a surface, and not at the rim of a sphere or cylinder), all rays of the same wavelength close to it are traced as well, they meet every surface on their own lines, and their positions and directions behind the system change smoothly with the ray going in. Images can therefore be fitted by polynomials, rays can be aimed by iteration, and the etendue of C100 is kept by all bundles about such a ray.", "quantifier": "every number of surfaces, every smooth curve of rays through the ray, every transformation, index, radius, order and spacing", "why_tests_cant": "a test compares a few rays at finite distances; jumps between the branches of an intercept, of Snell's law or of the sign of the rulings sit at special rays that samples miss", "anchors": ["optika/surfaces.py:AbstractSurface.propagate_rays", "optika/propagators.py:propagate_rays", "optika/sags/_spherical.py:SphericalSag.intercept", "optika/sags/_conic.py:AbstractConicSag.intercept", "optika/sags/_parabolic.py:ParabolicSag.intercept", "optika/sags/_cylindrical.py:CylindricalSag.intercept", "optika/materials/_snells_law.py:snells_law"]}
{"id": "C105", "title": "Images without coma obey the sine condition", "statement": "If the rays from a point through all zones of a system without rulings arrive in one point, and a small displacement of the point moves the image by the same amount in every zone, the projection of the direction onto the displacement times the index, minus the same of the image, is equal in all zones. For a displacement across the axis this is Abbe's sine condition, for one along the axis Herschel's condition.", "quantifier": "every number of refracting and reflecting surfaces, every zone, every displacement, index and magnification", "why_tests_cant": "a test traces one design that was computed to be free of coma and compares its sines within a tolerance; the condition follows from the laws of refraction and transfer together for all designs", "anchors": ["optika/surfaces.py:AbstractSurface.propagate_rays", "optika/propagators.py:propagate_rays", "optika/materials/_snells_law.py:snells_law", "optika/systems/_sequential.py:AbstractSequentialSystem.rayfunction"]}
{"id": "C106", "title": "The noise of random sampling in an image averages out", "statement": "image draws one ray from a random place in every cell of wavelength, field and pupil. The mean of the counts in a pixel is the exposure time times the sum, over the cells, of the flux of the cell times the part of the cell from which light is detected in the pixel. The variance is the sum over the cells of the square of the flux times the variance of that part, so that cells which are detected alike everywhere do not contribute. If no cell holds more than one part in N of the light, the standard deviation is at most 1/(2 sqrt N) of all light, and larger deviations are as rare as the inequality of Chebyshev says.", "quantifier": "every camera with an ideal sensor and surfaces that do not amplify, every scene, pixel and number of cells, all draws", "why_tests_cant": "a test sees a few draws; mean and variance are integrals over all draws, for which the rays of the cells have to be independent", "anchors": ["optika/systems/_sequential.py:AbstractSequentialSystem.image", "optika/systems/_sequential.py:AbstractSequentialSystem._rayfunction_from_vertices", "optika/vectors/_vectors_object.py:AbstractObjectVectorArray.cell_area"]}
{"id": "C107", "title": "The resolution target is the inverted picture of the chart", "statement": "airforce returns one value for each pixel of the drawn chart, with the rows from the bottom to the top as the vertical axis of a plot runs. The values are between zero, for the brightest pixels, and one, for black ones, and change linearly with the sum of the channels. The range in which the channels are stored does not matter. There is a target unless the picture is black everywhere.", "quantifier": "every picture, number of rows, columns and channels", "why_tests_cant": "a test draws one chart and checks its shape", "anchors": ["optika/targets/_airforce/_airforce.py:airforce"]}
{"id": "C108", "title": "Light of different colours parts only at rulings and in dispersive media", "statement": "Rays of different wavelengths that start along the same path stay together, and are vignetted at the same surfaces, through every system whose materials have the same index of refraction for all wavelengths and whose rulings are used in order zero: mirrors are free of chromatic aberration. At rulings, two wavelengths leave from the same point, and the components along the surface of index times direction differ by the order times the difference of wavelengths over the spacing, across the rulings. The angle across the rulings changes with the wavelength by the order over the spacing times the index and the cosine of the angle (angular dispersion). Where a glass refracts the wavelengths differently, the one with the larger index is turned further towards the normal.", "quantifier": "every sequence of surfaces, ray, wavelength, sag, aperture, position, spacing and order", "why_tests_cant": "a statement about all systems and pairs of wavelengths, and about a derivative; a test traces some colours through some systems", "anchors": ["optika/surfaces.py:AbstractSurface.propagate_rays", "optika/materials/_materials.py:Mirror", "optika/materials/_snells_law.py:snells_law", "optika/rulings/_rulings.py:incident_effective"]}
{"id": "C109", "title": "Cells of angles are weighed by their solid angle", "statement": "When the field or the pupil is given as angles, the weight of a triangle of directions is the area it covers on the unit sphere: the sum of its angles minus 180 degrees. Triangles that are cut in two have the weight of their parts, so a column of cells between two meridians has the same weight however it is divided into cells; an eighth of the sphere has pi/2. For a grid of angles with narrow columns the total weight of all cells tends to the solid angle of the region, the difference of the longitudes times the difference of the sines of the latitudes.", "quantifier": "all unit vectors, all grids of latitudes within 90 degrees of the equator and all widths of the field", "why_tests_cant": "an identity of transcendental functions for all triangles, and a limit; a test compares the area of some cells", "anchors": ["optika/vectors/_vectors_object.py:AbstractObjectVectorArray.cell_area", "optika/_util.py:direction"]}
{"id": "C110", "title": "Coatings and the shape of grooves change only the intensity", "statement": "Two systems that differ only in the coatings of their surfaces (bare, measured or multilayer mirrors; films, thin-film filters and the silicon of a sensor) and in the efficiency model of their rulings lead a ray along the same path: position, direction, wavelength, medium and vignetting of the result agree, and only the intensity differs. The intensity of a ray has no influence on anything but the intensity of the result. Light passes films, filters and the surface of a sensor straight on.", "quantifier": "all sequences of surfaces of any sag, aperture, rulings and placement, all layers and tables of measurements, and all rays", "why_tests_cant": "ranges over all systems and all coatings; a test traces a few rays through one system", "anchors": ["optika/materials/_multilayers.py:AbstractMultilayerMaterial", "optika/materials/_thin_films.py:ThinFilmFilter", "optika/materials/_materials.py:MeasuredMirror", "optika/sensors/materials/_materials.py:BackIlluminatedSiliconSensorMaterial", "optika/surfaces.py:AbstractSurface.propagate_rays"]}
{"id": "C111", "title": "A camera measures the quantum efficiency of its sensor", "statement": "Expose an imaging sensor of back-illuminated silicon, without noise, to a beam of photons of one direction and of the wavelength in the middle of the bin. The surface of the sensor absorbs the fraction absorbance() of the beam and leaves the direction, the wavelength and the medium as they are. The electrons of every pixel are the photons that arrive in the pixel during the exposure times the quantum_efficiency() of the material for the direction of the beam relative to the sensor, and photons_incident() of these electrons is the number of photons that arrived.", "quantifier": "all placements and shapes of the sensor, all directions and media (also absorbing ones) of the beam, all materials, exposures, pixel grids, bins of wavelength and numbers of rays", "why_tests_cant": "three separate computations (efficiency of the surface, charge collection from a complex mean cosine, quantum efficiency) have to agree for all angles and media; a test compares a few", "anchors": ["optika/sensors/_sensors.py:AbstractImagingSensor.collect", "optika/sensors/_sensors.py:AbstractImagingSensor.measure", "optika/sensors/_sensors.py:AbstractImagingSensor.expose", "optika/sensors/materials/_materials.py:AbstractBackIlluminatedSiliconSensorMaterial.quantum_efficiency", "optika/sensors/materials/_materials.py:AbstractBackIlluminatedSiliconSensorMaterial.photons_incident", "optika/sensors/materials/_materials.py:AbstractBackIlluminatedSiliconSensorMaterial.efficiency"]}
{"id": "C112", "title": "Rounding errors do not change where rays go", "statement": "Carry out the arithmetic of a sequence of surfaces in floating point, so that every operation and every constant has a small relative error, on a ray given with small errors. The rays that come out are finite and as close as desired to the rays of exact arithmetic, if the errors are small enough, and the same rays are vignetted; with no errors they are the same.", "quantifier": "all sequences of planes, spheres, cylinders, paraboloids and conics, filled with vacuum, mirrors or glass, with or without rulings, at any place and orientation, all rays, all tolerances and all ways of rounding", "why_tests_cant": "a test compares a few rays in one precision with a tolerance chosen to pass; whether the code has decisions that depend on the last bit can only be seen for all of them", "anchors": ["optika/sags/_conic.py:AbstractConicSag.intercept", "optika/surfaces.py:AbstractSurface.propagate_rays", "optika/materials/_snells_law.py:snells_law", "optika/systems/_sequential.py:AbstractSequentialSystem"]}
{"id": "C113", "title": "A surface with an infinite radius is flat", "statement": "The default radius (focal length) of spherical, conic, cylindrical and parabolic surfaces is infinite, and so is the minor radius of toroidal ones. A surface with an infinite radius has the height and the normal of a plane and is struck where the plane is; a toroidal surface with infinite minor radius is a cylinder with the radius of rotation. For finite radii and rays, results that are not finite arise exactly where the real formulas are undefined.", "quantifier": "all positions, rays that are not parallel to the axis of the cylinder, conic constants, radii of either sign, finite and infinite", "why_tests_cant": "a test would have to know which of the formulas multiply infinity by zero or subtract infinities, and the last bit decides whether a ray is kept", "anchors": ["optika/sags/_spherical.py:SphericalSag.intercept", "optika/sags/_conic.py:AbstractConicSag.intercept", "optika/sags/_cylindrical.py:CylindricalSag.intercept", "optika/sags/_parabolic.py:ParabolicSag.intercept", "optika/sags/_toroidal.py:ToroidalSag"]}
{"id": "C114", "title": "Rays that are lost do not count", "statement": "A ray that misses a surface, is reflected totally or is diffracted into an order that does not exist goes on with components that are not finite. On a sensor such a ray is vignetted, whatever surfaces it was lost at and whatever follows: every unvignetted ray of rayfunction has struck all surfaces. The effective area, the mean positions used by distortion, the fraction used by vignetting and every bin of an image are finite, and are those of the rays that arrive.", "quantifier": "all sequences of surfaces of any sag, material, rulings, aperture and placement, whatever they do with components that are not finite, all rays, all pupils, all bins", "why_tests_cant": "a lost ray is recognized only by a comparison with NaN in a later aperture; a test sees a few rays through systems in which all rays arrive", "anchors": ["optika/surfaces.py:AbstractSurface.propagate_rays", "optika/apertures/_apertures.py:AbstractAperture.clip_rays", "optika/systems/_sequential.py:AbstractSequentialSystem.area_effective", "optika/systems/_sequential.py:AbstractSequentialSystem.distortion", "optika/systems/_sequential.py:AbstractSequentialSystem.vignetting", "optika/sensors/_sensors.py:AbstractImagingSensor.collect"]}
{"id": "C115", "title": "The distortion and vignetting models of a system describe its rays", "statement": "Let the mean position on the sensor of the rays that arrive (or their number, relative to the mean over the field) be a polynomial of at most the degree in wavelength and field position, and let rays arrive from enough field points to determine such a polynomial. Then distortion() (or vignetting()) of the system is this polynomial at all wavelengths and positions, whatever rays are vignetted or lost. In any case the distortion model has the least squared distances from the mean positions; it is finite precisely if the points from which rays arrive determine a polynomial. The mapping back is finite as well.", "quantifier": "all systems that end in a sensor, all grids of wavelengths, field and pupil positions, all degrees, all patterns of vignetted and lost rays", "why_tests_cant": "a test fits one system in which the rays arrive; the claim is about the composition of ray trace, mask, mean and fit for all systems and patterns of rays", "anchors": ["optika/systems/_sequential.py:AbstractSequentialSystem.distortion", "optika/systems/_sequential.py:AbstractSequentialSystem.vignetting", "optika/distortion/_distortion.py:PolynomialDistortionModel", "optika/radiometry/_vignetting.py:PolynomialVignettingModel"]}
{"id": "C116", "title": "Pictures of the errors of a fitted model show the errors of the fit", "statement": "plot_residual() of a distortion or vignetting model shows the calibration points that the fit uses and no others, each with the distance between its measured value and the prediction of the model. Unless limits are given, the colours range from zero to the greatest of these errors. The errors are zero if the values are a polynomial of the degree, and no other polynomial has a smaller sum of squared errors. inverse() of a vignetting model is the factor that restores the brightness at every point that is not dark.", "quantifier": "all sets of calibration points, masks and degrees, positions on the sensor that are not finite included", "why_tests_cant": "tests only check that a figure is made; that the points which are not used neither appear nor set the scale is a statement about all masks", "anchors": ["optika/distortion/_distortion.py:PolynomialDistortionModel.plot_residual", "optika/radiometry/_vignetting.py:PolynomialVignettingModel.plot_residual", "optika/radiometry/_vignetting.py:AbstractVignettingModel.inverse"]}
{"id": "C117", "title": "Pictures of coatings show the layers in place", "statement": "plot() of a layer, of a sequence or of a periodic sequence of layers draws one rectangle for every layer (of periodic sequences one period), as high as the layer is thick, in the order in which light from above strikes them, on top of each other without gaps or overlaps. The brace beside a periodic sequence spans its layers, the arrow of each label points to its layer, and plot_layers() of a mirror draws the substrate below all layers.", "quantifier": "all nested sequences and periodic sequences of layers, all thicknesses, numbers of periods, offsets, widths and label positions", "why_tests_cant": "tests check that patches are returned, not where they are; whether they fit together depends on the nesting", "anchors": ["optika/materials/_layers.py:Layer.plot", "optika/materials/_layers.py:LayerSequence.plot", "optika/materials/_layers.py:PeriodicLayerSequence.plot", "optika/materials/_multilayers.py:AbstractMultilayerMirror.plot_layers"]}
{"id": "C118", "title": "The sensors of the catalogue have what was asked for and measured", "statement": "However often and in whatever order e2v_ccd97(), e2v_ccd203() and tektronix_tk512cb() are called, with whatever temperatures, every sensor that was returned keeps the temperature of its call, has the thickness of the device and sensible fitted parameters, and differs from other sensors of the same kind only in temperature. The measurements that come with it are those of the data files, converted to wavelengths and fractions, and it describes them at least as well as the sensor where the fit begins. The width of its charge diffusion is finite wherever light is absorbed.", "quantifier": "all sequences of calls with all temperatures, all contents of the data files, all optical constants, all minimizers that keep their contract", "why_tests_cant": "the fits are cached on disk and then modified, so that the result of a call could depend on all earlier ones; tests call each function once with the files of the present release", "anchors": ["optika/sensors/materials/_e2v_ccd97/_e2v_ccd97.py:e2v_ccd97", "optika/sensors/materials/_e2v_ccd203/_e2v_ccd203.py:e2v_ccd203", "optika/sensors/materials/_tektronix_tk512cb/_tektronix_tk512cb.py:tektronix_tk512cb", "optika/sensors/materials/depletion/_e2v_ccd64_thick/_e2v_ccd64_thick.py:e2v_ccd64_thick", "optika/sensors/materials/depletion/_e2v_ccd64_thin/_e2v_ccd64_thin.py:e2v_ccd64_thin", "optika/_caching.py:memory", "optika/sensors/materials/_materials.py:AbstractBackIlluminatedSiliconSensorMaterial.width_charge_diffusion"]}
{"id": "C119", "title": "Concave gratings focus on their Rowland circle", "statement": "A spherical mirror with straight rulings of constant spacing images a source on its Rowland circle (the circle whose diameter is the radius of curvature and which touches the vertex) onto the Rowland circle: a ray from the source in the plane across the rulings that strikes the grating at the angle theta from the vertex passes the image, at the angle given by the grating equation at the vertex, within a constant times the third power of theta. The constant depends only on the radius and the two angles, not on wavelength, order or spacing. At any other distance in that direction the rays pass by at a distance that is of first order in theta. This holds wherever and however the grating is placed.", "quantifier": "all radii, all angles of incidence and diffraction, all wavelengths, orders, spacings and indices of refraction that meet the grating equation, all points of the grating near the vertex", "why_tests_cant": "this is a statement about a limit: the error is of third order in the aperture for all wavelengths; tests compare single rays, and the way in which rulings combine with the curved surface is settled by no ray at the vertex", "anchors": ["optika/rulings/_rulings.py:incident_effective", "optika/rulings/_spacing.py:ConstantRulingSpacing", "optika/sags/_spherical.py:SphericalSag", "optika/materials/_snells_law.py:snells_law", "optika/surfaces.py:AbstractSurface.propagate_rays"]}
{"id": "C120", "title": "Plane gratings of varied spacing focus where they should", "statement": "A plane mirror with straight rulings whose spacing is a polynomial images a point at the distance r in the direction alpha onto the point at the distance r' in the direction beta given by the grating equation in the middle, up to an error of second order in the aperture, if and only if the relative rate of change of the spacing times sin(alpha) + sin(beta) is cos(alpha)^2 / r + cos(beta)^2 / r'. This does not depend on the wavelength, the order or the further coefficients. Equidistant rulings on a plane never focus.", "quantifier": "all polynomials, all distances, all angles of incidence and diffraction, all wavelengths, orders and indices of refraction that meet the grating equation, all points of the grating near the middle", "why_tests_cant": "this is a statement about a limit for all wavelengths and all polynomials, in both directions; tests compare the spacing at single points", "anchors": ["optika/rulings/_spacing.py:Polynomial1dRulingSpacing", "optika/rulings/_rulings.py:incident_effective", "optika/sags/_flat.py:NoSag", "optika/materials/_snells_law.py:snells_law", "optika/surfaces.py:AbstractSurface.propagate_rays"]}
{"id": "C121", "title": "Concave gratings focus where the theory says", "statement": "A spherical mirror with straight rulings whose spacing is constant or a polynomial images a point at the distance r in the direction alpha onto the point at the distance r' in the direction beta given by the grating equation at the vertex, up to an error of second order in the aperture, if and only if the relative rate of change of the spacing times sin(alpha) + sin(beta) is cos(alpha)^2 / r - cos(alpha) / R + cos(beta)^2 / r' - cos(beta) / R. Hence a source on the Rowland circle of a grating with constant spacing is in focus on the Rowland circle and nowhere else, and in the order zero the focus is the tangential focus of a mirror, 1 / r + 1 / r' = 2 / (R cos(alpha)).", "quantifier": "all radii, all polynomials, all distances, all angles of incidence and diffraction, all wavelengths, orders and indices of refraction that meet the grating equation, all points of the grating near the vertex", "why_tests_cant": "this is a statement about a limit for all wavelengths, all polynomials and all conjugates, in both directions; tests check the spacing, the sag and the law of refraction separately and at single points", "anchors": ["optika/rulings/_spacing.py:Polynomial1dRulingSpacing", "optika/rulings/_spacing.py:ConstantRulingSpacing", "optika/rulings/_rulings.py:incident_effective", "optika/sags/_spherical.py:SphericalSag", "optika/materials/_snells_law.py:snells_law", "optika/surfaces.py:AbstractSurface.propagate_rays"]}
