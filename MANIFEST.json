{
 "claims": [
  {
   "property": "C01",
   "status": "proved",
   "theorems": [
    "Optika.C01_refraction",
    "Optika.C01_default_normal",
    "Optika.C01_surface"
   ],
   "note": ""
  },
  {
   "property": "C02",
   "status": "proved",
   "theorems": [
    "Optika.C02_reflection",
    "Optika.C02_reflection_consequences"
   ],
   "note": "Incident directions of unit length."
  },
  {
   "property": "C03",
   "status": "partial",
   "theorems": [
    "Optika.C03_normal_flip_partial",
    "Optika.C03_grazing_counterexample"
   ],
   "note": "Holds off grazing incidence; at exactly grazing incidence the code depends on the sign of the normal (C03_grazing_counterexample)."
  },
  {
   "property": "C04",
   "status": "proved",
   "theorems": [
    "Optika.C04_reversible",
    "Optika.C04_reversible_mirror"
   ],
   "note": ""
  },
  {
   "property": "C05",
   "status": "proved",
   "theorems": [
    "Optika.C05_total_internal_reflection",
    "Optika.C05_denser_never_fails"
   ],
   "note": ""
  },
  {
   "property": "C06",
   "status": "proved",
   "theorems": [
    "Optika.C06_ideal_rulings",
    "Optika.C06_grating_equation",
    "Optika.C06_order_zero",
    "Optika.C06_order_exists",
    "Optika.C06_grating_equation_tilted",
    "Optika.C06_constant_spacing",
    "Optika.C06_plain_spacing",
    "Optika.C06_surface"
   ],
   "note": ""
  },
  {
   "property": "C07",
   "status": "partial",
   "theorems": [
    "Optika.C07_surface_partial",
    "Optika.C07_holographic",
    "Optika.C07_stigmatic_partial",
    "Optika.C07_specular_point_counterexample",
    "Optika.C07_with_normal_counterexample"
   ],
   "note": "Holds for rays against the normal and off the specular point; the counterexamples give the rest."
  },
  {
   "property": "C08",
   "status": "partial",
   "theorems": [
    "Optika.C08_conic_vertex_counterexample",
    "Optika.C08_flat_object",
    "Optika.C08_sphere_object",
    "Optika.C08_conic_object",
    "Optika.C08_parabola_object",
    "Optika.C08_cylinder_object",
    "Optika.C08_flat_moved",
    "Optika.C08_conic_moved",
    "Optika.C08_flat",
    "Optika.C08_sphere",
    "Optika.C08_sphere_miss",
    "Optika.C08_sphere_perpendicular_counterexample",
    "Optika.C08_sphere_far_half_counterexample",
    "Optika.C08_conic_sound",
    "Optika.C08_conic_complete",
    "Optika.C08_parabola_partial",
    "Optika.C08_parabola_near_axial_error",
    "Optika.C08_parabola_near_axial_counterexample",
    "Optika.C08_parabola_perpendicular_counterexample",
    "Optika.C08_cylinder",
    "Optika.C08_cylinder_miss_counterexample",
    "Optika.C08_transformed_counterexample",
    "Optika.C08_transformed",
    "Optika.C08_solved_partial",
    "Optika.C08_solved_unique",
    "Optika.C08_torus_partial",
    "Optika.C08_torus_moved_counterexample",
    "Optika.C08_tolerance",
    "Optika.C08_tolerance_close"
   ],
   "note": "Plane, sphere, conic, paraboloid and cylinder proved under the exact guards; the counterexample theorems show that the guards are needed. Toroidal and user-defined sags are proved for an idealised secant iteration, which returns a root or fails; a toroidal sag with a transformation that moves it along the axis does not contain the intercept (C08_torus_moved_counterexample)."
  },
  {
   "property": "C09",
   "status": "partial",
   "theorems": [
    "Optika.C09_conic",
    "Optika.C09_sphere",
    "Optika.C09_parabola",
    "Optika.C09_cylinder",
    "Optika.C09_torus",
    "Optika.C09_sphere_object",
    "Optika.C09_conic_object",
    "Optika.C09_parabola_object",
    "Optika.C09_cylinder_object",
    "Optika.C09_flat_object",
    "Optika.C09_flat_turned_counterexample",
    "Optika.C09_shifted_partial",
    "Optika.C09_turned_counterexample"
   ],
   "note": "Proved for sphere, conic, paraboloid, cylinder and torus, strictly inside the domain, and for shifted sags; false if the transformation of the sag turns it (C09_turned_counterexample, C09_flat_turned_counterexample)."
  },
  {
   "property": "C10",
   "status": "partial",
   "theorems": [
    "Optika.C10_conic_zero_height",
    "Optika.C10_conic_zero_normal",
    "Optika.C10_parabola_height",
    "Optika.C10_parabola_normal",
    "Optika.C10_cylinder",
    "Optika.C10_torus_sphere",
    "Optika.C10_vertex",
    "Optika.C10_torus_vertex_partial",
    "Optika.C10_torus_negative_counterexample",
    "Optika.C10_torus_revolution",
    "Optika.C10_torus_transformed"
   ],
   "note": "All families proved; for a torus of negative radius of rotation the claim is false (C10_torus_negative_counterexample)."
  },
  {
   "property": "C11",
   "status": "proved",
   "theorems": [
    "Optika.C11_axial_to_focus",
    "Optika.C11_focus_to_axial"
   ],
   "note": "Axial rays without restriction; the converse under the guards of the intercept (C08)."
  },
  {
   "property": "C12",
   "status": "proved",
   "theorems": [
    "Optika.C12_beer_lambert",
    "Optika.C12_never_increases",
    "Optika.C12_split",
    "Optika.C12_split_planes",
    "Optika.C12_not_between"
   ],
   "note": "The intermediate surface must lie between the end points (C12_not_between)."
  },
  {
   "property": "C13",
   "status": "proved",
   "theorems": [
    "Optika.C13_append",
    "Optika.C13_lone",
    "Optika.C13_surfaces",
    "Optika.C13_accumulate"
   ],
   "note": ""
  },
  {
   "property": "C14",
   "status": "proved",
   "theorems": [
    "Optika.C14_one_surface",
    "Optika.C14_vignetting",
    "Optika.C14_never_returns",
    "Optika.C14_example"
   ],
   "note": ""
  },
  {
   "property": "C15",
   "status": "proved",
   "theorems": [
    "Optika.C15_one_surface",
    "Optika.C15_no_energy_created",
    "Optika.C15_product",
    "Optika.C15_passive_ideal",
    "Optika.C15_mirror_medium",
    "Optika.C15_vacuum_medium",
    "Optika.C15_folded"
   ],
   "note": "Includes which medium a ray is in behind mirrors and vacuum."
  },
  {
   "property": "C16",
   "status": "proved",
   "theorems": [
    "Optika.C16_rigid",
    "Optika.C16_move",
    "Optika.C16_snell",
    "Optika.C16_axial_instances",
    "Optika.C16_axial_symmetry"
   ],
   "note": "Rigid motions of whole systems, and axial symmetry of surfaces of revolution."
  },
  {
   "property": "C17",
   "status": "partial",
   "theorems": [
    "Optika.C17_quotient_partial",
    "Optika.C17_frequency_counterexample"
   ],
   "note": "The code conserves wavelength/index; the physical claim is false of it (C17_frequency_counterexample)."
  },
  {
   "property": "C18",
   "status": "partial",
   "theorems": [
    "Optika.C18_circle",
    "Optika.C18_rectangle",
    "Optika.C18_ellipse",
    "Optika.C18_ellipse_degenerate_counterexample",
    "Optika.C18_sector_partial",
    "Optika.C18_sector_boundary_counterexample",
    "Optika.C18_polygon",
    "Optika.C18_clip",
    "Optika.C18_trapezoid",
    "Optika.C18_regular",
    "Optika.C18_regular_circles",
    "Optika.C18_sectors"
   ],
   "note": "Disk, rectangle, ellipse, polygon, regular polygon, trapezoid and clipping proved (given a point-in-polygon test that is right about convex polygons, PolygonTest); the mask of a sector leaves out its straight sides (C18_sector_boundary_counterexample)."
  },
  {
   "property": "C19",
   "status": "partial",
   "theorems": [
    "Optika.C19_circle_partial",
    "Optika.C19_off_plane_counterexample",
    "Optika.C19_circle_attained",
    "Optika.C19_ellipse_partial",
    "Optika.C19_ellipse_attained",
    "Optika.C19_sector_partial",
    "Optika.C19_sector_attained",
    "Optika.C19_sector_full_counterexample",
    "Optika.C19_polygon",
    "Optika.C19_rectangle_partial",
    "Optika.C19_rectangle_attained",
    "Optika.C19_polygon_wire",
    "Optika.C19_sector_wire_partial",
    "Optika.C19_ellipse_wire",
    "Optika.C19_circle_wire"
   ],
   "note": "Proved for points in the plane of the aperture; masks ignore the distance from the plane, so the claim for all accepted points is false (C19_off_plane_counterexample), and it is false for a sector with an opening of a full turn (C19_sector_full_counterexample)."
  },
  {
   "property": "C20",
   "status": "partial",
   "theorems": [
    "Optika.C20_polygon_boundary",
    "Optika.C20_polygon_count",
    "Optika.C20_polygon_count_binary64_partial",
    "Optika.C20_polygon_binary64_counterexample",
    "Optika.C20_polygon_vertices",
    "Optika.C20_polygon_closed",
    "Optika.C20_sector_boundary",
    "Optika.C20_sector_count",
    "Optika.C20_ellipse",
    "Optika.C20_ellipse_around"
   ],
   "note": "Proved with exact arithmetic, and in binary64 for a number of sides that is a power of two; in binary64 a heptagon may lose a sample (C20_polygon_binary64_counterexample)."
  },
  {
   "property": "C21",
   "status": "proved",
   "theorems": [
    "Optika.C21_unit",
    "Optika.C21_angles_direction",
    "Optika.C21_direction_angles",
    "Optika.C21_angles_defined",
    "Optika.C21_range"
   ],
   "note": "Poles included."
  },
  {
   "property": "C22",
   "status": "partial",
   "theorems": [
    "Optika.C22_surfaces_all_defined",
    "Optika.C22_field_stop",
    "Optika.C22_index",
    "Optika.C22_index_undefined",
    "Optika.C22_field_index_defined",
    "Optika.C22_loop_terminates",
    "Optika.C22_loop_result_partial",
    "Optika.C22_loop_result_counterexample"
   ],
   "note": "All proved, except that where the loop ends is proved only if no surface is both stops (C22_loop_result_counterexample)."
  },
  {
   "property": "C23",
   "status": "partial",
   "theorems": [
    "Optika.C23_explicit_grid",
    "Optika.C23_with_intensity",
    "Optika.C23_history_partial",
    "Optika.C23_history_counterexample"
   ],
   "note": "False if an earlier call passed an intensity together with the default grid (C23_history_counterexample); proved for all other histories."
  },
  {
   "property": "C24",
   "status": "partial",
   "theorems": [
    "Optika.C24_raytrace_partial",
    "Optika.C24_global_counterexample",
    "Optika.C24_rayfunction",
    "Optika.C24_on_sensor"
   ],
   "note": "rayfunction is proved in general; raytrace returns system coordinates, which differ from global ones if the system is transformed (C24_global_counterexample)."
  },
  {
   "property": "C25",
   "status": "proved",
   "theorems": [
    "Optika.C25_endpoints",
    "Optika.C25_monotone",
    "Optika.C25_inside",
    "Optika.C25_grid",
    "Optika.C25_input"
   ],
   "note": "The extents themselves (Newton iteration through the stops) are a parameter."
  },
  {
   "property": "C26",
   "status": "proved",
   "theorems": [
    "Optika.C26_cell",
    "Optika.C26_area_bounds",
    "Optika.C26_area_additive",
    "Optika.C26_area_vignetted",
    "Optika.C26_area_lossless",
    "Optika.C26_position",
    "Optika.C26_position_range",
    "Optika.C26_illumination",
    "Optika.C26_illumination_zero",
    "Optika.C26_cell_rays"
   ],
   "note": ""
  },
  {
   "property": "C27",
   "status": "proved",
   "theorems": [
    "Optika.C27_matrix_inverse",
    "Optika.C27_distort",
    "Optika.C27_reference",
    "Optika.C27_inverse",
    "Optika.C27_undefined"
   ],
   "note": ""
  },
  {
   "property": "C28",
   "status": "proved",
   "theorems": [
    "Optika.C28_path_independent",
    "Optika.C28_conserved",
    "Optika.C28_decays",
    "Optika.C28_stack",
    "Optika.C28_agrees_with_vector_form"
   ],
   "note": ""
  },
  {
   "property": "C29",
   "status": "proved",
   "theorems": [
    "Optika.C29_refraction_compose",
    "Optika.C29_refraction_self",
    "Optika.C29_refraction_inverse",
    "Optika.C29_refraction_exists",
    "Optika.C29_propagation",
    "Optika.C29_same_medium"
   ],
   "note": ""
  },
  {
   "property": "C30",
   "status": "proved",
   "theorems": [
    "Optika.C30_concatenation",
    "Optika.C30_nesting",
    "Optika.C30_thickness"
   ],
   "note": ""
  },
  {
   "property": "C31",
   "status": "partial",
   "theorems": [
    "Optika.C31_two_or_more",
    "Optika.C31_periodic_partial",
    "Optika.C31_finite_result_partial",
    "Optika.C31_any_nesting_partial",
    "Optika.C31_zero_periods_counterexample",
    "Optika.C31_critical_angle_counterexample"
   ],
   "note": "Proved for two or more periods, and for one period whenever the result is finite; false for zero periods (C31_zero_periods_counterexample) and for one period that ends at the critical angle (C31_critical_angle_counterexample)."
  },
  {
   "property": "C32",
   "status": "partial",
   "theorems": [
    "Optika.C32_energy_partial",
    "Optika.C32_transparent_partial",
    "Optika.C32_finite",
    "Optika.C32_rough_partial",
    "Optika.C32_rough_counterexample"
   ],
   "note": "Proved for ideal interfaces, and for rough interfaces between transparent media; a rough interface behind an absorbing film may transmit more light than arrives (C32_rough_counterexample)."
  },
  {
   "property": "C33",
   "status": "partial",
   "theorems": [
    "Optika.C33_group_partial",
    "Optika.C33_groups_sum_partial",
    "Optika.C33_sum_is_one_partial",
    "Optika.C33_opaque_partial",
    "Optika.C33_negative_index_partial",
    "Optika.C33_below_opaque_counterexample",
    "Optika.C33_last_layer_counterexample"
   ],
   "note": "Proved for stacks without opaque layers, and up to the first opaque layer; false below it (C33_below_opaque_counterexample) and for the index -1 (C33_last_layer_counterexample). The absorbance of a group of layers is the sum over its layers (C33_group_partial)."
  },
  {
   "property": "C34",
   "status": "partial",
   "theorems": [
    "Optika.C34_surface_partial",
    "Optika.C34_system_partial",
    "Optika.C34_surface_counterexample",
    "Optika.C34_mirror_partial",
    "Optika.C34_film_partial",
    "Optika.C34_film_backward_counterexample",
    "Optika.C34_mirror_counterexample"
   ],
   "note": "Proved for rays that travel against the normal; for the others a film transmits nothing or less (C34_film_backward_counterexample) and a mirror reflects more than arrives (C34_mirror_counterexample). C34_surface_partial and C34_system_partial carry this to surfaces and sequences of surfaces; C34_surface_counterexample is a whole surface that multiplies the intensity by 25."
  },
  {
   "property": "C35",
   "status": "proved",
   "theorems": [
    "Optika.C35_opaque",
    "Optika.C35_transmissivity_zero"
   ],
   "note": ""
  },
  {
   "property": "C36",
   "status": "partial",
   "theorems": [
    "Optika.C36_erf",
    "Optika.C36_exponential",
    "Optika.C36_linear_partial",
    "Optika.C36_sinusoidal",
    "Optika.C36_zero_width",
    "Optika.C36_zero_width_linear_counterexample"
   ],
   "note": "All four profiles are transitions; a linear profile of width zero, the default, gives NaN instead of the Fresnel reflection (C36_zero_width_linear_counterexample)."
  },
  {
   "property": "C37",
   "status": "partial",
   "theorems": [
    "Optika.C37_erf",
    "Optika.C37_exponential",
    "Optika.C37_linear_partial",
    "Optika.C37_sinusoidal_partial",
    "Optika.C37_reflectivity",
    "Optika.C37_transmissivity",
    "Optika.C37_linear_zero_counterexample",
    "Optika.C37_linear_units_counterexample",
    "Optika.C37_sinusoidal_counterexample",
    "Optika.C37_le_one",
    "Optika.C37_reduces"
   ],
   "note": "Proved for the error function and exponential profiles; for the linear profile if width and wavelength have the same unit and away from zero momentum transfer, for the sinusoidal profile away from two points; the counterexamples show that each exception is needed."
  },
  {
   "property": "C38",
   "status": "partial",
   "theorems": [
    "Optika.C38_sinusoidal_counterexample",
    "Optika.C38_square",
    "Optika.C38_rectangular",
    "Optika.C38_sawtooth_partial",
    "Optika.C38_sawtooth_range",
    "Optika.C38_triangular_range",
    "Optika.C38_sinusoidal_partial",
    "Optika.C38_zero_depth",
    "Optika.C38_zero_depth_partial",
    "Optika.C38_zero_depth_counterexample",
    "Optika.C38_duty_counterexample"
   ],
   "note": "Range and sum proved for square and rectangular rulings, for sawtooth rulings away from the blaze, range for triangular rulings. The efficiencies of sinusoidal rulings may be negative (C38_sinusoidal_counterexample); NaN at the blaze of a sawtooth (C55_sawtooth_counterexample), at zero depth (C38_zero_depth_counterexample) and for duty ratios 0 and 1 (C38_duty_counterexample)."
  },
  {
   "property": "C39",
   "status": "partial",
   "theorems": [
    "Optika.C39_square",
    "Optika.C39_square_rays",
    "Optika.C39_symmetric_partial",
    "Optika.C39_sinusoidal_partial",
    "Optika.C39_sinusoidal_counterexample"
   ],
   "note": "Square rulings are rectangular ones for all inputs; opposite orders agree for square, rectangular and triangular rulings but not for the odd orders of sinusoidal ones (C39_sinusoidal_counterexample)."
  },
  {
   "property": "C40",
   "status": "partial",
   "theorems": [
    "Optika.C40_partial",
    "Optika.C40_counterexample"
   ],
   "note": "Only for rays without component along the rulings, since the code subtracts a number from a vector (C40_counterexample)."
  },
  {
   "property": "C41",
   "status": "proved",
   "theorems": [
    "Optika.C41_tiles",
    "Optika.C41_flux",
    "Optika.C41_one_pixel",
    "Optika.C41_additive",
    "Optika.C41_vignetted"
   ],
   "note": ""
  },
  {
   "property": "C42",
   "status": "proved",
   "theorems": [
    "Optika.C42_ideal",
    "Optika.C42_ideal_range",
    "Optika.C42_empty",
    "Optika.C42_mean",
    "Optika.C42_between"
   ],
   "note": ""
  },
  {
   "property": "C43",
   "status": "partial",
   "theorems": [
    "Optika.C43_wrap",
    "Optika.C43_no_wrap",
    "Optika.C43_outside",
    "Optika.C43_local",
    "Optika.C43_collected_le",
    "Optika.C43_defined",
    "Optika.C43_no_axes_partial",
    "Optika.C43_no_axes_counterexample"
   ],
   "note": "Proved on a pixel grid; without axis_xy the documentation promises no charge diffusion, but electrons are lost (C43_no_axes_counterexample) unless the sensor is fully depleted."
  },
  {
   "property": "C44",
   "status": "proved",
   "theorems": [
    "Optika.C44_schedule"
   ],
   "note": ""
  },
  {
   "property": "C45",
   "status": "proved",
   "theorems": [
    "Optika.C45_low_energy",
    "Optika.C45_high_energy",
    "Optika.C45_collected_probability",
    "Optika.C45_collected_mean",
    "Optika.C45_depth_cdf",
    "Optika.C45_depth_range",
    "Optika.C45_depth_probability",
    "Optika.C45_pairs",
    "Optika.C45_pairs_probability",
    "Optika.C45_efficiency_range"
   ],
   "note": ""
  },
  {
   "property": "C46",
   "status": "proved",
   "theorems": [
    "Optika.C46_mean",
    "Optika.C46_decay",
    "Optika.C46_range",
    "Optika.C46_absorption",
    "Optika.C46_implant",
    "Optika.C46_backsurface",
    "Optika.C46_zero_counterexample"
   ],
   "note": "For positive absorption and implant thickness as stated; for zero absorption or implant thickness the result is NaN (C46_zero_counterexample)."
  },
  {
   "property": "C47",
   "status": "proved",
   "theorems": [
    "Optika.C47_mean",
    "Optika.C47_range",
    "Optika.C47_zero",
    "Optika.C47_zero_counterexample",
    "Optika.C47_simulation"
   ],
   "note": "For positive absorption as stated; NaN without absorption (C47_zero_counterexample)."
  },
  {
   "property": "C48",
   "status": "proved",
   "theorems": [
    "Optika.C48_positive",
    "Optika.C48_even",
    "Optika.C48_sum",
    "Optika.C48_simulation",
    "Optika.C48_capture",
    "Optika.C48_capture_range",
    "Optika.C48_capture_definition",
    "Optika.C48_kernel_pos",
    "Optika.C48_kernel_comm",
    "Optika.C48_kernel_even",
    "Optika.C48_kernel_sum",
    "Optika.C48_kernel_outer"
   ],
   "note": "Includes that the kernel is the distribution of the displacement in the simulation."
  },
  {
   "property": "C49",
   "status": "partial",
   "theorems": [
    "Optika.C49_vmr_partial",
    "Optika.C49_parts",
    "Optika.C49_nonneg",
    "Optika.C49_temperature_counterexample"
   ],
   "note": "Proved with the Fano factor of 300 K, which the code uses at every temperature (C49_temperature_counterexample), and with depths that are not limited by the substrate."
  },
  {
   "property": "C50",
   "status": "partial",
   "theorems": [
    "Optika.C50_ideal_direction",
    "Optika.C50_expose_then_invert",
    "Optika.C50_invert_then_expose",
    "Optika.C50_energy",
    "Optika.C50_collected",
    "Optika.C50_ideal",
    "Optika.C50_incident_absorbed",
    "Optika.C50_uncertainty_partial",
    "Optika.C50_uncertainty_variance",
    "Optika.C50_uncertainty_counterexample",
    "Optika.C50_ideal_uncertainty"
   ],
   "note": "The round trip is proved in both orders; images in units of energy come back in photons (C50_energy). The uncertainty is undefined for negative numbers of electrons (C50_uncertainty_counterexample)."
  },
  {
   "property": "C51",
   "status": "proved",
   "theorems": [
    "Optika.C51_probability_eqe",
    "Optika.C51_rough_film",
    "Optika.C51_exact",
    "Optika.C51_exact_energy",
    "Optika.C51_decay",
    "Optika.C51_absorbance",
    "Optika.C51_smooth",
    "Optika.C51_defined",
    "Optika.C51_eqe",
    "Optika.C51_material",
    "Optika.C51_efficiency",
    "Optika.C51_probability",
    "Optika.C51_probability_whole",
    "Optika.C51_probability_yield",
    "Optika.C51_probability_efficiency",
    "Optika.C51_incident"
   ],
   "note": "Absorbance against transmittance holds for every roughness; transmittance at most one only for smooth surfaces.  For opaque silicon the exact method agrees with the transmittance (C51_exact) and with energy conservation (C51_exact_energy)."
  },
  {
   "property": "C52",
   "status": "proved",
   "theorems": [
    "Optika.C52_surface",
    "Optika.C52_between",
    "Optika.C52_left",
    "Optika.C52_right",
    "Optika.C52_node",
    "Optika.C52_range",
    "Optika.C52_local",
    "Optika.C52_efficiency",
    "Optika.C52_passive",
    "Optika.C52_chemical_node",
    "Optika.C52_chemical_between",
    "Optika.C52_chemical_absorption",
    "Optika.C52_efficiency_between",
    "Optika.C52_efficiency_outside"
   ],
   "note": "For tables in weakly increasing order, since those of many materials list a wavelength twice. Interpolation in named_arrays is assumed to be numpy.interp."
  },
  {
   "property": "C53",
   "status": "partial",
   "theorems": [
    "Optika.C53_lossless",
    "Optika.C53_sellmeier",
    "Optika.C53_normal_dispersion",
    "Optika.C53_greater_than_one_partial",
    "Optika.C53_catalogue",
    "Optika.C53_infrared_counterexample",
    "Optika.C53_cemented_counterexample"
   ],
   "note": "Dispersion and range are proved; on the second of two cemented glasses the code uses the wrong wavelength (C53_cemented_counterexample), and below an infrared resonance there may be no index (C53_infrared_counterexample)."
  },
  {
   "property": "C54",
   "status": "partial",
   "theorems": [
    "Optika.C54_width_partial",
    "Optika.C54_sinusoidal_counterexample"
   ],
   "note": "The sinusoidal profile is narrower than its width (C54_sinusoidal_counterexample)."
  },
  {
   "property": "C55",
   "status": "partial",
   "theorems": [
    "Optika.C55_square",
    "Optika.C55_rectangular",
    "Optika.C55_sawtooth_partial",
    "Optika.C55_sawtooth_counterexample",
    "Optika.C55_sinusoidal_partial",
    "Optika.C55_triangular_counterexample"
   ],
   "note": "Proved for square and rectangular rulings, and for sawtooth rulings away from the blaze; sinusoidal rulings return a value whose square is the efficiency; triangular rulings disagree (C55_triangular_counterexample)."
  },
  {
   "property": "C56",
   "status": "partial",
   "theorems": [
    "Optika.C56_s",
    "Optika.C56_p_partial",
    "Optika.C56_p_counterexample"
   ],
   "note": "Proved for the polarization perpendicular to the plane of incidence, and for the other one if the cosine in the substrate is real; false for absorbing substrates at oblique incidence (C56_p_counterexample)."
  },
  {
   "property": "C57",
   "status": "partial",
   "theorems": [
    "Optika.C57_mean_partial",
    "Optika.C57_bias",
    "Optika.C57_bias_counterexample"
   ],
   "note": "Holds for depths that are not limited by the substrate; with the substrate of the simulation the mean is smaller (C57_bias, C57_bias_counterexample)."
  },
  {
   "property": "C58",
   "status": "partial",
   "theorems": [
    "Optika.C58_high_formula",
    "Optika.C58_pair_energy",
    "Optika.C58_between_energies",
    "Optika.C58_between_bounds",
    "Optika.C58_fano_high",
    "Optika.C58_low",
    "Optika.C58_distribution",
    "Optika.C58_yield_partial",
    "Optika.C58_fano_partial",
    "Optika.C58_high",
    "Optika.C58_high_simulation",
    "Optika.C58_between_counterexample",
    "Optika.C58_band_gap"
   ],
   "note": "That the probabilities are a distribution is proved for every energy and temperature; the moments agree at the energies and temperatures of the tables and above them, but not in between (C58_between_counterexample) nor below the first energy (C58_low)."
  },
  {
   "property": "C59",
   "status": "partial",
   "theorems": [
    "Optika.C59_possible_partial",
    "Optika.C59_below_gap_counterexample"
   ],
   "note": "Proved where the tables give a distribution; at energies for which the table is empty the simulation draws the largest number of pairs (C59_below_gap_counterexample)."
  },
  {
   "property": "C60",
   "status": "partial",
   "theorems": [
    "Optika.C60_upper",
    "Optika.C60_single_partial",
    "Optika.C60_counterexample"
   ],
   "note": "The formula is an upper bound for every distribution of pairs (C60_upper) and exact for one pair for each photon; it is too large for two (C60_counterexample)."
  },
  {
   "property": "C61",
   "status": "partial",
   "theorems": [
    "Optika.C61_fraction",
    "Optika.C61_moments",
    "Optika.C61_mean",
    "Optika.C61_rounding",
    "Optika.C61_no_fano",
    "Optika.C61_variance_partial",
    "Optika.C61_gamma",
    "Optika.C61_excess",
    "Optika.C61_variance_counterexample"
   ],
   "note": "The mean, the division by depth and the conditional moments are proved. The variance of the samples plus 1/6 for the rounding is that of the exact process for larger numbers of electrons. Exactly, the rounding adds the mean of f (1 - f) over the fractional parts, between 0 and 1/4 (C61_excess), so that the claim on the variance is false, for instance for all numbers of photons where all charges are collected (C61_variance_counterexample)."
  },
  {
   "property": "C62",
   "status": "partial",
   "theorems": [
    "Optika.C62_grating_equation_partial",
    "Optika.C62_zero_spacing",
    "Optika.C62_straight",
    "Optika.C62_constant",
    "Optika.C62_holographic_counterexample"
   ],
   "note": "The grating equation is proved for constant and polynomial spacings; the transformation of holographic rulings has no effect (C62_holographic_counterexample)."
  },
  {
   "property": "C63",
   "status": "partial",
   "theorems": [
    "Optika.C63_cell_area",
    "Optika.C63_sample_inside",
    "Optika.C63_pixel_partial",
    "Optika.C63_energy",
    "Optika.C63_linear",
    "Optika.C63_total_partial",
    "Optika.C63_tiling",
    "Optika.C63_descending_counterexample",
    "Optika.C63_vertices",
    "Optika.C63_silicon"
   ],
   "note": "Proved for ideal sensors, surfaces whose efficiency does not depend on the intensity, and increasing wavelengths; with decreasing wavelengths the image is negative (C63_descending_counterexample). Noise is not included; silicon is, up to the mean of the refracted cosines (C63_silicon)."
  },
  {
   "property": "C64",
   "status": "partial",
   "theorems": [
    "Optika.C64_spectral_partial",
    "Optika.C64_integrate_partial",
    "Optika.C64_energy_counterexample"
   ],
   "note": "Proved for light in units of photons and ideal sensors; false for light in units of energy (C64_energy_counterexample)."
  },
  {
   "property": "C65",
   "status": "partial",
   "theorems": [
    "Optika.C65_regular",
    "Optika.C65_regular_order",
    "Optika.C65_rectangle",
    "Optika.C65_trapezoid_partial",
    "Optika.C65_legs_partial",
    "Optika.C65_crossed_counterexample"
   ],
   "note": "Proved for regular polygons and rectangles, and for trapezoids except that the legs cross if the origin is between the bases (C65_crossed_counterexample)."
  },
  {
   "property": "C66",
   "status": "partial",
   "theorems": [
    "Optika.C66_exact",
    "Optika.C66_defined",
    "Optika.C66_least_squares",
    "Optika.C66_masked",
    "Optika.C66_inverse_partial",
    "Optika.C66_round_trip_partial",
    "Optika.C66_vignetting",
    "Optika.C66_vignetting_least_squares",
    "Optika.C66_masked_nan_counterexample"
   ],
   "note": "Proved for distort and vignetting, and for undistort if all calibration points, including those that are excluded, are finite; otherwise undistort is undefined everywhere (C66_masked_nan_counterexample). The fit of named_arrays is assumed to solve the normal equations."
  },
  {
   "property": "C67",
   "status": "partial",
   "theorems": [
    "Optika.C67_defaults_partial",
    "Optika.C67_given",
    "Optika.C67_flags_counterexample"
   ],
   "note": "Proved if at least one of the three is given or the coordinates are normalized; if none is given, the flags are ignored (C67_flags_counterexample)."
  },
  {
   "property": "C68",
   "status": "partial",
   "theorems": [
    "Optika.C68_object_partial",
    "Optika.C68_folded_partial",
    "Optika.C68_grating_counterexample",
    "Optika.C68_glass_counterexample",
    "Optika.C68_selection_partial",
    "Optika.C68_selection",
    "Optika.C68_several_counterexample",
    "Optika.C68_tolerance_object_partial",
    "Optika.C68_tolerance_folded_partial"
   ],
   "note": "Proved if the object is a plane and the first stop, for any surfaces between the stops, and if only flat surfaces and mirrors precede the first stop. The iteration is idealised: its result is an exact root. False for gratings (C68_grating_counterexample) and glass (C68_glass_counterexample) before the first stop; with several stops of one kind, the next one after the first stop is used instead of the last (C68_several_counterexample) (see also C22 for a surface that is a stop of both kinds)."
  },
  {
   "property": "C69",
   "status": "partial",
   "theorems": [
    "Optika.C69_reproduce_partial",
    "Optika.C69_extent",
    "Optika.C69_normalized",
    "Optika.C69_moved_object_counterexample",
    "Optika.C69_moved_system_counterexample",
    "Optika.C69_tolerance_partial"
   ],
   "note": "Proved for the extents and normalized coordinates, and that the rays are reproduced if the object is a plane and a stop and neither object nor system is moved. False for a moved object (C69_moved_object_counterexample) and a moved system (C69_moved_system_counterexample)."
  },
  {
   "property": "C70",
   "status": "partial",
   "theorems": [
    "Optika.C70_mirror_surface_partial",
    "Optika.C70_film_surface_partial",
    "Optika.C70_filter_surface_partial",
    "Optika.C70_s",
    "Optika.C70_p_partial",
    "Optika.C70_mirror_partial",
    "Optika.C70_film_partial",
    "Optika.C70_filter_partial"
   ],
   "note": "Proved for light polarized perpendicular to the plane of incidence, for any smooth layers that are not opaque; for light polarized in the plane of incidence if the cosines are real (normal incidence, or transparent layers below the critical angle). Otherwise false, see C56_p_counterexample. Rough interfaces are not included."
  },
  {
   "property": "C71",
   "status": "proved",
   "theorems": [
    "Optika.C71_monotone",
    "Optika.C71_unimodal",
    "Optika.C71_recover"
   ],
   "note": "The minimizer of scipy is idealised: it returns a minimum, or fails."
  },
  {
   "property": "C72",
   "status": "partial",
   "theorems": [
    "Optika.C72_outlines",
    "Optika.C72_rays",
    "Optika.C72_touch",
    "Optika.C72_style_partial",
    "Optika.C72_style_counterexample"
   ],
   "note": "The polylines are proved; keyword arguments of a call do not take precedence over kwargs_plot of the surface and the system (C72_style_counterexample)."
  },
  {
   "property": "C73",
   "status": "partial",
   "theorems": [
    "Optika.C73_order",
    "Optika.C73_rigid",
    "Optika.C73_motions",
    "Optika.C73_origin_partial",
    "Optika.C73_origin_counterexample"
   ],
   "note": "The origin lies at the translation only if Translatable is the last of the mixins in the order of resolution (C73_origin_counterexample)."
  },
  {
   "property": "C74",
   "status": "partial",
   "theorems": [
    "Optika.C74_history_partial",
    "Optika.C74_explicit",
    "Optika.C74_clear_both_partial",
    "Optika.C74_assign_first",
    "Optika.C74_delete_counterexample",
    "Optika.C74_default_grid"
   ],
   "note": "Proved for histories without assignments, and for calls with an explicit grid; the documented way to clear the cache does not work, since the private cached input stays (C74_delete_counterexample)."
  },
  {
   "property": "C75",
   "status": "partial",
   "theorems": [
    "Optika.C75_recognized",
    "Optika.C75_inferred",
    "Optika.C75_call_partial",
    "Optika.C75_remaining",
    "Optika.C75_attributes_counterexample"
   ],
   "note": "Recognition is proved for the default grid and for grids given in a call; axes given as attributes are ignored as soon as one coordinate is given in the call, so that a grid is refused although they were named (C75_attributes_counterexample)."
  },
  {
   "property": "C76",
   "status": "partial",
   "theorems": [
    "Optika.C76_characters",
    "Optika.C76_first",
    "Optika.C76_subscripts_partial",
    "Optika.C76_rest",
    "Optika.C76_subscripts_counterexample"
   ],
   "note": "The characters are proved for every formula and the subscripts for numbers of one digit; of a longer number only the first digit is a subscript (C76_subscripts_counterexample)."
  },
  {
   "property": "C77",
   "status": "proved",
   "theorems": [
    "Optika.C77_files",
    "Optika.C77_read",
    "Optika.C77_index",
    "Optika.C77_name"
   ],
   "note": "For formulas and table names without underscore and not beginning with a-."
  },
  {
   "property": "C78",
   "status": "partial",
   "theorems": [
    "Optika.C78_parameters",
    "Optika.C78_improves_partial",
    "Optika.C78_best_partial",
    "Optika.C78_oxide_counterexample"
   ],
   "note": "Proved if the table of the oxide in the fit is the one of the sensor; the code uses two different tables, so that the sensor which is returned does not have the fitted efficiency (C78_oxide_counterexample). The minimizer of scipy is idealised: it stays within the bounds and is not worse than its guess."
  },
  {
   "property": "C79",
   "status": "partial",
   "theorems": [
    "Optika.C79_affine",
    "Optika.C79_move",
    "Optika.C79_inverse",
    "Optika.C79_shift_partial",
    "Optika.C79_right",
    "Optika.C79_product",
    "Optika.C79_refused",
    "Optika.C79_subtract_counterexample"
   ],
   "note": "Proved for products and sums; the difference of rays and a vector is None (C79_subtract_counterexample). That vectors and matrices of named_arrays refuse rays as operand, so that the methods of the rays are called, is assumed."
  },
  {
   "property": "C80",
   "status": "proved",
   "theorems": [
    "Optika.C80_reciprocity",
    "Optika.C80_reflection",
    "Optika.C80_film"
   ],
   "note": "For smooth interfaces between the layers; the factor of a rough interface depends on the medium on its left only."
  },
  {
   "property": "C81",
   "status": "proved",
   "theorems": [
    "Optika.C81_quarter",
    "Optika.C81_antireflection",
    "Optika.C81_bragg",
    "Optika.C81_bragg_limit",
    "Optika.C81_half"
   ],
   "note": "For smooth interfaces; C81_half supposes that no other layer is so opaque that the code ignores what lies behind it."
  },
  {
   "property": "C82",
   "status": "proved",
   "theorems": [
    "Optika.C82_mirror",
    "Optika.C82_refraction",
    "Optika.C82_collimation",
    "Optika.C82_mirror_exists",
    "Optika.C82_telescope",
    "Optika.C82_lens"
   ],
   "note": "For the rays whose intercept the code selects correctly, that is under the guard of C08."
  },
  {
   "property": "C83",
   "status": "proved",
   "theorems": [
    "Optika.C83_plates",
    "Optika.C83_window",
    "Optika.C83_exists"
   ],
   "note": "The media are given by real indices; the intercepts with the planes are those the code computes."
  },
  {
   "property": "C84",
   "status": "partial",
   "theorems": [
    "Optika.C84_broadcast",
    "Optika.C84_unique",
    "Optika.C84_layers",
    "Optika.C84_sag_partial",
    "Optika.C84_aperture",
    "Optika.C84_rulings_partial",
    "Optika.C84_material_partial",
    "Optika.C84_surface_partial",
    "Optika.C84_system_partial",
    "Optika.C84_flat_counterexample",
    "Optika.C84_polynomial_counterexample",
    "Optika.C84_holographic_counterexample",
    "Optika.C84_silicon_counterexample",
    "Optika.C84_sensor_counterexample",
    "Optika.C84_system_counterexample"
   ],
   "note": "Proved for all objects but those whose shape leaves out a field: flat sags with a transformation that has axes, coefficients of polynomial spacings, wavelengths of holograms, all parameters of silicon and the material of a sensor (counterexamples). broadcast_shapes of named_arrays is modelled as documented."
  },
  {
   "property": "C85",
   "status": "partial",
   "theorems": [
    "Optika.C85_flat",
    "Optika.C85_sphere",
    "Optika.C85_parabola",
    "Optika.C85_cylinder",
    "Optika.C85_transformed",
    "Optika.C85_conic_counterexample",
    "Optika.C85_conic_partial",
    "Optika.C85_solved_partial"
   ],
   "note": "Proved for planes, spheres, cylinders and paraboloids (outside of the rays that the code wrongly takes to be parallel to the axis, C08), with any transformation. False of conic surfaces, where the code takes the nearer of two points (counterexample); proved there for lines that meet the surface once, and for iterated sags for lines steeper than the surface."
  },
  {
   "property": "C86",
   "status": "partial",
   "theorems": [
    "Optika.C86_system_partial",
    "Optika.C86_plane",
    "Optika.C86_sphere",
    "Optika.C86_parabola",
    "Optika.C86_cylinder",
    "Optika.C86_conic_partial",
    "Optika.C86_plane_grating",
    "Optika.C86_order_counterexample",
    "Optika.C86_glass_grating_counterexample"
   ],
   "note": "Proved for any number of surfaces whose intercepts depend only on the line and are not grazing; planes, spheres, paraboloids and cylinders are shown to be such, and conic surfaces for lines that meet them once. Rulings are included if the index is the same on both sides; the code counts orders from the side of the incident light, so that a transmission grating has to be passed backwards in the opposite order (C86_order_counterexample). False for rulings between media of different index, since the code multiplies the wavelength by the index (C86_glass_grating_counterexample, C17), and not included for lines that meet a conic surface twice, of which C85 is false."
  },
  {
   "property": "C87",
   "status": "proved",
   "theorems": [
    "Optika.C87_center_refraction",
    "Optika.C87_center_reflection",
    "Optika.C87_aplanatic"
   ],
   "note": "For all unit rays that meet the sphere; surfaces without rulings or aperture limits."
  },
  {
   "property": "C88",
   "status": "proved",
   "theorems": [
    "Optika.C88_refraction",
    "Optika.C88_reflection",
    "Optika.C88_focus_refraction",
    "Optika.C88_focus_reflection",
    "Optika.C88_focus_unique"
   ],
   "note": "Exact crossings and their limits, for refraction and reflection; the crossing is unique for rays off the axis."
  },
  {
   "property": "C89",
   "status": "partial",
   "theorems": [
    "Optika.C89_surface",
    "Optika.C89_system",
    "Optika.C89_flat",
    "Optika.C89_sphere",
    "Optika.C89_parabola",
    "Optika.C89_cylinder",
    "Optika.C89_transformed",
    "Optika.C89_flat_transformed",
    "Optika.C89_torus",
    "Optika.C89_conic_partial",
    "Optika.C89_conic_counterexample",
    "Optika.C89_circle",
    "Optika.C89_sector",
    "Optika.C89_ellipse",
    "Optika.C89_rectangle",
    "Optika.C89_polygon",
    "Optika.C89_direction_aperture",
    "Optika.C89_constant_rulings",
    "Optika.C89_polynomial_rulings",
    "Optika.C89_holographic_rulings",
    "Optika.C89_vacuum",
    "Optika.C89_mirror",
    "Optika.C89_glass",
    "Optika.C89_multilayer",
    "Optika.C89_multilayer_materials"
   ],
   "note": "Proved for any number of surfaces made of planes, spheres, paraboloids and cylinders with any frames, all masks, rulings and materials of the model. False of conic surfaces: the intercept compares a reciprocal length with 1e-12 in whatever unit the radius has (counterexample); proved there if both units agree on that comparison. Tori: height and normal only, as their intercept is iterative."
  },
  {
   "property": "C90",
   "status": "partial",
   "theorems": [
    "Optika.C90_zero",
    "Optika.C90_add",
    "Optika.C90_pow",
    "Optika.C90_det",
    "Optika.C90_layer_partial",
    "Optika.C90_layer_normal_partial",
    "Optika.C90_total_reflection_counterexample",
    "Optika.C90_absorbing_counterexample"
   ],
   "note": "Composition, slices, determinant and inverse proved for all indices. Agreement with the layers proved for real indices without total reflection and for any index at normal incidence. It fails for absorbing slabs at oblique incidence, because the slab refracts with the real part of the index, and beyond the critical angle, where the slab has no matrix (counterexamples)."
  },
  {
   "property": "C91",
   "status": "proved",
   "theorems": [
    "Optika.C91_train",
    "Optika.C91_image",
    "Optika.C91_isometry",
    "Optika.C91_angles",
    "Optika.C91_parity",
    "Optika.C91_two_mirrors",
    "Optika.C91_corner_cube"
   ],
   "note": "For any number of plane mirrors with unit rays; the mirrors may have apertures and coatings but no rulings."
  },
  {
   "property": "C92",
   "status": "partial",
   "theorems": [
    "Optika.C92_shape",
    "Optika.C92_centered_partial",
    "Optika.C92_translation",
    "Optika.C92_vignetted_counterexample",
    "Optika.C92_missing_counterexample"
   ],
   "note": "The shape is kept, and the points are centered if no ray is vignetted. Vignetted rays take part in the mean, and one that misses a surface empties the diagram of its wavelength (counterexamples)."
  },
  {
   "property": "C93",
   "status": "partial",
   "theorems": [
    "Optika.C93_total_partial",
    "Optika.C93_uniform_partial",
    "Optika.C93_finite_counterexample"
   ],
   "note": "Proved for objects at infinity, for all cells and draws. For objects at a finite distance area_effective weighs the rays with the product of two angles, not with the solid angle that image uses and that its documentation promises (C93_finite_counterexample)."
  },
  {
   "property": "C94",
   "status": "partial",
   "theorems": [
    "Optika.C94_scale",
    "Optika.C94_add_partial",
    "Optika.C94_strict",
    "Optika.C94_add_counterexample"
   ],
   "note": "Homogeneity is proved for all sensors of silicon. The sum is an upper bound, and is reached if all light in the pixel is refracted alike. It is not reached otherwise, because the signal is computed for the mean direction of the light in the pixel and the charge collection efficiency is strictly convex in the absorption (C94_strict, C94_add_counterexample)."
  },
  {
   "property": "C95",
   "status": "proved",
   "theorems": [
    "Optika.C95_equation",
    "Optika.C95_littrow",
    "Optika.C95_pair",
    "Optika.C95_dispersion",
    "Optika.C95_exists",
    "Optika.C95_angular"
   ],
   "note": "For mirrors and surfaces in vacuum, at any place and orientation and with any aperture; existence is stated without an aperture. The rate of change and the Littrow condition are for light in the plane across the rulings."
  },
  {
   "property": "C96",
   "status": "proved",
   "theorems": [
    "Optika.C96_layout",
    "Optika.C96_prefix",
    "Optika.C96_determined"
   ],
   "note": "Texts of values that are neither lists nor printable objects are taken as given; for the last claim they have to be on one line and different from the text of an object without fields."
  },
  {
   "property": "C97",
   "status": "proved",
   "theorems": [
    "Optika.C97_system",
    "Optika.C97_flat_normal",
    "Optika.C97_conic_normal",
    "Optika.C97_sphere_normal",
    "Optika.C97_parabola_normal",
    "Optika.C97_cylinder_normal"
   ],
   "note": "For surfaces that are struck in forward direction and not along the surface, whose normal is perpendicular to it; that is shown for planes, spheres, conic surfaces, paraboloids and cylinders. Rulings have to be perpendicular to the surface."
  },
  {
   "property": "C98",
   "status": "proved",
   "theorems": [
    "Optika.C98_surface",
    "Optika.C98_train",
    "Optika.C98_lagrange",
    "Optika.C98_refraction",
    "Optika.C98_mirror",
    "Optika.C98_focus",
    "Optika.C98_lens",
    "Optika.C98_flat",
    "Optika.C98_sphere",
    "Optika.C98_parabola",
    "Optika.C98_conic"
   ],
   "note": "For surfaces without rulings, displaced along the axis only. A ConicSag whose conic constant is the one of a paraboloid is excluded: it loses such rays (C08_conic_vertex_counterexample)."
  },
  {
   "property": "C99",
   "status": "proved",
   "theorems": [
    "Optika.C99_length",
    "Optika.C99_malus",
    "Optika.C99_converse",
    "Optika.C99_image",
    "Optika.C99_cosine",
    "Optika.C99_abbe"
   ],
   "note": "For beams whose points on the surfaces move smoothly and that run forward between the surfaces and to the points behind them, under the conditions of C97 on the surfaces."
  },
  {
   "property": "C100",
   "status": "proved",
   "theorems": [
    "Optika.C100_surface",
    "Optika.C100_system",
    "Optika.C100_flat",
    "Optika.C100_sphere",
    "Optika.C100_conic",
    "Optika.C100_parabola",
    "Optika.C100_cylinder",
    "Optika.C100_torus",
    "Optika.C100_helmholtz",
    "Optika.C100_grating",
    "Optika.C100_clear"
   ],
   "note": "For curves of rays whose points and directions move smoothly, that run along their lines to points of the surfaces (C08) and strike them at an angle."
  },
  {
   "property": "C101",
   "status": "proved",
   "theorems": [
    "Optika.C101_tangential_varied",
    "Optika.C101_sagittal",
    "Optika.C101_tangential",
    "Optika.C101_mirror_tangential",
    "Optika.C101_mirror_sagittal",
    "Optika.C101_ideal_rulings",
    "Optika.C101_varied_line_spacing",
    "Optika.C101_flat",
    "Optika.C101_sphere",
    "Optika.C101_conic",
    "Optika.C101_parabola",
    "Optika.C101_cylinder",
    "Optika.C101_torus",
    "Optika.C101_rowland"
   ],
   "note": "For fans whose points and directions move smoothly, that run along their lines to points of the surface (C08) and are neither incident nor diffracted along it. The curvature of a torus is stated on its circle y = 0."
  },
  {
   "property": "C102",
   "status": "proved",
   "theorems": [
    "Optika.C102_anchor",
    "Optika.C102_aim",
    "Optika.C102_aim_infinity",
    "Optika.C102_direct",
    "Optika.C102_direct_infinity",
    "Optika.C102_object_at_infinity"
   ],
   "note": "For first stops that are moved but not turned (the code assigns the component that is solved for to rays that are transformed already, C68), and flat and in the plane z = 0 if they are given as directions; the last stop is flat. The solver is one that stays at a root."
  },
  {
   "property": "C103",
   "status": "proved",
   "theorems": [
    "Optika.C103_symmetry",
    "Optika.C103_sags",
    "Optika.C103_meridional",
    "Optika.C103_orders",
    "Optika.C103_centroid",
    "Optika.C103_revolution",
    "Optika.C103_axis",
    "Optika.C103_skew",
    "Optika.C103_materials",
    "Optika.C103_apertures"
   ],
   "note": "For every isometry of the system (C103_symmetry), with the rotations about an axis and the reflections in two planes as instances. The iteration that finds the intercept of a torus is a function of the distance along the ray. Materials may not look at directions in the system, which holds for vacuum, mirrors and glass; rulings have constant spacing in the instances."
  },
  {
   "property": "C104",
   "status": "partial",
   "theorems": [
    "Optika.C104_surface",
    "Optika.C104_system",
    "Optika.C104_continuous",
    "Optika.C104_flat",
    "Optika.C104_sphere",
    "Optika.C104_parabola_partial",
    "Optika.C104_cylinder",
    "Optika.C104_conic_partial",
    "Optika.C104_conic_counterexample",
    "Optika.C104_materials",
    "Optika.C104_rulings"
   ],
   "note": "Proved for planes, spheres and cylinders, and with extra conditions for paraboloids (rays that the code takes to be parallel to the axis are not on the surface, C08) and conic surfaces. False of conic surfaces if the line meets the surface twice at the same distance: the point jumps (C104_conic_counterexample). Tori and sags whose intercept is iterated are left out. Materials are vacuum, mirrors and glass, or others whose index depends on the wavelength and medium only; apertures do not matter, as clipped rays are traced on."
  },
  {
   "property": "C105",
   "status": "proved",
   "theorems": [
    "Optika.C105_zone",
    "Optika.C105_sine",
    "Optika.C105_abbe",
    "Optika.C105_herschel"
   ],
   "note": "The rays of all zones pass the surfaces at an angle, as in C104, and the media have positive index. Proved from the etendue of C100."
  },
  {
   "property": "C106",
   "status": "proved",
   "theorems": [
    "Optika.C106_moments",
    "Optika.C106_convergence"
   ],
   "note": "The draws of named_arrays are taken to be independent and uniform, and what is detected to be a measurable function of the draws. The noise of the sensor is not included. The mean is the one over the coordinates of the cell, in which the flux of a cell is spread evenly."
  },
  {
   "property": "C107",
   "status": "proved",
   "theorems": [
    "Optika.C107_exists",
    "Optika.C107_target",
    "Optika.C107_range"
   ],
   "note": "The drawing of the chart by pymupdf, its size included, and the temporary file are not modelled: the picture that is read is the argument."
  },
  {
   "property": "C108",
   "status": "proved",
   "theorems": [
    "Optika.C108_achromatic",
    "Optika.C108_mirror",
    "Optika.C108_rulings",
    "Optika.C108_angle",
    "Optika.C108_glass"
   ],
   "note": "For rays that reach the last surface in both wavelengths. The angular dispersion is stated for rulings whose normal is tangential to the surface at the point, and where the index behind the surface does not depend on the wavelength."
  },
  {
   "property": "C109",
   "status": "proved",
   "theorems": [
    "Optika.C109_girard",
    "Optika.C109_orientation",
    "Optika.C109_split",
    "Optika.C109_positive",
    "Optika.C109_column",
    "Optika.C109_limit",
    "Optika.C109_octant"
   ],
   "note": "The solid angle of a cell is computed by named_arrays and taken to be the formula of van Oosterom and Strackee for its two triangles, which these theorems justify. The weights of the cells enter the counts of an image in C63 and C93."
  },
  {
   "property": "C110",
   "status": "proved",
   "theorems": [
    "Optika.C110_path",
    "Optika.C110_straight"
   ],
   "note": "For rays that come out of both systems as finite rays."
  },
  {
   "property": "C111",
   "status": "proved",
   "theorems": [
    "Optika.C111_surface",
    "Optika.C111_electrons",
    "Optika.C111_incident"
   ],
   "note": "For pixels in which some light is absorbed, in units of photons. Beams of several directions in one pixel give fewer electrons than each alone: C94_add_counterexample."
  },
  {
   "property": "C112",
   "status": "partial",
   "theorems": [
    "Optika.C112_vertex_counterexample",
    "Optika.C112_area",
    "Optika.C112_image",
    "Optika.C112_centroid",
    "Optika.C112_system_partial",
    "Optika.C112_vignetting",
    "Optika.C112_exact",
    "Optika.C112_circle",
    "Optika.C112_ellipse",
    "Optika.C112_rectangle"
   ],
   "note": "C112_system_partial needs that every surface is struck well (Element.Clear): no decision of the code lies on its boundary. Without it the claim is false: AbstractConicSag.intercept tests the sheet without tolerance, and a ray along the axis of a sphere of radius 3 written as a conic is lost in double precision with any rounding to nearest (C112_vertex_counterexample). The flag for vignetting is right for circular, elliptical and rectangular apertures away from their edges (C112_vignetting, C112_circle, C112_ellipse, C112_rectangle), and for others if a formula for them is given (Window). Effective areas, pixels that no ray strikes on an edge, and the centroids of distortion, added up in any order, then also converge (C112_area, C112_image, C112_centroid). Overflow and underflow and toroids are not covered."
  },
  {
   "property": "C113",
   "status": "partial",
   "theorems": [
    "Optika.C113_conic_rounding_counterexample",
    "Optika.C113_finite",
    "Optika.C113_conic",
    "Optika.C113_cylinder",
    "Optika.C113_torus",
    "Optika.C113_sphere_counterexample",
    "Optika.C113_parabola_counterexample",
    "Optika.C113_torus_counterexample"
   ],
   "note": "True for conics and cylinders in exact arithmetic and for tori of infinite minor radius. False for spheres and paraboloids, the default of which returns no finite point for any ray, and for tori of infinite radius of rotation (C113_sphere_counterexample, C113_parabola_counterexample, C113_torus_counterexample); in double precision also for conics, which lose rays (C113_conic_rounding_counterexample)."
  },
  {
   "property": "C114",
   "status": "partial",
   "theorems": [
    "Optika.C114_complete",
    "Optika.C114_arrives",
    "Optika.C114_finite",
    "Optika.C114_area",
    "Optika.C114_mean",
    "Optika.C114_fraction",
    "Optika.C114_image",
    "Optika.C114_no_aperture_counterexample",
    "Optika.C114_obscuration_counterexample",
    "Optika.C114_fallback_counterexample",
    "Optika.C114_vignetted_image_counterexample"
   ],
   "note": "Proved for sensors with an active aperture that is not inverted, which imaging sensors have. Without an aperture behind the surface that is missed, or with an obscuration, lost rays count as unvignetted (C114_no_aperture_counterexample, C114_obscuration_counterexample); field points all rays of which are vignetted have a mean position that is not finite if one of the rays is lost (C114_fallback_counterexample), although the code means to prevent it. Images also need that every surface has an efficiency for every ray (C114_vignetted_image_counterexample)."
  },
  {
   "property": "C115",
   "status": "partial",
   "theorems": [
    "Optika.C115_distortion",
    "Optika.C115_defined",
    "Optika.C115_least_squares",
    "Optika.C115_vignetting",
    "Optika.C115_undistort_counterexample"
   ],
   "note": "Proved for the mapping from the scene to the sensor and for vignetting. The mapping back is not finite anywhere if a ray of a field point from which no ray arrives is lost, though the field point is excluded (C115_undistort_counterexample)."
  },
  {
   "property": "C116",
   "status": "partial",
   "theorems": [
    "Optika.C116_shown",
    "Optika.C116_range",
    "Optika.C116_range_defined",
    "Optika.C116_exact",
    "Optika.C116_least_squares",
    "Optika.C116_correction",
    "Optika.C116_dark",
    "Optika.C116_vignetting_partial",
    "Optika.C116_vignetting_excluded_counterexample"
   ],
   "note": "Proved for distortion models, and for vignetting models that use all points. The picture for vignetting models also shows the points that the fit does not use, and they set the range of the colours (C116_vignetting_excluded_counterexample)."
  },
  {
   "property": "C117",
   "status": "partial",
   "theorems": [
    "Optika.C117_order",
    "Optika.C117_stacked_partial",
    "Optika.C117_brace_partial",
    "Optika.C117_label_partial",
    "Optika.C117_substrate",
    "Optika.C117_nested_counterexample",
    "Optika.C117_brace_counterexample",
    "Optika.C117_label_counterexample"
   ],
   "note": "Order and heights are proved for all stacks. That there are no gaps, and that the brace fits, is proved unless a periodic sequence is nested deeper than in the outermost list, and fails there (C117_nested_counterexample, C117_brace_counterexample). Labels are proved for pictures that start at zero; elsewhere the arrow may miss the layer (C117_label_counterexample)."
  },
  {
   "property": "C118",
   "status": "partial",
   "theorems": [
    "Optika.C118_calls",
    "Optika.C118_same",
    "Optika.C118_efficiency",
    "Optika.C118_ccd97_measured",
    "Optika.C118_ccd203_measured",
    "Optika.C118_fit_partial",
    "Optika.C118_diffusion_iff",
    "Optika.C118_ccd203_diffusion",
    "Optika.C118_deep_counterexample"
   ],
   "note": "Temperatures, thicknesses and measurements are proved. That the fit is not worse than its guess needs, as C78, that the two names of the oxide mean the same index. The width of the charge diffusion is proved to be finite for the CCD203; for the other two it is proved to be finite if and only if the depletion region, which is fitted to another detector within a thicker substrate, is not deeper than the substrate, which the code does not ensure (C118_deep_counterexample)."
  },
  {
   "property": "C119",
   "status": "proved",
   "theorems": [
    "Optika.C119_rowland",
    "Optika.C119_placed",
    "Optika.C119_only"
   ],
   "note": "For rays in the plane across the rulings. C119_placed is for any place, orientation and aperture; C119_only, that there is no other focus, is in the coordinates of the grating."
  },
  {
   "property": "C120",
   "status": "proved",
   "theorems": [
    "Optika.C120_focus",
    "Optika.C120_equidistant"
   ],
   "note": "For real sources and images and rays in the plane across the rulings, in the coordinates of the grating (C16 moves it elsewhere), without aperture and without a transformation of the rulings."
  },
  {
   "property": "C121",
   "status": "proved",
   "theorems": [
    "Optika.C121_focus",
    "Optika.C121_rowland",
    "Optika.C121_mirror"
   ],
   "note": "For real sources and images, concave gratings and rays in the plane across the rulings, in the coordinates of the grating (C16 moves it elsewhere), without aperture and without a transformation of the rulings."
  }
 ]
}