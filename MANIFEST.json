{
 "claims": [
  {
   "property": "C01",
   "status": "proved",
   "theorems": [
    "C01_inside",
    "C01_unique",
    "C01_once"
   ],
   "note": "All image sizes and tile sizes; partition of the pixels and the exactly-once order of visits."
  },
  {
   "property": "C02",
   "status": "proved",
   "theorems": [
    "C02_capacity",
    "C02_capacity_exact",
    "C02_no_deadlock",
    "C02_bounded",
    "C02_maximal"
   ],
   "note": "Queue capacity, absence of waiting, explicit bound on every schedule, maximal schedules are finished or crashed. Holds for every number type and image function."
  },
  {
   "property": "C03",
   "status": "proved",
   "theorems": [
    "C03_result",
    "C03_schedule_independent",
    "C03_race_free",
    "C03_touches",
    "C03_no_crash",
    "C03_every_pass",
    "C03_random_safe"
   ],
   "note": "All schedules of any number of workers at the granularity of single accumulator reads and writes; race freedom. C03_result is for deterministic image functions (see C58 for when the code satisfies it); C03_every_pass and C03_random_safe for all others."
  },
  {
   "property": "C04",
   "status": "proved",
   "theorems": [
    "C04_compose",
    "C04_count",
    "C04_pixel"
   ],
   "note": "For all schedules (deterministic image function) and, per pixel, for every image function."
  },
  {
   "property": "C05",
   "status": "partial",
   "theorems": [
    "C05_mean_partial",
    "C05_nan_partial",
    "C05_violated",
    "C05_empty"
   ],
   "note": "The code counts NaN samples (C05_violated). Proved: mean without NaN, exact value with NaN. Exact arithmetic; in double precision see C98."
  },
  {
   "property": "C06",
   "status": "proved",
   "theorems": [
    "C06_variance",
    "C06_nonneg",
    "C06_zero",
    "C06_single"
   ],
   "note": "Exact arithmetic; in double precision see C98. For one sample the code reports NaN (C06_single)."
  },
  {
   "property": "C07",
   "status": "partial",
   "theorems": [
    "C07_affine",
    "C07_rejects",
    "C07_centre",
    "C07_pitch",
    "C07_inside_partial",
    "C07_violated"
   ],
   "note": "Affine map, rejection, centre, pitch, injectivity proved; strictly inside the unit square only for landscape and square images, violated for portrait (C07_violated)."
  },
  {
   "property": "C08",
   "status": "partial",
   "theorems": [
    "C08_violated_constant",
    "C08_violated_footprint",
    "C08_footprint_partial"
   ],
   "note": "Violated: the AA sequence is never initialised (C08_violated_constant) and the footprint is exceeded for wide images. Proved: footprint bound for images at least as high as wide."
  },
  {
   "property": "C09",
   "status": "proved",
   "theorems": [
    "C09_double",
    "C09_value",
    "C09_terminates",
    "C09_range",
    "C09_equidistributed",
    "C09_injective",
    "C09_base_one"
   ],
   "note": "Exact arithmetic; C09_double: in double precision up to a relative error of 2^-45, for indices and bases below 2^53."
  },
  {
   "property": "C10",
   "status": "proved",
   "theorems": [
    "C10_double",
    "C10_range",
    "C10_value",
    "C10_pure",
    "C10_init",
    "C10_ctx_init",
    "C10_repeated"
   ],
   "note": "Range in exact arithmetic and (C10_double) in double precision for indices and bases below 2^53; purity for every number type."
  },
  {
   "property": "C11",
   "status": "proved",
   "theorems": [
    "C11_fresh",
    "C11_zeroed",
    "C11_undisturbed",
    "C11_scene",
    "C11_all_returned"
   ],
   "note": "All histories, every number type."
  },
  {
   "property": "C12",
   "status": "partial",
   "theorems": [
    "C12_stops",
    "C12_limit_black",
    "C12_restores",
    "C12_nested_depth",
    "C12_violated_negative"
   ],
   "note": "C12_stops: for every scene, material, ray and random source, evaluation from depth d <= limit never nests deeper than limit - d (whatever stands in for deeper evaluations is never consulted). C12_limit_black, C12_restores, C12_nested_depth. Disagreement: C12_violated_negative, a negative limit is never met and evaluation never ends."
  },
  {
   "property": "C13",
   "status": "proved",
   "theorems": [
    "C13_nearest",
    "C13_shaded",
    "C13_nothing",
    "C13_unit_normal"
   ],
   "note": "C13_nearest characterises the picked record for all object lists, including NaN, infinite and tied distances, under float comparison laws. C13_shaded and C13_nothing connect it to the light field."
  },
  {
   "property": "C14",
   "status": "partial",
   "theorems": [
    "C14_blocked",
    "C14_attenuated",
    "C14_behind",
    "C14_order",
    "C14_violated_composite"
   ],
   "note": "C14_blocked, C14_attenuated, C14_behind, C14_order for all object lists in terms of the record each object reports. Disagreement: C14_violated_composite, an opaque part of a composite object (Tree) behind a transparent part does not block the light."
  },
  {
   "property": "C15",
   "status": "proved",
   "theorems": [
    "C15_ray_unchanged"
   ],
   "note": "Structural induction over all object constructors; holds for every arithmetic."
  },
  {
   "property": "C16",
   "status": "proved",
   "theorems": [
    "C16_and",
    "C16_or",
    "C16_not",
    "C16_difference",
    "C16_restrict_hollow_wrappers",
    "C16_boolean",
    "C16_laws",
    "C16_de_morgan"
   ],
   "note": "Inside of any CSG tree equals the Boolean expression over its atoms; De Morgan as an instance."
  },
  {
   "property": "C17",
   "status": "partial",
   "theorems": [
    "C17_and_sound",
    "C17_or_sound",
    "C17_restrict_sound",
    "C17_and_first_partial",
    "C17_or_first_partial",
    "C17_not_first",
    "C17_restrict_first_partial",
    "C17_box_profile",
    "C17_sphere_profile",
    "C17_violated_limit"
   ],
   "note": "Exact arithmetic. Soundness: C17_and_sound, C17_or_sound, C17_restrict_sound for arbitrary operands. First crossing for separated crossings, at most 100 per operand, composable to any CSG tree: C17_and_first_partial, C17_or_first_partial, C17_not_first, C17_restrict_first_partial, with boxes and spheres as leaves (C17_box_profile, C17_sphere_profile). Beyond 100 crossings the program misses surfaces (C17_violated_limit). Missing: rounding errors."
  },
  {
   "property": "C18",
   "status": "partial",
   "theorems": [
    "C18_float_partial",
    "C18_exact_partial",
    "C18_violated_float32"
   ],
   "note": "C18_exact_partial: every composition of constructors with invertible transforms, exact arithmetic. C18_float_partial: any float arithmetic, compositions without transforms and with tree members whose bounds are single-precision representable. Missing: rounding in transforms; false for trees in single precision: C18_violated_float32."
  },
  {
   "property": "C19",
   "status": "partial",
   "theorems": [
    "C19_test_partial",
    "C19_off_surface",
    "C19_distance",
    "C19_box_object",
    "C19_unbounded",
    "C19_violated_face",
    "C19_violated_in_face"
   ],
   "note": "Extended numbers (signed zeros, infinities, NaN, exact finite arithmetic), every proper finite box, every start, every non-zero direction including zero components, except rays running in the plane of a face. C19_test_partial: exact characterisation of the test (misses precisely the rays that enter at their start). C19_off_surface: from a start off the surface the test is exact. C19_distance, C19_box_object: the distance is on the surface, first point from outside, last point from inside; outward face normal, no panic. C19_unbounded: boxes with infinite sides are never missed. C19_violated_face and C19_violated_in_face: the property as stated is false of the code on faces (start on a face entering is a miss; NaN for rays in a face plane). Rounding: C91."
  },
  {
   "property": "C20",
   "status": "proved",
   "theorems": [
    "C20_hull",
    "C20_empty",
    "C20_nan"
   ],
   "note": "C20_hull: for every non-empty list of non-NaN points the hull box contains every point and lies within every box containing them all, under the comparison laws of Go floats (CmpModel). C20_empty: the empty hull panics. C20_nan: exactly what happens with NaN coordinates."
  },
  {
   "property": "C21",
   "status": "partial",
   "theorems": [
    "C21_inside",
    "C21_nearest_partial",
    "C21_exact_partial",
    "C21_boxes_partial",
    "C21_none_partial",
    "C21_violated_phantom",
    "C21_violated_triangle"
   ],
   "note": "C21_inside: full, any arithmetic. C21_nearest_partial: a tree reports the nearest member hit or a miss, any arithmetic with Go comparisons, provided the tree's boxes pass the box test when a member below is hit and the tree has more than 7 members or some member is hit. C21_exact_partial and C21_boxes_partial discharge the box condition in exact arithmetic, for starts in no plane of a member's box face, or beyond all boxes along one axis. Missing: trees of at most 7 members that no ray hits, for which the property is false: C21_violated_phantom (general) and C21_violated_triangle (a ray beside a triangle is reported as hitting it)."
  },
  {
   "property": "C22",
   "status": "partial",
   "theorems": [
    "C22_members",
    "C22_builds",
    "C22_rejects",
    "C22_violated_reorders"
   ],
   "note": "Every member ends up in exactly one leaf, leaves have 1..7 members, construction succeeds for members with proper bounds and rejects an empty list. The clause that the caller's list is untouched is false: C22_violated_reorders."
  },
  {
   "property": "C23",
   "status": "partial",
   "theorems": [
    "C23_rounded_partial",
    "C23_contains_partial",
    "C23_violated",
    "C23_violated_missed"
   ],
   "note": "Stored boxes are the rounded hulls of the members below (C23_rounded_partial) and contain them when rounding to single precision is exact (C23_contains_partial). In rounded arithmetic the property is false: C23_violated, and C23_violated_missed shows a ray that hits an object but misses the tree holding only that object."
  },
  {
   "property": "C24",
   "status": "partial",
   "theorems": [
    "C24_hit",
    "C24_sound",
    "C24_miss",
    "C24_violated_parallel"
   ],
   "note": "Exact reals, rays not parallel to the plane, triangles with nonzero area: a reported hit is at positive distance on the triangle with the stated record, and every triangle point in front of the ray is hit. C24_violated_parallel (exact arithmetic with infinities and NaN): a parallel ray is reported as a hit at distance +Inf."
  },
  {
   "property": "C25",
   "status": "proved",
   "theorems": [
    "C25_quadric",
    "C25_sphere",
    "C25_cylinder",
    "C25_cylinderDir",
    "C25_cylinderAlong",
    "C25_sphere_inside",
    "C25_vertical"
   ],
   "note": "Exact reals: the reported distance is the first positive root of the quadric along the ray (quadric, sphere, cylinders); vertical rays with a zero quadratic term are treated in C25_vertical. Rounding is not modelled."
  },
  {
   "property": "C26",
   "status": "partial",
   "theorems": [
    "C26_bisect_partial",
    "C26_crossing_partial",
    "C26_same_side",
    "C26_record",
    "C26_violated_below",
    "C26_surface_partial",
    "C26_violated_termination"
   ],
   "note": "C26_surface_partial is the statement about the object: every ray that enters the box above the surface and leaves it below hits within 2^-20 after a crossing. Rays that start inside the box or leave it above the surface are violated (C26_violated_below), and in rounded arithmetic the search can run for ever (C26_violated_termination). Continuous height functions, exact numbers."
  },
  {
   "property": "C27",
   "status": "proved",
   "theorems": [
    "C27_before_point",
    "C27_after_point",
    "C27_before_dir",
    "C27_composeLR",
    "C27_before_assoc",
    "C27_unit",
    "C27_dir",
    "C27_inverse_point",
    "C27_inverse_dir",
    "C27_det",
    "C27_withOrigin",
    "C27_withOrigin_fixed",
    "C27_scale",
    "C27_translate",
    "C27_mapBaseTo"
   ],
   "note": "Exact arithmetic; inverse under a non-zero determinant."
  },
  {
   "property": "C28",
   "status": "proved",
   "theorems": [
    "C28_rodrigues",
    "C28_dot",
    "C28_point",
    "C28_det",
    "C28_axis",
    "C28_add",
    "C28_yawPitchRoll",
    "C28_headings"
   ],
   "note": "Exact arithmetic."
  },
  {
   "property": "C29",
   "status": "proved",
   "theorems": [
    "C29_placed",
    "C29_inside",
    "C29_hit",
    "C29_twice",
    "C29_twice_any",
    "C29_inside_image",
    "C29_points",
    "C29_complete"
   ],
   "note": "Any arithmetic: the transformed object is the original seen through the inverse map, for any nesting (repeated transforms collapse to the composition, at any depth). Over the reals: a point is inside iff its preimage is; hits correspond with the same distance and normals are carried over. Completeness (a hit of the original gives a hit of the transformed object) in extended arithmetic with signed zeros; the exceptions are those of the box test (C19): rays starting exactly on or in a face plane of the transformed bounds."
  },
  {
   "property": "C30",
   "status": "partial",
   "theorems": [
    "C30_bounded_partial",
    "C30_succeeds",
    "C30_tight",
    "C30_violated_unbounded",
    "C30_unbounded_objects"
   ],
   "note": "Proved for objects with finite bounds (bounds of the image contain the image, are tight, and the constructor succeeds). Violated for unbounded objects: every transformation of Not(x), a backdrop or the whole space panics because infinity times zero is NaN (C30_violated_unbounded)."
  },
  {
   "property": "C31",
   "status": "proved",
   "theorems": [
    "C31_anchors",
    "C31_withCenter",
    "C31_withCenterBottom",
    "C31_rotate",
    "C31_scale",
    "C31_scaleToSize"
   ],
   "note": "Exact arithmetic, finite bounds: centre, bottom centre, rotation about the centre, scaling about the centre and scaling to an X size put the bounds where they are documented to be; the five anchor points are the middle of the bounds and of its faces (C31_anchors)."
  },
  {
   "property": "C32",
   "status": "proved",
   "theorems": [
    "C32_once",
    "C32_faces",
    "C32_vertices",
    "C32_parametric",
    "C32_small"
   ],
   "note": "Any arithmetic, every resolution. Writes to the face array form a permutation of its indices; all corners are in range; the two faces of a cell share its diagonal in opposite directions; resolutions below 2 panic."
  },
  {
   "property": "C33",
   "status": "proved",
   "theorems": [
    "C33_load",
    "C33_load_other",
    "C33_quadrilateral",
    "C33_missing_vertex",
    "C33_load_missing_vertex",
    "C33_quadrilateral_corners"
   ],
   "note": "Any arithmetic. Splits of loaded and constructed quadrilaterals have the four edges of the quadrilateral in its direction and one diagonal in both directions; other polygon sizes and missing vertices are rejected."
  },
  {
   "property": "C34",
   "status": "partial",
   "theorems": [
    "C34_exact",
    "C34_lines",
    "C34_malformed",
    "C34_errors",
    "C34_violated_comment",
    "C34_violated_precision"
   ],
   "note": "C34_exact characterises acceptance completely: for every text, the parser succeeds if and only if every line means something, and the result is exactly the vertices in order and the faces by material, zero-based. C34_malformed, C34_errors: a malformed line gives an error and every panic inside is an error value that ParseFile returns. Numerals are read by a parameter standing for strconv.ParseFloat. Violated: comments without a space after the number sign are rejected (C34_violated_comment), and coordinates are rounded to single precision (C34_violated_precision)."
  },
  {
   "property": "C35",
   "status": "partial",
   "theorems": [
    "C35_exact",
    "C35_lines",
    "C35_violated_newline",
    "C35_violated_order"
   ],
   "note": "C35_exact characterises acceptance completely: for every text, the parser succeeds if and only if the text has the magic lines, meaningful header lines and the declared number of vertex and face lines, and the result is exactly what they say with quads split in two; every panic is recovered. Violated: a last line without a line feed is an error (C35_violated_newline), and so is a file that declares faces before vertices (C35_violated_order)."
  },
  {
   "property": "C36",
   "status": "proved",
   "theorems": [
    "C36_ascii",
    "C36_binary",
    "C36_binary_size",
    "C36_level"
   ],
   "note": "The specification is an independent decoder of the P3 and P6 formats. Both encoders are decoded to the width, height, maximum and the levels of all pixels in scan order, for any numbers including NaN; C36_level bounds the quantisation error by one level in exact arithmetic; six bytes per pixel after the header."
  },
  {
   "property": "C37",
   "status": "partial",
   "theorems": [
    "C37_ascii",
    "C37_binary_partial",
    "C37_violated_binary"
   ],
   "note": "Text encoder: proved for every writer and failure point. Binary encoder: header failures are reported, but pixel write failures are not (C37_violated_binary: a disk full after the header still gives success)."
  },
  {
   "property": "C38",
   "status": "partial",
   "theorems": [
    "C38_range",
    "C38_monotone",
    "C38_range_all",
    "C38_rgba",
    "C38_inverse_partial",
    "C38_ends_partial",
    "C38_violated_brighter",
    "C38_violated_saturates",
    "C38_slope"
   ],
   "note": "Range (including infinities), monotonicity and slope (C38_slope) proved. The inverse property is false: above the knee the round trip brightens every colour (C38_violated_brighter) and everything from 0.99 saturates (C38_violated_saturates), because the exponents and constants are not those of the standard. The linear segment and the end points round-trip."
  },
  {
   "property": "C39",
   "status": "proved",
   "theorems": [
    "C39_make",
    "C39_make_negative",
    "C39_set",
    "C39_histories",
    "C39_copy"
   ],
   "note": "Heap model of Go slices. Sizes and distinct pixels of a new image, set/get, arbitrary write histories to an image and its copy; negative sizes panic."
  },
  {
   "property": "C40",
   "status": "proved",
   "theorems": [
    "C40_convolution",
    "C40_energy",
    "C40_energy_grey",
    "C40_gaussian",
    "C40_airy",
    "C40_disabled",
    "C40_all"
   ],
   "note": "Heap model: every pixel grows by the sum over source pixels of excess times normalised kernel, nothing else changes, for finite images and kernels of non-zero total (the zero case is C41). Energy theorems for sources away from the borders. Gaussian and Airy bloom instantiated (Bessel function abstract), zero radii return the image itself. Images with zero rows are excluded."
  },
  {
   "property": "C41",
   "status": "partial",
   "theorems": [
    "C41_partial",
    "C41_violated"
   ],
   "note": "Finite for radii of at least four pixels. False below: C41_violated shows that every pixel at or above the threshold becomes NaN, because the star kernel is empty and its total zero."
  },
  {
   "property": "C42",
   "status": "partial",
   "theorems": [
    "C42_bilinear",
    "C42_periodic",
    "C42_convex",
    "C42_centres",
    "C42_nan",
    "C42_in_range",
    "C42_nearest_partial",
    "C42_violated_nearest"
   ],
   "note": "Bilinear lookup: value, tiling, convexity, pixel centres (exact numbers) and absence of out-of-range reads also in rounded arithmetic, NaN gives black. Nearest lookup only for coordinates between 0 and 1; beyond, it crashes (C42_violated_nearest). Infinite coordinates are not covered (integer conversion of NaN is machine dependent)."
  },
  {
   "property": "C43",
   "status": "proved",
   "theorems": [
    "C43_checkers",
    "C43_checkers_repeat",
    "C43_grid",
    "C43_pan_scale"
   ],
   "note": "Exact numbers. Checkers value and repetition, grid lines, Pan and ScaleUV."
  },
  {
   "property": "C44",
   "status": "proved",
   "theorems": [
    "C44_mirror",
    "C44_unique",
    "C44_length",
    "C44_twice",
    "C44_two_sided",
    "C44_reflective"
   ],
   "note": "Over the reals, all vectors and unit normals. C44_mirror, C44_unique: the reflected direction is the unique mirror image (normal component reversed, tangential component kept). C44_length, C44_twice, C44_two_sided. C44_reflective: a reflective surface shows the light field along that direction. The scene normalises hit normals before shading."
  },
  {
   "property": "C45",
   "status": "partial",
   "theorems": [
    "C45_fraction",
    "C45_shade",
    "C45_varnish",
    "C45_reversible",
    "C45_violated_thin",
    "C45_violated_tangential"
   ],
   "note": "Over the reals. C45_shade: any positive indices, any unit normal, any ray not exactly tangential: mirror exactly beyond the critical angle, otherwise R in [0,1] by Fresnel and 1-R, refracted direction a unit vector obeying Snell's law in vector form. C45_varnish: the same for ReflectFresnel with index at least 1. C45_reversible. C45_violated_thin (NaN for ReflectFresnel with index below 1) and C45_violated_tangential (NaN for tangential rays between equal media) are the exceptions to the property as stated."
  },
  {
   "property": "C46",
   "status": "proved",
   "theorems": [
    "C46_disk",
    "C46_disk_onto",
    "C46_hemisphere"
   ],
   "note": "Over the reals, every pair in the unit square and every unit normal. C46_disk, C46_disk_onto: samples are in the disk, every point of the disk is a sample, squared radius v and angle 2\u03c0u. C46_hemisphere: unit vectors with non-negative cosine \u221a(1-v)."
  },
  {
   "property": "C47",
   "status": "partial",
   "theorems": [
    "C47_unit",
    "C47_independent",
    "C47_projective",
    "C47_invalid",
    "C47_focus_partial",
    "C47_violated_focus",
    "C47_environment",
    "C47_isometric",
    "C47_stream"
   ],
   "note": "Exact numbers. Unit directions for every made camera and lens sample, independence of moves and turns, field of view and handedness, environment camera (onto all directions), isometric cameras. Depth of field: one common point per pixel, but at depth focusDist*focalLen instead of the documented focusDist (C47_violated_focus)."
  },
  {
   "property": "C48",
   "status": "partial",
   "theorems": [
    "C48_blend_partial",
    "C48_camera_only",
    "C48_violated_horizontal"
   ],
   "note": "Blend weight = exp(-density*length in the fog) for every non-horizontal camera ray, finite or infinite distance; only camera rays are fogged. Violated for exactly horizontal rays (0*Inf = NaN start): C48_violated_horizontal."
  },
  {
   "property": "C49",
   "status": "proved",
   "theorems": [
    "C49_sample",
    "C49_distribution",
    "C49_fog"
   ],
   "note": "Sampled distance lies in [0,M] for all M in [0,inf]; the distribution is stated as the Lebesgue measure of the random numbers giving a distance up to x; weight = scattering probability; the fog medium uses that point and weights (non-horizontal rays, see C48). Exact arithmetic with IEEE infinities."
  },
  {
   "property": "C50",
   "status": "partial",
   "theorems": [
    "C50_constructors",
    "C50_rectangle_partial",
    "C50_disk_partial",
    "C50_rectangle_onto",
    "C50_disk_onto",
    "C50_lambert",
    "C50_point",
    "C50_violated_offset"
   ],
   "note": "Intensity law (cosine, inverse square, zero behind, non-negative), sample positions and coverage of the rectangle/disk for every light, target and random pair; point lights exactly. Missing: samples are displaced by Tiny above the light's plane, so they are never exactly on it and a target within Tiny behind it is lit (C50_violated_offset)."
  },
  {
   "property": "C51",
   "status": "partial",
   "theorems": [
    "C51_sample",
    "C51_violated_point",
    "C51_image",
    "C51_rectangle_partial",
    "C51_disk_partial",
    "C51_seen"
   ],
   "note": "Samples of a transformed light are the transformed samples (any arithmetic; with invertible transform over the reals); rectangle and disk lights can always be transformed. Violated for point lights: Transformed panics (C51_violated_point)."
  },
  {
   "property": "C52",
   "status": "partial",
   "theorems": [
    "C52_no_double_close",
    "C52_uncancelled_partial",
    "C52_client_partial",
    "C52_passes_partial",
    "C52_violated",
    "C52_violated_image"
   ],
   "note": "Violated as stated: a concurrent cancel followed by a new bake leaves two bakes running (C52_violated) and a bake can return an image that belongs to a later bake (C52_violated_image). Proved for all schedules: the cancel channel is never closed twice (C52_no_double_close), at most one bake at any time when nobody cancels (C52_uncancelled_partial) and for a client that waits for each reply (C52_client_partial); for such a client the k-th request for a view in a row does k passes (C52_passes_partial). Missing: the guarantee for arbitrary clients, which the code does not give."
  },
  {
   "property": "C53",
   "status": "proved",
   "theorems": [
    "C53_current",
    "C53_accepted",
    "C53_one_request",
    "C53_coarse",
    "C53_refined"
   ],
   "note": "For every interleaving of user events, previews and bakes: an accepted image belongs to the current view, at most one request is in flight, and after a change the next bake is coarse (C53_coarse; the coarsest scale is skipped when an earlier bake was still running). HTTP failures are modelled; a failed preview shows the dummy image and is not retried (DESIGN.md)."
  },
  {
   "property": "C54",
   "status": "proved",
   "theorems": [
    "C54_modes",
    "C54_toggles",
    "C54_isometric",
    "C54_pitch",
    "C54_exact"
   ],
   "note": "Modes, toggles and the pitch bound hold for every event history; the exact camera arithmetic is over the reals. The pitch bound reads 'not outside', so a NaN pitch (non-finite mouse coordinates) is not excluded."
  },
  {
   "property": "C55",
   "status": "proved",
   "theorems": [
    "C55_completed",
    "C55_writes",
    "C55_count",
    "C55_completes",
    "C55_interrupted",
    "C55_none"
   ],
   "note": "All requested pass counts and all patterns of failing writes. Overflow of the counters is not modelled."
  },
  {
   "property": "C56",
   "status": "partial",
   "theorems": [
    "C56_keeps",
    "C56_positive_partial",
    "C56_violated_height",
    "C56_violated_explicit",
    "C56_twice_partial",
    "C56_twice_debug_partial",
    "C56_violated_twice",
    "C56_total"
   ],
   "note": "Violated in four cases, each a theorem: width 1 with no height gives height 0; the see-through debug view overwrites an explicit recursion depth; a second application repaints a backdrop; negative settings are kept (no theorem needed, see C56_keeps). Proved: what is kept, positivity otherwise, idempotence without material debug views, and idempotence up to ray-equivalence with them when there is no backdrop. Integer overflow is not modelled."
  },
  {
   "property": "C57",
   "status": "proved",
   "theorems": [
    "C57_ext",
    "C57_roundtrip",
    "C57_stripped",
    "C57_image",
    "C57_distinct"
   ],
   "note": "All names (lists of characters). path.Ext is modelled from the Go library source."
  },
  {
   "property": "C58",
   "status": "proved",
   "theorems": [
    "C58_pixel",
    "C58_image",
    "C58_no_crash"
   ],
   "note": "All scenes, cameras without a lens, random sources, per-worker seeds, worker counts and schedules. Panics: C58_pixel covers them; C58_image assumes the scene does not panic for one random source."
  },
  {
   "property": "C59",
   "status": "partial",
   "theorems": [
    "C59_blend",
    "C59_blendMap",
    "C59_skip_first",
    "C59_skip_second",
    "C59_two_sided",
    "C59_violated_weight"
   ],
   "note": "Over the reals, arbitrary materials and contexts. C59_blend: any weights. C59_blendMap, C59_skip_first, C59_skip_second: keys in [0,1]. C59_two_sided. C59_violated_weight: for keys outside [0,1] the material of negative weight is dropped, so the weighted sum is not what is shown."
  },
  {
   "property": "C60",
   "status": "proved",
   "theorems": [
    "C60_vector_space",
    "C60_products",
    "C60_exposure",
    "C60_gray",
    "C60_max",
    "C60_isNaN"
   ],
   "note": "Vector space, product, exposure, gray and max over the reals; C60_isNaN for any number system with IEEE comparisons."
  },
  {
   "property": "C61",
   "status": "partial",
   "theorems": [
    "C61_unit_partial",
    "C61_violated_slope",
    "C61_violated",
    "C61_range"
   ],
   "note": "Proved for unit footprints (dx = dz = 1) up to the step 1/8192 of the difference quotient; violated for every other footprint on every sloping plane (C61_violated_slope), with a concrete hit (C61_violated)."
  },
  {
   "property": "C62",
   "status": "proved",
   "theorems": [
    "C62_fisheye"
   ],
   "note": "Exact numbers, every non-zero direction."
  },
  {
   "property": "C63",
   "status": "proved",
   "theorems": [
    "C63_light_field",
    "C63_pixel"
   ],
   "note": "Every recursion depth, every random sequence. Samples with a NaN channel are dropped by the sampler, so pixels are finite."
  },
  {
   "property": "C64",
   "status": "proved",
   "theorems": [
    "C64_light",
    "C64_light_field",
    "C64_image",
    "C64_planar",
    "C64_transformed"
   ],
   "note": "Every light, material and medium of the library; samples may be NaN (they are dropped, C05) but never negative."
  },
  {
   "property": "C65",
   "status": "proved",
   "theorems": [
    "C65_matte",
    "C65_point_lights"
   ],
   "note": "Exact arithmetic; general statement for all lights plus the closed formula for visible point lights."
  },
  {
   "property": "C66",
   "status": "proved",
   "theorems": [
    "C66_seen",
    "C66_indirect_black",
    "C66_image"
   ],
   "note": "Any arithmetic. C66_indirect_black and C66_image are for scenes without fog; C66_seen is for all scenes."
  },
  {
   "property": "C67",
   "status": "partial",
   "theorems": [
    "C67_box_inside",
    "C67_box",
    "C67_cylinder_inside",
    "C67_caps_inside",
    "C67_iso_inside",
    "C67_parallelogram_partial",
    "C67_rectangle",
    "C67_disk",
    "C67_bounds_inside",
    "C67_triangle_partial",
    "C67_triangle_shading_partial"
   ],
   "note": "Extended numbers: boxes (by size or corners), cylinders, rectangles and disks exact (rays not parallel to the surface nor in the plane of an edge of the rectangle). Triangles and parallelograms: C67_triangle_partial and C67_parallelogram_partial leave out rays that miss the surface but meet its bounding box, which can be reported at 9e99 (C21_violated_phantom), rays in the plane and rays that start among the corners level with one of them. Height surfaces: inside only, in real numbers; their intersection is C26."
  },
  {
   "property": "C68",
   "status": "partial",
   "theorems": [
    "C68_mesh_partial",
    "C68_mesh_none_partial",
    "C68_loaded_partial",
    "C68_parametric_partial"
   ],
   "note": "Extended numbers. Triangles that a ray meets edge-on count as not seen. Missing: rays that start among the vertices at a coordinate of one of them (the box test rejects starts in a face plane, C19_violated_face), and rays that miss a mesh of at most 7 triangles but meet its box, which are reported at 9e99 (C21_violated_phantom). C68_mesh_none_partial: for meshes of at most 7 triangles every ray that meets none of them, from wherever it starts, is reported as a miss or not before 9e99."
  },
  {
   "property": "C69",
   "status": "partial",
   "theorems": [
    "C69_vertex_partial",
    "C69_unit",
    "C69_violated_zero",
    "C69_violated_two_sided",
    "C69_shading_partial"
   ],
   "note": "Extended numbers. Vertex normals for all meshes whose normals do not cancel at the vertex; where they cancel the normal is NaN (C69_violated_zero, C69_violated_two_sided). Shading for the rays of C68_mesh_partial. Missing: rays starting among the vertices at a coordinate of one of them."
  },
  {
   "property": "C70",
   "status": "proved",
   "theorems": [
    "C70_frontmost",
    "C70_frontT"
   ],
   "note": "Any number type with float comparisons, NaN and infinities included."
  },
  {
   "property": "C71",
   "status": "proved",
   "theorems": [
    "C71_view",
    "C71_keys",
    "C71_wheel"
   ],
   "note": "Exact arithmetic. For the projective camera at any position."
  },
  {
   "property": "C72",
   "status": "proved",
   "theorems": [
    "C72_light_field",
    "C72_image",
    "C72_pixel",
    "C72_point_light",
    "C72_rectangle_light",
    "C72_disk_light",
    "C72_transformed_light",
    "C72_sun_light",
    "C72_factor"
   ],
   "note": "Light field, camera image and finished pixel of the brighter scene are k times those of the scene, with the same panics, for every arithmetic with the laws of Factor; every positive factor in exact numbers with infinities, NaN and signed zeros (C72_factor). The lamps of the library follow. With rounding the laws hold for powers of two only, which is not proved."
  },
  {
   "property": "C73",
   "status": "proved",
   "theorems": [
    "C73_hits",
    "C73_inside",
    "C73_with_material",
    "C73_mesh",
    "C73_solids",
    "C73_frontmost"
   ],
   "note": "Any arithmetic: two objects with the same bare shape report the same distances, normals and local coordinates, and the same inside; material overrides, meshes, solids and the frontmost search of a scene follow."
  },
  {
   "property": "C74",
   "status": "proved",
   "theorems": [
    "C74_light_field",
    "C74_image",
    "C74_replace",
    "C74_order"
   ],
   "note": "Needs arithmetic in which comparison is a linear order on the distances met; no ties, no panics, transparent textures evaluate and their factors commute. Without no-ties the claim is false: the later object wins. Transparent objects inside one tree attenuate only by the first hit (C14)."
  },
  {
   "property": "C75",
   "status": "partial",
   "theorems": [
    "C75_light_field_partial",
    "C75_image_partial",
    "C75_sphere",
    "C75_box",
    "C75_box_with_bounds",
    "C75_cylinder",
    "C75_cylinder_dir",
    "C75_cylinder_with_caps",
    "C75_mesh",
    "C75_rectangle",
    "C75_disk",
    "C75_tree",
    "C75_bounded",
    "C75_csg",
    "C75_translate",
    "C75_with_center",
    "C75_point_light",
    "C75_rectangle_light",
    "C75_disk_light",
    "C75_camera"
   ],
   "note": "Exact arithmetic with infinities, NaN and signed zeros. Missing: rotated and scaled objects, bare height surfaces, remapped textures and user-defined objects; rounding."
  },
  {
   "property": "C76",
   "status": "proved",
   "theorems": [
    "C76_disk",
    "C76_hemisphere",
    "C76_angle",
    "C76_rectangle_light",
    "C76_disk_light",
    "C76_lens"
   ],
   "note": "Laws of the samples for uniform random pairs, at exact real arithmetic: disk, hemisphere (cosine law), rectangle and disk lamps, lens."
  },
  {
   "property": "C77",
   "status": "proved",
   "theorems": [
    "C77_rectangle",
    "C77_disk",
    "C77_bounded",
    "C77_above",
    "C77_moved",
    "C77_sun_constructor",
    "C77_sun"
   ],
   "note": "Exact real arithmetic, uniform random pairs; rectangle and disk lamps with opaque obstacles, closed form above, rigid motions, sun. The lamp is at the height of its samples, Tiny above its visible object."
  },
  {
   "property": "C78",
   "status": "proved",
   "theorems": [
    "C78_pairs",
    "C78_chance",
    "C78_two_depths",
    "C78_picture",
    "C78_matte",
    "C78_same_depth_violated"
   ],
   "note": "Exact arithmetic. C78_pairs/_chance: means over passes tend to integrals over the unit square, any shift, any coprime bases. C78_two_depths: the pairs of depths 1 and 2 jointly (bases 2,3,5,7). C78_picture: pixels of the sampler under all schedules, for image functions that depend on these pairs. C78_matte: matte surfaces under lamps. C78_same_depth_violated documents that two draws at the same depth are equal, which the statement excludes."
  },
  {
   "property": "C79",
   "status": "partial",
   "theorems": [
    "C79_points_partial",
    "C79_camera_only",
    "C79_area_violated"
   ],
   "note": "Limit proved for point lamps, with shadows and any numLight, on finite intervals of the ray. Violated for lamps with a size: distance and lamp position use the same random pair (C79_area_violated)."
  },
  {
   "property": "C80",
   "status": "proved",
   "theorems": [
    "C80_picture",
    "C80_sphere",
    "C80_cylinder",
    "C80_rectangle",
    "C80_disk",
    "C80_mesh",
    "C80_spheres"
   ],
   "note": "Extended numbers. C80_picture is the general theorem, for objects that show things along the lines of sight; C80_sphere, C80_cylinder, C80_rectangle, C80_disk, C80_mesh provide such objects; C80_spheres has no side conditions. Anti-aliasing off."
  },
  {
   "property": "C81",
   "status": "partial",
   "theorems": [
    "C81_pixels",
    "C81_errors",
    "C81_upright",
    "C81_centres",
    "C81_heights",
    "C81_range",
    "C81_resave",
    "C81_violated_fades",
    "C81_violated_flipped"
   ],
   "note": "Pixels, orientation, interpolation, height maps, errors and ranges are proved for all pictures and coordinates. The last sentence is false of the code: loading and saving turns the picture upside down (C81_violated_flipped) and brightens it each time until it is white (C81_violated_fades); C81_resave says exactly what results."
  },
  {
   "property": "C82",
   "status": "partial",
   "theorems": [
    "C82_names",
    "C82_place",
    "C82_distinct",
    "C82_order_partial",
    "C82_violated_order",
    "C82_complete",
    "C82_interrupted",
    "C82_passes",
    "C82_balls"
   ],
   "note": "Files (C82_place: which directory and name), completeness and crash points are proved for all environments. The order of names holds below 100000 frames only (C82_order_partial, C82_violated_order). Whether a picture can be rendered is decided by an arbitrary environment; what the pixels are is C03 and C80 (C82_passes, C82_balls)."
  },
  {
   "property": "C83",
   "status": "partial",
   "theorems": [
    "C83_single",
    "C83_current",
    "C83_broken_source",
    "C83_violated_start",
    "C83_violated_missing"
   ],
   "note": "One program at a time and the latest version are proved for all histories. The last sentence is false of the code: the watcher crashes when the program cannot be started and ends when the file is missing for a moment (C83_violated_start, C83_violated_missing)."
  },
  {
   "property": "C84",
   "status": "proved",
   "theorems": [
    "C84_picture",
    "C84_sphere",
    "C84_spheres",
    "C84_clear_disagrees"
   ],
   "note": "End to end for scenes of spheres (C84_spheres) and of any objects that report their first crossing, the normal and a covered material along all rays (C84_picture). Point lamps, no media, pinhole camera. Distribution of scattered directions: C46, C78."
  },
  {
   "property": "C85",
   "status": "partial",
   "theorems": [
    "C85_light",
    "C85_picture",
    "C85_box_partial",
    "C85_shapes",
    "C85_combined",
    "C85_lamps",
    "C85_textures",
    "C85_violated_tree",
    "C85_violated_infinite",
    "C85_violated_box"
   ],
   "note": "C85_picture: no crash in rounded double precision, for all sturdy scenes, cameras, schedules. C85_shapes, C85_combined, C85_lamps, C85_textures: what the constructors make is sturdy. Missing: boxes are covered for rays up to coordinates of 2^22 (C85_box_partial) and in whole pictures of rooms (C92), height surfaces and user-defined objects by assumption. Violated by trees of at most seven members (C85_violated_tree), far boxes (C85_violated_box) and infinite boxes (C85_violated_infinite)."
  },
  {
   "property": "C86",
   "status": "proved",
   "theorems": [
    "C86_on",
    "C86_missed",
    "C86_seen",
    "C86_normal"
   ],
   "note": "Within the stated sizes (coordinates and radius up to 64, squared length of the direction between 1/2 and 2; normals need radius at least 1/32). Arithmetic is Flo: IEEE double precision, round to nearest even, gradual underflow, no fused multiply-add. C86_on and C86_missed: soundness of the hit. C86_seen: completeness, first crossing. C86_normal: normal and local coordinates."
  },
  {
   "property": "C87",
   "status": "proved",
   "theorems": [
    "C87_shade",
    "C87_lamp",
    "C87_faces",
    "C87_alone"
   ],
   "note": "Within the stated sizes. C87_shade is for any scene, with the hypothesis that the computed normal faces the viewer; C87_faces discharges it when the viewer is clearly outside and the ray clearly enters; C87_lamp: point lamps meet the condition on lamps. Matte surfaces only."
  },
  {
   "property": "C88",
   "status": "proved",
   "theorems": [
    "C88_settles",
    "C88_start"
   ],
   "note": "Liveness under calm: no events, every request answered with an image. The number of steps is bounded (25)."
  },
  {
   "property": "C89",
   "status": "proved",
   "theorems": [
    "C89_seen",
    "C89_light",
    "C89_combined",
    "C89_picture"
   ],
   "note": "C89_picture: no crash in rounded double precision for scenes with a backdrop, trees of any size included. C89_seen: every ray sees something with a material, not beyond the backdrop. C89_combined: what the constructors make qualifies. As in C85, boxes and height surfaces are covered only as far as they are assumed not to fail (Obj.Sturdy)."
  },
  {
   "property": "C90",
   "status": "proved",
   "theorems": [
    "C90_normals",
    "C90_shades",
    "C90_through"
   ],
   "note": "C90_normals, C90_shades: DebugNormals = 1, exact arithmetic. C90_through: DebugNormals = 2, one surface at a time. Lamps with a visible surface are left out: the rays considered meet none."
  },
  {
   "property": "C91",
   "status": "proved",
   "theorems": [
    "C91_answers",
    "C91_on",
    "C91_missed",
    "C91_seen",
    "C91_normal"
   ],
   "note": "Within the stated sizes (coordinates up to 1024, squared length of the direction between 1/2 and 2). Arithmetic is Flo: IEEE double precision, round to nearest even, gradual underflow, infinities and NaN, no fused multiply-add. C91_answers: no panic. C91_on and C91_missed: soundness of the hit. C91_seen: completeness, from outside and from inside. C91_normal: normal and local coordinates."
  },
  {
   "property": "C92",
   "status": "proved",
   "theorems": [
    "C92_light",
    "C92_camera",
    "C92_picture"
   ],
   "note": "Rooms of balls, boxes and plain surfaces (Spec/Room.lean) in IEEE double precision. Cameras with a lens, the isometric camera, area lamps and transformed or combined objects are outside the claim."
  },
  {
   "property": "C93",
   "status": "partial",
   "theorems": [
    "C93_obj_partial",
    "C93_ply_partial",
    "C93_obj_loads",
    "C93_order_partial",
    "C93_violated_beside"
   ],
   "note": "C93_obj_partial, C93_ply_partial: what is hit, for rays that do not start among the vertices at a coordinate of one of them; polygons met edge-on count as not seen. C93_obj_loads: which files are loaded. C93_order_partial: the order in which materials are visited does not matter. Violated: with at most seven materials a ray that meets the box around the polygons but no polygon crashes the program (C93_violated_beside)."
  },
  {
   "property": "C94",
   "status": "proved",
   "theorems": [
    "C94_picture",
    "C94_box",
    "C94_backdrop",
    "C94_painted",
    "C94_same",
    "C94_placed",
    "C94_tree",
    "C94_sky",
    "C94_solid",
    "C94_solid_not",
    "C94_solid_and",
    "C94_solid_or",
    "C94_restrict",
    "C94_solid_ball",
    "C94_solid_block",
    "C94_solid_painted",
    "C94_solid_placed"
   ],
   "note": "Extended numbers (exact arithmetic with infinities). Per-ray conditions are stated in the property: no start on, nor run in the plane of, a bounding box; surfaces of combined solids passed more than the marching step apart, at most 100 times, and not just touched. Uses C80_sphere, C80_cylinder, C80_rectangle, C80_disk and C80_mesh for single things (Shows.all)."
  },
  {
   "property": "C95",
   "status": "proved",
   "theorems": [
    "C95_picture",
    "C95_shadow",
    "C95_sphere",
    "C95_box",
    "C95_hollow",
    "C95_not",
    "C95_coated",
    "C95_placed",
    "C95_tree",
    "C95_solid",
    "C95_solid_not",
    "C95_solid_and",
    "C95_solid_or",
    "C95_restrict",
    "C95_solid_ball",
    "C95_solid_block",
    "C95_solid_coated",
    "C95_solid_placed",
    "C95_clear_disagrees"
   ],
   "note": "Extended numbers (exact arithmetic with infinities). C95_picture is over any objects that present their bodies; the other theorems build such objects. Per-ray conditions as in C94. Placed things by similarity maps only (normals are mapped by the direct matrix). Rays in the plane of a side of a box are left out, so that the conditions on the rays that are followed can be met for matte boxes only at depths at which scattered rays are not followed. C95_clear_disagrees: clear things in one tree dim the light of a lamp only once. A sky may be among the objects."
  },
  {
   "property": "C96",
   "status": "proved",
   "theorems": [
    "C96_mesh",
    "C96_rectangle",
    "C96_picture",
    "C96_sphere"
   ],
   "note": "Extended numbers (exact arithmetic with infinities). C96_picture has conditions on the scene only; C96_sphere provides things that it covers. C96_rectangle and C96_mesh are per ray: rays in the vertical plane of an edge are left out of C96_rectangle unless they lead away from the floor, and cannot occur in C96_picture."
  },
  {
   "property": "C97",
   "status": "proved",
   "theorems": [
    "C97_picture",
    "C97_matte",
    "C97_ball",
    "C97_rectangle",
    "C97_triangle",
    "C97_sky",
    "C97_even",
    "C97_open",
    "C97_overhead",
    "C97_floor"
   ],
   "note": "Extended numbers (exact arithmetic with infinities). C97_picture: any recursion depth, the colour determined by the first two pairs. C97_matte, C97_sky, C97_floor: recursion depth 2. The workers, schedules and seeds may differ for each number of passes; the shifts are fixed."
  },
  {
   "property": "C98",
   "status": "partial",
   "theorems": [
    "C98_mean",
    "C98_variance",
    "C98_stddev_partial",
    "C98_violated",
    "C98_picture"
   ],
   "note": "Double precision without overflow of the exponent. The reported standard deviation can be NaN because the computed variance can be negative (C98_violated); for pixels with a computed variance of at least 0 it is the root up to rounding."
  },
  {
   "property": "C99",
   "status": "proved",
   "theorems": [
    "C99_outline",
    "C99_above",
    "C99_shade",
    "C99_floor",
    "C99_picture",
    "C99_converge",
    "C99_bulb",
    "C99_rectangle",
    "C99_disk",
    "C99_mean_bulb",
    "C99_mean_rectangle",
    "C99_mean_disk",
    "C99_soft",
    "C99_emits",
    "C99_seen",
    "C99_room"
   ],
   "note": "Exact arithmetic with infinities and NaN (Ext). Lamps lie horizontally (not transformed). Rays that run exactly in a vertical plane through an edge of a lamp's frame are excluded (the box test divides 0 by 0 there). Limits for light followed over two surfaces."
  },
  {
   "property": "C100",
   "status": "partial",
   "theorems": [
    "C100_crack_violated",
    "C100_on",
    "C100_seen_partial",
    "C100_away",
    "C100_shade"
   ],
   "note": "Double precision with all roundings. Rectangles of sides at least 2, level, within 1000 of the origin. Missing: a strip of 2^-24 of the size along the diagonal, where the code does leave cracks (C100_crack_violated)."
  },
  {
   "property": "C101",
   "status": "proved",
   "theorems": [
    "C101_box",
    "C101_ball",
    "C101_floor"
   ],
   "note": "Double precision with all roundings. Balls of radius 1/32 to 64, boxes and level floors are lit; balls, boxes and floors hide lamps."
  },
  {
   "property": "C102",
   "status": "proved",
   "theorems": [
    "C102_front",
    "C102_seen",
    "C102_direct",
    "C102_sky"
   ],
   "note": "Double precision with all roundings. Things that are nearly touched by the line (within 1/1024) are left out."
  },
  {
   "property": "C103",
   "status": "proved",
   "theorems": [
    "C103_camera",
    "C103_camera_aa",
    "C103_picture"
   ],
   "note": "Double precision with all roundings, for a pinhole camera and direct light. With anti-aliasing the point of the pixel that is shown is the one the code uses (see C08)."
  },
  {
   "property": "C104",
   "status": "partial",
   "theorems": [
    "C104_points",
    "C104_double",
    "C104_count_partial",
    "C104_violated",
    "C104_disk",
    "C104_random",
    "C104_disk_moves",
    "C104_zero_base",
    "C104_endless"
   ],
   "note": "Which lines are printed and what is in them is proved for all flags. Exactly n lines are printed if the start is 0 or the stride 1 (C104_count_partial); otherwise the code prints another number of lines (C104_violated)."
  },
  {
   "property": "C105",
   "status": "proved",
   "theorems": [
    "C105_law",
    "C105_mirror",
    "C105_seen",
    "C105_picture"
   ],
   "note": "For lines that meet the mirror clearly and at least 1/16 steep; light of other things reaches matte surfaces only through lamps (the last level of recursion), as in C103."
  },
  {
   "property": "C106",
   "status": "proved",
   "theorems": [
    "C106_pane",
    "C106_out"
   ],
   "note": "For lines that meet the surface clearly and at least 1/16 steep, and leave it so (balls: 1/32). Chains of surfaces and whole pictures are C105_seen and C105_picture, whose specification has cases for transparent things."
  },
  {
   "property": "C107",
   "status": "partial",
   "theorems": [
    "C107_tint_partial",
    "C107_dark",
    "C107_value_partial",
    "C107_violated"
   ],
   "note": "False as stated for things with two surfaces in the way, which Occlude counts once (C107_violated). Proved with each thing counted once (C107_tint_partial, C107_value_partial), which is the claim for things with one surface, such as floors; shadows of opaque things are proved in full (C107_dark). The brightness of surfaces and pictures lit through transparent things are C101_ball, C101_box, C101_floor, C102_seen, C103_picture and C105_picture, whose hypothesis Decided covers tinted light."
  },
  {
   "property": "C108",
   "status": "partial",
   "theorems": [
    "C108_value_partial",
    "C108_equal_partial",
    "C108_same",
    "C108_close",
    "C108_default",
    "C108_order_partial",
    "C108_outside",
    "C108_violated_size",
    "C108_violated_shape"
   ],
   "note": "False as stated for pictures of different size (C108_violated_size) and as to the deviation being a mean (C108_violated_shape). Proved for pictures of the same size: what passes without tolerance (C108_equal_partial), the exact value (C108_value_partial), the bound for each pixel, the exact criterion of the tests of the program (C108_default) the order (C108_order_partial), and for any sizes what passes without tolerance (C108_outside)."
  },
  {
   "property": "C109",
   "status": "partial",
   "theorems": [
    "C109_value_partial",
    "C109_zero",
    "C109_violated",
    "C109_small",
    "C109_table"
   ],
   "note": "The reported error is the root mean square divided by the root of the number of pixels (C109_value_partial, C109_violated). The table, the meaning of zero and the crash on small references are proved in full."
  },
  {
   "property": "C110",
   "status": "partial",
   "theorems": [
    "C110_sheet",
    "C110_level",
    "C110_ball_partial",
    "C110_refused",
    "C110_violated_normal",
    "C110_violated_start",
    "C110_violated_length",
    "C110_lamp"
   ],
   "note": "The ball is proved for rays of length one that do not start on it, with normals of the length of the radius (C110_ball_partial); the rest is false (C110_violated_normal, C110_violated_start, C110_violated_length). The sheet is proved in full."
  },
  {
   "property": "C111",
   "status": "proved",
   "theorems": [
    "C111_sinc",
    "C111_height",
    "C111_decay",
    "C111_max3"
   ],
   "note": "In exact arithmetic."
  }
 ]
}