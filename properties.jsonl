{"id": "C01", "title": "Tiles partition the image", "statement": "Splitting a width x height image for parallel rendering yields tiles that lie inside the image, and every pixel belongs to exactly one tile, so one pass samples each pixel exactly once.", "quantifier": "all non-negative image widths and heights and all positive tile sizes", "why_tests_cant": "image sizes are unbounded; off-by-one errors only appear for sizes that are not multiples of the tile size", "anchors": ["tracer/sampler.go:tessellate", "tracer/sampler.go:divUp", "tracer/sampler.go:sampleTile"]}
{"id": "C02", "title": "The tile queue never blocks and rendering finishes", "statement": "Filling the tile queue before any worker starts never blocks, because the queue capacity is at least the number of tiles; and with any positive number of workers every scheduling of them ends with the queue empty and every tile processed.", "quantifier": "all image sizes, all worker counts, all fair and unfair schedules", "why_tests_cant": "a blocked producer would only show for particular sizes; schedules cannot be enumerated", "anchors": ["tracer/sampler.go:tessellate", "tracer/sampler.go:SampleWithCancel"]}
{"id": "C03", "title": "Parallel sampling is schedule independent", "statement": "For an image function whose colour depends only on pixel, pass and coordinates, the accumulated image after Sample is the same for every number of workers and every interleaving of them, equal to the sequential result; no two workers ever touch the same pixel.", "quantifier": "all image functions of that kind, worker counts, interleavings of individual memory accesses", "why_tests_cant": "a race detector only sees executed schedules", "anchors": ["tracer/sampler.go:SampleWithCancel", "tracer/sampler.go:sampleTile", "tracer/sampler.go:samplePixel"]}
{"id": "C04", "title": "Progressive rendering composes", "statement": "Sampling a passes and then b more passes leaves the sampler in the same state (sums, sums of squares, counts, pass numbers) as sampling a+b passes at once.", "quantifier": "all a, b, all image functions, all starting states", "why_tests_cant": "pass counts are unbounded", "anchors": ["tracer/sampler.go:Sampler.Sample", "tracer/sampler.go:samplePixel"]}
{"id": "C05", "title": "The image is the mean of the samples", "statement": "After n >= 1 passes every pixel of Image() is the arithmetic mean of the colours sampled for that pixel; NaN samples are left out of the mean instead of darkening it.", "quantifier": "all sample sequences, including ones that contain NaN", "why_tests_cant": "NaN samples are rare events that depend on the random sequence", "anchors": ["tracer/sampler.go:samplePixel", "tracer/sampler.go:imagef", "tracer/sampler.go:Image"]}
{"id": "C06", "title": "The error estimate is the standard error estimate", "statement": "For n >= 2 samples the reported variance is the unbiased sample variance of the samples, is never negative, is zero exactly when all samples are equal, and the reported standard deviation is its square root.", "quantifier": "all sample sequences of length at least 2", "why_tests_cant": "needs the algebraic identity for every n and every sample vector", "anchors": ["tracer/sampler.go:variancef", "tracer/sampler.go:stddevf"]}
{"id": "C07", "title": "Pixel coordinates", "statement": "Mapping a pixel index to camera coordinates gives points strictly inside the unit square, distinct pixels give distinct points, neighbouring pixels have the same pitch horizontally and vertically, the image centre maps to (1/2,1/2), and indices outside the image are rejected.", "quantifier": "all image sizes and pixel indices", "why_tests_cant": "sizes are unbounded; portrait images behave differently from landscape ones", "anchors": ["tracer/sampler.go:IndexToCam", "tracer/sampler.go:linterp", "sampler/util.go:IndexToCam"]}
{"id": "C08", "title": "Anti-aliasing covers the pixel", "statement": "With anti-aliasing enabled the sample positions for a pixel vary from pass to pass and stay within that pixel's footprint.", "quantifier": "all pixels, passes and image sizes", "why_tests_cant": "the distribution over all passes cannot be observed from a finite number of rendered images", "anchors": ["tracer/sampler.go:samplePixel", "tracer/sampler.go:PixelSize", "tracer/ctx.go:Init"]}
{"id": "C09", "title": "Halton numbers", "statement": "The i-th Halton number for base b >= 2 is the radical inverse of i+1, lies strictly between 0 and 1, differs for different i, and any b^k consecutive aligned indices hit each of the b^k equal sub-intervals exactly once.", "quantifier": "all bases b >= 2, all indices, all k", "why_tests_cant": "equidistribution is a statement about all prefixes", "anchors": ["tracer/sequence/halton.go:Halton"]}
{"id": "C10", "title": "Random-shifted sequences stay in the unit square", "statement": "Every pair drawn from a shifted Halton sequence lies in [0,1) x [0,1), depends only on the pixel and pass it was initialised with, and two pixels with the same shift see the same pair.", "quantifier": "all pixel indices, passes and shifts", "why_tests_cant": "all passes and shifts have to be covered; wrap-around occurs at isolated values", "anchors": ["tracer/sequence/sequence.go:halton.Generate2", "tracer/sequence/sequence.go:halton.Init", "util/util.go:Frac", "tracer/ctx.go:Generate2"]}
{"id": "C11", "title": "Ray pool", "statement": "A ray obtained from the context is zeroed and is never the same ray as one obtained earlier and not yet returned.", "quantifier": "all sequences of get and put calls that return only rays obtained earlier, each once", "why_tests_cant": "aliasing needs particular call histories", "anchors": ["tracer/ctx.go:Ray", "tracer/ctx.go:PutRay", "tracer/ctx.go:pool"]}
{"id": "C12", "title": "Recursion depth", "statement": "Tracing stops at the configured recursion depth: nested light evaluations never exceed it, evaluation terminates for every scene, a depth of zero gives black, and the depth counter is back at its old value afterwards.", "quantifier": "all scenes, materials, rays and recursion limits", "why_tests_cant": "scenes with mutually reflecting materials form unboundedly deep recursions", "anchors": ["tracer/scene.go:lightField", "tracer/scene.go:LightField", "tracer/ctx.go:CurrentRecursionDepth"]}
{"id": "C13", "title": "The nearest surface is shaded", "statement": "Among all objects and light shapes the scene shades the one whose hit distance is positive and smallest; objects without a positive hit distance (including NaN) are ignored; ties go to the last one.", "quantifier": "all object lists and rays, including NaN and infinite distances", "why_tests_cant": "all orderings of all lists, including special values", "anchors": ["tracer/scene.go:intersectFrontmost", "tracer/util.go:Frontmost", "tracer/util.go:FrontT"]}
{"id": "C14", "title": "Shadows", "statement": "A shadow ray of a given length is attenuated by every transparent object, blocked completely by any opaque object in between, unaffected by objects behind the light, and the result does not depend on the order of the objects.", "quantifier": "all object lists, orders, lengths and colours", "why_tests_cant": "orders and nestings of objects cannot be enumerated", "anchors": ["tracer/scene.go:Occlude"]}
{"id": "C15", "title": "Intersection does not alter the ray", "statement": "Intersecting a ray with any object, however composed, returns with the caller's ray unchanged.", "quantifier": "all finite compositions of all object constructors, all rays, any floating point behaviour", "why_tests_cant": "object trees are unboundedly deep, and the implementation temporarily mutates the ray", "anchors": ["tracer/objects/csg.go:andMarch", "tracer/objects/transformed.go:Intersect", "tracer/objects/tree.go:Intersect"]}
{"id": "C16", "title": "CSG membership is a Boolean algebra", "statement": "A point is inside And(a,b) iff it is inside both, inside Or(a,b) iff inside one, inside Not(a) iff not inside a, inside Difference(a,b) iff inside a and not b; hence De Morgan and the other Boolean laws hold for nested CSG trees.", "quantifier": "all objects and points", "why_tests_cant": "CSG trees are unboundedly deep", "anchors": ["tracer/objects/csg.go:And", "tracer/objects/csg.go:Or", "tracer/objects/csg.go:Not", "tracer/objects/csg.go:Difference"]}
{"id": "C17", "title": "CSG hits are on the combined surface", "statement": "A hit reported by And(a,b) is a hit on one operand at a point inside the other; Restrict likewise; for solids whose surface crossings along the ray are separated, And and Or report the first crossing of the combined solid.", "quantifier": "all operand objects and rays", "why_tests_cant": "all arrangements of surface crossings along a ray", "anchors": ["tracer/objects/csg.go:andMarch", "tracer/objects/csg.go:or", "tracer/objects/csg.go:Restrict"]}
{"id": "C18", "title": "Bounds contain the object", "statement": "Every point inside an object lies in the object's bounding box, for every composition of constructors.", "quantifier": "all finite compositions of object constructors, all points", "why_tests_cant": "object trees are unboundedly deep; a too-small box only shows from particular view points", "anchors": ["tracer/objects/boundingbox.go", "tracer/objects/csg.go:Bounds", "tracer/objects/transformed.go:transformBounds"]}
{"id": "C19", "title": "Bounding box test", "statement": "The ray/box test succeeds exactly when the forward ray meets the box, and the reported distance is where the ray crosses its surface, including for axis-parallel rays.", "quantifier": "all boxes, ray origins and directions, including zero components", "why_tests_cant": "zero components produce infinities and NaN only for particular inputs", "anchors": ["tracer/objects/boundingbox.go:intersect", "tracer/objects/boundingbox.go:intersects"]}
{"id": "C20", "title": "Bounding box of a point set", "statement": "The bounding box of a non-empty finite point set contains every point and is the smallest such box; an empty set and NaN coordinates are rejected.", "quantifier": "all finite point sets", "why_tests_cant": "point sets are unbounded", "anchors": ["tracer/objects/boundingbox.go:boundingBoxFromHull"]}
{"id": "C21", "title": "A tree of objects behaves like the list of its objects", "statement": "Intersecting a Tree reports the nearest hit among all its members, and a miss (no positive distance) if and only if no member is hit.", "quantifier": "all member lists and rays", "why_tests_cant": "depends on which bounding boxes are hit; small trees behave differently from large ones", "anchors": ["tracer/objects/tree.go:Tree", "tracer/objects/tree.go:node.Intersect"]}
{"id": "C22", "title": "Tree construction", "statement": "Building a tree keeps every member exactly once, puts at most seven members in a leaf, terminates, and does not reorder the caller's list.", "quantifier": "all non-empty member lists, any sorting routine that permutes", "why_tests_cant": "lists are unbounded", "anchors": ["tracer/objects/tree.go:Tree", "tracer/objects/tree.go:buildTree"]}
{"id": "C23", "title": "Tree boxes are conservative", "statement": "The reduced-precision boxes stored in a tree contain the exact bounds of the members below them, so no member is culled wrongly.", "quantifier": "all member bounds", "why_tests_cant": "the loss occurs only for coordinates that are not representable in reduced precision", "anchors": ["tracer/objects/tree.go:boundingBoxToF", "tracer/objects/tree.go:intersectAABBf"]}
{"id": "C24", "title": "Triangle intersection", "statement": "A reported triangle hit has positive distance, lies on the ray and in the triangle with the barycentric coordinates used for shading; conversely each forward crossing of the triangle's interior is reported.", "quantifier": "all non-degenerate triangles and rays", "why_tests_cant": "real-valued input space", "anchors": ["tracer/objects/mesh.go:face.Intersect"]}
{"id": "C25", "title": "Sphere and quadric intersection", "statement": "A reported sphere hit is the first crossing of the forward ray with the sphere of the given diameter and centre, and every ray that crosses it reports a hit; likewise for cylinders within their bounds.", "quantifier": "all spheres, cylinders and rays", "why_tests_cant": "real-valued input space, discriminant edge cases", "anchors": ["tracer/objects/quadric.go:Intersect", "tracer/objects/quadric.go:Sphere"]}
{"id": "C26", "title": "Isosurface intersection", "statement": "When an isosurface reports a hit from bisection, the surface crossing lies within the configured tolerance before the reported distance and the search terminates.", "quantifier": "all height functions and brackets", "why_tests_cant": "arbitrary user functions", "anchors": ["tracer/objects/isosurface.go:bisect", "tracer/objects/isosurface.go:Intersect"]}
{"id": "C27", "title": "Affine transform algebra", "statement": "Composition applies the transforms in the stated order and is associative with the identity as unit; Inverse undoes an invertible transform on points and directions; WithOrigin keeps the origin fixed; directions ignore translation.", "quantifier": "all affine transforms and vectors", "why_tests_cant": "algebraic laws over all real matrices", "anchors": ["geom/affinetransform.go", "geom/matrix.go"]}
{"id": "C28", "title": "Rotations are rigid", "statement": "Rotations about any non-zero axis preserve lengths, angles and orientation, fix the axis, and rotations about the same axis add their angles; yaw-pitch-roll is roll, then pitch, then yaw.", "quantifier": "all axes, angles and vectors", "why_tests_cant": "transcendental functions over all reals", "anchors": ["geom/affinetransform.go:Rotate", "geom/affinetransform.go:rotationMatrix", "geom/affinetransform.go:YawPitchRoll", "util/util.go:Sin"]}
{"id": "C29", "title": "Transformed objects", "statement": "A point is inside a transformed object iff its preimage is inside the original; a ray hits the transformed object at distance T iff the inverse-transformed ray hits the original at the same T; transforming twice equals transforming by the composition.", "quantifier": "all objects, invertible transforms, rays", "why_tests_cant": "objects and transforms are arbitrary", "anchors": ["tracer/objects/transformed.go:Transformed", "tracer/objects/transformed.go:Intersect", "tracer/objects/transformed.go:Inside"]}
{"id": "C30", "title": "Bounds of transformed objects", "statement": "The bounds of a transformed object contain the image of every point of the original bounds, for bounded and unbounded objects.", "quantifier": "all boxes and affine transforms", "why_tests_cant": "corner cases with infinite boxes", "anchors": ["tracer/objects/transformed.go:transformBounds", "tracer/objects/transformed.go:hull"]}
{"id": "C31", "title": "Placement helpers", "statement": "WithCenter moves an object so that its bounds are centred at the requested point, and Rotate and Scale keep the centre of the bounds fixed.", "quantifier": "all boxes, target points, scales and rotations", "why_tests_cant": "real-valued input space", "anchors": ["api/object.go:WithCenter", "api/object.go:Rotate", "api/object.go:Scale"]}
{"id": "C32", "title": "Parametric meshes", "statement": "A parametric surface mesh refers only to existing vertices, defines each of its 2(numU-1)(numV-1) faces exactly once, and the two faces of a grid cell share its diagonal.", "quantifier": "all resolutions numU, numV >= 2 and all functions", "why_tests_cant": "resolutions are unbounded", "anchors": ["tracer/objects/mesh.go:Parametric"]}
{"id": "C33", "title": "Polygons are split correctly", "statement": "A quadrilateral is split into two triangles with the same orientation that share a diagonal and use only its four corners; loaded faces that refer to missing vertices are rejected.", "quantifier": "all quads and vertex lists", "why_tests_cant": "index combinations are unbounded", "anchors": ["tracer/objects/mesh.go:Quadrilateral", "tracer/objects/mesh.go:plyObj", "tracer/objects/ply/parser.go"]}
{"id": "C34", "title": "OBJ parsing", "statement": "Parsing a well-formed OBJ file yields exactly the vertices and faces written in it, in order, with zero-based indices; malformed lines yield an error with no panic escaping.", "quantifier": "all vertex and face lists, all malformed lines", "why_tests_cant": "file contents are unbounded", "anchors": ["tracer/objects/obj/parser.go"]}
{"id": "C35", "title": "PLY parsing", "statement": "Parsing a well-formed PLY file yields exactly its vertices and its faces with quads split in two; malformed input yields an error and never a panic.", "quantifier": "all files", "why_tests_cant": "file contents are unbounded", "anchors": ["tracer/objects/ply/parser.go"]}
{"id": "C36", "title": "PPM encoding round-trips", "statement": "Decoding the ASCII or binary PPM output of an image yields the image size and each colour channel quantised to 0..65535 in scan order; binary output has exactly 6 bytes per pixel after the header.", "quantifier": "all rectangular images and all channel values", "why_tests_cant": "images are unbounded", "anchors": ["imagef/ppm/ppm.go:EncodeAscii16", "imagef/ppm/ppm.go:Encode48BE"]}
{"id": "C37", "title": "Write errors are reported", "statement": "If writing any part of an encoded image fails, the encoder returns an error.", "quantifier": "all images and all failure points of the writer", "why_tests_cant": "failure points are unbounded", "anchors": ["imagef/ppm/ppm.go:Encode48BE", "imagef/ppm/ppm.go:EncodeAscii16"]}
{"id": "C38", "title": "sRGB conversion", "statement": "The linear-to-sRGB transfer maps every value to [0,1], is monotone, and is inverted on [0,1] by the sRGB-to-linear conversion.", "quantifier": "all real colour values", "why_tests_cant": "real-valued input space; the deviation is small", "anchors": ["imagef/colorf/color.go:LinearToSRGB", "imagef/colorf/color.go:SRGBToLinear", "imagef/colorf/color.go:RGBA"]}
{"id": "C39", "title": "Image containers", "statement": "A new image has the requested size and distinct pixels, and a copy equals its source while later writes to either do not show in the other.", "quantifier": "all sizes and write histories", "why_tests_cant": "histories are unbounded", "anchors": ["imagef/image.go:MakeImage", "imagef/image.go:Copy"]}
{"id": "C40", "title": "Bloom", "statement": "Bloom adds to every pixel the sum over source pixels of the thresholded source times the kernel at the displacement; away from borders it adds exactly amplitude times the thresholded energy; the source image is not modified.", "quantifier": "all images, kernels, amplitudes and thresholds", "why_tests_cant": "image and kernel sizes are unbounded; borders clip the kernel", "anchors": ["imagef/post/convolution.go:AddConvolution", "imagef/post/params.go:ApplyTo"]}
{"id": "C41", "title": "Star bloom is finite", "statement": "Applying star bloom to a finite image gives a finite image for every positive radius.", "quantifier": "all radii", "why_tests_cant": "fails only for small radii", "anchors": ["imagef/post/convolution.go:starKernel", "imagef/post/params.go:ApplyStarBloom"]}
{"id": "C42", "title": "Texture lookups are in range", "statement": "Bilinear lookup never reads outside the image, tiles periodically, and returns a convex combination of image colours; nearest lookup reads the nearest pixel.", "quantifier": "all finite texture coordinates and image sizes", "why_tests_cant": "edge coordinates and negative coordinates", "anchors": ["texture/interpolation.go:bilinear", "texture/interpolation.go:warp", "texture/interpolation.go:Nearest"]}
{"id": "C43", "title": "Procedural textures are periodic", "statement": "Checkers alternate with the stated period in both directions, also for negative coordinates.", "quantifier": "all coordinates", "why_tests_cant": "sign-dependent remainder", "anchors": ["texture/assets.go:Checkers", "texture/assets.go:Grid"]}
{"id": "C44", "title": "Mirror reflection", "statement": "The reflected direction has the length of the incoming one, makes the same angle with the normal on the other side, and reflecting twice gives back the incoming direction.", "quantifier": "all directions and unit normals", "why_tests_cant": "real-valued input space", "anchors": ["tracer/materials/reflective.go:reflect"]}
{"id": "C45", "title": "Refraction conserves energy and obeys Snell's law", "statement": "Reflected and transmitted fractions lie in [0,1] and sum to 1, the refracted direction is a unit vector obeying Snell's law, and total internal reflection occurs exactly beyond the critical angle.", "quantifier": "all unit directions, normals and refractive indices", "why_tests_cant": "real-valued input space with a threshold", "anchors": ["tracer/materials/refractive.go", "tracer/materials/reflective.go:fresnelReflection"]}
{"id": "C46", "title": "Sampling maps", "statement": "Hemisphere samples are unit vectors on the normal's side, disk samples lie in the disk, for every pair in the unit square.", "quantifier": "all (u,v) in the unit square and all unit normals", "why_tests_cant": "real-valued input space", "anchors": ["tracer/sequence/mappings.go:CosineSphere", "tracer/sequence/mappings.go:UniformDisk"]}
{"id": "C47", "title": "Cameras", "statement": "Camera rays have unit direction; rotation and translation of a camera commute and compose; with depth of field every lens sample for a pixel passes through the same point at the documented focus distance.", "quantifier": "all cameras, pixels, lens samples and transforms", "why_tests_cant": "real-valued input space", "anchors": ["tracer/cameras/projective.go:RayFrom", "tracer/cameras/withtransform.go:Transform", "tracer/cameras/isometric.go"]}
{"id": "C48", "title": "Exponential fog", "statement": "Fog blends the background with the fog colour by a weight in [0,1] given by the length of the ray inside the fog layer, for every ray direction.", "quantifier": "all rays, heights and densities", "why_tests_cant": "horizontal rays divide by zero", "anchors": ["tracer/media/expfog.go:Filter", "tracer/media/expfog.go:intersectHalfSpace", "tracer/media/expfog.go:intersectIntervals"]}
{"id": "C49", "title": "Scattering distances", "statement": "The sampled scattering distance lies in the ray interval and follows the truncated exponential distribution, with the returned weight the probability of scattering.", "quantifier": "all random numbers in [0,1), densities and lengths", "why_tests_cant": "distribution over all random numbers", "anchors": ["tracer/media/fog.go:randExpInterval"]}
{"id": "C50", "title": "Light sampling", "statement": "Light sample positions lie on the light, intensities are non-negative and fall off with the inverse square of the distance, and one-sided lights give nothing behind them.", "quantifier": "all lights, targets and random pairs", "why_tests_cant": "real-valued input space", "anchors": ["tracer/lights/planar.go", "tracer/lights/pointlight.go"]}
{"id": "C51", "title": "Transformed lights", "statement": "Any light can be transformed; its samples are the transformed samples of the original.", "quantifier": "all lights and invertible transforms", "why_tests_cant": "particular light types fail", "anchors": ["tracer/lights/transformed.go"]}
{"id": "C52", "title": "At most one bake at a time", "statement": "The render server runs at most one high-quality render at a time and never closes a cancel channel twice.", "quantifier": "all histories of bake, cancel and preview requests", "why_tests_cant": "request interleavings are unbounded", "anchors": ["api/server.go:renderView", "api/server.go:prepareBakery", "api/server.go:handleCancel"]}
{"id": "C53", "title": "The viewer never shows a stale render", "statement": "A high-quality image shown by the viewer was rendered from the current view, and the viewer has at most one such request outstanding.", "quantifier": "all event histories", "why_tests_cant": "event interleavings are unbounded", "anchors": ["cmd/bruteray-view/main.go:run", "cmd/bruteray-view/main.go:handleBakery", "cmd/bruteray-view/main.go:cancelBaking", "cmd/bruteray-view/main.go:goBakeAndSend"]}
{"id": "C54", "title": "Viewer camera state", "statement": "The pitch stays within a quarter turn, and the display mode toggles stay in their valid ranges, after any input.", "quantifier": "all event histories", "why_tests_cant": "event histories are unbounded", "anchors": ["cmd/bruteray-view/main.go:rotateCamera", "cmd/bruteray-view/main.go:toggleNormals", "cmd/bruteray-view/main.go:toggleIsometric"]}
{"id": "C55", "title": "Pass budget", "statement": "Local rendering performs at least the requested number of passes, in increasing batches, and stops at the first batch that reaches it.", "quantifier": "all requested pass counts", "why_tests_cant": "pass counts are unbounded", "anchors": ["api/render.go:renderLocal"]}
{"id": "C56", "title": "Defaults", "statement": "Initialising a specification's defaults keeps explicitly set values, gives positive image dimensions and recursion, and applying it twice changes nothing.", "quantifier": "all specifications", "why_tests_cant": "combinations of set and unset fields", "anchors": ["api/spec.go:InitDefaults"]}
{"id": "C57", "title": "Output file names", "statement": "Stripping the extension and appending it again gives the original file name.", "quantifier": "all file names", "why_tests_cant": "strings are unbounded", "anchors": ["api/render.go:noExt"]}
{"id": "C58", "title": "Shallow renders are deterministic", "statement": "With a pinhole camera and recursion depth at most 2, the rendered image does not depend on the clock-seeded random source, the number of workers or their schedule.", "quantifier": "all scenes, seeds and schedules", "why_tests_cant": "random seeds and schedules cannot be enumerated", "anchors": ["tracer/ctx.go:Generate2", "tracer/scene.go:ImageFunc", "tracer/sampler.go"]}
{"id": "C59", "title": "Material combinators", "statement": "Blending with weights uses exactly the weighted sum of the two materials, skipping a material of weight zero has no effect, and two-sided materials select the side by the sign of direction dot normal.", "quantifier": "all weights, materials and hits", "why_tests_cant": "materials are arbitrary", "anchors": ["tracer/materials/blend.go", "tracer/materials/twosided.go"]}
{"id": "C60", "title": "Colour arithmetic", "statement": "Colours form a vector space under the provided operations; the gray value is within the range of the channels; NaN is detected if any channel is NaN.", "quantifier": "all colours", "why_tests_cant": "real-valued input space", "anchors": ["imagef/colorf/color.go"]}
{"id": "C61", "title": "Height surfaces have perpendicular normals", "statement": "The normal reported where a ray hits a height-map surface is perpendicular to that surface.", "quantifier": "all surfaces, footprints, height functions and rays", "why_tests_cant": "continuum of heights and sizes; tests use a unit footprint", "anchors": ["tracer/objects/isosurface.go:normalAtUV", "tracer/objects/isosurface.go:partialAtUV"]}
{"id": "C62", "title": "Fisheye mapping is equidistant", "statement": "The fisheye mapping sends every direction to the unit square, at a distance from the centre proportional to the angle from the vertical axis and in the direction of the horizontal part.", "quantifier": "all non-zero directions", "why_tests_cant": "continuum of directions", "anchors": ["texture/uvmapper.go:MapFisheye"]}
{"id": "C63", "title": "Energy conservation", "statement": "A scene without separate light sources, whose materials emit at most L and reflect or transmit no more light than they receive, never shows a pixel brighter than L, and every pixel is a finite non-negative number.", "quantifier": "all scenes, cameras, image sizes, pixels, recursion depths, numbers of passes and random sequences", "why_tests_cant": "holds for all recursive light paths through arbitrary scenes, which no finite set of renderings covers", "anchors": ["tracer/scene.go:LightField", "tracer/materials", "tracer/sampler.go"]}
{"id": "C64", "title": "No negative light", "statement": "When no colour, factor, blend weight or light power in a scene is negative, no channel of any sample of its image is negative.", "quantifier": "all scenes, rays, recursion depths and random sequences", "why_tests_cant": "holds for all recursive light paths through arbitrary scenes", "anchors": ["tracer/scene.go:LightField", "tracer/materials/matte.go", "tracer/lights"]}
{"id": "C65", "title": "Lambert's law", "statement": "A matte surface shows its reflectance times the sum, over all lights, of the light that reaches the point times the cosine of its angle to the normal (nothing for lights behind the surface), plus the light from one random direction.", "quantifier": "all scenes, lights, textures, surface points, viewing rays and random sequences", "why_tests_cant": "continuum of positions and any number of lights", "anchors": ["tracer/materials/matte.go", "tracer/scene.go:Lights"]}
{"id": "C66", "title": "Lights are counted once", "statement": "Light sources are seen directly but appear black to diffuse reflection, which already samples them; in both cases they hide what is behind them, and nothing else differs.", "quantifier": "all scenes and rays", "why_tests_cant": "any number of objects and lights in any arrangement", "anchors": ["tracer/scene.go:LightField", "tracer/scene.go:LightFieldIndirect", "tracer/scene.go:NewScene"]}
{"id": "C67", "title": "Constructors make the shapes they name", "statement": "Boxes, cylinders with caps, parallelograms, rectangles, disks and height surfaces made from sizes and positions have exactly these sizes and positions: a ray that is in general position is reported to hit a rectangle or disk exactly if it crosses it, at the distance of the crossing, and a point is inside a box, capped cylinder or height surface exactly if it is within the stated distances.", "quantifier": "all positive sizes, centres, rays and points", "why_tests_cant": "continuum of sizes, positions and rays", "anchors": ["tracer/objects/box.go:Box", "tracer/objects/quadric.go:CylinderWithCaps", "tracer/objects/mesh.go:Rectangle", "tracer/objects/mesh.go:RectangleWithVertices", "tracer/objects/mesh.go:Disk", "tracer/objects/isosurface.go:IsoSurface"]}
{"id": "C68", "title": "Meshes show their triangles", "statement": "A mesh, however it is made (from vertices and faces, from a loaded file or from a parametric surface), reports for each ray the nearest forward crossing with any of the triangles it was given, and nothing where there is none.", "quantifier": "all vertex and face lists of any length, all sortings, all rays in general position", "why_tests_cant": "unbounded meshes, continuum of rays; acceleration tree of any depth", "anchors": ["tracer/objects/mesh.go:MeshWithUV", "tracer/objects/mesh.go:PlyFile", "tracer/objects/tree.go", "tracer/objects/mesh.go:Parametric"]}
{"id": "C69", "title": "Smooth shading of meshes", "statement": "The normal at a vertex of a mesh is the direction of the sum of the unit normals of the triangles that meet there, triangles without area being ignored. At a hit, the reported normal and texture coordinates are those of the three corners of the triangle that is hit, weighted by the barycentric coordinates of the hit point.", "quantifier": "all vertex and face lists of any length, all texture coordinates, all rays in general position", "why_tests_cant": "unbounded meshes with any sharing of vertices; continuum of rays", "anchors": ["tracer/objects/mesh.go:calcNormals", "tracer/objects/mesh.go:face.Intersect", "tracer/objects/mesh.go:MeshWithUV", "geom/util.go:TriangleNormal"]}
{"id": "C70", "title": "Combining two hits", "statement": "Of two candidate hits the nearest one in front of the camera is kept; a hit behind the camera or at a distance that is not a number never wins, and if neither is in front there is no hit. The same holds for the smallest positive of two distances.", "quantifier": "all pairs of hits, including negative, infinite and NaN distances", "why_tests_cant": "all pairs of floating point numbers, including special values", "anchors": ["tracer/util.go:Frontmost", "tracer/util.go:FrontT"]}
{"id": "C71", "title": "Viewer navigation", "statement": "For a view the server renders the scene with the scene's camera turned at its own position by the yaw and pitch of the view and then moved by the position of the view. In the viewer the keys move along the image that is shown: up and down through the centre of the image, left and right towards its sides, space towards its upper side, by a fixed step.", "quantifier": "all views, camera positions and fields of view", "why_tests_cant": "continuum of orientations", "anchors": ["api/view.go:ApplyTo", "cmd/bruteray-view/main.go:moveCam", "cmd/bruteray-view/main.go:handleKeyEvent", "tracer/cameras/withtransform.go:Transform"]}
{"id": "C72", "title": "Brightness scales", "statement": "Multiplying all the light in a scene by a factor - the power of every lamp, every self-luminous colour and the ambient light of fog - multiplies every pixel of the image by that factor, and changes nothing else: the same rays are traced with the same random numbers. The library's lamps made with k times the brightness are the brighter lamps.", "quantifier": "all scenes, materials, media, cameras, pixels, numbers of passes, random sequences and recursion depths; every positive factor", "why_tests_cant": "all scenes and all random sequences; unbounded recursion", "anchors": ["tracer/scene.go:LightField", "tracer/scene.go:ImageFunc", "tracer/lights/pointlight.go:PointLight", "tracer/lights/planar.go:RectangleLight", "tracer/sampler.go"]}
{"id": "C73", "title": "Materials do not change shapes", "statement": "Distances, normals and local coordinates reported by an object depend only on its geometry: replacing any materials, in the parts or with a material override, changes neither where rays hit nor what is inside.", "quantifier": "all objects however composed (CSG, trees, transforms, meshes), all rays and points", "why_tests_cant": "unbounded composition; all rays", "anchors": ["tracer/objects/mesh.go:WithMaterial", "tracer/objects/csg.go", "tracer/objects/tree.go:Tree", "tracer/objects/mesh.go:MeshWithUV"]}
{"id": "C74", "title": "The order of objects does not matter", "statement": "Listing the objects of a scene in another order gives the same image, and more generally two scenes give the same image if every ray first meets the same thing in both and every shadow ray is stopped or filtered alike, whatever the scenes are made of.", "quantifier": "all scenes and rearrangements of their object list, all rays, materials, lights, media, cameras, random sequences and recursion depths; provided no two objects are met at exactly the same distance and no object panics", "why_tests_cant": "all scenes, all permutations and all rays; unbounded recursion", "anchors": ["tracer/scene.go:LightField", "tracer/scene.go:Occlude", "tracer/scene.go:ImageFunc", "tracer/scene.go:NewScene"]}
{"id": "C75", "title": "Moving everything changes nothing", "statement": "Displacing a whole scene - every object, lamp and fog boundary - together with the camera gives the same image. The displaced scene is what the library builds when every position passed to it is displaced: spheres, boxes, cylinders, meshes, trees, translated and centred objects, CSG, point, rectangle and disk lights, cameras.", "quantifier": "all scenes, displacements, cameras, pixels, random sequences and recursion depths, without rounding errors", "why_tests_cant": "all scenes and all displacements; unbounded recursion and composition", "anchors": ["tracer/scene.go:LightField", "tracer/objects/tree.go:Tree", "tracer/objects/mesh.go:MeshWithUV", "tracer/objects/quadric.go:Sphere", "tracer/objects/transformed.go:Translated", "tracer/lights/planar.go:RectangleLight", "tracer/cameras/withtransform.go:Translate"]}
{"id": "C76", "title": "Samples are spread fairly", "statement": "When the random pairs are uniform on the unit square, disk samples are uniform on the disk, the positions sampled on rectangle and disk lamps are uniform on the lamp, the points where rays leave a camera's lens are uniform on the lens, and diffuse directions follow the cosine law around the surface normal: the mean of any quantity over the sampled directions is its integral over the hemisphere weighted with cos(angle)/pi. In particular the chance to be within the angle t of the normal is sin(t) squared.", "quantifier": "all regions (measurable sets), all quantities, all unit normals, all lamp sizes and places, all apertures", "why_tests_cant": "equality of probability distributions: uncountably many regions and functions; a finite sample can only be consistent with it", "anchors": ["tracer/sequence/mappings.go:UniformDisk", "tracer/sequence/mappings.go:CosineSphere", "tracer/lights/planar.go:RectangleLight", "tracer/lights/planar.go:DiskLight", "tracer/cameras/projective.go:ProjectiveAperture"]}
{"id": "C77", "title": "Lamps shine as they are seen", "statement": "What a matte surface receives from a rectangle or disk lamp is, in the mean over the random samples, the lamp's brightness times the chance that a random diffuse ray from the surface reaches the lamp unblocked: sampling lamps explicitly gives the same light as waiting for rays to meet them. So no lamp gives more than its brightness; a disk lamp of radius R at height H straight above gives cos(angle) R^2/(R^2+H^2) of it; moving and turning lamp and surface together changes nothing; and the sun gives the brightness asked for, times the cosine of the angle, up to a factor 1/(a^2/4+(1+Tiny/10^6)^2) for the angular diameter a.", "quantifier": "all lamp sizes, places and brightnesses, all surface points below the lamp and unit normals, all opaque obstacles (measurable shadows), all rigid motions, all sun positions; exact arithmetic, uniform random pairs", "why_tests_cant": "equality of two integrals over all directions for all geometries; renderings only agree up to noise", "anchors": ["tracer/lights/planar.go:Sample", "tracer/lights/planar.go:RectangleLight", "tracer/lights/planar.go:DiskLight", "tracer/lights/planar.go:SunLight", "tracer/lights/transformed.go:Transformed", "tracer/materials/matte.go:Shade", "tracer/sequence/mappings.go:CosineSphere"]}
{"id": "C78", "title": "More passes converge", "statement": "The mean over the passes of a pixel tends to the mean over all random choices: the share of the passes whose random pair has a property tends to the chance of the property; the pairs of the first two depths of a path are independent in the limit; the pixel of a matte surface lit by rectangle and disk lamps tends to its reflectance times the light it should receive; and the pixel of the picture that the sampler makes in N passes, whatever the workers and schedules, tends to the mean colour. Two random choices at the same depth of one pass are not independent (they are equal), so the claim is limited to one choice per depth.", "quantifier": "all pixels and shifts, all coprime bases, all bounded quantities that are continuous up to choices of measure zero, all lists of lamps and obstacles whose shadows have borders of no area, all image functions that use the pairs of depth one and two, all numbers of workers and schedules; exact arithmetic", "why_tests_cant": "a limit over infinitely many passes for every integrand", "anchors": ["tracer/sequence/halton.go:Halton", "tracer/sequence/sequence.go:Generate2", "tracer/ctx.go:NewCtx", "tracer/ctx.go:Init", "tracer/ctx.go:Generate2", "tracer/sampler.go:samplePixel", "tracer/materials/matte.go:Shade"]}
{"id": "C79", "title": "Fog shows the light scattered in it", "statement": "Over the passes, a camera ray through fog tends to the colour behind the fog, dimmed by the fog, plus the light of the lamps that the fog scatters towards the camera: at each distance the light that arrives there past all obstacles, dimmed by the fog in front of it. Only the first numLight lamps count. This holds for point lamps. For lamps with a size it is violated: the distance in the fog and the position on the lamp are drawn with the same random pair, so a lamp that lights part of the fog can leave it black in every pass.", "quantifier": "all fog densities and lengths, all camera rays, all lists of point lamps off the ray, all obstacles whose shadows have borders of no length on the ray, all pixels, shifts and coprime bases; exact arithmetic", "why_tests_cant": "a limit over infinitely many passes, for all fogs, lamps and obstacles; the bias for area lamps looks like plausible fog", "anchors": ["tracer/media/fog.go:Fog", "tracer/media/fog.go:Filter", "tracer/media/fog.go:randExpInterval", "tracer/lights/pointlight.go:Sample", "tracer/lights/planar.go:Sample", "tracer/ctx.go:Generate2"]}
{"id": "C80", "title": "Pictures show what is there", "statement": "A finished picture of flat-coloured objects shows in every pixel the colour of the surface first met along the line of sight through the centre of that pixel, and black where nothing is met. The line of sight is that of a pinhole camera with the given horizontal opening angle, position and yaw, pitch and roll; the first column is at the left, the first row at the top. This does not depend on the number of passes (if positive), of workers, the schedule or the random source.", "quantifier": "all picture sizes, cameras, scenes without media of painted spheres, and of cylinders, rectangles, disks and meshes where the rays meet the conditions of C25, C67 and C68; all worker schedules, pass counts above zero, random sources and seeds; exact arithmetic with infinities, no anti-aliasing", "why_tests_cant": "every pixel of every picture of every such scene under every schedule; a mirrored, shifted or mis-scaled picture looks plausible", "anchors": ["tracer/sampler.go:samplePixel", "tracer/sampler.go:IndexToCam", "tracer/cameras/projective.go:RayFrom", "tracer/cameras/withtransform.go:RayFrom", "tracer/scene.go:ImageFunc", "tracer/objects/quadric.go:Intersect", "tracer/materials/flat.go:Flat"]}
{"id": "C81", "title": "Image files are loaded faithfully", "statement": "Loading a picture as a texture gives, at every point of the unit square, the interpolation of the decoded and linearised pixels, with the picture upright: v=0 is the bottom row, v=1 the top row, and the texture repeats. Pixel centres give exactly the pixel. A height map is taken from the red channel without linearising. Files that cannot be read or decoded are reported. Values stay within [0,1]. Loading a picture and saving it again gives the same picture.", "quantifier": "all picture sizes and pixel values, all texture coordinates, all decoders' outcomes; exact arithmetic with infinities", "why_tests_cant": "every pixel of every picture at every coordinate; an off-by-one row or a slightly wrong encoding is invisible in a sample", "anchors": ["imagef/load.go:Load", "texture/texture2d.go:MustLoad", "api/texture.go:LoadTexture", "api/texture.go:HeightMap", "imagef/colorf/color.go:SRGBToLinear", "imagef/colorf/color.go:LinearToSRGB"]}
{"id": "C82", "title": "Animations leave the right frames", "statement": "Rendering an animation of n frames writes frame i, rendered from the specification the caller gives for i, to its own numbered file in the frames directory, and the last frame rendered to last.jpg, and touches no other file. Names are distinct and sort in the order of the frames. If rendering or writing stops early, all frames before that one are complete and none after it exists.", "quantifier": "all output names, frame functions, numbers of frames, and outcomes of each rendering and each write; all crash points", "why_tests_cant": "every crash point and every output path; file names collide or missort only for particular names and numbers", "anchors": ["api/animate.go:Animate", "api/animate.go:renderFrame", "api/render.go:save"]}
{"id": "C83", "title": "The watcher runs the latest version", "statement": "bruteray-watch runs at most one program at any time. Once the source file no longer changes and compiles, the program that was started last is made from the last version of the file, also if the file changed during an earlier compilation, and it is not started more than once for that version after the watcher has seen it. A version that does not compile stops the old program, and the watcher goes on. Whatever happens, the watcher goes on watching.", "quantifier": "all sequences of modifications, compilation outcomes, start failures and spontaneous exits", "why_tests_cant": "every interleaving of edits with compilation and polling", "anchors": ["cmd/bruteray-watch/main.go:watch", "cmd/bruteray-watch/main.go:rerun", "cmd/bruteray-watch/main.go:compile"]}
{"id": "C84", "title": "Pictures of lit things obey optics", "statement": "In a scene of bodies that glow or are matte, mirroring, varnished, made of glass or transparent, or mixtures of these, lit by point lamps, every pixel is the mean over the passes of colours that follow from the laws of optics along the line of sight: what is met first counts; lamps light matte surfaces by the inverse square law and the cosine of the angle of incidence unless something is in the way (a transparent body in the way takes its share once); mirrors, coats and glass send light on by the laws of reflection, Snell and Fresnel; and light is followed over as many surfaces as the recursion depth. Nothing crashes and no value is infinite or undefined.", "quantifier": "all scenes of such bodies, cameras, picture sizes, recursion depths, sample sequences, random sources, passes, numbers of workers and schedules; exact arithmetic with infinities", "why_tests_cant": "every pixel of every scene under every schedule; any material may meet any other at any depth", "anchors": ["tracer/scene.go:lightField", "tracer/scene.go:Occlude", "tracer/materials/matte.go:Shade", "tracer/materials/reflective.go:Shade", "tracer/materials/refractive.go:Shade", "tracer/materials/transparent.go:Filter", "tracer/materials/blend.go:Blend", "tracer/materials/twosided.go:Shade", "tracer/lights/pointlight.go:Sample", "tracer/sampler.go:samplePixel"]}
{"id": "C85", "title": "Rendering does not crash", "statement": "Taking a picture of a scene never panics: whatever balls, cylinders, meshes, combinations, placements, materials, media, lamps and camera the scene is made of, light can be followed along every ray and every pixel gets a colour, also when rounding makes numbers inexact, infinite or undefined.", "quantifier": "all scenes made of the library's objects, materials and lamps, all cameras, picture sizes up to 2^50 by 2^50, recursion depths, sample sequences, random sources, passes, workers and schedules; double precision arithmetic with rounding, infinities and NaN", "why_tests_cant": "the panics in the code guard conditions that fail only for particular rays out of the billions a picture takes, or only after rounding", "anchors": ["tracer/scene.go:lightField", "tracer/ctx.go:Generate2", "tracer/objects/box.go:normal", "tracer/objects/tree.go:Intersect", "tracer/sampler.go:IndexToCam", "tracer/sequence/halton.go:Halton", "tracer/lights/planar.go:Sample", "tracer/materials/matte.go:Shade"]}
{"id": "C86", "title": "Balls are seen where they are in double precision", "statement": "In double precision, with all its rounding, a ball is reported as hit only where the ray meets its surface (the squared distance of the point from the centre is the squared radius up to 2^-28), it is reported at the first such point, to within 2^-23, whenever the ray clearly enters or leaves it, nothing is reported for rays that stay off the surface, and the normal points away from the centre to within 2^-32.", "quantifier": "all balls and rays with coordinates and radius up to 64 (normals: radius from 1/32) and directions whose squared length is between a half and two; IEEE double precision with rounding and gradual underflow", "why_tests_cant": "rounding errors differ for each of the 2^600 rays; cancellation in the quadratic formula shows only for particular ones", "anchors": ["tracer/objects/quadric.go:Sphere", "tracer/objects/quadric.go:Intersect", "tracer/interfaces.go:HitRecord"]}
{"id": "C87", "title": "Balls do not shadow themselves", "statement": "In double precision a matte ball has no speckles of its own shadow: where the surface faces a lamp, the light of the lamp is cut off only by other objects, never by the ball itself, so the colour is to the last bit the one computed with the ball left out of the shadow test.", "quantifier": "all scenes with a ball of radius from 1/32 to 64 and coordinates up to 64, seen from outside, with lamps whose samples keep 1/1024 off the ball and have coordinates up to 1024; all other objects, textures, random sources and views; IEEE double precision", "why_tests_cant": "whether a shadow ray meets the surface it starts from depends on the rounding of each single ray", "anchors": ["tracer/materials/matte.go:Shade", "tracer/scene.go:Occlude", "tracer/objects/quadric.go:Intersect", "tracer/ray.go:Tiny"]}
{"id": "C88", "title": "The viewer settles on the full picture", "statement": "If the user leaves the viewer alone, not paused and with the mouse button released, and its requests are answered with images, then after at most five rounds of its loop the window shows the current view at full size and antialiased, whatever was going on before, and it keeps showing that.", "quantifier": "all reachable states of the viewer at the start of a round of its loop, all continuations without events", "why_tests_cant": "the state may hold a cancelled request, a stale image or any resolution; that progress never gets stuck is about all histories", "anchors": ["cmd/bruteray-view/main.go:run", "cmd/bruteray-view/main.go:goBakeAndSend", "cmd/bruteray-view/main.go:handleBakery", "cmd/bruteray-view/main.go:repaintIfNeeded"]}
{"id": "C89", "title": "In front of a backdrop small trees can be shown", "statement": "A scene that holds a backdrop can be rendered without a crash, also if it holds trees of any number of members (which without a backdrop can crash the renderer): every ray sees something that is not beyond the backdrop and has a material.", "quantifier": "all scenes with a backdrop made of objects that have materials and cannot fail, all rays, cameras, image sizes, random choices, numbers of workers and schedules", "why_tests_cant": "whether a ray meets the box of a tree but none of its members depends on the ray and on rounding; that the backdrop hides that case must hold for every ray", "anchors": ["tracer/objects/backdrop.go:Intersect", "tracer/objects/tree.go:Intersect", "tracer/scene.go:LightField", "examples/teapot/teapot.go"]}
{"id": "C90", "title": "Debug views show how surfaces face the viewer", "statement": "With DebugNormals = 1 the picture shows the surfaces of the scene, whatever their materials, in a grey equal to the cosine between the normal and the direction to the viewer, or in red of that strength where the normal points away; backdrops and empty places are black, and lamps and fog have no influence. With DebugNormals = 2 every surface shows 30% of a grey between 0.5 and 1 that depends on this cosine and 70% of what is behind it.", "quantifier": "all specifications, rays and first surfaces met", "why_tests_cant": "all scenes and rays; comparison pictures cover a few", "anchors": ["api/spec.go:InitDefaults", "api/spec.go:applyMaterial", "tracer/test/materials.go:Normal", "tracer/test/materials.go:Normal2"]}
{"id": "C91", "title": "Boxes are seen where they are, in double precision", "statement": "In double precision arithmetic a box reports a hit only at points in front of the viewer and on its surface, up to 2^-38; a ray from clearly outside or clearly inside the box that has a point clearly inside ahead is always reported, and no earlier point is clearly on the other side. The normal is exactly the outward unit vector of a face at the hit point, up to 2^-26, the local coordinates are those relative to the lower corner up to 2^-38, and a ray that meets a box never panics.", "quantifier": "all boxes and rays with coordinates up to 1024 and directions of about unit length; all roundings, infinities and NaN of the intermediate results", "why_tests_cant": "rounding errors depend on every bit of the ray and the box, and rays parallel to or through edges of faces divide by zero or by nearly zero", "anchors": ["tracer/objects/box.go:Intersect", "tracer/objects/box.go:normal", "tracer/objects/boundingbox.go:intersect"]}
{"id": "C92", "title": "Rooms of balls and boxes can be shown in double precision", "statement": "In double precision arithmetic a picture of a room made of balls, boxes and plain surfaces with coordinates up to 60, lit by point lamps that do not touch a surface, with any of the materials (matte, mirrors, glass with refraction indices between 1/4 and 4, and mixtures of these), is taken without a crash: rays thrown back, refracted or scattered stay inside the range in which boxes find the face that was hit.", "quantifier": "all such rooms, cameras without a lens in the room turned up to three times and moved up to a hundred times, image sizes up to a million by a million pixels, passes, workers, schedules, random numbers and recursion depths up to a million", "why_tests_cant": "a box panics if no face is near the point that was hit; whether that happens depends on the rounding of every ray ever followed, and thus on the scene, the pixel and the random numbers", "anchors": ["tracer/objects/box.go:normal", "tracer/scene.go:LightField", "tracer/materials/matte.go", "tracer/materials/refractive.go", "tracer/cameras/projective.go:RayFrom"]}
{"id": "C93", "title": "Files with meshes show the polygons they list", "statement": "An object made from an OBJ or PLY file is hit where a ray first meets one of the polygons listed in the file, its vertices moved by the given transforms from left to right, and for an OBJ file has the material given for the name in the last usemtl line before that polygon, in whatever order the materials are visited. An OBJ file is loaded exactly if every line means something, there is a face, all materials with faces are given and all vertices of faces exist; otherwise the program ends. A ray beside the polygons sees what is behind.", "quantifier": "all files, number readers, transforms, materials, orders in which the materials are visited, and rays", "why_tests_cant": "there are infinitely many files and rays, the iteration order of a Go map is not fixed, and parsing, transforming, splitting into triangles and the tree must all agree", "anchors": ["tracer/objects/mesh.go:PlyFile", "tracer/objects/mesh.go:ObjFile", "tracer/objects/mesh.go:applyTransform", "tracer/objects/obj", "tracer/objects/ply"]}
{"id": "C94", "title": "Pictures of things that are put together show what is first met", "statement": "A scene of flat-coloured balls, cylinders, boxes, rectangles, disks and meshes, grouped in trees, placed by invertible affine maps, repainted, hollowed or combined as solids by intersection, union, complement and restriction, before a sky or not, is shown right: after any positive number of passes every pixel has the colour of the point first met along the line of sight through its centre, and that of the sky in its direction (black without a sky) where nothing is met. This holds for lines of sight that do not start on or run in the plane of a bounding box, and pass the surfaces of combined solids more than the marching step apart, at most 100 times, without just touching them; without a sky, something must be met where a tree of at most seven members is passed.", "quantifier": "all scenes put together from these, all views, picture sizes, numbers of passes and workers, schedules, random sources and seeds", "why_tests_cant": "there are infinitely many ways to put things together, views and schedules; each part has its own test and its own bounding box, and all must agree on what is in front", "anchors": ["tracer/objects/tree.go", "tracer/objects/csg.go", "tracer/objects/transformed.go:Transformed", "tracer/objects/backdrop.go:Backdrop", "tracer/objects/mesh.go:WithMaterial", "tracer/scene.go:Scene", "tracer/sampler.go:samplePixel"]}
{"id": "C95", "title": "Lit pictures of things that are put together show the light that falls on what is first met", "statement": "Take a scene of balls and boxes that are matte, mirrors, flat, clear or mixtures of these, grouped in trees, placed by maps that multiply all distances by the same number, repainted, hollowed, inverted or combined as solids by intersection, union, complement and restriction, with lamps, before a sky or not, and no fog. After any positive number of passes every pixel is the mean of the light that comes back along the lines of sight: at the point first met, the material that is there, with the normal of the surface that is there, gives back the light of every lamp that no thing keeps from the point, and the light followed on from there as many times as the recursion depth allows. Each thing of the scene dims the light of a lamp at most once, by what the body of it that is first met lets through; where nothing is clear, a lamp lights a point just if nothing is in between.", "quantifier": "all scenes put together from these, lamps, views, picture sizes, recursion depths, numbers of passes and workers, schedules, random sources and seeds, such that the rays followed do not start on or run in the plane of a bounding box, and pass the surfaces of combined solids more than the marching step apart", "why_tests_cant": "there are infinitely many ways to put things together, lamps, views and schedules; shadows, normals and materials must all come from the same first point met, through every wrapper", "anchors": ["tracer/scene.go:Scene", "tracer/scene.go:Occlude", "tracer/materials/matte.go", "tracer/objects/tree.go", "tracer/objects/csg.go", "tracer/objects/transformed.go:Transformed", "tracer/objects/mesh.go:WithMaterial", "tracer/sampler.go:samplePixel"]}
{"id": "C96", "title": "Lit scenes on a floor under a sky show the light that falls on what is first met", "statement": "Take a scene of a horizontal rectangular floor, a sky, and things that are shown right along all rays (such as balls) and stay off the plane of the floor and the vertical planes through its edges, all of surfaces that are matte, mirrors, flat, clear, glass, varnished or mixtures of these, textured or not, with lamps and no fog, and a camera that is in none of these planes; everything within 1e98 of the origin. After any positive number of passes every pixel is the mean of the light that comes back along the line of sight, followed on as many times as the recursion depth allows. The floor has the normal upwards and its texture is spread over it from corner to corner. More generally a mesh shows its triangles with normals and texture positions between those of the corners.", "quantifier": "all floors, materials, textures, skies, things and lamps of this kind, all views, picture sizes, recursion depths, numbers of passes and workers, schedules, random sources and seeds", "why_tests_cant": "a matte floor scatters into infinitely many directions, and no ray of them may meet a case in which the box around the floor, the triangles it is made of or the sky behind it is tested wrongly", "anchors": ["tracer/objects/mesh.go:Rectangle", "tracer/objects/mesh.go:RectangleWithVertices", "tracer/objects/mesh.go:Quadrilateral", "tracer/objects/mesh.go:MeshWithUV", "tracer/objects/backdrop.go:Backdrop", "tracer/scene.go:Scene", "tracer/materials/matte.go", "tracer/sampler.go:samplePixel"]}
{"id": "C97", "title": "Pictures converge to the light that falls on matte surfaces from all sides", "statement": "Take a lit scene without fog, with light followed over two surfaces. Where a matte surface is seen, the pixel tends, as the number of passes grows, to the fraction that the surface reflects times all the light that falls on it: the light of the lamps plus the integral over all directions above the surface of what comes from there, weighted with the cosine of the angle to the normal. In a scene of a matte floor and matte balls under a sky and without lamps this is the light of the sky that is not blocked; under an even sky, the light of the sky times the unblocked share. Straight below a ball of radius r at a distance H that share is 1 - (r/H)^2.", "quantifier": "all scenes of this kind, all views, pixels, numbers of workers for each number of passes, schedules, random sources, seeds and shifts of the sample sequences", "why_tests_cant": "the limit is an integral that no finite number of passes reaches; a wrong weight or a bias in the directions shows only as a slightly wrong shade", "anchors": ["tracer/materials/matte.go", "tracer/ctx.go:Generate2", "tracer/sequence/halton.go:Halton", "tracer/sequence/sequence.go:Generate2", "tracer/sequence/mappings.go:CosineSphere", "tracer/sampler.go:samplePixel", "tracer/scene.go:Scene", "tracer/objects/mesh.go:Rectangle", "tracer/objects/quadric.go:Sphere", "tracer/objects/backdrop.go:Backdrop"]}
{"id": "C98", "title": "Pictures and error estimates are accumulated accurately in double precision", "statement": "With up to 2^26 passes of samples no brighter than a million, each channel of a pixel computed in 64-bit floating point differs from the exact mean of its samples by at most (2n+4)/2^53 of the mean magnitude, and the variance behind the error estimate differs from the exact sample variance by at most (8n+32)/2^53 of the sum of squares over n-1. The standard deviation that is reported is always a number.", "quantifier": "all sequences of samples within that brightness, all numbers of passes up to 2^26, all pixels, numbers of workers and schedules", "why_tests_cant": "rounding errors depend on every sample value and on the order of accumulation; a test picture shows the error of one sequence", "anchors": ["tracer/sampler.go:samplePixel", "tracer/sampler.go:Image", "tracer/sampler.go:StdDev", "imagef/colorf/color.go:Mul", "imagef/colorf/color.go:Add"]}
{"id": "C99", "title": "Pictures with lamps that have a size converge to soft shadows", "statement": "In a scene with point lights, rectangle lights and disk lights, a pixel shows what is first met on its line of sight: a lamp looks as bright as it was made from below and black from above, and other surfaces follow their law of optics with light from random places on the lamps, reduced by what is in the way. As the number of passes grows, a pixel that shows a matte surface tends to the fraction that the surface reflects, times the light that falls on it: for each area lamp its brightness times the share of the view from there in which the lamp is not hidden, plus the light from the other directions, with the lamps counted once.", "quantifier": "all scenes of floors, skies and other things with any number of point, rectangle and disk lights, all cameras, picture sizes, random sequences, numbers of workers and schedules; means of area lamps at all places below them", "why_tests_cant": "the statement is a limit over an unbounded number of passes and an identity between integrals over the lamp and over directions, for every arrangement of things in the way", "anchors": ["tracer/lights/planar.go:RectangleLight", "tracer/lights/planar.go:DiskLight", "tracer/lights/pointlight.go:PointLight", "tracer/scene.go:LightField", "tracer/scene.go:LightFieldIndirect", "tracer/materials/matte.go:Shade"]}
{"id": "C100", "title": "Floors are seen where they are and do not shade themselves, in double precision", "statement": "With all roundings of the arithmetic taken into account, a level rectangle of ordinary size is reported only where it is: at its own height up to a tiny error, not beyond its edges by more than a tiny margin, at the distance along the ray, with a normal straight up, its own material, and texture coordinates that tell the place on it; never for a ray that goes away from it. A ray that meets it well inside its edges gets that hit. A matte point of it is lit by every lamp on the viewer's side as if the rectangle were not there to cast a shadow on itself.", "quantifier": "all level rectangles with sides from 2 and within 1000 of the origin, all rays from within 1024 that do not start in the plane, all lamps off the plane, all other objects; double precision", "why_tests_cant": "rounding errors depend on every bit of sizes, positions and directions: the gaps and false shadows they could cause sit on thin lines that samples do not meet", "anchors": ["tracer/objects/mesh.go:Rectangle", "tracer/objects/mesh.go:RectangleWithVertices", "tracer/objects/mesh.go:face.Intersect", "tracer/objects/mesh.go:calcNormals", "tracer/objects/tree.go:Intersect", "tracer/materials/matte.go:Shade"]}
{"id": "C101", "title": "Lit surfaces have the right brightness in double precision", "statement": "With all roundings of the arithmetic taken into account, a matte point of a ball, a box or a floor shows the light of the lamps by the laws of optics: for each lamp that can be seen from the point the power over the area of the sphere around the lamp times the cosine of the angle of incidence, nothing for a lamp that is behind the surface or hidden by another object, and besides these the light found in the one direction looked into for the surroundings, all times the part that the surface returns. The error is at most a part in 2048 of the light of the lamps, however many there are.", "quantifier": "all scenes of balls, boxes and floors near the origin, any number of lamps (up to a million) at least 1/8 away, each clearly seen or clearly hidden; all matte textures; all rays that meet the surface clearly; double precision", "why_tests_cant": "the brightness depends on every coordinate of the point, of the lamps and of whatever may be in between; a wrong factor, a false shadow or a missed one shows only in some arrangements", "anchors": ["tracer/materials/matte.go:Shade", "tracer/lights/pointlight.go:Sample", "tracer/scene.go:Occlude", "tracer/objects/quadric.go:Sphere", "tracer/objects/mesh.go:Rectangle", "tracer/objects/box.go:Intersect"]}
{"id": "C102", "title": "The nearest thing is seen, with the right colour, in double precision", "statement": "With all roundings of the arithmetic taken into account, the light that comes along a ray is that of the nearest thing on the ray's line: of several balls, boxes, floors and skies the one met first is the one whose material is asked, at the right distance; if it is matte its colour is right (lamps by the laws of optics, hidden lamps left out, other light through the one direction looked into), and at the last level of recursion it is the light of the lamps alone. Where a line is clear of everything else the sky is seen, with exactly its colour in that direction. Lamps without size are never seen.", "quantifier": "all scenes of any number of balls, boxes, level floors and a sky, in any order, with any number of lamps without size and no media; all rays that meet the nearest thing clearly and are clear of all others that far; direct and indirect light; double precision", "why_tests_cant": "which thing is nearest depends on all of the scene and on the order of its objects; a wrong comparison, a lost ray or a rounding error at one object shows only in some arrangements", "anchors": ["tracer/scene.go:LightField", "tracer/scene.go:lightField", "tracer/materials/matte.go:Shade", "tracer/objects/backdrop.go:Intersect", "tracer/objects/quadric.go:Sphere", "tracer/objects/mesh.go:Rectangle", "tracer/objects/box.go:Intersect"]}
{"id": "C103", "title": "Pictures of matte things lit by lamps are right, in double precision", "statement": "With all roundings of the arithmetic taken into account, the ray through the centre of each pixel is the right line of sight: it starts within 2^-35 of where the pinhole camera stands and its direction is within 2^-22 of the exact one, for all opening angles from 4 to 114 degrees and all yaw, pitch and roll. A whole picture, anti-aliased or not, of a scene of matte or glowing balls, boxes and floors before a backdrop, lit by lamps without size, has in each pixel the exact colour (inverse square law, slant, hidden lamps left out, nearest thing seen), within a bound that is stated, after any number of passes, with any number of workers however they are scheduled; and rendering never crashes.", "quantifier": "all pictures up to 65536 by 65536 pixels; all cameras; all scenes of any number of balls, boxes, level floors and lamps without media; all schedules, numbers of workers and passes up to 2^26; double precision", "why_tests_cant": "a picture combines the camera, the loop over objects, shadows, materials, means and the scheduling of workers; tests compare with pictures made by the same program and cannot say that each pixel is close to the exact value for every scene and schedule", "anchors": ["tracer/cameras/projective.go:RayFrom", "tracer/cameras/projective.go:Projective", "tracer/scene.go:LightField", "tracer/scene.go:ImageFunc", "tracer/materials/matte.go:Shade", "tracer/sampler.go:samplePixel", "tracer/sampler.go:Image"]}
{"id": "C104", "title": "The halton command prints the points it is asked for", "statement": "With bases of at least 2, a stride of at least 1 and a start of at least 0 the command `halton` ends; its line number k is the pair of Halton numbers with index start + k*stride in the two bases (with -disk mapped into the disk inside the unit square, with -rand the random numbers instead), and exactly n lines are printed.", "quantifier": "all bases, starts, strides and counts, all random numbers; exact numbers, and double precision for the numbers printed", "why_tests_cant": "the number of lines depends on how start, stride and count interact; the loop has no bound that a test could exhaust", "anchors": ["cmd/halton/halton.go:main", "tracer/sequence/halton.go:Halton", "tracer/sequence/mappings.go:UniformDisk"]}
{"id": "C105", "title": "Mirrors show what is in front of them, in double precision", "statement": "With all roundings of the arithmetic taken into account, a mirror that is the nearest thing on the line of a ray shows, times its own colour, what is seen from the point where it is met in the direction given by the law of reflection: the new ray starts within 2^-19 of that point, its direction is within 2^-12 of the exact one, and it never meets the same mirror again. So what is seen by way of any number of mirrors, up to the depth of recursion, is right within a bound that is stated, and so are whole pictures with mirrors, with any number of workers however they are scheduled; rendering them never crashes.", "quantifier": "all scenes of any number of balls, boxes and level floors (mirrors, matte or glowing) and a sky, with any number of lamps without size and no media; all rays that meet a mirror clearly and not at a grazing angle; any number of mirrors one after the other; all pictures, schedules and numbers of workers as in C103; double precision", "why_tests_cant": "rounding may put the start of the reflected ray behind the mirror, which then shows itself (acne), for some rays only; errors add up from mirror to mirror", "anchors": ["tracer/materials/reflective.go:Shade", "tracer/materials/reflective.go:reflect", "tracer/scene.go:LightField", "tracer/objects/quadric.go:Sphere", "tracer/objects/mesh.go:Rectangle", "tracer/objects/box.go:Intersect", "tracer/sampler.go:Image"]}
{"id": "C106", "title": "What is behind transparent things is seen through them, in double precision", "statement": "With all roundings of the arithmetic taken into account, a transparent thing that is the nearest thing on the line of a ray shows, times its own colour, what is seen from the point where it is met in exactly the same direction: the new ray starts within 2^-19 of that point and beyond the surface, so the surface is never met twice; inside a ball or box, the far side is met next unless something else is inside, and the ray then gets out of it likewise. So what is seen through any number of transparent surfaces and by way of any number of mirrors, up to the depth of recursion, is right within a bound that is stated, and so are whole pictures.", "quantifier": "all scenes of any number of balls, boxes and level floors (transparent, mirrors, matte or glowing) and a sky, with any number of lamps without size and no media; all rays that meet the surface clearly and not at a grazing angle; any number of surfaces one after the other; all pictures, schedules and numbers of workers as in C103; double precision", "why_tests_cant": "rounding may leave the start of the new ray before the surface, which is then met and tinted twice, for some rays only", "anchors": ["tracer/materials/transparent.go:Shade", "tracer/scene.go:LightFieldIndirect", "tracer/objects/mesh.go:Rectangle", "tracer/objects/box.go:Intersect", "tracer/sampler.go:Image"]}
{"id": "C107", "title": "Transparent things colour the light of lamps, in double precision", "statement": "With all roundings of the arithmetic taken into account, the light of a lamp that reaches a point is the light of the lamp times the colour of every transparent surface between the two, up to a part in 2^52 for each of them; if anything opaque is between the two, no light arrives, whatever else there is before or behind it. So a thing lets the light of lamps through as it lets through what is seen.", "quantifier": "all scenes of any number of balls, boxes, level floors and a sky, each transparent of one colour or opaque, that clearly are or clearly are not in the way; all points within 64 and lamps within 1024 of the origin; up to 2^20 things in the way; double precision", "why_tests_cant": "ranges over all arrangements of things and all roundings; pictures with a tint that is wrong look plausible", "anchors": ["tracer/scene.go:Occlude", "tracer/materials/transparent.go:Filter", "tracer/objects/box.go:Intersect"]}
{"id": "C108", "title": "Comparing a rendered picture with the stored one finds every difference", "statement": "The comparison that the tests of the program rest on is right: a picture passes without tolerance exactly if it is the stored one; with a tolerance, no pixel of a picture that passes differs by more than a known amount, and with the default tolerance and width a picture passes exactly if the differences of all pixels add up to at most 693 of 65535. The deviation is the mean difference of the pixels, whatever the shape of the picture, and pictures of different size never pass. It does not matter which of the two is the stored one.", "quantifier": "all pairs of decoded pictures of any size and content; all tolerances; exact arithmetic", "why_tests_cant": "the tests use this comparison themselves; a difference that it overlooks is overlooked by all of them", "anchors": ["tracer/test/test.go:Diff", "tracer/test/test.go:diff", "tracer/test/test.go:Compare"]}
{"id": "C109", "title": "The table of errors against passes", "statement": "Each call of Sample adds one row to the table: the number of passes up to then and the root-mean-square error of the picture against the reference, with what is brighter than white cut off. The error is zero exactly if the two agree, and a reference that is smaller than the picture is never taken for a match.", "quantifier": "all histories of calls, all pictures and references of any size; errors in exact arithmetic, the table and the crash in any arithmetic", "why_tests_cant": "ranges over all histories and pictures; the error is a number nobody knows beforehand", "anchors": ["tracer/test/convergence.go:Sample", "tracer/test/convergence.go:rmsError", "tracer/test/convergence.go:clamp"]}
{"id": "C110", "title": "The simple ball and sheet of the tests", "statement": "The simple ball reports the first point of its surface ahead of the start of the ray, with the outward normal of length one, and nothing if there is none; rays whose direction is not of length one are refused. The light of the simple lamp comes from a point just outside of its own ball. The simple level sheet is met where the ray comes to its height, ahead or at the start, and never by level rays at another height.", "quantifier": "all balls, sheets and rays; exact arithmetic (for the sheet with infinities and signed zeros)", "why_tests_cant": "ranges over all rays; many tests are built from these two", "anchors": ["tracer/test/objects.go:Sphere", "tracer/test/objects.go:Sheet", "tracer/test/test.go:checkRay"]}
{"id": "C111", "title": "The wave function for height maps", "statement": "The function for ring-shaped waves in height maps and in the scene of cubes is sin x / x, with the value 1 in the middle: it has no step there, is the same on both sides, stays between -1 and 1 and dies out with the distance; shifted and halved, as in the tests, it stays between 0 and 1. The greatest of three numbers is one of them and no smaller than any.", "quantifier": "all real arguments; exact arithmetic", "why_tests_cant": "ranges over all arguments; the only test that uses the waves is skipped", "anchors": ["util/util.go:Sinc", "util/util.go:Max3"]}
