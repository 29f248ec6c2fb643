# Formal model of bruteray: design

The model is in `lean/Verif`. Every definition cites the Go file and lines it models.
This document was written before the proofs; sections are extended as the model grows.

## Approach

* **Numbers.** Model functions that compute with float64 are generic over a type `F` with the Go
  operations (`GoFloat`, arithmetic by `Add`, `Sub`, `Mul`, `Div`, `Neg`). Instances:
  1. no laws: theorems that hold for every `F` hold for real float64 (C11, C15, ...);
  2. lawful comparisons (Go `<`, NaN unordered), for code that only compares (C13, C20, ...);
  3. `R` exact reals, for geometry and optics. Rounding is **not** modelled there;
  4. an extended type with NaN, signed infinities, signed zero and exact finite arithmetic, for
     code whose behaviour depends on special values (C19, C30, C41, C48, ...);
  5. `Flo`: as 4, but every operation rounds as in IEEE 754: to 53 bits, nearest even, with gradual
     underflow and overflow to infinity; conversion to float32 likewise with 24 bits. Library functions
     are taken to be correctly rounded. Used where rounding itself is the point (C18, C23, C42, C85, C86, C87).
  Division by zero on the reals is totalised by Lean; theorems over `R` carry the hypotheses that
  rule it out, and instance 4 covers what happens otherwise.
* **Panics and errors** are values (`Except`). Runtime panics modelled: explicit panics, index out of
  range, nil dereference and failed type assertions where the code can reach them.
* **Mutation** (ray state, pools, image arrays) is state passing. **Goroutines** and request handlers
  are transition systems, theorems quantify over all executions.
* **Loops** whose termination is part of a property use a fuel argument and a theorem that enough
  fuel exists (or that none suffices).
* **Violations.** Where the code violates an intended property the negation is proved with a concrete
  witness, the provable remainder is named `_partial`, and the disagreement is recorded below.
* Model files: `Verif/Model`, independent specifications: `Verif/Spec`, helper lemmas: `Verif/Lemmas`,
  property theorems: `Verif/Props`. Beside each theorem an `example` shows that its hypotheses can be met.

## Trusted base

* Lean's kernel (4.33.0) and Mathlib definitions; axioms used: at most `propext`,
  `Classical.choice`, `Quot.sound`.
* That the Lean definitions follow the Go text (read by hand; citations per definition).
* Go semantics as described in the model comments: truncating integer division, `%` with the sign
  of the dividend, comparisons with NaN false, unbounded integers instead of 64-bit (sizes below 2^63),
  no fused multiply-add.
* Not modelled: rounding and overflow of float64 (except where stated), gob/HTTP/JPEG/PNG codecs,
  file system, GUI drawing, the clock, `math/rand`, garbage collection, out-of-memory.

## Plan per property

* **C01 Tiles partition the image.** Tessellate as a recursive list of rectangles (Int loops as in Go). Proof: membership characterisation of the list, existence and uniqueness of the covering tile.
* **C02 The tile queue never blocks and rendering finishes.** Queue capacity divUp*divUp compared with the length of the tile list; worker pool as a small-step state machine, a decreasing measure bounds every schedule.
* **C03 Parallel sampling is schedule independent.** Workers as a state machine whose steps are single reads/writes of the pixel arrays; invariant relating memory to per-worker progress; the final state equals the sequential fold. For image functions that draw at random `C03_every_pass` says that each pixel accumulates one possible colour per pass, and `C03_random_safe` that nothing crashes or races.
* **C04 Progressive rendering composes.** SamplePixel as a fold over passes; fold over a concatenation.
* **C05 The image is the mean of the samples.** Accumulator fold over a sample list; equals the mean without NaN (partial), witness for the NaN case (violated by the code).
* **C06 The error estimate is the standard error estimate.** Variancef over reals; Cauchy-Schwarz by induction over the sample list.
* **C07 Pixel coordinates.** IndexToCam over an exact field; range (landscape only: portrait violates), injectivity, pitch, centre, panic.
* **C08 Anti-aliasing covers the pixel.** Context initialisation as in the code; witness that the AA sequence is never initialised; footprint comparison with the pixel pitch.
* **C09 Halton numbers.** Halton loop over Nat with rational accumulator; digits induction, radical inverse as independent spec.
* **C10 Random-shifted sequences stay in the unit square.** Generate2 with Frac over a floor field; range and purity.
* **C11 Ray pool.** Pool as a list of free ray ids plus a heap; invariant: free and outstanding ids are disjoint and duplicate free.
* **C12 Recursion depth.** Materials and scene as mutually recursive fuelled functions; fuel-independence, depth restored, bound; witness of non-termination for negative limits.
* **C13 The nearest surface is shaded.** Fold over hit records, numbers with lawful Go comparison (NaN included); the result is the argmin.
* **C14 Shadows.** Fold over occluders; permutation invariance; witness for composite objects.
* **C15 Intersection does not alter the ray.** Obj abstract syntax, state-passing Intersect; structural induction; for every number instance (no float laws used).
* **C16 CSG membership is a Boolean algebra.** Inside on Obj; pointwise Boolean identities.
* **C17 CSG hits are on the combined surface.** AndMarch with ttl; soundness over exact numbers; 1-D crossing model for the first-crossing theorem.
* **C18 Bounds contain the object.** Structural induction over Obj, extended reals so that infinite boxes are covered.
* **C19 Bounding box test.** Slab test over extended reals with NaN, infinities and signed zero; set semantics of the forward ray; witness for rays starting exactly on a face.
* **C20 Bounding box of a point set.** Fold over the hull, lawful comparisons, least upper/lower bounds.
* **C21 A tree of objects behaves like the list of its objects.** Node.Intersect against a linear scan; witness for the root-leaf miss value.
* **C22 Tree construction.** BuildTree parametrised by an arbitrary permuting sorter; permutation, leaf size, termination. Aliasing modelled by returning the sorted slice.
* **C23 Tree boxes are conservative.** Rounding function parameter: sound if outward, witness for rounding to nearest.
* **C24 Triangle intersection.** Face.Intersect over reals, barycentric spec.
* **C25 Sphere and quadric intersection.** Quadric.Intersect over reals, least positive root spec.
* **C26 Isosurface intersection.** Bisect loop with fuel; sign-change invariant; witness for brackets that start below the surface.
* **C27 Affine transform algebra.** Polynomial identities over a field.
* **C28 Rotations are rigid.** Real trigonometry, Rodrigues matrix orthogonal.
* **C29 Transformed objects.** Transformed over Obj; state-passing Intersect.
* **C30 Bounds of transformed objects.** Convexity of boxes; extended-number witness that unbounded boxes give NaN and hence a panic.
* **C31 Placement helpers.** Box arithmetic over the reals.
* **C32 Parametric meshes.** Index arithmetic over Nat loops.
* **C33 Polygons are split correctly.** List manipulation and index checks.
* **C34 OBJ parsing.** Line/token level model of the scanner; print-parse round trip; all panics become errors.
* **C35 PLY parsing.** Same as C34.
* **C36 PPM encoding round-trips.** Byte-list and text encoders against an independent decoder.
* **C37 Write errors are reported.** Writer as a state machine that fails at the n-th write; witness for the binary encoder.
* **C38 sRGB conversion.** Real powers; range and monotonicity proved, inversion violated (witness).
* **C39 Image containers.** Images as heap rows; MakeImage, Copy, write history.
* **C40 Bloom.** Loops as sums; equality with the gather formula.
* **C41 Star bloom is finite.** Extended numbers: zero kernel sum gives NaN (violated for small radii).
* **C42 Texture lookups are in range.** Warp/bilinear over a floor field; index ranges, convexity; witness for nearest.
* **C43 Procedural textures are periodic.** Int remainder arithmetic.
* **C44 Mirror reflection.** Vector algebra with a unit normal.
* **C45 Refraction conserves energy and obeys Snell's law.** Real arithmetic with square roots.
* **C46 Sampling maps.** Real arithmetic with square roots and trigonometry.
* **C47 Cameras.** Real vector algebra; the documented focus distance is violated when focal length differs from 1 (witness).
* **C48 Exponential fog.** Interval arithmetic on extended numbers; witness for horizontal rays.
* **C49 Scattering distances.** Real exp/log; inverse distribution function.
* **C50 Light sampling.** Real arithmetic.
* **C51 Transformed lights.** Type assertion modelled as a partial function; witness for point lights.
* **C52 At most one bake at a time.** Server as a transition system over a finite set of request threads; invariants, reachable counterexample with cancel.
* **C53 The viewer never shows a stale render.** Viewer as a transition system with a ghost view counter; invariants.
* **C54 Viewer camera state.** Same transition system as C53, per-event lemmas.
* **C55 Pass budget.** Loop over Nat; triangular number characterisation.
* **C56 Defaults.** Record update function; witness for width 1 and for repeated application.
* **C57 Output file names.** String model of filepath.Ext as in Go.
* **C58 Shallow renders are deterministic.** Scene model instantiated in the sampler model; the generator used at depth at most 2 ignores the random source.
* **C59 Material combinators.** Pointwise identities on the shading functions.
* **C60 Colour arithmetic.** Componentwise field identities.
* **C61 Normals of height surfaces.** Difference quotients and the mean value theorem; witness for a footprint that is not the unit square.
* **C62 Fisheye mapping.** Real trigonometry.
* **C63 Energy.** `Ext`; induction on the recursion depth and on the material, every channel in [0, L] or NaN; the sampler drops NaN.
* **C64 Nonneg.** Same induction with the invariant "not negative, or NaN", with lights and shadows.
* **C65 Matte.** `ℝ`; induction over the lights; specification in `Spec/Matte.lean` in terms of lengths and cosines.
* **C66 Lights once.** Any arithmetic; the two object lists of a scene compared record by record.
* **C67 Constructors.** Extended numbers (`Ext`), height surfaces `ℝ`; `inside` compared with distances; rectangles through the bounding box of two triangles, which is the rectangle itself; disks by following the march of `Restrict`.
* **C68 Meshes.** Extended numbers (`Ext`); a face reports the exact crossing, then the nearest-hit theorem for trees (C21). A triangle that the ray meets edge-on is not seen but does not disturb the others. Missing: rays starting among the vertices at a coordinate of one of them, and misses of small meshes (C21).
* **C69 Smooth shading.** Extended numbers (`Ext`); invariant over the list of faces for the summed normals, then the normalisation loop (repeated once per corner) is idempotent on unit vectors. Hits follow from C24 and C68. Violated where the normals cancel.
* **C70 Two hits.** Any number type with float comparisons (`CmpModel`), by cases on the comparisons.
* **C71 Navigation.** `ℝ`; the camera directions of C47 turned by an orthogonal matrix.
* **C72 Brightness.** Any arithmetic in which the factor passes through sums and products (`Factor`); simulation of the light field of one scene by the other (`Lemmas/Sim.lean`), induction on the recursion depth. `Ext` (exact numbers with infinities, NaN, signed zeros) satisfies the laws for every positive factor. With rounding they hold for powers of two barring overflow and underflow; that is not proved.
* **C73 Shapes.** Any arithmetic, no laws; induction over the object, simulating the march through CSG objects and the tree search.
* **C74 Order of objects.** Any arithmetic with `CmpModel` and `InfModel`. Two scenes that answer every ray alike (`LookAlike`) have equal light fields, by induction on the recursion depth; a rearranged object list answers alike when no two objects are met at the same distance (with ties the later one in the list wins, so the order does matter there), no object panics, and transparent textures evaluate.
* **C75 Moving.** `Ext` (no rounding). The displaced scene (`Scene.moved`) is simulated by the scene with `Lemmas/Sim.lean`; the objects by induction (`Lemmas/Moved.lean`), the constructors in `Lemmas/MovedBuild.lean`. Negative zeros are excluded (adding to -0 gives +0). Missing: rotated and scaled objects, for which the sign of zeros may differ, bare height surfaces, remapped textures and user-defined objects, which have a fixed place. `sort.Slice` enters as `Sorter.ByComparison`.
* **C76 Fair spread.** At `ℝ` with Lebesgue measure (`Spec/Chance.lean`). The change of variables formula for polar coordinates gives the law of `UniformDisk` (`Lemmas/Spread.lean: lintegral_diskMap`), a turn of the plane and a second change of variables that of `CosineSphere`; lamps and lenses are displaced and stretched squares and disks.
* **C77 Lamps shine as seen.** At `ℝ`. The map from the lamp plane to the disk below the hemisphere (`Lemmas/Shine.lean: foot`) has the determinant `h (v·n) / |v|⁴`, which is the product of the lamp's cosine law, the inverse square law and the surface's cosine; the change of variables formula turns the mean over lamp samples into the measure of the directions that meet the lamp. The lamp is taken at the height of its samples (`Tiny` above its visible place). The sun is a disk lamp moved rigidly (`C77_moved`).
* **C78 More passes converge.** At `ℝ`. Radical inverses fall into an elementary interval exactly for one residue modulo `b^k`; by the Chinese remainder theorem the number of indices below `N` in a box of the grid is `N` times its volume up to a bounded error (`Lemmas/Residue.lean`). Boxes of the grid are a π-system with small neighbourhoods of all points, so the empirical measures converge weakly (`Lemmas/Equidist.lean`, Mathlib's Portmanteau theorems); the shift modulo one is continuous almost everywhere and keeps the uniform measure. `C78_two_depths` is the four-dimensional case with the bases 2, 3, 5, 7. `C78_picture` joins it to the worker model (`C03_result`). ★ Draws at the same depth of a pass are equal, `C78_same_depth_violated`. Depths beyond the second and the lens use the pseudo-random source, about which nothing is assumed.
* **C79 Fog shows the light scattered in it.** At `ℝ`, for a finite interval of the ray in the fog (`fogScatter`, the part of `Filter` after the interval is known; `C79_camera_only` joins the two in any arithmetic). The distance drawn for `u` is a change of variables with density `D exp(-D t)` (`Lemmas/FogGlow.lean`), so `C78_pairs` gives the limit. ★ `C79_area_violated`: the fog distance and the lamp position are drawn at the same depth and so with the same pair. With a rectangle lamp and a ball placed where all these segments nearly meet, every shadow ray of every pass is blocked and the fog stays black, while the light that should be scattered is positive. Not covered: an infinite interval (sky behind the fog), for which C49 describes single samples.
* **C80 Pictures show what is there.** End to end at `Ext`: `IndexToCam`, the turned and moved pinhole camera (`Lemmas/ExtCam.lean`), the light field (C13), the accumulators and any schedule of the workers (C03). The specification (`Spec/Picture.lean`) has the lines of sight in closed form and the first meeting with a list of things. An object takes part if it `Shows` a thing along the ray; this is proved for spheres and cylinders (`Lemmas/ExtQuadric.lean` carries C25 to extended numbers) and, from C67 and C68, for rectangles, disks and meshes of more than 7 faces. `C80_spheres` has no side conditions. Not covered: anti-aliasing (see C08), lit materials (see C65, C77, C78).
* **C81 Image files are loaded faithfully.** `Model/Load` copies the loops of `load.go` over a decoded picture (16-bit channels, row 0 at the top) with out-of-range writes as panics. The specification (`Spec/Load.lean`) gives the standard decoding and counts rows from the bottom; with C42's interpolation this gives the texture at `Ext`. For loading and saving again (`C81_resave`, at `ℝ`) the byte that results is computed for each of the 256 bytes from bounds on powers; this shows that the property fails (`C81_violated_fades`, `C81_violated_flipped`).
* **C82 Animations leave the right frames.** `Model/Animate` is the loop of `animate.go` with a log of writes; an arbitrary environment decides after every log whether a write works, fails or leaves a broken file, and whether a picture can be rendered. `path.Join`, `path.Clean` and the padding of `%05d` are modelled on characters. Invariant over the log. `C82_balls` joins this with C80. Names sort only below 100000 frames (`C82_violated_order`).
* **C83 The watcher runs the latest version.** `Model/Watch` is the polling loop as a state machine with an arbitrary environment (what the file is, whether it compiles and starts, which programs end by themselves). Invariants: only the program started last can run; when the time remembered is `t` that program is of version `t`. The watcher does not go on if the program cannot be started or the file is missing for a moment (`C83_violated_start`, `C83_violated_missing`).
* **C84 Pictures of lit things obey optics.** End to end at `Ext` like C80. The specification (`Spec/Lit.lean`) is a relation between rays and colours, by recursion on the number of surfaces, in terms of bodies (surface, unit normal, kind of surface) and lamps; it does not mention the model. `Lemmas/ExtShade.lean` carries the directions and weights of materials to extended numbers (C44, C45 and C46 say what they are), `Lemmas/Lit.lean` follows the light field by induction on the depth with the sequences of the context as invariant, and `C03_every_pass` gives the picture for image functions that draw at random. A matte surface scatters light from one direction per meeting, any on the side of the viewer: how directions are distributed is C46 and C78. In the way of a lamp a clear body takes its share once, where it is first met, and all other bodies, glass too, stop the light: the specification follows the code in this. For a solid clear body this is not the light that is seen through it (`C84_clear_disagrees`). `Presents` is proved for spheres of all these materials.
* **C85 Rendering does not crash.** Sturdiness of a scene is defined by what it is made of (`Spec/Sturdy.lean`): every part has a material whose textures have a colour everywhere, trees with at most seven members are given a material, and boxes, height surfaces and user-defined objects must be known not to fail. The light field of a sturdy scene is followed by induction on the depth, in any arithmetic where comparisons make sense and larger minus smaller is not negative, which holds for `Ext` and for rounded numbers (`subLaw_flo`). For pictures the radical inverse loop must end and pixel coordinates stay in range under rounding (`Lemmas/FloErr.lean`, from the relative error of rounding); schedules are handled by `C03_random_safe`. Boxes: an error analysis of the slab test and of the face search (`Lemmas/BoxErr.lean`).
* **C86 Balls are seen where they are in double precision.** A calculus of doubles that are near a real number (`Lemmas/Near.lean`: `Flo.Near a x e b`) is carried through the coefficients, the discriminant, its root and the two quotients of the quadratic formula (`Lemmas/BallErr.lean`). A computed root is an exact root of a polynomial whose coefficients are off by at most the accumulated error, which bounds the residual; for rays that clearly enter, the discriminant is bounded below and the order of the roots and their acceptance follow.
* **C87 Balls do not shadow themselves.** The computed normal is near a multiple of the exact one (`Lemmas/UnitErr.lean`), so the start of the shadow ray is outside by at least `2^-25` in squared distance; the computed direction to the lamp has a positive product with the normal, so both computed roots are negative and neither is accepted (`Lemmas/BallShadow.lean`). The shadow loop passes over an object that is missed. Mirrors and glass start their rays elsewhere and are not covered.
* **C88 The viewer settles on the full picture.** The steps of the viewer's loop in which nothing happens and requests succeed (`Calm`) are determined by the state. One round brings any reachable state into one without pending requests; each further round raises the resolution and shows its answer; from the third on the answer is the full picture. Proved for infinite runs, by induction on the rounds (in `Props/C53_Viewer.lean`).
* **C89 In front of a backdrop small trees can be shown.** The record that a small tree returns for a ray that meets its box only has no material and lies at `9e99`; the combinations keep such records there or beyond (`FarLaw`: adding a number that is not negative to one not below `9e99` gives one not below `9e99`, which holds for rounded doubles). The backdrop lies at `1e99`, so it is chosen before them. The rest is as for C85.
* **C90 Debug views show how surfaces face the viewer.** What is first met on a ray is specified from the answers of the objects (`Spec/Front.lean`). Giving every object a debug material keeps its geometry, so the same object is met first in the debug scene; what its shader computes is stated with exact arithmetic.
* **C91 Boxes are seen where they are, in double precision.** Where the planes of a slab are crossed is known up to rounding also for directions that are nearly or exactly parallel (`Lemmas/BoxWhere.lean`: a quotient by a tiny component is either beyond reach or an infinity of the right sign). The interval test then places the reported point between all planes and on one, up to `2^-38`; the specification is `Spec/BoxSeen.lean`.
* **C92 Rooms of balls and boxes can be shown in double precision.** Complements C85, whose scenes have no boxes. The invariant is that every ray that is followed starts within 61 of the origin and has a direction whose squared length is within `(k+1)/2^29` of 1 at depth `k`, or a direction of three NaN (when a scattered direction is asked for with a random number outside [0,1]; such a ray hits nothing) (`Lemmas/RoomShade.lean`, `Sane`). Scattering, reflection and refraction keep it (`Lemmas/Bounce.lean`, `RoomRay.lean`), and C86 and C91 say where such rays land. Cameras: rotation matrices are orthogonal up to rounding (`Lemmas/TurnErr.lean`, `CamErr.lean`) and the places on the image are bounded (`ScreenErr.lean`). Not covered: cameras with a lens and the isometric camera (its rays start 4096 away), lamps with an area, objects made from balls and boxes by transformation or combination.
* **C93 Files with meshes show the polygons they list.** Joins C32, C33 (what a file says), C63 (composition of transforms), C68 and C69 (meshes) and C21 (trees). `Spec/MeshFile.lean` says what a file lists, without the parser's state. The tree around the meshes of an OBJ file is handled by a version of C21 for members that report either what the specification says or something at `9e99` or beyond (`TellsOrFar` in `Props/C21_TreeNearest.lean`), as inner trees with at most seven members do. The iteration order over the map of materials is a parameter. Restrictions as in C68: rays that do not start among the vertices at a coordinate of one of them.
* **C94 Pictures of things that are put together show what is first met.** Extends C80 from one object per thing to objects that show several things (`ShowsAll`), with one theorem per way of putting things together: boxes (C19), trees (C21), placed objects (C29), other materials, hollow objects, skies, and solids (C17) combined by intersection, union, complement and restriction. `Spec/Assembly.lean` says what the result is in space. Trees with at most seven members may report something at `9e99` where they have nothing; this is a parameter of `ShowsAll` that does no harm along lines of sight that meet something nearer, such as a sky.
* **C95 Lit pictures of things that are put together show the light that falls on what is first met.** Extends C84 from one ball per object to objects made of several bodies (`PresentsAll`), and C94 from flat colours to lit ones, so that the normals and materials at the points met matter too. One theorem per way of putting things together, as for C94; placed things are restricted to similarity maps, because the code maps normals by the direct matrix and this is right only for those (C29). `Spec/LitAssembly.lean` says what the result is in space. `Followed` asks that all rays that are followed are such that the objects present their bodies; since rays in the plane of a side of a box are left out, and a matte side scatters into such directions, this can be met for matte boxes only at small recursion depths, where the scattered rays are not followed. A sky may stand behind everything: rays that meet nothing then show it, and what a tree of few members reports at 9e99 where there is nothing is hidden by the sky, which is at 1e99.
* **C96 Lit scenes on a floor under a sky show the light that falls on what is first met.** `C96_mesh` joins C68 (where a mesh is hit) and C69 (normals and texture positions): a mesh presents its triangles as bodies in the sense of C95. `C96_rectangle` gives the floor in closed form. The conditions of C95 on the rays that are followed then have to be met for all rays a floor scatters: these lead away from its plane, so they meet no triangle of it, and for such rays the mesh of two triangles reports a miss or a far distance whatever its box test does (`C68_mesh_none_partial`); from other things rays come from off all critical planes. So `C96_picture` has conditions on the scene only, at any recursion depth.
* **C97 Pictures converge to the light that falls on matte surfaces from all sides.** Joins C95 (each pass shows what the laws of optics give), C78 (means over the sample sequences of a pixel tend to the mean over all pairs) and C76 (how the directions of a matte surface are spread). `LooksBy` names the directions at the first two surfaces, which the two Halton sequences choose; `C97_picture` is the limit of any pixel whose colour depends on them in a tame way, `C97_matte` that of a matte surface. That the light has edges is allowed as long as they make up no solid angle (`MildLight`); the outlines of balls (`C97_ball`), rectangles and triangles are such edges, because each lies in finitely many circles on the sphere of directions. `C97_sky` and `C97_floor` have conditions on the scene only; `C97_even`, `C97_open` and `C97_overhead` give numbers. The limit is taken at the place where rays start, 2 `gap` above the surface.
* **C98 Pictures and error estimates are accumulated accurately in double precision.** Over `Flo`, with round-to-nearest after every operation. `Lemmas/MeanErr` follows the two running sums and bounds how far they drift; `C98_mean` and `C98_variance` compare with the exact mean and the exact unbiased variance, `C98_picture` holds for every schedule (through C03). The variance is a difference of two large numbers and can come out negative, so that the standard deviation is NaN: `C98_violated`; `C98_stddev_partial` covers the pixels whose computed variance is not negative. `C09_double` and `C10_double` treat the sample sequences in the same arithmetic.
* **C99 Pictures with lamps that have a size converge to soft shadows.** `Spec/Lamps` says what is seen in a scene with lamps of any kind (`LooksIn`): the random pair of each surface chooses the place on each lamp and the direction of the scattered light, and surfaces that look for the lamps by themselves do not see them a second time. `C99_picture` and `C99_converge` extend C95 and C97 to it; `C99_bulb`, `C99_rectangle`, `C99_disk` connect the lights of the program. The means are integrals over the lamp; `C99_mean_rectangle` and `C99_mean_disk` turn them into shares of the view (change of variables of C77), for things with outlines; the edge of a shadow on the lamp has no area (`Lemmas/Penumbra`). `C99_soft` is the limit of a matte pixel, `C99_room` discharges its hypotheses for floors, skies and things around them, `C99_floor` is the limit for a floor under lamps and a sky; `C99_above` and `C99_shade` give numbers for a disk straight above.
* **C100 Floors are seen where they are and do not shade themselves, in double precision.** `Lemmas/Scaled` bounds rounding errors relative to a scale (`Flo.Rel`), `Lemmas/FaceErr` and `Lemmas/FaceHit` follow them through the intersection of a ray with a level triangle, `Lemmas/FloorBuild`, `FloorBox`, `FloorTest`, `FloorUp` and `FloorShape` through the making of a rectangle (corners, normals, box in single precision). `C100_on`: what is reported is there. `C100_seen_partial`: a rectangle is seen well inside its edges, except in a strip along the diagonal where its two triangles join, at least `2^-24` of its size wide on each side. `C100_away`: not seen by rays that go away. `C100_shade`: no shadow on itself. `C100_crack_violated`: in the strip there are points at which both triangles are missed.
* **C101 Lit surfaces have the right brightness in double precision.** `Spec/LitDouble` states the laws (`squarely`, `slant`, `RightColor`) and when a lamp is clearly seen or clearly hidden (`Decided`). `Lemmas/LampErr` and `Lemmas/LampSum` follow the rounding errors through the direction to a lamp, the cosine, the inverse square and the sum over the lamps. `Lemmas/LampWay` and `Lemmas/LampBlock` compare the shadow ray with the straight line to the lamp, using C86, C91 and C100 for what is in the way. `Lemmas/LampShade` puts these together for the matte material, `Lemmas/BallPatch` and `Lemmas/FloorPatch` for the point seen and its normal. `C101_ball` and `C101_floor` use C87 and C100 for the surface's shadow on itself. `C101_box` (with `Lemmas/BoxPatch`) is the same for boxes, at least `2^-18` from their edges; there the code may take the normal of a neighbouring side. A floor hides a lamp if the light stays clear of its edges and of its diagonal (the cracks of C100); a sky hides nothing.
* **C102 The nearest thing is seen, with the right colour, in double precision.** `Spec/ViewDouble` states when a line clearly meets a thing (`Obstacle.MetAt`). `Lemmas/ViewPass` shows that things the line is clear of are not reported nearer, and that the loop over the objects keeps the nearest one whatever their order. `Lemmas/ViewLit` uses C86, C91 and C100 for the thing that is met. `C102_front` is about which thing is seen, `C102_seen` and `C102_direct` about its colour (by C101), `C102_sky` about lines that meet nothing.
* **C103 Pictures of matte things lit by lamps are right, in double precision.** `Lemmas/SightErr` follows the rounding errors through `IndexToCam`, `fovToFocalLen`, the rotation matrices and the normalisation to the exact line of sight of `Spec/View`; `C103_camera` and, with anti-aliasing, `C103_camera_aa` are the results. `Spec/PictureDouble` states what a line shows by the laws of optics (`Displays`) and that all lines close to the exact line of sight show nearly the same (`Steady`). `C103_picture` puts C102, C101 and C98 together, by the invariant of the workers (C03). With anti-aliasing on, all rays of a pixel go through the same point (C08), `sampleRow`. Recursion depth 1 (light from lamps only). Pixels across which an outline runs have no `Steady` bound that is small; the theorem says of them only what their bound says.
* **C104 The halton command prints the points it is asked for.** `Model/HaltonTool`: flags, one line, and the loop with a bound on its rounds that the theorems show not to matter. Invariant of the loop (`loop_lines`); values by C09, exact and in double precision. The number of lines is wrong with both a start and a stride. `C104_disk_moves`: `-disk` moves each point to its place in the disk and changes nothing else. `C104_zero_base`: a base of zero crashes the command before a point is printed.
* **C105 Mirrors show what is in front of them, in double precision.** `Lemmas/Mirror` follows the rounding errors through the point met, `Tiny` and `reflect` for balls, boxes and floors (`Glance.sends`): the new ray is close to the exact one and starts outside of the mirror. `Lemmas/ViewLeave` shows that a ray which leads away from a thing does not meet it, so C102 and C103 now ask that other things be passed (clear of the line, or left by it). `Spec/MirrorDouble` states inductively what is seen by way of mirrors (`Shown`), for all lines close to the exact mirrored one. `C105_mirror` is one mirror, `C105_seen` (induction) any number of them, `C105_picture` whole pictures by the invariant of C103, `C105_law` the law of reflection.
* **C106 What is behind transparent things is seen through them, in double precision.** `Lemmas/Through` follows the rounding errors through the point met and `Tiny`: beyond a floor the ray leaves it (`floor_on`), beyond the side of a ball or box it is inside (`ball_on`, `box_on`), and from inside the far side is met and left (`ball_out`, `box_out`; for balls the cancelling root is negative or tiny and the other one is accurate, `Lemmas/ThroughBall`). `C106_pane` and `C106_out` are one surface; the inductive `Shown` of `Spec/MirrorDouble` has cases for both, so `C105_seen` and `C105_picture` cover any chain of mirrors and transparent surfaces and whole pictures (`Props/C106_Glass` and `Props/C106_Globe` are scenes with a box and a ball).
* **C107 Transparent things colour the light of lamps, in double precision.** `Spec/TintDouble` says which colours are in the way of the light (`Dims`) and when something opaque is (`Darkened`). `C107_tint_partial` and `C107_dark`: induction over the things, each decided by `Way.passes` and `Way.stops` (as C101); `C107_value_partial` is the numeric bound. The full claim is false for boxes, whose two surfaces count as one (`C107_violated`), so each thing (not each surface) is counted once. The parts that arrive are in `Decided` and `Fitting`, so C101, C102, C103 and C105 hold for lamps behind transparent things too (`Props/C107_Shade` is a wall lit through a ball, and its picture).
* **C108 Comparing a rendered picture with the stored one finds every difference.** `Model/Golden` has the loops of `Diff` over decoded files; `goldenDelta_sum` turns them into a sum of absolute differences (`totalGap` of `Spec/Golden`), from which all else follows by arithmetic. Full claim false for pictures of different size and for the divisor.
* **C109 The table of errors against passes.** `rmsError` as nested folds that may panic; `rmsError_eq` computes it for rectangular pictures, induction over the calls gives the table (`C109_table`), and `foldlM_fails` the crash on small references. The divisor is wrong in the code.
* **C110 The simple ball and sheet of the tests.** `Model/TestObjects`; the ball by its quadratic equation over the reals (`C110_ball_partial`), the sheet over the extended reals (`C110_sheet`, `C110_level`).
* **C111 The wave function for height maps.** `sinc` of `Model/Geom` over the reals is the function of that name in Mathlib, which is continuous and bounded; `fmax3` is a maximum.

## What is modelled

Files of the repository and the model file that follows them:

* `geom`, `util`: `Model/Geom`. `imagef/colorf`: `Model/Color`.
* `tracer/objects`: `Model/BBox` (bounding boxes), `Model/Object` (intersection and membership of every object
  type), `Model/Construct` (constructors, placement helpers, trees, meshes, parametric surfaces).
* `tracer/objects/obj`, `tracer/objects/ply`: `Model/Text`, `Model/Wavefront`, `Model/PlyFile`, `Model/MeshFile`. Text is a list
  of characters, number parsing is an arbitrary partial function.
* `tracer/sequence`, `tracer/ctx.go`: `Model/Sequence`, `Model/Ctx`. The random source is an arbitrary state machine.
* `tracer/sampler.go`: `Model/Sampler` (one pixel, tiles) and `Model/Workers` (goroutines, one shared-memory
  access per step).
* `tracer/scene.go`, `tracer/materials`, `tracer/lights`, `tracer/media`: `Model/Scene`.
* `tracer/cameras`: `Model/Camera`.
* `imagef/image.go`: `Model/Image`, Go slices on a heap of arrays so that sharing is visible.
  `imagef/post`: `Model/Post` on that heap. `imagef/ppm`: `Model/Ppm`, writers are arbitrary state machines.
* `texture`: `Model/Texture`.
* `api/spec.go`, `api/render.go`, `api/view.go`: `Model/Api`. `api/server.go`: `Model/Server`, every request is a
  thread, critical sections are atomic, unguarded reads are steps of their own.
* `cmd/bruteray-view`: `Model/Viewer`, the event loop as a state machine; drawing itself is not modelled.
* `imagef/load.go`, `api/texture.go`: `Model/Load`, from the decoded picture on. `api/animate.go`: `Model/Animate`.
  `cmd/bruteray-watch`: `Model/Watch`. `cmd/halton`: `Model/HaltonTool`, integers without overflow.
* `tracer/test`: `Model/Golden` (comparisons of pictures, integers without overflow), `Model/TestObjects` (the simple ball and sheet) and `Model/Api` (the materials that show normals).

Not modelled: the scenes under `examples`, package `sampler` (its code is
commented out), the file names and shadow materials of `tracer/test`, statistics, log output, profiling flags, the gob protocol, the JPEG and PNG codecs.

## Disagreements between code and property

Each is a theorem about the model (a negation with a concrete or general witness).

* C05: NaN samples are counted, so one NaN among two samples halves the pixel (`C05_violated`).
* C07: in portrait images the rows at the top and bottom lie outside the unit square (`C07_violated`).
* C08: the anti-aliasing sequence is never initialised, so all passes use one offset (`C08_violated_constant`);
  for wide images that offset leaves the pixel (`C08_violated_footprint`).
* C12: a negative recursion limit never ends (`C12_violated_negative`).
* C14: an opaque part of a composite object behind a transparent part casts no shadow (`C14_violated_composite`).
* C17: CSG follows at most 100 surface crossings per operand (hypothesis of the `_first_partial` theorems). Of 51 balls in a row intersected with a box around the last, a ray along the row sees nothing (`C17_violated_limit`).
* C18, C23: tree boxes are rounded to float32, to nearest instead of outward; objects stick out and rays that hit
  an object can miss the tree that holds it (`C18_violated_float32`, `C23_violated`, `C23_violated_missed`).
* C19: rays that start on a face or run in the plane of a face (`C19_violated_face`, `C19_violated_in_face`).
* C21: trees of at most 7 members report a hit at 9e99 for rays that hit the box but no member
  (`C21_violated_phantom`, `C21_violated_triangle`).
* C22: building a tree reorders the caller's slice (`C22_violated_reorders`).
* C24: rays parallel to a triangle hit it at +Inf (`C24_violated_parallel`).
* C26: rays that start below a height surface (`C26_violated_below`); bisection that never ends in rounded
  arithmetic (`C26_violated_termination`).
* C30: transforming an unbounded object panics (`C30_violated_unbounded`).
* C34: comments without a space, float32 coordinates (`C34_violated_comment`, `C34_violated_precision`).
* C35: missing last line feed, faces declared before vertices (`C35_violated_newline`, `C35_violated_order`).
* C37: the binary PPM encoder ignores write errors of pixels (`C37_violated_binary`).
* C38: encoding and decoding sRGB are not inverse (offset 0.05 against 0.055) and bright colours saturate
  (`C38_violated_brighter`, `C38_violated_saturates`).
* C41: star bloom of less than four pixels gives NaN (`C41_violated`).
* C42: nearest lookup outside the unit square crashes (`C42_violated_nearest`).
* C45: NaN for thin varnish beyond the critical angle and for tangential rays (`C45_violated_thin`,
  `C45_violated_tangential`).
* C47: the focus distance is scaled by the focal length (`C47_violated_focus`).
* C48: horizontal rays see no fog (`C48_violated_horizontal`).
* C50: light samples lie slightly above the light (`C50_violated_offset`).
* C51: point lights cannot be transformed (`C51_violated_point`).
* C52: cancel allows two bakes at once and an answer with the wrong image (`C52_violated`, `C52_violated_image`).
* C56: width 1 gives height 0; debug view 2 overwrites the recursion depth; defaults are not idempotent with a
  backdrop and a debug view (`C56_violated_height`, `C56_violated_explicit`, `C56_violated_twice`).
* C59: blend keys outside [0,1] drop a material (`C59_violated_weight`).
* C61: normals of height surfaces are wrong unless the footprint is the unit square (`C61_violated`,
  `C61_violated_slope`).
* C69: at a vertex where the normals of the triangles cancel the normal is NaN, and nothing checks it
  (`C69_violated_zero`, `C69_violated_two_sided`).
* C78: what is drawn with the pair of one depth is correlated: two area lamps, or a lamp and the fog, of one shading
  point get the same pair, so the mean of a product is not the product of the means (`C78_same_depth_violated`).
* C79: fog lit by an area lamp can stay black in all passes (`C79_area_violated`).
* C81: loading a picture and saving it brightens every byte from 11 to 254, until after at most 244 times it is white,
  and turns the picture upside down (`C81_violated_fades`, `C81_violated_flipped`).
* C82: frame 100000 sorts before frame 99999 (`C82_violated_order`).
* C84: light of a lamp passes a clear ball dimmed once, but the ball dims what is seen through it twice, at both
  crossings, although nothing is absorbed inside (`C84_clear_disagrees`).
* C85: a ray that meets the box of a tree of at most seven members, but no member and nothing else, ends in a nil
  dereference, even if all members have materials (`C85_violated_tree`); a backdrop prevents that (C89). Boxes panic when the point where a ray enters
  is not within `10^-8` of a face: by rounding, for a box of side 0.2 seen from a distance of `2^29`
  (`C85_violated_box`), and always for boxes with infinite sides when a ray leaves to infinity
  (`C85_violated_infinite`).
* C93: an OBJ file with at most seven materials, as the only object of a scene, crashes the program for every ray that
  meets the box around its polygons but no polygon, whatever the materials (`C93_violated_beside`).
* C95: things that let part of the light of a lamp through each dim it when they are listed separately, but if they are put in one tree only the first met does (`C95_clear_disagrees`: two clear grey blocks let through a quarter of the light as a list, half of it as a tree).
* C98: the computed variance of equal samples can be negative, and the reported standard deviation is then NaN. Three samples of
  1 + 3/2^27 are enough (`C98_violated`).
* C100: the two triangles of a rectangle are tested separately, each with its own rounding, so there are points on their common
  diagonal that both miss: looking straight down on a floor of 8 by 8 from (5/2^53, 1, -5/2^53) reports the far distance 9e99
  (`C100_crack_violated`).
* C104: `halton -i 10 -s 2 -n 5` prints ten points instead of five, because the end is computed as stride*(start+n) instead of start+stride*n (`C104_violated`); `halton -s 0 -i -1` never ends (`C104_endless`).
* C107: a transparent box is looked through with its colour taken twice (entering and leaving) but lamps shine through it with its colour taken once, since `Occlude` looks at the first meeting with each object only: a box that shows a quarter of what is behind lets half of the light of a lamp through (`C107_violated`)
* C108: `Diff` compares only the frame of the rendered picture, so a picture that is a part of the stored one passes (`C108_violated_size`); it divides by the square of the width (plus one) and not by the number of pixels, so the deviation depends on the shape (`C108_violated_shape`).
* C109: `rmsError` divides by the number of pixels outside of the square root, so the error that is reported for the same deviation shrinks with the size of the picture (`C109_violated`).
* C110: the normals of the simple ball have the length of its radius (`C110_violated_normal`); rays that start on it and go in miss the far side (`C110_violated_start`); directions within 1/1024 of length one are accepted, but the points found are then off the ball (`C110_violated_length`).
* C83: the watcher crashes if the compiled program cannot be started and ends if the file is missing for a moment
  (`C83_violated_start`, `C83_violated_missing`).

Observed while reading, without a theorem: a failed preview shows the dummy image and is not retried; after a
cancelled bake the viewer skips the coarsest resolution; an unsupported output file extension is only reported after
the first pass; a unit test expects that the zero vector normalises to zero but compares with NaN.
