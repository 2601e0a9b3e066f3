# Design

A Lean 4 model of Fields2Cover (sources in `/repo`, read as text) and machine-checked
statements of the properties in `properties.jsonl`.

## Layout

* `lean/Verif/Model/*.lean`  - the model, function by function. Every definition cites file and
  lines of the code it models and says where it simplifies.
* `lean/Verif/Lemmas/*.lean` - helper lemmas about the model.
* `lean/Verif/Props/*Spec.lean` - vocabulary of the specifications, written without the model's helpers.
* `lean/Verif/Props/*.lean`  - the property theorems, each with an `example` that instantiates the
  hypotheses on a concrete case.
* `MANIFEST.json` - property -> theorem names and status.
* `seeded/LOG.jsonl` - log of the seeded-bug experiments on the model.  "caught" means that a proof stopped going
  through.  Each catch was reviewed: where only the proof broke and the theorems are still true of the wrong program,
  the entry says "proof broke, statement still true" and names the theorems that were tightened or added.

## Modelling decisions

* **Outcomes.** Functions that can throw or run into undefined behaviour return
  `Outcome a = ok a | throw e | ub why`. Undefined behaviour (iterator past the end, `front()` of
  an empty vector, null pointers, division of integers by zero, signed overflow, conversion of a
  `double` to an integer type that cannot hold it) is never silently totalised: it is `ub`.
* **Endless loops.** Loops that need not end take fuel; running out of fuel is `ub "endless loop"`, and
  theorems either show that the fuel suffices or that no amount of fuel does.
* **Numbers.** `double` is idealised: as an arbitrary linearly ordered field `K` (examples are
  evaluated in `Rat`), or as `Real` where square roots or trigonometry occur. Rounding errors and
  NaN/inf are not modelled, except in `Model/Double.lean`, `DoublePath.lean`, `DoubleField.lean`, `DoubleTracks.lean`, `DoubleTurning.lean`, `DoubleObjective.lean`, `DoubleSwath.lean`, `DoubleGeom.lean` and `DoubleConvex.lean`, where angles, tracks, turns, swaths, lines, convexity, estimated numbers of turns, candidate angles,
  lengths along paths and positions of fields are written with every operation rounded to a nearest double (C114-C118, C124, C126, C131, C132, C140-C143, C146). In these, doubles
  have no largest one and there is no NaN; `Model/Ieee.lean`, `Model/IeeeGeom.lean`, `Model/IeeeGraph.lean`, `Model/IeeeBorder.lean`, `Model/IeeeRobot.lean`, `Model/IeeeTime.lean`, `Model/IeeeShare.lean`, `Model/IeeeRoute.lean` and `Model/IeeeLength.lean` have both (C127-C130, C136-C139, C144, C145, C147-C149), where overflow is at 2^1024 and the two zeros are one. `int`/`size_t`/`int64_t` are `Int`/`Nat` plus explicit range
  conditions; where wrap-around matters for the outcome (`size_t` underflow, int64 overflow) it is
  modelled exactly (modulo 2^64, or as `ub`).
* **Containers.** `std::vector` is `List`. `std::rotate` / `std::reverse` on iterator ranges are
  defined on lists with explicit range checks (`ub` if outside of `[begin, end]`).
* **`std::sort`** is unstable and implementation defined: theorems quantify over every function
  that returns a sorted permutation.
* **`std::unordered_map`.** Maps are association lists. Where the order of iteration is visible
  (`createShortestGraph`), theorems quantify over every rearrangement. Lookup by the tolerance based
  `operator==` of points with an inconsistent hash is a parameter (`PointTable`) with the guarantees every
  library gives (`IsLawful`).
* **External code** (GDAL/GEOS overlay and buffers, OR-tools, steering_functions, PROJ, printing and
  reading of numbers, random numbers) is not modelled; its results are parameters with explicitly stated
  hypotheses. `OGRGeometry::Distance` between a point and a segment is modelled as the planar distance.
* **Sharing.** Geometries are handles to shared heap objects. The model is by value except in
  `Model/Heap.lean` (C63), `Model/Share.lean`, `Model/CellFind.lean` and `Model/HeapSwaths.lean` (C95, C96, C98, C99),
  which model the sharing itself, and `Model/Moves.lean` (C101), which models null pointers after moves.
  `Geometries::clone()` prints to WKT text and parses it again; that this returns the same numbers is assumed.
* **Curves of steering_functions.** C100 assumes that `end_of_clothoid` integrates the clothoid exactly; C102 assumes
  the contract `Sound` (curves reach their target up to an error, in steps of at most the discretization).
* **Text.** Strings are `List Char`; the two `std::regex_search` calls (`Field.cpp`) are modelled as a first-match search
  (`Model/Text.lean`).

## Trusted base

* Lean kernel 4.33.0 and the three standard axioms `propext`, `Classical.choice`, `Quot.sound`
  (per-theorem list at the end of this file). No own axioms, no `sorry`, no `native_decide`/`bv_decide`.
* Mathlib 4.33.0, all of whose used theorems are checked by the same kernel.
* The faithfulness of the hand-written model to the C++ text, at the idealisation level above.
* Hypotheses on external code, spelled out in the theorem statements.
* The behaviour of `nlohmann::json` (missing members, indices, conversions) in `Model/Json.lean`: written
  from knowledge of the library, whose source was not available to check against.
* Intersections (C78, C80, C81): that GDAL/GEOS returns a geometry collection when a line meets a polygon both in lines and in isolated points, and a line, multi line or (multi) point otherwise, is from knowledge of those libraries, whose source is not on the box and which were not run. What the code does with each kind of result (`MultiLineString::append`) is read from the source. The buffer around a split line is assumed to reach nine tenths of its width (C79).

### Code that is modelled and code that is not

Generated from the citations in `lean/Verif/Model`: a function counts as modelled if a model comment cites
lines inside it. The last column names every function of the file that no comment cites. Constructors,
getters, setters and iterators in it have no definition of their own (the model reads and builds the fields
of a structure directly); everything else in it is outside of the model. Header-only code is modelled only
where a definition cites a `.h` or `.hpp` file.

| file (under `src`) | modelled | functions not cited |
|------|----------|--------------|
| fields2cover.cpp | 10 of 10 | - |
| boustrophedon_decomp.cpp | 2 of 2 | - |
| decomposition_base.cpp | 3 of 3 | - |
| trapezoidal_decomp.cpp | 1 of 3 | setSplitAngle, getSplitAngle |
| constant_headland.cpp | 3 of 3 | - |
| decomp_objective.cpp | 1 of 1 | - |
| hg_objective.cpp | 4 of 4 | - |
| rem_area.cpp | 1 of 1 | - |
| path_length.cpp | 0 of 0 | - |
| pp_objective.cpp | 1 of 1 | - |
| direct_dist_path_obj.cpp | 1 of 1 | - |
| rp_objective.cpp | 18 of 18 | - |
| field_coverage.cpp | 3 of 3 | - |
| n_swath.cpp | 2 of 2 | - |
| n_swath_modified.cpp | 1 of 1 | - |
| overlaps.cpp | 2 of 2 | - |
| sg_objective.cpp | 12 of 12 | - |
| swath_length.cpp | 1 of 1 | - |
| dubins_curves.cpp | 1 of 1 | - |
| dubins_curves_cc.cpp | 2 of 2 | - |
| path_planning.cpp | 6 of 6 | - |
| reeds_shepp_curves.cpp | 1 of 1 | - |
| reeds_shepp_curves_hc.cpp | 1 of 1 | - |
| turning_base.cpp | 7 of 9 | getDiscretization, getUsingCache |
| boustrophedon_order.cpp | 1 of 1 | - |
| custom_order.cpp | 2 of 5 | CustomOrder, ~CustomOrder, setCustomOrder |
| route_planner_base.cpp | 5 of 6 | setStartAndEndPoint |
| single_cell_swaths_order_base.cpp | 2 of 2 | - |
| snake_order.cpp | 1 of 1 | - |
| spiral_order.cpp | 4 of 5 | ~SpiralOrder |
| brute_force.cpp | 1 of 3 | getStepAngle, setStepAngle |
| swath_generator_base.cpp | 5 of 7 | getAllowOverlap, setAllowOverlap |
| Cell.cpp | 21 of 28 | Cell, getGeometry, getInteriorRing, isPointInBorder, isPointIn |
| Cells.cpp | 35 of 38 | Cells, isPointInBorder, isPointIn |
| Field.cpp | 24 of 40 | getId, getCRS, getPrevCRS, getRefPoint, getField, area, isEmpty, isCoordSystemUTM, getUTMCoordSystem, getUTMDatum, isCoordSystemEPSG, getEPSGCoordSystem, getUTMZone, getUTMHemisphere |
| Graph.cpp | 18 of 18 | - |
| Graph2D.cpp | 15 of 15 | - |
| LineString.cpp | 11 of 28 | LineString, X, Y, Z, getX, getY, getZ, length, reversePoints, size, addGeometry, addPoint |
| LinearRing.cpp | 11 of 24 | LinearRing, getX, getY, getZ, length, reversePoints, size, addGeometry, addPoint, isClockwise |
| MultiLineString.cpp | 10 of 17 | MultiLineString, length, addGeometry, getLineSegments |
| MultiPoint.cpp | 11 of 19 | MultiPoint, size, addGeometry, addPoint, addPoints |
| Path.cpp | 42 of 51 | getStates, setStates, cbegin, cend, begin, end |
| PathState.cpp | 1 of 1 | - |
| Point.cpp | 35 of 39 | Point, operator<<, operator*= |
| Robot.cpp | 15 of 23 | ~Robot, Robot, operator=, getName, getWidth, getCruiseVel |
| Route.cpp | 26 of 28 | getVectorSwaths, getConnections |
| Strip.cpp | 6 of 6 | - |
| Swath.cpp | 25 of 42 | Swath, length, area, numPoints, getPoint, getId, setId, getPath, setPath, getWidth, getCreationDir, setCreationDir, getType, setType |
| Swaths.cpp | 24 of 31 | Swaths, ~Swaths, begin, end, size |
| SwathsByCells.cpp | 17 of 24 | SwathsByCells, ~SwathsByCells, begin, end, size |
| parser.cpp | 7 of 8 | importGml |
| random.cpp | 17 of 17 | - |
| spline.cpp | 5 of 8 | ~CubicSpline, SetSpline, check_error |
| transformation.cpp | 21 of 21 | - |
| visualizer.cpp | 25 of 34 | plot, axis_equal, figure, figure_size, show, save, title, xlim, ylim |

## Properties: what is modelled and how it is proved

Status `proved`: the statement holds of the model as written in `properties.jsonl` (under the
preconditions named in the theorem). Status `partial`: the part that holds is proved (`_partial` theorems,
whose comments say what is missing), and where the property is false of the code its negation is proved
with a concrete witness. No property had to be declared inexpressible.
The column on proofs is a short summary; the Lean files are authoritative.

| id | status | modelled | how it is proved | limits and witnesses |
|----|--------|----------|------------------|----------------------|
| C01 | proved | order classes over lists of swaths, arbitrary `std::sort` | the rotate/reverse steps are permutations; per-swath changes are reversals | All four order classes, every variant, every std::sort. Valid parameters: snake not on a single swath, spiral size >= 1, custom order a permutation; positive widths (others throw). The type of a swath is lost, see C09. |
| C02 | partial | `reverseDirOddSwaths` | induction over the list: the flags alternate; geometric version from flags that record the orientation | Direction flags always alternate; geometric alternation holds when flags record the orientation, and is refuted in general by a concrete witness. |
| C03 | proved | `Swaths::sort` and boustrophedon order | sortedness survives direction changes | - |
| C04 | proved | snake loop with iterator ranges | loop invariant: after i rotations the first i+1 even positions, then the rest | - |
| C05 | partial | same with range checks | case analysis on sizes; no `ub` branch reachable | False as stated: snake order on one swath and spiral size 0 are undefined behaviour; no UB in all other cases. |
| C06 | proved | spiral loops | loop invariant per block, induction on blocks | - |
| C07 | proved | `CustomOrder::check` | duplicates, size and maximum together are equivalent to a permutation of 0..n-1 (pigeonhole) | - |
| C08 | partial | `changeStartPoint` | only variant mod 4 matters; both bits as list operations | Bit 1 has no effect for custom orders that do not begin with position 0 (witness). |
| C09 | partial | `Swath::clone` | field by field | False: clone drops the swath type and throws for swaths of width 0. |
| C10 | partial | `Swath` comparisons | unfolding; witnesses | False: == is not symmetric for swaths with different direction flags. < is a strict weak order; different swaths with the same id are not comparable by any operator. |
| C11 | proved | `SwathsByCells` | induction over cells | - |
| C12 | proved | Floyd-Warshall as written, in place, on functions `Nat -> Nat -> Int` | phase invariant: optimum over walks with inner nodes < k | Nodes 0..N-1 each with an outgoing edge (otherwise C66), costs in [0, INF), INF <= 2^62; in-place Floyd-Warshall as written. |
| C13 | proved | `next_` matrix and `reconstructPath` | the phase of the last improvement does not increase along `next`, hence termination and simple paths | Zero-cost cycles included. With an edge costing INF or more the reconstruction loop has undefined behaviour (witness), so costs below INF are a precondition. |
| C14 | proved | same, with int64 range checks as `ub` | case analysis of initialisation and relaxation, with an invariant on the table entries (`initEdges_nonneg`) | Any node numbering and any non-negative costs. |
| C15 | partial | graph object with caches as state machine | invariant: cache = fresh computation, over all call histories | False: removing an edge keeps the caches, and the first INF used is kept; proved for histories of insertions and queries with one INF. |
| C16 | proved | DFS with visited vector | soundness, completeness and no repetition by induction on the fuel (`dfsSpec_*`) | Second theorem: the same for the paths between points of a Graph2D. |
| C17 | partial | `Graph2D` maps over `PointTable` | simulation invariant `Good` between the maps and (nodes, costs) | False: two points that compare equal but have different hash values get two nodes, and the hash of points with negative coordinates is undefined behaviour; proved when points that compare equal are identical and the hash is defined. |
| C18 | proved | `Route` as two lists | invariant over call sequences | Any sequence of calls of the functions that build a route. |
| C19 | partial | `asLineString`, start/end points, length, clone | interleaving lemma | startPoint and endPoint are wrong for routes with empty groups (witnesses); everything else holds for all routes. |
| C20 | partial | `RPObjective` with direct distance | telescoping sums over groups | False if the connection between two groups is empty although they do not touch (witness); undefined behaviour for empty groups; proved for all other routes. |
| C21 | partial | coverage graph, tour decoding | a tour without missing edges forces start-middle-end triples | False if the start point is the end of a swath (a swath is dropped, witness), without swaths (undefined behaviour), and strictly speaking always when no start point is set (hash of the auxiliary depot undefined); proved for pairwise different points and every optimiser that avoids missing edges. |
| C22 | partial | `transformSolutionToRoute` | decoding lemma of C21, shortest paths of C13 | False if the start point is the start of the first swath (throws) or if the headland is not connected (empty connection); proved for pairwise different points on a connected headland graph. |
| C23 | proved | track loop and rotation over the reals | loop invariant; rotation is an isometry; bounds by projections | Track lines of every cell with an area. The swaths cut out of them can leave a strip uncovered at the far border (second theorem, a witness beyond the property). |
| C24 | partial | track loop with both overlap options | closed form of the loop | Spacing and counts hold; the overlap option never changes the generated swaths (proved for every cell, angle and width). |
| C25 | partial | `Swaths::append`, generator | induction | All parts hold for positive widths; for non-positive widths the generator does not throw but never ends; if all cells are empty there is no group. |
| C26 | proved | `BruteForce::computeBestAngle` | first minimum of a list; candidates are exactly the multiples of the step | Over the reals; steps outside (0, 2 pi] return nothing. |
| C27 | partial | `size_t` wrap in `NSwathModified` | exact value for all rings with arithmetic modulo 2^64 | False: unless the number of ring points divides 2^64 or 2^64-1 a spurious term is added (witness: any ring of 6 points); the exact value is proved for all rings. |
| C28 | partial | loops of `Overlaps` | exact value for all n | False: pairs of swaths i, j with i + j + 1 < n are not counted (witness with 3 swaths); exact value proved for all n. |
| C29 | partial | constant headland; buffers with mitred corners as a contract on sets | points at least d deep (`deeperThan`); rectangles by induction over the rings; witness computed for every buffer that meets the contract | For buffers with mitred corners, as the code asks for, under a contract for regions as sets. Outside-in as stated for convex fields; at reflex corners rings are deeper than asked for. Both directions agree for one ring and for rectangles. In general inside-out gives other rings: they can leave the field (witness: square without a corner), vanish (small fields), and for n = 0 there is one ring outside of the field. |
| C30 | partial | `createTurn`, `correctPath`, cached and computed | algebra of rotations and mirrorings | Exact when the turn is computed. Turns from the cache have exact positions but headings that are up to 1 mrad off (proved bound and witness). For any solver, only the two ends of a turn are corrected, and only by about 5 cm. |
| C31 | partial | `transformToNormalTurn` | ranges by `mod_2pi`; inverse by algebra | Ranges and inverse without restriction. The normal form is not canonical for mirrored turns that start along the line between the points, nor for turns that end where they start (witnesses). |
| C32 | partial | cache as state machine | invariant: every entry was computed for a request with the same key | False: the key of the cache omits turn velocity and discretisation and cuts to thousandths (witnesses). Proved: which answer is given for any history, and transparency for requests on which the solver agrees. |
| C33 | proved | `discretizeSwath` | sums of equal pieces | For every step but 0, where the loop does not end. |
| C34 | partial | `Path::reduce` | groups of consecutive states; telescoping | Everything but the task time holds for all paths (length for non-negative lengths). The time changes when merged states have different velocities (witness). |
| C35 | partial | `populate`, `discretize` on splines | interpolation bounds | populate as stated for paths with some length. False of discretize: a path shorter than a tenth of the step is deleted, and a sample on the second knot is off the path (spline, C57). |
| C36 | proved | `Path::at` | prefix sums | - |
| C37 | partial | moving, rotating, mirroring paths | real algebra | Rotating back restores the path if all heights are 0: a rotation sets them to 0. Everything else for all paths. |
| C38 | proved | `planPath` | filter of a concatenation; simulation over the cache | For every turn planner whose states are of type TURN (C43 shows this for the library's), any cache history, and whole routes too. C38_exists: planning succeeds for swaths of two or more points. |
| C39 | partial | `planPath` on routes | case analysis over groups and connections | False: a route that only has connections is read out of bounds (witness). Proved for every other API-built route within 1000 km and turn planners that cause no undefined behaviour; degenerate swaths and connections are answered by exceptions. |
| C40 | partial | `simplifyConnection` | list induction, convexity of segments | False: intermediate way points cut gentle bends (witness). Proved: ends, at least two poses, way points on chords that jump over no bend; on the connection itself if it bends everywhere. |
| C41 | proved | writing and reading of path files | token round trip over an abstract number format | Printing and reading a number is a parameter with the guarantees of the C++ standard (shown to be consistent by an instance). The default precision is 6 significant digits: UTM coordinates move by metres. Directions and types without a name, which C++ allows, are one outcome of the model. |
| C42 | proved | attempt loop of `createTurn` (CC) | fuel bound; meaning of `loop_detected` as total turning | Loop free in the sense of loop_detected, whose meaning is proved; it does not see turning by change of curvature (witness). createConstrainedTurn without loop fixing makes one attempt. |
| C43 | proved | `steerStatesToPath` | list induction | For states whose direction is 1 or -1, as the steering library produces; other values are not enumerators and are treated as undefined. |
| C44 | proved | `mod_2pi` | floor algebra | Over the reals. |
| C45 | proved | `getAngleDiffAbs` | metric on the circle | Over the reals. |
| C46 | proved | `getAngContinuity` | list induction | Over the reals; the number of turns has to fit in an int; an empty vector is undefined behaviour. |
| C47 | proved | `getAngleAvg` | algebra on the circle | Over the reals. |
| C48 | partial | closest point functions | clamped minimum of a quadratic; minimum of a list | Proved for borders of constant height and rings with two or more points. False otherwise: the segment formula is three dimensional but distances are planar (C48_height); one-point lines and empty cells read an empty vector (UB). |
| C49 | partial | lines: intersection, signed distance | field algebra | Intersection part without restriction. Signed distance for segments with distinct ends of the same height; C49_height shows the value is wrong when heights differ. |
| C50 | partial | `Cell::isConvex` | sign of the cross product decides the angle | False of the code: the corner the border starts with is not tested (arrow head is found convex), and straight corners are accepted counterclockwise but rejected clockwise. Proved: convex borders are found convex; exact characterisation for borders without straight corners. |
| C51 | partial | `Field` with reference point | translation algebra | For cells with closed rings whose first border has a point. Open rings come back closed; a first cell without border dereferences a null pointer, an empty first border throws (witnesses). |
| C52 | partial | `Field::clone` | field by field | Id, system and absolute cells are copied. False: the previous system is dropped and a reference point that is not the first point is replaced (witnesses). |
| C53 | partial | EPSG strings | decimal printing and reading | Round trip for every int. Other spellings that contain EPSG: throw or are read as another number (witnesses); never undefined behaviour. |
| C54 | partial | UTM strings | string search | For zones of two digits. One-digit zones are returned with the hemisphere letter and have no hemisphere; strings that are not UTM throw (witnesses). |
| C55 | partial | transformation of fields over abstract projections | inverse hypotheses | For projections that are inverse to each other and fields whose reference point is their first point. False of fields without system (come back with a guessed one) and other reference points (witnesses). |
| C56 | partial | transformation of paths | headings as directions of differences | For states driven forward. States driven backward get the opposite heading; the overload with given systems keeps old lengths and headings (witnesses). |
| C57 | partial | cubic spline | the coefficients solve the tridiagonal system (`cAt_system`); continuity conditions per knot | False at the second knot (the third-order term of the first piece is set to 0: wrong value and a jump, witness), for unsorted first two knots (accepted) and for monotonic splines (out of bounds). Proved everywhere else, with value, slope and curvature joining. |
| C58 | partial | `Robot` | case analysis; invariants over setters | False where the constructor takes over negative curvatures, where setters of the widths and the default constructor do not validate, and for the relative error of radii outside 0.1 to 10 m (witnesses). |
| C59 | proved | GML rewriting | induction on strings | For lists of pairs as the GML 2 writer produces; GML 3 lists separated by blanks lose the pairing (witness). |
| C60 | partial | option dispatch of the complete planner | case analysis | False: with a constant headland of 0 (or fewer) rings the list of rings is read out of bounds. Proved for one or more rings, with the place of the ring; objective and curves match the options; numbers that are no enumerators dereference a null pointer. |
| C61 | partial | containers | list lemmas | Proved unless all children are empty: then size() is 0 and setGeometry appends instead of replacing (C61_all_empty). Open rings are closed by Cell. |
| C62 | partial | write-back with tolerance | pointwise bounds | False for changes below 1e-7: the iterator does not write them back. Proved above the tolerance, and up to the tolerance for all points. |
| C63 | partial | heap of shared points | separation of footprints over operation sequences | False of copies: they share the points of the path (C63_copies_share). Proved for clones and any sequence of operations, and for members held by value. |
| C64 | partial | random cells | shoelace formula under scaling; positivity by star shape | Exact for four or more corners and areas from n*max_width^2 on; in general up to 1e-7 in the coordinates, because smaller moves are not written back (witness). Three corners can be drawn in a line: division by zero (witness). |
| C65 | partial | `Point` comparisons | order algebra | Equality and < are characterised; they are not consistent with each other (witness). |
| C66 | partial | queries on graphs with any node numbers | numbering invariant; witness with a sink | False: nodes without outgoing edges are not counted, queries index out of range; proved for undirected graphs on 0..n-1. |
| C67 | proved | sums of objectives | induction | - |
| C68 | partial | coverage and remaining area | areas that add up over parts; buffers with flat ends as hypothesis on GEOS | With at least one swath the value is the share of the field in the buffer of the swaths, for straight swaths the share within half a width beside a swath, with flat ends (areas that add up over parts and these buffers as hypotheses on GEOS); the headland value is the remaining share. Without swaths the first element of an empty vector is read, and the angle search reaches this for thin fields (witness). |
| C69 | partial | transformation of swaths | induction | Ids, widths, number of points and order are kept; there and back the points are restored. False: type and direction of creation become the defaults (witness). |
| C70 | partial | in-place transformation of a field as state | case analysis on failure | False of every field with cells whose reference point is not the origin: a failing transformation leaves it moved by its reference point. Proved for fields without cells. |
| C71 | partial | `planCovRoute` | composition of C25, C21 and C73 | Proved for hash functions that are defined on the points. With the hash of the code every run has undefined behaviour, because the far away start point has negative coordinates. GEOS and the optimiser are parameters. |
| C72 | partial | convex and non-convex random cells | retry loop; characterisation of C50 | False: isConvex never looks at the first corner, so a cell with a dent there is returned (witness with admissible random numbers). Proved: all other corners turn to the same side; non-convex cells are not convex. |
| C73 | partial | `createShortestGraph`, `genRoute` | graph = effect of a call sequence; each edge split keeps reachability; each edge stays near a track (convexity); loop erasure bounds costs | Proved for rings that hang together (touching at a corner of one of them) and points that are distinguishable, have a defined hash and are few and near enough that no way reaches INF. False for parts that are apart (C74_two_squares). Edges of more than 2^63 mm are undefined behaviour (C73_far). |
| C74 | proved | `createShortestGraph` | edges stay near tracks, tracks stay on one side | - |
| C75 | partial | parsed documents, import of fields, cell and strips | relation between documents and geometries; induction over features and rings; C51 | For polygons with closed, non-empty rings and positions of two or three numbers. False: positions with four numbers become the origin, and multi polygons are read as one point per ring (witnesses). |
| C76 | partial | import of swaths | same relation; case analysis | For positions of two or three numbers, positive widths and numbers that fit in an int. Numbers beyond 32 bits wrap around (witness). |
| C77 | partial | access through constant and changeable references | outcome of every access in terms of the document (`elements`, `Lacks`, `Has`); induction over rings, positions and features; witnesses | False: a polygon feature without geometry is undefined behaviour, a swath feature without geometry is accepted as a swath without points, and a document without features as empty (witnesses). Proved: for each of the four imports exactly which documents are read and which are undefined behaviour, all others throwing; fields of earlier features are kept when one fails. |
| C78 | partial | `createLineUntilBorder`, `MultiLineString::append` on the possible results of an intersection | fold invariant for the nearest point; the segment that covers the ray at the entry reaches the nearest node | Proved for rays that enter the cell for more than 1e-5 and meet it in lines only. False: if the ray also touches the cell in an isolated point the intersection is a geometry collection, which is dropped, and no line is returned; if the first stretch is shorter than 1e-5 the line runs outside the cell (witnesses). |
| C79 | partial | `splitByLine`, `decompose`; regions as sets | induction over the lines; triangle inequality | Nothing is added and only points within 1e-8 of the split lines are lost. Proved for straight split lines, as the trapezoidal decomposition makes them. False that nothing is lost: everything within 9e-9 of a split line and not beyond its ends is, as the loop that should widen the cells again has no effect. Regions as sets of points; difference and buffer by their assumed properties. |
| C80 | proved | `isLinePartOfLinearRing`, loops of `genSplitLines` with fuel | each round advances by 1e-5 in a bounded extent; C78_nearest | For rays whose intersections lie on the ray and within the extent of the cell. |
| C81 | partial | `getLinesInside` as intersection followed by `append`; C25 | both directions from C25; isolated point and stretch force a collection | Proved if the tracks meet the cell in lines only. False: if a track touches the cell in an isolated point, no swath is generated at all (general theorem and witness), because geometry collections are dropped. |
| C82 | proved | `planPathForConnection` | induction over the way points with C30 and C40 | Exact with the cache switched off; with the cache positions are exact and headings right up to 1 mrad, see C30. |
| C83 | partial | transformation of routes | induction over groups, swaths and connections | The value for all swaths of positive width. False: types and directions of creation become the defaults (witness); for mainland swaths never reversed the claim holds. |
| C84 | partial | `planCovRoute` and `planCovPath` on fields | cloning (C52), projection and way back (C55), transformation of routes (C83) and points of paths (C56) | False in local coordinates for a field whose reference point is not its first point: the plan is relative to the first point (witness). Everything else for all fields with closed rings. |
| C85 | partial | the complete-turn objective on swaths and routes, path objective | induction over the swaths in step with the planner; discretization keeps the length (C34, C35) | Proved for lists of swaths and routes of one group. False of routes with several groups: the turns between swaths and connections are not computed (all such routes of two swaths, and a witness in numbers). |
| C86 | partial | `plot(const F2CPath&)` as a list of calls of the plotting library | induction over the states with the line under construction | False: lines are cut one state too late (witness), and a path of one state is not drawn. What is drawn is characterised for all paths. |
| C87 | partial | `linspace`, `color_linspace`, drawing of swaths, swaths by cells, routes and sets of them | induction; C11 for the numbering of swaths by cells | False: a single swath gets a colour that is not a number, too few colours are read out of bounds, several sets ignore the given colours. Everything else is proved. |
| C88 | partial | drawing of cells, fields, lines and points | case analysis on the size of containers (C61) | False: a filled field is not filled, colours of four components are written out of bounds, the border of a cell without rings is a null pointer. Everything else is proved. |
| C89 | partial | bounding box of paths | first smallest and largest element; convexity of a section between its ends | False: the end of the last section is not looked at (witness); empty paths are undefined behaviour. Proved for all other sections of connected paths. |
| C90 | partial | `Path::operator+=` | lists; C89 | False: adding a path to itself uses invalid iterators. Proved for all other paths. |
| C91 | partial | `getGeometry`, `setGeometry`, first and last points of lines, rings and multi points | lists | False of multi points: setting a point behind the last one dereferences a null pointer. Everything else is proved. |
| C92 | partial | `getLineSegments` | induction over the loop | False of lines without points, which throw: the size minus one wraps around. Proved for all others. |
| C93 | partial | `startAngle`, `endAngle`, in and out angles of swaths | polar coordinates; angles with the same cosine and sine | False for repeated end points, where both directions are 0 (witness). Proved for all others. |
| C94 | proved | `getInAngle`, `getOutAngle`, `getPointAngle` | C47 | - |
| C95 | partial | variables and shared objects; `operator=`, `clone`, `addGeometry`, `setGeometry`, `operator*=` | exact effect of each statement; refinement of the value semantics by induction over the program, under an ownership discipline | False: copies share their data, so that adding, scaling or setting a new index changes the original (witness). The effect of every statement is characterised; programs that clone, or replace an existing child first, behave as claimed. |
| C96 | partial | `getCellWherePoint`; aliases and destruction of objects | induction over the search; objects only grow along a program | Which cell is found is proved. False: the result is an alias that dangles when the object is gone, for example after any setGeometry on the container, and changing it changes the container. |
| C97 | partial | `Cells::createLineUntilBorder` | C96 and C78 | False on the border between two cells, as only the first is searched (witness). Proved for points in one cell only and rays that meet it in lines only. |
| C98 | proved | `genSortedSwaths` on swath objects that refer to lines in a store | refinement of the model by value: frame conditions of each loop; the orders commute with `map` | - |
| C99 | partial | `sort`, `reverseDirOddSwaths`, `moveTo`, `append`, `flatten` on swath objects | frame conditions; witness | False: sorting a copy turns the paths of the original but not its directions of creation (all lists), and in a list with two swaths on one line the alternation is lost (witness). Proved for lists whose swaths share no lines. |
| C100 | proved | `getSmoothTurningRadius`; the external `end_of_clothoid` is a parameter | integrals of the heading: the distance to the centre decreases along the clothoid (derivative), so its extremes are at the ends | The function end_of_clothoid of steering_functions is assumed to integrate the clothoid exactly. |
| C101 | partial | copy and move operations of objects that hold points; `std::swap`, `std::reverse`, `erase` as sequences of them | refinement by induction over the program; undefined behaviour for all vectors | False: move construction leaves a null pointer that the assignments dereference, so std::swap and std::reverse are undefined behaviour for all such objects (proved for every vector). Proved for programs that construct by copying, and for erase. |
| C102 | proved | the four turn planners over an abstract library of curves | contract for the library; change of frame of `createTurn`; the contract is met by a real left-straight-left library (`Lemmas/LeftStraightLeft.lean`) | Under a contract for the curves of steering_functions (they reach the target up to an error, in small steps, bending no more than the curvature asked for). C102_simple_curve and C102_constrained_curve say which curve and limits are asked for, for any library. |
| C103 | partial | `genRoute` from the cells to the route, with the optimiser as a parameter; `planCovRoute` | every order and direction is a tour of the coverage graph and its cost is the sum of the ways between swaths; invariant of the splitting loop: nodes on one track stay as near in the graph as in the plane; costs are lengths in whole millimetres | Proved up to the error of the optimiser, whose tours are assumed to be at most that much more expensive than the best one, under the conditions of C21 (distinct points, connected headland), and up to a millimetre per step for lengths. The case in which two points coincide is missing, as swaths can then be lost (C21_swath_dropped). |
| C104 | partial | transformations of strips, and of everything to the previous system | one function from points of the field to their places, shared by all objects that add the reference point | Proved for swaths, routes and paths. False for strips: they are transformed without adding the reference point, so that strips of a field land elsewhere than the field unless its reference point is the origin (witness). |
| C105 | partial | conversion of results of GEOS to cells; set operations | regular closed sets: what is thin has no interior, so dropping points and lines does not change the closure of the interior | Operations proved for exact results of GEOS that are flat (collections of single geometries). Multi polygons nested in a collection are dropped (C105_nested_dropped), which GEOS does not return; a failure of GEOS is a null pointer that is read (C105_failure_ub). |
| C106 | partial | `Swath::areaCovered` | C105 with the rectangle beside the path; its inside is open | Proved for straight swaths, if GEOS is exact. False at bends: corners are mitred, so that positions further than half a width are covered (witness); for paths with bends, all of the strips beside the segments is covered and nothing beyond the mitre limit. |
| C107 | partial | conversion of results to one cell; buffers and hulls | connectedness and interior of the result | Proved if the result is one polygon. False otherwise: the constructor throws if the cell falls apart or the result has no area. The buffer of a ring keeps only the first polygon of the difference. |
| C108 | partial | the generator as a state with a function to the unit interval; distributions of the standard library by their formulas; random fields | monotonicity of exp and log; the numbers drawn meet the hypotheses of C64 and C72; a generator that replays the witness of C72 | For every generator of numbers of [0, 1). False: ranges that begin at zero or below pass the assertion of getRandomExp, and the result is NaN; getRandomExpDist can return 0, though documented as positive; empty ranges are a failed assertion, not reported otherwise; genConvexField can return a field with a dent (witnesses). The area of fields as in C64. |
| C109 | proved | vectors as lists, `operator[]` with undefined behaviour outside of the range, the loops of the setters | induction over the rounds of the loop, reading back every element | - |
| C110 | partial | the functions of `Swaths` and `SwathsByCells` on lists; `at` throws | reading back every element; witness for repeated numbers | False in one part: after appending a collection to another the numbers are not the positions (C110_numbers_repeat). The type of swaths is not cloned (C09), and swaths without a width cannot be cloned (C110_of_size, C110_clone). |
| C111 | partial | the table of virtual functions of every objective of swaths; areas of GEOS as parameters | sums over groups; C28, C67, C68 for single groups; witnesses for groups | False for groups of swaths: the coverages of groups are added and may exceed 1, overlaps between groups are not counted (witnesses); an empty group is undefined behaviour. |
| C112 | partial | the search over angles with the actual objectives, in the generator and in the complete planner | C25, C26, C67 put together | Proved for NSwath and SwathLength; for FieldCoverage if there are swaths at all angles tried (otherwise undefined, C68). NSwathModified and Overlaps compute other quantities than documented (C27, C28); for NSwathModified over convex fields see C113. |
| C113 | proved | `NSwathModified` as in C27, generation of swaths and search as in C24 and C26; `getLinesInside` is a function that gives one piece for every line through the inside of the cell and none for lines that miss it | edges going up have disjoint heights, as every corner is on the same side of every edge; a track inside of the extent passes through the inside; witness: a pentagon covered along its short side | For clipping that gives one piece per line through the inside of a convex cell. |
| C114 | proved | `mod`, `mod_2pi`, `getAngleDiffAbs` with every operation rounded by an arbitrary function that rounds to a nearest double (`Dbl.IsRounding`; `toNearest` is one) | bounds on absolute errors of rounding, monotonicity; witness 3 + 2^-51 | Doubles without a largest one (no overflow) and without NaN; fmod is exact, as the C standard asks for. |
| C115 | proved | the loop of tracks and the candidate angles with every operation rounded | induction on the number of tracks: errors add up to i^2 / 2^53 widths; a power of two that no step gets past; witness by explicit roundings | Doubles without a largest one (no overflow) and without NaN; the height is the one computed for the rotated field; for the rounding errors made there see C132. |
| C116 | partial | the setters and readers of coordinate systems as in C53-C55, names as lists of characters | search in concatenations; the two regular expressions on digits, letter and rest | Proved for zones of two digits with a letter. False otherwise: without a letter the projection library gets no hemisphere; for zones of one digit the letter is taken for part of the zone, and without a letter an exception is thrown (witnesses). |
| C117 | partial | `Path::length` and `Path::at` with every operation rounded; sine and cosine arbitrary | sums of doubles have a relative error of 2^-53 even if tiny; induction on the states; witness by explicit roundings | False of the end: because of rounding at may run past the last state and return a default state at the origin (witness: states of 1 m and 0.1 m). Proved for all distances below the length by n / 2^53 of it. No overflow, no NaN. |
| C118 | partial | the arc lengths of `populate` with every sum rounded and the checks of the splines | a sum is larger than its first term if the second is not below 2^-52 of it; witness 1024 + 2^-60 | False: a state shorter than 2^-53 of the distance before it makes populate throw (witness); proved if all lengths are more than 2^-52 of the length of the path. |
| C119 | partial | `transformToUTM` as in C54 and C55; the projection is arbitrary | the three ways through the function; floor of the longitude | Proved for fields in other systems and for fields without one whose reference point is not the origin. False of fields in EPSG:4326 and EPSG:4258: the option is ignored; at longitude 180 the zone is 61, and below -186 the conversion of the zone number is undefined. |
| C120 | partial | the long lines and the envelope of cells; `Cells::isConvex` | distance in the plane is at most the sum of the distances along the axes | Proved for points in the box. False of points outside it: the lines may end before they reach the box (witness). |
| C121 | proved | vectors as lists, `operator[]` and `back` with undefined behaviour outside of the range | invariant of the sizes as in C18; induction along both lists at once | - |
| C122 | partial | the edges as association lists with different keys; the sum of `numEdges` as an `int` with conversions modulo `2^32` and `2^64` | last call that says something about an edge; the sum modulo `2^32`; the pairs listed without repetition; witness by counting a product | False of the number of edges from 2^31 on: the sum is an int, and a graph of 46341 nodes with all edges is said to have nearly 2^64 of them (witness). |
| C123 | partial | the tracks and swaths as in C23 and C81, the planner as in C71; the intersection is a parameter | the nearest track has a point opposite to the position, which is in the cell as the cross section is; lines driven backwards have the same points; witnesses: a rectangle of 3/2 - ε widths, the spiked block of C81 | Proved for every intersection that keeps the parts of tracks in the cell, so for all cells the tracks meet in lines only; for the complete planner with the conditions of C71. False if a track also touches the cell in a point: then there are no swaths (witness). Half a width cannot be improved. |
| C124 | partial | `discretizeSwath` with every operation rounded, `round` and `fabs` exact; sine and cosine arbitrary | whole numbers up to 2^53 are exact; the errors of six operations per coordinate added up; the counter sticks at 2^54 + 4 | Proved for steps other than 0 that go at most 2^52 times into each swath section. False of a step of 0 and of steps that go 2^55 times into a section: the loop never ends, in the second case because the counter no longer grows. No overflow, no NaN. |
| C125 | partial | the rings as in C29; driving covers what is at most half a width from the border of the region | the segment from a position to the nearest one outside leaves the region after at most half a width; the nearest centre of a disc of the field, the angle at which is not acute; clamping to rectangles | False at corners: no ring covers the corner of a rectangle (witness). Proved, from outside to inside: for every field, what a ring encloses up to half a width further in; for convex fields what is within a width of something deeper; all of the headland of convex fields that are made of discs of its width. In both directions: all of the headland of rectangles but positions about as far from one side as from the next. Missing: outer halves at dents. |
| C126 | partial | the distances of `populate` and the result of `lower_bound` with every operation rounded, the literal 1e-10 as well | errors of two products, the literal and the sum add up to less than 10^-10; binary search as in C40; witness 3 · 2^19 m | Proved for paths of up to 2^17 m. False of long paths: from about 1000 km on, adding 1e-10 changes nothing, and a state put exactly where a section begins takes velocity, direction and type from the one before (witness). No overflow, no NaN. |
| C127 | partial | doubles as numbers, two infinities and NaN, with the comparisons and operations of IEEE 754; the constructor of robots, `Swath::setWidth` and the loop of tracks | all cases of the comparisons; below 2^1000 nothing overflows, so the loop is that of C115 | False of NaN: it is accepted as width of robots and swaths, and then there are no tracks and no error (witness); an infinite width is accepted too and gives no track, or one at NaN. Proved for numbers and infinities. |
| C128 | partial | `Path::at`, `length` and `discretizeSwath` over such doubles | no overflow below 2^1000, so that the functions are those of C117 and C124; comparisons with NaN are false | False of NaN: as distance it gives the first state at a position that is NaN; a NaN as length of a state makes the length of the path NaN and switches off the limit, so that the state is extended to any distance. Steps so small that the counter sticks never end (C124), nor does 0. Proved for numbers and infinities. |
| C129 | partial | `computeBestAngle`: number of candidates by conversion to `int`, `std::min_element` with the comparison of doubles | invariant of the search for the minimum: the candidate so far has a cost and no earlier one is lower | False if the first cost is NaN: then the first angle is returned (witness). Steps of 0, infinity, NaN, or 7 and more are undefined behaviour, as the lowest cost of an empty list is read or a value out of range is converted to int. Otherwise proved. |
| C130 | proved | `Point::operator==` and `mod_2pi` over such doubles | cases; the error of one subtraction; fmod as in C114 | - |
| C131 | partial | the constructor, `clone` and `getCellsAbsPosition` as in C51 and C52 with every operation rounded | a difference of doubles within a factor of two is a double (Sterbenz); the sum of a larger and a smaller one minus the larger is a double (Dekker); witness -3 and 2^-60 | Proved for coordinates within a factor of two of that of the reference point, or not more than 2^53 units of their last digits from it; otherwise up to the rounding of a difference and a sum. False of points much nearer to the origin than to the reference point (witness). Clones: proved if no coordinate is further from that of the reference point than this is from 0. No overflow, no NaN. |
| C132 | proved | the tracks as in C23 with every operation rounded, from the rotation of the cell to the ends of the lines; sine and cosine within 2^-52 | the errors of two rotations, of the envelope and of the long line added up; C115 for the offsets | No overflow, no NaN; products and sums are not contracted into single operations. |
| C133 | proved | `toLineString`; positions driven in a section | induction over the sections; a section is the segment between its ends | For paths whose sections join and have lengths of at least 0. An empty path is undefined behaviour; a jump between sections is bridged by the line (witness). |
| C134 | proved | `isTurnValid` as written | convexity of half planes on segments; cosine decreasing on [0, pi], periodicity | For paths whose sections join and rotation tolerances from 0 to 2. An empty path is undefined behaviour. The rotation tolerance applies to the cosine: the default of 0.1 accepts 23 degrees (witness). |
| C135 | partial | direction flag and points of swaths | sign of the scalar product; case analysis on the flags; witness | Proved for swaths created along the same direction, however often they were reversed. False of swaths created in opposite directions: the direction is a flag (witness). |
| C136 | partial | `closestPointInSegment` and `closestPointTo` over doubles with infinities and NaN, every operation rounded | errors of differences, scalar products, quotient and last sum added up; limiting to [0, 1] does not enlarge errors and absorbs NaN; if the segment is shorter than the rounding error any parameter will do; exact nearest point (C48) of the rounded segment; witnesses | Proved up to 2^-44 (lines: 2^-43) of the largest coordinate for segments whose ends have the same height and coordinates between 2^-400 and 2^400 in size; coordinates of 2^600 overflow and give the farthest point (witness). Without the allowance for rounding it is false: the result may lie beyond the end (witness). A given point that is not a number gives the end of the first segment. Products and sums are not contracted into single operations. Lines: the distances, computed by GEOS, are assumed to be correct up to 2^-46 of the largest coordinate; C139 proves this of the rounded formula. |
| C137 | partial | `distance` of points and `addEdge` without cost over doubles with infinities and NaN | a relation of relative and absolute closeness is carried through differences, squares, sum, root and scaling; lower bounds carried through for the undefined cases; witness with explicit mantissas | Proved for coordinates of at most 2^51 metres, up to the error of the calculation (2^-36 of the largest coordinate, in millimetres; for UTM coordinates less than 0.001 mm); without it the claim is false (two points less than 9 mm apart cost 9, witness). The same in both directions for roundings that treat negatives alike. Undefined for coordinates that differ by 2^54 metres or more, or are infinite or no numbers. GEOS is assumed to compute the distance as the rounded root of the rounded sum of rounded squares. |
| C138 | partial | `std::hash<Point>` over doubles with infinities and NaN | bounds carried through each rounded operation; a sum with an operand that is no finite number is none; explicit mantissas for the witness | False: undefined for points that are 0.2 metres high, for points a metre south of the origin and for coordinates that are no numbers; two points of a field in UTM coordinates a metre apart have the same hash value (witness). Defined, and known up to 2^13, for points in the first quadrant with a height from 0 to 2^-7 metres. |
| C139 | partial | `closestPointOnBorderTo` of cells and cell over doubles with infinities and NaN, with `closestPointTo` as in C136 and `distance` as in C137 | the error of a distance from the relation of closeness of C137; the search for the minimum of computed distances is off by at most twice that at each of the levels; witness with the mantissa of 1/49 | Proved: on a border up to 2^-48 and nearest up to 2^-42 of the largest coordinate (UTM coordinates: less than 0.002 mm), for borders of one height whose rings have at least two points. False that a point on the border is its own closest point: on the triangle (0,0), (49,0), (0,49) the point (1,0) is given another one (witness). A given point that is not a number gives the second point of the first ring; cells without points and rings of one point read an empty vector. Distances as in C137. |
| C140 | proved | `transformToNormalTurn`, `createTurn`, `correctPath` and `createTurnIfNotCached` with every operation rounded; solver, `cos`, `sin` and `atan2` are parameters | headings compared modulo revolutions, with the error of `mod_2pi` of C114; the error of the direction of the frame times the distance bounds where the end lands; keys of the cache that agree bound the difference of the requests, by an invariant over all uses of the planner | Coordinates up to M, poses at most M/2 apart, angles up to 50 rad; the solver's path consists of doubles up to M and its ends are at most 5 cm - M/2^40 off (489/10000 - M/2^40 with the cache). Result: positions exact, headings off by 2^-44 rad more than the solver's (11/10000 with the cache). Assumes cos, sin and atan2 accurate to a unit in the last place and no overflow. |
| C141 | proved | `NSwathModified::computeCost` with every operation rounded, `computeBestAngle` as in C129 | each term is compared with the projection of the edge through the direction of the rounded difference (as for the frame of C140); induction over the sum with a bound for the partial sums; choice of the minimum by C129, widths of convex fields by C113 | The error is at most N (N + 512) M / 2^50 over the width for N points with coordinates up to M (1000 points in UTM coordinates, width 3 m: less than 0.05 turns). Assumes sin and atan2 accurate to a unit in the last place and no overflow in the cost; the number of candidates is that of the code (C129). That the additional term of C27 is there at all is a fault of the code; C141_convex is about numbers of points for which it vanishes. |
| C142 | proved | `Path::appendSwath`, `Swath::getInAngle`, `Swath::getOutAngle` and the call of `createTurn` between two swaths with every operation rounded, `PathState::atEnd` and `Path::length` as in C117 | computed length times cosine of the computed direction is compared with the difference of coordinates through the norm of the rounded difference (as for the frame of C140), so that no lower bound for lengths is needed; induction over the segments; the directions handed to the turn are those of the adjacent states, then C140 | Coordinates up to M <= 2^400; nothing is assumed about the length of segments, also not that points differ. A swath without points throws, one of a single point adds nothing. The turn is the one before the resampling with Path::discretize, for a planner whose cache is off or empty (C140_used gives the same for a used one with 11/10000 rad). Assumes cos, sin and atan2 accurate to a unit in the last place and no overflow. |
| C143 | partial | `signedDistance2Segment`, `intersectionOfLines`, `det` and the operators of points with every operation rounded | differences of doubles have relative errors, so that the determinant of differences is off by a multiple of the product of their norms (Cauchy and Schwarz) and not of the coordinates; for the determinants of positions only the absolute bound holds; quotient with a perturbed denominator; witness with explicit mantissas | Distances and sides: proved for level segments of at least 1/64 m (with ends of different heights the value is another one already without rounding, C49; C143_sloped says which one it is). Intersections: false that they are close; of segments of a millimetre and a metre at a right angle the computed point is 37.5 cm off in coordinates of the size of UTM coordinates, for every rounding (witness). Proved: the error is at most M^2 (L1 + L2) / 2^46 over the area spanned (diagonals of 500 m in UTM coordinates: less than 5 mm). No overflow. |
| C144 | partial | `Robot::getMinTurningRadius`, `setMinTurningRadius`, `setMaxCurv`, `setMaxDiffCurv`, the setters of the widths and the constructor, for numbers, infinities and NaN | induction over the calls; the sum with 1e-7 is at least the double 1e-7, so that the quotient is at most 10^7 + 1/1024, or the sum overflows and the quotient is 0; reading back by relative errors of the four roundings | Setters: proved for all values of type double. Reading back: proved between 10 cm and 10 m; false of infinite radii (C144_unlimited) and, as in C58, of large and very small ones. False of the constructor: witnesses with the maximum curvatures -1e-7 (infinite radius) and -1 (negative radius). Zero has no sign in the model; -1e-7 + 1e-7 is +0 in the default rounding mode. |
| C145 | proved | `Path::getTaskTime` for numbers, infinities and NaN | accuracy by induction over the states, with the bound of the error proportional to the number of states and to the sum of the absolute values so far (no overflow for 2^40 quotients of at most 2^800); the other values by cases of the quotient and induction, NaN being absorbing | Zero has no sign in the model: with a velocity of -0.0 the infinite time would be negative. Negative lengths are allowed in C145_time (they are subtracted, unlike in Path::length, as in the code). |
| C146 | partial | `Point::getAngleFromPoints` and the loop of `Cell::isConvex` with every operation rounded; the area from GDAL is a parameter | differences of doubles have relative errors, so that the computed angle is within about 2^-44 of the exact one modulo 2 pi whatever the coordinates; the sine of the turn is the determinant over the product of the lengths, so that a sine of at least 2^-40 keeps the angle away from 0 and pi; then induction over the corners and C50 | Proved for all corners that are not nearly straight (sine of the angle at least 2^-40). Not proved: that corner at which the border starts (false already without rounding, C50_first_corner) and nearly straight corners, where the result depends on the rounding of atan2. The area that GDAL computes is a parameter and assumed positive. No overflow. |
| C147 | proved | `FieldCoverage`, `HGObjective`, `Overlaps` and `computeCostWithMinimizingSign` for numbers, infinities and NaN; areas are parameters | two different doubles differ by at least 2^-53 of the larger one (common exponent, mantissas as integers), and 1 - 2^-53 is a double, so that monotone rounding cannot reach 1; the search from C129; overlaps by induction over both loops, with a factor between 1 - 2^-53 and 1 + 2^-53 for each addition | The areas that GDAL computes are parameters; assumed is only that the part has no larger area than the whole. Zero has no sign in the model: with an area of -0.0 an infinite quotient would be negative. |
| C148 | proved | `RPObjective` with the direct distance (all overloads for points, swaths and routes) for numbers, infinities and NaN | each sum is within factors (1 - 10/2^52)^k and (1 + 10/2^52)^k of the exact one plus k 2^-329 for k operations; the model with doubles simulates the one with real numbers outcome by outcome through all loops (induction over points, swaths, groups); the powers by Bernoulli's inequality; with C20 for the length | For coordinates up to 2^400 and routes of up to 2^27 parts. std::sqrt is rounded correctly; the 2^-320 is for squares that are too small for doubles. |
| C149 | proved | `Path::length` for numbers, infinities and NaN | induction over the states: the exact sum of two doubles that are not negative is no smaller than either, and rounding to nearest is monotone and keeps doubles; accuracy as in C147 with a factor between 1 - 2^-53 and 1 + 2^-53 for each addition | - |

## Disagreements found

Each line is proved by a theorem (named in `MANIFEST.json` under the property).

* C02: swaths created in mixed directions are driven in the same direction one after the other.
* C05: snake order on one swath and spiral order of size 0 have undefined behaviour.
* C08: custom orders that do not begin with 0 ignore bit 1 of the variant.
* C09: `Swath::clone` drops the type and throws for width 0; all orders lose the type.
* C10: `==` of swaths is not symmetric and ignores the end point. C65: `==` and `<` of points are inconsistent, `==` is not transitive.
* C13: an edge costing INF or more makes the path reconstruction undefined. C14: costs beyond 2^62 overflow.
* C15: queries after a removal, or with another INF, answer from the old cache.
* C17: equal points with different hash values get two nodes; the hash is undefined for negative coordinates and heights from 0.185 m on.
* C19: `startPoint`/`endPoint` are wrong with empty groups. C20: gaps over empty connections are not counted; empty groups are undefined behaviour.
* C21: a swath is dropped if the start point is a swath end; no swaths is undefined behaviour; the default start point is never hashable.
* C22: a start point at the first swath's start throws; unconnected parts of the headland are joined by empty connections (C74: always when they are apart).
* C23: swaths cut from the tracks may leave a strip uncovered. C24: the overlap option never changes the swaths. C25: non-positive widths loop for ever. C26: steps above 2 pi return nothing.
* C27: spurious term (any ring of 6 points). C28: pairs with i + j + 1 < n are not counted. C29: inside-out rings differ, and n = 0 gives a ring outside.
* C30: cached turns have headings up to 1 mrad off. C31: the normal form is not canonical for mirrored turns along the line. C32: the cache key omits velocity and discretisation and truncates.
* C33: step 0 loops for ever. C34: merging states changes the time. C35: `populate(0)` empties, `discretize` deletes short paths; samples on the second knot are off. C37: rotation sets heights to 0.
* C39: a route with only connections is read out of bounds. C40: way points cut gentle bends. C41: the default precision moves UTM coordinates by metres, loading appends. C42: loops made by changing curvature are not seen.
* C46: empty vector is undefined behaviour. C48: segment formula is spatial, distance planar; one-point lines and empty cells are undefined behaviour. C49: signed distance wrong for different heights. C50/C72: the first corner is never tested, straight corners depend on the direction.
* C51: open rings come back closed; a first cell without border is a null pointer. C52: clone drops the previous system and replaces the reference point. C53: other spellings with EPSG: throw or are misread. C54: one-digit UTM zones are misread.
* C55: fields without system come back with a guessed one. C56: backward states point the wrong way. C57: second knot wrong, first two knots unchecked, monotonic splines out of bounds, stale slopes. C58: several setters and the constructor do not validate.
* C59: blank separated GML 3 coordinates lose their pairing. C60: CONST headland with n <= 0 reads out of bounds; unknown enumerators are null pointers. C61: all-empty children have size 0. C62/C64: changes below 1e-7 are not written back. C63: copies share the path points. C64: three random corners can be collinear.
* C66: nodes without outgoing edges are not counted. C68: coverage without swaths is undefined behaviour. C69: type and creation direction are lost. C70: a failed transformation leaves the field moved. C71: every run of the complete planner hashes a negative point.
* C75: positions with four numbers become the origin; multi polygons are read as one point per ring. C76: swath numbers wrap around at 32 bits. C77: a polygon feature without geometry is undefined behaviour, a swath feature without geometry becomes a swath without points.
* C78: a ray that also touches a corner gives no line; one that first crosses a part thinner than 1e-5 leaves the cell. C79: splitting loses a strip of 2e-8 along each line, because assigning to an iterated cell is not written back. C81: one track that touches a corner removes all swaths of the cell.
* C83: a transformed route loses the types and creation directions of its swaths. C84: the local plan of a field is relative to the first point of the field, not to its reference point.
* C85: the objective that computes all turns leaves out those between swaths and connections, because only one of the overloads is overridden; paths without way points between two groups cost nothing for the turn.
* C86: lines of a drawn path are cut one state too late, a path of one state is not drawn. C87: the gradient of one colour divides by 0; too few colours are read out of bounds; sets of swaths or routes ignore the given colours. C88: `plotFilled` of a field does not fill, colours with four components are written out of bounds.
* C89: the box of a path leaves out the end of its last section; empty paths dereference the end. C90: a path added to itself is undefined behaviour. C91: `MultiPoint::setGeometry` behind the last point writes to a null pointer. C92: the segments of an empty line throw. C93: coinciding end points have direction 0 both ways.
* C95: copies of containers share their data; whether `setGeometry` reaches the original depends on the index. C96: `getCellWherePoint` returns an alias into the container, which dangles after `setGeometry`. C97: on a border between two cells only the first one is searched.
* C99: copying, appending or flattening shares lines, so that sorting a copy turns the paths of the original without its direction flags; appending a list to itself is undefined behaviour.
* C101: `Point(Point&&)` is defaulted and takes the pointer, while both assignments of `Point` write through it; `std::swap` of two points, path states or fields dereferences null. The library itself swaps only swaths, which hold no points as members.
* C40: the way point behind a bend (`p_out`, path_planning.cpp:147-153) is never used, since it is at most twice the safe distance from the one before the bend and more than three times that is asked for.
* C104: strips are transformed without the reference point of the field; all other objects add it.
* C105: polygons of a multi polygon inside a collection are dropped; a null result of GEOS is dereferenced.
* C107: `Cell::buffer` and `Cell::convexHull` throw if the result is not one polygon, e.g. if a cell falls apart when it is shrunk.
* Buffers: `OGRBuffer` asks for flat ends and mitred corners (Geometry_impl.hpp:299-302). Earlier versions of C29, C68 and C79 assumed round ones; their contracts have been replaced. With mitred corners headland rings made from inside to outside can leave the field (`C29_ring_leaves_field`).
* C25: a container whose cells are all empty has size 0 (Cells.cpp:135-137), so no group is generated for it. The same holds for lines given to `Swaths::append`, for cells in `SGObjective::computeCost(Cells)` (C67), and for split lines (C79): if all are empty, none is visited. Earlier versions of the model visited them.
* C110: `Swaths::append(Swaths)` keeps numbers, so that they repeat. `Swaths(n)` holds swaths of width 0, which `clone` rejects. C111: the coverage of groups of swaths is the sum of the coverages and exceeds 1 if groups overlap; overlaps between groups are not counted.
* C113: the extra term of C27 (first point against the one with number (2^64 - 1) mod n) misleads the search: a pentagon 10 long and 8 high is covered along its short side.
* C114: in double precision the laws of C44 and C45 hold only up to rounding: `mod_2pi` is not idempotent, `getAngleDiffAbs` not symmetric, and angles below 2^-51 vanish. C115: `C24` (number of tracks) is exact only up to rounding: the loop adds widths one by one, so that a field of exactly eight widths can get nine tracks.
* C116: UTM systems named without a letter (`setUTMCoordSystem("31")`) give the projection library no hemisphere; zones of one digit are misread (as in C54) or throw.
* C117: in double precision `Path::at(path.length())`, which without rounding is the end of the path (C36), can return a default state at (0, 0): the loop subtracts the lengths one by one and may be left with more than the last one. States of 1 m and 0.1 m suffice. C118: `populate` throws `out_of_range` if a state is so short that it vanishes in the sum.
* Correction: in an earlier version of `seeded/LOG.jsonl` (commit 8228ad6), entry A029 named the wrong definition's meaning and the wrong theorem. The edit is in `Swath::getOutAngle`, and the theorem added for it is `C93_swath_short`; X001 repeats the edit and shows that it fails.
* C119: `transformToUTM` ignores `is_etrs89_opt` for fields in EPSG:4326 or EPSG:4258; longitude 180 gives zone 61.
* C120: long lines are as long as width plus height of the cells, counted from the given point; from a point farther away they do not reach the cells.
* `seeded/LOG.jsonl`: up to entry Z007, an error that the prover reports for a whole declaration (such as a timeout) was attributed to the declaration before it, since such errors are reported at the doc comment. `failed` may therefore name a neighbouring theorem in those entries; whether an edit was caught is not affected.
* C122: `Graph::numEdges` adds in `int` (`std::accumulate` with initial value `0`), so that the number is wrong from `2^31` edges on.
* C123: a rim of up to half a width along the border of a cell may be left without swath (rectangles slightly narrower than a whole number and a half of widths); wider rims only if a track touches the cell in a point (C81).
* C106: at bends of its path a swath also covers positions further than half a width away, since the corners of the buffer are mitred.
* C125: the rings of the headland lie half a width inside of their strips, so at a convex corner the position of the corner is further than half a width from all rings: corners are not covered (`C125_corner`). They are the only reason: convex fields in which a disc as wide as the headland can be rolled along the border are covered completely (`C125_round_partial`).
* C126: `populate` looks up the section of a state at its distance plus 1e-10, which in paths longer than about 1000 km is less than half the spacing of doubles: states exactly at the beginning of a section get the velocity, direction and type of the one before.
* C127: `Robot` and `Swath::setWidth` test `width <= 0` (or `< 0`) and throw, which is false of NaN: it becomes the width, and `generateSwaths` gives no swaths without any error.
* C128: `Path::at(NaN)` gives the first state at a position that is NaN; a state whose length is NaN is extended to any distance.
* C129: if the objective of the first angle is NaN, `std::min_element` returns it; the steps 0, infinity, NaN and everything above a turn are undefined behaviour.
* C131: coordinates are stored as differences to the reference point; a point much nearer to the origin than to the reference point loses its last digits (`C131_lost`: with a reference point at -3, 2^-60 comes back as 0).
* C134: the rotation tolerance of `isTurnValid` is compared with a cosine, so the default 0.1 is a tolerance of 25.8 degrees (`C134_direction_tolerance`).
* C135: `hasSameDir` compares a flag that says whether the swath was reversed since its creation, not the points; swaths created in opposite directions count as having the same direction (`C135_opposite_creation`).
* C136: `closestPointInSegment` may return a point beyond the end of the segment by a rounding error (`C136_off_segment`); for a point that is not a number it returns the end of the segment (`C136_nan_point`), and if coordinates are so large that their squares overflow the farthest point (`C136_overflow`).
* C137: the cost of an edge may exceed the distance in millimetres (rounding before the conversion); points too far apart or with coordinates that are no numbers are undefined behaviour. C138: in doubles the hash of points of a UTM field does not tell points a metre apart from each other; it is undefined for points a metre south of the origin or 0.2 m high.
* C139: the closest point on the border to a point of the border may be another point (`C139_not_itself`), so that `createShortestGraph` may put both into the graph; for a point that is not a number an arbitrary corner is returned (`C139_nan`).
* C143: `Point::intersectionOfLines` multiplies absolute coordinates; in UTM coordinates the result can be decimetres off for short segments (`C143_intersection_off`). Subtracting one of the points first would avoid it, as `signedDistance2Segment` does.
* C144: the constructor of `Robot` stores the limits as given, without the `fabs` of the setters: `Robot(2, 0, -1e-7)` has an infinite minimum turning radius, and `Robot(2, 0, -1)` one of about -1 m.  `setMinTurningRadius` with infinity is read back as 10000 km.

## Axioms per theorem

Output of `#print axioms` for all theorems of `MANIFEST.json` (prefix `F2C.Props.` left out).

**none** (4):
C13_cost_above_inf_ub, C15_stale_after_removal, C15_stale_inf, C104_clone.

**propext** (5):
C14_overflow_beyond_bound, C105_polygons_partial, C105_nothing_else, C105_nested_dropped, C105_failure_ub.

**Quot.sound, propext** (43):
C08_variant_mod_four, C09_clone_exact_partial, C09_clone_loses_type, C09_clone_throws, C11_getSwath_is_flatten, C15_queries_reflect_graph_partial, C17_hash_out_of_range_ub, C21_no_swaths_ub, C25_append_rejects, C51_absolute_position_partial, C52_clone_partial, C52_clone_succeeds, C57_monotonic_ub, C61_access, C61_all_empty, C62_move_partial, C62_move_tiny, C62_compose_partial, C63_fields, C65_point_order, C66_sink_node_ub, C75_four_numbers, C87_sets_ignore_colours, C88_border, C88_lines, C88_points, C91_line, C91_multi_partial, C91_multi_ub, C91_get_throws, C99_join, C101_partial, C101_erase, C101_swap_ub, C101_reverse_ub, C101_moved_from_ub, C110_read, C110_build, C110_emplace, C110_append_swaths, C110_clone, C121_out_of_range, C121_last.

**Classical.choice, Quot.sound, propext** (644):
C01_order_preserves_swaths, C02_flags_alternate, C02_alternates_partial, C02_same_direction_witness, C03_boustrophedon_sorted, C04_snake_pattern, C04_snake_jump_at_most_two, C05_no_ub_partial, C05_snake_single_swath_ub, C05_spiral_zero_ub, C06_spiral_pattern, C06_constructor, C07_custom_order, C07_cases_exhaustive, C08_bit0_other_end, C08_bit1_turns_all_partial, C08_custom_ignores_bit1, C08_first_runs_up, C08_first_runs_down_partial, C09_sorters_lose_type, C10_equality_partial, C10_equality_not_symmetric, C10_equal_different_ends, C10_order_by_id, C10_strict_order, C10_incomparable, C12_costs_optimal, C12_getCosts_optimal, C13_between_points, C13_paths_real, C13_getPaths, C14_no_overflow, C14_largest_inf, C16_all_simple_paths, C16_between_points, C17_one_node_per_point_partial, C17_equal_points_two_nodes, C17_numbers_kept, C17_unknown_number, C18_alternates, C18_swaths_kept, C19_concatenation, C19_call_appends, C19_no_point_lost, C19_ends_partial, C19_length, C19_clone, C19_false_for_empty_group, C19_false_for_empty_last_group, C20_cost_is_length_partial, C20_false_for_empty_connection, C20_empty_group_ub, C20_single_point_throws, C21_each_swath_once_partial, C21_swath_dropped, C21_default_depot_never_ok, C22_connections_partial, C22_headland_connects, C22_start_at_swath_throws, C22_unconnected_jump, C23_tracks_leave_no_gap, C23_swaths_leave_gap, C24_tracks_spacing_and_count, C24_overlap_option_has_no_effect, C24_overlap_keeps_swaths_partial, C25_append_numbers, C25_generated_numbers, C25_one_group_per_cell, C25_no_group_for_empty_cells, C25_nonpositive_width_never_returns, C26_brute_force_optimal, C26_best_swaths, C26_best_per_cell, C26_bad_step, C27_exact_value, C27_projection_partial, C27_start_independent_partial, C27_wrong_for_six_points, C28_exact_value, C28_all_pairs_partial, C28_pairs_missing, C29_out_to_in, C29_remaining, C29_in_to_out_partial, C29_rectangle_partial, C29_one_ring_partial, C29_directions_differ, C29_ring_leaves_field, C29_zero_swaths_ring_outside, C30_computed_partial, C30_only_ends_moved, C30_cached, C30_cached_wrong_angle, C30_end_of_path, C31_ranges, C31_invertible, C31_canonical_partial, C31_mirror_differs, C31_same_point_differs, C32_answer_of_alike, C32_transparent_partial, C32_velocity, C32_discretization, C32_rounding, C33_discretize_swath, C33_zero_step, C34_groups, C34_length, C34_time_partial, C34_first, C34_time_fails, C35_populate_partial, C35_start, C35_populate_short, C35_populate_zero, C35_discretize_partial, C35_discretize_destroys, C35_second_knot_wrong, C36_at, C36_start, C36_end, C36_empty, C37_isometry, C37_moves_states, C37_distances, C37_length_time, C37_mirror_twice, C37_rotate_back_partial, C37_rotation_drops_height, C37_sums, C38_drives, C38_without_turns, C38_route, C38_exists, C39_partial, C39_only_connections_ub, C39_empty_swath_throws, C39_one_point_swath_throws, C39_one_point_connection_throws, C40_partial, C40_bent_everywhere, C40_off_connection, C40_close, C40_way_points, C40_one_each, C41_round_trip, C41_load_appends, C41_never_throws, C41_interrupted, C41_last_numbers, C41_default_precision, C42_loop_detector, C42_search, C42_no_loop_fixing, C42_limits, C42_spiral_not_detected, C43_states, C43_length, C44_mod_2pi_canonical, C45_angle_diff_metric, C45_angle_diff_is_least, C46_angle_continuity, C46_empty_ub, C47_angle_average, C48_segment_partial, C48_segment_space, C48_height, C48_line_partial, C48_short_lines, C48_cell_partial, C48_cells_partial, C48_empty_cell, C49_intersection, C49_parallel, C49_signed_zero_partial, C49_signed_reverse, C49_signed_side_partial, C49_signed_distance_partial, C49_height, C50_holes, C50_convex, C50_iff_partial, C50_first_corner, C50_straight_corner, C51_open_rings_are_closed, C51_first_cell_without_border, C51_first_border_empty, C52_clone_of_constructed, C52_clone_loses_prevCRS, C52_clone_changes_ref, C52_clone_empty_loses_ref, C53_epsg_round_trip, C53_epsg_other_partial, C53_epsg_spaces, C53_epsg_throws, C53_epsg_wrong, C53_epsg_defined, C54_utm_zone_partial, C54_one_digit_zones, C54_hemisphere_throws, C55_records_previous, C55_utm_and_back_partial, C55_guessed_system, C55_other_ref, C55_succeeds, C55_ref_in_gps_partial, C55_ref_in_gps_changed, C56_path_consistent_partial, C56_points, C56_backward_wrong, C56_transformPath_wrong, C57_accepts, C57_interpolates_partial, C57_second_knot_wrong, C57_second_knot, C57_rejects_partial, C57_first_two_unchecked, C57_after_end, C57_set_points_stale, C57_smooth, C57_continuous_partial, C57_continuous_before_partial, C57_jump, C57_rejects_sizes, C58_construct, C58_constructed, C58_turn_velocity, C58_limits_kept, C58_limits, C58_constructor_negative_limit, C58_width_unchecked, C58_radius_partial, C58_radius_not_read_back, C59_gml_to_wkt, C59_blank_separated, C60_ring_partial, C60_none, C60_no_rings_ub, C60_objective_partial, C60_unknown_objective_ub, C60_curves, C60_unknown_curves_ub, C60_unused_options, C61_lines_partial, C61_cells_partial, C61_cell_partial, C61_cell_open_ring, C62_scale_partial, C62_scale_cells_partial, C62_compose_fails, C62_scale_fails, C63_clone_partial, C63_copies_share, C64_throws, C64_of_area, C64_area_partial, C64_exact_area, C64_not_scaled, C64_three_corners_ub, C65_point_equality, C65_equal_and_less, C66_undirected_safe_partial, C67_costs_add_up, C67_cells, C67_count_and_length, C68_coverage_is_fraction_partial, C68_headland_is_fraction, C68_thin_field_ub, C69_swaths_partial, C69_plain_partial, C69_there_and_back, C69_type_and_direction_lost, C69_headland_witness, C70_in_place_refines, C70_failure_partial, C70_failure_moves_field, C71_complete_planner_partial, C71_on_headland_partial, C71_depot_undefined, C72_convex_partial, C72_non_convex, C72_not_convex, C73_headland_ways_partial, C73_route_on_headland_partial, C73_empty_ring, C73_far, C73_shortest_partial, C74_apart, C74_two_squares, C75_fields_partial, C75_cell_partial, C75_strips_partial, C75_multi_polygon, C76_swaths_partial, C76_fraction_partial, C76_large_id, C77_fields_ok, C77_fields_ub, C77_cell_ok, C77_cell_ub, C77_strips_ok, C77_strips_ub, C77_swaths_ok, C77_swaths_ub, C77_no_features, C77_object_features, C77_keeps_earlier, C77_missing_geometry_ub, C77_missing_geometry_accepted, C78_nearest, C78_inside_partial, C78_touching_ray, C78_leaves_cell, C79_straight_lines, C79_thin_gaps_partial, C79_gap, C80_corner, C81_parts_partial, C81_touching_drops_all, C81_swaths_lost, C82_way_points, C82_cached, C83_route_value, C83_route_partial, C83_direction_lost, C84_local_value, C84_local_partial, C84_overloads, C84_other_ref, C84_route_other_system, C84_path_other_system, C84_no_system, C85_swaths_partial, C85_value, C85_route_misses_turns, C85_route_value, C85_route_false, C85_route_partial, C86_false, C86_single, C86_partial, C86_few_colours_ub, C87_gradient, C87_single_nan, C87_swaths_partial, C87_by_cells, C87_few_colours_ub, C87_route_partial, C87_sets_partial, C87_routes_partial, C88_cells, C88_filled, C88_field_not_filled, C89_value, C89_empty_ub, C89_false, C89_partial, C89_moved, C90_partial, C90_connected, C90_self_ub, C90_box, C91_ends, C92_partial, C92_empty_throws, C93_directions, C93_partial, C93_end_partial, C93_swath_partial, C93_swath_directions, C93_swath_short, C93_false, C94_inner, C94_ends, C94_planner, C95_effect, C95_partial, C95_false, C96_first, C96_lifetime, C96_dangling, C96_writes_through, C97_partial, C97_false, C98_ordering_is_pure, C99_in_place_partial, C99_move_partial, C99_copy_sorted, C99_false, C100_turn_within, C100_bounds, C102_simple, C102_turn, C102_constrained, C102_simple_curve, C102_constrained_curve, C103_best_order_partial, C103_shortest_route_partial, C103_complete_planner_partial, C104_together_partial, C104_path_partial, C104_strip_value, C104_cell_with_ref, C104_strips_partial, C104_strips_go_astray, C104_no_previous, C104_strip_witness, C105_intersection, C105_intersection_cell, C105_difference, C105_difference_cell, C105_union, C105_union_cell, C106_area_covered_partial, C106_bends_partial, C106_corner, C106_no_path, C107_cell_partial, C107_apart_throws, C107_flat_throws, C107_ring_buffer, C108_linear, C108_empty_range, C108_angle, C108_exp_partial, C108_exp_nan, C108_exp_dist_partial, C108_exp_dist_zero, C108_cell, C108_bad_arguments, C108_field_partial, C108_convex_field_partial, C108_convex_field_dent, C109_get, C109_set, C109_add, C109_dir, C109_type, C109_all, C110_of_size, C110_append_inside, C110_numbers_repeat, C111_signed_cost, C111_sign, C111_one_cell, C111_without_cells, C111_groups_count_and_length, C111_groups_coverage, C111_coverage_above_one, C111_overlaps_between_groups, C111_headland, C111_decomp, C111_swath_point, C111_swath_pose, C112_fewest, C112_shortest, C112_coverage_partial, C112_planner, C113_border, C113_value, C113_swaths, C113_search, C113_misled, C114_mod, C114_direction, C114_diff_range, C114_diff_error, C114_small_angles_vanish, C114_laws_fail, C115_tracks, C115_number, C115_extra_track, C115_endless, C115_candidates, C115_around, C116_set, C116_default, C116_again, C116_projection, C116_no_letter, C116_one_digit, C116_skip, C116_no_datum, C117_length, C117_before, C117_position_partial, C117_lost_only_at_end, C117_end_lost, C118_accepts_partial, C118_throws, C118_empty, C119_other, C119_gps, C119_none, C119_date_line, C120_cell, C120_cells, C120_ends, C120_cells_ends, C120_convex, C120_outside, C121_line, C121_set_connection, C121_set_swaths, C121_has_last, C122_cost, C122_from, C122_nodes, C122_count_partial, C122_count_wraps, C123_inner_covered, C123_best_angle, C123_cut_partial, C123_touching, C123_planner, C123_path, C123_rim, C124_section, C124_discretize, C124_joined, C124_length, C124_short, C124_endless, C125_inner_half, C125_outer_half_partial, C125_round_partial, C125_rectangle_partial, C125_corner, C126_sections_partial, C126_long, C127_robot, C127_robot_partial, C127_nan, C127_swath, C127_nan_tracks, C127_infinite_tracks, C127_finite_tracks, C128_number, C128_infinite, C128_nan, C128_length_nan, C128_beyond, C128_discretize_nan, C128_discretize_number, C128_discretize_zero, C129_best_partial, C129_first_nan, C129_undefined, C129_range, C130_self, C130_tolerance, C130_angle, C131_restored_partial, C131_error, C131_clone_partial, C131_lost, C132_tracks, C132_no_gap, C132_number, C133_line, C133_empty_ub, C133_jump, C134_valid, C134_empty_ub, C134_direction_tolerance, C135_created, C135_directions_partial, C135_same_swath, C135_opposite_creation, C136_nearest_partial, C136_same_ends, C136_nan_point, C136_overflow, C136_off_segment, C136_line_partial, C136_line_nan, C136_short_lines, C137_cost_partial, C137_symmetric, C137_undefined, C137_too_much, C138_defined_partial, C138_high, C138_south, C138_west, C138_no_number, C138_same_value, C139_cell_partial, C139_border_partial, C139_nan, C139_empty, C139_not_itself, C140_normal_form, C140_computed, C140_used, C140_shape, C141_value, C141_nothing, C141_best, C141_convex, C142_states, C142_no_gaps, C142_length, C142_short, C142_turn, C143_distance_partial, C143_sloped, C143_side_partial, C143_intersection_partial, C143_intersection_off, C144_radius, C144_limits, C144_members, C144_curvature, C144_nan, C144_read_back_partial, C144_unlimited, C144_constructor, C145_time, C145_defined, C145_standstill, C145_nan, C146_side, C146_convex_partial, C146_accepts, C146_refused, C147_coverage, C147_monotone, C147_remaining, C147_no_area, C147_search, C147_overlaps, C147_overlaps_value, C147_two_swaths, C148_points, C148_swaths, C148_between, C148_route, C148_length, C148_nan, C149_defined, C149_grows, C149_nan, C149_sum.
