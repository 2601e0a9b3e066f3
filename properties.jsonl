{"id": "C01", "title": "Ordering swaths loses and duplicates nothing", "statement": "Sorting a collection of swaths with any of the order classes (boustrophedon, snake, spiral, custom) and any start variant returns every input swath exactly once, changed in nothing but its travel direction: same id, width and set of path points, and no swath appears twice or is dropped.", "quantifier": "every finite list of swaths with positive width, every variant number, every order class, every spiral size >= 1, every valid custom permutation, every correct (possibly unstable) std::sort", "why_tests_cant": "Index arithmetic with in-place std::rotate / std::reverse depends on the size of the list and of the spiral; tests only try a handful of sizes.", "anchors": ["src/fields2cover/route_planning/single_cell_swaths_order_base.cpp: genSortedSwaths, changeStartPoint", "src/fields2cover/route_planning/snake_order.cpp: sortSwaths", "src/fields2cover/route_planning/spiral_order.cpp: sortSwaths, spiral", "src/fields2cover/route_planning/custom_order.cpp: sortSwaths", "src/fields2cover/types/Swaths.cpp: sort, reverse, reverseDirOddSwaths, clone"]}
{"id": "C02", "title": "Consecutive swaths are driven in opposite directions", "statement": "In the list returned by genSortedSwaths every swath is driven in the opposite direction to the one before it. For parallel swaths that were created with the same orientation this means geometrically opposite travel directions.", "quantifier": "every list of swaths, every order class and variant", "why_tests_cant": "The alternation is a loop invariant over the whole list that depends on flags inherited from previous operations (reversal, cloning, sorting); a few examples with fresh swaths cannot show it for mixed histories.", "anchors": ["src/fields2cover/route_planning/single_cell_swaths_order_base.cpp: genSortedSwaths", "src/fields2cover/types/Swaths.cpp: reverseDirOddSwaths, sort", "src/fields2cover/types/Swath.cpp: targetOppositeDirAs, hasSameDir, reverse"]}
{"id": "C03", "title": "Boustrophedon order visits swaths by increasing id", "statement": "Boustrophedon ordering returns the swaths by non-decreasing id, and by non-increasing id when the variant asks to start from the last swath.", "quantifier": "every list of swaths and variant", "why_tests_cant": "Unbounded input lists and duplicates in ids; std::sort is unstable so only a relational statement covers all libraries.", "anchors": ["src/fields2cover/route_planning/boustrophedon_order.cpp", "src/fields2cover/route_planning/single_cell_swaths_order_base.cpp", "src/fields2cover/types/Swaths.cpp: sort"]}
{"id": "C04", "title": "Snake order skips one swath on the way out and comes back on the skipped ones", "statement": "For a list of n >= 2 swaths the snake order visits positions 0,2,4,... in increasing order and then the odd positions in decreasing order, so the route never jumps over more than one swath and ends next to where it started.", "quantifier": "every n >= 2 and every list", "why_tests_cant": "The rotation loop is quadratic index shuffling with different cases for odd and even sizes; tests look at two sizes and at three positions only.", "anchors": ["src/fields2cover/route_planning/snake_order.cpp: sortSwaths"]}
{"id": "C05", "title": "Every order class is defined on every non-empty list", "statement": "Ordering never performs an out-of-range iterator operation: for each order class and every number of swaths (including a single swath) genSortedSwaths terminates normally without undefined behaviour.", "quantifier": "every list of swaths, every spiral size a user may set", "why_tests_cant": "Undefined behaviour can silently pass tests (writing past a vector's end), and single-element lists are not in the tests.", "anchors": ["src/fields2cover/route_planning/snake_order.cpp: sortSwaths", "src/fields2cover/route_planning/spiral_order.cpp: sortSwaths, setSpiralSize", "src/fields2cover/route_planning/custom_order.cpp"]}
{"id": "C06", "title": "Spiral order spirals inwards inside each block", "statement": "With spiral size s the sorted swaths are cut in consecutive blocks of s (the last one may be shorter) and each block is visited from the outside in, alternating ends: every block starting at an even offset begins with its first swath, last, second, last but one, and so on; blocks starting at an odd offset begin with their last one.", "quantifier": "every list, every s >= 2", "why_tests_cant": "The parity of the offset changes the pattern; tests cover sizes 5, 6 and 10 only.", "anchors": ["src/fields2cover/route_planning/spiral_order.cpp: sortSwaths, spiral"]}
{"id": "C07", "title": "Custom order accepts exactly the permutations and applies them", "statement": "A custom order is accepted if and only if it is a permutation of 0..n-1, the result has swath order[i] at position i, and otherwise an exception with the documented type is thrown (never undefined behaviour).", "quantifier": "every order vector of natural numbers and every list of n >= 1 swaths", "why_tests_cant": "The set of invalid vectors is infinite; acceptance must be equivalent to being a permutation.", "anchors": ["src/fields2cover/route_planning/custom_order.cpp: check, sortSwaths"]}
{"id": "C08", "title": "The start variant selects the four corners and nothing else", "statement": "The variant argument only matters modulo 4: bit 0 makes the order start from the other end of the field and bit 1 makes the first swath be driven in the other direction; the four variants visit the same swaths.", "quantifier": "every list and every 32-bit variant", "why_tests_cant": "Universally quantified over variants and lists.", "anchors": ["src/fields2cover/route_planning/single_cell_swaths_order_base.cpp: changeStartPoint, genSortedSwaths", "src/fields2cover/route_planning/boustrophedon_order.cpp"]}
{"id": "C09", "title": "A cloned swath is indistinguishable from the original", "statement": "Swath::clone returns a swath with the same id, path, width, creation direction and type as the original, and works for every swath a user can build; so the swaths delivered by the sorters and by the route planner keep the type they were given.", "quantifier": "every swath", "why_tests_cant": "Requires all fields of all swaths, including default-constructed ones.", "anchors": ["src/fields2cover/types/Swath.cpp: clone, setWidth", "src/fields2cover/types/Swaths.cpp: clone", "src/fields2cover/route_planning/single_cell_swaths_order_base.cpp"]}
{"id": "C10", "title": "Swath equality is an equivalence relation", "statement": "operator== on swaths is reflexive, symmetric and transitive, operator!= is its negation, and <= / >= are consistent with < , > and ==.", "quantifier": "every pair and triple of swaths", "why_tests_cant": "Symmetry and transitivity are statements over pairs and triples of all swaths.", "anchors": ["src/fields2cover/types/Swath.cpp: operator==, operator!=, operator<, operator>, operator<=, operator>="]}
{"id": "C11", "title": "Global swath numbering over cells equals the flattened list", "statement": "SwathsByCells::getSwath(i) is the i-th element of flatten() for every i < sizeTotal(), skipping empty cells, and throws out_of_range for every other i.", "quantifier": "every list of lists of swaths and every index", "why_tests_cant": "Arbitrary mixtures of empty and non-empty cells.", "anchors": ["src/fields2cover/types/SwathsByCells.cpp: getSwath, sizeTotal, flatten"]}
{"id": "C12", "title": "Shortest path costs are optimal", "statement": "For a graph with non-negative costs whose nodes are 0..N-1, getCosts()/shortestPathCost(i,j) is the minimum total cost over all walks from i to j made of existing edges, 0 for i=j, and INF exactly when no walk cheaper than INF exists.", "quantifier": "every graph, every pair of nodes", "why_tests_cant": "Optimality over all walks in all graphs.", "anchors": ["src/fields2cover/types/Graph.cpp: shortestPathsAndCosts, initializeMatrices, shortestPathCost, getCosts"]}
{"id": "C13", "title": "Shortest paths are real paths with the reported cost", "statement": "For a graph with non-negative costs, shortestPath(i,j) terminates; when j is reachable it returns a sequence of nodes that starts in i, ends in j, follows existing edges, repeats no node, and whose edge costs add up to shortestPathCost(i,j); otherwise (or for i=j) it is empty.", "quantifier": "every graph (zero-cost edges and zero-cost cycles included), every pair of nodes", "why_tests_cant": "The reconstruction loop follows a successor matrix and would run forever on a cycle; zero-cost cycles are the dangerous case and cannot be excluded by samples.", "anchors": ["src/fields2cover/types/Graph.cpp: initializeMatrices, reconstructPath, getPaths, shortestPath"]}
{"id": "C14", "title": "Shortest path computation never overflows 64 bits", "statement": "With non-negative costs and INF at most 2^62 no intermediate sum in the all-pairs computation leaves the int64 range, so no signed overflow (undefined behaviour) can happen.", "quantifier": "every graph and INF <= 2^62", "why_tests_cant": "Overflow depends on extreme values.", "anchors": ["src/fields2cover/types/Graph.cpp: initializeMatrices"]}
{"id": "C15", "title": "Path queries always reflect the current graph", "statement": "After any interleaving of edge insertions, removals and queries, shortestPathCost and shortestPath answer for the edges currently in the graph, as if computed from scratch, whatever was asked before.", "quantifier": "every sequence of operations", "why_tests_cant": "Cache coherence is a property of all operation histories.", "anchors": ["src/fields2cover/types/Graph.cpp: addDirectedEdge, removeDirectedEdge, removeEdge, shortestPath, shortestPathCost, getCosts, getPaths", "src/fields2cover/types/Graph2D.cpp"]}
{"id": "C16", "title": "allPathsBetween lists exactly the simple paths", "statement": "allPathsBetween(a,b) contains each cycle-free path from a to b along existing edges exactly once, and nothing else.", "quantifier": "every graph with nodes 0..N-1, every pair", "why_tests_cant": "Completeness of a backtracking search over all graphs.", "anchors": ["src/fields2cover/types/Graph.cpp: allPathsBetween, DFS", "src/fields2cover/types/Graph2D.cpp: allPathsBetween"]}
{"id": "C17", "title": "A 2D graph has one node per point", "statement": "Points added to a Graph2D get consecutive indices, indexToNode and nodeToIndex are inverse to each other on all inserted points, and two points that compare equal always denote the same node.", "quantifier": "every sequence of inserted edges", "why_tests_cant": "Needs all insertion sequences, and pairs of nearly equal points at hash boundaries.", "anchors": ["src/fields2cover/types/Graph2D.cpp: addDirectedEdge, nodeToIndex, indexToNode", "src/fields2cover/types/Point.cpp: operator==", "include/fields2cover/types/Point.h: std::hash<Point>"]}
{"id": "C18", "title": "A route always alternates connections and swath groups", "statement": "Whatever sequence of addSwath, addSwaths, addConnection, addConnectedSwaths calls builds a route, the number of connections is the number of swath groups or one more, there is a connection before every group, and no call dereferences an empty vector.", "quantifier": "every sequence of operations starting from an empty route", "why_tests_cant": "Invariant over all call sequences.", "anchors": ["src/fields2cover/types/Route.cpp: addSwaths, addSwath, addConnection, addConnectedSwaths"]}
{"id": "C19", "title": "Route geometry is the concatenation of its parts", "statement": "asLineString() lists the points of connection 0, group 0, connection 1, group 1, ... in order and loses none; startPoint()/endPoint() are its first and last point, length() its length; adding a part appends its points at the end.", "quantifier": "every sequence of operations building a route", "why_tests_cant": "All mixtures of empty and non-empty connections and groups.", "anchors": ["src/fields2cover/types/Route.cpp: asLineString, startPoint, endPoint, length, addSwath, addConnection"]}
{"id": "C20", "title": "Route cost equals the distance driven", "statement": "With the direct-distance objective, the cost of a route equals the length of its line string.", "quantifier": "every route", "why_tests_cant": "Universally quantified over routes, including those with empty connections.", "anchors": ["src/fields2cover/objectives/rp_obj/rp_objective.cpp: computeCost(F2CRoute), computeCost(F2CSwaths)", "src/fields2cover/types/Route.cpp: asLineString, length"]}
{"id": "C21", "title": "The planned route covers every swath exactly once", "statement": "If the solver returns a tour that visits every node of the coverage graph once and only uses its edges, then the generated route drives every swath exactly once, forwards or backwards, and nothing else; without redirection all of them are driven forwards.", "quantifier": "every set of swaths, every such tour", "why_tests_cant": "Correctness of the decoding of a tour for all inputs, including swaths that share end points.", "anchors": ["src/fields2cover/route_planning/route_planner_base.cpp: createCoverageGraph, transformSolutionToRoute"]}
{"id": "C22", "title": "A route with a set start/end point starts and ends there and is connected", "statement": "When a start/end point is set, the route begins and ends at that point; between two consecutive swaths the connection is a shortest path from the end of one to the start of the next one.", "quantifier": "every set of swaths, every tour", "why_tests_cant": "Depends on decoding of all tours.", "anchors": ["src/fields2cover/route_planning/route_planner_base.cpp: transformSolutionToRoute, setStartAndEndPoint", "src/fields2cover/types/Route.cpp: addSwath(const Swath&, Graph2D&)"]}
{"id": "C23", "title": "Generated tracks leave no gap", "statement": "For every cell and angle, every point of the cell lies at most half the operating width from one of the generated track lines, and each track line crosses the whole bounding box of the rotated cell.", "quantifier": "every polygon, angle and positive width", "why_tests_cant": "Geometric statement about all polygons and angles.", "anchors": ["src/fields2cover/swath_generator/swath_generator_base.cpp: generateSwaths", "src/fields2cover/types/Cell.cpp: createStraightLongLine", "src/fields2cover/types/Point.cpp: rotateFromPoint"]}
{"id": "C24", "title": "Tracks do not overlap unless allowed, and overlap is used when allowed", "statement": "Neighbouring tracks are exactly one operating width apart; without allow_overlap the number of tracks is the least number that covers the height of the rotated field, with allow_overlap one extra pass may be placed to cover the rest, and switching the option on changes the generated swaths only by adding passes at the far border.", "quantifier": "every height, width and option", "why_tests_cant": "Boundary behaviour of a floating loop for all heights.", "anchors": ["src/fields2cover/swath_generator/swath_generator_base.cpp: generateSwaths, setAllowOverlap"]}
{"id": "C25", "title": "Generated swaths are numbered consecutively", "statement": "Swaths appended to a collection get ids equal to their position (starting from the current size), the operating width and the requested type; generateSwaths over several cells returns one group per cell, in order, each numbered from 0; a non-positive width is rejected with an exception as soon as there is a swath.", "quantifier": "every cell, width, list of lines", "why_tests_cant": "All lists and sizes.", "anchors": ["src/fields2cover/types/Swaths.cpp: append", "src/fields2cover/swath_generator/swath_generator_base.cpp: generateSwaths, generateBestSwaths"]}
{"id": "C26", "title": "Brute force returns the best of its candidate angles", "statement": "computeBestAngle returns one of the multiples of the step angle below 2*pi whose signed cost is not worse than that of any other candidate (the smallest such angle), for minimising and maximising objectives alike, independent of the evaluation order.", "quantifier": "every objective function, step angle in (0, 2*pi] and cell", "why_tests_cant": "Optimality for arbitrary cost functions; the parallel execution order cannot be enumerated.", "anchors": ["src/fields2cover/swath_generator/brute_force.cpp: computeBestAngle", "include/fields2cover/objectives/base_objective.h: computeCostWithMinimizingSign"]}
{"id": "C27", "title": "The fast swath count is the border projection", "statement": "NSwathModified computes, for every ring, half of the sum over all border edges of the edge length projected across the swath direction, divided by the operating width; the result does not depend on where the ring starts.", "quantifier": "every closed ring, angle and positive width", "why_tests_cant": "Depends on the number of ring points modulo 2^64.", "anchors": ["src/fields2cover/objectives/sg_obj/n_swath_modified.cpp: computeCost"]}
{"id": "C28", "title": "The overlap objective counts every pair of swaths", "statement": "The Overlaps objective is the sum over all unordered pairs of swaths of the area covered by both, divided by the area of the field.", "quantifier": "every list of swaths and field", "why_tests_cant": "Nested loops over growing vectors for all sizes.", "anchors": ["src/fields2cover/objectives/sg_obj/overlaps.cpp: computeCost"]}
{"id": "C29", "title": "Headland rings are evenly spaced inside the headland", "statement": "generateHeadlandSwaths returns n_swaths rings at depths w/2, 3w/2, ... from the border, all within the headland removed by generateHeadlandArea for the same parameters; both directions give the same rings in opposite order.", "quantifier": "every field, width and n_swaths >= 0", "why_tests_cant": "Holds for all n; includes n = 0 and fields too small for the headland.", "anchors": ["src/fields2cover/headland_generator/constant_headland.cpp: generateHeadlands, generateHeadlandArea, generateHeadlandSwaths"]}
{"id": "C30", "title": "A turn joins the two requested poses", "statement": "createTurn either returns an empty path or a path that starts exactly in the start position and ends exactly in the end position with the requested angles, provided the simple-turn solver is accurate to within 5 cm in the normalised frame.", "quantifier": "every pair of poses, every accurate simple-turn solver", "why_tests_cant": "Composition of mirroring, rotation and translation for all real poses.", "anchors": ["src/fields2cover/path_planning/turning_base.cpp: createTurn, correctPath, transformToNormalTurn"]}
{"id": "C31", "title": "Turn normalisation is canonical and invertible", "statement": "transformToNormalTurn gives the distance between the points, angles in [0, 2*pi) with the start angle in [0, pi]; mirroring, rotating and translating back gives the original problem, and turns that are translated, rotated or mirrored copies of each other have the same normal form.", "quantifier": "every pair of points and angles", "why_tests_cant": "Continuous domain.", "anchors": ["src/fields2cover/path_planning/turning_base.cpp: transformToNormalTurn"]}
{"id": "C32", "title": "Caching turns is invisible", "statement": "With caching on, createTurnIfNotCached returns the same path as without caching for any sequence of calls and setting changes on the same planner.", "quantifier": "every sequence of calls with any robots, discretisation changes", "why_tests_cant": "History dependent: only a statement over all call sequences can show that a cache is transparent.", "anchors": ["src/fields2cover/path_planning/turning_base.cpp: createTurnIfNotCached, setDiscretization", "include/fields2cover/path_planning/turning_base.h"]}
{"id": "C33", "title": "Discretising swaths keeps the path", "statement": "Path::discretizeSwath leaves turns untouched, replaces each swath section by equally long consecutive pieces on the same segment, keeps the total length, the task time and the end point, and no piece is longer than one and a half steps.", "quantifier": "every path and positive step", "why_tests_cant": "All lengths and steps, rounding included.", "anchors": ["src/fields2cover/types/Path.cpp: discretizeSwath", "src/fields2cover/types/PathState.cpp: atEnd"]}
{"id": "C34", "title": "Reducing a path keeps its length and time", "statement": "Path::reduce only removes states that are near the previous kept state and have the same type and direction; total length, task time, first state and the order of the kept ones are preserved.", "quantifier": "every path and threshold", "why_tests_cant": "Greedy merging over all paths.", "anchors": ["src/fields2cover/types/Path.cpp: reduce, length, getTaskTime"]}
{"id": "C35", "title": "Populating and discretising a path keep its length", "statement": "Path::populate(n) on a path with at least three states and positive lengths returns exactly n states of equal length adding up to the original length, starting in the original start point, each with velocity, direction and type of the original section at that arc length; discretize(step) never destroys a non-empty path.", "quantifier": "every path, n and step", "why_tests_cant": "All n and all paths, including very short ones.", "anchors": ["src/fields2cover/types/Path.cpp: populate, discretize", "src/fields2cover/utils/spline.cpp"]}
{"id": "C36", "title": "Looking up a path position is exact and clamped", "statement": "Path::at(d) returns the state of the section that contains arc length d with the point advanced by the remaining length in the driving direction; values outside [0, length] are clamped to the ends.", "quantifier": "every path and real d", "why_tests_cant": "Prefix-sum search over all paths.", "anchors": ["src/fields2cover/types/Path.cpp: at, length, atStart, atEnd"]}
{"id": "C37", "title": "Moving, rotating and mirroring a path are rigid motions", "statement": "moveTo, rotateFromPoint, mirrorX and mirrorY keep the distances between all path points, all lengths, times and sections; mirroring twice or rotating back gives the original path (angles modulo 2*pi), and the end point of every section moves with it.", "quantifier": "every path, point and angle", "why_tests_cant": "Continuous domain.", "anchors": ["src/fields2cover/types/Path.cpp: moveTo, rotateFromPoint, mirrorX, mirrorY", "src/fields2cover/types/Point.cpp: rotateFromPoint", "src/fields2cover/types/PathState.cpp: atEnd"]}
{"id": "C38", "title": "A planned path drives all swaths in order", "statement": "planPath over swaths contains, in order, one state per segment of every swath with cruise speed, forward direction, exact length and heading, and between consecutive swaths only turn states; removing the turns leaves exactly the swath segments.", "quantifier": "every list of swaths (each with at least two points) and every turn planner", "why_tests_cant": "Lists of arbitrary size with an arbitrary turn planner.", "anchors": ["src/fields2cover/path_planning/path_planning.cpp: planPath", "src/fields2cover/types/Path.cpp: appendSwath, operator+="]}
{"id": "C39", "title": "Planning a path is defined for every route", "statement": "planPath(route) and its helpers terminate without undefined behaviour for every route that can be built through the API (including routes that only have connections, empty groups, single-point connections and swaths without points).", "quantifier": "every route", "why_tests_cant": "Undefined behaviour on degenerate routes is not observable in tests.", "anchors": ["src/fields2cover/path_planning/path_planning.cpp: planPath, planPathForConnection, simplifyConnection", "src/fields2cover/types/Path.cpp: appendSwath", "src/fields2cover/types/MultiPoint.cpp: getInAngle, getOutAngle"]}
{"id": "C40", "title": "Simplifying a connection keeps its ends", "statement": "The way points used to drive a connection start with the given start pose and end with the given end pose, every intermediate way point lies on the original connection, and at least two poses are returned.", "quantifier": "every connection, pose and robot", "why_tests_cant": "All point lists.", "anchors": ["src/fields2cover/path_planning/path_planning.cpp: simplifyConnection, planPathForConnection"]}
{"id": "C41", "title": "A saved path can be loaded again", "statement": "Writing a path with saveToFile and reading it with loadFile gives back the same states in the same order (up to the printed precision of the numbers) when loaded in an empty path. If writing was interrupted within a line, the states before it are loaded. Loading throws no exception whatever the file holds. A line of eight numbers that follows saved states is one more state, with the direction and the type that the last two numbers are without their fractions; other numbers there give no named direction or type.", "quantifier": "every path and every text", "why_tests_cant": "Parsing/printing round trip for all paths.", "anchors": ["src/fields2cover/types/Path.cpp: serializePath, saveToFile, loadFile"]}
{"id": "C42", "title": "Continuous-curvature turn search terminates within the robot limits", "statement": "DubinsCurvesCC turn generation stops after at most 22 attempts, every attempt uses curvature and curvature rate not above the robot's limits, and the attempt that is returned is loop free unless all were tried.", "quantifier": "every robot and loop detector outcome", "why_tests_cant": "Infinite loop with an external predicate.", "anchors": ["src/fields2cover/path_planning/dubins_curves_cc.cpp: createSimpleTurn, createConstrainedTurn", "include/fields2cover/path_planning/steer_to_path.hpp: loop_detected"]}
{"id": "C43", "title": "A path built from a steering curve is the polyline of its states", "statement": "steerStatesToPath keeps one state per curve point, in order, with turn velocity and TURN type; the length of the resulting path is the length of the polyline through the points and never exceeds the length of the curve.", "quantifier": "every list of steering states", "why_tests_cant": "All lists.", "anchors": ["include/fields2cover/path_planning/steer_to_path.hpp: steerStatesToPath", "src/fields2cover/types/Path.cpp: length"]}
{"id": "C44", "title": "Angle normalisation is canonical", "statement": "mod_2pi(a) lies in [0, 2*pi) and differs from a by a multiple of 2*pi; it is idempotent and equal for angles that are equal modulo a turn.", "quantifier": "every real angle", "why_tests_cant": "Continuous domain; composition of two fmods with sign cases.", "anchors": ["include/fields2cover/types/Geometry_impl.hpp: mod, mod_2pi"]}
{"id": "C45", "title": "Angle difference is a metric on directions", "statement": "getAngleDiffAbs(a,b) is in [0, pi], symmetric, zero exactly when the angles are equal modulo 2*pi, and satisfies the triangle inequality.", "quantifier": "every triple of angles", "why_tests_cant": "Continuous domain.", "anchors": ["include/fields2cover/types/Geometry_impl.hpp: getAngleDiffAbs"]}
{"id": "C46", "title": "Angle continuity removes jumps", "statement": "getAngContinuity returns for every element a value equal to it modulo 2*pi and at most pi away from the previous result, for whole lists of angles.", "quantifier": "every list of angles", "why_tests_cant": "The search is limited to four candidates; that this is always enough is an arithmetic fact about all reals.", "anchors": ["include/fields2cover/types/Geometry_impl.hpp: getAngContinuity"]}
{"id": "C47", "title": "The average of two angles lies between them", "statement": "getAngleAvg(a,b) is at the same angular distance from a and from b, and that distance is half of their difference.", "quantifier": "every pair of angles", "why_tests_cant": "Continuous domain with wrap-around.", "anchors": ["include/fields2cover/types/Geometry_impl.hpp: getAngleAvg", "src/fields2cover/types/MultiPoint.cpp: getPointAngle"]}
{"id": "C48", "title": "Closest points are closest", "statement": "closestPointInSegment returns a point of the segment that is not farther than any other point of it; closestPointTo on line strings and rings and closestPointOnBorderTo on cells return a point of the border at minimal distance.", "quantifier": "every point, segment, line string, ring and cell", "why_tests_cant": "Minimality over a continuum of points.", "anchors": ["src/fields2cover/types/Point.cpp: closestPointInSegment", "src/fields2cover/types/LineString.cpp: closestPointTo", "src/fields2cover/types/LinearRing.cpp: closestPointTo", "src/fields2cover/types/Cell.cpp: closestPointOnBorderTo", "src/fields2cover/types/Cells.cpp: closestPointOnBorderTo"]}
{"id": "C49", "title": "The intersection of two lines is on both", "statement": "intersectionOfLines of two non-parallel lines is a point lying on both of them; for parallel lines the first point is returned; signedDistance2Segment is zero exactly on the line, changes sign when the segment is reversed and has the absolute value of the distance to the line.", "quantifier": "all points", "why_tests_cant": "Continuous domain.", "anchors": ["src/fields2cover/types/Point.cpp: intersectionOfLines, signedDistance2Segment"]}
{"id": "C50", "title": "The convexity test is right", "statement": "Cell::isConvex returns true exactly for cells without holes whose border turns in the same direction at every vertex (a simple polygon that is convex).", "quantifier": "every polygon border", "why_tests_cant": "Quantified over polygons and over the vertex the border starts with.", "anchors": ["src/fields2cover/types/Cell.cpp: isConvex", "src/fields2cover/types/Point.cpp: getAngleFromPoints"]}
{"id": "C51", "title": "A field keeps absolute coordinates", "statement": "A field built from cells stores them relative to their first border point, and getCellsAbsPosition returns the cells that were given; the first point of the stored field is the origin.", "quantifier": "every set of cells", "why_tests_cant": "All geometries.", "anchors": ["src/fields2cover/types/Field.cpp: Field, getCellsAbsPosition"]}
{"id": "C52", "title": "Cloning a field keeps everything", "statement": "Field::clone gives a field with the same id, absolute position, reference point, coordinate system and previous coordinate system, so that operations on the clone behave as on the original.", "quantifier": "every field and history of setters", "why_tests_cant": "All combinations of fields set by the user.", "anchors": ["src/fields2cover/types/Field.cpp: clone, setRefPoint, setPrevCRS"]}
{"id": "C53", "title": "EPSG codes round trip", "statement": "After setEPSGCoordSystem(n), isCoordSystemEPSG holds and getEPSGCoordSystem returns n; for strings that are not EPSG systems it returns -1 and never throws.", "quantifier": "every int and every string", "why_tests_cant": "All strings.", "anchors": ["src/fields2cover/types/Field.cpp: setEPSGCoordSystem, getEPSGCoordSystem, isCoordSystemEPSG"]}
{"id": "C54", "title": "UTM zone and hemisphere are recovered from the coordinate system", "statement": "For every UTM coordinate system that the library itself generates for a longitude/latitude, getUTMZone and getUTMHemisphere return the zone number (1..60) and the hemisphere it was generated from.", "quantifier": "every longitude in [-180,180) and latitude", "why_tests_cant": "All zones and both hemispheres; strings of different lengths.", "anchors": ["src/fields2cover/types/Field.cpp: getUTMCoordSystem, getUTMZone, getUTMHemisphere", "src/fields2cover/utils/transformation.cpp: transformToUTM, createSptRef"]}
{"id": "C55", "title": "Transforming a field to UTM and back restores it", "statement": "If the coordinate transformations between two systems are inverse to each other, transformToUTM followed by transformToPrevCRS restores coordinate system, reference point and absolute cells, for every starting system; transform records the previous system; moving a field to UTM does not change its reference point in GPS coordinates (getRefPointInGPS).", "quantifier": "every field and every pair of inverse transformations", "why_tests_cant": "All fields, with an abstract transformation.", "anchors": ["src/fields2cover/utils/transformation.cpp: transform, transformToUTM, transformToPrevCRS, getRefPointInGPS"]}
{"id": "C56", "title": "A transformed path is consistent with its points", "statement": "After transforming a path to another coordinate system each state ends where the next one starts (length and heading are recomputed from the transformed points), for forward and backward states, and no state is lost.", "quantifier": "every path and every point transformation", "why_tests_cant": "All paths and transformations.", "anchors": ["src/fields2cover/utils/transformation.cpp: transformPathWithFieldRef"]}
{"id": "C57", "title": "The spline interpolates its data", "statement": "CubicSpline evaluated at any of its knots returns the given value there, is continuous, and rejects data that are not sorted.", "quantifier": "every sorted list of knots and any values", "why_tests_cant": "Solution of a tridiagonal system of arbitrary size.", "anchors": ["src/fields2cover/utils/spline.cpp: SetSplineCubic, operator()"]}
{"id": "C58", "title": "Robot settings are validated and consistent", "statement": "A robot can only be constructed with positive width and non-negative coverage width; the coverage width defaults to the width; turn velocity defaults to cruise velocity; curvature limits are non-negative and setting the minimum turning radius and reading it back agrees up to 1e-6 relative error.", "quantifier": "all real parameters and setter sequences", "why_tests_cant": "Continuous domain.", "anchors": ["src/fields2cover/types/Robot.cpp"]}
{"id": "C59", "title": "GML coordinates are rewritten to WKT", "statement": "The replacement of separators applied by the GML importer turns any list \"x,y x,y ...\" of coordinates into \"x y, x y, ...\" with the same numbers in the same order.", "quantifier": "every list of coordinate strings", "why_tests_cant": "All strings.", "anchors": ["src/fields2cover/utils/parser.cpp: importFieldGml, findAndReplaceAll"]}
{"id": "C60", "title": "The complete planner only fails for missing headland rings when there are none", "statement": "planCovRoute never indexes outside of the list of headland rings and always plans with an objective and a turn planner that match the options.", "quantifier": "every option set", "why_tests_cant": "All option values.", "anchors": ["src/fields2cover.cpp: planCovRoute, getSGObjPtr, getPPTurningBasePtr", "include/fields2cover.h: Options"]}
{"id": "C61", "title": "Setting a child geometry replaces it or pads", "statement": "setGeometry(i, g) on cells, cell and multi line strings replaces the i-th child and no other; for i beyond the end it pads with empty children and appends g so that getGeometry(i) is g.", "quantifier": "every container, index and geometry", "why_tests_cant": "All sizes and indices.", "anchors": ["src/fields2cover/types/Cells.cpp: setGeometry, size", "src/fields2cover/types/Cell.cpp: setGeometry, addRing", "src/fields2cover/types/MultiLineString.cpp: setGeometry"]}
{"id": "C62", "title": "Moving and scaling geometries moves every point", "statement": "moveTo on swaths translates every point by the given vector, and *= scales every point of a geometry by the given factor; composing moves is moving by the sum.", "quantifier": "every geometry, vector and factor", "why_tests_cant": "Continuous domain; the write-back goes through a tolerance comparison.", "anchors": ["src/fields2cover/types/Swath.cpp: moveTo", "include/fields2cover/types/Geometries_impl.hpp: Iterator::update", "src/fields2cover/types/LineString.cpp: operator*=", "src/fields2cover/types/Point.cpp: operator=="]}
{"id": "C63", "title": "Copies of a swath are independent", "statement": "Reversing or moving a copy of a swath does not change the swath it was copied from.", "quantifier": "every swath and operation", "why_tests_cant": "Aliasing through shared pointers.", "anchors": ["src/fields2cover/types/Swath.cpp: Swath(const Swath&), reverse, clone", "include/fields2cover/types/Geometry_impl.hpp: Geometry(const Geometry&)"]}
{"id": "C64", "title": "Random fields have the requested area", "statement": "generateRandCell(area, n) returns a closed polygon with n sides whose area is the requested one, or throws for n <= 2 or area <= 0.", "quantifier": "every area, n and sequence of random numbers", "why_tests_cant": "All random sequences.", "anchors": ["src/fields2cover/utils/random.cpp: generateRandCell"]}
{"id": "C65", "title": "Comparing points is a tolerance relation and a strict order", "statement": "Point equality is reflexive and symmetric and holds exactly when all coordinates differ by less than 1e-7; operator< is a strict weak order on x then y; the two are consistent (equal points are never less than each other).", "quantifier": "all points", "why_tests_cant": "Continuous domain.", "anchors": ["src/fields2cover/types/Point.cpp: operator==, operator<"]}
{"id": "C66", "title": "Every graph can be queried", "statement": "Path queries between two nodes of a graph are answered (with a path, a cost or INF) for every graph, including graphs with nodes that only have incoming edges.", "quantifier": "every graph built by insertions, every pair of nodes", "why_tests_cant": "The matrices are sized by the number of source nodes, so whether an index is in range depends on the shape of the whole graph; a test that happens not to crash on an out-of-range index shows nothing.", "anchors": ["src/fields2cover/types/Graph.cpp: numNodes, shortestPathsAndCosts, initializeMatrices, allPathsBetween, DFS"]}
{"id": "C67", "title": "Swath objectives add up over swaths and cells", "statement": "The cost of a collection of swaths is the sum of the costs of its swaths, the cost of several groups is the sum over all their swaths, NSwath is the number of swaths and SwathLength their total length through every overload (with or without the field).", "quantifier": "every field, list of swaths and list of groups", "why_tests_cant": "Sums over lists of any length through several overloads.", "anchors": ["src/fields2cover/objectives/sg_obj/sg_objective.cpp: computeCost", "src/fields2cover/objectives/sg_obj/n_swath.cpp: computeCost", "src/fields2cover/objectives/sg_obj/swath_length.cpp: computeCost"]}
{"id": "C68", "title": "Coverage and remaining area are fractions", "statement": "FieldCoverage returns a number between 0 and 1 for every field and set of swaths, and the headland objective returns the remaining share of the field, also between 0 and 1.", "quantifier": "every field with positive area and every set of swaths, including the empty one", "why_tests_cant": "The empty set of swaths only arises for particular fields inside the angle search.", "anchors": ["src/fields2cover/objectives/sg_obj/field_coverage.cpp: computeCost", "src/fields2cover/objectives/hg_obj/hg_objective.cpp: computeCost"]}
{"id": "C69", "title": "Transforming swaths keeps everything but the coordinates", "statement": "Transforming a swath or a list of swaths to another coordinate system changes only the coordinates: ids, widths, types, directions of creation, the number of points and the order are kept.", "quantifier": "every list of swaths, every pair of coordinate systems", "why_tests_cant": "Attributes that are dropped matter only to later stages, so a test that looks at coordinates passes.", "anchors": ["src/fields2cover/utils/transformation.cpp: transformSwath, transformSwaths"]}
{"id": "C70", "title": "A transformation that fails leaves the field as it was", "statement": "If transforming a field to another coordinate system throws, the field is unchanged; if it does not throw, the field is the transformed one.", "quantifier": "every field, every target system and every behaviour of the projection library", "why_tests_cant": "Failures of the projection library are not provoked in tests.", "anchors": ["src/fields2cover/utils/transformation.cpp: transform(Field&)"]}
{"id": "C71", "title": "The complete planner drives every piece of track of the mainland once", "statement": "For a field whose mainland cells have a border, planCovRoute with a given angle returns a route that drives every piece of the generated tracks inside of the mainland exactly once, with the coverage width of the robot.", "quantifier": "every field, robot, option set with a given angle, and every optimiser that avoids missing edges", "why_tests_cant": "Composes headland generation, swath generation and route planning; all fields and angles.", "anchors": ["src/fields2cover.cpp: planCovRoute", "src/fields2cover/route_planning/route_planner_base.cpp: genRoute"]}
{"id": "C72", "title": "Random convex and non-convex cells are what they are called", "statement": "genConvexCell returns only convex cells and genNonConvexCell only cells that are not convex, for every sequence of random numbers.", "quantifier": "every sequence of random numbers, area and number of sides", "why_tests_cant": "Needs random numbers that put the only dent at the first corner.", "anchors": ["src/fields2cover/utils/random.cpp: genConvexCell, genNonConvexCell", "src/fields2cover/types/Cell.cpp: isConvex"]}
{"id": "C73", "title": "Every swath can be reached along the headland", "statement": "The graph built from the cells and the swaths has a way between any two swath ends and the start point; every way the planner gets from it runs along the borders of the cells or between a swath end and the border, up to twice the tolerance; and the route planned on it drives every swath once with such connections.", "quantifier": "every set of cells, swaths, start point and tolerance, every order of the hash tables", "why_tests_cant": "The graph is rewritten edge by edge while it is searched for near nodes, in an order given by hash tables; a test sees one order and one field.", "anchors": ["src/fields2cover/route_planning/route_planner_base.cpp: createShortestGraph, genRoute", "src/fields2cover/types/Graph2D.cpp: addEdge, removeEdge", "src/fields2cover/types/Cells.cpp: closestPointOnBorderTo"]}
{"id": "C74", "title": "Parts of the headland that are apart are not joined", "statement": "If all rings and all swath ends with the points where they are joined to the border are on two sides of a strip wider than twice the tolerance, the graph reports no way and the cost INF between swath ends on different sides.", "quantifier": "every such set of cells and swaths whose points are distinguishable and have a defined hash", "why_tests_cant": "Says that a wrong edge never appears, in any order of the hash tables.", "anchors": ["src/fields2cover/route_planning/route_planner_base.cpp: createShortestGraph"]}
{"id": "C75", "title": "GeoJSON polygons are imported exactly", "statement": "Importing a GeoJSON document appends one field per feature in the order of the document, with the name of the feature as id and the coordinates of its geometry as absolute position; the same holds for the import of a single cell and of strips.", "quantifier": "every document, number of features, rings and positions", "why_tests_cant": "Only documents with unusual geometries or positions show that coordinates are dropped.", "anchors": ["src/fields2cover/utils/parser.cpp: getPointFromJson, getCellFromJson, importJson, importCellJson, importStripsJson"]}
{"id": "C76", "title": "GeoJSON swaths are imported exactly", "statement": "Importing swaths from a GeoJSON document gives one swath per feature in the order of the document, with the line, the width and the number of the feature.", "quantifier": "every document and number of features", "why_tests_cant": "Numbers that do not fit are rare in samples.", "anchors": ["src/fields2cover/utils/parser.cpp: importSwathsJson"]}
{"id": "C77", "title": "Malformed GeoJSON documents are reported", "statement": "A document in which a member is missing or has the wrong type makes the import throw, without undefined behaviour; fields of earlier features are kept.", "quantifier": "every parsed document", "why_tests_cant": "The access through constant and changeable references differs in ways only malformed documents show.", "anchors": ["src/fields2cover/utils/parser.cpp: getCellFromJson, importJson, importSwathsJson"]}
{"id": "C78", "title": "Split lines stay in the cell", "statement": "createLineUntilBorder from a point of a cell whose ray runs into the cell returns a line in the given direction that lies in the cell and ends at the nearest point of the intersection more than 1e-5 away; it is empty only if the ray does not enter the cell.", "quantifier": "every cell, point and direction", "why_tests_cant": "The failing rays touch a corner exactly or cross a part thinner than 1e-5; random rays never do.", "anchors": ["src/fields2cover/types/Cell.cpp: createLineUntilBorder", "src/fields2cover/types/MultiLineString.cpp: append"]}
{"id": "C79", "title": "A decomposition keeps the field", "statement": "The cells of a decomposition together are the field that was decomposed: nothing is added and nothing is lost.", "quantifier": "every field, every set of split lines", "why_tests_cant": "The loss is a strip of 2e-8 m along each line, below the tolerance of area comparisons.", "anchors": ["src/fields2cover/types/Cells.cpp: splitByLine", "src/fields2cover/decomposition/decomposition_base.cpp: decompose, split, merge", "include/fields2cover/types/Geometries_impl.hpp: Iterator::update"]}
{"id": "C80", "title": "Split lines of the boustrophedon decomposition", "statement": "For every corner of a ring the search for split lines ends, and adds either nothing or two lines until the border, both longer than 1e-5, neither of which joins the ends of an edge of the ring.", "quantifier": "every ring, corner and direction", "why_tests_cant": "Termination of a loop whose end test is about equality of points with a tolerance.", "anchors": ["src/fields2cover/decomposition/boustrophedon_decomp.cpp: genSplitLines, isLinePartOfLinearRing"]}
{"id": "C81", "title": "Tracks inside a cell become swaths", "statement": "The swaths generated for a cell are exactly the parts of the tracks that lie in the cell.", "quantifier": "every cell, angle and positive width", "why_tests_cant": "Fails only if a track touches the cell in an isolated point, and then for all tracks at once.", "anchors": ["src/fields2cover/swath_generator/swath_generator_base.cpp: generateSwaths", "src/fields2cover/types/MultiLineString.cpp: append", "src/fields2cover/types/Cell.cpp: getLinesInside"]}
{"id": "C82", "title": "Connections are driven from way point to way point", "statement": "The path of a connection is a sequence of turns, each of which is empty or joins one way point to the next in position and heading; the first way point is the start pose and the last one the end pose.", "quantifier": "every connection, robot, turn planner accurate to 5 cm and history of its cache", "why_tests_cant": "Quantifies over all turn planners and cache histories.", "anchors": ["src/fields2cover/path_planning/path_planning.cpp: planPathForConnection, simplifyConnection"]}
{"id": "C83", "title": "Transforming a route moves its points and nothing else", "statement": "Transforming a route to another coordinate system moves every point of its swaths and connections by the reference point and the projection; the groups, the connections, their order, and the ids, widths, types and directions of creation of the swaths are kept.", "quantifier": "every route, field and projection", "why_tests_cant": "Connections and swaths are transformed by separate loops and attributes are copied by yet another function; a test on coordinates of swaths sees none of this.", "anchors": ["src/fields2cover/utils/transformation.cpp: transformRouteWithFieldRef, transformSwathsWithFieldRef, transformMultiPointWithFieldRef", "src/fields2cover/types/Route.cpp: clone"]}
{"id": "C84", "title": "The plan for a field is the plan for its cells, in the coordinates of the field", "statement": "planCovRoute and planCovPath of a field in local coordinates return what they return for the cells of the field. Otherwise they plan in a UTM system and return the plan moved by the map that takes the cells in UTM back to the absolute position of the field; a field without coordinate system that does not look like longitude and latitude is rejected.", "quantifier": "every field, robot, set of options, consistent projection and behaviour of the external libraries", "why_tests_cant": "Composes cloning, projection, planning and the way back; the tests plan fields as they come from the constructor.", "anchors": ["src/fields2cover.cpp: planCovRoute, planCovPath", "src/fields2cover/types/Field.cpp: clone", "src/fields2cover/utils/transformation.cpp: transformToUTM, transformToPrevCRS"]}
{"id": "C85", "title": "The cost with all turns computed is the length of the planned path", "statement": "The complete-turn objective gives for swaths and routes the length of the path that the path planner makes for the same robot and turn planner, up to turns shorter than 1 cm, and asks the turn planner for the same turns.", "quantifier": "every list of swaths, route, robot, turn planner and history of its cache", "why_tests_cant": "The objective is only tested on its own; the missing turns between groups show only next to a planned path.", "anchors": ["include/fields2cover/objectives/rp_obj/complete_turn_path_obj.h: computeCost", "src/fields2cover/objectives/rp_obj/rp_objective.cpp: computeCost", "src/fields2cover/objectives/pp_obj/pp_objective.cpp: computeCost"]}
{"id": "C86", "title": "A path is drawn with one line per section", "statement": "Drawing a path calls the plotting library once per section, a section being a longest run of states with the same type and direction; the lines go through the starts and ends of the states in order, in the given colours or in a gradient.", "quantifier": "every path and list of colours", "why_tests_cant": "Drawings are not tested at all; the output is looked at.", "anchors": ["src/fields2cover/utils/visualizer.cpp: plot(const F2CPath&), linspace, color_linspace"]}
{"id": "C87", "title": "Swaths and routes are drawn in order and in the right colours", "statement": "Drawing swaths, swaths by cells, routes or several of them draws each swath once, in order, as a line with an arrow along its last segment, in the given colours or in equal steps of a gradient from the first to the last one.", "quantifier": "every list of swaths or routes and list of colours", "why_tests_cant": "Drawings are not tested at all; the output is looked at.", "anchors": ["src/fields2cover/utils/visualizer.cpp: plot(const F2CSwaths&), plot(const F2CSwathsByCells&), plot(const std::vector<F2CSwathsByCells>&), plot(const F2CRoute&), color_linspace"]}
{"id": "C88", "title": "Cells, fields, lines and points are drawn completely", "statement": "Drawing cells draws every ring of every cell; drawing them or a field filled draws the border as a polygon in the given colour and then each hole in the colour of the holes; points and lines are drawn one by one in the given colour.", "quantifier": "every geometry and colour", "why_tests_cant": "Drawings are not tested at all; the output is looked at.", "anchors": ["src/fields2cover/utils/visualizer.cpp: plot(const F2CCells&), plotFilled, plot(const F2CMultiPoint&), plot(const F2CMultiLineString&)"]}
{"id": "C89", "title": "The bounding box of a path contains the path", "statement": "getDimMinX, getDimMaxX, getDimMinY and getDimMaxY of a path are limits of the coordinates of all its points: every point reached while driving the path lies between them, and they are attained; moving the path moves them.", "quantifier": "all paths, all points of their sections", "why_tests_cant": "Tests check boxes of hand-made paths whose last section has no length.", "anchors": ["src/fields2cover/types/Path.cpp:110-136"]}
{"id": "C90", "title": "Adding paths concatenates them", "statement": "a += b gives the states of a followed by those of b; lengths and times add up, the bounding box is made of both boxes, and if b starts where a ends the result is connected.", "quantifier": "all pairs of paths, also a path and itself", "why_tests_cant": "Tests add two short paths and compare the sizes.", "anchors": ["src/fields2cover/types/Path.cpp:99-104"]}
{"id": "C91", "title": "Points of lines, rings and multi points can be set and read", "statement": "After setGeometry(i, p) getGeometry(i) is p and the other points are unchanged, a line gets points until i exists; reading outside throws; the first and last points are those of the sequence.", "quantifier": "all point sequences and positions", "why_tests_cant": "Tests set an existing position of a short line.", "anchors": ["src/fields2cover/types/LineString.cpp:54-120", "src/fields2cover/types/LinearRing.cpp:59-119", "src/fields2cover/types/MultiPoint.cpp:34-80"]}
{"id": "C92", "title": "The segments of a line make up the line", "statement": "getLineSegments of n points gives n - 1 lines of two points, the i-th from point i to point i + 1; their lengths add up to that of the line.", "quantifier": "all lines and rings", "why_tests_cant": "Tests look at one or two lines with points.", "anchors": ["src/fields2cover/types/MultiLineString.cpp:130-140"]}
{"id": "C93", "title": "Reversing a line reverses its directions", "statement": "startAngle of a reversed line is opposite to endAngle of the line and the other way round, likewise for the in and out angles of swaths; the angles are the directions of the first and last segments.", "quantifier": "all lines of at least two points", "why_tests_cant": "Tests reverse a few straight lines.", "anchors": ["src/fields2cover/types/LineString.cpp:122-128", "src/fields2cover/types/Swath.cpp:72-90"]}
{"id": "C94", "title": "The angle in a point of a multi point bisects its neighbours' directions", "statement": "getPointAngle of an inner point differs by the same amount from the direction to the point and from the one away from it, namely by half their difference; at the ends it is the only direction there is; otherwise an exception is thrown.", "quantifier": "all multi points and positions", "why_tests_cant": "Tests check a few right angles; the average of angles is wrong on the other side of a full turn only for some directions.", "anchors": ["src/fields2cover/types/MultiPoint.cpp:109-138"]}
{"id": "C95", "title": "Variables of geometry types hold values", "statement": "After x = y, changing x leaves y as it was: adding, replacing or scaling children of one variable of type Cells, Cell or MultiLineString does not change another.", "quantifier": "every program of assignments, clones, additions, replacements and scalings, every number of variables", "why_tests_cant": "Tests change one object at a time; whether a change reaches the original depends on whether the index exists.", "anchors": ["include/fields2cover/types/Geometry_impl.hpp:50-62", "include/fields2cover/types/Geometries_impl.hpp:18-23", "src/fields2cover/types/Cells.cpp: setGeometry, addGeometry, operator*=", "src/fields2cover/types/Cell.cpp: setGeometry, addGeometry, operator*=", "src/fields2cover/types/MultiLineString.cpp: setGeometry, addGeometry, operator*="]}
{"id": "C96", "title": "The cell where a point is", "statement": "getCellWherePoint returns the first cell that contains the point, border included, and a cell without rings if there is none; the result is a value that keeps its rings whatever happens to the container, and changing it does not change the container.", "quantifier": "every container, point and later sequence of statements", "why_tests_cant": "A dangling alias reads freed memory that usually still has the old contents.", "anchors": ["src/fields2cover/types/Cells.cpp: getCellWherePoint, getGeometry", "include/fields2cover/types/Geometry_impl.hpp:31-40"]}
{"id": "C97", "title": "Split lines stay in the cells", "statement": "createLineUntilBorder of a container of cells, from a point whose ray runs into one of the cells, returns a line from the point in the given direction that lies in that cell.", "quantifier": "every container of cells, point and direction", "why_tests_cant": "Fails only for points on a border shared by two cells, and only if the wrong cell is listed first.", "anchors": ["src/fields2cover/types/Cells.cpp: createLineUntilBorder, getCellWherePoint", "src/fields2cover/types/Cell.cpp: createLineUntilBorder"]}
{"id": "C98", "title": "Ordering swaths does not change the swaths that are ordered", "statement": "genSortedSwaths has the same result whether or not swaths share their lines, leaves every swath that existed before as it was, and returns swaths that share their lines with nothing.", "quantifier": "every list of swaths, also with shared lines or repeated swaths, every order, variant and behaviour of std::sort", "why_tests_cant": "Tests order freshly generated swaths and do not look at the argument afterwards.", "anchors": ["src/fields2cover/route_planning/single_cell_swaths_order_base.cpp: genSortedSwaths, changeStartPoint", "src/fields2cover/types/Swaths.cpp: clone, sort, reverseDirOddSwaths"]}
{"id": "C99", "title": "Changing a list of swaths changes that list only", "statement": "sort, reverseDirOddSwaths and moveTo change each swath of the list as they would change it alone, and no swath of another list, for example of the list it was copied, appended or flattened from; append and flatten put the swaths one after the other.", "quantifier": "every list of swaths in memory", "why_tests_cant": "Fails only for copies and flattened lists whose swaths are turned by sort; the tests sort lists that were not copied.", "anchors": ["src/fields2cover/types/Swaths.cpp: append, sort, reverseDirOddSwaths, moveTo", "src/fields2cover/types/SwathsByCells.cpp: flatten", "src/fields2cover/types/Swath.cpp: reverse, moveTo"]}
{"id": "C100", "title": "The smooth turning radius bounds the room that a turn needs", "statement": "While the robot turns its wheels from straight to its largest curvature at the fastest rate, it stays within the radius returned by getSmoothTurningRadius of the centre of the circle that follows, and outside that circle; the radius is between 1/max_curvature and 1/max_curvature + max_curvature/max_diff_curvature.", "quantifier": "every robot with positive largest curvature and rate of change of curvature, and every point of the curve", "why_tests_cant": "Tests compare the value for one robot with a number; the claim is about all points of the curve.", "anchors": ["src/fields2cover/path_planning/path_planning.cpp: getSmoothTurningRadius"]}
{"id": "C101", "title": "Moving, swapping and erasing points, path states and fields", "statement": "Variables and vectors of points, path states and fields behave as if they held values under construction, copying, assignment by copy or move, std::swap, std::reverse and erase.", "quantifier": "every program of such statements on any number of objects", "why_tests_cant": "Using an object after it was moved from often appears to work or crashes only in some builds; the tests never swap points.", "anchors": ["src/fields2cover/types/Point.cpp: copy and move constructors and assignments", "include/fields2cover/types/PathState.h", "src/fields2cover/types/Field.cpp: copy and move operations"]}
{"id": "C102", "title": "Every turn planner joins any two poses", "statement": "Each of the turn planners returns, for any two poses, a path that joins them, driven at the turning speed in steps of at most the discretization, forward only for Dubins planners, bending no more than the largest curvature of the robot; the planners with continuous curvature also use its limit on the change of curvature.", "quantifier": "every pair of poses, robot with positive limits and discretization; turns that are computed rather than taken from the cache", "why_tests_cant": "Tests sample a few pairs of poses; the frame change has branches on signs and angles.", "anchors": ["src/fields2cover/path_planning/turning_base.cpp: createTurn", "src/fields2cover/path_planning/dubins_curves.cpp", "src/fields2cover/path_planning/dubins_curves_cc.cpp", "src/fields2cover/path_planning/reeds_shepp_curves.cpp", "src/fields2cover/path_planning/reeds_shepp_curves_hc.cpp", "include/fields2cover/path_planning/steer_to_path.hpp"]}
{"id": "C103", "title": "The planned route is as short as the optimiser finds", "statement": "The connections of the route planned by genRoute are together no longer than those of any other route through the same swaths, in any order and in either direction (forwards only if redirecting is not allowed), along the borders of the given cells, including the ways from and to the start point; up to the error of the optimiser and a millimetre for every step.", "quantifier": "every set of swaths and headland, every start point, every other order, directions and ways along the borders", "why_tests_cant": "Tests compare the length of a few routes with fixed numbers; a wrong cost of an edge only makes routes longer than needed.", "anchors": ["src/fields2cover/route_planning/route_planner_base.cpp: genRoute, createShortestGraph, createCoverageGraph, computeBestRoute, transformSolutionToRoute", "src/fields2cover.cpp: planCovRoute"]}
{"id": "C104", "title": "A field and what lies in it go back to the previous coordinate system together", "statement": "transformToPrevCRS moves a point of a swath, of a route, of a path or of a strip to the same place as it moves that point of the field: to the projection of the point plus the reference point of the field. So whatever coincides in the field coincides afterwards. If the field has no previous coordinate system, all of them throw.", "quantifier": "every field with well-formed cells, every projection, and all swaths, routes, paths and strips", "why_tests_cant": "Each kind of object has its own overload; tests compare an object with its own round trip, in fields whose reference point is the origin or for kinds that take it into account.", "anchors": ["src/fields2cover/utils/transformation.cpp: transformToPrevCRS, transformStrip, transformStrips", "src/fields2cover/types/Strip.cpp"]}
{"id": "C105", "title": "Set operations on cells are operations on sets of positions", "statement": "The intersection, difference and union of cells (getCellsInside and the operators of Cells and Cell) cover exactly the closure of the interior of the intersection, difference and union of what the operands cover: all polygons of the result are kept, and only points and lines are dropped.", "quantifier": "all cells and every result of the geometry library, including results with points and lines in them", "why_tests_cant": "Results of mixed kinds arise only for operands that touch; the conversion looks at each kind separately.", "anchors": ["src/fields2cover/types/Cells.cpp: Cells(const OGRGeometry*), intersection, difference, unionOp, getCellsInside", "src/fields2cover/types/Cell.cpp: intersection", "include/fields2cover/types/Geometry_impl.hpp: destroyResGeom"]}
{"id": "C106", "title": "A swath covers the strip of its width along its path", "statement": "areaCovered of a swath is the set of positions at most half its width beside its path, with flat ends, and restricted to polygons it is the part of that strip inside of them; a swath without path covers nothing.", "quantifier": "every swath and all polygons", "why_tests_cant": "Tests compare one area; the shape at the ends and at bends is not looked at.", "anchors": ["src/fields2cover/types/Swath.cpp: areaCovered", "src/fields2cover/types/Cells.cpp: buffer", "include/fields2cover/types/Geometry_impl.hpp: OGRBuffer"]}
{"id": "C107", "title": "Buffers and hulls of cells are what the geometry library computes", "statement": "Cell::buffer and Cell::convexHull return a cell that covers exactly the result of the library, for every geometry and width.", "quantifier": "every geometry and every width, also negative ones", "why_tests_cant": "Failures need cells that fall apart or vanish when they are shrunk, or points on a line.", "anchors": ["src/fields2cover/types/Cell.cpp: Cell(const OGRGeometry*), buffer, convexHull", "include/fields2cover/types/Geometry_impl.hpp: destroyResGeom"]}
{"id": "C108", "title": "Random numbers and fields are in the ranges asked for", "statement": "getRandomLinear returns a number of [min, max), every part of the range being equally likely; getRandomExp a number of [min, max), lower ones being more likely; getRandomExpDist a positive number with the exponential distribution; getAngleRandom an angle of [0, 2 pi). For every seed, the random fields consist of one cell of the requested area and number of corners, convex or not as requested, given relative to its first corner, and bad arguments are reported.", "quantifier": "every seed, range, rate, area and number of corners", "why_tests_cant": "Tests draw a hundred numbers or so and one range; the ends of the range, ranges that touch zero, and rare shapes are not drawn.", "anchors": ["src/fields2cover/utils/random.cpp: getRandomDouble, getRandomLinear, getRandomExp, getRandomExpDist, getAngleRandom, generateRandField, genConvexField, genNonConvexField", "include/fields2cover/utils/random.h"]}
{"id": "C109", "title": "Editing the states of a path changes what it says and nothing else", "statement": "getState and operator[] return the state with that number; setState, addState, setForwardDir, setBackwardDir, setSwathType and setTurnType (for one state or all) change exactly the state and attribute named, so that the others, the length of the path and the time it takes stay the same; numbers outside of the path are not checked (undefined behaviour).", "quantifier": "every path, index (also negative), state, direction and type", "why_tests_cant": "Tests change one state of a short path and look at that state; an overload that changes a neighbour, or another attribute, is not noticed.", "anchors": ["src/fields2cover/types/Path.cpp: getState, setState, addState, setStates, operator[], back, setBackwardDir, setForwardDir, setSwathType, setTurnType"]}
{"id": "C110", "title": "Collections of swaths hold what was put into them", "statement": "at, operator[] and back return the element asked for or throw (at) or are undefined (the others); constructors, emplace_back, push_back, append and reverse keep the swaths, their numbers and their order as documented; the numbers of the swaths in a collection are their positions; cloning groups of swaths gives equal groups.", "quantifier": "every collection, index, number of elements and width", "why_tests_cant": "Tests use collections of two or three swaths made in one way; mixing the ways (append after emplace, sizes given in advance, clones of default swaths) is not tried.", "anchors": ["src/fields2cover/types/Swaths.cpp: Swaths, emplace_back, push_back, reverse, back, at, operator[], append", "src/fields2cover/types/SwathsByCells.cpp: SwathsByCells, emplace_back, push_back, reverse, back, at, operator[], clone"]}
{"id": "C111", "title": "All overloads of an objective agree", "statement": "Whether swaths are given alone, in groups, with a cell or with cells, every objective computes the same measure: numbers and lengths add up, the coverage is a share of the field, overlaps of all swaths are counted; a single cell counts as a collection of one; the sign tells which of two results is the better one; costs between swaths and points are those between the end points (with the direction of the swath if turns are computed).", "quantifier": "every field, collection and grouping of swaths, remaining area, point and direction", "why_tests_cant": "Tests call one or two overloads with a single group; that groups are added for the coverage too is only seen with several groups.", "anchors": ["src/fields2cover/objectives/sg_obj/sg_objective.cpp: computeCost", "src/fields2cover/objectives/sg_obj/field_coverage.cpp: computeCost, isMinimizing", "src/fields2cover/objectives/sg_obj/overlaps.cpp: computeCost", "src/fields2cover/objectives/hg_obj/hg_objective.cpp: computeCost", "src/fields2cover/objectives/hg_obj/rem_area.cpp: isMinimizing", "src/fields2cover/objectives/rp_obj/rp_objective.cpp: computeCost", "include/fields2cover/objectives/base_objective.h: computeCostWithMinimizingSign"]}
{"id": "C112", "title": "The generated swaths are the best ones for the chosen objective", "statement": "generateBestSwaths returns the swaths of one of the angles tried, and at no other angle tried there are fewer swaths (NSwath), shorter swaths (SwathLength) or a larger covered part of the field (FieldCoverage); the complete planner does so in every cell of the mainland, for all whole degrees.", "quantifier": "every cell with a border, positive width, step angle with at most 2^31 steps, clipping function", "why_tests_cant": "Tests compare the result for one rectangle with a number worked out by hand; that no other angle is better for irregular cells is not checked.", "anchors": ["src/fields2cover/swath_generator/swath_generator_base.cpp: generateBestSwaths, computeCostOfAngle", "src/fields2cover/swath_generator/brute_force.cpp: computeBestAngle", "src/fields2cover/objectives/sg_obj/*.cpp", "src/fields2cover.cpp: planCovRoute"]}
{"id": "C113", "title": "Over convex fields the fast count of swaths leads the search to nearly the fewest swaths", "statement": "Over a convex field without holes, the border projected across a direction is twice the extent, the number of generated swaths is within one half of extent over width, and the cost NSwathModified is at least extent over width and at most half again as much; therefore the angle chosen with NSwathModified needs at most one swath more than half again the number at the best of the angles tried. For rings whose number of points divides 2^64 or 2^64 - 1 (triangles, quadrilaterals) the cost is exact and the number of swaths at most one more than the best; for pentagons this is not so, and the number of additional swaths is unbounded.", "quantifier": "every convex ring in both orientations, width, angle, step, overlap option and clipping function", "why_tests_cant": "Tests compare the two costs for one rectangle, which has five points and so is one of the shapes for which the cost is exact.", "anchors": ["src/fields2cover/objectives/sg_obj/n_swath_modified.cpp: computeCost", "src/fields2cover/swath_generator/swath_generator_base.cpp: generateSwaths, generateBestSwaths, computeCostOfAngle", "src/fields2cover/swath_generator/brute_force.cpp: computeBestAngle"]}
{"id": "C114", "title": "Angles computed in double precision are right up to rounding", "statement": "With every operation rounded to a nearest double, mod_2pi returns a number of [0, 2pi) that is the same direction as the given one up to 2^-47 for angles up to ten turns, and getAngleDiffAbs returns a number of [0, pi] that is the angle between the two directions up to 2^-46. The laws that hold of real numbers do not hold exactly: angles below 2^-51 become 0, normalising twice may give another number than normalising once, and the difference of two angles may depend on their order.", "quantifier": "every way to round to nearest, and every angle within the stated range", "why_tests_cant": "Tests compare with a tolerance at a few angles and cannot bound the error over all angles.", "anchors": ["include/fields2cover/types/Geometry_impl.hpp: mod_2pi, getAngleDiffAbs, mod"]}
{"id": "C115", "title": "Rounding displaces tracks and candidate angles by negligible amounts, and adds or drops at most one track at the border", "statement": "With every operation rounded to a nearest double, at most 2^24 tracks, and a width of at least 2^-1000, the loop that places the tracks ends, track i is at (i + 1/2) widths up to (i + 1)^2 / 2^53 widths, and the number of tracks is the one without rounding unless the height is within a sixteenth of a width of a multiple of the width; in that case it may differ (an extra track outside of a field of height 13.6 for width 1.7). Heights of more than 2^55 widths make the loop endless. The search over angles tries exactly 360 angles at the default step of one degree, each right up to 2^-49.", "quantifier": "every way to round to nearest, width, height and overlap option", "why_tests_cant": "Tests use few sizes of fields, and rounding matters only at rare combinations of height and width.", "anchors": ["src/fields2cover/swath_generator/swath_generator_base.cpp: generateSwaths", "src/fields2cover/swath_generator/brute_force.cpp: computeBestAngle"]}
{"id": "C116", "title": "A UTM system named by the user is read back as named", "statement": "After setUTMCoordSystem with a zone number, a letter and a datum, the field is in a UTM and not in an EPSG system, zone with letter and datum are read back as given, setting the system to its own description changes nothing, and the projection library gets zone, hemisphere and datum as named; the default datum is ETRS89. Zones may have one or two digits, and the letter may be left out.", "quantifier": "every zone, letter, datum and field", "why_tests_cant": "Tests name a single zone of two digits.", "anchors": ["src/fields2cover/types/Field.cpp: setUTMCoordSystem, getUTMCoordSystem, getUTMDatum, getUTMZone, getUTMHemisphere", "src/fields2cover/utils/transformation.cpp: createSptRef"]}
{"id": "C117", "title": "Positions along a path are right up to rounding", "statement": "With every operation rounded to a nearest double, the length of a path of n states is the sum of their lengths up to a factor (1 +- 2^-53)^n, and Path::at returns the state that covers the given distance, moved along its heading by the rest, with an error of at most n / 2^53 of the distance; at the end of the path and beyond it returns the last state.", "quantifier": "every path, every way to round to nearest, every sine and cosine", "why_tests_cant": "The end is lost for some lengths of states only; tests use lengths for which sums are exact.", "anchors": ["src/fields2cover/types/Path.cpp: length, at"]}
{"id": "C118", "title": "Filling in a path does not fail because of rounding", "statement": "With every operation rounded to a nearest double, the arc lengths that Path::populate computes for a path with positive lengths increase strictly, so that the splines accept them.", "quantifier": "every path and every way to round to nearest", "why_tests_cant": "Lengths of such different sizes do not occur in the tests.", "anchors": ["src/fields2cover/types/Path.cpp: populate", "src/fields2cover/utils/spline.cpp: SetSplineCubic, check_error"]}
{"id": "C119", "title": "The UTM system chosen fits the place of the field", "statement": "transformToUTM puts a field into the UTM zone (1 to 60) and hemisphere of its reference point, with datum ETRS89 if the caller allows it and the field is in Europe, and WGS84 otherwise, for every coordinate system of the field; a field without a system is taken to be in degrees if its coordinates can be, and is rejected otherwise.", "quantifier": "every field, projection, coordinate system and option", "why_tests_cant": "Tests transform fields of one place from one system.", "anchors": ["src/fields2cover/utils/transformation.cpp: transformToUTM"]}
{"id": "C120", "title": "Long lines leave the cells", "statement": "createSemiLongLine from a point reaches every position of the box around a cell, or around a collection of cells, that lies in the given direction, and createStraightLongLine every one in both directions; a collection of cells is convex exactly if it consists of one convex cell.", "quantifier": "every cell, collection, point and direction", "why_tests_cant": "Tests draw lines through a few points of one cell.", "anchors": ["src/fields2cover/types/Cell.cpp: createSemiLongLine, createStraightLongLine", "src/fields2cover/types/Cells.cpp: createSemiLongLine, createStraightLongLine, isConvex", "include/fields2cover/types/Geometry_impl.hpp: getMinSafeLength"]}
{"id": "C121", "title": "Parts of a route can be read and replaced", "statement": "After any sequence of additions and replacements a route alternates connections and groups of swaths and its line lists their points in this order; setConnection and setSwaths replace exactly the points of that part and change no other part; reading and replacing is undefined exactly for numbers from the size on, and the last connection and group exist as soon as something, or swaths, were added.", "quantifier": "every sequence of calls, every number and new part", "why_tests_cant": "Tests replace one part of one route and do not look at the line.", "anchors": ["src/fields2cover/types/Route.cpp: setSwaths, setConnection, getSwaths, getConnection, getLastSwaths, getLastConnection, asLineString"]}
{"id": "C122", "title": "The edges of a graph are those that were added and not removed", "statement": "After any additions and removals of directed and undirected edges, getCostFromEdge gives the cost given last (INF if there is no edge), getEdgesFrom lists the nodes with an edge from there once each, numEdges is the number of directed edges, and numNodes the number of nodes that edges were added from.", "quantifier": "every sequence of calls, every pair of nodes", "why_tests_cant": "Tests build a few graphs of a few edges.", "anchors": ["src/fields2cover/types/Graph.cpp: addEdge, addDirectedEdge, removeEdge, removeDirectedEdge, numEdges, numNodes, getEdgesFrom, getCostFromEdge"]}
{"id": "C123", "title": "At most a rim of half a width is left without swath", "statement": "Every position of a cell whose cross section, half an operating width to either side across the swaths, lies in the cell is in the strip of a generated swath, and in the complete planner in the strip of a swath that is driven; the planned path passes it at no more than half a width.", "quantifier": "every cell (holes and dents included), angle, positive width and overlap option; every position", "why_tests_cant": "Tests check numbers of swaths for a few fields; coverage is a statement about all positions of all cells.", "anchors": ["src/fields2cover/swath_generator/swath_generator_base.cpp: generateSwaths, generateBestSwaths", "src/fields2cover/types/Cell.cpp: getLinesInside", "src/fields2cover.cpp: planCovRoute"]}
{"id": "C124", "title": "Cutting swaths into steps does not tear the path because of rounding", "statement": "With every operation rounded to a nearest double, Path::discretizeSwath cuts every swath section into its length over the step, rounded, and at least one, pieces; the pieces share the length equally, lie on the straight line of the section, each starts where the one before it ends and none is longer than one and a half steps, all up to the errors of a few roundings; sections that are not swaths stay as they are.", "quantifier": "every path, step and way to round to nearest, every sine and cosine of at most 1", "why_tests_cant": "Tests cut a section whose length is a multiple of the step; errors of positions depend on all values.", "anchors": ["src/fields2cover/types/Path.cpp: discretizeSwath", "src/fields2cover/types/PathState.cpp: atEnd", "src/fields2cover/types/Point.cpp: getPointFromAngle, operator+, operator-, operator*"]}
{"id": "C125", "title": "Driving along the rings covers the headland", "statement": "A robot that drives along the rings of generateHeadlandSwaths with a tool as wide as the swaths covers every position of the headland: each is at most half a width from the border of one of the rings.", "quantifier": "every field, width and number of rings, both directions, every position", "why_tests_cant": "Tests look at the number of rings and at some areas; coverage is a statement about all positions of all fields.", "anchors": ["src/fields2cover/headland_generator/constant_headland.cpp: generateHeadlandSwaths"]}
{"id": "C126", "title": "The states that populate fills in belong to the section they lie in", "statement": "In double precision, Path::populate puts state i of n at i / n of the length of the path up to the rounding of two operations, always before its end, and takes its velocity, direction and type from the old state on which it lies; if it lies within 2e-10 m before the next one, from that.", "quantifier": "every path of doubles with lengths above 2^-52 of the total, every number of states below 2^31, every rounding to nearest", "why_tests_cant": "Tests populate paths of some hundred metres; whether the constant 1e-10 outweighs all rounding errors needs bounds on them, and it ceases to on long paths.", "anchors": ["src/fields2cover/types/Path.cpp: populate"]}
{"id": "C127", "title": "Only positive widths are accepted, whatever double is given", "statement": "The constructors and setters of robots and swaths accept a width only if it is positive (0 for an unset coverage width) and throw otherwise, for every double, infinities and values that are not numbers included; a width that is accepted gives the tracks of C115.", "quantifier": "every double, including infinities and NaN, every rounding to nearest", "why_tests_cant": "Tests try 0 and negative widths; comparisons with NaN are false, so that a check that throws on bad values lets it pass.", "anchors": ["src/fields2cover/types/Robot.cpp: Robot", "src/fields2cover/types/Swath.cpp: setWidth", "src/fields2cover/swath_generator/swath_generator_base.cpp: generateSwaths"]}
{"id": "C128", "title": "Positions along a path and cutting it are defined for every distance and step", "statement": "For every double as distance, Path::at gives a state of the path (its ends for distances that are infinite, negative or too large); for every double other than 0 as step, Path::discretizeSwath ends, and infinite steps leave the path as it is.", "quantifier": "every path of numbers up to 2^1000, every double, every rounding to nearest, every sine and cosine of at most 1", "why_tests_cant": "Tests use a handful of numbers and neither infinities nor NaN.", "anchors": ["src/fields2cover/types/Path.cpp: at, length, discretizeSwath", "src/fields2cover/types/PathState.cpp: atEnd"]}
{"id": "C129", "title": "The best angle has the lowest of the costs that are numbers", "statement": "The search for the best angle returns the angle of a candidate whose cost is not NaN, no candidate has a lower cost and those before it have higher ones or none; for every double given as step it returns or throws.", "quantifier": "every double as step and as cost of each candidate", "why_tests_cant": "Tests use objectives without NaN and steps of about a degree; objectives divide by areas and by numbers of swaths, which may be 0.", "anchors": ["src/fields2cover/swath_generator/brute_force.cpp: computeBestAngle"]}
{"id": "C130", "title": "Equality of points and normalised angles for all doubles", "statement": "A point is equal to itself exactly if its coordinates are finite; points of numbers up to 2^1000 are equal if all coordinates differ by at most 0.99999e-7 and different if one differs by 1.00001e-7 or more; normalising an angle gives a number of [0, 2 pi) for every number, and NaN for everything else.", "quantifier": "all doubles, including infinities and NaN, every rounding to nearest", "why_tests_cant": "Tests compare a few points of small numbers.", "anchors": ["src/fields2cover/types/Point.cpp: operator==", "include/fields2cover/types/Geometry_impl.hpp: mod_2pi"]}
{"id": "C131", "title": "Fields keep their absolute position in double precision", "statement": "A field made from cells has the first point as reference point, and getCellsAbsPosition gives back exactly the coordinates it was made from; a clone has the same absolute position and reference point.", "quantifier": "every list of cells of doubles, every rounding to nearest", "why_tests_cant": "Tests use a few small whole numbers, which are exact; real coordinates are of the order of a million and have fractions.", "anchors": ["src/fields2cover/types/Field.cpp: Field, clone, getCellsAbsPosition", "src/fields2cover/types/Point.cpp: operator+, operator-"]}
{"id": "C132", "title": "The tracks of a cell in double precision", "statement": "With every operation rounded, track i of a cell is the straight line at the angle that is i + 1/2 widths from where the cell begins and reaches past the cell on both sides, up to 2^-44 times the largest coordinate and (i + 1)^2 / 2^53 widths; no point of the cell is further than half a width from a track, up to such errors; unless the extent is near to a whole number of widths, there are as many tracks as without rounding.", "quantifier": "every cell of doubles with a bound M of at least 1 for its coordinates, every width from M / 2^20 to M, every angle, every rounding to nearest, every sine and cosine with errors of at most 2^-52", "why_tests_cant": "Tests compare the number of swaths of a few fields; errors are made by two rotations and by the sum of the widths, and depend on how far the field is from the origin.", "anchors": ["src/fields2cover/swath_generator/swath_generator_base.cpp: generateSwaths", "src/fields2cover/types/Point.cpp: rotateFromPoint, getPointFromAngle", "src/fields2cover/types/Cell.cpp: createStraightLongLine", "include/fields2cover/types/Geometry_impl.hpp: getHeight, getMinSafeLength"]}
{"id": "C133", "title": "The line of a path is the line that is driven", "statement": "Path::toLineString of a non-empty path whose sections join has one point more than the path has states, begins at the start of the path and ends at atEnd(), is as long as the path, and a position is on the line if and only if it is driven in some section.", "quantifier": "every non-empty path with joining sections of non-negative length, forwards or backwards, and every position", "why_tests_cant": "Equality of infinite sets of positions, for every path.", "anchors": ["src/fields2cover/types/Path.cpp: toLineString, atEnd", "src/fields2cover/types/PathState.cpp: atEnd"]}
{"id": "C134", "title": "isTurnValid accepts exactly the turns that end where they should and do not go back", "statement": "isTurnValid is true if and only if no position driven in the turn is more than max_dist behind the line through its ends, its end is less than max_dist from (dist, 0) in both coordinates, and the last heading differs from the wanted one by at most arccos(1 - max_rot) up to full turns.", "quantifier": "every non-empty path with joining sections, all distances, angles and tolerances between 0 and 2", "why_tests_cant": "All positions of all paths; the code only looks at the first point of each state.", "anchors": ["src/fields2cover/path_planning/turning_base.cpp: isTurnValid"]}
{"id": "C135", "title": "A swath is turned to the direction of another one", "statement": "After a.targetSameDirAs(b) the swath a is driven in the same direction as b, after a.targetOppositeDirAs(b) in the opposite direction; points, id, width and type are kept, and repeating the call changes nothing.", "quantifier": "every pair of swaths, with any history of reversals", "why_tests_cant": "Depends on the history of both swaths.", "anchors": ["src/fields2cover/types/Swath.cpp: targetSameDirAs, targetOppositeDirAs, hasSameDir, reverse"]}
{"id": "C136", "title": "The closest point of a segment in double precision", "statement": "closestPointInSegment and closestPointTo return, computed with doubles, a point of the segment or line that is nearest to the given point up to rounding errors proportional to the size of the coordinates, also for segments without length or of a length whose square underflows; given points that are not numbers.", "quantifier": "every rounding to nearest, all points and segments of the same height at both ends with coordinates up to 2^400, lines of any length", "why_tests_cant": "The parameter is a quotient that is 0/0 or infinite for short segments; tests compare a few cases with a tolerance.", "anchors": ["src/fields2cover/types/Point.cpp: closestPointInSegment, operator*, operator-, operator+", "src/fields2cover/types/LineString.cpp: closestPointTo", "src/fields2cover/types/LinearRing.cpp: closestPointTo"]}
{"id": "C137", "title": "Costs of edges in double precision", "statement": "An edge between two points that is added without a cost costs their distance in whole millimetres, the same in both directions, computed with doubles; the error of the calculation is bounded, and no points make the calculation undefined.", "quantifier": "every rounding to nearest, all points, including coordinates that are infinite or no numbers, any heights", "why_tests_cant": "Squares, square root, scaling and the conversion to an integer each lose something; tests use a few short distances.", "anchors": ["src/fields2cover/types/Graph2D.cpp: addEdge, addDirectedEdge", "include/fields2cover/types/Graph2D.h: scale_", "include/fields2cover/types/Geometry_impl.hpp: distance"]}
{"id": "C138", "title": "Hash values of points in double precision", "statement": "Every point has a hash value, and points of a field that are not equal have different ones.", "quantifier": "every rounding to nearest, all points, including coordinates that are infinite or no numbers", "why_tests_cant": "Undefined conversions often return some number; that different points share a hash value shows only in the running time.", "anchors": ["include/fields2cover/types/Point.h: hash"]}
{"id": "C139", "title": "The closest point on the borders of cells in double precision", "statement": "closestPointOnBorderTo of a cell or of cells returns, computed with doubles, a point on the border of one of the cells that is nearest to the given point among all points of all borders, up to rounding errors proportional to the size of the coordinates; a point on the border is its own closest point; given points that are not numbers and cells without points.", "quantifier": "every rounding to nearest, all cells with any number of rings of at least two points each in a plane of one height with coordinates between 2^-250 and 2^400 in size, all points", "why_tests_cant": "Three searches for a minimum of rounded distances are nested; tests compare a few points with a tolerance.", "anchors": ["src/fields2cover/types/Cell.cpp: closestPointOnBorderTo", "src/fields2cover/types/Cells.cpp: closestPointOnBorderTo", "src/fields2cover/types/LinearRing.cpp: closestPointTo", "src/fields2cover/route_planning/route_planner_base.cpp: createShortestGraph"]}
{"id": "C140", "title": "Turns in double precision join the poses exactly", "statement": "createTurn, computed with doubles: the request handed to the solver is the one asked for, up to rounding errors proportional to the size of the coordinates; the resulting turn is empty or starts and ends exactly in the two given positions, with the headings right up to rounding, if the solver's path ends within 5 cm (less a small margin) of where it should; after any use of the planner with its cache the margin is a millimetre and a milliradian; between the ends the solver's path is moved as a whole.", "quantifier": "every rounding to nearest, every atan2, cos and sin with errors of a unit in the last place, all poses with coordinates up to the bound M and angles of a few revolutions, all solvers accurate to the tolerance, all histories of turns and settings", "why_tests_cant": "The tolerance is a float and the path passes four roundings and two remainders; tests use one solver and small coordinates.", "anchors": ["src/fields2cover/path_planning/turning_base.cpp: transformToNormalTurn", "src/fields2cover/path_planning/turning_base.cpp: createTurn", "src/fields2cover/path_planning/turning_base.cpp: correctPath", "src/fields2cover/path_planning/turning_base.cpp: createTurnIfNotCached"]}
{"id": "C141", "title": "The estimated number of turns, and the search for its minimum, in double precision", "statement": "NSwathModified::computeCost, computed with doubles, is the length of the border across the direction (with the additional term of C27 for every ring) over twice the width, up to a rounding error that grows with the square of the number of points; computeBestAngle with these costs returns a candidate angle at which the exact estimate is the least among all candidates up to twice this error, so that a convex field is there as narrow as at any candidate.", "quantifier": "every rounding to nearest, every sin and atan2 with errors of a unit in the last place, all cells of up to 2^50 points with coordinates up to the bound M, all positive widths up to M, all directions of a few revolutions, all steps", "why_tests_cant": "The error of a sum of products of rounded distances and sines of rounded angles cannot be observed; tests compare a few costs with a tolerance.", "anchors": ["src/fields2cover/objectives/sg_obj/n_swath_modified.cpp: computeCost", "src/fields2cover/swath_generator/brute_force.cpp: computeBestAngle"]}
{"id": "C142", "title": "The path along a swath in double precision", "statement": "Path::appendSwath, computed with doubles, adds for every segment of the swath one forward state of type swath with the given velocity that starts exactly in the first point of the segment and whose end, as computed by PathState::atEnd, is the second point up to 2^-41 of the largest coordinate (4 micrometres in UTM coordinates), so that there is no gap between successive states; Path::length of these states is the length of the swath up to rounding; and the turn planned to the next swath is empty or starts exactly in the last point of the one and ends exactly in the first point of the other, with the headings of the adjacent states up to the error of the solver and 2^-44 rad.", "quantifier": "every rounding to nearest, every cos, sin and atan2 with errors of a unit in the last place, all swaths of any number of points with coordinates up to the bound M (length: up to 2^50 points), all velocities, all solvers whose ends are at most 5 cm - M/2^40 off", "why_tests_cant": "The direction of a state is rounded twice and its length three times; whether the computed end of a state misses the next point by micrometres or metres depends on the ratio of the length of the segment to the coordinates, of which tests try a few.", "anchors": ["src/fields2cover/types/Path.cpp: Path::appendSwath, Path::length", "src/fields2cover/types/PathState.cpp: atEnd", "src/fields2cover/types/Swath.cpp: getInAngle, getOutAngle", "src/fields2cover/path_planning/path_planning.cpp: planPath(robot, swaths, turn)"]}
{"id": "C143", "title": "Distances to lines and intersections of lines in double precision", "statement": "Point::signedDistance2Segment, computed with doubles, is the distance to the line, positive on its left, up to 2^-47 of the distance of the point from the start of the segment plus a metre, whatever the size of the coordinates, so that its sign tells the side for points further away than that; for a sloped segment it is that distance times the ratio of the lengths of the segment on the ground and in space; Point::intersectionOfLines is close to the point the two lines have in common.", "quantifier": "every rounding to nearest, all points with double coordinates up to 2^400, all level segments of at least 1/64 m; intersections: all pairs of segments of at least 1/64 m that span at least 2^-20 of the product of their lengths, and a common point no larger than the largest coordinate", "why_tests_cant": "intersectionOfLines computes with determinants of absolute coordinates, so that its error grows with the square of the coordinates: tests with coordinates near the origin cannot show that it is off by decimetres in UTM coordinates.", "anchors": ["src/fields2cover/types/Point.cpp: signedDistance2Segment, intersectionOfLines, det"]}
{"id": "C144", "title": "The limits of a robot are usable for every double given to the setters", "statement": "Whatever numbers or infinities the setters of a Robot are given, in any order, the limits of the curvature and of its change stay not negative, and getMinTurningRadius() returns a number from 0 to about 10000 km, never an infinity or NaN; NaN comes out exactly if NaN went in. A minimum turning radius from 10 cm to 10 m is read back up to a relative error of 1e-6 with every operation rounded; an infinite one becomes a curvature of 0 and is read back as 10000 km. False of the constructor, which takes its limits as they are: a maximum curvature of -1e-7 gives an infinite radius, one of -1 a negative one.", "quantifier": "for all sequences of calls of the setters with arguments among all values of type double, and all robots whose limits were not negative before", "why_tests_cant": "tests set a few ordinary radii and curvatures; that no argument and no order of calls can produce an infinite, negative or NaN radius needs all doubles", "anchors": ["src/fields2cover/types/Robot.cpp:12-22", "src/fields2cover/types/Robot.cpp:73-95"]}
{"id": "C145", "title": "The time a path takes, for all values of type double", "statement": "Path::getTaskTime() of a path with lengths up to 2^400 and velocities of at least 2^-400 is a number, the sum of length over velocity of the states up to n (1 + that sum without signs) / 2^51 for n states. If lengths and velocities are not negative, be they 0 or infinite, the time is NaN exactly if some state has length and velocity 0 or both infinite; otherwise it is not negative, and infinite as soon as one state of positive length has velocity 0 or a state of finite velocity is infinitely long. A length or velocity that is NaN makes the time NaN.", "quantifier": "for every rounding to nearest and all paths of up to 2^40 states (accuracy), all paths of any length and all values of type double (the rest)", "why_tests_cant": "tests add up a few states with velocity 1; that a robot with velocity 0 gives an infinite time or NaN, and that rounding errors stay proportional to the number of states, needs all values and any number of states", "anchors": ["src/fields2cover/types/Path.cpp:54-57"]}
{"id": "C146", "title": "Convexity of cells in double precision", "statement": "Cell::isConvex(), computed with doubles, finds for a border without nearly straight corners what exact arithmetic finds: true exactly if the border turns to the same side at every corner but the one it starts with; in particular every convex border is found convex, whatever corner it starts with. A corner is nearly straight if the sine of its angle is below 2^-40; the size of the coordinates does not matter. The result says nothing about the corner the border starts with, as in C50. Cells with holes, with an area that is found not to be positive or with fewer than two points in the border are found not to be convex; a border of two points whose area is found positive throws out_of_range.", "quantifier": "every rounding to nearest, every atan2 accurate to a unit in the last place, all borders of any number of corners with double coordinates, clockwise or counter-clockwise, whose area is found positive", "why_tests_cant": "the comparison of an angle with pi fails only for corners that are nearly straight or point back, and tests cannot show that UTM coordinates do not make this worse", "anchors": ["src/fields2cover/types/Cell.cpp:141-162", "src/fields2cover/types/Point.cpp:140-143"]}
{"id": "C147", "title": "Shares of a field, for all values of type double", "statement": "FieldCoverage and HGObjective (RemArea) return numbers from 0 to 1 for areas that are doubles, right up to 2^-54 and 2^-53: rounding never makes a share exceed 1, coverage is 1 exactly if the two areas are the same number, the remaining share 0 exactly if all area was taken away, and more covered area is never a smaller share. The search for the best coverage returns an angle that covers the most of all candidates up to 2^-53 of the field. Overlaps is defined and not negative, also for infinite areas, and for two swaths the share that both cover; for up to 2^20 swaths it is the sum over the pairs that C28 describes up to (n^2 + 1) / 2^52 of it. Fields without area or with an infinite one give NaN; coverage without swaths is undefined behaviour.", "quantifier": "for every rounding to nearest, all areas among the values of type double with the part no larger than the whole, all collections of swaths and all numbers of candidates", "why_tests_cant": "that no pair of different areas is rounded to a share of exactly 1 needs all pairs of doubles; tests do not use fields without area", "anchors": ["src/fields2cover/objectives/sg_obj/field_coverage.cpp:11-30", "src/fields2cover/objectives/hg_obj/hg_objective.cpp:11-27", "src/fields2cover/objectives/sg_obj/overlaps.cpp:15-27", "include/fields2cover/objectives/base_objective.h:25-46"]}
{"id": "C148", "title": "Cost of a route in double precision", "statement": "RPObjective::computeCost with the direct distance, computed with doubles, throws or accesses an empty vector for exactly the routes for which it would with real numbers, and else returns a finite double that differs from the cost with real numbers by at most n / 2^45 of it and n / 2^320, where n is the number of points, swaths, groups and connections. So the cost of a list of points is its length up to n / 2^45 of it; the same holds for swaths with two points or more, where the ways between them count, and for every route that the calls of Route build with a swath in each group, two points in each swath and groups that touch where no points are between them (C20). A coordinate x or y that is not a number makes every cost that is computed not a number, if its connection or swath has a second point.", "quantifier": "for every rounding to nearest, all routes of up to 2^27 parts with coordinates up to 2^400, whatever calls built them", "why_tests_cant": "tests compare the cost of a few short routes; how rounding adds up over any number of points, and that no order of additions overflows, needs all routes", "anchors": ["src/fields2cover/objectives/rp_obj/rp_objective.cpp:11-135", "src/fields2cover/objectives/rp_obj/direct_dist_path_obj.cpp:11-14"]}
{"id": "C149", "title": "Length of a path, for all values of type double", "statement": "Path::length(), computed with doubles, is never negative: it is a double or infinite unless the length of a state is NaN, in which case it is NaN, and it is infinite if the length of a state is. Adding states at the end never makes a path shorter and no state is longer than the path, whatever is rounded and even if the sum overflows. For up to 2^40 states with lengths up to 2^900, of either sign, it is the sum of their absolute values up to n / 2^52 of it.", "quantifier": "for every rounding to nearest and all paths with lengths among the values of type double, of any number of states", "why_tests_cant": "that rounding never makes a longer path shorter needs all paths; tests have no lengths that are infinite, NaN or near overflow", "anchors": ["src/fields2cover/types/Path.cpp:205-208"]}
