{"id": "C01", "title": "Mesh node layout is a bijection", "statement": "Constructing a w x h mesh succeeds without touching memory out of range and yields (w+1)(h+1) nodes and w*h elements; node i sits at (i mod (w+1), i div (w+1)); xyToIndex[x][y] is the index of the node at (x,y); distinct nodes have distinct coordinates and every lattice point of the domain is a node.", "quantifier": "every width and height >= 1 whose node count fits in 32 bits, every node, every lattice point", "why_tests_cant": "needs every mesh size; tests try a handful", "anchors": ["src/Mesh.cpp:Mesh::Mesh", "src/Mesh.cpp:initialiseNodes"]}
{"id": "C02", "title": "Neighbour table is exactly the 4-neighbourhood", "statement": "neighbours = [left,right,down,up]; each entry is the node one step away in that direction, or nNodes when that step leaves the domain; the relation is symmetric; a node is flagged isDomain exactly when some neighbour is missing.", "quantifier": "every mesh size >= 1x1, every node, every direction", "why_tests_cant": "the code computes a periodic wrap with unsigned underflow then patches it; must hold for all sizes", "anchors": ["src/Mesh.cpp:initialiseNeighbours"]}
{"id": "C03", "title": "Element/node connectivity is exact both ways", "statement": "Each element lists its four corners anticlockwise from the bottom left and its centre; the elements recorded at a node are exactly the elements having it as a corner, each once, nElements is their number (1 corner, 2 edge, 4 bulk) and the four slots never overflow.", "quantifier": "every mesh size, every element, every node", "why_tests_cant": "reverse connectivity is accumulated through a counter over all elements", "anchors": ["src/Mesh.cpp:initialiseElements"]}
{"id": "C04", "title": "getElement returns the containing cell", "statement": "For every point of the closed domain getElement returns a valid element whose unit cell, enlarged by 1e-6 to the right and top, contains the point; the cell contains it exactly unless the point lies within 1e-6 to the right of (above) a grid line.", "quantifier": "every mesh, every real point of the domain", "why_tests_cant": "continuum of points, boundary rounding", "anchors": ["src/Mesh.cpp:getElement"]}
{"id": "C05", "title": "getClosestNode returns a nearest node", "statement": "For every point of the closed domain no node of the mesh is strictly closer to it than the one returned.", "quantifier": "every mesh, every real point of the domain, every competing node", "why_tests_cant": "continuum of points including ties and the 1e-6 shift", "anchors": ["src/Mesh.cpp:getClosestNode"]}
{"id": "C06", "title": "Heap is a priority queue over any history", "statement": "After any sequence of push/set/pop within capacity, peek and pop return the smallest value currently stored, pop returns the address pushed with it and removes exactly that entry, and size is the number of live entries.", "quantifier": "every operation history (any length), every capacity, every value assignment from any total order", "why_tests_cant": "all histories", "anchors": ["src/Heap.cpp:push", "src/Heap.cpp:pop", "src/Heap.cpp:set", "src/Heap.cpp:peek"]}
{"id": "C07", "title": "Heap handles are stable", "statement": "The handle returned by push keeps denoting the same entry: set(handle, v) changes the value of exactly that entry and nothing else, regardless of interleaved pushes, pops and sets.", "quantifier": "every history, every live handle, every value", "why_tests_cant": "all histories; relies on back pointers staying consistent", "anchors": ["src/Heap.cpp:set", "src/Heap.cpp:siftUp", "src/Heap.cpp:siftDown"]}
{"id": "C08", "title": "Heap memory safety", "statement": "No operation accesses its arrays out of range as long as the total number of pushes over the heap's lifetime does not exceed the capacity, whatever the values are (including NaN). Full claim: a push that passes the 'heap is full' check is safe.", "quantifier": "every history, every capacity, every comparison behaviour (NaN included)", "why_tests_cant": "all histories; the guard tests the wrong counter", "anchors": ["src/Heap.cpp:push"]}
{"id": "C09", "title": "Heap error exits are exact", "statement": "push on a heap holding maxLength entries, pop on an empty heap and peek on an empty heap terminate the process with a failure; in every other (in-range) case they return normally.", "quantifier": "every heap state", "why_tests_cant": "all states", "anchors": ["src/Heap.cpp:push", "src/Heap.cpp:pop", "src/Heap.cpp:peek"]}
{"id": "C10", "title": "Draining the heap sorts", "statement": "Popping everything after any pushes and sets returns a permutation of the live (address,value) pairs in ascending value order.", "quantifier": "every history", "why_tests_cant": "all histories", "anchors": ["src/Heap.cpp:pop"]}
{"id": "C11", "title": "Stale handles are harmless", "statement": "set on a handle whose entry has already been popped changes neither the set of live entries nor their values nor the order they come out in.", "quantifier": "every history, every popped handle, every value", "why_tests_cant": "all histories", "anchors": ["src/Heap.cpp:set"]}
{"id": "C12", "title": "Heap self-test never fires", "statement": "With isTest=true the self test passes after every operation, so it never aborts and never changes results relative to isTest=false.", "quantifier": "every history", "why_tests_cant": "all histories", "anchors": ["src/Heap.cpp:test"]}
{"id": "C13", "title": "Fast marching terminates and is memory safe", "statement": "march() on any level set of the right size (any doubles, NaN and infinities included, any masked/active flags) terminates, performs no out-of-range access and never overflows the heap; the only abnormal exits are the two explicit checks.", "quantifier": "every mesh, every level set, every velocity field, every arithmetic", "why_tests_cant": "all inputs, loop driven by data", "anchors": ["src/FastMarchingMethod.cpp:march", "src/FastMarchingMethod.cpp:solve", "src/FastMarchingMethod.cpp:initialiseHeap"]}
{"id": "C14", "title": "march fails exactly when there is no interface", "statement": "Reinitialisation exits with failure iff no node value is zero and no two adjacent nodes have values of strictly opposite sign (product < 0).", "quantifier": "every mesh and level set", "why_tests_cant": "all inputs", "anchors": ["src/FastMarchingMethod.cpp:initialiseFrozen"]}
{"id": "C15", "title": "Reinitialisation reaches every node", "statement": "After a distance march every node of the mesh has been finalised exactly once: either as an interface node or by being popped from the queue once; none is left with its old, unvisited state.", "quantifier": "every mesh, every level set with an interface", "why_tests_cant": "graph reachability over all inputs", "anchors": ["src/FastMarchingMethod.cpp:solve", "src/FastMarchingMethod.cpp:initialiseTrial"]}
{"id": "C16", "title": "Interface nodes get the interpolated perpendicular distance", "statement": "Zero nodes stay zero; a node adjacent to a sign change gets +-1/sqrt(sum over axes 1/d^2) with d the smallest linear-interpolation distance to the crossing along that axis; it keeps its sign, its magnitude is positive, at most every crossing distance and below 1, and for a straight interface crossing both axes it is the exact Euclidean distance to the line.", "quantifier": "every mesh, every real level set", "why_tests_cant": "continuum of inputs", "anchors": ["src/FastMarchingMethod.cpp:initialiseFrozen"]}
{"id": "C17", "title": "Reinitialisation preserves inside/outside", "statement": "No node changes side during a distance march: positive stays positive, negative stays negative, zero stays zero.", "quantifier": "every mesh, every real level set with an interface", "why_tests_cant": "all inputs; depends on the root chosen by the quadratic solver for every stencil", "anchors": ["src/FastMarchingMethod.cpp:march", "src/FastMarchingMethod.cpp:solveQuadratic"]}
{"id": "C18", "title": "Velocity extension has no side effects", "statement": "The velocity march returns with the signed distance vector exactly as it was and leaves velocities of interface nodes and of nodes outside the narrow band untouched.", "quantifier": "every mesh, level set, velocity field, activity flags, every arithmetic", "why_tests_cant": "all inputs", "anchors": ["src/FastMarchingMethod.cpp:march"]}
{"id": "C19", "title": "Velocity extension obeys a maximum principle", "statement": "Every velocity written by the extension lies between the smallest and largest velocity of the interface nodes, so extension never amplifies.", "quantifier": "every mesh, level set, velocity field (reals)", "why_tests_cant": "inductive over the marching order", "anchors": ["src/FastMarchingMethod.cpp:finaliseVelocity"]}
{"id": "C20", "title": "Node update solves the discrete Eikonal equation", "statement": "Whenever the discriminant is positive, the value T returned by the node update satisfies sum over axes a_k (T - t_k)^2 = 1 for the upwind stencil values t_k (first order: nearest frozen value with a=1; second order: (4d1-d2)/3 with a=9/4), choosing the larger root inside and the smaller root outside; otherwise the previous estimate is returned.", "quantifier": "every stencil configuration and real values", "why_tests_cant": "continuum of stencils", "anchors": ["src/FastMarchingMethod.cpp:updateNode", "src/FastMarchingMethod.cpp:solveQuadratic"]}
{"id": "C21", "title": "Second stencil value comes from the same side", "statement": "The second-order stencil uses the second neighbour on the same side as the chosen first neighbour.", "quantifier": "every stencil configuration", "why_tests_cant": "all configurations; the code keeps a stale value", "anchors": ["src/FastMarchingMethod.cpp:updateNode"]}
{"id": "C22", "title": "LevelSet constructor validation", "statement": "Construction succeeds only if bandWidth > 2 and 0 < moveLimit < 1; otherwise (including NaN) the process exits.", "quantifier": "every parameter", "why_tests_cant": "all values", "anchors": ["src/LevelSet.cpp:LevelSet"]}
{"id": "C23", "title": "Hole initialisation is the exact distance field", "statement": "After construction from holes the value at each node is min(distance to nearest domain edge, min over holes of (distance to hole centre - radius)); the result does not depend on the order of the holes.", "quantifier": "every mesh, every list of holes (any length)", "why_tests_cant": "arbitrary lists", "anchors": ["src/LevelSet.cpp:initialise", "src/LevelSet.cpp:closestDomainBoundary"]}
{"id": "C24", "title": "pointToLineDistance is the distance to the segment", "statement": "The value is the minimum over the points of the segment of the Euclidean distance (attained), exactly when the squared length is >= 1e-6 and within 1e-3 otherwise.", "quantifier": "every segment and point in the plane", "why_tests_cant": "continuum", "anchors": ["src/LevelSet.cpp:pointToLineDistance"]}
{"id": "C25", "title": "Polygon initialisation", "statement": "After construction from a polyline the magnitude at each node is min(distance to nearest domain edge, distance to the polyline) and the sign is flipped exactly for nodes the inside test accepts.", "quantifier": "every mesh and polyline with >= 1 vertices", "why_tests_cant": "arbitrary lists", "anchors": ["src/LevelSet.cpp:initialise"]}
{"id": "C26", "title": "isInsidePolygon computes the winding number", "statement": "The inside test returns true iff the number of upward minus downward crossings of the horizontal ray to the right of the point is non-zero. (The code truncates the cross product to int.)", "quantifier": "every polygon (any number of vertices) and point", "why_tests_cant": "arbitrary polygons", "anchors": ["src/LevelSet.cpp:isInsidePolygon", "src/LevelSet.cpp:isLeftOfLine"]}
{"id": "C27", "title": "Narrow band is exact", "statement": "After (re)initialisation the band list contains, in increasing order and once each, exactly the unmasked nodes (and not fixed domain nodes) with |phi| < bandWidth, isActive says exactly that, the mine list contains exactly the band nodes with |phi| > bandWidth-1, and the mine vector's growth never overflows.", "quantifier": "every mesh, level set, mask, bandWidth, every arithmetic", "why_tests_cant": "all inputs incl. vector growth", "anchors": ["src/LevelSet.cpp:initialiseNarrowBand"]}
{"id": "C28", "title": "isMine flags match the mine list", "statement": "After reinitialisation a node is flagged isMine iff it is in the mine list.", "quantifier": "every history of reinitialisations", "why_tests_cant": "histories; flag is never cleared", "anchors": ["src/LevelSet.cpp:initialiseNarrowBand"]}
{"id": "C29", "title": "update moves exactly the band", "statement": "update(dt) subtracts dt*gradient*velocity at band nodes, caps band nodes on the domain edge at zero, leaves all other nodes untouched and returns true (after reinitialising) iff some mine ends within one grid unit of the interface.", "quantifier": "every state, time step, arithmetic", "why_tests_cant": "all inputs", "anchors": ["src/LevelSet.cpp:update"]}
{"id": "C30", "title": "Masking is permanent", "statement": "After mask(region) every node of the region is masked and stays masked, is never in the narrow band again and its value is changed by no update that does not reinitialise (a reinitialisation starts from values in which it is unchanged), for every later history of API calls; mask marks exactly the nodes in the region and makes them negative before it reinitialises.", "quantifier": "every history of API calls, every region", "why_tests_cant": "all histories", "anchors": ["src/LevelSet.cpp:mask", "src/LevelSet.cpp:update"]}
{"id": "C31", "title": "Fixed domain boundary never moves under update", "statement": "With isFixedDomain the values of nodes on the domain edge are changed by no update that does not reinitialise; without it no band node on the edge is left positive by the move.", "quantifier": "every state and history", "why_tests_cant": "all histories", "anchors": ["src/LevelSet.cpp:update", "src/LevelSet.cpp:initialiseNarrowBand"]}
{"id": "C32", "title": "Nodal velocity is a weighted average", "statement": "Mapping boundary velocities to nodes gives each narrow-band node the inverse-square-distance weighted average of nearby boundary point velocities (hence between their min and max), exactly the point's velocity when a point lies on the node, and zero when no point is near.", "quantifier": "every set of boundary points", "why_tests_cant": "arbitrary lists, order dependent accumulation", "anchors": ["src/LevelSet.cpp:initialiseVelocities"]}
{"id": "C33", "title": "Thermal time-step control", "statement": "After the stochastic computeVelocities, sqrt(2 T dt) <= moveLimit/2, dt_new*scale = dt_old, scale >= 1, and dt is unchanged when it was already small enough.", "quantifier": "every dt > 0, T >= 0, moveLimit in (0,1)", "why_tests_cant": "continuum", "anchors": ["src/LevelSet.cpp:computeVelocities"]}
{"id": "C34", "title": "Gradient is exact on planes and safe", "statement": "computeGradients never reads out of range on meshes at least 4x4, is non-negative, is zero outside the band, and on a planar level set a*x+b*y+c equals sqrt(a^2+b^2) at every band node including edges.", "quantifier": "every mesh >= 4x4, every plane, every node, every velocity sign", "why_tests_cant": "continuum of planes times all nodes times all edge cases", "anchors": ["src/LevelSet.cpp:computeGradient"]}
{"id": "C35", "title": "WENO interpolation", "statement": "gradHJWENO is a convex combination of the three third-order stencil derivatives and reproduces the derivative of every cubic polynomial exactly.", "quantifier": "all real stencil values / all cubics", "why_tests_cant": "continuum", "anchors": ["src/LevelSet.cpp:gradHJWENO"]}
{"id": "C36", "title": "Node and element classification", "statement": "After discretise a node is BOUNDARY iff |phi|<1e-6, OUTSIDE iff phi<=-1e-6, INSIDE iff phi>=1e-6; an element is INSIDE iff it has no outside node, OUTSIDE iff it has an outside and no inside node.", "quantifier": "every mesh and level set", "why_tests_cant": "all inputs", "anchors": ["src/Boundary.cpp:computeMeshStatus"]}
{"id": "C37", "title": "Boundary points lie on the zero contour", "statement": "Every boundary point created by discretise lies inside the domain on a mesh edge whose end nodes are on opposite sides, at the zero of the linear interpolant along the edge, or on a node with |phi|<1e-6.", "quantifier": "every mesh and real level set", "why_tests_cant": "all inputs", "anchors": ["src/Boundary.cpp:discretise", "src/Boundary.cpp:isAdded"]}
{"id": "C38", "title": "Boundary segments are well formed", "statement": "Segment end indices are valid point indices, both end points lie in the closed cell of the segment's element, the stored length is the Euclidean distance and boundary.length is the sum of the segment lengths.", "quantifier": "every mesh and level set for which discretise is defined", "why_tests_cant": "all inputs", "anchors": ["src/Boundary.cpp:discretise", "src/Boundary.cpp:segmentLength"]}
{"id": "C39", "title": "Discretised boundary is watertight", "statement": "When no node is within 1e-6 of the contour and neighbouring values differ by at most one grid unit, every point belongs to exactly two segments unless it lies on the domain edge, when it belongs to exactly one; so the boundary is a disjoint union of closed curves and curves ending on the domain edge.", "quantifier": "every mesh and every generic level set", "why_tests_cant": "topological, all configurations of all cells", "anchors": ["src/Boundary.cpp:discretise"]}
{"id": "C40", "title": "Point lengths partition the boundary length", "statement": "The sum of the lengths of all boundary points equals boundary.length and each point's length is half its computePerimeter.", "quantifier": "every discretised boundary", "why_tests_cant": "all inputs", "anchors": ["src/Boundary.cpp:computePointLengths", "src/Boundary.cpp:computePerimeter"]}
{"id": "C41", "title": "discretise memory safety", "statement": "discretise performs no out-of-range access (node slots, element slots, point slots).", "quantifier": "every mesh and level set (false in general: the exact condition is proved, with witnesses of undefined behaviour)", "why_tests_cant": "degenerate configurations of zero nodes", "anchors": ["src/Boundary.cpp:discretise", "src/Boundary.cpp:computePointLengths"]}
{"id": "C42", "title": "Boundary is symmetric under inside/outside exchange", "statement": "When no node value is within 1e-6 of zero, negating every node value leaves the discretised boundary unchanged (the same points, segments and lengths).", "quantifier": "every generic level set", "why_tests_cant": "all inputs", "anchors": ["src/Boundary.cpp:discretise"]}
{"id": "C43", "title": "Boundary point limits and flags", "statement": "Each boundary point gets positiveLimit = moveLimit, negativeLimit = -min(moveLimit, distance to the domain edge) (tightened near masked nodes), isDomain iff within 1e-6 of the domain edge, isFixed iff it lies on a masked node.", "quantifier": "every coordinate in the domain", "why_tests_cant": "continuum", "anchors": ["src/Boundary.cpp:initialisePoint"]}
{"id": "C44", "title": "Normals are unit vectors along the gradient", "statement": "computeNormalVectors gives every non-domain boundary point a unit normal, equal to the normalised gradient on planar level sets.", "quantifier": "every boundary", "why_tests_cant": "all inputs", "anchors": ["src/Boundary.cpp:computeNormalVectors"]}
{"id": "C45", "title": "Area fractions", "statement": "Element area is 1 inside, 0 outside, between 0 and 1 for cut cells and equal to the area of the polygon cut off by the boundary segment; the returned total is the sum.", "quantifier": "every level set", "why_tests_cant": "continuum of cut configurations", "anchors": ["src/LevelSet.cpp:computeAreaFractions", "src/LevelSet.cpp:cutArea", "src/LevelSet.cpp:polygonArea"]}
{"id": "C46", "title": "CFL limit respected by the optimiser", "statement": "After solve no movable boundary point's displacement (velocity*timeStep) exceeds maxDisplacement in magnitude, whatever the nonlinear solver returned.", "quantifier": "every boundary, sensitivities, constraints, every solver answer", "why_tests_cant": "external solver is arbitrary", "anchors": ["src/Optimise.cpp:rescaleDisplacements", "src/Optimise.cpp:solve"]}
{"id": "C47", "title": "Domain side limits respected", "statement": "After solve a point flagged isDomain never moves further out than its negativeLimit; fixed points do not move. Full claim: no point can leave the domain.", "quantifier": "every boundary and solver answer", "why_tests_cant": "all inputs", "anchors": ["src/Optimise.cpp:computeDisplacements", "src/Boundary.cpp:initialisePoint"]}
{"id": "C48", "title": "Velocity and time step are consistent", "statement": "After solve timeStep = |lambda0| and velocity*timeStep equals the displacement computed from the returned lambdas, when lambda0 is non-zero.", "quantifier": "every boundary and solver answer", "why_tests_cant": "all inputs", "anchors": ["src/Optimise.cpp:solve"]}
{"id": "C49", "title": "Lambda limits and start point", "statement": "The search box is [-L_i, L_i] with L_i = maxDisplacement/max|sens_i|/scale_i, so that each function alone cannot exceed the CFL limit inside it, and the shrinking loops terminate with the start point inside the box without changing its sign.", "quantifier": "every boundary and start lambdas", "why_tests_cant": "continuum, loop termination", "anchors": ["src/Optimise.cpp:computeLambdaLimits"]}
{"id": "C50", "title": "Removing inactive constraints", "statement": "Constraint removal keeps the order of the remaining constraints, maps indices injectively to the originals, never removes equality or violated constraints, and terminates.", "quantifier": "every number of constraints and every pattern", "why_tests_cant": "all patterns, recursion", "anchors": ["src/Optimise.cpp:computeConstraintDistances"]}
{"id": "C51", "title": "A removed constraint cannot be violated", "statement": "A constraint is dropped only if no lambda in the search box can violate it.", "quantifier": "every boundary, every lambda in the box", "why_tests_cant": "continuum (box) and 2^n vertices", "anchors": ["src/Optimise.cpp:computeConstraintDistances"]}
{"id": "C52", "title": "solve is memory safe for any number of constraints", "statement": "solve performs no out-of-range access even when some constraints are removed.", "quantifier": "every pattern of removed constraints", "why_tests_cant": "needs multi-constraint removal patterns", "anchors": ["src/Optimise.cpp:solve", "src/Optimise.cpp:computeGradients"]}
{"id": "C53", "title": "Callback gradient is the derivative", "statement": "The gradient passed to the nonlinear solver is the exact derivative of the callback value with respect to lambda while no side limit is active.", "quantifier": "every boundary, lambda, function index", "why_tests_cant": "continuum", "anchors": ["src/Optimise.cpp:callback", "src/Optimise.cpp:computeGradients", "src/Optimise.cpp:computeFunction"]}
{"id": "C54", "title": "computeSensitivity restores the point", "statement": "The boundary point is returned to its original position (all fields unchanged) and the result is the central difference along the normal divided by the point length, exact for callbacks quadratic along the normal.", "quantifier": "every point, callback, delta", "why_tests_cant": "all callbacks", "anchors": ["src/Sensitivity.cpp:computeSensitivity"]}
{"id": "C55", "title": "Ito correction is local", "statement": "itoCorrection changes nothing at zero temperature and otherwise changes only the objective sensitivity of each point, by -T*kappa/(2*length) with kappa computed from unperturbed neighbours.", "quantifier": "every boundary, temperature", "why_tests_cant": "all inputs", "anchors": ["src/Sensitivity.cpp:itoCorrection"]}
{"id": "C56", "title": "Binary save/load round trip", "statement": "Loading a file written by saveLevelSetBIN restores the signed distance bit for bit and leaves everything else unchanged.", "quantifier": "every level set", "why_tests_cant": "all values", "anchors": ["src/InputOutput.cpp:saveLevelSetBIN", "src/InputOutput.cpp:loadLevelSetBIN"]}
{"id": "C57", "title": "Text save/load round trip", "statement": "Loading a file written by saveLevelSetTXT (same isXY) restores every signed distance to within half a unit of the sixth decimal.", "quantifier": "every level set, both formats", "why_tests_cant": "all values; character-level parsing", "anchors": ["src/InputOutput.cpp:saveLevelSetTXT", "src/InputOutput.cpp:loadLevelSetTXT"]}
{"id": "C58", "title": "File names identify the data point", "statement": "Distinct data points give distinct file names, the name used by save equals the name used by load, names of data points below 10000 sort like the numbers.", "quantifier": "every data point, directory", "why_tests_cant": "all numbers", "anchors": ["src/InputOutput.cpp:saveLevelSetTXT", "src/InputOutput.cpp:loadLevelSetTXT"]}
{"id": "C59", "title": "Loaders reject files of the wrong size", "statement": "loadLevelSetTXT exits iff the number of lines differs from the number of nodes; loadLevelSetBIN should reject files of the wrong length.", "quantifier": "every file content", "why_tests_cant": "all contents", "anchors": ["src/InputOutput.cpp:loadLevelSetTXT", "src/InputOutput.cpp:loadLevelSetBIN"]}
{"id": "C60", "title": "VTK overloads agree", "statement": "saveLevelSetVTK(datapoint, ..., isVelocity, isGradient) writes the same content as the file-name overload with the same flags.", "quantifier": "every level set and flag combination", "why_tests_cant": "all flags", "anchors": ["src/InputOutput.cpp:saveLevelSetVTK"]}
{"id": "C61", "title": "Seeding makes runs reproducible", "statement": "After setSeed(s) every later draw is a function of s and of the draws made since, independent of earlier use.", "quantifier": "every history before and after seeding", "why_tests_cant": "all histories", "anchors": ["src/MersenneTwister.h:setSeed", "src/MersenneTwister.h:normal"]}
{"id": "C62", "title": "Default Swiss cheese holes do not overlap", "statement": "The default level set consists of equally sized holes that lie inside the domain and do not overlap each other.", "quantifier": "every mesh size accepted by the constructor", "why_tests_cant": "the number and spacing of holes depend on the mesh size, which is unbounded", "anchors": ["src/LevelSet.cpp: initialise"]}
{"id": "C63", "title": "discretise is repeatable", "statement": "Discretising a level set leaves no trace that changes a later discretisation: after any earlier discretisation (of the level set or of the target) the same boundary is computed as without it.", "quantifier": "every well behaved level set and every earlier discretisation", "why_tests_cant": "ranges over all level sets and over the state left by earlier calls", "anchors": ["src/Boundary.cpp: discretise", "src/Mesh.h: Node, Element"]}
{"id": "C64", "title": "Returned objective is the predicted change", "statement": "If the nonlinear solver reports the objective value of the point it returns and no side limit can be active, the value returned by solve is the change of the objective that the sensitivities predict for the returned multipliers, in the caller's units.", "quantifier": "every boundary, constraints, start point and solver answer", "why_tests_cant": "external solver is arbitrary; scaling and rescaling must cancel for all inputs", "anchors": ["src/Optimise.cpp:solve", "src/Optimise.cpp:rescaleDisplacements", "src/Optimise.cpp:computeScaleFactors"]}
{"id": "C65", "title": "Optimiser constructor validates its arguments", "statement": "The constructor accepts its arguments exactly if 0 < maxDisplacement < 1, there is at least one boundary point, and there is exactly one more multiplier than constraint distances; otherwise the program exits.", "quantifier": "every argument list", "why_tests_cant": "all argument combinations, unsigned wrap-around of lambdas.size()-1", "anchors": ["src/Optimise.cpp:Optimise"]}
{"id": "C66", "title": "Constraint targets handed to the solver", "statement": "The target of a violated constraint is its distance or 99% of the largest decrease reachable inside the search box, whichever is smaller in magnitude; the target of a satisfied constraint is its distance or 99% of the largest reachable increase, whichever is smaller.", "quantifier": "every boundary, sensitivities, constraint distances", "why_tests_cant": "extreme over a continuum of multipliers computed from 2^n corners", "anchors": ["src/Optimise.cpp:computeConstraintDistances"]}
{"id": "C67", "title": "Saved tables can be read back", "statement": "Reading the file written by saveBoundaryPointsTXT, saveBoundarySegmentsTXT or saveAreaFractionsTXT number by number gives, in order, the coordinates and lengths of the points, the coordinates of both ends of the segments, or the (coordinates and) area fractions of the elements, each to within the rounding to six decimals; the number of lines is the number of points, three times the number of segments, or the number of elements.", "quantifier": "every boundary and mesh with finite numbers", "why_tests_cant": "all values; character-level parsing", "anchors": ["src/InputOutput.cpp:saveBoundaryPointsTXT", "src/InputOutput.cpp:saveBoundarySegmentsTXT", "src/InputOutput.cpp:saveAreaFractionsTXT"]}
{"id": "C68", "title": "VTK files are consistent", "statement": "A VTK file states the dimensions of the mesh, lists as many coordinates as it announces, announces as many values as the mesh has nodes (elements), and contains exactly that many values in every block, namely the signed distances, and on request velocities and gradients (area fractions), rounded to six decimals; nothing else follows.", "quantifier": "every mesh of fewer than 2^31 nodes, every level set with finite values, all flags", "why_tests_cant": "all sizes and values", "anchors": ["src/InputOutput.cpp:saveLevelSetVTK", "src/InputOutput.cpp:saveAreaFractionsVTK"]}
{"id": "C69", "title": "One iteration of a program moves the level set by at most the CFL limit", "statement": "In the main loop shared by the example programs (sensitivities, solve, computeVelocities, computeGradients, update, periodic reinitialisation, discretise), the boundary at the top of the loop is always the discretisation of the current level set, and one iteration without thermal noise changes the signed distance of a narrow-band node by at most moveLimit times the gradient there and of other nodes not at all, reinitialisation apart, whatever the external solver answers.", "quantifier": "every program of this form, every initial level set, every number of iterations, every solver", "why_tests_cant": "composition of all components over unboundedly many iterations", "anchors": ["demos/minimise_area.cpp:main", "demos/minimise_perimeter.cpp:main", "demos/minimise_perimeter_constrained.cpp:main", "demos/shape_match.cpp:main", "src/Optimise.cpp:solve", "src/LevelSet.cpp:update"]}
{"id": "C70", "title": "Iterations of a program are free of undefined behaviour", "statement": "An iteration of the main loop, started in any state that the program can reach, with valid sensitivities, ends with a new level set or with an error message; no memory is accessed out of range, nothing loops forever, for any answer of the external solver.", "quantifier": "every reachable state, every solver answer, every size of domain from 4x4", "why_tests_cant": "undefined behaviour depends on all states reached", "anchors": ["demos/minimise_area.cpp:main", "demos/minimise_perimeter.cpp:main", "src/Optimise.cpp", "src/LevelSet.cpp"]}
{"id": "C71", "title": "Time does not run backwards and reinitialisation is periodic", "statement": "The running time of a program never decreases, with or without thermal noise, and among any 21 successive iterations one ends with a reinitialised level set and a narrow band that belongs to it.", "quantifier": "every history of the loop, every solver, all random numbers", "why_tests_cant": "unbounded histories", "anchors": ["demos/minimise_perimeter.cpp:main", "src/LevelSet.cpp:update", "src/LevelSet.cpp:computeVelocities"]}
{"id": "C72", "title": "Area minimisation moves the boundary uniformly", "statement": "In the area minimisation program every movable point away from the edge of the domain has the same velocity 1 or -1, points near the edge never leave the domain, time advances by the common displacement, which is at most the move limit, and the level set grows (or shrinks) monotonically between reinitialisations.", "quantifier": "every reachable state of the program, every solver", "why_tests_cant": "all states and solver answers", "anchors": ["demos/minimise_area.cpp:main", "src/Optimise.cpp:solve", "src/LevelSet.cpp:computeVelocities"]}
{"id": "C73", "title": "Sensitivity of the shape matching program", "statement": "The sensitivity of a boundary point is the difference between target and level set at the node it lies on, or the inverse-squared-distance weighted average over the closest node and its neighbours, limited to [-1, 1]; it is between the bounds of those differences, zero where the level set matches its target; it is defined for every point of the domain.", "quantifier": "every level set, target and point of the domain", "why_tests_cant": "all real values; out-of-range access only for points near the edge", "anchors": ["demos/shape_match.cpp:computeSensitivity", "demos/dumbbell.cpp:computeSensitivity"]}
{"id": "C74", "title": "Programs with thermal noise correct their sensitivities", "statement": "In the programs with thermal noise the objective sensitivity of each boundary point carries the Ito correction -T kappa / (2 length), kappa being the derivative of the perimeter along the normal.", "quantifier": "every reachable state of the loop, every temperature", "why_tests_cant": "all states; depends on the order of the calls", "anchors": ["demos/minimise_perimeter_constrained.cpp:main", "demos/shape_match.cpp:main", "src/Sensitivity.cpp:itoCorrection"]}
{"id": "C75", "title": "Failures of the solver are handled", "statement": "If the nonlinear solver stops because of round-off errors, solve reduces the constraint targets to 70% and calls the solver again until it succeeds; the point of a failed attempt is never returned as the solution.", "quantifier": "every valid problem, every behaviour of the solver, every history of calls", "why_tests_cant": "failures of the external solver cannot be provoked at will; undefined behaviour", "anchors": ["src/Optimise.cpp:solve", "src/Optimise.h:returnCode"]}
{"id": "C76", "title": "Programs take every sample that is due, once", "statement": "When the main loop of a program ends, the maximum time has been reached and its log holds exactly one record for each sampling time (first, first + interval, ...) that has been reached, in order of time, none taken before it was due; measuring does not change the boundary or the signed distance function; the loop that takes the samples ends.", "quantifier": "every program, every run of any length, every size of the time steps, every positive interval", "why_tests_cant": "depends on the whole history of time steps, which the optimiser chooses", "anchors": ["demos/minimise_area.cpp:main", "demos/minimise_perimeter.cpp:main", "demos/minimise_perimeter_constrained.cpp:main", "demos/shape_match.cpp:main", "demos/dumbbell.cpp:main", "demos/bimodal.cpp:main"]}
{"id": "C77", "title": "Gravity: the weighted perimeter is the weighted length of the boundary", "statement": "In the dumbbell and bimodal programs the weight of a boundary element rises linearly with height between the lower and the upper cut-off, from the reduction factor to 1; the weighted perimeter lies between that factor times the length and the length, and approximates the integral of the weight along the boundary with a stated error; the sensitivity given to a point is the central difference of the weighted perimeter when the point is moved along its normal.", "quantifier": "every state of the loop, all cut-offs l < u, every reduction factor up to 1, every boundary point", "why_tests_cant": "all shapes of the boundary and all heights", "anchors": ["demos/dumbbell.cpp:computePerimeterWeight", "demos/dumbbell.cpp:computePointLength", "demos/dumbbell.cpp:computePerimeter", "demos/bimodal.cpp:computePerimeterWeight"]}
{"id": "C78", "title": "The centre of mass is that of the boundary", "statement": "The centre of mass that the demo programs record lies in every box that contains the boundary, and so in the domain; without weighting it is the centroid of the boundary curve.", "quantifier": "every state of the loop with a boundary of positive length, all cut-offs, every positive reduction factor", "why_tests_cant": "all shapes of the boundary", "anchors": ["demos/bimodal.cpp:computeCentreOfMass", "demos/bimodal_brolly.cpp:computeCentreOfMass"]}
{"id": "C79", "title": "Umbrella sampling: trial moves are accepted by the Metropolis rule", "statement": "A trial trajectory that changes the bias potential by d is accepted with probability min(1, exp(-beta d)), so that acceptance satisfies detailed balance; the potential compared with is that of the current configuration; a rejected trial restores the configuration; accepted trials never outnumber trials; a run makes the number of trials asked for.", "quantifier": "every history of trials, every bias potential, every temperature, every stream of random numbers", "why_tests_cant": "a statement about probabilities and about the whole history of trials", "anchors": ["demos/bimodal_brolly.cpp:main", "demos/bimodal_brolly.cpp:isAccepted", "demos/bimodal_brolly.cpp:computeBiasPotential"]}
{"id": "C80", "title": "The command line sets what it says", "statement": "Every command line made of options listed in the help message is accepted, and each parameter takes the last value given for it, or else its default; any other command line ends with the help or an error message.", "quantifier": "every command line", "why_tests_cant": "all command lines of any length", "anchors": ["demos/bimodal_brolly.cpp:parseCommandLineArguments", "demos/bimodal_brolly.cpp:printHelpMessage"]}
{"id": "C81", "title": "Reinitialisation leaves the boundary where it is", "statement": "Reinitialising the level set keeps the boundary on the same grid edges and at the same points; so reinitialising twice is the same as reinitialising once.", "quantifier": "every reachable level set, every grid edge", "why_tests_cant": "a continuum of level sets, all positions of the boundary within the cells", "anchors": ["src/LevelSet.cpp:reinitialise", "src/FastMarchingMethod.cpp:initialiseFrozen", "src/Boundary.cpp:discretise"]}
{"id": "C82", "title": "Constraints and records are what they say", "statement": "The distance from the constraint that a program hands to the solver is the permitted fraction of the area of the domain minus the area of the structure, or minus the sum over the cells of the difference in area between structure and target; it is negative exactly if the constraint is violated. The samples that a program records are the length (or weighted length) of the boundary, the mismatch with the target, and the position of the centre of mass relative to the centre of the domain, all of them at the time of the sample; a mismatch recorded as a fraction lies between 0 and 1 and is 0 exactly if structure and target occupy the same area in every cell.", "quantifier": "every level set and target that can be discretised, every state of the programs", "why_tests_cant": "a continuum of structures and targets; the recorded values are compared with areas and lengths defined without the code", "anchors": ["demos/shape_match.cpp:computeObjective", "demos/dumbbell.cpp:main", "demos/bimodal.cpp:main", "demos/minimise_perimeter_constrained.cpp:main", "demos/minimise_perimeter.cpp:main"]}
{"id": "C83", "title": "Nodal velocities are linear in the speeds of the boundary", "statement": "Whether computeVelocities succeeds depends only on the level set and on the positions of the boundary points, not on their speeds. If it does, the velocity of every node is a combination of the speeds of the boundary points, with coefficients that are never negative and depend only on the level set and the positions: sums of speeds give sums of velocities, faster boundary points never make a node slower, and nothing else about the points matters.", "quantifier": "every reachable level set, every set of boundary points in the domain, all speeds", "why_tests_cant": "a statement about all pairs of speeds on all geometries, through the order in which the fast marching method freezes the nodes", "anchors": ["src/LevelSet.cpp:computeVelocities", "src/LevelSet.cpp:initialiseVelocities", "src/FastMarchingMethod.cpp:march", "src/FastMarchingMethod.cpp:finaliseVelocity"]}
{"id": "C84", "title": "Only speed times time step counts", "statement": "Multiplying the speeds of all boundary points by a positive factor and dividing the time step by it leaves the outcome of computeVelocities, computeGradients and update unchanged (signed distances, narrow band, whether the level set was reinitialised, errors), apart from the nodal velocities, which are multiplied by the factor.", "quantifier": "every reachable level set, all boundary points and speeds, every time step, every positive factor", "why_tests_cant": "a relation between two executions for all inputs and factors", "anchors": ["src/LevelSet.cpp:computeVelocities", "src/LevelSet.cpp:computeGradients", "src/LevelSet.cpp:update", "src/LevelSet.cpp:computeGradient"]}
{"id": "C85", "title": "Inside and outside are treated alike", "statement": "Exchanging inside and outside (negating every signed distance) commutes with the operations of the library: reinitialising the complement gives the complement of the reinitialised level set with the same narrow band, velocities extended from the same boundary points are the same, and moving the boundary with opposite speeds (computeVelocities, computeGradients, update) gives the complement of the moved shape and the same answer whether the level set was reinitialised.", "quantifier": "every reachable level set, all boundary points and speeds, every time step", "why_tests_cant": "a relation between two executions through the order in which the fast marching method visits the nodes, for all fields", "anchors": ["src/LevelSet.cpp:reinitialise", "src/LevelSet.cpp:computeVelocities", "src/LevelSet.cpp:computeGradient", "src/LevelSet.cpp:update", "src/FastMarchingMethod.cpp:march", "src/FastMarchingMethod.cpp:solveQuadratic"]}
{"id": "C86", "title": "Only the boundary counts", "statement": "Reinitialisation and the extension of velocities depend only on where the boundary is and on which side each node lies: if the signed distances of nodes that are neither on the boundary nor next to it are replaced by any others on the same side, reinitialise gives the same signed distances, narrow band and mines (or terminates alike), and computeVelocities gives the same nodal velocities. In particular errors far from the boundary do not survive reinitialisation.", "quantifier": "every reachable level set, every replacement of the values away from the boundary, all boundary points", "why_tests_cant": "a relation between two executions through the order in which the fast marching method visits the nodes, for all fields", "anchors": ["src/LevelSet.cpp:reinitialise", "src/LevelSet.cpp:computeVelocities", "src/FastMarchingMethod.cpp:march", "src/FastMarchingMethod.cpp:updateNode"]}
{"id": "C87", "title": "The boundary is the frontier of the structure", "statement": "After discretise, the points of the plane on the segments of the boundary are exactly those points of the domain that are limits both of the structure and of the rest of the domain; lattice points inside belong to the structure and lattice points outside do not; no connected set (in particular no path) in the domain leads from inside to outside without meeting a segment; and Boundary::length is the perimeter of the structure within the domain, so no piece of the contour is missing or counted twice.", "quantifier": "every grid size, every signed distance field or target that discretise accepts with no lattice point on the contour, every connected set of points", "why_tests_cant": "a statement about all points and all paths of the plane for every field; a test compares the length of a few shapes with a tolerance", "anchors": ["src/Boundary.cpp:discretise", "src/Boundary.h:segments", "src/Boundary.h:points", "src/Boundary.h:length"]}
{"id": "C88", "title": "Straight boundaries along the grid are reinitialised exactly", "statement": "If the boundary is a straight line parallel to an axis, then whatever values represent it (any sizes away from the line, any slope at the line, as long as the interpolated crossings are on the line and each node is on its side), reinitialise succeeds and gives every node of the domain exactly its signed distance from the line; reinitialising again changes nothing. For lines in other directions this is false, already next to the line.", "quantifier": "every grid size, every position and orientation of the line, every field with that boundary", "why_tests_cant": "holds for grids of every size: an induction over the order in which the fast marching method fixes the nodes; a test checks one line on one grid to a tolerance", "anchors": ["src/LevelSet.cpp:reinitialise", "src/FastMarchingMethod.cpp:march", "src/FastMarchingMethod.cpp:initialiseFrozen", "src/FastMarchingMethod.cpp:updateNode"]}
{"id": "C89", "title": "Velocities are carried unchanged along the normals of a straight boundary", "statement": "If the boundary is a straight line parallel to an axis and the narrow band is a strip along it, computeVelocities always succeeds and gives every node of the band exactly the velocity of the first node on its normal to the line, on its own side. If every node next to the line has a contributing boundary point, all velocities in the band lie between the smallest and the largest velocity of the points; so points that all move at one speed give the whole band exactly that speed.", "quantifier": "every grid size, every position and orientation of the line, every field with that boundary, every set of boundary points and velocities", "why_tests_cant": "an induction over the order in which the fast marching method fixes the nodes, for grids of every size and all velocities; a test extends one velocity field", "anchors": ["src/LevelSet.cpp:computeVelocities", "src/LevelSet.cpp:initialiseVelocities", "src/FastMarchingMethod.cpp:march", "src/FastMarchingMethod.cpp:finaliseVelocity"]}
{"id": "C90", "title": "A straight boundary with uniform velocity moves by exactly velocity times time", "statement": "Take a level set that is the signed distance from a straight line parallel to an axis, with an up to date narrow band, no mask and no fixed domain. Discretise the boundary, give all boundary points the velocity V, call computeVelocities, computeGradients and update(dt), with |V dt| + 1 at most the band width. Then away from the edge of the domain the new boundary contains the line moved by exactly V dt along its normal: every grid edge across the moved line is cut, exactly on it, and lattice points on it get the value zero, whether or not the update reinitialises. The update succeeds if the moved line separates two neighbouring inner nodes. If it does not reinitialise, inner nodes in the band get exactly their distance from the moved line and every inner node is on its side of it.", "quantifier": "every grid of at least 4 x 4 cells, every position and orientation of the line, every velocity and time step within the band", "why_tests_cant": "the composition of five calls, each of which contributes with its own approximation (interpolation, inverse square weights, fast marching, WENO, Euler step), is exact for every grid size and all real V and dt; a test checks one step to a tolerance", "anchors": ["src/Boundary.cpp:discretise", "src/LevelSet.cpp:computeVelocities", "src/LevelSet.cpp:computeGradients", "src/LevelSet.cpp:update", "src/LevelSet.cpp:reinitialise"]}
{"id": "C91", "title": "queryReturnCode tells how the last optimisation ended", "statement": "queryReturnCode prints one line: before any call of solve, that no optimisation has been performed; after a call of solve, success or failure according to how the solver ended in that call, with words that identify the reason, different for different reasons.", "quantifier": "every return code and every history of calls of solve on one object, every behaviour of the solver", "why_tests_cant": "the report depends on the whole history of solver outcomes, including failures that cannot be provoked on demand, and on memory that is never initialised", "anchors": ["src/Optimise.cpp:queryReturnCode", "src/Optimise.cpp:solve", "src/Optimise.h:returnCode"]}
{"id": "C92", "title": "The grid has no preferred side", "statement": "If the input is replaced by its image under a symmetry of the grid (left and right exchanged, top and bottom exchanged, or the axes exchanged), every result is the image of the old result: the level set built from holes with its narrow band and mines, the gradients, the moved level set and whether it was reinitialised, the boundary points, segments and lengths, the enclosed structure, the area fractions and the reinitialised values.", "quantifier": "every grid size, every symmetry, every list of holes, every level set reachable through the API and its image, every time step", "why_tests_cant": "tests compare a few symmetric shapes; a dependence on the side can hide in any stencil, in any of the cases of the cell tables, in ties and in the order in which neighbours are looked at", "anchors": ["src/LevelSet.cpp: LevelSet, initialise, initialiseNarrowBand, computeGradients, computeGradient, gradHJWENO, update, reinitialise", "src/Boundary.cpp: discretise, computeAreaFractions, cutArea", "src/FastMarchingMethod.cpp: march, initialiseFrozen, updateNode"]}
{"id": "C93", "title": "Boundary points, segments and lengths are right up to rounding error in floating-point arithmetic", "statement": "In floating-point arithmetic (every operation the exact one, rounded, as in IEEE binary64 while nothing overflows), after any history of calls, every discretisation that returns gives points that lie exactly on a lattice point or on a grid edge that the contour meets, inside the domain, within (w+h+4)*2^-52 of the exact zero of the linear interpolant; movement limits with -moveLimit <= negativeLimit <= 0 that do not leave the domain; segments whose ends are points of the boundary on the contour in the closed cell of the segment, whose length is the distance of the ends up to a relative error of 2^-49; lengths that are not negative; and a total length that is the sum of the lengths of the segments up to the rounding of the additions, not less than any of them.", "quantifier": "every rounding (monotone, exact on whole numbers and halves, relative error 2^-52), every grid size, every level set reachable through the API and every target", "why_tests_cant": "rounding errors depend on all values at once; a test in double precision compares a few of them to a tolerance", "anchors": ["src/Boundary.cpp: discretise, initialisePoint, isAdded", "src/Common.h: Coord"]}
{"id": "C94", "title": "Rounding does not change the shape of the boundary", "statement": "In floating-point arithmetic, if the contour does not cut a grid edge within 2*10^-6 of one of its ends and cut edges touch the narrow band, discretise returns iff the lattice points on the contour are tidy (otherwise it accesses memory out of range), every cut edge carries exactly one point with the right number of segments and right lists of segments and neighbours, lattice points on the contour carry a point iff segments end there, the boundary consists of closed curves and curves from edge to edge, the ends of a segment are different points of its cell. If no value lies between the rounded and the exact tolerance and no sum over a saddle is lost in rounding, the result has the same points, segments, links and statuses as the calculation with real numbers. Level sets constructed from holes with rims at least 4*10^-6 away from the lattice points meet the conditions.", "quantifier": "every rounding, every grid size, every level set and target that meets the condition; for holes every list of holes inside the domain on grids of up to 2^20 cells per side", "why_tests_cant": "a misjudged comparison in one cell of one grid would open the curve; tests look at a few shapes", "anchors": ["src/Boundary.cpp: discretise, computeMeshStatus, isAdded, initialisePoint", "src/LevelSet.cpp: initialise"]}
{"id": "C95", "title": "Initial values from holes are right up to rounding error in floating-point arithmetic", "statement": "In floating-point arithmetic the value that the constructor from holes gives a lattice point differs from the smallest among its distance to the domain edge and its distances to the holes by at most (d + |r|)*2^-48 + 2^-79, where d is the distance to the centre of a hole and r its radius, for the hole where this is largest.", "quantifier": "every rounding, every grid size, every list of holes, every lattice point", "why_tests_cant": "holds for all radii and positions representable, including huge and tiny ones", "anchors": ["src/LevelSet.cpp: LevelSet, initialise", "src/Hole.h: Hole"]}
{"id": "C96", "title": "Area fractions are right up to rounding error in floating-point arithmetic", "statement": "In floating-point arithmetic, after a discretisation under the conditions of C94 (contour not within 2*10^-6 of the end of an edge it cuts; lattice points on the contour and ends of cut edges in the narrow band), computeAreaFractions returns without undefined behaviour; every area fraction lies between 0 and 1 up to w*h*2^-44; it is within w*h*2^-44 of the area of the part of the cell that belongs to the structure (for cells with corners alternately inside and outside, if the sum of the corner values is not lost in rounding); and the total area is within (w*h)^2*2^-43 of the exact one. A level set constructed from one hole with its rim at least 4*10^-6 away from the lattice points meets all conditions.", "quantifier": "every rounding, every grid size, every level set and target that meets the condition, every cell", "why_tests_cant": "the vertices are sorted by comparisons of rounded products; a wrong comparison for one position of one cut would give a self-crossing polygon, and no finite number of cuts excludes it", "anchors": ["src/LevelSet.cpp: computeAreaFractions, cutArea, polygonArea, isClockwise", "src/Boundary.cpp: discretise"]}
{"id": "C97", "title": "Faster boundary points never fall behind, and motion is never reversed, in floating-point arithmetic", "statement": "In floating-point arithmetic, for boundary points in the domain: computing velocities returns with nothing but velocities changed, or exits, and which of the two happens does not depend on the speeds; if no boundary point of a second boundary at the same positions is slower, no node gets a smaller velocity, and after the gradients and the update with a time step that is not negative no node has a larger value. If no speed is negative no value increases; if no speed is positive no value decreases, except that positive values on the edge of the domain are set to zero; if all speeds are zero nothing else changes. All this is exact, with no tolerance for rounding. (Values before a reinitialisation that the update may trigger.)", "quantifier": "every rounding, every grid size, every level set reachable by any history of calls, every list of boundary points in the domain, all speeds, every time step that is not negative", "why_tests_cant": "one rounding in the wrong direction in one weight, mean or gradient would break it; no finite number of inputs excludes that", "anchors": ["src/LevelSet.cpp: computeVelocities, initialiseVelocities, computeGradients, computeGradient, update", "src/FastMarchingMethod.cpp: march"]}
{"id": "C98", "title": "Cells and closest nodes are found in floating-point arithmetic", "statement": "In floating-point arithmetic, for every point of the closed domain, getElement returns the index of a cell of the mesh that contains the point, up to the tolerance 10^-6 of the code on its right and upper side, and getClosestNode returns a node such that no node of the mesh is closer to the point, exactly.", "quantifier": "every rounding, every mesh with fewer than 2^31 nodes, every point of the closed domain", "why_tests_cant": "points just below a grid line or at the same distance from two nodes are affected by rounding, and there are more than can be enumerated", "anchors": ["src/Mesh.cpp: getElement, getClosestNode"]}
{"id": "C99", "title": "Random numbers are drawn in turn and in range", "statement": "In any sequence of calls on a random number generator, integer(min, max) answers with a number between min and max, and operator() with a number in the range of the uniform distribution of the library, if the distributions of the library do. After setSeed(s), n calls of operator() (or of integer with the same bounds) answer with the first n numbers that the library makes from seed s, each once and in order; on a new generator 2n calls of normal() answer with the n pairs of the library. normal(mean, stdDev) makes a new number, scales it by stdDev and shifts it by mean, and leaves a number kept for normal() alone.", "quantifier": "every library, every sequence of calls, every seed, every n", "why_tests_cant": "all sequences of calls; a number drawn twice cannot be told from a coincidence by a test", "anchors": ["src/MersenneTwister.h: operator(), integer, normal, setSeed"]}
{"id": "C100", "title": "Nodes next to the boundary get the right distance in floating-point arithmetic", "statement": "In floating-point arithmetic, if the values of the level set are zero or between 2^-300 and 2^100 in size: reinitialise exits with an error exactly if no value is zero and no two neighbouring nodes have values of opposite signs. Otherwise a node with value zero keeps it, and a node next to a sign change keeps its side and gets 1/sqrt(1/dx^2+1/dy^2), where dx and dy are the least distances to a zero of the linear interpolant along the grid lines through it (a term without one is left out), with a relative error of at most 2^-48, and never more than 1. Outside this range the signs can be lost: with neighbouring values 2^-600 and -2^-600 the call exits for want of a boundary.", "quantifier": "every rounding, every mesh with fewer than 2^31 nodes, every reachable state with ordinary values, every node next to the boundary", "why_tests_cant": "rounding errors of four divisions, products, a sum and a square root depend on all bits of five values; underflow of the product occurs only at extreme values", "anchors": ["src/FastMarchingMethod.cpp: initialiseFrozen", "src/LevelSet.cpp: reinitialise"]}
{"id": "C101", "title": "What the programs make of their input files", "statement": "The dumbbell program, started with the name of a file, takes over the numbers in it one by one as signed distances of the first nodes, until the text ends or is not a number; a text that is not a number puts zero (or the largest number, if the number is too large) in the next node; all other nodes keep their values. A file that cannot be opened ends the program. With more numbers than nodes the program writes outside the array; with exactly one number for every node it evaluates one index too many, which a library that checks indices rejects. In particular the files written by saveLevelSetTXT, with three or five numbers per node, always overflow the array. The shape matching program takes the numbers in its shape file two by two as points, leaves out an odd number at the end, tries two places in order, and ends if there is no file in either.", "quantifier": "every content of the file, every level set, library with and without index checks", "why_tests_cant": "the content of a file is arbitrary text, of any length; reading one index too many has no visible effect in an ordinary build", "anchors": ["demos/dumbbell.cpp: main (starting configuration)", "demos/shape_match.cpp: main (shape file)", "src/InputOutput.cpp: saveLevelSetTXT"]}
{"id": "C102", "title": "No division by zero and no root of a negative number", "statement": "Constructing a level set from any shape, masking, reinitialising, moving it, computing velocities and gradients, discretising the boundary, the perimeter, the area fractions and the mismatch of the shape matching program never divide by zero and never take the root of a negative number in a way that reaches a result: computed in any number system that contains the real numbers, with arbitrary results for x/0 and the root of a negative number, every call has the same outcome and the same values as over the real numbers. For the velocities with noise the same holds if the time step and the move limit are positive, the temperature is not negative and all boundary points have positive length; for sensitivities and their correction for noise, if the finite difference step and the lengths of the points are not zero. For unit normals it holds where the level set is not flat and the gradients at a point do not cancel (they do divide by zero otherwise: see C44). For the optimiser it holds for every object, every solver and every call of solve that ends with a time step other than zero, provided every function responds to the movement of some movable point.", "quantifier": "every level set (with arbitrary numbers in all its vectors), every shape, region, list of boundary points, time step; every number system extending the reals", "why_tests_cant": "a test can show that no NaN appears for the inputs tried; that no input at all leads to a division by zero needs the case distinctions of every branch", "anchors": ["src/LevelSet.cpp: LevelSet::LevelSet, mask, reinitialise, update, computeVelocities, computeGradients, gradHJWENO, pointToLineDistance, initialiseVelocities, computeAreaFractions", "src/FastMarchingMethod.cpp: march, updateNode, solveQuadratic, finaliseVelocity", "src/Boundary.cpp: discretise, computePerimeter, computeNormalVectors", "src/Sensitivity.cpp: computeSensitivity, itoCorrection", "demos/shape_match.cpp: computeSensitivity", "src/Optimise.cpp: Optimise, solve, callback, computeScaleFactors, computeLambdaLimits, computeConstraintDistances, rescaleDisplacements"]}
{"id": "C103", "title": "Gradients and steps are accurate in rounded arithmetic", "statement": "In rounded (floating point) arithmetic, where the level set within three cells of a node of the narrow band along the grid lines agrees with a plane up to an error, the gradient computed at the node is the slope of the plane up to 80 times that error and about 2^-38 of the slope, edges and corners of the domain included (corners need a slope of at least 2^-18); it is never negative, and zero outside the band. An update then moves the plane at that node by the time step times the velocity of the node, with positive values at the edge of the domain replaced by zero, up to 81 times the error and rounding, as long as the movement is not longer than a cell; nodes outside the band are not changed. Neither the nonlinear weights of the derivative estimates nor the choice of the upwind side can amplify rounding errors.", "quantifier": "every rounding (every IEEE mode without overflow), every reachable level set on domains of at least 4 x 4 cells, every band node, plane, error, velocity and time step within the stated sizes", "why_tests_cant": "rounding errors depend on all bits of the inputs; a test sees only the errors of its own inputs", "anchors": ["src/LevelSet.cpp: LevelSet::computeGradients, computeGradient, gradHJWENO, update"]}
{"id": "C104", "title": "The limit on displacements holds in rounded arithmetic", "statement": "In rounded (floating point) arithmetic, whatever the external solver answers and however often the optimiser object has been used, after a call of solve no boundary point that may move is displaced (velocity times time step) by more than the limit given to the constructor, up to 2^-50 of the limit and 2^-43 of the sum of the sizes of the contributions of the multipliers (which can cancel when there are constraints). Without constraints the limit is exceeded by at most 2^-47 of itself. Velocity times time step is the displacement that the reported multipliers predict by the sensitivities, with the cut-off at the edge of the domain, up to errors of the same size.", "quantifier": "every rounding (every IEEE mode without overflow), every history of the object, every answer of the solver, all points and sensitivities of moderate size (below 2^60)", "why_tests_cant": "rounding errors depend on all bits of the inputs and of the solver's answer; a test sees only those of its own inputs", "anchors": ["src/Optimise.cpp: Optimise::solve, computeDisplacements, rescaleDisplacements"]}
{"id": "C105", "title": "Finite-difference sensitivities are accurate in rounded arithmetic", "statement": "In rounded (floating point) arithmetic the sensitivity computed for a boundary point differs from the derivative of the function along the normal per unit length by at most (2 E / delta + 2^-48 |derivative|) / length + 2^-140, where E is the sum of the error of the callback, of K delta^3 (the departure of the function from a quadratic along the normal) and of the change of the function over the rounding of the displaced coordinates, L (|x| + |y| + 12 delta) / 2^52. The point is left exactly as it was.", "quantifier": "every rounding (every IEEE mode without overflow), every point, every callback that returns a function of the coordinates up to an error near the point, every finite-difference length from 2^-50", "why_tests_cant": "the error depends on all bits of the coordinates, the normal, the step and the callback's values; a test compares a few of them with a tolerance", "anchors": ["src/Sensitivity.cpp: Sensitivity::computeSensitivity"]}
{"id": "C106", "title": "Velocities of interface nodes are right in rounded arithmetic", "statement": "In rounded (floating point) arithmetic, after computeVelocities an interface node on which a boundary point lies has exactly the velocity of that point (the last one if several); a node with no boundary point near has velocity zero; any other interface node in the narrow band has the average of the velocities of the points within distance one, weighted by one over the squared distance, up to 30 k 2^-52 of the largest of them, k being their number, and so lies between the smallest and the largest of them up to that error.", "quantifier": "every rounding (every IEEE mode without overflow), every reachable level set, all boundary points in the domain (at most 2^20), every interface node; points within 2^-48 of distance one may or may not count, points within 10^-12 of the tolerance for lying on a node are excluded", "why_tests_cant": "the rounding errors of the squared distances, the quotients and the sums depend on all bits of the coordinates and velocities and on the number of points near the node", "anchors": ["src/LevelSet.cpp: LevelSet::computeVelocities, LevelSet::initialiseVelocities"]}
{"id": "C107", "title": "Level sets from polygons are right in rounded arithmetic", "statement": "In rounded (floating point) arithmetic the value at every node of a level set constructed from a list of vertices is, up to its sign, within S 2^-45 of the exact distance to the polyline or, if that is smaller, to the nearest edge of the domain; S bounds the coordinates; sides shorter than 10^-3 add at most a thousandth and a millionth. The value is negated exactly if the inside test accepts the node. For polygons with whole vertices the test is exactly right (the crossing number is not zero), and it is right for all polygons whose cross products at the height of the node are zero or at least one by the margin of rounding.", "quantifier": "every rounding (every IEEE mode without overflow), every grid, every list of vertices with coordinates up to 2^31 (whole vertices up to 2^25), every node", "why_tests_cant": "the rounding errors of the projection on a side depend on all bits of the coordinates; the sign decisions of the inside test flip on single bits", "anchors": ["src/LevelSet.cpp: LevelSet::initialise(const std::vector<Coord>&), LevelSet::pointToLineDistance, LevelSet::isInsidePolygon, LevelSet::isLeftOfLine"]}
{"id": "C108", "title": "Marched distances solve the discrete Eikonal equation in rounded arithmetic", "statement": "In rounded (floating point) arithmetic every value that the fast marching method gives to a node is the value the node had, or solves the discrete Eikonal equation for the final values of its neighbours up to S^2 2^-38, where S bounds the final values; if the equation has two solutions at least S 2^-19 apart, the value is within (S + S^2/gap) 2^-39 of the larger one inside and of the smaller one outside. This holds for a single update in any state and for the final value of every node off the interface after a distance march.", "quantifier": "every rounding (every IEEE mode without overflow), every grid, every state of the method, every level set, every S from 1 to 2^31", "why_tests_cant": "the rounding errors of the coefficients, of the discriminant and of the root depend on all bits of up to eight neighbouring values, and cancellation in the discriminant depends on the data", "anchors": ["src/FastMarchingMethod.cpp: FastMarchingMethod::updateNode, FastMarchingMethod::solveQuadratic, FastMarchingMethod::march"]}
{"id": "C109", "title": "Normal vectors have unit length and the right direction in rounded arithmetic", "statement": "In rounded (floating point) arithmetic computeNormalVectors returns for every boundary and level set whose recorded point numbers are valid. If the finite difference gradients at the narrow band nodes at which a point (not on the domain edge) is recorded are at least 2^-100 long and make an angle of cosine at least c with a unit vector d (c at least 2^-10), the point gets a normal vector whose squared length is 1 up to 2^-42, whose angle with d has a cosine of at least c up to (m+1) 2^-42, m being the number of records, and whose squared distance from d is at most 2(1-c) up to (2m+3) 2^-42. After discretise has returned for values whose contour stays 2e-6 away from the ends of the edges it cuts, computeNormalVectors returns, each point is recorded only at the ends of its edge (so m is at most 2), and for the values of a plane every point off the domain edge with an end of its edge in the narrow band gets the unit normal of the plane, with a squared error of at most 7 2^-42.", "quantifier": "every rounding (every IEEE mode without overflow), every grid, every history of the level set, every boundary, every point, every cone", "why_tests_cant": "the errors of the differences, of the two normalisations and of the weighted sums depend on all bits of the signed distances and of the coordinates of the points, and the weights range over twenty orders of magnitude", "anchors": ["src/Boundary.cpp: Boundary::computeNormalVectors"]}
{"id": "C110", "title": "The thermal time step and the noise are accurate in rounded arithmetic", "statement": "In rounded (floating point) arithmetic the noisy overload of computeVelocities reduces the time step so that the standard deviation of the noise displacement, sqrt(2 T dt'), is at most half the move limit up to a relative 2^-48; the time step stays positive; the returned ratio times the new time step is the old time step up to a relative 2^-50. A time step whose standard deviation is below half the move limit by a relative 2^-48 is left as it was, with ratio one, and one above it by as much is reduced until the standard deviation is half the move limit up to a relative 2^-48. Each boundary point's velocity is increased by sqrt(2T)/sqrt(dt')/sqrt(length) times the number drawn for it, up to 2^-47 of the two terms (plus 2^-1000), nothing else of the points changes, and the level set is then that of the noiseless overload on these points.", "quantifier": "every rounding (every IEEE mode without overflow), every level set with a move limit from 2^-200 to 1, every time step and every temperature from 2^-200 to 2^200 (or zero temperature), every list of points with lengths in that range, every random number source", "why_tests_cant": "the errors of the five divisions and square roots depend on all bits of the move limit, time step, temperature and lengths, and the comparison that decides about the reduction is itself rounded", "anchors": ["src/LevelSet.cpp: LevelSet::computeVelocities (overload with temperature)"]}
{"id": "C111", "title": "Perimeter, curvature and drift correction are accurate in rounded arithmetic", "statement": "In rounded (floating point) arithmetic computePerimeter of a boundary point is the sum of the distances to its neighbours up to a relative 2^-47. The finite difference sensitivity of the perimeter (the curvature) is the exact central difference along the normal, per unit length, up to the error of the two perimeters and of the displaced coordinates divided by the step. itoCorrection reduces the objective sensitivity of each point by T times the exact curvature over twice its length up to that error and rounding, and changes nothing else. The length of a point made by discretise is half the sum of the distances to the other ends of its segments up to a relative 2^-47. All this holds for the boundary of every level set whose discretisation returned, on which these calls return.", "quantifier": "every rounding (every IEEE mode without overflow), every boundary with sound neighbour lists, every boundary made by discretise from a reachable level set, every step from 2^-50, every temperature", "why_tests_cant": "the difference of two nearly equal perimeters loses digits in a way that depends on all bits of the coordinates of the points and of the normal", "anchors": ["src/Boundary.cpp: Boundary::computePerimeter, Boundary::computePointLengths", "src/Sensitivity.cpp: Sensitivity::computeSensitivity, Sensitivity::itoCorrection"]}
{"id": "C112", "title": "Weighted lengths of the demos are accurate in rounded arithmetic", "statement": "In rounded (floating point) arithmetic the weight the gravity demos give to a height is between 0 and 1 and within 2^-48 of the weight that is r up to the lower height, 1 from the upper height on and linear in between. The weighted length of a boundary point is the exact sum over ten equal parts of each of its segments of the weight at the middle times the length of the part, up to P (2^-44 + M / (2^47 (u - l))) + 2^-220, where P is the sum of the lengths of the segments and M bounds the heights. If no segment crosses a kink of the weight it is the line integral of the weight up to that error. The weighted perimeter is half the sum of these lengths over all points, up to their errors and a relative error of 2^-51 per point. All this holds, and the calls return, for every point of the boundary of every level set whose discretisation returned.", "quantifier": "every rounding (every IEEE mode without overflow), every pair of heights at least 2^-100 apart, every minimum weight in [0,1], every boundary with sound neighbour lists, every boundary made by discretise from a reachable level set", "why_tests_cant": "forty rounded terms whose errors depend on all bits of the coordinates; near the kinks the rounded height may fall on the other side", "anchors": ["demos/dumbbell.cpp: computePerimeterWeight, computePointLength, computePerimeter", "demos/bimodal.cpp: computePointLength", "demos/bimodal_brolly.cpp: computePointLength"]}
