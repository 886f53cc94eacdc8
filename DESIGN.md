# DESIGN

Formal model of lohedges/slsm (C++ level-set library, `/repo/src`) in Lean 4 + Mathlib.

## 1. Method

* Every modelled C++ function is a total Lean function in `lean/Verif/Model/*.lean`; each definition cites the
  file and lines it models and lists its simplifications.
* Outcomes: `Res a = Except Err a` with `Err.exit` (the library called `exit(EXIT_FAILURE)` through
  `slsm_check`), `Err.ub` (an out-of-range `std::vector` access or other undefined behaviour) and `Err.fuel`
  (a `while` loop did not stop within the given bound; theorems show that it does not occur).
  Vector reads and writes are checked (`rd`, `wr`): an index out of range is never silently replaced by a default.
* Loops are folds over index ranges (`forN`) or structural recursion; `while` loops carry a bound (`whileN`) that is
  proved to be sufficient.
* Numbers: the model is polymorphic in a law-free interface `FP D` (arithmetic, comparisons, sqrt, ...).  Bookkeeping
  theorems (memory safety, termination, frames, memberships) hold for *every* instance, so in particular for IEEE
  doubles with NaN and infinities.  Analytic theorems are at the instance `D = Real`, i.e. exact arithmetic.
  The `Float` instance makes the model executable, which was used to compare it with the values in `/repo/tests`.
* Callbacks, the NLopt solver, the random engine and the file system are parameters (arbitrary functions).

Directories below `lean/Verif`:

* `Model/` — the translation of the code.  `Num` (numbers), `Res` (outcomes, checked vectors, loops), `Mesh`, `Heap`,
  `FMM` (fast marching), `LevelSet`, `Boundary`, `Sensitivity`, `Optimise`, `Area`, `IO`, `Random`.
* `Spec/` — what the properties talk about, independent of the helpers of the model: layouts, histories of calls,
  priority queues, distance to a set, winding numbers, lines of a file, and so on.
* `Lib/`, `Proof/` — helper lemmas.
* `Props/` — the property theorems `Cnn_...`, the hypotheses of each one met by concrete examples next to it.
  Names ending in `_partial` prove less than the English property; names ending in `_fails`, `_undefined` or similar
  prove by a concrete witness that the English property is false of the code.

## 2. Plan per property

* **C01 Mesh node layout is a bijection** — Mesh constructor as loops over checked vectors; loop invariants giving closed forms of every field.
* **C02 Neighbour table is exactly the 4-neighbourhood** — same constructor theorem, neighbour loop including 32-bit wrap; zero width/height excluded with a witness.
* **C03 Element/node connectivity is exact both ways** — same; reverse connectivity by an invariant 'slots hold exactly the elements processed so far'.
* **C04 getElement returns the containing cell** — getElement over the reals with floor; interval arithmetic.
* **C05 getClosestNode returns a nearest node** — getClosestNode over the reals; floor characterisation and case analysis.
* **C06 Heap is a priority queue over any history** — refinement: heap state -> finite map handle->(address,value); invariants by induction over operation lists.
* **C07 Heap handles are stable** — same refinement, set clause.
* **C08 Heap memory safety** — safety invariant without any law on <; witness of the unsafe push.
* **C09 Heap error exits are exact** — exact outcome of each operation under the invariant.
* **C10 Draining the heap sorts** — induction on drain using C06.
* **C11 Stale handles are harmless** — invariant: popped handles have back pointer 0 and the sift from 0 is a no-op on an ordered heap.
* **C12 Heap self-test never fires** — model test(); prove it passes; plus what it fails to look at.
* **C13 Fast marching terminates and is memory safe** — march modelled whole; invariant linking node status, heap entries and handles; fuel bound proved sufficient; law-free numbers.
* **C14 march fails exactly when there is no interface** — exact characterisation of the frozen flag computed by initialiseFrozen.
* **C15 Reinitialisation reaches every node** — frontier invariant + connectedness of the grid.
* **C16 Interface nodes get the interpolated perpendicular distance** — closed form of initialiseFrozen over the reals + geometry lemmas.
* **C17 Reinitialisation preserves inside/outside** — status/sign invariant through solve; if the stale second value can break it, witness and `_partial`.
* **C18 Velocity extension has no side effects** — law-free frame theorem for the velocity march.
* **C19 Velocity extension obeys a maximum principle** — invariant min <= frozen velocities <= max; weights non-negative.
* **C20 Node update solves the discrete Eikonal equation** — algebra of solveQuadratic and the stencil coefficients.
* **C21 Second stencil value comes from the same side** — witness + partial.
* **C22 LevelSet constructor validation** — constructor check modelled; exact outcome.
* **C23 Hole initialisation is the exact distance field** — fold of min; order independence by permutation.
* **C24 pointToLineDistance is the distance to the segment** — convex geometry over the reals.
* **C25 Polygon initialisation** — loop closed form.
* **C26 isInsidePolygon computes the winding number** — winding number spec via ray crossings; truncation witness; exact for integer data.
* **C27 Narrow band is exact** — loop invariant, law-free.
* **C28 isMine flags match the mine list** — witness + partial for the first initialisation.
* **C29 update moves exactly the band** — loop closed form, law-free.
* **C30 Masking is permanent** — invariant over operation histories.
* **C31 Fixed domain boundary never moves under update** — invariant over operation histories.
* **C32 Nodal velocity is a weighted average** — accumulator closed form; weighted mean.
* **C33 Thermal time-step control** — real algebra.
* **C34 Gradient is exact on planes and safe** — stencil case analysis.
* **C35 WENO interpolation** — polynomial identities, convexity of weights.
* **C36 Node and element classification** — loop closed form.
* **C37 Boundary points lie on the zero contour** — loop invariant of discretise.
* **C38 Boundary segments are well formed** — loop invariant of discretise.
* **C39 Discretised boundary is watertight** — edge-point / cell case analysis.
* **C40 Point lengths partition the boundary length** — sum manipulation.
* **C41 discretise memory safety** — slot counting under genericity, and for holes with lattice points on their rims (`Proof/BndLattice.lean`); witnesses for the degenerate cases (thin domain, hole near the edge, touching holes).
* **C42 Boundary is symmetric under inside/outside exchange** — edge-wise symmetry.
* **C43 Boundary point limits and flags** — closed form of initialisePoint.
* **C44 Normals are unit vectors along the gradient** — closed form of the normal computation.
* **C45 Area fractions** — shoelace area of the cut polygon; the shoelace sum of a convex polygon is its Lebesgue measure (`Proof/Polygon.lean`), so area fractions and total are measures of the structure as a set of points (`Spec/Region.lean`).
* **C46 CFL limit respected by the optimiser** — nonlinear solver is an arbitrary function (oracle).
* **C47 Domain side limits respected** — oracle model; witness for near-domain points.
* **C48 Velocity and time step are consistent** — oracle model.
* **C49 Lambda limits and start point** — closed form; geometric decay.
* **C50 Removing inactive constraints** — recursion on number of constraints.
* **C51 A removed constraint cannot be violated** — vertex maximum of a linear function; 1% caveat.
* **C52 solve is memory safe for any number of constraints** — witness + partial.
* **C53 Callback gradient is the derivative** — derivative via HasDerivAt.
* **C54 computeSensitivity restores the point** — callback arbitrary.
* **C55 Ito correction is local** — closed form.
* **C56 Binary save/load round trip** — byte codec abstract parameter with decode (encode x)=x.
* **C57 Text save/load round trip** — decimal formatting spec'd by error bound; parser over characters.
* **C58 File names identify the data point** — string lemmas.
* **C59 Loaders reject files of the wrong size** — closed form; witness.
* **C60 VTK overloads agree** — witness.
* **C61 Seeding makes runs reproducible** — engine as an abstract deterministic state machine.
* **C62 Default Swiss cheese holes do not overlap** — closed form of the two lattices of holes; real inequalities; request size in 32-bit arithmetic.
* **C63 discretise is repeatable** — run on its own output; node and element slots are reset, so the results agree field by field.
* **C64 Returned objective is the predicted change** — oracle model; linearity of the displacements.
* **C65 Optimiser constructor validates its arguments** — exact outcome of the four checks.
* **C66 Constraint targets handed to the solver** — maximum of a linear function over the corners of the search box.
* **C67 Saved tables can be read back** — writer and formatted reader at character level; stream semantics of `operator>>`.
* **C68 VTK files are consistent** — the header counts agree with the lines that follow.
* **C69 One iteration of a program moves the level set by at most the CFL limit** — the loop as a parametrised program; invariant over its states; composition of C32, C46, C29.
* **C70 Iterations of a program are free of undefined behaviour** — composition of the safety theorems of the parts.
* **C71 Time does not run backwards and reinitialisation is periodic** — counter invariant over histories.
* **C72 Area minimisation moves the boundary uniformly** — closed form of the displacements for sensitivity one; sign of the extended velocity.
* **C73 Sensitivity of the shape matching program** — closed form of the loop; weighted mean; the out-of-range case.
* **C74 Programs with thermal noise correct their sensitivities** — C55 in the states of the loop; negation for the shape matching program.
* **C75 Failures of the solver are handled** — closed form of the loop over attempts; negations.
* **C76 Programs take every sample that is due, once** — invariant of the log over iterations and over the inner loop; termination by a bound on the number of samples due.
* **C77 Gravity: the weighted perimeter is the weighted length of the boundary** — sums over points turned into sums over segments; the ten-interval midpoint sum against the integral, by the Lipschitz constant of the weight.
* **C78 The centre of mass is that of the boundary** — the same sums; a weighted mean lies between bounds of its terms.
* **C79 Umbrella sampling: trial moves are accepted by the Metropolis rule** — Lebesgue measure of the accepted random numbers; invariant over histories of trials; negation for the first trial.
* **C80 The command line sets what it says** — induction over the command line against a list of documented options; negations.
* **C81 Reinitialisation leaves the boundary where it is** — the values next to the interface (C16) at both ends of an edge; negation with columns of different widths.
* **C82 Constraints and records are what they say** — the loops over the cells are sums over the grid (C45 for the area of a cell); the observers of `Model/Demo.lean` evaluated; negation for the recorded height of the bimodal program.
* **C83 Nodal velocities are linear in the speeds of the boundary** — `Proof/Linear.lean`: a computation is *linear* if it gives the same error for all velocities, or data that do not depend on the velocities together with a monotone linear image of them; closed under the operations of the model (bind, loops, reads, writes), hence holds for the deposit, the normalisation and the march.
* **C84 Only speed times time step counts** — C83 for the velocities; the gradient sees only the sign of the velocity; the update sees only the product; reinitialisation does not look at the velocities.
* **C85 Inside and outside are treated alike** — a simulation between the two runs of the fast marching method (same heap, status and order, opposite distances), through every function of the march; the narrow band, the WENO gradient and the update commute with the sign. Partial: values not above the machine epsilon (negation proved) and band nodes on the domain edge.
* **C86 Only the boundary counts** — a simulation between two runs of the march whose fields agree on all nodes that are final or waiting (an untouched node may differ); every node is final at the end. Partial: nodes whose equation has not two solutions keep their old value (negation proved with a 2 × 1 mesh).
* **C87 The boundary is the frontier of the structure** — a continuous function on each cell that is positive in the structure, negative outside and zero on the segments (`Proof/Front.lean`); its signs on a shared edge or corner agree between cells, so connectedness carries over to the whole domain (`Proof/Frontier.lean`); segments of different cells meet in at most one point, so the one-dimensional Hausdorff measure is additive (`Proof/Perimeter.lean`). Partial: no lattice point on the contour (negation proved), no tied saddle.
* **C88 Straight boundaries along the grid are reinitialised exactly** — invariant over runs of the abstract march: values of final and trial nodes are exact, and no final node is farther from the line than one that is not final; the latter uses that a node becomes final only when every neighbour of a nearer final node is a trial node (premise `hband` of `Micro.freeze`). With the neighbour towards the line final and the opposite one not, the discrete Eikonal equation has the exact distance as the root that the code takes (`Proof/Straight.lean`). Negation for diagonal lines proved.
* **C89 Velocities are carried unchanged along the normals of a straight boundary** — on top of the invariant of C88 (relative to the band): when a node becomes final its only final upwind neighbour is the one towards the line, so the weights of the extension are one and zero and the denominator is never zero (`velocity_weights`, `not_stuck` in `Proof/Straight.lean`, `Proof/StraightVel.lean`).
* **C90 A straight boundary with uniform velocity moves by exactly velocity times time** — composition: the discretisation has a point near every node next to the line (`line_discretised`, via C39), C89 gives the band the velocity V, C34 the gradient one, C29 the moved values; if the update reinitialises, C16 gives the inner nodes next to the moved line their exact distance again (`Proof/StraightMove.lean`).
* **C91 `queryReturnCode` tells how the last optimisation ended** — partial. The text is right for every code (`C91_text`, case analysis over the eleven codes and the rest) and after a solver call that ended with a code (`C91_after_partial`). False before the first `solve` (uninitialised read, `C91_before_fails`) and after a failed solver call (`C91_stale`, `C91_stale_fails`: the report is that of the call before); the failure texts are unreachable (`C91_never_failure`).
* **C92 the grid has no preferred side** — partial. `Flip` (`Verif/Spec/Flip.lean`) are the two mirror images and the reflection in the diagonal. Proved: the level set built from the images of the holes is the image (`C92_new`: values, band, mines; `C92_band` for any two corresponding level sets), gradients (`C92_gradients`, from the symmetry of the fifth-order stencil), update and its flag (`C92_update`), outcome of the discretisation (`C92_returns`), boundary points (`C92_points`) with their limits (`C92_limits`), segments and lengths (`C92_boundary_partial`, from the tables of all 81 × 2 kinds of cells under the symmetries of the square), structure and areas (`C92_structure`, `C92_areas`), exit of the reinitialisation (`C92_march_exit`) and its values next to the boundary (`C92_reinit_partial`). False for the segments in a saddle with value zero at the centre (`C92_tie_differs`) and for reinitialised values further away (`C92_reinit_differs`).
* **C93 discretisation in rounded arithmetic** — `Rounding` (`Verif/Spec/Round.lean`): any monotone idempotent map of the reals with relative error `2⁻⁵²`, exact on whole numbers and halves up to `2⁵³`, different numbers of size `1/4` or more at least `2⁻⁶⁰` apart; `R.Num` the representable numbers with every operation rounded, an instance of the same number class as `ℝ`, so that the same model runs in it. `Lib/Binary64.lean` proves the conditions for IEEE binary64, round to nearest even (exponents unbounded above). The invariants of the discretisation are proved for every number class (`Proof/AnyBnd.lean`), the error bounds by analysis of each formula (`Proof/RoundBnd.lean`, `Proof/RoundLen.lean`).
* **C94 rounding does not change the shape of the boundary** — a lock-step simulation (`Proof/Lock.lean`, `Proof/RoundLock.lean`): the run in rounded arithmetic takes the same branches as a run over the reals on a stand-in with the same sides (`Proof/RoundStand.lean`), to which C38, C39 and C41 apply. The only comparisons that could differ are the tests whether two points are the same; the condition on the distance from the lattice points excludes this.
* **C95 initial values in rounded arithmetic** — error of the distance formula, and the minimum does not enlarge errors (`Proof/RoundHole.lean`).
* **C96 area fractions in rounded arithmetic** — the comparison of the sort gives the same result as in exact arithmetic for points on the rim of a cell that keep away from its corners (`Proof/RoundTurn.lean`: the products have the right sign because different numbers of size `1/4` or more keep `2⁻⁶⁰` apart), so the polygon has its vertices in the same order; the error of the shoelace formula (`Proof/RoundPoly.lean`); the collection of vertices, and the dependence of the area on the points (`Proof/RoundArea.lean`, `Proof/RoundCell.lean`).
* **C97 direction of motion in rounded arithmetic** — two runs in lock step whose numbers are related (`Proof/VelRel.lean` for the fast marching method, `Proof/RoundMove.lean` for the mapping to nodes, the gradients and the step): rounding is monotone, and every operation on velocities is monotone because weights and norms of gradients are not negative; where the sign of a velocity is the same in both runs so is the gradient, where it differs zero lies between the steps.
* **C98 cells and closest nodes in rounded arithmetic** — halves of whole numbers below 2⁵³ are not rounded, and a rounded difference is below 1/2 only if the exact one is (`Proof/RoundMesh.lean`).
* **C99 random numbers in turn and in range** — induction on sequences of calls (`Props/Random.lean`); engine and distributions of the C++ library are parameters, so ranges are conditional on theirs.
* **C100 interface nodes in rounded arithmetic** — a calculus of relative errors: two positive numbers agree up to `k` roundings, which adds up under products, quotients and roundings and halves under square roots (`Proof/RoundInit.lean`); the least of two distances and the signs of products survive rounding because the values are of ordinary size (`Spec/RoundInit.lean`).
* **C101 input files of the programs** — `Model/DemoFiles.lean`, on top of `operator>>` of `Model/IO.lean`. A stream delivers exactly one list of numbers before it fails (`Spec/DemoFiles.lean`: `Yields`); the loops are compared with it by induction over that list.
* **C102 no division by zero** — `Spec/Extend.lean`: `Extends g` describes a number system with the reals in it and arbitrary results for `x / 0` and roots of negative numbers; `Proof/Extend*.lean` shows function by function that mapping the numbers commutes with the call. The side conditions (distances in an equation of the march are positive, weights of nodes with non-zero velocity are positive, values at the ends of a cut edge have different signs, smoothness indicators plus 10⁻⁶ are positive) are loop invariants. Because of C102 the theorems over the reals do not rest on Lean's convention `x / 0 = 0`, except in the cases the conditions of C102 exclude (flat level sets for unit normals, time step zero and functions without effect for the optimiser, and so on).  `Props/ExtendOpt.lean` has the part on unit normals and the optimiser; the solver is any function that gives the same answer in both number systems (`C102_solver`: every solver has such a counterpart).
* **C103 gradients and steps in rounded arithmetic** — `Proof/RoundGrad.lean`: the smoothness indicators are squares and stay non-negative under rounding, so the weights are non-negative numbers with sum one up to rounding whatever their values; each candidate derivative is within a multiple of the deviation of the slope, hence so is any such mixture. The upwind norm is compared with its exact value square by square, and a slope smaller than the error may put both one-sided derivatives or none into the norm, which costs three times the error.
* **C104 limit on displacements in rounded arithmetic** — `Proof/OptKeep.lean` (what the steps of the optimiser leave alone, for any kind of number) and `Proof/RoundOpt.lean`: the displacement is a sum of triple products, so its rounding error is a small multiple of the sum of the sizes of its terms; after rescaling the multipliers it is compared with the rescaled earlier sum, which respects the limit by the choice of the factor. With a single term the size of the term is the displacement itself, hence the purely relative bound without constraints. `Proof/RoundRun.lean` calculates a call of `solve` that works the same in every rounding.
* **C105 finite-difference sensitivities in rounded arithmetic** — `Props/RoundSens.lean`: the displaced coordinates are within (|x| + 6 delta)/2^52 of the exact ones, so with a Lipschitz bound both values of the callback are near the quadratic; the difference quotient and the division by the length add a fixed number of relative errors. The structure `Models` states what the callback is assumed to do; the example calculates one in the same arithmetic.
* **C106 velocities of interface nodes in rounded arithmetic** — `Spec/RoundVel.lean` (exact squared distance, the points near a node, the weighted average), `Proof/RoundVel.lean` (relative error of the squared distance, of a contribution, of the two sums by induction over the points, of their quotient), `Props/RoundVel.lean`. The extension by the fast marching method leaves interface nodes alone (C18, proved for every kind of number). The examples run on the 5 x 5 chessboard of C97 in binary64.
* **C107 initial values from polygons in rounded arithmetic** — `Spec/RoundShape.lean` (exact coordinates, bounds), `Proof/RoundShape.lean` (error of a difference of products, of the projection parameter, of its clamped value, of the foot and of the distance from it; induction over the sides; sign of the truncated cross product), `Props/RoundShape.lean`. The inside test stays partial for the reason given under C26. The example is a square in binary64.
* **C108 marched distances in rounded arithmetic** — `Spec/RoundEik.lean` (exact state, the chosen solution), `Proof/RoundEik.lean` (the stencil is the exact one since comparisons are exact; errors of the three coefficients, of the discriminant, of the root; residual and distance from the exact root; induction over the run of the abstract machine), `Props/RoundEik.lean`. The examples are an update on a mesh with one element, and a march on it.
* **C109 normal vectors in rounded arithmetic** — `Spec/RoundNormal.lean` (records of a point, cone), `Proof/RoundNormal.lean` (differences and their normalisation up to rounding; the sum of directions stays near the sum of weights times a vector in the convex cone; normalisation of such a sum; induction over the two loops), `Props/RoundNormal.lean`. The example is a plane with one point. After discretising: `Proof/RoundListed.lean` (places of the points and records at the nodes, from the real run in lockstep), `Props/RoundNormalDisc.lean`; the example is a discretised plane in binary64.
* **C110 thermal time step and noise in rounded arithmetic** — `Proof/RoundNoise.lean` (a multiplicative calculus of relative errors: products, quotients and roots of numbers known up to a power of `1 - 2⁻⁵¹`), `Props/RoundNoise.lean` (the two branches of the time step; the velocity of each point). The examples are in binary64.
* **C111 perimeter, curvature and drift correction in rounded arithmetic** — `Spec/RoundPerim.lean` (exact sum of distances, exact central difference, sound neighbour list), `Proof/RoundPerim.lean` (the loop is a sum of computed distances), `Props/RoundPerim.lean` (the sum of distances changes by at most four times the displacement; difference quotient of C105; quotient `T κ / (2 length)`; boundaries made by `discretise`).
* **C112 weighted lengths of the demos in rounded arithmetic** — `Spec/RoundWeight.lean` (exact ten-part sums), `Proof/RoundWeight.lean` (the computed weight near the exact one on the three branches, the exact weight is Lipschitz, the heights of the samples, the two loops are a sum of at most forty nonnegative terms), `Props/RoundWeight.lean` (weight, length of a point, line integral, boundaries made by `discretise`, weighted perimeter).

## 3. Trusted base

* **Lean 4.33.0 kernel**, and Mathlib as a library of proofs checked by it.
* **Axioms**: of the theorems in `MANIFEST.json`, `C54_restores`, `C56_exit`, `C61_without_normal_partial` and
  `C61_getSeed` use none; `C55_zero` uses `propext`; `C09_exits`, `C45_inside_outside`, `C45_total`, `C55_local`,
  `C61_reproducible_partial` and `C61_fails` use `propext` and `Quot.sound`; all others use at most `propext`,
  `Classical.choice` and `Quot.sound` (`#print axioms`).  No axioms are added; no `sorry`, `native_decide`,
  `bv_decide`, `implemented_by`, `unsafe`.
* **The translation from C++ to Lean**, done by hand and cited line by line.  It was tested by running it with
  `D = Float` on the inputs of `/repo/tests`, with the results expected there (`seeded/RepoTests.lean.txt`), and by seeding
  errors (`seeded/LOG.jsonl`).
* **The meaning of C++**: `std::vector` accesses out of range are undefined; `unsigned int` has 32 bits; `double` to
  `unsigned int` conversions truncate.

### 3.1 What is modelled

| source | model | simplifications |
| --- | --- | --- |
| `Mesh.cpp` (all) | `Model/Mesh.lean` | counters are `Nat`; sizes `(w+1)(h+1) < 2^32` where stated; wrap-around arithmetic of neighbours is modulo 2^32 |
| `Heap.cpp` (all, `test()` included) | `Model/Heap.lean` | sizes are `Nat`; the arrays have the length of the constructor argument |
| `FastMarchingMethod.cpp` (all) | `Model/FMM.lean` | one object per call of `march`, as in all callers of the library |
| `LevelSet.cpp`: all functions except those of the next line | `Model/LevelSet.lean` | the `int` result of `isLeftOfLine` is unbounded; the noise of `computeVelocities` comes from an arbitrary function |
| `LevelSet.cpp`: `computeAreaFractions`, `cutArea`, `polygonArea`, `isClockwise` | `Model/Area.lean` | `std::sort` for at most 16 elements is the insertion sort of libstdc++ (the comparison is not a strict weak ordering, so the standard leaves the result open) |
| `Boundary.cpp` (all) | `Model/Boundary.lean` | the field `weight` of segments is never used |
| `Sensitivity.cpp` (all) | `Model/Sensitivity.lean` | the callback is a function of the point that may fail; side effects of it are outside |
| `Optimise.cpp` | `Model/Optimise.lean`, `Model/OptReport.lean` | NLopt is an arbitrary function of the state: which points it evaluates, what it returns, how it fails; `std::sort` of the corner changes is a merge sort |
| `InputOutput.cpp` (all) | `Model/IO.lean` | file system = map from names to contents plus a set of writable names; a full disk and failing writes are outside; `printf("%lf")`, `operator>>`, `getline` after glibc/libstdc++ in the "C" locale; the decimal conversions of `double` are given by `Txt`, with an IEEE-754 instance (`Double`) and a real one |
| `MersenneTwister.h` (all) | `Model/Random.lean` | engine and distributions are parameters; the only hidden state is the saved second number of `std::normal_distribution` |
| `demos/minimise_area.cpp`, `minimise_perimeter.cpp`, `minimise_perimeter_constrained.cpp`, `shape_match.cpp`: the main loops | `Model/Program.lean` | initial shapes, output, statistics and the loop condition are left out: any reachable level set to start with, any number of iterations |
| `demos/dumbbell.cpp` 139-157 (starting configuration), `demos/shape_match.cpp` 75-115 (shape file) | `Model/DemoFiles.lean` | `good()` means that the file exists; messages left out |
| the same, and `demos/dumbbell.cpp`, `bimodal.cpp`, `bimodal_brolly.cpp`: sampling, main loops with their conditions, weighted perimeter, centre of mass, umbrella sampling; command line of `bimodal_brolly.cpp` | `Model/Demo.lean` | construction of the shapes and reading of restart files are left out, as is output; `exp`, the generator, `atof` and `atoi` are parameters |
| `Debug.h`, `Common.h` | `check`, structures | `slsm_check` prints and exits; the text is not modelled |

### 3.2 What is not modelled

Python bindings, what is printed by the demos and their initial shapes, plotting scripts, the internals of NLopt,
`std::random_device`, stack and heap exhaustion, threads (the library has none), infinities and NaN, rounding in
the theorems stated over the reals (C93–C98, C100 and C103–C112 are about rounded arithmetic; theorems stated for every number type `D` hold in any).

## 4. Disagreements between the code and the properties

Each line is a theorem with a concrete witness unless noted.

| property | finding | theorem |
| --- | --- | --- |
| C02 | a mesh of width zero gets a wrong neighbour | `C02_zero_width` |
| C04 | a point just below a cell border is attributed to the next cell (tolerance `1e-6`) | `C04_tolerance_witness` |
| C08 | `push` checks the number of entries, not of handles: after `pop` it can write out of range | `C08_push_after_pop_out_of_range` |
| C12 | the self test of the heap ignores the last entry | `C12_self_test_misses_last` |
| C17 | a tiny value can change side in a reinitialisation | `C17_side_can_change` |
| C21 | a second stencil value can be left over from another axis or side | `C21_stale_second_value` |
| C26 | the cross product is truncated to `int` before its sign is taken | `C26_truncation_error` |
| C28 | mine flags are never cleared | `C28_flags_accumulate`, `C28_stale_flag` |
| C32 | interface nodes outside the band get an unnormalised velocity | `C32_unnormalised` |
| C34 | gradients at flat corners; undefined behaviour for very narrow domains | `C34_flat_corner`, `C34_plane_fails`, `C34_narrow_domain_undefined` |
| C41 | `discretise` reads an uninitialised variable or overflows its slots in degenerate cases | `C41_thin_domain_undefined`, `C41_hole_at_edge_undefined`, `C41_touching_holes_undefined` |
| C42 | boundary nodes break the exchange symmetry | `C42_needs_generic` |
| C44 | a vanishing gradient gives `0/0` | `C44_zero_gradient` |
| C44 | normals of points near the edge of the domain are not unit vectors (`Boundary.cpp:672`), so sensitivities there are computed with another step than `delta` | `C44_domain_sum`, `C44_domain_not_unit` |
| C45 | a saddle with centre value zero gets the wrong area | `C45_saddle_tie` |
| C87 | lattice points on the contour between two cells of the structure get two segments | `C87_needs_generic` |
| C88 | distances next to a diagonal line are wrong after reinitialisation | `C88_diagonal_fails` |
| C46, C47 | side limits of points that are not flagged are not enforced; stale displacements of fixed points on reuse | `C46_fails`, `C47_fails`, `C47_stale_fails` |
| C51 | a removed constraint can be violated | `C51_fails` |
| C52 | removing one of two constraints leads to an access out of range | `C52_fails` |
| C57 | index equal to the size after the last number; infinities and NaN cannot be read back | `C57_assertions_fails`, `C57_nonfinite_fails`, `C57_infinite_fails` |
| C58 | names sort like numbers only below 10000 | `C58_order_limit` |
| C59 | wrong format and binary files of the wrong length are accepted | `C59_format_fails`, `C59_binary_fails` |
| C60 | one VTK overload drops its flags | `C60_fails` |
| C61 | `setSeed` keeps a saved normal deviate | `C61_fails`, `C61_rerun_fails` |
| C62 | memory for the default holes is requested before the size check | `C62_request_huge` |
| C73 | `computeSensitivity` of the shape matching program reads out of range near the edge of the domain | `C73_value` |
| C74 | the shape matching program never computes normal vectors, so that its Ito correction is zero | `C74_match_uncorrected` |
| C75 | after a failure of the solver `solve` reads an uninitialised return code, or takes the failure for a success; it never tries again | `C75_fails`, `C75_ignored`, `C75_never_retries` |
| C91 | `queryReturnCode` before the first `solve` reads an uninitialised return code; after a failed solver call it reports the success of the call before; the failure texts are unreachable | `C91_before_fails`, `C91_stale`, `C91_stale_fails`, `C91_never_failure` |
| C92 | mirror images are treated differently by the segments of a saddle whose value at the centre is exactly zero, and by the fast marching method (neighbours are looked at from left to right, and a value left over from the first side is used with the second) | `C92_tie_differs`, `C92_reinit_differs` |
| C76 | two samples can have the same time; the perimeter program then divides by zero | `C76_repeated` |
| C79 | the first potential uses a coordinate that is not relative to the middle of the domain; a rejected trial reinitialises the configuration it restores | `C79_first_fails`, `C79_rejected_fails` |
| C80 | `--umbrella-interval` is documented but rejected; a missing value and a long file name are undefined behaviour | `C80_documented_fails` |
| C81 | reinitialisation moves the boundary, a second one moves it again | `C81_moves` |
| C82 | the bimodal program records the height of the centre of mass relative to half of the width; it and the dumbbell program record the mismatch of the boundary before the step | `C82_height_fails`, `C82_weighted_record_partial` |
| C100 | sign changes between values of size 2⁻⁶⁰⁰ are not seen by `reinitialise`, because the product underflows | `C100_tiny` |
| C101 | a file written by `saveLevelSetTXT`, used as starting configuration of the dumbbell program, overflows the array of signed distances | `C101_saved_fails` |

Not a theorem: `isClockwise(p, p)` is true, so that `std::sort` is called with an invalid comparison.

## 5. Partial properties

For each property marked `partial` in `MANIFEST.json` the note there says what is missing.  Where the missing part is
false of the code, the witness is in the table above; the `_partial` theorem then gives a sufficient condition, and for
C41, C52 and C61 an exact one.
