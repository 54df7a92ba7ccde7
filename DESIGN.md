# Formal model of OSLL/slam-constructor in Lean 4

## 1. Trusted base

* **The Lean 4.33.0 kernel.** Every theorem named in MANIFEST.json depends on at most the three standard axioms
  `propext`, `Classical.choice` and `Quot.sound` (checked with `#print axioms`; the purely computational
  counterexamples use fewer). No axiom is added, nothing is admitted, no compiled-code tactic is used.
  `decide +kernel` appears in examples and counterexamples only; it is evaluated by the kernel.
* **Mathlib** (the installed copy), imported module by module; it is checked by the same kernel.
* **The reading of the C++.** /repo is not built or run here. Every definition of a model cites the file and the lines it
  models and states its simplifications. That reading, and the global decisions of section 2, are what has to be
  trusted besides the kernel.
* **The statements.** The specification vocabulary is kept in `Spec.lean` files, or directly above the theorem, and does
  not mention the helpers of the proofs. Each theorem has a concrete case beside it that meets its hypotheses. Seeded
  faults (seeded/LOG.jsonl) test that the statements are strong enough.

## 2. Global modelling decisions

* **`double`** is exact arithmetic over an arbitrary linearly ordered field `K` (with floor where needed), or `ℝ` where
  `sin`, `cos`, `atan2`, `exp`, `sqrt` or areas occur. Rounding is not modelled there, with these exceptions: where the control flow
  has to be right whatever rounding does, the theorem quantifies over every interpretation of the operations or of the
  comparison concerned (C04: the traversal of a beam; C08: the growth factor; C15: the order of the queue up to a
  tolerance; C49: range, for any comparison). The tolerant comparisons of math_utils.h (`are_equal`, `less_or_equal`)
  are modelled as written, with their tolerance, or are parameters of which the written ones are an instance.
* **Rounded arithmetic** (`Verif/Float`, C73-C79 and later): the same functions again with a rounding `r` after every
  operation, in the order of the C++ expression. `Nearest r` says that `r x` is a double (53 bits, exponent at least
  -1074) none of which is nearer to `x`; the theorems hold for every such `r` unless they say `rne` (ties to even).
  Trusted: the compiler evaluates in `double` without contraction (FMA) or extended precision; no overflow to infinity (the
  exponent is unbounded above); libm's `acos` is a parameter with a stated accuracy. Each rounded model is linked to
  the exact one (`…_exact`: with `r = id` they are equal) where both exist.
* **NaN** (the library's "unknown probability", "invalid occupancy") is `Option.none`; infinities appear as separate cases
  where the code uses them (scale of an unknown map).
* **`int`** is `Int`; where wrap-around matters it is modelled (`BitVec 32`, or a range check that makes the result `none`) or
  a theorem states the range in which no overflow occurs. Bytes and bit patterns are `BitVec`.
* **Undefined behaviour and failed assertions** are a distinct outcome (`none`), never totalised away. Theorems say when
  it cannot occur.
* **Loops without an evident bound** take a fuel argument; running out of fuel is a distinct outcome, and a theorem says
  how much fuel suffices or that no amount does.
* **Shared ownership** (`std::shared_ptr`) is a heap of identified objects, with owner counts where the code asks for them.
* **Random numbers, the scan matcher inside a particle, tf look-ups, `ros::ok()`, file contents** are arbitrary parameters
  or an arbitrary environment: the theorems hold for all of them. (C101, C102 and C103 then model the generator, and show that what it
  hands out is among what was quantified over.)
* **Number formatting of the C++ library** (Text, Config/Double): output of doubles as `%g` with six digits, correctly
  rounded, ties to even; stream input as in libstdc++; `strtod` on decimal texts with a rounding `r`. Negative zero,
  hexadecimal, `inf` and `nan` texts are not modelled, except that the stream fails on the latter two.
* **Exceptions** are an outcome of their own where they can reach the user.

Not modelled at all: ROS middleware and rosbag internals, the file system, memory exhaustion, performance, console
output (except warnings about unknown flags), LZ4 compression of map states, the rendering of rviz markers apart from
their geometry, overflow of doubles, rounding apart from the places above. Threads occur only in the asynchronous
publisher of corrections (C48), where they are modelled as interleavings of single memory accesses.

## 3. What is modelled

| module (lean/Verif) | code (src) |
|---|---|
| Grid | core/maps/regular_squares_grid.h (coordinates, extent) |
| Line | core/geometry_discrete_primitives.h (`DiscreteSegment2D`), regular_squares_grid.h `world_to_cells` |
| Rect | core/geometry_primitives.h `LightWeightRectangle`, core/math_utils.h comparisons, core/maps/grid_rasterization.h |
| PlainMap | core/maps/plain_grid_map.h, core/maps/grid_map.h |
| LazyMap | core/maps/lazy_tiled_grid_map.h (tiles, sharing, copy on write, growth, owner counts) |
| Cells | core/maps/grid_cell.h, naive_grid_cells.h, slams/gmapping/gmapping_grid_cell.h |
| Tbm | core/maps/transferable_belief_model.h, tbm_grid_cells.h, slams/credibilist/* cells |
| Serial | core/serialization.h, `serialize`/`deserialize` of cells, `save_state`/`load_state` of maps |
| Multires | core/maps/rescalable_caching_grid_map.h, core/scan_matchers/m3rsm_engine.h, bf_multi_res_scan_matcher.h |
| ScanAdder | core/maps/grid_map_scan_adders.h, const_occupancy_estimator.h |
| Estimator | core/maps/area_occupancy_estimator.h, segments, rays and intersections of geometry_primitives.h |
| Sensor | core/trigonometry_utils.h, core/states/sensor_data.h |
| Score | core/features/angle_histogram.h, core/scan_matchers/{weighted_mean_point_probability_spe, occupancy_observation_probability, observation_impact_estimators, grid_scan_matcher}.h, slams/gmapping/gmapping_occupancy_observation_pe.h |
| ScanMatch | core/scan_matchers/{pose_enumeration_scan_matcher, pose_enumerators, brute_force_scan_matcher, hill_climbing_scan_matcher, monte_carlo_scan_matcher, hcsm_fixed}.h, observers of matchers |
| Drift | core/scan_matchers/connect_the_dots_ambiguous_drift_detector.h, polar enumerator, extremal bins |
| Pose | core/states/robot_pose.h, slams/graph/pose_graph_map.h and its manager |
| World | core/states/{world, laser_scan_grid_world, single_state_hypothesis_laser_scan_grid_world}.h, ros/laser_scan_observer.h, ros/robot_pose_observers.h |
| Particle | core/particle_filter.h, slams/gmapping/{gmapping_world, gmapping_particle_filter}.h |
| Config | utils/properties_providers.h, ros/launch_properties_provider.h, utils/init_{slam, scan_matching, occupancy_mapping}.h, slams/*/init_*.h, ros/init_utils.h (ignored transforms), ros/lslam2D_bag_runner.cpp (arguments) |
| Bag | ros/bag_topic_with_transform.h, loop of lslam2D_bag_runner.cpp |
| Pub | ros/pose_correction_tf_publisher.h, ros/topic_with_transform.h (order of observers), the publishing thread |
| Dump | utils/map_dumpers.h, ros/occupancy_grid_publisher.h |
| Primitive | utils/data_generation/{map_primitives, grid_map_patcher}.h |
| ScanGen | utils/data_generation/laser_scan_generator.h |
| Float | rounded versions of grid cells, coordinates, weights and resampling, scan score, brute-force steps, angle histogram, belief cells, beam angles and trigonometry providers (with single precision), beam ends, pose tracking; the tolerant comparisons with infinities and NaN |
| Whole | composition of the above: observer, world, scan adder, map, publisher; observer, particle filter, scan adder, map (GMapping); both with their own matcher (topic Matcher) |
| SearchSpace | utils/pose2D_search_space_evaluator.cpp (observer, map of scores, evaluation run) |
| Text | core/states/sensor_data.h `operator<<`, `operator>>`; `dump_state` of ros/lslam2D_bag_runner.cpp; reading of poses and scans in utils/sm_runner.cpp; trajectory files of ros/robot_pose_observers.h; of the C++ library: `%g` output, stream input of numbers |
| Matcher | composition: core/scan_matchers/pose_enumeration_scan_matcher.h with its probability estimator on a map; no_action_scan_matcher.h, hcsm_fixed.h and the drift detector behind the same interface (Matcher/Machine); `main` of utils/sm_runner.cpp |
| Whole/Configured, Whole/MachineLaunch, Whole/MultiresLaunch, Whole/GmappingLaunch, Whole/FixedLaunch, Whole/RoamLaunch, Config/Shipped | config/*/*.properties; utils/init_slam.h and slams/gmapping/init_gmapping.h with the components of the other topics |
| Nodes | ros/wg_pr2_bag_adapter.cpp, ros/path_publisher.cpp, utils/console_view.h, slams/graph/rviz_graph_viewer.h |
| Runner | ros/lslam2D_bag_runner.cpp as a program on files (`main`, `ProgramArgs::init` with its effects, `run_slam`, `dump_map_image`) around the topics Config, Bag, Text, Dump and Whole |
| Online | `main` of the three online nodes around a SLAM: parameters of input and output (ros/init_utils.h), delivery of a scan (topic_with_transform.h), observers in order of subscription, what is sent; then the SLAMs of Whole put in |
| Random | core/random_utils.h, `RobotPoseDeltaRV` (core/states/robot_pose.h), the generators of the Monte Carlo matcher, of the particles and of the resampling; `std::mt19937`, `generate_canonical`, `normal_distribution`, `uniform_real_distribution` as in libstdc++ |
| GraphSlam | slams/graph/graph_slam_world.h (does not compile as it is, see section 7: the base class is taken as it is now); slams/graph/graph_demo.cpp with its observers and launch/graph_demo_mit.launch (`Node`) |

Layout of a topic: `Model.lean` (model), `Spec.lean` (independent specification), `Lemmas.lean` (helpers), `Props.lean` and
further files (property theorems, examples, counterexamples).

## 4. Per property: what is modelled and how it is proved

Statements are in properties.jsonl, theorem names in MANIFEST.json. "CE" marks theorems that show a stronger reading to
be false of the code.

| id | modelled | proof |
|---|---|---|
| C01 | world_to_cell, cell_to_world, world_cell_bounds over a floor field | floor arithmetic, equivalences |
| C02 | has_cell, internal/external conversions over Int | linear arithmetic; explicit bijection with pairs of naturals, counted |
| C03 | Bresenham loop with its 32-bit error accumulator | loop invariant by induction on the remaining steps; range of no overflow; within the rectangle of its ends by the lengths of the two parts of the chain (`Line.Box`) |
| C04 | world_to_cells with arbitrary floating-point operations | induction on the remaining Manhattan distance, for every interpretation; every cell in the rectangle of the end cells, because each step goes ahead (`Line.Box`) |
| C05 | GridRasterizedRectangle iterator | induction over the lexicographic position; floor arithmetic for coverage; CE for zero area |
| C06 | split and move_center of rectangles | linear arithmetic on point sets |
| C07 | corner-based intersect, overlap, with the code's tolerant comparisons | case analysis over corners contained; tolerant = exact on separated coordinates; CE crosswise, CE within tolerance |
| C08 | growing plain map: storage, origin, growth | refinement to a total function, induction over histories |
| C09 | bounded plain map | refinement to a partial function |
| C10, C11 | heap of tiles and cells with owner counts, any number of live maps | heap invariant; simulation of a family of total functions under any interleaving of create, copy, destroy, update, reset |
| C12 | the same, accesses at arbitrary coordinates | every access acts on its storage place; places of the extent are distinct; CE aliasing, CE undefined |
| C13 | levels and scales, rescale, safe_rescale | induction on levels; maximality and uniqueness of the level selected |
| C14 | contents of all levels under updates and resets | invariant over histories with one tolerance per level; CE for each proviso |
| C15 | matches, priority queue, branching on rotations and translations, search loop | loop invariant "some queued match covers every candidate"; measure for termination; admissibility of the bound; CE comparator, CE degenerate windows |
| C16 | adder, beam, blur, scan | refinement: the updates are a function of beam and estimator; frame by induction; combined with C08, C10 |
| C17 | margin arithmetic on size_t | list induction; CE wide margin |
| C18, C19, C23 | cell state machines | closed forms by induction over observations |
| C20, C21 | masses over subsets of {occupied, empty} | algebra of the combination rules; invariant; permutation induction; CE certain contradiction |
| C22 | discrepancy per cell kind | inequalities; zero exactly on agreement |
| C24, C25, C26 | byte buffers, cell codecs, map states | round trip by induction for all surrounding bytes; later histories by determinism; CE for counters and default implementations |
| C27 | histogram counting over ℝ | counting induction |
| C28 | driver loop for any enumerator, observers | loop invariant: first maximum |
| C29 | brute-force enumerator across runs | closed form of the tested list; invariant over sessions; CE later runs |
| C30 | hill climbing enumerator | simulation by rounds; measure for termination over finitely many scores |
| C31 | Monte Carlo enumerator, arbitrary samples | invariant |
| C32 | hcsm_fixed loop with its 32-bit limit | invariant; local optimum; CE limit |
| C33, C34 | weights, scores, area estimates | weighted sums, convexity; monotonicity over areas; CE zero area |
| C35–C37, C55–C57 | particle heap, weights, resampling, master, noise, shared map | invariant of reachable filters; interval arithmetic of the resampling wheel; CE noise of copies, CE shared map |
| C38–C40, C58 | worlds, observers, message conversion, time stamps | induction over histories; digits lemma; CE order of stamps |
| C41 | rotated odometry over ℝ | angle-addition; one rigid motion for the whole history |
| C42, C43 | cached trigonometry, scan points; `World/Cache`: the provider built for one laser message serves every point of its scan (counter-clockwise beams), and has an empty table for clockwise ones | trigonometric identities over ℝ; the angle check of `msg2scan` bounds the last angle by the end of the table |
| C44, C60, C61, C69 | property files with includes, numbers, ignore texts, launch parameters | induction over lines and include depth; scanner lemmas; splitting lemma; agreement of providers; CEs |
| C45 | grid dimensions | ceiling arithmetic; CE not square |
| C46 | PGM and OccupancyGrid loops | list length and index lemmas |
| C47 | message queue with abstract transform cache | invariant over reads; CE end of bag |
| C48 | SE(2)/SE(3) composition; interleavings with a mutex | matrix algebra; inductive invariant over schedules; CE order of subscription |
| C49, C62 | estimator decision logic, intersections, areas | classification of beams against a rectangle; Lebesgue measure of cut cells; tolerant = exact for beams clear of coincidences; CEs |
| C50, C51 | pose arithmetic, pose graph | algebra, induction over scans |
| C52 | cecum primitive, patcher, autoalign | list lemmas per row and column |
| C53 | argument parser | simulation of a grammar; every list is generated by it; CEs |
| C54 | world_to_cells in exact arithmetic | invariant relating the error to the crossing parameters of the line; CE corner, CE fine grid |
| C59 | window estimate with cache | fold maximum; invariant over query sequences; CE stale value |
| C63, C64 | drift detector, extremal bins | driver theorem on the polar list; argmax of the first and last bin |
| C65, C66 | laser scan generator, alone and composed with C16/C54 | traversal of cells up to the first occupied; composition with the scan adder |
| C67, C68, C70, C71 | nodes and views as event machines | induction over events; index lemmas |
| C72 | init_slam, init_scan_matching, init_occupancy_mapping, init_gmapping, init_credibilist | equations "assembled iff each key reads as …", by cases over keys |
| C73, C79 | cells with rounded operations | monotonicity of rounding and fixed doubles for the range, relative error lemmas for accuracy; induction over histories |
| C74, C75 | weights, resampling, score, rounded | sums dominate their terms under rounding; error induction; CE dead particle |
| C76 | world_to_cell etc., rounded | floor of a rounded quotient against the floor of the quotient; CE border point |
| C77 | brute-force axes, rounded | trace of the loop as a `Steps` list; error induction; CEs |
| C78 | histogram index, rounded, with an inexact acos | angle bounded away from pi by the inclination; CE nearly horizontal |
| C80 | the single-hypothesis SLAM composed of World, ScanAdder, PlainMap/LazyMap, Cells/Tbm, Dump | decomposition of one message, induction over histories, refinement of the maps, the cell theorems; totality from the scan insertion theorem with a bound on the reached area |
| C81 | GMapping composed of World (observer), Particle, ScanAdder, PlainMap/LazyMap, Cells | refinement of the loop over the particles to the abstract filter (so C35–C41, C55–C57 apply), log of the scans put into the map, induction over histories; totality with a bound on the area the particles can reach |
| C82 | search space evaluator: observer, last-write-wins cells, brute force | refinement of the growing map, list of notifications, closed form of the candidates |
| C83, C84 | number formatting (`%g`) and parsing at the level of characters; pose, scan and trajectory files | digits lemmas, parse-after-print for every rest of the file, induction over points and entries; stability of six digits under rounding to doubles; CEs |
| C85, C86 | a whole matcher: filter, weighting, point estimator, cell impact and search over a map view; `main` of sm_runner | the composed score equals `meanScore` for each estimator, then C28–C31 for that score; finiteness of the set of scores for termination; idempotence of filter and reset; CE |
| C87 | the SLAM of C80 with the matcher of C85 on its own map, the matcher's state threaded through | simulation by C80, an invariant (sane observations, usable weights) over histories, C85 at each message, bound of Monte Carlo corrections for totality, finitely many touched cells for termination |
| C88 | the texts of config/*/*.properties, paths of includes, `init_1h_slam` instantiated with the models of the components (`Whole.launch`) | evaluation of the reading by the kernel (a finite text, `decide +kernel`), rounding abstracted by `Fair`, then C72 and C87 for every sensible configuration |
| C89 | `HillClimbingScanMatcher` with the frame rotation and `prepare_lookup` | simulation by the enumerator without rotation (invariant: sin = 0, cos = 1 in every round); C64 for the histogram's totality |
| C90 | GMapping with its own matcher: `GmappingOccupancyObservationPE` with its `mutable` cache, the score, hill climbing over a score that changes its own state (`Matcher.searchS`), the loop over the particles that share map and matcher (`Whole.GOwn`) | the tests of a search as a relation (`ClimbT`), the score of each as a relation that carries the remembered value (`Agreements`, `TestedOn`); simulation by C81 with the matcher's answers given; totality: scores take finitely many rounded values, and a positive score is only possible near what the map was told |
| C91 | `init_gmapping` with the components being the models of the other topics (`Whole.launchGmapping`) | C72's reading gives the parameters, C90's start and run theorems apply to the assembled program |
| C92 | math_utils.h over doubles with infinities and NaN (`Float.Ext`) | error bounds of the rounding for the tolerance; gaps between doubles for `less`; case analysis for special values |
| C93 | scan matchers behind one interface (`Matcher.Machine`: enumerating, idle, fixed hill climbing, drift detector around any of them) inside the single-hypothesis SLAM (`Whole.Mach`), and from its configuration (`Whole.launchAny`) | simulation by C80 with the matcher's answers given; C32 and C63 hold of the scores on the map so far; "answers within b" and "keeps the weighting usable" as closure properties of matchers under wrapping; finitely many scores for termination |
| C94 | the assertion of `M3RSMEngine::branch`, the level `rescale` chooses, the scores of `Match`, NaN scores (`Multires.Branching`, `Multires.Kinds`) | C14's invariant restricted to the cells that can occur gives monotony of levels; every rasterised cell holds a point of the area, so bounds of nested ranges are monotone; invariant of the search's ranges; explicit counterexample for averaging cells |
| C95 | the single-hypothesis SLAM with `BruteForceMultiResolutionScanMatcher` on an `M3RSMRescalableGridMap`, as a relation because the queue's order among equal matches is open (`Whole.Mr`), and from its configuration (`Whole.launchMr`); the switch back to the finest level after a score is `safe_rescale_restores` (C14) | simulation by C80; C14's and C94's invariants of the levels are kept by every observation the scan adder makes (observations that say nothing leave credibilist maps alone); C15's theorem on one search read on the map so far; termination of one search and of histories; induction on the number of levels |
| C96 | the single-hypothesis SLAM on `PlainGridMap` and `LazyTiledGridMap` of fixed size (`Whole.Mach.handleFixed`, `Whole.launchFixed`); reading or updating a plain map outside is `none` (the assertion), the matcher sees `has_cell` of the map | lockstep simulation with the program on the growing map; matchers that look at most `b` away from the pose they are asked at (`Matcher.Local`) cannot tell the two maps apart; `Line.Box` keeps beams inside; converse: a map that refuses what is outside only succeeds when all was inside |
| C97 | `main` of the bag runner as a function from the files and the command line to the files, the console and the exit status; SLAM as an interface (`Runner.Engine`), then the programs of C93, C96 and C91 put in; the bag and transform libraries are parameters. Not modelled: the trajectory file after an abort, a trajectory file that is also the map file (the multi-resolution matcher in the runner: C104) | simulation of the effects of argument parsing by the pure parser of C53; the loop as the run of C47 with SLAM states alongside; totality from the totality theorems of the programs |
| C98 | `PropertiesProvider` as a record of functions (`Config/Provider`), the assembly functions of C72 once more over it (equal to the old ones for tables by `rfl`), `LaunchPropertiesProvider` (C69) and `init_properties_provider` of the single-hypothesis node; agreement of two providers on the keys asked for. Shipped launch files are written down as lists of typed parameters (`Config/ProviderShipped`); `roslaunch` itself (XML, substitution of arguments, typing of values) is not modelled |
| C99 | `Online/Model`: a node as state + transition per delivered scan, over the SLAM interface of C97; `tf` lookups, clock and random shifts are parameters. Not modelled: which scans the message filter hands over (any sequence is allowed), the subscription queue. The grid range leaves out cells whose value is 0/0 (consistent belief; `(int)NaN` is undefined behaviour) | invariant over the deliveries (`NodeInv`): the log of handled scans with state and messages; then the totality theorems of C93/C91/C98 and the trajectory of C97 |
| C100 | `Matcher/Roam`: how far an accepted chain of poses can lead away from the scan's start (a pose that scores more than the start is within reach of a cell the scan has seen); `Whole/Roam`: the SLAM around a *family* of machines indexed by the loop bound of the model (the C++ loops have none); `Whole/RoamLaunch`: the SLAM made from parameters with any matcher but the multi-resolution one; `Online/Roam`: bag runner, single-hypothesis node and credibilist node around it. Left out: the multi-resolution matcher (C95), and hill climbing on GMapping cells, whose unknown cells do not score a constant | for each matcher: one bound for all loop limits and a limit after which nothing changes (`Roams`); induction over the messages with a budget of distance per message |
| C101 | `Random/Model`: an engine is any function that hands out 32-bit numbers, the Mersenne twister among them; the polar method's loop takes the first accepted point, and is an outcome of its own if there is none. `Random/Props`: the bounds of a draw (two numbers whose grid is 2^-63 cannot be nearer to the middle than 2^-63, hence 14 standard deviations). `Random/MonteCarlo`: the matcher with the generator is the matcher of C27 with the recorded draws (induction along the loop). `Random/Whole`, `Random/Shipped`: put into C100, the shipped files and the bag runner. Exact arithmetic; that the loop of the library ends (`Lively`) is assumed. |
| C102 | `Random/Particles`: a particle with its engine and variables; what it draws is a function of these alone (`draws`), so two particles with the same random part draw the same. `Random/Copies`: the resampling loop over objects together with their random parts. `Random/Filter`: the filter with all its generators, `SReach` | induction over the life of a particle; loop invariant of the rebuild (first choice: the particle itself, further ones: copies); refinement of the seeded filter to that of C23 ff. with the invariant `Sound` (engine lively, variables the configured ones or zero); parity of the saved number by induction over the draws. `Random/CopiesDemo`: a filter that resamples, with copies that draw the same non-zero noise |
| C103 | `Random/Gmapping`: the own-matcher GMapping of C90/C91 with the random parts of C102 beside its particles; `draws` computes from the parts the noise, steps and samples of one message, which are then handed to the GMapping of C90. `gseeded_step`: one message is a message of that GMapping, for allowed numbers, and the parts stay sound; induction over the history with the reach bound of C91 for a noise bound of 14 sigmas (C101). `Random/GmappingRunner`: put into the runner of C97. Examples: `Random/GmappingDemo` (fifty messages), `Random/GmappingRunnerDemo` (a bag of two scans, properties file read by the model). |
| C104 | `Runner/Multires`, `Online/Multires`: the relation of C95 (a search whose queue may hold equal matches in any order) becomes a program by a `Chooser`: any function of the state and the message, with any state of its own, that answers with one of the answers of C95 and stops only if there is none, or (with assertions on) if the search can fail its assertion. Then the runner of C97 and the nodes of C99 with such a program; the extent of the map, which C95 leaves to the rule of growth, is a function of that rule's state | `serves_related`: what the program does is an execution of C95; induction over the messages with `launched_mr_total`; the credibilist node with assertions on by `launched_mr_never_fails`. `Runner/MultiresShipped`: `tiny <bag> -p config/common/bf_m3rsm.properties -p config/bag_runner/tiny_mit.properties …`, the files read by the model; example: a bag with two scans. `Online/MultiresShipped`: the credibilist node |
| C105 | `Random/Online`, `Random/OnlineShipped`: the nodes of C99 with the programs of C101 (seeded Monte Carlo) and C103 (GMapping with its generators) in place of those with given random numbers; the parameters read from the launch files (C98) | the launch file means what its text says in a properties file (`mit_same`, `common_node`), so the node runs the program of the runner; totality from C101, C103 and `node_goes_on`; what is sent from `node_run`; values of the maps from `seeded_gmapping_behaves` |
| C106 | `GraphSlam/Model`: `GraphSlamWorld` (`handle_observation`, `estimate_pose_delta`) around the pose graph of C51, the plain map of fixed size and scan insertion of C86/C96, and any matcher of C93; `Props` (history), `Frame` (displacement, moving the origin), `Total`, `Demo` | induction over the history from the end with an invariant (pose, last scan, motion since the last node, chain); `NodeTimes` determined by the odometry; trigonometry for the frame; success on the map that can be read everywhere carried over to the bounded raster by `Reads`; CE for the displaced refinement and for signed motion |
| C107 | `Float/Trig`: `msg2scan`, `trig_provider`, the cached and the raw provider with rounded operations (`Float/Single`: single precision for the two operations on message fields), libm by its accuracy | monotonicity of rounding bounds the angles, hence the error of each addition; the table's loop and the beams' compared step by step; `std::round` of the quotient; CE: angles are not exact to double precision |
| C108 | `Float/Beam`: `move_origin` rounded, with C107's providers, and C76's `world_to_cell` | error propagation; distance to grid lines |
| C109 | `Float/Track`: the observer's subtraction and the world's additions rounded | induction over the messages with an accumulated error; doubles on a lattice are closed under the operations; CE return |
| C110 | `GraphSlam/Node`: `main`, `init_graph_slam` and the observers of graph_demo.cpp around C106's world, C99's topic and correction publisher and C71's viewer; `NodeDemo`, `NodeClimb`: the parameters of the launch file; `Matcher/RoamReads`: which poses hill climbing tries | invariant over deliveries with one row per handled scan; injectivity of rigid transforms; evaluation of the parameter tables; induction over the rounds of the climb (C30, C100) bounds the tested poses, so the fixed map answers as an unlimited one |
| C111 | `Matcher/RoamAround`: which cells hill climbing, its fixed implementation, brute force and the drift detector read; `Whole/FixedRoam`: C96's two programs with C100's matchers; `Whole/FixedRoamDemo`: instances | induction over the rounds (a climb that leaves the region scores as the far pose does, and cannot climb on), then C96's correspondence of states with C100's growth of the area per message |
| C112 | `Matcher/Stay`: a scan that fits perfectly (PerfectFit), all matchers keep the pose; `Whole/Still`: one message, and the levels the cells show; `Whole/StillClear`: beams with a clear view; `Whole/StillLaunch`: the configured program; `Whole/StillDemo`: instance | no candidate scores strictly more than a perfect fit, so every loop keeps its first pose; invariant over the messages: no cell shows more than the level the first scan has put where its points are |
| C113 | `Whole/ColdStart`: GMapping (given answers, own matcher, configured) until the first step is reached, and the message that reaches it; `Random/ColdStart`: the configured one with its generators; `Random/ColdStartDemo`: instance | invariant: all particles at the odometry's pose with the same accumulated way (their rotation against the odometry is zero), equal weights, which never trigger resampling; for the first scan, induction over the particles |
| C114 | `Whole/GmStill` on the model `Whole/Gmapping`: what the loop over the particles makes of each one, zero odometry increments, normalisation, when no resampling is due | per message: a common factor for the resting particles, that factor times a score for the eager ones; induction over the history in closed form; the heaviest particle by `reports_heaviest`, unique; the launch by the invariant `Cold` of C113, which now says that at most one particle is without noise |
| C115 | `Whole/FirstScan`, `Whole/FirstScanDemo` on `Whole/GmappingOwn`, `Whole/GmappingLaunch` | a match on the empty map moves nothing and scores 0 or NaN (C59 on every candidate); the loop over the particles split at the first whose step is reached; normalisation; NaN weights are kept by every message (induction over the history); the launch by `Cold` of C113 |
| C116 | `Whole/GmOwnStill`, `Whole/GmOwnStillDemo` on `Whole/GmappingOwn`, `Whole/GmappingLaunch` | each message of the own matcher is a message of C114 with the answers given, unless an eager particle has no score (then NaN spreads by the normalisation and is kept, C115); induction over the history; from the launch by `Cold` (C113) and the match on the empty map (C115) |
| C117 | `Whole/GmLone` on `Whole/GmappingOwn`, `Whole/GmappingLaunch` | refinement: a particle filter with one marked particle simulates a plain scan matching loop written down as the specification, in both directions (it also stops on the same messages); one weight never calls for resampling; the begin by `Cold` (C113) and the match on the empty map (C115) |
| C118 | `Whole/GmPair` on `Particle/Model`, `Whole/GmappingOwn`, `Whole/GmappingLaunch` | the effective number of particles is at least one (C36), so one or two normalised or undefined weights never call for resampling; the weights are such after every scan (invariant of C35/C37); one message is then the same for all random numbers; induction over the history; converse: weights 1, 0, 0, …; in double (`Float/Two`): either the lighter weight is below 2^-49 and its square vanishes beside one, or the relative errors are outweighed by twice the product of the weights |
| C119 | `Whole/GmShare` on `Particle/Model`, `Whole/GmappingOwn`, `Whole/GmappingLaunch` | no resampling (C118), so a message multiplies the weights by the scores and divides by the sum; normalising in between changes no share, also if something is undefined or zero (case analysis on optional numbers); induction over the history; the pose by C55; in double (`Float/Share`): each scan multiplies and divides with one relative error each, the common sum cancels in the ratio |

## 5. Partial theorems and restated properties

No claim is partial at present. Where the wish one would write down first is false of the code, the property is stated as
what the code does, the false reading is named in `properties.jsonl`, and a counterexample theorem shows it false:

* **C14** `coarse_bounds_fine`: up to one comparison tolerance per level, for histories of valid observations and resets to
  known cells, and for the levels present from the start and the coarsest one. Each proviso is necessary (four
  counterexample theorems). `search_bounds_hold` (C15) inherits the provisos.
* **C49** `estimate_valid`: with the code's tolerant comparisons, for beams that are `Clear` of near-coincidences (any two
  abscissas or ordinates that are compared are equal or farther apart than the tolerance); `estimate_valid_exact` without
  that for exact comparisons. Within the tolerance the two differ (`near_coincidence_counterexample`).
* **C62** `occupied_share`: which part of the cell is measured is characterised exactly (`TakesBeyond`); it is not always the
  part beyond the obstacle, because `are_on_the_same_side` only compares signs of `x + y`.

## 6. Seeded faults

seeded/LOG.jsonl lists every wrong program tried: the definition, the edit, the claim it breaks, the theorems that failed.
Where a fault survived, the theorem added or tightened is named and the retest follows. The edits are made in a scratch
copy, one at a time, and the modules that depend on the definition are rebuilt.

## 7. Findings about the code

Each of these is a theorem (a counterexample or an exact characterisation); the claim is in brackets.

Geometry and maps
* Rectangles placed crosswise are reported as not overlapping; rectangles about 5e-8 apart trip the constructor's assertion
  inside `intersect` (C07). Zero-area rectangles are rasterised to the left-bottom cell only (C05, C34).
* The bounded lazily tiled map does not check coordinates: writes outside its extent change other cells or are undefined (C12).
* `world_to_cells`: after a corner hit the error is reset to zero and later cells are off the line; the absolute tolerance of
  1e-7 makes grids of about 0.1 mm skip cells (C54).
* Bounded plain and lazily tiled maps inherit a save/load that stores nothing; mean and GMapping cells lose their counters (C26).
* Multi-resolution map: an invalid observation lowers coarse bounds, levels inserted by growth are empty, unknown fine
  cells exceed their coarse bound, tolerances add up (C14).
* Area estimator: the estimate depends on the position of the origin; a static shift is fixed by the first cell ever
  estimated; a beam ending on the border is treated as ending inside; a zero-length beam on the line of a vertical edge
  trips an assertion (C49, C62).
* A scan margin not smaller than the number of points reads outside the scan (C17).

Matching
* `hcsm_fixed` increments its own configured limit (C32). Brute force never resets its base pose (C29). `is_prob_unknown`
  compares with NaN and never holds (C33).
* Frame alignment of hill climbing is computed and then dropped by a constructor (C89).
* GMapping's estimate remembers its last answer by the cell of the obstacle only: asked again about that cell it repeats the
  value for another obstacle position, another particle and a map updated since (C90).
* M3RSM: the queue's comparator is not a strict weak order; a translation step below 2^-52 never ends; degenerate windows
  have inadmissible bounds (C15). With averaging or affine cells the asserted bounding assumption can fail, and a scan without
  usable points always fails an assertion; the shipped build keeps assertions (C94): a message without usable readings stops
  the program (C95).
* Drift detector: drops every point in bins that tie with the fullest one and always the first point, scores the reduced scan
  with the weights of the full one, and can return a worse pose than the wrapped matcher (C63). With reciprocal weights the
  points left over are weighed with the weights of other points, by their positions in the shorter list (C93). `minor_direction` is NaN
  whenever a bin is empty (C64).

GMapping
* Copies of a resampled master keep its zero noise (C56). All particles share one map (C57). A NaN weight makes all weights
  NaN for good (C35). The window estimate's cache ignores the map and the observation (C59). Copies made by resampling copy the
  engine too: all copies of a particle are moved by the same noise, so they do not spread (C102).

Rounding
* For `are_equal` an infinity equals every number but not itself, `less` holds of a number and itself below 2, 0.3 is no
  multiple of 0.1, and clamping turns NaN into the upper end (C92).
* A draw close to one picks the first particle even if its weight is zero (C74). Points on decimal borders are put into the
  next cell (C76). Brute force tests one candidate more or less than the decimal window suggests, and does not end if the
  step vanishes (C77). Nearly horizontal walls give the index one past the end of the histogram (C78). Masses do not add up
  to exactly one (C79).

Configuration and command line
* Width and height are exchanged (C45). An included file overrides the including one; a circular include never ends (C44).
  Unsigned properties wrap silently; "False" is true (C60). Source frames with hyphens are misread (C61).
  Flags without values are lost without a report (C53). The launch provider does not see parameters of other types than
  text in `get_str`, and rejects unsigned numbers from 2^31 that the file provider accepts (C69). Keys of the shipped
  configuration and the key ".../typetype" do not match what the code reads (C72). The shipped configuration of GMapping and
  the experimental one of vinySLAM lack a required property: the program exits (C88). Brute force searches around the first
  odometry pose for ever (C88).

ROS nodes
* Nanoseconds are written without leading zeros in TUM trajectories (C58). Ranges that are NaN become occupied points (C40).
  A drop at the end of the bag ends the loop although later messages could be handled; a scan before the first transform
  raises an exception nobody catches (C47). The vinyX node subscribes the SLAM before the correction publisher, so
  corrections use the previous odometry (C48). The bag adapter replays the first map→odom transform with its old stamp (C67).
  Published paths have no orientation and a dummy pose is appended at shutdown (C68).

Files
* Poses and scans are dumped with six digits only; a truncated scan file or one with an infinite range makes the reader
  use an uninitialised flag (C83). The search space map shows the last angle's score, not the best (C82).
* The scan matching runner filters the scan and the matcher filters it again: with a skip rate above one the runner does not
  reproduce the matcher's result (C86).

Test-data generation
* Automatic alignment of text rasters is half a cell or a cell above the middle (C52). The laser scan generator trips an
  assertion when the robot stands in an occupied cell near the side it faces; `to_lsp` makes one beam more than asked
  unless the angle is the full circle (C65).

Code that does not compile: slams/graph/graph_slam_world.h and slams/vinyx/vinyx_world.h instantiate a non-template class as a
template. The latter is not modelled; the former is (C106), with the base class as it is now.
* Graph SLAM places the scan before at the negated odometry increment, which is a vector in the odometry frame, and matches at
  heading 0: the two scans are displaced unless the heading is a multiple of a full turn (C106).
