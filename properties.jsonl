{"id": "C01", "title": "World points are partitioned among grid cells", "statement": "For a grid of positive scale, the cell reported for a world point is the unique cell whose half-open world bounds [x·s,(x+1)·s)×[y·s,(y+1)·s) contain the point; the world centre reported for a cell is mapped back to that same cell and lies in the bounds reported for it.", "quantifier": "every positive scale, every world point, every cell coordinate (including negative ones)", "why_tests_cant": "Points, scales and negative coordinates are unbounded; tests sample a few cells and never the boundary of each.", "anchors": ["src/core/maps/regular_squares_grid.h: RegularSquaresGrid::world_to_cell, cell_to_world, world_cell_bounds"]}
{"id": "C02", "title": "External and internal cell coordinates are mutually inverse and has_cell is exact", "statement": "Translating an external coordinate into the storage coordinate and back is the identity in both directions, and has_cell is true of exactly width×height external coordinates, precisely those whose storage coordinate is inside [0,width)×[0,height).", "quantifier": "every origin, width, height and coordinate", "why_tests_cant": "Holds for all sizes/coordinates; an off-by-one only shows at the border of particular (odd/even) sizes.", "anchors": ["src/core/maps/regular_squares_grid.h: has_cell, has_internal_cell, internal2external, external2internal, origin"]}
{"id": "C03", "title": "Discrete segment rasterisation is a correct digital line", "statement": "Rasterising a segment between two cells terminates and yields a list that starts at the first cell, ends at the second, has exactly max(|dx|,|dy|)+1 cells, moves by one king step each time (one unit along the major axis), never repeats a cell, never deviates from the ideal line by more than half a cell along the minor axis and never leaves the rectangle spanned by the two cells.", "quantifier": "every pair of integer end cells (all octants, degenerate segments included)", "why_tests_cant": "Infinitely many segments; the error accumulator must stay bounded for arbitrarily long ones and the loop must terminate in all octants.", "anchors": ["src/core/geometry_discrete_primitives.h: DiscreteSegment2D, generate/gen_points"]}
{"id": "C04", "title": "Beam traversal connects the two end cells whatever rounding does", "statement": "The list of cells reported for a world segment always begins with the start point's cell, ends with the end point's cell, is connected (successive cells are king neighbours) and never leaves the rectangle spanned by the two cells, whatever the floating point comparisons and sums inside the traversal evaluate to; the traversal never emits more than a Manhattan-distance-bounded number of cells.", "quantifier": "every pair of end cells and every outcome of the floating point side decisions", "why_tests_cant": "Floating point rounding patterns cannot be enumerated; the guarantee has to hold for every possible sequence of comparison outcomes.", "anchors": ["src/core/maps/regular_squares_grid.h: RegularSquaresGrid::world_to_cells"]}
{"id": "C05", "title": "Area rasterisation enumerates each covered cell exactly once", "statement": "Iterating a region over a grid terminates and yields every cell of the covered index range exactly once; with include-border the cells are exactly those a point of the (positive-area) rectangle falls into; an infinite region yields exactly the whole grid; for a cell's own bounds without border exactly that cell is produced.", "quantifier": "every rectangle, grid scale and size", "why_tests_cant": "Rectangles range over a continuum; coverage and uniqueness must hold for every alignment with the grid lines.", "anchors": ["src/core/maps/grid_rasterization.h: GridRasterizedRectangle"]}
{"id": "C06", "title": "Rectangle splitting tiles the rectangle", "statement": "Splitting a rectangle horizontally, vertically or into four yields parts that cover exactly the original points, whose areas add up to the original area and whose interiors are disjoint; each part is contained in the original.", "quantifier": "every axis-aligned rectangle", "why_tests_cant": "A continuum of rectangles and points; branch-and-bound completeness rests on no point being lost for any of them.", "anchors": ["src/core/geometry_primitives.h: LightWeightRectangle::split_vert, split_horz, split4_evenly"]}
{"id": "C07", "title": "Rectangle intersection and overlap", "statement": "For every pair of rectangles whose coordinates are equal or farther apart than the comparison tolerance and which are not placed crosswise (neither contains a corner of the other although they overlap), the intersection contains exactly the points common to both, and the overlap ratio is the common area divided by the area of the rectangle, always within [0,1] and monotone in the other rectangle. (Without these provisos it is false of the code: a crosswise pair is reported as not overlapping, and rectangles within the tolerance of each other violate the constructor's assertion; both are proved.)", "quantifier": "all pairs of rectangles (coordinates arbitrary, both proviso-violating kinds shown by theorems)", "why_tests_cant": "Relative placements form an unbounded case split (cross-shaped placement is easily forgotten by tests).", "anchors": ["src/core/geometry_primitives.h: LightWeightRectangle::intersect, intersect_internal, overlap"]}
{"id": "C08", "title": "Growing plain map behaves as a total function from cells to values", "statement": "After any sequence of updates and resets at any coordinates, reading any coordinate of the auto-growing plain map gives exactly the value produced by the last operations on that coordinate (the unknown prototype if never written); growth never moves, loses or duplicates a cell and every written coordinate is inside the reported size.", "quantifier": "every history of update/reset operations at any integer coordinates in any order", "why_tests_cant": "Growth interleaves prepending and appending in both dimensions with rounding of a 1.2 growth factor; histories are unbounded.", "anchors": ["src/core/maps/plain_grid_map.h: UnboundedPlainGridMap::ensure_inside, update, reset, operator[]", "src/core/maps/grid_map.h"]}
{"id": "C09", "title": "Bounded plain map behaves as a partial function on its extent", "statement": "After any history of in-range updates and resets, reading an in-range coordinate gives the value of the last operations on it and no operation changes any other coordinate; reading outside the extent is rejected.", "quantifier": "every size, every history of in-range operations, every coordinate", "why_tests_cant": "Unbounded histories and sizes.", "anchors": ["src/core/maps/plain_grid_map.h: PlainGridMap"]}
{"id": "C10", "title": "Lazily tiled map behaves as a total function from cells to values", "statement": "After any sequence of updates and resets at any coordinates, reading any coordinate of the unbounded lazily tiled map gives exactly the value produced by the last operations on that coordinate, and the prototype elsewhere, although tiles and cells are shared lazily and the tile table is regrown.", "quantifier": "every history of update/reset operations at any integer coordinates", "why_tests_cant": "Sharing of tiles/cells makes a wrong un-share show up as a change somewhere else in the map, at a coordinate a test does not look at.", "anchors": ["src/core/maps/lazy_tiled_grid_map.h: LazyTiledGridMap, UnboundedLazyTiledGridMap, Tile"]}
{"id": "C11", "title": "Copies of lazily tiled maps are isolated", "statement": "After copying a lazily tiled map, any operation on one of the copies is never visible through any other copy, for any number of copies made at any time, and for any interleaving of operations and destructions of copies.", "quantifier": "every history of copy, destroy, update and reset operations over any number of map objects", "why_tests_cant": "Copy-on-write bugs depend on reference counts reached by particular copy/destroy/update histories.", "anchors": ["src/core/maps/lazy_tiled_grid_map.h: ensure_sole_owning, Tile copy semantics, operator[]"]}
{"id": "C12", "title": "Every access to a lazily tiled map: what it touches", "statement": "For every history of any accesses, in or out of the extent, an access to a lazily tiled map is either undefined (its tile does not exist) or it reads and changes exactly the coordinates that share its storage place and nothing else; distinct coordinates of the extent never share a place, so writes inside the extent change only their own coordinate. (The stronger wish, that writes outside the extent of the bounded variant change nothing else, is false of the code: they alias cells of the extent or are undefined; both are proved.)", "quantifier": "all histories of reads, writes and resets at arbitrary integer coordinates, all map sizes", "why_tests_cant": "The aliasing coordinate depends on the tile count; tests only touch the declared extent.", "anchors": ["src/core/maps/lazy_tiled_grid_map.h: LazyTiledGridMap::tile, operator[]"]}
{"id": "C13", "title": "Resolution levels of the rescalable map form a doubling pyramid and scale selection is exact", "statement": "The levels of a rescalable map always start with the original scale, each following finite level doubles the previous scale, the last level is a single infinite cell; requesting a scale activates the finest level that is not finer than requested, and temporarily rescaling restores the previously active level.", "quantifier": "every initial size, every requested scale, every history of updates that grow the map", "why_tests_cant": "Quantifies over all sizes, growth histories and requested scales.", "anchors": ["src/core/maps/rescalable_caching_grid_map.h: RescalableCachingGridMap, SafeRescalableMap"]}
{"id": "C14", "title": "Coarse map levels bound the fine ones", "statement": "After every history of valid observations and resets to known cells, during which levels may be added, for every known cell of the fine level: in each level present from the start and in the coarsest one the covering cell is known, and its obstacle impact is at least that of the fine cell, up to one comparison tolerance (1e-7) per level. None of the provisos can be dropped: after an invalid observation, on a level added later, for an unknown fine cell, or without the tolerance, a coarse cell may fall short of a fine one.", "quantifier": "every history of map updates, every level, every fine cell", "why_tests_cant": "Pruning soundness of multi-resolution matching depends on it after every possible history.", "anchors": ["src/core/scan_matchers/m3rsm_engine.h: M3RSMRescalableGridMap::update, reset, update_coarser_maps, estimate_max_spe_impact"]}
{"id": "C15", "title": "Multi-resolution scan matching returns a best candidate and always returns", "statement": "If the upper bounds of ranges of translations are admissible, then the pose returned by the multi-resolution matcher is a single translation of the lookup window with a rotation of the request, and it scores at least as high as every candidate, up to the slack of the bounds and the tolerance (1e-7) with which the queue compares scores (every rotation of every request, every corner and centre of the final subdivision of the window); the search always ends with a result, for every translation step above the comparison tolerance; the bounds computed from coarse map levels are admissible wherever the cells of the scan are known.", "quantifier": "every set of requests, every admissible bounding function, every order in which equally good matches leave the queue, every window, steps, every scan and map history", "why_tests_cant": "Candidate sets and bound functions are unbounded; pruning bugs lose only particular candidates.", "anchors": ["src/core/scan_matchers/m3rsm_engine.h: M3RSMEngine::add_match, add_scan_matching_request, next_best_match, branch, Match", "src/core/scan_matchers/bf_multi_res_scan_matcher.h: BruteForceMultiResolutionScanMatcher::process_scan"]}
{"id": "C16", "title": "Inserting a beam changes only the cells of the beam", "statement": "Adding one scan point to a map updates only cells on the discretised beam: the obstacle cell receives exactly one observation with the occupied estimate (if the point is an obstacle), each other beam cell receives exactly one observation, beams longer than the usable range change nothing, and every other cell is unchanged.", "quantifier": "every map, pose, scan point and estimator", "why_tests_cant": "A frame property over all cells; cannot be tested at every coordinate.", "anchors": ["src/core/maps/grid_map_scan_adders.h: WallDistanceBlurringScanAdder::handle_scan_point, GridMapScanAdder::append_scan"]}
{"id": "C17", "title": "Scan margins skip exactly the outer points", "statement": "Appending a scan of n points with margin m < n processes exactly the points with index in [m, n-1-m], each once and in order, and applies them as successive single-point insertions with the scan quality; an empty scan changes nothing. (For m >= n > 0 the loop bound is a negative number converted to an unsigned one, which is undefined: proved as a counterexample.)", "quantifier": "every scan length and margin", "why_tests_cant": "Index arithmetic with unsigned/real conversion; boundary cases depend on the relation of m and n.", "anchors": ["src/core/maps/grid_map_scan_adders.h: GridMapScanAdder::append_scan"]}
{"id": "C18", "title": "Affine-merge cells stay probabilities", "statement": "Starting from a probability, after any sequence of observations with probabilities and qualities in [0,1], the occupancy of an affine-merge (base) cell stays within [0,1], lies between its previous value and the observed one, and is unchanged by zero-quality or invalid observations.", "quantifier": "every sequence of observations", "why_tests_cant": "Sequences and real-valued qualities are unbounded.", "anchors": ["src/core/maps/naive_grid_cells.h: AffineProbabilityCell", "src/core/maps/grid_cell.h: GridCell"]}
{"id": "C19", "title": "Mean cells equal the mean of quality-weighted observations", "statement": "After any sequence of observations the occupancy of a mean cell equals the arithmetic mean of the quality-discounted observed probabilities, independent of observation order, and stays in [0,1].", "quantifier": "every non-empty sequence of observations and every permutation", "why_tests_cant": "Permutations and sequence lengths are unbounded.", "anchors": ["src/core/maps/naive_grid_cells.h: MeanProbabilityCell"]}
{"id": "C20", "title": "Belief masses remain a valid mass function", "statement": "Every belief-function cell always keeps non-negative masses that sum to one after normalisation, under any sequence of observations; conjunctive and disjunctive combination are commutative and associative and the vacuous belief is neutral for conjunctive combination.", "quantifier": "every sequence of observations with probability and quality in [0,1]", "why_tests_cant": "Real-valued masses under unbounded sequences.", "anchors": ["src/core/maps/transferable_belief_model.h: TBM, conjunctive, disjunctive, normalize, normalize_conflict", "src/core/maps/tbm_grid_cells.h"]}
{"id": "C21", "title": "Belief cells yield order-independent occupancy", "statement": "The belief-function cell (occupancy and belief) after a set of observations does not depend on their order, provided no two observations contradict each other with certainty; the occupancy always lies in [0,1] (or is reported invalid by the consistent kind exactly when there is no evidence).", "quantifier": "every sequence of observations and every permutation", "why_tests_cant": "Permutations and sequence lengths are unbounded.", "anchors": ["src/core/maps/tbm_grid_cells.h: BaseTBMCell, UnknownEvenOccupancyTBMCell, ConsistentOccupancyTBMCell"]}
{"id": "C22", "title": "Cell/observation discrepancy is a bounded dissimilarity", "statement": "For every cell kind the discrepancy between a reachable cell and a valid observation is within [0,1]; it is zero exactly for complete agreement: naive cells: equal probability; belief cells: both certain of the same; GMapping: same obstacle; credibilist cells: both certain of occupied. (Credibilist cells do not treat certain agreement on emptiness as agreement: the discrepancy is then 1, proved.)", "quantifier": "every cell state reachable by observations and every valid observation", "why_tests_cant": "Real-valued continuum of cell states.", "anchors": ["src/core/maps/grid_cell.h: GridCell::discrepancy", "src/core/maps/tbm_grid_cells.h", "src/slams/credibilist/grid_cell.h", "src/slams/gmapping/gmapping_grid_cell.h"]}
{"id": "C23", "title": "GMapping cells average the hits", "statement": "The GMapping cell's occupancy is the mean of the observed probabilities in which observations not above 1/2 count as zero (so it equals hits/observations when hits are certain), it is -1 iff the cell has never been validly observed, and its obstacle estimate is the mean of the obstacle positions of the hits.", "quantifier": "every sequence of observations", "why_tests_cant": "Unbounded observation sequences.", "anchors": ["src/slams/gmapping/gmapping_grid_cell.h: GmappingBaseCell"]}
{"id": "C24", "title": "Primitive serialisation round-trips", "statement": "Reading back any sequence of values written by the serializer, with the same sequence of types, returns the same values, bit for bit, and consumes exactly the bytes written.", "quantifier": "every sequence of writes of any supported primitive types and values, every preceding/following buffer content", "why_tests_cant": "All bit patterns and all sequences of field types.", "anchors": ["src/core/serialization.h: Serializer, Deserializer"]}
{"id": "C25", "title": "Map state save/load round-trips", "statement": "Loading the saved state of an auto-growing plain map into another map object of the same cell type makes the size, the origin, the scale and every occupancy read within the extent equal to those of the saved map, whatever the receiving map contained (outside the extent the receiver's own prototype is read), and consumes exactly the saved bytes.", "quantifier": "every map state reachable by any history, every receiving map", "why_tests_cant": "All map contents and sizes.", "anchors": ["src/core/maps/plain_grid_map.h: UnboundedPlainGridMap::save_state, load_state", "src/core/maps/grid_cell.h: serialize, deserialize"]}
{"id": "C26", "title": "Save/load is transparent for later updates", "statement": "After loading a saved auto-growing plain map, any further sequence of updates gives what it would have given on the saved map with every cell replaced by what loading restores of it; for plain, affine and belief cells that is the cell itself, so the readings are the same as on the saved map. (For mean and GMapping cells the counters are lost and later readings differ, and the other map types save nothing: proved as counterexamples.)", "quantifier": "every cell type, map type, history before and after the save", "why_tests_cant": "Requires comparing arbitrary continuations, not just immediate reads.", "anchors": ["src/core/maps/naive_grid_cells.h: MeanProbabilityCell", "src/slams/gmapping/gmapping_grid_cell.h", "src/core/maps/tbm_grid_cells.h", "src/core/maps/lazy_tiled_grid_map.h", "src/core/maps/rescalable_caching_grid_map.h: save_state, load_state"]}
{"id": "C27", "title": "Angle histogram accounting", "statement": "For any scan the histogram bin indices are in range, the bin counts add up to the number of consecutive point pairs, and a query for a scan point returns a positive count of the bin the pair at that index fell into.", "quantifier": "every scan and every number of bins", "why_tests_cant": "All scans; index arithmetic on angles at the extremes of the range.", "anchors": ["src/core/features/angle_histogram.h: AngleHistogram"]}
{"id": "C28", "title": "Enumeration scan matching returns the argmax", "statement": "The probability returned by the enumerating scan matcher is the maximum of the scores of all poses it tested, including the initial pose, the returned shift is that of the first tested pose attaining it, and observers see start, every tested pose, each improvement, and the end in this order.", "quantifier": "every pose enumerator, estimator and observer set", "why_tests_cant": "All enumerators and score functions, including adversarial ones.", "anchors": ["src/core/scan_matchers/pose_enumeration_scan_matcher.h: PoseEnumerationScanMatcher::process_scan"]}
{"id": "C29", "title": "Brute-force enumeration covers the search grid exactly once", "statement": "In every matching run of a brute-force enumerator the poses tested are every combination of x, y and angle values of the arithmetic grids, each exactly once, relative to the base pose of the session; in the first run that is the run's initial pose. (The base pose is never reset, so a later run searches around the first run's pose again: proved for every session, with a counterexample to the wish that it follow each run's initial pose.)", "quantifier": "every search range and step, every number of consecutive runs, every feedback sequence", "why_tests_cant": "State carried between runs only matters from the second run; ranges are unbounded.", "anchors": ["src/core/scan_matchers/brute_force_scan_matcher.h: BruteForcePoseEnumerator"]}
{"id": "C30", "title": "Hill-climbing enumeration terminates with a bounded number of evaluations and explores all axis neighbours", "statement": "Each hill-climbing round explores exactly the six single-axis neighbours of the pose that was best when the round began, the step halves exactly after a round without improvement, and the enumeration stops (after one further test) when the configured number of rounds failed; the returned score is at least that of a pose which none of its six neighbours at the finest step beats; if scores take finitely many values (as doubles do) every run ends, after a number of tests bounded by the failed rounds and the number of values.", "quantifier": "every accept/reject feedback sequence, every initial step", "why_tests_cant": "Feedback sequences are unbounded and chosen by the environment.", "anchors": ["src/core/scan_matchers/hill_climbing_scan_matcher.h: Distorsion1DPoseEnumerator, FailedRoundsLimitedPoseEnumerator"]}
{"id": "C31", "title": "Monte-Carlo enumeration is bounded and monotone in dispersion", "statement": "The Monte-Carlo enumeration tests at most the configured maximal number of poses, stops as soon as the allowed number of rejections accumulated at the current dispersion, and the sampling dispersion never grows: it is halved exactly when a pose is accepted after more than a third of the allowed rejections accumulated since the previous halving.", "quantifier": "every feedback sequence and every random stream", "why_tests_cant": "Random streams and feedback are unbounded.", "anchors": ["src/core/scan_matchers/monte_carlo_scan_matcher.h: GaussianPoseEnumerator"]}
{"id": "C32", "title": "Legacy hill climbing never worsens and ends in a local optimum; what it does to its limit", "statement": "The fixed hill-climbing matcher returns a pose whose score is never below the initial score and equals the score of the returned pose, which no single step of the configured size along an axis or of the angle improves (unless the limit is zero); every call leaves the configured limit raised by the number of improvements it made. (So the limit neither bounds the call nor survives it, contrary to its name: proved, with a counterexample.)", "quantifier": "every scoring function and initial pose", "why_tests_cant": "All scoring functions; the limit bug shows only after several calls.", "anchors": ["src/core/scan_matchers/hcsm_fixed.h: HillClimbingScanMatcher::process_scan"]}
{"id": "C33", "title": "Scan score is a weighted mean", "statement": "The scan probability is the weighted mean of the point probabilities with the point weights, hence within [0,1] whenever they are, undefined exactly if no usable point carries weight; the filtered scan consists of exactly the usable points (on the skip raster, occupied, in range, seen in an existing cell), in scan order; every weighting assigns each point of the filtered scan a defined non-negative weight, and with even weights the score is the arithmetic mean.", "quantifier": "every scan, pose, map and weighting", "why_tests_cant": "All scans and weights.", "anchors": ["src/core/scan_matchers/weighted_mean_point_probability_spe.h: WeightedMeanPointProbabilitySPE, EvenSPW, AngleHistogramReciprocalSPW, VinySlamSPW", "src/core/scan_matchers/grid_scan_matcher.h: ScanProbabilityEstimator"]}
{"id": "C34", "title": "Area observation estimates are consistent", "statement": "Over the same set of cells, the max estimate is the greatest impact and at least the mean estimate, which is at least the min; all (also the overlap-weighted one, whenever its overlaps are defined) are in [0,1] if cell impacts are; a point area gives the same estimate with every strategy; enlarging a point or a rectangle of positive area to a larger rectangle of positive area never decreases the max estimate.", "quantifier": "every set of cells, every impact function, every pair of nested areas", "why_tests_cant": "All maps and areas.", "anchors": ["src/core/scan_matchers/occupancy_observation_probability.h"]}
{"id": "C35", "title": "Particle weights are normalised", "statement": "After weight normalisation the weights sum to one and keep their ratios and nothing else about the particles changes, for every set of weights of non-zero total; through any history of scans the weights of a GMapping filter are a probability distribution, or all are NaN.", "quantifier": "every number of particles and every weights", "why_tests_cant": "Real-valued continuum and any particle count.", "anchors": ["src/core/particle_filter.h: ParticleFilter::normalize_weights"]}
{"id": "C36", "title": "Resampling picks only live particles and keeps the population size", "statement": "Resampling yields exactly as many indices as there are particles, each a valid index of a particle of positive weight, for normalised weights and samples in [0,1); uniform weights never trigger resampling; the effective sample size lies in [1,n].", "quantifier": "every number of particles, every normalised weights, every random samples", "why_tests_cant": "Random samples and weights are a continuum.", "anchors": ["src/core/particle_filter.h: UniformResamling, ParticleFilter::try_resample"]}
{"id": "C37", "title": "Exactly one master particle", "statement": "At any moment exactly one particle is the master, through any sequence of scans, resamplings and weight updates.", "quantifier": "every number of particles, every resampling outcome sequence", "why_tests_cant": "Unbounded sequences of resampling outcomes.", "anchors": ["src/slams/gmapping/gmapping_particle_filter.h: GmappingParticleFilter, GmappingParticleFactory", "src/slams/gmapping/gmapping_world.h"]}
{"id": "C38", "title": "World observers are notified of each update", "statement": "Each handled scan notifies every live pose observer exactly once per subscription, in subscription order, with the pose after the scan, and then every live map observer with the map after the scan (one insertion more, made at the reported pose); destroyed observers are never notified and nothing but a scan notifies anyone.", "quantifier": "every history of subscribe, destroy and handle events", "why_tests_cant": "Unbounded histories.", "anchors": ["src/core/states/world.h: World, WorldObservable", "src/core/states/laser_scan_grid_world.h: handle_sensor_data", "src/core/states/single_state_hypothesis_laser_scan_grid_world.h: handle_observation"]}
{"id": "C39", "title": "Odometry increments telescope", "statement": "The increments fed into a world add up to the last odometry pose minus the stored one (initially zero) for any number of scans; a world moves by that difference plus the matcher's corrections, hence with a no-action matcher it is exactly at the last odometry pose.", "quantifier": "every sequence of odometry poses", "why_tests_cant": "Unbounded sequences.", "anchors": ["src/ros/laser_scan_observer.h: LaserScanObserver::handle_transformed_msg", "src/core/states/robot_pose.h", "src/core/states/single_state_hypothesis_laser_scan_grid_world.h"]}
{"id": "C40", "title": "Scan message conversion", "statement": "Converting a range message yields one point for each usable range (in order), with angle min_angle+i·increment, flagged occupied iff the range is in [min,max) (a NaN range is kept and flagged occupied), and ranges outside are skipped or clipped exactly as configured.", "quantifier": "every message length and contents", "why_tests_cant": "All messages.", "anchors": ["src/ros/laser_scan_observer.h: handle_transformed_msg"]}
{"id": "C41", "title": "Rotated odometry of GMapping worlds preserves rigid motion", "statement": "A GMapping particle's pose is related to odometry by one fixed rigid transform while no scan corrections or noise occur, for any odometry sequence.", "quantifier": "every sequence of odometry increments and every initial pose", "why_tests_cant": "Unbounded sequences.", "anchors": ["src/slams/gmapping/gmapping_world.h: update_robot_pose"]}
{"id": "C42", "title": "Cached trigonometry equals direct trigonometry", "statement": "For every angle of the cached sequence (positive step) the cached provider returns sin/cos of base plus angle, and re-basing never mixes values of different bases. For every laser message the node accepts, with beams counter-clockwise and further apart than the tolerance of its angle check, the provider built for it serves every point of the scan for every base angle. For a message with clockwise beams (negative increment), or increment zero and a maximal angle not above the minimal one, the table is empty and every lookup reads outside it, though the message is accepted.", "quantifier": "every cache configuration, base-angle history, index and laser message", "why_tests_cant": "All configurations and histories.", "anchors": ["src/core/trigonometry_utils.h: CachedTrigonometryProvider", "src/ros/laser_scan_observer.h: trig_provider, msg2scan"]}
{"id": "C43", "title": "Scan point conversions and motion are isometric", "statement": "Moving a scan point into world coordinates by a pose is an isometry, polar/Cartesian conversions are inverse to each other and preserve range.", "quantifier": "every point and pose", "why_tests_cant": "Continuum.", "anchors": ["src/core/states/sensor_data.h: ScanPoint2D, LaserScan2D"]}
{"id": "C44", "title": "Property lookup precedence is well defined", "statement": "Whenever reading a stack of property files ends, a property reads as: the value set on the provider before; else the value given by the first text, in reading order with included texts before the text that includes them, which has an entry of the key (in one text the last entry counts); else the default. Reading a file ends exactly if it is not the start of an endless chain of includes; in particular circular includes never end.", "quantifier": "every file content, include structure, path rule, previous state and key", "why_tests_cant": "Unbounded files, include depths and histories; non-termination is not observable by a test.", "anchors": ["src/utils/properties_providers.h: MapPropertiesProvider, FilePropertiesProvider"]}
{"id": "C45", "title": "Map dimensions follow the configuration", "statement": "The number of cells of the map across x is the ceiling of the configured height over the configured scale and across y that of the configured width: the two are exchanged, so a square map is dimensioned as configured and any other one is turned. (Proved as it is, with a counterexample to the wish that width go with x.)", "quantifier": "every configuration", "why_tests_cant": "All configurations; a swap is invisible with square maps.", "anchors": ["src/utils/init_occupancy_mapping.h: init_grid_map_params"]}
{"id": "C46", "title": "Map dumps enumerate every cell once", "statement": "A dumped image has exactly width·height samples, row by row from the top, the sample of each cell is the scaled occupancy of that cell; published occupancy grids have one value per cell, row-major from the bottom, in {-1} ∪ [0,100].", "quantifier": "every map size, origin and content", "why_tests_cant": "All sizes and contents.", "anchors": ["src/utils/map_dumpers.h: GridMapToPgmDumber", "src/ros/occupancy_grid_publisher.h: OccupancyGridPublisher"]}
{"id": "C47", "title": "Bag messages are delivered in order", "statement": "The messages delivered with their transforms are an in-order subsequence of the messages of the topic and nothing is delivered twice; the loop ends for every bag; it ends only with no message left, with a message in front whose transform is not available, or after dropping a message that lies before the stored transforms; a message dropped is past recovery; and if no lookup fails other than for lack of later transforms and the transforms of the bag suffice for every message, every message is delivered. (At the end of the bag a drop ends the loop although later messages could be delivered: proved as a counterexample.)", "quantifier": "every bag content and transform availability history", "why_tests_cant": "All interleavings of messages and transforms.", "anchors": ["src/ros/bag_topic_with_transform.h: BagTopicWithTransform"]}
{"id": "C48", "title": "Published map→odom correction composes to the estimated pose", "statement": "When the correction publisher is subscribed to the scan topic before the SLAM (as in the single-hypothesis, GMapping nodes), composing the published map→odom transform with the odom→base transform of the message (height set to zero) yields the estimated map→base pose; subscribed after it (as in the vinyX node) the previous message's odometry is used instead and the composition is wrong. With asynchronous publishing every published transform is a complete stored one (the initial identity before the first), every stored one is sent before the next is stored, the sequence of published transforms never goes back in time and the two threads never deadlock, for every thread interleaving.", "quantifier": "every pose, transform and thread interleaving", "why_tests_cant": "Thread interleavings and continuum of poses.", "anchors": ["src/ros/pose_correction_tf_publisher.h: PoseCorrectionTfPublisher"]}
{"id": "C49", "title": "Area occupancy estimates are probabilities", "statement": "The occupancy estimated for a square cell and a beam has probability and quality in [0,1] whatever the comparison tolerance. For a beam of positive length that is clear of coincidences with the cell within the tolerance, no assertion fails and the estimate is invalid exactly when the beam is irrelevant: a free beam is relevant if it passes through the interior or ends on the boundary coming from outside, an occupied one if it ends in the interior without having started there or ends on the boundary coming from outside; beams along an edge line are first moved inwards by the shift. If the line across the beam at the obstacle meets the cell in a corner only, the whole cell counts as occupied when the corner is the one nearer to the sensor and as free when it is the farther one. (Not true: that the estimate depends only on the relative position of beam and cell; that a beam that merely touches gives none; that earlier calls have no influence; that beams of zero length are safe.)", "quantifier": "every cell rectangle and beam", "why_tests_cant": "Continuum of geometric configurations.", "anchors": ["src/core/maps/area_occupancy_estimator.h: AreaOccupancyEstimator"]}
{"id": "C50", "title": "Robot pose arithmetic", "statement": "Adding a pose delta and subtracting poses are inverse: base + (p - base) = p, and sequences of deltas accumulate independently of grouping; a delta is 'less' than a threshold iff each of its components is.", "quantifier": "every pose and delta sequence", "why_tests_cant": "Continuum and unbounded sequences.", "anchors": ["src/core/states/robot_pose.h: RobotPose, RobotPoseDelta"]}
{"id": "C51", "title": "Pose graph is a chain consistent with the poses", "statement": "After any sequence of node creations the pose graph has exactly one odometry edge between successive nodes, whose delta equals the difference of the node poses.", "quantifier": "every creation sequence", "why_tests_cant": "Unbounded sequences.", "anchors": ["src/slams/graph/pose_graph_map.h"]}
{"id": "C52", "title": "Ambient-free test maps: primitives rasterise with the declared size", "statement": "The cecum/free-space text primitives have the declared dimensions and every cell reported as free space is free; the patcher applies each non-blank character to exactly the corresponding cell and leaves other cells unchanged.", "quantifier": "every size, pattern and offset", "why_tests_cant": "All sizes.", "anchors": ["src/utils/data_generation/map_primitives.h", "src/utils/data_generation/grid_map_patcher.h"]}
{"id": "C53", "title": "Command line options are parsed by position-independent rules", "statement": "For every argument list of the bag runner the resulting arguments are those of an explicit grammar: positional arguments by position, options in any order, each recognised option consuming exactly its value, unknown flags reported. (A flag without a value or an option split by another flag is lost without a report and an unknown switch consumes the next positional argument: proved as counterexamples.)", "quantifier": "every argument list", "why_tests_cant": "All argument lists.", "anchors": ["src/ros/lslam2D_bag_runner.cpp: ProgramArgs", "src/ros/init_utils.h: tf_ignored_transforms"]}
{"id": "C54", "title": "A beam is rasterised to exactly the cells it runs through", "statement": "For every segment that is horizontal or vertical (also along a grid line), and for every other segment that meets no grid corner, the cells returned by world_to_cells are exactly the cells that contain a point of the segment, in the order in which the segment runs through them, none twice. (Through a corner, or within the absolute 1e-7 tolerance of one, the walk forgets its distance from the line and may return cells the segment does not touch.)", "quantifier": "every grid scale, every pair of end points (continuum), either direction of travel along each axis", "why_tests_cant": "continuum of end points; the failing inputs (corner hits) form a set random tests almost never draw, while the claim must hold for all the others", "anchors": ["src/core/maps/regular_squares_grid.h: RegularSquaresGrid::world_to_cells"]}
{"id": "C55", "title": "The particle filter reports its heaviest particle", "statement": "The pose and the map reported by the GMapping filter are those of a particle of maximal weight, the last one in the population among equally heavy ones.", "quantifier": "every reachable population with defined weights", "why_tests_cant": "Any population size, any weights.", "anchors": ["src/core/particle_filter.h: heaviest_particle", "src/slams/gmapping/gmapping_particle_filter.h: world"]}
{"id": "C56", "title": "Which particles the sampling noise is applied to", "statement": "At creation every particle but the master is subject to sampling noise; over a scan each particle comes from one before it and is subject to noise exactly if that one was and it is not itself the master; a particle subject to noise is moved by the sampled noise before it is matched and one that is not, the master in particular, only by the scan matcher's correction; through any history of resamplings. (So copies of a resampled master keep its exemption: the wish that exactly the master be exempt is false, proved by a reachable run.)", "quantifier": "every history of scans, resampling outcomes and random samples", "why_tests_cant": "Unbounded histories; the defect needs a master drawn twice.", "anchors": ["src/slams/gmapping/gmapping_world.h: mark_master, sample, handle_observation", "src/core/particle_filter.h: try_resample"]}
{"id": "C57", "title": "All particles share one map", "statement": "In every reachable state of the GMapping filter all particles refer to one and the same map object, so a scan inserted by one particle is seen in the map of each of them.", "quantifier": "every number of particles and every history", "why_tests_cant": "Sharing is invisible in single-particle tests and must hold through every resampling.", "anchors": ["src/slams/gmapping/gmapping_particle_filter.h: GmappingParticleFactory", "src/slams/gmapping/init_gmapping.h", "src/core/states/single_state_hypothesis_laser_scan_grid_world.h"]}
{"id": "C58", "title": "Dumped trajectory time stamps denote the pose's time", "statement": "The time stamp written for a pose in the TUM trajectory file reads back as the whole seconds plus the nanosecond count divided by ten to the number of its digits, which is the time of the pose exactly if the nanosecond count is zero or has nine digits. (The nanoseconds are written without leading zeros; the resulting order of poses can even be wrong: proved by a counterexample.)", "quantifier": "every time stamp", "why_tests_cant": "Only some nanosecond counts are affected.", "anchors": ["src/ros/robot_pose_observers.h: RobotPoseTumTrajectoryDumper::log_robot_pose"]}
{"id": "C59", "title": "GMapping's window estimate is the best agreement around the obstacle", "statement": "In every sequence of queries the estimate for an obstacle is the best agreement among the full cells of the window around its cell, on the map and for the observation of the first query of the unbroken run of queries for that cell; hence, as long as map and observation do not change, on the map and for the observation of that very query, also when answered from the cache. (Across a change the cached value is stale: proved by a counterexample.)", "quantifier": "every sequence of queries on every sequence of maps", "why_tests_cant": "A hidden cache makes the answer depend on the query history.", "anchors": ["src/slams/gmapping/gmapping_occupancy_observation_pe.h: GmappingOccupancyObservationPE"]}
{"id": "C60", "title": "Numeric properties are read as written", "statement": "An integer or boolean property has the value that its text denotes (leading white space, sign, digits; text after the digits is ignored), a missing one the default, and a text without a number or an integer that does not fit is an error and never another number; an unsigned property has the value its text denotes modulo 2^32, hence that value whenever it fits. A floating point property has the double nearest to the decimal number its text begins with (white space, sign, digits, fraction, exponent; what follows is ignored), and a text without a number or with one that does not fit a double is an error. (Negative and large unsigned numbers are silently wrapped, the text False counts as true, and 0,5 is read as 0: proved as counterexamples.)", "quantifier": "every property text and default", "why_tests_cant": "All texts.", "anchors": ["src/utils/properties_providers.h: get_int, get_uint, get_bool, get_dbl"]}
{"id": "C61", "title": "Exactly the listed transforms are ignored", "statement": "For every text of the ignore property, the transforms skipped while a bag is read are exactly those named by its entries: the parts between colons, each read as from-to around its first hyphen, entries without a hyphen naming nothing; every list of frame pairs without colons and without hyphens in the first name has a text that skips exactly them. (A source frame with a hyphen cannot be expressed: proved by a counterexample.)", "quantifier": "every list of frame pairs and every transform", "why_tests_cant": "All lists of names.", "anchors": ["src/ros/init_utils.h: tf_ignored_transforms", "src/ros/bag_topic_with_transform.h: should_skip_tf_transform"]}
{"id": "C62", "title": "Area based estimates are shares of the cell area", "statement": "For a free beam through a square cell the estimate has the empty cell's probability, and its quality is the empty cell's times the smaller of the two shares into which the beam divides the area of the cell; if the beam begins or ends inside, the quality is the one for unknown shares. For a beam that ends inside the cell with an obstacle the quality is that of an occupied cell and the probability the larger of the empty cell's and the share of one of the two parts into which the perpendicular through the end divides the cell: the part beyond the obstacle exactly when the corner that marks the measured part is beyond the end iff the beam's start and the corner are not on the same side of the line x+y=0 through the origin (or the cut has slope 1). (Not true: that it is always the part beyond the obstacle.)", "quantifier": "every square cell and beam", "why_tests_cant": "Continuum of geometric configurations (all positions and slopes of the beam, corners, degenerate cuts).", "anchors": ["src/core/maps/area_occupancy_estimator.h: AreaOccupancyEstimator::estimate_occupancy, compute_chunk_area, are_on_the_same_side"]}
{"id": "C63", "title": "Drift detector refines the wrapped matcher's answer only along the dominant direction", "statement": "Wrapping a scan matcher into the ambiguous-drift detector: processing a scan always ends. If no direction bin of the filtered scan holds at least 40% of its points, the wrapped matcher's shift and probability are returned unchanged. Otherwise the returned pose is the best, on the scan without the points of the dominant direction(s), among the wrapped matcher's pose and the six poses 5, 15 and 25 cm away from it along the middle of the first fullest bin (the wrapped pose wins ties and is kept if its score is undefined); it is never turned and never moved by more than 25 cm; the returned shift leads from the initial pose to it and the returned probability is the score of the whole filtered scan there (which may be lower than the wrapped matcher's).", "quantifier": "every scan, initial pose, wrapped-matcher answer and scoring function, scores undefined at any poses included", "why_tests_cant": "the branch taken and the pose selected depend on the histogram of an arbitrary scan and on an arbitrary score landscape; tests sample neither, and ties, empty scans and undefined scores are measure-zero inputs", "anchors": ["src/core/scan_matchers/connect_the_dots_ambiguous_drift_detector.h: ConnectTheDotsAmbiguousDriftDetector::process_scan", "src/core/scan_matchers/pose_enumerators.h: PolarCoordBruteForcePoseEnumerator"]}
{"id": "C64", "title": "Major and minor direction of a scan", "statement": "After an angle histogram was reset to a scan, the index of the fullest (emptiest) bin is the first bin of maximal (minimal) count; for every scan of at least two points the major direction is the mean of the directions of that bin's point pairs and lies inside the bin; the minor direction is likewise the mean of the first emptiest bin when no bin is empty, and is undefined (NaN) as soon as one is, in particular for every scan with no more points than bins.", "quantifier": "every histogram resolution, every earlier use of the histogram and every scan", "why_tests_cant": "quantifies over all scans, and the interesting cases (ties, empty bins, bin borders) are exactly those random scans avoid", "anchors": ["src/core/features/angle_histogram.h: AngleHistogram::max_i, min_i, mean_bin_angle, major_direction, minor_direction"]}
{"id": "C65", "title": "Generated laser scans show exactly the first occupied cell of every beam", "statement": "For a robot off the grid lines in a cell below the threshold, with beams that meet no grid corner, generating a laser scan from a map ends without a failed assertion, and the scan lists, beam by beam (angles -hsector + k*inc up to hsector, less than a full turn), nothing for a beam that meets no cell at or above the threshold, and otherwise one occupied point at the beam's angle which, seen from the robot's pose, is the middle of the part of the beam's line in the first such cell, ahead of the robot. For every input whatsoever, points of a scan that is generated at all lie in occupied cells. A scanner described by a field of view and a number of points has that many beams if it sees all around and one more otherwise. (A robot in an occupied cell may trip the generator's own assertion.)", "quantifier": "every map contents, scale, threshold, scanner, robot pose and number of beams; the last two claims for every input", "why_tests_cant": "quantifies over all maps and all real beam directions; the traversal, the cell intersections and the trigonometry have to agree on every one of them", "anchors": ["src/utils/data_generation/laser_scan_generator.h: LaserScanGenerator::laser_scan_2D, to_lsp, LaserScannerParams", "src/core/maps/regular_squares_grid.h: world_to_cells", "src/core/geometry_primitives.h: Rectangle::find_intersections"]}
{"id": "C66", "title": "Scanning a map and inserting the scan never contradicts the map", "statement": "Generate a laser scan from a map at a pose and insert it, at the same pose and without wall blurring, into any map: nothing fails; every cell told to be occupied is occupied in the source map, every cell told to be empty is free there, and the first occupied cell on every beam is told to be occupied. (Robot off the grid lines in a free cell, beams meeting no grid corner and showing no tie in the traversal, points within the usable range.)", "quantifier": "every source map, scale, threshold, pose, scanner, occupancy estimator and scan quality", "why_tests_cant": "the agreement is between three independent geometric algorithms (traversal, cell intersection, point transformation) for all real directions and all maps", "anchors": ["src/utils/data_generation/laser_scan_generator.h: LaserScanGenerator::laser_scan_2D", "src/core/maps/grid_map_scan_adders.h: WallDistanceBlurringScanAdder::handle_scan_point, GridMapScanAdder::append_scan", "src/core/states/sensor_data.h: ScanPoint2D::move_origin"]}
{"id": "C67", "title": "The bag adapter forwards transforms and pins the bag's own corrections", "statement": "After any history of messages handled by the bag adapter node, exactly as many transforms have been sent as were received, in the same order. Every transform other than one from the map frame to the odometry frame is sent unchanged; every map-to-odometry transform is replaced by the first one ever received, re-labelled from /provided_map to /map, so no map-to-odometry correction of the bag ever reaches the listeners. With every turn of the node's loop exactly one grid is published: the latest one received, in the frame provided_map.", "quantifier": "every finite sequence of transform messages (each with any number of transforms), grid messages and turns of the main loop; every configured pair of frame names", "why_tests_cant": "The claim is about every history of interleaved messages; a test replays one bag.", "anchors": ["src/ros/wg_pr2_bag_adapter.cpp: on_tf_msg", "src/ros/wg_pr2_bag_adapter.cpp: on_gt_grid", "src/ros/wg_pr2_bag_adapter.cpp: main"]}
{"id": "C68", "title": "The published path is the sequence of looked-up poses", "statement": "The k-th path message contains exactly the first k poses that were looked up successfully, in order, with their positions, stamps and frames, and it carries the stamp of its last pose and the map's frame; failed look-ups are retried and lose nothing. Only the very last message may end in an empty pose, if the node was shut down while waiting for one. Poses carry no orientation.", "quantifier": "every sequence of outcomes of transform look-ups and every point at which the node is shut down", "why_tests_cant": "Look-up failures and the shutdown point are decided by the environment; there are unboundedly many such schedules.", "anchors": ["src/ros/path_publisher.cpp: get_current_pose", "src/ros/path_publisher.cpp: main"]}
{"id": "C69", "title": "Launch files and property files configure alike", "statement": "A property given as text in a launch file (other than the reserved text <unset>) or not given at all has the same string, integer, double and boolean value, and fails alike, as if it had been read from a property file; a returned unsigned value is the one the file gives. Numbers and truth values given with their own type are read with that value when asked for in that type. Setting a property makes it read back and leaves others alone.", "quantifier": "every content of the parameter server, every property name, every default (below 2^31 for unsigned ones)", "why_tests_cant": "All texts, types and defaults are quantified over.", "anchors": ["src/ros/launch_properties_provider.h: LaunchPropertiesProvider", "src/utils/properties_providers.h: MapPropertiesProvider"]}
{"id": "C70", "title": "The console view draws the window cell by cell", "statement": "For every map, centre and window with non-negative extents the console view prints one line per row of cells from top to bottom and one character per column from left to right; the character of the centre's cell is C and occurs nowhere else, cells with occupancy above 0.75 are #, below 0.25 are ., the others ~.", "quantifier": "every map, cell size, centre and window extents", "why_tests_cant": "Off-by-one errors of the window appear for particular relations of extents to the cell size; all of them are covered only by proof.", "anchors": ["src/utils/console_view.h: show_grid_map"]}
{"id": "C71", "title": "The graph viewer shows the whole pose graph at a bounded rate", "statement": "Over every history of map updates each published message shows the pose graph as it was at one update, messages in the order of updates: one point per node at its position and one line per pair of successive nodes. No dangling node is touched, two messages are at least three seconds apart, and an update at least three seconds after the last message is always published.", "quantifier": "every sequence of node creations and updates, every monotone clock", "why_tests_cant": "Arbitrary histories and clocks.", "anchors": ["src/slams/graph/rviz_graph_viewer.h: RvizGraphViewer", "src/slams/graph/pose_graph_map.h: PoseGraphMap"]}
{"id": "C72", "title": "The SLAM is assembled exactly as configured", "statement": "For every configuration the single-hypothesis SLAM (and likewise the credibilist SLAM and GMapping) starts exactly if every property that selects a component names a known one and every numeric property that is needed reads as a number; the components and parameters it then uses are those named, with the stated default for each property that is absent. The map has coarser resolution levels exactly if the multi-resolution scan matcher is selected. Properties other than the known ones have no effect.", "quantifier": "every table of properties (all texts for all keys)", "why_tests_cant": "There are unboundedly many configurations, and a wrong key or default shows only where it is used.", "anchors": ["src/utils/init_scan_matching.h", "src/utils/init_occupancy_mapping.h", "src/utils/init_slam.h: init_1h_slam", "src/slams/gmapping/init_gmapping.h: init_gmapping", "src/slams/credibilist/init_slam.h: init_credibilist_slam"]}
{"id": "C73", "title": "Cell probabilities survive rounding", "statement": "With every arithmetic operation of the cells rounded to a nearest double, the occupancy probability of an affine cell, of a mean cell (ties to even) and of a GMapping cell (fewer than 2^53 observations, at least one of them valid) is a double in [0,1] after every history of observations with double probabilities and qualities in [0,1]. The affine value differs from the exact one by at most 5n·2^-54 and the mean value by at most 6n·2^-53 after n observations.", "quantifier": "every history of observations, every way of breaking ties (mean range: ties to even)", "why_tests_cant": "Rounding errors accumulate over unboundedly many observations and depend on all values; no finite set of runs covers them.", "anchors": ["src/core/maps/grid_cell.h", "src/core/maps/naive_grid_cells.h: AffineQualityMergeCell, MeanProbabilityCell", "src/slams/gmapping/gmapping_grid_cell.h: GmappingBaseCell"]}
{"id": "C74", "title": "Weights and resampling survive rounding", "statement": "With rounded arithmetic, normalising non-negative weights of which one is positive gives doubles in [0,1] whose sum differs from one by at most (n+1)·2^-52, and a draw below the rounded total of the weights picks a particle of positive weight, in particular every draw below 1-(n+1)·2^-51. The decision to resample is the exact one (2/Σw² < n) unless the two sides are within a relative (n+4)·2^-52 of each other. (Not true: that every draw below one does; a draw at or above the rounded total picks the first particle, even one of weight zero.)", "quantifier": "all lists of weights (up to 2^49 particles; 2^40 and Σw² ≥ 2^-500 for the decision), all draws, every tie-breaking", "why_tests_cant": "Depends on the rounding of all weights and on draws within a few ulps of one.", "anchors": ["src/core/particle_filter.h: UniformResamling, ParticleFilter::normalize_weights"]}
{"id": "C75", "title": "The scan score survives rounding", "statement": "With rounded arithmetic the weighted mean of the point probabilities of a scan, if any weight counts, is a double in [0,1], for all point probabilities and factors in [0,1] and non-negative weights. For n up to 2^49 points and normal weights it differs from the exact weighted mean by at most 7n·2^-53.", "quantifier": "every list of points with probability, weight and factor; every tie-breaking", "why_tests_cant": "Ratio of two accumulated sums, each rounded; a value above one could appear for any combination of points.", "anchors": ["src/core/scan_matchers/weighted_mean_point_probability_spe.h: estimate_scan_probability"]}
{"id": "C76", "title": "Coordinates survive rounding", "statement": "With rounded arithmetic the cell of a world point is the exact one, or its neighbour to the right (above) if the point is within a relative error of 2^-53 of that border; it is monotone in the point; the centre of every cell belongs to that cell for all indices up to 2^50 and normal cell sizes; neighbouring cells share their edge; and every point lies in the bounds of its cell up to 2^-52 relative. (Not true: that the cell is always the exact one: 0.9 lies in cell 9 of a 0.1 grid although it is left of its border.)", "quantifier": "every cell size, point and cell index in the stated range; every tie-breaking", "why_tests_cant": "Continuum of points; failures are within one ulp of borders.", "anchors": ["src/core/maps/regular_squares_grid.h: world_to_cell, cell_to_world, world_cell_bounds"]}
{"id": "C77", "title": "Brute-force search with rounded steps", "statement": "With rounded arithmetic the brute-force matcher tests the initial pose and then the product of three axes, each obtained by repeatedly adding the step to its start until the limit is passed (the last translation past the limit included, the first angle past it not). If the step exceeds half an ulp of the limits every axis is finite, each value is one step after the previous up to that error, and the number of values is that of the exact grid up to the accumulated error. If adding the step changes nothing the search never ends. (Not true: that exactly the exact grid is tested: one candidate more or less occurs for decimal steps.)", "quantifier": "every search window, step, score function, initial pose and tie-breaking", "why_tests_cant": "All windows and steps; termination is not testable.", "anchors": ["src/core/scan_matchers/brute_force_scan_matcher.h: BruteForcePoseEnumerator"]}
{"id": "C78", "title": "Histogram bins with rounded angles", "statement": "With rounded arithmetic and an arc cosine accurate to 2^-40, the angle between two successive scan points gets a bin of the histogram (1 to 2^20 bins) whenever the points have the same height or the line through them is inclined by more than 2^-24. That bin is the one of the exact direction of the computed coordinate differences up to 2^-20. (Not true without that: for nearly horizontal pairs of points at the wrong side the angle is exactly pi, its index is the number of bins, and the program reads past the end of the histogram.)", "quantifier": "all pairs of points, numbers of bins, tie-breakings and accurate arc cosines", "why_tests_cant": "The failing inputs are a set of tiny measure that sampling does not find.", "anchors": ["src/core/features/angle_histogram.h: AngleHistogram::hist_index, estimate_ox_based_angle"]}
{"id": "C79", "title": "Belief masses survive rounding", "statement": "With rounded arithmetic every belief cell (consistent, unknown-even, credibilist) has masses that are doubles in [0,1], conflict zero and a total within 2^-50 of one after every history of observations made of doubles in [0,1]; an occupancy that is shown has a probability in [0,1], and the unknown-even and credibilist cells always show one. (Not true: that the masses add up to exactly one.)", "quantifier": "every history of observations; every tie-breaking", "why_tests_cant": "Rounding errors accumulate; the sum occupied + unknown/2 could exceed one by an ulp for particular values only.", "anchors": ["src/core/maps/transferable_belief_model.h", "src/core/maps/tbm_grid_cells.h", "src/slams/credibilist/grid_cell.h"]}
{"id": "C80", "title": "The single-hypothesis SLAM as a whole", "statement": "Feed laser scan messages with odometry poses to a single-hypothesis world with any growing map, any of the cell kinds, any scan matcher, an occupancy estimator and scan qualities with values in [0,1]. After every history that is handled: the pose is the initial one moved by the odometry displacement and by the sum of the matcher's corrections; every cell holds what a list of observations in [0,1] makes of the prototype, a cell no beam ran through holds the prototype, every number the map shows is in [0,1] (or the -1 of an unknown GMapping cell), and every published grid value is between -1 and 100. Messages without NaN ranges, with consistent angles and more points than the margin are all handled while the area reached fits the integers of the traversal. (The consistent belief cell may show NaN once observed.)", "quantifier": "every history of messages, every scan matcher, both growing maps, every cell kind, every configuration with probabilities", "why_tests_cant": "Histories, scans, maps and matchers are unbounded; the claim composes all the parts.", "anchors": ["src/ros/laser_scan_observer.h: LaserScanObserver", "src/core/states/single_state_hypothesis_laser_scan_grid_world.h: handle_observation", "src/core/maps/grid_map_scan_adders.h: append_scan", "src/ros/occupancy_grid_publisher.h: on_map_update"]}
{"id": "C81", "title": "GMapping as a whole", "statement": "Feed laser scan messages with odometry poses to GMapping with any number n > 0 of particles, any growing map, any of the cell kinds, any random numbers and any scan matcher with non-negative (or undefined) probabilities. After every history that is handled: there are n particles, exactly one of them the master, the weights sum to one (or all are NaN), the pose reported is that of a heaviest particle; the map (one for all particles) holds exactly what the scans put there, each at the pose of the particle that put it there, with quality 1 and no margin, make of the prototype, in that order; its numbers are in [0,1] (or the -1 of an unknown GMapping cell); a cell no beam ran through from any of these poses holds the prototype. Messages without NaN ranges and with consistent angles are all handled while the area the particles can reach (bounded by the odometry, the noise and the corrections) fits the integers of the traversal.", "quantifier": "every history of messages, random numbers and matcher answers, every number of particles, both growing maps, every cell kind", "why_tests_cant": "Histories, random numbers, scans and maps are unbounded; resampling makes the set of possible states explode.", "anchors": ["src/slams/gmapping/gmapping_particle_filter.h: GmappingParticleFilter::handle_sensor_data", "src/slams/gmapping/gmapping_world.h: GmappingWorld::handle_observation", "src/slams/gmapping/init_gmapping.h: init_gmapping", "src/ros/laser_scan_observer.h: LaserScanObserver"]}
{"id": "C82", "title": "The search space map shows the scores", "statement": "Whatever a scan matcher notifies its observers of, the search space builder never fails, and each cell of its map shows the score of the last pose tested in that cell, cells in which no pose was tested the prior 0.5. An evaluation run with brute force ends, and every candidate of its window has a cell of its own, which shows the score of that position at the last of the tested angles. (It does not show the best score over the angles: proved as a counterexample.)", "quantifier": "every sequence of notifications, every score function, resolution, window and initial pose", "why_tests_cant": "The sequences of tested poses and the positions relative to the cell borders are unbounded.", "anchors": ["src/utils/pose2D_search_space_evaluator.cpp: ScanMatcherSearchSpaceBuilder, LastWriteWinsGridCell, run_evaluation"]}
{"id": "C83", "title": "Dumped poses and scans are read back", "statement": "The pose and scan files a bag run dumps are read back by the scan matching runner: as many points in the same order, with the same occupancy flags, and each coordinate, range and angle is the written one rounded to six significant decimal digits (relative error at most 5e-6, sign and zero kept). Reading a dump and dumping it again gives the same characters. A pose file with missing numbers gives zeros for them, an empty scan file an empty scan; a scan file with fewer points than announced, or with an infinite range, makes the reader use an uninitialised flag.", "quantifier": "every pose, every scan of fewer than 2^64 points, every double that is zero or normal", "why_tests_cant": "All doubles; carries, exponents and thresholds of the number format.", "anchors": ["src/core/states/sensor_data.h: operator<<(ostream, LaserScan2D), operator>>(istream, LaserScan2D)", "src/ros/lslam2D_bag_runner.cpp: dump_state", "src/utils/sm_runner.cpp: setup_pose2D, setup_laser_scan2D"]}
{"id": "C84", "title": "TUM trajectory files show the logged poses", "statement": "The trajectory file consists of exactly eight numbers for each logged pose, in the order of logging: the time (as written: seconds, point, nanoseconds without leading zeros), the position and height zero, and the quaternion of the rotation by the heading about the vertical axis, each rounded to six significant digits; nothing else is in the file.", "quantifier": "every sequence of logged poses and time stamps", "why_tests_cant": "Sequences and doubles are unbounded.", "anchors": ["src/ros/robot_pose_observers.h: RobotPoseTumTrajectoryDumper"]}
{"id": "C85", "title": "A scan matcher finds the pose with the best mean probability on the map", "statement": "On every map that can be read, a matching run never fails; the score of a pose is the weighted mean, over the usable points of the scan (chosen once, at the initial pose), of the probability the map shows in the cell the point falls into when the robot stands at that pose, whichever of the four point estimators is configured. The probability returned is the highest score of the tested poses, a number between zero and one, and the shift leads to the first tested pose that has it; the initial pose is tested. Without usable points the probability is NaN and the shift zero. Brute force ends and returns the best of its whole window; Monte Carlo ends after at most the configured number of attempts and its shift is bounded by attempts times the largest random shift; hill climbing ends on every map with finitely many different probabilities.", "quantifier": "every map, scan, initial pose, weighting, point estimator, pose enumerator and state of them", "why_tests_cant": "Maps, scans and poses are unbounded; termination of the search is a liveness property.", "anchors": ["src/core/scan_matchers/pose_enumeration_scan_matcher.h: PoseEnumerationScanMatcher::process_scan", "src/core/scan_matchers/weighted_mean_point_probability_spe.h", "src/core/scan_matchers/occupancy_observation_probability.h", "src/core/scan_matchers/observation_impact_estimators.h", "src/core/scan_matchers/grid_scan_matcher.h"]}
{"id": "C86", "title": "The scan matching runner reproduces the matcher", "statement": "Run on a dumped scan, map and pose, the scan matching runner reports the probability and shift the configured matcher gives for them, although it filters the scan before handing it to the matcher, which filters it again: for every skip rate of zero or one. With a larger skip rate the points are thinned out twice and the result differs (proved as a counterexample).", "quantifier": "every map, scan, pose, matcher, weighting and estimator", "why_tests_cant": "Idempotence of filtering and of the weighting's state must hold for all scans and histories.", "anchors": ["src/utils/sm_runner.cpp: main", "src/core/scan_matchers/grid_scan_matcher.h: filter_scan", "src/core/scan_matchers/weighted_mean_point_probability_spe.h: filter_scan"]}
{"id": "C87", "title": "The SLAM with its own scan matcher", "statement": "The single-hypothesis SLAM, matching each scan on the map it has built so far: after any history, a scan enters the map at the pose that, of the tested poses (the odometry's first), has the highest weighted mean of the probabilities the map shows where the usable points fall; with the odometry's pose if no point is usable. All that holds for arbitrary matchers (C80: pose, map, published grid) holds for this program. With Monte Carlo matching and bounded random shifts it handles every history of well-formed messages without failing an assertion, as long as the reached area fits the integers; hill climbing always ends, on every map the program can build.", "quantifier": "every history of messages, kind of cell, impact estimator, point estimator, weighting, map implementation and enumerator; every stream of random numbers", "why_tests_cant": "The map fed back into the matcher depends on the whole history; termination and absence of failures concern all histories.", "anchors": ["src/core/states/single_state_hypothesis_laser_scan_grid_world.h: handle_observation", "src/core/scan_matchers/pose_enumeration_scan_matcher.h: process_scan", "src/core/scan_matchers/observation_impact_estimators.h", "src/core/scan_matchers/monte_carlo_scan_matcher.h", "src/core/scan_matchers/hill_climbing_scan_matcher.h"]}
{"id": "C88", "title": "From the configuration file to the running SLAM", "statement": "Every accepted configuration with a growing map and probabilities and qualities in [0, 1] gives a program with exactly the configured cells, scale, filter, estimators, qualities and matcher, an empty map and the robot at the origin, and whatever messages it has handled, its map shows probabilities only and each pose is the best of the tested ones on the map so far. With Monte Carlo matching it handles all histories within the integers; with hill climbing each matching ends; with brute force each message is matched on the grid around the odometry pose of the first message, not around the current one. The shipped configurations of TinySLAM and vinySLAM, read from the texts of the files with any fair rounding of the numbers, are such configurations. The shipped experimental configuration of vinySLAM and that of GMapping do not start.", "quantifier": "every property table, rounding, random stream and history of messages; the shipped files as they are", "why_tests_cant": "A test runs one configuration on one history; that the composition of reading, assembling and running is sound concerns all configurations and histories.", "anchors": ["src/utils/init_slam.h: init_1h_slam", "src/utils/init_scan_matching.h", "src/utils/init_occupancy_mapping.h", "src/utils/properties_providers.h", "src/ros/lslam2D_bag_runner.cpp", "config/slams", "config/bag_runner", "config/common"]}
{"id": "C89", "title": "Frame alignment of hill climbing has no effect", "statement": "Switching on the frame alignment of the hill climbing matcher changes neither the poses it tests, nor their order, nor the correction and probability it reports, for any scan, map and earlier history; it never fails either. (A user expects the steps to follow the main direction of the walls: for a wall seen at a right angle the direction is found, but the steps still go along the x axis.)", "quantifier": "every scan, map, pose, scoring configuration and state left by earlier scans", "why_tests_cant": "Equality of two matchers on all scans and maps.", "anchors": ["src/core/scan_matchers/hill_climbing_scan_matcher.h: HillClimbingScanMatcher, prepare_lookup, FailedRoundsLimitedPoseEnumerator", "src/core/features/angle_histogram.h: major_direction", "src/utils/init_scan_matching.h: init_hill_climbing_sm"]}
{"id": "C90", "title": "GMapping with its own scan matcher", "statement": "The complete GMapping (messages in, particles and map out, with the shipped matcher instead of given answers): each particle that has moved far enough is placed at the first of the tested poses with the highest score on the map as the earlier particles left it, where the tested poses are those of hill climbing started at the particle's pose after motion and noise, and a score is the weighted mean of the agreement of each usable obstacle with the cells of the window around it, in [0, 1]; an obstacle in the same cell as the one asked about before gets that one's value, which may come from an earlier state of the map. Without usable obstacles the pose is kept. Hence every execution is one of C81: the map is the log of inserted scans, one master, normalised weights. A match never leads to a pose from which nothing is seen near the known map, and with scores rounded to finitely many values every search ends and every history within the integers is handled. (Stronger reading that fails: a score is a function of scan, pose and map.)", "quantifier": "every configuration of the matcher, history of messages, noise and resampling numbers", "why_tests_cant": "The matcher carries state across particles and messages; that every search ends and every particle is where its match says concerns all histories.", "anchors": ["src/slams/gmapping/init_gmapping.h: init_gmapping, init_gmapping_prob_estimator", "src/slams/gmapping/gmapping_occupancy_observation_pe.h: GmappingOccupancyObservationPE::probability", "src/slams/gmapping/gmapping_world.h: handle_observation", "src/slams/gmapping/gmapping_particle_filter.h: handle_sensor_data", "src/core/scan_matchers/hill_climbing_scan_matcher.h", "src/core/scan_matchers/pose_enumeration_scan_matcher.h: process_scan"]}
{"id": "C91", "title": "GMapping from its configuration", "statement": "If the properties of GMapping are accepted, the numbers make sense (cells of positive size, probabilities and qualities in [0, 1]) and at least one particle is configured, the program starts, with exactly the configured number of particles at the origin on one empty growing map, the configured cell size, filter, blur, range, estimators and weighting, hill climbing with the built-in parameters (6 failures, steps of 0.1), the fullness threshold and the window size (the latter under its misspelt key), and nothing remembered. Whatever messages it has handled since: the number of particles is unchanged, exactly one is the master, every cell shows a probability or the -1 of unknown ones, the map is the log of the inserted scans, and each particle that moved far enough is at its best match. With finitely many rounded scores it handles every history within the integers. With no particles configured it does not start.", "quantifier": "every property table, every drawing of random numbers, every rounding of scores within [0, 1], every history of messages", "why_tests_cant": "A test starts one configuration and plays one history; that what is configured is what runs, and that nothing goes wrong later, concerns all of them.", "anchors": ["src/slams/gmapping/init_gmapping.h: init_gmapping", "src/slams/gmapping/gmapping_particle_filter.h: GmappingParticleFilter", "src/slams/gmapping/gmapping_world.h", "src/utils/init_scan_matching.h", "src/ros/lslam2D_bag_runner.cpp"]}
{"id": "C92", "title": "Comparing doubles with a tolerance", "statement": "are_equal(a, b) of finite doubles is true when they are within (1 - 2^-50)·10^-7 and false when they are not within (1 + 2^-50)·10^-7 of each other, relative to max(1, |a|, |b|), overflow included; it is symmetric and reflexive, not transitive. An infinity is equal to every number and to the opposite infinity but not to itself; NaN is equal to nothing. less(a, b) is true if a < b and implies a < b + 2^-51; beyond 4 it is exact, below 2 every number is less than itself. less_or_equal(a, b) is true if a <= b and implies a <= b up to the tolerance for finite numbers; an infinity of either sign is below every number. So the check of scores accepts infinities. bound_value gives the nearest value of the interval, the upper end for NaN. is_multiple_of recognises exact multiples, everything from a quotient of 2·10^7 on, and nothing for a zero factor (but 0.3 is not a multiple of 0.1).", "quantifier": "all doubles including infinities and NaN, every rounding to nearest", "why_tests_cant": "2^128 pairs of doubles; the boundaries of the tolerance, overflow and special values are where tests rarely look.", "anchors": ["src/core/math_utils.h: are_equal, less, less_or_equal, are_ordered, are_strictly_ordered, bound_value, is_multiple_of", "src/core/scan_matchers/grid_scan_matcher.h: is_probality_bounded"]}
{"id": "C93", "title": "The single-hypothesis SLAM with any scan matcher", "statement": "The SLAM started from a configuration has the configured matcher (enumerating, idle, fixed hill climbing), with the drift detector around it exactly if asked for. After every history of messages, with any of them, every cell shows a probability; every message asks the matcher once, at the pose the odometry predicts on the map so far, moves the robot by its answer and enters the scan there with the quality for corrected poses exactly if the answer is not zero. With the idle matcher the robot moves exactly as the odometry and all scans enter as uncorrected. With the fixed hill climbing the pose is reached by n strict improvements of the mean probability and, unless its limit has become zero, no neighbouring pose one centimetre or half a degree away is better; the limit grows by n; every matching ends. With the drift detector the robot is where the wrapped matcher says unless 40% of the usable points follow one direction; then it is at the best of seven poses along that direction, judged by the points off it, at most 25 cm away and turned as the wrapped matcher says. With the idle or Monte Carlo matcher, wrapped or not, no history of messages the program is ready for makes it fail.", "quantifier": "all accepted configurations with sensible numbers, all histories of messages, all random draws", "why_tests_cant": "The properties hold in every state reachable by any history of messages, for all matchers and their nesting; tests run a few scans with one matcher.", "anchors": ["src/utils/init_scan_matching.h: init_scan_matcher", "src/core/scan_matchers/hcsm_fixed.h: HillClimbingSMFixed", "src/core/scan_matchers/no_action_scan_matcher.h: NoActionScanMatcher", "src/core/scan_matchers/connect_the_dots_ambiguous_drift_detector.h: ConnectTheDotsAmbiguousDriftDetector", "src/core/states/single_state_hypothesis_laser_scan_grid_world.h: handle_observation"]}
{"id": "C94", "title": "The bounding assumption of the multi-resolution search", "statement": "While the multi-resolution matcher narrows a range of translations it asserts that the bound of each part exceeds the bound of the whole by at most 1e-5, and the shipped build keeps assertions. If unknown cells have no more impact than any other cell — as with the credibilist belief cells — the assertion never fails: for every map of at most 101 initial levels made by valid observations, every scan of usable points and every window that fits into a cell of the coarsest initial finite level, in every state the search can get to. With averaging cells, whose unknown value is one half, it does fail: there is a map of three observations and a scan of one point for which the search cannot go on whatever it takes from its queue. For a scan no point of which is usable every score is NaN, all matches stay in the queue and an assertion fails whichever is taken.", "quantifier": "all histories of valid observations and resets, all scans, windows, steps, tolerances of the queue, all states of the search", "why_tests_cant": "The assumption concerns all pairs of nested ranges over all maps; a test sees the ranges of a few searches on one map.", "anchors": ["src/core/scan_matchers/m3rsm_engine.h: M3RSMEngine::branch, Match, add_match, next_best_match", "src/core/scan_matchers/bf_multi_res_scan_matcher.h: process_scan", "src/core/maps/rescalable_caching_grid_map.h: rescale", "src/slams/credibilist/grid_cell.h: CredibilistCell", "CMakeLists.txt"]}
{"id": "C95", "title": "The whole SLAM with the multi-resolution matcher", "statement": "A single-hypothesis or credibilist SLAM configured with the multi-resolution matcher (estimator `max`, no drift detector, a growing map) starts with everything as configured: the score and the coarser levels use the same impact estimator, and the map has the least number of levels that its size needs. For every message of every history: the matcher is asked once, at the pose predicted by the odometry, on the map so far; its answer is within the configured window and a multiple of the angular step; the probability reported is the weighted mean probability of the cells of the finest map in which the usable points are, and no candidate the configuration asks for beats it by more than 1e-7 per level and the slack of the queue, provided the points of that candidate are in known cells (with credibilist cells: always) and the window fits the coarsest initial level (true for windows up to a quarter of the map's extent); the robot moves by the answer and the scan enters the map at the new pose with the quality of corrected poses exactly if the answer is not zero. Every number in the map is a probability. Every search ends. Every history of messages with a usable reading each can be got over, whatever the queue's order among equal matches; a message without usable reading never can. With the credibilist SLAM no assertion of the search ever fails.", "quantifier": "all accepted configurations with sensible numbers, all histories of messages, all orders of equal matches in the queue, all rules by which the map grows", "why_tests_cant": "The order in which a heap of nearly equal doubles is taken is not determined by the program text; the claim covers all orders, all maps reachable by any history and all configurations.", "anchors": ["src/core/scan_matchers/bf_multi_res_scan_matcher.h: process_scan", "src/core/scan_matchers/m3rsm_engine.h: M3RSMEngine, M3RSMRescalableGridMap", "src/core/maps/rescalable_caching_grid_map.h", "src/core/states/single_state_hypothesis_laser_scan_grid_world.h: handle_observation", "src/utils/init_scan_matching.h: init_bf_m3rsm", "src/utils/init_occupancy_mapping.h: create_grid_map", "src/slams/credibilist/init_slam.h", "config/common/bf_m3rsm.properties"]}
{"id": "C96", "title": "Maps of fixed size: as good as growing ones, or a stop", "statement": "A single-hypothesis SLAM on a plain or lazily tiled map of fixed size behaves as the one on the growing map of the same family while everything stays inside: if the odometry stays within B of the origin, ranges are at most R, the matcher looks and moves at most b away per message, and after n messages n*b+B+R is within N cells where the map has at least 2N+1 cells along each axis, then both handle all n messages and end with the same pose, the same history of the scan adder, the same weighting and matcher state, and the same cell values everywhere inside, and the growing map has learnt nothing outside. A plain map of fixed size never gives a different result: whatever the matcher, if it handles a history whose scan points, seen from the poses the odometry predicts, are inside, then the growing map handles it too, with the same result. It stops at an assertion as soon as a used beam has a cell outside the map: a message that is handled has all used beams, from the robot to the end, inside. The same holds of a SLAM started from its configuration with `plain` or `lazy_tiled` maps.", "quantifier": "all sizes of map, all histories of messages, all matchers with the stated reach (idle, Monte Carlo, with or without drift detector; for the success direction all but the multi-resolution matcher), all configurations with sensible numbers", "why_tests_cant": "A test run shows one trajectory in one map; the equivalence must hold for every history, size, cell model and random sequence of the matcher, and the stop for every place where a beam can leave.", "anchors": ["src/core/maps/plain_grid_map.h: PlainGridMap", "src/core/maps/lazy_tiled_grid_map.h: LazyTiledGridMap", "src/core/maps/regular_squares_grid.h: has_cell, world_to_cells", "src/utils/init_occupancy_mapping.h: create_grid_map", "src/core/states/single_state_hypothesis_laser_scan_grid_world.h: handle_observation"]}
{"id": "C97", "title": "The bag runner as a whole", "statement": "For every command line, set of files and bag: without exactly two positional arguments the runner prints its usage and exits with -1, for an unknown SLAM type it says so and exits with 0, and in both cases runs nothing. Otherwise it ends normally exactly if the reader of the bag comes to the end without an exception and SLAM handles every message handed out (and has a pose and a map when they are asked for); then the trajectory file holds one line per handled message, in order, with the message's stamp and the pose after it, the map file is the image of the map after the last message, every other file named with -t is empty, and no other file is touched. A run that is aborted writes no map. -v changes neither a file nor the exit status. The properties used are those of the -p files in order, unless one of them is also named as a trajectory file, which is emptied when the option is read. Both output files can be read back. With a single-hypothesis SLAM (growing map or fixed map large enough; idle or Monte Carlo matcher, with or without drift detector) or GMapping, sensible properties, transforms that suffice and scans and odometry within bounds, the run does end normally with every scan of the bag handled; every pixel shows a probability or an unobserved cell; with the idle matcher the trajectory is the odometry. In particular `tiny <bag> -t <traj> -m <map> -p config/bag_runner/tiny_mit.properties` with the shipped files does so.", "quantifier": "all command lines, files and their contents, bags (any messages on any topics in any order), behaviours of the transform library, SLAMs behind the interface, and for the totality part all configurations with sensible numbers and all random sequences within bounds", "why_tests_cant": "A test can start the program on a few bags; that nothing else is written, that no line is lost or doubled, and that no bag within bounds aborts the run must hold for all bags, command lines and random numbers.", "anchors": ["src/ros/lslam2D_bag_runner.cpp: main, ProgramArgs::init, run_slam, dump_map_image", "src/ros/bag_topic_with_transform.h: BagTopicWithTransform", "src/ros/robot_pose_observers.h: RobotPoseTumTrajectoryDumper", "src/ros/init_utils.h", "src/utils/properties_providers.h: FilePropertiesProvider", "config/bag_runner/tiny_mit.properties"]}
{"id": "C98", "title": "The SLAM that a launch file configures", "statement": "For every launch file and properties file that give the properties asked for the same meaning (both lack it; the same text; or the launch file has a typed integer, number or truth value that the text denotes; unsigned integers below 2^31), the single-hypothesis SLAM, the credibilist SLAM and GMapping that the online nodes make from the launch parameters are those that the bag runner makes from the file, or both fail. The single-hypothesis node uses the properties of the file named by slam/config first and those of the launch file for names the file lacks, in whatever order the file's properties are enumerated; without slam/config those of the launch file. So launch/1h_config_common.launch runs vinySLAM as config/slams/viny_slam_base.properties describes it, launch/gmapping_mit_run.launch runs GMapping with 20 particles on a 128 m map, and launch/credibilist_mit_run.launch the credibilist SLAM on a 100 m map. launch/gmapping_wg_pr2_run.launch does not say how scans are scored: its node does not start.", "quantifier": "all parameter servers, properties files, enumerations of a file's properties, conversions of numbers (for the shipped files: every rounding to nearest)", "why_tests_cant": "parameters have four possible types for every property and the combinations of two sources are unlimited", "anchors": ["src/ros/single_hypoth_slam_node.cpp:init_properties_provider", "src/ros/launch_properties_provider.h:LaunchPropertiesProvider", "src/utils/properties_providers.h:PropertiesProvider", "src/utils/init_slam.h:init_1h_slam", "src/slams/credibilist/init_slam.h:init_credibilist_slam", "src/slams/gmapping/init_gmapping.h:init_gmapping", "src/slams/gmapping/gmapping.cpp:main", "src/slams/credibilist/slam.cpp:main", "launch/1h_config_common.launch", "launch/gmapping_mit_run.launch", "launch/credibilist_mit_run.launch", "launch/gmapping_wg_pr2_run.launch"]}
{"id": "C99", "title": "The online nodes as a whole", "statement": "For every SLAM, every setting of frames and rates and every sequence of delivered scans: the scans whose transform to the odometry frame is known are handled in order, each exactly once, the others change nothing at all; the node goes on as long as the SLAM copes with the scans. For each handled scan it sends the correction from the map frame to the odometry frame, which chained with the (planar) odometry of that scan gives exactly the SLAM's pose; then that pose as a transform of its own (GMapping: stamped with the scan's time); then the map of that moment if and only if the publishing interval has passed since the last map was sent. The poses sent are the trajectory that the bag runner writes for the same data. With the single-hypothesis SLAM made from the launch parameters nothing aborts the node as long as poses and ranges stay within the representable cells, and every map sent has cells -1 or 0..100; if the odometry is exact and the matcher never corrects, every correction is the identity. The node of launch/1h_config_common.launch runs vinySLAM, listens to /base_scan, and publishes in the frames map, odom_combined and robot_pose every 5 seconds.", "quantifier": "all parameter servers, SLAMs, sequences of scans, transforms that are known or not, clocks, random shifts", "why_tests_cant": "scans arrive in unlimited numbers, with any subset of transforms missing and at any times; a test node sees one bag", "anchors": ["src/ros/single_hypoth_slam_node.cpp:main", "src/slams/credibilist/slam.cpp:main", "src/slams/gmapping/gmapping.cpp:main", "src/ros/init_utils.h", "src/ros/topic_with_transform.h:TopicWithTransform", "src/ros/laser_scan_observer.h:LaserScanObserver", "src/ros/pose_correction_tf_publisher.h:PoseCorrectionTfPublisher", "src/ros/robot_pose_observers.h", "src/ros/occupancy_grid_publisher.h:OccupancyGridPublisher", "src/core/states/world.h:WorldPoseObservable", "launch/1h_config_common.launch"]}
{"id": "C100", "title": "No matcher makes the SLAM stuck or lets the robot run away", "statement": "For every scan matcher the single-hypothesis SLAM can be configured with except the multi-resolution one (idle, Monte Carlo, brute force, both hill climbers; with or without the drift detector) and every finite history of well-formed messages (no NaN, angles that fit the number of ranges, ranges up to R, odometry moving by at most S per message): every matching ends, no message makes the program fail, and the pose stays within a bound that grows by a fixed amount per message - the odometry's stride, the matcher's own reach (one step for the hill climbers, the grid for brute force, all drawn shifts for Monte Carlo, a quarter of a metre more with the drift detector) and a few ranges - as long as that bound stays within the cells the line traversal copes with. The hill climbers need this in particular: they climb as long as the probability rises, and end because the map shows finitely many different values and one and the same value outside of what was observed. (They need cells whose impact does not depend on the point, so not GMapping's.) The result does not depend on how many iterations are allowed, once these suffice. Hence: the bag runner with any such configuration ends normally with one trajectory entry per scan of a bag that can be followed; the single-hypothesis node and the credibilist node handle every delivered scan whose transform is known; and the credibilist node of launch/credibilist_mit_run.launch (hill climbing, credibilist cells of about 5 cm) listens to /base_scan, sends for every such scan the correction that composes with the odometry to its pose, and sends maps whose values are all between 0 and 100.", "quantifier": "all configurations of the single-hypothesis and the credibilist SLAM with another matcher than the multi-resolution one, all histories of well-formed messages, all random shifts, all bags and deliveries", "why_tests_cant": "termination of a climb on an arbitrary map built by an arbitrary history is not observable by finitely many runs, and the distance the robot may be drawn away is a worst case over all histories", "anchors": ["src/core/scan_matchers/hill_climbing_scan_matcher.h", "src/core/scan_matchers/hcsm_fixed.h", "src/core/scan_matchers/brute_force_scan_matcher.h", "src/core/scan_matchers/monte_carlo_scan_matcher.h", "src/core/scan_matchers/pose_enumeration_scan_matcher.h", "src/core/states/single_state_hypothesis_laser_scan_grid_world.h", "src/slams/credibilist/init_slam.h:init_credibilist_slam", "src/slams/credibilist/slam.cpp:main", "src/ros/lslam2D_bag_runner.cpp:run_slam", "launch/credibilist_mit_run.launch"]}
{"id": "C101", "title": "Random numbers: what the generator can hand out, and that the Monte Carlo SLAM copes with it", "statement": "For every state of the 32-bit generator (any generator, the Mersenne twister with any seed in particular): a number drawn for resampling is a multiple of 2^-64 in [0, 1), a uniform variable with bounds a < b hands out numbers in [a, b), and a normally distributed variable hands out numbers within 14 standard deviations of its mean, in pairs made from one accepted point (u, v) of the disc, as m + s*v*f and then m + s*u*f with f = sqrt(-2 ln(u^2+v^2)/(u^2+v^2)); with standard deviation zero it is exactly the mean. A scan matched by the Monte Carlo matcher with its seeded generator is matched with some sequence of such shifts: it ends after at most the configured number of attempts and shifts the pose by at most that number times 14 standard deviations. Hence a SLAM configured with it (the shipped TinySLAM and vinySLAM in particular, whatever seed std::random_device gives), started by the bag runner or on its own, handles every finite history of well-formed messages within the bounds of C100, nothing being assumed of the shifts. The one proviso is about the library: that the generator does not keep the rejection loop of std::normal_distribution running for ever.", "quantifier": "all generators, seeds and generator states; all means, deviations and bounds; all maps, scans and poses; all configurations and histories of well-formed messages", "why_tests_cant": "A test sees one seed and one sequence of draws; the bound on every draw, on every match and on every run holds for all seeds, histories and configurations only by proof.", "anchors": ["src/core/random_utils.h: GaussianRV1D::sample, UniformRV1D::sample, clone", "src/core/states/robot_pose.h: RobotPoseDeltaRV", "src/core/scan_matchers/monte_carlo_scan_matcher.h: GaussianPoseEnumerator", "src/core/particle_filter.h: UniformResamling::resample", "src/utils/init_scan_matching.h: init_monte_carlo_sm"]}
{"id": "C102", "title": "GMapping particles with their generators: what is drawn is allowed, and copies draw the same noise", "statement": "A particle filter made with any number of particles, each with its own random engine, the configured normal noise and uniform matching step, never hangs or fails, whatever its history of odometry and matcher answers: it is made, and every message is handled as the filter of C23 and later properties handles it, for the noise, steps and resampling samples its engines hand out; each particle is moved by noise within its configured bounds or by none, the master by none, and the samples are in [0, 1). When the filter resamples and a particle is chosen several times, the first place is taken by the particle itself, each further one by a new particle with the same state, the same engine and cloned variables. Hence any two copies of a particle are moved by the same noise and draw the same step at their k-th matching, whatever odometry, maps and matcher answers each of them meets, until the next resampling or until one is made the master; so does the particle itself if its variables hold no saved number, which is the case after an even number of noisy matchings since it was made or copied and is not the case after an odd number. The stronger reading, that copies are spread by independent noise, is false.", "quantifier": "all engines and engine states whose rejection loops end, all particle counts, configured variables, histories of odometry and matcher answers, all resamplings and all lives of the particles after them", "why_tests_cant": "it ranges over all generators, states and unbounded histories; a test sees one seed, and two copies that draw the same numbers look like two plausible random walks", "anchors": ["src/slams/gmapping/gmapping_world.h: GmappingWorld::handle_observation, mark_master, sample, reset_scan_matching_delta", "src/slams/gmapping/gmapping_particle_filter.h: GmappingParticleFilter::handle_observation, try_resample, ensure_master_exists", "src/core/particle_filter.h: ParticleFilter::try_resample, UniformResamling::resample", "src/core/random_utils.h: GaussianRV1D, UniformRV1D"]}
{"id": "C103", "title": "GMapping with its own random generators copes with every bounded history, whatever the generators hand out", "statement": "Take GMapping started from any configuration with a map of positive size and cells, at least one particle and sensible estimator values, every particle made with its own random engine, odometry noise normally distributed and distances between scan matches uniformly distributed as configured, and the resampler making an engine for every message. If only the rejection loops of the normal distribution end, then: it starts; for every finite history of well-formed scans whose odometry moves by at most S between messages, and whose whole reach - number of messages times (S + |configured mean| + 14 configured sigmas + particles times the growth of one scan match) plus the range - is within the integers, every message is handled. Each message is handled exactly as by GMapping with given random numbers (C90, C91), for numbers the configuration allows: noise no farther from the mean than 14 sigmas, steps between the configured limits, resampling samples in [0, 1). After every handled history there are as many particles as configured, exactly one of them feeds the map, and the map is the log of its observations. The bag runner started with it then ends normally and writes one trajectory entry for each scan.", "quantifier": "every configuration that meets the stated conditions, every engine (any state type and transition) and seed, every finite history of well-formed messages within reach, every bag", "why_tests_cant": "A run of the program samples one sequence of random numbers out of astronomically many; that no sequence makes a pose leave the integers, loses a particle or the master, or makes the program stop cannot be settled by sampling.", "anchors": ["src/slams/gmapping/gmapping_world.h: GmappingWorld, GMappingParams, update_robot_pose, handle_observation", "src/slams/gmapping/gmapping_particle_filter.h: GmappingParticleFilter", "src/core/particle_filter.h: UniformResamling, ParticleFilter", "src/slams/gmapping/init_gmapping.h: init_gmapping", "src/core/random_utils.h: GaussianRV1D, UniformRV1D", "src/ros/lslam2D_bag_runner.cpp: main"]}
{"id": "C104", "title": "The bag runner and the nodes get through every bounded history with the multi-resolution matcher, however it orders equal matches", "statement": "Take the bag runner, the single-hypothesis node or the credibilist node configured with the multi-resolution matcher (BF_M3RSM, the max estimate, a growing map, sensible probabilities, a window and steps of positive size). Whichever of several equally good matches the search happens to take - any rule, with any memory of its own - each scan is handled as C95 says: the correction is within the configured window, the score is that of the pose taken, and no pose of the search space scores better up to the stated tolerance. If all transforms are found, the odometry is bounded, every scan is well-formed and has a reading within the sensor's range, and what is reached stays within the integers, then the bag runner exits with status zero and writes one trajectory entry per scan, and a node keeps running and publishing; every pixel of the map file and every value of a published map shows a probability, the file covers the rectangle the map has grown to. With assertions compiled in this needs that the assertion of the search does not fail, which is guaranteed for the credibilist node with a window of up to a quarter of the map's extent. In particular `tiny <bag> -p config/common/bf_m3rsm.properties -p config/bag_runner/tiny_mit.properties -t <traj> -m <map>` with the shipped files behaves so, the first file overriding the second.", "quantifier": "every way of choosing among the answers of the matcher (including hidden state), every configuration meeting the conditions, every rule by which the map grows, every bag or sequence of deliveries with any contents and any transform library, every number of scans", "why_tests_cant": "the order in which equal matches leave the priority queue depends on the library and on the history, and the claim is about all bags and all histories; a test sees one order on a few bags", "anchors": ["src/ros/lslam2D_bag_runner.cpp: run_slam, main", "src/ros/single_hypoth_slam_node.cpp: main", "src/slams/credibilist/slam.cpp: main", "src/core/scan_matchers/bf_multi_res_scan_matcher.h: process_scan", "src/core/scan_matchers/m3rsm_engine.h: add_scan_matching_request, next_best_match, branch", "src/utils/init_scan_matching.h: init_bf_m3rsm", "config/common/bf_m3rsm.properties"]}
{"id": "C105", "title": "The online nodes of the shipped launch files get through every bounded history with their own random generators", "statement": "Take the node started by launch/gmapping_mit_run.launch (GMapping with 20 particles, each with its own random engine, and an engine made for every resampling) or by launch/1h_config_common.launch (vinySLAM with the Monte Carlo matcher and its seeded engine), or any single-hypothesis, credibilist or GMapping node with a sensible configuration. Suppose only that the rejection loops of the normal distributions end. Let scans be delivered in any order and at any times; for those whose transform to the odometry frame is known, let it be rigid, the odometry move by at most S between them, the scan be well-formed with ranges up to R, and let the whole reach of the history - number of scans times a stated amount: S, the noise or the shifts of at most 14 configured sigmas each, and the growth of the map by a scan - stay within the integers. Then the node starts, is never aborted and never hangs, gives exactly these scans to the SLAM, in order, and sends for each the correction that, chained with the odometry, gives the SLAM's pose (GMapping: the pose of the heaviest particle), the pose itself (GMapping: with the stamp of the scan, the others: with the time), and the map exactly if five seconds have passed since the last one. All values of a GMapping node's maps are percentages or -1, and its cells have the configured size. The parameters of the launch file mean the same as in a properties file, so the node runs the SLAM that the bag runner runs with that file.", "quantifier": "every engine and seed whose rejection loops end, every configuration that meets the stated conditions and in particular the shipped launch files with any rounding to nearest, every sequence of deliveries with any clock and any answers of the transform listener", "why_tests_cant": "The theorem ranges over all histories of scans, all clocks, all transform answers and all generator states; a test replays one bag with one seed and cannot rule out an assertion, an endless loop or a skipped publication for another one.", "anchors": ["src/slams/gmapping/gmapping.cpp:main", "src/slams/gmapping/init_gmapping.h:init_gmapping", "src/ros/single_hypoth_slam_node.cpp:main", "src/slams/credibilist/slam.cpp:main", "src/utils/init_slam.h:init_1h_slam", "src/core/random_utils.h:GaussianRV1D", "launch/gmapping_mit_run.launch", "launch/1h_config_common.launch"]}
{"id": "C106", "title": "Graph SLAM over any history of scans", "statement": "The graph SLAM world, fed with any history of laser scans and odometry poses: the first scan is not matched; for every other one the correction is the matcher's answer, called at the origin, on a fresh 1000 x 1000 map of 0.1 m cells into which the scan before has been inserted from the negated odometry increment; so it depends on the two scans and the odometry between them only (and on what matcher and adder keep), not on the pose. The pose is the sum of all odometry increments and corrections. A node is created exactly at those messages at which the signed odometry since the previous node reaches 0.5 m along an axis or 0.5 rad, whatever the corrections, and the graph is the chain of the refined poses at these messages. Started at another pose, the SLAM builds the same graph with the same edges and all poses moved. If ranges plus the odometry step, and ranges plus the matcher's reach, are at most 49.8 m, every history is handled to the end however far the robot drives, with the pose off the odometry by at most the matcher's bound per message. The refinement is displaced: with exact odometry a landmark in the rasterised map is where the current scan sees it exactly if the robot did not leave its place or its heading is a multiple of a full turn (the increment is in the odometry frame, the matching at heading 0); otherwise all landmarks are off by the same vector. (The executable is switched off in CMakeLists.txt, and the class as written needs the former template LaserScanGridWorld; the model takes the base class as it is.)", "quantifier": "every history of messages, every configuration of scan adder and matcher with the stated bounds, every start pose, every landmark and motion", "why_tests_cant": "Histories are unbounded, matchers and start poses are arbitrary, and the displacement of the refinement is a statement about all headings and landmarks.", "anchors": ["src/slams/graph/graph_slam_world.h: GraphSlamWorld::handle_observation, estimate_pose_delta, NodeCreationOracle", "src/slams/graph/pose_graph_map.h: PoseGraphMap::add_node", "src/core/states/laser_scan_grid_world.h: handle_sensor_data", "src/ros/laser_scan_observer.h"]}
{"id": "C107", "title": "Beam angles and cached trigonometry survive rounding", "statement": "Compute with rounded arithmetic: the message's own fields in single precision, the rest in double, sine and cosine by a library accurate to tau. For every laser message of floats whose angles are within eight radians and whose beams, counter-clockwise, lie further apart than the tolerance of the node's angle check plus 2^-19, and which the node accepts: the scan has the message's points with their ranges and marks, each at an angle within 2^-20 (a microradian) of its beam's; the loop filling the cached table ends; for every base angle up to 2^20 the cached provider answers for every point of the scan without leaving its table, within 5 tau + 2^-25 of the sine and cosine of base plus the beam's angle, and the provider without a table within tau + 2^-20. The microradian is real: there is an accepted message whose first point is at least 2^-24 beside its beam although the angle is a float.", "quantifier": "every rounding to nearest (single and double, any ties), every library accuracy up to 1/4, every message, every base angle", "why_tests_cant": "whether a lookup leaves the table depends on how the roundings of hundreds of additions fall for the particular message; a test tries one scanner", "anchors": ["src/ros/laser_scan_observer.h: msg2scan, trig_provider", "src/core/trigonometry_utils.h: CachedTrigonometryProvider, RawTrigonometryProvider"]}
{"id": "C108", "title": "The cell a beam ends in survives rounding", "statement": "For every message as in C107 with ranges up to 2^10, every robot pose with coordinates and heading up to 2^20 and every cell size from 2^-20 to 2^20, with a library accurate to tau <= 2^-10: the computed end point of every beam of range rho is within rho (5 tau + 2^-25) + 2^-32 of the true one along each axis with cached trigonometry, within rho (tau + 2^-20) + 2^-32 without; and the cell computed for it is the cell the beam truly ends in whenever the true end is further than this bound plus 2^-31 from every grid line.", "quantifier": "every rounding to nearest, library, message, pose and cell size in the stated ranges", "why_tests_cant": "a test compares a few beams with values computed by the same arithmetic; the bound must hold for every pose and message", "anchors": ["src/core/states/sensor_data.h: ScanPoint2D::move_origin", "src/core/trigonometry_utils.h: sin, cos", "src/core/maps/regular_squares_grid.h: world_to_cell"]}
{"id": "C109", "title": "Following the odometry survives rounding", "statement": "With rounded subtraction and addition of poses, over every sequence of n scan messages during which no odometry coordinate and no estimated one exceeds 2^k, the estimated pose is the first one moved by the odometry's displacement and by one correction of the matcher per message, up to n 2^(k-51) in each coordinate. If the odometry's coordinates are multiples of a power of two of at most 2^52 times its size and the matcher never corrects, the estimated poses are exactly the odometry poses, however many there are. In general they are not: the odometry can return to a former pose and the estimate not.", "quantifier": "every rounding to nearest, every sequence of messages and matchers, every bound 2^k", "why_tests_cant": "rounding errors accumulate with the number of messages; a test follows one short trajectory", "anchors": ["src/ros/laser_scan_observer.h: handle_transformed_msg", "src/core/states/robot_pose.h: RobotPose::operator-, RobotPose::operator+=", "src/core/states/laser_scan_grid_world.h: handle_sensor_data", "src/core/states/single_state_hypothesis_laser_scan_grid_world.h: handle_observation"]}
{"id": "C110", "title": "What the graph SLAM node sends, for every sequence of scans", "statement": "The ROS node of the graph SLAM (switched off in the build, as C106), for any parameters, any sequence of delivered scans, any answers of the listener of transforms and any clock values: exactly the scans whose transform to the odometry frame is found are given to the SLAM of C106, in order, with that transform flattened to the plane; the node survives a sequence exactly if this SLAM does. For each such scan a correction is sent which, composed with the (rigid) flattened odometry transform, is the pose of the robot, then that pose itself as a transform from the map frame to the robot frame; and then, exactly if at least three seconds have passed between the time stored with the last graph sent and now, the graph: one point for the robot's pose after each scan at which the signed odometry since the previous such scan reached the limits of C106, joined by a chain of line segments, always in the frame `odom_combined`. So two graphs shown one after another are at least three seconds apart if the clock does not run back. Because the points are coordinates of the map but labelled with the odometry frame, a point drawn with the correction of its own scan is where the robot is said to be only if the robot is where the odometry says. The parameters of the shipped launch file start hill climbing with steps of 0.1 on the cells hit, six failures, constant estimator, the topic /base_scan, frames map, odom_combined, robot_pose; with matchers of bounded reach the node handles every sequence under the conditions of C106, and as the launch file starts it (hill climbing, whose number of rounds has no bound in advance) it handles every sequence, however far the robot drives, if the odometry step plus three times the maximal range is at most 49 m, given enough iterations: the climb never tries a pose more than two steps from where a known cell can be seen.", "quantifier": "all parameter sets (for the shipped part, all correctly rounding readings of its numbers), all finite sequences of deliveries, all transforms, clocks and message contents", "why_tests_cant": "Message histories, clock values and transform availability are unbounded and interleave freely; the set of shown points depends on the whole history of the odometry; the node needs a ROS master and is not built.", "anchors": ["src/slams/graph/graph_demo.cpp: main, init_graph_slam", "src/slams/graph/rviz_graph_viewer.h: RvizGraphViewer::on_map_update", "src/ros/topic_with_transform.h: transformed_msg_cb", "src/ros/pose_correction_tf_publisher.h", "src/ros/robot_pose_observers.h", "launch/graph_demo_mit.launch"]}
{"id": "C111", "title": "Maps of fixed size with matchers that climb or sweep", "statement": "C96's guarantee extends to every configured matcher but the multi-resolution one: hill climbing (both implementations) and brute force, too, with or without the drift detector, although a climb may take any number of rounds. Called within Y of the origin, beyond everything from where known cells can be seen, hill climbing reads only cells seen from poses within two of its steps of Y (32 cm, for the fixed implementation), brute force only cells seen from its grid, the drift detector those within 25 cm of the wrapped matcher's answer: on any map that has these cells it answers the same. So a single-hypothesis SLAM configured with a `plain` or `lazy_tiled` map of fixed size handles, with every bound on the matcher's iterations from some number on, every history of messages it is ready for, with ranges up to R and odometry in strides of at most D, if what may be reached and looked at within the history is within N cells and the map has at least 2N+1 cells along each axis; and it ends as the SLAM on the growing map of the same family: the same pose, adder history, weighting and matcher state, the same cells inside; outside, the growing map has learnt nothing. (Climbing matchers: on cells other than GMapping's.)", "quantifier": "all maps and cells, all scans, all numbers of rounds of the climb, all steps and grids of the matchers, all histories of messages, all configurations with sensible numbers", "why_tests_cant": "How far a climb wanders depends on the map; a test shows some climbs on some maps, not that no climb on any map ever reads outside, which would stop the program at an assertion.", "anchors": ["src/core/scan_matchers/hill_climbing_scan_matcher.h: Distorsion1DPoseEnumerator, FailedRoundsLimitedPoseEnumerator", "src/core/scan_matchers/hcsm_fixed.h: HillClimbingSMFixed::process_scan", "src/core/scan_matchers/brute_force_scan_matcher.h: BruteForcePoseEnumerator", "src/core/scan_matchers/pose_enumeration_scan_matcher.h: PoseEnumerationScanMatcher::process_scan", "src/core/maps/plain_grid_map.h: PlainGridMap", "src/core/maps/lazy_tiled_grid_map.h: LazyTiledGridMap", "src/core/states/single_state_hypothesis_laser_scan_grid_world.h: SingleStateHypothesisLaserScanGridWorld::handle_observation"]}
{"id": "C112", "title": "A pose that fits as well as any is kept; a robot standing still is left alone", "statement": "If, at the pose the odometry predicts, every usable point of the scan falls into a cell whose impact on the score is the largest in the map, every configured matcher but the multi-resolution one answers that pose itself, whatever random numbers it draws and whether or not the drift detector is around it; so the single-hypothesis SLAM takes the odometry's pose as its own and inserts the scan there with the quality meant for scans that were not localised, in every state it reaches and whatever its cells. With averaging cells, constant estimations (occupied at least a half and at least empty) and no weighting of directions, started with an empty map: if the odometry does not change and the same scan comes again and again, seen with a clear view (every beam that runs through the cell of a usable point ends there at an obstacle, and each such cell is hit by a beam that is inserted), then after any number of messages the pose is unchanged to the last digit of exact arithmetic, the cells with usable points show 1/2 + (occupied - 1/2) * (raw quality) from the first scan on, and no cell shows more. The shipped tinySLAM is of this kind.", "quantifier": "all matchers (enumerating, hill climbing in both implementations, Monte Carlo with any draws, brute force, idle), with and without the drift detector, all reached states, all cell kinds for the first part; all scans with a clear view, all blurs, margins and point weightings, all numbers of repeated messages for the second", "why_tests_cant": "A matcher that drifts on ties does so for particular draws, maps and iteration limits; a test that stands still for some messages with one seed does not show that no number of messages and no draw ever moves the robot.", "anchors": ["src/core/scan_matchers/pose_enumeration_scan_matcher.h: PoseEnumerationScanMatcher::process_scan", "src/core/scan_matchers/hcsm_fixed.h: HillClimbingSMFixed::process_scan", "src/core/scan_matchers/connect_the_dots_ambiguous_drift_detector.h: ConnectTheDotsAmbiguousDriftDetector", "src/core/states/single_state_hypothesis_laser_scan_grid_world.h: handle_observation", "config/slams/tiny_slam_base.properties", "src/core/maps/naive_grid_cells.h: MeanProbabilityCell", "src/core/scan_matchers/weighted_mean_point_probability_spe.h: estimate_scan_probability"]}
{"id": "C113", "title": "GMapping before the robot has moved", "statement": "A GMapping particle handles a scan only if the odometry's way since the last scan it handled has reached the step drawn for it, and that holds for the first scan, too. So from the start on, as long as the whole way of the odometry (the sums of the absolute displacements along x, along y and in angle, of which the first two count by the sum of their squares) is less than the first step drawn for each particle both in translation and in rotation, every message that can be read is handled, nothing is put into the map, every particle and the pose shown are where the odometry says, the weights stay equal, the matcher is not used and no resampling takes place. The next message, if it is handled, is put into the map exactly once for every particle whose step the way has reached by then (not at all if there is none), each time at the pose to which that particle's match leads from the odometry's pose, without noise. For any accepted configuration, with the particles' own generators and whatever their engines hand out, the first holds while the way is less than the configured smallest steps, so with the shipped ones for 80 centimetres straight ahead: every cell of the map is unknown so far.", "quantifier": "all numbers of particles, all first steps, all histories of messages, odometry paths, matchers, maps, random engines and configurations with sensible numbers", "why_tests_cant": "Which message is the first to be mapped depends on numbers drawn at the start and on the accumulated way; a test sees one draw and one path.", "anchors": ["src/slams/gmapping/gmapping_world.h: GmappingWorld::update_robot_pose, handle_observation, reset_scan_matching_delta, mark_master", "src/slams/gmapping/gmapping_particle_filter.h: GmappingParticleFilter", "src/core/particle_filter.h: ParticleFilter", "src/slams/gmapping/init_gmapping.h: init_gmapping_params"]}
{"id": "C114", "title": "GMapping while the robot stands still", "statement": "Call a particle of GMapping resting if the odometry has moved it by less than its step since the last scan it handled, and eager if it has been marked as the master and has handled a scan since. Let every particle be resting or eager, none have an undefined weight, some resting one have a positive weight, and let there be no reason to resample (the filter has not gone far enough since the last resampling, or no particle weighs more than twice the average of what the resting ones contribute over all particles). While the odometry stays where it is and the scores of the matches lie between 0 and q with q at most 1, then whatever is scanned and however often: no particle is replaced or added, nothing is resampled, a resting particle changes in nothing but its weight, all of whose weights are multiplied by one common positive factor, and after n scans an eager one has its weight multiplied by that factor times at most q^n. So as soon as q^n times the weight of each eager particle is below the weight of some resting one - for q below 1 from some n on, which depends only on the state - the pose shown is that of the last of the heaviest resting particles, always the same, although the marked particle is still matched and its scans are still put into the map. From the launch on: if at least two particles are launched, nothing is handled by any of them until one message is handled by all of them at once, with scores between lo and hi such that n_particles*hi is at most 2*(n_particles-1)*lo, and steps drawn after it are positive, then once q^n*hi is below lo the pose shown is, from then on, one and the same: the odometry's pose corrected by the first match of some particle.", "quantifier": "all numbers of particles, states of the filter as described, histories of messages with the odometry unchanged, scans, matchers with scores in [0, q], maps, noises, random numbers and all q up to 1", "why_tests_cant": "The pose is shown to settle for every sequence of scans and every answer of the matcher, for ever; a test sees finitely many scans with one matcher, and the weights involved decay geometrically until they cannot be told from zero in a trace.", "anchors": ["src/slams/gmapping/gmapping_world.h: update_robot_pose, handle_observation, mark_master, reset_scan_matching_delta", "src/slams/gmapping/gmapping_particle_filter.h: handle_sensor_data, handle_observation, try_resample, world, pose", "src/core/particle_filter.h: normalize_weights, resampling_is_required, heaviest_particle", "src/ros/laser_scan_observer.h: handle_transformed_msg"]}
{"id": "C115", "title": "The first scan GMapping takes in", "statement": "Let nothing have been handled by any particle of a GMapping started from an accepted configuration with a fullness threshold above -1, and let a message come with which the way the odometry has gone reaches the step of particle i but of no particle before it. Then the first scan ever put into the map is put exactly where the odometry says. Unless the filter resamples at that very message, particle i is still there with exactly the pose of the odometry, and its weight is zero or not a number: the map it is matched against is empty, nothing agrees with it, so the particle loses its weight for having come first. With a single particle the weight is not a number from that message on: the pose shown at that message is the odometry's, and however many messages follow there is still that one particle, its weight is never a number again and it is never resampled.", "quantifier": "all accepted configurations, numbers of particles, steps drawn, histories of messages before and after, scans and poses, rounding functions that keep 0 and the unit interval, and numbers drawn", "why_tests_cant": "The claim covers every configuration, every history before the first scan taken in and every continuation for ever after; in a test the lost weight shows only as another particle being followed, and NaN weights of a single particle show nowhere.", "anchors": ["src/slams/gmapping/gmapping_occupancy_observation_pe.h: probability", "src/slams/gmapping/gmapping_world.h: handle_observation", "src/core/particle_filter.h: normalize_weights, resampling_is_required", "src/slams/gmapping/gmapping_particle_filter.h: try_resample, world", "src/slams/gmapping/init_gmapping.h"]}
{"id": "C116", "title": "GMapping with its own matcher, while the robot stands still", "statement": "Let GMapping, with its own scan matcher, be in a sound state in which every particle is resting or eager as in C114, with weights, a positive one among the resting, and no reason to resample. While the odometry stays where it is, whatever is scanned and however often: the particles remain the same in the same order, none is resampled, and the resting ones stay where they are. Either all weights are still numbers - those of the resting particles all multiplied by one common positive factor, that of an eager one by the same factor times some number between 0 and 1 - or some scan since then had no usable point (no obstacle within the usable range, outside the scanner, with a number that is a multiple of the skip rate), no weight is a number, and the particle shown is the last one in the filter, whatever its weight was. If every scan has a usable point and each eager particle weighs less than some resting one, the pose shown is always that of the last of the heaviest resting particles. From the launch on: if at least two particles are launched, nothing is handled by any of them until a message with which the way reaches the step of exactly one of them, the scan then has a usable point and the step drawn next for that particle is positive, then nothing is resampled, all particles are where the odometry says, that one particle has the weight 0 and the others equal positive weights; and as long as the robot then stands there and every scan has a usable point, GMapping shows exactly what the odometry says, although the marked particle, if it is that one, is matched with every scan and its scans go into the map.", "quantifier": "all sound states as described, accepted configurations, numbers of particles, histories of messages with the odometry unchanged, scans, noises, steps and random numbers, rounding functions that keep 0 and the unit interval", "why_tests_cant": "The claim is about every scan sequence of every length; that a single scan without a usable point destroys all weights for ever shows in a test only as another particle being shown, and only if such a scan is met while a particle is eager.", "anchors": ["src/slams/gmapping/gmapping_world.h: handle_observation", "src/slams/gmapping/gmapping_particle_filter.h: handle_sensor_data, handle_observation, try_resample, world", "src/core/particle_filter.h: normalize_weights, resampling_is_required, heaviest_particle", "src/core/scan_matchers/weighted_mean_point_probability_spe.h: estimate_scan_probability, filter_scan", "src/core/scan_matchers/hill_climbing_scan_matcher.h"]}
{"id": "C117", "title": "GMapping with one particle is plain scan matching", "statement": "Let GMapping be started from an accepted configuration with slam/particles/number = 1 and a fullness threshold above -1. Until the odometry has gone the step drawn at the start it shows the odometry's pose. The message with which that step is reached leaves it at the odometry's pose, and from then on it is plain scan matching, whatever is drawn: with every message the pose goes with the odometry, the way turned by as much as the heading differs from the odometry's; the scan is matched from there, without noise, however little the robot has moved; and the scan is put into the map at the pose found, with quality 1, exactly if its score is a positive number. GMapping goes on exactly if plain scan matching does, and then shows its pose and has its map. The particle is never resampled, whatever the limits say, and the way counted since the last resampling grows for ever. So no noise, step or random number drawn after the start has any effect: two histories with the same odometry and the same scans give the same pose and the same map.", "quantifier": "all accepted configurations with one particle, steps drawn at the start, histories of messages before and after, scans, noises, steps and random numbers, rounding functions that keep 0 and the unit interval", "why_tests_cant": "That nothing drawn matters is a claim about all draws; that the two programs agree, and stop on the same inputs, is one about all histories. A test compares finitely many runs with one generator.", "anchors": ["src/slams/gmapping/init_gmapping.h", "src/slams/gmapping/gmapping_world.h: update_robot_pose, handle_observation, mark_master", "src/slams/gmapping/gmapping_particle_filter.h: GmappingParticleFilter, handle_sensor_data, try_resample", "src/core/particle_filter.h: normalize_weights, resampling_is_required, heaviest_particle", "src/core/states/single_state_hypothesis_laser_scan_grid_world.h: handle_observation"]}
{"id": "C118", "title": "GMapping with at most two particles never resamples", "statement": "Let GMapping be started from an accepted configuration with slam/particles/number one or two. Whatever messages arrive and however the scans match, it never resamples: the particles are for ever those made at the start, and the same one of them is the master, the only one without noise. The random numbers meant for resampling have no effect: two histories that differ only in these take the program through the same states (poses, weights, map, matcher), and it stops at the same message or not at all. The way counted since the last resampling, to which resampling is tied, is the whole way the odometry has gone since the start. Computing in double, rounding included, changes nothing about the rule: one or two weights that are not negative and not all zero, normalised as the program does it, never call for resampling (weights that are all zero become NaN, which does not either). This is where the bound lies: for every number of particles from three on there are normalised weights that call for resampling.", "quantifier": "all accepted configurations with one or two particles, all histories of messages, all noises, steps and random numbers, rounding functions that keep the unit interval; all numbers of particles from three on for the converse", "why_tests_cant": "A claim that something never happens, for every history, every score and every draw; a test sees finitely many runs, and resampling is rare in them even when it is possible.", "anchors": ["src/core/particle_filter.h: resampling_is_required, try_resample, normalize_weights", "src/slams/gmapping/gmapping_particle_filter.h: handle_sensor_data, try_resample, ensure_master_exists", "src/slams/gmapping/gmapping_world.h: mark_master", "src/slams/gmapping/init_gmapping.h"]}
{"id": "C119", "title": "With at most two particles the weights are the products of all scores", "statement": "Let GMapping be started from an accepted configuration with slam/particles/number one or two, and let it take in any messages. Each message contributes to each particle the score of the particle's match (from its pose after the motion and its noise, on the map as the particles before it left it), or nothing if the particle has not gone its step. As long as all scores are numbers and not all products are zero, the weight of a particle is the product of all its scores since the start divided by the sum of these products, however often the weights were normalised in between; and the pose shown is that of the particle whose scores multiply to most, of the last one if there are several. If one of the scores is no number, or all products are zero, then no weight is a number any more, and the pose shown is that of the last particle. Computed in double, for any number of particles without resampling: after k scans the ratio of two weights is that of the products up to the factor ((1 + u) / (1 - u)) ^ (2 k) with u = 2 ^ -53, and a heaviest particle's product is at least that of any other up to that factor, as long as all scores are positive and nothing falls below 2 ^ -1022.", "quantifier": "all accepted configurations with one or two particles, all histories of messages, all noises, steps and random numbers, rounding functions that keep the unit interval; all numbers of particles and scans and all positive scores for the statement about doubles", "why_tests_cant": "A closed form for the state after histories of every length, including those in which scores vanish or are undefined.", "anchors": ["src/slams/gmapping/gmapping_world.h: handle_observation", "src/core/particle_filter.h: normalize_weights, resampling_is_required, heaviest_particle", "src/slams/gmapping/gmapping_particle_filter.h: handle_sensor_data, pose, world"]}
