{"id": "C01", "title": "prob conserves the mass of every reachable output cell", "statement": "After calculateP.prob, for every cell i of the output probability set with positive probability whose preimage (the input samples whose output lies in cell i) has positive total volume, the input probabilities of those samples add up to exactly the probability of cell i; every other sample gets probability 0, so the total input probability is the total probability of the reachable cells (and the mass of unreachable cells is lost).", "quantifier": "every output probability vector, every pointer from input samples to output cells, every volume vector, any number of samples and cells", "why_tests_cant": "A test fixes one discretization; the identity must hold for every assignment of samples to cells, including cells that are empty, have zero probability or zero volume.", "anchors": ["bet/calculateP/calculateP.py:prob", "bet/sample.py:discretization.set_io_ptr"]}
{"id": "C02", "title": "prob spreads a cell's mass in proportion to volume and never goes negative", "statement": "After prob, each sample in the preimage of a reachable cell i has probability P_i * volume / (volume of the preimage); with non-negative volumes and output probabilities every input probability is non-negative, and two samples in the same preimage with equal volume have equal probability.", "quantifier": "every discretization with non-negative volumes, all samples", "why_tests_cant": "Concerns every sample of every discretization, not a sampled one.", "anchors": ["bet/calculateP/calculateP.py:prob"]}
{"id": "C03", "title": "prob does not depend on the number of processes", "statement": "Gathering the probabilities that prob computes on each process gives, entry by entry, the vector a single-process run computes on the same samples, for every number of processes and every way of dividing the samples between them (including processes that own no samples).", "quantifier": "every process count and every partition of the samples into contiguous chunks", "why_tests_cant": "Tests run with one or two processes; the claim is about all of them.", "anchors": ["bet/calculateP/calculateP.py:prob", "bet/util.py:get_global_values", "bet/Comm.py:comm_for_no_mpi4py.allreduce"]}
{"id": "C04", "title": "prob_on_emulated_samples divides each output cell's mass equally over the emulated points that hit it", "statement": "After prob_on_emulated_samples, every emulated point whose nearest input sample maps to output cell i gets P_i / n_i where n_i is the number of such points over all processes (0 if P_i is not positive), so each hit cell's mass is conserved exactly, and the result does not depend on the number of processes.", "quantifier": "every emulated set, every pair of pointers, every output probability vector, every process count", "why_tests_cant": "Counts, empty cells and process layouts vary without bound.", "anchors": ["bet/calculateP/calculateP.py:prob_on_emulated_samples"]}
{"id": "C05", "title": "prob_on_emulated_samples works whichever way the input-output pointer was set", "statement": "Calling prob_on_emulated_samples on a consistent discretization whose local input-output pointer is already set (for instance by a simpleFunP constructor, set_output_probability_set or prob) yields probabilities rather than an exception.", "quantifier": "every history of calls that leaves a discretization with consistent numbers of samples", "why_tests_cant": "The failure depends on the order of earlier calls, which unit tests fix.", "anchors": ["bet/calculateP/calculateP.py:prob_on_emulated_samples", "bet/sample.py:discretization.set_io_ptr", "bet/sample.py:discretization.set_output_probability_set"]}
{"id": "C06", "title": "prob_from_sample_set transports mass: nothing lost, nothing created", "statement": "prob_from_sample_set(old, new) gives every cell of new the sum of the probabilities of the old samples that lie in it; the total equals the total old probability, non-negativity is preserved, and the result is the same for every process count.", "quantifier": "every pair of sample sets of equal dimension, every assignment of old samples to new cells", "why_tests_cant": "Quantifies over all sets and all assignments.", "anchors": ["bet/calculateP/calculateP.py:prob_from_sample_set"]}
{"id": "C07", "title": "prob_from_sample_set onto the same points is the identity", "statement": "If set_new has the same pairwise distinct points as set_old then prob_from_sample_set returns the old probabilities unchanged.", "quantifier": "every Voronoi sample set with pairwise distinct points and every definite distance", "why_tests_cant": "Needs the nearest-point argument for all point sets, not a particular one.", "anchors": ["bet/calculateP/calculateP.py:prob_from_sample_set", "bet/sample.py:voronoi_sample_set.query"]}
{"id": "C08", "title": "prob_from_sample_set_with_emulated_volumes yields a probability vector", "statement": "If the old probabilities are non-negative and sum to 1 and at least one emulated point lies in an old cell of positive probability, then the new probabilities are non-negative and sum to 1, whether or not some old cells contain no emulated point; without emulated points the result is that of prob_from_sample_set; for every process count.", "quantifier": "every old set, new set and emulated set, every process count", "why_tests_cant": "The renormalisation branch depends on which cells happen to be empty.", "anchors": ["bet/calculateP/calculateP.py:prob_from_sample_set_with_emulated_volumes"]}
{"id": "C09", "title": "prob_from_discretization_input uses emulated points when present and conserves mass", "statement": "prob_from_discretization_input(disc, new) pushes forward the probabilities of the emulated input set when there is one and of the input set otherwise; the total is conserved; if probabilities are missing it raises AttributeError instead of returning numbers.", "quantifier": "every discretization and new set", "why_tests_cant": "All combinations of present and missing sets and every probability vector.", "anchors": ["bet/calculateP/calculateP.py:prob_from_discretization_input"]}
{"id": "C10", "title": "Splitting over processes is a balanced, ordered, complete partition", "statement": "The chunk of samples each process receives from global_to_local is contiguous, in rank order, sizes differ by at most one, and concatenating the chunks in rank order gives the original array.", "quantifier": "every array length and every positive process count", "why_tests_cant": "Unbounded lengths and process counts, including more processes than samples.", "anchors": ["bet/sample.py:sample_set_base.global_to_local"]}
{"id": "C11", "title": "global_to_local followed by local_to_global restores every array", "statement": "For a sample set whose arrays have consistent lengths, global_to_local then local_to_global leaves every global array unchanged and makes every local array the chunk of its global array; arrays absent globally and locally do not appear, and arrays that exist only locally are kept and made global.", "quantifier": "every consistent sample set with or without arrays that exist only locally, every process count", "why_tests_cant": "A round trip over all contents, subsets of present arrays and process counts.", "anchors": ["bet/sample.py:sample_set_base.global_to_local", "bet/sample.py:sample_set_base.local_to_global"]}
{"id": "C12", "title": "check_num accepts exactly the consistent sample sets", "statement": "check_num returns n if and only if some array is present, all present arrays have n rows and the values have dim columns; it raises length_not_matching or dim_not_matching otherwise; so after any successful check_num all arrays can be indexed by the same sample number.", "quantifier": "every combination of present arrays and lengths, and every history of setter calls leading to them", "why_tests_cant": "The space of combinations of arrays and histories is unbounded.", "anchors": ["bet/sample.py:sample_set_base.check_num"]}
{"id": "C13", "title": "clip keeps the first samples of every array and leaves the original alone", "statement": "clip(k) returns a consistent set with min(k, n) samples whose every array is the prefix of the original one; k >= n is the identity on contents, and clipping twice is clipping once to the smaller number.", "quantifier": "every consistent sample set and every k", "why_tests_cant": "All arrays, lengths and k.", "anchors": ["bet/sample.py:sample_set_base.clip"]}
{"id": "C14", "title": "merge is the union of two sample sets with pairing intact", "statement": "For consistent sets with the same dimension and domain, merge has n1 + n2 samples whose values are exactly those of the two operands, each as often as it occurs there (on one process first operand then second; on several, in some order); no other per-sample array (volumes, probabilities, ...) is carried over, so none can be attached to the wrong sample; dimension or domain mismatch raises.", "quantifier": "every pair of consistent sets, every process count", "why_tests_cant": "Pairing must survive for all contents and process layouts.", "anchors": ["bet/sample.py:voronoi_sample_set.merge", "bet/sample.py:discretization.merge"]}
{"id": "C15", "title": "append_values adds the new rows after the old ones", "statement": "append_values(v) leaves existing rows in place and in order and adds the rows of v at the end; a following check_num raises unless every other per-sample array is absent or extended as well.", "quantifier": "every set and every appended block", "why_tests_cant": "All contents and histories.", "anchors": ["bet/sample.py:sample_set_base.append_values", "bet/sample.py:sample_set_base.check_num"]}
{"id": "C16", "title": "normalize_domain followed by undo_normalize_domain is the identity", "statement": "normalize_domain maps the domain to the unit cube, every value v to (v - min)/width and scales derivatives by the width; undo_normalize_domain restores values, domain, reference value and Jacobians exactly.", "quantifier": "every sample set with a domain of positive widths, whichever of its arrays are present and whether or not local arrays share memory with global ones", "why_tests_cant": "Depends on aliasing between arrays, i.e. on the history of the object.", "anchors": ["bet/sample.py:sample_set_base.normalize_domain", "bet/sample.py:sample_set_base.undo_normalize_domain"]}
{"id": "C17", "title": "query answers for the current values", "statement": "voronoi query(x) returns the index of a sample nearest to x among the current values, whatever was queried, set or appended before.", "quantifier": "every history of set_values, append_values, set_kdtree and query calls", "why_tests_cant": "A statement about all histories; caching makes the answer history dependent.", "anchors": ["bet/sample.py:voronoi_sample_set.query", "bet/sample.py:sample_set_base.set_kdtree", "bet/sample.py:sample_set_base.set_values"]}
{"id": "C18", "title": "Volumes from Monte Carlo counts form a probability vector", "statement": "estimate_volume and estimate_volume_emulated give cell i the fraction of the n points that lie in it; the volumes are non-negative, sum to 1 and do not depend on how the points are spread over processes.", "quantifier": "every number of points >= 1, every cell assignment, every process count", "why_tests_cant": "All samples of the random points.", "anchors": ["bet/sample.py:sample_set_base.estimate_volume", "bet/sample.py:sample_set_base.estimate_volume_emulated"]}
{"id": "C19", "title": "Monte Carlo work is split without losing or repeating points", "statement": "The number of random points or samples generated by the processes adds up to the requested number n and no two processes differ by more than one, in estimate_volume, random_sample_set and the simpleFunP functions.", "quantifier": "every n and every process count", "why_tests_cant": "Unbounded n and process counts.", "anchors": ["bet/sample.py:sample_set_base.estimate_volume", "bet/sampling/basicSampling.py:random_sample_set", "bet/calculateP/simpleFunP.py:uniform_partition_uniform_distribution_rectangle_size"]}
{"id": "C20", "title": "estimate_volume_mc gives equal volumes adding to one", "statement": "estimate_volume_mc assigns 1/n to every one of the n >= 1 samples, on every process, and these add up to 1.", "quantifier": "every set with at least one sample and every process count", "why_tests_cant": "All sizes.", "anchors": ["bet/sample.py:sample_set_base.estimate_volume_mc"]}
{"id": "C21", "title": "exact_volume_1D returns the exact length of each nearest-point cell", "statement": "For distinct samples inside the domain [a,b], the volume given to sample i is the length of the set of points of [a,b] nearest to sample i divided by b - a, whatever the order of the samples; volumes are non-negative and sum to 1.", "quantifier": "every list of distinct samples in every interval, in any order", "why_tests_cant": "Every permutation and spacing.", "anchors": ["bet/sample.py:voronoi_sample_set.exact_volume_1D"]}
{"id": "C22", "title": "Rectangle query returns the first rectangle that contains the point", "statement": "rectangle_sample_set.query(x) returns the smallest index of a rectangle with left < x <= right in every coordinate, and the last (remainder) index if there is none; with k > 1 it returns the k smallest such indices padded with the remainder index.", "quantifier": "every list of rectangles, every point, every k >= 1", "why_tests_cant": "All overlaps, boundaries and k.", "anchors": ["bet/sample.py:rectangle_sample_set.setup", "bet/sample.py:rectangle_sample_set.query"]}
{"id": "C23", "title": "Rectangle volumes are relative volumes that sum to one", "statement": "exact_volume_lebesgue gives each rectangle its volume divided by the domain volume and the remainder cell what is left, so the volumes sum to 1; the remainder is non-negative when the rectangles are disjoint and inside the domain.", "quantifier": "every list of rectangles and every domain of positive volume", "why_tests_cant": "All lists of rectangles.", "anchors": ["bet/sample.py:rectangle_sample_set.exact_volume_lebesgue"]}
{"id": "C24", "title": "Cartesian cells tile the grid box", "statement": "cartesian_sample_set.setup produces one cell per product of consecutive grid intervals; every point of the half-open grid box lies in exactly one cell, points outside lie in none (hence in the remainder cell), and the cell volumes sum to the box volume.", "quantifier": "every dimension and every strictly increasing grid vectors", "why_tests_cant": "All dimensions and grids.", "anchors": ["bet/sample.py:cartesian_sample_set.setup", "bet/util.py:meshgrid_ndim"]}
{"id": "C25", "title": "Ball query returns the first open ball containing the point", "statement": "ball_sample_set.query(x) returns the smallest index of a ball with distance < radius and the remainder index otherwise; k as for rectangles.", "quantifier": "every list of balls, every point", "why_tests_cant": "All overlaps and boundaries.", "anchors": ["bet/sample.py:ball_sample_set.setup", "bet/sample.py:ball_sample_set.query"]}
{"id": "C26", "title": "Densities recover probabilities", "statement": "After set_densities, density_i * volume_i * (volume of the domain) = probability_i for every sample with positive volume, hence the piecewise constant density integrates to the total probability; the local densities that pdf uses are consistent with them.", "quantifier": "every set with positive volumes and a domain", "why_tests_cant": "All sets; also relates two code paths.", "anchors": ["bet/sample.py:sample_set_base.set_densities", "bet/sample.py:sample_set_base.set_densities_local", "bet/sample.py:sample_set_base.pdf"]}
{"id": "C27", "title": "Equality of sample sets is an equivalence", "statement": "a == a; a == b implies b == a; sample sets that compare equal agree in every array and parameter.", "quantifier": "every pair of sample sets", "why_tests_cant": "All pairs of objects.", "anchors": ["bet/sample.py:sample_set_base.__eq__", "bet/sample.py:discretization.__eq__"]}
{"id": "C28", "title": "estimate_local_volume returns positive volumes adding to one and terminates", "statement": "For every sample the emulation loop stops after finitely many rounds, and the volumes are normalised to sum to 1.", "quantifier": "every outcome of the random sampling, every number of samples and limits", "why_tests_cant": "The loop bound and the normalisation depend on random outcomes.", "anchors": ["bet/sample.py:voronoi_sample_set.estimate_local_volume"]}
{"id": "C29", "title": "A discretization always pairs sample i with output i", "statement": "check_nums, clip and merge of a discretization keep input row i paired with output row i; construction with different numbers of input and output samples raises length_not_matching.", "quantifier": "every discretization and every sequence of clip and merge", "why_tests_cant": "All histories.", "anchors": ["bet/sample.py:discretization.check_nums", "bet/sample.py:discretization.clip", "bet/sample.py:discretization.merge"]}
{"id": "C30", "title": "The input-output pointer sends each sample to the cell containing its output", "statement": "After set_io_ptr entry j of the pointer is the index of the output probability cell containing output j, locally and globally, for every process count; after set_output_probability_set both pointers refer to the new set.", "quantifier": "every discretization, every history of set_output_probability_set and set_io_ptr calls", "why_tests_cant": "Staleness is a matter of history.", "anchors": ["bet/sample.py:discretization.set_io_ptr", "bet/sample.py:discretization.set_output_probability_set"]}
{"id": "C31", "title": "choose_inputs_outputs selects exactly the requested coordinates", "statement": "choose_inputs_outputs(inputs, outputs) gives a new discretization whose values, Jacobians, error estimates, domains and reference values are the selected coordinates of the old ones, sample by sample; the old one is unchanged; choosing all is the identity.", "quantifier": "every discretization and every list of valid indices", "why_tests_cant": "All index lists.", "anchors": ["bet/sample.py:discretization.choose_inputs_outputs"]}
{"id": "C32", "title": "discretization.global_to_local localises every sample set", "statement": "After discretization.global_to_local every sample set of the discretization that is present has its local arrays. discretization.local_to_global makes every array of every set that has local parts their concatenation in rank order.", "quantifier": "every discretization", "why_tests_cant": "All combinations of present sets.", "anchors": ["bet/sample.py:discretization.global_to_local"]}
{"id": "C33", "title": "Every simple-function constructor yields a probability vector", "statement": "The output probability set produced by each simpleFunP constructor has non-negative probabilities that sum to 1 (whenever at least one emulated sample exists where counts are used).", "quantifier": "every data set, sizes, number of cells, outcome of the random sampling and process count", "why_tests_cant": "All random outcomes and sizes.", "anchors": ["bet/calculateP/simpleFunP.py:uniform_partition_uniform_distribution_rectangle_size", "bet/calculateP/simpleFunP.py:regular_partition_uniform_distribution_rectangle_size", "bet/calculateP/simpleFunP.py:uniform_partition_uniform_distribution_data_samples", "bet/calculateP/simpleFunP.py:normal_partition_normal_distribution", "bet/calculateP/simpleFunP.py:uniform_partition_normal_distribution", "bet/calculateP/simpleFunP.py:user_partition_user_distribution"]}
{"id": "C34", "title": "regular_partition gives equal cells exactly covering the rectangle", "statement": "regular_partition_uniform_distribution_rectangle_size creates prod(cells_per_dimension) congruent cells that tile the rectangle centred at the reference with the requested size, gives each the same probability and the remainder cell probability 0.", "quantifier": "every dimension, reference value, size and cells_per_dimension >= 1", "why_tests_cant": "All dimensions and counts.", "anchors": ["bet/calculateP/simpleFunP.py:regular_partition_uniform_distribution_rectangle_size", "bet/sample.py:cartesian_sample_set.setup"]}
{"id": "C35", "title": "Scaled and domain variants agree with the size variant", "statement": "The ..._scaled and ..._domain variants return what the ..._size variant returns for rect_size = scale * width, and the rectangle spanned by the given domain respectively.", "quantifier": "every data set, scale and rectangle", "why_tests_cant": "All parameters.", "anchors": ["bet/calculateP/simpleFunP.py:uniform_partition_uniform_distribution_rectangle_scaled", "bet/calculateP/simpleFunP.py:regular_partition_uniform_distribution_rectangle_domain"]}
{"id": "C36", "title": "Interior cells of a contour event are among its covering cells", "statement": "For every output cell, the input cells used for the lower estimate (all neighbours in the same contour event) are a subset of those used for the upper estimate.", "quantifier": "every neighbour list and pointer", "why_tests_cant": "All connectivities.", "anchors": ["bet/calculateP/calculateError.py:boundary_sets"]}
{"id": "C37", "title": "Sampling error bounds bracket zero", "statement": "calculate_for_contour_events returns, for every contour event where it is defined, a lower bound <= 0 and an upper bound >= 0; events of probability zero give 0 and events without interior cells give nan.", "quantifier": "every volume vector with non-negative entries, every neighbour list", "why_tests_cant": "All contents.", "anchors": ["bet/calculateP/calculateError.py:sampling_error.calculate_for_contour_events"]}
{"id": "C38", "title": "1-D connectivity links exactly the adjacent cells", "statement": "cell_connectivity_exact on a one-dimensional set returns for each cell exactly the contour events of the cells adjacent to it on the line; in more dimensions those of the cells sharing a Delaunay simplex with it.", "quantifier": "every list of distinct one-dimensional samples in any order", "why_tests_cant": "Holds or fails depending on the permutation.", "anchors": ["bet/calculateP/calculateError.py:cell_connectivity_exact"]}
{"id": "C39", "title": "Error queries do not change later answers", "statement": "The result of calculate_for_contour_events is the same before and after calls to calculate_for_sample_set_region.", "quantifier": "every sequence of calls on one sampling_error object", "why_tests_cant": "History dependence.", "anchors": ["bet/calculateP/calculateError.py:sampling_error.calculate_for_contour_events", "bet/calculateP/calculateError.py:sampling_error.calculate_for_sample_set_region"]}
{"id": "C40", "title": "Model error vanishes when the model is exact", "statement": "If perturbing outputs by their error estimates moves no sample to another output cell, every model error estimate (contour event, region, region by Monte Carlo) is 0.", "quantifier": "every discretization whose two pointers agree", "why_tests_cant": "All discretizations.", "anchors": ["bet/calculateP/calculateError.py:model_error.__init__", "bet/calculateP/calculateError.py:model_error.calculate_for_contour_events", "bet/calculateP/calculateError.py:model_error.calculate_for_sample_set_region", "bet/calculateP/calculateError.py:model_error.calculate_for_sample_set_region_mc"]}
{"id": "C41", "title": "Rejection sampling keeps a sub-collection with uniform weights", "statement": "invert_rejection_sampling accepts sample i iff r_i / max r >= u_i; for u in [0,1) and positive max r at least one sample is accepted, accepted samples are original samples in order, and the new probabilities are equal and sum to 1.", "quantifier": "every ratio vector with positive maximum and every outcome of the uniform numbers", "why_tests_cant": "All random outcomes.", "anchors": ["bet/calculateP/calculateR.py:invert_rejection_sampling"]}
{"id": "C42", "title": "Cluster weights of an inversion are a probability vector", "statement": "The cluster weights used by invert_to_kde, invert_to_gmm and invert_to_random_variable are the fractions of observed samples per cluster; they are non-negative and sum to 1 when every observed label is a cluster number.", "quantifier": "every labelling of the observations", "why_tests_cant": "All labellings.", "anchors": ["bet/calculateP/calculateR.py:invert_to_kde", "bet/calculateP/calculateR.py:invert_to_gmm"]}
{"id": "C43", "title": "Cluster-wise ratios land on the samples they were computed for", "statement": "invert assigns to every predicted sample of cluster j the ratio computed at that sample's own position, leaving samples of other clusters untouched by cluster j.", "quantifier": "every cluster labelling and every ratio vector", "why_tests_cant": "All labellings.", "anchors": ["bet/calculateP/calculateR.py:invert"]}
{"id": "C44", "title": "Weighted mean and covariance of invert_to_gmm", "statement": "For non-negative weights with positive sum, each fitted mean lies within the range of the samples in every coordinate and the fitted covariance is symmetric and positive semidefinite, and constant weights give the plain mean.", "quantifier": "every list of samples and weights", "why_tests_cant": "All samples.", "anchors": ["bet/calculateP/calculateR.py:invert_to_gmm"]}
{"id": "C45", "title": "regular_sample_set places midpoints of a uniform grid", "statement": "regular_sample_set puts n_1*...*n_d samples exactly at the centres of the n_1 x ... x n_d equal cells of the domain, all inside the domain, each multi-index once; in one dimension all exact volumes are 1/n.", "quantifier": "every dimension, domain and numbers per dimension >= 1", "why_tests_cant": "All dimensions and sizes.", "anchors": ["bet/sampling/basicSampling.py:regular_sample_set", "bet/sample.py:voronoi_sample_set.exact_volume_1D"]}
{"id": "C46", "title": "The sampler pairs every input with the model's output for it", "statement": "compute_qoi_and_create_discretization with a row-wise model yields output row i = model(input row i) for the samples the user set, for every process count.", "quantifier": "every row-wise model, input set, history of the input set and process count", "why_tests_cant": "All models and histories.", "anchors": ["bet/sampling/basicSampling.py:sampler.compute_qoi_and_create_discretization"]}
{"id": "C47", "title": "Order 0 surrogates reproduce the model at the data and are piecewise constant", "statement": "generate_for_input_set with order 0 gives each new point the output and error estimate of the nearest sample; a new point equal to a sample gets that sample's output.", "quantifier": "every discretization with distinct samples and every new input set", "why_tests_cant": "All sets.", "anchors": ["bet/surrogates.py:piecewise_polynomial_surrogate.generate_for_input_set"]}
{"id": "C48", "title": "Order 1 surrogates are exact for affine models", "statement": "If outputs are an affine function of the inputs with the given Jacobians, generate_for_input_set with order 1 reproduces the affine function at every new point.", "quantifier": "every affine model, every sample set and new point", "why_tests_cant": "All affine models and points.", "anchors": ["bet/surrogates.py:piecewise_polynomial_surrogate.generate_for_input_set"]}
{"id": "C49", "title": "Updating the input discretization from a surrogate conserves probability and error", "statement": "calculate_prob_for_sample_set_region with update_input gives each original cell the total surrogate probability and error identifier of its points, so totals are conserved for every process count.", "quantifier": "every pointer, probability vector and process count", "why_tests_cant": "All contents.", "anchors": ["bet/surrogates.py:piecewise_polynomial_surrogate.calculate_prob_for_sample_set_region"]}
{"id": "C50", "title": "Forward differences are exact for affine models", "statement": "For points from pick_ffd_points evaluated by an affine model, calculate_gradients_ffd(normalize=False) returns the model's Jacobian at every centre, and the centres paired with their outputs.", "quantifier": "every dimension, number of centres, non-zero radii and affine model", "why_tests_cant": "Index bookkeeping (repeat, tile, Fortran reshape) for all shapes.", "anchors": ["bet/sensitivity/gradients.py:pick_ffd_points", "bet/sensitivity/gradients.py:calculate_gradients_ffd"]}
{"id": "C51", "title": "Centred differences are exact for quadratic models and keep centre outputs", "statement": "For points from pick_cfd_points evaluated by a quadratic model, calculate_gradients_cfd(normalize=False) returns the exact gradient at every centre, and output row i of the result is the model's value at centre i.", "quantifier": "every dimension, number of centres, non-zero radii and quadratic model", "why_tests_cant": "Index bookkeeping for all shapes.", "anchors": ["bet/sensitivity/gradients.py:pick_cfd_points", "bet/sensitivity/gradients.py:calculate_gradients_cfd"]}
{"id": "C52", "title": "Normalised gradients have 1-norm one or zero", "statement": "With normalize=True every returned gradient vector has 1-norm 1, or is zero exactly when the raw gradient is zero; directions are unchanged.", "quantifier": "every gradient tensor", "why_tests_cant": "All tensors.", "anchors": ["bet/sensitivity/gradients.py:calculate_gradients_ffd", "bet/sensitivity/gradients.py:calculate_gradients_rbf"]}
{"id": "C53", "title": "find_unique_vecs keeps a maximal independent set of QoIs", "statement": "find_unique_vecs returns a subset of the requested QoIs without zero-gradient QoIs (if asked to remove them), in which no two QoIs have average inner product above the tolerance, and every removed non-zero QoI has a kept QoI with inner product above the tolerance.", "quantifier": "every gradient tensor, tolerance and index list", "why_tests_cant": "Greedy elimination over all pairs.", "anchors": ["bet/sensitivity/chooseQoIs.py:find_unique_vecs"]}
{"id": "C54", "title": "chooseOptQoIs returns the best sets for every process count", "statement": "The values returned are the num_optsets_return smallest values over all combinations, in ascending order (padded by inf), each next to a combination attaining it; the result's values do not depend on the process count; the returned singular values belong to the returned sets.", "quantifier": "every value assignment to combinations, every number to return and process count", "why_tests_cant": "All orders of arrival and process counts.", "anchors": ["bet/sensitivity/chooseQoIs.py:chooseOptQoIs_verbose"]}
{"id": "C55", "title": "find_good_sets enumerates each admissible set once", "statement": "Iterating find_good_sets yields every increasing set of unique QoIs all of whose leading subsets are below the tolerance, each exactly once, and the best of them are kept even when several have equal value.", "quantifier": "every unique index list, tolerance, value assignment and size", "why_tests_cant": "All combinatorial inputs.", "anchors": ["bet/sensitivity/chooseQoIs.py:find_good_sets", "bet/sensitivity/chooseQoIs.py:chooseOptQoIs_large_verbose"]}
{"id": "C56", "title": "sort_by_rho returns all samples of positive probability in order of density", "statement": "sort_by_rho returns exactly the samples with positive probability, in non-increasing order of probability/volume (or probability when there are no volumes), with values, volumes and outputs still paired.", "quantifier": "every probability and volume vector with positive volumes", "why_tests_cant": "All orders and ties.", "anchors": ["bet/postProcess/postTools.py:sort_by_rho"]}
{"id": "C57", "title": "sample_highest_prob / sample_lowest_prob return the largest admissible prefix", "statement": "sample_prob returns the longest prefix of the density-ordered samples whose total probability does not exceed the percentile; its mass is at most the percentile, adding the next sample would exceed it, and the returned indices identify the returned rows; it also works with sort=False.", "quantifier": "every probability vector and percentile, both sort flags", "why_tests_cant": "All vectors and thresholds.", "anchors": ["bet/postProcess/postTools.py:sample_prob"]}
{"id": "C58", "title": "Statistical distances behave like distances", "statement": "compare.distance: total variation and Euclidean distances are non-negative, symmetric, zero for identical densities and satisfy the triangle inequality; total variation with normalize=True is at most 1; the squared Hellinger distance is non-negative, symmetric and at most total variation.", "quantifier": "every pair of densities at any number of points", "why_tests_cant": "All densities.", "anchors": ["bet/postProcess/compareP.py:compare.distance"]}
{"id": "C59", "title": "compare.distance is a query", "statement": "Calling distance does not change the result of later distance calls, and distances always refer to the current comparison set.", "quantifier": "every sequence of set_compare_set and distance calls on one object", "why_tests_cant": "History dependence.", "anchors": ["bet/postProcess/compareP.py:compare.distance", "bet/postProcess/compareP.py:compare.set_compare_set"]}
{"id": "C60", "title": "The automatic comparison domain contains both sets", "statement": "set_compare_set(n) samples from a box that contains all values of both sets, enlarged by compare_factor in every direction; distance_marginal's automatic interval covers both domains.", "quantifier": "every pair of sets and compare_factor >= 0", "why_tests_cant": "All sets and dimensions.", "anchors": ["bet/postProcess/compareP.py:compare.set_compare_set", "bet/postProcess/compareP.py:compare.distance_marginal"]}
{"id": "C61", "title": "Marginals conserve mass and are consistent", "statement": "calculate_1D_marginal_probs puts the probability of every sample of the domain into exactly one bin, so each marginal sums to the total probability when all samples lie in the domain; summing a 2-D marginal over one axis gives the 1-D marginal; results do not depend on the process count.", "quantifier": "every set, bin count >= 1 and process count", "why_tests_cant": "All samples and bins, including bin edges.", "anchors": ["bet/postProcess/plotP.py:calculate_1D_marginal_probs", "bet/postProcess/plotP.py:calculate_2D_marginal_probs"]}
{"id": "C62", "title": "Dimension fixing is idempotent and lossless", "statement": "fix_dimensions_vector, fix_dimensions_vector_2darray, fix_dimensions_domain and fix_dimensions_data return arrays of the documented shape, keep all entries, are idempotent on their own output, and reject shapes they cannot interpret.", "quantifier": "every array shape", "why_tests_cant": "All shapes.", "anchors": ["bet/util.py:fix_dimensions_vector", "bet/util.py:fix_dimensions_vector_2darray", "bet/util.py:fix_dimensions_domain", "bet/util.py:fix_dimensions_data"]}
{"id": "C63", "title": "meshgrid_ndim enumerates the product once in row-major order", "statement": "Row r of meshgrid_ndim((v_1,...,v_n)) is the r-th element of the product v_1 x ... x v_n in lexicographic order; there are prod |v_i| rows of n columns.", "quantifier": "every tuple of at most ten non-empty vectors", "why_tests_cant": "All lengths.", "anchors": ["bet/util.py:meshgrid_ndim"]}
{"id": "C64", "title": "What is saved can be loaded", "statement": "After save_object(s, name) by p processes, load_object(name) by p processes gives each process an equal object, for globalized and unglobalized saves and for names with directories; loading a missing file raises.", "quantifier": "every file name, process count, globalize flag and set of files already present", "why_tests_cant": "All file systems states and names.", "anchors": ["bet/util.py:save_object", "bet/util.py:load_object", "bet/util.py:load_object_parallel"]}
{"id": "C65", "title": "The serial communicator behaves like MPI on one process", "statement": "Every collective of the fake communicator returns what MPI returns for size 1, so a program written for p processes computes on it what it computes under MPI with p = 1.", "quantifier": "every value and every collective used by BET", "why_tests_cant": "All values.", "anchors": ["bet/Comm.py:comm_for_no_mpi4py"]}
{"id": "C66", "title": "Ball volumes are exact and sum to one", "statement": "exact_volume of a ball sample set gives each ball the Lebesgue measure of the p-norm ball divided by the measure of the domain, and the remainder cell what is left, so the volumes sum to 1.", "quantifier": "every dimension >= 1, every finite p >= 1, every centres and non-negative radii, every domain of positive volume", "why_tests_cant": "All dimensions, norms and radii.", "anchors": ["bet/sample.py:ball_sample_set.setup", "bet/sample.py:ball_sample_set.exact_volume"]}
{"id": "C67", "title": "A cell's probability is the share of the emulated points in it", "statement": "For every simple-function constructor that bins emulated samples, the probability of a cell is the number of emulated samples whose nearest cell sample it is divided by the number of emulated samples.", "quantifier": "every data set, sizes, number of cells, outcome of the random sampling and process count", "why_tests_cant": "All random outcomes and process counts.", "anchors": ["bet/calculateP/simpleFunP.py:uniform_partition_uniform_distribution_rectangle_size", "bet/calculateP/simpleFunP.py:normal_partition_normal_distribution", "bet/calculateP/simpleFunP.py:uniform_partition_normal_distribution", "bet/calculateP/simpleFunP.py:user_partition_user_distribution"]}
{"id": "C68", "title": "Rectangle sizes may be numbers, lists or arrays", "statement": "The rectangle constructors accept rect_size as a positive number, as a list and as an array of positive numbers, and return a probability set.", "quantifier": "every positive size in each documented form", "why_tests_cant": "All sizes and forms.", "anchors": ["bet/calculateP/simpleFunP.py:uniform_partition_uniform_distribution_rectangle_size"]}
{"id": "C69", "title": "Covering cells cover the contour event", "statement": "The cells boundary_sets lists as covering a contour event contain every cell of that event.", "quantifier": "every neighbour relation, pointer and contour event", "why_tests_cant": "needs all neighbour relations; fails only for isolated cells", "anchors": ["bet/calculateP/calculateError.py:boundary_sets"]}
{"id": "C70", "title": "Model error is bounded by probability", "statement": "calculate_for_contour_events of model_error returns, for an event of positive volumes, a value between 0 and the probability of the event; the region estimate is at most the total probability in absolute value.", "quantifier": "all volumes, pointers, probabilities, regions, emulated points and process counts", "why_tests_cant": "bound over all pointers and volumes", "anchors": ["bet/calculateP/calculateError.py:model_error.calculate_for_contour_events", "bet/calculateP/calculateError.py:model_error.calculate_for_sample_set_region"]}
{"id": "C71", "title": "Sampling error bounds of a region bracket zero", "statement": "sampling_error.calculate_for_sample_set_region returns a lower bound <= 0 and an upper bound >= 0 for every region and set of emulated points.", "quantifier": "all neighbour relations, pointers, probabilities, regions, emulated points and process counts", "why_tests_cant": "all regions and point sets", "anchors": ["bet/calculateP/calculateError.py:sampling_error.calculate_for_sample_set_region"]}
{"id": "C72", "title": "Charged cell errors add up to the model error", "statement": "The error identifiers calculate_for_sample_set_region_mc stores on the input samples add up to the estimate it returns, for every process count.", "quantifier": "all pointers, regions, probabilities and process counts where each event has samples before and after", "why_tests_cant": "conservation over all inputs", "anchors": ["bet/calculateP/calculateError.py:model_error.calculate_for_sample_set_region_mc"]}
{"id": "C73", "title": "Reweighted copies match the requested shares", "statement": "The samples invert_to_random_variable fits the random variables to are copies of the input samples in order; each sample occurs a number of times within one half of its share of num_reweighted, so the total differs from num_reweighted by at most half the number of samples.", "quantifier": "every list of samples and weights, every num_reweighted and every rounding to nearest", "why_tests_cant": "All weights.", "anchors": ["bet/calculateP/calculateR.py:invert_to_random_variable"]}
{"id": "C74", "title": "Data-consistent inversion succeeds whenever every cluster has data", "statement": "invert and rejection sampling succeed whenever every cluster has at least one predicted and enough observed samples, with or without user-supplied cluster maps.", "quantifier": "every labelling, every number of clusters, with and without cluster maps", "why_tests_cant": "All cluster structures.", "anchors": ["bet/calculateP/calculateR.py:invert", "bet/calculateP/calculateR.py:generate_output_kdes"]}
{"id": "C75", "title": "clean_data removes nan and infinities only", "statement": "After clean_data all entries are finite; finite entries are unchanged, nan is 0, +-inf is the largest float of that sign; the order of entries is kept and cleaning twice is cleaning once.", "quantifier": "every array of floats", "why_tests_cant": "All arrays.", "anchors": ["bet/util.py:clean_data"]}
{"id": "C76", "title": "random_sample_set draws what was asked for", "statement": "On success the set has num_samples samples, distributed in shares that differ by at most one; coordinate i of the samples of a process are the numbers it drew from the distribution of dimension i; the domain consists of the supports of the distributions, contains all samples, and is the user's domain for 'uniform'; the set is consistent.", "quantifier": "every number of processes, distribution argument (name, pair, list), input object (dimension, domain, set) and outcome of the random numbers", "why_tests_cant": "All outcomes of the random numbers and all process counts.", "anchors": ["bet/sampling/basicSampling.py:random_sample_set"]}
{"id": "C77", "title": "lhs_sample_set keeps the Latin property", "statement": "On success sample k has coordinates a_i + (b_i - a_i) u_ki for row k of the Latin hypercube of pyDOE; the samples lie in the domain (the unit cube if there is none) and in each direction each of the n equal slices of the domain holds exactly one sample; the set is consistent.", "quantifier": "every number of processes, domain with a < b, Latin hypercube", "why_tests_cant": "All hypercubes and domains.", "anchors": ["bet/sampling/basicSampling.py:lhs_sample_set"]}
{"id": "C78", "title": "RBF gradients differentiate the interpolant", "statement": "For each of the first num_centers samples calculate_gradients_rbf(normalize=False) returns the centre with its output and the partial derivatives, at the centre, of the combination of radial basis functions (chosen kernel and shape parameter ep) at the nearest neighbours that takes the data's values there; radial_basis_function_dxi is the partial derivative of radial_basis_function.", "quantifier": "every kernel, shape parameter, dimension, number of centres and neighbours, and data", "why_tests_cant": "All data and all four kernels; the identity needs symmetry of the interpolation matrix and calculus at distance 0.", "anchors": ["bet/sensitivity/gradients.py:calculate_gradients_rbf", "bet/sensitivity/gradients.py:radial_basis_function", "bet/sensitivity/gradients.py:radial_basis_function_dxi"]}
{"id": "C79", "title": "chooseOptQoIs_large returns the singular values of the best sets", "statement": "The singular values returned with the best sets of a size are, position by position, those of the returned sets.", "quantifier": "every value assignment with its singular values, every number of sets to return and process count", "why_tests_cant": "All value assignments and process counts; the tests compare shapes only.", "anchors": ["bet/sensitivity/chooseQoIs.py:find_good_sets", "bet/sensitivity/chooseQoIs.py:chooseOptQoIs_large_verbose"]}
{"id": "C80", "title": "The Hellinger distance is the root of the squared Hellinger distance", "statement": "compare.distance('hell', normalize=b) returns the square root of what compare.distance('sqhell', normalize=b) returns, for both values of b.", "quantifier": "every pair of densities, any number of comparison points, both values of normalize", "why_tests_cant": "The two calls agree for one comparison point and whenever normalize is False, so examples can miss the case.", "anchors": ["bet/postProcess/compareP.py:compare.distance"]}
{"id": "C81", "title": "The average measure is the volume of the inverse image under the linearised map", "statement": "Given Jacobians at one or more centres and a choice of existing QoIs, no more of them than inputs, calculate_avg_measure returns the measure of the output box divided by the mean over the centres of the volume spanned by the chosen gradients. The value is infinite exactly when the gradients are linearly dependent at every centre, does not depend on the order of the QoIs, and for a linear map with as many QoIs as inputs equals the Lebesgue measure of the inverse image of every set of outputs with that measure. Without Jacobians, with a QoI that does not exist or with more QoIs than inputs there is an error. The documentation calls it the expected measure of the inverse image; it never exceeds that.", "quantifier": "every list of Jacobians, every choice of QoIs in every order, every box measure, every function that returns singular values", "why_tests_cant": "Tests compare the value for a few fixed Jacobians; that it is a volume, order independent and infinite exactly for dependent gradients is a statement about all real matrices.", "anchors": ["bet/sensitivity/chooseQoIs.py:calculate_avg_measure"]}
{"id": "C82", "title": "Skewness is at least one and one exactly for orthogonal gradients", "statement": "calculate_avg_skewness gives, at each centre where the chosen gradients are independent, for each QoI the length of its gradient divided by the length of the part of it perpendicular to the other gradients. It is at least 1, and 1 exactly if the gradient is perpendicular to all others. Where gradients are dependent no entry is finite. The value returned is the harmonic mean over the centres of the largest entry, with dependent gradients counted as infinite: infinite exactly when the gradients are dependent at all centres, otherwise at least 1, and independent of the order of the QoIs.", "quantifier": "every list of Jacobians, every choice of at least one and at most as many QoIs as inputs", "why_tests_cant": "The geometric meaning, the lower bound and its equality case hold for all matrices; tests evaluate a few.", "anchors": ["bet/sensitivity/chooseQoIs.py:calculate_avg_skewness"]}
{"id": "C83", "title": "The condition number is at least one, and infinite only for dependent gradients", "statement": "calculate_avg_condnum returns the harmonic mean over the centres of the quotient of the largest and the least singular value of the chosen gradients, with dependent gradients counted as infinite: infinite exactly when the gradients are dependent at every centre, otherwise at least 1, whatever the order of the QoIs. The singular values returned are those of the centres.", "quantifier": "every list of Jacobians, every choice of at least one and at most as many QoIs as inputs", "why_tests_cant": "The corner cases (a singular centre among regular ones, a single QoI) are not covered by tests, and the bound is for all matrices.", "anchors": ["bet/sensitivity/chooseQoIs.py:calculate_avg_condnum"]}
{"id": "C84", "title": "Samples of the p-ball lie in the ball", "statement": "Every sample of Lp_generalized_uniform and Lp_generalized_beta has one coordinate per dimension and lies in the ball around loc: the sum over the coordinates of (|x_i - loc_i| / scale_i)^p is at most 1, and equals the p-th power of the radius fraction that was drawn. For p = inf every coordinate differs from that of loc by at most the scale. With one scale the p-norm distance from loc is the radius fraction times the scale. There is a sample unless all normal variates drawn are zero.", "quantifier": "every dimension, every p > 0, every scale (one number or one per dimension), every centre, every outcome of the random draws", "why_tests_cant": "Samples are random: a test sees finitely many of them and the property is about all outcomes of the draws.", "anchors": ["bet/sampling/LpGeneralizedSamples.py:Lp_generalized_normal", "bet/sampling/LpGeneralizedSamples.py:Lp_generalized_uniform", "bet/sampling/LpGeneralizedSamples.py:Lp_generalized_beta"]}
{"id": "C85", "title": "Clusters around centres have the size asked for and stay in the domain", "statement": "sample_lp_ball (and sample_linf_ball, sample_l1_ball) returns a set with the dimension and domain of the input whose values are the centres in their order followed by one cluster of num_close samples per centre, in the same order, so that cluster i occupies rows n + i*num_close onwards. Every cluster sample was drawn around its centre, so it lies in the p-ball around it, and it lies in the domain if there is one. For num_close at least 1 there is no error; the call returns exactly if for every centre some attempt yields enough samples in the domain, and always without a domain.", "quantifier": "every sample set, every number of samples per centre, every sequence of random draws, every process count", "why_tests_cant": "The retry loop depends on random draws of growing size; whether it ends and what it keeps is about all sequences of draws.", "anchors": ["bet/sensitivity/gradients.py:sample_lp_ball", "bet/sensitivity/gradients.py:sample_linf_ball", "bet/sensitivity/gradients.py:sample_l1_ball"]}
{"id": "C86", "title": "sample_from_updated draws the requested number of points from the updated measure", "statement": "sample_from_updated(set, n) returns a set of the same dimension with n points, shared among the processes. For kernel density estimates every process draws, cluster by cluster, its share of round(weight * n) points whose coordinate i comes from the estimate for parameter i of that cluster; for Gaussian mixtures its share of points from the Gaussian of each cluster; for random variables column i comes from distribution i. The number of points does not depend on the process count. Other measures are refused.", "quantifier": "every dimension, list of cluster weights, number of points, process count and outcome of the draws", "why_tests_cant": "The result depends on rounding, on shapes that coincide for special numbers and on the process count; the faults appear only for particular combinations.", "anchors": ["bet/sampling/basicSampling.py:sample_from_updated"]}
{"id": "C87", "title": "Radii of Voronoi cells are the largest distances of the random points in them", "statement": "estimate_radii sets the radius of each cell to the largest distance, over all processes, of a random point in the cell from its sample, measured in coordinates relative to the domain if normalize is set. estimate_radii_and_volume gives the same radii and, as volumes, the fractions of the points in the cells, which are non-negative and add up to 1. The result depends only on the points, not on which process drew them. If some process has no point in some cell there is an error.", "quantifier": "every Voronoi set with a domain, every set of random points and distribution over processes, both values of normalize", "why_tests_cant": "Quantifies over all random points and process counts; whether a cell is missed by a process is a matter of chance in a test.", "anchors": ["bet/sample.py:voronoi_sample_set.estimate_radii", "bet/sample.py:voronoi_sample_set.estimate_radii_and_volume"]}
{"id": "C88", "title": "Random discretizations pair every random input with its output", "statement": "create_random_discretization(rv, obj, num_samples=n) with a row-wise model returns a discretization with n inputs, column i drawn from the distribution of dimension i and shared among the processes, and output row k = model(input row k), on each process and globally if globalize is set; error estimates and Jacobians likewise. For a fresh input it succeeds whenever the distributions are available and the result passes check_nums.", "quantifier": "every distribution specification, input object, number of samples, process count, row-wise model", "why_tests_cant": "All models, distributions and process counts.", "anchors": ["bet/sampling/basicSampling.py:sampler.create_random_discretization"]}
{"id": "C89", "title": "pdf and marginal_pdf evaluate one density and its marginals", "statement": "For kernel density estimates, independent random variables and Gaussian mixtures, pdf(vals) gives, row by row, the values of one function that is non-negative and has integral one, and marginal_pdf(vals, i) gives the values of the density of parameter i under it, whether vals holds numbers, one column or whole points. For kernel density estimates the density should be that of the law sample_from_updated draws from. Arrays with the wrong number of columns, Voronoi sets without probabilities and unknown kinds of measures are refused.", "quantifier": "All numbers of parameters, clusters and points, all one-dimensional densities, weights and points.", "why_tests_cant": "Being a density and being a marginal are statements about integrals over all points; tests evaluate at a few.", "anchors": ["bet/sample.py: evaluate_pdf, evaluate_pdf_marginal, sample_set_base.pdf, pdf_init, marginal_pdf, marginal_pdf_init, sample_from_updated"]}
{"id": "C90", "title": "Smoothed marginals are probabilities, blurred by a centred kernel", "statement": "smooth_marginals_1D and smooth_marginals_2D, on marginals with at least one positive value and a positive smoothing parameter, return a dictionary with the same keys and shapes whose values are non-negative and sum to one. Each value is the sum of all values with Gaussian weights that depend on the number of bins between them, over the total; the result does not depend on the scale of the marginal; smoothing a product of two marginals smooths each of them. The kernel should be centred, so that a peak stays in its bin.", "quantifier": "All dictionaries, numbers of bins, bin widths, smoothing parameters and values.", "why_tests_cant": "The number of bins decides whether the kernel is centred, and the result is read from plots; tests compare with stored results.", "anchors": ["bet/postProcess/plotP.py: smooth_marginals_1D, smooth_marginals_2D"]}
{"id": "C91", "title": "exact_volume_2D gives the relative areas of the Voronoi cells in the domain", "statement": "After exact_volume_2D on a two-dimensional sample set whose samples are distinct and inside the domain, the volume of every sample is the area of the part of its Voronoi cell in the domain divided by the area of the domain; the volumes are positive, sum to one and do not depend on the number of processes. Other dimensions are refused.", "quantifier": "all two-dimensional sample sets with distinct samples inside their domain, all domains, side ratios and numbers of processes, and every Voronoi/Delaunay routine that computes cells and triangulations correctly", "why_tests_cant": "Areas of cells are real numbers determined by all samples at once; a test compares a handful of configurations, while whether the reflected points cut every cell at the boundary depends on where all the samples are.", "anchors": ["bet/sample.py: voronoi_sample_set.exact_volume_2D"]}
{"id": "C92", "title": "invert_to_kde gives a probability measure made of weighted kernel density estimates", "statement": "invert_to_kde(predict_set, obs_set) succeeds when every cluster has at least two predicted and two observed samples. The predicted input set then carries, for every cluster, the fraction of observed samples as a weight and for every parameter a kernel density estimate of the values in that cluster, weighted by the ratio of observed to predicted density; pdf and marginal_pdf of the result are a probability density and its marginals. If a cluster number is skipped the result cannot be evaluated.", "quantifier": "every pair of predicted and observed sets, every clustering, every kernel density estimator with positive values", "why_tests_cant": "the weights, the clusters and the density estimates depend on the data and the external estimator", "anchors": ["bet/calculateP/calculateR.py:invert_to_kde", "bet/sample.py:sample_set.pdf", "bet/sample.py:sample_set.marginal_pdf"]}
{"id": "C93", "title": "invert_to_random_variable fits the distributions asked for to copies of the samples in proportion to their weights", "statement": "invert_to_random_variable(predict_set, obs_set, rv, num_reweighted) accepts a name, a pair of a name and parameters or a list with one entry for every dimension; anything else is refused. On success parameter i gets the distribution asked for, fitted to coordinate i of copies of the samples, where the number of copies of a sample is its share of num_reweighted rounded to the nearest integer, and every fitted parameter is stored under the name it has in the distribution so that marginal_pdf is its density.", "quantifier": "every sets, every argument rv, every library of distributions, every rounding to a nearest integer", "why_tests_cant": "the distributions have different numbers and names of parameters and tests use two or three of them", "anchors": ["bet/calculateP/calculateR.py:invert_to_random_variable", "bet/sample.py:sample_set.marginal_pdf"]}
{"id": "C94", "title": "Distances of marginals by quadrature are the statistical distances of their densities over the interval", "statement": "distance_marginal_quad(i, interval, functional) gives half the integral of the absolute difference of the marginal densities for 'tv' (between 0 and 1, symmetric, zero exactly if the densities agree almost everywhere in the interval, with the triangle inequality), the Hellinger distance for 'hell' (between 0 and 1, symmetric, its square at most the total variation), the L2 distance for '2' and the Kullback-Leibler divergence for 'kl' (not negative if the first density has at least the mass of the second in the interval). Every documented name is accepted and gives a distance. Without an interval the one computed from the domains or values is used, for all names.", "quantifier": "every pair of sets, every marginal densities, every interval", "why_tests_cant": "the claims are about integrals of arbitrary densities; tests compare a few fixed sets with loose tolerances", "anchors": ["bet/postProcess/compareP.py:compare.distance_marginal_quad"]}
{"id": "C95", "title": "A one-dimensional Voronoi plot shows for every sample its cell and its density", "statement": "plot_1D_voronoi(sample_set) draws one line for each sample, over exactly the points of the domain that are nearest to the sample, at the height probability divided by length (density=True) or probability (density=False), does not change the set, and refuses other objects, other dimensions and sets without probabilities.", "quantifier": "every one-dimensional set of distinct samples in its domain, in any order, with any probabilities", "why_tests_cant": "a test can only check that a picture is written", "anchors": ["bet/postProcess/plotVoronoi.py:plot_1D_voronoi"]}
{"id": "C96", "title": "A Voronoi plot in the plane colours every drawn point by a nearest sample", "statement": "plot_2D_voronoi(sample_set) draws for every sample a polygon such that every point of the polygon has this sample as a nearest one, coloured by its probability or density relative to the largest one, which is one at the top of the colour bar. voronoi_finite_polygons_2d keeps bounded regions and ends unbounded ridges on the ridge at the given radius. The polygons cover the domain and the given labels are shown.", "quantifier": "every two-dimensional set, every Voronoi diagram of its samples, every radius", "why_tests_cant": "the geometry of unbounded regions depends on the samples; tests only check that a picture is written", "anchors": ["bet/postProcess/plotVoronoi.py:plot_2D_voronoi", "bet/postProcess/plotVoronoi.py:voronoi_finite_polygons_2d"]}
{"id": "C97", "title": "A plot of one-dimensional marginals passes through the histogram densities of the samples", "statement": "plot_1D_marginal_probs(marginals, bins, sample_set), applied to the result of calculate_1D_marginal_probs for a set with a domain (or a discretization whose marginals were computed on the same domain), makes one figure for every parameter. Its curve has one point for each bin, whose abscissa lies in the bin and whose ordinate times the width of the bin is the probability of the samples in that bin, so that these products sum to the total probability; the curve runs from one end of the domain to the other and stays below the limit of the axis; the marked point is the reference value; no figure overwrites another one.", "quantifier": "all sample sets with any number of samples and parameters and any probabilities, numbers of bins, numbers of processes, reference values, labels and file names", "why_tests_cant": "tests only check that the functions run and that files exist; the relation between the curve and the probabilities has to hold for all samples and numbers of bins", "anchors": ["bet/postProcess/plotP.py:plot_1D_marginal_probs", "bet/postProcess/plotP.py:calculate_1D_marginal_probs"]}
{"id": "C98", "title": "Images and contours of two-dimensional marginals show the histogram densities of the samples", "statement": "plot_2D_marginal_probs, applied to the result of calculate_2D_marginal_probs on the same domain, makes one image for each pair of parameters which shows, in every point of the domain, the probability of the samples in the bin that contains the point divided by the area of the bin, with the first parameter along the horizontal axis; these densities times the areas sum to the total probability. plot_surface=True adds a surface whose height over the centre of a bin is the probability of that bin. plot_2D_marginal_contours draws contours of the function with the same densities as values in the centres of the bins, with the marks of lam_ref and lam_refs and the limits plot_domain. No figure overwrites another one.", "quantifier": "all sample sets with at least two parameters and any number of samples, probabilities, numbers of bins in each direction, numbers of processes, all pairs of parameters and all points of the domain", "why_tests_cant": "tests check that files are written; a transposed image or a wrong width of a bin goes unnoticed", "anchors": ["bet/postProcess/plotP.py:plot_2D_marginal_probs", "bet/postProcess/plotP.py:plot_2D_marginal_contours"]}
{"id": "C99", "title": "Plots of marginal densities show the densities of the sample sets", "statement": "plot_1d_marginal_densities(sets, i) on sample sets and discretizations draws, over common abscissae, one dashed curve for every set with an updated measure and (with initials) one solid curve for every set with an initial measure, and nothing else. Each curve goes through the values of the marginal density of parameter i of that measure; for weighted kernel density estimates and for independent random variables these are the density of the coordinate under the law whose density is pdf. The abscissae are num_points equally spaced points of interval, or 100 equally spaced points of the range of parameter i over all samples of all sets, extended by a quarter on each side. Default legends of sets without labels are distinct. It succeeds whenever the measures have marginal densities and legends suffice, and refuses other objects. (num_points has no effect without interval, and sets with the same labels get the same legends: these are proved as negations.)", "quantifier": "all lists of sample sets and discretizations of any size and dimension, parameters, intervals, numbers of points, legends and flags", "why_tests_cant": "which curve is drawn for which set, and whether it is a density of the right measure, depends on all measures, samples and lists of sets", "anchors": [{"file": "bet/postProcess/plotP.py", "symbols": ["plot_1d_marginal_densities"]}, {"file": "bet/sample.py", "symbols": ["sample_set_base.marginal_pdf", "sample_set_base.marginal_pdf_init"]}]}
{"id": "C100", "title": "Scatter plots show the chosen samples with their own colours", "statement": "scatter_2D and scatter_3D show, for the sample numbers asked for (all by default) and in that order, the coordinates of each sample in the colour that belongs to the same sample, mark the reference value that is given (or that of the set), and save the figure if and only if asked, adding the extension to names without a dot. They succeed on every consistent set of the right dimension and refuse other dimensions and objects. scatter_2D_input and scatter_2D_output do this for the input or output samples, coloured by the array that a string names. (Proved as negations: the extension is lost when the folder contains a dot; an array that was not computed silently gives uniform colours labelled 'index'; strings are compared by identity; scatter_3D_input and scatter_3D_output always raise.)", "quantifier": "all sample sets of any size, sample numbers, colours, reference values, labels, file names and flags", "why_tests_cant": "pairing of points and colours must hold for every selection of samples, of any size and order, and every colour array", "anchors": [{"file": "bet/postProcess/plotDomains.py", "symbols": ["scatter_2D", "scatter_3D", "scatter_2D_input", "scatter_2D_output", "scatter_3D_input", "scatter_3D_output"]}]}
{"id": "C101", "title": "Scatter plots of densities cover all pairs or triples of coordinates", "statement": "scatter_rhoD colours the plotted samples (given set, or input or output of a discretization) by rho_D at the output samples of the same numbers, and by one colour without rho_D. With showdim=2 (dimension at least 3) it makes exactly one figure for each pair of the coordinates dim_nums (default all pairs x<y), with showdim=3 (dimension at least 4) one for each triple, showing these coordinates of the chosen samples and of the reference value, in different files; samples of dimension two, and of dimension three without showdim=2, are shown in one figure. It succeeds on every consistent set. (Proved as negations: a given label_char is ignored; output sets without rho_D raise TypeError; dimension one raises IndexError; dimension four or more without showdim draws nothing; in dimension two dim_nums changes labels but not the plotted coordinates.)", "quantifier": "all sample sets and discretizations of any dimension and size, densities, coordinate lists, sample numbers and flags", "why_tests_cant": "which coordinates are plotted in which file depends on the dimension and on arbitrary lists of coordinate numbers", "anchors": [{"file": "bet/postProcess/plotDomains.py", "symbols": ["scatter_rhoD"]}]}
{"id": "C102", "title": "Multiple scatter plots cover the requested pairs of coordinates", "statement": "scatter_2D_multi makes exactly one figure for each pair that showdim asks for (all pairs x<y for 'all'; the given coordinate, or the first, with every coordinate for a number), showing these coordinates of all samples with their colours and of the reference value, each in its own file in img_folder. It succeeds on every consistent set if the folder exists or can be made. scatter_2D_multi_output with the name of an array does this for the output samples. (Proved as negations: with a number there is also a figure of the coordinate against itself; scatter_2D_multi_input raises for every argument; scatter_2D_multi_output raises for arrays of colours and by default.)", "quantifier": "all sample sets of any dimension and size, colours, reference values, coordinates and names", "why_tests_cant": "the set of pairs and their files must be right in every dimension", "anchors": [{"file": "bet/postProcess/plotDomains.py", "symbols": ["scatter_2D_multi", "scatter_2D_multi_input", "scatter_2D_multi_output"]}]}
{"id": "C103", "title": "Plots of the data domain show each pair of outputs and its reference values", "statement": "show_data_domain_2D adds to the current figure the region covered by the triangles (those given, or the triangulation of the first two input coordinates) in the plane of the first two outputs, saves it, adds one mark per reference value in its own colour and shape, saves it again if asked and closes it. If no figure is open, show_data_domain_multi writes for each pair of outputs asked for by showdim and Q_nums, and for no other, two files that show these coordinates of the outputs and of the reference values and nothing of other pairs, with the same triangles for all; all file names differ and no figure stays open. It succeeds on every consistent discretization with enough colours and markers and refuses other objects. (Proved as negations: save=False writes the first file all the same; contents of a figure that is already open appear in the saved files; more reference values than colours, eight with the default colours, always raise.)", "quantifier": "all discretizations of any dimension and size, reference values, coordinate lists, triangulations, colours, names and prior states of the plotting library", "why_tests_cant": "the set of files and the absence of leaks from one figure into the next must hold for every number of outputs and every list of coordinates", "anchors": [{"file": "bet/postProcess/plotDomains.py", "symbols": ["show_data_domain_multi", "show_data_domain_2D"]}]}
{"id": "C104", "title": "Getters return what was last set, in every history of calls", "statement": "In every sequence of calls of setters and appenders of a sample set, including calls that raise and are caught, each getter returns what its own setter was last given; calls for one attribute change the result of no other getter, and the dimension never changes. Reference values of the wrong shape and domains with the wrong number of rows are refused and change nothing. Values that can be arranged in rows of dim numbers are accepted and returned so arranged; appended values, Jacobians and error estimates follow the old ones in the order of the calls. The bounding box computed by set_bounding_box, or by get_bounding_box on an object without one, has the least and greatest value of each coordinate; update_bounds and update_bounds_local repeat the bounds of the domain for each sample. (Proved as negations: get_error_id_local returns None after every history, whatever set_error_id_local was given; set_values of an array that does not fit raises but replaces the values by the refused array; get_bounding_box returns the old box after values are set or appended; only the number of rows of a domain is checked.)", "quantifier": "all finite sequences of calls on all objects, with arbitrary arrays of any shape and number of axes", "why_tests_cant": "the claim is about every history of calls, including those in which some calls raise", "anchors": [{"file": "bet/sample.py", "symbols": ["sample_set_base.set_error_id_local", "sample_set_base.get_error_id_local", "sample_set_base.set_values", "sample_set_base.append_values", "sample_set_base.append_values_local", "sample_set_base.set_reference_value", "sample_set_base.set_domain", "sample_set_base.set_bounding_box", "sample_set_base.get_bounding_box", "sample_set_base.update_bounds", "sample_set_base.update_bounds_local", "sample_set_base.append_jacobians", "sample_set_base.append_error_estimates"]}]}
{"id": "C105", "title": "The interface to LUQ pairs inputs with what was learnt", "statement": "useLUQ.setup evaluates the time-dependent model at the values of the prediction set and of the observation set and hands these series and the times to LUQ (without an observation set it raises AttributeError); initialize uses its arguments, and where they are missing the computed series or the series set by hand. On one process make_disc pairs the (globalized) prediction set with an output set that has exactly the labels and cluster maps LUQ found for the predictions, and with an observed set that has the cluster maps found for the observations; if there is an observation set the second discretization pairs it with that same observed set, which then has the labels, and otherwise it is None. make_disc succeeds whenever the principal components are known and the input sets are consistent, and raises AttributeError before initialize and TypeError before learning. The code departs from what a user expects in two ways that are proved as well: without an observation set the observed set has no global labels, so that the inversion replaces the labels LUQ found for the predictions by zeros; and on several processes the output set has the labels repeated once per process, without an exception.", "quantifier": "all prediction and observation sets, models, times, results of LUQ, numbers of clusters and processes", "why_tests_cant": "Tests use one model, one clustering and one process, and always give an observation set or do not look at the labels after the inversion.", "anchors": [{"file": "bet/sampling/useLUQ.py", "symbols": ["useLUQ.__init__", "useLUQ.get_predictions", "useLUQ.get_obs", "useLUQ.set_observed_time_series", "useLUQ.initialize", "useLUQ.setup", "useLUQ.make_disc"]}, {"file": "bet/sample.py", "symbols": ["discretization.local_to_global"]}, {"file": "bet/calculateP/calculateR.py", "symbols": ["generate_output_kdes"]}]}
{"id": "C106", "title": "Histories of calls on a sampler", "statement": "Whatever sequence of sampling, evaluation and gathering calls is made on one sampler, the discretizations that were returned keep referring to the same two sample sets, and a sample set changes only by calls that sample into it, evaluate the model at it or gather it. The model is evaluated at the set that is given and otherwise at the set that was sampled or evaluated last. For a model that works row by row, if no call samples again into a set that is already part of a discretization and results are gathered, then after any history every discretization that was ever returned pairs each input row with the output of the model for that row. Without the rule it fails: random_sample_set and lhs_sample_set work on the object they are given, so the discretization made from it before gets the new inputs and keeps the old outputs; and a second evaluation with globalize=False takes the global inputs from the first discretization.", "quantifier": "all histories of calls, all sets, distributions, numbers of samples, models that work row by row, numbers of processes", "why_tests_cant": "Tests make one or two calls on a new sampler and look at the last discretization only.", "anchors": [{"file": "bet/sampling/basicSampling.py", "symbols": ["sampler.__init__", "sampler.local_to_global", "sampler.random_sample_set", "sampler.lhs_sample_set", "sampler.regular_sample_set", "sampler.compute_qoi_and_create_discretization", "sampler.compute_QoI_and_create_discretization", "sampler.create_random_discretization"]}]}
{"id": "C107", "title": "The reference value of the outputs", "statement": "If the input set has a reference value and the model also accepts a vector of parameters and returns the vector of outputs, compute_qoi_and_create_discretization gives the output set the model's output for the reference value. Any reference value that is stored is one the model returned for the reference value (as a vector or as one row) and has the dimension of the outputs; without a reference value, or if the model raises ValueError both for the vector and for the row, there is none. The code departs from its documentation: a model with the documented interface (N, ndim) to (N, mdim) that does not accept vectors makes the call raise whenever there is a reference value, because the second attempt gives shape (1, mdim), which set_reference_value does not accept; so does a model that returns error estimates or Jacobians.", "quantifier": "all models, reference values, dimensions", "why_tests_cant": "Tests use a few models that happen to accept vectors.", "anchors": [{"file": "bet/sampling/basicSampling.py", "symbols": ["sampler.compute_qoi_and_create_discretization"]}, {"file": "bet/sample.py", "symbols": ["sample_set_base.set_reference_value"]}]}
{"id": "C108", "title": "A whole inverse problem gives the answer the theory prescribes", "statement": "Start from any non-empty set of input samples, give them equal volumes (estimate_volume_mc), run any row-wise model with compute_QoI_and_create_discretization, put a measure on the data space with regular_partition_uniform_distribution_rectangle_size, regular_partition_uniform_distribution_rectangle_scaled or user_partition_user_distribution, and call calculateP.prob. With valid arguments the whole sequence succeeds for every number of processes and the result is the same for all of them: each cell's probability is divided equally among the input samples whose model output lies in the cell. For the regular partitions a sample whose output lies in the rectangle gets (1/prod(cells)) divided by the number of samples in the same cell, every other sample gets 0. The samples of a reached cell carry together exactly the probability of the cell, and the total is 1 if every cell of positive probability is reached.", "quantifier": "all sample sets, models, dimensions, rectangles, numbers of cells, partitions, points and numbers of processes", "why_tests_cant": "The claim is about the composition of five public calls and must hold for every model and every number of processes; tests run the scripts for one model on one process and look at plots.", "anchors": ["examples/measure_methods/linearMap/BET_linearMap.py", "examples/measure_methods/validationExample/BET_linearMap.py", "bet/sample.py:sample_set_base.estimate_volume_mc", "bet/sampling/basicSampling.py:sampler.compute_QoI_and_create_discretization", "bet/calculateP/simpleFunP.py:regular_partition_uniform_distribution_rectangle_size", "bet/calculateP/simpleFunP.py:regular_partition_uniform_distribution_rectangle_scaled", "bet/calculateP/simpleFunP.py:user_partition_user_distribution", "bet/calculateP/calculateP.py:prob"]}
{"id": "C109", "title": "One cell in the data space makes all samples equally probable", "statement": "If the user-defined partition of the data space has a single sample, then the inverse problem (estimate_volume_mc, model run, user_partition_user_distribution, prob) gives each of the N input samples probability exactly 1/N, for every model, every partition sample, every non-empty set of points and every number of processes (the remark in the validation example).", "quantifier": "all models, sample sets, partition samples, points and numbers of processes", "why_tests_cant": "An equality for every model and sample set.", "anchors": ["examples/measure_methods/validationExample/BET_linearMap.py", "bet/calculateP/simpleFunP.py:user_partition_user_distribution", "bet/calculateP/calculateP.py:prob"]}
{"id": "C110", "title": "sampling_error from a discretization to the bounds", "statement": "For every discretization whose input set is a Voronoi set with the 2-norm and that has outputs and an output probability set, sampling_error(disc) succeeds and calculate_for_contour_events() returns one pair of bounds per cell of the output probability set: (0, 0) for probability 0; nan if no input cell is interior to the contour event; otherwise, if the interior has positive volume, a lower bound <= 0 and an upper bound >= 0 given by the volumes of the cells interior to the event and of the cells with a neighbour in the event. The events are the cells of the model outputs, the neighbours the Delaunay neighbours (more than one dimension) or the adjacent cells on the line (one dimension; distinct samples in an order whose argsort is its own inverse, such as sorted samples), the volumes those of the input set, else the fractions of the emulated points in the cells, else equal ones. The bounds do not depend on the number of processes. Sets of another kind or with another norm raise wrong_argument_type.", "quantifier": "all discretizations, probabilities, triangulations and numbers of processes", "why_tests_cant": "Composition of connectivity, boundary sets, pointers, volume estimation and the loop over events; must hold for every configuration of samples and every number of processes.", "anchors": ["bet/calculateP/calculateError.py:sampling_error.__init__", "bet/calculateP/calculateError.py:cell_connectivity_exact", "bet/calculateP/calculateError.py:boundary_sets", "bet/calculateP/calculateError.py:sampling_error.calculate_for_contour_events"]}
{"id": "C111", "title": "pdf of a Voronoi set answers for the current probabilities", "statement": "Evaluating the density of a Voronoi sample set with pdf does not change what later evaluations return: as long as the set stays consistent, a further pdf at any points returns (or raises) what it would have without the first call. The densities are kept, however, so that pdf does not follow the probabilities: once pdf has been called, the set answers with the old probabilities whatever new ones it is given and distributed, until set_densities_local() is called without an argument, after which it answers as a set that had the new probabilities from the start.", "quantifier": "all Voronoi sample sets on which pdf once succeeded, all numbers of processes, all points of the two evaluations, all new probabilities", "why_tests_cant": "A test evaluates pdf once, on a fresh set; what matters is a history of evaluations and changes of the probabilities, of any length and with any values.", "anchors": ["bet/sample.py: sample_set_base.pdf, set_densities_local, set_probabilities, local_to_global, evaluate_pdf"]}
{"id": "C112", "title": "Pointers of a discretization stay right through every history of calls", "statement": "After set_io_ptr, set_emulated_ii_ptr or set_emulated_oo_ptr, the local pointer and, once it has been globalized, the global pointer keep saying for every point which cell holds it, through every further history of successful calls on the discretization (pointers, volumes, probabilities, checks, globalization and the setting of sample sets), as long as no call replaces the sample set of the points or the sample set of the cells. A call that does replace one of them leaves the old pointer in place, so that it can name the wrong cell or no cell at all.", "quantifier": "all discretizations, all finite histories of calls of any length in any order, all numbers of processes, all three pointers", "why_tests_cant": "The pointers are caches that many methods fill and many read; a test runs a few fixed orders of calls, while the claim is about every order and every length.", "anchors": ["bet/sample.py: discretization.set_io_ptr, set_emulated_ii_ptr, set_emulated_oo_ptr, globalize_ptrs, set_input_sample_set, set_output_probability_set, set_emulated_input_sample_set, set_emulated_output_sample_set, estimate_input_volume_emulated, estimate_output_volume_emulated", "bet/calculateP/calculateP.py: prob, prob_on_emulated_samples"]}
{"id": "C113", "title": "Saving from several processes", "statement": "When several processes save a discretization at the same time to files of their own, every interleaving of their writes leaves in every file exactly the bytes of that process, so that loading it gives back what was saved. When they save to one and the same file, the file is right at the end if all write the same bytes, and also if one of them opens the file after all the others have finished; in other orders the file can end up as a mixture that is neither object, and a process that stops half-way leaves a file that cannot be loaded, the earlier contents of which are lost.", "quantifier": "all numbers of processes, all saved objects, all file names, all interleavings of the single writes, all crash points", "why_tests_cant": "Races and crash points cannot be enumerated by tests; the claim is about every schedule of every number of writers.", "anchors": ["bet/sample.py: sample_set_base.save, discretization.save", "bet/util.py: save_object, load_object"]}
{"id": "C114", "title": "The calls with collectives neither hang nor depend on the schedule", "statement": "prob, prob_on_emulated_samples, prob_from_sample_set, prob_from_sample_set_with_emulated_volumes, estimate_volume and estimate_volume_emulated run on several processes, each at its own speed, that meet in allreduce and allgather. Whatever the order in which the processes run, no run gets stuck: from every reachable state the processes can still finish, they have finished as soon as everybody had a turn often enough, and every process ends with the same result, its part of the local arrays and the global arrays, as if all had run in step. This needs a call that succeeds on all processes: when one process raises before a collective, for instance because its local volumes have the wrong length, the others wait in that collective for ever.", "quantifier": "all numbers of processes, all schedules of any length, all discretizations and sample sets for which the call succeeds, all divisions of the arrays among the processes", "why_tests_cant": "The number of interleavings is unbounded, and whether two processes reach the same collective in the same order depends on the data in each of them; tests run on one process.", "anchors": ["bet/calculateP/calculateP.py: prob, prob_on_emulated_samples, prob_from_sample_set, prob_from_sample_set_with_emulated_volumes", "bet/sample.py: sample_set_base.estimate_volume, estimate_volume_emulated", "bet/util.py: get_global_values", "bet/Comm.py: comm"]}
{"id": "C115", "title": "Copies are independent, references are not", "statement": "copy of a discretization gives a new discretization that shows the same sample sets in every slot and in which two slots share one set object exactly when they do in the original; nothing else changes. From then on no history of calls on the original, its sets or any other object changes what the copy shows, and no history of calls on the copy changes the original or any other object. The same holds of copy of a sample set. In contrast set_input_sample_set and the other setters store the object itself and the getters hand it out: every change made through one holder of a set shows in all discretizations and slots that hold it. A setter refuses a set, with dim_not_matching, exactly when a set that the discretization shows on the same side (input and emulated input; output, output probabilities and emulated output, the setters of the input and the output never) has another dimension at that moment.", "quantifier": "all programs: all finite histories of constructors, setters, in-place changes and copies before and after the copy, all discretizations with any sharing between slots", "why_tests_cant": "Aliasing errors show only for particular combinations of sharing and later changes; a test compares one copy after one change.", "anchors": ["bet/sample.py: discretization.copy, sample_set_base.copy", "bet/sample.py: discretization.get_input_sample_set, set_input_sample_set, set_output_sample_set, set_output_observed_set, set_output_probability_set, set_emulated_input_sample_set, set_emulated_output_sample_set"]}
{"id": "C116", "title": "Rectangles and balls keep their cells whatever is appended", "statement": "On a rectangle or ball set, append_values, append_values_local, append_jacobians, append_error_estimates, update_bounds and update_bounds_local return without an exception and change nothing, so whatever was to be appended is lost. After any history of these calls, of the setters of volumes, probabilities, Jacobians and error estimates, of exact volumes and of moves between local and global arrays, every query that answers gives for every point the first of the rectangles or balls passed to setup that contains it, or the remainder. On a Voronoi set the same calls add the rows at the end and make the bounds those of the domain.", "quantifier": "every list of rectangles or balls, every history of calls, every number of processes, every batch of query points", "why_tests_cant": "The order and number of calls is unbounded, and a test of single calls does not show that a localized copy never brings old sides back.", "anchors": ["bet/sample.py: rectangle_sample_set.setup, append_values, append_values_local, append_jacobians, append_error_estimates, update_bounds, update_bounds_local", "bet/sample.py: ball_sample_set (the same methods)", "bet/sample.py: sample_set_base.update_bounds, append_values, append_jacobians, append_error_estimates"]}
{"id": "C117", "title": "Choosing QoIs on several processes", "statement": "chooseOptQoIs, chooseOptQoIs_verbose, find_good_sets and chooseOptQoIs_large scatter the sets of QoIs, work on their own parts, and gather, order and broadcast the best ones. Whenever the measure of every set that is examined succeeds, the calls end on every process whatever the relative speed of the processes, all processes return the same table of sets and values, and it is the table of a run in which all processes are in step (the tensor of singular values of find_good_sets is that of the process itself). If the measure raises for every set and there are fewer sets than processes, a process without a set waits in the barrier for ever while the process with the first set raises.", "quantifier": "every number of processes, every schedule of their steps, every gradient tensor, list of QoIs, number of QoIs and of sets, and every measure of sets", "why_tests_cant": "Schedules and numbers of processes cannot be enumerated by tests, and a run that hangs shows only for particular combinations of the number of sets and of processes.", "anchors": ["bet/sensitivity/chooseQoIs.py: chooseOptQoIs, chooseOptQoIs_verbose, find_good_sets, chooseOptQoIs_large, chooseOptQoIs_large_verbose"]}
{"id": "C118", "title": "A call on a discretization that raises leaves the user's data as they were", "statement": "When a call on a discretization (setting a pointer, estimating volumes, prob, prob_on_emulated_samples, prob_with_emulated_volumes, the setters of emulated sets) raises an exception and the program catches it, all the sets, their points, domains, probabilities, volumes, and all pointers, search trees and parts that existed before are still there unchanged; only a search tree, parts or a pointer that did not exist may have been added. Hence after any history of computing calls, whichever of them raised and wherever, the data (points, dimensions, domains, reference points, output probabilities) are those of the start. Exceptions, stated as such: set_output_probability_set without an output set raises but has already stored the set; prob_with_emulated_volumes that fails in its last part has already replaced the input volumes; global_to_local that fails on a later set has already replaced the parts of earlier ones; a failed set_io_ptr may leave a search tree which later answers for outdated values.", "quantifier": "all discretizations, all calls and arguments, all numbers of processes, all points at which an exception is raised, all histories of calls with caught exceptions", "why_tests_cant": "A test provokes one exception and rarely looks at the object afterwards; the claim is about every statement of every call that may raise and everything that was assigned before it, in histories of any length.", "anchors": ["bet/sample.py:discretization.set_io_ptr", "bet/sample.py:discretization.set_output_probability_set", "bet/sample.py:discretization.estimate_input_volume_emulated", "bet/sample.py:discretization.global_to_local", "bet/calculateP/calculateP.py:prob", "bet/calculateP/calculateP.py:prob_on_emulated_samples", "bet/calculateP/calculateP.py:prob_with_emulated_volumes"]}
{"id": "C119", "title": "Counting, splitting, gathering, looking up, estimating volumes and solving on several processes", "statement": "When check_num, global_to_local, local_to_global, estimate_volume, estimate_volume_emulated, the pointers of a discretization, prob, prob_on_emulated_samples, prob_with_emulated_volumes, prob_from_sample_set, prob_from_sample_set_with_emulated_volumes or prob_from_discretization_input would succeed with all processes in step, then with processes at their own speed the call ends on every process under every schedule, no process waits for ever, and every process ends with the global arrays and its own part of the local arrays of the in-step result. If the local arrays of one process do not fit together and there is no global array, that process raises in check_num and the others wait in allreduce for ever.", "quantifier": "every number of processes, every schedule of their steps, all sample sets and discretizations with a part of every local array for every process, all random numbers and all geometries", "why_tests_cant": "Schedules and numbers of processes cannot be enumerated by tests; a call consists of many collectives whose order depends on the data, so one schedule that works says nothing about the others.", "anchors": ["bet/sample.py: sample_set_base.check_num, global_to_local, local_to_global, estimate_volume, estimate_volume_emulated", "bet/sample.py: voronoi_sample_set.query", "bet/sample.py: discretization.set_io_ptr, set_emulated_ii_ptr, set_emulated_oo_ptr, check_nums", "bet/calculateP/calculateP.py: prob, prob_on_emulated_samples, prob_with_emulated_volumes, prob_from_sample_set, prob_from_sample_set_with_emulated_volumes, prob_from_discretization_input", "bet/util.py: get_global_values"]}
{"id": "C120", "title": "The constructors of simple functions on several processes", "statement": "When one of the ten constructors of simple functions of simpleFunP would succeed with all processes in step, then with processes at their own speed it ends on every process under every schedule, all processes work with the random samples drawn by the root, and each ends with the simple function and the data set of the in-step result. Three mistakes in arguments leave the other processes waiting for ever, because only the root computes what it broadcasts: a Python list for rect_size, a missing reference value for the two constructors with a normal distribution, and an array of standard deviations of another length.", "quantifier": "every number of processes, every schedule of their steps, all data sets (arrays, sample sets, discretizations), all arguments and random numbers", "why_tests_cant": "Schedules cannot be enumerated by tests, and the hangs occur only with at least two processes and only for arguments for which a serial run raises a helpful error.", "anchors": ["bet/calculateP/simpleFunP.py: all constructors", "bet/sample.py: sample_set_base.check_num, exact_volume_lebesgue", "bet/util.py: get_global_values"]}
{"id": "C121", "title": "A whole parallel script does not depend on the speed of the processes", "statement": "A script of any length on one discretization (setters, pointers, estimating volumes, gathering and splitting, prob, prob_on_emulated_samples, prob_with_emulated_volumes, the constructors of simple functions) whose calls succeed with all processes in step ends on every process under every schedule, also when some processes are many calls ahead in their local work; the results do not depend on the schedule, and the global arrays are the same on all processes at the end.", "quantifier": "every script of any length, every number of processes, every schedule, all arguments and random numbers", "why_tests_cant": "The number of scripts and schedules is infinite; matching up collectives of different calls when processes are at different calls cannot be tested exhaustively.", "anchors": ["bet/sample.py: discretization", "bet/calculateP/calculateP.py", "bet/calculateP/simpleFunP.py"]}
{"id": "C122", "title": "A model_error object answers any sequence of calls rightly", "statement": "A model_error made from a discretization with samples, outputs, error estimates and a measure answers every sequence of calls of calculate_for_contour_events, calculate_for_sample_set_region (with given points, with the emulated points of the discretization, or without points) and calculate_for_sample_set_region_mc, in any order and number. No answer depends on the calls before it or on the number of processes. The estimate of a contour event of positive probability p is p (1 - V(before and after) / V(after)), where before and after are the cells whose output lies in the event without and with the error estimates, and nan if one of the two has volume zero; the estimate of a region is the sum over the events of p times the difference of the fractions of the points of the event in the region, without and with the error estimates. If an event of positive probability has no point, the region method raises ZeroDivisionError and the Monte Carlo method gives infinity; otherwise the errors that the Monte Carlo method charges to the samples add up to the estimate. A call with a region that the set does not have raises wrong_argument_type and later calls are answered as if it had not been made. Without error estimates the constructor raises wrong_argument_type.", "quantifier": "all discretizations with error estimates (with or without pointers, local arrays, volumes and emulated points, all kinds of sample sets), all sequences of calls of any length, every number of processes, all sets with regions and all given points", "why_tests_cant": "Every call changes the object (volumes, local arrays, pointers, search trees), so that the number of states grows with the history; tests run one call on a new object.", "anchors": ["bet/calculateP/calculateError.py: model_error.__init__, calculate_for_contour_events, calculate_for_sample_set_region, calculate_for_sample_set_region_mc"]}
{"id": "C123", "title": "What is left when a call on a sampler raises", "statement": "A call on a sampler that raises, for instance because the user's model raises, leaves all discretizations that were returned, and all sample sets but the one it works on; input_sample_set is assigned only by compute_qoi_and_create_discretization. regular_sample_set, and random_sample_set and lhs_sample_set without a set, leave nothing behind. If the model raises on some process, the call raises and has done nothing but to name the set and to distribute its arrays. Whatever made compute_qoi_and_create_discretization raise, the set it evaluates the model at differs at most in its arrays and keeps its values unless globalize is False, and the same call with a model that works leaves exactly what it would have left without the first attempt. For a model that works row by row when it returns, every discretization that was returned pairs inputs and outputs after any program of calls some of which raised and were caught. It is false that a call that raises leaves the set it is given as it was: random_sample_set into a set with other arrays of another length leaves new local and old global values, and a model that returns too few Jacobians leaves these in the set, whose number of samples cannot be determined afterwards.", "quantifier": "all programs of calls on a sampler, each call with a model that may raise anything for any samples on any process, all sets, distributions, models, numbers of processes", "why_tests_cant": "The exception can come from each statement of the call, on each process, after each history; tests only check that an exception is raised.", "anchors": ["bet/sampling/basicSampling.py: random_sample_set, lhs_sample_set, sampler.random_sample_set, sampler.regular_sample_set, sampler.lhs_sample_set, sampler.compute_qoi_and_create_discretization"]}
{"id": "C124", "title": "Error estimates and marginals on processes with their own speed", "statement": "On several processes that run at their own speed and meet only in collective operations, sampling_error (made, contour events, regions), model_error (made, and then any sequence of calls of its methods, some of them refused) and the 1D and 2D marginals do not depend on the schedule: whenever the calls succeed with the processes in step, every process comes to its end under every fair schedule, all processes have the same bounds, estimates, exceptions, bins and marginals, and each has its part of the error charged to the samples. For a discretization with error estimates and sets that can be used this is so without assuming success, with the right answers, and for marginals with the masses of all samples. Early returns from the loops over events are taken by all processes in the same round. It is false when the local arrays of one process have lengths that do not fit: np.histogram raises there and the other processes wait for ever.", "quantifier": "all numbers of processes, all schedules, all discretizations, sets, regions, all sequences of calls, all bins", "why_tests_cant": "The number of interleavings grows without bound; a test runs one schedule, mostly on one process.", "anchors": ["bet/calculateP/calculateError.py: sampling_error, model_error", "bet/postProcess/plotP.py: calculate_1D_marginal_probs, calculate_2D_marginal_probs"]}
{"id": "C125", "title": "A sampler on processes with their own speed", "statement": "On several processes that run at their own speed and meet only in collective operations, a program of calls on a sampler (random samples, Latin hypercubes, grids, evaluations of the model, gathering, in any order and number, with or without globalize) does not depend on the schedule: if each call returns with the processes in step, every process comes to the end of the program under every fair schedule, all have the same global arrays and each has its part of the local ones. For a model that works row by row and careful calls every returned discretization pairs each input with its output on every process. It is false for a model that raises on one process only: the others wait for ever, with and without globalize.", "quantifier": "all numbers of processes, all schedules, all programs of calls, all models, all random draws", "why_tests_cant": "The number of interleavings and of programs is unbounded; a test runs one schedule, mostly on one process.", "anchors": ["bet/sampling/basicSampling.py: sampler, random_sample_set, lhs_sample_set, regular_sample_set"]}
{"id": "C126", "title": "Latin hypercubes that each process draws itself", "statement": "On several processes lhs_sample_set calls the generator on every process. Under every schedule all processes come to the end with the requested number of samples in the box, and sample k is row k of what the process that keeps k drew, scaled to the box. If all processes drew the same Latin hypercube the samples are Latin. It is false otherwise: each process may have drawn a Latin hypercube and the samples are not one (two processes, the same sample twice).", "quantifier": "all numbers of processes, schedules, domains, numbers of samples, draws", "why_tests_cant": "Tests on one process, or with seeds set alike, never see it; all draws cannot be run.", "anchors": ["bet/sampling/basicSampling.py:lhs_sample_set"]}
{"id": "C127", "title": "What a sampler records about the initial measure", "statement": "After any program of sampler calls, any number of which may have raised, the recorded initial measure of every sample set is true: if it is a list of distributions there is one for each direction, they are those that a random_sample_set call of the program stood for, every process holds the samples it drew from them and the domain consists of their ranges; if it is a Latin hypercube or a grid, the samples are the scaled hypercube or the cell centres of the domain. The record is there as soon as the call returns and neither the model nor gathering changes it. pdf_init and marginal_pdf_init then evaluate the product of the distributions' densities and each of them; for Latin hypercubes, grids and sets without samples they raise. sample_from_updated gives a set whose initial density is the updated one of the old set. 'r', 'random' are 'uniform', and 'lhs' is lhs_sample_set with criterion 'center'. Sampling again with a family's name uses the same distributions when the family's range with loc a and scale b-a is [a, b]; otherwise it is false: for ranges [loc-scale, loc+scale] each call doubles the box.", "quantifier": "all programs of calls with any exceptions, numbers of processes, dimensions, domains, distributions, draws, numbers of repeated calls", "why_tests_cant": "Records go stale through histories, in particular with exceptions between the assignments; a test looks at one call.", "anchors": ["bet/sampling/basicSampling.py: random_sample_set, lhs_sample_set, regular_sample_set, sample_from_updated", "bet/sample.py: set_prob_type_init, set_prob_parameters_init, pdf_init, marginal_pdf_init"]}
{"id": "C128", "title": "Radii and surrogates do not depend on the speed of the processes", "statement": "Run estimate_radii, estimate_radii_and_volume, or a surrogate (creation, generate_for_input_set, calculate_prob_for_sample_set_region) on several processes that each run at their own speed and wait for each other only inside collective calls. Whatever the schedule, every process comes to an end with the result of the calls run in step; for surrogates, the region probabilities, error estimates, updated probabilities and charged errors are the same on all processes and for every number of processes. For the radii this needs every process to have a random point in every cell: they are then the largest distances over the points of all processes. If every process lacks some cell all of them raise ValueError. Without this it is false: a process with points in every cell waits for ever when another process lacks one.", "quantifier": "all numbers of processes, schedules, sample sets, random points of each process, metrics, regions and interpolation orders", "why_tests_cant": "The outcome depends on the interleaving and on the random points of each process; a test sees one schedule and one seed, mostly on one process.", "anchors": ["bet/sample.py: voronoi_sample_set.estimate_radii, estimate_radii_and_volume", "bet/surrogates.py: piecewise_polynomial_surrogate.__init__, generate_for_input_set, calculate_prob_for_sample_set_region"]}
{"id": "C129", "title": "Scripts of saves and loads do not depend on the speed of the processes", "statement": "Let several processes run the same script of save_object and load_object calls, with work of their own in between, each at its own speed, on one file system, writing in pieces of any size and looking at the files one system call at a time. If every call succeeds when the processes run in step and every file that all processes write is written with the same object, then for every schedule: no process reads a half-written file, none waits for ever, each ends with the objects and the files end with the contents of the run in step. So saving and loading again gives back each process's own object (globalize=False) or the common one (globalize=True). Without success on all processes it is false: a process whose pickle raises leaves the others waiting for ever.", "quantifier": "all scripts, numbers of processes, schedules, sizes of the written pieces, objects, file names, files present before", "why_tests_cant": "File races show up only for some interleavings; tests run one or two processes with one schedule.", "anchors": ["bet/util.py: save_object, load_object, load_object_parallel"]}
{"id": "C130", "title": "Monte Carlo volumes converge to the volumes of the cells", "statement": "Let the rows of random numbers that the processes draw in estimate_volume be uniform on the unit cube and, within each process, pairwise independent (processes may even share a seed). For a sample set of any kind whose cells are clear in its domain (almost every point of the domain belongs to one cell only), on any number of processes: the volume of every cell tends, with probability one, to the Lebesgue measure of the part of the domain that belongs to the cell relative to the domain as n_mc_points grows; for each n_mc_points its expectation is that number; and if all rows are independent the probability that some volume is wrong by eps or more is at most 2 m exp(-2 n eps^2), m being the number of cells. estimate_volume_emulated with independent emulated points of any law tends to the law of the cells. Cells are clear for Euclidean Voronoi sets with distinct samples, for rectangles, and for balls. Where a sample stands twice the claim is false: both cells are the whole domain, but the volumes have the sum one.", "quantifier": "all dimensions, sample sets, domains with sides of positive length, numbers of processes, numbers of points, laws of emulated points, probability spaces", "why_tests_cant": "Convergence with probability one and error probabilities are statements about infinitely many draws; a test sees one run with one seed and a loose tolerance.", "anchors": ["bet/sample.py: sample_set_base.estimate_volume, estimate_volume_emulated"]}
{"id": "C131", "title": "Computed solutions of the inverse problem converge to the exact one", "statement": "Let the samples be random, with any law mu and pairwise independent within each process that draws them. (a) The whole computation with a regular partition of a rectangle of the data space (equal volumes of the samples, the model run, regular_partition_uniform_distribution_rectangle_size, calculateP.prob), for every measurable model: as the number of samples grows, the total probability of the samples in any event tends, with probability one, to that of the measure which gives the inverse image of every box of the partition the same probability and is proportional to mu there. (b) The same with user_partition_user_distribution and growing random data with law nu: the inverse image of every Voronoi cell gets the probability nu of the cell. (c) prob_on_emulated_samples with random emulated samples and fixed input cells: the events are made of the input cells whose outputs lie in one cell of the output measure. The same holds for the computed mean of every integrable function. The limit is a probability measure consistent with the data if every event has positive measure. All for every number of processes. For (b) and (c) almost every point must belong to one cell only.", "quantifier": "all laws, measurable models, dimensions, partitions, events and integrable functions, numbers of processes that sample and that solve, probability spaces", "why_tests_cant": "The claim is about infinitely many random samples and all events; tests look at one seed and a few samples.", "anchors": ["bet/calculateP/calculateP.py: prob, prob_on_emulated_samples", "bet/calculateP/simpleFunP.py: regular_partition_uniform_distribution_rectangle_size, user_partition_user_distribution", "bet/sample.py: sample_set_base.estimate_volume_mc", "examples/measure_methods/linearMap/BET_linearMap.py"]}
{"id": "C132", "title": "Rejection sampling accepts every sample with its chance", "statement": "When the random numbers of invert_rejection_sampling are independent and uniform, the call succeeds almost surely and accepts each input sample independently of all others with probability r_i / max r, where r are the updated weights and the maximum is taken in the cluster of the sample. So the expected sum of any function over the accepted samples is the sum with these chances, and a deviation by delta has probability at most 2 exp(-2 delta^2 / n). If there is one cluster (or the maxima agree) the mean of any function with values in [0, 1] under the returned sample set differs from the mean with the updated weights by eps or more with probability at most 2 exp(-2 (eps * sum r / max r)^2 / n). With several clusters this is false: each cluster is compared with its own maximum, so that the shares of the clusters among the accepted samples are not the weights of the clusters.", "quantifier": "all predicted and observed sets for which the inversion gives non-negative weights with a positive one in every cluster, all numbers of samples and clusters, all functions, all deviations, all probability spaces that carry the random numbers", "why_tests_cant": "The law of a random result is not visible in single runs; a test fixes the seed or checks a tolerance.", "anchors": ["bet/calculateP/calculateR.py:invert_rejection_sampling", "bet/calculateP/calculateR.py:invert"]}
{"id": "C133", "title": "Probabilities from estimated volumes converge", "statement": "Fix a discretization and let only the number of random points that measure its cells grow. (a) estimate_volume(n) with uniform random numbers, pairwise independent within each process, and then prob: the probability of every input sample tends, with probability one, to the probability of its contour event times the Lebesgue measure of its cell in the domain relative to that of all cells of the event. (b) prob_with_emulated_volumes with n emulated points of any law mu: the same with mu in place of the Lebesgue measure. In the limit the samples of every event whose cells have a measure have together exactly the probability of the event; an event whose cells have no measure gets nothing. (c) prob_from_sample_set_with_emulated_volumes with n emulated points of law mu: from some n on the call returns, and the probability of new cell W_j tends to the sum over the old cells V_i with a measure of p_i mu(V_i and W_j) / mu(V_i), divided by the probability of these cells; this needs some old cell with a probability and a measure. All for every number of processes. Almost every point must belong to one cell only.", "quantifier": "all discretizations with volumes not yet estimated, all kinds of cells, dimensions, domains, output measures, laws of emulated points, old and new sets, numbers of processes, probability spaces", "why_tests_cant": "The limit concerns infinitely many random points; a test has one seed and a tolerance, and does not meet cells without measure.", "anchors": ["bet/calculateP/calculateP.py: prob, prob_with_emulated_volumes, prob_from_sample_set_with_emulated_volumes", "bet/sample.py: sample_set_base.estimate_volume, estimate_volume_emulated", "examples/measure_methods/linearMap/BET_linearMap.py"]}
{"id": "C134", "title": "The sampling error bounds contain the sampling error", "statement": "Call the contour events resolved by the cells if what lies in an interior cell of an event (all neighbours in the event) really belongs to the event, and what really belongs to an event lies in a cell with a neighbour in the event. (a) sampling_error(disc) and then calculate_for_sample_set_region succeed for every region that exists, with given, stored or no emulated points; the answer is a pair of numbers exactly when every event of positive probability has an emulated point in an interior cell; and if the events are resolved for these points, the error of the computed probability of the region, against the probability that the model itself would give on the same points, lies between the two numbers. (b) calculate_for_contour_events with the exact volumes of the cells: for resolved exact events the two numbers contain the error of the part of the probability of the cells of an event that comes from the event itself, and the lower number is below the full error of these cells. (c) The upper number is not: a neighbouring event that reaches into the cells is not counted, and the full error can exceed it. Without resolved events the bounds of regions fail too.", "quantifier": "all discretizations of Voronoi cells, dimensions, regions, emulated points, exact events and measures, numbers of processes", "why_tests_cant": "A bound on an unknown error is a statement about every exact solution that fits the samples; a test compares with one.", "anchors": ["bet/calculateP/calculateError.py: sampling_error.__init__, calculate_for_sample_set_region, calculate_for_contour_events, boundary_sets, cell_connectivity_exact"]}
{"id": "C135", "title": "Drawn samples follow the measure", "statement": "If scipy.stats, the kernel density estimates and the Gaussians draw numbers with their laws, independently within each process, then with probability one the mean of every integrable function over the drawn samples, and so the share of the samples in every event, tends to that of the measure asked for, on any number of processes: for random_sample_set the product of the distributions (for \"uniform\" and a domain, the mean over the domain); for sample_from_updated with random variables their product, with Gaussian mixtures (more than one dimension, or one cluster) and with kernel density estimates the mixture with the cluster weights. The limit has the density that pdf evaluates for random variables, Gaussian mixtures, and kernel density estimates with one parameter or one cluster; for other kernel density estimates it is the mixture of the products, which is not what pdf evaluates. For a given number n of samples of random_sample_set the chance that the share differs by \u03b5 or more is at most 2 exp(-2 n \u03b5\u00b2), and for sample_from_updated the same with the number N of points really drawn and an allowance of the number of clusters over N. lhs_sample_set is unbiased: if every row of the hypercube is uniform, the expected share of the samples in an event is the share of the domain, for every number of samples.", "quantifier": "all distributions, mixtures, integrable functions, events, numbers of samples and of processes, and all probability spaces", "why_tests_cant": "A test draws one sample with one seed; convergence and a bound on a chance are statements about all of them.", "anchors": ["bet/sampling/basicSampling.py: random_sample_set, lhs_sample_set, sample_from_updated", "bet/sample.py: sample_set_base.pdf, evaluate_pdf"]}
{"id": "C136", "title": "A script that draws its samples converges to the exact solution", "statement": "Take the script: random_sample_set(rv, domain or set, num_samples=n), estimate_volume_mc, compute_qoi_and_create_discretization with a measurable model, a distribution on the data by regular_partition_uniform_distribution_rectangle_size or user_partition_user_distribution, and calculateP.prob. It succeeds for every positive n on any number of processes. If scipy.stats draws numbers with their laws, independently within each process, then with probability one the computed mean of every integrable function, and so the probability of every event of parameters, tends to that of the exact solution of the inverse problem as n grows: the measure that gives the inverse image of every cell of data the probability of the cell, and is there proportional to the product of the distributions asked for. For \"random\" (\"r\", \"uniform\") and a domain this is proportional to the volume: with N cells in the rectangle, an event A gets the sum over the cells c of vol(A \u2229 Q\u207b\u00b9(c) \u2229 domain) / (N vol(Q\u207b\u00b9(c) \u2229 domain)).", "quantifier": "all distributions, domains, measurable models, rectangles and partitions of data, integrable functions, events, numbers of processes, and all probability spaces", "why_tests_cant": "A test runs the script with one seed and a few sample sizes; the limit is a statement about all random samples and all large n.", "anchors": ["examples/measure_methods/linearMap/BET_linearMap.py", "bet/sampling/basicSampling.py: random_sample_set, compute_qoi_and_create_discretization", "bet/calculateP/simpleFunP.py: regular_partition_uniform_distribution_rectangle_size, user_partition_user_distribution", "bet/calculateP/calculateP.py: prob", "bet/sample.py: sample_set_base.estimate_volume_mc"]}
{"id": "C137", "title": "Solutions converge when the rectangle of data is scaled to the sampled data", "statement": "The example scripts do not fix the rectangle of data: they call regular_partition_uniform_distribution_rectangle_scaled, whose rectangle has sides equal to a factor times the extents (largest minus smallest value) of the sampled data, so that the cells themselves depend on the random samples. Suppose that every single value of a coordinate of the data has probability zero, that the data range from lo to hi in every coordinate (data arbitrarily near to the ends have a positive probability), and that every cell of the rectangle with centre Q_ref and sides (hi - lo) * rect_scale has a positive probability. Then with probability one the script succeeds for all large numbers of samples, on any number of processes, and the computed mean of every integrable function, and so the probability of every event of parameters, tends to that of the exact solution for the rectangle with these sides: the measure that gives the inverse image of every cell the same probability and is there proportional to the law of the samples. For uniform samples in a box and a continuous model, lo and hi are the infimum and supremum of the model on the box, and the limit is expressed by volumes.", "quantifier": "all laws of the samples, measurable models, centres, factors, numbers of cells, integrable functions, numbers of processes, and all probability spaces", "why_tests_cant": "The cells depend on all samples at once; a test sees one random rectangle, not the limit over all random sequences.", "anchors": ["examples/measure_methods/linearMap/BET_linearMap.py", "bet/calculateP/simpleFunP.py: regular_partition_uniform_distribution_rectangle_scaled", "bet/calculateP/calculateP.py: prob", "bet/sampling/basicSampling.py: random_sample_set, compute_qoi_and_create_discretization"]}
{"id": "C138", "title": "Solutions converge as the cells of the input samples shrink", "statement": "Let the volumes of the input samples be the exact volumes (or any finite measure) of their cells. If the cells shrink - almost every point lies in a cell whose sample is near to it from some number of samples on - then the mean under the probabilities computed by calculateP.prob of every bounded function continuous almost everywhere, and so the probability of every event with a boundary of measure zero, tends to that of the exact solution of the inverse problem, provided that almost every point is a point of continuity of the model, has its output in the interior of one output cell, and that cells with a positive probability have inverse images of positive measure. The samples need not be random: nearest-sample cells shrink whenever the samples fill the space, whatever the order of filling; random samples of any law fill almost surely every measure absolutely continuous with respect to this law. The condition on the outputs holds for nearest-sample cells when ties have measure zero, and for rectangles when their faces have measure zero. In one dimension the script exact_volume_1D followed by prob succeeds and converges, for all samples in the domain, without repetition, that fill it.", "quantifier": "all sequences of input samples, models continuous almost everywhere, output partitions, probabilities, functions, events, numbers of processes, finite measures", "why_tests_cant": "Convergence is a statement about all sequences of samples and all large numbers of samples.", "anchors": ["bet/calculateP/calculateP.py: prob", "bet/sample.py: voronoi_sample_set.exact_volume_1D"]}
{"id": "C139", "title": "Solutions converge when input samples and random points grow together", "statement": "Let the input samples grow so that their cells shrink (C138), and let the number of random points grow at the same time, at any rate relative to the input samples. Then, with probability one: (a) prob_on_emulated_samples gives emulated samples probabilities under which the mean of every integrable function, and so the probability of every event, tends to that of the exact solution of the inverse problem for the true model, although the model is evaluated at the input samples only; (b) estimate_volume followed by prob, and (c) prob_with_emulated_volumes, give the input samples probabilities under which the mean of every bounded function continuous almost everywhere tends to that of the exact solution. The calls succeed for all numbers of processes.", "quantifier": "all sequences of input samples with shrinking cells, models continuous almost everywhere, output partitions, laws of the points, rates of growth, functions, numbers of processes, almost all random numbers", "why_tests_cant": "A double limit over all sequences and all random numbers.", "anchors": ["bet/calculateP/calculateP.py: prob_on_emulated_samples", "bet/calculateP/calculateP.py: prob_with_emulated_volumes", "bet/calculateP/calculateP.py: prob", "bet/sample.py: sample_set_base.estimate_volume"]}
{"id": "C140", "title": "Surrogates converge to the model, and their region probabilities to the exact ones", "statement": "For a piecewise polynomial surrogate made from Voronoi input samples: (a) an order 0 surrogate of a Lipschitz model errs at every point by at most the constant times the distance from the nearest sample; (b) as samples accumulate near a point where the model is continuous, order 0 surrogates tend there to the model, and so do order 1 surrogates if the Jacobians stay bounded; (c) when the cells of the input samples shrink while the number of random points given to generate_for_input_set grows at any rate, the probability that calculate_prob_for_sample_set_region computes for every region tends, with probability one, to the probability of the region under the exact solution of the inverse problem for the true model. The calls succeed for all numbers of processes.", "quantifier": "all models, norms, sequences of samples, points, Jacobians, region sets, region lists, rates of growth, numbers of processes, almost all random numbers", "why_tests_cant": "Limits over all sequences of samples and all random numbers.", "anchors": ["bet/surrogates.py: piecewise_polynomial_surrogate.generate_for_input_set", "bet/surrogates.py: piecewise_polynomial_surrogate.calculate_prob_for_sample_set_region"]}
{"id": "C141", "title": "Finite difference gradients converge to the derivatives", "statement": "Take centres, pick points with pick_ffd_points or pick_cfd_points, evaluate any model there and call calculate_gradients_ffd or calculate_gradients_cfd. As the radii, all non-zero, tend to zero: (a) every entry of the Jacobians tends to the partial derivative of the model at the centre, wherever that exists; (b) normalized gradients tend to the gradient divided by its 1-norm, wherever the gradient is not zero; (c) forward differences err by at most L |r| / 2 if the derivative along the direction has the Lipschitz constant L, and centred differences by at most M r^2 / 6 if the second derivative along the direction has the Lipschitz constant M.", "quantifier": "all models, centres, radii of any sign, outputs, directions, numbers of processes", "why_tests_cant": "A limit and an error bound for all differentiable models.", "anchors": ["bet/sensitivity/gradients.py: pick_ffd_points", "bet/sensitivity/gradients.py: pick_cfd_points", "bet/sensitivity/gradients.py: calculate_gradients_ffd", "bet/sensitivity/gradients.py: calculate_gradients_cfd"]}
{"id": "C142", "title": "Estimated cell radii converge to the true radii", "statement": "When the random rows of every process are uniform and pairwise independent, then with probability one every call of estimate_radii with enough points succeeds, whatever the number of processes, and with more and more points the radius of every cell tends to the true radius of the cell: the essential supremum of the distances of the cell's points in the domain from the sample, in coordinates relative to the domain if normalize. With probability one no call gives a radius above the true one, and with more points of the same streams a successful call stays successful and no radius becomes smaller. estimate_radii_and_volume gives the same radii, and volumes that tend to the relative volumes of the cells. If all rows are independent, the probability that a call with n points fails to give some radius with an error below eps is at most the sum, over processes and cells, of the probability that the process misses the cell plus, over the cells, of the probability that n points miss the part of the cell beyond R - eps. For Voronoi cells with Euclidean distances and distinct samples inside the domain the hypotheses on the cells hold and the true radius is the supremum of the distances. If some cell has no volume in the domain, no call succeeds, with probability one.", "quantifier": "all sample sets ready for queries with a proper domain, clear cells and measurable distances, numbers of processes, numbers of points, both values of normalize, all streams of uniform rows on any probability space", "why_tests_cant": "A limit and an event of probability one over all streams cannot be observed in runs; a test sees finitely many points from one seed.", "anchors": ["bet/sample.py:voronoi_sample_set.estimate_radii", "bet/sample.py:voronoi_sample_set.estimate_radii_and_volume"]}
{"id": "C143", "title": "Marginals of computed solutions converge", "statement": "Draw n random samples of the parameters with a law mu, run the model, measure the data, compute the probabilities of the samples, and compute the marginals with a number of bins for every coordinate. For every coordinate and every bin the computed marginal, and for every pair of coordinates and every pair of bins the computed joint marginal, almost surely converge as n grows, for every number of processes. The limit is the value, on the points whose coordinate lies in the bin (or whose two coordinates lie in the two bins), of the measure that gives every event 'the output lies in data cell c' its data probability and is proportional to mu on it. This holds for data that are uniform on a rectangle, for random data counted in cells of the user (with data probabilities equal to the law of the data), and for probabilities computed on random emulated samples. The limit is proved for samples with a domain of positive sides; bins are half open except the last one, which is closed, and samples outside the domain count in no bin.", "quantifier": "all numbers of input and output dimensions, laws of the samples, measurable models, rectangles and grids, user partitions, laws of the data, emulation sets, numbers of bins per coordinate, coordinates and pairs of coordinates, bins, numbers of processes and almost all sequences of random draws", "why_tests_cant": "a test draws one sample and looks at one histogram; it cannot see the limit, nor every bin and pair of coordinates", "anchors": ["bet/postProcess/plotP.py: calculate_1D_marginal_probs, calculate_2D_marginal_probs", "bet/calculateP/calculateP.py: prob, prob_on_emulated_samples", "bet/calculateP/simpleFunP.py: regular_partition_uniform_distribution_rectangle_size, user_partition_user_distribution"]}
{"id": "C144", "title": "Statistical distances at random comparison points converge", "statement": "Take a new compare object for two sets whose pdf evaluates the densities p and q, and choose n random comparison points with common law mu by set_compare_set (given as an array, as a sample set, or as a number n, in which case the points are uniform in the cube described in C60). As n grows, with probability one, distance('tv') is defined and tends to half the mu-mean of |p-q|; distance('sqhell') tends to half the mu-mean of (sqrt p - sqrt q)^2 and distance('hell') to its root; distance('2') tends to the root of the mu-mean of (p-q)^2. With normalize=True, 'tv' and 'sqhell' tend to the same quantities for p and q divided by their mu-means, so for uniform points to the distance of the two densities conditioned on the cube; without it the uniform default gives the total variation on the cube divided by the volume of the cube. It is not true that all functionals estimate a distance: distance('norm'), and with normalize=True also '2', 'norm' and 'hell', tend to zero whatever the two densities are.", "quantifier": "every dimension, every pair of integrable densities (non-negative for Hellinger, square integrable for the Euclidean names), every law of the comparison points, every number of processes, and almost every infinite sequence of points", "why_tests_cant": "a test compares at one finite set of points and cannot see a limit or an exceptional set of probability zero, nor that a value shrinks to zero for every pair of densities", "anchors": ["bet/postProcess/compareP.py:compare.set_compare_set", "bet/postProcess/compareP.py:compare.evaluate_pdfs", "bet/postProcess/compareP.py:compare.distance", "bet/sampling/basicSampling.py:random_sample_set"]}
{"id": "C145", "title": "Distances of marginals at equally spaced points converge", "statement": "Take a compare object whose two sets evaluate the marginal densities g and h in coordinate i, both bounded on the interval used (given, or computed from the domains or values) and continuous there except on a set of measure zero. As num_points grows, distance_marginal with 'tv' is defined and tends to half the integral of |g-h| over the interval, with '2' to the root of the integral of (g-h)^2, with 'sqhell' to half the integral of (sqrt g - sqrt h)^2 and with 'hell' to its root. For non-negative densities these are the values distance_marginal_quad computes. With normalize=True and positive integrals, 'tv', 'sqhell' and 'hell' tend to the same quantities for g and h divided by their integrals over the interval. It is not true of the remaining names: 'norm' grows without bound whenever the two densities differ, and with normalize=True '2' and 'norm' tend to zero whatever they are.", "quantifier": "every coordinate, interval with a < b, factor, and every pair of bounded marginal densities that are continuous almost everywhere (jumps allowed), as the number of points tends to infinity", "why_tests_cant": "a test uses one number of points and cannot see a limit, nor that a value grows without bound or vanishes for every pair of densities", "anchors": ["bet/postProcess/compareP.py:compare.distance_marginal", "bet/postProcess/compareP.py:compare.distance_marginal_quad", "bet/postProcess/compareP.py:compare.get_marginal_1"]}
{"id": "C146", "title": "Kullback-Leibler distances of densities", "statement": "distance('kl') at non-negative values P and Q with positive sums, Q positive wherever P is, is the relative entropy sum_k s_k log(s_k/t_k) of the shares s_k = P_k/sum P and t_k = Q_k/sum Q, whatever normalize says. It is never negative, and zero exactly when the shares agree; it is at least twice the normalised 'sqhell' distance and at least the square of the normalised 'tv' distance; it is not finite when P is positive somewhere Q is zero. With comparison points drawn from a law mu it tends almost surely to the relative entropy of p/(integral p dmu) and q/(integral q dmu). distance_marginal with 'kl' tends, as num_points grows, to the relative entropy of the marginals divided by their integrals over the interval, which is the value of distance_marginal_quad when both integrals are one. Two things a user may expect are false: the distance is not symmetric, and when the integrals are not one distance_marginal_quad may return a negative number although distance_marginal tends to zero.", "quantifier": "every pair of lists of non-negative values (any length), every pair of densities, law of comparison points, interval and coordinate; almost every sequence of random points; every number of points", "why_tests_cant": "an inequality between distances for all densities, and limits, are statements about infinitely many inputs; a test evaluates one pair of lists", "anchors": ["bet/postProcess/compareP.py:compare.distance", "bet/postProcess/compareP.py:compare.distance_marginal", "bet/postProcess/compareP.py:compare.distance_marginal_quad"]}
{"id": "C147", "title": "Minkowski distances of densities", "statement": "distance('mink', p=r) at lists P and Q of the same length n is (1/n)(sum_k |P_k-Q_k|^r)^(1/r); with normalize=True it is the same expression without 1/n for the shares of P and Q. The call returns exactly when r > 0, the lists have the same length, and there is a point (or, with normalize, both sums are non-zero). It is never negative, symmetric, does not grow with r, is zero without normalize exactly when P = Q, and satisfies the triangle inequality for r >= 1 but not for r = 1/2. With the default order 2, 'mink' and 'norm' return the same (also in distance_marginal); with order 1 'mink' returns twice 'tv'. As the number of comparison points grows the result is a distance of the densities only for order 1: at random points it tends to the mean of |p-q| for r = 1 and to zero for every r > 1 whatever the densities, and distance_marginal with 'mink' grows without bound for every order whenever the marginals differ.", "quantifier": "every pair (or triple) of lists of densities, every order r > 0, both values of normalize, every law of the comparison points, interval and coordinate; almost every sequence of random points", "why_tests_cant": "the metric laws range over all lists and orders, and the limits over infinitely many points; a test evaluates one pair of lists", "anchors": ["bet/postProcess/compareP.py:compare.distance", "bet/postProcess/compareP.py:compare.distance_marginal"]}
{"id": "C148", "title": "The samples of Lp_generalized_uniform, Lp_generalized_normal and Lp_generalized_beta have the laws these functions are named after", "statement": "When the numbers drawn from numpy are independent and have the gamma, normal, beta and uniform laws numpy documents, then almost surely `Lp_generalized_uniform` returns samples, and these are independent and uniformly distributed in the p-ball of the given scale (one for all coordinates or one for each) around the given location, for every finite p > 0 and every dimension; for infinite p, in the box. So the fraction of samples found in a set tends to its share of the volume of the ball. `Lp_generalized_beta` with shape d has a density proportional to (1 - distance^p)^(d/p - 1) in the ball, and with d = p it is uniform, as documented. `Lp_generalized_normal` has a density proportional to exp(-distance^p / scale). False: the argument `scale` of `Lp_generalized_normal`, documented as the radius to scale the samples by, multiplies the samples by its p-th root; so unless p = 1 or scale = 1 the samples are not distributed like samples of scale 1 multiplied by the scale.", "quantifier": "every dimension, every p > 0, all scales and locations, all probability spaces on which the draws live, every measurable set, all numbers of samples", "why_tests_cant": "A law is a statement about infinitely many sets and about draws no test makes; a statistical test can only reject with some probability.", "anchors": ["bet/sampling/LpGeneralizedSamples.py: Lp_generalized_uniform, Lp_generalized_normal, Lp_generalized_beta"]}
{"id": "C149", "title": "The volumes of estimate_local_volume converge, to those of cells in relative coordinates and only if the balls cover the cells", "statement": "When the numbers drawn from numpy are independent within one round and have the laws numpy documents, then `estimate_local_volume` on any number of processes, with finite p and any positive radii, returns volumes that tend with probability one, when both bounds on the numbers of emulated points grow, to the volume of the part of the Voronoi cell (in coordinates relative to the domain, within the domain) that the ball around the sample reaches, divided by the total of these volumes. If every ball covers its cell, these are the volumes of the cells in relative coordinates; if moreover all sides of the domain have the same length, they are the volumes of the cells that queries find, relative to the domain, i.e. the limits of `estimate_volume`. False in general: if some ball misses a part of its cell of positive volume, the volume of every covered cell is overestimated, however many points are drawn; and if the sides have different lengths, the limits can differ from the volumes of the cells that queries find. The formula used for the volume of a ball is wrong by a factor that depends only on dimension and p and cancels.", "quantifier": "every dimension, every p >= 1 (finite), all numbers of processes, all sample sets with a domain, all radii, all probability spaces on which the draws live, all bounds growing in any way", "why_tests_cant": "Convergence and bias concern infinitely many draws; a test with a fixed number of points cannot tell a bias from noise.", "anchors": ["bet/sample.py: sample_set_base.estimate_local_volume", "bet/sampling/LpGeneralizedSamples.py: Lp_generalized_uniform"]}
{"id": "C150", "title": "estimate_local_volume for samples without a positive radius", "statement": "When a sample set has normalized radii of which some are not positive, `estimate_local_volume` replaces them by the standard deviation of the pairwise distances. The replaced radius is never negative, and zero exactly if all samples at a positive distance from the sample have the same distance. If for every sample without a positive radius there are two others at different distances, the volumes converge as in C149. False otherwise: a sample without a positive radius from which all others have the same distance gets the volume zero, whatever is drawn; and if this holds of all samples (for instance of both of two, for every metric) the volumes are zero divided by zero.", "quantifier": "all sample sets with a domain, all dimensions, all numbers of processes, all pairwise distances, all draws, all numbers of emulated points", "why_tests_cant": "It concerns all configurations of samples and all random numbers.", "anchors": ["bet/sample.py: sample_set_base.estimate_local_volume"]}
{"id": "C151", "title": "With many emulated points the probabilities of a simple function are those of its cells; normal_partition_normal_distribution is different", "statement": "With more and more emulated points, on any number of processes, the probability of every cell tends with probability one to: the part of the rectangle that is nearest to the sample of the cell, for uniform_partition_uniform_distribution_rectangle_size; the probability of the cell under the normal law, for uniform_partition_normal_distribution; the probability of the cell under the law of the points, for user_partition_user_distribution. For the uniform rectangle and independent points the probability that some of M cells is wrong by eps or more is at most 2 M exp(-2 n eps^2) with n points. This does not hold for normal_partition_normal_distribution: for every positive density and all distinct samples the probability of every cell of finite volume tends to zero, although its probability under the law is positive.", "quantifier": "all dimensions, all distinct samples, all reference values and sizes or standard deviations, all numbers of processes, all random numbers with the stated law, all densities (user partition and the negation)", "why_tests_cant": "a statement about the limit of infinitely many random points and about every law of them; with a finite number of points the error of the normal partition looks like noise or a modelling choice", "anchors": ["bet/calculateP/simpleFunP.py: uniform_partition_uniform_distribution_rectangle_size, uniform_partition_normal_distribution, user_partition_user_distribution, normal_partition_normal_distribution"]}
{"id": "C152", "title": "Errors in the data and in the volumes are not amplified", "statement": "The probabilities that prob gives to the samples depend on the probabilities of the output cells linearly (for non-negative mixtures) and without amplification: for two problems with the same outputs, volumes and cells the sum of the absolute differences of the solutions is the sum of the differences over the cells that a sample of positive volume reaches, so at most the distance of the data. prob_on_emulated_samples and prob_from_sample_set have the same property (the latter is linear for all factors). If all volumes are wrong by at most a fraction eps < 1, each probability is wrong by at most eps times the sum of the right and the wrong one, and all together by at most 2 eps. With data from uniform_partition_uniform_distribution_rectangle_size and n independent emulated points the computed solution is, with probability at least 1 - 2 M exp(-2 n eps^2), within M eps of the solution for the exact probabilities of the M cells. prob_from_sample_set_with_emulated_volumes does not amplify differences if every old cell of positive probability contains an emulated point; otherwise it divides by what is left and the amplification is unbounded: two probability vectors at any distance 2 eps > 0 can have results at distance 2.", "quantifier": "every pair (or triple) of fresh discretizations with the same outputs, volumes and cells of any kind; every number of samples, cells and processes; every pair of non-negative probabilities; every eps", "why_tests_cant": "a bound for all pairs of data and a probability over all random points cannot be shown by examples", "anchors": ["bet/calculateP/calculateP.py: prob, prob_on_emulated_samples, prob_from_sample_set, prob_from_sample_set_with_emulated_volumes", "bet/calculateP/simpleFunP.py: uniform_partition_uniform_distribution_rectangle_size"]}
{"id": "C153", "title": "The order of samples, cells and points does not matter", "statement": "If the samples of a problem are listed in another order (with their outputs and volumes) prob gives every sample the same probability; if the Voronoi cells of the data are listed in another order (with their probabilities) prob gives the same list of probabilities, as long as no output has two nearest cells. prob_from_sample_set does not depend on the order of the old samples, and gives each new sample the same probability in whatever order the new samples are listed (no ties); estimate_volume and estimate_volume_emulated give each sample the same volume in whatever order the samples are listed (no ties). With a tie the order can decide everything.", "quantifier": "every pair of fresh discretizations or sets that differ by any permutation; any number of samples, cells and processes; any sound nearest-neighbour search", "why_tests_cant": "invariance under all permutations of lists of any length cannot be tested exhaustively; ties show only for special inputs", "anchors": ["bet/calculateP/calculateP.py: prob, prob_from_sample_set", "bet/sample.py: sample_set_base.estimate_volume, sample_set_base.estimate_volume_emulated, sample_set_base.query, discretization.set_io_ptr"]}
{"id": "C154", "title": "Rounding errors of the probabilities stay small", "statement": "Suppose every addition, multiplication and division is computed with a relative error of at most u (double precision: u = 2^-53) and sums may be formed in any order, as numpy and MPI do. Then prob, prob_on_emulated_samples, prob_from_sample_set, prob_from_sample_set_with_emulated_volumes, prob_from_discretization_input and prob_with_emulated_volumes succeed whenever they do in exact arithmetic and every probability they compute has a small relative error: for prob at most about (n/size + size + 3) u for n samples on size processes, for the other functions a similar number of roundings that does not depend on the data. So the computed total of a cell is within that factor of the given probability of the cell, the computed total within that factor of 1, and runs on different numbers of processes agree up to both factors. Volumes from estimate_volume_mc and estimate_volume_emulated have relative error u or 2u. Equality is not true: in double precision the probabilities may not sum to 1 and may depend on the number of processes.", "quantifier": "every arithmetic whose operations have relative error at most u < 1; every order of summation; every discretization, number of samples, cells and processes with nonnegative data", "why_tests_cant": "tests compare with a tolerance on a few inputs; the error bound must hold for all inputs, all orders of summation and all process counts", "anchors": ["bet/calculateP/calculateP.py: prob, prob_on_emulated_samples, prob_with_emulated_volumes, prob_from_sample_set, prob_from_sample_set_with_emulated_volumes, prob_from_discretization_input", "bet/sample.py: sample_set_base.estimate_volume_mc, sample_set_base.estimate_volume_emulated"]}
{"id": "C155", "title": "How many samples are enough", "statement": "For n independent samples (parameters, emulated points or Monte Carlo points) and an output partition into m events each of which has parameter measure at least kappa, the probability that the computed solution of the inverse problem gives any fixed event (or bounded observable) a probability wrong by epsilon or more is at most 4 m exp(-n (epsilon kappa)^2 / 2): for sample, run the model, regular_partition_uniform_distribution_rectangle_size, prob with any number of processes; for prob_on_emulated_samples; and, with m replaced by the number N of samples, for every sample at once for estimate_volume_mc or emulated volumes followed by prob (error relative to the probability of the event). With data from M samples and user_partition_user_distribution the error exceeds epsilon + m eta with probability at most this plus 2 m exp(-2 M eta^2). So n >= 2 log(4 m / alpha) / (epsilon kappa)^2 samples are enough for confidence 1 - alpha.", "quantifier": "every law of the samples, every n, M, epsilon, eta, kappa, every measurable model, partition, observable with values in [0,1] and number of processes", "why_tests_cant": "a test draws one random sample; the statement bounds the probability over all draws for every n and law", "anchors": ["bet/calculateP/calculateP.py: prob, prob_on_emulated_samples, prob_with_emulated_volumes", "bet/calculateP/simpleFunP.py: regular_partition_uniform_distribution_rectangle_size, user_partition_user_distribution", "bet/sample.py: sample_set_base.estimate_volume_mc, sample_set_base.estimate_volume_emulated", "bet/sampling/basicSampling.py: sampler.random_sample_set, sampler.compute_QoI_and_create_discretization"]}
{"id": "C156", "title": "A sampling_error object answers any sequence of calls rightly", "statement": "After a sampling_error object has been made from a discretization, any sequence of calls of calculate_for_contour_events and calculate_for_sample_set_region on it, in any order and number, with given emulated points, the stored emulated points or none, finishes and every answer is right. The bounds of a region are nan exactly when an event of positive probability has no counted point in an interior cell, and otherwise the sums over the events of probability times the larger and smaller of 0 and the two differences of shares (contained cells, covering cells); they do not depend on the earlier calls. The bounds of a contour event are the same numbers in every call if the event has an interior cell of positive volume. A call for a region that the sample set does not have raises wrong_argument_type and changes no later answer. The samples and the probabilities of the discretization stay. The answers do not depend on the number of processes. The bounds of a contour event without interior cells do depend on the history: they are nan at first, and after a call for a region that came to this event they are infinite and minus its probability, or minus its probability twice (negation proved).", "quantifier": "every sequence of calls of the two methods, every discretization with global outputs and probabilities, every stored or given emulated points, every number of processes, and every pair of histories before a call", "why_tests_cant": "The object keeps default dictionaries that grow when they are read, pointers and local arrays that are made once and reused, and copies that must not leak into the object; a test makes one or two calls and cannot cover every order.", "anchors": ["bet/calculateP/calculateError.py: sampling_error.__init__, calculate_for_contour_events, calculate_for_sample_set_region"]}
{"id": "C157", "title": "The units of the inputs and of the data do not matter", "statement": "If the outputs and the cells of the data are given in another unit and with another zero (one factor for all coordinates, which may be negative, and any shift), prob gives the same probabilities, whatever the units of the inputs; if in addition the samples and the emulated points are given in another unit, prob_on_emulated_samples gives the same probabilities. If both sets (all three sets) are given in another unit, prob_from_sample_set (prob_from_sample_set_with_emulated_volumes) gives the same result. estimate_volume, estimate_volume_emulated and, in one dimension, exact_volume_1D give the same volumes. This holds for Voronoi cells when no point that is looked up has two nearest samples and the distance follows the units, as the p-norms do, and for balls whose radii are converted too. For rectangles every coordinate may have a scale of its own, not only a linear one (any increasing function), and exact_volume_lebesgue gives the same volumes when every coordinate has a unit of its own. For Voronoi cells a unit of its own for one coordinate changes the volumes (negation proved).", "quantifier": "every pair of fresh discretizations or sets that differ by a change of units; any factor except 0, any shift, any increasing scales for rectangles; any number of samples, cells, points and processes; any sound nearest-neighbour search and sorting routine", "why_tests_cant": "invariance under all changes of units for all sets cannot be tested; a test fixes one factor and a few points", "anchors": ["bet/calculateP/calculateP.py: prob, prob_on_emulated_samples, prob_from_sample_set, prob_from_sample_set_with_emulated_volumes", "bet/sample.py: sample_set_base.estimate_volume, sample_set_base.estimate_volume_emulated, voronoi_sample_set.exact_volume_1D, rectangle_sample_set.exact_volume_lebesgue, rectangle_sample_set.query, ball_sample_set.query"]}
{"id": "C158", "title": "The two ways of using emulated points agree", "statement": "With emulated points one can solve on the points (prob_on_emulated_samples) and move the result to another set with prob_from_discretization_input, or solve on the samples (prob_with_emulated_volumes) and move the result with prob_from_sample_set_with_emulated_volumes and the same points. On a fresh discretization with at least one point both ways succeed and give exactly the same probabilities on every other set of the same dimension. If the other set has the cells of the input samples, these are the probabilities prob_with_emulated_volumes gave the samples. With other points in the second way the results may differ (negation proved).", "quantifier": "every fresh discretization with emulated points, every other set whose cells can be looked up; any number of samples, cells of the data, points and processes; cells without points and cells without probability included", "why_tests_cant": "equality of two programs on every discretization and every target set; a test compares a few numbers on one discretization", "anchors": ["bet/calculateP/calculateP.py: prob_on_emulated_samples, prob_from_discretization_input, prob_with_emulated_volumes, prob_from_sample_set_with_emulated_volumes"]}
{"id": "C159", "title": "Local volumes in the maximum norm", "statement": "With p = numpy.inf estimate_local_volume draws its points in cubes. When the numbers drawn are independent within one round and uniform, then on any number of processes and with any positive radii the volumes tend with probability one, when both bounds on the numbers of emulated points grow, to the volume of the part of the cell (in coordinates relative to the domain) that the cube around the sample reaches, divided by the total. If every cube covers its cell these are the volumes of the cells in relative coordinates, and if all sides of the domain have the same length, the volumes of the cells relative to the domain. This needs cells that overlap in a set of volume zero only, which holds if no coordinate of one sample is that of another; if two samples share a coordinate, a part of the domain of positive volume can be equally far from both (negation proved). If some cube misses a part of its cell of positive volume, the volume of every covered cell is overestimated.", "quantifier": "every dimension, every finite set of samples whose cells are clear, every box as domain, all radii, every number of processes, almost every outcome of the random numbers", "why_tests_cant": "a limit over infinitely many random numbers, for all samples and domains; a test sees one finite run", "anchors": ["bet/sample.py: voronoi_sample_set.estimate_local_volume", "bet/sampling/LpGeneralizedSamples.py: Lp_generalized_uniform"]}
{"id": "C160", "title": "Subdividing samples and cells of the data space", "statement": "If samples are divided into parts, so that the outputs of the parts stay in the cell of the data space of the undivided sample and their volumes add up to its volume, the probabilities that prob gives to the parts add up to the probability of the undivided sample, on any number of processes. If cells of the data space are divided into cells whose probabilities add up, and every part with positive probability is reached by a sample of positive volume, the total probability of the samples mapped into one undivided cell is unchanged; the probability of every single sample is unchanged exactly if in every part that is reached the ratio of probability to volume is that of the undivided cell, e.g. if the probability is divided in proportion to the volumes. Parts that no sample reaches lose their probability (negation proved).", "quantifier": "every discretization, every division of its samples or of its data cells, all volumes, probabilities and norms, all numbers of processes", "why_tests_cant": "a statement about all ways of dividing all discretizations; a test can compare a few pairs", "anchors": ["bet/calculateP/calculateP.py: prob"]}
{"id": "C161", "title": "Data-consistent inversion converges to the data-consistent distribution", "statement": "Let inputs be drawn independently from an initial distribution, with a label for every output, and let the fitted densities converge so that the ratios converge in the mean over the samples to a function r (for example if the ratio of the fitted densities converges uniformly). Then, almost surely, invert_to_gmm and invert_to_multivariate_gaussian return for all large numbers of samples; the weights of the clusters tend to the shares of the observed samples, mean and covariance of every cluster tend to those of the initial distribution with density r in the cluster, and the mean ratio that is printed as a diagnostic tends to the mean of r. With one cluster and bounded ratios the samples that invert_rejection_sampling returns have the same limit, in probability. If r is the exact ratio of the densities of data and prediction, the diagnostic tends to 1 and in every cluster the outputs have exactly the law of the data in the limit, so that the mixture with the cluster weights reproduces the law of all the data. Two parts of the claim are false of the code and their negations are proved: invert_to_multivariate_gaussian takes the shares of the clusters without dividing by their predicted chance, so that its limit has the shares of the data if and only if all clusters with data have the same predicted chance; and initial weights enter the predicted density but not the resulting weights, so that with unequal initial weights the result is not consistent with the data.", "quantifier": "every input law, dimension, output map, labelling with finitely many clusters, sequence of observed sets with converging shares, density estimator with converging ratios, bounded inputs", "why_tests_cant": "A limit for growing numbers of random samples, almost surely and for every law, cannot be observed in any finite set of runs; a test with one seed cannot distinguish a wrong limit from noise, nor show that the cluster shares are wrong only when the predicted chances differ.", "anchors": ["bet/calculateP/calculateR.py:invert", "bet/calculateP/calculateR.py:invert_to_gmm", "bet/calculateP/calculateR.py:invert_to_multivariate_gaussian", "bet/calculateP/calculateR.py:invert_rejection_sampling"]}
{"id": "C162", "title": "How many copies invert_to_random_variable needs", "statement": "invert_to_random_variable fits distributions to copies of the samples, num_reweighted in all, each sample copied its share of num_reweighted times, rounded. If num_reweighted is more than half the number n of samples, there are copies and the mean over the copies of a function bounded by B differs from the weighted mean by at most 2 n B / (2 num_reweighted - n). So if num_reweighted grows faster than the number of samples, the means over the copies converge almost surely to the same limit as those of invert_to_multivariate_gaussian, and for a distribution whose location is fitted by the mean (such as the normal distribution) the call succeeds and the locations converge. If the share of every sample is below half a copy there are no copies. So if the ratios are bounded and num_reweighted is fixed, like the default 10000, or grows more slowly than the number of samples, then almost surely for all large numbers of samples nothing is left to fit and the call raises what the fit raises without data. In between the weights can be lost entirely by rounding (negation proved).", "quantifier": "every list of samples and weights, every num_reweighted, every rounding to nearest; for the limits every problem as in C161 and every sequence of num_reweighted", "why_tests_cant": "Holds for every number of samples and copies; a test with the default num_reweighted and few samples never reaches the regime in which all copies vanish, and a limit cannot be observed in finite runs.", "anchors": ["bet/calculateP/calculateR.py:invert_to_random_variable"]}
{"id": "C163", "title": "The law of the clusters of sample_lp_ball", "statement": "sample_lp_ball(input_set, num_close, radius, p) draws uniform samples of the ball of the p-norm around every centre, discards those outside the domain, and starts again with ten times as many if fewer than num_close are left. With independent random numbers of the laws asked for, centres in a domain of positive widths and positive radii: with probability one the call returns; the points of all clusters are independent, and those around a centre are uniformly distributed on the part of its ball that lies in the domain, so that starting again does not bias them. The same holds for p = inf (sample_linf_ball) and boxes, and for samples of any other law with the law conditioned on the domain. The probability that attempt t (counted from 0) does not suffice around a centre is at most num_close (1-q)^(10^t), where q is the share of the ball in the domain. Without a domain the clusters are the samples first drawn. If the ball around some centre meets the domain in a set of volume zero, the call never returns, with probability one.", "quantifier": "all dimensions, norms 0 < p <= infinity, radii, domains, numbers of centres and of points; almost all outcomes of the random numbers", "why_tests_cant": "It is a statement about the joint law of all the points, conditional on a random number of attempts; tests see single outcomes, whose number of attempts is not bounded.", "anchors": ["bet/sensitivity/gradients.py:sample_lp_ball", "bet/sensitivity/gradients.py:sample_linf_ball", "bet/sensitivity/gradients.py:sample_l1_ball", "bet/sampling/LpGeneralizedSamples.py:Lp_generalized_uniform"]}
{"id": "C164", "title": "The units of the QoIs and the choice of QoIs", "statement": "The average skewness of a set of QoIs, and each of its entries, stays the same when every gradient is multiplied by a number other than zero, which may differ from QoI to QoI and from centre to centre, and when the inputs are expressed in other orthonormal coordinates. In particular it does not matter whether the gradients were computed with normalize=True. With positive numbers find_unique_vecs keeps the same QoIs, and chooseOptQoIs(measure=False) and chooseOptQoIs_large(measure=False) return the same sets in the same order. The average measure is divided by the product of the sizes of the factors of the chosen QoIs. The condition number stays the same if all QoIs have the same factor. Both do depend on the unit of a single QoI, and so does which set they prefer.", "quantifier": "all Jacobians with any number of centres, QoIs and inputs, all sets of QoIs, all factors and orthonormal coordinates, all numbers of processes and all orders in which ties are sorted", "why_tests_cant": "A test compares two unit systems for one Jacobian; the claim is about all Jacobians, factors and rotations.", "anchors": ["bet/sensitivity/chooseQoIs.py: calculate_avg_skewness, calculate_avg_measure, calculate_avg_condnum, find_unique_vecs, chooseOptQoIs_verbose, chooseOptQoIs_large_verbose", "bet/sensitivity/gradients.py: calculate_gradients_ffd, calculate_gradients_cfd"]}
{"id": "C165", "title": "Latin hypercubes represent every single input", "statement": "For every set of samples that lhs_sample_set makes from a Latin hypercube of n points in a box, in whatever order the slices were combined and wherever the points lie within them: the mean over the samples of a sum of functions of the single inputs differs from its mean over the box by at most the sum of the total changes of these functions (Lipschitz constant times length of the interval, or for a monotone function the difference of the values at the ends) divided by n; and the share of the samples with one input in an interval differs from the relative length of the interval by at most 2/n.", "quantifier": "all boxes, dimensions, numbers of samples and of processes, all Latin hypercubes, all functions of bounded change, all intervals", "why_tests_cant": "The bound must hold for every random permutation and every position in the slices; a test sees a few seeds.", "anchors": ["bet/sampling/basicSampling.py: lhs_sample_set", "bet/sampling/basicSampling.py: sampler.lhs_sample_set"]}
{"id": "C166", "title": "Marginals of a Latin hypercube are uniform up to two samples", "statement": "If lhs_sample_set made a set from a Latin hypercube (one point in each slice of each dimension, in any order and anywhere in the slice) in a box with non-empty interior, and the samples of a set, or of the inputs of a discretization, are these and each has probability one over the number of samples, then calculate_1D_marginal_probs returns for every input and for every number of bins probabilities that differ from one over the number of bins (the value for the uniform distribution on the box) by at most two over the number of samples, on any number of processes.", "quantifier": "every Latin hypercube, box and dimension, every number of samples, of bins and of processes, with one or with several numbers of bins", "why_tests_cant": "A test looks at the histogram of a few designs; whether a bin edge can fall so that more than two samples are gained or lost depends on all positions of the points in their slices and on all bins.", "anchors": ["bet/sampling/basicSampling.py: lhs_sample_set", "bet/postProcess/plotP.py: calculate_1D_marginal_probs"]}
{"id": "C167", "title": "Solving keeps, and moving does not increase, the divergence of two probabilities", "statement": "Two problems with the same outputs, volumes and cells of the data space and with probabilities p and q: every divergence that is a sum of terms f(p_k, q_k) with f(c a, c b) = c f(a, b) (total variation, chi-squared, squared Hellinger, Kullback-Leibler) between the solutions of prob is the sum of the terms of the cells that some sample of positive volume reaches; if all cells with probability are reached it is exactly the divergence of p and q. prob_on_emulated_samples does the same when an emulated point is linked to every cell with probability. prob_from_sample_set never increases these divergences, and keeps absolute continuity (a new cell with no probability in the second has none in the first).", "quantifier": "all numbers of samples, cells and emulated points, all dimensions, all non-negative volumes and probabilities, all homogeneous terms (and, for moving, all subadditive ones), all numbers of processors", "why_tests_cant": "a test compares two probability vectors in one distance; the claim is about all pairs of vectors and a whole family of divergences", "anchors": ["bet/calculateP/calculateP.py: prob, prob_on_emulated_samples, prob_from_sample_set"]}
{"id": "C168", "title": "Marginals of regular grids are those of the uniform distribution", "statement": "Give the samples of regular_sample_set equal probabilities. Then calculate_1D_marginal_probs gives every bin in every direction a probability that differs from 1/(number of bins) by less than 1/(number of points in that direction), and exactly 1/(number of bins) if the number of bins divides that number; calculate_2D_marginal_probs gives every bin of every pair of directions a probability within the sum of the two bounds of 1/(product of the numbers of bins), and exactly this if both numbers of bins divide.", "quantifier": "all dimensions, non-degenerate boxes, positive numbers of points and of bins in every direction, all numbers of processors in both calls", "why_tests_cant": "a test takes one grid and one number of bins; whether a centre falls on the edge of a bin depends on both", "anchors": ["bet/sampling/basicSampling.py: regular_sample_set", "bet/postProcess/plotP.py: calculate_1D_marginal_probs, calculate_2D_marginal_probs"]}
{"id": "C169", "title": "Means over regular grids", "statement": "For the samples of regular_sample_set: the mean of a sum of functions of the single inputs differs from its mean over the box by at most the sum of the changes of the functions over their intervals, each divided by the number of points in that direction, and, for functions of curvature at most M_i, by at most the sum of M_i (b_i - a_i)^2 / (24 n_i^2), so that linear functions have their exact mean. The mean of a product of functions of the single inputs, bounded by one (such as the indicator of a box), differs from the product of their means by at most the sum of their changes divided by the numbers of points.", "quantifier": "all dimensions, boxes, positive numbers of points, all functions of bounded change, or of bounded curvature", "why_tests_cant": "a test evaluates a few functions on a few grids and cannot separate the rate from the constant", "anchors": ["bet/sampling/basicSampling.py: regular_sample_set"]}
{"id": "C170", "title": "The solution is the consistent one nearest to the volumes", "statement": "Call a vector of probabilities of the input samples an explanation of the data when the samples of each output cell together get exactly the probability prescribed for that cell and a sample without volume gets none. If every output cell of positive probability is reached by a sample of positive volume, prob stores an explanation, and among all explanations it is the nearest to the volumes in every divergence that is a sum of homogeneous subadditive terms: total variation, chi-squared, Hellinger, Kullback-Leibler. In chi-squared the excess of another explanation Q over the stored P is the sum of (Q_i-P_i)^2/v_i weighted as in Pythagoras' theorem, in Kullback-Leibler it is exactly the divergence of Q from P, so in both the stored solution is the only nearest one. If some cell of positive probability is not reached, no explanation exists at all. prob_on_emulated_samples stores the explanation nearest to equal weights of the emulated points.", "quantifier": "every discretization with an estimated map and fresh probabilities, every number of samples and cells, all volumes that are not negative, all output probabilities, every competing vector of probabilities, every homogeneous subadditive divergence", "why_tests_cant": "a test can compare the solution with a few competitors; being nearest is a statement about all vectors that explain the data and all divergences of a class", "anchors": ["bet/calculateP/calculateP.py: prob", "bet/calculateP/calculateP.py: prob_on_emulated_samples"]}
{"id": "C171", "title": "What errors of the model values do to the solution", "statement": "Two inverse problems have the same volumes, the same cells of the data and the same probabilities of the cells, but different outputs of the samples (for instance computed ones and exact ones). Then the solutions of prob differ, in the sum of absolute differences, by at most the sum over the cells of twice the probability of the cell times the share of its volume that enters or leaves it (the whole probability for a cell that had no volume). For Voronoi cells of the data and outputs that are wrong by at most eps, only samples for which two centres are nearest up to 2 eps can change their cells; so the bound can be evaluated from the computed outputs alone, it is 2 delta times the total probability if such contested samples are at most a share delta of every cell of positive probability, and if there are no contested samples the solution does not change at all. Hence, if no output has two nearest centres, there is a positive eps such that errors up to eps do not change the solution. prob_on_emulated_samples has the first bound with numbers of points in place of volumes. A small eps alone guarantees nothing: for every eps > 0 there is a problem in which an error of 2 eps in one output makes the solution lose all probability.", "quantifier": "every pair of discretizations that differ in the outputs only, every number of samples, cells and processes, all volumes and probabilities that are not negative, every eps, every distance with the triangle inequality", "why_tests_cant": "a test can perturb the outputs of one problem; the bound is for all perturbations of all problems", "anchors": ["bet/calculateP/calculateP.py: prob, prob_on_emulated_samples", "bet/sample.py: discretization.set_io_ptr"]}
{"id": "C172", "title": "What an inversion recovers", "statement": "Let probabilities of the input samples give probabilities to the cells of the data, and let prob solve the inverse problem for those. It returns the probabilities one started from exactly if they are proportional to the volumes of the samples within each cell. In particular data that the volumes predict give back the volumes, and solving once more with the probabilities that a solution gives to the cells changes nothing, even if cells of the first problem were not reached. The distance of any solution from the volumes is the distance of the data from those that the volumes predict, counted over the cells that have volume. For the script of the validation example (equal volumes, a model run, user_partition_user_distribution, prob) this says: the solution differs from equal probabilities by exactly the difference between the shares of the points and the shares of the outputs in the cells that contain outputs; if the points are the outputs themselves all samples get 1/N, for every model and every partition, on every number of processes.", "quantifier": "every discretization, every list of nonnegative probabilities and volumes, every number of samples, cells and processes; every row-wise model, partition and distribution of the script", "why_tests_cant": "a test checks the recovery for a chosen model and a tolerance; which distributions are recovered, and how far off the others are, is a statement about all of them", "anchors": ["bet/calculateP/calculateP.py: prob", "bet/calculateP/simpleFunP.py: user_partition_user_distribution", "examples/measure_methods/validationExample/BET_linearMap.py"]}
{"id": "C173", "title": "What the smoothing parameter of smooth_marginals_1D does", "statement": "smooth_marginals_1D replaces each marginal by a weighted sum of its values over the total. For bins at most about half the number of bins apart, the weight is that of a Gaussian of the distance; the Gaussian is not centred (it is moved by one bin for an odd number of bins and by half a bin for an even one), and its width is sigma times (n-1)/n. For bins further apart the weight is at most exp(-36), and it is zero if sigma is at least a twelfth of the range plus one bin. As sigma grows, the value of a bin tends to the sum of the values in the bins within reach, over the total of these sums. As sigma tends to zero, the value of a bin tends to that of the next bin, over the total without the first bin (odd number of bins), or to the sum of its own and that of the next bin, over the total of these sums (even number). So a user gets neither of what one expects: a large sigma does not flatten a marginal (probability that is all in the first bin never reaches the second half of the bins), and a small sigma does not leave it as it is (with an odd number of bins all probability of a bin goes to the bin before it).", "quantifier": "every marginal with values that are not negative and a positive sum, every number of bins from two on, every bin width, every positive sigma and both limits", "why_tests_cant": "a test looks at one marginal for one sigma; limits and what is never reached are statements about all of them", "anchors": ["bet/postProcess/plotP.py: smooth_marginals_1D"]}
{"id": "C174", "title": "The samples of highest density are the smallest region of their probability", "statement": "The samples that sample_highest_prob returns are a smallest region of their probability. Every set of samples with at least their probability has at least their volume, and every set with at most their volume has at most their probability. In particular every set of samples that has the requested percentile has at least their volume. If some sample of positive probability is left out, then one more sample takes the probability over the percentile. Dually the samples that sample_lowest_prob returns are, among sets of samples of positive probability, a largest region of their probability. If the samples have no volumes, volume means the number of samples.", "quantifier": "all sample sets and discretizations with positive volumes or none, all probabilities, all percentiles, all sorting routines and all sets of samples compared with", "why_tests_cant": "The comparison is with every subset of the samples; tests compare the returned list with one expected list.", "anchors": ["bet/postProcess/postTools.py: sample_highest_prob, sample_lowest_prob, sample_prob"]}
{"id": "C175", "title": "Regions of different percentiles are nested, and complementary ones share no sample", "statement": "The samples that sample_highest_prob returns for a percentile are the first of those it returns for a larger percentile, and the same holds for sample_lowest_prob. If the probabilities are not negative and two percentiles add up to the total probability, then no sample is returned both by sample_highest_prob for the one and by sample_lowest_prob for the other, and at most one sample of positive probability is returned by neither. A percentile of at least the total probability returns all samples of positive probability, in opposite orders by the two functions, and a percentile that is not positive returns none.", "quantifier": "all sample sets and discretizations with positive volumes or none, all probabilities, all pairs of percentiles, all sorting routines that are functions of the densities", "why_tests_cant": "It relates the results of two calls for every pair of percentiles and every list of densities, with ties.", "anchors": ["bet/postProcess/postTools.py: sample_highest_prob, sample_lowest_prob, sample_prob, sort_by_rho"]}
{"id": "C176", "title": "More QoIs are never less skewed, so chooseOptQoIs_large misses no set", "statement": "Adding QoIs to a set never makes the result of calculate_avg_skewness smaller. So chooseOptQoIs_large with measure=False, which extends only sets below the tolerance, misses nothing by that: for every number of QoIs up to the largest one it chooses among all sets of this many unique QoIs whose average skewness is below the tolerance. The same holds for calculate_avg_measure and measure=True if no gradient is longer than one, as is the case for normalised gradients. It does not hold for the measure of longer gradients: a set can be below the tolerance although the sets it is built from are not, and then it is not found.", "quantifier": "all Jacobians at any number of centres, all sets of QoIs, all tolerances, all numbers of processes, all orders in which python enumerates a set, all sorting routines", "why_tests_cant": "It compares every set of QoIs with all its subsets for every Jacobian, and concerns sets that the search never looks at.", "anchors": ["bet/sensitivity/chooseQoIs.py: chooseOptQoIs_large, chooseOptQoIs_large_verbose, find_good_sets, calculate_avg_skewness, calculate_avg_measure"]}
{"id": "C177", "title": "More QoIs are never better conditioned", "statement": "Adding QoIs to a set never makes the result of calculate_avg_condnum smaller. At each centre the singular values spread: those of some of the QoIs lie between the least and the largest one of all of them. One QoI alone has the condition number one, or an infinite one if its gradient is zero at every centre.", "quantifier": "all Jacobians at any number of centres, all non-empty sets of QoIs with as many input parameters as QoIs or more, in any order", "why_tests_cant": "It compares every set of QoIs with all its subsets for every Jacobian.", "anchors": ["bet/sensitivity/chooseQoIs.py: calculate_avg_condnum"]}
{"id": "C178", "title": "What the smoothing parameters of smooth_marginals_2D do", "statement": "As each of the two smoothing parameters of a pair grows or tends to zero, independently of the other, the values returned by smooth_marginals_2D tend to sums of values of the marginal over their total. In a direction whose parameter grows, all bins within reach (about half of the bins on each side) count alike. In a direction whose parameter tends to zero, only the next bin counts if the number of bins is odd, and the bin and the next one if it is even. So with one small parameter and odd numbers of bins the marginal is moved by one bin in both directions, and what was in the first row or column is lost. A user gets neither of what one expects: large parameters do not flatten a marginal (probability that is all in the first bin of both directions never reaches the second half of the bins of either), and small parameters do not leave it as it is.", "quantifier": "every marginal with values that are not negative and not all zero, every number of bins from two on in each direction, all bin widths, all pairs of limits of the two parameters", "why_tests_cant": "a test looks at one marginal for one pair of parameters; limits and what is never reached are statements about all of them", "anchors": ["bet/postProcess/plotP.py: smooth_marginals_2D"]}
{"id": "C179", "title": "How much an inversion learns", "statement": "How far the solution of calculateP.prob is from the volumes of the samples (what was assumed before), measured by the chi-squared, Kullback-Leibler, Hellinger or total variation divergence, is exactly how far the given probabilities of the data space are from what the volumes predict for them, if every cell of positive probability is reached. A finer problem (cells divided into parts, or more QoIs, with probabilities that add up to the old ones) never teaches less. In the Kullback-Leibler divergence the difference is the divergence of the finer solution from the coarser one, in the chi-squared divergence the weighted squared difference of both, so nothing is gained only if the solution is the same. If a part of positive probability is reached by no sample, its probability is lost and the finer problem can teach less.", "quantifier": "all discretizations, processes, nearest neighbour searches, volumes and probabilities that are not negative, all ways to divide the cells or to add QoIs", "why_tests_cant": "tests compare a few numbers; that refining never loses information is a comparison of all pairs of problems", "anchors": ["bet/calculateP/calculateP.py: prob"]}
{"id": "C180", "title": "Inverting for one QoI after the other", "statement": "A user who has data of several QoIs, or several sets of data, can call calculateP.prob for one after the other, and use the probabilities found as the volumes of the next call. If some probabilities of the samples explain all the data, each call reduces the Kullback-Leibler divergence of all such probabilities from the current ones, by exactly the divergence of the new from the old ones, and by nothing only if the call changes nothing. If every problem comes up again and again, the probabilities converge. The limit explains all the data, and of all probabilities that do it is the nearest to the volumes the user started with, and the only nearest. One call for each QoI is not enough: the second call can destroy the agreement with the data of the first. If the data contradict each other, the probabilities need not converge; if they do converge, the limit explains all the data.", "quantifier": "all sequences of discretizations with the same samples, all orders in which a bounded number of rounds brings every problem back, processes, nearest neighbour searches, volumes and probabilities that are not negative", "why_tests_cant": "a limit of an unbounded number of calls cannot be reached by a test, and the claim compares it with all probabilities that explain the data", "anchors": ["bet/calculateP/calculateP.py: prob", "bet/sample.py: sample_set_base.set_volumes"]}
{"id": "C181", "title": "When one inversion for each QoI is enough", "statement": "If the volumes of the samples make two QoIs independent (the volume of the samples in a cell of the first and a cell of the second is the product of both volumes), a user can invert for them one after the other, using the probabilities found by the first call of calculateP.prob as volumes of the second: the result explains the data of both, the order of the two calls does not matter, and one call for both QoIs together, with the products of the probabilities, gives the same. An inversion for one QoI does not change the predicted distribution of the other. Without independence the order matters and the second call can destroy the agreement with the first data.", "quantifier": "all discretizations on the same samples, numbers of cells and processes, nearest neighbour searches, volumes that add up to one and probabilities that add up to one, with all cells of positive probability reached", "why_tests_cant": "a test sees one pair of QoIs; independence is a condition on all pairs of cells and the claim holds for all data", "anchors": ["bet/calculateP/calculateP.py: prob", "bet/sample.py: sample_set_base.set_volumes"]}
