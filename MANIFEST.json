{
 "claims": [
  {
   "property": "C01",
   "status": "proved",
   "theorems": [
    "BET.C01_prob_cell_mass",
    "BET.C01_prob_zero_elsewhere",
    "BET.C01_prob_total"
   ],
   "note": ""
  },
  {
   "property": "C02",
   "status": "proved",
   "theorems": [
    "BET.C02_prob_proportional",
    "BET.C02_prob_nonneg",
    "BET.C02_prob_equal_volumes"
   ],
   "note": ""
  },
  {
   "property": "C03",
   "status": "proved",
   "theorems": [
    "BET.C03_prob_rank_independent",
    "BET.C03_prob_fresh"
   ],
   "note": ""
  },
  {
   "property": "C04",
   "status": "proved",
   "theorems": [
    "BET.C04_emulated_equal_share",
    "BET.C04_emulated_zero",
    "BET.C04_emulated_cell_mass",
    "BET.C04_emulated_rank_independent",
    "BET.C04_emulated_fresh"
   ],
   "note": ""
  },
  {
   "property": "C05",
   "status": "partial",
   "theorems": [
    "BET.C05_negation_local_pointer_only",
    "BET.C05_negation_after_prob",
    "BET.C05_global_pointer_partial"
   ],
   "note": "The code violates the property when only the local pointer was set; negation proved with witnesses (also after a plain prob call), and the property proved when the global pointer is present."
  },
  {
   "property": "C06",
   "status": "proved",
   "theorems": [
    "BET.C06_push_forward",
    "BET.C06_rank_independent",
    "BET.C06_dim_mismatch"
   ],
   "note": ""
  },
  {
   "property": "C07",
   "status": "proved",
   "theorems": [
    "BET.C07_same_points_identity"
   ],
   "note": ""
  },
  {
   "property": "C08",
   "status": "proved",
   "theorems": [
    "BET.C08_prob_vector",
    "BET.C08_succeeds",
    "BET.C08_without_emulated"
   ],
   "note": ""
  },
  {
   "property": "C09",
   "status": "proved",
   "theorems": [
    "BET.C09_push_forward",
    "BET.C09_succeeds",
    "BET.C09_missing_probabilities"
   ],
   "note": ""
  },
  {
   "property": "C10",
   "status": "proved",
   "theorems": [
    "BET.C10_global_to_local",
    "BET.C10_same_partition"
   ],
   "note": ""
  },
  {
   "property": "C11",
   "status": "proved",
   "theorems": [
    "BET.C11_round_trip",
    "BET.C11_local_only",
    "BET.C11_local_to_global"
   ],
   "note": ""
  },
  {
   "property": "C12",
   "status": "proved",
   "theorems": [
    "BET.C12_check_num_iff",
    "BET.C12_check_num_error",
    "BET.C12_check_num_local"
   ],
   "note": ""
  },
  {
   "property": "C13",
   "status": "proved",
   "theorems": [
    "BET.C13_clip_prefix",
    "BET.C13_clip_all",
    "BET.C13_clip_clip"
   ],
   "note": ""
  },
  {
   "property": "C14",
   "status": "proved",
   "theorems": [
    "BET.C14_merge_union",
    "BET.C14_merge_mismatch"
   ],
   "note": ""
  },
  {
   "property": "C15",
   "status": "proved",
   "theorems": [
    "BET.C15_append",
    "BET.C15_append_rejects",
    "BET.C15_append_check"
   ],
   "note": ""
  },
  {
   "property": "C16",
   "status": "partial",
   "theorems": [
    "BET.C16_normalize_partial",
    "BET.C16_undo",
    "BET.C16_round_trip_partial",
    "BET.Ex.C16_negation_shared",
    "BET.Ex.C16_negation_caller_array"
   ],
   "note": "False of the code when attributes share memory, which global_to_local makes them do (negation), and the caller's own array is changed (negation). Proved without sharing; undo proved for every sharing."
  },
  {
   "property": "C17",
   "status": "partial",
   "theorems": [
    "BET.C17_rebuilt_partial",
    "BET.C17_first_query_partial",
    "BET.C17_same_number_partial",
    "BET.Ex.C17_negation_stale_tree"
   ],
   "note": "False of the code: set_values does not drop the cached tree (negation proved). Proved when the tree is rebuilt after the last change, when no tree was built, and (nearest among the points the tree was built from) for any history."
  },
  {
   "property": "C18",
   "status": "proved",
   "theorems": [
    "BET.C18_monte_carlo",
    "BET.C18_emulated",
    "BET.C18_rank_independent",
    "BET.C18_order_independent"
   ],
   "note": ""
  },
  {
   "property": "C19",
   "status": "proved",
   "theorems": [
    "BET.C19_sum",
    "BET.C19_balanced",
    "BET.C19_spellings"
   ],
   "note": ""
  },
  {
   "property": "C20",
   "status": "proved",
   "theorems": [
    "BET.C20_equal_volumes",
    "BET.C20_local_volumes",
    "BET.C20_empty"
   ],
   "note": "An empty set of samples raises ZeroDivisionError (`C20_empty`)."
  },
  {
   "property": "C21",
   "status": "partial",
   "theorems": [
    "BET.C21_exact_length_partial",
    "BET.C21_lebesgue_partial",
    "BET.Ex.C21_negation_single_sample"
   ],
   "note": "False for a single sample: squeeze makes a 0-d index and the call raises IndexError (negation proved). Proved for every list of at least two distinct samples, also as Lebesgue measure."
  },
  {
   "property": "C22",
   "status": "partial",
   "theorems": [
    "BET.C22_rectangle_first",
    "BET.C22_rectangle_two_partial",
    "BET.Ex.C22_negation_three"
   ],
   "note": "k = 1 proved in full; for k = 2 proved; false for k >= 3 (negation: a region is reported twice)."
  },
  {
   "property": "C23",
   "status": "proved",
   "theorems": [
    "BET.C23_relative_volumes",
    "BET.C23_lebesgue",
    "BET.C23_nonneg"
   ],
   "note": ""
  },
  {
   "property": "C24",
   "status": "proved",
   "theorems": [
    "BET.C24_setup",
    "BET.C24_cells",
    "BET.C24_tiles",
    "BET.C24_query",
    "BET.C24_volumes"
   ],
   "note": ""
  },
  {
   "property": "C25",
   "status": "partial",
   "theorems": [
    "BET.C25_ball_first",
    "BET.C25_ball_two_partial",
    "BET.Ex.C25_negation_three"
   ],
   "note": "As C22, for balls."
  },
  {
   "property": "C26",
   "status": "partial",
   "theorems": [
    "BET.C26_density_times_volume",
    "BET.C26_integral",
    "BET.C26_pdf_partial",
    "BET.Ex.C26_negation_pdf_scale",
    "BET.Ex.C26_negation_pdf_global_only"
   ],
   "note": "Densities and their integral proved in full. evaluate pdf is false of the code in two ways (negations: global-only volumes; scaling by the domain volume); the correct guard is proved."
  },
  {
   "property": "C27",
   "status": "partial",
   "theorems": [
    "BET.C27_iff_partial",
    "BET.C27_refl_partial",
    "BET.C27_symm_partial",
    "BET.C27_disc_iff_partial",
    "BET.Ex.C27_negation_broadcast",
    "BET.Ex.C27_negation_nan",
    "BET.Ex.C27_negation_none",
    "BET.Ex.C27_negation_maps",
    "BET.Ex.C27_negation_missing_set"
   ],
   "note": "False of the code in general (five negations: broadcasting, nan, None against array, cluster maps, missing set). Proved for sets of the same form: equality means agreement of every field without nan; reflexive without nan; a True answer is symmetric."
  },
  {
   "property": "C28",
   "status": "partial",
   "theorems": [
    "BET.C28_terminates",
    "BET.C28_volumes_partial",
    "BET.Ex.C28_negation_zero_volume",
    "BET.Ex.C28_negation_no_points"
   ],
   "note": "Termination and normalisation proved for every outcome of the sampling. 'Positive' is false: a cell no point falls into gets volume 0, and with max_num_emulate <= 10 all volumes are nan (negations)."
  },
  {
   "property": "C29",
   "status": "proved",
   "theorems": [
    "BET.C29_construction",
    "BET.C29_clip",
    "BET.C29_merge",
    "BET.C29_merge_needs_emulated"
   ],
   "note": ""
  },
  {
   "property": "C30",
   "status": "partial",
   "theorems": [
    "BET.C30_pointer_local",
    "BET.C30_pointer_global",
    "BET.C30_emulated_input_pointer",
    "BET.C30_emulated_output_pointer",
    "BET.C30_new_probability_set_partial",
    "BET.Ex.C30_negation_stale_global"
   ],
   "note": "False of the code: set_output_probability_set refreshes only the local pointer (negation C30_negation_stale_global). Everything else proved."
  },
  {
   "property": "C31",
   "status": "partial",
   "theorems": [
    "BET.C31_selects",
    "BET.C31_total",
    "BET.C31_all_partial",
    "BET.C31_all_jacobians",
    "BET.Ex.C31_negation_identity",
    "BET.Ex.C31_negation_default"
   ],
   "note": "Selection proved in full. 'Choosing all is the identity' is false for the other arrays (volumes, probabilities), which are dropped, and the documented default None raises (negations)."
  },
  {
   "property": "C32",
   "status": "partial",
   "theorems": [
    "BET.C32_global_to_local_partial",
    "BET.C32_succeeds",
    "BET.C32_local_to_global",
    "BET.C32_round_trip",
    "BET.Ex.C32_negation_emulated_output"
   ],
   "note": "False of the code: the emulated output set is never localized (negation proved); proved for the other four sets."
  },
  {
   "property": "C33",
   "status": "proved",
   "theorems": [
    "BET.C33_uniform_size",
    "BET.C33_uniform_normal",
    "BET.C33_support",
    "BET.C33_user_partition",
    "BET.C33_data_samples",
    "BET.C33_normal_partition",
    "BET.C33_regular"
   ],
   "note": ""
  },
  {
   "property": "C34",
   "status": "proved",
   "theorems": [
    "BET.C34_regular"
   ],
   "note": ""
  },
  {
   "property": "C35",
   "status": "proved",
   "theorems": [
    "BET.C35_scaled",
    "BET.C35_scaled_each",
    "BET.C35_domain"
   ],
   "note": ""
  },
  {
   "property": "C36",
   "status": "proved",
   "theorems": [
    "BET.C36_interior_subset",
    "BET.C36_interior_disjoint",
    "BET.C36_defined"
   ],
   "note": ""
  },
  {
   "property": "C37",
   "status": "proved",
   "theorems": [
    "BET.C37_bounds"
   ],
   "note": ""
  },
  {
   "property": "C38",
   "status": "partial",
   "theorems": [
    "BET.C38_links",
    "BET.C38_adjacent_partial",
    "BET.C38_defined",
    "BET.C38_delaunay",
    "BET.Ex.C38_negation_unsorted"
   ],
   "note": "Proved: exact description of the links (C38_links), the Delaunay case, and adjacency when argsort is its own inverse. False in general: positions returned by argsort are used as ranks (Ex.C38_negation_unsorted)."
  },
  {
   "property": "C39",
   "status": "partial",
   "theorems": [
    "BET.C39_region",
    "BET.C39_region_method",
    "BET.C39_contour_partial",
    "BET.C39_contour_contour",
    "BET.Ex.C39_negation"
   ],
   "note": "Region answers never change; contour answers of events with interior cells never change. False otherwise: reading the defaultdict inserts keys, after which nan becomes inf (Ex.C39_negation)."
  },
  {
   "property": "C40",
   "status": "partial",
   "theorems": [
    "BET.C40_contour_partial",
    "BET.C40_contour_nan",
    "BET.C40_region_partial",
    "BET.C40_region_raises",
    "BET.C40_region_mc_partial",
    "BET.C40_constructor",
    "BET.C40_exact_model",
    "BET.Ex.C40_negation_contour",
    "BET.Ex.C40_negation_region",
    "BET.Ex.C40_negation_mc"
   ],
   "note": "Proved for events with samples (non-zero volume). For events of positive probability without samples the contour estimate is nan, the region method raises ZeroDivisionError and the Monte Carlo one is infinite (negations in Ex)."
  },
  {
   "property": "C41",
   "status": "proved",
   "theorems": [
    "BET.C41_rejection"
   ],
   "note": ""
  },
  {
   "property": "C42",
   "status": "proved",
   "theorems": [
    "BET.C42_cluster_weights",
    "BET.C42_gmm"
   ],
   "note": ""
  },
  {
   "property": "C43",
   "status": "proved",
   "theorems": [
    "BET.C43_weights",
    "BET.C43_weights_maps",
    "BET.C43_single_map_fails",
    "BET.C43_total_weights"
   ],
   "note": "Densities (scipy.stats.gaussian_kde) are a parameter; the theorems cover both plain regions and cluster maps. C43_single_map_fails records that a single cluster map always raises."
  },
  {
   "property": "C44",
   "status": "proved",
   "theorems": [
    "BET.C44_mean_cov",
    "BET.C44_gmm",
    "BET.C44_gaussian"
   ],
   "note": ""
  },
  {
   "property": "C45",
   "status": "proved",
   "theorems": [
    "BET.C45_midpoints",
    "BET.C45_zero",
    "BET.C45_defined",
    "BET.C45_volumes"
   ],
   "note": "The one-dimensional volume statement needs at least two samples, because exact_volume_1D fails for a single sample (see C21). A number 0 per dimension raises ValueError (C45_zero). Surplus numbers per dimension raise ValueError unless they are 1 or the grid has a single point, which is then repeated (example in Props/Sampling). np.float and np.product, which newer numpy removed, are modelled as float and np.prod."
  },
  {
   "property": "C46",
   "status": "partial",
   "theorems": [
    "BET.C46_pairs_partial",
    "BET.C46_defined",
    "BET.Ex.C46_negation_stale"
   ],
   "note": "Proved for a set with no old local values. Negation C46_negation_stale: a set that keeps local values from an earlier distribution has its newly assigned global values overwritten by them."
  },
  {
   "property": "C47",
   "status": "proved",
   "theorems": [
    "BET.C47_init",
    "BET.C47_nearest",
    "BET.C47_data",
    "BET.C47_defined"
   ],
   "note": "Every new point gets the output and the error estimate of its nearest sample, for every number of processes; a point equal to a sample gets that sample's output when samples are distinct."
  },
  {
   "property": "C48",
   "status": "partial",
   "theorems": [
    "BET.C48_values",
    "BET.C48_affine_partial",
    "BET.C48_defined",
    "BET.Ex.C48_negation"
   ],
   "note": "The statement is false of the code: the first-order term is added with the wrong sign (the displacement is centre minus point), Ex.C48_negation. The partial theorem says what is computed for an affine model: the value at the point reflected through the nearest sample; exact only at the samples or for zero gradient."
  },
  {
   "property": "C49",
   "status": "proved",
   "theorems": [
    "BET.C49_update"
   ],
   "note": "For a consistent discretization with error estimates, a new set without local arrays that is non-empty or has volumes, and at least one region, all of which occur: the totals, the cells and the independence of the number of processes; both orders. Only the charges of the last region remain."
  },
  {
   "property": "C50",
   "status": "proved",
   "theorems": [
    "BET.C50_points",
    "BET.C50_quotients",
    "BET.C50_affine"
   ],
   "note": "Exact for every affine model; also the forward difference quotients of any model."
  },
  {
   "property": "C51",
   "status": "partial",
   "theorems": [
    "BET.C51_points",
    "BET.C51_quotients_partial",
    "BET.C51_quadratic_partial",
    "BET.Ex.C51_negation_outputs"
   ],
   "note": "Gradients are exact (any quadratic model) and are the centred quotients of any model; the outputs paired with the centres are wrong (calculate_gradients_cfd line 514 drops the rows of the centres before line 549 reads them): Ex.C51_negation_outputs."
  },
  {
   "property": "C52",
   "status": "proved",
   "theorems": [
    "BET.C52_ffd",
    "BET.C52_cfd",
    "BET.C52_rbf"
   ],
   "note": "For ffd, cfd and rbf; both modes raise the same errors."
  },
  {
   "property": "C53",
   "status": "proved",
   "theorems": [
    "BET.C53_unique"
   ],
   "note": "enum is any listing of a set, norm2 any function of a vector."
  },
  {
   "property": "C54",
   "status": "partial",
   "theorems": [
    "BET.C54_best",
    "BET.C54_values",
    "BET.C54_attained",
    "BET.C54_singvals_partial",
    "BET.C54_choose",
    "BET.Ex.C54_negation_singular_values"
   ],
   "note": "Rows and values proved for every process count (C54_best, C54_values, C54_attained, C54_choose). Singular values: proved on one process; on several processes they are mixed up (C54_negation_singular_values)."
  },
  {
   "property": "C55",
   "status": "partial",
   "theorems": [
    "BET.C55_step",
    "BET.C55_loop_partial",
    "BET.C55_large_partial",
    "BET.Ex.C55_negation_ties"
   ],
   "note": "The enumeration is proved in full (C55_step, C55_loop_partial). Best sets: ascending, attained, minimum kept, and the n best if the values are distinct; sets with equal values are dropped (C55_negation_ties)."
  },
  {
   "property": "C56",
   "status": "proved",
   "theorems": [
    "BET.C56_sort",
    "BET.Ex.C56_negation_empty_cell"
   ],
   "note": "Proved for positive volumes (or none). With a cell of volume 0 and probability 0 (0/0 = nan) a sample of positive probability is lost: C56_negation_empty_cell."
  },
  {
   "property": "C57",
   "status": "partial",
   "theorems": [
    "BET.C57_prefix_partial",
    "BET.C57_highest",
    "BET.C57_lowest",
    "BET.C57_negation_unsorted"
   ],
   "note": "Proved with sort=True. With sort=False `indices` is never bound: sample_prob raises for every object (C57_negation_unsorted)."
  },
  {
   "property": "C58",
   "status": "proved",
   "theorems": [
    "BET.C58_nonneg",
    "BET.C58_symm",
    "BET.C58_self",
    "BET.C58_tv_zero",
    "BET.C58_triangle",
    "BET.C58_tv_le_one",
    "BET.C58_hell_le_tv"
   ],
   "note": "Proved for total variation, the norm and the Euclidean distance (and non-negativity, symmetry, zero on the diagonal for the squared Hellinger distance) with and without normalize, for every pair of densities; sqrt is any function that is the square root on the non-negative numbers."
  },
  {
   "property": "C59",
   "status": "partial",
   "theorems": [
    "BET.C59_history_partial",
    "BET.C59_current_partial",
    "BET.C59_negation_stale",
    "BET.Ex.C59_negation_reuse",
    "BET.Ex.C59_negation_normalize"
   ],
   "note": "Fails: densities are cached, so a comparison set given after a distance call is ignored (C59_negation_stale, for every history; Ex.C59_negation_reuse) and a normalized call changes later results (Ex.C59_negation_normalize). Proved part: sequences of calls with one value of normalize on unchanged comparison points (C59_history_partial); comparison sets given before the first distance (C59_current_partial). Missing: mixed normalize values, later comparison sets."
  },
  {
   "property": "C60",
   "status": "partial",
   "theorems": [
    "BET.C60_box",
    "BET.C60_contains_partial",
    "BET.C60_negation_upper",
    "BET.C60_interval_partial",
    "BET.C60_values_partial",
    "BET.C60_negation_lengths",
    "BET.Ex.C60_negation_coordinates",
    "BET.Ex.C60_negation_domains"
   ],
   "note": "Fails: the box uses the bounds of the last coordinate for all coordinates (Ex.C60_negation_coordinates), is not enlarged upwards (C60_negation_upper), the marginal interval uses only the first domain (Ex.C60_negation_domains), and sets without domains and with different numbers of samples raise (C60_negation_lengths). C60_box gives the box that is used. Proved part: containment when all coordinates lie in the range of the last one (C60_contains_partial), intervals when the second domain lies in the first (C60_interval_partial), or from equally many samples (C60_values_partial). Infinite domains are not modelled."
  },
  {
   "property": "C61",
   "status": "proved",
   "theorems": [
    "BET.C61_one_bin",
    "BET.C61_marginal",
    "BET.C61_joint",
    "BET.C61_total",
    "BET.C61_consistent",
    "BET.C61_errors"
   ],
   "note": "C61_one_bin: every point of the interval lies in exactly one cell. C61_marginal / C61_joint: the value of every entry of the 1-D and 2-D marginals, with no dependence on the process count. C61_total: sums. C61_consistent: 2-D against 1-D, possibly on different process counts. Assumption: the bounds of the domain are finite and increasing; np.histogram behaves as documented."
  },
  {
   "property": "C62",
   "status": "partial",
   "theorems": [
    "BET.C62_transpose",
    "BET.C62_vector",
    "BET.C62_column",
    "BET.C62_domain_partial",
    "BET.C62_data",
    "BET.C62_data_dim_partial",
    "BET.Ex.C62_negation_list_domain",
    "BET.Ex.C62_negation_data"
   ],
   "note": "fix_dimensions_domain: nested lists excluded (Ex.C62_negation_list_domain: [[0,1],[0,1]] becomes shape (1,2,2), three intervals are rejected). fix_dimensions_data with dim: data that fit neither way are transposed instead of rejected and not stable under a second call (Ex.C62_negation_data)."
  },
  {
   "property": "C63",
   "status": "proved",
   "theorems": [
    "BET.C63_meshgrid",
    "BET.C63_members",
    "BET.C63_once",
    "BET.Ex.C63_needs_ten"
   ],
   "note": "At most ten vectors, as documented; Ex.C63_needs_ten shows the limit is needed."
  },
  {
   "property": "C64",
   "status": "partial",
   "theorems": [
    "BET.C64_one_file_partial",
    "BET.C64_own_files_partial",
    "BET.C64_parallel_files_partial",
    "BET.C64_missing",
    "BET.C64_other_files",
    "BET.Ex.C64_negation_local_parts",
    "BET.Ex.C64_negation_directory",
    "BET.Ex.C64_negation_stale",
    "BET.Ex.C64_negation_leftover"
   ],
   "note": "Globalized: every process gets the dump of one process, so local arrays are those of that process (Ex.C64_negation_local_parts) unless localize=True. Unglobalized: load_object only for names without directory, no stale name.p, no left-over proc*_name.p (Ex.C64_negation_directory, _stale, _leftover); load_object_parallel works in directories. pickle is assumed to restore what it wrote; simultaneous writes of one file are serialized."
  },
  {
   "property": "C65",
   "status": "proved",
   "theorems": [
    "BET.C65_serial_is_mpi",
    "BET.Ex.C65_needs_copy",
    "BET.Ex.C65_scatter_length"
   ],
   "note": "For programs that copy the send buffer into the receive buffer before a buffer Allreduce and scatter lists with one entry per process, as all of BET does (Ex.C65_needs_copy, Ex.C65_scatter_length show both are needed)."
  },
  {
   "property": "C66",
   "status": "proved",
   "theorems": [
    "BET.C66_ball_volumes"
   ],
   "note": ""
  },
  {
   "property": "C67",
   "status": "partial",
   "theorems": [
    "BET.C67_shares_partial",
    "BET.Ex.C67_negation_normal"
   ],
   "note": "False for normal_partition_normal_distribution, which weights the count of a cell with the sum of 1/pdf over its points (negation proved). Proved for the three other constructors that count."
  },
  {
   "property": "C68",
   "status": "partial",
   "theorems": [
    "BET.C68_accepts_partial",
    "BET.Ex.C68_negation_list"
   ],
   "note": "A Python list raises TypeError in the uniform partition (`1.5 * rect_size`), contrary to the documentation (negation proved). Proved: numbers and arrays are accepted."
  },
  {
   "property": "C69",
   "status": "partial",
   "theorems": [
    "BET.C69_covered_iff",
    "BET.C69_covering_partial",
    "BET.Ex.C69_negation_isolated"
   ],
   "note": "Exact membership proved; false for isolated cells (Ex.C69_negation_isolated)."
  },
  {
   "property": "C70",
   "status": "proved",
   "theorems": [
    "BET.C70_contour_bounds",
    "BET.C70_region_bounds"
   ],
   "note": ""
  },
  {
   "property": "C71",
   "status": "partial",
   "theorems": [
    "BET.C71_region_bracket_partial",
    "BET.Ex.C71_negation_isolated"
   ],
   "note": "Proved when no cell of an event is isolated; false otherwise (Ex.C71_negation_isolated)."
  },
  {
   "property": "C72",
   "status": "proved",
   "theorems": [
    "BET.C72_error_id_sum"
   ],
   "note": ""
  },
  {
   "property": "C73",
   "status": "proved",
   "theorems": [
    "BET.C73_reweighted"
   ],
   "note": ""
  },
  {
   "property": "C74",
   "status": "partial",
   "theorems": [
    "BET.C74_invert_defined_partial",
    "BET.C74_rejection_defined_partial",
    "BET.Ex.C74_negation_single_map",
    "BET.Ex.C74_negation_singleton",
    "BET.Ex.C74_negation_gap"
   ],
   "note": "False of the code for a single cluster map (the number of maps instead of samples is compared with 1), for a cluster with one sample and, for rejection sampling, for an unused label; Ex.C74_negation_single_map, Ex.C74_negation_singleton and Ex.C74_negation_gap are the witnesses. Proved for every labelling with two predicted and two observed samples in every cluster, without cluster maps."
  },
  {
   "property": "C75",
   "status": "proved",
   "theorems": [
    "BET.C75_clean_data"
   ],
   "note": ""
  },
  {
   "property": "C76",
   "status": "partial",
   "theorems": [
    "BET.C76_draws",
    "BET.C76_defined_partial",
    "BET.C76_in_domain",
    "BET.C76_domain_kept",
    "BET.Ex.C76_negation_stale"
   ],
   "note": "Consistency and success for objects without arrays; drawing into a set that already has arrays keeps the old ones (Ex.C76_negation_stale: old probabilities on new samples, or an inconsistent set). Abbreviations 'r', 'random', 'lhs' are in C127."
  },
  {
   "property": "C77",
   "status": "partial",
   "theorems": [
    "BET.C77_values",
    "BET.C77_defined_partial",
    "BET.C77_in_domain",
    "BET.C77_latin",
    "BET.Ex.C77_negation_stale"
   ],
   "note": "Consistency and success for objects without arrays (Ex.C77_negation_stale). All processes are assumed to get the same array from pyDOE. Draws that differ between processes are in C126."
  },
  {
   "property": "C78",
   "status": "partial",
   "theorems": [
    "BET.C78_kernel",
    "BET.C78_gradient_partial",
    "BET.Ex.C78_negation_shape"
   ],
   "note": "True for ep=1 (default). For other ep the interpolation matrix is built with ep=1 (calculate_gradients_rbf line 353) and the derivative with ep: Ex.C78_negation_shape. Assumed of the external routines: Spec.RbfReal."
  },
  {
   "property": "C79",
   "status": "partial",
   "theorems": [
    "BET.C79_singvals_partial",
    "BET.Ex.C79_negation_processes",
    "BET.Ex.C79_negation_ties"
   ],
   "note": "Proved on one process for distinct values; fails on several processes (C79_negation_processes) and for equal values (C79_negation_ties)."
  },
  {
   "property": "C80",
   "status": "partial",
   "theorems": [
    "BET.C80_hell_partial",
    "BET.C80_hell_normalized",
    "BET.C80_negation"
   ],
   "note": "Fails with normalize=True (C80_negation: strictly smaller whenever there are two or more points and the distance is positive; C80_hell_normalized: the exact relation). Proved part: normalize=False (C80_hell_partial)."
  },
  {
   "property": "C81",
   "status": "partial",
   "theorems": [
    "BET.C81_value",
    "BET.C81_errors",
    "BET.C81_order",
    "BET.C81_linear_map",
    "BET.C81_expected_partial",
    "BET.C81_negation_expected"
   ],
   "note": "Proved: formula, infinite iff dependent at every centre, order independence, linear maps (volume of the inverse image), errors, value never above the expected measure. The documented reading \"expected measure of the inverse image\" is false in general: C81_negation_expected."
  },
  {
   "property": "C82",
   "status": "proved",
   "theorems": [
    "BET.C82_entries",
    "BET.C82_mean",
    "BET.C82_order",
    "BET.C82_errors"
   ],
   "note": "All of the statement. Singular values and norms are oracles with their mathematical specification; arithmetic is exact."
  },
  {
   "property": "C83",
   "status": "partial",
   "theorems": [
    "BET.C83_mean_partial",
    "BET.C83_order",
    "BET.C83_negation_one",
    "BET.C83_negation_singular_values",
    "BET.C83_errors"
   ],
   "note": "C83_mean_partial excludes one QoI with a zero gradient at some but not all centres, where the code is wrong (C83_negation_one). The returned singular values are overwritten with inf and 1 at singular centres (C83_negation_singular_values)."
  },
  {
   "property": "C84",
   "status": "proved",
   "theorems": [
    "BET.C84_uniform",
    "BET.C84_beta",
    "BET.C84_defined",
    "BET.C84_inf",
    "BET.C84_radius"
   ],
   "note": "All of the statement over exact reals; the random draws are universally quantified inputs."
  },
  {
   "property": "C85",
   "status": "proved",
   "theorems": [
    "BET.C85_clusters",
    "BET.C85_rows",
    "BET.C85_ends",
    "BET.C85_negation_none",
    "BET.C85_negation_outside",
    "BET.C85_in_ball"
   ],
   "note": "All of the statement. C85_negation_none and C85_negation_outside record two inputs the documentation does not exclude: num_close = 0 raises an error and a centre too far outside the domain makes the call run forever."
  },
  {
   "property": "C86",
   "status": "partial",
   "theorems": [
    "BET.C86_kde_partial",
    "BET.C86_negation_transposed",
    "BET.C86_gmm_partial",
    "BET.C86_negation_gmm",
    "BET.C86_rv",
    "BET.C86_refused",
    "BET.C86_number",
    "BET.C86_total_partial",
    "BET.Ex.C86_negation_two_by_two",
    "BET.Ex.C86_negation_number"
   ],
   "note": "C86_kde_partial excludes processes that draw exactly dim points (C86_negation_transposed), C86_gmm_partial several clusters in one dimension (C86_negation_gmm); the total is within half the number of clusters of n (C86_total_partial), not n (C86_negation_number)."
  },
  {
   "property": "C87",
   "status": "proved",
   "theorems": [
    "BET.C87_radii",
    "BET.C87_radii_and_volume",
    "BET.C87_determined",
    "BET.C87_negation_few_points",
    "BET.C87_negation_many_processes"
   ],
   "note": "All of the statement; the two negations record consequences the documentation does not mention."
  },
  {
   "property": "C88",
   "status": "proved",
   "theorems": [
    "BET.C88_pairs",
    "BET.C88_defined",
    "BET.C88_negation_default"
   ],
   "note": "All of the statement. C88_negation_default: num_samples is optional in the signature but leaving it out is an error."
  },
  {
   "property": "C89",
   "status": "partial",
   "theorems": [
    "BET.C89_kde",
    "BET.C89_rv",
    "BET.C89_gmm",
    "BET.C89_one_cluster_partial",
    "BET.C89_negation_kde",
    "BET.C89_dimension",
    "BET.C89_refused",
    "BET.C89_negation_voronoi",
    "BET.C89_voronoi_partial"
   ],
   "note": "Kernel density estimates with two or more clusters: pdf is the product of the mixed marginals, not the mixture that sample_from_updated draws from (C89_negation_kde gives the difference). marginal_pdf of Voronoi sets raises for the documented shape (num_vals, dim) with dim >= 2 (C89_negation_voronoi)."
  },
  {
   "property": "C90",
   "status": "partial",
   "theorems": [
    "BET.C90_one",
    "BET.C90_smooth1D_partial",
    "BET.C90_scale",
    "BET.C90_negation_odd",
    "BET.C90_negation_even",
    "BET.C90_negation_one_bin",
    "BET.C90_two",
    "BET.C90_smooth2D_partial",
    "BET.C90_product",
    "BET.C90_fourier"
   ],
   "note": "The values are probabilities and the formula holds for every number of bins from two on. The kernel is not centred: with an odd number of bins a peak moves to the bin before it (C90_negation_odd), with an even number it is spread over its bin and the one before (C90_negation_even); with one bin the result is undefined (C90_negation_one_bin)."
  },
  {
   "property": "C91",
   "status": "partial",
   "theorems": [
    "BET.C91_exact_partial",
    "BET.C91_all_reflected_partial",
    "BET.C91_dense_partial",
    "BET.C91_negation_middle",
    "BET.C91_dimension"
   ],
   "note": "Exact under the guard that the samples nearest to the sides are reflected (C91_exact_partial), which holds for side_ratio >= 1 (C91_all_reflected_partial) and for samples dense relative to side_ratio (C91_dense_partial). Without the guard false: with the default side_ratio = 0.25 and all samples in the middle half of the domain nothing is reflected and cells get the volume zero (C91_negation_middle)."
  },
  {
   "property": "C92",
   "status": "proved",
   "theorems": [
    "BET.C92_kde",
    "BET.C92_negation_gap"
   ],
   "note": "Total under the stated condition; C92_negation_gap is the last sentence. The kernel density estimator is a parameter with positive values."
  },
  {
   "property": "C93",
   "status": "partial",
   "theorems": [
    "BET.C93_argument",
    "BET.C93_fitted_partial",
    "BET.C93_negation_shapes",
    "BET.C93_negation_many"
   ],
   "note": "The code stores the fitted shape parameters under the names a and b whatever their names are: C93_negation_shapes (lognorm, t, ...) shows pdf then raises TypeError, and C93_negation_many that distributions with three or more shape parameters are refused. C93_fitted_partial covers the others."
  },
  {
   "property": "C94",
   "status": "partial",
   "theorems": [
    "BET.C94_tv_partial",
    "BET.C94_triangle",
    "BET.C94_hell_partial",
    "BET.C94_euclid_partial",
    "BET.C94_kl_partial",
    "BET.C94_interval",
    "BET.C94_negation_norm",
    "BET.C94_negation_name"
   ],
   "note": "Values and properties proved for tv, hell, sqhell, 2 and kl under exact quadrature. The last part about names fails: C94_negation_norm ('norm' is signed and zero for any two densities on the interval) and C94_negation_name (the documented 'mink' raises TypeError)."
  },
  {
   "property": "C95",
   "status": "partial",
   "theorems": [
    "BET.C95_lines",
    "BET.C95_density_partial",
    "BET.C95_negation_density",
    "BET.C95_negation_area",
    "BET.C95_negation_measure",
    "BET.C95_refused"
   ],
   "note": "The lines are over the right cells (C95_lines). The heights are not: ind_sort[0] selects only the smallest sample, so every line has the height of its probability (C95_negation_density, C95_negation_area), and with density=False one height is given for all lines (C95_negation_measure). C95_density_partial: equal probabilities."
  },
  {
   "property": "C96",
   "status": "partial",
   "theorems": [
    "BET.C96_polygons",
    "BET.C96_plot_partial",
    "BET.C96_negation_uncovered",
    "BET.C96_negation_labels",
    "BET.C96_refused"
   ],
   "note": "Polygons inside the cells, colours and refusals proved. The last sentence fails: C96_negation_uncovered and C96_negation_labels. scipy.spatial.Voronoi is assumed to satisfy DiagramOk."
  },
  {
   "property": "C97",
   "status": "proved",
   "theorems": [
    "BET.C97_curve",
    "BET.C97_mass",
    "BET.C97_limits",
    "BET.C97_first_width",
    "BET.C97_files",
    "BET.C97_refused",
    "BET.C97_negation_area",
    "BET.C97_negation_emulated"
   ],
   "note": "C97_curve, C97_mass: for marginals computed on the domain that is drawn. C97_first_width: for other bins the height is the mean density only where the bin is as wide as the first one. C97_negation_area: the area under the line drawn is not the total probability, since the points are spread over the whole domain and not placed at the centres of the bins. C97_negation_emulated: for a discretization with an emulated input set the marginals of the emulated set are drawn over the domain of the input set."
  },
  {
   "property": "C98",
   "status": "proved",
   "theorems": [
    "BET.C98_image",
    "BET.C98_mass",
    "BET.C98_contours",
    "BET.C98_files",
    "BET.C98_refused"
   ],
   "note": "ShowsAt and ContourAt state the documented meaning of extent and origin='lower' in matplotlib; the bicubic interpolation of colours between pixels is not modelled. As in C97 the domain drawn has to be that on which the marginals were computed."
  },
  {
   "property": "C99",
   "status": "proved",
   "theorems": [
    "BET.C99_curves",
    "BET.C99_succeeds",
    "BET.C99_discretizations",
    "BET.C99_refused",
    "BET.C99_negation_points",
    "BET.C99_legends",
    "BET.C99_negation_legends",
    "BET.C99_densities"
   ],
   "note": "C99_curves, C99_succeeds, C99_discretizations, C99_refused, C99_legends and C99_densities prove the claim; C99_negation_points and C99_negation_legends prove that num_points is ignored without interval and that sets with equal labels get equal legends."
  },
  {
   "property": "C100",
   "status": "proved",
   "theorems": [
    "BET.C100_scatter2D",
    "BET.C100_scatter3D",
    "BET.C100_succeeds",
    "BET.C100_refused",
    "BET.C100_file",
    "BET.C100_negation_extension",
    "BET.C100_sides",
    "BET.C100_negation_unset",
    "BET.C100_negation_identity",
    "BET.C100_negation_3D"
   ],
   "note": "C100_scatter2D, C100_scatter3D, C100_succeeds, C100_refused, C100_file and C100_sides prove the claim; C100_negation_extension, C100_negation_unset, C100_negation_identity and C100_negation_3D prove the defects named in the statement."
  },
  {
   "property": "C101",
   "status": "proved",
   "theorems": [
    "BET.C101_plane",
    "BET.C101_pairs",
    "BET.C101_space",
    "BET.C101_triples",
    "BET.C101_default_pairs",
    "BET.C101_files",
    "BET.C101_succeeds",
    "BET.C101_negation_label",
    "BET.C101_negation_output",
    "BET.C101_negation_silent",
    "BET.C101_negation_line",
    "BET.C101_negation_dim_nums"
   ],
   "note": "C101_plane, C101_pairs, C101_space, C101_triples, C101_default_pairs, C101_files and C101_succeeds prove the claim; the C101_negation theorems prove the defects named in the statement."
  },
  {
   "property": "C102",
   "status": "proved",
   "theorems": [
    "BET.C102_pairs",
    "BET.C102_files",
    "BET.C102_succeeds",
    "BET.C102_negation_diagonal",
    "BET.C102_negation_input",
    "BET.C102_negation_output",
    "BET.C102_output"
   ],
   "note": "C102_pairs, C102_files, C102_succeeds and C102_output prove the claim; C102_negation_diagonal, C102_negation_input and C102_negation_output prove the defects named in the statement."
  },
  {
   "property": "C103",
   "status": "proved",
   "theorems": [
    "BET.C103_one",
    "BET.C103_negation_save",
    "BET.C103_negation_open",
    "BET.C103_negation_colors",
    "BET.C103_pairs",
    "BET.C103_files",
    "BET.C103_succeeds",
    "BET.C103_refused"
   ],
   "note": "C103_one, C103_pairs, C103_files, C103_succeeds and C103_refused prove the claim; C103_negation_save, C103_negation_open and C103_negation_colors prove the defects named in the statement."
  },
  {
   "property": "C104",
   "status": "proved",
   "theorems": [
    "BET.C104_frame",
    "BET.C104_unchanged",
    "BET.C104_last_set",
    "BET.C104_negation_error_id_local",
    "BET.C104_reference",
    "BET.C104_domain",
    "BET.C104_negation_domain",
    "BET.C104_densities",
    "BET.C104_values",
    "BET.C104_negation_set_values",
    "BET.C104_append",
    "BET.C104_append_plain",
    "BET.C104_negation_box",
    "BET.C104_bounds",
    "BET.C104_box"
   ],
   "note": "C104_frame, C104_unchanged, C104_last_set, C104_reference, C104_domain, C104_densities, C104_values, C104_append, C104_append_plain, C104_box and C104_bounds prove the claim; C104_negation_error_id_local, C104_negation_set_values, C104_negation_box and C104_negation_domain prove the defects named in the statement. Aliasing of arrays is the subject of C16, not of this claim."
  },
  {
   "property": "C105",
   "status": "proved",
   "theorems": [
    "BET.C105_make_disc",
    "BET.C105_succeeds",
    "BET.C105_order",
    "BET.C105_series",
    "BET.C105_negation_observed",
    "BET.C105_negation_clusters",
    "BET.C105_negation_parallel"
   ],
   "note": "The package LUQ is a parameter."
  },
  {
   "property": "C106",
   "status": "proved",
   "theorems": [
    "BET.C106_frame",
    "BET.C106_pairs",
    "BET.C106_uses",
    "BET.C106_negation_reuse",
    "BET.Ex.C106_negation_reused",
    "BET.Ex.C106_negation_globalize"
   ],
   "note": ""
  },
  {
   "property": "C107",
   "status": "proved",
   "theorems": [
    "BET.C107_mapped",
    "BET.C107_sound",
    "BET.C107_second",
    "BET.C107_negation_documented",
    "BET.C107_negation_tuple"
   ],
   "note": ""
  },
  {
   "property": "C108",
   "status": "proved",
   "theorems": [
    "BET.C108_consistent",
    "BET.C108_rectangle",
    "BET.C108_scaled",
    "BET.C108_user"
   ],
   "note": ""
  },
  {
   "property": "C109",
   "status": "proved",
   "theorems": [
    "BET.C109_single"
   ],
   "note": ""
  },
  {
   "property": "C110",
   "status": "proved",
   "theorems": [
    "BET.C110_delaunay",
    "BET.C110_line",
    "BET.C110_processes",
    "BET.C110_refused"
   ],
   "note": ""
  },
  {
   "property": "C111",
   "status": "proved",
   "theorems": [
    "BET.C111_repeat",
    "BET.C111_negation_stale",
    "BET.C111_refresh"
   ],
   "note": "The densities are cached by the first pdf; C111_negation_stale shows for all later probabilities that pdf then ignores them, C111_refresh the remedy."
  },
  {
   "property": "C112",
   "status": "proved",
   "theorems": [
    "BET.C112_pointers_current",
    "BET.Ex.C112_negation_replaced",
    "BET.Ex.C112_negation_aligned"
   ],
   "note": "Guarded by the history not replacing the points or the cells; Ex.C112_negation_replaced and Ex.C112_negation_aligned show what happens otherwise."
  },
  {
   "property": "C113",
   "status": "proved",
   "theorems": [
    "BET.C113_own_files",
    "BET.C113_own_files_load",
    "BET.C113_one_file_same",
    "BET.C113_one_file_last",
    "BET.Ex.C113_negation_mixed",
    "BET.Ex.C113_negation_crash"
   ],
   "note": "pickle.dump/load are parameters with the round-trip law; a write puts a block of any length at the position of the writer, opening truncates."
  },
  {
   "property": "C114",
   "status": "proved",
   "theorems": [
    "BET.C114_schedules",
    "BET.C114_prob",
    "BET.C114_prob_on_emulated",
    "BET.C114_prob_from_sample_set",
    "BET.C114_prob_from_sample_set_emulated",
    "BET.C114_estimate_volume_emulated",
    "BET.C114_estimate_volume",
    "BET.C114_negation_left",
    "BET.C114_negation_apart",
    "BET.Ex.C114_negation_hang"
   ],
   "note": "The loops between the collectives and the gathering of the result are modelled on each process; check_num, the k-d tree query and global_to_local work on data that each process has, and are taken from the collective model."
  },
  {
   "property": "C115",
   "status": "proved",
   "theorems": [
    "BET.C115_copy_equal",
    "BET.C115_copy_isolated",
    "BET.C115_original_isolated",
    "BET.C115_set_copy",
    "BET.C115_shared",
    "BET.C115_set_get",
    "BET.C115_set_dims",
    "BET.Ex.C115_negation_alias"
   ],
   "note": "Methods that change a set in place are arbitrary functions on the set. The pointer arrays are left out: no code writes them in place."
  },
  {
   "property": "C116",
   "status": "proved",
   "theorems": [
    "BET.C116_rectangles",
    "BET.C116_balls",
    "BET.C116_lost",
    "BET.C116_voronoi_grows"
   ],
   "note": "Proved. The local appends take one array for every process."
  },
  {
   "property": "C117",
   "status": "proved",
   "theorems": [
    "BET.C117_verbose",
    "BET.C117_good_sets",
    "BET.C117_choose",
    "BET.C117_large",
    "BET.C117_negation_hang",
    "BET.Ex.C117_negation_too_many"
   ],
   "note": "Proved. Collectives are taken to wait for all processes."
  },
  {
   "property": "C118",
   "status": "proved",
   "theorems": [
    "BET.C118_returns",
    "BET.C118_raises",
    "BET.C118_set_prob_raises",
    "BET.C118_history",
    "BET.C118_negation_set_prob",
    "BET.C118_negation_global_to_local",
    "BET.Ex.C118_negation_volumes",
    "BET.Ex.C118_negation_tree"
   ],
   "note": ""
  },
  {
   "property": "C119",
   "status": "proved",
   "theorems": [
    "BET.C119_check_num",
    "BET.C119_global_to_local",
    "BET.C119_local_to_global",
    "BET.C119_estimate_volume",
    "BET.C119_estimate_volume_emulated",
    "BET.C119_check_nums",
    "BET.C119_set_io_ptr",
    "BET.C119_set_ii_ptr",
    "BET.C119_set_oo_ptr",
    "BET.C119_prob",
    "BET.C119_prob_on_emulated",
    "BET.C119_prob_with_emulated_volumes",
    "BET.C119_prob_from_sample_set",
    "BET.C119_prob_from_sample_set_emulated",
    "BET.C119_prob_from_discretization_input",
    "BET.Ex.C119_negation_uneven"
   ],
   "note": "Every call named in the property. Hypothesis: the local arrays have a part for each process, which every call keeps (also proved). Only calls that succeed in step; the negation shows what can happen otherwise."
  },
  {
   "property": "C120",
   "status": "proved",
   "theorems": [
    "BET.C120_uniform_size",
    "BET.C120_uniform_scaled",
    "BET.C120_uniform_domain",
    "BET.C120_data_samples",
    "BET.C120_uniform_normal",
    "BET.C120_normal_normal",
    "BET.C120_user_partition",
    "BET.C120_regular_size",
    "BET.C120_regular_domain",
    "BET.C120_regular_scaled",
    "BET.C120_negation_list",
    "BET.C120_negation_missing",
    "BET.C120_negation_missing_normal",
    "BET.C120_negation_std"
   ],
   "note": "All ten constructors; three negations, general in the data set and the number of processes."
  },
  {
   "property": "C121",
   "status": "proved",
   "theorems": [
    "BET.C121_script",
    "BET.C121_same",
    "BET.C121_global"
   ],
   "note": "Hypothesis: local arrays of the start and of the argument sets have a part for each process. Scripts with a call that raises are not covered (C119 and C120 have negations)."
  },
  {
   "property": "C122",
   "status": "proved",
   "theorems": [
    "BET.C122_history",
    "BET.C122_processes",
    "BET.C122_refused"
   ],
   "note": "Hypotheses: pointers that are there already are right and local arrays are even parts of the global ones (both established by the library itself), given volumes are not negative. The errors charged to the samples are kept beside the sets because they may be infinite."
  },
  {
   "property": "C123",
   "status": "proved",
   "theorems": [
    "BET.C123_returns",
    "BET.C123_frame",
    "BET.C123_nothing",
    "BET.C123_random",
    "BET.C123_compute",
    "BET.C123_model_raises",
    "BET.C123_retry",
    "BET.C123_pairs",
    "BET.C123_lhs",
    "BET.Ex.C123_negation_random",
    "BET.Ex.C123_negation_jacobians"
   ],
   "note": "The processes are modelled together: a call raises when one of them raises; that the others wait for it is C114. The retry needs the same number of processes and the same Jacobian flag. The English negations are proved as C123_negation_random and C123_negation_jacobians."
  },
  {
   "property": "C124",
   "status": "proved",
   "theorems": [
    "BET.C124_sampling_new",
    "BET.C124_sampling_contour",
    "BET.C124_sampling_region",
    "BET.C124_model",
    "BET.C124_model_right",
    "BET.C124_marginals",
    "BET.C124_marginals2",
    "BET.C124_marginals_right",
    "BET.C124_negation_lengths"
   ],
   "note": "sampling_error and the marginals are proved from the success of the in-step run, which C110 and C61 prove under their hypotheses; for model_error and the 1D marginals the composition is a theorem (C124_model_right, C124_marginals_right). Sums of allreduce are exact and in rank order, as in C114."
  },
  {
   "property": "C125",
   "status": "proved",
   "theorems": [
    "BET.C125_program",
    "BET.C125_pairs",
    "BET.C125_negation_model"
   ],
   "note": "The hypercube of lhs_sample_set is the same on all processes here; C126 has one per process. savefile of compute_qoi_and_create_discretization is not modelled."
  },
  {
   "property": "C126",
   "status": "proved",
   "theorems": [
    "BET.C126_values",
    "BET.C126_same",
    "BET.Ex.C126_negation_latin"
   ],
   "note": "False in general without common seeds: C126_negation_latin. C126_values says exactly which rows are kept."
  },
  {
   "property": "C127",
   "status": "proved",
   "theorems": [
    "BET.C127_refines",
    "BET.C127_program",
    "BET.C127_record",
    "BET.C127_random",
    "BET.C127_others",
    "BET.C127_names",
    "BET.C127_kept",
    "BET.C127_refused",
    "BET.C127_updated",
    "BET.C127_again",
    "BET.C127_negation_again",
    "BET.C127_density"
   ],
   "note": "False for repeated sampling with families whose range is not [loc, loc + scale]: C127_negation_again. The domains of user-made sets have an interval per direction (set_domain checks it). Infinite ranges are not modelled."
  },
  {
   "property": "C128",
   "status": "proved",
   "theorems": [
    "BET.C128_radii",
    "BET.C128_radii_and_volume",
    "BET.C128_negation_radii_and_volume",
    "BET.C128_surrogate",
    "BET.C128_surrogate_same"
   ],
   "note": "False for estimate_radii when the processes do not agree on whether all cells are hit: shown in C128_radii (last part) and C128_negation_radii_and_volume."
  },
  {
   "property": "C129",
   "status": "proved",
   "theorems": [
    "BET.C129_scripts",
    "BET.C129_own_files",
    "BET.C129_one_file",
    "BET.C129_negation_dump"
   ],
   "note": "pickle.load of a completed pickle.dump gives back the object (ReadsBack); local_to_global is taken as one collective; a file is read at one glance. A file with different pickles from several processes is excluded (C113_negation_mixed). C129_negation_dump: a pickle that raises."
  },
  {
   "property": "C130",
   "status": "proved",
   "theorems": [
    "BET.C130_volumes",
    "BET.C130_mean",
    "BET.C130_bound",
    "BET.C130_emulated",
    "BET.C130_clear_voronoi",
    "BET.C130_clear_euclidean",
    "BET.C130_clear_rectangles",
    "BET.C130_clear_balls",
    "BET.C130_negation_twins"
   ],
   "note": "The law of numpy.random.random rows is a hypothesis (UniformRows, IndependentRows), met by the product measure (Ex.independentRows). C130_negation_twins: a sample that stands twice."
  },
  {
   "property": "C131",
   "status": "proved",
   "theorems": [
    "BET.C131_events",
    "BET.C131_consistent",
    "BET.C131_emulated",
    "BET.C131_rectangle",
    "BET.C131_user"
   ],
   "note": "Random samples exist for every law (Ex.randomSamples). The limit formula has the value 0 for events without measure: the code then loses their probability (C108)."
  },
  {
   "property": "C132",
   "status": "proved",
   "theorems": [
    "BET.C132_succeeds",
    "BET.C132_law",
    "BET.C132_mean",
    "BET.C132_bound",
    "BET.C132_shares",
    "BET.Ex.C132_negation_clusters"
   ],
   "note": "Proved for every inversion whose weights are not negative with a positive one in each cluster (a gaussian_kde is positive). The shares are those of the updated weights only within a cluster: C132_negation_clusters."
  },
  {
   "property": "C133",
   "status": "proved",
   "theorems": [
    "BET.C133_prob",
    "BET.C133_emulated",
    "BET.C133_consistent",
    "BET.C133_transport",
    "BET.C133_seen"
   ],
   "note": "The cells of the input set must be clear (C130). The contour event of a sample is the one that the query picks, the same for all n and all numbers of processes."
  },
  {
   "property": "C134",
   "status": "proved",
   "theorems": [
    "BET.C134_region",
    "BET.C134_contour",
    "BET.Ex.C134_negation_contour",
    "BET.Ex.C134_negation_unresolved"
   ],
   "note": "In one dimension the samples must be such that argsort is its own inverse (C38). The claim for the upper bound of contour events is false of the code (C134_negation_contour); the English statement says so."
  },
  {
   "property": "C135",
   "status": "proved",
   "theorems": [
    "BET.C135_random",
    "BET.C135_kde",
    "BET.C135_gmm",
    "BET.C135_rv",
    "BET.C135_pdf_rv",
    "BET.C135_pdf_gmm",
    "BET.C135_pdf_kde",
    "BET.C135_random_far",
    "BET.C135_kde_far",
    "BET.C135_gmm_far",
    "BET.C135_uniform",
    "BET.C135_lhs"
   ],
   "note": "That the generators of scipy and numpy draw numbers with these laws is an assumption. Guards of C86 (a process that draws as many points as there are parameters; one dimension with several Gaussians) are hypotheses; in the limit the first holds for all but finitely many n."
  },
  {
   "property": "C136",
   "status": "proved",
   "theorems": [
    "BET.C136_rectangle",
    "BET.C136_user",
    "BET.C136_uniform"
   ],
   "note": "The laws of the generators are an assumption. For a preimage of volume zero the quotient is read as zero: no sample lies there."
  },
  {
   "property": "C137",
   "status": "proved",
   "theorems": [
    "BET.C137_scaled",
    "BET.C137_script",
    "BET.C137_uniform"
   ],
   "note": "Guards: a level set of a coordinate of the data with positive probability, or a cell of the limiting rectangle with probability zero, is excluded by hypothesis. The laws of the generators are an assumption."
  },
  {
   "property": "C138",
   "status": "proved",
   "theorems": [
    "BET.C138_voronoi",
    "BET.C138_cells",
    "BET.C138_events",
    "BET.C138_random",
    "BET.C138_contours_voronoi",
    "BET.C138_contours_rectangles",
    "BET.C138_line"
   ],
   "note": "Guards: ties and model discontinuities of positive measure, output boundaries of positive measure and cells of data with probability but without inverse image are excluded by hypothesis."
  },
  {
   "property": "C139",
   "status": "proved",
   "theorems": [
    "BET.C139_emulated",
    "BET.C139_estimated",
    "BET.C139_volumes"
   ],
   "note": "Same guards as C138: thin contours, continuity of the model almost everywhere, clear input cells, positive measure of the inverse images with positive probability."
  },
  {
   "property": "C140",
   "status": "proved",
   "theorems": [
    "BET.C140_error",
    "BET.C140_constant",
    "BET.C140_linear",
    "BET.C140_regions"
   ],
   "note": "(c) is for order 0 and for new points without volumes, with the guards of C139. Order 1 terms have the wrong sign in the code (C48), so order 1 converges but no better rate is claimed."
  },
  {
   "property": "C141",
   "status": "proved",
   "theorems": [
    "BET.C141_ffd",
    "BET.C141_cfd",
    "BET.C141_ffd_error",
    "BET.C141_cfd_error",
    "BET.C141_ffd_unit",
    "BET.C141_cfd_unit"
   ],
   "note": "Arithmetic is that of the real numbers: rounding errors, which make the error grow again for tiny radii, are not modelled."
  },
  {
   "property": "C142",
   "status": "proved",
   "theorems": [
    "BET.C142_radii",
    "BET.C142_below",
    "BET.C142_both",
    "BET.C142_bound",
    "BET.C142_negation_null",
    "BET.C142_monotone",
    "BET.C142_supremum",
    "BET.C142_euclidean",
    "BET.C142_voronoi"
   ],
   "note": "C142_radii, C142_below, C142_monotone, C142_both, C142_bound, C142_supremum, C142_euclidean, C142_voronoi; C142_negation_null for cells without volume."
  },
  {
   "property": "C143",
   "status": "proved",
   "theorems": [
    "BET.C143_rectangle",
    "BET.C143_user",
    "BET.C143_emulated"
   ],
   "note": ""
  },
  {
   "property": "C144",
   "status": "proved",
   "theorems": [
    "BET.C144_tv",
    "BET.C144_tv_normalized",
    "BET.C144_hellinger",
    "BET.C144_hellinger_normalized",
    "BET.C144_euclid",
    "BET.C144_negation_euclid",
    "BET.C144_array",
    "BET.C144_set",
    "BET.C144_number",
    "BET.C144_uniform"
   ],
   "note": "Proved. The parts of the English that say that some names tend to zero are C144_euclid (norm), C144_hellinger_normalized (hell) and C144_negation_euclid (2 and norm with normalize=True). Random points, their law and independence are assumptions on scipy.stats and the user."
  },
  {
   "property": "C145",
   "status": "proved",
   "theorems": [
    "BET.C145_tv",
    "BET.C145_hellinger",
    "BET.C145_quad",
    "BET.C145_tv_normalized",
    "BET.C145_hellinger_normalized",
    "BET.C145_negation_norm",
    "BET.C145_negation_euclid"
   ],
   "note": "Proved. The parts of the English that say that some names do not estimate a distance are C145_negation_norm and C145_negation_euclid."
  },
  {
   "property": "C146",
   "status": "proved",
   "theorems": [
    "BET.C146_value",
    "BET.C146_nonneg",
    "BET.C146_infinite",
    "BET.C146_bounds",
    "BET.C146_limit",
    "BET.C146_marginal",
    "BET.C146_quad",
    "BET.C146_negation_quad",
    "BET.C146_negation_symm"
   ],
   "note": "Proved. C146_negation_symm and C146_negation_quad are the two false expectations stated in the English. The logarithm is Real.log; an infinite value is an error of the model."
  },
  {
   "property": "C147",
   "status": "proved",
   "theorems": [
    "BET.C147_value",
    "BET.C147_defined",
    "BET.C147_two",
    "BET.C147_one",
    "BET.C147_triangle",
    "BET.C147_metric",
    "BET.C147_negation_limit",
    "BET.C147_negation_marginal",
    "BET.C147_negation_triangle"
   ],
   "note": "Proved. The false expectations stated in the English are C147_negation_limit, C147_negation_marginal and C147_negation_triangle."
  },
  {
   "property": "C148",
   "status": "proved",
   "theorems": [
    "BET.C148_uniform",
    "BET.C148_beta",
    "BET.C148_beta_uniform",
    "BET.C148_frequency",
    "BET.C148_normal",
    "BET.C148_negation_scale",
    "BET.C148_inf"
   ],
   "note": "The laws numpy documents for its generators are assumptions (structure LpDraws). The claim about the argument scale of Lp_generalized_normal is false: C148_negation_scale."
  },
  {
   "property": "C149",
   "status": "proved",
   "theorems": [
    "BET.C149_reached",
    "BET.C149_covered",
    "BET.C149_cubic",
    "BET.C149_negation_radius",
    "BET.C149_radii",
    "BET.C149_ball",
    "BET.C149_negation_shape"
   ],
   "note": "The radii that estimate_radii finds, and those that replace radii that are not positive (C150), are parameters. p is finite. The claim is false for balls that miss a part of their cell (C149_negation_radius) and for domains that are not cubes (C149_negation_shape)."
  },
  {
   "property": "C150",
   "status": "proved",
   "theorems": [
    "BET.C150_radius",
    "BET.C150_value",
    "BET.C150_negation_volume",
    "BET.C150_negation_all",
    "BET.C150_negation_two",
    "BET.C150_converges"
   ],
   "note": "Pairwise distances are a parameter. With infinite p the code calls pdist(p='chebyshev'); not modelled. The claim is false for configurations with equal distances: C150_negation_volume, C150_negation_all, C150_negation_two."
  },
  {
   "property": "C151",
   "status": "proved",
   "theorems": [
    "BET.C151_uniform",
    "BET.C151_uniform_bound",
    "BET.C151_normal",
    "BET.C151_user",
    "BET.C151_negation_normal_partition",
    "BET.C151_normal_accepts",
    "BET.C151_user_accepts",
    "BET.C151_normal_partition_accepts"
   ],
   "note": "C151_uniform, C151_uniform_bound, C151_normal, C151_user: the limits; C151_normal_accepts, C151_user_accepts, C151_normal_partition_accepts: the calls succeed; C151_negation_normal_partition: the normal partition gives finite cells no probability in the limit."
  },
  {
   "property": "C152",
   "status": "proved",
   "theorems": [
    "BET.C152_uniform_bound",
    "BET.C152_prob_exact",
    "BET.C152_prob",
    "BET.C152_prob_reached",
    "BET.C152_prob_mix",
    "BET.C152_volumes",
    "BET.C152_emulated",
    "BET.C152_transport",
    "BET.C152_transport_mix",
    "BET.C152_emulated_volumes",
    "BET.C152_negation_renormalized"
   ],
   "note": "Proved with the guard on emulated points for prob_from_sample_set_with_emulated_volumes; without it the property is false (C152_negation_renormalized)."
  },
  {
   "property": "C153",
   "status": "proved",
   "theorems": [
    "BET.C153_prob_samples",
    "BET.C153_prob_cells",
    "BET.C153_transport_old",
    "BET.C153_transport_new",
    "BET.C153_volumes",
    "BET.C153_volumes_emulated",
    "BET.C153_negation_tie"
   ],
   "note": "Proved without ties; with ties it is false (C153_negation_tie)."
  },
  {
   "property": "C154",
   "status": "proved",
   "theorems": [
    "BET.C154_exact",
    "BET.C154_relative",
    "BET.C154_prob",
    "BET.C154_prob_data",
    "BET.C154_emulated",
    "BET.C154_transport",
    "BET.C154_input",
    "BET.C154_conserved",
    "BET.C154_ranks",
    "BET.C154_transport_emulated",
    "BET.C154_volumes",
    "BET.C154_volumes_mc",
    "BET.C154_with_volumes",
    "BET.C154_negation_total",
    "BET.C154_negation_ranks"
   ],
   "note": "Proved for the standard model of rounding without underflow and overflow. C154_exact ties the rounded model to the model of the other properties; C154_negation_total and C154_negation_ranks show in binary64 rounding that totals need not be 1 and runs on different process counts differ."
  },
  {
   "property": "C155",
   "status": "proved",
   "theorems": [
    "BET.C155_enough",
    "BET.C155_rectangle",
    "BET.C155_user",
    "BET.C155_emulated",
    "BET.C155_volumes_emulated",
    "BET.C155_volumes"
   ],
   "note": "Finite-sample bounds to the limits C131 and C133. Independence of all draws of all processes is assumed (the code does not seed processes differently; that is a property of the random source). kappa > 0 is needed: an event of measure 0 is never met by samples and its probability is dropped."
  },
  {
   "property": "C156",
   "status": "proved",
   "theorems": [
    "BET.C156_history",
    "BET.C156_independent",
    "BET.C156_processes",
    "BET.Ex.C156_negation"
   ],
   "note": ""
  },
  {
   "property": "C157",
   "status": "proved",
   "theorems": [
    "BET.C157_prob",
    "BET.C157_emulated",
    "BET.C157_transport",
    "BET.C157_transport_emulated",
    "BET.C157_volumes",
    "BET.C157_volumes_emulated",
    "BET.C157_exact1D",
    "BET.C157_rectangles",
    "BET.Ex.C157_negation_own_units"
   ],
   "note": ""
  },
  {
   "property": "C158",
   "status": "proved",
   "theorems": [
    "BET.C158_agree",
    "BET.Ex.C158_negation_other_points"
   ],
   "note": ""
  },
  {
   "property": "C159",
   "status": "proved",
   "theorems": [
    "BET.C159_reached",
    "BET.C159_covered",
    "BET.C159_cubic",
    "BET.C159_negation_radius",
    "BET.C159_clear",
    "BET.Ex.C159_negation_ties"
   ],
   "note": ""
  },
  {
   "property": "C160",
   "status": "proved",
   "theorems": [
    "BET.C160_samples",
    "BET.C160_cells",
    "BET.C160_cells_iff",
    "BET.C160_proportional",
    "BET.Ex.C160_negation_unreached"
   ],
   "note": ""
  },
  {
   "property": "C161",
   "status": "proved",
   "theorems": [
    "BET.C161_diagnostic",
    "BET.C161_gmm",
    "BET.C161_gaussian",
    "BET.C161_rejection",
    "BET.C161_ratios",
    "BET.C161_diagnostic_exact",
    "BET.C161_consistent",
    "BET.C161_pooled",
    "BET.C161_pooled_one",
    "BET.C161_pooled_shares",
    "BET.Ex.C161_negation_shares",
    "BET.Ex.C161_negation_weights"
   ],
   "note": "C161_gmm, C161_gaussian, C161_diagnostic and C161_rejection are the limits; C161_ratios gives a sufficient condition for their hypothesis; C161_consistent, C161_diagnostic_exact, C161_pooled and C161_pooled_one say what the limits are with exact densities. C161_pooled_shares says when the calls that take all clusters together keep the shares; Ex.C161_negation_shares and Ex.C161_negation_weights are the negations."
  },
  {
   "property": "C162",
   "status": "proved",
   "theorems": [
    "BET.C162_bound",
    "BET.C162_empty",
    "BET.C162_limit",
    "BET.C162_location",
    "BET.C162_vanish",
    "BET.Ex.C162_negation_lost"
   ],
   "note": "C162_bound and C162_empty are exact statements for given samples; C162_limit, C162_location and C162_vanish are the limits; Ex.C162_negation_lost shows that weights can be lost between the two regimes."
  },
  {
   "property": "C163",
   "status": "proved",
   "theorems": [
    "BET.C163_law",
    "BET.C163_free",
    "BET.C163_attempts",
    "BET.C163_never",
    "BET.C163_ball",
    "BET.C163_box"
   ],
   "note": "Proved. Guards: radii, widths and num_close positive, centres in the domain. The laws of numpy's generators are an assumption."
  },
  {
   "property": "C164",
   "status": "proved",
   "theorems": [
    "BET.C164_skewness",
    "BET.C164_normalize",
    "BET.C164_gradients",
    "BET.C164_unique",
    "BET.C164_choice",
    "BET.C164_measure",
    "BET.C164_condnum",
    "BET.C164_negation_units"
   ],
   "note": ""
  },
  {
   "property": "C165",
   "status": "proved",
   "theorems": [
    "BET.C165_mean",
    "BET.C165_shares"
   ],
   "note": ""
  },
  {
   "property": "C166",
   "status": "proved",
   "theorems": [
    "BET.C166_marginals"
   ],
   "note": ""
  },
  {
   "property": "C167",
   "status": "proved",
   "theorems": [
    "BET.C167_prob",
    "BET.C167_prob_reached",
    "BET.C167_emulated",
    "BET.C167_transport",
    "BET.C167_tv",
    "BET.C167_chi",
    "BET.C167_hellinger",
    "BET.C167_kl"
   ],
   "note": "The general theorems C167_prob, C167_prob_reached, C167_emulated, C167_transport take the term as a parameter; C167_tv, C167_chi, C167_hellinger, C167_kl show which divergences meet the conditions (chi and KL for moving need the first probability to be zero where the second is)."
  },
  {
   "property": "C168",
   "status": "proved",
   "theorems": [
    "BET.C168_marginals",
    "BET.C168_joint"
   ],
   "note": "The bins of the code are half open and the last is closed; the centres never lie on the upper edge of the box. With a number of bins that does not divide, the result is not exact (example with three bins for four points)."
  },
  {
   "property": "C169",
   "status": "proved",
   "theorems": [
    "BET.C169_sums",
    "BET.C169_smooth",
    "BET.C169_products"
   ],
   "note": "The mean of a product over the box is expressed as the product of the means over the intervals (Fubini's theorem is not part of the statement)."
  },
  {
   "property": "C170",
   "status": "proved",
   "theorems": [
    "BET.C170_nearest",
    "BET.C170_explains",
    "BET.C170_chi",
    "BET.C170_emulated",
    "BET.C170_dominated",
    "BET.C170_kl"
   ],
   "note": ""
  },
  {
   "property": "C171",
   "status": "proved",
   "theorems": [
    "BET.C171_moved",
    "BET.C171_contested",
    "BET.C171_share",
    "BET.C171_same",
    "BET.C171_stable",
    "BET.C171_emulated",
    "BET.C171_negation_small"
   ],
   "note": ""
  },
  {
   "property": "C172",
   "status": "proved",
   "theorems": [
    "BET.C172_recovered",
    "BET.C172_volumes",
    "BET.C172_again",
    "BET.C172_distance",
    "BET.C172_script",
    "BET.C172_script_own"
   ],
   "note": ""
  },
  {
   "property": "C173",
   "status": "proved",
   "theorems": [
    "BET.C173_weights",
    "BET.C173_negation_flat",
    "BET.C173_large",
    "BET.C173_small_odd",
    "BET.C173_small_even",
    "BET.C173_negation_same"
   ],
   "note": "The statement contains what the code does; that a large parameter flattens and a small one changes nothing are refuted by C173_negation_flat and C173_negation_same. Exponential, Fourier transforms and the reals are exact (C90_fourier); rounding is not modelled."
  },
  {
   "property": "C174",
   "status": "proved",
   "theorems": [
    "BET.C174_smallest",
    "BET.C174_largest"
   ],
   "note": "C174_smallest for sample_highest_prob (all subsets of the samples), C174_largest for sample_lowest_prob (subsets of the samples of positive probability). Both for the call that sorts the samples. The sorting routine is any that sorts."
  },
  {
   "property": "C175",
   "status": "proved",
   "theorems": [
    "BET.C175_nested",
    "BET.C175_complement",
    "BET.C175_extremes"
   ],
   "note": "C175_nested, C175_complement, C175_extremes. The sorting routine is any function that sorts, so ties are broken equally in both calls; all calls sort the samples."
  },
  {
   "property": "C176",
   "status": "proved",
   "theorems": [
    "BET.C176_skewness",
    "BET.C176_complete",
    "BET.C176_measure",
    "BET.C176_normalized",
    "BET.C176_complete_measure",
    "BET.C176_negation_measure"
   ],
   "note": "C176_skewness, C176_complete (measure=False); C176_measure, C176_normalized, C176_complete_measure (measure=True, gradients not longer than one); C176_negation_measure: gradients of lengths 1, 1/10 and 100, tolerance 5. The singular values are any that satisfy IsSvd. Which of the sets below the tolerance are returned is described by BestOf (C55)."
  },
  {
   "property": "C177",
   "status": "proved",
   "theorems": [
    "BET.C177_spread",
    "BET.C177_condnum"
   ],
   "note": "C177_spread (each centre), C177_condnum (the average, for every non-empty set, also for one QoI with zero gradients, where C83 does not hold). The singular values are any that satisfy IsSvd."
  },
  {
   "property": "C178",
   "status": "proved",
   "theorems": [
    "BET.C178_limit",
    "BET.C178_large",
    "BET.C178_small_odd",
    "BET.C178_negation_flat",
    "BET.C178_negation_same"
   ],
   "note": "C178_limit (any combination of growing and vanishing parameters), C178_large and C178_small_odd (one parameter for both directions, in closed form), C178_negation_flat, C178_negation_same. As in C173 the theorems are about the body of the loop over the pairs; the Fourier transforms and the exponential are the exact ones (realSmoother)."
  },
  {
   "property": "C179",
   "status": "proved",
   "theorems": [
    "BET.C179_gain",
    "BET.C179_emulated",
    "BET.C179_finer",
    "BET.C179_chi",
    "BET.C179_kl",
    "BET.C179_negation_unreached"
   ],
   "note": "C179_gain, C179_emulated (prob_on_emulated_samples, every emulated point with the same weight), C179_finer (any homogeneous, subadditive divergence), C179_chi, C179_kl, C179_negation_unreached. Both problems of a comparison have the same volumes; the outputs may be in spaces of different dimension."
  },
  {
   "property": "C180",
   "status": "proved",
   "theorems": [
    "BET.C180_step",
    "BET.C180_closer",
    "BET.C180_converges",
    "BET.C180_limit",
    "BET.C180_negation_once",
    "BET.C180_negation_contradictory"
   ],
   "note": "C180_step, C180_closer, C180_converges (any order in which every problem comes back within T rounds; the volumes add up to the same total as the probabilities), C180_limit (a limit always explains all the data, so contradictory data never settle), C180_negation_once, C180_negation_contradictory. Exact real arithmetic; each round is a fresh discretization with the probabilities of the round before as volumes."
  },
  {
   "property": "C181",
   "status": "proved",
   "theorems": [
    "BET.C181_once",
    "BET.C181_negation_order",
    "BET.C181_joint"
   ],
   "note": "C181_once, C181_joint (the same as one inversion for both QoIs together with products of probabilities), C181_negation_order. The lasting agreement for QoIs that are not independent is C180."
  }
 ]
}