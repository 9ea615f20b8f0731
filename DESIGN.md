# Formal model of UT-CHG/BET in Lean 4

`/verif/lean` holds a Lean 4 model of BET (the Python package in `/repo/bet`)
and machine-checked proofs about it. The English properties are in
`properties.jsonl`; `MANIFEST.json` maps each to its theorems.

## Layout

- `Verif/Model/*` : the code, function by function. Every definition cites file and lines of `/repo`.
- `Verif/Spec/*`  : small independent vocabulary in which the properties are stated (mass of an event, nearest point, ...).
- `Verif/Lemmas/*`: helper lemmas.
- `Verif/Props/*` : the property theorems, each followed by a concrete instance of its hypotheses.

## Modelling decisions

- Numbers are elements of an arbitrary linearly ordered field `K` (so every theorem holds for the rationals and the reals), or the
  reals where roots occur. Floating point rounding is modelled for the functions of calculateP.py and the two volume
  estimates without radii (`Model/Rounded.lean`, C154: the arithmetic is a parameter, each operation has a bounded relative error,
  sums may be formed in any order). Elsewhere rounding, and everywhere overflow, underflow, inf and nan are not modelled, except where
  the code branches on them (then there is an explicit extended type or an error value). Where the code divides, the theorem has the guard that excludes a zero
  divisor, or a separate theorem states what the code does there.
- A numpy vector is a `List K`, a matrix a `List (List K)` (list of rows). In-place updates become new values, except in the
  normalisation model where aliasing is the point and there is an explicit heap.
- Python exceptions are values of `Except Err`.
- An MPI program run on `p` processes is modelled collectively: a local array is the list of the `p` chunks, a global array is one
  value (replicated on all processes), `allreduce(SUM)` adds over the chunks, `allgather + vstack/hstack` is concatenation in rank
  order. Whether a local array is `None` is assumed to be the same on all processes (collective calls).
- External functions are parameters with stated hypotheses: nearest neighbour search (any function returning an index of minimal
  distance), `argsort` (any permutation that sorts), random numbers (arbitrary values in the documented range), the user's model.

## Trusted base

- Lean's kernel, and the axioms `propext`, `Classical.choice`, `Quot.sound`. Which theorem uses which is listed under "Axioms of
  each theorem". No axiom is declared, no `sorry`, `native_decide` or `bv_decide` is used; concrete instances use `decide +kernel`.
- That the definitions in `Verif/Model` describe the cited Python code (reading, not testing: the code is not run here). Which
  function is modelled where is listed under "What is modelled"; what is left out is listed under "What is not modelled".
- The assumptions on external functions listed next. They are hypotheses of the theorems or parameters of the model, not axioms.

## Assumptions on external functions

- Nearest neighbours (`scipy.spatial.KDTree.query`): any function that returns an index of least distance; the distance is a
  parameter (`Geometry`), assumed symmetric, zero exactly on equal points or nothing, as the theorem says. A query with points of
  another number of coordinates raises `ValueError` (Caught).
- `numpy.argsort`: any permutation that sorts. `numpy.unique`, `searchsorted`, `histogram`, `linspace`, `meshgrid`, `tile`,
  `repeat`, `array_split`: as documented by numpy, written out in NumPy, Linspace, PlotP, Util.
- Random numbers: `numpy.random`, `scipy.stats` and pyDOE draws are arguments of the model. Where a theorem needs a range (a draw
  from the unit interval, one draw per latin hypercube slice) it is a hypothesis. In the properties about chance (Chance,
  Convergence) the draws are random variables on an arbitrary probability space; their laws (uniform rows of
  `numpy.random.random`) and independence are hypotheses, and the product measure meets them.
- `numpy.linalg` (Measures): singular values are an oracle whose squares are the eigenvalues of the Gram matrix; that such an
  oracle exists is proved. `solve` (Rbf, CalcError) returns a solution of the system, and raises for a singular matrix.
- `scipy.fftpack` (Smooth): the discrete Fourier transform and its inverse as sums of complex exponentials.
- `scipy.spatial.Voronoi` and `Delaunay` (Voronoi2D, PlotVoronoi): the diagram is a parameter; bounded cells are cut into triangles
  of the right total area, unbounded cells are flagged, ridges separate their two points.
- `scipy.stats.gaussian_kde`, `scipy.stats` distributions and Gaussian mixtures (Pdf, Fitted, Updated): densities that are
  nonnegative with integral one, and samplers that return the number of draws asked for.
- `scipy.integrate.quad` (CompareQuad): an arbitrary rule; the theorems about values assume that it is exact.
- Distances of `scipy.spatial.distance` and norms in CompareP: the documented formulas.
- `matplotlib` (PlotP, PlotMarginals, PlotDensities, PlotDomains, PlotVoronoi): only the arguments of the calls are modelled;
  `imshow` with `extent` and `origin='lower'` is specified in C98.
- Files (Storage, SaveRace): a map from names to contents; opening for writing truncates; blocks are written one after the other;
  pickle is a parameter with the law that loading what was dumped gives the object back.
- MPI (Spmd, SpmdChoose): every collective is assumed to wait for all processes, which is the worst case the MPI standard allows
  for broadcasts, gathers and scatters; sums of counters (`MPI.INT`) do not overflow; processes take turns in an arbitrary order. Everywhere else the processes go in step.
- Python: `copy.deepcopy` makes a new object for every object reachable (Copies); integer division, slicing and negative indices
  as in Python; `np.int`, `np.float` and `collections.Iterable` exist (numpy before 1.24, Python up to 3.9), as the code needs.
- The user's model (`lb_model`), surrogates and LUQ results: arbitrary functions, deterministic where a theorem says so.

## Plan, property by property

- **C01 prob conserves the mass of every reachable output cell.** Model.CalculateP.prob mirrors the loop over output cells with boolean masks on per-process chunks. Closed form of the loop by induction over the cells; mass of each contour event by summing the closed form.
- **C02 prob spreads a cell's mass in proportion to volume and never goes negative.** Same model; corollary of the closed form.
- **C03 prob does not depend on the number of processes.** Same model run on a list of chunks; theorem: flattening the result for any list of chunks = result for one chunk.
- **C04 prob_on_emulated_samples divides each output cell's mass equally over the emulated points that hit it.** Model.CalculateP.probOnEmulated with integer counts; same technique.
- **C05 prob_on_emulated_samples works whichever way the input-output pointer was set.** Object-level model of the pointers of a discretization. False of the code: negation with witness + guarded partial theorem.
- **C06 prob_from_sample_set transports mass: nothing lost, nothing created.** Model.CalculateP.pushforward loop; sum over cells of masked sums = total by induction.
- **C07 prob_from_sample_set onto the same points is the identity.** Pushforward with a nearest-point oracle and a definite distance.
- **C08 prob_from_sample_set_with_emulated_volumes yields a probability vector.** Two-stage loop with the warn flag; cases on warn.
- **C09 prob_from_discretization_input uses emulated points when present and conserves mass.** Object-level function with the error branches; corollary of C06.
- **C10 Splitting over processes is a balanced, ordered, complete partition.** numpy.array_split as offsets and lengths; induction.
- **C11 global_to_local followed by local_to_global restores every array.** Record of the fourteen arrays, maps over all of them.
- **C12 check_num accepts exactly the consistent sample sets.** The loop of check_num over the fourteen arrays; iff theorem.
- **C13 clip keeps the first samples of every array and leaves the original alone.** clip on the record; prefix lemmas.
- **C14 merge is the union of two sample sets with pairing intact.** merge on chunk lists, flattened; permutation theorem through row tuples.
- **C15 append_values adds the new rows after the old ones.** append on the record; check_num corollary.
- **C16 normalize_domain followed by undo_normalize_domain is the identity.** Heap model with buffers and references because of in-place operators. False in general because of aliasing; negation + partial under no-aliasing.
- **C17 query answers for the current values.** State machine with a cached tree. False; negation + partial for histories in which the tree is rebuilt.
- **C18 Volumes from Monte Carlo counts form a probability vector.** Counting loop on chunks.
- **C19 Monte Carlo work is split without losing or repeating points.** int(n/size)+int(rank<n%size) summed over ranks.
- **C20 estimate_volume_mc gives equal volumes adding to one.** Direct.
- **C21 exact_volume_1D returns the exact length of each nearest-point cell.** Model on sorted order with an arbitrary argsort; telescoping sum and a nearest-point characterisation of the interval.
- **C22 Rectangle query returns the first rectangle that contains the point.** Loop over rectangles with early assignment; induction. k>=3 false: negation; k<=2 partial.
- **C23 Rectangle volumes are relative volumes that sum to one.** Products of widths; remainder by definition; non-negativity by disjointness (planned in terms of a grid or measure).
- **C24 Cartesian cells tile the grid box.** Product of interval lists; existence and uniqueness by induction over dimensions.
- **C25 Ball query returns the first open ball containing the point.** As C22.
- **C26 Densities recover probabilities.** Algebra; local variant omits the domain volume: negation + partial.
- **C27 Equality of sample sets is an equivalence.** Field-wise comparison including the asymmetric cluster-map loop: negation + partial.
- **C28 estimate_local_volume returns positive volumes adding to one and terminates.** Loop with fuel driven by an arbitrary outcome oracle; termination bound and normalisation. Zero-count case false: negation.
- **C29 A discretization always pairs sample i with output i.** clip/merge on the pair.
- **C30 The input-output pointer sends each sample to the cell containing its output.** Pointers as chunk-wise map of the query; set_output_probability_set leaves the global pointer stale: negation + partial.
- **C31 choose_inputs_outputs selects exactly the requested coordinates.** Column selection on the record.
- **C32 discretization.global_to_local localises every sample set.** False (missing call parentheses): negation + partial.
- **C33 Every simple-function constructor yields a probability vector.** One model per constructor over the random samples as parameters.
- **C34 regular_partition gives equal cells exactly covering the rectangle.** linspace grid + cartesian set.
- **C35 Scaled and domain variants agree with the size variant.** Unfolding the wrappers.
- **C36 Interior cells of a contour event are among its covering cells.** Loop over cells and neighbours.
- **C37 Sampling error bounds bracket zero.** Inequalities on sums over subset/superset.
- **C38 1-D connectivity links exactly the adjacent cells.** False (argsort used as ranks): negation + partial for involutions; exact statement of what the code computes.
- **C39 Error queries do not change later answers.** defaultdict modelled as an association list that grows on reads: negation + partial.
- **C40 Model error vanishes when the model is exact.** Algebra on the sums.
- **C41 Rejection sampling keeps a sub-collection with uniform weights.** Filter with random vector as parameter.
- **C42 Cluster weights of an inversion are a probability vector.** Counting.
- **C43 Cluster-wise ratios land on the samples they were computed for.** Masked scatter.
- **C44 Weighted mean and covariance of invert_to_gmm.** Weighted sums; Jensen-type bounds.
- **C45 regular_sample_set places midpoints of a uniform grid.** linspace midpoints; composition with C21.
- **C46 The sampler pairs every input with the model's output for it.** Chunk-wise map; stale local values: negation + partial.
- **C47 Order 0 surrogates reproduce the model at the data and are piecewise constant.** Gather through pointer.
- **C48 Order 1 surrogates are exact for affine models.** False (sign of the displacement): negation + exact description + partial (points equal to samples or zero Jacobian).
- **C49 Updating the input discretization from a surrogate conserves probability and error.** As C06.
- **C50 Forward differences are exact for affine models.** Index arithmetic of repeat/tile/reshape on lists.
- **C51 Centred differences are exact for quadratic models and keep centre outputs.** As C50; centre outputs false: negation + partial for gradients.
- **C52 Normalised gradients have 1-norm one or zero.** Algebra of 1-norm.
- **C53 find_unique_vecs keeps a maximal independent set of QoIs.** Greedy loop over pairs in lexicographic order; invariant.
- **C54 chooseOptQoIs returns the best sets for every process count.** Insertion into a sorted bounded list; invariant 'k smallest so far'; merge over processes. Singular values scrambled for several processes: negation.
- **C55 find_good_sets enumerates each admissible set once.** Loop; ties dropped by numpy.unique: negation + partial.
- **C56 sort_by_rho returns all samples of positive probability in order of density.** Permutation and sortedness with an arbitrary argsort.
- **C57 sample_highest_prob / sample_lowest_prob return the largest admissible prefix.** cumsum prefix; sort=False raises: negation + partial.
- **C58 Statistical distances behave like distances.** Inequalities over lists of reals.
- **C59 compare.distance is a query.** State machine with cached densities: negation + partial.
- **C60 The automatic comparison domain contains both sets.** Loop that keeps only the last dimension's parameters: negation + partial (one dimension).
- **C61 Marginals conserve mass and are consistent.** numpy.histogram bin membership; finite sums.
- **C62 Dimension fixing is idempotent and lossless.** Shape-tagged arrays.
- **C63 meshgrid_ndim enumerates the product once in row-major order.** Row-major product.
- **C64 What is saved can be loaded.** File-system model: map from names to contents; name mangling: negation + partial.
- **C65 The serial communicator behaves like MPI on one process.** The fake communicator against the specification of the collectives for one process.
- **C66 Ball volumes are exact and sum to one.** Model over the reals with Mathlib's Gamma function; the formula equals the Lebesgue measure by Mathlib's volume of p-norm balls.
- **C67 A cell's probability is the share of the emulated points in it.** Counting over chunks; false for normal_partition_normal_distribution: negation + partial.
- **C68 Rectangle sizes may be numbers, lists or arrays.** Argument kinds as an inductive type; a Python list raises TypeError: negation + partial.
- **C69 Covering cells cover the contour event.** Model boundary_sets; exact membership; partial for events without isolated cells; negation by witness.
- **C70 Model error is bounded by probability.** Masks as lists per process; estimate rewritten as difference of two fractions.
- **C71 Sampling error bounds of a region bracket zero.** Counts as countP over emulated points, inclusion interior <= event <= cover; partial, fails with isolated cells.
- **C72 Charged cell errors add up to the model error.** Loop invariant: sum of ids equals running estimate.
- **C73 Reweighted copies match the requested shares.** Model of lines 375-384 (`reweighted`, `npRepeat`) with rounding a parameter; bound by summing the rounding errors.
- **C74 Data-consistent inversion succeeds whenever every cluster has data.** Totality of the model of lines 20-209 without cluster maps, by induction over the clusters; witnesses for a single cluster map, a one-sample cluster and an unused label.
- **C75 clean_data removes nan and infinities only.** Num (finite, nan, infinities) entries, the two assignments as two maps; case analysis.
- **C76 random_sample_set draws what was asked for.** Model.Sampling.randomSampleSet with scipy.stats as a parameter; columns of a stacked matrix; sum of the local numbers (C19).
- **C77 lhs_sample_set keeps the Latin property.** Model.Sampling.lhsSampleSet with the pyDOE array as a parameter; the affine map carries slices to slices.
- **C78 RBF gradients differentiate the interpolant.** Model/Rbf: real kernels, the weights as solution of the linear system (numpy solve, kd-tree query as parameters); derivatives in Mathlib's HasDerivAt; algebra of the adjoint system.
- **C79 chooseOptQoIs_large returns the singular values of the best sets.** Model `find_good_sets` with the tensor of every process; relate the rows kept by one process to the final rows. Fails on several processes and for equal values (negations).
- **C80 The Hellinger distance is the root of the squared Hellinger distance.** Compare the two branches of the model of distance; the inner call of the 'hell' branch does not pass normalize on, so the claim holds for normalize=False (partial) and the exact relation (a factor of the number of points under the root) is proved for normalize=True.
- **C81 The average measure is the volume of the inverse image under the linearised map.** Model: avgMeasure over ℝ with the singular values an oracle whose squares are the eigenvalues of the Gram matrix (Spec.IsSvd; such an oracle is shown to exist). Proof: product of singular values = sqrt of the Gram determinant; linear independence iff that is not zero; permuted rows have a similar Gram matrix; Haar measure of the preimage of a linear map; harmonic–arithmetic mean inequality. Negation: two centres with derivatives 1 and 2.
- **C82 Skewness is at least one and one exactly for orthogonal gradients.** Model: avgSkewness with numbers that may be nan or infinite. Proof: Schur complement of the Gram matrix gives the squared length of the perpendicular part; Pythagoras for bound and equality case; positive semidefinite argument for singular minors; induction over the centres for the harmonic mean.
- **C83 The condition number is at least one, and infinite only for dependent gradients.** Model: avgCondnum with the replacement of singular values by inf and 1 as written. Proof for two or more QoIs, and for one with nowhere zero gradient. Negations: one QoI with a zero gradient at some centres counts as condition number 1 there; where only some centres are singular the returned singular values are overwritten.
- **C84 Samples of the p-ball lie in the ball.** Model over the reals with the random draws as arguments (gamma and sign variates, radius fraction). Proof by computing the p-norm of the normalised vector. The law of the samples is not modelled; Lp_generalized_beta with p = inf (listed as allowed) is left out because numpy rejects a beta parameter 0.
- **C85 Clusters around centres have the size asked for and stay in the domain.** Model: drawLoop with fuel (attempts) and the draws of each attempt as a function; sampleLpBall builds the set by appending. Proof by induction over attempts and centres; termination as existence of sufficient fuel. Negations: num_close = 0 is an error (a variable is unbound); with a centre further outside the domain than the radius the call never returns.
- **C86 sample_from_updated draws the requested number of points from the updated measure.** Model: sampleFromUpdated with the draws as oracle, fix_dimensions_data as in the code. Proof by splitting the stacked columns into cluster blocks. Negations: a process that draws exactly dim points from kernel estimates stores them transposed; the cluster sizes need not add up to n (4 points for n = 3, none for n = 1 with two equal clusters); Gaussian mixtures with two or more clusters in one dimension raise an error.
- **C87 Radii of Voronoi cells are the largest distances of the random points in them.** Model: findRadii with the nearest neighbour search and the norm as oracles, np.max raising on an empty selection, reduction by maximum. Proof by induction over points and processes. Negations: fewer points on some process than cells is always an error, hence estimate_local_volume without radii fails for 500 or more samples on more than 20 processes.
- **C88 Random discretizations pair every random input with its output.** Composition of the models of random_sample_set and compute_qoi_and_create_discretization. Negation: leaving out num_samples always raises AttributeError.
- **C89 pdf and marginal_pdf evaluate one density and its marginals.** Model the two evaluators with the densities of scipy as parameters. Show that pdf is the map of one function over the rows, then use Fubini on finite products for mass and marginals; compare with the density of the cluster model for sampling.
- **C90 Smoothed marginals are probabilities, blurred by a centred kernel.** Model the padding, shifting and cropping of lists; Fourier transforms as the sums of complex exponentials they are documented to be. Prove the convolution theorem in one and two dimensions, then the formula for the weights by arithmetic modulo the padded length, then the claims.
- **C91 exact_volume_2D gives the relative areas of the Voronoi cells in the domain.** Model: Verif/Model/Voronoi2D.lean; the Voronoi diagram and the Delaunay triangulation are a parameter assumed to cut bounded cells into triangles of the right total area and to flag unbounded cells. Proof: the cells of the reflected configuration are the original cells cut by the rectangle (convexity, crossing of sides), bisectors are null sets, so the areas add up. The claim fails when samples near a side are further away than side_ratio times the width: negation proved, exactness proved under the guard.
- **C92 invert_to_kde gives a probability measure made of weighted kernel density estimates.** Model/Fitted.lean: invert_to_kde as kdeCluster/invertKde over a kernel density estimator given as a function; Props/Fitted.lean: totality, the entries, and the probability density through C89; negation for a cluster number that no predicted sample has.
- **C93 invert_to_random_variable fits the distributions asked for to copies of the samples in proportion to their weights.** Model/Fitted.lean: invert_to_random_variable over a library RvLib of shape names and fits; Props/Fitted.lean: argument forms, entries and evaluation for shape names a and b; negations for other shape names and for three or more shape parameters, both of which the property's last sentence excludes in the code.
- **C94 Distances of marginals by quadrature are the statistical distances of their densities over the interval.** Model/CompareQuad.lean: distance_marginal_quad over a quadrature rule given as a function; Props/CompareQuad.lean: with a rule that integrates exactly, the values and their properties as interval integrals; negations: 'norm' is a signed difference of masses, other names such as the documented 'mink' raise TypeError.
- **C95 A one-dimensional Voronoi plot shows for every sample its cell and its density.** Model/PlotVoronoi.lean: the arguments of the drawing calls; Props/PlotVoronoi1D.lean: the lines are over the cells; the heights are those of the smallest sample for all lines, so the claim about heights is negated and proved for equal probabilities only.
- **C96 A Voronoi plot in the plane colours every drawn point by a nearest sample.** Model/PlotVoronoi.lean: the loops over a diagram given as data; Props/PlotVoronoi2D.lean: far points are on the unbounded ridges, polygons are inside the cells by convexity; negations: parts of a large domain are not covered, labels raise UnboundLocalError.
- **C97 A plot of one-dimensional marginals passes through the histogram densities of the samples.** Model the figures by the arguments of the drawing calls (Model/PlotMarginals.lean) and compose with the model of calculate_1D_marginal_probs; prove the position of each abscissa in its bin and the heights from C61. Names of files are shown to be different through the decimal representation.
- **C98 Images and contours of two-dimensional marginals show the histogram densities of the samples.** Model the figures by the arguments of imshow, contour and plot_surface; specify what imshow and contour do with extent and origin='lower' (pixels, centres of pixels); prove the value shown in every point from C61 and the transposition.
- **C99 Plots of marginal densities show the densities of the sample sets.** Model plot_1d_marginal_densities step by step with the drawn curves as result, on top of the model of marginal_pdf. Invert the run to obtain the functions whose values are drawn, show that the fold over the sets gives the least and greatest sample, and combine with C89.
- **C100 Scatter plots show the chosen samples with their own colours.** Model the functions with the figure (points, colours, mark, labels, file) as result. Invert the runs with a relation between figure, matrix of values, columns, sample numbers and colours; totality separately.
- **C101 Scatter plots of densities cover all pairs or triples of coordinates.** Model scatter_rhoD on top of the scatter model with itertools.combinations. Membership of pairs and triples is membership as sublists; projections compose with the scatter relation; file names are injective in the numbers.
- **C102 Multiple scatter plots cover the requested pairs of coordinates.** Model as for C101; characterise the enumerated pairs by inequalities.
- **C103 Plots of the data domain show each pair of outputs and its reference values.** Model both functions as transformers of the plotting state (stack of open figures, list of saved files), with the triangulation as a parameter. Induction over the marks and over the pairs.
- **C104 Getters return what was last set, in every history of calls.** Model the object as a map from attribute names to values and every method as a function to exception and object left behind. A frame theorem for each call, then induction over the history.
- **C105 The interface to LUQ pairs inputs with what was learnt.** Model/UseLuq models the class with the results of LUQ as a parameter; the discretizations are built by the model of discretization.__init__ and check_nums. Direct inversion of make_disc; negations are general theorems composed with the model of generate_output_kdes.
- **C106 Histories of calls on a sampler.** Model/SamplerHistory: a heap of sample sets, calls as a state transition built from the models of the sampling functions. Frame and pairing are invariants proved by induction over histories.
- **C107 The reference value of the outputs.** Model/SamplerHistory.mapReference: the two attempts with their exception handlers; case analysis on what the model does.
- **C108 A whole inverse problem gives the answer the theory prescribes.** Model/Workflow.lean composes the models of the functions as the example scripts do; the discretization after the model run and the measure are computed in closed form, and the loop of `prob` is evaluated with equal volumes; the regular partition is shown not to depend on the number of processes.
- **C109 One cell in the data space makes all samples equally probable.** Corollary of C108: one cell, all samples in it, its probability is 1.
- **C110 sampling_error from a discretization to the bounds.** Model/SamplingError.lean puts the checks, pointers and volumes around the models of the loops; the run is computed in closed form and C36-C38 are applied, with the neighbour lists replaced by a neighbour relation.
- **C111 pdf of a Voronoi set answers for the current probabilities.** Model.Densities; the first call is inverted (pdf_first) to the tree points and local densities that it leaves, and an evaluation of a set with these is a function of them alone (pdf_of_cache); the negation is general, not a witness.
- **C112 Pointers of a discretization stay right through every history of calls.** Model.DiscHistory: a step function over all calls; an invariant relates the pointer to the points and the cells of the current sets, every call is classified by how it touches the sets, and induction over the history; two witnesses for calls that replace a set.
- **C113 Saving from several processes.** Model.SaveRace: writers open (truncate) and write blocks of bytes into a file system under a schedule; invariants by induction over the schedule; pickle is a parameter with a round-trip law; two witnesses for mixtures and crashes.
- **C114 The calls with collectives neither hang nor depend on the schedule.** Model.Spmd: every process is a program that returns, raises or takes part in a collective; a schedule gives turns. FitTogether says that the programs meet in the same collectives; C114_schedules is proved by an invariant over the schedule, and the programs of the functions are shown to fit together with the results of the collective models by induction over their loops. The general negation C114_negation_left and a witness show the hang.
- **C115 Copies are independent, references are not.** Model.Copies: a heap of sample sets and of discretizations that hold references; deepcopy with its memo; the invariant that only the protected discretizations refer to the protected sets is kept by every call (induction over the history).
- **C116 Rectangles and balls keep their cells whatever is appended.** Model/RegionSets.lean dispatches each call on the class of the set. Invariant over histories: kind, values, sides and radii are those of setup and the local parts join to the global ones; then the query theorems C22 and C25.
- **C117 Choosing QoIs on several processes.** Model/SpmdChoose.lean gives the program of one process with scatter, barrier, gather and bcast. The programs are shown to fit together (in the sense of C114) with the results of the models with all processes in step, by induction over the loops; the negation uses a general theorem about programs that come apart after common collectives (C114_negation_apart).
- **C118 A call on a discretization that raises leaves the user's data as they were.** The calls are modelled once more, statement by statement, in a state monad that keeps the state when an exception is raised (Model/Caught). C118_returns: a call that returns leaves the state the pure models (Model/DiscHistory, Model/CalculateP) give. C118_raises and C118_set_prob_raises: the state left by a call that raises is related to the old one by Spec.Left. C118_history by induction over the calls. Negations: C118_negation_set_prob and C118_negation_global_to_local (general), C118_negation_volumes and C118_negation_tree (witnesses).
- **C119 Counting, splitting, gathering, looking up, estimating volumes and solving on several processes.** Model: one process's view of a sample set and of a discretization, and the program of one process for every call, with each MPI collective as a step (Model/SpmdSet). Proof: the programs fit together collective by collective and come to the views of the in-step result (Props/SpmdSet); C114's theorem about programs that fit together gives every schedule. Negation with a set whose parts do not fit on one process.
- **C120 The constructors of simple functions on several processes.** Model: the program of one process for each constructor, the broadcast from the root and the reductions of counts as steps (Model/SpmdSimpleFun). Proof: the programs fit together and come to the views of the in-step result (Props/SpmdSimpleFun). Negations for all data sets: the root raises before the broadcast and the others never finish.
- **C121 A whole parallel script does not depend on the speed of the processes.** Model: scripts as lists of calls with the in-step step function and the program of one process (Model/SpmdHistory). Proof: induction over the script with the theorems of C119 and C120 for one call, then C114 for every schedule (Props/SpmdHistory).
- **C122 A model_error object answers any sequence of calls rightly.** Model: the class with its two discretizations, each method with its set-up and the object it leaves (Model/ModelErrorObject). Proof: an invariant of the object, established by the constructor and kept by every call, under which each call gives a closed form that does not mention the history or the number of processes; the closed forms are then shown to be the formulas of the specification (Props/ModelErrorObject).
- **C123 What is left when a call on a sampler raises.** Model: the calls of C106 as actions that have a state also when they raise, with the exceptions of the model as a parameter of each call (Model/SamplerCaught). Proof: each call that raises is inverted statement by statement; the program with caught exceptions by induction with the invariant of C106 (Props/SamplerCaught). The negations are concrete witnesses.
- **C124 Error estimates and marginals on processes with their own speed.** Model: each method as a program of one process whose collectives are explicit (Model/SpmdError), run by the scheduler of C114. Proof: the programs of all processes fit together step by step with the in-step model of C110, C122 and C61 (Props/SpmdError); then C114 gives every schedule. The negation uses that processes that come apart never meet again.
- **C125 A sampler on processes with their own speed.** Model: each call as a program of one process (Model/SpmdSampler), run by the scheduler of C114. Proof: induction over the program; each call fits together with the in-step model of C106 and C123. The negation uses that processes that come apart never meet again.
- **C126 Latin hypercubes that each process draws itself.** Model: the program of one process of C125 with its own draw. Proof: the rows that are kept are spliced into one array, with which the processes in step do the same (array_split only reads the own part); then C77 and C125. Witness with two processes for the negation.
- **C127 What a sampler records about the initial measure.** Model: Model/InitMeasure, the sampler of C123 with the record beside each set, statement by statement. Proof: forgetting the records is a simulation of C123; an invariant over programs with caught exceptions; C89 for the densities; induction over repeated calls.
- **C128 Radii and surrogates do not depend on the speed of the processes.** Model: Model/SpmdSurrogate, each method as a program with its collectives (as in C114). Proof: the processes' programs fit together (same collectives in the same order) and run to the views of the in-step result; with C87 and C49 for what the results are; for the waiting process, the programs come apart.
- **C129 Scripts of saves and loads do not depend on the speed of the processes.** Model: Model/SpmdFiles, processes with barriers and shared files, one system call per turn. Proof: a plan of phases (reading only, or writing between the two barriers, where C113 says that the order does not matter), an invariant with a decreasing measure over all schedules, composition of plans along the script; C64 for what the calls in step do.
- **C130 Monte Carlo volumes converge to the volumes of the cells.** Model: Model/Draws, the points of estimate_volume made from the rows each process draws. Proof: the volumes are relative frequencies (C02), the affine map carries the uniform law of the cube to that of the box, the strong law of large numbers for each process and the shares of the processes; Hoeffding's inequality; bisecting hyperplanes have measure zero.
- **C131 Computed solutions of the inverse problem converge to the exact one.** Model: the whole computation of C108 and prob_on_emulated_samples of C04 on random samples. Proof: the probabilities are equal shares of the probability of an event (C04, C108), so means are quotients of means over the draws; strong law of large numbers for each process and its share; events without measure are hit by no draw; cells of rectangles are clear (C130).
- **C132 Rejection sampling accepts every sample with its chance.** Model.DrawsR: the random numbers are streams, one for every cluster; Props.RejectionLaw: the accepted samples as a function of the numbers (each sample has its own number), independence by reindexing, Hoeffding's inequality from Mathlib; negation for two clusters by computing the means.
- **C133 Probabilities from estimated volumes converge.** Model.DrawsP: the two calls of the examples one after the other; Props.ProbLimit: the computed probabilities as a function of relative frequencies, the strong law for all cells at once, and that cells without measure are never hit (the quotient 0/0 does not occur in the limit).
- **C134 The sampling error bounds contain the sampling error.** Props.ErrorBracket: the method in closed form on the list of points; a fraction of points lies between the quotients that use only interior and covering cells; induction over the events. Contour events with measures of sets. Concrete counterexamples for (c).
- **C135 Drawn samples follow the measure.** Props.DrawnLaw: the values returned in closed form, the strong law for several streams, rounding of the cluster sizes vanishes in the limit; densities by C89; Hoeffding bound for draws with different laws.
- **C136 A script that draws its samples converges to the exact solution.** Props.ScriptLimit: the set that random_sample_set returns holds the drawn samples and their shares of the processes (randomSampleSet_holds), so C131 applies to it; product law of the coordinates (C135); the uniform case with volumes.
- **C137 Solutions converge when the rectangle of data is scaled to the sampled data.** Lemmas.RegularBoxes: the place of a box in the grid does not depend on the rectangle, so the faces are continuous functions of the sides. Lemmas.Moving: sets that differ from a set only in shrinking strips have the same limit of means. Props.ScaledLimit: the extents of the sampled data tend to the extents of their range; the limit follows; uniform samples and continuous models.
- **C138 Solutions converge as the cells of the input samples shrink.** Lemmas.Filling: the sum of the measures of the cells weighted by a function at their samples is the integral of the function at the sample of the cell, which tends to the integral by dominated convergence. Props.CellLimit: the outputs of the sample of the cell of x lie from some n on in the same output cell as that of x; nearest samples converge; random samples hit a countable base; the exact lengths are measures of cells.
- **C139 Solutions converge when input samples and random points grow together.** Lemmas.MovingFunction: means over M n draws of functions that converge almost everywhere under an integrable bound tend to the integral of the limit (strong law for suprema of the tails). Props.JointLimit: the label of the sample of the cell of x tends to the label of x.
- **C140 Surrogates converge to the model, and their region probabilities to the exact ones.** Props.SurrogateLimit: nearest samples tend to the point (C47, C48 give the values); surrogate_run (C49) gives the probabilities of the points as equal shares of the contour events, and joint_limit (C139) their limit.
- **C141 Finite difference gradients converge to the derivatives.** Props.GradientLimit: C50 and C51 give the entries as difference quotients; the limits are those of slopes, the errors follow by comparing derivatives (mean value inequality) twice for centred differences.
- **C142 Estimated cell radii converge to the true radii.** Model/DrawsRadii.lean makes the points of estimate_radii from random rows. Calls are reduced to the largest distance of the drawn points of a cell (radii_drawn); the strong law gives that an event of positive probability is hit (ae_hit), which gives success and the lower bound; the upper bound holds for almost every draw (draws_within). The finite bound is the product formula for independent misses (prob_miss). Convexity of Euclidean cells gives the supremum.
- **C143 Marginals of computed solutions converge.** Compose the models of sampling and running, of the data measures, of prob and of the histograms; the entry of a histogram is the mean of the indicator of a bin under the computed solution (C61), which converges by C131.
- **C144 Statistical distances at random comparison points converge.** Points are pairwise independent within each process with law mu; densities are evaluated row by row. The distances are rewritten as means over the points and the strong law of large numbers is applied to |p-q|, (p-q)^2, sqrt(pq), p and q; normalised versions by continuity of the normalising factors. C144_array, C144_set and C144_number show that the three ways to call set_compare_set give such points; C144_uniform is the default call.
- **C145 Distances of marginals at equally spaced points converge.** Lemmas/Riemann.lean proves that means over the endpoints-included grid tend to the integral for bounded functions continuous almost everywhere, by dominated convergence of the step functions. The distances are rewritten as such means; normalised versions by continuity of the normalising sums; C145_quad compares with C94.
- **C146 Kullback-Leibler distances of densities.** Model/CompareKl.lean models scipy.stats.entropy as division by the sums followed by the sum of rel_entr. The bounds come from x log(x/y) - x + y >= (sqrt x - sqrt y)^2; the limits from the strong law and Riemann sums, after writing the relative entropy through three means.
- **C147 Minkowski distances of densities.** Model/CompareKl.lean models scipy's minkowski with a power function; over the reals with Real.rpow. The triangle inequality is Minkowski's inequality of Mathlib, monotonicity in the order an induction, the limits the strong law and Riemann sums.
- **C148 The samples of Lp_generalized_uniform, Lp_generalized_normal and Lp_generalized_beta have the laws these functions are named after.** Model: one sample as a function of the numbers drawn (Model/Clusters.lean). Specification: measures on R^d (uniform = conditional Lebesgue measure, or a density up to normalisation), independence from Mathlib. Proof: the coordinates of a sample before it is divided by its norm have a joint density depending on the norm only (change of variables); polar integration by Fubini and dilation; an affine image for scale and location; the strong law for frequencies.
- **C149 The volumes of estimate_local_volume converge, to those of cells in relative coordinates and only if the balls cover the cells.** Model: Model/LocalDrawn.lean computes the counts that Model/LocalVolume.lean takes as parameters from the numbers drawn. Specification: Lebesgue measure of cells, independent of the code. Proof: laws of p-ball samples (C148), Hoeffding's inequality and Borel-Cantelli for rounds of 10^n points, the loop stops at later and later rounds (C28), limits of quotients; for cubes a change of variables.
- **C150 estimate_local_volume for samples without a positive radius.** Model: Model/PairwiseRadii.lean; the pairwise distances are a parameter because pdist gets the keyword p without a metric and what it makes of that depends on the version of SciPy. Proof: sums over lists for the value of the radius; a standard deviation is zero only for equal numbers; C28's equations; C149.
- **C151 With many emulated points the probabilities of a simple function are those of its cells; normal_partition_normal_distribution is different.** The probabilities are shares of random points in the cells of the nearest sample; the strong law (for each process) and Hoeffding's inequality give the limits and the bound; distinct samples have ties of probability zero. For the normal partition the weights are sums of 1/density: for a finite cell their mean tends to its volume, for an infinite cell (there is one, because finitely many cells cover the space) it tends to infinity, by truncation; the normalised products therefore vanish in the limit.
- **C152 Errors in the data and in the volumes are not amplified.** Props/Stability.lean and Props/DataError.lean: the closed forms of C03, C04, C06 and C08 written as (probability of the cell) times (share in the cell); sums over cells; triangle inequality; C151_uniform_bound for the random data; a parametric witness for the renormalization.
- **C153 The order of samples, cells and points does not matter.** Props/Reorder.lean: the closed forms of C03, C06 and C18; sums over permuted lists; without ties the nearest point (not its index) is determined, so indices correspond.
- **C154 Rounding errors of the probabilities stay small.** Model/Rounded.lean: the functions again with the arithmetic as a parameter (with exact operations they are the functions of Model/CalculateP.lean, C154_exact); Spec/Rounding.lean: relative error as mutual bounds by (1-u)^k; induction over the tree of a sum; then over the loop. Concrete double arithmetic on the rationals as instance and for the negations.
- **C155 How many samples are enough.** Hoeffding's inequality of Mathlib for the counts of the cells and for counts weighted with the observable; a deterministic lemma on ratios close to ratios; the union bound over the events; the run of the model as in C131 and C133.
- **C156 A sampling_error object answers any sequence of calls rightly.** Model the object with its dictionaries and discretization through a history (Model/SamplingHistory.lean). Invariant by induction over the calls: the dictionaries agree with the ones of the constructor except for empty entries of reached events, the discretization still has the samples, points, pointers and probabilities. The answers are compared with formulas over the cells (countIn, volumeOf) that do not mention the object. Independence and equality over process counts follow; the negation is a run of three calls.
- **C157 The units of the inputs and of the data do not matter.** Spec: Converted relates a set and the set in other units, kind by kind. Every point falls in the same cell after the conversion (Converted.cell); the results of the calls depend on the cells of the points only. For the exact volumes, scaling of lengths and products cancels. The 1-norm and the Euclidean distance are shown to follow the units. Negation by a kernel computation on two samples in the plane.
- **C158 The two ways of using emulated points agree.** The states after the two first calls are computed (solvedAtPoints, solvedAtSamples). The share of a point in the second way is the probability of its sample divided by the number of points in its cell; the volumes by counting cancel, so this is the probability of its data cell divided by the number of points there, as in the first way (share_agree). No probability is lost, so the second way does not rescale. Negation by a kernel computation.
- **C159 Local volumes in the maximum norm.** The law of the points is C148_inf (uniform in the cube); strong law over the rounds (batch_frequency); the loop returns the last round (loop_limit); the volumes of the cubes are exact, so nothing has to cancel. Cells are clear because ties lie in finitely many hyperplanes. Negation: the ties of two samples of the same height contain a box.
- **C160 Subdividing samples and cells of the data space.** From the formula of C03: the masses of the cells are sums over blocks, the formula is linear in the volume; for cells regroup the masses along the map from parts to cells. The equivalence by cancelling the volume of a reached sample.
- **C161 Data-consistent inversion converges to the data-consistent distribution.** Strong law for the weighted sums over the first n inputs, cluster by cluster; the code's weighted mean and covariance are rewritten as moments with the stored weights; change of variables for withDensity gives consistency with the data; Props/UpdateLimit.lean.
- **C162 How many copies invert_to_random_variable needs.** Bound from the rounding error of every count; limits by combining it with the strong law for the total weights from C161; Props/CopyCount.lean.
- **C163 The law of the clusters of sample_lp_ball.** Verif/Props/ClusterLaw.lean with Verif/Lemmas/FirstHits.lean. Random numbers are independent random variables indexed by centre, attempt and sample; the model of the loop (Model/Clusters) is run on them. By induction on the number of samples of an attempt (product measures) the first hits are independent of the number of hits; summing over the attempts and grouping the numbers by centre gives the joint law. The chance of too few hits is bounded through blocks.
- **C164 The units of the QoIs and the choice of QoIs.** `Spec.Rescaled` says what a Jacobian in other units is. The Gram matrix is multiplied by the factors from both sides (`Rescaled.gram_apply`), so its determinant and that of every minor are multiplied by squares (`Rescaled.det`, `Rescaled.erase`), which cancel in the skewness; for a common factor the singular values are multiplied (`svd_scaled`, by the characteristic polynomial). `C164_negation_units` gives three gradients for which measure and condition number change their preference.
- **C165 Latin hypercubes represent every single input.** `C77_latin` gives the Latin property of the samples in the box; it yields a bijection from slices to samples (`latin_slices`). On every slice the value at the sample and the integral differ by at most the change of the function there times the width, and the changes add up (`slices_mean`). The shares are the case of step functions.
- **C166 Marginals of a Latin hypercube are uniform up to two samples.** On top of C61 (entry of the marginal = probability of the samples in the cell) and C165 (share of the samples of a Latin hypercube in an interval): cells are intervals, half-open except for the last.
- **C167 Solving keeps, and moving does not increase, the divergence of two probabilities.** Divergences of lists in Props/Divergence.lean; the solutions are probabilities of cells times shares that add up to 1 in reached cells (C152), so homogeneous terms factor; transports add up, so subadditive terms decrease by induction. Log-sum, Cauchy and Titu inequalities give the four instances.
- **C168 Marginals of regular grids are those of the uniform distribution.** Sums over a product of lists factor (induction over the directions); whether a centre lies in a bin is an inequality between natural numbers, whose solutions are an interval with a number of elements known up to one half at each end.
- **C169 Means over regular grids.** The midpoint rule on each cell (integrals of Mathlib) and factorization of sums over products of lists.
- **C170 The solution is the consistent one nearest to the volumes.** The data processing inequality of C167 within each cell shows that no explanation is nearer than the value attained by the solution; for chi-squared and Kullback-Leibler a Pythagorean identity follows because the ratio of solution to volume is constant on each cell, so its weighted sum is the same for every explanation. Uniqueness from the equality case.
- **C171 What errors of the model values do to the solution.** The solution is a sum over the cells of normalized restrictions of the volumes; the difference of two normalized restrictions is at most twice the symmetric difference over the volume. Triangle inequality: the cells of y and of y' are both nearest to y up to 2 eps. Negation on a family of concrete problems, for all eps.
- **C172 What an inversion recovers.** Solutions are multiples of the volumes in each cell; for such probabilities the formula of C02 cancels. The distance is C152 applied to the data and to the pushed volumes. For the script the closed form of C108 with the cells of the search written out.
- **C173 What the smoothing parameter of smooth_marginals_1D does.** The weights of C90 in closed form: the grid of the kernel is symmetric, the shift by half the padded length puts its middle one bin or half a bin off. Wrapped weights are at points beyond twice the margin, which is at least 3 sigma. Limits of finite sums and quotients; for an even number of bins both are multiplied by the same exponential.
- **C174 The samples of highest density are the smallest region of their probability.** The returned list is the beginning of the list sorted by density (C57). With the smallest returned density as threshold, probability minus threshold times volume is not negative on the returned samples and not positive on all others, so no set of samples has a larger sum of it. Both comparisons follow because the threshold is positive.
- **C175 Regions of different percentiles are nested, and complementary ones share no sample.** All calls cut the same sorted list (sampleProb_prefix), one from the front and the other from the back. Sums over beginnings of the list increase strictly, so the two cuts are compared by comparing sums.
- **C176 More QoIs are never less skewed, so chooseOptQoIs_large misses no set.** With more gradients the perpendicular part of each is shorter (Pythagoras), so every single skewness is larger, so is the largest at each centre and so is the harmonic mean over the centres. For the measure the determinant of the Gram matrix is multiplied by the squared length of a perpendicular part, at most one. The good sets of C55 are those all of whose beginnings are good; by monotonicity these are all sets that are good themselves.
- **C177 More QoIs are never better conditioned.** A singular value of the fewer gradients has an eigenvector of their Gram matrix. Continued by zeros it has the same quadratic form with the larger Gram matrix, and the form lies between the squares of the least and the largest singular value, because the difference of the matrix and a multiple of the identity is semidefinite. So the quotient of least and largest gets smaller at each centre and the harmonic mean over the centres larger.
- **C178 What the smoothing parameters of smooth_marginals_2D do.** The weights of a pair of bins are the products of those of C173 for each direction (C90), whose limits are known, scaled by a factor that cancels. Products and finite sums of limits give the rest; the negations follow from those of C173 and the product formula of C90.
- **C179 How much an inversion learns.** The first part from the formula of the solution: the volumes are themselves the solution for the probabilities they predict, and the divergence of two solutions is that of their data (C167). For the second part the finer solution explains the coarser data, of which the coarser solution is the nearest explanation to the volumes (C170).
- **C180 Inverting for one QoI after the other.** One call is a projection in the Kullback-Leibler divergence (C170), so the divergences of consecutive probabilities are summable. They bound the differences (a term is at least the squared difference of the roots), so by compactness a subsequence and all its shifts converge to one limit, which explains every problem because each comes up within a bounded number of rounds. The divergence of that limit decreases to zero.
- **C181 When one inversion for each QoI is enough.** The weight that the first solution gives to a cell of the second problem is summed cell by cell of the first; by independence every term is the probability of the cell times the old volume. Both orders multiply a volume by the same two factors.

## Axioms of each theorem

From `#print axioms` for every theorem of `MANIFEST.json` (generated).

- no axioms (2): `C11_local_to_global`, `C32_local_to_global`.
- `propext` only (11): `Ex.C27_negation_missing_set`, `C62_vector`, `C65_serial_is_mpi`, `Ex.C65_needs_copy`, `Ex.C65_scatter_length`, `C104_frame`, `C104_unchanged`, `C104_negation_domain`, `C104_append_plain`, `C104_negation_box`, `Ex.C115_negation_alias`.
- `propext, Quot.sound` only (119): `C05_negation_local_pointer_only`, `C05_negation_after_prob`, `C06_dim_mismatch`, `C08_without_emulated`, `C09_missing_probabilities`, `C10_same_partition`, `C11_local_only`, `C12_check_num_iff`, `C12_check_num_error`, `C12_check_num_local`, `C13_clip_prefix`, `C13_clip_all`, `C13_clip_clip`, `C14_merge_mismatch`, `C15_append`, `C15_append_rejects`, `C15_append_check`, `C17_rebuilt_partial`, `C17_first_query_partial`, `C17_same_number_partial`, `C19_balanced`, `C20_empty`, `Ex.C27_negation_broadcast`, `Ex.C27_negation_nan`, `Ex.C27_negation_none`, `Ex.C27_negation_maps`, `C28_terminates`, `C29_construction`, `C29_clip`, `C31_selects`, `C31_total`, `C31_all_partial`, `C31_all_jacobians`, `C32_succeeds`, `C35_scaled`, `C35_scaled_each`, `C36_defined`, `C38_delaunay`, `C39_region`, `C39_region_method`, `C39_contour_partial`, `C39_contour_contour`, `C47_init`, `Ex.C54_negation_singular_values`, `Ex.C55_negation_ties`, `C57_negation_unsorted`, `C58_symm`, `C59_current_partial`, `C59_negation_stale`, `C60_negation_lengths`, `Ex.C62_negation_list_domain`, `Ex.C62_negation_data`, `Ex.C69_negation_isolated`, `Ex.C79_negation_processes`, `Ex.C79_negation_ties`, `C80_hell_partial`, `C85_negation_none`, `C86_refused`, `C87_determined`, `C88_negation_default`, `C89_dimension`, `C89_refused`, `C89_negation_voronoi`, `C91_dimension`, `C93_argument`, `C93_negation_many`, `C95_refused`, `C96_negation_labels`, `C96_refused`, `C97_refused`, `C98_refused`, `C99_succeeds`, `C99_discretizations`, `C99_refused`, `C99_negation_legends`, `C100_negation_3D`, `C104_last_set`, `C104_reference`, `C104_domain`, `C104_densities`, `C105_make_disc`, `C105_succeeds`, `C105_order`, `C105_series`, `C105_negation_observed`, `C105_negation_clusters`, `C105_negation_parallel`, `C106_uses`, `C106_negation_reuse`, `C107_mapped`, `C107_sound`, `C107_second`, `C107_negation_documented`, `C107_negation_tuple`, `C111_repeat`, `C111_negation_stale`, `C111_refresh`, `C114_negation_left`, `C115_shared`, `C115_set_get`, `C116_lost`, `C116_voronoi_grows`, `C118_returns`, `C118_raises`, `C118_set_prob_raises`, `C118_history`, `C118_negation_global_to_local`, `C122_refused`, `C123_returns`, `C123_frame`, `C123_nothing`, `C123_model_raises`, `C123_retry`, `C123_lhs`, `C127_refused`, `C127_updated`, `C127_again`, `C127_negation_again`, `C154_exact`.
- `propext, Classical.choice, Quot.sound`: the other 799 theorems.

## What is modelled

For every function of `/repo/bet` the definitions of `Verif/Model` whose comments cite its lines (generated from the
comments).

### bet/Comm.py

- `comm_for_no_mpi4py.__init__` (18-26): Comm `runSerial`
- `comm_for_no_mpi4py.Get_size` (28-35): Comm `runSerial`
- `comm_for_no_mpi4py.Get_rank` (37-44): Comm `runSerial`
- `comm_for_no_mpi4py.allgather` (46-54): Comm `runSerial`
- `comm_for_no_mpi4py.gather` (56-65): Comm `runSerial`
- `comm_for_no_mpi4py.allreduce` (67-75): Comm `runSerial`
- `comm_for_no_mpi4py.bcast` (77-86): Comm `runSerial`
- `comm_for_no_mpi4py.scatter` (88-99): Comm `serialScatter`
- `comm_for_no_mpi4py.Allgather` (101-109): Comm `runSerial`
- `comm_for_no_mpi4py.Allreduce` (111-121): Comm `runSerial`
- `comm_for_no_mpi4py.Bcast` (123-132): Comm `runSerial`
- `comm_for_no_mpi4py.Scatter` (134-144): Comm `runSerial`
- `comm_for_no_mpi4py.Barrier` (146-150): Comm `runSerial`
- `comm_for_no_mpi4py.barrier` (152-156): Comm `runSerial`

### bet/sample.py

- `evaluate_pdf` (65-102): Densities `pdfVoronoi`; Fitted `pdfKde`; InitMeasure `InitMeasure.fitted`; Pdf `productLoop`, `evaluatePdf`
- `evaluate_pdf_marginal` (105-158): Fitted `rvMarginalPdf`; InitMeasure `InitMeasure.fitted`; Pdf `marginalArg`, `marginalDensity`, `voronoiArg`, `evaluatePdfMarginal`
- `sample_set_base.__init__` (183-292): Accessors `init`; InitMeasure `InitMeasure`; SampleSet `ProbType`, `SampleSet`
- `sample_set_base.__eq__` (294-330): Equality `mapsEq`, `eqField`, `eq`
- `sample_set_base.normalize_domain` (343-373): Normalize `NField`, `rescaleList`, `shiftList`, `normScaleStep`, `normShiftStep`, `normalize`
- `sample_set_base.undo_normalize_domain` (375-414): Normalize `rescaleList`, `shiftList`, `undoScaleStep`, `undoShiftStep`, `undoNormalize`
- `sample_set_base.set_p_norm` (416-423): Accessors `PlainAttr.assigned`
- `sample_set_base.get_p_norm` (425-429): Accessors `Getter.returned`
- `sample_set_base.set_cluster_maps` (431-438): Accessors `PlainAttr.assigned`
- `sample_set_base.get_cluster_maps` (440-444): Accessors `Getter.returned`
- `sample_set_base.set_label` (446-452): Accessors `PlainAttr.assigned`
- `sample_set_base.get_label` (454-458): Accessors `Getter.returned`
- `sample_set_base.set_labels` (460-467): Accessors `PlainAttr.assigned`
- `sample_set_base.get_labels` (469-473): Accessors `Getter.returned`
- `sample_set_base.set_weights` (475-481): Accessors `PlainAttr.assigned`
- `sample_set_base.get_weights` (483-487): Accessors `Getter.returned`
- `sample_set_base.set_weights_init` (489-495): Accessors `PlainAttr.assigned`
- `sample_set_base.get_weights_init` (497-501): Accessors `Getter.returned`
- `sample_set_base.set_prob_type_init` (503-509): Accessors `PlainAttr.assigned`
- `sample_set_base.get_prob_type_init` (511-515): Accessors `Getter.returned`
- `sample_set_base.set_prob_parameters_init` (517-522): Accessors `PlainAttr.assigned`
- `sample_set_base.get_prob_parameters_init` (524-528): Accessors `Getter.returned`
- `sample_set_base.set_prob_type` (530-536): Accessors `PlainAttr.assigned`; Updated `Updated`
- `sample_set_base.get_prob_type` (538-542): Accessors `Getter.returned`; Updated `Updated`
- `sample_set_base.set_prob_parameters` (544-549): Accessors `PlainAttr.assigned`; Updated `Updated`
- `sample_set_base.get_prob_parameters` (551-555): Accessors `Getter.returned`; Updated `Updated`
- `sample_set_base.set_reference_value` (557-567): Accessors `setReference`; SamplerHistory `setReference`
- `sample_set_base.get_reference_value` (569-573): Accessors `Getter.returned`
- `sample_set_base.set_region` (575-582): Accessors `PlainAttr.assigned`
- `sample_set_base.get_region` (584-588): Accessors `Getter.returned`
- `sample_set_base.set_region_local` (590-597): Accessors `PlainAttr.assigned`
- `sample_set_base.get_region_local` (599-603): Accessors `Getter.returned`
- `sample_set_base.set_error_id` (605-612): Accessors `PlainAttr.assigned`
- `sample_set_base.get_error_id` (614-618): Accessors `Getter.returned`
- `sample_set_base.set_error_id_local` (620-627): Accessors `PlainAttr.assigned`
- `sample_set_base.get_error_id_local` (629-633): Accessors `Getter.returned`
- `sample_set_base.update_bounds` (635-646): Accessors `updateBounds`; LocalVolume `setBounds`; RegionSets `RegionOp`, `boundsCount`, `domainBounds`; Sampling `SampleSet.updateBounds`
- `sample_set_base.update_bounds_local` (648-662): Accessors `updateBoundsLocal`; RegionSets `RegionOp`, `boundsCounts`, `domainBoundsLocal`
- `sample_set_base.append_values` (664-676): Accessors `appendFixed`; History `SetOp`; RegionSets `RegionOp`; SampleSet `appendValues`
- `sample_set_base.append_values_local` (678-690): Accessors `appendFixed`; RegionSets `RegionOp`, `growValuesLocal`
- `sample_set_base.clip` (692-715): SampleSet `clip`
- `sample_set_base.check_num` (717-749): SampleSet `checkNumLoop`, `colsOk`, `checkNumLocals`, `checkNum`; SpmdSet `procCheckNum`
- `sample_set_base.check_num_local` (751-779): SampleSet `colsOk`, `checkNumLocal`
- `sample_set_base.set_bounding_box` (792-798): Accessors `setBoundingBox`
- `sample_set_base.get_bounding_box` (800-806): Accessors `ensureBox`, `getBoundingBox`
- `sample_set_base.set_values` (808-818): Accessors `setValues`; History `SetOp`; SampleSet `setValues`
- `sample_set_base.get_values` (820-828): Accessors `Getter.returned`
- `sample_set_base.set_domain` (830-841): Accessors `setDomain`; Gradients `withDomain`
- `sample_set_base.get_domain` (843-851): Accessors `Getter.returned`
- `sample_set_base.set_volumes` (853-861): Accessors `PlainAttr.assigned`; History `SetOp`; RegionSets `RegionOp`
- `sample_set_base.get_volumes` (863-871): Accessors `Getter.returned`
- `sample_set_base.set_probabilities` (873-881): Accessors `PlainAttr.assigned`; History `SetOp`; RegionSets `RegionOp`
- `sample_set_base.get_probabilities` (883-891): Accessors `Getter.returned`
- `sample_set_base.set_densities` (893-911): Accessors `AttrCall.exec`; Densities `totalVol`, `setDensities`
- `sample_set_base.get_densities` (913-921): Accessors `Getter.returned`
- `sample_set_base.pdf` (923-947): Densities `setDensitiesLocal`, `ensureVolumesLocal`, `ensureDensitiesLocal`, `pdfVoronoi`; Fitted `pdfKde`; Pdf `Vals.toMat`, `pdfOf`
- `sample_set_base.pdf_init` (949-964): InitMeasure `TrackedSet.pdfInit`; Pdf `Vals.toMat`, `pdfOf`
- `sample_set_base.marginal_pdf` (966-985): Pdf `marginalPdf`
- `sample_set_base.marginal_pdf_init` (987-1002): InitMeasure `TrackedSet.marginalInit`; Pdf `marginalPdfInit`
- `sample_set_base.set_jacobians` (1004-1012): Accessors `PlainAttr.assigned`; RegionSets `RegionOp`
- `sample_set_base.get_jacobians` (1014-1022): Accessors `Getter.returned`
- `sample_set_base.append_jacobians` (1024-1039): Accessors `AttrCall.exec`; RegionSets `RegionOp`, `growJacobians`
- `sample_set_base.set_error_estimates` (1041-1049): Accessors `PlainAttr.assigned`; RegionSets `RegionOp`
- `sample_set_base.get_error_estimates` (1051-1059): Accessors `Getter.returned`
- `sample_set_base.append_error_estimates` (1061-1075): Accessors `AttrCall.exec`; RegionSets `RegionOp`, `growErrorEstimates`
- `sample_set_base.set_values_local` (1077-1088): Accessors `setValuesLocal`; Sampling `SampleSet.setValuesLocal`; Updated `fixRows`
- `sample_set_base.set_kdtree` (1090-1095): Caught `setKdtreeA`; History `SetOp`; SampleSet `setKdtree`
- `sample_set_base.get_values_local` (1107-1115): Accessors `Getter.returned`
- `sample_set_base.set_volumes_local` (1117-1125): Accessors `PlainAttr.assigned`
- `sample_set_base.get_volumes_local` (1127-1135): Accessors `Getter.returned`
- `sample_set_base.set_probabilities_local` (1137-1145): Accessors `PlainAttr.assigned`
- `sample_set_base.get_probabilities_local` (1147-1156): Accessors `Getter.returned`
- `sample_set_base.set_densities_local` (1158-1173): Accessors `AttrCall.exec`; Densities `setDensitiesLocal`
- `sample_set_base.get_densities_local` (1175-1184): Accessors `Getter.returned`
- `sample_set_base.set_jacobians_local` (1186-1195): Accessors `PlainAttr.assigned`
- `sample_set_base.get_jacobians_local` (1197-1205): Accessors `Getter.returned`
- `sample_set_base.set_error_estimates_local` (1207-1215): Accessors `PlainAttr.assigned`
- `sample_set_base.get_error_estimates_local` (1217-1225): Accessors `Getter.returned`
- `sample_set_base.local_to_global` (1227-1235): History `SetOp`; RegionSets `RegionOp`; SampleSet `gatherArr`, `localToGlobal`; SpmdSet `gatherField`, `procLocalToGlobal`
- `sample_set_base.estimate_volume` (1253-1276): Draws `boxPoint`, `mcPoints`, `SampleSet.estimateVolumeDrawn`; DrawsP `Disc.solveDrawn`; Query `estimateVolume`, `numLocal`; Spmd `procVolumes`; SpmdSet `procEstimateVolume`
- `sample_set_base.estimate_volume_emulated` (1278-1310): Caught `estimateA`; Query `estimateVolumeEmulated`; Rounded `SampleSet.estimateVolumeEmulatedR`; SampleSet `localized`; Spmd `procVolumesEm`; SpmdSet `procEstimateVolumeEmulated`
- `sample_set_base.estimate_volume_mc` (1312-1323): History `SetOp`; Rounded `SampleSet.estimateVolumeMcR`; SampleSet `estimateVolumeMc`; SpmdError `SampleSet.procEstimateVolumeMc`; SpmdSurrogate `procEstimateVolumeMcLocal`
- `sample_set_base.global_to_local` (1325-1337): Caught `globalToLocalA`; History `SetOp`; Normalize `globalToLocal`; RegionSets `RegionOp`; SampleSet `splitArr`, `globalToLocal`; SpmdSet `splitOne`, `procGlobalToLocal`
- `sample_set_base.copy` (1339-1362): Copies `step`
- `sample_set_base.shape` (1364-1373): Accessors `shapeOf`
- `sample_set_base.shape_local` (1375-1384): Accessors `shapeOf`
- `voronoi_sample_set.query` (1395-1412): Caught `ensureTreeA`, `treeQuery`, `queryA`; History `SetOp`; Query `ensureTree`, `query`; SpmdSet `procEnsureTree`, `procQuery`
- `voronoi_sample_set.exact_volume_1D` (1414-1444): Voronoi1D `scatter`, `cellLengths`, `exactVolume1D`
- `voronoi_sample_set.exact_volume_2D` (1446-1526): Voronoi2D `reflected`, `withReflections`, `triangleTerm`, `cellArea`, `strided`, `exactVolume2D`
- `voronoi_sample_set.estimate_radii` (1528-1590): DrawsRadii `SampleSet.estimateRadiiDrawn`; Radii `unitCoords`, `radiiLocal`, `SampleSet.storeRadii`, `findRadii`, `estimateRadii`; SpmdSurrogate `procLocalRadii`, `procEstimateRadii`
- `voronoi_sample_set.estimate_radii_and_volume` (1592-1657): DrawsRadii `SampleSet.estimateRadiiAndVolumeDrawn`; Radii `estimateRadiiAndVolume`; SpmdSurrogate `procLocalRadii`, `procEstimateRadiiAndVolume`
- `voronoi_sample_set.estimate_local_volume` (1659-1787): LocalDrawn `localBallVolume`, `foundIn`, `cellCount`, `localRadii`, `localRadius`, `unitSamples` …; LocalMax `cubeVolume`, `cubeCount`, `SampleSet.estimateLocalVolumeMax`; LocalVolume `emulateLoop`, `localVolume`, `ensureRadii`, `estimateLocalVolume`; PairwiseRadii `pairwiseRadius`, `SampleSet.estimateLocalVolumePaired`
- `voronoi_sample_set.merge` (1789-1826): SampleSet `localized`, `merge`
- `rectangle_sample_set.setup` (1847-1883): Rectangle `setupRect`
- `rectangle_sample_set.update_bounds` (1885-1891): RegionSets `unlessRegions`
- `rectangle_sample_set.update_bounds_local` (1893-1899): RegionSets `unlessRegions`
- `rectangle_sample_set.append_values` (1901-1913): RegionSets `unlessRegions`
- `rectangle_sample_set.append_values_local` (1915-1927): RegionSets `unlessRegions`
- `rectangle_sample_set.append_jacobians` (1929-1944): RegionSets `unlessRegions`
- `rectangle_sample_set.append_error_estimates` (1946-1960): RegionSets `unlessRegions`
- `rectangle_sample_set.query` (1962-2001): Caught `queryA`; Query `regionStep`, `regionQueryRow`, `inRect`, `regionQuery`; SpmdSet `regionRow`, `procQuery`
- `rectangle_sample_set.exact_volume_lebesgue` (2003-2013): Rectangle `relVolume`, `exactVolumeLebesgue`; RegionSets `RegionOp`; SpmdSimpleFun `SampleSet.procExactVolume`
- `ball_sample_set.setup` (2029-2056): Rectangle `setupBall`
- `ball_sample_set.append_values` (2058-2070): RegionSets `unlessRegions`
- `ball_sample_set.append_values_local` (2072-2084): RegionSets `unlessRegions`
- `ball_sample_set.append_jacobians` (2086-2101): RegionSets `unlessRegions`
- `ball_sample_set.append_error_estimates` (2103-2117): RegionSets `unlessRegions`
- `ball_sample_set.update_bounds` (2119-2125): RegionSets `unlessRegions`
- `ball_sample_set.update_bounds_local` (2127-2133): RegionSets `unlessRegions`
- `ball_sample_set.query` (2135-2172): Caught `queryA`; Query `regionStep`, `regionQueryRow`, `regionQuery`; SpmdSet `regionRow`, `procQuery`
- `ball_sample_set.exact_volume` (2174-2187): BallVolume `ballVolume`, `exactVolumeBall`
- `cartesian_sample_set.setup` (2200-2232): Rectangle `gridRows`, `setupCartesian`
- `discretization.__init__` (2250-2303): Caught `SetName`; Copies `Slot`; DiscHistory `PtrKind`; Discretization `Disc`, `new`; SpmdError `procDiscNew`
- `discretization.__eq__` (2305-2332): Equality `eqSet`, `eq`
- `discretization.check_nums` (2343-2360): Discretization `checkNums`; SpmdSet `procCheckNums`
- `discretization.globalize_ptrs` (2362-2376): DiscHistory `DiscOp`; Discretization `globalizePtrs`; SpmdHistory `procFillPtr`, `procGlobalizePtrs`
- `discretization.set_io_ptr` (2378-2394): Caught `ptrPoints`, `ptrCells`, `setPtrA`; DiscHistory `DiscOp`, `setPtr`; Discretization `setIoPtr`; SampleSet `localized`; SpmdSet `procGlobalPtr`, `procSetIoPtr`
- `discretization.set_emulated_ii_ptr` (2413-2434): Caught `ptrPoints`, `ptrCells`, `setPtrA`; DiscHistory `DiscOp`, `setPtr`; Discretization `setIiPtr`; SampleSet `localized`; SpmdSet `procGlobalPtr`, `procSetIiPtr`
- `discretization.set_emulated_oo_ptr` (2453-2475): Caught `ptrPoints`, `ptrCells`, `setPtrA`; DiscHistory `DiscOp`, `setPtr`; Discretization `setOoPtr`; SampleSet `localized`; SpmdSet `procGlobalPtr`, `procSetOoPtr`
- `discretization.copy` (2494-2502): Copies `copyDisc`
- `discretization.get_input_sample_set` (2504-2513): Copies `getSlot`
- `discretization.set_input_sample_set` (2515-2527): Copies `step`; DiscHistory `DiscOp`; Discretization `setInput`
- `discretization.get_output_sample_set` (2529-2538): Copies `getSlot`
- `discretization.set_output_sample_set` (2540-2552): Copies `step`; DiscHistory `DiscOp`; Discretization `setOutput`
- `discretization.get_output_observed_set` (2554-2563): Copies `getSlot`
- `discretization.set_output_observed_set` (2565-2577): Copies `step`
- `discretization.get_output_probability_set` (2579-2589): Copies `getSlot`
- `discretization.set_output_probability_set` (2591-2617): Caught `dimsAgree`, `setProbSetA`; Copies `peers`, `step`; DiscHistory `DiscOp`; Discretization `setOutputProbabilitySet`; SpmdHistory `procSetOutputProbabilitySet`
- `discretization.get_emulated_output_sample_set` (2619-2629): Copies `getSlot`
- `discretization.set_emulated_output_sample_set` (2631-2654): Copies `peers`, `step`; DiscHistory `DiscOp`; Discretization `setEmulatedOutput`
- `discretization.get_emulated_input_sample_set` (2656-2666): Copies `getSlot`
- `discretization.set_emulated_input_sample_set` (2668-2687): Copies `peers`, `step`; DiscHistory `DiscOp`; Discretization `setEmulatedInput`
- `discretization.estimate_input_volume_emulated` (2689-2704): Caught `estimateA`; DiscHistory `DiscOp`; Discretization `estimateInputVolumeEmulated`; Rounded `Disc.estimateInputVolumeEmulatedR`; SpmdSet `procEstimateInputVolumeEmulated`
- `discretization.estimate_output_volume_emulated` (2706-2722): Caught `estimateA`; DiscHistory `DiscOp`, `estimateOutputVolumeEmulated`; SpmdHistory `procEstimateOutputVolumeEmulated`
- `discretization.clip` (2724-2742): Discretization `clip`
- `discretization.merge` (2744-2766): Discretization `merge`
- `discretization.choose_inputs_outputs` (2768-2817): Choose `selJac`, `chooseCoords`, `chooseInputsOutputs`
- `discretization.local_to_global` (2819-2833): DiscHistory `DiscOp`; Discretization `localToGlobal`; SamplerHistory `globalizeDisc`; SpmdHistory `procLocalToGlobal`; SpmdSampler `procGlobalizeDisc`; UseLuq `makeDisc`
- `discretization.global_to_local` (2835-2849): Caught `globalToLocalA`; DiscHistory `DiscOp`; Discretization `globalToLocal`; SpmdHistory `procGlobalToLocal`

### bet/surrogates.py

- `piecewise_polynomial_surrogate.__init__` (19-35): SpmdSurrogate `procSurrogateInit`; Surrogates `surrogateInit`
- `piecewise_polynomial_surrogate.generate_for_input_set` (37-115): SpmdSurrogate `procSurrogateJacobians`, `linear1`, `procSurrogateValues`, `procSurrogateErrors`, `procGenerate`; Surrogates `inheritDomain`, `linearValue`, `surrogateJacobians`, `surrogateValues`, `surrogateErrors`, `generateForInputSet`
- `piecewise_polynomial_surrogate.calculate_prob_for_sample_set_region` (117-183): SpmdSurrogate `procEnsureVolumesMc`, `procRegionPass`, `procSurrogateLoop`, `procUpdateStep`, `procUpdateInput`, `procCalculateProbForRegions`; Surrogates `ensureVolumesMc`, `regionPass`, `surrogateLoop`, `gatherNum`, `updateInput`, `calculateProbForRegions`

### bet/util.py

- `meshgrid_ndim` (26-73): Util `meshgridNdim`
- `get_global_values` (76-115): NumPy `getGlobalValues`; Spmd `gatherAll`; SpmdSet `gatherList`
- `fix_dimensions_vector` (118-130): Util `toArr`, `fixVector`
- `fix_dimensions_vector_2darray` (133-149): Util `toArr`, `fixVector2d`
- `fix_dimensions_domain` (152-176): Util `fixDomain`
- `fix_dimensions_data` (179-209): DataDomain `RefArg.rows`; Updated `fixRows`; Util `fixData`
- `clean_data` (212-225): CleanData `zeroNan`, `capInf`, `cleanData`
- `save_object` (228-254): SaveRace `Writer`, `savePath`, `Saving.start`; SpmdFiles `fileSave`; Storage `FileName.proc`, `saveObject`
- `load_object` (257-277): SpmdFiles `fileRead`, `fileLoad`; Storage `loadFile`, `loadObject`
- `load_object_parallel` (280-302): SpmdFiles `fileLoad`; Storage `FileName.proc`, `loadObject`, `loadObjectParallel`

### bet/calculateP/calculateError.py

- `cell_connectivity_exact` (28-89): CalcError `link1D`, `connectivity1D`, `linkPair`, `connectivityDelaunay`; SamplingError `checkVoronoi2`, `ensureGlobalIoPtr`, `connectivityOf`, `connectivityExact`; SpmdError `procEnsureGlobalIoPtr`, `procConnectivityExact`
- `boundary_sets` (92-142): CalcError `boundaryStep`, `boundarySets`; SamplingError `checkVoronoi2`, `ensureGlobalIoPtr`, `boundarySetsOf`; SpmdError `procEnsureGlobalIoPtr`, `procBoundarySets`
- `sampling_error.__init__` (150-178): SamplingError `samplingErrorInit`; SamplingHistory `new`; SpmdError `procSamplingErrorInit`
- `sampling_error.calculate_for_contour_events` (180-241): CalcError `contourBound`, `contourLoop`, `contourErrors`; SamplingError `contourVolumes`, `samplingContour`; SamplingHistory `contour`; SpmdError `procContourVolumes`, `procSamplingContour`
- `sampling_error.calculate_for_sample_set_region` (243-359): CalcError `memMask`, `regionTerm`, `regionLoop`, `regionErrors`, `regionMarker`, `regionMask` …; SamplingHistory `gathered`, `regionBounds`, `regionGiven`, `ensureGlobalIiPtr`, `regionOwn`, `regionSamples` …; SpmdError `mem1`, `procRegionTerm`, `procRegionLoop`, `procRegionMask`, `procSamplingRegion`
- `model_error.__init__` (368-401): CalcError `modelErrorNew`; SpmdError `procEnsureIo`, `procModelErrorNew`
- `model_error.calculate_for_contour_events` (403-450): CalcError `modelContour`; ModelErrorObject `localizeVolumes`, `measureProbs`, `contour`; SpmdError `procContourVolumes`, `procMeasureProbs`, `procContourEvent`, `procLocalizeVolumes`, `procContour`
- `model_error.calculate_for_sample_set_region` (452-539): CalcError `modelRegionStep`, `modelRegion`, `regionMarker`, `regionMask`; ModelErrorObject `measureProbs`, `globalized`, `regionSum`, `regionGiven`, `regionOwn`, `askRegion` …; SpmdError `procRegionMask`, `procMeasureProbs`, `procCounts`, `procModelRegion`, `procGlobalized`, `procRegionSum` …
- `model_error.calculate_for_sample_set_region_mc` (541-612): CalcError `modelTermMc`, `errorCells`, `charge`, `modelMcStep`, `modelRegionMc`, `regionMarker` …; ModelErrorObject `measureProbs`, `regionMc`, `askMc`, `refusing`; SpmdError `procRegionMask`, `procMeasureProbs`, `procCounts`, `cells1`, `charge1`, `procMcStep` …

### bet/calculateP/calculateP.py

- `prob_on_emulated_samples` (21-64): CalculateP `Disc.ensureIoPtr`, `Disc.ensureIiPtr`, `probEmBody`, `probOnEmulated`; Caught `ensureIoPtrA`, `ensureIiPtrA`, `probEmValues`, `probOnEmulatedA`; Rounded `probEmBodyR`, `probOnEmulatedR`; Spmd `procProbEmBody`, `procProbEm`; SpmdSet `procEnsureIoPtr`, `procEnsureIiPtr`, `procIfGlobal`, `procProbOnEmulatedCall`
- `prob` (67-106): CalculateP `probBody`, `probLoop`, `Disc.ensureIoPtr`, `prob`; Caught `ensureIoPtrA`, `probValues`, `probA`; DrawsP `Disc.solveDrawn`; Rounded `probBodyR`, `probLoopR`, `probR`; SampleSet `localized`; Spmd `procProbBody`, `procProb`; SpmdSet `procEnsureIoPtr`, `procProbCall`
- `prob_with_emulated_volumes` (110-132): CalculateP `probWithEmulatedVolumes`; Caught `probWithEmulatedA`; Rounded `probWithEmulatedVolumesR`; SampleSet `localized`; SpmdSet `procProbWithEmulatedVolumes`
- `prob_from_sample_set_with_emulated_volumes` (135-206): CalculateP `gatherLoop`, `emBody`, `renormalize`, `probFromSampleSetEmulated`, `probFromSampleSetWithEmulatedVolumes`; Rounded `gatherLoopR`, `emBodyR`, `renormalizeR`, `probFromSampleSetEmulatedR`; SampleSet `localized`; Spmd `procGather`, `procEmBody`, `procRenormalize`, `procEm`; SpmdSet `procProbFromSampleSetEmulated`
- `prob_from_sample_set` (209-249): CalculateP `gatherLoop`, `probFromSampleSet`; Rounded `gatherLoopR`, `probFromSampleSetR`; SampleSet `localized`; Spmd `procGather`; SpmdSet `procGatherOpt`, `procProbFromSampleSet`
- `prob_from_discretization_input` (252-300): CalculateP `gatherLoop`, `probFromDiscInput`; Rounded `gatherLoopR`, `probFromDiscInputR`; SampleSet `localized`; Spmd `procGather`; SpmdSet `Disc.putEmulated`, `procProbFromDiscInput`

### bet/calculateP/calculateR.py

- `generate_output_kdes` (20-84): CalculateR `predictKde`, `observedKde`, `numClusters`, `generateKdes`
- `invert` (87-123): CalculateR `clusterPoints`, `clusterRatio`, `invertStep`, `invert`
- `invert_to_kde` (126-167): CalculateR `clusterWeights`; Fitted `kdeCluster`, `invertKde`
- `invert_rejection_sampling` (170-209): CalculateR `acceptIdx`, `acceptCluster`, `invertRejection`; DrawsR `rejectionNumbers`, `invertRejectionDrawn`
- `invert_to_gmm` (212-267): CalculateR `clusterWeights`, `weightedMean`, `weightedCov`, `weightedMeanCov`, `gmmCluster`, `invertGmm`
- `invert_to_multivariate_gaussian` (270-321): CalculateR `weightedMean`, `weightedMeanCov`, `totalStep`, `totalWeights`, `invertGaussian`
- `invert_to_random_variable` (324-411): CalculateR `clusterWeights`, `totalStep`, `totalWeights`, `reweighted`; Fitted `storedArgs`, `fitDim`, `invertRv`

### bet/calculateP/simpleFunP.py

- `check_type` (23-45): SimpleFun `DataSet.typeDim`, `checkType`; SpmdSimpleFun `refLen`
- `infer_Q` (48-57): SimpleFun `DataSet.inferQ`
- `check_inputs` (60-95): SimpleFun `DataSet.checkInputs`; SpmdSimpleFun `DataSet.procCheckInputs`
- `check_inputs_no_reference` (98-119): SimpleFun `DataSet.inputs`; SpmdSimpleFun `DataSet.procInputs`
- `uniform_partition_uniform_distribution_rectangle_size` (122-254): SimpleFun `DataSet.attach`, `stretch`, `binnedSet`, `sizeArray`, `notPyList`, `uniformSize`; SpmdSimpleFun `DataSet.procAttach`, `procBinned`, `rootUniform`, `ownUniform`, `procUniformSize`
- `uniform_partition_uniform_distribution_rectangle_scaled` (257-307): SimpleFun `uniformScaled`; SpmdSimpleFun `procUniformScaled`
- `uniform_partition_uniform_distribution_rectangle_domain` (310-355): SimpleFun `uniformDomain`; SpmdSimpleFun `procUniformDomain`
- `regular_partition_uniform_distribution_rectangle_size` (358-425): Linspace `linspace`; SimpleFun `sizeArray`, `CellArg.get`, `gridVectors`, `regularSize`; SpmdSimpleFun `procRegularSize`
- `regular_partition_uniform_distribution_rectangle_domain` (428-464): SimpleFun `regularDomain`; SpmdSimpleFun `procRegularDomain`
- `regular_partition_uniform_distribution_rectangle_scaled` (467-510): SimpleFun `regularScaled`; SpmdSimpleFun `procRegularScaled`
- `uniform_partition_uniform_distribution_data_samples` (513-556): SimpleFun `DataSet.asSet`, `dataSamples`; SpmdSimpleFun `DataSet.procAsSet`, `procDataSamples`
- `normal_partition_normal_distribution` (559-653): SimpleFun `normalNormal`; SpmdSimpleFun `aroundRef`, `procNormalNormal`
- `uniform_partition_normal_distribution` (656-738): SimpleFun `stretch`, `binnedSet`, `uniformNormal`; SpmdSimpleFun `procBinned`, `aroundRef`, `procUniformNormal`
- `user_partition_user_distribution` (741-845): SimpleFun `binnedSet`, `DataSet.dimOf`, `userPartition`; SpmdSimpleFun `procBinned`, `procUserPartition`

### bet/postProcess/compareP.py

- `compare.__init__` (21-66): CompareP `PostObj.compareSet`, `Compare.new`
- `compare.set_compare_set` (68-114): CompareP `Compare.rvLoc`, `Compare.rvLast`, `Compare.setCompareSet`
- `compare.evaluate_pdfs` (116-133): CompareP `Density`, `Compare.evaluatePdfs`
- `compare.distance` (135-184): CompareKl `klDiv`, `Compare.distanceKl`, `Compare.distanceMink`; CompareP `halfAbs`, `Compare.ensurePdfs`, `normFactor`, `applyFn`, `Compare.prepare`, `Compare.distance`
- `compare.distance_marginal` (186-268): CompareKl `klDiv`, `Compare.distanceMarginalKl`, `Compare.distanceMarginalMink`; CompareP `Density`, `Compare.autoInterval`, `Compare.marginalPoints`, `marginalFactor`, `applyMarginal`, `Compare.distanceMarginal`
- `compare.distance_marginal_quad` (270-349): CompareP `Compare.autoInterval`; CompareQuad `errorFn`, `Compare.quadInterval`, `Compare.quadValue`, `Compare.distanceMarginalQuad`

### bet/postProcess/plotDomains.py

- `scatter_2D` (44-131): PlotDomains `SampleObj.needSet`, `fullName`, `scatterData`, `scatter2D`
- `scatter_2D_input` (134-190): PlotDomains `SampleObj.needDisc`, `namedColor`, `scatter2DOf`
- `scatter_2D_output` (193-249): PlotDomains `SampleObj.needDisc`, `namedColor`, `scatter2DOf`
- `scatter_3D` (252-337): PlotDomains `SampleObj.needSet`, `fullName`, `refPointOf`, `scatterData`, `scatter3D`
- `scatter_3D_input` (340-398): PlotDomains `namedColor`, `scatter3DOf`
- `scatter_3D_output` (401-459): PlotDomains `namedColor`, `scatter3DOf`
- `scatter_rhoD` (462-589): PlotDomains `rhoDSet`, `rhoDNames`, `rhoDPair`, `rhoDTriple`, `scatterRhoD`, `ShowDim`
- `show_data_domain_multi` (592-715): DataDomain `trianglesOf`, `domainRef`, `domainPair`, `domainPairs`, `dataDomainMulti`; PlotDomains `SampleObj.needDisc`
- `show_data_domain_2D` (718-814): DataDomain `trianglesOf`, `drawMark`, `drawMarks`, `dataDomain2D`; PlotDomains `SampleObj.needDisc`, `fullName`
- `scatter_2D_multi` (817-910): PlotDomains `multiFigure`, `multiPairs`, `scatter2DMulti`
- `scatter_2D_multi_input` (913-969): PlotDomains `namedColor`, `scatter2DMultiOf`
- `scatter_2D_multi_output` (972-1028): PlotDomains `namedColor`, `scatter2DMultiOf`

### bet/postProcess/plotP.py

- `calculate_1D_marginal_probs` (37-98): PlotMarginals `marginalItems`; PlotP `NBins.toArr`, `PostObj.marginalSet`, `SampleSet.localProbs`, `SampleSet.marginalBins`, `inBin`, `increasing` …; SpmdError `SampleSet.procLocalProbs`, `SampleSet.procMarginal`, `procCalculate1D`
- `calculate_2D_marginal_probs` (101-171): PlotP `NBins.toArr`, `PostObj.marginalSet`, `SampleSet.localProbs`, `SampleSet.marginalBins`, `inBin`, `increasing` …; SpmdError `SampleSet.procLocalProbs`, `SampleSet.procMarginal2`, `procCalculate2D`
- `plot_1D_marginal_probs` (174-250): PlotMarginals `PostObj.axesSet`, `sortItems`, `axisLabel`, `refMark`, `margFigure`, `plot1DMarginals`
- `plot_2D_marginal_probs` (253-366): PlotMarginals `PostObj.axesSet`, `sortPairs`, `axisLabel`, `refMark2`, `margImage`, `margFigure2` …
- `smooth_marginals_1D` (369-408): Smooth `fftConv`, `kernel1`, `smoothOne`, `Sigma`, `smoothMarginals1D`
- `smooth_marginals_2D` (411-460): Smooth `fftConv2`, `kernel2`, `smoothTwo`, `Sigma`, `smoothMarginals2D`
- `plot_2D_marginal_contours` (463-568): PlotMarginals `PostObj.axesSet`, `sortPairs`, `refMark2`, `margImage`, `refMarks`, `contourAxis` …
- `plot_1d_marginal_densities` (571-673): PlotDensities `DensArg.toList`, `DensObj.get`, `plotLabel`, `legendOf`, `legends`, `widen` …

### bet/postProcess/plotVoronoi.py

- `plot_1D_voronoi` (34-117): PlotVoronoi `PostObj.voronoiSet`, `SampleSet.plotProbs`, `midEnds`, `lineHeights`, `refPoint`, `label1D` …
- `plot_2D_voronoi` (120-229): PlotVoronoi `PostObj.voronoiSet`, `SampleSet.plotProbs`, `refPoint`, `cellValues`, `refPair`, `labels2D` …
- `voronoi_finite_polygons_2d` (232-310): PlotVoronoi `meanPoint`, `pointRange`, `ridgesOf`, `farPoint`, `addRidge`, `sortRegion` …

### bet/postProcess/postTools.py

- `sort_by_rho` (23-83): PostTools `PostObj.read`, `PostObj.write`, `densitiesOf`, `rhoOrder`, `PostData.select`, `sortByRho`
- `sample_prob` (86-174): PostTools `PostObj.read`, `PostObj.write`, `PostData.reversed`, `PostData.first`, `sortIf`, `sampleProb`
- `sample_highest_prob` (177-201): PostTools `sampleHighestProb`
- `sample_lowest_prob` (204-229): PostTools `sampleLowestProb`

### bet/sampling/LpGeneralizedSamples.py

- `Lp_generalized_normal` (16-39): Clusters `lpNormal`, `lpNormalAt`
- `Lp_generalized_uniform` (42-71): Clusters `lpNorm`, `lpUniform`, `lpUniformInf`, `withinBounds`, `clusterLoop`
- `Lp_generalized_beta` (74-102): Clusters `lpBeta`

### bet/sampling/basicSampling.py

- `sample_from_updated` (33-89): InitMeasure `resampleT`; Sampling `updatedCounts`; Updated `kdeLocal`, `resampled`, `sampleFromUpdated`
- `random_sample_set` (92-182): InitMeasure `InitMeasure`, `RvArg.isLhs`, `RvArg.long`, `randomT`, `into`, `random` …; Query `numLocal`; SamplerCaught `randomA`, `into`; Sampling `InputObj.toSet`, `RvArg.perDim`, `drawLocal`, `SampleSet.globalizeIf`, `randomSampleSet`; SpmdSampler `procGlobalizeIf`, `procRandom`
- `lhs_sample_set` (185-238): InitMeasure `InitMeasure`, `lhsT`, `into`; SamplerCaught `lhsValues`, `lhsA`, `into`; Sampling `InputObj.toSet`, `SampleSet.globalizeIf`, `lhsSampleSet`; SpmdSampler `procGlobalizeIf`, `procLhs`
- `regular_sample_set` (241-313): InitMeasure `InitMeasure`, `regular`; Linspace `linspace`; SamplerCaught `execA`; Sampling `InputObj.toSet`, `gridVec`, `GridNums.perDim`, `domainOrUnit`, `assignGrid`, `regularSampleSet`; SpmdSampler `procRegular`
- `sampler.__init__` (322-337): SamplerHistory `SamplerState`
- `sampler.local_to_global` (339-346): InitMeasure `globalizeCurrent`, `globalizeDisc`; SamplerHistory `exec`; SpmdSampler `procGlobalizeCurrent`, `procGlobalizeDisc`
- `sampler.random_sample_set` (348-379): InitMeasure `into`; SamplerCaught `into`; SamplerHistory `exec`
- `sampler.regular_sample_set` (381-402): InitMeasure `regular`; SamplerHistory `exec`
- `sampler.lhs_sample_set` (404-427): InitMeasure `into`; SamplerCaught `into`; SamplerHistory `exec`
- `sampler.compute_QoI_and_create_discretization` (429-435): SamplerHistory `compute`
- `sampler.compute_qoi_and_create_discretization` (437-532): InitMeasure `compute`; SamplerCaught `modelReply`, `computeSetA`, `computeA`; SamplerHistory `compute`, `tryReference`, `mapReference`; Sampling `unpack`, `computeQoi`; SpmdSampler `procGlobalizeIf`, `procCompute`, `procExec`
- `sampler.create_random_discretization` (541-587): SamplerHistory `exec`; Updated `createRandomDiscretization`

### bet/sampling/useLUQ.py

- `useLUQ.__init__` (42-61): UseLuq `UseLuq`
- `useLUQ.get_predictions` (71-75): UseLuq `getPredictions`
- `useLUQ.get_obs` (77-81): UseLuq `getObs`
- `useLUQ.set_observed_time_series` (83-90): UseLuq `setObserved`
- `useLUQ.initialize` (92-115): UseLuq `startLearning`
- `useLUQ.setup` (117-123): UseLuq `setup`
- `useLUQ.clean_data` (125-129): UseLuq `luqMethod`
- `useLUQ.dynamics` (131-135): UseLuq `luqMethod`
- `useLUQ.learn_qois_and_transform` (137-141): UseLuq `luqMethod`
- `useLUQ.make_disc` (143-173): UseLuq `labelledSet`, `obsDisc`, `makeDisc`

### bet/sensitivity/chooseQoIs.py

- `calculate_avg_measure` (16-71): ChooseQois `avgMeasure`
- `calculate_avg_skewness` (74-148): Measures `hmean`, `withoutRow`, `skewEntry`, `skewRow`, `Num.worse`, `skewMax` …
- `calculate_avg_condnum` (151-192): Measures `hmean`, `condRow`, `condNum`, `avgCondnum`
- `chooseOptQoIs` (195-234): SpmdChoose `chooseOptQois`
- `chooseOptQoIs_verbose` (237-352): ChooseQois `keepBest`, `optStep`, `emptyRows`, `tensorSlice`, `chooseOpt`, `chooseOptVerbose`; SpmdChoose `orderGathered`, `procChooseOpt`, `procChooseOptQois`
- `find_unique_vecs` (355-436): ChooseQois `unitGradients`, `zeroQois`, `avgInner`, `repeatIf`, `repeatStep`, `uniqueVecs`
- `find_good_sets` (439-573): ChooseQois `keepBest`, `emptyRows`, `extensions`, `addGood`, `goodStep`, `uniqueRows` …; SpmdChoose `procGoodRound`, `organizeGathered`, `procFindGoodSets`
- `chooseOptQoIs_large` (576-617): SpmdChoose `procChooseOptLarge`
- `chooseOptQoIs_large_verbose` (620-694): ChooseQois `largeLoop`, `chooseOptLarge`; SpmdChoose `procLargeLoop`, `procChooseOptLarge`

### bet/sensitivity/gradients.py

- `sample_lp_ball` (16-80): Clusters `drawLoop`, `sampleLpBall`
- `sample_linf_ball` (83-103): Clusters `sampleLpBall`
- `sample_l1_ball` (106-126): Clusters `sampleLpBall`
- `pick_ffd_points` (129-166): Gradients `pickFfd`
- `pick_cfd_points` (169-210): Gradients `pickCfd`
- `radial_basis_function` (213-243): Rbf `RbfKernel`, `radialBasis`
- `radial_basis_function_dxi` (246-278): Rbf `RbfKernel`, `radialBasisDxi`
- `calculate_gradients_rbf` (281-388): Gradients `centerDisc`, `normalizeVec`; Rbf `rbfMatrix`, `rbfRhs`, `rbfRow`, `rbfGradient`, `gradientsRbf`
- `calculate_gradients_ffd` (391-470): Gradients `radiiFrom`, `radiiMat`, `toTensor`, `ffdMat`, `centerDisc`, `normalizeVec` …
- `calculate_gradients_cfd` (473-556): Gradients `radiiFrom`, `radiiMat`, `toTensor`, `cfdInds`, `cfdMat`, `centerDisc` …

## What is not modelled

- `bet/Comm.py` `MPI_for_no_mpi4py.__init__` (166-178): constants (`SUM`, `MAX`, type names) that the replacement communicator ignores
- `bet/sample.py` `sample_set_base.save` (332-341): one call of `util.save_object` (Storage, SaveRace)
- `bet/sample.py` `sample_set_base.get_dim` (781-790): returns an attribute
- `bet/sample.py` `sample_set_base.get_kdtree` (1097-1105): returns an attribute
- `bet/sample.py` `sample_set_base.query` (1237-1246): empty body, overridden in all subclasses that are modelled
- `bet/sample.py` `sample_set_base.calculate_volumes` (1248-1251): empty body, overridden
- `bet/sample.py` `discretization.save` (2334-2341): one call of `util.save_object`
- `bet/sample.py` `discretization.get_io_ptr` (2396-2411): returns an attribute
- `bet/sample.py` `discretization.get_emulated_ii_ptr` (2436-2451): returns an attribute
- `bet/sample.py` `discretization.get_emulated_oo_ptr` (2477-2492): returns an attribute
- `bet/sampling/basicSampling.py` `sampler.copy` (534-539): `copy.deepcopy` of the sampler; deep copies of sample sets and discretizations are modelled in Copies
- `bet/sampling/useLUQ.py` `myModel` (16-33): example of a user model, solves an ODE with the package LUQ
- `bet/sampling/useLUQ.py` `useLUQ.save` (63-69): one call of `util.save_object`
- `bet/sampling/useLUQ.py` `useLUQ.local_to_global` (175-179): empty body

Within the modelled functions the following is left out everywhere:

- floating point rounding (except in C154), overflow, underflow, infinities and nan (except where the code branches on them; there is then an extended
  number type or an error value);
- logging and warnings; doc strings; the text of exceptions;
- what matplotlib, pyvista and the file formats do with the arguments they are given: a figure is the list of the arguments of
  the drawing calls;
- the algorithms inside numpy, scipy, scikit-learn, pyDOE and LUQ (see "Assumptions on external functions");
- the generators of random numbers: the draws are arguments of the model, and theorems hold for all draws; the laws that the
  properties about chance assume of them are hypotheses;
- running time and memory;
- the difference between `voronoi_sample_set` and its subclass `sample_set` (they have the same methods). The places that accept only
  `sample_set` (compareP.py:58 and 86, plotP.py:603-607, basicSampling.py:49, 128, 208 and 262) reject an object that is a
  `voronoi_sample_set` only, such as the sets that simpleFunP.py returns; there such an object is "something else" (`.other` in
  the models of compareP.py) and not a `SampleSet`;
- the examples, tests and documentation of the repository (`/repo/examples`, `/repo/test`, `/repo/doc`), except that the
  compositions of calls in the example scripts are modelled in Workflow.

## Claims that are false of the code

Each theorem exhibits a run of the model (or all runs of a kind) that breaks the claim as a user would expect it.

- `C05_negation_after_prob`: on every discretization as a user builds it: after `prob` (which sets only the local pointer) `prob_on_emulated_samples` never succeeds.
- `C05_negation_local_pointer_only`: Whenever the local pointer is set and the global one is not, `prob_on_emulated_samples` does not return: it indexes the global pointer, which is `None`.
- `C16_negation_caller_array`: The array that the user passed to `set_values` (address 0) is changed by `normalize_domain`, and `undo_normalize_domain` does not change it back.
- `C16_negation_shared`: When the local values are a view of the global ones, as after `global_to_local`, normalising moves them twice, so they differ from the global ones, and undoing does not restore them.
- `C17_negation_stale_tree`: Replacing the values of a set that was queried before leaves the old search tree in use: the sample nearest to 1 is the second, at 0, but `query` answers with the first, at 10.
- `C21_negation_single_sample`: With a single sample, which owns the whole interval, the call raises.
- `C22_negation_three`: With `k = 3`, the point 1 lies in the rectangles 0, 1 and 2, but the answer is 0, 1, 0.
- `C25_negation_three`: The same for three nested balls.
- `C26_negation_pdf_global_only`: `pdf` of a set with probabilities and volumes that were never distributed raises, although `set_densities` works.
- `C26_negation_pdf_scale`: `pdf` of the same set is twice the density that `set_densities` computes: it integrates to 2 over the domain.
- `C27_negation_broadcast`: A set of two equal samples compares equal to the set with one of them: the arrays are broadcast.
- `C27_negation_maps`: With fewer cluster maps on the left, `a == b` although `b == a` raises.
- `C27_negation_missing_set`: Comparing a discretization that has an emulated set with one that has none raises instead of giving `False`.
- `C27_negation_nan`: A set with a `nan`, as every ball sample set has in its last value (/repo/bet/sample.py:2046), does not equal itself.
- `C27_negation_none`: Comparing a set that has an array with one that has not gives `False` one way round and raises the other way round.
- `C28_negation_no_points`: If `max_num_emulate` is at most 10 no point is drawn at all, all volumes are `0 / 0`.
- `C28_negation_zero_volume`: If none of the points drawn for a sample falls into its cell, its volume is zero, although other volumes are positive: here sample 0 of two.
- `C30_negation_stale_global`: A discretization whose global pointer was set; then the output probability set is replaced by one with the cells in the other order. The local pointer is right, the global one still that of the old set.
- `C31_negation_default`: The documented default `None` raises.
- `C31_negation_identity`: Choosing everything is not the identity: the volumes are lost.
- `C32_negation_emulated_output`: The emulated output set has values and the call succeeds, but its local arrays stay absent.
- `C38_negation_unsorted`: : for the samples 3, 1, 2 (`argsort` is `[1, 2, 0]`) cell 0 is adjacent only to cell 2, but the method also reports the contour event of cell 1.
- `C39_negation`: : the bound of event 0 is `nan` on a fresh object and infinite after a region was asked for.
- `C40_negation_contour`: for contour events: the pointers agree, event 1 has positive probability and no sample, and its estimate is `nan`.
- `C40_negation_mc`: for regions by Monte Carlo: the estimate is infinite.
- `C40_negation_region`: for regions: here the method raises.
- `C46_negation_stale`: The model is run at the old samples, and the samples the user set are overwritten by the old ones.
- `C48_negation`: : for `Q(x) = x` the surrogate's value at `1/2` is `-1/2`.
- `C51_negation_outputs`: the output paired with the centre 0 is 4, the value at 1; the value at the centre is 0.
- `C54_negation_singular_values`: on two processes: those of the best set, `[0, 1]`, are not `[1, 0]`, which is what one process returns.
- `C55_negation_ties`: : two sets have the value 1 and two are asked for, only one is returned.
- `C56_negation_empty_cell`: : with an empty cell (volume and probability 0, as in Monte Carlo volumes) the density is `nan`, `nan` is sorted last, so it comes first, and the sample of probability 1 is lost.
- `C57_negation_unsorted`: : `sample_prob` with `sort=False` returns for no object.
- `C59_negation_normalize`: A call with `normalize=True` changes the result of a later call without it.
- `C59_negation_reuse`: Two comparison sets with a distance call in between: the second distance is the first one.
- `C59_negation_stale`: C59 fails: once a distance has been computed, later comparison sets have no effect on the distances the object returns.
- `C60_negation_coordinates`: The points are drawn from `[5, 6] × [5, 6]`, which contains none of the samples' first coordinates.
- `C60_negation_domains`: The interval for marginals covers the first domain only.
- `C60_negation_lengths`: C60 fails: without domains, sets with different numbers of samples cannot be compared at all.
- `C60_negation_upper`: C60 fails: the box is never enlarged upwards. If the random numbers lie in the support of their distribution, no comparison point exceeds the greatest value of the last coordinate.
- `C62_negation_data`: Data that do not fit the dimension are returned, transposed, and a second application turns them back.
- `C62_negation_list_domain`: The domain `[[0, 1], [0, 1]]` given as a nested list (the usual notation for the unit square) is turned into an array of shape `(1, 2, 2)`; a nested list of three intervals is rejected, while the same data as an `ndarray` are accepted.
- `C64_negation_directory`: An unglobalized save into a directory cannot be loaded by `load_object`.
- `C64_negation_leftover`: With a file left over from a run with more processes, or one of another set with a name ending in the same way, loading is refused.
- `C64_negation_local_parts`: A globalized save by two processes: process 1 gets the local array of process 0.
- `C64_negation_stale`: With an older file `set.p` present, the old object is loaded instead.
- `C67_negation_normal`: `normal_partition_normal_distribution` does not give a cell the share of the emulated points in it, even where the density is constant: one of three points is in the first cell, whose probability is 1/5.
- `C68_negation_list`: `rect_size` may not be a Python list in `uniform_partition_uniform_distribution_rectangle_size`, although the same list is accepted as array.
- `C69_negation_isolated`: : cell 0 belongs to event 0 and is not among the covering cells of event 0.
- `C71_negation_isolated`: : with the isolated cell holding most emulated points, the lower bound for the region of the first two cells is positive.
- `C74_negation_gap`: Labels 0 and 2 are used, 1 is not: the inversion succeeds but rejection sampling raises.
- `C74_negation_single_map`: One cluster given by cluster maps, four predicted and five observed samples: the inversion raises.
- `C74_negation_singleton`: A cluster with one predicted sample: the inversion raises.
- `C76_negation_stale`: Drawing three new samples into it succeeds but leaves the two probabilities: the result is not a consistent set. With two samples the old probabilities are attached to the new samples.
- `C77_negation_stale`: The stale probabilities of a reused set are kept here as well.
- `C78_negation_shape`: with `ep = 2` the call returns, there is a combination of the kernels with shape parameter 2 that takes the values of the data, and its derivative is not the returned gradient.
- `C79_negation_processes`: : the second process returns the singular values of its own set with the first row, whose set is `[0, 1]`.
- `C79_negation_ties`: : the second row is the set `[0, 3]`, the second slice of the singular values belongs to `[0, 2]`.
- `C80_negation`: C80 fails with `normalize=True`: for two or more comparison points `distance('hell')` is never the square root of `distance('sqhell')` unless that is zero.
- `C81_negation_expected`: With two centres of one input and one QoI, with derivatives 1 and 2, the intervals of length 1 have inverse images of length 1 and 1/2. The expected measure is 3/4, the value 2/3.
- `C83_negation_one`: One input and one QoI whose derivative is 0 at the first of two centres and 1 at the second. At the first the condition number is infinite, so the harmonic mean of the two is 2; the value is 1.
- `C83_negation_singular_values`: The singular values returned are not those of the centres: where the gradients are dependent, but not at every centre, the first is replaced by infinity and the last by 1.
- `C85_negation_none`: Asking for no samples around each centre is an error, not the set of centres.
- `C85_negation_outside`: If the samples drawn around some centre never lie in the domain, as with a centre outside the domain by more than the radius, the sampling never ends.
- `C86_negation_gmm`: In one dimension with two or more clusters there is an error, unless on every process every cluster has exactly one point.
- `C86_negation_number`: Three points are asked for and four drawn; one is asked for and none drawn.
- `C86_negation_transposed`: A process that draws as many points as there are dimensions stores them transposed: row `i` of its samples are the numbers drawn for coordinate `i`.
- `C86_negation_two_by_two`: Two points in two dimensions: the two numbers drawn for coordinate 0 become the first sample.
- `C87_negation_few_points`: If some process draws fewer points than there are cells, the call fails.
- `C87_negation_many_processes`: `estimate_local_volume` asks for 20 points per sample when it needs radii; with more than 20 processes and at least 500 samples that always fails.
- `C88_negation_default`: Leaving out the number of samples, which the signature allows, always fails.
- `C89_negation_kde`: With two parameters and two clusters `pdf` is not the density of the law that `sample_from_updated` draws from: at every point where the two clusters have different densities in both coordinates, and both have positive weight, the two differ.
- `C89_negation_voronoi`: Although `marginal_pdf` is documented for arrays of shape `(num_vals, dim)`, it raises for Voronoi sets when `dim` is at least two, whatever the values are.
- `C90_negation_even`: With an even number of bins the kernel is centred between two bins: the bin before the one that has all the probability gets as much as this, and the bin after it gets less.
- `C90_negation_odd`: With an odd number of bins the kernel is not centred: probability that is all in one bin is moved, the bin before it gets more of it than that bin itself, for every smoothing parameter.
- `C90_negation_one_bin`: With a single bin the result is not defined: the sum by which it is divided is zero, whatever the value is.
- `C91_negation_middle`: : if no sample is nearer to a side than `side_ratio` times the width of the domain, nothing is reflected, and a cell that has a positive area in the domain gets the volume zero.
- `C92_negation_gap`: A cluster number that no predicted sample has, below the largest one: whenever `invert_to_kde` succeeds, `pdf` raises at every array of points.
- `C93_negation_many`: Distributions with three or more shape parameters are never fitted.
- `C93_negation_shapes`: If a distribution has another shape parameter, such as `s` of `lognorm` or `df` of `t`, the fit may succeed but the density of the result cannot be evaluated: the fitted number is stored as `a`, which `pdf` does not accept.
- `C94_negation_name`: Any other name, also the documented `mink`, is called as if it were a function, which raises `TypeError`.
- `C94_negation_norm`: The name `norm` is not a distance: it gives the signed difference of the masses in the interval. Exchanging the sets changes its sign, and any two densities on the interval have "distance" zero.
- `C95_negation_area`: The area under the lines is the number of samples times the probability of the smallest one, instead of the sum of the probabilities.
- `C95_negation_density`: As soon as one sample has another probability than the smallest sample, the plot does not show the density.
- `C95_negation_measure`: With `density=False` the drawing call gets a single height, that of the smallest sample, for all lines.
- `C96_negation_labels`: Labels for the two axes make every call raise: the second label is never assigned.
- `C96_negation_uncovered`: The polygons need not cover the domain: a point of the domain whose first coordinate is larger than that of every vertex of the diagram by more than the range of the coordinates of the samples is in no polygon.
- `C97_negation_area`: C97 fails for the curve as a density: the area under the curve drawn is not the total probability.
- `C97_negation_emulated`: C97 fails for discretizations with an emulated input set: the marginals are those of the emulated set, here on bins of width 1/3, but they are drawn over the domain of the input set.
- `C99_negation_legends`: C99, negation: two sets whose parameters have the same labels get the same entry in the legend, so that the curves cannot be told apart.
- `C99_negation_points`: C99, negation: `num_points` has no effect without `interval`: every curve then has 100 points.
- `C100_negation_3D`: C100, negation: `scatter_3D_input` and `scatter_3D_output` never produce a figure; on a discretization whose sample sets exist they raise `bad_object`, whatever the colour.
- `C100_negation_extension`: C100, negation: in a folder whose path contains a dot (`./figs/`, `../`) the extension is lost, for every file name.
- `C100_negation_identity`: C100, negation: a string that is equal to one of the names but another object (as strings with a blank from another module are in CPython) is refused, because strings are compared by identity.
- `C100_negation_unset`: C100, negation: if the named array has not been computed, the figure is drawn nevertheless, with the same colour for all samples.
- `C101_negation_dim_nums`: C101, negation: for samples of dimension two, `dim_nums` changes the labels of the axes but not the coordinates that are shown, and the extension is not used.
- `C101_negation_label`: C101, negation: a given `label_char` is not used; the labels and files are those of any other one.
- `C101_negation_line`: C101, negation: samples of dimension one are refused with an `IndexError`.
- `C101_negation_output`: C101, negation: the output samples of a sample set cannot be plotted without `rho_D`.
- `C101_negation_silent`: C101, negation: samples of dimension four or more are not plotted at all by default.
- `C102_negation_diagonal`: C102, negation: with a number (and by default) there is also a figure of that coordinate against itself.
- `C102_negation_input`: C102, negation: `scatter_2D_multi_input` never produces figures: it raises for every argument.
- `C102_negation_output`: C102, negation: `scatter_2D_multi_output` raises `UnboundLocalError` for an array of colours, and by default.
- `C103_negation_colors`: C103, negation: there must be a colour and a marker for each reference value; with the seven default colours eight reference values cannot be shown.
- `C103_negation_open`: C103, negation: if a figure is open, what it shows is also in the saved figures of the domain.
- `C103_negation_save`: C103, negation: with `save = False` the first file is written all the same.
- `C104_negation_box`: C104, negation: once it has been computed, `get_bounding_box` returns the same box in every history without `set_bounding_box`, whatever values are set or appended.
- `C104_negation_domain`: C104, negation: only the number of rows of a domain is checked: a vector of `dim` numbers, and matrices with any number of columns, are accepted.
- `C104_negation_error_id_local`: C104, negation: `get_error_id_local` never returns what `set_error_id_local` was given: from a new object it returns `None` after every history.
- `C104_negation_set_values`: C104, negation: `set_values` of a matrix that does not fit raises `dim_not_matching`, but the values are lost: `get_values` returns the transpose of the refused matrix.
- `C105_negation_clusters`: C105, negation: therefore the inversion of the discretization replaces the labels LUQ found for the predictions by zeros.
- `C105_negation_observed`: C105, negation: without an observation set (observed series set by hand) the observed set of the discretization has no global labels, on any number of processes.
- `C105_negation_parallel`: C105, negation: on more than one process the predictions have `size` times as many labels as LUQ found, and no exception is raised.
- `C106_negation_globalize`: C106, negation: a second evaluation with `globalize=False` takes the inputs from the first discretization.
- `C106_negation_reuse`: C106, negation: sampling into the set of a discretization replaces its inputs, the outputs stay.
- `C106_negation_reused`: C106, negation: the sampler samples again into the set it was given; the first discretization, which had three pairs, has now two inputs and three outputs.
- `C107_negation_documented`: C107, negation: a model with the documented interface that does not accept vectors makes the call raise, whatever it raises for a vector (`IndexError` for `x[:, 0]`): the second attempt gives an array of shape (1, mdim), which is not accepted.
- `C107_negation_tuple`: C107, negation: a model that returns error estimates or Jacobians (a tuple) makes the call raise for every reference value.
- `C111_negation_stale`: After one evaluation the density no longer follows the probabilities: whatever probabilities the set is given, `pdf` answers with the old ones.
- `C112_negation_aligned`: It holds for the parts together, not process by process: after `global_to_local` the processes hold other parts of the outputs, and the parts of the pointer no longer belong to them.
- `C112_negation_replaced`: The claim needs its guard: give the discretization other outputs and both pointers stay those of the old ones.
- `C113_negation_crash`: Saving is not atomic: when a process is stopped after it has opened the file the object saved earlier under that name is gone and there is no new one.
- `C113_negation_mixed`: Two processes save to one file (a globalized save) and their objects differ, as objects with local arrays do. Both write everything, yet the file holds an object that no process had.
- `C114_negation_apart`: Processes that come apart after any number of common collectives: the one that is left at a collective never comes to an end, whatever the schedule.
- `C114_negation_hang`: `prob` when the local volumes of one process have the wrong length: it raises `IndexError`, and the other process waits in `allreduce` for ever, whatever the schedule.
- `C114_negation_left`: When one process has returned or raised and another one is at a collective, the other one waits for ever: no schedule brings it to an end.
- `C115_negation_alias`: A discretization made of the sets of another one is not a copy: a change through one shows in the other.
- `C117_negation_hang`: When the measure raises for every set of QoIs (as it does when there are more QoIs in a set than the input has dimensions) and there are fewer sets than processes, the process with the first set raises, but every process without a set waits for ever.
- `C117_negation_too_many`: Two QoIs, one input parameter, two processes, and sets of two QoIs are asked for: process 0 raises `ValueError`, process 1 waits in the barrier for ever.
- `C118_negation_global_to_local`: `global_to_local` that fails on the output set has already replaced the parts of the input set.
- `C118_negation_set_prob`: Without an output set `set_output_probability_set` raises, but the set is in place afterwards.
- `C118_negation_tree`: `set_io_ptr` raises because the points have the wrong number of coordinates, but it leaves a search tree behind; after other values are given the tree still answers for the old ones (the nearest of 7, 1 and 0 to the point 0 is the last).
- `C118_negation_volumes`: `prob_with_emulated_volumes` raises because the output cells have no probabilities, but the volumes the user had given are gone.
- `C119_negation_uneven`: `check_num` when the local arrays of one process do not fit together: that process raises, and the other one waits in `allreduce` for ever.
- `C120_negation_list`: A Python list for `rect_size` passes the checks, and `1.5 * rect_size` is computed on the root only: the root raises `TypeError` and the others wait in `Bcast` for ever.
- `C120_negation_missing`: Without a reference value the root of `uniform_partition_normal_distribution` raises `TypeError`, and the others wait in `Bcast` for ever.
- `C120_negation_missing_normal`: The same for `normal_partition_normal_distribution`.
- `C120_negation_std`: An array of standard deviations that is not as long as the reference value: the root of `uniform_partition_normal_distribution` raises `ValueError`, and the others wait for ever.
- `C123_negation_jacobians`: C123, negation: a model that returns too few Jacobians makes the call raise; the Jacobians stay in the set, whose number of samples cannot be determined from then on (it was 3 before). With `globalize=False` the global values are gone.
- `C123_negation_random`: C123, negation (and hypotheses of `C123_random`): another number of samples is drawn into a set with volumes; `random_sample_set` raises, the set is left with the new local and the old global values.
- `C124_negation_lengths`: `np.histogram` checks the lengths of the local arrays on each process alone. When they fit on process `i` and do not on process `j`, then process `j` raises and process `i` waits in `Allreduce` for ever.
- `C125_negation_model`: After calls that return, the model raises on process `j` in an evaluation that would return otherwise (`B'`), and does not raise on process `i`: process `i` never comes to the end of the program, whatever the schedule, with or without `globalize`. (With the processes in step the call raises, C123.)
- `C126_negation_latin`: Two processes that each draw a Latin hypercube, not the same one: under every schedule they come to the end, with the sample 1/4 twice, which is not Latin.
- `C127_negation_again`: For a family whose range is `[loc - scale, loc + scale]` (as `"semicircular"` and `"anglit"`, up to a factor) each call doubles the box: after `k` calls it is `[b - 2 ^ k (b - a), b]`, and the record is about distributions on that box.
- `C128_negation_radii_and_volume`: `estimate_radii_and_volume`: a process that has a point in every cell never comes to an end when another lacks a cell.
- `C129_negation_dump`: Without globalizing, a process whose pickle raises (an object that cannot be pickled, a full disk) leaves all processes that have nothing to complain about waiting for ever, whatever the schedule.
- `C130_negation_twins`: Without clear cells it fails: where a sample stands twice both cells have the relative volume one, but whatever is drawn the two volumes have the sum one.
- `C132_negation_clusters`: With several clusters the shares of the clusters among the accepted samples are not the weights of the clusters: each cluster is compared with its own largest ratio. Here 2/5 of the observed samples are in the first cluster, but of the 15/4 samples that are accepted on average 2 are in the first cluster, which is 8/15.
- `C134_negation_contour`: One sample in every cell of volume one, and the events are resolved. The exact probability of the cells of the first event is larger than the computed one by more than the upper bound for this event, because a part of the second event lies in these cells and the bound does not count it.
- `C134_negation_unresolved`: Here the model really sends the second sample, in an interior cell of the first event, to the second event: the error of the region is outside the bounds.
- `C142_negation_null`: If a cell has no volume in the domain, with probability one no call succeeds, however many points there are.
- `C144_negation_euclid`: Normalised, both always tend to zero.
- `C145_negation_euclid`: Normalised, the Euclidean distance and `norm` tend to zero for all densities.
- `C145_negation_norm`: Without normalisation, `norm` grows without bound whenever the densities differ.
- `C146_negation_quad`: In general the two functions disagree: for constant densities `s` and `t` the first tends to zero and the second gives `(b - a) s log (s / t)`, which is negative for `s < t`.
- `C146_negation_symm`: The Kullback-Leibler distance is not symmetric.
- `C147_negation_limit`: At random points `distance('mink', p=r)` with an order above one tends to zero whatever the densities are; only for order one does it tend to a distance of the densities, the mean of `|p - q|`.
- `C147_negation_marginal`: `distance_marginal` with `mink` (any order) grows without bound with the number of points whenever the marginals differ.
- `C147_negation_triangle`: For orders below one the triangle inequality fails.
- `C148_negation_scale`: The argument `scale` of `Lp_generalized_normal` is documented as the radius to scale the samples by. But the samples are not distributed like samples with scale one multiplied by the scale (unless `p` is one or the scale is one); they are distributed like samples multiplied by the `p`-th root of the scale.
- `C149_negation_radius`: If some ball does not reach all of its cell, the volume of every cell that is covered is overestimated, however many points are drawn.
- `C149_negation_shape`: If the sides of the domain have different lengths, the limits are not the volumes of the cells that queries find: cells are formed in coordinates relative to the domain.
- `C150_negation_all`: If this holds of all samples, for instance of both of two, the volumes are zero divided by zero.
- `C150_negation_two`: With two samples without positive radii there are no volumes, for every metric.
- `C150_negation_volume`: If a sample has no positive radius and all others have the same distance from it, its cell gets the volume zero, whatever is drawn.
- `C151_negation_normal_partition`: For every positive density of the points and all distinct samples, the probability of every cell of finite volume tends to zero with more and more emulated points, with probability one, although the cell has positive probability under the law of the points.
- `C152_negation_renormalized`: Where an old cell of positive probability contains no emulated point, `prob_from_sample_set_with_emulated_volumes` divides by what is left and can amplify a difference without bound: for every `ε` there are two probability vectors at distance `2 ε` whose results are at the largest distance there is, 2.
- `C153_negation_tie`: An output in the middle between two cells belongs to either, depending on the search; with a search that takes the first nearest point the order of the cells decides whether the sample has all the probability or none.
- `C154_negation_ranks`: One and two processes compute different probabilities.
- `C154_negation_total`: In the arithmetic of floating point numbers the probabilities of three samples of equal volume do not sum to one.
- `C156_negation`: The bounds of the second event are `nan` before the call for a region, and infinite and `-9/10` after it.
- `C157_negation_own_units`: For Voronoi cells a unit of its own for one coordinate changes the volumes: the sample near to a point is another one.
- `C158_negation_other_points`: **Negation, C158.** With other points for the transport the two ways need not agree.
- `C159_negation_radius`: If some ball does not reach all of its cell, the volume of every cell that is covered is overestimated, however many points are drawn.
- `C159_negation_ties`: **Negation, C159.** If two samples have a coordinate in common, a part of the domain of positive volume can be equally far from both, so the cells have no definite volumes.
- `C160_negation_unreached`: Probabilities of parts that are not reached are lost.
- `C161_negation_shares`: **Negation of C161 for the calls that take all clusters together.** Half of the data are in each of two clusters, but in the limit the first cluster gets a quarter.
- `C161_negation_weights`: **Negation of C161 with initial weights.** The initial weights are used for the predicted density but not for the result: half of the data are 0, but the samples with output 0 get three quarters of the weight. With the initial weights times the ratios it would be half.
- `C162_negation_lost`: **Negation of C162.** With as many copies as samples the weights can be lost entirely: the weights are 7 to 3, but both samples are used once, so that the mean is that without weights.
- `C164_negation_units`: The condition number and the measure do depend on the units of a single QoI, and so does what they prefer: of three perpendicular gradients the condition number prefers the first two, and the measure the first and the last; with the second QoI in a unit a third as large it is the other way round.
- `C171_negation_small`: However small the errors are, without a look at the contested samples nothing can be said: two outputs that differ by `2 ε` on the two sides of a border, and all probability is lost.
- `C173_negation_flat`: A large smoothing parameter does not flatten a marginal. If the probability is all in the first bin, the second half of the bins gets none of it, for every parameter from a twelfth of the range (and one more bin) on.
- `C173_negation_same`: A small smoothing parameter does not leave a marginal as it is: with an odd number of bins all the probability of a bin goes to the bin before it.
- `C176_negation_measure`: : with the tolerance 5 nothing is chosen of size 3 (all rows are infinite), although the three QoIs are unique and have the measure 1/10. The set of the first two has the measure 10 and is not extended.
- `C178_negation_flat`: Large parameters do not flatten a marginal: probability that is all in the first bin of both directions never reaches the second half of the bins in either direction.
- `C178_negation_same`: Small parameters do not leave a marginal as it is: with odd numbers of bins all the probability of a bin goes to the bin before it in both directions.
- `C179_negation_unreached`: If a part of positive probability is reached by no sample, its probability is lost, and the finer problem may teach less.
- `C180_negation_contradictory`: If no probabilities explain all the data, the probabilities need not converge.
- `C180_negation_once`: One round for each QoI is not enough: after the second the data of the first are not explained any more, although probabilities that explain both exist.
- `C181_negation_order`: Otherwise the order matters, and the second call can destroy the agreement with the data of the first.
