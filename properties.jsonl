{"id": "C01", "title": "Train/test split is a partition of the data", "statement": "split_ids_train_test(n, r) with 0 <= r <= 1 returns two strictly increasing index lists that are disjoint, together contain every index 0..n-1 exactly once, and whose training side has exactly round-half-even(n*r) members; with at least two test members the first and the last index are both test indices.", "quantifier": "every dataset size n and every ratio r in [0,1]", "why_tests_cant": "n and r are unbounded; the failure mode is a duplicate rounded grid point, which depends on the arithmetic relation between n and r and cannot be sampled exhaustively", "anchors": ["src/pypolymlp/core/utils.py: split_ids_train_test, split_train_test"]}
{"id": "C02", "title": "Splitting a list of files or ids loses nothing and keeps order", "statement": "split_train_test(files, r) returns two sublists of files, each in the original order, whose concatenation is a permutation of files.", "quantifier": "every list (with repetitions allowed) and every ratio in [0,1]", "why_tests_cant": "quantifies over all lists and ratios", "anchors": ["src/pypolymlp/core/utils.py: split_train_test", "src/pypolymlp/core/dataset.py: Dataset.split_files"]}
{"id": "C03", "title": "Splitting a DFT dataset keeps every structure with its own energy, forces and stress", "statement": "DatasetDFT.split partitions the structures into train and test datasets; the k-th structure of each side carries exactly the energy, the 3*N force rows and the 6 stress rows that belonged to it before the split.", "quantifier": "every dataset (any number of structures, any atom counts) and every ratio in [0,1]", "why_tests_cant": "an off-by-one in the prefix sums shows only for particular sequences of atom counts", "anchors": ["src/pypolymlp/core/dataset_utils.py: DatasetDFT.split, DatasetDFT._force_stress_ids"]}
{"id": "C04", "title": "Batches tile the dataset", "statement": "get_batch_slice(n, b) for b >= 1 yields consecutive half-open ranges which concatenate to 0..n-1, none larger than b; slicing a dataset over these ranges and concatenating gives the dataset back, with structure, energy, force and stress rows aligned in every batch.", "quantifier": "every n, every batch size b >= 1, every dataset", "why_tests_cant": "remainder batches and prefix offsets depend on unbounded n, b and atom counts", "anchors": ["src/pypolymlp/mlp_dev/core/utils_sequential.py: get_batch_slice", "src/pypolymlp/core/dataset_utils.py: DatasetDFT.slice"]}
{"id": "C05", "title": "Sorting a dataset is an alignment-preserving permutation", "statement": "DatasetDFT.sort orders structures by atom count and moves energy, force and stress rows together with their structure; no structure is lost or duplicated.", "quantifier": "every dataset", "why_tests_cant": "ranges over all datasets and all orders of atom counts", "anchors": ["src/pypolymlp/core/dataset_utils.py: DatasetDFT.sort"]}
{"id": "C06", "title": "Atomic energies are subtracted exactly once", "statement": "However a user loads, splits, slices, sorts and re-requests subtraction on a dataset, each structure's energy used in the regression equals the DFT energy minus the sum over types of (number of atoms of the type) * (atomic energy).", "quantifier": "every dataset and every history of dataset operations", "why_tests_cant": "the property is about histories: repeated subtraction only shows for particular sequences of calls", "anchors": ["src/pypolymlp/core/dataset.py: Dataset.subtract_atomic_energy, Dataset.parse_files, Dataset.split_dft, set_datasets_from_single_fileset", "src/pypolymlp/core/dataset_utils.py: DatasetDFT.apply_atomic_energy"]}
{"id": "C07", "title": "Sequential (batched) regression builds the same normal equations as the in-memory one", "statement": "For any division of the rows into batches, the accumulated X^T X, X^T y, y^T y, number of rows, column sums and column square sums equal those computed from the full matrix at once.", "quantifier": "every data matrix, every batch size, and every number of features relative to the block threshold", "why_tests_cant": "equality must hold for every batching, including a feature count equal to the threshold", "anchors": ["src/pypolymlp/mlp_dev/core/data_sequential.py: PolymlpDevDataSequential, calc_xtx_xty", "src/pypolymlp/mlp_dev/core/utils_sequential.py: sum_xtx, sum_large_xtx, symmetrize_xtx"]}
{"id": "C08", "title": "Blockwise accumulation plus symmetrisation equals the full product", "statement": "Accumulating only the upper block triangle of X^T X and mirroring it afterwards gives X^T X for every block size.", "quantifier": "every matrix, number of features, block size and number of accumulated batches", "why_tests_cant": "block boundary mistakes depend on n_features mod block size", "anchors": ["src/pypolymlp/mlp_dev/core/utils_sequential.py: sum_large_xtx, symmetrize_xtx"]}
{"id": "C09", "title": "The error reported during model selection is the mean squared residual", "statement": "compute_mse computed from X^T X, X^T y and y^T y equals the mean of (y - X c)^2, hence is never negative in exact arithmetic.", "quantifier": "every data matrix, target vector and coefficient vector", "why_tests_cant": "algebraic identity over all real inputs", "anchors": ["src/pypolymlp/mlp_dev/core/utils_model_selection.py: compute_mse"]}
{"id": "C10", "title": "Ridge path solves each requested penalty and restores the matrix", "statement": "solver_ridge presents A + alpha_i I to the linear solver for the i-th requested alpha, in any order of alphas, and leaves the caller's matrix A unchanged afterwards, also when some factorizations fail.", "quantifier": "every matrix, every non-empty list of alphas, every pattern of solver failures", "why_tests_cant": "the diagonal is updated incrementally, so the property is a loop invariant over arbitrary lists of alphas", "anchors": ["src/pypolymlp/mlp_dev/standard/solvers.py: solver_ridge"]}
{"id": "C11", "title": "Best model selection returns the minimum test error among the candidates", "statement": "get_best_model returns the coefficients of the first alpha with the smallest test error; no other candidate has a smaller one.", "quantifier": "every non-empty list of candidates", "why_tests_cant": "quantifies over all candidate lists and ties", "anchors": ["src/pypolymlp/mlp_dev/core/utils_model_selection.py: get_best_model"]}
{"id": "C12", "title": "Conjugate-gradient solver returns the iterate with the smallest residual it visited", "statement": "The coefficients returned by solver_cg are those of the visited iterate whose residual norm was smallest.", "quantifier": "every sequence of iterations", "why_tests_cant": "depends on the history of residuals; a non-monotone residual sequence is needed to see a violation", "anchors": ["src/pypolymlp/mlp_dev/gradient/solvers_cg.py: solver_cg"]}
{"id": "C13", "title": "Scaling and unscaling of features is transparent", "statement": "Every scale used as a divisor is non-zero, and predictions from raw features with coefficients/scales equal predictions from scaled features with the fitted coefficients.", "quantifier": "every scale vector, feature row and coefficient vector", "why_tests_cant": "zero or tiny scales are corner cases of an unbounded input space", "anchors": ["src/pypolymlp/mlp_dev/core/utils_scales.py: round_scales, compute_scales", "src/pypolymlp/mlp_dev/core/dataclass.py: PolymlpDataMLP.scaled_coeffs"]}
{"id": "C14", "title": "Regression weights are positive, bounded by one and never increase with the magnitude", "statement": "Energy weights take only the values weight*{1, 0.5, 0.3, 0.1}, force weights lie in (0, 1] and weight*|f| never exceeds max(1,...), stress weights lie in (0, weight_stress]; larger |force|, |stress| or energy never gets a larger weight.", "quantifier": "every energy, force and stress value and every minimum energy", "why_tests_cant": "real-valued inputs; monotonicity relates pairs of inputs", "anchors": ["src/pypolymlp/mlp_dev/core/utils_weights.py"]}
{"id": "C15", "title": "Rows of the design matrix line up with rows of the target vector", "statement": "The row layout used by the C++ feature generator (energies, then stresses, then forces per dataset) is injective, covers every row exactly once, and agrees with the offsets used by the Python weighting and slicing code.", "quantifier": "every list of datasets, with and without forces, with any atom counts", "why_tests_cant": "offset arithmetic must be right for every combination of datasets and atom counts", "anchors": ["src/pypolymlp/cxx/src/compute/py_model.cpp: PyModel::set_index", "src/pypolymlp/mlp_dev/core/features.py: _set_ebegin", "src/pypolymlp/mlp_dev/core/data_utils.py: PolymlpDataXY.slice"]}
{"id": "C16", "title": "Grouping atoms by element keeps positions and forces with their atoms", "statement": "permute_atoms returns the atoms grouped by the requested element order (stable inside each group); each output atom carries the element, position and force column it had on input.", "quantifier": "every structure and every duplicate-free element order covering its elements", "why_tests_cant": "all permutations of all structures", "anchors": ["src/pypolymlp/core/dataset_utils.py: permute_atoms"]}
{"id": "C17", "title": "Integer atom types agree with the element order of the potential", "statement": "replace_types assigns to each atom the index of its element in the potential's element list and raises an error exactly when some atom's element is not in the list.", "quantifier": "every structure and every duplicate-free element list", "why_tests_cant": "all element sequences", "anchors": ["src/pypolymlp/core/dataset_utils.py: replace_types", "src/pypolymlp/calculator/compute_features.py: update_types"]}
{"id": "C18", "title": "Reordering a structure by type keeps (element, position) pairs", "statement": "PolymlpStructure.reorder outputs atoms in non-decreasing type order, with per-type counts, and the multiset of (type, element, position) is unchanged.", "quantifier": "every structure whose type determines its element", "why_tests_cant": "all structures", "anchors": ["src/pypolymlp/core/data_format.py: PolymlpStructure.reorder", "src/pypolymlp/utils/structure_utils.py: sort_wrt_types"]}
{"id": "C19", "title": "Enabling spins doubles exactly the spin elements and keeps pair parameters consistent", "statement": "After enabling spins, each spin element occupies two consecutive types and every other element one; types are numbered without gaps, and every pair of new types has the pair parameters of the pair of elements it comes from.", "quantifier": "every element list, spin mask and pair-parameter table", "why_tests_cant": "all masks and sizes", "anchors": ["src/pypolymlp/core/data_format.py: PolymlpParamsSingle._set_params_spins, PolymlpModelParams.revise_params"]}
{"id": "C20", "title": "Active radial functions: every pair has parameters, the constant one is always kept", "statement": "set_active_gaussian_params returns for every unordered pair of types a strictly increasing list of valid indices that always contains the last (constant) function, and a Gaussian is active exactly when some given distance is within its window.", "quantifier": "every list of Gaussian parameters, number of types and distance table", "why_tests_cant": "real-valued distances and arbitrary tables", "anchors": ["src/pypolymlp/core/params_utils.py: set_active_gaussian_params"]}
{"id": "C21", "title": "Half neighbour list expands to the complete list", "statement": "Expanding the half list into the CSR full list gives for every atom i exactly the half entries (i->j,d) together with the reversed entries (j->i,-d), each once, and the offsets delimit exactly these entries.", "quantifier": "every number of atoms and every half list", "why_tests_cant": "CSR offset arithmetic over arbitrary degree sequences", "anchors": ["src/pypolymlp/cxx/src/compute/neighbor_half.cpp: NeighborHalf::get_full_list", "src/pypolymlp/cxx/src/compute/neighbor_full.cpp"]}
{"id": "C22", "title": "Half-list construction keeps exactly one of each pair of mutual neighbours", "statement": "Of every pair of mutual neighbour relations (i->j via v, j->i via -v) exactly one is stored, including periodic images of the same atom; so the symmetrised half list equals the full neighbour list. The arrays of the full list by type hold each neighbour once, under its type, in the order of the list.", "quantifier": "every structure whose translation set is closed under negation, with no image closer than the tolerance along all axes", "why_tests_cant": "real-valued geometry, arbitrary numbers of atoms and images", "anchors": ["src/pypolymlp/cxx/src/compute/neighbor_half.cpp: NeighborHalf", "src/pypolymlp/cxx/src/compute/neighbor_full.cpp: NeighborFull"]}
{"id": "C23", "title": "Cell reduction does not change the crystal", "statement": "The reduced axes generate exactly the same lattice as the input axes (and positions are re-expressed to the same points modulo the lattice), so energies cannot depend on it.", "quantifier": "every cell and any number of reduction steps", "why_tests_cant": "loop of integer column operations; invariant over all iterations", "anchors": ["src/pypolymlp/cxx/src/compute/neighbor_cell.cpp: NeighborCell::refine_axis, find_refine, standardize_positions"]}
{"id": "C24", "title": "No neighbour inside the cutoff is missed", "statement": "Every periodic image of every atom within the cutoff radius is visited by the neighbour search.", "quantifier": "every cell, cutoff and set of atomic positions accepted by the API", "why_tests_cant": "needs all cell shapes and all images; fails only for extreme shapes or unwrapped positions", "anchors": ["src/pypolymlp/cxx/src/compute/neighbor_cell.cpp: NeighborCell::find_trans"]}
{"id": "C25", "title": "Forces on all atoms sum to zero", "statement": "For every potential and structure, the forces returned by the evaluator add up to the zero vector (Newton's third law), independent of the order in which pairs are processed.", "quantifier": "every pair list and every pair force field, every processing order", "why_tests_cant": "sum over arbitrary pair lists; schedule independent", "anchors": ["src/pypolymlp/cxx/src/compute/polymlp_eval.cpp: PolymlpEval::collect_properties, eval_pair, eval_gtinv"]}
{"id": "C26", "title": "Derivative rows of polynomial features obey the product rule", "statement": "The derivative of every polynomial feature (order 1, 2, 3) with respect to any coordinate is the sum over factors of the factor's derivative times the remaining factors, so X_force rows are the exact derivatives of the X_energy rows.", "quantifier": "every vector of linear features, derivatives and polynomial terms", "why_tests_cant": "identity over all real inputs and all index triples (including repeated indices)", "anchors": ["src/pypolymlp/cxx/src/compute/model.cpp: Model::model_polynomial*, compute_deriv"]}
{"id": "C27", "title": "Polynomial features are enumerated exactly once", "statement": "combination2/combination3 produce every unordered pair/triple of selected linear features that share at least one centre type, each exactly once; the per-type index lists contain exactly those combinations valid for the type.", "quantifier": "every list of linear features and type lists", "why_tests_cant": "combinatorial enumeration of unbounded size", "anchors": ["src/pypolymlp/cxx/src/polymlp/polymlp_model_params_polynomial.cpp"]}
{"id": "C28", "title": "Fast evaluator and linear model give the same energy, forces and stress", "statement": "For pair-feature potentials the energy, forces and stress returned by the fast evaluator equal the coefficients times the rows of the design matrix used in regression.", "quantifier": "every structure (half list), coefficient vector and polynomial order up to 3", "why_tests_cant": "two different algorithms must agree for all inputs", "anchors": ["src/pypolymlp/cxx/src/polymlp/polymlp_potential.cpp: set_terms_using_mapping, compute_sum_of_prod_antp", "src/pypolymlp/cxx/src/compute/polymlp_eval.cpp: eval_pair"]}
{"id": "C29", "title": "Merging duplicate products does not change feature values", "statement": "The mapped representation of features (unique products with merged coefficients) evaluates to the same value as the original list of terms, for both storage layouts.", "quantifier": "every list of terms and every value assignment", "why_tests_cant": "all term lists with repetitions", "anchors": ["src/pypolymlp/cxx/src/polymlp/polymlp_features_mapping_utils.cpp"]}
{"id": "C30", "title": "Complex-conjugate bookkeeping of spherical-harmonic channels is correct", "statement": "For every (n, l, m, type pair) channel the stored conjugate index is the channel (n, l, -m, same pair), conjugation is an involution, and every channel is filled exactly once when the full array is reconstructed from the non-conjugate half.", "quantifier": "every number of radial functions, maximum l and type-pair table", "why_tests_cant": "index arithmetic over four unbounded dimensions", "anchors": ["src/pypolymlp/cxx/src/polymlp/polymlp_mapping.cpp: set_lm_attrs, set_nlmtp_global_attrs", "src/pypolymlp/cxx/src/polymlp/polymlp_api.cpp: compute_anlmtp_conjugate"]}
{"id": "C31", "title": "Unit conversion scales the energy of every potential", "statement": "After convert_unit(energy_conv, length_conv, length_inv) the potential is the same function in the new units: for a structure with all lengths multiplied by length_conv the energy and stress are multiplied by energy_conv and the forces by energy_conv / length_conv, for pair and invariant features alike.", "quantifier": "every potential and conversion factor", "why_tests_cant": "stated for all potentials; the feature types use different copies of the coefficients", "anchors": ["src/pypolymlp/cxx/src/polymlp/polymlp_api.cpp: PolymlpAPI::convert_unit", "src/pypolymlp/cxx/src/polymlp/polymlp_potential.cpp: Potential::convert_unit, compute_sum_of_prod_anlmtp"]}
{"id": "C32", "title": "Hybrid potentials: coefficients are divided without loss and predictions add up", "statement": "Slicing the concatenated coefficient vector at the cumulative feature counts and evaluating each part on its own features gives the same prediction as the concatenated model.", "quantifier": "every number of sub-models and every feature count", "why_tests_cant": "offset arithmetic over arbitrary numbers of models", "anchors": ["src/pypolymlp/core/io_polymlp.py: save_mlps", "src/pypolymlp/mlp_dev/core/dataclass.py: hybrid_division", "src/pypolymlp/calculator/properties_hybrid.py"]}
{"id": "C33", "title": "Hybrid models with partial element sets scatter forces to the right atoms", "statement": "For a sub-model that covers only some types, each active atom's contribution is added to that atom and inactive atoms get zero; renumbered types refer to the same elements.", "quantifier": "every structure and every subset of types", "why_tests_cant": "all subsets and orders of types", "anchors": ["src/pypolymlp/cxx/src/compute/py_hybrid_model.cpp: find_active_atoms", "src/pypolymlp/calculator/utils/properties_utils.py: find_active_atoms"]}
{"id": "C34", "title": "Files of a hybrid potential are found in model order", "statement": "Potential files written for a hybrid model are read back in the order in which they were written.", "quantifier": "every number of sub-models", "why_tests_cant": "fails only for ten or more files", "anchors": ["src/pypolymlp/core/io_polymlp.py: save_mlps, find_mlps"]}
{"id": "C35", "title": "A saved potential loads back to the same model", "statement": "Loading a saved potential file yields the same elements, cutoff, model type, polynomial and invariant orders, pair parameters and their conditional table, type information, and coefficients divided by scales.", "quantifier": "every parameter set", "why_tests_cant": "all parameter combinations (pair / invariant features, spins, hybrid)", "anchors": ["src/pypolymlp/core/io_polymlp_yaml.py: save_mlp_yaml, load_mlp_yaml"]}
{"id": "C36", "title": "Legacy potential files: every well-formed file loads, optional sections take their documented defaults", "statement": "load_mlp_lammps accepts a file with or without the optional trailing sections and returns full type information.", "quantifier": "every well-formed legacy file", "why_tests_cant": "absence patterns of optional sections and arbitrary trailing lines", "anchors": ["src/pypolymlp/core/io_polymlp_legacy.py: load_mlp_lammps"]}
{"id": "C37", "title": "Input file parsing: last value of a tag wins, data lines accumulate", "statement": "For every input file the value of a tag is that of its last line; every data-set line is kept in order; comments and short lines never change the result.", "quantifier": "every text file", "why_tests_cant": "all texts", "anchors": ["src/pypolymlp/core/parser_infile.py: InputParser"]}
{"id": "C38", "title": "Hybrid input parameters are made consistent", "statement": "Combining parameter sets of sub-models gives a common element list that contains every sub-model's elements, and each sub-model's type indices point to its own elements in the common list, in increasing order.", "quantifier": "every list of sub-model parameters", "why_tests_cant": "all subsets and orders of elements", "anchors": ["src/pypolymlp/core/params.py: set_common_params, PolymlpParams._set_unique_types"]}
{"id": "C39", "title": "String flags are parsed totally and case-insensitively", "statement": "strtobool maps exactly t/true/1 (any case) to True, f/false/0 to False and raises an error on anything else.", "quantifier": "every string", "why_tests_cant": "all strings", "anchors": ["src/pypolymlp/core/utils.py: strtobool"]}
{"id": "C40", "title": "Automatic dataset division assigns every structure to exactly one group and side", "statement": "auto-division by energy and force assigns each structure to exactly one group, and to exactly one of train/test inside it; higher groups only contain lower-energy or lower-force structures.", "quantifier": "every dataset and number of groups", "why_tests_cant": "all energy/force sequences", "anchors": ["src/pypolymlp/utils/dataset_divide_utils.py: _split, split_datasets, split_datasets_alloy"]}
{"id": "C41", "title": "Supercell expansion reproduces the same crystal", "statement": "A diagonal supercell contains for every atom and every lattice translation of the cell exactly one image with fractional coordinates in [0,1), the atom counts, types and elements are multiplied consistently, and cartesian points are unchanged modulo the supercell lattice.", "quantifier": "every structure and every supercell size", "why_tests_cant": "all sizes and structures", "anchors": ["src/pypolymlp/utils/supercell_utils.py: get_supercell"]}
{"id": "C42", "title": "Removing or swapping atoms keeps the structure arrays consistent", "statement": "remove, remove_atom and swap_elements keep positions, elements, types and n_atoms mutually consistent (sum of n_atoms equals number of atoms, types are the expansion of n_atoms).", "quantifier": "every consistent structure and valid index", "why_tests_cant": "all structures and indices", "anchors": ["src/pypolymlp/utils/structure_utils.py: remove, remove_atom, swap_elements, reset_types"]}
{"id": "C43", "title": "Pareto filter of grid search keeps exactly the non-dominated models", "statement": "A model is dropped if and only if another model is strictly better in time, energy error and force error; at least one model survives.", "quantifier": "every finite list of models", "why_tests_cant": "all lists; ties", "anchors": ["src/pypolymlp/utils/grid_optimal.py: _find_lower_convex"]}
{"id": "C44", "title": "Rotation to LAMMPS axes is an isometry and forces/stresses are rotated back", "statement": "triangularize_axis returns an upper triangular cell with the same metric, the rotation is orthogonal, and recovering forces and stresses inverts the rotation exactly.", "quantifier": "every non-singular right-handed cell", "why_tests_cant": "real-valued identity over all cells", "anchors": ["src/pypolymlp/calculator/utils/rotation_utils.py"]}
{"id": "C45", "title": "Harmonic force-constant evaluation is consistent", "statement": "eval_properties_fc2 returns energy = 1/2 u^T F u, forces = -F u, and its forces sum to zero when the force constants satisfy the acoustic sum rule.", "quantifier": "every force-constant matrix and displacement", "why_tests_cant": "real-valued identity", "anchors": ["src/pypolymlp/calculator/utils/fc_utils.py: eval_properties_fc2"]}
{"id": "C46", "title": "Learning-curve subsets contain exactly the rows of the first n structures", "statement": "PolymlpDataXY.slice(n) selects the energy, stress and force rows of the first n structures of the training set and nothing else, and the last point of the learning curve is the full training set.", "quantifier": "every single dataset and every n", "why_tests_cant": "offset arithmetic over all atom counts; small datasets", "anchors": ["src/pypolymlp/mlp_dev/core/data_utils.py: PolymlpDataXY.slice", "src/pypolymlp/mlp_dev/standard/fit.py: fit_learning_curve"]}
{"id": "C47", "title": "Conversion from phonopy cells keeps elements and types consistent", "statement": "phonopy_cell_to_structure yields a structure whose type integers identify the same element on every atom.", "quantifier": "every phonopy cell", "why_tests_cant": "fails only when atoms of an element are not contiguous", "anchors": ["src/pypolymlp/utils/phonopy_utils.py: phonopy_cell_to_structure"]}
{"id": "C48", "title": "Formation energies vanish at the end members and are linear in between", "statement": "The formation energy of an end-member structure is zero, and of any composition equals its energy minus the composition-weighted end-member energies.", "quantifier": "every set of linearly independent end members and every composition in their span", "why_tests_cant": "real-valued identity", "anchors": ["src/pypolymlp/calculator/utils/composition_utils.py: Composition"]}
{"id": "C49", "title": "Spin-resolved type numbers of a structure agree with the potential's types", "statement": "For a potential with spin-doubled elements, the types assigned to a structure read with spin channels are those the potential's parameters use for that element and spin.", "quantifier": "every structure, every pattern of spin-enabled elements", "why_tests_cant": "fails only for structures in which one spin channel is absent", "anchors": ["src/pypolymlp/core/dataset_utils.py: permute_atoms_with_spins", "src/pypolymlp/core/data_format.py: PolymlpParamsSingle._set_params_spins"]}
{"id": "C50", "title": "Loading calculations into a dataset keeps everything aligned", "statement": "Building a dataset from structures, energies, forces and stresses stores for every structure its own energy, its own 3N force entries (reordered exactly as its atoms are) and its own six stress entries, at the offsets later operations use.", "quantifier": "every list of calculations and every element ordering", "why_tests_cant": "offset arithmetic and per-structure permutations over unbounded lists", "anchors": ["src/pypolymlp/core/dataset_utils.py: DatasetDFT.__init__, permute_atoms"]}
{"id": "C51", "title": "Structure names survive loading", "statement": "Every structure of a loaded dataset still carries the file name it was read from.", "quantifier": "every list of structures", "why_tests_cant": "depends on which reordering path a structure takes", "anchors": ["src/pypolymlp/core/dataset_utils.py: permute_atoms", "src/pypolymlp/core/dataset.py"]}
{"id": "C52", "title": "Constant features never contribute to a fitted potential", "statement": "A feature whose scale is below the threshold gets coefficient zero in every regularised ridge solution (alpha > 0).", "quantifier": "every data set and every alpha > 0", "why_tests_cant": "universally quantified real-valued identity about the solution of a linear system", "anchors": ["src/pypolymlp/mlp_dev/core/utils_scales.py: round_scales", "src/pypolymlp/mlp_dev/standard/solvers.py: solver_ridge"]}
{"id": "C53", "title": "A regression that is singular for every alpha is reported", "statement": "If the linear system cannot be solved for any alpha, fitting raises an error instead of returning a model.", "quantifier": "every data set and every list of alphas", "why_tests_cant": "depends on the failure pattern of the solver over all alphas", "anchors": ["src/pypolymlp/mlp_dev/core/utils_model_selection.py: _check_singular, compute_rmse, get_best_model"]}
{"id": "C54", "title": "Data-set lines give each data set its own flags and role", "statement": "If the data sets of an input file are read without error, the training sets are those of the train_data lines, the test sets those of the test_data lines and the sets to be split those of the data and data_md lines, in order; each has the name, force flag and weight of its own line, restricted by the global flags; and no data set uses stresses without forces.", "quantifier": "every input file", "why_tests_cant": "ranges over all texts, interleavings of tags and optional fields", "anchors": ["src/pypolymlp/core/parser_polymlp_params.py: ParamsParserSingle.set_datasets, _get_force_tags", "src/pypolymlp/core/dataset.py: Dataset._set_attr"]}
{"id": "C55", "title": "Radial functions: every width with every centre, plus the constant", "statement": "set_gaussian_params returns all combinations of widths and centres in order followed by the constant function; with n_gaussians it returns exactly n_gaussians functions, the last one constant, the others of width parameter at least 1.", "quantifier": "every pair of grids, every number of Gaussians and cutoff", "why_tests_cant": "counts and positions for unbounded grids", "anchors": ["src/pypolymlp/core/params_utils.py: set_gaussian_params"]}
{"id": "C56", "title": "Names on the convex hull belong to their rows", "statement": "After computing formation energies, every row returned by convex_hull is labelled with the structure it was computed from or with the end member it stands for, and every end member has a row.", "quantifier": "every sequence of compute and convex_hull calls, with and without given names", "why_tests_cant": "the names depend on the history of calls", "anchors": ["src/pypolymlp/calculator/compute_formation_energies.py: PolymlpFormationEnergies.compute, convex_hull"]}
{"id": "C57", "title": "Forces and stress are exact derivatives of the energy", "statement": "For a pair-feature potential the forces returned for a structure are minus the gradient of the returned energy with respect to the atomic positions, and the stress components (xx, yy, zz, xy, yz, zx) are minus the derivatives of the energy with respect to a homogeneous strain; the energy is differentiable also when a pair crosses the cutoff radius.", "quantifier": "every structure without coinciding atoms, every displacement and strain direction, every pair potential with Gaussian radial functions", "why_tests_cant": "a derivative statement over all structures and directions; finite differences test single points", "anchors": ["src/pypolymlp/cxx/src/compute/polymlp_eval.cpp: PolymlpEval::eval", "src/pypolymlp/cxx/src/polymlp/polymlp_basis_function.h", "src/pypolymlp/cxx/src/polymlp/polymlp_functions_interface.cpp: get_fn_"]}
{"id": "C58", "title": "The C++ reader of potential files recovers the saved model", "statement": "The reader used by the C++ and LAMMPS evaluators, run on the text that save_mlp writes, returns the same elements, cutoff, model type, polynomial and invariant orders, pair parameters, table of pair parameters per pair of types and masses, and twice the coefficients divided by the scales.", "quantifier": "every parameter set with non-empty lists and every list of coefficients", "why_tests_cant": "a hand-written line parser over unbounded text", "anchors": ["src/pypolymlp/cxx/src/polymlp/polymlp_parse_potential.cpp: ParsePolymlpYaml, parse_polymlp", "src/pypolymlp/core/io_polymlp_yaml.py: save_mlp_yaml"]}
{"id": "C60", "title": "Spherical harmonics and their gradients are the textbook ones", "statement": "For every non-zero difference vector, at any distance and also along the z axis, the table of spherical harmonics used by the invariants holds Y_l^m of the direction with the normalisation and sign of Condon and Shortley, for all l up to the maximum; channels with m > 0 are obtained as (-1)^m times the conjugate; reversing the vector multiplies by (-1)^l; and the three derivatives computed with it are the partial derivatives of the values.", "quantifier": "every vector other than zero, every maximum l, every (l, m), every direction of change", "why_tests_cant": "recurrences over unbounded l with a coordinate singularity on the z axis; tests compare single points", "anchors": ["src/pypolymlp/cxx/src/polymlp/polymlp_spherical_harmonics.cpp: SphericalHarmonics::compute_ylm, compute_ylm_der", "src/pypolymlp/cxx/src/polymlp/polymlp_functions_interface.cpp: get_ylm_", "src/pypolymlp/cxx/src/polymlp/polymlp_mapping.cpp: set_lm_attrs"]}
{"id": "C59", "title": "The fast evaluator equals the linear model for polynomial invariants", "statement": "For a potential with polynomial invariants, the evaluator that works on the half neighbour list with derivative sums returns the same forces and all six stress components as the design matrix of the same structure times the coefficients, and the same energy unless the design matrix drops a product of expansion coefficients for being below its threshold.", "quantifier": "every structure, composition, coefficient vector, radial function set, table of invariants and polynomial model", "why_tests_cant": "two independent programs with different neighbour lists, index tables, conjugation and parity rules; equality must hold for all structures and models", "anchors": ["src/pypolymlp/cxx/src/compute/polymlp_eval.cpp: PolymlpEval::eval_gtinv, compute_sum_of_prod_anlmtp, collect_properties", "src/pypolymlp/cxx/src/compute/local.cpp: Local::gtinv_d, compute_anlmtp_d", "src/pypolymlp/cxx/src/compute/model.cpp: Model::run", "src/pypolymlp/cxx/src/polymlp/polymlp_potential.cpp", "src/pypolymlp/cxx/src/polymlp/polymlp_model_params_gtinv.cpp: uniq_gtinv_type", "src/pypolymlp/cxx/src/polymlp/polymlp_features_utils.cpp: set_linear_features_gtinv"]}
{"id": "C61", "title": "Polynomial invariants give no net force and no torque", "statement": "For a potential with polynomial invariants, the forces on the atoms of every structure add up to zero, and the forces on an isolated group of atoms exert no torque about any axis, whatever the coefficients; the same holds for every column of the design matrix.", "quantifier": "every structure, group of atoms, coefficient vector, radial function set, polynomial model and table of rotation invariants", "why_tests_cant": "a symmetry over continuously many configurations; tests look at a few of them", "anchors": ["src/pypolymlp/cxx/src/compute/polymlp_eval.cpp: PolymlpEval::eval_gtinv", "src/pypolymlp/cxx/src/compute/local.cpp: Local::gtinv_d", "src/pypolymlp/cxx/src/compute/model.cpp: Model::run", "src/pypolymlp/cxx/src/polymlp/polymlp_spherical_harmonics.cpp: SphericalHarmonics::compute_ylm_der"]}
{"id": "C62", "title": "Forces and stress of polynomial invariants are exact derivatives of the energy", "statement": "For a potential with polynomial invariants, Gaussian radial functions and the program's spherical harmonics, the forces returned for a structure are minus the gradient of the returned energy with respect to the atomic positions, and the six stress components are minus the derivatives of the energy with respect to a homogeneous strain, also when pairs cross the cutoff radius; the same holds column by column for the design matrix.", "quantifier": "every structure without coinciding atoms, every displacement and strain direction, every coefficient vector, polynomial model and table of rotation invariants", "why_tests_cant": "a derivative statement over all structures and directions; finite differences test single points", "anchors": ["src/pypolymlp/cxx/src/compute/polymlp_eval.cpp: PolymlpEval::eval_gtinv", "src/pypolymlp/cxx/src/compute/local.cpp: Local::gtinv_d", "src/pypolymlp/cxx/src/compute/model.cpp: Model::run", "src/pypolymlp/cxx/src/polymlp/polymlp_basis_function.h", "src/pypolymlp/cxx/src/polymlp/polymlp_spherical_harmonics.cpp"]}
{"id": "C63", "title": "The energy of polynomial invariants does not depend on the orientation", "statement": "Turning a structure (cell and atoms together) by any angle about any axis changes neither the energy of a potential with polynomial invariants nor any energy column of the design matrix.", "quantifier": "every structure, axis, angle, coefficient vector, radial function set, polynomial model and table of rotation invariants", "why_tests_cant": "a symmetry over continuously many orientations; the program works with the coordinates of one orientation", "anchors": ["src/pypolymlp/cxx/src/compute/polymlp_eval.cpp: PolymlpEval::eval_gtinv", "src/pypolymlp/cxx/src/compute/local.cpp: Local::gtinv_d", "src/pypolymlp/cxx/src/compute/model.cpp: Model::run", "src/pypolymlp/cxx/src/polymlp/polymlp_spherical_harmonics.cpp: SphericalHarmonics::compute_ylm"]}
{"id": "C64", "title": "A structure written to a POSCAR file is read back", "statement": "For a structure whose atoms are grouped as its numbers of atoms say, the file written by write_poscar_file is read by Poscar with the same numbers of atoms, the same elements in the same order, the axes and positions rounded to fifteen decimals, the group numbers as types and the first line as comment; reading, writing and reading again changes nothing.", "quantifier": "every such structure (empty groups included), every header and comment of one line", "why_tests_cant": "text formatting and parsing of unbounded data; tests use a few files", "anchors": ["src/pypolymlp/utils/vasp_utils.py: write_poscar_file", "src/pypolymlp/core/interface_vasp.py: Poscar"]}
{"id": "C65", "title": "Geometry optimization follows the gradient of the enthalpy", "statement": "If forces and stress are the derivatives of the energy, then every call of the target function returns the enthalpy of the structure with the given coordinates (it raises exactly for a huge negative energy or a huge volume), and the gradient read afterwards is the gradient of the enthalpy in these coordinates: positions, and cell or volume. This does not depend on the calls made before.", "quantifier": "every structure, evaluator, symmetry basis, pressure, point and history of calls of the minimizer", "why_tests_cant": "derivatives and histories; tests run a few optimizations and compare the results", "anchors": ["src/pypolymlp/calculator/opt_geometry.py: GeometryOptimization"]}
{"id": "C66", "title": "Coordinates of cells and positions in geometry optimization", "statement": "With symmetry, every vector of coordinates is a cell with the standard shape of the crystal system of the space group, every standard cell has coordinates and those computed at the start reproduce the given cell; the basis of the positions in fractional coordinates is the basis in Cartesian coordinates seen in the axes of the cell.", "quantifier": "every space group number, coordinate vector, standard cell and basis", "why_tests_cant": "continuously many cells and coordinates; reshapes and transpositions for any number of atoms and basis vectors", "anchors": ["src/pypolymlp/utils/spglib_utils.py: construct_basis_cell", "src/pypolymlp/utils/symfc_utils.py: _basis_cartesian_to_fractional_coordinates", "src/pypolymlp/calculator/opt_geometry.py: _set_initial_coefficients, _to_structure_relax_cell"]}
{"id": "C67", "title": "SSCHA iterations", "statement": "A run makes at least two and at most the given number of mixing steps, stops at the first score from the second step on that is not above the tolerance, and is reported as converged exactly when the last score is below the tolerance. The log has one entry per step; a converged run ends with an entry that has the properties of the returned force constants, and these agree with the fitted ones up to the tolerance and stopped changing. Several temperatures are run in order, each starting from the force constants of the one before. Preconditioning ends.", "quantifier": "every potential and every outcome of the random sampling, every tolerance, mixing parameter, number of iterations and list of temperatures", "why_tests_cant": "random samples and histories of iterations; a test sees one sequence of samples", "anchors": ["src/pypolymlp/calculator/sscha/sscha_core.py: SSCHACore.run, precondition, _single_iter, _convergence_score", "src/pypolymlp/calculator/sscha/api_sscha.py: _run_precondition, _run_target_sscha"]}
{"id": "C68", "title": "Mixtures of a reference and a final state", "statement": "The energy and the forces of the calculators used for thermodynamic integration go linearly from the reference (alpha = 0) to the final state (alpha = 1); the forces are minus the derivatives of the energy of the mixture; the reported energy difference is the derivative with respect to alpha; a harmonic reference agrees with the potential at the undisplaced structure. Results read after alpha was set belong to the new alpha.", "quantifier": "all potentials, force constants, structures, values of alpha and orders of setting alpha, moving atoms and reading results", "why_tests_cant": "real-valued inputs and histories of calls", "anchors": ["src/pypolymlp/calculator/utils/ase_calculator_ref.py: PolymlpRefASECalculator, PolymlpFC2ASECalculator, PolymlpGeneralRefASECalculator", "src/pypolymlp/calculator/md/api_md.py: alpha"]}
{"id": "C69", "title": "Averages of a molecular dynamics run", "statement": "Averages use only the samples after equilibration. The heat capacity is the mean square fluctuation of the energy over kT squared, never negative. The free energy by perturbation is -kT ln of the mean of exp(-dE / kT).", "quantifier": "all lists of samples and temperatures", "why_tests_cant": "real-valued samples of any number", "anchors": ["src/pypolymlp/calculator/md/ase_md.py: _calc_averages"]}
{"id": "C70", "title": "Thermodynamic integration", "statement": "The free energy difference is the integral of the mean energy difference over alpha, exact for polynomial dependence up to degree 2n - 1 with n states; the log goes from the reference to the final state in order of alpha; free energy, energy and entropy satisfy F = E - T S.", "quantifier": "all outcomes of the runs, numbers of nodes, upper limits of alpha and temperatures", "why_tests_cant": "random runs; all polynomials", "anchors": ["src/pypolymlp/calculator/md/api_ti.py: run_thermodynamic_integration", "src/pypolymlp/calculator/md/md_utils.py: get_p_roots, calc_integral"]}
{"id": "C71", "title": "Choice of the reference state", "statement": "Automatic selection of a reference returns a converged result without imaginary frequencies that has the lowest temperature of all such results and is not above the target temperature; it fails only if there is none.", "quantifier": "all sets of results files and target temperatures", "why_tests_cant": "every combination and order of files", "anchors": ["src/pypolymlp/calculator/md/md_utils.py: find_reference"]}
{"id": "C72", "title": "Elastic constants", "statement": "The computed elastic constants are the ones of the crystal, in Voigt notation and GPa, whenever the stress is linear in the strain up to even terms; they are symmetric and invariant under the space group for every potential.", "quantifier": "all potentials, unit cells, space groups, numbers of samples and strain amplitudes", "why_tests_cant": "all potentials and lattices; tests compare a few crystals with stored numbers", "anchors": ["src/pypolymlp/calculator/compute_elastic.py: PolymlpElastic.run, _symmetrize", "src/pypolymlp/utils/tensor_utils_O4.py: compute_projector_O4"]}
{"id": "C73", "title": "Polynomial fits of properties", "statement": "A polynomial fit of a thermodynamic property minimizes the weighted sum of squares over the requested family (polynomials with or without constant and linear terms, and possibly a square root), its derivative is the derivative of its value, and an automatic order has the lowest leave-one-out score of all candidates.", "quantifier": "all data, orders, families, weights and arguments", "why_tests_cant": "all data sets, including singular ones; tests compare a few stored fits", "anchors": ["src/pypolymlp/calculator/utils/fit_utils.py: Polyfit.fit, Polyfit.eval, Polyfit.eval_derivative, loocv"]}
{"id": "C74", "title": "Free energies and entropies on the common grid", "statement": "The grid of a thermodynamic analysis has, in increasing order, exactly the volumes (three decimals) with at least ten results of every kind of data given and the temperatures found in every kind; at every grid point each total free energy and entropy per atom is the sum of its contributions (SSCHA with static energy, electrons, electron-phonon, harmonic reference and thermodynamic integration), converted to eV per atom, and is missing exactly if a contribution is missing there.", "quantifier": "all sets of result files with any volumes, temperatures, numbers of atoms, failures, duplicates and missing kinds", "why_tests_cant": "all combinations of kinds, missing points and duplicates; tests use one complete data set", "anchors": ["src/pypolymlp/calculator/thermodynamics/thermodynamics_parser.py: load_yamls, _get_common_grid, _get_grid_data", "src/pypolymlp/calculator/thermodynamics/thermodynamics_grid.py: GridPointData.add, sum_grids, GridVT.copy_static_data", "src/pypolymlp/calculator/thermodynamics/thermodynamics_ref.py: calculate_reference_grid", "src/pypolymlp/api/pypolymlp_thermodynamics.py: PypolymlpThermodynamics.__init__"]}
{"id": "C75", "title": "Equilibrium entropies and heat capacities", "statement": "After a thermodynamic analysis, the entropy at a temperature is the value at the equilibrium volume of a best polynomial fit to all entropies at that temperature, and is missing exactly if there is no equilibrium (no equation of state, a volume above 1.2 times the largest volume or a bulk modulus below 1e-3); the heat capacity is T dS/dT by central differences in J/K/mol, and is undefined at the ends (zero at T = 0). A temperature without an equilibrium or with few volumes does not affect the others.", "quantifier": "all grids of volumes and temperatures with any missing values and any behaviour of the equation-of-state fit", "why_tests_cant": "all patterns of missing data and failed fits; tests use one complete data set", "anchors": ["src/pypolymlp/calculator/thermodynamics/api_thermodynamics.py: ThermodynamicsData._run_standard, Thermodynamics.eval_cp_numerical", "src/pypolymlp/calculator/thermodynamics/thermodynamics_utils.py: FittedModels", "src/pypolymlp/calculator/thermodynamics/thermodynamics_grid.py: GridVT.fit_entropy_volume, GridVT.fit_free_energy_volume"]}
{"id": "C76", "title": "Energy-volume curves and pressures", "statement": "An energy-volume calculation evaluates the unit cell at volume ratios that ascend, lie within the given bounds, begin at the lower bound and leave no hole of the size of the interval (a third of it between 0.9 and 1.1); each row has the volume and the energy of the cell scaled uniformly to that ratio, fractional positions unchanged; after any history of calculations the data and the equilibrium are those of the last one. The pressure is minus the slope of the free energy within the step of the difference, G = F + pV, exact for quadratic and antitone in the volume for convex free energies.", "quantifier": "all bounds, intervals, structures, potentials, histories of calculations, outcomes of fits, and free-energy functions", "why_tests_cant": "all bounds and histories, and all differentiable functions; tests compare one equilibrium volume", "anchors": ["src/pypolymlp/calculator/compute_eos.py: PolymlpEOS.run, PolymlpEOS._set_eps", "src/pypolymlp/utils/structure_utils.py: isotropic_volume_change", "src/pypolymlp/calculator/utils/eos_utils.py: EOS.eval_gibbs_pressure"]}
{"id": "C77", "title": "Generation of structures", "statement": "Structures generated with constant displacements have every atom moved by exactly the distance asked for, in an unchanged cell; sequential displacements and volume changes give one structure per supercell, distance and volume ratio; random distortions stay within the distance in every component; the supercell of the automatic choice has at most the allowed number of atoms (or is the unit cell) and is the first large enough of the nearly isotropic ones. Every call adds the number of structures asked for, tagged with their origin, and keeps earlier samples and the supercells; samples are saved to different files; displacements below half of the cell are read back exactly.", "quantifier": "all structures, numbers, distances, ratios, random numbers, and histories of calls", "why_tests_cant": "random numbers, cells and call orders are unbounded; tests check counts for one structure", "anchors": ["src/pypolymlp/api/pypolymlp_str.py: PypolymlpStructureGenerator", "src/pypolymlp/core/strgen.py: StructureGenerator, set_volume_eps_array, write_structures", "src/pypolymlp/core/displacements.py: generate_random_const_displacements, get_structures_from_displacements, convert_positions_to_disps"]}
{"id": "C78", "title": "Loading of thermodynamic-integration results", "statement": "Results of a simulation are dropped exactly if it failed, if more than a fifth of the sampling points show a melted state, or if the last three do; otherwise free energy, energy and entropy are those of the remaining sampling points in their order: the free energy is exact for quadratic integrands on any grid of coupling parameters, energies are relative to the first sampling point, F = E - TS, and extrapolated values continue linear data.", "quantifier": "all files, sampling points, displacements, temperatures and grids of coupling parameters", "why_tests_cant": "grids, melted patterns and supercell sizes are unbounded; tests load one file", "anchors": ["src/pypolymlp/calculator/thermodynamics/ti_utils.py: load_ti_yaml, _check_melting, _extrapolate_data, _get_free_energy, _get_energy, integrate"]}
{"id": "C79", "title": "Reported prediction errors", "statement": "The errors reported for a data set are the root-mean-square and mean absolute deviations of energies per atom, of all force components, and of all stress components per atom or volume; they are zero exactly for exact predictions, the mean absolute error never exceeds the root-mean-square error, errors of forces and stresses are absent exactly if the data set has none, and every data set has its own entry and its own file with one row per structure.", "quantifier": "all data sets with any numbers of structures and atoms, all potentials, names and units", "why_tests_cant": "sizes and names are unbounded; tests compare one number for one data set", "anchors": ["src/pypolymlp/mlp_dev/core/eval_accuracy.py: PolymlpEvalAccuracy.compute_error, compute_error_single, _generate_output_key", "src/pypolymlp/core/utils.py: rmse"]}
{"id": "C80", "title": "Histories of calls of the development object", "statement": "After any sequence of calls, some of which may fail, the reported coefficients are those of the last completed fit or loaded file, computed from the parameters and data that were set at that time; training and test data always come from the same last successful call; a fit without parameters or data raises RuntimeError and changes nothing; forces and stresses are used exactly if the parameters ask for them and the data have them; saved files hold the reported potential; and objects with parameters of their own do not influence each other.", "quantifier": "all histories of calls of any number of objects, all parameters, data, regression results and failures", "why_tests_cant": "histories and interleavings are unbounded; tests run one fixed sequence of calls on one object", "anchors": ["src/pypolymlp/mlp_dev/pypolymlp.py: Pypolymlp", "src/pypolymlp/core/params.py: PolymlpParams", "src/pypolymlp/mlp_dev/core/dataclass.py: PolymlpDataMLP", "src/pypolymlp/core/io_polymlp.py: save_mlps"]}
{"id": "C81", "title": "Histories of calls of the property calculator", "statement": "Whatever was called before, evaluating structures returns the potential's values of exactly these structures in their order, or the exception of the first structure that cannot be evaluated. After any history the reported energies, forces and stresses belong to one list of structures, and the stresses in GPa use the volumes of the same structures. Elastic constants, equations of state and quasi-harmonic results are those of the last calculation of that kind for its own cell and arguments; phonons and optimizations are those of the cell with which they were prepared last; the final structure of an optimization becomes the structure. The reported values are those of the reported structures.", "quantifier": "all histories of calls with all arguments and failures, all potentials, all calculations that evaluate structures", "why_tests_cant": "histories are unbounded and every calculation writes to a shared object; tests make one call after construction", "anchors": ["src/pypolymlp/api/pypolymlp_calc.py: PypolymlpCalc", "src/pypolymlp/calculator/properties.py: Properties, initialize_polymlp_calculator", "src/pypolymlp/calculator/utils/properties_utils.py: convert_stresses_in_gpa"]}
{"id": "C82", "title": "Force constants from a potential", "statement": "Displacements and forces of a wrong shape are refused and change nothing. A run with given or sampled displacements fits exactly these displacements to the differences between the forces of the displaced supercells and of the supercell itself, in the same order, or to the forces that are given. After any history the force constants of an order are those of the last successful run asked for that order, and they are what is saved; missing data raise RuntimeError.", "quantifier": "all histories of calls, all displacements and forces of any number of samples and atoms, all potentials and solvers, all failures", "why_tests_cant": "histories are unbounded and the solver accepts any pair of arrays of the same shape; tests run one fixed sequence", "anchors": ["src/pypolymlp/calculator/fc.py: PolymlpFC", "src/pypolymlp/api/pypolymlp_calc.py: PypolymlpCalc.run_fc"]}
{"id": "C83", "title": "Grid of models", "statement": "`set_params` accepts exactly the requests that can be met. `set_params` and `run` on a new object list exactly the models of the request: every combination of a radial setting with a polynomial order or with an invariant setting in the ranges asked for, each once. After any history of calls every listed model belongs to some request made, and models are never removed or reordered. Hybrid models pair each listed model, in order, with two second models. Saving writes every model to a file of its own, and the input parser reads that file back to the same parameters.", "quantifier": "all requests, elements, tables of sizes, histories of calls, lists of models, directories, and ways of writing numbers that can be read back", "why_tests_cant": "the enumeration is a product of ranges of any length and depends on all arguments together; a test compares a count for one request", "anchors": ["src/pypolymlp/utils/grid_search/api_grid_search.py: PolymlpGridSearch", "src/pypolymlp/utils/grid_search/grid_utils.py: ParamsGrid", "src/pypolymlp/utils/grid_search/grid_enum.py", "src/pypolymlp/utils/grid_search/grid_io.py: save_params", "src/pypolymlp/core/parser_polymlp_params.py: ParamsParserSingle.set_params"]}
{"id": "C84", "title": "Results of VASP", "statement": "Reading a list of files gives exactly the records of the files, in order: nothing for a calculation of which the last two energies differ by 1 meV or more, one record for another single calculation, one per step for molecular dynamics; the i-th structure, energy, forces and stress are of the same record, and the stress is the tabulated one times the volume in eV. A compressed file of a calculation or of molecular dynamics, as VASP writes them, is read to the same energies, forces, stresses, structures and convergence as the original file.", "quantifier": "all lists of files, all documents of any depth and order of elements, all conversions of text to numbers", "why_tests_cant": "documents are arbitrary trees and searches take the first of many elements; a test reads a few files written by one version of VASP", "anchors": ["src/pypolymlp/core/interface_vasp.py: parse_properties_from_vaspruns, Vasprun, VasprunMD, check_vasprun_type, VaspErrorCheck", "src/pypolymlp/utils/vasprun_compress.py: compress_vaspruns, compress_vaspruns_md"]}
{"id": "C85", "title": "Results of OpenMX", "statement": "A file is read exactly if it is a sequence of steps, each with the number of its atoms, a header with the energy and nine axis numbers and a line per atom; the i-th structure, energy and forces are of the i-th step, fractional positions times the axes are the positions of the file, atoms are in the order of the file with types numbered in the alphabetical order of the elements; there is one reading only, and a file made of two files is read to the steps of the first followed by those of the second.", "quantifier": "all files, all conversions of text to numbers", "why_tests_cant": "files have any number of steps and atoms; a test reads one file", "anchors": ["src/pypolymlp/core/interface_openmx.py: parse_openmx, parse_single_openmx"]}
{"id": "C86", "title": "Structures and properties in yaml files", "statement": "A structure, a pair of unit cell and supercell (with number of unit cells and matrix) and a structure with energy, forces and stress that are saved are read again unchanged, whatever else is in the file; a list of property files gives structures, energies, forces and stress tensors in the order of the files, with the saved components; electronic data have one value per file, at the temperature that was asked for, or there is no data set.", "quantifier": "all structures that the structure class accepts, all values, all lists of files", "why_tests_cant": "values and lengths are unbounded, and files can have entries in any order; a test saves one structure", "anchors": ["src/pypolymlp/utils/yaml_utils.py: save_cell, save_cells, save_data, load_cell, load_cells, load_data", "src/pypolymlp/core/interface_yaml.py: parse_property_yamls, extract_electron_properties, set_dataset_from_electron_yamls"]}
{"id": "C87", "title": "Files of results of SSCHA", "statement": "A list of saved calculations gives a data set of those that converged, in order: with symmetrized properties the unit cell named by its file, its free energy in eV, the projected forces of every n-th atom and the projected stress, and else the supercell with n times the free energy, the average forces and n times the average stress. An opened calculation has the saved cell, matrix and values, and after any history of settings of the unit its energies, entropies and volume are given in the last valid unit. Saving fails only without an iteration or a supercell matrix; the split by imaginary frequencies puts every file into one list, in order.", "quantifier": "all calculations, all lists of files, all histories of units, all projections", "why_tests_cant": "values, lengths and histories are unbounded; a test opens one file", "anchors": ["src/pypolymlp/calculator/sscha/sscha_io.py: save_sscha_yaml", "src/pypolymlp/calculator/sscha/sscha_data.py: SSCHAData", "src/pypolymlp/calculator/sscha/sscha_restart.py: Restart", "src/pypolymlp/calculator/sscha/sscha_utils.py: symmetrize_properties", "src/pypolymlp/core/interface_yaml.py: parse_sscha_yamls, split_imaginary"]}
{"id": "C88", "title": "Samples of the harmonic density matrix", "statement": "For symmetric force constants and positive masses the frequencies are those of the normal modes, negative exactly for unstable ones. The samples of a temperature are displacements along normal modes with the variances of quantum oscillators (0.01 for frequencies below 0.1 THz); their covariance and mean harmonic energy are those of the density matrix, and the mean potential energy of a mode lies between kT/2 and kT/2 + hf/4 (hf/4 at zero temperature). Exactly the samples that are no outliers are kept, each with its energy, forces, stress and harmonic energy; average forces and stress are means of the differences from the harmonic ones minus the static values, the average anharmonic potential is the average potential minus the harmonic one, and all of these vanish for a harmonic potential, whatever was drawn. The constants of the code are those of SI units.", "quantifier": "all numbers of atoms, force constants, masses, temperatures, numbers of samples, potentials, drawn numbers and solvers", "why_tests_cant": "sizes, values and random numbers are unbounded; a test sees one draw of one crystal", "anchors": ["src/pypolymlp/calculator/sscha/harmonic_real.py: HarmonicReal", "src/pypolymlp/calculator/sscha/sscha_distribution.py: SSCHADistribution", "src/pypolymlp/core/units.py: KbEV"]}
{"id": "C89", "title": "Parameters and sessions of SSCHA", "statement": "A single temperature is used alone; integer limits and steps give exactly the temperatures from the minimum to the maximum in the order asked for; a number of temperatures gives the integers nearest to the Chebyshev nodes, from the minimum to the maximum. A run needs a potential, a structure and a supercell matrix and is refused without them; a successful run is one calculation with what was asked for, with the given numbers of samples or those derived from the basis set, starting from the force constants of the session or else from the algorithm asked for, and a failed run changes nothing but the parameters shown. With a temporary cutoff the calculation starts from the force constants of one with a cutoff of 6 and has the given cutoff. After any history the force constants are those of the last successful run or restart. A restart reads force constants from the directory of its file. The free energy of a structure is that of a calculation for it, and structures evaluated together have the free energies they have alone.", "quantifier": "all temperatures, numbers, cells, matrices, calculations and histories of operations", "why_tests_cant": "values and histories are unbounded; a test runs one session with one structure", "anchors": ["src/pypolymlp/calculator/sscha/sscha_params.py: SSCHAParams", "src/pypolymlp/api/pypolymlp_sscha.py: PypolymlpSSCHA", "src/pypolymlp/calculator/sscha/api_sscha.py: run_sscha", "src/pypolymlp/calculator/sscha/sscha_core.py: SSCHACore", "src/pypolymlp/calculator/sscha/api_properties.py: PropertiesSSCHA"]}
{"id": "C90", "title": "Structures and results handed to ASE", "statement": "A structure can be given to ASE exactly if its elements are known; the atoms have its axes, elements and Cartesian positions in the same order. A structure that comes back has the same axes, elements and order, its positions are the same sites wrapped into the cell, and its types follow the elements if atoms of an element are listed together; atoms converted there and back differ by lattice translations only. The calculator stores the energy and forces that the potential has for the structure. Displacements from the structure of a harmonic reference are the true ones as long as they are less than half of the axes, also if atoms have left the cell.", "quantifier": "all structures with nonsingular axes, all tables of elements, all potentials that depend on axes, elements and sites", "why_tests_cant": "a test converts a few structures; wrapping, order of elements and displacements vary continuously", "anchors": ["src/pypolymlp/calculator/utils/ase_utils.py: structure_to_ase_atoms, ase_atoms_to_structure", "src/pypolymlp/calculator/utils/ase_calculator.py: PolymlpASECalculator.calculate", "src/pypolymlp/calculator/utils/ase_calculator_ref.py: convert_atoms_to_str"]}
{"id": "C91", "title": "Sessions of molecular dynamics", "statement": "A simulation needs a structure and a calculator; it is one run of the dynamics with the calculator and the atoms of the session. What is shown afterwards (energies, averages after equilibration, forces and trajectories of every so many steps) is that of the last simulation that was started, after any history, and the next simulation starts from the atoms left. Calculators are the ones asked for, and are refused for force constants with imaginary frequencies or of the wrong size and for mixing parameters outside of zero and one. Files have the conditions and averages of the simulation. A thermodynamic integration is a sequence of simulations at the nodes and at both ends, its free energy is the quadrature of the mean differences, and energy, entropy and free energy belong together.", "quantifier": "all histories of operations, all dynamics, structures, potentials, arguments and quadratures", "why_tests_cant": "a test runs a few calls in one order with one random seed; the claim is about every order of calls and every outcome of the dynamics", "anchors": ["src/pypolymlp/calculator/md/api_md.py: PolymlpMD", "src/pypolymlp/api/pypolymlp_md.py: PypolymlpMD", "src/pypolymlp/calculator/md/ase_md.py: IntegratorASE", "src/pypolymlp/calculator/md/api_ti.py: PolymlpTI"]}
{"id": "C92", "title": "Averages over disordered structures", "statement": "An occupancy is accepted exactly if the probabilities of every sublattice add up to one, only types of the potential are named, and all of them are. For every choice of random numbers, a random structure is the lattice with every element as often on every sublattice as the occupancy says, atoms listed type by type; if the rounded numbers exceed the sites, ValueError is raised. The properties of a lattice are averages over all random structures, with forces at the sites of the lattice; batches of samples are added until the average energy per atom changes by no more than the tolerance or the number of iterations is reached. After any history an evaluation gives the averages for each displaced lattice, and each is saved with its lattice in a file of its own.", "quantifier": "all occupancies, lattices, potentials, random choices, tolerances and histories of operations", "why_tests_cant": "the structures are random: a test sees a few of them", "anchors": ["src/pypolymlp/postproc/disorder.py: PolymlpDisorder", "src/pypolymlp/postproc/disorder_utils.py: set_full_occupancy, generate_substitutional_structures, eval_substitutional_structures"]}
{"id": "C93", "title": "Files of thermodynamic properties, transitions and phase boundaries", "statement": "Saved thermodynamic properties are loaded with the same temperatures, equilibrium volumes, bulk moduli, free energies, entropies, heat capacities and points, and with the table of fitted free energies and Gibbs free energies over the range of volumes; each of the nine kinds of properties has its file and no other file is touched. A transition temperature is what the solver finds for the difference of the two piecewise linear free-energy curves, started at what it finds for the best straight lines; if the solver finds zeros, the two free energies are equal there, and a single crossing inside the data is located by linear interpolation. A phase boundary lists, in increasing order, the pressures of the grid from zero to 0.8 times the lower of the highest pressures with positive transition temperatures of the Gibbs free energies fitted by least squares at each temperature.", "quantifier": "all sources of thermodynamic data, files, solvers, curves, intervals and orders of polynomials", "why_tests_cant": "a test checks a few phases and a few pressures", "anchors": ["src/pypolymlp/calculator/thermodynamics/thermodynamics_io.py: save_thermodynamics_yaml, load_thermodynamics_yaml", "src/pypolymlp/calculator/thermodynamics/transition.py: find_transition, compute_phase_boundary", "src/pypolymlp/api/pypolymlp_thermodynamics.py: PypolymlpTransition"]}
{"id": "C94", "title": "Neighbours and distances of structures", "statement": "The neighbour list of a structure has, for every atom and every type, each atom of this type and each periodic image of it that is further away than 1e-10 and nearer than the cutoff, once, with its distance; nothing else is ever listed. The minimum distance is the least distance between different atoms or images, and with each_atom the least distance of each atom to each type. Coordination numbers count these neighbours. Active distances are, for each pair of elements, the distances within the cutoff, rounded, each once and in increasing order. The structure is left as it was.", "quantifier": "all structures, cutoffs and numbers of digits; all orders in which a set is read", "why_tests_cant": "a test checks a few crystals in standard settings and cannot see a neighbour that is missing in a skewed cell", "anchors": ["src/pypolymlp/utils/structure_neighbor.py: compute_neighbor_list, find_minimum_distance, find_active_distances, get_coordination_numbers", "src/pypolymlp/cxx/src/compute/neighbor.cpp: Neighbor::Neighbor"]}
{"id": "C95", "title": "Refined, standardized and reduced cells", "statement": "Refining or standardizing a cell gives the cell that the symmetry finder found: its axes, and its atoms sorted by type, each with its element, and the number of atoms of each type; no atom is lost or invented. If nothing is found an error is raised. Reducing a cell with axes of the same lattice describes the same crystal: the atoms keep order, types and elements, lie in the new cell, and the cell volume is the same; the transformation matrix and the metric belong to the new axes. A structure with other axes is refused.", "quantifier": "all structures, precisions and methods; every result of the symmetry finder", "why_tests_cant": "tests check a few crystals for which spglib returns the atoms in order", "anchors": ["src/pypolymlp/utils/spglib_utils.py: SymCell, standardize_cell, ReducedCell", "src/pypolymlp/api/pypolymlp_utils.py: init_symmetry, refine_cell"]}
{"id": "C96", "title": "Random structures that keep the symmetry", "statement": "Sampling with symmetry gives exactly the number of structures asked for, with the atoms of the cell (standardized unless the axes are fixed) wrapped into it. Every sample has axes of the shape of the crystal system, no entry of which is changed by more than max_deform, or exactly the given axes if they are fixed; atoms move only along symmetric displacements, with coefficients of at most max_distance, or not at all if fixed. Sampling succeeds unless linearly dependent axes can be drawn. Volume samples are evenly spaced in the ratio of the volume. Each sampling of a session replaces the earlier samples; saving writes every sample to its own numbered file and touches no other.", "quantifier": "all structures, numbers of samples, magnitudes and random numbers; any sequence of runs; all contents of the directory", "why_tests_cant": "tests draw a few samples with one seed for one crystal and count them", "anchors": ["src/pypolymlp/core/strgen_sym.py: StructureGeneratorSym", "src/pypolymlp/api/pypolymlp_sscha_str.py: PypolymlpSSCHAStructureGenerator", "src/pypolymlp/utils/structure_utils.py: multiple_random_deformation"]}
{"id": "C97", "title": "Normalized positions", "statement": "Normalizing the positions of a structure gives the same structure: the atoms reordered within their kinds, under one common shift of the origin, up to integers and the rounding, inside the cell around the origin. The result does not depend on the order of the atoms of one kind, nor on the origin for positions on the grid of the rounding. Structures with the same result are the same structure up to order, one shift, integers and the rounding. A structure without atoms raises ZeroDivisionError.", "quantifier": "all positions, numbers of atoms of each kind, decimals and tolerances not above the grid; all shifts on the grid and all orders", "why_tests_cant": "the file has a driver that prints a few results of one structure", "anchors": ["src/pypolymlp/calculator/utils/structure_matcher/matcher.py: normalize_positions"]}
{"id": "C98", "title": "The command line for calculations", "statement": "`pypolymlp-calc` runs the calculations that are asked for in a fixed order, each for the structures in the given files, and stops at the first that fails. A file is written exactly when its calculation is asked for and possible and so is everything asked for before it; it then contains the result for the given files, whatever else is asked for and whatever files were there; all other files stay. The command succeeds exactly when a potential or an input file is given and all that is asked for is possible.", "quantifier": "all combinations of options, all contents of the directory, all potentials and calculations (also failing ones)", "why_tests_cant": "2^8 combinations of modes with failures at any point; the repository has no tests of the command lines", "anchors": ["src/pypolymlp/api/run_polymlp_calc.py: run_calculations, check_variables, run", "src/pypolymlp/api/common_args.py: create_mode_parser", "src/pypolymlp/api/pypolymlp_calc.py: load_structures_from_files, save_poscars"]}
{"id": "C99", "title": "The command line for developing potentials", "statement": "`pypolymlp` reads the input files, lists the features, computes the learning curve if it is asked for, fits the potential (by conjugate gradients if they are asked for), writes it and its errors for training and test data, and stops at the first that fails. Each file is written exactly when what it has to contain exists and everything before it could be done; its content is determined by the input files; all other files stay. In particular the parameters are those of the input files for the type of data of the first, the potential is fitted to all training data, and with a learning curve the same potential and errors are written as without.", "quantifier": "all input files and options, all contents of the directory, all regressions (also failing ones), single and hybrid models of any number of components", "why_tests_cant": "failures at any point, any number of components; the repository has no tests of the command lines", "anchors": ["src/pypolymlp/api/run_polymlp.py: run", "src/pypolymlp/mlp_dev/pypolymlp.py: load_parameter_file, save_params, save_mlp, save_errors", "src/pypolymlp/core/io_polymlp.py: save_mlps", "src/pypolymlp/core/params.py: PolymlpParams"]}
{"id": "C100", "title": "Atomic energies for an input file", "statement": "The energies of isolated atoms that are given for a list of elements or for a chemical formula are those of the table of the requested functional, in the order of the elements; elements without an entry and functionals without a table are refused. A formula written from elements and numbers gives its elements in order. The text printed for the input file is read back by the program as the number of types, the elements and their energies.", "quantifier": "all lists of elements, all formulas, both tables, whatever follows in the input file", "why_tests_cant": "all strings are possible formulas; the tests do not call the function", "anchors": ["src/pypolymlp/utils/atomic_energies/atomic_energies.py: get_elements, get_atomic_energies, get_atomic_energies_polymlp_in", "src/pypolymlp/utils/atomic_energies/energies_vasp_PBE.dat", "src/pypolymlp/core/parser_infile.py: InputParser"]}
{"id": "C101", "title": "Electronic properties at finite temperatures", "statement": "The table of electronic properties has a row for each multiple of the interval from 0 K to the maximum temperature. In each row the free energy is the energy minus temperature times entropy, and energies are relative to 0 K. The specific heat is the derivative of the energy with respect to temperature at a fixed number of electrons. The table of dir/vasprun<tag>.xml is written to dir/electron<tag>.yaml and no other file changes.", "quantifier": "all eigenvalues, weights, chemical potentials and temperatures; all names of files and any number of them", "why_tests_cant": "an identity of derivatives for all spectra; the source says \"Results must be tested\"", "anchors": ["src/pypolymlp/utils/vasp_utils.py: ElectronProperties", "src/pypolymlp/api/pypolymlp_utils.py: PypolymlpUtils.compute_electron_properties_from_vaspruns"]}
{"id": "C102", "title": "Numbers and combinations of polynomial invariants", "statement": "The number of polynomial invariants computed for a combination of angular momenta is the number of ways to couple them to the total angular momentum asked for (equivalently the number of products of spherical harmonics with total component L minus those with L+1). The enumeration of an order visits each ascending combination up to the maximum angular momentum with an invariant, an even sum and a member that reaches the minimum, once and no other. Matrix indices and components are in one-to-one correspondence.", "quantifier": "all combinations of any length and any angular momenta; all maximum and minimum angular momenta and orders", "why_tests_cant": "the number comes from a rounded numerical integral; equality with a combinatorial count for all combinations is a theorem of representation theory", "anchors": ["src/pypolymlp/polyinv/polyinv_utils.py: get_l_combs, num_basis, chi, chi_prod, lm_to_matrix_index, matrix_index_to_lm", "src/pypolymlp/polyinv/api_polyinv.py: run_enum, run_enum_single_order, solve"]}
{"id": "C103", "title": "The projector of polynomial invariants", "statement": "For two or more angular momenta with an even sum, the matrix built in parallel is the same for every order of the writes: its entry for two rows of components is the sum over couplings of products of amplitudes. It is symmetric and equal to its square, and its trace is the number of invariants that the enumeration announces. The rows are all components with total zero, each once. No thread inserts a key into a shared table.", "quantifier": "all angular momenta, any number of them; all orders of the writes; all coefficients that vanish outside the triangle condition, have the reflection symmetry and are orthonormal", "why_tests_cant": "only a quarter of the entries is computed and the rest filled by symmetry, in parallel; that all entries are covered with the right value, for every schedule, is not visible in examples", "anchors": ["src/pypolymlp/polyinv/cxx/src/projector/projector.cpp: build_projector, order2 ... order8, set_inter_prod_first, set_inter_prod, set_final_prod, assign_core", "src/pypolymlp/polyinv/cxx/src/projector/precondition.cpp: Precondition, lm_to_matrix_index, check_sum", "src/pypolymlp/polyinv/projector.py: build_projector"]}
{"id": "C104", "title": "Symmetrized forces and stress tensors", "statement": "The symmetrized stress of an SSCHA calculation is the average of the rotated stresses: it is invariant under every rotation of the structure, it has the same pressure, it is the given one if that has the symmetry, and no symmetric tensor is closer to the given one. The symmetrized forces are the closest ones that are invariant under the operations and have no drift; the forces reported for the atoms of the unit cell are those of each of their copies, and they sum to zero. Evaluation returns the symmetrized sum of static and average parts.", "quantifier": "all axes, all finite lists of rotations closed under products, all stresses, all supercells, all operations on them, all forces", "why_tests_cant": "an error in the order of tensor components or in the choice of representatives shows only for structures of low symmetry with certain operations", "anchors": ["src/pypolymlp/utils/tensor_utils_O2.py: compute_projector_O2, compute_spg_projector_O2, compute_perm_projector_O2", "src/pypolymlp/utils/symfc_utils.py: compute_projector_cartesian", "src/pypolymlp/calculator/sscha/sscha_utils.py: symmetrize_properties", "src/pypolymlp/calculator/sscha/api_properties.py: PropertiesSSCHA.eval"]}
{"id": "C105", "title": "Automatic calculations for prototypes", "statement": "Whatever was calculated before with the same object: after a run without exception every prototype has, in its place, either its own report (energy and volume per atom of its optimum, equation of state of that optimum, elastic constants and phonons of the optimum as read from its file) or, if its optimization does not succeed, no change. The report is the same as for the prototype alone. An exception leaves the later prototypes untouched. Names are all different, so that files are not overwritten; a file is written exactly for prototypes with an equilibrium structure. Cells from first principles are those of the last file with the ID of the prototype.", "quantifier": "all potentials and calculations, all states of the object, all lists of prototypes, all elements", "why_tests_cant": "one object is shared by all steps and its structures are replaced by optimizations and by reading a file; that no state leaks from one prototype to the next holds for all histories or not at all", "anchors": ["src/pypolymlp/calculator/auto/autocalc_prototypes.py: AutoCalcPrototypes.run, set_dft_properties, load_structures, save_properties", "src/pypolymlp/calculator/auto/autocalc_utils.py: Prototype", "src/pypolymlp/calculator/auto/structures_element.py: get_structure_list_element", "src/pypolymlp/calculator/auto/structures_binary.py: get_structure_list_binary"]}
{"id": "C106", "title": "Automatic comparison with first principles", "statement": "For readable files, the comparison has one row for each file with its energy per atom from first principles, that of the potential and its name. Formation energies are those with respect to the lowest pure structure of each element, separately for first principles and for the potential; they do not depend on the functional whose atomic energies are subtracted; those of pure structures are not negative and zero is reached for each element. Rows are beside the names of their own structures, also after geometry optimization, and the lists of structures on the hull have exactly the rows close to the hull.", "quantifier": "all potentials, files, elements, names and tables of atomic energies", "why_tests_cant": "names and rows are kept in separate lists that have to stay aligned for all inputs; that the atomic energies cancel is an identity", "anchors": ["src/pypolymlp/calculator/auto/autocalc_distribution.py: AutoCalcDistribution.compare_with_dft, calc_formation_energies, EnergyData.get_comparison_data, FormationEnergyData", "src/pypolymlp/calculator/compute_formation_energies.py: PolymlpFormationEnergies, find_endmembers"]}
{"id": "C107", "title": "Repository entries", "statement": "For directories with different names, a new entry and a working directory without potentials, the entry has for each directory its costs, its errors and its potential (the same files, or the conversion of each of them), and no other file is changed. The figure of each comparison shows its own rows and is on the web page. Each curve of the summary has a point for each potential with its own time and value. A composition is in exactly one figure. A potential at least as accurate as an active one is active, and the most accurate one is active.", "quantifier": "all files and directories, formats and numbers of potentials, compositions, errors, prototypes", "why_tests_cant": "which files end up in an entry depends on everything that is in the directories before; mixtures of names, formats and leftovers are too many to try", "anchors": ["src/pypolymlp/api/pypolymlp_repository.py: PypolymlpRepository.extract_convex_polymlps, calc_properties_elements, calc_properties_binary_alloys", "src/pypolymlp/core/io_polymlp.py: find_mlps, convert_to_yaml", "src/pypolymlp/calculator/auto_repository/figures_summary.py: plot_eqm_properties", "src/pypolymlp/calculator/auto_repository/web.py: WebContents._find_active_mlps"]}
{"id": "C108", "title": "Phonons and quasi-harmonic data", "statement": "After any earlier calls, a successful run of phonons determines the files: the force constants come from the forces of the potential on the displaced supercells with the distance of this run, and mesh, density of states, thermal properties and projected density of states belong to these force constants and to the mesh and temperatures of this run. Nothing can be written before a run. Without frequencies below -0.01 THz there are no imaginary modes. The quasi-harmonic approximation is given, for each volume ratio of the range in ascending order, the energy of the cell with this volume and, at each temperature, the thermal properties of the same cell. Force constants of a file have precedence over given ones.", "quantifier": "all unit cells, potentials, distances, meshes, temperatures, volume ranges and sequences of calls, including failing ones", "why_tests_cant": "results are kept in an object and mixed with those of earlier and failed calls; tests run one calculation on a new object", "anchors": ["src/pypolymlp/calculator/compute_phonon.py: PolymlpPhonon, PolymlpPhononQHA, calculate_harmonic_properties_from_fc2", "src/pypolymlp/calculator/utils/phonon_utils.py: is_imaginary", "src/pypolymlp/api/pypolymlp_calc.py: PypolymlpCalc.run_phonon, write_phonon, run_qha"]}
{"id": "C109", "title": "Harmonic part of SSCHA and its files", "statement": "Whatever was computed before, setting force constants and computing thermal properties gives those of these force constants at the temperature and on the mesh asked for, and imaginary modes are reported if and only if more than one frequency in 100000 is below -0.01 THz. Hiding imaginary modes changes exactly the frequencies below -0.001 THz, to positive ones, and nothing for stable systems. The files of a temperature (force constants, thermal properties, total and projected densities of states) belong to one set of force constants after a final iteration.", "quantifier": "all force constants, meshes, temperatures and sequences of iterations and frequency calculations", "why_tests_cant": "the phonopy object is shared and keeps results between calls; tests look at the numbers of one converged calculation", "anchors": ["src/pypolymlp/calculator/sscha/harmonic_reciprocal.py: HarmonicReciprocal", "src/pypolymlp/calculator/sscha/sscha_core.py: SSCHACore._compute_sscha_properties, _single_iter, _final_iter, _write_dos, save_results, run_frequencies"]}
{"id": "C110", "title": "Command lines do what their options ask for", "statement": "Whatever the calls behind a command line raise, `pypolymlp-structure`, `pypolymlp-sscha-structure`, `pypolymlp-sscha`, `pypolymlp-md`, `pypolymlp-thermodynamics` and `pypolymlp-utils` do only what the options ask for, with the values of the options; when they end without an exception everything that was asked for is done, exactly once, after the structure and the potential were set and before results are written, and nothing is written after a failure.", "quantifier": "all command lines and all exceptions of the calls, as functions of the calls made before", "why_tests_cant": "the number of combinations of options is unbounded, and an option that is dropped gives a run without any error", "anchors": ["src/pypolymlp/api/run_polymlp_str.py: run", "src/pypolymlp/api/run_polymlp_sscha_str.py: run", "src/pypolymlp/api/run_polymlp_sscha.py: run, run_main_sscha", "src/pypolymlp/api/run_polymlp_md.py: run", "src/pypolymlp/api/run_polymlp_thermodynamics.py: run", "src/pypolymlp/api/run_polymlp_utils.py: run", "src/pypolymlp/api/common_args.py"]}
{"id": "C111", "title": "Evaluation of structures with LAMMPS", "statement": "Whatever was evaluated before with the same object, evaluating a structure with LAMMPS gives the energy, the force of every atom in the order of the structure, and the stress tensor (xx, yy, zz, xy, yz, zx in eV/cell) that the potential has for this structure in its own coordinates, for every cell, rotated or sheared, right- or left-handed; many structures have their values in their order; a structure with an unknown element is refused and leaves LAMMPS as it was.", "quantifier": "all structures, cells with nonzero volume, lists of elements, potentials that turn with the cell, and all states of LAMMPS", "why_tests_cant": "the object keeps atoms and box between evaluations, and tests compare a few structures", "anchors": ["src/pypolymlp/calculator/utils/lammps/properties_lammps.py: PropertiesLammps.eval, eval_multiple", "src/pypolymlp/calculator/utils/lammps/lammps_command.py: LammpsCommand.eval, set_structure, forces, stress", "src/pypolymlp/calculator/utils/lammps/lammps_structure.py: convert_structure_to_lammps_format, LammpsStructure"]}
{"id": "C112", "title": "Estimation of computational costs", "statement": "The cost of a potential is the time in milliseconds per atom and evaluation for a supercell of the given structure, or of a cell with four atoms in which every element of the potential occurs; potentials with five or more elements need a structure. Costs are written on demand into polymlp_cost.yaml, in the current directory for a single potential and in the directory of every potential otherwise; directories without potential and all other files are kept, and an exception leaves complete files only. No evaluations never give a cost.", "quantifier": "all potentials, lists of directories, states of the files, numbers of evaluations, structures and failures of an evaluation", "why_tests_cant": "which directories have files, and where an evaluation fails, are arbitrary", "anchors": ["src/pypolymlp/postproc/count_time.py: PolymlpCost.__init__, PolymlpCost.run"]}
{"id": "C113", "title": "Data sets of displacements and phono3py files", "statement": "A phono3py file, or arrays of displacements, forces and energies with a structure, become a data set with one structure for each sample in the given order: the same cell and atoms, every atom moved by its displacement in Cartesian coordinates, with the energy of the sample and the force of each atom also when atoms are grouped by elements, and without stress. Files without energies, with elements other than the given ones, or arrays of different shapes are refused.", "quantifier": "all supercells with a volume, in any order of atoms, all numbers of samples, displacements, forces, energies and lists of elements", "why_tests_cant": "the order of atoms and the cell are arbitrary, tests use single files with one order", "anchors": ["src/pypolymlp/core/interface_phono3py.py: parse_phono3py_yaml, Phono3pyYaml", "src/pypolymlp/core/displacements.py: get_structures_from_displacements", "src/pypolymlp/mlp_dev/pypolymlp.py: Pypolymlp.set_datasets_displacements, set_datasets_phono3py", "src/pypolymlp/core/dataset.py: Dataset"]}
{"id": "C114", "title": "Convergence of the regression by conjugate gradients", "statement": "With a positive penalty, every pass of the solver makes the penalised sum of squares smaller, the solution is reached after at most as many passes as there are features, and with more iterations than that the solver returns coefficients with a residual below the tolerance. For several penalties, the coefficients of each are better for it than those of the next penalty, from which they were started.", "quantifier": "all data sets, numbers of features, starts, penalties > 0, tolerances > 0 and limits of iterations", "why_tests_cant": "convergence in p steps holds for every data set only by orthogonality of all residuals; tests run single data sets", "anchors": ["src/pypolymlp/mlp_dev/gradient/solvers_cg.py: solver_cg", "src/pypolymlp/mlp_dev/gradient/fit_cg.py: fit_cg"]}
{"id": "C115", "title": "Models for the KIM API", "statement": "generate_kim_model writes a directory whose name consists of the author, year, level, elements, identifier and version; it has exactly the given potentials in the new format, the settings with the elements, a build file that lists every potential once, and a description that is a well-formed map of the given data. The order of the files does not matter, models with different identifiers or versions do not collide, and no file of an existing model is changed.", "quantifier": "all lists of potential files, options, license files and working directories left by earlier runs", "why_tests_cant": "left-over directories depend on the history of earlier runs; well-formedness depends on the numbers of developers, citations and keys", "anchors": ["src/pypolymlp/utils/kim_utils.py: convert_polymlp_to_kim_model", "src/pypolymlp/utils/kim_utils.py: generate_kim_files", "src/pypolymlp/utils/kim_utils.py: copy_mlps", "src/pypolymlp/api/pypolymlp_utils.py: PypolymlpUtils.generate_kim_model"]}
{"id": "C116", "title": "Files written by LAMMPS", "statement": "Reading a dump gives the cell of the box, tilted or not, and exactly the atoms of the dump with their types and positions; forces read from a dump belong to these atoms; energies and pressures read from a log are those of its last table.", "quantifier": "all boxes with edges other than zero, all atoms with types, all orders of the atoms in the file, all logs", "why_tests_cant": "the bounds depend on the signs of three tilts, and the order of atoms in a dump is arbitrary", "anchors": ["src/pypolymlp/calculator/utils/lammps/lammps_utils.py: Dump", "src/pypolymlp/calculator/utils/lammps/lammps_utils.py: DumpForce", "src/pypolymlp/calculator/utils/lammps/lammps_utils.py: Log"]}
{"id": "C117", "title": "Tables of polynomial invariants", "statement": "Invariants written into a binary table are read back unchanged by load_all and by the C++ library; a table can be written exactly if its numbers fit into 32 bits; load_all rejects every incomplete table; a potential is given exactly the invariants whose l are within its limits, with positions that tell the spherical harmonics apart; the coefficients of an enumeration reach the table one by one.", "quantifier": "all tables of any size, all numbers, every point at which writing may stop, all contents of the memory, all orders and limits of l", "why_tests_cant": "the byte at which a file ends and the contents of the memory are arbitrary, and tables have thousands of entries", "anchors": ["src/pypolymlp/polyinv/binary/convert_binary.py: save_all, convert_polyinv_yaml_binary", "src/pypolymlp/polyinv/binary/check_binary.py: load_all", "src/pypolymlp/polyinv/polyinv_io.py: save_polyinv_coeffs_multiple_l", "src/pypolymlp/polyinv/binary/convert_txt.py: convert_polyinv_yaml_c", "src/pypolymlp/cxx/src/polymlp/polymlp_gtinv_data.cpp: GtinvData::parse", "src/pypolymlp/cxx/src/polymlp/polymlp_read_gtinv.cpp: Readgtinv::screening"]}
{"id": "C118", "title": "Features of given structures", "statement": "run_features returns one row per structure in the order given and, with features_force, six stress rows per structure and three force rows per atom; rows depend on cells, positions and elements only, not on the integer types given, the content of memory, the order of parallel execution or the flags of an input file; with several types for an element the types of a structure are matched in order; unknown elements, hybrid potentials and other arguments are refused; after any sequence of calls features is the result of the last successful one.", "quantifier": "all potentials of one model, all lists of structures, all flags, all contents of memory and orders of execution, all sequences of calls", "why_tests_cant": "sequences of calls that fail or succeed, contents of memory and orders of execution are arbitrary", "anchors": ["src/pypolymlp/calculator/compute_features.py: update_types, compute_from_polymlp, compute_from_infile", "src/pypolymlp/api/pypolymlp_calc.py: PypolymlpCalc.run_features", "src/pypolymlp/core/dataset_utils.py: replace_types", "src/pypolymlp/mlp_dev/core/features.py: Features"]}
{"id": "C119", "title": "Old potential files in LAMMPS and in Python", "statement": "Reading an old-format potential file by the C++ library (LAMMPS) and by Python gives the same elements, cutoff, types, orders, functions, masses and table of functions per pair of types, and coefficients of C++ that are twice those of Python, with or without the optional sections and a final end of line, whatever memory holds; what C++ takes for an old file, Python does too.", "quantifier": "all old-format files, all contents of uninitialised memory", "why_tests_cant": "contents of files and of uninitialised memory are arbitrary", "anchors": ["src/pypolymlp/cxx/src/polymlp/polymlp_parse_potential_legacy.cpp: parse_polymlp_legacy, check_polymlp_legacy", "src/pypolymlp/cxx/src/polymlp/polymlp_parse_potential_legacy.h: get_value, get_value_array", "src/pypolymlp/core/io_polymlp_legacy.py: load_mlp_lammps"]}
{"id": "C120", "title": "Interrupted saving of potentials", "statement": "Saving a (hybrid) potential writes exactly the files of its models and, when it finishes, each holds the complete text; interrupted at any point, the files are new, then one with a beginning of the new text, then old ones. A file that was cut off is never taken for a potential: reading it is an error.", "quantifier": "all potentials and numbers of models, all contents of the disk before, all points of interruption, all behaviours of the yaml library within its rules", "why_tests_cant": "crash points are unboundedly many and depend on the length of the files", "anchors": ["src/pypolymlp/core/io_polymlp.py: save_mlps", "src/pypolymlp/core/io_polymlp_yaml.py: save_mlp_yaml, load_mlp_yaml", "src/pypolymlp/cxx/src/polymlp/polymlp_parse_potential.cpp: parse_polymlp"]}
{"id": "C121", "title": "Parallel execution", "statement": "Neighbour lists, energies, forces and stresses, and the feature matrices of single and hybrid models are the same for every number of threads, distribution of the iterations and interleaving of the memory accesses, namely those of the sequential loops; no two threads ever access the same memory at the same time with one of them writing.", "quantifier": "all structures, potentials, data sets, numbers of threads, distributions and interleavings", "why_tests_cant": "a test observes a few schedules of one machine; the number of interleavings is exponential in the number of atoms", "anchors": ["src/pypolymlp/cxx/src/compute/neighbor_half.cpp: NeighborHalf", "src/pypolymlp/cxx/src/compute/polymlp_eval.cpp: eval_pair, eval_gtinv, compute_sum_of_prod_antp, compute_sum_of_prod_anlmtp", "src/pypolymlp/cxx/src/compute/py_model.cpp: PyModel", "src/pypolymlp/cxx/src/compute/py_hybrid_model.cpp: PyHybridModel", "src/pypolymlp/cxx/src/compute/py_properties_fast.cpp: eval_multiple"]}
{"id": "C122", "title": "Feature lists", "statement": "The list of features written for a model describes the columns of its design matrix: same number, same order; column k is the sum over the atoms of the value of the feature described at position k (the radial function summed over the neighbours of the given element pair, or the polynomial invariant of the given entry of the table with the given element pairs), and the columns after them are the sums of the products listed. Every pair of elements belongs to exactly one pair identifier, independent of the order of the two; every invariant that some atom type can have is listed exactly once up to reordering of equal factors; the file repeats these lists with consecutive identifiers and the names of the elements.", "quantifier": "all models of pair and invariant type, numbers of elements, conditions on the pairs, tables and structures", "why_tests_cant": "the lists grow combinatorially with the elements, radial functions and orders; tests compare the numbers of features of a few models", "anchors": ["src/pypolymlp/mlp_dev/core/features_attr.py: get_features_attr, get_num_features, write_polymlp_params_yaml", "src/pypolymlp/cxx/src/compute/py_features_attr.cpp: PyFeaturesAttr", "src/pypolymlp/cxx/src/compute/py_params.cpp: convert_params_dict_to_feature_params", "src/pypolymlp/cxx/src/polymlp/polymlp_model_params_gtinv.cpp: ModelParams"]}
{"id": "C123", "title": "Same crystal, same results", "statement": "Energy, forces, stress and the design matrix depend on the crystal, not on its description: reordering the atoms, shifting the origin, replacing atoms by periodic images and choosing other axes of the same lattice leave energy and stress unchanged and carry the forces along; a supercell of m cells has m times the energy and the (extensive) stress, and each of its atoms feels the force of the atom it repeats.", "quantifier": "all crystals, cells, numbers of atoms, supercell sizes, cutoffs, potentials and coefficients", "why_tests_cant": "the space of equivalent descriptions is infinite; tests compare a few structures numerically, and the neighbour search takes different paths for different cells", "anchors": ["src/pypolymlp/cxx/src/compute/polymlp_eval.cpp: PolymlpEval::eval", "src/pypolymlp/cxx/src/compute/model.cpp: Model::run", "src/pypolymlp/cxx/src/compute/neighbor_cell.cpp: NeighborCell", "src/pypolymlp/cxx/src/compute/neighbor_half.cpp: NeighborHalf", "src/pypolymlp/utils/supercell_utils.py: get_supercell"]}
{"id": "C124", "title": "Turned structures have turned forces and stress", "statement": "Turning a structure (cell and atoms together) leaves the energy unchanged, turns the force on every atom and gives the stress tensor in the turned axes, for the evaluators and for every column of the design matrix. The same holds for reflections and for the inversion. Hence forces and stress have the symmetries of the crystal; no force acts on an atom at a centre of inversion.", "quantifier": "all cells, numbers of atoms, orthogonal matrices, cutoffs, models and coefficients; for invariants, all structures in which atoms are apart, no radial function is exactly at the threshold for dropping a contribution and no product is dropped by the screening", "why_tests_cant": "continuously many orientations; the cell reduction, the half lists and the half set of harmonics are not symmetric in the axes", "anchors": ["src/pypolymlp/cxx/src/compute/polymlp_eval.cpp: PolymlpEval::eval", "src/pypolymlp/cxx/src/compute/model.cpp: Model::run", "src/pypolymlp/cxx/src/compute/neighbor_cell.cpp: NeighborCell", "src/pypolymlp/cxx/src/compute/neighbor_half.cpp: NeighborHalf", "src/pypolymlp/cxx/src/compute/local.cpp: Local::gtinv_d"]}
{"id": "C125", "title": "Line searches and conjugate gradients keep their promises", "statement": "A step for which the line search reports a slope meets the strong Wolfe conditions and the extra condition, has the reported value and slope, and lowers the function; a direction that goes uphill never gives such a step. Steps of the backtracking searches meet their conditions. The conjugate gradient minimizer returns value and gradient of the point it returns, visits points with decreasing values from the start to that point, keeps the number of iterations, and reports success only if the gradient is within the tolerance or the callback stopped it.", "quantifier": "all functions, slopes, starts, parameters, numbers of iterations and numbers of variables; all line searches that keep their promise", "why_tests_cant": "functions and histories of steps are unbounded; failures depend on the shape of the function", "anchors": ["src/pypolymlp/calculator/_scipy/_linesearch.py: scalar_search_wolfe2", "src/pypolymlp/calculator/_scipy/_linesearch.py: _zoom", "src/pypolymlp/calculator/_scipy/_linesearch.py: scalar_search_armijo", "src/pypolymlp/calculator/_scipy/_linesearch.py: _nonmonotone_line_search_cruz", "src/pypolymlp/calculator/_scipy/_linesearch.py: _nonmonotone_line_search_cheng", "src/pypolymlp/calculator/_scipy/_optimize.py: minimize_cg"]}
{"id": "C126", "title": "Every radial function of the library comes with its slope", "statement": "For each radial function of the C++ library the version with derivative returns the value of the version without, and the derivative of that value with respect to the distance.", "quantifier": "all distances at which the function is defined and all parameters", "why_tests_cant": "distances and parameters are real numbers", "anchors": ["src/pypolymlp/cxx/src/polymlp/polymlp_basis_function.cpp: bump_cutoff_function_d", "src/pypolymlp/cxx/src/polymlp/polymlp_basis_function.cpp: gto_d", "src/pypolymlp/cxx/src/polymlp/polymlp_basis_function.cpp: morse_d", "src/pypolymlp/cxx/src/polymlp/polymlp_basis_function.cpp: mexican_d"]}
{"id": "C127", "title": "Stochastic gradients approach the solution of the regression", "statement": "Coefficients returned by the solver are finite numbers; when the solver stops because its test for convergence is met, the gradient of the penalized squared error at the coefficients it returns is below the threshold.", "quantifier": "all features, targets, penalties, numbers of passes and starts", "why_tests_cant": "data are real matrices of any size and the number of passes is unbounded", "anchors": ["src/pypolymlp/mlp_dev/gradient/solvers_sgd.py: solver_sgd", "src/pypolymlp/mlp_dev/gradient/solvers_sgd.py: _func_adam"]}
{"id": "C128", "title": "Bader charges are read as the files state them", "statement": "The reader of ACF.dat returns the charge of every atom row in order; the reader of BCF.dat returns for every atom the sum of the charges of its volumes, so that no charge is lost; printing writes the charges of the object.", "quantifier": "all files of these formats, any number of lines, atoms and volumes, any conversion of words to numbers", "why_tests_cant": "files have any number of rows in any assignment of volumes to atoms", "anchors": ["src/pypolymlp/core/interface_bader.py: ACF", "src/pypolymlp/core/interface_bader.py: BCF"]}
{"id": "C129", "title": "Phonon bands use the files and the path that were asked for", "statement": "A calculation of phonon bands uses Born charges from the file the caller named, exactly when it exists; every documented structure type has a path whose points carry their names; the table has a line with distance and frequencies for every point of the path in order.", "quantifier": "all file names and contents, structure types, numbers of points and results of Phonopy", "why_tests_cant": "the file system and the results of Phonopy are arbitrary", "anchors": ["src/pypolymlp/calculator/utils/phonon_band_utils.py: calculate_phonon_bands", "src/pypolymlp/calculator/utils/phonon_band_utils.py: _get_band_attrs"]}
{"id": "C130", "title": "Spherical harmonics of polar coordinates are the textbook functions", "statement": "For a polar angle between 0 and pi and any azimuthal angle, the interface of polar coordinates returns the textbook spherical harmonics of every degree up to the limit; they agree with the interface of Cartesian coordinates; the returned Cartesian derivatives are the derivatives of the harmonics, on the z axis too.", "quantifier": "all degrees and orders, all angles in the range, all positive radii and all differentiable curves through the point", "why_tests_cant": "degrees are unbounded and angles are real numbers; the recurrences of the two classes are organised differently", "anchors": ["src/pypolymlp/cxx/src/polymlp/polymlp_mlipkk_spherical_harmonics.cpp: SphericalHarmonicsDep", "src/pypolymlp/cxx/src/polymlp/polymlp_functions_interface.cpp: get_ylm_polar"]}
{"id": "C131", "title": "The Ewald sum has the textbook energy, and its forces and stresses are derivatives of it", "statement": "For given images and reciprocal vectors, the electrostatic energy is the Ewald energy of textbooks, the same with and without forces; the forces are minus its gradient and add up to zero; the six stresses are minus its derivative with respect to strain.", "quantifier": "all numbers of atoms, charges, positions, lists of images and of reciprocal vectors, positive widths, differentiable motions of the atoms and symmetric strains", "why_tests_cant": "positions, charges and cells are real numbers and the lists are arbitrarily long", "anchors": ["src/pypolymlp/cxx/src/dev/longrange/ewald.cpp: Ewald", "src/pypolymlp/cxx/src/dev/longrange/ewald.h: Ewald"]}
{"id": "C132", "title": "Molecular dynamics follows velocity Verlet, can be reversed and conserves momentum", "statement": "A run of the integrator is the documented velocity Verlet algorithm with the forces of the current positions; reversing the momenta after a run and running again returns to the start; total momentum and total angular momentum are conserved when forces and torques add up to zero; the units of energies and forces agree; the initial velocities have the given temperature; every documented ensemble can be initialised.", "quantifier": "all numbers of atoms and steps, time steps, masses, cells, positions, momenta, Hamiltonians and random numbers", "why_tests_cant": "runs are arbitrarily long and positions, momenta and forces are real numbers", "anchors": ["src/pypolymlp/misc/dev/md_own/integrators/integrator_verlet.py: VelocityVerlet", "src/pypolymlp/misc/dev/md_own/integrators/integrator_base.py: IntegratorBase", "src/pypolymlp/misc/dev/md_own/integrators/operator.py: translate_momenta", "src/pypolymlp/misc/dev/md_own/utils.py: initialize_velocity"]}
{"id": "C133", "title": "Coefficients of the analytical model of disorder are means over independent occupations", "statement": "Every coefficient of the potential generated for a disordered structure is the mean over the types of central atoms of the mean of the original coefficient over independent occupations of all sites; it lies between bounds of the original coefficients; without disorder the coefficients are kept; for linear features and for their polynomials.", "quantifier": "all potentials, features of any order, type pairs and occupancies", "why_tests_cant": "occupancies are real numbers and the orders of features and numbers of types are not bounded", "anchors": ["src/pypolymlp/misc/dev/disorder_analytical.py: generate_disorder_mlp_gtinv", "src/pypolymlp/misc/dev/disorder_analytical.py: find_central_types"]}
{"id": "C134", "title": "Features of charges are antisymmetric between atoms and every model of them is neutral", "statement": "Every feature of charges of an atom is a sum over all atoms of flows that change sign when the two atoms are exchanged; a linear model with any coefficients gives charges that add up to zero in every structure; the rows of structures and data sets are where the returned indices say.", "quantifier": "all numbers of atoms, types, structures and data sets, neighbours, cutoffs, features and coefficients", "why_tests_cant": "numbers of atoms and neighbours are not bounded and the values are real numbers", "anchors": ["src/pypolymlp/cxx/src/dev/charge/compute_features.cpp: ComputeFeatures::compute_features_charge", "src/pypolymlp/cxx/src/dev/charge/model_charge_py.cpp: ModelForChargePy"]}
