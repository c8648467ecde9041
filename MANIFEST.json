{
 "claims": [
  {
   "property": "C01",
   "status": "proved",
   "theorems": [
    "Verif.Split.C01_split_partition",
    "Verif.Split.C01_ratio_above_one_raises"
   ],
   "note": "Exact rationals instead of doubles for the ratio and the grid."
  },
  {
   "property": "C02",
   "status": "proved",
   "theorems": [
    "Verif.Split.C02_split_files"
   ],
   "note": ""
  },
  {
   "property": "C03",
   "status": "proved",
   "theorems": [
    "Verif.Dataset.C03_split_aligned"
   ],
   "note": "Every structure has at least one atom."
  },
  {
   "property": "C04",
   "status": "proved",
   "theorems": [
    "Verif.Dataset.C04_batches_tile",
    "Verif.Dataset.C04_batches_of_dataset",
    "Verif.Dataset.C04_batch_size_zero"
   ],
   "note": ""
  },
  {
   "property": "C05",
   "status": "proved",
   "theorems": [
    "Verif.Dataset.C05_sort",
    "Verif.Dataset.C05_sort_empty_raises"
   ],
   "note": "np.argsort is an arbitrary sorting permutation."
  },
  {
   "property": "C06",
   "status": "partial",
   "theorems": [
    "Verif.Dataset.C06_history",
    "Verif.Dataset.C06_exactly_once_partial",
    "Verif.Dataset.C06_single_file_twice",
    "Verif.Dataset.C06_single_file_witness",
    "Verif.Dataset.C06_parse_twice_never",
    "Verif.Dataset.C06_from_structures_once",
    "Verif.Dataset.C06_from_file_list_once"
   ],
   "note": "Holds for every history on datasets built from structures or file lists; false for the single-file (phono3py) path, which subtracts twice, and after parse_files is repeated (both proved as violations)."
  },
  {
   "property": "C07",
   "status": "partial",
   "theorems": [
    "Verif.Sequential.C07_sequential_eq_standard_partial",
    "Verif.Sequential.C07_threshold_violation",
    "Verif.Sequential.C07_threshold_witness"
   ],
   "note": "Proved whenever n_features differs from the block threshold; false when equal (proved violation)."
  },
  {
   "property": "C08",
   "status": "proved",
   "theorems": [
    "Verif.Sequential.C08_blockwise_product",
    "Verif.Sequential.C08_zero_batches"
   ],
   "note": ""
  },
  {
   "property": "C09",
   "status": "proved",
   "theorems": [
    "Verif.Regression.C09_mse",
    "Verif.Regression.C09_rmse_paths_agree"
   ],
   "note": ""
  },
  {
   "property": "C10",
   "status": "proved",
   "theorems": [
    "Verif.Regression.C10_ridge_path",
    "Verif.Regression.C10_no_alphas",
    "Verif.Regression.C10_solution_minimises"
   ],
   "note": "LAPACK posv is an arbitrary function that may fail."
  },
  {
   "property": "C100",
   "status": "partial",
   "theorems": [
    "Verif.AtomicEnergies.C100_elements",
    "Verif.AtomicEnergies.C100_formula",
    "Verif.AtomicEnergies.C100_energies",
    "Verif.AtomicEnergies.C100_dict",
    "Verif.AtomicEnergies.C100_by_formula",
    "Verif.AtomicEnergies.C100_refused",
    "Verif.AtomicEnergies.C100_input",
    "Verif.AtomicEnergies.C100_repeat_violation",
    "Verif.AtomicEnergies.C100_bracket_violation"
   ],
   "note": "Proved for every input; repeated elements (F159) and brackets (F160) in formulas are not handled."
  },
  {
   "property": "C101",
   "status": "partial",
   "theorems": [
    "Verif.Electron.C101_slope",
    "Verif.Electron.C101_cv_upper",
    "Verif.Electron.C101_cv_excess",
    "Verif.Electron.C101_cv_nonneg",
    "Verif.Electron.C101_cv_violation",
    "Verif.Electron.C101_table",
    "Verif.Electron.C101_free_energy",
    "Verif.Electron.C101_made",
    "Verif.ElectronFiles.C101_output",
    "Verif.ElectronFiles.C101_same_directory",
    "Verif.ElectronFiles.C101_files",
    "Verif.ElectronFiles.C101_root_violation"
   ],
   "note": "The specific heat is an upper bound of the derivative, with a proved excess, not the derivative (F161); files without a directory (F162)."
  },
  {
   "property": "C102",
   "status": "partial",
   "theorems": [
    "Verif.PolyInv.C102_number",
    "Verif.PolyInv.C102_couplings",
    "Verif.PolyInv.C102_pair",
    "Verif.PolyInv.C102_triple",
    "Verif.PolyInv.C102_combinations",
    "Verif.PolyInv.C102_index_roundtrip",
    "Verif.PolyInv.C102_index_onto",
    "Verif.PolyInv.C102_index_injective",
    "Verif.PolyInv.C102_enumeration",
    "Verif.PolyInv.C102_orders",
    "Verif.PolyInv.C102_projected_refused",
    "Verif.PolyInv.C102_first_order_violation",
    "Verif.PolyInv.C102_odd_violation"
   ],
   "note": "The error of the numerical integral is not modelled; the first order and odd sums fail (F163, F164)."
  },
  {
   "property": "C103",
   "status": "proved",
   "theorems": [
    "Verif.PolyInv.C103_rows",
    "Verif.PolyInv.C103_entries",
    "Verif.PolyInv.C103_projector",
    "Verif.PolyInv.C103_basis",
    "Verif.PolyInv.C103_reads"
   ],
   "note": "For coefficients with the three stated properties; `someCoefficients_ok` shows that they can be met for all angular momenta."
  },
  {
   "property": "C104",
   "status": "partial",
   "theorems": [
    "Verif.TensorSym.C104_stress_invariant",
    "Verif.TensorSym.C104_stress_kept",
    "Verif.TensorSym.C104_stress_closest",
    "Verif.TensorSym.C104_forces",
    "Verif.TensorSym.C104_eval",
    "Verif.TensorSym.C104_error_violation"
   ],
   "note": "Forces only if the basis could be made: C104_error_violation (F165)."
  },
  {
   "property": "C105",
   "status": "partial",
   "theorems": [
    "Verif.AutoProto.C105_reports",
    "Verif.AutoProto.C105_exception",
    "Verif.AutoProto.C105_history",
    "Verif.AutoProto.C105_alone",
    "Verif.AutoProto.C105_saved",
    "Verif.AutoProto.C105_cells",
    "Verif.AutoProto.C105_dft",
    "Verif.AutoProto.C105_lists",
    "Verif.AutoProto.C105_fit_violation",
    "Verif.AutoProto.C105_ids_violation",
    "Verif.AutoProto.C105_text_violation"
   ],
   "note": "Violated by a failed fit of an equation of state, which ends the run (F166), and by IDs that are not unique in binary systems or have the other type (F167)."
  },
  {
   "property": "C106",
   "status": "partial",
   "theorems": [
    "Verif.AutoDist.C106_comparison",
    "Verif.AutoDist.C106_formation",
    "Verif.AutoDist.C106_structure_names",
    "Verif.AutoDist.C106_functional",
    "Verif.AutoDist.C106_pure",
    "Verif.AutoDist.C106_optimized",
    "Verif.AutoDist.C106_hull",
    "Verif.AutoDist.C106_names_violation",
    "Verif.AutoDist.C106_order_violation"
   ],
   "note": "Violated by the order of the comparison (F168) and by names after a failed optimization (F169)."
  },
  {
   "property": "C107",
   "status": "partial",
   "theorems": [
    "Verif.Repository.C107_entry",
    "Verif.Repository.C107_figures",
    "Verif.Repository.C107_curve",
    "Verif.Repository.C107_ranges",
    "Verif.Repository.C107_in_range",
    "Verif.Repository.C107_active",
    "Verif.Repository.C107_rerun_violation",
    "Verif.Repository.C107_same_name_violation",
    "Verif.Repository.C107_cwd_violation",
    "Verif.Repository.C107_table_violation",
    "Verif.Repository.C107_element_violation",
    "Verif.Repository.C107_curve_violation"
   ],
   "note": "Violated by leftovers in the entry and the working directory and by equal names (F170-F172), by names of files (F173, F174), by shifted curves (F175), for inaccurate potentials (F176) and at boundaries of compositions (F177)."
  },
  {
   "property": "C108",
   "status": "partial",
   "theorems": [
    "Verif.Phonon.C108_run",
    "Verif.Phonon.C108_before",
    "Verif.Phonon.C108_imaginary",
    "Verif.Phonon.C108_qha",
    "Verif.Phonon.C108_fc2",
    "Verif.Phonon.C108_stale_violation",
    "Verif.Phonon.C108_failed_violation",
    "Verif.Phonon.C108_pitch_violation",
    "Verif.Phonon.C108_range_violation"
   ],
   "note": "Violated by projected densities of earlier runs (F178), after failed runs (F179), by the pitch of the density of states (F180) and beyond the largest volume (F181)."
  },
  {
   "property": "C109",
   "status": "partial",
   "theorems": [
    "Verif.Recip.C109_thermal",
    "Verif.Recip.C109_hide",
    "Verif.Recip.C109_stable",
    "Verif.Recip.C109_files",
    "Verif.Recip.C109_frequencies",
    "Verif.Recip.C109_unconverged_violation",
    "Verif.Recip.C109_removed_violation",
    "Verif.Recip.C109_frequencies_violation"
   ],
   "note": "Violated without convergence (F182) and for removed or changed force constants (F183, F184)."
  },
  {
   "property": "C11",
   "status": "proved",
   "theorems": [
    "Verif.Regression.C11_best_model",
    "Verif.Regression.C11_rejected",
    "Verif.Regression.C11_nan_selected",
    "Verif.Regression.C11_fit"
   ],
   "note": "Exact arithmetic, so errors are numbers; C11_nan_selected records what a NaN would do."
  },
  {
   "property": "C110",
   "status": "partial",
   "theorems": [
    "Verif.Commands.C110_structure_partial",
    "Verif.Commands.C110_sscha_structure",
    "Verif.Commands.C110_sscha_partial",
    "Verif.Commands.C110_thermodynamics",
    "Verif.Commands.C110_utils_partial",
    "Verif.Commands.C110_natom_violation",
    "Verif.Commands.C110_groups_violation",
    "Verif.Commands.C110_method_violation",
    "Verif.Commands.C110_md_violation",
    "Verif.Commands.C110_models_violation",
    "Verif.Commands.C110_path_violation"
   ],
   "note": "Holds for the options of one group or job; options that are dropped are F185-F188, F192, `pypolymlp-md` never runs (F189), models are enumerated unasked and refused when asked for (F190, F191)."
  },
  {
   "property": "C111",
   "status": "partial",
   "theorems": [
    "Verif.LammpsEval.C111_eval_partial",
    "Verif.LammpsEval.C111_multiple_partial",
    "Verif.LammpsEval.C111_unknown",
    "Verif.LammpsEval.C111_order_violation"
   ],
   "note": "Needs that LAMMPS lists its atoms by identifiers; otherwise forces are permuted (F193)."
  },
  {
   "property": "C112",
   "status": "partial",
   "theorems": [
    "Verif.Cost.C112_structure",
    "Verif.Cost.C112_single",
    "Verif.Cost.C112_dirs",
    "Verif.Cost.C112_zero",
    "Verif.Cost.C112_elements",
    "Verif.Cost.C112_first_violation",
    "Verif.Cost.C112_system_violation"
   ],
   "note": "A first directory without potential fails (F194); the system in the files is that of the first directory (F195)."
  },
  {
   "property": "C113",
   "status": "partial",
   "theorems": [
    "Verif.Phono3py.C113_parse",
    "Verif.Phono3py.C113_refused",
    "Verif.Phono3py.C113_energies",
    "Verif.Phono3py.C113_displacements",
    "Verif.Phono3py.C113_shapes",
    "Verif.Phono3py.C113_phonon_violation",
    "Verif.Phono3py.C113_flags_violation"
   ],
   "note": "The phonon data get wrong energies (F196); flags of data lines are ignored (F197); atomic energies are subtracted twice (F1, C06)."
  },
  {
   "property": "C114",
   "status": "partial",
   "theorems": [
    "Verif.Regression.C114_decreases",
    "Verif.Regression.C114_better_than_start",
    "Verif.Regression.C114_exact_after_p",
    "Verif.Regression.C114_converges_partial",
    "Verif.Regression.C114_fit_columns",
    "Verif.Regression.C114_small_models_violation",
    "Verif.Regression.C114_early_solution_violation",
    "Verif.Regression.C114_zero_targets_violation",
    "Verif.Regression.C114_fit_small_violation"
   ],
   "note": "Convergence is proved when the exact solution is not among the first 101 iterates; otherwise the solver divides zero by zero (F198). Rounding is not modelled."
  },
  {
   "property": "C115",
   "status": "partial",
   "theorems": [
    "Verif.Kim.C115_model",
    "Verif.Kim.C115_order",
    "Verif.Kim.C115_archive",
    "Verif.Kim.C115_frame",
    "Verif.Kim.C115_failure",
    "Verif.Kim.C115_names_apart",
    "Verif.Kim.C115_stale_violation",
    "Verif.Kim.C115_same_name_violation",
    "Verif.Kim.C115_third_violation",
    "Verif.Kim.C115_citation_violation",
    "Verif.Kim.C115_no_files_violation"
   ],
   "note": "False when a temporary directory or a model of the same name is left (F199, F200) and for citations with one key (F201); proved otherwise."
  },
  {
   "property": "C116",
   "status": "partial",
   "theorems": [
    "Verif.LammpsFiles.C116_dump",
    "Verif.LammpsFiles.C116_orthogonal",
    "Verif.LammpsFiles.C116_forces",
    "Verif.LammpsFiles.C116_sorted_files",
    "Verif.LammpsFiles.C116_log",
    "Verif.LammpsFiles.C116_log_enthalpy",
    "Verif.LammpsFiles.C116_log_single",
    "Verif.LammpsFiles.C116_order_violation",
    "Verif.LammpsFiles.C116_ten_types_violation",
    "Verif.LammpsFiles.C116_no_table_violation"
   ],
   "note": "False for ten or more types (F203), for forces of files that are not ordered by types (F204) and for logs without the table (F205); positions are relative to the origin, not to the corner of the box."
  },
  {
   "property": "C117",
   "status": "partial",
   "theorems": [
    "Verif.GtinvFiles.C117_roundtrip",
    "Verif.GtinvFiles.C117_save",
    "Verif.GtinvFiles.C117_truncated",
    "Verif.GtinvFiles.C117_cpp",
    "Verif.GtinvFiles.C117_screening",
    "Verif.GtinvFiles.C117_unavailable",
    "Verif.GtinvFiles.C117_position",
    "Verif.GtinvFiles.C117_written",
    "Verif.GtinvFiles.C117_cfiles",
    "Verif.GtinvFiles.C117_magic_violation",
    "Verif.GtinvFiles.C117_incomplete_violation",
    "Verif.GtinvFiles.C117_key_violation"
   ],
   "note": "The C++ library does not reject incomplete or other files (F206, F207); files for one combination of l cannot be converted (F208); C++ code cannot be generated if some largest l is missing (F209)."
  },
  {
   "property": "C118",
   "status": "partial",
   "theorems": [
    "Verif.CalcFeatures.C118_features",
    "Verif.CalcFeatures.C118_infile",
    "Verif.CalcFeatures.C118_types_irrelevant",
    "Verif.CalcFeatures.C118_channels",
    "Verif.CalcFeatures.C118_unknown",
    "Verif.CalcFeatures.C118_refused",
    "Verif.CalcFeatures.C118_history",
    "Verif.CalcFeatures.C118_sources",
    "Verif.CalcFeatures.C118_stress_violation",
    "Verif.CalcFeatures.C118_params_violation",
    "Verif.CalcFeatures.C118_channel_violation"
   ],
   "note": "features_stress has no effect (F210), parameters of the potential are changed (F211), and types of spin channels are wrong if a structure lacks a channel or channels are not neighbours (F212)."
  },
  {
   "property": "C119",
   "status": "partial",
   "theorems": [
    "Verif.LegacyCxx.C119_same",
    "Verif.LegacyCxx.C119_no_version",
    "Verif.LegacyCxx.C119_not_a_number",
    "Verif.LegacyCxx.C119_detect",
    "Verif.LegacyCxx.C119_detect_old",
    "Verif.LegacyCxx.C119_version_violation",
    "Verif.LegacyCxx.C119_pairs_violation",
    "Verif.LegacyCxx.C119_comment_violation",
    "Verif.LegacyCxx.C119_detect_violation",
    "Verif.LegacyCxx.C119_empty_table_violation"
   ],
   "note": "Holds for files with a version line for invariants and a one-word comment in the first line; without them the readers disagree (F213-F216)."
  },
  {
   "property": "C12",
   "status": "partial",
   "theorems": [
    "Verif.Regression.C12_true_residual",
    "Verif.Regression.C12_returns_last",
    "Verif.Regression.C12_smallest_residual_partial",
    "Verif.Regression.C12_violation",
    "Verif.Regression.C12_none_returned"
   ],
   "note": "False in general: coef_min aliases the working array, so the last iterate is returned (proved, with a witness). Holds for runs with non-increasing residuals."
  },
  {
   "property": "C120",
   "status": "partial",
   "theorems": [
    "Verif.Crash.C120_crash_points",
    "Verif.Crash.C120_every_point",
    "Verif.Crash.C120_finished",
    "Verif.Crash.C120_failed",
    "Verif.Crash.C120_python_cut",
    "Verif.Crash.C120_cxx_cut_violation",
    "Verif.Crash.C120_mixture_violation",
    "Verif.Crash.C120_failed_violation"
   ],
   "note": "The states of the disk and the Python reader are proved; the C++ reader accepts cut files (F217), mixtures of files are not detected (F219), a failed save destroys the old file (F220)."
  },
  {
   "property": "C121",
   "status": "proved",
   "theorems": [
    "Verif.Parallel.C121_neighbor",
    "Verif.Parallel.C121_eval_pair",
    "Verif.Parallel.C121_eval_gtinv",
    "Verif.Parallel.C121_no_race",
    "Verif.Parallel.C121_design",
    "Verif.Parallel.C121_design_no_race",
    "Verif.Parallel.C121_hybrid",
    "Verif.Parallel.C121_hybrid_no_race",
    "Verif.Parallel.C121_deprecated_violation"
   ],
   "note": "For every loop that is executed; the disabled loop over structures does not have the property (F221)."
  },
  {
   "property": "C122",
   "status": "proved",
   "theorems": [
    "Verif.FeatAttr.C122_pairs",
    "Verif.FeatAttr.C122_active",
    "Verif.FeatAttr.C122_pair_columns",
    "Verif.FeatAttr.C122_invariants",
    "Verif.FeatAttr.C122_invariant_columns",
    "Verif.FeatAttr.C122_file_pair",
    "Verif.FeatAttr.C122_file_gtinv"
   ],
   "note": "C122_invariants needs the entries of the table to be non-decreasing, as in the bundled tables; C122_invariant_columns needs that no product is cut off by the screening."
  },
  {
   "property": "C123",
   "status": "partial",
   "theorems": [
    "Verif.SameCrystal.C123_pair_columns",
    "Verif.SameCrystal.C123_pair_properties",
    "Verif.SameCrystal.C123_invariant_columns",
    "Verif.SameCrystal.C123_invariant_properties",
    "Verif.SameCrystal.C123_search",
    "Verif.SameCrystal.C123_search_orthogonal",
    "Verif.SameCrystal.C123_relabel",
    "Verif.SameCrystal.C123_supercell",
    "Verif.SameCrystal.C123_supercell_search",
    "Verif.SameCrystal.C123_supercell_pair",
    "Verif.SameCrystal.C123_supercell_invariant",
    "Verif.SameCrystal.C123_image_violation"
   ],
   "note": "The results agree whenever the search finds all neighbours in both descriptions; C123_search and C123_search_orthogonal give conditions for that. Without them the property is false of the code (C123_image_violation). The energy of invariants needs that no product is cut off by the screening; rotations are treated by C63."
  },
  {
   "property": "C124",
   "status": "proved",
   "theorems": [
    "Verif.Turned.C124_pair_columns",
    "Verif.Turned.C124_pair_properties",
    "Verif.Turned.C124_invariant_columns",
    "Verif.Turned.C124_invariant_properties",
    "Verif.Turned.C124_symmetry_pair",
    "Verif.Turned.C124_inversion_pair",
    "Verif.Turned.C124_symmetry_invariant",
    "Verif.Turned.C124_inversion_invariant"
   ],
   "note": "All orthogonal matrices; the table of invariants is a parameter with the rules used in C59 and C63 (invariance, even sums of degrees). Symmetries need that the search finds all neighbours (see C123_search)."
  },
  {
   "property": "C125",
   "status": "partial",
   "theorems": [
    "Verif.MinCg.C125_quadratic",
    "Verif.MinCg.C125_cubic",
    "Verif.MinCg.C125_first_step",
    "Verif.MinCg.C125_first_step_scale",
    "Verif.MinCg.C125_wolfe",
    "Verif.MinCg.C125_wolfe_uphill",
    "Verif.MinCg.C125_wolfe_violation",
    "Verif.MinCg.C125_armijo",
    "Verif.MinCg.C125_cruz",
    "Verif.MinCg.C125_cheng",
    "Verif.MinCg.C125_minimizer",
    "Verif.MinCg.C125_lower",
    "Verif.MinCg.C125_converged_start",
    "Verif.MinCg.C125_direction",
    "Verif.MinCg.C125_direction_violation",
    "Verif.MinCg.C125_status_violation"
   ],
   "note": "Partial because the code breaks parts of its documentation: a search that does not converge may return an untested step, directions may go uphill, and convergence in the last iteration is reported as a failure. Geometry optimizations reach this minimizer only if a switch in the source is set."
  },
  {
   "property": "C126",
   "status": "partial",
   "theorems": [
    "Verif.Mlp.C126_cosine",
    "Verif.Mlp.C126_power",
    "Verif.Mlp.C126_power_violation",
    "Verif.Mlp.C126_exp",
    "Verif.Mlp.C126_exp_over",
    "Verif.Mlp.C126_exp_times",
    "Verif.Mlp.C126_slater",
    "Verif.Mlp.C126_modified_morlet",
    "Verif.Mlp.C126_mexican",
    "Verif.Mlp.C126_morse",
    "Verif.Mlp.C126_bump_partial",
    "Verif.Mlp.C126_bump_violation",
    "Verif.Mlp.C126_bump_value_violation",
    "Verif.Mlp.C126_gto_violation",
    "Verif.Mlp.C126_morlet_violation"
   ],
   "note": "Partial because the smooth cutoff function, Gaussian-type orbitals and Morlet wavelets are wrong in the code. All these functions are marked as deprecated."
  },
  {
   "property": "C127",
   "status": "partial",
   "theorems": [
    "Verif.Sgd.C127_average_partial",
    "Verif.Sgd.C127_zero_gradient_violation",
    "Verif.Sgd.C127_zero_feature_violation",
    "Verif.Sgd.C127_converged_violation"
   ],
   "note": "Partial because the code breaks the property. Proved: the norm that is tested belongs to a convex combination of gradients at points near the result, and steps are bounded."
  },
  {
   "property": "C128",
   "status": "partial",
   "theorems": [
    "Verif.Bader.C128_acf",
    "Verif.Bader.C128_acf_blank_violation",
    "Verif.Bader.C128_bcf",
    "Verif.Bader.C128_bcf_total",
    "Verif.Bader.C128_bcf_empty",
    "Verif.Bader.C128_print_violation",
    "Verif.Bader.C128_print_other_violation"
   ],
   "note": "Reading is proved for files without blank lines. Partial because printing never writes the charges of the object."
  },
  {
   "property": "C129",
   "status": "partial",
   "theorems": [
    "Verif.PhononBand.C129_born_partial",
    "Verif.PhononBand.C129_no_born",
    "Verif.PhononBand.C129_born_name_violation",
    "Verif.PhononBand.C129_born_missing_violation",
    "Verif.PhononBand.C129_hcp_violation",
    "Verif.PhononBand.C129_unknown",
    "Verif.PhononBand.C129_table",
    "Verif.PhononBand.C129_bcc_labels",
    "Verif.PhononBand.C129_labels_violation"
   ],
   "note": "Partial because the code breaks the property for other file names, for hcp and for the labels of four types."
  },
  {
   "property": "C13",
   "status": "proved",
   "theorems": [
    "Verif.Regression.C13_scales_nonzero",
    "Verif.Regression.C13_scaling_transparent",
    "Verif.Regression.C13_scales_reused",
    "Verif.Regression.C13_fitted_model_transparent"
   ],
   "note": ""
  },
  {
   "property": "C130",
   "status": "proved",
   "theorems": [
    "Verif.Mlp.C130_value",
    "Verif.Mlp.C130_cartesian",
    "Verif.Mlp.C130_derivative"
   ],
   "note": "Exact real arithmetic. For limit 0 the code reads one entry past its array and multiplies it by zero; the model reads zero there."
  },
  {
   "property": "C131",
   "status": "proved",
   "theorems": [
    "Verif.Ewald.C131_energy",
    "Verif.Ewald.C131_force",
    "Verif.Ewald.C131_stress",
    "Verif.Ewald.C131_total_force",
    "Verif.Ewald.C131_recip_nonneg"
   ],
   "note": "Exact real arithmetic; the lists of images and reciprocal vectors are kept along a motion, as the code takes them as given. The class is not part of the built extension."
  },
  {
   "property": "C132",
   "status": "partial",
   "theorems": [
    "Verif.Verlet.C132_algorithm",
    "Verif.Verlet.C132_reversible",
    "Verif.Verlet.C132_momentum",
    "Verif.Verlet.C132_angular",
    "Verif.Verlet.C132_units",
    "Verif.Verlet.C132_temperature",
    "Verif.Verlet.C132_no_momenta",
    "Verif.Verlet.C132_nve_violation"
   ],
   "note": "All but the last part; the ensemble nve always fails (F229). Exact real arithmetic. The modules import each other from pypolymlp.calculator.md, where they are not installed."
  },
  {
   "property": "C133",
   "status": "partial",
   "theorems": [
    "Verif.DisAn.C133_feature",
    "Verif.DisAn.C133_bounds",
    "Verif.DisAn.C133_ordered",
    "Verif.DisAn.C133_mapping",
    "Verif.DisAn.C133_polynomial_violation",
    "Verif.DisAn.C133_key_order_violation"
   ],
   "note": "Proved for linear features; violated for polynomials of features (F230, F231). Exact real arithmetic."
  },
  {
   "property": "C134",
   "status": "proved",
   "theorems": [
    "Verif.ChargeFeat.C134_pair",
    "Verif.ChargeFeat.C134_gtinv",
    "Verif.ChargeFeat.C134_neutral",
    "Verif.ChargeFeat.C134_begin",
    "Verif.ChargeFeat.C134_rows",
    "Verif.ChargeFeat.C134_datasets"
   ],
   "note": "Exact arithmetic; parallel loops over structures are sequential, as they write separate rows. The class is not part of the built extension."
  },
  {
   "property": "C14",
   "status": "proved",
   "theorems": [
    "Verif.Weights.C14_energy_values",
    "Verif.Weights.C14_energy_antitone",
    "Verif.Weights.C14_energy_bins",
    "Verif.Weights.C14_energy_ground_state",
    "Verif.Weights.C14_energy_positive_reference",
    "Verif.Weights.C14_force_eq",
    "Verif.Weights.C14_force_bounds",
    "Verif.Weights.C14_force_antitone",
    "Verif.Weights.C14_stress_eq",
    "Verif.Weights.C14_stress_bounds",
    "Verif.Weights.C14_stress_antitone",
    "Verif.Weights.C14_reference_energy",
    "Verif.Weights.C14_reference_energy_empty"
   ],
   "note": "Stress weights over the real numbers."
  },
  {
   "property": "C15",
   "status": "proved",
   "theorems": [
    "Verif.Rows.C15_design_matrix",
    "Verif.Rows.C15_row_count",
    "Verif.Rows.C15_stress_without_force",
    "Verif.Rows.C15_batches_cover"
   ],
   "note": "Any execution order of the parallel loop, any initial matrix content."
  },
  {
   "property": "C16",
   "status": "proved",
   "theorems": [
    "Verif.AtomOrder.C16_permute_atoms",
    "Verif.AtomOrder.C16_permute_atoms_uncovered"
   ],
   "note": ""
  },
  {
   "property": "C17",
   "status": "proved",
   "theorems": [
    "Verif.AtomOrder.C17_replace_types"
   ],
   "note": "Duplicate-free element lists."
  },
  {
   "property": "C18",
   "status": "proved",
   "theorems": [
    "Verif.AtomOrder.C18_reorder",
    "Verif.AtomOrder.C18_hypothesis_needed"
   ],
   "note": ""
  },
  {
   "property": "C19",
   "status": "proved",
   "theorems": [
    "Verif.Params.C19_no_spins",
    "Verif.Params.C19_spins",
    "Verif.Params.C19_count",
    "Verif.Params.C19_ordered",
    "Verif.Params.C19_errors"
   ],
   "note": "Pair tables with ordered keys, as set_active_gaussian_params builds them (C20)."
  },
  {
   "property": "C20",
   "status": "proved",
   "theorems": [
    "Verif.Params.C20_active",
    "Verif.Params.C20_errors"
   ],
   "note": "Over any ordered field; infinite window for width parameter zero."
  },
  {
   "property": "C21",
   "status": "proved",
   "theorems": [
    "Verif.Neighbor.C21_full_list"
   ],
   "note": "Any half list with valid atom indices."
  },
  {
   "property": "C22",
   "status": "proved",
   "theorems": [
    "Verif.Neighbor.C22_one_of_each",
    "Verif.Neighbor.C22_half_equals_full",
    "Verif.Neighbor.C22_full_content",
    "Verif.Neighbor.C22_full_nodup",
    "Verif.Neighbor.C22_tolerance_edge",
    "Verif.Neighbor.C22_cell_neg",
    "Verif.Neighbor.C22_cell_nodup",
    "Verif.Neighbor.C22_cell",
    "Verif.NeighborTypes.C22_by_type"
   ],
   "note": "Exact arithmetic; the tolerance condition is necessary (C22_tolerance_edge)."
  },
  {
   "property": "C23",
   "status": "proved",
   "theorems": [
    "Verif.Neighbor.C23_lattice",
    "Verif.Neighbor.C23_det",
    "Verif.Neighbor.C23_any_steps",
    "Verif.Neighbor.C23_positions",
    "Verif.Neighbor.C23_wrapped",
    "Verif.Neighbor.C23_translations",
    "Verif.Neighbor.C23_same_images"
   ],
   "note": "Real arithmetic."
  },
  {
   "property": "C24",
   "status": "partial",
   "theorems": [
    "Verif.Neighbor.C24_complete_partial",
    "Verif.Neighbor.C24_list_partial",
    "Verif.Neighbor.C24_ratio_partial",
    "Verif.Neighbor.C24_orthogonal_partial",
    "Verif.Neighbor.C24_skewed",
    "Verif.Neighbor.C24_unwrapped"
   ],
   "note": "Complete for wrapped positions when the search range covers the cutoff (all orthogonal cells, and all cells with short enough cutoff). False for flat cells whose axes are pairwise reduced and for unwrapped positions in a cell that needs no reduction (both proved)."
  },
  {
   "property": "C25",
   "status": "proved",
   "theorems": [
    "Verif.Mlp.C25_forces_sum_zero",
    "Verif.Mlp.C25_order"
   ],
   "note": "Any values on the pairs, so pair and invariant features alike; exact arithmetic."
  },
  {
   "property": "C26",
   "status": "proved",
   "theorems": [
    "Verif.Mlp.C26_design_matrix"
   ],
   "note": "Design matrix of pair features; derivatives of invariant features are C29_derivative."
  },
  {
   "property": "C27",
   "status": "proved",
   "theorems": [
    "Verif.Mlp.C27_number",
    "Verif.Mlp.C27_pair",
    "Verif.Mlp.C27_gtinv"
   ],
   "note": ""
  },
  {
   "property": "C28",
   "status": "proved",
   "theorems": [
    "Verif.Mlp.C28_rows",
    "Verif.Mlp.C28_fast_equals_linear"
   ],
   "note": "Exact arithmetic; any radial functions and square root."
  },
  {
   "property": "C29",
   "status": "proved",
   "theorems": [
    "Verif.Mlp.C29_product_real",
    "Verif.Mlp.C29_layout2",
    "Verif.Mlp.C29_layout1",
    "Verif.Mlp.C29_layout1_error",
    "Verif.Mlp.C29_derivative"
   ],
   "note": "One layout drops products below 1e-20; the error bound is proved."
  },
  {
   "property": "C30",
   "status": "proved",
   "theorems": [
    "Verif.Mlp.C30_conjugate",
    "Verif.Mlp.C30_involution",
    "Verif.Mlp.C30_local",
    "Verif.Mlp.C30_channels",
    "Verif.Mlp.C30_channels_once",
    "Verif.Mlp.C30_ylm_key",
    "Verif.Mlp.C30_reconstruct"
   ],
   "note": ""
  },
  {
   "property": "C31",
   "status": "partial",
   "theorems": [
    "Verif.Mlp.C31_pair",
    "Verif.Mlp.C31_gtinv_unchanged",
    "Verif.Mlp.C31_gtinv_violation"
   ],
   "note": "Proved for pair features over the reals. False for invariant features: the sums are read from a flat copy of the coefficients that convert_unit does not scale (proved)."
  },
  {
   "property": "C32",
   "status": "proved",
   "theorems": [
    "Verif.HybridEval.C32_division",
    "Verif.HybridEval.C32_scaled",
    "Verif.HybridEval.C32_prediction",
    "Verif.HybridEval.C32_files",
    "Verif.HybridEval.C32_batch_single",
    "Verif.HybridEval.C32_batch_hybrid"
   ],
   "note": "Exact arithmetic; the single-model evaluator is an arbitrary function."
  },
  {
   "property": "C33",
   "status": "proved",
   "theorems": [
    "Verif.HybridEval.C33_renumber",
    "Verif.HybridEval.C33_renumber_violation",
    "Verif.HybridEval.C33_same_numbering",
    "Verif.HybridEval.C33_condition_met",
    "Verif.HybridEval.C33_matrix",
    "Verif.HybridEval.C33_matrix_example",
    "Verif.HybridEval.C33_prediction",
    "Verif.HybridEval.C33_prediction_example"
   ],
   "note": "Type indices must increase (they do for all parameter sets built from input, C33_condition_met); C33_renumber_violation shows that the hypothesis is needed."
  },
  {
   "property": "C34",
   "status": "partial",
   "theorems": [
    "Verif.MlpFiles.C34_listing_order",
    "Verif.MlpFiles.C34_content",
    "Verif.MlpFiles.C34_order_partial",
    "Verif.MlpFiles.C34_ten_files",
    "Verif.MlpFiles.C34_stale_files",
    "Verif.MlpFiles.C34_prediction_unaffected"
   ],
   "note": "The order is right exactly for at most nine files (proved both ways). Predictions do not depend on the order (exact arithmetic)."
  },
  {
   "property": "C35",
   "status": "partial",
   "theorems": [
    "Verif.MlpYaml.C35_round_trip_partial",
    "Verif.MlpYaml.C35_elements",
    "Verif.MlpYaml.C35_nobelium",
    "Verif.MlpYaml.C35_small_number",
    "Verif.MlpYaml.C35_type_info_not_stored"
   ],
   "note": "The full round trip is proved for files whose scalars PyYAML reads back as what was printed. Proved exceptions: the element No becomes a boolean, numbers printed like 1e-05 become strings, and a type list changed after construction (hybrid components) is not stored. The document is a list of scalar texts; PyYAML's block structure is not modelled."
  },
  {
   "property": "C36",
   "status": "partial",
   "theorems": [
    "Verif.MlpLegacy.C36_load_partial",
    "Verif.MlpLegacy.C36_convert_partial",
    "Verif.MlpLegacy.C36_other_line",
    "Verif.MlpLegacy.C36_other_line_after_pairs",
    "Verif.MlpLegacy.C36_blank_line_violation"
   ],
   "note": "Proved for every file whose optional sections come in order, each present or absent. False for any other trailing line, for instance an empty one, and for a section of types without a section of pairs: the load ends in UnboundLocalError (proved)."
  },
  {
   "property": "C37",
   "status": "partial",
   "theorems": [
    "Verif.Infile.C37_words",
    "Verif.Infile.C37_lines",
    "Verif.Infile.C37_short_line",
    "Verif.Infile.C37_last_wins",
    "Verif.Infile.C37_missing",
    "Verif.Infile.C37_not_setting",
    "Verif.Infile.C37_data_lines",
    "Verif.Infile.C37_distance_lines",
    "Verif.Infile.C37_comment_partial",
    "Verif.Infile.C37_comment_data",
    "Verif.Infile.C37_comment_data_crash",
    "Verif.Infile.C37_get_params",
    "Verif.Infile.C37_get_params_missing",
    "Verif.Infile.C37_get_params_error",
    "Verif.Infile.C37_distance",
    "Verif.Infile.C37_distance_unknown"
   ],
   "note": "Comments are harmless unless their first word contains 'data': then they are kept as data lines and can raise RuntimeError (proved)."
  },
  {
   "property": "C38",
   "status": "partial",
   "theorems": [
    "Verif.Params.C38_hybrid",
    "Verif.Params.C38_energies",
    "Verif.Params.C38_possible",
    "Verif.Params.C38_union_not_supported",
    "Verif.Params.C38_spin_check",
    "Verif.Params.C38_pair_params_misplaced",
    "Verif.Params.C38_spin_indices_repeated"
   ],
   "note": "Holds for element lists without spin channels. False with spin channels (repeated indices), and the pair parameters are not moved with the elements (both proved)."
  },
  {
   "property": "C39",
   "status": "proved",
   "theorems": [
    "Verif.Infile.C39_true",
    "Verif.Infile.C39_false",
    "Verif.Infile.C39_error"
   ],
   "note": "ASCII case mapping."
  },
  {
   "property": "C40",
   "status": "partial",
   "theorems": [
    "Verif.Divide.C40_extract",
    "Verif.Divide.C40_groups",
    "Verif.Divide.C40_elemental",
    "Verif.Divide.C40_empty",
    "Verif.Divide.C40_one_group_crash",
    "Verif.Divide.C40_alloy",
    "Verif.Divide.C40_written",
    "Verif.Divide.C40_alloy_written_partial",
    "Verif.Divide.C40_alloy_violation"
   ],
   "note": "Grouping, train/test split and written lines are proved for elements and alloys. Two proved violations: n_divide < 2 raises AttributeError, and an end composition with only positive energies makes the weights run out."
  },
  {
   "property": "C41",
   "status": "proved",
   "theorems": [
    "Verif.Supercell.C41_images",
    "Verif.Supercell.C41_same_crystal",
    "Verif.Supercell.C41_distinct_sites",
    "Verif.Supercell.C41_counts",
    "Verif.Supercell.C41_sizes",
    "Verif.Supercell.C41_non_diagonal"
   ],
   "note": "Diagonal expansion, over any field."
  },
  {
   "property": "C42",
   "status": "partial",
   "theorems": [
    "Verif.StrUtils.C42_reset_types",
    "Verif.StrUtils.C42_remove_partial",
    "Verif.StrUtils.C42_remove_violation",
    "Verif.StrUtils.C42_remove_range",
    "Verif.StrUtils.C42_remove_atom",
    "Verif.StrUtils.C42_remove_atom_negative",
    "Verif.StrUtils.C42_remove_atom_range",
    "Verif.StrUtils.C42_swap",
    "Verif.StrUtils.C42_swap_order",
    "Verif.StrUtils.C42_swap_empty_block",
    "Verif.StrUtils.C42_sort_wrt_types"
   ],
   "note": "remove() does not renumber the types, remove_atom mishandles negative indices, swap fails on an empty last block (all proved as violations)."
  },
  {
   "property": "C43",
   "status": "proved",
   "theorems": [
    "Verif.GridOptimal.C43_pareto",
    "Verif.GridOptimal.C43_dropped_beaten_by_kept",
    "Verif.GridOptimal.C43_survivor",
    "Verif.GridOptimal.C43_optimal"
   ],
   "note": ""
  },
  {
   "property": "C44",
   "status": "proved",
   "theorems": [
    "Verif.Rotation.C44_metric",
    "Verif.Rotation.C44_orthogonal",
    "Verif.Rotation.C44_distances",
    "Verif.Rotation.C44_recover"
   ],
   "note": "Real numbers with exact square roots; any cell with non-zero determinant."
  },
  {
   "property": "C45",
   "status": "proved",
   "theorems": [
    "Verif.FC2.C45_values",
    "Verif.FC2.C45_forces_derivative",
    "Verif.FC2.C45_forces_sum_zero",
    "Verif.FC2.C45_translation"
   ],
   "note": ""
  },
  {
   "property": "C46",
   "status": "partial",
   "theorems": [
    "Verif.Rows.C46_slice",
    "Verif.Rows.C46_sizes",
    "Verif.Rows.C46_full_set_missing",
    "Verif.Rows.C46_small",
    "Verif.Rows.C46_energy_only"
   ],
   "note": "The slice is right for data sets with forces. False otherwise: the full set is a point only when n//10 divides n, n<10 raises, energy-only data raises IndexError (all proved)."
  },
  {
   "property": "C47",
   "status": "partial",
   "theorems": [
    "Verif.StrUtils.C47_fields",
    "Verif.StrUtils.C47_types_partial",
    "Verif.StrUtils.C47_iff",
    "Verif.StrUtils.C47_interleaved",
    "Verif.StrUtils.C47_round_trip"
   ],
   "note": "Correct exactly when equal elements are contiguous (C47_iff); interleaved cells get wrong types (proved)."
  },
  {
   "property": "C48",
   "status": "proved",
   "theorems": [
    "Verif.Formation.C48_composition",
    "Verif.Formation.C48_outside",
    "Verif.Formation.C48_formation_energy",
    "Verif.Formation.C48_end_member",
    "Verif.Formation.C48_scale",
    "Verif.Formation.C48_many",
    "Verif.Formation.C48_elements",
    "Verif.Formation.C48_foreign_ignored",
    "Verif.Formation.C48_errors",
    "Verif.Formation.C48_find_endmembers"
   ],
   "note": "numpy's pinv is any function that satisfies the Penrose equations on the given matrix."
  },
  {
   "property": "C49",
   "status": "partial",
   "theorems": [
    "Verif.AtomOrder.C49_spin_types_partial",
    "Verif.AtomOrder.C49_empty_channel"
   ],
   "note": "Holds when every channel is occupied, for any index sort; false when a channel is empty (proved)."
  },
  {
   "property": "C50",
   "status": "proved",
   "theorems": [
    "Verif.Dataset.C50_construct_aligned",
    "Verif.Dataset.C50_missing_forces"
   ],
   "note": ""
  },
  {
   "property": "C51",
   "status": "partial",
   "theorems": [
    "Verif.Dataset.C51_names_lost",
    "Verif.Dataset.C51_witness"
   ],
   "note": "The property is false: every name is None after loading with an element order (proved)."
  },
  {
   "property": "C52",
   "status": "proved",
   "theorems": [
    "Verif.Regression.C52_zeroed_features"
   ],
   "note": ""
  },
  {
   "property": "C53",
   "status": "partial",
   "theorems": [
    "Verif.Regression.C53_singular_not_reported",
    "Verif.Regression.C53_check_partial"
   ],
   "note": "False: the flag is not forwarded, so fit returns a model with coefficients 1e30 (proved). The check alone is proved correct."
  },
  {
   "property": "C54",
   "status": "proved",
   "theorems": [
    "Verif.Infile.C54_data_lines",
    "Verif.Infile.C54_no_stress_without_force",
    "Verif.Infile.C54_dataset_no_stress_without_force"
   ],
   "note": ""
  },
  {
   "property": "C55",
   "status": "proved",
   "theorems": [
    "Verif.Params.C55_grid",
    "Verif.Params.C55_auto",
    "Verif.Params.C55_auto_small"
   ],
   "note": "Exact rationals; n_gaussians of 1 or 2 raises IndexError (proved)."
  },
  {
   "property": "C56",
   "status": "partial",
   "theorems": [
    "Verif.Formation.C56_names_partial",
    "Verif.Formation.C56_names_ignored"
   ],
   "note": "Names are right when none are given; a given list is ignored and names of an earlier call are used (proved)."
  },
  {
   "property": "C57",
   "status": "proved",
   "theorems": [
    "Verif.Mlp.C57_same_value",
    "Verif.Mlp.C57_radial",
    "Verif.Mlp.C57_forces",
    "Verif.Mlp.C57_stress"
   ],
   "note": "Real arithmetic; structures whose distinct sites are further apart than the tolerance of the neighbour list."
  },
  {
   "property": "C58",
   "status": "proved",
   "theorems": [
    "Verif.MlpYaml.parse_render",
    "Verif.MlpYaml.C58_cxx_reader"
   ],
   "note": "From the text lines; repr of floats is any function whose tokens std::stod reads back. The reader ignores enable_spins, so elements are the undoubled ones. The tables of invariants are not read in the model."
  },
  {
   "property": "C59",
   "status": "proved",
   "theorems": [
    "Verif.Mlp.C59_rows",
    "Verif.Mlp.C59_fast_equals_linear",
    "Verif.Mlp.C59_ylm_rules",
    "Verif.Mlp.C59_all_components",
    "Verif.Mlp.C59_program",
    "Verif.Mlp.C59_dropped_products"
   ],
   "note": "Real arithmetic. C59_program: the harmonics of the program, any table of rotation invariants (Spec.RotTable), any lattice translations closed under reversal. The condition on the energy (no product below the threshold of 1e-20) is needed: C59_dropped_products."
  },
  {
   "property": "C60",
   "status": "proved",
   "theorems": [
    "Verif.Mlp.C60_value",
    "Verif.Mlp.C60_same_value",
    "Verif.Mlp.C60_parity",
    "Verif.Mlp.C60_derivative",
    "Verif.Mlp.C60_channel"
   ],
   "note": "Real arithmetic; the zero vector is excluded. For maximum l equal to 0 compute_ylm_der reads one entry past the end of q, times zero."
  },
  {
   "property": "C61",
   "status": "proved",
   "theorems": [
    "Verif.Mlp.C61_harmonics",
    "Verif.Mlp.C61_no_net_force",
    "Verif.Mlp.C61_no_torque",
    "Verif.Mlp.C61_program"
   ],
   "note": "Real arithmetic; tables are any that are annihilated by the raising operator (Spec.RotTable), checked numerically for the tables in the repository up to their printed precision."
  },
  {
   "property": "C62",
   "status": "proved",
   "theorems": [
    "Verif.Mlp.C62_force_columns",
    "Verif.Mlp.C62_stress_columns",
    "Verif.Mlp.C62_forces",
    "Verif.Mlp.C62_stress"
   ],
   "note": "Real arithmetic; structures whose distinct sites are further apart than the tolerance of the neighbour list, where no radial function equals the threshold 1e-20 exactly and no product is dropped near the structure (both are jumps of the program)."
  },
  {
   "property": "C63",
   "status": "proved",
   "theorems": [
    "Verif.Mlp.C63_columns",
    "Verif.Mlp.C63_energy"
   ],
   "note": "Real arithmetic; turning is Rodrigues' formula (Spec.rotate); at both orientations no product is dropped."
  },
  {
   "property": "C64",
   "status": "proved",
   "theorems": [
    "Verif.Poscar.C64_round_trip",
    "Verif.Poscar.C64_stable",
    "Verif.Poscar.C64_error",
    "Verif.Poscar.C64_interleaved_violation",
    "Verif.Poscar.C64_cartesian_violation",
    "Verif.Poscar.C64_volume_violation"
   ],
   "note": "Numbers are rational. The three violations show what the files do not keep: interleaved elements, Cartesian coordinates and negative scale factors."
  },
  {
   "property": "C65",
   "status": "partial",
   "theorems": [
    "Verif.OptGeom.C65_cell",
    "Verif.OptGeom.C65_positions",
    "Verif.OptGeom.C65_volume_partial",
    "Verif.OptGeom.C65_volume_violation",
    "Verif.OptGeom.C65_last_call",
    "Verif.OptGeom.C65_guard",
    "Verif.OptGeom.C65_pair_model"
   ],
   "note": "Proved for positions and cell. For the relaxation of the volume the program returns the derivative times the volume (finding F49), so there the claim is false; the gradient for the positions and the returned enthalpy are proved. That scipy asks for the gradient only after a call at the same point is assumed, as the gradient does not read its argument."
  },
  {
   "property": "C66",
   "status": "proved",
   "theorems": [
    "Verif.OptGeom.C66_shape",
    "Verif.OptGeom.C66_start",
    "Verif.OptGeom.C66_fractional"
   ],
   "note": "The standard shape of the cell handed over by spglib is the hypothesis; the singular value decomposition after the change of coordinates is not modelled."
  },
  {
   "property": "C67",
   "status": "partial",
   "theorems": [
    "Verif.Sscha.C67_run",
    "Verif.Sscha.C67_score",
    "Verif.Sscha.C67_converged_partial",
    "Verif.Sscha.C67_mixing_one",
    "Verif.Sscha.C67_mixing_one_violation",
    "Verif.Sscha.C67_unconverged_violation",
    "Verif.Sscha.C67_no_initial_violation",
    "Verif.Sscha.C67_temperatures",
    "Verif.Sscha.C67_precondition"
   ],
   "note": "The loop is proved completely. That a converged run stopped changing is proved up to the factor mixing / (1 - mixing) and false for mixing = 1 (finding F50); that the reported properties belong to the returned force constants is proved for converged runs and false otherwise (F51)."
  },
  {
   "property": "C68",
   "status": "partial",
   "theorems": [
    "Verif.Md.C68_mixture",
    "Verif.Md.C68_forces",
    "Verif.Md.C68_fc2_forces",
    "Verif.Md.C68_general_forces",
    "Verif.Md.C68_static",
    "Verif.Md.C68_general_difference",
    "Verif.Md.C68_fresh_partial",
    "Verif.Md.C68_stale_violation",
    "Verif.Md.C68_range_violation"
   ],
   "note": "The mixtures are proved. That results belong to the current alpha holds only if the atoms moved since the last calculation (finding F55)."
  },
  {
   "property": "C69",
   "status": "partial",
   "theorems": [
    "Verif.Md.C69_heat_capacity",
    "Verif.Md.C69_heat_capacity_molar",
    "Verif.Md.C69_equilibration",
    "Verif.Md.C69_perturb_partial",
    "Verif.Md.C69_perturb_violation"
   ],
   "note": "The free energy by perturbation is not the documented one (finding F53); proved are the bounds that still hold."
  },
  {
   "property": "C70",
   "status": "proved",
   "theorems": [
    "Verif.Md.C70_exact",
    "Verif.Md.C70_states",
    "Verif.Md.C70_entropy",
    "Verif.Md.C70_zero_violation"
   ],
   "note": "Given that scipy returns the nodes and weights of Gauss-Legendre quadrature. F = E - T S for nonzero temperatures (finding F56)."
  },
  {
   "property": "C71",
   "status": "proved",
   "theorems": [
    "Verif.Md.C71_found",
    "Verif.Md.C71_none"
   ],
   "note": "Up to 1e-8 K in the comparison of temperatures, which are assumed to be nonnegative and below 1e10 K."
  },
  {
   "property": "C72",
   "status": "proved",
   "theorems": [
    "Verif.Elastic.C72_symmetric",
    "Verif.Elastic.C72_exact"
   ],
   "note": "At least two samples and an amplitude above 1e-8; the unit cell is taken as given, with or without optimization."
  },
  {
   "property": "C73",
   "status": "partial",
   "theorems": [
    "Verif.Polyfit.C73_best",
    "Verif.Polyfit.C73_derivative",
    "Verif.Polyfit.C73_choice",
    "Verif.Polyfit.C73_error",
    "Verif.Polyfit.C73_weighted_violation"
   ],
   "note": "Best fits, derivatives and the choice without weights are proved; with weights the score is not the leave-one-out score (F57), shown by a witness."
  },
  {
   "property": "C74",
   "status": "partial",
   "theorems": [
    "Verif.Thermo.C74_volumes",
    "Verif.Thermo.C74_temperatures",
    "Verif.Thermo.C74_sscha",
    "Verif.Thermo.C74_electron",
    "Verif.Thermo.C74_electron_phonon",
    "Verif.Thermo.C74_ti",
    "Verif.Thermo.C74_error",
    "Verif.Thermo.C74_missing_violation",
    "Verif.Thermo.C74_temperature_violation",
    "Verif.Thermo.C74_duplicate_violation"
   ],
   "note": "Grid, values, sums and errors are proved; the claim fails where a thermodynamic integration lacks an SSCHA result (F59), for temperatures that are not integers (F60) and for duplicates (F61), each shown by a witness."
  },
  {
   "property": "C75",
   "status": "partial",
   "theorems": [
    "Verif.Thermo.C75_entropy",
    "Verif.Thermo.C75_cp",
    "Verif.Thermo.C75_success",
    "Verif.Thermo.C75_missing_violation",
    "Verif.Thermo.C75_few_violation"
   ],
   "note": "Values are proved for every analysis that succeeds, and success under conditions on all temperatures; the last sentence fails: one temperature without an equilibrium (F62) or with three volumes or fewer (F63) stops the analysis."
  },
  {
   "property": "C76",
   "status": "partial",
   "theorems": [
    "Verif.Eos.C76_fine_grid",
    "Verif.Eos.C76_coarse_grid",
    "Verif.Eos.C76_fine_grid_high_violation",
    "Verif.Eos.C76_fine_grid_low_violation",
    "Verif.Eos.C76_coarse_grid_violation",
    "Verif.Eos.C76_volume_change",
    "Verif.Eos.C76_cartesian_violation",
    "Verif.Eos.C76_data",
    "Verif.Eos.C76_data_sorted",
    "Verif.Eos.C76_equilibrium",
    "Verif.Eos.C76_stale_violation",
    "Verif.Eos.C76_fit_table",
    "Verif.Eos.C76_gibbs",
    "Verif.Eos.C76_gibbs_error",
    "Verif.Eos.C76_gibbs_quadratic",
    "Verif.Eos.C76_gibbs_monotone"
   ],
   "note": "The bounds are proved if eps_max >= 0.9 and eps_min <= 1.1 and fail otherwise (F65); the equilibrium is that of the last successful fit, not of the last run (F66); optional cartesian positions are not updated (F67)."
  },
  {
   "property": "C77",
   "status": "partial",
   "theorems": [
    "Verif.StrGen.C77_displacements",
    "Verif.StrGen.C77_round_trip",
    "Verif.StrGen.C77_minimum_image",
    "Verif.StrGen.C77_const",
    "Verif.StrGen.C77_sequential",
    "Verif.StrGen.C77_sequential_volumes",
    "Verif.StrGen.C77_supercells_violation",
    "Verif.StrGen.C77_accumulate",
    "Verif.StrGen.C77_volumes",
    "Verif.StrGen.C77_ratios",
    "Verif.StrGen.C77_count_violation",
    "Verif.StrGen.C77_size",
    "Verif.StrGen.C77_size_bound",
    "Verif.StrGen.C77_standard",
    "Verif.StrGen.C77_auto_violation",
    "Verif.StrGen.C77_density",
    "Verif.StrGen.C77_density_violation",
    "Verif.StrGen.C77_files"
   ],
   "note": "Fails for displacements at several volumes (supercells are lost, F68), for densities without a named algorithm (F69), for fewer than 48 atoms (F70) and for the number of dense volume ratios (F71); the rest is proved."
  },
  {
   "property": "C78",
   "status": "partial",
   "theorems": [
    "Verif.TiLoad.C78_selection",
    "Verif.TiLoad.C78_entropy",
    "Verif.TiLoad.C78_free_energy",
    "Verif.TiLoad.C78_extrapolated",
    "Verif.TiLoad.C78_linear",
    "Verif.TiLoad.C78_integrate",
    "Verif.TiLoad.C78_missing",
    "Verif.TiLoad.C78_failed_violation",
    "Verif.TiLoad.C78_duplicate_violation"
   ],
   "note": "Fails for the threshold of failed simulations (per supercell) and for extrapolated data with a sampling point at one."
  },
  {
   "property": "C79",
   "status": "partial",
   "theorems": [
    "Verif.Accuracy.C79_errors",
    "Verif.Accuracy.C79_exact",
    "Verif.Accuracy.C79_keys",
    "Verif.Accuracy.C79_datasets",
    "Verif.Accuracy.C79_value_files",
    "Verif.Accuracy.C79_direction",
    "Verif.Accuracy.C79_names_violation",
    "Verif.Accuracy.C79_files_violation",
    "Verif.Accuracy.C79_log_violation",
    "Verif.Accuracy.C79_direction_violation"
   ],
   "note": "Fails for repeated names, for names that differ in special characters only, for files of forces that do not exist, and for the direction of forces."
  },
  {
   "property": "C80",
   "status": "partial",
   "theorems": [
    "Verif.DevApi.C80_fit",
    "Verif.DevApi.C80_coeffs",
    "Verif.DevApi.C80_data",
    "Verif.DevApi.C80_flags",
    "Verif.DevApi.C80_isolated",
    "Verif.DevApi.C80_saved",
    "Verif.DevApi.C80_spins",
    "Verif.DevApi.C80_errors",
    "Verif.DevApi.C80_features",
    "Verif.DevApi.C80_flags_violation",
    "Verif.DevApi.C80_failed_data_violation",
    "Verif.DevApi.C80_shared_violation",
    "Verif.DevApi.C80_append_violation",
    "Verif.DevApi.C80_append_fit_violation",
    "Verif.DevApi.C80_features_violation",
    "Verif.DevApi.C80_messages_violation"
   ],
   "note": "Flags are never switched on again by later data, failed calls change flags, shared or appended components break isolation and saving, n_features may be stale, and two exceptions are not the documented ones."
  },
  {
   "property": "C81",
   "status": "partial",
   "theorems": [
    "Verif.CalcApi.C81_eval",
    "Verif.CalcApi.C81_consistent",
    "Verif.CalcApi.C81_quiet",
    "Verif.CalcApi.C81_structures",
    "Verif.CalcApi.C81_jobs",
    "Verif.CalcApi.C81_returned",
    "Verif.CalcApi.C81_phonon",
    "Verif.CalcApi.C81_opt",
    "Verif.CalcApi.C81_coeffs",
    "Verif.CalcApi.C81_values_violation",
    "Verif.CalcApi.C81_stale_violation",
    "Verif.CalcApi.C81_converged_violation",
    "Verif.CalcApi.C81_unitcell_violation",
    "Verif.CalcApi.C81_coeffs_violation"
   ],
   "note": "Values reported after an internal calculation, a failed evaluation or reading structures are not those of the reported structures; the converged structure and the unit cell may be other ones; one coefficient becomes a number."
  },
  {
   "property": "C82",
   "status": "partial",
   "theorems": [
    "Verif.Fc.C82_shape",
    "Verif.Fc.C82_run",
    "Verif.Fc.C82_sampled",
    "Verif.Fc.C82_fc",
    "Verif.Fc.C82_given_violation",
    "Verif.Fc.C82_yaml_violation",
    "Verif.Fc.C82_missing_violation",
    "Verif.Fc.C82_mixed_violation",
    "Verif.Fc.C82_save_violation"
   ],
   "note": "Given arrays are ignored by the high-level call, displacements of phono3py files are dropped, missing data raise another exception, structures set directly are fitted to other displacements, and force constants of different runs are saved together."
  },
  {
   "property": "C83",
   "status": "partial",
   "theorems": [
    "Verif.GridSearch.C83_invariants",
    "Verif.GridSearch.C83_set",
    "Verif.GridSearch.C83_run",
    "Verif.GridSearch.C83_run_ok",
    "Verif.GridSearch.C83_distinct",
    "Verif.GridSearch.C83_history",
    "Verif.GridSearch.C83_grows",
    "Verif.GridSearch.C83_first",
    "Verif.GridSearch.C83_hybrid",
    "Verif.GridSearch.C83_read_back",
    "Verif.GridSearch.C83_saved",
    "Verif.GridSearch.C83_saved_hybrid",
    "Verif.GridSearch.C83_again_violation",
    "Verif.GridSearch.C83_small_violation",
    "Verif.GridSearch.C83_ignored_violation",
    "Verif.GridSearch.C83_large_violation",
    "Verif.GridSearch.C83_stale_violation",
    "Verif.GridSearch.C83_stress_violation",
    "Verif.GridSearch.C83_leftover_violation",
    "Verif.GridSearch.C83_save_first_violation"
   ],
   "note": "Repeated runs append, polynomial orders are ignored for invariants, stresses without forces are lost on reading, and files of earlier lists stay; proved otherwise."
  },
  {
   "property": "C84",
   "status": "partial",
   "theorems": [
    "Verif.Vasprun.C84_records",
    "Verif.Vasprun.C84_records_unique",
    "Verif.Vasprun.C84_converged",
    "Verif.Vasprun.C84_tested",
    "Verif.Vasprun.C84_compress_refused",
    "Verif.Vasprun.C84_compress",
    "Verif.Vasprun.C84_compress_md",
    "Verif.Vasprun.C84_unreadable_violation",
    "Verif.Vasprun.C84_relaxation_violation",
    "Verif.Vasprun.C84_tolerance_violation",
    "Verif.Vasprun.C84_one_step_violation"
   ],
   "note": "Violated for files that are no xml (F103), relaxations (F104), the tolerance of the convergence test (F105) and calculations of one step (F106). The conversion of text to numbers and the writing of xml are not modelled."
  },
  {
   "property": "C85",
   "status": "partial",
   "theorems": [
    "Verif.Openmx.C85_file",
    "Verif.Openmx.C85_files",
    "Verif.Openmx.C85_unique",
    "Verif.Openmx.C85_append",
    "Verif.Openmx.C85_blank_violation"
   ],
   "note": "Violated for a file with a blank line at its end (F107). The conversion of text to numbers is not modelled."
  },
  {
   "property": "C86",
   "status": "partial",
   "theorems": [
    "Verif.YamlData.C86_cell",
    "Verif.YamlData.C86_cells",
    "Verif.YamlData.C86_cells_error",
    "Verif.YamlData.C86_data_partial",
    "Verif.YamlData.C86_properties_partial",
    "Verif.YamlData.C86_electron",
    "Verif.YamlData.C86_optional_violation",
    "Verif.YamlData.C86_text_violation"
   ],
   "note": "Violated for data without forces or stress (F108) and for numbers printed without a decimal point (F109), which the two _partial theorems exclude. The syntax of yaml is not modelled."
  },
  {
   "property": "C87",
   "status": "partial",
   "theorems": [
    "Verif.SschaFiles.C87_dataset_partial",
    "Verif.SschaFiles.C87_restart_partial",
    "Verif.SschaFiles.C87_entries_partial",
    "Verif.SschaFiles.C87_symmetrized_partial",
    "Verif.SschaFiles.C87_save_error",
    "Verif.SschaFiles.C87_split",
    "Verif.SschaFiles.C87_free_energy",
    "Verif.SschaFiles.C87_none_violation",
    "Verif.SschaFiles.C87_unit_violation",
    "Verif.SschaFiles.C87_text_violation",
    "Verif.SschaFiles.C87_stress_violation"
   ],
   "note": "Violated for calculations without a decision on convergence (F110), after a failed setting of a unit (F111), and for numbers printed without a decimal point (F112, F113), which the two _partial theorems exclude. The syntax of yaml is not modelled."
  },
  {
   "property": "C88",
   "status": "partial",
   "theorems": [
    "Verif.Harmonic.C88_modes",
    "Verif.Harmonic.C88_run",
    "Verif.Harmonic.C88_no_constants",
    "Verif.Harmonic.C88_virial",
    "Verif.Harmonic.C88_equipartition",
    "Verif.Harmonic.C88_constants",
    "Verif.Harmonic.C88_anharmonic",
    "Verif.Harmonic.C88_exact",
    "Verif.Harmonic.C88_distribution",
    "Verif.Harmonic.C88_outliers_violation",
    "Verif.Harmonic.C88_flat_violation",
    "Verif.Harmonic.C88_distribution_violation",
    "Verif.Harmonic.C88_units_violation"
   ],
   "note": "Violated: outliers cannot be kept (F114), nothing is left for a mean of zero (F115), documented units (F116, F117). The distribution of the random numbers is a hypothesis on an expectation."
  },
  {
   "property": "C89",
   "status": "partial",
   "theorems": [
    "Verif.SschaApi.C89_single",
    "Verif.SschaApi.C89_progression",
    "Verif.SschaApi.C89_step_zero",
    "Verif.SschaApi.C89_chebyshev",
    "Verif.SschaApi.C89_given",
    "Verif.SschaApi.C89_missing",
    "Verif.SschaApi.C89_failed",
    "Verif.SschaApi.C89_run",
    "Verif.SschaApi.C89_run_ok",
    "Verif.SschaApi.C89_temporary",
    "Verif.SschaApi.C89_history",
    "Verif.SschaApi.C89_directory",
    "Verif.SschaApi.C89_eval",
    "Verif.SschaApi.C89_multiple",
    "Verif.SschaApi.C89_fraction_violation",
    "Verif.SschaApi.C89_chebyshev_violation",
    "Verif.SschaApi.C89_samples_violation",
    "Verif.SschaApi.C89_stale_violation",
    "Verif.SschaApi.C89_directory_violation",
    "Verif.SschaApi.C89_temporary_violation",
    "Verif.SschaApi.C89_multiple_violation",
    "Verif.SschaApi.C89_precondition_violation"
   ],
   "note": "Violated for fractional steps and repeated nodes (F118, F119), for one given number of samples (F120), for changed structures (F121), files in the working directory (F122), shown parameters (F123), numbers of samples of several structures (F124) and unused arguments (F125). Geometry optimization and elastic constants with SSCHA are not part of the histories."
  },
  {
   "property": "C90",
   "status": "partial",
   "theorems": [
    "Verif.Ase.C90_to_ase",
    "Verif.Ase.C90_round_trip",
    "Verif.Ase.C90_types_partial",
    "Verif.Ase.C90_types_violation",
    "Verif.Ase.C90_atoms",
    "Verif.Ase.C90_calculate",
    "Verif.Ase.C90_displacements",
    "Verif.Ase.C90_average",
    "Verif.Ase.C90_stress_violation"
   ],
   "note": "Violated by the types of atoms that are not listed together (F126) and by the stress (F127)."
  },
  {
   "property": "C91",
   "status": "partial",
   "theorems": [
    "Verif.MdApi.C91_requires",
    "Verif.MdApi.C91_run",
    "Verif.MdApi.C91_history",
    "Verif.MdApi.C91_shown",
    "Verif.MdApi.C91_kept",
    "Verif.MdApi.C91_fc2",
    "Verif.MdApi.C91_general",
    "Verif.MdApi.C91_calculators",
    "Verif.MdApi.C91_cells",
    "Verif.MdApi.C91_save",
    "Verif.MdApi.C91_saved_ti",
    "Verif.MdApi.C91_before_run",
    "Verif.MdApi.C91_ti",
    "Verif.MdApi.C91_ti_requires",
    "Verif.MdApi.C91_ti_succeeds",
    "Verif.MdApi.C91_ti_history",
    "Verif.MdApi.C91_ti_session",
    "Verif.MdApi.C91_thermostat_violation",
    "Verif.MdApi.C91_ti_thermostat_violation",
    "Verif.MdApi.C91_matrix_violation",
    "Verif.MdApi.C91_final_violation",
    "Verif.MdApi.C91_saved_alpha_violation",
    "Verif.MdApi.C91_stale_reference_violation",
    "Verif.MdApi.C91_set_calculator_violation",
    "Verif.MdApi.C91_save_ti_violation",
    "Verif.MdApi.C91_ti_steps_violation",
    "Verif.MdApi.C91_trajectory_violation",
    "Verif.MdApi.C91_reference_cell_violation"
   ],
   "note": "Violated by unknown thermostats (F128), stale values in files and results (F129, F130), stale flags of references (F131), files of integrations (F132), trajectories (F133) and references after a new supercell (F134)."
  },
  {
   "property": "C92",
   "status": "partial",
   "theorems": [
    "Verif.Disorder.C92_occupancy",
    "Verif.Disorder.C92_occupancy_refused",
    "Verif.Disorder.C92_occupancy_types",
    "Verif.Disorder.C92_random",
    "Verif.Disorder.C92_overfull",
    "Verif.Disorder.C92_average",
    "Verif.Disorder.C92_average_total",
    "Verif.Disorder.C92_create",
    "Verif.Disorder.C92_kept",
    "Verif.Disorder.C92_displaced",
    "Verif.Disorder.C92_not_displaced",
    "Verif.Disorder.C92_session",
    "Verif.Disorder.C92_left_over_violation",
    "Verif.Disorder.C92_name_violation",
    "Verif.Disorder.C92_stale_violation"
   ],
   "note": "Violated where rounded numbers do not add up (F135), for names longer than those of the lattice (F136) and by averages kept for new lattices (F137)."
  },
  {
   "property": "C93",
   "status": "partial",
   "theorems": [
    "Verif.Transition.C93_load",
    "Verif.Transition.C93_save",
    "Verif.Transition.C93_directory",
    "Verif.Transition.C93_transition",
    "Verif.Transition.C93_equal",
    "Verif.Transition.C93_crossing",
    "Verif.Transition.C93_files_transition",
    "Verif.Transition.C93_boundary",
    "Verif.Transition.C93_files_boundary",
    "Verif.Transition.C93_failed_fit_violation",
    "Verif.Transition.C93_entropy_violation",
    "Verif.Transition.C93_range_violation",
    "Verif.Transition.C93_parallel_violation",
    "Verif.Transition.C93_zero_pressure_violation",
    "Verif.Transition.C93_pressure_violation"
   ],
   "note": "Violated by failed fits and missing entropies (F138, F139), by transitions outside the data or without crossing (F140, F141), and by the grid of pressures (F142, F143)."
  },
  {
   "property": "C94",
   "status": "partial",
   "theorems": [
    "Verif.StructNeighbor.C94_sound_partial",
    "Verif.StructNeighbor.C94_neighbors_partial",
    "Verif.StructNeighbor.C94_distances_partial",
    "Verif.StructNeighbor.C94_each_atom_partial",
    "Verif.StructNeighbor.C94_minimum_partial",
    "Verif.StructNeighbor.C94_coordination_partial",
    "Verif.StructNeighbor.C94_orthogonal",
    "Verif.StructNeighbor.C94_active_partial",
    "Verif.StructNeighbor.C94_stale_violation",
    "Verif.StructNeighbor.C94_type_violation",
    "Verif.StructNeighbor.C94_same_element_violation",
    "Verif.StructNeighbor.C94_reduced_violation"
   ],
   "note": "Soundness holds for every cell; completeness needs pairwise reduced axes, atoms in the cell and a cell that is not flat (all hold for orthogonal cells with wrapped atoms). Violated in skewed cells (F144), for types without close neighbours (F145), for types of one element (F146) and after changes of positions (F147)."
  },
  {
   "property": "C95",
   "status": "partial",
   "theorems": [
    "Verif.SymCell.C95_refine",
    "Verif.SymCell.C95_refine_none",
    "Verif.SymCell.C95_init",
    "Verif.SymCell.C95_standardize",
    "Verif.SymCell.C95_reduce",
    "Verif.SymCell.C95_reduce_errors",
    "Verif.SymCell.C95_reduce_refused",
    "Verif.SymCell.C95_atoms_lost_violation",
    "Verif.SymCell.C95_other_axes_violation"
   ],
   "note": "Proved for structures whose types are smaller than the number of entries of n_atoms and, for reductions, for the structure with exactly the given axes; violated otherwise (F148, F149)."
  },
  {
   "property": "C96",
   "status": "partial",
   "theorems": [
    "Verif.StrGenSym.C96_refused",
    "Verif.StrGenSym.C96_free_axes",
    "Verif.StrGenSym.C96_fixed_axes",
    "Verif.StrGenSym.C96_succeeds",
    "Verif.StrGenSym.C96_all_reached",
    "Verif.StrGenSym.C96_basis_sets",
    "Verif.StrGenSym.C96_nothing",
    "Verif.StrGenSym.C96_sample_sym",
    "Verif.StrGenSym.C96_sample_volumes",
    "Verif.StrGenSym.C96_save",
    "Verif.StrGenSym.C96_basis_sets_violation",
    "Verif.StrGenSym.C96_stale_files_violation",
    "Verif.StrGenSym.C96_volume_violation"
   ],
   "note": "Proved for every input; the basis sets are not available with fixed axes or positions (F150), files of earlier sets stay (F151), and deformed volume samples keep the undeformed volume (F152)."
  },
  {
   "property": "C97",
   "status": "partial",
   "theorems": [
    "Verif.Matcher.C97_empty",
    "Verif.Matcher.C97_order",
    "Verif.Matcher.C97_shift",
    "Verif.Matcher.C97_sound",
    "Verif.Matcher.C97_match",
    "Verif.Matcher.C97_jump_violation"
   ],
   "note": "Proved for exact arithmetic; for positions or shifts off the grid of the rounding the result can jump by half a cell (F153)."
  },
  {
   "property": "C98",
   "status": "partial",
   "theorems": [
    "Verif.CalcCli.C98_success",
    "Verif.CalcCli.C98_files",
    "Verif.CalcCli.C98_unique",
    "Verif.CalcCli.C98_refused",
    "Verif.CalcCli.C98_relaxed_violation",
    "Verif.CalcCli.C98_fixed_violation",
    "Verif.CalcCli.C98_yaml_violation"
   ],
   "note": "Violated by optimizations that are asked for together with other calculations (F154, F155) and by --str_yaml (F156)."
  },
  {
   "property": "C99",
   "status": "partial",
   "theorems": [
    "Verif.DevCli.C99_files",
    "Verif.DevCli.C99_success",
    "Verif.DevCli.C99_unique",
    "Verif.DevCli.C99_curve",
    "Verif.DevCli.C99_stale_violation",
    "Verif.DevCli.C99_name_violation"
   ],
   "note": "Proved for every input; files of earlier models stay (F157) and the name of the parameter file is ignored for hybrid models (F158)."
  }
 ]
}