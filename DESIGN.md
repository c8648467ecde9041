# Formal model of pypolymlp in Lean 4 — design

## 1. What is modelled, and how

The model is *shallow*: every modelled Python/C++ function becomes a total Lean
function that follows the source branch by branch; exceptions are values
(`Except Err _` / `Option`), loops are folds or structural recursion, mutable
arrays are lists or functions that are returned updated.  Each definition carries a
comment citing file and lines in `/repo`, and every simplification is named there.

Global simplifications (not repeated at each definition):

* **Floating point → exact arithmetic.**  `float`/`double` values are elements of an
  arbitrary (linearly ordered) field `K`, of `ℚ` or of `ℝ`.  Rounding errors, overflow,
  NaN and infinities are outside the model, except where a NaN is the point of the
  property (then it is an explicit constructor).
* **C++ `int` → ℤ/ℕ** without wrap-around.
* **Parallel loops** (`#pragma omp`) are modelled as a fold over an arbitrary permutation
  of the iterations when the order matters; data races are not modelled.
* Third-party code (numpy, scipy `posv`, yaml, phonopy, spglib, symfc, LAMMPS, ASE) is
  represented by its documented result (as a definition when it is simple, as a
  universally quantified parameter when it is not).

Layout of `/verif/lean/Verif`:

* `Model/*.lean`  – definitions that mirror the code (with citations);
* `Spec/*.lean`   – small independent specifications used by the statements;
* `Lemmas/*.lean` – helper lemmas and proofs;
* `Props/*.lean`  – the property theorems, each with a non-vacuity `example` beside it.

Which source each model module mirrors (paths below `src/pypolymlp`; `cxx` = `cxx/src`):

| module | source |
|--------|--------|
| `Split` | `core/utils.py` split_ids_train_test |
| `Structure`, `AtomOrder`, `Spins` | `core/data_format.py`, `core/dataset_utils.py` (element order, spin channels) |
| `Dataset`, `DatasetObj` | `core/dataset_utils.py`, `core/dataset.py` (split, slice, sort, subtraction, parsing histories) |
| `DataLines`, `Infile`, `Params`, `Hybrid` | `core/parser_infile.py`, `core/parser_polymlp_params.py`, `core/params_utils.py`, `core/params.py` |
| `Sequential`, `Rows`, `Weights`, `Regression` | `mlp_dev/core`, `mlp_dev/standard`, `mlp_dev/gradient` (normal equations, blocks, row layout, weights, solvers, model selection), `cxx/compute/py_model.cpp` |
| `HybridEval`, `MlpFiles` | `calculator/properties_{single,hybrid}.py`, `core/io_polymlp.py`, `cxx/compute/py_hybrid_model.cpp` |
| `MlpYaml`, `MlpLegacy` | `core/io_polymlp_yaml.py`, `core/io_polymlp_legacy.py`, `cxx/polymlp/polymlp_parse_potential.cpp` |
| `Divide`, `GridOptimal`, `Formation` | `utils/dataset_divide*.py`, `utils/grid_optimal.py`, `calculator/compute_formation_energies.py`, `calculator/utils/composition_utils.py` |
| `StrUtils`, `Supercell`, `Rotation`, `FC2` | `utils/structure_utils.py`, `utils/phonopy_utils.py`, `utils/supercell_utils.py`, `calculator/utils/rotation_utils.py`, `calculator/utils/lammps/lammps_structure.py` (rotation), `calculator/utils/fc_utils.py` |
| `Neighbor`, `NeighborCell` | `cxx/compute/neighbor_{half,full,cell}.cpp` |
| `MlpMap`, `MlpPoly`, `MlpPot`, `MlpGtinv`, `MlpNlm`, `MlpFn`, `MlpYlm`, `MlpEval` | `cxx/polymlp/*` (mapping, polynomial terms, potential, invariants, channels, radial functions, spherical harmonics), `cxx/compute/{polymlp_eval,model,local_pair}.cpp` |
| `MlpGtEval` (proofs in `MlpGtContract`, `MlpGtChan`, `MlpGtFeat`, `MlpGtArray`, `MlpGtSide`, `MlpGtRows`, `MlpGtRot`, derivatives and turning in `Props/MlpGtGrad`) | `cxx/compute/polymlp_eval.cpp` (eval_gtinv), `cxx/compute/local.cpp` (gtinv_d), `cxx/polymlp/polymlp_{potential,features,features_utils,model_params_gtinv}.cpp` for invariants |
| `Poscar` | `utils/vasp_utils.py` (write_poscar_file), `core/interface_vasp.py` (Poscar) |
| `OptGeom` | `calculator/opt_geometry.py` (target functions and gradients), `utils/spglib_utils.py` (construct_basis_cell), `utils/symfc_utils.py` (_basis_cartesian_to_fractional_coordinates without the singular value decomposition) |
| `Py`, `Dict`, `Cx` | Python values, insertion-ordered dictionaries, complex numbers |
| `Sscha` | `calculator/sscha/sscha_core.py` (_convergence_score, _single_iter, _final_iter, precondition, run), `calculator/sscha/api_sscha.py` (_run_precondition, _run_target_sscha); sampling, the potential and the fit of force constants are one arbitrary function |
| `Md` | `calculator/utils/ase_calculator_ref.py` (calculate of the three calculators, without stress), `calculator/md/api_md.py` (alpha), `calculator/md/ase_md.py` (_calc_averages), `calculator/md/api_ti.py` (run_thermodynamic_integration, _calc_energy_entropy), `calculator/md/md_utils.py`; ASE's integrators are an arbitrary function, ASE's cache of results is modelled as documented there |
| `Elastic` | `calculator/compute_elastic.py` (eval, _symmetrize, run), `utils/tensor_utils_O4.py` (projectors); the potential and the rotations of the space group are given; adiabatic corrections and output are not modelled |
| `Polyfit` | `calculator/utils/fit_utils.py` (loocv, Polyfit.fit, eval, eval_derivative); `np.linalg.solve` fails exactly on singular matrices, a score with a division by zero is no score; the stored error is not modelled |
| `Thermo` | `calculator/thermodynamics/thermodynamics_parser.py` (loading, common grid), `thermodynamics_grid.py` (GridPointData.add, GridVT, sums, fits), `thermodynamics_ref.py`, `thermodynamics_utils.py` (FittedModels), `api_thermodynamics.py` (Thermodynamics, `_run_standard`) and `api/pypolymlp_thermodynamics.py` 25-112; harmonic properties and the fit of an equation of state (phonopy), the choice of reference files and the contents of yaml files are parameters; the shared point for missing data is not tracked as an object |
| `Eos` | `calculator/compute_eos.py` (`_set_eps`, `run`, the table of the fit), `calculator/utils/eos_utils.py` (`eval_gibbs_pressure`), `utils/structure_utils.py` (isotropic_volume_change); the equation-of-state fit (phonopy) is a parameter that may fail; `run_eos_fit_pymatgen` and the YAML writer are not modelled |
| `StrGen` | `api/pypolymlp_str.py` (all methods but the readers of files), `core/strgen.py` (sizes, sampling, volume ratios, file names), `core/displacements.py`; random numbers and the construction of supercells are arbitrary, samples added before an exception and the text of the log are not modelled, `random_structure_algo2` (deprecated) is not modelled |
| `TiLoad` | `calculator/thermodynamics/ti_utils.py` (all functions but `_extrapolate_data_polynomial`, which is not called); the parsed yaml file is given, `scipy.integrate.simpson` is that of scipy 1.11 and later, reading of files and printing are not modelled |
| `Accuracy` | `mlp_dev/core/eval_accuracy.py` (PolymlpEvalAccuracy), `core/utils.py` (rmse); the potential is an arbitrary function, the text of reports and `write_error_yaml` are not modelled |
| `DevApi` | `mlp_dev/pypolymlp.py` (Pypolymlp), `core/params.py` (PolymlpParams: sharing, flags, tags), `mlp_dev/core/dataclass.py`, `core/io_polymlp.py` (save_mlps); reading data, regression, prediction and reading files are arbitrary functions that may fail; direct changes of the returned parameter object by the caller are not modelled |
| `CalcApi` | `api/pypolymlp_calc.py` (PypolymlpCalc), `calculator/properties.py` (Properties: evaluated values, coefficients given); the potential and the calculations are arbitrary programs that evaluate structures and may fail; files, formation energies and force constants are not part of this module |
| `Fc` | `calculator/fc.py` (PolymlpFC), `api/pypolymlp_calc.py` (init_fc, run_fc, save_fc); symfc, the potential, random numbers and the construction of a displaced structure are arbitrary functions; arrays are taken to have three axes; the cutoff and messages are not modelled |
| `GridSearch` | `utils/grid_search/{grid_utils,grid_enum,grid_io,api_grid_search}.py`, `core/parser_polymlp_params.py` (set_params); exact rationals for cutoffs and regularisation parameters, the table of atomic sizes and the text of numbers are parameters; spins, electrons, conditional pairs and the version of invariants are left out of the reader |
| `Vasprun` | `core/interface_vasp.py` 14-367 and 509-584 (`Vasprun`, `VasprunMD`, `parse_properties_from_vaspruns`, convergence test), `utils/vasprun_compress.py`; an xml file is a tree, the conversion of text to numbers is a parameter, numbers are exact |
| `Openmx` | `core/interface_openmx.py` (reading of `.md` files: atom lines, axes, forces, energies, order of types), the conversion of text to numbers is a parameter, numbers are exact |
| `YamlData` | `utils/yaml_utils.py` 29-165 (`save_cell`, `save_cells`, `save_data`, `load_cell`, `load_cells`, `load_data`), `core/interface_yaml.py` 97-171 (`parse_property_yamls`, electronic properties); a file is a tree, the text of numbers is reduced to whether yaml reads it as a number |
| `SschaFiles` | `calculator/sscha/sscha_io.py` 17-149 (`save_sscha_yaml`), `sscha_data.py`, `sscha_utils.py` (`symmetrize_properties`), `sscha_restart.py` (`Restart` with units), `core/interface_yaml.py` 33-95 (data sets of SSCHA, split by imaginary frequencies); a file is a tree as in `YamlData`, symmetry projections are parameters |
| `Harmonic` | `calculator/sscha/harmonic_real.py` 25-27, 103-385 (`HarmonicReal.run` and its results), `sscha_distribution.py` 49, 65-67, 182-196, `core/units.py` 11 with `calculator/md/ase_md.py` 281; real numbers, the eigenvalue solver (any that meets its specification), random numbers, potential and order of a set are parameters |
| `SschaApi` | `calculator/sscha/sscha_params.py` (temperatures, numbers of samples, supercell matrix), `api/pypolymlp_sscha.py` 24-204, 414-427 (sessions), `sscha_core.py` 78-86 and 105-137 (samples, initial force constants), `api_sscha.py` 12-129, `api_properties.py` 80-135 (free energies of structures, without symmetrization); the iterations are an arbitrary function (they are modelled in `Sscha`), parameters that are only handed on are left out |
| `Ase` | `calculator/utils/ase_utils.py` 31-57 (conversion of structures), `calculator/utils/ase_calculator.py` 61-75, `ase_calculator_ref.py` 19-24 and 107 (displacements); the tables of elements and the potential are parameters, ASE's `Atoms` is modelled as documented there |
| `MdApi` | `calculator/md/api_md.py`, `api/pypolymlp_md.py`, `calculator/md/ase_md.py` 104-181, 260-304 and 417-474 (observers, averages, files), `calculator/md/api_ti.py`; reading of files, supercells, conversions and the dynamics of ASE are parameters |
| `Disorder` | `postproc/disorder_utils.py`, `postproc/disorder.py`; the potential, reading of lattices, supercells and the generation of displaced structures are parameters; the samples of `random` and the order of sets are arbitrary functions; printing is left out |
| `Transition` | `calculator/thermodynamics/thermodynamics_io.py`, `transition.py`, `calculator/utils/fit_utils.py` 188-238, `save` of `api_thermodynamics.py`, `PypolymlpTransition`; `fsolve` is an arbitrary function, files are the data in them, printing to the terminal is left out |
| `StructNeighbor` | `utils/structure_neighbor.py` without its command line, `cxx/src/compute/neighbor.cpp`; translations from `NeighborCell`; writing to types beyond the number of distinct types does nothing |
| `SymCell` | `utils/spglib_utils.py` `SymCell`, `standardize_cell`, `ReducedCell`; spglib's functions are parameters; comments are not modelled |
| `StrGenSym` | `core/strgen_sym.py`, `api/pypolymlp_sscha_str.py`, `utils/structure_utils.py` `multiple_random_deformation`; standardization, space groups and the basis of displacements are parameters; the messages of the verbose mode are not modelled |
| `Matcher` | `calculator/utils/structure_matcher/matcher.py` `_argsort_2d`, `_sort_positions`, `_round_positions`, `_apply_origin_shifts_1d`, `normalize_positions`; exact arithmetic, so that `np.arange(0, 1, 1/n)` has `n` entries; the test driver at the end of the file is not modelled |
| `CalcCli` | `api/run_polymlp_calc.py` `check_variables`, `run_calculations`, `run` with the options of `api/common_args.py`; `api/pypolymlp_calc.py` `load_poscars`, `load_structures_from_files`, `save_poscars`, `init_fc`, `run_fc`; the calls of the object are those of `CalcApi`; several files of one calculation are one file; not modelled: printing, `--run_ltc` |
| `DevCli` | `api/run_polymlp.py` `run`; `mlp_dev/pypolymlp.py` `save_params`, `save_learning_curve`, `save_mlp`, `save_errors` as writers of files, `core/features_attr.py` `write_polymlp_params_yaml` (names), `io_polymlp.py` `save_mlps` (names); the calls of the object are those of `DevApi`; not modelled: printing, files in `./predictions`, the empty file that a failing list of features leaves |
| `AtomicEnergies` | `utils/atomic_energies/atomic_energies.py` and its two tables, verbatim; `float` and the text of numbers are parameters |
| `Electron` | `utils/vasp_utils.py` 153-258 (`ElectronProperties`); phonopy's `ElectronFreeEnergy` is a parameter (chemical potential, energy, entropy and free energy as functions of temperature); reals stand for floats |
| `ElectronFiles` | `api/pypolymlp_utils.py` 54-98 (`compute_electron_properties_from_vaspruns`): names of the files and the loop over them |
| `PolyInv` | `polyinv/polyinv_utils.py` (all), `polyinv/api_polyinv.py` 18-99 (`run_enum`, `run_enum_single_order`, `solve`); the numerical integral is the integral, the eigenvalue problem is a parameter, the limits of `build_projector` are from `projector.cpp` 19-42 |
| `Projector` | `polyinv/cxx/src/projector/{precondition,projector}.cpp`, `polyinv/projector.py`: rows, tables of coefficients, products along couplings, the writes of the parallel loops; the functions for orders 3 to 8 are one recursion; the Clebsch-Gordan coefficient of GSL is a parameter with stated properties; no overflow of `int` |
| `TensorSym` | `utils/tensor_utils_O2.py` 11-44 (projectors for second-order tensors), `utils/symfc_utils.py` 55-65 (`compute_projector_cartesian`), `calculator/sscha/sscha_utils.py`, `calculator/sscha/api_properties.py` 93-94, 106-115; rotations and the basis of symmetric displacements (symfc) are parameters with stated properties |
| `AutoProto` | `calculator/auto/autocalc_prototypes.py`, `autocalc_utils.py` (`Prototype`), the tables of `structures_{element,binary}.py` without axes and positions: the loop over prototypes on the object of `CalcApi`, cells from first principles, names of directories; not modelled: plots, text of the files |
| `AutoDist` | `calculator/auto/autocalc_distribution.py`: energies per atom, comparison with first principles, end members, formation energies, structures on the hull, optimized structures; not modelled: plots, text of the files, the order of the lists of structures on the hull |
| `Repository` | `api/pypolymlp_repository.py` (files of the entry, comparisons, figures by composition), `core/io_polymlp.py` (`find_mlps`, `convert_to_yaml` for lists), `calculator/auto_repository/figures_summary.py` (points of the curves), `web.py` (active potentials); figures, archives and the text of web pages are not modelled |
| `Phonon` | `calculator/compute_phonon.py`, `calculator/utils/phonon_utils.py` (`is_imaginary`), `api/pypolymlp_calc.py` 324-428 (phonons, quasi-harmonic calculations); phonopy is a parameter, the state of its object that is read later is modelled; the text of files and the results of `PhonopyQHA` are not modelled |
| `Recip` | `calculator/sscha/harmonic_reciprocal.py` (without the evaluation of forces), `sscha_core.py` 139-185, 207-229, 336-337, 344-385 (what the iterations take from it, and the files of a temperature); phonopy is a parameter that keeps force constants and its last mesh between calls; force constants have the right shape |
| `Commands` | `api/run_polymlp_str.py`, `run_polymlp_sscha_str.py`, `run_polymlp_sscha.py`, `run_polymlp_md.py`, `run_polymlp_thermodynamics.py`, `run_polymlp_utils.py`, `pypolymlp_utils.py` 155-181, `common_args.py` 6-55, 159-204, 229-365; a program is a list of calls of the API with the exception that it raises itself, and each call may raise an exception that depends on the calls before it; `argparse` is not modelled, options are a record with the declared defaults |
| `LammpsEval` | `calculator/utils/lammps/lammps_command.py` 20-190, `properties_lammps.py` 12-75, `lammps_structure.py` 17-103, 140-172; LAMMPS is a machine with a box and atoms by identifiers, its pair potential and the local order of its atoms are parameters; numbers are exact, log files are not modelled |
| `Cost` | `postproc/count_time.py` 15-181; reading of files, supercells and the time of evaluations are parameters; printing is not modelled |
| `Phono3py` | `core/interface_phono3py.py` 15-121, `core/displacements.py` 10-67, `mlp_dev/pypolymlp.py` 500-556, `core/dataset.py` 58-110 for phono3py; what phono3py reads from a file is given, arithmetic is exact |
| `CGFit` | `mlp_dev/gradient/fit_cg.py` 40-58, with the solver `solvers_cg.py` of `Regression`; exact arithmetic, `0/0` (NaN in numpy) is the error `zeroDivision` |
| `Kim` | `utils/kim_utils.py`, `api/pypolymlp_utils.py` 228-267; reading and conversion of potentials, archives, the year and the license file are parameters; `kimspec.edn` as tokens (quotation marks within texts are not considered) |
| `LammpsFiles` | `calculator/utils/lammps/lammps_utils.py` 16-54, 74-180; lines split at white space, conversion of words to numbers a parameter, exact numbers |
| `GtinvFiles` | `polyinv/polyinv_io.py` 34-80, `polyinv/binary/convert_binary.py`, `check_binary.py`, `convert_txt.py` 75-127 (without the text), `api/developer/run_polymlp_polyinv.py` 70-78, `cxx/src/polymlp/polymlp_gtinv_binary.cpp`, `polymlp_gtinv_data.cpp` 35-66, `polymlp_read_gtinv.cpp` 23-58; files as bytes, doubles by their 64 bits |
| `CalcFeatures` | `calculator/compute_features.py`, `api/pypolymlp_calc.py` (`run_features`, structures), `core/dataset_utils.py` 11-46 (`replace_types` with repeated elements), `mlp_dev/core/features.py` 13-19, 67-134, `core/params.py` 212-241; the features of a structure by the C++ library are a parameter |
| `LegacyCxx` | `cxx/src/polymlp/polymlp_parse_potential_legacy.cpp` and `.h` (all), the choice of the reader in `polymlp_api.cpp` 20-32; memory that is never initialised and a missing end of the last line are parameters; a word is read as a whole |
| `Crash` | `core/io_polymlp.py` 25-51, `core/io_polymlp_yaml.py` 17-86 as steps on the disk (one character at a time, in order), 102-105 and 154 with the yaml library as a parameter; `getline` of `polymlp_parse_potential.cpp` 60-81 |
| `Parallel` | the OpenMP loops `neighbor_half.cpp` 30-75, `polymlp_eval.cpp` 70-118, 143-176, 212-280, 355-403, `py_model.cpp` 40-53, `py_hybrid_model.cpp` 62-104 as sequences of accesses to shared memory; the disabled loop `py_properties_fast.cpp` 58-75 (number of rows of the forces only) |
| `FeatAttr` | `features_attr.py` 12-118 (feature lists and `polymlp_params.yaml`, one file as a structured value; printing of numbers not modelled), `py_features_attr.cpp`, the part of `py_params.cpp` that reads the pair conditions |
| `SameCrystal` | no new code: relates the models of the cell search, of the evaluators, of the design matrices and of `get_supercell` |
| `Turned` | no new code: relates the models of the cell search, of the evaluators and of the design matrices for a structure and its turned copy |
| `MinimizeCg` | `calculator/_scipy/_optimize.py` (`minimize_cg`), `calculator/_scipy/_linesearch.py` (`scalar_search_wolfe2`, `_zoom`, `_cubicmin`, `_quadmin`, `scalar_search_armijo`, the searches that are not monotone); `DCSRCH` of scipy is a parameter |
| `BasisFn` | `cxx/src/polymlp/polymlp_basis_function.cpp` (all radial functions and their slopes) |
| `Sgd` | `mlp_dev/gradient/solvers_sgd.py` (`_func_adam`, `solver_sgd`) |
| `Bader` | `core/interface_bader.py` (`ACF`, `BCF`) |
| `PhononBand` | `calculator/utils/phonon_band_utils.py`; Phonopy and `load_phonon` are parameters |
| `YlmDep` | `cxx/src/polymlp/polymlp_mlipkk_spherical_harmonics.{h,cpp}`, `polymlp_functions_interface.cpp` 145-170 (`get_ylm_polar`); real arithmetic |
| `Ewald` | `cxx/src/dev/longrange/ewald.{h,cpp}`; the neighbour search and the error function are parameters |
| `Verlet` | `misc/dev/md_own`: `utils.py`, `integrators/{operator,integrator_base,integrator_verlet}.py`; the Hamiltonian and the normal random numbers are parameters |
| `DisAn` | `misc/dev/disorder_analytical.py`; the features and polynomials of both potentials and the occupancies are parameters |
| `ChargeFeat` | `cxx/src/dev/charge/compute_features.cpp` 50-147, `model_charge_py.cpp`; neighbours, radial functions, spherical harmonics and sums of products are parameters |
| `NeighborTypes` | `cxx/src/compute/neighbor_full.cpp` 81-131 (getters by type); the vectors and the atoms, filled by two equal loops in the code, are filled by one loop of pairs |

Not modelled: parts of the modules above that the table does not name, `misc`,
`mlp_dev/gradient` (stochastic gradients), the command line programs of `api` that the table does not name, the LAMMPS
packages (`calculator/utils/lammps` apart from rotations, evaluation and files), the numbers in the tables of invariant
coefficients, and all plotting and printing.

## 2. Trusted base

* Lean 4.33.0 kernel; Mathlib (compiled from the installed source) for definitions used
  in statements (`ℚ`, `ℝ`, `List.Perm`, `Matrix`, `Finset.sum`, …).
* Axioms: every theorem listed in `MANIFEST.json` depends on a subset of `propext`,
  `Classical.choice`, `Quot.sound`.  No `sorry`, no own axioms, no `native_decide`,
  no `bv_decide`.
* The correspondence between the Lean definitions and the Python/C++ source is by
  reading (citations); it is not machine-checked.
* Not modelled: file-system and process effects (apart from the order of the writes in `Crash`
  and the command lines of `DevCli`), console output, plotting, the numerical
  content of the invariant tables (`*.bin`; the theorems that need it assume
  `Spec.TableOK` / `Spec.RotTable` — a script outside Lean found every table in the
  repository to satisfy the rotation condition up to its printed precision, 3e-12),
  compilation / pybind11 glue, third-party solvers.
* Threads are interleaved access by access on one memory (`Spec/Parallel`).  OpenMP guarantees
  this only for programs without data races; that the loops have none is proved (C121).

## 3. Plan per property

| id | model | method |
|----|-------|--------|
| C01, C02 | `split_ids_train_test` over ℕ × ℚ with numpy `linspace`/`round` (half to even) as definitions | strict monotonicity of the rounded grid (step ≥ 1), complement of a sublist of `range n` |
| C03, C04, C05 | `DatasetDFT` as parallel flat arrays; abstract spec = list of records; `pack : List Rec → DatasetDFT` | refinement: `op (pack rs) = pack (spec_op rs)`; induction on records |
| C06 | `Dataset` with the once-only flag; op language (parse, split, slice, sort, subtract) | invariant by induction over histories for each object; negation with witness for the phono3py path of `set_datasets_from_single_fileset` which builds fresh objects; `_partial` for the rest |
| C07, C08 | batches of rows, `sum_xtx`, blocks, `symmetrize_xtx` | induction over batches; block-index lemma; negation at `n_features = threshold` |
| C09 | sums over rows | algebra (`ring`, sum manipulation) |
| C10 | incremental diagonal updates, solver as a parameter that may fail | loop invariant |
| C11, C12 | argmin over a list; CG loop with aliasing made explicit | induction; C12 negated by witness |
| C13 | `round_scales`, `scaled_coeffs` | field algebra |
| C14 | weights over an ordered field; stress weights over ℝ with `Real.rpow`/`logb` | case analysis, monotonicity of `rpow` |
| C15, C46 | `set_index` row layout | injectivity/cover by prefix sums |
| C16–C18 | list-of-atoms operations | `List.Perm`, filter lemmas |
| C19, C20 | spin doubling, active Gaussians | induction on elements; decision logic |
| C21, C22 | CSR construction with arrays; half-space rule | loop invariants; case analysis on the keep rule |
| C23, C24 | 3×3 integer column operations, translation range | unimodularity; triangle inequality; witness of an incomplete range |
| C25, C26, C28, C29 | pair lists, polynomial terms, mapped terms | `Finset`/list sum manipulation, product rule, Euler homogeneity |
| C27, C30 | enumeration loops, channel numbering | nodup/complete, arithmetic |
| C31 | two copies of the coefficients | negation for invariant features + partial for pair |
| C32, C33 | slicing by cumulative counts; active atoms | list lemmas |
| C34 | lexicographic sort of file names | negation by witness (ten or more files), partial for < 10 |
| C35, C36 | abstract file record / line-oriented parser | round trip; negations for recorded violations |
| C37, C39 | token lists / strings | induction |
| C38 | element lists | list lemmas |
| C40, C43 | group loops, Pareto filter | invariant; decision logic |
| C41, C42, C47 | structure arrays | list lemmas; C47 negated in general, partial for contiguous elements |
| C44, C45, C48 | real linear algebra | algebra |
| C49 | spin channels as index sets; numpy sort as any permutation that sorts | count lemmas; negation for an empty channel |
| C50 | data set construction from parsed files | refinement to records |
| C52 | scales below the threshold and zeroed columns | sum algebra |
| C55 | Gaussian grids | list lemmas over ℚ |
| C51 | dataset loading with element order | negation (names become None) |
| C53 | singular check of the normal equations | negation: the flag is not forwarded |
| C54 | data lines of the input file | refinement of the line loop to a filter per tag |
| C56 | history of compute and convex_hull calls | invariant; negation for given names |
| C57 | radial functions over ℝ; energy as a function of a curve of structures | Mathlib derivatives, sum and chain rule over the neighbour list, locality at the cutoff |
| C58 | line parser of the C++ reader on rendered text | induction over the rendered lines |
| C59 | evaluator and feature program for invariants on the channels | list sum manipulation; reversal symmetry Y(-d) = (-1)^l Y(d); for the shear components, features are annihilated by rotations about z (sum of m is zero), by the raising operator (table) and hence by the lowering operator |
| C60 | recurrences and azimuth loop of the spherical harmonics | loop invariants against derivatives of Legendre polynomials; derivative along curves |
| C61 | the same programs | weighted sums of the force columns; the torque is the antisymmetric part of the virial, which vanishes by the rotation argument of C59 |
| C62 | energy columns and evaluator energy along a curve of structures, over ℝ, with the program's harmonics and Gaussian radial functions | derivative of every channel of the expansion, product rule through features and polynomials, then the virial and force columns of C59/C61; hypotheses exclude the two jumps of the program (a radial value equal to the threshold, a dropped product) |
| C63 | the same energies for positions and translations turned by Rodrigues' formula (`Spec/Rotate`) | the derivative with respect to the angle is a torque, which vanishes by C61's argument, hence the features are constant in the angle |
| C64 | the characters of the file, `format(x, '15.15f')`, `str.split`, `float` | the reader is run on the printed lines; rounding by uniqueness of round-half-even; witnesses for interleaved elements, Cartesian coordinates, negative scale |
| C65 | the target functions and gradients as state machines over real numbers; the evaluator is a parameter that fulfils `ForcesAreDerivatives`, `StressIsDerivative`, `Periodic` | chain rule along the columns of the bases, derivative of the determinant; induction over histories; `exEval` is a crystal that meets all hypotheses; pair models meet those on forces and stress (from C57); scipy's minimizers are not modelled: they are any sequence of calls |
| C66 | the columns of `construct_basis_cell`, the reshapes of the change to fractional coordinates | every crystal system by its columns; division and remainder for the reshapes |
| C67 | `run` and `precondition` as loops over an arbitrary sampling function; scores with `inf` and `nan` | induction on the remaining iterations: the loop is the sequence of linear mixing up to the first score that is not above the tolerance |
| C68 | `calculate` as a mixture of two states; ASE's cache as a state machine | linearity; derivatives of mixtures; case analysis of the cache |
| C69 | averages over lists of real numbers | algebra for the fluctuation formula; Jensen's and Bernoulli's inequalities for the free energy perturbation |
| C70 | `run_thermodynamic_integration` over an arbitrary function for the MD runs | exactness of Gauss-Legendre quadrature, given as a hypothesis about the nodes of scipy, transported by the affine change of variables |
| C71 | `find_reference` over a list of results files | induction over the files with the best state so far |
| C72 | the loops of `run` with their assignments, Voigt orders, the 81 x 81 projectors with `kron` and the orbits of index permutations | flat indices to four indices; orbits by evaluation of all 81 indices; rotations one index at a time; odd sums over symmetric samples vanish |
| C73 | design matrix, weights, normal equations, leave-one-out scores, the loop over candidates, coefficient order, `polyval` and its derivative | normal equations are equivalent to a best fit; the leave-one-out error from the leverage; invariant of the loop over candidates |
| C74 | loading of SSCHA, electron and thermodynamic-integration data, counts per volume and temperature, the common grid, placement on the grid, reference states, sums of grids | counts are invariants of the folds; a grid point is the last result placed there; sums by cases on missing data |
| C75 | `_run_standard`: fits of free energies and entropies per temperature, equilibrium checks, equilibrium entropies, heat capacities by central differences | best fits from C73; inversion of the run; fits with three points or fewer have leverage one or a singular matrix |
| C76 | the grids of volume ratios with `np.arange`, the change of the volume with the exponent of the code, `run` as a state machine, pressures by central differences | membership in `np.arange` by ceiling; induction over histories of runs; mean value theorem and convexity for pressures |
| C77 | the generator of structures as a state machine over arbitrary random numbers; displacements, volume changes, distortions, sizes of supercells | induction over supercells, distances and operations; inverse of the lattice for lengths of displacements; invariant of the loop over sizes |
| C78 | the loader of thermodynamic-integration results: failed and melted simulations, Simpson's rule with unequal intervals, ridge extrapolation | induction over sampling points for the flags and for Simpson's rule; normal equations for the straight line |
| C79 | root-mean-square and mean absolute errors of a data set, the dictionary of errors, names and rows of the files of predictions | induction over structures and atoms for the flattened arrays; induction over data sets for dictionary and files |
| C80 | the object `Pypolymlp` as a state machine over a heap of parameter objects, with all calls, calls that fail, and several objects in one process | induction over histories: last-success characterisations of coefficients and data, the action of data on flags, a frame relation of the heap for isolation, and an invariant for saved files |
| C81 | the object `PypolymlpCalc` with its shared `Properties` as a state machine; calculations are interactive programs that ask for values of lists of structures | case analysis of every call; induction over histories: last-event characterisation of structures and results, an invariant for the reported values, frame lemmas for prepared phonons and optimizations |
| C82 | `PolymlpFC` as a state machine over displacements, structures, forces and force constants, and the method of `PypolymlpCalc` that runs it | case analysis of every call; an invariant that structures belong to displacements; last-event characterisation of force constants by induction over histories (`Lemmas/History`) |
| C83 | `PolymlpGridSearch` as a state machine, its enumeration as list functions, the text it writes, and the parser of that text | characterisation of enumerated lists by membership, induction over histories, and a round trip through the text of the file with an arbitrary faithful way of writing numbers |
| C84 | xml documents as trees, the two readers, the loop over files and the two compressors as functions of trees | a relational reading of a document (first element with a name, rows of a table) and an equivalence with the reader, induction over the files; for compression, where the searched elements are in the new tree |
| C85 | the lines of a file of OpenMX as lists of tokens, the parser of one step and the loop over files as functions | a relational reading of a file and an equivalence with the parser; uniqueness; concatenation of files |
| C86 | yaml documents as trees, with numbers that yaml reads as text apart; savers and loaders as functions | round trips for all cells and all other entries of the file; induction over the files |
| C87 | yaml documents of results, the saver and the two readers as functions; projections of forces and stress are parameters | round trips through the saved document; induction over files and over the history of units |
| C88 | the density matrix, its samples and averages over the real numbers; solver, generator and potential are parameters | algebra of mass-weighted eigenvectors, bounds of x coth x, sums over samples; a solver exists by the spectral theorem of Mathlib |
| C89 | temperatures over the real numbers, sessions as a state machine with an arbitrary calculation | monotony of the cosine and of rounding; case analysis of a run; induction over histories |
| C90 | structures and atoms with real matrices; the conversions function by function | induction over lists; inverse matrices; rounding to the nearest integer |
| C91 | a session as a record and its operations as functions that return an exception or nothing and the session afterwards; dynamics as an arbitrary function of the number of the run, calculator, arguments and atoms | induction over histories and over the nodes of an integration; case analysis of each operation |
| C92 | occupancies, random structures, averages and sessions as functions of arbitrary random samples | the pairs of sites and elements that were handed out are an invariant of the loops over elements and sublattices; induction over iterations and histories |
| C93 | files as data by sections, transitions and boundaries as functions of an arbitrary solver | the file of a source is read back section by section; the spline is the unique curve of straight lines; least squares from C73; induction over pressures |
| C94 | tables of neighbours by atom and type, written entry by entry; structures with their kept Cartesian positions | the writes to one atom are a permutation of the pairs with all atoms, since translations are closed under negation; completeness from C24; minima and dictionaries by induction |
| C95 | spglib's functions as parameters that return a cell or nothing; structures as in `Structure` | the grouping by types is a permutation of the atoms; `reorder` from C18; for reduced cells, that both axes span one lattice gives the images of every atom and the volumes |
| C96 | the generator and the API as programs with members that may be unset; random numbers are arbitrary arrays | shape and starting point of the axes from C66; rows of the bases have absolute sum at most one; wrapping as in C21 |
| C97 | rounding, origin shifts, sorting within blocks and the least row as functions over exact rationals | periodicity of the rounding; the candidates of a shifted structure are a rotation of the candidates; least element of a permuted list |
| C98 | the command as a sequence of calls of the object of `CalcApi` on a world of files that is kept when an exception is raised | a contract for each calculation (what it writes, when it succeeds), composed along the order of the calculations by induction; determinism of results from C81 |
| C99 | the command as a sequence of calls of the object of `DevApi` and of writers on a world of files that is kept when an exception is raised | a contract for each part (what it writes, when it succeeds), composed along the program; the parameters of input files are characterised from the heap of C80 |
| C100 | the parser of formulas, the tables as lists of rows, the text for the input file | the parts of a formula by induction over the words; the text is read back with the parser of C37 |
| C101 | the table of temperatures, the specific heat as a sum over levels with the cut-off of the exponent, the names of files | derivatives of occupations at a fixed number of electrons; the cut-off only enlarges each term; names by induction over characters |
| C102 | the integral of characters over the reals, combinations with replacement, the two conversions between components and matrix index, the conditions of the enumeration | Dirichlet kernel and orthogonality of cosines turn the integral into a count of components; the Clebsch-Gordan series turns that into coupling paths; inductions over lists for combinations and indices |
| C103 | tables of coefficients, products along intermediate angular momenta, eight writes for each visited pair in any order | induction over the angular momenta: products are sums over coupling paths; orthonormality of path vectors from that of the coefficients; the writes cover every cell with one value |
| C104 | 9x9 projectors from Kronecker products and from permutations, the two orders of components, the projector of forces as a product of the basis with its transpose, the choice of representatives | multiplication by a rotation permutes the list of rotations; averages are orthogonal projections; the representatives are a sorted sublist |
| C105 | the loop over prototypes as calls of the object of `CalcApi`; the prototypes and exceptions it leaves | each step has the result of the calculation alone (`Gives`), whatever the state of the object; induction over the list; the last assignment of a dictionary; names split at their last underscore |
| C106 | energies, end members and formation energies of `Formation` along the calls; text columns sorted as text | the atomic energies cancel in the difference to the pure elements; rows stay at the index of their structure; the sorted table is a permutation |
| C107 | files as a dictionary from directory and name to content; loops of copies, conversions and moves; curves as pairs of two filtered lists | each operation is characterized by the content of every file after it; induction over files and directories; case analysis along the four boundaries of compositions |
| C108 | object with the attributes of `PolymlpPhonon` and of its phonopy object; failing steps keep what was set before; quasi-harmonic tables as transposed lists | induction over all earlier calls for what never changes, case analysis of the steps of a run; entries of the tables by position |
| C109 | the calculator with the state of the shared phonopy object; steps of a calculation as a list; the total density of states uses the last mesh of phonopy | induction over steps that they succeed, the state after the last step by computation; counting of imaginary frequencies by sublists |
| C110 | programs as lists of calls with arguments; exceptions of calls are an arbitrary function of the history | induction over the list of calls: what is done is a prefix of it, and all of it without an exception; case distinction over the options |
| C111 | LAMMPS as a state machine for the commands that are sent; potential as a parameter that turns with the cell | induction over the commands for the state after them, then C44 (rotation to a triangular cell and back) |
| C112 | the constructor and `run` with files that survive an exception; elapsed time as a parameter | induction over the directories with an arbitrary state of the files |
| C113 | supercell, displacements, forces and energies of a file; conversion to structures over any field; then `setProperties` of C50 | induction over the samples, C47 for the supercell, C16 and C50 for the order of atoms |
| C114 | `solverCG` of C12 for `XᵀX`, `Xᵀy` of any list of rows over any ordered field, and the sweep over the penalties | orthogonality of residuals and conjugacy of directions by induction over the passes; linear independence bounds the passes by the number of features; non-vacuity by a chain of 101 features |
| C115 | the working directory as a temporary directory and a dictionary of models, kept when an exception is raised; files as data; `kimspec.edn` as tokens | closed form of the loop of copies; the tokens are those of a map by induction over the citations; frame by cases of `move`; names by the value of digits with leading zeros |
| C116 | dumps as lists of lines of words, with the format of LAMMPS as a specification; logs as lines with flags for the texts that are looked for | the triangular cell from the bounding box by field arithmetic; groups of types by induction over the atoms; a list sorted by types is determined by its groups; the last table of a log by induction |
| C117 | files as lists of bytes; integers as four bytes in two's complement; reading as functions from the rest of a file to a value and the rest; memory that has not been initialised as a parameter of the C++ reader | numbers in base 256; reading is the inverse of writing by induction over lists; what is read does not depend on what follows, hence no beginning of a file can be read; selection of invariants by induction over tables and orders |
| C118 | the calculator as a state machine with structures (changed in place), features and parameters; the C++ features as a function of axis, Cartesian positions and types; memory and order of the parallel loop as parameters | the layout of rows from C15; loop over elements by induction; histories of calls by induction |
| C119 | the input stream as lines left and an end-of-file flag; `get_value`, `get_value_array` with the rules of failed extraction; uninitialised variables as parameters | simulation line by line against the file description of C36; table of pairs by induction; witnesses for the disagreements |
| C120 | a save as a list of elementary steps on named files, a crash as the result of a prefix of it; the C++ reader of C58 on texts; the Python reader with the yaml library as any function that keeps three rules | induction over the files for the states of the disk; the parser state before the line of coefficients for the C++ reader; bracket counting for the Python reader; witnesses |
| C121 | threads as programs of reads and writes of shared cells, a parallel loop as any distribution of the iterations over any number of threads and any interleaving of their accesses; the loop bodies of the C++ code | invariant of the interleavings: what remains to be done by a thread, executed alone, still gives the sequential values in the cells it owns; disjointness of the cells of the iterations |
| C122 | the lists of linear features, of products and of element pairs, and the file written from them; what a listed feature is (pair of types, radial function, entry of the table, assignment of pairs) is stated in `Spec.FeatAttr` without the tables of the C++ code | the dictionary of pairs is a partition of the pairs of types; the list of invariants is compared with the specification by membership and absence of repetitions; the columns of the design matrix are rewritten as sums of the described values |
| C123 | two descriptions of one crystal (`Spec.CrystalCopies`): other order, origin, images, axes or a supercell; energy, forces, stress and columns of the design matrix | the neighbour lists of the two descriptions agree along the map of atoms; sums over atoms are sums over the fibres of the map; `get_supercell` is shown to give such a description; the search is complete by C24 |
| C124 | a structure and its turned copy (`Spec.TurnedProps`), crystals with symmetries (`Spec.CrystalSymmetry`) | every step of the cell search commutes with orthogonal matrices, so the neighbour lists are turned; pair features by algebra; invariants by the derivatives of C62 along all displacements and strains, which agree because the features agree (C63); Euler's theorem turns every proper orthogonal matrix into an axis and an angle, and the parity of the harmonics with the even sums of degrees gives the inversion; symmetries combine this with C123 |
| C125 | the scalar searches as recursions on the number of passes, the minimizer with the search of scipy as a parameter (`Spec.StrongWolfe`, `Spec.GoodStep`, `Spec.Descending`) | the value at the lower end of the bracket never exceeds the value at the start (invariant of the zoom); induction over the iterations of the minimizer; algebra for the interpolations; parabolas as counterexamples |
| C126 | each function and its version with slope as real functions (`Spec.ValueAndSlope`) | rules of differentiation; uniqueness of the derivative for the functions that are wrong |
| C127 | passes and the four stages over the reals; coefficients that are not finite numbers are `none` (`Spec.ridgeGradient`, `Spec.Within`) | invariant of the averages (a weighted Cauchy inequality bounds each step), induction over the passes; concrete data for the failures |
| C128 | readers over lines of words, conversions as parameters (`Spec.AcfFile`, `Spec.ShowsVolume`, `Spec.atomCharge`) | induction over the lines; the total charge by exchanging two sums |
| C129 | the run as a function of files and of Phonopy, the tables of paths as rational points (`Spec.NamesPoints`) | case analysis of the run; induction over the segments of the table; the four path tables are a finite domain |
| C130 | the older class with its table of coefficients and its loops over real numbers (`Spec/Ylm.lean`) | the tables satisfy the same recurrences as the textbook functions (induction over degrees); the loops write the same entries as the ones of C60; derivatives through the chain rule of C60 |
| C131 | the loops over neighbours, reciprocal vectors and pairs over real numbers (`Spec/Ewald.lean`) | energies by induction over the loops and the expansion of the structure factor; forces and stresses through the derivative of every term along a curve |
| C132 | the object of the integrator with its attributes, the loop of a run and the initial velocities over real numbers (`Spec/Verlet.lean`) | an invariant of the loop relates a run to the iterates of the documented step; reversibility and conservation by induction over the steps; units and temperature by calculation |
| C133 | central types, products of occupations, keys and averages over real numbers (`Spec/DisAn.lean`: independent means over sites) | the product of occupations is the independent mean by induction over the sites; keys by uniqueness of sorted lists |
| C134 | the loops over neighbours with their updates of two atoms, and the rows of the matrix (`Spec/ChargeFeat.lean`: net flows between atoms) | updates by induction over the loops; neutrality by exchanging two sums; rows by induction over structures |

Properties that cannot be expressed in such a model: convergence or accuracy claims about
floating-point solvers, and performance claims; none is listed.

## 4. Findings

Behaviour of the code found while modelling.  "Proved" names the theorem with the witness; the others were
read in the code and are not part of a claim.

| no | finding | proved by |
|----|---------|-----------|
| F1 | the single-file (phono3py) path subtracts atomic energies twice | C06 |
| F2 | `n_features` equal to the block threshold leaves the matrix unsymmetrized | C07 |
| F3 | the CG solver returns the last iterate, because the best one is an alias of the working array | C12 |
| F4 | a NaN score is selected by argmin | C11_nan_selected |
| F5 | hybrid models: sorting the elements does not move the pair parameters | C38_pair_params_misplaced |
| F6 | old potential files: any other trailing line raises UnboundLocalError | C36_other_line, C36_blank_line_violation |
| F7 | weights with stresses and without forces raise NameError (not reachable from input files, C54) | C15 |
| F8 | learning curve: the full set is a point only if n//10 divides n; n < 10 raises; energy-only data raises | C46 |
| F9 | file order is lexicographic: wrong for ten or more files; stale files are picked up | C34_ten_files, C34_stale_files |
| F10 | the file round trip turns `enable_spins` None into a tuple and drops atomic energies | C35_round_trip_partial |
| F11 | ridge solver with no alphas: unbound variable | C10_no_alphas |
| F13 | masses of spin-doubled elements are written once per undoubled element | – |
| F14 | `convert_unit` does not scale the flat copy used by invariants | C31_gtinv_violation |
| F15 | `split_datasets` with fewer than two groups raises AttributeError | C40_one_group_crash |
| F16 | alloy division: weights run out (IndexError) | C40_alloy_violation |
| F17 | `replace_types`/`update_types` change their argument | – |
| F18 | phonopy cells with interleaved elements get wrong types | C47 |
| F19 | the neighbour cell misses neighbours for flat cells and for unwrapped positions | C24_skewed, C24_unwrapped |
| F20 | half list: two entries for a pair within the tolerance of the half-space boundary | C22_tolerance_edge |
| F21 | grid search writes the `regression_alpha` triple where exponents are expected | – |
| F22 | spin channels: an empty channel shifts the types | C49_empty_channel |
| F23 | loading with an element order loses the structure names | C51 |
| F24 | `parse_files` twice: energies are never subtracted again | C06 |
| F25 | sorting an empty data set raises | C05 |
| F26 | `compute_rmse` ignores the singularity check | C53 |
| F27, F28 | hybrid models: spin channels repeat type indices; elements of only one component raise ValueError | C38, C38_union_not_supported |
| F29 | `n_gaussians` of 1 or 2 raises IndexError | C55_auto_small |
| F30 | comments whose first word contains "data" are kept | C37 |
| F31–F33 | `remove` does not renumber types; `remove_atom` mishandles negative indices; `swap_elements` fails on an empty last block | C42_remove_violation and others of C42 |
| F34 | supercell refinement gives coordinates in (-tol, 1 - tol] | – |
| F35, F36 | formation energies: given names are ignored; foreign elements are ignored | C56_names_ignored, C48_foreign_ignored |
| F37–F39 | element No read as a boolean; type list of hybrid components not stored; 1e-05 read as a string | C35_nobelium, C35_type_info_not_stored, C35_small_number |
| F40 | sequential renumbering of active types is wrong for decreasing indices (not reachable) | C33_renumber_violation, C33_condition_met |
| F41 | the C++ reader ignores `enable_spins`; empty lists are undefined behaviour | – |
| F42 | `compute_ylm_der` with maximum l = 0 reads one entry past the end, times zero | – |
| F43 | for more than 1000 products the feature program drops products below 1e-20 and the evaluator does not: energies differ by the dropped terms | C59_dropped_products |
| F44 | shear components of the stress of invariants: evaluator and feature program use transposed products (equal because of rotation invariance) | C59_all_components |
| F45 | radial values: the path with forces drops f < tol, the path without forces keeps \|f\| > tol; the same only for values that are not negative | – |
| F46 | `write_poscar_file` takes the name of a group from its first atom; a structure with interleaved elements is written as another crystal without an error | `C64_interleaved_violation` |
| F47 | `Poscar` skips the line that says whether coordinates are direct or Cartesian; Cartesian files are read as direct | `C64_cartesian_violation` |
| F48 | `Poscar` multiplies the axes by a negative second line, which in the format is the volume | `C64_volume_violation` |
| F49 | with `relax_volume` and without `relax_cell` the gradient for the volume is the mean stress, i.e. the derivative multiplied by the volume; minimizers get a wrong slope and the convergence threshold means something else | `C65_volume_violation` |
| F50 | the convergence score compares the fitted force constants with the mixed ones, not with the old ones as documented: it is `1 - mixing` times the documented difference. With `mixing = 1` it is always zero and every run is reported as converged after two iterations | `C67_mixing_one_violation` |
| F51 | a run that does not converge returns force constants that are one update newer than the reported properties | `C67_unconverged_violation` |
| F52 | `run` and `precondition` without initial force constants store the object itself as force constants and fail with an AttributeError | `C67_no_initial_violation` |
| F53 | the free energy by perturbation uses `beta = KbEV * temperature` instead of its inverse: the result is close to the mean energy difference and not the free energy difference at the temperature of the run | `C69_perturb_violation` |
| F54 | the setter of `alpha` makes an exception for values outside [0, 1] but does not raise it | `C68_range_violation` |
| F55 | setting `alpha` does not clear the results that ASE stores: until the atoms move, energies, forces and energy differences are those of the old `alpha` | `C68_stale_violation` |
| F56 | at zero temperature thermodynamic integration reports zero for the energy difference, too | `C70_zero_violation` |
| F57 | `Polyfit.fit` with `weight_begin` or `weight_end` and an automatic order compares scores that are not leave-one-out scores: the leverages are computed without weights while the predictions are the weighted ones | `C73_weighted_violation` |
| F58 | `Polyfit.fit` with an automatic order raises a TypeError (`range` of None) when every candidate is singular or has an infinite score, for example with fewer than four points; there is no message | `C73_error` |
| F59 | `PypolymlpThermodynamics`: if a point of the common grid has a thermodynamic integration but no SSCHA yaml, `copy_static_data` raises an AttributeError and the whole analysis stops, although the grid is meant to allow missing points | `C74_missing_violation` |
| F60 | `_count_data_size` rounds temperatures to integers while `_get_grid_data` looks them up rounded to three decimals: results at 300.4 K create the temperature 300 on the grid and are not placed anywhere, so the grid is empty there | `C74_temperature_violation` |
| F61 | `_get_grid_data` keeps the last file for a grid point, also if it did not converge or has imaginary modes: it hides an earlier result that succeeded | `C74_duplicate_violation` |
| F62 | `Thermodynamics.eval_cp_numerical` subtracts equilibrium entropies that may be None: with four temperatures or more, a single temperature without an equilibrium volume (failed fit, volume above the threshold, small bulk modulus) raises a TypeError and the analysis of all temperatures is lost, although `eval_eq_entropy` returns None for that case on purpose | `C75_missing_violation` |
| F63 | `GridVT.fit_entropy_volume` fits every temperature of the common grid, and the grid has every temperature with one result of every kind: a temperature with three volumes or fewer makes the whole analysis fail with a TypeError from `Polyfit.fit` (the threshold of ten results applies to volumes only) | `C75_few_violation` |
| F64 | `Thermodynamics.eval_heat_capacities` reads `self._is_heat_capacity`, which is never set, and always raises an AttributeError; `FittedModels.eval_helmholtz_free_energies` and `save_thermodynamics_yaml` call `eval` on fits that may be None, after the file was opened and partly written (read from the source, not modelled) | `(not modelled)` |
| F65 | `PolymlpEOS._set_eps` with the default fine grid ignores the bounds if both lie on one side of 1: with `eps_max < 0.9` the ratios run up to 0.9, with `eps_min > 1.1` they start at 1.1; without the fine grid `eps_max + 0.01` is the bound, which adds ratios above `eps_max` for intervals below 0.01 | `C76_fine_grid_high_violation, C76_fine_grid_low_violation, C76_coarse_grid_violation` |
| F66 | `PolymlpEOS.run` keeps the equilibrium volume, energy and bulk modulus and the table of the fit of an earlier run if the fit fails or is not requested; `write_eos_yaml` then writes them beside the new data | `C76_stale_violation` |
| F67 | `isotropic_volume_change` does not scale `positions_cartesian`: a structure with cartesian positions keeps those of the old cell (the exponent 0.3333333333333 gives a cell volume that differs from the recorded one by about 1e-13) | `C76_cartesian_violation` |
| F68 | `PypolymlpStructureGenerator.run_sequential_displacements` with several volumes replaces the supercells by scaled copies and restores them to `self._supercell`, an attribute that is not read (a letter is missing): all later runs use the scaled copies of the last supercell | `C77_supercells_violation` |
| F69 | `run_density_algorithm` without `vol_algorithm`, the default, raises an UnboundLocalError (`mode`), so that `vol_lb` and `vol_ub` never have an effect | `C77_density_violation` |
| F70 | `build_supercells_auto(max_natom)` raises a ValueError for fewer than 48 atoms, since the lower bound of `StructureGenerator` keeps its default | `C77_auto_violation` |
| F71 | `run_isotropic_volume_changes(dense_equilibrium=True)` generates `n + 2 (n // 3)` structures from a structure, not `n_samples` as documented | `C77_count_violation` |
| F72 | `load_ti_yaml` compares `properties.energy` of the file, in eV/supercell, with the threshold of -100 for the energy per atom: results of large supercells are dropped as failed | `C78_failed_violation` |
| F73 | `load_ti_yaml` appends a point at coupling parameter one to the data of the extrapolation even if there is one already (`max_alpha = 1`); the interval of length zero gets wrong weights in Simpson's rule if the number of kept points is even, and the extrapolated free energy is wrong | `C78_duplicate_violation` |
| F74 | `PolymlpEvalAccuracy.compute_error` keeps errors under the names of data sets: of two data sets with the same name only the last is reported | `C79_names_violation` |
| F75 | names of prediction files replace `*`, `.` and `/` by hyphens, so that different data sets (`a.1`, `a-1`) have the same file and only the rows of the last remain | `C79_files_violation` |
| F76 | `compute_error_single` with `log_force` (`log_stress`) raises an UnboundLocalError for a data set without forces (stresses), after the energies were written | `C79_log_violation` |
| F77 | the direction error of forces averages the absolute value of the cosine, so that a force predicted in the opposite direction counts as exact | `C79_direction_violation` |
| F78 | `Pypolymlp` keeps `include_force` and `include_stress` switched off after data without forces or stresses (or of type phono3py, openmx, electron): later data with forces and stresses are used without them, without a message | `C80_flags_violation` |
| F79 | `set_datasets_…` changes the flags before the data are read: a call that fails leaves the old data with other flags | `C80_failed_data_violation` |
| F80 | `set_params(params=…)` keeps the object of the caller: two `Pypolymlp` objects with the same parameters switch off each other's forces and stresses | `C80_shared_violation` |
| F81 | `append_hybrid_params` adds the component before it is checked: a component that is refused stays in the model; without parameters the call prints a message and raises an AttributeError | `C80_append_violation` |
| F82 | the fitted potential shares the parameters: after `append_hybrid_params` the potential that was fitted before cannot be saved (TypeError) | `C80_append_fit_violation` |
| F83 | `n_features` is the number of the old potential after `set_params` | `C80_features_violation` |
| F84 | `save_errors` before `estimate_error` raises an AttributeError instead of the documented RuntimeError, since the attribute does not exist; `estimate_error` after `load_mlp` without data raises a TypeError | `C80_messages_violation` |
| F85 | `PypolymlpCalc` shares one `Properties` object with its calculations: after `run_eos`, `run_elastic_constants`, `run_phonon`, an optimization or `run_qha`, `energies`, `forces`, `stresses` and the files of `save_properties` are those of the last internal evaluation, while `structures` are the user's | `C81_values_violation` |
| F86 | `eval` sets the structures before it evaluates them: after an exception, and after reading structures, `structures` are the new ones and `energies` the old ones | `C81_stale_violation` |
| F87 | `converged_structure` is the first structure: it is also given after an optimization without success and without any optimization | `C81_converged_violation` |
| F88 | `unitcell` is overwritten by every calculation: after `init_phonon`, `run_eos` with another cell and `run_phonon`, the phonons are not those of `unitcell` | `C81_unitcell_violation` |
| F89 | `Properties` with one model takes `coeffs[0]` if `len(coeffs) == 1`: a potential with one coefficient is evaluated with a number instead of an array | `C81_coeffs_violation` |
| F90 | `PypolymlpCalc.run_fc` does not pass its `disps` and `forces` on: with both given it fails with an AttributeError, or gives the force constants of displacements sampled earlier | `C82_given_violation` |
| F91 | `PolymlpFC(phono3py_yaml=…)` sets `_disps = None` after reading the file: `run()` computes the forces and then fails with an AttributeError | `C82_yaml_violation` |
| F92 | `PolymlpFC.run_fc` constructs `RuntimeError("Displacements not found.")` and `RuntimeError("Forces not found.")` without raising them: an AttributeError follows | `C82_missing_violation` |
| F93 | `PolymlpFC.structures` and `displacements` are set independently of displacements and forces: forces of one set are fitted to displacements of another | `C82_mixed_violation` |
| F94 | `PolymlpFC.save_fc` writes force constants of different runs together, and never those of order 4 | `C82_save_violation` |
| F95 | `PolymlpGridSearch.run` and the enumerating calls append: a second run lists every model twice, and after another `set_params` the models of the old request stay | `C83_again_violation` |
| F96 | with automatic numbers of Gaussians and a cutoff below 3 the same model is listed twice | `C83_small_violation` |
| F97 | `maxps` is not used for models with invariants (`max_p` is always 2), and with invariants pair models of type 2 are listed whatever `model_types` says | `C83_ignored_violation` |
| F98 | `add_complex_models` before another enumeration fails with an AttributeError | `C83_large_violation` |
| F99 | hybrid models are not updated by later enumerations | `C83_stale_violation` |
| F100 | a saved model with `include_stress` and without `include_force` is read back without stresses | `C83_stress_violation` |
| F101 | `save_models` leaves the files of an earlier, longer list in place | `C83_leftover_violation` |
| F102 | `save_models` and `save_hybrid_models` before an enumeration fail with a TypeError | `C83_save_first_violation` |
| F103 | `parse_properties_from_vaspruns` reads each file once in `check_vasprun_type`, outside the `try`: one file that is no xml stops the loading of all files, although the code means to skip it | `C84_unreadable_violation` |
| F104 | for a file with several ionic steps (a relaxation) `Vasprun` gives the energy, forces and stress of the first step with the structure of the last step | `C84_relaxation_violation` |
| F105 | `VaspErrorCheck.test_convergence(tol)` ignores its tolerance | `C84_tolerance_violation` |
| F106 | a calculation with fewer than two self-consistency steps counts as converged | `C84_one_step_violation` |
| F107 | a file of OpenMX with a blank line at its end is not read at all: the blank line starts a step without a header | `C85_blank_violation` |
| F108 | `save_data` lets forces and stress be left out, but `load_data` then raises KeyError | `C86_optional_violation` |
| F109 | numbers that are printed without a decimal point (`1e-05`) are read as text: `load_data` gives text for forces and stress, the reader of property files also for the energy | `C86_text_violation` |
| F110 | a calculation whose convergence was never decided (only preconditioned) is saved with `converge: None`, which yaml reads as text, and the reader of data sets takes it as converged | `C87_none_violation` |
| F111 | setting an unknown unit of an opened calculation raises RuntimeError, but `unit` is then the unknown text while values stay in the old unit | `C87_unit_violation` |
| F112 | energies printed without a decimal point (`1e-05`) are read as text: the properties of an opened calculation then raise TypeError | `C87_text_violation` |
| F113 | one component of the average stress printed without a decimal point makes the reading of all files fail with TypeError, if properties of supercells are read | `C87_stress_violation` |
| F114 | `run` of the samples of the density matrix does not look at `eliminate_outliers`: samples are left out although `False` was given | `C88_outliers_violation` |
| F115 | outliers are defined by the mean of the energies relative to the static one: if that mean is zero (a flat potential, zero force constants of a free atom) every sample is an outlier and `run` raises IndexError | `C88_flat_violation` |
| F116 | `energies` and `static_potential` of an SSCHA distribution are documented (and printed) as eV/supercell, but are kJ/mol of unit cells, and the energies are relative to the static one; `sscha_energies.npy` and `sscha_averages.yaml` hold these | `C88_distribution_violation` |
| F117 | `KbEV` is 8.617389e-05, not `Kb / EVtoJ` = 8.617333e-05: heat capacities of MD are too small by 6.5e-6 | `C88_units_violation` |
| F118 | temperatures of a progression run to the maximum plus one: with fractional steps they exceed the maximum (0 to 1 by 0.5 gives 1.5) | `C89_fraction_violation` |
| F119 | Chebyshev temperatures are rounded to integers and may be repeated (results of the same directory are overwritten), and they ascend although the default order is descending | `C89_chebyshev_violation` |
| F120 | if only the number of samples of the second loop is given it is replaced, and if only that of the first loop is given the second one stays None, so that a converged calculation raises TypeError; both are documented as determined automatically if None | `C89_samples_violation` |
| F121 | a session keeps its force constants when the structure, the supercell or the potential is changed: the next run starts from those of the structure before and ignores `init_fc_algorithm` | `C89_stale_violation` |
| F122 | `load_restart` of a file in the working directory (the default) reads the force constants from `/fc2.hdf5` | `C89_directory_violation` |
| F123 | after a run with a temporary cutoff `sscha_params` shows the number of samples of the temporary calculation | `C89_temporary_violation` |
| F124 | free energies of structures evaluated together use the number of samples that was determined for the first structure | `C89_multiple_violation` |
| F125 | `PropertiesSSCHA` does not use its arguments `precondition`, `use_temporal_cutoff`, `path` and `write_pdos` | `C89_precondition_violation` |
| F126 | structures that come back from ASE (final structures and trajectories of simulations) have types and numbers of atoms in blocks although the atoms keep their order: wrong types if atoms of an element are not listed together | `C90_types_violation` |
| F127 | the stress handed to ASE is the virial per cell in the order xx, yy, zz, xy, yz, zx; ASE asks for the derivative per volume in the order xx, yy, zz, yz, xz, xy. It is right only without stress | `C90_stress_violation` |
| F128 | `run_md_nvt` and `run_thermodynamic_integration` ignore unknown names of thermostats: nothing is simulated; an integration after an earlier simulation reports a free energy from its averages | `C91_thermostat_violation` |
| F129 | the file of a simulation has the supercell matrix of a structure that was replaced by `load_poscar`, and the mixing parameter set after the simulation | `C91_matrix_violation` |
| F130 | `final_structure` is the new supercell after `set_supercell`, not the last structure of the simulation whose energies are shown | `C91_final_violation` |
| F131 | whether there is a reference is remembered from earlier calls: after a reference was replaced by a plain potential an integration runs its simulations and then fails with `TypeError`; a reference calculator given by the setter is refused | `C91_stale_reference_violation` |
| F132 | `save_ti_yaml` always fails for references that are potentials (no file of force constants) and for general references (no attribute `_prop`); otherwise the number of steps it writes is three times that of the nodes | `C91_save_ti_violation` |
| F133 | `trajectory` raises `TypeError` after a simulation that saved none, where `forces` is `None` | `C91_trajectory_violation` |
| F134 | a supercell set after the calculator with force constants leaves the old supercell as the reference of the calculator | `C91_reference_cell_violation` |
| F135 | numbers of atoms are rounded element by element: probabilities that add up to one can leave sites of a sublattice with the element and type of the lattice (one site shared by two elements), or ask for more atoms than sites and raise `ValueError` (three sites shared by two elements) | `C92_left_over_violation, C92_overfull` |
| F136 | element names are stored in an array of strings as wide as the longest name in the lattice and cut: on a lattice of `X`, silver becomes `A` | `C92_name_violation` |
| F137 | `set_displaced_lattices` does not discard properties: `save_properties` and `properties` then pair new structures with averages of the old ones | `C92_stale_violation` |
| F138 | if the fit failed at one temperature, `save` raises `AttributeError` after the first sections, although its format has a case for missing fits | `C93_failed_fit_violation` |
| F139 | a missing equilibrium entropy is saved as `None`, and no temperature of that file can be loaded | `C93_entropy_violation` |
| F140 | `find_transition` reports temperatures outside the range of the data, from straight lines continued beyond it | `C93_range_violation` |
| F141 | `find_transition` reports a temperature even if the free energies never meet: what `fsolve` returns is not checked | `C93_parallel_violation` |
| F142 | pressures of `compute_phase_boundary` are counted from -3 GPa: zero pressure is left out unless the interval divides 3 GPa | `C93_zero_pressure_violation` |
| F143 | the highest pressure of `compute_phase_boundary` is the highest of all temperatures: at temperatures whose data end earlier the polynomials are extrapolated | `C93_pressure_violation` |
| F144 | `compute_neighbor_list` and `find_minimum_distance` use the translations of the reduced cell with positions that are not moved into it: in skewed cells neighbours are missed, and the least distance of two atoms that are 1/10 apart is reported as at least 1 | `C94_reduced_violation` |
| F145 | `find_minimum_distance` raises `ValueError` if one atom has no neighbour of one of the types within the length of the shortest axis | `C94_type_violation` |
| F146 | `find_active_distances` loses distances if two types have the same element: later pairs of types replace earlier ones | `C94_same_element_violation` |
| F147 | the Cartesian positions are stored in the caller's structure at the first call; later changes of its positions have no effect on distances | `C94_stale_violation` |
| F148 | `SymCell.refine_cell` loses atoms whose type is not smaller than the number of entries of `n_atoms` | `C95_atoms_lost_violation` |
| F149 | `ReducedCell.reduce_structure` accepts axes that agree only up to a relative 1e-5 and replaces them by the reduced axes of the others: the crystal changes, and `volume` is that of the old axes | `C95_other_axes_violation` |
| F150 | `StructureGeneratorSym.basis_sets` (and the API's) raises `AttributeError` whenever the axes or the positions are fixed | `C96_basis_sets_violation` |
| F151 | saving a smaller set of samples leaves the files of a larger earlier set in the directory | `C96_stale_files_violation` |
| F152 | `sample_volumes(fix_axis=False)` deforms the axes after setting `volume`: the stored volume is not that of the axes | `C96_volume_violation` |
| F153 | `normalize_positions` rounds before it chooses: two copies of a structure whose origins differ by a few millionths get representations that differ by half a cell | `C97_jump_violation` |
| F154 | `pypolymlp-calc --geometry_optimization` together with `--elastic`, `--eos` or `--phonon`: every calculation reads the files again, so the optimization, which "is performed for initial structure", has no effect on them; with `--force_constants` the cell is a third structure, optimized again at fixed axes, which is not the one in `POSCAR_eqm` | `C98_relaxed_violation` |
| F155 | `--force_constants --geometry_optimization` ignores `--fix_atom`, `--no_symmetry`, `--method`, `--gtol` and `--pressure` in the optimization that precedes force constants | `C98_fixed_violation` |
| F156 | `pypolymlp-calc --str_yaml` is accepted and never read | `C98_yaml_violation` |
| F157 | `pypolymlp` leaves the files of an earlier model in the directory: after a single and then a hybrid model (or the other way round, or a hybrid model with fewer components) `polymlp.yaml*`, which `find_mlps` takes for one potential, are of different models | `C99_stale_violation` |
| F158 | `save_params(filename)` ignores its argument for a hybrid model and writes `polymlp_params1.yaml`, ...; the command line does not write `polymlp_params.yaml` | `C99_name_violation` |
| F159 | an element that occurs twice in a formula is listed twice: `--atomic_energy_formula CH3COOH` prints an input file with `n_type 6` | `C100_repeat_violation` |
| F160 | brackets in a formula are taken for parts of names: `Ca(OH)2` is refused with `KeyError` for `Ca(` | `C100_bracket_violation` |
| F161 | the electronic specific heat drops the change of the chemical potential: it is too large by its squared slope, and positive even where the energy does not depend on temperature | `C101_cv_violation` |
| F162 | the table of electronic properties of a file given without a directory (`--electron_vasprun vasprun.xml`) is written to the root directory (`/electron.yaml`) | `C101_root_violation` |
| F163 | polynomial invariants of the first order cannot be enumerated (`--orders 1`): the combination [0] has one invariant and is refused with "Order >= 9 not available." | `C102_first_order_violation` |
| F164 | `eliminate_odd=False` makes every enumeration of the third order with `maxl >= 1` fail: the projector refuses odd sums | `C102_odd_violation` |
| F165 | `compute_projector_cartesian` catches every exception: if the basis of symmetric displacements cannot be made for any reason, the symmetrized forces are silently zero, so an optimization takes the structure for relaxed | `C104_error_violation` |
| F166 | A fit of an equation of state that fails only prints a warning; the automatic run then divides None by the number of atoms: TypeError ends the run and all later prototypes are missing | `C105_fit_violation` |
| F167 | In a binary system the prototypes of both elements have the same IDs: a first-principles cell of one element is set for both; IDs given as text are ignored for elements without a message | `C105_ids_violation` |
| F168 | The comparison with first principles is sorted by the text of the energies, not by their values: of two negative energies of the same length the higher comes first, and -10.5 comes before -2.5 | `C106_order_violation` |
| F169 | A structure whose optimization raises an exception is left out, but its name is not: in the list of optimized formation energies all later rows are beside the name of another structure | `C106_names_violation` |
| F170 | A second run on the same day with a potential in the old format: moving the converted file fails because the entry already has one, the new file is deleted and the old potential stays, beside the costs and errors of the new one | `C107_rerun_violation` |
| F171 | Directories of different grid searches with the same last component share one directory of the entry: their files form one potential, with the errors of the last one | `C107_same_name_violation` |
| F172 | Converting potentials in the old format moves every `polymlp.yaml*` of the working directory into the entry: a potential of the user disappears from there and becomes part of another one | `C107_cwd_violation` |
| F173 | For binary systems the table `polymlp_comparison.dat` is written for alloys and both elements under one name; only the last one is left, and the web page shows it as the table of all prototypes | `C107_table_violation` |
| F174 | For a single element the figure of the comparison is `polymlp_comparison.png`, which the web page does not look for | `C107_element_violation` |
| F175 | In the summary of a binary system a prototype that could not be optimized with one potential shifts the curve: values of all later potentials are shown at the time of another potential | `C107_curve_violation` |
| F176 | If the most accurate potential has an error of 10 meV/atom or more no potential is active: the archive of all potentials is empty | `C107_active` |
| F177 | Prototypes with composition 0.45 or 0.55 (0.01, 0.99) are in no figure of the summary | `C107_ranges` |
| F178 | Once a projected density of states was asked for, every later `write_phonon` writes `phonon_proj_dos.dat` again, with the data of that earlier calculation beside new force constants (or fails if that calculation failed) | `C108_stale_violation` |
| F179 | After a failed `run_phonon` (for example a wrong mesh) `write_phonon` writes the force constants of the failed run with density of states and thermal properties of the run before | `C108_failed_violation` |
| F180 | Whether phonons are imaginary is decided by a sum, not an integral, of the density of states: it depends on the pitch of the frequencies | `C108_pitch_violation` |
| F181 | Quasi-harmonic calculations with steps below 0.001 use volumes above the largest one asked for | `C108_range_violation` |
| F182 | A calculation of SSCHA that does not converge is saved with a density of states that belongs to other force constants than `fc2.hdf5` beside it, while the projected density of states belongs to them | `C109_unconverged_violation` |
| F183 | Setting the force constants of the calculator in reciprocal space to None leaves them in the phonopy object: thermal properties are computed from the removed ones | `C109_removed_violation` |
| F184 | `frequencies` of the calculator in reciprocal space are those of the last `compute_mesh_properties`, also after thermal properties of other force constants, for which `is_imaginary` holds | `C109_frequencies_violation` |
| F185 | `pypolymlp-structure --max_natom` is never used: supercells are built for at most 129 atoms | `C110_natom_violation` |
| F186 | `pypolymlp-structure` drops options of another group without a word: with `--displacements` and `--standard` only displacements are made | `C110_groups_violation` |
| F187 | `pypolymlp-sscha --method` is accepted and never used: the optimization is always done by BFGS | `C110_method_violation` |
| F188 | `pypolymlp-sscha --geometry_optimization --elastic` does not calculate elastic constants | `C110_method_violation` |
| F189 | `pypolymlp-md` cannot run any simulation: it looks up `args.supercell_size`, while the option is `--supercell`, so that every command line ends with an AttributeError after loading the structure | `C110_md_violation` |
| F190 | `pypolymlp-utils --elements Mg` alone enumerates models although `--generate_models` is not given (`args.generate_models is not None` always holds) | `C110_models_violation` |
| F191 | `pypolymlp-utils --generate_models --generate_models_elements Mg` is refused with "Elements or system required" | `C110_models_violation` |
| F192 | `pypolymlp-utils --path_string` is accepted and never used: `PypolymlpUtils.divide_dataset` overwrites it | `C110_path_violation` |
| F193 | Forces of LAMMPS are read with `extract_atom`, in the local order of LAMMPS: when LAMMPS sorts its atoms (its default), atoms get the forces of other atoms | `C111_order_violation` |
| F194 | `PolymlpCost(path_pot=...)` raises a `TypeError` when the first directory has no potential, although such directories are skipped by `run` and the constructor is written to go on | `C112_first_violation` |
| F195 | With several directories, every `polymlp_cost.yaml` has the system of the first directory, also for potentials of other systems | `C112_system_violation` |
| F196 | `parse_phono3py_yaml(use_phonon_dataset=True)` pairs the displacements and forces of phonons with the energies of the other data | `C113_phonon_violation` |
| F197 | In the input file, the flag for forces and the weight of a data line are ignored for `dataset_type phono3py` | `C113_flags_violation` |
| F198 | `solver_cg` tests convergence only after 100 passes: when the exact solution is reached before (always with at most 100 features in exact arithmetic, or with zero targets), the next pass computes `0/0` and the returned coefficients, which are the same array, are NaN | `C114_small_models_violation, C114_zero_targets_violation` |
| F199 | `convert_polymlp_to_kim_model`: a conversion that fails leaves its potentials in `Polymlp__MO_tmp`, and they become part of the next model, whatever its potentials are (its name says `hybrid`) | `C115_stale_violation` |
| F200 | `convert_polymlp_to_kim_model`: when the directory of the model exists, the new model is moved into it as `Polymlp__MO_tmp` without a message, so the old potential remains in use; a third conversion raises `shutil.Error` (and leaves its files for the next one) | `C115_same_name_violation, C115_third_violation` |
| F201 | `generate_kim_files`: a citation with a single key does not close its map (nor the list when it is the last): `kimspec.edn` is not readable | `C115_citation_violation` |
| F202 | `generate_kim_files`: the title always says "developed by Seko", whatever `author` or `developer` is | `C115_model` |
| F203 | `Dump` takes the largest digit of all types as the number of types: a dump with an atom of the tenth or a later type raises `IndexError` | `C116_ten_types_violation` |
| F204 | `Dump` orders the atoms by types, `DumpForce` keeps the order of the file: the forces do not belong to the atoms unless the file is ordered by types | `C116_order_violation, C116_sorted_files` |
| F205 | `Log.get_energy` and `get_press` return 0.0 when the table is not found, for instance because of aligned columns in recent versions of LAMMPS | `C116_no_table_violation` |
| F206 | `GtinvData::parse` checks neither the beginning nor the types of the blocks of a table: a file of another format is read | `C117_magic_violation` |
| F207 | `read_int32` and `read_double` of the C++ library do not check for the end of the file: the numbers missing in an incomplete table are what the memory held | `C117_incomplete_violation` |
| F208 | `pypolymlp-polyinv -l` writes the key `invarints`: the file cannot be converted (`KeyError`) | `C117_key_violation` |
| F209 | `convert_polyinv_yaml_c` raises `IndexError` if no invariant has a certain largest `l`, for instance for a file written with `--minl` | `C117_cfiles` |
| F210 | `run_features(features_stress=True)` has no effect: without `features_force` no stress rows are returned, with it they are always returned | `C118_stress_violation` |
| F211 | `run_features` sets `include_force` and `include_stress` of the parameters of the calculator's potential | `C118_params_violation` |
| F212 | `replace_types` with repeated elements (spin channels): a structure with fewer types for an element than the potential shifts the types of all following elements, and types of an element that are not neighbours in the potential are mixed up with other elements | `C118_channel_violation` |
| F213 | The C++ reader of old potential files reads the version of the invariants from the next line, whether or not it is a version line. For old files that end before it (as several in `tests/`) the version is an uninitialised variable; Python uses 1 | `C119_version_violation` |
| F214 | An old file with invariants and pair tables but no version line: C++ takes the number of pairs for the version and uses all functions for all pairs; Python uses the table of the file | `C119_pairs_violation` |
| F215 | The C++ reader drops the last two words of the first line: a comment of two words or a blank at its end makes `#` an element | `C119_comment_violation` |
| F216 | Python takes a file whose first line contains `# ele` for an old one, C++ needs `# element`; an empty table of pairs means no functions in Python and all functions in C++ | `C119_detect_violation, C119_empty_table_violation` |
| F217 | Saving a potential is not atomic and the C++ reader does not compare `n_coeffs` with what it reads: a file cut off in the line of coefficients is read by LAMMPS without a message as a potential with fewer coefficients, with the last one twice (after a comma), or with a wrong last one (within a number) | `C120_cxx_cut_violation` |
| F218 | A potential file cut off right after `coeffs:` is loaded by Python with `None` as coefficients | `C120_python_cut` |
| F219 | An interrupted save of a hybrid potential over an older one leaves a mixture of new and old files that nothing marks | `C120_mixture_violation` |
| F220 | A save that raises (unknown element, lengths that differ) has already destroyed the old file; what it leaves is read by C++ as a potential without coefficients | `C120_failed_violation` |
| F221 | The disabled branch of `eval_multiple` (parallel over structures) lets all iterations use one evaluator whose member `n_atom` each of them overwrites: a data race that changes the number of rows of the forces (the failures named in the comment there) | `C121_deprecated_violation` |
| F222 | The energy of a structure depends on which periodic image of an atom is given. In an orthogonal cell positions are not wrapped, and an atom given several cells away from its partner loses its neighbours without a message (`neighbor_cell.cpp`; effect of C24_unwrapped on the results). | `C123_image_violation` |
| F223 | `scalar_search_wolfe2` documents that the step is `None` if the search does not converge, but after the last pass it returns the next trial step, which has never been compared with the start; its value may be higher (`C125_wolfe_violation`). | `calculator/_scipy/_linesearch.py 557-566` |
| F224 | `minimize_cg` defines the test for directions that go downhill but does not hand it to the line search. The update of the direction may go uphill after a step that meets the strong Wolfe conditions; the next search fails and the minimization ends with status 2. This happens for the parabola `x + 0.7 x²` from zero, where the first trial step is accepted (`C125_direction_violation`). A minimization that converges in its last iteration is reported as a failure (`C125_status_violation`). | `calculator/_scipy/_optimize.py 244-288, 312-314` |
| F225 | Radial functions of the C++ library marked as deprecated are wrong: the smooth cutoff function has another value when computed with its slope, and the slope lacks the factor of one over the cutoff (`C126_bump_violation`, `C126_bump_value_violation`); Gaussian-type orbitals and Morlet wavelets pass the arguments of `gauss` in another order than it takes them, so values and slopes are wrong (`C126_gto_violation`, `C126_morlet_violation`). The potential itself uses only Gaussians and the cosine cutoff; any other `pair_type` silently gives no radial functions. | `cxx/src/polymlp/polymlp_basis_function.cpp 11-24, 83-104` |
| F226 | `solver_sgd` divides by the root of averaged squared gradients without a guard: a feature that vanishes in all data, or a start at which one component of the gradient is zero, makes all coefficients NaN (`C127_zero_feature_violation`, `C127_zero_gradient_violation`). The test for convergence looks at the gradient before the update: with a small target all stages report convergence at 0.3 whatever the solution is (`C127_converged_violation`). The arguments `learning_rate` and `gtol` are ignored, and `coef0` of the caller is overwritten in place. `Pypolymlp.fit_sgd` raises `NotImplementedError`; the function `fit_sgd` itself is reachable. | `mlp_dev/gradient/solvers_sgd.py 16-43, 66-152` |
| F227 | `print_charge` of both readers of Bader charges refers to a name `charge` of the module instead of the attribute: after an import it raises `NameError` and writes nothing, in the script it writes the charges of another object (`C128_print_violation`, `C128_print_other_violation`). A blank line in `ACF.dat` raises `IndexError` (`C128_acf_blank_violation`). | ``core/interface_bader.py` 14, 21, 44` |
| F228 | `calculate_phonon_bands` tests whether the file `fileborn` exists but reads `BORN`: the content of a file with another name is never used (`C129_born_name_violation`) and the run fails when there is no `BORN` (`C129_born_missing_violation`). The documented type `hcp` always fails (`C129_hcp_violation`). Paths of `fcc`, `rocksalt`, `perovskite` and `perovskite2` have one label less than points (`C129_labels_violation`). | ``calculator/utils/phonon_band_utils.py` 31-80, 140-141, 150` |
| F229 | `VelocityVerlet.initialize` accepts the documented ensemble `nve`, but no velocities are set for it and it always fails with an unbound local variable. | ``C132_nve_violation`` |
| F230 | The analytical model of disorder looks up polynomials of features with the central atom in the place of the first neighbour and every neighbour one place later (`for t, p in occ` instead of `occ[1:]`), so their coefficients are those of other features, even without disorder. | ``C133_polynomial_violation`` |
| F231 | The analytical model of disorder stores polynomials under the tuple of their features in the order of the features, but looks them up under the sorted tuple, so a product of features whose tuples are not in order (such as angular momenta (1, 1) and (0, 0, 0)) fails with a `KeyError`. | ``C133_key_order_violation`` |
