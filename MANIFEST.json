{
 "claims": [
  {
   "property": "C01",
   "status": "proved",
   "theorems": [
    "Verif.Base64.base64_roundtrip",
    "Verif.Base64.base64_shape",
    "Verif.Base64.base64_value",
    "Verif.Base64.base64_encode_injective",
    "Verif.Base64.base64_decode_ignores_tail"
   ],
   "note": ""
  },
  {
   "property": "C02",
   "status": "proved",
   "theorems": [
    "Verif.BitManip.countKernighan_correct",
    "Verif.BitManip.count_correct",
    "Verif.BitManip.count32_correct",
    "Verif.BitManip.count_eq_countKernighan",
    "Verif.BitManip.count_le"
   ],
   "note": ""
  },
  {
   "property": "C03",
   "status": "proved",
   "theorems": [
    "Verif.LoadBalancer.default_partition",
    "Verif.LoadBalancer.default_blockSize",
    "Verif.LoadBalancer.default_zero_threads"
   ],
   "note": ""
  },
  {
   "property": "C04",
   "status": "proved",
   "theorems": [
    "Verif.LoadBalancer.weights_partition",
    "Verif.LoadBalancer.weights_load_bound",
    "Verif.LoadBalancer.weights_balanced",
    "Verif.LoadBalancer.weights_zero_threads"
   ],
   "note": ""
  },
  {
   "property": "C05",
   "status": "proved",
   "theorems": [
    "Verif.Parallel.pthreadsNg_each_task_once",
    "Verif.Parallel.pthreadsNg_weights_each_task_once",
    "Verif.Parallel.parallelizer2_each_task_once",
    "Verif.Parallel.serial_each_task_once",
    "Verif.Parallel.interNode_each_task_once",
    "Verif.Parallel.pthreadsNg_zero_threads",
    "Verif.Parallel.weights_wrong_size_fails",
    "Verif.Parallel.balanced_each_task_once",
    "Verif.Parallel.more_weights_fails"
   ],
   "note": "weights_wrong_size_fails: with a weight vector of the wrong length tasks are dropped; the weighted theorem assumes one weight per task"
  },
  {
   "property": "C06",
   "status": "proved",
   "theorems": [
    "Verif.Parallel.pthreadsNg_equals_serial",
    "Verif.Parallel.pthreadsNg_weights_equals_serial",
    "Verif.Parallel.parallelizer2_equals_serial",
    "Verif.Parallel.pthreadsNg_accumulators",
    "Verif.Parallel.parallelizer2_accumulators",
    "Verif.Parallel.pthreadsNg_sums",
    "Verif.Parallel.pthreadsNg_weights_sums",
    "Verif.Parallel.parallelizer2_sums",
    "Verif.Parallel.balanced_equals_serial",
    "Verif.Parallel.one_element_fails"
   ],
   "note": "The sums hold at the level of single reads and writes."
  },
  {
   "property": "C07",
   "status": "proved",
   "theorems": [
    "Verif.Concurrency.storage_safe",
    "Verif.Concurrency.storage_wrong_mode",
    "Verif.Concurrency.no_pthreads_refused"
   ],
   "note": ""
  },
  {
   "property": "C08",
   "status": "partial",
   "theorems": [
    "Verif.Gather.gather_owner_unique",
    "Verif.Gather.gather_correct",
    "Verif.Gather.gather_progress",
    "Verif.Gather.gather_terminates",
    "Verif.Gather.gather_wires_lawful",
    "Verif.Gather.gather_nonzero_root_fails"
   ],
   "note": "proved for root rank 0 over all schedules; gather_nonzero_root_fails: with another root the result is wrong, so the full property does not hold of the code"
  },
  {
   "property": "C09",
   "status": "proved",
   "theorems": [
    "Verif.Crs.fromDense_spec",
    "Verif.Crs.ofDense_spec",
    "Verif.Crs.fullMatrixToCrsMatrix_spec",
    "Verif.Crs.toDense_spec",
    "Verif.Crs.dense_round_trip",
    "Verif.Crs.csr_round_trip",
    "Verif.Crs.crsMatrixToFullMatrix_fails"
   ],
   "note": "crsMatrixToFullMatrix into a non-empty destination keeps stale elements (crsMatrixToFullMatrix_fails); toDense is right"
  },
  {
   "property": "C10",
   "status": "proved",
   "theorems": [
    "Verif.Crs.matrixVectorProduct_spec",
    "Verif.Crs.multiplyVec_spec"
   ],
   "note": ""
  },
  {
   "property": "C100",
   "status": "proved",
   "theorems": [
    "Verif.IoNg.mat_lawful",
    "Verif.IoNg.mat_over_new",
    "Verif.IoNg.mat_rewritten",
    "Verif.IoNg.crs_lawful",
    "Verif.IoNg.crs_rewritten",
    "Verif.IoNg.real_lawful",
    "Verif.IoNg.complex_lawful",
    "Verif.IoNg.int_lawful",
    "Verif.IoNg.read_old_fails",
    "Verif.IoNg.complex_over_fails",
    "Verif.IoNg.crs_over_new_fails"
   ],
   "note": "HDF5 is the file model of C51; lists and pairs of matrices through list_lawful and pair_lawful."
  },
  {
   "property": "C101",
   "status": "proved",
   "theorems": [
    "Verif.Crs.stmt_spec",
    "Verif.Crs.program_spec",
    "Verif.Crs.add_spec",
    "Verif.Crs.equal_iff",
    "Verif.Crs.plus_factor",
    "Verif.Crs.equal_fails",
    "Verif.Crs.own_factor_fails",
    "Verif.Crs.set_check_fails"
   ],
   "note": "Elements are of a commutative ring; the argument of a sum with a larger matrix has to be square, as the code asserts."
  },
  {
   "property": "C102",
   "status": "partial",
   "theorems": [
    "Verif.SparseVec.findPartition_iff",
    "Verif.SparseVec.chunk_parts_partial",
    "Verif.SparseVec.chunk_sound",
    "Verif.SparseVec.toChunk_test",
    "Verif.SparseVec.print_fields",
    "Verif.SparseVec.chunk_begin_fails",
    "Verif.SparseVec.chunk_end_fails",
    "Verif.SparseVec.toChunk_test_fails"
   ],
   "note": "The full property, that every vector inside a part is written to its chunk, is false of the code (chunk_begin_fails, chunk_end_fails)."
  },
  {
   "property": "C103",
   "status": "proved",
   "theorems": [
    "Verif.Collective.vec_spec",
    "Verif.Collective.mat_transfers",
    "Verif.Collective.crs_transfers",
    "Verif.Collective.all_spec",
    "Verif.Collective.mat_gather",
    "Verif.Collective.crs_gather",
    "Verif.Collective.bcastMat_spec",
    "Verif.Collective.bcastMatComplex_spec",
    "Verif.Collective.bcastCrs_spec",
    "Verif.Collective.bcastCrsComplex_spec",
    "Verif.Collective.bcastEach_spec",
    "Verif.Collective.bcast_matrices",
    "Verif.Collective.allReduceMat_sum",
    "Verif.Collective.allReduceMatComplex_spec",
    "Verif.Collective.vec_old_fails",
    "Verif.Collective.vec_long_fails",
    "Verif.Collective.bcastMatComplex_fails",
    "Verif.Collective.allReduceMat_empty_fails",
    "Verif.Collective.allReduceMat_shape_fails"
   ],
   "note": "Vectors have fewer than 2^31 numbers, the limit of MPI counts (vec_long_fails)."
  },
  {
   "property": "C104",
   "status": "proved",
   "theorems": [
    "Verif.TextIo.file_matrix",
    "Verif.TextIo.file_empty",
    "Verif.TextIo.print_chopped",
    "Verif.TextIo.fd_matrix",
    "Verif.TextIo.fd_matrices",
    "Verif.TextIo.wordBytes_lawful",
    "Verif.TextIo.convert_spec",
    "Verif.TextIo.swap_spec",
    "Verif.TextIo.equal_iff",
    "Verif.TextIo.clear_spec",
    "Verif.TextIo.file_short_fails",
    "Verif.TextIo.file_truncated_fails",
    "Verif.TextIo.fd_empty_fails",
    "Verif.TextIo.print_complex_fails"
   ],
   "note": "Printing and reading one element are variables with the condition that an element is read as it was written (Through), as in C74; the bytes of an element likewise (Bytes.Lawful)."
  },
  {
   "property": "C105",
   "status": "proved",
   "theorems": [
    "Verif.IoNg.overwriteList_spec",
    "Verif.IoNg.writeListAllow_spec",
    "Verif.IoNg.writeList_held",
    "Verif.IoNg.list_rewritten",
    "Verif.IoNg.matObj_lawful",
    "Verif.IoNg.crsObj_lawful",
    "Verif.IoNg.pair_rewritten",
    "Verif.IoNg.allow_new_fails",
    "Verif.IoNg.allow_longer_fails",
    "Verif.IoNg.silent_write_fails"
   ],
   "note": "For elements that are not complex (IoNg.complex_over_fails of C100 shows why). HDF5 is modelled as in C51."
  },
  {
   "property": "C106",
   "status": "proved",
   "theorems": [
    "Verif.Ainur.function_value",
    "Verif.Ainur.native_unknown",
    "Verif.Ainur.native_missing",
    "Verif.Ainur.native_empty_fails",
    "Verif.Ainur.function_default",
    "Verif.Ainur.function_nofile",
    "Verif.Ainur.input_value",
    "Verif.Ainur.unknown_function",
    "Verif.Ainur.missing_argument_fails",
    "Verif.Ainur.short_line_fails",
    "Verif.Ainur.comma_fails",
    "Verif.Ainur.blank_line_fails",
    "Verif.Ainur.long_line_fails",
    "Verif.Ainur.long_file_fails"
   ],
   "note": "Numbers are any type, with std::atof and std::to_string given."
  },
  {
   "property": "C107",
   "status": "proved",
   "theorems": [
    "Verif.IoSimple.fraction_roundtrip",
    "Verif.IoSimple.collection_roundtrip",
    "Verif.IoSimple.empty_collection_fails",
    "Verif.IoSimple.fraction_rank_fails",
    "Verif.IoSimple.old_format_fails",
    "Verif.IoSimple.smallFmt_lawful"
   ],
   "note": "Printing of numbers is a variable that must be read back; 12 digits of a double are not."
  },
  {
   "property": "C108",
   "status": "proved",
   "theorems": [
    "Verif.MemResolv.snapshot_spec",
    "Verif.MemResolv.label_spec",
    "Verif.MemResolv.save_header",
    "Verif.MemResolv.long_label",
    "Verif.MemResolv.unchecked_fails",
    "Verif.MemResolv.save_first_fails",
    "Verif.MemResolv.truncated_fails"
   ],
   "note": "The file system always succeeds; no allocation is too large."
  },
  {
   "property": "C109",
   "status": "proved",
   "theorems": [
    "Verif.MemResolv.pod_spec",
    "Verif.MemResolv.array_vectors",
    "Verif.MemResolv.vector_copy",
    "Verif.MemResolv.pointers_copy",
    "Verif.MemResolv.pointers_total",
    "Verif.MemResolv.pair_spec",
    "Verif.MemResolv.complex_refused",
    "Verif.MemResolv.array_spec",
    "Verif.MemResolv.pod_filling_fails",
    "Verif.MemResolv.local_fails",
    "Verif.MemResolv.nested_fails",
    "Verif.MemResolv.pair_fails"
   ],
   "note": "Vectors are three words; strings are not modelled."
  },
  {
   "property": "C11",
   "status": "proved",
   "theorems": [
    "Verif.Crs.multiply_spec",
    "Verif.Crs.multiplyTc_spec"
   ],
   "note": ""
  },
  {
   "property": "C110",
   "status": "proved",
   "theorems": [
    "Verif.Krylov.scale_spec",
    "Verif.Krylov.scale_exact",
    "Verif.Krylov.scale_positive_fails",
    "Verif.Krylov.plot_spec",
    "Verif.Krylov.plot_sized",
    "Verif.Krylov.plot_step_fails",
    "Verif.Krylov.chebCtor_fails"
   ],
   "note": "The energies that Lanczos finds are arguments. Real numbers are exact."
  },
  {
   "property": "C111",
   "status": "proved",
   "theorems": [
    "Verif.Parallel.affinity_spec",
    "Verif.Parallel.affinity_distinct",
    "Verif.Parallel.affinity_refused_fails",
    "Verif.Parallel.stack_fails",
    "Verif.Parallel.create_fails"
   ],
   "note": "The answers of the system are arguments. Setting the size of the stack of attributes that are not initialized is undefined by POSIX; here it has no effect, as with the GNU library."
  },
  {
   "property": "C112",
   "status": "proved",
   "theorems": [
    "Verif.IoSimple.sessions_spec",
    "Verif.IoSimple.sessions_unclosed",
    "Verif.IoSimple.open_twice_fails",
    "Verif.IoSimple.write_closed_fails",
    "Verif.IoSimple.not_opened_fails",
    "Verif.IoSimple.rank_fails",
    "Verif.IoSimple.ostream_name_fails"
   ],
   "note": "The behaviour of std::ofstream is modelled (open fails if a file is open and clears the state otherwise; writing without a file makes the stream bad). The stream stores what it holds when it is closed; errors of the disk while writing are not modelled."
  },
  {
   "property": "C113",
   "status": "proved",
   "theorems": [
    "Verif.Geom.geometry_ainur",
    "Verif.Geom.ladder_refused_ainur",
    "Verif.Geom.connectors_refused_ainur",
    "Verif.Geom.prefix_kept_fails"
   ],
   "note": "The answers of the Ainur object to labels are given (C49, C50, C65, C78 and C106 say what they are); LongRange and General kinds have their own model (C72)."
  },
  {
   "property": "C114",
   "status": "proved",
   "theorems": [
    "Verif.Geom.import_values",
    "Verif.Geom.import_refused",
    "Verif.Geom.declared_iff",
    "Verif.Geom.import_fails"
   ],
   "note": "Values that call functions or macros are in C50 and C106, not here."
  },
  {
   "property": "C115",
   "status": "proved",
   "theorems": [
    "Verif.Extrap.fit_spec",
    "Verif.Extrap.fit_exact",
    "Verif.Extrap.fit_singular_fails",
    "Verif.Extrap.geometric_singular",
    "Verif.Extrap.getr_keeps_exists",
    "Verif.Extrap.refit_own_fails",
    "Verif.Extrap.refit_odd",
    "Verif.Extrap.predict2_noGsl_fails",
    "Verif.Extrap.predict2_spec",
    "Verif.Extrap.predict2_stable",
    "Verif.Extrap.predict2_same",
    "Verif.Extrap.predict2_count_fails",
    "Verif.Extrap.predict2_noGsl",
    "Verif.Extrap.roots_exists",
    "Verif.Extrap.gemv_exists"
   ],
   "note": "Real numbers without rounding; GETRF, GETRI, GEMV and gsl_poly_complex_solve are arguments with contracts, which can be met."
  },
  {
   "property": "C116",
   "status": "proved",
   "theorems": [
    "Verif.Numeric.integral_qag",
    "Verif.Numeric.integral_qagp",
    "Verif.Numeric.integral_infinity",
    "Verif.Numeric.integral_everywhere",
    "Verif.Numeric.integral_error_fails",
    "Verif.Numeric.integral_points_fails",
    "Verif.Numeric.integral_noGsl",
    "Verif.Numeric.quad_exists"
   ],
   "note": "The routines of GSL are arguments with a contract, which can be met; no rounding."
  },
  {
   "property": "C117",
   "status": "proved",
   "theorems": [
    "Verif.Numeric.cost_spec",
    "Verif.Numeric.delta_spec",
    "Verif.Numeric.gamma_fails",
    "Verif.Numeric.grad_spec",
    "Verif.Numeric.grad_fails"
   ],
   "note": "Real numbers without rounding; reading the file and printing are not modelled."
  },
  {
   "property": "C118",
   "status": "proved",
   "theorems": [
    "Verif.Krylov.decompose_eq",
    "Verif.Krylov.runs_spec",
    "Verif.Krylov.again_fails",
    "Verif.Krylov.length_refused",
    "Verif.Krylov.swap_spec"
   ],
   "note": "Exact arithmetic; with the whole matrix in memory (lotaMemory true), which the constructor demands."
  },
  {
   "property": "C119",
   "status": "proved",
   "theorems": [
    "Verif.IoNg.group_lawful",
    "Verif.IoNg.enum_lawful",
    "Verif.IoNg.enum_fails",
    "Verif.IoNg.numbers_lawful",
    "Verif.IoNg.geo_lawful",
    "Verif.IoNg.geo_real",
    "Verif.IoNg.geo_complex",
    "Verif.IoNg.geo_places"
   ],
   "note": "Reading is by the same labels with IoNgSerializer::read; the geometry classes have no reading function of their own. Elements as in C51 and C100."
  },
  {
   "property": "C12",
   "status": "proved",
   "theorems": [
    "Verif.Crs.transposeConjugate_spec",
    "Verif.Crs.transposeConjugate_twice"
   ],
   "note": ""
  },
  {
   "property": "C120",
   "status": "proved",
   "theorems": [
    "Verif.Geom.print_spec",
    "Verif.Geom.term_text",
    "Verif.Geom.dir_matrices",
    "Verif.Geom.dir_numbers_fails",
    "Verif.Geom.geo_text",
    "Verif.Geom.print_kinds"
   ],
   "note": "How a number is printed is a parameter; zero is printed as 0."
  },
  {
   "property": "C121",
   "status": "proved",
   "theorems": [
    "Verif.Parallel.fork_join",
    "Verif.Parallel.nested_equals_serial",
    "Verif.Parallel.nested_sum",
    "Verif.Parallel.shared_fails"
   ],
   "note": "Threads are interleaved action by action; pthread_create and pthread_join are assumed to start and await the thread."
  },
  {
   "property": "C122",
   "status": "proved",
   "theorems": [
    "Verif.Krylov.kernel_positive",
    "Verif.Krylov.plot_positive",
    "Verif.Krylov.plot_moments",
    "Verif.Krylov.kernel_limit",
    "Verif.Krylov.plot_converges",
    "Verif.Krylov.jackson_second",
    "Verif.Krylov.dirichlet_fails"
   ],
   "note": "Real numbers without rounding. The Lorentz kernel with parameter zero divides by zero and is excluded. The plot uses the first half of the moments that are stored: its default cutoff is the number of pairs."
  },
  {
   "property": "C123",
   "status": "proved",
   "theorems": [
    "Verif.Ast.set_exec",
    "Verif.Ast.set_other",
    "Verif.Ast.linear_iff",
    "Verif.Ast.set_beyond_fails",
    "Verif.Ast.set_alias_fails"
   ],
   "note": "Values and their arithmetic are abstract. char is signed, as on x86. The property is stated for inputs numbered below ten, as the code of an input is one character."
  },
  {
   "property": "C124",
   "status": "proved",
   "theorems": [
    "Verif.Krylov.ground_accuracy",
    "Verif.Krylov.ground_rate",
    "Verif.Krylov.more_steps",
    "Verif.Krylov.states_interlace",
    "Verif.Krylov.split_exists"
   ],
   "note": "Exact arithmetic. LAPACK's diagonalization of the tridiagonal matrix is a contract that can be met (Krylov.diagonalizes_exists). The powers of the matrix applied to the start vector are independent; without that see Krylov.breakdown_fails."
  },
  {
   "property": "C125",
   "status": "proved",
   "theorems": [
    "Verif.MemResolv.dense_copy",
    "Verif.MemResolv.dense_copy_empty",
    "Verif.MemResolv.dense_complex",
    "Verif.MemResolv.mesh_spec",
    "Verif.MemResolv.crs_fails",
    "Verif.MemResolv.mesh_default_fails",
    "Verif.MemResolv.short_string_fails",
    "Verif.MemResolv.long_string_fails"
   ],
   "note": "The layout of vectors and strings is that of the standard library of gcc on 64-bit machines."
  },
  {
   "property": "C126",
   "status": "proved",
   "theorems": [
    "Verif.Whole.lanczos_file",
    "Verif.Whole.independent_overlap",
    "Verif.Whole.lanczos_swap",
    "Verif.Whole.lanczos_shape",
    "Verif.Whole.lanczos_equal_fails",
    "Verif.Whole.lanczos_big_fails",
    "Verif.Whole.lanczos_one_fails"
   ],
   "note": "Composition of the models of text input, compressed rows, LAPACK, random numbers and the Lanczos solver. Numbers have no rounding; numbers in the file are of a type that the text can hold. The claim is stated for start vectors with independent powers; the three theorems ending in _fails show where the program does not give the eigenvalues."
  },
  {
   "property": "C127",
   "status": "proved",
   "theorems": [
    "Verif.Whole.Range.range_prints",
    "Verif.Whole.Range.range_mpi_fails",
    "Verif.Whole.Range.range_mpi_squares_fails",
    "Verif.Whole.Range.range_zero_fails"
   ],
   "note": "Proved for builds without MPI; with MPI the code violates it, and the negation is proved. sum_[i] += t is one atomic action, since no two threads share i."
  },
  {
   "property": "C128",
   "status": "proved",
   "theorems": [
    "Verif.Whole.Combine.combine_spec",
    "Verif.Whole.Combine.combine_plot",
    "Verif.Whole.Combine.single_plot",
    "Verif.Whole.Combine.combine_order_fails"
   ],
   "note": "Numbers have any text that is a word and any rounding r with r(r(x)) = r(x); the arithmetic of the plot itself has no rounding and rows are pairs of numbers, not text. The diagonalization is any function of the coefficients that gives as many values as rows."
  },
  {
   "property": "C129",
   "status": "proved",
   "theorems": [
    "Verif.Whole.Sparse.build_spec",
    "Verif.Whole.Sparse.energy_fails",
    "Verif.Whole.Sparse.one_row_fails",
    "Verif.Whole.Sparse.no_rows",
    "Verif.Krylov.ground_inexact_fails"
   ],
   "note": "Random rows and columns are rounded, elements of the matrix and the arithmetic of the solver are not. The energy is stated for independent powers: without that the solver divides by zero."
  },
  {
   "property": "C13",
   "status": "proved",
   "theorems": [
    "Verif.Crs.operatorPlus_spec",
    "Verif.Crs.operatorPlus_same",
    "Verif.Crs.addAssign_spec",
    "Verif.Crs.addAssign_refuses",
    "Verif.Crs.sum_spec",
    "Verif.Crs.mulAssign_spec",
    "Verif.Crs.conjugate_spec",
    "Verif.Crs.makeDiagonal_spec",
    "Verif.Crs.fromBlockToFull_spec"
   ],
   "note": ""
  },
  {
   "property": "C130",
   "status": "proved",
   "theorems": [
    "Verif.Whole.Imbalance.imbalance_prints",
    "Verif.Whole.Imbalance.imbalance_exact",
    "Verif.Whole.Imbalance.imbalance_overflow_fails",
    "Verif.Whole.Imbalance.imbalance_zero_fails",
    "Verif.Whole.Imbalance.imbalance_usage",
    "Verif.Whole.Imbalance.imbalance_refused",
    "Verif.Whole.Imbalance.weight_range"
   ],
   "note": "The rounding of a product is assumed to keep numbers of at most 53 bits."
  },
  {
   "property": "C131",
   "status": "proved",
   "theorems": [
    "Verif.Whole.Calculator.calculator_prints",
    "Verif.Whole.Calculator.calculator_only",
    "Verif.Whole.Calculator.calculator_numbers",
    "Verif.Whole.Calculator.calculator_operations",
    "Verif.Whole.Calculator.calculator_usage",
    "Verif.Whole.Calculator.calculator_small_fails",
    "Verif.Whole.Calculator.calculator_examples_fail"
   ],
   "note": ""
  },
  {
   "property": "C132",
   "status": "proved",
   "theorems": [
    "Verif.Whole.Kernel.ctor_fails",
    "Verif.Whole.Kernel.kernel_never_fails",
    "Verif.Whole.Kernel.kernel_usage",
    "Verif.Whole.Kernel.kernel_throws"
   ],
   "note": "The code never does what the program is for; what holds instead is proved."
  },
  {
   "property": "C133",
   "status": "proved",
   "theorems": [
    "Verif.Whole.Parallel2.parallel2_prints",
    "Verif.Whole.Parallel2.parallel2_ends",
    "Verif.Whole.Parallel2.parallel2_usage",
    "Verif.Whole.Parallel2.parallel2_refused",
    "Verif.Whole.Parallel2.parallel2_empty_fails",
    "Verif.Whole.Parallel2.parallel2_zero_fails"
   ],
   "note": "How a stream writes a double is a variable."
  },
  {
   "property": "C134",
   "status": "proved",
   "theorems": [
    "Verif.Whole.CrsTest.crs_prints",
    "Verif.Whole.CrsTest.crsText_spec",
    "Verif.Whole.CrsTest.product_spec",
    "Verif.Whole.CrsTest.crs_wide_fails",
    "Verif.Whole.CrsTest.crs_closed_fails"
   ],
   "note": "Arithmetic is exact except that the random numbers may be rounded in any way. The mode with a random matrix is not modelled here (its constructor is wrong, see C129 and the constructor from coordinates)."
  },
  {
   "property": "C135",
   "status": "proved",
   "theorems": [
    "Verif.Whole.Linear.linear_prints",
    "Verif.Whole.Linear.linear_exact",
    "Verif.Whole.Linear.numbers_spec",
    "Verif.Whole.Linear.refit_same",
    "Verif.Whole.Linear.continues_unique",
    "Verif.Whole.Linear.linear_usage",
    "Verif.Whole.Linear.linear_nofile",
    "Verif.Whole.Linear.linear_odd",
    "Verif.Whole.Linear.linear_many_fails"
   ],
   "note": "Arithmetic is exact, LAPACK and BLAS do what they document."
  },
  {
   "property": "C136",
   "status": "proved",
   "theorems": [
    "Verif.Whole.Decompose.decompose_all",
    "Verif.Whole.Decompose.decompose_index",
    "Verif.Whole.Decompose.decompose_size",
    "Verif.Whole.Decompose.decompose_overflow_fails",
    "Verif.Whole.Decompose.decompose_usage",
    "Verif.Whole.Decompose.decompositions_count",
    "Verif.Whole.Decompose.decompositions_unique",
    "Verif.Whole.Decompose.decompositions_exist"
   ],
   "note": "Negative sizes are not modelled."
  },
  {
   "property": "C137",
   "status": "proved",
   "theorems": [
    "Verif.Whole.Threads.threads_prints",
    "Verif.Whole.Threads.threads_wrapped",
    "Verif.Whole.Threads.threads_negative_fails",
    "Verif.Whole.Threads.threads_usage",
    "Verif.Whole.Threads.threads_zero_fails"
   ],
   "note": "The update of a partial sum is a read and a write."
  },
  {
   "property": "C138",
   "status": "proved",
   "theorems": [
    "Verif.Whole.Gemm.gemm_passes",
    "Verif.Whole.Gemm.gemm_settings",
    "Verif.Whole.Gemm.gemm_settings_fails",
    "Verif.Whole.Gemm.gemm_zero_fails",
    "Verif.Whole.Gemm.gemm_overflow_fails",
    "Verif.Whole.Gemm.gemm_noThreads_fails"
   ],
   "note": "Exact arithmetic; negative block sizes are not modelled."
  },
  {
   "property": "C139",
   "status": "proved",
   "theorems": [
    "Verif.Whole.Tools.options_prints",
    "Verif.Whole.Tools.options_list",
    "Verif.Whole.Tools.predicate_prints",
    "Verif.Whole.Tools.predicate_usage",
    "Verif.Whole.Tools.integrator_prints",
    "Verif.Whole.Tools.integrator_usage"
   ],
   "note": "atof of the C library is a parameter; GSL by its documented contract."
  },
  {
   "property": "C14",
   "status": "partial",
   "theorems": [
    "Verif.Crs.checkValidity_iff",
    "Verif.Crs.reachable_valid_partial",
    "Verif.Crs.checkValidity_start_fails",
    "Verif.Crs.ofCoo_fails"
   ],
   "note": "all constructors and operations except the coordinate constructor, which breaks the claim (ofCoo_fails); checkValidity does not check the first row pointer"
  },
  {
   "property": "C140",
   "status": "proved",
   "theorems": [
    "Verif.Whole.Input.input_prints",
    "Verif.Whole.Input.input_noScalar",
    "Verif.Whole.Input.input_refused",
    "Verif.Whole.Input.input_plain",
    "Verif.Whole.Input.input_plain_noScalar",
    "Verif.Whole.Input.input_plain_refused",
    "Verif.Whole.Input.input_usage",
    "Verif.Whole.Input.extension_spec",
    "Verif.Whole.Input.input_lastLine_fails"
   ],
   "note": "Values without macros and functions; numbers are rational."
  },
  {
   "property": "C141",
   "status": "proved",
   "theorems": [
    "Verif.Whole.Bools.boolean_ok",
    "Verif.Whole.Bools.boolean_refused",
    "Verif.Whole.Bools.boolean_crash",
    "Verif.Whole.Bools.compare_iff",
    "Verif.Whole.Bools.compare_ok_fails",
    "Verif.Whole.Bools.hello_prints"
   ],
   "note": "HDF5 as in C51; memory does not run out."
  },
  {
   "property": "C142",
   "status": "proved",
   "theorems": [
    "Verif.Whole.Blas.products_ok",
    "Verif.Whole.Blas.products_empty_fails",
    "Verif.Whole.Blas.products_serial_refused",
    "Verif.Whole.Blas.products_usage"
   ],
   "note": "BLAS is trusted to compute each entry in one step of its thread; exact arithmetic; the numbers drawn are arbitrary; memory does not run out."
  },
  {
   "property": "C143",
   "status": "proved",
   "theorems": [
    "Verif.Whole.InterNode.serial_prints",
    "Verif.Whole.InterNode.mpi_prints",
    "Verif.Whole.InterNode.no_host",
    "Verif.Whole.InterNode.usage"
   ],
   "note": "MPI's ranks and the name of the host are given."
  },
  {
   "property": "C144",
   "status": "proved",
   "theorems": [
    "Verif.Whole.Closures.check_iff",
    "Verif.Whole.Closures.checks_pass",
    "Verif.Whole.Closures.prints"
   ],
   "note": "Elements are exact; what a failed check prints (the two matrices) is left out."
  },
  {
   "property": "C145",
   "status": "proved",
   "theorems": [
    "Verif.Concurrency.disabled_iff",
    "Verif.Concurrency.share_spec"
   ],
   "note": "The text of the exception is left out."
  },
  {
   "property": "C146",
   "status": "proved",
   "theorems": [
    "Verif.Canonical.replaceOne_spec",
    "Verif.Canonical.replaceEvery_spec",
    "Verif.Canonical.replaceEvery_fails",
    "Verif.Canonical.replaceEvery_again_fails"
   ],
   "note": "That replaceAll ends needs that the label is not in the printed value: replaceEvery_fails."
  },
  {
   "property": "C147",
   "status": "proved",
   "theorems": [
    "Verif.IoNg.run_recorded",
    "Verif.IoNg.start_again_refused",
    "Verif.IoNg.end_lost_fails"
   ],
   "note": "Times are not negative; the texts that are printed (operator<<) are left out."
  },
  {
   "property": "C148",
   "status": "proved",
   "theorems": [
    "Verif.Whole.Gemm2.tests_pass",
    "Verif.Whole.Gemm2.equal_iff",
    "Verif.Whole.Gemm2.tests_usage",
    "Verif.Whole.Gemm2.tests_missing_fails",
    "Verif.Whole.Gemm2.tests_no_threads_fails"
   ],
   "note": "Numbers are exact; what tasks draw from the common generator is arbitrary, since they draw without a lock."
  },
  {
   "property": "C149",
   "status": "proved",
   "theorems": [
    "Verif.Copy.deep_copies",
    "Verif.Copy.call_recorded",
    "Verif.Copy.shallow_same",
    "Verif.Copy.copy_deleted_fails"
   ],
   "note": "Copy constructors copy the value and do not throw."
  },
  {
   "property": "C15",
   "status": "partial",
   "theorems": [
    "Verif.Crs.ofCoo_partial",
    "Verif.Crs.ofCoo_fails",
    "Verif.Crs.ofCoo_gap_fails"
   ],
   "note": "claim false of the code in general; proved when every row up to the last has one entry"
  },
  {
   "property": "C150",
   "status": "proved",
   "theorems": [
    "Verif.Host.limit_set",
    "Verif.Host.limit_falls",
    "Verif.Host.limit_lost_fails",
    "Verif.Host.limit_none_fails",
    "Verif.Host.limit_again_fails"
   ],
   "note": "setrlimit as documented: refused if the soft limit is above the hard one, or if the hard one would rise in a process without the privilege."
  },
  {
   "property": "C151",
   "status": "proved",
   "theorems": [
    "Verif.IoNg.Life.life_refines",
    "Verif.IoNg.Life.life_answers",
    "Verif.IoNg.Life.others_untouched",
    "Verif.IoNg.Life.open_twice",
    "Verif.IoNg.Life.closed_destroyed",
    "Verif.IoNg.Life.shut_fails",
    "Verif.IoNg.Life.reopen_new_fails",
    "Verif.IoNg.Life.reopen_read_fails",
    "Verif.IoNg.Life.reopen_write_fails",
    "Verif.IoNg.Life.reopen_unfinished_fails",
    "Verif.IoNg.Life.excl_destroy_fails",
    "Verif.IoNg.Life.reader_writes_fails"
   ],
   "note": "One object at a time; values are the leaves of C51; HDF5 by the documented effect of the modes. A reader that was closed and is opened again accepts an unfinished file (reopen_unfinished_fails)."
  },
  {
   "property": "C152",
   "status": "proved",
   "theorems": [
    "Verif.Whole.Real.real_prints",
    "Verif.Whole.Real.real_missing",
    "Verif.Whole.Real.real_refused",
    "Verif.Whole.Real.real_noFile",
    "Verif.Whole.Real.real_negative_fails"
   ],
   "note": "Values without macros and functions; how a double is printed is a parameter, and reading one is exact; what goes to standard error is left out."
  },
  {
   "property": "C153",
   "status": "proved",
   "theorems": [
    "Verif.Numeric.Gradient.function_at",
    "Verif.Numeric.Gradient.gradient_at",
    "Verif.Numeric.Gradient.both_at",
    "Verif.Numeric.Gradient.gradientNorm_spec",
    "Verif.Numeric.Gradient.function_stride_fails"
   ],
   "note": "gsl_vector by its documented layout; real numbers for double."
  },
  {
   "property": "C154",
   "status": "proved",
   "theorems": [
    "Verif.Whole.Fun.fun_prints",
    "Verif.Whole.Fun.ainur_more",
    "Verif.Whole.Fun.fun_shipped",
    "Verif.Whole.Fun.fun_notNumber",
    "Verif.Whole.Fun.fun_noTable",
    "Verif.Whole.Fun.fun_noFile",
    "Verif.Whole.Fun.fun_absent_fails",
    "Verif.Whole.Fun.fun_small_fails"
   ],
   "note": "Numbers are any type with std::atof and std::to_string given; the macros of the shipped input are expanded by the kernel, once for all tables."
  },
  {
   "property": "C155",
   "status": "proved",
   "theorems": [
    "Verif.Whole.Lanczos.lanczos_ground",
    "Verif.Whole.Lanczos.lanczos_lowest"
   ],
   "note": "No rounding, but for the seed; the printing of the numbers is not modelled."
  },
  {
   "property": "C156",
   "status": "proved",
   "theorems": [
    "Verif.Lapack.svd_fallback",
    "Verif.Whole.Svd.svd_twice"
   ],
   "note": "No rounding. That every matrix has a decomposition, so that such routines exist for all sizes, is Lapack.svd_always_exists (C80)."
  },
  {
   "property": "C157",
   "status": "proved",
   "theorems": [
    "Verif.Whole.Small.base64_prints",
    "Verif.Whole.Small.lapack_diagonalizes",
    "Verif.Whole.Small.lapack_exists",
    "Verif.Whole.Small.random_same_fails",
    "Verif.Whole.Small.random_none_fails"
   ],
   "note": "No rounding in eigenvalues. Finding: seed(s) of Random48 has no effect on the numbers, so randomTest prints the same number for every argument."
  },
  {
   "property": "C16",
   "status": "proved",
   "theorems": [
    "Verif.Crs.externalProductId_spec",
    "Verif.Crs.externalProduct_spec"
   ],
   "note": ""
  },
  {
   "property": "C17",
   "status": "partial",
   "theorems": [
    "Verif.Crs.isHermitian_spec",
    "Verif.Crs.isHermitian_nonsquare",
    "Verif.Crs.isAntiHermitian_spec",
    "Verif.Crs.isDiagonal_spec",
    "Verif.Crs.isTheIdentity_partial",
    "Verif.Crs.isTheIdentity_fails",
    "Verif.Crs.isZero_spec",
    "Verif.Crs.norm2_spec",
    "Verif.Crs.norm2_twice_fails",
    "Verif.Crs.dense_isHermitian_spec",
    "Verif.Crs.dense_isAntiHermitian_spec",
    "Verif.Crs.dense_isTheIdentity_spec",
    "Verif.Crs.dense_isZero_spec"
   ],
   "note": "all proved but isTheIdentity on CrsMatrix, which is wrong when diagonal elements are not stored (isTheIdentity_fails)"
  },
  {
   "property": "C18",
   "status": "proved",
   "theorems": [
    "Verif.Crs.print_read",
    "Verif.Crs.print_read_empty_fails"
   ],
   "note": ""
  },
  {
   "property": "C19",
   "status": "proved",
   "theorems": [
    "Verif.Dense.get_set",
    "Verif.Dense.get_out_of_range",
    "Verif.Dense.mk0_rep",
    "Verif.Dense.mkVal_rep",
    "Verif.Dense.ofData_rep",
    "Verif.Dense.eq_iff",
    "Verif.Dense.rep_exists_unique",
    "Verif.Dense.conjugate_rep",
    "Verif.Dense.addAssign_rep",
    "Verif.Dense.subAssign_rep",
    "Verif.Dense.mulAssign_rep",
    "Verif.Dense.setTo_rep",
    "Verif.Dense.setToIdentity_rep",
    "Verif.Dense.setToIdentity_nonsquare",
    "Verif.Dense.scale_rep",
    "Verif.Dense.add_rep",
    "Verif.Dense.sub_rep",
    "Verif.Dense.matrixMatrix_rep",
    "Verif.Dense.matrixMatrix_mismatch",
    "Verif.Dense.mulVec_rep",
    "Verif.Dense.vecMul_rep",
    "Verif.Dense.transposeConjugate_rep",
    "Verif.Dense.transposeConjugateInto_rep",
    "Verif.Dense.transposeInto_rep",
    "Verif.Dense.transposeInto_wrong_rows",
    "Verif.Dense.multiplyTransposeConjugate_rep",
    "Verif.Dense.multiplyTransposeConjugate_rect_fails",
    "Verif.Dense.outerProduct_rep",
    "Verif.Dense.nonZeros_rep",
    "Verif.Dense.norm2_rep",
    "Verif.Dense.print_read",
    "Verif.Dense.resizeVal_spec",
    "Verif.Dense.resizeVal_stale_fails"
   ],
   "note": "multiplyTransposeConjugate only for square matrices (rect_fails); resize(n,m,val) keeps stale elements (resizeVal_stale_fails)"
  },
  {
   "property": "C20",
   "status": "proved",
   "theorems": [
    "Verif.SparseVec.eq_spec",
    "Verif.SparseVec.isOne_spec",
    "Verif.SparseVec.isOne_zero_fails",
    "Verif.SparseVec.coeff_ofVec",
    "Verif.SparseVec.coeff_add",
    "Verif.SparseVec.coeff_mulAssign",
    "Verif.SparseVec.coeff_subAssign",
    "Verif.SparseVec.coeff_fromChunk",
    "Verif.SparseVec.sort_spec",
    "Verif.SparseVec.sort_noop",
    "Verif.SparseVec.sort_exists",
    "Verif.SparseVec.inv_reachable",
    "Verif.SparseVec.scalarProduct_spec",
    "Verif.SparseVec.scalarProduct_empty_fails",
    "Verif.SparseVec.norm2_spec",
    "Verif.SparseVec.norm2_unsorted_fails",
    "Verif.SparseVec.eq_prefix_fails",
    "Verif.SparseVec.toChunk_spec",
    "Verif.SparseVec.toChunk_stale_fails"
   ],
   "note": "_fails theorems: scalarProduct asserts on empty vectors even after sort; norm of unsorted vectors; operator== compares a prefix; toChunk keeps stale elements"
  },
  {
   "property": "C21",
   "status": "proved",
   "theorems": [
    "Verif.SparseVec.mvp_spec",
    "Verif.SparseVec.finalize_spec",
    "Verif.SparseVec.finalize_exists",
    "Verif.SparseVec.finalize_twice_fails",
    "Verif.SparseVec.cached_empty",
    "Verif.SparseVec.cached_mvp_spec",
    "Verif.SparseVec.cached_finalize_spec",
    "Verif.SparseVec.cached_zero_fails"
   ],
   "note": "a SparseRow must not be used again after finalize (finalize_twice_fails); a cache of size 0 is unusable (cached_zero_fails)"
  },
  {
   "property": "C22",
   "status": "proved",
   "theorems": [
    "Verif.SortM.sort_correct",
    "Verif.SortM.sort_small_correct",
    "Verif.SortM.sort_exists"
   ],
   "note": ""
  },
  {
   "property": "C23",
   "status": "proved",
   "theorems": [
    "Verif.Perms.ctor_spec",
    "Verif.Perms.ctor_exists",
    "Verif.Perms.increase_true",
    "Verif.Perms.increase_false",
    "Verif.Perms.increase_total",
    "Verif.Perms.run_exists",
    "Verif.Perms.enumerates",
    "Verif.Perms.enumerates_count"
   ],
   "note": ""
  },
  {
   "property": "C24",
   "status": "proved",
   "theorems": [
    "Verif.SumDec.all_spec",
    "Verif.SumDec.size_spec",
    "Verif.SumDec.index_spec"
   ],
   "note": ""
  },
  {
   "property": "C25",
   "status": "proved",
   "theorems": [
    "Verif.SumDec.unpack_spec",
    "Verif.SumDec.pack_unpack",
    "Verif.SumDec.unpack_pack",
    "Verif.SumDec.unpack_perm_pack"
   ],
   "note": ""
  },
  {
   "property": "C26",
   "status": "proved",
   "theorems": [
    "Verif.StrUtil.split_spec",
    "Verif.StrUtil.split_tokens",
    "Verif.StrUtil.split_join"
   ],
   "note": ""
  },
  {
   "property": "C27",
   "status": "proved",
   "theorems": [
    "Verif.StrUtil.log2Integer_spec",
    "Verif.StrUtil.integerDivision_spec",
    "Verif.StrUtil.isAnInteger_spec",
    "Verif.StrUtil.isAfloat_spec",
    "Verif.StrUtil.atoi_decimal",
    "Verif.StrUtil.atoi_throws",
    "Verif.StrUtil.atoi_malformed_fails"
   ],
   "note": "Finding: atoi silently accepts strings such as \"\", \"+-\" and \"12-7\"."
  },
  {
   "property": "C28",
   "status": "proved",
   "theorems": [
    "Verif.Geom.chain_connected",
    "Verif.Geom.chain_graph",
    "Verif.Geom.chain_enumerates",
    "Verif.Geom.chain_periodic_fails",
    "Verif.Geom.chain_ctor_fails"
   ],
   "note": "Open chains fully; for periodic chains connections and graph laws are proved and the violated handle part is exhibited."
  },
  {
   "property": "C29",
   "status": "proved",
   "theorems": [
    "Verif.Geom.ladder_ctor_valid",
    "Verif.Geom.ladder_connected",
    "Verif.Geom.ladder_graph",
    "Verif.Geom.ladder_dirs",
    "Verif.Geom.ladder_x_injects",
    "Verif.Geom.ladder_x_enumerates",
    "Verif.Geom.ladder_x_two_columns_fails",
    "Verif.Geom.ladder_y_injects",
    "Verif.Geom.ladder_y_enumerates"
   ],
   "note": "Everything except two periodic columns, where the table has unused entries (proved)."
  },
  {
   "property": "C30",
   "status": "proved",
   "theorems": [
    "Verif.Geom.star_connected",
    "Verif.Geom.star_graph",
    "Verif.Geom.star_enumerates"
   ],
   "note": ""
  },
  {
   "property": "C31",
   "status": "proved",
   "theorems": [
    "Verif.Geom.bath_ctor_valid",
    "Verif.Geom.bath_partition",
    "Verif.Geom.bath_connected",
    "Verif.Geom.bath_graph",
    "Verif.Geom.bath_enumerates",
    "Verif.Geom.bath_cluster_enumerates",
    "Verif.Geom.bath_odd_fails",
    "Verif.Geom.bath_single_fails"
   ],
   "note": "For an even number of cluster sites; the property is violated for odd ones (proved)."
  },
  {
   "property": "C32",
   "status": "proved",
   "theorems": [
    "Verif.Geom.split_spec",
    "Verif.Geom.split_partition",
    "Verif.Geom.split_throws",
    "Verif.Geom.split_odd_fails",
    "Verif.Geom.split_unaligned_fails"
   ],
   "note": "Finding: split_odd_fails shows the violated cases are exactly the remaining ones."
  },
  {
   "property": "C33",
   "status": "proved",
   "theorems": [
    "Verif.Geom.KTwo.ktwo_type",
    "Verif.Geom.KTwo.ktwo_connected",
    "Verif.Geom.KTwo.ktwo_graph",
    "Verif.Geom.KTwo.ktwo_dir",
    "Verif.Geom.KTwo.ktwo_sign",
    "Verif.Geom.KTwo.ktwo_index"
   ],
   "note": ""
  },
  {
   "property": "C34",
   "status": "proved",
   "theorems": [
    "Verif.Geom.chain_translate",
    "Verif.Geom.chain_translate_group",
    "Verif.Geom.chain_reflection",
    "Verif.Geom.ladder_translate",
    "Verif.Geom.ladder_translate_x",
    "Verif.Geom.ladder_translate_y",
    "Verif.Geom.ladder_reflection"
   ],
   "note": ""
  },
  {
   "property": "C35",
   "status": "proved",
   "theorems": [
    "Verif.Geom.connectors_hermitian",
    "Verif.Geom.connectors_matrix",
    "Verif.Geom.connectors_number",
    "Verif.Geom.connectors_number_hermitian",
    "Verif.Geom.chain_good",
    "Verif.Geom.ladder_good",
    "Verif.Geom.ktwo_good",
    "Verif.Geom.star_good",
    "Verif.Geom.ladderx_good",
    "Verif.Geom.bath_good",
    "Verif.Geom.honey_good",
    "Verif.Geom.connectors_complex_fails"
   ],
   "note": "for SPECIFIC data; with one orbital and a complex number the connectors are symmetric, not Hermitian (connectors_complex_fails)"
  },
  {
   "property": "C36",
   "status": "proved",
   "theorems": [
    "Verif.Ast.karva_value",
    "Verif.Ast.wf_value",
    "Verif.Ast.karva_only",
    "Verif.Ast.execNode_iff",
    "Verif.Ast.arity_eq"
   ],
   "note": "value arithmetic and number reading are parameters"
  },
  {
   "property": "C37",
   "status": "proved",
   "theorems": [
    "Verif.Predicate.predicate_spec",
    "Verif.Predicate.simple_ctor_spec",
    "Verif.Predicate.compare_spec",
    "Verif.Predicate.int_vars_ok",
    "Verif.Predicate.own_name_loops_fails",
    "Verif.Predicate.name_inside_operator_fails"
   ],
   "note": "under the stated conditions on names; the two _fails theorems show what happens without them"
  },
  {
   "property": "C38",
   "status": "proved",
   "theorems": [
    "Verif.Canonical.canonical_value",
    "Verif.Canonical.parens_arith",
    "Verif.Canonical.evaluate_eq",
    "Verif.Canonical.number_term_dropped_fails",
    "Verif.Canonical.old_result_added_fails"
   ],
   "note": "for expressions every term of which has an operator; terms without one are dropped, and the old result is added to when the first term has none (the two _fails theorems); items are elements of an algebra, and reading numbers is a parameter"
  },
  {
   "property": "C39",
   "status": "proved",
   "theorems": [
    "Verif.Labels.opspec_roundtrip",
    "Verif.Labels.opspec_rejects",
    "Verif.Labels.site_found",
    "Verif.Labels.site_other",
    "Verif.Labels.site_reversed_fails"
   ],
   "note": "finding: brackets in the wrong order are not rejected"
  },
  {
   "property": "C40",
   "status": "proved",
   "theorems": [
    "Verif.Random.next_step",
    "Verif.Random.always_in_range",
    "Verif.Random.state_closed",
    "Verif.Random.full_period",
    "Verif.Random.all_states"
   ],
   "note": "overflow of int is undefined behaviour in the model; the division by 2^31-1 is exact"
  },
  {
   "property": "C41",
   "status": "proved",
   "theorems": [
    "Verif.Random.mt_stream",
    "Verif.Random.stream_exists",
    "Verif.Random.mt_deterministic",
    "Verif.Random.temper_bijective",
    "Verif.Random.unit_interval",
    "Verif.Random.ranks_0_1_same_fails",
    "Verif.Random.not_reference_fails"
   ],
   "note": "findings: ranks 0 and 1 get the same stream; the seeding is not the published one, so no seed reproduces the reference stream"
  },
  {
   "property": "C42",
   "status": "proved",
   "theorems": [
    "Verif.Numeric.bisect_sound",
    "Verif.Numeric.bisect_refuses",
    "Verif.Numeric.bisect_complete",
    "Verif.Numeric.bisect_rounds",
    "Verif.Numeric.zero_tolerance"
   ],
   "note": "exact real arithmetic"
  },
  {
   "property": "C43",
   "status": "proved",
   "theorems": [
    "Verif.Numeric.akima_spec",
    "Verif.Numeric.akima_line",
    "Verif.Numeric.akima_refuses"
   ],
   "note": "exact real arithmetic"
  },
  {
   "property": "C44",
   "status": "proved",
   "theorems": [
    "Verif.Numeric.cheb_eq",
    "Verif.Numeric.chebExplicit_eq",
    "Verif.Numeric.cheb_agree"
   ],
   "note": "any commutative ring; degrees >= 0 (the recursion does not stop for negative ones)"
  },
  {
   "property": "C45",
   "status": "proved",
   "theorems": [
    "Verif.Numeric.fermi_unit",
    "Verif.Numeric.fermi_symm",
    "Verif.Numeric.fermi_antitone",
    "Verif.Numeric.fermi_accuracy",
    "Verif.Numeric.fermiPrime_deriv",
    "Verif.Numeric.fermi_jump_fails",
    "Verif.Numeric.logfermi_accuracy"
   ],
   "note": "exact real arithmetic; at the cutoffs +-50 there is a jump (fermi_jump_fails)"
  },
  {
   "property": "C46",
   "status": "proved",
   "theorems": [
    "Verif.MemResolv.dup_spec",
    "Verif.MemResolv.layout_facts",
    "Verif.MemResolv.dup_refuses",
    "Verif.MemResolv.push_twice",
    "Verif.MemResolv.save_spec_partial",
    "Verif.MemResolv.load_stale_fails",
    "Verif.MemResolv.push_truncates_fails",
    "Verif.MemResolv.empty_last_refused_fails"
   ],
   "note": "chunks must be pushed in address order since the sorting function is never called; an image read from disk is not relocated (load_stale_fails), lengths are cut to 32 bits (push_truncates_fails)"
  },
  {
   "property": "C47",
   "status": "proved",
   "theorems": [
    "Verif.InputNg.read_spec",
    "Verif.InputNg.loadFile_ok",
    "Verif.InputNg.readline_equal",
    "Verif.InputNg.kinds_interfere_fails",
    "Verif.InputNg.comment_after_vector_fails",
    "Verif.InputNg.comment_after_value_fails",
    "Verif.InputNg.readFile_fails",
    "Verif.InputNg.wrong_count_refused",
    "Verif.InputNg.force_removal_fails"
   ],
   "note": "for well formed files; the _fails theorems show why the conditions are needed"
  },
  {
   "property": "C48",
   "status": "proved",
   "theorems": [
    "Verif.InputNg.less_strict_weak",
    "Verif.InputNg.less_repeated",
    "Verif.InputNg.less_throws_fails",
    "Verif.InputNg.equivalent_keys_fails"
   ],
   "note": "labels with a number after @; labels with other text after @ make the comparison throw (less_throws_fails)"
  },
  {
   "property": "C49",
   "status": "proved",
   "theorems": [
    "Verif.Ainur.history_spec",
    "Verif.Ainur.last_assigned",
    "Verif.Ainur.assign_other"
   ],
   "note": "values that are not calls of functions; the grammar (Boost Spirit) is not modelled"
  },
  {
   "property": "C50",
   "status": "proved",
   "theorems": [
    "Verif.Ainur.name_chars",
    "Verif.Ainur.expand_sound",
    "Verif.Ainur.expand_total",
    "Verif.Ainur.expand_refuses",
    "Verif.Ainur.no_full_self",
    "Verif.Ainur.Full.unique",
    "Verif.Ainur.macro_at_end_fails",
    "Verif.Ainur.macros_adjacent_fails",
    "Verif.Ainur.marked_not_expanded_fails"
   ],
   "note": "a macro needs a character after its name: at the end of a value it is lost"
  },
  {
   "property": "C51",
   "status": "proved",
   "theorems": [
    "Verif.IoNg.store_spec",
    "Verif.IoNg.read_many_fails",
    "Verif.IoNg.read_bools_short_fails",
    "Verif.IoNg.other_names",
    "Verif.IoNg.written_value",
    "Verif.IoNg.leaf_lawful",
    "Verif.IoNg.list_lawful",
    "Verif.IoNg.pair_lawful",
    "Verif.IoNg.written_and_others",
    "Verif.IoNg.entries_roundtrip",
    "Verif.IoNg.empty_vector_fails",
    "Verif.IoNg.overwrite_complex_fails",
    "Verif.IoNg.no_group_fails",
    "Verif.IoNg.change_type_fails",
    "Verif.IoNg.letter_name_fails",
    "Verif.IoNg.empty_inner_fails"
   ],
   "note": "HDF5 is modelled by the calls made; each name is used for one type; empty vectors and overwritten complex vectors are lost"
  },
  {
   "property": "C52",
   "status": "proved",
   "theorems": [
    "Verif.IoNg.openRead_refused",
    "Verif.IoNg.crash_refused",
    "Verif.IoNg.closed_accepted",
    "Verif.IoNg.accepted_iff",
    "Verif.IoNg.crash_after_flush_fails",
    "Verif.IoNg.rdwr_fails",
    "Verif.IoNg.reopen_fails",
    "Verif.IoNg.reopen_trunc_fails",
    "Verif.IoNg.excl_fails",
    "Verif.IoNg.canary_name_fails"
   ],
   "note": "for files made with ACC_TRUNC, before the first flush; later crashes and other ways of opening are not detected"
  },
  {
   "property": "C53",
   "status": "proved",
   "theorems": [
    "Verif.IoNg.bools_roundtrip",
    "Verif.IoNg.bools_roundtrip_mod",
    "Verif.IoNg.bools_injective",
    "Verif.IoNg.bools_long_fails"
   ],
   "note": "lengths below 2^32; longer vectors lose their length"
  },
  {
   "property": "C54",
   "status": "proved",
   "theorems": [
    "Verif.IoNg.stack_roundtrip",
    "Verif.IoNg.stack_text_roundtrip"
   ],
   "note": "for every type whose values are kept (C51)"
  },
  {
   "property": "C55",
   "status": "proved",
   "theorems": [
    "Verif.GemmR.blas_spec",
    "Verif.GemmR.small_refused",
    "Verif.GemmR.small_short_fails",
    "Verif.GemmR.gemm_spec",
    "Verif.GemmR.run_exists",
    "Verif.GemmR.blocks_balanced",
    "Verif.GemmR.no_rows_fails",
    "Verif.GemmR.large_fails"
   ],
   "note": "BLAS is trusted; positions must fit in int; a matrix without rows divides by zero"
  },
  {
   "property": "C56",
   "status": "proved",
   "theorems": [
    "Verif.Krylov.lanczos_spec",
    "Verif.Krylov.lanczos_stops",
    "Verif.Krylov.excitedVector_spec",
    "Verif.Krylov.ritz_spec",
    "Verif.Krylov.one_step_fails",
    "Verif.Krylov.min_steps_fails"
   ],
   "note": "without rounding; the diagonalization of the tridiagonal matrix for the test of convergence is any sequence of answers; matrices with one row and large minSteps are undefined behaviour"
  },
  {
   "property": "C57",
   "status": "partial",
   "theorems": [
    "Verif.Krylov.oneStepDec_spec",
    "Verif.Krylov.decomposition_partial",
    "Verif.Krylov.decomposition_fails",
    "Verif.Krylov.moments_fails",
    "Verif.Krylov.gnMuN_spec",
    "Verif.Krylov.calcF_spec",
    "Verif.Krylov.kernel_zero",
    "Verif.Krylov.plotMoments_spec",
    "Verif.Krylov.plotAt_spec",
    "Verif.Krylov.plot_few_fails"
   ],
   "note": "the recurrence and the series hold; decomposition follows a null pointer, and the coefficients it would store are not the moments (proved)"
  },
  {
   "property": "C58",
   "status": "proved",
   "theorems": [
    "Verif.Krylov.buildDense_spec",
    "Verif.Krylov.tri_hermitian",
    "Verif.Krylov.buildDense_stale_fails",
    "Verif.Krylov.buildDense_empty_fails"
   ],
   "note": "from an empty matrix; one that is not empty keeps old elements"
  },
  {
   "property": "C59",
   "status": "proved",
   "theorems": [
    "Verif.Extrap.solveEx_backwards_fails",
    "Verif.Extrap.solve_spec",
    "Verif.Extrap.solveEx_spec",
    "Verif.Extrap.cubic_exact",
    "Verif.Extrap.linear_step",
    "Verif.Extrap.linear_error",
    "Verif.Extrap.stable",
    "Verif.Extrap.quartic_fails",
    "Verif.Extrap.converges",
    "Verif.Extrap.conserved"
   ],
   "note": "without rounding; checkNorm only prints"
  },
  {
   "property": "C60",
   "status": "proved",
   "theorems": [
    "Verif.SolverP.rabbitHole_spec",
    "Verif.SolverP.construct_spec",
    "Verif.SolverP.Value.unique"
   ],
   "note": "a readline that throws is assumed to leave its argument alone"
  },
  {
   "property": "C61",
   "status": "proved",
   "theorems": [
    "Verif.SolverP.set_strict",
    "Verif.SolverP.set_permissive",
    "Verif.SolverP.set_disabled",
    "Verif.SolverP.isSet_spec",
    "Verif.SolverP.isSet_options",
    "Verif.SolverP.disabled_spec"
   ],
   "note": ""
  },
  {
   "property": "C62",
   "status": "proved",
   "theorems": [
    "Verif.Spectral.iOfOmega_spec",
    "Verif.Spectral.iOfOmega_resolvent",
    "Verif.Spectral.green_lanczos",
    "Verif.Spectral.plot_spec",
    "Verif.Spectral.plot_short_fails",
    "Verif.Spectral.plot_backwards_fails",
    "Verif.Spectral.accumulate_spec",
    "Verif.Spectral.accumulate_nil",
    "Verif.Spectral.accumulate_throws",
    "Verif.Spectral.plotAll_spec"
   ],
   "note": "without rounding; LAPACK is trusted; an interval shorter than the step writes past the end (proved)"
  },
  {
   "property": "C63",
   "status": "proved",
   "theorems": [
    "Verif.Extrap.predict_spec",
    "Verif.Extrap.predict_short_fails",
    "Verif.Extrap.ctor_spec",
    "Verif.Extrap.ctor_odd",
    "Verif.Extrap.ctor_many_fails",
    "Verif.Extrap.normal_least",
    "Verif.Extrap.normal_exact",
    "Verif.Extrap.predict_exact",
    "Verif.Extrap.fromRoots_spec"
   ],
   "note": "LAPACK (inverse of the normal matrix) and GSL (roots) are trusted; more coefficients than half the values is undefined behaviour"
  },
  {
   "property": "C64",
   "status": "proved",
   "theorems": [
    "Verif.Labels.braket_roundtrip",
    "Verif.Labels.braket_queries",
    "Verif.Labels.braket_rejects",
    "Verif.Labels.braket_malformed_fails",
    "Verif.Labels.braket_overrun_fails"
   ],
   "note": "findings: a missing number and trailing text are accepted; one shape of input reads past the end of the string"
  },
  {
   "property": "C65",
   "status": "proved",
   "theorems": [
    "Verif.Ainur.vector_else_refused",
    "Verif.Ainur.matrix_bracket",
    "Verif.Ainur.matrix_else_refused",
    "Verif.Ainur.vector_spec",
    "Verif.Ainur.vector_length",
    "Verif.Ainur.ellipsis_spec",
    "Verif.Ainur.ellipsis_times_spec",
    "Verif.Ainur.vector_refused",
    "Verif.Ainur.matrix_spec",
    "Verif.Ainur.matrix_ragged",
    "Verif.Ainur.ellipsis_zero_fails",
    "Verif.Ainur.ellipsis_later_fails",
    "Verif.Ainur.ellipsis_function_fails",
    "Verif.Ainur.matrix_empty_fails"
   ],
   "note": "'...x0' is undefined; an empty matrix leaves the old one"
  },
  {
   "property": "C66",
   "status": "proved",
   "theorems": [
    "Verif.StrUtil.basename_spec",
    "Verif.StrUtil.replaceAll_spec",
    "Verif.StrUtil.replaceAll_empty",
    "Verif.StrUtil.Replaced.unique",
    "Verif.StrUtil.replaceAll_char"
   ],
   "note": ""
  },
  {
   "property": "C67",
   "status": "partial",
   "theorems": [
    "Verif.Geom.chain_fringe",
    "Verif.Geom.chain_fringe_periodic_fails",
    "Verif.Geom.chain_substitute",
    "Verif.Geom.chain_substitute_iff",
    "Verif.Geom.ladder_fringe",
    "Verif.Geom.ladder_fringe_first_site_fails",
    "Verif.Geom.ladder_fringe_four_legs_fails"
   ],
   "note": "Open chains, and two-leg ladders away from the first site; violated in the other cases (proved)."
  },
  {
   "property": "C68",
   "status": "proved",
   "theorems": [
    "Verif.Geom.Honeycomb.honeycomb_ctor",
    "Verif.Geom.Honeycomb.connected_total",
    "Verif.Geom.Honeycomb.honeycomb_graph",
    "Verif.Geom.Honeycomb.honeycomb_dir_symm",
    "Verif.Geom.Honeycomb.honeycomb_bonds",
    "Verif.Geom.Honeycomb.honeycomb_one",
    "Verif.Geom.Honeycomb.honeycomb_no_y_fails",
    "Verif.Geom.Honeycomb.honeycomb_periodic_fails",
    "Verif.Geom.Honeycomb.fringe_system",
    "Verif.Geom.Honeycomb.fringe_environ",
    "Verif.Geom.Honeycomb.fringe_last_fails"
   ],
   "note": "the defects named in the statement are proved as negations"
  },
  {
   "property": "C69",
   "status": "proved",
   "theorems": [
    "Verif.Geom.ladderx_connected",
    "Verif.Geom.ladderx_graph",
    "Verif.Geom.ladderx_dir",
    "Verif.Geom.ladderx_enumerates",
    "Verif.Geom.ladderx_diagonals",
    "Verif.Geom.ladderx_half_fails",
    "Verif.Geom.ladderx_three_legs_fails",
    "Verif.Geom.ladderx_periodic_fails"
   ],
   "note": "the defects named in the statement are proved as negations"
  },
  {
   "property": "C70",
   "status": "proved",
   "theorems": [
    "Verif.IoSimple.readline_level",
    "Verif.IoSimple.readInt_blank",
    "Verif.IoSimple.readInt_failed",
    "Verif.IoSimple.readline_missing",
    "Verif.IoSimple.readline_last",
    "Verif.IoSimple.readline_last_fails",
    "Verif.IoSimple.readline_unterminated_fails",
    "Verif.IoSimple.count_spec",
    "Verif.IoSimple.scalar_roundtrip",
    "Verif.IoSimple.vector_roundtrip",
    "Verif.IoSimple.reads_nat",
    "Verif.IoSimple.vector_last_fails",
    "Verif.IoSimple.vector_last_single_fails",
    "Verif.IoSimple.vector_level_fails",
    "Verif.IoSimple.vector_empty_fails",
    "Verif.IoSimple.write_rank",
    "Verif.IoSimple.write_rank_fails"
   ],
   "note": "the defects named in the statement are proved as negations"
  },
  {
   "property": "C71",
   "status": "proved",
   "theorems": [
    "Verif.Cmplx.strtod_numeral",
    "Verif.Cmplx.atof_spec",
    "Verif.Cmplx.atof_refused",
    "Verif.Cmplx.atof_malformed_fails",
    "Verif.Cmplx.cor_spec",
    "Verif.Cmplx.cor_real",
    "Verif.Cmplx.cor_imag",
    "Verif.Cmplx.corReal_refused",
    "Verif.Cmplx.ast_inside_fails",
    "Verif.Cmplx.cor_fails",
    "Verif.Cmplx.ainur_real",
    "Verif.Cmplx.ainur_imag",
    "Verif.Cmplx.ainur_two",
    "Verif.Cmplx.ainur_fails",
    "Verif.Cmplx.input_spec",
    "Verif.Cmplx.input_fails",
    "Verif.Cmplx.ast_real",
    "Verif.Cmplx.ast_imag",
    "Verif.Cmplx.ast_plus",
    "Verif.Cmplx.ast_minus",
    "Verif.Cmplx.ast_fails"
   ],
   "note": "numbers are rational, without rounding or overflow; the defects named in the statement are proved as negations"
  },
  {
   "property": "C72",
   "status": "proved",
   "theorems": [
    "Verif.Geom.longrange_substitute",
    "Verif.Geom.longrange_compact",
    "Verif.Geom.longrange_compact_one",
    "Verif.Geom.longrange_full",
    "Verif.Geom.longrange_entangler",
    "Verif.Geom.longrange_refused",
    "Verif.Geom.longrange_orbitals",
    "Verif.Geom.compact_site_refused",
    "Verif.Geom.compact_site_fails",
    "Verif.Geom.longrange_size_fails",
    "Verif.Geom.longrange_hermitian_fails",
    "Verif.Geom.longrange_translate",
    "Verif.Geom.longrange_translate_fails",
    "Verif.Geom.longrange_reflection"
   ],
   "note": "the defects named in the statement are proved as negations"
  },
  {
   "property": "C73",
   "status": "proved",
   "theorems": [
    "Verif.Vec.assign_spec",
    "Verif.Vec.addAssign_spec",
    "Verif.Vec.addMulAssign_spec",
    "Verif.Vec.mulAssign_spec",
    "Verif.Vec.alias_fails",
    "Verif.Vec.sizes_fails",
    "Verif.Vec.dot_spec",
    "Verif.Vec.dot_sizes",
    "Verif.Vec.norm_spec",
    "Verif.Vec.matVec_fails",
    "Verif.Vec.sum_spec",
    "Verif.Vec.indexOrMinusOne_spec",
    "Verif.Vec.indexOrMinusOne_fails",
    "Verif.Vec.basenameOf_spec",
    "Verif.Vec.basenameOf_fails"
   ],
   "note": "exact arithmetic; the defects named in the statement are proved as negations"
  },
  {
   "property": "C74",
   "status": "proved",
   "theorems": [
    "Verif.TextIo.through_u64",
    "Verif.TextIo.through_int",
    "Verif.TextIo.u64_negative_fails",
    "Verif.TextIo.through_pair",
    "Verif.TextIo.through_vec",
    "Verif.TextIo.pairs_read",
    "Verif.TextIo.vec_negative",
    "Verif.TextIo.vec_truncated_fails",
    "Verif.TextIo.vec_nothing_fails",
    "Verif.TextIo.matText_spec",
    "Verif.TextIo.mat_read",
    "Verif.TextIo.mat_rows",
    "Verif.TextIo.mat_empty",
    "Verif.TextIo.mat_truncated_fails",
    "Verif.TextIo.mat_wrap_fails",
    "Verif.TextIo.printNonZero_fails",
    "Verif.TextIo.printNonZero_spec",
    "Verif.TextIo.mathematicaPrint_spec"
   ],
   "note": "texts of other element types are parameters that can be read back; the defects named in the statement are proved as negations"
  },
  {
   "property": "C75",
   "status": "proved",
   "theorems": [
    "Verif.Krylov.decompositionD_eq",
    "Verif.Krylov.oneState_spec",
    "Verif.Krylov.allStates_spec",
    "Verif.Krylov.diagonalizes_exists",
    "Verif.Krylov.oneState_range_fails",
    "Verif.Krylov.ground_steps_fails",
    "Verif.Krylov.ground_energy_fails",
    "Verif.Krylov.ground_inexact_fails",
    "Verif.Krylov.oneState_adds",
    "Verif.Krylov.reuse_fails",
    "Verif.Krylov.breakdown_fails"
   ],
   "note": "exact arithmetic; LAPACK is a parameter that diagonalizes Hermitian matrices; the defects named in the statement are proved as negations"
  },
  {
   "property": "C76",
   "status": "proved",
   "theorems": [
    "Verif.Collective.reduce_long_fails",
    "Verif.Collective.reduceComplex_long_fails",
    "Verif.Collective.bcast_spec",
    "Verif.Collective.bcastPair_spec",
    "Verif.Collective.bcastVec_spec",
    "Verif.Collective.bcastComplex_spec",
    "Verif.Collective.bcastComplex_fails",
    "Verif.Collective.bcastNested_spec",
    "Verif.Collective.bcastNested_fails",
    "Verif.Collective.bcastNested_long_fails",
    "Verif.Collective.reduce_spec",
    "Verif.Collective.reduce_sum",
    "Verif.Collective.allReduce_spec",
    "Verif.Collective.allReduce_sum",
    "Verif.Collective.reduceComplex_spec",
    "Verif.Collective.reduceComplex_sum",
    "Verif.Collective.allReduceComplex_spec",
    "Verif.Collective.reduceComplex_prod_fails",
    "Verif.Collective.allReduceOne_spec",
    "Verif.Collective.allReduceOne_fails",
    "Verif.Collective.signed_sum",
    "Verif.Collective.signed_max",
    "Verif.Collective.signed_max_fails"
   ],
   "note": "MPI itself is modelled by what its standard says of MPI_Bcast, MPI_Reduce and MPI_Allreduce; exact arithmetic; the defects named in the statement are proved as negations"
  },
  {
   "property": "C77",
   "status": "proved",
   "theorems": [
    "Verif.InputNg.readValue_spec",
    "Verif.InputNg.asInt_spec",
    "Verif.InputNg.asSize_spec",
    "Verif.InputNg.asSize_negative_fails",
    "Verif.InputNg.asSize_large_fails",
    "Verif.InputNg.realMatrix_spec",
    "Verif.InputNg.complexMatrix_spec",
    "Verif.InputNg.matrix_short",
    "Verif.InputNg.matrix_rows",
    "Verif.InputNg.matrix_file",
    "Verif.InputNg.map_file",
    "Verif.InputNg.map_inside_fails",
    "Verif.InputNg.map_repeated_fails",
    "Verif.InputNg.map_malformed_fails",
    "Verif.InputNg.matrix_sizes",
    "Verif.InputNg.matrix_sizes_fails",
    "Verif.InputNg.map_keyless"
   ],
   "note": "the conversion of one number in floating point is a parameter; the defects named in the statement are proved as negations"
  },
  {
   "property": "C78",
   "status": "proved",
   "theorems": [
    "Verif.Ainur.file_spec",
    "Verif.Ainur.file_refused",
    "Verif.Ainur.file_values",
    "Verif.Ainur.file_sound",
    "Verif.Ainur.name_splits",
    "Verif.Ainur.name_underscore_fails",
    "Verif.Ainur.last_semicolon_fails",
    "Verif.Ainur.stray_fails",
    "Verif.Ainur.first_fails",
    "Verif.Ainur.comment_in_value_fails"
   ],
   "note": "the rules of Boost Spirit Qi (skipping, sequences, alternatives, lists) are modelled from their documentation; the defects named in the statement are proved as negations"
  },
  {
   "property": "C79",
   "status": "proved",
   "theorems": [
    "Verif.Geom.chain_cut",
    "Verif.Geom.chain_periodic_cut",
    "Verif.Geom.ladder_cut",
    "Verif.Geom.star_cut",
    "Verif.Geom.ktwo_cut",
    "Verif.Geom.longrange_cut",
    "Verif.Geom.terms_max",
    "Verif.Geom.chain_cut_fails",
    "Verif.Geom.ladder_cut_fails",
    "Verif.Geom.ladderx_cut_fails",
    "Verif.Geom.bath_cut_fails"
   ],
   "note": "Honeycomb.h is not covered; the kinds for which the number is too small are proved as negations"
  },
  {
   "property": "C80",
   "status": "proved",
   "theorems": [
    "Verif.Lapack.diag_spec",
    "Verif.Lapack.diag_tall",
    "Verif.Lapack.diag_option",
    "Verif.Lapack.exp_real_spec",
    "Verif.Lapack.exp_complex_spec",
    "Verif.Lapack.expIpi_spec",
    "Verif.Lapack.expIpi_square",
    "Verif.Lapack.inverse_spec",
    "Verif.Lapack.svd_spec",
    "Verif.Lapack.svd_letter",
    "Verif.Lapack.svd_rows",
    "Verif.Lapack.rotate_spec",
    "Verif.Lapack.heev_exists",
    "Verif.Lapack.getr_exists",
    "Verif.Lapack.svd_exists",
    "Verif.Lapack.svd_always_exists",
    "Verif.Lapack.diag_wide_fails",
    "Verif.Lapack.diag_empty_fails",
    "Verif.Lapack.exp_complex_fails",
    "Verif.Lapack.expIpi_fails",
    "Verif.Lapack.inverse_wide_fails",
    "Verif.Lapack.inverse_tall_fails",
    "Verif.Lapack.inverse_empty_fails",
    "Verif.Lapack.svd_info_fails"
   ],
   "note": "LAPACK is any library that meets its documentation, stated in Lapack/Spec.lean; the exceptions named in the statement are proved as negations"
  },
  {
   "property": "C81",
   "status": "proved",
   "theorems": [
    "Verif.Lapack.tri_diag_spec",
    "Verif.Lapack.stedc_exists",
    "Verif.Lapack.diag_diagonalizes",
    "Verif.Lapack.eigs_same_size",
    "Verif.Lapack.ground_state_lapack",
    "Verif.Lapack.tri_diag_one_fails",
    "Verif.Lapack.tri_diag_stale_fails"
   ],
   "note": "LAPACK is any library that meets its documentation; the last two sentences of the statement are proved as negations"
  },
  {
   "property": "C82",
   "status": "proved",
   "theorems": [
    "Verif.Spectral.construct_spec",
    "Verif.Spectral.moments_spec",
    "Verif.Spectral.spectral_exact"
   ],
   "note": "exact arithmetic; also when the run breaks down"
  },
  {
   "property": "C83",
   "status": "proved",
   "theorems": [
    "Verif.Geom.ktwo_throws",
    "Verif.Geom.shape_refused",
    "Verif.Geom.honey_throws",
    "Verif.Geom.geometry_file",
    "Verif.Geom.chain_file",
    "Verif.Geom.negative_sites",
    "Verif.Geom.ladder_refused",
    "Verif.Geom.optional_line_fails"
   ],
   "note": "Files as in C47 and C77; long range and general geometries are not read here. A line that only some terms have is given to the first term that looks for it (optional_line_fails)."
  },
  {
   "property": "C84",
   "status": "proved",
   "theorems": [
    "Verif.Geom.geo_super",
    "Verif.Geom.super_chain",
    "Verif.Geom.super_ladder",
    "Verif.Geom.super_chain_cut",
    "Verif.Geom.super_star",
    "Verif.Geom.connected_terms",
    "Verif.Geom.connected_absent",
    "Verif.Geom.kind_spec",
    "Verif.Geom.same_block_fails",
    "Verif.Geom.same_block_chain_fails",
    "Verif.Geom.connected_ends_fails",
    "Verif.Geom.super_ladderx",
    "Verif.Geom.super_bath",
    "Verif.Geom.super_ktwo",
    "Verif.Geom.ladderx_one_site_fails",
    "Verif.Geom.ktwo_second_oxygen_fails",
    "Verif.Geom.ktwo_third_oxygen_fails",
    "Verif.Geom.honey_fringe_fails"
   ],
   "note": "Two sites at the end of the same block are taken for sites on different sides (same_block_fails, same_block_chain_fails), and sites at the ends count as connected even if the closed up lattice does not connect them (connected_ends_fails). Connections are lost on ladders with diagonals if the system is one site, and on KTwoNiFFour if it ends after the second or third oxygen; a honeycomb throws."
  },
  {
   "property": "C85",
   "status": "proved",
   "theorems": [
    "Verif.Crs.verySparse_spec",
    "Verif.Crs.verySparse_unsorted",
    "Verif.Crs.verySparse_twice"
   ],
   "note": "The class of the list is a parameter of the function; only its sizes, flag and elements are used."
  },
  {
   "property": "C86",
   "status": "partial",
   "theorems": [
    "Verif.Crs.sample_product",
    "Verif.Crs.sample_product_long_fails",
    "Verif.Crs.sample_save_read",
    "Verif.Crs.sample_fill",
    "Verif.Crs.sample_fill_single",
    "Verif.Crs.sample_fill_fails"
   ],
   "note": "Rows with more than one element are lost by fillMatrix (sample_fill_fails). A vector that is too long makes the product read past the row pointers (sample_product_long_fails)."
  },
  {
   "property": "C87",
   "status": "partial",
   "theorems": [
    "Verif.Host.run_id_spec",
    "Verif.Host.check_iff",
    "Verif.Host.check_bit",
    "Verif.Host.luint_spec",
    "Verif.Host.run_id_overflow_fails"
   ],
   "note": "The clock and the process number are arguments. Identifiers whose words do not fit in a long are undefined behaviour (run_id_overflow_fails); with glibc the number is then 2^63-1 combined with one word."
  },
  {
   "property": "C88",
   "status": "proved",
   "theorems": [
    "Verif.Host.output_spec",
    "Verif.Host.buffer_file",
    "Verif.Host.no_file",
    "Verif.Host.other_silent",
    "Verif.Host.memory_inactive",
    "Verif.Host.profiling_spec",
    "Verif.Host.stream_reuse",
    "Verif.Host.signal_output",
    "Verif.Host.memory_active_fails",
    "Verif.Host.memory_silent_fails",
    "Verif.Host.stream_reuse_fails",
    "Verif.Host.signal_torn_fails"
   ],
   "note": "Texts of clocks are arguments. What the handler of signals says on the error stream is left out."
  },
  {
   "property": "C89",
   "status": "proved",
   "theorems": [
    "Verif.Host.update_spec",
    "Verif.Host.update_unreadable",
    "Verif.Host.entry_spec",
    "Verif.Host.entry_missing",
    "Verif.Host.entry_of_file",
    "Verif.Host.time_spec",
    "Verif.Host.vendor_spec",
    "Verif.Host.vendor_missing",
    "Verif.Host.update_long_fails",
    "Verif.Host.entry_blank_fails",
    "Verif.Host.millis_fails"
   ],
   "note": "Times in exact arithmetic; the file of the processor is given by its lines."
  },
  {
   "property": "C90",
   "status": "proved",
   "theorems": [
    "Verif.Numeric.status_iff",
    "Verif.Numeric.minimizer_converged",
    "Verif.Numeric.minimizer_exhausted",
    "Verif.Numeric.minimizer_error",
    "Verif.Numeric.minimizer_cases",
    "Verif.Numeric.minimizer_status",
    "Verif.Numeric.minimizer_descends",
    "Verif.Numeric.simplex_nonneg",
    "Verif.Numeric.minimizer_return_fails",
    "Verif.Numeric.simplex_silent_fails",
    "Verif.Numeric.minimizer_size_fails"
   ],
   "note": "GSL is any minimizer; that it does not go up is a hypothesis of minimizer_descends only."
  },
  {
   "property": "C91",
   "status": "proved",
   "theorems": [
    "Verif.Parallel.openMP_each_task_once",
    "Verif.Parallel.openMP_equals_serial",
    "Verif.Parallel.openMP_exists",
    "Verif.Parallel.oldBlockSize_spec",
    "Verif.Parallel.oldPthreads_each_task_once",
    "Verif.Parallel.oldPthreads_equals_serial",
    "Verif.Parallel.oldNoPthreads_spec",
    "Verif.Parallel.openMP_numberOfThreads_fails",
    "Verif.Parallel.oldPthreads_zero_fails"
   ],
   "note": "The runtime of OpenMP is any distribution of the iterations; the loop inside thread_function_ belongs to the user and is the usual one."
  },
  {
   "property": "C92",
   "status": "proved",
   "theorems": [
    "Verif.Dense.view_make",
    "Verif.Dense.view_get",
    "Verif.Dense.view_set",
    "Verif.Dense.view_disjoint",
    "Verif.Dense.view_ofMat",
    "Verif.Dense.view_empty_fails",
    "Verif.Dense.view_wrap_fails"
   ],
   "note": "Indices are modulo 2^64."
  },
  {
   "property": "C93",
   "status": "proved",
   "theorems": [
    "Verif.TextIo.symbolic_spec",
    "Verif.TextIo.symbolic_exact",
    "Verif.TextIo.symbolic_letters_fails"
   ],
   "note": "The test of smallness is any one that accepts zero and does not see signs."
  },
  {
   "property": "C94",
   "status": "proved",
   "theorems": [
    "Verif.Random.drand48_period",
    "Verif.Random.drand48_all",
    "Verif.Random.drand48_range",
    "Verif.Random.make48_spec",
    "Verif.Random.make48_rank",
    "Verif.Random.make48_streams",
    "Verif.Random.fillRandom_unit",
    "Verif.Random.fillRandom_empty",
    "Verif.Random.make48_collide_fails",
    "Verif.Random.objects_share_fails",
    "Verif.Random.set_seed_fails"
   ],
   "note": "srand48 and drand48 are the algorithm of POSIX; the rounding of a product is any monotone one exact on integers."
  },
  {
   "property": "C95",
   "status": "proved",
   "theorems": [
    "Verif.Geom.mesh_symmetry",
    "Verif.Geom.mesh_file",
    "Verif.Geom.mesh_no_kind",
    "Verif.Geom.mesh_vector",
    "Verif.Geom.mesh_injective",
    "Verif.Geom.mesh_all",
    "Verif.Geom.mesh_undefined",
    "Verif.Geom.mesh_wide_fails",
    "Verif.Geom.kSum_spec",
    "Verif.Geom.kSum_group",
    "Verif.Geom.kSum_other",
    "Verif.Geom.kSum_range_fails"
   ],
   "note": "Real numbers are exact; conversions to int are modulo 2^32."
  },
  {
   "property": "C96",
   "status": "proved",
   "theorems": [
    "Verif.Host.app_make",
    "Verif.Host.app_cmdLine_split",
    "Verif.Host.app_cmdLine_fails",
    "Verif.Host.app_microArch",
    "Verif.Host.echo_spec",
    "Verif.Host.base64encode_spec",
    "Verif.Host.echo_missing_fails"
   ],
   "note": ""
  },
  {
   "property": "C97",
   "status": "proved",
   "theorems": [
    "Verif.Host.redirect_during",
    "Verif.Host.redirect_exit",
    "Verif.Host.redirect_never",
    "Verif.Host.redirect_crash_fails"
   ],
   "note": "Buffer flushes are events that may happen at any time."
  },
  {
   "property": "C98",
   "status": "proved",
   "theorems": [
    "Verif.Host.ttos_word",
    "Verif.Host.ttos_iff",
    "Verif.Host.ttos_int",
    "Verif.Host.ttos_truncates_fails",
    "Verif.Host.printMap_read"
   ],
   "note": ""
  },
  {
   "property": "C99",
   "status": "proved",
   "theorems": [
    "Verif.Dense.massign_spec",
    "Verif.Dense.addMul_spec",
    "Verif.Dense.addMul_throws",
    "Verif.Dense.shapes_fails",
    "Verif.Dense.malias_fails",
    "Verif.Dense.norm2c_spec"
   ],
   "note": "Elements are of a commutative ring."
  }
 ]
}
