{
 "claims": [
  {
   "property": "C01",
   "status": "proved",
   "theorems": [
    "GB.C01_csr_history",
    "GB.C01_csr_last_write",
    "GB.C01_csr_from_reachable"
   ],
   "note": ""
  },
  {
   "property": "C02",
   "status": "proved",
   "theorems": [
    "GB.C02_csc_history",
    "GB.C02_csc_last_write",
    "GB.C02_csc_from_reachable"
   ],
   "note": ""
  },
  {
   "property": "C03",
   "status": "proved",
   "theorems": [
    "GB.C03_dense_history",
    "GB.C03_dvec_history",
    "GB.C03_dvec_setVec"
   ],
   "note": ""
  },
  {
   "property": "C04",
   "status": "partial",
   "theorems": [
    "GB.C04_sparse_vector_partial",
    "GB.C04_iff",
    "GB.C04_first_write",
    "GB.C04_refuted",
    "GB.C04_refuted_duplicate"
   ],
   "note": "false in general (sparseVector.go:191 compares the position with the number of entries); C04_iff states exactly which histories are read back right: at no moment a non-zero position exceeds the number of non-zero positions"
  },
  {
   "property": "C05",
   "status": "proved",
   "theorems": [
    "GB.C05_values_counts_nonzero",
    "GB.C05_values_of_history"
   ],
   "note": ""
  },
  {
   "property": "C06",
   "status": "proved",
   "theorems": [
    "GB.C06_in_range_ok",
    "GB.C06_out_of_range_panics",
    "GB.C06_panic_iff",
    "GB.C104_method"
   ],
   "note": "That a panicking call leaves the matrix as it was is C104_method, on the level of the backing arrays."
  },
  {
   "property": "C07",
   "status": "proved",
   "theorems": [
    "GB.C07_reads_preserve"
   ],
   "note": ""
  },
  {
   "property": "C08",
   "status": "proved",
   "theorems": [
    "GB.C08_fromArray_cells",
    "GB.C08_fromArray_rows",
    "GB.C08_svec_fromArray",
    "GB.C08_dvec_fromArray"
   ],
   "note": ""
  },
  {
   "property": "C09",
   "status": "proved",
   "theorems": [
    "GB.C09_enumerate",
    "GB.C09_enumerate_order"
   ],
   "note": ""
  },
  {
   "property": "C10",
   "status": "proved",
   "theorems": [
    "GB.C10_rows_and_columns",
    "GB.C10_out_of_range"
   ],
   "note": ""
  },
  {
   "property": "C100",
   "status": "proved",
   "theorems": [
    "GB.C100_same",
    "GB.C100_client",
    "GB.C100_operators",
    "GB.C100_histories",
    "GB.C100_order",
    "GB.C100_rebuild",
    "GB.C100_refuted_sparse_vector",
    "GB.C100_refuted_order"
   ],
   "note": "Histories, order and rebuilding are for matrices and dense vectors, as stated. For sparse vectors the weaker hypothesis, that At answers alike, does not do (C100_refuted_sparse_vector), and the order of Set calls matters (C100_refuted_order)."
  },
  {
   "property": "C101",
   "status": "partial",
   "theorems": [
    "GB.C101_fixed_partial",
    "GB.C101_cells",
    "GB.C101_sum",
    "GB.C101_quiet",
    "GB.Amid.C101_refuted"
   ],
   "note": "Proved for every operator that asks the mask about each cell once: multiplication with any aliasing; Add, Subtract, Transpose and the element-wise product unless the output is an operand they enumerate; Apply, also in place, and Negative unless they make zeros in a compressed output; the element-wise sum in place. False of the element-wise sum into a third object, which asks twice (C101_refuted); there each operand's value is written or not as the mask answers at a moment of its own, the left one's not after the right one's (C101_sum). C101_quiet: with a mask nobody changes the model is the ordinary one. A call on the mask happens at one moment (the lock); that the locked calls are so is C35 and C89."
  },
  {
   "property": "C102",
   "status": "proved",
   "theorems": [
    "GB.C102_power",
    "GB.C102_count",
    "GB.C102_total",
    "GB.C102_cyclic",
    "GB.C102_wraps"
   ],
   "note": "For dense matrices: products of compressed matrices differ from the mathematical product (C79). C102_wraps: with int8 the complete graph of 4 vertices has 1024 walks of 4 edges and the sum is 0, so the condition on the element type is needed."
  },
  {
   "property": "C103",
   "status": "proved",
   "theorems": [
    "GB.C103_element",
    "GB.C103_sound",
    "GB.C103_same",
    "GB.C103_types",
    "GB.C103_own",
    "GB.C103_complement"
   ],
   "note": "The model's masks have a case for any other value of the interface (its shape and its answers, panics included), so every theorem about operators with masks covers it. Such a mask answers a question alike whenever it is asked during one call; masks that change are in C101. C103_own and C103_complement: output apart from the operands and not a sparse vector, context not cancelled."
  },
  {
   "property": "C104",
   "status": "proved",
   "theorems": [
    "GB.C104_method",
    "GB.C104_action",
    "GB.C104_recover",
    "GB.C104_callback"
   ],
   "note": "Programs do not write through iterators (Tame); objects stand apart, as every object made by New and Copy does (C11). The struct fields of an object are assigned in the model when the method returns; since nothing is written or allocated before a panic, none is assigned before it either."
  },
  {
   "property": "C105",
   "status": "proved",
   "theorems": [
    "GB.C105_plain",
    "GB.C105_apart",
    "GB.C105_inplace",
    "GB.C105_inplace_sparse_vector",
    "GB.C105_rejected"
   ],
   "note": "The function does not itself use the objects of the call. Apply in place with answers that are 0 in a compressed format: C14 says what Map then does."
  },
  {
   "property": "C106",
   "status": "proved",
   "theorems": [
    "GB.C106_reduction",
    "GB.ReduceBy.C106_calls",
    "GB.ReduceBy.C106_answers",
    "GB.ReduceBy.C106_panics",
    "GB.ReduceBy.C106_finite",
    "GB.ReduceBy.C106_rejected",
    "GB.ReduceBy.C106_rejected_later",
    "GB.ReduceBy.C106_plain"
   ],
   "note": "The operation and the mask share no state. The calls after a rejected mask are possible, not certain: the runtime chooses between two closed channels."
  },
  {
   "property": "C107",
   "status": "partial",
   "theorems": [
    "GB.C107_dense",
    "GB.C107_dense_vector",
    "GB.C107_sparse_vector",
    "GB.C107_csr_partial",
    "GB.C107_csc_partial",
    "GB.C107_csr_iff",
    "GB.C107_csc_iff",
    "GB.C107_pattern",
    "GB.C107_plain",
    "GB.C107_refuted",
    "GB.C107_refuted_csc"
   ],
   "note": "Proved for dense matrices, dense vectors and sparse vectors. False for CSR and CSC matrices, which look up the position before calling the function and use it afterwards: another cell is overwritten, or the call panics. Right there exactly when the function leaves the cell zero or non-zero as it was and the number of non-zero cells before it the same (C107_csr_iff, C107_csc_iff); so for every function that only reads, or changes no cell from or to zero (C107_pattern)."
  },
  {
   "property": "C108",
   "status": "proved",
   "theorems": [
    "GB.C108_search",
    "GB.C108_returns",
    "GB.C108_panics",
    "GB.C108_plain",
    "GB.C108_obstacles"
   ],
   "note": "What happens is stated round by round by the inductive relation Rounds (SpecSteer.lean). Search around obstacles under the condition of C36: no sum over shortest walks fails to be positive."
  },
  {
   "property": "C109",
   "status": "proved",
   "theorems": [
    "GB.C109_search",
    "GB.C109_found",
    "GB.C109_missed"
   ],
   "note": "The condition on the sums over shortest walks is that of C36. C109_missed is the concrete case of a reachable vertex that a cancelled search does not find."
  },
  {
   "property": "C11",
   "status": "proved",
   "theorems": [
    "GB.C11_start",
    "GB.C11_program",
    "GB.C11_apart",
    "GB.C11_copy",
    "GB.C11_independent",
    "GB.C11_runs",
    "GB.C11_at",
    "GB.C11_reach"
   ],
   "note": ""
  },
  {
   "property": "C110",
   "status": "partial",
   "theorems": [
    "GB.C110_dense",
    "GB.C110_map_partial",
    "GB.C110_ends_partial",
    "GB.C110_sparse_vector_partial",
    "GB.C110_refuted",
    "GB.C110_zero_refuted"
   ],
   "note": "Full for dense matrices and vectors. In the formats that drop zeros, for functions that leave the same cells non-zero and answer something that is not zero, or, in the compressed formats, answer zero at the end of a line (C110_ends_partial); a function that answers zero earlier (C110_zero_refuted) or makes another cell of the line zero (C110_refuted) makes the loop run for ever. Sparse vectors: those At reads right (C04). The function does not move the iterator it is called by."
  },
  {
   "property": "C111",
   "status": "proved",
   "theorems": [
    "GB.C111_search",
    "GB.C111_lost",
    "GB.C111_kept",
    "GB.C111_rounds",
    "GB.C111_idle",
    "GB.C111_indistinct"
   ],
   "note": "The condition on the sums over shortest walks is that of C36. C111_search is about predicates that look at the vector and cancel; C111_rounds (no condition on the sums) about those that also write, panic or do not return, round by round (RoundsCut, SpecSteer.lean). C111_indistinct is the concrete case of a reachable vertex."
  },
  {
   "property": "C12",
   "status": "proved",
   "theorems": [
    "GB.C12_clear"
   ],
   "note": ""
  },
  {
   "property": "C13",
   "status": "proved",
   "theorems": [
    "GB.C13_csr_csc_agree",
    "GB.C13_formats_agree",
    "GB.C13_without_update",
    "GB.C13_refuted_float"
   ],
   "note": "C13_formats_agree for element types whose == is equality; C13_without_update and C13_refuted_float for floats"
  },
  {
   "property": "C14",
   "status": "partial",
   "theorems": [
    "GB.C14_map_dense",
    "GB.C14_map_compressed_partial",
    "GB.C14_refuted",
    "GB.C14_refuted_panics_later",
    "GB.C14_csr_partial",
    "GB.C14_csc_partial",
    "GB.C14_csr_iff",
    "GB.C14_csc_iff",
    "GB.C14_sparse_vector_partial"
   ],
   "note": "proved for dense storage; for compressed storage it is false when the function returns zero on a cell that is not the last non-zero one of its row (CSR) or column (CSC), proved otherwise; Map is right for every function exactly when no row (CSR) or column (CSC) has two non-zero cells; for sparse vectors the outcome is given exactly"
  },
  {
   "property": "C15",
   "status": "proved",
   "theorems": [
    "GB.C15_transpose",
    "GB.C15_transposeToCSR",
    "GB.C15_transposeToCSC",
    "GB.C15_transpose_twice",
    "GB.C15_sparse_vector",
    "GB.C15_sparse_vector_to",
    "GB.C15_refuted_sparse_vector"
   ],
   "note": "C15_transpose and the next three: every state of the matrix formats and of dense vectors, packed sparse vectors. C15_sparse_vector(_to): sparse vectors in every reachable state, in terms of what Enumerate delivers; C15_refuted_sparse_vector: why not in terms of At."
  },
  {
   "property": "C16",
   "status": "proved",
   "theorems": [
    "GB.C16_negative",
    "GB.C16_sparse_vector"
   ],
   "note": "C16_negative: every state of the matrix formats and of dense vectors, packed sparse vectors; C16_sparse_vector: sparse vectors in every reachable state, packed or not."
  },
  {
   "property": "C17",
   "status": "partial",
   "theorems": [
    "GB.C17_scalar_partial",
    "GB.C17_scalar_nonzero_partial",
    "GB.C17_refuted",
    "GB.C17_refuted_wrap",
    "GB.C17_csr_partial",
    "GB.C17_csc_partial",
    "GB.C17_zero_partial",
    "GB.C17_sparse_vector_iff",
    "GB.C17_sparse_vector_partial",
    "GB.C17_factor_iff"
   ],
   "note": "proved for dense storage; for CSR (CSC) proved when only the last non-zero cell of a row (column) is multiplied to zero, false in general otherwise; for sparse vectors C17_sparse_vector_iff states exactly when it is right; C17_factor_iff: a factor is safe for all matrices of a sparse kind exactly when it never multiplies a non-zero value to zero"
  },
  {
   "property": "C18",
   "status": "partial",
   "theorems": [
    "GB.C18_add_partial",
    "GB.C18_add_unregistered_partial",
    "GB.C18_add_mismatch",
    "GB.C18_refuted",
    "GB.C18_add_exact",
    "GB.C18_add_iff"
   ],
   "note": "false in general; the returned matrix is characterised for all operands (C18_add_exact), and C18_add_iff states exactly when it is the sum: the receiver's type is not registered as sparse, or it is dense, or the argument is zero wherever the receiver is"
  },
  {
   "property": "C19",
   "status": "partial",
   "theorems": [
    "GB.C19_subtract_partial",
    "GB.C19_subtract_dense_partial",
    "GB.C19_subtract_mismatch",
    "GB.C19_refuted",
    "GB.C19_refuted_svec",
    "GB.C19_subtract_exact",
    "GB.C19_subtract_iff"
   ],
   "note": "false in general; the returned matrix is characterised for all operands (C19_subtract_exact), and C19_subtract_iff states exactly when it is the difference: a dense receiver, or an argument equal to its own negative wherever the receiver is zero"
  },
  {
   "property": "C20",
   "status": "partial",
   "theorems": [
    "GB.C20_multiply_partial",
    "GB.C20_multiply_dense_partial",
    "GB.C20_method_partial",
    "GB.C20_multiply_mismatch",
    "GB.C20_refuted",
    "GB.C20_refuted_vector",
    "GB.C20_method_exact",
    "GB.C20_method_iff"
   ],
   "note": "false in general; right for dense operands and for compressed operands whose rows and columns are packed; the returned matrix is characterised for all operands (C20_method_exact), and C20_method_iff states that a receiver multiplies every dense argument correctly exactly when its rows are packed"
  },
  {
   "property": "C21",
   "status": "partial",
   "theorems": [
    "GB.C21_mxv",
    "GB.C21_vxm_partial",
    "GB.C21_refuted",
    "GB.C21_vxm_iff",
    "GB.C21_symmetric_iff",
    "GB.C21_vxm_rectangular"
   ],
   "note": "matrix-vector proved; vector-matrix calls multiply with swapped operands, so it computes A*v: right exactly when A*v = v*A, for every v exactly when A is symmetric, and a panic on a matrix that is not square"
  },
  {
   "property": "C22",
   "status": "partial",
   "theorems": [
    "GB.C22_multiply_partial",
    "GB.C22_add_partial",
    "GB.C22_subtract_partial",
    "GB.C22_negative",
    "GB.C22_negative_ring",
    "GB.C22_elementWiseMultiply",
    "GB.C22_elementWiseAdd_partial",
    "GB.C22_wrong_shape_panics",
    "GB.C22_nil_is_false_everywhere",
    "GB.C22_keeps_partial",
    "GB.C22_keeps_sparse_vector",
    "GB.C22_refuted_multiply",
    "GB.C22_refuted_eadd",
    "GB.C22_refuted_sparse_vector"
   ],
   "note": "masked cells keep their value for every operator named, with any aliasing and any outcome (sparse vector outputs: Negative and ElementWiseMultiply with no further hypothesis, the others under the hypotheses of their theorems); the other cells get the unmasked result under the hypotheses of the theorems; false for multiply when the output is the right operand, for the element-wise sum when the output is its own mask, and for sparse vector outputs as At reads them (what Enumerate delivers at masked positions is kept in every reachable state)"
  },
  {
   "property": "C23",
   "status": "proved",
   "theorems": [
    "GB.C23_only_output",
    "GB.C23_equal_reads_only",
    "GB.C23_methods_change_nothing"
   ],
   "note": ""
  },
  {
   "property": "C24",
   "status": "partial",
   "theorems": [
    "GB.C24_multiply_partial",
    "GB.C24_refuted",
    "GB.C24_refuted_shape",
    "GB.C24_iff",
    "GB.C24_domain_iff"
   ],
   "note": "the code keeps the value where both operands agree; that is the product exactly when equal values square to themselves and unequal ones have product zero; false in general"
  },
  {
   "property": "C25",
   "status": "partial",
   "theorems": [
    "GB.C25_add_partial",
    "GB.C25_refuted",
    "GB.C25_iff"
   ],
   "note": "the code takes the union and prefers one operand; proved for operands with disjoint patterns; false in general"
  },
  {
   "property": "C26",
   "status": "partial",
   "theorems": [
    "GB.C26_apply_partial",
    "GB.C26_inplace_inverted",
    "GB.C26_refuted",
    "GB.C26_refuted_inplace",
    "GB.C26_iff",
    "GB.C26_inplace_exact",
    "GB.C26_inplace_iff"
   ],
   "note": "out of place the result is transposed, in place the mask is inverted; proved for symmetric operands; false in general; what is done in place in every format, and exactly when that is right"
  },
  {
   "property": "C27",
   "status": "partial",
   "theorems": [
    "GB.C27_equal_partial",
    "GB.C27_reflexive",
    "GB.C27_symmetric_partial",
    "GB.C27_refuted_false",
    "GB.C27_refuted_true",
    "GB.C27_mixed_exact"
   ],
   "note": "proved for operands of the same storage class; false for a compressed against a dense operand, where C27_mixed_exact states what is answered instead"
  },
  {
   "property": "C28",
   "status": "proved",
   "theorems": [
    "GB.C28_compare",
    "GB.C28_zero",
    "GB.C28_antisymm",
    "GB.C28_trans",
    "GB.C28_less_greater",
    "GB.C28_shape_needed",
    "GB.C28_valid_needed",
    "GB.C28_any",
    "GB.C28_any_less",
    "GB.C28_antisymm_iff"
   ],
   "note": "Under an uncancelled context. UTF-8 and string order are modelled from the language specification."
  },
  {
   "property": "C29",
   "status": "partial",
   "theorems": [
    "GB.C29_rows",
    "GB.C29_columns",
    "GB.C29_rows_iff",
    "GB.C29_columns_iff",
    "GB.C29_rows_partial",
    "GB.C29_columns_partial",
    "GB.C29_rows_compare_partial",
    "GB.C29_refuted"
   ],
   "note": "Any runes: the rows (columns) are permuted, the input is unchanged, also under any cancellation, and the strings are in order. In Compare order exactly when no two different rows have the same string (C29_rows_iff), so for all valid code points; false for two different surrogates."
  },
  {
   "property": "C30",
   "status": "proved",
   "theorems": [
    "GB.C30_fold",
    "GB.C30_no_deadlock",
    "GB.C30_finite",
    "GB.C30_returns"
   ],
   "note": ""
  },
  {
   "property": "C31",
   "status": "partial",
   "theorems": [
    "GB.C31_fold_partial",
    "GB.C31_sum_partial",
    "GB.C31_matrix",
    "GB.C31_mask_shape",
    "GB.C31_refuted",
    "GB.C31_sparse_vector_fold",
    "GB.C31_history_partial"
   ],
   "note": "proved for all matrix formats, dense vectors and gap-free sparse vectors; for a sparse vector in any reachable state it is the fold over what Enumerate delivers, hence the sum of the last writes after every history on which Enumerate is right (C50_iff); false for a sparse vector with an entry At does not find"
  },
  {
   "property": "C32",
   "status": "partial",
   "theorems": [
    "GB.C32_fold",
    "GB.C32_max_with_zero",
    "GB.C32_max_partial",
    "GB.C32_refuted",
    "GB.C32_iff"
   ],
   "note": "the unit is zero, so a column of negative values gives 0; right exactly when every column has a non-negative entry"
  },
  {
   "property": "C33",
   "status": "partial",
   "theorems": [
    "GB.C33_multiply_partial",
    "GB.C33_add_partial",
    "GB.C33_subtract_partial",
    "GB.C33_negative",
    "GB.C33_transpose_partial",
    "GB.C33_apply_partial",
    "GB.C33_elementWiseMultiply_partial",
    "GB.C33_elementWiseAdd_partial",
    "GB.C33_cancelled_before_start",
    "GB.C33_refuted_eadd",
    "GB.C33_sparse_vector_partial",
    "GB.C33_sparse_vector_single_partial",
    "GB.C33_refuted_sparse_vector"
   ],
   "note": "every cell of a cancelled run is either old or final, for outputs that are not sparse vectors; false for ElementWiseAdd; for sparse vectors as outputs proved when every moment of the whole call reads right (C04_iff), false otherwise: a cancelled call may make an old entry visible"
  },
  {
   "property": "C34",
   "status": "partial",
   "theorems": [
    "GB.C34_refuted_scalar",
    "GB.C34_refuted_reduce",
    "GB.C34_reduce_deadlock",
    "GB.C34_reduce_midflight",
    "GB.C34_reduce_partial",
    "GB.C34_reduce_exact"
   ],
   "note": "false: Scalar never returns once the context is cancelled, the reductions deadlock; proved for a cancellation that comes after the last poll"
  },
  {
   "property": "C35",
   "status": "partial",
   "theorems": [
    "GB.Mutex.C35_exclusion_partial",
    "GB.Mutex.C35_serial_partial",
    "GB.Mutex.C35_between_partial",
    "GB.Mutex.C35_ends",
    "GB.Mutex.C35_splits",
    "GB.Mutex.C35_refuted_exclusion",
    "GB.Mutex.C35_refuted_serial",
    "GB.Mutex.C35_refuted_map"
   ],
   "note": "Any number of goroutines, any programs, any interleaving of accesses: Set and Update exclude every other locked call, and programs without Clear (and without the Map method of an iterator) are serial in the order of acquisition; no deadlock, no infinite execution. Clear takes the lock for reading, so the full statement is false: an execution in which At of a valid index panics is exhibited. The Map of an iterator takes no lock."
  },
  {
   "property": "C36",
   "status": "partial",
   "theorems": [
    "GB.C36_search_partial",
    "GB.C36_search",
    "GB.C36_iff",
    "GB.C36_below",
    "GB.C36_uint",
    "GB.C36_int",
    "GB.C36_source_panic",
    "GB.C36_refuted"
   ],
   "note": "Every predicate (stateful ones included), dense matrices and compressed ones that multiplication reads exactly; the vector of level d holds the sums over the shortest walks of the products of their weights. C36_search_partial: exact arithmetic. C36_search: any arithmetic in which no such sum fails to be positive; C36_uint, C36_int: fixed-width integers when the true sums stay in range. False when a sum wraps to 0 (C36_refuted), and for unsigned integers exactly then (C36_iff)."
  },
  {
   "property": "C37",
   "status": "partial",
   "theorems": [
    "GB.C37_symmetric_partial",
    "GB.C37_sparse_vector",
    "GB.C37_iff",
    "GB.C37_refuted"
   ],
   "note": "Every matrix and every dense vector; what is answered for sparse vectors is exact (C37_sparse_vector). False exactly (C37_iff) for a sparse vector of length 1 holding 0 whose element type is not registered as sparse."
  },
  {
   "property": "C38",
   "status": "partial",
   "theorems": [
    "GB.C38_skewSymmetric_partial",
    "GB.C38_sparse_vector",
    "GB.C38_iff",
    "GB.C38_refuted"
   ],
   "note": "Every matrix and every dense vector; what is answered for sparse vectors is exact (C38_sparse_vector). False exactly (C38_iff) for a sparse vector of length 1 holding 0 whose element type is not registered as sparse."
  },
  {
   "property": "C39",
   "status": "partial",
   "theorems": [
    "GB.C39_reduced_partial",
    "GB.C39_terminates",
    "GB.C39_refuted",
    "GB.C39_field_needed"
   ],
   "note": "Proved for every compressed or dense matrix and every dense vector over every exact field: ends within rows*columns turns per pivot search, returns a new matrix in reduced row echelon form with the row space and solutions of the argument, and it is the unique such matrix; nothing else changes. Termination, shape and frame hold for every numeric type. False for sparse vectors, whose At misses entries (C39_refuted); false without exact division (C39_field_needed)."
  },
  {
   "property": "C40",
   "status": "partial",
   "theorems": [
    "GB.C40_product_partial",
    "GB.C40_small_partial",
    "GB.C40_exact",
    "GB.C40_small_exact",
    "GB.C40_vector_exact",
    "GB.C40_iff",
    "GB.C40_rejects",
    "GB.C40_too_small",
    "GB.C40_default",
    "GB.C40_negative",
    "GB.C40_refuted"
   ],
   "note": "What is returned is known exactly for every pair of shapes and storage formats (C40_exact, C40_small_exact), the product is right exactly for the orders that halve evenly (C40_iff), and C40_rejects tells which calls panic. A dense vector as right operand above the crossover point is taken for a square matrix of equal columns (C40_vector_exact). Holds over every commutative ring (wrap-around integers included), in every schedule, for orders that halve evenly down to the crossover point; false otherwise: the result is smaller than the product (order 65 with the default crossover point), and a negative crossover point never returns."
  },
  {
   "property": "C41",
   "status": "proved",
   "theorems": [
    "GB.C41_schedule",
    "GB.C41_sequential",
    "GB.C41_received",
    "GB.C41_returns"
   ],
   "note": "All schedules of a call that can return do return, the same matrix, with all sends received; calls on square matrices always return, cancelled or not. Goroutines are a transition system; the stretch between two synchronisations is one step."
  },
  {
   "property": "C42",
   "status": "partial",
   "theorems": [
    "GB.C42_isSparse_partial",
    "GB.C42_float64",
    "GB.C42_refuted",
    "GB.C42_registration_history",
    "GB.C42_register"
   ],
   "note": "exact for float64 and after registration; false for the other element types, which are never registered"
  },
  {
   "property": "C43",
   "status": "partial",
   "theorems": [
    "GB.C43_resize_partial",
    "GB.C43_shrink",
    "GB.C43_refuted",
    "GB.C43_iff"
   ],
   "note": "growing is right; false when shrinking a dense vector, which keeps length minus size elements; right exactly when the vector does not shrink or is halved"
  },
  {
   "property": "C44",
   "status": "partial",
   "theorems": [
    "GB.C44_element_partial",
    "GB.C44_unsigned",
    "GB.C44_refuted",
    "GB.C44_iff"
   ],
   "note": "Element is greater than zero: right for non-negative cells, false for negative ones; right on every reachable matrix exactly for element types without negative values"
  },
  {
   "property": "C45",
   "status": "proved",
   "theorems": [
    "GB.C45_addition_monoid",
    "GB.C45_arithmetic",
    "GB.C45_division",
    "GB.C45_integer_division",
    "GB.C45_min_max",
    "GB.C45_min_max_laws",
    "GB.C45_comparisons",
    "GB.C45_boolean",
    "GB.C45_projections",
    "GB.C45_wraps"
   ],
   "note": ""
  },
  {
   "property": "C46",
   "status": "partial",
   "theorems": [
    "GB.C46_multiply_left_partial",
    "GB.C46_multiply_right_partial",
    "GB.C46_add_partial",
    "GB.C46_subtract_partial",
    "GB.C46_elementWiseAdd_left_partial",
    "GB.C46_refuted_multiply",
    "GB.C46_refuted_emul",
    "GB.C46_refuted_eadd",
    "GB.C46_refuted_add",
    "GB.C46_elementWiseMultiply_left_iff",
    "GB.C46_elementWiseMultiply_right_iff",
    "GB.C46_elementWiseAdd_right_iff",
    "GB.C46_multiply_right_masked_iff",
    "GB.C46_multiply_right_iff",
    "GB.C46_multiply_triangular"
   ],
   "note": "false in general; proved for the aliasing patterns that are safe, and for the others exactly which contents are safe (multiplication into the right operand: a dense one)"
  },
  {
   "property": "C47",
   "status": "partial",
   "theorems": [
    "GB.C47_csr_partial",
    "GB.C47_csc_partial",
    "GB.C47_svec_partial",
    "GB.C47_dense_shares",
    "GB.C47_dvec_shares",
    "GB.C47_refuted_dense",
    "GB.C47_refuted_dvec"
   ],
   "note": "Holds for CSR, CSC and sparse vector. False for the dense matrix and the dense vector: the object is the caller's array."
  },
  {
   "property": "C48",
   "status": "partial",
   "theorems": [
    "GB.C48_multiply_partial",
    "GB.C48_add_partial",
    "GB.C48_subtract_partial",
    "GB.C48_vector_elementWise_partial",
    "GB.C48_rejected_writes_nothing",
    "GB.C48_multiply",
    "GB.C48_all_formats_partial",
    "GB.C48_refuted"
   ],
   "note": "multiplication: in full, with any aliasing; the others: a call panics exactly on a shape mismatch unless it writes zeros into a compressed operand it enumerates, where it is false; a rejected call writes nothing"
  },
  {
   "property": "C49",
   "status": "proved",
   "theorems": [
    "GB.C49_round_trip",
    "GB.C49_other",
    "GB.C49_iff",
    "GB.C49_modes",
    "GB.C49_done"
   ],
   "note": ""
  },
  {
   "property": "C50",
   "status": "partial",
   "theorems": [
    "GB.C50_enumerate_tame_partial",
    "GB.C50_enumerate_safe",
    "GB.C50_refuted",
    "GB.C50_iff"
   ],
   "note": "safety for every history; exactness is false in general, proved for tame histories; C50_iff tells exactly which histories"
  },
  {
   "property": "C51",
   "status": "partial",
   "theorems": [
    "GB.C51_no_leak_partial",
    "GB.C51_calls_on",
    "GB.C51_refuted"
   ],
   "note": "holds when the call returns; a rejected mask leaves the reducer goroutine blocked for ever"
  },
  {
   "property": "C52",
   "status": "partial",
   "theorems": [
    "GB.C52_returns_partial",
    "GB.C52_multiply_method",
    "GB.C52_add_method",
    "GB.C52_subtract_method",
    "GB.C52_transpose_method",
    "GB.C52_equal",
    "GB.C52_refuted"
   ],
   "note": "every operator, all five formats, any mask and cancellation point; excluded, and false there: writing zeros into a compressed object while enumerating it"
  },
  {
   "property": "C53",
   "status": "proved",
   "theorems": [
    "GB.C53_csr_pointer",
    "GB.C53_csc_pointer",
    "GB.C53_set_pointer",
    "GB.C53_outside"
   ],
   "note": "Update functions are pure functions of the old value."
  },
  {
   "property": "C54",
   "status": "proved",
   "theorems": [
    "GB.C54_exact"
   ],
   "note": "Operands reachable (a sparse-vector operand only with packed contents). The exact final contents of the output for all twelve operators, from which every departure from the textbook definitions can be read off."
  },
  {
   "property": "C55",
   "status": "proved",
   "theorems": [
    "GB.C55_snapshot",
    "GB.C55_independent",
    "GB.C55_cells",
    "GB.C55_raw",
    "GB.C55_raw_write",
    "GB.C55_raw_clear"
   ],
   "note": "C55_cells (contents, through C10) is for matrices; for vectors the contents are those of RowsAt on the value, whatever they are."
  },
  {
   "property": "C56",
   "status": "proved",
   "theorems": [
    "GB.C56_answers",
    "GB.C56_matrices",
    "GB.C56_cells"
   ],
   "note": "The masks are not the output object. C56_cells, which needs agreement at the cells of the output only, is for an open context and rings of values."
  },
  {
   "property": "C57",
   "status": "proved",
   "theorems": [
    "GB.C57_local",
    "GB.C57_equal"
   ],
   "note": "Two-run statement; the objects need not be in reachable states."
  },
  {
   "property": "C58",
   "status": "proved",
   "theorems": [
    "GB.C58_exact",
    "GB.C58_add_exact",
    "GB.C58_add_rounds",
    "GB.C58_add_comm",
    "GB.C58_subtract_exact",
    "GB.C58_subtract_self",
    "GB.FloatEx.C58_not_associative"
   ],
   "note": "IEEE arithmetic modelled over exact rationals with one NaN; no fused multiply-add."
  },
  {
   "property": "C59",
   "status": "proved",
   "theorems": [
    "GB.C59_multiply_returns",
    "GB.C59_multiply",
    "GB.C59_integers",
    "GB.FloatEx.C59_not_exact"
   ],
   "note": "For a matrix receiver whose rows and an argument whose columns are read in full (all dense ones; C20 says when compressed ones are)."
  },
  {
   "property": "C60",
   "status": "proved",
   "theorems": [
    "GB.C60_equal",
    "GB.C60_reflexive"
   ],
   "note": "Mixed storage classes: C27."
  },
  {
   "property": "C61",
   "status": "proved",
   "theorems": [
    "GB.C61_sum",
    "GB.FloatEx.C61_format_matters"
   ],
   "note": "The order of summation is C31_fold_partial, which also covers floats."
  },
  {
   "property": "C62",
   "status": "partial",
   "theorems": [
    "GB.C62_returns_partial",
    "GB.FloatEx.C62_refuted",
    "GB.FloatEx.C62_pivot_refuted",
    "GB.FloatEx.C62_nan"
   ],
   "note": "Termination, shape, format and the untouched argument hold; the echelon form does not: [[5,3],[5,3]] is reduced to the identity, [[49]] to 1-2^-53."
  },
  {
   "property": "C63",
   "status": "proved",
   "theorems": [
    "GB.Locks.C63_exclusion",
    "GB.Locks.C63_ends",
    "GB.Locks.C63_bounded",
    "GB.Locks.C63_rising",
    "GB.Locks.C63_readers"
   ],
   "note": "Only the locks are modelled here; what the calls do to one matrix is C35."
  },
  {
   "property": "C64",
   "status": "partial",
   "theorems": [
    "GB.Locks.C64_finishes_partial",
    "GB.Locks.C64_update",
    "GB.Locks.C64_refuted_callbacks",
    "GB.Locks.C64_refuted_self",
    "GB.Locks.C64_refuted_cross"
   ],
   "note": "Holds for ordered locks (C63). False in general: a callback of s.Update that calls a locking method of s always blocks for ever; a.Update and b.Update whose callbacks read the other matrix can deadlock; so can s.Multiply(s') with a concurrent s.Set, and a.Multiply(b'), b.Multiply(a') and two writers, where x' is of a type that embeds x (a *MutexMatrix itself does not satisfy Matrix)."
  },
  {
   "property": "C65",
   "status": "partial",
   "theorems": [
    "GB.C65_scalar_partial",
    "GB.C65_csr_partial",
    "GB.C65_csc_partial",
    "GB.C65_dense",
    "GB.C65_negative",
    "GB.C65_negative_sparse_vector",
    "GB.C65_scalar_sparse_vector_partial",
    "GB.C65_refuted",
    "GB.C65_factor_iff"
   ],
   "note": "Negative is proved for every format; for sparse vectors in any reachable state every entry is negated, whether or not At finds it (C65_negative_sparse_vector). Scalar is proved for dense storage, for sparse vectors in any reachable state when no product underflows to zero, and for compressed storage when no product of a non-zero cell underflows to zero, or only those of the last non-zero cells of rows (CSR) or columns (CSC); C65_refuted is a panic otherwise. C65_factor_iff: a factor is safe on all matrices of a sparse kind exactly when it is NaN, infinite or greater than 1/2 in absolute value."
  },
  {
   "property": "C66",
   "status": "proved",
   "theorems": [
    "GB.C66_expression",
    "GB.C66_equal",
    "GB.C66_assoc",
    "GB.C66_distrib",
    "GB.C66_transpose_mul",
    "GB.C66_sub",
    "GB.C66_smul",
    "GB.C66_add_comm",
    "GB.C66_symmetric",
    "GB.C66_skew",
    "GB.C66_symmetric_part",
    "GB.C66_skew_part",
    "GB.C66_gram",
    "GB.C66_power"
   ],
   "note": "Elements are any commutative ring (all Go integer widths, exact numbers); float rounding is C58-C62. Compressed operands break Multiply and Add: C18, C20."
  },
  {
   "property": "C67",
   "status": "partial",
   "theorems": [
    "GB.C67_new_partial",
    "GB.C67_new_vector_partial",
    "GB.C67_csr_panics_iff",
    "GB.C67_csc_panics_iff",
    "GB.C67_dense_panics_iff",
    "GB.C67_dense_vector_panics_iff",
    "GB.C67_sparse_vector_never",
    "GB.C67_no_cells",
    "GB.C67_clear",
    "GB.C67_values",
    "GB.C67_refuted",
    "GB.C67_refuted_size",
    "GB.C67_refuted_transpose"
   ],
   "note": "Right for dimensions that are not negative. Which negative dimensions are rejected is stated exactly per constructor: NewCSRMatrix(-1, 2), NewCSCMatrix(-5, 2), NewDenseMatrix(0, -5) and every NewSparseVector succeed."
  },
  {
   "property": "C68",
   "status": "partial",
   "theorems": [
    "GB.Share.C68_negative_partial",
    "GB.Share.C68_refuted"
   ],
   "note": "Exact: ReSize(n) with n < 0 panics when the backing array is too short, and otherwise grows the vector by -n elements that lie behind it in the array."
  },
  {
   "property": "C69",
   "status": "partial",
   "theorems": [
    "GB.C69_compressed_partial",
    "GB.C69_dense_partial",
    "GB.C69_refuted"
   ],
   "note": "Exact for every array: the compressed constructors reject an empty array and one with a row shorter than the first, and ignore what is beyond the length of the first row; the dense ones reject only the empty array, and the cells a short row lacks make At and Set panic."
  },
  {
   "property": "C70",
   "status": "proved",
   "theorems": [
    "GB.C70_decides",
    "GB.C70_idempotent",
    "GB.C70_solve"
   ],
   "note": "Over every field, for CSR, CSC, dense matrices and dense vectors (sparse vectors are outside the statement: C39_refuted). The gas hypotheses bound the model's loops by the number of cells."
  },
  {
   "property": "C71",
   "status": "proved",
   "theorems": [
    "GB.C71_rows",
    "GB.C71_columns",
    "GB.C71_fixed",
    "GB.C71_fixed_columns"
   ],
   "note": "For all shapes and contents; code points outside Unicode are outside the statement (C29_refuted)."
  },
  {
   "property": "C72",
   "status": "proved",
   "theorems": [
    "GB.C72_distance",
    "GB.C72_count",
    "GB.C72_count_exact"
   ],
   "note": "For every arithmetic under the stated positivity; C72_count_exact needs no positivity hypothesis in exact arithmetic. Context never cancelled."
  },
  {
   "property": "C73",
   "status": "proved",
   "theorems": [
    "GB.C73_equal",
    "GB.C73_equal_method",
    "GB.C73_rejects",
    "GB.C73_negative",
    "GB.C73_methods",
    "GB.C73_reductions",
    "GB.C73_same",
    "GB.C73_same_methods"
   ],
   "note": "Nil interfaces; interfaces that hold a nil pointer are the subject of C98. A reduction of nil has started its reducer goroutine by the time it panics; what becomes of it: C51."
  },
  {
   "property": "C74",
   "status": "partial",
   "theorems": [
    "GB.C74_size_partial",
    "GB.C74_size_wraps",
    "GB.C74_size_nat",
    "GB.C74_refuted"
   ],
   "note": "Exactly when the product is a 64-bit int; NewCSRMatrix(3, 1<<62) has size -2^62."
  },
  {
   "property": "C75",
   "status": "partial",
   "theorems": [
    "GB.C75_string_partial",
    "GB.C75_less_partial",
    "GB.C75_compare_partial",
    "GB.C75_compare_mixed",
    "GB.C75_refuted",
    "GB.C75_refuted_mixed",
    "GB.C75_refuted_order"
   ],
   "note": "String, and with it Less, Greater and Compare, panics exactly when a Size() is negative (strings.Builder.Grow). Compare of compressed matrices is no order. Running out of memory is not modelled. Compare of a dense with a compressed matrix is 0 only if no cell is zero (C75_compare_mixed, C75_refuted_mixed)."
  },
  {
   "property": "C76",
   "status": "partial",
   "theorems": [
    "GB.C76_steady_partial",
    "GB.C76_sparse_vector_partial",
    "GB.C76_dense",
    "GB.C76_at_most",
    "GB.C76_missed",
    "GB.C76_refuted",
    "GB.C76_refuted_delivered",
    "GB.C76_refuted_insert"
   ],
   "note": "Dense formats: every session. Compressed formats and sparse vectors: every session that changes no cell from or to zero; otherwise Next may loop for ever, and when cells become non-zero one is always missed (C76_missed)."
  },
  {
   "property": "C77",
   "status": "partial",
   "theorems": [
    "GB.C77_iff",
    "GB.C77_partial",
    "GB.C77_result",
    "GB.C77_masked",
    "GB.C77_compressed_never",
    "GB.C77_cancel",
    "GB.C77_not_square",
    "GB.C77_refuted",
    "GB.C77_refuted_not_square"
   ],
   "note": "Exactly when: in every format the call is right if and only if the matrix is symmetric (C77_iff). C77_result says what it leaves otherwise: one triangle is copied over the other. A dense matrix that is not square is rejected, a compressed one not always (C77_refuted_not_square)."
  },
  {
   "property": "C78",
   "status": "proved",
   "theorems": [
    "GB.C78_each",
    "GB.C78_others",
    "GB.C78_ends",
    "GB.C78_serial",
    "GB.C78_overlap"
   ],
   "note": "Objects that are no outputs are in reachable states. The stepwise operators are proved to be the operators of the big-step model (OpCall.steps_run). A method call reads its object when it begins and stores it when it ends; memory accesses inside a call are not interleaved. C78_overlap: two calls that are not separate end in a state of no serial order."
  },
  {
   "property": "C79",
   "status": "partial",
   "theorems": [
    "GB.C79_exact",
    "GB.C79_expression_partial",
    "GB.C79_iff",
    "GB.C79_linear",
    "GB.C79_equal",
    "GB.C79_add_comm",
    "GB.C79_add_assoc",
    "GB.C79_transpose_add",
    "GB.C79_involutions",
    "GB.C79_neg_transpose",
    "GB.C79_refuted"
   ],
   "note": "What is computed is stated for every expression (C79_exact; multiples may annihilate at most the last non-zero cell of a row or column); it is right under a condition per call (C79_expression_partial). Sums, negatives and transposes of element types other than float64 are right in any mixture of formats without conditions (C79_linear)."
  },
  {
   "property": "C80",
   "status": "partial",
   "theorems": [
    "GB.C27_reflexive",
    "GB.C80_symmetric",
    "GB.C80_sound",
    "GB.C80_transitive_partial",
    "GB.C80_transitive_class_partial",
    "GB.C80_refuted"
   ],
   "note": "Reflexive and symmetric in full. Transitive, and never yes for different cells, for element types other than float64; for float64 transitive unless two objects of one storage class are compared through one of the other, where it is false."
  },
  {
   "property": "C81",
   "status": "partial",
   "theorems": [
    "GB.C81_fold_partial",
    "GB.C81_dense",
    "GB.C81_csr",
    "GB.C81_csc",
    "GB.C81_csr_iff",
    "GB.C81_csc_iff",
    "GB.C81_monoid_iff",
    "GB.C81_vector_partial",
    "GB.C81_vector_dense",
    "GB.C81_vector_compressed",
    "GB.C81_vector_iff",
    "GB.C81_addition",
    "GB.C81_maximum",
    "GB.C81_refuted"
   ],
   "note": "What is returned is stated for every operation and format. Dense formats: right for every operation. CSR: right for an operation exactly when folding in a 0 never changes a result; CSC: exactly when moreover any two values may be exchanged. For commutative monoids: exactly when the unit is 0, so a product over a compressed matrix is wrong."
  },
  {
   "property": "C82",
   "status": "partial",
   "theorems": [
    "GB.C82_less",
    "GB.C82_equal",
    "GB.C82_comparisons",
    "GB.C82_min_max",
    "GB.C82_laws_partial",
    "GB.C82_laws_refuted",
    "GB.C82_reduce",
    "GB.IsFoldMax.unique",
    "GB.C82_reduce_partial",
    "GB.C82_refuted"
   ],
   "note": "The comparisons are proved in full. Minimum and Maximum return the second argument when either is NaN; without NaN they are associative, and commutative up to the sign of zero. A column without NaN reduces to the greatest of 0 and its cells; otherwise everything up to the last NaN read is forgotten (C82_reduce, exact)."
  },
  {
   "property": "C83",
   "status": "partial",
   "theorems": [
    "GB.C83_rows_partial",
    "GB.C83_same",
    "GB.C83_columns",
    "GB.C83_vector",
    "GB.C83_refuted"
   ],
   "note": "Proved for dense matrices, dense vectors and CSR matrices, and for sums of columns in every format. A CSC matrix is summed column by column (C83_columns), which rounds differently (C83_refuted)."
  },
  {
   "property": "C84",
   "status": "proved",
   "theorems": [
    "GB.C84_limits",
    "GB.C84_thresholds",
    "GB.C84_add",
    "GB.C84_outer"
   ],
   "note": "float64 and float32 are the model of IEEE 754 binary64 and binary32 with rounding to nearest even."
  },
  {
   "property": "C85",
   "status": "proved",
   "theorems": [
    "GB.C85_unchanged",
    "GB.C85_runes",
    "GB.C85_concurrent",
    "GB.C85_mutex",
    "GB.C85_resize",
    "GB.C85_resize_needed",
    "GB.Mutex.C90_refuted_dense_inside"
   ],
   "note": "The moment inside Clear of a dense matrix without rows: C90_refuted_dense_inside. ReSize is the one exception (C85_resize, C85_resize_needed). The state after a panic is that of a program that recovers."
  },
  {
   "property": "C86",
   "status": "proved",
   "theorems": [
    "GB.Mutex.C86_table",
    "GB.Mutex.C86_single"
   ],
   "note": "Memory is sequentially consistent and the lock is the documented RWMutex. The methods of CSR and CSC are split into single accesses; C35_refuted_serial and C35_refuted_map are the calls left out (Clear next to other goroutines, Map of an iterator)."
  },
  {
   "property": "C87",
   "status": "proved",
   "theorems": [
    "GB.C87_multiply",
    "GB.C87_integers",
    "GB.C87_writes",
    "GB.C87_panics",
    "GB.C87_returns",
    "GB.C87_outer",
    "GB.C87_perpendicular",
    "GB.C87_never",
    "GB.C87_fma",
    "GB.C87_exceptional",
    "GB.C87_absorbs",
    "GB.C87_limits",
    "GB.FloatEx.C87_refuted"
   ],
   "note": "Which steps are fused may differ from step to step. The claim that the numbers do not depend on the machine is false (FloatEx.C87_refuted)."
  },
  {
   "property": "C88",
   "status": "partial",
   "theorems": [
    "GB.Mutex.C88_races_partial",
    "GB.Mutex.C88_dense",
    "GB.Mutex.C88_no_look",
    "GB.Mutex.C88_exact",
    "GB.Mutex.C88_places",
    "GB.Mutex.C88_refuted",
    "GB.Mutex.C88_refuted_values",
    "GB.Mutex.C88_refuted_clear"
   ],
   "note": "False of the code: At and Element of compressed matrices write back under the read lock (C88_refuted, exactly when: C88_exact), Values takes no lock, Clear takes the read lock. C88_races_partial lists the races there are; the rest holds. An access of a dense matrix or vector is a whole method."
  },
  {
   "property": "C89",
   "status": "partial",
   "theorems": [
    "GB.Mutex.C89_results",
    "GB.Mutex.C89_races_partial",
    "GB.Mutex.C89_dense",
    "GB.Mutex.C89_no_look",
    "GB.Mutex.C89_exact",
    "GB.Mutex.C89_refuted"
   ],
   "note": "The results are right in every interleaving (C89_results). Freedom from data races is false of the code for At and Element of compressed matrices (C89_refuted, exactly when: C89_exact); the races there are: C89_races_partial. C89_results counts the methods that make another matrix too, each as one access."
  },
  {
   "property": "C90",
   "status": "proved",
   "theorems": [
    "GB.Mutex.C90_serial",
    "GB.Mutex.C90_between",
    "GB.Mutex.C90_clears",
    "GB.Mutex.C90_writers",
    "GB.Mutex.C90_refuted_dense",
    "GB.Mutex.C90_refuted_dense_inside"
   ],
   "note": "Clear of CSR, CSC, dense matrices and sparse vectors access by access (that of a dense vector is one assignment); resetting a row of a dense matrix is one access. C90_refuted_dense is the last sentence of the statement."
  },
  {
   "property": "C91",
   "status": "partial",
   "theorems": [
    "GB.C91_holds",
    "GB.C91_iff",
    "GB.C91_partial",
    "GB.C91_refuted",
    "GB.C91_two_passes"
   ],
   "note": "What is stored is proved for every operator that makes one pass (C91_holds); the values are those of C54. Reading it back by At is false of the code (C91_refuted), right exactly under the condition of C91_iff. Sparse vectors that are not empty before the call, and the element-wise sum: C94."
  },
  {
   "property": "C92",
   "status": "proved",
   "theorems": [
    "GB.Mutex.C92_arithmetic"
   ],
   "note": "The arithmetic a compressed matrix gets wrong on its own (C17 to C20, C27) is left out: there the calls are still serial (C35), with the answers of the wrapped matrix."
  },
  {
   "property": "C93",
   "status": "proved",
   "theorems": [
    "GB.C93_prefix",
    "GB.C93_moment",
    "GB.C93_cells",
    "GB.C93_between",
    "GB.C93_looks",
    "GB.C93_noticed",
    "GB.C93_empty_inner"
   ],
   "note": "The moments are those of the stepwise model (`Model/Steps.lean`), which runs as the operators do (`OpCall.steps_run`). Scalar and the reductions do not stop when cancelled: C34."
  },
  {
   "property": "C94",
   "status": "proved",
   "theorems": [
    "GB.C94_entries",
    "GB.C94_replay",
    "GB.C94_table",
    "GB.C94_sparse_vector",
    "GB.C94_reads"
   ],
   "note": "Negative, which maps its output in place, is not of this kind. What a sparse vector reads as after the writes is exact in C04_iff and C50_iff."
  },
  {
   "property": "C95",
   "status": "proved",
   "theorems": [
    "GB.C95_stops",
    "GB.C95_first",
    "GB.C95_all",
    "GB.C95_table",
    "GB.C95_sparse_vector"
   ],
   "note": "Negative, which maps its output in place, is not of this kind; what it leaves when cancelled: C33, C93."
  },
  {
   "property": "C96",
   "status": "partial",
   "theorems": [
    "GB.C96_again_partial",
    "GB.C96_exact",
    "GB.C96_subtract",
    "GB.C96_subtract_iff",
    "GB.C96_subtract_parity",
    "GB.C96_sparse_vector",
    "GB.C96_negative",
    "GB.C96_refuted_subtract",
    "GB.C96_refuted_negative",
    "GB.C96_refuted_sparse_vector"
   ],
   "note": "Holds for every operator except Subtract and Negative on matrices and dense vectors; false of Subtract and Negative, which work on what the cancelled call has left, and of sparse vectors as outputs, where the second call may enter a value once more. C96_exact: for every operator but Negative and every output, a sequence of calls cancelled anywhere does what each of them has got done, one after the other; from it C96_subtract (a cell is subtracted from the operand's value as often as calls have got to it; after one cancelled call wrong unless subtracting twice is subtracting once, C96_subtract_iff; over any ring a second call to a cell gives its old value back, C96_subtract_parity) and C96_sparse_vector (the history is prolonged by the writes of each call). Negative, over any ring: after any number of calls every cell has its old value or the negated one, a masked cell its old one (C96_negative)."
  },
  {
   "property": "C97",
   "status": "partial",
   "theorems": [
    "GB.C97_equal_partial",
    "GB.C97_string",
    "GB.C97_strings",
    "GB.C97_less_partial",
    "GB.C97_compare",
    "GB.C97_compare_partial",
    "GB.C97_refuted_equal",
    "GB.C97_refuted_less",
    "GB.C97_refuted_compare"
   ],
   "note": "The exact answers of Equal, NotEqual, String, Less, Greater and Compare for every point of cancellation, operands in all states. Consequences: a yes of Equal, a no of NotEqual, a yes of Less and a -1 of Compare are right, and Compare gives +1 only to operands that are not equal. The claim in full is false and refuted for each of them: a cancelled Equal says no to equal operands, a cancelled Less says no and Greater yes to operands in the other order, Compare says 0 of different operands and +1 of a lesser one."
  },
  {
   "property": "C98",
   "status": "partial",
   "theorems": [
    "GB.C98_rejects_partial",
    "GB.C98_elementWise",
    "GB.C98_equal",
    "GB.C98_notEqual",
    "GB.C98_functions",
    "GB.C98_methods",
    "GB.C98_equal_methods",
    "GB.C98_same",
    "GB.C98_same_methods",
    "GB.C98_refuted"
   ],
   "note": "Holds for every operator and argument except the left operand of ElementWiseMatrixMultiply: Columns() of a nil *SparseVector answers 1, so that with a right operand of one row without values, and a type that is not registered, the call returns and has done nothing (refuted for int; C98_elementWise says exactly when). The methods Multiply, Add and Subtract panic (C98_methods), Equal and NotEqual as the functions do (C98_equal_methods)."
  },
  {
   "property": "C99",
   "status": "partial",
   "theorems": [
    "GB.C99_add_partial",
    "GB.C99_add_iff",
    "GB.C99_subtract_partial",
    "GB.C99_subtract_iff",
    "GB.C99_apply_partial",
    "GB.C99_refuted_panic",
    "GB.C99_refuted_wrong",
    "GB.C99_refuted_hang",
    "GB.C99_refuted_apply"
   ],
   "note": "Proved when every zero is at the last stored element of its row (CSR) or column (CSC); on a one-row CSR or one-column CSC matrix this is exactly when Add and Subtract do not panic. Otherwise false: concrete matrices where the call panics, returns with wrong cells, or never returns. Subtract in place subtracts the output from itself, as in C54."
  }
 ]
}
