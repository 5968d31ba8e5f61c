#!/usr/bin/env python3
"""Write MANIFEST.json from the table below."""
import json, os

CLAIMS = []

def claim(p, status, theorems, note=""):
    CLAIMS.append({"property": p, "status": status, "theorems": ["GB." + t for t in theorems], "note": note})

claim("C01", "proved", ["C01_csr_history", "C01_csr_last_write", "C01_csr_from_reachable"])
claim("C02", "proved", ["C02_csc_history", "C02_csc_last_write", "C02_csc_from_reachable"])
claim("C03", "proved", ["C03_dense_history", "C03_dvec_history", "C03_dvec_setVec"])
claim("C05", "proved", ["C05_values_counts_nonzero", "C05_values_of_history"])
claim("C06", "proved", ["C06_in_range_ok", "C06_out_of_range_panics", "C06_panic_iff", "C104_method"],
      "That a panicking call leaves the matrix as it was is C104_method, on the level of the backing arrays.")
claim("C07", "proved", ["C07_reads_preserve"])
claim("C12", "proved", ["C12_clear"])
claim("C13", "proved", ["C13_csr_csc_agree", "C13_formats_agree", "C13_without_update", "C13_refuted_float"],
      "C13_formats_agree for element types whose == is equality; C13_without_update and C13_refuted_float for floats")

claim("C04","partial",["C04_sparse_vector_partial","C04_iff","C04_first_write","C04_refuted","C04_refuted_duplicate"],
  "false in general (sparseVector.go:191 compares the position with the number of entries); C04_iff states exactly which histories are read back right: at no moment a non-zero position exceeds the number of non-zero positions")
claim("C08", "proved", ["C08_fromArray_cells", "C08_fromArray_rows", "C08_svec_fromArray", "C08_dvec_fromArray"])
claim("C09", "proved", ["C09_enumerate", "C09_enumerate_order"])
claim("C10", "proved", ["C10_rows_and_columns", "C10_out_of_range"])
claim("C14", "partial", ["C14_map_dense", "C14_map_compressed_partial", "C14_refuted", "C14_refuted_panics_later", "C14_csr_partial", "C14_csc_partial", "C14_csr_iff", "C14_csc_iff", "C14_sparse_vector_partial"],
      "proved for dense storage; for compressed storage it is false when the function returns zero on a cell that is not the last non-zero one of its row (CSR) or column (CSC), proved otherwise; Map is right for every function exactly when no row (CSR) or column (CSC) has two non-zero cells; for sparse vectors the outcome is given exactly")
claim("C15", "proved", ["C15_transpose", "C15_transposeToCSR", "C15_transposeToCSC", "C15_transpose_twice", "C15_sparse_vector", "C15_sparse_vector_to", "C15_refuted_sparse_vector"],
      "C15_transpose and the next three: every state of the matrix formats and of dense vectors, packed sparse vectors. C15_sparse_vector(_to): sparse vectors in every reachable state, in terms of what Enumerate delivers; C15_refuted_sparse_vector: why not in terms of At.")
claim("C16", "proved", ["C16_negative", "C16_sparse_vector"],
      "C16_negative: every state of the matrix formats and of dense vectors, packed sparse vectors; C16_sparse_vector: sparse vectors in every reachable state, packed or not.")
claim("C17", "partial", ["C17_scalar_partial", "C17_scalar_nonzero_partial", "C17_refuted", "C17_refuted_wrap", "C17_csr_partial", "C17_csc_partial", "C17_zero_partial", "C17_sparse_vector_iff", "C17_sparse_vector_partial", "C17_factor_iff"],
      "proved for dense storage; for CSR (CSC) proved when only the last non-zero cell of a row (column) is multiplied to zero, false in general otherwise; for sparse vectors C17_sparse_vector_iff states exactly when it is right; C17_factor_iff: a factor is safe for all matrices of a sparse kind exactly when it never multiplies a non-zero value to zero")
claim("C18", "partial", ["C18_add_partial", "C18_add_unregistered_partial", "C18_add_mismatch", "C18_refuted", "C18_add_exact", "C18_add_iff"],
      "false in general; the returned matrix is characterised for all operands (C18_add_exact), and C18_add_iff states exactly when it is the sum: the receiver's type is not registered as sparse, or it is dense, or the argument is zero wherever the receiver is")
claim("C19", "partial", ["C19_subtract_partial", "C19_subtract_dense_partial", "C19_subtract_mismatch", "C19_refuted", "C19_refuted_svec", "C19_subtract_exact", "C19_subtract_iff"],
      "false in general; the returned matrix is characterised for all operands (C19_subtract_exact), and C19_subtract_iff states exactly when it is the difference: a dense receiver, or an argument equal to its own negative wherever the receiver is zero")
claim("C20", "partial", ["C20_multiply_partial", "C20_multiply_dense_partial", "C20_method_partial", "C20_multiply_mismatch", "C20_refuted", "C20_refuted_vector", "C20_method_exact", "C20_method_iff"],
      "false in general; right for dense operands and for compressed operands whose rows and columns are packed; the returned matrix is characterised for all operands (C20_method_exact), and C20_method_iff states that a receiver multiplies every dense argument correctly exactly when its rows are packed")
claim("C21", "partial", ["C21_mxv", "C21_vxm_partial", "C21_refuted", "C21_vxm_iff", "C21_symmetric_iff", "C21_vxm_rectangular"],
      "matrix-vector proved; vector-matrix calls multiply with swapped operands, so it computes A*v: right exactly when A*v = v*A, for every v exactly when A is symmetric, and a panic on a matrix that is not square")

claim("C22", "partial", ["C22_multiply_partial", "C22_add_partial", "C22_subtract_partial", "C22_negative", "C22_negative_ring",
      "C22_elementWiseMultiply", "C22_elementWiseAdd_partial", "C22_wrong_shape_panics", "C22_nil_is_false_everywhere",
      "C22_keeps_partial", "C22_keeps_sparse_vector", "C22_refuted_multiply", "C22_refuted_eadd", "C22_refuted_sparse_vector"],
      "masked cells keep their value for every operator named, with any aliasing and any outcome (sparse vector outputs: Negative and ElementWiseMultiply with no further hypothesis, the others under the hypotheses of their theorems); the other cells get the unmasked result under the hypotheses of the theorems; false for multiply when the output is the right operand, for the element-wise sum when the output is its own mask, and for sparse vector outputs as At reads them (what Enumerate delivers at masked positions is kept in every reachable state)")
claim("C23", "proved", ["C23_only_output", "C23_equal_reads_only", "C23_methods_change_nothing"])
claim("C24", "partial", ["C24_multiply_partial", "C24_refuted", "C24_refuted_shape", "C24_iff", "C24_domain_iff"],
      "the code keeps the value where both operands agree; that is the product exactly when equal values square to themselves and unequal ones have product zero; false in general")
claim("C25", "partial", ["C25_add_partial", "C25_refuted", "C25_iff"],
      "the code takes the union and prefers one operand; proved for operands with disjoint patterns; false in general")
claim("C26", "partial", ["C26_apply_partial", "C26_inplace_inverted", "C26_refuted", "C26_refuted_inplace", "C26_iff",
      "C26_inplace_exact", "C26_inplace_iff"],
      "out of place the result is transposed, in place the mask is inverted; proved for symmetric operands; false in general; what is done in place in every format, and exactly when that is right")
claim("C27", "partial", ["C27_equal_partial", "C27_reflexive", "C27_symmetric_partial", "C27_refuted_false", "C27_refuted_true", "C27_mixed_exact"],
      "proved for operands of the same storage class; false for a compressed against a dense operand, where C27_mixed_exact states what is answered instead")
claim("C33", "partial", ["C33_multiply_partial", "C33_add_partial", "C33_subtract_partial", "C33_negative", "C33_transpose_partial",
      "C33_apply_partial", "C33_elementWiseMultiply_partial", "C33_elementWiseAdd_partial", "C33_cancelled_before_start", "C33_refuted_eadd", "C33_sparse_vector_partial", "C33_sparse_vector_single_partial", "C33_refuted_sparse_vector"],
      "every cell of a cancelled run is either old or final, for outputs that are not sparse vectors; false for ElementWiseAdd; for sparse vectors as outputs proved when every moment of the whole call reads right (C04_iff), false otherwise: a cancelled call may make an old entry visible")
claim("C34", "partial", ["C34_refuted_scalar", "C34_refuted_reduce", "C34_reduce_deadlock", "C34_reduce_midflight", "C34_reduce_partial", "C34_reduce_exact"],
      "false: Scalar never returns once the context is cancelled, the reductions deadlock; proved for a cancellation that comes after the last poll")
claim("C46", "partial", ["C46_multiply_left_partial", "C46_multiply_right_partial", "C46_add_partial", "C46_subtract_partial", "C46_elementWiseAdd_left_partial",
      "C46_refuted_multiply", "C46_refuted_emul", "C46_refuted_eadd", "C46_refuted_add",
      "C46_elementWiseMultiply_left_iff", "C46_elementWiseMultiply_right_iff", "C46_elementWiseAdd_right_iff", "C46_multiply_right_masked_iff", "C46_multiply_right_iff", "C46_multiply_triangular"],
      "false in general; proved for the aliasing patterns that are safe, and for the others exactly which contents are safe (multiplication into the right operand: a dense one)")
claim("C48", "partial", ["C48_multiply_partial", "C48_add_partial", "C48_subtract_partial", "C48_vector_elementWise_partial", "C48_rejected_writes_nothing",
      "C48_multiply", "C48_all_formats_partial", "C48_refuted"],
      "multiplication: in full, with any aliasing; the others: a call panics exactly on a shape mismatch unless it writes zeros into a compressed operand it enumerates, where it is false; a rejected call writes nothing")
claim("C52", "partial", ["C52_returns_partial", "C52_multiply_method", "C52_add_method", "C52_subtract_method", "C52_transpose_method",
      "C52_equal", "C52_refuted"],
      "every operator, all five formats, any mask and cancellation point; excluded, and false there: writing zeros into a compressed object while enumerating it")
claim("C50", "partial", ["C50_enumerate_tame_partial", "C50_enumerate_safe", "C50_refuted", "C50_iff"],
      "safety for every history; exactness is false in general, proved for tame histories; C50_iff tells exactly which histories")
claim("C42", "partial", ["C42_isSparse_partial", "C42_float64", "C42_refuted", "C42_registration_history", "C42_register"],
      "exact for float64 and after registration; false for the other element types, which are never registered")
claim("C43", "partial", ["C43_resize_partial", "C43_shrink", "C43_refuted", "C43_iff"],
      "growing is right; false when shrinking a dense vector, which keeps length minus size elements; right exactly when the vector does not shrink or is halved")
claim("C44", "partial", ["C44_element_partial", "C44_unsigned", "C44_refuted", "C44_iff"],
      "Element is greater than zero: right for non-negative cells, false for negative ones; right on every reachable matrix exactly for element types without negative values")
claim("C45", "proved", ["C45_addition_monoid", "C45_arithmetic", "C45_division", "C45_integer_division", "C45_min_max", "C45_min_max_laws",
      "C45_comparisons", "C45_boolean", "C45_projections", "C45_wraps"])
claim("C49", "proved", ["C49_round_trip", "C49_other", "C49_iff", "C49_modes", "C49_done"])
claim("C30", "proved", ["C30_fold", "C30_no_deadlock", "C30_finite", "C30_returns"])
claim("C31", "partial", ["C31_fold_partial", "C31_sum_partial", "C31_matrix", "C31_mask_shape", "C31_refuted", "C31_sparse_vector_fold", "C31_history_partial"],
      "proved for all matrix formats, dense vectors and gap-free sparse vectors; for a sparse vector in any reachable state it is the fold over what Enumerate delivers, hence the sum of the last writes after every history on which Enumerate is right (C50_iff); false for a sparse vector with an entry At does not find")
claim("C32", "partial", ["C32_fold", "C32_max_with_zero", "C32_max_partial", "C32_refuted", "C32_iff"],
      "the unit is zero, so a column of negative values gives 0; right exactly when every column has a non-negative entry")
claim("C51", "partial", ["C51_no_leak_partial", "C51_calls_on", "C51_refuted"],
      "holds when the call returns; a rejected mask leaves the reducer goroutine blocked for ever")

claim("C37","partial",["C37_symmetric_partial","C37_sparse_vector","C37_iff","C37_refuted"],"Every matrix and every dense vector; what is answered for sparse vectors is exact (C37_sparse_vector). False exactly (C37_iff) for a sparse vector of length 1 holding 0 whose element type is not registered as sparse.")
claim("C38","partial",["C38_skewSymmetric_partial","C38_sparse_vector","C38_iff","C38_refuted"],"Every matrix and every dense vector; what is answered for sparse vectors is exact (C38_sparse_vector). False exactly (C38_iff) for a sparse vector of length 1 holding 0 whose element type is not registered as sparse.")

claim("C36","partial",["C36_search_partial","C36_search","C36_iff","C36_below","C36_uint","C36_int","C36_source_panic","C36_refuted"],"Every predicate (stateful ones included), dense matrices and compressed ones that multiplication reads exactly; the vector of level d holds the sums over the shortest walks of the products of their weights. C36_search_partial: exact arithmetic. C36_search: any arithmetic in which no such sum fails to be positive; C36_uint, C36_int: fixed-width integers when the true sums stay in range. False when a sum wraps to 0 (C36_refuted), and for unsigned integers exactly then (C36_iff).")

claim("C28","proved",["C28_compare","C28_zero","C28_antisymm","C28_trans","C28_less_greater","C28_shape_needed","C28_valid_needed","C28_any","C28_any_less","C28_antisymm_iff"],"Under an uncancelled context. UTF-8 and string order are modelled from the language specification.")
claim("C29","partial",["C29_rows","C29_columns","C29_rows_iff","C29_columns_iff","C29_rows_partial","C29_columns_partial","C29_rows_compare_partial","C29_refuted"],"Any runes: the rows (columns) are permuted, the input is unchanged, also under any cancellation, and the strings are in order. In Compare order exactly when no two different rows have the same string (C29_rows_iff), so for all valid code points; false for two different surrogates.")
claim("C39","partial",["C39_reduced_partial","C39_terminates","C39_refuted","C39_field_needed"],
 "Proved for every compressed or dense matrix and every dense vector over every exact field: ends within rows*columns turns per pivot search, returns a new matrix in reduced row echelon form with the row space and solutions of the argument, and it is the unique such matrix; nothing else changes. Termination, shape and frame hold for every numeric type. False for sparse vectors, whose At misses entries (C39_refuted); false without exact division (C39_field_needed).")

claim("C40","partial",["C40_product_partial","C40_small_partial","C40_exact","C40_small_exact","C40_vector_exact","C40_iff","C40_rejects","C40_too_small","C40_default","C40_negative","C40_refuted"],
  "What is returned is known exactly for every pair of shapes and storage formats (C40_exact, C40_small_exact), the product is right exactly for the orders that halve evenly (C40_iff), and C40_rejects tells which calls panic. A dense vector as right operand above the crossover point is taken for a square matrix of equal columns (C40_vector_exact). Holds over every commutative ring (wrap-around integers included), in every schedule, for orders that halve evenly down to the crossover point; false otherwise: the result is smaller than the product (order 65 with the default crossover point), and a negative crossover point never returns.")
claim("C41","proved",["C41_schedule","C41_sequential","C41_received","C41_returns"],
  "All schedules of a call that can return do return, the same matrix, with all sends received; calls on square matrices always return, cancelled or not. Goroutines are a transition system; the stretch between two synchronisations is one step.")

claim("C35", "partial", ["Mutex.C35_exclusion_partial", "Mutex.C35_serial_partial", "Mutex.C35_between_partial",
      "Mutex.C35_ends", "Mutex.C35_splits", "Mutex.C35_refuted_exclusion", "Mutex.C35_refuted_serial",
      "Mutex.C35_refuted_map"],
      "Any number of goroutines, any programs, any interleaving of accesses: Set and Update exclude every other "
      "locked call, and programs without Clear (and without the Map method of an iterator) are serial in the order "
      "of acquisition; no deadlock, no infinite execution. Clear takes the lock for reading, so the full statement "
      "is false: an execution in which At of a valid index panics is exhibited. The Map of an iterator takes no lock.")

claim("C11","proved",["C11_start","C11_program","C11_apart","C11_copy","C11_independent","C11_runs","C11_at","C11_reach"])
claim("C47","partial",["C47_csr_partial","C47_csc_partial","C47_svec_partial","C47_dense_shares","C47_dvec_shares","C47_refuted_dense","C47_refuted_dvec"],"Holds for CSR, CSC and sparse vector. False for the dense matrix and the dense vector: the object is the caller's array.")

claim("C53","proved",["C53_csr_pointer","C53_csc_pointer","C53_set_pointer","C53_outside"],"Update functions are pure functions of the old value.")

claim("C54","proved",["C54_exact"],"Operands reachable (a sparse-vector operand only with packed contents). The exact final contents of the output for all twelve operators, from which every departure from the textbook definitions can be read off.")

claim("C55","proved",["C55_snapshot","C55_independent","C55_cells","C55_raw","C55_raw_write","C55_raw_clear"],"C55_cells (contents, through C10) is for matrices; for vectors the contents are those of RowsAt on the value, whatever they are.")

claim("C56","proved",["C56_answers","C56_matrices","C56_cells"],"The masks are not the output object. C56_cells, which needs agreement at the cells of the output only, is for an open context and rings of values.")
claim("C57","proved",["C57_local","C57_equal"],"Two-run statement; the objects need not be in reachable states.")
claim("C58","proved",["C58_exact","C58_add_exact","C58_add_rounds","C58_add_comm","C58_subtract_exact","C58_subtract_self","FloatEx.C58_not_associative"],
  "IEEE arithmetic modelled over exact rationals with one NaN; no fused multiply-add.")
claim("C59","proved",["C59_multiply_returns","C59_multiply","C59_integers","FloatEx.C59_not_exact"],
  "For a matrix receiver whose rows and an argument whose columns are read in full (all dense ones; C20 says when compressed ones are).")
claim("C60","proved",["C60_equal","C60_reflexive"],"Mixed storage classes: C27.")
claim("C61","proved",["C61_sum","FloatEx.C61_format_matters"],"The order of summation is C31_fold_partial, which also covers floats.")
claim("C62","partial",["C62_returns_partial","FloatEx.C62_refuted","FloatEx.C62_pivot_refuted","FloatEx.C62_nan"],
  "Termination, shape, format and the untouched argument hold; the echelon form does not: [[5,3],[5,3]] is reduced to the identity, [[49]] to 1-2^-53.")
claim("C63","proved",["Locks.C63_exclusion","Locks.C63_ends","Locks.C63_bounded","Locks.C63_rising","Locks.C63_readers"],
  "Only the locks are modelled here; what the calls do to one matrix is C35.")
claim("C64","partial",["Locks.C64_finishes_partial","Locks.C64_update","Locks.C64_refuted_callbacks","Locks.C64_refuted_self","Locks.C64_refuted_cross"],
  "Holds for ordered locks (C63). False in general: a callback of s.Update that calls a locking method of s always blocks for ever; a.Update and b.Update whose callbacks read the other matrix can deadlock; so can s.Multiply(s') with a concurrent s.Set, and a.Multiply(b'), b.Multiply(a') and two writers, where x' is of a type that embeds x (a *MutexMatrix itself does not satisfy Matrix).")
claim("C65","partial",["C65_scalar_partial","C65_csr_partial","C65_csc_partial","C65_dense","C65_negative","C65_negative_sparse_vector","C65_scalar_sparse_vector_partial","C65_refuted", "C65_factor_iff"],
  "Negative is proved for every format; for sparse vectors in any reachable state every entry is negated, whether or not At finds it (C65_negative_sparse_vector). Scalar is proved for dense storage, for sparse vectors in any reachable state when no product underflows to zero, and for compressed storage when no product of a non-zero cell underflows to zero, or only those of the last non-zero cells of rows (CSR) or columns (CSC); C65_refuted is a panic otherwise. C65_factor_iff: a factor is safe on all matrices of a sparse kind exactly when it is NaN, infinite or greater than 1/2 in absolute value.")
claim("C66","proved",["C66_expression","C66_equal","C66_assoc","C66_distrib","C66_transpose_mul","C66_sub","C66_smul","C66_add_comm",
  "C66_symmetric","C66_skew","C66_symmetric_part","C66_skew_part","C66_gram","C66_power"],
  "Elements are any commutative ring (all Go integer widths, exact numbers); float rounding is C58-C62. Compressed operands break Multiply and Add: C18, C20.")
claim("C67","partial",["C67_new_partial","C67_new_vector_partial","C67_csr_panics_iff","C67_csc_panics_iff","C67_dense_panics_iff",
  "C67_dense_vector_panics_iff","C67_sparse_vector_never","C67_no_cells","C67_clear","C67_values","C67_refuted","C67_refuted_size","C67_refuted_transpose"],
  "Right for dimensions that are not negative. Which negative dimensions are rejected is stated exactly per constructor: NewCSRMatrix(-1, 2), NewCSCMatrix(-5, 2), NewDenseMatrix(0, -5) and every NewSparseVector succeed.")
claim("C68","partial",["Share.C68_negative_partial","Share.C68_refuted"],
  "Exact: ReSize(n) with n < 0 panics when the backing array is too short, and otherwise grows the vector by -n elements that lie behind it in the array.")

claim("C69","partial",["C69_compressed_partial","C69_dense_partial","C69_refuted"],"Exact for every array: the compressed constructors reject an empty array and one with a row shorter than the first, and ignore what is beyond the length of the first row; the dense ones reject only the empty array, and the cells a short row lacks make At and Set panic.")
claim("C70","proved",["C70_decides","C70_idempotent","C70_solve"],"Over every field, for CSR, CSC, dense matrices and dense vectors (sparse vectors are outside the statement: C39_refuted). The gas hypotheses bound the model's loops by the number of cells.")
claim("C71","proved",["C71_rows","C71_columns","C71_fixed","C71_fixed_columns"],"For all shapes and contents; code points outside Unicode are outside the statement (C29_refuted).")
claim("C72","proved",["C72_distance","C72_count","C72_count_exact"],"For every arithmetic under the stated positivity; C72_count_exact needs no positivity hypothesis in exact arithmetic. Context never cancelled.")
claim("C73","proved",["C73_equal","C73_equal_method","C73_rejects","C73_negative","C73_methods","C73_reductions","C73_same","C73_same_methods"],"Nil interfaces; interfaces that hold a nil pointer are the subject of C98. A reduction of nil has started its reducer goroutine by the time it panics; what becomes of it: C51.")
claim("C74","partial",["C74_size_partial","C74_size_wraps","C74_size_nat","C74_refuted"],"Exactly when the product is a 64-bit int; NewCSRMatrix(3, 1<<62) has size -2^62.")
claim("C75","partial",["C75_string_partial","C75_less_partial","C75_compare_partial","C75_compare_mixed","C75_refuted","C75_refuted_mixed","C75_refuted_order"],"String, and with it Less, Greater and Compare, panics exactly when a Size() is negative (strings.Builder.Grow). Compare of compressed matrices is no order. Running out of memory is not modelled. Compare of a dense with a compressed matrix is 0 only if no cell is zero (C75_compare_mixed, C75_refuted_mixed).")
claim("C76","partial",["C76_steady_partial","C76_sparse_vector_partial","C76_dense","C76_at_most","C76_missed","C76_refuted","C76_refuted_delivered","C76_refuted_insert"],"Dense formats: every session. Compressed formats and sparse vectors: every session that changes no cell from or to zero; otherwise Next may loop for ever, and when cells become non-zero one is always missed (C76_missed).")
claim("C77","partial",["C77_iff","C77_partial","C77_result","C77_masked","C77_compressed_never","C77_cancel","C77_not_square","C77_refuted","C77_refuted_not_square"],"Exactly when: in every format the call is right if and only if the matrix is symmetric (C77_iff). C77_result says what it leaves otherwise: one triangle is copied over the other. A dense matrix that is not square is rejected, a compressed one not always (C77_refuted_not_square).")
claim("C78","proved",["C78_each","C78_others","C78_ends","C78_serial","C78_overlap"],"Objects that are no outputs are in reachable states. The stepwise operators are proved to be the operators of the big-step model (OpCall.steps_run). A method call reads its object when it begins and stores it when it ends; memory accesses inside a call are not interleaved. C78_overlap: two calls that are not separate end in a state of no serial order.")
claim("C79","partial",["C79_exact","C79_expression_partial","C79_iff","C79_linear","C79_equal","C79_add_comm","C79_add_assoc","C79_transpose_add","C79_involutions","C79_neg_transpose","C79_refuted"],"What is computed is stated for every expression (C79_exact; multiples may annihilate at most the last non-zero cell of a row or column); it is right under a condition per call (C79_expression_partial). Sums, negatives and transposes of element types other than float64 are right in any mixture of formats without conditions (C79_linear).")
claim("C80","partial",["C27_reflexive","C80_symmetric","C80_sound","C80_transitive_partial","C80_transitive_class_partial","C80_refuted"],"Reflexive and symmetric in full. Transitive, and never yes for different cells, for element types other than float64; for float64 transitive unless two objects of one storage class are compared through one of the other, where it is false.")
claim("C81","partial",["C81_fold_partial","C81_dense","C81_csr","C81_csc","C81_csr_iff","C81_csc_iff","C81_monoid_iff","C81_vector_partial","C81_vector_dense","C81_vector_compressed","C81_vector_iff","C81_addition","C81_maximum","C81_refuted"],"What is returned is stated for every operation and format. Dense formats: right for every operation. CSR: right for an operation exactly when folding in a 0 never changes a result; CSC: exactly when moreover any two values may be exchanged. For commutative monoids: exactly when the unit is 0, so a product over a compressed matrix is wrong.")
claim("C82","partial",["C82_less","C82_equal","C82_comparisons","C82_min_max","C82_laws_partial","C82_laws_refuted","C82_reduce","IsFoldMax.unique","C82_reduce_partial","C82_refuted"],"The comparisons are proved in full. Minimum and Maximum return the second argument when either is NaN; without NaN they are associative, and commutative up to the sign of zero. A column without NaN reduces to the greatest of 0 and its cells; otherwise everything up to the last NaN read is forgotten (C82_reduce, exact).")
claim("C83","partial",["C83_rows_partial","C83_same","C83_columns","C83_vector","C83_refuted"],
  "Proved for dense matrices, dense vectors and CSR matrices, and for sums of columns in every format. A CSC matrix is summed column by column (C83_columns), which rounds differently (C83_refuted).")
claim("C84","proved",["C84_limits","C84_thresholds","C84_add","C84_outer"],
  "float64 and float32 are the model of IEEE 754 binary64 and binary32 with rounding to nearest even.")
claim("C85","proved",["C85_unchanged","C85_runes","C85_concurrent","C85_mutex","C85_resize","C85_resize_needed","Mutex.C90_refuted_dense_inside"],
  "The moment inside Clear of a dense matrix without rows: C90_refuted_dense_inside. ReSize is the one exception (C85_resize, C85_resize_needed). The state after a panic is that of a program that recovers.")
claim("C86","proved",["Mutex.C86_table","Mutex.C86_single"],
  "Memory is sequentially consistent and the lock is the documented RWMutex. The methods of CSR and CSC are split into single accesses; C35_refuted_serial and C35_refuted_map are the calls left out (Clear next to other goroutines, Map of an iterator).")
claim("C87","proved",["C87_multiply","C87_integers","C87_writes","C87_panics","C87_returns","C87_outer","C87_perpendicular","C87_never","C87_fma","C87_exceptional","C87_absorbs","C87_limits","FloatEx.C87_refuted"],
  "Which steps are fused may differ from step to step. The claim that the numbers do not depend on the machine is false (FloatEx.C87_refuted).")
claim("C88","partial",["Mutex.C88_races_partial","Mutex.C88_dense","Mutex.C88_no_look","Mutex.C88_exact","Mutex.C88_places","Mutex.C88_refuted","Mutex.C88_refuted_values","Mutex.C88_refuted_clear"],
  "False of the code: At and Element of compressed matrices write back under the read lock (C88_refuted, exactly when: C88_exact), Values takes no lock, Clear takes the read lock. C88_races_partial lists the races there are; the rest holds. An access of a dense matrix or vector is a whole method.")
claim("C89","partial",["Mutex.C89_results","Mutex.C89_races_partial","Mutex.C89_dense","Mutex.C89_no_look","Mutex.C89_exact","Mutex.C89_refuted"],
  "The results are right in every interleaving (C89_results). Freedom from data races is false of the code for At and Element of compressed matrices (C89_refuted, exactly when: C89_exact); the races there are: C89_races_partial. C89_results counts the methods that make another matrix too, each as one access.")
claim("C90","proved",["Mutex.C90_serial","Mutex.C90_between","Mutex.C90_clears","Mutex.C90_writers","Mutex.C90_refuted_dense","Mutex.C90_refuted_dense_inside"],
  "Clear of CSR, CSC, dense matrices and sparse vectors access by access (that of a dense vector is one assignment); resetting a row of a dense matrix is one access. C90_refuted_dense is the last sentence of the statement.")
claim("C91","partial",["C91_holds","C91_iff","C91_partial","C91_refuted","C91_two_passes"],
  "What is stored is proved for every operator that makes one pass (C91_holds); the values are those of C54. Reading it back by At is false of the code (C91_refuted), right exactly under the condition of C91_iff. Sparse vectors that are not empty before the call, and the element-wise sum: C94.")
claim("C92","proved",["Mutex.C92_arithmetic"],
  "The arithmetic a compressed matrix gets wrong on its own (C17 to C20, C27) is left out: there the calls are still serial (C35), with the answers of the wrapped matrix.")

claim("C93","proved",["C93_prefix","C93_moment","C93_cells","C93_between","C93_looks","C93_noticed","C93_empty_inner"],
  "The moments are those of the stepwise model (`Model/Steps.lean`), which runs as the operators do (`OpCall.steps_run`). Scalar and the reductions do not stop when cancelled: C34.")
claim("C94","proved",["C94_entries","C94_replay","C94_table","C94_sparse_vector","C94_reads"],
  "Negative, which maps its output in place, is not of this kind. What a sparse vector reads as after the writes is exact in C04_iff and C50_iff.")
claim("C95","proved",["C95_stops","C95_first","C95_all","C95_table","C95_sparse_vector"],
  "Negative, which maps its output in place, is not of this kind; what it leaves when cancelled: C33, C93.")
claim("C96","partial",["C96_again_partial","C96_exact","C96_subtract","C96_subtract_iff","C96_subtract_parity","C96_sparse_vector","C96_negative","C96_refuted_subtract","C96_refuted_negative","C96_refuted_sparse_vector"],
  "Holds for every operator except Subtract and Negative on matrices and dense vectors; false of Subtract and Negative, which work on what the cancelled call has left, and of sparse vectors as outputs, where the second call may enter a value once more. C96_exact: for every operator but Negative and every output, a sequence of calls cancelled anywhere does what each of them has got done, one after the other; from it C96_subtract (a cell is subtracted from the operand's value as often as calls have got to it; after one cancelled call wrong unless subtracting twice is subtracting once, C96_subtract_iff; over any ring a second call to a cell gives its old value back, C96_subtract_parity) and C96_sparse_vector (the history is prolonged by the writes of each call). Negative, over any ring: after any number of calls every cell has its old value or the negated one, a masked cell its old one (C96_negative).")
claim("C97","partial",["C97_equal_partial","C97_string","C97_strings","C97_less_partial","C97_compare","C97_compare_partial","C97_refuted_equal","C97_refuted_less","C97_refuted_compare"],"The exact answers of Equal, NotEqual, String, Less, Greater and Compare for every point of cancellation, operands in all states. Consequences: a yes of Equal, a no of NotEqual, a yes of Less and a -1 of Compare are right, and Compare gives +1 only to operands that are not equal. The claim in full is false and refuted for each of them: a cancelled Equal says no to equal operands, a cancelled Less says no and Greater yes to operands in the other order, Compare says 0 of different operands and +1 of a lesser one.")
claim("C98","partial",["C98_rejects_partial","C98_elementWise","C98_equal","C98_notEqual","C98_functions","C98_methods","C98_equal_methods","C98_same","C98_same_methods","C98_refuted"],"Holds for every operator and argument except the left operand of ElementWiseMatrixMultiply: Columns() of a nil *SparseVector answers 1, so that with a right operand of one row without values, and a type that is not registered, the call returns and has done nothing (refuted for int; C98_elementWise says exactly when). The methods Multiply, Add and Subtract panic (C98_methods), Equal and NotEqual as the functions do (C98_equal_methods).")
claim("C99","partial",["C99_add_partial","C99_add_iff","C99_subtract_partial","C99_subtract_iff","C99_apply_partial","C99_refuted_panic","C99_refuted_wrong","C99_refuted_hang","C99_refuted_apply"],"Proved when every zero is at the last stored element of its row (CSR) or column (CSC); on a one-row CSR or one-column CSC matrix this is exactly when Add and Subtract do not panic. Otherwise false: concrete matrices where the call panics, returns with wrong cells, or never returns. Subtract in place subtracts the output from itself, as in C54.")
claim("C100","proved",["C100_same","C100_client","C100_operators","C100_histories","C100_order","C100_rebuild","C100_refuted_sparse_vector","C100_refuted_order"],"Histories, order and rebuilding are for matrices and dense vectors, as stated. For sparse vectors the weaker hypothesis, that At answers alike, does not do (C100_refuted_sparse_vector), and the order of Set calls matters (C100_refuted_order).")
claim("C101","partial",["C101_fixed_partial","C101_cells","C101_sum","C101_quiet","Amid.C101_refuted"],"Proved for every operator that asks the mask about each cell once: multiplication with any aliasing; Add, Subtract, Transpose and the element-wise product unless the output is an operand they enumerate; Apply, also in place, and Negative unless they make zeros in a compressed output; the element-wise sum in place. False of the element-wise sum into a third object, which asks twice (C101_refuted); there each operand's value is written or not as the mask answers at a moment of its own, the left one's not after the right one's (C101_sum). C101_quiet: with a mask nobody changes the model is the ordinary one. A call on the mask happens at one moment (the lock); that the locked calls are so is C35 and C89.")
claim("C102","proved",["C102_power","C102_count","C102_total","C102_cyclic","C102_wraps"],"For dense matrices: products of compressed matrices differ from the mathematical product (C79). C102_wraps: with int8 the complete graph of 4 vertices has 1024 walks of 4 edges and the sum is 0, so the condition on the element type is needed.")
claim("C103","proved",["C103_element","C103_sound","C103_same","C103_types","C103_own","C103_complement"],"The model's masks have a case for any other value of the interface (its shape and its answers, panics included), so every theorem about operators with masks covers it. Such a mask answers a question alike whenever it is asked during one call; masks that change are in C101. C103_own and C103_complement: output apart from the operands and not a sparse vector, context not cancelled.")
claim("C104","proved",["C104_method","C104_action","C104_recover","C104_callback"],"Programs do not write through iterators (Tame); objects stand apart, as every object made by New and Copy does (C11). The struct fields of an object are assigned in the model when the method returns; since nothing is written or allocated before a panic, none is assigned before it either.")
claim("C105","proved",["C105_plain","C105_apart","C105_inplace","C105_inplace_sparse_vector","C105_rejected"],"The function does not itself use the objects of the call. Apply in place with answers that are 0 in a compressed format: C14 says what Map then does.")
claim("C106","proved",["C106_reduction","ReduceBy.C106_calls","ReduceBy.C106_answers","ReduceBy.C106_panics","ReduceBy.C106_finite","ReduceBy.C106_rejected","ReduceBy.C106_rejected_later","ReduceBy.C106_plain"],
  "The operation and the mask share no state. The calls after a rejected mask are possible, not certain: the runtime chooses between two closed channels.")
claim("C107", "partial", ["C107_dense", "C107_dense_vector", "C107_sparse_vector", "C107_csr_partial", "C107_csc_partial",
      "C107_csr_iff", "C107_csc_iff", "C107_pattern", "C107_plain", "C107_refuted", "C107_refuted_csc"],
      "Proved for dense matrices, dense vectors and sparse vectors. False for CSR and CSC matrices, which look up the position before calling the function and use it afterwards: another cell is overwritten, or the call panics. Right there exactly when the function leaves the cell zero or non-zero as it was and the number of non-zero cells before it the same (C107_csr_iff, C107_csc_iff); so for every function that only reads, or changes no cell from or to zero (C107_pattern).")
claim("C108", "proved", ["C108_search", "C108_returns", "C108_panics", "C108_plain", "C108_obstacles"],
      "What happens is stated round by round by the inductive relation Rounds (SpecSteer.lean). Search around obstacles under the condition of C36: no sum over shortest walks fails to be positive.")
claim("C109", "proved", ["C109_search", "C109_found", "C109_missed"],
      "The condition on the sums over shortest walks is that of C36. C109_missed is the concrete case of a reachable vertex that a cancelled search does not find.")
claim("C110", "partial", ["C110_dense", "C110_map_partial", "C110_ends_partial", "C110_sparse_vector_partial", "C110_refuted", "C110_zero_refuted"],
      "Full for dense matrices and vectors. In the formats that drop zeros, for functions that leave the same cells non-zero and answer something that is not zero, or, in the compressed formats, answer zero at the end of a line (C110_ends_partial); a function that answers zero earlier (C110_zero_refuted) or makes another cell of the line zero (C110_refuted) makes the loop run for ever. Sparse vectors: those At reads right (C04). The function does not move the iterator it is called by.")
claim("C111", "proved", ["C111_search", "C111_lost", "C111_kept", "C111_rounds", "C111_idle", "C111_indistinct"],
      "The condition on the sums over shortest walks is that of C36. C111_search is about predicates that look at the vector and cancel; C111_rounds (no condition on the sums) about those that also write, panic or do not return, round by round (RoundsCut, SpecSteer.lean). C111_indistinct is the concrete case of a reachable vertex.")

here = os.path.dirname(os.path.abspath(__file__))
CLAIMS.sort(key=lambda c: c["property"])
with open(os.path.join(here, "..", "MANIFEST.json"), "w") as f:
    json.dump({"claims": CLAIMS}, f, indent=1)
    f.write("\n")
