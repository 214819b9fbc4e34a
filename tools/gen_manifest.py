#!/usr/bin/env python3
"""Write MANIFEST.json.  CLAIMS: property -> (status, theorems, note)."""
import json, os
HERE = os.path.dirname(os.path.abspath(__file__))
CLAIMS = {
 "C01": ("proved", ["Verif.C01_read"], "All i32 indices, any scalar type."),
 "C02": ("proved", ["Verif.C02_write", "Verif.C02_write_data"], "All i32 indices, any scalar type."),
 "C03": ("proved", ["Verif.C03_read", "Verif.C03_write"], ""),
 "C04": ("proved", ["Verif.C04_read_release", "Verif.C04_read_debug", "Verif.C04_write_release", "Verif.C04_write_debug", "Verif.C04_aliasing"], "Any scalar type."),
 "C05": ("proved", ["Verif.C05_roundtrip", "Verif.C05_read", "Verif.C05_read2"], ""),
 "C06": ("proved", ["Verif.C06_rectangular", "Verif.C06_roundtrip_square", "Verif.C06_nonsquare_differs", "Verif.C06_panic", "Verif.C06_panic_1d"], "Any scalar type."),
 "C07": ("proved", ["Verif.C07_from1", "Verif.C07_from2", "Verif.C07_from2_release", "Verif.C07_from2_debug"], ""),
 "C08": ("proved", ["Verif.C08_vector", "Verif.C08_matrix", "Verif.C08_all_elements"], "Formatting of a single f64 is not modelled."),
 "C09": ("proved", ["Verif.C09_matrix", "Verif.C09_zeros", "Verif.C09_vector", "Verif.C09_single"], ""),
 "C10": ("proved", ["Verif.C10_dcopy", "Verif.C10_dcopy_nonzero"], ""),
 "C11": ("proved", ["Verif.C11_dcopy_nonpos", "Verif.C11_dcopy_short", "Verif.C11_dcopy_sequential", "Verif.C11_sequential_example"], ""),
 "C12": ("proved", ["Verif.C12_dscal_any_length", "Verif.C12_dscal", "Verif.C12_dscal_overflow_debug"], ""),
 "C13": ("proved", ["Verif.C13_dscal_noop"], ""),
 "C14": ("proved", ["Verif.C14_drot", "Verif.C14_drot_nonpos", "Verif.C14_drot_sequential", "Verif.C14_sequential_example"], ""),
 "C19": ("proved", ["Verif.C19_lsame_ascii", "Verif.C19_lsame_equiv", "Verif.C19_lsame_aliasing"], ""),
 "C20": ("proved", ["Verif.C20_dgemm"], "Exact arithmetic."),
 "C21": ("proved", ["Verif.C24_dgemm", "Verif.C24_dgemm_array", "Verif.C24_dgemm_nested"], "The frame part of the predicate Updated."),
 "C22": ("proved", ["Verif.C22_dgemm_illegal", "Verif.C22_dgemm_illegal_nested", "Verif.C22_dgemm_illegal_flat", "Verif.C22_dgemm_zero_ld", "Verif.C22_dgemm_legal"], "Flags up to U+00FF; lsame aliases above (C19)."),
 "C23": ("proved", ["Verif.C23_beta_zero", "Verif.C23_beta_zero_array", "Verif.C23_beta_zero_nested", "Verif.C23_alpha_zero", "Verif.C23_alpha_zero_array", "Verif.C23_alpha_zero_nested", "Verif.C23_unchanged", "Verif.C23_unchanged_array", "Verif.C23_unchanged_nested"], ""),
 "C24": ("proved", ["Verif.C24_dgemm", "Verif.C24_dgemm_array", "Verif.C24_dgemm_nested"], "Any scalar type; nested vectors for square shapes."),
 "C25": ("proved", ["Verif.C25_dtrmm", "Verif.C25_dtrmm_nested"], "Exact arithmetic, FortranArray arguments and square nested vectors."),
 "C26": ("proved", ["Verif.C26_dtrmm", "Verif.C26_dtrmm_nested", "Verif.C26_nested_example"], "Any scalar type, FortranArray arguments and square nested vectors."),
 "C27": ("proved", ["Verif.C27_dtrmm_illegal", "Verif.C27_dtrmm_legal", "Verif.C27_empty", "Verif.C27_alpha_zero"], "Flags up to U+00FF; all container kinds for the argument check."),
 "C28": ("proved", ["Verif.C28_flat_tail", "Verif.C28_flat_wrong"], "Any scalar type."),
 "C29": ("proved", ["Verif.C29_dlacpy", "Verif.C29_dlacpy_array", "Verif.C29_dlacpy_nested", "Verif.C29_dlacpy_nonpos", "Verif.C29_upper_refuted", "Verif.C29_lower_spills"], "Any scalar type. The two last theorems record where the selection differs from reference LAPACK."),
 "C30": ("proved", ["Verif.C30_dlaset_array", "Verif.C30_dlaset_nested", "Verif.C30_dlaset_flat", "Verif.C30_upper_refuted"], "Any scalar type."),
 "C15": ("proved", ["Verif.C15_drot_isometry"], "Exact arithmetic."),
 "C16": ("proved", ["Verif.C16_dnrm2", "Verif.C16_dnrm2_euclid", "Verif.C16_dnrm2_mixed"], "Exact arithmetic; the mixed case has the error bound of C16_dnrm2_mixed."),
 "C32": ("proved", ["Verif.C32_dlapy2", "Verif.C32_dlapy2_huge"], "Exact arithmetic."),
 "C34": ("proved", ["Verif.C34_dlarfg"], "Exact arithmetic."),
 "C35": ("proved", ["Verif.C35_dlarfg_small", "Verif.C35_dlarfg_zero", "Verif.C35_rescale_bound", "Verif.C35_dlarfg_returns"], ""),
 "C36": ("proved", ["Verif.C36_dlaqr1", "Verif.C36_dlaqr1_other"], "Exact arithmetic for the column; any scalar type for the no-op."),
 "C37": ("proved", ["Verif.C37_dlanv2_factors", "Verif.C37_dlanv2_standard", "Verif.C37_dlanv2_exception"], "Exact arithmetic."),
 "C38": ("proved", ["Verif.C38_dlanv2_eigenvalues", "Verif.C38_dlanv2_exception"], "Exact arithmetic."),
 "C17": ("proved", ["Verif.C17_dnrm2_empty", "Verif.C17_dnrm2_zero", "Verif.C17_dnrm2_nan", "Verif.C17_dnrm2_inf", "Verif.C17_inf_example"], "IEEE binary64 (Lean Float)."),
 "C18": ("proved", ["Verif.C18_dnrm2_overflow"], "IEEE binary64 (Lean Float)."),
 "C31": ("proved", ["Verif.C31_dlamch_values", "Verif.C31_dlamch_precision", "Verif.C31_dlamch_range"], "IEEE binary64 (Lean Float)."),
 "C33": ("proved", ["Verif.C33_dlapy2_nan", "Verif.C33_dlapy2_inf", "Verif.C33_dlapy2_sign", "Verif.C33_dlapy2_comm", "Verif.C33_dlapy2_zero"], "IEEE binary64 (Lean Float)."),
 "C39": ("proved", ["Verif.C39_ieeeck_f64"], "IEEE binary64 (Lean Float)."),
 "C47": ("proved", ["Verif.C47_dlapy2_accuracy", "Verif.C47_dlapy2_overflow", "Verif.C47_dlapy2_ge"], "IEEE binary64 (Lean Float)."),
 "C48": ("proved", ["Verif.C48_dnrm2_tiny"], "IEEE binary64 (Lean Float)."),
 "C49": ("proved", ["Verif.C49_dlahqr_backward"], "Exact arithmetic; FortranArray matrices, Vec eigenvalues."),
 "C50": ("proved", ["Verif.C50_dlahqr_no_panic"], "Exact arithmetic."),
 "C51": ("proved", ["Verif.C51_dlahqr_eigenvalues"], "Exact arithmetic."),
 "C52": ("proved", ["Verif.C52_dlahqr_two_iff", "Verif.C52_dlahqr_two_by_two", "Verif.C52_both", "Verif.C52_dlahqr_quarter"], "Exact arithmetic; the last two theorems are concrete instances."),
 "C53": ("proved", ["Verif.C53_eq", "Verif.C53_slot", "Verif.F64.C53_refl", "Verif.F64.C53_symm", "Verif.F64.C53_trans"], "First two: any scalar type; the laws: IEEE binary64 (Lean Float)."),
 "C54": ("proved", ["Verif.C54_dlahqr_without_z", "Verif.C54_dlaqr5_without_z", "Verif.C54_example", "Verif.C54_dlaqr5_example"], "Any scalar type; the last two theorems are concrete f64 instances of the hypothesis."),
 "C55": ("proved", ["Verif.C55_dlahqr_fuel"], "Any scalar type."),
 "C56": ("proved", ["Verif.C56_dlaqr5_many_shifts"], "Any scalar type; FortranArray matrices, Vec shifts."),
 "C57": ("proved", ["Verif.C57_dlaqr5_sweep", "Verif.C57_dlaqr5_sweep_z", "Verif.C57_example"], "Exact arithmetic; FortranArray matrices, Vec shifts. v must hold finite numbers; the second theorem covers calls with z that return."),
 "C58": ("proved", ["Verif.C58_dlaqr5_z_without_accumulation"], "IEEE binary64, evaluated by the kernel. Refutes the expected property; the positive statement for kacc22 = 1 or 2 is C59."),
 "C59": ("proved", ["Verif.C59_dlaqr5_accumulated", "Verif.C59_example"], "Exact arithmetic; FortranArray matrices, Vec shifts. v must hold finite numbers."),
 "C60": ("proved", ["Verif.C60_dlahqr_eigenvalues_only"], "IEEE binary64, evaluated by the kernel. Refutes the expected property."),
 "C61": ("proved", ["Verif.C61_dlahqr_schur_form"], "IEEE binary64, evaluated by the kernel. Refutes the expected property; C49 is what holds."),
 "C62": ("proved", ["Verif.C62_dlahqr_nested", "Verif.C62_dlahqr_flat"], "First theorem: any scalar type. Second: IEEE binary64, a counterexample evaluated by the kernel."),
 "C63": ("proved", ["Verif.C63_dgemm_f64", "Verif.C63_dgemm_f64_array", "Verif.C63_dgemm_f64_nested", "Verif.C63_dgemm_no_overflow", "Verif.C63_example"], "IEEE binary64 (Lean Float)."),
 "C64": ("proved", ["Verif.C64_dtrmm_f64", "Verif.C64_dtrmm_f64_nested", "Verif.C64_dtrmm_no_overflow", "Verif.C64_example"], "IEEE binary64 (Lean Float)."),
 "C65": ("proved", ["Verif.C65_dnrm2_f64", "Verif.C65_dnrm2_f64_simple", "Verif.NormAccurate.rel_simple", "Verif.C65_example"], "IEEE binary64 (Lean Float)."),
 "C66": ("proved", ["Verif.C66_dlarfg_f64", "Verif.C66_dlarfg_f64_simple", "Verif.C66_example"], "IEEE binary64 (Lean Float)."),
 "C67": ("proved", ["Verif.C67_dlahqr_never_succeeds", "Verif.F64.C67_dlahqr_never_succeeds_f64", "Verif.C67_dlahqr_never_succeeds_exact", "Verif.C67_dlahqr_never_succeeds_nested", "Verif.F64.C67_example"], "Any scalar type; then binary64 and exact arithmetic; the last theorem is a concrete instance."),
 "C68": ("proved", ["Verif.C68_dlahqr_exact_shift", "Verif.C68_dlahqr_exact_pair", "Verif.C68_example_shift", "Verif.C68_example_pair"], "Exact arithmetic, Frobenius norm at most 2^500; the last two theorems are concrete instances."),
 "C69": ("proved", ["Verif.C69_dlahqr_safe", "Verif.C69_dlahqr_safe_values", "Verif.C69_dlahqr_safe_nested"], "Any scalar type."),
 "C70": ("proved", ["Verif.C70_dlaqr5_safe", "Verif.C70_dlaqr5_safe_accumulated"], "Any scalar type."),
 "C71": ("proved", ["Verif.C71_dlaqr5_zero_subdiagonal", "Verif.C71_dlaqr5_underflow"], "f64 runs evaluated by the kernel."),
 "C72": ("proved", ["Verif.C72_dlaqr5_two_shifts", "Verif.C72_dlaqr5_three_shifts", "Verif.C72_dlaqr5_three_real_shifts"], "Any scalar type; equation between calls (normal returns and panics alike)."),
 "C73": ("proved", ["Verif.C73_dlaqr5_deflates", "Verif.C73_dlaqr5_deflates_all"], "Any scalar type. The criterion is written out in Spec (deflScale, ahuesTisseur, ahuesTisseurDiag)."),
 "C74": ("proved", ["Verif.C74_drot_f64", "Verif.C74_dscal_f64"], "IEEE binary64 (Lean Float)."),
 "C75": ("proved", ["Verif.C75_dlaqr1_f64"], "IEEE binary64 (Lean Float)."),
 "C76": ("proved", ["Verif.C76_dlanv2_f64", "Verif.C76_dlanv2_f64_exception"], "IEEE binary64 (Lean Float)."),
 "C77": ("proved", ["Verif.C77_dlahqr_backward_f64", "Verif.C77_dlahqr_backward_nested", "Verif.C77_example", "Verif.C77_nested_example"], "Arrays and square nested vectors. IEEE binary64 (Lean Float). Whether a call returns is the subject of C44, C52, C67, C69."),
 "C78": ("proved", ["Verif.C78_dlaqr5_backward_stable", "Verif.C78_dlaqr5_backward_stable_z", "Verif.C78_example"], "IEEE binary64 (Lean Float). C71 shows what happens when the bulge collapses, which is why the subdiagonal elements of a longer block must be clear of underflow."),
 "C79": ("proved", ["Verif.C79_dlaqr5_flat", "Verif.C79_dlaqr5_nested"], "So every statement about dlaqr5 on arrays (C56, C57, C59, C70-C73, C78) holds for flat vectors as well."),
 "C80": ("proved", ["Verif.C80_dlaqr5_accumulated_f64", "Verif.C80_example"], "IEEE binary64 (Lean Float). Accumulation with ldz = ldh, where the code reads z with the leading dimension of h."),
 "C81": ("proved", ["Verif.C81_dlahqr_order_two", "Verif.C81_schur_form_iff", "Verif.C81_example"], "First theorem: any scalar arithmetic, so also f64. Generalises C61. When the call returns is C52."),
 "C82": ("proved", ["Verif.C82_dlaqr5_z_spoilt", "Verif.C82_next_column", "Verif.C82_last_column", "Verif.C82_example"], "Explains C58: the loop over bulges for z runs from mbot to mtop in the wrong order, so at the last step, where mbot = 0 and it should be empty, it runs over m = 1 and m = 0. With accumulation z is right (C59)."),
 "C83": ("proved", ["Verif.C83_dlahqr_eigenvalues", "Verif.C83_dlahqr_eigenvalues_f64", "Verif.C83_dlahqr_returns_f64", "Verif.C83_example"], "The positive counterpart of C60: for blocks of order two the eigenvalue-only mode is right. The bound C76 needs on the lower left entry is discharged by C44: below it the call does not return."),
 "C84": ("proved", ["Verif.C84_dlarfg_tau", "Verif.C84_tau_infinite", "Verif.C84_example"], "C66 gives the same bounds, with accuracy, for moderate data; C84 has no hypotheses on the data."),
 "C85": ("proved", ["Verif.C85_dgemm_block", "Verif.C85_dgemm_transposed_b", "Verif.C85_dgemm_split_k", "Verif.C85_dgemm_split_k_f64", "Verif.C85_split_transposed", "Verif.C85_dtrmm_column", "Verif.C85_dtrmm_row"], "dgemm on lists with offsets (drop), dtrmm on arrays."),
 "C86": ("proved", ["Verif.C86_dlaqr5_rows", "Verif.C86_dlaqr5_wrong", "Verif.C86_example"], "The hypothesis ldz = ldh of C59, C70 and C80 is therefore necessary."),
 "C87": ("proved", ["Verif.C87_dlaset_reshapes", "Verif.C87_dlacpy_reshapes", "Verif.C87_dgemm_reshapes", "Verif.C87_dtrmm_reshapes", "Verif.C87_shape_lost", "Verif.C87_example"], "For dtrmm the statement is about runs that return, with alpha different from 0. C06 is the conversion alone."),
 "C88": ("proved", ["Verif.C88_dgemm_nan", "Verif.C88_dtrmm_left_nan", "Verif.C88_dtrmm_right_nan", "Verif.C88_dtrmm_left_skips", "Verif.C88_dtrmm_right_skips", "Verif.C88_examples"], "dgemm on flat vectors, dtrmm on arrays."),
 "C89": ("proved", ["Verif.C89_dlahqr_nan", "Verif.C89_dlahqr_one_nan", "Verif.C89_dlahqr_nan_nested", "Verif.C89_example"], "Arrays, and square nested vectors. Tiny means at most dlamch(S) * ((ihi-ilo+1) / dlamch(P)), as in the code."),
 "C90": ("proved", ["Verif.C90_dlahqr_reads_block", "Verif.C90_dlahqr_writes_block", "Verif.C90_dlahqr_nested", "Verif.C90_dlahqr_fourth_diagonal", "Verif.C90_dlahqr_values_only", "Verif.C90_example"], "Arrays, and square nested vectors."),
 "C91": ("proved", ["Verif.C91_dlaqr5_reads_block", "Verif.C91_dlaqr5_writes_block", "Verif.C91_dlaqr5_third_diagonal", "Verif.C91_example", "Verif.C91_dlaqr5_reads_block_accumulated", "Verif.C91_dlaqr5_writes_block_accumulated", "Verif.C91_accumulated_example"], "Arrays; with accumulation the leading dimensions of h and z are equal, as the code requires."),
 "C92": ("proved", ["Verif.C92_dgemm_message", "Verif.C92_dgemm_message_nested", "Verif.C92_dgemm_message_flat", "Verif.C92_dgemm_silent", "Verif.C92_dtrmm_message", "Verif.C92_dtrmm_silent", "Verif.C92_text_injective", "Verif.C92_example"], "Characters are below U+0100; dtrmm for every container."),
 "C93": ("proved", ["Verif.C93_dlaqr5_scratch", "Verif.C93_dlaqr5_scratch_accumulated", "Verif.C93_dlaqr5_scratch_f64", "Verif.C93_dlaqr5_stale_v", "Verif.C93_example"], "Four or more shifts: the code panics or fails for other reasons, not covered."),
 "C94": ("proved", ["Verif.C94_dlaqr5_wantt", "Verif.C94_example", "Verif.C94_dlaqr5_wantt_accumulated", "Verif.C94_accumulated_example"], "Arrays; with accumulation the leading dimensions of h and z are equal, as the code requires."),
 "C95": ("proved", ["Verif.C95_dgemm_dot", "Verif.C95_dgemm_storage", "Verif.C95_dgemm_transposed", "Verif.C95_example", "Verif.C95_scaled_differs", "Verif.C95_dgemm_dot_array", "Verif.C95_dgemm_dot_nested", "Verif.C95_dgemm_storage_array", "Verif.C95_dgemm_storage_nested"], "All NaN count as one value, as in the whole model. Flat vectors, arrays and nested vectors."),
 "C96": ("proved", ["Verif.C96_dgemm_integers", "Verif.C96_example", "Verif.C96_bound_needed", "Verif.C96_dgemm_integers_array", "Verif.C96_dgemm_integers_nested"], "Flat vectors, arrays and nested vectors."),
 "C97": ("proved", ["Verif.C97_dgemm_select_rows", "Verif.C97_dgemm_select_columns", "Verif.C97_example", "Verif.C97_infinity", "Verif.C97_dgemm_select_rows_array", "Verif.C97_dgemm_select_rows_nested", "Verif.C97_dgemm_select_columns_array", "Verif.C97_dgemm_select_columns_nested", "Verif.C97_nested_example"], "Flat vectors, arrays and nested vectors."),
 "C98": ("proved", ["Verif.C98_dtrmm_integers", "Verif.C98_dtrmm_integers_nested", "Verif.C98_example", "Verif.C98_meets", "Verif.C98_bound_needed"], "Arrays and nested vectors; on flat vectors dtrmm does not compute the product (C28)."),
 "C99": ("proved", ["Verif.C99_dnrm2_signs", "Verif.C99_dnrm2_signs_array", "Verif.C99_dlarfg_negated", "Verif.C99_dlarfg_trivial", "Verif.C99_example", "Verif.C99_meets", "Verif.C99_alpha_alone"], ""),
 "C100": ("proved", ["Verif.C100_dgemm_negated", "Verif.C100_dgemm_negated_array", "Verif.C100_dgemm_negated_nested", "Verif.C100_dgemm_both", "Verif.C100_dgemm_both_array", "Verif.C100_dgemm_both_nested", "Verif.C100_dtrmm_negated", "Verif.C100_dtrmm_negated_nested", "Verif.C100_drot_negated", "Verif.C100_example", "Verif.C100_dtrmm_example", "Verif.C100_zero"], "On flat vectors dtrmm does not compute the product (C28)."),
 "C101": ("proved", ["Verif.C101_dlaqr1_signs", "Verif.C101_dlaqr1_conjugate", "Verif.C101_example", "Verif.C101_meets"], ""),
 "C102": ("proved", ["Verif.C102_ilaenv_real", "Verif.C102_ilaenv_complex", "Verif.C102_ilaenv_foreign", "Verif.C102_examples"], "The tables are Verif.Spec.blockReal, blockComplex, minReal, minComplex, crossReal, crossComplex. Names that start with a lower-case letter: C40."),
 "C103": ("proved", ["Verif.C103_dscal_exact", "Verif.C103_dscal_back", "Verif.C103_drot", "Verif.C103_dgemm", "Verif.C103_dgemm_array", "Verif.C103_dgemm_nested", "Verif.C103_dlapy2", "Verif.C103_dtrmm_left", "Verif.C103_dtrmm_right", "Verif.C103_dscal_example", "Verif.C103_dscal_underflow", "Verif.C103_dgemm_example", "Verif.C103_dlapy2_example", "Verif.C103_dtrmm_example"], "The relation Verif.F64.Sc k x y says that both numbers are finite and that the value of y is 2^k times that of x; Verif.F64.NoUnderflow that a real number is zero or at least the smallest normal number."),
 "C104": ("proved", ["Verif.C104_dnrm2", "Verif.C104_dlarfg", "Verif.C104_dnrm2_example", "Verif.C104_dlarfg_example", "Verif.C104_range"], "The range is Verif.Spec.MidRange. A vector x whose norm is zero: C35."),
 "C105": ("proved", ["Verif.C105_dtrmm_sides", "Verif.C105_example", "Verif.C105_alpha", "Verif.C105_infinite"], "Arrays (FortranArray). Flat vectors: C28."),
 "C106": ("proved", ["Verif.C106_dnrm2_zeros", "Verif.C106_dgemm_zeros", "Verif.C106_dnrm2_example", "Verif.C106_dgemm_example", "Verif.C106_infinite"], ""),
 "C107": ("proved", ["Verif.C107_left", "Verif.C107_right", "Verif.C107_example", "Verif.C107_other_order"], "Arrays (FortranArray). From the right only B has to be finite: dtrmm leaves out a zero entry of A, and no other entry of A meets a zero."),
 "C108": ("proved", ["Verif.C108_dgemm", "Verif.C108_dgemm_array", "Verif.C108_dgemm_order", "Verif.C108_dnrm2", "Verif.C108_dgemm_example", "Verif.C108_dnrm2_example", "Verif.C108_dtrmm_left", "Verif.C108_dtrmm_right", "Verif.C108_dtrmm_example"], "Nothing is claimed for dnrm2 on elements outside the range, where elements are summed in up to three accumulators."),
 "C109": ("proved", ["Verif.C109_dnrm2_ge", "Verif.C109_dnrm2_single", "Verif.C109_example", "Verif.C109_outside"], "The range is that of the medium accumulator of dnrm2; nothing is claimed for vectors with other elements except the counterexample."),
 "C110": ("proved", ["Verif.C110_dlapy2_smaller", "Verif.C110_example", "Verif.C110_dlapy2_larger", "Verif.C110_dlapy2_equal", "Verif.C110_dlapy2_upper", "Verif.C110_upper_example"], "The failure for the larger argument is a theorem about two concrete numbers, evaluated by the kernel."),
 "C111": ("proved", ["Verif.C111_symmetric", "Verif.C111_symmetric_array", "Verif.C111_symmetric_nested", "Verif.C111_diagonal", "Verif.C111_same_array", "Verif.C111_example", "Verif.C111_not_symmetric"], "Flat vectors, arrays and nested vectors (the diagonal: flat vectors). The failure is a theorem about one concrete input, evaluated by the kernel."),
 "C112": ("proved", ["Verif.C112_dlarfg", "Verif.C112_example", "Verif.C112_sharp"], "The range is the one in which dlarfg does not rescale and dnrm2 uses one accumulator."),
 "C113": ("proved", ["Verif.C113_dscal", "Verif.C113_example"], "Flat vectors; elements that are not visited do not change (C12)."),
 "C114": ("proved", ["Verif.C114_dgemm", "Verif.C114_dgemm_array", "Verif.C114_dgemm_scaled", "Verif.C114_dtrmm_left", "Verif.C114_dtrmm_right", "Verif.C114_drot", "Verif.C114_dgemm_example", "Verif.C114_dtrmm_example", "Verif.C114_drot_example", "Verif.C114_scaled_example"], "Nothing is claimed where the bound itself overflows. drot on flat vectors."),
 "C115": ("proved", ["Verif.C115_dnrm2", "Verif.C115_dgemm", "Verif.C115_dnrm2_example", "Verif.C115_dgemm_example", "Verif.C115_signs"], "dnrm2 and dgemm on flat vectors. C115_signs shows that the signs of the factors matter."),
 "C116": ("proved", ["Verif.C116_dlanv2_again", "Verif.C116_dlanv2_eigenvalues", "Verif.C116_example", "Verif.C116_overflow"], "C116_overflow shows that the condition is needed."),
 "C117": ("proved", ["Verif.C117_drot", "Verif.C117_dscal", "Verif.C117_drot_example", "Verif.C117_dscal_example"], "Flat vectors. Lean has one NaN; payloads are not modelled."),
 "C118": ("proved", ["Verif.C118_dlahqr_again", "Verif.C118_example", "Verif.C118_real_example"], "Arrays for h and z, flat vectors for wr and wi. Outside the block the second call multiplies by the identity rotation; nothing is claimed there."),
 "C119": ("proved", ["Verif.C119_dlaqr1", "Verif.C119_example", "Verif.C119_meets", "Verif.C119_three"], "Flat vectors. The range is sufficient, not necessary: differences of the arguments are then multiples of 2^-252, so no quotient and no product can underflow."),
 "C120": ("proved", ["Verif.C120_drot_direction", "Verif.C120_dcopy_direction", "Verif.C120_drot_exchange", "Verif.C120_drot_direction_array", "Verif.C120_example", "Verif.C120_one_increment"], "Flat vectors; the index computations stay within i32 as in C14."),
 "C121": ("proved", ["Verif.C121_dlacpy_parts", "Verif.C121_dlacpy_again", "Verif.C121_example", "Verif.C121_wide"], "Flat vectors."),
 "C122": ("proved", ["Verif.C122_dlaset_last", "Verif.C122_dlaset_last_array", "Verif.C122_example", "Verif.C122_other_part"], "For arrays the shape and the stored data are compared."),
 "C123": ("proved", ["Verif.C123_dnrm2", "Verif.C123_dscal", "Verif.C123_dcopy", "Verif.C123_dcopy_nested", "Verif.C123_drot", "Verif.C123_dlarfg", "Verif.C123_dscal_nested", "Verif.C123_dcopy_into_nested", "Verif.C123_drot_nested", "Verif.C123_example", "Verif.C123_example_panics"], "Sim (Lib/Sim.lean) says: the same outcome in both profiles, and related values if both return. Which shape a nested vector comes back in is C87."),
 "C40": ("proved", ["Verif.C40_ilaenv_range", "Verif.C40_ilaenv_fixed", "Verif.C40_ilaenv_tuning", "Verif.C40_ilaenv_panic", "Verif.C40_ilaenv_bytes", "Verif.C40_ilaenv_bounds", "Verif.C40_ilaenv_case", "Verif.C40_ilaenv_mixed", "Verif.C40_ilaenv_svd", "Verif.C40_ilaenv_iparmq", "Verif.C40_ilaenv_block", "Verif.C40_ilaenv_trsyl", "Verif.C40_ilaenv_crossover"], ""),
 "C41": ("proved", ["Verif.C41_iparmq", "Verif.C41_iparmq_acc22", "Verif.C41_iparmq_panic", "Verif.C41_iparmq_bytes", "Verif.C41_iparmq_overflow"], ""),
 "C42": ("proved", ["Verif.C42_dlahqr_empty", "Verif.C42_dlahqr_one"], "Any scalar type."),
 "C43": ("proved", ["Verif.C43_dlahqr_frame"], "Any scalar type; FortranArray matrices, Vec eigenvalues."),
 "C44": ("proved", ["Verif.C44_dlahqr_diverges", "Verif.F64.C44_dlahqr_diverges_f64", "Verif.F64.C44_dlahqr_triangular_f64"], "Any scalar type, and IEEE binary64."),
 "C45": ("proved", ["Verif.C45_dlaqr5_trivial", "Verif.C45_dlaqr5_zero_ld", "Verif.C45_dlaqr5_frame"], "Any scalar type."),
 "C46": ("proved", ["Verif.C46_dcopy", "Verif.C46_dscal", "Verif.C46_drot", "Verif.C46_dnrm2", "Verif.C46_dgemm", "Verif.C46_dtrmm", "Verif.C46_dlacpy", "Verif.C46_dlaset", "Verif.C46_dlarfg", "Verif.C46_dscal_differs"], "Any scalar type."),
}
if __name__ == "__main__":
    claims = [{"property": k, "status": s, "theorems": t, "note": n} for k, (s, t, n) in sorted(CLAIMS.items())]
    with open(os.path.join(HERE, "..", "MANIFEST.json"), "w") as f:
        json.dump({"claims": claims}, f, indent=1); f.write("\n")
