{
 "claims": [
  {
   "property": "C01",
   "status": "proved",
   "theorems": [
    "Verif.C01_read"
   ],
   "note": "All i32 indices, any scalar type."
  },
  {
   "property": "C02",
   "status": "proved",
   "theorems": [
    "Verif.C02_write",
    "Verif.C02_write_data"
   ],
   "note": "All i32 indices, any scalar type."
  },
  {
   "property": "C03",
   "status": "proved",
   "theorems": [
    "Verif.C03_read",
    "Verif.C03_write"
   ],
   "note": ""
  },
  {
   "property": "C04",
   "status": "proved",
   "theorems": [
    "Verif.C04_read_release",
    "Verif.C04_read_debug",
    "Verif.C04_write_release",
    "Verif.C04_write_debug",
    "Verif.C04_aliasing"
   ],
   "note": "Any scalar type."
  },
  {
   "property": "C05",
   "status": "proved",
   "theorems": [
    "Verif.C05_roundtrip",
    "Verif.C05_read",
    "Verif.C05_read2"
   ],
   "note": ""
  },
  {
   "property": "C06",
   "status": "proved",
   "theorems": [
    "Verif.C06_rectangular",
    "Verif.C06_roundtrip_square",
    "Verif.C06_nonsquare_differs",
    "Verif.C06_panic",
    "Verif.C06_panic_1d"
   ],
   "note": "Any scalar type."
  },
  {
   "property": "C07",
   "status": "proved",
   "theorems": [
    "Verif.C07_from1",
    "Verif.C07_from2",
    "Verif.C07_from2_release",
    "Verif.C07_from2_debug"
   ],
   "note": ""
  },
  {
   "property": "C08",
   "status": "proved",
   "theorems": [
    "Verif.C08_vector",
    "Verif.C08_matrix",
    "Verif.C08_all_elements"
   ],
   "note": "Formatting of a single f64 is not modelled."
  },
  {
   "property": "C09",
   "status": "proved",
   "theorems": [
    "Verif.C09_matrix",
    "Verif.C09_zeros",
    "Verif.C09_vector",
    "Verif.C09_single"
   ],
   "note": ""
  },
  {
   "property": "C10",
   "status": "proved",
   "theorems": [
    "Verif.C10_dcopy",
    "Verif.C10_dcopy_nonzero"
   ],
   "note": ""
  },
  {
   "property": "C100",
   "status": "proved",
   "theorems": [
    "Verif.C100_dgemm_negated",
    "Verif.C100_dgemm_negated_array",
    "Verif.C100_dgemm_negated_nested",
    "Verif.C100_dgemm_both",
    "Verif.C100_dgemm_both_array",
    "Verif.C100_dgemm_both_nested",
    "Verif.C100_dtrmm_negated",
    "Verif.C100_dtrmm_negated_nested",
    "Verif.C100_drot_negated",
    "Verif.C100_example",
    "Verif.C100_dtrmm_example",
    "Verif.C100_zero"
   ],
   "note": "On flat vectors dtrmm does not compute the product (C28)."
  },
  {
   "property": "C101",
   "status": "proved",
   "theorems": [
    "Verif.C101_dlaqr1_signs",
    "Verif.C101_dlaqr1_conjugate",
    "Verif.C101_example",
    "Verif.C101_meets"
   ],
   "note": ""
  },
  {
   "property": "C102",
   "status": "proved",
   "theorems": [
    "Verif.C102_ilaenv_real",
    "Verif.C102_ilaenv_complex",
    "Verif.C102_ilaenv_foreign",
    "Verif.C102_examples"
   ],
   "note": "The tables are Verif.Spec.blockReal, blockComplex, minReal, minComplex, crossReal, crossComplex. Names that start with a lower-case letter: C40."
  },
  {
   "property": "C103",
   "status": "proved",
   "theorems": [
    "Verif.C103_dscal_exact",
    "Verif.C103_dscal_back",
    "Verif.C103_drot",
    "Verif.C103_dgemm",
    "Verif.C103_dgemm_array",
    "Verif.C103_dgemm_nested",
    "Verif.C103_dlapy2",
    "Verif.C103_dtrmm_left",
    "Verif.C103_dtrmm_right",
    "Verif.C103_dscal_example",
    "Verif.C103_dscal_underflow",
    "Verif.C103_dgemm_example",
    "Verif.C103_dlapy2_example",
    "Verif.C103_dtrmm_example"
   ],
   "note": "The relation Verif.F64.Sc k x y says that both numbers are finite and that the value of y is 2^k times that of x; Verif.F64.NoUnderflow that a real number is zero or at least the smallest normal number."
  },
  {
   "property": "C104",
   "status": "proved",
   "theorems": [
    "Verif.C104_dnrm2",
    "Verif.C104_dlarfg",
    "Verif.C104_dnrm2_example",
    "Verif.C104_dlarfg_example",
    "Verif.C104_range"
   ],
   "note": "The range is Verif.Spec.MidRange. A vector x whose norm is zero: C35."
  },
  {
   "property": "C105",
   "status": "proved",
   "theorems": [
    "Verif.C105_dtrmm_sides",
    "Verif.C105_example",
    "Verif.C105_alpha",
    "Verif.C105_infinite"
   ],
   "note": "Arrays (FortranArray). Flat vectors: C28."
  },
  {
   "property": "C106",
   "status": "proved",
   "theorems": [
    "Verif.C106_dnrm2_zeros",
    "Verif.C106_dgemm_zeros",
    "Verif.C106_dnrm2_example",
    "Verif.C106_dgemm_example",
    "Verif.C106_infinite"
   ],
   "note": ""
  },
  {
   "property": "C107",
   "status": "proved",
   "theorems": [
    "Verif.C107_left",
    "Verif.C107_right",
    "Verif.C107_example",
    "Verif.C107_other_order"
   ],
   "note": "Arrays (FortranArray). From the right only B has to be finite: dtrmm leaves out a zero entry of A, and no other entry of A meets a zero."
  },
  {
   "property": "C108",
   "status": "proved",
   "theorems": [
    "Verif.C108_dgemm",
    "Verif.C108_dgemm_array",
    "Verif.C108_dgemm_order",
    "Verif.C108_dnrm2",
    "Verif.C108_dgemm_example",
    "Verif.C108_dnrm2_example",
    "Verif.C108_dtrmm_left",
    "Verif.C108_dtrmm_right",
    "Verif.C108_dtrmm_example"
   ],
   "note": "Nothing is claimed for dnrm2 on elements outside the range, where elements are summed in up to three accumulators."
  },
  {
   "property": "C109",
   "status": "proved",
   "theorems": [
    "Verif.C109_dnrm2_ge",
    "Verif.C109_dnrm2_single",
    "Verif.C109_example",
    "Verif.C109_outside"
   ],
   "note": "The range is that of the medium accumulator of dnrm2; nothing is claimed for vectors with other elements except the counterexample."
  },
  {
   "property": "C11",
   "status": "proved",
   "theorems": [
    "Verif.C11_dcopy_nonpos",
    "Verif.C11_dcopy_short",
    "Verif.C11_dcopy_sequential",
    "Verif.C11_sequential_example"
   ],
   "note": ""
  },
  {
   "property": "C110",
   "status": "proved",
   "theorems": [
    "Verif.C110_dlapy2_smaller",
    "Verif.C110_example",
    "Verif.C110_dlapy2_larger",
    "Verif.C110_dlapy2_equal",
    "Verif.C110_dlapy2_upper",
    "Verif.C110_upper_example"
   ],
   "note": "The failure for the larger argument is a theorem about two concrete numbers, evaluated by the kernel."
  },
  {
   "property": "C111",
   "status": "proved",
   "theorems": [
    "Verif.C111_symmetric",
    "Verif.C111_symmetric_array",
    "Verif.C111_symmetric_nested",
    "Verif.C111_diagonal",
    "Verif.C111_same_array",
    "Verif.C111_example",
    "Verif.C111_not_symmetric"
   ],
   "note": "Flat vectors, arrays and nested vectors (the diagonal: flat vectors). The failure is a theorem about one concrete input, evaluated by the kernel."
  },
  {
   "property": "C112",
   "status": "proved",
   "theorems": [
    "Verif.C112_dlarfg",
    "Verif.C112_example",
    "Verif.C112_sharp"
   ],
   "note": "The range is the one in which dlarfg does not rescale and dnrm2 uses one accumulator."
  },
  {
   "property": "C113",
   "status": "proved",
   "theorems": [
    "Verif.C113_dscal",
    "Verif.C113_example"
   ],
   "note": "Flat vectors; elements that are not visited do not change (C12)."
  },
  {
   "property": "C114",
   "status": "proved",
   "theorems": [
    "Verif.C114_dgemm",
    "Verif.C114_dgemm_array",
    "Verif.C114_dgemm_scaled",
    "Verif.C114_dtrmm_left",
    "Verif.C114_dtrmm_right",
    "Verif.C114_drot",
    "Verif.C114_dgemm_example",
    "Verif.C114_dtrmm_example",
    "Verif.C114_drot_example",
    "Verif.C114_scaled_example"
   ],
   "note": "Nothing is claimed where the bound itself overflows. drot on flat vectors."
  },
  {
   "property": "C115",
   "status": "proved",
   "theorems": [
    "Verif.C115_dnrm2",
    "Verif.C115_dgemm",
    "Verif.C115_dnrm2_example",
    "Verif.C115_dgemm_example",
    "Verif.C115_signs"
   ],
   "note": "dnrm2 and dgemm on flat vectors. C115_signs shows that the signs of the factors matter."
  },
  {
   "property": "C116",
   "status": "proved",
   "theorems": [
    "Verif.C116_dlanv2_again",
    "Verif.C116_dlanv2_eigenvalues",
    "Verif.C116_example",
    "Verif.C116_overflow"
   ],
   "note": "C116_overflow shows that the condition is needed."
  },
  {
   "property": "C117",
   "status": "proved",
   "theorems": [
    "Verif.C117_drot",
    "Verif.C117_dscal",
    "Verif.C117_drot_example",
    "Verif.C117_dscal_example"
   ],
   "note": "Flat vectors. Lean has one NaN; payloads are not modelled."
  },
  {
   "property": "C118",
   "status": "proved",
   "theorems": [
    "Verif.C118_dlahqr_again",
    "Verif.C118_example",
    "Verif.C118_real_example"
   ],
   "note": "Arrays for h and z, flat vectors for wr and wi. Outside the block the second call multiplies by the identity rotation; nothing is claimed there."
  },
  {
   "property": "C119",
   "status": "proved",
   "theorems": [
    "Verif.C119_dlaqr1",
    "Verif.C119_example",
    "Verif.C119_meets",
    "Verif.C119_three"
   ],
   "note": "Flat vectors. The range is sufficient, not necessary: differences of the arguments are then multiples of 2^-252, so no quotient and no product can underflow."
  },
  {
   "property": "C12",
   "status": "proved",
   "theorems": [
    "Verif.C12_dscal_any_length",
    "Verif.C12_dscal",
    "Verif.C12_dscal_overflow_debug"
   ],
   "note": ""
  },
  {
   "property": "C120",
   "status": "proved",
   "theorems": [
    "Verif.C120_drot_direction",
    "Verif.C120_dcopy_direction",
    "Verif.C120_drot_exchange",
    "Verif.C120_drot_direction_array",
    "Verif.C120_example",
    "Verif.C120_one_increment"
   ],
   "note": "Flat vectors; the index computations stay within i32 as in C14."
  },
  {
   "property": "C121",
   "status": "proved",
   "theorems": [
    "Verif.C121_dlacpy_parts",
    "Verif.C121_dlacpy_again",
    "Verif.C121_example",
    "Verif.C121_wide"
   ],
   "note": "Flat vectors."
  },
  {
   "property": "C122",
   "status": "proved",
   "theorems": [
    "Verif.C122_dlaset_last",
    "Verif.C122_dlaset_last_array",
    "Verif.C122_example",
    "Verif.C122_other_part"
   ],
   "note": "For arrays the shape and the stored data are compared."
  },
  {
   "property": "C123",
   "status": "proved",
   "theorems": [
    "Verif.C123_dnrm2",
    "Verif.C123_dscal",
    "Verif.C123_dcopy",
    "Verif.C123_dcopy_nested",
    "Verif.C123_drot",
    "Verif.C123_dlarfg",
    "Verif.C123_dscal_nested",
    "Verif.C123_dcopy_into_nested",
    "Verif.C123_drot_nested",
    "Verif.C123_example",
    "Verif.C123_example_panics"
   ],
   "note": "Sim (Lib/Sim.lean) says: the same outcome in both profiles, and related values if both return. Which shape a nested vector comes back in is C87."
  },
  {
   "property": "C13",
   "status": "proved",
   "theorems": [
    "Verif.C13_dscal_noop"
   ],
   "note": ""
  },
  {
   "property": "C14",
   "status": "proved",
   "theorems": [
    "Verif.C14_drot",
    "Verif.C14_drot_nonpos",
    "Verif.C14_drot_sequential",
    "Verif.C14_sequential_example"
   ],
   "note": ""
  },
  {
   "property": "C15",
   "status": "proved",
   "theorems": [
    "Verif.C15_drot_isometry"
   ],
   "note": "Exact arithmetic."
  },
  {
   "property": "C16",
   "status": "proved",
   "theorems": [
    "Verif.C16_dnrm2",
    "Verif.C16_dnrm2_euclid",
    "Verif.C16_dnrm2_mixed"
   ],
   "note": "Exact arithmetic; the mixed case has the error bound of C16_dnrm2_mixed."
  },
  {
   "property": "C17",
   "status": "proved",
   "theorems": [
    "Verif.C17_dnrm2_empty",
    "Verif.C17_dnrm2_zero",
    "Verif.C17_dnrm2_nan",
    "Verif.C17_dnrm2_inf",
    "Verif.C17_inf_example"
   ],
   "note": "IEEE binary64 (Lean Float)."
  },
  {
   "property": "C18",
   "status": "proved",
   "theorems": [
    "Verif.C18_dnrm2_overflow"
   ],
   "note": "IEEE binary64 (Lean Float)."
  },
  {
   "property": "C19",
   "status": "proved",
   "theorems": [
    "Verif.C19_lsame_ascii",
    "Verif.C19_lsame_equiv",
    "Verif.C19_lsame_aliasing"
   ],
   "note": ""
  },
  {
   "property": "C20",
   "status": "proved",
   "theorems": [
    "Verif.C20_dgemm"
   ],
   "note": "Exact arithmetic."
  },
  {
   "property": "C21",
   "status": "proved",
   "theorems": [
    "Verif.C24_dgemm",
    "Verif.C24_dgemm_array",
    "Verif.C24_dgemm_nested"
   ],
   "note": "The frame part of the predicate Updated."
  },
  {
   "property": "C22",
   "status": "proved",
   "theorems": [
    "Verif.C22_dgemm_illegal",
    "Verif.C22_dgemm_illegal_nested",
    "Verif.C22_dgemm_illegal_flat",
    "Verif.C22_dgemm_zero_ld",
    "Verif.C22_dgemm_legal"
   ],
   "note": "Flags up to U+00FF; lsame aliases above (C19)."
  },
  {
   "property": "C23",
   "status": "proved",
   "theorems": [
    "Verif.C23_beta_zero",
    "Verif.C23_beta_zero_array",
    "Verif.C23_beta_zero_nested",
    "Verif.C23_alpha_zero",
    "Verif.C23_alpha_zero_array",
    "Verif.C23_alpha_zero_nested",
    "Verif.C23_unchanged",
    "Verif.C23_unchanged_array",
    "Verif.C23_unchanged_nested"
   ],
   "note": ""
  },
  {
   "property": "C24",
   "status": "proved",
   "theorems": [
    "Verif.C24_dgemm",
    "Verif.C24_dgemm_array",
    "Verif.C24_dgemm_nested"
   ],
   "note": "Any scalar type; nested vectors for square shapes."
  },
  {
   "property": "C25",
   "status": "proved",
   "theorems": [
    "Verif.C25_dtrmm",
    "Verif.C25_dtrmm_nested"
   ],
   "note": "Exact arithmetic, FortranArray arguments and square nested vectors."
  },
  {
   "property": "C26",
   "status": "proved",
   "theorems": [
    "Verif.C26_dtrmm",
    "Verif.C26_dtrmm_nested",
    "Verif.C26_nested_example"
   ],
   "note": "Any scalar type, FortranArray arguments and square nested vectors."
  },
  {
   "property": "C27",
   "status": "proved",
   "theorems": [
    "Verif.C27_dtrmm_illegal",
    "Verif.C27_dtrmm_legal",
    "Verif.C27_empty",
    "Verif.C27_alpha_zero"
   ],
   "note": "Flags up to U+00FF; all container kinds for the argument check."
  },
  {
   "property": "C28",
   "status": "proved",
   "theorems": [
    "Verif.C28_flat_tail",
    "Verif.C28_flat_wrong"
   ],
   "note": "Any scalar type."
  },
  {
   "property": "C29",
   "status": "proved",
   "theorems": [
    "Verif.C29_dlacpy",
    "Verif.C29_dlacpy_array",
    "Verif.C29_dlacpy_nested",
    "Verif.C29_dlacpy_nonpos",
    "Verif.C29_upper_refuted",
    "Verif.C29_lower_spills"
   ],
   "note": "Any scalar type. The two last theorems record where the selection differs from reference LAPACK."
  },
  {
   "property": "C30",
   "status": "proved",
   "theorems": [
    "Verif.C30_dlaset_array",
    "Verif.C30_dlaset_nested",
    "Verif.C30_dlaset_flat",
    "Verif.C30_upper_refuted"
   ],
   "note": "Any scalar type."
  },
  {
   "property": "C31",
   "status": "proved",
   "theorems": [
    "Verif.C31_dlamch_values",
    "Verif.C31_dlamch_precision",
    "Verif.C31_dlamch_range"
   ],
   "note": "IEEE binary64 (Lean Float)."
  },
  {
   "property": "C32",
   "status": "proved",
   "theorems": [
    "Verif.C32_dlapy2",
    "Verif.C32_dlapy2_huge"
   ],
   "note": "Exact arithmetic."
  },
  {
   "property": "C33",
   "status": "proved",
   "theorems": [
    "Verif.C33_dlapy2_nan",
    "Verif.C33_dlapy2_inf",
    "Verif.C33_dlapy2_sign",
    "Verif.C33_dlapy2_comm",
    "Verif.C33_dlapy2_zero"
   ],
   "note": "IEEE binary64 (Lean Float)."
  },
  {
   "property": "C34",
   "status": "proved",
   "theorems": [
    "Verif.C34_dlarfg"
   ],
   "note": "Exact arithmetic."
  },
  {
   "property": "C35",
   "status": "proved",
   "theorems": [
    "Verif.C35_dlarfg_small",
    "Verif.C35_dlarfg_zero",
    "Verif.C35_rescale_bound",
    "Verif.C35_dlarfg_returns"
   ],
   "note": ""
  },
  {
   "property": "C36",
   "status": "proved",
   "theorems": [
    "Verif.C36_dlaqr1",
    "Verif.C36_dlaqr1_other"
   ],
   "note": "Exact arithmetic for the column; any scalar type for the no-op."
  },
  {
   "property": "C37",
   "status": "proved",
   "theorems": [
    "Verif.C37_dlanv2_factors",
    "Verif.C37_dlanv2_standard",
    "Verif.C37_dlanv2_exception"
   ],
   "note": "Exact arithmetic."
  },
  {
   "property": "C38",
   "status": "proved",
   "theorems": [
    "Verif.C38_dlanv2_eigenvalues",
    "Verif.C38_dlanv2_exception"
   ],
   "note": "Exact arithmetic."
  },
  {
   "property": "C39",
   "status": "proved",
   "theorems": [
    "Verif.C39_ieeeck_f64"
   ],
   "note": "IEEE binary64 (Lean Float)."
  },
  {
   "property": "C40",
   "status": "proved",
   "theorems": [
    "Verif.C40_ilaenv_range",
    "Verif.C40_ilaenv_fixed",
    "Verif.C40_ilaenv_tuning",
    "Verif.C40_ilaenv_panic",
    "Verif.C40_ilaenv_bytes",
    "Verif.C40_ilaenv_bounds",
    "Verif.C40_ilaenv_case",
    "Verif.C40_ilaenv_mixed",
    "Verif.C40_ilaenv_svd",
    "Verif.C40_ilaenv_iparmq",
    "Verif.C40_ilaenv_block",
    "Verif.C40_ilaenv_trsyl",
    "Verif.C40_ilaenv_crossover"
   ],
   "note": ""
  },
  {
   "property": "C41",
   "status": "proved",
   "theorems": [
    "Verif.C41_iparmq",
    "Verif.C41_iparmq_acc22",
    "Verif.C41_iparmq_panic",
    "Verif.C41_iparmq_bytes",
    "Verif.C41_iparmq_overflow"
   ],
   "note": ""
  },
  {
   "property": "C42",
   "status": "proved",
   "theorems": [
    "Verif.C42_dlahqr_empty",
    "Verif.C42_dlahqr_one"
   ],
   "note": "Any scalar type."
  },
  {
   "property": "C43",
   "status": "proved",
   "theorems": [
    "Verif.C43_dlahqr_frame"
   ],
   "note": "Any scalar type; FortranArray matrices, Vec eigenvalues."
  },
  {
   "property": "C44",
   "status": "proved",
   "theorems": [
    "Verif.C44_dlahqr_diverges",
    "Verif.F64.C44_dlahqr_diverges_f64",
    "Verif.F64.C44_dlahqr_triangular_f64"
   ],
   "note": "Any scalar type, and IEEE binary64."
  },
  {
   "property": "C45",
   "status": "proved",
   "theorems": [
    "Verif.C45_dlaqr5_trivial",
    "Verif.C45_dlaqr5_zero_ld",
    "Verif.C45_dlaqr5_frame"
   ],
   "note": "Any scalar type."
  },
  {
   "property": "C46",
   "status": "proved",
   "theorems": [
    "Verif.C46_dcopy",
    "Verif.C46_dscal",
    "Verif.C46_drot",
    "Verif.C46_dnrm2",
    "Verif.C46_dgemm",
    "Verif.C46_dtrmm",
    "Verif.C46_dlacpy",
    "Verif.C46_dlaset",
    "Verif.C46_dlarfg",
    "Verif.C46_dscal_differs"
   ],
   "note": "Any scalar type."
  },
  {
   "property": "C47",
   "status": "proved",
   "theorems": [
    "Verif.C47_dlapy2_accuracy",
    "Verif.C47_dlapy2_overflow",
    "Verif.C47_dlapy2_ge"
   ],
   "note": "IEEE binary64 (Lean Float)."
  },
  {
   "property": "C48",
   "status": "proved",
   "theorems": [
    "Verif.C48_dnrm2_tiny"
   ],
   "note": "IEEE binary64 (Lean Float)."
  },
  {
   "property": "C49",
   "status": "proved",
   "theorems": [
    "Verif.C49_dlahqr_backward"
   ],
   "note": "Exact arithmetic; FortranArray matrices, Vec eigenvalues."
  },
  {
   "property": "C50",
   "status": "proved",
   "theorems": [
    "Verif.C50_dlahqr_no_panic"
   ],
   "note": "Exact arithmetic."
  },
  {
   "property": "C51",
   "status": "proved",
   "theorems": [
    "Verif.C51_dlahqr_eigenvalues"
   ],
   "note": "Exact arithmetic."
  },
  {
   "property": "C52",
   "status": "proved",
   "theorems": [
    "Verif.C52_dlahqr_two_iff",
    "Verif.C52_dlahqr_two_by_two",
    "Verif.C52_both",
    "Verif.C52_dlahqr_quarter"
   ],
   "note": "Exact arithmetic; the last two theorems are concrete instances."
  },
  {
   "property": "C53",
   "status": "proved",
   "theorems": [
    "Verif.C53_eq",
    "Verif.C53_slot",
    "Verif.F64.C53_refl",
    "Verif.F64.C53_symm",
    "Verif.F64.C53_trans"
   ],
   "note": "First two: any scalar type; the laws: IEEE binary64 (Lean Float)."
  },
  {
   "property": "C54",
   "status": "proved",
   "theorems": [
    "Verif.C54_dlahqr_without_z",
    "Verif.C54_dlaqr5_without_z",
    "Verif.C54_example",
    "Verif.C54_dlaqr5_example"
   ],
   "note": "Any scalar type; the last two theorems are concrete f64 instances of the hypothesis."
  },
  {
   "property": "C55",
   "status": "proved",
   "theorems": [
    "Verif.C55_dlahqr_fuel"
   ],
   "note": "Any scalar type."
  },
  {
   "property": "C56",
   "status": "proved",
   "theorems": [
    "Verif.C56_dlaqr5_many_shifts"
   ],
   "note": "Any scalar type; FortranArray matrices, Vec shifts."
  },
  {
   "property": "C57",
   "status": "proved",
   "theorems": [
    "Verif.C57_dlaqr5_sweep",
    "Verif.C57_dlaqr5_sweep_z",
    "Verif.C57_example"
   ],
   "note": "Exact arithmetic; FortranArray matrices, Vec shifts. v must hold finite numbers; the second theorem covers calls with z that return."
  },
  {
   "property": "C58",
   "status": "proved",
   "theorems": [
    "Verif.C58_dlaqr5_z_without_accumulation"
   ],
   "note": "IEEE binary64, evaluated by the kernel. Refutes the expected property; the positive statement for kacc22 = 1 or 2 is C59."
  },
  {
   "property": "C59",
   "status": "proved",
   "theorems": [
    "Verif.C59_dlaqr5_accumulated",
    "Verif.C59_example"
   ],
   "note": "Exact arithmetic; FortranArray matrices, Vec shifts. v must hold finite numbers."
  },
  {
   "property": "C60",
   "status": "proved",
   "theorems": [
    "Verif.C60_dlahqr_eigenvalues_only"
   ],
   "note": "IEEE binary64, evaluated by the kernel. Refutes the expected property."
  },
  {
   "property": "C61",
   "status": "proved",
   "theorems": [
    "Verif.C61_dlahqr_schur_form"
   ],
   "note": "IEEE binary64, evaluated by the kernel. Refutes the expected property; C49 is what holds."
  },
  {
   "property": "C62",
   "status": "proved",
   "theorems": [
    "Verif.C62_dlahqr_nested",
    "Verif.C62_dlahqr_flat"
   ],
   "note": "First theorem: any scalar type. Second: IEEE binary64, a counterexample evaluated by the kernel."
  },
  {
   "property": "C63",
   "status": "proved",
   "theorems": [
    "Verif.C63_dgemm_f64",
    "Verif.C63_dgemm_f64_array",
    "Verif.C63_dgemm_f64_nested",
    "Verif.C63_dgemm_no_overflow",
    "Verif.C63_example"
   ],
   "note": "IEEE binary64 (Lean Float)."
  },
  {
   "property": "C64",
   "status": "proved",
   "theorems": [
    "Verif.C64_dtrmm_f64",
    "Verif.C64_dtrmm_f64_nested",
    "Verif.C64_dtrmm_no_overflow",
    "Verif.C64_example"
   ],
   "note": "IEEE binary64 (Lean Float)."
  },
  {
   "property": "C65",
   "status": "proved",
   "theorems": [
    "Verif.C65_dnrm2_f64",
    "Verif.C65_dnrm2_f64_simple",
    "Verif.NormAccurate.rel_simple",
    "Verif.C65_example"
   ],
   "note": "IEEE binary64 (Lean Float)."
  },
  {
   "property": "C66",
   "status": "proved",
   "theorems": [
    "Verif.C66_dlarfg_f64",
    "Verif.C66_dlarfg_f64_simple",
    "Verif.C66_example"
   ],
   "note": "IEEE binary64 (Lean Float)."
  },
  {
   "property": "C67",
   "status": "proved",
   "theorems": [
    "Verif.C67_dlahqr_never_succeeds",
    "Verif.F64.C67_dlahqr_never_succeeds_f64",
    "Verif.C67_dlahqr_never_succeeds_exact",
    "Verif.C67_dlahqr_never_succeeds_nested",
    "Verif.F64.C67_example"
   ],
   "note": "Any scalar type; then binary64 and exact arithmetic; the last theorem is a concrete instance."
  },
  {
   "property": "C68",
   "status": "proved",
   "theorems": [
    "Verif.C68_dlahqr_exact_shift",
    "Verif.C68_dlahqr_exact_pair",
    "Verif.C68_example_shift",
    "Verif.C68_example_pair"
   ],
   "note": "Exact arithmetic, Frobenius norm at most 2^500; the last two theorems are concrete instances."
  },
  {
   "property": "C69",
   "status": "proved",
   "theorems": [
    "Verif.C69_dlahqr_safe",
    "Verif.C69_dlahqr_safe_values",
    "Verif.C69_dlahqr_safe_nested"
   ],
   "note": "Any scalar type."
  },
  {
   "property": "C70",
   "status": "proved",
   "theorems": [
    "Verif.C70_dlaqr5_safe",
    "Verif.C70_dlaqr5_safe_accumulated"
   ],
   "note": "Any scalar type."
  },
  {
   "property": "C71",
   "status": "proved",
   "theorems": [
    "Verif.C71_dlaqr5_zero_subdiagonal",
    "Verif.C71_dlaqr5_underflow"
   ],
   "note": "f64 runs evaluated by the kernel."
  },
  {
   "property": "C72",
   "status": "proved",
   "theorems": [
    "Verif.C72_dlaqr5_two_shifts",
    "Verif.C72_dlaqr5_three_shifts",
    "Verif.C72_dlaqr5_three_real_shifts"
   ],
   "note": "Any scalar type; equation between calls (normal returns and panics alike)."
  },
  {
   "property": "C73",
   "status": "proved",
   "theorems": [
    "Verif.C73_dlaqr5_deflates",
    "Verif.C73_dlaqr5_deflates_all"
   ],
   "note": "Any scalar type. The criterion is written out in Spec (deflScale, ahuesTisseur, ahuesTisseurDiag)."
  },
  {
   "property": "C74",
   "status": "proved",
   "theorems": [
    "Verif.C74_drot_f64",
    "Verif.C74_dscal_f64"
   ],
   "note": "IEEE binary64 (Lean Float)."
  },
  {
   "property": "C75",
   "status": "proved",
   "theorems": [
    "Verif.C75_dlaqr1_f64"
   ],
   "note": "IEEE binary64 (Lean Float)."
  },
  {
   "property": "C76",
   "status": "proved",
   "theorems": [
    "Verif.C76_dlanv2_f64",
    "Verif.C76_dlanv2_f64_exception"
   ],
   "note": "IEEE binary64 (Lean Float)."
  },
  {
   "property": "C77",
   "status": "proved",
   "theorems": [
    "Verif.C77_dlahqr_backward_f64",
    "Verif.C77_dlahqr_backward_nested",
    "Verif.C77_example",
    "Verif.C77_nested_example"
   ],
   "note": "Arrays and square nested vectors. IEEE binary64 (Lean Float). Whether a call returns is the subject of C44, C52, C67, C69."
  },
  {
   "property": "C78",
   "status": "proved",
   "theorems": [
    "Verif.C78_dlaqr5_backward_stable",
    "Verif.C78_dlaqr5_backward_stable_z",
    "Verif.C78_example"
   ],
   "note": "IEEE binary64 (Lean Float). C71 shows what happens when the bulge collapses, which is why the subdiagonal elements of a longer block must be clear of underflow."
  },
  {
   "property": "C79",
   "status": "proved",
   "theorems": [
    "Verif.C79_dlaqr5_flat",
    "Verif.C79_dlaqr5_nested"
   ],
   "note": "So every statement about dlaqr5 on arrays (C56, C57, C59, C70-C73, C78) holds for flat vectors as well."
  },
  {
   "property": "C80",
   "status": "proved",
   "theorems": [
    "Verif.C80_dlaqr5_accumulated_f64",
    "Verif.C80_example"
   ],
   "note": "IEEE binary64 (Lean Float). Accumulation with ldz = ldh, where the code reads z with the leading dimension of h."
  },
  {
   "property": "C81",
   "status": "proved",
   "theorems": [
    "Verif.C81_dlahqr_order_two",
    "Verif.C81_schur_form_iff",
    "Verif.C81_example"
   ],
   "note": "First theorem: any scalar arithmetic, so also f64. Generalises C61. When the call returns is C52."
  },
  {
   "property": "C82",
   "status": "proved",
   "theorems": [
    "Verif.C82_dlaqr5_z_spoilt",
    "Verif.C82_next_column",
    "Verif.C82_last_column",
    "Verif.C82_example"
   ],
   "note": "Explains C58: the loop over bulges for z runs from mbot to mtop in the wrong order, so at the last step, where mbot = 0 and it should be empty, it runs over m = 1 and m = 0. With accumulation z is right (C59)."
  },
  {
   "property": "C83",
   "status": "proved",
   "theorems": [
    "Verif.C83_dlahqr_eigenvalues",
    "Verif.C83_dlahqr_eigenvalues_f64",
    "Verif.C83_dlahqr_returns_f64",
    "Verif.C83_example"
   ],
   "note": "The positive counterpart of C60: for blocks of order two the eigenvalue-only mode is right. The bound C76 needs on the lower left entry is discharged by C44: below it the call does not return."
  },
  {
   "property": "C84",
   "status": "proved",
   "theorems": [
    "Verif.C84_dlarfg_tau",
    "Verif.C84_tau_infinite",
    "Verif.C84_example"
   ],
   "note": "C66 gives the same bounds, with accuracy, for moderate data; C84 has no hypotheses on the data."
  },
  {
   "property": "C85",
   "status": "proved",
   "theorems": [
    "Verif.C85_dgemm_block",
    "Verif.C85_dgemm_transposed_b",
    "Verif.C85_dgemm_split_k",
    "Verif.C85_dgemm_split_k_f64",
    "Verif.C85_split_transposed",
    "Verif.C85_dtrmm_column",
    "Verif.C85_dtrmm_row"
   ],
   "note": "dgemm on lists with offsets (drop), dtrmm on arrays."
  },
  {
   "property": "C86",
   "status": "proved",
   "theorems": [
    "Verif.C86_dlaqr5_rows",
    "Verif.C86_dlaqr5_wrong",
    "Verif.C86_example"
   ],
   "note": "The hypothesis ldz = ldh of C59, C70 and C80 is therefore necessary."
  },
  {
   "property": "C87",
   "status": "proved",
   "theorems": [
    "Verif.C87_dlaset_reshapes",
    "Verif.C87_dlacpy_reshapes",
    "Verif.C87_dgemm_reshapes",
    "Verif.C87_dtrmm_reshapes",
    "Verif.C87_shape_lost",
    "Verif.C87_example"
   ],
   "note": "For dtrmm the statement is about runs that return, with alpha different from 0. C06 is the conversion alone."
  },
  {
   "property": "C88",
   "status": "proved",
   "theorems": [
    "Verif.C88_dgemm_nan",
    "Verif.C88_dtrmm_left_nan",
    "Verif.C88_dtrmm_right_nan",
    "Verif.C88_dtrmm_left_skips",
    "Verif.C88_dtrmm_right_skips",
    "Verif.C88_examples"
   ],
   "note": "dgemm on flat vectors, dtrmm on arrays."
  },
  {
   "property": "C89",
   "status": "proved",
   "theorems": [
    "Verif.C89_dlahqr_nan",
    "Verif.C89_dlahqr_one_nan",
    "Verif.C89_dlahqr_nan_nested",
    "Verif.C89_example"
   ],
   "note": "Arrays, and square nested vectors. Tiny means at most dlamch(S) * ((ihi-ilo+1) / dlamch(P)), as in the code."
  },
  {
   "property": "C90",
   "status": "proved",
   "theorems": [
    "Verif.C90_dlahqr_reads_block",
    "Verif.C90_dlahqr_writes_block",
    "Verif.C90_dlahqr_nested",
    "Verif.C90_dlahqr_fourth_diagonal",
    "Verif.C90_dlahqr_values_only",
    "Verif.C90_example"
   ],
   "note": "Arrays, and square nested vectors."
  },
  {
   "property": "C91",
   "status": "proved",
   "theorems": [
    "Verif.C91_dlaqr5_reads_block",
    "Verif.C91_dlaqr5_writes_block",
    "Verif.C91_dlaqr5_third_diagonal",
    "Verif.C91_example",
    "Verif.C91_dlaqr5_reads_block_accumulated",
    "Verif.C91_dlaqr5_writes_block_accumulated",
    "Verif.C91_accumulated_example"
   ],
   "note": "Arrays; with accumulation the leading dimensions of h and z are equal, as the code requires."
  },
  {
   "property": "C92",
   "status": "proved",
   "theorems": [
    "Verif.C92_dgemm_message",
    "Verif.C92_dgemm_message_nested",
    "Verif.C92_dgemm_message_flat",
    "Verif.C92_dgemm_silent",
    "Verif.C92_dtrmm_message",
    "Verif.C92_dtrmm_silent",
    "Verif.C92_text_injective",
    "Verif.C92_example"
   ],
   "note": "Characters are below U+0100; dtrmm for every container."
  },
  {
   "property": "C93",
   "status": "proved",
   "theorems": [
    "Verif.C93_dlaqr5_scratch",
    "Verif.C93_dlaqr5_scratch_accumulated",
    "Verif.C93_dlaqr5_scratch_f64",
    "Verif.C93_dlaqr5_stale_v",
    "Verif.C93_example"
   ],
   "note": "Four or more shifts: the code panics or fails for other reasons, not covered."
  },
  {
   "property": "C94",
   "status": "proved",
   "theorems": [
    "Verif.C94_dlaqr5_wantt",
    "Verif.C94_example",
    "Verif.C94_dlaqr5_wantt_accumulated",
    "Verif.C94_accumulated_example"
   ],
   "note": "Arrays; with accumulation the leading dimensions of h and z are equal, as the code requires."
  },
  {
   "property": "C95",
   "status": "proved",
   "theorems": [
    "Verif.C95_dgemm_dot",
    "Verif.C95_dgemm_storage",
    "Verif.C95_dgemm_transposed",
    "Verif.C95_example",
    "Verif.C95_scaled_differs",
    "Verif.C95_dgemm_dot_array",
    "Verif.C95_dgemm_dot_nested",
    "Verif.C95_dgemm_storage_array",
    "Verif.C95_dgemm_storage_nested"
   ],
   "note": "All NaN count as one value, as in the whole model. Flat vectors, arrays and nested vectors."
  },
  {
   "property": "C96",
   "status": "proved",
   "theorems": [
    "Verif.C96_dgemm_integers",
    "Verif.C96_example",
    "Verif.C96_bound_needed",
    "Verif.C96_dgemm_integers_array",
    "Verif.C96_dgemm_integers_nested"
   ],
   "note": "Flat vectors, arrays and nested vectors."
  },
  {
   "property": "C97",
   "status": "proved",
   "theorems": [
    "Verif.C97_dgemm_select_rows",
    "Verif.C97_dgemm_select_columns",
    "Verif.C97_example",
    "Verif.C97_infinity",
    "Verif.C97_dgemm_select_rows_array",
    "Verif.C97_dgemm_select_rows_nested",
    "Verif.C97_dgemm_select_columns_array",
    "Verif.C97_dgemm_select_columns_nested",
    "Verif.C97_nested_example"
   ],
   "note": "Flat vectors, arrays and nested vectors."
  },
  {
   "property": "C98",
   "status": "proved",
   "theorems": [
    "Verif.C98_dtrmm_integers",
    "Verif.C98_dtrmm_integers_nested",
    "Verif.C98_example",
    "Verif.C98_meets",
    "Verif.C98_bound_needed"
   ],
   "note": "Arrays and nested vectors; on flat vectors dtrmm does not compute the product (C28)."
  },
  {
   "property": "C99",
   "status": "proved",
   "theorems": [
    "Verif.C99_dnrm2_signs",
    "Verif.C99_dnrm2_signs_array",
    "Verif.C99_dlarfg_negated",
    "Verif.C99_dlarfg_trivial",
    "Verif.C99_example",
    "Verif.C99_meets",
    "Verif.C99_alpha_alone"
   ],
   "note": ""
  }
 ]
}
