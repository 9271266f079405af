{
 "claims": [
  {
   "property": "C01",
   "status": "proved",
   "theorems": [
    "Verif.Props.c01_perfect_reconstruction"
   ],
   "note": "Exact arithmetic over any commutative ring; every rank, axis, level, mode, even filter length with the Laurent-polynomial PR condition."
  },
  {
   "property": "C02",
   "status": "proved",
   "theorems": [
    "Verif.Props.c02_wavedec_textbook"
   ],
   "note": "The coefficients are the iterated textbook formula line by line."
  },
  {
   "property": "C03",
   "status": "proved",
   "theorems": [
    "Verif.Props.c03_wavedec_sizes"
   ],
   "note": "Exact for every filter length >= 1; floor((n+F-1)/2) for even F."
  },
  {
   "property": "C04",
   "status": "proved",
   "theorems": [
    "Verif.Props.c04_wavedec_succeeds_iff",
    "Verif.Props.c04_total_modes",
    "Verif.Props.c04_reflect_fails_iff",
    "Verif.Props.c04_periodic_fails_iff",
    "Verif.Props.c04_unknown_mode"
   ],
   "note": "iff characterisation of success, and of failure for reflect and periodic; unknown mode strings raise only if at least one level is computed."
  },
  {
   "property": "C05",
   "status": "proved",
   "theorems": [
    "Verif.Props.c05_wavedec_linear",
    "Verif.Props.c05_waverec_linear"
   ],
   "note": "wavedec and waverec, including equal success/failure; rank, levels, batch arbitrary."
  },
  {
   "property": "C06",
   "status": "proved",
   "theorems": [
    "Verif.Props.c06_pad_symmetric"
   ],
   "note": ""
  },
  {
   "property": "C07",
   "status": "proved",
   "theorems": [
    "Verif.Props.c07_empty_never_terminates"
   ],
   "note": "A defect: no recursion depth suffices."
  },
  {
   "property": "C08",
   "status": "proved",
   "theorems": [
    "Verif.Props.c08_mode_extension",
    "Verif.Props.c08_mode_not_fitting",
    "Verif.Props.c08_unknown_mode",
    "Verif.Props.c08_pictures"
   ],
   "note": "Includes the exact failure condition of every mode and the pictures at the borders."
  },
  {
   "property": "C09",
   "status": "proved",
   "theorems": [
    "Verif.Props.c09_swap_undo",
    "Verif.Props.c09_bad_axes"
   ],
   "note": "Axes that are literally different but name the same dimension raise RuntimeError, not ValueError."
  },
  {
   "property": "C10",
   "status": "proved",
   "theorems": [
    "Verif.Props.c10_round_trip",
    "Verif.Props.c10_round_trip_channel",
    "Verif.Props.c10_too_small",
    "Verif.Props.c10_bad_axes"
   ],
   "note": "Default axes: ValueError; explicit axes: some error."
  },
  {
   "property": "C11",
   "status": "proved",
   "theorems": [
    "Verif.Props.c11_same_device_dtype",
    "Verif.Props.c11_wavedec_dtype",
    "Verif.Props.c11_waverec_dtype",
    "Verif.Props.c11_waverec_mixed",
    "Verif.Props.c11_wavedec_keeps_meta"
   ],
   "note": "For wavedec/waverec; conv2/conv3/separable share the checks through their characterisations."
  },
  {
   "property": "C12",
   "status": "proved",
   "theorems": [
    "Verif.Props.c12_tree_map",
    "Verif.Props.c12_empty",
    "Verif.Props.c12_unexpected_entry"
   ],
   "note": ""
  },
  {
   "property": "C13",
   "status": "proved",
   "theorems": [
    "Verif.Props.c13_size_clash",
    "Verif.Props.c13_waverec_textbook"
   ],
   "note": "iff for the AssertionError; complete behaviour of waverec on arbitrary coefficients."
  },
  {
   "property": "C14",
   "status": "proved",
   "theorems": [
    "Verif.Props.c14_odd_filter_loses_sample"
   ],
   "note": "A limitation: theorem holds for every odd filter length and even signal length."
  },
  {
   "property": "C15",
   "status": "proved",
   "theorems": [
    "Verif.Props.c15_perfect_reconstruction"
   ],
   "note": "All tensors, axes, modes, levels, even-length PR banks over a field of characteristic 0."
  },
  {
   "property": "C16",
   "status": "proved",
   "theorems": [
    "Verif.Props.c16_wavedec2_textbook",
    "Verif.Props.c16_orientation",
    "Verif.Props.c16_wavedec2_succeeds_iff",
    "Verif.Props.c16_unknown_mode"
   ],
   "note": "Values, container, orientation, success condition for wavedec2."
  },
  {
   "property": "C17",
   "status": "proved",
   "theorems": [
    "Verif.Props.c17_perfect_reconstruction"
   ],
   "note": "level >= 1 as in the claim; level 0 is C18."
  },
  {
   "property": "C18",
   "status": "proved",
   "theorems": [
    "Verif.Props.c18_wavedec3_textbook",
    "Verif.Props.c18_wavedec3_succeeds_iff",
    "Verif.Props.c18_level_zero_wrong_shape"
   ],
   "note": "Keys, values and success condition for >= 1 level; the level-0 shape clause is false of the code and its negation is proved (c18_level_zero_wrong_shape)."
  },
  {
   "property": "C19",
   "status": "proved",
   "theorems": [
    "Verif.Props.c19_fswavedec2",
    "Verif.Props.c19_empty_side",
    "Verif.Props.c19_fswavedec3"
   ],
   "note": "2d: equality of results iff; 3d for >= 1 level (wavedec3 at level 0 is C18). The one difference in success is proved (c19_empty_side)."
  },
  {
   "property": "C20",
   "status": "proved",
   "theorems": [
    "Verif.Props.c20_perfect_reconstruction_2d",
    "Verif.Props.c20_perfect_reconstruction_3d",
    "Verif.Props.c20_fswaverec3_inverts_wavedec3"
   ],
   "note": "fswaverec2/3 invert fswavedec2/3, every level count; fswaverec3 also inverts wavedec3."
  },
  {
   "property": "C21",
   "status": "proved",
   "theorems": [
    "Verif.Props.c21_mat3_unchanged",
    "Verif.Props.c21_mat_same_result",
    "Verif.Props.c21_mat3_second_call_fails",
    "Verif.Props.c21_mat3_roundtrip_once",
    "Verif.Props.c21_unchanged",
    "Verif.Props.c21_dicts_modified",
    "Verif.Props.c21_same_result",
    "Verif.Props.c21_container_stable",
    "Verif.Props.c21_waverec3_fails_afterwards"
   ],
   "note": "fswaverec2/3: unchanged otherwise (c21_unchanged), modified with default axes and one batch axis (c21_dicts_modified), same result for every number of calls (c21_same_result, c21_container_stable), observable by waverec3 (c21_waverec3_fails_afterwards). MatrixWaverec3: c21_mat3_unchanged; with default axes and one batch axis every dictionary gains 'aaa' and the second call raises ValueError (c21_mat3_second_call_fails), also for coefficients of MatrixWavedec3 (c21_mat3_roundtrip_once). With unmodified coefficients repeated matrix calls give the same result (c21_mat_same_result). waverec/2/3 and MatrixWaverec/2 are pure in the model (tuples of tensors, no in-place tensor operation in the code). The plain claim 'inverse transforms never modify their arguments' is false of the code: finding F4 in DESIGN.md."
  },
  {
   "property": "C22",
   "status": "proved",
   "theorems": [
    "Verif.Props.c22_periodic",
    "Verif.Props.c22_exact",
    "Verif.Props.c22_dilation",
    "Verif.Props.c22_wrong_wrap"
   ],
   "note": "Periodic extension for every pad pair with equal round counts, in particular every dilation dividing the length; an exact iff on tensors with a line of distinct entries, and a concrete wrong wrap (n=7, F=8, d=2)."
  },
  {
   "property": "C23",
   "status": "proved",
   "theorems": [
    "Verif.Props.c23_perfect_reconstruction",
    "Verif.Props.c23_divides",
    "Verif.Props.c23_default_level",
    "Verif.Props.c23_inverse_textbook",
    "Verif.Props.c23_fails_for_bad_wrap"
   ],
   "note": "Every tensor, axis, level whose dilations divide the length (or whose dilated half filter fits), every no-distortion bank of even length; default level always. iswt of arbitrary coefficients is the textbook inverse. Outside the hypothesis the round trip is wrong (negation proved)."
  },
  {
   "property": "C24",
   "status": "proved",
   "theorems": [
    "Verif.Props.c24_size",
    "Verif.Props.c24_level",
    "Verif.Props.c24_textbook",
    "Verif.Props.c24_shift"
   ],
   "note": "Size preservation needs no wrap hypothesis; shift equivariance under the hypothesis of C23."
  },
  {
   "property": "C25",
   "status": "proved",
   "theorems": [
    "Verif.Props.c25_2d_value",
    "Verif.Props.c25_2d_readable",
    "Verif.Props.c25_2d_order_independent",
    "Verif.Props.c25_boundary_order_independent",
    "Verif.Props.c25_boundary_value",
    "Verif.Props.c25_boundary_readable",
    "Verif.Props.c25_boundary_too_short",
    "Verif.Props.c25_2d_boundary_order_independent",
    "Verif.Props.c25_2d_boundary_value",
    "Verif.Props.c25_2d_boundary_readable",
    "Verif.Props.c25_2d_boundary_too_short",
    "Verif.Props.c25_2d_boundary_nonsep_value",
    "Verif.Props.c25_2d_boundary_nonsep_readable",
    "Verif.Props.c25_2d_boundary_nonsep_too_short",
    "Verif.Props.c25_value",
    "Verif.Props.c25_readable",
    "Verif.Props.c25_order_independent"
   ],
   "note": "WaveletPacket and WaveletPacket2D, every padding mode and mode='boundary', separable or not: any history of reads/initialisations, any key, with the exact condition under which a boundary-mode key is too short to be read. Boundary mode in exact arithmetic with an exact QR/sqrt backend (ExactLinAlg, shown to exist) and independent cut-off rows."
  },
  {
   "property": "C26",
   "status": "proved",
   "theorems": [
    "Verif.Props.c26_before_transform",
    "Verif.Props.c26_too_long",
    "Verif.Props.c26_last_letter",
    "Verif.Props.c26_foreign_letter",
    "Verif.Props.c26_reads_keep"
   ],
   "note": "Stated for the code shared by both packet classes."
  },
  {
   "property": "C27",
   "status": "proved",
   "theorems": [
    "Verif.Props.c27_natural_1d",
    "Verif.Props.c27_natural_2d",
    "Verif.Props.c27_unknown_order"
   ],
   "note": ""
  },
  {
   "property": "C28",
   "status": "proved",
   "theorems": [
    "Verif.Props.c28_freq_is_gray"
   ],
   "note": ""
  },
  {
   "property": "C29",
   "status": "proved",
   "theorems": [
    "Verif.Props.c29_freq_grid",
    "Verif.Props.c29_grid_complete",
    "Verif.Props.c29_level_zero"
   ],
   "note": "Includes the defect at level 0: the grid is empty although the level has one node."
  },
  {
   "property": "C30",
   "status": "proved",
   "theorems": [
    "Verif.Props.c30_2d_only_leaves",
    "Verif.Props.c30_2d_reconstruct",
    "Verif.Props.c30_2d_round_trip",
    "Verif.Props.c30_boundary_only_leaves",
    "Verif.Props.c30_boundary_reconstruct",
    "Verif.Props.c30_boundary_round_trip",
    "Verif.Props.c30_2d_boundary_only_leaves",
    "Verif.Props.c30_2d_boundary_reconstruct",
    "Verif.Props.c30_2d_boundary_round_trip",
    "Verif.Props.c30_2d_boundary_nonsep_reconstruct",
    "Verif.Props.c30_2d_boundary_nonsep_round_trip",
    "Verif.Props.c30_reconstruct",
    "Verif.Props.c30_round_trip",
    "Verif.Props.c30_missing_leaf",
    "Verif.Props.c30_uninitialised",
    "Verif.Props.c30_level_zero",
    "Verif.Props.c30_only_leaves"
   ],
   "note": "WaveletPacket and WaveletPacket2D, every padding mode and mode='boundary', separable or not; the missing-leaf theorems hold for both classes. Boundary mode as in C25."
  },
  {
   "property": "C31",
   "status": "proved",
   "theorems": [
    "Verif.Props.c31_2d_transform_forgets",
    "Verif.Props.c31_2d_failed_transform",
    "Verif.Props.c31_boundary_forgets",
    "Verif.Props.c31_boundary_dtype",
    "Verif.Props.c31_2d_boundary_forgets",
    "Verif.Props.c31_constructor",
    "Verif.Props.c31_2d_constructor",
    "Verif.Props.c31_transform_forgets",
    "Verif.Props.c31_failed_transform"
   ],
   "note": "Proved for WaveletPacket with padding modes and boundary matrices and WaveletPacket2D with padding modes; exceptions proved: failing transforms keep a stale level (c31_failed_transform, c31_2d_failed_transform), and in boundary mode the cached matrices keep the dtype of the first signal (c31_boundary_dtype). WaveletPacket2D with mode='boundary' included (separable and non-separable)."
  },
  {
   "property": "C32",
   "status": "proved",
   "theorems": [
    "Verif.Props.c32_conv_matrix",
    "Verif.Props.c32_rejected"
   ],
   "note": "Every non-empty filter over any semiring, every length and mode; product with every dense matrix. The other sizes/modes are proved rejected."
  },
  {
   "property": "C33",
   "status": "proved",
   "theorems": [
    "Verif.Props.c33_strided",
    "Verif.Props.c33_positions"
   ],
   "note": "Every stride >= 1; the sampled positions are proved to be exactly those in range."
  },
  {
   "property": "C34",
   "status": "proved",
   "theorems": [
    "Verif.Props.c34_sparse_kron",
    "Verif.Props.c34_zero_dtype",
    "Verif.Props.c34_dtype",
    "Verif.Props.c34_dtype_unique",
    "Verif.Props.c34_device"
   ],
   "note": "Any stored layout (duplicates, stored zeros, empty). Finding proved: with an empty factor the result is float32 whatever the dtype (c34_zero_dtype)."
  },
  {
   "property": "C35",
   "status": "proved",
   "theorems": [
    "Verif.Props.c35_identity",
    "Verif.Props.c35_identity_lost",
    "Verif.Props.c35_identity_rounded",
    "Verif.Props.c35_rounding",
    "Verif.Props.c35_precision",
    "Verif.Props.c35_identity_rejected",
    "Verif.Props.c35_diag",
    "Verif.Props.c35_replace_row",
    "Verif.Props.c35_replace_row_nonsquare"
   ],
   "note": "cat_sparse_identity_matrix within the index precision of the dtype, with the failure beyond it proved (c35_identity_lost); sparse_diag with exact success condition; sparse_replace_row for square matrices, with the RuntimeError for all others proved (c35_replace_row_nonsquare)."
  },
  {
   "property": "C36",
   "status": "proved",
   "theorems": [
    "Verif.Props.c36_conv2d_matrix",
    "Verif.Props.c36_strided",
    "Verif.Props.c36_narrow",
    "Verif.Props.c36_empty_filter",
    "Verif.Props.c36_unknown"
   ],
   "note": "Both Kronecker implementations, strided and unstrided, column-major flattening. Finding proved: same/sameshift always fail for images at most half as wide as the filter (c36_narrow)."
  },
  {
   "property": "C37",
   "status": "proved",
   "theorems": [
    "Verif.Props.c37_batch_dim_mm",
    "Verif.Props.c37_batch_mm",
    "Verif.Props.c37_batch_mm_rejected"
   ],
   "note": "Every rank and dimension for _batch_dim_mm; batch_mm for batches of matrices."
  },
  {
   "property": "C38",
   "status": "proved",
   "theorems": [
    "Verif.Props.c38_orthonormal",
    "Verif.Props.c38_indep_two_four",
    "Verif.Props.c38_indep_length",
    "Verif.Props.c38_indep_flip",
    "Verif.Props.c38_indep_six",
    "Verif.Props.c38_indep_eight",
    "Verif.Props.c38_indep_necessary",
    "Verif.Props.c38_dependent",
    "Verif.Props.c38_unknown_method"
   ],
   "note": "Over the reals with an exact square root and any QR routine that meets the specification of torch.linalg.qr; independence of the cut-off rows is a hypothesis shown necessary, independent of the length (so one check per filter bank suffices), decided by the left end for alternating flips, and settled for two, four, six (iff) and eight taps (determinant condition)."
  },
  {
   "property": "C39",
   "status": "proved",
   "theorems": [
    "Verif.Props.c39_transpose",
    "Verif.Props.c39_inverse"
   ],
   "note": "Transposition over every field; inverse over the reals with exact square root / QR."
  },
  {
   "property": "C40",
   "status": "proved",
   "theorems": [
    "Verif.Props.c40_roundtrip",
    "Verif.Props.c40_energy",
    "Verif.Props.c40_ctor",
    "Verif.Props.c40_bad_level",
    "Verif.Props.c40_bad_input"
   ],
   "note": "Over the reals with exact square root / QR (as C38); independence of the cut-off rows at all even lengths up to n is a hypothesis (proved for two- and four-tap banks). np.log2 is exact in the model; the stderr warning is not modelled."
  },
  {
   "property": "C41",
   "status": "proved",
   "theorems": [
    "Verif.Props.c41_analysis_operator",
    "Verif.Props.c41_synthesis_operator",
    "Verif.Props.c41_no_operator"
   ],
   "note": "For n up to 2^24 (float32) or 2^53 (float64), because the code stores indices in the dtype of the matrix."
  },
  {
   "property": "C42",
   "status": "proved",
   "theorems": [
    "Verif.Props.c42_reuse",
    "Verif.Props.c42_reuse_synthesis",
    "Verif.Props.c42_level_frozen",
    "Verif.Props.c42_dtype_cached"
   ],
   "note": "For every field and every linear-algebra backend under which building a matrix never fails; the exceptions of the English statement (level=None, dtype change) are separate theorems."
  },
  {
   "property": "C43",
   "status": "proved",
   "theorems": [
    "Verif.Props.c43_roundtrip2",
    "Verif.Props.c43_roundtrip3",
    "Verif.Props.c43_no_level3",
    "Verif.Props.c43_ctor",
    "Verif.Props.c43_bad_level",
    "Verif.Props.c43_bad_input",
    "Verif.Props.c43_reuse",
    "Verif.Props.c43_reuse_synthesis"
   ],
   "note": "Separable 2d and 3d objects; exact arithmetic with an exact QR/sqrt backend (ExactLinAlg, shown to exist). MatrixWavedec2 needs a non-empty batch (reshape of an empty batch raises). The values and round trip of the non-separable 2d object are C50."
  },
  {
   "property": "C44",
   "status": "proved",
   "theorems": [
    "Verif.Props.c44_two_taps",
    "Verif.Props.c44_differ",
    "Verif.Props.c44_packets_agree",
    "Verif.Props.c44_packets_exchanged",
    "Verif.Props.c44_packets_differ"
   ],
   "note": "The property first listed (one orientation in every backend) is false of the code; this is the exact truth. The orientations of wavedec2, MatrixWavedec2(separable) and (non-separable) individually are C16, C43 and C50."
  },
  {
   "property": "C45",
   "status": "proved",
   "theorems": [
    "Verif.Props.c45_losses_nonneg",
    "Verif.Props.c45_zero_iff_pr",
    "Verif.Props.c45_zero_loss_reconstructs",
    "Verif.Props.c45_soft_zero_iff_orthogonal",
    "Verif.Props.c45_pf_alias",
    "Verif.Props.c45_lowpass_orthogonality",
    "Verif.Props.c45_lowpass_half_precision",
    "Verif.Props.c45_length_mismatch"
   ],
   "note": "Over every linearly ordered field (exact arithmetic); filters of one common length; torch dtype promotion between filters of different dtypes is not modelled."
  },
  {
   "property": "C46",
   "status": "proved",
   "theorems": [
    "Verif.Props.c46_alias_means_new_name",
    "Verif.Props.c46_renamed_exists",
    "Verif.Props.c46_no_alias",
    "Verif.Props.c46_both_names",
    "Verif.Props.c46_alias_and_positional"
   ],
   "note": "For every alias table, signature, positional and keyword arguments; the warning filter is the default one (warnings do not raise)."
  },
  {
   "property": "C47",
   "status": "proved",
   "theorems": [
    "Verif.Props.c47_coefficients",
    "Verif.Props.c47_samples_exist",
    "Verif.Props.c47_too_small",
    "Verif.Props.c47_nonpositive_scale",
    "Verif.Props.c47_no_axes",
    "Verif.Props.c47_empty_axis",
    "Verif.Props.c47_biorthogonal",
    "Verif.Props.c47_no_scales",
    "Verif.Props.c47_real",
    "Verif.Props.c47_scales_independent",
    "Verif.Props.c47_linear"
   ],
   "note": "Exact real/complex arithmetic for the DFT, grid and scales; pywt's wavefun and central_frequency are arbitrary parameters on a strictly increasing grid; positive scales; output dtype (promotion to float64/complex) is not modelled."
  },
  {
   "property": "C48",
   "status": "proved",
   "theorems": [
    "Verif.Props.c48_auto_level",
    "Verif.Props.c48_wavedec_auto",
    "Verif.Props.c48_no_short_approximation",
    "Verif.Props.c48_wavedec2_auto",
    "Verif.Props.c48_wavedec3_auto"
   ],
   "note": "1d here; the minimum over the axes in the n-d theorems."
  },
  {
   "property": "C49",
   "status": "proved",
   "theorems": [
    "Verif.Props.c49_assignment_survives",
    "Verif.Props.c49_absent_overwritten"
   ],
   "note": "Shared by both packet classes; with the defect that assigning to an absent coefficient is undone by reading its sibling (c49_absent_overwritten)."
  },
  {
   "property": "C50",
   "status": "proved",
   "theorems": [
    "Verif.Props.c50_matrix",
    "Verif.Props.c50_roundtrip",
    "Verif.Props.c50_errors"
   ],
   "note": "Exact arithmetic with an exact QR/sqrt backend (ExactLinAlg, shown to exist); hypothesis BoundaryIndep (the cut-off 1d rows are independent at the lengths in question) is the condition under which the code's orthogonalisation does not divide by zero."
  },
  {
   "property": "C51",
   "status": "proved",
   "theorems": [
    "Verif.Props.c51_analysis_operator",
    "Verif.Props.c51_synthesis_operator",
    "Verif.Props.c51_no_operator",
    "Verif.Props.c51_padded"
   ],
   "note": "Exact arithmetic; with two or more levels the number of pixels must be at most 2^24 (float32) or 2^53 (float64), because cat_sparse_identity_matrix computes indices in the dtype of the matrix (modelled)."
  },
  {
   "property": "C52",
   "status": "proved",
   "theorems": [
    "Verif.Props.c52_two_taps_3d",
    "Verif.Props.c52_two_taps_1d"
   ],
   "note": "Exact arithmetic (real numbers). 2d is in C44."
  },
  {
   "property": "C53",
   "status": "proved",
   "theorems": [
    "Verif.Props.c53_explicit_level",
    "Verif.Props.c53_pywt",
    "Verif.Props.c53_wavedecn_auto",
    "Verif.Props.c53_fswavedec_tuple",
    "Verif.Props.c53_fswavedec_differ",
    "Verif.Props.c53_matrix_explicit",
    "Verif.Props.c53_matrix_object",
    "Verif.Props.c53_matrix_tuple",
    "Verif.Props.c53_matrix_tuple_nd"
   ],
   "note": "pywt.dwtn_max_level is external; its ValueError for wavelets that are neither strings nor pywt.Wavelet objects is part of the trusted model (Model/WaveletArg). The matrix theorems with the automatic level assume at least five (1d) or six samples per axis, so that the level for four taps is positive. Dtype conversion of the filters is not modelled."
  },
  {
   "property": "C54",
   "status": "proved",
   "theorems": [
    "Verif.Props.c54_wavedec2",
    "Verif.Props.c54_waverec2",
    "Verif.Props.c54_wavedec3",
    "Verif.Props.c54_waverec3",
    "Verif.Props.c54_fswavedec",
    "Verif.Props.c54_fswaverec",
    "Verif.Props.c54_swt",
    "Verif.Props.c54_iswt",
    "Verif.Props.c54_matrix_wavedec",
    "Verif.Props.c54_matrix_waverec",
    "Verif.Props.c54_matrix_wavedec_nd",
    "Verif.Props.c54_matrix_waverec_nd",
    "Verif.Props.c54_packet",
    "Verif.Props.c54_packet2",
    "Verif.Props.c54_packet_boundary",
    "Verif.Props.c54_packet2_boundary"
   ],
   "note": "Lin (Spec/Lin) is c*x+y entry by entry with equal shapes and meta data; Coeffs3 (Spec/LinN) relates containers tensor by tensor; Op3/Out3 (Spec/LinPacket) relate histories. Floating point rounding is not modelled."
  },
  {
   "property": "C55",
   "status": "proved",
   "theorems": [
    "Verif.Props.c55_separable2",
    "Verif.Props.c55_separable3",
    "Verif.Props.c55_nonseparable",
    "Verif.Props.c55_1d",
    "Verif.Props.c55_packets",
    "Verif.Props.c55_packets2",
    "Verif.Props.c55_packets2_nonsep",
    "Verif.Props.c55_swt",
    "Verif.Props.c55_level_keys"
   ],
   "note": "Over the reals, with exact linear algebra and independent cut-off rows (as C38/C40/C43/C50); swt over every field of characteristic 0 and without linear algebra. In modes other than zero the claim is restricted to sizes that stay even: one padded sample counts twice otherwise. The separate spec is Spec/Energy.lean."
  },
  {
   "property": "C56",
   "status": "proved",
   "theorems": [
    "Verif.Props.c56_flatten",
    "Verif.Props.c56_wavedec2",
    "Verif.Props.c56_lossless",
    "Verif.Props.c56_flatten_errors",
    "Verif.Props.c56_bins",
    "Verif.Props.c56_children"
   ],
   "note": "Order, row-major layout, losslessness and errors of _flatten_2d_coeff_lst; bins of _wpfreq and their relation to packets in frequency order."
  },
  {
   "property": "C57",
   "status": "proved",
   "theorems": [
    "Verif.Props.c57_frequencies",
    "Verif.Props.c57_grid",
    "Verif.Props.c57_values",
    "Verif.Props.c57_no_nan",
    "Verif.Props.c57_hermitian",
    "Verif.Props.c57_differentiable",
    "Verif.Props.c57_cwt"
   ],
   "note": "Exact real/complex arithmetic; NaN as a missing value; c57_cwt composes with C47."
  },
  {
   "property": "C58",
   "status": "proved",
   "theorems": [
    "Verif.Props.c58_wavedec2",
    "Verif.Props.c58_wavedec3",
    "Verif.Props.c58_fswavedec2",
    "Verif.Props.c58_fswavedec3",
    "Verif.Props.c58_constant_nd",
    "Verif.Props.c58_wavedec",
    "Verif.Props.c58_mode_independent",
    "Verif.Props.c58_polynomial",
    "Verif.Props.c58_constant",
    "Verif.Props.c58_packet",
    "Verif.Props.c58_packet2",
    "Verif.Props.c58_packet_constant",
    "Verif.Props.c58_packet2_constant",
    "Verif.Props.c58_polynomial_nd",
    "Verif.Props.c58_packet_polynomial",
    "Verif.Props.c58_packet2_polynomial"
   ],
   "note": "wavedec3 with at least one level (level 0: see C18). swt for constants whenever its wrap-around is harmless (C22)."
  },
  {
   "property": "C59",
   "status": "proved",
   "theorems": [
    "Verif.Props.c59_waverec2_textbook",
    "Verif.Props.c59_waverec2_size_clash",
    "Verif.Props.c59_waverec2_band_clash",
    "Verif.Props.c59_waverec3_textbook",
    "Verif.Props.c59_waverec3_size_clash",
    "Verif.Props.c59_waverec3_band_clash",
    "Verif.Props.c59_fswaverec2_textbook",
    "Verif.Props.c59_fswaverec3_textbook",
    "Verif.Props.c59_fswaverec2_short",
    "Verif.Props.c59_fswaverec3_short",
    "Verif.Props.c59_waverec3_eq_fswaverec3",
    "Verif.Props.c59_waverec2_eq_fswaverec2"
   ],
   "note": "Consistent sizes as written in Spec/IdwtNd (ConsistentN) and, for the separable transforms, Spec/IdwtSep (CoveredN, ShortN; the rejection is stated for non-empty batches); the one-dimensional case is C13."
  },
  {
   "property": "C60",
   "status": "proved",
   "theorems": [
    "Verif.Props.c60_adjoint_1d",
    "Verif.Props.c60_adjoint_2d",
    "Verif.Props.c60_adjoint_3d",
    "Verif.Props.c60_adjoint_fs2",
    "Verif.Props.c60_adjoint_fs3",
    "Verif.Props.c60_energy_1d",
    "Verif.Props.c60_energy_2d",
    "Verif.Props.c60_energy_3d",
    "Verif.Props.c60_energy_fs2",
    "Verif.Props.c60_energy_fs3"
   ],
   "note": "Exact arithmetic over any commutative ring (energy: any field of characteristic 0). wavedec3 and fswavedec3 with at least one level."
  },
  {
   "property": "C61",
   "status": "proved",
   "theorems": [
    "Verif.Props.c61_wavedec",
    "Verif.Props.c61_swt",
    "Verif.Props.c61_wavedec2",
    "Verif.Props.c61_wavedec3",
    "Verif.Props.c61_fswavedec2",
    "Verif.Props.c61_fswavedec3",
    "Verif.Props.c61_waverec",
    "Verif.Props.c61_iswt",
    "Verif.Props.c61_waverec2",
    "Verif.Props.c61_waverec3",
    "Verif.Props.c61_fswaverec2",
    "Verif.Props.c61_fswaverec3",
    "Verif.Props.c61_packet",
    "Verif.Props.c61_packet2",
    "Verif.Props.c61_wavedec_alone",
    "Verif.Props.c61_wavedec2_alone",
    "Verif.Props.c61_wavedec3_alone",
    "Verif.Props.c61_matrix",
    "Verif.Props.c61_matrix2",
    "Verif.Props.c61_matrix3",
    "Verif.Props.c61_matrix2_nonsep",
    "Verif.Props.c61_cwt"
   ],
   "note": "wavedec3 for at least one level; swt/iswt when the wrap-around is harmless (as C24); reconstructions on coefficients whose sizes fit (as C13, C59); matrix transforms for new objects on tensors of the same dtype and device; packets for keys both objects can read."
  },
  {
   "property": "C62",
   "status": "proved",
   "theorems": [
    "Verif.Props.c62_wavedec",
    "Verif.Props.c62_wavedec_fails",
    "Verif.Props.c62_wavedec2",
    "Verif.Props.c62_wavedec3",
    "Verif.Props.c62_fswavedec2",
    "Verif.Props.c62_fswavedec3",
    "Verif.Props.c62_intermediate",
    "Verif.Props.c62_intermediate2",
    "Verif.Props.c62_intermediate3",
    "Verif.Props.c62_packet",
    "Verif.Props.c62_packet2",
    "Verif.Props.c62_packet_boundary",
    "Verif.Props.c62_packet2_boundary",
    "Verif.Props.c62_packet_is_wavedec",
    "Verif.Props.c62_packet2_is_wavedec2"
   ],
   "note": "wavedec3 for positive numbers of levels (with level 0 it returns its argument with an additional axis, C18); the exceptions are part of the equation for wavedec, for the N-d transforms success and value."
  },
  {
   "property": "C63",
   "status": "proved",
   "theorems": [
    "Verif.Props.c63_matrix",
    "Verif.Props.c63_matrix2",
    "Verif.Props.c63_matrix3",
    "Verif.Props.c63_nonseparable"
   ],
   "note": "relative to exact linear algebra (ExactLinAlg) and the independence of the boundary rows, as in C38/C40/C43/C50."
  },
  {
   "property": "C64",
   "status": "proved",
   "theorems": [
    "Verif.Props.c64_matrix",
    "Verif.Props.c64_matrix_accepts",
    "Verif.Props.c64_matrix_band_clash",
    "Verif.Props.c64_matrix2",
    "Verif.Props.c64_matrix3",
    "Verif.Props.c64_matrix3_small",
    "Verif.Props.c64_nonseparable",
    "Verif.Props.c64_band_clash"
   ],
   "note": "relative to exact linear algebra (ExactLinAlg) and the independence of the boundary rows, as in C38/C40/C43/C50. For images and volumes acceptance is proved from consistent sizes to success, with the clash of the first detail for images."
  },
  {
   "property": "C65",
   "status": "proved",
   "theorems": [
    "Verif.Props.c65_waverec2_accepts",
    "Verif.Props.c65_waverec3_accepts",
    "Verif.Props.c65_fswaverec_accepts",
    "Verif.Props.c65_matrix2_accepts",
    "Verif.Props.c65_matrix3_accepts",
    "Verif.Props.c65_waverec2_kind",
    "Verif.Props.c65_waverec2_dict_after_triple",
    "Verif.Props.c65_waverec3_kind",
    "Verif.Props.c65_waverec3_key",
    "Verif.Props.c65_fswaverec_kind",
    "Verif.Props.c65_matrix_kind",
    "Verif.Props.c65_foreign",
    "Verif.Props.c65_empty",
    "Verif.Props.c65_first"
   ],
   "note": "the containers of the model hold tensors, 3-tuples, dictionaries and foreign objects (neither tensor, tuple nor dictionary); tuples of other lengths than three do not exist in the model."
  },
  {
   "property": "C66",
   "status": "proved",
   "theorems": [
    "Verif.Props.c66_wavedec2",
    "Verif.Props.c66_wavedec3",
    "Verif.Props.c66_fswavedecn",
    "Verif.Props.c66_matrix2",
    "Verif.Props.c66_matrix3",
    "Verif.Props.c66_waverec2"
   ],
   "note": "wavedec2, waverec2 (arbitrary coefficients), wavedec3, fswavedecn, separable MatrixWavedec2 and MatrixWavedec3. The non-separable MatrixWavedec2 is not covered: its two-dimensional orthogonalisation processes the rows in an order that depends on the order of the axes."
  },
  {
   "property": "C67",
   "status": "proved",
   "theorems": [
    "Verif.Props.c67_wavedec",
    "Verif.Props.c67_waverec",
    "Verif.Props.c67_wavedec2",
    "Verif.Props.c67_waverec2",
    "Verif.Props.c67_wavedec3",
    "Verif.Props.c67_waverec3",
    "Verif.Props.c67_fswavedec",
    "Verif.Props.c67_fswaverec",
    "Verif.Props.c67_swt",
    "Verif.Props.c67_packet",
    "Verif.Props.c67_packet2d",
    "Verif.Props.c67_iswt",
    "Verif.Props.c67_losses"
   ],
   "note": "Exact arithmetic. The matrix transforms are not covered (QR and Gram-Schmidt divide and take square roots, which ring maps do not respect in general)."
  },
  {
   "property": "C68",
   "status": "proved",
   "theorems": [
    "Verif.Props.c68_wavedec",
    "Verif.Props.c68_waverec",
    "Verif.Props.c68_wavedec2",
    "Verif.Props.c68_waverec2",
    "Verif.Props.c68_wavedec3",
    "Verif.Props.c68_waverec3",
    "Verif.Props.c68_fswavedec",
    "Verif.Props.c68_fswaverec",
    "Verif.Props.c68_swt",
    "Verif.Props.c68_packet",
    "Verif.Props.c68_packet2d",
    "Verif.Props.c68_iswt",
    "Verif.Props.c68_losses",
    "Verif.Props.c68_class_continuous",
    "Verif.Props.c68_class_differentiable",
    "Verif.Props.c68_class_smooth",
    "Verif.Props.c68_class_differentiableAt",
    "Verif.Props.c68_success",
    "Verif.Props.c68_coefficient"
   ],
   "note": "That gradients exist; that torch's autograd computes them is not modelled."
  },
  {
   "property": "C69",
   "status": "proved",
   "theorems": [
    "Verif.Props.c69_delay",
    "Verif.Props.c69_reach",
    "Verif.Props.c69_constant"
   ],
   "note": "From the closed form of C47. Biorthogonal wavelets raise ValueError (C47)."
  },
  {
   "property": "C70",
   "status": "proved",
   "theorems": [
    "Verif.Props.c70_wavedec_dominated",
    "Verif.Props.c70_waverec_dominated",
    "Verif.Props.c70_wavedec2_dominated",
    "Verif.Props.c70_waverec2_dominated",
    "Verif.Props.c70_wavedec3_dominated",
    "Verif.Props.c70_waverec3_dominated",
    "Verif.Props.c70_fswavedec_dominated",
    "Verif.Props.c70_fswaverec_dominated",
    "Verif.Props.c70_swt_dominated",
    "Verif.Props.c70_packet_dominated",
    "Verif.Props.c70_packet2d_dominated",
    "Verif.Props.c70_wavedec_bound",
    "Verif.Props.c70_wavedec_sensitivity",
    "Verif.Props.c70_waverec_bound",
    "Verif.Props.c70_waverec_sensitivity",
    "Verif.Props.c70_wavedec2_bound",
    "Verif.Props.c70_wavedec3_bound",
    "Verif.Props.c70_iswt_dominated"
   ],
   "note": "Exact arithmetic in an ordered ring (iswt: an ordered field); the bounds say how exact results react to perturbed inputs, not how floating point rounds. Domination is stated for all transforms and packet histories, explicit constants for wavedec, waverec, wavedec2 and wavedec3."
  },
  {
   "property": "C71",
   "status": "proved",
   "theorems": [
    "Verif.Props.c71_del_absent",
    "Verif.Props.c71_del_present",
    "Verif.Props.c71_look_only",
    "Verif.Props.c71_lazy",
    "Verif.Props.c71_orphan",
    "Verif.Props.c71_pop",
    "Verif.Props.c71_setdefault_readable",
    "Verif.Props.c71_setdefault_beyond",
    "Verif.Props.c71_lookups",
    "Verif.Props.c71_never_wrong",
    "Verif.Props.c71_sibling_reverted",
    "Verif.Props.c71_2d_lookups",
    "Verif.Props.c71_2d_never_wrong",
    "Verif.Props.c71_boundary_lookups",
    "Verif.Props.c71_2d_boundary_lookups",
    "Verif.Props.c71_round_trip",
    "Verif.Props.c71_2d_round_trip"
   ],
   "note": "UserDict/MutableMapping methods del, in, get (both variants found in Python versions), pop, setdefault are modelled on top of the packet state machine; iteration order, len, clear, popitem, copy are not. Proved for both classes; look-ups also in boundary mode; the round trip with deleted inner nodes for the padding modes."
  },
  {
   "property": "C72",
   "status": "proved",
   "theorems": [
    "Verif.Props.c72_isometry_1d",
    "Verif.Props.c72_isometry_2d",
    "Verif.Props.c72_isometry_3d",
    "Verif.Props.c72_pythagoras_1d",
    "Verif.Props.c72_pythagoras_2d",
    "Verif.Props.c72_pythagoras_3d",
    "Verif.Props.c72_isometry_fs2",
    "Verif.Props.c72_pythagoras_fs2",
    "Verif.Props.c72_isometry_fs3",
    "Verif.Props.c72_pythagoras_fs3",
    "Verif.Props.c72_adjoint_swt",
    "Verif.Props.c72_isometry_swt",
    "Verif.Props.c72_pythagoras_swt",
    "Verif.Props.c72_least_squares_1d",
    "Verif.Props.c72_least_squares_2d",
    "Verif.Props.c72_least_squares_3d",
    "Verif.Props.c72_contraction_1d",
    "Verif.Props.c72_contraction_2d",
    "Verif.Props.c72_contraction_3d",
    "Verif.Props.c72_least_squares_fs2",
    "Verif.Props.c72_contraction_fs2",
    "Verif.Props.c72_least_squares_fs3",
    "Verif.Props.c72_contraction_fs3",
    "Verif.Props.c72_least_squares_swt",
    "Verif.Props.c72_contraction_swt"
   ],
   "note": "Over fields of characteristic zero (identities) and ordered fields (inequalities), exact arithmetic. swt under the wrap-around condition of C24."
  },
  {
   "property": "C73",
   "status": "proved",
   "theorems": [
    "Verif.Props.c73_contained",
    "Verif.Props.c73_first_level",
    "Verif.Props.c73_interleaved"
   ],
   "note": "Under the wrap-around condition of C24 for swt; exact arithmetic."
  },
  {
   "property": "C74",
   "status": "proved",
   "theorems": [
    "Verif.Props.c74_dot",
    "Verif.Props.c74_wavedec",
    "Verif.Props.c74_waverec",
    "Verif.Props.c74_sequential",
    "Verif.Props.c74_round",
    "Verif.Props.c74_binary",
    "Verif.Props.c74_exact",
    "Verif.Props.c74_wavedec_error",
    "Verif.Props.c74_compose",
    "Verif.Props.c74_roundtrip",
    "Verif.Props.c74_own_dtype",
    "Verif.Props.c74_own_dtype_waverec"
   ],
   "note": "The convolutions are parameters of the programs, constrained only to return a rounded evaluation of the sum of products for every entry; c74_binary shows that left-to-right evaluation with p-digit rounding satisfies the constraint, c74_exact that exact routines give the programs of the other claims. Overflow, underflow and NaN are excluded. Taps are rounded at the dtype of the data only (own_dtype)."
  },
  {
   "property": "C75",
   "status": "proved",
   "theorems": [
    "Verif.Props.c75_own_dtype_wavedec2",
    "Verif.Props.c75_own_dtype_wavedec3",
    "Verif.Props.c75_own_dtype_waverec",
    "Verif.Props.c75_wavedec2",
    "Verif.Props.c75_waverec2",
    "Verif.Props.c75_wavedec3",
    "Verif.Props.c75_waverec3",
    "Verif.Props.c75_sequential",
    "Verif.Props.c75_binary",
    "Verif.Props.c75_exact",
    "Verif.Props.c75_wavedec2_error",
    "Verif.Props.c75_wavedec3_error",
    "Verif.Props.c75_roundtrip2",
    "Verif.Props.c75_roundtrip3"
   ],
   "note": "As C74 with the outer products of the filters rounded as well; c75_binary and c75_exact as there. Explicit bounds for the decompositions, the round trips are bounded by two exact runs on absolute values. Overflow, underflow and NaN are excluded. Taps are rounded at the dtype of the data only (own_dtype)."
  },
  {
   "property": "C76",
   "status": "proved",
   "theorems": [
    "Verif.Props.c76_own_dtype_swt",
    "Verif.Props.c76_own_dtype_iswt",
    "Verif.Props.c76_fswavedec",
    "Verif.Props.c76_fswaverec",
    "Verif.Props.c76_swt",
    "Verif.Props.c76_iswt",
    "Verif.Props.c76_packet",
    "Verif.Props.c76_packet2d_separable",
    "Verif.Props.c76_packet2d",
    "Verif.Props.c76_sequential",
    "Verif.Props.c76_binary",
    "Verif.Props.c76_exact",
    "Verif.Props.c76_swt_error",
    "Verif.Props.c76_swt_roundtrip",
    "Verif.Props.c76_fswavedec_error",
    "Verif.Props.c76_fs_roundtrip"
   ],
   "note": "As C74 and C75 (same relation, same projections), with the grouped transposed convolution and the mean of iswt as further routines. Explicit bounds for the decompositions and for the stationary round trip; the separable round trip is bounded by two exact runs on absolute values; packets by two exact histories. Overflow, underflow and NaN are excluded. Taps are rounded at the dtype of the data only (own_dtype)."
  },
  {
   "property": "C77",
   "status": "proved",
   "theorems": [
    "Verif.Props.c77_lengths",
    "Verif.Props.c77_decompose",
    "Verif.Props.c77_periodization",
    "Verif.Props.c77_unread",
    "Verif.Props.c77_one_scale",
    "Verif.Props.c77_not_injective",
    "Verif.Props.c77_init",
    "Verif.Props.c77_forward",
    "Verif.Props.c77_identity",
    "Verif.Props.c77_linear"
   ],
   "note": "Proved with the code as it is: in WaveletReconstruction1D.forward the start of the next segment is set to coefficient_lengths[s] instead of stop, which is why reconstruction fails for two or more scales (c77_unread, c77_not_injective). The permutation and the dropout masks are parameters of the model. Weights and input have one dtype and device (else torch.mm raises). Training is not modelled."
  },
  {
   "property": "C78",
   "status": "proved",
   "theorems": [
    "Verif.Props.c78_waverec",
    "Verif.Props.c78_waverec2",
    "Verif.Props.c78_waverec3",
    "Verif.Props.c78_fswaverec",
    "Verif.Props.c78_iswt",
    "Verif.Props.c78_matrix_waverec",
    "Verif.Props.c78_matrix_waverec_nd",
    "Verif.Props.c78_components",
    "Verif.Props.c78_components2",
    "Verif.Props.c78_components3",
    "Verif.Props.c78_components_fs2",
    "Verif.Props.c78_components_fs3",
    "Verif.Props.c78_components_swt"
   ],
   "note": "Exact arithmetic (rounding: C74 to C76). Dictionaries are weighted per key, tuples per position."
  },
  {
   "property": "C79",
   "status": "proved",
   "theorems": [
    "Verif.Props.c79_image",
    "Verif.Props.c79_every_packet_once",
    "Verif.Props.c79_tree",
    "Verif.Props.c79_injective",
    "Verif.Props.c79_errors"
   ],
   "note": "The rest of the example script (loading images, plotting) is not modelled. Numpy arrays are modelled as tensors with three axes in the theorems."
  },
  {
   "property": "C80",
   "status": "proved",
   "theorems": [
    "Verif.Props.c80_zero_mode_packet",
    "Verif.Props.c80_delay_packet",
    "Verif.Props.c80_zero_mode_packet2",
    "Verif.Props.c80_delay_packet2",
    "Verif.Props.c80_zero_mode",
    "Verif.Props.c80_delay",
    "Verif.Props.c80_zero_mode_wavedec2",
    "Verif.Props.c80_zero_mode_wavedec3",
    "Verif.Props.c80_zero_mode_fswavedec2",
    "Verif.Props.c80_zero_mode_fswavedec3",
    "Verif.Props.c80_delay_wavedec2",
    "Verif.Props.c80_delay_wavedec3",
    "Verif.Props.c80_delay_fswavedec2",
    "Verif.Props.c80_delay_fswavedec3"
   ],
   "note": "Exact arithmetic over any semiring. The statements on delays are for explicit levels; wavedec3 with at least one level (level 0 returns a wrong shape, C18). Packets: any node after any history of reads."
  },
  {
   "property": "C81",
   "status": "proved",
   "theorems": [
    "Verif.Props.c81_mirror",
    "Verif.Props.c81_mirror_waverec",
    "Verif.Props.c81_mirror_wavedec2",
    "Verif.Props.c81_mirror_wavedec3",
    "Verif.Props.c81_mirror_fswavedec2",
    "Verif.Props.c81_mirror_fswavedec3",
    "Verif.Props.c81_mirror_waverec2",
    "Verif.Props.c81_mirror_waverec3",
    "Verif.Props.c81_mirror_fswaverec2",
    "Verif.Props.c81_mirror_fswaverec3",
    "Verif.Props.c81_mirror_packet",
    "Verif.Props.c81_mirror_packet2"
   ],
   "note": "Levels of odd length are padded at one end only, so the evenness condition is part of the property. The multidimensional decompositions are for explicit levels; packets for every history of reads."
  },
  {
   "property": "C82",
   "status": "proved",
   "theorems": [
    "Verif.Props.c82_waverec",
    "Verif.Props.c82_wavedec",
    "Verif.Props.c82_wavedec2",
    "Verif.Props.c82_wavedec3",
    "Verif.Props.c82_fswavedec2",
    "Verif.Props.c82_fswavedec3",
    "Verif.Props.c82_waverec2",
    "Verif.Props.c82_waverec3",
    "Verif.Props.c82_fswaverec2",
    "Verif.Props.c82_fswaverec3",
    "Verif.Props.c82_perfect_reconstruction",
    "Verif.Props.c82_packet",
    "Verif.Props.c82_packet2",
    "Verif.Props.c82_swt",
    "Verif.Props.c82_iswt"
   ],
   "note": "Exact arithmetic over any commutative semiring. wavedec3 is stated for at least one level (level 0 is C17's business). Filters of at least two taps, analysis filters of equal length. swt and iswt for filters of even length whenever the wrap-around of swt is harmless (C22)."
  },
  {
   "property": "C83",
   "status": "proved",
   "theorems": [
    "Verif.Props.c83_repeat",
    "Verif.Props.c83_roll",
    "Verif.Props.c83_roll_wavedec2",
    "Verif.Props.c83_roll_wavedec3",
    "Verif.Props.c83_roll_fswavedec2",
    "Verif.Props.c83_roll_fswavedec3",
    "Verif.Props.c83_long_filters",
    "Verif.Props.c83_roll_packet",
    "Verif.Props.c83_roll_packet2"
   ],
   "note": "With longer filters the second level sees a signal that is longer than half a circle, so the restriction to one level there is part of the property. c83_long_filters shows that the restriction cannot be dropped."
  },
  {
   "property": "C84",
   "status": "proved",
   "theorems": [
    "Verif.Props.c84_analysis_1d",
    "Verif.Props.c84_analysis_2d",
    "Verif.Props.c84_analysis_3d",
    "Verif.Props.c84_analysis_nonseparable",
    "Verif.Props.c84_synthesis_1d",
    "Verif.Props.c84_synthesis_2d",
    "Verif.Props.c84_synthesis_3d",
    "Verif.Props.c84_synthesis_nonseparable",
    "Verif.Props.c84_packets",
    "Verif.Props.c84_packets2",
    "Verif.Props.c84_packets2_nonsep"
   ],
   "note": "Orthogonal filter bank, exact linear algebra (QR/inverse as specified in ExactLinAlg), independent cut-off rows. Analysis: zero mode for all sizes, other modes for sizes without padding. Synthesis: all coefficient values of dyadic sizes."
  },
  {
   "property": "C85",
   "status": "proved",
   "theorems": [
    "Verif.Props.c85_backends_agree_inside",
    "Verif.Props.c85_local",
    "Verif.Props.c85_polynomial",
    "Verif.Props.c85_polynomial_coarse",
    "Verif.Props.c85_haar"
   ],
   "note": "One dimension. Orthogonal filter bank, exact linear algebra (QR/inverse as specified in ExactLinAlg), independent cut-off rows; examples with db2. The window is the exact set of samples an inner row reads."
  }
 ]
}