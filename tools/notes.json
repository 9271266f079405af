{
 "C01": {
  "status": "proved",
  "note": "Exact arithmetic over any commutative ring; every rank, axis, level, mode, even filter length with the Laurent-polynomial PR condition."
 },
 "C02": {
  "status": "proved",
  "note": "The coefficients are the iterated textbook formula line by line."
 },
 "C03": {
  "status": "proved",
  "note": "Exact for every filter length >= 1; floor((n+F-1)/2) for even F."
 },
 "C04": {
  "status": "proved",
  "note": "iff characterisation of success, and of failure for reflect and periodic; unknown mode strings raise only if at least one level is computed."
 },
 "C05": {
  "status": "proved",
  "note": "wavedec and waverec, including equal success/failure; rank, levels, batch arbitrary."
 },
 "C06": {
  "status": "proved",
  "note": ""
 },
 "C07": {
  "status": "proved",
  "note": "A defect: no recursion depth suffices."
 },
 "C08": {
  "status": "proved",
  "note": "Includes the exact failure condition of every mode and the pictures at the borders."
 },
 "C09": {
  "status": "proved",
  "note": "Axes that are literally different but name the same dimension raise RuntimeError, not ValueError."
 },
 "C10": {
  "status": "proved",
  "note": "Default axes: ValueError; explicit axes: some error."
 },
 "C11": {
  "status": "proved",
  "note": "For wavedec/waverec; conv2/conv3/separable share the checks through their characterisations."
 },
 "C12": {
  "status": "proved",
  "note": ""
 },
 "C13": {
  "status": "proved",
  "note": "iff for the AssertionError; complete behaviour of waverec on arbitrary coefficients."
 },
 "C14": {
  "status": "proved",
  "note": "A limitation: theorem holds for every odd filter length and even signal length."
 },
 "C48": {
  "status": "proved",
  "note": "1d here; the minimum over the axes in the n-d theorems."
 },
 "C25": {
  "status": "proved",
  "note": "WaveletPacket and WaveletPacket2D, every padding mode and mode='boundary', separable or not: any history of reads/initialisations, any key, with the exact condition under which a boundary-mode key is too short to be read. Boundary mode in exact arithmetic with an exact QR/sqrt backend (ExactLinAlg, shown to exist) and independent cut-off rows."
 },
 "C26": {
  "status": "proved",
  "note": "Stated for the code shared by both packet classes."
 },
 "C27": {
  "status": "proved",
  "note": ""
 },
 "C28": {
  "status": "proved",
  "note": ""
 },
 "C29": {
  "status": "proved",
  "note": "Includes the defect at level 0: the grid is empty although the level has one node."
 },
 "C30": {
  "status": "proved",
  "note": "WaveletPacket and WaveletPacket2D, every padding mode and mode='boundary', separable or not; the missing-leaf theorems hold for both classes. Boundary mode as in C25."
 },
 "C31": {
  "status": "proved",
  "note": "Proved for WaveletPacket with padding modes and boundary matrices and WaveletPacket2D with padding modes; exceptions proved: failing transforms keep a stale level (c31_failed_transform, c31_2d_failed_transform), and in boundary mode the cached matrices keep the dtype of the first signal (c31_boundary_dtype). WaveletPacket2D with mode='boundary' included (separable and non-separable)."
 },
 "C49": {
  "status": "proved",
  "note": "Shared by both packet classes; with the defect that assigning to an absent coefficient is undone by reading its sibling (c49_absent_overwritten)."
 },
 "C15": {
  "status": "proved",
  "note": "All tensors, axes, modes, levels, even-length PR banks over a field of characteristic 0."
 },
 "C16": {
  "status": "proved",
  "note": "Values, container, orientation, success condition for wavedec2."
 },
 "C17": {
  "status": "proved",
  "note": "level >= 1 as in the claim; level 0 is C18."
 },
 "C18": {
  "status": "proved",
  "note": "Keys, values and success condition for >= 1 level; the level-0 shape clause is false of the code and its negation is proved (c18_level_zero_wrong_shape)."
 },
 "C19": {
  "status": "proved",
  "note": "2d: equality of results iff; 3d for >= 1 level (wavedec3 at level 0 is C18). The one difference in success is proved (c19_empty_side)."
 },
 "C20": {
  "status": "proved",
  "note": "fswaverec2/3 invert fswavedec2/3, every level count; fswaverec3 also inverts wavedec3."
 },
 "C21": {
  "status": "proved",
  "note": "fswaverec2/3: unchanged otherwise (c21_unchanged), modified with default axes and one batch axis (c21_dicts_modified), same result for every number of calls (c21_same_result, c21_container_stable), observable by waverec3 (c21_waverec3_fails_afterwards). MatrixWaverec3: c21_mat3_unchanged; with default axes and one batch axis every dictionary gains 'aaa' and the second call raises ValueError (c21_mat3_second_call_fails), also for coefficients of MatrixWavedec3 (c21_mat3_roundtrip_once). With unmodified coefficients repeated matrix calls give the same result (c21_mat_same_result). waverec/2/3 and MatrixWaverec/2 are pure in the model (tuples of tensors, no in-place tensor operation in the code). The plain claim 'inverse transforms never modify their arguments' is false of the code: finding F4 in DESIGN.md."
 },
 "C22": {
  "status": "proved",
  "note": "Periodic extension for every pad pair with equal round counts, in particular every dilation dividing the length; an exact iff on tensors with a line of distinct entries, and a concrete wrong wrap (n=7, F=8, d=2)."
 },
 "C23": {
  "status": "proved",
  "note": "Every tensor, axis, level whose dilations divide the length (or whose dilated half filter fits), every no-distortion bank of even length; default level always. iswt of arbitrary coefficients is the textbook inverse. Outside the hypothesis the round trip is wrong (negation proved)."
 },
 "C24": {
  "status": "proved",
  "note": "Size preservation needs no wrap hypothesis; shift equivariance under the hypothesis of C23."
 },
 "C32": {
  "status": "proved",
  "note": "Every non-empty filter over any semiring, every length and mode; product with every dense matrix. The other sizes/modes are proved rejected."
 },
 "C33": {
  "status": "proved",
  "note": "Every stride >= 1; the sampled positions are proved to be exactly those in range."
 },
 "C34": {
  "status": "proved",
  "note": "Any stored layout (duplicates, stored zeros, empty). Finding proved: with an empty factor the result is float32 whatever the dtype (c34_zero_dtype)."
 },
 "C35": {
  "status": "proved",
  "note": "cat_sparse_identity_matrix within the index precision of the dtype, with the failure beyond it proved (c35_identity_lost); sparse_diag with exact success condition; sparse_replace_row for square matrices, with the RuntimeError for all others proved (c35_replace_row_nonsquare)."
 },
 "C36": {
  "status": "proved",
  "note": "Both Kronecker implementations, strided and unstrided, column-major flattening. Finding proved: same/sameshift always fail for images at most half as wide as the filter (c36_narrow)."
 },
 "C37": {
  "status": "proved",
  "note": "Every rank and dimension for _batch_dim_mm; batch_mm for batches of matrices."
 },
 "C38": {
  "status": "proved",
  "note": "Over the reals with an exact square root and any QR routine that meets the specification of torch.linalg.qr; independence of the cut-off rows is a hypothesis shown necessary, independent of the length (so one check per filter bank suffices), decided by the left end for alternating flips, and settled for two, four, six (iff) and eight taps (determinant condition)."
 },
 "C39": {
  "status": "proved",
  "note": "Transposition over every field; inverse over the reals with exact square root / QR."
 },
 "C40": {
  "status": "proved",
  "note": "Over the reals with exact square root / QR (as C38); independence of the cut-off rows at all even lengths up to n is a hypothesis (proved for two- and four-tap banks). np.log2 is exact in the model; the stderr warning is not modelled."
 },
 "C41": {
  "status": "proved",
  "note": "For n up to 2^24 (float32) or 2^53 (float64), because the code stores indices in the dtype of the matrix."
 },
 "C42": {
  "status": "proved",
  "note": "For every field and every linear-algebra backend under which building a matrix never fails; the exceptions of the English statement (level=None, dtype change) are separate theorems."
 },
 "C45": {
  "status": "proved",
  "note": "Over every linearly ordered field (exact arithmetic); filters of one common length; torch dtype promotion between filters of different dtypes is not modelled."
 },
 "C46": {
  "status": "proved",
  "note": "For every alias table, signature, positional and keyword arguments; the warning filter is the default one (warnings do not raise)."
 },
 "C47": {
  "status": "proved",
  "note": "Exact real/complex arithmetic for the DFT, grid and scales; pywt's wavefun and central_frequency are arbitrary parameters on a strictly increasing grid; positive scales; output dtype (promotion to float64/complex) is not modelled."
 },
 "C43": {
  "status": "proved",
  "note": "Separable 2d and 3d objects; exact arithmetic with an exact QR/sqrt backend (ExactLinAlg, shown to exist). MatrixWavedec2 needs a non-empty batch (reshape of an empty batch raises). The values and round trip of the non-separable 2d object are C50."
 },
 "C50": {
  "status": "proved",
  "note": "Exact arithmetic with an exact QR/sqrt backend (ExactLinAlg, shown to exist); hypothesis BoundaryIndep (the cut-off 1d rows are independent at the lengths in question) is the condition under which the code's orthogonalisation does not divide by zero."
 },
 "C51": {
  "status": "proved",
  "note": "Exact arithmetic; with two or more levels the number of pixels must be at most 2^24 (float32) or 2^53 (float64), because cat_sparse_identity_matrix computes indices in the dtype of the matrix (modelled)."
 },
 "C44": {
  "status": "proved",
  "note": "The property first listed (one orientation in every backend) is false of the code; this is the exact truth. The orientations of wavedec2, MatrixWavedec2(separable) and (non-separable) individually are C16, C43 and C50."
 },
 "C52": {
  "status": "proved",
  "note": "Exact arithmetic (real numbers). 2d is in C44."
 },
 "C53": {
  "status": "proved",
  "note": "pywt.dwtn_max_level is external; its ValueError for wavelets that are neither strings nor pywt.Wavelet objects is part of the trusted model (Model/WaveletArg). The matrix theorems with the automatic level assume at least five (1d) or six samples per axis, so that the level for four taps is positive. Dtype conversion of the filters is not modelled."
 },
 "C54": {
  "status": "proved",
  "note": "Lin (Spec/Lin) is c*x+y entry by entry with equal shapes and meta data; Coeffs3 (Spec/LinN) relates containers tensor by tensor; Op3/Out3 (Spec/LinPacket) relate histories. Floating point rounding is not modelled."
 },
 "C55": {
  "status": "proved",
  "note": "Over the reals, with exact linear algebra and independent cut-off rows (as C38/C40/C43/C50); swt over every field of characteristic 0 and without linear algebra. In modes other than zero the claim is restricted to sizes that stay even: one padded sample counts twice otherwise. The separate spec is Spec/Energy.lean."
 },
 "C56": {
  "status": "proved",
  "note": "Order, row-major layout, losslessness and errors of _flatten_2d_coeff_lst; bins of _wpfreq and their relation to packets in frequency order."
 },
 "C57": {
  "status": "proved",
  "note": "Exact real/complex arithmetic; NaN as a missing value; c57_cwt composes with C47."
 },
 "C58": {
  "status": "proved",
  "note": "wavedec3 with at least one level (level 0: see C18). swt for constants whenever its wrap-around is harmless (C22)."
 },
 "C59": {
  "status": "proved",
  "note": "Consistent sizes as written in Spec/IdwtNd (ConsistentN) and, for the separable transforms, Spec/IdwtSep (CoveredN, ShortN; the rejection is stated for non-empty batches); the one-dimensional case is C13."
 },
 "C60": {
  "status": "proved",
  "note": "Exact arithmetic over any commutative ring (energy: any field of characteristic 0). wavedec3 and fswavedec3 with at least one level."
 },
 "C61": {
  "status": "proved",
  "note": "wavedec3 for at least one level; swt/iswt when the wrap-around is harmless (as C24); reconstructions on coefficients whose sizes fit (as C13, C59); matrix transforms for new objects on tensors of the same dtype and device; packets for keys both objects can read."
 },
 "C62": {
  "status": "proved",
  "note": "wavedec3 for positive numbers of levels (with level 0 it returns its argument with an additional axis, C18); the exceptions are part of the equation for wavedec, for the N-d transforms success and value."
 },
 "C63": {
  "status": "proved",
  "note": "relative to exact linear algebra (ExactLinAlg) and the independence of the boundary rows, as in C38/C40/C43/C50."
 },
 "C64": {
  "status": "proved",
  "note": "relative to exact linear algebra (ExactLinAlg) and the independence of the boundary rows, as in C38/C40/C43/C50. For images and volumes acceptance is proved from consistent sizes to success, with the clash of the first detail for images."
 },
 "C65": {
  "status": "proved",
  "note": "the containers of the model hold tensors, 3-tuples, dictionaries and foreign objects (neither tensor, tuple nor dictionary); tuples of other lengths than three do not exist in the model."
 },
 "C66": {
  "status": "proved",
  "note": "wavedec2, waverec2 (arbitrary coefficients), wavedec3, fswavedecn, separable MatrixWavedec2 and MatrixWavedec3. The non-separable MatrixWavedec2 is not covered: its two-dimensional orthogonalisation processes the rows in an order that depends on the order of the axes."
 },
 "C67": {
  "status": "proved",
  "note": "Exact arithmetic. The matrix transforms are not covered (QR and Gram-Schmidt divide and take square roots, which ring maps do not respect in general)."
 },
 "C68": {
  "status": "proved",
  "note": "That gradients exist; that torch's autograd computes them is not modelled."
 },
 "C69": {
  "status": "proved",
  "note": "From the closed form of C47. Biorthogonal wavelets raise ValueError (C47)."
 },
 "C70": {
  "status": "proved",
  "note": "Exact arithmetic in an ordered ring (iswt: an ordered field); the bounds say how exact results react to perturbed inputs, not how floating point rounds. Domination is stated for all transforms and packet histories, explicit constants for wavedec, waverec, wavedec2 and wavedec3."
 },
 "C71": {
  "status": "proved",
  "note": "UserDict/MutableMapping methods del, in, get (both variants found in Python versions), pop, setdefault are modelled on top of the packet state machine; iteration order, len, clear, popitem, copy are not. Proved for both classes; look-ups also in boundary mode; the round trip with deleted inner nodes for the padding modes."
 },
 "C72": {
  "status": "proved",
  "note": "Over fields of characteristic zero (identities) and ordered fields (inequalities), exact arithmetic. swt under the wrap-around condition of C24."
 },
 "C73": {
  "status": "proved",
  "note": "Under the wrap-around condition of C24 for swt; exact arithmetic."
 },
 "C74": {
  "status": "proved",
  "note": "The convolutions are parameters of the programs, constrained only to return a rounded evaluation of the sum of products for every entry; c74_binary shows that left-to-right evaluation with p-digit rounding satisfies the constraint, c74_exact that exact routines give the programs of the other claims. Overflow, underflow and NaN are excluded. Taps are rounded at the dtype of the data only (own_dtype)."
 },
 "C75": {
  "status": "proved",
  "note": "As C74 with the outer products of the filters rounded as well; c75_binary and c75_exact as there. Explicit bounds for the decompositions, the round trips are bounded by two exact runs on absolute values. Overflow, underflow and NaN are excluded. Taps are rounded at the dtype of the data only (own_dtype)."
 },
 "C76": {
  "status": "proved",
  "note": "As C74 and C75 (same relation, same projections), with the grouped transposed convolution and the mean of iswt as further routines. Explicit bounds for the decompositions and for the stationary round trip; the separable round trip is bounded by two exact runs on absolute values; packets by two exact histories. Overflow, underflow and NaN are excluded. Taps are rounded at the dtype of the data only (own_dtype)."
 },
 "C77": {
  "status": "proved",
  "note": "Proved with the code as it is: in WaveletReconstruction1D.forward the start of the next segment is set to coefficient_lengths[s] instead of stop, which is why reconstruction fails for two or more scales (c77_unread, c77_not_injective). The permutation and the dropout masks are parameters of the model. Weights and input have one dtype and device (else torch.mm raises). Training is not modelled."
 },
 "C78": {
  "status": "proved",
  "note": "Exact arithmetic (rounding: C74 to C76). Dictionaries are weighted per key, tuples per position."
 },
 "C79": {
  "status": "proved",
  "note": "The rest of the example script (loading images, plotting) is not modelled. Numpy arrays are modelled as tensors with three axes in the theorems."
 },
 "C80": {
  "status": "proved",
  "note": "Exact arithmetic over any semiring. The statements on delays are for explicit levels; wavedec3 with at least one level (level 0 returns a wrong shape, C18). Packets: any node after any history of reads."
 },
 "C81": {
  "status": "proved",
  "note": "Levels of odd length are padded at one end only, so the evenness condition is part of the property. The multidimensional decompositions are for explicit levels; packets for every history of reads."
 },
 "C82": {
  "status": "proved",
  "note": "Exact arithmetic over any commutative semiring. wavedec3 is stated for at least one level (level 0 is C17's business). Filters of at least two taps, analysis filters of equal length. swt and iswt for filters of even length whenever the wrap-around of swt is harmless (C22)."
 },
 "C83": {
  "status": "proved",
  "note": "With longer filters the second level sees a signal that is longer than half a circle, so the restriction to one level there is part of the property. c83_long_filters shows that the restriction cannot be dropped."
 },
 "C84": {
  "status": "proved",
  "note": "Orthogonal filter bank, exact linear algebra (QR/inverse as specified in ExactLinAlg), independent cut-off rows. Analysis: zero mode for all sizes, other modes for sizes without padding. Synthesis: all coefficient values of dyadic sizes."
 },
 "C85": {
  "status": "proved",
  "note": "One dimension. Orthogonal filter bank, exact linear algebra (QR/inverse as specified in ExactLinAlg), independent cut-off rows; examples with db2. The window is the exact set of samples an inner row reads."
 }
}