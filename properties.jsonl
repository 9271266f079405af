{"id": "C01", "title": "1d perfect reconstruction (padded conv transform)", "statement": "In exact arithmetic, waverec(wavedec(x, w, mode, level, axis), w, axis) succeeds and returns a tensor whose size along the axis is n if n is even (or no level is computed) and n+1 if n is odd, equal to x on the whole range of x.", "quantifier": "every tensor x of rank >= 1, every axis, every padding mode for which the forward transform succeeds, every level, every even-length perfect-reconstruction filter bank", "why_tests_cant": "tests use a handful of lengths, levels, wavelets; an off-by-one in padding removal shows only for some parity pattern of intermediate lengths", "anchors": ["src/ptwt/conv_transform.py:wavedec", "src/ptwt/conv_transform.py:waverec", "src/ptwt/_util.py:_get_pad", "src/ptwt/_util.py:_adjust_padding_at_reconstruction"]}
{"id": "C02", "title": "wavedec computes the textbook DWT coefficients", "statement": "Level s+1 coefficients are c_k[i] = sum_j h_k[j] * ext(cA_s)(2i+1-j), with ext the infinite extension named by the mode; returned as [cA_L, cD_L, ..., cD_1], and every entry depends only on the line of x through it along the transformed axis.", "quantifier": "every tensor of rank >= 1, axis, mode, level, filter length >= 2 where the call succeeds", "why_tests_cant": "agreement with pywt can only be sampled", "anchors": ["src/ptwt/conv_transform.py:wavedec", "src/ptwt/conv_transform.py:_fwt_pad"]}
{"id": "C03", "title": "wavedec output sizes", "statement": "wavedec returns exactly level+1 tensors; each level's size along the axis is floor((n+F-1)/2) of the previous level's n for even F, approximation and detail of a level agree, and all other axes are unchanged.", "quantifier": "every input shape, filter length, level", "why_tests_cant": "infinitely many (n, F, level)", "anchors": ["src/ptwt/conv_transform.py:wavedec", "src/ptwt/_util.py:_get_pad"]}
{"id": "C04", "title": "wavedec totality and mode-dependent failure", "statement": "For modes zero, constant and symmetric wavedec never fails on a non-empty supported tensor; mode reflect fails exactly when at some level F-2+(n mod 2) >= n, and mode periodic exactly when F-2+(n mod 2) > n.", "quantifier": "every length, filter length, level, mode", "why_tests_cant": "failure depends on intermediate lengths deep in the recursion", "anchors": ["src/ptwt/conv_transform.py:_fwt_pad", "src/ptwt/conv_transform.py:wavedec"]}
{"id": "C05", "title": "linearity of the 1d transforms", "statement": "wavedec and waverec are linear maps: they commute with sums and scalar multiples of inputs of equal shape (same success, same shapes).", "quantifier": "every pair of same-shaped tensors, scalar, mode, level, axis", "why_tests_cant": "universally quantified over signals", "anchors": ["src/ptwt/conv_transform.py:wavedec", "src/ptwt/conv_transform.py:waverec"]}
{"id": "C06", "title": "symmetric padding is the half-sample symmetric extension for any padding length", "statement": "Symmetric padding by (l, r) of a non-empty signal returns l+n+r samples, sample i being the period-2n half-sample-symmetric extension at i-l, even when l or r exceed n; it always terminates for n > 0.", "quantifier": "every non-empty signal, every pair of padding lengths", "why_tests_cant": "the recursion depth is unbounded", "anchors": ["src/ptwt/_util.py:_pad_symmetric_1d", "src/ptwt/_util.py:_pad_symmetric"]}
{"id": "C07", "title": "empty signals and symmetric padding", "statement": "Symmetric padding of an empty signal by a positive amount never terminates normally (unbounded recursion), so no result exists at any recursion budget.", "quantifier": "every recursion budget, every positive pad", "why_tests_cant": "non-termination cannot be observed by a test", "anchors": ["src/ptwt/_util.py:_pad_symmetric_1d"]}
{"id": "C08", "title": "each mode string selects the documented extension", "statement": "constant replicates the edge, zero extends by zeros, reflect mirrors without repeating the edge, periodic repeats cyclically, symmetric mirrors with the edge; None means reflect; any other string raises ValueError.", "quantifier": "every mode string, signal and padding width", "why_tests_cant": "quantifies over all strings and signals", "anchors": ["src/ptwt/_util.py:_translate_boundary_strings", "src/ptwt/conv_transform.py:_fwt_pad", "src/ptwt/constants.py:BoundaryMode"]}
{"id": "C09", "title": "axis swap and its inverse", "statement": "Moving the transformed axes last and undoing it returns the identical tensor for every list of distinct axes (negative or not); repeated axes raise ValueError and out-of-range axes raise an error.", "quantifier": "every tensor rank, shape and axes list", "why_tests_cant": "the number of axis permutations is unbounded", "anchors": ["src/ptwt/_util.py:_swap_axes", "src/ptwt/_util.py:_undo_swap_axes", "src/ptwt/_util.py:_get_transpose_order"]}
{"id": "C10", "title": "dimension preprocessing round trip", "statement": "Post-processing a pre-processed tensor restores shape and content, for any number of leading batch dimensions including none, any axes; rank smaller than the transform dimension raises ValueError with default axes and some error with explicit axes.", "quantifier": "every rank, shape, axes, transform dimension", "why_tests_cant": "unbounded ranks", "anchors": ["src/ptwt/_util.py:_preprocess_coeffs", "src/ptwt/_util.py:_postprocess_coeffs", "src/ptwt/_util.py:_fold_axes", "src/ptwt/_util.py:_unfold_axes"]}
{"id": "C11", "title": "dtype and device checks", "statement": "Transforms accept exactly float32/float64 inputs (otherwise ValueError), keep dtype and device of the input in every output, and inverse transforms raise ValueError when coefficient tensors disagree in dtype or device.", "quantifier": "every coefficient structure", "why_tests_cant": "arbitrary position of the offending tensor", "anchors": ["src/ptwt/_util.py:_check_same_device_dtype", "src/ptwt/_util.py:_preprocess_coeffs"]}
{"id": "C12", "title": "coefficient tree map preserves structure", "statement": "Mapping over a coefficient container keeps its kind (list, tuple of 3-tuples, tuple of dicts), number of levels, dict keys and order, and visits every tensor exactly once.", "quantifier": "every coefficient structure and function", "why_tests_cant": "arbitrary nesting", "anchors": ["src/ptwt/_util.py:_coeff_tree_map"]}
{"id": "C13", "title": "inconsistent coefficients are rejected by waverec", "statement": "If the detail tensor for the next level has a size that is neither the reconstructed size nor one less, waverec raises AssertionError instead of returning data.", "quantifier": "every coefficient list", "why_tests_cant": "unbounded sizes", "anchors": ["src/ptwt/_util.py:_adjust_padding_at_reconstruction", "src/ptwt/conv_transform.py:waverec"]}
{"id": "C14", "title": "odd filter lengths are not supported", "statement": "For odd-length filters and even-length signals the reconstruction loses a sample: waverec(wavedec(x)) is shorter than x, so the perfect reconstruction guarantee needs even filter length.", "quantifier": "every even n and odd F >= 3", "why_tests_cant": "shows the boundary of the guarantee", "anchors": ["src/ptwt/_util.py:_get_pad", "src/ptwt/conv_transform.py:waverec"]}
{"id": "C15", "title": "2d perfect reconstruction", "statement": "waverec2(wavedec2(x)) returns x, padded by at most one row and one column when the respective size is odd.", "quantifier": "every tensor of rank >= 2, pair of distinct axes, mode, level, even-length perfect-reconstruction filter bank", "why_tests_cant": "as C01 with two interacting parities per level", "anchors": ["src/ptwt/conv_transform_2.py:wavedec2", "src/ptwt/conv_transform_2.py:waverec2"]}
{"id": "C16", "title": "wavedec2 is the tensor product of 1d transforms with documented orientation", "statement": "Horizontal details are high-pass along the first transformed axis and low-pass along the second, vertical the reverse, diagonal high-pass along both; values are the iterated 1d formula.", "quantifier": "every input", "why_tests_cant": "universally quantified over images", "anchors": ["src/ptwt/conv_transform_2.py:wavedec2", "src/ptwt/_util.py:_construct_2d_filt"]}
{"id": "C17", "title": "3d perfect reconstruction", "statement": "waverec3(wavedec3(x)) returns x up to at most one extra sample per odd axis, for level >= 1.", "quantifier": "every tensor of rank >= 3, axes, mode, level >= 1, even-length perfect-reconstruction filter bank", "why_tests_cant": "as C15", "anchors": ["src/ptwt/conv_transform_3.py:wavedec3", "src/ptwt/conv_transform_3.py:waverec3"]}
{"id": "C18", "title": "wavedec3 keys and level-0 shape", "statement": "Each level dict of wavedec3 has exactly the 7 documented keys, key character i naming the filter of axis i; at level 0 the returned approximation should have the shape of the input.", "quantifier": "every input and level", "why_tests_cant": "all shapes", "anchors": ["src/ptwt/conv_transform_3.py:wavedec3"]}
{"id": "C19", "title": "separable transforms agree with non-separable ones", "statement": "fswavedec2 returns the coefficients of wavedec2 under the naming da=horizontal, ad=vertical, dd=diagonal; fswavedec3 returns those of wavedec3 under the same keys.", "quantifier": "every input, mode, level", "why_tests_cant": "universally quantified", "anchors": ["src/ptwt/separable_conv_transform.py:fswavedec2", "src/ptwt/conv_transform_2.py:wavedec2"]}
{"id": "C20", "title": "separable perfect reconstruction", "statement": "fswaverec2/3 inverts fswavedec2/3 with at most one extra sample per odd axis.", "quantifier": "every tensor, axes, mode, level, even-length PR filter bank", "why_tests_cant": "as C15", "anchors": ["src/ptwt/separable_conv_transform.py:fswaverec2", "src/ptwt/separable_conv_transform.py:_separable_conv_idwtn"]}
{"id": "C21", "title": "exactly when inverse transforms modify the coefficients they are given, and what a second call does", "statement": "An inverse transform leaves the caller's coefficient containers unchanged, except fswaverec2/fswaverec3 and MatrixWaverec3 called with the default axes on coefficients with exactly one batch axis: these add the approximation (key 'aa…a') to every detail dictionary of the caller. A second fswaverec2/3 (and MatrixWaverec/MatrixWaverec2) call with the same container gives the same result, any number of times; a second MatrixWaverec3 call with the same container (default axes, one batch axis, at least one level) raises ValueError, even for coefficients that MatrixWavedec3 has just produced; waverec3 called after fswaverec3 on the same container raises too.", "quantifier": "every coefficient container and every sequence of calls", "why_tests_cant": "aliasing depends on which preprocessing branches ran", "anchors": ["src/ptwt/separable_conv_transform.py:_separable_conv_waverecn", "src/ptwt/matmul_transform_3.py:MatrixWaverec3.__call__"]}
{"id": "C22", "title": "circular padding is periodic extension", "statement": "The multi-wrap circular pad equals the periodic extension of the signal whenever the pad widths arise from a dilation dividing the signal length.", "quantifier": "every signal and pad pair", "why_tests_cant": "the number of wraps is unbounded", "anchors": ["src/ptwt/stationary_transform.py:_circular_pad"]}
{"id": "C23", "title": "stationary transform perfect reconstruction", "statement": "iswt(swt(x)) = x with the same shape.", "quantifier": "every tensor, axis, level whose dilations divide the length (or whose dilated half filter is not longer than the signal), every filter bank with H0F0+H1F1 = 2z^-(F-1), even F; for the default level every signal", "why_tests_cant": "levels and wrap counts unbounded", "anchors": ["src/ptwt/stationary_transform.py:swt", "src/ptwt/stationary_transform.py:iswt"]}
{"id": "C24", "title": "stationary transform is shift equivariant and size preserving", "statement": "Every swt output has the size of the input, and cyclically shifting the input cyclically shifts every coefficient tensor.", "quantifier": "sizes: every tensor and level; shifts: every shift and every level as in C23", "why_tests_cant": "all shifts", "anchors": ["src/ptwt/stationary_transform.py:swt"]}
{"id": "C25", "title": "packet coefficients are independent of access order", "statement": "The value of wp[key] for a key of length <= maxlevel over the filter alphabet equals the composition of single-level analysis steps along the key, whatever sequence of accesses and initialisations happened before.", "quantifier": "every history of read operations", "why_tests_cant": "exponentially many histories", "anchors": ["src/ptwt/packets.py:WaveletPacket.__getitem__", "src/ptwt/packets.py:WaveletPacket._expand_node"]}
{"id": "C26", "title": "packet key errors", "statement": "Reading an absent key longer than maxlevel raises KeyError, an absent key with a character outside the alphabet raises ValueError, reading before any transform raises ValueError; errors leave previously available values unchanged.", "quantifier": "every key and history", "why_tests_cant": "all strings", "anchors": ["src/ptwt/packets.py:WaveletPacket.__getitem__", "src/ptwt/packets.py:WaveletPacket2D.__getitem__"]}
{"id": "C27", "title": "packet natural order is complete", "statement": "get_level(level, natural) lists every key of that length over the alphabet exactly once in lexicographic (product) order, 1d and 2d.", "quantifier": "every level", "why_tests_cant": "exponential size", "anchors": ["src/ptwt/packets.py:WaveletPacket.get_level", "src/ptwt/packets.py:WaveletPacket2D.get_natural_order"]}
{"id": "C28", "title": "packet frequency order is a Gray code", "statement": "get_level(level, freq) lists every key exactly once and consecutive keys differ in exactly one position; node i is the reflected Gray code of i.", "quantifier": "every level", "why_tests_cant": "exponential size", "anchors": ["src/ptwt/packets.py:WaveletPacket._get_graycode_order"]}
{"id": "C29", "title": "2d frequency order is a complete grid", "statement": "get_freq_order(level) is a 2^level x 2^level grid containing every 2d key exactly once, with row/column given by the Gray order of its row/column filter path.", "quantifier": "every level >= 1", "why_tests_cant": "exponential size", "anchors": ["src/ptwt/packets.py:WaveletPacket2D.get_freq_order"]}
{"id": "C30", "title": "packet reconstruction", "statement": "reconstruct raises KeyError if a leaf is missing, only depends on leaf values, and after a full expansion with unchanged leaves restores the input at the root (up to one trailing sample).", "quantifier": "every tree depth, input, history", "why_tests_cant": "unbounded depth", "anchors": ["src/ptwt/packets.py:WaveletPacket.reconstruct"]}
{"id": "C31", "title": "packet object reuse", "statement": "transform(new data) makes the object indistinguishable from a freshly constructed one: no stale coefficient is ever served.", "quantifier": "every history before the transform", "why_tests_cant": "all histories", "anchors": ["src/ptwt/packets.py:WaveletPacket.transform"]}
{"id": "C32", "title": "convolution matrices", "statement": "construct_conv_matrix(f, n, mode) @ x equals the full/same/valid discrete convolution of f and x.", "quantifier": "every filter, length, mode, signal", "why_tests_cant": "all sizes", "anchors": ["src/ptwt/sparse_math.py:construct_conv_matrix"]}
{"id": "C33", "title": "strided convolution matrices", "statement": "construct_strided_conv_matrix @ x equals the convolution subsampled with the stride, starting at 0 (1 for sameshift).", "quantifier": "every filter, length, stride, mode", "why_tests_cant": "all sizes", "anchors": ["src/ptwt/sparse_math.py:construct_strided_conv_matrix"]}
{"id": "C34", "title": "sparse Kronecker product", "statement": "sparse_kron(a, b) is the Kronecker product of a and b, including matrices with no stored entries; the dtypes are promoted (a factor without entries gives float32).", "quantifier": "every pair of sparse matrices, with duplicate stored entries", "why_tests_cant": "all sizes and storage layouts", "anchors": ["src/ptwt/sparse_math.py:sparse_kron"]}
{"id": "C35", "title": "sparse helpers", "statement": "cat_sparse_identity_matrix is the block-diagonal extension (for every size: with the indices rounded to the precision of the dtype, which is no change up to 2^24 in float32), sparse_diag has the values on the shifted diagonal, sparse_replace_row replaces exactly one row.", "quantifier": "every matrix and index", "why_tests_cant": "all sizes", "anchors": ["src/ptwt/sparse_math.py:cat_sparse_identity_matrix", "src/ptwt/sparse_math.py:sparse_diag", "src/ptwt/sparse_math.py:sparse_replace_row"]}
{"id": "C36", "title": "2d convolution matrix", "statement": "construct_conv2d_matrix @ vec(X) (column-major) equals the full/same/valid 2d convolution; the strided version subsamples both axes.", "quantifier": "every filter, image, mode", "why_tests_cant": "all sizes", "anchors": ["src/ptwt/sparse_math.py:construct_conv2d_matrix", "src/ptwt/sparse_math.py:construct_strided_conv2d_matrix"]}
{"id": "C37", "title": "batched matrix products", "statement": "batch_mm and _batch_dim_mm multiply every slice along the given dimension by the matrix and touch nothing else.", "quantifier": "every batch shape and dimension", "why_tests_cant": "all shapes", "anchors": ["src/ptwt/sparse_math.py:batch_mm", "src/ptwt/sparse_math.py:_batch_dim_mm"]}
{"id": "C38", "title": "boundary orthogonalisation", "statement": "For an orthogonal filter bank whose rows cut off by the boundary are linearly independent at the given length (always the case for Haar and for four-tap alternating-flip banks such as db2), construct_boundary_a (both methods) returns a square matrix with orthonormal rows and columns; the rows of full support are the unchanged filter rows, the others are combinations of the cut-off rows. Independence is necessary, holds for one even length n >= F iff for all of them, and for six-tap alternating-flip banks holds iff the middle taps do not both vanish. Any other method name is a ValueError as soon as there is a row to orthogonalise.", "quantifier": "every even length, every orthogonal filter bank with independent cut-off rows, both methods; exact arithmetic (exact square root and QR)", "why_tests_cant": "all lengths", "anchors": ["src/ptwt/matmul_transform.py:orthogonalize", "src/ptwt/sparse_math.py:_orth_by_gram_schmidt", "src/ptwt/sparse_math.py:_orth_by_qr", "src/ptwt/matmul_transform.py:_construct_a"]}
{"id": "C39", "title": "analysis and synthesis matrices are inverse", "statement": "For orthogonal filter banks construct_boundary_s is the transpose of construct_boundary_a for every length and method, and, when the cut-off rows are independent, its inverse (both products are identity matrices).", "quantifier": "every even length", "why_tests_cant": "all lengths", "anchors": ["src/ptwt/matmul_transform.py:construct_boundary_a", "src/ptwt/matmul_transform.py:construct_boundary_s"]}
{"id": "C40", "title": "matrix transform perfect reconstruction and energy preservation", "statement": "For an orthogonal filter bank with independent cut-off rows, MatrixWavedec returns, for every tensor, axis, mode, method and level, the coefficients given level by level by the boundary-orthogonalised matrices applied to the lines of the input (extended by one sample where a length is odd), and MatrixWaverec returns the input exactly (with one extra sample if its length is odd); if no level is odd, the squared norm of every line equals that of its coefficients. Levels that are not positive, unsupported dtypes, axes and methods are errors.", "quantifier": "every tensor, axis, level, length, padding mode, method and orthogonal bank with independent cut-off rows", "why_tests_cant": "all lengths and levels", "anchors": ["src/ptwt/matmul_transform.py:MatrixWavedec.__call__", "src/ptwt/matmul_transform.py:MatrixWaverec.__call__"]}
{"id": "C41", "title": "sparse operators represent the transform", "statement": "For inputs without odd levels (and lengths the dtype counts exactly) sparse_fwt_operator maps every signal to the concatenation of the coefficients the call returns, and sparse_ifwt_operator maps this concatenation back; both raise ValueError before the first call and NotImplementedError if a level was padded.", "quantifier": "every length and level", "why_tests_cant": "all sizes", "anchors": ["src/ptwt/matmul_transform.py:MatrixWavedec.sparse_fwt_operator", "src/ptwt/matmul_transform.py:MatrixWaverec.sparse_ifwt_operator"]}
{"id": "C42", "title": "matrix transform object reuse", "statement": "With an explicit positive level, a call to a MatrixWavedec (or MatrixWaverec) object returns what a new object returns, whatever tensors of the same dtype and device were transformed before, including calls that raised. With level=None the level of the first call is kept for all later lengths, and if it is 0 every later call fails; a tensor of another dtype but the same length is a RuntimeError.", "quantifier": "every history of calls", "why_tests_cant": "all histories", "anchors": ["src/ptwt/matmul_transform.py:MatrixWavedec.__call__", "src/ptwt/matmul_transform.py:MatrixWaverec.__call__"]}
{"id": "C43", "title": "2d and 3d separable matrix transforms: correctness, perfect reconstruction, re-use", "statement": "With an orthogonal filter bank whose cut-off boundary rows are independent, MatrixWavedec2 (separable) and MatrixWavedec3 succeed for every tensor without empty axes (3d: also with an empty batch), every choice of axes, odd-coefficient padding mode, orthogonalization method and level (positive or None); the returned coefficients are those obtained by applying the orthogonal 1d boundary matrices along every axis, level by level, on sizes made even by one padded sample; MatrixWaverec2/3 return the input, with at most one extra sample on each odd axis; the 3d synthesis rejects level-0 coefficients with ValueError. A non-positive level is a ValueError, bad axes/methods are rejected by the constructors, and objects with explicit level can be re-used for any history of inputs of one dtype without a trace of earlier calls.", "quantifier": "every orthogonal filter bank, tensor (rank, shape, batch), axes, padding mode, orthogonalization method, level, and every history of earlier calls", "why_tests_cant": "shapes, axes, levels, filters and call histories are unbounded", "anchors": ["src/ptwt/matmul_transform_2.py:MatrixWavedec2", "src/ptwt/matmul_transform_2.py:MatrixWaverec2", "src/ptwt/matmul_transform_3.py:MatrixWavedec3", "src/ptwt/matmul_transform_3.py:MatrixWaverec3"]}
{"id": "C44", "title": "orientation of the 2d detail tuples in the different backends", "statement": "The first detail entry (H, or packet letter h) of wavedec2, MatrixWavedec2(separable=False) and WaveletPacket2D(separable=False) is the band that is high pass along the first of the two axes; MatrixWavedec2(separable=True) and WaveletPacket2D(separable=True) put that band in the second entry (V, letter v) instead. So for filter banks with two taps wavedec2 and the non-separable MatrixWavedec2 return the same tuples and the separable one returns them with H and V exchanged; for every filter bank, reading a key of a separable packet object gives the tensor a non-separable one gives under the key with h and v exchanged. There are images for which the exchange changes the values, so the tuples are not interchangeable between backends.", "quantifier": "every image, batch shape, axes, padding mode, level; every orthogonal two-tap bank (decompositions), every filter bank and history of reads (packets)", "why_tests_cant": "a comparison of two programs on all inputs and all read histories", "anchors": ["src/ptwt/matmul_transform_2.py:MatrixWavedec2.__call__", "src/ptwt/packets.py:WaveletPacket2D._transform_fsdict_to_tuple_func", "src/ptwt/conv_transform_2.py:wavedec2"]}
{"id": "C45", "title": "zero wavelet loss means perfect reconstruction", "statement": "For a learnable bank of four filters of one length all losses are defined and non-negative. product_filter_loss() = 0 iff the bank has perfect reconstruction, and then (even length) waverec inverts wavedec with it. pf_alias_cancellation_loss() = 0 iff F0(z) = H1(-z), F1(z) = -H0(-z) up to a common sign, and implies alias cancellation. rec_lo_orthogonality_loss() = 0 iff the low-pass filter is orthonormal to its double shifts (RuntimeError for half precision). SoftOrthogonalWavelet.wavelet_loss() = 0 iff the bank is orthogonal.", "quantifier": "every real filter bank", "why_tests_cant": "continuum of parameters", "anchors": ["src/ptwt/wavelets_learnable.py:WaveletFilter", "src/ptwt/wavelets_learnable.py:ProductFilter.product_filter_loss", "src/ptwt/wavelets_learnable.py:SoftOrthogonalWavelet.wavelet_loss"]}
{"id": "C46", "title": "deprecated argument aliases", "statement": "A call that uses deprecated keywords behaves as the call with the new keywords in their place, whatever the order, plus exactly one warning per deprecated keyword; a call without them is unchanged and warns of nothing; naming a parameter twice, by alias and new name, by two aliases or by alias and position, raises TypeError without running the body.", "quantifier": "every keyword dictionary", "why_tests_cant": "all dictionaries", "anchors": ["src/ptwt/_util.py:_deprecated_alias"]}
{"id": "C47", "title": "cwt shape and FFT-size independence", "statement": "Every scale's coefficients have exactly the shape of the input and equal -sqrt(scale) times the difference of the linear convolution of the data's last axis with the reversed, resampled integrated wavelet, centre-cropped (real part unless the wavelet is complex); the FFT padding never causes wrap-around, a scale's coefficients and frequency do not depend on the other scales, the transform is linear, real data and real wavelets lose nothing by taking the real part, a scale too small to leave two samples is a ValueError, so is a biorthogonal wavelet; a tensor without axes is an IndexError, and on an empty last axis a scale too small to leave two samples is a RuntimeError.", "quantifier": "every data tensor, scale list, wavelet, precision", "why_tests_cant": "all sizes", "anchors": ["src/ptwt/continuous_transform.py:cwt", "src/ptwt/continuous_transform.py:_next_fast_len"]}
{"id": "C48", "title": "automatic decomposition level", "statement": "With level=None the number of levels is the largest L with (F-1)*2^L <= n (0 if none), the minimum over axes in nd, and every approximation along the way has at least F-1 samples.", "quantifier": "every n and F >= 2", "why_tests_cant": "all sizes", "anchors": ["src/ptwt/conv_transform.py:wavedec", "src/ptwt/conv_transform_2.py:wavedec2"]}
{"id": "C49", "title": "assigned packet coefficients survive", "statement": "A value assigned to a coefficient of a packet tree (wp[key] = t) is what later reads of that key return, until the key is assigned again or the tree is transformed or reconstructed; this holds when the coefficient is already in the tree, and fails when it is not and a sibling is read afterwards.", "quantifier": "every history of reads, initialisations and assignments", "why_tests_cant": "all histories", "anchors": ["src/ptwt/packets.py:WaveletPacket._expand_node", "src/ptwt/packets.py:WaveletPacket.__getitem__"]}
{"id": "C50", "title": "non-separable boundary transform of images", "statement": "construct_boundary_a2 returns, for an orthogonal wavelet and even sizes, a square matrix with orthonormal rows and columns whose interior rows are the rows of the two-dimensional filter bank and whose boundary rows stay in the span of the cut-off rows; construct_boundary_s2 returns its transpose. MatrixWavedec2(separable=False) applies these matrices level by level (padding odd sizes), and MatrixWaverec2(separable=False) inverts it: the image comes back with at most one more row and column. An image too small for one level raises UnboundLocalError, an empty batch RuntimeError.", "quantifier": "every orthogonal filter bank, every even size (matrix), every tensor, pair of axes, padding mode, orthogonalisation method and level", "why_tests_cant": "all sizes, levels and filter banks", "anchors": ["src/ptwt/matmul_transform_2.py:construct_boundary_a2", "src/ptwt/matmul_transform_2.py:construct_boundary_s2", "src/ptwt/matmul_transform_2.py:MatrixWavedec2", "src/ptwt/matmul_transform_2.py:MatrixWaverec2"]}
{"id": "C51", "title": "operator matrices of the 2d boundary transform", "statement": "After MatrixWavedec2(separable=False) was called on an image none of whose levels is odd (or whose single level may be odd), sparse_fwt_operator is a square matrix that maps every image of that size, read column by column, to all its coefficients packed one after the other (approximation, then per level the vertical-, horizontal- and diagonal-high bands, coarsest first); after MatrixWaverec2 was called on the coefficients, sparse_ifwt_operator maps packed coefficients back to the image. Separable objects and objects with several levels one of which was padded raise NotImplementedError, objects without matrices ValueError.", "quantifier": "every orthogonal filter bank, image size, level, axes, padding mode, orthogonalisation method, and every image the operator is applied to", "why_tests_cant": "all sizes, levels and filter banks, and all vectors the operator acts on", "anchors": ["src/ptwt/matmul_transform_2.py:MatrixWavedec2.sparse_fwt_operator", "src/ptwt/matmul_transform_2.py:MatrixWaverec2.sparse_ifwt_operator", "src/ptwt/sparse_math.py:cat_sparse_identity_matrix"]}
{"id": "C52", "title": "two-tap filters: convolution and boundary-filter backends agree", "statement": "For every orthogonal filter bank with two taps (Haar and its rotations) MatrixWavedec returns exactly the coefficients wavedec returns, and MatrixWavedec3 the same tensors under the same keys as wavedec3, when they use the same number of levels, also for odd lengths, whatever the padding mode and orthogonalisation method.", "quantifier": "every signal (length at least two), batch shape, axes, padding mode, orthogonalisation method, level giving at least one level", "why_tests_cant": "a comparison of two programs on all sizes, levels and values", "anchors": ["src/ptwt/conv_transform.py:wavedec", "src/ptwt/conv_transform_3.py:wavedec3", "src/ptwt/matmul_transform.py:MatrixWavedec.__call__", "src/ptwt/matmul_transform_3.py:MatrixWavedec3.__call__"]}
{"id": "C53", "title": "the representation of the wavelet", "statement": "A wavelet given by name or as pywt.Wavelet, as an object with the attributes of the Wavelet protocol (e.g. a learnable wavelet) or as WaveletTensorTuple gives the same results in every transform whenever the level is explicit, for matrix objects in every call after every history of calls. With the automatic level (level=None) protocol objects still agree with pywt wavelets in the separable and matrix transforms, but wavedec2 and wavedec3 raise ValueError for protocol objects and tensor tuples on every valid input, and the separable and matrix transforms give every WaveletTensorTuple the number of levels that is automatic for four taps: fewer levels than the pywt wavelet for two taps, more for eight or more taps.", "quantifier": "every filter bank, representation, input, axes, mode, level, history of calls", "why_tests_cant": "all filter lengths, sizes and histories", "anchors": ["src/ptwt/constants.py:WaveletTensorTuple", "src/ptwt/_util.py:_as_wavelet", "src/ptwt/separable_conv_transform.py:_separable_conv_wavedecn", "src/ptwt/matmul_transform.py:MatrixWavedec.__call__", "src/ptwt/matmul_transform_2.py:MatrixWavedec2.__call__", "src/ptwt/matmul_transform_3.py:MatrixWavedec3.__call__", "src/ptwt/conv_transform_2.py:wavedec2", "src/ptwt/conv_transform_3.py:wavedec3"]}
{"id": "C54", "title": "every transform is linear", "statement": "wavedec2/3, waverec2/3, fswavedec2/3, fswaverec2/3, swt, iswt and every call of a matrix object in every state are linear: on x, y and c*x+y they raise the same exception or return results with r_z = c*r_x + r_y in containers of the same form, and the state of a matrix object after a call does not depend on the values. For packet objects the same holds along every history: three objects given the same sequence of reads, initialisations, assignments, transforms and reconstructions with tensors x, y and c*x+y produce outcomes in the same relation. In particular failures depend on shapes, dtypes and devices only.", "quantifier": "every commutative semiring (field for iswt, matrices), scalar, pair of equally shaped inputs, filter bank, mode, level, axes, object state, history", "why_tests_cant": "universally quantified over signals and histories", "anchors": ["src/ptwt/conv_transform_2.py:wavedec2", "src/ptwt/conv_transform_2.py:waverec2", "src/ptwt/conv_transform_3.py:wavedec3", "src/ptwt/conv_transform_3.py:waverec3", "src/ptwt/separable_conv_transform.py:_fswavedecn", "src/ptwt/separable_conv_transform.py:_fswaverecn", "src/ptwt/stationary_transform.py:swt", "src/ptwt/stationary_transform.py:iswt", "src/ptwt/matmul_transform.py:MatrixWavedec.__call__", "src/ptwt/matmul_transform.py:MatrixWaverec.__call__", "src/ptwt/matmul_transform_2.py:MatrixWavedec2.__call__", "src/ptwt/matmul_transform_2.py:MatrixWaverec2.__call__", "src/ptwt/matmul_transform_3.py:MatrixWavedec3.__call__", "src/ptwt/matmul_transform_3.py:MatrixWaverec3.__call__", "src/ptwt/packets.py:WaveletPacket", "src/ptwt/packets.py:WaveletPacket2D"]}
{"id": "C55", "title": "orthogonal transforms preserve the energy", "statement": "For an orthogonal filter bank with exact linear algebra: the squares of all coefficients of MatrixWavedec, MatrixWavedec2 (separable or not) and MatrixWavedec3 add up to the squares of the input, for every size in zero mode and for sizes that stay even in the other modes; the squares of all packets of any level of a WaveletPacket / WaveletPacket2D in boundary mode add up to those of the input, however the object was used before; and swt is a tight frame: 2^L times the energy of the input is the energy of a_L plus 2^(L-s) times that of d_s summed over the levels s.", "quantifier": "all orthogonal filter banks, inputs (batches, odd sizes), axes, levels, both orthogonalisation methods, all earlier uses of a packet object", "why_tests_cant": "an identity over all real inputs, sizes, axes, level counts and object histories", "anchors": ["src/ptwt/matmul_transform.py:MatrixWavedec", "src/ptwt/matmul_transform_2.py:MatrixWavedec2", "src/ptwt/matmul_transform_3.py:MatrixWavedec3", "src/ptwt/packets.py:WaveletPacket", "src/ptwt/stationary_transform.py:swt"]}
{"id": "C56", "title": "flattened coefficient lists and packet frequencies", "statement": "_flatten_2d_coeff_lst applied to an approximation followed by L triples returns 1 + 3L tensors in container order, flattened in row-major order if asked (device and dtype kept); every wavedec2 result can be flattened; flattening is lossless for given shapes and keeps the energy; empty containers raise IndexError, containers not starting with a tensor or with dictionaries AttributeError. _wpfreq(fs, level) has 2^level increasing bins n*fs/2^(level+1) below the Nyquist frequency, and the bins of the two children of a packet in frequency order halve the band of their parent.", "quantifier": "all containers, shapes, level counts, sampling rates and wavelets", "why_tests_cant": "unbounded shapes, level counts and packet depths", "anchors": ["src/ptwt/_util.py:_flatten_2d_coeff_lst", "src/ptwt/packets.py:_wpfreq", "src/ptwt/packets.py:WaveletPacket.get_level"]}
{"id": "C57", "title": "learnable continuous wavelets", "statement": "Whatever values an optimiser gives the parameters, bandwidth and centre frequency of a learnable Shannon or Morlet wavelet are non-negative (positive unless the parameter is 0) and initially those of pywt; wavefun(p) returns 2^p equally spaced grid points from the lower to the upper bound with the values of the Shannon / complex Morlet formula; values are Hermitian, their modulus is independent of the centre frequency, and they are differentiable in both parameters; on a symmetric grid there is no NaN as long as the bandwidth parameter is not 0; cwt with such a wavelet gives the coefficients of that wavelet. The base class raises NotImplementedError.", "quantifier": "all real parameter values, precisions, bounds, data, scales", "why_tests_cant": "the parameters range over the reals after arbitrary training", "anchors": ["src/ptwt/continuous_transform.py:_DifferentiableContinuousWavelet", "src/ptwt/continuous_transform.py:_ShannonWavelet", "src/ptwt/continuous_transform.py:_ComplexMorletWavelet", "src/ptwt/continuous_transform.py:cwt"]}
{"id": "C58", "title": "locality: a coefficient depends only on the samples under its filter", "statement": "Let two inputs of wavedec, wavedec2, wavedec3, fswavedec2 or fswavedec3 (of any sizes, axes, boundary modes, numbers of levels, positions in a batch) agree on a window, up to an offset of multiples of 2^S along the axes. Then every coefficient of level s <= S whose samples 2^s(k+1)-1-(2^s-1)(F-1) .. 2^s(k+1)-1 lie in the window has the same value in both results, at positions that differ by the offset divided by 2^s. So inner coefficients do not depend on the boundary mode, on cropping, or on the rest of the signal, and move with it. Details whose support lies in a window where the signal is a polynomial of degree below the number of vanishing moments are 0 and the approximation is a polynomial of no higher degree there; constant signals have zero details everywhere in all modes but zero (and in swt), constant images and volumes likewise. For images and volumes: where the samples are, along one of the transformed axes and inside a window, polynomials of degree below the number of vanishing moments (a different one on every line), all detail bands that are high pass along that axis are 0, and the approximation stays such a polynomial along it. The same locality holds for every node of WaveletPacket and WaveletPacket2D (its level is the length of its key), and the node of a constant signal or image is, in all modes but zero and up to the borders, the constant times the filter sums of the letters of its key; so all nodes but aa...a vanish. Where the signal is a polynomial of degree below N, the node of a key with j high-pass letters is a polynomial of degree below N - p j there (p vanishing moments), and 0 if N <= p j; for images likewise along each axis, counting the letters that are high pass along it.", "quantifier": "all pairs of inputs, windows, offsets, modes, levels, axes, batch positions, filter banks, polynomials", "why_tests_cant": "relates all pairs of inputs of unbounded size at all levels", "anchors": ["src/ptwt/conv_transform.py:wavedec", "src/ptwt/conv_transform_2.py:wavedec2", "src/ptwt/conv_transform_3.py:wavedec3", "src/ptwt/separable_conv_transform.py:fswavedec2", "src/ptwt/separable_conv_transform.py:fswavedec3", "src/ptwt/stationary_transform.py:swt", "src/ptwt/packets.py:WaveletPacket", "src/ptwt/packets.py:WaveletPacket2D"]}
{"id": "C59", "title": "the multidimensional reconstructions compute the textbook synthesis of arbitrary coefficients and reject sizes that do not fit", "statement": "waverec2 and waverec3, called on any container of an approximation and levels of details (not only those a forward transform produced), with bands of one level agreeing in size and each next level having, along every axis, the size of the synthesised signal or one less, succeed; the result is, plane by plane along the transformed axes, the inverse transform of the text books (repeatedly synthesise along every axis, drop the first F-2 samples), in shape 2K+2-F along every axis. If some level has another size, AssertionError is raised; if the coarsest details differ in size from the approximation, ValueError is raised. fswaverec2 and fswaverec3, called on any container of dictionaries (keys in any order), succeed if at every level the approximation is at least as large as the (non-empty) details along every axis, dropping what it has in excess, and give the same textbook inverse transform; they raise RuntimeError if at some level the approximation is shorter than the details along an axis. On coefficients accepted by waverec2/waverec3 the separable reconstruction gives the same result.", "quantifier": "all coefficient containers of all sizes, ranks, axes, numbers of levels, filter banks", "why_tests_cant": "tests only reconstruct what a forward transform produced; the coefficients here are arbitrary tensors of arbitrary sizes", "anchors": ["src/ptwt/conv_transform_2.py:waverec2", "src/ptwt/conv_transform_3.py:waverec3", "src/ptwt/separable_conv_transform.py:fswaverec2", "src/ptwt/separable_conv_transform.py:fswaverec3"]}
{"id": "C60", "title": "the reconstructions are the adjoints of the decompositions in zero mode; orthogonal wavelets preserve energy", "statement": "For filter banks whose synthesis filters are the analysis filters read backwards, in mode zero: if c are the coefficients wavedec, wavedec2, wavedec3, fswavedec2 or fswavedec3 return for x and d is any container of tensors of the same shapes, then waverec, waverec2, waverec3, fswaverec2, fswaverec3 accept d, the result z has the sizes of x rounded up to even numbers, and <c, d> = <x, z>: reconstruction is the transpose of decomposition (what gradients and iterative solvers rely on). For orthogonal filter banks the sum of squares of all coefficients of wavedec, wavedec2, wavedec3, fswavedec2, fswavedec3 therefore equals that of the input, whatever its size, axes and the number of levels.", "quantifier": "all inputs, containers of the same form, levels, axes, batch shapes, mirrored (orthogonal) filter banks", "why_tests_cant": "a bilinear identity over all pairs of inputs of unbounded size", "anchors": ["src/ptwt/conv_transform.py:wavedec", "src/ptwt/conv_transform.py:waverec", "src/ptwt/conv_transform_2.py:waverec2", "src/ptwt/conv_transform_3.py:waverec3", "src/ptwt/separable_conv_transform.py:fswavedec2"]}
{"id": "C61", "title": "every line, plane or volume of a batch is transformed on its own", "statement": "The coefficients of one line (plane, volume) of a tensor depend on the values of that line only: if a line of x and a line of x' have the same length and values, then wavedec, swt, wavedec2, wavedec3, fswavedec2, fswavedec3, MatrixWavedec, MatrixWavedec2, MatrixWavedec3, cwt and the packet classes give the same coefficients on these two lines, whatever the rest of the two tensors, their shapes, ranks, the position of the transformed axes (and, for the convolution transforms, dtype and device) are; x' is accepted whenever x is. The same holds for the reconstructions waverec, iswt, waverec2, waverec3, fswaverec2, fswaverec3. In particular transforming one item of a batch alone gives that item of the transformed batch, and permuting the batch permutes the coefficients.", "quantifier": "all pairs of tensors with a common line/plane/volume, all axes, batch shapes, modes, levels, filter banks, packet keys and histories", "why_tests_cant": "relates two arbitrary inputs of unbounded rank and size that share only one line; leakage between batch items through reshapes shows only for particular shapes", "anchors": ["src/ptwt/_util.py:_preprocess_tensor", "src/ptwt/_util.py:_postprocess_coeffs", "src/ptwt/conv_transform.py:wavedec", "src/ptwt/conv_transform_2.py:wavedec2", "src/ptwt/conv_transform_3.py:wavedec3", "src/ptwt/separable_conv_transform.py:fswavedec2", "src/ptwt/stationary_transform.py:swt", "src/ptwt/matmul_transform.py:MatrixWavedec", "src/ptwt/continuous_transform.py:cwt", "src/ptwt/packets.py:WaveletPacket"]}
{"id": "C62", "title": "levels are nested", "statement": "Asking for more levels continues the transform on the approximation and leaves the finer details as they are: wavedec (wavedec2, wavedec3, fswavedec2, fswavedec3) with L+M levels is the M-level transform of the approximation of the L-level transform, followed by the L-level details; for wavedec the equation includes the exceptions. Leaving out the L finest detail entries, waverec/waverec2/waverec3 give back the approximation of level L. In the packet classes (convolution and boundary modes), reading key+k has the same outcome as reading k in an object that was given the node at key with the remaining levels, and a packet object contains the wavedec/wavedec2 coefficients under the keys a..a, a..ad (a..ah, a..av, a..ad).", "quantifier": "all tensors, axes, batch shapes, modes, filter banks, level splits L+M, packet keys and read histories", "why_tests_cant": "relates runs with arbitrarily many levels and arbitrary sizes (odd lengths pad at every level), with unbounded key lengths and histories of the packet objects", "anchors": ["src/ptwt/conv_transform.py:wavedec", "src/ptwt/conv_transform.py:waverec", "src/ptwt/conv_transform_2.py:wavedec2", "src/ptwt/conv_transform_3.py:wavedec3", "src/ptwt/separable_conv_transform.py:fswavedec2", "src/ptwt/separable_conv_transform.py:fswavedec3", "src/ptwt/packets.py:WaveletPacket", "src/ptwt/packets.py:WaveletPacket2D"]}
{"id": "C63", "title": "boundary-matrix transforms are bijections", "statement": "For an orthogonal filter bank, coefficients of matching dyadic sizes (K, K, 2K, 4K, ... along the axis, or along each axis for images and volumes), with arbitrary values, are accepted by a new MatrixWaverec (MatrixWaverec2 in both variants, MatrixWaverec3); the result has 2^L K samples along the axis and the corresponding MatrixWavedec object with level=L returns exactly the given coefficients. With the round trip of C40/C43/C50 the two objects are inverse bijections.", "quantifier": "all coefficient values, batch shapes, axes, sizes K with F <= 2K, numbers of levels L >= 1, orthogonal filter banks with independent boundary rows, both orthogonalisation methods, all padding modes", "why_tests_cant": "tests only try coefficients that come from a decomposition of a few signals; the claim is about arbitrary coefficient values of every size and level", "anchors": ["src/ptwt/matmul_transform.py:MatrixWavedec", "src/ptwt/matmul_transform.py:MatrixWaverec", "src/ptwt/matmul_transform_2.py:MatrixWavedec2", "src/ptwt/matmul_transform_2.py:MatrixWaverec2", "src/ptwt/matmul_transform_3.py:MatrixWavedec3", "src/ptwt/matmul_transform_3.py:MatrixWaverec3"]}
{"id": "C64", "title": "matrix synthesis objects on arbitrary coefficients", "statement": "For an orthogonal filter bank and coefficients with arbitrary values, a new MatrixWaverec object returns a tensor exactly if both bands of every level agree in length, the next detail has as many samples as the synthesised signal or one less, and no synthesised signal is shorter than the filters. The result is, level by level, the product of the matrix of construct_boundary_s of that length with the stacked approximation and detail, a surplus sample being dropped before the next level. The same holds for images (MatrixWaverec2, separable and with the two-dimensional synthesis matrix) and volumes (MatrixWaverec3, where a larger approximation is cropped). First details of another size than the approximation raise ValueError in one and two dimensions.", "quantifier": "all coefficient values, batch shapes, axes, sizes, numbers of levels, orthogonal filter banks with independent boundary rows, both orthogonalisation methods", "why_tests_cant": "tests only reconstruct from coefficients that a decomposition returned; users modify coefficients or build them, with odd sizes and any values", "anchors": ["src/ptwt/matmul_transform.py:MatrixWaverec", "src/ptwt/matmul_transform.py:construct_boundary_s", "src/ptwt/matmul_transform_2.py:MatrixWaverec2", "src/ptwt/matmul_transform_2.py:construct_boundary_s2", "src/ptwt/matmul_transform_3.py:MatrixWaverec3"]}
{"id": "C65", "title": "coefficient containers of the wrong form are rejected", "statement": "The reconstructions return a tensor only for containers of the documented form: waverec2 and MatrixWaverec2 (in any state) only if every detail is a 3-tuple of tensors, waverec3 only if every detail is a dictionary with seven items that has the seven documented keys, MatrixWaverec3 only for dictionaries with seven items, fswaverec2 and fswaverec3 only for non-empty dictionaries; always with one dtype and device. If the tensors are otherwise fine, a first detail of the wrong kind is a ValueError of waverec2/waverec3 (e.g. the dictionaries of fswavedec2 given to waverec2), a dictionary after a detail of the right form a KeyError of waverec2, a missing key a KeyError of waverec3, any detail that is not a dictionary a ValueError of fswaverec2/3 which leaves the coefficients untouched, a last detail of the wrong kind a KeyError of MatrixWaverec2 or a ValueError of MatrixWaverec3 which keep their state, and an object of a foreign type a ValueError of all of them. An empty container is an IndexError and a first entry that is not a tensor a ValueError of every reconstruction, whatever the axes; matrix objects keep their state.", "quantifier": "all containers (any number, order and kinds of entries, any tensors), axes, wavelets, and all states of the matrix objects", "why_tests_cant": "the malformed inputs form an infinite family; a test can only try a few of them, while a silent acceptance of a mixed container would return a wrong signal", "anchors": ["src/ptwt/conv_transform_2.py:waverec2", "src/ptwt/conv_transform_3.py:waverec3", "src/ptwt/separable_conv_transform.py:_separable_conv_waverecn", "src/ptwt/matmul_transform_2.py:MatrixWaverec2", "src/ptwt/matmul_transform_3.py:MatrixWaverec3", "src/ptwt/_util.py:_coeff_tree_map"]}
{"id": "C66", "title": "the order of the transformed axes only renames the bands", "statement": "Listing the transformed axes in another order changes nothing but the names of the detail bands. wavedec2 and MatrixWavedec2 (separable) with axes (b, a) return the coefficients for (a, b) with horizontal and vertical details exchanged in every level (and succeed whenever the other order does); wavedec3, fswavedec2/3 and MatrixWavedec3 with permuted axes return the same approximation and, in every level, dictionaries with the same keys in which two keys that give every axis the same letter name equal tensors. waverec2 on arbitrary fitting coefficients is unchanged if the axes and the horizontal and vertical details are exchanged.", "quantifier": "all tensors, ranks, axes (positive or negative) and permutations of them, modes, levels, wavelets, batch shapes; for the matrix objects all orthogonal banks, both orthogonalisation methods", "why_tests_cant": "an asymmetry between the axes (in the padding, in the level count, in the order of the filters) shows up only for particular sizes and filters; tests use square images and default axes", "anchors": ["src/ptwt/conv_transform_2.py:wavedec2", "src/ptwt/conv_transform_2.py:waverec2", "src/ptwt/conv_transform_3.py:wavedec3", "src/ptwt/separable_conv_transform.py:_separable_conv_wavedecn", "src/ptwt/matmul_transform_2.py:MatrixWavedec2", "src/ptwt/matmul_transform_3.py:MatrixWavedec3", "src/ptwt/_util.py:_preprocess_tensor"]}
{"id": "C67", "title": "the number system does not influence the computation", "statement": "If a map between two number systems respects sums and products (the rationals inside of the reals, the reals inside of the complex numbers, complex conjugation, reduction modulo a number, evaluation at a point), then applying it to the data and to all filter taps and then calling wavedec, waverec, wavedec2/3, waverec2/3, fswavedec2/3, fswaverec2/3, swt or a history of operations on a WaveletPacket or WaveletPacket2D object gives the same as calling first and applying the map to every coefficient of the result: same exceptions, same containers and keys, same shapes and dtypes, entries mapped. The same holds for iswt between fields and for the losses of the learnable wavelets between rings.", "quantifier": "all maps, tensors, filters, modes, levels, axes, containers (well-formed or not) and histories of packet operations", "why_tests_cant": "a branch on the values (a tolerance, a special case for zero, a sort by magnitude) would break this on a null set of inputs tests never hit", "anchors": ["src/ptwt/conv_transform.py:wavedec", "src/ptwt/conv_transform.py:waverec", "src/ptwt/conv_transform_2.py", "src/ptwt/conv_transform_3.py", "src/ptwt/separable_conv_transform.py", "src/ptwt/stationary_transform.py", "src/ptwt/packets.py", "src/ptwt/wavelets_learnable.py"]}
{"id": "C68", "title": "results are differentiable functions of data and filter taps", "statement": "Let data and filter taps be functions of a parameter (network weights, for instance) that are continuous, differentiable (everywhere or at a point), n times continuously differentiable, or in any other class of functions closed under sums and products, with shapes and filter lengths that do not depend on the parameter. Then every call of wavedec, waverec, wavedec2/3, waverec2/3, fswavedec2/3, fswaverec2/3, swt, iswt, every history of operations on WaveletPacket and WaveletPacket2D, and every loss of the learnable wavelets either raises the same exception for all parameters or succeeds for all of them, with containers, keys, shapes and dtypes that do not depend on the parameter and entries that are functions of the same class.", "quantifier": "all parameter spaces, function classes, families of tensors and filter banks, modes, levels, axes, containers and packet histories", "why_tests_cant": "gradients are checked at sample points by tests; a kink or a failure on a null set of parameters is invisible to them", "anchors": ["src/ptwt/conv_transform.py:wavedec", "src/ptwt/conv_transform.py:waverec", "src/ptwt/conv_transform_2.py", "src/ptwt/conv_transform_3.py", "src/ptwt/separable_conv_transform.py", "src/ptwt/stationary_transform.py", "src/ptwt/packets.py", "src/ptwt/wavelets_learnable.py"]}
{"id": "C69", "title": "time behaviour of the continuous wavelet transform", "statement": "cwt of a signal delayed by d samples and filled up with zeros on both sides (any amounts) has the coefficients of the signal delayed by d samples, exactly, at every scale and in every line of a batch. A coefficient at a time depends only on the samples within half of the length of the scaled wavelet (plus a sample and a half for rounding) of that time. Where the signal is constant within this reach and the reach is inside of the signal, the coefficient is zero.", "quantifier": "all signals, batch shapes, delays and paddings, lists of positive scales that leave at least two samples, wavelets (real, complex, learnable) with a two- or three-component wave function", "why_tests_cant": "the FFT size, the crop and the rounding of the sample positions depend on length and scale in steps; off-by-one errors of the crop only show for particular parities", "anchors": ["src/ptwt/continuous_transform.py:cwt", "src/ptwt/continuous_transform.py:_next_fast_len"]}
{"id": "C70", "title": "results are bounded by data and taps, and so is the effect of perturbing them", "statement": "If data y and filter bank v bound data x and filter bank w entry by entry in absolute value, then the same call of wavedec, waverec, wavedec2/3, waverec2/3, fswavedec2/3, fswaverec2/3, swt or iswt, or the same history of operations on a WaveletPacket or WaveletPacket2D, raises the same exception for both or returns results of the same shapes in which the entries for (y, v) bound those for (x, w). Explicitly, with N(f) the sum of the absolute taps of f: samples bounded by M give wavedec approximations bounded by N(dec_lo)^L M and level-s details bounded by N(dec_hi) N(dec_lo)^(s-1) M (and the products of the norms of the filters of the band in two and three dimensions); samples that differ by at most d and taps that differ by a total of e (low pass) and k (high pass) change the level-L approximation by at most H^L d + L H^(L-1) e M and the details accordingly; waverec of coefficients bounded by A and D_s (or changed by at most so much) is bounded (or changed) by the recursion b -> N(rec_lo) b + N(rec_hi) D_s started at A.", "quantifier": "all ordered rings of numbers, data, filter banks, modes, levels, axes, containers, packet histories and perturbations", "why_tests_cant": "a bound over all inputs and all perturbations, with the exact growth in the number of levels, cannot be sampled", "anchors": ["src/ptwt/conv_transform.py:wavedec", "src/ptwt/conv_transform.py:waverec", "src/ptwt/conv_transform_2.py", "src/ptwt/conv_transform_3.py", "src/ptwt/separable_conv_transform.py", "src/ptwt/stationary_transform.py", "src/ptwt/packets.py"]}
{"id": "C71", "title": "packet objects are dictionaries whose missing entries are computed when read", "statement": "A WaveletPacket or WaveletPacket2D can be used like a dict. `key in wp` never computes anything; after transform and successful reads exactly the root and all children of the nodes on the way to the keys read are in it. `del wp[key]` of an absent key is a KeyError that changes nothing; of a present key it removes this entry and nothing else. After transform and any history of reads, initialisations, membership tests, get, pop and del (not of the root), reading, popping or getting a key gives what a read right after transform gives, a KeyError being replaced by the default of pop or get. If the root is deleted too, no read ever returns a wrong value, and a key none of whose ancestors is left is a ValueError. pop leaves what a read leaves, without the entry itself. setdefault of a readable key assigns nothing; beyond the maximum level it stores the default. Inner nodes may be deleted before reconstruct without changing the round trip. Re-reading a deleted coefficient does revert an assignment to its sibling.", "quantifier": "all packet objects, inputs, levels, modes, filter banks, keys and histories of dictionary operations", "why_tests_cant": "the claims range over all histories of look-ups and deletions; tests run a few fixed ones and never delete", "anchors": ["src/ptwt/packets.py:WaveletPacket", "src/ptwt/packets.py:WaveletPacket2D", "src/ptwt/packets.py:WaveletPacket.__getitem__", "src/ptwt/packets.py:WaveletPacket._expand_node"]}
{"id": "C72", "title": "orthogonal transforms preserve distances and reconstruct arbitrary coefficients in the least squares sense", "statement": "For an orthogonal filter bank in zero mode (and for swt with every level weighted by its redundancy): the coefficients of two equally shaped inputs are exactly as far apart as the inputs. For arbitrary coefficients of the right shapes (thresholded, quantised, edited) the reconstruction, cropped to the input's size, is the one input whose coefficients are nearest: the coefficients of any other input are farther by exactly its distance from the reconstruction. Two reconstructions are never farther apart than the coefficients they are computed from. iswt is the weighted adjoint of swt for every mirrored filter bank.", "quantifier": "all inputs, all coefficients of the same shapes, all axes, levels, sizes and orthogonal filter banks; wavedec/waverec, wavedec2/waverec2, wavedec3/waverec3, fswavedec2/3 with fswaverec2/3 and swt/iswt", "why_tests_cant": "optimality compares with all other inputs; tests only check the round trip of unaltered coefficients", "anchors": ["src/ptwt/conv_transform.py:waverec", "src/ptwt/conv_transform_2.py:waverec2", "src/ptwt/conv_transform_3.py:waverec3", "src/ptwt/stationary_transform.py:swt", "src/ptwt/stationary_transform.py:iswt", "src/ptwt/separable_conv_transform.py:fswaverec2"]}
{"id": "C73", "title": "the stationary transform contains the decimated transform of every shift", "statement": "Let x' be x cyclically shifted by c samples along the transformed axis. Coefficient k of level s of wavedec(x'), in any mode, is exactly the entry 2^s k - (2^s-1)(F/2-1) + c (modulo the length) of the level-s band of swt(x), details and approximation alike, unless the coefficient touches the boundary. At level 1 of the periodic mode this holds for every coefficient without exception, and conversely every entry of the finest bands of swt(x) is a coefficient of wavedec(x) or of wavedec(x shifted by one sample), in turn.", "quantifier": "all inputs, shifts, axes, levels of either transform, modes of wavedec, filter banks of even length, and all coefficients whose support lies in the signal", "why_tests_cant": "relates two independently implemented transforms for every shift, level and position; tests compare each with pywt on a few signals only", "anchors": ["src/ptwt/conv_transform.py:wavedec", "src/ptwt/stationary_transform.py:swt"]}
{"id": "C74", "title": "rounding errors: the transforms in floating point arithmetic", "statement": "Compute wavedec and waverec in floating point arithmetic with unit roundoff u: the filter taps are rounded, every product and every sum of a convolution is rounded, and the sums are evaluated in any order and bracketing. Then exactly the same exceptions are raised as in exact arithmetic, the shapes are the same, and every coefficient of level s differs from the exact one by at most (g^s - 1) |decHi|_1 |decLo|_1^(s-1) M, where M bounds the data, |.|_1 is the sum of the absolute values of the taps and g = (1+u)^(F+1); the entrywise error is bounded by the difference of two exact transforms of the absolute values. For a perfect reconstruction bank waverec(wavedec(x)) differs from x by at most (g^(2L) - 1) times what L levels of filters can make of M, with g = (1+u)^(F+2). The taps are converted to the dtype of the data: conversions to other dtypes have no influence.", "quantifier": "all data, modes, levels, axes, filter banks, unit roundoffs, and all evaluation orders of the sums in the convolutions; no overflow or underflow", "why_tests_cant": "tests compare with a tolerance on sample data; the claim is a bound valid for all data and for every order in which a backend may sum", "anchors": ["src/ptwt/conv_transform.py:wavedec", "src/ptwt/conv_transform.py:waverec", "src/ptwt/_util.py:_get_filter_tensors"]}
{"id": "C75", "title": "rounding errors of the transforms over two and three axes", "statement": "Compute wavedec2, waverec2, wavedec3 and waverec3 in floating point arithmetic with unit roundoff u: the filter taps are rounded, the products of taps that make up the two- and three-dimensional filters are rounded, every product and sum of a convolution is rounded, sums in any order. Then the same exceptions are raised as in exact arithmetic, and the coefficients and reconstructions have the same containers, keys and shapes and are entry by entry as close to the exact ones as the transforms of the absolute values, with the absolute values of the taps and with these multiplied by g, are to each other; here 1 <= g and g^2 >= (1+u)^(F^2+3), resp. g^3 >= (1+u)^(F^3+5). In particular coefficients of level s of data bounded by M are wrong by at most ((g^n)^s - 1) times what the filters can make of M, n the number of axes, and a round trip with a perfect reconstruction bank is off by a bound of the same kind.", "quantifier": "all data, modes, levels, axes, filter banks, containers, unit roundoffs, and all evaluation orders of the sums in the convolutions; no overflow or underflow", "why_tests_cant": "tests compare with a tolerance on sample images; the claim is a bound for all data and every order of summation a backend may choose", "anchors": ["src/ptwt/conv_transform_2.py:wavedec2", "src/ptwt/conv_transform_2.py:waverec2", "src/ptwt/conv_transform_3.py:wavedec3", "src/ptwt/conv_transform_3.py:waverec3", "src/ptwt/_util.py:_outer", "src/ptwt/_util.py:_construct_2d_filt", "src/ptwt/_util.py:_construct_3d_filt"]}
{"id": "C76", "title": "rounding errors of separable, stationary and packet transforms", "statement": "Compute fswavedec2, fswaverec2, fswavedec3, fswaverec3, swt, iswt and any sequence of operations (transform, read, write, initialise, reconstruct) on a WaveletPacket or WaveletPacket2D object in floating point arithmetic with unit roundoff u, in any order of summation. The same exceptions are raised as in exact arithmetic, and all tensors returned (and those the separable reconstructions write into the caller's dictionaries) have the same shapes and are entry by entry as close to the exact ones as the results of two exact runs on absolute values, with the absolute values of the taps and with these multiplied by g, are to each other; g >= (1+u)^(F+1) for decompositions, (1+u)^(F+2) for reconstructions and (1+u)^(F+4) for iswt, which also rounds a mean. In particular the coefficients of level s of data bounded by M are wrong by at most (g^s - 1) (swt) or ((g^n)^s - 1) (n separable axes) times what the filters can make of M, and swt followed by iswt gives the data back up to an explicit error.", "quantifier": "all data, modes, levels, axes, filter banks, containers, operation histories, unit roundoffs, and all evaluation orders of the sums; no overflow or underflow", "why_tests_cant": "tests compare with a tolerance on sample data and few packet histories; the claim is a bound for all data, all histories and every order of summation a backend may choose", "anchors": ["src/ptwt/separable_conv_transform.py:_separable_conv_wavedecn", "src/ptwt/separable_conv_transform.py:_separable_conv_waverecn", "src/ptwt/stationary_transform.py:swt", "src/ptwt/stationary_transform.py:iswt", "src/ptwt/packets.py:WaveletPacket", "src/ptwt/packets.py:WaveletPacket2D"]}
{"id": "C77", "title": "the wavelet layer of the network compression example", "statement": "WaveletLayer(depth, wavelet, scales, p_drop, mode) of examples/network_compression: the coefficient lengths computed by the constructor are, for every mode but periodization, those of the coefficients wavedec returns, so that the layer's own shape assertion never fails; with periodization and more than two taps it always fails. The decomposition step writes the textbook coefficients of every row side by side (always with reflected boundaries). Calling the layer on a (batch, depth) tensor raises RuntimeError if a row or an approximation is too short for the reflection, or if depth is odd, and otherwise returns a tensor of the same shape: entries scaled, coefficients permuted and scaled, reconstruction scaled. For fixed weights and dropout masks the layer is linear. With one scale the reconstruction step inverts the decomposition step, so a fresh layer with the identical permutation in evaluation mode returns its argument. With two or more scales this is false: the reconstruction step never reads the last columns of its argument, and for every two-tap bank with a non-zero low-pass filter there are two different inputs whose decompositions are reconstructed to the same result.", "quantifier": "all batches, depths, numbers of scales, filter banks, modes, weights, permutations and dropout masks", "why_tests_cant": "the example has no tests; exceptions, linearity and invertibility are claims about all depths, scales, weights and dropout outcomes", "anchors": ["examples/network_compression/wavelet_linear.py:WaveletLayer", "examples/network_compression/wavelet_linear.py:_get_coefficient_lengths", "examples/network_compression/wavelet_linear.py:Permutator", "examples/network_compression/wavelet_linear.py:MMDropoutDiagonal", "examples/network_compression/wavelet_linear.py:WaveletDecomposition1D", "examples/network_compression/wavelet_linear.py:WaveletReconstruction1D"]}
{"id": "C78", "title": "band-wise reconstruction: components add up", "statement": "Multiply the bands of a coefficient list (or of the containers of the 2d and 3d transforms: each detail tensor of each level separately) by weights in several ways, such that for every band the weights add up to one; for example keep one band at a time and zero the others. Reconstruct every weighted copy with waverec, waverec2, waverec3, fswaverec2, fswaverec3, iswt, or a MatrixWaverec, MatrixWaverec2 or MatrixWaverec3 object in any state. Either all calls raise the same exception as the call with the unweighted coefficients, or all succeed with results of the same shape, dtype and device, which add up to the reconstruction of the unweighted coefficients. Hence for coefficients computed by the matching decomposition and a perfect reconstruction filter bank the components add up to the signal.", "quantifier": "all coefficient lists and containers, all filter banks (perfect reconstruction banks for the last sentence), axes, modes, levels, numbers of copies and weights, all states of matrix objects", "why_tests_cant": "the decomposition of a signal into components must hold for all data and every choice of bands; tests check a few reconstructions", "anchors": ["src/ptwt/conv_transform.py:waverec", "src/ptwt/conv_transform_2.py:waverec2", "src/ptwt/conv_transform_3.py:waverec3", "src/ptwt/separable_conv_transform.py:fswaverec2", "src/ptwt/separable_conv_transform.py:fswaverec3", "src/ptwt/stationary_transform.py:iswt", "src/ptwt/matmul_transform.py:MatrixWaverec", "src/ptwt/matmul_transform_2.py:MatrixWaverec2", "src/ptwt/matmul_transform_3.py:MatrixWaverec3"]}
{"id": "C79", "title": "packet image: every packet once, ordered by frequency", "statement": "generate_frequency_packet_image of the deepfake example, for a degree of at least one and an array of at least 4^degree packets of h rows and w columns in natural order, returns an image of 2^degree h rows and 2^degree w columns. Block (i, j) of the image is the packet whose key has the Gray code of i as its row filter path and that of j as its column filter path. Every packet of the level appears in exactly one block, so the packets can be read back from the image. With fewer packets the function raises IndexError, with degree zero ValueError.", "quantifier": "all degrees, packet sizes, packet arrays and entries", "why_tests_cant": "4^degree blocks for every degree; a wrong position is a plausible image, and the function has no tests", "anchors": ["examples/deepfake_analysis/packet_plot.py:generate_frequency_packet_image", "src/ptwt/packets.py:WaveletPacket2D.get_freq_order", "src/ptwt/packets.py:WaveletPacket2D.get_natural_order"]}
{"id": "C80", "title": "zero mode: the transform of the infinite signal; delays and appended zeros", "statement": "wavedec, wavedec2, wavedec3, fswavedec2 and fswavedec3 in zero mode compute the transform of the signal continued by zeros to all integer positions: each returned coefficient is the one of the infinite signal, and every coefficient of the infinite signal that is not returned is zero, so nothing is cut off. Hence for a signal delayed by 2^L d samples (zeros put in front, along several axes by different amounts) and continued by any number of zeros behind, the L-level coefficients are the old ones delayed by d at the coarsest level, 2d at the next one and so on, and zero elsewhere. The same holds for every node of WaveletPacket and WaveletPacket2D in zero mode: it is the node of the infinite signal, and delaying the signal by 2^|key| d delays the node by d.", "quantifier": "all input tensors, axes, even filter lengths, levels, delays per axis that are multiples of 2^L and numbers of appended zeros", "why_tests_cant": "all signals, lengths and delays at every depth; a coefficient lost or duplicated at the border of one length and filter length shows only there", "anchors": ["src/ptwt/conv_transform.py:wavedec", "src/ptwt/conv_transform.py:_fwt_pad", "src/ptwt/_util.py:_get_pad", "src/ptwt/conv_transform_2.py:wavedec2", "src/ptwt/conv_transform_3.py:wavedec3", "src/ptwt/separable_conv_transform.py:fswavedec2", "src/ptwt/separable_conv_transform.py:fswavedec3", "src/ptwt/packets.py:WaveletPacket", "src/ptwt/packets.py:WaveletPacket2D"]}
{"id": "C81", "title": "mirrored signals and filters give mirrored coefficients", "statement": "For filters of even length, reading a signal backwards and transforming it with the filters read backwards gives the coefficients read backwards, in every boundary mode, for wavedec, wavedec2, wavedec3, fswavedec2 and fswavedec3 (mirrored along all transformed axes), provided every level that is transformed has even lengths. If the mirrored high-pass filter carries a factor e, every high-pass letter of a band contributes a factor e. In particular a wavelet with symmetric low-pass and (anti)symmetric high-pass filters, such as the Haar and the even biorthogonal wavelets, has no preferred direction: the coefficients of the mirrored signal are the mirrored coefficients up to sign. Likewise waverec, waverec2, waverec3, fswaverec2 and fswaverec3 of mirrored coefficients with mirrored synthesis filters give the mirrored reconstruction if the lengths fit exactly. And every node of WaveletPacket and WaveletPacket2D of the mirrored signal is the mirrored node with a factor e per high-pass letter of its key.", "quantifier": "all tensors, axes, boundary modes, levels, wavelets with even filter length, factors e, lengths that are even at every transformed level", "why_tests_cant": "all signals, modes and depths; padding that is off by one on one side breaks it only for some combinations of length, filter length and mode", "anchors": ["src/ptwt/conv_transform.py:wavedec", "src/ptwt/conv_transform.py:waverec", "src/ptwt/conv_transform_2.py:wavedec2", "src/ptwt/conv_transform_3.py:wavedec3", "src/ptwt/separable_conv_transform.py:fswavedec2", "src/ptwt/separable_conv_transform.py:fswavedec3", "src/ptwt/_util.py:_get_pad", "src/ptwt/conv_transform_2.py:waverec2", "src/ptwt/conv_transform_3.py:waverec3", "src/ptwt/separable_conv_transform.py:fswaverec2", "src/ptwt/separable_conv_transform.py:fswaverec3", "src/ptwt/packets.py:WaveletPacket", "src/ptwt/packets.py:WaveletPacket2D"]}
{"id": "C82", "title": "rescaled filters only rescale the coefficients", "statement": "Users normalise filters differently (sum 1, sum 2, unit energy). If the analysis filters of a wavelet are multiplied by a (low pass) and b (high pass), wavedec, wavedec2, wavedec3, fswavedec2 and fswavedec3 return the same shapes and the same exceptions, and every coefficient tensor is multiplied by a known power product: a per axis and level for the approximation, and for a detail band a per axis for every level nearer to the signal, times a for every low-pass and b for every high-pass letter of the band. Conversely waverec, waverec2, waverec3, fswaverec2 and fswaverec3 with synthesis filters multiplied by c and d return exactly what the unscaled filters return for the coefficients multiplied by the corresponding powers of c and d. The nodes of WaveletPacket and WaveletPacket2D are likewise multiplied by one factor a or b per letter (and axis) of their key. The same holds for swt and iswt. If a*c = 1 and b*d = 1 the rescaled filters are again a perfect reconstruction bank.", "quantifier": "all tensors, axes, boundary modes, levels, filters, factors (also zero and negative)", "why_tests_cant": "all filters, factors, depths and bands; a level filtered with the wrong filter or a band filtered with swapped filters shows only in the exponents", "anchors": ["src/ptwt/conv_transform.py:wavedec", "src/ptwt/conv_transform.py:waverec", "src/ptwt/conv_transform_2.py:wavedec2", "src/ptwt/conv_transform_2.py:waverec2", "src/ptwt/conv_transform_3.py:wavedec3", "src/ptwt/conv_transform_3.py:waverec3", "src/ptwt/separable_conv_transform.py:fswavedec2", "src/ptwt/separable_conv_transform.py:fswaverec2", "src/ptwt/packets.py:WaveletPacket", "src/ptwt/packets.py:WaveletPacket2D", "src/ptwt/stationary_transform.py:swt", "src/ptwt/stationary_transform.py:iswt"]}
{"id": "C83", "title": "periodic mode: the signal on a circle", "statement": "In periodic mode, the coefficients of every level of even length n repeat after n/2 of them (the padding makes filters with more than three taps return more than n/2). Rolling a signal whose length is divisible by 2^L cyclically by 2^L d samples rolls the approximation by d on a circle of n/2^L points and the details of the level j (1 nearest to the signal) by 2^(L-j) d on a circle of n/2^j points, for wavedec, and likewise along all transformed axes for wavedec2, wavedec3, fswavedec2, fswavedec3 and for the nodes of WaveletPacket and WaveletPacket2D. This holds for one level and any filter, and for any number of levels for filters of two or three taps; the same exceptions are raised for both signals. For four taps and two levels there are signals for which no roll of the approximation is right.", "quantifier": "all tensors, axes, shifts, wavelets, lengths divisible by 2^L; all levels for two and three taps, one level for longer filters", "why_tests_cant": "all lengths, shifts, filters and bands; padding by one sample too few or on the wrong side breaks it only at the seam", "anchors": ["src/ptwt/conv_transform.py:wavedec", "src/ptwt/conv_transform.py:_fwt_pad", "src/ptwt/conv_transform_2.py:wavedec2", "src/ptwt/conv_transform_3.py:wavedec3", "src/ptwt/separable_conv_transform.py:fswavedec2", "src/ptwt/packets.py:WaveletPacket", "src/ptwt/packets.py:WaveletPacket2D"]}
{"id": "C84", "title": "boundary-matrix transforms preserve inner products and distances", "statement": "With an orthogonal wavelet and exact linear algebra: MatrixWavedec, MatrixWavedec2 (separable or not) and MatrixWavedec3 map two inputs of the same shape to coefficients with the same inner product and the same squared distance (in zero mode for every size, in the other modes when no level has an odd size). Conversely MatrixWaverec, MatrixWaverec2 and MatrixWaverec3 map any two lists of coefficients of dyadic sizes to signals whose inner product and squared distance are those of the coefficients; so thresholding, quantising or adding noise to coefficients changes the signal by exactly as much, and signals reconstructed from different bands are orthogonal. The nodes of one level of a WaveletPacket or WaveletPacket2D tree with mode=\"boundary\", taken together, preserve inner products and squared distances of two inputs as well.", "quantifier": "all pairs of inputs or coefficient lists, sizes, levels, axes, both orthogonalisation methods, orthogonal filter banks whose cut-off rows are independent", "why_tests_cant": "all pairs of inputs and all edits of coefficients; an orthogonalisation that misses one row breaks it only for values near one edge", "anchors": ["src/ptwt/matmul_transform.py:MatrixWavedec", "src/ptwt/matmul_transform.py:MatrixWaverec", "src/ptwt/matmul_transform_2.py:MatrixWavedec2", "src/ptwt/matmul_transform_2.py:MatrixWaverec2", "src/ptwt/matmul_transform_3.py:MatrixWavedec3", "src/ptwt/matmul_transform_3.py:MatrixWaverec3", "src/ptwt/packets.py:WaveletPacket", "src/ptwt/packets.py:WaveletPacket2D"]}
{"id": "C85", "title": "boundary-matrix and convolution backends agree away from the borders", "statement": "With an orthogonal wavelet of F taps and exact linear algebra: a detail coefficient r of level s (and a coarse coefficient of the last level) of MatrixWavedec whose samples, numbers 2^s r - (2^s-1)(F/2-1) to 2^s r + (2^s-1) F/2, lie inside the signal is coefficient r + F/2-1 of wavedec applied to the signal delayed by F/2-1 samples, whatever the boundary mode, the orthogonalisation method, the number of levels and the axis. Hence two MatrixWavedec objects, of any modes, methods, sizes and levels, give the same inner coefficients wherever their signals agree up to a delay by a multiple of 2^S, with two taps (Haar) the two transforms of the same signal agree on every coefficient made of samples of the signal only; and inner details of a piece of a signal that is a polynomial of degree below the number of vanishing moments are zero, and its inner coarse coefficients are again a polynomial of no larger degree.", "quantifier": "all signals, sizes, boundary modes, orthogonalisation methods, levels, axes, windows and orthogonal filter banks whose cut-off rows are independent", "why_tests_cant": "all sizes, levels and positions at once; tests compare the two backends on a handful of signals, or not at all since their coefficients differ by a delay and at the borders", "anchors": ["src/ptwt/matmul_transform.py:MatrixWavedec", "src/ptwt/matmul_transform.py:construct_boundary_a", "src/ptwt/conv_transform.py:wavedec"]}
