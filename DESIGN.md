# Formal model of PyTorch-Wavelet-Toolbox (ptwt) in Lean 4

## 1. Approach

* **Scalars** are an abstract commutative ring / field `R` (ℝ where square roots or
  positivity are needed). All theorems but C74, C75 and C76 are about exact
  arithmetic. These three treat the rounding errors of the transforms built on convolutions: the numerical routines are parameters
  of the programs there, and every entry they return is a rounded evaluation of the right sum of products.
* **Tensors** (`Verif/Torch/Tensor.lean`): `shape : List Nat`, an index function
  `get : List Nat → R` which is 0 outside the shape (so Lean equality is tensor
  equality), and a `Meta` (dtype, device). Each torch primitive the code calls
  (`permute`, `reshape`, `transpose`, `squeeze`, `unsqueeze`, `stack`, `split`,
  `cat`, `flip`, slicing, `pad` in its four modes, `conv{1,2,3}d`,
  `conv_transpose{1,2,3}d`, sparse `mm` ...) is one definition giving its documented
  semantics, including its documented failure cases. These are trusted.
* **Exceptions** are values: `Except Err α`, `Err` naming the Python exception class.
* **Model** files (`Verif/Model/*`) mirror the Python functions one by one; each definition
  cites file and lines.
* **Spec** files (`Verif/Spec/*`) state what is meant (infinite signal extensions, textbook DWT
  formula, polynomial perfect-reconstruction condition, Gray code, Kronecker product, ...)
  without reference to the model.
* **Props** files (`Verif/Props/*`) contain the property theorems and their non-vacuity
  examples; helper lemmas live in `Verif/Lemmas/*`.
* **Witness** files (`Verif/Witness/*`) contain further non-vacuity examples: every theorem whose hypotheses
  are not already met by an example in its Props file is applied there to concrete data, with all
  hypotheses discharged.

## 2. Trusted base

Lean's kernel; axioms at most `propext`, `Classical.choice`, `Quot.sound`
(checked with `#print axioms`; no axiom of our own); the semantics given to torch / numpy / pywt
primitives in `Verif/Torch/*` and `Verif/Model/Pywt.lean`; the faithfulness of `Verif/Model/*` to the
cited Python lines.

### 2.1 Which code is modelled where

| Python (src/ptwt) | Lean model | properties |
|---|---|---|
| `_util.py` (padding, axes, pre/postprocessing, `_coeff_tree_map`, checks, filter construction) | `Model/Util.lean` | C06–C12 and everything that uses it |
| `_util.py` `_deprecated_alias` | `Model/Alias.lean` | C46 |
| `conv_transform.py` | `Model/Conv1.lean` | C01–C05, C13, C14 |
| `conv_transform_2.py` | `Model/Conv2.lean` | C15, C16 |
| `conv_transform_3.py` | `Model/Conv3.lean` | C17, C18 |
| `separable_conv_transform.py` | `Model/SepConv.lean` | C19–C21 |
| `stationary_transform.py` | `Model/Swt.lean` | C22–C24 |
| `packets.py` | `Model/Packets.lean` (state machine), `Packet1`, `Packet2`, `PacketMat`, `PacketOrder`, `PacketDict` (inherited dict methods) | C25–C31, C44, C49, C71 |
| `sparse_math.py` | `Model/SparseMath.lean`, orthogonalisation in `Model/Orth.lean` | C32–C39 |
| `matmul_transform.py` | `Model/Orth.lean`, `Model/Mat1.lean` | C38–C42 |
| `matmul_transform_2.py`, `matmul_transform_3.py` | `Model/MatN.lean`, `MatOp2`, `MatAlias` | C21, C43, C50, C51 |
| representations of a wavelet (`constants.py`, `_as_wavelet`, `_get_len`) | `Model/WaveletArg.lean` | C53 |
| `wavelets_learnable.py` | `Model/Losses.lean` | C45 |
| `continuous_transform.py` (`cwt`, `_integrate_wavelet`, `_next_fast_len`) | `Model/Cwt.lean` | C47 |
| `continuous_transform.py` (`_DifferentiableContinuousWavelet`, `_ShannonWavelet`, `_ComplexMorletWavelet`) | `Model/CwtLearn.lean` | C57 |
| `_util.py` `_flatten_2d_coeff_lst`, `packets.py` `_wpfreq` | `Model/Helpers.lean` | C56 |
| the convolution transforms, stationary transforms and packets once more, with the number-crunching torch routines as parameters | `Model/Rounded.lean`, `RoundedN`, `RoundedS` | C74–C76 |
| `pywt.dwt_max_level`, `pywt.swt_max_level` | `Model/Pywt.lean` | C48 |
| `examples/network_compression/wavelet_linear.py` | `Model/WaveletLayer.lean` | C77 |
| `examples/deepfake_analysis/packet_plot.py` (`generate_frequency_packet_image`) | `Model/PacketPlot.lean` | C79 |

### 2.2 What is not modelled

* Floating point rounding outside C74 to C76 (exact field arithmetic instead); overflow, underflow and NaN; autograd (that the results are differentiable functions of data and taps is C68), CUDA, `torch.jit`, performance.
* The pywt wavelet table: the four filters are parameters; hypotheses on them (perfect reconstruction,
  orthonormality) are explicit in the theorems.
* `version.py`, typing-only classes in `constants.py`; gradients and device moves of the learnable
  wavelets (their values are modelled, and proved differentiable in the parameters).
* The other scripts under `examples/` (training loops, plots, command lines).
* Texts of messages and warnings; whether a warning is printed is only modelled for `_deprecated_alias`.

### 2.3 Simplifications per module (each is also stated in the docstring of the definition)

* **Alias** (C46): default warning filter (a warning does not raise).
* **Tensors**: no dtype promotion; operations on tensors of different dtype or device either fail as in
  torch or are excluded by the checks of the code; torch's default dtype is float32; a tensor has no
  storage identity, so in-place tensor operations do not occur (the code has none on user tensors).
* **Padding** (C01 to C20, C74 to C76): filters have at least two taps. For a filter of one tap the code's
  pads `(2F - 3) // 2` are negative (torch then crops); the model's pads are natural numbers, so what
  the theorems say for `F ≤ 1` is not a statement about the code. Every orthogonal or biorthogonal bank has two
  taps or more.
* **SepConv / MatAlias** (C21): dictionary identity is modelled by a predicate saying when preprocessing
  hands the caller's dictionaries on (`preAliases`) and by the container that results from a call; no
  dictionary object occurs twice in one container.
* **Containers**: a detail entry is a tensor, a tuple of exactly three tensors, a dictionary with string keys and tensor
  values, or a foreign object that is none of these; tuples of other lengths do not exist in the model (`_coeff_tree_map`
  reads the elements 0, 1, 2 and so cuts off a fourth one).
* **Swt**: `_circular_pad` of an empty axis loops forever in Python; the model returns an error value.
* **Pywt**: `np.log2` and `floor` are exact.
* **Sparse**: COO lists of entries; `torch.sparse.mm` produces the product's *symbolic* pattern (an entry
  for every structural combination, coalesced); float32 rounding of the indices in
  `cat_sparse_identity_matrix` is modelled; the zero case of `sparse_kron` returns float32.
* **Orth**: square root, norm and QR are a parameter `LinAlg`; theorems assume `ExactLinAlg` (exact
  square root, exact reduced QR); normalisation by a zero norm is excluded by the hypothesis that the
  boundary rows are independent (`BoundaryIndep`), and that hypothesis is shown satisfiable and not
  automatic; CPU semantics of index assignment.
* **Mat1 / MatN / MatOp2**: objects are state machines (configuration, cached matrices); the warning
  written to stderr for short signals is not modelled; Python `assert` is enabled.
* **Packets**: dictionary of nodes plus initialisation flags; in the n-dimensional boundary mode the order
  of two lookups that can both fail is fixed, only the choice of the error could differ.
* **Losses**: filters over ℝ or a field; half precision only as far as a conversion makes torch fail.
* **Cwt**: exact complex DFT; pywt's `wavefun` and `central_frequency` are opaque parameters; complex data
  is not modelled.
* **CwtLearn** (C57): the parameters are real numbers; a value is `none` where floating point gives NaN; a
  `cwt` whose wave function has a NaN is not modelled.
* **Helpers** (C56): `_flatten_2d_coeff_lst` without flattening of a container with a dictionary or with a
  first entry that is no tensor is not modelled (the model raises); `_wpfreq` in exact arithmetic.
* **WaveletLayer** (C77): the drawn permutation and the dropout masks are parameters; weights and input share
  dtype and device; training is not modelled.

## 3. Plan per property (status in MANIFEST.json)

| id | what is modelled | how proved |
|----|------------------|-----------|
| C01 | `wavedec`, `waverec`, all of `_util` pre/post-processing | spec kernel lemma (interior of padded signal is reproduced, from polynomial PR condition), induction over levels, index algebra for axes |
| C02 | same | get-formula for conv1d of padded data = textbook formula with `Spec.ext`; induction over levels |
| C03 | same | shape part of C02 |
| C04 | `_fwt_pad` errors | case split on mode, induction over levels |
| C05 | same | corollary of C02 (formula linear) |
| C06/C07 | `_pad_symmetric_1d` with recursion fuel | strong induction; for the empty signal: no fuel suffices |
| C08 | `_translate_boundary_strings`, `torch pad` | case split + periodicity lemmas |
| C09/C10 | `_swap_axes`, `_undo_swap_axes`, `_fold/_unfold`, `_pre/_postprocess` | permutation + ravel/unravel lemmas |
| C11/C12 | `_check_*`, `_coeff_tree_map` | structural induction |
| C13/C14 | `waverec` error branch; odd F | direct; length computation |
| C15/C16 | `wavedec2`, `waverec2` | tensor product of kernel lemma |
| C17/C18 | `wavedec3`, `waverec3` | same, three factors; level-0 counterexample |
| C19/C20 | `fswavedec*`, `fswaverec*` | iterated 1d formula |
| C21 | dict mutation modelled as returned container; `MatrixWaverec3` as well | exact characterisation of when a dictionary changes; induction over calls; second call fails |
| C22–C24 | `_circular_pad`, `swt`, `iswt` | periodicity invariant of the pad loop; convolution algebra |
| C25–C31 | packet trees as a state machine | invariant over operation histories; Gray code recursion |
| C32–C37 | COO sparse matrices as entry lists | sums over entry lists |
| C38–C43 | boundary matrices, matrix classes as state machines | Gram-Schmidt invariant; `Matrix` algebra; history invariant |
| C44 | the (H,V,D) tuples of all 2d backends | both orientations characterised (c16, c43, c50); packets: equality after exchanging h and v, and a witness that the keys differ |
| C45 | losses over ℝ | sum of squares = 0 ⇔ polynomial identity |
| C46 | kwargs as association list | induction |
| C47 | DFT over ℂ | circular convolution theorem |
| C48 | pywt level formula | `Nat.log` lemmas |
| C49 | packet trees as a state machine | sibling-closure invariant over histories |
| C50 | non-separable 2d matrices (`construct_a2` … `MatrixWavedec2(separable=False)`) | the 2d rows are Kronecker products of 1d rows; product independence; block inverse |
| C51 | `sparse_fwt_operator`, `sparse_ifwt_operator` of the 2d objects | the product of the block matrices is the composition of the steps; induction over the levels on the packed vector |
| C52 | `wavedec`/`MatrixWavedec`, `wavedec3`/`MatrixWavedec3` with two taps | two-tap boundary matrices have no truncated rows (Lemmas/TwoTap), so both outputs satisfy one specification, which determines them |
| C53 | the representations of a wavelet, `Model/WaveletArg` | the only dependence is the automatic level; unfolding, induction over the history; the levels compared through their defining inequalities |
| C54 | all transforms, objects and histories | a ternary logical relation `Three (Lin c)` through every primitive, loop and state machine (`Lemmas/Lin, LinN, LinMat, LinPacket`) |
| C55 | energy of boundary transforms, packet levels and swt (`Spec/Energy`) | orthonormal columns make each step an isometry of lines/planes; induction over levels and keys; `boxSum` over the remaining axes (`Lemmas/Energy, EnergyPacket, EnergySwt`) |
| C56 | `_flatten_2d_coeff_lst`, `_wpfreq` (`Spec/Helpers`) | row-major index bijection; induction over the levels; Gray-code recursion of C31 for the bins |
| C57 | the learnable continuous wavelets (`Spec/CwtLearn`) | real and complex analysis; parity argument for the grid; composition with C47 |
| C58 | the forward transforms and both packet classes (`Spec/Local`) | from the textbook formulas C02, C16, C18, C19: supports computed in closed form, induction over axes and levels; polynomials are mapped to polynomials; for packets a filter with `p` vanishing moments takes `p` coefficients from a polynomial (Taylor expansion, `Lemmas/PacketPoly`) |
| C59 | `waverec2`, `waverec3`, `fswaverec2`, `fswaverec3` on arbitrary coefficients (`Spec/IdwtNd`, `Spec/IdwtSep`) | the reconstruction loop is followed level by level with the sizes as invariant; the transposed convolution with outer-product filters equals iterated one-dimensional synthesis |
| C60 | `wavedec`/`waverec`, 2D, 3D, `fswavedec` in zero mode (`Spec/Inner`) | one analysis step is a matrix whose transpose is the synthesis step; induction over levels; plane by plane via C02, C13, C16, C18, C59; energy with C01, C15, C17 |
| C61 | all transforms (`Spec/Slice`) | an operation computed plane by plane (`AlongAxes`, from C02, C13, C16, C18, C23, C24, C25, C40, C43, C47, C50, C59) takes equal planes to equal planes; success depends on sizes only |
| C62 | `wavedec`, `wavedec2`, `wavedec3`, `fswavedec2/3`, packet classes (`Lemmas/Cascade`) | the textbook coefficients of L+M levels are those of M levels of the L-th approximation (induction on levels); uniqueness of the coefficients turns the specification into an equation of programs; for packets the walk from the root splits at the key |
| C63 | `MatrixWaverec*`, `MatrixWavedec*` (`Spec/MatOnto`, `Lemmas/MatOnto`) | one level: a square matrix with orthonormal columns has orthonormal rows, so the block analysis of the block synthesis is the identity; induction over levels builds the tensor whose coefficients are the given ones; uniqueness of the coefficients and the round trip turn this into an equation of programs |
| C64 | `MatrixWaverec*` (`Spec/MatSyn`, `Lemmas/MatSyn*`) | one synthesis step for arbitrary bands, then induction over the levels with the shape computations (construction of the operator list from the size of the last detail, cropping) as invariant; the converse for one axis follows the failing branches of the same loop |
| C65 | `waverec2/3`, `fswaverec2/3`, `MatrixWaverec2/3`, `_preprocess_coeffs` (`Spec/Kinds`, `Lemmas/Kinds`) | pre-processing keeps the kind of every entry (relation between input and output of the tree map, no assumption on the kinds); induction over the reconstruction loops: every step inspects its entry; the exceptions by running the checks in order |
| C66 | order of the axes | Spec/AxisOrder; operations along different axes are finite linear combinations and commute (Lemmas/AxisOrder: the transforms as functions of positions of the whole tensor, permutation induction); textbook forms of C16, C18, C19, C43, C59 |
| C67 | change of numbers | Spec/Rel, Spec/Family, Spec/FamilyPacket; binary logical relations: every primitive respects relations between two rings that are closed under 0, + and · (Lemmas/Rel, RelN, RelPacket, RelLoss); a ring map is such a relation (Lemmas/Family) |
| C68 | differentiability in data and taps | Spec/Family; a family of inputs is one input over the ring of functions of the parameter; evaluation at a parameter and membership in the class are relations covered by Lemmas/Rel* |
| C69 | cwt: delays, reach, constants | Spec/Cwt (closed form of C47); sums over the support of the sampled wavelet |
| C70 | size and sensitivity of results | Spec/Bounds; the relation "at most b in absolute value" through the relational theorems of C67; explicit bounds by induction over the levels of the textbook transforms |
| C71 | dictionary operations (del, in, get, pop, setdefault) as an extended operation type over the packet state machine | invariant: every stored value is the pure packet value; reads recompute from the nearest stored ancestor; exact characterisation of the set of stored keys |
| C72 | squared distances of tensors and containers; wavedec/2/3 in zero mode and swt | expansion of squares, adjointness (C60, new for iswt) and perfect reconstruction |
| C73 | wavedec and swt on the same input, both equal to their textbook transforms (C02, C24) | induction over the levels: a coefficient inside the signal reads the same samples in both recursions, at the position 2^s k - (2^s-1)(F/2-1); the shift by c is C24; level 1 of the periodic mode by periodicity of both extensions; interleaving by parity |
| C74 | the loops of wavedec and waverec with the convolution routines and the tap conversion as parameters (Model/Rounded) | error bound for sums of products in any order (induction over the evaluation tree); one relation between computed numbers and triples (exact value, bound, bound with errors) closed under all operations; the triple run is projected with C67 to three exact runs; explicit bounds by homogeneity in g and C70; the round trip with C01 |
| C75 | wavedec2, waverec2, wavedec3, waverec3 and the filter construction with the number-crunching routines as parameters (Model/RoundedN) | the relation of C74 with a second form for products of rounded taps; convolutions over any number of axes as sums over lists of index pairs, at most 2^n ((F+1)/2)^n of which contribute to an entry of a transposed convolution; projection with C67, homogeneity of the n-dimensional textbook transform and C70 for explicit bounds, C15 and C17 for the round trips |
| C76 | the separable and stationary transforms and the packet objects with the number-crunching routines as parameters (Model/RoundedS) | the relation of C74 carried through the separable recursion, the stationary loops (grouped transposed convolution, at most F terms per entry; mean) and the generic packet machine (two_run); projection with C67; homogeneity of the textbook transforms, C24, C23 and C20 for bounds and round trips |
| C77 | `examples/network_compression/wavelet_linear.py`: the constructor, the six stages and their composition, permutation and dropout masks as parameters (Model/WaveletLayer) | lengths by induction over the scales; decomposition and reconstruction from the characterisations of wavedec (C02) and waverec (C13); one scale from C01; the unread columns from arithmetic on the segment bounds; non-injectivity from a signal whose only non-zero coefficient lies in an unread column; linearity by the relational lemmas of C07 |
| C78 | no new code; weighted copies of coefficient lists and containers (Spec/Bands) | a family of calls that is additive in its parameter maps sums to sums (superpose), fed by the linearity of the reconstructions (C05, C54); round trips from C01, C15, C17, C20, C23 |
| C79 | `examples/deepfake_analysis/packet_plot.py`: `generate_frequency_packet_image` (Model/PacketPlot) | concatenation of equal blocks by induction over the blocks; the grid from C29, positions in natural order from C27 and the injectivity of the Gray code |
| C80 | `wavedec`, `wavedec2`, `wavedec3`, `fswavedec2`, `fswavedec3` with `mode="zero"` (Model/Conv1, ConvNd, SepConv), packets in `zero` mode, transform on all integers in Spec/ZeroMode, Spec/ZeroModeN, Spec/PacketZ | induction over the levels from C04: the outputs outside the returned range only see zeros; delays commute with filtering and downsampling |
| C81 | `wavedec`, `waverec`, `wavedec2/3`, `waverec2/3`, `fswavedec2/3`, `fswaverec2/3`, packet objects; mirrored tensors and filters in Spec/Mirror, Spec/MirrorRec | every extension mode commutes with reflection; one step by reindexing the sum, then induction over axes and levels; synthesis by induction over the levels |
| C82 | the five analysis and five synthesis functions, swt, iswt, packets; rescaled banks and tensors in Spec/Scaled | one step by pulling the factor out of the sum, then induction over axes and levels; polynomial identity for the perfect reconstruction condition |
| C83 | the five analysis functions and both packet classes in periodic mode; cyclic shifts in Spec/Roll | the periodic extension of a rolled signal is the rolled extension; one step by reindexing, then induction over axes and levels |
| C84 | the six boundary-matrix transform classes and both packet classes in boundary mode; inner products of containers in Spec/Inner, bands in Spec/MatInner | polarisation of the energy theorem (C55) with linearity (C54); synthesis through the surjectivity of C63 |
| C85 | `MatrixWavedec` (its boundary matrices) against `wavedec`; which samples a coefficient reads in Spec/MatLocal | uncut rows of the orthogonalised matrix are the filter rows (C53/C63 lemmas), induction over the levels; polynomials through C58; Haar as the case without cut-off rows |

## 4. Disagreements between documentation and code found while reading (to be proved as negations)

* F1 `_pad_symmetric_1d` recurses forever on an empty signal.
* F2 `_circular_pad` is not the periodic extension when one side finishes on a partial wrap
  while the other still wraps (e.g. n=7, F=8, dilation 2), reachable through `swt(level=...)`
  when 2^(level-1) does not divide n.
* F3 `wavedec3(level=0)` keeps the added channel axis, output shape has an extra 1.
* F4 `fswaverec2/3` and `MatrixWaverec3` write the approximation into the caller's dicts when
  no preprocessing copies them (rank = ndim+1, default axes); a second `MatrixWaverec3` call
  on the same coefficients then raises ValueError (8 keys).
* F5 `MatrixWavedec(level=None)` freezes the level at the first call; later calls with other lengths use it.
* F6 `MatrixWavedec(level=None)` on a short signal sets level 0; the second identical call raises ValueError.
* F7 matrices are cached with the dtype/device of the first call; same length, other dtype fails.
* F8 if matrix construction fails midway, the next call with the same length silently uses the partial list.
* F9 (H,V) order differs between `MatrixWavedec2(separable=True)`/separable packets and `wavedec2`/non-separable.
* F10 `reconstruct` on an uninitialised packet object raises ValueError from `self[""]` (the maxlevel computation is unreachable).
* F11 `MatrixWavedec2(separable=False)` on an image smaller than the filter uses an unbound local.
* F12 odd-length filters break reconstruction.
* F13 `_expand_node` rewrites all children of a node: a value assigned to an absent coefficient is
  lost when a sibling is read (c49_absent_overwritten).
* F14 `WaveletPacket2D.get_freq_order(0)` is `[]` although level 0 has one node (c29_level_zero).
* F15 a failing `WaveletPacket.transform` replaces the data but keeps the level of the past (c31_failed_transform).
* F16 `sparse_replace_row` only works for square matrices (it builds a square identity from one size).
* F17 `cat_sparse_identity_matrix` passes indices through float32, so indices above 2^24 are rounded.
* F18 `sparse_diag` raises RuntimeError for diagonals outside the matrix; `sparse_kron` of matrices without
  entries returns float32; `construct_conv2d_matrix(mode="same")` fails for images narrower than the filter.
* F19 there are filter banks whose boundary rows are dependent: there the orthogonalised matrix is not
  invertible and the round trip of the matrix transform fails (hypothesis `BoundaryIndep`).
* F20 `rec_lo_orthogonality_loss` fails for half precision filters.
* F21 `cwt` with a biorthogonal discrete wavelet raises ValueError; float32 data gives float64 output.
* F22 `MatrixWavedec2` raises RuntimeError for an empty batch; `MatrixWaverec3` rejects level-0 coefficients.
* F23 boundary mode packets cache matrices with the dtype of the first transform (c31_boundary_dtype), and a
  node shorter than the filter cannot be expanded.
* F24 `WaveletPacket2D(separable=True)` exchanges `h` and `v` relative to `separable=False`.
* F25 `len(WaveletTensorTuple)` is 4, the number of filters: the automatic level of `fswavedec2/3` and `MatrixWavedec*` ignores
  the filter length for tensor tuples; `wavedec2/3(level=None)` raise ValueError for tuples and learnable wavelets (C53).
* F26 deleting a packet coefficient and reading it again reverts an assignment to its sibling (c71_sibling_reverted).
