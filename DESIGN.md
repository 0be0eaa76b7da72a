# Formal model of `named_arrays` in Lean 4 — design

Source: `/repo` (python package `named_arrays`, pinned commit), read as text.
Nothing in `/repo` was built, run or changed.  The tie between the theorems and
the code is the reading recorded in the comment of each model definition (file
and lines in `/repo`).

## 1. Trusted base

* **Lean 4.33 kernel** and the standard axioms `propext`, `Classical.choice`,
  `Quot.sound` (each property theorem depends on a subset of these; printed by
  `#print axioms`, audited by `vcheck`).  No axiom is added, no `sorry`, no
  `native_decide`, no `bv_decide`.
* **Our reading of the Python code**, definition by definition.
* **Model of NumPy primitives** (`Verif/ND.lean`, `NDIndex.lean`, `NDReduce.lean`).
  NumPy itself is not modelled from its source; the primitives the package calls
  are given their documented semantics:
  `transpose`, `moveaxis`, `reshape`, `broadcast_to`, broadcasting of equal-rank
  arrays, basic and advanced indexing with the advanced indices in front,
  reductions over a tuple of axes, `take_along_axis`, `repeat`, `sort`.
  An n-dimensional array is a shape `List Nat` and a function from
  multi-indices to elements; memory layout, views and aliasing are not modelled.
  Details which matter and were taken from the documentation of numpy:
  index bounds are checked even if the result is empty;
  `argsort`, `partition`, the mean and the random generators are arbitrary
  functions satisfying their contract (so nothing depends on the algorithm);
  `partition` checks `kth` even on empty arrays;
  `copyto` rejects masks which are not boolean with `TypeError`;
  `histogramdd` needs nondecreasing edges, closes the last bin and drops samples
  outside of the edges; `linspace`, `arange`, `geomspace` have their exact values.
* **Numbers.** Elements are an arbitrary type for structural properties, and an
  exact field, ordered field or commutative ring for arithmetic properties; the
  iterative solvers (C45, C46, C59) use arbitrary number operations, so rounding
  and nan are covered there.  Otherwise IEEE-754 rounding, NaN and infinities
  are not modelled.  Units are modelled in C98 (`Verif/Units/Basic.lean`), where
  the rules of `astropy.units` (conversion factors, the units of sums, products
  and comparisons) are part of the trusted base; elsewhere arrays have no units.
* **Exceptions** are values: a model function that can raise returns
  `Except Err α`, and the raising branches are modelled and covered by theorems.
* Python `dict`s are association lists with unique keys, in insertion order
  (`Verif/Dict.lean`); `dict` equality is modelled as the order-insensitive
  comparison Python uses.

### Not modelled

Units, dtypes (except the casts of `pack` and `copyto`), plotting
(`plt.py`, `visualization`), `colorsynth`, `ndfilters`, `regridding` and
`point_in_polygon` (compiled external packages), `numexpr`, FITS / WCS wrappers,
FFT, views and aliasing; matrices with more than three rows (inverted by numpy);
`out=` and `where=` for vectors, uncertain scalars and functions unless stated.
`where=` arrays which enlarge the array of a reduction are mapped to an own
error value (`notImplemented`) and excluded by hypotheses.
`ScalarStratifiedRandomSpace` is modelled with `centers` as an argument; as the
dataclass inherits the default of another base class first, its default
effectively is `False`.

## 2. How statements are made independent of the model

Each array layer has a small specification vocabulary which does not mention
axis positions at all:

* a *named index* is a function `String → Nat`;
* `a.at' e` reads the array at the named index `e`, `a.atB e` reads it with the
  broadcasting convention (index 0 on axes of size 1; axes the array lacks are
  ignored);
* `e` is in range of a shape when `e ax < n` for each `(ax, n)` of the shape.

A theorem such as "elementwise operations broadcast by name" is then
`(ufunc2 f a b) = .ok r → InRange r.shape e → r.at' e = f (a.atB e) (b.atB e)`,
plus the shape equation and the exact error condition.  The positional code
(newaxis, moveaxis, advanced axes moved to the front) appears only in the model
definitions, not in the statement.

Properties that are false of the code are kept in `properties.jsonl` with
their full statement; the Lean files prove the negation with a concrete witness
(theorem names ending in `_counterexample`, `_refuted`, `_limit` or `_fails_...`),
and the part which does hold under a name ending in `_partial`.

`seeded/LOG.jsonl` records edits of the model (each in a scratch copy).
`theorems_failed` lists the property theorems whose proof does not go through
any more, directly or because a lemma they use failed; `first_failures` lists
the declarations which failed directly.

## 3. Layout

| file | models |
|---|---|
| `Verif/Dict.lean` | python `dict` as association list |
| `Verif/Shape.lean`, `ShapeLemmas.lean` | `broadcast_shapes`, `ndindex`, `type_array`, ... (`_core.py`) |
| `Verif/ND*.lean` | numpy primitives |
| `Verif/Scalar/*.lean` | `ScalarArray`: ufuncs, indexing, assignment, reductions, sorting, joining, trimming, histograms |
| `Verif/Vector/*.lean` | vectors of any nesting, Doppler vectors, cell areas and volumes |
| `Verif/Matrix/*.lean` | matrices |
| `Verif/Transform/*.lean` | `transformations.py` |
| `Verif/Nested/*.lean` | `pack`, `unpack`, nested `getitem` / `shape` |
| `Verif/Interp/*.lean` | linear interpolation, cell centers |
| `Verif/Space/*.lean` | ranges, linear, logarithmic, geometric and stratified spaces |
| `Verif/Optimize/*.lean` | Newton, secant, gradient descent |
| `Verif/Stats/*.lean` | `stats.py`, `pdf.py` |
| `Verif/Uncertain/*.lean` | uncertain scalars |
| `Verif/Function/*.lean` | function arrays, integrals, polynomial fits |
| `Verif/Props/*.lean` | the property theorems, with an `example` beside each |

## 4. Plan and state per property

Each entry: what is modelled and how it is proved, then the state and what is missing or where the code disagrees with the property.

**C01 Broadcasting named shapes succeeds exactly when the sizes agree axis by axis.** `broadcastShapes : List Shape → Except Err Shape` mirrors the loop of `broadcast_shapes`; induction over the argument list with the invariant that the accumulator is the axis-wise join so far. Specification: `HasSize` / `Clash`.
State: proved (`Verif/Props/Shapes.lean`). All finite lists of genuine dicts.

**C02 Broadcasting shapes does not depend on argument order, grouping or repetition.** Uniqueness of the axis-wise join (`joinOf_unique`) makes order, repetition and grouping irrelevant.
State: proved (`Verif/Props/Shapes.lean`). Permutation and repetition (equal sets of arguments), neutral empty shape, grouping of any contiguous part.

**C03 Axis order of a broadcast shape is first-appearance order.** Keys of the accumulator are the first appearances; induction over the arguments.
State: proved (`Verif/Props/Shapes.lean`). 

**C04 ndindex visits every named index exactly once, in row-major order.** `ndindex` as the product of ranges; membership, `Nodup` and lexicographic order.
State: proved (`Verif/Props/Shapes.lean`). 

**C05 Function dispatch picks the highest-priority argument, earliest on ties.** The fold over the priorities; characterised as the earliest maximum.
State: proved (`Verif/Props/Shapes.lean`). 

**C06 Named arrays are always well formed.** The constructor is a checked function; every operation returns through it and each theorem states that the result is well formed.
State: proved (`Verif/Props/Elementwise.lean`). Constructor characterised; the theorems about the other operations each state that their result is well formed.

**C07 Elementwise operations broadcast by axis name.** Alignment (newaxis, moveaxis) proved pointwise by name, the ufunc theorem on top.
State: proved (`Verif/Props/Elementwise.lean`). 

**C08 The axis order of operands does not affect the values of an elementwise operation.** Corollary of C07: arrays equal by name give results equal by name.
State: proved (`Verif/Props/Elementwise.lean`). 

**C09 Aligning an array to a list of axes preserves elements by name.** `ndarray_aligned` pointwise by name.
State: proved (`Verif/Props/Elementwise.lean`). 

**C10 transpose, add_axes and broadcast_to keep every element at its named index.** Pointwise by name for the positional implementations.
State: proved (`Verif/Props/Elementwise.lean`). 

**C11 combine_axes flattens the given axes in row-major order of the given sequence.** Row-major ravel and unravel are inverse.
State: partial (`Verif/Props/Axes.lean`). Proved when no remaining axis has size 0; C11_combine_axes_empty_rest proves that otherwise the code raises ValueError although the result is well defined (the size of the new axis is given to numpy as -1).

**C12 reshape preserves the row-major sequence of elements.** Row-major ravel and unravel are inverse.
State: proved (`Verif/Props/Axes.lean`). 

**C13 Basic indexing by name selects the stated elements and ignores absent axes.** Slices resolved as in python; advanced-axes-first rule of numpy; pointwise by name.
State: proved (`Verif/Props/Indexing.lean`). All integers, slices (any sign of step) and None; errors characterised.

**C14 Indexing with named index arrays is joint (vectorised) by name.** Joint index arrays broadcast by name; pointwise by name.
State: proved (`Verif/Props/Indexing.lean`). 

**C15 Boolean masks select exactly the true elements, in row-major order of the mask.** Masks as the list of true positions in row-major order.
State: proved (`Verif/Props/Indexing.lean`). 

**C16 Assignment by named index writes exactly the addressed elements.** Assignment through positions; every element not addressed is unchanged.
State: proved (`Verif/Props/Indexing.lean`). Integer, slice, index-array and boolean-mask items; value broadcast by name.

**C17 Reductions over named axes depend only on the set of axes.** Reductions as functions of the list of the selected elements of a slab; permutations for orderless reductions.
State: proved (`Verif/Props/Reductions.lean`). Without out, with where; with an out array of the right named shape. C17_out_mislabelled records that a mislabelled out is accepted.

**C18 Successive sums over disjoint axes equal one sum over their union.** Fubini for finite slabs.
State: proved (`Verif/Props/Reductions.lean`). 

**C19 Cumulative reductions accumulate along the named axis.** Prefixes of the line along the axis.
State: partial (`Verif/Props/Reductions.lean`). Proved without out, and with out when out.axes = a.axes; C19_refuted is a counterexample when out has the same named shape with permuted axes.

**C20 Indexing with argmin/argmax returns the min/max.** `unravel_index` of the flattened axes, indexing by C14.
State: proved (`Verif/Props/Ordering.lean`, `Verif/Props/Sorting.lean`). 

**C21 Indexing with argsort equals sort.** Any argsort which satisfies its contract.
State: proved (`Verif/Props/Sorting.lean`). 

**C22 nonzero and unravel_index address exactly the right elements.** Row-major order of positions.
State: partial (`Verif/Props/Sorting.lean`). Proved for arrays with at least one axis; C22_zero_dim_limit shows that a 0-d array gives an index which does not equal mask indexing.

**C23 stack adds an axis indexed by argument position.** Pointwise by name.
State: proved (`Verif/Props/Joining.lean`). 

**C24 concatenate joins along the named axis.** Offsets of the arguments along the axis.
State: proved (`Verif/Props/Joining.lean`). 

**C25 moveaxis renames source axes to destination axes simultaneously.** Model of the renaming loop; pointwise by name where it does not merge names.
State: partial (`Verif/Props/Axes.lean`). Proved when no destination is a source listed later; C25_moveaxis_swap_refuted shows that swapping two names merges them and raises.

**C26 debroadcast is a lossless compression.** Round trip with `broadcast_to` (C10).
State: proved (`Verif/Props/Comparing.lean`). 

**C27 Equality of named arrays respects names.** Comparison of raw arrays against comparison by name.
State: partial (`Verif/Props/Comparing.lean`). array_equal compares raw ndarrays: proved for arrays with the same axes in the same order; C27_array_equal_refuted is a counterexample with different axis names. array_equiv is correct by name but raises on incompatible shapes.

**C28 Changing the index of an axis puts it at the requested position.** Model of `change_axis_index`.
State: partial (`Verif/Props/Axes.lean`). Proved that the elements stay at their named index and that the position is right for the indices stated in the theorem; C28_change_axis_index_refuted gives a wrong position.

**C29 pack and unpack are inverse.** Inductive type of nested values, structural induction on offsets into the flat array.
State: partial (`Verif/Props/Packing.lean`). Round trip proved for all structures of dicts, lists, tuples, dataclasses and vectors with real leaves. The code violates the rest: python ints and bools are truncated, complex numbers lose their imaginary part, a NamedTuple cannot be rebuilt, and a too short flat array raises IndexError instead of ValueError for python numbers (all proved with witnesses).

**C30 na.getitem and na.shape act uniformly on nested structures.** Inductive type of nested values, structural induction.
State: proved (`Verif/Props/Nesting.lean`). All finite nestings; arrays are scalars and vectors of any nesting. A NamedTuple comes back as a tuple, as documented.

**C31 Linear interpolation is exact at nodes and on linear data.** Recursion over the axes, affine identities over an ordered field with floor.
State: proved (`Verif/Props/Interpolation.lean`). Exact arithmetic over any ordered field with a floor; positions are scalar arrays of any shapes which broadcast with the remaining axes.

**C32 cell_centers averages neighbouring vertices.** Average over the corners of a cell as a sum over subsets of axes.
State: proved (`Verif/Props/CellCenters.lean`). Exact arithmetic over any field; also the random variant for every outcome of the generator.

**C33 Linear, logarithmic and geometric spaces are regularly spaced between their endpoints.** Closed forms of the spaces and of their steps.
State: partial (`Verif/Props/Spaces.lean`). Exact arithmetic. Proved for every number of points and both flags; logarithmic and geometric spaces over the reals. The code differs from the description in three corners, each proved with a witness: one point with the endpoint does not end at stop and has no step; cell centers without the endpoint are those of num + 1 cells; num of a reversed range is negative.

**C34 Stratified samples stay inside their own stratum.** Interval arithmetic for every outcome of the generator.
State: proved (`Verif/Props/Stratified.lean`). For every outcome of the generator in [0, 1); if stop is below start the generator raises ValueError (C34_limit).

**C35 Trimmed mean is the mean of the sorted middle part.** Any partition satisfying the numpy contract; the multiset of kept elements.
State: partial (`Verif/Props/Trimmed.lean`). Proved for scalar arrays without empty axes and every q in [0, 1/2), for every line partition satisfying numpy contract; arrays with an empty axis raise ValueError (C35_empty, C35_empty_rest), q = 1/2 takes the mean of nothing for an even number of elements (C35_half). Exact arithmetic.

**C36 Vector operations act component by component.** Inductive type of components, structural induction over the nesting.
State: proved (`Verif/Props/Vectors.lean`). Vectors nested to any depth. Vectors with different component names (CartesianNd) are outside of the statement: C36_nd_asymmetric_refuted shows that components are dropped in one order and KeyError is raised in the other.

**C37 Indexing and reducing a vector equals indexing and reducing each component.** Structural induction over the nesting, scalar theorems at the leaves.
State: partial (`Verif/Props/VectorReduce.lean`). Reductions and masks: all vectors nested to any depth (without out and where). Integers and slices: proved when no component has size 1 along an indexed axis where the vector has another size; C37_getitem_singleton_refuted shows the failure otherwise.

**C38 Flattening nested vectors is invertible.** Induction over the nesting; names joined with dots.
State: partial (`Verif/Props/Flattening.lean`). Proved when no component name contains a dot; C38_dots_refuted is a counterexample otherwise (CartesianNd names are arbitrary strings).

**C39 Matrix inverse is a two-sided inverse.** Polynomial identities over a field for 1 to 3 rows; lifted to named arrays.
State: partial (`Verif/Props/Inverses.lean`). Proved for 1, 2 and 3 rows over any field (and named arrays over it), rows nested to any depth, when all rows list their components in the same order and the class of the matrix can hold the row names. C39_fails_order and C39_fails_class refute the rest: with different orders a wrong matrix is returned, with other row names TypeError is raised. Four or more rows: C96.

**C40 Determinant, transpose and product obey the usual laws.** Finite sums by name; polynomial identities.
State: proved (`Verif/Props/Inverses.lean`, `Verif/Props/Matrices.lean`, `Verif/Props/MatrixLaws.lean`). Any component names, nesting and order, over any commutative ring and named arrays over it; determinants for matrices whose rows list their components in the same order (C40_fails_determinant_order shows the limit).

**C41 Rotation matrices preserve length and compose by adding angles.** Trigonometric identities over the reals.
State: proved (`Verif/Props/Rotations.lean`). All angles, numbers and named arrays of angles, all four rotation classes.

**C42 Composing transformations composes the functions.** Inductive type of transformations; the `@` dispatch with `NotImplemented` as an option.
State: proved (`Verif/Props/TransformNumbers.lean`, `Verif/Props/Transformations.lean`). Identities, translations, linear and affine transformations (rotations are linear) and lists nested to any depth, vectors of any nested kind, over any commutative ring and named arrays over it; the vectors and matrices must have the kinds which the composition needs (Typed).

**C43 The inverse of a transformation undoes it.** Structural induction, C39 for the linear parts.
State: partial (`Verif/Props/TransformInverses.lean`, `Verif/Props/TransformNumbers.lean`). Proved for all lists nested to any depth whose linear parts are matrices which the package inverts correctly (1 to 3 rows, see C39; with more rows the inverse is transposed, see C96).

**C44 A transformation list applies its members in the documented order.** Induction over lists.
State: proved (`Verif/Props/TransformNumbers.lean`, `Verif/Props/Transformations.lean`). Lists of any length nested to any depth, intrinsic or not.

**C45 A root returned by Newton's method is a root to the requested accuracy.** The loop as a fuelled recursion with the exception raised at the end; invariant over iterations.
State: partial (`Verif/Props/Newton.lean`). All functions, guesses and tolerances, scalars and vectors, arbitrary number operations (so rounding, nan and infinities are covered). If the function values at the guess already satisfy the tolerance, the returned array is the guess broadcast to their shape, so |f(x)| < max_abs_error needs a function which respects broadcasting; proved to fail otherwise (C45_first_iterate_refuted).

**C46 The secant method converges element by element and freezes converged elements.** Same, with the set of converged elements as part of the state.
State: partial (`Verif/Props/Secant.lean`). All functions, guesses, tolerances, dampings and numbers of iterations, scalar arrays, arbitrary number operations. The elements where function(guess - 10 * min_step_size) is nan or infinite are excluded: they are marked converged from the start and the guess is returned for them (C46_nan_refuted).

**C47 Operations on uncertain scalars act on the nominal value and on every sample.** Layer over C07 for the nominal value and the samples.
State: proved (`Verif/Props/Uncertain.lean`). All element functions, any number of plain or uncertain operands, every shape. Without out and where.

**C48 Reshaping an uncertain scalar keeps each sample together.** Layer over C12 with the sample axis last.
State: proved (`Verif/Props/UncertainReshape.lean`). np.reshape of every uncertain scalar; the nominal value of a is replaced before its shape_distribution is read, which is why the sample axis ends up last and the samples are not mixed. Without samples KeyError (C48_no_samples).

**C49 Masked copy into an uncertain scalar touches only masked elements.** Branch by branch model of `copyto`.
State: partial (`Verif/Props/UncertainCopy.lean`). Proved for plain masks and allowed casts. An uncertain mask is not used at all: the source is used as the mask (C49_uncertain_mask_refuted), and if the cast is not allowed where is ignored and the whole array is replaced (C49_scalar_cast_refuted).

**C50 Indexing a function of cell vertices keeps inputs and outputs aligned.** Slices of inputs are one longer along vertex axes.
State: partial (`Verif/Props/FunctionIndex.lean`). Nonnegative integers in range and slices with nonnegative, ordered bounds and no step, along any number of axes at once. False for negative integers and bounds, other steps, and bounds out of order (the C50_..._refuted theorems give the wrong results).

**C51 Arithmetic on function arrays requires equal inputs.** Comparison of inputs by value after broadcasting.
State: partial (`Verif/Props/Functions.lean`). All operands, any elementwise function with one result, without out and where. Inputs of shapes which do not broadcast raise ValueError, not InputValueError (C51_input_error_refuted); inputs are compared after broadcasting.

**C52 Each axis of a function array is a center axis or a vertex axis, never both.** Case analysis on the sizes of the axes.
State: proved (`Verif/Props/Functions.lean`). All shapes of inputs and outputs, of any type (the code uses the shapes only).

**C53 Integrating a function array is exact on simple integrands and linear.** Finite sums over the centers or differences of vertices.
State: partial (`Verif/Props/Integrals.lean`). Scalar inputs and outputs, one axis, without component. Raises ValueError if the scalar inputs are vertices along a second axis (C53_second_vertex_axis); outputs of size 1 along a longer center axis raise.

**C54 Polynomial fit terms are all the monomials up to the degree, each once.** Combinations with replacement against multisets of components.
State: proved (`Verif/Props/Polynomials.lean`). Component names must be nonempty and without asterisks (with an asterisk two terms collide, shown by an example). The design matrix is modelled from the centered and broadcasted components on.

**C55 Doppler velocity and wavelength conversions are inverse.** Field identities, pointwise by name.
State: proved (`Verif/Props/Doppler.lean`). All wavelengths, velocities and rest wavelengths whose shapes broadcast, over a field; a result of broadcasting is repeated along new axes. Units are not modelled (consistent units assumed).

**C56 Cell volume is the signed geometric measure and is additive.** Determinants; telescoping of the shoelace sum.
State: proved (`Verif/Props/CellAreas.lean`). Scalar grids and grids of two-dimensional vectors with scalar components along two different axes, over a field; also the sum of all cell areas is the area enclosed by the boundary. Three dimensions are C64.

**C57 Selection, repetition and differences act along the named axis only.** Pointwise by name along the line of an axis.
State: proved (`Verif/Props/Selecting.lean`). 

**C58 A histogram has as many bins as requested and loses no sample in range.** Counts as sums over the samples in a bin; loops over the remaining axes.
State: partial (`Verif/Props/HistogramBins.lean`, `Verif/Props/Histograms.lean`). Proved for given edges in any number of dimensions, with and without weights: every count is the sum of the weights of the samples of the slab in the bin (last bin closed), totals, densities. Dictionary bins: histogram2d has the number of bins asked for; histogram and histogramdd have one bin fewer than documented (C58_number_of_bins_refuted), proved as _partial theorems for the bins there are; without min/max no sample is lost. The summed axes must be axes of the samples. nan, infinities and units are not modelled; densities use field division (x/0 = 0).

**C59 Gradient descent stops only at a small gradient.** Fuelled recursion; invariant over iterations.
State: proved (`Verif/Props/GradientDescent.lean`). All functions, gradients and parameters, vectors of any nesting, arbitrary number operations. The zero momentum formula uses 0 * z = 0 and 0 + g = g, which floating point numbers satisfy unless z is nan or infinite.

**C60 Indexing an uncertain scalar selects the same elements of the nominal value and of every sample.** Layer over C13 and C14.
State: partial (`Verif/Props/UncertainArrays.lean`, `Verif/Props/UncertainIndex.lean`, `Verif/Props/UncertainMask.lean`). Components of size 1 along an indexed axis are excluded: integers raise IndexError and slices give an array without shape (C60_integer_refuted, C60_slice_refuted). Index arrays, also uncertain ones: C60_arrays_partial; an uncertain index array without an entry for the sample axis raises ValueError (C60_uncertain_index_refuted).

**C61 Reductions of uncertain scalars act on the nominal value and on each sample separately.** Layer over C17.
State: proved (`Verif/Props/UncertainReduce.lean`). All uncertain scalars, axes and masks, any reduction function. Elements along an axis which a component does not depend on are counted as often as the shape says. Without out.

**C62 Sorting an uncertain scalar permutes the nominal value and every sample alike.** Layer over C21.
State: proved (`Verif/Props/UncertainSort.lean`). All uncertain scalars, every mean and every argsort satisfying its contract. The nominal value itself need not be in order.

**C63 Assignment to an uncertain scalar writes the addressed elements of the nominal value and of every sample.** Layer over C16.
State: partial (`Verif/Props/UncertainSet.lean`). Not atomic: the nominal value stays written if the assignment to the samples raises (C63_atomic_refuted).

**C64 Cell volumes of three-dimensional grids.** Sum of tetrahedra through the origin; telescoping of the faces.
State: partial (`Verif/Props/CellVolumes.lean`). Missing: components of size 1 along a longer axis, and grids where all the faces across one pair of axes lie in planes through the origin; the latter raise IndexError (C64_flat_refuted).

**C65 Indexing an uncertain scalar by its argmin gives its minimum.** Layer over C20 and C60.
State: proved (`Verif/Props/UncertainArg.lean`). With and without axis; hypotheses: no empty axis, no axis named like the joined names of the reduced axes, each component has each of its axes with the full size (otherwise indexing itself fails, see C60).

**C66 Transposing and broadcasting uncertain scalars moves no element by name.** Layer over C10.
State: partial (`Verif/Props/UncertainAxes.lean`). np.transpose is proved completely. na.broadcast_to does not raise if only the samples have an axis which is missing from the given shape, and the result has another shape (C66_broadcast_to_refuted).

**C67 rankdata gives every element its rank among the elements along the axes.** Model of stats.py in Stats/Basic.lean (nan is none); groups of equal values of a sorted line counted in Stats/RankLemmas.lean; arrays as functions of named indices in Stats/Named.lean; the scatter of the group ends relies on the last write of C16.
State: partial (`Verif/Props/Ranks.lean`). Proved for all arrays without empty axes with where=True or an array as where, and all four methods; also that ranks preserve the order, lie between 1 and n, do not change under increasing functions and add up to n(n+1)/2 (average). Refuted: a python False as where is ignored (C67_where_false_refuted). Limit: an empty axis raises (C67_empty_limit). np.argsort is a parameter with the contract of a sorting permutation, nan last; the ranks of nan elements are not specified.

**C68 pearsonr is the correlation coefficient of the selected pairs.** Model of stats.py in Stats/Correlation.lean (nan is none); reductions of arrays seen as functions of named indices in Scalar/RepReduce.lean; the coefficient of a list in Props/Correlations.lean.
State: proved (`Verif/Props/Correlations.lean`). Over an exact ordered field with a square root (a parameter with its contract); x / 0 is nan in the model. axis=None needs x and y to have the same axes; an axis which one of the arrays lacks raises ValueError although the arrays broadcast (C68_missing_axis).

**C69 spearmanr is the correlation coefficient of the ranks.** Uses C67 for the ranks of the flattened arrays and C68 for their coefficient (Props/RankCorrelations.lean).
State: proved (`Verif/Props/RankCorrelations.lean`). Over an exact ordered field with a square root and with np.argsort as a parameter with its contract. Nothing is said about slabs with a selected nan. The name of the flattened axis must be new.

**C70 argpercentile finds the position below which the given share of the mass lies.** Model of pdf.py in Pdf/Basic.lean; the arithmetic of one line in Pdf/Line.lean; arrays of indices as functions of named indices in Pdf/Lemmas.lean.
State: partial (`Verif/Props/Percentiles.lean`). For q = 100 the code returns -1 (C70_all_refuted). An axis of length one of a is not broadcast against q (C70_length_one_limit). Over an exact ordered field.

**C71 interp interpolates every element in the lines of the tables at the same named index.** Model in Interp/Table.lean on top of the loop of Scalar/Loop.lean.
State: partial (`Verif/Props/Tables.lean`). If the tables have an axis of length one along which x is longer, the elements after the first are uninitialised memory (C71_length_one_refuted). np.interp is a parameter in C71_interp_partial and modelled over an exact field by npInterp.

**C72 percentile, median and iqr of binned distributions are the coordinates below which the given shares lie.** Model in Pdf/Percentile.lean; the theorem combines C70 and C71 (Props/Quantiles.lean).
State: partial (`Verif/Props/Quantiles.lean`). For q = 100 the first edge is returned (C72_all_refuted). Axes of length one: see C70 and C71. Over an exact ordered field.

**C73 fwhm is the distance between the outermost crossings of half of the maximum.** Model in Pdf/Width.lean; crossings of one line and gathers by arrays of indices in Props/Widths.lean.
State: proved (`Verif/Props/Widths.lean`). The conditions on the ends are those of the documentation; without them a negative index wraps around or an IndexError is raised (C73_edge_limit). Over an exact ordered field, without empty axes.

**C74 rearranging function arrays keeps every input with its output.** Model in Function/Structure.lean on top of the scalar operations; the theorems (Props/FunctionStructure.lean) reduce to those of C10, C12, C23-C25 and C57 by showing what the shape of a function says about its components.
State: partial (`Verif/Props/FunctionStructure.lean`). moveaxis raises ValueError if only the inputs or only the outputs have any of the moved axes (C74_moveaxis_refuted); stack does not compare the inputs of one function with the outputs of another one and can create a vertex axis (C74_stack_sizes_refuted). Inputs and outputs are scalar arrays.

**C75 reducing a function array merges its cells.** Model in Function/Reduce.lean; Props/FunctionReductions.lean combines the theorems about reductions (C17), cumulative reductions (C19) and cell centers (C32) with the shapes of functions (C52).
State: partial (`Verif/Props/FunctionReductions.lean`). If the outputs lack the reduced axis, the sum is not the one over the points of the function (C75_absent_axis, C75_sum_refuted), whereas np.cumsum repeats the outputs. With keepdims=True (the default) the inputs keep their vertices and a vertex axis becomes a center axis with one point more (C75_keepdims_refuted). Without out, where, dtype and initial.

**C76 Rearranging vectors acts on every component as on a scalar of the vector's shape.** Vector/Structure.lean models the common scheme (find the class, broadcast, call the same function on the components of each name) with fuel by depth. Vector/Nary.lean proves one theorem about the scheme, path by path; Props/VectorStructure.lean instantiates it with the theorems for scalars (C10, C12, C19, C23, C24, C25, C57).
State: partial (`Verif/Props/VectorStructure.lean`). Proved for all vectors and arguments, except np.moveaxis, where the new names must be new to the whole vector: C76_moveaxis_refuted shows that a new name which is an axis of another component is silently accepted and the grid collapses to one axis. np.diff is modelled without prepend and append, cumulative functions along one axis, take_along_axis with scalar indices; no out argument.

**C77 Assignment to vectors replaces exactly the addressed elements of every component.** Model `vector[item] = value` as a state transformer returning the vector afterwards and the error, with the loop over the components in order; prove by induction over the tree that it is the assignment of the parts at every path, and compose with the theorems on scalar assignment (C16).
State: partial (`Verif/Props/VectorSet.lean`). Proved for vectors of any depth: success exactly if every component can be assigned, and then every component is what its own assignment gives (C77_components); element-wise form for integers and slices (C77_elements) and for filling by masks (C77_mask); type errors change nothing (C77_type_error); after any outcome each scalar is unchanged or completely assigned (C77_effects), components are assigned in order up to the first error (C77_order). Refuted: a failing assignment leaves earlier components modified, which happens for every vector with a component lacking the axis after one having it (C77_atomic_refuted); a vector as mask reads the elements where all components are true but writes each component where its own mask is true (C77_vector_mask_refuted); a vector as mask of a scalar component is ignored silently (C77_ignored_refuted). Components sharing memory and components which are plain numbers are not modelled.

**C78 Reading function arrays with masks and assigning to function arrays keep inputs and outputs paired.** Model the boolean branch of _getitem and __setitem__ as state transformers; compose the theorems on scalar assignment (C16), masks (C15), cell centers (C32) and the axes of functions (C52).
State: partial (`Verif/Props/FunctionSet.lean`). Proved for scalar inputs and outputs: reading with a mask (C78_read_mask), assignment of numbers, of functions on centers and of functions on vertices by integers and slices (C78_set_outputs, C78_set_function, C78_set_vertices), filling with a mask (C78_set_mask), errors (C78_set_error, C78_other_inputs). Refuted: a bin read by its number cannot be written back (C78_write_back_refuted); a failing assignment of a function leaves the inputs modified (C78_atomic_refuted); selecting with a mask replaces the edges by centers also along axes the mask lacks (C78_other_axes_refuted). Items which contain functions, and index arrays in assignments, are not covered.

**C79 Elementwise operations into an existing array, in place, and under a mask.** Model numpy's ufunc with out and where (trusted), and __array_ufunc__ with both keywords for any number of inputs and outputs; reduce each operand to the broadcasting theorem C10 with the shape of the output.
State: partial (`Verif/Props/OutWhere.lean`). Proved for one output array (C79_out, C79_in_place), for several outputs with the same axis order (C79_out_partial), for a mask without output array (C79_where), and errors (C79_shapes, C79_inputs_error). Refuted: two outputs with equal named shapes but different axis orders pass the check and the second one is silently transposed (C79_order_refuted); an output whose ndarray is a python scalar loses its element where the mask is false (C79_scalar_out_refuted). dtype casting, units and overlapping memory are not modelled.

**C80 In-place operations on uncertain scalars and vectors update every part or none.** State transformers which return the output afterwards and the error; the parts are reduced to C79.
State: partial (`Verif/Props/Inplace.lean`). Proved: C80_uncertain, C80_uncertain_error_partial, C80_number_nominal, C80_vector_partial (components which are named arrays), C80_vector_effects (whatever the outcome, each scalar component is either unchanged or completely updated), C80_type_error. Refuted: a failing operation leaves the nominal value (C80_uncertain_atomic_refuted) or the first components (C80_vector_atomic_refuted) modified; a vector whose components are plain numbers cannot be modified in place (C80_number_refuted). where for vectors and several outputs are not modelled.

**C81 Percentiles of arrays.** Model percentile_like on top of the numpy rule (dimensions of q first), and the linear method for lists over an ordered field. Prove the shape and elements by name from the named form of numpy reductions, and the facts on lists from a splitting of each position into a step and a fraction.
State: proved (`Verif/Props/ArrayPercentiles.lean`). C81_percentile (axes, sizes and elements), C81_orderless (any enumeration of the slab), C81_out, C81_error; for lists C81_interpolates (which determines the percentile), C81_order, C81_monotone, C81_extremes, C81_affine, C81_single. The rule of numpy for percentiles of arrays and lists is part of the trusted base (exact arithmetic); arrays without elements are left out.

**C82 Fourier transforms along named axes.** Model fft_like and fftn_like with an arbitrary transform of lines and the order of steps of numpy; follow sizes and elements by name through the steps; sum over slabs by induction on the axes; undo the steps in the opposite order.
State: partial (`Verif/Props/Fourier.lean`). Proved: C82_fft, C82_fft_error, C82_round_trip, C82_irfft for one axis; C82_fftn, C82_fftn_order, C82_fftn_round_trip, C82_fftn_error, C82_fftn_collision for several axes; C82_fftn_steps, C82_rfftn_steps and C82_irfftn_steps reduce transforms along several axes to single ones; C82_dft_inverse: the discrete Fourier transform with primitive roots of unity satisfies the assumption of the round trips. Refuted: irfftn without s does not give back the number of points after rfftn (C82_irfftn_size_refuted), although irfft does for even numbers (C82_irfft). The definition of the transforms of lines is numpy's, part of the trusted base.

**C83 Joining, selecting and rearranging uncertain scalars.** Model each function with _normalize, .broadcasted and the constructor check; combine the theorems about plain scalar arrays (C23, C24, C25, C57, C66) for the nominal value and for the samples; compare the joint shapes by the sizes which occur along each axis.
State: partial (`Verif/Props/UncertainStructure.lean`). Proved in full for where, repeat, take_along_axis, stack and concatenate. Refuted: moveaxis to a name which only the other component has merges the two axes silently (C83_moveaxis_refuted); clip raises when a bound has an axis which one component lacks, and always for a plain array with uncertain bounds (C83_clip_refuted); diff raises for uncertain ends of a plain array (C83_diff_refuted). The theorems C83_moveaxis_partial, C83_clip_partial and C83_diff_partial cover the other inputs.

**C84 Cumulative sums, percentiles, Fourier transforms and nonzero elements of uncertain scalars.** Model each function with the explicit broadcast of both components along the axes concerned; combine C19, C81, C82, C17 and C22 for the nominal value and the samples.
State: partial (`Verif/Props/UncertainAlong.lean`). Proved in full for cumulative functions, fft and fftn (an absent axis of a cumulative function raises KeyError, elsewhere ValueError). Refuted: percentiles with samples of an array with samples always raise ValueError (C84_percentile_refuted); np.nonzero raises ValueError for every uncertain scalar whose distribution has no sample axis (C84_nonzero_refuted). Percentiles of arrays without elements or without samples are left out. np.nonzero is proved for an arithmetic in which a product is zero only if a factor is; in floating point the product of many small samples can underflow.

**C85 Percentiles, Fourier transforms, sorting and limits of vectors.** Model each function with the explicit broadcast of the components along the axes concerned; lift C81, C82, C21 and C57 to the leaves of the vector by induction over its depth.
State: partial (`Verif/Props/VectorAlong.lean`). Proved in full for percentiles, fft, fftn and sort, including the exceptions. For clip C85_clip_partial covers limits which fit the component they apply to; C85_clip_refuted: a limit along an axis which the vector has but one component lacks raises ValueError. The out argument and percentiles of vectors without elements are not modelled here.

**C86 Comparing vectors and uncertain scalars as a whole; nonzero elements of vectors.** Model the short-circuit loops over the components of the first operand; specify equality by a recursion over both vectors (SameTree), closeness by paths of component names; reduce to C27, C22 and C36.
State: partial (`Verif/Props/VectorComparing.lean`). Proved for vectors with the same component names where the types are the same; C86_equal_sound holds for all vectors. Refuted (C86_array_equal_refuted): components which only the second CartesianNd vector has are ignored, in the other order KeyError; a scalar compared with a vector raises, in the other order it is False. np.nonzero is proved for vectors of booleans and refuted for numbers (True & 2 is 0, C86_nonzero_refuted); np.unravel_index raises KeyError unless all axes of the shape are axes of the indices (C86_unravel_index_refuted). nonzero and unravel_index of vectors of vectors are modelled but not covered by the theorems. np.array_equal of scalars ignores the names of the axes (C27).

**C87 Indexing vectors with vectors; positions of sorted and least elements of vectors.** Model _getitem by recursion on the nesting depth, with the index for a component given by the same recursion on the index; specify the index at a path of component names (IndexAt); relate np.argsort and np.sort of the broadcast components in one induction, then use C13, C14, C20 and C21.
State: partial (`Verif/Props/VectorArgsort.lean`). The statement on np.argsort is proved for vectors none of whose components is stretched (C87_argsort_partial) and refuted for a component of size 1 along an axis where the vector is larger: np.sort and np.argsort succeed, but indexing with the result raises IndexError (C87_argsort_refuted). np.argmin is proved without this restriction, for every order of the keys of its result (which in python is that of a set), provided that no other axis has the name of the combined axes and that the vector is not empty. A vector in the index which lacks a component raises KeyError (C87_missing). The rest is proved in full.

**C88 Copying into vectors with a mask.** Model np.copyto as a function to the destination afterwards and an optional error, by recursion on the destination, with the handler of TypeError; prove the outcome by induction on the destination, with C49 for the components.
State: partial (`Verif/Props/VectorCopy.lean`). Proved for scalar masks and destinations whose components are all arrays, where numpy allows the casts (C88_copyto_partial, C88_error). The rest is false of the code: a mask which is a vector always raises TypeError (C88_vector_mask_refuted); a component which is a python number is replaced whatever the mask is (C88_number, C88_number_refuted); so is a component whose cast is not allowed (C88_cast_refuted) and a scalar component for which the source has a vector (C88_structure); ValueError can leave earlier components changed (C88_atomic_refuted); a component which the source lacks raises KeyError (C88_missing). That a replaced component is afterwards shared with the source is not modelled.

**C89 Percentiles of functions, and copying into functions.** Model both functions branch by branch on the models of scalar percentiles, means and copies; np.copyto returns the destination afterwards together with the error. Proofs combine C81, C17, C75 and C49.
State: partial (`Verif/Props/FunctionPercentiles.lean`). The outputs of percentiles are proved in full. Along axes on which the inputs are not vertices the inputs are proved to be those of any other reduction (C89_same_inputs); along vertex axes they are the means of the vertices instead of the centers (C89_percentile_partial, C89_vertex_refuted). Percentiles along an axis of the inputs are accepted and may give a function without a shape (C89_axis_refuted). np.copyto is proved for python booleans (C89_copyto_bool), and for functions as masks as far as the outputs go (C89_copyto_function_partial); the inputs are then replaced whatever the mask is (C89_copyto_inputs_refuted), and after ValueError the inputs may be changed although the outputs are not (C89_copyto_atomic_refuted). Functions without elements, with inputs or outputs which are python numbers or have boolean inputs, and the out argument are left out.

**C90 Powers of matrices with two rows and two columns.** Model the formula of the code over the complex numbers, with numpy's rules for real and complex powers and for division by zero, and the broadcasting of the entries on the scalar model. The result is a function of the matrix with given values at the eigenvalues; by Cayley and Hamilton such functions multiply pointwise, from which all laws follow.
State: partial (`Verif/Props/MatrixPowers.lean`). All laws are proved for matrices with different eigenvalues (C90_natural_partial, C90_inverse_partial, C90_add_partial, C90_root_partial, C90_types), where negative and fractional powers need a regular matrix and fractional powers positive eigenvalues or complex arithmetic. The rest is false of the code: with equal eigenvalues (for example of the identity matrix) every power is nan (C90_repeated_refuted), singular matrices have no powers below 1 (C90_singular_refuted), a negative eigenvalue makes fractional powers nan in real arithmetic (C90_negative_refuted), and whether this happens depends on the other elements of the array, since np.emath.sqrt converts the whole array to complex numbers if one argument is negative (C90_power, C90_elements_refuted). Real numbers are used in place of floating-point numbers; units, complex entries, rows other than Cartesian2dVectorArray and entries which are not scalars are left out.

**C91 Flattening, compressing, counting and comparing functions.** Model the loops of the code on top of the scalar model. Each component of combine_axes is reduced to C11 after the missing axes have been added; debroadcast to basic indexing with a loop invariant for the index; the histogram to C58 with the outputs as weights, since without vertices the shape of the function is the broadcast shape of its components.
State: partial (`Verif/Props/FunctionFlatten.lean`). debroadcast is proved completely (C91_debroadcast, C91_debroadcast_lossless, C91_debroadcast_error). C91_combine_partial needs every component which has one of the combined axes to have its full size along it: axes of size 1 are not broadcast first, so that six points can turn into two cells between three vertices without an error (C91_combine_refuted); the other axes must not be empty (as in C11). The histograms are proved for functions without axes on vertices (C91_histogram_edges_partial, C91_histogram_bins_partial); an axis on vertices raises ValueError if it is summed over or has at least two cells (C91_histogram_error), but with a single cell each output is counted twice (C91_histogram_refuted). array_equiv compares the components separately (C91_array_equiv, C91_array_equiv_error), so that a cell between two vertices is equivalent to two points (C91_array_equiv_refuted), and array_equal does not compare the names of the axes (C91_array_equal_partial, see C27). Vectors and uncertain scalars as inputs or outputs, nan and units are left out.

**C92 Random samples use the parameters at their own position.** The generator is a state machine. The list of draws is related to the row-major enumeration of the result (C04), and the parameters to broadcasting (C07). The loop of choice keeps the invariant that every slice visited so far holds what the body returned for it in some state of the generator; sources are given by unravelling the chosen positions.
State: partial (`Verif/Props/RandomSamples.lean`). The samples are proved completely for scalars (C92_samples, C92_stream, C92_samples_error), for uncertain scalars and for vectors relative to the function for scalars (C92_uncertain, C92_vector). Different seeds are proved for vectors which are not nested (C92_seeds_partial); in nested vectors and in vectors of uncertain scalars seeds coincide, so that whole components are identical (C92_nested_refuted, C92_uncertain_components_refuted). C92_choice_partial describes choice completely for a generator with the property Picks (shown to be satisfiable by picks_pickFirst): elements of the result whose index outside axis is beyond the arrays are never written (C92_choice_refuted). The generator of numpy is a parameter; the statistical distribution, units, and calls without a seed in sequence are left out; for choice of uncertain scalars and vectors see C111.

**C93 Filters, expressions, polygons and cosmic rays act on the named axes only.** Flattened rows are related to named indices by the row-major enumeration. Filters: replacing positions of an index equals replacing named coordinates (map_putNamed). despike is a loop over the other axes (forEach_ok), whose slices are images in the sense of IsImage.
State: partial (`Verif/Props/Kernels.lean`). Proved for scalars: C93_polygon (with C93_polygon_error), C93_evaluate, C93_filter, C93_despike and the errors. Missing: despike depends on the order of the axes in memory. The point spread function is passed in the order of its own axes (C93_despike_kernel_refuted), the image in the order of the axes of the array (C93_despike_order_refuted), and the order of the argument axis has no effect (C93_despike_axis). If the array has size 1 along an axis outside of axis and the point spread function is longer there, only its first kernel is used (included in C93_despike). The packages regridding, numexpr, ndfilters and astroscrappy are parameters; units, and the versions for vectors, uncertain scalars and functions are left out.

**C94 Resampling acts on the chosen axes only, is linear, and transposing the weights gives the adjoint.** The sparse matrix for each index is a list of entries (position in the input, position in the output, weight), and the function which computes it from two grids is a parameter. Images are described by IsImage as for the filters; positions of the flattened images by ravel and unravel.
State: partial (`Verif/Props/Regridding.lean`). Proved: C94_weights_partial, C94_regrid_partial, C94_regrid_from_weights, C94_linear, C94_transpose_weights, C94_adjoint (transpose_weights_conservative: see C113) and the errors. Missing: axis arguments in an order other than that of the axes of the coordinates (the package regridding decides in which order the images are flattened, and is not part of the repository), the argument weights_input, units, and vectors of values.

**C95 Convolution acts image by image.** `SA.convolve` aligns the arrays with `ndarray_aligned`, adds axes of length 1 for the axes the arrays lack, and calls the convolution of the package ndfilters, which loops over the other axes; `UA.convolve` and `Comp.convolve` broadcast every part along the given axes and call `SA.convolve`. What ndfilters computes for one image is a parameter, so that the theorems say which elements reach it. Proof: `C93`'s images by name (`IsImage`), `aligned_ok` for the alignment.
State: partial (`Verif/Props/Convolution.lean`). C95_convolve and C95_convolve_error cover scalars completely, C95_uncertain_partial uncertain scalars and C95_vector_partial vectors with scalar components. Refuted: for uncertain scalars and vectors an axis given as a string is read character by character (C95_uncertain_string_refuted, C95_vector_string_refuted), and np.convolve of two lines of different lengths is a ValueError (C95_line_lengths_refuted). Missing: nested vectors, components in another order than the first vector, units, and what ndfilters computes for one image, which is a parameter.

**C96 Inverses and determinants of matrices along named axes and of matrices with four or more rows.** `SA.matrixInverse` moves the two axes to the end, inverts the matrices of the last two dimensions by a parameter `inv` (the assumption `Inverter` about numpy: it returns an inverse if the determinant is not zero) and names the axes of the result (columns, rows), which makes it an inverse by name. `Mat.inverseStack` models the branch of `matrix.inverse` for four and more rows: stack along `_column`, then `_row`, invert, and read `[_row=i, _column=j]`, which is the element `(j, i)` of the inverse, since the names of the axes of the inverse are swapped. Proof: `moveaxis_block`, `C23_stack` and `getitem_itemAt` give the elements by name; a two-sided inverse is unique.
State: partial (`Verif/Props/LargeInverses.lean`). C96_matrix_inverse (with C96_matrix_inverse_error and C96_matrix_inverse_axes) covers scalar arrays. Matrices: C96_inverse_small reduces up to three rows to C39; for four or more rows C96_inverse_transposed says what is returned, the transpose of the inverse, so that C96_inverse_iff makes it right exactly for symmetric matrices (C96_inverse_symmetric_partial), and C96_inverse_refuted gives a matrix for which it is wrong. Determinants: right for two and three rows (C96_determinant_partial), for every other size the call fails (C96_determinant_refuted). np.linalg.inv is a parameter with the assumption Inverter; units are not modelled. matrix_multiply calls a method which does not exist, so that it always fails, and is not modelled.

**C97 Resampling a function onto new inputs.** `GridFunction.regrid` models the calls branch by branch: the axes default to those of the new coordinates, the components which meet the axes are collected into pairs (new, old), `SA.weights` (C94) computes the weights, each component of the outputs is resampled, and the inputs are rebuilt from the dictionary of coordinates. The specification `selected` lists the pairs which vary along the axes. Proof: `resampled_ok`, C94, and the lemmas about vectors from their flat coordinates of C39.
State: partial (`Verif/Props/FunctionRegridding.lean`). C97_weights_partial and C97_regrid_partial assume, as C94, that the axes are named in the order of the coordinates and that the new coordinates have exactly the resampled axes; C97_same_inputs_partial treats weights at the vertices (multilinear) under the assumption that the weights between equal grids are the identity. C97_axis_string_refuted: with a string of several characters for axis the call is a KeyError, since set(axis) splits it. C97_renamed_axis: new inputs along an axis with another name always fail. C97_constant_mislabelled (with C97_constant_components): a new component which does not vary along the axes is put into the inputs of the result although the outputs are not resampled to it. The rule for the weights (regridding.weights) is a parameter.

**C98 Units of measurement are preserved.** A unit is a nonzero scale and a dimension in any abelian group; a quantity (`QA`) is a named array with an optional unit. The specification is the physical value `phys` (number times scale) and the dimension, and `QA.Same` says that axes, dimension and physical values agree. The methods are modelled branch by branch in `Verif/Units/Basic.lean`; `QA.common` is the rule by which `astropy` brings two operands to one unit. For vectors the specification `UnitSpec.lookup` reads the unit for a scalar from the nested dictionary by its path. Proof: field arithmetic, C07 for the alignment, induction over the components (`convertL_iff`, `convertPart_inv`, `ufunc2_lift`).
State: partial (`Verif/Props/Units.lean`). C98_uncertain_value_unit_partial assumes that nominal values and samples have the same unit; C98_uncertain_unit_refuted shows that otherwise value times unit is another array, since na.unit reads only the nominal value. C98_uncertain_equivalencies_refuted: equivalencies are not passed on to the samples, so that an uncertain scalar cannot be converted by them. The rules of astropy.units for plain arrays are modelled, not proved; logarithmic units and unit aliases are not modelled.

**C99 Polygons, expressions, filters and cosmic rays of composite arrays.** The wrappers are modelled in `Verif/Uncertain/Kernels.lean`, `Verif/Vector/Kernels.lean` and `Verif/Function/Kernels.lean` on top of the scalar functions of C93. The specification of uncertain scalars is the value by named index of both parts; that of vectors is by path (`leafB`, `VariablesAt`). Proof: C93 for each part, `norm_ok` and `norm_broadcasted` for the preparation of the arguments, the general induction over nested vectors `naryAux_ok`.
State: partial (`Verif/Props/LiftedKernels.lean`). C99_uncertain_polygon_refuted: the vertices must have their axis both in the nominal values and in the samples, otherwise a KeyError is raised. C99_function_filter_refuted: a mask with other inputs is refused only if the inputs differ at every index (np.all instead of np.any); C99_function_filter_empty_refuted: for an empty array a mask with the same inputs is refused. C99_function_despike_refuted: despike of a plain array with a mask which is a function returns the array unchanged. C99_function_filter_partial and C99_function_despike_partial assume that these cases do not occur. The packages ndfilters, numexpr, regridding and astroscrappy are parameters, as in C93.

**C100 Operands of different types.** One type `Val` of operands and the four `__array_ufunc__` methods are modelled in `Verif/Mixed/Basic.lean`, with `NotImplemented` as a value and numpy's search for a method (the order is an arbitrary parameter). The specification `Combines` in `Verif/Mixed/Spec.lean` is an inductive relation from the outside in which does not mention methods. Proof: induction over the depth; each method answers with the combination, or nothing, or an error where there is no combination. Shapes by the set of sizes other than one of all the scalars of a value.
State: partial (`Verif/Props/MixedTypes.lean`). C100_function_left_partial and C100_function_right_partial assume, for a function and a scalar, that the shape of the scalar can be broadcast against that of the function: C100_function_order_refuted shows that otherwise a function on the left gives a function whose outputs do not fit its coordinates, while a scalar on the left raises ValueError. C100_mixed assumes that the operands have a shape (C100_torn_vector_refuted) and that the type of a vector decides its components (C100_components_refuted: among CartesianNdVectorArrays, components missing on the left are dropped). Functions whose outputs contain functions, `out`, `where`, units and dtypes are left out.

**C101 Converting arrays to the type of another array.** One type `Arr` of values (functions included, with any values as coordinates), the four implementations of `asarray`, the dispatch among them with `NotImplemented` as a value, `from_scalar_array`, `nominal` and `zeros_like` in `Verif/Mixed/Convert.lean`. The specification `Converts` in `Verif/Mixed/ConvertLemmas.lean` is an inductive relation without implementations or order. Proof: exactly one implementation answers for each pair of types; induction over the depth of nesting; the laws follow from the symmetry of the relation.
State: partial (`Verif/Props/Conversions.lean`). C101_convert and its companions assume that the type of a vector decides its components and that scalars do not have the axis reserved for samples (C101_reserved: ValueError). C101_components_refuted and C101_missing_component_refuted: among CartesianNdVectorArrays a component which like lacks is lost, and one which only like has is a KeyError. C101_from_scalar_refuted: from_scalar_array makes uncertain scalars which the constructor refuses. C101_from_vector_refuted: whether it refuses a vector depends on the components of like being numbers. C101_zeros_like_partial assumes that uncertain scalars have samples when a shape is given (C101_zeros_like_refuted: KeyError after converting a scalar to an uncertain scalar) and excludes functions (C101_zeros_like_function: TypeError). Dtypes and units appear only as the function applied to every element; the argument order is left out.

**C102 Interpolation in tables of uncertain scalars and of vectors.** `UA.interp` and `Comp.interp` in `Verif/Interp/Composite.lean` on top of the scalar model of C71. Specification: `TableFits` and `IsInterp` (elements at named indices), `BoundFor` for the meaning of bounds. Proof: C71 for each part, then the reconstruction of vectors from flattened names (C30).
State: partial (`Verif/Props/CompositeTables.lean`). C102_uncertain_partial needs a table of positions with exactly one axis, nominally and in the samples, because the implementation does not pass axis on: C102_axis_refuted (ValueError for every axis if the positions have another number of axes) and C102_samples_refuted (no result for positions with samples of their own). C102_vector_partial needs bounds which are vectors of the same structure, or a table without nested vectors: C102_nested_refuted and C102_nested_default_refuted (KeyError for a vector of vectors with the default bounds). Also C102_reserved and C102_bound_type. The interpolation of one line is an arbitrary function; C71 has the properties of np.interp and the assumption about axes of length one which is repeated here. Units are not modelled; x and xp are scalar arrays if fp is a vector.

**C103 Solid angles of cells.** `Verif/Vector/SolidAngle.lean` on top of the cross and scalar products of C64. Specification: `Trig.quadrilateral` of the four vertices at a named index. Proof: `Rep` calculus for the arithmetic; additivity from the identity z(p,q,d) z(p,d,r) = k z(p,q,r) with k > 0 for the complex numbers whose arguments are half of the solid angles.
State: partial (`Verif/Props/SolidAngles.lean`). C103_solid_angle_partial and its corollaries C103_directions_partial, C103_rotation_partial and C103_orientation_partial assume that no component of size one is broadcast along a longer axis. The orientation needs triangles which are not degenerate (C103_degenerate_refuted: three directions around a great circle give 2 pi in both orientations). C103_additive is about the formula itself, for triangles which do not lie in a plane through the origin. C103_axes and C103_clash are the errors. np.sqrt, np.abs and np.arctan2 are arbitrary functions in the model and the exact real functions in the theorems about angles; units are not modelled.

**C104 Cell volumes of spaces and random samples.** `Verif/Space/Volume.lean` on top of `SA.linspace`, `SA.step` (C33) and `volumeCell2d` (C56). Specification: the cell volumes of the explicit array. Proof: closed form of the elements of the space, read as in a broadcast, and the polynomial identity for the shoelace formula.
State: partial (`Verif/Props/SpaceVolumes.lean`). C104_linear_space needs a step which is not a division by zero (C104_single_refuted: a space of one point). Stratified spaces return the step instead of the distances of their random elements (C104_stratified_refuted). Areas of spaces of vectors (C104_plane_partial) need an attribute which is a vector (C104_numbers_refuted: AttributeError with numbers only, as in the documentation), the axes in the order of the components (C104_exchange_refuted: the sign differs otherwise) and start and stop without these axes (C104_trapezoid_refuted). Uniform samples need a shape_random (C104_default_shape_refuted: TypeError by default). C104_linear_axes and C104_plane_axes: other axes and errors. Uncertain spaces, units and infinities from divisions of arrays by zero are not modelled.

**C105 Locating, comparing and multiplying values of functions.** `Verif/Function/Locate.lean` delegates to the scalar models (C20, C22, C32, C86). The correspondence of inputs and outputs is proved by `SA.pick_ok`: an array indexed with a dictionary of index arrays, some of them for axes which it does not have, reads the position given by the index arrays.
State: partial (`Verif/Props/FunctionLocate.lean`). C105_arg_indexing_partial, C105_argmax_partial, C105_argmin_partial and C105_nonzero_partial need inputs and outputs with the same sizes along shared axes: a function on vertices cannot be indexed with its own positions (C105_vertex_refuted: ValueError for every histogram), nor with nonzero if the inputs have another axis of the new name (C105_nonzero_name_refuted). C105_matmul_partial and C105_matmul_array_partial need outputs which do not vanish identically (C105_matmul_zero_refuted: the outputs lose their axes, and with an array on the left the result is a number instead of a function). C105_add_axes_partial needs axes which the inputs do not have (C105_add_axes_refuted: two inputs become the vertices of one cell). C105_centers_refuted: outputs broadcast along an axis have no centers. Scalar inputs and outputs only; random cell centers, out= and units are not modelled.

**C106 Jacobians by finite differences and the default of Newton's method.** `Verif/Optimize/Jacobian.lean` models the loops over flattened components. `columns_ok` is the invariant of the loop over the components of the argument (the columns so far are difference quotients), `ufunc2_vec` lifts an operation to vectors of one kind; the theorems about Newton's method unfold two iterations of C45's loop.
State: proved (`Verif/Props/Jacobians.lean`). C106_vector, C106_gradient and C106_scalar give the entries for all functions; C106_affine, C106_transformation and C106_quadratic the exact values; C106_newton_step (vectors, at most three components, via C43) and C106_newton_affine (scalars of any shape) are about the default Jacobian of root_newton. The number type is a field or any operations which are sound for it: rounding is not modelled, so the default step of 1e-10 is a step like any other. A vector function of a scalar, uncertain arrays and units are not covered.

**C107 Roots and derivatives of functions of uncertain scalars.** `Verif/Uncertain/Roots.lean` models the three functions with the operations of `UA`; `Verif/Uncertain/RootsLemmas.lean` reduces each operation to both sides (`Side`), with the invariant that all variables have the common shapes of the nominal value and of the samples (`FullU`, `Paired`); `Verif/Props/UncertainRoots.lean` then follows the proofs of C45 and C46 for each side, using the common loop lemma.
State: partial (`Verif/Props/UncertainRoots.lean`). C107_calls, C107_step, C107_failures, C107_newton, C107_jacobian and C107_affine are complete for functions which return uncertain scalars. C107_secant_partial excludes elements at which 0 * function(guess - 10 * min_step_size) is not zero: as for plain scalars (C46) these are taken to be converged before the first iteration, and C107_nan_refuted shows a sample which is returned unchanged although the function is not small there. Units, side effects of the functions and the AttributeError raised if a later value of the function is not uncertain are not modelled.

**C108 Histograms of uncertain scalars and of vectors.** `Verif/Uncertain/Histogram.lean` and `Verif/Vector/Histogram.lean` call the model of the scalar `na.histogramdd` (C58). `Verif/Props/CompositeHistograms.lean`: `prepare` shows that the broadcast samples and weights of each side have the common shape of this side, after which `histogramdd_is` (C58) applies to each side; numbers of bins are reduced to equidistant edges by `histogramdd_spans`; the default bounds come from the reductions of C61. For vectors the flat components are the samples, and the round trip of C38 rebuilds the edges.
State: partial (`Verif/Props/CompositeHistograms.lean`). C108_counts, C108_single and C108_unknown_axis cover given edges of uncertain scalars, C108_bins_partial and C108_default_partial numbers of bins (bins={ax: n + 1} gives n bins, as in C58), the theorems C108_vector_partial, C108_vector_bins_partial and C108_vector_default_partial vectors whose bounds and edges have the same names in the same order. False of the code: C108_no_samples_refuted (given edges but no measurements is a ValueError for uncertain scalars only), C108_pooled_refuted (na.histogram2d of uncertain scalars without axis also sums over the samples), C108_order_mislabelled (bounds are matched to components by position), C108_nested_bounds_refuted (scalar bounds of vectors of vectors fail). Not proved: density=True for uncertain scalars and vectors, na.histogram2d of uncertain scalars with axis, vectors of uncertain scalars. Units are not modelled.

**C109 Combining and adding axes of uncertain scalars and vectors.** `Verif/Vector/Combine.lean` models the two methods on top of the scalar one (C11); nested vectors use the scheme `nary` of C76. `Verif/Props/CombinedAxes.lean`: `Combinable`, `mergedShape` and `splitAt` are the specification; `Stretched` is kept by broadcasting at every level, `Stretched.merge` and `SA.combine_fails` settle one scalar in both directions, and `merged_shape` gives the shape of the result.
State: proved (`Verif/Props/CombinedAxes.lean`). Complete for uncertain scalars and for vectors of scalars at any depth. That an empty remaining axis is a ValueError, although the result is well defined, is the limit of C11 (numpy gets -1 as the new size). Vectors of uncertain scalars are not modelled.

**C110 Variance-to-mean ratio and root mean square.** `Verif/Stats/Moments.lean` composes the reductions (C17, C61, C37) and elementwise operations (C07, C79). `Verif/Props/Moments.lean`: `reduce_seen` for the three kinds, then the theorems `C110_*`; `varianceOf` is the specification of the variance, and the laws follow from `mean_sq`, `varianceOf_scale` and `varianceOf_eq_zero`.
State: proved (`Verif/Props/Moments.lean`). var and mean are arbitrary functions of the elements which do not depend on their order (rounding does, slightly); the laws use exact arithmetic in an ordered field. An output array which shares memory with the input is not modelled (the variance would overwrite the input before the mean is taken). For vectors, where= and keepdims together with axis=None are left out.

**C111 Random choices from uncertain scalars and vectors.** `Verif/Random/Choice.lean` models the two functions on top of `SA.choice` and `Comp.random`. `Verif/Props/Choices.lean`: `Drawable` and `Chosen` are the specification of acceptable weights and of choices; `SA.choice_chosen` restates C92 for shapes up to the order of the axes, `UA.C111_choice_partial` applies it to the nominal values and the samples after broadcasting (C66), `Comp.C111_vector_partial` follows from C92_vector; the refutations compute the result for a generator which counts its calls.
State: partial (`Verif/Props/Choices.lean`). False of the code: nominal value and samples are chosen with different seeds and every sample is chosen by itself (C111_uncertain_refuted, C111_samples_refuted), and every component of a vector is chosen with its own seed (C111_vector_refuted), so that a chosen element need not be an element of the array. Proved: nominal values are chosen among nominal values, the k-th samples among the k-th samples, components among components, each with the same index outside axis, nonzero weight and no repetition within its own array without replacement (C111_choice_partial, C111_vector_partial with C92_choice_partial). shape_random has no axes in common with those outside axis (for these see C92_choice_refuted); calls without a seed and vectors of uncertain scalars are left out. The generator is a parameter with the property Picks of C92; picks_pickNext shows that it can be met by the generator of the counterexamples.

**C112 The indices of an array address each of its elements exactly once.** `Verif/Scalar/Indices.lean` composes `SA.indices` (`na.indices`) with the item access of each type; `copySlices` is the loop over `ndindex`. `Verif/Props/Indices.lean`: `SA.broadcast_ranges` (ranges along distinct axes broadcast to the shape), `SA.getitem_indices` and `SA.setitem_indices` specialise C14 and C16, `C112_loop` uses the loop lemma `forEach_ok`; the other types follow by components (C87 for vectors, C52 for functions).
State: partial (`Verif/Props/Indices.lean`). Holds for scalar arrays (C112_read, C112_crop, C112_write, C112_loop). False of the code if a component has size 1 along an axis of another component (UA.C112_read_error and C112_uncertain_refuted, Comp.C112_vector_refuted: IndexError), if the inputs of a function are on vertices, such as of any histogram (FA.C112_vertex_refuted: ValueError), and when assigning to an uncertain scalar one of whose components lacks an axis (UA.C112_uncertain_write_refuted). Otherwise it holds for them too (UA.C112_read_partial, UA.C112_write_partial, Comp.C112_vector_partial, FA.C112_function_partial). Axes are compared by name, not by order. Assigning to vectors and functions is left to C77 and C78.

**C113 Resampling back with conservatively transposed weights.** `Verif/Scalar/RegridTranspose.lean` models the alignment of weights and grids by names; the external package maps a function `normalise` over the axes which are not resampled. `Verif/Props/RegridTranspose.lean`: as C94_weights_partial for the weights; `back_conditions` shows that the transposed weights and the swapped shapes meet the hypotheses of C94_regrid_from_weights and C97_conserved.
State: partial (`Verif/Props/RegridTranspose.lean`). Proved: C113_transpose_partial, C113_back_partial (including the conservation of the total) and C113_error. Missing: resampled axes given in an order other than that of the axes of the coordinates, weights_input and units. How the weights of one pair of grids are renormalised is done by the package regridding and is a parameter; that the weights of each output cell add up to one is a hypothesis of the conservation.

**C114 Values with a uniform or normal uncertainty.** `Verif/Uncertain/Implicit.lean` composes the ends of the interval (ufuncs) and `SA.random` of C92. `Verif/Props/WithUncertainty.lean`: `uniform_eq` reduces to C92_samples, C92_stream and C92_samples_error with the two ends, whose elements are nominal - width and nominal + width at each index; `standardAt` is the standard number drawn for an index, found from its place in `ndindex`.
State: partial (`Verif/Props/WithUncertainty.lean`). Proved: C114_uniform, C114_normal, C114_error and, for values whose shapes agree including the order of the axes, C114_correlated_partial and C114_correlated_normal_partial. False of the code if only the order of the axes differs (C114_order_refuted): numbers are drawn in the order of the axes, so that the samples of a transposed value with the same seed are not the transposed samples. Units are not modelled, and the generator of numpy is a parameter.

**C115 Grids of vectors.** `Verif/Vector/Grid.lean` models the recursion of the two functions. `Verif/Props/VectorGrids.lean`: `sequenceAux_eq` and `arangeAux_eq` show that both agree with the common scheme `naryAux` on the four arguments as vectors of one sum type; `grid_main` and `grid_error` reduce to C33 at each path; `shape_ranges` gets the shape from `shape_leaves` and C01.
State: partial (`Verif/Props/VectorGrids.lean`). Proved: C115_linspace_partial (end points, not centres of cells), C115_linspace_error, C115_arange_partial and C115_arange_grid (start is the vector). False of the code for na.arange with a scalar start and a vector stop, which raises TypeError although np.linspace accepts it (C115_arange_start_refuted); and one axis for components of different lengths gives a vector without a shape instead of an error (C115_same_axis_refuted). Not modelled: centers=True, units, endpoint and dtype as vectors.

**C116 Linear spaces between uncertain ends.** `Verif/Uncertain/Space.lean`: the functions composed of ufuncs of uncertain scalars. `Verif/Props/UncertainSpaces.lean`: `linspace_eq` and `step_eq` show that the composed functions act on the nominal value and on the distribution separately; then C33 is applied to each.
State: proved (`Verif/Props/UncertainSpaces.lean`). C116_linspace, C116_step and C116_error (for points on the edges of cells). A space of one point has no step (division by zero, as in C33). Exact arithmetic instead of floating point; units are not modelled.

**C117 Partitions.** `SA.partition` in `Verif/Scalar/Trim.lean` (C35) and `UA.partition` in `Verif/Uncertain/Partition.lean`. `Verif/Props/Partitions.lean`: `Partitioned` is the specification for one line and `partitioned_select` relates it to sorting (uniqueness of sorted lists); `partition_main` generalises the lemma of C35 to all lists of positions; `extended_main` treats a component which is broadcast along the axis first.
State: partial (`Verif/Props/Partitions.lean`). C117_partition, C117_select and C117_error for scalars are complete; C117_uncertain_partial and C117_uncertain_error for uncertain scalars. False of the code (C117_elements_refuted): unlike np.sort, np.partition of an uncertain scalar does not move an element together with its samples, so the nominal value and the samples at an index of the result may belong to different elements. Vectors and functions do not implement np.partition. kind and order are not modelled; NaN is left out by the linear order.

**C118 An expression in a string is the expression written with the arrays.** `Verif/Scalar/Expression.lean`: `Formula` (a parsed expression), `getArguments`, `evaluateNames`, and `evaluateExpression` for scalars, uncertain scalars and vectors, which call the handlers `evaluate` of C93 and C99. `Verif/Props/Expressions.lean`: `Formula.value` is the specification at one index, `Formula.apply` the expression with ufuncs; `apply_main`, `apply_ok` and `apply_error` by induction on the expression.
State: partial (`Verif/Props/Expressions.lean`). C118_evaluate_partial and C118_clash for scalars, C118_uncertain_partial, C118_vector_partial, and C118_missing and C118_type_error for all of them. False of the code: a variable which is named like a keyword of the call (order, casting, ex, func, ...) raises TypeError (C118_keyword_refuted), and so does an expression without variables (C118_constant_refuted). Missing: functions (FunctionArray) as variables, units, the frames of the caller in place of the dicts, the dtypes and optimisations of numexpr.

**C119 debroadcast of uncertain scalars and vectors.** `Verif/Uncertain/Compress.lean`: `UA.debroadcastStep`, `UA.debroadcast`, `Comp.debroadcast`. `Verif/Props/CompressedArrays.lean`: `Removed` and `withSamples` are the specification; `equal_slice` compares a component with its first slice (also if it lacks the axis), `all_truth` (from the root finders) gives the truth value of the comparison, `step_main` and `fold_main` the index, `index_component` and `zero_same` the elements.
State: proved (`Verif/Props/CompressedArrays.lean`). C119_uncertain, C119_smallest and C119_error for uncertain scalars, C119_vectors for vectors of scalars. Scalars are in C26 and functions in C91. NaN, which is not equal to itself, is left out by the decidable equality. Vectors of uncertain scalars are not modelled.

**C120 Matrix multiplication of scalar arrays along two axes.** `Verif/Scalar/MatrixMultiply.lean`: `ND.matmul` (numpy), `SA.popSize`, `SA.matrixMultiply`. `Verif/Props/MatrixMultiply.lean`: `multiply_core` aligns both operands to the leading axes followed by the two axes and reads the result by name with `aligned_ok`; associativity and identity follow from `C120_square` with sums over `Finset.range`.
State: partial (`Verif/Props/MatrixMultiply.lean`). C120_product_partial (elements and shape), C120_errors, C120_square, C120_associative and C120_identity. False for rectangular matrices: C120_rectangular_refuted shows that a matrix with 2 rows and 3 columns times one with 3 rows and 2 columns raises ValueError, because the shapes of the operands are broadcast before they are multiplied; C120_rectangular says that this happens for all rectangular matrices with at least two rows and columns. Units and uncertain operands are left out.

**C121 Lengths of Cartesian vectors and their normalization.** `Verif/Vector/Length.lean`: `Comp.vectorLength` (the loop over the entries, with `V3.addSquare` of C103) and `Comp.normalized`. `Verif/Props/Lengths.lean`: `squares` is the specification; `foldl_squares` is the invariant of the loop (which shapes fit, the values, and when it raises), `values_cartesianNd` relates the entries to the scalars, `lift_named` carries the names over to the quotient.
State: partial (`Verif/Props/Lengths.lean`). C121_length_partial, C121_components_partial, C121_normalized_partial and C121_error, for component names without a dot. False otherwise: C121_dotted_refuted is a vector with the components x.y and x, of which the latter has a component y; the flattened vector has only one of the two scalars, and the length ignores the other. Units, None components, uncertain components and rounding are left out.

**C122 Multi-indices of uncertain flat positions.** `Verif/Uncertain/Unravel.lean`: `UA.unravelIndex`. `Verif/Props/UncertainUnravel.lean`: `Position` is the specification (coordinates in range whose row-major number is the given one); `exists_position` and `position_unique` show that it determines the coordinates; `C22_unravel_index` then applies to both parts.
State: partial (`Verif/Props/UncertainUnravel.lean`). C122_coordinates_partial and C122_error, for shapes with at least one axis. False for the empty shape: C122_no_axes_refuted shows that every position is then accepted and {} returned, where the same call for a scalar raises ValueError. Negative positions and positions with units are left out.

**C123 Replacement of numbers which are not finite.** `Verif/Vector/NanToNum.lean`: `nanToNum` and `inPlace`, which returns the argument afterwards with the error. `Verif/Props/NonFinite.lean`: `Meant` (one number), `Cleaned` (one scalar) and `Related` (the tree) are the specification; mutual induction over trees and lists of components.
State: partial (`Verif/Props/NonFinite.lean`). C123_copy, C123_finite, C123_error and C123_in_place_partial. False in place for scalars stored as numbers: C123_number_refuted, where numpy overwrites a temporary array and nan remains. C123_atomic_refuted: an error leaves the components before the implicit one overwritten. C123_error_type_refuted: an implicit scalar raises ValueError, an implicit uncertain scalar TypeError. Parts which share memory, read-only arrays, integers, complex numbers and units are left out; that numpy does not change a number in place is read from its documentation.

**C124 Shapes of transformations.** `Verif/Transform/Shape.lean`: `Simple.trShape`, `Tr.trShape`, `Mat.matShape`. `Verif/Props/TransformationShapes.lean`: `Tr.scalars` is the specification; the shape is that of one tree of all vectors and matrices, to which `shape_leaves` applies; `typed_good` shows that all scalars fit in the common shape, and C44 applies with this invariant.
State: partial (`Verif/Props/TransformationShapes.lean`). C124_shape, C124_order and C124_application_partial, which shows that the shape of the result broadcasts to the expected one if this has at least one element. It is not always equal to it: C124_zero_refuted is a matrix which vanishes along an axis, whose products are the number zero and do not have the axis. Units, uncertain components and None are left out.

**C125 Broadcasting of vectors to a shape.** `Comp.broadcastTo` of `Verif/Vector/Basic.lean`. `Verif/Props/VectorBroadcast.lean`: `fits_iff_leaves` (the shape of the vector fits exactly if those of all scalars do), `mapM_outcome_tree` (the first error of a traversal), and C10 for every scalar.
State: partial (`Verif/Props/VectorBroadcast.lean`). C125_broadcast_to settles the case without append. C125_append_partial: with append=True the shape of the result, as a vector, is the promised one, and every scalar has the shape to which its own shape and the requested one broadcast. That every scalar has the promised shape is false: C125_append_refuted, components with fewer axes do not get the axes of the others. Vectors without scalars are excluded with append=True, units and uncertain components are left out.

**C126 Arrays of strings.** `Verif/Scalar/StringArray.lean` models the % operator for one value as a state machine over the characters of the format, and both methods. `Verif/Props/StringArrays.lean`: `modulo_append` (text without percent sign after a complete format is copied) by induction on the format over all states.
State: partial (`Verif/Props/StringArrays.lean`). C126_scalar_partial and C126_vector_partial hold for pads and units without percent sign. False otherwise: C126_percent_refuted, the unit per cent makes the format string incomplete and raises ValueError. C126_error: an incomplete format raises its error if there is an element and no unit. The text of a number for one conversion is a parameter of the model; how astropy writes units is left out, and mapping keys and * widths of the % operator are not modelled.

**C127 Formatting with arrays of formats.** `Verif/Scalar/StringMod.lean` models the function with the % operator of C126. `Verif/Props/StringFormats.lean`: `list_mapM_cases` (the outcome of a traversal) and the elementwise theorem of C09.
State: proved (`Verif/Props/StringFormats.lean`). C127_strings_mod: shape and strings at every index. C127_error: an error is raised exactly if the shapes clash or one of the formats fails, and is one of their errors. The text of a number for one conversion is a parameter; mapping keys and * widths of the % operator, and the function for vectors, are not modelled.

**C128 Functions with automatic domain.** `Verif/Scalar/Emath.lean`: alignment, the checks of numpy over all elements of all arguments, and the real or the complex function. `Verif/Props/AutomaticDomain.lean`: `all_inside_iff` (the checks on the aligned arrays are those on the named arrays) and `emath_eq`, then C09.
State: proved (`Verif/Props/AutomaticDomain.lean`). C128_values, C128_type, C128_error. The domains and the real and complex functions are parameters, assumed to agree on the domain (Continues), which ignores rounding. Units, and the functions for vectors and uncertain scalars, which apply this one to components, are left out.

**C129 Median filters.** `Verif/Scalar/MedianFilter.lean`: windows by position with mirrored indices and the element of middle rank. `Verif/Props/MedianFilter.lean`: `window_around` (windows by position are windows by name, by induction on the axes), `isMiddle_middle` (the middle of a sorted list).
State: proved (`Verif/Props/MedianFilter.lean`). C129_filter_median, C129_identity, and C129_inner and C129_mirror for the positions within and outside of the array. The default mode reflect only; scipy's windows and rank are modelled from its documentation. Kernel sizes of zero, units and nan are left out. By C129_identity, axes of shape_kernel which the array does not have are ignored without an error.

## 5. Disagreements between the code and its description

Each of these theorems gives a concrete input on which the code (as read) does not do what the property says:

* C11: `NA.SA.C11_combine_axes_empty_rest`
* C17: `NA.SA.C17_out_mislabelled`
* C19: `NA.SA.C19_refuted`
* C22: `NA.SA.C22_zero_dim_limit`
* C25: `NA.SA.C25_moveaxis_swap_refuted`
* C27: `NA.SA.C27_array_equal_refuted`
* C28: `NA.SA.C28_change_axis_index_refuted`
* C29: `NA.C29_int_refuted`
* C29: `NA.C29_short_refuted`
* C29: `NA.C29_complex_refuted`
* C29: `NA.C29_namedTuple_refuted`
* C33: `NA.C33_limit`
* C33: `NA.C33_arange_num_limit`
* C34: `NA.C34_limit`
* C35: `NA.SA.C35_empty_rest`
* C36: `NA.Comp.C36_nd_asymmetric_refuted`
* C37: `NA.Comp.C37_getitem_singleton_refuted`
* C38: `NA.Comp.C38_dots_refuted`
* C39: `NA.C39_fails_order`
* C39: `NA.C39_fails_class`
* C40: `NA.C40_fails_determinant_order`
* C45: `NA.Optimize.C45_first_iterate_refuted`
* C46: `NA.Optimize.C46_nan_refuted`
* C49: `NA.SA.C49_scalar_cast_refuted`
* C49: `NA.SA.C49_scalar_cast_refuted'`
* C49: `NA.UA.C49_uncertain_mask_refuted`
* C49: `NA.UA.C49_uncertain_mask_bool_refuted`
* C50: `NA.FA.C50_negative_integer_refuted`
* C50: `NA.FA.C50_last_refuted`
* C50: `NA.FA.C50_negative_start_refuted`
* C50: `NA.FA.C50_negative_stop_refuted`
* C50: `NA.FA.C50_step_refuted`
* C50: `NA.FA.C50_empty_refuted`
* C51: `NA.FA.C51_input_error_refuted`
* C58: `NA.C58_number_of_bins_refuted`
* C60: `NA.UA.C60_uncertain_index_refuted`
* C60: `NA.UA.C60_integer_refuted`
* C60: `NA.UA.C60_slice_refuted`
* C63: `NA.UA.C63_atomic_refuted`
* C63: `NA.UA.C63_missing_axis_refuted`
* C64: `NA.C64_flat_refuted`
* C66: `NA.UA.C66_broadcast_to_refuted`
* C67: `NA.C67_where_false_refuted`
* C67: `NA.C67_empty_limit`
* C70: `NA.C70_all_refuted`
* C70: `NA.C70_length_one_limit`
* C71: `NA.C71_length_one_refuted`
* C72: `NA.C72_all_refuted`
* C73: `NA.C73_edge_limit`
* C74: `NA.FA.C74_moveaxis_refuted`
* C74: `NA.FA.C74_stack_sizes_refuted`
* C75: `NA.FA.C75_keepdims_refuted`
* C75: `NA.FA.C75_sum_refuted`
* C76: `NA.Comp.C76_moveaxis_refuted`
* C77: `NA.Comp.C77_atomic_refuted`
* C77: `NA.Comp.C77_vector_mask_refuted`
* C77: `NA.Comp.C77_ignored_refuted`
* C78: `NA.FA.C78_write_back_refuted`
* C78: `NA.FA.C78_atomic_refuted`
* C78: `NA.FA.C78_other_axes_refuted`
* C79: `NA.SA.C79_order_refuted`
* C79: `NA.SA.C79_scalar_out_refuted`
* C80: `NA.UA.C80_uncertain_atomic_refuted`
* C80: `NA.Comp.C80_vector_atomic_refuted`
* C80: `NA.Comp.C80_number_refuted`
* C82: `NA.SA.C82_irfftn_size_refuted`
* C83: `NA.UA.C83_moveaxis_refuted`
* C83: `NA.UA.C83_clip_refuted`
* C83: `NA.UA.C83_diff_refuted`
* C84: `NA.UA.C84_percentile_refuted`
* C84: `NA.UA.C84_nonzero_refuted`
* C85: `NA.Comp.C85_clip_refuted`
* C86: `NA.Comp.C86_array_equal_refuted`
* C86: `NA.Comp.C86_nonzero_refuted`
* C86: `NA.Comp.C86_unravel_index_refuted`
* C87: `NA.Comp.C87_argsort_refuted`
* C88: `NA.Comp.C88_vector_mask_refuted`
* C88: `NA.Comp.C88_number_refuted`
* C88: `NA.Comp.C88_cast_refuted`
* C88: `NA.Comp.C88_atomic_refuted`
* C89: `NA.FA.C89_vertex_refuted`
* C89: `NA.FA.C89_axis_refuted`
* C89: `NA.FA.C89_copyto_inputs_refuted`
* C89: `NA.FA.C89_copyto_atomic_refuted`
* C90: `NA.Power2.C90_repeated_refuted`
* C90: `NA.Power2.C90_singular_refuted`
* C90: `NA.Power2.C90_negative_refuted`
* C90: `NA.Power2.C90_elements_refuted`
* C91: `NA.FA.C91_combine_refuted`
* C91: `NA.FA.C91_histogram_refuted`
* C91: `NA.FA.C91_array_equiv_refuted`
* C92: `NA.SA.C92_choice_refuted`
* C92: `NA.Comp.C92_nested_refuted`
* C92: `NA.Comp.C92_uncertain_components_refuted`
* C93: `NA.SA.C93_despike_kernel_refuted`
* C93: `NA.SA.C93_despike_order_refuted`
* C95: `NA.SA.C95_line_lengths_refuted`
* C95: `NA.UA.C95_uncertain_string_refuted`
* C95: `NA.Comp.C95_vector_string_refuted`
* C96: `NA.SA.C96_determinant_refuted`
* C96: `NA.C96_inverse_refuted`
* C97: `NA.GridFunction.C97_axis_string_refuted`
* C97: `NA.GridFunction.C97_constant_mislabelled`
* C98: `NA.C98_uncertain_unit_refuted`
* C98: `NA.C98_uncertain_equivalencies_refuted`
* C99: `NA.UA.C99_uncertain_polygon_refuted`
* C99: `NA.FA.C99_function_filter_refuted`
* C99: `NA.FA.C99_function_filter_empty_refuted`
* C99: `NA.FA.C99_function_despike_refuted`
* C100: `NA.Val.C100_function_order_refuted`
* C100: `NA.Val.C100_torn_vector_refuted`
* C100: `NA.Val.C100_components_refuted`
* C101: `NA.Arr.C101_components_refuted`
* C101: `NA.Arr.C101_missing_component_refuted`
* C101: `NA.Arr.C101_from_scalar_refuted`
* C101: `NA.Arr.C101_from_vector_refuted`
* C101: `NA.Arr.C101_zeros_like_refuted`
* C102: `NA.UA.C102_axis_refuted`
* C102: `NA.UA.C102_samples_refuted`
* C102: `NA.Comp.C102_nested_refuted`
* C102: `NA.C102_nested_default_refuted`
* C103: `NA.C103_degenerate_refuted`
* C104: `NA.C104_single_refuted`
* C104: `NA.C104_stratified_refuted`
* C104: `NA.C104_default_shape_refuted`
* C104: `NA.C104_exchange_refuted`
* C104: `NA.C104_numbers_refuted`
* C104: `NA.C104_trapezoid_refuted`
* C105: `NA.FA.C105_vertex_refuted`
* C105: `NA.FA.C105_matmul_zero_refuted`
* C105: `NA.FA.C105_nonzero_name_refuted`
* C105: `NA.FA.C105_add_axes_refuted`
* C105: `NA.FA.C105_centers_refuted`
* C107: `NA.Optimize.C107_nan_refuted`
* C108: `NA.C108_no_samples_refuted`
* C108: `NA.C108_pooled_refuted`
* C108: `NA.C108_order_mislabelled`
* C108: `NA.C108_nested_bounds_refuted`
* C111: `NA.UA.C111_uncertain_refuted`
* C111: `NA.UA.C111_samples_refuted`
* C111: `NA.Comp.C111_vector_refuted`
* C112: `NA.UA.C112_uncertain_refuted`
* C112: `NA.UA.C112_uncertain_write_refuted`
* C112: `NA.Comp.C112_vector_refuted`
* C112: `NA.FA.C112_vertex_refuted`
* C114: `NA.UA.C114_order_refuted`
* C115: `NA.Comp.C115_arange_start_refuted`
* C115: `NA.Comp.C115_same_axis_refuted`
* C117: `NA.UA.C117_elements_refuted`
* C118: `NA.SA.C118_keyword_refuted`
* C118: `NA.SA.C118_constant_refuted`
* C120: `NA.SA.C120_rectangular_refuted`
* C121: `NA.Comp.C121_dotted_refuted`
* C122: `NA.UA.C122_no_axes_refuted`
* C123: `NA.Clean.C123_number_refuted`
* C123: `NA.Clean.C123_atomic_refuted`
* C123: `NA.Clean.C123_error_type_refuted`
* C124: `NA.C124_zero_refuted`
* C125: `NA.Comp.C125_append_refuted`
* C126: `NA.Str.C126_percent_refuted`

No property is listed that cannot be expressed in a model; units, dtype, floating-point error and plotting are left out of the properties.
