{"id": "C01", "title": "Broadcasting named shapes succeeds exactly when the sizes agree axis by axis", "statement": "na.broadcast_shapes(*shapes) raises ValueError if and only if some axis occurs in the given shapes with two different sizes neither of which is 1. When it succeeds, the result has exactly the axes that occur in some argument, and the size of each axis is the common size different from 1 when there is one, and 1 otherwise (a size of 0 counts as different from 1).", "quantifier": "every finite sequence of shapes, with any axis names and sizes including 0 and 1", "why_tests_cant": "the failure condition and the result are statements about all sequences of dictionaries; a test covers a few shapes of a few axes", "anchors": ["named_arrays/_core.py:broadcast_shapes"]}
{"id": "C02", "title": "Broadcasting shapes does not depend on argument order, grouping or repetition", "statement": "For any list of shapes, permuting the arguments, repeating an argument, inserting an empty shape, or first broadcasting a contiguous group and then broadcasting the result with the others gives the same axis sizes, and fails in exactly the same cases.", "quantifier": "all lists of shapes and all permutations / groupings of them", "why_tests_cant": "algebraic law over unbounded argument lists; the implementation is an order-dependent in-place fold with a shortcut for equal shapes", "anchors": ["named_arrays/_core.py:broadcast_shapes", "named_arrays/_core.py:shape_broadcasted"]}
{"id": "C03", "title": "Axis order of a broadcast shape is first-appearance order", "statement": "When na.broadcast_shapes succeeds the keys of the result are ordered by first appearance in the sequence of arguments; in particular the axes of the first argument come first, unchanged in order.", "quantifier": "all lists of compatible shapes", "why_tests_cant": "order of a dict result is invisible to dict equality, which is what the tests compare", "anchors": ["named_arrays/_core.py:broadcast_shapes"]}
{"id": "C04", "title": "ndindex visits every named index exactly once, in row-major order", "statement": "na.ndindex(shape, axis_ignored) yields every assignment of an in-range index to each non-ignored axis exactly once, never mentions an ignored axis, and yields them in lexicographic order of the axes of the shape.", "quantifier": "every shape and every set of ignored axes", "why_tests_cant": "completeness and no-duplication over all shapes cannot be sampled", "anchors": ["named_arrays/_core.py:ndindex"]}
{"id": "C05", "title": "Function dispatch picks the highest-priority argument, earliest on ties", "statement": "na.type_array(*values) returns the type of the argument with the greatest __named_array_priority__, the earliest one if several tie, ignores values that are not named arrays, and returns None if and only if no argument is a named array.", "quantifier": "every finite argument list", "why_tests_cant": "the choice must hold for every number and arrangement of arguments", "anchors": ["named_arrays/_core.py:type_array"]}
{"id": "C06", "title": "Named arrays are always well formed", "statement": "A ScalarArray whose number of axis names differs from the dimension of its ndarray, or with a repeated axis name, cannot be constructed: the constructor raises ValueError. Hence every array returned by elementwise operations, indexing, reductions, transposition, stacking and reshaping has distinct axis names, one for each dimension.", "quantifier": "every axes tuple and ndarray; every modelled operation on every well-formed input", "why_tests_cant": "an invariant of all operations on all inputs", "anchors": ["named_arrays/_scalars/scalars.py:ScalarArray.__post_init__", "named_arrays/_scalars/scalars.py:AbstractScalarArray"]}
{"id": "C07", "title": "Elementwise operations broadcast by axis name", "statement": "For an elementwise function f and scalar arrays a, b with broadcastable shapes, the result has shape broadcast_shapes(a.shape, b.shape) and at every named index its value is f(a, b) evaluated at the same named index, where an operand ignores axes it does not have and reads index 0 on axes where its size is 1. If the shapes are not broadcastable the operation raises ValueError.", "quantifier": "all operand ranks, axis names, axis orders and sizes; any number of operands; every f", "why_tests_cant": "holds for all ranks and axis permutations; the implementation goes through positional newaxis/moveaxis juggling which is wrong for only some permutations if wrong", "anchors": ["named_arrays/_scalars/scalars.py:AbstractScalarArray.__array_ufunc__", "named_arrays/_scalars/scalars.py:AbstractScalarArray.ndarray_aligned", "named_arrays/_core.py:broadcast_shapes"]}
{"id": "C08", "title": "The axis order of operands does not affect the values of an elementwise operation", "statement": "If a' has the same values by name as a (a transposed copy) then f(a', b) and f(a, b) have the same axis sizes and the same values at every named index; and f(a,b), flip f (b,a) agree by name.", "quantifier": "all arrays, all permutations of their axes", "why_tests_cant": "universal over permutations of arbitrary rank", "anchors": ["named_arrays/_scalars/scalars.py:AbstractScalarArray.__array_ufunc__", "named_arrays/_scalars/scalars.py:AbstractScalarArray.ndarray_aligned"]}
{"id": "C09", "title": "Aligning an array to a list of axes preserves elements by name", "statement": "ndarray_aligned(axes) raises ValueError if and only if the array has an axis missing from axes (when the axes differ); otherwise dimension j of the result is the array's axis axes[j], or has size 1 when the array lacks that axis, and every element is found at its own named index.", "quantifier": "all arrays and all target axis tuples without repeats", "why_tests_cant": "the moveaxis destination permutation is correct for symmetric small cases even when inverted", "anchors": ["named_arrays/_scalars/scalars.py:AbstractScalarArray.ndarray_aligned"]}
{"id": "C10", "title": "transpose, add_axes and broadcast_to keep every element at its named index", "statement": "np.transpose(a, axes) and a.add_axes(axes) return arrays with the same element at every named index; na.broadcast_to(a, shape) returns an array of exactly the requested shape whose element at a named index is a's element there (0 on singleton axes, ignoring axes a lacks), and raises ValueError if and only if a has an axis that is missing from shape or whose size is neither 1 nor the requested one.", "quantifier": "all arrays, axes tuples and target shapes", "why_tests_cant": "universal over ranks and permutations", "anchors": ["named_arrays/_scalars/scalar_array_functions.py:transpose", "named_arrays/_scalars/scalars.py:AbstractScalarArray.add_axes", "named_arrays/_scalars/scalar_named_array_functions.py:broadcast_to", "named_arrays/_named_array_functions.py:broadcast_to"]}
{"id": "C11", "title": "combine_axes flattens the given axes in row-major order of the given sequence", "statement": "a.combine_axes(axes, axis_new) keeps the other axes in order, appends axis_new of size the product of the combined sizes, and the element at new index k is a's element at the k-th multi-index of the given axes in row-major order (last given axis fastest).", "quantifier": "all arrays and all duplicate-free lists of their axes", "why_tests_cant": "the positional moves and the -1 reshape must agree for every choice and order of axes", "anchors": ["named_arrays/_scalars/scalars.py:AbstractScalarArray.combine_axes", "named_arrays/_scalars/scalars.py:AbstractScalarArray.change_axis_index"]}
{"id": "C12", "title": "reshape preserves the row-major sequence of elements", "statement": "np.reshape(a, shape) succeeds if and only if the sizes multiply to the size of a; the row-major sequence of elements is unchanged; hence reshaping to a.shape is the identity and reshaping there and back restores a.", "quantifier": "all arrays and target shapes (without -1)", "why_tests_cant": "round-trip law over all shapes", "anchors": ["named_arrays/_scalars/scalar_array_functions.py:reshape"]}
{"id": "C13", "title": "Basic indexing by name selects the stated elements and ignores absent axes", "statement": "For a dict of integers and slices, a[item] drops integer-indexed axes, resizes sliced axes to the slice length, keeps the others, ignores keys that are not axes of a, and its element at a named index is a's element at the index obtained by substituting the integers (negative counted from the end) and slice positions. An out-of-range integer raises IndexError.", "quantifier": "all arrays, all dicts of integers and slices with any start/stop/step", "why_tests_cant": "the result is built by moving integer axes to the front and re-deriving axis names; universal over positions and ranks", "anchors": ["named_arrays/_scalars/scalars.py:AbstractScalarArray._getitem", "named_arrays/_core.py:AbstractArray.__getitem__"]}
{"id": "C14", "title": "Indexing with named index arrays is joint (vectorised) by name", "statement": "When several axes are indexed by integer scalar arrays, those arrays are broadcast against each other by name and the result at a named index is the element of a at the indices read from each index array at that same named index; the new axes come first, followed by the remaining axes of a.", "quantifier": "all arrays and all dicts of named integer arrays (with axes disjoint from the remaining axes of a)", "why_tests_cant": "numpy advanced-indexing placement rules depend on adjacency of the advanced indices; universal over arrangement", "anchors": ["named_arrays/_scalars/scalars.py:AbstractScalarArray._getitem"]}
{"id": "C15", "title": "Boolean masks select exactly the true elements, in row-major order of the mask", "statement": "For a boolean array mask whose axes are axes of a with equal sizes, a[mask] keeps the axes of a not in the mask and appends one axis whose entries are the elements of a where the mask is true, each exactly once, in row-major order of the mask; a mask with an axis a lacks raises ValueError.", "quantifier": "all arrays and masks", "why_tests_cant": "completeness/no duplication over all masks", "anchors": ["named_arrays/_scalars/scalars.py:AbstractScalarArray._getitem"]}
{"id": "C16", "title": "Assignment by named index writes exactly the addressed elements", "statement": "After a[item] = value, the elements addressed by item hold the corresponding broadcast value and every other element of a is unchanged; the shape of a is unchanged.", "quantifier": "all arrays, items of integers / slices, and broadcastable values", "why_tests_cant": "frame condition: all other elements for all inputs", "anchors": ["named_arrays/_scalars/scalars.py:ScalarArray.__setitem__"]}
{"id": "C17", "title": "Reductions over named axes depend only on the set of axes", "statement": "For a reduction over axis names, the result keeps exactly the other axes, and at each named index its value is the reduction of the elements of a that agree with that index; the order in which axis names are listed does not matter for order-insensitive reductions; axis=None reduces all axes; naming an axis the array lacks raises ValueError; keepdims keeps reduced axes with size 1.", "quantifier": "all arrays, all axis subsets and orders", "why_tests_cant": "universal over subsets and orders of axes", "anchors": ["named_arrays/_scalars/scalar_array_functions.py:array_function_default"]}
{"id": "C18", "title": "Successive sums over disjoint axes equal one sum over their union", "statement": "np.sum(np.sum(a, axis=A), axis=B) equals np.sum(a, axis=A+B) at every named index, for disjoint axis sets A and B; likewise for min, max, all, any.", "quantifier": "all arrays over a commutative monoid, all disjoint axis sets", "why_tests_cant": "algebraic law over all arrays", "anchors": ["named_arrays/_scalars/scalar_array_functions.py:array_function_default"]}
{"id": "C19", "title": "Cumulative reductions accumulate along the named axis", "statement": "np.cumsum(a, axis=x) has at index k along x the sum of a over indices 0..k along x, whatever the position of the axis, with or without an `out` array.", "quantifier": "all arrays, axes and `out` arrays with the same named shape", "why_tests_cant": "the axis position is looked up in out.axes rather than a.axes when out is given: only some axis orders expose it", "anchors": ["named_arrays/_scalars/scalar_array_functions.py:array_function_cumulative_reduce"]}
{"id": "C20", "title": "Indexing with argmin/argmax returns the min/max", "statement": "For a non-empty array, a[np.argmin(a, axis)] equals a.min(axis) at every named index and np.argmin returns the first minimising position in row-major order; the same for argmax.", "quantifier": "all arrays over a linear order, axis None or one axis", "why_tests_cant": "relates three separately implemented functions for all arrays", "anchors": ["named_arrays/_scalars/scalar_array_functions.py:array_function_arg_reduce", "named_arrays/_scalars/scalars.py:AbstractScalarArray._getitem"]}
{"id": "C21", "title": "Indexing with argsort equals sort", "statement": "a[np.argsort(a, axis=x)] equals np.sort(a, axis=x); the result is non-decreasing along x and each line along x is a permutation of the original line.", "quantifier": "all arrays over a linear order and all axes", "why_tests_cant": "permutation and order for every input", "anchors": ["named_arrays/_scalars/scalar_array_functions.py:sort", "named_arrays/_scalars/scalar_array_functions.py:argsort"]}
{"id": "C22", "title": "nonzero and unravel_index address exactly the right elements", "statement": "np.nonzero(a) lists every named index with a nonzero element exactly once in row-major order, so a[np.nonzero(a)] equals a[a != 0]; np.unravel_index of the flat position of an index returns this index.", "quantifier": "all arrays / shapes", "why_tests_cant": "completeness over all arrays; inverse of ravel for all shapes", "anchors": ["named_arrays/_scalars/scalar_array_functions.py:nonzero", "named_arrays/_scalars/scalar_array_functions.py:unravel_index"]}
{"id": "C23", "title": "stack adds an axis indexed by argument position", "statement": "na.stack(arrays, axis)[{axis: i}] equals arrays[i] broadcast to the common shape, and the new axis has size len(arrays); an axis already present raises ValueError.", "quantifier": "all finite non-empty sequences of mutually broadcastable arrays", "why_tests_cant": "unbounded number of arrays with different axis orders", "anchors": ["named_arrays/_scalars/scalar_array_functions.py:stack", "named_arrays/_named_array_functions.py:stack"]}
{"id": "C24", "title": "concatenate joins along the named axis", "statement": "The size of `axis` in na.concatenate(arrays, axis) is the sum of the sizes, and slicing out the i-th segment returns arrays[i] (broadcast along the other axes).", "quantifier": "all finite non-empty sequences of arrays containing the axis", "why_tests_cant": "unbounded sequences with different axis orders", "anchors": ["named_arrays/_scalars/scalar_array_functions.py:concatenate", "named_arrays/_named_array_functions.py:concatenate"]}
{"id": "C25", "title": "moveaxis renames source axes to destination axes simultaneously", "statement": "np.moveaxis(a, source, destination) returns the array where each axis source[i] is called destination[i], for any source and destination of equal length whose renaming keeps names distinct, including a swap such as ('x','y') -> ('y','x').", "quantifier": "all arrays, all source / destination sequences", "why_tests_cant": "sequential replacement coincides with simultaneous renaming except when a destination is also a later source", "anchors": ["named_arrays/_scalars/scalar_array_functions.py:moveaxis"]}
{"id": "C26", "title": "debroadcast is a lossless compression", "statement": "na.debroadcast(a) drops exactly the axes along which a is constant and na.broadcast_to(na.debroadcast(a), a.shape) equals a at every named index; debroadcast is idempotent.", "quantifier": "all arrays (with no empty axis)", "why_tests_cant": "round trip over all arrays", "anchors": ["named_arrays/_named_array_functions.py:debroadcast", "named_arrays/_named_array_functions.py:_debroadcast", "named_arrays/_scalars/scalar_named_array_functions.py:debroadcast"]}
{"id": "C27", "title": "Equality of named arrays respects names", "statement": "np.array_equal(a, b) is true only if a and b have the same axes and the same elements at every named index.", "quantifier": "all pairs of arrays", "why_tests_cant": "the implementation compares the raw ndarrays: only arrays with different axis names or orders expose it", "anchors": ["named_arrays/_scalars/scalar_array_functions.py:array_equal"]}
{"id": "C28", "title": "Changing the index of an axis puts it at the requested position", "statement": "a.change_axis_index(axis, index) returns an array with the same elements by name in which `axis` is at position `index` and the other axes keep their relative order, for every index in [-ndim, ndim).", "quantifier": "all arrays, axes and indices", "why_tests_cant": "wrong only for particular indices", "anchors": ["named_arrays/_scalars/scalars.py:AbstractScalarArray.change_axis_index"]}
{"id": "C29", "title": "pack and unpack are inverse", "statement": "For a nested structure whose leaves are real numbers, arrays and named arrays, na.unpack(na.pack(value), value) returns a structure with the same shape and the same leaves, na.pack(na.unpack(flat, like)) returns flat, and na.unpack raises ValueError whenever the flat array is too long or too short.", "quantifier": "every finite nesting of dicts, lists, tuples, dataclasses, vectors and scalar arrays", "why_tests_cant": "structural induction over unbounded nesting", "anchors": ["named_arrays/_core.py:pack", "named_arrays/_core.py:unpack"]}
{"id": "C30", "title": "na.getitem and na.shape act uniformly on nested structures", "statement": "na.getitem(value, item) indexes every leaf array of a nested structure and leaves its non-array leaves and its nesting unchanged; na.shape of a structure is the broadcast of the shapes of its leaves.", "quantifier": "every finite nesting", "why_tests_cant": "structural induction over unbounded nesting", "anchors": ["named_arrays/_core.py:getitem", "named_arrays/_named_array_functions.py:shape"]}
{"id": "C31", "title": "Linear interpolation is exact at nodes and on linear data", "statement": "a.interp_linear at integer in-range positions returns the elements of a; on data linear in the index it returns the linear function at every position (extrapolating outside); interpolating along several axes does not depend on the axis order.", "quantifier": "all arrays with at least two points per interpolated axis, all rational positions", "why_tests_cant": "universal over real positions including boundaries, where the lower index is clamped", "anchors": ["named_arrays/_core.py:AbstractArray.interp_linear", "named_arrays/_core.py:AbstractArray._interp_linear_recursive"]}
{"id": "C32", "title": "cell_centers averages neighbouring vertices", "statement": "a.cell_centers(axis) has one element fewer along each given axis, each being the mean of the 2^k surrounding vertices, independent of the order in which the axes are given; a linear function of the index is mapped to its value at the cell mid-point.", "quantifier": "all arrays and axis lists", "why_tests_cant": "recursion over an unbounded list of axes", "anchors": ["named_arrays/_core.py:AbstractArray.cell_centers", "named_arrays/_core.py:AbstractArray._nlerp", "named_arrays/_core.py:AbstractArray._lerp"]}
{"id": "C33", "title": "Linear, logarithmic and geometric spaces are regularly spaced between their endpoints", "statement": "na.linspace(start, stop, axis, num) has num points, the first being start and the last stop when endpoint is true, with constant difference (stop-start)/(num-1) (or /num when endpoint is false, never reaching stop); centers=True returns mid-points of num equal cells; the `step` of a linear space is this difference. Same for arange: all points lie in [start, stop).", "quantifier": "all start/stop values, num >= 1, both endpoint flags, both centers flags", "why_tests_cant": "off-by-one behaviour for every num and flag combination", "anchors": ["named_arrays/_named_array_functions.py:linspace", "named_arrays/_core.py:AbstractLinearSpace.step", "named_arrays/_core.py:AbstractArrayRange.num", "named_arrays/_scalars/scalars.py:ScalarArrayRange"]}
{"id": "C34", "title": "Stratified samples stay inside their own stratum", "statement": "Each point of a stratified random space lies within half a step of the regular grid point with the same index, so strata never overlap and the points are non-decreasing, for every outcome of the random generator.", "quantifier": "all starts, stops, numbers of points and every random draw", "why_tests_cant": "must hold for every random outcome", "anchors": ["named_arrays/_core.py:AbstractStratifiedRandomSpace", "named_arrays/_scalars/scalars.py:ScalarStratifiedRandomSpace"]}
{"id": "C35", "title": "Trimmed mean is the mean of the sorted middle part", "statement": "na.mean_trimmed(a, q, axis) equals the mean of the sorted elements after dropping floor(q*n) elements from each end, and hence lies between the minimum and maximum and is independent of the order of the elements; it is defined for every q in [0, 1/2).", "quantifier": "all arrays, q in [0, 1/2)", "why_tests_cant": "boundary arithmetic for every n and q", "anchors": ["named_arrays/_named_array_functions.py:mean_trimmed"]}
{"id": "C36", "title": "Vector operations act component by component", "statement": "An elementwise operation between vectors of the same type is applied to each pair of components with the same name, a scalar operand is applied to every component, the shape of the result is the broadcast of the component shapes, and vectors of different types are rejected.", "quantifier": "all vectors with any components, nested to any depth", "why_tests_cant": "universal over component sets and nesting", "anchors": ["named_arrays/_vectors/vectors.py:AbstractVectorArray", "named_arrays/_vectors/vectors.py:_normalize", "named_arrays/_vectors/vectors.py:_prototype", "named_arrays/_vectors/cartesian/vectors_cartesian.py"]}
{"id": "C37", "title": "Indexing and reducing a vector equals indexing and reducing each component", "statement": "v[item] for a dict of integers/slices has components c[item]; reductions over axes give the same result as reducing each component after broadcasting it to the vector's shape over the reduced axes.", "quantifier": "all vectors, items and axis sets", "why_tests_cant": "components may have different axes; universal over which component has which axis", "anchors": ["named_arrays/_vectors/vectors.py:AbstractVectorArray._getitem", "named_arrays/_vectors/vector_array_functions.py:array_function_default"]}
{"id": "C38", "title": "Flattening nested vectors is invertible", "statement": "from_cartesian_nd(v.cartesian_nd, like=v) returns v for every nested vector; cartesian_nd has one entry per scalar leaf.", "quantifier": "all nested vectors", "why_tests_cant": "depends on the names of components: dotted names can collide", "anchors": ["named_arrays/_vectors/vectors.py:AbstractVectorArray.cartesian_nd", "named_arrays/_vectors/vectors.py:AbstractExplicitVectorArray.from_cartesian_nd"]}
{"id": "C39", "title": "Matrix inverse is a two-sided inverse", "statement": "For a square matrix of dimension 1, 2 or 3 with nonzero determinant, M @ M.inverse and M.inverse @ M are the identity, whatever the order in which the rows list their components.", "quantifier": "all invertible matrices over a field, all component orders", "why_tests_cant": "polynomial identity over all entries", "anchors": ["named_arrays/_matrices/matrices.py:AbstractMatrixArray.inverse"]}
{"id": "C40", "title": "Determinant, transpose and product obey the usual laws", "statement": "determinant(A @ B) = determinant(A) * determinant(B) for 2d and 3d matrices; matrix_transpose is an involution and reverses products; matrix products are associative; the identity matrix is neutral.", "quantifier": "all matrices over a commutative ring", "why_tests_cant": "polynomial identities over all entries", "anchors": ["named_arrays/_matrices/matrices.py:AbstractMatrixArray", "named_arrays/_matrices/cartesian/matrices_cartesian_2d.py", "named_arrays/_matrices/cartesian/matrices_cartesian_3d.py"]}
{"id": "C41", "title": "Rotation matrices preserve length and compose by adding angles", "statement": "2d and 3d axis rotation matrices are orthogonal with determinant one, rotating by a then b is rotating by a+b, and rotating by -a is the inverse.", "quantifier": "all angles", "why_tests_cant": "identity in the angle", "anchors": ["named_arrays/_matrices/cartesian/matrices_cartesian_2d.py:Cartesian2dRotationMatrixArray", "named_arrays/_matrices/cartesian/matrices_cartesian_3d.py"]}
{"id": "C42", "title": "Composing transformations composes the functions", "statement": "For any two transformations f, g among identities, translations, linear, affine transformations and lists of them, (f @ g)(x) = f(g(x)) for every vector x.", "quantifier": "all pairs of transformations, lists of any length, all vectors", "why_tests_cant": "the result is computed by case analysis on the pair of classes through __matmul__/__rmatmul__; lists of any length", "anchors": ["named_arrays/transformations.py:AbstractTransformation.__matmul__", "named_arrays/transformations.py:AbstractTranslation", "named_arrays/transformations.py:AbstractLinearTransformation", "named_arrays/transformations.py:AbstractAffineTransformation", "named_arrays/transformations.py:AbstractTransformationList"]}
{"id": "C43", "title": "The inverse of a transformation undoes it", "statement": "t.inverse(t(x)) = x and t(t.inverse(x)) = x for every transformation whose linear parts are invertible, including lists, for both intrinsic and extrinsic lists.", "quantifier": "all transformations and vectors, lists of any length", "why_tests_cant": "lists of any length and mixed kinds", "anchors": ["named_arrays/transformations.py:AbstractTransformation.inverse", "named_arrays/transformations.py:AbstractAffineTransformation.inverse", "named_arrays/transformations.py:AbstractTransformationList.inverse"]}
{"id": "C44", "title": "A transformation list applies its members in the documented order", "statement": "Applying a TransformationList equals applying its members one by one: in order when intrinsic is true, in reverse order otherwise (or as the code iterates), and equals applying its `composed` transformation.", "quantifier": "lists of any length", "why_tests_cant": "order reversal for any number of members", "anchors": ["named_arrays/transformations.py:AbstractTransformationList.__call__", "named_arrays/transformations.py:AbstractTransformationList.composed", "named_arrays/transformations.py:AbstractTransformationList.__iter__"]}
{"id": "C45", "title": "A root returned by Newton's method is a root to the requested accuracy", "statement": "If na.optimize.root_newton returns x then |f(x)| < max_abs_error at every element; it never returns otherwise, performs at most max_iterations updates, and raises ValueError when it gives up.", "quantifier": "all functions, guesses, tolerances and step limits", "why_tests_cant": "for every function; loop of arbitrary length", "anchors": ["named_arrays/_scalars/scalar_named_array_functions.py:optimize_root_newton", "named_arrays/optimize.py:root_newton"]}
{"id": "C46", "title": "The secant method converges element by element and freezes converged elements", "statement": "If na.optimize.root_secant returns x then each element satisfied |f| < max_abs_error or had its last step below min_step_size at some iterate and was not changed after it was marked converged.", "quantifier": "all functions, guesses, tolerances and step limits", "why_tests_cant": "history property: sticky convergence masks over arbitrarily many iterations", "anchors": ["named_arrays/_scalars/scalar_named_array_functions.py:optimize_root_secant", "named_arrays/optimize.py:root_secant"]}
{"id": "C47", "title": "Operations on uncertain scalars act on the nominal value and on every sample", "statement": "For an elementwise function, the nominal of f(u, v) is f of the nominals, and the k-th sample of f(u, v) is f of the k-th samples; shape never includes the distribution axis; constructing an uncertain array whose nominal has the distribution axis raises ValueError.", "quantifier": "all uncertain arrays, functions and sample counts", "why_tests_cant": "universal over shapes and samples", "anchors": ["named_arrays/_scalars/uncertainties/uncertainties.py:AbstractUncertainScalarArray.__array_ufunc__", "named_arrays/_scalars/uncertainties/uncertainties.py:UncertainScalarArray.__post_init__", "named_arrays/_scalars/uncertainties/uncertainties.py:UncertainScalarArray.shape"]}
{"id": "C48", "title": "Reshaping an uncertain scalar keeps each sample together", "statement": "The k-th sample of np.reshape(u, shape) is np.reshape of the k-th sample of u.", "quantifier": "all uncertain arrays and target shapes", "why_tests_cant": "depends on where the distribution axis happens to sit in memory", "anchors": ["named_arrays/_scalars/uncertainties/uncertainties_array_functions.py:reshape"]}
{"id": "C49", "title": "Masked copy into an uncertain scalar touches only masked elements", "statement": "np.copyto(dst, src, where=w) with uncertain src and w changes dst's nominal only where w's nominal is true and dst's distribution only where w's distribution is true.", "quantifier": "all uncertain dst, src and masks", "why_tests_cant": "frame condition for all masks", "anchors": ["named_arrays/_scalars/uncertainties/uncertainties_array_functions.py:copyto"]}
{"id": "C50", "title": "Indexing a function of cell vertices keeps inputs and outputs aligned", "statement": "Indexing a FunctionArray along a vertex axis by an integer or slice keeps one more input vertex than outputs, and output cell k keeps its two bounding input vertices.", "quantifier": "all function arrays with a vertex axis, all integers and slices valid for the outputs", "why_tests_cant": "negative indices, open slices and steps behave differently", "anchors": ["named_arrays/_functions/functions.py:AbstractFunctionArray._getitem"]}
{"id": "C51", "title": "Arithmetic on function arrays requires equal inputs", "statement": "An elementwise operation on several FunctionArrays raises InputValueError unless their inputs are equal, otherwise the result has these inputs and the elementwise result of the outputs.", "quantifier": "all function arrays", "why_tests_cant": "universal over inputs", "anchors": ["named_arrays/_functions/functions.py:AbstractFunctionArray.__array_ufunc__"]}
{"id": "C52", "title": "Each axis of a function array is a center axis or a vertex axis, never both", "statement": "axes_center and axes_vertex partition the axes; an axis is a vertex axis exactly when the input size is the output size plus one; other mismatches not involving size 1 raise ValueError; shape uses output sizes on vertex axes.", "quantifier": "all function arrays", "why_tests_cant": "decision table over all sizes, including the ambiguous sizes 1 and 2", "anchors": ["named_arrays/_functions/functions.py:AbstractFunctionArray.axes_center", "named_arrays/_functions/functions.py:AbstractFunctionArray.axes_vertex", "named_arrays/_functions/functions.py:FunctionArray.shape"]}
{"id": "C53", "title": "Integrating a function array is exact on simple integrands and linear", "statement": "integrate over a vertex axis equals the Riemann sum of output times cell width and over a center axis the trapezoidal rule: exact for constants, exact for linear functions with the trapezoidal rule, additive and homogeneous in the outputs.", "quantifier": "all grids (not necessarily regular) and outputs", "why_tests_cant": "telescoping sums of any length", "anchors": ["named_arrays/_functions/functions.py:AbstractFunctionArray.integrate", "named_arrays/_scalars/scalars.py:AbstractScalarArray.volume_cell", "named_arrays/_core.py:AbstractArray.cell_centers"]}
{"id": "C54", "title": "Polynomial fit terms are all the monomials up to the degree, each once", "statement": "PolynomialFitFunctionArray.from_degree generates, for distinct component names, every monomial of total degree at most `degree` exactly once, and evaluating the design matrix multiplies the named components.", "quantifier": "all component lists and degrees", "why_tests_cant": "combinatorial completeness for every degree and number of components", "anchors": ["named_arrays/_functions/functions.py:PolynomialFitFunctionArray.from_degree", "named_arrays/_functions/functions.py:PolynomialFitFunctionArray.design_matrix"]}
{"id": "C55", "title": "Doppler velocity and wavelength conversions are inverse", "statement": "from_velocity followed by velocity, and velocity followed by from_velocity, are the identity for nonzero rest wavelength and speed of light.", "quantifier": "all wavelengths, velocities", "why_tests_cant": "algebraic identity", "anchors": ["named_arrays/_vectors/vectors_doppler.py"]}
{"id": "C56", "title": "Cell volume is the signed geometric measure and is additive", "statement": "For scalar grids the cell volumes along the axis sum to last minus first; for 2d grids the cell area of a rectangle is width times height, it is invariant under translation, and is multiplied by the determinant under a linear map.", "quantifier": "all grids over an ordered field", "why_tests_cant": "geometric identity over all coordinates", "anchors": ["named_arrays/_scalars/scalars.py:AbstractScalarArray.volume_cell", "named_arrays/_vectors/cartesian/vectors_cartesian_2d.py:volume_cell", "named_arrays/_vectors/cartesian/vectors_cartesian_3d.py:volume_cell"]}
{"id": "C57", "title": "Selection, repetition and differences act along the named axis only", "statement": "np.where, np.clip, np.diff, np.repeat and np.take_along_axis act at each named index as their numpy counterparts do on the line along the named axis, whatever the axis order: diff(cumsum) restores the tail, repeat by n maps index k to k//n.", "quantifier": "all arrays and axes", "why_tests_cant": "universal over axis positions", "anchors": ["named_arrays/_scalars/scalar_array_functions.py:where", "named_arrays/_scalars/scalar_array_functions.py:clip", "named_arrays/_scalars/scalar_array_functions.py:diff", "named_arrays/_scalars/scalar_array_functions.py:repeat", "named_arrays/_scalars/scalar_array_functions.py:take_along_axis"]}
{"id": "C58", "title": "A histogram has as many bins as requested and loses no sample in range", "statement": "na.histogram(a, bins={axis: n}, min, max) has n bins along axis, and the counts sum to the number of samples in [min, max].", "quantifier": "all samples and n >= 1", "why_tests_cant": "off-by-one in number of bins; total over all samples", "anchors": ["named_arrays/_scalars/scalar_named_array_functions.py:histogram", "named_arrays/_scalars/scalar_named_array_functions.py:histogram2d", "named_arrays/_scalars/scalar_named_array_functions.py:histogramdd"]}
{"id": "C59", "title": "Gradient descent stops only at a small gradient", "statement": "If na.optimize.minimum_gradient_descent returns x then the gradient magnitude at x is below min_gradient at every element; with zero momentum each update is x - step_size*gradient(x).", "quantifier": "all functions and parameters", "why_tests_cant": "loop of arbitrary length", "anchors": ["named_arrays/optimize.py:minimum_gradient_descent", "named_arrays/_vectors/vector_named_array_functions.py:optimize_minimum_gradient_descent"]}
{"id": "C60", "title": "Indexing an uncertain scalar selects the same elements of the nominal value and of every sample", "statement": "u[item] for a dictionary of integers and slices, or a boolean mask (an uncertain mask counts as true where its nominal value and all of its samples are true), takes the nominal value and every sample of the result at one and the same position of the array; axes which a component does not depend on are ignored for that component.", "quantifier": "all uncertain scalars, items and masks", "why_tests_cant": "two components with different axes have to be indexed consistently for every combination of axes", "anchors": ["named_arrays/_scalars/uncertainties/uncertainties.py:AbstractUncertainScalarArray._getitem"]}
{"id": "C61", "title": "Reductions of uncertain scalars act on the nominal value and on each sample separately", "statement": "np.sum, np.min, np.mean, ... of an uncertain scalar over named axes reduce the nominal value and every sample over the whole slab of the shape to which the two broadcast, never over the samples unless the sample axis is named, also with a (plain or uncertain) where.", "quantifier": "all uncertain scalars, axes and masks", "why_tests_cant": "the components may depend on different axes", "anchors": ["named_arrays/_scalars/uncertainties/uncertainties_array_functions.py:array_function_default"]}
{"id": "C62", "title": "Sorting an uncertain scalar permutes the nominal value and every sample alike", "statement": "np.sort(u, axis) reorders the nominal value and all of the samples along the axis by one and the same permutation, along which the means of the samples are in order.", "quantifier": "all uncertain scalars and axes", "why_tests_cant": "permutation property over all arrays", "anchors": ["named_arrays/_scalars/uncertainties/uncertainties_array_functions.py:sort", "named_arrays/_scalars/uncertainties/uncertainties_array_functions.py:argsort"]}
{"id": "C63", "title": "Assignment to an uncertain scalar writes the addressed elements of the nominal value and of every sample", "statement": "u[item] = v writes v.nominal to the addressed elements of the nominal value and the samples of v to the same elements of the samples, and nothing else; if it raises, u is unchanged.", "quantifier": "all uncertain scalars, items and values", "why_tests_cant": "atomicity of a failing assignment; all combinations of axes", "anchors": ["named_arrays/_scalars/uncertainties/uncertainties.py:UncertainScalarArray.__setitem__"]}
{"id": "C64", "title": "Cell volumes of three-dimensional grids", "statement": "volume_cell of a grid of three-dimensional vertices along three axes is the signed volume of the hexahedron of the eight vertices of each cell: it is the product of the three edge lengths for boxes, and is multiplied by the determinant under an affine map.", "quantifier": "all grids over a field", "why_tests_cant": "geometric identity over all coordinates", "anchors": ["named_arrays/_vectors/cartesian/vectors_cartesian_3d.py:AbstractCartesian3dVectorArray.volume_cell", "named_arrays/_vectors/cartesian/vectors_cartesian_3d.py:AbstractCartesian3dVectorArray.cross"]}
{"id": "C65", "title": "Indexing an uncertain scalar by its argmin gives its minimum", "statement": "u[np.argmin(u, axis)] and u[np.argmax(u, axis)] are np.min(u, axis) and np.max(u, axis): the extreme nominal value, and for each sample the extreme value of this sample, along one axis, several axes or all of them.", "quantifier": "all uncertain scalars without empty axes whose components have each of their axes in full size, and all axes", "why_tests_cant": "each sample has its own position; combinations of axes of the two components", "anchors": ["named_arrays/_scalars/uncertainties/uncertainties_array_functions.py:array_function_arg_reduce", "named_arrays/_scalars/uncertainties/uncertainties.py:_getitem"]}
{"id": "C66", "title": "Transposing and broadcasting uncertain scalars moves no element by name", "statement": "np.transpose(u, axes) and na.broadcast_to(u, shape) keep every element of the nominal value and of every sample at its named index, the result has the given axes or shape, and axes or shapes which do not fit raise ValueError.", "quantifier": "all uncertain scalars, axes and shapes", "why_tests_cant": "combinations of axes of the two components and of the sample axis", "anchors": ["named_arrays/_scalars/uncertainties/uncertainties_array_functions.py:transpose", "named_arrays/_scalars/uncertainties/uncertainties_named_array_functions.py:broadcast_to"]}
{"id": "C67", "title": "rankdata gives every element its rank among the elements along the axes", "statement": "rankdata(a, axis, method, where) gives each selected element its rank among the selected elements which differ from it along the given axes only: the number of smaller elements plus one (min), the number of smaller or equal elements (max), the mean of the two (average), or the number of different values up to it (dense); excluded elements get nan; several axes are flattened in row-major order; unknown methods raise ValueError.", "quantifier": "all arrays without empty axes, masks, axes and methods", "why_tests_cant": "ties, masks and several axes at once; the scatter/gather through groups of equal values must be right for every multiset of values", "anchors": ["named_arrays/stats.py:rankdata"]}
{"id": "C68", "title": "pearsonr is the correlation coefficient of the selected pairs", "statement": "pearsonr(x, y, axis, where) drops the given axes from the broadcast shape of x and y; its element at an index of the remaining axes is the sum of the products of the deviations from the means, divided by the square roots of the sums of the squared deviations, over the selected pairs which agree with that index; it is nan if one of them is nan or one of the two sequences is constant. It is symmetric, lies between -1 and 1, keeps its size under affine maps (the sign changes if one of the slopes is negative) and is 1 for a sequence with itself.", "quantifier": "all pairs of arrays that both have the reduced axes, masks that fit both, and axes", "why_tests_cant": "means, standard deviations and covariances are reduced and broadcast separately; that they combine to one coefficient with these bounds is a statement about all sequences (Cauchy-Schwarz)", "anchors": ["named_arrays/stats.py:pearsonr"]}
{"id": "C69", "title": "spearmanr is the correlation coefficient of the ranks", "statement": "spearmanr(x, y, axis, where) broadcasts its arguments, drops the given axes, and its element at an index of the remaining axes is the correlation coefficient of the (average) ranks of the selected pairs which agree with that index. It is symmetric, lies between -1 and 1, does not change under strictly increasing functions of x and of y, and is 1 (-1) if y is a strictly increasing (decreasing) function of x.", "quantifier": "all arrays and masks that broadcast, without empty axes, and all sets of axes; selected elements are not nan", "why_tests_cant": "the ranks go through flattening, sorting, scattering and masks before they are correlated; invariance under every increasing function cannot be tested", "anchors": ["named_arrays/stats.py:spearmanr"]}
{"id": "C70", "title": "argpercentile finds the position below which the given share of the mass lies", "statement": "pdf.argpercentile(a, q, axis) returns one fractional position along the axis for every element of a along the other axes and every q: it lies between 0 and the length of the axis, and the mass of a below it, where every element is spread evenly over its cell, is q percent of the total. For non-negative masses a larger share has a larger position.", "quantifier": "all arrays with positive totals, all arrays of percentages with 0 <= q < 100 which broadcast against the other axes", "why_tests_cant": "the position comes from a cumulative sum, an argmax, two gathers at neighbouring indices and an inverse interpolation; every one of them can be off by one for some input", "anchors": ["named_arrays/pdf.py:argpercentile"]}
{"id": "C71", "title": "interp interpolates every element in the lines of the tables at the same named index", "statement": "interp(x, xp, fp, axis, left, right, period) has the broadcast shape of x and of the tables without the axis; its element at a named index is the interpolation of the element of x in the lines of xp and fp at that index, with left, right and period at that index. Between two nodes of an increasing table this is the straight line, nodes are reproduced, and outside left, right or the end values are used. Without an axis, xp must have one axis.", "quantifier": "all x and all tables of equal nonzero length whose other axes broadcast", "why_tests_cant": "the loop over the orthogonal axes, the broadcasting of seven arguments and the alignment of the two tables by name depend on the axes of all of them", "anchors": ["named_arrays/_scalars/scalar_named_array_functions.py:interp"]}
{"id": "C72", "title": "percentile, median and iqr of binned distributions are the coordinates below which the given shares lie", "statement": "pdf.percentile(x, f, q, axis) with bin edges x and masses f returns, for every element of f along the other axes and every q, a coordinate between two neighbouring edges below which q percent of the total mass lie if every mass is spread evenly over its bin. The median has half of the total below it; the interquartile range is the distance of the coordinates below which one and three quarters lie, and is positive for non-negative masses. Larger shares have larger coordinates.", "quantifier": "all edges (increasing, one more than masses), all masses with positive totals, all percentages 0 <= q < 100 and all shapes which broadcast", "why_tests_cant": "two different interpolations (of the cumulative sum and of the edges) must agree about the bins for every input", "anchors": ["named_arrays/pdf.py:percentile", "named_arrays/pdf.py:median", "named_arrays/pdf.py:iqr"]}
{"id": "C73", "title": "fwhm is the distance between the outermost crossings of half of the maximum", "statement": "pdf.fwhm(x, f, axis) drops the axis of f; its element at an index of the other axes is the distance b - a > 0 of the two coordinates at which the straight lines through the points (x, f) of that line reach half of the largest value and outside of which they stay below it. There is only one such distance.", "quantifier": "all f whose first and last values along the axis are below half of a positive value, all increasing coordinates x whose axes are among those of f", "why_tests_cant": "the crossings are found by two argmax calls, one of them over the reversed array, and by gathers at neighbouring indices", "anchors": ["named_arrays/pdf.py:fwhm"]}
{"id": "C74", "title": "rearranging function arrays keeps every input with its output", "statement": "For function arrays whose inputs and outputs are compatible, broadcasted, broadcast_to, transpose, reshape, repeat, take_along_axis, stack and concatenate act on the inputs and outputs alike: element e of the inputs and element e of the outputs of the result come from the same index of the operand, the outputs get exactly the requested shape, and the inputs get the same shape with one more element along every axis on which they were vertices. Operations which would have to split cells (reshape, repeat, take_along_axis, concatenate along a vertex axis) raise ValueError, as do incompatible sizes.", "quantifier": "all function arrays over scalar arrays, all shapes, axes, index arrays, repeat counts and lists of functions", "why_tests_cant": "inputs and outputs have different axes and sizes and are rearranged by separate calls which must stay in step for all shapes", "anchors": ["named_arrays/_functions/function_array_functions.py:transpose", "named_arrays/_functions/function_array_functions.py:reshape", "named_arrays/_functions/function_array_functions.py:array_function_stack_like", "named_arrays/_functions/function_array_functions.py:repeat", "named_arrays/_functions/function_array_functions.py:take_along_axis", "named_arrays/_functions/function_array_functions.py:moveaxis", "named_arrays/_functions/function_named_array_functions.py:broadcast_to", "named_arrays/_functions/functions.py:AbstractFunctionArray.broadcasted"]}
{"id": "C75", "title": "reducing a function array merges its cells", "statement": "np.sum, np.mean, np.min, ... of a function array with keepdims=False drop the axes from both the inputs and the outputs; each output is the reduction of the outputs it replaces and each input the mean of the centers of the cells it replaces (vertices averaged along vertex axes). np.cumsum and np.cumprod keep the inputs and accumulate the outputs along the axis. Axes which the function lacks are an error.", "quantifier": "all function arrays over scalar arrays with compatible inputs and outputs, all axes, all reductions, with and without keepdims", "why_tests_cant": "the axes are split between inputs and outputs, which differ in size along vertex axes, and are reduced by separate calls", "anchors": ["named_arrays/_functions/function_array_functions.py:array_function_default", "named_arrays/_functions/function_array_functions.py:array_function_cumulative_reduce"]}
{"id": "C76", "title": "Rearranging vectors acts on every component as on a scalar of the vector's shape", "statement": "np.transpose, np.reshape, np.repeat, np.diff, np.cumsum/np.cumprod, np.take_along_axis, np.stack, np.concatenate, np.where and np.moveaxis of vectors (also nested ones) give a vector of the same classes and component names, whose component at every path is the result for the scalar component; a component which lacks an axis of the vector behaves as if it were constant along it, and a scalar argument stands for all components. Vectors of different classes raise a TypeError; axes the vector lacks raise an error.", "quantifier": "all vectors (any nesting, any number of components, components with different subsets of the axes), all axes, shapes, counts, indices and lists of vectors and scalars", "why_tests_cant": "Components of a vector may lack axes; whether they are broadcast before being flattened, joined or accumulated decides if the components stay aligned. Tests use few combinations of axes.", "anchors": ["named_arrays/_vectors/vector_array_functions.py: transpose, moveaxis, reshape, array_function_stack_like, array_function_cumulative, take_along_axis, where, repeat, diff", "named_arrays/_vectors/vectors.py: _prototype, _normalize, from_scalar"]}
{"id": "C77", "title": "Assignment to vectors replaces exactly the addressed elements of every component", "statement": "For a vector v (possibly nested), v[item] = value, where item is a dictionary of integers, slices or index arrays, or a boolean mask, and where items and values may be scalars or vectors of the type of v, assigns each scalar component its own part of the value at its own part of the item: exactly the addressed elements are replaced, all other elements, the axes and the shapes stay, and it succeeds exactly if the assignment is possible for every component. A vector of another type is a TypeError which changes nothing; an assignment which raises leaves the vector unchanged; the elements written with a mask are the elements read with this mask.", "quantifier": "all vectors of any nesting depth, all items and values (scalars or vectors), all element types; also all failing assignments", "why_tests_cant": "The effect depends on the combination of nesting, which axes each component has, and which of the item and value are vectors; a failing assignment stops in the middle of a loop over components. Tests assign to vectors whose components all have the same axes.", "anchors": ["named_arrays/_vectors/vectors.py:AbstractVectorArray.__setitem__", "named_arrays/_vectors/vectors.py:AbstractVectorArray._getitem", "named_arrays/_scalars/scalars.py:ScalarArray.__setitem__"]}
{"id": "C78", "title": "Reading function arrays with masks and assigning to function arrays keep inputs and outputs paired", "statement": "For a function array f, f[mask] with a boolean function on the same inputs gives, for every true element of the mask, the output together with its input (the center of its cell along axes on vertices). f[item] = value replaces exactly the addressed outputs, and if value is a function on centers also the addressed inputs; along axes on vertices the inputs stay. f[mask] = number replaces exactly the outputs where the mask is true. A mask on other inputs is an error which changes nothing. What was read with an item can be written back with it, and a failing assignment changes nothing.", "quantifier": "all function arrays with scalar inputs and outputs of any compatible shapes, all items of integers and slices, all masks, all values", "why_tests_cant": "Inputs and outputs have different axes and sizes (vertices or centers), are indexed separately, and are assigned one after the other; whether they stay paired depends on every combination of these. Tests use a few shapes.", "anchors": ["named_arrays/_functions/functions.py:AbstractFunctionArray._getitem", "named_arrays/_functions/functions.py:FunctionArray.__setitem__"]}
{"id": "C79", "title": "Elementwise operations into an existing array, in place, and under a mask", "statement": "ufunc(*inputs, out=o, where=m) and in-place operators such as a += b write into the given array: it keeps its axes, their order and its shape; exactly the elements at which the mask is true are replaced by the function of the elements of the inputs with the same axis names and positions, all others stay. If an input or the mask does not broadcast to the given array there is a ValueError. The same holds for several outputs with equal named shapes. Without an output array the mask may only use axes of the inputs, and the elements where it is true are those of the operation without a mask.", "quantifier": "all functions of any number of inputs and outputs, all scalar arrays of any shapes and axis orders as inputs, masks and outputs", "why_tests_cant": "Every operand is transposed to the axes of the output by name, so correctness depends on all combinations of axis orders, missing axes and sizes of one; tests use a few.", "anchors": ["named_arrays/_scalars/scalars.py:AbstractScalarArray.__array_ufunc__", "named_arrays/_scalars/scalars.py:AbstractScalarArray.ndarray_aligned", "named_arrays/_core.py:AbstractArray"]}
{"id": "C80", "title": "In-place operations on uncertain scalars and vectors update every part or none", "statement": "u += x for an uncertain scalar u computes the new nominal value from the nominal values and every sample from the samples of the same number, keeps the axes and shapes of u, and with a mask leaves the other elements as they were. v += w for a vector v combines every component with the corresponding component of w (or with w itself, if it is a scalar), and keeps type, components, axes and shapes. If an operand does not broadcast, or has another type, there is an error and u or v is unchanged.", "quantifier": "all uncertain scalars and all (nested) vectors, all operands and masks of any shapes", "why_tests_cant": "The parts of the output are modified one after the other in place; what happens when a later part fails, and when parts have different shapes or are plain numbers, depends on combinations tests do not visit.", "anchors": ["named_arrays/_scalars/uncertainties/uncertainties.py:AbstractUncertainScalarArray.__array_ufunc__", "named_arrays/_vectors/cartesian/vectors_cartesian.py:AbstractCartesianVectorArray.__array_ufunc__"]}
{"id": "C81", "title": "Percentiles of arrays", "statement": "np.percentile(a, q, axis) of scalar arrays has the axes of q followed by the axes of a which are not reduced; the element at a named index is the percentile, for the element of q there, of the elements of a which agree with the index on the remaining axes, whatever the order of the axes of a, of the reduced axes or of an out array. Percentiles interpolate linearly between the order statistics: they increase with q, reach the minimum at 0 and the maximum at 100, do not depend on the order of the elements and follow scaling, shifting and changes of sign. Unknown or repeated axes, axes shared by a and q and numbers which are not percentiles raise ValueError.", "quantifier": "all scalar arrays a and q, all sets of axes, keepdims or not, any axis order of out, all lists of numbers and all percentiles between 0 and 100", "why_tests_cant": "Tests compare with numpy for a few fixed shapes; they do not reach every number and order of axes of a, q and out, nor all lists of numbers.", "anchors": ["named_arrays/_scalars/scalar_array_functions.py:array_function_percentile_like"]}
{"id": "C82", "title": "Fourier transforms along named axes", "statement": "np.fft.fft(a, axis=(x, y)) and the like transform the lines of a along the axis x and put the new axis y in its place; the other axes and the way the lines are indexed are unchanged. np.fft.fftn(a, axes={x: y, ...}) is the sum over the slab of the elements with the product of the coefficients for each axis; it does not depend on the order in which the axes are listed and allows exchanging names. The inverse transform with the names exchanged gives back the array, axes in the same order. Unknown axes, names which collide and zero points raise ValueError.", "quantifier": "all scalar arrays, all sets of transformed axes and new names, all numbers of points, all transforms of lines (all coefficients for the n-dimensional sum), all fields with roots of unity", "why_tests_cant": "Tests compare shapes and values with numpy for two fixed axes; the order of axes, the renaming of any subset (also exchanging names) and the round trip for every shape are not reached.", "anchors": ["named_arrays/_scalars/scalar_array_functions.py:array_function_fft_like", "named_arrays/_scalars/scalar_array_functions.py:array_function_fftn_like"]}
{"id": "C83", "title": "Joining, selecting and rearranging uncertain scalars", "statement": "np.where, np.repeat, np.diff, np.clip, np.take_along_axis, np.stack, np.concatenate and np.moveaxis of uncertain scalars act on the nominal value and on every sample alike: the nominal value of the result is the function of the nominal values, and the k-th sample of the result is the function of the k-th samples, at every named index; plain operands take part in both. The result never has the axis of the samples among its own axes; unknown axes, contradicting sizes or numbers of samples raise ValueError, indices out of range IndexError.", "quantifier": "all uncertain and plain scalars (components with any shapes which broadcast), all axes, counts, ends, bounds, indices, lists of operands", "why_tests_cant": "Tests use nominal values and samples which have the same axes; components with different axes, mixtures with plain operands and the numbers of samples are not reached for all the functions.", "anchors": ["named_arrays/_scalars/uncertainties/uncertainties_array_functions.py:where", "named_arrays/_scalars/uncertainties/uncertainties_array_functions.py:repeat", "named_arrays/_scalars/uncertainties/uncertainties_array_functions.py:diff", "named_arrays/_scalars/uncertainties/uncertainties_array_functions.py:clip", "named_arrays/_scalars/uncertainties/uncertainties_array_functions.py:take_along_axis", "named_arrays/_scalars/uncertainties/uncertainties_array_functions.py:array_function_stack_like", "named_arrays/_scalars/uncertainties/uncertainties_array_functions.py:moveaxis"]}
{"id": "C84", "title": "Cumulative sums, percentiles, Fourier transforms and nonzero elements of uncertain scalars", "statement": "np.cumsum, np.cumprod, np.percentile, np.quantile, np.median, the functions of np.fft and np.nonzero of uncertain scalars act on the nominal value and on every sample alike, over all the positions along the axes concerned of the array, also if only the nominal value or only the samples depend on an axis: at each named index the nominal value of the result is the function of the line or slab of nominal values, and each sample that of the samples. np.nonzero lists each index at which the nominal value and all samples are nonzero once. Unknown axes, the axis of the samples, and new names which are taken raise an exception.", "quantifier": "all uncertain (and, for percentiles, plain) scalars whose components have any shapes which broadcast, all axes, numbers of points and percentiles", "why_tests_cant": "Tests use nominal values and samples with the same axes and plain percentiles; axes which one component lacks, percentiles with samples and arrays without the axis of the samples are not reached.", "anchors": ["named_arrays/_scalars/uncertainties/uncertainties_array_functions.py:array_function_cumulative_reduce", "named_arrays/_scalars/uncertainties/uncertainties_array_functions.py:array_function_percentile_like", "named_arrays/_scalars/uncertainties/uncertainties_array_functions.py:array_function_fft_like", "named_arrays/_scalars/uncertainties/uncertainties_array_functions.py:array_function_fftn_like", "named_arrays/_scalars/uncertainties/uncertainties_array_functions.py:nonzero"]}
{"id": "C85", "title": "Percentiles, Fourier transforms, sorting and limits of vectors", "statement": "np.percentile, np.quantile and np.median, the functions of np.fft, np.sort and np.clip of vectors, nested to any depth, act on every component alike: at each named index the component of the result is the function of the line or slab of that component, over all the positions which the vector has along the axes concerned even if the component does not depend on them. The percentiles may be one array for all components or a vector of one array for each component. An unknown axis raises an exception, and np.sort leaves components without any of the sorted axes as they are.", "quantifier": "all vectors nested to any depth whose components have any shapes which broadcast, all axes, numbers of points, percentiles and limits", "why_tests_cant": "Tests use vectors whose components all have the same axes; components which lack an axis, nested vectors and vectors of percentiles are not combined with every axis argument.", "anchors": ["named_arrays/_vectors/vector_array_functions.py:array_function_percentile_like", "named_arrays/_vectors/vector_array_functions.py:array_function_fft_like", "named_arrays/_vectors/vector_array_functions.py:array_function_fftn_like", "named_arrays/_vectors/vector_array_functions.py:sort", "named_arrays/_vectors/vector_array_functions.py:clip"]}
{"id": "C86", "title": "Comparing vectors and uncertain scalars as a whole; nonzero elements of vectors", "statement": "np.array_equal, np.array_equiv and np.allclose of vectors nested to any depth are true exactly when the two vectors have the same type and the same components and all pairs of components are equal, equal after broadcasting by name, or close at every named index; for uncertain scalars exactly when this holds for the nominal values and for the samples, where a plain scalar stands for both. np.nonzero of a vector lists each index at which all components are nonzero once, and np.unravel_index returns for every axis of the shape a vector of the coordinates of each component.", "quantifier": "all pairs of vectors nested to any depth, of uncertain and plain scalars, with any shapes, elements and component names", "why_tests_cant": "Tests compare an array with itself or with one changed copy; vectors with other component names, other orders of components, scalars in place of vectors and numbers other than 0 and 1 are not reached.", "anchors": ["named_arrays/_vectors/vector_array_functions.py:array_equal", "named_arrays/_vectors/vector_array_functions.py:array_equiv", "named_arrays/_vectors/vector_array_functions.py:allclose", "named_arrays/_vectors/vector_array_functions.py:nonzero", "named_arrays/_vectors/vector_array_functions.py:unravel_index", "named_arrays/_scalars/scalar_array_functions.py:allclose", "named_arrays/_scalars/uncertainties/uncertainties_array_functions.py:array_equal", "named_arrays/_scalars/uncertainties/uncertainties_array_functions.py:array_equiv", "named_arrays/_scalars/uncertainties/uncertainties_array_functions.py:allclose"]}
{"id": "C87", "title": "Indexing vectors with vectors; positions of sorted and least elements of vectors", "statement": "Indexing a vector, nested to any depth, with a dictionary of vectors of the same type indexes each component with the components of the same name; a scalar indexed with vectors gives a vector. v[np.argsort(v, axis)] has the elements of np.sort(v, axis), and each element of v[np.argmin(v, axis)] is the least one of its component among those which agree in the other axes. Missing axes and index vectors of different types raise ValueError.", "quantifier": "all vectors nested to any depth with any shapes and elements, all index dictionaries, all sets of axes", "why_tests_cant": "Tests check that the indexed vector equals the sorted one for one-level vectors whose components all have the same sizes; nested vectors, components which lack axes, and components of size 1 are not reached.", "anchors": ["named_arrays/_vectors/vectors.py:AbstractVectorArray._getitem", "named_arrays/_vectors/vectors.py:AbstractVectorArray._getitem_reversed", "named_arrays/_core.py:AbstractArray.__getitem__", "named_arrays/_vectors/vector_array_functions.py:argsort", "named_arrays/_vectors/vector_array_functions.py:array_function_arg_reduce"]}
{"id": "C88", "title": "Copying into vectors with a mask", "statement": "np.copyto(dst, src, where=w) for a vector dst, nested to any depth, and a scalar src or a vector src of the same type changes exactly the elements of the components of dst at which the mask is true, to the elements of src of the same component, by axis name. If src or the mask does not broadcast to a component, ValueError is raised; a src of another type raises TypeError and changes nothing.", "quantifier": "all destinations and sources nested to any depth, with any shapes, axis orders and elements, all masks", "why_tests_cant": "Tests copy between one-level vectors with a few masks and compare with the component-wise result; components which are python numbers, nested vectors, and what is left after an error are not reached.", "anchors": ["named_arrays/_vectors/vector_array_functions.py:copyto", "named_arrays/_scalars/scalar_array_functions.py:copyto"]}
{"id": "C89", "title": "Percentiles of functions, and copying into functions", "statement": "np.percentile(f, q, axis) of a function has the percentiles of the outputs over each slab along the axes as outputs, and the means of the positions of the cells over each slab as inputs, as every other reduction; with keepdims the inputs are unchanged. np.copyto(dst, src, where=w) changes the inputs and the outputs exactly where the mask is true, if w is a python boolean, or a function with the inputs of src. Missing axes, percentiles along axes of the function and masks with other inputs raise ValueError.", "quantifier": "all functions with scalar inputs and outputs of any shapes, all percentiles and sets of axes; all destinations, sources and masks", "why_tests_cant": "Tests compare shapes and a few values for evenly spaced or single inputs; uneven vertices, axes shared by q and the inputs, and masks with both values are not reached.", "anchors": ["named_arrays/_functions/function_array_functions.py:array_function_percentile_like", "named_arrays/_functions/function_array_functions.py:copyto"]}
{"id": "C90", "title": "Powers of matrices with two rows and two columns", "statement": "matrix.power(n) of a Cartesian2dMatrixArray is the product of n copies of the matrix, matrix.power(-n) is the inverse of this product, matrix.power(z + w) is the product of matrix.power(z) and matrix.power(w), and the n-th power of matrix.power(1 / n) is the matrix. For arrays each element of the result depends on the same element of the matrix and of the exponent only.", "quantifier": "all matrices with two rows and two columns of real numbers, all real exponents, and all arrays of these of any shapes", "why_tests_cant": "The test compares the powers with the exponents 1, 2 and 5 with products, for a few matrices. Equal eigenvalues, singular matrices, negative eigenvalues with fractional exponents and arrays of different kinds of matrices are not reached, and the laws hold for all exponents.", "anchors": ["named_arrays/_matrices/cartesian/matrices_cartesian_2d.py:AbstractCartesian2dMatrixArray.power"]}
{"id": "C91", "title": "Flattening, compressing, counting and comparing functions", "statement": "f.combine_axes(axes, axis_new) flattens the inputs and the outputs in the same order, so that every output keeps its input. na.debroadcast(f) removes exactly the axes along which both inputs and outputs are constant, never an axis on vertices, and broadcasting the result back gives the function again. na.histogram(f, bins, axis) adds up, for each bin, the outputs whose inputs are in the bin. np.array_equal and np.array_equiv compare both components, and np.clip limits the outputs only.", "quantifier": "all functions of scalars with any axes, sizes and order of axes, on centers or on vertices; all lists of axes, bins and bounds", "why_tests_cant": "The tests combine all axes of functions with one or two axes and only check the shapes. The order of the axes of inputs and outputs, axes which only one of them has, axes of size one and axes on vertices give combinations which no finite test covers.", "anchors": ["named_arrays/_functions/functions.py:AbstractFunctionArray.combine_axes", "named_arrays/_functions/function_named_array_functions.py:debroadcast", "named_arrays/_functions/function_named_array_functions.py:histogram", "named_arrays/_functions/function_array_functions.py:array_equal", "named_arrays/_functions/function_array_functions.py:array_equiv", "named_arrays/_functions/function_array_functions.py:clip"]}
{"id": "C92", "title": "Random samples use the parameters at their own position", "statement": "Every element of na.random.uniform, normal, poisson, binomial or gamma is drawn with the parameters at the same named index; the result has the axes of the parameters and of shape_random. Parameters outside of the domain of the distribution anywhere in the arrays are a ValueError. The components of vectors and of uncertain scalars are drawn from the matching components of the parameters, with different seeds. Every element of na.random.choice(a, p, axis, replace) is an element of a with the same index outside axis and a probability other than zero, and without replacement no element is taken twice.", "quantifier": "all parameters with any axes, sizes and order of axes, all shape_random and axis arguments, all seeds, all generators of random numbers, all nestings of vectors", "why_tests_cant": "The tests only check shapes and bounds of a few samples. Which of the broadcast parameters an element was drawn with cannot be seen from one sample, and coinciding streams of random numbers are not visible at all in the shapes.", "anchors": ["named_arrays/random.py:uniform", "named_arrays/_scalars/scalar_named_array_functions.py:random", "named_arrays/_scalars/scalar_named_array_functions.py:random_binomial", "named_arrays/_scalars/scalar_named_array_functions.py:random_gamma", "named_arrays/_scalars/scalar_named_array_functions.py:random_choice", "named_arrays/_scalars/uncertainties/uncertainties_named_array_functions.py:random", "named_arrays/_vectors/vector_named_array_functions.py:random"]}
{"id": "C93", "title": "Filters, expressions, polygons and cosmic rays act on the named axes only", "statement": "na.geometry.point_in_polygon tests every point against the polygon with the same named index, whose vertices lie along axis; na.numexpr.evaluate combines the elements with the same named index; the filters of na.ndfilters use for each element only the elements and the mask with the same index along the axes which are not filtered, and filter each axis with the size given for it; na.despike cleans each image along its two axes on its own, with the mask, background, variance and point spread function at the same index. The result has the broadcast shape, and none of this depends on the order of the axes in memory. Shapes which clash, an axis of vertices which no argument has or which the points have too, and sizes for unknown axes are errors.", "quantifier": "all arrays with any axes, sizes and order of axes, all axis and size arguments, all functions of the other packages applied to one point, element, window or image", "why_tests_cant": "Tests compare a few shapes with a loop of the same kind, or only check the shape of the result; a row of vertices or an image taken at the wrong index is visible only for particular combinations of axes.", "anchors": ["named_arrays/geometry/_point_in_polygon.py:point_in_polygon", "named_arrays/_scalars/scalar_named_array_functions.py:point_in_polygon", "named_arrays/_scalars/scalar_named_array_functions.py:evaluate", "named_arrays/_scalars/scalar_named_array_functions.py:ndfilter", "named_arrays/_scalars/scalar_named_array_functions.py:despike"]}
{"id": "C94", "title": "Resampling acts on the chosen axes only, is linear, and transposing the weights gives the adjoint", "statement": "na.regridding.weights computes the weights at each index along the axes which are not resampled from the grids with this index. na.regridding.regrid_from_weights and na.regridding.regrid replace the axes of the input grid by those of the output grid; each element of the result is the weighted sum of the elements of the values with the same index along the other axes, including axes which only the values or only the grids have. Resampling is linear in the values, and resampling with the transposed weights is the adjoint of resampling with the weights. Shapes which clash, values which do not fit the input grid and unknown axes are a ValueError.", "quantifier": "all coordinates with any number of components, all axes, sizes and order of axes in memory, all values, all weights (any function which computes entries from two grids)", "why_tests_cant": "Tests compare a few grids with interpolation along one axis; weights applied at the wrong index, an axis left out of the flattened order, or a transposition which exchanges only the shapes appear only for particular combinations of axes.", "anchors": ["named_arrays/regridding.py:regrid", "named_arrays/regridding.py:regrid_from_weights", "named_arrays/_scalars/scalar_named_array_functions.py:regridding_weights", "named_arrays/_scalars/scalar_named_array_functions.py:regridding_regrid_from_weights", "named_arrays/_scalars/scalar_named_array_functions.py:regridding_transpose_weights", "named_arrays/_vectors/vector_named_array_functions.py:regridding_weights"]}
{"id": "C95", "title": "Convolution acts image by image", "statement": "na.convolve convolves, for every position along the other axes, the image of the array along the given axes with the image of the kernel and of the mask at this position, matched by the names of the axes; the result has the broadcast shape of the array, the kernel without the given axes, and the mask. For uncertain scalars this holds for the nominal value and for every sample, for vectors for every component. np.convolve of two arrays along one axis convolves their elements. Unknown axes, repeated axes and incompatible shapes raise an error.", "quantifier": "every pair of arrays, every mask, every choice of axes, every convolution routine for plain images", "why_tests_cant": "Tests convolve a few arrays whose axes are in the same order; that the images are matched by name holds for all shapes and orders of the axes only by proof.", "anchors": ["named_arrays/_scalars/scalar_named_array_functions.py:convolve", "named_arrays/_scalars/scalar_array_functions.py:convolve", "named_arrays/_vectors/vector_named_array_functions.py:convolve", "named_arrays/_scalars/uncertainties/uncertainties_named_array_functions.py:convolve"]}
{"id": "C96", "title": "Inverses and determinants of matrices along named axes and of matrices with four or more rows", "statement": "The inverse of an array of matrices along two named axes, multiplied with the array and summed over the shared axis, is the identity at every named index of the other axes; matrix.inverse of a vector matrix of any size is a two-sided inverse; matrix_determinant is the determinant. Unknown or repeated axes, matrices which are not square and singular matrices raise an error.", "quantifier": "every field, every array with two axes of the same length in any position, every matrix of named arrays with any number of rows and nested components, every shape of the entries", "why_tests_cant": "The tests invert matrices with two rows only, and numbers cannot show the inverse to be right for every matrix; the code path for four or more rows is never run.", "anchors": ["named_arrays/_matrices/matrices.py:AbstractMatrixArray.inverse", "named_arrays/_scalars/scalars.py:matrix_inverse", "named_arrays/_scalars/scalars.py:matrix_determinant"]}
{"id": "C97", "title": "Resampling a function onto new inputs", "statement": "f.regrid(inputs, axis) and f(inputs) return a function with the same components as f. Each coordinate of its inputs is the new one, or the old one where the new one is None. Each component of its outputs is, at every named index, the weighted sum of the old outputs along the resampled axes, with the weights computed from the old and new coordinates which vary along these axes. Weights may be computed once and reused for any function with the same inputs, calling a function at its own inputs gives the same function, and weights which add up to one conserve the sum of the outputs. Different component names, or an old component which varies along the axes and has no new values, raise a ValueError.", "quantifier": "every function of scalars or (nested) vectors with scalar or vector outputs, every choice of axes, every shape of the old and new coordinates, every number of channels along other axes, every rule for the weights", "why_tests_cant": "The tests resample a few functions with one or two axes called x and y and check that the shapes agree.", "anchors": ["named_arrays/_functions/functions.py:AbstractFunctionArray.__call__", "named_arrays/_functions/functions.py:AbstractFunctionArray.regrid", "named_arrays/_functions/functions.py:AbstractFunctionArray.weights", "named_arrays/_vectors/vector_named_array_functions.py:regrid_from_weights"]}
{"id": "C98", "title": "Units of measurement are preserved", "statement": "a.to(unit) succeeds exactly if the dimensions agree (an array without unit counts as dimensionless, and an equivalency may connect two dimensions); the result has this unit, the same named axes, and every element has the same physical value. a.to_value(unit) has the same numbers without unit. Converting twice is the same as converting once, multiplying by a unit and dividing by it changes no physical value, a.value times the unit of a is a. Sums, differences, comparisons, products and quotients of arrays which are aligned by name are those of the physical values, whatever units the operands are given in; sums of different dimensions raise an error, unless one operand is all zeros without unit. A vector is converted component by component, by one unit or by a (nested) dictionary in which None keeps a component; a function converts its outputs and keeps its inputs.", "quantifier": "every scalar, uncertain scalar, (nested) vector and function, every shape, every pair of units, every (nested) dictionary of units, every equivalency", "why_tests_cant": "The tests convert a few millimetres to metres and use one unit per array; a component which is converted twice or an operand which is not converted only shows for mixed units.", "anchors": ["named_arrays/_scalars/scalars.py:AbstractScalarArray.to", "named_arrays/_scalars/scalars.py:AbstractScalarArray.__mul__", "named_arrays/_vectors/vectors.py:AbstractVectorArray.to", "named_arrays/_scalars/uncertainties/uncertainties.py:AbstractUncertainScalarArray.to", "named_arrays/_named_array_functions.py:unit"]}
{"id": "C99", "title": "Polygons, expressions, filters and cosmic rays of composite arrays", "statement": "For uncertain scalars, point_in_polygon, numexpr.evaluate, the ndfilters and despike give as nominal value the result for the nominal values of all arguments, and as each sample the result for the samples, where arguments without uncertainty take part in both. For vectors, evaluate and the filters act on the components of each (nested) name, where scalars stand for all components, and return a vector with the same structure. For functions, the filters and despike act on the outputs and keep the inputs; a mask with other inputs is refused.", "quantifier": "every uncertain scalar, every nested vector, every function, every shape and order of axes, every window, mask, polygon, expression and cleaning function", "why_tests_cant": "The tests compare the results with the same function applied to the same components in one or two layouts; they never use masks whose inputs differ, vertices in one part only, or a plain array with a mask which is a function.", "anchors": ["named_arrays/_scalars/uncertainties/uncertainties_named_array_functions.py:point_in_polygon", "named_arrays/_scalars/uncertainties/uncertainties_named_array_functions.py:ndfilter", "named_arrays/_scalars/uncertainties/uncertainties_named_array_functions.py:evaluate", "named_arrays/_vectors/vector_named_array_functions.py:ndfilter", "named_arrays/_vectors/vector_named_array_functions.py:evaluate", "named_arrays/_functions/function_named_array_functions.py:ndfilter", "named_arrays/_functions/function_named_array_functions.py:despike"]}
{"id": "C100", "title": "Operands of different types", "statement": "An elementwise operation of two operands gives the same result whichever of the operands numpy asks for its method first, for any mixture of numbers, scalars, uncertain scalars, nested vectors and functions: a function acts on its outputs and keeps its coordinates, below that a vector acts on its components, below that an uncertain scalar on its nominal value and its samples, and the scalars met at the end are combined element by element and axis by axis name. Exchanging the operands changes nothing but the order of the axes, the shape of the result is the broadcast shape of the operands, vectors of different types raise TypeError, and functions with different coordinates raise InputValueError.", "quantifier": "every pair of operands of these types and every nesting of vectors, every shape and order of axes, every binary operation, and every order in which numpy may ask the operands", "why_tests_cant": "The tests combine each type with a few others on small arrays; the answer depends on which of the four methods is asked first and on what each of them does before it returns NotImplemented.", "anchors": ["named_arrays/_scalars/scalars.py:AbstractScalarArray.__array_ufunc__", "named_arrays/_scalars/uncertainties/uncertainties.py:AbstractUncertainScalarArray.__array_ufunc__", "named_arrays/_vectors/cartesian/vectors_cartesian.py:AbstractCartesianVectorArray.__array_ufunc__", "named_arrays/_functions/functions.py:AbstractFunctionArray.__array_ufunc__"]}
{"id": "C101", "title": "Converting arrays to the type of another array", "statement": "na.asarray(a, like=b) and na.asanyarray(a, like=b) return an array with the values of a whose type, at every level of nesting, is the common type of a and b: a function if one of them is, otherwise a vector, otherwise an uncertain scalar. The order in which the two are asked does not matter; converting a like b and b like a succeed together and give the same type; converting the result again changes nothing; without like the type of a is kept; if there is no common type a TypeError is raised. from_scalar_array(a, like=b) gives the type of b with a everywhere, na.nominal removes uncertain scalars and commutes with conversions, and zeros_like and ones_like keep the type and the shapes.", "quantifier": "every pair of numbers, scalars, uncertain scalars, nested vectors and functions, every shape, every elementwise conversion of the values", "why_tests_cant": "The tests convert a few arrays of each type; the result depends on which of four implementations is asked first and on the recursion through nested parts.", "anchors": ["named_arrays/_named_array_functions.py:_named_array_function", "named_arrays/_named_array_functions.py:asarray", "named_arrays/_named_array_functions.py:asanyarray", "named_arrays/_scalars/scalar_named_array_functions.py:asarray_like", "named_arrays/_scalars/uncertainties/uncertainties_named_array_functions.py:asarray_like", "named_arrays/_vectors/vector_named_array_functions.py:asarray_like", "named_arrays/_functions/function_named_array_functions.py:asarray_like", "named_arrays/_vectors/vectors.py:AbstractExplicitVectorArray.from_scalar_array", "named_arrays/_scalars/uncertainties/uncertainties.py:nominal", "named_arrays/_scalars/scalar_array_functions.py:array_function_array_creation_like"]}
{"id": "C102", "title": "Interpolation in tables of uncertain scalars and of vectors", "statement": "na.interp(x, xp, fp, axis, left, right, period) works part by part. If one of the arguments is an uncertain scalar, the nominal value of the result is the interpolation of the nominal values of all arguments and each sample of the result is the interpolation of their samples. If fp is a vector, each component of the result, at any depth of nesting, is the interpolation in the same component of fp with the same component of the bounds, where None, a number or a scalar array as a bound is meant for all components, and the result has the type and the components of fp.", "quantifier": "every x, every table of any shape, every axis, all bounds and periods, every vector, every interpolation of one line", "why_tests_cant": "The tests use one-dimensional tables without uncertainties in the positions and vectors of scalars; which argument is combined with which sample and component matters for all shapes and all kinds of nesting.", "anchors": ["named_arrays/_named_array_functions.py:interp", "named_arrays/_scalars/uncertainties/uncertainties_named_array_functions.py:interp", "named_arrays/_vectors/vector_named_array_functions.py:interp", "named_arrays/_vectors/vectors.py:AbstractExplicitVectorArray.from_scalar", "named_arrays/_vectors/vectors.py:AbstractExplicitVectorArray.from_cartesian_nd"]}
{"id": "C103", "title": "Solid angles of cells", "statement": "solid_angle_cell(axis) of a grid of three-dimensional vertices has one element less along the two axes, and each element is the signed solid angle of the quadrilateral of the four vertices of the cell, divided along a diagonal, as seen from the origin, by the formula of Eriksson. The solid angles depend on the directions of the vertices only, do not change under rotations, change sign if the axes are exchanged, and add up: a triangle which is divided in two has the sum of the solid angles of its parts. Axes which the grid lacks, or another number of axes than two, raise ValueError.", "quantifier": "every grid of vertices, every number of further axes, every pair of axes, all real coordinates", "why_tests_cant": "The tests compute the solid angles of a few grids; signs, the order of the vertices and the branches of the arctangent must be right for all directions.", "anchors": ["named_arrays/_vectors/cartesian/vectors_cartesian_3d.py:AbstractCartesian3dVectorArray.solid_angle_cell", "named_arrays/_vectors/cartesian/vectors_cartesian_3d.py:AbstractCartesian3dVectorArray._sold_angle", "named_arrays/_vectors/cartesian/vectors_cartesian_3d.py:AbstractCartesian3dVectorArray.cross", "named_arrays/_vectors/cartesian/vectors_cartesian.py:AbstractCartesianVectorArray.length"]}
{"id": "C104", "title": "Cell volumes of spaces and random samples", "statement": "volume_cell of an implicit array agrees with volume_cell of its explicit array: along the axis of a linear space every difference of neighbouring elements is the step which the space returns, for two-dimensional vectors every cell area is the product of the steps, and along other axes the two are the same. Along random axes of a uniform sample, the cell volumes multiplied by the number of samples give the volume between start and stop. A wrong number of axes raises ValueError.", "quantifier": "every linear space of numbers or of two-dimensional vectors, any shape of start and stop, any number of points, with and without endpoint and cell centers; every uniform sample with a random shape", "why_tests_cant": "The tests compare only types and a few values; whether a shortcut gives the same result as the explicit computation must hold for every shape, order of axes and combination of flags.", "anchors": ["named_arrays/_scalars/scalars.py:ScalarLinearSpace.volume_cell", "named_arrays/_scalars/scalars.py:ScalarUniformRandomSample.volume_cell", "named_arrays/_vectors/cartesian/vectors_cartesian_2d.py:Cartesian2dVectorLinearSpace.volume_cell", "named_arrays/_vectors/cartesian/vectors_cartesian_2d.py:Cartesian2dVectorUniformRandomSample.volume_cell", "named_arrays/_core.py:AbstractLinearSpace.step"]}
{"id": "C105", "title": "Locating, comparing and multiplying values of functions", "statement": "f[np.argmax(f, axis)] and f[np.argmin(f, axis)] pair an input of f with the largest (smallest) output along the axes, and f[np.nonzero(f)] lists exactly the inputs with nonzero outputs, each once and with its own output. np.allclose of functions is true exactly if inputs and outputs are close everywhere. The cell centers of a function are the means of the surrounding inputs and outputs, so that points on a line stay on it. np.matmul of functions with equal inputs multiplies the outputs and keeps the inputs, and raises InputValueError if inputs differ. f.length and f.add_axes leave the inputs alone.", "quantifier": "all functions with scalar inputs and outputs of any shapes, all sets of axes, any choice of a position from a list", "why_tests_cant": "That the two parts of a function stay in correspondence must hold for all shapes, also if the inputs and outputs have different axes; tests look at a few fixed shapes and often only at types.", "anchors": ["named_arrays/_functions/function_array_functions.py:array_function_arg_reduce", "named_arrays/_functions/function_array_functions.py:allclose", "named_arrays/_functions/function_array_functions.py:nonzero", "named_arrays/_functions/functions.py:AbstractFunctionArray.length", "named_arrays/_functions/functions.py:AbstractFunctionArray.add_axes", "named_arrays/_functions/functions.py:AbstractFunctionArray.cell_centers", "named_arrays/_functions/functions.py:AbstractFunctionArray.__array_matmul__"]}
{"id": "C106", "title": "Jacobians by finite differences and the default of Newton's method", "statement": "na.jacobian(function, x, dx) of a vector function of a vector is a matrix whose rows are the components of the value and whose columns are the components of the argument, also for nested vectors; its entry (r, c) is the change of component r, when component c alone is moved by its step, divided by that step. A scalar function of a vector has a vector of such quotients, a scalar function of a scalar has one. The Jacobian of an affine function, in particular of every transformation, is exactly its matrix, whatever the point and the nonzero steps; for a quadratic function the error is the step times the leading coefficient. Hence Newton's method with the default Jacobian solves affine equations with one correction.", "quantifier": "all kinds of (nested) vectors, all points and steps (a vector or one scalar for all components), all functions between the two kinds; all shapes and guesses for Newton's method with scalars", "why_tests_cant": "A matrix with exchanged rows and columns, a component moved twice or a step of the wrong component is invisible in tests with symmetric or diagonal examples; exactness for all affine functions and all steps cannot be tested.", "anchors": ["named_arrays/_named_array_functions.py:jacobian", "named_arrays/_vectors/vector_named_array_functions.py:jacobian", "named_arrays/_scalars/scalar_named_array_functions.py:jacobian", "named_arrays/optimize.py:root_newton"]}
{"id": "C107", "title": "Roots and derivatives of functions of uncertain scalars", "statement": "na.optimize.root_secant with uncertain scalars iterates the nominal value and every sample independently, element by element: an element which has converged (small value or small step at some iteration) is kept from then on, the others move to the zero of the secant through their last two points. It stops when all elements of the nominal value and of the samples have converged; otherwise it raises ValueError after max_iterations or when an element which has not converged has equal values at its last two points, and it fails in no other way. na.optimize.root_newton does the same with Newton's steps: when it returns, the magnitudes of the nominal value and of all samples of the function at the last iterate are below max_abs_error. na.jacobian consists of the difference quotients of the nominal values and of the samples; for a linear function with uncertain coefficients it is the uncertain slope.", "quantifier": "all functions of uncertain scalars, all shapes and numbers of samples of the guess, the steps and the tolerances (plain or uncertain), all operations of numbers, all numbers of iterations and dampings", "why_tests_cant": "The tests only compare the result of a few functions with known roots; mixing the masks of the nominal value and of the samples, or stopping when only one of the two has converged, gives right answers whenever both need the same number of iterations.", "anchors": ["named_arrays/_scalars/uncertainties/uncertainties_named_array_functions.py:optimize_root_secant", "named_arrays/_scalars/uncertainties/uncertainties_named_array_functions.py:optimize_root_newton", "named_arrays/_scalars/uncertainties/uncertainties_named_array_functions.py:jacobian", "named_arrays/optimize.py:root_secant"]}
{"id": "C108", "title": "Histograms of uncertain scalars and of vectors", "statement": "na.histogram, na.histogramdd of uncertain scalars: the nominal value of the result is the histogram of the nominal values, with the nominal edges and weights, and each sample is the histogram of this sample with the edges and weights of this sample, for any mixture of uncertain and exact samples, weights and edges; the samples are never summed over, even if all the axes are, and an axis which no operand has is a KeyError. With numbers of bins the edges are equidistant between the bounds, which are by default the extremes of the nominal values and of each sample, and then no element is lost. na.histogram of a vector counts the points whose components, at any depth of nesting, are all in the bin; the inputs of the result are the edges with the layout of the vector; bounds and edges are matched to the components by name, and scalar bounds apply to all components.", "quantifier": "all numbers, shapes and values of samples, weights, edges and bounds over every ordered field, all sets of summed axes, all numbers of bins, all vector types and depths of nesting", "why_tests_cant": "The tests check histograms of a few arrays for the right shape and total; exchanging the nominal edges for those of the samples, losing the largest element, summing over the samples or matching the components by position shows only for unsymmetric inputs.", "anchors": ["named_arrays/_scalars/uncertainties/uncertainties_named_array_functions.py:histogramdd", "named_arrays/_scalars/uncertainties/uncertainties_named_array_functions.py:histogram", "named_arrays/_scalars/uncertainties/uncertainties_named_array_functions.py:histogram2d", "named_arrays/_vectors/vector_named_array_functions.py:histogram", "named_arrays/_named_array_functions.py:histogramdd"]}
{"id": "C109", "title": "Combining and adding axes of uncertain scalars and vectors", "statement": "combine_axes of an uncertain scalar or of a vector succeeds exactly if the given axes are distinct axes of it, the new name is not that of another axis (nor, for uncertain scalars, the reserved name of the sample axis), and no remaining axis and no set of samples is empty; otherwise ValueError. The result has the remaining axes and one new axis, named by joining the names with * unless given, whose elements are all the elements along the given axes in row-major order; this order is the same in the nominal values, in every sample and in every component however deeply nested, also if some of them depend on only a part of the axes. No element is lost or repeated. By default all axes are combined, but never the samples. add_axes adds exactly the missing axes, with size 1, and changes no element; the reserved name is a ValueError.", "quantifier": "all uncertain scalars and vectors (any type, nesting, shapes and elements), all lists of axes (with repetitions, unknown or reserved names) and all new names", "why_tests_cant": "The tests compare the shape of a few combined arrays; that the components of a grid are still aligned after combining, whichever axes each of them has, depends on all layouts.", "anchors": ["named_arrays/_scalars/uncertainties/uncertainties.py:combine_axes", "named_arrays/_scalars/uncertainties/uncertainties.py:add_axes", "named_arrays/_vectors/vectors.py:combine_axes", "named_arrays/_vectors/vectors.py:add_axes", "named_arrays/_scalars/scalars.py:combine_axes"]}
{"id": "C110", "title": "Variance-to-mean ratio and root mean square", "statement": "na.vmr and .vmr(axis) give at every index of the remaining axes the variance divided by the mean of the same elements, namely those which agree with this index and which the mask selects; .rms(axis) gives the root of the mean of their squares. This holds for scalars, for the nominal value and every sample of an uncertain scalar (samples are never mixed), and for every component of a vector, where a component which lacks a reduced axis counts as constant along it. With out= the output array keeps its axes in its order and gets the same elements by name. By default all axes are reduced; an unknown or repeated axis is a ValueError. Consequently rms**2 = mean**2 + var wherever an element is selected, vmr(c*a) = c*vmr(a), and vmr of positive data is non-negative and is zero exactly for constant data.", "quantifier": "all arrays of any axes, sizes and elements, all masks which broadcast to the array, all sets of axes, keepdims and out; uncertain scalars and vectors (nested) of any layout", "why_tests_cant": "The tests compare with the same numpy functions on a few arrays; that numerator and denominator use the same elements for every layout, mask and component cannot be sampled.", "anchors": ["named_arrays/_named_array_functions.py:vmr", "named_arrays/_core.py:rms", "named_arrays/_core.py:vmr", "named_arrays/_scalars/scalar_array_functions.py:array_function_default"]}
{"id": "C111", "title": "Random choices from uncertain scalars and vectors", "statement": "na.random.choice of an uncertain scalar or of a vector returns elements of the array: the nominal value, the samples and the components of a chosen element belong to one and the same element of the array with the same index outside axis, whose weight is not zero, and without replacement no element is chosen twice. The result has the axes of shape_random and those of the array and weights outside axis, and the same number of samples. Shapes which contradict each other are a ValueError.", "quantifier": "all uncertain scalars (axes of nominal value and samples may differ) and vectors (nested), all weights (plain, uncertain or vectors), axes, replace, shape_random and seeds, and all generators which pick positions of nonzero weight", "why_tests_cant": "The tests only check the shape of the result and that values are contained in the array; that parts of an element stay together depends on the positions picked by every seed.", "anchors": ["named_arrays/random.py:choice", "named_arrays/_scalars/uncertainties/uncertainties_named_array_functions.py:random_choice", "named_arrays/_vectors/vector_named_array_functions.py:random"]}
{"id": "C112", "title": "The indices of an array address each of its elements exactly once", "statement": "a[a.indices] is a: same axes, sizes and elements. a[a.indices] = value replaces every element of a by the value broadcast to the shape of a. For any axes left out, for i in a.ndindex(axis_ignored): b[i] = a[i] copies all of a into an array b of the same shape. na.indices(shape) of another shape selects the first elements along its axes, and raises IndexError if the array has fewer. This holds for scalar arrays, uncertain scalars (nominal value and samples), vectors (every component) and functions (inputs and outputs).", "quantifier": "all arrays of any number of axes and any sizes (also empty), values which broadcast to the array, sets of axes left out of the loop, shapes to take indices from", "why_tests_cant": "Tests index a few fixed arrays; that indices of the shape are indices of each component depends on which components lack axes, have size 1 or are on vertices.", "anchors": ["named_arrays/_core.py:indices", "named_arrays/_core.py:ndindex", "named_arrays/_scalars/scalars.py:ScalarArray.__setitem__", "named_arrays/_scalars/uncertainties/uncertainties.py:AbstractUncertainScalarArray._getitem", "named_arrays/_vectors/vectors.py:AbstractVectorArray._getitem", "named_arrays/_functions/functions.py:AbstractFunctionArray._getitem"]}
{"id": "C113", "title": "Resampling back with conservatively transposed weights", "statement": "na.regridding.transpose_weights_conservative takes the weights and the grids they were computed for and returns weights from the output grid to the input grid, with the two shapes swapped: at each index along the axes which are not resampled, these are the renormalised weights at this index for the coordinates of the two grids at this index. Applying them with regrid_from_weights to values on the output grid gives an array on the input grid, each element of which is a weighted sum of values with the same index along the other axes. If the weights of each cell of the output grid add up to one, the total of the values is conserved at each index.", "quantifier": "all grids with any number of coordinates, any axes and sizes, any resampled axes, any axes of the grids, of the weights and of the values which are not resampled, any values, and any renormalisation of the weights of one pair of grids", "why_tests_cant": "Tests resample a few grids back and forth; that weights, grids and values are matched by the names of the axes which are not resampled must hold for every combination of axes.", "anchors": ["named_arrays/regridding.py:transpose_weights_conservative", "named_arrays/_vectors/vector_named_array_functions.py:regridding_transpose_weights_conservative", "named_arrays/_scalars/scalar_named_array_functions.py:regridding_transpose_weights_conservative"]}
{"id": "C114", "title": "Values with a uniform or normal uncertainty", "statement": "na.UniformUncertainScalarArray(nominal, width, num_distribution, seed) and na.NormalUncertainScalarArray have exactly the given nominal value and num_distribution samples of each element of nominal and width broadcast together by name. A uniform sample differs from the nominal value at its index by at most the width at its index; a normal sample is drawn with the nominal value and the width at its index. Values with the same seed and the same shape are fully correlated: at each index there is one number t such that each value is sampled as nominal + t * width. A nominal value with the axis of the samples, shapes which do not broadcast, and a negative width of a normal uncertainty raise ValueError.", "quantifier": "all nominal values and widths of any number of axes and any sizes, all numbers of samples and seeds, and all generators which meet the stated assumptions", "why_tests_cant": "Tests draw a few thousand samples of a few fixed shapes; that each sample belongs to the nominal value and the width at its own index, and which samples agree for one seed, must hold for all shapes.", "anchors": ["named_arrays/_scalars/uncertainties/uncertainties.py:UniformUncertainScalarArray", "named_arrays/_scalars/uncertainties/uncertainties.py:NormalUncertainScalarArray", "named_arrays/_core.py:AbstractRandomMixin", "named_arrays/_core.py:AbstractUniformRandomSample", "named_arrays/_core.py:AbstractNormalRandomSample", "named_arrays/_scalars/scalar_named_array_functions.py:random"]}
{"id": "C115", "title": "Grids of vectors", "statement": "np.linspace(start, stop, axis, num) and na.arange(start, stop, axis, step) with vectors return a vector of the same type; each of its components, at any depth, is the linear space or range made from the corresponding components of the arguments along that component's axis, where a scalar argument counts for every component. Linear spaces have all axes of the end points and the component's axis with the number of points, which are equidistant; ranges have the points start, start + step, ... up to but excluding stop. If the components have different axes, the ranges span a grid whose shape has all these axes with the lengths of the ranges. An axis which the end points have already raises ValueError.", "quantifier": "all vector types and nesting depths, all end points (arrays of any shapes for linear spaces, numbers for ranges), axes, numbers of points and non-zero steps of either sign", "why_tests_cant": "Tests make grids of two or three components with a few sizes; that each component gets its own ends, axis and number, at every nesting depth and with scalars mixed in, ranges over all structures.", "anchors": ["named_arrays/_vectors/vector_array_functions.py:array_function_sequence", "named_arrays/_vectors/vector_named_array_functions.py:arange", "named_arrays/_named_array_functions.py:arange", "named_arrays/_scalars/scalar_named_array_functions.py:arange"]}
{"id": "C116", "title": "Linear spaces between uncertain ends", "statement": "na.linspace(start, stop, axis, num, endpoint, centers) with an uncertain start or stop, and na.UncertainScalarLinearSpace, give an uncertain scalar with num points along the axis: its nominal values are the equidistant points between the nominal ends, and its k-th samples are the equidistant points between the k-th samples of the ends, at every index of the ends broadcast together; an end which is not uncertain counts as each of its samples. na.step and the step of the space are the distances of consecutive points, nominal and for every sample. An axis which the ends have, or the reserved axis of the samples, raises ValueError.", "quantifier": "all uncertain and plain ends of any shapes which broadcast, all numbers of points, with and without the endpoint, on edges or centers of cells", "why_tests_cant": "Tests compare with the same function applied to the parts for a few shapes; that each sample of the space belongs to the same sample of both ends, and that it agrees with the step, ranges over all shapes and sizes.", "anchors": ["named_arrays/_scalars/uncertainties/uncertainties_array_functions.py:array_function_sequence", "named_arrays/_named_array_functions.py:linspace", "named_arrays/_named_array_functions.py:step", "named_arrays/_core.py:AbstractLinearSpace", "named_arrays/_scalars/uncertainties/uncertainties.py:UncertainScalarLinearSpace"]}
{"id": "C117", "title": "Partitions", "statement": "np.partition(a, kth, axis) keeps the shape and rearranges every line along the named axis so that the element at each of the positions kth (negative ones count from the end) is the one which sorting the line would put there, with no greater element before it and no smaller one after it. For uncertain scalars this holds for the nominal values and for the k-th samples of every k, where components which do not have the axis are repeated along it. An absent axis, the reserved axis of the samples and a position out of range raise ValueError.", "quantifier": "all arrays of any number of axes and sizes over a linear order, all axes and lists of positions, and every function on lines which meets numpy's contract of a partition", "why_tests_cant": "Tests compare with numpy for a few shapes; that each line of each sample is rearranged within itself ranges over all shapes, axis orders and positions.", "anchors": ["named_arrays/_scalars/scalar_array_functions.py:partition", "named_arrays/_scalars/uncertainties/uncertainties_array_functions.py:partition"]}
{"id": "C118", "title": "An expression in a string is the expression written with the arrays", "statement": "na.numexpr.evaluate(ex, local_dict, global_dict) looks up every variable of the expression among the local and then among the global values, and gives the same array as the expression written in Python with these arrays, however deeply it is nested: the same axes with the same lengths, and at each named index the value of the expression for the elements of its variables there. For uncertain scalars this holds for the nominal values and for the samples, and for vectors for the components at every path. Shapes which clash raise ValueError in both cases and a variable which is not found raises KeyError.", "quantifier": "all expressions built of variables, constants and functions of one and two numbers, all values of the variables of any shapes, all element types", "why_tests_cant": "Tests evaluate two expressions; agreement with the operators ranges over all expressions, numbers of variables and combinations of shapes, and over all names of variables.", "anchors": ["named_arrays/numexpr.py:evaluate", "named_arrays/numexpr.py:_getArguments", "named_arrays/_named_array_functions.py:_named_array_function", "named_arrays/_scalars/scalar_named_array_functions.py:evaluate"]}
{"id": "C119", "title": "debroadcast of uncertain scalars and vectors", "statement": "na.debroadcast(u, axes) of an uncertain scalar removes, from the nominal value and from the samples, exactly those of the given axes (all by default) which are not empty and along which the nominal value and every single sample are constant. The other axes keep their order and lengths, the axis of the samples stays, at every named index of u the nominal value and the samples are unchanged, and nothing can be removed from the result again. For a vector, every component at every depth loses exactly the axes along which this component is constant, and keeps its elements. Only components which do not broadcast against each other raise ValueError.", "quantifier": "all uncertain scalars of any axes and sizes, including components of which only one has an axis or has it with length 1, empty axes and any number of samples; all vectors of any structure and depth; all choices of axes; all element types with decidable equality", "why_tests_cant": "That no constant axis is kept and no varying one is lost depends on all elements of all samples; tests compress a few arrays which were broadcast before.", "anchors": ["named_arrays/_named_array_functions.py:debroadcast", "named_arrays/_named_array_functions.py:_debroadcast", "named_arrays/_scalars/uncertainties/uncertainties_named_array_functions.py:debroadcast", "named_arrays/_vectors/vector_named_array_functions.py:debroadcast", "named_arrays/_scalars/uncertainties/uncertainties.py:AbstractUncertainScalarArray"]}
{"id": "C120", "title": "Matrix multiplication of scalar arrays along two axes", "statement": "a.matrix_multiply(b, axis_rows, axis_columns) gives, in every row and column and at every index along the other axes, the sum over l of the element of a in that row and column l times the element of b in row l and that column, whatever the order of the axes of the operands, if a has as many columns as b has rows. The other axes are broadcast. For square matrices the multiplication is associative and identity matrices are neutral. Contradicting sizes raise ValueError, missing or repeated axes KeyError.", "quantifier": "all pairs and triples of scalar arrays of any axes, axis orders and sizes, including operands which lack one of the two axes; all names of the two axes; all elements of a semiring", "why_tests_cant": "Which element is multiplied by which depends on the order of the axes of both operands and on the axes which are broadcast; the method has no tests at all.", "anchors": ["named_arrays/_scalars/scalars.py:AbstractScalarArray.matrix_multiply", "named_arrays/_scalars/scalars.py:AbstractScalarArray.ndarray_aligned"]}
{"id": "C121", "title": "Lengths of Cartesian vectors and their normalization", "statement": "v.length of a Cartesian vector is, at every named index, the root of the sum of the squares of all its scalars, at every depth of nesting, and has the shape of the vector. v.normalized is a vector of the same structure in which every scalar is divided by the length at the same index, and its length is 1 wherever v does not vanish. Components which do not broadcast against each other raise ValueError.", "quantifier": "all Cartesian vectors of any structure, depth and number of components, with scalars of any axes, orders of the axes and sizes which broadcast; all named indices; real numbers for the normalization, any field with any root and absolute value for the rest", "why_tests_cant": "The loop runs over the flattened entries of a tree of unbounded depth and width and broadcasts at every turn; tests use vectors of two or three components of equal shapes.", "anchors": ["named_arrays/_vectors/cartesian/vectors_cartesian.py:AbstractCartesianVectorArray.length", "named_arrays/_vectors/cartesian/vectors_cartesian.py:AbstractCartesianVectorArray.normalized", "named_arrays/_vectors/vectors.py:AbstractVectorArray.cartesian_nd", "named_arrays/_vectors/vectors.py:AbstractVectorArray.entries"]}
{"id": "C122", "title": "Multi-indices of uncertain flat positions", "statement": "np.unravel_index(u, shape) of an uncertain scalar of flat positions is a dictionary with one uncertain scalar for every axis of shape, in the same order. The nominal value and every sample of it are the coordinates along this axis of the element which has the given number in row-major order, and they have the shapes of those of u. If the nominal value or any sample is not smaller than the number of elements, ValueError is raised.", "quantifier": "all uncertain scalars of natural numbers, with any axes and numbers of samples; all shapes; all named indices", "why_tests_cant": "Row-major numbering involves shapes of every length and size; the tests use the sizes of their fixtures and compare with the same function applied to the parts.", "anchors": ["named_arrays/_scalars/uncertainties/uncertainties_array_functions.py:unravel_index", "named_arrays/_scalars/scalar_array_functions.py:unravel_index"]}
{"id": "C123", "title": "Replacement of numbers which are not finite", "statement": "np.nan_to_num(x) of a scalar, an uncertain scalar or a vector, nested to any depth, returns an explicit object of the same structure in which every finite number is kept, and nan and the infinities are replaced by the values asked for (by default 0 and the largest and smallest finite numbers). If the replacements are finite, nothing else remains. With copy=False the same values are stored in x itself; an error is raised exactly if a part of x is implicit.", "quantifier": "all trees of vectors, uncertain scalars and scalars of any depth, width, axes and sizes; all elements; all replacements", "why_tests_cant": "The recursion runs through trees of unbounded depth, and the state in which an error leaves the argument depends on which of its parts are explicit; the tests use flat vectors whose parts are of one kind.", "anchors": ["named_arrays/_scalars/scalar_array_functions.py:nan_to_num", "named_arrays/_scalars/uncertainties/uncertainties_array_functions.py:nan_to_num", "named_arrays/_vectors/vector_array_functions.py:nan_to_num"]}
{"id": "C124", "title": "Shapes of transformations", "statement": "The shape of a transformation (identity, translation, linear or affine transformation, or a list of transformations nested to any depth) is the broadcast of the shapes of all scalars in its vectors and matrices, and ValueError is raised exactly if they do not broadcast. It does not depend on the order of a list or on its flag intrinsic. If it broadcasts against the shape of a vector, the transformation can be applied to the vector and the result has the broadcast shape.", "quantifier": "all transformations, with lists nested to any depth and vectors and matrices of any structure and shapes; all vectors of the kind which the transformation takes", "why_tests_cant": "Composition multiplies matrices of all members with each other, so the shapes of any combination of members meet; tests use lists of two or three transformations with scalars.", "anchors": ["named_arrays/transformations.py:AbstractAffineTransformation", "named_arrays/transformations.py:AbstractTransformationList", "named_arrays/transformations.py:AbstractTranslation", "named_arrays/transformations.py:AbstractLinearTransformation"]}
{"id": "C125", "title": "Broadcasting of vectors to a shape", "statement": "na.broadcast_to(v, shape) of a vector returns a vector of the same structure, whose scalars at every depth have exactly the requested shape and, at every named index, the values of v; it raises ValueError exactly if the shape of v does not fit in the requested one. With append=True the vector is broadcast to na.broadcast_shapes(v.shape, shape), and ValueError is raised exactly if these clash.", "quantifier": "all vectors of any structure, depth and number of components, with scalars of any axes and sizes; all shapes; all named indices", "why_tests_cant": "Every component is broadcast on its own, so the outcome depends on all combinations of the shapes of the components; tests use vectors whose components have the same axes.", "anchors": ["named_arrays/_vectors/vector_named_array_functions.py:broadcast_to", "named_arrays/_scalars/scalar_named_array_functions.py:broadcast_to", "named_arrays/_named_array_functions.py:broadcast_to"]}
{"id": "C126", "title": "Arrays of strings", "statement": "a.to_string_array(format_value, format_unit, pad_unit) returns an array of strings with the axes and the shape of a, which at every named index is the text python's % operator gives for the value there, followed by pad_unit and the text of the unit if a has one. For a vector every scalar is converted with its own unit, in the same structure.", "quantifier": "all scalar arrays of any axes and sizes and all vectors of any structure and depth; all format strings which are complete for one value; all pads and texts of units; all named indices", "why_tests_cant": "The text of the unit is pasted into the format string before the value is formatted, so that its characters decide whether formatting succeeds; tests use a few units, none of which contains a percent sign.", "anchors": ["named_arrays/_scalars/scalars.py:AbstractScalarArray.to_string_array", "named_arrays/_vectors/vectors.py:AbstractVectorArray.to_string_array", "named_arrays/_scalars/scalar_array_functions.py:strings_mod"]}
{"id": "C127", "title": "Formatting with arrays of formats", "statement": "np.strings.mod(a, values) of an array of format strings and an array of values returns strings of the shape na.broadcast_shapes(a.shape, values.shape), which at every named index are what python's % operator gives for the format and the value there. An error is raised exactly if the shapes clash or the format is not complete for the value at some index.", "quantifier": "all scalar arrays of formats and of values, with any axes and sizes; all format strings; all named indices", "why_tests_cant": "Formats and values with different axes are combined by name, and one bad format anywhere decides the outcome; tests use one format for all values.", "anchors": ["named_arrays/_scalars/scalar_array_functions.py:strings_mod"]}
{"id": "C128", "title": "Functions with automatic domain", "statement": "np.emath.sqrt, log, log2, logn, log10, power, arccos, arcsin and arctanh of scalar arrays return an array of the shape to which the arguments broadcast, whose value at every named index is the complex function of the arguments at that index, no matter what the elements at other indices are. The array is real exactly if all elements of all arguments are in the domains of the real function. The only error is that of shapes which clash.", "quantifier": "all lists of scalar arrays of any axes and sizes; all domains, all real functions and all complex functions which continue them; all named indices", "why_tests_cant": "One element outside of the domain changes the type of the whole array and the function which is evaluated for all other elements; tests cannot show that this never changes their values, for all positions of such elements and all combinations of axes.", "anchors": ["named_arrays/_scalars/scalar_array_functions.py:array_function_emath", "named_arrays/_scalars/scalar_array_functions.py:EMATH_FUNCTIONS"]}
{"id": "C129", "title": "Median filters", "statement": "a.filter_median(shape_kernel) returns an array with the axes and the shape of a, whose element at every named index is in the middle of the elements of a within the window around it: it is one of them, at most half of them are smaller, more than half of them are not larger. Axes which shape_kernel does not mention get windows of size one, positions outside of the array are mirrored at its ends, and if all axes of a have windows of size one, a is returned unchanged.", "quantifier": "all scalar arrays of any axes and sizes; all kernels of positive sizes, with any axes in any order; all total orders of elements; all named indices", "why_tests_cant": "The sizes of the windows are given by name and passed to scipy by position, for every combination of axes, sizes and windows which reach beyond the array; tests compare with one kernel.", "anchors": ["named_arrays/_scalars/scalars.py:AbstractScalarArray.filter_median"]}
