{"id": "C01", "title": "Reducing a slice does not change what it selects", "statement": "For every list x of any length and every slice s with a non-zero step, x[s] and x[reduced(s, len(x))] are the same list. A slice with step 0, on which Python raises ValueError, is reduced to an empty slice without any error.", "quantifier": "all list lengths, all slices (each of start, stop, step None or any int of any size or sign, step not 0; step 0 separately)", "why_tests_cant": "start, stop and step range over all integers and the length over all naturals; the clamping code has a branch for each sign and range combination, and tests only sample small values.", "anchors": ["gcs/slice_tools.py: reduced"]}
{"id": "C02", "title": "nitems is the length of the selection and the items are at start + i*step", "statement": "nitems(s, n) never raises for a slice with non-zero step and equals len(range(n)[s]); if r = reduced(s, n) then the i-th selected position is (r.start + i * r.step) % n for every i below that number.", "quantifier": "all sizes, all slices with non-zero step, all positions inside the selection", "why_tests_cant": "a ceiling division by a step of either sign over unbounded integers: off-by-one errors can sit at any combination of bounds and step.", "anchors": ["gcs/slice_tools.py: nitems", "gcs/slice_tools.py: reduced"]}
{"id": "C03", "title": "Reduced slices are canonical", "statement": "reduced(reduced(s, n), n) = reduced(s, n) for every slice and size; the result is slice(0, 0, 1) when nothing is selected; otherwise with positive step 0 <= start < stop <= n, with negative step -n <= start <= -1 and -n-1 <= stop < start, and 0 < |step| <= n.", "quantifier": "all sizes and all slices", "why_tests_cant": "idempotence relates two passes through every branch of the function for unbounded integers.", "anchors": ["gcs/slice_tools.py: reduced"]}
{"id": "C04", "title": "index_strided addresses exactly the selected elements", "statement": "Indexing an array of given shape and strides with a normalized index gives a shape, strides and offset such that the shape is that of the Python selection, and for every index j of the result, offset + sum(j*new_strides) = sum(src*strides) where src is the index of the source element that Python indexing selects for j.", "quantifier": "all dimensionalities, shapes with positive sizes, integer strides of any sign, all indices mixing ints, slices and None, all result indices", "why_tests_cant": "the number of axes, sizes, strides and slice parameters are unbounded and combine freely.", "anchors": ["gcs/slice_tools.py: index_strided", "gcs/slice_tools.py: shape_strided", "gcs/slice_tools.py: nitems"]}
{"id": "C05", "title": "apply_slices agrees with normalize_index followed by index_strided", "statement": "For a tuple of ints, slices and None with one item per axis, apply_slices gives the same shape, strides and offset as index_strided applied to the normalized index, and raises iff that raises; shape_strided gives the same shape.", "quantifier": "all index tuples, shapes, strides", "why_tests_cant": "equality of two separately written loops over unbounded inputs.", "anchors": ["gcs/slice_tools.py: apply_slices", "gcs/slice_tools.py: index_strided", "gcs/slice_tools.py: normalize_index", "gcs/slice_tools.py: shape_strided"]}
{"id": "C06", "title": "normalize_index: complete, in range, idempotent, and explicit about errors", "statement": "On success the result has one item per axis, every int item lies in range(size of the axis) and is congruent to the given int modulo the size (so out-of-range ints wrap around and do not raise), axes not mentioned are full, and normalizing again changes nothing. It raises exactly when an int meets an axis of size 0, an int or slice has no axis, or an item is of another type.", "quantifier": "all indices and shapes", "why_tests_cant": "ranges over all indices and shapes, and the error side is a characterisation (exactly when).", "anchors": ["gcs/slice_tools.py: normalize_index"]}
{"id": "C07", "title": "Slicing a slice is slicing once with composed selections", "statement": "Applying index_strided to the shape and strides of a first slice and adding the offsets addresses, for each result index, the element reached by selecting twice; hence any chain of slices of a strided array addresses the right elements.", "quantifier": "all chains of slices of any length, shapes, strides", "why_tests_cant": "chains of operations of unbounded length.", "anchors": ["gcs/slice_tools.py: index_strided", "gcs/storage.py: Strided.get_slice"]}
{"id": "C08", "title": "extgcd computes a Bezout identity for the gcd", "statement": "For all integers a, b: extgcd(a, b) = (g, x, y) terminates with g = a*x + b*y, |g| = gcd(a, b), and g has the sign of a when a is not 0.", "quantifier": "all pairs of integers of any sign and size", "why_tests_cant": "recursion of unbounded depth over unbounded integers.", "anchors": ["gcs/slice_tools.py: extgcd"]}
{"id": "C09", "title": "diophantine returns the complete set of solutions", "statement": "For a non-empty tuple a: when diophantine(a, c) returns (x0, zs), the integer vectors x with sum(a[i]*x[i]) = c are exactly the vectors x0 + sum(t[j]*zs[j]) with integers t, and different t give different x.", "quantifier": "all non-empty coefficient tuples of any length for which the call returns, all right-hand sides, all solutions", "why_tests_cant": "completeness quantifies over an infinite set of solutions for each input.", "anchors": ["gcs/slice_tools.py: diophantine", "gcs/slice_tools.py: init_diophantine", "gcs/slice_tools.py: _init_diophantine"]}
{"id": "C10", "title": "diophantine says None exactly when there is no solution", "statement": "For non-zero coefficients and at least one of them, diophantine(a, c) returns (None, ()) iff no integer vector x has sum(a[i]*x[i]) = c.", "quantifier": "all non-empty tuples of non-zero integers, all c", "why_tests_cant": "absence of solutions is a statement about infinitely many vectors.", "anchors": ["gcs/slice_tools.py: diophantine"]}
{"id": "C11", "title": "The elimination never fails on non-zero strides", "statement": "For strides and shape of the same length: with two or more axes init_diophantine(strides, shape) returns normally (no ZeroDivisionError, no failing assertion about pivots) exactly when no stride is zero, with fewer axes always; all D are positive.", "quantifier": "all dimensionalities, all non-zero strides of any sign, all shapes", "why_tests_cant": "the asserted pivots are minors of a 2N x 2N matrix for unbounded N and integer entries.", "anchors": ["gcs/slice_tools.py: init_diophantine"]}
{"id": "C12", "title": "solve_index only returns real solutions", "statement": "If solve_index(pos, shape, strides) with at least one axis returns an index, then 0 <= index[i] < shape[i] for every axis and sum(index[i]*strides[i]) = pos; so it returns None for every pos that no index of the box reaches. The sum is what dot(strides, index) computes, for tuples of any lengths.", "quantifier": "all positions, all shapes, all strides for which the call returns", "why_tests_cant": "universal over unbounded integers and dimensions.", "anchors": ["gcs/slice_tools.py: solve_index", "gcs/slice_tools.py: init_diophantine", "gcs/slice_tools.py: dot"]}
{"id": "C13", "title": "solve_index inverts row-major addressing", "statement": "For every shape with positive sizes and every index inside it, solve_index(position of index, shape, make_strides(shape)) returns that index.", "quantifier": "all dimensionalities, shapes, indices", "why_tests_cant": "the search tries only two candidates per unknown (the 'off by 1' comment in the code); that this suffices is a claim about all shapes.", "anchors": ["gcs/slice_tools.py: solve_index", "gcs/storage.py: make_strides", "gcs/storage.py: get_position"]}
{"id": "C14", "title": "solve_index finds every element of every slice of a contiguous array", "statement": "Let strides, offset be those of any slice (ints, slices with any steps, None on each axis) of a C-contiguous array with positive sizes. For every element of the slice, solve_index on its position minus the offset returns its slice index; for every other element of the array it returns None. (At least one axis is kept.)", "quantifier": "all dimensionalities, shapes, slices with arbitrary positive or negative steps, all elements", "why_tests_cant": "the algorithm rounds a rational corner solution and only tries offsets 0 and 1; correctness needs a bound proved for all dimensions, sizes and steps.", "anchors": ["gcs/slice_tools.py: solve_index", "gcs/slice_tools.py: index_strided", "gcs/storage.py: Storage.slice_indices_and_data_position"]}
{"id": "C15", "title": "solve_index with no axes accepts every position", "statement": "solve_index(pos, (), ()) returns () for every pos, not only for pos = 0 (defect: the 0-dimensional equation 0 = pos has a solution only for pos = 0).", "quantifier": "all positions", "why_tests_cant": "universal over integers.", "anchors": ["gcs/slice_tools.py: solve_index", "gcs/slice_tools.py: init_diophantine"]}
{"id": "C16", "title": "A zero stride among two or more makes the solver raise", "statement": "With two or more axes, whenever some stride is 0, init_diophantine(strides, shape) and solve_index(pos, shape, strides) for every pos raise AssertionError or ZeroDivisionError.", "quantifier": "all strides of length at least 2 with a zero item, all shapes, all positions", "why_tests_cant": "a statement about singular matrices of every size.", "anchors": ["gcs/slice_tools.py: init_diophantine", "gcs/storage.py: FlatCOO.indices_and_data_position"]}
{"id": "C17", "title": "compress_indices and uncompress_indices are inverse", "statement": "For every sorted list of row numbers below size, compress_indices succeeds and uncompress_indices of the result gives the list back; for every non-decreasing list that starts with 0 and has size+1 items, compressing its uncompressed form gives it back.", "quantifier": "all sorted lists and sizes", "why_tests_cant": "lists of unbounded length, with gaps, repetitions and empty ends in all combinations.", "anchors": ["gcs/storage.py: compress_indices", "gcs/storage.py: uncompress_indices", "gcs_basics.py: compress_indices"]}
{"id": "C18", "title": "Compressed row pointers count the entries", "statement": "For a sorted list of row numbers below size, item r of compress_indices(rows, size) is the number of entries of rows smaller than r, so rows[c[r]:c[r+1]] are exactly the entries equal to r. A row number above size raises IndexError.", "quantifier": "all sorted lists, sizes, rows", "why_tests_cant": "unbounded lists; a counting statement for each row.", "anchors": ["gcs/storage.py: compress_indices"]}
{"id": "C19", "title": "reduction and promotion of gcs_basics are mutually inverse bijections", "statement": "For every shape, permutation of its axes and partitioning, promotion(md, reduction(md, i)) = i for each index i of the array, reduction(md, promotion(md, r)) = r for each index r of the reduced array, and both land inside the respective box. With at least as many cuts as axes create_reduction_metadata raises AssertionError.", "quantifier": "all shapes, permutations, partitionings, indices", "why_tests_cant": "all permutations and partitions of any number of axes.", "anchors": ["gcs_basics.py: create_reduction_metadata", "gcs_basics.py: reduction", "gcs_basics.py: promotion"]}
{"id": "C20", "title": "reduce_index and promote_index are mutually inverse", "statement": "The same for the functions the DM storage uses, with the groups built by make_reduction and any offsets.", "quantifier": "all shapes, permutations of axes split in groups, offsets, indices", "why_tests_cant": "as C19.", "anchors": ["gcs/storage.py: reduce_index", "gcs/storage.py: promote_index", "gcs/storage.py: make_reduction"]}
{"id": "C21", "title": "Row-major positions are a bijection", "statement": "For every shape, index -> get_position(index, shape, make_strides(shape)) is a bijection from the indices of the box to range(product(shape)), strictly increasing in lexicographic order; iterating the box visits positions 0, 1, 2, ... in order.", "quantifier": "all shapes and indices", "why_tests_cant": "unbounded dimensions and sizes.", "anchors": ["gcs/storage.py: make_strides", "gcs/storage.py: get_position", "gcs/storage.py: product"]}
{"id": "C22", "title": "Binary search in COO indices finds exactly the stored indices", "statement": "On a COO storage whose index columns are strictly increasing in lexicographic order, looking up an index yields the position where it is stored, or nothing iff it is not stored.", "quantifier": "all COO storages with sorted columns, all indices", "why_tests_cant": "searches over arrays of unbounded length.", "anchors": ["gcs/storage.py: get_coo_position"]}
{"id": "C23", "title": "Binary search in FlatCOO indices finds exactly the stored indices", "statement": "The same for FlatCOO with strictly increasing flat indices.", "quantifier": "all FlatCOO storages with sorted indices, all positions", "why_tests_cant": "as C22.", "anchors": ["gcs/storage.py: get_flatcoo_position"]}
{"id": "C24", "title": "Binary search in CSR rows finds exactly the stored indices", "statement": "The same for CSR with strictly increasing column numbers inside each row.", "quantifier": "all well-formed CSR storages, all indices", "why_tests_cant": "as C22, with row windows.", "anchors": ["gcs/storage.py: get_csr_position"]}
{"id": "C25", "title": "A Strided built from a list reads back the list", "statement": "For every rectangular nested list a with at least one axis, Strided.fromobject(a) has the shape of a and s[i, j, ...] is the item of a, with every item equal to the source's unspecified value replaced by the requested one.", "quantifier": "all rectangular nested lists of any depth and size, all indices, all values", "why_tests_cant": "all shapes and contents.", "anchors": ["gcs/storage.py: Strided.fromobject", "gcs/storage.py: Buffer.fromobject", "gcs/storage.py: Storage.__getitem__"]}
{"id": "C26", "title": "A COO built from an array reads back the array", "statement": "COO.fromobject of any array with at least one axis stores exactly the elements different from unspecified, in lexicographic order, and reading any index gives the element of the array, unspecified elements included.", "quantifier": "all arrays, indices, values", "why_tests_cant": "all sparsity patterns of all shapes.", "anchors": ["gcs/storage.py: COO.fromobject", "gcs/storage.py: COO.get_data_position"]}
{"id": "C27", "title": "A FlatCOO built from an array reads back the array", "statement": "The same for FlatCOO (shapes with zero sizes included).", "quantifier": "all rectangular nested lists with at least one axis, indices, values", "why_tests_cant": "as C26.", "anchors": ["gcs/storage.py: FlatCOO.fromobject", "gcs/storage.py: FlatCOO.get_data_position"]}
{"id": "C28", "title": "A CSR built from a matrix reads back the matrix", "statement": "CSR.fromobject of any two-dimensional array with at least one element different from unspecified succeeds, and reading any index gives the element of the array. If all elements are unspecified it raises IndexError (defect).", "quantifier": "all matrices, indices, values", "why_tests_cant": "all sparsity patterns of all matrix sizes.", "anchors": ["gcs/storage.py: CSR.fromobject", "gcs/storage.py: CSR.get_data_position", "gcs/storage.py: Buffer.__getitem__"]}
{"id": "C29", "title": "A DM built from an array reads back the array", "statement": "DM.fromobject with any permutation of the axes, any partitioning and Strided, COO or FlatCOO (or Buffer for one group, CSR for two groups) as wrapped storage reads back every element of the source; the wrapped storage has one axis for each group of axes, of the product of their sizes.", "quantifier": "all arrays, permutations, partitionings, storage classes, indices", "why_tests_cant": "all permutations, partitions and patterns.", "anchors": ["gcs/storage.py: DM.fromobject", "gcs/storage.py: DM.get_data_position"]}
{"id": "C30", "title": "Conversions preserve the array", "statement": "For a well-formed storage of any class with positive sizes, converting it to Strided, COO, FlatCOO or DM (and to CSR when two-dimensional with a specified element) gives an array of the same shape with the same element at every index; so does any chain of conversions.", "quantifier": "all storages, all chains of conversions, all indices", "why_tests_cant": "chains of unbounded length over all patterns and shapes.", "anchors": ["gcs/storage.py: Storage.as_Strided", "gcs/storage.py: Storage.as_COO", "gcs/storage.py: Storage.as_FlatCOO", "gcs/storage.py: Storage.as_CSR", "gcs/storage.py: Storage.as_DM"]}
{"id": "C31", "title": "Slicing a Strided reads the selected elements", "statement": "For a well-formed Strided with positive sizes, s[index] with any mix of ints, slices and None is an array of the shape of the Python selection whose element at j is the element of s selected for j; with ints on all axes it is that element. The result is again well-formed, so this holds for chains.", "quantifier": "all well-formed Strided storages, all indices, all chains", "why_tests_cant": "all shapes, steps and chains of slices.", "anchors": ["gcs/storage.py: Strided.get_slice", "gcs/storage.py: Storage.__getitem__"]}
{"id": "C32", "title": "Slicing a COO reads the selected elements", "statement": "The same for COO: the slice stores exactly the stored elements inside the selection, sorted, and reads unspecified elsewhere.", "quantifier": "all well-formed COO storages with positive sizes, all indices that keep an axis, all chains", "why_tests_cant": "all patterns, shapes, steps.", "anchors": ["gcs/storage.py: COO.get_slice", "gcs/storage.py: Storage.slice_indices_and_data_position"]}
{"id": "C33", "title": "Slicing a FlatCOO reads the selected elements", "statement": "The same for FlatCOO; the stored elements of the slice are those of the selection when the selection has no empty axis (otherwise elements() of the result can raise, but there is nothing to read).", "quantifier": "all well-formed FlatCOO storages with positive sizes, all indices that keep an axis, all chains", "why_tests_cant": "as C32.", "anchors": ["gcs/storage.py: FlatCOO.get_slice"]}
{"id": "C34", "title": "Slicing a CSR reads the selected elements", "statement": "The same for CSR; a slice that keeps both axes is a CSR, a slice that keeps one is a COO.", "quantifier": "all well-formed CSR storages with positive sizes and at least one stored element where needed, all indices", "why_tests_cant": "as C32.", "anchors": ["gcs/storage.py: CSR.get_slice"]}
{"id": "C35", "title": "Slicing a DM reads the selected elements", "statement": "Slicing a DM whose offsets are zero gives a DM whose element at j is the selected element of the original.", "quantifier": "all well-formed DM storages with zero offsets and without axes of size 0, all indices", "why_tests_cant": "all permutations, partitions, patterns, steps.", "anchors": ["gcs/storage.py: DM.__getitem__"]}
{"id": "C36", "title": "Slicing a slice of a DM can read the wrong element", "statement": "When a DM that is itself a slice with a non-zero offset is indexed so that a whole group of axes is fixed, the offset of that group is dropped: s[1:][0] reads row 0 of s where row 1 is selected (defect).", "quantifier": "all two-axis DM storages with at least one column over a well-formed storage of the same shape that is no DM (a Strided, say), all starts and rows inside", "why_tests_cant": "the defect shows only in chains of operations, for all arrays whose rows differ.", "anchors": ["gcs/storage.py: DM.__getitem__"]}
{"id": "C37", "title": "Assigning to a Strided writes exactly the selected elements", "statement": "s[index] = value on a well-formed Strided with distinct addresses and without axes of size 0 sets, for each index j of the selection, the selected element to value[j], and leaves every other element of s and every other cell of the shared list unchanged.", "quantifier": "all such Strided storages, all indices, all values with an item for every selected index (for a storage object as value: of the shape of the selection, which has an axis)", "why_tests_cant": "frame condition over all cells for all shapes and steps.", "anchors": ["gcs/storage.py: Storage.__setitem__", "gcs/storage.py: Strided.slice_indices_and_data_position"]}
{"id": "C38", "title": "Assigning to a slice of a sparse storage updates the stored elements inside it only", "statement": "For COO, FlatCOO and CSR and an index that keeps an axis, s[index] = value sets each stored element inside the selection to the corresponding item of value and changes nothing else; elements that are not stored stay unspecified, i.e. the assignment to them is silently dropped.", "quantifier": "all well-formed sparse storages with positive sizes, all indices that keep an axis, all values of the right shape", "why_tests_cant": "all patterns, shapes, steps; frame condition.", "anchors": ["gcs/storage.py: Storage.__setitem__", "gcs/storage.py: Storage.slice_indices_and_data_position"]}
{"id": "C39", "title": "Assigning one element of a sparse storage overwrites all stored elements", "statement": "For COO, FlatCOO and CSR, s[i, j, ...] = v with ints on all axes sets every stored element to v, whatever the index (defect; the intended behaviour holds for Strided by C37).", "quantifier": "all well-formed sparse storages with positive sizes, all element indices, all values", "why_tests_cant": "universal over storages.", "anchors": ["gcs/storage.py: Storage.__setitem__", "gcs/slice_tools.py: solve_index"]}
{"id": "C40", "title": "Slices of Strided and Buffer are views", "statement": "After slicing a Strided, an assignment through the slice is seen at the corresponding index of the original, and an assignment through the original is seen in the slice.", "quantifier": "all well-formed Strided storages without an axis of size 0 (see C72 for those; for the two claims about assignments: with different addresses for different elements), all slices that keep an axis, all assignments of values with an item for every index they select (through the slice: if it has no axis of size 0)", "why_tests_cant": "aliasing over all shapes, steps and interleavings.", "anchors": ["gcs/storage.py: Strided.get_slice", "gcs/storage.py: Buffer.__getitem__"]}
{"id": "C41", "title": "Slices of COO, FlatCOO and CSR and all copies are independent", "statement": "Assigning to a slice of a sparse storage, or to copy() of any storage, or to the result of a conversion that makes a new object, never changes any element of the original, and vice versa, after any sequence of operations on the two.", "quantifier": "all storages, all sequences of operations", "why_tests_cant": "histories of unbounded length.", "anchors": ["gcs/storage.py: COO.get_slice", "gcs/storage.py: FlatCOO.get_slice", "gcs/storage.py: CSR.get_slice", "gcs/storage.py: Storage.copy"]}
{"id": "C42", "title": "copy() has the same elements", "statement": "s.copy() has the class, shape and elements of s; s.copy(unspecified=u) has u wherever s has its unspecified value and the element of s elsewhere.", "quantifier": "all well-formed storages of every class, all u", "why_tests_cant": "all shapes, views and patterns.", "anchors": ["gcs/storage.py: Storage.copy", "gcs/storage.py: Buffer.copy", "gcs/storage.py: Strided.copy"]}
{"id": "C43", "title": "Converting with a new unspecified value", "statement": "as_X(unspecified=u) reads u at every index where the source reads its unspecified value and the element of the source elsewhere.", "quantifier": "all well-formed storages with at least one axis, u, indices, and all classes that can hold the result: Buffer with one axis, CSR with two axes and an element different from both unspecified values, COO from a FlatCOO without u only without axes of size 0", "why_tests_cant": "all patterns and values, including u that occurs among the elements.", "anchors": ["gcs/storage.py: Strided.fromobject", "gcs/storage.py: COO.fromobject", "gcs/storage.py: FlatCOO.fromobject"]}
{"id": "C44", "title": "elements() enumerates each stored index once", "statement": "For well-formed storages other than Buffers (whose keys are ints) elements() yields no index twice, in strictly increasing lexicographic order, each with the value that reading that index gives; for Strided and DM it yields every index of the box, for the sparse classes exactly the stored ones.", "quantifier": "all well-formed storages; a FlatCOO without axes of size 0 (with one, elements() raises, see C72)", "why_tests_cant": "all shapes and patterns.", "anchors": ["gcs/storage.py: Storage.elements", "gcs/storage.py: COO.indices_and_data_position", "gcs/storage.py: FlatCOO.indices_and_data_position", "gcs/storage.py: CSR.indices_and_data_position"]}
{"id": "C45", "title": "equal is an equivalence that compares the enumerated elements", "statement": "When both enumerations succeed, s.equal(t) is True iff the two dictionaries of elements have the same keys and values; it is reflexive, symmetric and transitive. Two well-formed storages other than Buffers are equal iff they have places for the same indices and the same values there. For storages of the same shape this is equality of all reads if both are dense, or if both are sparse with the same unspecified value and no stored element equal to it.", "quantifier": "all pairs and triples of storages; for the claims about places a FlatCOO has no axis of size 0, for the claim about reads no storage has one", "why_tests_cant": "equivalence over all storages.", "anchors": ["gcs/storage.py: Storage.equal"]}
{"id": "C46", "title": "is_full tells whether every element is stored", "statement": "For Strided, COO, FlatCOO and CSR objects, is_full() is True iff every index of the box is stored. A DM made by fromobject is full iff the storage it wraps is: always over Buffer, Strided and DM, over a sparse class iff every index of the wrapped storage is stored. Defect: the slice s[a:] of a DM with two axes over a Strided has all elements stored but is not full, since its size is that of s.", "quantifier": "all well-formed Strided, COO, FlatCOO, CSR storages; all DM.fromobject calls that return; all such DM slices", "why_tests_cant": "all patterns.", "anchors": ["gcs/storage.py: Storage.is_full"]}
{"id": "C47", "title": "Buffer slices share the list and stay inside it", "statement": "Buffer.__getitem__ with a slice raises IndexError if the bounds, counted from the offset, are outside the list. Otherwise, with step 1, the window of the result lies inside the list, has the length of the range, and reads of the result at i equal reads of the original at start+i; a step other than 1 that selects something from a list of at least two cells raises IndexError.", "quantifier": "all buffers and slices", "why_tests_cant": "all integer bounds of any sign.", "anchors": ["gcs/storage.py: Buffer.__getitem__", "gcs/storage.py: Buffer.__init__"]}
{"id": "C48", "title": "An assignment that raises leaves a prefix of the writes", "statement": "If s[index] = value raises because an item of value is missing, exactly the elements enumerated before the missing one have been written: the assignment is not atomic.", "quantifier": "all well-formed Strided storages without an axis of size 0 and with different addresses for different elements, all valid indices, all partially defined values", "why_tests_cant": "all failure points.", "anchors": ["gcs/storage.py: Storage.__setitem__"]}
{"id": "C49", "title": "Well-formedness is kept by every history of operations", "statement": "Starting from storages built by fromobject from arrays with positive sizes, after any sequence of slicing, conversion, copy and assignment every storage object reached is well-formed: reads inside its box never raise, its stored indices are sorted, distinct and inside the box.", "quantifier": "all sequences of operations of any length on any number of objects", "why_tests_cant": "histories of unbounded length.", "anchors": ["gcs/storage.py: Storage", "gcs/storage.py: Strided", "gcs/storage.py: COO", "gcs/storage.py: FlatCOO", "gcs/storage.py: CSR"]}
{"id": "C50", "title": "Conversions back and forth give an equal object", "statement": "COO -> FlatCOO -> COO, FlatCOO -> COO -> FlatCOO, COO -> CSR -> COO and COO -> Strided -> COO give an object equal (==) to the first for well-formed storages with positive sizes whose index arrays are stored without gaps, as fromobject, slicing and the conversions make them (== also compares strides); through CSR and Strided, when no stored value is the unspecified value, and through CSR, when an element is stored (as_CSR() raises otherwise).", "quantifier": "all well-formed storages with at least one axis that meet these conditions", "why_tests_cant": "all patterns.", "anchors": ["gcs/storage.py: Storage.__eq__", "gcs/storage.py: COO.fromobject", "gcs/storage.py: FlatCOO.fromobject", "gcs/storage.py: CSR.fromobject"]}
{"id": "C51", "title": "solve_index misses almost all elements of a column-major array", "statement": "For the column-major layout of an n by m array (strides (1, n)) positions determine indices, yet solve_index(position of (i, j), (n, m), (1, n)) returns (i, j) only for the last column j = m-1 and None for every other element (defect: the search starts from the last corner and tries only two candidates per unknown).", "quantifier": "all n, m, all indices (i, j)", "why_tests_cant": "a family of counterexamples of unbounded size; the tests of the library only use row-major strides.", "anchors": ["gcs/slice_tools.py: solve_index", "gcs/slice_tools.py: init_diophantine"]}
{"id": "C52", "title": "== is an equivalence that implies equal elements, except for reversed slices", "statement": "== between storage objects is reflexive, symmetric and transitive. Objects that are == have the same class, shape, unspecified value, stored indices and elements (and are equal by `equal`), provided no element of a Strided lies before the start of its buffer window; for FlatCOO and CSR the converse holds as well. A copy of a Buffer, COO, FlatCOO or CSR is == to the original; a copy of a Strided is iff the original is contiguous and fills its window. Defect: a slice with a negative step starts at its last element in the list and its window does not cover the others, so s[::-1] == t[::-1] compares the last elements of s and t only.", "quantifier": "all well-formed storage objects of all classes; for the link to `equal`: no Buffers, and no FlatCOO with an axis of size 0; for the defect all lengths n and all contents", "why_tests_cant": "all objects, unbounded sizes and contents; the tests compare few objects and no reversed slices that differ.", "anchors": ["gcs/storage.py: Storage.__eq__", "gcs/storage.py: Buffer.__eq__", "gcs/storage.py: Storage.copy", "gcs/storage.py: Strided.copy", "gcs/storage.py: Strided.__getitem__"]}
{"id": "C53", "title": "Assignments to a DM write its elements over a dense storage, smear over a sparse one", "statement": "For a DM over a Buffer or a Strided whose elements are in different cells (true of every DM made by fromobject), s[index] = value with an index that keeps an axis and a value with an item for every selected index succeeds; afterwards the selected elements of s are the items of the value, the other elements of s and all other cells of the list are unchanged. Defects: with an int on every axis the assignment sets all elements of the DM to the value; for a DM over a COO, FlatCOO or CSR every stored element of the wrapped storage gets the item of the last selected element.", "quantifier": "all well-formed DMs without axes of size 0, of any shape and axis grouping, all indices, all values", "why_tests_cant": "unbounded shapes, groupings, indices and values; the tests do not assign to a DM over a sparse storage.", "anchors": ["gcs/storage.py: Storage.__setitem__", "gcs/storage.py: DM.get_data_position", "gcs/storage.py: Storage.slice_indices_and_data_position", "gcs/storage.py: DM.fromobject"]}
{"id": "C54", "title": "equal(list) compares with the items of the list, and never holds for a sparse storage with a gap", "statement": "For a storage s that is no Buffer and a rectangular list, s.equal(list) is True iff s has places exactly for the indices of the list and the element at each is the item, with s.unspecified for None. So a Strided or DM of the shape of the list is equal to it iff all elements are the items. Defect: a COO, FlatCOO or CSR that does not store all elements is equal to no list of its shape, not even to the list it was made from. Buffer.equal(list) compares the items in row-major order and ignores the shape of the list.", "quantifier": "all well-formed storages (a FlatCOO without axes of size 0, and for the defect no storage with one), all rectangular nested lists with at least one axis", "why_tests_cant": "unbounded shapes and contents, every class.", "anchors": ["gcs/storage.py: Storage.equal", "gcs/storage.py: Strided.fromobject", "gcs/storage.py: Buffer.fromobject"]}
{"id": "C55", "title": "A conversion to the own class returns the object itself", "statement": "as_Buffer, as_Strided, as_COO and as_FlatCOO of an object of that class, without an unspecified value, return the object itself: after any further statements of the program, whichever of the two names they use, both names have the same shape and the same elements. (as_CSR, as_DM and conversions with unspecified make independent objects: C41.)", "quantifier": "all states of a program, all later statements", "why_tests_cant": "all programs of any length.", "anchors": ["gcs/storage.py: Storage.as_Strided", "gcs/storage.py: Buffer.fromobject", "gcs/storage.py: Strided.fromobject", "gcs/storage.py: COO.fromobject", "gcs/storage.py: FlatCOO.fromobject"]}
{"id": "C56", "title": "Assigning a slice of an object to the object reads while it writes", "statement": "For a Strided with distinct addresses, o[index2] = o[index1] gives the selected elements the old elements of the other selection and changes nothing else, provided that no element is read after it was written in row-major order. So o[:-d] = o[d:] shifts a one-dimensional array of n elements by d. Defect: o[d:] = o[:-d] does not shift, it repeats the first d elements: afterwards o[i] is the old o[i mod d].", "quantifier": "all well-formed Strided storages without axes of size 0, indices of the same shape that keep an axis, contents; for the shifts all n and 1 <= d <= n", "why_tests_cant": "unbounded sizes and shifts; the tests assign no overlapping slices.", "anchors": ["gcs/storage.py: Storage.__setitem__", "gcs/storage.py: get_value", "gcs/storage.py: Strided.__getitem__"]}
{"id": "C57", "title": "A scalar is not broadcast over a slice", "statement": "s[index] = v with a scalar v and an index that keeps an axis raises AssertionError and writes nothing when a selected element has a place in s; when none has (and s is no Buffer) the statement does nothing. So no scalar is ever written to a slice.", "quantifier": "all well-formed storages of every class without empty axes, all valid indices keeping an axis, all scalars", "why_tests_cant": "unbounded shapes, indices and classes.", "anchors": ["gcs/storage.py: Storage.__setitem__", "gcs/storage.py: get_value", "gcs/storage.py: Buffer.__setitem__"]}
{"id": "C58", "title": "An assigned storage of another shape is repeated", "statement": "The shape of a storage t assigned to a slice is not compared with the shape of the slice. When t has the same number of axes and is no Buffer, s[index] = t writes t[j0 mod n0, j1 mod n1, ...] at the element (j0, j1, ...) of the slice, where n0, n1, ... is the shape of t, and changes nothing else.", "quantifier": "all Strided s with distinct addresses, valid indices keeping an axis, well-formed t of any class but Buffer, no empty axes", "why_tests_cant": "unbounded shapes and contents; the tests only assign values of the same shape.", "anchors": ["gcs/storage.py: Storage.__setitem__", "gcs/storage.py: get_value", "gcs/slice_tools.py: normalize_index"]}
{"id": "C59", "title": "Lists that are not rectangular", "statement": "The shape of a nested list is taken from the first items only. If the list has an item at every index of that box, fromobject of every class makes an object of that shape with these items, and drops all others silently. If the list has nothing at some index of the box, fromobject of every class raises.", "quantifier": "all nested lists of any depth and sizes, all classes, all unspecified values", "why_tests_cant": "unbounded depth and sizes.", "anchors": ["gcs/storage.py: get_shape", "gcs/storage.py: get_value", "gcs/storage.py: Buffer.fromobject", "gcs/storage.py: DM.fromobject"]}
{"id": "C60", "title": "Loops over storages and the in operator", "statement": "The storage classes but Buffer have no __iter__, and none has __contains__, so for x in s and v in s use s[0], s[1], ... until IndexError; __len__ is not consulted. For every class but Buffer an int index is taken modulo the size of the axis, so the loop never ends: the i-th item is the element or the row i mod n. With an empty first axis it raises ZeroDivisionError. Without axes it ends at once, and v in s is false for every v, also for the one element. len(s) is the size of the first axis. The operator v in s is true if some element of a 1-dimensional s is v, does not return if none is, and never returns for more axes. A loop over a Buffer yields the items of its window once, and v in buffer is true if and only if v is one of them.", "quantifier": "all well-formed storages of all classes (no reversed slices of DM), all shapes and values, any number of steps of the loop", "why_tests_cant": "the statement is about an endless loop and all numbers of steps.", "anchors": ["gcs/storage.py: Storage.__getitem__", "gcs/storage.py: Buffer.__getitem__", "gcs/slice_tools.py: normalize_index"]}
{"id": "C61", "title": "Indices of slices and positions", "statement": "For a slice of a C-contiguous array, get_index_slice maps every index of the slice to the index of the array that it selects, get_slice_index maps it back, and gives None for indices that the slice does not select. promote_index with an int inverts the row-major position of one group of axes, with any offset; with any other number of groups it is an AssertionError. slice_indices_and_data_position with sort=True yields every index of the slice in increasing order and finds a data position exactly for the pairs that the branch without sorting yields. get_index ignores its offset: get_index(offset + position, shape, strides, offset) gives the index only for offset 0.", "quantifier": "all shapes without empty axes, all valid indices keeping an axis, all permutations of axes, all well-formed COO, FlatCOO, CSR", "why_tests_cant": "unbounded shapes and slices; sort=True and the int branch are not used by the tests.", "anchors": ["gcs/storage.py: get_index", "gcs/storage.py: get_slice_index", "gcs/storage.py: get_index_slice", "gcs/storage.py: promote_index", "gcs/storage.py: Storage.slice_indices_and_data_position"]}
{"id": "C62", "title": "Objects made by calling the constructors", "statement": "COO(shape, indices, data), FlatCOO(shape, findices, data) and CSR(shape, crow, col, data) with indices in strictly increasing order inside the shape give the array with the given values at the given indices and the unspecified value elsewhere, and elements() yields exactly the given pairs. Strided(shape, strides, data) with strides whose addresses stay inside the window reads the cell at that address. The order of the indices is not checked: COO takes them in any order, elements() yields them all, a read gives a value given for this index or the unspecified value; with two indices in decreasing order the smaller one always reads as unspecified.", "quantifier": "all shapes with at least one axis, all index lists, all values", "why_tests_cant": "unbounded index lists; the tests make sparse objects only by fromobject.", "anchors": ["gcs/storage.py: COO.__init__", "gcs/storage.py: FlatCOO.__init__", "gcs/storage.py: CSR.__init__", "gcs/storage.py: Strided.__init__", "gcs/storage.py: get_coo_position"]}
{"id": "C63", "title": "Cost of reading an element of a sparse array", "statement": "Reading one element of a COO with n stored elements and d axes looks at no more than d times as many items of the indices as n has binary digits; of a FlatCOO at no more items of findices than n has binary digits; of a CSR with m columns at two row pointers and at no more column indices than m has binary digits. Whatever the other items of the index lists are, the element read is the same.", "quantifier": "all well-formed COO, FlatCOO, CSR of any shape and number of stored elements, all indices in range, all contents of the items not looked at", "why_tests_cant": "the bound is for every number of stored elements; tests see results, not the number of reads.", "anchors": ["gcs/storage.py: get_coo_position", "gcs/storage.py: get_flatcoo_position", "gcs/storage.py: get_csr_position"]}
{"id": "C64", "title": "Search and writes of an assignment", "statement": "s[index] = value goes through generators, so the search for the positions to write and the writes alternate. For every well-formed object the outcome (the contents of the list and the exception, if any) is the same as if all positions were found before the first write: the search never raises after a write. If the value of every selected element can be read, an assignment that raises has written nothing.", "quantifier": "all well-formed storages of all classes, DM over any of them, all indices (also refused ones for the first part), all values", "why_tests_cant": "unbounded shapes; no test makes an assignment raise.", "anchors": ["gcs/storage.py: Storage.__setitem__", "gcs/storage.py: Storage.slice_indices_and_data_position", "gcs/storage.py: COO.indices_and_data_position", "gcs/storage.py: FlatCOO.indices_and_data_position", "gcs/storage.py: CSR.indices_and_data_position", "gcs/storage.py: DM.indices_and_data_position"]}
{"id": "C65", "title": "Version of a work tree", "statement": "In a work tree of git with keywords not expanded: if git describe prints vTAG-N-gHEX[-dirty] (TAG nonempty, of any characters but line breaks, also hyphens and digits; N a number; HEX hexadecimal), then get_versions() returns the version TAG if N = 0 and the tree is clean, and otherwise TAG+N.gHEX[.dirty] (a dot instead of the plus if TAG has a plus), the full commit, the state, no error and the ISO date. Trees with the same version have the same tag, distance and state and, unless both are clean tagged trees, the same commit, provided the tags have no plus sign. The style git-describe-long gives the output of git describe without the prefix. Without tags the version is 0+untagged.COUNT.gHEX[.dirty]; so it is also (with the distance) if the tag is v alone, even at the tagged commit. If git counts the commits and shows the date, get_versions() does not raise, whatever the other output is. If git does not show the date of a tagged tree, get_versions() raises AttributeError and does not go on to the other methods. If git does not count the commits of a tree without tags, it raises TypeError, and ValueError if what is printed for the count has a letter. A line break before -dirty in the output of git describe changes nothing.", "quantifier": "all tags, distances, commits, dates, states of the tree; for the last part all outputs of git and all keywords", "why_tests_cant": "no test; texts are unbounded and tags may contain anything, also parts that look like the rest of the output.", "anchors": ["gcs/_version.py: git_pieces_from_vcs", "gcs/_version.py: render_pep440", "gcs/_version.py: render_git_describe_long", "gcs/_version.py: plus_or_dot", "gcs/_version.py: render", "gcs/_version.py: get_versions"]}
{"id": "C66", "title": "Version of an archive", "statement": "In an archive made by git archive, with the references of the commit expanded to (a, b, ...): if there is a tag that starts with v, get_versions() returns the full commit, no error and as version the rest of such a tag, the smallest one in the order of texts (so 0.10 rather than 0.9). If there are tags but none starts with v, the version is 0+unknown with an error. If there are no tags, a branch that starts with v and has a digit in the rest of its name is taken for a tag, again the smallest one.", "quantifier": "all lists of references (tags, branches, HEAD -> branch) with names without white space, commas, parentheses and digits other than 0 to 9", "why_tests_cant": "no test; any number of references in any order.", "anchors": ["gcs/_version.py: git_versions_from_keywords", "gcs/_version.py: get_versions"]}
{"id": "C67", "title": "Text of arrays", "statement": "str of a one-dimensional Strided lists the texts of its elements s[0], s[1], ... in order between brackets (if longer than 100 characters: the first 40, five dots, the last 40); str of a two-dimensional Strided with at least one column has one such line for each row. If the rows have no columns (and the list is empty, as fromobject makes it), str raises IndexError. repr of a Buffer shows size, offset, the items of the buffer (shortened in the same way) and the unspecified value, with a dot for each item and a star for each ten items of the list before and after the buffer; two buffers with the same repr agree in size, offset, length of the list, texts of the items and of the unspecified value, if the text of the items is not shortened and texts of values have no comma and brackets. Two Strideds with the same repr have the same shape, the same strides and the same repr of their buffers. show(A) prints a matrix as large as the largest indices demand, in columns of equal width, one wider than the longest number, numbers at the right, a hyphen where A has no entry.", "quantifier": "all Strideds (also views with any strides), buffers, shapes, values with any texts; for show all nonempty dictionaries of ints", "why_tests_cant": "no test; sizes, numbers of hidden items and texts of values are unbounded.", "anchors": ["gcs/storage.py: Storage.__str__", "gcs/storage.py: Storage.__repr__", "gcs/storage.py: Buffer.__repr__", "gcs/slice_tools.py: show"]}
{"id": "C68", "title": "Lists and storages as elements", "statement": "Where no list and no storage object becomes an element, constructions and assignments are as in the other properties. s[i, j] = x with an int on every axis stores x itself, whatever it is: a list or a storage object becomes the element (in a Strided with distinct addresses: this element reads x, all others are as before). fromobject of a list that has something at every index of the shape of its first items reads the item or the list at each index: a list nested deeper than the first items becomes an element. fromobject raises if the list has nothing at some index of that shape. In the same way s[index] = x with a slice on a Strided with distinct addresses: a list nested deeper than the selection gives lists as elements, a Strided, COO, FlatCOO or CSR with more axes than the selection gives its parts x[i], x[i, j], ... (of the remaining shape, with the elements of x) as elements, and a list with nothing at some index of the selection raises. Converting an array without axes to Strided or FlatCOO does not read its element: the new array has the old array as its element.", "quantifier": "all values, all embeddings of lists and storages in the values, all classes, nested lists of any depth, indices, memories; for the assignments to a Strided and the parts of a storage no axis of size 0", "why_tests_cant": "depth and raggedness of lists are unbounded; no test assigns a list or a storage to one element.", "anchors": ["gcs/storage.py: get_value", "gcs/storage.py: Storage.__setitem__", "gcs/storage.py: Buffer.__setitem__", "gcs/storage.py: fromobject of each class"]}
{"id": "C69", "title": "Arrays without axes", "statement": "Strided.fromobject(v) and FlatCOO.fromobject(v) of a scalar v have the empty shape and read v at s[()] (the unspecified value for None); elements() yields one pair with the empty index, except for a FlatCOO of the unspecified value, which has none and is not full. Buffer.fromobject(v) has shape (1,). COO.fromobject(v) and CSR.fromobject(v) raise IndexError, DM.fromobject(v, ...) AssertionError whatever the other arguments. On an array without axes s[None] and s[None, ..., None] are s[()]; an int or a slice raises IndexError, also in a tuple after any number of None. s[()] = w makes s[()] read w for a Strided and for a FlatCOO that has its element; a FlatCOO without it keeps the unspecified value.", "quantifier": "all values, all unspecified values, all indices, all well-formed arrays with empty shape", "why_tests_cant": "no test has an array without axes.", "anchors": ["gcs/storage.py: get_shape", "gcs/storage.py: fromobject of each class", "gcs/slice_tools.py: normalize_index", "gcs/storage.py: is_element_index"]}
{"id": "C70", "title": "Pipelines of operations", "statement": "A pipeline is any number of indexings s[i], conversions s.as_X(unspecified=u) and copies s.copy(unspecified=u), one after the other. A valid pipeline (valid indices that keep an axis, no empty axis, no slice with an int of a slice of a DM, CSR only of two axes and with an element to store, no conversion to Buffer) raises nothing, and its result has the shape, the unspecified value and the elements that the same operations give on a plain array. Two objects of any two classes with the same shape, unspecified value and elements stay equal in all three through every such pipeline.", "quantifier": "all pipelines of any length, all well-formed objects of all classes but Buffer, all indices, all unspecified values", "why_tests_cant": "pipelines are unbounded in length and in the order of classes; the tests combine at most two steps.", "anchors": ["gcs/storage.py: Storage.__getitem__", "gcs/storage.py: as_Strided, as_COO, as_FlatCOO, as_CSR, as_DM", "gcs/storage.py: Storage.copy", "gcs/storage.py: get_slice of each class"]}
{"id": "C71", "title": "The class C2SR", "statement": "C2SR(...) accepts its arguments exactly when the shape has two axes and there is one row length and one row pointer for each row; nothing is asked of the items. The class is not usable as an array: no index reads anything and no assignment writes anything (NotImplementedError for indices that are fine for the other classes, and the list of values is unchanged), the elements cannot be listed, compared with equal or looped over, and an object with a row and a column cannot be converted to any class; without rows or without columns the conversions give arrays without elements (to CSR: IndexError). copy() and == do work: a copy has a list of its own with the unspecified values replaced and is equal to the original, and two objects are == exactly when shape, channels, the items of the four buffers and their unspecified values are the same. Its size is the number of values, len its number of rows, and is_full() says whether there are as many values as places.", "quantifier": "all shapes (which error an index, an assignment or a loop gives: shapes without axes of size 0), buffers, index arrays, indices, values and classes", "why_tests_cant": "no test makes a C2SR; that every index and every conversion fails cannot be shown by examples.", "anchors": ["gcs/storage.py: C2SR", "gcs/storage.py: Storage.get_data_position, get_slice, entries", "gcs/storage.py: Storage.copy, Storage.__eq__"]}
{"id": "C72", "title": "Arrays with an empty axis", "statement": "Arrays with an axis of size 0 can be made but hardly used. On every class but Buffer an int on an empty axis raises ZeroDivisionError, and so does a slice (a[:], a[0:0]) on every class but Buffer and DM; assignments with an int or a slice on an empty axis raise ZeroDivisionError and write nothing. An index that keeps the empty axes whole gives an array without elements of the expected shape for COO, FlatCOO and CSR, except that it raises exactly when a kept axis comes before an empty one (COO, CSR) or an axis after the first is empty (FlatCOO); the corresponding assignments write nothing and raise in the same cases. No index reads from a Strided over an empty list. elements() is empty, but of a FlatCOO it raises exactly when an axis after the first is empty; so does the default conversion of FlatCOO to COO, and conversions to CSR always raise. equal() of two arrays with an empty axis is True whatever their shapes.", "quantifier": "all shapes with an empty axis anywhere, all indices, all values, all classes as named", "why_tests_cant": "no test has an empty axis; which error is raised depends on the positions of the empty axes and of the kept axes for any number of axes.", "anchors": ["gcs/slice_tools.py: normalize_index", "gcs/slice_tools.py: index_strided", "gcs/storage.py: Storage.slice_indices_and_data_position", "gcs/storage.py: FlatCOO.indices_and_data_position", "gcs/storage.py: COO.fromobject, CSR.fromobject", "gcs/storage.py: Storage.equal"]}
{"id": "C73", "title": "Programs and a machine of arrays", "statement": "A whole program is explained by a machine that has no lists, buffers, strides and index arrays: it has arrays (functions from indices to values, with no place at some indices of COO, FlatCOO and CSR) and objects, each a view of one array given by a map of indices. fromobject, copy and most conversions make a new array; slices of Strided and DM and conversions to the own class make a new view; slices of COO, FlatCOO and CSR make a new array with the selected places; assignments write the places of the selected indices, one after the other in lexicographic order, reading the value at that time. After any program whose statements meet the machine's conditions the heap has exactly the machine's objects, each with the class, shape, unspecified value and all elements that the machine has, and each statement gives the program what the machine gives (an element or nothing); none raises.", "quantifier": "all programs of fromobject, DM.fromobject, indexing, conversions, copies and assignments, of any length, whose statements meet the conditions (no Buffer objects, DM around Strided or Buffer only, no empty axes, no slice with an int of a slice of a DM, no assignment from a view of the same array but for Strided)", "why_tests_cant": "tests run single operations; the interplay of any number of views, copies and writes is not covered by any finite number of programs.", "anchors": ["gcs/storage.py: Storage.__getitem__, __setitem__", "gcs/storage.py: fromobject of all classes", "gcs/storage.py: Storage.copy, as_Strided, as_COO, as_FlatCOO, as_CSR, as_DM"]}
{"id": "C74", "title": "Programs do not see the layout of a DM", "statement": "If in a program that meets the conditions of C73 all dimensions, partitioning and storage_class arguments of DM.fromobject and as_DM are left out, the program behaves the same: the same objects with the same shapes and elements, and the same outcome of every statement.", "quantifier": "all programs that meet the conditions of C73", "why_tests_cant": "it compares two runs of an arbitrary program for arbitrary permutations and partitionings.", "anchors": ["gcs/storage.py: DM.fromobject", "gcs/storage.py: Storage.as_DM", "gcs/storage.py: DM.get_data_position, DM.get_slice"]}
{"id": "C75", "title": "Programs without assignments do not see the storage classes", "statement": "If in a program without assignments that meets the conditions of C73 every class is replaced by Strided (X.fromobject and as_X for COO, FlatCOO, CSR and DM), the program behaves the same: the same number of objects, the same shapes and elements, and the same outcome of every statement, although the objects share lists differently and have other elements stored.", "quantifier": "all programs of fromobject, DM.fromobject, indexing, conversions and copies that meet the conditions of C73", "why_tests_cant": "it compares two runs of an arbitrary program of any length over all classes.", "anchors": ["gcs/storage.py: fromobject of all classes", "gcs/storage.py: Storage.__getitem__", "gcs/storage.py: get_slice of all classes", "gcs/storage.py: Storage.copy"]}
{"id": "C76", "title": "fromobject with shape and get_seq_index reads through the index map", "statement": "X.fromobject(src, shape=shape, get_seq_index=g, unspecified=u), for X any storage class and for DM with any dimensions, partitioning and storage class, makes a new object of class X and shape `shape` whose element at every index ix is src[g(ix)], with u in place of the unspecified value of src; COO, FlatCOO and CSR store exactly the elements different from u. Without g a smaller shape takes the first elements along every axis; a larger shape without axes of size 0 raises IndexError if src is a nested list and X is not DM, and repeats the elements along each axis if src is a storage object other than a Buffer, without axes of size 0. If g runs through the indices of src in row-major order, the elements are those of src in that order (a reshape).", "quantifier": "all nested lists and well-formed storage objects, all shapes without requirement on the size, all index maps that give indices of src, all classes", "why_tests_cant": "the index map is an arbitrary function and the arrays are of any rank and size.", "anchors": ["gcs/storage.py: Buffer.fromobject", "gcs/storage.py: Strided.fromobject", "gcs/storage.py: COO.fromobject", "gcs/storage.py: FlatCOO.fromobject", "gcs/storage.py: CSR.fromobject", "gcs/storage.py: DM.fromobject"]}
{"id": "C77", "title": "Versions in the other styles and from directory names", "statement": "In a work tree of git with keywords not expanded and git describe printing vTAG-N-gHEX[-dirty] (as in C65), get_versions() returns in the style pep440-pre the version TAG if N = 0 and TAG.post.devN otherwise; in pep440-post TAG if N = 0 and the tree is clean and TAG.postN[.dev0]+gHEX otherwise (.dev0 if modified; a dot instead of the plus if TAG has a plus); in pep440-old the same without the commit; in git-describe TAG[-N-gHEX][-dirty] with N-gHEX left out if N = 0; with an empty style or the style default the version of C65. Without tags, or for the tag v alone, the versions are 0.post.devN, 0.postN[.dev0]+gHEX, 0.postN[.dev0] and HEX[-dirty]. In pep440-post trees with the same version have the same tag, distance and state and, unless both are clean tagged trees, the same commit, provided the tags have no plus sign; in pep440-pre trees that differ in state and commit have the same version, in pep440-old trees that differ in the commit. Any other style is a ValueError, except that a tag not starting with v gives the version unknown whatever the style. Where git gives nothing and a prefix for directories is configured, the version is what follows the prefix in the name of the root directory, of its parent or of its grandparent, the first that starts with the prefix; if there is none (or no prefix, as in this package), it is 0+unknown. If Python does not know where the file is (no __file__), git and the names of directories are not asked: the version is 0+unknown, with an error that says so. Where git gives a version the names of the directories do not matter.", "quantifier": "all tags, distances, commits, dates, states of the tree, styles, prefixes and names of directories", "why_tests_cant": "no test covers _version.py; the texts are unbounded, and that versions of different trees differ is a statement about pairs of trees.", "anchors": ["gcs/_version.py: render_pep440_pre", "gcs/_version.py: render_pep440_post", "gcs/_version.py: render_pep440_old", "gcs/_version.py: render_git_describe", "gcs/_version.py: render", "gcs/_version.py: versions_from_parentdir", "gcs/_version.py: get_versions"]}
{"id": "C78", "title": "What the constructors accept", "statement": "Buffer(size, offset, data) is accepted exactly when offset + size is at most the length of the list; Strided(shape, strides, data) exactly when there is one stride for each axis; COO(shape, indices, data) exactly when indices has as many columns as there are values (IndexError if indices has fewer than two axes); FlatCOO exactly when there are as many positions as values; CSR exactly when the shape has two axes, there is one row pointer more than rows and there are as many column indices as values; DM exactly when the axes in the groups are those of the shape (TypeError if there is no group). Otherwise AssertionError is raised. An accepted call gives an object with exactly the given parts; nothing else about the arguments is checked.", "quantifier": "all arguments of the right types with sizes and offsets not negative", "why_tests_cant": "all shapes, lists and groups of axes; the tests never call constructors with wrong arguments.", "anchors": ["gcs/storage.py: Buffer.__init__", "gcs/storage.py: Strided.__init__", "gcs/storage.py: COO.__init__", "gcs/storage.py: FlatCOO.__init__", "gcs/storage.py: CSR.__init__", "gcs/storage.py: DM.__init__"]}
{"id": "C79", "title": "Objects with the same text are equal", "statement": "Two objects of any classes with the same repr are == (in particular of the same class), if the items of all their buffers are printed in full (no more than 100 characters) and the texts of the values are different for different values and have no commas and brackets. The repr of each class is its name followed by its parts in parentheses, with commas between them and shapes, strides and groups of axes as tuples; ints are in decimal, with a minus sign if negative, and missing items are None.", "quantifier": "all objects of all classes (DM of DM and C2SR too), all lists, all ways of printing values", "why_tests_cant": "pairs of arbitrary objects; no test looks at a repr.", "anchors": ["gcs/storage.py: Storage.__repr__", "gcs/storage.py: Buffer.__repr__", "gcs/storage.py: Storage.__eq__", "gcs/storage.py: Buffer.__eq__"]}
{"id": "C80", "title": "Programs with statements that raise", "statement": "The machine of C73 also explains programs in which statements raise. The statements with an index that is not for the shape, with a list that has something missing, with dimensions or a partitioning that DM refuses, and with an array that is not for CSR (not two axes, or without an element other than the unspecified value) raise and change nothing. An assignment to a Strided with something missing in the value raises, and the writes before it stay. The rest of the program goes on with the objects as they are then: each statement gives what the machine says, and at the end all objects have the machine's class, shape, unspecified value and elements. In every state whatsoever a statement that raises and is not an assignment leaves all objects and lists as they were; an assignment changes no list but that of its object.", "quantifier": "all programs of any length whose statements meet the conditions of C73, or are among the listed ones that raise, or name an object that does not exist; for the last sentence all states and statements", "why_tests_cant": "the tests check single exceptions, not what the program sees afterwards; the statements before and after are arbitrary.", "anchors": ["gcs/storage.py: Storage.__getitem__, __setitem__", "gcs/storage.py: normalize_index", "gcs/storage.py: fromobject of all classes", "gcs/storage.py: DM.fromobject"]}
{"id": "C81", "title": "What the lists of an object hold, and how many items", "statement": "fromobject of an array (a nested list or a storage of any class, with the default or a given unspecified value u) that does not return its argument or take the shortcut between sparse classes makes exactly these lists. Let l be the indices of the elements other than u, in increasing order (lexicographic). COO, FlatCOO and CSR hold the values at l in that order; COO the coordinates of l axis by axis, FlatCOO their row-major positions, CSR their columns and n + 1 row pointers: item i is the number of elements in the rows before i, so the first is 0, the last the number of elements, and the differences the numbers of elements of the rows. Strided and Buffer hold all elements in row-major order. The shortcuts between COO, FlatCOO and CSR make the same lists of all stored indices, also those holding the unspecified value. DM.fromobject with a permutation of the axes and increasing cuts wraps the lists of the array with one axis for each group of axes, an element being at the row-major positions of its index in the groups; so the compressed columns of a matrix are the CSR of its swapped axes. With z indices and d axes, COO takes (d + 1) z items, FlatCOO 2 z, and CSR with n rows 2 z + n + 1, fewer than COO if and only if z is more than n + 1.", "quantifier": "all arrays of any shape with at least one axis (CSR: two axes and at least one element other than u), all unspecified values, all permutations and cuts", "why_tests_cant": "the tests compare the lists of a few small arrays; the claim is about all shapes, reductions and sets of stored elements.", "anchors": ["gcs/storage.py: COO.fromobject", "gcs/storage.py: FlatCOO.fromobject", "gcs/storage.py: CSR.fromobject", "gcs/storage.py: Strided.fromobject", "gcs/storage.py: DM.fromobject", "GentleIntroductionToGCS.md"]}
{"id": "C82", "title": "What the lists of a slice hold", "statement": "A slice of a COO, FlatCOO or CSR (an index with at least one slice or missing item; negative steps too) is a new object whose lists are exactly those of C81 for the indices l of the slice, in increasing order, whose element in the original is stored: coordinates axis by axis, row-major positions, or row pointers and columns in the shape of the slice; the values are what the original reads there; the unspecified value is that of the original. A slice of a CSR with one axis is a COO of the selected elements different from the unspecified value. So the number of stored elements of a slice is the number of stored elements of the original inside the selection.", "quantifier": "all well-formed COO, FlatCOO and CSR objects without empty axes, all indices the library accepts that leave at least one axis", "why_tests_cant": "the tests compare elements, not lists; arbitrary shapes, index items and sets of stored elements.", "anchors": ["gcs/storage.py: COO.get_slice", "gcs/storage.py: FlatCOO.get_slice", "gcs/storage.py: CSR.get_slice", "gcs/storage.py: Storage.slice_indices_and_data_position"]}
{"id": "C83", "title": "The keywords that git puts into the version file", "statement": "After git archive has put three texts (ref names, commit, date; without line ends) into gcs/_version.py, git_get_keywords, which setup.py uses and which searches the file line by line with a regular expression, returns exactly these texts, whatever else they contain and whatever the other lines of the file are (none of them beginning with one of the names and ` =`). The package, which evaluates the file, gets the same three texts if and only if none of them contains a quote or a backslash. A ref name may contain a quote: then the literal in the file ends inside the name and the rest of the name is read by Python as code (defect).", "quantifier": "all texts git can put in, all files with the three lines and any other lines before and after them", "why_tests_cant": "the repository has no test of it; arbitrary ref names and surrounding lines.", "anchors": ["gcs/_version.py: git_get_keywords", "gcs/_version.py: get_keywords"]}
{"id": "C84", "title": "Which exception a wrong index raises", "statement": "normalize_index raises the exception of the first wrong item of the tuple: ZeroDivisionError for an int on an axis of size 0, IndexError for an int or a slice beyond the last axis, ValueError for an item that is not an int, a slice or None; it raises nothing else, and only then. An index that is not a tuple behaves as a tuple of one item, except that an object of another type raises TypeError. apply_slices (as many items as axes) raises likewise for the first wrong item: ZeroDivisionError for an int or a slice on an axis of size 0, ValueError for an item of another type. For every class but Buffer, reading and assigning with an index that normalize_index refuses raise the same exception, and the assignment leaves the list as it was.", "quantifier": "all indices, shapes, strides, objects of all classes but Buffer, all lists", "why_tests_cant": "the tests use no wrong index; a characterisation (exactly when, exactly which) over all indices and shapes.", "anchors": ["gcs/slice_tools.py: normalize_index", "gcs/slice_tools.py: apply_slices", "gcs/storage.py: Storage.__getitem__", "gcs/storage.py: Storage.__setitem__", "gcs/storage.py: DM.__getitem__"]}
{"id": "C85", "title": "Which exception a list with missing items raises", "statement": "get_value(n, ix) of a list or scalar n, ix counted from zero, raises exactly if n has nothing at ix, and then: IndexError if the first item of the index that cannot be followed meets a list that is too short, TypeError if it meets a scalar inside of n, AssertionError if n itself is a scalar. cls.fromobject(n) (all classes but DM) raises the exception of the first index, in lexicographic order, of the shape of the first items at which n has nothing; s[index] = n on a Strided raises the exception of the first such index of the selection.", "quantifier": "all nested lists of any depth, all indices, all classes but DM, all well-formed Strideds without empty axes and all valid indices", "why_tests_cant": "the tests have no ragged lists; depth, raggedness and place of the first missing item are unbounded.", "anchors": ["gcs/storage.py: get_value", "gcs/storage.py: fromobject of each class", "gcs/storage.py: Storage.__setitem__"]}
{"id": "C86", "title": "What a slice of a slice of a DM reads", "statement": "For any well-formed DM s (in particular a slice of a DM) around a storage without offsets of its own, and any valid index that keeps an axis: s[index] is a well-formed DM of the shape of the selection; for each group of axes that the index fixes altogether it reads the wrapped storage without the offset of the group, modulo the size of the axis, and every other group where it should (defect). So the elements read are those that should be read exactly if each such offset is a multiple of that size. For s[i1][i2], s around a storage of another class than DM: a group that i1 and i2 fix together but i1 does not fix alone is read at the distance of the position that is meant from the position of the first element of s[i1], modulo the size; for a DM as fromobject makes it, the right elements are read exactly if that first element has the position 0 in each such group.", "quantifier": "all DMs, groupings, strides, offsets, wrapped storages of all classes, all shapes without empty axes, all valid indices", "why_tests_cant": "the tests slice DMs only once; the statement says for every pair of indices which elements are read.", "anchors": ["gcs/storage.py: DM.__getitem__"]}
{"id": "C87", "title": "All indices of a Buffer", "statement": "b[index] for a Buffer b on a list: a tuple of one item is taken as the item, any other tuple raises AssertionError; None gives b itself; an int i means the cell offset + i of the list as Python counts cells (not bounded by the window of b; below zero it goes on from the end of the list) and raises IndexError if the list has no such cell; a slice gives a Buffer or raises IndexError (C47 says which); any other object raises TypeError. b[index] = v replaces, for an int or a tuple of one int, exactly that cell, raises IndexError if there is none, and AssertionError for every other index; a statement that raises writes nothing.", "quantifier": "all Buffers on all lists, also with a window that does not fit, all indices", "why_tests_cant": "the tests read Buffers only inside of the window; cells outside of it and all kinds of index objects are covered here.", "anchors": ["gcs/storage.py: Buffer.__getitem__", "gcs/storage.py: Buffer.__setitem__", "gcs/storage.py: Buffer._get_complete_index"]}
{"id": "C88", "title": "The version file of a distribution", "statement": "write_to_version_file writes the dictionary of the version as a JSON document inside a text literal of a short Python module. setup.py of the unpacked distribution (versions_from_file and get_versions of versioneer.py) finds exactly the written dictionary, for all keys and texts, and without looking at git or the names of directories. The file has ASCII characters only. The installed package (get_versions of the written module) finds the same dictionary if no text in it holds a double quote, a backslash, a character below the blank, one outside the basic plane, or three single quotes in a row. Defect: Python evaluates the escapes of the literal first, so if the version holds one of these (and the other texts do not) the package does not find the version: json.loads raises, the literal ends early, or other values are found.", "quantifier": "all dictionaries of texts, None and booleans; for the defect all versions, with readable date, error and revision", "why_tests_cant": "there are no tests of versioneer here, and a tag with a quote or a backslash is never tried; the claim is about all texts.", "anchors": ["versioneer.py: write_to_version_file", "versioneer.py: versions_from_file", "versioneer.py: SHORT_VERSION_PY", "versioneer.py: get_versions", "versioneer.py: git_get_keywords"]}
{"id": "C89", "title": "setup.py and the package find the same version", "statement": "In a work tree, and in an archive where git has put texts in place of the keywords, get_versions of versioneer.py (called by setup.py) and get_versions of gcs/_version.py return the same dictionary or stop with the same exception, for every configuration, whatever git prints and wherever the tree is. A distribution keeps it: making a distribution, unpacking it and making the next one from it, any number of times, leaves the dictionary as found in the first tree, for setup.py always and for the package if all texts are readable (C88). If lines of the keywords are missing from the file: without any of them, or with a line for the names of the commit that git has not expanded, setup.py goes on as if there were no file; otherwise it stops with KeyError if this line or the line for the commit is missing.", "quantifier": "all version files with the three lines of the keywords and any other lines around that do not look like such a line or like the start of a written document; all texts put in that Python can evaluate; all outputs of git; all numbers of distributions", "why_tests_cant": "the agreement of two programs that find the keywords in different ways (a regular expression, the evaluation by Python) over all outputs of git cannot be tested, and no test makes distributions.", "anchors": ["versioneer.py: get_versions", "versioneer.py: git_get_keywords", "gcs/_version.py: get_versions", "gcs/_version.py: get_keywords"]}
{"id": "C90", "title": "gcs_basics.py and DM describe the same lists", "statement": "The examples of test_gcs_basics.py make row indices, column indices and values from any list of elements of an array (a dictionary from the reduced indices, read in the order of the sorted keys), for every permutation of the axes and every cut into row and column axes. The entries are strictly increasing by row and column and inside the reduced shape; together with compress_indices of the row indices, the element of an index is stored in the row and at the column that reduction gives, with the value that was given last, and an index that was not given has no entry. If the elements given are those of an array other than the unspecified value, DM.fromobject with the same axes, cut and CSR as storage class holds exactly these compressed rows, columns and values. Whenever DM.fromobject (any partitioning, any storage class) returns an object, create_reduction_metadata succeeds and describes it: the same groups of axes, shapes, strides and shape of the wrapped storage; reduction gives the index of the wrapped storage for every index, and without axes of size 0 promotion is promote_index. With another number of cuts than one, the loop of the examples over the sorted keys raises ValueError.", "quantifier": "all shapes, permutations, cuts, lists of elements with indices inside the shape (repeated ones allowed), all arrays and storage classes", "why_tests_cant": "the examples only print the lists, for a few arrays, and no test compares gcs_basics.py with gcs/storage.py; agreement for all arrays and layouts needs a proof.", "anchors": ["gcs_basics.py: create_reduction_metadata", "gcs_basics.py: reduction", "gcs_basics.py: promotion", "gcs_basics.py: compress_indices", "gcs/storage.py: DM.fromobject", "gcs/storage.py: make_reduction"]}
{"id": "C91", "title": "Which solution solve_index looks at", "statement": "If solve_index(pos, shape, strides) returns an index, the last item of this index is the largest one below the last size among all integer solutions of sum(index * strides) = pos, also those outside the box. With two axes and non-zero strides it returns (x, y) exactly if (x, y) is that solution and lies in the box, and None otherwise, never an error; hence it finds every element of an n by m array with strides (a, b) exactly if m * gcd(a, b) <= |a|. With one axis of non-zero stride it finds every element. If the first stride is 1 or -1, as in the column-major layout of any number (at least two) of axes, every index it finds has the last item shape[-1] - 1, so all other elements are missed (defect).", "quantifier": "all numbers of axes, shapes, strides (also negative and overlapping) and positions; for the exact descriptions one or two axes", "why_tests_cant": "the tests use a few row-major arrays, where the solution looked at happens to be the element; which layouts work is a number-theoretic condition on all sizes and strides.", "anchors": ["gcs/slice_tools.py: solve_index", "gcs/slice_tools.py: init_diophantine"]}
{"id": "C92", "title": "The installer of versioneer.py", "statement": "Let the name of the version file have no white space, and let MANIFEST.in and .gitattributes be missing, empty or end with a line feed. After do_setup() with a configuration MANIFEST.in includes versioneer.py and the version file, the __init__.py of the package (if there is one) has the lines that import the version, and .gitattributes marks the version file for the keywords of git; a second run changes nothing, and where all this is in place nothing but the version file is written. For all names and files: what the files held stays, as their beginning, and every changed file is given to git add. Without a configuration only a sample is appended to setup.cfg (if it has no section) and 1 is returned. scan_setup_py returns 0 exactly if the three texts it looks for are in setup.py and none of the two old ones; otherwise one for each of the two faults. Defects: if the last line of .gitattributes has no line feed, the new line is glued to it and the version file is not marked until a second run; if .gitattributes marks a file whose name begins with that of the version file, the version file is never marked; if there is white space in the name of the version file, every run appends the same line to MANIFEST.in again.", "quantifier": "all names of version files, all texts of the files (with line feeds as line ends), all numbers of runs", "why_tests_cant": "there are no tests of versioneer here; that runs can be repeated is a claim about all contents of the files.", "anchors": ["versioneer.py: do_setup", "versioneer.py: do_vcs_install", "versioneer.py: scan_setup_py"]}
{"id": "C93", "title": "Any equality of values", "statement": "Let == of values be any relation (NaN == NaN is false, 0 == 0.0 is true). fromobject (other than the shortcuts) and as_DM over a class other than DM replace an element == to the unspecified value of the source by the new unspecified value u; COO, FlatCOO and CSR then store the elements not == to u, and u is read for the others. The shortcuts between COO, FlatCOO and CSR keep the stored indices and the values (if the unspecified value is not == to itself, values == to it are replaced by it). copy() of a Strided replaces every value == to the old unspecified value, of the other classes only stored values, and only if the new unspecified value is not == to the old one; where nothing is stored the new one is read. A slice of a CSR with one axis leaves out stored values == to the unspecified value. Objects that are == (without elements before their windows) have the same class and shape, the same places, unspecified values that are == and elements that are the same or ==; equal() ignores the unspecified values. With equality as the relation all these functions are those of the other properties. Defects: a Buffer, COO, FlatCOO or CSR whose unspecified value is NaN is not == to its copy; with u = NaN the sparse classes store every element; copy(unspecified=u) of such an object reads u where nothing is stored but as_COO(unspecified=u) and the like read, and store, NaN there.", "quantifier": "all relations in the place of ==, all well-formed objects and nested lists, all shapes with at least one axis (without axes of size 0: a FlatCOO in the shortcuts and in equal(), the slices of a CSR, and the arrays stored with NaN), all values", "why_tests_cant": "the tests use ints and None, for which == is equality; the claim is about every relation.", "anchors": ["gcs/storage.py: Buffer.copy", "gcs/storage.py: Buffer.__eq__", "gcs/storage.py: Strided.copy", "gcs/storage.py: COO.fromobject", "gcs/storage.py: FlatCOO.fromobject", "gcs/storage.py: CSR.fromobject", "gcs/storage.py: CSR.get_slice", "gcs/storage.py: Storage.equal"]}
{"id": "C94", "title": "DM around a storage is a view", "statement": "DM(shape, rdimensions, rstrides, roffset, d), called with a group of axes, strides and an offset for every axis of the existing storage d, is a view of d: its element at ix is that of d at the offsets plus the addresses of the groups, whatever the list holds. If these positions are in d, of any class, the object is well-formed (so that slicing, assigning and copying are as the other properties say); otherwise, for a d that is not a Buffer and has no empty axis, the positions are taken modulo the sizes of d. Groups may share axes. So a DM can be a transpose (a group per axis), a diagonal of any number of axes (all groups [0]), the sliding windows d[i + j], d reversed (stride and offset -1), or d reshaped in row-major order. An assignment to a DM without empty axes around a Strided d without empty axes and with different cells for its elements, with an index that keeps an axis and a value with an item for every selected index, writes to d: of the selected elements with the same position the last one wins, all other elements of d and all other cells keep their values; so of windows that overlap the later one wins.", "quantifier": "all shapes, groups that have exactly the axes of the shape, all strides and offsets, all well-formed wrapped storages, all indices and values", "why_tests_cant": "the tests make a DM only with as_DM, from an object whose axes are divided among the groups; the claim is about every wrapped storage, every grouping and every stride.", "anchors": ["gcs/storage.py: DM.__init__", "gcs/storage.py: DM.__getitem__", "gcs/storage.py: DM.__setitem__", "gcs/storage.py: get_data_position"]}
{"id": "C95", "title": "Programs without assignments are programs on plain arrays, whatever a DM wraps", "statement": "A program makes objects of any class but Buffer from nested lists, and DMs around any class (Buffer with one group of axes, CSR with two, DM included, with any dimensions and partitioning), and then slices, reads, converts, wraps and copies them in any order; it assigns nothing. If each statement meets its condition (rectangular lists, valid indices, no empty axes, an element that is not unspecified for a CSR, no ints in a slice of a slice of a DM), no statement raises, and each object has at every moment the shape, the unspecified value and the elements that the same statement gives for plain arrays, which know no classes and share nothing; each element that the program reads is that of the plain array. A statement that names a class makes an object of this class, and a DM wraps the class that is named, with the groups that the dimensions and the partitioning give. Two such programs that differ only in the classes and in the arguments of the DMs have the same objects with the same shapes and elements; in particular all classes can be replaced by Strided, which needs no further condition.", "quantifier": "all programs of any length without assignments, all lists, indices, classes and arguments of the DMs that meet the conditions", "why_tests_cant": "the tests wrap a CSR or COO in a DM for a few arrays; the claim is about every order of slices, conversions and copies of any length, with DMs around all classes.", "anchors": ["gcs/storage.py: fromobject", "gcs/storage.py: DM.fromobject", "gcs/storage.py: __getitem__", "gcs/storage.py: copy", "gcs/storage.py: as_DM"]}
{"id": "C96", "title": "An assignment stays inside the object, and assignments to disjoint objects commute", "statement": "s[index] = value, for an object of any class but Buffer, keeps the length of the list and changes no cell that is not a cell of the object (for a DM around a sparse storage or a DM: of what it wraps), whatever the index (also one that is refused) and whatever the values (also when reading one raises, or when they are read from the list being written); a changed cell holds a value that was read from the assigned object. For a Strided without empty axes and a valid index, only the cells of the selected elements change. Another object on the same list that has no cell in common keeps all its elements, through any number of such assignments. Two assignments to objects without a common cell, whose values are not read from the cells of the other, can be exchanged: the list ends the same, and each raises what it raises when it is first. In a program these are s[i] = x and t[k] = y with nested lists or objects x and y, where x has no cell in common with t and y none with s (objects other than Buffers, without empty axes, and no slices of DMs; they may lie on the lists that are written). Any number of such assignments, of which no two depend on each other, have the same effect in any order. Two slices of one Strided without empty axes, whose elements have different cells, that select no common element have no common cell, and s[i] = x and s[k] = y with such s, i and k and nested lists x and y can be exchanged.", "quantifier": "all types with at least two values, all well-formed objects, indices, values (total or raising, read from anywhere), states of programs and sequences of assignments", "why_tests_cant": "the tests look only at the object assigned to, and only after assignments that succeed; that nothing else on a shared list changes, also when the assignment raises in the middle, is a claim about all indices, values and objects.", "anchors": ["gcs/storage.py: __setitem__", "gcs/storage.py: get_value", "gcs/storage.py: _get_slice", "gcs/storage.py: DM"]}
{"id": "C97", "title": "The operators == and != with the identity of objects", "statement": "a != b is the negation of a == b whenever a or b is a storage object, whatever == of values is. A storage object is not == to an object of another type or of another storage class, on either side. s == s holds for every class but Buffer also if == of values is not reflexive (NaN); a Buffer is == to itself exactly if its unspecified value is. Objects without a common part (an object or its data, at the same depth) compare as C93 says; if every value is == to itself, so do objects that have parts in common. Objects of one class with the same data object are == exactly if all their attributes are the same, whatever == of values is. == is symmetric if == of values is. Objects that are == (well-formed, without elements before their windows) have the same class, shape and places, and their elements are the same or ==.", "quantifier": "all storage objects (DMs of any depth), all operands of other types, all relations that == of values may be, all ways the operands may share objects", "why_tests_cant": "the tests compare separate objects with values that are == to themselves; what == does with NaN, with shared data objects and with operands of other types is not tested, and != only once or twice.", "anchors": ["gcs/storage.py: Storage.__eq__", "gcs/storage.py: Storage.__ne__", "gcs/storage.py: Buffer.__eq__", "gcs/storage.py: _get_object_data"]}
{"id": "C98", "title": "A Buffer with a negative offset or size", "statement": "Buffer(size, offset, data) takes all ints with offset + size <= len(data), negative ones too. b[i] is the item that Python means by data[offset + i] (from the end of the list if that is negative), b[i] = v replaces it. list(b) has size items, those of b[i], if the offset is at least -len(data), and raises IndexError otherwise unless the size is at most 0; with such a size there are none and with a negative one len(b) raises ValueError. A slice is an IndexError or a buffer inside the list with natural size and offset; for a negative offset b[:] is an IndexError. Defects for an offset from -len(data) to -1 and a size that is not negative: copy() has the items of b if offset + size < 0, and no items at all if the window reaches the beginning of the list (0 <= offset + size, size <= len(data)), while copy with another unspecified value always has all items; and two buffers of the second kind with the same size and unspecified value are == whatever they hold. With natural size and offset all methods are those of Model/Storage.lean.", "quantifier": "all ints as size and offset, all lists, indices, slices, values and unspecified values", "why_tests_cant": "the tests never make a Buffer with a negative offset or size; that the constructor takes them, and that copy and == then disagree with reading, is a claim about all lists and ints.", "anchors": ["gcs/storage.py: Buffer.__init__", "gcs/storage.py: Buffer.__getitem__", "gcs/storage.py: Buffer.copy", "gcs/storage.py: Buffer.__eq__", "gcs/storage.py: Buffer.__iter__"]}
{"id": "C99", "title": "Copies share the index arrays", "statement": "copy() of a COO, FlatCOO or CSR (or of a DM around one) passes the index arrays of the original to the copy. s.findices[i] = v (or crow_indices, col_indices) replaces the item that Python means by offset + i in the list of that array and nothing else, or is an IndexError that changes nothing; s.indices[j, p] = v replaces the item of s.indices at (j, p) and nothing else, and any other assignment to s.indices does and raises what it does for that Strided; an object without the attribute raises AttributeError. So an assignment to t.indices, t.findices, t.crow_indices or t.col_indices of a copy t is the same assignment to that of the original: it changes the same lists in the same way and raises the same. Whatever is assigned to index arrays afterwards, the copy and the original have places for the same indices, and elements() gives the same indices in the same order. Defect: t = s.copy() and t.findices[p] = q move an element of the FlatCOO s; so do t.indices[j, p] = q for a COO (coordinate j of the index of element p) and t.col_indices[p] = q for a CSR (in its row). An object whose index arrays are other lists is not changed. As long as nothing is assigned to index arrays, copy is that of Model/Storage.lean.", "quantifier": "all storage objects (DMs of any depth), all contents of the index arrays (for s.indices[j, p] = v: s.indices is well-formed, its items lie in its list), all assignments to index arrays (also ones that raise), and for the moved element all shapes, sorted stored indices (also after the move; the elements of the index array of a COO have different cells, and the two lists of a CSR are different), values and positions", "why_tests_cant": "the tests never assign to index arrays; that a copy and its original stay tied to each other through every such assignment is a claim about all objects and programs.", "anchors": ["gcs/storage.py: Storage.copy", "gcs/storage.py: _get_object_data", "gcs/storage.py: COO.__init__", "gcs/storage.py: FlatCOO.__init__", "gcs/storage.py: CSR.__init__"]}
{"id": "C100", "title": "Running git", "statement": "run_command(commands, args) runs the first command that is found and does not try those after it. The result is (text, 0) exactly if that process ends with the code 0 and its output, without the white space around it, decodes to text; it is (None, code) for another code, and (None, None) if no command is found or the first one found cannot be started. If all that the commands print is text, git_pieces_from_vcs depends on the five commands only through what they print, and is the function of Model/Version.lean for it. It is NotThisMethod if there is no git or git rev-parse --git-dir fails. Defects: on Windows git.exe is not tried if git.cmd is found but cannot be started; output of git describe that does not decode raises UnicodeDecodeError (a ValueError) instead of NotThisMethod, even if the command fails.", "quantifier": "all behaviours of the operating system (each command line not found, not startable, or any output and return code), all decoders, command lists, arguments and tag prefixes, both platforms", "why_tests_cant": "the tests run in one checkout with one git; the claim is about every way in which the commands can end.", "anchors": ["gcs/_version.py: run_command", "gcs/_version.py: git_pieces_from_vcs", "versioneer.py: run_command"]}
{"id": "C101", "title": "The root, the configuration and the handlers of versioneer", "statement": "get_root() is the current directory if it has setup.py or versioneer.py, else the directory of sys.argv[0] if that has one, else VersioneerBadRootError. register_vcs_handler makes the function registered last the one that is found and changes nothing else; after loading, git is the only system with handlers, and it has exactly three. If the section versioneer of setup.cfg in the root has VCS = git, versionfile_source and tag_prefix, get_versions() is setupVersions of C88 for the version file named there and what git prints in the root; a tag_prefix of two quotes is the empty one, style and parentdir_prefix may be missing, versionfile_build is as given. What is missing is reported: no setup.cfg, no section, no VCS; AssertionError for another VCS (also Git), without versionfile_source or without tag_prefix. setup.py goes to its own directory first and so takes its own configuration, whatever a relative sys.argv[0] means afterwards. Defect: called from the directory of another project, get_versions() takes that project, whatever the script.", "quantifier": "all file trees, configurations, current directories, scripts, outputs of git, and all tables of handlers", "why_tests_cant": "the tests never run setup.py; the claim is about all trees and configurations.", "anchors": ["versioneer.py: get_root", "versioneer.py: get_config_from_root", "versioneer.py: register_vcs_handler", "versioneer.py: get_versions", "setup.py: setup_package"]}
{"id": "C102", "title": "The commands of versioneer for setuptools", "statement": "get_cmdclass() has version and sdist, build_py without cx_Freeze, build_exe with it, py2exe with that module, and nothing else, with the classes of setuptools if that is loaded; versioneer is taken out of sys.modules. write_to_version_file replaces the text of an existing file and of no other name, even one that was a hard link to it; a file that is not there is an error that changes nothing. build_py writes the versions found before the build into versionfile_build in the new directory and leaves everything else as the build left it (without that option it is the plain build), so the built package reports these versions (if they can be read back, C88). sdist puts the version into the metadata and the versions into the version file of the distribution, and not into that of the source tree, although that may be the same file by a hard link; the unpacked distribution reports the same versions wherever it is and whatever git prints there. build_exe and py2exe build with the versions in the version file and then put the template in its place. What get_versions() raises, these commands raise, with no file changed. What the build or the release tree of the other module raises, build_py and sdist raise, without writing a version file. If the versions have no item version, sdist is a KeyError before any file is changed. version prints version, revision, dirty and date, and the error if there is one. Defects: if the build of build_exe or py2exe fails, the version file with the old versions stays in the source tree, which from then on reports them whatever git says; in an unpacked distribution these commands lose the version: without git and parentdir_prefix it is 0+unknown afterwards.", "quantifier": "all trees of files with hard links, complete configurations, outputs of git, loaded modules, and all builds and release trees as made by the other modules; versions with an item version unless said otherwise; in the claims about later versions setup.cfg is not the version file and the files that matter are copied (or left) as they are", "why_tests_cant": "the tests never build or pack the project; the claim is about all trees and builds.", "anchors": ["versioneer.py: get_cmdclass", "versioneer.py: write_to_version_file"]}
{"id": "C103", "title": "The script setup.py", "statement": "Before Python 3.4 setup.py is a RuntimeError and changes nothing. Else, with a number in CONDA_BUILD (0 without it) and a version, setup() is called in the directory of the script, with that directory first in sys.path, with the version of get_versions() for that directory whatever directory the script was started from, the commands of C102 and the packages found there; with CONDA_BUILD other than 0 without requirements, else with the lines of requirements.txt (in the sense of splitlines, which is unique), pytest-runner and pytest. Afterwards the first item of sys.path is removed and the current directory is the old one, whether or not setup() raises, and builtins.__GCS_SETUP__ is gone only if it does not. Defects: it removes the file MANIFEST of the directory it is started from, not that of its own directory, before anything else, even if CONDA_BUILD is then a ValueError (any text with a character that is no digit, sign or white space); what raises before setup() leaves the current directory, sys.path and builtins changed: a version that cannot be found or has no name, and a missing requirements.txt, which without CONDA_BUILD is a FileNotFoundError (this repository has none).", "quantifier": "all trees with setup.py in the directory of the script, current directories, paths, outputs of git, values of CONDA_BUILD, and all functions in the place of setup() that leave sys.path not empty and, if they do not raise, the mark in builtins", "why_tests_cant": "the tests never run setup.py; the claim is about all trees and what setup() may do.", "anchors": ["setup.py: setup_package"]}
