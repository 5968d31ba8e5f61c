{"id": "C01", "title": "CSR matrix is a faithful map: read returns the last write", "statement": "After any history of Set, Update and Clear calls with in-range indices on a CSR matrix, no call panics and At(i,j) returns exactly what the last call affecting cell (i,j) put there (zero if none or if Clear came later); all other cells are unaffected. For float types a stored zero of either sign reads back as +0.", "quantifier": "every matrix size, every finite history of operations, every element type, every cell", "why_tests_cant": "the binary search, the splice of two parallel slices and the row-pointer bump must agree for every sparsity pattern and history; tests touch a handful of small patterns", "anchors": ["csrMatrix.go: UpdateReturnPointer, At, Set, insert, remove, columnIndex, Clear"]}
{"id": "C02", "title": "CSC matrix is a faithful map: read returns the last write", "statement": "Same as C01 for the column-compressed format.", "quantifier": "every matrix size, history, element type and cell", "why_tests_cant": "same as C01; the CSC code is a hand-mirrored copy in which one swapped index would go unnoticed by square-matrix tests", "anchors": ["cscMatrix.go: UpdateReturnPointer, At, Set, insert, remove, rowIndex, Clear"]}
{"id": "C03", "title": "Dense matrix and dense vector are faithful maps", "statement": "After any history of Set, Update and Clear (SetVec for vectors) with in-range indices on a DenseMatrix or DenseVector no call panics and At/AtVec returns the last value written to that cell (zero if none or cleared).", "quantifier": "every size, history, element type and cell", "why_tests_cant": "must hold for all histories and all cells, not for the sampled ones", "anchors": ["denseMatrix.go: Update, At, Set, Clear", "denseVector.go: AtVec, SetVec, Update, At, Set, Clear"]}
{"id": "C04", "title": "Sparse vector: AtVec returns the last SetVec", "statement": "After any history of in-range SetVec calls on a SparseVector, AtVec(i) returns the last value written at i.", "quantifier": "every length, every history, every index", "why_tests_cant": "the index lookup compares the position with the number of stored entries, so the failure depends on the relation between an index and the population of the vector", "anchors": ["sparseVector.go: index, AtVec, SetVec, insert, remove"]}
{"id": "C05", "title": "Values() counts the non-zero cells of a compressed matrix", "statement": "After any history of in-range operations on a CSR or CSC matrix, Values() equals the number of cells whose At is non-zero; in particular writing zero to a cell removes it and rewriting a cell never duplicates it.", "quantifier": "every size and history", "why_tests_cant": "duplicates or stale explicit zeros only appear for particular write/overwrite/erase orders", "anchors": ["csrMatrix.go: Values, insert, remove", "cscMatrix.go: Values, insert, remove"]}
{"id": "C06", "title": "Index checking is exact and happens before any write", "statement": "At, Set and Update on CSR, CSC and dense matrices panic if and only if the row or the column is outside [0,Rows()) x [0,Columns()) (negative included); a panicking call leaves the matrix as it was, and an in-range call never panics.", "quantifier": "every well-formed matrix, every pair of integers", "why_tests_cant": "boundary exactness and absence of internal slice-index panics is a statement about all indices and all sparsity patterns", "anchors": ["csrMatrix.go: UpdateReturnPointer", "cscMatrix.go: UpdateReturnPointer", "denseMatrix.go: Update, At, Set"]}
{"id": "C07", "title": "Reads do not modify the matrix", "statement": "At and Element on a CSR or CSC matrix (which are implemented as an Update with the identity) and on dense and sparse vectors leave every field of the matrix exactly as it was.", "quantifier": "every reachable matrix, every index", "why_tests_cant": "reads go through the write path (Update re-stores the value, or would remove or insert it), so purity depends on a data-structure invariant", "anchors": ["csrMatrix.go: At, Element", "cscMatrix.go: At, Element", "sparseVector.go: At"]}
{"id": "C08", "title": "Building from an array round-trips", "statement": "For every rectangular non-empty array, NewCSRMatrixFromArray, NewCSCMatrixFromArray and NewDenseMatrixFromArray give a matrix of the array's dimensions whose At(i,j) is array[i][j] and whose RowsAtToArray(i) is array[i]; NewSparseVectorFromArray enumerates exactly the non-zero entries of the array in order.", "quantifier": "every rectangular array", "why_tests_cant": "all shapes and all zero patterns", "anchors": ["csrMatrix.go: NewCSRMatrixFromArray", "cscMatrix.go: NewCSCMatrixFromArray", "denseMatrix.go: NewDenseMatrixFromArray", "sparseVector.go: NewSparseVectorFromArray"]}
{"id": "C09", "title": "Enumerate visits every stored cell exactly once and terminates", "statement": "Driving Enumerate() with HasNext/Next on any reachable matrix or dense vector never panics or loops forever, yields pairwise distinct coordinates, every yielded value equals the value stored at that coordinate, and every non-zero cell is yielded. CSR and dense go in row-major order, CSC in column-major order; CSR and CSC yield no zero.", "quantifier": "every reachable matrix, whatever its empty rows and columns", "why_tests_cant": "the iterator walks two nested cursors over empty rows; termination and in-bounds access for all patterns of empty rows is an induction", "anchors": ["csrMatrix.go: iterator, next, HasNext, Next", "cscMatrix.go: iterator, next", "denseMatrix.go: denseMatrixIterator", "denseVector.go: denseVectorIterator", "sparseVector.go: sparseVectorIterator"]}
{"id": "C10", "title": "Row and column extraction", "statement": "RowsAt(r), ColumnsAt(c) and RowsAtToArray(r) panic exactly when the index is out of range, and otherwise hold exactly the matrix's row or column: RowsAtToArray element j is At(r,j); the vector from a dense matrix has AtVec(j) = At(r,j); the sparse vector from a compressed matrix enumerates exactly the non-zero cells of that row or column.", "quantifier": "every reachable matrix, every index", "why_tests_cant": "for all sparsity patterns", "anchors": ["csrMatrix.go: RowsAt, ColumnsAt, RowsAtToArray", "cscMatrix.go: RowsAt, ColumnsAt, RowsAtToArray", "denseMatrix.go: RowsAt, ColumnsAt, RowsAtToArray"]}
{"id": "C11", "title": "Copy is equal and independent", "statement": "Copy() returns a matrix of the same format and dimensions with the same cells, and afterwards no write through either object is visible through the other.", "quantifier": "every reachable matrix, every later write", "why_tests_cant": "independence is a statement about all subsequent writes and about which backing arrays are shared", "anchors": ["csrMatrix.go: Copy", "cscMatrix.go: Copy", "denseMatrix.go: Copy, CopyLogical", "denseVector.go: copy, Copy", "sparseVector.go: copy"]}
{"id": "C12", "title": "Clear empties", "statement": "After Clear() every cell reads zero, Rows/Columns are unchanged, and Values() is 0 for the sparse formats.", "quantifier": "every matrix, even one whose internal state is corrupt", "why_tests_cant": "for all prior states", "anchors": ["csrMatrix.go: Clear", "cscMatrix.go: Clear", "denseMatrix.go: Clear", "denseVector.go: Clear", "sparseVector.go: Clear"]}
{"id": "C13", "title": "Storage format is unobservable through At", "statement": "Running the same history of in-range Set/Update/Clear calls on a CSR, a CSC and a dense matrix of the same dimensions gives three matrices that agree on At everywhere, and At(i,j) and RowsAtToArray(i) are the same for all three, for every element type whose == is equality (the integer types). For float types the two compressed formats agree with each other on every history, and with the dense one, up to the sign of a zero, on every history without Update; a function passed to Update can look at that sign and make them differ.", "quantifier": "every size and history", "why_tests_cant": "three independent implementations must agree on all histories", "anchors": ["csrMatrix.go", "cscMatrix.go", "denseMatrix.go"]}
{"id": "C14", "title": "Map replaces every element by f of it", "statement": "Driving Map() over a matrix replaces every stored element v at (r,c) by f(r,c,v) and touches nothing else, without panicking.", "quantifier": "every matrix and every function f", "why_tests_cant": "the iterator keeps raw positions while Map may remove entries under it, so the outcome depends on where f returns zero", "anchors": ["csrMatrix.go: cSRMatrixMap.Map", "cscMatrix.go: cSCMatrixMap.Map", "denseMatrix.go: denseMatrixMap.Map", "denseVector.go: denseVectorMap.Map", "sparseVector.go: sparseVectorMap.Map"]}
{"id": "C15", "title": "Transpose", "statement": "Transpose() (CSR, CSC, dense, vectors) and TransposeToCSR/TransposeToCSC return a Columns() x Rows() matrix whose At(j,i) is the original At(i,j), leave the operand unchanged, and transposing twice gives back the original cells. For a sparse vector whose contents are not packed (C04) At misses entries; there the transpose holds at (0,i) the last value Enumerate delivers for position i, zero if it delivers none.", "quantifier": "every reachable matrix of every format", "why_tests_cant": "all shapes and sparsity patterns", "anchors": ["operators.go: Transpose, TransposeToCSR, TransposeToCSC", "csrMatrix.go: Transpose", "cscMatrix.go: Transpose", "denseMatrix.go: Transpose"]}
{"id": "C16", "title": "Negative", "statement": "Negative() returns a matrix of the same format and dimensions with every cell negated (two's-complement wrap-around included), leaving the operand unchanged. This holds of sparse vectors in every reachable state, of At and of Enumerate.", "quantifier": "every reachable matrix of every format, every ring of values", "why_tests_cant": "goes through Map, which removes entries when the result is zero; needs a ring argument for all values, e.g. the minimum int", "anchors": ["operators.go: Negative", "csrMatrix.go: Negative", "cscMatrix.go: Negative", "denseMatrix.go: Negative"]}
{"id": "C17", "title": "Scalar multiplication", "statement": "Scalar(alpha) returns alpha*A cell by cell for every alpha, leaving the operand unchanged.", "quantifier": "every matrix, every alpha", "why_tests_cant": "products that vanish (alpha = 0, or wrap-around) take the element-removal path while iterating", "anchors": ["operators.go: Scalar", "csrMatrix.go: Scalar, cSRMatrixMap.Map"]}
{"id": "C18", "title": "Add is cell-wise addition", "statement": "A.Add(B) for equal shapes returns the cell-wise sum whatever the formats of A and B, and panics when shapes differ.", "quantifier": "all pairs of matrices of every combination of formats and element types", "why_tests_cant": "the algorithm iterates over only one operand chosen by a type registry, so the result depends on format, element type and sparsity pattern", "anchors": ["operators.go: Add", "csrMatrix.go: Add", "cscMatrix.go: Add", "denseMatrix.go: Add", "sparseVector.go: Add"]}
{"id": "C19", "title": "Subtract is cell-wise subtraction", "statement": "A.Subtract(B) for equal shapes returns the cell-wise difference whatever the formats.", "quantifier": "all pairs of matrices of every combination of formats", "why_tests_cant": "only cells enumerated by the left operand are rewritten", "anchors": ["operators.go: Subtract", "csrMatrix.go: Subtract", "sparseVector.go: Subtract", "denseMatrix.go: Subtract"]}
{"id": "C20", "title": "Matrix multiplication", "statement": "MatrixMatrixMultiply / Multiply writes the matrix product sum_l A(r,l)*B(l,c) into every (unmasked) cell of the output and panics when the inner dimensions differ.", "quantifier": "all sizes, formats and contents", "why_tests_cant": "the rows and columns of compressed matrices are read through sparse vectors whose lookup depends on how full they are", "anchors": ["operators.go: multiply, MatrixMatrixMultiply", "csrMatrix.go: Multiply", "denseMatrix.go: Multiply"]}
{"id": "C21", "title": "Matrix-vector and vector-matrix products", "statement": "MatrixVectorMultiply computes A*v; VectorMatrixMultiply computes v*A (row vector times matrix).", "quantifier": "all dense matrices and vectors", "why_tests_cant": "one symmetric or hand-computed example cannot distinguish the two products", "anchors": ["operators.go: MatrixVectorMultiply, VectorMatrixMultiply"]}
{"id": "C22", "title": "A mask protects the cells where its Element is true", "statement": "For multiply, Add, Subtract, element-wise add, element-wise multiply and Negative, with any output, every output cell whose mask Element is true keeps its value, and cells whose mask Element is false get the unmasked result; a nil mask behaves as a mask that is false everywhere; a mask of the wrong shape panics before any write.", "quantifier": "all operands, all masks", "why_tests_cant": "quantifies over all masks and all cells", "anchors": ["operators.go: multiply, Add, Subtract, elementWiseAdd, elementWiseMultiply, Negative", "mask.go: EmptyMask"]}
{"id": "C23", "title": "Operators only modify their output", "statement": "multiply, Add, Subtract, element-wise add/multiply, Transpose, Apply and Negative change no object in memory other than the output matrix (operands and mask keep every field), even when they stop early on cancellation or panic on a shape mismatch.", "quantifier": "all heaps, all aliasing patterns of operands, all cancellation points", "why_tests_cant": "a frame property over all objects and all executions", "anchors": ["operators.go"]}
{"id": "C24", "title": "Element-wise multiplication", "statement": "ElementWiseMatrixMultiply / ElementWiseVectorMultiply put the cell-wise product of the operands in the output.", "quantifier": "all pairs of equal-shape operands", "why_tests_cant": "agreement on 0/1 examples says nothing about other values", "anchors": ["operators.go: elementWiseMultiply, ElementWiseMatrixMultiply, ElementWiseVectorMultiply"]}
{"id": "C25", "title": "Element-wise addition", "statement": "ElementWiseMatrixAdd / ElementWiseVectorAdd put the cell-wise sum of the operands in the output.", "quantifier": "all pairs of equal-shape operands", "why_tests_cant": "agreement on 0/1 examples with disjoint support says nothing about other values", "anchors": ["operators.go: elementWiseAdd, ElementWiseMatrixAdd, ElementWiseVectorAdd"]}
{"id": "C26", "title": "Apply applies the unary operator cell by cell", "statement": "Apply(in, mask, u, out) sets out(r,c) = u(in(r,c)) for every stored cell of in that is not masked, also when out is in.", "quantifier": "all inputs, masks and operators", "why_tests_cant": "quantifies over all shapes and all masks; a symmetric example hides a transposed write", "anchors": ["operators.go: Apply"]}
{"id": "C27", "title": "Equal decides equality", "statement": "A.Equal(B) is true if and only if A and B have the same dimensions and the same cells, whatever the formats; NotEqual is its negation; Equal is reflexive and symmetric.", "quantifier": "all pairs of matrices of all formats and element types", "why_tests_cant": "equality is decided from the enumeration of one operand and a cached count, which is only sound for some pairs of formats", "anchors": ["operators.go: Equal, NotEqual", "matrixRegistry.go: IsSparseMatrix"]}
{"id": "C28", "title": "Compare is a total order on rune matrices", "statement": "For dense rune matrices of the same shape with valid code points, Compare returns 0 exactly for equal matrices, is antisymmetric and transitive, and agrees with the lexicographic order of the code points; Less and Greater are converse.", "quantifier": "all matrices of valid runes", "why_tests_cant": "order laws over UTF-8 encodings of arbitrary code points", "anchors": ["operators.go: Compare, Less, Greater, String"]}
{"id": "C29", "title": "BubbleRow sorts rows, BubbleColumns sorts columns", "statement": "BubbleRow returns a matrix whose rows are a permutation of the input's rows in non-decreasing Compare order, and BubbleColumns likewise for columns; the input is not modified.", "quantifier": "all dense rune matrices", "why_tests_cant": "sortedness and permutation for all inputs is an induction over two nested loops", "anchors": ["sort/bubble.go: BubbleRow, BubbleColumns", "operators.go: Compare"]}
{"id": "C30", "title": "Reduce is a left fold under every schedule and never deadlocks", "statement": "MonoID.Reduce fed by a producer that sends values v1..vn on the slice channel and then signals done delivers exactly the left fold of the operator over v1..vn from the unit, whatever the interleaving of producer, reducer and consumer; no reachable state is stuck before the result is delivered, every schedule is finite, and no goroutine is left behind.", "quantifier": "all value sequences and all interleavings of the three goroutines", "why_tests_cant": "schedules cannot be enumerated by tests", "anchors": ["binaryop/monoID.go: Reduce", "operators.go: ReduceMatrixToScalarWithMonoID"]}
{"id": "C31", "title": "ReduceMatrixToScalar is the sum of all cells", "statement": "ReduceMatrixToScalar(A) is the sum of At(r,c) over all unmasked cells for every format; with a custom monoid it is the fold over the enumerated cells in enumeration order.", "quantifier": "all matrices of all formats, all masks", "why_tests_cant": "order of summation and omission of zeros differ by format; equality of the results is a theorem about all matrices", "anchors": ["operators.go: ReduceMatrixToScalar, ReduceMatrixToScalarWithMonoID, ReduceVectorToScalar"]}
{"id": "C32", "title": "ReduceMatrixToVector is the column maximum", "statement": "ReduceMatrixToVector(A) has length Columns() and its c-th entry is the maximum of column c.", "quantifier": "all matrices", "why_tests_cant": "the monoid unit zero matters only for particular sign patterns", "anchors": ["operators.go: ReduceMatrixToVector, ReduceMatrixToVectorWithMonoID", "default.go: DefaultMonoIDMaximum"]}
{"id": "C33", "title": "Cancellation stops an operation and keeps it safe", "statement": "If the context is cancelled at any point, Add, Subtract, Transpose, Apply, Negative, multiply and the element-wise operations return (no hang, no panic), and every output cell then holds either its old value or the value the uncancelled run gives it.", "quantifier": "all cancellation points", "why_tests_cant": "every poll of the context is a different crash point", "anchors": ["operators.go: ctx.Done() selects"]}
{"id": "C34", "title": "Cancellation also stops Scalar and the reductions", "statement": "If the context is cancelled, Scalar and ReduceMatrixToScalar return.", "quantifier": "all matrices and cancellation points", "why_tests_cant": "non-termination and deadlock cannot be observed by a test", "anchors": ["operators.go: Scalar, ReduceMatrixToScalarWithMonoID"]}
{"id": "C35", "title": "MutexMatrix serialises writers", "statement": "In every execution of concurrent calls on one MutexMatrix, while a mutating call (Set, Update, Clear) is inside the wrapped matrix no other call is inside it; every mutating call takes effect atomically, so the final contents are those of some sequential order consistent with lock acquisition.", "quantifier": "all numbers of goroutines, all programs, all interleavings", "why_tests_cant": "schedules cannot be enumerated by tests", "anchors": ["mutexMatrix.go"]}
{"id": "C36", "title": "Breadth-first search visits level sets", "statement": "For a graph given by a dense matrix A with non-negative entries (edge l->r when A(r,l) != 0), the predicate passed to breadthfirst.Search is called at level d = 1,2,... with a vector that is non-zero exactly at the vertices whose shortest-path distance from the source is d; the search calls it at most Rows() times and returns the first level that satisfies it.", "quantifier": "all graphs, sources and predicates", "why_tests_cant": "level-set correctness is an induction over all graphs", "anchors": ["breadthfirst/breadthFirst.go: Search", "operators.go: MatrixVectorMultiply, ElementWiseVectorAdd"]}
{"id": "C37", "title": "Symmetric decides symmetry", "statement": "Symmetric(A) is true if and only if A is square and A(i,j) = A(j,i) for all i, j.", "quantifier": "all matrices of every format", "why_tests_cant": "composition of Transpose and Equal over all patterns", "anchors": ["math/symmetric/symmetric.go: Symmetric"]}
{"id": "C38", "title": "SkewSymmetric decides skew-symmetry", "statement": "SkewSymmetric(A) is true if and only if A is square and A(i,j) = -A(j,i) for all i, j.", "quantifier": "all matrices of every format", "why_tests_cant": "composition of Negative, Transpose and Equal over all patterns", "anchors": ["math/skewsymmetric/skewSymmetric.go: SkewSymmetric"]}
{"id": "C39", "title": "Reduced computes the reduced row echelon form", "statement": "Over a field (exact arithmetic) Reduced(A) terminates, returns a matrix in reduced row echelon form that has the same row space (solution set) as A, and leaves A unchanged.", "quantifier": "all matrices of all sizes", "why_tests_cant": "termination of the pivot search and the echelon invariant are inductions", "anchors": ["math/reduced/reduced.go: Reduced"]}
{"id": "C40", "title": "Strassen multiplication equals the ordinary product", "statement": "MultiplyCrossoverPoint(A,B,k) returns the matrix product A*B for all square matrices.", "quantifier": "all sizes, contents and crossover points", "why_tests_cant": "odd sizes at some recursion level and non-square shapes are easily missed; the identity must hold in every ring including wrap-around integers", "anchors": ["math/strassen/strassen.go: Multiply, MultiplyCrossoverPoint"]}
{"id": "C41", "title": "Strassen's result does not depend on goroutine scheduling", "statement": "Whatever the order in which the seven worker goroutines deliver their products, the assembled result is the same, every worker's send is received and the call returns.", "quantifier": "all delivery orders", "why_tests_cant": "7! orders at every level of the recursion", "anchors": ["math/strassen/strassen.go: MultiplyCrossoverPoint, subMatrixM"]}
{"id": "C42", "title": "The sparse-matrix registry recognises the sparse formats", "statement": "IsSparseMatrix(A) is true exactly when A is a CSR, CSC or sparse-vector value, for every element type; registering a name twice panics and leaves the registry unchanged, and registering a new name adds exactly that name.", "quantifier": "all element types and registration histories", "why_tests_cant": "the registry is keyed by the printed type name, which contains the type argument", "anchors": ["matrixRegistry.go: RegisterMatrix, IsSparseMatrix"]}
{"id": "C43", "title": "ReSize gives a vector of the requested size", "statement": "DenseVector.ReSize(n) for n >= 0 returns n, sets Length() to n, keeps the first min(n, old length) elements and zero-fills the rest.", "quantifier": "all lengths and sizes", "why_tests_cant": "an off-by-role error (n versus length-n) agrees at one point only", "anchors": ["denseVector.go: ReSize"]}
{"id": "C44", "title": "Mask element is the Boolean cast of the value", "statement": "Element(r,c) is true exactly when the value at (r,c) is non-zero.", "quantifier": "all values", "why_tests_cant": "the comparison is > 0, which differs from != 0 only on negative values", "anchors": ["csrMatrix.go: Element", "cscMatrix.go: Element", "denseMatrix.go: Element", "denseVector.go: Element", "sparseVector.go: Element"]}
{"id": "C45", "title": "Default monoids and operators obey their laws", "statement": "Addition with unit zero is a commutative monoid on every integer type (wrap-around included); Minimum and Maximum are associative, commutative and idempotent and return one of their arguments; comparison operators agree with the order and are mutually consistent; LOR, LAND, LXOR and LogicalInverse satisfy the Boolean-algebra laws.", "quantifier": "all values of the element type", "why_tests_cant": "laws over all pairs and triples of machine integers", "anchors": ["binaryop/operators.go", "operators/arithmetic.go", "operators/comparison.go", "operators/other.go", "operators/boolean.go", "default.go"]}
{"id": "C46", "title": "In-place operation: output aliasing an operand", "statement": "multiply, Add, Subtract and the element-wise operators give the same output cells when the output object is one of the operands as when it is a separate object.", "quantifier": "all operands, all aliasing patterns", "why_tests_cant": "aliasing bugs depend on the order of reads and writes", "anchors": ["operators.go: multiply, elementWiseAdd, elementWiseMultiply, Add, Subtract"]}
{"id": "C47", "title": "Constructors do not retain the caller's array", "statement": "After building a matrix from an array, later writes to that array do not change the matrix and writes to the matrix do not change the array.", "quantifier": "all arrays and later writes", "why_tests_cant": "sharing is a property of all later writes", "anchors": ["csrMatrix.go: NewCSRMatrixFromArray", "cscMatrix.go: NewCSCMatrixFromArray", "denseMatrix.go: NewDenseMatrixFromArray", "denseVector.go: NewDenseVectorFromArray"]}
{"id": "C48", "title": "Dimension mismatch is rejected before any write", "statement": "Add, Subtract, multiply, and the vector element-wise operators panic if and only if the operand shapes are incompatible (or the mask shape differs from the output's) given an output of the right shape, and a rejected call writes nothing.", "quantifier": "all shapes", "why_tests_cant": "iff over all shapes, and absence of effects", "anchors": ["operators.go: multiply, Add, Subtract, ElementWiseVectorAdd, ElementWiseVectorMultiply, ElementWiseMatrixAdd, ElementWiseMatrixMultiply"]}
{"id": "C49", "title": "Blocking mode survives the context round trip", "statement": "BlockingMode(NewContext(ctx, mode)) is (mode, true) for every mode and parent context, and (Blocking, false) for a context not made by NewContext.", "quantifier": "all modes and contexts", "why_tests_cant": "trivial but universally quantified", "anchors": ["context.go: NewContext, BlockingMode"]}
{"id": "C50", "title": "Enumerate on a sparse vector visits each written position once", "statement": "Driving Enumerate() on any reachable sparse vector never panics or loops forever, yields pairwise distinct positions, and yields exactly the positions whose last written value is non-zero together with that value.", "quantifier": "every history of SetVec calls on a sparse vector", "why_tests_cant": "depends on the whole write history; a stale or duplicated entry appears only for particular orders of writes", "anchors": ["sparseVector.go: sparseVectorIterator, SetVec, index, insert, remove"]}
{"id": "C51", "title": "A reduction leaves no goroutine behind", "statement": "When ReduceMatrixToScalar (or its MonoID variant) has left, by returning or by panicking, every goroutine it started has ended or ends without further help.", "quantifier": "all matrices, masks, monoids and interleavings", "why_tests_cant": "a leaked goroutine has no effect on any returned value, and it depends on the schedule", "anchors": ["operators.go: ReduceMatrixToScalarWithMonoID", "binaryop/monoID.go: Reduce"]}
{"id": "C52", "title": "Operators return on reachable operands", "statement": "Every operator call whose operand, output and mask shapes fit returns, without panicking or looping, whatever the formats and the history of the objects and whenever the context is cancelled; the output keeps its format and shape and is again in a state that constructors and in-range writes produce, and no other object changes. The methods that allocate their result return such an object.", "quantifier": "all operators, all reachable objects of the five formats, masks, cancellation points", "why_tests_cant": "a panic or a hang needs a particular combination of format, history, aliasing and cancellation point", "anchors": ["operators.go: multiply, Add, Subtract, elementWiseAdd, elementWiseMultiply, Apply, Negative, Transpose, Equal", "csrMatrix.go, cscMatrix.go, denseMatrix.go, denseVector.go, sparseVector.go: Multiply, Add, Subtract, Transpose, Iterator"]}
{"id": "C53", "title": "UpdateReturnPointer and SetReturnPointer report the position of the cell", "statement": "On a reachable CSR (CSC) matrix and a cell inside it, UpdateReturnPointer(r, c, f) returns as first result the number of non-zero cells before (r, c) in row-major (column-major) order, which is the position at which the cell stands in the enumeration when it is non-zero, and as second result the number of rows (columns) if the call turned a zero cell into a non-zero one and 0 otherwise; the matrix is left as Update leaves it, and the enumeration before and after differ only in that cell. SetReturnPointer is the same with a constant function. Outside the matrix both panic.", "quantifier": "all reachable CSR and CSC matrices, all cells, all update functions", "why_tests_cant": "the position depends on the whole history of insertions and removals", "anchors": ["csrMatrix.go: UpdateReturnPointer, SetReturnPointer", "cscMatrix.go: UpdateReturnPointer, SetReturnPointer"]}
{"id": "C54", "title": "What each operator leaves in its output, exactly", "statement": "With an output that is neither an operand nor the mask nor a sparse vector, and shapes that fit, every operator returns and leaves in each cell (r, c) the mask does not protect: the multiplications, the sum of the products of what multiplication reads of row r and column c (VectorMatrixMultiply with its operands exchanged); Add, the sum of the operands in the cells that the enumerated operand delivers and the old value elsewhere; Subtract, the first operand minus the old value of the output in the cells the first operand delivers (the second operand is not read); the element-wise product, the common value where the operands agree; the element-wise sum, the second operand where it is non-zero, else the first where it is non-zero, else the old value; Apply and Transpose, the image of the input at (c, r), consulting the mask at (c, r); Negative, the negated old value. Protected cells keep their value and nothing else changes.", "quantifier": "all operators, operands in all formats (a sparse-vector operand with packed contents, C04), masks, element types that form a commutative ring", "why_tests_cant": "the cells differ from the textbook result only for particular sparsity patterns, formats and old contents of the output", "anchors": ["operators.go: multiply, Add, Subtract, elementWiseMultiply, elementWiseAdd, Apply, Negative, Transpose"]}
{"id": "C55", "title": "Rows, columns and row arrays are snapshots; RawMatrix is the matrix itself", "statement": "RowsAt(i), ColumnsAt(j) and RowsAtToArray(i) return an object (array) that holds the row or column as it is at that moment and shares no backing array with anything: the call changes no object, and whatever is done afterwards to the matrix, to what was returned and to other objects, in any interleaving, each ends up holding what its own calls make of what it held. DenseMatrix.RawMatrix() is different: what it returns is the matrix's own array, so an assignment to an element of it is visible through At and conversely, until Clear, which gives the matrix new arrays and leaves the old ones to the holder.", "quantifier": "all five formats, all programs over any number of objects, every allocation policy of append", "why_tests_cant": "sharing shows only for particular interleavings of writes and particular spare capacities", "anchors": ["csrMatrix.go: ColumnsAt, RowsAt, RowsAtToArray", "cscMatrix.go: ColumnsAt, RowsAt, RowsAtToArray", "denseMatrix.go: ColumnsAt, RowsAt, RowsAtToArray, RawMatrix, Clear", "denseVector.go, sparseVector.go: ColumnsAt, RowsAt, RowsAtToArray"]}
{"id": "C56", "title": "A mask is its shape and its answers", "statement": "Two masks of the same shape whose Element answers agree (in whatever format they are stored, whatever positive values they hold; no mask counts as one that is false everywhere) make any operator do exactly the same: same result, same panic, same final state of every object. Where the shapes fit, agreement at the cells of the output suffices.", "quantifier": "all operators, operands in any aliasing, all masks other than the output itself, all cancellation moments, all element types", "why_tests_cant": "the two masks range over all formats and contents, and the claim compares two whole runs in every state", "anchors": ["operators.go: every operator that takes a mask", "mask.go: Element", "csrMatrix.go, cscMatrix.go, denseMatrix.go: Element"]}
{"id": "C57", "title": "Operators depend on nothing but their arguments", "statement": "The outcome of an operator (return, panic, or running on), the contents it leaves in operands, output and mask, and the number of times it polls the context depend only on the contents of operands, output and mask, on which of these are the same object, on the context and on the registered formats; not on any other object, on addresses or on how many objects were allocated. The same for Equal.", "quantifier": "all operators, all pairs of program states, all renamings of objects, all cancellation moments, all element types", "why_tests_cant": "the claim is about pairs of runs in arbitrary surroundings", "anchors": ["operators.go: every operator, Equal"]}
{"id": "C58", "title": "Floating-point elements: what the operators compute, bit for bit", "statement": "For float64 and float32 elements every operator writes, for each unmasked output cell, exactly the number obtained by the IEEE 754 operations on the operand cells in the documented order (inner products from the left starting at +0), except that a compressed output holds +0 where that number is -0; NaN, infinities and overflow are included. A.Add(B) for dense A gives the float nearest to the exact sum wherever that does not overflow; for dense operands it is commutative bit for bit; A.Subtract(A) for dense A is +0 in finite cells and NaN in all others. Addition is not associative.", "quantifier": "all twelve operators, all float values, all masks, operands and aliasing as allowed by C54, any binary format", "why_tests_cant": "2^64 values per cell with special cases (NaN, infinities, signed zeros, ties); sampled tests compare with a tolerance", "anchors": ["operators.go: all operators", "csrMatrix.go, cscMatrix.go: Set dropping zeros", "constraints/number.go:7-10"]}
{"id": "C59", "title": "Accuracy of floating-point matrix products", "statement": "A.Multiply(B) with float elements (operands whose rows and columns are read in full, in particular dense ones): every finite cell of the result stems from finite cells and differs from the exact inner product by at most ((1+u)^n - 1) sum|a||b| + n (1+u)^n eta/2, with u = 2^-53 (2^-24 for float32), eta the least positive number, n the inner dimension; a cell is finite whenever its operands are and (1+u)^n (sum|a||b| + n eta/2) does not exceed the greatest finite number; integer cells with sum|a||b| <= 2^53 (2^24) give the exact result.", "quantifier": "all shapes, all float contents, all matrix formats whose reads are exact", "why_tests_cant": "a worst-case rounding bound cannot be established by sampling", "anchors": ["operators.go: MatrixMatrixMultiply", "csrMatrix.go, cscMatrix.go, denseMatrix.go: Multiply"]}
{"id": "C60", "title": "Equal on floating-point contents", "statement": "For two operands of one storage class, A.Equal(B) is true exactly when the shapes agree and every cell of A is == the cell of B: +0 and -0 count as equal, NaN as different from everything; NotEqual is the negation. A.Equal(A) holds exactly when no cell of A is NaN.", "quantifier": "all float contents, all pairs of formats of one storage class (sparse vectors with packed contents, C04), all shapes", "why_tests_cant": "needs all cells, including non-stored ones and NaN, in all formats", "anchors": ["operators.go: Equal, NotEqual"]}
{"id": "C61", "title": "Accuracy of floating-point reductions", "statement": "ReduceMatrixToScalar with float elements: a finite result stems from finite unmasked cells and differs from their exact sum by at most ((1+u)^(n-1) - 1) sum|a|, n the number of stored entries; if the unmasked cells are integers with sum|a| <= 2^53 (2^24 for float32) it is exact, whatever the format. In general the result depends on the storage format: the same matrix in CSR and CSC form can give different sums.", "quantifier": "all matrices of all formats, dense vectors and gap-free sparse vectors, all masks, all float contents", "why_tests_cant": "a worst-case rounding bound over all contents and orders", "anchors": ["operators.go: ReduceMatrixToScalar, ReduceScalar"]}
{"id": "C62", "title": "Reduced on floating-point matrices", "statement": "Reduced with float elements returns a matrix of the argument's shape and format, leaves the argument alone, and returns a reduced row echelon form of the argument's rank.", "quantifier": "all finite float matrices of all formats", "why_tests_cant": "rounding residues that become false pivots depend on particular values", "anchors": ["math/reduced/reduced.go:15-77"]}
{"id": "C63", "title": "Ordered MutexMatrix values: exclusion, no deadlock", "statement": "Any number of goroutines call methods of any number of MutexMatrix values, the calls nested in any way: the callback of x.Update makes calls while x is locked; x.Multiply(y), Add, Subtract, Equal and NotEqual call y while x is locked for reading, and y may be of a type that embeds a *MutexMatrix (a *MutexMatrix itself is no Matrix: it has no CopyLogical and its Copy returns a MatrixLogical; a type that embeds it and adds the two is one); x may wrap such a matrix. While a goroutine is inside Set or Update of x, no other goroutine is inside a locking method of x. No execution has more than three lock operations per call. If the matrices can be ordered so that, among those that some goroutine calls Set or Update on, every call made while holding one is on a later one, then no execution deadlocks and each can be completed; in particular when methods are called with plain arguments and callbacks that make no calls, when a method of x is called with the argument y only for x before y, and when nobody calls Set or Update.", "quantifier": "all numbers of goroutines and matrices, all programs of nested calls, all interleavings", "why_tests_cant": "deadlocks depend on the interleaving; the number of interleavings is unbounded", "anchors": ["mutexMatrix.go:14-191", "csrMatrix.go:253-271", "operators.go:19-62, 170-212, 492-549"]}
{"id": "C64", "title": "MutexMatrix methods never block for ever", "statement": "Any goroutines that call methods of MutexMatrix values, with callbacks of Update that call methods and with arguments of types that embed a *MutexMatrix, can always finish their calls: no reachable state is a deadlock.", "quantifier": "all numbers of goroutines and matrices, all programs of nested calls, all interleavings", "why_tests_cant": "a deadlock needs a writer to arrive between two read locks of one call", "anchors": ["mutexMatrix.go:38-43, 54-59, 102-123, 142-155"]}
{"id": "C65", "title": "Scalar and Negative on floating-point matrices", "statement": "Scalar(alpha) with float elements returns, cell by cell, the IEEE product: NaN propagates, the sign of every result that is not NaN is the product of the signs (also when the product underflows to zero or overflows), and where nothing overflows the cell is a float nearest to the exact product. Negative() negates every cell exactly, in every format.", "quantifier": "all float matrices of all formats, every alpha", "why_tests_cant": "underflow to zero takes the element-removal path of the compressed formats; signed zeros and infinities are rarely sampled", "anchors": ["operators.go: Scalar, Negative", "csrMatrix.go: cSRMatrixMap.Map", "cscMatrix.go: cSCMatrixMap.Map"]}
{"id": "C66", "title": "Expressions over dense matrices compute what they denote", "statement": "A program that combines dense matrices by Add, Subtract, Multiply, Scalar, Negative and Transpose, feeding results into further calls in any nesting and using a matrix any number of times, returns the matrix that the same expression denotes in matrix algebra, and changes none of the matrices it was given. Consequently the laws of matrix algebra hold observably: two expressions are Equal exactly when they denote one matrix, so (A·B)·C Equals A·(B·C), A·(B+C) Equals A·B+A·C, the transpose of A·B Equals Bᵀ·Aᵀ, A−B Equals A+(−B), n rounds of Multiply by A give the power of A, and Symmetric(A+Aᵀ), Symmetric(A·Aᵀ) and SkewSymmetric(A−Aᵀ) answer true.", "quantifier": "all expressions of any size and depth, all shapes that fit, all dense matrices, every sharing of operands, any commutative ring of elements", "why_tests_cant": "the expressions and shapes are unbounded and results may share storage with operands", "anchors": ["denseMatrix.go:209-262", "operators.go: MatrixMatrixMultiply, Add, Subtract, Negative, Scalar, Transpose, Equal", "math/symmetric", "math/skewsymmetric"]}
{"id": "C67", "title": "Constructors reject negative dimensions", "statement": "NewCSRMatrix, NewCSCMatrix, NewDenseMatrix(N), NewDenseVector(N) and NewSparseVector panic when a dimension is negative; otherwise they return a matrix or vector with exactly the requested Rows() and Columns() whose every cell reads zero.", "quantifier": "all dimensions of either sign", "why_tests_cant": "tests use small positive dimensions; the answer depends on the sign pattern and the constructor", "anchors": ["csrMatrix.go:30-56", "cscMatrix.go:31-62", "denseMatrix.go:27-77", "denseVector.go:26-62", "sparseVector.go:32-50"]}
{"id": "C68", "title": "ReSize rejects negative sizes", "statement": "DenseVector.ReSize(n) with n < 0 panics.", "quantifier": "all vectors, all backing arrays and capacities, all negative n", "why_tests_cant": "depends on the spare capacity of the backing array, which no method shows", "anchors": ["denseVector.go:88-100"]}
{"id": "C69", "title": "Array constructors reject arrays that are not rectangular", "statement": "NewCSRMatrixFromArray, NewCSCMatrixFromArray and NewDenseMatrixFromArray(N) panic when the array is empty or its rows differ in length.", "quantifier": "all arrays of arrays", "why_tests_cant": "the shapes of ragged arrays are unbounded; what is silently accepted only shows when all of them are considered", "anchors": ["csrMatrix.go: NewCSRMatrixFromArray", "cscMatrix.go: NewCSCMatrixFromArray", "denseMatrix.go: NewDenseMatrixFromArray, NewDenseMatrixFromArrayN, At, Set"]}
{"id": "C70", "title": "Reduced decides row equivalence and solves linear systems", "statement": "Over a field, for matrices (CSR, CSC, dense) and dense vectors: Reduced(a).Equal(Reduced(b)), for a and b of the same shape and both compressed or both dense, is true exactly when the rows of a and of b have the same linear combinations, and exactly when the homogeneous systems a x = 0 and b x = 0 have the same solutions; Reduced returns its argument's cells exactly when the argument is in reduced row echelon form, so reducing twice is reducing once; for an n x (n+k) matrix [A | B] the first n columns of Reduced are the identity exactly when A is invertible, and then the others are the inverse of A times B.", "quantifier": "all matrices of all shapes, both storage classes, all fields", "why_tests_cant": "each sentence is an equivalence between one run and a statement about all linear combinations or all solutions", "anchors": ["math/reduced/reduced.go: Reduced", "operators.go: Equal"]}
{"id": "C71", "title": "Sorting is canonical", "statement": "For dense rune matrices of valid code points and a context that is not cancelled: two matrices of the same shape get the same cells from BubbleRow (BubbleColumns) exactly when one has the rows (columns) of the other in some order with the same repetitions; BubbleRow (BubbleColumns) returns the cells of its argument exactly when the rows (columns) of the argument are in non-decreasing order.", "quantifier": "all shapes, all contents, all orders", "why_tests_cant": "two runs on every pair of matrices are compared; permutations grow factorially", "anchors": ["sort/bubble.go: BubbleRow, BubbleColumns", "operators.go: Compare"]}
{"id": "C72", "title": "Search with a target: the number of calls is the distance, the result counts shortest walks", "statement": "Search(A, s, p) on a square matrix whose rows multiplication reads back exactly (every dense matrix), with p(v) = (v.AtVec(t) != 0), where no sum of weights over shortest walks is 0 or negative in the arithmetic: if t is at distance d >= 1 from s, p is called exactly d times and the result is not 0 at t; if t = s or t cannot be reached, p is called Rows() times and the result is 0 everywhere. If all cells are 0 or 1 (and the counts do not wrap) the result holds at t the number of shortest walks from s to t.", "quantifier": "all graphs, all sources and targets, all arithmetics", "why_tests_cant": "number of graphs and of walks", "anchors": ["breadthfirst/breadthFirst.go: Search"]}
{"id": "C73", "title": "nil arguments are rejected without effect", "statement": "Equal and NotEqual, as functions and as methods, answer on nil interfaces: nil is equal to nil and to nothing else. Every other operator called with a nil operand or a nil output panics, and no object has changed; so do the reductions to a scalar and to a vector, with any monoid and mask, the methods Multiply, Add and Subtract, Scalar, TransposeToCSR and TransposeToCSC. The exception is Negative, which never looks at its first matrix and does the same whether it is nil or not. Without nil, the tests for nil change nothing.", "quantifier": "all operators, all masks, all states and cancellations, every choice of nil arguments", "why_tests_cant": "the combinations of operator, nil argument, mask and operand shapes; absence of any effect", "anchors": ["operators.go: every operator, Equal, NotEqual, Scalar", "csrMatrix.go, cscMatrix.go, denseMatrix.go, denseVector.go, sparseVector.go: Multiply, Add, Subtract, Equal, NotEqual"]}
{"id": "C74", "title": "Size() is rows times columns", "statement": "Size() returns Rows() * Columns().", "quantifier": "all objects of all formats, dimensions of any sign", "why_tests_cant": "the product of two legal dimensions may overflow; a compressed matrix with huge dimensions costs nothing to make", "anchors": ["csrMatrix.go, cscMatrix.go, denseMatrix.go, denseVector.go, sparseVector.go: Size"]}
{"id": "C75", "title": "String, Less, Greater and Compare accept every rune matrix", "statement": "String returns on every rune matrix the UTF-8 encoding of the enumerated cells in order (all cells row by row for the dense formats, the non-zero ones for the compressed formats); Less and Greater compare these strings and are converse; Compare is 0 for equal matrices and otherwise decided by the strings. None of them changes anything.", "quantifier": "all rune matrices of all formats and shapes", "why_tests_cant": "the strings reserve Size() bytes, which overflows for dimensions no test uses; the order of enumeration over all contents", "anchors": ["operators.go: String, Less, Greater, Compare"]}
{"id": "C76", "title": "Iterating while writing", "statement": "A program may call Set on a matrix while it holds an iterator over it. Then every Next (and every Map callback) gets the next cell of the enumeration that began when the iterator was made, with the value the cell has at that moment; each cell comes once; HasNext turns false exactly when all have come; the writes take effect; and no cell that is non-zero in the end is missed.", "quantifier": "all matrices and vectors of all formats, all interleavings of Next, Map and in-range Set calls", "why_tests_cant": "the number of interleavings of reads and writes is unbounded, and whether a write disturbs the iterator depends on where it stands", "anchors": ["csrMatrix.go: iterator, next, Next, HasNext, Map, set", "cscMatrix.go: iterator, next, Next, HasNext, Map, set", "denseMatrix.go: iterator, next, Next, HasNext, Map", "denseVector.go: iterator, next, Next, HasNext, Map", "sparseVector.go: iterator, next, Next, HasNext, Map"]}
{"id": "C77", "title": "Transpose into itself", "statement": "Transpose(ctx, s, nil, s) on a square matrix s returns and leaves At(j,i) equal to the At(i,j) that s had before, for all i and j. On a matrix that is not square it panics.", "quantifier": "all square matrices of all formats, all element types; masks and cancellation as variants", "why_tests_cant": "the result depends on the order in which the cells are enumerated and on the pattern of zeros, and a symmetric sample hides the fault", "anchors": ["operators.go: Transpose", "csrMatrix.go: Enumerate, Next, Set", "cscMatrix.go: Enumerate, Next, Set", "denseMatrix.go: Enumerate, Next, Set"]}
{"id": "C78", "title": "Operators running at the same time", "statement": "Start any number of operator calls in goroutines of their own, with different outputs none of which is an operand or the mask of another call; operands and masks may be shared. Under every schedule each call ends the way it ends when made alone (return, panic, or loop) and leaves in its output exactly what it leaves when made alone; no other object ever changes; the number of steps does not depend on the schedule; and when all have ended every object is what the same calls leave when made one after the other, in any order.", "quantifier": "any number of calls of the twelve operators, all formats and element types, any masks, any contexts cancelled at any poll, all interleavings at the granularity of the beginning and the end of a method call", "why_tests_cant": "the schedules are far too many to run, and reading a compressed matrix stores what it reads, so sharing an operand is safe only because of an invariant of its representation", "anchors": ["operators.go: all operators", "csrMatrix.go: At, Element, Update, Enumerate", "cscMatrix.go: At, Element, Update", "sparseVector.go: At, Element, Update"]}
{"id": "C79", "title": "Expressions over matrices of any format", "statement": "A program that combines CSR, CSC and dense matrices, in any mixture, by Add, Subtract, Multiply, Negative, Scalar and Transpose, nested in any way, computes the matrix the expression denotes and changes no matrix it was given. Its result depends on the cells and formats of the variables only, not on how they were built, and the laws of matrix algebra hold under Equal for results that are both compressed or both dense.", "quantifier": "all expressions of any depth and sharing, all shapes and contents, all mixtures of the three matrix formats, every element type that is a commutative ring (wrap-around integers included)", "why_tests_cant": "each method is wrong for some formats and contents, so whether a composed program is right depends on the formats and zero patterns of all intermediate results", "anchors": ["csrMatrix.go: Add, Subtract, Multiply, Negative, Scalar, Transpose, Equal", "cscMatrix.go: the same", "denseMatrix.go: the same", "operators.go: Add, Subtract, MatrixMatrixMultiply, Negative, Scalar, Transpose, Equal"]}
{"id": "C80", "title": "Equal is an equivalence", "statement": "Equal is reflexive, symmetric and transitive on matrices and vectors of all formats: it answers the same with receiver and argument exchanged, and if a.Equal(b) and b.Equal(c) then a.Equal(c). It answers yes only for objects with the same shape and the same cells.", "quantifier": "all triples of objects in all five formats, all contents and element types with exact arithmetic", "why_tests_cant": "the answers for mixed formats are wrong in different ways per element type; whether the errors are consistent with each other concerns all triples of objects", "anchors": ["operators.go: Equal", "csrMatrix.go: Equal", "denseMatrix.go: Equal", "matrixRegistry.go"]}
{"id": "C81", "title": "Reductions with any operation agree across storage formats", "statement": "ReduceMatrixToScalarWithMonoID(s, monoID, mask) and ReduceMatrixToVectorWithMonoID, called with a commutative monoid, return the fold of its operation over all unmasked cells of the matrix (of each column), zero cells included, in whatever format the matrix is stored.", "quantifier": "all units and operations of the caller's, all shapes, contents and masks, all matrix formats", "why_tests_cant": "the operation is a function the caller supplies; which operations are affected by the cells a compressed format leaves out is a statement about all functions", "anchors": ["operators.go: ReduceMatrixToScalarWithMonoID, ReduceMatrixToVectorWithMonoID, ReduceVectorToScalarWithMonoID", "binaryop/monoID.go: Reduce", "csrMatrix.go, cscMatrix.go, denseMatrix.go: Enumerate, ColumnsAt"]}
{"id": "C82", "title": "Order, minimum and maximum of floating-point elements", "statement": "With float elements, LessThan, Equal and the other comparison operators are the order of the extended number line (-Inf, numbers with -0 equal to 0, +Inf), and NaN compares with nothing, itself included; Minimum and Maximum return one of their arguments and are associative and commutative; ReduceMatrixToVector returns for each column NaN if it contains a NaN and otherwise the greatest of 0 and its cells.", "quantifier": "all float32 and float64 values, all shapes, contents and matrix formats", "why_tests_cant": "the claims are about all pairs and triples of floats and all columns; NaN makes the operation neither associative nor commutative, so the result depends on where in the column the NaN stands and on the storage format", "anchors": ["binaryop/operators.go: Minimum, Maximum", "operators/comparison.go", "operators/other.go", "operators.go: ReduceMatrixToVector", "default.go: DefaultMonoIDMaximum"]}
{"id": "C83", "title": "Sums of floating-point matrices do not depend on the storage format", "statement": "ReduceMatrixToScalar with float elements returns the sum of the unmasked cells row by row, each addition rounded, bit for bit, whatever the format: objects that hold the same cells up to the sign of zeros have the same sum, NaN and infinities included. ReduceMatrixToVectorWithMonoID with the addition sums every column from top to bottom in every format. For CSC the scalar is summed column by column instead.", "quantifier": "all dense, CSR and CSC matrices and dense vectors, all float contents (NaN, infinities, signed zeros, subnormal numbers), all masks of the right shape", "why_tests_cant": "bit equality over all contents; that a running sum never is -0 is an invariant, and the order only matters for contents that round", "anchors": ["operators.go: ReduceMatrixToScalar, ReduceMatrixToVectorWithMonoID", "default.go: DefaultMonoIDAddition", "csrMatrix.go, cscMatrix.go, denseMatrix.go: Enumerate"]}
{"id": "C84", "title": "Floats overflow and underflow at the limits of their type", "statement": "With float64 and float32 elements the largest finite number is math.MaxFloat64 / math.MaxFloat32, the smallest positive one math.SmallestNonzeroFloat64 / 32 and the number after 1 is 1 + 2^-52 / 1 + 2^-23. A cell of Add, and of the product of a column by a row, is infinite exactly where the exact result reaches the overflow threshold (2^1024 - 2^970, 2^128 - 2^103), with its sign, and zero exactly where the exact result is at most the underflow threshold (2^-1075, 2^-150) in absolute value.", "quantifier": "all finite operands; Add of dense matrices into an output of any format, products of a column by a row in any formats", "why_tests_cant": "exact thresholds: the numbers on the two sides of each threshold differ in the last bit, among 2^64 representations", "anchors": ["operators.go: Add, MatrixMatrixMultiply", "matrix.go: constraints.Number"]}
{"id": "C85", "title": "No call changes the type or the dimensions of an object", "statement": "Rows, Columns, Size and the concrete type of a matrix or vector stay what they were when it was made, and a dense matrix or vector keeps as many elements as its dimensions say: no sequence of calls of the packages other than ReSize changes them, on any objects in any state, however the calls end (return, panic, cancelled context, endless loop). While operators run concurrently on shared objects they hold between any two of their calls of methods, and Rows, Columns and Size of a MutexMatrix, which take no lock, always answer with the same numbers. (Inside Clear of a dense matrix there is a moment when the rows are missing: the dimensions stay, the elements are gone.)", "quantifier": "all programs made of calls of the packages, all arguments, aliasings and states (ill-formed ones included), all schedules of concurrent calls", "why_tests_cant": "unbounded call sequences and interleavings, states in the middle of a call that panics or is cancelled", "anchors": ["matrix.go: Matrix", "csrMatrix.go, cscMatrix.go, denseMatrix.go, denseVector.go, sparseVector.go", "operators.go", "mutexMatrix.go: Rows, Columns, Size", "denseVector.go: ReSize"]}
{"id": "C86", "title": "A MutexMatrix is a table that goroutines use one at a time", "statement": "When goroutines call At, Set, Update, Element, RowsAt, ColumnsAt, RowsAtToArray, Copy and Transpose (and Rows, Columns, Size) of one MutexMatrix, with any indices, there is one order of the calls, in which each goroutine's calls are in program order and a call that returned before another began precedes it, such that every call answers what it would answer on a plain table of numbers on which the calls are made one after the other in that order: out-of-range calls panic and change nothing, the matrices returned are whole snapshots, and no reader sees half a write. When one goroutine makes all the calls, Clear included, each does what the method of the wrapped matrix does.", "quantifier": "any number of goroutines, all programs of these calls, all indices and update functions, all interleavings of the accesses of the calls, CSR, CSC and dense matrices", "why_tests_cant": "the claim is about every interleaving and the existence of a linearization of unbounded executions; a race detector run samples a few schedules", "anchors": ["mutexMatrix.go", "csrMatrix.go: Update, At, Set, Element, Clear"]}
{"id": "C87", "title": "Products of floats are as accurate on machines that fuse multiplication and addition", "statement": "The Go language lets a compiler compute sum += a * b with one rounding instead of two, and the Go compiler does so on several machines. Whichever steps are fused, A.Multiply(B) of float32 or float64 matrices writes the same cells, leaves the same objects alone and panics in the same cases; every finite cell is within ((1+u)^n - 1) times the sum of |a||b|, plus n (1+u)^n half-least-positive-numbers, of the exact inner product; a cell is finite if its operands are and the sum of |a||b| stays below the greatest finite number by the same factor; and products of integers are exact as long as the sum of |a||b| is at most 2^53 (2^24 for float32). With one column in A the machines agree up to the sign of a product that underflows. In general the numbers do depend on the machine: (a, b) times (b, -a) is 0 where nothing is fused, and need not be where something is.", "quantifier": "all choices of which steps are fused, all binary formats, shapes and contents read exactly (see C20), NaN, infinities, subnormals and signed zeros included; masks and cancelled contexts for what is written", "why_tests_cant": "tests run on one machine and compare a few products; the bound is about all inputs and all ways of fusing", "anchors": ["operators.go: multiply", "csrMatrix.go: Multiply", "cscMatrix.go: Multiply", "denseMatrix.go: Multiply", "constraints/number.go"]}
{"id": "C88", "title": "Use of a MutexMatrix by several goroutines is free of data races", "statement": "Goroutines that share a MutexMatrix and use nothing but its methods never race: no two of them are about to access the same place in memory, one of them to write it, with no lock between. This holds for At, Element, Set, Update, RowsAt, ColumnsAt, RowsAtToArray, Copy, Rows, Columns and Size of a MutexMatrix around a dense matrix or dense vector, and for those without At and Element around a CSR or CSC matrix. Around a CSR or CSC matrix At(r, c) and Element(r, c) of a non-zero cell write back what they have read while they hold the lock for reading only: they race with each other, on the same cell, and with the calls that read the values. If all calls are At and Element a race is possible exactly if two goroutines look at the same non-zero cell. Such a write never changes the matrix, and no other call of this list writes a place that another goroutine is accessing. Values, which takes no lock, races with Set; Clear, which takes the lock for reading, races with At.", "quantifier": "all numbers of goroutines, programs, interleavings and matrices a program can make; the accesses of At, Element, Set, Update and Clear of CSR and CSC matrices one by one", "why_tests_cant": "a test, with or without the race detector, sees a few interleavings of a few programs; the claim is about all of them", "anchors": ["mutexMatrix.go: At, Element, Set, Update, RowsAt, ColumnsAt, RowsAtToArray, Copy, Values, Clear", "csrMatrix.go: At, Update, insert, remove, columnIndex", "cscMatrix.go: At, Update, insert, remove, rowIndex"]}
{"id": "C89", "title": "A matrix that nobody writes can be read by several goroutines", "statement": "Goroutines that share a matrix without a lock and only read it (no Set, Update, Clear or Map of an iterator) get, in every interleaving, what each call returns when it is made alone, and the matrix stays as it was. For dense matrices and vectors there is no data race. A CSR or CSC matrix is another matter: At(r, c) and Element(r, c) of a non-zero cell write the cell back, so goroutines that call At and Element have a data race in some execution exactly if two of them look at the same non-zero cell; such a write never changes the matrix, and without At and Element there is no race.", "quantifier": "all numbers of goroutines, programs of reading calls, interleavings and matrices a program can make (sparse vectors for the results only); the accesses of At and Element of CSR and CSC matrices one by one", "why_tests_cant": "a test sees a few interleavings, and the write is invisible in the result", "anchors": ["csrMatrix.go: At, Element, Update", "cscMatrix.go: At, Element, Update", "denseMatrix.go: At", "denseVector.go: At", "sparseVector.go: At"]}
{"id": "C90", "title": "Clear of a MutexMatrix is atomic as long as nothing reads meanwhile", "statement": "Clear of a MutexMatrix takes the lock for reading only, so that several goroutines can be inside Clear at the same time, and inside reads. As long as no read (At, Element, RowsAt, ColumnsAt, RowsAtToArray, Copy and the like) is inside the matrix together with a Clear, in particular if the goroutines only write, this does no harm: there is one order of all the calls, the order in which they acquired the lock, such that every call has the outcome it has when they are made one after the other in that order, the matrix in the end is the one these calls leave, no Clear panics, and whenever no Set, Update or Clear is under way the matrix is whole. This holds however the Clears interleave field by field and row by row, also when one of them takes away the rows another has just put and the other returns before they are back. It does not hold when a read overlaps: At of a valid index of a dense matrix can then panic.", "quantifier": "all numbers of goroutines, programs and interleavings of the accesses, CSR, CSC and dense matrices and vectors", "why_tests_cant": "the claim is about every interleaving of any number of overlapping Clears; a test sees a few", "anchors": ["mutexMatrix.go: Clear", "csrMatrix.go: Clear", "cscMatrix.go: Clear", "denseMatrix.go: Clear", "denseVector.go: Clear", "sparseVector.go: Clear"]}
{"id": "C91", "title": "Results written into an empty sparse vector", "statement": "When the output of MatrixMatrixMultiply, MatrixVectorMultiply, VectorMatrixMultiply, Add, Subtract, the element-wise products, Apply or Transpose is an empty sparse vector that is neither an operand nor the mask, and the shapes fit, the call succeeds and changes nothing else, Enumerate of the vector then delivers exactly the non-zero values the operator computes (0 where the mask protects), in increasing order of position, Values counts them, and AtVec, At and Element of each position return the value computed. (The last part is false of the code: a position beyond the number of non-zero values reads as 0. It is right if and only if no non-zero value lies beyond the position that is the number of non-zero values. The element-wise sum, which makes two passes, can even leave two entries at one position.)", "quantifier": "all operands in all formats, all lengths, all masks, all element types whose zero test is exact", "why_tests_cant": "whether a value is readable depends on the number of non-zero values of the whole result; small dense examples all pass", "anchors": ["operators.go: multiply, Add, Subtract, elementWiseMultiply, Apply, Transpose", "sparseVector.go: AtVec, SetVec, index"]}
{"id": "C92", "title": "Arithmetic on a MutexMatrix is arithmetic on one moment of it", "statement": "When goroutines call Scalar, Negative, Add, Subtract, Multiply, Equal and NotEqual of one MutexMatrix, while others call At, Set, Update, Element, RowsAt, ColumnsAt, RowsAtToArray, Copy and Transpose, there is one order of the calls (each goroutine's in program order, a call that returned before another began first) such that each arithmetic call returns the multiple, the negation, the sum, the difference, the product or the comparison of the table of numbers that the writes before it in that order have made: the result never mixes two states of the matrix. Operands whose shapes do not fit panic, and no arithmetic call changes the wrapped matrix.", "quantifier": "any number of goroutines, all programs of these calls, all indices and update functions, all interleavings of the accesses; a dense wrapped matrix with dense arguments (CSR and CSC too for Add and Subtract), and a CSR or CSC wrapped matrix for Negative, Scalar by a number that makes no zero, Add of an element type other than float64, and comparison with a CSR or CSC matrix; all element types whose arithmetic is exact", "why_tests_cant": "a torn snapshot needs a write between two accesses of one arithmetic call; the claim is about every interleaving of unbounded executions", "anchors": ["mutexMatrix.go: Scalar, Multiply, Add, Subtract, Negative, Equal, NotEqual", "denseMatrix.go", "csrMatrix.go", "operators.go"]}
{"id": "C93", "title": "A cancelled operation stops where it stands", "statement": "A multiplication, Add, Subtract, element-wise product or sum, Apply, Negative or Transpose whose context is found cancelled the (k+1)-st time it looks returns normally and leaves every object exactly as it is at that moment of the run whose context is never cancelled. If that run looks at most k times, the cancellation changes nothing. Between two looks at most one cell of the output changes and nothing else does, so after k looks at most k cells differ from before. A call that returns looks once for each entry of the operand it goes through (of both operands for the element-wise sum), a multiplication once for each product of each inner product; so a multiplication with an empty inner dimension never looks, and fills its output whatever the context says.", "quantifier": "all cancellation points, all operands, masks, aliasing and element types; for the first two sentences any objects at all; for the part about cells outputs other than sparse vectors, of the dense formats when the output is mapped in place; for the number of looks an enumerated output that is not CSR or CSC", "why_tests_cant": "the moment of a cancellation is a race in any real program; a write after the cancellation was noticed, or two writes between looks, shows up at one of unboundedly many moments", "anchors": ["operators.go: multiply, Add, Subtract, elementWiseMultiply, elementWiseAdd, Apply, Negative, Transpose"]}
{"id": "C94", "title": "An operator does to its output what a loop of Set calls does", "statement": "When the output of a multiplication, Add, Subtract, element-wise product or sum, Apply or Transpose is neither an operand nor the mask and the shapes fit, the call does exactly what a list of calls of Set on the output does (of Update for Subtract), and nothing else: one call for every entry Enumerate delivers of the operand gone through (of the left and then of the right one for the element-wise sum), or for every cell row by row for multiplication, in that order, leaving out the cells the mask protects (and, for the element-wise product, those where the operands differ; for the sum, zeros). The list depends on the operands and the mask only, not on what the output contains. So every cell of a matrix or dense vector ends with what the list makes of it on a plain table, and a sparse vector ends as if its own history of writes had gone on with these; if along that history no non-zero position ever exceeds the number of non-zero positions, it reads as the last writes.", "quantifier": "all operands and outputs of all formats in every reachable state (sparse vectors with any history included), all masks, all element types, floating-point included; contexts that are not cancelled", "why_tests_cant": "an extra, missing or reordered write only shows for outputs whose state makes the order matter, such as a sparse vector with a particular history", "anchors": ["operators.go: multiply, Add, Subtract, elementWiseMultiply, elementWiseAdd, Apply, Transpose", "sparseVector.go: SetVec, index"]}
{"id": "C95", "title": "A cancelled operator has made the first of its writes", "statement": "When the output of a multiplication, Add, Subtract, element-wise product or sum, Apply or Transpose is neither an operand nor the mask and the shapes fit, a call whose context is found cancelled after k looks returns and has done to the output exactly what the first of the Set (for Subtract Update) calls of the uncancelled run do: those for the first k entries of the operand gone through (the left then the right one for the element-wise sum), for multiplication those for the first k / n cells, row by row, where n is the inner dimension (all cells if n is 0). Nothing else has changed. For a matrix or dense vector every cell is what these calls make of it on a plain table; a sparse vector ends as if its own history of writes had gone on with these.", "quantifier": "all cancellation points, all operands and outputs of all formats in every reachable state, all masks, all element types", "why_tests_cant": "cancellation points cannot be hit deterministically by a test, and a write too many or too few, or in another order, shows at some of them only", "anchors": ["operators.go: multiply, Add, Subtract, elementWiseMultiply, elementWiseAdd, Apply, Transpose (the select on ctx.Done())"]}
{"id": "C96", "title": "A cancelled operation can be tried again", "statement": "An operator call that was cancelled, any number of times and at any points, and is then made again with a context that is not cancelled leaves the output as a single call that is not cancelled would have left it (the output being neither an operand nor the mask).", "quantifier": "all sequences of cancellation points, all operands and outputs, all masks, all element types", "why_tests_cant": "it takes all sequences of cancellation points on all operands", "anchors": ["operators.go: multiply, Add, Subtract, elementWiseMultiply, elementWiseAdd, Apply, Negative, Transpose", "sparseVector.go: SetVec, index"]}
{"id": "C97", "title": "A cancelled comparison does not give a wrong answer", "statement": "Equal, NotEqual, Less, Greater and Compare called with a context that is cancelled while they run answer what the same call with a context that is never cancelled answers. In detail: String returns the encoding of the runes enumerated before the cancellation; Equal answers yes only if all elements were visited and agree; Less and Greater compare what the two calls of String return, so that nothing is seen of the right operand if the context is cancelled while the left one is read; Compare answers 0 if it finds the context cancelled at one of its two looks. None of them changes anything.", "quantifier": "all operands of all formats, shapes and reachable states, all points of cancellation", "why_tests_cant": "The repository's tests compare under context.Background() only; whether an answer is right depends on how many elements were visited when the context was cancelled, and there is one case for every number.", "anchors": ["operators.go:444-490", "operators.go:492-554"]}
{"id": "C98", "title": "Nil pointers inside interfaces are rejected without effect", "statement": "An operator called with an operand it reads, an output or a mask that is an interface holding a nil pointer (which the tests `== nil` do not find) panics, and no object has changed; so do Scalar, TransposeToCSR and TransposeToCSC, and the methods Multiply, Add and Subtract of any object. Equal, function and method, says that such a value is not equal to nil, and panics on it otherwise unless both sides answer Columns() and differ there. Without nil pointers nothing differs from the calls with nil interfaces.", "quantifier": "all operators, all combinations of nil interfaces, nil pointers of every type and objects in every state as operands, outputs and masks, all contexts", "why_tests_cant": "Whether a method panics on a nil pointer depends on the type and on the contents and shapes of the other arguments; the tests use no nil pointers.", "anchors": ["operators.go:19-60", "operators.go:80-156", "operators.go:492-549", "sparseVector.go:92-94", "denseVector.go:108-110", "csrMatrix.go:253-271", "sparseVector.go:238-256"]}
{"id": "C99", "title": "Elements that become zero while operating in place", "statement": "Add whose output is the operand it enumerates, Subtract whose output is its left operand and Apply in place, on a CSR or CSC matrix, remove the elements whose new value is zero, put the new value in the other stored elements not excluded by the mask, change nothing else, and return.", "quantifier": "all CSR and CSC outputs in any reachable state, all other operands, masks and unary operators", "why_tests_cant": "Removing an element moves those behind it under an iterator that is in use; whether the call is right, wrong, panics or never returns depends on which elements of which lines become zero.", "anchors": ["operators.go: Add, Subtract, Apply", "csrMatrix.go:327-420", "cscMatrix.go: iterator"]}
{"id": "C100", "title": "An object does not remember how it came about", "statement": "Two objects of one type and shape that look alike - At answers the same everywhere; for sparse vectors, Enumerate delivers the same - are interchangeable: every later call of a method, every session with an iterator and every operator sees the same and does the same with either. So matrices and dense vectors depend only on the table they hold: two histories that leave the same table leave the same object, Set calls at different positions may be made in any order, and entering what Enumerate delivers, in any order, into an empty matrix of the same type and shape rebuilds the object exactly, down to the order in which it enumerates.", "quantifier": "all objects in any reachable state, all pairs of histories, all later calls, all operators, masks and outputs", "why_tests_cant": "Compares every pair of histories; a stale zero, a duplicate or an entry out of order stays unseen by At until a later call stumbles over it.", "anchors": ["csrMatrix.go", "cscMatrix.go", "denseMatrix.go", "denseVector.go", "sparseVector.go"]}
{"id": "C101", "title": "Masks that other goroutines change during the call", "statement": "While an operator runs, other goroutines may write the cells of its mask (a matrix behind a lock) in any way and at any moment. The operator then does exactly what it does with a fixed mask, each cell of which is one the mask held at some moment of the call: it returns, panics or hangs alike, with the same objects. In particular every cell of the output keeps its value or gets the value the operator computes for it, the first if the mask excluded it all the time, the second if it never did.", "quantifier": "all operators, all operands and outputs of matrix and dense vector type (and gap-free sparse vectors), all sequences of states of the mask, all contexts", "why_tests_cant": "Quantifies over every interleaving of the operator with any number of writers of the mask; the tests use no shared masks.", "anchors": ["mask.go:9-25", "mutexMatrix.go:185-191", "operators.go:19-60", "operators.go:83-145", "operators.go:170-426"]}
{"id": "C102", "title": "Powers of an adjacency matrix count walks and find cycles", "statement": "Let A be a square dense matrix and let p be the result of k rounds of p = p.Multiply(A) starting from p = A. Then p.At(v,s) is the sum over all walks of k+1 edges from s to v of the products of their weights (an edge l to r for each cell (r,l)). If the cells are zeros and ones it is the number of these walks, reduced to the range of the element type, and ReduceMatrixToScalar of p is the number of all walks of k+1 edges. With n-1 rounds for n vertices that sum is not zero exactly when the graph has a cycle, as long as the number of walks of n edges is not reduced to zero by the element type. No object that existed before is changed.", "quantifier": "all square dense matrices, all numbers of rounds, all integer element types and exact arithmetic", "why_tests_cant": "Relates a loop of library calls of any length to the set of all walks of a graph of any size.", "anchors": ["denseMatrix.go:216-220", "operators.go:65-145", "operators.go:603-660"]}
{"id": "C103", "title": "Masks of any type", "statement": "A mask is an interface that does not mention the element type, so a matrix or vector of another element type, or a type of the caller, may be the mask of an operator. An operator asks it for its shape and for Element only: a reachable object of any type answers about each of its cells with \"the value is positive\" and is not changed by being asked. Two masks of any types with the same shape and the same answers make every operator do the same, in every state, panics and cancellation included; a matrix passed as a mask of its own type and the same matrix seen as a mask only have the same effect. A mask of the caller with Element = P leaves the cells where P holds as they are and lets the operator write the others. An operator under a mask followed by the same operator under its complement leaves what the operator without a mask leaves.", "quantifier": "all twelve operators, all operands, outputs and masks of any formats, all element types of the mask and of the operands, all predicates P", "why_tests_cant": "Quantifies over all implementations of an interface and all pairs of element types; the tests use masks of the operands' type only.", "anchors": ["mask.go:9-51", "matrix.go:66-68", "operators.go:19-60", "operators.go:83-145", "operators.go:170-426"]}
{"id": "C104", "title": "A call that panics changes nothing, and a program may go on after it", "statement": "When Set, Update, At, Element, RowsAt, ColumnsAt, RowsAtToArray, Copy, Clear or ReSize panics on a reachable matrix or vector (an index outside the object, negative ones too), every backing array in memory is as it was before the call and none has been allocated. A program that recovers from each panic and goes on runs to its end, and every object ends up holding what it would hold if the calls that panicked had not been made, in any interleaving of calls on any number of objects and copies. If the function passed to Update panics, Update panics with the memory as it was; the function is asked once, at the value of the cell, and only for a cell inside the object.", "quantifier": "all programs over any number of objects of the five formats, all reachable states, all indices, all memory layouts and growth policies of append, all partial update functions", "why_tests_cant": "Quantifies over all programs with panics at any points and over the allocator's choices; a test looks at single panics and does not look at memory after them.", "anchors": ["csrMatrix.go:69-198", "cscMatrix.go:75-205", "denseMatrix.go:90-173", "denseVector.go:65-184", "sparseVector.go:58-187"]}
{"id": "C105", "title": "Apply asks the caller's function in order and survives its panic", "statement": "The function given to Apply may remember its earlier calls and may panic. Into another object, it is asked about the entries of the input where the mask is not set, once each and in the order of enumeration, for as long as the context is not cancelled, and each answer is Set at the transposed place before the next question. In place, it is asked about the entries where the mask is set, also if the object is its own mask, and each answer replaces the entry before the next question. If it panics, so does the call: the answers before that are in place, nothing else has changed, and the object is as good as any other. If the mask has the wrong shape it is not asked at all. A function that answers alike each time and never panics gives the Apply of the other properties.", "quantifier": "all functions, with or without memory, panicking at any call; all cancellation points, masks and element types; into another object: inputs and outputs of all formats in every reachable state, fitting shapes, an output that is neither input nor mask; in place: all formats, answers that are not 0 except in the dense ones, a mask other than the object itself for sparse vectors", "why_tests_cant": "A test fixes one function; this covers every history-dependent function and every moment it may panic at, for all contents, masks and cancellations.", "anchors": ["operators.go:323-366", "csrMatrix.go:393-401", "unaryop/unaryOp.go:17-26"]}
{"id": "C106", "title": "Reductions ask the caller's operation in order, and its panic ends the program", "statement": "The operation of the monoid given to a reduction may remember its earlier calls and may panic, and the Element of its mask may panic. In every interleaving of the goroutines the operation is asked about the elements that Enumerate delivers and the mask does not protect, once each and in that order, each time with its last answer. If it answers them all, the call returns the last answer and no goroutine is left. If it or the mask panics, the call never returns and the caller cannot recover: the panic is in a goroutine of the library and ends the program. If the mask has the wrong shape the caller gets a panic and the operation is not asked before that; afterwards it may be asked any number of times about the value 0, and if it panics then the program ends although the caller has recovered.", "quantifier": "all operations, with or without memory, panicking at any call; all units; all sequences of elements and of answers and panics of the mask; all interleavings; cancellation at any moment for the order of the calls, an open context for the call to end; matrices and vectors of all formats whose contents At and Enumerate agree on", "why_tests_cant": "The outcome depends on the scheduling of three goroutines and on the history of an arbitrary function; a test sees one schedule of one function.", "anchors": ["operators.go:609-646", "binaryop/monoID.go:34-49"]}
{"id": "C107", "title": "The function given to Update may use the matrix itself", "statement": "m.Update(i, j, f) does what v := m.At(i, j); x := f(v); m.Set(i, j, x) does, whatever f does with m meanwhile: reading it, writing it, calling Update again. Outside the matrix the call panics and f is not called. If f panics or does not return, so does the call, and m is as f left it. (On a dense matrix f does not call Clear.)", "quantifier": "all five formats, all reachable states, all cells, all functions, panicking and non-terminating ones included", "why_tests_cant": "quantifies over all functions and what they do to the matrix, and over all matrices", "anchors": ["csrMatrix.go: Update, UpdateReturnPointer", "cscMatrix.go: Update, UpdateReturnPointer", "denseMatrix.go: Update", "denseVector.go: Update", "sparseVector.go: Update"]}
{"id": "C108", "title": "The predicate of a search may write the vector or the graph, panic, or never return", "statement": "Search calls the predicate once per round, at most Rows() times, always on the same vector, which is also the one it returns. Before each call that vector is 0 at the vertices seen so far and the product of the graph and the frontier elsewhere; no other object of the caller has changed since the previous call. After the answer false the next round starts from the vector and the graph as the predicate left them. The answer true ends the search at once with the vector as the predicate left it; a panic, or a call that does not return, ends it in the same way and in that state. After Rows() answers of false the vector returned is 0 everywhere. In particular a predicate that erases vertices makes the search go around them: it stops after the length of a shortest walk that does not enter them. A predicate that only looks at the vector gives the search of C36.", "quantifier": "all integer types, all square graphs whose rows multiplication reads right (every dense matrix, see C20), all sources, all predicates that leave the graph such a matrix of the same size, write no object they allocated during the search, and do not cancel the context", "why_tests_cant": "quantifies over all predicates and what they do to the program, over all graphs and all numbers of rounds", "anchors": ["breadthfirst/breadthFirst.go: Search", "operators.go: MatrixVectorMultiply, ElementWiseVectorAdd"]}
{"id": "C109", "title": "A search whose context is cancelled still returns, and what it finds is right", "statement": "Search whose context is cancelled, before the call or at any moment during it, returns. It calls the predicate at most Rows() times, each time on a dense vector of length Rows(). There is a round before which these vectors are the exact levels of the graph; in that round each cell is 0 or that of the level; in later rounds every cell is 0. Only the last call may answer true, and the result is then the vector of that call; otherwise there were Rows() calls and the result is 0. So where the result is not 0 it is right: the vertex is at the distance given by the number of calls and the number is the sum over its shortest walks. If the context is cancelled before the call, every vector is 0, although the target may be reachable: the caller is not told. No object of the caller is written.", "quantifier": "all integer types, all square graphs whose rows multiplication reads right (every dense matrix, see C20) and in which no sum over shortest walks fails to be positive (see C36), all sources, all predicates, all moments of cancellation", "why_tests_cant": "quantifies over all moments at which the context may be cancelled, including inside a multiplication or an addition, over all graphs and all predicates", "anchors": ["breadthfirst/breadthFirst.go: Search", "operators.go: MatrixVectorMultiply, ElementWiseVectorAdd"]}
{"id": "C110", "title": "The function given to Map may use the matrix itself", "statement": "for it := m.Map(); it.HasNext(); { it.Map(f) } does what the loop over the cells that m stores at the beginning (all cells if m is dense, the non-zero ones otherwise; by rows, for CSC by columns) with the body v := m.At(i, j); x := f(i, j, v); m.Set(i, j, x) does, whatever f does with m meanwhile: it may read it, write it, panic or not return. Each stored cell is asked for once, in order, with its value at that moment; what f writes ahead is seen when its turn comes; a panic of f leaves m as f left it, with the cells before written and those after not.", "quantifier": "all storage formats, all reachable matrices and vectors, all functions that leave the type and shape of m when they answer", "why_tests_cant": "quantifies over all functions and all they may do with the matrix between the reading and the writing of each cell", "anchors": ["map.go: Map", "csrMatrix.go, cscMatrix.go, denseMatrix.go, denseVector.go, sparseVector.go: Map of the iterators"]}
{"id": "C111", "title": "A search whose predicate cancels the context finds nothing more", "statement": "A predicate may cancel the context of the search that calls it. If it does so and answers true, Search returns the vector of that call, as it does without the cancelling. If it does so and answers false, Search still makes its remaining rounds, and returns 0 everywhere, whatever the predicate has seen and whatever it would have answered on the later levels. Precisely: for a predicate that answers g(v) and cancels if h(v), with g false of the zero vector, Search returns the first level with g if no level before it has g or h; otherwise it returns 0 everywhere, and every level with g has one with h before it. In particular a predicate that cancels instead of answering true gets 0 everywhere whether or not the target can be reached. No object of the caller is written. A predicate may also write the vector and the graph, panic or not return: up to the call that cancels the search goes on from what it left (C108); after it every call is made on the zero vector, whatever the predicate wrote, and there are as many calls as without the cancelling.", "quantifier": "all integer types, all square graphs whose rows multiplication reads right (every dense matrix, see C20) and in which no sum over shortest walks fails to be positive (see C36), all sources, all conditions g and h on the vector", "why_tests_cant": "quantifies over all graphs and all conditions on which the predicate answers true or cancels", "anchors": ["breadthfirst/breadthFirst.go: Search", "operators.go: MatrixVectorMultiply, ElementWiseVectorAdd"]}
