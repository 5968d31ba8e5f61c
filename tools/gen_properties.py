#!/usr/bin/env python3
"""Regenerates /verif/properties.jsonl (one JSON object per line)."""
import json, os
P = []
def p(id, title, statement, quantifier, why, *anchors):
    P.append(dict(id=id, title=title, statement=statement, quantifier=quantifier,
                  why_tests_cant=why, anchors=list(anchors)))

# ---------------------------------------------------------------- storage
p("C01", "CSR matrix is a faithful map: read returns the last write",
  "After any history of Set, Update and Clear calls with in-range indices on a CSR matrix, no call panics and At(i,j) returns exactly what the last call affecting cell (i,j) put there (zero if none or if Clear came later); all other cells are unaffected. For float types a stored zero of either sign reads back as +0.",
  "every matrix size, every finite history of operations, every element type, every cell",
  "the binary search, the splice of two parallel slices and the row-pointer bump must agree for every sparsity pattern and history; tests touch a handful of small patterns",
  "csrMatrix.go: UpdateReturnPointer, At, Set, insert, remove, columnIndex, Clear")
p("C02", "CSC matrix is a faithful map: read returns the last write",
  "Same as C01 for the column-compressed format.",
  "every matrix size, history, element type and cell",
  "same as C01; the CSC code is a hand-mirrored copy in which one swapped index would go unnoticed by square-matrix tests",
  "cscMatrix.go: UpdateReturnPointer, At, Set, insert, remove, rowIndex, Clear")
p("C03", "Dense matrix and dense vector are faithful maps",
  "After any history of Set, Update and Clear (SetVec for vectors) with in-range indices on a DenseMatrix or DenseVector no call panics and At/AtVec returns the last value written to that cell (zero if none or cleared).",
  "every size, history, element type and cell",
  "must hold for all histories and all cells, not for the sampled ones",
  "denseMatrix.go: Update, At, Set, Clear", "denseVector.go: AtVec, SetVec, Update, At, Set, Clear")
p("C04", "Sparse vector: AtVec returns the last SetVec",
  "After any history of in-range SetVec calls on a SparseVector, AtVec(i) returns the last value written at i.",
  "every length, every history, every index",
  "the index lookup compares the position with the number of stored entries, so the failure depends on the relation between an index and the population of the vector",
  "sparseVector.go: index, AtVec, SetVec, insert, remove")
p("C05", "Values() counts the non-zero cells of a compressed matrix",
  "After any history of in-range operations on a CSR or CSC matrix, Values() equals the number of cells whose At is non-zero; in particular writing zero to a cell removes it and rewriting a cell never duplicates it.",
  "every size and history",
  "duplicates or stale explicit zeros only appear for particular write/overwrite/erase orders",
  "csrMatrix.go: Values, insert, remove", "cscMatrix.go: Values, insert, remove")
p("C06", "Index checking is exact and happens before any write",
  "At, Set and Update on CSR, CSC and dense matrices panic if and only if the row or the column is outside [0,Rows()) x [0,Columns()) (negative included); a panicking call leaves the matrix as it was, and an in-range call never panics.",
  "every well-formed matrix, every pair of integers",
  "boundary exactness and absence of internal slice-index panics is a statement about all indices and all sparsity patterns",
  "csrMatrix.go: UpdateReturnPointer", "cscMatrix.go: UpdateReturnPointer", "denseMatrix.go: Update, At, Set")
p("C07", "Reads do not modify the matrix",
  "At and Element on a CSR or CSC matrix (which are implemented as an Update with the identity) and on dense and sparse vectors leave every field of the matrix exactly as it was.",
  "every reachable matrix, every index",
  "reads go through the write path (Update re-stores the value, or would remove or insert it), so purity depends on a data-structure invariant",
  "csrMatrix.go: At, Element", "cscMatrix.go: At, Element", "sparseVector.go: At")
p("C08", "Building from an array round-trips",
  "For every rectangular non-empty array, NewCSRMatrixFromArray, NewCSCMatrixFromArray and NewDenseMatrixFromArray give a matrix of the array's dimensions whose At(i,j) is array[i][j] and whose RowsAtToArray(i) is array[i]; NewSparseVectorFromArray enumerates exactly the non-zero entries of the array in order.",
  "every rectangular array",
  "all shapes and all zero patterns",
  "csrMatrix.go: NewCSRMatrixFromArray", "cscMatrix.go: NewCSCMatrixFromArray", "denseMatrix.go: NewDenseMatrixFromArray", "sparseVector.go: NewSparseVectorFromArray")
p("C09", "Enumerate visits every stored cell exactly once and terminates",
  "Driving Enumerate() with HasNext/Next on any reachable matrix or dense vector never panics or loops forever, yields pairwise distinct coordinates, every yielded value equals the value stored at that coordinate, and every non-zero cell is yielded. CSR and dense go in row-major order, CSC in column-major order; CSR and CSC yield no zero.",
  "every reachable matrix, whatever its empty rows and columns",
  "the iterator walks two nested cursors over empty rows; termination and in-bounds access for all patterns of empty rows is an induction",
  "csrMatrix.go: iterator, next, HasNext, Next", "cscMatrix.go: iterator, next", "denseMatrix.go: denseMatrixIterator", "denseVector.go: denseVectorIterator", "sparseVector.go: sparseVectorIterator")
p("C10", "Row and column extraction",
  "RowsAt(r), ColumnsAt(c) and RowsAtToArray(r) panic exactly when the index is out of range, and otherwise hold exactly the matrix's row or column: RowsAtToArray element j is At(r,j); the vector from a dense matrix has AtVec(j) = At(r,j); the sparse vector from a compressed matrix enumerates exactly the non-zero cells of that row or column.",
  "every reachable matrix, every index",
  "for all sparsity patterns",
  "csrMatrix.go: RowsAt, ColumnsAt, RowsAtToArray", "cscMatrix.go: RowsAt, ColumnsAt, RowsAtToArray", "denseMatrix.go: RowsAt, ColumnsAt, RowsAtToArray")
p("C11", "Copy is equal and independent",
  "Copy() returns a matrix of the same format and dimensions with the same cells, and afterwards no write through either object is visible through the other.",
  "every reachable matrix, every later write",
  "independence is a statement about all subsequent writes and about which backing arrays are shared",
  "csrMatrix.go: Copy", "cscMatrix.go: Copy", "denseMatrix.go: Copy, CopyLogical", "denseVector.go: copy, Copy", "sparseVector.go: copy")
p("C12", "Clear empties",
  "After Clear() every cell reads zero, Rows/Columns are unchanged, and Values() is 0 for the sparse formats.",
  "every matrix, even one whose internal state is corrupt",
  "for all prior states",
  "csrMatrix.go: Clear", "cscMatrix.go: Clear", "denseMatrix.go: Clear", "denseVector.go: Clear", "sparseVector.go: Clear")
p("C13", "Storage format is unobservable through At",
  "Running the same history of in-range Set/Update/Clear calls on a CSR, a CSC and a dense matrix of the same dimensions gives three matrices that agree on At everywhere, and At(i,j) and RowsAtToArray(i) are the same for all three.",
  "every size and history",
  "three independent implementations must agree on all histories",
  "csrMatrix.go", "cscMatrix.go", "denseMatrix.go")
p("C14", "Map replaces every element by f of it",
  "Driving Map() over a matrix replaces every stored element v at (r,c) by f(r,c,v) and touches nothing else, without panicking.",
  "every matrix and every function f",
  "the iterator keeps raw positions while Map may remove entries under it, so the outcome depends on where f returns zero",
  "csrMatrix.go: cSRMatrixMap.Map", "cscMatrix.go: cSCMatrixMap.Map", "denseMatrix.go: denseMatrixMap.Map", "denseVector.go: denseVectorMap.Map", "sparseVector.go: sparseVectorMap.Map")
# ---------------------------------------------------------------- operators
p("C15", "Transpose",
  "Transpose() (CSR, CSC, dense, vectors) and TransposeToCSR/TransposeToCSC return a Columns() x Rows() matrix whose At(j,i) is the original At(i,j), leave the operand unchanged, and transposing twice gives back the original cells.",
  "every reachable matrix of every format",
  "all shapes and sparsity patterns",
  "operators.go: Transpose, TransposeToCSR, TransposeToCSC", "csrMatrix.go: Transpose", "cscMatrix.go: Transpose", "denseMatrix.go: Transpose")
p("C16", "Negative",
  "Negative() returns a matrix of the same format and dimensions with every cell negated (two's-complement wrap-around included), leaving the operand unchanged.",
  "every reachable matrix of every format, every ring of values",
  "goes through Map, which removes entries when the result is zero; needs a ring argument for all values, e.g. the minimum int",
  "operators.go: Negative", "csrMatrix.go: Negative", "cscMatrix.go: Negative", "denseMatrix.go: Negative")
p("C17", "Scalar multiplication",
  "Scalar(alpha) returns alpha*A cell by cell for every alpha, leaving the operand unchanged.",
  "every matrix, every alpha",
  "products that vanish (alpha = 0, or wrap-around) take the element-removal path while iterating",
  "operators.go: Scalar", "csrMatrix.go: Scalar, cSRMatrixMap.Map")
p("C18", "Add is cell-wise addition",
  "A.Add(B) for equal shapes returns the cell-wise sum whatever the formats of A and B, and panics when shapes differ.",
  "all pairs of matrices of every combination of formats and element types",
  "the algorithm iterates over only one operand chosen by a type registry, so the result depends on format, element type and sparsity pattern",
  "operators.go: Add", "csrMatrix.go: Add", "cscMatrix.go: Add", "denseMatrix.go: Add", "sparseVector.go: Add")
p("C19", "Subtract is cell-wise subtraction",
  "A.Subtract(B) for equal shapes returns the cell-wise difference whatever the formats.",
  "all pairs of matrices of every combination of formats",
  "only cells enumerated by the left operand are rewritten",
  "operators.go: Subtract", "csrMatrix.go: Subtract", "sparseVector.go: Subtract", "denseMatrix.go: Subtract")
p("C20", "Matrix multiplication",
  "MatrixMatrixMultiply / Multiply writes the matrix product sum_l A(r,l)*B(l,c) into every (unmasked) cell of the output and panics when the inner dimensions differ.",
  "all sizes, formats and contents",
  "the rows and columns of compressed matrices are read through sparse vectors whose lookup depends on how full they are",
  "operators.go: multiply, MatrixMatrixMultiply", "csrMatrix.go: Multiply", "denseMatrix.go: Multiply")
p("C21", "Matrix-vector and vector-matrix products",
  "MatrixVectorMultiply computes A*v; VectorMatrixMultiply computes v*A (row vector times matrix).",
  "all dense matrices and vectors",
  "one symmetric or hand-computed example cannot distinguish the two products",
  "operators.go: MatrixVectorMultiply, VectorMatrixMultiply")
p("C22", "A mask protects the cells where its Element is true",
  "For multiply, Add, Subtract, element-wise add, element-wise multiply and Negative, with any output, every output cell whose mask Element is true keeps its value, and cells whose mask Element is false get the unmasked result; a nil mask behaves as a mask that is false everywhere; a mask of the wrong shape panics before any write.",
  "all operands, all masks",
  "quantifies over all masks and all cells",
  "operators.go: multiply, Add, Subtract, elementWiseAdd, elementWiseMultiply, Negative", "mask.go: EmptyMask")
p("C23", "Operators only modify their output",
  "multiply, Add, Subtract, element-wise add/multiply, Transpose, Apply and Negative change no object in memory other than the output matrix (operands and mask keep every field), even when they stop early on cancellation or panic on a shape mismatch.",
  "all heaps, all aliasing patterns of operands, all cancellation points",
  "a frame property over all objects and all executions",
  "operators.go")
p("C24", "Element-wise multiplication",
  "ElementWiseMatrixMultiply / ElementWiseVectorMultiply put the cell-wise product of the operands in the output.",
  "all pairs of equal-shape operands",
  "agreement on 0/1 examples says nothing about other values",
  "operators.go: elementWiseMultiply, ElementWiseMatrixMultiply, ElementWiseVectorMultiply")
p("C25", "Element-wise addition",
  "ElementWiseMatrixAdd / ElementWiseVectorAdd put the cell-wise sum of the operands in the output.",
  "all pairs of equal-shape operands",
  "agreement on 0/1 examples with disjoint support says nothing about other values",
  "operators.go: elementWiseAdd, ElementWiseMatrixAdd, ElementWiseVectorAdd")
p("C26", "Apply applies the unary operator cell by cell",
  "Apply(in, mask, u, out) sets out(r,c) = u(in(r,c)) for every stored cell of in that is not masked, also when out is in.",
  "all inputs, masks and operators",
  "quantifies over all shapes and all masks; a symmetric example hides a transposed write",
  "operators.go: Apply")
p("C27", "Equal decides equality",
  "A.Equal(B) is true if and only if A and B have the same dimensions and the same cells, whatever the formats; NotEqual is its negation; Equal is reflexive and symmetric.",
  "all pairs of matrices of all formats and element types",
  "equality is decided from the enumeration of one operand and a cached count, which is only sound for some pairs of formats",
  "operators.go: Equal, NotEqual", "matrixRegistry.go: IsSparseMatrix")
p("C28", "Compare is a total order on rune matrices",
  "For dense rune matrices of the same shape with valid code points, Compare returns 0 exactly for equal matrices, is antisymmetric and transitive, and agrees with the lexicographic order of the code points; Less and Greater are converse.",
  "all matrices of valid runes",
  "order laws over UTF-8 encodings of arbitrary code points",
  "operators.go: Compare, Less, Greater, String")
p("C29", "BubbleRow sorts rows, BubbleColumns sorts columns",
  "BubbleRow returns a matrix whose rows are a permutation of the input's rows in non-decreasing Compare order, and BubbleColumns likewise for columns; the input is not modified.",
  "all dense rune matrices",
  "sortedness and permutation for all inputs is an induction over two nested loops",
  "sort/bubble.go: BubbleRow, BubbleColumns", "operators.go: Compare")
# ---------------------------------------------------------------- reductions and concurrency
p("C30", "Reduce is a left fold under every schedule and never deadlocks",
  "MonoID.Reduce fed by a producer that sends values v1..vn on the slice channel and then signals done delivers exactly the left fold of the operator over v1..vn from the unit, whatever the interleaving of producer, reducer and consumer; no reachable state is stuck before the result is delivered, every schedule is finite, and no goroutine is left behind.",
  "all value sequences and all interleavings of the three goroutines",
  "schedules cannot be enumerated by tests",
  "binaryop/monoID.go: Reduce", "operators.go: ReduceMatrixToScalarWithMonoID")
p("C31", "ReduceMatrixToScalar is the sum of all cells",
  "ReduceMatrixToScalar(A) is the sum of At(r,c) over all unmasked cells for every format; with a custom monoid it is the fold over the enumerated cells in enumeration order.",
  "all matrices of all formats, all masks",
  "order of summation and omission of zeros differ by format; equality of the results is a theorem about all matrices",
  "operators.go: ReduceMatrixToScalar, ReduceMatrixToScalarWithMonoID, ReduceVectorToScalar")
p("C32", "ReduceMatrixToVector is the column maximum",
  "ReduceMatrixToVector(A) has length Columns() and its c-th entry is the maximum of column c.",
  "all matrices",
  "the monoid unit zero matters only for particular sign patterns",
  "operators.go: ReduceMatrixToVector, ReduceMatrixToVectorWithMonoID", "default.go: DefaultMonoIDMaximum")
p("C33", "Cancellation stops an operation and keeps it safe",
  "If the context is cancelled at any point, Add, Subtract, Transpose, Apply, Negative, multiply and the element-wise operations return (no hang, no panic), and every output cell then holds either its old value or the value the uncancelled run gives it.",
  "all cancellation points",
  "every poll of the context is a different crash point",
  "operators.go: ctx.Done() selects")
p("C34", "Cancellation also stops Scalar and the reductions",
  "If the context is cancelled, Scalar and ReduceMatrixToScalar return.",
  "all matrices and cancellation points",
  "non-termination and deadlock cannot be observed by a test",
  "operators.go: Scalar, ReduceMatrixToScalarWithMonoID")
p("C35", "MutexMatrix serialises writers",
  "In every execution of concurrent calls on one MutexMatrix, while a mutating call (Set, Update, Clear) is inside the wrapped matrix no other call is inside it; every mutating call takes effect atomically, so the final contents are those of some sequential order consistent with lock acquisition.",
  "all numbers of goroutines, all programs, all interleavings",
  "schedules cannot be enumerated by tests",
  "mutexMatrix.go")
# ---------------------------------------------------------------- algorithms
p("C36", "Breadth-first search visits level sets",
  "For a graph given by a dense matrix A with non-negative entries (edge l->r when A(r,l) != 0), the predicate passed to breadthfirst.Search is called at level d = 1,2,... with a vector that is non-zero exactly at the vertices whose shortest-path distance from the source is d; the search calls it at most Rows() times and returns the first level that satisfies it.",
  "all graphs, sources and predicates",
  "level-set correctness is an induction over all graphs",
  "breadthfirst/breadthFirst.go: Search", "operators.go: MatrixVectorMultiply, ElementWiseVectorAdd")
p("C37", "Symmetric decides symmetry",
  "Symmetric(A) is true if and only if A is square and A(i,j) = A(j,i) for all i, j.",
  "all matrices of every format",
  "composition of Transpose and Equal over all patterns",
  "math/symmetric/symmetric.go: Symmetric")
p("C38", "SkewSymmetric decides skew-symmetry",
  "SkewSymmetric(A) is true if and only if A is square and A(i,j) = -A(j,i) for all i, j.",
  "all matrices of every format",
  "composition of Negative, Transpose and Equal over all patterns",
  "math/skewsymmetric/skewSymmetric.go: SkewSymmetric")
p("C39", "Reduced computes the reduced row echelon form",
  "Over a field (exact arithmetic) Reduced(A) terminates, returns a matrix in reduced row echelon form that has the same row space (solution set) as A, and leaves A unchanged.",
  "all matrices of all sizes",
  "termination of the pivot search and the echelon invariant are inductions",
  "math/reduced/reduced.go: Reduced")
p("C40", "Strassen multiplication equals the ordinary product",
  "MultiplyCrossoverPoint(A,B,k) returns the matrix product A*B for all square matrices.",
  "all sizes, contents and crossover points",
  "odd sizes at some recursion level and non-square shapes are easily missed; the identity must hold in every ring including wrap-around integers",
  "math/strassen/strassen.go: Multiply, MultiplyCrossoverPoint")
p("C41", "Strassen's result does not depend on goroutine scheduling",
  "Whatever the order in which the seven worker goroutines deliver their products, the assembled result is the same, every worker's send is received and the call returns.",
  "all delivery orders",
  "7! orders at every level of the recursion",
  "math/strassen/strassen.go: MultiplyCrossoverPoint, subMatrixM")
# ---------------------------------------------------------------- small surfaces
p("C42", "The sparse-matrix registry recognises the sparse formats",
  "IsSparseMatrix(A) is true exactly when A is a CSR, CSC or sparse-vector value, for every element type; registering a name twice panics and leaves the registry unchanged, and registering a new name adds exactly that name.",
  "all element types and registration histories",
  "the registry is keyed by the printed type name, which contains the type argument",
  "matrixRegistry.go: RegisterMatrix, IsSparseMatrix")
p("C43", "ReSize gives a vector of the requested size",
  "DenseVector.ReSize(n) for n >= 0 returns n, sets Length() to n, keeps the first min(n, old length) elements and zero-fills the rest.",
  "all lengths and sizes",
  "an off-by-role error (n versus length-n) agrees at one point only",
  "denseVector.go: ReSize")
p("C44", "Mask element is the Boolean cast of the value",
  "Element(r,c) is true exactly when the value at (r,c) is non-zero.",
  "all values",
  "the comparison is > 0, which differs from != 0 only on negative values",
  "csrMatrix.go: Element", "cscMatrix.go: Element", "denseMatrix.go: Element", "denseVector.go: Element", "sparseVector.go: Element")
p("C45", "Default monoids and operators obey their laws",
  "Addition with unit zero is a commutative monoid on every integer type (wrap-around included); Minimum and Maximum are associative, commutative and idempotent and return one of their arguments; comparison operators agree with the order and are mutually consistent; LOR, LAND, LXOR and LogicalInverse satisfy the Boolean-algebra laws.",
  "all values of the element type",
  "laws over all pairs and triples of machine integers",
  "binaryop/operators.go", "operators/arithmetic.go", "operators/comparison.go", "operators/other.go", "operators/boolean.go", "default.go")
p("C46", "In-place operation: output aliasing an operand",
  "multiply, Add, Subtract and the element-wise operators give the same output cells when the output object is one of the operands as when it is a separate object.",
  "all operands, all aliasing patterns",
  "aliasing bugs depend on the order of reads and writes",
  "operators.go: multiply, elementWiseAdd, elementWiseMultiply, Add, Subtract")
p("C47", "Constructors do not retain the caller's array",
  "After building a matrix from an array, later writes to that array do not change the matrix and writes to the matrix do not change the array.",
  "all arrays and later writes",
  "sharing is a property of all later writes",
  "csrMatrix.go: NewCSRMatrixFromArray", "cscMatrix.go: NewCSCMatrixFromArray", "denseMatrix.go: NewDenseMatrixFromArray", "denseVector.go: NewDenseVectorFromArray")
p("C48", "Dimension mismatch is rejected before any write",
  "Add, Subtract, multiply, and the vector element-wise operators panic if and only if the operand shapes are incompatible (or the mask shape differs from the output's) given an output of the right shape, and a rejected call writes nothing.",
  "all shapes",
  "iff over all shapes, and absence of effects",
  "operators.go: multiply, Add, Subtract, ElementWiseVectorAdd, ElementWiseVectorMultiply, ElementWiseMatrixAdd, ElementWiseMatrixMultiply")
p("C49", "Blocking mode survives the context round trip",
  "BlockingMode(NewContext(ctx, mode)) is (mode, true) for every mode and parent context, and (Blocking, false) for a context not made by NewContext.",
  "all modes and contexts",
  "trivial but universally quantified",
  "context.go: NewContext, BlockingMode")
p("C50", "Enumerate on a sparse vector visits each written position once",
  "Driving Enumerate() on any reachable sparse vector never panics or loops forever, yields pairwise distinct positions, and yields exactly the positions whose last written value is non-zero together with that value.",
  "every history of SetVec calls on a sparse vector",
  "depends on the whole write history; a stale or duplicated entry appears only for particular orders of writes",
  "sparseVector.go: sparseVectorIterator, SetVec, index, insert, remove")
out = os.path.join(os.path.dirname(os.path.abspath(__file__)), "..", "properties.jsonl")
with open(out, "w") as f:
    for x in P:
        f.write(json.dumps(x, ensure_ascii=False) + "\n")
print(len(P))
