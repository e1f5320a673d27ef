{"id": "C01", "title": "1-D parallel splitting covers every index exactly once", "statement": "Iterating a ForStrategy1D splitter over n indices yields blocks that are consecutive, non-overlapping, non-empty when n>0, start at 0 and end at n, whatever the number of threads or the grain; so a PARFOR1D / SPLITTER loop executes each index exactly once.", "quantifier": "for every n, every strategy (Threads, Grain, Fixed) and every thread count (0 included) or positive grain", "why_tests_cant": "the block sizes depend on divisions and remainders of arbitrary n and thread counts; a test fixes a few pairs", "anchors": ["fflas-ffpack/paladin/blockcuts.inl: ForStrategy1D::build, initialize, isTerminated, operator++, begin, end"]}
{"id": "C02", "title": "2-D splitting by thread count tiles the matrix exactly", "statement": "With a thread-count strategy (Row, Column, Block or Single cut), iterating a ForStrategy2D splitter over an m x n matrix yields row/column ranges that together contain every entry (i,j) exactly once and never an entry outside.", "quantifier": "for every m, n and number of threads", "why_tests_cant": "the grid is computed from divisors of the thread count and remainders of m and n", "anchors": ["fflas-ffpack/paladin/blockcuts.inl: BlockCuts<*,Threads>, BlockCuts (7-arg), ForStrategy2D"]}
{"id": "C03", "title": "2-D splitting by grain or fixed block size tiles the matrix exactly", "statement": "With a Grain or Fixed strategy, iterating a ForStrategy2D splitter over an m x n matrix covers every entry exactly once.", "quantifier": "for every m, n and grain", "why_tests_cant": "coverage fails only for particular remainders of m or n modulo the block size (the code violates the property; the exact condition is characterised)", "anchors": ["fflas-ffpack/paladin/blockcuts.inl: BlockCuts<*,Grain>, BlockCuts<*,Fixed>, BlockCuts (7-arg), ForStrategy2D"]}
{"id": "C04", "title": "Parallel loops over disjoint blocks are schedule independent", "statement": "Running the block tasks of a parallel loop (each task writes only its own block and reads only its own block and read-only inputs) in any order, and with any interleaving of their individual memory steps, ends in the same memory as the sequential loop.", "quantifier": "for every number of tasks, every task body with that footprint, and every interleaving of the tasks' memory steps", "why_tests_cant": "the number of interleavings is exponential and not controllable from a unit test", "anchors": ["fflas-ffpack/paladin/parallel.h: PARFOR1D, FORBLOCK1D, FORBLOCK2D", "fflas-ffpack/paladin/pfgemv.inl", "fflas-ffpack/ffpack/ffpack_permutation.inl: applyP (parallel)", "fflas-ffpack/fflas/fflas_freduce.inl: pfreduce"]}
{"id": "C05", "title": "Delayed dot products of length at most DotProdBoundClassic are exact", "statement": "If DotProdBoundClassic(F,beta) returns k>1 then for residues reduced in F, beta*c plus a sum of at most k products never leaves the range in which the element type represents integers exactly.", "quantifier": "for every modulus, every beta, every vector length up to the bound and all residues", "why_tests_cant": "the worst case needs vectors of length up to 2^53/p^2 and specific residues", "anchors": ["fflas-ffpack/fflas/fflas_bounds.inl: DotProdBoundClassic, computeFactorClassic"]}
{"id": "C06", "title": "Delayed triangular solves of dimension at most TRSMBound are exact", "statement": "If TRSMBound(F) returns n>1 then every intermediate value of an unreduced unit-diagonal triangular solve of dimension at most n with reduced entries stays within the exactly representable range.", "quantifier": "for every modulus, dimension up to the bound and all residues", "why_tests_cant": "growth is exponential in the dimension and the extremal matrices are special", "anchors": ["fflas-ffpack/fflas/fflas_bounds.inl: TRSMBound", "fflas-ffpack/fflas/fflas_ftrsm_src.inl: delayed"]}
{"id": "C07", "title": "MMHelper interval bounds always enclose the computed values", "statement": "The operand and output intervals carried by MMHelper (setOutBounds, initOut, and the MaxDelayedDim query) always enclose the true integer values: if entries of A,B,C lie in their declared intervals and k <= MaxDelayedDim(beta), then every entry of beta*C + A*B, and every partial sum, lies in the declared output interval and within MaxStorable.", "quantifier": "for all intervals containing 0, all k, all beta and all matrices with entries in the intervals", "why_tests_cant": "interval soundness is a statement about all integers in the ranges and all inner dimensions", "anchors": ["fflas-ffpack/fflas/fflas_helpers.inl: MMHelper::MaxDelayedDim, setOutBounds, NeedPreAddReduction, NeedPreSubReduction, NeedDoublePreAddReduction, NeedPreAxpyReduction"]}
{"id": "C08", "title": "Lazy classical matrix product never loses exactness", "statement": "The delayed-reduction classical fgemm (blocks of kmax inner products separated by reductions) returns alpha*A*B+beta*C modulo p with no intermediate integer leaving the exactly representable range.", "quantifier": "for every modulus, every inner dimension k and every reduced A, B, C", "why_tests_cant": "overflow occurs only at a specific block boundary with extremal residues (the code violates the property for beta=0 and some p; the safe case is proved)", "anchors": ["fflas-ffpack/fflas/fflas_fgemm/fgemm_classical.inl: fgemm (LazyTag)", "fflas-ffpack/fflas/fflas_helpers.inl: MaxDelayedDim"]}
{"id": "C09", "title": "Winograd product equals the classical product", "statement": "fgemm with the Winograd schedule (any number of recursion levels, even or odd dimensions through dynamic peeling) stores exactly alpha*A*B in C, reads only A and B, and changes no cell outside C's m x n window.", "quantifier": "for every field, transposition flags, dimensions, leading dimensions, recursion depth, alpha and matrices", "why_tests_cant": "the in-place schedule reuses C blocks and two temporaries as scratch; each overwrite order must be right for all contents", "anchors": ["fflas-ffpack/fflas/fflas_fgemm/schedule_winograd.inl: BLAS3::Winograd", "fflas-ffpack/fflas/fflas_fgemm/fgemm_winograd.inl: DynamicPeeling2, WinogradCalc"]}
{"id": "C10", "title": "Accumulating Winograd product equals the classical product", "statement": "fgemm with the accumulating Winograd schedules stores exactly alpha*A*B+beta*C in C for every recursion depth, and changes no cell outside C's window.", "quantifier": "for every field, transposition flags, dimensions, leading dimensions, recursion depth, alpha, beta and matrices", "why_tests_cant": "same as for the non-accumulating schedule, with C also an input", "anchors": ["fflas-ffpack/fflas/fflas_fgemm/schedule_winograd_acc.inl: BLAS3::WinogradAcc_3_21, WinogradAcc_3_23"]}
{"id": "C11", "title": "ftrsm solves the triangular system", "statement": "ftrsm(side,uplo,trans,diag,...) replaces B by the unique X with op(A) X = alpha B (left) or X op(A) = alpha B (right), where A is the triangle selected by uplo and diag; it reads only that triangle, writes only B's window and never inverts zero when the diagonal is invertible (or Unit).", "quantifier": "for every field, all 16 side/uplo/trans/diag combinations, all dimensions including 0 and odd, all leading dimensions, alpha, A and B", "why_tests_cant": "the recursion splits at every size and the offsets differ per variant", "anchors": ["fflas-ffpack/fflas/fflas_ftrsm.inl: ftrsm", "fflas-ffpack/fflas/fflas_ftrsm_src.inl: generic operator()"]}
{"id": "C12", "title": "ftrmm in place multiplies by the triangular matrix", "statement": "ftrmm(side,uplo,trans,diag,...) without C replaces B by alpha op(A) B or alpha B op(A), reading only the selected triangle and writing only B's window.", "quantifier": "for every ring, all 16 variants, all dimensions, leading dimensions, alpha, A, B", "why_tests_cant": "in-place update order must be right at every recursion level", "anchors": ["fflas-ffpack/fflas/fflas_ftrmm.inl: ftrmm", "fflas-ffpack/fflas/fflas_ftrmm_src.inl"]}
{"id": "C13", "title": "ftrmm out of place computes alpha op(A) B + beta C", "statement": "The out-of-place ftrmm stores alpha op(A) B + beta C (resp. alpha B op(A) + beta C) in C.", "quantifier": "for every field, all variants, all dimensions, alpha, beta, A, B, C", "why_tests_cant": "only beta = 0 with stale contents of C (or alpha = 0) distinguishes the wrong behaviour (the code violates the property there)", "anchors": ["fflas-ffpack/fflas/fflas_ftrmm.inl: ftrmm (with C)", "fflas-ffpack/fflas/fflas_ftrmm_src.inl: generic operator() with beta, C"]}
{"id": "C14", "title": "ftrsm/ftrmm blocking parameters are valid", "statement": "The block sizes used by the floating-point ftrsm and ftrmm are positive, cover the triangular dimension exactly, and each delayed block respects the exactness bounds.", "quantifier": "for every modulus accepted by the field and every dimension", "why_tests_cant": "all moduli and dimensions; exactness is about the largest intermediate value, and the two bounds interact only for a narrow band of moduli", "anchors": ["fflas-ffpack/fflas/fflas_ftrsm_src.inl: operator() (double/float)", "fflas-ffpack/fflas/fflas_ftrmm_src.inl: operator() (double/float)", "fflas-ffpack/fflas/fflas_bounds.inl"]}
{"id": "C15", "title": "LAPACK and mathematical permutations convert both ways without loss", "statement": "LAPACKPerm2MathPerm produces a permutation of 0..n-1 from any LAPACK transposition array (P[i] in [i,n)), MathPerm2LAPACKPerm produces a valid transposition array from any permutation, and the two conversions are mutually inverse.", "quantifier": "for every n and every permutation / transposition array", "why_tests_cant": "n! permutations", "anchors": ["fflas-ffpack/ffpack/ffpack_permutation.inl: LAPACKPerm2MathPerm, MathPerm2LAPACKPerm"]}
{"id": "C16", "title": "applyP multiplies by the permutation matrix and Trans undoes NoTrans", "statement": "applyP(side,trans,...) permutes the rows (columns) of the window exactly as multiplication by the permutation matrix of P (or its transpose), for any block size used internally; applying Trans after NoTrans restores the matrix; cells outside the window are unchanged.", "quantifier": "for every P, every ibeg/iend, side, transposition, width and leading dimension", "why_tests_cant": "the column block size (32) only matters for widths the tests may not hit; all permutations must work", "anchors": ["fflas-ffpack/ffpack/ffpack_permutation.inl: applyP, applyP_block"]}
{"id": "C17", "title": "Composition of permutations is composition", "statement": "composePermutationsLLL / LLM / MLM return the array representing the product of the two input permutations, with the second acting on the trailing block.", "quantifier": "for every size, offset and pair of permutations", "why_tests_cant": "all pairs of permutations", "anchors": ["fflas-ffpack/ffpack/ffpack_permutation.inl: composePermutationsLLL, composePermutationsLLM, composePermutationsMLM"]}
{"id": "C18", "title": "Cyclic shifts rotate and nothing else", "statement": "cyclic_shift_row, cyclic_shift_col, cyclic_shift_row_col and cyclic_shift_mathPerm rotate the last row / column / entry to the front of the window, preserving the order of the others, and touch nothing outside the window.", "quantifier": "for every window size, leading dimension and contents", "why_tests_cant": "aliasing of overlapping copies shows up only for particular shapes", "anchors": ["fflas-ffpack/ffpack/ffpack_permutation.inl: cyclic_shift_row, cyclic_shift_col, cyclic_shift_row_col, cyclic_shift_mathPerm"]}
{"id": "C19", "title": "PLUQ is a factorisation of the input", "statement": "After r = PLUQ(Diag,M,N,A,lda,P,Q), the stored factors satisfy A_in = P * L * U * Q with L M x r lower trapezoidal and U r x N upper trapezoidal, unit diagonal on the side selected by Diag, nonzero diagonal on the other; P and Q are valid transposition arrays; no zero is inverted, no access leaves the window and no cell outside it changes.", "quantifier": "for every field, M, N, lda, Diag and input matrix, including rank-deficient and empty ones", "why_tests_cant": "all rank profiles of all sub-blocks at every recursion level must be handled", "anchors": ["fflas-ffpack/ffpack/ffpack_pluq.inl: PLUQ, _PLUQ, PLUQ_basecaseCrout"]}
{"id": "C20", "title": "PLUQ and Rank return the rank", "statement": "The integer returned by PLUQ (and by FFPACK::Rank) equals the rank of the input matrix over the field.", "quantifier": "for every field and matrix", "why_tests_cant": "rank is a property of all linear combinations", "anchors": ["fflas-ffpack/ffpack/ffpack_pluq.inl: PLUQ", "fflas-ffpack/ffpack/ffpack.inl: Rank"]}
{"id": "C21", "title": "Det returns the determinant", "statement": "FFPACK::Det returns the determinant of the n x n input for every n (including 0), with the right sign for every pair of pivot permutations.", "quantifier": "for every field, n and matrix", "why_tests_cant": "sign depends on all permutations", "anchors": ["fflas-ffpack/ffpack/ffpack.inl: Det"]}
{"id": "C22", "title": "fgetrs / fgesv solve every consistent system and report every inconsistent one", "statement": "Given a PLUQ factorisation, fgetrs (and fgesv from the matrix) either leaves X with A X = B (resp. X A = B) and info = 0, or sets info > 0 exactly when the system has no solution.", "quantifier": "for every field, side, shape, rank and right-hand side", "why_tests_cant": "inconsistency depends on the whole column space", "anchors": ["fflas-ffpack/ffpack/ffpack_fgetrs.inl: fgetrs", "fflas-ffpack/ffpack/ffpack_fgesv.inl: fgesv", "fflas-ffpack/ffpack/ffpack.inl: Solve"]}
{"id": "C23", "title": "Invert returns the inverse and the right nullity", "statement": "Invert sets nullity to n - rank(A), and when it is 0 the result is the inverse of the input.", "quantifier": "for every field, n and matrix", "why_tests_cant": "all invertible and singular matrices", "anchors": ["fflas-ffpack/ffpack/ffpack_invert.inl: Invert, Invert2"]}
{"id": "C24", "title": "NullSpaceBasis returns a basis of the kernel", "statement": "NullSpaceBasis returns a matrix whose columns (rows) are in the right (left) kernel of A, are linearly independent, and are exactly n - rank(A) (m - rank(A)) many.", "quantifier": "for every field, side, shape and matrix", "why_tests_cant": "statement about all kernel vectors", "anchors": ["fflas-ffpack/ffpack/ffpack.inl: NullSpaceBasis"]}
{"id": "C25", "title": "Triangular inversion and triangular products are exact", "statement": "ftrtri replaces a triangular matrix with invertible diagonal by its inverse (other triangle untouched) and ftrtrm computes the product of the two stored triangular factors in place, for every positive block threshold.", "quantifier": "for every field, dimension, uplo, diag, threshold and matrix", "why_tests_cant": "in-place recursion for all sizes", "anchors": ["fflas-ffpack/ffpack/ffpack_ftrtr.inl: ftrtri, ftrtrm, trinv_left"]}
{"id": "C26", "title": "Level-1 and level-2 kernels compute their formulas on strided data", "statement": "fassign, fscal, fscalin, fadd, fsub, faxpy, fdot, fgemv and fger compute their documented formulas entrywise for every stride, read only their operands and write only their destination.", "quantifier": "for every ring, size, stride and contents", "why_tests_cant": "each dispatches on strides, alpha, beta and sizes", "anchors": ["fflas-ffpack/fflas/fflas_fassign.inl", "fflas-ffpack/fflas/fflas_fscal.inl", "fflas-ffpack/fflas/fflas_faxpy.inl", "fflas-ffpack/fflas/fflas_fdot.inl", "fflas-ffpack/fflas/fflas_fgemv.inl", "fflas-ffpack/fflas/fflas_fger.inl"]}
{"id": "C27", "title": "RNS conversion is a faithful round trip", "statement": "rns_double::init followed by convert returns the original integer for every signed integer with |a| <= (M-1)/2, where M is the product of the (pairwise coprime) moduli; and reduced residues are the true residues.", "quantifier": "for every basis of pairwise coprime moduli whose digit sums fit in 53 bits, every 16-bit digit count covering the entries, every layout, shape, leading dimension and integer in range, and every BLAS summation order", "why_tests_cant": "the integers are unbounded", "anchors": ["fflas-ffpack/field/rns-double.h: rns_double::precompute_cst", "fflas-ffpack/field/rns-double.inl: init, convert, reduce"]}
{"id": "C28", "title": "RNS computes ring operations on integers modulo M", "statement": "Adding, subtracting and multiplying residue vectors componentwise and converting back gives the integer result whenever it is in the signed range.", "quantifier": "for every basis and all integers in range", "why_tests_cant": "unbounded integers", "anchors": ["fflas-ffpack/field/rns-integer.h", "fflas-ffpack/field/rns-double.inl: convert"]}
{"id": "C29", "title": "Sparse formats represent the same matrix", "statement": "For row-grouped coordinate input, y after fspmv with COO, CSR, ELL and HYB_ZO storage equals y_in + A x, where A is the matrix of the coordinate triples (duplicates summed).", "quantifier": "for every ring, shape, triple list sorted by row, and x, y", "why_tests_cant": "all sparsity patterns, including empty rows", "anchors": ["fflas-ffpack/fflas/fflas_sparse/coo/coo_utils.inl: sparse_init", "fflas-ffpack/fflas/fflas_sparse/csr/csr_utils.inl: sparse_init", "fflas-ffpack/fflas/fflas_sparse/csr/csr_spmv.inl: fspmv", "fflas-ffpack/fflas/fflas_sparse/ell/ell_utils.inl: sparse_init", "fflas-ffpack/fflas/fflas_sparse/hyb_zo/hyb_zo_utils.inl: sparse_init"]}
{"id": "C30", "title": "Constant-coefficient sparse product scales by the constant", "statement": "fspmv with a ZO (constant coefficient) matrix whose constant is cst returns y_in + cst * A01 x.", "quantifier": "for every constant, pattern, x and y", "why_tests_cant": "wrong only for constants other than 1 and -1 (the code violates the property: it ignores the scaled copy of x)", "anchors": ["fflas-ffpack/fflas/fflas_sparse.inl: fspmv (ZOSparseMatrix)"]}
{"id": "C31", "title": "SELL storage represents the same matrix", "statement": "fspmv with SELL storage returns y_in + A x with rows in their original order and touches only the m entries of y.", "quantifier": "for every pattern and row lengths", "why_tests_cant": "rows are reordered only when row lengths are not already decreasing and padded only when m is not a multiple of the chunk (the code violates the property)", "anchors": ["fflas-ffpack/fflas/fflas_sparse/sell/sell_utils.inl: sparse_init", "fflas-ffpack/fflas/fflas_sparse/sell/sell_spmv.inl: fspmv"]}
{"id": "C32", "title": "Freivalds verification never rejects a correct product and rarely accepts a wrong one", "statement": "freivalds returns true whenever C = alpha op(A) op(B); if C differs, at most q^(n-1) of the q^n possible random vectors make it return true.", "quantifier": "for every finite field, shape, transposition flags, matrices and random vector", "why_tests_cant": "probability over all random vectors, for every wrong C", "anchors": ["fflas-ffpack/fflas/fflas_freivalds.inl: freivalds"]}
{"id": "C33", "title": "The fgemm checker never rejects a correct result and rarely accepts a wrong one", "statement": "The checker attached to fgemm accepts for every random vector when the result is alpha op(A) op(B) + beta C_in, and for a wrong result accepts at most q^(n-1) of the q^n random vectors.", "quantifier": "for every finite field, shape, flags, alpha, beta, matrices and random vector", "why_tests_cant": "probability over all random vectors", "anchors": ["fflas-ffpack/checkers/checker_fgemm.inl: CheckerImplem_fgemm"]}
{"id": "C34", "title": "The ftrsm, PLUQ and inversion checkers accept all correct results", "statement": "The ftrsm, PLUQ and invert checkers return true (do not throw) for every correct result and every random vector, and accept a wrong result for at most q^(n-1) of the q^n random vectors.", "quantifier": "for every finite field, shape and random vector", "why_tests_cant": "probability over all random vectors", "anchors": ["fflas-ffpack/checkers/checker_ftrsm.inl", "fflas-ffpack/checkers/checker_pluq.inl", "fflas-ffpack/checkers/checker_invert.inl"]}
{"id": "C35", "title": "Floating-point modular reduction returns the canonical representative", "statement": "reduce(A,B,invB,FField) returns the representative of A modulo B in the field's canonical interval, congruent to A, for every exactly representable integer A for which the computed quotient is off by at most one.", "quantifier": "for every modulus and every integer", "why_tests_cant": "2^54 inputs per modulus", "anchors": ["fflas-ffpack/fflas/fflas_freduce.inl: reduce, modp"]}
{"id": "C36", "title": "64-bit modular reduction through the 2^50 split is exact", "statement": "The int64/uint64 reduction that splits the operand at 2^50 returns the representative of the operand in [0,p).", "quantifier": "for every modulus and every 64-bit operand", "why_tests_cant": "2^64 operands", "anchors": ["fflas-ffpack/fflas/fflas_freduce.inl: reduce (int64_t/uint64_t)"]}
{"id": "C37", "title": "Transposition transposes", "statement": "ftranspose / ftransposein store the transpose of the window: not-in-place, square in-place and both non-square in-place algorithms, for every block size, shape and leading dimension.", "quantifier": "for every m, n, leading dimensions and block sizes", "why_tests_cant": "block remainders and aliasing", "anchors": ["fflas-ffpack/fflas/fflas_transpose.h: not_inplace, square_inplace, nonsquare_inplace_v1, nonsquare_inplace_v2"]}
{"id": "C38", "title": "fsyrk computes the symmetric product and preserves the other triangle", "statement": "fsyrk stores alpha op(A) op(A)^T + beta C in the selected triangle of C and leaves the strict opposite triangle unchanged.", "quantifier": "for every ring, uplo, trans, n, k, alpha, beta and recursion threshold", "why_tests_cant": "the opposite triangle is only disturbed for k = 0 or alpha = 0 (the code violates the frame there)", "anchors": ["fflas-ffpack/fflas/fflas_fsyrk.inl: fsyrk"]}
{"id": "C39", "title": "fsyr2k computes the symmetric rank-2k update", "statement": "fsyr2k stores alpha (op(A) op(B)^T + op(B) op(A)^T) + beta C in the selected triangle of C.", "quantifier": "for every ring, uplo, trans, n, k, alpha, beta", "why_tests_cant": "only k = 0 separates beta C from beta^2 C (the code violates the property there)", "anchors": ["fflas-ffpack/fflas/fflas_fsyr2k.inl: fsyr2k"]}
{"id": "C40", "title": "fgemv scales Y for every shape", "statement": "fgemv stores alpha op(A) X + beta Y in Y for every shape, including those where one dimension is zero.", "quantifier": "for every ring, transposition, M, N, alpha, beta", "why_tests_cant": "only M = 0 with Trans (or N = 0 cases) differs (the delayed version violates the property)", "anchors": ["fflas-ffpack/fflas/fflas_fgemv.inl: fgemv"]}
{"id": "C41", "title": "Row and column rank profiles are the lexicographically first independent sets", "statement": "RowRankProfile / ColumnRankProfile return the lexicographically smallest increasing sequence of rank(A) linearly independent rows / columns; RankProfileFromLU and LeadingSubmatrixRankProfiles return the profiles of the leading submatrices.", "quantifier": "for every field and matrix", "why_tests_cant": "lexicographic minimality over all subsets", "anchors": ["fflas-ffpack/ffpack/ffpack_rankprofiles.inl: RowRankProfile, ColumnRankProfile, RankProfileFromLU, LeadingSubmatrixRankProfiles"]}
{"id": "C42", "title": "Rank profile submatrix index extraction stays in bounds", "statement": "RowRankProfileSubmatrixIndices / ColRankProfileSubmatrixIndices return R row and R column indices of an invertible submatrix without accessing memory out of bounds, for every shape.", "quantifier": "for every M, N", "why_tests_cant": "only rectangular shapes trigger the out-of-bounds write (the code violates the property)", "anchors": ["fflas-ffpack/ffpack/ffpack_rankprofiles.inl: RowRankProfileSubmatrixIndices, ColRankProfileSubmatrixIndices"]}
{"id": "C43", "title": "Random null-space vectors are in the null space for every stride", "statement": "RandomNullSpaceVector stores in X (stride incX) a vector of the right (left) kernel of A.", "quantifier": "for every field, shape, matrix, random choices and stride", "why_tests_cant": "only strides other than 1 with a non-trivial permutation differ (the code violates the property)", "anchors": ["fflas-ffpack/ffpack/ffpack.inl: RandomNullSpaceVector"]}
{"id": "C44", "title": "LUdivine is a factorisation of the input with the right rank", "statement": "LUdivine (recursive, with its base cases) and LUdivine_gauss return the rank r of A, r column exchanges and r increasing pivot rows, and store in A the factors C (column echelon) and U (upper trapezoidal) with A P = C U; with FflasTrans the same for the transpose. Only A, P, Q are modified.", "quantifier": "for every field and matrix", "why_tests_cant": "all rank profiles", "anchors": ["fflas-ffpack/ffpack/ffpack_ludivine.inl: LUdivine, LUdivine_gauss"]}
{"id": "C45", "title": "MonotonicApplyP permutes monotonically", "statement": "MonotonicApplyP applies the permutation that moves the pivot rows (columns) to the front in the order given by P and keeps the relative order of the other rows (columns).", "quantifier": "for every permutation, rank, side and contents", "why_tests_cant": "all permutations", "anchors": ["fflas-ffpack/ffpack/ffpack_permutation.inl: MonotonicApplyP, MonotonicCompress*"]}
{"id": "C46", "title": "Integer ranges test of conversions is exact", "statement": "FFLAS::Protected / limits in_range tests accept an integer exactly when it is representable in the target type.", "quantifier": "for every integer and type pair", "why_tests_cant": "all integers", "anchors": ["fflas-ffpack/utils/flimits.h: in_range, limits"]}
{"id": "C47", "title": "Reduction modulo p inside the RNS is exact", "statement": "RNSIntegerMod::reduce_modp replaces the residues of X (|X| at most a quarter of the product of the moduli) by the residues of an integer Y congruent to X modulo p with -p < Y <= (p-1) times the sum of (m_i - 1), although the quotient is obtained by rounding a floating-point sum evaluated in any order; other cells are unchanged.", "quantifier": "for every basis of coprime moduli whose dot products fit in 53 bits (fewer than 2^20 moduli), every p > 0, every number of elements, stride, contents and summation order", "why_tests_cant": "the rounding errors depend on all residues and on the summation order", "anchors": ["fflas-ffpack/field/rns-integer-mod.h: RNSIntegerMod constructor, reduce_modp"]}
{"id": "C48", "title": "RNS constructors produce a valid basis", "statement": "After rns_double(bound, pbits, rnsmod) the moduli are distinct primes whose product is at least the bound (times one plus the sum of the moduli if rnsmod), and rns_double(pbits, size) also gives pairwise coprime moduli.", "quantifier": "for every sequence of random primes", "why_tests_cant": "coincidences between random primes have small probability (the second constructor violates the property; the first does not terminate when primes run out)", "anchors": ["fflas-ffpack/field/rns-double.h: rns_double::rns_double"]}
{"id": "C49", "title": "Delayed reductions in sparse products stay exact and reduced", "statement": "Over a modular field in floating-point representation, fspmv (COO, CSR, ELL, HYB_ZO) on reduced operands never forms a value that is not exactly representable, whether sparse_init chose the fully delayed or the kmax variant, and leaves y reduced and congruent to y_in + A x.", "quantifier": "for every modulus, precision, matrix and vectors of reduced elements", "why_tests_cant": "overflow needs rows with more entries than the bound and values near p (COO and HYB_ZO violate the property)", "anchors": ["fflas-ffpack/fflas/fflas_sparse.inl: fspmv (ModularTag)", "fflas-ffpack/fflas/fflas_sparse/csr/csr_spmv.inl: fspmv", "fflas-ffpack/fflas/fflas_sparse/ell/ell_spmv.inl: fspmv", "fflas-ffpack/fflas/fflas_sparse/coo/coo_spmv.inl: fspmv", "fflas-ffpack/fflas/fflas_sparse/hyb_zo/hyb_zo_utils.inl: sparse_init"]}
{"id": "C50", "title": "Zero-one ELL products ignore the padding", "statement": "fspmv with ELL_ZO storage returns y_in + A01 x.", "quantifier": "for every pattern", "why_tests_cant": "wrong only for rows of different lengths (the code violates the property)", "anchors": ["fflas-ffpack/fflas/fflas_sparse/ell/ell_spmv.inl: fspmv_one"]}
{"id": "C51", "title": "ELL_simd products handle every number of rows", "statement": "fspmv with ELL_simd storage returns y_in + A x and touches only the m entries of y, for every number of rows, with and without delayed reduction.", "quantifier": "for every pattern, chunk size and number of rows", "why_tests_cant": "wrong only when the number of rows is not a multiple of the vector length (the code violates the property)", "anchors": ["fflas-ffpack/fflas/fflas_sparse/ell_simd/ell_simd_utils.inl: sparse_init", "fflas-ffpack/fflas/fflas_sparse/ell_simd/ell_simd_spmv.inl: fspmv"]}
{"id": "C52", "title": "CSR_HYB products use the entries' own columns", "statement": "fspmv with CSR_HYB storage returns y_in + A x.", "quantifier": "for every pattern and values", "why_tests_cant": "wrong only when a row mixes ones, minus ones and other values in another order than the sorted one (the code violates the property)", "anchors": ["fflas-ffpack/fflas/fflas_sparse/csr_hyb/csr_hyb_utils.inl: sparse_init", "fflas-ffpack/fflas/fflas_sparse/csr_hyb/csr_hyb_spmv.inl: fspmv"]}
{"id": "C53", "title": "Vector subtraction subtracts for every stride", "statement": "fsub, fsubin, faxpy with coefficient -1 and fadd with coefficient -1 on vectors compute the difference for every increment and every field.", "quantifier": "for every field category, length, increments and contents", "why_tests_cant": "only fields without specialised kernels combined with non-unit increments differ (the code violates the property)", "anchors": ["fflas-ffpack/fflas/fflas_fadd.inl: details::fadd (GenericTag)", "fflas-ffpack/fflas/fflas_fadd.h: fsub, fsubin", "fflas-ffpack/fflas/fflas_faxpy.inl: faxpy"]}
{"id": "C54", "title": "fscal over floating-point domains honours both increments", "statement": "fscal(F, n, a, x, incx, y, incy) over DoubleDomain and FloatDomain stores a x_i in y_i for every pair of increments.", "quantifier": "for every length, scalar, increments and contents", "why_tests_cant": "only different increments reveal it (the code violates the property)", "anchors": ["fflas-ffpack/fflas/fflas_fscal.inl: fscal (DoubleDomain, FloatDomain)"]}
{"id": "C55", "title": "Integer fgemv scales Y by beta", "statement": "fgemv over ZRing<int64_t> without vector instructions stores alpha op(A) X + beta Y in Y.", "quantifier": "for every shape, alpha, beta and contents", "why_tests_cant": "hidden for beta = 0 and entries 0 or 1, and on machines with SIMD (the code violates the property)", "anchors": ["fflas-ffpack/fflas/fflas_fgemv.inl: fgemv (ZRing<int64_t>)"]}
{"id": "C56", "title": "Echelon forms with their transformation", "statement": "RowEchelonForm, ColumnEchelonForm, ReducedRowEchelonForm and ReducedColumnEchelonForm (tile variants) return the rank of A, permutations P, Q and, packed into A, the (reduced) echelon form E and, on request, an invertible transformation T with T P A Q = E (columns: with P A Q T = E); E is zero left of (above) the pivots. Only A, P, Q are changed, and no access is out of bounds.", "quantifier": "for every field, shape, rank and contents, every leading dimension, recursion threshold and correct fgemm/ftrsm/ftrmm", "why_tests_cant": "all rank profiles and all recursion shapes", "anchors": ["fflas-ffpack/ffpack/ffpack_echelonforms.inl: RowEchelonForm, ColumnEchelonForm, ReducedRowEchelonForm, ReducedColumnEchelonForm"]}
{"id": "C57", "title": "Recursive Gauss-Jordan elimination computes the reduced row echelon form", "statement": "ReducedRowEchelonForm with FfpackGaussJordanTile and transform returns the rank of A, permutations and the packed reduced row echelon form with its transformation, T P A Q = (I S; 0 0).", "quantifier": "for every field, shape, rank, contents and base case size", "why_tests_cant": "the column slices are moved and recombined depending on the rank profile at every level of the recursion", "anchors": ["fflas-ffpack/ffpack/ffpack_echelonforms.inl: GaussJordan"]}
{"id": "C58", "title": "fsyrk with a diagonal matrix", "statement": "fsyrk with a diagonal D stores alpha op(A) D op(A)^T + beta C in the selected triangle of C, replaces op(A) by op(A) D, changes nothing outside C and A and makes no access out of bounds.", "quantifier": "for every field, uplo, trans, n, k, alpha, beta, stride of D, threshold >= 1 and correct fgemm", "why_tests_cant": "all recursion shapes; the in-place scaling of A must happen exactly once per row at every level", "anchors": ["fflas-ffpack/fflas/fflas_fsyrk.inl: fsyrk (D, incD)"]}
{"id": "C59", "title": "fsyrk with a block diagonal matrix", "statement": "fsyrk with D and twoBlocks (blocks of size 1 and antidiagonal blocks of size 2) stores alpha op(A) Delta op(A)^T + beta C in the selected triangle and replaces op(A) by op(A) Delta, without accessing memory out of bounds.", "quantifier": "for every field, uplo, trans, n, k, block structure, alpha, beta, threshold", "why_tests_cant": "only n/2 > k above the threshold reads twoBlocks out of bounds (the code violates the property there)", "anchors": ["fflas-ffpack/fflas/fflas_fsyrk.inl: fsyrk (twoBlocks)"]}
{"id": "C60", "title": "IsSingular decides singularity", "statement": "IsSingular returns false exactly when A is square and has full rank; only A is modified.", "quantifier": "for every field, shape, contents, leading dimension, cutoff and correct fgemm/ftrsm", "why_tests_cant": "the early termination of the recursion depends on the rank profile; a cutoff above 1 breaks it (the code violates the property there)", "anchors": ["fflas-ffpack/ffpack/ffpack.inl: IsSingular", "fflas-ffpack/ffpack/ffpack_ludivine.inl: LUdivine, LUdivine_small"]}
{"id": "C61", "title": "Rank profiles by slab recursive elimination", "statement": "RowRankProfile and ColumnRankProfile with FfpackSlabRecursive return the rank and the (row, column) rank profile of A in increasing order.", "quantifier": "for every field, shape, contents, leading dimension, cutoff and correct fgemm/ftrsm", "why_tests_cant": "all rank profiles and all recursion shapes; the column version is wrong for a cutoff above 1 (the code violates the property there)", "anchors": ["fflas-ffpack/ffpack/ffpack_rankprofiles.inl: RowRankProfile, ColumnRankProfile"]}
{"id": "C62", "title": "Invert2 computes the inverse or the nullity", "statement": "Invert2 returns the nullity of A; if it is zero X receives the inverse of A, otherwise X is unchanged; only A and X are modified.", "quantifier": "for every field, order, contents, leading dimensions, cutoff and correct fgemm/ftrsm/ftrmm", "why_tests_cant": "the column permutation of the decomposition must be undone on the right side for every pivoting pattern", "anchors": ["fflas-ffpack/ffpack/ffpack_invert.inl: Invert2"]}
{"id": "C63", "title": "LQUPtoInverseOfFullRankMinor inverts the minor", "statement": "After LUdivine, LQUPtoInverseOfFullRankMinor stores in X the inverse of the leading r x r minor of the permuted matrix.", "quantifier": "for every decomposed matrix", "why_tests_cant": "never called by the library (the code violates the property)", "anchors": ["fflas-ffpack/ffpack/ffpack_rankprofiles.inl: LQUPtoInverseOfFullRankMinor"]}
{"id": "C64", "title": "Echelon forms by slab recursive elimination", "statement": "RowEchelonForm, ColumnEchelonForm, ReducedRowEchelonForm and ReducedColumnEchelonForm with FfpackSlabRecursive (the default) return the rank of A, the exchanges of rows in P, the increasing pivots in Qt and, packed into A, the echelon form and the transformation; only A, P, Qt are changed, and no access is out of bounds.", "quantifier": "for every field, shape, rank and contents, every leading dimension and correct fgemm/ftrsm/ftrmm", "why_tests_cant": "the pivots are compressed in place depending on the rank profile; what is stored left of a pivot must never be read as part of the form", "anchors": ["fflas-ffpack/ffpack/ffpack_echelonforms.inl: RowEchelonForm, ColumnEchelonForm, ReducedRowEchelonForm, ReducedColumnEchelonForm"]}
{"id": "C65", "title": "Accessors return the echelon form and its transformation", "statement": "After (Reduced)Row/ColumnEchelonForm with transform, get(Reduced)EchelonForm and get(Reduced)EchelonTransform give matrices E and T such that T is invertible, T A = E (columns: A T = E) for the original A, and E is in (reduced) echelon form with pivots one; with OnlyNonZeroVectors nothing beyond the rank is written; the versions in place leave E in the place of A. Nothing but A, E, T is changed and no access is out of bounds.", "quantifier": "for every field, shape, rank, contents, tag, leading dimensions, thresholds and correct fgemm/ftrsm/ftrmm", "why_tests_cant": "the tile variants must reorder the pivots: wrong orders appear only for special rank profiles", "anchors": ["fflas-ffpack/ffpack/ffpack_echelonforms.inl: getTriangular, getEchelonForm, getEchelonTransform, getReducedEchelonForm, getReducedEchelonTransform, PLUQtoEchelonPermutation"]}
{"id": "C66", "title": "The reduced echelon form does not depend on the algorithm", "statement": "The rank and the reduced row (column) echelon form obtained through the accessors are the same for all tags, thresholds and kernels, and the pivots are the column rank profile of A.", "quantifier": "for every matrix and every two calls", "why_tests_cant": "a comparison of two algorithms on samples cannot settle it for all rank profiles", "anchors": ["fflas-ffpack/ffpack/ffpack_echelonforms.inl: ReducedRowEchelonForm, ReducedColumnEchelonForm, getReducedEchelonForm"]}
{"id": "C67", "title": "Parallel matrix product computes the product under every schedule", "statement": "pfgemm (Block/Threads, Recursive TwoD, TwoDAdaptive, ThreeD, ThreeDInPlace, ThreeDAdaptive) ends with alpha op(A) op(B) + beta C in C, whatever the order in which the tasks advance: no data race, no deadlock, no access out of bounds, nothing else changed, same memory as the sequential execution.", "quantifier": "for every field, shape, transposition, alpha, beta, leading dimensions, number of threads, threshold and interleaving of the memory accesses of the tasks", "why_tests_cant": "a test sees one schedule of one machine; the adaptive three-dimensional variant fails only for m < n <= k (the code violates the property there)", "anchors": ["fflas-ffpack/paladin/pfgemm_variants.inl: pfgemm"]}
{"id": "C68", "title": "Parallel matrix-vector product", "statement": "The parallel fgemv (Row, Recursive) ends with alpha op(A) x + beta y in y whatever the order in which the tasks advance, without races or accesses out of bounds.", "quantifier": "for every field, shape, transposition, strides, number of threads and interleaving", "why_tests_cant": "one schedule per test; the recursive variant with a transposed matrix reads the wrong columns (the code violates the property)", "anchors": ["fflas-ffpack/paladin/pfgemv.inl: fgemv"]}
{"id": "C69", "title": "Parallel dot product", "statement": "The parallel fdot adds <x, y> to d whatever the order in which the tasks advance.", "quantifier": "for every field, length, strides, splitting strategy, number of threads and interleaving", "why_tests_cant": "one schedule per test; the Grain strategy overflows a temporary (the code violates the property)", "anchors": ["fflas-ffpack/paladin/fflas_plevel1.h: fdot"]}
{"id": "C70", "title": "Parallel triangular solve", "statement": "The parallel ftrsm replaces B by the unique solution of op(A) X = alpha B (or X op(A) = alpha B) whatever the order in which the tasks advance, and ends.", "quantifier": "for every field, shape, side, triangle, transposition, diagonal, number of threads, splitting strategy and interleaving", "why_tests_cant": "one schedule per test; the hybrid variant never ends for an empty right-hand side (the code violates the property)", "anchors": ["fflas-ffpack/fflas/fflas_pftrsm.inl: ftrsm"]}
{"id": "C71", "title": "Parallel permutations and clearing", "statement": "The parallel applyP, MatrixApplyS, MatrixApplyT permute the rows or columns as their sequential versions do, and pfzero clears the whole matrix, whatever the order in which the tasks advance.", "quantifier": "for every shape, permutation, splitting strategy, number of threads and interleaving", "why_tests_cant": "one schedule per test; pfzero leaves rows uncleared for sizes that are not close to a multiple of the block size (the code violates the property)", "anchors": ["fflas-ffpack/ffpack/ffpack_permutation.inl: applyP, MatrixApplyS, MatrixApplyT", "fflas-ffpack/paladin/fflas_plevel1.h: pfzero"]}
{"id": "C72", "title": "Triangular system with triangular right-hand side", "statement": "ftrstr replaces the triangle stored in B by the triangular matrix X with A X = B (X A = B for FflasRight), A and B read as triangular matrices with the announced diagonals; the opposite triangle of B (and the diagonal if both are unit) keeps its values, nothing else changes and no access is out of bounds. The solution is the only one.", "quantifier": "for every field, order, side, triangle, combination of diagonals, leading dimensions and correct ftrmm/ftrsm", "why_tests_cant": "over fields without delayed reduction the left version is wrong exactly when an entry -1 appears on the diagonal of the solution (the code violates the property there)", "anchors": ["fflas-ffpack/ffpack/ffpack_ftrstr.inl: ftrstr"]}
{"id": "C73", "title": "Triangular system of symmetric rank 2k form", "statement": "In characteristic other than 2, ftrssyr2k replaces the stored triangle of the symmetric matrix B by a triangular matrix X with A^T X + X^T A = B (upper) or A X^T + X A^T = B (lower); nothing outside B changes and no access is out of bounds.", "quantifier": "for every field of characteristic other than 2, order, triangle, diagonal, leading dimensions and correct ftrmm/ftrsm/fsyr2k", "why_tests_cant": "over fields without delayed reduction the lower version is wrong for special values; the equation announced for the lower triangle is not the one solved (the code violates the property there)", "anchors": ["fflas-ffpack/ffpack/ffpack_ftrssyr2k.inl: ftrssyr2k"]}
{"id": "C74", "title": "LDLT factorisation of symmetric matrices", "statement": "fsytrf returns true if and only if all leading minors of the symmetric matrix stored in the selected triangle are nonzero; then the triangle holds the unique L (U) and D with A = L D L^T (U^T D U), nothing else changes and no memory stays allocated. fsytrf_nonunit gives A = T Dinv T^T and Dinv, the inverse of the diagonal of T. No access is out of bounds; the recursion ends.", "quantifier": "for every field, order, triangle, contents, leading dimension, threshold, both base cases and correct ftrsm/fsyrk", "why_tests_cant": "the answer depends on a zero appearing in one of the Schur complements; over fields without delayed reduction the lower base case is wrong only when a coefficient is -1, Dinv is misplaced for strides other than 1, and memory is lost on failure (the code violates the property there)", "anchors": ["fflas-ffpack/ffpack/ffpack_fsytrf.inl: fsytrf, fsytrf_nonunit, fsytrf_BC_RL, fsytrf_BC_Crout"]}
{"id": "C75", "title": "Characteristic polynomial by Danilevski's algorithm", "statement": "Danilevski returns monic polynomials of positive degree whose product is the characteristic polynomial of A; only A is changed, no access is out of bounds and no element is inverted that is zero.", "quantifier": "for every field, order, contents and leading dimension", "why_tests_cant": "the path taken depends on which entries vanish during the similarity transformations: blocks, exchanges and a last column appear only for special matrices, and on small fields random tests rarely detect a wrong coefficient of a factor", "anchors": ["fflas-ffpack/ffpack/ffpack_charpoly_danilevski.inl: Danilevski"]}
{"id": "C76", "title": "Minimal polynomial of a matrix and a vector", "statement": "MatVecMinPoly returns the monic polynomial p whose multiples are exactly the polynomials q with q(A) v = 0; MinPoly returns it for the vector it draws, so its result always divides the minimal and the characteristic polynomial of A and equals both when its degree is the order. A, v and every other existing cell keep their values, nothing stays allocated, no access is out of bounds and no zero is inverted.", "quantifier": "for every field, order, matrix, vector (zero or not), increment, leading dimension, random draw and correct fgemm/ftrsm", "why_tests_cant": "the elimination of the Krylov matrix is interleaved with its construction, and the first dependency may appear at any row of any level of the recursion; random tests almost always give degree N. The call with N = 0 never ends (the code violates the property there)", "anchors": ["fflas-ffpack/ffpack/ffpack_minpoly.inl: MinPoly, MatVecMinPoly, Protected::MatVecMinPoly", "fflas-ffpack/ffpack/ffpack_ludivine.inl: LUdivine_construct"]}
{"id": "C77", "title": "Characteristic polynomial: LU-Krylov algorithm and driver", "statement": "CharPoly with FfpackLUK returns monic polynomials whose product is the characteristic polynomial of A, whatever nonzero vectors are drawn: the algorithm always ends and never fails. CharPoly with a polynomial as result returns the characteristic polynomial (1 for N = 0), with FfpackDanilevski, FfpackLUK, and with FfpackAuto / FfpackArithProgKrylovPrecond whenever these select one of them. Only A is changed, nothing stays allocated, no access is out of bounds.", "quantifier": "for every field, order, matrix, leading dimension, sequence of nonzero vectors drawn and correct fgemm/ftrsm", "why_tests_cant": "with a random vector the Krylov space is almost always everything, so the deflation steps (permutations, triangular solve, Schur complement in the transposed matrix, workspace shifted along its diagonal) are hardly executed", "anchors": ["fflas-ffpack/ffpack/ffpack_charpoly.inl: CharPoly, Protected::LUKrylov"]}
{"id": "C78", "title": "Product with a sequentially semi-separable matrix", "statement": "productSSSxTS adds alpha A B to beta C, A being the N x N matrix described by the generators: D_i on the diagonal, P_i R_(i-1) ... R_(j+1) Q_j below, U_i W_(i+1) ... W_(j-1) V_j above. Only C is changed, nothing stays allocated and no access is out of bounds.", "quantifier": "for every field, order N >= s > 0 (divisible by s or not), number of columns, leading dimensions, alpha, beta and correct fgemm", "why_tests_cant": "the loops are unrolled by two with different exits for each parity and for an incomplete last block; for N < s memory before V is read (the code violates the property)", "anchors": ["fflas-ffpack/ffpack/ffpack_sss.inl: productSSSxTS"]}
{"id": "C79", "title": "Dense form of a sequentially semi-separable matrix", "statement": "SSSToDense writes in A the N x N matrix described by the generators (D_i on the diagonal, P_i R_(i-1) ... R_(j+1) Q_j below, U_i W_(i+1) ... W_(j-1) V_j above). Only A is changed, nothing stays allocated and no access is out of bounds.", "quantifier": "for every field, order N > 0, block size, leading dimensions and correct fgemm", "why_tests_cant": "the products are chained through two temporaries; a wrong index shows only with enough blocks; for N = 0 the loop bound wraps (the code violates the property)", "anchors": ["fflas-ffpack/ffpack/ffpack_sss.inl: SSSToDense"]}
{"id": "C80", "title": "Generators of a dense matrix", "statement": "DenseToSSS computes generators P, Q, R, U, V, W, D of order s that describe exactly the matrix A, whenever every block of A above or below the diagonal that starts at a multiple of s has rank at most s. Converting back with SSSToDense gives A, and productSSSxTS with these generators multiplies by A. Only the generators are changed, nothing stays allocated and no access is out of bounds.", "quantifier": "for every field, order N (divisible by s or not, smaller than s, or 0), s > 0, matrix meeting the rank condition, leading dimensions, PLUQ threshold and correct fgemm/ftrsm", "why_tests_cant": "each block is compressed together with what is left of the preceding ones, so an error appears only with several blocks and special ranks (smaller than s, zero, different at each step), and random generators have full rank", "anchors": ["fflas-ffpack/ffpack/ffpack_sss.inl: DenseToSSS"]}
{"id": "C81", "title": "Bruhat generator of a left triangular matrix", "statement": "LTBruhatGen replaces A by a Bruhat generator of its left triangular part: returns r distinct pivots (P[k],Q[k]) inside the left triangle such that the entries of A inside the triangle are the sums over k of a column stored below pivot k times the row stored to the right of it. For every leading a x b submatrix inside the triangle (a+b <= N), its rank is the number of pivots in it. Entries outside the left triangle do not matter, nothing else changes, nothing stays allocated and no access is out of bounds.", "quantifier": "for every field, order N >= 1, contents, leading dimension, diagonal, PLUQ threshold and correct fgemm/ftrsm", "why_tests_cant": "the two recursive calls work on blocks with rows and columns set to zero where pivots were found, and rows of earlier factors are put back over the result; errors need rank-deficient blocks at several levels. The returned number is not the rank of A, as documented, and N = 0 never ends (the code violates the documentation there)", "anchors": ["fflas-ffpack/ffpack/ffpack_bruhatgen.inl: LTBruhatGen"]}
{"id": "C82", "title": "Factors of a Bruhat generator", "statement": "The matrices R, L, U extracted by getLTBruhatGen from the result of LTBruhatGen satisfy: the left triangular part of L R^T U is the left triangular part of A; R is the left triangular rank profile matrix of A (ones at most once per row and column; the rank of each leading submatrix inside the triangle is the number of ones in it); L and U are left triangular, start at the pivots, and one of them has ones there, depending on the diagonal. Nothing but the matrices given changes and no access is out of bounds.", "quantifier": "for every field, order N >= 1, contents, diagonal, leading dimensions of A and R, and correct fgemm/ftrsm", "why_tests_cant": "wrong entries appear only if a stored row crosses the column of an earlier pivot; with a leading dimension of the triangular factor other than N, old contents remain (the code violates the property there)", "anchors": ["fflas-ffpack/ffpack/ffpack_bruhatgen.inl: getLTBruhatGen"]}
{"id": "C83", "title": "Order of quasi-separability of a left triangular matrix", "statement": "LTQSorder applied to the pivots found by LTBruhatGen returns the largest rank of a leading submatrix inside the left triangle of A. No access is out of bounds and no counter wraps.", "quantifier": "for every field, order N >= 1 and matrix", "why_tests_cant": "the maximum must be taken over all diagonals, and the running counter must be updated for rows and columns in the right order; random matrices have their maximum in the middle; N = 0 reads an empty vector (the code violates the property there)", "anchors": ["fflas-ffpack/ffpack/ffpack_bruhatgen.inl: LTQSorder"]}
{"id": "C84", "title": "Characteristic polynomial by the random Krylov preconditioner", "statement": "CharPoly with FfpackArithProgKrylovPrecond (the algorithm chosen by FfpackAuto for orders at least degree) returns monic polynomials whose product is the characteristic polynomial of A, whatever the random generator draws, writes only in A, frees everything it allocates, and makes no access out of bounds.", "quantifier": "for every field, order, contents, leading dimension, degree, characteristic, sequence of draws, LUdivine cutoff and correct fgemm/ftrsm", "why_tests_cant": "the result depends on random vectors: wrong results appear only for draws of small probability, when several blocks are used and the test for invariance of the Krylov space looks at some of the blocks only (the code violates the property there); the recursion on the quotient and the two retries are hardly ever reached by tests", "anchors": ["fflas-ffpack/ffpack/ffpack_frobenius.inl: RandomKrylovPrecond, ArithProg", "fflas-ffpack/ffpack/ffpack_charpoly.inl: CharPoly"]}
{"id": "C85", "title": "Random subsets, permutations and rank profile matrices", "statement": "RandomIndexSubset returns R distinct indices below N, and every sequence of distinct indices comes from exactly one sequence of draws, so the subset is uniform when the draws are. RandomPermutation returns a permutation in LAPACK format, one for each sequence of draws. RandomRankProfileMatrix returns R positions, at most one in each row and column. No access is out of bounds and nothing else is changed.", "quantifier": "for every M, N, R <= min(M,N) and sequence of draws", "why_tests_cant": "a test sees a few samples only; a bias or an index repeated for rare draws remains unseen", "anchors": ["fflas-ffpack/utils/fflas_randommatrix.h: RandomIndexSubset, RandomPermutation, RandomRankProfileMatrix"]}
{"id": "C86", "title": "Random symmetric rank profile matrices", "statement": "RandomSymmetricRankProfileMatrix returns R positions, at most one in each row and column, forming a symmetric set; it ends whatever is drawn and no access is out of bounds.", "quantifier": "for every N, R <= N and sequence of draws", "why_tests_cant": "for odd R the function may search for ever an element common to two disjoint sets (the code violates the property there); tests meet this only with some probability", "anchors": ["fflas-ffpack/utils/fflas_randommatrix.h: RandomSymmetricRankProfileMatrix"]}
{"id": "C87", "title": "Random rank profile matrices of left triangular quasi-separable matrices", "statement": "RandomLTQSRankProfileMatrix returns r positions strictly inside the left triangle, at most one in each row and column, such that the largest number of positions in a leading block inside the triangle is t. No access is out of bounds; the search ends.", "quantifier": "for every n, r, t and sequence of draws", "why_tests_cant": "the counters of the diagonals are updated and restored at each move; wrong counters appear only after a move has been undone, for some draws (the code violates the property there: the order may be smaller than t, and an empty list may be read)", "anchors": ["fflas-ffpack/utils/fflas_randommatrix.h: RandomLTQSRankProfileMatrix"]}
{"id": "C88", "title": "Random triangular matrices", "statement": "RandomTriangularMatrix writes an m x n upper or lower triangular matrix: zeroes outside the triangle, elements drawn inside, and on the diagonal ones, or non-zero elements if nonsingular, or any element. Nothing outside the matrix is written.", "quantifier": "for every field, m, n, leading dimension, triangle, diagonal, nonsingular and sequence of draws", "why_tests_cant": "a row written too far is seen only if the cells behind it are looked at, and only for lower triangular matrices with more rows than columns (the code violates the property there)", "anchors": ["fflas-ffpack/utils/fflas_randommatrix.h: RandomTriangularMatrix"]}
{"id": "C89", "title": "Random matrices with given rank profile matrix", "statement": "RandomMatrixWithRankandRPM returns a matrix in which every leading a x b block has as rank the number of given pivots in it, whatever is drawn; RandomMatrixWithRankandRandomRPM returns a matrix of rank R with a random rank profile matrix. Only A is changed, nothing stays allocated and no access is out of bounds.", "quantifier": "for every field, M, N, R <= min(M,N), pivots, leading dimension, draws and correct fgemm", "why_tests_cant": "tests of the factorizations take the rank of these matrices for granted; an error for rare draws would look like an error of the factorization", "anchors": ["fflas-ffpack/utils/fflas_randommatrix.h: RandomMatrixWithRankandRPM, RandomMatrixWithRankandRandomRPM"]}
{"id": "C90", "title": "Random matrices with given rank", "statement": "RandomMatrixWithRank returns a matrix of rank r. Only A is changed, nothing stays allocated and no access is out of bounds.", "quantifier": "for every field, m, n, r <= min(m,n), leading dimension, draws and correct fgemm", "why_tests_cant": "no test in the repository checks the rank of the generated matrix independently; the argument r is not used (the code violates the property for all r < min(m,n))", "anchors": ["fflas-ffpack/utils/fflas_randommatrix.h: RandomMatrixWithRank"]}
{"id": "C91", "title": "Random symmetric matrices", "statement": "RandomSymmetricMatrix returns a symmetric matrix, non-singular if nonsingular is set. Only A is changed, nothing stays allocated and no access is out of bounds.", "quantifier": "for every field, order, leading dimension, nonsingular, draws and correct fgemm/ftrmm", "why_tests_cant": "the result is not symmetric only when zero is drawn on the diagonal and nonsingular is not set, with probability about n/p (the code violates the property there)", "anchors": ["fflas-ffpack/utils/fflas_randommatrix.h: RandomSymmetricMatrix"]}
{"id": "C92", "title": "Random symmetric matrices with given rank profile matrix", "statement": "RandomSymmetricMatrixWithRankandRPM returns a matrix in which every leading block has as rank the number of given pivots in it, symmetric if the set of pivots is; RandomSymmetricMatrixWithRankandRandomRPM returns a symmetric matrix of rank R. Only A is changed, nothing stays allocated, no access is out of bounds and the functions return.", "quantifier": "for every field (characteristic two included), N, R <= N, pivots, leading dimension, draws and correct fgemm", "why_tests_cant": "tests of symmetric factorizations rely on it; for odd R the second function may not return (the code violates the property there)", "anchors": ["fflas-ffpack/utils/fflas_randommatrix.h: RandomSymmetricMatrixWithRankandRPM, RandomSymmetricMatrixWithRankandRandomRPM"]}
{"id": "C93", "title": "Random matrices with given determinant", "statement": "RandomMatrixWithDet returns a matrix of determinant d, whatever is drawn, d = 0 included. Only A is changed, nothing stays allocated and no access is out of bounds.", "quantifier": "for every field, order, d, leading dimension, draws and correct fgemm", "why_tests_cant": "the sign depends on both permutations drawn; a wrong sign for one kind of permutation is a matter of the draws; order zero wraps (the code violates the property there)", "anchors": ["fflas-ffpack/utils/fflas_randommatrix.h: RandomMatrixWithDet"]}
{"id": "C94", "title": "Random left triangular quasi-separable matrices", "statement": "RandomLTQSMatrixWithRankandQSorder returns a left triangular matrix with r pivots in the triangle and order of quasi-separability t: the largest rank of a leading block in the triangle. Only A is changed, nothing stays allocated and no access is out of bounds.", "quantifier": "for every field, n, r < n, t > 0, leading dimension, draws and correct fgemm", "why_tests_cant": "the order obtained depends on the draws; no test computes it independently (the code violates the property: smaller orders and an access to an empty vector)", "anchors": ["fflas-ffpack/utils/fflas_randommatrix.h: RandomLTQSMatrixWithRankandQSorder"]}
{"id": "C95", "title": "Products of integer matrices by residues", "statement": "fgemm over the ring of integers of arbitrary size leaves alpha op(A) op(B) + beta C in C and changes nothing else; the primes drawn are small enough for the products modulo each prime to be exact, the moduli cover the result with its sign, and no access is out of bounds.", "quantifier": "for all sizes, transpositions, leading dimensions, integers alpha, beta and entries, random primes, and every correct fgemm over the prime fields", "why_tests_cant": "the number of moduli depends on the size of the entries and the primes are random: a bound too small by one bit fails only for results near the bound; zero operands take an early exit (the code violates the property there: C is not multiplied by beta)", "anchors": ["fflas-ffpack/fflas/fflas_fgemm/fgemm_classical_mp.inl: fgemm (ZRing<Integer>)", "fflas-ffpack/field/rns-double.h: rns_double"]}
{"id": "C96", "title": "Products of matrices modulo a large integer by residues", "statement": "fgemm over Modular<Integer> leaves alpha op(A) op(B) + beta C modulo p in C, reduced to [0,p), and changes nothing else.", "quantifier": "for every modulus, all sizes, transpositions, leading dimensions and reduced operands, random primes, and every correct fgemm over the prime fields", "why_tests_cant": "the product is first computed over the integers with a bound taken from p; wrong bounds show only for particular entries and primes", "anchors": ["fflas-ffpack/fflas/fflas_fgemm/fgemm_classical_mp.inl: fgemm (Modular<Integer>)"]}
{"id": "C97", "title": "Determinant of an integer matrix", "statement": "Det over the ring of integers assigns the determinant of the matrix to det, whatever primes are drawn and whatever det held before.", "quantifier": "for every order, matrix of integers, leading dimension, previous value of det, random primes and correct Det over the prime fields", "why_tests_cant": "whether the modulus exceeds twice the determinant depends on the primes drawn; determinants near the bound come out with the wrong sign, and a variable that was not zero before is added to (the code violates the property in both cases)", "anchors": ["fflas-ffpack/ffpack/ffpack_det_mp.inl: Det (ZRing<Integer>)"]}
{"id": "C98", "title": "Characteristic polynomial of an integer matrix", "statement": "CharPoly over the ring of integers assigns the N+1 coefficients of the characteristic polynomial to charp, whatever primes are drawn and whatever charp held before.", "quantifier": "for every order, matrix of integers, leading dimension, previous contents of charp, random primes and correct CharPoly over the prime fields", "why_tests_cant": "the bound on the coefficients must leave room for the sign for every matrix; the previous contents of the vector are added to (the code violates the property there)", "anchors": ["fflas-ffpack/ffpack/ffpack_charpoly_mp.inl: CharPoly (ZRing<Integer>)"]}
{"id": "C99", "title": "Checker of the determinant", "statement": "The checker of the determinant accepts what Det leaves (value, factors, permutations) for every draw of its random vectors; a wrong determinant is accepted for at most q^(3n-1)+q^(3n-2) of the q^(3n) draws, whatever factors and permutations come with it. Only the matrix is modified and check, a const member, may be called again.", "quantifier": "for every field, order, leading dimension, matrix, sequence of draws, and every program between the construction of the checker and check", "why_tests_cant": "acceptance of correct results must hold for all draws, and the probability of accepting a wrong one cannot be estimated from runs; no test runs check twice (the code violates that part)", "anchors": ["fflas-ffpack/checkers/checker_det.inl: CheckerImplem_Det"]}
{"id": "C100", "title": "Checker of the characteristic polynomial", "statement": "CharPoly compiled with the checker returns the polynomial computed exactly when it takes the value of the characteristic polynomial at the random element and throws otherwise: the right polynomial is always returned, a wrong one for at most max(n, degree) random elements. The checker leaves the memory of the caller unchanged and is built without fault, for an empty matrix also.", "quantifier": "for every field, order, leading dimension, matrix, random element, draws of the inner check, and every program computing the polynomial", "why_tests_cant": "acceptance of correct results must hold for all random elements, eigenvalues included; rejection is a matter of counting; tests build the checker for non-empty matrices only (the code violates the property for an empty one)", "anchors": ["fflas-ffpack/checkers/checker_charpoly.inl: CheckerImplem_charpoly", "fflas-ffpack/ffpack/ffpack_charpoly.inl: CharPoly"]}
{"id": "C101", "title": "Product of matrices of 64-bit integers", "statement": "fgemm and fgemv over ZRing<int64_t> (igemm_) set C to alpha op(A) op(B) + beta C, exactly, whenever the integers involved fit in 64 bits; they modify C only and always return.", "quantifier": "for every order, transpositions, sizes, leading dimensions, alpha, beta, contents, vector length (2, 4, 8) and cache sizes reported by the processor", "why_tests_cant": "the ranges, block sizes and vector remainders are unbounded and the caches are those of the machine at hand; tests use entries below 10 (the code violates the property for entries of 32 bits or more, for products of 32 bits or more when alpha is not 1 or -1, and when no cache is reported)", "anchors": ["fflas-ffpack/fflas/fflas_igemm/igemm.inl: igemm_, igemm_colmajor", "fflas-ffpack/fflas/fflas_igemm/igemm_kernels.inl: igebp", "fflas-ffpack/fflas/fflas_igemm/igemm_tools.inl: pack_lhs, pack_rhs, BlockingFactor"]}
{"id": "C102", "title": "Strassen-like symmetric rank-k update", "statement": "fsyrk called with a helper of type MMHelper<Field, MMHelperAlgo::Winograd> sets the selected triangle of C to alpha op(A) op(A)^T + beta C for every number of recursion levels; it modifies nothing outside of this triangle and releases its temporaries.", "quantifier": "for every field of prime characteristic, triangle, transposition, order, number of columns, leading dimensions, alpha, beta, number of levels and classical update used at the last level", "why_tests_cant": "the schedule reuses the blocks of C in an order that depends on beta, on the shape and on the level; tests compare one triangle for random sizes and at most four levels (the code violates the property for orders below 2^(levels+1) with beta non-zero and overwrites the other triangle)", "anchors": ["fflas-ffpack/fflas/fflas_fsyrk_strassen.inl: fsyrk, fsyrk_strassen, computeS1S2"]}
{"id": "C103", "title": "Matrices are read as they were written", "statement": "WriteMatrix in the dense, sparse or binary format followed by ReadMatrix, in the same format or with the default formats, gives back the dimensions and the entries, for every leading dimension and both storage orders. Matrices written one after the other on a stream are read one after the other, and no file makes ReadMatrix access memory outside of the matrix.", "quantifier": "for every field whose elements are read as they are written, all dimensions, leading dimensions, contents, storage orders, and everything before and after the matrix on the stream", "why_tests_cant": "contents, dimensions and surrounding text are unbounded; the test of the library writes and reads a few matrices with lda = n in one format (the code violates the property for binary files with lda other than n or column major storage, for the default formats, for the second matrix of a stream, and for entries of column 0)", "anchors": ["fflas-ffpack/utils/fflas_io.h: ReadMatrix, WriteMatrix, preamble"]}
{"id": "C104", "title": "Sparse matrices are read from files", "statement": "readSmsFormat returns the compressed rows of the matrix in the file: the k-th entry lies in the part of row i exactly if it is an entry of row i, columns and values are those of the file, for files that announce the number of entries and for files that end with 0 0 0, with sorted entries or not.", "quantifier": "for every ring, number and order of entries, comments, empty rows, values (zero in the field included)", "why_tests_cant": "files are unbounded and values that vanish modulo the characteristic only occur for special moduli; tests read one file of the distribution (the code violates the property for values that are zero in the field, for sorted = false, and for row indices beyond the dimension)", "anchors": ["fflas-ffpack/fflas/fflas_sparse/read_sparse.h: readSmsFormat"]}
{"id": "C105", "title": "Product of a sparse matrix and a block of vectors", "statement": "fspmm sets Y to A X + beta Y for the matrix A built by sparse_init from coordinate triples and blocks X, Y given with their leading dimensions, in the formats CSR, COO, ELL, HYB_ZO, CSR_HYB, CSR_ZO and COO_ZO; it changes nothing outside of the block and makes no invalid access.", "quantifier": "for every ring, triples (duplicates, empty rows), number of columns, leading dimensions, beta, vector length, and alignment of the pointers", "why_tests_cant": "the unrolled and vectorised loops have remainders for every number of columns; tests run with ldx = ldy = blockSize and random matrices (the code violates the property for beta other than 0 and 1, for zero-one constants other than 1 and -1, for leading dimensions that are not multiples of the vector length, and for CSR_HYB)", "anchors": ["fflas-ffpack/fflas/fflas_sparse.inl: init_y, fspmm", "fflas-ffpack/fflas/fflas_sparse/csr/csr_spmm.inl: fspmm", "fflas-ffpack/fflas/fflas_sparse/coo/coo_spmm.inl: fspmm", "fflas-ffpack/fflas/fflas_sparse/ell/ell_spmm.inl: fspmm", "fflas-ffpack/fflas/fflas_sparse/hyb_zo/hyb_zo_spmm.inl: fspmm", "fflas-ffpack/fflas/fflas_sparse/csr_hyb/csr_hyb_spmm.inl: fspmm"]}
{"id": "C106", "title": "Delayed reductions in products of a sparse matrix and a block of vectors", "statement": "fspmm over Modular<float>, Modular<double> and the balanced versions leaves reduced entries congruent to those of Y + A X in the block, no value on the way being too large to be exact, whether reductions are delayed to the end or done after every kmax entries.", "quantifier": "for every modulus, matrix, number of columns, leading dimensions and reduced operands", "why_tests_cant": "the sums that reach the bound depend on the modulus, the row and all columns; tests use rows much shorter than the bound (the code violates the property for COO with long rows, where it does nothing, and for zero-one matrices, where the dimensions of the reduction are exchanged)", "anchors": ["fflas-ffpack/fflas/fflas_sparse.inl: fspmm", "fflas-ffpack/fflas/fflas_sparse/csr/csr_spmm.inl: fspmm", "fflas-ffpack/fflas/fflas_sparse/coo/coo_spmm.inl: fspmm", "fflas-ffpack/fflas/fflas_sparse/ell/ell_spmm.inl: fspmm"]}
{"id": "C107", "title": "Parallel PLUQ decomposition", "statement": "PLUQ with a parallel helper and pPLUQ leave a PLUQ decomposition of the matrix in its place and return the rank, whatever the order in which the tasks advance: no execution has a data race, a deadlock, undefined behaviour or fails to end. pRank and pDet, which take their result from it, return the rank and the determinant; nothing outside of the matrix changes.", "quantifier": "for every field, dimensions, leading dimension, matrix, number of threads, thresholds, contents of the arrays obtained from the allocator, and every schedule of the tasks", "why_tests_cant": "the number of schedules is unbounded and races and dependencies depend on the ranks met on the way; tests run one schedule on random matrices", "anchors": ["fflas-ffpack/ffpack/ffpack_ppluq.inl: PLUQ, pPLUQ", "fflas-ffpack/ffpack/ffpack.inl: pRank, pDet"]}
{"id": "C108", "title": "Rank profiles and echelon forms with a parallel helper", "statement": "pRowRankProfile and pColumnRankProfile return the row and the column rank profile, and pRowEchelonForm leaves what getEchelonForm turns into a row echelon form, as the sequential functions do.", "quantifier": "for every field, dimensions, leading dimension, matrix, number of threads, thresholds and schedules", "why_tests_cant": "only matrices with special ranks of their blocks lead the recursion to lines with late pivots; tests use random matrices, whose leading blocks have full rank (the code violates the property)", "anchors": ["fflas-ffpack/ffpack/ffpack_rankprofiles.inl: pRowRankProfile, pColumnRankProfile", "fflas-ffpack/ffpack/ffpack_echelonforms.inl: pRowEchelonForm", "fflas-ffpack/ffpack/ffpack_ppluq.inl: PLUQ"]}
{"id": "C109", "title": "Integer operations on SIMD registers act lane by lane as documented", "statement": "The operations of Simd128, Simd256 and Simd512 over 16, 32 and 64 bit signed and unsigned integers which are emulated by other instructions or by scalar code return in every lane what their comments say: arithmetic shifts divide by a power of two, mulhi returns the floor of the product divided by 2^w, mulx the exact product of the low halves, comparisons a full mask, blend and shuffle the selected lanes, mullo the product modulo 2^64, mulhi_fast the high product to within one; no scalar operation on the way overflows or reads outside of a register.", "quantifier": "for all contents of the registers and all immediate operands", "why_tests_cant": "registers have 2^128 to 2^512 values, and errors show only for values with particular high bits; tests draw a few random registers and a few immediates (the code violates the property for shuffle, mullo and mulhi_fast)", "anchors": ["fflas-ffpack/fflas/fflas_simd/simd128_int64.inl", "fflas-ffpack/fflas/fflas_simd/simd256_int64.inl", "fflas-ffpack/fflas/fflas_simd/simd512_int64.inl", "fflas-ffpack/fflas/fflas_simd/simd128_int32.inl", "fflas-ffpack/fflas/fflas_simd/simd256_int32.inl", "fflas-ffpack/fflas/fflas_simd/simd128_int16.inl", "fflas-ffpack/fflas/fflas_simd/simd256_int16.inl", "fflas-ffpack/utils/bit_manipulation.h: mulhi_64, mulhi_u64, mulhi_fast_64"]}
{"id": "C110", "title": "Vectorised reduction of vectors and matrices", "statement": "freduce over Modular and ModularBalanced with elements of type float, double or int64_t replaces every entry of a vector (in place or from a second vector), of a matrix or of a triangle by its canonical representative modulo p, and changes nothing else. The result does not depend on the address, the increment or the number of entries, which decide which entries are treated by SIMD instructions and which one by one.", "quantifier": "for every modulus, exactly representable contents, size, increment, leading dimension, address, register length, with and without fused multiply-add", "why_tests_cant": "errors of the rounded quotient occur for few values and depend on the place of the entry in a register; tests compare random vectors at addresses given by the allocator (the code violates the property for numbers within p of 2^53, where the scalar and the SIMD reduction differ)", "anchors": ["fflas-ffpack/fflas/fflas_freduce.inl: modp, freduce", "fflas-ffpack/fflas/fflas_freduce.h: freduce", "fflas-ffpack/fflas/fflas_simd.h: FLOAT_MOD, NORML_MOD", "fflas-ffpack/fflas/fflas_simd/simd256_int64.inl: mod"]}
{"id": "C111", "title": "Vectorised scaling, linear combination and sums", "statement": "fscalin, faxpy, fadd and fsub over Modular and ModularBalanced with elements of type float, double or int64_t compute the canonical representatives of a X, a X + Y, A + B and A - B from canonical operands, in place or not, whatever the addresses of the operands are; all integers met on the way are exact, and nothing else changes.", "quantifier": "for every modulus whose products fit the mantissa (or 63 bits), every size, contents, addresses, register length, with and without fused multiply-add", "why_tests_cant": "the corrections by p apply to particular sums, in lanes that depend on the alignment of three pointers; tests draw random vectors at aligned addresses", "anchors": ["fflas-ffpack/fflas/fflas_fscal.inl: scalp, fscalin", "fflas-ffpack/fflas/fflas_faxpy.inl: axpyp, faxpy", "fflas-ffpack/fflas/fflas_fadd.inl: addp, subp, fadd, fsub", "fflas-ffpack/fflas/fflas_simd.h: VEC_ADD, VEC_SUB"]}
{"id": "C112", "title": "Triangular systems modulo a large integer", "statement": "ftrsm over Modular<Integer> replaces B by alpha op(A)^-1 B or alpha B op(A)^-1 modulo p: the result is reduced and satisfies the triangular system modulo p for both triangles, transposed or not, with a unit or an invertible diagonal, and nothing outside of B changes. No product, sum or conversion of residues held in doubles is inexact on the way.", "quantifier": "for every modulus p of up to 4096 bits, prime or not, every order below 2^20, number of right-hand sides, leading dimensions, reduced entries and alpha, and all the primes drawn at random for the residues", "why_tests_cant": "the residues are exact only if the bounds hold for the worst entries, which random matrices do not come near, and the primes differ from run to run", "anchors": ["fflas-ffpack/fflas/fflas_ftrsm_mp.inl: ftrsm", "fflas-ffpack/fflas/fflas_ftrsm_src.inl: delayed, operator()", "fflas-ffpack/field/rns-integer-mod.h: reduce_modp, inv", "fflas-ffpack/field/rns-double.h: rns_double"]}
{"id": "C113", "title": "Elements of RNSIntegerMod", "statement": "The element operations of RNSIntegerMod are those of the integers modulo p: init stores an element congruent to its argument, convert returns the integer held, add, sub, neg, mul, axpyin and assign compute it from the operands, whatever their strides, reduce and inv return the canonical representative; isZero is true exactly for the multiples of p and isOne, isMOne, areEqual decide congruence; the search for a pivot in a row of a matrix returns the first entry that is not zero modulo p.", "quantifier": "for every modulus, every system of residues large enough for it, every stride, place in memory and integer held", "why_tests_cant": "the tests of elements go wrong for entries divisible by one of the random moduli, and init for integers with more words than p; random matrices of reduced entries meet neither (the code violates the property: isZero ignores the stride, init drops the high words, isOne and areEqual compare representatives)", "anchors": ["fflas-ffpack/field/rns-integer-mod.h: isZero, isOne, isMOne, init, reduce, convert, add, sub, neg, mul, axpyin, inv, areEqual", "fflas-ffpack/ffpack/ffpack_ludivine.inl: LUdivine"]}
{"id": "C114", "title": "Symmetric factorisation revealing the rank profile matrix", "statement": "fsytrf_RPM leaves S = P^T U^T T U P of a symmetric matrix S of any rank: it returns the rank, P holds a permutation with marks on the blocks of size 2, the unit upper triangle of the first rank rows is U, T is symmetric and tridiagonal with blocks of size 1 and 2, getTridiagonal writes T, and the places of the pivots tell the rank of every leading block of S, so that the row rank profile can be read from P. Nothing outside of A and P is changed.", "quantifier": "for every field of characteristic other than 2, order, leading dimension, symmetric matrix and contents of new arrays", "why_tests_cant": "the places of the pivots, the sizes of the blocks and the shifts depend on the ranks of all leading blocks; tests compare one factorisation of random matrices and cannot decide the ranks of all leading blocks (the code violates the property for the lower triangle, in characteristic 2 and if std::copy copies overlapping ranges element by element)", "anchors": ["fflas-ffpack/ffpack/ffpack_fsytrf.inl: fsytrf_UP_RPM_BC_Crout, fsytrf_RPM, getTridiagonal"]}
{"id": "C115", "title": "Parallel products with a sparse matrix", "statement": "pfspmm and pfspmv compute A X + beta Y for a sparse matrix A in CSR or ELL format, with stored values or with a constant value: in every execution, whatever the order in which the threads advance, no two tasks access the same cell unless both only read, every execution ends, and every execution leaves the same result as the sequential one, with nothing else changed.", "quantifier": "for every field, matrix, number of threads, number of columns of the block, leading dimensions, contents and interleaving of the accesses of the tasks", "why_tests_cant": "a race shows only under particular timings and splittings of the rows; tests run a few schedules on a few matrices (the code violates the property for zero-one matrices with a constant other than 1 and -1, and for blocks with beta other than 0 and 1)", "anchors": ["fflas-ffpack/fflas/fflas_sparse.inl: pfspmm, init_y", "fflas-ffpack/fflas/fflas_sparse/csr/csr_pspmm.inl: pfspmm, pfspmm_one, pfspmm_mone", "fflas-ffpack/fflas/fflas_sparse/csr/csr_pspmv.inl: pfspmv, pfspmv_one, pfspmv_mone", "fflas-ffpack/fflas/fflas_sparse/ell/ell_pspmv.inl: pfspmv"]}
{"id": "C116", "title": "Systems solved with several threads", "statement": "pSolve solves A x = b with the parallel decomposition: in every execution, whatever the order in which the tasks advance and wherever the allocator places temporaries, there is no undefined behaviour, data race, deadlock or endless execution; SINGULAR MATRIX is reported exactly when A is not invertible, and x is then left as it was; otherwise x holds the solution. Nothing but A and x changes.", "quantifier": "for every field, order, matrix, right-hand side, strides, number of threads, thresholds and schedule of the tasks", "why_tests_cant": "a race or a wrong dependency between tasks shows only under particular timings; tests run few schedules, and pSolve only on random matrices, which are invertible", "anchors": ["fflas-ffpack/ffpack/ffpack.inl: Solve, pSolve", "fflas-ffpack/ffpack/ffpack_ppluq.inl: PLUQ"]}
{"id": "C117", "title": "Parallel symmetric rank update with a diagonal matrix", "statement": "fsyrk with a diagonal matrix D and a parallel helper, for any number of threads, any threshold that is not 0, any order in which the tasks advance and any placement of the temporaries: no undefined behaviour, data race, deadlock or infinite execution. At the end the selected triangle of C holds alpha op(A) D op(A)^T + beta C, op(A) has been replaced by op(A) D, and nothing outside the windows of C and A has changed.", "quantifier": "for all dimensions, strides, triangles, transpositions, alpha, beta, contents, thresholds >= 1, numbers of threads >= 1, correct products, and all interleavings of the tasks", "why_tests_cant": "The tasks of the recursion scale rows of A while the product for the block outside the diagonal has read the same rows; a test runs a few schedules only and cannot show that no interleaving races or deadlocks.", "anchors": ["fflas-ffpack/fflas/fflas_fsyrk.inl:584-675", "fflas-ffpack/fflas/fflas_fsyrk.inl:494-583"]}
{"id": "C118", "title": "Parallel triangular factorisation of symmetric matrices", "statement": "fsytrf with a parallel helper: in every execution, whatever the order in which the tasks advance and wherever the allocator places temporaries, there is no undefined behaviour, data race, deadlock or endless execution; true is returned exactly when all leading blocks of the symmetric matrix stored in the selected triangle are invertible, and then A holds its factorisation L D L^T (or U^T D U). Nothing but A changes, and the memory allocated at the end is that of the beginning.", "quantifier": "for every field, order, leading dimension, triangle, contents, number of threads >= 1, threshold >= 1, correct products and schedule of the tasks", "why_tests_cant": "the solve and the update of a level must be complete before the next block is factorised, which a test sees only under unlucky timings; the answer false occurs on matrices with a singular leading block at any place (the code violates the last claim: on failure the array of inverses is not deleted)", "anchors": ["fflas-ffpack/ffpack/ffpack_fsytrf.inl: fsytrf, fsytrf_nonunit, fsytrf_BC_RL, fsytrf_BC_Crout", "fflas-ffpack/fflas/fflas_fsyrk.inl: fsyrk"]}
{"id": "C119", "title": "Products over fields of machine words through floating-point numbers", "statement": "fgemm, fgemv and fger over Modular and ModularBalanced of 8, 16 and 32 bit integers, which copy the operands to a floating-point field with the same modulus and the result back, compute alpha op(A) op(B) + beta C, alpha op(A) x + beta y and A + alpha x y^T modulo p: elements of the field in the result, no number rounded on the way, nothing written outside the result, whatever the modulus.", "quantifier": "for all prime moduli, representations of the elements, dimensions, strides, transpositions, alpha, beta, contents of fresh memory and orders of the floating-point sums", "why_tests_cant": "The field used for the computation depends on the modulus and rounding only appears for extreme operands; tests draw a few moduli below 2^16 and compare random products.", "anchors": ["fflas-ffpack/fflas/fflas_fgemm.inl:38", "fflas-ffpack/fflas/fflas_fgemm.inl:240", "fflas-ffpack/fflas/fflas_fgemv.inl:37", "fflas-ffpack/fflas/fflas_fgemv.inl:86", "fflas-ffpack/fflas/fflas_fger.inl:48", "fflas-ffpack/fflas/fflas_fger.inl:82"]}
{"id": "C120", "title": "Matrix-vector product of multi-precision integers", "statement": "fgemv over ZRing<Integer> and Modular<Integer> sets y to alpha op(A) x + beta y, exactly over the integers and with results in [0, p) modulo p, and writes nothing else, including for empty and zero operands.", "quantifier": "for all integers, dimensions, strides, transpositions, alpha, beta, random primes drawn and orders of the floating-point sums", "why_tests_cant": "The result comes from residues modulo random primes; a bound that is too small, or an early exit for empty or zero operands, shows for rare operands only.", "anchors": ["fflas-ffpack/fflas/fflas_fgemv_mp.inl:84", "fflas-ffpack/fflas/fflas_fgemv_mp.inl:101", "fflas-ffpack/fflas/fflas_fgemv.inl:337"]}
{"id": "C121", "title": "Products over fields of floating-point numbers and of 64-bit integers", "statement": "fgemm, fgemv and fger over Modular and ModularBalanced of float, double and int64_t give alpha op(A) op(B) + beta C, alpha op(A) x + beta y and A + alpha x y^T modulo p, with elements of the field as results and nothing else written, whether they convert the operands to another type or not.", "quantifier": "for all prime moduli, dimensions, strides, transpositions, alpha, beta, contents of fresh memory and orders of the floating-point sums", "why_tests_cant": "The type of the computation, the number of blocks and the reductions depend on the modulus and the dimension; a rounded sum shows for large operands only.", "anchors": ["fflas-ffpack/fflas/fflas_fgemm.inl:366", "fflas-ffpack/fflas/fflas_fgemv.inl:118", "fflas-ffpack/fflas/fflas_fger.inl:276"]}
{"id": "C122", "title": "Operations on matrices over RNSIntegerMod", "statement": "Over RNSIntegerMod with the residue system and the tables its constructors compute, freduce, fscal, fscalin, fger, fgemm and fgemv give the specified result modulo p; the entries written are reduced (at most p times the sum of the moduli in absolute value), the other entries keep their values.", "quantifier": "for all moduli p, residue systems with room for k products, dimensions, strides, transpositions, alpha, beta, reduced operands, orders of the sums of the reduction", "why_tests_cant": "Entries are residues of integers, known only as long as these stay in the range of the residues; outside it the result is a wrong element that looks like any other, and no test compares with integers at the edge of the range.", "anchors": ["fflas-ffpack/fflas/fflas_fscal_mp.inl:92", "fflas-ffpack/fflas/fflas_fger_mp.inl:74", "fflas-ffpack/fflas/fflas_fgemm/fgemm_classical_mp.inl:470", "fflas-ffpack/fflas/fflas_fgemv_mp.inl:35"]}
{"id": "C123", "title": "Parallel echelon forms with their transformation, and the C interface", "statement": "pRowEchelonForm, pColumnEchelonForm, pReducedRowEchelonForm and pReducedColumnEchelonForm return the rank and leave in A the echelon form of the permuted matrix, with the transformation matrix when transform is true; the C functions of the same names for double, float and int32_t do the same for the transform they are given.", "quantifier": "for all matrices, numbers of threads, thresholds and schedules of the tasks, both values of transform, all element types of the C interface", "why_tests_cant": "The C functions have no tests; the rank and the permutations are right even when the transformation is missing, so only a check of T A for a matrix with T different from A shows it. The schedules of the tasks cannot be enumerated by tests.", "anchors": ["fflas-ffpack/ffpack/ffpack_echelonforms.inl:45", "fflas-ffpack/ffpack/ffpack_echelonforms.inl:201", "fflas-ffpack/interfaces/libs/ffpack.C:588", "fflas-ffpack/interfaces/libs/ffpack.C:710", "fflas-ffpack/interfaces/libs/ffpack.C:726"]}
{"id": "C124", "title": "fmove and the triangular fzero", "statement": "fmove(F, m, n, A, lda, B, ldb) moves: afterwards A holds the former entries of B, and B is zero. fzero with a shape (upper, lower, left or right triangle) and a diagonal flag clears exactly the entries of that triangle.", "quantifier": "for all sizes including 0, strides, disjoint matrices, all four shapes with and without the diagonal, every field", "why_tests_cant": "Neither function has a test; which entries are touched depends on pointer arithmetic with negative steps, and unsigned counters that wrap only for empty matrices.", "anchors": ["fflas-ffpack/fflas/fflas_level2.inl:94", "fflas-ffpack/fflas/fflas_level2.inl:413"]}
{"id": "C125", "title": "Statistics of a sparse matrix", "statement": "getStat of a matrix in compressed rows returns the number of entries equal to 1, to -1 and others, the smallest, largest and average number of entries per row and per column and their deviation, and the numbers of empty and of dense rows and columns.", "quantifier": "for all matrices in compressed rows, all dimensions and numbers of entries (also from 2^31 on), every ring", "why_tests_cant": "The function has no test. Its result is only printed; a count that is off by one or always 0 looks plausible, and the sum of type int is wrong only for matrices too large for a test.", "anchors": ["fflas-ffpack/fflas/fflas_sparse/utils.h:71", "fflas-ffpack/fflas/fflas_sparse/utils.h:83", "fflas-ffpack/fflas/fflas_sparse/utils.h:103", "fflas-ffpack/fflas/fflas_sparse/utils.h:119"]}
{"id": "C126", "title": "Storage from fflas_new and fflas_delete", "statement": "A pointer other than null returned by fflas_new(F, m, n, align) is the start of a new block for m n elements, aligned as asked and apart from all other live blocks; it is null, or bad_alloc is thrown, only if the system has no room. fflas_delete, also with several arguments, releases exactly the given blocks by the matching function. AlignedAllocator::allocate(n) does the same for n up to max_size() and throws bad_alloc only without room.", "quantifier": "for all dimensions of type size_t, element sizes, alignments, heaps and answers of the system", "why_tests_cant": "Products of sizes wrap only for dimensions from 2^32 on, failure of the system cannot be provoked portably, and a mismatched deallocation seldom crashes.", "anchors": ["fflas-ffpack/utils/align-allocator.h:70", "fflas-ffpack/utils/align-allocator.h:148", "fflas-ffpack/utils/fflas_memory.h:58", "fflas-ffpack/utils/fflas_memory.h:69", "fflas-ffpack/utils/fflas_memory.h:87"]}
