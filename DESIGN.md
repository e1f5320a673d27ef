# Design of the formal model of fflas-ffpack

Prover: Lean 4.33.0 with Mathlib. Project in `lean/`, modules under `lean/Verif/`.

## Trusted base

* Lean's kernel, and the three standard axioms `propext`, `Classical.choice`, `Quot.sound`
  (checked with `#print axioms` for every property theorem; no own axioms, no `sorry`,
  no `native_decide`/`bv_decide`).
* The faithfulness of the Lean definitions under `Verif/Model/` to the C++ text they cite
  (file and lines in each docstring, with the simplifications stated there).
* Not modelled: Givaro (field arithmetic is an arbitrary Mathlib `Field`/`CommRing`; finite prime
  fields are `ZMod p` or integers reduced mod p), external BLAS (`cblas_*` is the exact
  mathematical kernel it implements), GMP internals, SIMD intrinsics (the scalar loop they
  implement), timing, I/O formatting, OpenMP/TBB runtimes (a parallel region is a set of tasks with
  an arbitrary interleaving), template dispatch (each specialisation is a separate function).
* `size_t` is ℕ; unsigned subtraction is either visibly safe, or a checked operation that faults.
  Wrap-around at 2^64 is not modelled.

## Layers

* `Verif/Core`   – memory, faults, the program monad, total-correctness rules, windows of a matrix.
* `Verif/Model`  – one Lean function per C++ function (or per template specialisation).
* `Verif/Proofs` – lemmas.
* `Verif/Props`  – the property theorems `C01_…`, each with a separate small specification and a
  concrete non-trivial instance (`example`) meeting its hypotheses.

Heap-level models (`Prog K α`) run on a flat memory of cells with an allocation predicate. An access
outside allocated cells, an inverse of zero, or an unsigned underflow is a *fault outcome*, and the
theorems state that a fault never occurs (total correctness), what the result is, and which cells
may change (frame). Temporaries from `fflas_new` are fresh cells with unspecified contents.
Floating-point delayed-reduction code is modelled over exact integers with an explicit
"not exactly representable" outcome.

Where the code violates a stated property, the negation is proved with a concrete witness
(theorem names containing `_violated`), and a `_partial` theorem proves the property under the
condition that makes it true.

## Properties: what is modelled, how it is proved

| id | model | proof |
|----|-------|-------|
| C01 | `ForStrategy1D` state machine: build / initialize / operator++ | induction on the iteration number: closed form of block bounds |
| C02 | `BlockCuts<*,Threads>` + `ForStrategy2D` iteration | closed form; remainder smaller than block count |
| C03 | `BlockCuts<*,Grain/Fixed>` | negation witness; coverage iff remainder ≤ block count (`_partial`) |
| C04 | small-step tasks on a shared memory, arbitrary interleavings (`Core/Par`), loop macros (`Model/Par`) | `wp` with footprints is preserved by every step (`wp_step`, `wp_sound`); a task that stays in its cells when alone has such a `wp` (`Props/Par`) |
| C05 | `DotProdBoundClassic` over ℕ/ℤ | interval arithmetic |
| C06 | `TRSMBound` loop | closed form of the loop; growth bound by induction on dimension |
| C07 | `MMHelper` interval functions | interval arithmetic |
| C08 | lazy fgemm over ℤ with inexact outcome | negation witness; loop invariant under the corrected bound; `Props/FitTable` and `Props/LazyTight`: over the fields of the library the property fails for exactly eight listed primes (`C08_exact_violated`) |
| C09, C10 | `fgemm` classical, Winograd, WinogradAcc_3_21 and (OLDWINO) WinogradAcc_3_23 schedules with temporaries, DynamicPeeling2, recursion with fuel (`Model/Gemm`, `Model/Winograd`, `Model/WinogradOld`) | straight-line code over a family of windows (`Core/Fam`), bilinearity + `ring`; peeling as block updates of one window; induction on the fuel with an explicit sufficient depth |
| C11–C13 | generic recursive ftrsm / ftrmm, 16 variants, and the double/float block loops with their temporaries (`Model/Trsm`); `fgemm` is a parameter with the contract proved in C10 | one split lemma per side (`Cut`), induction on the fuel / on the number of blocks |
| C14 | split parameters | arithmetic; C05 |
| C15, C17 | permutation arrays as checked arrays (`Model/Perm`) | loop invariants, `Equiv.Perm` |
| C16, C18 | `applyP`, cyclic shifts, `MatrixApplyS/T` on memory (`Model/ApplyP`) | every step is a permutation of rows or columns of a block of one window (`permRows`, `permCols`); temporaries as a second window (`On2`) |
| C19 | `PLUQ`: Crout base case and tile recursion on memory (`Model/Pluq`) | the base case keeps a loop invariant (`Proofs/Crout`); the recursion combines four decompositions (`Proofs/PluqComb`, pure algebra; `Proofs/PluqStep`, memory). The invariant `Fac` also says that no row uses a pivot of a lower row and no column a pivot of a column to the right |
| C20, C41 | `Rank`, `RowRankProfile`, `ColumnRankProfile`, `LeadingSubmatrixRankProfiles` (`Model/RankProfile`) | `Fac` restricted to the pivots of a leading submatrix gives its rank (`Proofs/PluqRank`); specification by `Matrix.rank` only |
| C21 | `Det` (`Model/Det`) | determinant of triangular factors, sign of the permutations by induction on the exchanges |
| C22, C24, C43 | `fgetrs` (in place and out of place, both sides), `fgesv`, `Solve`, `NullSpaceBasis`, `RandomNullSpaceVector` (`Model/Solve`) | solutions and null spaces read off the factors (`Proofs/SolveMath`); read-only operands as `Src`, written windows as `On` (`Proofs/Src`, `Proofs/Solve`); `C43` fails for `incX > 1` (negation proved) |
| C56 | `RowEchelonForm`, `ColumnEchelonForm`, `ReducedRowEchelonForm`, `ReducedColumnEchelonForm`, tile variants, with and without transformation (`Model/Echelon`) | algebra on the factors of PLUQ (`Proofs/EchelonMath`), memory part in `Proofs/Echelon`; specification `Spec/Echelon` by one matrix equation each |
| C57 | recursive `GaussJordan` (tile variant) with its index bookkeeping | invariant `GJ` for a slice of columns, its composition (`GJ.comp`), arrays of exchanges of a slice (`Proofs/GJArr`), recursion in `Proofs/GaussJordan`; the slice moves use overlapping row-wise copies, which the generic forward loop of `fassign` handles (proved); for float/double the library calls `cblas_?copy`, assumed to behave like that loop |
| C23 | `Invert` in and out of place on top of `GaussJordan` | negation proved (item 25); nullity and inverse up to the order of the rows proved |
| C32 | `freivalds` with the random generator as a function of the index, its three vectors allocated with unspecified contents | exact value of the answer (`A(Bv) = Cv` as sums), counting lemma `card_kernel_le` (a non-zero row vanishes on at most `q^(n-1)` vectors); violated for `k = 0`, `ta = Trans` (defect 26) |
| C33 | checker attached to the public `fgemm` (initialisation before, check after, scratch vectors freed) | `fgemmChecked_spec`: the answer is `true` iff the residual kills the random vector, for an arbitrary product program (`Writes`); completeness by the contract of the product, soundness by counting |
| C34 | checkers attached to `ftrsm`, `PLUQ`, `Invert` (with the triangular products and permutations they perform) | same method; `pluqMat` describes `P L U Q` by the permutations, completeness for the PLUQ model uses C19 |
| C25 | ftrtri (base case and recursion), ftrtrm, trinv_left on memory (`Model/Ftrtr`) | block algorithms on one window (`Proofs/OnWin`); one block-inverse lemma for base case and recursion; induction on the fuel |
| C26, C53–C55 | level-1/2 kernels on memory with strides (`Model/Level1`, `Model/Level2`), windows and frame (`Core/Heap`) | generic store-loop lemmas; copies through temporaries composed with `Step.of_temp`; substitution invariant for ftrsv |
| C27–C28 | `rns_double` precompute / init / convert on checked arrays, digits base 2^16, `RNSIntegerMod` operations | CRT; exactness of sums in any order |
| C47 | `RNSIntegerMod` tables and `reduce_modp` | forward error analysis of the rounded quotient |
| C48 | constructors with an arbitrary stream of random primes | loop invariant; negation witnesses |
| C29–C31, C49–C52 | `sparse_init` + `fspmv` of nine formats on checked arrays, arithmetic as a parameter (exact ring, or machine numbers with the outcome `inexact`) | loop invariants stating that sums over stored cells equal sums over triples; negation witnesses (for every correct `std::sort` where one is used) |
| C35–C36 | reduce over ℤ | arithmetic |
| C37 | `ftranspose`: not in place, square in place, both non-square in-place algorithms (`Model/Transpose`), register transposition networks of the eight SIMD types built from the intrinsics (`Model/Simd`) | the networks are permutations of register cells, checked for symbolic entries (`Proofs/Simd`); partial writes of a window (`Wr`) with tile bookkeeping; the three-pass algorithm by composing permutations modulo m and n (`Proofs/Transpose`) |
| C38 | `fsyrk`: default loops, divide and conquer over any base, lazy blocks over `k`, delayed reductions with `alpha` factored out, public entry (`Model/Fsyrk`); the delayed `cblas_?syrk` is modelled by the default loops | contract `SyrkR` with a relation for the other triangle, so that one induction covers all bases; `_violated` for `k = 0` and for delayed reductions with `alpha ≠ ±1` (item 6) |
| C39 | `fsyr2k`, characteristic 2 and others | exact effect on both triangles (`fsyr2k_on`); violated for `k = 0` |
| C58–C59 | `fsyrk` with a diagonal / block diagonal matrix, sequential | common lemmas `mid_base`, `mid_rec` for any operation on rows that is self-adjoint (`blkRow_sym`); violated out of bounds read (item 27) |
| C40 | fgemv | see C26 |
| C45 | `MonotonicApplyP` as compiled by default (`Model/Monotonic`): LAPACK array to permutation array, marking of the pivots, the saved lines, the compression of the other lines and its inverse, block by block | each block is a move of lines along an injective index map (`Mv`); the positions reached are counted (`npCnt`) and shown to be increasing; the theorem says: line `i < R` receives line `P(i)`, and the non-pivot lines follow in their original order; inverse direction by the same map; both sides (`C45_positions`, `C45_monotonicApplyP_rows`, `C45_monotonicApplyP_cols`); `ibeg = 0`, at most 2^31 lines |
| C44 | `LUdivine` (both transpositions, both diagonals, `FfpackSingular`), its one-row/one-column bases, `LUdivine_small`, `LUdivine_gauss` (`Model/LUdivine`) | column echelon factorisation `Cup` (`Spec/Cup`), composition of two halves `Cup.comb_moved` (`Proofs/LudMath`), uniqueness of rank and rank profile from the factorisation alone (`Proofs/LudRank`); one window predicate `OnL` for both transpositions; `LUdivine_small` by an invariant on the first rows; `LUdivine_gauss` only by negations (items 10, 32) |
| C42, C60–C63 | `RowRankProfileSubmatrixIndices/…Submatrix`, column versions, `IsSingular`, slab rank profiles, `Invert2`, `LQUPtoInverseOfFullRankMinor` (`Model/LudUse`) | consequences of C44 (`Proofs/LudUse`); negations for the defects 7, 32–34 |
| C64 | the echelon forms with the tag `FfpackSlabRecursive` (`Model/EchelonSlab`) | from C44: the packed matrix is an `L·E` decomposition (`SlabFac`); the exchanges of the compression are `compV` (`Proofs/EchelonSlab`) |
| C65 | `getTriangular`, `getEchelonForm`, `getEchelonTransform`, `getReducedEchelonForm`, `getReducedEchelonTransform`, out of place and in place (`Model/EchelonGet`) | what they write (`Proofs/EchelonGet`, `EchelonGet2`, `EchelonGetIn`), and that it is an echelon form (`Proofs/EchelonForm`); stated for users who call one after the other, in terms of `T·X = E` only. `FfpackGaussJordanSlab` is not modelled; `FfpackGaussJordanTile` only for the reduced row form (the accessors treat it as a slab form elsewhere) |
| C66 | uniqueness | `Spec.IsReducedRowEchelonForm.unique`, rank of the leading columns `rank_cols` (`Proofs/EchelonForm`) |
| C67 | parallel products (`Model/Par`), tasks as single memory accesses (`ParTasks`) | induction on the number of threads, tiles of the output (`Proofs/ParGemm`); crash of the adaptive variant in `Proofs/ParBad` |
| C68, C69, C70 | parallel `fgemv`, `fdot`, `ftrsm` | loops of tasks over blocks (`Proofs/ParLoops`, `ParLevel`) from the specifications of the sequential functions |
| C70, recursive and hybrid | `ftrsm` whose products are parallel (fflas_ftrsm.inl:103-178, fflas_ftrsm_src.inl:396-443) and its hybrid with blocks of the right-hand side (fflas_pftrsm.inl:74-156), `Model/PTrsm` | induction on the order with the contract of the products (`Proofs/PTrsm`), then loops of tasks; the choice of the two numbers of threads is the code's |
| C71 | parallel permutations, `pfzero` | `Proofs/ParElem`; the part of the matrix visited by the splitter is exactly `bnd` |
| C72 | `ftrstr` | `Model/Ftrstr`; `Proofs/Ftrstr` (`StrF`, `str_split`): induction on the order, with contracts for `ftrmm` out of place and `ftrsm` |
| C73 | `ftrssyr2k` | same files (`Sy2F`, `sy2_split`): both triangles read as a lower one (`lowM`), contract for `fsyr2k` |
| C74 | `fsytrf`, `fsytrf_nonunit`, both base cases | `Model/Fsytrf`; `Proofs/FsytrfMath` (block composition `HalfF`, determinants of the leading blocks), `Proofs/Fsytrf` (both triangles read as a lower one) |
| C75 | `Danilevski`: for every square matrix the product of the monic polynomials returned is `Matrix.charpoly` of the initial contents | `Model/Danilevski`; `Spec/CharPoly` (polynomial of a coefficient list); `Proofs/CharPolyMath` (similarity, block triangular matrices, companion matrices), `Proofs/Danilevski` (each elimination step is a similarity; invariant: product of the factors found times the polynomial of the rest) |
| C76 | `MatVecMinPoly`, `MinPoly`: the result is the monic generator of the ideal of the polynomials `q` with `q(A) v = 0`, memory intact | `Model/MinPoly` (with `LUdivine_construct`); `Spec/MinPoly`; `Proofs/MinPolyElim` (invariant `Con`: the rows built so far are factored, all but the last independent), `Proofs/MinPolyMath` (relation and independence give the generator), `Proofs/MinPoly` |
| C77 | `LUKrylov` and `CharPoly`: product of the factors returned is `Matrix.charpoly`, for every nonzero draw | `Model/CharPoly`; `Proofs/LukMath` (`luk_split`: similarity with a block triangular matrix, companion block times quotient), `Proofs/Luk` (loop invariant: factors found times polynomial of the current block) |
| C78 | `productSSSxTS`: `C <- alpha A B + beta C`, `A` the matrix of the generators (`Spec/Sss`: `sssMat`) | `Model/Sss`; `Proofs/Wins` (several disjoint windows at once), `Proofs/SssMath` (recurrences of the carried vectors), `Proofs/SssProd` |
| C79 | `SSSToDense`: the matrix of the generators, block by block | `Model/Sss`; `Proofs/SssDense` |
| C80 | `DenseToSSS`: the generators describe the matrix when its order of quasi-separability is at most `s`; round trip with C78, C79 | `Model/SssBuild`; `Spec/QuasiSep`; `Proofs/SssBuildMath`, `SssBuild`, `SssUp`, `SssLow`, `SssBuildAll` |
| C81 | `LTBruhatGen`: Bruhat generator of the left triangular part; its pivots give the rank of every leading submatrix inside the triangle and are unique | `Model/Bruhat`; `Spec/Bruhat`; `Proofs/BruhatMath` (a generator is put together from PLUQ factors and two generators: `Comb.all`), `BruhatElim`, `BruhatTmp`, `Bruhat`, `BruhatRank` |
| C82 | `getLTBruhatGen`: `Left(L R^T U) = Left(A)`, `R` the left rank profile matrix, shape of `L`, `U` | `Model/Bruhat`; `Proofs/BruhatGet` |
| C83 | `LTQSorder`: largest rank of a leading submatrix inside the triangle | `Model/Bruhat`; `Proofs/BruhatRank` |
| C84 | `CharPoly` with `FfpackArithProgKrylovPrecond`: product of the factors is `Matrix.charpoly` for every draw, orders at most `degree`; several blocks: negation | `Model/KrylovPrecond` (main loop of `ArithProg` a parameter); `Proofs/KrylovMath` (pivots of a Krylov matrix are its first rows, `kp_split`), `Proofs/Tmps` (blocks freed in any order), `Proofs/KrylovPrecond` (induction on the order) |
| C85 | `RandomIndexSubset`, `RandomPermutation`, `RandomRankProfileMatrix`: distinct positions; the draws are in bijection with the results | `Model/RandRook` (draws are an arbitrary function, `RandInt` reduces them modulo the range as `rand()%(b-a)`), `Spec/Rook`; `Proofs/RandRook` (the array of remaining elements) |
| C86 | `RandomSymmetricRankProfileMatrix`: symmetric positions whenever it returns, always for even `R`; negation for odd `R` | `Model/RandRook`; `Proofs/RandSym` |
| C87 | `RandomLTQSRankProfileMatrix`: positions in the triangle, order at most `t`, search bounded; negations for the order `t` itself and for memory | `Model/RandRook`; `Proofs/RandLtqs` |
| C88 | `RandomTriangularMatrix`: entries and frame for all draws; negation for lower triangular with more rows than columns | `Model/RandMat`; `Proofs/RandMat` |
| C89 | `RandomMatrixWithRankandRPM`, `…RandomRPM`: `L` is a non-singular lower triangular matrix times the pivots (`exists_lower`), ranks of leading blocks of lower · pivots · upper are the numbers of pivots (`rk_rook`) | `Model/RandMat`; `Proofs/RandRank`, `RandMat` |
| C90 | `RandomMatrixWithRank`: the rank is `min m n` for all draws, hence the negation for smaller `r` | `Proofs/RandMatDet` |
| C91 | `RandomSymmetricMatrix`: the result is the transpose of U · inverse diagonal · U; negation if zero is drawn on the diagonal | `Proofs/RandMatSym` |
| C92 | `RandomSymmetricMatrixWithRankandRPM`, `…RandomRPM`: transpose of U · symmetric pivots · U | `Proofs/RandMatSym`, `RandLen` |
| C93 | `RandomMatrixWithDet`: signs of both permutations, product of the diagonal, last pivot | `Proofs/RandMatDet` |
| C94 | `RandomLTQSMatrixWithRankandQSorder`: C87 and C89 composed, the right triangle set to zero | `Proofs/RandMatDet`, `RandLen` |
| C95 | `fgemm` over `ZRing<Integer>` (`Model/MultiPrec`): norms, number of bits of the primes, residue system of C48, conversions of C27, one product per prime over `ZMod p` (any `fgemm` right for products below 2^53), conversion back with `beta` | `Proofs/MultiPrec`, `MultiPrecGemm` |
| C96 | `fgemm` over `Modular<Integer>`: C95 with the norms set to `p`, then `freduce` | `Proofs/MultiPrecGemm` |
| C97 | `Det` over `ZRing<Integer>`: `bitsize`, the bound as a real number, one determinant per prime, conversion back; the result is the centred residue | `Proofs/MultiPrecDet` |
| C98 | `CharPoly` over `ZRing<Integer>`: the same with the N+1 coefficients | `Proofs/MultiPrecDet` |
| C99 | determinant checker `CheckerImplem_Det` (`Model/CheckDet`): three random vectors, two bilinear forms, product of the diagonal and sign; around `Det` (complete) and around any program (sound, by counting draws) | `Proofs/CheckDet`, `Props/CheckDet` |
| C100 | `CheckerImplem_charpoly` and `CharPoly` compiled with it (`Model/CheckDet`): the forced PLUQ check always passes (C34), the value held is that of the characteristic polynomial, Horner evaluation, roots of the difference counted | `Props/CheckDet` |
| C101 | `igemm_` and everything below it (`Model/IGemm`): vector registers wrap modulo 2^64, `mulx` multiplies low halves, scalar overflow faults; packing, the six kernels, block loops, cache sizes as parameters. Accumulators are exact modulo 2^64, the result by range | `Proofs/IGemm*`, `Props/IGemm` |
| C102 | `fsyrk` with the helper `Winograd` (`Model/SyrkStrassen`): both schedules as sequences of operations on the blocks of `C` (`Core/Fam`: one family of disjoint windows with their contents), peeling, `alpha` factored out. The identities of the algorithm use `x^2+y^2=-1` only | `Proofs/SyrkStrassen1-7`, `Props/SyrkStrassen` |
| C103 | `ReadMatrix`, `WriteMatrix` (`Model/MatIO`): files are lists of characters; `F.read`, `F.write` and the bytes of elements are parameters with `read (write x) = x` (`Codec.Ok`, satisfied by decimal notation modulo p); a failed extraction is an outcome of its own | `Proofs/MatIO`, `Props/MatIO` |
| C104 | `readSmsFormat` (`Model/ReadSparse`): lines, numbers, counters of rows, prefix sums; asserts as an option | `Proofs/ReadSparse`, `Props/ReadSparse` |
| C105 | `fspmm` (`Model/SparseMM`): one entry updates a row of the block by an unrolled loop or by vectors (loads before stores, misaligned aligned access is a fault); CSR, COO, ELL, zero-one and hybrid formats on top; spec `blockDot`, `IsBlock` (`Spec/SparseMM`) | `Proofs/SparseMM`, `Props/SparseMM` |
| C106 | the same over exactly represented integers with `inexact` faults, `rowsMMK` for reductions after `kmax` entries; same bound as C49 | `Proofs/SparseMM`, `Props/SparseMM` |
| C107 | `Core/ParV`, `Core/ParVProg`: parallel tasks which return a value (`VProc`), interleaving steps, races, the rule `wp` and its soundness for all schedules; `Model/PPluq`: the recursion of ffpack_ppluq.inl with its four decompositions, the tasks of each phase, parallel `fgemm`, `ftrsm`, `papplyP`; the arrays of permutations are values. `detTail` is the end of `Det` | `Spec/ParV` (`EveryExec`), `Proofs/PhaseV`, `Proofs/PPluqSeq`, `Proofs/PPluqParts`, `Proofs/PPluq`, `Props/PPluq` |
| C108 | same; `rankProfileFromLU` (C41) and `getEchelonForm` (C65) on what the parallel decomposition leaves | `Props/PPluq` |
| C109 | `Model/SimdInt`: registers as lanes of bit vectors, the processor's instructions by their documented meaning (trusted), the emulated functions of the integer SIMD classes on top of them, scalar C++ arithmetic with signed overflow as `none`; `Spec/SimdInt`: `smod`, masks. Proofs through the signed and unsigned values of lanes (no bit blasting), for any number of lanes | `Props/SimdInt` |
| C110 | `Model/SimdVec`: scalar prologue up to the first aligned address, whole registers, scalar rest, on the memory of `Core/Mem` with addresses in elements; an aligned access at another address is a fault; one arithmetic per element type (`float`/`double` with every rounding, `int64_t` on bit vectors with overflow as `none`); `Spec/SimdVec`: `canon`, `inTri`. Proofs: a general theorem on the loop structure, the lanes of `mod` with one or two roundings, the split at `2^50` over `int64_t` | `Props/SimdVec` |
| C111 | same; `fscalin` with increments and copies, `axpyp`, `addp`, `subp` with the masks of `VEC_ADD` and `VEC_SUB` | `Props/SimdVec` |
| C112 | `Model/TrsmMP`: `ftrsm` over `Modular<Integer>`: the residue system for `RNSIntegerMod`, conversions (transposed for the right side), `delayed` and the block loop of `fflas_ftrsm_src.inl` with `__FFLAS_MULTIPRECISION`, `reduce_modp`, `inv`, `fscalin`; a cell of memory holds all the residues of an element | `Proofs/TrsmMP*`: every intermediate value is an integer with `4 \|z\| ≤ M`, so that the residues determine it and `reduce_modp` is right; `Props/TrsmMP` |
| C113 | `Model/RnsElt`: the elements of `RNSIntegerMod` (a pointer and a stride into an array of residues): `init`, `convert`, `reduce`, `inv`, `add`, `sub`, `neg`, `mul`, `axpyin`, `assign`, `isZero`, `isOne`, `isMOne`, `areEqual`, and the loop of `LUdivine` that looks for a pivot | spec: `Holds R A x z`, the residues of the integer `z` at the places of the element. `C113_init_partial` (integers that fit the words of `p`), `C113_convert`, `C113_arith` (any strides, equal operands), `C113_reduce`, `C113_inv`, `C113_isZero_zero`, `C113_isZero_partial` (stride 1), `C113_pivot_partial`. Violated: `C113_init_violated` (high words dropped), `C113_isZero_violated`, `C113_pivot_violated` (a matrix of rank 1 in which no pivot is found), `C113_congruent_violated` |
| C114 | `Model/FsytrfRpm`: `fsytrf_UP_RPM_BC_Crout` (search of the pivot, update of a row, blocks of size 1 and 2, shifts of rows, columns and indices, marks of the blocks), `fsytrf_RPM` below the threshold, `getTridiagonal` | spec: `RevealsRPM`: `S = Pᵀ Uᵀ T U P` with `T` block diagonal read from the diagonal and the marks, and the rank of every leading block counted by the pivots. `C114_fsytrf_RPM_partial`, `C114_rank`, `C114_profile`, `C114_getTridiagonal` (whole matrix product). Missing: the recursive `fsytrf_UP_RPM` (orders from the threshold on). Violated: `C114_lower_violated`, `C114_copy_violated`, `C114_char2_violated` |
| C115 | `Model/ParSparse`: `init_y`, the parallel kernels of `pfspmm`, `pfspmm_one`, `pfspmm_mone`, `pfspmv`, `pfspmv_one`, `pfspmv_mone` (CSR) and `pfspmv` (ELL) as tasks of the small-step semantics; `Model/PHyb`: `pfspmv` and `pfspmm` for HYB_ZO, `pfspmv` for CSR_HYB; `Model/PSell`: `pfspmv` for SELL and ELL_simd | spec: dense entry `entryAt`, `EveryRun` (Spec/Par). `C115_pfspmm_partial`, `C115_pfspmm_ZO_partial`, `C115_pfspmv`, `C115_pfspmv_ell`, `C115_pfspmv_ZO`, `C115_pfspmv_hyb`, `C115_pfspmm_hyb_partial`, `C115_pfspmv_csrhyb`, `C115_pfspmv_sell_partial`, `C115_pfspmv_ellsimd_partial`. Violated: `C115_sell_violated`, `C115_beta_violated`, `C115_constant_violated` |
| C116 | `Model/PSolve`: `pSolve` as one process: the parallel decomposition (`Model/PPluq`), then the permutations and triangular solves in the same task | `EveryExec` (Spec/ParV), equations on the contents. `C116_psolve`; `Proofs/PSolve`: composition of processes (`wp_vbind`), cells that are not touched (`wp_wide`) |
| C117 | parallel `fsyrk` with a diagonal matrix (fflas_fsyrk.inl:584-675) as a process of tasks; products are parameters with the contract `PGemmOk`, instantiated with the sequential product and `Block/Threads` | `wp` rules: the off-diagonal block reads rows of A and D before the two tasks, whose windows (rows of A, diagonal blocks of C) are disjoint; the temporary is private; induction on the rows |
| C118 | parallel `fsytrf`, `fsytrf_nonunit` (ffpack_fsytrf.inl:582-722) with both base cases as a process that returns a value; solves and updates are the parallel `ftrsm` (C70) and `fsyrk` (C117) | each part gives its contract through `wp`; the contents it leaves are turned into functions of the contents before, so that the algebra of C74 (`sytStep_ok`, `CroutF`, `NonF`, `FailF`) is used unchanged |
| C119 | `Model/Convert`: `fgemm_convert`, `fgemv_convert`, `fger_convert`, the choice of the floating-point field and the public entries, on arrays; the routine of the floating-point field is the one of C08 (no recursion of Winograd), entry by entry | spec: `WordRes` (congruence modulo `p`, elements in the interval of the field, frame); conversions as storing loops (`Ok_fill2`, `Ok_upd2`), C08 for each entry, independence of `C` for `beta = 0` (`fgemmDelayed_zero`); `safe_of_small` gives an explicit condition for one block |
| C120 | `Model/FgemvMP`: `fgemv` over `ZRing<Integer>` and `Modular<Integer>`: the public entry and the call of the product with one column | from C95 and C96, after the early exits |
| C121 | `Model/Delayed`: the public `fgemm`, `fgemv`, `fger` over fields of `float`, `double`, `int64_t`: choice of the field of the computation, conversion (`Model/Convert`) or product in place (`Model/LazyGemm` on arrays) | `Proofs/Delayed`: C08 for each entry, the conversion lemmas of C119; the block size is safe for `beta = 0` if there is room for one element (`safe_of_room`, also used for C119). `Model/LazyInt`, `Proofs/LazyInt`: the delayed product over `ZRing<int64_t>` for moduli too large for `double`, every operation checked for overflow; `C121_int64_*` cover all moduli. `Proofs/FitTable`: the magnitudes without room are listed for 24, 53 and 63 bits; the completeness of the lists is computed by the kernel (small values one by one, large ones by the quotient, with a square root by Newton's iteration). `Props/FitTable`: hence C08, C119 and C121 for every prime outside explicit lists, without a condition on the lengths |
| C122 | `Model/RnsOps`: `freduce`, `fscal`, `fger`, `fgemm`, `fgemv` over `RNSIntegerMod`: the operation modulo every `m_i`, then the reduction modulo `p` of C47 | `Proofs/RnsOps`: each operation gives the residues of the integer result; the reduction of `Proofs/TrsmMP` gives an integer congruent to it if that result is in the range of the residues. `ModSystem` is met by the constructors for a prime of 58 bits and six moduli (`opsSystem`) |
| C123 | `Model/PEchelon`: the parallel `PLUQ` of C107 followed by the sequential end of the four echelon forms (tile recursive); the arguments the C functions of interfaces/libs/ffpack.C hand over | `Proofs/PEchelon`: the matrix with rows and columns already permuted has a decomposition with identity permutations, to which the lemmas of C56 apply, after every execution of the parallel part. `C123_pechelon`: `T·X(P,Q)` is the form, for every schedule. C interface: `C123_c_partial` (double; float without reduction), `C123_c_ignored`: the other six never compute the transformation, `C123_c_violated` |
| C124 | `Model/Move`: the triangular `fzero` with its pointer steps as integers, `fmove` as the two calls it makes | `Props/Move`: invariant of the loop over the rows for the four shapes (`C124_fzero_partial`); `C124_fmove_partial`: `B` is cleared and nothing else changes, hence `C124_fmove_violated` for every pair of different matrices; `C124_fzero_violated` for the empty matrix |
| C125 | `Model/SpStat`: `getStat` and `computeDeviation` on arrays with checked accesses, the sum `std::accumulate(…, 0)` with the 32 bits of an `int` | `Props/SpStat`: loop invariants give the lists `rows` and `cols` (`getStat_spec`); spec: numbers of indices with a property. `C125_getStat_partial`; violated for every matrix: `C125_rows_violated`, `C125_dense_violated`, `C125_average_violated` (from `2^31` entries on), with `C125_example_violated`, `C125_deviation_violated` |
| C126 | `Model/Alloc`: `malloc_align`, `fflas_new`, `fflas_delete`, `detail::allocate`, `AlignedAllocator::allocate` and `max_size` on a heap of live blocks; `size_t` wraps, the system's answers are arbitrary | spec `Props/Alloc`: `SysOk` (what POSIX and C++ promise), `NewBlock`. `C126_new_partial`, `C126_delete`, `C126_allocate_partial`. Violated: `C126_overflow_violated`, `C126_none_violated`, `C126_const_violated`, `C126_zero_violated` |
| C46 | range tests of conversions (`Model/Limits`) | arithmetic (`Props/Limits`) |

## Defects found (negations proved in Lean are listed in MANIFEST.json)

1. 2-D splitting with Grain/Fixed misses rows/columns when the remainder exceeds the block count.
2. `ftrsm` (double/float) would divide by zero for moduli where the dot-product bound is 1 and the TRSM bound is 2; latent, as
   `TRSMBound<Field>(F)` names the template argument explicitly, which selects the generic overload (value 1) for all fields.
3. Lazy `fgemm` computes its block size with `beta` of the first block, later blocks accumulate on a
   non-zero C: intermediate values can exceed the exact range by up to the field's maximum.
4. Out-of-place generic `ftrmm` with `beta = 0` accumulates on stale C; `alpha = 0` divides by zero (also double/float);
   over generic fields a diagonal entry -1 on the right side adds instead of subtracting (item 18).
5. Delayed `fgemv` returns early for `M = 0` under `Trans`, leaving Y unscaled.
6. `fsyr2k` with `K = 0` scales C by beta twice; `fsyrk` degenerate cases scale the opposite triangle.
7. `ColRankProfileSubmatrixIndices` writes N entries in an array of M entries.
8. `RandomNullSpaceVector` applies the permutation with stride 1 whatever incX.
9. Constant-coefficient sparse product ignores the scaled vector; SELL permutes the result;
   2-D `init_y` ignores `ldy`.
10. `LUdivine_gauss` ignores the rows beyond min(M,N).
11. Float `freduce` without FMA is not reduced/congruent for values within p of 2^prec.
12. `in_range` from a signed type to a narrower unsigned type accepts every non-negative value.
13. `TRSMBound` for `ModularBalanced` with p = 2 does not terminate.
14. `DotProdBoundClassic` returns 1 also when not even one product fits (no guarantee for the value 1).
15. `rns_double(pbits, size)` may draw the same prime twice (then the residues do not determine the integer);
    `rns_double(bound, pbits)` does not terminate when there are too few primes of the requested size.
16. RNS, by reading only: `isOne`/`isMOne`/`isZero` ignore the stride of the element; `rns_double::init` with
    k > _ldm prints a message and reads past `_crt_in`; `rns_double_extended::init` ignores the layout.
17. Sparse products, besides 9: COO with `kmax` accumulates one product too many before reducing and stores unreduced
    values; HYB_ZO sets `delayed` unconditionally; ELL_ZO adds `x[0]` for padding cells; ELL_simd and SELL access `y`
    beyond `m` when the chunk does not divide `m`, and the `kmax` kernel of ELL_simd skips rows; CSR_HYB stores
    unsorted columns and its `kmax` kernel is empty; ELL construction reads `row[0]` of an empty matrix.
18. Generic-field strided `fsub` computes `A + B` (the `else` branch of `details::fadd` ignores `ADD`), hence `fsubin`
    and `faxpy`/`fadd` with coefficient -1 on strided vectors.
19. `fscal` over `DoubleDomain`/`FloatDomain` reads `x` with the increment of `y`.
20. `fgemv` over `ZRing<int64_t>` without SIMD executes `*Yi *= beta * *Yi`.
21. `fadd` with coefficient and `C == A` but `lda != ldc` overwrites `A` before reading it (only reachable for one row).
22. `max3(m,n,k)` is `max(m, min(n,k))`; it bounds the output interval in the Strassen-like `fsyrk`.
23. `cyclic_shift_row_col` on a single row copies forwards onto an overlapping range (from 3 columns on the first entry is
    smeared); in the case of a single column it initialises a pointer with an element, which does not compile.  It is only
    called from a base case that is compiled out.
24. `cyclic_shift_mathPerm` calls `std::copy` with a destination inside the source range (undefined for 3 or more entries) and
    wraps around for 0 entries.
25. `Invert` ignores the column permutation of the reduced echelon form: the inverse of `(0 1; 1 0)` comes out as the identity
    matrix.  (`tests/test-invert` is disabled in `tests/Makefile.am`.)
26. `freivalds` (fflas_freivalds.inl) uses a scratch vector uninitialised when `ta = Trans` and `k = 0` (or `tb = Trans` and
    `n = 0`): the public `fgemv` returns at once when its first dimension is 0, before writing the result. A correct product can
    then be rejected (`C32_freivalds_violated`).
27. `fsyrk` with a vector `twoBlocks` of length `K` reads it at `N1-1 = N/2-1` (fflas_fsyrk.inl:726), out of bounds when `N/2 > K`;
    for threshold 1, `N = 2`, `twoBlocks[0]` the recursion does not end; threshold 0 does not end either (also in the diagonal version).
    Item 6 in full: with delayed reductions and `alpha ≠ ±1` `ScalAndReduce` multiplies the whole of `C` by `alpha`.
28. By reading only: `fsyrk_convert` (fflas_fsyrk.inl:30-75) calls `freduce(G,UpLo,N,N,Cf,N)`, which does not exist.
29. The documented conditions of `ftranspose` (fflas_transpose.h:299-301) exchange `m` and `n`; under them alone the result is wrong
    (`C37_documented_strides_violated`).  `nonsquare_inplace_v2` divides by zero for a 0 × 0 matrix (`C37_v2_empty_faults`).
30. By reading only: `simd512_int32.inl` (not included by `simd512.inl`) lacks semicolons and declares its index tables as `int64_t[16]`
    although they are loaded as 32-bit indices; `SimdChooser` names `Simd512<int32_t>` under AVX512F.  The comments of `blend` in the SIMD
    headers (`s[i] ? a : b`) are the opposite of the intrinsics.
31. `MonotonicApplyP` (ffpack_permutation.inl): `ibeg` shortens the permutation instead of offsetting it (unlike `applyP`); the positions are
    kept in `int`, hence truncated for 2^31 lines or more; `MathP` is leaked on the early return; the variants compiled under
    `MONOTONIC_CYCLES` and `MONOTONIC_MOREPIVOTS` apply `MathP` as is, so they do not keep the order of the other lines.  By reading only
    (the first two are the hypotheses of C45).
32. `LUdivine_small` ignores `trans` and `LuTag`: with `__FFLASFFPACK_LUDIVINE_THRESHOLD` above its default 1, `LUdivine` with `FflasTrans`
    decomposes the matrix instead of its transpose (`C44_transposed_small_violated`, `C61_column_cutoff_violated`) and `IsSingular` accepts
    singular matrices (`C60_cutoff_violated`).  `LUdivine_gauss` also ignores `Diag` (`C44_gauss_unit_violated`).
33. `ColRankProfileSubmatrixIndices`, besides 7: for `N < M` it reads entries of `rowindices` that were never written
    (`C42_col_uninit_violated`).
34. `LQUPtoInverseOfFullRankMinor` copies both triangular factors into `X` before solving, so the result is `I + U⁻¹(L⁻¹ - I)`
    (`C63_fullRankMinor_violated`).
35. `pfgemm` `Recursive/ThreeDAdaptive` (pfgemm_variants.inl:145): `faddin(F, n, m, C2, n, C, ldc)` exchanges the dimensions; for `m < n ≤ k` rows
    after the last one of `C` are read and written (`C67_3DA_violated`).
36. parallel `fgemv` `Recursive`, `Trans` (pfgemv.inl:54): the second half of `A` starts at column `n` instead of `n/2` (`C68_rec_trans_violated`).
37. parallel `fdot` with `Grain` (fflas_plevel1.h:97): the temporary has as many cells as a block has entries, not as there are blocks
    (`C69_fdot_grain_violated`).
38. parallel `ftrsm` `Hybrid` (fflas_pftrsm.inl:127): the loop that halves the number of tasks never ends for `n = 0`, `FflasLeft`
    (`C70_hybrid_violated`); for `FflasRight` and `m = 0` the number of threads is divided by 0.0 and converted to `int`
    (`C70_hybrid_rows_violated`).
39. `pfzero`, `pfrand` (fflas_plevel1.h:33-82): with more rows (columns) left over than blocks, the last ones are not touched
    (`C71_pfzero_violated`, consequence of 1).
40. By reading only: `pfgemm` `Block/Threads` passes one helper by reference to all the tasks; WinoPar reads `H1.Outmin` before the tasks that set it
    have ended when the data-flow mode is on.
41. `ftrstr` left, generic fields (ffpack_ftrstr.inl:32-83): the strided `faxpy` of the out-of-place `ftrmm` is wrong for the
    coefficient -1, so the result is wrong when -1 is on the diagonal of the solution (`C72_ftrstr_violated`).
42. `ftrssyr2k` lower, generic fields (ffpack_ftrssyr2k.inl): same cause (`C73_lower_violated`).
43. `ftrssyr2k` (ffpack.h:488-505): announces `A^T X + X^T A = B` for both triangles; the lower version solves
    `A X^T + X A^T = B` (`C73_documented_equation_violated`).  The other triangle of `B` is overwritten (`C73_other_triangle_violated`).
44. `fsytrf` (ffpack_fsytrf.inl:695, 710): on failure `Dinv` is not freed (`C74_leak_violated`, and `C118_leak_violated` for the parallel version, :713-714).
45. `fsytrf_BC_RL` lower, generic fields (ffpack_fsytrf.inl:101): strided `faxpy`, wrong for the coefficient -1: singular matrices are
    accepted (`C74_lower_violated`).
46. `fsytrf_nonunit` (ffpack_fsytrf.inl:624, 676): `Dinv+N1` instead of `Dinv+N1*incDinv` (`C74_incDinv_violated`); with `threshold = 0` the
    recursion never ends (`C74_threshold_violated`).  The version of `fsytrf_nonunit` declared in ffpack.h:562 is not defined (by reading).
47. `MatVecMinPoly` with `N = 0` (ffpack_ludivine.inl:676-683, ffpack_minpoly.inl:61): `LUdivine_construct` calls itself with the same arguments for
    ever (`C76_empty_violated`); `MinPoly` guards this case.
48. `productSSSxTS` with `0 < N < s` (ffpack_sss.inl:150-156): one incomplete block makes `kf > 1 || rs` true, `V + (k-2)*s*ldv` is read before `V`
    (`C78_small_violated`); with `N = 0`, `(k-1) % 2` wraps to 1, `U` is read and `s x t` entries of `C` are written (`C78_empty_violated`).
49. `SSSToDense` with `N = 0`: the loop bound `k-1` wraps (`C79_empty_violated`).
50. `productSSSxTS` (ffpack.h:1975): the declaration has another order of parameters than the definition and is never defined (by reading).
51. `LTBruhatGen` with `N = 0` calls itself for ever (`C81_empty_violated`).
52. `LTBruhatGen`: the documentation (ffpack.h) says it returns the rank of the left triangular matrix; the number of pivots inside the strict left triangle may be smaller (`C81_rank_violated`).
53. `getLTBruhatGen` for a triangular factor clears `T` with leading dimension `N` instead of `ldt` (`C82_ldt_violated`).
54. `LTQSorder` with `N = 0` reads `rows[0]` of an empty vector (`C83_empty_violated`).
55. `CompressToBlockBiDiagonal` permutes `C` (leading dimension `N`) with `lda`; `CompressToBlockBiDiagonal`, `ExpandBlockBiDiagonalToBruhat` and `productBruhatxTS` do not free several arrays (by reading).
56. `RandomKrylovPrecond`: `fiszero (F, nb_full_blocks+1, N-R, K4+R, ldk)` tests the first `nb_full_blocks+1` rows only; the rows of the completed blocks may have components outside the Krylov space, and then the product of the factors is not the characteristic polynomial (`C84_violated`: order 3 over 𝔽₅, `degree = 2`).
57. `RandomKrylovPrecond` does not free `K2` when it throws because the degrees increase (`C84_leak_violated`).
58. `RandomKrylovPrecond` with `N = 0` computes `(N-1)/degree` on unsigned integers (`C84_empty_violated`); `degree = 0` divides by zero (by reading).
59. The recursive call of `CharPoly` in `RandomKrylovPrecond` ignores the `degree` of the caller; `std::list::merge` is applied to lists that are not sorted (by reading; `mergeN` models the effect, a permutation).
60. The test of item 56 reads coordinates that have not been reduced by the rows of the upper factor, so for `R < N` the attempt is usually rejected although the space is invariant (by reading; the result is then computed by `LUKrylov`).
61. `RandomSymmetricRankProfileMatrix` with odd `R` may search for ever for an element common to the remaining rows and the remaining columns (`C86_violated`: `N = 4`, `R = 3`).
62. `RandomLTQSRankProfileMatrix`: undoing a move decrements counters that had already been decremented; the negative valuation is compared as an unsigned number, and positions of order smaller than `t` are returned (`C87_order_violated`).
63. `RandomLTQSRankProfileMatrix` reads `valid_moves[0]` of an empty vector for some draws (`C87_empty_violated`).
64. `RandomTriangularMatrix` (lower) with more rows than columns writes beyond the columns: cells outside the matrix are overwritten (`C88_violated`).
65. `RandomMatrixWithRank` ignores the rank asked for; the matrix always has full rank (`C90_violated`).
66. `RandomSymmetricMatrix` without `nonsingular`: if zero is drawn on the diagonal, the column below it stays zero and the matrix is not symmetric (`C91_violated`).
67. `RandomMatrixWithDet` with `n = 0`: `n-1` wraps (`C93_violated`).
68. `RandomSymmetricMatrixWithRankandRandomRPM` and `RandomLTQSMatrixWithRankandQSorder` inherit items 61 to 63 (`C92_violated`, `C94_violated`).
69. `fgemm` over `ZRing<Integer>` returns `C` unchanged when `A` or `B` is zero, instead of `beta*C` (`C95_zero_violated`; fgemm_classical_mp.inl:361).
70. `Det` over `ZRing<Integer>` converts back with `gamma = 1`: the determinant is added to the previous value of `det` (`C97_accumulates_violated`; ffpack_det_mp.inl:75).
71. `Det` over `ZRing<Integer>`: the bound has no factor 2 for the sign; the `1 x 1` matrix `2097151` gives a negative result for nearly all primes that can be drawn (`C97_sign_violated`).
72. `CharPoly` over `ZRing<Integer>` adds the coefficients to the previous contents of `charp` (`C98_accumulates_violated`; ffpack_charpoly_mp.inl:88). For `N = 0` the bound is not a number and its conversion to `int64_t` is undefined (read off the code; the model faults).
73. `CheckerImplem_Det::check` is `const` but overwrites the vectors the checker holds: a second call on the same correct result throws (`C99_check_again_violated`; checker_det.inl:86-107).
74. `CheckerImplem_charpoly` built for an empty matrix reads the first entry of an empty block (`C100_charpoly_value_violated`; checker_charpoly.inl:138). When the inner PLUQ check fails, `Ac`, `P` and `Q` are not freed (:131-134, read off the code).
75. `igemm`: `fmaddx` multiplies the low 32 bits; entries of more than 32 bits are truncated in the vector kernels and not in the scalar ones, so rows of the same matrix disagree (`C101_wide_entries_violated`; igemm_kernels.inl, simd256_int64.inl:453).
76. `igemm` with `alpha` other than `1` and `-1`: the accumulated products and `alpha` are themselves truncated to 32 bits before the last multiplication (`C101_alpha_violated`, `C101_wide_alpha_violated`).
77. `BlockingFactor` divides by zero when the reported first-level cache is smaller than `2*(_nr+_mr)*8` bytes, for instance 0 on virtual machines that mask the cache leaves; with no second-level cache `mc = 0` and the loop on the rows never ends (`C101_no_cache_violated`, `C101_one_cache_violated`; igemm_tools.inl:111-138). `queryCacheSizes` takes the largest standard function from `EBX` instead of `EAX` (fflas_memory.h:344, by reading).
78. `fsyrk` with the helper `Winograd`, `beta` non-zero and `n < 2^(recLevel+1)` accesses `C22[(N2-1)*(ldc+1)]` with `N2 = 0` (`C102_small_violated`; fflas_fsyrk_strassen.inl:722-733).
79. The same function overwrites the triangle of `C` that is not selected (`C102_scratch_violated`), and with `K = 0` or `alpha = 0` scales the whole of `C` (fflas_fsyrk_strassen.inl:336-370).
80. The same function with the default helper (`recLevel = -1`) recurs without reaching level 0 (by reading, :372-433), and in characteristic 0 asks for two squares of sum -1, which do not exist (`C102_constants_rat`).
81. `WriteMatrix` in binary format ignores `lda` and `column_major` (`C103_binary_lda_violated`, `C103_binary_columns_violated`; fflas_io.h:250-258).
82. The default formats do not match: `WriteMatrix` to a file is dense, `ReadMatrix` with automatic detection takes everything that is not binary for the sparse format (`C103_default_violated`; fflas_io.h:56-67, :157, :288). The state of the stream is never tested: a truncated file gives uninitialised indices or an endless loop.
83. `preamble` rewinds to the beginning of the file instead of the position it started from (`C103_second_violated`); the binary reader closes the stream.
84. `ReadMatrix` tests `i>0 && i>0` instead of `i>0 && j>0` (`C103_column_zero_violated`; fflas_io.h:120). `WriteMatrix` to a file takes the dimensions as `int` (fflas_io.h:288).
85. `readSmsFormat`: entries that vanish in the field leave holes or end the program by an assert (`C104_zero_violated`); with `sorted = false` the values go to `data` but the arrays are dimensioned by `dat` (`C104_unsorted_violated`) and `rowdim` is set to the last row index instead of one more (`C104_unsorted_rows_violated`; read_sparse.h:188-191; `readSprFormat` has the same line); row indices are not compared with the dimension (`C104_row_index_violated`); a last line without newline ends the program with `exit(-3)` (:133, by reading).
86. `fspmm`: `init_y` for blocks calls `fnegin` and `fscalin` with leading dimension 1 (`C105_beta_violated`; fflas_sparse.inl:49-62).
87. `fspmm` for zero-one matrices: constants other than 1 and -1 are ignored, and the unused scaled copy reads `A.m` rows of `x` (`C105_constant_violated`; fflas_sparse.inl:309-357).
88. `fspmm` chooses aligned loads from the pointers and `blockSize` only, not from `ldx`, `ldy` (`C105_alignment_violated`; fflas_sparse.inl:264).
89. `fspmm` for CSR_HYB: values looked up by the dense column or the absolute entry number, the vector version reads its second operand from `y` and subtracts in the rest (`C105_csr_hyb_violated`; csr_hyb/csr_hyb_spmm.inl).
90. `fspmm` for COO over a modular field with long rows: the body is a `// TODO` (`C106_coo_violated`; coo/coo_spmm.inl:172-192).
91. `fspmm` for zero-one matrices over a modular field: `freduce(F, blockSize, A.m, y, ldy)` has its dimensions exchanged (`C106_zo_violated`; fflas_sparse.inl:383). HYB_ZO, `UnparametricTag`: `fspmm_mone` is called without `ldy` and does not compile.
92. The parallel `PLUQ` does not reveal the rank profiles: for a single row or column it exchanges the pivot with the first entry where the sequential code rotates (ffpack_ppluq.inl:91-129), so that the order of the remaining columns is lost when the block is one of the four of a recursive call. `pColumnRankProfile` returns a wrong profile and `pRowEchelonForm` + `getEchelonForm` gives a matrix that is not in echelon form (`C108_columnRankProfile_violated`, `C108_rowEchelonForm_violated`). `threads_fgemm` (:41-69) uses the uninitialised `h` (dead code).
93. The emulated `shuffle<s>` of `Simd128<int16_t>`, `Simd256<int16_t>` and `Simd256<int32_t>` masks the odd digits with `0xF0` but does not shift them (simd128_int16.inl:200-203, simd256_int16.inl:218-225, simd256_int32.inl:224-227): it reads up to index 240 of an array of 8 or 16 elements. `C109_shuffle_emulated_violated`.
94. `signbits` of the 64-bit classes shifts by `4*sizeof(scalar_t)-1 = 31` instead of 63 (simd128_int64.inl:585, simd256_int64.inl:603, simd512_int64.inl:654): `mulhi_fast` is wrong as soon as an operand reaches 2^31 or is negative. `C109_mulhi_fast_violated`.
95. `mullo` over `int64_t` without AVX512DQ multiplies `int64_t` scalars, which overflows although the result is promised modulo 2^64; `Simd128<uint64_t>::mul` and `fmadd` are inherited from the signed class and overflow too (simd128_int64.inl:378-393, simd256_int64.inl:415-427). Likewise `hadd_to_scal` over `int32_t` and `int64_t`. `C109_mullo_violated`.
96. The comments of every `blend` promise the lanes of the first operand where the bit of the mask is set; the instructions (and the tests) take the second operand. `C109_blend_comment_violated`.
97. `simd512_int32.inl` uses 256-bit intrinsics on 512-bit registers (:658-702, :843) and is included from nowhere. Not modelled.
98. `fflas_freduce.inl:374-434` with `simd*_double.inl: mod`: with fused multiply-add the SIMD reduction is right for every exactly representable number, the scalar one is not within `p` of `2^53` (defect of C35); so the result of `freduce` depends on the alignment. C110_alignment_violated.
99. `rns-integer-mod.h:162-175` (and `rns-integer.h:93-98`): `isZero` compares the numbers that follow the first residue in memory, not the residues of the element (the stride is ignored). In a matrix an entry divisible by the first moduli of its neighbours is taken for zero: `LUdivine` over `RNSIntegerMod` (ffpack_ludivine.inl:440-443, called by ffpack_ludivine_mp.inl) finds no pivot in the row `(m_0, 0, …, 0)` (`C113_isZero_violated`, `C113_pivot_violated`, `C113_pivot_example`).
100. `rns-integer-mod.h:194-200`: `init(x, y)` reads as many 16-bit words of `y` as `p` has; an integer `y` that is larger is cut, so `init(x, 65536)` modulo 7 gives 0 (`C113_init_violated`, `C113_init_example`).
101. `rns-integer-mod.h:148-161, 281-286`: elements are not reduced, but `isOne`, `isMOne` and `areEqual` compare representatives: `isMOne` of `p - 1` is false (`C113_congruent_violated`).
102. `ffpack_fsytrf.inl`, `fsytrf_LOW_RPM_BC_Crout` and `fsytrf_RPM:727`: with `FflasLower` nothing is factorised: rank 0 is returned, `P` is left unwritten, and the triangle of `A` is multiplied by the uninitialised `Dinv` (`C114_lower_violated`).
103. `ffpack_fsytrf.inl:293-294`: `std::copy` to a destination inside the source range, which the standard excludes; an implementation that copies the elements one by one spoils the permutation (`C114_copy_violated`). It works where `std::copy` calls `memmove`.
104. `ffpack_fsytrf.inl:721, 733-734`: `fsytrf_RPM` multiplies the rows from the rank on by entries of `Dinv` which were never written; the result is 0 times an arbitrary number (in the model: the rows are zero, so any field element gives zero; with doubles it may be NaN).
105. `ffpack_fsytrf.inl:142, 237`: every block of size 2 takes a division by two, so in characteristic 2 the function inverts zero (`C114_char2_violated`).
106. `ffpack_fsytrf.inl:162, 201, 260, 413, 430`: `*(Dinvj+1)`, `Dinvi+=2` and `Dinv+R1+2*R2` ignore `incDinv` (latent: all callers pass 1).
107. `ffpack_fsytrf.inl:747`: `getTridiagonal` tests `(int)P[i] < 0`, so indices from 2^31 on are taken for marks (`C114_getTridiagonal` requires orders up to 2^31).
108. `fflas_sparse.inl:481-484`: `pfspmm` with a zero-one matrix whose constant is not 1 or -1 scales a copy of `x` and then multiplies `x` itself: the constant is ignored (`C115_constant_violated`). The copy also takes `A.m` rows of `x`, which has `A.n`.
109. `fflas_sparse.inl:49-62`: `init_y` for blocks passes leading dimension 1, so `pfspmm` too is wrong for `beta` other than 0 and 1 (`C115_beta_violated`).
110. `fflas_sparse.inl:547` (by inspection): `pfspmm` for zero-one matrices over modular fields reduces `blockSize` rows of `A.m` entries instead of `A.m` rows of `blockSize`. `hyb_zo_pspmm.inl:53` calls `pfspmm_mone` without `ldy`; the ELL `pfspmm` has no `ldx`, `ldy` and does not match its caller.
111. `ffpack.C` of the C interface: six `p…EchelonForm` functions pass `transform` in the place of the number of threads; modelled since, see item 119.
112. parallel `ftrsm` `Hybrid` with `Grain` (fflas_pftrsm.inl:121-137): for 1 to 256 columns and `FflasLeft` the number of tasks becomes 0, which the cutting strategy then divides by (`C70_hybrid_grain_violated`).
113. `schedule_winograd_acc.inl:396-640`, `schedule_winograd_ip.inl`, `schedule_winograd_acc_ip.inl` (by inspection): the schedules of `NEWACC` declare constant pointers without a value and assign to them, those of `NEWIP` and `NEWACCIP` call `fgemm2`, which does not exist; none of these options compiles.
114. `fgemm` over a field of words with `ConvertTo<MachineFloatTag>` returns `C` unchanged, without an error, when `16 p >= ModularBalanced<double>::maxCardinality()` (possible for `Modular<uint32_t,uint64_t>`): the call of `failure()` is in the branch of `Modular<float>` (fflas_fgemm.inl:254-276; `C119_large_violated`). `fsyrk` has the same structure (fflas_fsyrk.inl:182-197).
115. `fgemv` over a field of words throws for `p = 2`, where `fgemm` and `fger` work (fflas_fgemv.inl:99-105; `C119_two_violated`).
116. `fgemv` over `ZRing<Integer>` leaves `y` unscaled when `A` or `x` is zero (`C120_zero_violated`, from item on C95), and every `fgemv` does for a transposed matrix without rows (`if (!M) return Y`, fflas_fgemv.inl:346; `C120_empty_violated`). `fgemv` over `RNSInteger` does nothing when `M` or `N` is 0 (fflas_fgemv_mp.inl:46; `C122_fgemv_empty_violated`).
117. `fgemm` over `ModularBalanced<int64_t>` modulo 377420059 with `beta = 0` overflows 64-bit integers from 260 products on (`C121_int64_violated`): the block size leaves no room for the reduced entry of the later blocks, the defect of C08. By `Props/FitTable` this is the only prime concerned above the range of `double`; with `float` and `double` the fields concerned are exactly those of `C08_lists_violated` (7, 29, 41, 2273 with `float`; 379, 757, 1163, 37225301 with `double`).
118. `fger` (and `fgemm`, `fgemv`) over `RNSIntegerMod` multiply by `alpha` before they reduce (fflas_fger_mp.inl:74-91, fgemm_classical_mp.inl:470-498): `alpha x y` may leave the range of the residues although all three are in `[0, p)`, and the result is then wrong modulo `p` (`C122_fger_violated`; `C122_fger_example_violated`: a prime of 58 bits, six moduli as the constructor draws them, `A += alpha x y^T` leaves `A` as it was). The elimination calls them with `alpha = -1` only (`C122_fgemm_unit`).
119. The C functions `pReducedColumnEchelonForm_modular_float`, `pReducedRowEchelonForm_modular_float` and the four `p…EchelonForm_modular_int32_t` (interfaces/libs/ffpack.C:700, 703, 718, 721, 734, 737, 751, 754, 769, 772, 787, 790) call the C++ functions with `0, transform` where these expect `transform, numthreads`: the transformation is never computed, and one thread is used when it was asked for (`C123_c_violated`). The functions for `double` and the other two for `float` pass `transform, 0`. By reading only: ffpack.C defines functions with parameters such as `enum FFLAS::FFLAS_SIDE` where ffpack_c.h declares `enum FFLAS_C_SIDE`, so these are not the declared C functions.
120. `fmove` (fflas_level2.inl:402-419, also `fmove_2_modular_double` of the C interface) is documented as `A ← B`, `B ← 0`, but calls `fassign (F, m, n, A, lda, B, ldb)`, which copies `A` to `B`; then `B` is cleared: `A` is unchanged and the entries of `B` are lost (`C124_fmove_violated`).
121. The triangular `fzero` (fflas_level2.inl:93-112) with `FflasUnit` and `n = 0` decrements an unsigned 0 and clears memory from there on (`C124_fzero_violated`).
122. `getStat` (fflas_sparse/utils.h:89, 103, 107-117): `rows` has `rowdim + 1` entries, the first one is `row[0] = 0`. So one empty row too many is counted, `minRow` is always 0 and `deviationRow` is wrong (`C125_rows_violated`, `C125_deviation_violated`).
123. `getStat` (utils.h:119-122) counts the dense rows and columns from `begin()` to `begin()`: always 0 (`C125_dense_violated`).
124. `getStat` and `computeDeviation` (utils.h:74, 115-116) add with an `int`: the averages are wrong from `2^31` entries on (`C125_average_violated`).
125. `fflas_new(F, m, n)` (fflas_memory.h:71) and `malloc_align` (align-allocator.h:74) multiply without a check: for `2^32` rows and columns the result is a pointer, not null, to 0 bytes (`C126_overflow_violated`).
126. `Alignment::NONE` is 0, which `posix_memalign` rejects: `fflas_new` returns a null pointer (`C126_none_violated`; align-allocator.h:48).
127. `alignable` is specialised for `Givaro::Integer*` only: an array of integers released through a pointer to constants goes to `free` though it came from `new[]` (`C126_const_violated`; fflas_memory.h:51-55).
128. `AlignedAllocator::allocate(0)` throws `bad_alloc` (`C126_zero_violated`; align-allocator.h:87-89, 152-154).
129. `pfspmv` for SELL and ELL_simd accesses `y` beyond `m` when the chunk does not divide `m` (`C115_sell_violated`; sell/sell_pspmv.inl:61-72, ell_simd/ell_simd_pspmv.inl:58-66); their versions for TBB name a member `nbChunks` that does not exist.
130. The 29 lines of `ffpack.C` that name an enum of the C++ library in a parameter list (`const enum FFLAS::FFLAS_SIDE Side`, …) differ from the declarations in `ffpack_c.h`, which use `FFLAS_C_SIDE`, …: such a function is an overload with C++ linkage, and the function with C linkage that the header declares (`applyP_modular_double`, `ftrtri_modular_double`, `PLUQ_modular_double`, …) has no definition (by inspection; the functions of `fflas_lvl1.C` to `fflas_lvl3.C` use the enums of the header). `ftrtrm_modular_double` also lacks the parameter `side` in the header, `fgesv_modular_double` and `solveLB_modular_double` the parameter `positive`, `fgetrs_modular_double` is defined as `fgetrsv_modular_double`, and the `p…EchelonForm` functions are not declared at all.
131. `FFPACK_C_CHARPOLY_TAG` (ffpack_c.h:82-91) numbers the algorithms otherwise than `FFPACK_CHARPOLY_TAG` (ffpack.h:76-87): no name has the same value in both. The wrappers that would cast it are disabled (`#if 0`), so no function is affected today (by inspection).
