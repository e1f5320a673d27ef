{
 "claims": [
  {
   "property": "C01",
   "status": "proved",
   "theorems": [
    "Verif.Props.C01_split1D_exact_cover",
    "Verif.Props.C01_split1D_balanced",
    "Verif.Props.C01_zero_grain_faults"
   ],
   "note": "ForStrategy1D build/initialize/next modelled as a state machine; grain 0 is a division by zero in the code and is excluded by hypothesis (shown necessary)."
  },
  {
   "property": "C02",
   "status": "proved",
   "theorems": [
    "Verif.Props.C02_split2D_threads_exact_tiling",
    "Verif.Props.C02_block_grid_uses_all_threads",
    "Verif.Props.C02_zero_threads_faults"
   ],
   "note": "All four cuts; at least one thread (0 threads faults in the code)."
  },
  {
   "property": "C03",
   "status": "partial",
   "theorems": [
    "Verif.Props.C03_split2D_grain_fixed_partial",
    "Verif.Props.C03_violated",
    "Verif.Props.C03_violated_fixed"
   ],
   "note": "The code violates the property. Proved: exact tiling iff remainder <= block count in both dimensions; never overlaps or leaves the matrix; negation witnesses."
  },
  {
   "property": "C15",
   "status": "proved",
   "theorems": [
    "Verif.Props.C15_lapack_to_math",
    "Verif.Props.C15_math_to_lapack",
    "Verif.Props.C15_roundtrip_lapack",
    "Verif.Props.C15_roundtrip_math"
   ],
   "note": "Both conversions modelled on checked arrays with arbitrary (uninitialised) output/work contents."
  },
  {
   "property": "C17",
   "status": "proved",
   "theorems": [
    "Verif.Props.C17_compose_LLL",
    "Verif.Props.C17_compose_LLM",
    "Verif.Props.C17_compose_MLM"
   ],
   "note": "The three composition routines used by PLUQ."
  },
  {
   "property": "C35",
   "status": "partial",
   "theorems": [
    "Verif.Props.C35_reduce_positive_partial",
    "Verif.Props.C35_reduce_balanced_partial",
    "Verif.Props.C35_violated"
   ],
   "note": "Without FMA the quotient correction can be off for values within p of the precision limit (negation witness p=7, A=-(2^53-1)); proved for all values at distance at least p from it."
  },
  {
   "property": "C36",
   "status": "proved",
   "theorems": [
    "Verif.Props.C36_reduce64",
    "Verif.Props.C36_reduce64_balanced",
    "Verif.Props.C36_reduceInt",
    "Verif.Props.C36_reduceInt_balanced"
   ],
   "note": "Vectorised 64-bit reduction with floating-point quotient, for p up to 2^38, every 64-bit input; generic integer reduction for every p."
  },
  {
   "property": "C46",
   "status": "partial",
   "theorems": [
    "Verif.Props.C46_in_range_partial",
    "Verif.Props.C46_violated",
    "Verif.Props.C46_signed_to_unsigned_accepts_all_nonneg"
   ],
   "note": "in_range<uint8_t>(int 256) is true in the code; proved exact for every other sign/width combination."
  },
  {
   "property": "C05",
   "status": "proved",
   "theorems": [
    "Verif.Props.C05_dot_bound_exact",
    "Verif.Props.C05_one_is_no_guarantee"
   ],
   "note": "Every prefix and every sub-sum; the second theorem shows the returned value 1 carries no guarantee (hence k > 1 in the statement)."
  },
  {
   "property": "C06",
   "status": "proved",
   "theorems": [
    "Verif.Props.C06_trsm_bound_exact",
    "Verif.Props.C06_trsm_bound_exact_balanced",
    "Verif.Props.C06_balanced_two_diverges"
   ],
   "note": "Both field representations; modulus 2 in balanced representation loops for ever (excluded by hypothesis, shown necessary)."
  },
  {
   "property": "C07",
   "status": "proved",
   "theorems": [
    "Verif.Props.C07_maxDelayedDim_float",
    "Verif.Props.C07_maxDelayedDim_int",
    "Verif.Props.C07_setOutBounds_sound",
    "Verif.Props.C07_setOutBounds_needs_zero",
    "Verif.Props.C07_needPreAdd_sound",
    "Verif.Props.C07_needPreSub_sound",
    "Verif.Props.C07_needDoublePreAdd_sound",
    "Verif.Props.C07_needPreAxpy_sound"
   ],
   "note": "setOutBounds is sound for partial sums when the operand intervals contain 0 (they always do in the library; shown necessary)."
  },
  {
   "property": "C08",
   "status": "partial",
   "theorems": [
    "Verif.Props.C08_lazy_fgemm_partial",
    "Verif.Props.C08_lazy_fgemm_beta_nonzero",
    "Verif.Props.C08_primes_partial",
    "Verif.Props.C08_violated",
    "Verif.Props.C08_lists_violated",
    "Verif.Props.C08_exact_violated"
   ],
   "note": "The code violates the property for beta = 0 (block size computed without room for the reduced C of later blocks); proved for every summation order when beta != 0, or when one block suffices, or when there is room. C08_primes_partial: over the fields of the library this leaves out only the primes 7, 29, 41, 2273 (ModularBalanced<float>), 379 (Modular<double>), 757, 1163, 37225301 (ModularBalanced<double>), and C08_exact_violated shows that the property fails for exactly these primes."
  },
  {
   "property": "C27",
   "status": "proved",
   "theorems": [
    "Verif.Props.C27_init",
    "Verif.Props.C27_convert",
    "Verif.Props.C27_roundtrip"
   ],
   "note": "precompute_cst, init/init_transpose, convert/convert_transpose in both layouts, every BLAS summation order; digit sums must fit in 53 bits."
  },
  {
   "property": "C28",
   "status": "proved",
   "theorems": [
    "Verif.Props.C28_add",
    "Verif.Props.C28_sub",
    "Verif.Props.C28_mul",
    "Verif.Props.C28_neg",
    "Verif.Props.C28_axpyin",
    "Verif.Props.C28_axpy_then_convert"
   ],
   "note": "RNSIntegerMod operations with strides and aliasing."
  },
  {
   "property": "C47",
   "status": "proved",
   "theorems": [
    "Verif.Props.C47_reduce_modp"
   ],
   "note": "One-dimensional reduce_modp with its tables; rounded floating-point quotient."
  },
  {
   "property": "C48",
   "status": "partial",
   "theorems": [
    "Verif.Props.C48_bound_constructor",
    "Verif.Props.C48_size_constructor_violated",
    "Verif.Props.C48_exhausted_primes_violated"
   ],
   "note": "The (pbits, size) constructor can draw the same prime twice (violation proved); the bound constructor is correct when it returns and loops for ever when primes run out (proved)."
  },
  {
   "property": "C29",
   "status": "proved",
   "theorems": [
    "Verif.Props.C29_coo",
    "Verif.Props.C29_csr",
    "Verif.Props.C29_ell",
    "Verif.Props.C29_ell_empty_reads_oob",
    "Verif.Props.C29_hyb_zo"
   ],
   "note": "Every ring, pattern and contents of fresh memory; ELL needs at least one entry (shown necessary)."
  },
  {
   "property": "C30",
   "status": "partial",
   "theorems": [
    "Verif.Props.C30_zo_constant_partial",
    "Verif.Props.C30_constant_ignored_violated",
    "Verif.Props.C30_violated"
   ],
   "note": "The code ignores the constant unless it is 1 or -1 (proved for all inputs); CSR_ZO correct for 1 and -1."
  },
  {
   "property": "C31",
   "status": "partial",
   "theorems": [
    "Verif.Props.C31_perm_ignored_violated",
    "Verif.Props.C31_oob_violated"
   ],
   "note": "The code violates the property for every correct sort; only the negations are proved."
  },
  {
   "property": "C49",
   "status": "partial",
   "theorems": [
    "Verif.Props.C49_csr",
    "Verif.Props.C49_ell",
    "Verif.Props.C49_coo_delayed_partial",
    "Verif.Props.C49_coo_overflow_violated",
    "Verif.Props.C49_coo_unreduced_violated",
    "Verif.Props.C49_hyb_zo_overflow_violated"
   ],
   "note": "Proved for CSR and ELL (both variants) and delayed COO; violated by the kmax variant of COO and by HYB_ZO."
  },
  {
   "property": "C50",
   "status": "partial",
   "theorems": [
    "Verif.Props.C50_ell_zo_partial",
    "Verif.Props.C50_violated"
   ],
   "note": "Proved when all rows have the same number of entries; violated otherwise."
  },
  {
   "property": "C51",
   "status": "partial",
   "theorems": [
    "Verif.Props.C51_ell_simd_partial",
    "Verif.Props.C51_oob_violated",
    "Verif.Props.C51_kmax_rows_skipped_violated"
   ],
   "note": "Proved when the chunk divides the number of rows; violated otherwise."
  },
  {
   "property": "C52",
   "status": "partial",
   "theorems": [
    "Verif.Props.C52_cols_unsorted_violated",
    "Verif.Props.C52_not_delayed_violated"
   ],
   "note": "The code violates the property; only the negations are proved."
  },
  {
   "property": "C26",
   "status": "proved",
   "theorems": [
    "Verif.Props.C26_fassign",
    "Verif.Props.C26_fneg",
    "Verif.Props.C26_fscal",
    "Verif.Props.C26_fscalin",
    "Verif.Props.C26_fadd",
    "Verif.Props.C26_fdot",
    "Verif.Props.C26_fdot_delayed",
    "Verif.Props.C26_fswap",
    "Verif.Props.C26_fiszero",
    "Verif.Props.C26_fequal",
    "Verif.Props.C26_fzero2",
    "Verif.Props.C26_fidentity",
    "Verif.Props.C26_fassign2",
    "Verif.Props.C26_fneg2",
    "Verif.Props.C26_fscalin2",
    "Verif.Props.C26_fscal2",
    "Verif.Props.C26_fadd2",
    "Verif.Props.C26_fsub2",
    "Verif.Props.C26_faddin2",
    "Verif.Props.C26_fsubin2",
    "Verif.Props.C26_faxpy2",
    "Verif.Props.C26_faddmul2",
    "Verif.Props.C26_faddmul_alias",
    "Verif.Props.C26_fequal2",
    "Verif.Props.C26_fiszero2",
    "Verif.Props.C26_fger",
    "Verif.Props.C26_ftrsv",
    "Verif.Props.C26_ftrsv_singular_faults"
   ],
   "note": "Every routine on memory with strides/leading dimensions, in-place aliasing, frame and no leak. Strided subtraction over generic fields, fscal over DoubleDomain, fgemv and int64 fgemv are separate properties (C53, C54, C40, C55)."
  },
  {
   "property": "C40",
   "status": "partial",
   "theorems": [
    "Verif.Props.C40_fgemv_partial",
    "Verif.Props.C40_violated",
    "Verif.Props.C40_violated_witness"
   ],
   "note": "The code violates the property for M = 0 with Trans (y is left unscaled); proved for all other shapes."
  },
  {
   "property": "C53",
   "status": "partial",
   "theorems": [
    "Verif.Props.C53_fsub_partial",
    "Verif.Props.C53_faxpy_partial",
    "Verif.Props.C53_faddmul_partial",
    "Verif.Props.C53_fsub_violated",
    "Verif.Props.C53_faxpy_violated",
    "Verif.Props.C53_fsub_adds_violated"
   ],
   "note": "The generic strided kernel adds instead of subtracting (proved for all inputs); correct for modular fields or unit increments."
  },
  {
   "property": "C54",
   "status": "partial",
   "theorems": [
    "Verif.Props.C54_fscal_double_partial",
    "Verif.Props.C54_fscal_double_violated",
    "Verif.Props.C54_fscal_double_oob_violated"
   ],
   "note": "x is read with the increment of y; correct when both increments agree."
  },
  {
   "property": "C55",
   "status": "partial",
   "theorems": [
    "Verif.Props.C55_fgemv_int64_partial",
    "Verif.Props.C55_violated",
    "Verif.Props.C55_violated_witness"
   ],
   "note": "The code computes alpha op(A) x + beta y^2 entrywise (proved for all inputs); correct for beta = 0."
  },
  {
   "property": "C09",
   "status": "proved",
   "theorems": [
    "Verif.Props.C09_classic",
    "Verif.Props.C09_winograd"
   ],
   "note": "Winograd schedule, dynamic peeling and recursion on memory with temporaries, any level and shape; the threshold must be at least 2 (the recursion of the code does not end otherwise)."
  },
  {
   "property": "C10",
   "status": "proved",
   "theorems": [
    "Verif.Props.C10_winograd_acc",
    "Verif.Props.C10_winograd_old",
    "Verif.Props.C10_public",
    "Verif.Props.C10_delayed"
   ],
   "note": "WinogradAcc_3_21 (the version compiled by default) and WinogradAcc_3_23 (OLDWINO), dynamic peeling, recursion, and the public entries on top of the default. The schedules of NEWACC, NEWIP and NEWACCIP cannot be compiled and are not modelled."
  },
  {
   "property": "C11",
   "status": "proved",
   "theorems": [
    "Verif.Props.C11_ftrsm",
    "Verif.Props.C11_ftrsm_winograd",
    "Verif.Props.C11_ftrsm_double"
   ],
   "note": "All 16 variants, generic recursion and the double/float version (delayed blocks, Acop copies, inner solves as a BLAS contract met by btRef_ok), including uniqueness of the solution and the frame."
  },
  {
   "property": "C12",
   "status": "proved",
   "theorems": [
    "Verif.Props.C12_ftrmm",
    "Verif.Props.C12_ftrmm_winograd",
    "Verif.Props.C12_ftrmm_double"
   ],
   "note": "All 16 variants, generic recursion and the double/float block loop."
  },
  {
   "property": "C13",
   "status": "partial",
   "theorems": [
    "Verif.Props.C13_ftrmm_partial",
    "Verif.Props.C13_ftrmm_double_partial",
    "Verif.Props.C13_ftrmm_beta_zero",
    "Verif.Props.C13_beta_zero_violated",
    "Verif.Props.C13_alpha_zero_violated",
    "Verif.Props.C13_minus_one_violated"
   ],
   "note": "The code violates the property for beta = 0 (generic), alpha = 0 (all), and a diagonal entry -1 on the right side (generic); proved otherwise."
  },
  {
   "property": "C14",
   "status": "partial",
   "theorems": [
    "Verif.Props.C14_blocking",
    "Verif.Props.C14_exact",
    "Verif.Props.C14_inner_bound_violated"
   ],
   "note": "Blocks are positive and cover the dimension; sums within a block are exact when the bound exceeds 1. If TRSMBound were larger than DotProdBound the loop would divide by zero; as called, TRSMBound is always 1."
  },
  {
   "property": "C25",
   "status": "proved",
   "theorems": [
    "Verif.Props.C25_ftrtri",
    "Verif.Props.C25_ftrtri_winograd",
    "Verif.Props.C25_ftrtrm",
    "Verif.Props.C25_inverse_of_product",
    "Verif.Props.C25_trinv_left",
    "Verif.Props.C25_threshold_zero_diverges"
   ],
   "note": "All uplo/diag combinations, base case and recursion, two-sided inverse, other triangle and frame unchanged; with threshold 0 the recursion of the code never ends (proved)."
  },
  {
   "property": "C16",
   "status": "proved",
   "theorems": [
    "Verif.Props.C16_applyP_rows",
    "Verif.Props.C16_applyP_cols",
    "Verif.Props.C16_exchanged_inverse",
    "Verif.Props.C16_exchanged_applySwaps",
    "Verif.Props.C16_applyP_undo_rows",
    "Verif.Props.C16_applyP_undo_cols"
   ],
   "note": "applyP in place on memory, both sides, both directions, any range of exchanges, blocks of 32."
  },
  {
   "property": "C18",
   "status": "partial",
   "theorems": [
    "Verif.Props.C18_cyclic_shift_row",
    "Verif.Props.C18_cyclic_shift_col",
    "Verif.Props.C18_cyclic_shift_row_col_partial",
    "Verif.Props.C18_cyclic_shift_row_col_violated",
    "Verif.Props.C18_cyclic_shift_mathPerm_partial",
    "Verif.Props.C18_cyclic_shift_mathPerm_violated"
   ],
   "note": "Row and column shifts proved. The combined shift is wrong on a single row of 3 or more columns (negation proved) and right otherwise. The shift of index arrays relies on std::copy behaving like memmove."
  },
  {
   "property": "C19",
   "status": "proved",
   "theorems": [
    "Verif.Props.C19_pluq",
    "Verif.Props.C19_pluq_winograd",
    "Verif.Props.C19_reveals_rank_profile_matrix"
   ],
   "note": "Crout base case and tile recursion on memory, any threshold, both Diag values, junk contents of allocated arrays quantified; frame and absence of faults included."
  },
  {
   "property": "C20",
   "status": "proved",
   "theorems": [
    "Verif.Props.C20_decomposition_rank",
    "Verif.Props.C20_rank",
    "Verif.Props.C20_rank_winograd"
   ],
   "note": "Rank as Mathlib Matrix.rank; any decomposition with r nonzero pivots has r = rank."
  },
  {
   "property": "C21",
   "status": "proved",
   "theorems": [
    "Verif.Props.C21_det",
    "Verif.Props.C21_det_winograd"
   ],
   "note": "Det equals Mathlib Matrix.det, including the sign of both permutations and N = 0."
  },
  {
   "property": "C41",
   "status": "proved",
   "theorems": [
    "Verif.Props.C41_rowRankProfile",
    "Verif.Props.C41_columnRankProfile",
    "Verif.Props.C41_leadingSubmatrixRankProfiles"
   ],
   "note": "Tile variants (through PLUQ); rank profiles specified by the jumps of the rank of leading rows / columns. The slab variants go through LUdivine (C44)."
  },
  {
   "property": "C22",
   "status": "proved",
   "theorems": [
    "Verif.Props.C22_fgetrs",
    "Verif.Props.C22_fgetrs_X",
    "Verif.Props.C22_fgesv",
    "Verif.Props.C22_fgesv_X",
    "Verif.Props.C22_fgesv_X_winograd",
    "Verif.Props.C22_solve"
   ],
   "note": "Both sides, in place and with a separate solution, any shapes and rank; info = 1 exactly when no solution exists; frame and no faults."
  },
  {
   "property": "C24",
   "status": "proved",
   "theorems": [
    "Verif.Props.C24_nullSpaceBasis"
   ],
   "note": "Both sides; the basis is stated by existence and uniqueness of coefficients."
  },
  {
   "property": "C43",
   "status": "partial",
   "theorems": [
    "Verif.Props.C43_randomNullSpaceVector_partial",
    "Verif.Props.C43_randomNullSpaceVector_violated"
   ],
   "note": "The last permutation is applied with stride 1 whatever incX is: violated for incX = 2 (negation proved), proved for incX = 1."
  },
  {
   "property": "C23",
   "status": "partial",
   "theorems": [
    "Verif.Props.C23_invert_violated",
    "Verif.Props.C23_invert_partial",
    "Verif.Props.C23_invertX_partial"
   ],
   "note": "Invert ignores the column permutation: violated (negation proved for a 2 x 2 matrix). Proved: the nullity is right, no faults, frame, and when the nullity is 0 the result is the inverse up to the order of its rows."
  },
  {
   "property": "C56",
   "status": "proved",
   "theorems": [
    "Verif.Props.C56_rowEchelonForm",
    "Verif.Props.C56_rowEchelonForm_noTransform",
    "Verif.Props.C56_columnEchelonForm",
    "Verif.Props.C56_columnEchelonForm_noTransform",
    "Verif.Props.C56_reducedRowEchelonForm",
    "Verif.Props.C56_reducedRowEchelonForm_noTransform",
    "Verif.Props.C56_reducedColumnEchelonForm",
    "Verif.Props.C56_reducedColumnEchelonForm_noTransform"
   ],
   "note": "Tile variants (PLUQ); the slab variants (LUdivine) are C64."
  },
  {
   "property": "C57",
   "status": "proved",
   "theorems": [
    "Verif.Props.C57_gaussJordan",
    "Verif.Props.C57_gaussJordan_winograd"
   ],
   "note": "Every base case size, whatever the contents of the temporaries."
  },
  {
   "property": "C32",
   "status": "partial",
   "theorems": [
    "Verif.Props.C32_freivalds_exact_partial",
    "Verif.Props.C32_freivalds_complete_partial",
    "Verif.Props.C32_freivalds_sound_partial",
    "Verif.Props.C32_freivalds_violated"
   ],
   "note": "Violated when k = 0 with A transposed (or n = 0 with B transposed): a scratch vector is used uninitialised and the correct product can be rejected (negation proved). Proved for all other calls."
  },
  {
   "property": "C33",
   "status": "proved",
   "theorems": [
    "Verif.Props.C33_fgemm_complete",
    "Verif.Props.C33_fgemm_sound"
   ],
   "note": "The product checked may be any program that does not depend on the checker's scratch vectors."
  },
  {
   "property": "C34",
   "status": "proved",
   "theorems": [
    "Verif.Props.C34_ftrsm_complete",
    "Verif.Props.C34_ftrsm_sound",
    "Verif.Props.C34_pluq_complete",
    "Verif.Props.C34_pluq_sound",
    "Verif.Props.C34_invert_complete",
    "Verif.Props.C34_invert_sound"
   ],
   "note": "The checked computation may be any program that does not depend on the checker's scratch vectors; completeness of the PLUQ check is stated for the model of PLUQ itself."
  },
  {
   "property": "C38",
   "status": "partial",
   "theorems": [
    "Verif.Props.C38_triangle_partial",
    "Verif.Props.C38_fsyrk_partial",
    "Verif.Props.C38_empty_violated",
    "Verif.Props.C38_delayed_violated"
   ],
   "note": "Selected triangle proved in all cases. Other triangle unchanged for k > 0 (with delayed reductions only for alpha = 1, -1); otherwise it is scaled (negations proved)."
  },
  {
   "property": "C39",
   "status": "partial",
   "theorems": [
    "Verif.Props.C39_fsyr2k_partial",
    "Verif.Props.C39_fsyr2k_empty",
    "Verif.Props.C39_fsyr2k_violated"
   ],
   "note": "Proved for k > 0; for k = 0 the result is beta^2 C (exact effect and negation proved)."
  },
  {
   "property": "C58",
   "status": "proved",
   "theorems": [
    "Verif.Props.C58_fsyrkDiag"
   ],
   "note": "Sequential version, every threshold but 0."
  },
  {
   "property": "C59",
   "status": "partial",
   "theorems": [
    "Verif.Props.C59_fsyrkBlk_partial",
    "Verif.Props.C59_fsyrkBlk_violated"
   ],
   "note": "Proved when twoBlocks has at least n/2 entries and the threshold is at least 2; otherwise twoBlocks is read out of bounds (negation proved)."
  },
  {
   "property": "C37",
   "status": "proved",
   "theorems": [
    "Verif.Props.C37_ftranspose",
    "Verif.Props.C37_nonsquare_inplace_v2",
    "Verif.Props.C37_v2_empty_faults",
    "Verif.Props.C37_documented_strides_violated"
   ],
   "note": "All SIMD register types with their shuffle networks, every block size divisible by the vector length, both strides; under the stride conditions checked by the code (the documented ones exchange m and n: negation proved)."
  },
  {
   "property": "C45",
   "status": "proved",
   "theorems": [
    "Verif.Props.C45_positions",
    "Verif.Props.C45_monotonicApplyP_rows",
    "Verif.Props.C45_monotonicApplyP_cols"
   ],
   "note": "As compiled by default; ibeg = 0 (all callers) and at most 2^31 lines, the range of int."
  },
  {
   "property": "C42",
   "status": "partial",
   "theorems": [
    "Verif.Props.C42_rowIndices",
    "Verif.Props.C42_rowSubmatrix",
    "Verif.Props.C42_colIndices_partial",
    "Verif.Props.C42_colSubmatrix_partial",
    "Verif.Props.C42_col_oob_violated",
    "Verif.Props.C42_col_uninit_violated"
   ],
   "note": "Row versions proved in full. The column versions write out of bounds for N > M and return uninitialised indices for N < M (negations proved); proved for square matrices and the default cutoff."
  },
  {
   "property": "C44",
   "status": "partial",
   "theorems": [
    "Verif.Props.C44_ludivine",
    "Verif.Props.C44_ludivine_winograd",
    "Verif.Props.C44_ludivine_transposed_partial",
    "Verif.Props.C44_decomposition_rank",
    "Verif.Props.C44_transposed_small_violated",
    "Verif.Props.C44_gauss_rows_violated",
    "Verif.Props.C44_gauss_unit_violated"
   ],
   "note": "LUdivine proved for every shape, diagonal and cutoff without transposition, and with transposition for the default cutoff; for a cutoff above 1 the transposition is ignored, and LUdivine_gauss ignores rows beyond the number of columns and its Diag parameter (negations proved)."
  },
  {
   "property": "C60",
   "status": "partial",
   "theorems": [
    "Verif.Props.C60_isSingular_partial",
    "Verif.Props.C60_cutoff_violated"
   ],
   "note": "Proved for the default cutoff; for a cutoff above 1 singular matrices are accepted (negation proved)."
  },
  {
   "property": "C61",
   "status": "partial",
   "theorems": [
    "Verif.Props.C61_rowRankProfile",
    "Verif.Props.C61_columnRankProfile_partial",
    "Verif.Props.C61_column_cutoff_violated"
   ],
   "note": "Row version in full; column version for the default cutoff, false for a cutoff above 1 (negation proved)."
  },
  {
   "property": "C62",
   "status": "proved",
   "theorems": [
    "Verif.Props.C62_invert2"
   ],
   "note": "Every cutoff and order."
  },
  {
   "property": "C63",
   "status": "partial",
   "theorems": [
    "Verif.Props.C63_fullRankMinor_violated"
   ],
   "note": "The code copies both triangular factors: only the negation is proved."
  },
  {
   "property": "C64",
   "status": "proved",
   "theorems": [
    "Verif.Props.C64_rowEchelonForm",
    "Verif.Props.C64_columnEchelonForm",
    "Verif.Props.C64_reducedRowEchelonForm",
    "Verif.Props.C64_reducedRowEchelonForm_noTransform",
    "Verif.Props.C64_reducedColumnEchelonForm",
    "Verif.Props.C64_reducedColumnEchelonForm_noTransform"
   ],
   "note": "The cutoff of LUdivine is the compiled default (at most 1) for the row versions, as called by the library; any cutoff for the column versions. Without transformation the non-reduced forms are LUdivine itself (C44)."
  },
  {
   "property": "C65",
   "status": "proved",
   "theorems": [
    "Verif.Props.C65_rowEchelon",
    "Verif.Props.C65_columnEchelon",
    "Verif.Props.C65_reducedRowEchelon",
    "Verif.Props.C65_reducedColumnEchelon",
    "Verif.Props.C65_rowEchelon_inPlace",
    "Verif.Props.C65_columnEchelon_inPlace",
    "Verif.Props.C65_reducedRowEchelon_inPlace",
    "Verif.Props.C65_reducedColumnEchelon_inPlace"
   ],
   "note": "From the call of the echelon function to the contents of E and T, out of place (with and without OnlyNonZeroVectors) and in place. FfpackGaussJordanTile for the reduced row form only, which is what is documented."
  },
  {
   "property": "C66",
   "status": "proved",
   "theorems": [
    "Verif.Props.C66_pivots_rankProfile",
    "Verif.Props.C66_reducedRow_unique",
    "Verif.Props.C66_reducedColumn_unique"
   ],
   "note": "Uniqueness of the reduced echelon form over the transformation group, and equality of the results of any two runs."
  },
  {
   "property": "C04",
   "status": "proved",
   "theorems": [
    "Verif.Props.C04_tasks",
    "Verif.Props.C04_forblock",
    "Verif.Props.C04_race_example",
    "Verif.Props.C04_pfadd",
    "Verif.Props.C04_pfsub",
    "Verif.Props.C04_pfaddin",
    "Verif.Props.C04_pfsubin"
   ],
   "note": "Any family of tasks that, executed alone, stay in their own cells; the loop macro FORBLOCK1D; the elementwise parallel functions. Tasks that allocate or spawn are covered by the theorems on the functions that use them (C67-C71)."
  },
  {
   "property": "C67",
   "status": "partial",
   "theorems": [
    "Verif.Props.C67_block",
    "Verif.Props.C67_2DA",
    "Verif.Props.C67_2D",
    "Verif.Props.C67_3DI",
    "Verif.Props.C67_3D",
    "Verif.Props.C67_3DA_partial",
    "Verif.Props.C67_3DA_violated",
    "Verif.Props.C67_3DA_violated_value"
   ],
   "note": "All variants but ThreeDAdaptive; that one is proved with the dimensions of the final sum in the right order, and the negation for the code. The tasks call the classical sequential product over a field."
  },
  {
   "property": "C68",
   "status": "partial",
   "theorems": [
    "Verif.Props.C68_row_partial",
    "Verif.Props.C68_rec_notrans",
    "Verif.Props.C68_rec_trans_partial",
    "Verif.Props.C68_rec_trans_violated"
   ],
   "note": "Empty transposed matrices excluded (C40); the recursive transposed variant is proved with the offset corrected, and the negation for the code."
  },
  {
   "property": "C69",
   "status": "partial",
   "theorems": [
    "Verif.Props.C69_fdot_threads",
    "Verif.Props.C69_fdot_grain_violated"
   ],
   "note": "Threads strategy; negation for Grain."
  },
  {
   "property": "C70",
   "status": "partial",
   "theorems": [
    "Verif.Props.C70_ftrsm",
    "Verif.Props.C70_recursive",
    "Verif.Props.C70_recursive_block",
    "Verif.Props.C70_hybrid_partial",
    "Verif.Props.C70_hybrid_tasks",
    "Verif.Props.C70_hybrid_violated",
    "Verif.Props.C70_hybrid_grain_violated",
    "Verif.Props.C70_hybrid_rows_violated"
   ],
   "note": "Iterative and recursive variants in full.  Hybrid variant for right-hand sides that are not empty and, with Grain, more than 256 columns on the left; the negation is proved for the other cases."
  },
  {
   "property": "C71",
   "status": "partial",
   "theorems": [
    "Verif.Props.C71_applyP_rows",
    "Verif.Props.C71_applyP_cols",
    "Verif.Props.C71_matrixApplyS",
    "Verif.Props.C71_matrixApplyT",
    "Verif.Props.C71_pfzero_partial",
    "Verif.Props.C71_pfzero_violated"
   ],
   "note": "pfzero only for the shapes its splitter covers; negation for all the other shapes."
  },
  {
   "property": "C72",
   "status": "partial",
   "theorems": [
    "Verif.Props.C72_ftrstr_partial",
    "Verif.Props.C72_ftrstr_modular",
    "Verif.Props.C72_unique",
    "Verif.Props.C72_ftrstr_violated"
   ],
   "note": "Fields with delayed reduction: everything. Generic fields: the left version with an entry -1 on the diagonal of the solution is excluded, with the negation for the code."
  },
  {
   "property": "C73",
   "status": "partial",
   "theorems": [
    "Verif.Props.C73_ftrssyr2k_partial",
    "Verif.Props.C73_ftrssyr2k_modular",
    "Verif.Props.C73_lower_violated",
    "Verif.Props.C73_documented_equation_violated",
    "Verif.Props.C73_other_triangle_violated"
   ],
   "note": "Fields with delayed reduction: everything; generic fields: upper triangle. Negations: generic lower, the documented equation for the lower triangle, the other triangle of B is overwritten."
  },
  {
   "property": "C74",
   "status": "partial",
   "theorems": [
    "Verif.Props.C74_fsytrf_partial",
    "Verif.Props.C74_fsytrf_RL",
    "Verif.Props.C74_fsytrf_Crout",
    "Verif.Props.C74_nonunit_partial",
    "Verif.Props.C74_unique",
    "Verif.Props.C74_leak_violated",
    "Verif.Props.C74_lower_violated",
    "Verif.Props.C74_incDinv_violated",
    "Verif.Props.C74_threshold_violated"
   ],
   "note": "Sequential fsytrf and fsytrf_nonunit (Dinv contiguous, threshold at least 1; for the default base case delayed reduction or the upper triangle). Negations: memory lost on failure, generic lower triangle, stride of Dinv, threshold 0. The unused triangle is scratch space."
  },
  {
   "property": "C75",
   "status": "proved",
   "theorems": [
    "Verif.Props.C75_danilevski",
    "Verif.Props.C75_coeff",
    "Verif.Props.C75_monic"
   ],
   "note": "Danilevski; the polynomials are lists of coefficients, linked to Mathlib's Polynomial and Matrix.charpoly."
  },
  {
   "property": "C76",
   "status": "partial",
   "theorems": [
    "Verif.Props.C76_matVec_partial",
    "Verif.Props.C76_minPoly",
    "Verif.Props.C76_divides_minpoly",
    "Verif.Props.C76_divides_charpoly",
    "Verif.Props.C76_nonconstant",
    "Verif.Props.C76_empty_violated"
   ],
   "note": "MatVecMinPoly for N >= 1 and MinPoly for all N, with LUdivine_construct (FflasUnit, FfpackDense). MatVecMinPoly with N = 0 recurses for ever (C76_empty_violated); nothing else is missing."
  },
  {
   "property": "C77",
   "status": "partial",
   "theorems": [
    "Verif.Props.C77_luk",
    "Verif.Props.C77_list_partial",
    "Verif.Props.C77_charPoly_partial"
   ],
   "note": "LUKrylov for all inputs; the driver when it selects Danilevski or LUKrylov. Missing: ArithProgKrylovPrecond in characteristic >= N and the tags KG, KGFast, Hybrid, ArithProg. The product of polynomials (Givaro) is a parameter assumed right."
  },
  {
   "property": "C78",
   "status": "partial",
   "theorems": [
    "Verif.Props.C78_product_partial",
    "Verif.Props.C78_small_violated",
    "Verif.Props.C78_empty_violated"
   ],
   "note": "Proved for N >= s. For 0 < N < s and for N = 0 the code accesses memory it was not given (negations proved)."
  },
  {
   "property": "C79",
   "status": "partial",
   "theorems": [
    "Verif.Props.C79_toDense_partial",
    "Verif.Props.C79_empty_violated"
   ],
   "note": "Proved for N >= 1; N = 0 faults (negation proved)."
  },
  {
   "property": "C80",
   "status": "proved",
   "theorems": [
    "Verif.Props.C80_fromDense",
    "Verif.Props.C80_roundTrip",
    "Verif.Props.C80_product",
    "Verif.Props.C80_rank_needed"
   ],
   "note": "DenseToSSS for all orders and all matrices of quasi-separability order at most s; C80_rank_needed shows that the hypothesis (documented by the library) cannot be dropped. The multiplication uses N >= s (see C78)."
  },
  {
   "property": "C81",
   "status": "partial",
   "theorems": [
    "Verif.Props.C81_generator_partial",
    "Verif.Props.C81_reveals_ranks",
    "Verif.Props.C81_pivots_unique",
    "Verif.Props.C81_rank_violated",
    "Verif.Props.C81_empty_violated"
   ],
   "note": "LTBruhatGen for N >= 1. Negations: the documented claim that the result is the rank; N = 0 recurses for ever."
  },
  {
   "property": "C82",
   "status": "partial",
   "theorems": [
    "Verif.Props.C82_extract_partial",
    "Verif.Props.C82_ldt_violated"
   ],
   "note": "The three extractions after LTBruhatGen, triangular factors with leading dimension N. Negation: with another leading dimension old contents remain."
  },
  {
   "property": "C83",
   "status": "partial",
   "theorems": [
    "Verif.Props.C83_order_partial",
    "Verif.Props.C83_empty_violated"
   ],
   "note": "LTQSorder after LTBruhatGen for N >= 1; N = 0 reads an empty vector."
  },
  {
   "property": "C84",
   "status": "partial",
   "theorems": [
    "Verif.Props.C84_krylovPrecond_partial",
    "Verif.Props.C84_auto_partial",
    "Verif.Props.C84_violated",
    "Verif.Props.C84_leak_violated",
    "Verif.Props.C84_empty_violated"
   ],
   "note": "CharPoly with FfpackArithProgKrylovPrecond for orders at most degree (one block), and FfpackAuto for all orders at most degree. Negations: with several blocks a wrong product is returned for some draws; a block of memory is not freed when the degrees increase; N = 0 wraps."
  },
  {
   "property": "C85",
   "status": "proved",
   "theorems": [
    "Verif.Props.C85_subset",
    "Verif.Props.C85_uniform",
    "Verif.Props.C85_permutation",
    "Verif.Props.C85_profile"
   ],
   "note": "All sizes and all draws."
  },
  {
   "property": "C86",
   "status": "partial",
   "theorems": [
    "Verif.Props.C86_symmetric_partial",
    "Verif.Props.C86_violated"
   ],
   "note": "Whenever the function returns the result is right; it returns for even R. Negation: it does not return for N = 4, R = 3 and some draws."
  },
  {
   "property": "C87",
   "status": "partial",
   "theorems": [
    "Verif.Props.C87_ltqs_partial",
    "Verif.Props.C87_order_violated",
    "Verif.Props.C87_empty_violated"
   ],
   "note": "Whenever the function returns, the positions are distinct, inside the triangle and of order at most t; the search ends. Negations: an order smaller than t; the list of possible moves read although empty."
  },
  {
   "property": "C88",
   "status": "partial",
   "theorems": [
    "Verif.Props.C88_triangular_partial",
    "Verif.Props.C88_violated"
   ],
   "note": "All upper triangular matrices, lower triangular ones with at most as many rows as columns. Negation: with more rows than columns cells outside the matrix are overwritten, or the access is out of bounds."
  },
  {
   "property": "C89",
   "status": "proved",
   "theorems": [
    "Verif.Props.C89_profile",
    "Verif.Props.C89_random"
   ],
   "note": "All sizes, pivots and draws."
  },
  {
   "property": "C90",
   "status": "partial",
   "theorems": [
    "Verif.Props.C90_rank_partial",
    "Verif.Props.C90_violated"
   ],
   "note": "Full rank is always obtained, so the property holds for r = min(m,n). Negation: for every smaller r and all draws the rank is not r."
  },
  {
   "property": "C91",
   "status": "partial",
   "theorems": [
    "Verif.Props.C91_symmetric_partial",
    "Verif.Props.C91_violated"
   ],
   "note": "Symmetric and non-singular when no zero is on the diagonal, in particular with nonsingular set. Negation: order two with a zero drawn for the first entry."
  },
  {
   "property": "C92",
   "status": "partial",
   "theorems": [
    "Verif.Props.C92_profile",
    "Verif.Props.C92_random_partial",
    "Verif.Props.C92_violated"
   ],
   "note": "All sizes, pivots and draws for given pivots; with random pivots whenever these are found, which is always so for even R. Negation: N = 4, R = 3 may not return."
  },
  {
   "property": "C93",
   "status": "partial",
   "theorems": [
    "Verif.Props.C93_det_partial",
    "Verif.Props.C93_violated"
   ],
   "note": "All orders n >= 1, draws and values of d. Negation: n = 0 wraps."
  },
  {
   "property": "C94",
   "status": "partial",
   "theorems": [
    "Verif.Props.C94_ltqs_partial",
    "Verif.Props.C94_violated"
   ],
   "note": "Whenever positions are found: left triangular, ranks given by the pivots, order at most t; the only other outcome is the access out of bounds of C87. Negation: an order smaller than t."
  },
  {
   "property": "C95",
   "status": "partial",
   "theorems": [
    "Verif.Props.C95_integer_fgemm_partial",
    "Verif.Props.C95_zero_violated",
    "Verif.Props.C95_example",
    "Verif.Props.C95_zero_example"
   ],
   "note": "All sizes and operands that are not zero (or beta = 1), results up to about 1024 moduli, when the constructor of the residue system returns. Negation: with A or B zero, C is returned unchanged whatever beta is."
  },
  {
   "property": "C96",
   "status": "proved",
   "theorems": [
    "Verif.Props.C96_modular_fgemm",
    "Verif.Props.C96_example"
   ],
   "note": "All moduli, sizes and reduced operands, results up to about 1024 moduli, when the constructor of the residue system returns."
  },
  {
   "property": "C97",
   "status": "partial",
   "theorems": [
    "Verif.Props.C97_integer_det_partial",
    "Verif.Props.C97_integer_det_modulo",
    "Verif.Props.C97_family",
    "Verif.Props.C97_accumulates_violated",
    "Verif.Props.C97_sign_violated",
    "Verif.Props.C97_example",
    "Verif.Props.C97_sign_example"
   ],
   "note": "When twice the determinant is below the bound and det is zero before the call. In general the result is det plus a number congruent to the determinant modulo the product of the primes. Negations: the previous value is added; the 1 x 1 matrix 2097151 has a negative determinant."
  },
  {
   "property": "C98",
   "status": "partial",
   "theorems": [
    "Verif.Props.C98_integer_charpoly_partial",
    "Verif.Props.C98_family",
    "Verif.Props.C98_accumulates_violated",
    "Verif.Props.C98_example"
   ],
   "note": "When twice the coefficients are below the bound and charp holds zeros before the call. Negation: the previous contents are added."
  },
  {
   "property": "C99",
   "status": "partial",
   "theorems": [
    "Verif.Props.C99_det_complete",
    "Verif.Props.C99_det_sound",
    "Verif.Props.C99_check_again_violated",
    "Verif.Props.C99_example"
   ],
   "note": "Completeness and soundness of one call of check, all orders. Negation: a second call of check on the same correct result throws."
  },
  {
   "property": "C100",
   "status": "partial",
   "theorems": [
    "Verif.Props.C100_charpoly_value_partial",
    "Verif.Props.C100_charpoly_exact",
    "Verif.Props.C100_charpoly_complete_partial",
    "Verif.Props.C100_charpoly_sound",
    "Verif.Props.C100_charpoly_value_violated",
    "Verif.Props.C100_example"
   ],
   "note": "All non-empty matrices; completeness for the algorithms of CharPoly covered by C77. Negation: the checker built for an empty matrix reads out of bounds."
  },
  {
   "property": "C101",
   "status": "partial",
   "theorems": [
    "Verif.Props.C101_igemm_exact_partial",
    "Verif.Props.C101_alpha_violated",
    "Verif.Props.C101_wide_alpha_violated",
    "Verif.Props.C101_wide_entries_violated",
    "Verif.Props.C101_no_cache_violated",
    "Verif.Props.C101_one_cache_violated"
   ],
   "note": "Exact for entries of 32 bits and results of 64 bits when alpha is 0, 1 or -1, and for other alpha when also alpha, alpha times the entries and the products fit in 32 bits, if the processor reports caches of usual sizes. Negations: alpha = 2 with products of 33 bits, alpha = 2^32, entries 2^32 + 1, no cache reported (division by zero), only one cache reported (endless loop)."
  },
  {
   "property": "C102",
   "status": "partial",
   "theorems": [
    "Verif.Props.C102_strassen_partial",
    "Verif.Props.C102_delayed_partial",
    "Verif.Props.C102_constants",
    "Verif.Props.C102_constants_rat",
    "Verif.Props.C102_small_violated",
    "Verif.Props.C102_scratch_violated"
   ],
   "note": "Selected triangle for all sizes if beta is zero or the order is at least 2^(levels+1). Negations: order 3 with one level reads out of bounds; the other triangle is overwritten."
  },
  {
   "property": "C103",
   "status": "partial",
   "theorems": [
    "Verif.Props.C103_text",
    "Verif.Props.C103_auto_sms",
    "Verif.Props.C103_binary_partial",
    "Verif.Props.C103_binary_lda_violated",
    "Verif.Props.C103_binary_columns_violated",
    "Verif.Props.C103_default_violated",
    "Verif.Props.C103_second_violated",
    "Verif.Props.C103_column_zero_violated"
   ],
   "note": "Dense and sparse text formats in full, the sparse format also with automatic detection; binary format for matrices stored row by row without gaps. Negations: lda larger than n, column major storage, default formats, second matrix of a stream, entry of column 0."
  },
  {
   "property": "C104",
   "status": "partial",
   "theorems": [
    "Verif.Props.C104_sorted_partial",
    "Verif.Props.C104_zero_violated",
    "Verif.Props.C104_unsorted_violated",
    "Verif.Props.C104_unsorted_rows_violated",
    "Verif.Props.C104_row_index_violated"
   ],
   "note": "Entries sorted by rows and not zero in the field (zero ones too if the file ends with 0 0 0 and asserts are off). Negations: entries that are zero in the field, sorted = false, row index beyond the dimension."
  },
  {
   "property": "C105",
   "status": "partial",
   "theorems": [
    "Verif.Props.C105_csr_partial",
    "Verif.Props.C105_coo_partial",
    "Verif.Props.C105_ell_partial",
    "Verif.Props.C105_hyb_zo_partial",
    "Verif.Props.C105_csr_zo_partial",
    "Verif.Props.C105_coo_zo_partial",
    "Verif.Props.C105_beta_violated",
    "Verif.Props.C105_constant_violated",
    "Verif.Props.C105_alignment_violated",
    "Verif.Props.C105_csr_hyb_violated"
   ],
   "note": "Scalar and vector loops, beta 0 or 1, constants 1 and -1, leading dimensions that are multiples of the vector length if the aligned version is chosen. Negations: other beta, other constants, other leading dimensions, CSR_HYB."
  },
  {
   "property": "C106",
   "status": "partial",
   "theorems": [
    "Verif.Props.C106_csr",
    "Verif.Props.C106_ell",
    "Verif.Props.C106_coo_delayed_partial",
    "Verif.Props.C106_coo_violated",
    "Verif.Props.C106_zo_violated"
   ],
   "note": "CSR and ELL in full, COO when the reduction is delayed to the end. Negations: COO with long rows is not multiplied at all; zero-one matrices are not reduced or reduced out of bounds."
  },
  {
   "property": "C107",
   "status": "proved",
   "theorems": [
    "Verif.Props.C107_ppluq",
    "Verif.Props.C107_pdet"
   ],
   "note": "Every schedule of the tasks: no fault, race, deadlock or infinite execution; the result is a decomposition and the rank; the determinant computed from it is right."
  },
  {
   "property": "C108",
   "status": "partial",
   "theorems": [
    "Verif.Props.C108_rankProfiles_partial",
    "Verif.Props.C108_columnRankProfile_violated",
    "Verif.Props.C108_rowEchelonForm_violated"
   ],
   "note": "Matrices below the threshold of the recursion. Negations: a 3x8 matrix with threshold 3 whose column rank profile and row echelon form come out wrong."
  },
  {
   "property": "C109",
   "status": "partial",
   "theorems": [
    "Verif.Props.C109_sra",
    "Verif.Props.C109_mulhi",
    "Verif.Props.C109_mulx",
    "Verif.Props.C109_fmaddx",
    "Verif.Props.C109_compare",
    "Verif.Props.C109_compare512",
    "Verif.Props.C109_blend",
    "Verif.Props.C109_blend_comment_violated",
    "Verif.Props.C109_shuffle",
    "Verif.Props.C109_shuffle_emulated_violated",
    "Verif.Props.C109_shuffle_emulated_partial",
    "Verif.Props.C109_mullo_violated",
    "Verif.Props.C109_mullo_partial",
    "Verif.Props.C109_hadd_partial",
    "Verif.Props.C109_mulhi_fast_64",
    "Verif.Props.C109_mulhi_fast_violated",
    "Verif.Props.C109_mulhi_fast_partial"
   ],
   "note": "Shifts, high and short products, comparisons, blends and the 128-bit shuffle of 64-bit lanes in full. Negations: emulated shuffles read outside the register, mullo over int64_t overflows, mulhi_fast uses a wrong sign mask, the comments of blend are reversed. Partial: those functions on the inputs where they are right; horizontal sums without overflow."
  },
  {
   "property": "C110",
   "status": "partial",
   "theorems": [
    "Verif.Props.C110_in_float_partial",
    "Verif.Props.C110_in_int64",
    "Verif.Props.C110_out_float_partial",
    "Verif.Props.C110_out_int64",
    "Verif.Props.C110_matrix_float_partial",
    "Verif.Props.C110_matrix_int64",
    "Verif.Props.C110_triangle_float_partial",
    "Verif.Props.C110_triangle_int64",
    "Verif.Props.C110_lane_fma",
    "Verif.Props.C110_alignment_violated"
   ],
   "note": "int64_t in full (moduli up to 2^38); float and double for integers z with |z| + p < 2^prec. Negation: within p of 2^53 the result depends on the alignment of the entry."
  },
  {
   "property": "C111",
   "status": "proved",
   "theorems": [
    "Verif.Props.C111_fscalin_float",
    "Verif.Props.C111_fscalin_int64",
    "Verif.Props.C111_faxpy_float",
    "Verif.Props.C111_faxpy_int64",
    "Verif.Props.C111_addsub_float",
    "Verif.Props.C111_addsub_int64"
   ],
   "note": "Canonical operands; fscalin with every increment, faxpy, fadd and fsub with increments 1."
  },
  {
   "property": "C112",
   "status": "proved",
   "theorems": [
    "Verif.Props.C112_modular_ftrsm"
   ],
   "note": "Moduli below 2^4096, orders below 2^20 (above, the number of residues may be too large for the sums of reduce_modp and the conversions to be exact in doubles). The primes drawn are close to the random number they follow (CloseTo), which holds for the gaps between primes below 2^26."
  },
  {
   "property": "C113",
   "status": "partial",
   "theorems": [
    "Verif.Props.C113_init_partial",
    "Verif.Props.C113_init_violated",
    "Verif.Props.C113_convert",
    "Verif.Props.C113_arith",
    "Verif.Props.C113_reduce",
    "Verif.Props.C113_inv",
    "Verif.Props.C113_isZero_zero",
    "Verif.Props.C113_isZero_partial",
    "Verif.Props.C113_isZero_violated",
    "Verif.Props.C113_pivot_partial",
    "Verif.Props.C113_pivot_violated",
    "Verif.Props.C113_congruent_violated"
   ],
   "note": "The code violates the tests of elements and init for large integers: proved with witnesses. Arithmetic, convert, reduce and inv hold in full; isZero for stride 1, init for integers that fit the words of p, and pivots that are found are not zero."
  },
  {
   "property": "C114",
   "status": "partial",
   "theorems": [
    "Verif.Props.C114_fsytrf_RPM_partial",
    "Verif.Props.C114_rank",
    "Verif.Props.C114_profile",
    "Verif.Props.C114_getTridiagonal",
    "Verif.Props.C114_lower_violated",
    "Verif.Props.C114_copy_violated",
    "Verif.Props.C114_char2_violated"
   ],
   "note": "Orders below the threshold of fsytrf_UP_RPM (the base case fsytrf_UP_RPM_BC_Crout); the recursive function is not modelled. Characteristic other than 2 and std::copy acting as memmove are necessary: violations proved with witnesses, as for the lower triangle, which is not implemented."
  },
  {
   "property": "C115",
   "status": "partial",
   "theorems": [
    "Verif.Props.C115_pfspmm_partial",
    "Verif.Props.C115_pfspmm_ZO_partial",
    "Verif.Props.C115_pfspmv",
    "Verif.Props.C115_pfspmv_ell",
    "Verif.Props.C115_pfspmv_ZO",
    "Verif.Props.C115_pfspmv_hyb",
    "Verif.Props.C115_pfspmm_hyb_partial",
    "Verif.Props.C115_pfspmv_csrhyb",
    "Verif.Props.C115_pfspmv_sell_partial",
    "Verif.Props.C115_pfspmv_ellsimd_partial",
    "Verif.Props.C115_sell_violated",
    "Verif.Props.C115_beta_violated",
    "Verif.Props.C115_constant_violated"
   ],
   "note": "pfspmv in full; pfspmm for beta 0 and 1 and, for zero-one matrices, the constants 1 and -1: the code violates the rest (witnesses). HYB_ZO and CSR_HYB included; SELL and ELL_simd when the chunk divides the number of rows, otherwise the code accesses y beyond its end (witness)."
  },
  {
   "property": "C116",
   "status": "proved",
   "theorems": [
    "Verif.Props.C116_psolve"
   ],
   "note": "The whole function as a process, for all schedules."
  },
  {
   "property": "C117",
   "status": "proved",
   "theorems": [
    "Verif.Props.C117_products",
    "Verif.Props.C117_fsyrk"
   ],
   "note": "Thresholds and numbers of threads from 1 on: with threshold 0 the recursion of the code does not end."
  },
  {
   "property": "C118",
   "status": "partial",
   "theorems": [
    "Verif.Props.C118_fsytrf_partial",
    "Verif.Props.C118_RL",
    "Verif.Props.C118_Crout",
    "Verif.Props.C118_leak_violated"
   ],
   "note": "All schedules; both base cases, the default one for the upper triangle. Missing: freeing of the inverses on failure, which the code violates (witness)."
  },
  {
   "property": "C119",
   "status": "partial",
   "theorems": [
    "Verif.Props.C119_fgemm_partial",
    "Verif.Props.C119_fgemv_partial",
    "Verif.Props.C119_fger_partial",
    "Verif.Props.C119_fgemm_primes_partial",
    "Verif.Props.C119_fgemv_primes_partial",
    "Verif.Props.C119_large_violated",
    "Verif.Props.C119_two_violated"
   ],
   "note": "Moduli below ModularBalanced<double>::maxCardinality()/16; with beta = 0 every prime except 7, 29, 41, 1163, and these in one block. The code violates the rest: fgemm does nothing for larger moduli, fgemv throws modulo 2 (witnesses)."
  },
  {
   "property": "C120",
   "status": "partial",
   "theorems": [
    "Verif.Props.C120_integer_fgemv_partial",
    "Verif.Props.C120_modular_fgemv_partial",
    "Verif.Props.C120_zero_violated",
    "Verif.Props.C120_empty_violated"
   ],
   "note": "Operands that are not zero (or beta = 1) over the integers, transposed matrices that are not empty: the code violates the rest (witnesses). Products that fit in 1024 moduli."
  },
  {
   "property": "C121",
   "status": "partial",
   "theorems": [
    "Verif.Props.C121_fgemm_partial",
    "Verif.Props.C121_fgemv_partial",
    "Verif.Props.C121_fger_partial",
    "Verif.Props.C121_int64_fgemm_partial",
    "Verif.Props.C121_int64_fgemv_partial",
    "Verif.Props.C121_int64_fger",
    "Verif.Props.C121_fgemm_primes_partial",
    "Verif.Props.C121_fgemv_primes_partial",
    "Verif.Props.C121_int64_fgemm_primes_partial",
    "Verif.Props.C121_int64_fgemv_primes_partial",
    "Verif.Props.C121_int64_violated",
    "Verif.Props.C08_violated"
   ],
   "note": "The C121_int64 theorems cover 64-bit integers with every modulus. The primes theorems have no condition on the lengths; they leave out a few listed primes, for which products with beta = 0 in several blocks have no room (violated: C08_violated, C121_int64_violated). Missing too: y of a transposed matrix without rows. Winograd's recursion is in C09 and C10."
  },
  {
   "property": "C122",
   "status": "partial",
   "theorems": [
    "Verif.Props.C122_freduce",
    "Verif.Props.C122_fscal",
    "Verif.Props.C122_fger_partial",
    "Verif.Props.C122_fgemm_partial",
    "Verif.Props.C122_fgemm_unit",
    "Verif.Props.C122_fgemv_partial",
    "Verif.Props.C122_fger_violated",
    "Verif.Props.C122_fgemv_empty_violated",
    "Verif.Props.C122_fger_example_violated",
    "Verif.Props.C122_fger_example"
   ],
   "note": "freduce, fscal and the products with alpha and beta in {-1, 0, 1} are proved without further conditions. fger, fgemm and fgemv with other alpha need a result in the range of the residues; without it fger is wrong for elements of [0, p) (violated, with a concrete system of six moduli). fgemv of a matrix without rows or columns ignores beta (violated)."
  },
  {
   "property": "C123",
   "status": "partial",
   "theorems": [
    "Verif.Props.C123_pechelon",
    "Verif.Props.C123_c_partial",
    "Verif.Props.C123_c_ignored",
    "Verif.Props.C123_c_violated"
   ],
   "note": "The C++ functions are proved for every schedule (tile recursive). The C functions are proved for double, and for float without reduction; the two reduced forms for float and all four for int32_t pass transform as the number of threads and never compute the transformation (violated)."
  },
  {
   "property": "C124",
   "status": "partial",
   "theorems": [
    "Verif.Props.C124_fzero_partial",
    "Verif.Props.C124_fzero_violated",
    "Verif.Props.C124_fmove_partial",
    "Verif.Props.C124_fmove_violated"
   ],
   "note": "The triangular fzero is proved for all shapes, except an empty matrix without its diagonal, where the counter wraps (violated). fmove copies in the wrong direction: B becomes zero but A never gets its entries (violated for every pair of different matrices)."
  },
  {
   "property": "C125",
   "status": "partial",
   "theorems": [
    "Verif.Props.C125_getStat_partial",
    "Verif.Props.C125_rows_violated",
    "Verif.Props.C125_dense_violated",
    "Verif.Props.C125_average_violated",
    "Verif.Props.C125_example_violated",
    "Verif.Props.C125_deviation_violated"
   ],
   "note": "Values, columns, the largest row and (below 2^31 entries) the averages and the deviation of the columns are proved. The code violates the rest: an additional empty row, dense rows and columns never counted, averages from 2^31 entries on (each for every matrix, with examples)."
  },
  {
   "property": "C126",
   "status": "partial",
   "theorems": [
    "Verif.Props.C126_new_partial",
    "Verif.Props.C126_delete",
    "Verif.Props.C126_allocate_partial",
    "Verif.Props.C126_overflow_violated",
    "Verif.Props.C126_none_violated",
    "Verif.Props.C126_const_violated",
    "Verif.Props.C126_zero_violated"
   ],
   "note": "Proved for fewer than 2^64 bytes and the alignments other than NONE, and allocate(n) for n > 0. The code violates the rest: m*n wraps, NONE always gives null, integers released through a pointer to constants go to free, allocate(0) throws (witnesses)."
  }
 ]
}