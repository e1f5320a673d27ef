import Verif.Proofs.SparseMM
import Verif.Props.Sparse

/-!
# C105, C106: products of a sparse matrix and a block of vectors (`fspmm`)

`blockDot`, `IsBlock`, `Fits` (Spec/SparseMM.lean) are the specification: `blockDot … i k` is `(A X)_{i,k}`.
-/

namespace Verif.Props
open Verif Verif.Sparse Verif.Lazy Verif.Bounds Finset

/-- The public entry point: scale the block `y`, then accumulate (fflas_sparse.inl:846-854). -/
def withBeta2 {K : Type} [CommRing K] [DecidableEq K] (m bs : ℕ) (beta : K) (ldy : ℕ)
    (k : Arr K → Except Fault (Arr K)) (y : Arr K) : Except Fault (Arr K) := do
  let y ← initY2 m bs beta ldy y
  k y

section exact
variable {K : Type} [CommRing K] [DecidableEq K]

/-- `Y ← beta Y + A X` on the `m × bs` block, nothing else changed. -/
def IsSpmm (m bs nnz : ℕ) (row col : Arr ℕ) (dat x : Arr K) (ldx : ℕ) (beta : K) (ldy : ℕ) (y z : Arr K) : Prop :=
  IsBlock m bs ldy (fun i k => beta * y.get (i * ldy + k) + blockDot nnz row col dat x ldx i k) y z

/-- Dimensions of the operands, `beta` zero or one, and leading dimensions that suit the way the columns are handled. -/
structure BlockCase (md : Mode) (m n bs : ℕ) (x : Arr K) (ldx : ℕ) (beta : K) (y : Arr K) (ldy : ℕ) : Prop where
  hm : 0 < m
  hbeta : beta = 0 ∨ beta = 1
  hbs : bs ≤ ldy
  hx : Fits n bs ldx x
  hy : Fits m bs ldy y
  hmd : Suits md ldx ldy

/-- C105, CSR (full statement: for every `beta` and all leading dimensions; missing: `beta` other than zero and one,
where the code is wrong, and leading dimensions that are not multiples of the vector size when the aligned version is
chosen). -/
theorem C105_csr_partial (md : Mode) (kmax m n nnz : ℕ) (row col : Arr ℕ) (dat : Arr K) (jN : ℕ → ℕ) (jK : ℕ → K)
    (hT : Trip m n nnz row col dat) (hs : SortedRows row nnz) (bs : ℕ) (x : Arr K) (ldx : ℕ) (beta : K) (y : Arr K)
    (ldy : ℕ) (h : BlockCase md m n bs x ldx beta y ldy) :
    Ok (do let A ← csrInit kmax m nnz row col dat jN jK
           withBeta2 m bs beta ldy (fun y => csrMM exactOps md bs A x ldx y ldy) y)
      (IsSpmm m bs nnz row col dat x ldx beta ldy y) := by
  simp only [Ok_bind, withBeta2]
  refine (csrInit_ok kmax m n nnz row col dat jN jK hT h.hm).mono ?_
  rintro A ⟨a1, a2, a3, a4, a5, a6, a7, a8, _⟩
  refine (initY2_ok m bs beta h.hbeta ldy h.hbs y h.hy).mono ?_
  intro w hw
  refine (csrMM_ok good_exact md bs A m n nnz row col dat hT hs a1 a6 a3 a4 a7 a8 x ldx w ldy h.hmd h.hbs h.hx
    (h.hy.of_len hw.1) (by simp [blockSize])).mono ?_
  intro z hz
  exact (hw.trans hz).congr (fun i hi k hk => by rw [hw.2.1 i hi k hk])

/-- C105, COO: any order of the triples.  Partial as for CSR. -/
theorem C105_coo_partial (md : Mode) (kmax m n nnz : ℕ) (row col : Arr ℕ) (dat : Arr K) (jN : ℕ → ℕ) (jK : ℕ → K)
    (hT : Trip m n nnz row col dat) (bs : ℕ) (x : Arr K) (ldx : ℕ) (beta : K) (y : Arr K) (ldy : ℕ)
    (h : BlockCase md m n bs x ldx beta y ldy) :
    Ok (do let A ← cooInit kmax m nnz row col dat jN jK
           withBeta2 m bs beta ldy (fun y => cooMM exactOps md bs A x ldx y ldy) y)
      (IsSpmm m bs nnz row col dat x ldx beta ldy y) := by
  simp only [Ok_bind, withBeta2]
  refine (cooInit_ok kmax m n nnz row col dat jN jK hT h.hm).mono ?_
  rintro A ⟨a1, a2, a3, a4, a5, a6, a7, a8, a9, _⟩
  refine (initY2_ok m bs beta h.hbeta ldy h.hbs y h.hy).mono ?_
  intro w hw
  have hT' : Trip m n A.nnz A.row A.col A.dat := by
    rw [a2]
    exact ⟨by omega, by omega, by omega, fun t ht => by rw [a7 t ht]; exact hT.rlt t ht,
      fun t ht => by rw [a8 t ht]; exact hT.clt t ht⟩
  refine (cooMM_ok good_exact md bs A m n hT' x ldx w ldy h.hmd h.hbs h.hx
    (h.hy.of_len hw.1) (by simp [blockSize])).mono ?_
  intro z hz
  refine (hw.trans hz).congr (fun i hi k hk => ?_)
  rw [hw.2.1 i hi k hk]
  congr 1
  unfold blockDot
  rw [a2]
  refine Finset.sum_congr rfl (fun t ht => ?_)
  have ht := Finset.mem_range.1 ht
  rw [a7 t ht, a8 t ht, a9 t ht]

/-- C105, ELL.  Partial as for CSR. -/
theorem C105_ell_partial (md : Mode) (kmax m n nnz : ℕ) (row col : Arr ℕ) (dat : Arr K) (hnz : 0 < nnz)
    (hT : Trip m n nnz row col dat) (hs : SortedRows row nnz) (bs : ℕ) (x : Arr K) (ldx : ℕ) (beta : K) (y : Arr K)
    (ldy : ℕ) (h : BlockCase md m n bs x ldx beta y ldy) :
    Ok (do let A ← ellInit kmax m nnz row col dat
           withBeta2 m bs beta ldy (fun y => ellMM exactOps md bs A x ldx y ldy) y)
      (IsSpmm m bs nnz row col dat x ldx beta ldy y) := by
  simp only [Ok_bind, withBeta2]
  refine (ellInit_ok kmax m n nnz row col dat hT hs hnz).mono ?_
  rintro A ⟨a1, a2, a3, _⟩
  refine (initY2_ok m bs beta h.hbeta ldy h.hbs y h.hy).mono ?_
  intro w hw
  refine (ellMM_ok good_exact md bs A m n nnz row col dat a1 a3 x ldx w ldy h.hmd h.hbs h.hx
    (h.hy.of_len hw.1) (by simp [blockSize])).mono ?_
  intro z hz
  exact (hw.trans hz).congr (fun i hi k hk => by rw [hw.2.1 i hi k hk])

/-- C105, HYB_ZO.  Partial as for CSR. -/
theorem C105_hyb_zo_partial (md : Mode) (kmax m n nnz : ℕ) (row col : Arr ℕ) (dat : Arr K) (jN : ℕ → ℕ) (jK : ℕ → K)
    (hT : Trip m n nnz row col dat) (hs : SortedRows row nnz) (bs : ℕ) (x : Arr K) (ldx : ℕ) (beta : K) (y : Arr K)
    (ldy : ℕ) (h : BlockCase md m n bs x ldx beta y ldy) :
    Ok (do let A ← hybInit (-1) kmax m nnz row col dat jN jK
           withBeta2 m bs beta ldy (fun y => hybMM exactOps md bs A x ldx y ldy) y)
      (IsSpmm m bs nnz row col dat x ldx beta ldy y) := by
  simp only [Ok_bind, withBeta2]
  refine (hybMM_ok md kmax m n nnz row col dat jN jK hT hs h.hm bs x ldx ldy h.hmd h.hbs h.hx).mono ?_
  intro A hA
  refine (initY2_ok m bs beta h.hbeta ldy h.hbs y h.hy).mono ?_
  intro w hw
  refine (hA w (h.hy.of_len hw.1)).mono ?_
  intro z hz
  refine (hw.trans hz).congr (fun i hi k hk => ?_)
  rw [hw.2.1 i hi k hk]
  congr 1
  rw [← Finset.sum_add_distrib, ← Finset.sum_add_distrib]
  refine Finset.sum_congr rfl (fun t _ => ?_)
  unfold cls
  by_cases c0 : dat.get t = 1
  · simp [c0]
  · by_cases c1 : dat.get t = -1
    · simp only [c0, if_false]; simp [c1]
    · simp [c0, c1]

/-- C105, CSR_ZO: the constant one or minus one times the pattern.  Missing: the other constants, where the code is
wrong, and as for CSR. -/
theorem C105_csr_zo_partial (md : Mode) (m n nnz : ℕ) (row col : Arr ℕ) (cst : K) (hc : cst = 1 ∨ cst = -1)
    (jN : ℕ → ℕ) (junk : ℕ → K) (hT : Trip m n nnz row col (Arr.mk' nnz (fun _ => cst))) (hs : SortedRows row nnz)
    (bs : ℕ) (x : Arr K) (ldx : ℕ) (beta : K) (y : Arr K) (ldy : ℕ) (h : BlockCase md m n bs x ldx beta y ldy) :
    Ok (do let A ← csrZOInit m nnz row col cst jN
           withBeta2 m bs beta ldy (fun y => csrZOMMCst exactOps (-1) md bs A x ldx y ldy junk) y)
      (IsSpmm m bs nnz row col (Arr.mk' nnz (fun _ => cst)) x ldx beta ldy y) := by
  simp only [Ok_bind, withBeta2]
  refine (csrZOInit_ok m n nnz row col _ cst jN hT h.hm).mono ?_
  rintro A ⟨a1, a2, a3, a4, a5⟩
  refine (initY2_ok m bs beta h.hbeta ldy h.hbs y h.hy).mono ?_
  intro w hw
  unfold csrZOMMCst
  rw [a3]
  have key : ∀ neg : Bool, (∀ u, zsgn neg u = cst * u) → Ok (csrZOMM exactOps neg md bs A x ldx w ldy)
      (IsSpmm m bs nnz row col (Arr.mk' nnz (fun _ => cst)) x ldx beta ldy y) := by
    intro neg hneg
    refine (csrZOMM_ok good_exact neg md bs A m n nnz row col _ hT hs a1 a4 a2 a5 x ldx w ldy h.hmd h.hbs h.hx
      (h.hy.of_len hw.1) (by simp)).mono ?_
    intro z hz
    refine (hw.trans hz).congr (fun i hi k hk => ?_)
    rw [hw.2.1 i hi k hk]
    simp only [hneg]
    rfl
  by_cases h1 : cst = 1
  · rw [if_pos h1]; exact key false (fun u => by simp [zsgn, h1])
  · have h2 : cst = -1 := by tauto
    rw [if_neg h1, if_pos h2]; exact key true (fun u => by simp [zsgn, h2])

/-- C105, COO_ZO, `fspmm_one` and `fspmm_mone`: plus or minus the pattern. -/
theorem C105_coo_zo_partial (neg : Bool) (md : Mode) (kmax m n nnz : ℕ) (row col : Arr ℕ) (dat : Arr K) (jN : ℕ → ℕ)
    (jK : ℕ → K) (hT : Trip m n nnz row col dat) (bs : ℕ) (x : Arr K) (ldx : ℕ) (beta : K) (y : Arr K) (ldy : ℕ)
    (h : BlockCase md m n bs x ldx beta y ldy) :
    Ok (do let A ← cooInit kmax m nnz row col dat jN jK
           withBeta2 m bs beta ldy (fun y => cooZOMM exactOps neg md bs A x ldx y ldy) y)
      (IsSpmm m bs nnz row col (Arr.mk' nnz (fun _ => if neg then -1 else 1)) x ldx beta ldy y) := by
  simp only [Ok_bind, withBeta2]
  refine (cooInit_ok kmax m n nnz row col dat jN jK hT h.hm).mono ?_
  rintro A ⟨a1, a2, a3, a4, a5, a6, a7, a8, a9, _⟩
  refine (initY2_ok m bs beta h.hbeta ldy h.hbs y h.hy).mono ?_
  intro w hw
  have hT' : Trip m n A.nnz A.row A.col A.dat := by
    rw [a2]
    exact ⟨by omega, by omega, by omega, fun t ht => by rw [a7 t ht]; exact hT.rlt t ht,
      fun t ht => by rw [a8 t ht]; exact hT.clt t ht⟩
  refine (cooZOMM_ok good_exact neg md bs A m n hT' x ldx w ldy h.hmd h.hbs h.hx
    (h.hy.of_len hw.1) (by simp)).mono ?_
  intro z hz
  refine (hw.trans hz).congr (fun i hi k hk => ?_)
  rw [hw.2.1 i hi k hk]
  congr 1
  unfold blockDot
  rw [a2]
  refine Finset.sum_congr rfl (fun t ht => ?_)
  have ht := Finset.mem_range.1 ht
  rw [a7 t ht, a8 t ht]
  cases neg <;> simp [zsgn, Arr.mk']

/-- What the dispatch chooses suits all leading dimensions, except that the aligned version needs multiples of the
vector size. -/
lemma pick_suits (simd two : Bool) (v : ℕ) (hv : 0 < v) (ax ay : Bool) (bs ldx ldy : ℕ)
    (h : ax = true → ay = true → bs % v = 0 → v ∣ ldx ∧ v ∣ ldy) : Suits (pick simd two v ax ay bs) ldx ldy := by
  unfold pick
  cases simd
  · trivial
  · refine ⟨hv, fun ha => ?_⟩
    simp only [Bool.and_eq_true, decide_eq_true_eq] at ha
    exact h ha.1.2 ha.1.1 ha.2

end exact

/-! The matrix of `exTrip` times a block of two columns with leading dimension 3, result with leading dimension 4. -/
def exX2 : Arr ℤ := Arr.ofList [10, 1, 77, 20, 2, 77, 30, 3]
def exY2 : Arr ℤ := Arr.ofList [1, 2, 88, 88, 3, 4, 88, 88, 5, 6]

lemma exBlock (md : Mode) (h : Suits md 3 4) (beta : ℤ) (hb : beta = 0 ∨ beta = 1) :
    BlockCase md 3 3 2 exX2 3 beta exY2 4 :=
  ⟨by norm_num, hb, by norm_num, by unfold Fits; decide, by unfold Fits; decide, h⟩

/-- Non-vacuity: unrolled by four, and with vectors of two elements, unaligned. -/
example : BlockCase .scal4 3 3 2 exX2 3 1 exY2 4 := exBlock .scal4 trivial _ (Or.inr rfl)
example : BlockCase (pick true true 2 false true 2) 3 3 2 exX2 3 0 exY2 4 :=
  exBlock _ (pick_suits _ _ _ (by norm_num) _ _ _ _ _ (by simp)) _ (Or.inl rfl)
example : out (do let A ← csrInit 9 3 5 exRow exCol exDat (fun _ => 7) (fun _ => 7)
                  withBeta2 3 2 1 4 (fun y => csrMM exactOps .scal4 2 A exX2 3 y 4) exY2) =
    .ok [-9, 1, 88, 88, 3, 4, 88, 88, 175, 23] := by decide +kernel
example : out (do let A ← cooInit 9 3 5 exRow exCol exDat (fun _ => 7) (fun _ => 7)
                  withBeta2 3 2 0 4 (fun y => cooMM exactOps (pick true true 2 false true 2) 2 A exX2 3 y 4) exY2) =
    .ok [-10, -1, 88, 88, 0, 0, 88, 88, 170, 17] := by decide +kernel
example : out (do let A ← ellInit 9 3 5 exRow exCol exDat
                  withBeta2 3 2 1 4 (fun y => ellMM exactOps (.vec false 1 true) 2 A exX2 3 y 4) exY2) =
    .ok [-9, 1, 88, 88, 3, 4, 88, 88, 175, 23] := by decide +kernel
example : out (do let A ← hybInit (-1) 9 3 5 exRow exCol exDat (fun _ => 7) (fun _ => 7)
                  withBeta2 3 2 1 4 (fun y => hybMM exactOps .scal4 2 A exX2 3 y 4) exY2) =
    .ok [-9, 1, 88, 88, 3, 4, 88, 88, 175, 23] := by decide +kernel
example : blockDot 5 exRow exCol exDat exX2 3 2 1 = 17 := by decide +kernel

/-- C105 is violated for `beta` other than zero and one: the block is scaled with leading dimension 1 instead of `ldy`.
The zero matrix-like 2x1 pattern (one entry `0`), `beta = 2`, `Y = [1 2; 3 4]`: the code gives `[2 8; 6 4]`. -/
theorem C105_beta_violated :
    out (do let A ← csrInit 9 2 1 (Arr.ofList [0]) (Arr.ofList [0]) (Arr.ofList [0]) (fun _ => 0) (fun _ => 0)
            withBeta2 2 2 2 2 (fun y => csrMM exactOps .scal4 2 A (Arr.ofList [0, 0]) 2 y 2) (Arr.ofList [1, 2, 3, 4])) =
      .ok [2, 8, 6, 4] ∧
    (∀ i < 2, ∀ k < 2, (2 : ℤ) * (Arr.ofList [1, 2, 3, 4] : Arr ℤ).get (i * 2 + k) +
      blockDot 1 (Arr.ofList [0]) (Arr.ofList [0]) (Arr.ofList [0]) (Arr.ofList [0, 0]) 2 i k =
        (Arr.ofList [2, 4, 6, 8] : Arr ℤ).get (i * 2 + k)) := by decide +kernel

/-- C105 is violated for a zero-one matrix with another constant: the 1x1 matrix `[2]` times `[1]` gives `1`; with two
rows and one column the scaling reads a second row of `x`, which does not exist. -/
theorem C105_constant_violated :
    out (do let A ← csrZOInit 1 1 (Arr.ofList [0]) (Arr.ofList [0]) (2 : ℤ) (fun _ => 0)
            csrZOMMCst exactOps (-1) .scal4 1 A (Arr.ofList [1]) 1 (Arr.ofList [0]) 1 (fun _ => 0)) = .ok [1] ∧
    out (do let A ← csrZOInit 2 1 (Arr.ofList [0]) (Arr.ofList [0]) (2 : ℤ) (fun _ => 0)
            csrZOMMCst exactOps (-1) .scal4 1 A (Arr.ofList [1]) 1 (Arr.ofList [0, 0]) 1 (fun _ => 0)) =
      .error .oob := by decide +kernel

/-- C105 is violated for leading dimensions that are not multiples of the vector size: with aligned pointers and a
number of columns that is a multiple, the aligned version is chosen, and the second row is not aligned. -/
theorem C105_alignment_violated :
    out (do let A ← csrInit 9 1 1 (Arr.ofList [0]) (Arr.ofList [1]) (Arr.ofList [1]) (fun _ => 0) (fun _ => 0)
            csrMM exactOps (pick true true 2 true true 2) 2 A (Arr.ofList [1, 2, 0, 3, 4, 0]) 3 (Arr.ofList [0, 0]) 3) =
      .error .oob ∧
    out (do let A ← csrInit 9 1 1 (Arr.ofList [0]) (Arr.ofList [1]) (Arr.ofList [1]) (fun _ => 0) (fun _ => 0)
            csrMM exactOps (pick true true 2 false true 2) 2 A (Arr.ofList [1, 2, 0, 3, 4, 0]) 3 (Arr.ofList [0, 0]) 3) =
      .ok [3, 4] := by decide +kernel

/-- C105 is violated by all three versions for CSR_HYB.  Generic: the value is looked up by the number of the dense
column, so the 1x1 matrix `[2]` times `[1 1]` reads past the end of the values.  Unparametric: the value is looked up by the
absolute number of the entry, so the row `[1, 2]` reads past the end.  SIMD: the second operand is read from `y`, so
`[1]` times `[5 6]` (two columns, vectors of two) added to zero gives zero. -/
theorem C105_csr_hyb_violated :
    out (do let A ← csrHybInit id 2 1 1 (Arr.ofList [0]) (Arr.ofList [0]) (Arr.ofList [2]) (fun _ => 0) (fun _ => 0)
            csrHybMM exactOps .generic 2 A (Arr.ofList [1, 1]) 2 (Arr.ofList [0, 0]) 2) = .error .oob ∧
    out (do let A ← csrHybInit id 2 1 2 (Arr.ofList [0, 0]) (Arr.ofList [0, 1]) (Arr.ofList [1, 2]) (fun _ => 0)
              (fun _ => 0)
            csrHybMM exactOps .unparam 1 A (Arr.ofList [1, 1]) 1 (Arr.ofList [0]) 1) = .error .oob ∧
    out (do let A ← csrHybInit id 2 1 1 (Arr.ofList [0]) (Arr.ofList [0]) (Arr.ofList [1]) (fun _ => 0) (fun _ => 0)
            csrHybMM exactOps (.simd 2) 2 A (Arr.ofList [5, 6]) 2 (Arr.ofList [0, 0]) 2) = .ok [0, 0] := by
  decide +kernel

/-! ## C106: delayed reductions -/

/-- Hypotheses common to the C106 theorems, as in `DelayedCase`. -/
structure DelayedBlock (sizeMax : ℕ) (balanced : Bool) (p prec kmax : ℕ) (md : Mode) (m n nnz bs : ℕ) (dat x : Arr ℤ)
    (ldx : ℕ) (y : Arr ℤ) (ldy : ℕ) : Prop where
  case : DelayedCase sizeMax balanced p prec kmax 0 0 nnz dat x y
  hxR : ∀ c < n, ∀ k < bs, Reduced balanced p (x.get (c * ldx + k))
  hyR : ∀ i < m, ∀ k < bs, Reduced balanced p (y.get (i * ldy + k))
  hm : 0 < m
  hbs : bs ≤ ldy
  hx : Fits n bs ldx x
  hy : Fits m bs ldy y
  hmd : Suits md ldx ldy

/-- The entries of the block are reduced and are those of `Y + A X` modulo `p`; nothing else changed. -/
def IsModSpmm (balanced : Bool) (p m bs nnz : ℕ) (row col : Arr ℕ) (dat x : Arr ℤ) (ldx : ℕ) (y : Arr ℤ) (ldy : ℕ)
    (z : Arr ℤ) : Prop :=
  z.len = y.len ∧ (∀ i < m, ∀ k < bs, Reduced balanced p (z.get (i * ldy + k)) ∧
    z.get (i * ldy + k) ≡ y.get (i * ldy + k) + blockDot nnz row col dat x ldx i k [ZMOD p]) ∧
    ∀ q, (∀ i < m, ∀ k < bs, q ≠ i * ldy + k) → z.get q = y.get q

section mod
variable {sizeMax : ℕ} {balanced : Bool} {p prec kmax : ℕ} {md : Mode} {m n nnz bs : ℕ} {dat x : Arr ℤ}
  {ldx : ℕ} {y : Arr ℤ} {ldy : ℕ}

lemma DelayedBlock.y_le (h : DelayedBlock sizeMax balanced p prec kmax md m n nnz bs dat x ldx y ldy) (i : ℕ)
    (hi : i < m) (k : ℕ) (hk : k < bs) : (y.get (i * ldy + k)).natAbs ≤ cInt balanced p := by
  have := (h.hyR i hi k hk).abs_le (by have := h.case.hp; omega)
  rw [Int.abs_eq_natAbs] at this
  exact_mod_cast this

lemma DelayedBlock.prod_le (h : DelayedBlock sizeMax balanced p prec kmax md m n nnz bs dat x ldx y ldy) (t c : ℕ)
    (ht : t < nnz) (hc : c < n) (k : ℕ) (hk : k < bs) :
    (dat.get t * x.get (c * ldx + k)).natAbs ≤ cInt balanced p * cInt balanced p := by
  have h1 := (h.case.hdat t ht).abs_le (by have := h.case.hp; omega)
  have h2 := (h.hxR c hc k hk).abs_le (by have := h.case.hp; omega)
  rw [Int.abs_eq_natAbs] at h1 h2
  rw [Int.natAbs_mul]
  exact Nat.mul_le_mul (by exact_mod_cast h1) (by exact_mod_cast h2)

lemma isModSpmm_of {row col : Arr ℕ} {z : Arr ℤ} (hp : 0 < p) (hodd : balanced = true → p % 2 = 1)
    (h : IsBlock m bs ldy (fun i k => (fieldOf balanced p prec).red
      (y.get (i * ldy + k) + blockDot nnz row col dat x ldx i k)) y z) :
    IsModSpmm balanced p m bs nnz row col dat x ldx y ldy z := by
  refine ⟨h.1, fun i hi k hk => ?_, h.2.2⟩
  rw [h.2.1 i hi k hk]
  exact ⟨fieldOf_red_reduced _ _ _ hp hodd _, FpField.red_modEq _ _⟩

lemma DelayedBlock.size_le (h : DelayedBlock sizeMax balanced p prec kmax md m n nnz bs dat x ldx y ldy)
    {row col : Arr ℕ} (hT : Trip m n nnz row col dat) (hd : ∀ i < m, cnt row nnz i < kmax) (i : ℕ) (hi : i < m) (k : ℕ)
    (hk : k < bs) :
    (y.get (i * ldy + k)).natAbs + blockSize Int.natAbs nnz row col dat x ldx i k ≤ 2 ^ prec := by
  have hroom := h.case.room
  have h1 := h.y_le i hi k hk
  have h2 : blockSize Int.natAbs nnz row col dat x ldx i k ≤ cnt row nnz i * (cInt balanced p * cInt balanced p) := by
    unfold blockSize cnt
    rw [Finset.sum_mul]
    refine Finset.sum_le_sum (fun t ht => ?_)
    have ht := Finset.mem_range.1 ht
    split_ifs
    · rw [one_mul]; exact h.prod_le t _ ht (hT.clt t ht) k hk
    · omega
  have h3 := Nat.mul_le_mul_right (cInt balanced p * cInt balanced p) (hd i hi).le
  omega

/-- C106, CSR: whether or not the reduction is delayed to the end, no intermediate value is too large to be exact, and
the block is reduced and correct modulo `p`. -/
theorem C106_csr (row col : Arr ℕ) (jN : ℕ → ℕ) (jK : ℕ → ℤ) (hT : Trip m n nnz row col dat) (hs : SortedRows row nnz)
    (hD : DelayedBlock sizeMax balanced p prec kmax md m n nnz bs dat x ldx y ldy) :
    Ok (do let A ← csrInit kmax m nnz row col dat jN jK
           csrMMMod (fieldOf balanced p prec) md bs A x ldx y ldy)
      (IsModSpmm balanced p m bs nnz row col dat x ldx y ldy) := by
  simp only [Ok_bind]
  refine (csrInit_ok kmax m n nnz row col dat jN jK hT hD.hm).mono ?_
  rintro A ⟨a1, a2, a3, a4, a5, a6, a7, a8, a9⟩
  have hp : 0 < p := by have := hD.case.hp; omega
  unfold csrMMMod
  by_cases hd : A.delayed = true
  · rw [if_pos hd]
    simp only [Ok_bind]
    refine (csrMM_ok (good_mach prec) md bs A m n nnz row col dat hT hs a1 a6 a3 a4 a7 a8 x ldx y ldy hD.hmd hD.hbs hD.hx
      hD.hy (hD.size_le hT (a9 hd))).mono ?_
    intro w hw
    rw [a1]
    refine (reduceBlock_ok (fieldOf balanced p prec) m bs ldy hD.hbs w (hD.hy.of_len hw.1)).mono ?_
    intro z hz
    exact isModSpmm_of hp hD.case.hodd ((hw.trans hz).congr (fun i hi k hk => by rw [hw.2.1 i hi k hk]))
  · rw [if_neg hd]
    unfold csrMMK
    rw [a1, a5]
    have hin : ∀ i < m, ∀ j < cnt row nnz i, cntLt row nnz i + j < nnz := by
      intro i hi j hj
      have := cntLt_succ row nnz i
      have := cntLt_le row nnz (i + 1)
      omega
    refine (rowsMMK_ok (fieldOf balanced p prec) kmax (by have := hD.case.hk; omega) _ _
      (fieldOf_red_abs balanced p prec hp hD.case.hodd) hD.case.room md bs m (csrBounds A.st) (cntLt row nnz)
      (cnt row nnz) (csrBounds_ok m nnz row A.st a6) _ (fun t k => dat.get t * x.get (col.get t * ldx + k)) x ldx y ldy
      hD.hbs ?_ (fun i hi j hj k hk => hD.prod_le _ _ (hin i hi j hj) (hT.clt _ (hin i hi j hj)) k hk) hD.hy
      hD.y_le).mono ?_
    · intro i hi j hj
      have ht := hin i hi j hj
      have := entVal_spec (good_mach prec) hD.hmd bs x A.dat A.col (cntLt row nnz i + j) i n (by omega) (by omega)
        (by rw [a7 _ ht]; exact hT.clt _ ht) hD.hx
      rw [a7 _ ht, a8 _ ht] at this
      exact this
    · intro z hz
      refine isModSpmm_of (prec := prec) hp hD.case.hodd (hz.congr (fun i hi k hk => ?_))
      rw [sum_row row nnz i hs (fun t => dat.get t * x.get (col.get t * ldx + k))]
      rfl

/-- C106, ELL: as for CSR. -/
theorem C106_ell (row col : Arr ℕ) (hnz : 0 < nnz) (hT : Trip m n nnz row col dat) (hs : SortedRows row nnz)
    (hD : DelayedBlock sizeMax balanced p prec kmax md m n nnz bs dat x ldx y ldy) :
    Ok (do let A ← ellInit kmax m nnz row col dat
           ellMMMod (fieldOf balanced p prec) md bs A x ldx y ldy)
      (IsModSpmm balanced p m bs nnz row col dat x ldx y ldy) := by
  simp only [Ok_bind]
  refine (ellInit_ok kmax m n nnz row col dat hT hs hnz).mono ?_
  rintro A ⟨a1, a2, a3, a4, _⟩
  have hp : 0 < p := by have := hD.case.hp; omega
  have hroom := hD.case.room
  have hV : ∀ i < m, ∀ j < A.ld, ∀ k < bs,
      (A.dat.get (i * A.ld + j) * x.get (A.col.get (i * A.ld + j) * ldx + k)).natAbs ≤
      cInt balanced p * cInt balanced p := by
    intro i hi j hj k hk
    have h1 := a3.sum ℕ (fun c d => if (d * x.get (c * ldx + k)).natAbs ≤ cInt balanced p * cInt balanced p then 0
      else 1) (by simp) i hi
    have h2 : ∑ t ∈ range nnz, (if row.get t = i then (if (dat.get t * x.get (col.get t * ldx + k)).natAbs ≤
        cInt balanced p * cInt balanced p then 0 else 1) else 0) = 0 :=
      Finset.sum_eq_zero (fun t ht => by
        have ht := Finset.mem_range.1 ht
        rw [if_pos (hD.prod_le t _ ht (hT.clt t ht) k hk)]; simp)
    rw [h2] at h1
    have h3 := Finset.sum_eq_zero_iff.1 h1 j (Finset.mem_range.2 hj)
    by_contra hc
    simp [hc] at h3
  unfold ellMMMod
  by_cases hd : A.delayed = true
  · rw [if_pos hd]
    simp only [Ok_bind]
    have hB : ∀ i < m, ∀ k < bs,
        (y.get (i * ldy + k)).natAbs + blockSize Int.natAbs nnz row col dat x ldx i k ≤ 2 ^ prec := by
      intro i hi k hk
      have h1 := hD.y_le i hi k hk
      have h2 := a3.sum ℕ (fun c d => (d * x.get (c * ldx + k)).natAbs) (by simp) i hi
      have h4 : ∑ j ∈ range A.ld, (A.dat.get (i * A.ld + j) * x.get (A.col.get (i * A.ld + j) * ldx + k)).natAbs ≤
          A.ld * (cInt balanced p * cInt balanced p) := by
        have := Finset.sum_le_card_nsmul (range A.ld) _ _ (fun j hj => hV i hi j (Finset.mem_range.1 hj) k hk)
        simpa using this
      have h3 := Nat.mul_le_mul_right (cInt balanced p * cInt balanced p) (a4 hd).le
      unfold blockSize
      rw [← h2]
      omega
    refine (ellMM_ok (good_mach prec) md bs A m n nnz row col dat a1 a3 x ldx y ldy hD.hmd hD.hbs hD.hx hD.hy hB).mono ?_
    intro w hw
    rw [a1]
    refine (reduceBlock_ok (fieldOf balanced p prec) m bs ldy hD.hbs w (hD.hy.of_len hw.1)).mono ?_
    intro z hz
    exact isModSpmm_of hp hD.case.hodd ((hw.trans hz).congr (fun i hi k hk => by rw [hw.2.1 i hi k hk]))
  · rw [if_neg hd]
    unfold ellMMK
    rw [a1, a2]
    refine (rowsMMK_ok (fieldOf balanced p prec) kmax (by have := hD.case.hk; omega) _ _
      (fieldOf_red_abs balanced p prec hp hD.case.hodd) hroom md bs m _ (fun i => i * A.ld) (fun _ => A.ld)
      (fun _ _ => rfl) _ (fun q k => A.dat.get q * x.get (A.col.get q * ldx + k)) x ldx y ldy hD.hbs
      (fun i hi j hj => ellEnt (good_mach prec) hD.hmd bs m n nnz A row col dat a3 x hD.hx i hi j hj) hV hD.hy
      hD.y_le).mono ?_
    intro z hz
    refine isModSpmm_of (prec := prec) hp hD.case.hodd (hz.congr (fun i hi k hk => ?_))
    rw [a3.sum ℤ (fun c d => d * x.get (c * ldx + k)) (by simp) i hi]
    rfl

/-- C106, COO (full statement: as for CSR).  Proved when the construction chooses `delayed`; missing: the other case,
where the code does nothing (`C106_coo_violated`). -/
theorem C106_coo_delayed_partial (row col : Arr ℕ) (jN : ℕ → ℕ) (jK : ℕ → ℤ) (hT : Trip m n nnz row col dat)
    (hD : DelayedBlock sizeMax balanced p prec kmax md m n nnz bs dat x ldx y ldy) :
    Ok (cooInit kmax m nnz row col dat jN jK) (fun A => A.delayed = true →
      Ok (cooMMMod (fieldOf balanced p prec) md bs A x ldx y ldy)
        (IsModSpmm balanced p m bs nnz row col dat x ldx y ldy)) := by
  refine (cooInit_ok kmax m n nnz row col dat jN jK hT hD.hm).mono ?_
  rintro A ⟨a1, a2, a3, a4, a5, a6, a7, a8, a9, a10⟩ hd
  have hp : 0 < p := by have := hD.case.hp; omega
  unfold cooMMMod
  rw [if_pos hd]
  simp only [Ok_bind]
  have hT' : Trip m n A.nnz A.row A.col A.dat := by
    rw [a2]
    exact ⟨by omega, by omega, by omega, fun t ht => by rw [a7 t ht]; exact hT.rlt t ht,
      fun t ht => by rw [a8 t ht]; exact hT.clt t ht⟩
  have hdot : ∀ i k, blockDot A.nnz A.row A.col A.dat x ldx i k = blockDot nnz row col dat x ldx i k := by
    intro i k
    unfold blockDot
    rw [a2]
    refine Finset.sum_congr rfl (fun t ht => ?_)
    have ht := Finset.mem_range.1 ht
    rw [a7 t ht, a8 t ht, a9 t ht]
  have hsz : ∀ i k, blockSize Int.natAbs A.nnz A.row A.col A.dat x ldx i k =
      blockSize Int.natAbs nnz row col dat x ldx i k := by
    intro i k
    unfold blockSize
    rw [a2]
    refine Finset.sum_congr rfl (fun t ht => ?_)
    have ht := Finset.mem_range.1 ht
    rw [a7 t ht, a8 t ht, a9 t ht]
  refine (cooMM_ok (good_mach prec) md bs A m n hT' x ldx y ldy hD.hmd hD.hbs hD.hx hD.hy
    (fun i hi k hk => by rw [hsz]; exact hD.size_le hT (a10 hd) i hi k hk)).mono ?_
  intro w hw
  rw [a1]
  refine (reduceBlock_ok (fieldOf balanced p prec) m bs ldy hD.hbs w (hD.hy.of_len hw.1)).mono ?_
  intro z hz
  exact isModSpmm_of hp hD.case.hodd ((hw.trans hz).congr (fun i hi k hk => by rw [hw.2.1 i hi k hk]; dsimp only; rw [hdot]))

end mod

/-! One row with three entries `2896` over `Modular<float>(2897)`, where two products may be accumulated; `X` has two
columns. -/
def dX : Arr ℤ := Arr.ofList [2896, 1, 0, 2896, 2, 0, 2896, 3, 0]
def dY : Arr ℤ := Arr.ofList [5, 2896]
def dDat : Arr ℤ := Arr.ofList [2896, 2896, 2896]
def dRow : Arr ℕ := Arr.ofList [0, 0, 0]
def dCol : Arr ℕ := Arr.ofList [0, 1, 2]

lemma dCase : DelayedBlock 0 false 2897 24 2 .scal4 1 3 3 2 dDat dX 3 dY 2 where
  case := ⟨by norm_num, by norm_num, by norm_num, by simp, by norm_num, bound_2897, by unfold Reduced; decide, by simp, by simp⟩
  hxR := by unfold Reduced; decide
  hyR := by unfold Reduced; decide
  hm := by norm_num
  hbs := by norm_num
  hx := by unfold Fits; decide
  hy := by unfold Fits; decide
  hmd := trivial

/-- Non-vacuity, and the computed results: `5 + 3*1 = 8` and `-1 - (1 + 2 + 3) = -7 = 2890`. -/
example : out (do let A ← csrInit 2 1 3 dRow dCol dDat (fun _ => 7) (fun _ => 7)
                  csrMMMod (fieldOf false 2897 24) .scal4 2 A dX 3 dY 2) = .ok [8, 2890] := by decide +kernel
example : out (do let A ← ellInit 2 1 3 dRow dCol dDat
                  ellMMMod (fieldOf false 2897 24) (.vec true 2 false) 2 A dX 3 dY 2) = .ok [8, 2890] := by
  decide +kernel

/-- C106 is violated for COO when the reduction is not delayed: the version with `kmax` has an empty body, so `Y` is
returned unchanged. -/
theorem C106_coo_violated :
    out (do let A ← cooInit 2 1 3 dRow dCol dDat (fun _ => 7) (fun _ => 7)
            cooMMMod (fieldOf false 2897 24) .scal4 2 A dX 3 dY 2) = .ok [5, 2896] ∧
    (dY.get 0 + blockDot 3 dRow dCol dDat dX 3 0 0) % 2897 = 8 := by decide +kernel

/-- C106 is violated for zero-one matrices: the reduction is called with the dimensions exchanged.  Three rows, two
columns, modulo 7: the last entry of the third row is left unreduced (`12`); with one row and two columns of leading dimension two
the reduction runs past the end of `Y`. -/
theorem C106_zo_violated :
    out (do let A ← csrZOInit 3 3 (Arr.ofList [0, 1, 2]) (Arr.ofList [0, 0, 0]) (1 : ℤ) (fun _ => 0)
            csrZOMMMod (fieldOf false 7 24) (-1) .scal4 2 A (Arr.ofList [6, 6]) 2 (Arr.ofList [6, 6, 6, 6, 6, 6]) 2
              (fun _ => 0)) = .ok [5, 5, 5, 5, 5, 12] ∧
    out (do let A ← csrZOInit 1 1 (Arr.ofList [0]) (Arr.ofList [0]) (1 : ℤ) (fun _ => 0)
            csrZOMMMod (fieldOf false 7 24) (-1) .scal4 2 A (Arr.ofList [6, 6]) 2 (Arr.ofList [6, 6]) 2
              (fun _ => 0)) = .error .oob := by decide +kernel

end Verif.Props
