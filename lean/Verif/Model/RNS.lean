import Verif.Model.Reduce
import Verif.Model.LazyGemm
import Mathlib.Data.Nat.Size
import Mathlib.Data.ZMod.Basic

/-!
# Residue number systems (`rns_double`)

Model of `/repo/fflas-ffpack/field/rns-double.h`, `rns-double.inl`.  Residues and digits are `double`s holding
integers; products and sums computed by `fgemm`/`fgemv` over `ZRing<double>` may be evaluated in any order
(`SumTree`), and the fault `inexact` marks a value that is not exactly representable.
Simplification: GMP integers are ℤ, their little-endian 16-bit words are the digits of the absolute value; limbs have
64 bits.
-/

namespace Verif.RNS
open Verif Verif.FP Verif.Reduce Verif.Lazy

/-- `x.bitsize()/16 + (x.bitsize()%16 ? 1 : 0)` (rns-double.h:139, 207; rns-integer.h:119). -/
def words (x : ℕ) : ℕ := Nat.size x / 16 + (if Nat.size x % 16 ≠ 0 then 1 else 0)

/-- `x.size()*sizeof(mp_limb_t)/2`: number of 16-bit words in the limbs of `x` (rns-double.h:166, rns-double.inl:71). -/
def limbWords (x : ℕ) : ℕ := (Nat.size x + 63) / 64 * 8 / 2

/-- `m0_ptr[l]`: the `l`-th 16-bit word of the absolute value. -/
def word (x l : ℕ) : ℕ := x / 2 ^ (16 * l) % 2 ^ 16

/-- `Modular<double>::invin`; the inverse of a non-invertible residue is undefined: fault. -/
def modInv (a m : ℕ) : Except Fault ℕ := if Nat.gcd a m = 1 then .ok ((a : ZMod m)⁻¹).val else .error .divZero

/-- Fields of `rns_double` (rns-double.h:60-73). -/
structure Rns where
  size : ℕ
  basis : ℕ → ℕ
  M : ℕ
  ldm : ℕ
  Mi : Arr ℕ
  MMi : Arr ℕ
  crtIn : Arr ℤ
  crtOut : Arr ℤ

/-- `_M`, the product of the moduli (rns-double.h:117, 126). -/
def prodM (size : ℕ) (basis : ℕ → ℕ) : ℕ := ∏ i ∈ Finset.range size, basis i

/-- `precompute_cst()` (rns-double.h:135-203).  The product `acc*2^16` of `mulin` is exact for the moduli considered. -/
def precompute (size : ℕ) (basis : ℕ → ℕ) (junkN : ℕ → ℕ) (junkZ : ℕ → ℤ) : Except Fault Rns := do
  let M := prodM size basis
  let ldm := words M
  let Mi ← iter size (fun i (A : Arr ℕ) => do
    let x ← (if basis i = 0 then .error .divZero else .ok (M / basis i))
    A.wr i x) (Arr.mk' size junkN)
  let MMi ← iter size (fun i (A : Arr ℕ) => do
    let x ← (do let mi ← Mi.rd i; modInv (mi % basis i) (basis i))
    A.wr i x) (Arr.mk' size junkN)
  let crtOut ← iter size (fun i (A : Arr ℤ) => do
    let mi ← Mi.rd i
    let mmi ← MMi.rd i
    let tmp := mi * mmi
    let maxs := min ldm (limbWords tmp)
    iter ldm (fun l (A : Arr ℤ) => A.wr (l + i * ldm) (if l < maxs then (word tmp l : ℤ) else 0)) A) (Arr.mk' (size * ldm) junkZ)
  let crtIn ← iter size (fun i (A : Arr ℤ) => do
    let r ← iter ldm (fun j (s : Arr ℤ × ℕ) => do
      let A ← s.1.wr (j + i * ldm) (s.2 : ℤ)
      pure (A, s.2 * 2 ^ 16 % basis i)) (A, 1)
    pure r.1) (Arr.mk' (size * ldm) junkZ)
  pure ⟨size, basis, M, ldm, Mi, MMi, crtIn, crtOut⟩

/-- `∑ x_l y_l` by `fgemm`/`cblas_dgemm` over doubles, `beta = 0`, in the order given by the tree. -/
def dot (tree : SumTree) (x y : List ℤ) : Except Fault ℤ :=
  tree.eval 53 (fun t => match t with | none => 0 | some l => x.getD l 0 * y.getD l 0)

/-- `freduce` over `Modular<double>(m)` of an integer-valued double (the rounded reduction modelled for C35, whose
result on integers is an integer; `⌊ ⌋` only changes the type). -/
def redF (m : ℕ) (x : ℤ) : ℤ := ⌊reduceHelperF 53 m 0 (m - 1) x⌋

/-- Layout of the residues: `Arns[t*rda + idx]`, or `Arns[idx*_size + t]` when `RNS_MAJOR`. -/
def addr (rnsMajor : Bool) (size rda t idx : ℕ) : ℕ := if rnsMajor then idx * size + t else t * rda + idx

/-- The splitting loop of `init` / `init_transpose` (rns-double.inl:63-99, 162-190): the `k` digits of every entry,
signed, stored contiguously; `tr` selects `idx = i + j*m` instead of `j + i*n`.
The loops over `i` and `j` are written as one loop over `idx` (the body is the same and the iterations
are independent). -/
def split (tr : Bool) (m n k lda : ℕ) (A : Arr ℤ) (junk : ℕ → ℤ) : Except Fault (Arr ℤ) :=
  iter (m * n) (fun idx (B : Arr ℤ) => do
    let i := if tr then idx % m else idx / n
    let j := if tr then idx / m else idx % n
    let a ← A.rd (j + i * lda)
    let maxs := min k (limbWords a.natAbs)
    iter k (fun l (B : Arr ℤ) => B.wr (l + idx * k)
      (if l < maxs then (if 0 ≤ a then (word a.natAbs l : ℤ) else -(word a.natAbs l : ℤ)) else 0)) B) (Arr.mk' (m * n * k) junk)

/-- `rns_double::init` and `init_transpose` (rns-double.inl:37-143, 147-224).  `failure()` for `k > _ldm` only prints a
message (utils/debug.h:151): the computation goes on and reads outside `_crt_in`.
`sched t idx` is the summation order used for each entry. -/
def init (R : Rns) (tr rnsMajor : Bool) (m n : ℕ) (Arns : Arr ℤ) (rda : ℕ) (A : Arr ℤ) (lda k : ℕ) (junk : ℕ → ℤ)
    (sched : ℕ → ℕ → SumTree) : Except Fault (Arr ℤ) := do
  if m * n = 0 then pure Arns
  else
    let B ← split tr m n k lda A junk
    let Arns ← iter R.size (fun t (Arns : Arr ℤ) => iter (m * n) (fun idx (Arns : Arr ℤ) => do
      let x ← (do
        let c ← readRow R.crtIn (t * R.ldm) 1 k
        let b ← readRow B (idx * k) 1 k
        dot (sched t idx) c b)
      Arns.wr (addr rnsMajor R.size rda t idx) x) Arns) Arns
    -- reduce(mn, Arns, rda, RNS_MAJOR), lines 495-560
    iter R.size (fun t (Arns : Arr ℤ) => iter (m * n) (fun idx (Arns : Arr ℤ) => do
      let x ← Arns.rd (addr rnsMajor R.size rda t idx)
      Arns.wr (addr rnsMajor R.size rda t idx) (redF (R.basis t) x)) Arns) Arns

/-- Value of a buffer of 16-bit words seen as a GMP integer. -/
def bufVal (A : Arr ℕ) : ℕ := ∑ l ∈ Finset.range A.len, A.get l * 2 ^ (16 * l)

/-- The four buffers `A0..A3` of `convert`. -/
structure Bufs where
  a0 : Arr ℕ
  a1 : Arr ℕ
  a2 : Arr ℕ
  a3 : Arr ℕ

/-- One entry of the inverse Kronecker transform (rns-double.inl:278-306): the `k` doubles are split into four
16-bit words, stored with shifts in the four buffers, summed, reduced modulo `M` and centred. -/
def kroEntry (M k : ℕ) (beta : ℕ → Except Fault ℤ) (b : Bufs) : Except Fault (ℤ × Bufs) := do
  let b ← iter k (fun l (b : Bufs) => do
    let x ← beta l
    -- (uint64_t)A_beta[l]: undefined outside [0, 2^64)
    let tmp ← (if 0 ≤ x ∧ x < 2 ^ 64 then .ok x.toNat else .error .inexact)
    let a0 ← b.a0.wr l (word tmp 0)
    let a1 ← b.a1.wr (l + 1) (word tmp 1)
    let a2 ← b.a2.wr (l + 2) (word tmp 2)
    let a3 ← b.a3.wr (l + 3) (word tmp 3)
    pure (⟨a0, a1, a2, a3⟩ : Bufs)) b
  let res := bufVal b.a0 + bufVal b.a1 + bufVal b.a2 + bufVal b.a3
  let res := res % M
  let hM := (M - 1) / 2
  pure (if res > hM then (res : ℤ) - M else res, b)

/-- The update by `gamma` (rns-double.inl:308-320). -/
def applyGamma (gamma old res : ℤ) : ℤ :=
  if gamma = 0 then res
  else if gamma = 1 then old + res
  else if gamma = -1 then res - old
  else old * gamma + res

/-- `rns_double::convert` and `convert_transpose` (rns-double.inl:226-351, 353-444).  For `RNS_MAJOR`, `convert` reads the
residues of entry `idx` at `idx*_size` (line 253) but `convert_transpose` at `idx*rda` (line 372). -/
def convert (R : Rns) (tr rnsMajor : Bool) (m n : ℕ) (gamma : ℤ) (A : Arr ℤ) (lda : ℕ) (Arns : Arr ℤ) (rda : ℕ)
    (junk : ℕ → ℤ) (sched : ℕ → ℕ → SumTree) : Except Fault (Arr ℤ) := do
  if m * n = 0 then pure A
  else
    -- A_beta = Arns^T x _crt_out   (mn x _ldm)
    let B ← iter (m * n) (fun idx (B : Arr ℤ) => iter R.ldm (fun l (B : Arr ℤ) => do
      let x ← (do
        let a ← readRow Arns (if rnsMajor then idx * (if tr then rda else R.size) else idx) (if rnsMajor then 1 else rda) R.size
        let c ← readRow R.crtOut l R.ldm R.size
        dot (sched idx l) a c)
      B.wr (l + idx * R.ldm) x) B) (Arr.mk' (m * n * R.ldm) junk)
    let k := R.ldm
    let k4 := (k + 3) / 4 + (if (k + 3) % 4 = 0 then 0 else 1)
    let z : Arr ℕ := Arr.mk' (k4 * 4) (fun _ => 0)
    let r ← iter (m * n) (fun idx (s : Arr ℤ × Bufs) => do
      let i := if tr then idx % m else idx / n
      let j := if tr then idx / m else idx % n
      let rb ← kroEntry R.M k (fun l => B.rd (l + idx * k)) s.2
      let old ← s.1.rd (j + i * lda)
      let A ← s.1.wr (j + i * lda) (applyGamma gamma old rb.1)
      pure (A, rb.2)) (A, ⟨z, z, z, z⟩)
    pure r.1

/-! ## Constructors -/

/-- State of the constructor loop: moduli chosen so far, their product, `_mi_sum`, number of candidates drawn. -/
structure Build where
  basis : List ℕ
  M : ℕ
  sum : ℕ
  pos : ℕ

/-- The inner loop `do { prime = random prime } while (_M % prime == 0)` (rns-double.h:88-91): first position, from
`pos`, of a candidate that does not divide `_M`; `none` if there is none among the next `fuel`. -/
def pick (cand : ℕ → ℕ) (M : ℕ) : ℕ → ℕ → Option ℕ
  | 0, _ => none
  | fuel+1, pos => if M % cand pos = 0 then pick cand M fuel (pos + 1) else some pos

/-- The constructor `rns_double(bound, pbits, rnsmod)` up to `precompute_cst` (rns-double.h:80-97).  `cand` is the
(arbitrary) sequence of random primes drawn; at most `fuel` iterations of either loop (`none`: still running). -/
def buildBound (cand : ℕ → ℕ) (bound : ℕ) (rnsmod : Bool) (inner : ℕ) : ℕ → Build → Option Build
  | 0, b => if b.M < bound * b.sum then none else some b
  | fuel+1, b =>
    if b.M < bound * b.sum then
      match pick cand b.M inner b.pos with
      | none => none
      | some q => buildBound cand bound rnsmod inner fuel
          ⟨b.basis ++ [cand q], b.M * cand q, if rnsmod then b.sum + cand q else b.sum, q + 1⟩
    else some b

/-- The constructor `rns_double(pbits, size)` (rns-double.h:106-124): `size` random primes, without any test. -/
def buildSize (cand : ℕ → ℕ) (size : ℕ) : List ℕ := (List.range size).map cand

/-! ## Arithmetic on elements -/

/-- `_field_rns[i].add/sub/neg/mul/axpyin` of `Givaro::Modular<double>` on reduced residues (exact for products below
`2^53`). -/
def addM (m : ℕ) (a b : ℤ) : ℤ := let r := a + b; if r ≥ m then r - m else r
def subM (m : ℕ) (a b : ℤ) : ℤ := let r := a - b; if r < 0 then r + m else r
def mulM (m : ℕ) (a b : ℤ) : ℤ := (a * b) % m
def axpyM (m : ℕ) (x a b : ℤ) : ℤ := (a * b + x) % m
def negM (m : ℕ) (a : ℤ) : ℤ := if a = 0 then 0 else m - a

/-- `RNSIntegerMod::add`, `sub`, `mul` (rns-integer-mod.h:241-270): component by component, each operand a pointer
and a stride in the same memory (so aliasing is allowed). -/
def ewise (op : ℕ → ℤ → ℤ → ℤ) (size : ℕ) (basis : ℕ → ℕ) (x sx y sy z sz : ℕ) (A : Arr ℤ) : Except Fault (Arr ℤ) :=
  iter size (fun i (A : Arr ℤ) => do
    let a ← A.rd (y + i * sy)
    let b ← A.rd (z + i * sz)
    A.wr (x + i * sx) (op (basis i) a b)) A

/-- `RNSIntegerMod::axpyin` (rns-integer-mod.h:273-279). -/
def axpyin (size : ℕ) (basis : ℕ → ℕ) (x sx y sy z sz : ℕ) (A : Arr ℤ) : Except Fault (Arr ℤ) :=
  iter size (fun i (A : Arr ℤ) => do
    let v ← A.rd (x + i * sx)
    let a ← A.rd (y + i * sy)
    let b ← A.rd (z + i * sz)
    A.wr (x + i * sx) (axpyM (basis i) v a b)) A

/-- `RNSIntegerMod::neg` (rns-integer-mod.h:256-261). -/
def negE (size : ℕ) (basis : ℕ → ℕ) (x sx y sy : ℕ) (A : Arr ℤ) : Except Fault (Arr ℤ) :=
  iter size (fun i (A : Arr ℤ) => do
    let a ← A.rd (y + i * sy)
    A.wr (x + i * sx) (negM (basis i) a)) A

/-! ## Reduction modulo p inside the RNS -/

/-- The tables built by the constructor of `RNSIntegerMod` (rns-integer-mod.h:109-140). -/
structure ModTables where
  MiModp : Arr ℤ
  iMModp : Arr ℤ

def modTables (R : Rns) (p : ℕ) (junk : ℕ → ℤ) : Except Fault ModTables := do
  if p = 0 then .error .divZero
  else
    let r ← iter R.size (fun i (s : ModTables × ℕ) => do
      let mi ← R.Mi.rd i
      let Mi := mi % p
      let t ← iter R.size (fun j (t : ModTables) => do
        let iM ← t.iMModp.wr (i + j * (R.size + 1)) ((s.2 % R.basis j : ℕ) : ℤ)
        let mm ← t.MiModp.wr (i + j * R.size) ((Mi % R.basis j : ℕ) : ℤ)
        pure (⟨mm, iM⟩ : ModTables)) s.1
      pure (t, (s.2 + R.M) % p)) (⟨Arr.mk' (R.size * R.size) junk, Arr.mk' ((R.size + 1) * R.size) junk⟩, 0)
    let iM ← iter R.size (fun j (A : Arr ℤ) => A.wr (R.size + j * (R.size + 1)) ((r.2 % R.basis j : ℕ) : ℤ)) r.1.iMModp
    pure ⟨r.1.MiModp, iM⟩

/-- Floating-point sum, in the order of the tree, every operation rounded. -/
def fsum (v : Option ℕ → ℚ) : SumTree → ℚ
  | .leaf t => v t
  | .node l r => rnd 53 (fsum v l + fsum v r)

/-- `alpha[j]`: `fgemv` of the residues with `_invbasis` over doubles (rns-integer-mod.h:336, 397). -/
def alphaF (basis : ℕ → ℕ) (g : List ℤ) (tree : SumTree) : ℚ :=
  fsum (fun t => match t with | none => 0 | some i => rnd 53 (g.getD i 0 * rnd 53 (1 / basis i))) tree

/-- `reduce_modp(n, B)` (rns-integer-mod.h:313-363).  `schedA`, `schedB` are the summation orders of the matrix product and
of the matrix-vector product.  `(size_t)rint(alpha)` of a negative value is undefined: fault. -/
def reduceModp (R : Rns) (T : ModTables) (n : ℕ) (A : Arr ℤ) (rda : ℕ) (junk : ℕ → ℤ) (schedA : ℕ → ℕ → SumTree)
    (schedB : ℕ → SumTree) : Except Fault (Arr ℤ) := do
  -- Gamma = A * MMi, residue by residue
  let G ← iter R.size (fun i (G : Arr ℤ) => iter n (fun j (G : Arr ℤ) => do
    let x ← (do
      let a ← A.rd (j + i * rda)
      let mmi ← R.MMi.rd i
      pure (mulM (R.basis i) mmi a))
    G.wr (j + i * n) x) G) (Arr.mk' (R.size * n) junk)
  -- A = _Mi_modp_rns * Gamma
  let A ← iter R.size (fun k (A : Arr ℤ) => iter n (fun j (A : Arr ℤ) => do
    let x ← (do
      let c ← readRow T.MiModp (k * R.size) 1 R.size
      let g ← readRow G j n R.size
      dot (schedA k j) c g)
    A.wr (j + k * rda) x) A) A
  -- subtract (alpha M mod p)
  let A ← iter R.size (fun i (A : Arr ℤ) => iter n (fun j (A : Arr ℤ) => do
    let a ← A.rd (j + i * rda)
    let x ← (do
      let g ← readRow G j n R.size
      let aa := roundEven (alphaF R.basis g (schedB j))
      let aa ← (if 0 ≤ aa then .ok aa.toNat else .error .inexact)
      let q ← T.iMModp.rd (aa + i * (R.size + 1))
      pure (a - q))
    A.wr (j + i * rda) x) A) A
  iter R.size (fun i (A : Arr ℤ) => iter n (fun j (A : Arr ℤ) => do
    let a ← A.rd (j + i * rda)
    let x ← pure (redF (R.basis i) a)
    A.wr (j + i * rda) x) A) A

end Verif.RNS
