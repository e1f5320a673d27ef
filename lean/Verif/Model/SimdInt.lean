import Mathlib.Data.Fin.VecNotation
import Mathlib.Data.Fintype.Basic
import Mathlib.Algebra.BigOperators.Fin

/-!
# Integer operations on SIMD registers

Model of the operations of `Simd128`, `Simd256` and `Simd512` over 16, 32 and 64 bit integers
that are *emulated*: the classes promise a lanewise integer function and compute it by a sequence
of other instructions or by scalar code.

Files: `/repo/fflas-ffpack/fflas/fflas_simd/simd128_int16.inl`, `simd128_int32.inl`,
`simd128_int64.inl`, `simd256_int16.inl`, `simd256_int32.inl`, `simd256_int64.inl`,
`simd512_int64.inl` and `/repo/fflas-ffpack/utils/bit_manipulation.h`.

A register is a function from lanes to bit vectors.  The number of lanes is a parameter whenever
the 128, 256 and 512 bit versions of a function have the same text.  The processor's instructions
(namespace `Intr`) are defined by their documented meaning: they are trusted.
`simd512_int32.inl` is included from nowhere (`simd512.inl:85-87`) and is not modelled.
-/

namespace Verif.SimdInt

/-- A register of `k` lanes of `w` bits. -/
abbrev Reg (k w : ℕ) := Fin k → BitVec w

/-- The same register seen as 64-bit lanes (little endian). -/
def as64 {k : ℕ} (v : Reg (2 * k) 32) : Reg k 64 := fun i =>
  v ⟨2 * i + 1, by omega⟩ ++ v ⟨2 * i, by omega⟩

/-- The same register seen as 32-bit lanes (little endian). -/
def as32 {k : ℕ} (v : Reg k 64) : Reg (2 * k) 32 := fun j =>
  if (j : ℕ) % 2 = 0 then (v ⟨j / 2, by omega⟩).extractLsb' 0 32
  else (v ⟨j / 2, by omega⟩).extractLsb' 32 32

/-- The same register (of 32-bit lanes) seen as 16-bit lanes. -/
def as16 {k : ℕ} (v : Reg k 32) : Reg (2 * k) 16 := fun j =>
  if (j : ℕ) % 2 = 0 then (v ⟨j / 2, by omega⟩).extractLsb' 0 16
  else (v ⟨j / 2, by omega⟩).extractLsb' 16 16

/-- 16-bit lanes seen as 32-bit lanes. -/
def from16 {k : ℕ} (v : Reg (2 * k) 16) : Reg k 32 := fun i =>
  v ⟨2 * i + 1, by omega⟩ ++ v ⟨2 * i, by omega⟩

/-! ### Instructions -/
namespace Intr
variable {k w : ℕ}

/-- `_mm*_set1_epi*`. -/
def set1 (x : BitVec w) : Reg k w := fun _ => x
/-- `_mm*_add_epi*`. -/
def add (a b : Reg k w) : Reg k w := fun i => a i + b i
/-- `_mm*_sub_epi*`. -/
def sub (a b : Reg k w) : Reg k w := fun i => a i - b i
/-- `_mm*_mullo_epi*`: the low half of the product. -/
def mullo (a b : Reg k w) : Reg k w := fun i => a i * b i
/-- `_mm*_and_si*`. -/
def vand (a b : Reg k w) : Reg k w := fun i => a i &&& b i
/-- `_mm*_or_si*`. -/
def vor (a b : Reg k w) : Reg k w := fun i => a i ||| b i
/-- `_mm*_xor_si*`. -/
def vxor (a b : Reg k w) : Reg k w := fun i => a i ^^^ b i
/-- `_mm*_slli_epi*`. -/
def slli (s : ℕ) (a : Reg k w) : Reg k w := fun i => a i <<< s
/-- `_mm*_srli_epi*`. -/
def srli (s : ℕ) (a : Reg k w) : Reg k w := fun i => a i >>> s
/-- `_mm*_cmpeq_epi*`. -/
def cmpeq (a b : Reg k w) : Reg k w := fun i => if a i = b i then BitVec.allOnes w else 0
/-- `_mm*_cmpgt_epi*`: *signed* comparison. -/
def cmpgt (a b : Reg k w) : Reg k w := fun i =>
  if (b i).toInt < (a i).toInt then BitVec.allOnes w else 0
/-- `_mm*_mul_epi32`: product of the sign extended low halves of 64-bit lanes. -/
def mulEpi32 (a b : Reg k 64) : Reg k 64 := fun i =>
  ((a i).extractLsb' 0 32).signExtend 64 * ((b i).extractLsb' 0 32).signExtend 64
/-- `_mm*_mul_epu32`: product of the zero extended low halves of 64-bit lanes. -/
def mulEpu32 (a b : Reg k 64) : Reg k 64 := fun i =>
  ((a i).extractLsb' 0 32).setWidth 64 * ((b i).extractLsb' 0 32).setWidth 64
/-- `_mm*_blend_epi32`, and `_mm_blend_epi16` on 16-bit lanes: bit `i` of the immediate set selects
the second operand. -/
def blend (s : ℕ) (a b : Reg k w) : Reg k w := fun i => if s.testBit i then b i else a i
/-- `_mm256_blend_epi16`: the same eight bits control both halves. -/
def blend256Epi16 (s : ℕ) (a b : Reg 16 16) : Reg 16 16 := fun i =>
  if s.testBit (i % 8) then b i else a i
/-- `_mm256_permute2x128_si256(x, y, 0x30)`: low half of `x`, high half of `y`. -/
def permute2x128_0x30 (x y : Reg 16 16) : Reg 16 16 := fun i => if (i : ℕ) < 8 then x i else y i
/-- `_mm_shuffle_epi32`: lane `j` is the lane of `a` given by bits `2j, 2j+1` of the immediate. -/
def shuffleEpi32 (s : ℕ) (a : Reg 4 32) : Reg 4 32 := fun j =>
  a ⟨(s >>> (2 * (j : ℕ))) % 4, Nat.mod_lt _ (by omega)⟩
/-- `_mm512_cmpeq_epi64_mask`. -/
def cmpeqMask (a b : Reg k w) : Fin k → Bool := fun i => a i == b i
/-- `_mm512_cmpgt_epi64_mask`: signed. -/
def cmpgtMask (a b : Reg k w) : Fin k → Bool := fun i => (b i).slt (a i)
/-- `_mm512_cmpgt_epu64_mask`: unsigned. -/
def cmpgtuMask (a b : Reg k w) : Fin k → Bool := fun i => (b i).ult (a i)
/-- `_mm512_cmplt_epu64_mask`: unsigned. -/
def cmpltuMask (a b : Reg k w) : Fin k → Bool := fun i => (a i).ult (b i)
/-- `_mm512_maskz_expand_epi64`: the lanes of `c`, taken in order, are put at the positions of
the mask; the other positions are cleared. -/
def maskzExpand (m : Fin k → Bool) (c : Reg k w) : Reg k w := fun i =>
  if m i then c ⟨(Finset.univ.filter fun j : Fin k => j < i ∧ m j).card, by
    refine lt_of_le_of_lt (Finset.card_le_card (t := Finset.Iio i) fun j hj => ?_) ?_
    · simp only [Finset.mem_filter] at hj
      simpa using hj.2.1
    · simpa using i.2⟩
  else 0
end Intr

/-! ### Scalar C++ arithmetic; signed overflow is undefined behaviour (`none`) -/

/-- Signed addition of a type of `w` bits at least as wide as `int`. -/
def sadd {w : ℕ} (x y : BitVec w) : Option (BitVec w) :=
  if -(2 ^ w : ℤ) ≤ 2 * (x.toInt + y.toInt) ∧ 2 * (x.toInt + y.toInt) < 2 ^ w then some (x + y)
  else none
/-- Signed product of a type of `w` bits at least as wide as `int`. -/
def smul {w : ℕ} (x y : BitVec w) : Option (BitVec w) :=
  if -(2 ^ w : ℤ) ≤ 2 * (x.toInt * y.toInt) ∧ 2 * (x.toInt * y.toInt) < 2 ^ w then some (x * y)
  else none

/-- `mullhi_u32`, `bit_manipulation.h:131-135`. -/
def mullhiU32 (x y : BitVec 32) : BitVec 32 :=
  ((x.setWidth 64 * y.setWidth 64) >>> 32).setWidth 32

/-- `mulhi_64` with 128-bit integers, `bit_manipulation.h:138-141`. -/
def mulhi64_128 (x y : BitVec 64) : Option (BitVec 64) := do
  let rl ← smul (x.signExtend 128) (y.signExtend 128)
  return (rl.sshiftRight 64).setWidth 64

/-- `mulhi_64` without 128-bit integers, `bit_manipulation.h:143-150`. -/
def mulhi64_32 (x y : BitVec 64) : Option (BitVec 64) := do
  let mask : BitVec 64 := 0xFFFFFFFF#64
  let x0 : BitVec 32 := (x &&& mask).setWidth 32
  let y0 : BitVec 32 := (y &&& mask).setWidth 32
  let x1 : BitVec 32 := (x.sshiftRight 32).setWidth 32
  let y1 : BitVec 32 := (y.sshiftRight 32).setWidth 32
  let hi := mullhiU32 x0 y0
  let t ← sadd (← smul (x1.signExtend 64) (y0.setWidth 64)) (hi.setWidth 64)
  let w1 ← sadd (← smul (x0.setWidth 64) (y1.signExtend 64)) (t &&& mask)
  sadd (← sadd (← smul (x1.signExtend 64) (y1.signExtend 64)) (t.sshiftRight 32))
    (w1.sshiftRight 32)

/-- `mulhi_u64` with 128-bit integers, `bit_manipulation.h:155-158`. -/
def mulhiU64_128 (x y : BitVec 64) : BitVec 64 :=
  ((x.setWidth 128 * y.setWidth 128) >>> 64).setWidth 64

/-- `mulhi_u64` without 128-bit integers, `bit_manipulation.h:160-175`. -/
def mulhiU64_32 (x y : BitVec 64) : BitVec 64 :=
  let maskLo : BitVec 64 := 0xFFFFFFFF#64
  let x0 := x &&& maskLo
  let x1 := x >>> 32
  let y0 := y &&& maskLo
  let y1 := y >>> 32
  let xyHi := x1 * y1
  let xyMid := x1 * y0
  let yxMid := x0 * y1
  let xyLo := x0 * y0
  let carry := ((xyMid &&& maskLo) + (yxMid &&& maskLo) + (xyLo >>> 32)) >>> 32
  xyHi + (xyMid >>> 32) + (yxMid >>> 32) + carry

/-- `mulhi_fast_64` without 128-bit integers, `bit_manipulation.h:183-191`. -/
def mulhiFast64_32 (x y : BitVec 64) : Option (BitVec 64) := do
  let mask : BitVec 64 := 0xFFFFFFFF#64
  let x0 : BitVec 32 := (x &&& mask).setWidth 32
  let y0 : BitVec 32 := (y &&& mask).setWidth 32
  let x1 : BitVec 32 := (x.sshiftRight 32).setWidth 32
  let y1 : BitVec 32 := (y.sshiftRight 32).setWidth 32
  let t ← smul (x1.signExtend 64) (y0.setWidth 64)
  let w1 ← smul (x0.setWidth 64) (y1.signExtend 64)
  sadd (← sadd (← smul (x1.signExtend 64) (y1.signExtend 64)) (t.sshiftRight 32))
    (w1.sshiftRight 32)

/-! ### Register operations -/
open Intr
variable {k w : ℕ}

/-- A scalar function that may be undefined, applied to every lane (`Converter` in, `set` out). -/
def lanes (f : BitVec w → BitVec w → Option (BitVec w)) (a b : Reg k w) : Option (Reg k w) :=
  if h : ∀ i, (f (a i) (b i)).isSome then some fun i => (f (a i) (b i)).get (h i) else none

/-- `sra<s>` over `int64_t` without AVX512VL, `simd128_int64.inl:196-207`,
`simd256_int64.inl:208-219`. -/
def sra64 (s : ℕ) (a : Reg k 64) : Reg k 64 :=
  let m := slli (63 - s) (set1 1)
  let x := srli s a
  sub (vxor x m) m

/-- `mullo` over `int64_t` without AVX512DQ, `simd128_int64.inl:378-391`,
`simd256_int64.inl:415-425`: products of `int64_t` scalars.  `mul` of the unsigned classes is
inherited and is this function too. -/
def mullo64 (a b : Reg k 64) : Option (Reg k 64) := lanes smul a b

/-- `mulhi` over `int64_t`, `simd128_int64.inl:402-408` and the 256 and 512 bit versions.
`int128` tells whether the compiler has 128-bit integers. -/
def mulhi64 (int128 : Bool) (a b : Reg k 64) : Option (Reg k 64) :=
  lanes (if int128 then mulhi64_128 else mulhi64_32) a b

/-- `mulhi` over `uint64_t`, `simd128_int64.inl:748-755`. -/
def mulhiU64 (int128 : Bool) (a b : Reg k 64) : Reg k 64 := fun i =>
  (if int128 then mulhiU64_128 else mulhiU64_32) (a i) (b i)

/-- `mulx` over `int16_t` (`simd128_int16.inl:414-427`, `simd256_int16.inl:523-536`) and `int32_t`
(`simd128_int32.inl:431-444`, `simd256_int32.inl:494-507`), given the two masks. -/
def mulxWith (mask1 mask2 : BitVec w) (a b : Reg k w) : Reg k w :=
  let a1 := sub (vand (add a (set1 mask2)) (set1 mask1)) (set1 mask2)
  let b1 := sub (vand (add b (set1 mask2)) (set1 mask1)) (set1 mask2)
  mullo a1 b1

/-- The masks over `int16_t`. -/
def mulx16 (a b : Reg k 16) : Reg k 16 := mulxWith 0x00FF 0x0080 a b
/-- The masks over `int32_t`. -/
def mulx32 (a b : Reg k 32) : Reg k 32 := mulxWith 0x0000FFFF 0x00008000 a b
/-- `mulx` over `int64_t`, `simd128_int64.inl:418`. -/
def mulx64 (a b : Reg k 64) : Reg k 64 := mulEpi32 a b

/-- `mulx` over `uint16_t` and `uint32_t` (`simd128_int16.inl:714-721`,
`simd128_int32.inl:763-770`), given the mask. -/
def mulxUWith (mask1 : BitVec w) (a b : Reg k w) : Reg k w :=
  mullo (vand a (set1 mask1)) (vand b (set1 mask1))
/-- The mask over `uint16_t`. -/
def mulxU16 (a b : Reg k 16) : Reg k 16 := mulxUWith 0x00FF a b
/-- The mask over `uint32_t`. -/
def mulxU32 (a b : Reg k 32) : Reg k 32 := mulxUWith 0x0000FFFF a b
/-- `mulx` over `uint64_t`, `simd128_int64.inl:764`. -/
def mulxU64 (a b : Reg k 64) : Reg k 64 := mulEpu32 a b

/-- `mulhi` over `int32_t`, `simd128_int32.inl:410-418` (x86-64), `simd256_int32.inl:465-484`. -/
def mulhi32 (a b : Reg (2 * k) 32) : Reg (2 * k) 32 :=
  let A := as64 a
  let B := as64 b
  let C := mulEpi32 A B
  let A1 := srli 32 A
  let B1 := srli 32 B
  let A1 := mulEpi32 A1 B1
  let C := srli 32 C
  let A1 := srli 32 A1
  let A1 := slli 32 A1
  as32 (vor C A1)

/-- `mulhi` over `uint32_t`, `simd128_int32.inl:743-751` (x86-64), `simd256_int32.inl:817-836`. -/
def mulhiU32 (a b : Reg (2 * k) 32) : Reg (2 * k) 32 :=
  let A := as64 a
  let B := as64 b
  let C := mulEpu32 A B
  let A1 := srli 32 A
  let B1 := srli 32 B
  let A1 := mulEpu32 A1 B1
  let C := srli 32 C
  let A1 := srli 32 A1
  let A1 := slli 32 A1
  as32 (vor C A1)

/-- `mulhi` over `int32_t` on other processors, `simd128_int32.inl:399-407`. -/
def mulhi32x (a b : Reg 4 32) : Reg 4 32 :=
  let a1 : Reg 4 32 := ![a 0, 0, a 2, 0]
  let a2 : Reg 4 32 := ![a 1, 0, a 3, 0]
  let b1 : Reg 4 32 := ![b 0, 0, b 2, 0]
  let b2 : Reg 4 32 := ![b 1, 0, b 3, 0]
  let c1 : Reg 4 32 := as32 (k := 2) (mulEpi32 (as64 (k := 2) a1) (as64 (k := 2) b1))
  let c2 : Reg 4 32 := as32 (k := 2) (mulEpi32 (as64 (k := 2) a2) (as64 (k := 2) b2))
  ![c1 1, c2 1, c1 3, c2 3]

/-- `mulhi` over `uint32_t` on other processors, `simd128_int32.inl:732-740`. -/
def mulhiU32x (a b : Reg 4 32) : Reg 4 32 :=
  let a1 : Reg 4 32 := ![a 0, 0, a 2, 0]
  let a2 : Reg 4 32 := ![a 1, 0, a 3, 0]
  let b1 : Reg 4 32 := ![b 0, 0, b 2, 0]
  let b2 : Reg 4 32 := ![b 1, 0, b 3, 0]
  let c1 : Reg 4 32 := as32 (k := 2) (mulEpu32 (as64 (k := 2) a1) (as64 (k := 2) b1))
  let c2 : Reg 4 32 := as32 (k := 2) (mulEpu32 (as64 (k := 2) a2) (as64 (k := 2) b2))
  ![c1 1, c2 1, c1 3, c2 3]

/-- `greater` over the unsigned types, `simd128_int16.inl:678-684`, `simd128_int32.inl:701-707`,
`simd128_int64.inl:674-681` and the 256-bit versions. -/
def greaterU (a b : Reg k w) : Reg k w :=
  let x : Reg k w := set1 (1#w <<< (w - 1))
  cmpgt (vxor x a) (vxor x b)
/-- `lesser` over the unsigned types, `simd128_int16.inl:686-692`. -/
def lesserU (a b : Reg k w) : Reg k w :=
  let x : Reg k w := set1 (1#w <<< (w - 1))
  cmpgt (vxor x b) (vxor x a)
/-- `greater_eq` over the unsigned types, `simd128_int16.inl:694`. -/
def greaterEqU (a b : Reg k w) : Reg k w := vor (greaterU a b) (cmpeq a b)
/-- `lesser_eq` over the unsigned types, `simd128_int16.inl:696`. -/
def lesserEqU (a b : Reg k w) : Reg k w := vor (lesserU a b) (cmpeq a b)
/-- `greater_eq` over the signed types, `simd128_int16.inl:533`. -/
def greaterEq (a b : Reg k w) : Reg k w := vor (cmpgt a b) (cmpeq a b)
/-- `lesser_eq` over the signed types, `simd128_int16.inl:541`. -/
def lesserEq (a b : Reg k w) : Reg k w := vor (cmpgt b a) (cmpeq a b)

/-- `eq` of `Simd512<int64_t>`, `simd512_int64.inl:571-576`. -/
def eq512 (a b : Reg k 64) : Reg k 64 := maskzExpand (cmpeqMask a b) (set1 0xFFFFFFFFFFFFFFFF)
/-- `greater`, `simd512_int64.inl:585-592`. -/
def greater512 (a b : Reg k 64) : Reg k 64 := maskzExpand (cmpgtMask a b) (set1 0xFFFFFFFFFFFFFFFF)
/-- `lesser`, `simd512_int64.inl:601-606`. -/
def lesser512 (a b : Reg k 64) : Reg k 64 := maskzExpand (cmpgtMask b a) (set1 0xFFFFFFFFFFFFFFFF)
/-- `greater` of `Simd512<uint64_t>`, `simd512_int64.inl:781-784`. -/
def greaterU512 (a b : Reg k 64) : Reg k 64 :=
  maskzExpand (cmpgtuMask a b) (set1 0xFFFFFFFFFFFFFFFF)
/-- `lesser` of `Simd512<uint64_t>`, `simd512_int64.inl:786-789`. -/
def lesserU512 (a b : Reg k 64) : Reg k 64 :=
  maskzExpand (cmpltuMask a b) (set1 0xFFFFFFFFFFFFFFFF)
/-- `greater_eq`, `lesser_eq`: `simd512_int64.inl:617`, `:628`. -/
def greaterEq512 (a b : Reg k 64) : Reg k 64 := vor (greater512 a b) (eq512 a b)
/-- `lesser_eq`: `simd512_int64.inl:628`. -/
def lesserEq512 (a b : Reg k 64) : Reg k 64 := vor (lesser512 a b) (eq512 a b)
/-- `greater_eq`, `lesser_eq` over `uint64_t`: `simd512_int64.inl:791`, `:793`. -/
def greaterEqU512 (a b : Reg k 64) : Reg k 64 := vor (greaterU512 a b) (eq512 a b)
/-- `lesser_eq` over `uint64_t`: `simd512_int64.inl:793`. -/
def lesserEqU512 (a b : Reg k 64) : Reg k 64 := vor (lesserU512 a b) (eq512 a b)

/-- `fmaddx`, `fnmaddx`, `fmsubx` given `mulx`: `simd128_int16.inl:449`, `:474`, `:499` and all the
other classes. -/
def fmaddx (mulx : Reg k w → Reg k w → Reg k w) (c a b : Reg k w) : Reg k w := add c (mulx a b)
/-- As above: `simd128_int16.inl:474`. -/
def fnmaddx (mulx : Reg k w → Reg k w → Reg k w) (c a b : Reg k w) : Reg k w := sub c (mulx a b)
/-- As above: `simd128_int16.inl:499`. -/
def fmsubx (mulx : Reg k w → Reg k w → Reg k w) (c a b : Reg k w) : Reg k w := sub (mulx a b) c

/-- The immediate of `blend<s>` of `Simd128<int32_t>` (SSE4.1, `simd128_int32.inl:350-351`) and of
`Simd256<int64_t>` (`simd256_int64.inl:382-383`): every bit doubled. -/
def blendImm4 (s : ℕ) : ℕ :=
  ((s &&& 0x1) * 3 + ((s &&& 0x2) <<< 1) * 3 + ((s &&& 0x4) <<< 2) * 3 + ((s &&& 0x8) <<< 3) * 3)
    % 256
/-- `blend<s>` of `Simd256<int64_t>`, `simd256_int64.inl:377-385`. -/
def blend64 (s : ℕ) (a b : Reg 4 64) : Reg 4 64 :=
  as64 (k := 4) (blend (blendImm4 s) (as32 a) (as32 b))
/-- `blend<s>` of `Simd128<int32_t>` with SSE4.1 only, `simd128_int32.inl:340-353`. -/
def blend32 (s : ℕ) (a b : Reg 4 32) : Reg 4 32 :=
  from16 (k := 4) (blend (blendImm4 s) (as16 a) (as16 b))
/-- The immediate of `blend<s>` of `Simd128<int64_t>` with AVX2, `simd128_int64.inl:335`. -/
def blendImm2 (s : ℕ) : ℕ := ((s &&& 0x1) * 3 + ((s &&& 0x2) <<< 1) * 3) % 256
/-- `blend<s>` of `Simd128<int64_t>` with AVX2, `simd128_int64.inl:329-336`. -/
def blend64x2 (s : ℕ) (a b : Reg 2 64) : Reg 2 64 :=
  as64 (k := 2) (blend (blendImm2 s) (as32 a) (as32 b))
/-- The immediate of the SSE4.1 version, `simd128_int64.inl:342`. -/
def blendImm2x (s : ℕ) : ℕ := ((s &&& 0x1) * 15 + ((s &&& 0x2) <<< 3) * 15) % 256
/-- `blend<s>` of `Simd128<int64_t>` with SSE4.1 only, `simd128_int64.inl:338-344`. -/
def blend64x2x (s : ℕ) (a b : Reg 2 64) : Reg 2 64 :=
  as64 (k := 2) (from16 (k := 4) (blend (blendImm2x s) (as16 (k := 4) (as32 a))
    (as16 (k := 4) (as32 b))))
/-- `blend<s>` of `Simd256<int16_t>`, `simd256_int16.inl:452-470`. -/
def blend16 (s : ℕ) (a b : Reg 16 16) : Reg 16 16 :=
  if s &&& 0x00ff = s >>> 8 then blend256Epi16 (s &&& 0x00ff) a b
  else permute2x128_0x30 (blend256Epi16 (s &&& 0xff) a b) (blend256Epi16 (s >>> 8) a b)

/-- The immediate of `shuffle<s>` of `Simd128<int64_t>`, `simd128_int64.inl:217`. -/
def shuffleImm2 (s : ℕ) : ℕ :=
  (if s &&& 1 ≠ 0 then 3 * 4 + 2 else 1 * 4 + 0)
    + 16 * (if s &&& 2 ≠ 0 then 3 * 4 + 2 else 1 * 4 + 0)
/-- `shuffle<s>` of `Simd128<int64_t>`, `simd128_int64.inl:214-219`. -/
def shuffle64x2 (s : ℕ) (a : Reg 2 64) : Reg 2 64 :=
  as64 (k := 2) (shuffleEpi32 (shuffleImm2 s) (as32 a))

/-- The index read for lane `i` by the emulated `shuffle<s>` (`simd128_int16.inl:197-204`,
`simd256_int16.inl:215-226`, `simd256_int32.inl:221-228`): `(s >> 8j) & 0x0F` for `i = 2j` and
`(s >> 8j) & 0xF0` for `i = 2j+1`. -/
def shuffleIdx (s i : ℕ) : ℕ :=
  if i % 2 = 0 then (s >>> (8 * (i / 2))) &&& 0x0F else (s >>> (8 * (i / 2))) &&& 0xF0
/-- Emulated `shuffle<s>`: reading outside the array of the union is undefined (`none`). -/
def shuffleEmu (s : ℕ) (a : Reg k w) : Option (Reg k w) :=
  if h : ∀ i : Fin k, shuffleIdx s i < k then some fun i => a ⟨shuffleIdx s i, h i⟩ else none

/-- `hadd_to_scal` over `int32_t` and `int64_t`, `simd128_int32.inl:570-574`,
`simd128_int64.inl:568-572`, `simd256_int32.inl:643-648`, `simd512_int64.inl:635-639`: a sum of
scalars from left to right. -/
def hadd (a : Reg (k + 1) w) : Option (BitVec w) :=
  (List.ofFn fun i : Fin k => a i.succ).foldlM sadd (a 0)

/-- `signbits`, `simd128_int64.inl:584-587`, `simd256_int64.inl:602-605`, `simd512_int64.inl:653-656`:
the shift is `4*sizeof(scalar_t)-1`, that is 31. -/
def signbits (x : Reg k 64) : Reg k 64 := sub (set1 0) (srli (4 * 8 - 1) x)
/-- `mask_high`, `simd128_int64.inl:575`. -/
def maskHigh : Reg k 64 := srli 32 (set1 (BitVec.allOnes 64))

/-- The unsigned part of `mulhi_fast`, `simd128_int64.inl:792-808`. -/
def mulhiFastU (x y : Reg k 64) : Reg k 64 :=
  let mask : Reg k 64 := maskHigh
  let x0 := vand x mask
  let x1 := srli 32 x
  let y0 := vand y mask
  let y1 := srli 32 y
  let x0 := mulxU64 x0 y1
  let y0 := mulxU64 x1 y0
  let y1 := mulxU64 x1 y1
  let x1 := vand y0 mask
  let y0 := srli 32 y0
  let x1 := srli 32 (add x1 x0)
  let y0 := add y1 y0
  add x1 y0
/-- `mulhi_fast`, `simd128_int64.inl:790-818`, `simd256_int64.inl:808-836`,
`simd512_int64.inl:864-892`. -/
def mulhiFast (x y : Reg k 64) : Reg k 64 :=
  let x1 := mulhiFastU x y
  let x1 := sub x1 (vand (signbits x) y)
  sub x1 (vand (signbits y) x)

end Verif.SimdInt
