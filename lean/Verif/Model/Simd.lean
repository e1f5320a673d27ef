import Verif.Core.Heap

/-!
# Register transpositions of the SIMD layer

A SIMD register is the sequence of its elements, lowest address first; `Regs` is a file of registers.  The semantics of
the x86 shuffles is the one documented by the vendor.  `k` is the number of elements in one 128-bit lane.
-/

namespace Verif

variable {α : Type}

/-- a SIMD register: its elements, in memory order -/
abbrev Vec (α : Type) := ℕ → α

/-- registers `r0, r1, …` -/
abbrev Regs (α : Type) := ℕ → Vec α

/-- `_mm*_unpacklo_*`: in every 128-bit lane of `k` elements, interleave the low halves of `a` and `b`. -/
def laneLo (k : ℕ) (a b : Vec α) : Vec α := fun i =>
  if i % 2 = 0 then a (i / k * k + i % k / 2) else b (i / k * k + i % k / 2)

/-- `_mm*_unpackhi_*`: in every 128-bit lane of `k` elements, interleave the high halves of `a` and `b`. -/
def laneHi (k : ℕ) (a b : Vec α) : Vec α := fun i =>
  if i % 2 = 0 then a (i / k * k + k / 2 + i % k / 2) else b (i / k * k + k / 2 + i % k / 2)

/-- `_mm_movelh_ps (a, b)`: low halves of `a` and `b` (registers of four elements). -/
def movelh (a b : Vec α) : Vec α := fun i => if i < 2 then a i else b (i - 2)

/-- `_mm_movehl_ps (a, b)`: high half of `b`, then high half of `a` (registers of four elements). -/
def movehl (a b : Vec α) : Vec α := fun i => if i < 2 then b (i + 2) else a i

/-- one 128-bit lane selected by the low two bits of `s`: `a.lo, a.hi, b.lo, b.hi` -/
def lane128 (k : ℕ) (a b : Vec α) (s i : ℕ) : α := if s % 4 < 2 then a (s % 4 * k + i) else b ((s % 4 - 2) * k + i)

/-- `_mm256_permute2f128_*`, `_mm256_permute2x128_si256` without the zeroing bits. -/
def permute2x128 (k : ℕ) (a b : Vec α) (imm : ℕ) : Vec α := fun i =>
  if i < k then lane128 k a b (imm % 16) i else lane128 k a b (imm / 16) (i - k)

/-- `_mm512_permutex2var_*` on registers of `n` elements: bit `n` of the index selects `b`. -/
def permutex2var (n : ℕ) (a : Vec α) (idx : List ℕ) (b : Vec α) : Vec α := fun i =>
  if idx.getD i 0 / n % 2 = 0 then a (idx.getD i 0 % n) else b (idx.getD i 0 % n)

/-- the register file after the named registers got new contents -/
def sel (R : Regs α) (l : List (Vec α)) : Regs α := fun i => l.getD i (R i)

/-- `transpose` of simd128_double.inl:269-272 (`unpacklohi`, :208-212): 2 × 2 transposition of 64-bit elements in 128-bit
registers; simd128_int64.inl:318-321 is the same. -/
def net128_64 (R : Regs α) : Regs α :=
  let r0 := R 0
  let r1 := R 1
  let lo := laneLo 2 r0 r1
  let hi := laneHi 2 r0 r1
  sel R [lo, hi]

/-- `transpose` of simd128_float.inl:290-301: 4 × 4 transposition of 32-bit elements in 128-bit registers;
simd128_int32.inl:315-329 has the same dataflow. -/
def net128_32 (R : Regs α) : Regs α :=
  let r0 := R 0
  let r1 := R 1
  let r2 := R 2
  let r3 := R 3
  let t0 := laneLo 4 r0 r1
  let t2 := laneLo 4 r2 r3
  let t1 := laneHi 4 r0 r1
  let t3 := laneHi 4 r2 r3
  let r0 := movelh t0 t2
  let r1 := movehl t2 t0
  let r2 := movelh t1 t3
  let r3 := movehl t3 t1
  sel R [r0, r1, r2, r3]

/-- `transpose` of simd128_int16.inl:320-351: 8 × 8 transposition of 16-bit elements in 128-bit registers. -/
def net128_16 (R : Regs α) : Regs α :=
  let r0 := R 0
  let r1 := R 1
  let r2 := R 2
  let r3 := R 3
  let r4 := R 4
  let r5 := R 5
  let r6 := R 6
  let r7 := R 7
  let t0 := laneLo 8 r0 r4
  let t1 := laneLo 8 r1 r5
  let t2 := laneLo 8 r2 r6
  let t3 := laneLo 8 r3 r7
  let t4 := laneHi 8 r0 r4
  let t5 := laneHi 8 r1 r5
  let t6 := laneHi 8 r2 r6
  let t7 := laneHi 8 r3 r7
  let v0 := laneLo 8 t0 t2
  let v1 := laneLo 8 t1 t3
  let v4 := laneLo 8 t4 t6
  let v5 := laneLo 8 t5 t7
  let v2 := laneHi 8 t0 t2
  let v3 := laneHi 8 t1 t3
  let v6 := laneHi 8 t4 t6
  let v7 := laneHi 8 t5 t7
  let r0 := laneLo 8 v0 v1
  let r2 := laneLo 8 v2 v3
  let r4 := laneLo 8 v4 v5
  let r6 := laneLo 8 v6 v7
  let r1 := laneHi 8 v0 v1
  let r3 := laneHi 8 v2 v3
  let r5 := laneHi 8 v4 v5
  let r7 := laneHi 8 v6 v7
  sel R [r0, r1, r2, r3, r4, r5, r6, r7]

/-- `transpose` of simd256_double.inl:338-349: 4 × 4 transposition of 64-bit elements in 256-bit registers;
simd256_int64.inl:351-362 has the same dataflow. -/
def net256_64 (R : Regs α) : Regs α :=
  let r0 := R 0
  let r1 := R 1
  let r2 := R 2
  let r3 := R 3
  let t0 := laneLo 2 r0 r1
  let t2 := laneLo 2 r2 r3
  let t1 := laneHi 2 r0 r1
  let t3 := laneHi 2 r2 r3
  let r0 := permute2x128 2 t0 t2 0x20
  let r1 := permute2x128 2 t1 t3 0x20
  let r2 := permute2x128 2 t0 t2 0x31
  let r3 := permute2x128 2 t1 t3 0x31
  sel R [r0, r1, r2, r3]

/-- `transpose` of simd256_float.inl:360-391: 8 × 8 transposition of 32-bit elements in 256-bit registers;
simd256_int32.inl:364-397 has the same dataflow. -/
def net256_32 (R : Regs α) : Regs α :=
  let r0 := R 0
  let r1 := R 1
  let r2 := R 2
  let r3 := R 3
  let r4 := R 4
  let r5 := R 5
  let r6 := R 6
  let r7 := R 7
  let v0 := laneLo 4 r0 r2
  let v1 := laneLo 4 r1 r3
  let v4 := laneLo 4 r4 r6
  let v5 := laneLo 4 r5 r7
  let v2 := laneHi 4 r0 r2
  let v3 := laneHi 4 r1 r3
  let v6 := laneHi 4 r4 r6
  let v7 := laneHi 4 r5 r7
  let t0 := laneLo 4 v0 v1
  let t2 := laneLo 4 v2 v3
  let t4 := laneLo 4 v4 v5
  let t6 := laneLo 4 v6 v7
  let t1 := laneHi 4 v0 v1
  let t3 := laneHi 4 v2 v3
  let t5 := laneHi 4 v4 v5
  let t7 := laneHi 4 v6 v7
  let r0 := permute2x128 4 t0 t4 0x20
  let r1 := permute2x128 4 t1 t5 0x20
  let r2 := permute2x128 4 t2 t6 0x20
  let r3 := permute2x128 4 t3 t7 0x20
  let r4 := permute2x128 4 t0 t4 0x31
  let r5 := permute2x128 4 t1 t5 0x31
  let r6 := permute2x128 4 t2 t6 0x31
  let r7 := permute2x128 4 t3 t7 0x31
  sel R [r0, r1, r2, r3, r4, r5, r6, r7]

/-- `transpose` of simd256_int16.inl:369-443: 16 × 16 transposition of 16-bit elements in 256-bit registers. -/
def net256_16 (R : Regs α) : Regs α :=
  let r0 := R 0
  let r1 := R 1
  let r2 := R 2
  let r3 := R 3
  let r4 := R 4
  let r5 := R 5
  let r6 := R 6
  let r7 := R 7
  let r8 := R 8
  let r9 := R 9
  let r10 := R 10
  let r11 := R 11
  let r12 := R 12
  let r13 := R 13
  let r14 := R 14
  let r15 := R 15
  let t0 := laneLo 8 r0 r4
  let t1 := laneLo 8 r1 r5
  let t2 := laneLo 8 r2 r6
  let t3 := laneLo 8 r3 r7
  let t8 := laneLo 8 r8 r12
  let t9 := laneLo 8 r9 r13
  let t10 := laneLo 8 r10 r14
  let t11 := laneLo 8 r11 r15
  let t4 := laneHi 8 r0 r4
  let t5 := laneHi 8 r1 r5
  let t6 := laneHi 8 r2 r6
  let t7 := laneHi 8 r3 r7
  let t12 := laneHi 8 r8 r12
  let t13 := laneHi 8 r9 r13
  let t14 := laneHi 8 r10 r14
  let t15 := laneHi 8 r11 r15
  let v0 := laneLo 8 t0 t2
  let v1 := laneLo 8 t1 t3
  let v4 := laneLo 8 t4 t6
  let v5 := laneLo 8 t5 t7
  let v8 := laneLo 8 t8 t10
  let v9 := laneLo 8 t9 t11
  let v12 := laneLo 8 t12 t14
  let v13 := laneLo 8 t13 t15
  let v2 := laneHi 8 t0 t2
  let v3 := laneHi 8 t1 t3
  let v6 := laneHi 8 t4 t6
  let v7 := laneHi 8 t5 t7
  let v10 := laneHi 8 t8 t10
  let v11 := laneHi 8 t9 t11
  let v14 := laneHi 8 t12 t14
  let v15 := laneHi 8 t13 t15
  let t0 := laneLo 8 v0 v1
  let t2 := laneLo 8 v2 v3
  let t4 := laneLo 8 v4 v5
  let t6 := laneLo 8 v6 v7
  let t8 := laneLo 8 v8 v9
  let t10 := laneLo 8 v10 v11
  let t12 := laneLo 8 v12 v13
  let t14 := laneLo 8 v14 v15
  let t1 := laneHi 8 v0 v1
  let t3 := laneHi 8 v2 v3
  let t5 := laneHi 8 v4 v5
  let t7 := laneHi 8 v6 v7
  let t9 := laneHi 8 v8 v9
  let t11 := laneHi 8 v10 v11
  let t13 := laneHi 8 v12 v13
  let t15 := laneHi 8 v14 v15
  let r0 := permute2x128 8 t0 t8 0x20
  let r1 := permute2x128 8 t1 t9 0x20
  let r2 := permute2x128 8 t2 t10 0x20
  let r3 := permute2x128 8 t3 t11 0x20
  let r4 := permute2x128 8 t4 t12 0x20
  let r5 := permute2x128 8 t5 t13 0x20
  let r6 := permute2x128 8 t6 t14 0x20
  let r7 := permute2x128 8 t7 t15 0x20
  let r8 := permute2x128 8 t0 t8 0x31
  let r9 := permute2x128 8 t1 t9 0x31
  let r10 := permute2x128 8 t2 t10 0x31
  let r11 := permute2x128 8 t3 t11 0x31
  let r12 := permute2x128 8 t4 t12 0x31
  let r13 := permute2x128 8 t5 t13 0x31
  let r14 := permute2x128 8 t6 t14 0x31
  let r15 := permute2x128 8 t7 t15 0x31
  sel R [r0, r1, r2, r3, r4, r5, r6, r7, r8, r9, r10, r11, r12, r13, r14, r15]

/-- `transpose` of simd512_double.inl:300-341: 8 × 8 transposition of 64-bit elements in 512-bit registers;
simd512_int64.inl:359-399 has the same dataflow. -/
def net512_64 (R : Regs α) : Regs α :=
  let r0 := R 0
  let r1 := R 1
  let r2 := R 2
  let r3 := R 3
  let r4 := R 4
  let r5 := R 5
  let r6 := R 6
  let r7 := R 7
  let i1 := [0, 1, 8, 9, 4, 5, 12, 13]
  let t0 := laneLo 2 r0 r1
  let t2 := laneLo 2 r2 r3
  let t4 := laneLo 2 r4 r5
  let t6 := laneLo 2 r6 r7
  let t1 := laneHi 2 r0 r1
  let t3 := laneHi 2 r2 r3
  let t5 := laneHi 2 r4 r5
  let t7 := laneHi 2 r6 r7
  let i2 := [2, 3, 10, 11, 6, 7, 14, 15]
  let v0 := permutex2var 8 t0 i1 t2
  let v1 := permutex2var 8 t1 i1 t3
  let v4 := permutex2var 8 t4 i1 t6
  let v5 := permutex2var 8 t5 i1 t7
  let i3 := [0, 1, 2, 3, 8, 9, 10, 11]
  let v2 := permutex2var 8 t0 i2 t2
  let v3 := permutex2var 8 t1 i2 t3
  let v6 := permutex2var 8 t4 i2 t6
  let v7 := permutex2var 8 t5 i2 t7
  let i4 := [4, 5, 6, 7, 12, 13, 14, 15]
  let r0 := permutex2var 8 v0 i3 v4
  let r1 := permutex2var 8 v1 i3 v5
  let r2 := permutex2var 8 v2 i3 v6
  let r3 := permutex2var 8 v3 i3 v7
  let r4 := permutex2var 8 v0 i4 v4
  let r5 := permutex2var 8 v1 i4 v5
  let r6 := permutex2var 8 v2 i4 v6
  let r7 := permutex2var 8 v3 i4 v7
  sel R [r0, r1, r2, r3, r4, r5, r6, r7]

/-- `transpose` of simd512_float.inl:292-390: 16 × 16 transposition of 32-bit elements in 512-bit registers. -/
def net512_32 (R : Regs α) : Regs α :=
  let r0 := R 0
  let r1 := R 1
  let r2 := R 2
  let r3 := R 3
  let r4 := R 4
  let r5 := R 5
  let r6 := R 6
  let r7 := R 7
  let r8 := R 8
  let r9 := R 9
  let r10 := R 10
  let r11 := R 11
  let r12 := R 12
  let r13 := R 13
  let r14 := R 14
  let r15 := R 15
  let i1 := [0, 1, 2, 3, 16, 17, 18, 19, 8, 9, 10, 11, 24, 25, 26, 27]
  let v0 := laneLo 4 r0 r2
  let v1 := laneLo 4 r1 r3
  let v4 := laneLo 4 r4 r6
  let v5 := laneLo 4 r5 r7
  let v8 := laneLo 4 r8 r10
  let v9 := laneLo 4 r9 r11
  let v12 := laneLo 4 r12 r14
  let v13 := laneLo 4 r13 r15
  let v2 := laneHi 4 r0 r2
  let v3 := laneHi 4 r1 r3
  let v6 := laneHi 4 r4 r6
  let v7 := laneHi 4 r5 r7
  let v10 := laneHi 4 r8 r10
  let v11 := laneHi 4 r9 r11
  let v14 := laneHi 4 r12 r14
  let v15 := laneHi 4 r13 r15
  let t0 := laneLo 4 v0 v1
  let t2 := laneLo 4 v2 v3
  let t4 := laneLo 4 v4 v5
  let t6 := laneLo 4 v6 v7
  let t8 := laneLo 4 v8 v9
  let t10 := laneLo 4 v10 v11
  let t12 := laneLo 4 v12 v13
  let t14 := laneLo 4 v14 v15
  let t1 := laneHi 4 v0 v1
  let t3 := laneHi 4 v2 v3
  let t5 := laneHi 4 v4 v5
  let t7 := laneHi 4 v6 v7
  let t9 := laneHi 4 v8 v9
  let t11 := laneHi 4 v10 v11
  let t13 := laneHi 4 v12 v13
  let t15 := laneHi 4 v14 v15
  let i2 := [4, 5, 6, 7, 20, 21, 22, 23, 12, 13, 14, 15, 28, 29, 30, 31]
  let v0 := permutex2var 16 t0 i1 t4
  let v1 := permutex2var 16 t1 i1 t5
  let v2 := permutex2var 16 t2 i1 t6
  let v3 := permutex2var 16 t3 i1 t7
  let v8 := permutex2var 16 t8 i1 t12
  let v9 := permutex2var 16 t9 i1 t13
  let v10 := permutex2var 16 t10 i1 t14
  let v11 := permutex2var 16 t11 i1 t15
  let i3 := [0, 1, 2, 3, 4, 5, 6, 7, 16, 17, 18, 19, 20, 21, 22, 23]
  let v4 := permutex2var 16 t0 i2 t4
  let v5 := permutex2var 16 t1 i2 t5
  let v6 := permutex2var 16 t2 i2 t6
  let v7 := permutex2var 16 t3 i2 t7
  let v12 := permutex2var 16 t8 i2 t12
  let v13 := permutex2var 16 t9 i2 t13
  let v14 := permutex2var 16 t10 i2 t14
  let v15 := permutex2var 16 t11 i2 t15
  let i4 := [8, 9, 10, 11, 12, 13, 14, 15, 24, 25, 26, 27, 28, 29, 30, 31]
  let r0 := permutex2var 16 v0 i3 v8
  let r1 := permutex2var 16 v1 i3 v9
  let r2 := permutex2var 16 v2 i3 v10
  let r3 := permutex2var 16 v3 i3 v11
  let r4 := permutex2var 16 v4 i3 v12
  let r5 := permutex2var 16 v5 i3 v13
  let r6 := permutex2var 16 v6 i3 v14
  let r7 := permutex2var 16 v7 i3 v15
  let r8 := permutex2var 16 v0 i4 v8
  let r9 := permutex2var 16 v1 i4 v9
  let r10 := permutex2var 16 v2 i4 v10
  let r11 := permutex2var 16 v3 i4 v11
  let r12 := permutex2var 16 v4 i4 v12
  let r13 := permutex2var 16 v5 i4 v13
  let r14 := permutex2var 16 v6 i4 v14
  let r15 := permutex2var 16 v7 i4 v15
  sel R [r0, r1, r2, r3, r4, r5, r6, r7, r8, r9, r10, r11, r12, r13, r14, r15]

/-- The `Simd` parameter of `ftranspose` (/repo/fflas-ffpack/fflas/fflas_simd.h:310-380): the element width and register
width, or no SIMD at all (`NoSimd`). -/
inductive Simd where
  | none
  | s128_64
  | s128_32
  | s128_16
  | s256_64
  | s256_32
  | s256_16
  | s512_64
  | s512_32
  deriving DecidableEq

/-- `Simd::vect_size` -/
def Simd.vs : Simd → ℕ
  | .none => 1
  | .s128_64 => 2
  | .s128_32 => 4
  | .s128_16 => 8
  | .s256_64 => 4
  | .s256_32 => 8
  | .s256_16 => 16
  | .s512_64 => 8
  | .s512_32 => 16

/-- `Simd::transpose` -/
def Simd.net : Simd → Regs α → Regs α
  | .none => id
  | .s128_64 => net128_64
  | .s128_32 => net128_32
  | .s128_16 => net128_16
  | .s256_64 => net256_64
  | .s256_32 => net256_32
  | .s256_16 => net256_16
  | .s512_64 => net512_64
  | .s512_32 => net512_32

end Verif
