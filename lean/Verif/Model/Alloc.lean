import Mathlib.Data.List.Basic
import Mathlib.Data.Nat.Basic

/-!
# Allocation of arrays

`malloc_align`, `detail::allocate`, `AlignedAllocator::allocate` of /repo/fflas-ffpack/utils/align-allocator.h and `fflas_new`, `fflas_delete` of
/repo/fflas-ffpack/utils/fflas_memory.h.  `size_t` has 64 bits; products of `size_t` wrap.  The heap is the list of live blocks; where the system puts a
block, and whether it finds room, is given by `sys`.  Constructors and destructors of the elements are not modelled.
-/

namespace Verif.Alloc

/-- number of values of `size_t` -/
def W : ℕ := 2 ^ 64

/-- how a block was obtained: `posix_memalign` or `new[]` -/
inductive Kind
  | malloc
  | newArr
  deriving DecidableEq

/-- a live block -/
structure Block where
  addr : ℕ
  size : ℕ
  kind : Kind
  deriving DecidableEq

abbrev Heap := List Block

/-- the system: for an alignment, a number of bytes and the live blocks the address of a new block, or none -/
abbrev Sys := ℕ → ℕ → Heap → Option ℕ

/-- how a call ends other than by returning: `std::bad_alloc` (`bad_array_new_length` derives from it), or undefined behaviour -/
inductive Stop
  | badAlloc
  | undef
  deriving DecidableEq

/-- `posix_memalign`, POSIX: fails with EINVAL unless the alignment is a power of two and a multiple of `sizeof(void*)`, with ENOMEM without room; then `p`
is as before (null) -/
def memalign (sys : Sys) (align size : ℕ) (h : Heap) : Option ℕ × Heap :=
  if 2 ^ Nat.log2 align = align ∧ align % 8 = 0 then
    match sys align size h with
    | none => (none, h)
    | some a => (some a, ⟨a, size, .malloc⟩ :: h)
  else (none, h)

/-- `malloc_align<T>(size, alignment)`, align-allocator.h:69-79; the message on `std::cout` is not modelled -/
def mallocAlign (sys : Sys) (sz size align : ℕ) (h : Heap) : Option ℕ × Heap := memalign sys align (size * sz % W) h

/-- `new T[k]`, fflas_memory.h:64, 81: throws when the number of bytes (with the 8 bytes holding `k`) is not a `size_t`, or without room.  `new` aligns
to 16 bytes; the array starts 8 bytes after the block. -/
def newArr (sys : Sys) (sz k : ℕ) (h : Heap) : Except Stop (Option ℕ × Heap) :=
  if k * sz + 8 < W then
    match sys 16 (k * sz + 8) h with
    | none => .error .badAlloc
    | some a => .ok (some (a + 8), ⟨a + 8, k * sz, .newArr⟩ :: h)
  else .error .badAlloc

/-- pointer types: `Givaro::Integer*`, `const Givaro::Integer*` and the others -/
inductive PtrTy
  | integer
  | constInteger
  | other
  deriving DecidableEq

/-- `alignable`, fflas_memory.h:46-55: specialised for `Givaro::Integer*` only -/
def alignable : PtrTy → Bool
  | .integer => false
  | _ => true

/-- `fflas_new(F, m, align)` and `fflas_new<Element>(m, align)`, fflas_memory.h:57-66, 74-84 -/
def fflasNew1 (sys : Sys) (ty : PtrTy) (sz m align : ℕ) (h : Heap) : Except Stop (Option ℕ × Heap) :=
  if alignable ty then .ok (mallocAlign sys sz m align h) else newArr sys sz m h

/-- `fflas_new(F, m, n, align)`, fflas_memory.h:68-72 -/
def fflasNew (sys : Sys) (ty : PtrTy) (sz m n align : ℕ) (h : Heap) : Except Stop (Option ℕ × Heap) :=
  fflasNew1 sys ty sz (m * n % W) align h

/-- `free` and `delete[]`: nothing for a null pointer; undefined unless the block is live and was obtained by the matching call -/
def release (k : Kind) (p : Option ℕ) (h : Heap) : Except Stop Heap :=
  match p with
  | none => .ok h
  | some a => if h.any (fun b => b.addr = a ∧ b.kind = k) then .ok (h.eraseP (fun b => b.addr = a)) else .error .undef

/-- `fflas_delete(A)`, fflas_memory.h:86-93 -/
def fflasDelete (ty : PtrTy) (p : Option ℕ) (h : Heap) : Except Stop Heap := release (if alignable ty then .malloc else .newArr) p h

/-- `fflas_delete(p, args...)`, fflas_memory.h:95-99 -/
def fflasDeletes : List (PtrTy × Option ℕ) → Heap → Except Stop Heap
  | [], h => .ok h
  | p :: ps, h =>
    match fflasDelete p.1 p.2 h with
    | .ok h => fflasDeletes ps h
    | .error e => .error e

/-- `detail::allocate`, align-allocator.h:83-99 (the assertion holds for all instances: `Alignment::NONE` is no argument of `AlignedAllocator`) -/
def detailAllocate (sys : Sys) (align size : ℕ) (h : Heap) : Option ℕ × Heap :=
  if size = 0 then (none, h) else memalign sys align size h

/-- `AlignedAllocator<T, Align>::max_size`, align-allocator.h:138-140 -/
def maxSize (sz align : ℕ) : ℕ := (W - 1 - align) / sz

/-- `AlignedAllocator<T, Align>::allocate(n)`, align-allocator.h:148-157 -/
def allocate (sys : Sys) (sz align n : ℕ) (h : Heap) : Except Stop (ℕ × Heap) :=
  match detailAllocate sys align (n * sz % W) h with
  | (none, _) => .error .badAlloc
  | (some a, h) => .ok (a, h)

end Verif.Alloc
