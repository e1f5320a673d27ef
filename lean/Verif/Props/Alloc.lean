import Verif.Model.Alloc
import Mathlib.Tactic.Linarith
import Mathlib.Data.List.Nodup

/-!
# C126: storage obtained from `fflas_new` is large enough, apart from all other storage, and released by `fflas_delete`
-/

namespace Verif.Props
open Verif.Alloc

/-- two ranges of addresses have no byte in common -/
def Apart (a s b t : ℕ) : Prop := ∀ x, a ≤ x → x < a + s → ¬ (b ≤ x ∧ x < b + t)

/-- what POSIX and C++ promise of the system: addresses are aligned, not null, fit `size_t`, the new block is apart from the live ones and its address (and the
one after the 8 bytes of `new[]`) is not one of theirs -/
def SysOk (sys : Sys) : Prop := ∀ align size h a, sys align size h = some a →
  a ≠ 0 ∧ align ∣ a ∧ a + size < W ∧ ∀ b ∈ h, Apart a size b.addr b.size ∧ a ≠ b.addr ∧ a + 8 ≠ b.addr

/-- `p` is the start of a block of `bytes` bytes or more that was not there before; nothing else changed -/
structure NewBlock (h h' : Heap) (p bytes align : ℕ) : Prop where
  ne : p ≠ 0
  aligned : align ∣ p
  room : ∃ b ∈ h', b.addr = p ∧ bytes ≤ b.size
  kept : ∀ b ∈ h, b ∈ h'
  only : ∀ b ∈ h', b ∈ h ∨ b.addr = p
  apart : ∀ b ∈ h, Apart p bytes b.addr b.size ∧ b.addr ≠ p

/-- the alignments of `enum class Alignment` other than `NONE` -/
def Alignments : List ℕ := [8, 16, 32, 64, 4096]

lemma alignments_ok {align : ℕ} (ha : align ∈ Alignments) : 2 ^ Nat.log2 align = align ∧ align % 8 = 0 := by
  simp only [Alignments, List.mem_cons, List.not_mem_nil, or_false] at ha
  rcases ha with rfl | rfl | rfl | rfl | rfl <;> decide

lemma memalign_new {sys : Sys} (hs : SysOk sys) {align size : ℕ} {h h' : Heap} {p : ℕ} (e : memalign sys align size h = (some p, h')) :
    NewBlock h h' p size align ∧ h' = ⟨p, size, .malloc⟩ :: h := by
  unfold memalign at e
  split_ifs at e with hc
  · cases e1 : sys align size h with
    | none => rw [e1] at e; simp at e
    | some a =>
      rw [e1] at e
      simp only [Prod.mk.injEq, Option.some.injEq] at e
      obtain ⟨rfl, rfl⟩ := e
      obtain ⟨h1, h2, -, h3⟩ := hs _ _ _ _ e1
      exact ⟨⟨h1, h2, ⟨_, List.mem_cons_self, rfl, le_rfl⟩, fun b hb => List.mem_cons_of_mem _ hb,
        fun b hb => (List.mem_cons.1 hb).elim (fun e => Or.inr (by rw [e])) Or.inl, fun b hb => ⟨(h3 b hb).1, (h3 b hb).2.1.symm⟩⟩, rfl⟩
  · simp at e

/-- C126, `fflas_new(F, m, n, align)`.  Missing (hence `partial`): numbers of bytes from `2^64` on (`C126_overflow_violated`) and `Alignment::NONE`
(`C126_none_violated`).  A pointer other than null is the start of a new block for `m n` elements, and `fflas_delete` gives it back, once.  A null pointer or
`bad_alloc` means that the system had no room, and nothing changed.  Elements of multi-precision integers are aligned to 8 bytes. -/
theorem C126_new_partial {sys : Sys} (hs : SysOk sys) {ty : PtrTy} {sz m n align : ℕ} {h : Heap} (hty : ty ≠ .constInteger) (hsz : 0 < sz)
    (hm : m * n * sz + 8 < W) (ha : align ∈ Alignments) :
    (∀ p h', fflasNew sys ty sz m n align h = .ok (some p, h') →
      NewBlock h h' p (m * n * sz) (if ty = .integer then 8 else align) ∧ fflasDelete ty (some p) h' = .ok h ∧ fflasDelete ty (some p) h = .error .undef) ∧
    (∀ h', fflasNew sys ty sz m n align h = .ok (none, h') → h' = h ∧ sys align (m * n * sz) h = none) ∧
    (∀ e, fflasNew sys ty sz m n align h = .error e → e = .badAlloc ∧ sys 16 (m * n * sz + 8) h = none) := by
  have h1 : m * n % W = m * n := Nat.mod_eq_of_lt (by nlinarith [Nat.zero_le (m * n)])
  have h2 : m * n * sz % W = m * n * sz := Nat.mod_eq_of_lt (by omega)
  have gone : ∀ p k, (∀ b ∈ h, b.addr ≠ p) → release k (some p) h = .error .undef := by
    intro p k hp
    unfold release
    dsimp only
    rw [if_neg]
    simp only [List.any_eq_true, decide_eq_true_eq, not_exists, not_and]
    exact fun b hb e => absurd e (hp b hb)
  have back : ∀ p s k, release k (some p) (⟨p, s, k⟩ :: h) = .ok h := by
    intro p s k
    simp [release]
  unfold fflasNew fflasNew1
  rw [h1]
  cases ty with
  | constInteger => exact absurd rfl hty
  | integer =>
    simp only [alignable, Bool.false_eq_true, if_false, if_true, newArr, if_pos hm]
    cases e : sys 16 (m * n * sz + 8) h with
    | none => exact ⟨by simp, by simp, by simp⟩
    | some a =>
      obtain ⟨g1, g2, g3, g4⟩ := hs _ _ _ _ e
      refine ⟨?_, by simp, by simp⟩
      intro p h' e'
      simp only [Except.ok.injEq, Prod.mk.injEq, Option.some.injEq] at e'
      obtain ⟨rfl, rfl⟩ := e'
      refine ⟨⟨by omega, by omega, ⟨_, List.mem_cons_self, rfl, le_rfl⟩, fun b hb => List.mem_cons_of_mem _ hb,
        fun b hb => (List.mem_cons.1 hb).elim (fun e => Or.inr (by rw [e])) Or.inl, fun b hb => ⟨?_, (g4 b hb).2.2.symm⟩⟩, back _ _ _, gone _ _ (fun b hb => (g4 b hb).2.2.symm)⟩
      exact fun x hx hx' => (g4 b hb).1 x (by omega) (by omega)
  | other =>
    simp only [alignable, if_true, mallocAlign, h2, reduceCtorEq, if_false]
    refine ⟨?_, ?_, by simp⟩
    · intro p h' e
      obtain ⟨hn, rfl⟩ := memalign_new hs (Except.ok.inj e)
      exact ⟨hn, back _ _ _, gone _ _ (fun b hb => (hn.apart b hb).2)⟩
    · intro h' e
      have e := Except.ok.inj e
      unfold memalign at e
      rw [if_pos (alignments_ok ha)] at e
      cases e1 : sys align (m * n * sz) h with
      | none => rw [e1] at e; simp at e; exact ⟨e.symm, rfl⟩
      | some a => rw [e1] at e; simp at e

lemma fm_some (ty : PtrTy) (a : ℕ) (ps : List (PtrTy × Option ℕ)) : ((ty, some a) :: ps).filterMap Prod.snd = a :: ps.filterMap Prod.snd := rfl

lemma fm_none (ty : PtrTy) (ps : List (PtrTy × Option ℕ)) : ((ty, none) :: ps).filterMap Prod.snd = ps.filterMap Prod.snd := rfl

lemma eraseP_filter {h : Heap} {a : ℕ} (hn : (h.map Block.addr).Nodup) : h.eraseP (fun b => b.addr = a) = h.filter (fun b => b.addr ≠ a) := by
  induction h with
  | nil => rfl
  | cons b h ih =>
    rw [List.map_cons, List.nodup_cons] at hn
    by_cases e : b.addr = a
    · rw [List.eraseP_cons_of_pos (by simpa using e), List.filter_cons_of_neg (by simpa using e), List.filter_eq_self.2]
      intro c hc
      have : c.addr ≠ a := fun e' => hn.1 (List.mem_map.2 ⟨c, hc, e'.trans e.symm⟩)
      simpa using this
    · rw [List.eraseP_cons_of_neg (by simpa using e), List.filter_cons_of_pos (by simpa using e), ih hn.2]

/-- C126, `fflas_delete(p1, p2, …)`: arguments obtained from `fflas_new` with the same types, each once, are released, null pointers do nothing, and all other
blocks stay. -/
theorem C126_delete {ps : List (PtrTy × Option ℕ)} {h : Heap} (hn : (h.map Block.addr).Nodup) (hp : (ps.filterMap Prod.snd).Nodup)
    (hl : ∀ q ∈ ps, ∀ a, q.2 = some a → ∃ b ∈ h, b.addr = a ∧ (b.kind = .newArr ↔ q.1 = .integer)) :
    fflasDeletes ps h = .ok (h.filter (fun b => b.addr ∉ ps.filterMap Prod.snd)) := by
  induction ps generalizing h with
  | nil => simp [fflasDeletes]
  | cons q ps ih =>
    obtain ⟨ty, p⟩ := q
    unfold fflasDeletes fflasDelete
    cases p with
    | none =>
      simp only [release]
      rw [fm_none] at hp
      rw [ih hn hp (fun q hq => hl q (List.mem_cons_of_mem _ hq)), fm_none]
    | some a =>
      rw [fm_some, List.nodup_cons] at hp
      obtain ⟨b, hb, e, hk⟩ := hl _ List.mem_cons_self a rfl
      have hc : h.any (fun b' => b'.addr = a ∧ b'.kind = if alignable ty then Kind.malloc else Kind.newArr) = true := by
        refine List.any_eq_true.2 ⟨b, hb, by
          simp only [decide_eq_true_eq]
          refine ⟨e, ?_⟩
          cases ty <;> cases hbk : b.kind <;> simp_all [alignable]⟩
      simp only [release]
      rw [if_pos hc, eraseP_filter hn]
      dsimp only
      rw [ih]
      · rw [List.filter_filter, fm_some]
        congr 1
        refine List.filter_congr (fun c _ => ?_)
        simp only [List.mem_cons, not_or, ← Bool.decide_and, ne_eq, and_comm]
      · exact (List.filter_sublist.map _).nodup hn
      · exact hp.2
      · intro q hq a' e'
        obtain ⟨b', hb', e2, hk'⟩ := hl q (List.mem_cons_of_mem _ hq) a' e'
        refine ⟨b', List.mem_filter.2 ⟨hb', ?_⟩, e2, hk'⟩
        have : b'.addr ≠ a := fun e3 => hp.1 (List.mem_filterMap.2 ⟨q, hq, by rw [e', ← e2, e3]⟩)
        simpa using this

/-- C126, `AlignedAllocator::allocate(n)`.  Missing (hence `partial`): `n = 0` (`C126_zero_violated`).  Up to `max_size()` elements the result is a new block for
`n` elements; `bad_alloc` is thrown only without room. -/
theorem C126_allocate_partial {sys : Sys} (hs : SysOk sys) {sz align n : ℕ} {h : Heap} (hsz : 0 < sz) (ha : align ∈ Alignments) (hn : 0 < n) (hn' : n ≤ maxSize sz align) :
    (∀ p h', allocate sys sz align n h = .ok (p, h') → NewBlock h h' p (n * sz) align) ∧
    (∀ e, allocate sys sz align n h = .error e → e = .badAlloc ∧ sys align (n * sz) h = none) := by
  have h1 : n * sz ≤ W - 1 - align := (Nat.le_div_iff_mul_le hsz).1 hn'
  have h2 : n * sz % W = n * sz := Nat.mod_eq_of_lt (lt_of_le_of_lt h1 (lt_of_le_of_lt (Nat.sub_le _ _) (by decide)))
  have h3 : n * sz ≠ 0 := by positivity
  unfold allocate detailAllocate
  rw [h2, if_neg h3]
  cases e : memalign sys align (n * sz) h with
  | mk o h' =>
    cases o with
    | none =>
      refine ⟨by simp, fun e' he => ⟨by simpa using he.symm, ?_⟩⟩
      unfold memalign at e
      rw [if_pos (alignments_ok ha)] at e
      cases e1 : sys align (n * sz) h with
      | none => rfl
      | some a => rw [e1] at e; simp at e
    | some a =>
      refine ⟨fun p h'' he => ?_, by simp⟩
      simp only [Except.ok.injEq, Prod.mk.injEq] at he
      obtain ⟨rfl, rfl⟩ := he
      exact (memalign_new hs e).1

/-! ### Concrete cases -/

/-- a system with room for one block, at address 4096 -/
def sysEx : Sys := fun align size h => if h = [] ∧ align ∣ 4096 ∧ size < 2 ^ 62 then some 4096 else none

lemma sysEx_ok : SysOk sysEx := by
  intro align size h a e
  unfold sysEx at e
  split_ifs at e with hc
  obtain ⟨rfl, h1, h2⟩ := hc
  cases e
  exact ⟨by decide, h1, by unfold W; omega, by simp⟩

example : fflasNew sysEx .other 8 3 5 16 [] = .ok (some 4096, [⟨4096, 120, .malloc⟩]) ∧
    fflasNew sysEx .integer 16 3 5 16 [] = .ok (some 4104, [⟨4104, 240, .newArr⟩]) := by decide +kernel

example := C126_new_partial sysEx_ok (ty := .other) (sz := 8) (m := 3) (n := 5) (align := 16) (h := []) (by decide) (by decide) (by decide) (by decide)

example : fflasDeletes [(.other, some 64), (.other, none), (.integer, some 128)] [⟨128, 16, .newArr⟩, ⟨256, 8, .malloc⟩, ⟨64, 8, .malloc⟩] = .ok [⟨256, 8, .malloc⟩] := by
  decide +kernel

example := C126_delete (ps := [(.other, some 64), (.other, none), (.integer, some 128)]) (h := [⟨128, 16, .newArr⟩, ⟨256, 8, .malloc⟩, ⟨64, 8, .malloc⟩]) (by decide) (by decide)
  (by decide)

example := C126_allocate_partial sysEx_ok (sz := 8) (align := 64) (n := 100) (h := []) (by decide) (by decide) (by decide) (by decide)

/-- C126 fails: for `2^32` rows and columns `m*n` is 0 in `size_t` and the pointer, not null, is that of a block of 0 bytes. -/
theorem C126_overflow_violated : ¬ ∀ (sys : Sys) (sz m n align : ℕ) (h : Heap), SysOk sys → 0 < sz → m < W → n < W → align ∈ Alignments →
    ∀ p h', fflasNew sys .other sz m n align h = .ok (some p, h') → NewBlock h h' p (m * n * sz) align := by
  intro hall
  obtain ⟨b, hb, -, hs⟩ := (hall sysEx 8 (2 ^ 32) (2 ^ 32) 16 [] sysEx_ok (by decide) (by decide) (by decide) (by decide) 4096 [⟨4096, 0, .malloc⟩] (by decide +kernel)).room
  obtain rfl := List.mem_singleton.1 hb
  exact absurd hs (by decide)

/-- C126 fails for `Alignment::NONE`: the pointer is null whatever room there is. -/
theorem C126_none_violated (sys : Sys) (sz m n : ℕ) (h : Heap) : fflasNew sys .other sz m n 0 h = .ok (none, h) := by
  simp [fflasNew, fflasNew1, alignable, mallocAlign, memalign]

/-- C126 fails for arrays of `Givaro::Integer` released through a pointer to constants: `alignable` sends them to `free`. -/
theorem C126_const_violated : ∃ (sys : Sys) (p : ℕ) (h' : Heap), SysOk sys ∧ fflasNew sys .integer 16 3 5 16 [] = .ok (some p, h') ∧
    fflasDelete .constInteger (some p) h' = .error .undef :=
  ⟨sysEx, 4104, [⟨4104, 240, .newArr⟩], sysEx_ok, by decide +kernel, by decide +kernel⟩

/-- C126 fails for `AlignedAllocator::allocate(0)`: `bad_alloc` whatever room there is. -/
theorem C126_zero_violated (sys : Sys) (sz align : ℕ) (h : Heap) : allocate sys sz align 0 h = .error .badAlloc := by
  simp [allocate, detailAllocate]

end Verif.Props
