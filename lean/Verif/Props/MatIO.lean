import Verif.Proofs.MatIO

/-!
# Property C103: reading what was written

`WriteMatrix` in the dense, sparse or binary format followed by `ReadMatrix` gives back the dimensions and the entries, for every leading
dimension and for both storage orders; matrices written one after the other on a stream are read one after the other.
-/

namespace Verif.Props

open Verif.MatIO

variable {K : Type} [Zero K] [DecidableEq K]

/-- `B` is the `m × n` matrix `a`, row by row, with leading dimension `n` -/
def IsRowMajor (B : Arr K) (m n : ℕ) (a : ℕ → ℕ → K) : Prop := B.len = m * n ∧ ∀ i < m, ∀ j < n, B.get (i * n + j) = a i j

omit [Zero K] [DecidableEq K] in
lemma isRowMajor_of {A B : Arr K} {cm : Bool} {lda m n : ℕ} (h1 : B.len = m * n) (h2 : ∀ t < m * n, B.get t = entries A cm lda n t) :
    IsRowMajor B m n fun i j => A.get (eAdr cm lda i j) := by
  refine ⟨h1, fun i hi j hj => ?_⟩
  have ht : i * n + j < m * n := by
    calc i * n + j < i * n + n := by omega
      _ = (i + 1) * n := by ring
      _ ≤ m * n := Nat.mul_le_mul_right _ hi
  rw [h2 _ ht, entries, Nat.mul_comm i n, Nat.mul_add_div (by omega), Nat.mul_add_mod, Nat.div_eq_of_lt hj, Nat.mod_eq_of_lt hj,
    Nat.add_zero]

/-- C103 for the text formats: what is written, preceded by white space and followed by anything, is read back; only white space is left
before what follows. -/
theorem C103_text {C : Codec K} (hC : C.Ok) (junk : ℕ → K) (fmt : Fmt) (hf : fmt = .dense ∨ fmt = .sms) {m n lda : ℕ} {A : Arr K} {cm : Bool}
    (hm : m < 2 ^ 64) (hn : n < 2 ^ 64) (hA : InArr A cm lda m n) : ∃ t, writeMatrix C fmt m n A lda cm = .ok t ∧
    ∀ all w r, AllWs w → ∃ s B, readMatrix C junk fmt ⟨all, w ++ (t ++ r)⟩ = .ok ⟨m, n, B, s ++ r⟩ ∧ AllWs s ∧
      IsRowMajor B m n fun i j => A.get (eAdr cm lda i j) := by
  rcases hf with rfl | rfl
  · refine ⟨_, writeDense_ok C hA, fun all w r hw => ?_⟩
    obtain ⟨s, B, h1, h2, h3, h4⟩ := readDense_ok hC junk (r := r) hw hm hn (entries A cm lda n)
    refine ⟨s, B, ?_, h2, isRowMajor_of h3 h4⟩
    rw [← h1]
    simp [readMatrix, readAs]
  · refine ⟨_, writeSMS_ok C hA, fun all w r hw => ?_⟩
    obtain ⟨B, h1, h3, h4⟩ := readSMS_ok hC (r := r) hw hm hn (entries A cm lda n)
    refine ⟨[10], B, ?_, AllWs.one (by decide), isRowMajor_of h3 h4⟩
    show _ = Except.ok (⟨m, n, B, 10 :: r⟩ : Got K)
    rw [← h1]
    simp [readMatrix, readAs]

/-- C103 for the sparse format with automatic detection: the file is read from the beginning. -/
theorem C103_auto_sms {C : Codec K} (hC : C.Ok) (junk : ℕ → K) {m n lda : ℕ} {A : Arr K} {cm : Bool}
    (hm : m < 2 ^ 64) (hn : n < 2 ^ 64) (hA : InArr A cm lda m n) : ∃ t, writeMatrix C .sms m n A lda cm = .ok t ∧
    ∀ r, ∃ s B, readMatrix C junk .auto ⟨t ++ r, t ++ r⟩ = .ok ⟨m, n, B, s ++ r⟩ ∧ AllWs s ∧
      IsRowMajor B m n fun i j => A.get (eAdr cm lda i j) := by
  obtain ⟨t, h1, h2⟩ := C103_text hC junk .sms (Or.inr rfl) (cm := cm) hm hn hA
  refine ⟨t, h1, fun r => ?_⟩
  obtain ⟨s, B, h3, h4⟩ := h2 (t ++ r) [] r AllWs.nil
  refine ⟨s, B, ?_, h4⟩
  rw [← h3]
  have h5 : writeMatrix C .sms m n A lda cm = _ := writeSMS_ok C hA
  rw [h1] at h5
  cases h5
  obtain ⟨k1, k2, _⟩ := showNat_spec hm
  have hp : ∀ l : List ℕ, 8 ≤ (showNat m ++ l).length → preamble ⟨showNat m ++ l, showNat m ++ l⟩ = .ok (.sms, showNat m ++ l) := by
    intro l hl
    unfold preamble
    rw [if_neg (by simpa using hl), if_neg ?_]
    cases hs : showNat m with
    | nil => exact absurd hs k1
    | cons c l' =>
      have := k2 c (by simp [hs])
      intro e
      have : c = 70 := by simpa [magic] using congrArg List.head? e
      subst this
      revert k2
      rw [hs]
      intro k2
      exact absurd (k2 70 (by simp)) (by decide)
  rw [List.append_assoc, readMatrix, if_pos rfl, hp]
  · rfl
  · simp only [List.length_append, List.length_cons, List.length_nil]; omega

/-- C103 for the binary format, partial: the matrix must be stored row by row without gaps (`lda = n`, or at most one row).  Read as binary or
with automatic detection. -/
theorem C103_binary_partial {C : Codec K} (hC : C.Ok) (junk : ℕ → K) (fmt : Fmt) (hf : fmt = .binary ∨ fmt = .auto) {m n lda : ℕ} {A : Arr K}
    (hm : m < 2 ^ 64) (hn : n < 2 ^ 64) (hA : InArr A false lda m n) (hl : lda = n ∨ m ≤ 1) :
    ∃ t, writeMatrix C .binary m n A lda false = .ok t ∧
    ∀ r, ∃ B, readMatrix C junk fmt ⟨t ++ r, t ++ r⟩ = .ok ⟨m, n, B, []⟩ ∧ IsRowMajor B m n fun i j => A.get (i * lda + j) := by
  have he : ∀ i < m, ∀ j, i * lda + j = i * n + j := by
    intro i hi j
    rcases hl with rfl | hl
    · rfl
    · obtain rfl : i = 0 := by omega
      simp
  have hlen : m * n ≤ A.len := by
    rcases Nat.eq_zero_or_pos (m * n) with h | h
    · omega
    · have := hA (m - 1) (by have := Nat.pos_of_mul_pos_right h; omega) (n - 1) (by have := Nat.pos_of_mul_pos_left h; omega)
      have h1 := Nat.pos_of_mul_pos_right h
      have h2 := Nat.pos_of_mul_pos_left h
      simp only [eAdr, Bool.false_eq_true, if_false, he (m - 1) (by omega)] at this
      obtain ⟨m', rfl⟩ : ∃ m', m = m' + 1 := ⟨m - 1, by omega⟩
      simp only [Nat.add_sub_cancel] at this
      rw [Nat.succ_mul]; omega
  refine ⟨_, writeBinary_ok C hlen, fun r => ?_⟩
  obtain ⟨B, h1, h3, h4⟩ := readBinary_ok hC junk (r := r) hm hn A.get
  refine ⟨B, ?_, h3, fun i hi j hj => ?_⟩
  · rw [← h1]
    rcases hf with rfl | rfl
    · simp [readMatrix, readAs]
    · have hp : ∀ l : List ℕ, preamble ⟨magic ++ 10 :: l, magic ++ 10 :: l⟩ = .ok (.binary, magic ++ 10 :: l) := by
        intro l
        unfold preamble
        rw [if_neg (by simp [magic]), if_pos (by simp [magic])]
      simp only [readMatrix, if_true, List.append_assoc, List.cons_append, hp, bind, Except.bind, readAs]
  · have ht : i * n + j < m * n := by
      calc i * n + j < i * n + n := by omega
        _ = (i + 1) * n := by ring
        _ ≤ m * n := Nat.mul_le_mul_right _ hi
    show _ = A.get (i * lda + j)
    rw [h4 _ ht, he i hi]

/-- matrices used below, modulo 11; the second one is stored with gaps -/
def ioA : Arr (ZMod 11) := Arr.ofList [9, 1, 2, 5, 2, 1, 4, 0, 0, 0]
def ioB : Arr (ZMod 11) := Arr.ofList [1, 2, 7, 3, 4, 7]

/-- dimensions and entries of an outcome -/
def ioRes (e : Except RdErr (Got (ZMod 11))) : Option (ℕ × ℕ × List (ZMod 11)) := match e with
  | .ok g => some (g.m, g.n, g.A.toList)
  | .error _ => none

/-- written in format `f`, read in format `f'` -/
def ioThere (f f' : Fmt) (m n : ℕ) (A : Arr (ZMod 11)) (lda : ℕ) (cm : Bool) : Except RdErr (Got (ZMod 11)) :=
  match writeMatrix (codecZMod 11) f m n A lda cm with
  | .ok t => readMatrix (codecZMod 11) (fun _ => 0) f' ⟨t, t⟩
  | .error _ => .error .null

/-- C103 fails for the binary format if `lda ≠ n`: the gaps are written. -/
theorem C103_binary_lda_violated : InArr ioB false 3 2 2 ∧ ioRes (ioThere .binary .binary 2 2 ioB 3 false) = some (2, 2, [1, 2, 7, 3]) ∧
    ioB.get (eAdr false 3 1 0) = 3 := by
  refine ⟨?_, by decide +kernel, by decide⟩
  intro i hi j hj
  simp only [ioB, Arr.ofList, eAdr, List.length_cons, List.length_nil]
  simp; omega

/-- C103 fails for the binary format and matrices stored by columns: the transpose is read. -/
theorem C103_binary_columns_violated : ioRes (ioThere .binary .binary 2 2 (Arr.ofList [1, 2, 3, 4]) 2 true) = some (2, 2, [1, 2, 3, 4]) ∧
    (Arr.ofList [1, 2, 3, 4] : Arr (ZMod 11)).get (eAdr true 2 0 1) = 3 := by
  exact ⟨by decide +kernel, by decide⟩

/-- C103 fails with the default formats: `WriteMatrix` to a file writes the dense format, `ReadMatrix` with automatic detection takes it for
the sparse one.  A `1 × 1` matrix cannot be read, a `2 × 5` matrix is read as another one. -/
theorem C103_default_violated : ioThere .dense .auto 1 1 (Arr.ofList [5]) 1 false = .error .bad ∧
    ioRes (ioThere .dense .auto 2 5 ioA 5 false) = some (2, 5, [0, 5, 0, 0, 0, 4, 0, 0, 0, 0]) := by
  refine ⟨?_, by decide +kernel⟩
  rfl

/-- C103 fails for the second matrix of a stream with automatic detection: the stream is rewound and the first one is read again. -/
theorem C103_second_violated : ∃ t1 t2, writeMatrix (codecZMod 11) .sms 1 1 (Arr.ofList [1]) 1 false = .ok t1 ∧
    writeMatrix (codecZMod 11) .sms 1 1 (Arr.ofList [2]) 1 false = .ok t2 ∧
    ioRes (readMatrix (codecZMod 11) (fun _ => 0) .auto ⟨t1 ++ t2, t2⟩) = some (1, 1, [1]) := by
  refine ⟨_, _, rfl, rfl, by decide +kernel⟩

/-- A sparse file with an entry of column 0 is not rejected: the code writes in front of the matrix ("1 1 M", "1 0 3", "0 0 0"). -/
theorem C103_column_zero_violated : readMatrix (codecZMod 11) (fun _ => 0) .sms
    ⟨[], [49, 32, 49, 32, 77, 10, 49, 32, 48, 32, 51, 10, 48, 32, 48, 32, 48, 10]⟩ = .error .oob := by rfl

/-! ### Concrete cases -/

example : (codecZMod 11).Ok := codecZMod_ok (by norm_num)

example : InArr ioA true 2 2 5 := by
  intro i hi j hj
  simp only [ioA, Arr.ofList, eAdr, List.length_cons, List.length_nil]
  simp; omega

example : ioRes (ioThere .dense .dense 2 5 ioA 2 true) = some (2, 5, [9, 2, 2, 4, 0, 1, 5, 1, 0, 0]) := by decide +kernel

example : ioRes (ioThere .sms .auto 2 2 ioB 3 false) = some (2, 2, [1, 2, 3, 4]) := by decide +kernel

example : ioRes (ioThere .binary .auto 2 5 ioA 5 false) = some (2, 5, [9, 1, 2, 5, 2, 1, 4, 0, 0, 0]) := by decide +kernel

end Verif.Props
