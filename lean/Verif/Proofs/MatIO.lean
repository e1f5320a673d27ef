import Verif.Model.MatIO

/-! # Proofs about reading and writing matrices -/

namespace Verif.MatIO

open Verif

variable {K : Type}

/-- only white space -/
def AllWs (w : List ℕ) : Prop := ∀ a ∈ w, isWs a = true

/-- the field reads what it writes: the characters of an element surrounded by white space, also "0"; elements in memory are given by their
bytes; the cardinality is one word -/
structure Codec.Ok [Zero K] (C : Codec K) : Prop where
  read_write : ∀ w x c r, AllWs w → isWs c = true → C.read (w ++ (C.write x ++ c :: r)) = some (x, c :: r)
  read_zero : ∀ w c r, AllWs w → isWs c = true → C.read (w ++ 48 :: c :: r) = some (0, c :: r)
  card_ne : C.card ≠ []
  card_word : ∀ a ∈ C.card, isWs a = false
  enc_len : ∀ x, (C.enc x).length = C.size
  dec_enc : ∀ x, C.dec (C.enc x) = x

lemma AllWs.nil : AllWs [] := by simp [AllWs]
lemma AllWs.one {c : ℕ} (h : isWs c = true) : AllWs [c] := by simpa [AllWs] using h

lemma drop_ws {w : List ℕ} {c : ℕ} {r : List ℕ} (hw : AllWs w) (hc : isWs c = false) : (w ++ c :: r).dropWhile isWs = c :: r := by
  induction w with
  | nil => simp [List.dropWhile, hc]
  | cons a w ih =>
    have h1 := hw a (by simp)
    simp only [List.cons_append, List.dropWhile, h1]
    exact ih (fun b hb => hw b (by simp [hb]))

lemma take_while {P : ℕ → Bool} {d : List ℕ} {c : ℕ} {r : List ℕ} (hd : ∀ a ∈ d, P a = true) (hc : P c = false) :
    (d ++ c :: r).takeWhile P = d ∧ (d ++ c :: r).dropWhile P = c :: r := by
  induction d with
  | nil => simp [hc]
  | cons a d ih =>
    have h1 := hd a (by simp)
    have h2 := ih (fun b hb => hd b (by simp [hb]))
    simp [h1, h2]

lemma showF_spec (f : ℕ) : ∀ n, n < 10 ^ (f + 1) → showF (f + 1) n ≠ [] ∧ (∀ a ∈ showF (f + 1) n, isDig a = true) ∧
    (showF (f + 1) n).foldl (fun a c => 10 * a + (c - 48)) 0 = n := by
  induction f with
  | zero =>
    intro n hn
    have hn : n < 10 := by simpa using hn
    simp only [showF, if_pos hn]
    refine ⟨by simp, ?_, by simp⟩
    intro a ha
    simp only [List.mem_singleton] at ha
    subst ha; simp [isDig]; omega
  | succ f ih =>
    intro n hn
    rw [showF]
    split_ifs with h
    · refine ⟨by simp, ?_, by simp⟩
      intro a ha
      simp only [List.mem_singleton] at ha
      subst ha; simp [isDig]; omega
    · obtain ⟨_, h2, h3⟩ := ih (n / 10) (by rw [pow_succ] at hn; omega)
      refine ⟨by simp, ?_, ?_⟩
      · intro a ha
        rcases List.mem_append.1 ha with ha | ha
        · exact h2 a ha
        · simp only [List.mem_singleton] at ha
          subst ha; simp [isDig]; omega
      · rw [List.foldl_append, h3]
        simp only [List.foldl_cons, List.foldl_nil]; omega

lemma showNat_spec {n : ℕ} (hn : n < 2 ^ 64) : showNat n ≠ [] ∧ (∀ a ∈ showNat n, isDig a = true) ∧
    (showNat n).foldl (fun a c => 10 * a + (c - 48)) 0 = n := showF_spec 19 n (lt_trans hn (by norm_num))

lemma isDig_not_ws {c : ℕ} (h : isDig c = true) : isWs c = false := by
  simp only [isDig, isWs, Bool.and_eq_true, decide_eq_true_eq] at *
  simp; omega

lemma isWs_not_dig {c : ℕ} (h : isWs c = true) : isDig c = false := by
  cases h' : isDig c with
  | false => rfl
  | true => rw [isDig_not_ws h'] at h; exact h.symm

lemma readNat_show {w : List ℕ} {n c : ℕ} {r : List ℕ} (hw : AllWs w) (hn : n < 2 ^ 64) (hc : isWs c = true) :
    readNat (w ++ (showNat n ++ c :: r)) = some (n, c :: r) := by
  obtain ⟨h1, h2, h3⟩ := showNat_spec hn
  obtain ⟨t1, t2⟩ := take_while (r := r) h2 (isWs_not_dig hc)
  have h4 : (w ++ (showNat n ++ c :: r)).dropWhile isWs = showNat n ++ c :: r := by
    cases hs : showNat n with
    | nil => exact absurd hs h1
    | cons a l => exact drop_ws hw (isDig_not_ws (h2 a (by simp [hs])))
  unfold readNat
  simp only [h4, t1, t2, if_neg h1, h3, if_pos hn]

lemma readWord_word {w d : List ℕ} {c : ℕ} {r : List ℕ} (hw : AllWs w) (hd : d ≠ []) (hd2 : ∀ a ∈ d, isWs a = false)
    (hc : isWs c = true) : readWord (w ++ (d ++ c :: r)) = some (d, c :: r) := by
  have h4 : (w ++ (d ++ c :: r)).dropWhile isWs = d ++ c :: r := by
    cases hs : d with
    | nil => exact absurd hs hd
    | cons a l => exact drop_ws hw (hd2 a (by simp [hs]))
  obtain ⟨t1, t2⟩ := take_while (P := fun c => !isWs c) (d := d) (c := c) (r := r) (by simpa using hd2) (by simpa using hc)
  unfold readWord
  simp only [h4, t1, t2]
  rw [if_neg (by simp)]

/-- invariant rule for counted loops with any kind of error -/
lemma iter_inv {ε σ : Type} {n : ℕ} {f : ℕ → σ → Except ε σ} {s : σ} (I : ℕ → σ → Prop) (h0 : I 0 s)
    (hs : ∀ k s, k < n → I k s → ∃ s', f k s = .ok s' ∧ I (k + 1) s') : ∃ s', iter n f s = .ok s' ∧ I n s' := by
  induction n with
  | zero => exact ⟨s, rfl, h0⟩
  | succ n ih =>
    obtain ⟨s1, e1, h1⟩ := ih (fun k s hk => hs k s (by omega))
    obtain ⟨s2, e2, h2⟩ := hs n s1 (by omega) h1
    exact ⟨s2, by simp only [iter, e1]; exact e2, h2⟩

/-- the entries in the order of the rows -/
def entries (A : Arr K) (cm : Bool) (lda n t : ℕ) : K := A.get (eAdr cm lda (t / n) (t % n))

/-- the matrix is inside of the array -/
def InArr (A : Arr K) (cm : Bool) (lda m n : ℕ) : Prop := ∀ i < m, ∀ j < n, eAdr cm lda i j < A.len

lemma InArr.lt {A : Arr K} {cm : Bool} {lda m n t : ℕ} (h : InArr A cm lda m n) (ht : t < m * n) :
    eAdr cm lda (t / n) (t % n) < A.len := by
  have hn : 0 < n := by rcases Nat.eq_zero_or_pos n with rfl | h; · simp at ht
                        · exact h
  exact h _ ((Nat.div_lt_iff_lt_mul hn).2 ht) _ (Nat.mod_lt _ hn)

/-- loops over rows and columns as one loop -/
lemma iter_rows {σ : Type} (m n : ℕ) (f : ℕ → ℕ → σ → Except Fault σ) (s : σ) :
    iter m (fun i => iter n (f i)) s = iter (m * n) (fun t => f (t / n) (t % n)) s := by
  rcases Nat.eq_zero_or_pos n with rfl | hn
  · rw [Nat.mul_zero]
    induction m with
    | zero => rfl
    | succ m ih =>
      show (iter m (fun i => iter 0 (f i)) s >>= _) = _
      rw [ih]; rfl
  · exact iter_mul m n hn f s

/-! ### Dense -/

lemma writeDense_ok (C : Codec K) {m n lda : ℕ} {A : Arr K} {cm : Bool} (h : InArr A cm lda m n) :
    writeDense C m n A lda cm = .ok (showNat m ++ 32 :: (showNat n ++ 10 ::
      ((List.range (m * n)).flatMap (fun t => C.write (entries A cm lda n t) ++ [32]) ++ [10]))) := by
  unfold writeDense
  rw [iter_rows m n (fun i j o => do
    let x ← A.rd (eAdr cm lda i j)
    pure (o ++ C.write x ++ [32]))]
  obtain ⟨o, e, ho⟩ := iter_inv (n := m * n) (f := fun t (o : List ℕ) => (do
    let x ← A.rd (eAdr cm lda (t / n) (t % n))
    pure (o ++ C.write x ++ [32]) : Except Fault (List ℕ))) (s := showNat m ++ [32] ++ showNat n ++ [10])
    (fun k o => o = showNat m ++ [32] ++ showNat n ++ [10] ++
      (List.range k).flatMap (fun t => C.write (entries A cm lda n t) ++ [32])) (by simp) (by
      rintro k s hk rfl
      refine ⟨_, ?_, rfl⟩
      simp only [Arr.rd, if_pos (h.lt hk), List.range_succ, List.flatMap_append, List.flatMap_cons, List.flatMap_nil]
      simp [bind, Except.bind, pure, Except.pure, entries])
  rw [e, ho]
  simp [bind, Except.bind, pure, Except.pure]

lemma flatMap_drop {α β : Type} (g : ℕ → List β) (N k : ℕ) (hk : k < N) :
    (List.range' k (N - k)).flatMap g = g k ++ (List.range' (k + 1) (N - (k + 1))).flatMap g := by
  have : N - k = (N - (k + 1)) + 1 := by omega
  rw [this, List.range'_succ, List.flatMap_cons]

lemma put_ok {A : Arr K} {i : ℕ} {v : K} (h : i < A.len) : put A i v = .ok ⟨A.len, Function.update A.get i v⟩ := by
  simp only [put, Arr.wr, if_pos h]

lemma readDense_ok [Zero K] {C : Codec K} (hC : C.Ok) (junk : ℕ → K) {w r : List ℕ} (hw : AllWs w) {m n : ℕ} (hm : m < 2 ^ 64)
    (hn : n < 2 ^ 64) (a : ℕ → K) : ∃ s B, readDense C junk (w ++ (showNat m ++ 32 :: (showNat n ++ 10 ::
      ((List.range (m * n)).flatMap (fun t => C.write (a t) ++ [32]) ++ 10 :: r)))) = .ok ⟨m, n, B, s ++ r⟩ ∧ AllWs s ∧
      B.len = m * n ∧ ∀ t < m * n, B.get t = a t := by
  unfold readDense
  rw [readNat_show hw hm (by decide)]
  simp only [ext, bind, Except.bind]
  rw [show (32 :: (showNat n ++ 10 :: ((List.range (m * n)).flatMap (fun t => C.write (a t) ++ [32]) ++ 10 :: r))) =
    [32] ++ (showNat n ++ 10 :: ((List.range (m * n)).flatMap (fun t => C.write (a t) ++ [32]) ++ 10 :: r)) from rfl,
    readNat_show (AllWs.one (by decide)) hn (by decide)]
  simp only []
  obtain ⟨s, e, hs⟩ := iter_inv (n := m * n) (f := fun i (s : Arr K × List ℕ) => (do
    let (v, l) ← ext (C.read s.2)
    let A ← put s.1 i v
    pure (A, l) : Except RdErr (Arr K × List ℕ)))
    (s := (Arr.mk' (m * n) junk, 10 :: ((List.range (m * n)).flatMap (fun t => C.write (a t) ++ [32]) ++ 10 :: r)))
    (fun k s => s.1.len = m * n ∧ (∀ t < k, s.1.get t = a t) ∧ ∃ u, AllWs u ∧
      s.2 = u ++ ((List.range' k (m * n - k)).flatMap (fun t => C.write (a t) ++ [32]) ++ 10 :: r))
    ⟨rfl, by simp, [10], AllWs.one (by decide), by simp [List.range_eq_range']⟩ (by
      rintro k ⟨A, l⟩ hk ⟨h1, h2, u, hu, rfl⟩
      rw [flatMap_drop (α := K) _ _ _ hk]
      simp only [ext, List.append_assoc, List.cons_append, List.nil_append]
      rw [hC.read_write _ _ _ _ hu (by decide)]
      refine ⟨(⟨A.len, Function.update A.get k (a k)⟩, _), ?_, h1, ?_, [32], AllWs.one (by decide), rfl⟩
      · simp only [bind, Except.bind]
        rw [put_ok (lt_of_lt_of_eq hk h1.symm)]; rfl
      · intro t ht
        by_cases c : t = k
        · subst c; simp
        · simp only [Function.update_of_ne c]; exact h2 t (by omega))
  simp only [ext, bind, Except.bind] at e
  rw [e]
  obtain ⟨h1, h2, u, hu, h3⟩ := hs
  refine ⟨u ++ [10], s.1, ?_, ?_, h1, h2⟩
  · simp [pure, Except.pure, h3]
  · intro c hc
    rcases List.mem_append.1 hc with hc | hc
    · exact hu c hc
    · simp only [List.mem_singleton] at hc; subst hc; decide

/-! ### Sparse text format -/

variable [Zero K] [DecidableEq K]

/-- characters of entry `t` -/
def smsText (C : Codec K) (n : ℕ) (a : ℕ → K) (t : ℕ) : List ℕ :=
  if a t ≠ 0 then showNat (t / n + 1) ++ 32 :: (showNat (t % n + 1) ++ 32 :: (C.write (a t) ++ [10])) else []

lemma writeSMS_ok (C : Codec K) {m n lda : ℕ} {A : Arr K} {cm : Bool} (h : InArr A cm lda m n) :
    writeSMS C m n A lda cm = .ok (showNat m ++ 32 :: (showNat n ++ 32 :: (C.card ++ 10 ::
      ((List.range (m * n)).flatMap (smsText C n (entries A cm lda n)) ++ [48, 32, 48, 32, 48, 10])))) := by
  unfold writeSMS
  rw [iter_rows m n (fun i j o => smsEntry C A lda cm i j o)]
  obtain ⟨o, e, ho⟩ := iter_inv (n := m * n) (f := fun t (o : List ℕ) => smsEntry C A lda cm (t / n) (t % n) o)
    (s := showNat m ++ [32] ++ showNat n ++ [32] ++ C.card ++ [10])
    (fun k o => o = showNat m ++ [32] ++ showNat n ++ [32] ++ C.card ++ [10] ++
      (List.range k).flatMap (smsText C n (entries A cm lda n))) (by simp) (by
      rintro k s hk rfl
      refine ⟨_, ?_, rfl⟩
      unfold smsEntry
      simp only [Arr.rd, if_pos (h.lt hk), List.range_succ, List.flatMap_append, List.flatMap_cons, List.flatMap_nil]
      simp only [bind, Except.bind, smsText, entries]
      split_ifs with c <;> simp [pure, Except.pure, c])
  rw [e, ho]
  simp [bind, Except.bind, pure, Except.pure]

lemma smsLoop_ok {C : Codec K} (hC : C.Ok) {m n : ℕ} (hm : m < 2 ^ 64) (hn : n < 2 ^ 64) (a : ℕ → K) (r : List ℕ) (d : ℕ) :
    ∀ (k f : ℕ) (u : List ℕ), k + d = m * n → AllWs u →
    (u ++ ((List.range' k d).flatMap (smsText C n a) ++ ([48, 32, 48, 32, 48, 10] ++ r))).length ≤ f →
    ∃ B, smsLoop C m n f ⟨m * n, fun t => if t < k then a t else 0⟩
      (u ++ ((List.range' k d).flatMap (smsText C n a) ++ ([48, 32, 48, 32, 48, 10] ++ r))) = .ok (B, 10 :: r) ∧
      B.len = m * n ∧ ∀ t < m * n, B.get t = a t := by
  induction d with
  | zero =>
    intro k f u hk hu hf
    cases f with
    | zero => simp at hf
    | succ f =>
      simp only [List.range'_zero, List.flatMap_nil, List.nil_append, List.cons_append, smsLoop]
      have e1 : readNat (u ++ 48 :: 32 :: 48 :: 32 :: 48 :: 10 :: r) = some (0, 32 :: 48 :: 32 :: 48 :: 10 :: r) :=
        readNat_show (n := 0) (c := 32) hu (by norm_num) (by decide)
      have e2 : readNat (32 :: 48 :: 32 :: 48 :: 10 :: r) = some (0, 32 :: 48 :: 10 :: r) :=
        readNat_show (w := [32]) (n := 0) (c := 32) (AllWs.one (by decide)) (by norm_num) (by decide)
      have e3 : C.read (32 :: 48 :: 10 :: r) = some (0, 10 :: r) := hC.read_zero [32] 10 r (AllWs.one (by decide)) (by decide)
      rw [e1]
      simp only [ext, bind, Except.bind, e2]
      rw [if_neg (by omega)]
      simp only [e3]
      refine ⟨_, rfl, rfl, ?_⟩
      intro t ht
      simp only [if_pos (show t < k by omega)]
  | succ d ih =>
    intro k f u hk hu hf
    have hkm : k < m * n := by omega
    have hn0 : 0 < n := by
      rcases Nat.eq_zero_or_pos n with rfl | h
      · simp at hkm
      · exact h
    have hi : k / n < m := (Nat.div_lt_iff_lt_mul hn0).2 hkm
    have hj := Nat.mod_lt k hn0
    have hg : (Function.update (fun t => if t < k then a t else 0) k (a k)) = fun t => if t < k + 1 then a t else 0 := by
      funext t
      by_cases c : t = k
      · subst c; simp
      · rw [Function.update_of_ne c]
        by_cases c2 : t < k
        · rw [if_pos c2, if_pos (by omega)]
        · rw [if_neg c2, if_neg (by omega)]
    rw [List.range'_succ, List.flatMap_cons] at hf ⊢
    by_cases ha : a k = 0
    · have h0 : smsText C n a k = [] := by simp [smsText, ha]
      rw [h0, List.nil_append] at hf ⊢
      have := ih (k + 1) f u (by omega) hu hf
      rw [show (fun t => if t < k + 1 then a t else 0) = fun t => if t < k then a t else (0 : K) from ?_] at this
      · exact this
      · rw [← hg, ha]
        funext t
        by_cases c : t = k
        · subst c; simp
        · rw [Function.update_of_ne c]
    · have h0 : smsText C n a k = showNat (k / n + 1) ++ 32 :: (showNat (k % n + 1) ++ 32 :: (C.write (a k) ++ [10])) := by
        simp [smsText, ha]
      rw [h0] at hf ⊢
      simp only [List.append_assoc, List.cons_append, List.nil_append] at hf ⊢
      cases f with
      | zero => simp at hf
      | succ f =>
        rw [smsLoop]
        rw [readNat_show hu (by omega) (by decide)]
        simp only [ext, bind, Except.bind]
        have e2 := fun r => readNat_show (w := [32]) (n := k % n + 1) (c := 32) (r := r) (AllWs.one (by decide)) (by omega) (by decide)
        have e3 := fun r => hC.read_write [32] (a k) 10 r (AllWs.one (by decide)) (by decide)
        simp only [List.cons_append, List.nil_append] at e2 e3
        rw [e2]
        simp only []
        rw [if_neg (by omega), e3]
        have e4 : smsPut n (⟨m * n, fun t => if t < k then a t else 0⟩ : Arr K) (k / n + 1) (k % n + 1) (a k) =
            .ok ⟨m * n, fun t => if t < k + 1 then a t else 0⟩ := by
          have h := Nat.div_add_mod' k n
          unfold smsPut
          rw [if_pos ⟨Nat.succ_pos _, Nat.succ_pos _⟩, if_neg (by omega)]
          rw [show (k / n + 1 - 1) * n + (k % n + 1) - 1 = k by rw [Nat.add_sub_cancel]; omega, put_ok hkm, hg]
        simp only [e4]
        rw [if_neg (by simp)]
        obtain ⟨B, h1, h2⟩ := ih (k + 1) f [10] (by omega) (AllWs.one (by decide)) (by
          simp only [List.length_append, List.length_cons] at hf ⊢; simp only [List.length_nil]; omega)
        exact ⟨B, h1, h2⟩

lemma skipComments_id (f : ℕ) {l : List ℕ} (h : l.head? ≠ some 37) : skipComments f l = l := by
  cases f with
  | zero => rfl
  | succ f => rw [skipComments, if_neg h]

lemma readSMS_ok {C : Codec K} (hC : C.Ok) {w r : List ℕ} (hw : AllWs w) {m n : ℕ} (hm : m < 2 ^ 64)
    (hn : n < 2 ^ 64) (a : ℕ → K) : ∃ B, readSMS C (w ++ (showNat m ++ 32 :: (showNat n ++ 32 :: (C.card ++ 10 ::
      ((List.range (m * n)).flatMap (smsText C n a) ++ ([48, 32, 48, 32, 48, 10] ++ r)))))) = .ok ⟨m, n, B, 10 :: r⟩ ∧
      B.len = m * n ∧ ∀ t < m * n, B.get t = a t := by
  unfold readSMS
  have hh : ∀ l : List ℕ, (w ++ (showNat m ++ l)).head? ≠ some 37 := by
    intro l
    cases w with
    | nil =>
      obtain ⟨h1, h2, _⟩ := showNat_spec (n := m) (by omega)
      cases hs : showNat m with
      | nil => exact absurd hs h1
      | cons c l' =>
        have := h2 c (by simp [hs])
        simp only [List.nil_append, List.cons_append, List.head?_cons]
        intro e
        cases e
        exact absurd this (by decide)
    | cons c l' =>
      have := hw c (by simp)
      simp only [List.cons_append, List.head?_cons]
      intro e
      cases e
      exact absurd this (by decide)
  rw [skipComments_id _ (hh _)]
  simp only []
  rw [readNat_show hw (by omega) (by decide)]
  simp only [ext, bind, Except.bind]
  have e2 := fun r => readNat_show (w := [32]) (n := n) (c := 32) (r := r) (AllWs.one (by decide)) (by omega) (by decide)
  have e3 := fun r => readWord_word (w := [32]) (c := 10) (r := r) (AllWs.one (by decide)) hC.card_ne hC.card_word (by decide)
  simp only [List.cons_append, List.nil_append] at e2 e3 ⊢
  rw [e2]
  simp only []
  rw [e3]
  simp only []
  obtain ⟨B, h1, h2⟩ := smsLoop_ok hC hm hn a r (m * n) 0 _ [10] (by omega) (AllWs.one (by decide)) le_rfl
  rw [← List.range_eq_range'] at h1
  simp only [List.cons_append, List.nil_append, Nat.not_lt_zero, if_false] at h1
  rw [h1]
  exact ⟨B, rfl, h2⟩

/-! ### Binary -/

omit [Zero K] [DecidableEq K] in
lemma leBytes_len (f n : ℕ) : (leBytes f n).length = f := by
  induction f generalizing n with
  | zero => rfl
  | succ f ih => simp [leBytes, ih]

lemma ofBytes_le (f : ℕ) : ∀ n, n < 256 ^ f → ofBytes (leBytes f n) = n := by
  induction f with
  | zero => intro n hn; simp only [pow_zero, Nat.lt_one_iff] at hn; simp [leBytes, ofBytes, hn]
  | succ f ih =>
    intro n hn
    rw [leBytes, ofBytes, ih (n / 256) (by rw [pow_succ] at hn; omega)]; omega

lemma readBytes_app {k : ℕ} {l r : List ℕ} (h : l.length = k) : readBytes k (l ++ r) = some (l, r) := by
  unfold readBytes
  rw [if_pos (by simp [h])]
  simp [← h]

omit [Zero K] [DecidableEq K] in
lemma writeBinary_ok (C : Codec K) {m n : ℕ} {A : Arr K} (h : m * n ≤ A.len) :
    writeBinary C m n A = .ok (magic ++ 10 :: (leBytes 8 m ++ (leBytes 8 n ++ (List.range (m * n)).flatMap (fun t => C.enc (A.get t))))) := by
  unfold writeBinary
  obtain ⟨o, e, ho⟩ := iter_inv (n := m * n) (f := fun t (o : List ℕ) => (do
    let x ← A.rd t
    pure (o ++ C.enc x) : Except Fault (List ℕ))) (s := magic ++ [10] ++ leBytes 8 m ++ leBytes 8 n)
    (fun k o => o = magic ++ [10] ++ leBytes 8 m ++ leBytes 8 n ++ (List.range k).flatMap (fun t => C.enc (A.get t))) (by simp) (by
      rintro k s hk rfl
      refine ⟨_, ?_, rfl⟩
      simp only [Arr.rd, if_pos (show k < A.len by omega), List.range_succ, List.flatMap_append, List.flatMap_cons, List.flatMap_nil]
      simp [bind, Except.bind, pure, Except.pure])
  rw [e, ho]
  simp

omit [DecidableEq K] in
lemma readBinary_ok {C : Codec K} (hC : C.Ok) (junk : ℕ → K) {r : List ℕ} {m n : ℕ} (hm : m < 2 ^ 64) (hn : n < 2 ^ 64) (a : ℕ → K) :
    ∃ B, readBinary C junk (magic ++ 10 :: (leBytes 8 m ++ (leBytes 8 n ++ ((List.range (m * n)).flatMap (fun t => C.enc (a t)) ++ r)))) =
      .ok ⟨m, n, B, []⟩ ∧ B.len = m * n ∧ ∀ t < m * n, B.get t = a t := by
  unfold readBinary
  have e0 : ∀ l, readMagic (magic ++ 10 :: l) = .ok l := fun l => rfl
  rw [e0]
  simp only [bind, Except.bind]
  rw [readBytes_app (leBytes_len _ _)]
  simp only [ext]
  rw [readBytes_app (leBytes_len _ _)]
  simp only [ofBytes_le 8 m (lt_of_lt_of_le hm (by norm_num)), ofBytes_le 8 n (lt_of_lt_of_le hn (by norm_num))]
  obtain ⟨s, e, hs⟩ := iter_inv (n := m * n) (f := fun i (s : Arr K × List ℕ) => (do
    let (b, l) ← ext (readBytes C.size s.2)
    let A ← put s.1 i (C.dec b)
    pure (A, l) : Except RdErr (Arr K × List ℕ)))
    (s := (Arr.mk' (m * n) junk, (List.range (m * n)).flatMap (fun t => C.enc (a t)) ++ r))
    (fun k s => s.1.len = m * n ∧ (∀ t < k, s.1.get t = a t) ∧
      s.2 = (List.range' k (m * n - k)).flatMap (fun t => C.enc (a t)) ++ r)
    ⟨rfl, by simp, by simp [List.range_eq_range']⟩ (by
      rintro k ⟨A, l⟩ hk ⟨h1, h2, rfl⟩
      rw [flatMap_drop (α := K) _ _ _ hk]
      simp only [ext, List.append_assoc]
      rw [readBytes_app (hC.enc_len _)]
      refine ⟨(⟨A.len, Function.update A.get k (a k)⟩, _), ?_, h1, ?_, rfl⟩
      · simp only [bind, Except.bind, hC.dec_enc]
        rw [put_ok (lt_of_lt_of_eq hk h1.symm)]; rfl
      · intro t ht
        by_cases c : t = k
        · subst c; simp
        · simp only [Function.update_of_ne c]; exact h2 t (by omega))
  simp only [ext, bind, Except.bind] at e
  rw [e]
  exact ⟨s.1, rfl, hs.1, hs.2.1⟩

/-! ### A field satisfying the assumptions -/

omit [Zero K] [DecidableEq K] in
lemma codecZMod_ok {p : ℕ} [NeZero p] (hp : p < 2 ^ 64) : (codecZMod p).Ok where
  read_write w x c r hw hc := by
    simp only [codecZMod]
    rw [readNat_show hw (lt_trans (ZMod.val_lt x) hp) hc]
    simp [ZMod.natCast_zmod_val]
  read_zero w c r hw hc := by
    simp only [codecZMod]
    have := readNat_show (n := 0) (r := r) hw (by norm_num) hc
    rw [show (showNat 0 ++ c :: r) = 48 :: c :: r from rfl] at this
    rw [this]; simp
  card_ne := (showNat_spec hp).1
  card_word a ha := isDig_not_ws ((showNat_spec hp).2.1 a ha)
  enc_len x := leBytes_len _ _
  dec_enc x := by
    simp only [codecZMod]
    rw [ofBytes_le 8 _ (lt_trans (ZMod.val_lt x) (lt_of_lt_of_le hp (by norm_num)))]
    simp [ZMod.natCast_zmod_val]

end Verif.MatIO
