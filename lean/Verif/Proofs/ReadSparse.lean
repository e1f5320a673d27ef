import Verif.Model.ReadSparse
import Verif.Proofs.MatIO

/-! # Proofs about reading sparse matrices -/

namespace Verif.ReadSparse

open Verif Verif.MatIO

variable {K : Type}

/-- decimal notation with sign -/
def showInt (d : ℤ) : List ℕ := if d < 0 then 45 :: showNat d.natAbs else showNat d.natAbs

/-- the line of an entry -/
def lineOf (e : ℕ × ℕ × ℤ) : List ℕ := showNat e.1 ++ 32 :: (showNat e.2.1 ++ 32 :: showInt e.2.2)

lemma take_all {P : ℕ → Bool} {d : List ℕ} (hd : ∀ a ∈ d, P a = true) : d.takeWhile P = d ∧ d.dropWhile P = [] := by
  induction d with
  | nil => simp
  | cons a d ih =>
    have h1 := hd a (by simp)
    have h2 := ih (fun b hb => hd b (by simp [hb]))
    simp [h1, h2]

lemma readNat_end {w : List ℕ} {n : ℕ} (hw : AllWs w) (hn : n < 2 ^ 64) : readNat (w ++ showNat n) = some (n, []) := by
  obtain ⟨h1, h2, h3⟩ := showNat_spec hn
  have h4 : (w ++ showNat n).dropWhile isWs = showNat n := by
    cases hs : showNat n with
    | nil => exact absurd hs h1
    | cons a l => exact drop_ws hw (isDig_not_ws (h2 a (by simp [hs])))
  obtain ⟨t1, t2⟩ := take_all h2
  unfold readNat
  simp only [h4, t1, t2, if_neg h1, h3, if_pos hn]

lemma readInt_show {d : ℤ} (hd : d.natAbs < 2 ^ 64) : readInt (32 :: showInt d) = some (d, []) := by
  obtain ⟨h1, h2, _⟩ := showNat_spec hd
  unfold readInt showInt
  split_ifs with c
  · have h4 : (32 :: 45 :: showNat d.natAbs).dropWhile isWs = 45 :: showNat d.natAbs := drop_ws (w := [32]) (AllWs.one (by decide)) (by decide)
    rw [h4]
    have h5 : (showNat d.natAbs).head?.any isDig = true := by
      cases hs : showNat d.natAbs with
      | nil => exact absurd hs h1
      | cons a l => simpa using h2 a (by simp [hs])
    simp only [h5, if_true]
    have := readNat_end (w := []) AllWs.nil hd
    rw [List.nil_append] at this
    rw [this]
    simp only [Option.map_some, Option.some.injEq, Prod.mk.injEq, and_true]
    omega
  · have h4 : (32 :: showNat d.natAbs).dropWhile isWs = showNat d.natAbs := by
      cases hs : showNat d.natAbs with
      | nil => exact absurd hs h1
      | cons a l => exact drop_ws (w := [32]) (AllWs.one (by decide)) (isDig_not_ws (h2 a (by simp [hs])))
    rw [h4]
    have := readNat_end (w := []) AllWs.nil hd
    rw [List.nil_append] at this
    have h6 : ∀ l, showNat d.natAbs ≠ 45 :: l := by
      intro l e
      have := h2 45 (by simp [e])
      exact absurd this (by decide)
    simp only []
    rw [this]
    simp only [Option.map_some, Option.some.injEq, Prod.mk.injEq, and_true]
    omega

/-- numbers that fit in 64 bits -/
def Fits (e : ℕ × ℕ × ℤ) : Prop := e.1 < 2 ^ 64 ∧ e.2.1 < 2 ^ 64 ∧ e.2.2.natAbs < 2 ^ 64

lemma readTriple_line {e : ℕ × ℕ × ℤ} (h : Fits e) : readTriple (lineOf e) = some e := by
  obtain ⟨h1, h2, h3⟩ := h
  unfold readTriple lineOf
  have e1 := fun r => readNat_show (w := []) (n := e.1) (c := 32) (r := r) AllWs.nil h1 (by decide)
  have e2 := fun r => readNat_show (w := [32]) (n := e.2.1) (c := 32) (r := r) (AllWs.one (by decide)) h2 (by decide)
  simp only [List.nil_append, List.cons_append] at e1 e2
  rw [e1]
  simp only []
  rw [e2]
  simp only []
  rw [readInt_show h3]

lemma lineOf_ne {e : ℕ × ℕ × ℤ} : lineOf e ≠ [] := by simp [lineOf]

/-- comment lines and empty lines -/
def Skipped (s : List ℕ) : Prop := s = [] ∨ ∃ t, s = 37 :: t

lemma header_skip {cs ls : List (List ℕ)} (h : ∀ s ∈ cs, Skipped s) : header (cs ++ ls) = header ls := by
  induction cs with
  | nil => rfl
  | cons s cs ih =>
    have ih := ih (fun s hs => h s (by simp [hs]))
    rcases h s (by simp) with rfl | ⟨t, rfl⟩
    · rw [List.cons_append, header, if_pos rfl, ih]
    · rw [List.cons_append, header, if_neg (by simp)]
      have : readWord (37 :: t) = some ((37 :: t).takeWhile (fun c => !isWs c), (37 :: t).dropWhile (fun c => !isWs c)) := by
        unfold readWord
        simp [List.dropWhile, isWs]
      rw [this]
      simp only []
      rw [if_pos (by simp [List.takeWhile, isWs]), ih]

/-- the line with the dimensions -/
def headLine (m n : ℕ) (nnz : Option ℕ) : List ℕ := showNat m ++ 32 :: (showNat n ++ 32 :: (match nnz with
  | none => [77]
  | some k => showNat k))

lemma readWord_end {w d : List ℕ} (hw : AllWs w) (hd : d ≠ []) (hd2 : ∀ a ∈ d, isWs a = false) : readWord (w ++ d) = some (d, []) := by
  have h4 : (w ++ d).dropWhile isWs = d := by
    cases hs : d with
    | nil => exact absurd hs hd
    | cons a l => exact drop_ws hw (hd2 a (by simp [hs]))
  unfold readWord
  simp only [h4, if_neg hd]
  obtain ⟨t1, t2⟩ := take_all (P := fun c => !isWs c) (d := d) (by simpa using hd2)
  rw [t1, t2]

lemma header_line {m n : ℕ} {nnz : Option ℕ} {ls : List (List ℕ)} (hm : m < 2 ^ 64) :
    header (headLine m n nnz :: ls) = .ok (headLine m n nnz, ls) := by
  obtain ⟨h1, h2, _⟩ := showNat_spec hm
  rw [header, if_neg (by simp [headLine])]
  have e1 := fun r => readWord_word (w := []) (c := 32) (r := r) AllWs.nil h1 (fun a ha => isDig_not_ws (h2 a ha)) (by decide)
  simp only [List.nil_append] at e1
  unfold headLine
  rw [e1]
  simp only []
  rw [if_neg]
  cases hs : showNat m with
  | nil => exact absurd hs h1
  | cons a l =>
    have := h2 a (by simp [hs])
    simp only [List.head?_cons]
    intro e; cases e
    exact absurd this (by decide)

lemma dims_line {m n : ℕ} {nnz : Option ℕ} (hm : m < 2 ^ 64) (hn : n < 2 ^ 64) (hk : ∀ k, nnz = some k → k < 2 ^ 64) :
    dims (headLine m n nnz) = some (m, n, nnz) := by
  have e1 := fun r => readNat_show (w := []) (n := m) (c := 32) (r := r) AllWs.nil hm (by decide)
  have e2 := fun r => readNat_show (w := [32]) (n := n) (c := 32) (r := r) (AllWs.one (by decide)) hn (by decide)
  simp only [List.nil_append, List.cons_append] at e1 e2
  unfold dims headLine
  rw [e1]
  simp only []
  rw [e2]
  simp only []
  cases nnz with
  | none =>
    have := readWord_end (w := [32]) (d := [77]) (AllWs.one (by decide)) (by simp) (by simp [isWs])
    simp only [List.cons_append, List.nil_append] at this
    simp only [this, if_true]
  | some k =>
    obtain ⟨h1, h2, _⟩ := showNat_spec (hk k rfl)
    have := readWord_end (w := [32]) (AllWs.one (by decide)) h1 (fun a ha => isDig_not_ws (h2 a ha))
    simp only [List.cons_append, List.nil_append] at this
    simp only [this]
    have e3 := readNat_end (w := []) AllWs.nil (hk k rfl)
    rw [List.nil_append] at e3
    rw [e3, if_neg]
    · rfl
    · intro e
      have := h2 77 (by simp [e])
      exact absurd this (by decide)

variable [Ring K] [DecidableEq K]

/-- the entries that are not zero in the field -/
def kept (K : Type) [Ring K] [DecidableEq K] (es : List (ℕ × ℕ × ℤ)) : List (ℕ × ℕ × ℤ) := es.filter fun e => decide ((e.2.2 : K) ≠ 0)

/-- what the loop has built from the entries `p` -/
structure Inv (m : ℕ) (nnz : Option ℕ) (p : List (ℕ × ℕ × ℤ)) (s : St K) : Prop where
  i : s.i = p.length
  rlen : s.row.len = m + 1
  row : ∀ l, s.row.get l = (kept K p).countP fun e => e.1 = l
  clen : s.colid.len = nnz.getD (kept K p).length
  dlen : s.dat.len = nnz.getD (kept K p).length
  col : ∀ k e, (kept K p)[k]? = some e → s.colid.get k = e.2.1 - 1
  dat : ∀ k e, (kept K p)[k]? = some e → s.dat.get k = (e.2.2 : K)

lemma kept_snoc_ne {p : List (ℕ × ℕ × ℤ)} {e : ℕ × ℕ × ℤ} (h : (e.2.2 : K) ≠ 0) : kept K (p ++ [e]) = kept K p ++ [e] := by
  simp [kept, h]

lemma kept_snoc_zero {p : List (ℕ × ℕ × ℤ)} {e : ℕ × ℕ × ℤ} (h : (e.2.2 : K) = 0) : kept K (p ++ [e]) = kept K p := by
  simp [kept, h]

lemma kept_self {p : List (ℕ × ℕ × ℤ)} (h : ∀ e ∈ p, (e.2.2 : K) ≠ 0) : kept K p = p := by
  simp only [kept, List.filter_eq_self, decide_eq_true_eq]; exact h

lemma entry_ok {m : ℕ} {nnz : Option ℕ} {p : List (ℕ × ℕ × ℤ)} {s : St K} {e : ℕ × ℕ × ℤ} (h : Inv m nnz p s) (hl : e.1 ≤ m)
    (hz : ∀ k, nnz = some k → p.length < k ∧ (∀ e ∈ p, (e.2.2 : K) ≠ 0) ∧ (e.2.2 : K) ≠ 0) :
    ∃ s', entry nnz.isNone e.1 e.2.1 e.2.2 s = .ok s' ∧ Inv m nnz (p ++ [e]) s' := by
  have hupd : ∀ {α : Type} (g : ℕ → α) (f : ℕ × ℕ × ℤ → α) (hg : ∀ k x, (kept K p)[k]? = some x → g k = f x) (i : ℕ),
      i = (kept K p).length → ∀ k x, (kept K p ++ [e])[k]? = some x → Function.update g i (f e) k = f x := by
    intro α g f hg i hi k x hx
    by_cases c : k = i
    · subst c
      rw [hi, List.getElem?_append_right (le_refl _), Nat.sub_self] at hx
      simp at hx; subst hx; simp
    · have hk : k < (kept K p).length := by
        have := List.getElem?_eq_some_iff.1 hx
        obtain ⟨h1, _⟩ := this
        simp at h1; omega
      rw [List.getElem?_append_left hk] at hx
      rw [Function.update_of_ne c]; exact hg k x hx
  by_cases hv : (e.2.2 : K) = 0
  · refine ⟨{ s with i := s.i + 1 }, ?_, ?_⟩
    · unfold entry
      simp [hv, pure, Except.pure]
    · cases nnz with
      | some k => exact absurd hv (hz k rfl).2.2
      | none =>
        refine ⟨by simp [h.i], h.rlen, ?_, ?_, ?_, ?_, ?_⟩ <;> rw [kept_snoc_zero hv]
        · exact h.row
        · exact h.clen
        · exact h.dlen
        · exact h.col
        · exact h.dat
  · have hrow : ∀ l, Function.update s.row.get e.1 (s.row.get e.1 + 1) l = (kept K p ++ [e]).countP fun x => decide (x.1 = l) := by
      intro l
      rw [List.countP_append, ← h.row]
      by_cases c : l = e.1
      · subst c; simp
      · rw [Function.update_of_ne c]; simp [Ne.symm c]
    cases nnz with
    | none =>
      refine ⟨⟨⟨s.row.len, Function.update s.row.get e.1 (s.row.get e.1 + 1)⟩, push s.colid (e.2.1 - 1), push s.dat (e.2.2 : K), s.i + 1⟩, ?_, ?_⟩
      · unfold entry
        simp [hv, Arr.rd, Arr.wr, h.rlen, Nat.lt_succ_of_le hl, acc, bind, Except.bind, pure, Except.pure]
      · have hc := h.clen
        have hd := h.dlen
        simp only [Option.getD_none] at hc hd
        refine ⟨by simp [h.i], h.rlen, ?_, ?_, ?_, ?_, ?_⟩ <;> rw [kept_snoc_ne hv]
        · exact hrow
        · simp [push, hc]
        · simp [push, hd]
        · exact hupd s.colid.get (fun x => x.2.1 - 1) h.col _ hc
        · exact hupd s.dat.get (fun x => (x.2.2 : K)) h.dat _ hd
    | some k =>
      obtain ⟨hk, hp, _⟩ := hz k rfl
      have hi : s.i = (kept K p).length := by rw [h.i, kept_self hp]
      have hc := h.clen
      have hd := h.dlen
      simp only [Option.getD_some] at hc hd
      refine ⟨⟨⟨s.row.len, Function.update s.row.get e.1 (s.row.get e.1 + 1)⟩, ⟨s.colid.len, Function.update s.colid.get s.i (e.2.1 - 1)⟩,
        ⟨s.dat.len, Function.update s.dat.get s.i (e.2.2 : K)⟩, s.i + 1⟩, ?_, ?_⟩
      · unfold entry
        have h1 : s.i < s.colid.len := by rw [hc, h.i]; exact hk
        have h2 : s.i < s.dat.len := by rw [hd, h.i]; exact hk
        simp [hv, Arr.rd, Arr.wr, h.rlen, Nat.lt_succ_of_le hl, h1, h2, acc, bind, Except.bind, pure, Except.pure]
      · refine ⟨by simp [h.i], h.rlen, ?_, hc, hd, ?_, ?_⟩ <;> rw [kept_snoc_ne hv]
        · exact hrow
        · exact hupd s.colid.get (fun x => x.2.1 - 1) h.col _ hi
        · exact hupd s.dat.get (fun x => (x.2.2 : K)) h.dat _ hi

/-- the entries of a file: inside of the matrix, numbers of 64 bits, empty lines are not represented -/
def Good (m n : ℕ) (e : ℕ × ℕ × ℤ) : Prop := 1 ≤ e.1 ∧ e.1 ≤ m ∧ 1 ≤ e.2.1 ∧ e.2.1 ≤ n ∧ Fits e

lemma entriesLoop_ok (dbg : Bool) {m n : ℕ} {nnz : Option ℕ} {ls : List (List ℕ)} (es : List (ℕ × ℕ × ℤ)) :
    ∀ (p : List (ℕ × ℕ × ℤ)) (s : St K), Inv m nnz p s → (∀ e ∈ es, Good m n e) →
    (∀ k, nnz = some k → p.length + es.length = k ∧ (∀ e ∈ p ++ es, (e.2.2 : K) ≠ 0)) →
    (nnz = none → ∃ l', ls = lineOf (0, 0, 0) :: l') →
    ∃ s', entriesLoop dbg nnz (es.map lineOf ++ ls) s = .ok s' ∧ Inv m nnz (p ++ es) s' := by
  induction es with
  | nil =>
    intro p s h _ hk hn
    refine ⟨s, ?_, by simpa using h⟩
    cases nnz with
    | none =>
      obtain ⟨l', rfl⟩ := hn rfl
      rw [List.map_nil, List.nil_append, entriesLoop, if_neg (by simp), if_neg lineOf_ne, readTriple_line (by simp [Fits])]
      simp
    | some k =>
      obtain ⟨h1, _⟩ := hk k rfl
      have : some k = some s.i := by rw [h.i, ← h1]; simp
      cases ls with
      | nil => rw [List.map_nil, List.nil_append, entriesLoop, if_pos this]
      | cons a l => rw [List.map_nil, List.nil_append, entriesLoop, if_pos this]
  | cons e es ih =>
    intro p s h hg hk hn
    obtain ⟨g1, g2, g3, g4, g5⟩ := hg e (by simp)
    obtain ⟨s1, e1, h1⟩ := entry_ok (e := e) h g2 (fun k hk' => by
      obtain ⟨a, b⟩ := hk k hk'
      refine ⟨by simp at a; omega, fun x hx => b x (by simp [hx]), b e (by simp)⟩)
    obtain ⟨s2, e2, h2⟩ := ih (p ++ [e]) s1 h1 (fun x hx => hg x (by simp [hx])) (fun k hk' => by
      obtain ⟨a, b⟩ := hk k hk'
      refine ⟨by simp at a ⊢; omega, by simpa using b⟩) hn
    refine ⟨s2, ?_, by simpa using h2⟩
    rw [List.map_cons, List.cons_append, entriesLoop, if_neg, if_neg lineOf_ne, readTriple_line g5]
    · obtain ⟨a, b, c⟩ := e
      simp only at g1 g3 e1 ⊢
      rw [if_neg (by omega), if_neg (by omega), e1]
      exact e2
    · intro hs
      obtain ⟨a, _⟩ := hk _ hs
      rw [h.i] at a
      simp at a

lemma prefixSums_ok {m : ℕ} {row : Arr ℕ} (h : m < row.len) : ∃ R, prefixSums m row = .ok R ∧ R.len = row.len ∧
    ∀ j ≤ m, R.get j = ∑ t ∈ Finset.range (j + 1), row.get t := by
  obtain ⟨R, e, h1, h2, _⟩ := iter_inv (n := m) (f := fun j (row : Arr ℕ) => (do
    let x ← acc (row.rd (j + 1))
    let y ← acc (row.rd j)
    acc (row.wr (j + 1) (x + y)) : Except SpErr (Arr ℕ))) (s := row)
    (fun k R => R.len = row.len ∧ (∀ j ≤ k, R.get j = ∑ t ∈ Finset.range (j + 1), row.get t) ∧ ∀ j, k < j → R.get j = row.get j)
    ⟨rfl, by intro j hj; obtain rfl : j = 0 := by omega
             simp, fun _ _ => rfl⟩ (by
      rintro k R hk ⟨h1, h2, h3⟩
      refine ⟨⟨R.len, Function.update R.get (k + 1) (R.get (k + 1) + R.get k)⟩, ?_, h1, ?_, ?_⟩
      · simp [Arr.rd, Arr.wr, acc, bind, Except.bind, h1, show k + 1 < row.len by omega, show k < row.len by omega]
      · intro j hj
        show Function.update R.get (k + 1) (R.get (k + 1) + R.get k) j = _
        by_cases c : j = k + 1
        · subst c
          rw [Function.update_self, h3 _ (by omega), h2 k le_rfl, Finset.sum_range_succ _ (k + 1)]; ring
        · rw [Function.update_of_ne c]; exact h2 j (by omega)
      · intro j hj
        show Function.update R.get (k + 1) (R.get (k + 1) + R.get k) j = _
        rw [Function.update_of_ne (by omega)]; exact h3 j (by omega))
  exact ⟨R, e, h1, h2⟩

omit [Ring K] [DecidableEq K] in
/-- counting by rows and summing is counting the rows up to `j` -/
lemma sum_countP (L : List (ℕ × ℕ × ℤ)) (j : ℕ) :
    ∑ t ∈ Finset.range (j + 1), L.countP (fun e => decide (e.1 = t)) = L.countP fun e => decide (e.1 ≤ j) := by
  induction L with
  | nil => simp
  | cons a L ih =>
    simp only [List.countP_cons, Finset.sum_add_distrib, ih, decide_eq_true_eq]
    congr 1
    rw [Finset.sum_ite_eq]
    simp [Nat.lt_succ_iff]

omit [Ring K] [DecidableEq K] in
/-- in a list sorted by rows the entries of the rows up to `j` come first -/
lemma countP_sorted (j : ℕ) : ∀ (L : List (ℕ × ℕ × ℤ)), L.Pairwise (fun a b => a.1 ≤ b.1) → ∀ (k : ℕ) (e), L[k]? = some e →
    (k < L.countP (fun e => decide (e.1 ≤ j)) ↔ e.1 ≤ j) := by
  intro L
  induction L with
  | nil => intro _ k e h; simp at h
  | cons a L ih =>
    intro hL k e he
    rw [List.pairwise_cons] at hL
    by_cases c : a.1 ≤ j
    · rw [List.countP_cons_of_pos (by simpa using c)]
      cases k with
      | zero => simp at he; subst he; simp [c]
      | succ k =>
        rw [List.getElem?_cons_succ] at he
        rw [← ih hL.2 k e he]; omega
    · have h0 : L.countP (fun e => decide (e.1 ≤ j)) = 0 := by
        rw [List.countP_eq_zero]
        intro x hx
        have := hL.1 x hx
        simp; omega
      rw [List.countP_cons_of_neg (by simpa using c), h0]
      cases k with
      | zero => simp at he; subst he; simp; omega
      | succ k =>
        rw [List.getElem?_cons_succ] at he
        have := hL.1 e (List.mem_of_getElem? he)
        omega

end Verif.ReadSparse
