import Verif.Core.Mem
import Mathlib.Logic.Function.Basic

/-!
# Index arrays with checked access, and counted loops

`size_t * P` arrays are modelled as values with a length; reading or writing outside the length is the
fault `oob`.  `iter n f s` is the loop `for (i = 0; i < n; ++i) s = f i s`.
-/

namespace Verif

/-- An array of `len` entries.  `get` is total, but the model only accesses it through the checked
`rd`/`wr`, so the values at or beyond `len` are never observed. -/
structure Arr (α : Type) where
  len : ℕ
  get : ℕ → α

namespace Arr
variable {α : Type}

/-- checked read -/
def rd (a : Arr α) (i : ℕ) : Except Fault α := if i < a.len then .ok (a.get i) else .error .oob

/-- checked write -/
def wr (a : Arr α) (i : ℕ) (v : α) : Except Fault (Arr α) :=
  if i < a.len then .ok ⟨a.len, Function.update a.get i v⟩ else .error .oob

/-- `new T[n]`: unspecified contents (`junk` is universally quantified in every theorem). -/
def mk' (n : ℕ) (junk : ℕ → α) : Arr α := ⟨n, junk⟩

def ofList [Inhabited α] (l : List α) : Arr α := ⟨l.length, fun i => l.getD i default⟩
def toList (a : Arr α) : List α := (List.range a.len).map a.get

end Arr

/-- Counted loop in any monad. -/
def iter {m : Type → Type} [Monad m] {σ : Type} : ℕ → (ℕ → σ → m σ) → σ → m σ
  | 0, _, s => pure s
  | n+1, f, s => iter n f s >>= f n

/-- Success of a pure computation with a postcondition. -/
def Ok {α : Type} (e : Except Fault α) (Q : α → Prop) : Prop := ∃ a, e = .ok a ∧ Q a

section Ok
variable {α β σ : Type}

@[simp] lemma Ok_pure (a : α) (Q : α → Prop) : Ok (pure a) Q ↔ Q a := by
  simp [Ok, pure, Except.pure]
@[simp] lemma Ok_ok (a : α) (Q : α → Prop) : Ok (.ok a) Q ↔ Q a := by simp [Ok]
@[simp] lemma Ok_error (e : Fault) (Q : α → Prop) : Ok (.error e) Q ↔ False := by simp [Ok]

@[simp] lemma Ok_bind (p : Except Fault α) (f : α → Except Fault β) (Q : β → Prop) :
    Ok (p >>= f) Q ↔ Ok p (fun a => Ok (f a) Q) := by
  cases p <;> simp [Ok, bind, Except.bind]

@[simp] lemma Ok_rd (a : Arr α) (i : ℕ) (Q : α → Prop) : Ok (a.rd i) Q ↔ i < a.len ∧ Q (a.get i) := by
  unfold Arr.rd; split_ifs with h <;> simp [h]

@[simp] lemma Ok_wr (a : Arr α) (i : ℕ) (v : α) (Q : Arr α → Prop) :
    Ok (a.wr i v) Q ↔ i < a.len ∧ Q ⟨a.len, Function.update a.get i v⟩ := by
  unfold Arr.wr; split_ifs with h <;> simp [h]

lemma Ok.mono {p : Except Fault α} {Q R : α → Prop} (h : Ok p Q) (hQR : ∀ a, Q a → R a) : Ok p R := by
  obtain ⟨a, ha, hq⟩ := h; exact ⟨a, ha, hQR a hq⟩

lemma Ok_ite {c : Prop} [Decidable c] {p q : Except Fault α} {Q : α → Prop} :
    Ok (if c then p else q) Q ↔ (c → Ok p Q) ∧ (¬ c → Ok q Q) := by
  split_ifs with h <;> simp [h]

/-- Loop invariant rule. -/
lemma Ok_iter {n : ℕ} {f : ℕ → σ → Except Fault σ} {s : σ} (I : ℕ → σ → Prop) (h0 : I 0 s)
    (hs : ∀ k s, k < n → I k s → Ok (f k s) (I (k+1))) : Ok (iter n f s) (I n) := by
  induction n with
  | zero => simpa [iter] using h0
  | succ n ih =>
    simp only [iter, Ok_bind]
    exact (ih (fun k s hk => hs k s (by omega))).mono (fun a ha => hs n a (by omega) ha)

end Ok

/-- Nested counted loops are one counted loop over the pairs in lexicographic order. -/
lemma iter_mul {σ : Type} (r c : ℕ) (hc : 0 < c) (f : ℕ → ℕ → σ → Except Fault σ) (s : σ) :
    iter r (fun i => iter c (f i)) s = iter (r * c) (fun t => f (t / c) (t % c)) s := by
  have add : ∀ (a b : ℕ) (g : ℕ → σ → Except Fault σ) (s : σ),
      iter (a + b) g s = iter a g s >>= iter b (fun t => g (a + t)) := by
    intro a b g s
    induction b with
    | zero => simp only [Nat.add_zero, iter]; cases iter a g s <;> rfl
    | succ b ih =>
      rw [← Nat.add_assoc]
      simp only [iter, ih]
      cases iter a g s <;> rfl
  have hcongr : ∀ (n : ℕ) (g h : ℕ → σ → Except Fault σ) (s : σ), (∀ t < n, g t = h t) → iter n g s = iter n h s := by
    intro n g h s hgh
    induction n with
    | zero => rfl
    | succ n ih => simp only [iter]; rw [ih (fun t ht => hgh t (by omega)), hgh n (by omega)]
  induction r with
  | zero => simp [iter]
  | succ r ih =>
    rw [Nat.succ_mul, add (r * c) c, ← ih]
    simp only [iter]
    congr 1
    funext x
    apply hcongr
    intro t ht
    rw [Nat.mul_comm r c, Nat.mul_add_div hc, Nat.mul_add_mod, Nat.div_eq_of_lt ht, Nat.mod_eq_of_lt ht, Nat.add_zero]

/-- A loop that stores independently computed values at distinct addresses. -/
lemma Ok_fill {α : Type} (N : ℕ) (addr : ℕ → ℕ) (f : ℕ → Except Fault α) (v : ℕ → α) (A : Arr α)
    (hf : ∀ t < N, f t = .ok (v t)) (hb : ∀ t < N, addr t < A.len)
    (hinj : ∀ s < N, ∀ t < N, addr s = addr t → s = t) :
    Ok (iter N (fun t (A : Arr α) => do let x ← f t; A.wr (addr t) x) A) (fun B =>
      B.len = A.len ∧ (∀ t < N, B.get (addr t) = v t) ∧ ∀ i, (∀ t < N, i ≠ addr t) → B.get i = A.get i) := by
  refine Ok_iter (fun k (B : Arr α) => B.len = A.len ∧ (∀ t < k, B.get (addr t) = v t) ∧
      ∀ i, (∀ t < k, i ≠ addr t) → B.get i = A.get i) ⟨rfl, by simp, by simp⟩ ?_
  rintro k B hk ⟨h1, h2, h3⟩
  rw [hf k hk]
  simp only [Ok_bind, Ok_ok, Ok_wr]
  refine ⟨by rw [h1]; exact hb k hk, h1, ?_, ?_⟩
  · intro t ht
    by_cases e : t = k
    · subst e; simp
    · rw [Function.update_of_ne (fun h => e (hinj t (by omega) k hk h))]
      exact h2 t (by omega)
  · intro i hi
    rw [Function.update_of_ne (hi k (by omega))]
    exact h3 i (fun t ht => hi t (by omega))

/-- Two nested storing loops. -/
lemma Ok_fill2 {α : Type} (r c : ℕ) (addr : ℕ → ℕ → ℕ) (f : ℕ → ℕ → Except Fault α) (v : ℕ → ℕ → α) (A : Arr α)
    (hf : ∀ i < r, ∀ j < c, f i j = .ok (v i j)) (hb : ∀ i < r, ∀ j < c, addr i j < A.len)
    (hinj : ∀ i < r, ∀ j < c, ∀ i' < r, ∀ j' < c, addr i j = addr i' j' → i = i' ∧ j = j') :
    Ok (iter r (fun i => iter c (fun j (A : Arr α) => do let x ← f i j; A.wr (addr i j) x)) A) (fun B =>
      B.len = A.len ∧ (∀ i < r, ∀ j < c, B.get (addr i j) = v i j) ∧
      ∀ a, (∀ i < r, ∀ j < c, a ≠ addr i j) → B.get a = A.get a) := by
  rcases Nat.eq_zero_or_pos c with rfl | hc
  · refine (Ok_iter (fun _ (B : Arr α) => B = A) rfl ?_).mono ?_
    · rintro k s _ rfl; simp [iter]
    · rintro B rfl; simp
  rw [iter_mul r c hc (fun i j (A : Arr α) => do let x ← f i j; A.wr (addr i j) x) A]
  have hd : ∀ t < r * c, t / c < r := fun t ht => (Nat.div_lt_iff_lt_mul hc).2 ht
  have hm : ∀ t, t % c < c := fun t => Nat.mod_lt _ hc
  refine (Ok_fill (r * c) (fun t => addr (t / c) (t % c)) (fun t => f (t / c) (t % c)) (fun t => v (t / c) (t % c)) A
    (fun t ht => hf _ (hd t ht) _ (hm t)) (fun t ht => hb _ (hd t ht) _ (hm t)) ?_).mono ?_
  · intro s hs t ht h
    obtain ⟨h1, h2⟩ := hinj _ (hd s hs) _ (hm s) _ (hd t ht) _ (hm t) h
    rw [← Nat.div_add_mod s c, ← Nat.div_add_mod t c, h1, h2]
  · rintro B ⟨h1, h2, h3⟩
    refine ⟨h1, ?_, ?_⟩
    · intro i hi j hj
      have ht : i * c + j < r * c := by
        calc i * c + j < i * c + c := by omega
          _ = (i + 1) * c := by ring
          _ ≤ r * c := Nat.mul_le_mul_right _ hi
      have := h2 (i * c + j) ht
      rwa [Nat.mul_comm i c, Nat.mul_add_div hc, Nat.mul_add_mod, Nat.div_eq_of_lt hj, Nat.mod_eq_of_lt hj,
        Nat.add_zero] at this
    · intro a ha
      exact h3 a (fun t ht => ha _ (hd t ht) _ (hm t))

/-- `n` entries of an array at `off, off+stride, ...`, with checked accesses. -/
def readRow {α : Type} (A : Arr α) (off stride : ℕ) : ℕ → Except Fault (List α)
  | 0 => .ok []
  | n+1 => do
    let l ← readRow A off stride n
    let x ← A.rd (off + n * stride)
    pure (l ++ [x])

lemma readRow_ok {α : Type} (A : Arr α) (off stride n : ℕ) (h : ∀ l < n, off + l * stride < A.len) :
    readRow A off stride n = .ok ((List.range n).map (fun l => A.get (off + l * stride))) := by
  induction n with
  | zero => rfl
  | succ n ih =>
    simp only [readRow, ih (fun l hl => h l (by omega)), Arr.rd, if_pos (h n (by omega)), List.range_succ,
      List.map_append, List.map_cons, List.map_nil]
    rfl

/-- Updating loop: cell `addr t` is replaced by `f t` of its contents. -/
lemma Ok_upd {α : Type} (N : ℕ) (addr : ℕ → ℕ) (f : ℕ → α → Except Fault α) (v : ℕ → α) (A : Arr α)
    (hf : ∀ t < N, f t (A.get (addr t)) = .ok (v t)) (hb : ∀ t < N, addr t < A.len)
    (hinj : ∀ s < N, ∀ t < N, addr s = addr t → s = t) :
    Ok (iter N (fun t (A : Arr α) => do let a ← A.rd (addr t); let x ← f t a; A.wr (addr t) x) A) (fun B =>
      B.len = A.len ∧ (∀ t < N, B.get (addr t) = v t) ∧ ∀ i, (∀ t < N, i ≠ addr t) → B.get i = A.get i) := by
  refine Ok_iter (fun k (B : Arr α) => B.len = A.len ∧ (∀ t < k, B.get (addr t) = v t) ∧
      ∀ i, (∀ t < k, i ≠ addr t) → B.get i = A.get i) ⟨rfl, by simp, by simp⟩ ?_
  rintro k B hk ⟨h1, h2, h3⟩
  have hget : B.get (addr k) = A.get (addr k) :=
    h3 _ (fun t ht e => by have := hinj k hk t (by omega) e; omega)
  simp only [Ok_bind, Ok_rd, hget, hf k hk, Ok_ok, Ok_wr]
  have hlt : addr k < B.len := by rw [h1]; exact hb k hk
  refine ⟨hlt, hlt, h1, ?_, ?_⟩
  · intro t ht
    by_cases e : t = k
    · subst e; rw [Function.update_self]
    · rw [Function.update_of_ne (fun hh => e (hinj t (by omega) k hk hh))]
      exact h2 t (by omega)
  · intro i hi
    rw [Function.update_of_ne (hi k (by omega))]
    exact h3 i (fun t ht => hi t (by omega))

lemma Ok_upd2 {α : Type} (r c : ℕ) (addr : ℕ → ℕ → ℕ) (f : ℕ → ℕ → α → Except Fault α) (v : ℕ → ℕ → α) (A : Arr α)
    (hf : ∀ i < r, ∀ j < c, f i j (A.get (addr i j)) = .ok (v i j)) (hb : ∀ i < r, ∀ j < c, addr i j < A.len)
    (hinj : ∀ i < r, ∀ j < c, ∀ i' < r, ∀ j' < c, addr i j = addr i' j' → i = i' ∧ j = j') :
    Ok (iter r (fun i => iter c (fun j (A : Arr α) => do
        let a ← A.rd (addr i j); let x ← f i j a; A.wr (addr i j) x)) A) (fun B =>
      B.len = A.len ∧ (∀ i < r, ∀ j < c, B.get (addr i j) = v i j) ∧
      ∀ a, (∀ i < r, ∀ j < c, a ≠ addr i j) → B.get a = A.get a) := by
  rcases Nat.eq_zero_or_pos c with rfl | hc
  · refine (Ok_iter (fun _ (B : Arr α) => B = A) rfl ?_).mono ?_
    · rintro k s _ rfl; simp [iter]
    · rintro B rfl; simp
  rw [iter_mul r c hc (fun i j (A : Arr α) => do let a ← A.rd (addr i j); let x ← f i j a; A.wr (addr i j) x) A]
  have hd : ∀ t < r * c, t / c < r := fun t ht => (Nat.div_lt_iff_lt_mul hc).2 ht
  have hm : ∀ t, t % c < c := fun t => Nat.mod_lt _ hc
  refine (Ok_upd (r * c) (fun t => addr (t / c) (t % c)) (fun t => f (t / c) (t % c)) (fun t => v (t / c) (t % c)) A
    (fun t ht => hf _ (hd t ht) _ (hm t)) (fun t ht => hb _ (hd t ht) _ (hm t)) ?_).mono ?_
  · intro s hs t ht h
    obtain ⟨h1, h2⟩ := hinj _ (hd s hs) _ (hm s) _ (hd t ht) _ (hm t) h
    rw [← Nat.div_add_mod s c, ← Nat.div_add_mod t c, h1, h2]
  · rintro B ⟨h1, h2, h3⟩
    refine ⟨h1, ?_, fun a ha => h3 a (fun t ht => ha _ (hd t ht) _ (hm t))⟩
    intro i hi j hj
    have ht : j + i * c < r * c := by
      calc j + i * c < c + i * c := by omega
        _ = (i + 1) * c := by ring
        _ ≤ r * c := Nat.mul_le_mul_right _ hi
    have := h2 (j + i * c) ht
    rwa [Nat.add_mul_div_right _ _ hc, Nat.div_eq_of_lt hj, Nat.add_mul_mod_self_right, Nat.mod_eq_of_lt hj,
      Nat.zero_add] at this

section Run
variable {K α β σ : Type}

@[simp] lemma Run_liftE (e : Except Fault α) (m : Mem K) (Q : α → Mem K → Prop) :
    Run (liftE e) m Q ↔ Ok e (fun a => Q a m) := by
  unfold Run liftE Ok; cases e <;> simp

@[simp] lemma Ok_invE [Field K] [DecidableEq K] (x : K) (Q : K → Prop) :
    Ok (invE x) Q ↔ x ≠ 0 ∧ Q x⁻¹ := by
  unfold invE; split_ifs with h <;> simp [h]

@[simp] lemma Ok_usub (a b : ℕ) (Q : ℕ → Prop) : Ok (usub a b) Q ↔ b ≤ a ∧ Q (a - b) := by
  unfold usub; split_ifs with h <;> simp [h]

/-- Loop invariant rule for programs. -/
lemma Run_iter {n : ℕ} {f : ℕ → σ → Prog K σ} {s : σ} {m : Mem K} (I : ℕ → σ → Mem K → Prop)
    (h0 : I 0 s m) (hs : ∀ k s m, k < n → I k s m → Run (f k s) m (I (k+1))) :
    Run (iter n f s) m (I n) := by
  induction n with
  | zero => simpa [iter] using h0
  | succ n ih =>
    simp only [iter, Run_bind]
    exact (ih (fun k s m hk => hs k s m (by omega))).mono (fun a m' ha => hs n a m' (by omega) ha)

end Run
end Verif
