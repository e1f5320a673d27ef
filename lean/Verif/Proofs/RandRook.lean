import Verif.Model.RandRook
import Verif.Spec.Rook

/-!
# Random index subsets and rank profile matrices
-/

namespace Verif.RandRook

open Verif.FF Verif.Spec

/-- success with a postcondition, or one of the faults `F` -/
def OkOr {α : Type} (F : Fault → Prop) (e : Except Fault α) (Q : α → Prop) : Prop := (∃ a, e = .ok a ∧ Q a) ∨ ∃ f, e = .error f ∧ F f

section
variable {α β σ : Type} {F : Fault → Prop}

lemma OkOr.of {e : Except Fault α} {Q : α → Prop} (h : Ok e Q) : OkOr F e Q := Or.inl h

lemma OkOr_error {f : Fault} {Q : α → Prop} (h : F f) : OkOr F (.error f) Q := Or.inr ⟨f, rfl, h⟩

lemma OkOr_bind {p : Except Fault α} {f : α → Except Fault β} {Q : β → Prop} (h : OkOr F p (fun a => OkOr F (f a) Q)) : OkOr F (p >>= f) Q := by
  rcases h with ⟨a, rfl, h⟩ | ⟨e, rfl, h⟩
  · exact h
  · exact Or.inr ⟨e, rfl, h⟩

lemma OkOr.mono {p : Except Fault α} {Q R : α → Prop} (h : OkOr F p Q) (hQR : ∀ a, Q a → R a) : OkOr F p R := by
  rcases h with ⟨a, ha, hq⟩ | h
  · exact Or.inl ⟨a, ha, hQR a hq⟩
  · exact Or.inr h

lemma OkOr_pure {a : α} {Q : α → Prop} (h : Q a) : OkOr F (pure a) Q := Or.inl ⟨a, rfl, h⟩

lemma OkOr_iter {n : ℕ} {f : ℕ → σ → Except Fault σ} {s : σ} (I : ℕ → σ → Prop) (h0 : I 0 s)
    (hs : ∀ k s, k < n → I k s → OkOr F (f k s) (I (k+1))) : OkOr F (iter n f s) (I n) := by
  induction n with
  | zero => exact OkOr_pure h0
  | succ n ih =>
    simp only [iter]
    exact OkOr_bind ((ih (fun k s hk => hs k s (by omega))).mono (fun a ha => hs n a (by omega) ha))

lemma OkOr.ok {e : Except Fault α} {Q : α → Prop} (h : OkOr (fun _ => False) e Q) : Ok e Q := by
  rcases h with h | ⟨_, _, h⟩
  · exact h
  · exact h.elim

end

/-- what is still available in positions `k, …, N - 1` of `arr` is what is not in positions `0, …, k - 1` of `used` -/
structure Avail (N k : ℕ) (arr used : ℕ → ℕ) : Prop where
  bu : ∀ l < k, used l < N
  iu : ∀ l < k, ∀ l' < k, used l = used l' → l = l'
  ba : ∀ l, k ≤ l → l < N → arr l < N
  ia : ∀ l, k ≤ l → l < N → ∀ l', k ≤ l' → l' < N → arr l = arr l' → l = l'
  dis : ∀ l < k, ∀ l', k ≤ l' → l' < N → used l ≠ arr l'
  cov : ∀ v < N, (∃ l < k, used l = v) ∨ ∃ l, k ≤ l ∧ l < N ∧ arr l = v

lemma Avail.start (N : ℕ) (used : ℕ → ℕ) {arr : ℕ → ℕ} (h : ∀ i < N, arr i = i) : Avail N 0 arr used where
  bu l hl := by omega
  iu l hl := by omega
  ba l _ hl := by rw [h l hl]; exact hl
  ia l _ hl l' _ hl' e := by rwa [h l hl, h l' hl'] at e
  dis l hl := by omega
  cov v hv := Or.inr ⟨v, by omega, hv, h v hv⟩

variable {N k : ℕ} {arr used : ℕ → ℕ}

/-- entry `j` is taken, the first available one moves there -/
lemma Avail.take (h : Avail N k arr used) {j : ℕ} (hj : k ≤ j) (hN : j < N) {arr' used' : ℕ → ℕ} (ea : ∀ l, arr' l = if l = j then arr k else arr l)
    (eu : ∀ l < k, used' l = used l) (ek : used' k = arr j) : Avail N (k + 1) arr' used' where
  bu l hl := by
    rcases Nat.lt_succ_iff_lt_or_eq.1 hl with c | rfl
    · rw [eu l c]; exact h.bu l c
    · rw [ek]; exact h.ba j hj hN
  iu l hl l' hl' e := by
    rcases Nat.lt_succ_iff_lt_or_eq.1 hl with c | rfl <;> rcases Nat.lt_succ_iff_lt_or_eq.1 hl' with c' | rfl
    · rw [eu l c, eu l' c'] at e; exact h.iu l c l' c' e
    · rw [eu l c, ek] at e; exact absurd e (h.dis l c j hj hN)
    · rw [eu l' c', ek] at e; exact absurd e.symm (h.dis l' c' j hj hN)
    · rfl
  ba l hl hl' := by
    rw [ea]
    split_ifs
    · exact h.ba k (le_refl _) (by omega)
    · exact h.ba l (by omega) hl'
  ia l hl hl' l2 hl2 hl2' e := by
    rw [ea, ea] at e
    split_ifs at e with c c2 c2
    · omega
    · have := h.ia k (le_refl _) (by omega) l2 (by omega) hl2' e; omega
    · have := h.ia l (by omega) hl' k (le_refl _) (by omega) e; omega
    · exact h.ia l (by omega) hl' l2 (by omega) hl2' e
  dis l hl l' hl' hn' := by
    rw [ea]
    rcases Nat.lt_succ_iff_lt_or_eq.1 hl with c | rfl
    · rw [eu l c]
      split_ifs
      · exact h.dis l c k (le_refl _) (by omega)
      · exact h.dis l c l' (by omega) hn'
    · rw [ek]
      intro e
      split_ifs at e with c
      · have := h.ia j hj hN l (le_refl _) (by omega) e; omega
      · exact c (h.ia j hj hN l' (by omega) hn' e).symm
  cov v hv := by
    rcases h.cov v hv with ⟨l, hl, e⟩ | ⟨l, hl, hl', e⟩
    · exact Or.inl ⟨l, by omega, by rw [eu l hl, e]⟩
    · by_cases c : l = j
      · subst c; exact Or.inl ⟨k, by omega, by rw [ek, e]⟩
      · by_cases c2 : l = k
        · subst c2
          exact Or.inr ⟨j, by omega, hN, by rw [ea, if_pos rfl, e]⟩
        · exact Or.inr ⟨l, by omega, hl', by rw [ea, if_neg c, e]⟩

lemma randInt_ok {a b x : ℕ} (h : a < b) : Ok (randInt a b x) (fun y => y = a + x % (b - a) ∧ a ≤ y ∧ y < b) := by
  unfold randInt
  rw [if_neg (by omega), if_neg (by omega), Ok_ok]
  have := Nat.mod_lt x (show 0 < b - a by omega)
  exact ⟨rfl, by omega, by omega⟩

lemma fillId (N : ℕ) (junk : ℕ → ℕ) : Ok (iter N (fun i (Q : Arr ℕ) => Q.wr i i) (Arr.mk' N junk)) (fun Q => Q.len = N ∧ ∀ i < N, Q.get i = i) := by
  refine Ok_iter (fun n (Q : Arr ℕ) => Q.len = N ∧ ∀ i < n, Q.get i = i) ⟨rfl, by omega⟩ ?_
  rintro n Q hn ⟨l, e⟩
  rw [Ok_wr]
  refine ⟨by omega, l, fun i hi => ?_⟩
  simp only [Function.update_apply]
  split_ifs with c
  · exact c.symm
  · exact e i (by omega)

/-- the array `Q` after `i` draws -/
def subsetQ (d : ℕ → ℕ) (N : ℕ) : ℕ → ℕ → ℕ
  | 0, l => l
  | i + 1, l => if l = i + d i % (N - i) then subsetQ d N i i else subsetQ d N i l

/-- the element drawn at step `i` -/
def subsetP (d : ℕ → ℕ) (N i : ℕ) : ℕ := subsetQ d N i (i + d i % (N - i))

lemma subset_avail (d : ℕ → ℕ) (N : ℕ) : ∀ i ≤ N, Avail N i (subsetQ d N i) (subsetP d N) := by
  intro i
  induction i with
  | zero => intro _; exact Avail.start N _ (fun _ _ => rfl)
  | succ i ih =>
    intro hi
    have := Nat.mod_lt (d i) (show 0 < N - i by omega)
    exact (ih (by omega)).take (j := i + d i % (N - i)) (by omega) (by omega) (fun l => rfl) (fun l _ => rfl) rfl

theorem randomIndexSubset_spec (d junk : ℕ → ℕ) {N R : ℕ} (hR : R ≤ N) {P : Arr ℕ} (hP : R ≤ P.len) :
    Ok (randomIndexSubset d junk N R P) (fun P' => P'.len = P.len ∧ (∀ i < R, P'.get i = subsetP d N i) ∧ ∀ i, R ≤ i → P'.get i = P.get i) := by
  unfold randomIndexSubset
  rw [Ok_bind]
  refine (fillId N junk).mono ?_
  rintro Q ⟨lQ, eQ⟩
  rw [Ok_bind]
  refine (Ok_iter (fun n (s : Arr ℕ × Arr ℕ) => s.1.len = P.len ∧ s.2.len = N ∧ (∀ i < n, s.1.get i = subsetP d N i) ∧
    (∀ i, R ≤ i → s.1.get i = P.get i) ∧ ∀ l, n ≤ l → l < N → s.2.get l = subsetQ d N n l) ⟨rfl, lQ, by omega, fun _ _ => rfl, fun l _ hl => eQ l hl⟩ ?_).mono ?_
  · rintro n ⟨p, q⟩ hn ⟨l1, l2, e1, e3, e2⟩
    simp only [] at l1 l2 e1 e2 e3
    rw [Ok_bind]
    refine (randInt_ok (by omega)).mono ?_
    rintro j ⟨ej, hj, hj'⟩
    rw [Ok_bind, Ok_rd]
    refine ⟨by simp only []; omega, ?_⟩
    rw [Ok_bind, Ok_wr]
    refine ⟨by simp only []; omega, ?_⟩
    rw [Ok_bind, Ok_rd]
    refine ⟨by simp only []; omega, ?_⟩
    rw [Ok_bind, Ok_wr]
    refine ⟨by simp only []; omega, ?_⟩
    rw [Ok_pure]
    refine ⟨l1, l2, fun i hi => ?_, fun i hi => ?_, fun l hl hl' => ?_⟩ <;> simp only [Function.update_apply]
    · split_ifs with c
      · rw [e2 j hj hj', c, subsetP, ej]
      · exact e1 i (by omega)
    · rw [if_neg (by omega)]; exact e3 i hi
    · rw [subsetQ, ← ej]
      split_ifs with c
      · exact e2 n (le_refl _) (by omega)
      · exact e2 l (by omega) hl'
  · rintro ⟨p, q⟩ ⟨l1, l2, e1, e3, e2⟩
    rw [Ok_pure]
    exact ⟨l1, e1, e3⟩

lemma subsetQ_congr {d d' : ℕ → ℕ} : ∀ i, (∀ l < i, d l = d' l) → subsetQ d N i = subsetQ d' N i := by
  intro i
  induction i with
  | zero => intro _; rfl
  | succ i ih =>
    intro h
    funext l
    rw [subsetQ, subsetQ, ih (fun l hl => h l (by omega)), h i (by omega)]

lemma subsetP_congr {d d' : ℕ → ℕ} {i : ℕ} (h : ∀ l ≤ i, d l = d' l) : subsetP d N i = subsetP d' N i := by
  rw [subsetP, subsetP, subsetQ_congr i (fun l hl => h l (by omega)), h i (le_refl _)]

/-- every sequence of distinct elements is drawn -/
lemma subset_surj {p : ℕ → ℕ} : ∀ R ≤ N, (∀ k < R, p k < N) → (∀ k < R, ∀ l < R, p k = p l → k = l) →
    ∃ d : ℕ → ℕ, (∀ i < R, d i < N - i) ∧ ∀ i < R, subsetP d N i = p i := by
  intro R
  induction R with
  | zero => intro _ _ _; exact ⟨fun _ => 0, by omega, by omega⟩
  | succ R ih =>
    intro hR hb hi
    obtain ⟨d, hd, he⟩ := ih (by omega) (fun k hk => hb k (by omega)) (fun k hk l hl => hi k (by omega) l (by omega))
    rcases (subset_avail d N R (by omega)).cov (p R) (hb R (by omega)) with ⟨l, hl, e⟩ | ⟨l, hl, hl', e⟩
    · rw [he l hl] at e
      have := hi l (by omega) R (by omega) e
      omega
    · let d' : ℕ → ℕ := fun i => if i = R then l - R else d i
      have c : ∀ i < R, d' i = d i := fun i hi => if_neg (by omega)
      have cR : d' R = l - R := if_pos rfl
      refine ⟨d', fun i hi => ?_, fun i hi => ?_⟩
      · rcases Nat.lt_succ_iff_lt_or_eq.1 hi with x | rfl
        · rw [c i x]; exact hd i x
        · rw [cR]; omega
      · rcases Nat.lt_succ_iff_lt_or_eq.1 hi with x | rfl
        · rw [subsetP_congr (d' := d) (fun l hl => c l (by omega)), he i x]
        · rw [subsetP, subsetQ_congr i c, cR, Nat.mod_eq_of_lt (by omega), show i + (l - i) = l by omega, e]

/-- … by one sequence of draws only -/
lemma subset_inj {d d' : ℕ → ℕ} {R : ℕ} (hR : R ≤ N) (h : ∀ i < R, d i < N - i) (h' : ∀ i < R, d' i < N - i) (e : ∀ i < R, subsetP d N i = subsetP d' N i) :
    ∀ i < R, d i = d' i := by
  intro i
  induction i using Nat.strong_induction_on with
  | _ i ih =>
    intro hi
    have e := e i hi
    have a := subset_avail d N i (by omega)
    rw [subsetP, subsetP, subsetQ_congr i (fun l hl => (ih l hl (by omega)).symm) (d := d') (d' := d), Nat.mod_eq_of_lt (h i hi), Nat.mod_eq_of_lt (h' i hi)] at e
    have := h i hi
    have := h' i hi
    have := a.ia _ (by omega) (by omega) _ (by omega) (by omega) e
    omega

end Verif.RandRook
