import Verif.Model.Pluq
import Verif.Proofs.Perm
import Verif.Proofs.Shift

/-!
# Index arrays in the PLUQ decomposition
-/

namespace Verif.FF

open Verif.Perm Verif.Spec.Perm

section
variable {α : Type}

lemma copyTo_spec (src : Arr α) (so : ℕ) (dst : Arr α) (d n : ℕ) (h1 : so + n ≤ src.len) (h2 : d + n ≤ dst.len) :
    Ok (copyTo src so dst d n) (fun B => B.len = dst.len ∧
      ∀ i, B.get i = if d ≤ i ∧ i < d + n then src.get (so + (i - d)) else dst.get i) := by
  unfold copyTo
  refine (Ok_fill n (fun t => d + t) (fun t => src.rd (so + t)) (fun t => src.get (so + t)) dst ?_ ?_ ?_).mono ?_
  · intro t ht
    simp only [Arr.rd]; rw [if_pos (by omega)]
  · intro t ht; omega
  · intro s _ t _ h; omega
  · rintro B ⟨e1, e2, e3⟩
    refine ⟨e1, fun i => ?_⟩
    by_cases h : d ≤ i ∧ i < d + n
    · rw [if_pos h, ← e2 (i - d) (by omega)]; congr 1; omega
    · rw [if_neg h]; exact e3 i (fun t ht => by omega)

lemma copyForward_spec (A : Arr α) (src dst n : ℕ) (h1 : src + n ≤ A.len) (h2 : dst ≤ src) :
    Ok (copyForward A src dst n) (fun B => B.len = A.len ∧
      ∀ i, B.get i = if dst ≤ i ∧ i < dst + n then A.get (src + (i - dst)) else A.get i) := by
  unfold copyForward
  refine Ok_iter (fun k (B : Arr α) => B.len = A.len ∧ ∀ i, B.get i = if dst ≤ i ∧ i < dst + k then A.get (src + (i - dst)) else A.get i)
    ⟨rfl, fun i => by rw [if_neg (by omega)]⟩ ?_
  rintro k B hk ⟨e1, e2⟩
  simp only [Ok_bind, Ok_rd, Ok_wr]
  refine ⟨by omega, by omega, e1, fun i => ?_⟩
  by_cases h : i = dst + k
  · subst h
    rw [Function.update_self, if_pos (by omega), e2]
    by_cases h' : dst ≤ src + k ∧ src + k < dst + k
    · omega
    · rw [if_neg h', Nat.add_sub_cancel_left]
  · rw [Function.update_of_ne h, e2]
    by_cases h' : dst ≤ i ∧ i < dst + k
    · rw [if_pos h', if_pos (by omega)]
    · rw [if_neg h', if_neg (by omega)]

lemma permApplyS_spec (A : Arr α) (junk : ℕ → α) {M2 R1 R2 R3 R4 : ℕ} (h : R1 + R2 ≤ M2) (hl : M2 + R3 + R4 ≤ A.len) :
    Ok (permApplyS A junk M2 R1 R2 R3 R4) (fun B => B.len = A.len ∧
      ∀ i, B.get i = A.get (sPerm (R1 + R2) (M2 - (R1 + R2)) (R3 + R4) i)) := by
  simp only [permApplyS, Ok_bind, Ok_usub]
  refine ⟨h, ?_⟩
  obtain ⟨t, rfl⟩ := Nat.exists_eq_add_of_le h
  rw [Nat.add_sub_cancel_left]
  refine (copyTo_spec A (R1 + R2) (Arr.mk' t junk) 0 t (by omega) (by simp [Arr.mk'])).mono ?_
  rintro T ⟨l1, e1⟩
  refine (copyForward_spec A (R1 + R2 + t) (R1 + R2) (R3 + R4) (by omega) (by omega)).mono ?_
  rintro B ⟨l2, e2⟩
  refine (copyTo_spec T 0 B (R1 + R2 + R3 + R4) t (by rw [l1]; simp [Arr.mk']) (by omega)).mono ?_
  rintro C ⟨l3, e3⟩
  refine ⟨l3.trans l2, fun i => ?_⟩
  rw [e3, e1, e2, sPerm]
  by_cases c1 : i < R1 + R2
  · rw [if_neg (by omega), if_neg (by omega), if_pos c1]
  by_cases c2 : i < R1 + R2 + (R3 + R4)
  · rw [if_neg (by omega), if_pos (by omega), if_neg c1, if_pos c2]; congr 1; omega
  by_cases c3 : i < R1 + R2 + (R3 + R4) + t
  · rw [if_pos (by omega), if_pos (by omega), if_neg c1, if_neg c2, if_pos c3]; congr 1; omega
  · rw [if_neg (by omega), if_neg (by omega), if_neg c1, if_neg c2, if_neg c3]

lemma permApplyT_spec (A : Arr α) (junk : ℕ → α) {N2 R1 R2 R3 R4 : ℕ} (h : R1 + R3 ≤ N2) (hl : N2 + R2 + R4 ≤ A.len) :
    Ok (permApplyT A junk N2 R1 R2 R3 R4) (fun B => B.len = A.len ∧ ∀ i, B.get i = A.get (tPerm N2 R1 R2 R3 R4 i)) := by
  simp only [permApplyT, Ok_bind, Ok_usub]
  obtain ⟨t, rfl⟩ := Nat.exists_eq_add_of_le h
  refine ⟨by omega, by omega, ?_⟩
  rw [show R1 + R3 + t - R1 = R3 + t by omega, show R3 + t - R3 = t by omega]
  refine (copyTo_spec A R1 (Arr.mk' (R3 + t) junk) 0 (R3 + t) (by omega) (by simp [Arr.mk'])).mono ?_
  rintro T ⟨l1, e1⟩
  have l1 : T.len = R3 + t := l1
  refine (copyForward_spec A (R1 + R3 + t) R1 R2 (by omega) (by omega)).mono ?_
  rintro B ⟨l2, e2⟩
  refine (copyTo_spec T 0 B (R1 + R2) R3 (by omega) (by omega)).mono ?_
  rintro C ⟨l3, e3⟩
  refine (copyForward_spec C (R1 + R3 + t + R2) (R1 + R2 + R3) R4 (by omega) (by omega)).mono ?_
  rintro D ⟨l4, e4⟩
  refine (copyTo_spec T R3 D (R1 + R2 + R3 + R4) t (by omega) (by omega)).mono ?_
  rintro E ⟨l5, e5⟩
  refine ⟨by omega, fun i => ?_⟩
  rw [e5, e4, tPerm]
  simp only [e3, e2, e1]
  by_cases c1 : i < R1
  · rw [if_neg (by omega), if_neg (by omega), if_neg (by omega), if_neg (by omega), if_pos c1]
  by_cases c2 : i < R1 + R2
  · rw [if_neg (by omega), if_neg (by omega), if_neg (by omega), if_pos (by omega), if_neg c1, if_pos c2]
  by_cases c3 : i < R1 + R2 + R3
  · rw [if_neg (by omega), if_neg (by omega), if_pos (by omega), if_pos (by omega), if_neg c1, if_neg c2, if_pos c3]; congr 1; omega
  by_cases c4 : i < R1 + R2 + R3 + R4
  · rw [if_neg (by omega), if_pos (by omega), if_neg (by omega), if_neg (by omega), if_neg c1, if_neg c2, if_neg c3, if_pos c4]
  by_cases c5 : i < R1 + R3 + t + R2 + R4
  · rw [if_pos (by omega), if_pos (by omega), if_neg c1, if_neg c2, if_neg c3, if_neg c4, if_pos c5]; congr 1; omega
  · rw [if_neg (by omega), if_neg (by omega), if_neg (by omega), if_neg (by omega), if_neg c1, if_neg c2, if_neg c3, if_neg c4, if_neg c5]

lemma onSub_spec {A : Arr α} {off : ℕ} {f : Arr α → Except Fault (Arr α)} {Q : Arr α → Prop} (h : off ≤ A.len)
    (hf : Ok (f ⟨A.len - off, fun i => A.get (off + i)⟩) Q) :
    Ok (onSub A off f) (fun B => ∃ C, Q C ∧ B.len = A.len ∧ ∀ i, B.get i = if i < off then A.get i else C.get (i - off)) := by
  simp only [onSub, if_pos h, Ok_bind, Ok_pure]
  exact hf.mono (fun C hC => ⟨C, hC, by simp⟩)

end

lemma iota_spec (P : Arr ℕ) (n : ℕ) (h : n ≤ P.len) : Ok (iota P n) (fun B => B.len = P.len ∧ ∀ i < n, B.get i = i) :=
  iter_id_spec n P h

lemma addFrom_spec (P : Arr ℕ) (b n s : ℕ) (h : n ≤ P.len) :
    Ok (addFrom P b n s) (fun B => B.len = P.len ∧ ∀ i, B.get i = if b ≤ i ∧ i < n then P.get i + s else P.get i) := by
  unfold addFrom
  refine (Ok_upd (n - b) (fun t => b + t) (fun _ x => .ok (x + s)) (fun t => P.get (b + t) + s) P (fun t _ => rfl)
    (fun t ht => by omega) (fun s _ t _ h => by omega)).mono ?_
  rintro B ⟨l, e1, e2⟩
  refine ⟨l, fun i => ?_⟩
  by_cases c : b ≤ i ∧ i < n
  · rw [if_pos c]
    have := e1 (i - b) (by omega)
    rwa [show b + (i - b) = i by omega] at this
  · rw [if_neg c]; exact e2 i (fun t ht => by omega)

/-- two permutations side by side -/
def pairPerm (n : ℕ) (σ τ : ℕ → ℕ) (i : ℕ) : ℕ := if i < n then σ i else n + τ (i - n)

lemma pairPerm_perm {n m : ℕ} {σ τ : ℕ → ℕ} (h1 : IsPermArray σ n) (h2 : IsPermArray τ (m - n)) (h : n ≤ m) :
    IsPermArray (pairPerm n σ τ) m := by
  refine ⟨fun i hi => ?_, fun i hi j hj e => ?_⟩
  · unfold pairPerm
    split_ifs with c
    · have := h1.1 i c; omega
    · have := h2.1 (i - n) (by omega); omega
  · unfold pairPerm at e
    split_ifs at e with c1 c2 c2
    · exact h1.2 i c1 j c2 e
    · have := h1.1 i c1; omega
    · have := h1.1 j c2; omega
    · have := h2.2 (i - n) (by omega) (j - n) (by omega) (by omega); omega

lemma IsPermArray.comp {n : ℕ} {σ τ : ℕ → ℕ} (h1 : IsPermArray σ n) (h2 : IsPermArray τ n) : IsPermArray (fun i => σ (τ i)) n :=
  ⟨fun i hi => h1.1 _ (h2.1 i hi), fun i hi j hj e => h2.2 i hi j hj (h1.2 _ (h2.1 i hi) _ (h2.1 j hj) e)⟩

lemma sPerm_perm {a t b n : ℕ} (h : a + t + b ≤ n) : IsPermArray (sPerm a t b) n := by
  refine ⟨fun i hi => ?_, fun i hi j hj e => ?_⟩
  · unfold sPerm; split_ifs <;> omega
  · unfold sPerm at e; split_ifs at e <;> omega

lemma tPerm_perm {N2 R1 R2 R3 R4 n : ℕ} (h13 : R1 + R3 ≤ N2) (h : N2 + R2 + R4 ≤ n) : IsPermArray (tPerm N2 R1 R2 R3 R4) n := by
  refine ⟨fun i hi => ?_, fun i hi j hj e => ?_⟩
  · unfold tPerm; split_ifs <;> omega
  · unfold tPerm at e; split_ifs at e <;> omega

/-- the array built from the permutations of the four calls, before the blocks are moved -/
lemma mathPair_spec (jk : ℕ → ℕ) {n n1 R1 R3 : ℕ} {P1 P2 P3 P4 : Arr ℕ} (hn : n1 ≤ n) (hR1 : R1 ≤ n1) (hR3 : R3 ≤ n - n1)
    (l1 : P1.len = n1) (l2 : P2.len = n1 - R1) (l3 : P3.len = n - n1) (l4 : P4.len = n - n1 - R3)
    (b1 : ∀ i < n1, P1.get i < n1) (b2 : ∀ i < n1 - R1, P2.get i < n1 - R1) (b3 : ∀ i < n - n1, P3.get i < n - n1)
    (b4 : ∀ i < n - n1 - R3, P4.get i < n - n1 - R3) :
    Ok (do
      let X ← onSub (Arr.mk' n jk) 0 (fun B => composePermutationsLLM B P1 P2 R1 n1)
      let X ← onSub X n1 (fun B => composePermutationsLLM B P3 P4 R3 (n - n1))
      addFrom X n1 n n1) (fun B => B.len = n ∧ ∀ i < n, B.get i = pairPerm n1
        (fun i => ofSwaps P1.get n1 (shiftPerm R1 i (ofSwaps P2.get (n1 - R1))))
        (fun i => ofSwaps P3.get (n - n1) (shiftPerm R3 i (ofSwaps P4.get (n - n1 - R3)))) i) := by
  simp only [Ok_bind]
  refine (onSub_spec (A := Arr.mk' n jk) (off := 0) (f := fun B => composePermutationsLLM B P1 P2 R1 n1) (Nat.zero_le _)
    (composePermutationsLLM_spec' n1 R1 _ P1 P2 (by simp [Arr.mk']; omega) hR1 l1 b1 l2 b2)).mono ?_
  rintro X ⟨C, ⟨_, e1⟩, lX, eX⟩
  have lX : X.len = n := lX
  refine (onSub_spec (A := X) (off := n1) (f := fun B => composePermutationsLLM B P3 P4 R3 (n - n1)) (by omega)
    (composePermutationsLLM_spec' (n - n1) R3 _ P3 P4 (by simp only []; omega) hR3 l3 b3 l4 b4)).mono ?_
  rintro Y ⟨D, ⟨_, e2⟩, lY, eY⟩
  refine (addFrom_spec Y n1 n n1 (by omega)).mono ?_
  rintro Z ⟨lZ, eZ⟩
  refine ⟨by omega, fun i hi => ?_⟩
  rw [eZ, eY, pairPerm]
  by_cases c : i < n1
  · rw [if_neg (by omega), if_pos c, if_pos c, eX, if_neg (by omega), Nat.sub_zero, e1 i c]
  · rw [if_pos (by omega), if_neg c, if_neg c, e2 (i - n1) (by omega), Nat.add_comm]

end Verif.FF
