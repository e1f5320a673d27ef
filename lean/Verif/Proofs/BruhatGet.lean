import Verif.Proofs.Bruhat
import Verif.Proofs.EchelonGet

/-!
# `getLTBruhatGen` extracts the factors of a Bruhat generator
-/

namespace Verif.FF

open Finset Verif.Spec Verif.Pluq Verif.Bruhat

variable {K : Type} [Field K] [DecidableEq K] {m0 m : Mem K} {W S : Win} {V f : ℕ → ℕ → K} {P Q : Arr ℕ} {N r : ℕ}

/-- the middle factor -/
lemma getLTBruhatR_on (h : On m0 m W V) (hr : W.r = N) (hc : W.c = N) (hP : r ≤ P.len) (hQ : r ≤ Q.len) (bp : ∀ k < r, P.get k < N)
    (bq : ∀ k < r, Q.get k < N) :
    Run (getLTBruhatR N r P Q W.p W.ld) m (fun _ m' => On m0 m' W (fun i j => if ∃ k < r, P.get k = i ∧ Q.get k = j then 1 else 0)) := by
  unfold getLTBruhatR
  rw [Run_bind]
  refine (fzero_on h 0 0 N N (by omega) (by omega) (by simp [Win.adr])).mono (fun _ m1 h1 => ?_)
  refine Run_loop (fun t m' => On m0 m' W (fun i j => if ∃ k < t, P.get k = i ∧ Q.get k = j then 1 else 0)) (h1.congr (fun i hi j hj => ?_)) ?_
  · rw [upd_in' (by omega), if_neg (by simp)]
  · intro t mt ht hm
    have b1 := bp t ht
    have b2 := bq t ht
    rw [Run_bind, Run_liftE, Ok_rd]
    refine ⟨by omega, ?_⟩
    rw [Run_bind, Run_liftE, Ok_rd]
    refine ⟨by omega, ?_⟩
    rw [Run_store, show W.p + (P.get t * W.ld + Q.get t) = W.adr (P.get t) (Q.get t) by simp [Win.adr, Nat.add_assoc]]
    refine ⟨hm.ok'.adr (by omega) (by omega), (hm.set (by omega) (by omega)).congr (fun i hi j hj => ?_)⟩
    by_cases c : P.get t = i ∧ Q.get t = j
    · rw [upd_in' (by omega), if_pos ⟨t, by omega, c⟩]
    · rw [upd_out (by omega)]
      refine if_congr ⟨fun ⟨k, hk, e⟩ => ⟨k, by omega, e⟩, fun ⟨k, hk, e⟩ => ⟨k, ?_, e⟩⟩ rfl rfl
      rcases Nat.lt_succ_iff_lt_or_eq.1 hk with h | rfl
      · exact h
      · exact absurd e c

/-- zeroes in a row -/
lemma zeroAtRow_on (h : On m0 m W V) {i n : ℕ} (hi : i < W.r) (hQ : n ≤ Q.len) (bq : ∀ k < n, Q.get k < W.c) :
    Run (loop n fun j => do
        let q ← liftE (Q.rd j)
        store (W.p + (i * W.ld + q)) 0) m (fun _ m' => On m0 m' W (fun a b => if a = i ∧ ∃ k < n, Q.get k = b then 0 else V a b)) := by
  refine Run_loop (fun t m' => On m0 m' W (fun a b => if a = i ∧ ∃ k < t, Q.get k = b then 0 else V a b)) (h.congr (fun a ha b hb => ?_)) ?_
  · rw [if_neg (by simp)]
  · intro t mt ht hm
    have b2 := bq t ht
    rw [Run_bind, Run_liftE, Ok_rd]
    refine ⟨by omega, ?_⟩
    rw [Run_store, show W.p + (i * W.ld + Q.get t) = W.adr i (Q.get t) by simp [Win.adr, Nat.add_assoc]]
    refine ⟨hm.ok'.adr hi b2, (hm.set hi b2).congr (fun a ha b hb => ?_)⟩
    by_cases c : i = a ∧ Q.get t = b
    · rw [upd_in' (by omega), if_pos ⟨c.1.symm, t, by omega, c.2⟩]
    · rw [upd_out (by omega)]
      refine if_congr ⟨fun ⟨e, k, hk, e'⟩ => ⟨e, k, by omega, e'⟩, fun ⟨e, k, hk, e'⟩ => ⟨e, k, ?_, e'⟩⟩ rfl rfl
      rcases Nat.lt_succ_iff_lt_or_eq.1 hk with h | rfl
      · exact h
      · exact absurd ⟨e.symm, e'⟩ c

/-- zeroes in a column -/
lemma zeroAtCol_on (h : On m0 m W V) {j n : ℕ} (hj : j < W.c) (hP : n ≤ P.len) (bp : ∀ k < n, P.get k < W.r) :
    Run (loop n fun i => do
        let p ← liftE (P.rd i)
        store (W.p + (p * W.ld + j)) 0) m (fun _ m' => On m0 m' W (fun a b => if b = j ∧ ∃ k < n, P.get k = a then 0 else V a b)) := by
  refine Run_loop (fun t m' => On m0 m' W (fun a b => if b = j ∧ ∃ k < t, P.get k = a then 0 else V a b)) (h.congr (fun a ha b hb => ?_)) ?_
  · rw [if_neg (by simp)]
  · intro t mt ht hm
    have b2 := bp t ht
    rw [Run_bind, Run_liftE, Ok_rd]
    refine ⟨by omega, ?_⟩
    rw [Run_store, show W.p + (P.get t * W.ld + j) = W.adr (P.get t) j by simp [Win.adr, Nat.add_assoc]]
    refine ⟨hm.ok'.adr b2 hj, (hm.set b2 hj).congr (fun a ha b hb => ?_)⟩
    by_cases c : j = b ∧ P.get t = a
    · rw [upd_in' (by omega), if_pos ⟨c.1.symm, t, by omega, c.2⟩]
    · rw [upd_out (by omega)]
      refine if_congr ⟨fun ⟨e, k, hk, e'⟩ => ⟨e, k, by omega, e'⟩, fun ⟨e, k, hk, e'⟩ => ⟨e, k, ?_, e'⟩⟩ rfl rfl
      rcases Nat.lt_succ_iff_lt_or_eq.1 hk with h | rfl
      · exact h
      · exact absurd ⟨e.symm, e'⟩ c

omit [DecidableEq K] in
/-- the factor entry after the zeroes were put -/
lemma bf_ite {dg : K} {v : ℕ → K} {p : ℕ → ℕ} {k i : ℕ} (hn : ∀ a < k, p a ≠ p k) :
    (if ∃ a < k, p a = i then 0 else if i < p k then 0 else if i = p k then dg else v i) = bf dg v p k i := by
  unfold bf
  by_cases c : ∃ a < k, p a = i
  · rw [if_pos c]
    obtain ⟨a, ha, e⟩ := c
    have := hn a ha
    split_ifs with h1 h2 h3
    · rfl
    · omega
    · rfl
    · exact absurd ⟨a, ha, e⟩ h3
  · rw [if_neg c, if_neg c]

/-- what `getLTBruhatGen` leaves in the rows of the upper factor after `k` pivots -/
structure RowsOf (d : Diag) (N : ℕ) (f : ℕ → ℕ → K) (p q : ℕ → ℕ) (k : ℕ) (V : ℕ → ℕ → K) : Prop where
  row : ∀ a < k, ∀ j < N, V (p a) j = if p a + j + 1 < N then bf (dsel d 1 (f (p a) (q a))) (f (p a)) q a j else 0
  rest : ∀ i < N, ∀ j < N, (∀ a < k, p a ≠ i) → V i j = 0

lemma getLTBruhatU_on (d : Diag) (h : On m0 m W V) (hS : Src m0 S f) (hd : S.Disj W) (hr : W.r = N) (hc : W.c = N) (hl : W.ld = N) (hSr : S.r = N)
    (hSc : S.c = N) (hP : r ≤ P.len) (hQ : r ≤ Q.len) (bd : ∀ k < r, P.get k + Q.get k + 1 < N)
    (iP : ∀ k < r, ∀ k' < r, P.get k = P.get k' → k = k') (iQ : ∀ k < r, ∀ k' < r, Q.get k = Q.get k' → k = k') :
    Run (getLTBruhatT .upper d N r P Q S.p S.ld W.p W.ld) m (fun _ m' => ∃ V', On m0 m' W V' ∧ RowsOf d N f P.get Q.get r V') := by
  unfold getLTBruhatT
  rw [Run_bind]
  have hz := fzero_on h 0 0 N N (by omega) (by omega) (B := W.p) (by simp [Win.adr])
  rw [hl] at hz
  refine hz.mono (fun _ m1 h1 => ?_)
  refine Run_loop (fun t m' => ∃ V', On m0 m' W V' ∧ RowsOf d N f P.get Q.get t V') ⟨fun _ _ => 0, h1.congr (fun i hi j hj => ?_), ?_⟩ ?_
  · rw [upd_in' (by omega)]
  · exact ⟨fun a ha => absurd ha (Nat.not_lt_zero _), fun _ _ _ _ _ => rfl⟩
  · rintro t mt ht ⟨V', hm, rw', rs⟩
    have b := bd t ht
    rw [Run_bind, Run_liftE, Ok_rd]
    refine ⟨by omega, ?_⟩
    rw [Run_bind, Run_liftE, Ok_rd]
    refine ⟨by omega, ?_⟩
    have new : ∀ a < t, P.get a ≠ P.get t := fun a ha e => by have := iP a (by omega) t ht e; omega
    have newq : ∀ a < t, Q.get a ≠ Q.get t := fun a ha e => by have := iQ a (by omega) t ht e; omega
    generalize hp : P.get t = p at *
    generalize hq : Q.get t = q at *
    have fin : ∀ {m2 : Mem K} {V2 : ℕ → ℕ → K}, On m0 m2 W V2 → (∀ a < N, ∀ b < N, V2 a b = if a = p ∧ q ≤ b ∧ p + b + 1 < N then
          (if b = q then dsel d 1 (f p q) else f p b) else V' a b) →
        Run (loop t fun j => do
          let q ← liftE (Q.rd j)
          store (W.p + (p * W.ld + q)) 0) m2 (fun _ m' => ∃ V', On m0 m' W V' ∧ RowsOf d N f P.get Q.get (t + 1) V') := by
      intro m2 V2 h2 e2
      refine (zeroAtRow_on h2 (i := p) (n := t) (by omega) (by omega) (fun k hk => by have := bd k (by omega); omega)).mono
        (fun _ m3 h3 => ⟨_, h3, ⟨fun a ha j hj => ?_, fun i hi j hj hn => ?_⟩⟩)
      · rcases Nat.lt_succ_iff_lt_or_eq.1 ha with ha' | rfl
        · rw [if_neg (by have := new a ha'; tauto), e2 _ (by have := bd a (by omega); omega) j hj, if_neg (by have := new a ha'; tauto), rw' a ha' j hj]
        · rw [hp, hq, e2 p (by omega) j hj, rs p (by omega) j hj new, ← bf_ite (by rw [hq]; exact newq), hq]
          by_cases c1 : ∃ k < a, Q.get k = j
          · rw [if_pos ⟨rfl, c1⟩, if_pos c1, ite_self]
          · rw [if_neg (fun h => c1 h.2), if_neg c1]
            by_cases c2 : p + j + 1 < N
            · rw [if_pos c2]
              by_cases c3 : j < q
              · rw [if_neg (by omega), if_pos c3]
              · rw [if_pos (by omega), if_neg c3]
            · rw [if_neg c2, if_neg (by omega)]
      · have hi' : i ≠ p := fun e => hn t (Nat.lt_succ_self t) (by rw [hp]; exact e.symm)
        rw [if_neg (fun h => hi' h.1), e2 i hi j hj, if_neg (fun h => hi' h.1), rs i hi j hj (fun a ha => hn a (by omega))]
    cases d
    case nonUnit =>
      show Run (do let l ← usub N (1 + p + q); _) mt _
      rw [Run_bind]
      refine Run_usub (by omega) ?_
      rw [Run_bind, show S.p + p * S.ld + q = S.adr p q from rfl, show W.p + p * W.ld + q = W.adr p q from rfl]
      refine (copyRow_on hm hS hd (a := p) (b := q) (i := p) (j := q) (n := N - (1 + p + q)) (by omega) (by omega) (by omega) (by omega)).mono
        (fun _ m2 h2 => fin h2 (fun a ha b hb => ?_))
      by_cases c : a = p ∧ q ≤ b ∧ p + b + 1 < N
      · rw [upd_in' (by omega), if_pos c, show q + (b - q) = b by omega]
        by_cases c' : b = q
        · rw [if_pos c', c']; rfl
        · rw [if_neg c']
      · rw [upd_out (by omega), if_neg c]
    case unit =>
      show Run (do let l ← usub N (2 + p + q); _) mt _
      rw [Run_bind]
      refine Run_usub (by omega) ?_
      rw [Run_bind, show S.p + p * S.ld + q + 1 = S.adr p (q + 1) from rfl, show W.p + p * W.ld + q + 1 = W.adr p (q + 1) from rfl]
      refine (copyRow_on hm hS hd (a := p) (b := q + 1) (i := p) (j := q + 1) (n := N - (2 + p + q)) (by omega) (by omega) (by omega) (by omega)).mono
        (fun _ m2 h2 => ?_)
      rw [Run_bind, Run_store, show W.p + (p * W.ld + q) = W.adr p q by simp [Win.adr, Nat.add_assoc]]
      refine ⟨h2.ok'.adr (by omega) (by omega), fin (h2.set (by omega) (by omega)) (fun a ha b hb => ?_)⟩
      by_cases c : a = p ∧ q ≤ b ∧ p + b + 1 < N
      · rw [if_pos c]
        by_cases c' : b = q
        · rw [if_pos c', upd_in' (by omega)]; rfl
        · rw [if_neg c', upd_out (by omega), upd_in' (by omega), show q + 1 + (b - (q + 1)) = b by omega]
      · rw [upd_out (by omega), upd_out (by omega), if_neg c]

/-- what `getLTBruhatGen` leaves in the columns of the lower factor after `k` pivots -/
structure ColsOf (d : Diag) (N : ℕ) (f : ℕ → ℕ → K) (p q : ℕ → ℕ) (k : ℕ) (V : ℕ → ℕ → K) : Prop where
  col : ∀ a < k, ∀ i < N, V i (q a) = if i + q a + 1 < N then bf (dsel d 1 (f (p a) (q a))) (fun i => f i (q a)) p a i else 0
  rest : ∀ i < N, ∀ j < N, (∀ a < k, q a ≠ j) → V i j = 0

lemma getLTBruhatL_on (d : Diag) (h : On m0 m W V) (hS : Src m0 S f) (hd : S.Disj W) (hr : W.r = N) (hc : W.c = N) (hl : W.ld = N) (hSr : S.r = N)
    (hSc : S.c = N) (hP : r ≤ P.len) (hQ : r ≤ Q.len) (bd : ∀ k < r, P.get k + Q.get k + 1 < N)
    (iP : ∀ k < r, ∀ k' < r, P.get k = P.get k' → k = k') (iQ : ∀ k < r, ∀ k' < r, Q.get k = Q.get k' → k = k') :
    Run (getLTBruhatT .lower d N r P Q S.p S.ld W.p W.ld) m (fun _ m' => ∃ V', On m0 m' W V' ∧ ColsOf d N f P.get Q.get r V') := by
  unfold getLTBruhatT
  rw [Run_bind]
  have hz := fzero_on h 0 0 N N (by omega) (by omega) (B := W.p) (by simp [Win.adr])
  rw [hl] at hz
  refine hz.mono (fun _ m1 h1 => ?_)
  refine Run_loop (fun t m' => ∃ V', On m0 m' W V' ∧ ColsOf d N f P.get Q.get t V') ⟨fun _ _ => 0, h1.congr (fun i hi j hj => ?_), ?_⟩ ?_
  · rw [upd_in' (by omega)]
  · exact ⟨fun a ha => absurd ha (Nat.not_lt_zero _), fun _ _ _ _ _ => rfl⟩
  · rintro t mt ht ⟨V', hm, rw', rs⟩
    have b := bd t ht
    rw [Run_bind, Run_liftE, Ok_rd]
    refine ⟨by omega, ?_⟩
    rw [Run_bind, Run_liftE, Ok_rd]
    refine ⟨by omega, ?_⟩
    have new : ∀ a < t, P.get a ≠ P.get t := fun a ha e => by have := iP a (by omega) t ht e; omega
    have newq : ∀ a < t, Q.get a ≠ Q.get t := fun a ha e => by have := iQ a (by omega) t ht e; omega
    generalize hp : P.get t = p at *
    generalize hq : Q.get t = q at *
    have fin : ∀ {m2 : Mem K} {V2 : ℕ → ℕ → K}, On m0 m2 W V2 → (∀ a < N, ∀ b < N, V2 a b = if b = q ∧ p ≤ a ∧ a + q + 1 < N then
          (if a = p then dsel d 1 (f p q) else f a q) else V' a b) →
        Run (loop t fun j => do
          let p ← liftE (P.rd j)
          store (W.p + (p * W.ld + q)) 0) m2 (fun _ m' => ∃ V', On m0 m' W V' ∧ ColsOf d N f P.get Q.get (t + 1) V') := by
      intro m2 V2 h2 e2
      refine (zeroAtCol_on h2 (j := q) (n := t) (by omega) (by omega) (fun k hk => by have := bd k (by omega); omega)).mono
        (fun _ m3 h3 => ⟨_, h3, ⟨fun a ha i hi => ?_, fun i hi j hj hn => ?_⟩⟩)
      · rcases Nat.lt_succ_iff_lt_or_eq.1 ha with ha' | rfl
        · rw [if_neg (by have := newq a ha'; tauto), e2 i hi _ (by have := bd a (by omega); omega), if_neg (by have := newq a ha'; tauto), rw' a ha' i hi]
        · rw [hp, hq, e2 i hi q (by omega), rs i hi q (by omega) newq, ← bf_ite (by rw [hp]; exact new), hp]
          by_cases c1 : ∃ k < a, P.get k = i
          · rw [if_pos ⟨rfl, c1⟩, if_pos c1, ite_self]
          · rw [if_neg (fun h => c1 h.2), if_neg c1]
            by_cases c2 : i + q + 1 < N
            · rw [if_pos c2]
              by_cases c3 : i < p
              · rw [if_neg (by omega), if_pos c3]
              · rw [if_pos (by omega), if_neg c3]
            · rw [if_neg c2, if_neg (by omega)]
      · have hi' : j ≠ q := fun e => hn t (Nat.lt_succ_self t) (by rw [hq]; exact e.symm)
        rw [if_neg (fun h => hi' h.1), e2 i hi j hj, if_neg (fun h => hi' h.1), rs i hi j hj (fun a ha => hn a (by omega))]
    cases d
    case nonUnit =>
      show Run (do let l ← usub N (1 + p + q); _) mt _
      rw [Run_bind]
      refine Run_usub (by omega) ?_
      rw [Run_bind, show S.p + p * S.ld + q = S.adr p q from rfl, show W.p + p * W.ld + q = W.adr p q from rfl]
      refine (copyCol_on hm hS hd (a := p) (b := q) (i := p) (j := q) (n := N - (1 + p + q)) (by omega) (by omega) (by omega) (by omega)).mono
        (fun _ m2 h2 => fin h2 (fun a ha b hb => ?_))
      by_cases c : b = q ∧ p ≤ a ∧ a + q + 1 < N
      · rw [upd_in' (by omega), if_pos c, show p + (a - p) = a by omega]
        by_cases c' : a = p
        · rw [if_pos c', c']; rfl
        · rw [if_neg c']
      · rw [upd_out (by omega), if_neg c]
    case unit =>
      show Run (do let l ← usub N (2 + p + q); _) mt _
      rw [Run_bind]
      refine Run_usub (by omega) ?_
      rw [Run_bind, show S.p + (p + 1) * S.ld + q = S.adr (p + 1) q from rfl, show W.p + (p + 1) * W.ld + q = W.adr (p + 1) q from rfl]
      refine (copyCol_on hm hS hd (a := p + 1) (b := q) (i := p + 1) (j := q) (n := N - (2 + p + q)) (by omega) (by omega) (by omega) (by omega)).mono
        (fun _ m2 h2 => ?_)
      rw [Run_bind, Run_store, show W.p + (p * W.ld + q) = W.adr p q by simp [Win.adr, Nat.add_assoc]]
      refine ⟨h2.ok'.adr (by omega) (by omega), fin (h2.set (by omega) (by omega)) (fun a ha b hb => ?_)⟩
      by_cases c : b = q ∧ p ≤ a ∧ a + q + 1 < N
      · rw [if_pos c]
        by_cases c' : a = p
        · rw [if_pos c', upd_in' (by omega)]; rfl
        · rw [if_neg c', upd_out (by omega), upd_in' (by omega), show p + 1 + (a - (p + 1)) = a by omega]
      · rw [upd_out (by omega), upd_out (by omega), if_neg c]

end Verif.FF
