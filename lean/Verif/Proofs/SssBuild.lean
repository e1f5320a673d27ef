import Verif.Model.SssBuild
import Verif.Proofs.SssBuildMath
import Verif.Proofs.SssProd
import Verif.Proofs.PluqStep
import Verif.Proofs.EchelonGet

/-!
# `DenseToSSS`: the factors put back in place
-/

namespace Verif.FF

open Finset Verif.Spec Verif.Spec.Perm Verif.Pluq Verif.Perm

variable {K : Type} [Field K] [DecidableEq K] {m0 m : Mem K} {W S : Win} {U Z : ℕ → ℕ → K}

lemma perm_inv_lt {P : Arr ℕ} {n : ℕ} (hp : IsTranspArray P.get n) {i : ℕ} (hi : i < n) : (ofSwaps P.get n)⁻¹ i < n :=
  inv_lt (ofSwaps_isPerm (fun i hi => (hp i hi).2)) hi

/-- lower factor with its rows back in place -/
lemma pL_on {P : Arr ℕ} (onz : Bool) (h : On m m W U) (hS : Src m S Z) (hd : S.Disj W) {M N n r : ℕ} (hM : M ≤ S.r) (hMW : W.r = M) (hrM : r ≤ M)
    (hrN : r ≤ N) (hrS : r ≤ S.c) (hrn : r ≤ n) (hn : n ≤ W.c) (hN : onz = false → N = n)
    (hz : ∀ i < M, ∀ j < W.c, (onz = false → n ≤ j) → U i j = 0) (hP : P.len = M) (hp : IsTranspArray P.get M) :
    Run (do
      getTriangular .lower .unit M N r S.p S.ld W.p W.ld onz
      applyP .left .yes n 0 M W.p W.ld P) m
      (fun _ m' => On m m' W (facL Z (ofSwaps P.get M) r)) := by
  rw [Run_bind]
  refine (getTriangular_lower .unit onz h hS hd hM hrM hrN hrS hMW.ge ?_).mono (fun _ m1 h1 => ?_)
  · cases onz
    · simpa [hN rfl] using hn
    · simpa using hrn.trans hn
  · refine (rowsPinv_on (r := M) (c := n) h1 0 0 (by simp [Win.adr]) (by omega) (by omega) hP (fun i hi => (hp i hi).2)).mono (fun _ m2 h2 => h2.congr
      (fun i hi j hj => ?_))
    have hi' := perm_inv_lt hp (hMW ▸ hi)
    rw [hMW] at hi
    unfold permRows facL
    by_cases hjn : j < n
    · rw [upd_in' (by omega)]
      simp only [Nat.zero_add, Nat.sub_zero]
      by_cases hjr : j < r
      · rw [if_pos ⟨hi', hjr⟩, if_pos hjr]
      · rw [if_neg (by omega), if_neg hjr]
        cases onz
        · rw [if_pos ⟨rfl, hi', by rw [hN rfl]; exact hjn⟩]
        · rw [if_neg (by simp)]
          exact hz _ hi' j hj (by simp)
    · rw [upd_out (by omega), if_neg (show ¬ (i < M ∧ j < r) by omega), if_neg (show ¬ j < r by omega)]
      by_cases c : onz = false ∧ i < M ∧ j < N
      · rw [if_pos c]
      · rw [if_neg c]
        exact hz i hi j hj (fun _ => by omega)

/-- upper factor with its columns back in place -/
lemma Uq_on {P : Arr ℕ} (onz : Bool) (h : On m m W U) (hS : Src m S Z) (hd : S.Disj W) {M N n r : ℕ} (hN : N ≤ S.c) (hNW : W.c = N) (hrN : r ≤ N)
    (hrM : r ≤ M) (hrS : r ≤ S.r) (hrn : r ≤ n) (hn : n ≤ W.r) (hM : onz = false → M = n)
    (hz : ∀ i < W.r, ∀ j < N, (onz = false → n ≤ i) → U i j = 0) (hP : P.len = N) (hp : IsTranspArray P.get N) :
    Run (do
      getTriangular .upper .nonUnit M N r S.p S.ld W.p W.ld onz
      applyP .right .no n 0 N W.p W.ld P) m
      (fun _ m' => On m m' W (facU Z (ofSwaps P.get N) r)) := by
  rw [Run_bind]
  refine (getTriangular_upper .nonUnit onz h hS hd hrS hrN hN hNW.ge hrM ?_).mono (fun _ m1 h1 => ?_)
  · cases onz
    · simpa [hM rfl] using hn
    · simpa using hrn.trans hn
  · refine (colsPinv_on (r := n) (c := N) h1 0 0 (by simp [Win.adr]) (by omega) (by omega) hP (fun i hi => (hp i hi).2)).mono (fun _ m2 h2 => h2.congr
      (fun i hi j hj => ?_))
    have hj' := perm_inv_lt hp (hNW ▸ hj)
    rw [hNW] at hj
    unfold permCols facU
    by_cases hin : i < n
    · rw [upd_in' (by omega)]
      simp only [Nat.zero_add, Nat.sub_zero]
      by_cases hir : i < r
      · rw [if_pos ⟨hir, hj'⟩, if_pos hir]
      · rw [if_neg (by omega), if_neg hir]
        cases onz
        · rw [if_pos ⟨rfl, by rw [hM rfl]; exact hin, hj'⟩]
        · rw [if_neg (by simp)]
          exact hz i hi _ hj' (by simp)
    · rw [upd_out (by omega), if_neg (show ¬ (i < r ∧ j < N) by omega), if_neg (show ¬ i < r by omega)]
      by_cases c : onz = false ∧ i < M ∧ j < N
      · rw [if_pos c]
      · rw [if_neg c]
        exact hz i hi j hj (fun _ => by omega)

/-- lower factor, in place -/
lemma pL_in_on {P : Arr ℕ} (h : On m m W Z) {r : ℕ} (hr : r ≤ W.r) (hc : r ≤ W.c) (hP : P.len = W.r) (hp : IsTranspArray P.get W.r) :
    Run (do
      getTriangularIn .lower .unit W.r W.c r W.p W.ld
      applyP .left .yes W.c 0 W.r W.p W.ld P) m
      (fun _ m' => On m m' W (facL Z (ofSwaps P.get W.r) r)) := by
  rw [Run_bind]
  refine (getTriangularIn_lower .unit h hr hc).mono (fun _ m1 h1 => ?_)
  refine (rowsPinv_on (r := W.r) (c := W.c) h1 0 0 (by simp [Win.adr]) (by omega) (by omega) hP (fun i hi => (hp i hi).2)).mono (fun _ m2 h2 => h2.congr
      (fun i hi j hj => ?_))
  unfold permRows facL
  rw [upd_in' (by omega)]
  simp only [Nat.zero_add, Nat.sub_zero]

/-- upper factor, in place -/
lemma Uq_in_on {P : Arr ℕ} (h : On m m W Z) {r : ℕ} (hr : r ≤ W.r) (hc : r ≤ W.c) (hP : P.len = W.c) (hp : IsTranspArray P.get W.c) :
    Run (do
      getTriangularIn .upper .nonUnit W.r W.c r W.p W.ld
      applyP .right .no W.r 0 W.c W.p W.ld P) m
      (fun _ m' => On m m' W (facU Z (ofSwaps P.get W.c) r)) := by
  rw [Run_bind]
  refine (getTriangularIn_upper .nonUnit h hr hc).mono (fun _ m1 h1 => ?_)
  refine (colsPinv_on (r := W.r) (c := W.c) h1 0 0 (by simp [Win.adr]) (by omega) (by omega) hP (fun i hi => (hp i hi).2)).mono (fun _ m2 h2 => h2.congr
      (fun i hi j hj => ?_))
  unfold permCols facU
  rw [upd_in' (by omega)]
  simp only [Nat.zero_add, Nat.sub_zero]

section
variable {ι : Type} [DecidableEq ι] {W : ι → Win} {V : ι → ℕ → ℕ → K} {m' : Mem K} {f : ℕ → ℕ → K} {i0 j0 r c : ℕ}

omit [Field K] [DecidableEq K] in
lemma Wins.put_sub (h : Wins m0 m W V) (i : ι) (hr : i0 + r ≤ (W i).r) (hc : j0 + c ≤ (W i).c) (s : On m m' ((W i).sub i0 j0 r c) f) :
    Wins m0 m' W (Function.update V i (upd i0 j0 r c f (V i))) := h.put i ((h.on i).upd hr hc s.step)

omit [DecidableEq ι] [Field K] [DecidableEq K] in
lemma Wins.on_sub (h : Wins m0 m W V) (i : ι) (i0 j0 : ℕ) (hr : i0 + r ≤ (W i).r) (hc : j0 + c ≤ (W i).c)
    (hf : ∀ a < r, ∀ b < c, V i (i0 + a) (j0 + b) = f a b) : On m m ((W i).sub i0 j0 r c) f :=
  ((h.on i).sub hr hc).congr hf

omit [DecidableEq ι] [Field K] [DecidableEq K] in
lemma Wins.disj_sub (h : Wins m0 m W V) {i i' : ι} (hi : i ≠ i') {a b a' b' r c r' c' : ℕ} (hr : a + r ≤ (W i).r) (hc : b + c ≤ (W i).c)
    (hr' : a' + r' ≤ (W i').r) (hc' : b' + c' ≤ (W i').c) : ((W i).sub a b r c).Disj ((W i').sub a' b' r' c') :=
  ((h.disj i i' hi).sub_left hr hc).sub_right hr' hc'

/-- `PLUQ` of a block equal to `X` -/
lemma Wins.pluq (cat : Cat) {g : GemmFn K} {ts : TrsmFn K} (hg : GemmOk g) (ht : TrsmOk ts) (thr : ℕ) (jk : List ℕ → ℕ → ℕ)
    (h : Wins m0 m W V) (i : ι) (i0 j0 : ℕ) {M N A lda : ℕ} {X : ℕ → ℕ → K} (hr : i0 + M ≤ (W i).r) (hc : j0 + N ≤ (W i).c)
    (hX : ∀ a < M, ∀ b < N, V i (i0 + a) (j0 + b) = X a b) {cap : ℕ} (c1 : M ≤ cap) (c2 : N ≤ cap) (hA : A = (W i).adr i0 j0)
    (hl : lda = (W i).ld) :
    Run (d2sPluq cat g ts thr jk cap M N A lda) m (fun x m' => x.2.1.len = M ∧ x.2.2.len = N ∧ IsTranspArray x.2.1.get M ∧
      IsTranspArray x.2.2.get N ∧ ∃ Z, Fac .nonUnit M N X Z (ofSwaps x.2.1.get M) (ofSwaps x.2.2.get N) x.1 ∧
        Wins m0 m' W (Function.update V i (upd i0 j0 M N Z (V i)))) := by
  subst hA hl
  unfold d2sPluq
  rw [if_neg (by omega)]
  refine (pluq_spec (W := (W i).sub i0 j0 M N) cat hg ht thr _ .nonUnit (h.on_sub i i0 j0 hr hc hX) rfl rfl).mono ?_
  rintro x m1 ⟨h1, h2, h3, h4, Z, o, F⟩
  exact ⟨h1, h2, h3, h4, Z, F, h.put_sub i hr hc o⟩

/-- lower factor copied from the block `(a0, b0)` of window `i'` to the block `(i0, j0)` of window `i` -/
lemma Wins.pL (onz : Bool) (h : Wins m0 m W V) (i i' : ι) (i0 j0 c a0 b0 c' : ℕ) {M N n r A lda T ldt : ℕ} {P : Arr ℕ} {Z : ℕ → ℕ → K}
    (hr : i0 + M ≤ (W i).r) (hc : j0 + c ≤ (W i).c) (hr' : a0 + M ≤ (W i').r) (hc' : b0 + c' ≤ (W i').c)
    (hd : ((W i').sub a0 b0 M c').Disj ((W i).sub i0 j0 M c)) (hZ : ∀ a < M, ∀ b < c', V i' (a0 + a) (b0 + b) = Z a b)
    (hrM : r ≤ M) (hrN : r ≤ N) (hrS : r ≤ c') (hrn : r ≤ n) (hn : n ≤ c) (hN : onz = false → N = n)
    (hz : ∀ a < M, ∀ b < c, (onz = false → n ≤ b) → V i (i0 + a) (j0 + b) = 0) (hP : P.len = M) (hp : IsTranspArray P.get M)
    (hA : A = (W i').adr a0 b0) (hl : lda = (W i').ld) (hT : T = (W i).adr i0 j0) (hlt : ldt = (W i).ld) :
    Run (do
      getTriangular .lower .unit M N r A lda T ldt onz
      applyP .left .yes n 0 M T ldt P) m
      (fun _ m' => Wins m0 m' W (Function.update V i (upd i0 j0 M c (facL Z (ofSwaps P.get M) r) (V i)))) := by
  subst hA hl hT hlt
  exact (pL_on (W := (W i).sub i0 j0 M c) (S := (W i').sub a0 b0 M c') onz (h.on_sub i i0 j0 hr hc (fun _ _ _ _ => rfl)) (h.on_sub i' a0 b0 hr' hc' hZ).src hd
    le_rfl rfl hrM hrN hrS hrn hn hN hz hP hp).mono (fun _ m1 o => h.put_sub i hr hc o)

/-- upper factor -/
lemma Wins.Uq (onz : Bool) (h : Wins m0 m W V) (i i' : ι) (i0 j0 c a0 b0 c' : ℕ) {M N n r A lda T ldt : ℕ} {P : Arr ℕ} {Z : ℕ → ℕ → K}
    (hr : i0 + c ≤ (W i).r) (hc : j0 + N ≤ (W i).c) (hr' : a0 + c' ≤ (W i').r) (hc' : b0 + N ≤ (W i').c)
    (hd : ((W i').sub a0 b0 c' N).Disj ((W i).sub i0 j0 c N)) (hZ : ∀ a < c', ∀ b < N, V i' (a0 + a) (b0 + b) = Z a b)
    (hrN : r ≤ N) (hrM : r ≤ M) (hrS : r ≤ c') (hrn : r ≤ n) (hn : n ≤ c) (hM : onz = false → M = n)
    (hz : ∀ a < c, ∀ b < N, (onz = false → n ≤ a) → V i (i0 + a) (j0 + b) = 0) (hP : P.len = N) (hp : IsTranspArray P.get N)
    (hA : A = (W i').adr a0 b0) (hl : lda = (W i').ld) (hT : T = (W i).adr i0 j0) (hlt : ldt = (W i).ld) :
    Run (do
      getTriangular .upper .nonUnit M N r A lda T ldt onz
      applyP .right .no n 0 N T ldt P) m
      (fun _ m' => Wins m0 m' W (Function.update V i (upd i0 j0 c N (facU Z (ofSwaps P.get N) r) (V i)))) := by
  subst hA hl hT hlt
  exact (Uq_on (W := (W i).sub i0 j0 c N) (S := (W i').sub a0 b0 c' N) onz (h.on_sub i i0 j0 hr hc (fun _ _ _ _ => rfl)) (h.on_sub i' a0 b0 hr' hc' hZ).src hd
    le_rfl rfl hrN hrM hrS hrn hn hM hz hP hp).mono (fun _ m1 o => h.put_sub i hr hc o)

/-- lower factor in place -/
lemma Wins.pL_in (h : Wins m0 m W V) (i : ι) (i0 j0 : ℕ) {M N r A lda : ℕ} {P : Arr ℕ} {Z : ℕ → ℕ → K} (hr : i0 + M ≤ (W i).r) (hc : j0 + N ≤ (W i).c)
    (hZ : ∀ a < M, ∀ b < N, V i (i0 + a) (j0 + b) = Z a b) (hrM : r ≤ M) (hrN : r ≤ N) (hP : P.len = M) (hp : IsTranspArray P.get M)
    (hA : A = (W i).adr i0 j0) (hl : lda = (W i).ld) :
    Run (do
      getTriangularIn .lower .unit M N r A lda
      applyP .left .yes N 0 M A lda P) m
      (fun _ m' => Wins m0 m' W (Function.update V i (upd i0 j0 M N (facL Z (ofSwaps P.get M) r) (V i)))) := by
  subst hA hl
  exact (pL_in_on (W := (W i).sub i0 j0 M N) (h.on_sub i i0 j0 hr hc hZ) hrM hrN hP hp).mono (fun _ m1 o => h.put_sub i hr hc o)

/-- upper factor in place -/
lemma Wins.Uq_in (h : Wins m0 m W V) (i : ι) (i0 j0 : ℕ) {M N r A lda : ℕ} {P : Arr ℕ} {Z : ℕ → ℕ → K} (hr : i0 + M ≤ (W i).r) (hc : j0 + N ≤ (W i).c)
    (hZ : ∀ a < M, ∀ b < N, V i (i0 + a) (j0 + b) = Z a b) (hrM : r ≤ M) (hrN : r ≤ N) (hP : P.len = N) (hp : IsTranspArray P.get N)
    (hA : A = (W i).adr i0 j0) (hl : lda = (W i).ld) :
    Run (do
      getTriangularIn .upper .nonUnit M N r A lda
      applyP .right .no M 0 N A lda P) m
      (fun _ m' => Wins m0 m' W (Function.update V i (upd i0 j0 M N (facU Z (ofSwaps P.get N) r) (V i)))) := by
  subst hA hl
  exact (Uq_in_on (W := (W i).sub i0 j0 M N) (h.on_sub i i0 j0 hr hc hZ) hrM hrN hP hp).mono (fun _ m1 o => h.put_sub i hr hc o)

/-- copy of the block `(a0, b0)` of window `i'` to the block `(i0, j0)` of window `i` -/
lemma Wins.copy (h : Wins m0 m W V) (i i' : ι) (i0 j0 a0 b0 : ℕ) {r c A lda T ldt : ℕ} {x : ℕ → ℕ → K} (hi : i' ≠ i)
    (hr : i0 + r ≤ (W i).r) (hc : j0 + c ≤ (W i).c) (hr' : a0 + r ≤ (W i').r) (hc' : b0 + c ≤ (W i').c)
    (hx : ∀ a < r, ∀ b < c, V i' (a0 + a) (b0 + b) = x a b)
    (hA : A = (W i').adr a0 b0) (hl : lda = (W i').ld) (hT : T = (W i).adr i0 j0) (hlt : ldt = (W i).ld) :
    Run (fassign r c A lda T ldt) m (fun _ m' => Wins m0 m' W (Function.update V i (upd i0 j0 r c x (V i)))) := by
  subst hA hl
  exact h.assign i (h.on_sub i' a0 b0 hr' hc' hx).src i0 j0 hr hc ((h.disj i' i hi).sub_left hr' hc') hT hlt

/-- `fzero` of a block -/
lemma Wins.zero (h : Wins m0 m W V) (i : ι) (i0 j0 : ℕ) {r c T ldt : ℕ} (hr : i0 + r ≤ (W i).r) (hc : j0 + c ≤ (W i).c)
    (hT : T = (W i).adr i0 j0) (hlt : ldt = (W i).ld) :
    Run (fzero r c T ldt) m (fun _ m' => Wins m0 m' W (Function.update V i (upd i0 j0 r c (fun _ _ => 0) (V i)))) := by
  subst hlt
  exact (fzero_on (h.on i) i0 j0 r c hr hc hT).mono (fun _ m' s => h.put i s)

lemma Run_two {β γ : Type} {a : Prog K Unit} {b : Prog K β} {k : β → Prog K γ} {Q : γ → Mem K → Prop}
    (h : Run (a >>= fun _ => b) m (fun y m' => Run (k y) m' Q)) : Run (a >>= fun _ => b >>= k) m Q := by
  simpa only [Run_bind] using h

end

end Verif.FF
