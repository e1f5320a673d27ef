import Verif.Model.Sss
import Verif.Proofs.SssMath
import Verif.Proofs.Wins

/-!
# Products with a sequentially semi-separable matrix: the program
-/

namespace Verif.FF

open Finset Verif.Spec

variable {K ι : Type} [Field K] [DecidableEq K]

/-- rows of a source -/
lemma Src.rows {m : Mem K} {A lda n c : ℕ} {f : ℕ → ℕ → K} (h : Src m ⟨A, lda, n, c⟩ f) (i0 r c' : ℕ) (hr : i0 + r ≤ n) (hc : c' ≤ c) :
    Src m ⟨A + i0 * lda, lda, r, c'⟩ (fun a l => f (i0 + a) l) :=
  (h.sub (r := r) (c := c') i0 0 hr (by simpa using hc)).congr (fun _ _ _ _ => by simp [blk])

lemma Disj.rows {A lda n c : ℕ} {T : Win} (h : (Win.mk A lda n c).Disj T) (i0 r c' : ℕ) (hr : i0 + r ≤ n) (hc : c' ≤ c) :
    (Win.mk (A + i0 * lda) lda r c').Disj T :=
  h.sub_left (i := i0) (j := 0) (r' := r) (c' := c') hr (by simpa using hc)

/-- the generators can be read -/
structure SssSrc (m : Mem K) (N s : ℕ) (G : SssPtr) (p : Sss K) : Prop where
  P : Src m ⟨G.P, G.ldp, N - s, s⟩ p.P
  Q : Src m ⟨G.Q, G.ldq, N - sssLs N s, s⟩ p.Q
  R : Src m ⟨G.R, G.ldr, N - s - sssLs N s, s⟩ p.R
  U : Src m ⟨G.U, G.ldu, N - sssLs N s, s⟩ p.U
  V : Src m ⟨G.V, G.ldv, N - sssLs N s, s⟩ p.V
  W : Src m ⟨G.W, G.ldw, N - s - sssLs N s, s⟩ p.W
  D : Src m ⟨G.D, G.ldd, N, s⟩ p.D

/-- the generators do not meet the window `T` -/
structure SssDisj (N s : ℕ) (G : SssPtr) (T : Win) : Prop where
  P : (Win.mk G.P G.ldp (N - s) s).Disj T
  Q : (Win.mk G.Q G.ldq (N - sssLs N s) s).Disj T
  R : (Win.mk G.R G.ldr (N - s - sssLs N s) s).Disj T
  U : (Win.mk G.U G.ldu (N - sssLs N s) s).Disj T
  V : (Win.mk G.V G.ldv (N - sssLs N s) s).Disj T
  W : (Win.mk G.W G.ldw (N - s - sssLs N s) s).Disj T
  D : (Win.mk G.D G.ldd N s).Disj T

lemma SssSrc.fresh {m : Mem K} {N s : ℕ} {G : SssPtr} {p : Sss K} (h : SssSrc m N s G p) (hm : WF m) (r c : ℕ) :
    SssDisj N s G ⟨m.next, c, r, c⟩ :=
  ⟨Disj_new hm h.P.ok, Disj_new hm h.Q.ok, Disj_new hm h.R.ok, Disj_new hm h.U.ok, Disj_new hm h.V.ok, Disj_new hm h.W.ok, Disj_new hm h.D.ok⟩

lemma SssSrc.grow {m : Mem K} {N s : ℕ} {G : SssPtr} {p : Sss K} (h : SssSrc m N s G p) (n : ℕ) : SssSrc (m.grow n) N s G p :=
  ⟨h.P.grow n, h.Q.grow n, h.R.grow n, h.U.grow n, h.V.grow n, h.W.grow n, h.D.grow n⟩

lemma SssSrc.wins {m0 m : Mem K} {N s : ℕ} {G : SssPtr} {p : Sss K} {W : ι → Win} {V : ι → ℕ → ℕ → K} (h : SssSrc m0 N s G p)
    (hw : Wins m0 m W V) (hd : ∀ i, SssDisj N s G (W i)) : SssSrc m N s G p :=
  ⟨hw.keep h.P (fun i => (hd i).P), hw.keep h.Q (fun i => (hd i).Q), hw.keep h.R (fun i => (hd i).R), hw.keep h.U (fun i => (hd i).U),
    hw.keep h.V (fun i => (hd i).V), hw.keep h.W (fun i => (hd i).W), hw.keep h.D (fun i => (hd i).D)⟩

section sizes
variable {N s : ℕ}

lemma sssLs_pos (hs : 0 < s) : 0 < sssLs N s := by unfold sssLs; split <;> omega
lemma sssLs_le (hs : 0 < s) : sssLs N s ≤ s := by
  unfold sssLs; split
  · exact (Nat.mod_lt _ hs).le
  · exact le_rfl

lemma sssK_pos (hN : 0 < N) (hs : 0 < s) : 0 < sssK N s := by
  unfold sssK; split
  · exact Nat.succ_pos _
  · rename_i h
    have h : N % s = 0 := by omega
    exact Nat.div_pos (Nat.le_of_dvd hN (Nat.dvd_of_mod_eq_zero h)) hs

lemma sssN (hN : 0 < N) (hs : 0 < s) : N = (sssK N s - 1) * s + sssLs N s := by
  have e : N = N / s * s + N % s := by rw [Nat.mul_comm]; exact (Nat.div_add_mod N s).symm
  have hp := sssK_pos hN hs
  unfold sssK sssLs at *
  split at hp
  · rename_i h
    rw [if_pos h, if_pos h, Nat.add_sub_cancel]; exact e
  · rename_i h
    rw [if_neg h, if_neg h]
    have e2 : N / s * s = (N / s - 1) * s + s := by
      conv_lhs => rw [show N / s = N / s - 1 + 1 by omega]
      ring
    omega

lemma mul_blk {j k s : ℕ} (h : j + 1 ≤ k) : j * s + s ≤ k * s := by
  calc j * s + s = (j + 1) * s := by ring
    _ ≤ k * s := Nat.mul_le_mul_right _ h

/-- size of block `j` -/
lemma blk_size (hN : 0 < N) (hs : 0 < s) {j : ℕ} (hj : j < sssK N s) :
    min s (N - j * s) = if j + 1 = sssK N s then sssLs N s else s := by
  have e := sssN hN hs
  have l1 := sssLs_le (N := N) hs
  split
  · rename_i h
    rw [show j = sssK N s - 1 by omega]; omega
  · have := mul_blk (s := s) (show j + 1 ≤ sssK N s - 1 by omega)
    omega

end sizes

variable {m0 m : Mem K} {W : ι → Win} {V : ι → ℕ → ℕ → K} [DecidableEq ι]

omit [DecidableEq K] in
/-- a block of rows of `C` is increased by the product of two sources -/
lemma sss_acc {g : GemmFn K} (hg : GemmOk g) (h : Wins m0 m W V) (i : ι) {C ldc N t bs s X ldx T : ℕ} {x τ : ℕ → ℕ → K} (hs : 0 < s)
    (hW : W i = ⟨C, ldc, N, t⟩) (sx : Src m ⟨X, ldx, bs, s⟩ x) (sT : Src m ⟨T, t, s, t⟩ τ) (dx : (Win.mk X ldx bs s).Disj (W i))
    (dT : (Win.mk T t s t).Disj (W i)) (j : ℕ) (hj : j * s ≤ N) (hbs : bs = min s (N - j * s)) :
    Run (g .no .no bs t s 1 X ldx T t 1 (C + j * s * ldc) ldc) m (fun _ m' => Wins m0 m' W
      (Function.update V i (fun a c => V i a c + if a / s = j then ∑ l ∈ range s, x (a % s) l * τ l c else 0))) := by
  refine (h.gemm hg i sx sT (j * s) 0 rfl (by rw [hW]; simp only []; omega) (by rw [hW]; simp only []; omega) dx dT 1 1
    (by rw [hW]; rfl) (by rw [hW])).mono (fun _ m' h' => h'.congr (fun i' a ha b hb => ?_))
  by_cases e : i' = i
  · subst e
    rw [Function.update_self, Function.update_self]
    rw [hW] at ha hb
    simp only at ha hb
    have hae : a / s * s + a % s = a := by rw [Nat.mul_comm]; exact Nat.div_add_mod a s
    have ham := Nat.mod_lt a hs
    by_cases ej : a / s = j
    · rw [if_pos ej, upd_in' (by simp only []; rw [ej] at hae; omega)]
      rw [ej] at hae
      rw [show a - j * s = a % s by omega, Nat.sub_zero, hae, Nat.zero_add]
      ring
    · rw [if_neg ej, upd_out, add_zero]
      simp only []
      by_contra hc
      have hc : j * s ≤ a ∧ a < j * s + bs := by omega
      apply ej
      have : a = j * s + (a - j * s) := by omega
      rw [this, divs (by omega)]
  · rw [Function.update_of_ne e, Function.update_of_ne e]

omit [DecidableEq K] in
/-- `T ← alpha q b`, then `T ← T + r τ` -/
lemma sss_chain {g : GemmFn K} (hg : GemmOk g) (h : Wins m0 m W V) (i : ι) {T' t s n q ldq b ldb r ldr T : ℕ} {fq fb fr τ : ℕ → ℕ → K} (alpha : K)
    (hW : W i = ⟨T', t, s, t⟩) (sq : Src m ⟨q, ldq, s, n⟩ fq) (sb : Src m ⟨b, ldb, n, t⟩ fb) (sr : Src m ⟨r, ldr, s, s⟩ fr)
    (sT : Src m ⟨T, t, s, t⟩ τ) (dq : (Win.mk q ldq s n).Disj (W i)) (db : (Win.mk b ldb n t).Disj (W i)) (dr : (Win.mk r ldr s s).Disj (W i))
    (dT : (Win.mk T t s t).Disj (W i)) :
    Run (g .no .no s t n alpha q ldq b ldb 0 T' t) m (fun _ m1 => Run (g .no .no s t s 1 r ldr T t 1 T' t) m1 (fun _ m' => Wins m0 m' W
      (Function.update V i (fun a c => ∑ l ∈ range s, fr a l * τ l c + alpha * ∑ l ∈ range n, fq a l * fb l c)))) := by
  have e0 : T' = (W i).adr 0 0 := by rw [hW]; simp [Win.adr]
  refine (gemm_src hg (h.on i) sq sb 0 0 rfl (by rw [hW]; simp) (by rw [hW]; simp) (dq.sub_right (by rw [hW]; simp) (by rw [hW]; simp))
    (db.sub_right (by rw [hW]; simp) (by rw [hW]; simp)) alpha 0 e0).mono (fun _ m1 o1 => ?_) |> fun h => by rw [hW] at h; exact h
  have o2 := h.put i o1
  have sr' := sr.step o1.step dr
  have sT' := sT.step o1.step dT
  refine (o2.gemm hg i sr' sT' 0 0 rfl (by rw [hW]; simp) (by rw [hW]; simp) dr dT 1 1 e0 (by rw [hW])).mono
    (fun _ m' h' => h'.congr (fun i' a ha c hc => ?_))
  by_cases e : i' = i
  · subst e
    rw [hW] at ha hc
    simp only at ha hc
    rw [Function.update_self, Function.update_self, Function.update_self, upd_in' (by simp only []; omega), upd_in' (by simp only []; omega)]
    simp only [Nat.sub_zero, Nat.zero_add]
    ring
  · rw [Function.update_of_ne e, Function.update_of_ne e, Function.update_of_ne e]

omit [DecidableEq K] in
/-- `T ← alpha q b` -/
lemma sss_set {g : GemmFn K} (hg : GemmOk g) (h : Wins m0 m W V) (i : ι) {T' t s n q ldq b ldb : ℕ} {fq fb : ℕ → ℕ → K} (alpha : K)
    (hW : W i = ⟨T', t, s, t⟩) (sq : Src m ⟨q, ldq, s, n⟩ fq) (sb : Src m ⟨b, ldb, n, t⟩ fb)
    (dq : (Win.mk q ldq s n).Disj (W i)) (db : (Win.mk b ldb n t).Disj (W i)) :
    Run (g .no .no s t n alpha q ldq b ldb 0 T' t) m (fun _ m' => Wins m0 m' W
      (Function.update V i (fun a c => alpha * ∑ l ∈ range n, fq a l * fb l c))) := by
  have e0 : T' = (W i).adr 0 0 := by rw [hW]; simp [Win.adr]
  refine (h.gemm hg i sq sb 0 0 rfl (by rw [hW]; simp) (by rw [hW]; simp) dq db alpha 0 e0 (by rw [hW])).mono
    (fun _ m' h' => h'.congr (fun i' a ha c hc => ?_))
  by_cases e : i' = i
  · subst e
    rw [hW] at ha hc
    simp only at ha hc
    rw [Function.update_self, Function.update_self, upd_in' (by simp only []; omega)]
    simp only [Nat.sub_zero, zero_mul, add_zero]
  · rw [Function.update_of_ne e, Function.update_of_ne e]

end Verif.FF
