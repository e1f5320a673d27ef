import Verif.Model.Convert
import Verif.Props.LazyGemm
import Verif.Spec.Mat

/-!
# Products over fields of machine words: proofs
-/

namespace Verif.Conv

open Verif Verif.FP Verif.Bounds Verif.Lazy Verif.FF Verif.Props Finset

/-- the elements include 0, and the field is prime -/
structure WordField.WF (F : WordField) : Prop where
  prime : Nat.Prime F.p
  lo_nonpos : F.lo ≤ 0
  hi_nonneg : 0 ≤ F.lo + F.p - 1

lemma WordField.WF.red_mem {F : WordField} (h : F.WF) (x : ℤ) : Itv.Has F.itv (F.red x) := by
  have := h.prime.pos
  have h1 := Int.emod_nonneg (x - F.lo) (b := (F.p : ℤ)) (by omega)
  have h2 := Int.emod_lt_of_pos (x - F.lo) (b := (F.p : ℤ)) (by omega)
  constructor <;> simp only [WordField.itv, WordField.red] <;> omega

lemma WordField.red_modEq (F : WordField) (x : ℤ) : F.red x ≡ x [ZMOD F.p] := by
  have := (Int.mod_modEq (x - F.lo) F.p).add_left F.lo
  simpa [WordField.red] using this

lemma addr_inj {ld n i j i' j' : ℕ} (hn : n ≤ ld) (hj : j < n) (hj' : j' < n) (h : i * ld + j = i' * ld + j') : i = i' ∧ j = j' := by
  have e : ∀ a b, b < n → (a * ld + b) / ld = a ∧ (a * ld + b) % ld = b := fun a b hb => by
    rw [Nat.mul_comm a ld, Nat.mul_add_div (by omega), Nat.mul_add_mod, Nat.div_eq_of_lt (by omega), Nat.mod_eq_of_lt (by omega)]
    exact ⟨rfl, rfl⟩
  obtain ⟨h1, h2⟩ := e i j hj
  obtain ⟨h3, h4⟩ := e i' j' hj'
  exact ⟨by rw [← h1, h, h3], by rw [← h2, h, h4]⟩

lemma lt_compact {m n i j : ℕ} (hi : i < m) (hj : j < n) : i * n + j < m * n := by
  calc i * n + j < i * n + n := by omega
    _ = (i + 1) * n := by ring
    _ ≤ m * n := Nat.mul_le_mul_right _ hi

lemma fconvertM_ok (prec m n : ℕ) (Af A : Arr ℤ) (lda : ℕ) (hl : Af.len = m * n) (lA : ∀ i < m, ∀ j < n, i * lda + j < A.len)
    (hA : ∀ i < m, ∀ j < n, |A.get (i * lda + j)| ≤ 2 ^ prec) :
    Ok (fconvertM prec m n Af A lda) (fun B => B.len = m * n ∧ ∀ i < m, ∀ j < n, B.get (i * n + j) = A.get (i * lda + j)) := by
  unfold fconvertM
  refine (Ok_fill2 m n (fun i j => i * n + j) (fun i j => do let x ← A.rd (i * lda + j); chk prec x) (fun i j => A.get (i * lda + j)) Af
    (fun i hi j hj => ?_) (fun i hi j hj => by rw [hl]; exact lt_compact hi hj)
    (fun i _ j hj i' _ j' hj' h => addr_inj le_rfl hj hj' h)).mono (fun B h => ⟨by rw [h.1, hl], h.2.1⟩)
  simp only [Arr.rd, if_pos (lA i hi j hj), bind, Except.bind, chk, if_pos (hA i hi j hj)]

lemma freduceM_ok (G : FpField) (hG : G.WF) (m n : ℕ) (Af : Arr ℤ) (hl : Af.len = m * n) :
    Ok (freduceM G m n Af) (fun B => B.len = m * n ∧ ∀ i < m, ∀ j < n, Itv.Has G.itv (B.get (i * n + j)) ∧
      B.get (i * n + j) ≡ Af.get (i * n + j) [ZMOD G.p]) := by
  unfold freduceM
  refine (Ok_upd2 m n (fun i j => i * n + j) (fun _ _ x => Except.ok (G.red x)) (fun i j => G.red (Af.get (i * n + j))) Af
    (fun i hi j hj => rfl) (fun i hi j hj => by rw [hl]; exact lt_compact hi hj)
    (fun i _ j hj i' _ j' hj' h => addr_inj le_rfl hj hj' h)).mono (fun B h => ⟨by rw [h.1, hl], fun i hi j hj => ?_⟩)
  rw [h.2.1 i hi j hj]
  exact ⟨hG.red_mem _, G.red_modEq _⟩

lemma loadM_ok (G : FpField) (hG : G.WF) (m n : ℕ) (Af A : Arr ℤ) (lda : ℕ) (hl : Af.len = m * n) (lA : ∀ i < m, ∀ j < n, i * lda + j < A.len)
    (hA : ∀ i < m, ∀ j < n, |A.get (i * lda + j)| ≤ 2 ^ G.prec) {Q : Arr ℤ → Prop}
    (hQ : ∀ B : Arr ℤ, B.len = m * n → (∀ i < m, ∀ j < n, Itv.Has G.itv (B.get (i * n + j)) ∧
      B.get (i * n + j) ≡ A.get (i * lda + j) [ZMOD G.p]) → Q B) :
    Ok (fconvertM G.prec m n Af A lda) (fun B => Ok (freduceM G m n B) Q) := by
  refine (fconvertM_ok G.prec m n Af A lda hl lA hA).mono (fun B h => (freduceM_ok G hG m n B h.1).mono (fun D h' => ?_))
  refine hQ D h'.1 (fun i hi j hj => ⟨(h'.2 i hi j hj).1, ?_⟩)
  rw [← h.2 i hi j hj]
  exact (h'.2 i hi j hj).2

lemma finitM_ok (F : WordField) (hF : F.WF) (m n : ℕ) (Cf C : Arr ℤ) (ldc : ℕ) (hl : Cf.len = m * n) (lC : ∀ i < m, ∀ j < n, i * ldc + j < C.len)
    (hld : n ≤ ldc ∨ n = 1 ∧ ldc ≠ 0) :
    Ok (finitM F m n Cf C ldc) (fun D => D.len = C.len ∧ (∀ i < m, ∀ j < n, Itv.Has F.itv (D.get (i * ldc + j)) ∧
      D.get (i * ldc + j) ≡ Cf.get (i * n + j) [ZMOD F.p]) ∧ ∀ x, (∀ i < m, ∀ j < n, x ≠ i * ldc + j) → D.get x = C.get x) := by
  unfold finitM
  refine (Ok_fill2 m n (fun i j => i * ldc + j) (fun i j => do let x ← Cf.rd (i * n + j); pure (F.red x)) (fun i j => F.red (Cf.get (i * n + j))) C
    (fun i hi j hj => ?_) lC (fun i _ j hj i' _ j' hj' h => addr_inj (by omega) hj hj' h)).mono (fun B h => ⟨h.1, fun i hi j hj => ?_, h.2.2⟩)
  · simp only [Arr.rd, if_pos (show i * n + j < Cf.len by rw [hl]; exact lt_compact hi hj), bind, Except.bind, pure, Except.pure]
  · rw [h.2.1 i hi j hj]
    exact ⟨hF.red_mem _, F.red_modEq _⟩

lemma fscalinW_ok (F : WordField) (hF : F.WF) (m n : ℕ) (beta : ℤ) (C : Arr ℤ) (ldc : ℕ) (lC : ∀ i < m, ∀ j < n, i * ldc + j < C.len)
    (hld : n ≤ ldc) :
    Ok (fscalinW F m n beta C ldc) (fun D => D.len = C.len ∧ (∀ i < m, ∀ j < n, Itv.Has F.itv (D.get (i * ldc + j)) ∧
      D.get (i * ldc + j) ≡ beta * C.get (i * ldc + j) [ZMOD F.p]) ∧ ∀ x, (∀ i < m, ∀ j < n, x ≠ i * ldc + j) → D.get x = C.get x) := by
  unfold fscalinW
  refine (Ok_upd2 m n (fun i j => i * ldc + j) (fun _ _ x => Except.ok (F.red (beta * x))) (fun i j => F.red (beta * C.get (i * ldc + j))) C
    (fun i hi j hj => rfl) lC (fun i _ j hj i' _ j' hj' h => addr_inj hld hj hj' h)).mono (fun B h => ⟨h.1, fun i hi j hj => ?_, h.2.2⟩)
  rw [h.2.1 i hi j hj]
  exact ⟨hF.red_mem _, F.red_modEq _⟩

lemma rdVec_ok (k : ℕ) (A : Arr ℤ) (at' : ℕ → ℕ) (h : ∀ l < k, at' l < A.len) : Ok (rdVec k A at') (fun v => ∀ l < k, v l = A.get (at' l)) := by
  unfold rdVec
  refine Ok_iter (fun t (v : ℕ → ℤ) => ∀ l < t, v l = A.get (at' l)) (by simp) ?_
  intro t v ht hv
  simp only [Ok_bind, Ok_rd, Ok_pure]
  refine ⟨h t ht, fun l hl => ?_⟩
  by_cases e : l = t
  · subst e; simp
  · rw [Function.update_of_ne e]; exact hv l (by omega)

lemma WF.mOne_ne {G : FpField} (hG : G.WF) : (0 : ℤ) ≠ G.mOne := by
  intro h
  have h1 := G.red_modEq (-1)
  rw [show G.red (-1) = G.mOne from rfl, ← h] at h1
  have h2 := (Int.modEq_iff_dvd.1 h1)
  have h3 := Int.le_of_dvd (by norm_num) (Int.dvd_neg.2 h2)
  have := hG.prime.two_le
  omega

lemma WF.div_zero {G : FpField} (hG : G.WF) (y : ℤ) : G.div 0 y = 0 := by
  unfold FpField.div
  rw [zero_mul]
  exact hG.red_unique 0 0 hG.zero_mem rfl

/-- With `beta = 0` the contents of `C` do not matter. -/
lemma fgemmDelayed_zero {G : FpField} (hG : G.WF) (sizeMax : ℕ) (sched : ℕ → ℕ → SumTree) (k : ℕ) (alpha : ℤ) (a b : ℕ → ℤ) (c : ℤ) :
    fgemmDelayed G sizeMax sched k alpha a b 0 c = fgemmDelayed G sizeMax sched k alpha a b 0 0 := by
  have hl : ∀ al, fgemmLazy G sizeMax (initHelper G) sched k al a b 0 c = fgemmLazy G sizeMax (initHelper G) sched k al a b 0 0 := by
    intro al
    unfold fgemmLazy
    simp only [WF.div_zero hG, ite_self, if_neg (WF.mOne_ne hG), kernel, zero_mul]
  unfold fgemmDelayed
  simp only [WF.div_zero hG, ite_self, zero_mul, hl]

/-- the number returned by a computation that succeeds -/
def outOf (e : Except Fault ℤ) : ℤ := match e with
  | .ok r => r
  | .error _ => 0

lemma outOf_spec {e : Except Fault ℤ} {Q : ℤ → Prop} (h : Ok e Q) : e = .ok (outOf e) ∧ Q (outOf e) := by
  obtain ⟨r, rfl, hr⟩ := h
  exact ⟨rfl, hr⟩

lemma fgemmG_ok (G : FpField) (hG : G.WF) (sizeMax : ℕ) (sched : ℕ → ℕ → ℕ → ℕ → SumTree) (hs : ∀ i j x n, (sched i j x n).Covers n) (ta tb : Tr)
    (m n k : ℕ) (alpha : ℤ) (A : Arr ℤ) (lda : ℕ) (B : Arr ℤ) (ldb : ℕ) (beta : ℤ) (C : Arr ℤ) (ldc : ℕ) (hal : Itv.Has G.itv alpha)
    (hbe : Itv.Has G.itv beta) (lA : ∀ i < m, ∀ l < k, adr ta lda i l < A.len) (lB : ∀ l < k, ∀ j < n, adr tb ldb l j < B.len)
    (lC : ∀ i < m, ∀ j < n, i * ldc + j < C.len) (hld : n ≤ ldc) (hA : ∀ i < m, ∀ l < k, Itv.Has G.itv (A.get (adr ta lda i l)))
    (hB : ∀ l < k, ∀ j < n, Itv.Has G.itv (B.get (adr tb ldb l j))) (hC : beta = 0 ∨ ∀ i < m, ∀ j < n, Itv.Has G.itv (C.get (i * ldc + j)))
    (hsafe : Safe G sizeMax k beta) :
    Ok (fgemmG G sizeMax sched ta tb m n k alpha A lda B ldb beta C ldc) (fun D => D.len = C.len ∧ ∀ i < m, ∀ j < n,
      D.get (i * ldc + j) ≡ alpha * (∑ l ∈ range k, A.get (adr ta lda i l) * B.get (adr tb ldb l j)) + beta * C.get (i * ldc + j) [ZMOD G.p]) := by
  unfold fgemmG
  set f : ℕ → ℕ → ℤ → Except Fault ℤ := fun i j c => do
    let a ← rdVec k A (fun l => adr ta lda i l)
    let b ← rdVec k B (fun l => adr tb ldb l j)
    fgemmDelayed G sizeMax (sched i j) k alpha a b beta c with hf
  have key : ∀ i < m, ∀ j < n, Ok (f i j (C.get (i * ldc + j))) (fun r =>
      r ≡ alpha * (∑ l ∈ range k, A.get (adr ta lda i l) * B.get (adr tb ldb l j)) + beta * C.get (i * ldc + j) [ZMOD G.p]) := by
    intro i hi j hj
    simp only [hf, Ok_bind]
    refine (rdVec_ok k A _ (fun l hl => lA i hi l hl)).mono (fun a ha => (rdVec_ok k B _ (fun l hl => lB l hl j hj)).mono (fun b hb => ?_))
    have hsum : ∑ l ∈ range k, A.get (adr ta lda i l) * B.get (adr tb ldb l j) = ∑ l ∈ range k, a l * b l :=
      sum_congr rfl (fun l hl => by rw [mem_range] at hl; rw [ha l hl, hb l hl])
    rw [hsum]
    have ha' : ∀ l < k, Itv.Has G.itv (a l) := fun l hl => by rw [ha l hl]; exact hA i hi l hl
    have hb' : ∀ l < k, Itv.Has G.itv (b l) := fun l hl => by rw [hb l hl]; exact hB l hl j hj
    rcases hC with rfl | hC
    · rw [fgemmDelayed_zero hG]
      obtain ⟨r, h1, -, h2⟩ := Props.C08_lazy_fgemm_partial G hG sizeMax (sched i j) (hs i j) k alpha 0 0 a b hal hbe hG.zero_mem ha' hb' hsafe
      exact ⟨r, h1, by simpa using h2⟩
    · obtain ⟨r, h1, -, h2⟩ := Props.C08_lazy_fgemm_partial G hG sizeMax (sched i j) (hs i j) k alpha beta _ a b hal hbe (hC i hi j hj) ha' hb' hsafe
      exact ⟨r, h1, h2⟩
  refine (Ok_upd2 m n (fun i j => i * ldc + j) f (fun i j => outOf (f i j (C.get (i * ldc + j)))) C
    (fun i hi j hj => (outOf_spec (key i hi j hj)).1) lC (fun i _ j hj i' _ j' hj' h => addr_inj hld hj hj' h)).mono
    (fun D h => ⟨h.1, fun i hi j hj => ?_⟩)
  rw [h.2.1 i hi j hj]
  exact (outOf_spec (key i hi j hj)).2

/-- the conversion of one element -/
lemma toG_ok (G : FpField) (x : ℤ) (hx : |x| ≤ 2 ^ G.prec) : toG G x = .ok (G.red x) := by
  simp only [toG, chk, if_pos hx, bind, Except.bind, pure, Except.pure]

lemma WordField.abs_le {F : WordField} (hF : F.WF) {x : ℤ} (hx : Itv.Has F.itv x) {b : ℤ} (hb : (F.p : ℤ) ≤ b) : |x| ≤ b := by
  obtain ⟨h1, h2⟩ := hx
  have h3 := hF.lo_nonpos
  have h4 := hF.hi_nonneg
  simp only [WordField.itv] at h1 h2
  exact _root_.abs_le.2 ⟨by omega, by omega⟩

lemma WordField.eq_zero {F : WordField} (hF : F.WF) {x : ℤ} (hx : Itv.Has F.itv x) (h : x ≡ 0 [ZMOD F.p]) : x = 0 := by
  obtain ⟨h1, h2⟩ := hx
  have h3 := hF.lo_nonpos
  have h4 := hF.hi_nonneg
  simp only [WordField.itv] at h1 h2
  obtain ⟨c, hc⟩ := (Int.modEq_zero_iff_dvd.1 h)
  have hp : (0 : ℤ) < F.p := by exact_mod_cast hF.prime.pos
  have c1 : c < 1 := by
    by_contra hh
    have : (F.p : ℤ) * 1 ≤ F.p * c := mul_le_mul_of_nonneg_left (by omega) hp.le
    omega
  have c2 : -1 < c := by
    by_contra hh
    have : (F.p : ℤ) * c ≤ F.p * (-1) := mul_le_mul_of_nonneg_left (by omega) hp.le
    omega
  have : c = 0 := by omega
  rw [hc, this, mul_zero]

/-- congruences go through a product -/
lemma gemm_modEq {p : ℕ} {k : ℕ} {al al' be be' c c' r : ℤ} {a a' b b' : ℕ → ℤ} (hal : al ≡ al' [ZMOD p])
    (ha : ∀ l < k, a l ≡ a' l [ZMOD p]) (hb : ∀ l < k, b l ≡ b' l [ZMOD p]) (hc : be * c ≡ be' * c' [ZMOD p])
    (h : r ≡ al * (∑ l ∈ range k, a l * b l) + be * c [ZMOD p]) : r ≡ al' * (∑ l ∈ range k, a' l * b' l) + be' * c' [ZMOD p] := by
  refine h.trans ((Int.ModEq.mul hal ?_).add hc)
  rw [← ZMod.intCast_eq_intCast_iff]
  push_cast
  refine sum_congr rfl (fun l hl => ?_)
  rw [mem_range] at hl
  rw [(ZMod.intCast_eq_intCast_iff _ _ _).2 (ha l hl), (ZMod.intCast_eq_intCast_iff _ _ _).2 (hb l hl)]

lemma safe_red {F : WordField} (hF : F.WF) {G : FpField} (hp : G.p = F.p) {sizeMax k : ℕ} {beta : ℤ} (hbe : Itv.Has F.itv beta)
    (h : beta = 0 → Safe G sizeMax k 0) : Safe G sizeMax k (G.red beta) := by
  intro hz
  have h1 := G.red_modEq beta
  rw [hz, hp] at h1
  exact h (WordField.eq_zero hF hbe h1.symm) rfl

/-- what the products leave in `C` -/
def WordRes (F : WordField) (m n ldc : ℕ) (C : Arr ℤ) (v : ℕ → ℕ → ℤ) (D : Arr ℤ) : Prop :=
  D.len = C.len ∧ (∀ i < m, ∀ j < n, Itv.Has F.itv (D.get (i * ldc + j)) ∧ D.get (i * ldc + j) ≡ v i j [ZMOD F.p]) ∧
  ∀ x, (∀ i < m, ∀ j < n, x ≠ i * ldc + j) → D.get x = C.get x

lemma op_entry (t : Tr) (A : Arr ℤ) (ld i l : ℕ) : Spec.op t (fun i j => A.get (i * ld + j)) i l = A.get (adr t ld i l) := by
  cases t <;> rfl

theorem fgemmConvert_ok (F : WordField) (hF : F.WF) (G : FpField) (hG : G.WF) (hp : G.p = F.p) (hfit : (F.p : ℤ) ≤ 2 ^ G.prec) (J : ℕ → ℕ → ℤ)
    (sizeMax : ℕ) (sched : ℕ → ℕ → ℕ → ℕ → SumTree) (hs : ∀ i j x n, (sched i j x n).Covers n) (ta tb : Tr)
    (m n k : ℕ) (alpha : ℤ) (A : Arr ℤ) (lda : ℕ) (B : Arr ℤ) (ldb : ℕ) (beta : ℤ) (C : Arr ℤ) (ldc : ℕ) (hal : Itv.Has F.itv alpha)
    (hbe : Itv.Has F.itv beta) (lA : ∀ i < opr ta m k, ∀ j < opc ta m k, i * lda + j < A.len) (lB : ∀ i < opr tb k n, ∀ j < opc tb k n, i * ldb + j < B.len)
    (lC : ∀ i < m, ∀ j < n, i * ldc + j < C.len) (hld : n ≤ ldc) (hA : ∀ i < opr ta m k, ∀ j < opc ta m k, Itv.Has F.itv (A.get (i * lda + j)))
    (hB : ∀ i < opr tb k n, ∀ j < opc tb k n, Itv.Has F.itv (B.get (i * ldb + j))) (hC : ∀ i < m, ∀ j < n, Itv.Has F.itv (C.get (i * ldc + j)))
    (hsafe : beta = 0 → Safe G sizeMax k 0) :
    Ok (fgemmConvert F G J sizeMax sched ta tb m n k alpha A lda B ldb beta C ldc) (WordRes F m n ldc C (fun i j =>
      alpha * (∑ l ∈ range k, A.get (adr ta lda i l) * B.get (adr tb ldb l j)) + beta * C.get (i * ldc + j))) := by
  have ab : ∀ {x : ℤ}, Itv.Has F.itv x → |x| ≤ 2 ^ G.prec := fun h => WordField.abs_le hF h hfit
  unfold fgemmConvert
  rw [toG_ok G beta (ab hbe), toG_ok G alpha (ab hal)]
  have e1 : (if ta = .yes then k else m) = opr ta m k := by cases ta <;> rfl
  have e2 : (if ta = .yes then m else k) = opc ta m k := by cases ta <;> rfl
  have e3 : (if tb = .yes then n else k) = opr tb k n := by cases tb <;> rfl
  have e4 : (if tb = .yes then k else n) = opc tb k n := by cases tb <;> rfl
  have l1 : m * k = opr ta m k * opc ta m k := by cases ta <;> simp [opr, opc, Nat.mul_comm]
  have l2 : k * n = opr tb k n * opc tb k n := by cases tb <;> simp [opr, opc, Nat.mul_comm]
  simp only [e1, e2, e3, e4, Ok_bind, Ok_ok]
  refine loadM_ok G hG _ _ _ A lda l1 lA (fun i hi j hj => ab (hA i hi j hj)) (fun Af la ha => ?_)
  refine loadM_ok G hG _ _ _ B ldb l2 lB (fun i hi j hj => ab (hB i hi j hj)) (fun Bf lb hb => ?_)
  have fin : ∀ Cf : Arr ℤ, Cf.len = m * n → (G.red beta = 0 ∨ ∀ i < m, ∀ j < n, Itv.Has G.itv (Cf.get (i * n + j))) →
      (∀ i < m, ∀ j < n, G.red beta * Cf.get (i * n + j) ≡ beta * C.get (i * ldc + j) [ZMOD F.p]) →
      Ok (fgemmG G sizeMax sched ta tb m n k (G.red alpha) Af (opc ta m k) Bf (opc tb k n) (G.red beta) Cf n) (fun Cf =>
        Ok (finitM F m n Cf C ldc) (WordRes F m n ldc C (fun i j =>
          alpha * (∑ l ∈ range k, A.get (adr ta lda i l) * B.get (adr tb ldb l j)) + beta * C.get (i * ldc + j)))) := by
    intro Cf lc hc1 hc2
    have xa : ∀ i < m, ∀ l < k, adr ta (opc ta m k) i l < Af.len ∧ Itv.Has G.itv (Af.get (adr ta (opc ta m k) i l)) ∧
        Af.get (adr ta (opc ta m k) i l) ≡ A.get (adr ta lda i l) [ZMOD G.p] := by
      intro i hi l hl
      cases ta
      · exact ⟨by rw [la]; exact lt_compact hi hl, ha i hi l hl⟩
      · exact ⟨by rw [la]; exact lt_compact hl hi, ha l hl i hi⟩
    have xb : ∀ l < k, ∀ j < n, adr tb (opc tb k n) l j < Bf.len ∧ Itv.Has G.itv (Bf.get (adr tb (opc tb k n) l j)) ∧
        Bf.get (adr tb (opc tb k n) l j) ≡ B.get (adr tb ldb l j) [ZMOD G.p] := by
      intro l hl j hj
      cases tb
      · exact ⟨by rw [lb]; exact lt_compact hl hj, hb l hl j hj⟩
      · exact ⟨by rw [lb]; exact lt_compact hj hl, hb j hj l hl⟩
    refine (fgemmG_ok G hG sizeMax sched hs ta tb m n k _ Af _ Bf _ _ Cf n (hG.red_mem _) (hG.red_mem _) (fun i hi l hl => (xa i hi l hl).1)
      (fun l hl j hj => (xb l hl j hj).1) (fun i hi j hj => by rw [lc]; exact lt_compact hi hj) le_rfl (fun i hi l hl => (xa i hi l hl).2.1)
      (fun l hl j hj => (xb l hl j hj).2.1) hc1 (safe_red hF hp hbe hsafe)).mono (fun D hD => ?_)
    refine (finitM_ok F hF m n D C ldc (by rw [hD.1, lc]) lC (Or.inl hld)).mono (fun E hE => ⟨hE.1, fun i hi j hj => ⟨(hE.2.1 i hi j hj).1, ?_⟩, hE.2.2⟩)
    refine (hE.2.1 i hi j hj).2.trans ?_
    have h := hD.2 i hi j hj
    rw [hp] at h
    exact gemm_modEq (by rw [← hp]; exact G.red_modEq alpha) (fun l hl => by rw [← hp]; exact (xa i hi l hl).2.2)
      (fun l hl => by rw [← hp]; exact (xb l hl j hj).2.2) (hc2 i hi j hj) h
  by_cases hb0 : beta = 0
  · rw [if_neg (by simpa using hb0)]
    have hz : G.red beta = 0 := by rw [hb0]; exact hG.red_unique 0 0 hG.zero_mem rfl
    rw [Ok_pure]
    exact fin _ rfl (Or.inl hz) (fun i hi j hj => by rw [hz, hb0]; simp)
  · rw [if_pos hb0, Ok_bind]
    refine loadM_ok G hG m n _ C ldc rfl lC (fun i hi j hj => ab (hC i hi j hj)) (fun Cf lc hc => ?_)
    exact fin Cf lc (Or.inr (fun i hi j hj => (hc i hi j hj).1)) (fun i hi j hj => by
      rw [← hp]; exact (G.red_modEq beta).mul (hc i hi j hj).2)

lemma fgemvConvert_eq (F : WordField) (G : FpField) (J : ℕ → ℕ → ℤ) (sizeMax : ℕ) (sched : ℕ → ℕ → ℕ → ℕ → SumTree) (ta : Tr) (M N : ℕ) (alpha : ℤ)
    (A : Arr ℤ) (lda : ℕ) (X : Arr ℤ) (incX : ℕ) (beta : ℤ) (Y : Arr ℤ) (incY : ℕ) :
    fgemvConvert F G J sizeMax sched ta M N alpha A lda X incX beta Y incY =
      fgemmConvert F G J sizeMax sched ta .no (if ta = .no then M else N) 1 (if ta = .no then N else M) alpha A lda X incX beta Y incY := by
  cases ta <;> simp [fgemvConvert, fgemmConvert, Nat.mul_comm]

lemma fgerEntry_ok (G : FpField) (hG : G.WF) (hm : G.itv.mag * G.itv.mag + G.itv.mag ≤ 2 ^ G.prec) {alpha x y a : ℤ} (hx : Itv.Has G.itv x)
    (hy : Itv.Has G.itv y) (ha : Itv.Has G.itv a) : Ok (fgerEntry G alpha x y a) (fun r => r ≡ a + alpha * x * y [ZMOD G.p]) := by
  have m1 := hG.mag_pos
  have key : ∀ z : ℤ, |z| ≤ G.itv.mag → z ≡ alpha * y [ZMOD G.p] → Ok (do
      let t ← chk G.prec (x * z)
      let s ← chk G.prec (a + t)
      Except.ok (G.red s)) (fun r => r ≡ a + alpha * x * y [ZMOD G.p]) := by
    intro z hz hm'
    have hx' := hx.abs_le
    have ha' := ha.abs_le
    have h1 : |x * z| ≤ G.itv.mag * G.itv.mag := by
      rw [abs_mul]; exact mul_le_mul hx' hz (abs_nonneg _) (by omega)
    have h2 : |a + x * z| ≤ 2 ^ G.prec := (abs_add_le _ _).trans (by omega)
    have h3 : |x * z| ≤ 2 ^ G.prec := by omega
    refine ⟨G.red (a + x * z), ?_, (G.red_modEq _).trans ?_⟩
    · simp only [chk, if_pos h3, bind, Except.bind, if_pos h2]
    · have := (hm'.mul_left x).add_left a
      rwa [show x * (alpha * y) = alpha * x * y by ring] at this
  unfold fgerEntry
  split_ifs with c0 c1 c2
  · rw [Ok_ok, c0]
    simpa using G.red_modEq a
  · rw [Ok_bind, Ok_ok]
    refine key y hy.abs_le ?_
    rw [c1]
    have := (G.red_modEq 1).mul_right y
    rw [one_mul] at this
    exact this.symm
  · have hy' : |(-y)| ≤ G.itv.mag := by rw [abs_neg]; exact hy.abs_le
    have h0 : 0 ≤ G.itv.mag * G.itv.mag := mul_nonneg (by omega) (by omega)
    rw [Ok_bind, show chk G.prec (-y) = .ok (-y) by simp only [chk]; rw [if_pos (by omega)], Ok_ok]
    refine key (-y) hy' ?_
    rw [c2]
    have := (G.red_modEq (-1)).mul_right y
    rw [neg_one_mul] at this
    exact this.symm
  · rw [Ok_bind, Ok_ok]
    exact key _ (hG.red_mem _).abs_le (G.red_modEq _)

lemma fgerG_ok (G : FpField) (hG : G.WF) (hm : G.itv.mag * G.itv.mag + G.itv.mag ≤ 2 ^ G.prec) (M N : ℕ) (alpha : ℤ) (X Y A : Arr ℤ)
    (lX : X.len = M) (lY : Y.len = N) (lA : A.len = M * N) (hX : ∀ i < M, Itv.Has G.itv (X.get i)) (hY : ∀ j < N, Itv.Has G.itv (Y.get j))
    (hA : ∀ i < M, ∀ j < N, Itv.Has G.itv (A.get (i * N + j))) :
    Ok (fgerG G M N alpha X Y A) (fun D => D.len = M * N ∧ ∀ i < M, ∀ j < N,
      D.get (i * N + j) ≡ A.get (i * N + j) + alpha * X.get i * Y.get j [ZMOD G.p]) := by
  unfold fgerG
  set f : ℕ → ℕ → ℤ → Except Fault ℤ := fun i j a => do
    let x ← X.rd i
    let y ← Y.rd j
    fgerEntry G alpha x y a with hf
  have key : ∀ i < M, ∀ j < N, Ok (f i j (A.get (i * N + j))) (fun r => r ≡ A.get (i * N + j) + alpha * X.get i * Y.get j [ZMOD G.p]) := by
    intro i hi j hj
    simp only [hf, Ok_bind, Ok_rd]
    exact ⟨by omega, by omega, fgerEntry_ok G hG hm (hX i hi) (hY j hj) (hA i hi j hj)⟩
  refine (Ok_upd2 M N (fun i j => i * N + j) f (fun i j => outOf (f i j (A.get (i * N + j)))) A
    (fun i hi j hj => (outOf_spec (key i hi j hj)).1) (fun i hi j hj => by rw [lA]; exact lt_compact hi hj)
    (fun i _ j hj i' _ j' hj' h => addr_inj le_rfl hj hj' h)).mono (fun D h => ⟨by rw [h.1, lA], fun i hi j hj => ?_⟩)
  rw [h.2.1 i hi j hj]
  exact (outOf_spec (key i hi j hj)).2

theorem fgerConvert_ok (F : WordField) (hF : F.WF) (G : FpField) (hG : G.WF) (hp : G.p = F.p) (hfit : (F.p : ℤ) ≤ 2 ^ G.prec)
    (hm : G.itv.mag * G.itv.mag + G.itv.mag ≤ 2 ^ G.prec) (J : ℕ → ℕ → ℤ) (M N : ℕ) (alpha : ℤ) (x : Arr ℤ) (incx : ℕ) (y : Arr ℤ) (incy : ℕ)
    (A : Arr ℤ) (lda : ℕ) (hal : Itv.Has F.itv alpha) (lx : ∀ i < M, i * incx < x.len) (ly : ∀ j < N, j * incy < y.len)
    (lA : ∀ i < M, ∀ j < N, i * lda + j < A.len) (hld : N ≤ lda) (hx : ∀ i < M, Itv.Has F.itv (x.get (i * incx)))
    (hy : ∀ j < N, Itv.Has F.itv (y.get (j * incy))) (hA : ∀ i < M, ∀ j < N, Itv.Has F.itv (A.get (i * lda + j))) :
    Ok (fgerConvert F G J M N alpha x incx y incy A lda) (WordRes F M N lda A (fun i j =>
      A.get (i * lda + j) + alpha * x.get (i * incx) * y.get (j * incy))) := by
  have ab : ∀ {x : ℤ}, Itv.Has F.itv x → |x| ≤ 2 ^ G.prec := fun h => WordField.abs_le hF h hfit
  unfold fgerConvert
  rw [toG_ok G alpha (ab hal)]
  simp only [Ok_bind, Ok_ok]
  refine loadM_ok G hG M N _ A lda rfl lA (fun i hi j hj => ab (hA i hi j hj)) (fun Af la ha => ?_)
  refine loadM_ok G hG M 1 _ x incx (Nat.mul_one _).symm (fun i hi j hj => by have := lx i hi; omega)
    (fun i hi j hj => by rw [show j = 0 by omega]; exact ab (hx i hi)) (fun Xf lx' hx' => ?_)
  refine loadM_ok G hG N 1 _ y incy (Nat.mul_one _).symm (fun i hi j hj => by have := ly i hi; omega)
    (fun i hi j hj => by rw [show j = 0 by omega]; exact ab (hy i hi)) (fun Yf ly' hy' => ?_)
  have hX := fun i (hi : i < M) => hx' i hi 0 (by omega)
  have hY := fun i (hi : i < N) => hy' i hi 0 (by omega)
  simp only [Nat.mul_one, Nat.add_zero] at hX hY lx' ly'
  refine (fgerG_ok G hG hm M N _ Xf Yf Af lx' ly' la (fun i hi => (hX i hi).1) (fun j hj => (hY j hj).1) (fun i hi j hj => (ha i hi j hj).1)).mono
    (fun D hD => ?_)
  refine (finitM_ok F hF M N D A lda hD.1 lA (Or.inl hld)).mono (fun E hE => ⟨hE.1, fun i hi j hj => ⟨(hE.2.1 i hi j hj).1, ?_⟩, hE.2.2⟩)
  refine (hE.2.1 i hi j hj).2.trans ?_
  rw [← hp]
  refine (hD.2 i hi j hj).trans ((ha i hi j hj).2.add (((G.red_modEq alpha).mul (hX i hi).2).mul (hY j hj).2))

/-- One block is enough: no condition on the size of the blocks. -/
lemma safe_of_small (G : FpField) (hG : G.WF) (sizeMax k : ℕ) (h : (k : ℤ) * (G.itv.mag * G.itv.mag) < 2 ^ G.prec) : Safe G sizeMax k 0 := by
  intro _ kmax hk
  left
  rcases Nat.eq_zero_or_pos k with rfl | k0
  · omega
  have m1 := hG.mag_pos
  have hmm : 1 ≤ G.itv.mag * G.itv.mag := by nlinarith
  have hpw : (1 : ℤ) ≤ 2 ^ G.prec := one_le_pow₀ (by norm_num)
  have hAB : G.itv.mag * G.itv.mag ≤ 2 ^ G.prec := by nlinarith
  have r1 : rnd G.prec (((G.itv.mag * G.itv.mag : ℤ)) : ℚ) = ((G.itv.mag * G.itv.mag : ℤ) : ℚ) :=
    rnd_int G.prec hG.prec_pos _ (by rw [abs_of_nonneg (by omega)]; exact hAB)
  have r2 : rnd G.prec ((((2 : ℤ) ^ G.prec - 1 : ℤ)) : ℚ) = (((2 : ℤ) ^ G.prec - 1 : ℤ) : ℚ) :=
    rnd_int G.prec hG.prec_pos _ (by rw [abs_of_nonneg (by omega)]; omega)
  have hpos : (0 : ℚ) < ((G.itv.mag * G.itv.mag : ℤ) : ℚ) := by exact_mod_cast (by omega : 0 < G.itv.mag * G.itv.mag)
  have hms : ¬ ((2 : ℤ) ^ G.prec - 1 < 0) := by omega
  simp only [maxDelayedDimF, initHelper, if_neg hms] at hk
  simp only [lt_irrefl, if_false, Int.cast_zero, zero_mul, rnd_zero, sub_zero] at hk
  rw [show ((G.itv.mag : ℚ) * (G.itv.mag : ℚ)) = ((G.itv.mag * G.itv.mag : ℤ) : ℚ) by push_cast; ring, r1, r2] at hk
  have hd0 : ¬ ((((2 : ℤ) ^ G.prec - 1 : ℤ) : ℚ) < 0 ∨ ((G.itv.mag * G.itv.mag : ℤ) : ℚ) < 0) := by
    rintro (h1 | h1)
    · have : ((2 : ℤ) ^ G.prec - 1 : ℤ) < 0 := by exact_mod_cast h1
      omega
    · linarith
  rw [if_neg hd0, if_neg hpos.ne', if_neg hms] at hk
  injection hk with hk
  have hle : (k : ℚ) ≤ (((2 : ℤ) ^ G.prec - 1 : ℤ) : ℚ) / ((G.itv.mag * G.itv.mag : ℤ) : ℚ) := by
    rw [le_div_iff₀ hpos]
    have : (k : ℤ) * (G.itv.mag * G.itv.mag) ≤ 2 ^ G.prec - 1 := by omega
    exact_mod_cast this
  have hk2 : (k : ℤ) ≤ 2 ^ G.prec := by nlinarith
  have := rnd_mono G.prec hG.prec_pos _ _ hle
  have rk := rnd_int G.prec hG.prec_pos (k : ℤ) (by rw [abs_of_nonneg (by omega)]; exact hk2)
  rw [Int.cast_natCast] at rk
  rw [rk] at this
  have hf : (k : ℤ) ≤ ⌊rnd G.prec ((((2 : ℤ) ^ G.prec - 1 : ℤ) : ℚ) / ((G.itv.mag * G.itv.mag : ℤ) : ℚ))⌋ :=
    Int.le_floor.2 (by exact_mod_cast this)
  omega

/-- There is room for one more element on top of a block of the largest size. -/
lemma safe_of_room (G : FpField) (hG : G.WF) (sizeMax k : ℕ) (hm : G.itv.mag ≤ 2 ^ G.prec)
    (h : G.itv.mag ≤ (2 ^ G.prec - 1) % (G.itv.mag * G.itv.mag) + 1) : Safe G sizeMax k 0 := by
  intro _ kmax hk
  right
  have m1 := hG.mag_pos
  have hpw : (1 : ℤ) ≤ 2 ^ G.prec := one_le_pow₀ (by norm_num)
  have hle : G.itv.lo ≤ G.itv.hi := by
    have := hG.lo_nonpos
    have := hG.hi_nonneg
    simp only [FpField.itv]; omega
  rcases Nat.eq_zero_or_pos kmax with rfl | k0
  · simpa using hm
  have hb := maxDelayedF_bound G.prec sizeMax hG.prec_pos (initHelper G) (by simp only [initHelper]; omega) (by simp only [initHelper]; omega)
    hle hle hle 0 kmax k0 hk
  simp only [initHelper, abs_zero, zero_mul, zero_add] at hb
  generalize G.itv.mag = a at *
  generalize (2 : ℤ) ^ G.prec = b at *
  have haa : 0 < a * a := by nlinarith
  have hq : (kmax : ℤ) ≤ (b - 1) / (a * a) := by
    rw [Int.le_ediv_iff_mul_le haa]; exact hb
  have hd := Int.emod_add_mul_ediv (b - 1) (a * a)
  have : (kmax : ℤ) * (a * a) ≤ a * a * ((b - 1) / (a * a)) := by
    rw [mul_comm]; exact mul_le_mul_of_nonneg_left hq haa.le
  linarith

end Verif.Conv
