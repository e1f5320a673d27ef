import Verif.Model.KrylovPrecond
import Verif.Proofs.KrylovMath
import Verif.Proofs.Luk
import Verif.Proofs.Tmps

/-!
# The Krylov preconditioner when one block suffices
-/

namespace Verif.FF

open Finset Verif.Perm Verif.Spec Verif.Spec.Perm Verif.Pluq Verif.Lud Polynomial

variable {K : Type}

lemma Run_loop_one {m : Mem K} {f : ℕ → Prog K Unit} {Q : Unit → Mem K → Prop} (h : Run (f 0) m Q) : Run (loop 1 f) m Q := by
  simp only [loop]
  rw [Run_bind, Run_pure]
  exact h

variable [Field K] [DecidableEq K] {m0 m m' : Mem K} {W X Y C : Win} {V a x y : ℕ → ℕ → K} {A lda N R degree : ℕ}

/-- the vector drawn -/
def kpVec (blk : ℕ → ℕ → K) (nz : ℕ → K) (j : ℕ) : K := if j = 0 then nz 0 else blk 0 j

lemma kpDraw_spec {ld : ℕ} (b : ℕ → ℕ → K) (nz : ℕ → K) (h : On m0 m W V) (hr : 1 ≤ W.r) (hc : W.c = N) (hN : 1 ≤ N) :
    Run (kpDraw 1 N W.p ld b nz) m (fun _ m' => On m0 m' W (upd 0 0 1 N (fun _ j => kpVec b nz j) V)) := by
  unfold kpDraw
  rw [Run_bind]
  refine Run_loop_one ?_
  refine (Run_loop (fun t m' => On m0 m' W (upd 0 0 1 t (fun _ j => b 0 j) V)) ?_ ?_).mono ?_
  · exact h.congr (fun i _ j _ => by rw [upd_out (by omega)])
  · intro t m1 ht h1
    have e : W.p + 0 * ld + t = W.adr 0 t := by simp [Win.adr]
    rw [Run_store, e]
    refine ⟨h1.okc (by omega) (by omega), (h1.set (by omega) (by omega)).congr (fun i hi j hj => ?_)⟩
    by_cases c1 : i = 0 ∧ j = t
    · obtain ⟨rfl, rfl⟩ := c1
      rw [upd_in' (by omega), upd_in' (by omega), Nat.sub_zero]
    · rw [upd_out (by omega)]
      by_cases c2 : 0 ≤ i ∧ i < 0 + 1 ∧ 0 ≤ j ∧ j < 0 + t
      · rw [upd_in' c2, upd_in' (by omega)]
      · rw [upd_out (by omega), upd_out (by omega)]
  · intro _ m1 h1
    refine Run_loop_one ?_
    have e : W.p + 0 * (ld + 1) = W.adr 0 0 := by simp [Win.adr]
    rw [Run_store, e]
    refine ⟨h1.okc (by omega) (by omega), (h1.set (by omega) (by omega)).congr (fun i hi j hj => ?_)⟩
    by_cases c1 : i = 0 ∧ j = 0
    · obtain ⟨rfl, rfl⟩ := c1
      rw [upd_in' (by omega), upd_in' (by omega), kpVec, if_pos rfl]
    · rw [upd_out (by omega)]
      by_cases c2 : 0 ≤ i ∧ i < 0 + 1 ∧ 0 ≤ j ∧ j < 0 + N
      · rw [upd_in' c2, upd_in' c2, kpVec, if_neg (by omega), Nat.sub_zero]
      · rw [upd_out (by omega), upd_out (by omega)]

omit [DecidableEq K] in
/-- product with a transposed matrix -/
lemma gemmT_step {g : GemmFn K} (hg : GemmOk g) (hw : WF m) (sx : Src m X x) (sy : Src m Y y) (hk : X.c = Y.c) (hC : OkIn m C) (hr : C.r = X.r)
    (hc : C.c = Y.r) (hl : C.c ≤ C.ld) (dx : X.Disj C) (dy : Y.Disj C) :
    Run (g .no .yes X.r Y.r Y.c 1 X.p X.ld Y.p Y.ld 0 C.p C.ld) m (fun _ m' => Step m m' C (fun i j => ∑ l ∈ range Y.c, x i l * y j l)) := by
  obtain ⟨Cp, Cld, Cr, Cc⟩ := C
  simp only [] at hr hc hl ⊢
  subst hr hc
  have P : GPre m .no .yes X.r Y.r Y.c X.p X.ld Y.p Y.ld Cp Cld :=
    ⟨hw, by rw [← hk]; exact sx.ok, sy.ok, hC, by simp only [opc]; rw [← hk]; exact sx.ld, sy.ld, hl, by rw [← hk]; exact dx, dy⟩
  refine (hg _ _ _ _ _ m 1 _ _ _ _ 0 _ _ P).mono (fun _ m' s => Step.congr s (fun i hi j hj => ?_))
  have hi : i < X.r := hi
  have hj : j < Y.r := hj
  unfold gval
  rw [one_mul, zero_mul, add_zero]
  refine sum_congr rfl (fun l hl => ?_)
  have hl := mem_range.1 hl
  exact congrArg₂ (· * ·) (sx.val i hi l (by omega)) (sy.val j hj l hl)

omit [Field K] [DecidableEq K] in
/-- the leading dimension of one row does not matter -/
lemma Src.row1 {p ld ld' c : ℕ} {f : ℕ → ℕ → K} (h : Src m ⟨p, ld, 1, c⟩ f) (hl : c ≤ ld') : Src m ⟨p, ld', 1, c⟩ f := by
  refine ⟨fun z ⟨i, hi, j, hj, e⟩ => h.ok z ⟨i, hi, j, hj, ?_⟩, hl, fun i hi j hj => ?_⟩
  · obtain rfl : i = 0 := by simpa using hi
    rw [e]; simp [Win.adr]
  · obtain rfl : i = 0 := by simpa using hi
    rw [← h.val 0 hi j hj]; simp [Win.adr]

omit [Field K] [DecidableEq K] in
lemma Has_row1 {p ld ld' c z : ℕ} : (Win.mk p ld 1 c).Has z ↔ (Win.mk p ld' 1 c).Has z := by
  constructor <;>
  · rintro ⟨i, hi, j, hj, e⟩
    obtain rfl : i = 0 := by simpa using hi
    exact ⟨0, hi, j, hj, by rw [e]; simp [Win.adr]⟩

omit [Field K] [DecidableEq K] in
lemma _root_.Verif.Step.row1 {p ld ld' c : ℕ} {f : ℕ → ℕ → K} (s : Step m m' ⟨p, ld, 1, c⟩ f) : Step m m' ⟨p, ld', 1, c⟩ f := by
  refine ⟨s.ok, s.next, fun i hi j hj => ?_, fun z hz hn => s.frame z hz (fun hh => hn (Has_row1.1 hh))⟩
  obtain rfl : i = 0 := by simpa using hi
  rw [← s.val 0 hi j hj]; simp [Win.adr]

lemma kpIterates_spec {g : GemmFn K} (hg : GemmOk g) (hK : IsKrylov N a y) (h : On m0 m W V) (hr : W.r = degree) (hc : W.c = N) (hl : W.ld = N)
    (hS : Src m0 ⟨A, lda, N, N⟩ a) (hd : (Win.mk A lda N N).Disj W) (h0 : ∀ j < N, V 0 j = y 0 j) (hdg : 1 ≤ degree) :
    Run (kpIterates g degree 1 N A lda W.p) m (fun _ m' => On m0 m' W y) := by
  unfold kpIterates
  refine (Run_loop (fun t m' => On m0 m' W (upd 0 0 (t + 1) N y V)) ?_ ?_).mono ?_
  · refine h.congr (fun i hi j hj => ?_)
    by_cases c1 : i = 0
    · subst c1; rw [upd_in' (by omega), Nat.sub_zero, Nat.sub_zero, h0 j (by omega)]
    · rw [upd_out (by omega)]
  · intro t m1 ht h1
    have hN : N ≤ degree * N := Nat.le_mul_of_pos_left _ hdg
    have e1 : W.p + t * N = W.adr t 0 := by simp [Win.adr, hl]
    have e2 : W.p + (t + 1) * N = W.adr (t + 1) 0 := by simp [Win.adr, hl]
    rw [e1, e2]
    have s1 := h1.src.sub (r := 1) (c := N) t 0 (by omega) (by omega)
    have ok1 : OkIn m1 (W.sub (t + 1) 0 1 N) := h1.ok'.of_sub (by omega) (by omega)
    have dd : (W.sub t 0 1 N).Disj (W.sub (t + 1) 0 1 N) := h1.disj2 t 0 (t + 1) 0 (by omega) (by omega) (by omega) (by omega) (by omega)
    have dA : (Win.mk A lda N N).Disj (W.sub (t + 1) 0 1 N) := hd.sub_right (by omega) (by omega)
    have := gemmT_step (X := ⟨W.adr t 0, degree * N, 1, N⟩) (Y := ⟨A, lda, N, N⟩) (C := ⟨W.adr (t + 1) 0, degree * N, 1, N⟩) hg h1.wf'
      (Src.row1 s1 hN) (hS.on h1 hd) rfl (fun z hz => ok1 z (Has_row1.1 hz)) rfl rfl hN
      (fun z h2 h3 => dd z (Has_row1.1 h2) (Has_row1.1 h3)) (fun z h2 h3 => dA z h2 (Has_row1.1 h3))
    refine this.mono (fun _ m2 s => ?_)
    have s' : Step m1 m2 (W.sub (t + 1) 0 1 N) _ := s.row1
    refine (h1.upd (by omega) (by omega) s').congr (fun i hi j hj => ?_)
    by_cases c1 : i = t + 1
    · subst c1
      rw [upd_in' (by omega), upd_in' (by omega)]
      simp only [Nat.sub_zero, Nat.sub_self]
      rw [hK t j (by omega)]
      refine sum_congr rfl (fun l hl => ?_)
      have := mem_range.1 hl
      rw [blk, upd_in' (by omega), mul_comm]
      simp
    · rw [upd_out (by omega)]
      by_cases c2 : i < t + 1
      · rw [upd_in' (by omega), upd_in' (by omega)]
      · rw [upd_out (by omega), upd_out (by omega)]
  · intro _ m1 h1
    refine h1.congr (fun i hi j hj => ?_)
    rw [upd_in' (by omega), Nat.sub_zero, Nat.sub_zero]

/-! ## the degrees -/

omit [Field K] [DecidableEq K] in
lemma kpCount_spec {Qk : Arr ℕ} (hQ : ∀ k < R, Qk.get k = k) (hlen : R ≤ Qk.len) : ∀ f r, r ≤ R → R ≤ r + f →
    Ok (kpCount R Qk f r r r) (fun z => z = (R, R, R)) := by
  intro f
  induction f with
  | zero =>
    intro r h1 h2
    obtain rfl : r = R := by omega
    rw [kpCount, Ok_pure]
  | succ f ih =>
    intro r h1 h2
    unfold kpCount
    by_cases c : r < R
    · rw [if_pos c, Ok_bind, Ok_rd]
      refine ⟨by omega, ?_⟩
      rw [if_pos (hQ r c)]
      exact ih (r + 1) c (by omega)
    · obtain rfl : r = R := by omega
      rw [if_neg c, Ok_pure]

omit [Field K] [DecidableEq K] in
lemma kpDegrees_spec {Qk dK : Arr ℕ} (hQ : ∀ k < R, Qk.get k = k) (hlen : Qk.len = N) (hRN : R ≤ N) (hRd : R ≤ degree) (hd : 1 ≤ dK.len) :
    Ok (kpDegrees N degree R Qk 1 0 0 0 degree 0 dK) (fun z => ∃ dK' nbf, z = some (dK', nbf) ∧ dK'.get 0 = R ∧ dK'.len = dK.len ∧ (nbf = if R = degree then 1 else 0)) := by
  unfold kpDegrees
  rw [Ok_bind]
  refine (kpCount_spec hQ (by omega) degree 0 (by omega) (by omega)).mono ?_
  rintro _ rfl
  simp only []
  rw [if_neg (by omega), Ok_bind, Ok_wr]
  refine ⟨by omega, ?_⟩
  rw [Ok_bind, Ok_ite]
  refine ⟨fun c => ?_, fun c => ?_⟩
  · rw [Ok_rd]
    refine ⟨by omega, ?_⟩
    rw [kpDegrees, Ok_pure]
    exact ⟨_, _, rfl, by simp, rfl, by simp⟩
  · rw [Ok_pure, kpDegrees, Ok_pure]
    exact ⟨_, _, rfl, by simp, rfl, by simp⟩

/-! ## the blocks -/

/-- the temporaries -/
inductive KW | k | k2 | k3 | k4 | b
deriving DecidableEq

section
variable {T : KW → Win} {U : KW → ℕ → ℕ → K} {Kp K2 K3 K4 : ℕ}

omit [Field K] [DecidableEq K] in
lemma Tmps.on2 {ι : Type} {T : ι → Win} {U : ι → ℕ → ℕ → K} (h : Tmps m0 m W a T U) (i : ι) : On2 m m W a (T i) (U i) :=
  ⟨h.wf, h.onA.ok, (h.on i).ok, h.ldA, (h.full i).ge, h.disjA i, rfl, le_rfl, h.valA, h.val i, fun _ _ _ _ => rfl⟩

omit [Field K] [DecidableEq K] in
lemma Tmps.put2 {ι : Type} [DecidableEq ι] {T : ι → Win} {U : ι → ℕ → ℕ → K} {a' f : ℕ → ℕ → K} (h : Tmps m0 m W a T U) (i : ι)
    (s : On2 m m' W a' (T i) f) : Tmps m0 m' W a' T (Function.update U i f) := by
  refine ⟨h.wf0, ?_, h.okA, h.ldA, fun x => by rw [s.ok]; exact h.ok x, h.full, h.new, h.disj, h.next.trans s.next,
    s.valW, fun j x hx y hy => ?_, fun x hx hn => ?_⟩
  · intro x hx
    rw [s.ok]; exact h.wf x (s.next.trans hx)
  · by_cases e : j = i
    · subst e
      rw [Function.update_self]; exact s.valT x hx y hy
    · rw [Function.update_of_ne e, s.frame _ ((h.on j).ok.adr hx hy) ((h.disjA j).symm _ (Win.Has_adr hx hy)) (h.disj j i e _ (Win.Has_adr hx hy)),
        h.val j x hx y hy]
  · rw [s.frame x ((h.ok x).2 (Or.inl hx)) hn (h.notOld hx), h.frame x hx hn]

omit [Field K] [DecidableEq K] in
lemma Tmps.put' {ι : Type} [DecidableEq ι] {T : ι → Win} {U : ι → ℕ → ℕ → K} {f : ℕ → ℕ → K} (h : Tmps m0 m W a T U) (i : ι) (e : T i = X)
    (s : On m m' X f) : Tmps m0 m' W a T (Function.update U i f) := h.put i (by rw [e]; exact s)

lemma kpLast_spec {dK : Arr ℕ} (h : Tmps m0 m W a T U) (h2 : T .k2 = ⟨K2, N, degree, N⟩) (h3 : T .k3 = ⟨K3, N, 1, N⟩) (hd : 1 ≤ dK.len)
    (hR : dK.get 0 = R) (hR1 : 1 ≤ R) (hRd : R ≤ degree) :
    Run (kpLast degree 1 N K2 K3 dK) m (fun _ m' => ∃ U', Tmps m0 m' W a T U' ∧ (∀ j < N, U' .k3 0 j = U .k2 (R - 1) j) ∧ U' .k = U .k) := by
  unfold kpLast
  refine Run_loop_one ?_
  rw [Run_bind, Run_liftE, Ok_rd]
  refine ⟨by omega, ?_⟩
  rw [Run_bind]
  refine Run_usub (by omega) ?_
  have o3 := h.on .k3
  have s2 := h.src .k2
  have d := h.disj .k2 .k3 (by decide)
  have := copyRow_on (a := R - 1) (b := 0) (i := 0) (j := 0) (n := N) o3 s2 d (by rw [h2]; simp only []; omega) (by rw [h2]; simp) (by rw [h3]; simp) (by rw [h3]; simp)
  have e1 : (T .k2).adr (R - 1) 0 = K2 + (0 * degree + dK.get 0 - 1) * N := by rw [h2, hR]; simp [Win.adr]
  have e2 : (T .k3).adr 0 0 = K3 + 0 * N := by rw [h3]; simp [Win.adr]
  rw [e1, e2] at this
  refine this.mono (fun _ m' h' => ⟨_, h.put .k3 h', fun j hj => ?_, ?_⟩)
  · rw [Function.update_self, upd_in' (by omega)]
    simp
  · rw [Function.update_of_ne (by decide)]

omit [Field K] [DecidableEq K] in
lemma swapsFrom_id {P : ℕ → ℕ} {b : ℕ} : ∀ n, (∀ i < b + n, P i = i) → swapsFrom P b n = 1
  | 0, _ => rfl
  | n+1, h => by rw [swapsFrom, swapsFrom_id n (fun i hi => h i (by omega)), h (b + n) (by omega), Equiv.swap_self]; rfl

omit [Field K] [DecidableEq K] in
lemma swapsDown_id {P : ℕ → ℕ} {e : ℕ} : ∀ n, n ≤ e → (∀ i < e, P i = i) → swapsDown P e n = 1
  | 0, _, _ => rfl
  | n+1, hn, h => by rw [swapsDown, swapsDown_id n (by omega) h, h (e - 1 - n) (by omega), Equiv.swap_self]; rfl

lemma kpCoords_spec {g : GemmFn K} {ts : TrsmFn K} (hg : GemmOk g) (ht : TrsmOk ts) {Pk Qk : Arr ℕ} (hK : IsKrylov N a y)
    (h : Tmps m0 m ⟨A, lda, N, N⟩ a T U) (h1 : T .k = ⟨Kp, N, degree, N⟩) (h3 : T .k3 = ⟨K3, N, 1, N⟩) (h4 : T .k4 = ⟨K4, N, 1, N⟩)
    (hN : N ≤ degree) (hR1 : 1 ≤ R) (hv : ∀ j < N, U .k3 0 j = y (R - 1) j) (hc : Cup .nonUnit N N y (U .k) (ofSwaps Pk.get R) Qk.get R)
    (hP : R ≤ Pk.len) (hp : ∀ i < R, Pk.get i < N) (hQ : R ≤ Qk.len) :
    Run (kpCoords g ts 1 N R A lda Kp K3 K4 Pk Qk) m (fun _ m' => ∃ (c : ℕ → K) (U' : KW → ℕ → ℕ → K), Tmps m0 m' ⟨A, lda, N, N⟩ a T U' ∧
      (∀ i < N, ∀ j < N, U' .k i j = U .k i j) ∧ (∀ j < R, U' .k4 0 j = c j) ∧ ∀ j < N, y R j = ∑ l ∈ range R, c l * y l j) := by
  have rN := hc.rN
  have hq := krylov_profile hK hc.toIsCUP hc.pP
  unfold kpCoords
  rw [Run_bind]
  have s3 := h.src .k3
  have o4 := h.on .k4
  have d34 := h.disj .k3 .k4 (by decide)
  have dA4 := h.disjA .k4
  rw [h3] at s3 d34
  rw [h4] at o4 d34 dA4
  refine (gemmT_step (X := ⟨K3, N, 1, N⟩) (Y := ⟨A, lda, N, N⟩) (C := ⟨K4, N, 1, N⟩) hg h.wf s3 h.srcA rfl o4.ok rfl rfl le_rfl d34 dA4).mono (fun _ m1 t1 => ?_)
  replace h := h.put' .k4 h4 ⟨o4.wf, o4.ok, o4.ld, t1⟩
  clear t1 s3 o4 d34 dA4
  have hyR : ∀ j < N, y R j = ∑ l ∈ range N, U .k3 0 l * a j l := fun j hj => by
    obtain ⟨r, rfl⟩ : ∃ r, R = r + 1 := ⟨R - 1, by omega⟩
    rw [hK r j hj]
    exact sum_congr rfl (fun l hl => by rw [hv l (mem_range.1 hl), mul_comm]; rfl)
  -- the columns are permuted
  rw [Run_bind]
  have o4 := h.on .k4
  rw [h4, Function.update_self] at o4
  have p1 := applyP_col (P := Pk) (ibeg := 0) (iend := R) (i0 := 0) (j0 := 0) (r := 1) (c := N) .yes o4 (by simp) (by simp) rN hP hp
  have e4 : (Win.mk K4 N 1 N).adr 0 0 = K4 := by simp [Win.adr]
  rw [e4] at p1
  refine p1.mono (fun _ m2 t2 => ?_)
  replace h := h.put' .k4 h4 t2
  simp only [appliedPerm, Nat.sub_zero, swapsFrom_zero, Function.update_idem] at h
  -- upper factor
  rw [Run_bind]
  have o4 := h.on .k4
  have s1 := h.src .k
  have d1 := h.disj .k .k4 (by decide)
  rw [h4, Function.update_self] at o4
  rw [h1, Function.update_of_ne (by decide)] at s1
  rw [h1, h4] at d1
  have e1 : (Win.mk Kp N degree N).adr 0 0 = Kp := by simp [Win.adr]
  refine (trsm_at ht o4 s1 d1 .right .upper .nonUnit 1 0 0 0 0 1 R R rfl (by simp only []; omega) (by simp only []; omega) le_rfl (by simpa using rN)
    (fun _ i hi => by simpa using hc.piv i hi) e1.symm e4.symm).mono ?_
  rintro _ m3 ⟨X, t3, hX⟩
  replace h := h.put' .k4 h4 t3
  rw [Function.update_idem] at h
  have hX' : ∀ j < R, ∑ k ∈ range R, X 0 k * luU .nonUnit (U .k) k j = y R (ofSwaps Pk.get R j) := fun j hj => by
    have := hX 0 Nat.one_pos j hj
    have pl : ofSwaps Pk.get R j < N := hc.pP.1 j (by omega)
    rw [one_mul, permCols, upd_in' (by omega)] at this
    simp only [Nat.zero_add, Nat.sub_zero] at this
    rw [hyR _ pl, ← this]
    simp only [sideMul, mul, luU]
    exact sum_congr rfl (fun l _ => by congr 2; funext x y; simp [blk])
  -- the identity
  rw [Run_bind]
  have o1 := h.on .k
  rw [h1, Function.update_of_ne (by decide)] at o1
  have p2 := applyP_row (P := Qk) (ibeg := 0) (iend := R) (i0 := 0) (j0 := 0) (r := degree) (c := N) .no o1 (by simp) (by simp) (by omega) hQ
    (fun i hi => by rw [hq i hi]; omega)
  rw [e1] at p2
  refine p2.mono (fun _ m4 t4 => ?_)
  simp only [appliedPerm, Nat.sub_zero] at t4
  rw [swapsFrom_id R (by simpa using hq)] at t4
  replace t4 := t4.congr (V' := U .k) (fun i hi j hj => by
    have hi : i < degree := hi
    have hj : j < N := hj
    rw [permRows, upd_in' (by omega)]; simp)
  replace h := h.put' .k h1 t4
  -- lower factor
  rw [Run_bind]
  have o4 := h.on .k4
  have s1 := h.src .k
  rw [h4, Function.update_of_ne (by decide), Function.update_self] at o4
  rw [h1, Function.update_self] at s1
  refine (trsm_at ht o4 s1 d1 .right .lower .unit 1 0 0 0 0 1 R R rfl (by simp only []; omega) (by simp only []; omega) le_rfl (by simpa using rN)
    (fun hh => by cases hh) e1.symm e4.symm).mono ?_
  rintro _ m5 ⟨c, t5, hc5⟩
  replace h := h.put' .k4 h4 t5
  have hc' : ∀ j < R, ∑ l ∈ range R, c 0 l * luL .nonUnit (U .k) l j = X 0 j := fun j hj => by
    have := hc5 0 Nat.one_pos j hj
    rw [one_mul, upd_in' (by omega)] at this
    simp only [Nat.zero_add, Nat.sub_zero] at this
    rw [← this]
    simp only [sideMul, mul, luL]
    exact sum_congr rfl (fun l _ => by congr 2; funext x y; simp [blk])
  -- the identity
  have o1 := h.on .k
  rw [h1, Function.update_of_ne (by decide), Function.update_self] at o1
  have p2 := applyP_row (P := Qk) (ibeg := 0) (iend := R) (i0 := 0) (j0 := 0) (r := degree) (c := N) .yes o1 (by simp) (by simp) (by omega) hQ
    (fun i hi => by rw [hq i hi]; omega)
  rw [e1] at p2
  refine p2.mono (fun _ m6 t6 => ?_)
  simp only [appliedPerm, Nat.sub_zero] at t6
  rw [swapsDown_id R le_rfl hq] at t6
  replace t6 := t6.congr (V' := U .k) (fun i hi j hj => by
    have hi : i < degree := hi
    have hj : j < N := hj
    rw [permRows, upd_in' (by omega)]; simp)
  replace h := h.put' .k h1 t6
  refine ⟨c 0, _, h, fun i _ j _ => by rw [Function.update_self], fun j hj => ?_, krylov_rel hK hc.toIsCUP hc.pP hX' hc'⟩
  rw [Function.update_of_ne (by decide), Function.update_self, upd_in' (by omega), Nat.sub_zero, Nat.sub_zero]

/-- contract of the recursive calls -/
def CpRecOk (rec : ℕ → ℕ → ℕ → Prog K (List (List K))) (N : ℕ) : Prop := ∀ (e : ℕ) (m : Mem K) (Ar : ℕ) (b : ℕ → ℕ → K), 1 ≤ e → e < N →
  On m m ⟨Ar, e, e, e⟩ b → Run (rec e Ar e) m (fun L m' => (∃ b', On m m' ⟨Ar, e, e, e⟩ b') ∧
    (∀ l ∈ L, ∃ c : List K, c ≠ [] ∧ l = c ++ [1]) ∧ prodOf L = chi e b)

theorem kpRest_spec {g : GemmFn K} {ts : TrsmFn K} (hg : GemmOk g) (ht : TrsmOk ts) {rec : ℕ → ℕ → ℕ → Prog K (List (List K))} {Pk : Arr ℕ} {q : ℕ → ℕ}
    {e : ℕ} {c : ℕ → K} (hrec : CpRecOk rec (R + e)) (he : 1 ≤ e) (hK : IsKrylov (R + e) a y) (h : Tmps m0 m ⟨A, lda, R + e, R + e⟩ a T U)
    (h1 : T .k = ⟨Kp, R + e, degree, R + e⟩) (hb : T .b = noWin) (hN : R + e ≤ degree) (hR1 : 1 ≤ R)
    (hc : Cup .nonUnit (R + e) (R + e) y (U .k) (ofSwaps Pk.get R) q R)
    (hP : R ≤ Pk.len) (hp : ∀ i < R, Pk.get i < R + e) (hrel : ∀ j < R + e, y R j = ∑ l ∈ range R, c l * y l j) :
    Run (kpRest g ts rec (R + e) R A lda Kp Pk) m (fun L m' => ∃ a' U', Tmps m0 m' ⟨A, lda, R + e, R + e⟩ a' T U' ∧ U' .k4 = U .k4 ∧
      (∀ l ∈ L, ∃ c : List K, c ≠ [] ∧ l = c ++ [1]) ∧ chi (R + e) a = (Polynomial.X ^ R - ∑ i ∈ range R, Polynomial.C (c i) * Polynomial.X ^ i) * prodOf L) := by
  unfold kpRest
  have a0 : A = (Win.mk A lda (R + e) (R + e)).adr 0 0 := by simp [Win.adr]
  have ax : Kp + R * (R + e) = (Win.mk Kp (R + e) degree (R + e)).adr R 0 := by simp [Win.adr]
  have ax2 : (Win.mk Kp (R + e) degree (R + e)).adr R 0 + R = (Win.mk Kp (R + e) degree (R + e)).adr R R := by simp [Win.adr]
  have aw : Kp = (Win.mk Kp (R + e) degree (R + e)).adr 0 0 := by simp [Win.adr]
  have ay : Kp + R = (Win.mk Kp (R + e) degree (R + e)).adr 0 R := by simp [Win.adr]
  have plt : ∀ x < R + e, ofSwaps Pk.get R x < R + e := hc.pP.1
  simp only [Nat.add_sub_cancel_left]
  rw [ax, ax2, Run_bind]
  have p1 := applyP_col (P := Pk) (ibeg := 0) (iend := R) (i0 := 0) (j0 := 0) (r := R + e) (c := R + e) .yes h.onA (by simp) (by simp) (by omega) hP hp
  rw [← a0] at p1
  refine p1.mono (fun _ m1 t1 => ?_)
  replace h := h.putA t1
  simp only [appliedPerm, Nat.sub_zero, swapsFrom_zero] at h
  rw [Run_bind]
  have o2 := h.on2 .k
  rw [h1] at o2
  refine (lukCopyT_spec (k := R) (e := e) o2 hN (by simp) le_rfl rfl rfl).mono (fun _ m2 t2 => ?_)
  replace h := h.put2 .k (by rw [h1]; exact t2)
  rw [Run_bind]
  have p3 := applyP_col (P := Pk) (ibeg := 0) (iend := R) (i0 := 0) (j0 := 0) (r := R + e) (c := R + e) .no h.onA (by simp) (by simp) (by omega) hP hp
  rw [← a0] at p3
  refine p3.mono (fun _ m3 t3 => ?_)
  replace h := h.putA t3
  generalize permCols 0 0 (R + e) (R + e) (appliedPerm .right .no Pk.get 0 R) _ = a3 at h
  rw [Run_bind]
  have o1 := h.on .k
  rw [h1, Function.update_self] at o1
  have p4 := applyP_col (P := Pk) (ibeg := 0) (iend := R) (i0 := R) (j0 := 0) (r := e) (c := R + e) .yes o1 (by simpa using hN) (by simp) (by omega) hP hp
  refine p4.mono (fun _ m4 t4 => ?_)
  replace h := h.put' .k h1 t4
  simp only [appliedPerm, Nat.sub_zero, swapsFrom_zero, Function.update_idem] at h
  generalize hV4 : permCols R 0 e (R + e) (ofSwaps Pk.get R) _ = V4 at h
  have v4 : ∀ i < e, ∀ j < R + e, V4 (R + i) j = a (ofSwaps Pk.get R j) (ofSwaps Pk.get R (R + i)) := fun i hi j hj => by
    have h1 := plt j hj
    have h2 := plt (R + i) (by omega)
    rw [← hV4]
    unfold permCols
    rw [upd_in' (by omega), Nat.zero_add, Nat.sub_zero, upd_in' (by omega), upd_in' (by omega)]
    simp only [Nat.zero_add, Nat.sub_zero, Nat.add_sub_cancel_left]
  have v4' : ∀ i < R, ∀ j < R + e, V4 i j = U .k i j := fun i hi j hj => by
    rw [← hV4]
    unfold permCols
    rw [upd_out (by omega), upd_out (by omega)]
  clear hV4
  rw [Run_bind]
  have o1 := h.on .k
  rw [h1, Function.update_self] at o1
  have p5 := trsm_on (side := .right) (u := .upper) (ta := .no) (d := .nonUnit) (a := 0) (b := 0) (i0 := R) (j0 := 0) (r := e) (c := R) ht o1 1
    (by simp only [sideDim]; omega) (by simp only [sideDim]; omega) (by simpa using hN) (by simp) (by simp only [sideDim]; omega)
    (fun _ i hi => by
      have hi : i < R := hi
      rw [Nat.zero_add, v4' i hi i (by omega)]; exact hc.piv i hi)
  rw [← aw] at p5
  refine p5.mono ?_
  rintro _ m5 ⟨B, t5, hB⟩
  replace h := h.put' .k h1 t5
  rw [Function.update_idem] at h
  have hB' : ∀ i < e, ∀ j < R, ∑ l ∈ range R, B i l * luU .nonUnit (U .k) l j = a (ofSwaps Pk.get R j) (ofSwaps Pk.get R (R + i)) := fun i hi j hj => by
    have := hB i hi j hj
    rw [one_mul, Nat.zero_add, v4 i hi j (by omega)] at this
    rw [← this]
    simp only [sideMul, sideDim, mul, op]
    refine sum_congr rfl (fun l hl => ?_)
    have hl := mem_range.1 hl
    congr 1
    have e1 : luU .nonUnit (U .k) l j = luU .nonUnit V4 l j := luU_congr (fun _ => (v4' l hl j (by omega)).symm)
    rw [e1]
    simp only [luU]
    congr 1
    funext x y
    simp [blk]
  -- the block
  rw [Run_bind, Run_alloc]
  obtain ⟨f0, h6⟩ := h.alloc .b hb e e rfl
  clear h
  change Run _ (m5.grow (e * e)) _
  generalize m5.grow (e * e) = m6 at h6 ⊢
  generalize m5.next = Ar at h6 ⊢
  have hT1 : Function.update T .b ⟨Ar, e, e, e⟩ .k = ⟨Kp, R + e, degree, R + e⟩ := by rw [Function.update_of_ne (by decide)]; exact h1
  have hTb : Function.update T .b ⟨Ar, e, e, e⟩ .b = ⟨Ar, e, e, e⟩ := Function.update_self ..
  have bx : Ar = (Win.mk Ar e e e).adr 0 0 := by simp [Win.adr]
  have d1 := h6.disj .k .b (by decide)
  rw [hT1, hTb] at d1
  rw [Run_bind]
  have s1 := h6.src .k
  have ob := h6.on .b
  rw [hT1, Function.update_of_ne (by decide), Function.update_self] at s1
  rw [hTb, Function.update_self] at ob
  refine (fassign_at ob s1 d1 R R 0 0 e e (by simpa using hN) (by simp) (by simp) (by simp) rfl bx).mono (fun _ m7 t7 => ?_)
  replace h6 := h6.put' .b hTb t7
  rw [Run_bind]
  have s1 := h6.src .k
  have ob := h6.on .b
  rw [hT1, Function.update_of_ne (by decide), Function.update_of_ne (by decide), Function.update_self] at s1
  rw [hTb, Function.update_self] at ob
  rw [ay]
  refine (gemm_at hg ob s1 s1 R 0 0 R 0 0 e e R (by simpa using hN) (by simp) (by simp only []; omega) (by simp) (by simp) (by simp)
    ((d1.sub_left (by simpa using hN) (by simp)).sub_right (by simp) (by simp))
    ((d1.sub_left (by simp only []; omega) (by simp)).sub_right (by simp) (by simp)) (-1) 1 rfl rfl bx).mono (fun _ m8 t8 => ?_)
  replace h6 := h6.put' .b hTb t8
  rw [Run_bind]
  have ob := h6.on .b
  rw [hTb, Function.update_self] at ob
  refine (hrec e m8 Ar _ he (by omega) ob).mono ?_
  rintro L m9 ⟨⟨b', t9⟩, g1, g2⟩
  replace h6 := h6.put' .b hTb t9
  rw [Run_bind, Run_free, Run_pure]
  replace h6 := h6.free .b (p := Ar) (n := e * e) (by rw [hTb]) (by rw [hTb])
  have eT : Function.update (Function.update T .b ⟨Ar, e, e, e⟩) .b noWin = T := by
    rw [Function.update_idem, ← hb, Function.update_eq_self]
  rw [eT] at h6
  refine ⟨_, _, h6, ?_, g1, ?_⟩
  · simp only [Function.update_of_ne (show KW.k4 ≠ KW.b by decide), Function.update_of_ne (show KW.k4 ≠ KW.k by decide)]
  · rw [g2]
    refine kp_split hK hR1 hc.toIsCUP hc.pP hrel hB' (fun i hi j hj => ?_)
    rw [upd_in' (by omega), one_mul, upd_in' (by omega)]
    simp only [Nat.zero_add, Nat.sub_zero]
    rw [blk, upd_out (by omega), v4 i hi _ (by omega)]
    rw [sum_congr rfl (fun l hl => ?_)]
    · ring
    · have hl := mem_range.1 hl
      rw [upd_in' (by omega), upd_out (by omega), v4' l hl _ (by omega)]
      simp only [Nat.sub_zero, Nat.add_sub_cancel_left]

omit [Field K] [DecidableEq K] in
lemma mergeN_perm (lt : List K → List K → Bool) : ∀ f L L', (mergeN lt f L L').Perm (L ++ L')
  | 0, L, L' => by simp [mergeN]
  | f+1, [], L' => by simp [mergeN]
  | f+1, a :: L, [] => by simp [mergeN]
  | f+1, a :: L, b :: L' => by
    rw [mergeN]
    split
    · exact ((mergeN_perm lt f (a :: L) L').cons b).trans (List.perm_middle (l₁ := a :: L)).symm
    · exact (mergeN_perm lt f L (b :: L')).cons a

/-- lists of monic polynomials of positive degree -/
def Good (L : List (List K)) : Prop := ∀ l ∈ L, ∃ c : List K, c ≠ [] ∧ l = c ++ [1]

/-- `X^R - Σ c i X^i` -/
noncomputable def relPoly (R : ℕ) (c : ℕ → K) : K[X] := Polynomial.X ^ R - ∑ i ∈ range R, Polynomial.C (c i) * Polynomial.X ^ i

lemma kpSplit_spec {g : GemmFn K} {ts : TrsmFn K} (hg : GemmOk g) (ht : TrsmOk ts) (lt : List K → List K → Bool)
    {rec : ℕ → ℕ → ℕ → Prog K (List (List K))} {Pk : Arr ℕ} {q : ℕ → ℕ}
    {c : ℕ → K} {nbf : ℕ} (hrec : CpRecOk rec N) (hK : IsKrylov N a y) (h : Tmps m0 m ⟨A, lda, N, N⟩ a T U)
    (h1 : T .k = ⟨Kp, N, degree, N⟩) (h4 : T .k4 = ⟨K4, N, 1, N⟩) (hb : T .b = noWin) (hN : N ≤ degree) (hR1 : 1 ≤ R) (hnbf : R < degree → nbf = 0)
    (hc : Cup .nonUnit N N y (U .k) (ofSwaps Pk.get R) q R)
    (hP : R ≤ Pk.len) (hp : ∀ i < R, Pk.get i < N) (hrel : ∀ j < N, y R j = ∑ l ∈ range R, c l * y l j) :
    Run (kpSplit g ts lt rec N R nbf A lda Kp K4 Pk []) m (fun z m' => match z with
      | none => Tmps m0 m' ⟨A, lda, N, N⟩ a T U
      | some L => ∃ a' U', Tmps m0 m' ⟨A, lda, N, N⟩ a' T U' ∧ U' .k4 = U .k4 ∧ Good L ∧ chi N a = relPoly R c * prodOf L) := by
  have rN := hc.rN
  unfold kpSplit
  rif c1
  · obtain ⟨e, rfl⟩ : ∃ e, N = R + e := ⟨N - R, by omega⟩
    obtain rfl := hnbf (by omega)
    rw [Run_bind]
    have o4 := h.on .k4
    rw [h4] at o4
    rw [Nat.add_sub_cancel_left]
    refine (fiszero_on o4 0 R 1 e (by simp) (by simp) (by simp [Win.adr])).mono ?_
    rintro b m1 ⟨rfl, -⟩
    rif c2
    · rw [Run_bind]
      refine (kpRest_spec hg ht hrec (by omega) hK h h1 hb hN hR1 hc hP hp hrel).mono ?_
      rintro L m2 ⟨a', U', t1, t2, t3, t4⟩
      rw [Run_pure]
      have pm := mergeN_perm lt (0 + L.length) [] L
      refine ⟨a', U', t1, t2, fun l hl => t3 l ((pm.mem_iff).1 hl), ?_⟩
      rw [t4, relPoly]
      congr 1
      unfold prodOf
      exact (pm.map polyOf).prod_eq.symm
    · rw [Run_pure]; exact h
  · obtain rfl : R = N := by omega
    rw [Run_pure]
    refine ⟨a, U, h, rfl, fun l hl => absurd hl List.not_mem_nil, ?_⟩
    have := kp_split (e := 0) (c := c) (B := fun _ _ => 0) (S := fun _ _ => 0) hK hR1 hc.toIsCUP hc.pP hrel (fun i hi => by omega) (fun i hi => by omega)
    rw [Nat.add_zero, chi_zero, mul_one] at this
    rw [this, prodOf, List.map_nil, List.prod_nil, mul_one, relPoly]

lemma colCoeffs_spec {p n : ℕ} (h : On m0 m (vw p 1 n) V) : ∀ d ≤ n,
    Run (danCoeffs p 1 d) m (fun l m' => m' = m ∧ l = (List.range d).map (fun i => - V i 0)) := by
  intro d
  induction d with
  | zero => intro _; rw [danCoeffs, Run_pure]; exact ⟨rfl, rfl⟩
  | succ d ih =>
    intro hd
    rw [danCoeffs, Run_bind]
    refine (ih (by omega)).mono ?_
    rintro l m1 ⟨rfl, rfl⟩
    have e : p + d * 1 = (vw p 1 n).adr d 0 := by simp [Win.adr]
    rw [Run_bind, Run_load, e]
    refine ⟨h.okc (by simp only []; omega) (by simp), ?_⟩
    rw [Run_pure, h.val (by simp only []; omega) (by simp)]
    exact ⟨rfl, by rw [List.range_succ, List.map_append]; rfl⟩

/-- the temporaries of `ArithProg` -/
inductive KA | k | c | r
deriving DecidableEq

lemma arithProg_spec {ap : ℕ → ℕ → ℕ → ℕ → Prog K (Option (List (List K)))} {fs : List (List K)} {B : ℕ} (h : On m m (vw B 1 R) V) (hR1 : 1 ≤ R)
    (hRd : R ≤ degree) : Run (arithProg ap fs R B 1 degree) m (fun z m' => On m m' (vw B 1 R) V ∧
      z = some (((List.range R).map (fun i => - V i 0) ++ [1]) :: fs)) := by
  have q0 : (R - 1) / degree + 1 = 1 := by rw [Nat.div_eq_of_lt (by omega)]
  unfold arithProg
  rw [Run_bind, if_neg (by omega), Run_pure, Run_bind]
  refine Run_usub hR1 ?_
  simp only [q0, lt_irrefl, if_false]
  have h0 : Tmps m m (vw B 1 R) V (fun _ : KA => noWin) (fun _ => V) := Tmps.start h
  rw [Run_bind, Run_alloc]
  obtain ⟨f1, h1⟩ := h0.alloc .k rfl R 1 rfl
  change Run _ (m.grow (R * 1)) _
  generalize m.grow (R * 1) = m1 at h1 ⊢
  generalize m.next = Kp at h1 ⊢
  rw [Run_bind, Run_alloc]
  obtain ⟨f2, h2⟩ := h1.alloc .c rfl R 1 rfl
  change Run _ (m1.grow (R * 1)) _
  generalize m1.grow (R * 1) = m2 at h2 ⊢
  generalize m1.next = Ac at h2 ⊢
  generalize hT : Function.update (Function.update (fun _ : KA => noWin) .k (vw Kp 1 R)) .c (vw Ac 1 R) = T at h2
  have hk : T .k = vw Kp 1 R := by rw [← hT]; rfl
  have hc : T .c = vw Ac 1 R := by rw [← hT]; rfl
  have hr : T .r = noWin := by rw [← hT]; rfl
  rw [Run_bind]
  have o := h2.on .c
  rw [hc, Function.update_self] at o
  have dA := h2.disjA .c
  rw [hc] at dA
  refine (fassign_src (S := vw B 1 R) (i0 := 0) (j0 := 0) o h2.srcA dA (by simp) (by simp) (by simp [Win.adr])).mono (fun _ m3 t => ?_)
  replace h2 := h2.put' .c hc t
  rw [Run_bind]
  have o := h2.on .k
  have s := h2.src .c
  have d := h2.disj .c .k (by decide)
  rw [hk] at o d
  rw [hc, Function.update_self] at s
  rw [hc] at d
  refine (fassign_src (S := vw Ac 1 R) (i0 := 0) (j0 := 0) o s d (by simp) (by simp) (by simp [Win.adr])).mono (fun _ m4 t => ?_)
  replace h2 := h2.put' .k hk t
  rw [Run_bind, Run_alloc]
  obtain ⟨f3, h3⟩ := h2.alloc .r hr R 1 rfl
  change Run _ (m4.grow (R * 1)) _
  generalize m4.grow (R * 1) = m5 at h3 ⊢
  generalize m4.next = Arp at h3 ⊢
  have hd : (if R % degree ≠ 0 then R % degree else degree) = R := by
    rcases Nat.eq_or_lt_of_le hRd with e | e
    · subst e; simp
    · rw [Nat.mod_eq_of_lt e, if_pos (by omega)]
  rw [hd, Run_bind]
  have o := h3.on .k
  rw [Function.update_of_ne (by decide), hk, Function.update_of_ne (by decide), Function.update_self] at o
  refine (colCoeffs_spec o R le_rfl).mono ?_
  rintro l m6 ⟨rfl, rfl⟩
  rw [Run_bind, Run_free]
  replace h3 := h3.free .r (p := Arp) (n := R * 1) (by rw [Function.update_self]) (by rw [Function.update_self])
  rw [Run_bind, Run_free]
  replace h3 := h3.free .c (p := Ac) (n := R * 1) (by rw [Function.update_of_ne (by decide), Function.update_of_ne (by decide), hc])
    (by rw [Function.update_of_ne (by decide), Function.update_of_ne (by decide), hc])
  rw [Run_bind, Run_free]
  replace h3 := h3.free .k (p := Kp) (n := R * 1)
    (by rw [Function.update_of_ne (by decide), Function.update_of_ne (by decide), Function.update_of_ne (by decide), hk])
    (by rw [Function.update_of_ne (by decide), Function.update_of_ne (by decide), Function.update_of_ne (by decide), hk])
  rw [Run_pure]
  refine ⟨h3.done (fun i => ?_), ?_⟩
  · cases i <;> simp [Function.update]
  · congr 2
    congr 1
    refine List.map_congr_left (fun i hi => ?_)
    have := List.mem_range.1 hi
    rw [upd_in' (by simp only []; omega), upd_in' (by simp only []; omega)]
    simp

lemma kpResult_spec (h : Tmps m0 m W a T U) (h4 : T .k4 = ⟨K4, N, 1, N⟩) (hb : T .b = noWin) (hR : R ≤ N) :
    Run (kpResult N R 1 K4) m (fun B m' => ∃ U', Tmps m0 m' W a (Function.update T .b (vw B 1 R)) U' ∧ ∀ i < R, U' .b i 0 = U .k4 0 i) := by
  unfold kpResult
  rw [Run_bind, Run_alloc]
  obtain ⟨f, h1⟩ := h.alloc .b hb R 1 rfl
  change Run _ (m.grow (R * 1)) _
  generalize m.grow (R * 1) = m1 at h1 ⊢
  generalize m.next = B at h1 ⊢
  rw [Run_bind]
  refine Run_loop_one ?_
  have o4 := h1.on .k4
  have ob := h1.on .b
  have d := h1.disj .k4 .b (by decide)
  rw [Function.update_of_ne (by decide), h4, Function.update_of_ne (by decide)] at o4
  rw [Function.update_self, Function.update_self] at ob
  rw [Function.update_of_ne (by decide), h4, Function.update_self] at d
  have e4 : K4 + 0 * N = (Win.mk K4 N 1 N).adr 0 0 := by simp [Win.adr]
  rw [e4, Nat.add_zero]
  refine (vassign_spec (o4.vw_row (n := R) (by simp) (by simpa using hR)) ob.ok (Win.Disj.safe ?_ rfl rfl) Nat.one_pos).mono (fun _ m2 s => ?_)
  · intro x hx hy
    obtain ⟨s, hs, e1⟩ := vw_row_Has.1 hx
    exact d x (by rw [e1]; exact Win.Has_adr (by simp) (by simp only []; omega)) hy
  · rw [Run_pure]
    refine ⟨_, h1.put' .b (Function.update_self ..) ⟨ob.wf, ob.ok, ob.ld, s⟩, fun i hi => ?_⟩
    rw [Function.update_self, Nat.mul_one, Win.adr_add_col]
    have := o4.val (i := 0) (j := 0 + i) (by simp) (by simp only []; omega)
    rw [this, Nat.zero_add]

theorem krylovPrecond_spec {cut : ℕ} (cat : Cat) {g : GemmFn K} {ts : TrsmFn K} (hg : GemmOk g) (ht : TrsmOk ts) (lt : List K → List K → Bool)
    {rec : ℕ → ℕ → ℕ → Prog K (List (List K))} (b : ℕ → ℕ → K) {nz : ℕ → K} (hrec : CpRecOk rec N) (h : On m m ⟨A, lda, N, N⟩ a) (hN1 : 1 ≤ N)
    (hN : N ≤ degree) (hnz : nz 0 ≠ 0) : Run (krylovPrecond cut cat g ts lt rec b nz degree N A lda) m (fun z m' => match z with
      | none => On m m' ⟨A, lda, N, N⟩ a
      | some (fs, Nb, B, ldb) => ∃ (a' : ℕ → ℕ → K) (c : ℕ → K) (T : KW → Win) (U : KW → ℕ → ℕ → K), Tmps m m' ⟨A, lda, N, N⟩ a' T U ∧ T .b = vw B 1 Nb ∧
        (∀ i, i ≠ .b → T i = noWin) ∧ ldb = 1 ∧ 1 ≤ Nb ∧ Nb ≤ degree ∧ (∀ i < Nb, U .b i 0 = c i) ∧ Good fs ∧ chi N a = relPoly Nb c * prodOf fs) := by
  have q0 : (N - 1) / degree + 1 = 1 := by rw [Nat.div_eq_of_lt (by omega)]
  unfold krylovPrecond
  rw [Run_bind, if_neg (by omega), Run_pure, Run_bind]
  refine Run_usub hN1 ?_
  simp only [q0, Nat.mul_one, Nat.one_mul]
  have h0 : Tmps m m ⟨A, lda, N, N⟩ a (fun _ : KW => noWin) (fun _ => a) := Tmps.start h
  rw [Run_bind, Run_alloc]
  obtain ⟨f1, h1⟩ := h0.alloc .k rfl degree N rfl
  change Run _ (m.grow (degree * N)) _
  generalize m.grow (degree * N) = m1 at h1 ⊢
  generalize m.next = Kp at h1 ⊢
  rw [Run_bind, Run_alloc]
  obtain ⟨f2, h2⟩ := h1.alloc .k2 rfl degree N rfl
  change Run _ (m1.grow (degree * N)) _
  generalize m1.grow (degree * N) = m2 at h2 ⊢
  generalize m1.next = K2 at h2 ⊢
  clear h1 h0
  generalize hT : Function.update (Function.update (fun _ : KW => noWin) .k ⟨Kp, N, degree, N⟩) .k2 ⟨K2, N, degree, N⟩ = T at h2
  have hk : T .k = ⟨Kp, N, degree, N⟩ := by rw [← hT]; rfl
  have hk2 : T .k2 = ⟨K2, N, degree, N⟩ := by rw [← hT]; rfl
  -- the iterates
  rw [Run_bind]
  have o := h2.on .k
  rw [hk] at o
  refine (kpDraw_spec (N := N) (W := ⟨Kp, N, degree, N⟩) b nz o (by simp only []; omega) rfl hN1).mono (fun _ m3 t => ?_)
  replace h2 := h2.put' .k hk t
  rw [Run_bind]
  have o := h2.on .k
  have dA := h2.disjA .k
  rw [hk, Function.update_self] at o
  rw [hk] at dA
  have hK := krylov_is N a (kpVec b nz)
  generalize hy : krylov N a (kpVec b nz) = y at hK
  have hy0 : ∀ j, y 0 j = kpVec b nz j := fun j => by rw [← hy]; rfl
  refine (kpIterates_spec (N := N) (degree := degree) (W := ⟨Kp, N, degree, N⟩) hg hK o rfl rfl rfl h2.srcA dA (fun j hj => by rw [upd_in' (by omega), hy0]; rfl) (by omega)).mono (fun _ m4 t => ?_)
  replace h2 := h2.put' .k hk t
  rw [Function.update_idem] at h2
  -- the copy
  rw [Run_bind]
  have o := h2.on .k2
  have s := h2.src .k
  have d := h2.disj .k .k2 (by decide)
  rw [hk, hk2] at d
  rw [hk, Function.update_self] at s
  rw [hk2] at o
  refine (fassign_src (S := ⟨Kp, N, degree, N⟩) (i0 := 0) (j0 := 0) o s d (by simp) (by simp) (by simp [Win.adr])).mono (fun _ m5 t => ?_)
  replace h2 := h2.put' .k2 hk2 (t.congr (V' := y) (fun i hi j hj => by
    have hi : i < degree := hi
    have hj : j < N := hj
    rw [upd_in' (by simp only []; omega)]; rfl))
  -- the factorisation
  rw [Run_bind]
  have o := h2.on .k
  rw [hk, Function.update_of_ne (by decide), Function.update_self] at o
  have ow := o.sub (i0 := 0) (j0 := 0) (r := N) (c := N) (by simpa using hN) (by simp)
  have p0 : (Win.mk Kp N degree N).sub 0 0 N N = ⟨Kp, N, N, N⟩ := by simp [Win.sub, Win.adr]
  have ow' := ow
  rw [p0] at ow'
  refine (ludivine_spec (d := .nonUnit) (ta := .no) (sing := false) (W := ⟨Kp, N, N, N⟩) (cutoff := cut) cat hg ht (Or.inr ⟨rfl, rfl⟩)
    (P := Arr.mk' N (fun _ => 0)) (Q := Arr.mk' N (fun _ => 0)) (by simp [Arr.mk']) (by simp [Arr.mk', lr]) ow').mono ?_
  rintro ⟨R, Pk, Qk⟩ m6 post
  obtain ⟨Z, tZ, hcup⟩ := post.dec
  replace hcup := hcup (fun hh => by cases hh)
  simp only [lr, lc] at hcup
  have lP : Pk.len = N := post.lenP
  have lQ : Qk.len = N := post.lenQ
  have lt' : ∀ i < R, Pk.get i < N := post.lt
  replace tZ : On m5 m6 ⟨Kp, N, N, N⟩ Z := tZ
  rw [← p0] at tZ
  replace t := o.upd (by simpa using hN) (by simp) tZ.step
  replace h2 := h2.put' .k hk t
  replace hcup := hcup.congr (X' := y) (V' := upd 0 0 N N Z y) (p' := ofSwaps Pk.get R) (q' := Qk.get) (fun i _ j _ => by simp [op, blk])
    (fun i hi j hj => by rw [upd_in' (by omega), Nat.sub_zero, Nat.sub_zero]) (fun _ _ => rfl) (fun _ _ => rfl)
  have rN := hcup.rN
  have hq := krylov_profile hK hcup.toIsCUP hcup.pP
  have hR1 : 1 ≤ R := by
    by_contra hc
    obtain rfl : R = 0 := by omega
    have := hcup.fac 0 (by omega) 0 (by omega)
    rw [range_zero, sum_empty] at this
    rw [show ofSwaps Pk.get 0 0 = 0 from rfl, hy0, kpVec, if_pos rfl] at this
    exact hnz this
  simp only []
  rw [Run_bind, Run_liftE]
  refine (kpDegrees_spec (degree := degree) (dK := Arr.mk' degree (fun _ => 0)) hq lQ rN (by omega) (by simp only [Arr.mk']; omega)).mono ?_
  rintro _ ⟨dK, nbf, rfl, d0, dlen, hnbf⟩
  simp only []
  -- the coordinates
  rw [Run_bind, Run_alloc]
  obtain ⟨f3, h3⟩ := h2.alloc .k3 (by rw [← hT]; rfl) 1 N (Nat.one_mul N)
  change Run _ (m6.grow N) _
  generalize m6.grow N = m7 at h3 ⊢
  generalize m6.next = K3 at h3 ⊢
  rw [Run_bind, Run_alloc]
  obtain ⟨f4, h4⟩ := h3.alloc .k4 (by rw [← hT]; rfl) 1 N (Nat.one_mul N)
  change Run _ (m7.grow N) _
  generalize m7.grow N = m8 at h4 ⊢
  generalize m7.next = K4 at h4 ⊢
  clear h3 h2
  generalize hT' : Function.update (Function.update T .k3 ⟨K3, N, 1, N⟩) .k4 ⟨K4, N, 1, N⟩ = T' at h4
  have k1' : T' .k = ⟨Kp, N, degree, N⟩ := by rw [← hT', ← hT]; rfl
  have k2' : T' .k2 = ⟨K2, N, degree, N⟩ := by rw [← hT', ← hT]; rfl
  have k3' : T' .k3 = ⟨K3, N, 1, N⟩ := by rw [← hT', ← hT]; rfl
  have k4' : T' .k4 = ⟨K4, N, 1, N⟩ := by rw [← hT', ← hT]; rfl
  have kb' : T' .b = noWin := by rw [← hT', ← hT]; rfl
  clear hT' hT hk hk2
  rw [Run_bind]
  refine (kpLast_spec (R := R) h4 k2' k3' (by rw [dlen]; simp only [Arr.mk']; omega) d0 hR1 (by omega)).mono ?_
  rintro _ m9 ⟨U5, h5, v3, v1⟩
  replace v3 : ∀ j < N, U5 .k3 0 j = y (R - 1) j := v3
  replace v1 : U5 .k = upd 0 0 N N Z y := v1
  rw [Run_bind, Run_free]
  replace h5 := h5.free .k2 (p := K2) (n := degree * N) (by rw [k2']) (by rw [k2'])
  generalize hT : Function.update T' .k2 noWin = T at h5
  have k1 : T .k = ⟨Kp, N, degree, N⟩ := by rw [← hT, ← k1']; rfl
  have k2 : T .k2 = noWin := by rw [← hT]; rfl
  have k3 : T .k3 = ⟨K3, N, 1, N⟩ := by rw [← hT, ← k3']; rfl
  have k4 : T .k4 = ⟨K4, N, 1, N⟩ := by rw [← hT, ← k4']; rfl
  have kb : T .b = noWin := by rw [← hT, ← kb']; rfl
  clear k1' k2' k3' k4' kb' hT h4
  rw [← v1] at hcup
  rw [Run_bind]
  refine (kpCoords_spec hg ht hK h5 k1 k3 k4 hN hR1 v3 hcup (by omega) lt' (by omega)).mono ?_
  rintro _ m10 ⟨c, U6, h6, w1, w4, hrel⟩
  replace hcup := hcup.congr (X' := y) (V' := U6 .k) (p' := ofSwaps Pk.get R) (q' := Qk.get) (fun i _ j _ => rfl)
    (fun i hi j hj => (w1 i hi j hj).symm) (fun _ _ => rfl) (fun _ _ => rfl)
  rw [Nat.sub_self, Nat.zero_sub, Run_bind, kpFactors, Run_pure]
  simp only []
  -- the quotient
  rw [Run_bind]
  refine (kpSplit_spec hg ht lt hrec hK h6 k1 k4 kb hN hR1 (nbf := nbf) (fun hh => by rw [hnbf, if_neg (by omega)]) hcup (by omega) lt' hrel).mono ?_
  rintro (_ | L) m11 post2
  · simp only [] at post2 ⊢
    rw [Run_bind, Run_free]
    replace h7 := post2.free .k3 (p := K3) (n := N) (by rw [k3]) (by rw [k3, Nat.one_mul])
    rw [Run_bind, Run_free]
    replace h7 := h7.free .k4 (p := K4) (n := N) (by rw [Function.update_of_ne (by decide), k4]) (by rw [Function.update_of_ne (by decide), k4, Nat.one_mul])
    rw [Run_bind, Run_free]
    replace h7 := h7.free .k (p := Kp) (n := degree * N) (by rw [Function.update_of_ne (by decide), Function.update_of_ne (by decide), k1])
      (by rw [Function.update_of_ne (by decide), Function.update_of_ne (by decide), k1])
    rw [Run_pure]
    refine h7.done (fun i => ?_)
    cases i <;> simp [Function.update, k2, kb]
  · obtain ⟨a', U7, h7, u4, hgood, hchi⟩ := post2
    simp only []
    rw [Run_bind, Run_free]
    replace h7 := h7.free .k (p := Kp) (n := degree * N) (by rw [k1]) (by rw [k1])
    rw [Run_bind, Run_free]
    replace h7 := h7.free .k3 (p := K3) (n := N) (by rw [Function.update_of_ne (by decide), k3]) (by rw [Function.update_of_ne (by decide), k3, Nat.one_mul])
    rw [Run_bind]
    refine (kpResult_spec (N := N) (R := R) h7 (by rw [Function.update_of_ne (by decide), Function.update_of_ne (by decide), k4])
      (by rw [Function.update_of_ne (by decide), Function.update_of_ne (by decide), kb]) rN).mono ?_
    rintro B m12 ⟨U8, h8, u8⟩
    rw [Run_bind, Run_free]
    replace h8 := h8.free .k4 (p := K4) (n := N)
      (by rw [Function.update_of_ne (by decide), Function.update_of_ne (by decide), Function.update_of_ne (by decide), k4])
      (by rw [Function.update_of_ne (by decide), Function.update_of_ne (by decide), Function.update_of_ne (by decide), k4, Nat.one_mul])
    rw [Run_pure]
    refine ⟨a', c, _, U8, h8, by rw [Function.update_of_ne (by decide), Function.update_self], fun i hi => ?_, rfl, hR1, by omega, fun i hi => ?_, hgood, hchi⟩
    · cases i <;> simp [Function.update, k2] at hi ⊢
    · rw [u8 i hi, u4, w4 i hi]

theorem kpTry_spec {cut : ℕ} (cat : Cat) {g : GemmFn K} {ts : TrsmFn K} (hg : GemmOk g) (ht : TrsmOk ts) (lt : List K → List K → Bool)
    {ap : ℕ → ℕ → ℕ → ℕ → Prog K (Option (List (List K)))}
    {rec : ℕ → ℕ → ℕ → Prog K (List (List K))} (b : ℕ → ℕ → K) {nz : ℕ → K} (hrec : CpRecOk rec N) (h : On m m ⟨A, lda, N, N⟩ a) (hN1 : 1 ≤ N)
    (hN : N ≤ degree) (hnz : nz 0 ≠ 0) : Run (kpTry cut cat g ts lt ap rec b nz degree N A lda) m (fun z m' => match z with
      | none => On m m' ⟨A, lda, N, N⟩ a
      | some L => (∃ a', On m m' ⟨A, lda, N, N⟩ a') ∧ Good L ∧ prodOf L = chi N a) := by
  unfold kpTry
  rw [Run_bind]
  refine (krylovPrecond_spec cat hg ht lt b hrec h hN1 hN hnz).mono ?_
  rintro (_ | ⟨fs, Nb, B, ldb⟩) m1 post
  · simp only [] at post ⊢
    rw [Run_pure]; exact post
  · obtain ⟨a', c, T, U, h1, kb, ko, rfl, hR1, hRd, hc, hgood, hchi⟩ := post
    simp only []
    rw [Run_bind]
    have ob := h1.on .b
    rw [kb] at ob
    refine (arithProg_spec (ap := ap) (fs := fs) ob hR1 hRd).mono ?_
    rintro _ m2 ⟨t, rfl⟩
    replace h1 := h1.put' .b kb t
    rw [Run_bind, Run_free, Run_pure]
    replace h1 := h1.free .b (p := B) (n := Nb * 1) (by rw [kb]) (by rw [kb])
    refine ⟨⟨a', h1.done (fun i => ?_)⟩, ?_, ?_⟩
    · by_cases e : i = .b
      · subst e; rw [Function.update_self]
      · rw [Function.update_of_ne e, ko i e]
    · intro l hl
      rcases List.mem_cons.1 hl with rfl | hl
      · refine ⟨_, ?_, rfl⟩
        have : Nb ≠ 0 := by omega
        simpa [List.map_eq_nil_iff, List.range_eq_nil] using this
      · exact hgood l hl
    · have e : (List.range Nb).map (fun i => - U .b i 0) = (List.range Nb).map (fun i => - c i) :=
        List.map_congr_left (fun i hi => by rw [hc i (List.mem_range.1 hi)])
      rw [e, hchi, relPoly, ← polyOf_companion]
      simp [prodOf]

/-- the numbers drawn as non-zero are not zero -/
def KpDraws.NonZero (dr : KpDraws K) (N : ℕ) : Prop := ∀ pt, dr.nz pt 0 ≠ 0 ∧ Draws N (dr.luk pt)

theorem charPolyKP_spec (jk : ℕ → ℕ) {dr : KpDraws K} {cut : ℕ} (cat : Cat) {g : GemmFn K} {ts : TrsmFn K} (hg : GemmOk g) (ht : TrsmOk ts)
    (lt : List K → List K → Bool) {ap : ℕ → ℕ → ℕ → ℕ → Prog K (Option (List (List K)))} {char dflt N0 : ℕ} (hdr : dr.NonZero N0) :
    ∀ f pt degree N A lda (m : Mem K) a, N ≤ N0 → N < f → 1 ≤ N → (char < N ∨ N ≤ degree) → (char < N ∨ N ≤ dflt + 1) → On m m ⟨A, lda, N, N⟩ a →
      Run (charPolyKP jk dr cut cat g ts lt ap char dflt f pt degree N A lda) m (fun L m' =>
        (∃ a', On m m' ⟨A, lda, N, N⟩ a') ∧ Good L ∧ prodOf L = chi N a) := by
  intro f
  induction f with
  | zero => intro pt degree N A lda m a _ h; omega
  | succ f ih =>
    intro pt degree N A lda m a hN0 hf hN1 hd1 hd2 h
    have hluk : ∀ m, On m m ⟨A, lda, N, N⟩ a → Run (charPolyLUK jk (dr.luk pt) cat g ts N A lda) m (fun L m' =>
        (∃ a', On m m' ⟨A, lda, N, N⟩ a') ∧ Good L ∧ prodOf L = chi N a) := fun m h =>
      charPolyLUK_spec jk cat hg ht (fun n h1 h2 => (hdr pt).2 n h1 (by omega)) h
    unfold charPolyKP
    simp only []
    rif c0
    · exact hluk m h
    · have hrec : ∀ t, CpRecOk (charPolyKP jk dr cut cat g ts lt ap char dflt f (t :: pt) dflt) N := fun t e m Ar b h1 h2 hb =>
        ih (t :: pt) dflt e Ar e m b (by omega) (by omega) h1 (by omega) (by omega) hb
      rw [Run_bind]
      refine (kpTry_spec cat hg ht lt (dr.blk (0 :: pt)) (hrec 0) h hN1 (by omega) (hdr _).1).mono ?_
      rintro (_ | L) m1 post
      · simp only [] at post ⊢
        rw [Run_bind]
        refine (kpTry_spec cat hg ht lt (dr.blk (1 :: pt)) (hrec 1) post.here hN1 (by omega) (hdr _).1).mono ?_
        rintro (_ | L) m2 post2
        · simp only [] at post2 ⊢
          refine (hluk m2 post2.here).mono ?_
          rintro L m3 ⟨⟨a', t1⟩, t2, t3⟩
          exact ⟨⟨a', (post.trans post2).trans t1⟩, t2, t3⟩
        · simp only [] at post2 ⊢
          obtain ⟨⟨a', t1⟩, t2, t3⟩ := post2
          rw [Run_pure]
          exact ⟨⟨a', post.trans t1⟩, t2, t3⟩
      · simp only [] at post ⊢
        rw [Run_pure]; exact post

end

end Verif.FF
