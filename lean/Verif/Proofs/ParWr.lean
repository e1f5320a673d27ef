import Verif.Model.Par
import Verif.Proofs.ApplyP
import Verif.Proofs.OnWin

/-!
# Cells written by the kernels
-/

namespace Verif.Par
open Verif.FF

variable {K : Type} [Field K] [DecidableEq K] {S : ℕ → Prop}

lemma cnt_lt {n inc i : ℕ} (h : i < cnt n inc) : i < n := by
  unfold cnt at h; split at h
  · omega
  · exact h

section
variable {α β : Type}
lemma wrIn_bind {p : Prog K α} {f : α → Prog K β} [hp : Small p] [hf : ∀ a, Small (f a)] (h1 : Small.wrIn p S)
    (h2 : ∀ a, Small.wrIn (f a) S) : Small.wrIn (p >>= f) S := ⟨h1, fun a _ => h2 a⟩
lemma wrIn_ite {c : Prop} [Decidable c] {p q : Prog K α} [hp : Small p] [hq : Small q] (h1 : c → Small.wrIn p S)
    (h2 : ¬ c → Small.wrIn q S) : Small.wrIn (if c then p else q) S := ⟨h1, h2⟩
lemma wrIn_loop {n : ℕ} {f : ℕ → Prog K Unit} [hf : ∀ i, Small (f i)] (h : ∀ i < n, Small.wrIn (f i) S) : Small.wrIn (loop n f) S := h
lemma wrIn_pure {a : α} : Small.wrIn (pure a : Prog K α) S := trivial
lemma wrIn_load {i : ℕ} : Small.wrIn (load i : Prog K K) S := trivial
lemma wrIn_liftE {e : Except Fault α} : Small.wrIn (liftE e : Prog K α) S := trivial
lemma wrIn_store {i : ℕ} {x : K} (h : S i) : Small.wrIn (store i x : Prog K Unit) S := h
end

/-- goals about the cells written by straight-line code -/
macro "wrs" : tactic => `(tactic| repeat' (first
  | exact wrIn_pure | exact wrIn_load | exact wrIn_liftE | refine wrIn_store ?_ | refine wrIn_bind ?_ (fun _ => ?_) | assumption))

variable {n m M N X incX Y incY A incA lda B incB ldb C incC ldc : ℕ} {a : K} {cat : Cat}

lemma wrIn_vzero (h : ∀ i < n, S (X + i * incX)) : Small.wrIn (vzero n X incX : Prog K Unit) S :=
  wrIn_ite (fun e => wrIn_loop fun i hi => wrIn_store (by have := h i hi; rwa [e, mul_one] at this))
    (fun _ => wrIn_loop fun i hi => wrIn_store (h i hi))
lemma wrIn_vnegin (h : ∀ i < n, S (X + i * incX)) : Small.wrIn (vnegin n X incX : Prog K Unit) S :=
  wrIn_loop fun i hi => wrIn_bind wrIn_load fun _ => wrIn_store (h i (cnt_lt hi))
lemma wrIn_vassign (h : ∀ i < n, S (X + i * incX)) : Small.wrIn (vassign n Y incY X incX : Prog K Unit) S :=
  wrIn_ite (fun e => wrIn_loop fun i hi => wrIn_bind wrIn_load fun _ => wrIn_store (by have := h i hi; rwa [e.1, mul_one] at this))
    (fun _ => wrIn_loop fun i hi => wrIn_bind wrIn_load fun _ => wrIn_store (h i (cnt_lt hi)))
lemma wrIn_vswap (h : ∀ i < n, S (X + i * incX)) (h' : ∀ i < n, S (Y + i * incY)) : Small.wrIn (vswap n X incX Y incY : Prog K Unit) S :=
  wrIn_loop fun i hi => wrIn_bind wrIn_load fun _ => wrIn_bind wrIn_load fun _ => wrIn_bind (wrIn_store (h i (cnt_lt hi))) fun _ =>
    wrIn_store (h' i (cnt_lt hi))
lemma wrIn_vscalin (h : ∀ i < n, S (X + i * incX)) : Small.wrIn (vscalin .generic n a X incX) S :=
  wrIn_ite (fun _ => wrIn_pure) fun _ => wrIn_ite (fun _ => wrIn_vnegin h) fun _ => wrIn_ite (fun _ => wrIn_vzero h) fun _ =>
    wrIn_ite (fun e => wrIn_loop fun i hi => wrIn_bind wrIn_load fun _ => wrIn_store (by have := h i hi; rwa [e, mul_one] at this))
      fun _ => wrIn_loop fun i hi => wrIn_bind wrIn_load fun _ => wrIn_store (h i (cnt_lt hi))
lemma wrIn_vaddsub {b : Bool} (h : ∀ i < n, S (C + i * incC)) : Small.wrIn (vaddsub cat b n A incA B incB C incC : Prog K Unit) S :=
  wrIn_ite (fun e => wrIn_loop fun i hi => wrIn_bind wrIn_load fun _ => wrIn_bind wrIn_load fun _ => wrIn_store (by
      have := h i hi; rwa [e.2.2, mul_one] at this))
    fun _ => wrIn_loop fun i hi => wrIn_bind wrIn_load fun _ => wrIn_bind wrIn_load fun _ => wrIn_store (h i hi)
lemma wrIn_vadd (h : ∀ i < n, S (C + i * incC)) : Small.wrIn (vadd cat n A incA B incB C incC : Prog K Unit) S := wrIn_vaddsub (cat := cat) (b := true) h
lemma wrIn_vsub (h : ∀ i < n, S (C + i * incC)) : Small.wrIn (vsub cat n A incA B incB C incC : Prog K Unit) S := wrIn_vaddsub (cat := cat) (b := false) h

/-- the cells of the window -/
def InS (S : ℕ → Prop) (C ldc m n : ℕ) : Prop := ∀ i < m, ∀ j < n, S (C + i * ldc + j)

lemma InS.row (h : InS S C ldc m n) {i : ℕ} (hi : i < m) : ∀ j < n, S (C + i * ldc + j * 1) := fun j hj => by rw [mul_one]; exact h i hi j hj

/-- contiguous window -/
lemma InS.flat (h : InS S C n m n) : ∀ i < m * n, S (C + i * 1) := by
  intro i hi
  have hn : 0 < n := by rcases Nat.eq_zero_or_pos n with rfl | h; (· simp at hi); exact h
  have := h (i / n) ((Nat.div_lt_iff_lt_mul hn).2 hi) (i % n) (Nat.mod_lt _ hn)
  have e : C + i / n * n + i % n = C + i * 1 := by
    have := Nat.div_add_mod i n
    rw [mul_comm] at this
    omega
  rwa [e] at this

lemma InS.sub (h : InS S C ldc M N) {i0 j0 C' : ℕ} (hC : C' = C + i0 * ldc + j0) (hi : i0 + m ≤ M) (hj : j0 + n ≤ N) : InS S C' ldc m n :=
  fun i hi' j hj' => by
    have := h (i0 + i) (by omega) (j0 + j) (by omega)
    rw [hC]
    convert this using 1
    ring

lemma wrIn_fzero (h : InS S A lda m n) : Small.wrIn (fzero m n A lda : Prog K Unit) S :=
  wrIn_ite (fun e => wrIn_vzero (by subst e; exact h.flat)) fun _ => wrIn_loop fun _ hi => wrIn_vzero (h.row hi)
lemma wrIn_fassign (h : InS S A lda m n) : Small.wrIn (fassign m n B ldb A lda : Prog K Unit) S :=
  wrIn_ite (fun _ => wrIn_pure) fun _ => wrIn_ite (fun e => wrIn_vassign (by obtain ⟨rfl, _⟩ := e; exact h.flat))
    fun _ => wrIn_loop fun _ hi => wrIn_vassign (h.row hi)
lemma wrIn_fnegin (h : InS S A lda m n) : Small.wrIn (fnegin m n A lda : Prog K Unit) S := wrIn_loop fun _ hi => wrIn_vnegin (h.row hi)
lemma wrIn_fscalin (h : InS S A lda m n) : Small.wrIn (fscalin .generic m n a A lda) S :=
  wrIn_ite (fun _ => wrIn_pure) fun _ => wrIn_ite (fun _ => wrIn_fzero h) fun _ => wrIn_ite (fun _ => wrIn_fnegin h) fun _ =>
    wrIn_ite (fun e => wrIn_vscalin (by subst e; rw [mul_comm]; exact h.flat)) fun _ => wrIn_loop fun _ hi => wrIn_vscalin (h.row hi)
lemma wrIn_fadd (h : InS S C ldc m n) : Small.wrIn (fadd cat m n A lda B ldb C ldc : Prog K Unit) S :=
  wrIn_ite (fun e => wrIn_vadd (by obtain ⟨_, _, rfl⟩ := e; exact h.flat)) fun _ => wrIn_loop fun _ hi => wrIn_vadd (h.row (cnt_lt hi))
lemma wrIn_fsub (h : InS S C ldc m n) : Small.wrIn (fsub cat m n A lda B ldb C ldc : Prog K Unit) S :=
  wrIn_ite (fun e => wrIn_vsub (by obtain ⟨_, _, rfl⟩ := e; exact h.flat)) fun _ => wrIn_loop fun _ hi => wrIn_vsub (h.row (cnt_lt hi))
lemma wrIn_faddin (h : InS S C ldc m n) : Small.wrIn (faddin cat m n B ldb C ldc : Prog K Unit) S :=
  wrIn_ite (fun e => wrIn_vadd (cat := cat) (by obtain ⟨_, rfl⟩ := e; exact h.flat)) fun _ => wrIn_loop fun _ hi => wrIn_vadd (cat := cat) (h.row (cnt_lt hi))
lemma wrIn_fsubin (h : InS S C ldc m n) : Small.wrIn (fsubin cat m n B ldb C ldc : Prog K Unit) S :=
  wrIn_ite (fun e => wrIn_vsub (cat := cat) (by obtain ⟨_, rfl⟩ := e; exact h.flat)) fun _ => wrIn_loop fun _ hi => wrIn_vsub (cat := cat) (h.row (cnt_lt hi))
lemma wrIn_axpyin {c x y : ℕ} (h : S c) : Small.wrIn (axpyin c x y : Prog K Unit) S :=
  wrIn_bind wrIn_load fun _ => wrIn_bind wrIn_load fun _ => wrIn_bind wrIn_load fun _ => wrIn_store h

lemma wrIn_gemmClassic {ta tb : Tr} {k : ℕ} {alpha beta : K} (h : InS S C ldc m n) :
    Small.wrIn (gemmClassic .generic ta tb m n k alpha A lda B ldb beta C ldc) S := by
  have h1 : Small.wrIn (if beta = 0 then fzero m n C ldc else do
      let b ← liftE (divE beta alpha)
      fscalin .generic m n b C ldc) S := wrIn_ite (fun _ => wrIn_fzero h) fun _ => wrIn_bind wrIn_liftE fun _ => wrIn_fscalin h
  cases ta <;> cases tb <;>
  · refine wrIn_ite (fun _ => wrIn_fscalin h) fun _ => wrIn_bind h1 fun _ => wrIn_bind ?_ fun _ => wrIn_fscalin h
    first
    | exact wrIn_loop fun i hi => wrIn_loop fun l hl => wrIn_loop fun j hj => wrIn_axpyin (h i hi j hj)
    | exact wrIn_loop fun i hi => wrIn_loop fun j hj => wrIn_loop fun l hl => wrIn_axpyin (h i hi j hj)

lemma wrIn_vdot : Small.wrIn (vdot n X incX Y incY : Prog K K) S := fun _ _ _ => wrIn_bind wrIn_load fun _ => wrIn_bind wrIn_load fun _ => wrIn_pure

lemma wrIn_fgemvDefault {ta : Tr} {alpha beta : K} (h : ∀ i < (if ta = .no then M else N), S (Y + i * incY)) :
    Small.wrIn (fgemvDefault .generic ta M N alpha A lda X incX beta Y incY) S := by
  refine wrIn_bind ?_ fun _ => wrIn_bind ?_ fun _ => wrIn_vscalin h
  · exact wrIn_ite (fun _ => wrIn_vzero h) fun _ => wrIn_bind wrIn_liftE fun _ => wrIn_vscalin h
  · exact wrIn_ite (fun _ => wrIn_loop fun i hi => wrIn_bind wrIn_vdot fun _ => wrIn_bind wrIn_load fun _ => wrIn_store (h i hi))
      fun _ => wrIn_loop fun i hi => wrIn_bind wrIn_vdot fun _ => wrIn_bind wrIn_load fun _ => wrIn_store (h i hi)

lemma wrIn_fgemv {ta : Tr} {alpha beta : K} (h : ∀ i < (if ta = .no then M else N), S (Y + i * incY)) :
    Small.wrIn (fgemv .generic ta M N alpha A lda X incX beta Y incY) S :=
  wrIn_ite (fun _ => wrIn_pure) fun _ => wrIn_ite (fun _ => wrIn_ite (fun _ => wrIn_vzero h) fun _ => wrIn_vscalin h)
    fun _ => wrIn_fgemvDefault h

/-! ### permutations: `r × c` window -/

variable {r c ibeg iend : ℕ} {P : Arr ℕ}

lemma wrIn_applyPStep_left {i : ℕ} (h : InS S A lda r c) (hi : i < r) (hP : ∀ p, P.rd i = .ok p → p < r) :
    Small.wrIn (applyPStep .left c A lda P i : Prog K Unit) S := by
  refine And.intro wrIn_liftE fun p hp => ?_
  exact wrIn_ite (fun _ => wrIn_vswap (h.row (hP p hp)) (h.row hi)) fun _ => wrIn_pure

lemma wrIn_applyPStep_right {i : ℕ} (h : InS S A lda r c) (hi : i < c) (hP : ∀ p, P.rd i = .ok p → p < c) :
    Small.wrIn (applyPStep .right r A lda P i : Prog K Unit) S := by
  refine And.intro wrIn_liftE fun p hp => ?_
  exact wrIn_ite (fun _ => wrIn_vswap (fun l hl => by have := h l hl p (hP p hp); convert this using 1; ring)
    (fun l hl => by have := h l hl i hi; convert this using 1; ring)) fun _ => wrIn_pure

lemma rd_lt (hp : ∀ i < iend, P.get i < r) {i : ℕ} (hi : i < iend) : ∀ p, P.rd i = .ok p → p < r := by
  intro p h
  unfold Arr.rd at h
  split at h
  · cases h; exact hp i hi
  · cases h

lemma wrIn_applyPBlock_left {ta : Tr} (h : InS S A lda r c) (he : iend ≤ r) (hp : ∀ i < iend, P.get i < r) :
    Small.wrIn (applyPBlock .left ta c ibeg iend A lda P : Prog K Unit) S := by
  cases ta <;> exact wrIn_loop fun i hi => wrIn_applyPStep_left h (by omega) (rd_lt hp (by omega))

lemma wrIn_applyPBlock_right {ta : Tr} (h : InS S A lda r c) (he : iend ≤ c) (hp : ∀ i < iend, P.get i < c) :
    Small.wrIn (applyPBlock .right ta r ibeg iend A lda P : Prog K Unit) S := by
  cases ta <;> exact wrIn_loop fun i hi => wrIn_applyPStep_right h (by omega) (rd_lt hp (by omega))

lemma wrIn_applyP_left {ta : Tr} (h : InS S A lda r c) (he : iend ≤ r) (hp : ∀ i < iend, P.get i < r) :
    Small.wrIn (applyP .left ta c ibeg iend A lda P : Prog K Unit) S := by
  have hdm := Nat.div_add_mod c 32
  have hm := Nat.mod_lt c (show 0 < 32 by omega)
  refine wrIn_bind (wrIn_loop fun i hi => wrIn_applyPBlock_left (r := r) (h.sub (i0 := 0) (j0 := i * 32) ?_ (by omega) (by omega)) he hp)
    fun _ => wrIn_applyPBlock_left (r := r) (h.sub (i0 := 0) (j0 := c / 32 * 32) ?_ (by omega) (by omega)) he hp
  · simp
  · simp

lemma wrIn_applyP_right {ta : Tr} (h : InS S A lda r c) (he : iend ≤ c) (hp : ∀ i < iend, P.get i < c) :
    Small.wrIn (applyP .right ta r ibeg iend A lda P : Prog K Unit) S := by
  have hdm := Nat.div_add_mod r 32
  have hm := Nat.mod_lt r (show 0 < 32 by omega)
  refine wrIn_bind (wrIn_loop fun i hi => wrIn_applyPBlock_right (c := c) (h.sub (i0 := i * 32) (j0 := 0) ?_ (by omega) (by omega)) he hp)
    fun _ => wrIn_applyPBlock_right (c := c) (h.sub (i0 := r / 32 * 32) (j0 := 0) ?_ (by omega) (by omega)) he hp
  · simp only [add_zero]; ring
  · simp only [add_zero]; ring

/-! ### triangular solve -/

lemma wrIn_trScal {side : Side} (h : InS S B ldb M N) (h1 : trNa side M N = 1) : Small.wrIn (trScal .generic side M N a B ldb) S := by
  cases side with
  | left =>
    simp only [trNa] at h1; subst h1
    exact wrIn_vscalin (fun j hj => by have := h.row (i := 0) (by omega) j hj; simpa using this)
  | right =>
    simp only [trNa] at h1; subst h1
    exact wrIn_vscalin (fun j hj => by have := h j hj 0 (by omega); simpa using this)

lemma wrIn_ftrsmGen {side : Side} {uplo : Uplo} {ta : Tr} {diag : Diag} : ∀ {fuel M N A B : ℕ}, InS S B ldb M N → 1 ≤ trNa side M N →
    Small.wrIn (ftrsmGen (K := K) .generic (gemmClassic .generic) side uplo ta diag lda ldb fuel M N A B) S := by
  intro fuel
  induction fuel with
  | zero => intro M N A B _ _; exact wrIn_liftE
  | succ fuel ih =>
    intro M N A B h h1
    refine wrIn_ite (fun e => wrIn_ite (fun _ => wrIn_bind wrIn_load fun _ => wrIn_bind wrIn_liftE fun _ => wrIn_trScal h e)
      fun _ => wrIn_pure) fun ne => ?_
    have hs : trNa side M N >>> 1 = trNa side M N / 2 := by simp [Nat.shiftRight_succ]
    cases side with
    | left =>
      simp only [trNa] at h1 ne hs
      refine wrIn_bind (ih ?_ ?_) fun _ => wrIn_bind (wrIn_gemmClassic ?_) fun _ => ih ?_ ?_
      · simp only [trNa, hs]
        cases e : effUplo uplo ta <;> simp only [trsmPtr]
        · exact h.sub (i0 := M - M / 2) (j0 := 0) (by ring) (by omega) (by omega)
        · exact h.sub (i0 := 0) (j0 := 0) (by ring) (by omega) (by omega)
      · simp only [trNa, hs]; omega
      · simp only [trNa, hs]
        cases e : effUplo uplo ta <;> simp only [trsmPtr]
        · exact h.sub (i0 := 0) (j0 := 0) (by ring) (by omega) (by omega)
        · exact h.sub (i0 := M / 2) (j0 := 0) (by ring) (by omega) (by omega)
      · simp only [trNa, hs]
        cases e : effUplo uplo ta <;> simp only [trsmPtr]
        · exact h.sub (i0 := 0) (j0 := 0) (by ring) (by omega) (by omega)
        · exact h.sub (i0 := M / 2) (j0 := 0) (by ring) (by omega) (by omega)
      · simp only [trNa, hs]; omega
    | right =>
      simp only [trNa] at h1 ne hs
      refine wrIn_bind (ih ?_ ?_) fun _ => wrIn_bind (wrIn_gemmClassic ?_) fun _ => ih ?_ ?_
      · simp only [trNa, hs]
        cases e : effUplo uplo ta <;> simp only [trsmPtr]
        · exact h.sub (i0 := 0) (j0 := 0) (by ring) (by omega) (by omega)
        · exact h.sub (i0 := 0) (j0 := N - N / 2) (by ring) (by omega) (by omega)
      · simp only [trNa, hs]; omega
      · simp only [trNa, hs]
        cases e : effUplo uplo ta <;> simp only [trsmPtr]
        · exact h.sub (i0 := 0) (j0 := N / 2) (by ring) (by omega) (by omega)
        · exact h.sub (i0 := 0) (j0 := 0) (by ring) (by omega) (by omega)
      · simp only [trNa, hs]
        cases e : effUplo uplo ta <;> simp only [trsmPtr]
        · exact h.sub (i0 := 0) (j0 := N / 2) (by ring) (by omega) (by omega)
        · exact h.sub (i0 := 0) (j0 := 0) (by ring) (by omega) (by omega)
      · simp only [trNa, hs]; omega

lemma wrIn_ftrsm {side : Side} {uplo : Uplo} {ta : Tr} {diag : Diag} {alpha : K} (h : InS S B ldb M N) :
    Small.wrIn (ftrsm .generic (gemmClassic .generic) side uplo ta diag M N alpha A lda B ldb) S :=
  wrIn_ite (fun _ => wrIn_pure) fun e => wrIn_bind (wrIn_ftrsmGen h (by cases side <;> simp only [trNa] <;> omega)) fun _ =>
    wrIn_ite (fun _ => wrIn_pure) fun _ => wrIn_fscalin h

end Verif.Par
