import Verif.Model.Ftrstr
import Verif.Proofs.Ftrtr
import Verif.Proofs.TrmmO
import Verif.Proofs.Src
import Verif.Proofs.Fsyr2k

/-!
# Proofs for `ftrstr` and `ftrssyr2k`
-/

namespace Verif.FF

open Finset

variable {K : Type} [Field K] [DecidableEq K]

/-- contract of the out-of-place `ftrmm` -/
def TrmmOOk (cat : Cat) (t : TrOFn K) : Prop := ∀ (m : Mem K) side u ta d M N alpha A lda B ldb beta C ldc, alpha ≠ 0 → beta ≠ 0 →
  TrOPre m (effUplo u ta) d ta (Spec.sideDim side M N) A lda ⟨B, ldb, M, N⟩ ⟨C, ldc, M, N⟩ →
  AxpyOk m cat side d ta (Spec.sideDim side M N) A lda →
  Run (t side u ta d M N alpha A lda B ldb beta C ldc) m (fun _ m' => MulOEff side m m' u ta d M N alpha A lda B ldb beta C ldc)

lemma ftrmmO_TrmmOOk (cat : Cat) {g : GemmFn K} (hg : GemmOk g) : TrmmOOk cat (ftrmmO cat g) := by
  intro m side u ta d M N alpha A lda B ldb beta C ldc ha hb hp hx
  refine (ftrmmO_ok (beta := beta) hg side M N alpha ha hp hx).mono (fun _ m' h => ?_)
  rwa [if_neg hb] at h

section
variable {m0 m : Mem K} {W S : Win} {V f : ℕ → ℕ → K} {cat : Cat}

omit [DecidableEq K] in
/-- `C ← alpha op(T) B + beta C` with `T` and `C` blocks of the same matrix and `B` elsewhere -/
lemma trmmO_at {t : TrOFn K} (ht : TrmmOOk cat t) (h : On m0 m W V) (hS : Src m S f) (hd : S.Disj W) (side : Side) (u : Uplo) (ta : Tr)
    (d : Diag) {alpha beta : K} (ha0 : alpha ≠ 0) (hb0 : beta ≠ 0) (a b p q i0 j0 r c n : ℕ) (hn : Spec.sideDim side r c = n)
    (ha : a + n ≤ W.r) (hb : b + n ≤ W.c) (hs : a + n ≤ i0 ∨ i0 + r ≤ a ∨ b + n ≤ j0 ∨ j0 + c ≤ b) (hp : p + r ≤ S.r) (hq : q + c ≤ S.c)
    (hr : i0 + r ≤ W.r) (hc : j0 + c ≤ W.c) (hx : cat = .modular ∨ side = .left ∨ d = .unit ∨ ∀ i < n, V (a + i) (b + i) ≠ -1)
    {T B C : ℕ} (hT : T = W.adr a b) (hB : B = S.adr p q) (hC : C = W.adr i0 j0) :
    Run (t side u ta d r c alpha T W.ld B S.ld beta C W.ld) m (fun _ m' => On m0 m' W (upd i0 j0 r c (fun i j =>
      alpha * Spec.sideMul side n (Spec.op ta (Spec.tri u d (blk V a b))) (blk f p q) i j + beta * V (i0 + i) (j0 + j)) V)) := by
  subst hT hB hC hn
  have hld := hS.ld
  have P : TrOPre m (effUplo u ta) d ta (Spec.sideDim side r c) (W.adr a b) W.ld (S.sub p q r c) (W.sub i0 j0 r c) :=
    ⟨h.tri ha hb hr hc hs, hS.ok.of_sub hp hq, by simp only [Win.sub]; omega, (hd.sub_left hp hq).sub_right hr hc⟩
  have hx' : AxpyOk m cat side d ta (Spec.sideDim side r c) (W.adr a b) W.ld := by
    rcases hx with hx | hx | hx | hx
    · exact Or.inl hx
    · exact Or.inr (Or.inl hx)
    · exact Or.inr (Or.inr (Or.inl hx))
    · refine Or.inr (Or.inr (Or.inr (fun i hi => ?_)))
      have e : opAdr ta (W.adr a b) W.ld i i = W.adr (a + i) (b + i) := by cases ta <;> simp only [opAdr, Win.adr] <;> ring
      rw [e, h.val (by omega) (by omega)]
      exact hx i hi
  refine (ht m side u ta d r c alpha (W.adr a b) W.ld (S.adr p q) S.ld beta (W.adr i0 j0) W.ld ha0 hb0 P hx').mono (fun _ m' s => ?_)
  refine h.upd hr hc (Step.congr s (fun i hi j hj => ?_))
  rw [show m.mat ⟨W.adr i0 j0, W.ld, r, c⟩ i j = V (i0 + i) (j0 + j) from h.blk hr hc hi hj]
  congr 2
  refine sideMul_congr (r := r) (c := c) rfl hi hj (fun i hi j hj => ?_) (fun i hi j hj => ?_)
  · exact op_tri_congr ta (fun i hi j hj => h.blk ha hb hi hj) hi hj
  · exact (hS.sub (r := r) (c := c) p q hp hq).val i hi j hj

omit [DecidableEq K] in
/-- triangular solve, the triangle elsewhere, any transposition -/
lemma trsmT_at {t : TrFn K} (ht : TrsmOk t) (h : On m0 m W V) (hS : Src m S f) (hd : S.Disj W) (side : Side) (u : Uplo) (ta : Tr) (d : Diag)
    (a b i0 j0 r c n : ℕ) (hn : Spec.sideDim side r c = n) (ha : a + n ≤ S.r) (hb : b + n ≤ S.c)
    (hr : i0 + r ≤ W.r) (hc : j0 + c ≤ W.c) (hnz : d = .nonUnit → ∀ i < n, f (a + i) (b + i) ≠ 0) {A B : ℕ} (hA : A = S.adr a b)
    (hB : B = W.adr i0 j0) :
    Run (t side u ta d r c 1 A S.ld B W.ld) m (fun _ m' => ∃ X, On m0 m' W (upd i0 j0 r c X V) ∧
      ∀ i < r, ∀ j < c, Spec.sideMul side n (Spec.op ta (Spec.tri u d (blk f a b))) X i j = V (i0 + i) (j0 + j)) := by
  subst hA hB hn
  have hld := h.ld
  have hS' := hS.sub (r := Spec.sideDim side r c) (c := Spec.sideDim side r c) a b ha hb
  have hdn : DiagNZ m d ta (Spec.sideDim side r c) (S.adr a b) S.ld := fun hu i hi => by
    have e : opAdr ta (S.adr a b) S.ld i i = S.adr (a + i) (b + i) := by cases ta <;> simp only [opAdr, Win.adr] <;> ring
    rw [e, hS.val _ (by omega) _ (by omega)]
    exact hnz hu i hi
  refine (ht m side u ta d r c 1 (S.adr a b) S.ld (W.adr i0 j0) W.ld
    (hS'.tri h.wf' (h.ok'.of_sub hr hc) (by simp only [Win.sub]; omega) rfl ((hd.sub_left ha hb).sub_right hr hc)) hdn).mono (fun _ m' s => ?_)
  obtain ⟨X, s, hX⟩ := s
  refine ⟨X, h.upd hr hc s, fun i hi j hj => ?_⟩
  have := hX i hi j hj
  rw [show m.mat ⟨W.adr i0 j0, W.ld, r, c⟩ i j = V (i0 + i) (j0 + j) from h.blk hr hc hi hj, one_mul] at this
  rw [← this]
  exact sideMul_congr (r := r) (c := c) rfl hi hj (fun i hi j hj => op_tri_congr ta (fun i hi j hj => (hS'.val i hi j hj).symm) hi hj)
    (fun _ _ _ _ => rfl)

end

/-! ### products of triangular matrices by blocks -/

section
variable {u : Uplo} {d1 d2 dA dB : Diag} {p q : ℕ → ℕ → K} {n f0 nf s0 ns i j : ℕ}

omit [DecidableEq K] in
lemma trimul_ff (hc : Cut n f0 nf s0 ns) (hb : ∀ i < nf, ∀ j < ns, below u (f0 + i) (s0 + j)) (hj : j < nf) :
    ∑ l ∈ range n, Spec.tri u d1 p (f0 + i) l * Spec.tri u d2 q l (f0 + j) =
      ∑ l ∈ range nf, Spec.tri u d1 (blk p f0 f0) i l * Spec.tri u d2 (blk q f0 f0) l j := by
  rw [hc.sum_eq]
  simp only [tri_blk]
  have z : ∑ l ∈ range ns, Spec.tri u d1 p (f0 + i) (s0 + l) * Spec.tri u d2 q (s0 + l) (f0 + j) = 0 :=
    sum_eq_zero (fun l hl => by rw [tri_above (i := s0 + l) (hb j hj l (mem_range.1 hl)), mul_zero])
  rw [z, add_zero]

omit [DecidableEq K] in
lemma trimul_ss (hc : Cut n f0 nf s0 ns) (hb : ∀ i < nf, ∀ j < ns, below u (f0 + i) (s0 + j)) (hi : i < ns) :
    ∑ l ∈ range n, Spec.tri u d1 p (s0 + i) l * Spec.tri u d2 q l (s0 + j) =
      ∑ l ∈ range ns, Spec.tri u d1 (blk p s0 s0) i l * Spec.tri u d2 (blk q s0 s0) l j := by
  rw [hc.sum_eq]
  simp only [tri_blk]
  have z : ∑ l ∈ range nf, Spec.tri u d1 p (s0 + i) (f0 + l) * Spec.tri u d2 q (f0 + l) (s0 + j) = 0 :=
    sum_eq_zero (fun l hl => by rw [tri_above (i := s0 + i) (hb l (mem_range.1 hl) i hi), zero_mul])
  rw [z, zero_add]

omit [DecidableEq K] in
lemma trimul_sf (hc : Cut n f0 nf s0 ns) (hb : ∀ i < nf, ∀ j < ns, below u (f0 + i) (s0 + j)) (hi : i < ns) (hj : j < nf) :
    ∑ l ∈ range n, Spec.tri u d1 p (s0 + i) l * Spec.tri u d2 q l (f0 + j) = 0 := by
  rw [hc.sum_eq]
  have z1 : ∑ l ∈ range nf, Spec.tri u d1 p (s0 + i) (f0 + l) * Spec.tri u d2 q (f0 + l) (f0 + j) = 0 :=
    sum_eq_zero (fun l hl => by rw [tri_above (i := s0 + i) (hb l (mem_range.1 hl) i hi), zero_mul])
  have z2 : ∑ l ∈ range ns, Spec.tri u d1 p (s0 + i) (s0 + l) * Spec.tri u d2 q (s0 + l) (f0 + j) = 0 :=
    sum_eq_zero (fun l hl => by rw [tri_above (i := s0 + l) (hb j hj l (mem_range.1 hl)), mul_zero])
  rw [z1, z2, add_zero]

omit [DecidableEq K] in
lemma trimul_fs (hc : Cut n f0 nf s0 ns) (hb : ∀ i < nf, ∀ j < ns, below u (f0 + i) (s0 + j)) (hi : i < nf) (hj : j < ns) :
    ∑ l ∈ range n, Spec.tri u d1 p (f0 + i) l * Spec.tri u d2 q l (s0 + j) =
      ∑ l ∈ range nf, Spec.tri u d1 (blk p f0 f0) i l * blk q f0 s0 l j +
        ∑ l ∈ range ns, blk p f0 s0 i l * Spec.tri u d2 (blk q s0 s0) l j := by
  rw [hc.sum_eq]
  simp only [tri_blk]
  congr 1
  · exact sum_congr rfl (fun l hl => by rw [tri_below (hb l (mem_range.1 hl) j hj)]; rfl)
  · exact sum_congr rfl (fun l hl => by rw [tri_below (hb i hi l (mem_range.1 hl))]; rfl)

/-- `z` stores the solution of the triangular system with matrix `a` and right-hand side `b`, and agrees with `b` elsewhere -/
structure StrF (side : Side) (u : Uplo) (dA dB : Diag) (n : ℕ) (a b z : ℕ → ℕ → K) : Prop where
  keep : ∀ i < n, ∀ j < n, ¬ inT u (diagX dA dB) i j → z i j = b i j
  eq : ∀ i < n, ∀ j < n, Spec.sideMul side n (Spec.tri u dA a) (Spec.tri u (diagX dA dB) z) i j = Spec.tri u dB b i j

/-- one of two values, according to the side -/
def pick {α : Type} : Side → α → α → α
  | .left, x, _ => x
  | .right, _, y => y

/-- the off-diagonal block of the product -/
def offSum (side : Side) (u : Uplo) (dA dX : Diag) (f0 nf s0 ns : ℕ) (a z : ℕ → ℕ → K) (i j : ℕ) : K := match side with
  | .left => ∑ l ∈ range nf, Spec.tri u dA (blk a f0 f0) i l * blk z f0 s0 l j +
      ∑ l ∈ range ns, blk a f0 s0 i l * Spec.tri u dX (blk z s0 s0) l j
  | .right => ∑ l ∈ range nf, Spec.tri u dX (blk z f0 f0) i l * blk a f0 s0 l j +
      ∑ l ∈ range ns, blk z f0 s0 i l * Spec.tri u dA (blk a s0 s0) l j

variable {a b z : ℕ → ℕ → K} {side : Side}

omit [DecidableEq K] in
lemma StrF.congr {a' b' z' : ℕ → ℕ → K} (h : StrF side u dA dB n a b z) (ha : ∀ i < n, ∀ j < n, a i j = a' i j)
    (hb : ∀ i < n, ∀ j < n, b i j = b' i j) (hz : ∀ i < n, ∀ j < n, z i j = z' i j) : StrF side u dA dB n a' b' z' := by
  refine ⟨fun i hi j hj hn => by rw [← hb i hi j hj, ← hz i hi j hj]; exact h.keep i hi j hj hn, fun i hi j hj => ?_⟩
  rw [← tri_congr hb hi hj, ← h.eq i hi j hj]
  refine sideMul_congr (r := n) (c := n) (by cases side <;> rfl) hi hj (fun i hi j hj => (tri_congr ha hi hj).symm)
    (fun i hi j hj => (tri_congr hz hi hj).symm)

omit [Field K] [DecidableEq K] in
lemma inT_shift (f : ℕ) {d : Diag} (h : inT u d i j) : inT u d (f + i) (f + j) := by
  rcases h with hh | ⟨rfl, hh⟩
  · exact Or.inl ((below_add ..).2 hh)
  · exact Or.inr ⟨rfl, hh⟩

omit [DecidableEq K] in
lemma str_split (hc : Cut n f0 nf s0 ns) (hb : ∀ i < nf, ∀ j < ns, below u (f0 + i) (s0 + j))
    (h1 : StrF side u dA dB nf (blk a f0 f0) (blk b f0 f0) (blk z f0 f0))
    (h2 : StrF side u dA dB ns (blk a s0 s0) (blk b s0 s0) (blk z s0 s0))
    (ho : ∀ i < nf, ∀ j < ns, offSum side u dA (diagX dA dB) f0 nf s0 ns a z i j = b (f0 + i) (s0 + j))
    (hz : ∀ i < ns, ∀ j < nf, z (s0 + i) (f0 + j) = b (s0 + i) (f0 + j)) : StrF side u dA dB n a b z := by
  constructor
  · intro i hi j hj hn
    rcases hc.cases hi with ⟨i, hi', rfl⟩ | ⟨i, hi', rfl⟩ <;> rcases hc.cases hj with ⟨j, hj', rfl⟩ | ⟨j, hj', rfl⟩
    · exact h1.keep i hi' j hj' (fun hh => hn (inT_shift _ hh))
    · exact absurd (Or.inl (hb i hi' j hj')) hn
    · exact hz i hi' j hj'
    · exact h2.keep i hi' j hj' (fun hh => hn (inT_shift _ hh))
  · intro i hi j hj
    rcases hc.cases hi with ⟨i, hi', rfl⟩ | ⟨i, hi', rfl⟩ <;> rcases hc.cases hj with ⟨j, hj', rfl⟩ | ⟨j, hj', rfl⟩
    · rw [tri_blk, ← h1.eq i hi' j hj']
      cases side <;> exact trimul_ff hc hb hj'
    · rw [tri_below (hb i hi' j hj'), ← ho i hi' j hj']
      cases side <;> exact trimul_fs hc hb hi' hj'
    · rw [tri_above (i := s0 + i) (hb j hj' i hi')]
      cases side <;> exact trimul_sf hc hb hi' hj'
    · rw [tri_blk, ← h2.eq i hi' j hj']
      cases side <;> exact trimul_ss hc hb hi'

omit [DecidableEq K] in
/-- the diagonal of the solution -/
lemma StrF.diag (h : StrF side u dA dB n a b z) (hi : i < n) :
    Spec.tri u dA a i i * Spec.tri u (diagX dA dB) z i i = Spec.tri u dB b i i := by
  rw [← h.eq i hi i hi]
  have key : ∀ (p q : ℕ → ℕ → K) (d1 d2 : Diag), Spec.mul n (Spec.tri u d1 p) (Spec.tri u d2 q) i i = Spec.tri u d1 p i i * Spec.tri u d2 q i i := by
    intro p q d1 d2
    unfold Spec.mul
    rw [sum_eq_single i]
    · intro l _ hl
      rcases Nat.lt_or_gt_of_ne hl with hl | hl <;> cases u
      · rw [tri_above (u := .upper) (i := i) (j := l) hl, zero_mul]
      · rw [tri_above (u := .lower) (i := l) (j := i) hl, mul_zero]
      · rw [tri_above (u := .upper) (i := l) (j := i) hl, mul_zero]
      · rw [tri_above (u := .lower) (i := i) (j := l) hl, zero_mul]
    · intro hh; exact absurd (mem_range.2 hi) hh
  cases side
  · exact (key ..).symm
  · rw [mul_comm]; exact (key ..).symm

end

section
variable {m0 m : Mem K} {cat : Cat} {tmo : TrOFn K} {ts : TrFn K} {u : Uplo} {dA dB : Diag} {side : Side} {lda ldb : ℕ}

/-- base case -/
lemma ftrstrBase_on {A B : ℕ} {a b : ℕ → ℕ → K} (h : On m m ⟨B, ldb, 1, 1⟩ b) (hA : Src m ⟨A, lda, 1, 1⟩ a) (hz : dA = .nonUnit → a 0 0 ≠ 0) :
    Run (ftrstrBase dA dB A B) m (fun _ m' => ∃ z, On m m' ⟨B, ldb, 1, 1⟩ z ∧ StrF side u dA dB 1 a b z) := by
  have okA : m.ok A = true := by simpa [Win.adr] using hA.ok.adr (i := 0) (j := 0) Nat.one_pos Nat.one_pos
  have okB : m.ok B = true := by simpa [Win.adr] using h.ok'.adr (i := 0) (j := 0) Nat.one_pos Nat.one_pos
  have vA : m.val A = a 0 0 := by simpa [Win.adr] using hA.val 0 Nat.one_pos 0 Nat.one_pos
  have vB : m.val B = b 0 0 := by simpa [Win.adr] using h.val (i := 0) (j := 0) Nat.one_pos Nat.one_pos
  have st : ∀ x : K, On m (m.set B x) ⟨B, ldb, 1, 1⟩ (fun _ _ => x) := by
    intro x
    have hi := h.inj
    refine ⟨h.wf, h.ok, h.ld, rfl, le_rfl, ?_, ?_⟩
    · intro i hi j hj
      have hi : i = 0 := by simpa using hi
      have hj : j = 0 := by simpa using hj
      subst hi hj
      simp [Mem.set, Win.adr]
    · intro x _ hx
      have : x ≠ B := by
        rintro rfl
        exact hx ⟨0, Nat.one_pos, 0, Nat.one_pos, by simp [Win.adr]⟩
      simp [Mem.set, Function.update_of_ne this]
  have fin : ∀ z : ℕ → ℕ → K, (¬ inT u (diagX dA dB) 0 0 → z 0 0 = b 0 0) →
      Spec.tri u dA a 0 0 * Spec.tri u (diagX dA dB) z 0 0 = Spec.tri u dB b 0 0 → StrF side u dA dB 1 a b z := by
    intro z h1 h2
    refine ⟨fun i hi j hj hn => ?_, fun i hi j hj => ?_⟩
    · have hi : i = 0 := by omega
      have hj : j = 0 := by omega
      subst hi hj; exact h1 hn
    · have hi : i = 0 := by omega
      have hj : j = 0 := by omega
      subst hi hj
      rw [← h2]
      cases side
      · simp [Spec.sideMul, Spec.mul]
      · simp [Spec.sideMul, Spec.mul, mul_comm]
  unfold ftrstrBase
  cases dA with
  | unit =>
    refine (Run_pure ..).2 ⟨b, h, fin b (fun _ => rfl) ?_⟩
    cases dB <;> simp [Spec.tri, diagX]
  | nonUnit =>
    have hz := hz rfl
    simp only [Run_bind, Run_load, okA, true_and, vA]
    cases dB with
    | unit =>
      simp only [Run_bind, Run_liftE, Ok_invE, Run_store, okB, true_and]
      refine ⟨hz, _, st _, fin _ (fun hh => absurd (Or.inr ⟨rfl, rfl⟩) hh) ?_⟩
      simp [Spec.tri, diagX, mul_inv_cancel₀ hz]
    | nonUnit =>
      simp only [Run_bind, Run_load, okB, true_and, vB, Run_liftE, divE, Ok_bind, Ok_invE, Ok_pure, Run_store]
      refine ⟨hz, _, st _, fin _ (fun hh => absurd (Or.inr ⟨rfl, rfl⟩) hh) ?_⟩
      simp only [Spec.tri, diagX, if_true, ne_eq, not_true_eq_false, if_false]
      field_simp

/-- the update and the solve of the off-diagonal block, left and right -/
lemma str_off (hm : TrmmOOk cat tmo) (ht : TrsmOk ts) {W S : Win} {V a : ℕ → ℕ → K} {n f0 nf s0 ns : ℕ} (h : On m0 m W V) (hS : Src m S a) (hd : S.Disj W)
    (hc : Cut n f0 nf s0 ns) (hW : W.r = n) (hW' : W.c = n) (hSr : S.r = n) (hSc : S.c = n) (hz : dA = .nonUnit → ∀ i < n, a i i ≠ 0)
    (hx : cat = .modular ∨ side = .right ∨ diagX dA dB = .unit ∨ ∀ i < n, V i i ≠ -1) {T A1 A2 B2 : ℕ} (hA2 : A2 = S.adr f0 s0) (hB2 : B2 = W.adr f0 s0)
    (hT : T = pick side (W.adr s0 s0) (W.adr f0 f0))
    (hA1 : A1 = pick side (S.adr f0 f0) (S.adr s0 s0)) :
    Run (do
      tmo (oppSide side) u .no (diagX dA dB) nf ns (-1) T W.ld A2 S.ld 1 B2 W.ld
      ts side u .no dA nf ns 1 A1 S.ld B2 W.ld) m (fun _ m' => ∃ z, On m0 m' W z ∧
        (∀ i j, i < f0 ∨ f0 + nf ≤ i ∨ j < s0 ∨ s0 + ns ≤ j → z i j = V i j) ∧
        ∀ i < nf, ∀ j < ns, offSum side u dA (diagX dA dB) f0 nf s0 ns a z i j = V (f0 + i) (s0 + j)) := by
  have h1 := hc.hf
  have h2 := hc.hs
  have h3 := hc.disj
  rw [Run_bind]
  have hm1 : (-1 : K) ≠ 0 := neg_ne_zero.2 one_ne_zero
  cases side with
  | left =>
    refine (trmmO_at hm h.here hS hd .right u .no (diagX dA dB) hm1 one_ne_zero s0 s0 f0 s0 f0 s0 nf ns ns rfl (by omega) (by omega) (by omega)
      (by omega) (by omega) (by omega) (by omega) ?_ hT hA2 hB2).mono (fun _ m1 g1 => ?_)
    · rcases hx with hx | hx | hx | hx
      · exact Or.inl hx
      · cases hx
      · exact Or.inr (Or.inr (Or.inl hx))
      · exact Or.inr (Or.inr (Or.inr (fun i hi => hx _ (by omega))))
    refine (trsmT_at ht (h.trans g1) (hS.on g1 hd) hd .left u .no dA f0 f0 f0 s0 nf ns nf rfl (by omega) (by omega) (by omega) (by omega)
      (fun hd i hi => hz hd _ (by omega)) hA1 hB2).mono (fun _ m2 g2 => ?_)
    obtain ⟨X, g2, hX⟩ := g2
    refine ⟨_, g2, fun i j hh => by rw [upd_out hh, upd_out hh], fun i hi j hj => ?_⟩
    have e1 : ∑ l ∈ range nf, Spec.tri u dA (blk a f0 f0) i l * blk (upd f0 s0 nf ns X (upd f0 s0 nf ns (fun i j =>
        -1 * Spec.sideMul .right ns (Spec.op .no (Spec.tri u (diagX dA dB) (blk V s0 s0))) (blk a f0 s0) i j +
          1 * V (f0 + i) (s0 + j)) V)) f0 s0 l j = Spec.sideMul .left nf (Spec.op .no (Spec.tri u dA (blk a f0 f0))) X i j :=
      sum_congr rfl (fun l hl => by simp only [blk]; rw [upd_in (mem_range.1 hl) hj]; rfl)
    have e2 : ∑ l ∈ range ns, blk a f0 s0 i l * Spec.tri u (diagX dA dB) (blk (upd f0 s0 nf ns X (upd f0 s0 nf ns (fun i j =>
        -1 * Spec.sideMul .right ns (Spec.op .no (Spec.tri u (diagX dA dB) (blk V s0 s0))) (blk a f0 s0) i j +
          1 * V (f0 + i) (s0 + j)) V)) s0 s0) l j = Spec.sideMul .right ns (Spec.op .no (Spec.tri u (diagX dA dB) (blk V s0 s0))) (blk a f0 s0) i j :=
      sum_congr rfl (fun l hl => by
        congr 1
        refine tri_congr (n := ns) (fun i hi j hj => ?_) (mem_range.1 hl) hj
        simp only [blk]; rw [upd_out (by omega), upd_out (by omega)])
    unfold offSum
    simp only []
    rw [e1, e2, hX i hi j hj, upd_in hi hj]
    ring
  | right =>
    refine (trmmO_at hm h.here hS hd .left u .no (diagX dA dB) hm1 one_ne_zero f0 f0 f0 s0 f0 s0 nf ns nf rfl (by omega) (by omega) (by omega)
      (by omega) (by omega) (by omega) (by omega) (Or.inr (Or.inl rfl)) hT hA2 hB2).mono (fun _ m1 g1 => ?_)
    refine (trsmT_at ht (h.trans g1) (hS.on g1 hd) hd .right u .no dA s0 s0 f0 s0 nf ns ns rfl (by omega) (by omega) (by omega) (by omega)
      (fun hd i hi => hz hd _ (by omega)) hA1 hB2).mono (fun _ m2 g2 => ?_)
    obtain ⟨X, g2, hX⟩ := g2
    refine ⟨_, g2, fun i j hh => by rw [upd_out hh, upd_out hh], fun i hi j hj => ?_⟩
    have e1 : ∑ l ∈ range ns, blk (upd f0 s0 nf ns X (upd f0 s0 nf ns (fun i j =>
        -1 * Spec.sideMul .left nf (Spec.op .no (Spec.tri u (diagX dA dB) (blk V f0 f0))) (blk a f0 s0) i j +
          1 * V (f0 + i) (s0 + j)) V)) f0 s0 i l * Spec.tri u dA (blk a s0 s0) l j = Spec.sideMul .right ns (Spec.op .no (Spec.tri u dA (blk a s0 s0))) X i j :=
      sum_congr rfl (fun l hl => by simp only [blk]; rw [upd_in hi (mem_range.1 hl)]; rfl)
    have e2 : ∑ l ∈ range nf, Spec.tri u (diagX dA dB) (blk (upd f0 s0 nf ns X (upd f0 s0 nf ns (fun i j =>
        -1 * Spec.sideMul .left nf (Spec.op .no (Spec.tri u (diagX dA dB) (blk V f0 f0))) (blk a f0 s0) i j +
          1 * V (f0 + i) (s0 + j)) V)) f0 f0) i l * blk a f0 s0 l j = Spec.sideMul .left nf (Spec.op .no (Spec.tri u (diagX dA dB) (blk V f0 f0))) (blk a f0 s0) i j :=
      sum_congr rfl (fun l hl => by
        congr 1
        refine tri_congr (n := nf) (fun i hi j hj => ?_) hi (mem_range.1 hl)
        simp only [blk]; rw [upd_out (by omega), upd_out (by omega)])
    unfold offSum
    simp only []
    rw [e1, e2, hX i hi j hj, upd_in hi hj]
    ring

/-- `ftrstr` -/
theorem ftrstr_on (hm : TrmmOOk cat tmo) (ht : TrsmOk ts) : ∀ (fuel n A B : ℕ) (m : Mem K) (a b : ℕ → ℕ → K), n < fuel →
    On m m ⟨B, ldb, n, n⟩ b → Src m ⟨A, lda, n, n⟩ a → (Win.mk A lda n n).Disj ⟨B, ldb, n, n⟩ → (dA = .nonUnit → ∀ i < n, a i i ≠ 0) →
    (cat = .modular ∨ side = .right ∨ diagX dA dB = .unit ∨ ∀ i < n, Spec.tri u dB b i i ≠ -Spec.tri u dA a i i) →
    Run (ftrstr tmo ts side u dA dB lda ldb fuel n A B) m (fun _ m' => ∃ z, On m m' ⟨B, ldb, n, n⟩ z ∧ StrF side u dA dB n a b z) := by
  intro fuel
  induction fuel with
  | zero => intro n A B m a b h; omega
  | succ fuel ih =>
    intro n A B m a b hfu h hA hd hz hx
    unfold ftrstr
    rif hn0
    · exact (Run_pure ..).2 ⟨b, h, fun i hi => by omega, fun i hi => by omega⟩
    rif hn1
    · obtain rfl : n = 1 := by omega
      exact ftrstrBase_on h hA (fun hh => hz hh 0 Nat.one_pos)
    set W : Win := ⟨B, ldb, n, n⟩ with hW
    set S : Win := ⟨A, lda, n, n⟩ with hS
    have hWr : W.r = n := rfl
    have hWc : W.c = n := rfl
    have hSr : S.r = n := rfl
    have hSc : S.c = n := rfl
    generalize hN1 : n / 2 = n1
    generalize hN2 : n - n1 = n2
    have eb : ∀ k, B + k * (ldb + 1) = W.adr k k := fun k => by simp only [hW, Win.adr]; ring
    have ea : ∀ k, A + k * (lda + 1) = S.adr k k := fun k => by simp only [hS, Win.adr]; ring
    have eb0 : B = W.adr 0 0 := by simp [hW, Win.adr]
    have ea0 : A = S.adr 0 0 := by simp [hS, Win.adr]
    simp only [hN2]
    rw [Run_bind]
    have hs1 := h.sub (i0 := 0) (j0 := 0) (r := n1) (c := n1) (by omega) (by omega)
    have wl : (W.sub 0 0 n1 n1) = ⟨B, ldb, n1, n1⟩ := by simp [Win.sub, hW, Win.adr]
    have sl : (S.sub 0 0 n1 n1) = ⟨A, lda, n1, n1⟩ := by simp [Win.sub, hS, Win.adr]
    have sA1 := hA.sub (r := n1) (c := n1) 0 0 (by omega) (by omega)
    have d1 : (S.sub 0 0 n1 n1).Disj (W.sub 0 0 n1 n1) := (hd.sub_left (by omega) (by omega)).sub_right (by omega) (by omega)
    rw [wl] at hs1 d1
    rw [sl] at sA1 d1
    refine (ih n1 A B m _ _ (by omega) hs1 sA1 d1 (fun hd i hi => by simp only [blk, Nat.zero_add]; exact hz hd i (by omega)) ?_).mono (fun _ m1 h1 => ?_)
    · rcases hx with hx | hx | hx | hx
      · exact Or.inl hx
      · exact Or.inr (Or.inl hx)
      · exact Or.inr (Or.inr (Or.inl hx))
      · refine Or.inr (Or.inr (Or.inr (fun i hi => ?_)))
        rw [← tri_blk, ← tri_blk, Nat.zero_add]
        exact hx i (by omega)
    obtain ⟨Z1, h1, hI1⟩ := h1
    have g1 := h.upd (i0 := 0) (j0 := 0) (r := n1) (c := n1) (by omega) (by omega) (wl ▸ h1.step)
    have hA1 := hA.on g1 hd
    have hs2 := g1.sub (i0 := n1) (j0 := n1) (r := n2) (c := n2) (by omega) (by omega)
    have wl2 : (W.sub n1 n1 n2 n2) = ⟨B + n1 * (ldb + 1), ldb, n2, n2⟩ := by rw [eb]; rfl
    have sl2 : (S.sub n1 n1 n2 n2) = ⟨A + n1 * (lda + 1), lda, n2, n2⟩ := by rw [ea]; rfl
    have sA2 := hA1.sub (r := n2) (c := n2) n1 n1 (by omega) (by omega)
    have d2 : (S.sub n1 n1 n2 n2).Disj (W.sub n1 n1 n2 n2) := (hd.sub_left (by omega) (by omega)).sub_right (by omega) (by omega)
    rw [wl2] at hs2 d2
    rw [sl2] at sA2 d2
    have hu : ∀ i j, blk (upd 0 0 n1 n1 Z1 b) n1 n1 i j = blk b n1 n1 i j := fun i j => by
      simp only [blk]; rw [upd_out (by omega)]
    have hu' : blk (upd 0 0 n1 n1 Z1 b) n1 n1 = blk b n1 n1 := by funext i j; exact hu i j
    rw [hu'] at hs2
    rw [Run_bind]
    refine (ih n2 _ _ m1 _ _ (by omega) hs2 sA2 d2 (fun hd i hi => by simp only [blk]; exact hz hd _ (by omega)) ?_).mono (fun _ m2 h2 => ?_)
    · rcases hx with hx | hx | hx | hx
      · exact Or.inl hx
      · exact Or.inr (Or.inl hx)
      · exact Or.inr (Or.inr (Or.inl hx))
      · refine Or.inr (Or.inr (Or.inr (fun i hi => ?_)))
        rw [← tri_blk, ← tri_blk]
        exact hx _ (by omega)
    obtain ⟨Z2, h2, hI2⟩ := h2
    have g2 := g1.upd (i0 := n1) (j0 := n1) (r := n2) (c := n2) (by omega) (by omega) (wl2 ▸ h2.step)
    have hA2 := hA.on g2 hd
    have v1 : ∀ i < n1, ∀ j < n1, upd n1 n1 n2 n2 Z2 (upd 0 0 n1 n1 Z1 b) i j = Z1 i j := fun i hi j hj => by
      rw [upd_out (by omega), upd_in' (by omega)]; rfl
    have v2 : ∀ i < n2, ∀ j < n2, upd n1 n1 n2 n2 Z2 (upd 0 0 n1 n1 Z1 b) (n1 + i) (n1 + j) = Z2 i j := fun i hi j hj => by
      rw [upd_in hi hj]
    have v3 : ∀ i j, (i < n1 ∧ n1 ≤ j ∨ n1 ≤ i ∧ j < n1) → upd n1 n1 n2 n2 Z2 (upd 0 0 n1 n1 Z1 b) i j = b i j := fun i j hh => by
      rw [upd_out (by omega), upd_out (by omega)]
    generalize upd n1 n1 n2 n2 Z2 (upd 0 0 n1 n1 Z1 b) = V at g2 v1 v2 v3
    have hI1' : StrF side u dA dB n1 (blk a 0 0) (blk b 0 0) (blk V 0 0) :=
      hI1.congr (fun _ _ _ _ => rfl) (fun _ _ _ _ => rfl) (fun i hi j hj => by simp only [blk, Nat.zero_add]; exact (v1 i hi j hj).symm)
    have hI2' : StrF side u dA dB n2 (blk a n1 n1) (blk b n1 n1) (blk V n1 n1) :=
      hI2.congr (fun _ _ _ _ => rfl) (fun _ _ _ _ => rfl) (fun i hi j hj => (v2 i hi j hj).symm)
    have hx' : cat = .modular ∨ side = .right ∨ diagX dA dB = .unit ∨ ∀ i < n, V i i ≠ -1 := by
      rcases hx with hx | hx | hx | hx
      · exact Or.inl hx
      · exact Or.inr (Or.inl hx)
      · exact Or.inr (Or.inr (Or.inl hx))
      · by_cases hX : diagX dA dB = .unit
        · exact Or.inr (Or.inr (Or.inl hX))
        have hX : diagX dA dB = .nonUnit := by cases hh : diagX dA dB; rfl; exact absurd hh hX
        have key : ∀ i < n, Spec.tri u dA a i i * Spec.tri u (diagX dA dB) V i i = Spec.tri u dB b i i := by
          intro i hi
          by_cases hlt : i < n1
          · have := hI1'.diag hlt
            simpa only [← tri_blk, Nat.zero_add] using this
          · have := hI2'.diag (i := i - n1) (by omega)
            rw [← tri_blk, ← tri_blk, ← tri_blk] at this
            rwa [show n1 + (i - n1) = i by omega] at this
        refine Or.inr (Or.inr (Or.inr (fun i hi hV => hx i hi ?_)))
        rw [← key i hi, hX]
        have : Spec.tri u .nonUnit V i i = V i i := by simp [Spec.tri]
        rw [this, hV, mul_neg_one]
    cases u with
    | upper =>
      have hc : Cut n 0 n1 n1 n2 := ⟨by omega, Or.inl ⟨rfl, rfl⟩⟩
      have key := str_off (u := .upper) (dB := dB) (side := side) (A2 := A + n1) (B2 := B + n1)
        (T := pick side (B + n1 * (ldb + 1)) B) (A1 := pick side A (A + n1 * (lda + 1)))
        hm ht g2 hA2 hd hc rfl rfl rfl rfl hz hx' (by simp [hS, Win.adr]) (by simp [hW, Win.adr])
        (by cases side; exacts [eb n1, eb0]) (by cases side; exacts [ea0, ea n1])
      have fin : ∀ m' : Mem K, (∃ z, On m m' W z ∧ (∀ i j, i < 0 ∨ 0 + n1 ≤ i ∨ j < n1 ∨ n1 + n2 ≤ j → z i j = V i j) ∧
          ∀ i < n1, ∀ j < n2, offSum side .upper dA (diagX dA dB) 0 n1 n1 n2 a z i j = V (0 + i) (n1 + j)) → ∃ z, On m m' W z ∧ StrF side .upper dA dB n a b z := by
        intro m' hh
        obtain ⟨z, g3, o, e⟩ := hh
        refine ⟨z, g3, str_split hc (fun i hi j hj => by simp only [below]; omega) ?_ ?_ ?_ ?_⟩
        · exact hI1'.congr (fun _ _ _ _ => rfl) (fun _ _ _ _ => rfl) (fun i hi j hj => (o _ _ (by omega)).symm)
        · exact hI2'.congr (fun _ _ _ _ => rfl) (fun _ _ _ _ => rfl) (fun i hi j hj => (o _ _ (by omega)).symm)
        · exact fun i hi j hj => (e i hi j hj).trans (v3 _ _ (by omega))
        · exact fun i hi j hj => (o _ _ (by omega)).trans (v3 _ _ (by omega))
      cases side with
      | left =>
        rw [if_pos (Or.inl ⟨rfl, rfl⟩)]
        exact key.mono (fun _ m' hh => fin m' hh)
      | right =>
        rw [if_neg (by simp)]
        exact key.mono (fun _ m' hh => fin m' hh)
    | lower =>
      have hc : Cut n n1 n2 0 n1 := ⟨by omega, Or.inr ⟨rfl, rfl⟩⟩
      have key := str_off (u := .lower) (dB := dB) (side := side) (A2 := A + n1 * lda) (B2 := B + n1 * ldb)
        (T := pick side B (B + n1 * (ldb + 1))) (A1 := pick side (A + n1 * (lda + 1)) A)
        hm ht g2 hA2 hd hc rfl rfl rfl rfl hz hx' (by simp [hS, Win.adr]) (by simp [hW, Win.adr])
        (by cases side; exacts [eb0, eb n1]) (by cases side; exacts [ea n1, ea0])
      have fin : ∀ m' : Mem K, (∃ z, On m m' W z ∧ (∀ i j, i < n1 ∨ n1 + n2 ≤ i ∨ j < 0 ∨ 0 + n1 ≤ j → z i j = V i j) ∧
          ∀ i < n2, ∀ j < n1, offSum side .lower dA (diagX dA dB) n1 n2 0 n1 a z i j = V (n1 + i) (0 + j)) → ∃ z, On m m' W z ∧ StrF side .lower dA dB n a b z := by
        intro m' hh
        obtain ⟨z, g3, o, e⟩ := hh
        refine ⟨z, g3, str_split hc (fun i hi j hj => by simp only [below]; omega) ?_ ?_ ?_ ?_⟩
        · exact hI2'.congr (fun _ _ _ _ => rfl) (fun _ _ _ _ => rfl) (fun i hi j hj => (o _ _ (by omega)).symm)
        · exact hI1'.congr (fun _ _ _ _ => rfl) (fun _ _ _ _ => rfl) (fun i hi j hj => (o _ _ (by omega)).symm)
        · exact fun i hi j hj => (e i hi j hj).trans (v3 _ _ (by omega))
        · exact fun i hi j hj => (o _ _ (by omega)).trans (v3 _ _ (by omega))
      cases side with
      | left =>
        rw [if_neg (by simp)]
        exact key.mono (fun _ m' hh => fin m' hh)
      | right =>
        rw [if_pos (Or.inr ⟨rfl, rfl⟩)]
        exact key.mono (fun _ m' hh => fin m' hh)

end

/-! ### `ftrssyr2k` -/

/-- contract of `fsyr2k`: right in the selected triangle; the other one is scratch space -/
def Syr2Ok (s2 : Syr2Fn K) : Prop := ∀ (m : Mem K) u t n k alpha A lda B ldb beta C ldc (V x y : ℕ → ℕ → K), k ≠ 0 → On m m ⟨C, ldc, n, n⟩ V →
  OSrc m t n k A lda x → OSrc m t n k B ldb y → (aw t n k A lda).Disj ⟨C, ldc, n, n⟩ → (aw t n k B ldb).Disj ⟨C, ldc, n, n⟩ →
  Run (s2 u t n k alpha A lda B ldb beta C ldc) m (fun _ m' => ∃ Z, On m m' ⟨C, ldc, n, n⟩ Z ∧
    ∀ i < n, ∀ j < n, Spec.inHalf u i j → Z i j = sy2Val k alpha beta x y V i j)

lemma fsyr2k_Syr2Ok (cat : Cat) {g : GemmFn K} (hg : GemmOk g) : Syr2Ok (fsyr2k cat g) := by
  intro m u t n k alpha A lda B ldb beta C ldc V x y hk h hA hB hdA hdB
  refine (fsyr2k_on cat hg alpha beta h hA hB hdA hdB).mono (fun _ m' hh => ⟨_, hh, fun i hi j hj c => ?_⟩)
  simp only [halfUpd, if_pos c, sy2Val, if_neg hk]

/-- the transposition that makes the stored triangle a lower one -/
def lowTr : Uplo → Tr
  | .upper => .yes
  | .lower => .no

/-- one of two values, according to the triangle -/
def pick' {α : Type} : Uplo → α → α → α
  | .upper, x, _ => x
  | .lower, _, y => y

/-- the stored triangle as a lower triangular matrix -/
def lowM (u : Uplo) (d : Diag) (a : ℕ → ℕ → K) : ℕ → ℕ → K := Spec.op (lowTr u) (Spec.tri u d a)

/-- `z` solves `M Yᵀ + Y Mᵀ = b` -/
def Sy2F (u : Uplo) (dA : Diag) (n : ℕ) (a b z : ℕ → ℕ → K) : Prop := ∀ p < n, ∀ q ≤ p,
  ∑ l ∈ range n, (lowM u dA a p l * lowM u .nonUnit z q l + lowM u .nonUnit z p l * lowM u dA a q l) = Spec.op (lowTr u) b p q

section
variable {u : Uplo} {d dA : Diag} {a b z : ℕ → ℕ → K} {n n1 n2 f p l q : ℕ}

omit [DecidableEq K] in
lemma lowM_zero (h : p < l) : lowM u d a p l = 0 := by
  cases u
  · exact tri_above (u := .upper) (i := l) (j := p) h
  · exact tri_above (u := .lower) (i := p) (j := l) h

omit [DecidableEq K] in
lemma lowM_blk : lowM u d a (f + p) (f + l) = lowM u d (blk a f f) p l := by
  cases u
  · exact tri_blk (u := .upper) a f l p
  · exact tri_blk (u := .lower) a f p l

omit [DecidableEq K] in
lemma lowM_off (h : l < p) : lowM u d a p l = Spec.op (lowTr u) a p l := by
  cases u
  · exact tri_below (u := .upper) (i := l) (j := p) h
  · exact tri_below (u := .lower) (i := p) (j := l) h

omit [DecidableEq K] in
lemma lowM_congr {a' : ℕ → ℕ → K} (h : ∀ i < n, ∀ j < n, a i j = a' i j) (hp : p < n) (hl : l < n) : lowM u d a p l = lowM u d a' p l := by
  cases u
  · exact tri_congr (u := .upper) h hl hp
  · exact tri_congr (u := .lower) h hp hl

omit [DecidableEq K] in
lemma Sy2F.congr {a' b' z' : ℕ → ℕ → K} (h : Sy2F u dA n a b z) (ha : ∀ i < n, ∀ j < n, a i j = a' i j)
    (hb : ∀ i < n, ∀ j < n, Spec.inHalf u i j → b i j = b' i j) (hz : ∀ i < n, ∀ j < n, z i j = z' i j) : Sy2F u dA n a' b' z' := by
  intro p hp q hq
  have e : Spec.op (lowTr u) b p q = Spec.op (lowTr u) b' p q := by
    cases u
    · exact hb q (by omega) p hp hq
    · exact hb p hp q (by omega) hq
  rw [← e, ← h p hp q hq]
  refine sum_congr rfl (fun l hl => ?_)
  have hl := mem_range.1 hl
  rw [lowM_congr ha hp hl, lowM_congr hz hp hl, lowM_congr ha (p := q) (by omega) hl, lowM_congr hz (p := q) (by omega) hl]

omit [DecidableEq K] in
lemma sy2_split (hn : n1 + n2 = n) {c : ℕ → ℕ → K} (h1 : Sy2F u dA n1 (blk a 0 0) (blk b 0 0) (blk z 0 0))
    (h2 : Sy2F u dA n2 (blk a n1 n1) c (blk z n1 n1))
    (ho : ∀ i < n2, ∀ q < n1, ∑ l ∈ range n1, (Spec.op (lowTr u) a (n1 + i) l * lowM u .nonUnit (blk z 0 0) q l +
      Spec.op (lowTr u) z (n1 + i) l * lowM u dA (blk a 0 0) q l) = Spec.op (lowTr u) b (n1 + i) q)
    (hc : ∀ i < n2, ∀ j ≤ i, Spec.op (lowTr u) c i j = Spec.op (lowTr u) b (n1 + i) (n1 + j) -
      ∑ l ∈ range n1, (Spec.op (lowTr u) a (n1 + i) l * Spec.op (lowTr u) z (n1 + j) l +
        Spec.op (lowTr u) z (n1 + i) l * Spec.op (lowTr u) a (n1 + j) l)) : Sy2F u dA n a b z := by
  have z0 : ∀ (d : Diag) (x : ℕ → ℕ → K) p l, lowM u d (blk x 0 0) p l = lowM u d x p l := fun d x p l => by
    rw [← lowM_blk, Nat.zero_add, Nat.zero_add]
  subst hn
  intro p hp q hq
  rw [sum_range_add]
  by_cases c1 : p < n1
  · have : ∑ x ∈ range n2, (lowM u dA a p (n1 + x) * lowM u .nonUnit z q (n1 + x) + lowM u .nonUnit z p (n1 + x) * lowM u dA a q (n1 + x)) = 0 :=
      sum_eq_zero (fun l _ => by rw [lowM_zero (p := p) (by omega), lowM_zero (p := p) (by omega), zero_mul, zero_mul, add_zero])
    rw [this, add_zero]
    have := h1 p c1 q hq
    simp only [z0] at this
    rw [this]
    cases u <;> simp [Spec.op, lowTr, blk]
  · obtain ⟨i, rfl⟩ : ∃ i, p = n1 + i := ⟨p - n1, by omega⟩
    by_cases c2 : q < n1
    · have : ∑ x ∈ range n2, (lowM u dA a (n1 + i) (n1 + x) * lowM u .nonUnit z q (n1 + x) +
          lowM u .nonUnit z (n1 + i) (n1 + x) * lowM u dA a q (n1 + x)) = 0 :=
        sum_eq_zero (fun l _ => by rw [lowM_zero (p := q) (by omega), lowM_zero (p := q) (by omega), mul_zero, mul_zero, add_zero])
      rw [this, add_zero, ← ho i (by omega) q c2]
      refine sum_congr rfl (fun l hl => ?_)
      have hl := mem_range.1 hl
      rw [z0, z0, lowM_off (p := n1 + i) (by omega), lowM_off (p := n1 + i) (by omega)]
    · obtain ⟨j, rfl⟩ : ∃ j, q = n1 + j := ⟨q - n1, by omega⟩
      have e2 : ∑ x ∈ range n2, (lowM u dA a (n1 + i) (n1 + x) * lowM u .nonUnit z (n1 + j) (n1 + x) +
          lowM u .nonUnit z (n1 + i) (n1 + x) * lowM u dA a (n1 + j) (n1 + x)) = Spec.op (lowTr u) c i j := by
        rw [← h2 i (by omega) j (by omega)]
        exact sum_congr rfl (fun l _ => by simp only [lowM_blk])
      rw [e2, hc i (by omega) j (by omega), ← add_sub_assoc]
      have e1 : ∑ x ∈ range n1, (lowM u dA a (n1 + i) x * lowM u .nonUnit z (n1 + j) x + lowM u .nonUnit z (n1 + i) x * lowM u dA a (n1 + j) x) =
          ∑ l ∈ range n1, (Spec.op (lowTr u) a (n1 + i) l * Spec.op (lowTr u) z (n1 + j) l +
        Spec.op (lowTr u) z (n1 + i) l * Spec.op (lowTr u) a (n1 + j) l) := sum_congr rfl (fun l hl => by
          have hl := mem_range.1 hl
          rw [lowM_off (by omega), lowM_off (by omega), lowM_off (by omega), lowM_off (by omega)])
      rw [e1]
      ring

end

section
variable {m0 m : Mem K} {cat : Cat} {tmo : TrOFn K} {ts : TrFn K} {s2 : Syr2Fn K} {u : Uplo} {dA : Diag} {lda ldb : ℕ}

/-- base case -/
lemma ftrssyr2kBase_on {A B : ℕ} {a b : ℕ → ℕ → K} (h2 : (2 : K) ≠ 0) (h : On m m ⟨B, ldb, 1, 1⟩ b) (hA : Src m ⟨A, lda, 1, 1⟩ a)
    (hz : dA = .nonUnit → a 0 0 ≠ 0) :
    Run (ftrssyr2kBase dA A B) m (fun _ m' => ∃ z, On m m' ⟨B, ldb, 1, 1⟩ z ∧ Sy2F u dA 1 a b z) := by
  have okA : m.ok A = true := by simpa [Win.adr] using hA.ok.adr (i := 0) (j := 0) Nat.one_pos Nat.one_pos
  have okB : m.ok B = true := by simpa [Win.adr] using h.ok'.adr (i := 0) (j := 0) Nat.one_pos Nat.one_pos
  have vA : m.val A = a 0 0 := by simpa [Win.adr] using hA.val 0 Nat.one_pos 0 Nat.one_pos
  have vB : m.val B = b 0 0 := by simpa [Win.adr] using h.val (i := 0) (j := 0) Nat.one_pos Nat.one_pos
  have st : ∀ x : K, On m (m.set B x) ⟨B, ldb, 1, 1⟩ (fun _ _ => x) := by
    intro x
    have hi := h.inj
    refine ⟨h.wf, h.ok, h.ld, rfl, le_rfl, ?_, ?_⟩
    · intro i hi j hj
      have hi : i = 0 := by simpa using hi
      have hj : j = 0 := by simpa using hj
      subst hi hj
      simp [Mem.set, Win.adr]
    · intro x _ hx
      have : x ≠ B := by
        rintro rfl
        exact hx ⟨0, Nat.one_pos, 0, Nat.one_pos, by simp [Win.adr]⟩
      simp [Mem.set, Function.update_of_ne this]
  unfold ftrssyr2kBase
  cases dA with
  | unit =>
    simp only [Run_bind, Run_pure, Run_load, okB, true_and, vB, Run_liftE, divE, Ok_bind, Ok_invE, Ok_pure, Run_store]
    refine ⟨h2, _, st _, fun p hp q hq => ?_⟩
    obtain rfl : p = 0 := by omega
    obtain rfl : q = 0 := by omega
    cases u <;> simp [lowM, Spec.op, lowTr, Spec.tri] <;> field_simp <;> ring
  | nonUnit =>
    have hz := hz rfl
    simp only [Run_bind, Run_pure, Run_load, okA, okB, true_and, vA, vB, Run_liftE, divE, Ok_bind, Ok_invE, Ok_pure, Run_store]
    refine ⟨mul_ne_zero h2 hz, _, st _, fun p hp q hq => ?_⟩
    obtain rfl : p = 0 := by omega
    obtain rfl : q = 0 := by omega
    cases u <;> simp [lowM, Spec.op, lowTr, Spec.tri] <;> field_simp <;> ring

/-- the off-diagonal block of the selected triangle -/
def offPtr (u : Uplo) (X ld n1 : ℕ) : ℕ := match u with
  | .upper => X + n1
  | .lower => X + n1 * ld

omit [Field K] [DecidableEq K] in
lemma off_src {X ld n n1 n2 : ℕ} {x : ℕ → ℕ → K} (h : Src m ⟨X, ld, n, n⟩ x) (hn : n1 + n2 = n) :
    OSrc m (lowTr u) n2 n1 (offPtr u X ld n1) ld (fun i l => Spec.op (lowTr u) x (n1 + i) l) := by
  have hl : n ≤ ld := h.ld
  cases u with
  | upper =>
    have := h.sub (r := n1) (c := n2) 0 n1 (by simp only []; omega) (by simp only []; omega)
    have e : (Win.mk X ld n n).sub 0 n1 n1 n2 = ⟨X + n1, ld, n1, n2⟩ := by simp [Win.sub, Win.adr]
    rw [e] at this
    refine ⟨this.ok, by simp only [lowTr, opc]; omega, fun i hi l hl => ?_⟩
    have := this.val l hl i hi
    simpa [blk, Win.adr, opAdr, lowTr, offPtr, Spec.op] using this
  | lower =>
    have := h.sub (r := n2) (c := n1) n1 0 (by simp only []; omega) (by simp only []; omega)
    have e : (Win.mk X ld n n).sub n1 0 n2 n1 = ⟨X + n1 * ld, ld, n2, n1⟩ := by simp [Win.sub, Win.adr]
    rw [e] at this
    refine ⟨this.ok, by simp only [lowTr, opc]; omega, fun i hi l hl => ?_⟩
    have := this.val i hi l hl
    simpa [blk, Win.adr, opAdr, lowTr, offPtr, Spec.op] using this

lemma off_win {X ld n n1 n2 : ℕ} (hn : n1 + n2 = n) : aw (lowTr u) n2 n1 (offPtr u X ld n1) ld =
    (Win.mk X ld n n).sub (pick' u 0 n1) (pick' u n1 0) (pick' u n1 n2) (pick' u n2 n1) := by
  cases u <;> simp [Win.sub, Win.adr, aw, lowTr, offPtr, pick', opr, opc]

/-- what the update and the solve of the off-diagonal block do -/
def Sy2Off (u : Uplo) (dA : Diag) (n1 n2 : ℕ) (a V z : ℕ → ℕ → K) : Prop :=
  (∀ i j, i < n1 ∧ j < n1 ∨ n1 ≤ i ∧ n1 ≤ j → z i j = V i j) ∧
  ∀ i < n2, ∀ q < n1, ∑ l ∈ range n1, (Spec.op (lowTr u) a (n1 + i) l * lowM u .nonUnit (blk z 0 0) q l +
      Spec.op (lowTr u) z (n1 + i) l * lowM u dA (blk a 0 0) q l) = Spec.op (lowTr u) V (n1 + i) q

lemma sy2_off_upper (hm : TrmmOOk cat tmo) (ht : TrsmOk ts) {W S : Win} {V a : ℕ → ℕ → K} {n n1 n2 : ℕ} (h : On m0 m W V) (hS : Src m S a) (hd : S.Disj W)
    (hn : n1 + n2 = n) (hW : W.r = n) (hW' : W.c = n) (hSr : S.r = n) (hSc : S.c = n) (hz : dA = .nonUnit → ∀ i < n, a i i ≠ 0)
    {A A2 B B2 : ℕ} (hA : A = S.adr 0 0) (hA2 : A2 = S.adr 0 n1) (hB : B = W.adr 0 0) (hB2 : B2 = W.adr 0 n1) :
    Run (tmo .left .upper .yes .nonUnit n1 n2 (-1) B W.ld A2 S.ld 1 B2 W.ld) m (fun _ m1 =>
      Run (ts .left .upper .yes dA n1 n2 1 A S.ld B2 W.ld) m1 (fun _ m2 => ∃ z, On m0 m2 W z ∧ Sy2Off .upper dA n1 n2 a V z)) := by
  have hm1 : (-1 : K) ≠ 0 := neg_ne_zero.2 one_ne_zero
  refine (trmmO_at hm h.here hS hd .left .upper .yes .nonUnit hm1 one_ne_zero 0 0 0 n1 0 n1 n1 n2 n1 rfl (by omega) (by omega) (by omega)
    (by omega) (by omega) (by omega) (by omega) (Or.inr (Or.inl rfl)) hB hA2 hB2).mono (fun _ m1 g1 => ?_)
  refine (trsmT_at ht (h.trans g1) (hS.on g1 hd) hd .left .upper .yes dA 0 0 0 n1 n1 n2 n1 rfl (by omega) (by omega) (by omega) (by omega)
    (fun hd i hi => hz hd _ (by omega)) hA hB2).mono (fun _ m2 g2 => ?_)
  obtain ⟨X, g2, hX⟩ := g2
  refine ⟨_, g2, fun i j hh => by rw [upd_out (by omega), upd_out (by omega)], fun i hi q hq => ?_⟩
  have := hX q hq i hi
  rw [upd_in hq hi, one_mul] at this
  rw [sum_add_distrib]
  have e1 : ∀ z : ℕ → ℕ → K, (∀ l < n1, z l (n1 + i) = X l i) → ∑ l ∈ range n1, Spec.op (lowTr .upper) z (n1 + i) l * lowM .upper dA (blk a 0 0) q l =
      Spec.sideMul .left n1 (Spec.op .yes (Spec.tri .upper dA (blk a 0 0))) X q i := by
    intro z hz
    refine sum_congr rfl (fun l hl => ?_)
    rw [mul_comm]
    congr 1
    exact hz l (mem_range.1 hl)
  have e2 : ∀ z : ℕ → ℕ → K, (∀ i < n1, ∀ j < n1, z i j = V i j) → ∑ l ∈ range n1, Spec.op (lowTr .upper) a (n1 + i) l * lowM .upper .nonUnit (blk z 0 0) q l =
      Spec.sideMul .left n1 (Spec.op .yes (Spec.tri .upper .nonUnit (blk V 0 0))) (blk a 0 n1) q i := by
    intro z hz
    refine sum_congr rfl (fun l hl => ?_)
    rw [mul_comm, lowM_congr (n := n1) (a' := blk V 0 0) (fun i hi j hj => by simp only [blk, Nat.zero_add]; exact hz i hi j hj) hq (mem_range.1 hl)]
    congr 1
    simp [Spec.op, lowTr, blk]
  rw [e1 _ (fun l hl => by have := upd_in (i0 := 0) (j0 := n1) (r := n1) (c := n2) (g := X) (V := (upd 0 n1 n1 n2 (fun i j => -1 * Spec.sideMul .left n1 (Spec.op .yes (Spec.tri .upper .nonUnit (blk V 0 0))) (blk a 0 n1) i j + 1 * V (0 + i) (n1 + j)) V)) hl hi; rwa [Nat.zero_add] at this),
    e2 _ (fun i hi j hj => by rw [upd_out (by omega), upd_out (by omega)]), this]
  simp only [Spec.op, lowTr, Nat.zero_add]
  ring

lemma sy2_off_lower (hm : TrmmOOk cat tmo) (ht : TrsmOk ts) {W S : Win} {V a : ℕ → ℕ → K} {n n1 n2 : ℕ} (h : On m0 m W V) (hS : Src m S a) (hd : S.Disj W)
    (hn : n1 + n2 = n) (hW : W.r = n) (hW' : W.c = n) (hSr : S.r = n) (hSc : S.c = n) (hz : dA = .nonUnit → ∀ i < n, a i i ≠ 0)
    (hx : cat = .modular)
    {A A2 B B2 : ℕ} (hA : A = S.adr 0 0) (hA2 : A2 = S.adr n1 0) (hB : B = W.adr 0 0) (hB2 : B2 = W.adr n1 0) :
    Run (tmo .right .lower .yes .nonUnit n2 n1 (-1) B W.ld A2 S.ld 1 B2 W.ld) m (fun _ m1 =>
      Run (ts .right .lower .yes dA n2 n1 1 A S.ld B2 W.ld) m1 (fun _ m2 => ∃ z, On m0 m2 W z ∧ Sy2Off .lower dA n1 n2 a V z)) := by
  have hm1 : (-1 : K) ≠ 0 := neg_ne_zero.2 one_ne_zero
  refine (trmmO_at hm h.here hS hd .right .lower .yes .nonUnit hm1 one_ne_zero 0 0 n1 0 n1 0 n2 n1 n1 rfl (by omega) (by omega) (by omega)
    (by omega) (by omega) (by omega) (by omega) (Or.inl hx) hB hA2 hB2).mono (fun _ m1 g1 => ?_)
  refine (trsmT_at ht (h.trans g1) (hS.on g1 hd) hd .right .lower .yes dA 0 0 n1 0 n2 n1 n1 rfl (by omega) (by omega) (by omega) (by omega)
    (fun hd i hi => hz hd _ (by omega)) hA hB2).mono (fun _ m2 g2 => ?_)
  obtain ⟨X, g2, hX⟩ := g2
  refine ⟨_, g2, fun i j hh => by rw [upd_out (by omega), upd_out (by omega)], fun i hi q hq => ?_⟩
  have := hX i hi q hq
  rw [upd_in hi hq, one_mul] at this
  rw [sum_add_distrib]
  have e1 : ∀ z : ℕ → ℕ → K, (∀ l < n1, z (n1 + i) l = X i l) → ∑ l ∈ range n1, Spec.op (lowTr .lower) z (n1 + i) l * lowM .lower dA (blk a 0 0) q l =
      Spec.sideMul .right n1 (Spec.op .yes (Spec.tri .lower dA (blk a 0 0))) X i q := by
    intro z hz
    refine sum_congr rfl (fun l hl => ?_)
    congr 1
    exact hz l (mem_range.1 hl)
  have e2 : ∀ z : ℕ → ℕ → K, (∀ i < n1, ∀ j < n1, z i j = V i j) → ∑ l ∈ range n1, Spec.op (lowTr .lower) a (n1 + i) l * lowM .lower .nonUnit (blk z 0 0) q l =
      Spec.sideMul .right n1 (Spec.op .yes (Spec.tri .lower .nonUnit (blk V 0 0))) (blk a n1 0) i q := by
    intro z hz
    refine sum_congr rfl (fun l hl => ?_)
    rw [lowM_congr (n := n1) (a' := blk V 0 0) (fun i hi j hj => by simp only [blk, Nat.zero_add]; exact hz i hi j hj) hq (mem_range.1 hl)]
    congr 1
    simp [Spec.op, lowTr, blk]
  rw [e1 _ (fun l hl => by have := upd_in (i0 := n1) (j0 := 0) (r := n2) (c := n1) (g := X) (V := (upd n1 0 n2 n1 (fun i j => -1 * Spec.sideMul .right n1 (Spec.op .yes (Spec.tri .lower .nonUnit (blk V 0 0))) (blk a n1 0) i j + 1 * V (n1 + i) (0 + j)) V)) hi hl; rwa [Nat.zero_add] at this),
    e2 _ (fun i hi j hj => by rw [upd_out (by omega), upd_out (by omega)]), this]
  simp only [Spec.op, lowTr, Nat.zero_add]
  ring

/-- `ftrssyr2k` -/
theorem ftrssyr2k_on (h2 : (2 : K) ≠ 0) (hm : TrmmOOk cat tmo) (ht : TrsmOk ts) (hs2 : Syr2Ok s2) (hx : cat = .modular ∨ u = .upper) :
    ∀ (fuel n A B : ℕ) (m : Mem K) (a b : ℕ → ℕ → K), n < fuel →
    On m m ⟨B, ldb, n, n⟩ b → Src m ⟨A, lda, n, n⟩ a → (Win.mk A lda n n).Disj ⟨B, ldb, n, n⟩ → (dA = .nonUnit → ∀ i < n, a i i ≠ 0) →
    Run (ftrssyr2k tmo ts s2 u dA lda ldb fuel n A B) m (fun _ m' => ∃ z, On m m' ⟨B, ldb, n, n⟩ z ∧ Sy2F u dA n a b z) := by
  intro fuel
  induction fuel with
  | zero => intro n A B m a b h; omega
  | succ fuel ih =>
    intro n A B m a b hfu h hA hd hz
    unfold ftrssyr2k
    rif hn0
    · exact (Run_pure ..).2 ⟨b, h, fun i hi => by omega⟩
    rif hn1
    · obtain rfl : n = 1 := by omega
      exact ftrssyr2kBase_on h2 h hA (fun hh => hz hh 0 Nat.one_pos)
    set W : Win := ⟨B, ldb, n, n⟩ with hW
    set S : Win := ⟨A, lda, n, n⟩ with hS
    have hWr : W.r = n := rfl
    have hWc : W.c = n := rfl
    have hSr : S.r = n := rfl
    have hSc : S.c = n := rfl
    generalize hN1 : n / 2 = n1
    generalize hN2 : n - n1 = n2
    have eb : ∀ k, B + k * (ldb + 1) = W.adr k k := fun k => by simp only [hW, Win.adr]; ring
    have ea : ∀ k, A + k * (lda + 1) = S.adr k k := fun k => by simp only [hS, Win.adr]; ring
    have eb0 : B = W.adr 0 0 := by simp [hW, Win.adr]
    have ea0 : A = S.adr 0 0 := by simp [hS, Win.adr]
    simp only [hN2]
    rw [Run_bind]
    have hs1 := h.sub (i0 := 0) (j0 := 0) (r := n1) (c := n1) (by omega) (by omega)
    have wl : (W.sub 0 0 n1 n1) = ⟨B, ldb, n1, n1⟩ := by simp [Win.sub, hW, Win.adr]
    have sl : (S.sub 0 0 n1 n1) = ⟨A, lda, n1, n1⟩ := by simp [Win.sub, hS, Win.adr]
    have sA1 := hA.sub (r := n1) (c := n1) 0 0 (by omega) (by omega)
    have d1 : (S.sub 0 0 n1 n1).Disj (W.sub 0 0 n1 n1) := (hd.sub_left (by omega) (by omega)).sub_right (by omega) (by omega)
    rw [wl] at hs1 d1
    rw [sl] at sA1 d1
    refine (ih n1 A B m _ _ (by omega) hs1 sA1 d1 (fun hd i hi => by simp only [blk, Nat.zero_add]; exact hz hd i (by omega))).mono (fun _ m1 h1 => ?_)
    obtain ⟨Z1, h1, hI1⟩ := h1
    have g1 := h.upd (i0 := 0) (j0 := 0) (r := n1) (c := n1) (by omega) (by omega) (wl ▸ h1.step)
    have hA1 := hA.on g1 hd
    have v1 : ∀ i < n1, ∀ j < n1, upd 0 0 n1 n1 Z1 b i j = Z1 i j := fun i hi j hj => by
      rw [upd_in' (by omega)]; rfl
    have v2 : ∀ i j, n1 ≤ i ∨ n1 ≤ j → upd 0 0 n1 n1 Z1 b i j = b i j := fun i j hh => by rw [upd_out (by omega)]
    generalize upd 0 0 n1 n1 Z1 b = V at g1 v1 v2
    -- the rest, after the off-diagonal block
    have fin : ∀ m2 : Mem K, (∃ z, On m m2 W z ∧ Sy2Off u dA n1 n2 a V z) →
        Run (do
          s2 u (lowTr u) n2 n1 (-1) (offPtr u A lda n1) lda
            (offPtr u B ldb n1) ldb 1 (B + n1 * (ldb + 1)) ldb
          ftrssyr2k tmo ts s2 u dA lda ldb fuel n2 (A + n1 * (lda + 1)) (B + n1 * (ldb + 1))) m2
            (fun _ m' => ∃ z, On m m' W z ∧ Sy2F u dA n a b z) := by
      rintro m2 ⟨z, g2, o1, o2⟩
      have hA2 := hA.on g2 hd
      have hs2' := g2.sub (i0 := n1) (j0 := n1) (r := n2) (c := n2) (by omega) (by omega)
      have wl2 : (W.sub n1 n1 n2 n2) = ⟨B + n1 * (ldb + 1), ldb, n2, n2⟩ := by rw [eb]; rfl
      have sl2 : (S.sub n1 n1 n2 n2) = ⟨A + n1 * (lda + 1), lda, n2, n2⟩ := by rw [ea]; rfl
      have sA2 := hA2.sub (r := n2) (c := n2) n1 n1 (by omega) (by omega)
      have d2 : (S.sub n1 n1 n2 n2).Disj (W.sub n1 n1 n2 n2) := (hd.sub_left (by omega) (by omega)).sub_right (by omega) (by omega)
      have srcA : OSrc m2 (lowTr u) n2 n1 (offPtr u A lda n1) lda
          (fun i l => Spec.op (lowTr u) a (n1 + i) l) ∧
          (aw (lowTr u) n2 n1 (offPtr u A lda n1) lda).Disj (W.sub n1 n1 n2 n2) := by
        refine ⟨off_src hA2 (by omega), ?_⟩
        rw [off_win (n := n) (by omega)]
        refine (hd.sub_left ?_ ?_).sub_right (by omega) (by omega) <;> cases u <;> simp only [pick'] <;> omega
      have srcB : OSrc m2 (lowTr u) n2 n1 (offPtr u B ldb n1) ldb
          (fun i l => Spec.op (lowTr u) z (n1 + i) l) ∧
          (aw (lowTr u) n2 n1 (offPtr u B ldb n1) ldb).Disj (W.sub n1 n1 n2 n2) := by
        refine ⟨off_src g2.src (by omega), ?_⟩
        rw [off_win (n := n) (by omega)]
        refine Win.sub_Disj g2.inj ?_ ?_ (by simp only [hW]; omega) (by simp only [hW]; omega) ?_ <;> cases u <;> simp only [pick', hW] <;> omega
      rw [wl2] at hs2' d2 srcA srcB
      rw [sl2] at sA2 d2
      rw [Run_bind]
      refine (hs2 m2 u (lowTr u) n2 n1 (-1) _ lda _ ldb 1 _ ldb _ _ _ (by omega) hs2' srcA.1 srcB.1 srcA.2 srcB.2).mono (fun _ m3 h3 => ?_)
      obtain ⟨Z3, h3, e3⟩ := h3
      have g3 := g2.upd (i0 := n1) (j0 := n1) (r := n2) (c := n2) (by omega) (by omega) (wl2 ▸ h3.step)
      have hA3 := hA.on g3 hd
      have sA3 := hA3.sub (r := n2) (c := n2) n1 n1 (by omega) (by omega)
      rw [sl2] at sA3
      refine (ih n2 _ _ m3 _ _ (by omega) h3.here sA3 d2 (fun hd i hi => by simp only [blk]; exact hz hd _ (by omega))).mono (fun _ m4 h4 => ?_)
      obtain ⟨Z4, h4, hI4⟩ := h4
      have g4 := g3.upd (i0 := n1) (j0 := n1) (r := n2) (c := n2) (by omega) (by omega) (wl2 ▸ h4.step)
      refine ⟨_, g4, ?_⟩
      have w1 : ∀ i j, i < n1 ∨ j < n1 → upd n1 n1 n2 n2 Z4 (upd n1 n1 n2 n2 Z3 z) i j = z i j := fun i j hh => by
        rw [upd_out (by omega), upd_out (by omega)]
      have w2 : ∀ i < n2, ∀ j < n2, upd n1 n1 n2 n2 Z4 (upd n1 n1 n2 n2 Z3 z) (n1 + i) (n1 + j) = Z4 i j := fun i hi j hj => upd_in hi hj
      generalize upd n1 n1 n2 n2 Z4 (upd n1 n1 n2 n2 Z3 z) = F at g4 w1 w2
      have opw : ∀ i < n2, ∀ l < n1, Spec.op (lowTr u) F (n1 + i) l = Spec.op (lowTr u) z (n1 + i) l := by
        intro i hi l hl
        cases u
        · exact w1 _ _ (by omega)
        · exact w1 _ _ (by omega)
      refine sy2_split (n1 := n1) (n2 := n2) (c := Z3) (by omega) ?_ ?_ ?_ ?_
      · refine hI1.congr (fun _ _ _ _ => rfl) (fun _ _ _ _ _ => rfl) (fun i hi j hj => ?_)
        simp only [blk, Nat.zero_add]
        rw [w1 _ _ (by omega), o1 _ _ (by omega), v1 i hi j hj]
      · exact hI4.congr (fun _ _ _ _ => rfl) (fun _ _ _ _ _ => rfl) (fun i hi j hj => (w2 i hi j hj).symm)
      · intro i hi q hq
        have := o2 i hi q hq
        have e : Spec.op (lowTr u) V (n1 + i) q = Spec.op (lowTr u) b (n1 + i) q := by cases u <;> exact v2 _ _ (by omega)
        rw [e] at this
        rw [← this]
        refine sum_congr rfl (fun l hl => ?_)
        have hl := mem_range.1 hl
        rw [opw i hi l hl, lowM_congr (n := n1) (a := blk F 0 0) (a' := blk z 0 0)
          (fun i hi j hj => by simp only [blk, Nat.zero_add]; exact w1 _ _ (by omega)) hq hl]
      · intro i hi j hj
        have e : Spec.op (lowTr u) Z3 i j = sy2Val n1 (-1) 1 (fun i l => Spec.op (lowTr u) a (n1 + i) l) (fun i l => Spec.op (lowTr u) z (n1 + i) l)
            (Spec.op (lowTr u) (blk z n1 n1)) i j := by
          cases u
          · rw [show Spec.op (lowTr .upper) Z3 i j = Z3 j i from rfl, e3 j (by omega) i hi hj]
            simp only [sy2Val, Spec.op, lowTr]
            rw [add_comm (∑ l ∈ range n1, _) (∑ l ∈ range n1, _)]
            simp only [mul_comm]
          · exact e3 i hi j (by omega) hj
        rw [e]
        have ez : Spec.op (lowTr u) (blk z n1 n1) i j = Spec.op (lowTr u) b (n1 + i) (n1 + j) := by
          cases u
          · exact (o1 _ _ (by omega)).trans (v2 _ _ (by omega))
          · exact (o1 _ _ (by omega)).trans (v2 _ _ (by omega))
        simp only [sy2Val]
        rw [ez, ← sum_add_distrib]
        have : ∑ l ∈ range n1, (Spec.op (lowTr u) a (n1 + i) l * Spec.op (lowTr u) z (n1 + j) l + Spec.op (lowTr u) z (n1 + i) l * Spec.op (lowTr u) a (n1 + j) l) =
            ∑ l ∈ range n1, (Spec.op (lowTr u) a (n1 + i) l * Spec.op (lowTr u) F (n1 + j) l + Spec.op (lowTr u) F (n1 + i) l * Spec.op (lowTr u) a (n1 + j) l) :=
          sum_congr rfl (fun l hl => by rw [opw i hi l (mem_range.1 hl), opw j (by omega) l (mem_range.1 hl)])
        rw [this]
        ring
    cases u with
    | upper =>
      simp only [Run_bind]
      refine (sy2_off_upper hm ht g1 hA1 hd (n1 := n1) (n2 := n2) (by omega) rfl rfl rfl rfl hz ea0 (by simp [hS, Win.adr]) eb0 (by simp [hW, Win.adr])).mono
        (fun _ m2 hh => ?_)
      refine hh.mono (fun _ m3 hh => ?_)
      have := fin m3 hh
      rwa [Run_bind] at this
    | lower =>
      simp only [Run_bind]
      refine (sy2_off_lower hm ht g1 hA1 hd (n1 := n1) (n2 := n2) (by omega) rfl rfl rfl rfl hz (by simpa using hx) ea0 (by simp [hS, Win.adr]) eb0 (by simp [hW, Win.adr])).mono
        (fun _ m2 hh => ?_)
      refine hh.mono (fun _ m3 hh => ?_)
      have := fin m3 hh
      rwa [Run_bind] at this

end

end Verif.FF
