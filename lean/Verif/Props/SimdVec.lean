import Verif.Proofs.SimdVec5
import Verif.Props.Reduce
import Verif.Core.HeapEx

/-!
# C110, C111: vectorised reduction, scaling and sums of vectors and matrices with machine arithmetic
-/

namespace Verif.Props
open Verif.SimdVec Verif.SimdInt Verif.FP Verif.Reduce Verif.FF

/-! ### C110: `freduce` -/

/-- **C110, in place, for `float` and `double` elements**, every register length, address, number of entries and increment: every entry becomes its
representative modulo `p` in `[mn, mx]`, and nothing else changes. Missing: integers within
`p` of `2^prec`, where the property is false (`C110_alignment_violated`). -/
theorem C110_in_float_partial (fma : Bool) (bits : ℚ → ℚ → ℚ) (prec vs sz p : ℕ) (mn mx : ℤ) (fred : ℚ → ℚ)
    (hprec : 1 ≤ prec) (hvs : 0 < vs) (hsz : 0 < sz) (hp : 2 ≤ p) (hmm : mx - mn = p - 1) (hmin : mn ≤ 0) (hmax : 1 ≤ mx)
    (m : Mem ℚ) (n A incX : ℕ) (z : ℕ → ℤ) (hm : WF m) (hA : OkIn m (vw A incX n)) (hi : 0 < incX)
    (hz : ∀ i < n, m.val (A + i * incX) = ((z i : ℤ) : ℚ) ∧ |z i| + p < 2 ^ prec) :
    Run (freduceIn (fltArith fma bits prec vs sz p mn mx fred) n A incX) m
      (fun _ m' => Step m m' (vw A incX n) (fun i _ => ((canon p mn (z i) : ℤ) : ℚ))) :=
  freduceIn_spec (sound_flt fma bits prec vs sz p mn mx fred hprec hvs hsz hp hmm hmin hmax) z hm hA hi hz

/-- **C110, out of place, for `float` and `double` elements**: `A ← B mod p`, for `A` equal to or disjoint from `B`; the reduction of the field
(`fred`, used for short vectors with increments) being the canonical one. -/
theorem C110_out_float_partial (fma : Bool) (bits : ℚ → ℚ → ℚ) (prec vs sz p : ℕ) (mn mx : ℤ) (fred : ℚ → ℚ)
    (hprec : 1 ≤ prec) (hvs : 0 < vs) (hsz : 0 < sz) (hp : 2 ≤ p) (hmm : mx - mn = p - 1) (hmin : mn ≤ 0) (hmax : 1 ≤ mx)
    (hfred : ∀ z : ℤ, |z| + p < 2 ^ prec → fred (((z : ℤ) : ℚ)) = ((canon p mn (z) : ℤ) : ℚ))
    (m : Mem ℚ) (n A incX B incY : ℕ) (z : ℕ → ℤ) (hm : WF m) (hA : OkIn m (vw A incX n)) (hB : OkIn m (vw B incY n))
    (hi : 0 < incX) (hs : (vw B incY n).Safe (vw A incX n))
    (hz : ∀ i < n, m.val (B + i * incY) = ((z i : ℤ) : ℚ) ∧ |z i| + p < 2 ^ prec) :
    Run (freduceOut (fltArith fma bits prec vs sz p mn mx fred) n B incY A incX) m
      (fun _ m' => Step m m' (vw A incX n) (fun i _ => ((canon p mn (z i) : ℤ) : ℚ))) :=
  freduceOut_spec (sound_flt fma bits prec vs sz p mn mx fred hprec hvs hsz hp hmm hmin hmax) hfred z hm hA hB hi hs hz

/-- **C110, matrices, for `float` and `double` elements**, in place and out of place. -/
theorem C110_matrix_float_partial (fma : Bool) (bits : ℚ → ℚ → ℚ) (prec vs sz p : ℕ) (mn mx : ℤ) (fred : ℚ → ℚ)
    (hprec : 1 ≤ prec) (hvs : 0 < vs) (hsz : 0 < sz) (hp : 2 ≤ p) (hmm : mx - mn = p - 1) (hmin : mn ≤ 0) (hmax : 1 ≤ mx)
    (m : Mem ℚ) (r c A lda B ldb : ℕ) (z : ℕ → ℕ → ℤ) (hA : OkIn m ⟨A, lda, r, c⟩) (hld : c ≤ lda)
    (hB : OkIn m ⟨B, ldb, r, c⟩) (hs : (Win.mk B ldb r c).Disj ⟨A, lda, r, c⟩ ∨ B = A ∧ ldb = lda)
    (hz : ∀ i < r, ∀ j < c, m.val (B + i * ldb + j) = ((z i j : ℤ) : ℚ) ∧ |z i j| + p < 2 ^ prec) :
    Run (freduceMatOut (fltArith fma bits prec vs sz p mn mx fred) r c B ldb A lda) m
      (fun _ m' => Step m m' ⟨A, lda, r, c⟩ (fun i j => ((canon p mn (z i j) : ℤ) : ℚ))) ∧
    (B = A ∧ ldb = lda → Run (freduceMat (fltArith fma bits prec vs sz p mn mx fred) r c A lda) m
      (fun _ m' => Step m m' ⟨A, lda, r, c⟩ (fun i j => ((canon p mn (z i j) : ℤ) : ℚ)))) := by
  refine ⟨freduceMatOut_spec (sound_flt fma bits prec vs sz p mn mx fred hprec hvs hsz hp hmm hmin hmax) z hA hB hld hs hz, ?_⟩
  rintro ⟨rfl, rfl⟩
  exact freduceMat_spec (sound_flt fma bits prec vs sz p mn mx fred hprec hvs hsz hp hmm hmin hmax) z hA hld hz

/-- **C110, triangles, for `float` and `double` elements**: `freduce(F, UpLo, N, A, lda)` reduces the entries of the triangle and leaves the others. -/
theorem C110_triangle_float_partial (fma : Bool) (bits : ℚ → ℚ → ℚ) (prec vs sz p : ℕ) (mn mx : ℤ) (fred : ℚ → ℚ)
    (hprec : 1 ≤ prec) (hvs : 0 < vs) (hsz : 0 < sz) (hp : 2 ≤ p) (hmm : mx - mn = p - 1) (hmin : mn ≤ 0) (hmax : 1 ≤ mx)
    (m : Mem ℚ) (upper : Bool) (N A lda : ℕ) (z : ℕ → ℕ → ℤ) (hA : OkIn m ⟨A, lda, N, N⟩) (hld : N ≤ lda)
    (hz : ∀ i < N, ∀ j < N, inTri upper i j → m.val (A + i * lda + j) = ((z i j : ℤ) : ℚ) ∧ |z i j| + p < 2 ^ prec) :
    Run (freduceTri (fltArith fma bits prec vs sz p mn mx fred) upper N A lda) m (fun _ m' => Step m m' ⟨A, lda, N, N⟩
      (fun i j => if inTri upper i j then ((canon p mn (z i j) : ℤ) : ℚ) else m.val (A + i * lda + j))) :=
  freduceTri_spec (sound_flt fma bits prec vs sz p mn mx fred hprec hvs hsz hp hmm hmin hmax) upper z hA hld hz

/-- **C110, in place, for `int64_t` elements**, every register length, address, number of entries and increment: every entry becomes its
representative modulo `p` in `[mn, mx]`, and nothing else changes. -/
theorem C110_in_int64 (fma dq : Bool) (bits : ℚ → ℚ → ℚ) (vs p : ℕ) (mn mx : ℤ) (fred : BitVec 64 → BitVec 64)
    (hvs : 0 < vs) (hp : 2 ≤ p) (hp38 : p ≤ 2 ^ 38) (hmm : mx - mn = p - 1) (hmin : mn ≤ 0) (hmax : 1 ≤ mx)
    (m : Mem (BitVec 64)) (n A incX : ℕ) (z : ℕ → ℤ) (hm : WF m) (hA : OkIn m (vw A incX n)) (hi : 0 < incX)
    (hz : ∀ i < n, m.val (A + i * incX) = BitVec.ofInt 64 (z i) ∧ -2 ^ 63 ≤ z i ∧ z i < 2 ^ 63) :
    Run (freduceIn (i64Arith fma dq bits vs p mn mx fred) n A incX) m
      (fun _ m' => Step m m' (vw A incX n) (fun i _ => BitVec.ofInt 64 (canon p mn (z i)))) :=
  freduceIn_spec (sound_i64 fma dq bits vs p mn mx fred hvs hp hp38 hmm hmin hmax) z hm hA hi hz

/-- **C110, out of place, for `int64_t` elements**: `A ← B mod p`, for `A` equal to or disjoint from `B`; the reduction of the field
(`fred`, used for short vectors with increments) being the canonical one. -/
theorem C110_out_int64 (fma dq : Bool) (bits : ℚ → ℚ → ℚ) (vs p : ℕ) (mn mx : ℤ) (fred : BitVec 64 → BitVec 64)
    (hvs : 0 < vs) (hp : 2 ≤ p) (hp38 : p ≤ 2 ^ 38) (hmm : mx - mn = p - 1) (hmin : mn ≤ 0) (hmax : 1 ≤ mx)
    (hfred : ∀ z : ℤ, -2 ^ 63 ≤ z ∧ z < 2 ^ 63 → fred (BitVec.ofInt 64 (z)) = BitVec.ofInt 64 (canon p mn (z)))
    (m : Mem (BitVec 64)) (n A incX B incY : ℕ) (z : ℕ → ℤ) (hm : WF m) (hA : OkIn m (vw A incX n)) (hB : OkIn m (vw B incY n))
    (hi : 0 < incX) (hs : (vw B incY n).Safe (vw A incX n))
    (hz : ∀ i < n, m.val (B + i * incY) = BitVec.ofInt 64 (z i) ∧ -2 ^ 63 ≤ z i ∧ z i < 2 ^ 63) :
    Run (freduceOut (i64Arith fma dq bits vs p mn mx fred) n B incY A incX) m
      (fun _ m' => Step m m' (vw A incX n) (fun i _ => BitVec.ofInt 64 (canon p mn (z i)))) :=
  freduceOut_spec (sound_i64 fma dq bits vs p mn mx fred hvs hp hp38 hmm hmin hmax) hfred z hm hA hB hi hs hz

/-- **C110, matrices, for `int64_t` elements**, in place and out of place. -/
theorem C110_matrix_int64 (fma dq : Bool) (bits : ℚ → ℚ → ℚ) (vs p : ℕ) (mn mx : ℤ) (fred : BitVec 64 → BitVec 64)
    (hvs : 0 < vs) (hp : 2 ≤ p) (hp38 : p ≤ 2 ^ 38) (hmm : mx - mn = p - 1) (hmin : mn ≤ 0) (hmax : 1 ≤ mx)
    (m : Mem (BitVec 64)) (r c A lda B ldb : ℕ) (z : ℕ → ℕ → ℤ) (hA : OkIn m ⟨A, lda, r, c⟩) (hld : c ≤ lda)
    (hB : OkIn m ⟨B, ldb, r, c⟩) (hs : (Win.mk B ldb r c).Disj ⟨A, lda, r, c⟩ ∨ B = A ∧ ldb = lda)
    (hz : ∀ i < r, ∀ j < c, m.val (B + i * ldb + j) = BitVec.ofInt 64 (z i j) ∧ -2 ^ 63 ≤ z i j ∧ z i j < 2 ^ 63) :
    Run (freduceMatOut (i64Arith fma dq bits vs p mn mx fred) r c B ldb A lda) m
      (fun _ m' => Step m m' ⟨A, lda, r, c⟩ (fun i j => BitVec.ofInt 64 (canon p mn (z i j)))) ∧
    (B = A ∧ ldb = lda → Run (freduceMat (i64Arith fma dq bits vs p mn mx fred) r c A lda) m
      (fun _ m' => Step m m' ⟨A, lda, r, c⟩ (fun i j => BitVec.ofInt 64 (canon p mn (z i j))))) := by
  refine ⟨freduceMatOut_spec (sound_i64 fma dq bits vs p mn mx fred hvs hp hp38 hmm hmin hmax) z hA hB hld hs hz, ?_⟩
  rintro ⟨rfl, rfl⟩
  exact freduceMat_spec (sound_i64 fma dq bits vs p mn mx fred hvs hp hp38 hmm hmin hmax) z hA hld hz

/-- **C110, triangles, for `int64_t` elements**: `freduce(F, UpLo, N, A, lda)` reduces the entries of the triangle and leaves the others. -/
theorem C110_triangle_int64 (fma dq : Bool) (bits : ℚ → ℚ → ℚ) (vs p : ℕ) (mn mx : ℤ) (fred : BitVec 64 → BitVec 64)
    (hvs : 0 < vs) (hp : 2 ≤ p) (hp38 : p ≤ 2 ^ 38) (hmm : mx - mn = p - 1) (hmin : mn ≤ 0) (hmax : 1 ≤ mx)
    (m : Mem (BitVec 64)) (upper : Bool) (N A lda : ℕ) (z : ℕ → ℕ → ℤ) (hA : OkIn m ⟨A, lda, N, N⟩) (hld : N ≤ lda)
    (hz : ∀ i < N, ∀ j < N, inTri upper i j → m.val (A + i * lda + j) = BitVec.ofInt 64 (z i j) ∧ -2 ^ 63 ≤ z i j ∧ z i j < 2 ^ 63) :
    Run (freduceTri (i64Arith fma dq bits vs p mn mx fred) upper N A lda) m (fun _ m' => Step m m' ⟨A, lda, N, N⟩
      (fun i j => if inTri upper i j then BitVec.ofInt 64 (canon p mn (z i j)) else m.val (A + i * lda + j))) :=
  freduceTri_spec (sound_i64 fma dq bits vs p mn mx fred hvs hp hp38 hmm hmin hmax) upper z hA hld hz

/-- The vector reduction alone: with fused multiply-add one lane of `mod` is right for **every**
integer that is exactly representable. -/
theorem C110_lane_fma (bits : ℚ → ℚ → ℚ) (prec p : ℕ) (hp : 2 ≤ p) (hprec : 1 ≤ prec) (mn mx : ℤ) (hmm : mx - mn = p - 1)
    (hmin : mn ≤ 0) (hmax : 1 ≤ mx) (hpp : (p : ℤ) < 2 ^ prec) (z : ℤ) (hz : |z| < 2 ^ prec) :
    modF true bits prec p mn mx z = ((canon p mn z : ℤ) : ℚ) := by
  obtain ⟨r, h1, h2, h3, h4⟩ := modF_spec true bits prec p hp hprec mn mx hmm hmin hmax z hpp (by omega) (by simp)
  rw [h1, eq_canon hmm h2 h3 h4]

/-- C110 is false near `2^53`: over `ModularBalanced<double>` with `p = 7`, registers of four lanes and fused multiply-add, the
result of `freduce` depends on the address.  Nine cells contain `-(2^53-1)`; `freduce` of the last eight leaves `-2` in the
first ones, before the first aligned address (wrong: the number is `-3` modulo 7), and `-3` in the next four. -/
theorem C110_alignment_violated (bits : ℚ → ℚ → ℚ) (fred : ℚ → ℚ) :
    Run (freduceIn (fltArith true bits 53 4 8 7 (-3) 3 fred) 8 1 1)
      (memOf (List.replicate 9 ((-(2 ^ 53 - 1) : ℤ) : ℚ)))
      (fun _ m' => m'.val 1 = -2 ∧ m'.val 4 = -3) ∧ canon 7 (-3) (-(2 ^ 53 - 1)) = -3 := by
  refine ⟨?_, by decide⟩
  set x : ℚ := ((-(2 ^ 53 - 1) : ℤ) : ℚ) with hx
  set E := fltArith true bits 53 4 8 7 (-3) 3 fred with hE
  have hvs : E.vs = 4 := rfl
  have hpro : prologue E 1 = 3 := by rw [hE]; norm_num [prologue, steps, fltArith]
  have hbl : blocks E 8 1 = 1 := by unfold blocks; rw [hpro, hvs]; rfl
  have hv : ∀ i < 9, (memOf (List.replicate 9 x)).val i = x := fun i hi => by
    simp only [memOf, List.getD_eq_getElem?_getD, List.getElem?_replicate, if_pos hi, Option.getD_some]
  have hok : OkIn (memOf (List.replicate 9 x)) (vw 1 1 8) := OkIn_memOf (by simp [vw, Win.Ends])
  have hin : ∀ t, inSimd E 8 1 (fun i => aligned E (1 + i)) t → 3 ≤ t ∧ t < 7 := fun t h => by
    obtain ⟨_, _, h3, h4⟩ := h
    rw [hpro] at h3 h4; rw [hbl, hvs] at h4; omega
  have hal : aligned E (1 + 3) := (aligned_iff E (show 0 < E.sz by rw [hE]; exact Nat.succ_pos _) _).2 (by rw [hvs])
  have hin' : ∀ t, 3 ≤ t → t < 7 → inSimd E 8 1 (fun i => aligned E (1 + i)) t := fun t h1 h2 =>
    ⟨by rw [hvs]; omega, by rw [hpro]; exact hal, by rw [hpro]; exact h1, by rw [hpro, hbl, hvs]; omega⟩
  unfold freduceIn
  rw [if_pos rfl]
  have key : Run (modp E 1 8 1) (memOf (List.replicate 9 x)) (fun _ m' => Step (memOf (List.replicate 9 x)) m' (vw 1 1 8)
      (fun i _ => if 3 ≤ i ∧ i < 7 then -3 else -2)) := by
    refine drive1 (show 0 < E.sz by rw [hE]; exact Nat.succ_pos _) (by rw [hvs]; omega) _ hok hok
      (vw_Inj Nat.one_pos).safe (fun t ht hn => ?_) (fun t ht h => ?_)
    · rw [hv _ (by omega), if_neg (fun h => hn (hin' t h.1 h.2))]
      exact congrArg some (by simpa [hE, hx, fltArith] using reduce_witness)
    · have e : (fun l : Fin E.vs => (memOf (List.replicate 9 x)).val (1 + (t + l))) = fun _ => x := by
        funext l
        exact hv _ (by have := l.2; omega)
      rw [e]
      refine congrArg some (funext fun l => ?_)
      rw [if_pos (hin _ (h l l.2))]
      have := C110_lane_fma bits 53 7 (by norm_num) (by norm_num) (-3) 3 (by norm_num) (by norm_num) (by norm_num) (by norm_num)
        (-(2 ^ 53 - 1)) (by norm_num)
      rw [show canon 7 (-3) (-(2 ^ 53 - 1)) = -3 by decide] at this
      exact_mod_cast this
  refine key.mono fun _ m' s => ⟨?_, ?_⟩
  · have := Step.vval s (i := 0) (by norm_num)
    simpa using this
  · have := Step.vval s (i := 3) (by norm_num)
    simpa using this

/-! ### Concrete cases -/

/-- eleven numbers, several of 52 bits, at an address that is not aligned -/
example (bits : ℚ → ℚ → ℚ) (fred : ℚ → ℚ) : Run (freduceIn (fltArith false bits 53 4 8 65521 0 65520 fred) 11 1 1)
    (memOf (List.replicate 12 ((4503599627370495 : ℤ) : ℚ))) (fun _ m' => m'.val 7 = ((4503599627370495 % 65521 : ℤ) : ℚ)) := by
  refine (C110_in_float_partial false bits 53 4 8 65521 0 65520 fred (by norm_num) (by norm_num) (by norm_num) (by norm_num)
    (by norm_num) (by norm_num) (by norm_num) _ 11 1 1 (fun _ => 4503599627370495) (WF_memOf _)
    (OkIn_memOf (by simp [vw, Win.Ends])) (by norm_num) (fun i hi => ⟨?_, by norm_num⟩)).mono fun _ m' s => ?_
  · simp only [memOf, List.getD_eq_getElem?_getD, List.getElem?_replicate, if_pos (show 1 + i * 1 < 12 by omega), Option.getD_some]
  · have := Step.vval s (i := 6) (by norm_num)
    simpa [canon] using this

/-- out of place, source with increment 2, 40 entries, destination with increment 3 -/
example (bits : ℚ → ℚ → ℚ) : Run (freduceOut (fltArith true bits 53 4 8 11 (-5) 5 (fun x => (canon 11 (-5) ⌊x⌋ : ℤ))) 40 0 2 81 3)
    (memOf (List.replicate 200 ((-1000 : ℤ) : ℚ))) (fun _ m' => m'.val 84 = 1) := by
  refine (C110_out_float_partial true bits 53 4 8 11 (-5) 5 _ (by norm_num) (by norm_num) (by norm_num) (by norm_num)
    (by norm_num) (by norm_num) (by norm_num) (fun z _ => by rw [Int.floor_intCast]) _ 40 81 3 0 2 (fun _ => -1000) (WF_memOf _)
    (OkIn_memOf (by rw [List.length_replicate]; simp [vw, Win.Ends])) (OkIn_memOf (by rw [List.length_replicate]; simp [vw, Win.Ends])) (by norm_num)
    (Win.Disj.safe (Win.Ends.disj (by simp [vw, Win.Ends])) rfl rfl) (fun i hi => ⟨?_, by norm_num⟩)).mono fun _ m' s => ?_
  · simp only [memOf, List.getD_eq_getElem?_getD, List.getElem?_replicate, if_pos (show 0 + i * 2 < 200 by omega), Option.getD_some]
  · have := Step.vval s (i := 1) (by norm_num)
    rw [show canon 11 (-5) (-1000) = 1 by decide] at this
    simpa using this

/-- the smallest `int64_t` modulo a number of 38 bits, upper triangle of a `5 × 5` matrix -/
example (bits : ℚ → ℚ → ℚ) (fred : BitVec 64 → BitVec 64) :
    Run (freduceTri (i64Arith true false bits 4 274877906899 0 274877906898 fred) true 5 0 6)
    (memOf (List.replicate 30 (BitVec.ofInt 64 (-2 ^ 63)))) (fun _ m' => m'.val (1 * 6 + 4) = BitVec.ofInt 64 (-2 ^ 63 % 274877906899) ∧
      m'.val (4 * 6 + 1) = BitVec.ofInt 64 (-2 ^ 63)) := by
  have hv : ∀ i < 30, (memOf (List.replicate 30 (BitVec.ofInt 64 (-2 ^ 63)))).val i = BitVec.ofInt 64 (-2 ^ 63) := fun i hi => by
    simp only [memOf, List.getD_eq_getElem?_getD, List.getElem?_replicate, if_pos hi, Option.getD_some]
  refine (C110_triangle_int64 true false bits 4 274877906899 0 274877906898 fred (by norm_num) (by norm_num) (by norm_num)
    (by norm_num) (by norm_num) (by norm_num) _ true 5 0 6 (fun _ _ => -2 ^ 63)
    (OkIn_memOf (by simp [Win.Ends])) (by norm_num) (fun i hi j hj _ => ⟨hv _ (by omega), by norm_num⟩)).mono fun _ m' s => ⟨?_, ?_⟩
  · have := s.val 1 (by norm_num) 4 (by norm_num)
    simpa [Win.adr, inTri, canon] using this
  · have := s.val 4 (by norm_num) 1 (by norm_num)
    rw [if_neg (by simp [inTri])] at this
    rw [hv _ (by norm_num)] at this
    simpa [Win.adr] using this

/-! ### C111: `fscalin`, `faxpy`, `fadd`, `fsub` -/

private lemma prod_le {Bd a x : ℤ} (ha : -Bd ≤ a ∧ a ≤ Bd) (hx : -Bd ≤ x ∧ x ≤ Bd) : -(Bd * Bd) ≤ a * x ∧ a * x ≤ Bd * Bd := by
  have h1 : |a| ≤ Bd := abs_le.2 ha
  have h2 : |x| ≤ Bd := abs_le.2 hx
  have h3 : |a * x| ≤ Bd * Bd := by rw [abs_mul]; exact mul_le_mul h1 h2 (abs_nonneg _) ((abs_nonneg _).trans h1)
  exact abs_le.1 h3

private lemma In_of_le {z B P : ℤ} {p : ℕ} (h1 : -B ≤ z) (h2 : z ≤ B) (h : B + p < P) : |z| + p < P := by
  have := abs_le.2 ⟨h1, h2⟩; omega

/-- **C111, scaling, for `float` and `double` elements**: `fscalin` replaces every entry by the representative of its product with `a`. `Bd` bounds the absolute values of the representatives (`p - 1`, or `(p - 1) / 2` if balanced). -/
theorem C111_fscalin_float (fma : Bool) (bits : ℚ → ℚ → ℚ) (prec vs sz p : ℕ) (mn mx : ℤ) (fred : ℚ → ℚ)
    (hprec : 1 ≤ prec) (hvs : 0 < vs) (hsz : 0 < sz) (hp : 2 ≤ p) (hmm : mx - mn = p - 1) (hmin : mn ≤ 0) (hmax : 1 ≤ mx)
    (Bd : ℤ) (hB1 : -Bd ≤ mn) (hB2 : mx ≤ Bd) (hBd : Bd * Bd + Bd + p < 2 ^ prec)
    (m : Mem ℚ) (n X incX : ℕ) (a : ℤ) (x : ℕ → ℤ) (ha : mn ≤ a ∧ a ≤ mx) (hm : WF m) (hX : OkIn m (vw X incX n))
    (hi : 0 < incX) (hx : ∀ i < n, m.val (X + i * incX) = ((x i : ℤ) : ℚ) ∧ mn ≤ x i ∧ x i ≤ mx) :
    Run (fscalin (fltArith fma bits prec vs sz p mn mx fred) n (((a : ℤ) : ℚ)) X incX) m
      (fun _ m' => Step m m' (vw X incX n) (fun i _ => ((canon p mn (a * x i) : ℤ) : ℚ))) := by
  have hq : 0 ≤ Bd * Bd := mul_self_nonneg _
  refine fscalin_spec (sound_flt fma bits prec vs sz p mn mx fred hprec hvs hsz hp hmm hmin hmax) a (In_of_le (B := Bd * Bd + Bd) (by omega) (by omega) hBd) x hm hX hi fun i h => ?_
  obtain ⟨h1, h2⟩ := hx i h
  have := prod_le (Bd := Bd) (a := a) (x := x i) (by omega) (by omega)
  exact ⟨h1, (In_of_le (B := Bd * Bd + Bd) (by omega) (by omega) hBd), (In_of_le (B := Bd * Bd + Bd) (by omega) (by omega) hBd)⟩

/-- **C111, linear combination, for `float` and `double` elements**: `faxpy` with increments 1 sets `Y` to the representatives of `a X + Y`, for `X`
equal to or disjoint from `Y`, at any two addresses. `Bd` bounds the absolute values of the representatives (`p - 1`, or `(p - 1) / 2` if balanced). -/
theorem C111_faxpy_float (fma : Bool) (bits : ℚ → ℚ → ℚ) (prec vs sz p : ℕ) (mn mx : ℤ) (fred : ℚ → ℚ)
    (hprec : 1 ≤ prec) (hvs : 0 < vs) (hsz : 0 < sz) (hp : 2 ≤ p) (hmm : mx - mn = p - 1) (hmin : mn ≤ 0) (hmax : 1 ≤ mx)
    (Bd : ℤ) (hB1 : -Bd ≤ mn) (hB2 : mx ≤ Bd) (hBd : Bd * Bd + Bd + p < 2 ^ prec)
    (m : Mem ℚ) (n X Y : ℕ) (a : ℤ) (x y : ℕ → ℤ) (ha : mn ≤ a ∧ a ≤ mx) (hX : OkIn m (vw X 1 n)) (hY : OkIn m (vw Y 1 n))
    (hs : (vw X 1 n).Safe (vw Y 1 n)) (hx : ∀ i < n, m.val (X + i) = ((x i : ℤ) : ℚ) ∧ mn ≤ x i ∧ x i ≤ mx)
    (hy : ∀ i < n, m.val (Y + i) = ((y i : ℤ) : ℚ) ∧ mn ≤ y i ∧ y i ≤ mx) :
    Run (SimdVec.axpyp (fltArith fma bits prec vs sz p mn mx fred) (((a : ℤ) : ℚ)) X Y n) m
      (fun _ m' => Step m m' (vw Y 1 n) (fun i _ => ((canon p mn (a * x i + y i) : ℤ) : ℚ))) := by
  have hq : 0 ≤ Bd * Bd := mul_self_nonneg _
  have hpr : ∀ i < n, -(Bd * Bd) ≤ a * x i ∧ a * x i ≤ Bd * Bd := fun i h => by
    have := (hx i h).2
    exact prod_le (by omega) (by omega)
  refine axpyp_spec (sound_flt fma bits prec vs sz p mn mx fred hprec hvs hsz hp hmm hmin hmax) a (In_of_le (B := Bd * Bd + Bd) (by omega) (by omega) hBd) x y (fun i h => ?_) (fun i h => ?_) hX hY hs
  · have := hpr i h
    obtain ⟨h1, h2⟩ := hx i h
    exact ⟨h1, (In_of_le (B := Bd * Bd + Bd) (by omega) (by omega) hBd), (In_of_le (B := Bd * Bd + Bd) (by omega) (by omega) hBd)⟩
  · have := hpr i h
    obtain ⟨h1, h2⟩ := hx i h
    obtain ⟨h3, h4⟩ := hy i h
    exact ⟨h3, (In_of_le (B := Bd * Bd + Bd) (by omega) (by omega) hBd), (In_of_le (B := Bd * Bd + Bd) (by omega) (by omega) hBd)⟩

/-- **C111, sums and differences, for `float` and `double` elements**: `fadd` and `fsub` with increments 1 set `C` to the representatives of `A ± B`,
each operand being equal to or disjoint from `C`, at any three addresses; `positive` is the version for representatives from 0
on. -/
theorem C111_addsub_float (fma : Bool) (bits : ℚ → ℚ → ℚ) (prec vs sz p : ℕ) (mn mx : ℤ) (fred : ℚ → ℚ)
    (hprec : 1 ≤ prec) (hvs : 0 < vs) (hsz : 0 < sz) (hp : 2 ≤ p) (hmm : mx - mn = p - 1) (hmin : mn ≤ 0) (hmax : 1 ≤ mx)
    (h3 : 3 * (p : ℤ) < 2 ^ prec) (ADD positive : Bool) (hpos : positive = true → mn = 0)
    (m : Mem ℚ) (n A B C : ℕ) (a b : ℕ → ℤ) (hA : OkIn m (vw A 1 n)) (hB : OkIn m (vw B 1 n)) (hC : OkIn m (vw C 1 n))
    (hsA : (vw A 1 n).Safe (vw C 1 n)) (hsB : (vw B 1 n).Safe (vw C 1 n))
    (ha : ∀ i < n, m.val (A + i) = ((a i : ℤ) : ℚ) ∧ mn ≤ a i ∧ a i ≤ mx)
    (hb : ∀ i < n, m.val (B + i) = ((b i : ℤ) : ℚ) ∧ mn ≤ b i ∧ b i ≤ mx) :
    Run (addsubp (fltArith fma bits prec vs sz p mn mx fred) ADD positive C A B n) m
      (fun _ m' => Step m m' (vw C 1 n) (fun i _ => ((canon p mn (if ADD then a i + b i else a i - b i) : ℤ) : ℚ))) := by
  refine addsubp_spec (sound_flt fma bits prec vs sz p mn mx fred hprec hvs hsz hp hmm hmin hmax) ?_ ADD positive hpos a b ha hb hA hB hC hsA hsB
  exact ⟨hmm, hmin, by omega, by omega, fun z hz => by omega⟩

/-- **C111, scaling, for `int64_t` elements**: `fscalin` replaces every entry by the representative of its product with `a`. `Bd` bounds the absolute values of the representatives. -/
theorem C111_fscalin_int64 (fma dq : Bool) (bits : ℚ → ℚ → ℚ) (vs p : ℕ) (mn mx : ℤ) (fred : BitVec 64 → BitVec 64)
    (hvs : 0 < vs) (hp : 2 ≤ p) (hp38 : p ≤ 2 ^ 38) (hmm : mx - mn = p - 1) (hmin : mn ≤ 0) (hmax : 1 ≤ mx)
    (Bd : ℤ) (hB1 : -Bd ≤ mn) (hB2 : mx ≤ Bd) (hBd : Bd * Bd + Bd < 2 ^ 63)
    (m : Mem (BitVec 64)) (n X incX : ℕ) (a : ℤ) (x : ℕ → ℤ) (ha : mn ≤ a ∧ a ≤ mx) (hm : WF m) (hX : OkIn m (vw X incX n))
    (hi : 0 < incX) (hx : ∀ i < n, m.val (X + i * incX) = BitVec.ofInt 64 (x i) ∧ mn ≤ x i ∧ x i ≤ mx) :
    Run (fscalin (i64Arith fma dq bits vs p mn mx fred) n (BitVec.ofInt 64 (a)) X incX) m
      (fun _ m' => Step m m' (vw X incX n) (fun i _ => BitVec.ofInt 64 (canon p mn (a * x i)))) := by
  have hq : 0 ≤ Bd * Bd := mul_self_nonneg _
  refine fscalin_spec (sound_i64 fma dq bits vs p mn mx fred hvs hp hp38 hmm hmin hmax) a (show In64 _ from ⟨by omega, by omega⟩) x hm hX hi fun i h => ?_
  obtain ⟨h1, h2⟩ := hx i h
  have := prod_le (Bd := Bd) (a := a) (x := x i) (by omega) (by omega)
  exact ⟨h1, (show In64 _ from ⟨by omega, by omega⟩), (show In64 _ from ⟨by omega, by omega⟩)⟩

/-- **C111, linear combination, for `int64_t` elements**: `faxpy` with increments 1 sets `Y` to the representatives of `a X + Y`, for `X`
equal to or disjoint from `Y`, at any two addresses. `Bd` bounds the absolute values of the representatives. -/
theorem C111_faxpy_int64 (fma dq : Bool) (bits : ℚ → ℚ → ℚ) (vs p : ℕ) (mn mx : ℤ) (fred : BitVec 64 → BitVec 64)
    (hvs : 0 < vs) (hp : 2 ≤ p) (hp38 : p ≤ 2 ^ 38) (hmm : mx - mn = p - 1) (hmin : mn ≤ 0) (hmax : 1 ≤ mx)
    (Bd : ℤ) (hB1 : -Bd ≤ mn) (hB2 : mx ≤ Bd) (hBd : Bd * Bd + Bd < 2 ^ 63)
    (m : Mem (BitVec 64)) (n X Y : ℕ) (a : ℤ) (x y : ℕ → ℤ) (ha : mn ≤ a ∧ a ≤ mx) (hX : OkIn m (vw X 1 n)) (hY : OkIn m (vw Y 1 n))
    (hs : (vw X 1 n).Safe (vw Y 1 n)) (hx : ∀ i < n, m.val (X + i) = BitVec.ofInt 64 (x i) ∧ mn ≤ x i ∧ x i ≤ mx)
    (hy : ∀ i < n, m.val (Y + i) = BitVec.ofInt 64 (y i) ∧ mn ≤ y i ∧ y i ≤ mx) :
    Run (SimdVec.axpyp (i64Arith fma dq bits vs p mn mx fred) (BitVec.ofInt 64 (a)) X Y n) m
      (fun _ m' => Step m m' (vw Y 1 n) (fun i _ => BitVec.ofInt 64 (canon p mn (a * x i + y i)))) := by
  have hq : 0 ≤ Bd * Bd := mul_self_nonneg _
  have hpr : ∀ i < n, -(Bd * Bd) ≤ a * x i ∧ a * x i ≤ Bd * Bd := fun i h => by
    have := (hx i h).2
    exact prod_le (by omega) (by omega)
  refine axpyp_spec (sound_i64 fma dq bits vs p mn mx fred hvs hp hp38 hmm hmin hmax) a (show In64 _ from ⟨by omega, by omega⟩) x y (fun i h => ?_) (fun i h => ?_) hX hY hs
  · have := hpr i h
    obtain ⟨h1, h2⟩ := hx i h
    exact ⟨h1, (show In64 _ from ⟨by omega, by omega⟩), (show In64 _ from ⟨by omega, by omega⟩)⟩
  · have := hpr i h
    obtain ⟨h1, h2⟩ := hx i h
    obtain ⟨h3, h4⟩ := hy i h
    exact ⟨h3, (show In64 _ from ⟨by omega, by omega⟩), (show In64 _ from ⟨by omega, by omega⟩)⟩

/-- **C111, sums and differences, for `int64_t` elements**: `fadd` and `fsub` with increments 1 set `C` to the representatives of `A ± B`,
each operand being equal to or disjoint from `C`, at any three addresses; `positive` is the version for representatives from 0
on. -/
theorem C111_addsub_int64 (fma dq : Bool) (bits : ℚ → ℚ → ℚ) (vs p : ℕ) (mn mx : ℤ) (fred : BitVec 64 → BitVec 64)
    (hvs : 0 < vs) (hp : 2 ≤ p) (hp38 : p ≤ 2 ^ 38) (hmm : mx - mn = p - 1) (hmin : mn ≤ 0) (hmax : 1 ≤ mx)
     (ADD positive : Bool) (hpos : positive = true → mn = 0)
    (m : Mem (BitVec 64)) (n A B C : ℕ) (a b : ℕ → ℤ) (hA : OkIn m (vw A 1 n)) (hB : OkIn m (vw B 1 n)) (hC : OkIn m (vw C 1 n))
    (hsA : (vw A 1 n).Safe (vw C 1 n)) (hsB : (vw B 1 n).Safe (vw C 1 n))
    (ha : ∀ i < n, m.val (A + i) = BitVec.ofInt 64 (a i) ∧ mn ≤ a i ∧ a i ≤ mx)
    (hb : ∀ i < n, m.val (B + i) = BitVec.ofInt 64 (b i) ∧ mn ≤ b i ∧ b i ≤ mx) :
    Run (addsubp (i64Arith fma dq bits vs p mn mx fred) ADD positive C A B n) m
      (fun _ m' => Step m m' (vw C 1 n) (fun i _ => BitVec.ofInt 64 (canon p mn (if ADD then a i + b i else a i - b i)))) := by
  refine addsubp_spec (sound_i64 fma dq bits vs p mn mx fred hvs hp hp38 hmm hmin hmax) ?_ ADD positive hpos a b ha hb hA hB hC hsA hsB
  exact ⟨hmm, hmin, by omega, by omega, fun z hz => by
      have := abs_le.1 hz
      have hp38 : (p : ℤ) ≤ 2 ^ 38 := by exact_mod_cast hp38
      exact ⟨by omega, by omega⟩⟩

/-! ### Concrete cases -/

/-- `X ← 65520 X` modulo 65521 for `X = (2, …, 2)`, increment 2 -/
example (bits : ℚ → ℚ → ℚ) (fred : ℚ → ℚ) : Run (fscalin (fltArith true bits 53 4 8 65521 0 65520 fred) 20 ((65520 : ℤ) : ℚ) 1 2)
    (memOf (List.replicate 41 ((2 : ℤ) : ℚ))) (fun _ m' => m'.val 5 = ((65519 : ℤ) : ℚ)) := by
  refine (C111_fscalin_float true bits 53 4 8 65521 0 65520 fred (by norm_num) (by norm_num) (by norm_num) (by norm_num)
    (by norm_num) (by norm_num) (by norm_num) 65520 (by norm_num) (by norm_num) (by norm_num) _ 20 1 2 65520 (fun _ => 2)
    (by norm_num) (WF_memOf _)
    (OkIn_memOf (by simp [vw, Win.Ends])) (by norm_num) (fun i hi => ⟨?_, by norm_num⟩)).mono fun _ m' s => ?_
  · simp only [memOf, List.getD_eq_getElem?_getD, List.getElem?_replicate, if_pos (show 1 + i * 2 < 41 by omega), Option.getD_some]
  · have := Step.vval s (i := 2) (by norm_num)
    rw [show canon 65521 0 (65520 * 2) = 65519 by decide] at this
    simpa using this

/-- `X ← X - X` and `X ← X + X` in place, balanced representation over `int64_t` -/
example (bits : ℚ → ℚ → ℚ) (fred : BitVec 64 → BitVec 64) (ADD : Bool) :
    Run (addsubp (i64Arith true false bits 4 7 (-3) 3 fred) ADD false 1 1 1 9)
    (memOf (List.replicate 10 (BitVec.ofInt 64 3))) (fun _ m' => m'.val 5 = if ADD then BitVec.ofInt 64 (-1) else 0) := by
  have hv : ∀ i < 10, (memOf (List.replicate 10 (BitVec.ofInt 64 3))).val i = BitVec.ofInt 64 3 := fun i hi => by
    simp only [memOf, List.getD_eq_getElem?_getD, List.getElem?_replicate, if_pos hi, Option.getD_some]
  have hok : OkIn (memOf (List.replicate 10 (BitVec.ofInt 64 3))) (vw 1 1 9) := OkIn_memOf (by simp [vw, Win.Ends])
  have hv' : ∀ i < 9, (memOf (List.replicate 10 (BitVec.ofInt 64 3))).val (1 + i) = BitVec.ofInt 64 3 ∧ (-3 : ℤ) ≤ 3 ∧ (3 : ℤ) ≤ 3 :=
    fun i hi => ⟨hv _ (by omega), by norm_num⟩
  refine (C111_addsub_int64 true false bits 4 7 (-3) 3 fred (by norm_num) (by norm_num) (by norm_num)
    (by norm_num) (by norm_num) (by norm_num) ADD false (by simp) _ 9 1 1 1 (fun _ => 3) (fun _ => 3) hok hok hok
    (vw_Inj Nat.one_pos).safe (vw_Inj Nat.one_pos).safe hv' hv').mono fun _ m' s => ?_
  have := Step.vval s (i := 4) (by norm_num)
  cases ADD
  · simpa [canon] using this
  · rw [if_pos rfl, show canon 7 (-3) (3 + 3) = -1 by decide] at this
    simpa using this

/-- `Y ← 5 X + Y` modulo 11 with `X` and `Y` at addresses of different alignment -/
example (bits : ℚ → ℚ → ℚ) (fred : BitVec 64 → BitVec 64) :
    Run (SimdVec.axpyp (i64Arith true true bits 8 11 0 10 fred) (BitVec.ofInt 64 5) 0 21 20)
    (memOf (List.replicate 41 (BitVec.ofInt 64 9))) (fun _ m' => m'.val 40 = BitVec.ofInt 64 10) := by
  have hv : ∀ i < 41, (memOf (List.replicate 41 (BitVec.ofInt 64 9))).val i = BitVec.ofInt 64 9 := fun i hi => by
    simp only [memOf, List.getD_eq_getElem?_getD, List.getElem?_replicate, if_pos hi, Option.getD_some]
  refine (C111_faxpy_int64 true true bits 8 11 0 10 fred (by norm_num) (by norm_num) (by norm_num)
    (by norm_num) (by norm_num) (by norm_num) 10 (by norm_num) (by norm_num) (by norm_num) _ 20 0 21 5 (fun _ => 9) (fun _ => 9)
    (by norm_num) (OkIn_memOf (by simp [vw, Win.Ends])) (OkIn_memOf (by simp [vw, Win.Ends]))
    (Win.Disj.safe (Win.Ends.disj (by simp [vw, Win.Ends])) rfl rfl) (fun i hi => ⟨hv _ (by omega), by norm_num⟩)
    (fun i hi => ⟨hv _ (by omega), by norm_num⟩)).mono fun _ m' s => ?_
  have := Step.vval s (i := 19) (by norm_num)
  rw [show canon 11 0 (5 * 9 + 9) = 10 by decide] at this
  simpa using this

end Verif.Props
