import Verif.Proofs.SssDense
import Verif.Props.LUdivine
import Mathlib.Algebra.Field.ZMod

/-!
# Properties C78 and C79: sequentially semi-separable matrices
-/

namespace Verif.Props

open Finset Verif.FF Verif.Spec

variable {K : Type} [Field K] [DecidableEq K] {m m' : Mem K} {N t s A lda B ldb C ldc : ℕ} {G : SssPtr} {g : GemmFn K}

/-- the generators stored in memory -/
def gensOf (m : Mem K) (G : SssPtr) : Sss K where
  P i j := m.val (G.P + i * G.ldp + j)
  Q i j := m.val (G.Q + i * G.ldq + j)
  R i j := m.val (G.R + i * G.ldr + j)
  U i j := m.val (G.U + i * G.ldu + j)
  V i j := m.val (G.V + i * G.ldv + j)
  W i j := m.val (G.W + i * G.ldw + j)
  D i j := m.val (G.D + i * G.ldd + j)

/-- size of the last block -/
def lastBlk (N s : ℕ) : ℕ := if N % s = 0 then s else N % s

/-- the generators are allocated (`P`: blocks 2 to k, `Q` and `U`: 1 to k-1, `V`: k-1 blocks of `s` rows, `R` and `W`: 2 to k-1) -/
structure GensOk (m : Mem K) (N s : ℕ) (G : SssPtr) : Prop where
  P : OkIn m ⟨G.P, G.ldp, N - s, s⟩
  Q : OkIn m ⟨G.Q, G.ldq, N - lastBlk N s, s⟩
  R : OkIn m ⟨G.R, G.ldr, N - s - lastBlk N s, s⟩
  U : OkIn m ⟨G.U, G.ldu, N - lastBlk N s, s⟩
  V : OkIn m ⟨G.V, G.ldv, N - lastBlk N s, s⟩
  W : OkIn m ⟨G.W, G.ldw, N - s - lastBlk N s, s⟩
  D : OkIn m ⟨G.D, G.ldd, N, s⟩
  ld : s ≤ G.ldp ∧ s ≤ G.ldq ∧ s ≤ G.ldr ∧ s ≤ G.ldu ∧ s ≤ G.ldv ∧ s ≤ G.ldw ∧ s ≤ G.ldd

/-- and do not overlap a window -/
structure GensDisj (N s : ℕ) (G : SssPtr) (T : Win) : Prop where
  P : (Win.mk G.P G.ldp (N - s) s).Disj T
  Q : (Win.mk G.Q G.ldq (N - lastBlk N s) s).Disj T
  R : (Win.mk G.R G.ldr (N - s - lastBlk N s) s).Disj T
  U : (Win.mk G.U G.ldu (N - lastBlk N s) s).Disj T
  V : (Win.mk G.V G.ldv (N - lastBlk N s) s).Disj T
  W : (Win.mk G.W G.ldw (N - s - lastBlk N s) s).Disj T
  D : (Win.mk G.D G.ldd N s).Disj T

lemma lastBlk_eq : lastBlk N s = sssLs N s := by unfold lastBlk sssLs; by_cases h : N % s = 0 <;> simp [h]

omit [DecidableEq K] in
lemma GensOk.src (h : GensOk m N s G) : SssSrc m N s G (gensOf m G) := by
  obtain ⟨h1, h2, h3, h4, h5, h6, h7, l1, l2, l3, l4, l5, l6, l7⟩ := h
  rw [lastBlk_eq] at *
  exact ⟨⟨h1, l1, fun _ _ _ _ => rfl⟩, ⟨h2, l2, fun _ _ _ _ => rfl⟩, ⟨h3, l3, fun _ _ _ _ => rfl⟩, ⟨h4, l4, fun _ _ _ _ => rfl⟩,
    ⟨h5, l5, fun _ _ _ _ => rfl⟩, ⟨h6, l6, fun _ _ _ _ => rfl⟩, ⟨h7, l7, fun _ _ _ _ => rfl⟩⟩

lemma GensDisj.disj {T : Win} (h : GensDisj N s G T) : SssDisj N s G T := by
  obtain ⟨h1, h2, h3, h4, h5, h6, h7⟩ := h
  rw [lastBlk_eq] at *
  exact ⟨h1, h2, h3, h4, h5, h6, h7⟩

/-- `productSSSxTS` computes `C ← alpha A B + beta C` where `A` is the matrix described by the generators, for every order of the blocks
that does not exceed the order of the matrix; only `C` is changed. -/
theorem C78_product_partial (hg : GemmOk g) (alpha beta : K) (hs : 0 < s) (hsN : s ≤ N) (hC : Rect m N t C ldc) (hB : Rect m N t B ldb)
    (hG : GensOk m N s G) (dB : (Win.mk B ldb N t).Disj ⟨C, ldc, N, t⟩) (dG : GensDisj N s G ⟨C, ldc, N, t⟩) :
    Run (productSSS g N t s alpha G B ldb beta C ldc) m (fun _ m' => Step m m' ⟨C, ldc, N, t⟩ (fun i c =>
      alpha * (∑ x ∈ range N, sssMat (gensOf m G) s i x * m.val (B + x * ldb + c)) + beta * m.val (C + i * ldc + c))) :=
  (productSSS_spec hg alpha beta hs hsN hC.on hG.src dG.disj (hB.on.src) dB).mono (fun _ _ h => h.step)

/-- `SSSToDense` writes the matrix described by the generators -/
theorem C79_toDense_partial (hg : GemmOk g) (hs : 0 < s) (hN : 0 < N) (hA : Rect m N N A lda) (hG : GensOk m N s G)
    (dG : GensDisj N s G ⟨A, lda, N, N⟩) :
    Run (sssToDense g N s G A lda) m (fun _ m' => Step m m' ⟨A, lda, N, N⟩ (sssMat (gensOf m G) s)) :=
  (sssToDense_spec hg hs hN hA.on hG.src dG.disj).mono (fun _ _ h => h.step)

/-- generators of order 2 for a matrix of order 5 over the field with 7 elements, a vector of 5 at 48, another at 53, room for the
dense matrix at 58 -/
abbrev sssex : Mem (ZMod 7) := memOf [5, 3, 6, 3, 6, 6, 6, 5, 1, 4, 2, 6, 1, 2, 1, 3, 4, 2, 4, 5, 1, 5, 2, 1, 6, 2, 4, 3, 2, 4, 2, 1, 2, 5, 5, 4, 2, 2, 1, 1, 2, 2, 2, 2, 3, 3, 2, 5, 6, 6, 2, 2, 6, 2, 4, 3, 1, 3, 0, 0, 0, 0, 0, 0, 0, 0, 0, 0, 0, 0, 0, 0, 0, 0, 0, 0, 0, 0, 0, 0, 0, 0, 0]
abbrev sssexG : SssPtr := ⟨0, 2, 6, 2, 14, 2, 18, 2, 26, 2, 34, 2, 38, 2⟩

local instance sssPrime : Fact (Nat.Prime 7) := ⟨by decide⟩

lemma sssex_ok : GensOk sssex 5 2 sssexG :=
  ⟨OkIn_memOf (by decide), OkIn_memOf (by decide), OkIn_memOf (by decide), OkIn_memOf (by decide), OkIn_memOf (by decide), OkIn_memOf (by decide),
    OkIn_memOf (by decide), by decide⟩

lemma sssex_disj {T : Win} (h : 48 ≤ T.p) : GensDisj 5 2 sssexG T := by
  have e : ∀ W : Win, W.Ends 48 → W.Disj T := fun W hW a ha hb => by
    have := hW.lt ha
    have := hb.ge
    omega
  exact ⟨e _ (by decide), e _ (by decide), e _ (by decide), e _ (by decide), e _ (by decide), e _ (by decide), e _ (by decide)⟩

example : GensOk sssex 5 2 sssexG ∧ Rect sssex 5 1 48 1 ∧ Rect sssex 5 1 53 1 ∧ (Win.mk 48 1 5 1).Disj ⟨53, 1, 5, 1⟩ ∧
    GensDisj 5 2 sssexG ⟨53, 1, 5, 1⟩ ∧ Rect sssex 5 5 58 5 ∧ GensDisj 5 2 sssexG ⟨58, 5, 5, 5⟩ ∧ GemmOk (gemmClassic .modular : GemmFn (ZMod 7)) :=
  ⟨sssex_ok, ⟨WF_memOf _, OkIn_memOf (by decide), by decide⟩, ⟨WF_memOf _, OkIn_memOf (by decide), by decide⟩,
    (show (Win.mk 48 1 5 1).Ends 53 by decide).disj, sssex_disj (by decide), ⟨WF_memOf _, OkIn_memOf (by decide), by decide⟩, sssex_disj (by decide),
    gemmClassic_ok .modular⟩

/-- `3 A B + 2 C` computed by hand -/
example : (List.range 5).map (fun i => after (productSSS (gemmClassic .modular) 5 1 2 3 sssexG 48 1 2 53 1) sssex (53 + i)) =
    ([3, 2, 5, 6, 6] : List (ZMod 7)).map some := by decide +kernel

/-- the dense matrix -/
example : (List.range 25).map (fun i => after (sssToDense (gemmClassic .modular) 5 2 sssexG 58 5) sssex (58 + i)) =
    ([1, 1, 5, 4, 0, 2, 2, 0, 2, 2, 5, 2, 2, 2, 6, 4, 0, 3, 3, 2, 0, 4, 4, 6, 2] : List (ZMod 7)).map some := by decide +kernel

/-- the part missing in `C78_product_partial`: when the matrix is smaller than the blocks, one reads before `V` … -/
theorem C78_small_violated : faultOf (productSSS (gemmClassic .modular) 1 1 2 1 ⟨0, 2, 0, 2, 0, 2, 0, 2, 0, 2, 0, 2, 0, 2⟩ 2 1 0 3 1)
    (memOf [(5 : ZMod 7), 0, 1, 1]) = some .underflow := by decide +kernel

/-- … and when the order is 0 the number `k - 1` wraps: the first `s` rows of `U` are read and of `C` written though these matrices are empty -/
theorem C78_empty_violated : faultOf (productSSS (gemmClassic .modular) 0 1 1 1 ⟨9, 1, 9, 1, 9, 1, 9, 1, 9, 1, 9, 1, 9, 1⟩ 9 1 1 9 1)
    (memOf ([] : List (ZMod 7))) = some .oob := by decide +kernel

/-- the part missing in `C79_toDense_partial`: for order 0 the loops run `2⁶⁴ - 1` times -/
theorem C79_empty_violated : faultOf (sssToDense (gemmClassic .modular) 0 1 ⟨0, 1, 0, 1, 0, 1, 0, 1, 0, 1, 0, 1, 0, 1⟩ 0 1)
    (memOf ([] : List (ZMod 7))) = some .underflow := by decide +kernel

end Verif.Props
