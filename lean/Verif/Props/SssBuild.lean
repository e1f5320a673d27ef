import Verif.Proofs.SssBuildAll
import Verif.Props.Sss
import Verif.Spec.QuasiSep

/-!
# Property C80: generators of a dense matrix
-/

namespace Verif.Props

open Finset Verif.FF Verif.Spec

variable {K : Type} [Field K] [DecidableEq K] {m m' : Mem K} {N t s A lda B ldb C ldc : ℕ} {G : SssPtr} {g : GemmFn K} {ts : TrsmFn K}

/-- where the generators are stored -/
def gensWins (N s : ℕ) (G : SssPtr) : List Win :=
  [⟨G.P, G.ldp, N - s, s⟩, ⟨G.Q, G.ldq, N - lastBlk N s, s⟩, ⟨G.R, G.ldr, N - s - lastBlk N s, s⟩, ⟨G.U, G.ldu, N - lastBlk N s, s⟩,
    ⟨G.V, G.ldv, N - lastBlk N s, s⟩, ⟨G.W, G.ldw, N - s - lastBlk N s, s⟩, ⟨G.D, G.ldd, N, s⟩]

/-- memory for the generators and a dense matrix of order `N`, not overlapping -/
structure GensArgs (m : Mem K) (N s : ℕ) (G : SssPtr) (A lda : ℕ) : Prop where
  wf : WF m
  gens : GensOk m N s G
  apart : (gensWins N s G).Pairwise Win.Disj
  mat : Rect m N N A lda
  disj : GensDisj N s G ⟨A, lda, N, N⟩

/-- the memory is unchanged outside the generators -/
def OnlyGens (m m' : Mem K) (N s : ℕ) (G : SssPtr) : Prop :=
  m'.ok = m.ok ∧ ∀ a, m.ok a → (∀ W ∈ gensWins N s G, ¬ W.Has a) → m'.val a = m.val a

omit [DecidableEq K] in
lemma GensArgs.wins (h : GensArgs m N s G A lda) : Wins m m (sssWin G N s) (fun x a b => m.val ((sssWin G N s x).adr a b)) := by
  have hd := h.apart
  have hg := h.gens.src
  unfold gensWins at hd
  rw [lastBlk_eq] at hd
  simp only [List.pairwise_cons, List.mem_cons, List.not_mem_nil, or_false, forall_eq_or_imp, forall_eq] at hd
  obtain ⟨⟨a1, a2, a3, a4, a5, a6⟩, ⟨b2, b3, b4, b5, b6⟩, ⟨c3, c4, c5, c6⟩, ⟨d4, d5, d6⟩, ⟨e5, e6⟩, f6, -⟩ := hd
  refine ⟨h.wf, ?_, ?_, ?_, rfl, le_rfl, fun _ _ _ _ _ => rfl, fun _ _ _ => rfl⟩
  · rintro (_ | _ | _ | _ | _ | _ | _)
    exacts [hg.P.ok, hg.Q.ok, hg.R.ok, hg.U.ok, hg.V.ok, hg.W.ok, hg.D.ok]
  · rintro (_ | _ | _ | _ | _ | _ | _)
    exacts [hg.P.ld, hg.Q.ld, hg.R.ld, hg.U.ld, hg.V.ld, hg.W.ld, hg.D.ld]
  · rintro (_ | _ | _ | _ | _ | _ | _) (_ | _ | _ | _ | _ | _ | _) ne
    all_goals first
      | exact absurd rfl ne
      | assumption
      | (apply Win.Disj.symm; assumption)

lemma GensDisj.all {T : Win} (h : GensDisj N s G T) : ∀ x, (sssWin G N s x).Disj T := by
  have h := h.disj
  rintro (_ | _ | _ | _ | _ | _ | _)
  exacts [h.P, h.Q, h.R, h.U, h.V, h.W, h.D]

lemma mem_gensWins {T : Win} : T ∈ gensWins N s G ↔ ∃ x, T = sssWin G N s x := by
  unfold gensWins
  rw [lastBlk_eq]
  simp only [List.mem_cons, List.not_mem_nil, or_false]
  constructor
  · rintro (h | h | h | h | h | h | h)
    exacts [⟨.P, h⟩, ⟨.Q, h⟩, ⟨.R, h⟩, ⟨.U, h⟩, ⟨.V, h⟩, ⟨.W, h⟩, ⟨.D, h⟩]
  · rintro ⟨_ | _ | _ | _ | _ | _ | _, rfl⟩ <;> simp [sssWin]

lemma gensOf_wins {V : SssIx → ℕ → ℕ → K} (hs : 0 < s) (h : Wins m m' (sssWin G N s) V) {i j : ℕ} (hi : i < N) (hj : j < N) :
    sssMat (gensOf m' G) s i j = sssMat (sssOf V) s i j :=
  sssMat_congr hs (fun a ha b hb => h.val .P a ha b hb) (fun a ha b hb => h.val .Q a ha b hb) (fun a ha b hb => h.val .R a ha b hb)
    (fun a ha b hb => h.val .U a ha b hb) (fun a ha b hb => h.val .V a ha b hb) (fun a ha b hb => h.val .W a ha b hb)
    (fun a ha b hb => h.val .D a ha b hb) hi hj

omit [DecidableEq K] in
lemma OnlyGens.of_wins {V : SssIx → ℕ → ℕ → K} (h : Wins m m' (sssWin G N s) V) : OnlyGens m m' N s G :=
  ⟨h.ok, fun a ha hn => h.frame a ha (fun x => hn _ (mem_gensWins.2 ⟨x, rfl⟩))⟩

omit [DecidableEq K] in
lemma Wins.gensSrc {V : SssIx → ℕ → ℕ → K} (h : Wins m m' (sssWin G N s) V) : SssSrc m' N s G (sssOf V) :=
  ⟨h.src .P, h.src .Q, h.src .R, h.src .U, h.src .V, h.src .W, h.src .D⟩

section
variable (cat : Cat) (hg : GemmOk g) (ht : TrsmOk ts) (thr : ℕ) (jk : List ℕ → ℕ → ℕ) (hs : 0 < s) (h : GensArgs m N s G A lda)
  (hQ : QuasiSep N s (fun i j => m.val (A + i * lda + j)))
include hg ht hs h hQ

/-- `DenseToSSS` finds generators of every matrix whose order of quasi-separability is at most `s`, whatever its order, and changes nothing
else. -/
theorem C80_fromDense : Run (denseToSSS cat g ts thr jk N s G A lda) m (fun _ m' => OnlyGens m m' N s G ∧
    ∀ i < N, ∀ j < N, sssMat (gensOf m' G) s i j = m.val (A + i * lda + j)) := by
  refine (denseToSSS_spec cat hg ht thr jk hs h.wins h.mat.on.src (fun x => (h.disj.all x).symm) hQ).mono ?_
  rintro _ m1 ⟨V, h1, e1⟩
  exact ⟨.of_wins h1, fun i hi j hj => (gensOf_wins hs h1 hi hj).trans (e1 i hi j hj)⟩

/-- Going to the generators and back gives the matrix. -/
theorem C80_roundTrip (hN : 0 < N) (hB : Rect m N N B ldb) (dB : GensDisj N s G ⟨B, ldb, N, N⟩) :
    Run (do denseToSSS cat g ts thr jk N s G A lda; sssToDense g N s G B ldb) m (fun _ m' =>
      ∀ i < N, ∀ j < N, m'.val (B + i * ldb + j) = m.val (A + i * lda + j)) := by
  rw [Run_bind]
  refine (denseToSSS_spec cat hg ht thr jk hs h.wins h.mat.on.src (fun x => (h.disj.all x).symm) hQ).mono ?_
  rintro _ m1 ⟨V, h1, e1⟩
  have sB := h1.keep hB.on.src (fun x => (dB.all x).symm)
  refine (sssToDense_spec hg hs hN (On.start h1.wf' sB.ok sB.ld) (Wins.gensSrc h1) dB.disj).mono (fun _ m2 h2 i hi j hj => ?_)
  exact (h2.step.val i hi j hj).trans (e1 i hi j hj)

/-- Multiplying by the generators found is multiplying by the matrix. -/
theorem C80_product (alpha beta : K) (hsN : s ≤ N) (hC : Rect m N t C ldc) (hB : Rect m N t B ldb) (dB : (Win.mk B ldb N t).Disj ⟨C, ldc, N, t⟩)
    (gB : GensDisj N s G ⟨B, ldb, N, t⟩) (gC : GensDisj N s G ⟨C, ldc, N, t⟩) :
    Run (do denseToSSS cat g ts thr jk N s G A lda; productSSS g N t s alpha G B ldb beta C ldc) m (fun _ m' =>
      ∀ i < N, ∀ c < t, m'.val (C + i * ldc + c) =
        alpha * (∑ x ∈ range N, m.val (A + i * lda + x) * m.val (B + x * ldb + c)) + beta * m.val (C + i * ldc + c)) := by
  rw [Run_bind]
  refine (denseToSSS_spec cat hg ht thr jk hs h.wins h.mat.on.src (fun x => (h.disj.all x).symm) hQ).mono ?_
  rintro _ m1 ⟨V, h1, e1⟩
  have sC := h1.keep hC.on.src (fun x => (gC.all x).symm)
  have sB := h1.keep hB.on.src (fun x => (gB.all x).symm)
  refine (productSSS_spec hg alpha beta hs hsN (On.start h1.wf' sC.ok sC.ld) (Wins.gensSrc h1) gC.disj sB dB).mono (fun _ m2 h2 i hi c hc => ?_)
  refine (h2.step.val i hi c hc).trans ?_
  congr 1
  · congr 1
    refine sum_congr rfl (fun x hx => ?_)
    rw [e1 i hi x (mem_range.1 hx)]; rfl
  · congr 1
    exact sC.val i hi c hc
end

/-- order 4, generators of order 1 in the first 20 places, the matrix at 20, room for another one at 36 -/
abbrev d2sex : Mem (ZMod 7) := memOf ((List.range 20).map (fun _ => 6) ++ [1, 1, 3, 2, 2, 0, 6, 4, 1, 4, 5, 6, 5, 6, 1, 3] ++
  (List.range 16).map (fun _ => 5))
abbrev d2sexG : SssPtr := ⟨0, 1, 3, 1, 6, 1, 8, 1, 11, 1, 14, 1, 16, 1⟩

local instance d2sPrime : Fact (Nat.Prime 7) := ⟨by decide⟩

lemma rk_le_one (X : ℕ → ℕ → K) (u v : ℕ → K) (a b : ℕ) (e : ∀ i < a, ∀ j < b, X i j = u i * v j) : rk X a b ≤ 1 := by
  have : toMat a b X = Matrix.vecMulVec (fun i : Fin a => u i) (fun j : Fin b => v j) := by
    ext i j
    exact e i i.2 j j.2
  unfold rk
  rw [this]
  exact Matrix.rank_vecMulVec_le _ _

lemma d2sex_args : GensArgs d2sex 4 1 d2sexG 20 4 ∧ GensDisj 4 1 d2sexG ⟨36, 4, 4, 4⟩ ∧ Rect d2sex 4 4 36 4 := by
  have e : ∀ T : Win, 20 ≤ T.p → ∀ W : Win, W.Ends 20 → W.Disj T := fun T h W hW a ha hb => by
    have := hW.lt ha
    have := hb.ge
    omega
  have d : ∀ T : Win, 20 ≤ T.p → GensDisj 4 1 d2sexG T := fun T h =>
    ⟨e T h _ (by decide), e T h _ (by decide), e T h _ (by decide), e T h _ (by decide), e T h _ (by decide), e T h _ (by decide), e T h _ (by decide)⟩
  refine ⟨⟨WF_memOf _, ⟨OkIn_memOf (by decide), OkIn_memOf (by decide), OkIn_memOf (by decide), OkIn_memOf (by decide), OkIn_memOf (by decide),
    OkIn_memOf (by decide), OkIn_memOf (by decide), by decide⟩, ?_, ⟨WF_memOf _, OkIn_memOf (by decide), by decide⟩, d _ (by decide)⟩, d _ (by decide),
    ⟨WF_memOf _, OkIn_memOf (by decide), by decide⟩⟩
  have : ∀ l : List Win, l.Pairwise (fun W V => W.Ends V.p) → l.Pairwise Win.Disj := fun l h => h.imp (fun h => h.disj)
  exact this _ (by decide)

lemma d2sex_quasi : QuasiSep 4 1 (fun i j => d2sex.val (20 + i * 4 + j)) := by
  intro b hb
  replace hb : b < 4 := by omega
  constructor
  · refine rk_le_one _ (fun i => ([1, 2, 3].getD i 0 : ZMod 7)) (fun j => ([0, 1, 3, 2].getD (b + j) 0 : ZMod 7)) _ _ ?_
    clear * - hb; revert b; decide +kernel
  · refine rk_le_one _ (fun i => ([0, 2, 1, 5].getD (b + i) 0 : ZMod 7)) (fun j => ([1, 4, 3].getD j 0 : ZMod 7)) _ _ ?_
    clear * - hb; revert b; decide +kernel

example : GensArgs d2sex 4 1 d2sexG 20 4 ∧ QuasiSep 4 1 (fun i j => d2sex.val (20 + i * 4 + j)) ∧ GensDisj 4 1 d2sexG ⟨36, 4, 4, 4⟩ ∧
    Rect d2sex 4 4 36 4 ∧ GemmOk (gemmClassic .modular : GemmFn (ZMod 7)) ∧ TrsmOk (ftrsm .modular (gemmClassic .modular) : TrsmFn (ZMod 7)) :=
  ⟨d2sex_args.1, d2sex_quasi, d2sex_args.2.1, d2sex_args.2.2, gemmClassic_ok .modular, ftrsm_TrsmOk .modular (gemmClassic_ok .modular)⟩

/-- the generators `P = (1, 1, 1)`, `Q = (2, 4, 1)`, `R = (4, 5)`, `U = (1, 2, 3)`, `V = (1, 3, 2)`, `W = (1, 1)`, `D = (1, 0, 5, 3)` -/
example : (List.range 20).map (after (denseToSSS .modular (gemmClassic .modular) (ftrsm .modular (gemmClassic .modular)) 1 (fun _ i => i) 4 1 d2sexG 20 4)
    d2sex) = ([1, 1, 1, 2, 4, 1, 4, 5, 1, 2, 3, 1, 3, 2, 1, 1, 1, 0, 5, 3] : List (ZMod 7)).map some := by decide +kernel

/-- The hypothesis on the ranks is needed: with a block of rank 2 and generators of order 1 the function writes after the end of its
temporary matrix. -/
theorem C80_rank_needed : faultOf (denseToSSS .modular (gemmClassic .modular) (ftrsm .modular (gemmClassic .modular)) 1 (fun _ i => i) 4 1 d2sexG 20 4)
    (memOf ((List.range 20).map (fun _ => (6 : ZMod 7)) ++ [1, 1, 3, 2, 2, 0, 6, 5, 1, 4, 5, 6, 5, 6, 1, 3])) = some .oob := by decide +kernel

end Verif.Props
