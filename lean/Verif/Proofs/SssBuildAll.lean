import Verif.Proofs.SssLow

/-!
# `DenseToSSS`
-/

namespace Verif.FF

open Finset Verif.Spec

variable {K : Type} [Field K] [DecidableEq K] {m0 m : Mem K} {N s A lda : ℕ} {G : SssPtr} {α : ℕ → ℕ → K} {V : SssIx → ℕ → ℕ → K}

/-- the generators stored in the windows -/
def sssOf (V : SssIx → ℕ → ℕ → K) : Sss K := ⟨V .P, V .Q, V .R, V .U, V .V, V .W, V .D⟩

lemma d2sDiag_spec (hs : 0 < s) (h : Wins m0 m (sssWin G N s) V) (hA : Src m0 ⟨A, lda, N, N⟩ α) (dA : ∀ x, (Win.mk A lda N N).Disj (sssWin G N s x)) :
    Run (d2sDiag N s G A lda) m (fun _ m' => ∃ V', Wins m0 m' (sssWin G N s) V' ∧ ∀ a < N, ∀ c < N, a / s = c / s → V' .D a (c % s) = α a c) := by
  have hdm : N / s * s + N % s = N := by rw [Nat.mul_comm]; exact Nat.div_add_mod N s
  have hml := Nat.mod_lt N hs
  have one : ∀ (j bs : ℕ) (m1 : Mem K), j * s + bs ≤ N → bs = min s (N - j * s) →
      (∃ V', Wins m0 m1 (sssWin G N s) V' ∧ ∀ a < N, ∀ c < N, a / s = c / s → a / s < j → V' .D a (c % s) = α a c) →
      Run (fassign bs bs (A + j * s * (lda + 1)) lda (G.D + j * s * G.ldd) G.ldd) m1
        (fun _ m' => ∃ V', Wins m0 m' (sssWin G N s) V' ∧ ∀ a < N, ∀ c < N, a / s = c / s → a / s < j + 1 → V' .D a (c % s) = α a c) := by
    rintro j bs m1 hj hbs ⟨V1, h1, e1⟩
    have sA := (h1.keep hA dA).sub (r := bs) (c := bs) (j * s) (j * s) (by simp only []; omega) (by simp only []; omega)
    have eA : A + j * s * (lda + 1) = (Win.mk A lda N N).adr (j * s) (j * s) := by simp only [Win.adr]; ring
    rw [eA]
    refine (h1.assign .D sA (j * s) 0 (by simp only [sssWin, Win.sub]; omega) (by simp only [sssWin, Win.sub]; omega)
      ((dA .D).sub_left (by simp only []; omega) (by simp only []; omega)) (by simp only [sssWin, Win.adr]; ring) rfl).mono
      (fun _ m2 h2 => ⟨_, h2, fun a ha c hc hac hlt => ?_⟩)
    rw [Function.update_self]
    have sp : ∀ a < N, (a / s = j ↔ j * s ≤ a ∧ a < j * s + bs) := by
      intro a ha
      have hae : a / s * s + a % s = a := by rw [Nat.mul_comm]; exact Nat.div_add_mod a s
      have ham := Nat.mod_lt a hs
      constructor
      · intro q
        rw [q] at hae
        omega
      · intro q
        rw [show a = j * s + (a - j * s) by omega, divs (by omega)]
    by_cases ej : a / s = j
    · have q1 := (sp a ha).1 ej
      have q2 := (sp c hc).1 (hac ▸ ej)
      have q3 : c % s = c - j * s := by
        have : c = j * s + (c - j * s) := by omega
        rw [this, mods (by omega)]; omega
      rw [q3, upd_in' (by simp only [Win.sub]; omega)]
      unfold blk
      congr 1 <;> omega
    · rw [upd_out]
      · exact e1 a ha c hc hac (by generalize a / s = q at *; omega)
      · simp only [Win.sub]
        by_contra hcc
        exact ej ((sp a ha).2 (by omega))
  unfold d2sDiag
  rw [Run_bind]
  refine (Run_loop (fun j m1 => ∃ V', Wins m0 m1 (sssWin G N s) V' ∧ ∀ a < N, ∀ c < N, a / s = c / s → a / s < j → V' .D a (c % s) = α a c)
    ⟨V, h, fun a _ c _ _ q => absurd q (Nat.not_lt_zero _)⟩ (fun j m1 hj o1 => ?_)).mono ?_
  · have := mul_blk (s := s) (show j + 1 ≤ N / s from hj)
    exact one j s m1 (by omega) (by omega) o1
  · intro _ m1 o1
    have fin : ∀ x, N ≤ x * s → ∀ a < N, a / s < x := fun x hx a ha => Nat.div_lt_of_lt_mul (by rw [Nat.mul_comm]; omega)
    rif h
    · refine (one (N / s) (N % s) m1 (by omega) (by omega) o1).mono ?_
      rintro _ m2 ⟨c2, o2, e2⟩
      exact ⟨c2, o2, fun a ha c hc q => e2 a ha c hc q (fin _ (by rw [Nat.add_mul]; omega) a ha)⟩
    · rw [Run_pure]
      obtain ⟨c1, o1, e1⟩ := o1
      exact ⟨c1, o1, fun a ha c hc q => e1 a ha c hc q (fin _ (by omega) a ha)⟩

section
variable (cat : Cat) {g : GemmFn K} {ts : TrsmFn K} (hg : GemmOk g) (ht : TrsmOk ts) (thr : ℕ) (jk : List ℕ → ℕ → ℕ)
include hg ht

lemma d2sOff_spec (hs : 0 < s) (hN : s < N) (h : Wins m0 m (sssWin G N s) V) (hA : Src m0 ⟨A, lda, N, N⟩ α)
    (dA : ∀ x, (Win.mk A lda N N).Disj (sssWin G N s x)) (hQ : QuasiSep N s α) :
    Run (d2sOff cat g ts thr jk N s G A lda) m (fun _ m' => ∃ V', Wins m0 m' (sssWin G N s) V' ∧ V' .D = V .D ∧
      ∀ i < N, ∀ j < N, i / s ≠ j / s → sssMat (sssOf V') s i j = α i j) := by
  have l1 := sssLs_le (N := N) hs
  have l0 := sssLs_pos (N := N) hs
  have eN := sssN (N := N) (s := s) (by omega) hs
  have hk : 2 ≤ sssK N s := by
    by_contra q
    have : sssK N s - 1 = 0 := by omega
    rw [this] at eN; omega
  have l2 : s ≤ N - sssLs N s := by
    have := mul_blk (s := s) (show 0 + 1 ≤ sssK N s - 1 by omega)
    omega
  unfold d2sOff
  simp only []
  rw [Run_bind]
  have first : Run (if N - s < s then do
      fzero s s G.U G.ldu
      fzero s s G.Q G.ldq
      pure (N - s)
    else pure s) m (fun fs m' => fs = min s (N - s) ∧ ∃ V', Wins m0 m' (sssWin G N s) V' ∧ V' .D = V .D ∧
      (fs < s → ∀ a < s, ∀ l < s, V' .U a l = 0) ∧ (fs < s → ∀ a < s, ∀ l < s, V' .Q a l = 0)) := by
    rif c
    · rw [Run_bind]
      refine (h.zero .U 0 0 (by simp only [sssWin]; omega) (by simp only [sssWin]; omega) (by simp [sssWin, Win.adr]) rfl).mono (fun _ m1 h1 => ?_)
      rw [Run_bind]
      refine (h1.zero .Q 0 0 (by simp only [sssWin]; omega) (by simp only [sssWin]; omega) (by simp [sssWin, Win.adr]) rfl).mono (fun _ m2 h2 => ?_)
      rw [Run_pure]
      refine ⟨by omega, _, h2, ?_, fun _ a ha l hl => ?_, fun _ a ha l hl => ?_⟩
      · rw [Function.update_of_ne (by decide), Function.update_of_ne (by decide)]
      · rw [Function.update_of_ne (by decide), Function.update_self, upd_in' (by omega)]
      · rw [Function.update_self, upd_in' (by omega)]
    · rw [Run_pure]
      exact ⟨by omega, V, h, rfl, fun q => absurd q (lt_irrefl _), fun q => absurd q (lt_irrefl _)⟩
  refine first.mono ?_
  rintro fs m1 ⟨hfs, V1, k1, D1, zU, zQ⟩
  rw [Run_bind, Run_alloc]
  obtain ⟨U1, q1⟩ := k1.push (N := N * N) N N rfl
  change Run _ (m1.grow (N * N)) _
  change Wins _ _ (win8 G N s m1.next) _ at q1
  have sA : Src (m1.grow (N * N)) ⟨A, lda, N, N⟩ α := (k1.keep hA dA).grow _
  have dA' : (Win.mk A lda N N).Disj ⟨m1.next, N, N, N⟩ := Disj_new k1.wf' (k1.keep hA dA).ok
  rw [Run_bind]
  refine (q1.assign none sA 0 0 (by simp [win8, ocons]) (by simp [win8, ocons]) dA' (by simp [win8, ocons, Win.adr]) rfl).mono (fun _ m2 h2 => ?_)
  generalize e2 : Function.update (ocons U1 V1) none _ = V2 at h2
  have r2 : ∀ x, V2 (some x) = V1 x := fun x => by rw [← e2, Function.update_of_ne (by simp)]; rfl
  rw [Run_bind]
  refine (d2sUp1_spec cat hg ht thr (fun l => jk (0 :: l)) hs hN hfs h2 (α := α) (fun i hi j hj => ?_) (fun q => by rw [r2]; exact zU q)).mono ?_
  · rw [← e2, Function.update_self, upd_in' (by simp only []; omega)]; rfl
  rintro _ m3 ⟨V3, hh3, h3, u3, M3, o3⟩
  rw [Run_bind, Run_alloc]
  obtain ⟨U4, q4⟩ := h3.push (N := 2 * s * s) (2 * s) s rfl
  change Run _ (m3.grow (2 * s * s)) _
  change Wins _ _ (win9 G N s m1.next m3.next (2 * s) s) _ at q4
  rw [Run_bind]
  refine (Run_loop (fun b m' => ∃ V' hh', Wins (m3.grow (2 * s * s)) m' (win9 G N s m1.next m3.next (2 * s) s) V' ∧
      UpFacts N s α (V' (some (some .U))) (V' (some (some .V))) (V' (some (some .W))) hh' b ∧ UpMat N s α (V' (some none)) hh' b ∧
      ∀ x, x ≠ none → x ≠ some .U → x ≠ some .V → x ≠ some .W → V' (some x) = V2 x)
    ⟨_, hh3, q4, u3, M3, o3⟩ ?_).mono ?_
  · rintro b m' hb ⟨V', hh', w, u, M, o⟩
    refine (d2sUpStep_spec cat hg ht thr _ hs hN (by omega) hQ w u M).mono ?_
    rintro _ m'' ⟨V'', hh'', w', u', M', o'⟩
    exact ⟨V'', hh'', w', u', M', fun x x1 x2 x3 x4 => (o' x x1 x2 x3 x4).trans (o x x1 x2 x3 x4)⟩
  rintro _ m4 ⟨V4, hh4, h4, u4, M4, o4⟩
  rw [Run_bind, Run_free]
  have h5 := h3.pop rfl h4
  generalize e5 : (fun i => V4 (some i)) = V5 at h5
  have r5 : ∀ x, V4 (some x) = V5 x := fun x => by rw [← e5]
  simp only [r5] at u4 M4 o4
  rw [Run_bind]
  refine (d2sLow1_spec cat hg ht thr (fun l => jk (2 :: l)) hs hN hfs h5 (α := α) (fun c i j a1 a2 a3 => M4.low c i j a1 a2 a3)
    (fun q => by rw [o4 _ (by simp) (by decide) (by decide) (by decide), r2]; exact zQ q)).mono ?_
  rintro _ m6 ⟨V6, gg6, h6, u6, M6, o6⟩
  rw [Run_bind, Run_alloc]
  obtain ⟨U7, q7⟩ := h6.push (N := s * (2 * s)) s (2 * s) rfl
  change Run _ (m6.grow (s * (2 * s))) _
  change Wins _ _ (win9 G N s m1.next m6.next s (2 * s)) _ at q7
  rw [Run_bind]
  refine (Run_loop (fun b m' => ∃ V' gg', Wins (m6.grow (s * (2 * s))) m' (win9 G N s m1.next m6.next s (2 * s)) V' ∧
      LowFacts N s α (V' (some (some .P))) (V' (some (some .Q))) (V' (some (some .R))) gg' b ∧ LowMat N s α (V' (some none)) gg' b ∧
      ∀ x, x ≠ none → x ≠ some .P → x ≠ some .Q → x ≠ some .R → V' (some x) = V5 x)
    ⟨_, gg6, q7, u6, M6, o6⟩ ?_).mono ?_
  · rintro b m' hb ⟨V', gg', w, u, M, o⟩
    refine (d2sLowStep_spec cat hg ht thr _ hs hN (by omega) hQ w u M).mono ?_
    rintro _ m'' ⟨V'', gg'', w', u', M', o'⟩
    exact ⟨V'', gg'', w', u', M', fun x x1 x2 x3 x4 => (o' x x1 x2 x3 x4).trans (o x x1 x2 x3 x4)⟩
  rintro _ m7 ⟨V7, gg7, h7, u7, M7, o7⟩
  rw [Run_bind, Run_free, Run_free]
  have p1 := h6.pop rfl h7
  have p2 := k1.pop rfl p1
  rw [Mem.drop_comm] at p2
  refine ⟨_, p2, ?_, fun i hi j hj hij => ?_⟩
  · rw [o7 _ (by simp) (by decide) (by decide) (by decide), o4 _ (by simp) (by decide) (by decide) (by decide), r2, D1]
  · rcases lt_or_gt_of_ne hij with c | c
    · refine UpFacts.final (hh := hh4) (b := sssK N s - 2) ?_ l1 eN (by omega) hj c
      simp only [sssOf]
      rw [o7 (some .U) (by simp) (by decide) (by decide) (by decide), o7 (some .V) (by simp) (by decide) (by decide) (by decide),
        o7 (some .W) (by simp) (by decide) (by decide) (by decide)]
      exact u4
    · exact LowFacts.final (gg := gg7) (b := sssK N s - 2) u7 l1 eN (by omega) hi c

/-- `DenseToSSS` -/
theorem denseToSSS_spec (hs : 0 < s) (h : Wins m0 m (sssWin G N s) V) (hA : Src m0 ⟨A, lda, N, N⟩ α)
    (dA : ∀ x, (Win.mk A lda N N).Disj (sssWin G N s x)) (hQ : QuasiSep N s α) :
    Run (denseToSSS cat g ts thr jk N s G A lda) m (fun _ m' => ∃ V', Wins m0 m' (sssWin G N s) V' ∧
      ∀ i < N, ∀ j < N, sssMat (sssOf V') s i j = α i j) := by
  have diag : ∀ (V' : SssIx → ℕ → ℕ → K) {i j : ℕ}, i / s = j / s → V' .D i (j % s) = α i j → sssMat (sssOf V') s i j = α i j := by
    intro V' i j e q
    unfold sssMat
    rw [if_neg (by rw [e]; exact lt_irrefl _), if_neg (by rw [e]; exact lt_irrefl _)]
    exact q
  unfold denseToSSS
  rw [if_neg (by omega), Run_bind]
  refine (d2sDiag_spec hs h hA dA).mono ?_
  rintro _ m1 ⟨V1, h1, D1⟩
  rif c
  · refine (d2sOff_spec cat hg ht thr jk hs c h1 hA dA hQ).mono ?_
    rintro _ m2 ⟨V2, h2, D2, e2⟩
    refine ⟨V2, h2, fun i hi j hj => ?_⟩
    by_cases q : i / s = j / s
    · exact diag V2 q (by rw [D2]; exact D1 i hi j hj q)
    · exact e2 i hi j hj q
  · rw [Run_pure]
    refine ⟨V1, h1, fun i hi j hj => ?_⟩
    have q : i / s = j / s := by rw [Nat.div_eq_of_lt (by omega), Nat.div_eq_of_lt (by omega)]
    exact diag V1 q (D1 i hi j hj q)

end

/-- the matrix only depends on the entries inside the generators -/
lemma sssMat_congr {p q : Sss K} (hs : 0 < s) (hP : ∀ a < N - s, ∀ b < s, p.P a b = q.P a b) (hQ : ∀ a < N - sssLs N s, ∀ b < s, p.Q a b = q.Q a b)
    (hR : ∀ a < N - s - sssLs N s, ∀ b < s, p.R a b = q.R a b) (hU : ∀ a < N - sssLs N s, ∀ b < s, p.U a b = q.U a b)
    (hV : ∀ a < N - sssLs N s, ∀ b < s, p.V a b = q.V a b) (hW : ∀ a < N - s - sssLs N s, ∀ b < s, p.W a b = q.W a b)
    (hD : ∀ a < N, ∀ b < s, p.D a b = q.D a b) {i j : ℕ} (hi : i < N) (hj : j < N) : sssMat p s i j = sssMat q s i j := by
  have eN := sssN (N := N) (by omega) hs
  have l1 := sssLs_le (N := N) hs
  have dk : ∀ a < N, a / s ≤ sssK N s - 1 := by
    intro a ha
    have : a / s < sssK N s - 1 + 1 := Nat.div_lt_of_lt_mul (by rw [Nat.mul_comm, Nat.add_mul]; omega)
    omega
  have rows : ∀ n c a, c + 1 ≤ n → a < s → c * s + a < n * s := fun n c a h ha => by have := mul_blk (s := s) h; omega
  have e1 : N - sssLs N s = (sssK N s - 1) * s := by omega
  have e2 : N - s - sssLs N s = (sssK N s - 2) * s := by
    rw [show sssK N s - 2 = sssK N s - 1 - 1 by omega, Nat.sub_mul (sssK N s - 1) 1 s]; omega
  rw [e1] at hQ hU hV
  rw [e2] at hR hW
  have hi' := dk i hi
  have hj' := dk j hj
  have jm := Nat.mod_lt j hs
  have im := Nat.mod_lt i hs
  have ie : i / s * s + i % s = i := by rw [Nat.mul_comm]; exact Nat.div_add_mod i s
  have rq : ∀ b d, b + d + 1 ≤ sssK N s - 1 → ∀ l < s, ∀ c < s, rqChain p s b d l c = rqChain q s b d l c := by
    intro b d
    induction d with
    | zero => intro h l hl c hc; exact hQ _ (rows _ _ _ (by omega) hl) _ hc
    | succ d ih =>
      intro h l hl c hc
      unfold rqChain
      refine sum_congr rfl (fun x hx => ?_)
      rw [hR _ (rows _ _ _ (by omega) hl) _ (mem_range.1 hx), ih (by omega) x (mem_range.1 hx) c hc]
  have wv : ∀ b d, b + 1 ≤ sssK N s - 1 → d ≤ b → ∀ l < s, ∀ c < s, wvChain p s b d l c = wvChain q s b d l c := by
    intro b d
    induction d with
    | zero => intro h _ l hl c hc; exact hV _ (rows _ _ _ (by omega) hl) _ hc
    | succ d ih =>
      intro h h' l hl c hc
      unfold wvChain
      refine sum_congr rfl (fun x hx => ?_)
      rw [hW _ (rows _ _ _ (by omega) hl) _ (mem_range.1 hx), ih h (by omega) x (mem_range.1 hx) c hc]
  unfold sssMat
  split
  · refine sum_congr rfl (fun x hx => ?_)
    rw [hP _ _ _ (mem_range.1 hx), rq _ _ (by generalize i / s = u at *; generalize j / s = v at *; omega) x (mem_range.1 hx) _ jm]
    rename_i h
    have : 1 * s ≤ i / s * s := Nat.mul_le_mul_right _ (by generalize i / s = u at *; generalize j / s = v at *; omega)
    rw [Nat.sub_mul]; omega
  · split
    · rename_i h
      refine sum_congr rfl (fun x hx => ?_)
      rw [hU _ (rows _ _ _ (by generalize i / s = u at *; generalize j / s = v at *; omega) im) _ (mem_range.1 hx),
        wv _ _ (by generalize i / s = u at *; generalize j / s = v at *; omega) (Nat.sub_le _ _) x (mem_range.1 hx) _ jm]
    · exact hD _ hi _ jm

end Verif.FF
