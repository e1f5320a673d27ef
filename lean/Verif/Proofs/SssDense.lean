import Verif.Proofs.SssProd

/-!
# `SSSToDense`
-/

namespace Verif.FF

open Finset Verif.Spec

variable {K : Type} [Field K] [DecidableEq K]

/-- `P_r R_{r-1} ⋯ R_{r-d}` -/
def yChain (p : Sss K) (s r : ℕ) : ℕ → ℕ → ℕ → K
  | 0 => fun i l => p.P (r * s + i) l
  | d+1 => fun i l => ∑ x ∈ range s, yChain p s r d i x * p.R ((r - 1 - d) * s + x) l

omit [DecidableEq K] in
lemma yChain_eq {p : Sss K} {s r : ℕ} (d e b i c : ℕ) (h : b + e + d = r) :
    ∑ l ∈ range s, yChain p s r d i l * rqChain p s b e l c = ∑ l ∈ range s, p.P (r * s + i) l * rqChain p s b (e + d) l c := by
  induction d generalizing e with
  | zero => rfl
  | succ d ih =>
    rw [show e + (d + 1) = e + 1 + d by omega, ← ih (e + 1) (by omega)]
    simp only [yChain, rqChain]
    simp only [sum_mul, mul_sum]
    rw [sum_comm]
    refine sum_congr rfl (fun x _ => sum_congr rfl (fun l _ => ?_))
    rw [show r - 1 - d = b + e by omega]
    ring

structure DenEnv (m0 : Mem K) (N s : ℕ) (G : SssPtr) (p : Sss K) (A lda T1 T2 : ℕ) (W : Option (Option Unit) → Win) : Prop where
  hs : 0 < s
  hN : 0 < N
  wC : W rC = ⟨A, lda, N, N⟩
  w1 : W rT1 = ⟨T1, s, s, s⟩
  w2 : W rT2 = ⟨T2, s, s, s⟩
  gS : SssSrc m0 N s G p
  dG : ∀ i, SssDisj N s G (W i)

variable {m0 m : Mem K} {N s A lda T1 T2 : ℕ} {G : SssPtr} {p : Sss K} {W : Option (Option Unit) → Win}
  {V : Option (Option Unit) → ℕ → ℕ → K} {g : GemmFn K}

omit [DecidableEq K] in
lemma Wins.at' {ι : Type} {W : ι → Win} {V : ι → ℕ → ℕ → K} {T r c r' c' ld : ℕ} {τ : ℕ → ℕ → K} (h : Wins m0 m W V) (i : ι)
    (hW : W i = ⟨T, ld, r, c⟩) (hr : r' ≤ r) (hc : c' ≤ c) (e : ∀ a < r', ∀ b < c', V i a b = τ a b) : Src m ⟨T, ld, r', c'⟩ τ := by
  have := ((h.at i hW (τ := V i) (fun _ _ _ _ => rfl)).sub (r := r') (c := c') 0 0 (by simpa using hr) (by simpa using hc)).congr
    (fun a ha b hb => show _ = τ a b by simp only [blk, Nat.zero_add]; exact e a ha b hb)
  simpa [Win.sub, Win.adr] using this

omit [DecidableEq K] in
lemma Wins.dat' {ι : Type} {W : ι → Win} {V : ι → ℕ → ℕ → K} {T r c r' c' ld : ℕ} (h : Wins m0 m W V) (i j : ι)
    (hW : W i = ⟨T, ld, r, c⟩) (hr : r' ≤ r) (hc : c' ≤ c) (hij : i ≠ j) : (Win.mk T ld r' c').Disj (W j) := by
  have := (h.dat i j hW hij).sub_left (i := 0) (j := 0) (r' := r') (c' := c') (by simpa using hr) (by simpa using hc)
  simpa [Win.sub, Win.adr] using this

/-- one block of the result -/
lemma den_blk (hg : GemmOk g) (E : DenEnv m0 N s G p A lda T1 T2 W) (hw : Wins m0 m W V) {I J h w X ldx Y ldy : ℕ} {x y F : ℕ → ℕ → K}
    {D : ℕ → ℕ → Prop} (hI : I * s + h ≤ N) (hJ : J * s + w ≤ N) (hh : h = min s (N - I * s)) (hw' : w = min s (N - J * s))
    (sx : Src m ⟨X, ldx, h, s⟩ x) (sy : Src m ⟨Y, ldy, s, w⟩ y) (dx : (Win.mk X ldx h s).Disj (W rC)) (dy : (Win.mk Y ldy s w).Disj (W rC))
    (hF : ∀ a < h, ∀ c < w, ∑ l ∈ range s, x a l * y l c = F (I * s + a) (J * s + c))
    (hD : ∀ a < N, ∀ c < N, D a c → V rC a c = F a c) {Z : ℕ} (hZ : Z = A + I * s * lda + J * s) :
    Run (g .no .no h w s 1 X ldx Y ldy 0 Z lda) m (fun _ m' => ∃ V', Wins m0 m' W V' ∧
      (∀ a < N, ∀ c < N, D a c ∨ (a / s = I ∧ c / s = J) → V' rC a c = F a c) ∧ ∀ i, i ≠ rC → V' i = V i) := by
  have hs := E.hs
  have sp : ∀ {a I h : ℕ}, a < N → h = min s (N - I * s) → (a / s = I ↔ I * s ≤ a ∧ a < I * s + h) := by
    intro a I h ha e
    have hae : a / s * s + a % s = a := by rw [Nat.mul_comm]; exact Nat.div_add_mod a s
    have ham := Nat.mod_lt a hs
    constructor
    · intro q
      rw [q] at hae
      omega
    · intro q
      rw [show a = I * s + (a - I * s) by omega, divs (by omega)]
  refine (hw.gemm hg rC sx sy (I * s) (J * s) rfl (by rw [E.wC]; exact hI) (by rw [E.wC]; exact hJ) dx dy 1 0 (by rw [E.wC, hZ]; rfl) (by rw [E.wC])).mono
    (fun _ m' h' => ⟨_, h', fun a ha c hc hcond => ?_, fun i hi => Function.update_of_ne hi _ _⟩)
  rw [Function.update_self]
  by_cases q : a / s = I ∧ c / s = J
  · have q1 := (sp ha hh).1 q.1
    have q2 := (sp hc hw').1 q.2
    rw [upd_in' (by simp only []; omega)]
    simp only []
    rw [hF _ (by omega) _ (by omega), one_mul, zero_mul, add_zero, show I * s + (a - I * s) = a by omega, show J * s + (c - J * s) = c by omega]
  · rw [upd_out]
    · exact hD a ha c hc (hcond.resolve_right q)
    · simp only []
      by_contra hcc
      exact q ⟨(sp ha hh).2 (by omega), (sp hc hw').2 (by omega)⟩

/-- a product into a temporary -/
lemma den_set (hg : GemmOk g) (hw : Wins m0 m W V) (i : Option (Option Unit)) {T h w X ldx Y ldy : ℕ} {x y τ : ℕ → ℕ → K}
    (hW : W i = ⟨T, s, s, s⟩) (hh : h ≤ s) (hw' : w ≤ s)
    (sx : Src m ⟨X, ldx, h, s⟩ x) (sy : Src m ⟨Y, ldy, s, w⟩ y) (dx : (Win.mk X ldx h s).Disj (W i)) (dy : (Win.mk Y ldy s w).Disj (W i))
    (hF : ∀ a < h, ∀ c < w, ∑ l ∈ range s, x a l * y l c = τ a c) :
    Run (g .no .no h w s 1 X ldx Y ldy 0 T s) m (fun _ m' => ∃ V', Wins m0 m' W V' ∧
      (∀ a < h, ∀ c < w, V' i a c = τ a c) ∧ ∀ j, j ≠ i → V' j = V j) := by
  refine (hw.gemm hg i sx sy 0 0 rfl (by rw [hW]; simpa using hh) (by rw [hW]; simpa using hw') dx dy 1 0 (by rw [hW]; simp [Win.adr]) (by rw [hW])).mono
    (fun _ m' h' => ⟨_, h', fun a ha c hc => ?_, fun i hi => Function.update_of_ne hi _ _⟩)
  rw [Function.update_self, upd_in' (by simp only []; omega)]
  simp only [Nat.sub_zero, one_mul, zero_mul, add_zero]
  exact hF a ha c hc

/-- blocks of row `r + 1` done -/
def rowDone (D : ℕ → ℕ → Prop) (s r x a c : ℕ) : Prop := D a c ∨ (a / s = r + 1 ∧ c / s ≤ r ∧ r < c / s + x)

lemma rowDone_step {D : ℕ → ℕ → Prop} {s r x a c J : ℕ} (hx : x ≤ r) (hJ : J = r - x) (h : rowDone D s r (x + 1) a c) :
    rowDone D s r x a c ∨ (a / s = r + 1 ∧ c / s = J) := by
  unfold rowDone at *
  generalize c / s = q at *
  generalize a / s = q' at *
  rcases h with h | h
  · exact Or.inl (Or.inl h)
  · by_cases e : q = J
    · exact Or.inr ⟨h.1, e⟩
    · exact Or.inl (Or.inr ⟨h.1, h.2.1, by omega⟩)

/-- a block below the diagonal -/
lemma low_val {r d i c : ℕ} {p : Sss K} (hd : d ≤ r) (hi : i < s) (hc : c < s) :
    ∑ l ∈ range s, yChain p s r d i l * p.Q ((r - d) * s + l) c = sssMat p s ((r + 1) * s + i) ((r - d) * s + c) := by
  have := yChain_eq (p := p) (s := s) (r := r) d 0 (r - d) i c (by omega)
  simp only [rqChain, Nat.zero_add] at this
  rw [this]
  unfold sssMat
  rw [divs hi, divs hc, mods hi, mods hc, if_pos (by omega), Nat.add_sub_cancel, show r - (r - d) = d by omega]

lemma sssRow_spec (hg : GemmOk g) (E : DenEnv m0 N s G p A lda T1 T2 W) {D : ℕ → ℕ → Prop} {r : ℕ} (hr : r + 1 < sssK N s) (hw : Wins m0 m W V)
    (hD : ∀ a < N, ∀ c < N, D a c → V rC a c = sssMat p s a c) :
    Run (sssRow g N s G A lda T1 T2 r) m (fun _ m' => ∃ V', Wins m0 m' W V' ∧
      ∀ a < N, ∀ c < N, rowDone D s r (r + 1) a c → V' rC a c = sssMat p s a c) := by
  have hs := E.hs
  have hN := E.hN
  have e := sssN hN hs
  have l1 := sssLs_pos (N := N) hs
  have l2 := sssLs_le (N := N) hs
  have hm := mul_blk (s := s) (show r + 1 ≤ sssK N s - 1 by omega)
  have er : (r + 1) * s = r * s + s := by ring
  unfold sssRow
  simp only []
  obtain ⟨bz, hbz⟩ : ∃ z, z = if r = sssK N s - 2 then sssLs N s else s := ⟨_, rfl⟩
  have hsz : bz = min s (N - (r + 1) * s) := by
    rw [blk_size hN hs hr, hbz]; exact if_congr (by omega) rfl rfl
  rw [← hbz]
  have hbs : bz ≤ s := by omega
  have hI : (r + 1) * s + bz ≤ N := by omega
  have sP : ∀ {m' : Mem K} {V'}, Wins m0 m' W V' → Src m' ⟨G.P + r * s * G.ldp, G.ldp, bz, s⟩ (yChain p s r 0) := fun h' =>
    ((E.gS.wins h' E.dG).P.rows (r * s) bz s (by omega) le_rfl)
  have dP : ∀ i, (Win.mk (G.P + r * s * G.ldp) G.ldp bz s).Disj (W i) := fun i => Disj.rows (E.dG i).P (r * s) bz s (by omega) le_rfl
  have sQ : ∀ j ≤ r, ∀ {m' : Mem K} {V'}, Wins m0 m' W V' → Src m' ⟨G.Q + j * s * G.ldq, G.ldq, s, s⟩ (fun a c => p.Q (j * s + a) c) := fun j hj _ _ h' => by
    have := mul_blk (s := s) (show j + 1 ≤ sssK N s - 1 by omega)
    exact ((E.gS.wins h' E.dG).Q.rows (j * s) s s (by omega) le_rfl)
  have dQ : ∀ j ≤ r, ∀ i, (Win.mk (G.Q + j * s * G.ldq) G.ldq s s).Disj (W i) := fun j hj i => by
    have := mul_blk (s := s) (show j + 1 ≤ sssK N s - 1 by omega)
    exact Disj.rows (E.dG i).Q (j * s) s s (by omega) le_rfl
  have sR : ∀ j < r, ∀ {m' : Mem K} {V'}, Wins m0 m' W V' → Src m' ⟨G.R + j * s * G.ldr, G.ldr, s, s⟩ (fun a c => p.R (j * s + a) c) := fun j hj _ _ h' => by
    have := mul_blk (s := s) (show (j + 1) + 1 ≤ sssK N s - 1 by omega)
    have : (j + 1) * s = j * s + s := by ring
    exact ((E.gS.wins h' E.dG).R.rows (j * s) s s (by omega) le_rfl)
  have dR : ∀ j < r, ∀ i, (Win.mk (G.R + j * s * G.ldr) G.ldr s s).Disj (W i) := fun j hj i => by
    have := mul_blk (s := s) (show (j + 1) + 1 ≤ sssK N s - 1 by omega)
    have : (j + 1) * s = j * s + s := by ring
    exact Disj.rows (E.dG i).R (j * s) s s (by omega) le_rfl
  have hJ : ∀ j ≤ r, j * s + s ≤ N ∧ s = min s (N - j * s) := fun j hj => by
    have := mul_blk (s := s) (show j + 1 ≤ sssK N s - 1 by omega)
    omega
  -- block `r - d` from a temporary
  have blkT : ∀ (i : Option (Option Unit)) (T d Z : ℕ) {V m}, d ≤ r → i ≠ rC → W i = ⟨T, s, s, s⟩ → Wins m0 m W V →
      (∀ a < bz, ∀ c < s, V i a c = yChain p s r d a c) → Z = A + (r + 1) * s * lda + (r - d) * s →
      (∀ a < N, ∀ c < N, rowDone D s r d a c → V rC a c = sssMat p s a c) →
      Run (g .no .no bz s s 1 T s (G.Q + (r - d) * s * G.ldq) G.ldq 0 Z lda) m (fun _ m' => ∃ V', Wins m0 m' W V' ∧
        (∀ a < N, ∀ c < N, rowDone D s r (d + 1) a c → V' rC a c = sssMat p s a c) ∧ ∀ i, i ≠ rC → V' i = V i) := by
    intro i T d Z V m hd hi hWi h hT hZ hDn
    refine (den_blk (I := r + 1) (J := r - d) hg E h hI (hJ _ (Nat.sub_le _ _)).1 hsz (hJ _ (Nat.sub_le _ _)).2 (h.at' i hWi hbs le_rfl hT)
      (sQ _ (Nat.sub_le _ _) h) (h.dat' i rC hWi hbs le_rfl hi) (dQ _ (Nat.sub_le _ _) _) (F := sssMat p s)
      (fun a ha c hc => low_val hd (by omega) hc) hDn hZ).mono ?_
    rintro _ m' ⟨V', w', c', o'⟩
    exact ⟨V', w', fun a ha c hc q => c' a ha c hc (rowDone_step hd rfl q), o'⟩
  -- `T' ← T R`
  have setT : ∀ (i i' : Option (Option Unit)) (T T' d j : ℕ) {V m}, d < r → j = r - 1 - d → i ≠ i' → W i = ⟨T, s, s, s⟩ → W i' = ⟨T', s, s, s⟩ →
      Wins m0 m W V → (∀ a < bz, ∀ c < s, V i a c = yChain p s r d a c) →
      Run (g .no .no bz s s 1 T s (G.R + j * s * G.ldr) G.ldr 0 T' s) m (fun _ m' => ∃ V', Wins m0 m' W V' ∧
        (∀ a < bz, ∀ c < s, V' i' a c = yChain p s r (d + 1) a c) ∧ ∀ i, i ≠ i' → V' i = V i) := by
    intro i i' T T' d j V m hd hj hi hWi hWi' h hT
    subst hj
    exact den_set hg h i' hWi' hbs le_rfl (h.at' i hWi hbs le_rfl hT) (sR _ (by omega) h) (h.dat' i i' hWi hbs le_rfl hi) (dR _ (by omega) _)
      (fun a ha c hc => rfl)
  rw [Run_bind]
  refine (den_blk (I := r + 1) (J := r) (F := sssMat p s) hg E hw hI (hJ r le_rfl).1 hsz (hJ r le_rfl).2 (sP hw) (sQ r le_rfl hw) (dP _) (dQ r le_rfl _)
    (fun a ha c hc => low_val (d := 0) (Nat.zero_le _) (by omega) hc) hD rfl).mono ?_
  rintro _ m1 ⟨V1, w1, C1, -⟩
  have C1' : ∀ a < N, ∀ c < N, rowDone D s r 1 a c → V1 rC a c = sssMat p s a c := fun a ha c hc q => C1 a ha c hc (by
    rcases rowDone_step (x := 0) (Nat.zero_le _) rfl q with q | q
    · rcases q with q | q
      · exact Or.inl q
      · exact absurd q.2 (by generalize c / s = y; omega)
    · exact Or.inr q)
  rw [Run_bind]
  have key : ∀ m1 V1, Wins m0 m1 W V1 → (∀ a < N, ∀ c < N, rowDone D s r 1 a c → V1 rC a c = sssMat p s a c) →
      (0 < r → ∀ a < bz, ∀ c < s, V1 rT1 a c = yChain p s r 1 a c) →
      Run (do
        loop (r / 2) fun h => do
          let b := 2 * h + 1
          g .no .no bz s s 1 T1 s (G.Q + (r - b) * s * G.ldq) G.ldq 0 (A + (r + 1) * s * lda + (r - b) * s) lda
          g .no .no bz s s 1 T1 s (G.R + (r - 1 - b) * s * G.ldr) G.ldr 0 T2 s
          g .no .no bz s s 1 T2 s (G.Q + (r - b - 1) * s * G.ldq) G.ldq 0 (A + (r + 1) * s * lda + (r - b - 1) * s) lda
          if b + 1 < r then g .no .no bz s s 1 T2 s (G.R + (r - b - 2) * s * G.ldr) G.ldr 0 T1 s else pure ()
        if r % 2 ≠ 0 then g .no .no bz s s 1 T1 s G.Q G.ldq 0 (A + (r + 1) * s * lda) lda else pure ()) m1
      (fun _ m' => ∃ V', Wins m0 m' W V' ∧ ∀ a < N, ∀ c < N, rowDone D s r (r + 1) a c → V' rC a c = sssMat p s a c) := by
    intro m1 V1 w1 C1 t1
    rw [Run_bind]
    refine (Run_loop (fun h m => ∃ V, Wins m0 m W V ∧ (∀ a < N, ∀ c < N, rowDone D s r (2 * h + 1) a c → V rC a c = sssMat p s a c) ∧
      (2 * h + 1 ≤ r → ∀ a < bz, ∀ c < s, V rT1 a c = yChain p s r (2 * h + 1) a c)) ⟨V1, w1, C1, t1⟩ (fun h m hh => ?_)).mono ?_
    · rintro ⟨V2, w2, C2, t2⟩
      have t2 := t2 (by omega)
      simp only []
      rw [Run_bind]
      refine (blkT rT1 T1 (2 * h + 1) _ (by omega) (by simp) E.w1 w2 t2 rfl C2).mono ?_
      rintro _ m3 ⟨V3, w3, C3, o3⟩
      have t3 : ∀ a < bz, ∀ c < s, V3 rT1 a c = yChain p s r (2 * h + 1) a c := by rw [o3 _ (by simp)]; exact t2
      rw [Run_bind]
      refine (setT rT1 rT2 T1 T2 (2 * h + 1) _ (by omega) rfl (by simp) E.w1 E.w2 w3 t3).mono ?_
      rintro _ m4 ⟨V4, w4, t4, o4⟩
      rw [Run_bind, show r - (2 * h + 1) - 1 = r - (2 * h + 1 + 1) by omega]
      refine (blkT rT2 T2 (2 * h + 1 + 1) _ (by omega) (by simp) E.w2 w4 t4 rfl (by rw [o4 _ (by simp)]; exact C3)).mono ?_
      rintro _ m5 ⟨V5, w5, C5, o5⟩
      have t5 : ∀ a < bz, ∀ c < s, V5 rT2 a c = yChain p s r (2 * h + 1 + 1) a c := by rw [o5 _ (by simp)]; exact t4
      have C5' : ∀ a < N, ∀ c < N, rowDone D s r (2 * (h + 1) + 1) a c → V5 rC a c = sssMat p s a c := by
        rw [show 2 * (h + 1) + 1 = 2 * h + 1 + 1 + 1 by ring]; exact C5
      rif hlt
      · refine (setT rT2 rT1 T2 T1 (2 * h + 1 + 1) (r - (2 * h + 1) - 2) (by omega) (by omega) (by simp) E.w2 E.w1 w5 t5).mono ?_
        rintro _ m6 ⟨V6, w6, t6, o6⟩
        refine ⟨V6, w6, ?_, fun _ => ?_⟩
        · rw [o6 _ (by simp)]; exact C5'
        · rw [show 2 * (h + 1) + 1 = 2 * h + 1 + 1 + 1 by ring]; exact t6
      · rw [Run_pure]
        exact ⟨V5, w5, C5', fun q => absurd q (by omega)⟩
    · rintro _ m2 ⟨V2, w2, C2, t2⟩
      rif hodd
      · have t2 := t2 (by omega)
        have er : 2 * (r / 2) + 1 = r := by omega
        rw [er] at t2 C2
        have := blkT rT1 T1 r (A + (r + 1) * s * lda) le_rfl (by simp) E.w1 w2 t2 (by simp) C2
        simp only [Nat.sub_self, Nat.zero_mul, Nat.add_zero] at this
        refine this.mono ?_
        rintro _ m3 ⟨V3, w3, C3, -⟩
        exact ⟨V3, w3, C3⟩
      · rw [Run_pure]
        refine ⟨V2, w2, ?_⟩
        rw [show r + 1 = 2 * (r / 2) + 1 by omega]
        exact C2
  by_cases h0 : r > 0
  · rw [if_pos h0]
    refine (den_set (τ := yChain p s r 1) hg w1 rT1 E.w1 hbs le_rfl (sP w1) (sR (r - 1) (by omega) w1) (dP _) (dR (r - 1) (by omega) _)
      (fun a ha c hc => rfl)).mono ?_
    rintro _ m2 ⟨V2, w2, t2, o2⟩
    exact key m2 V2 w2 (by rw [o2 _ (by simp)]; exact C1') (fun _ => t2)
  · rw [if_neg h0, Run_pure]
    exact key m1 V1 w1 C1' (fun q => absurd q h0)

/-- blocks of column `j + 1` done -/
def colDone (D : ℕ → ℕ → Prop) (s j x a c : ℕ) : Prop := D a c ∨ (c / s = j + 1 ∧ a / s ≤ j ∧ j < a / s + x)

lemma colDone_step {D : ℕ → ℕ → Prop} {s j x a c I : ℕ} (hx : x ≤ j) (hI : I = j - x) (h : colDone D s j (x + 1) a c) :
    colDone D s j x a c ∨ (a / s = I ∧ c / s = j + 1) := by
  unfold colDone at *
  generalize c / s = q at *
  generalize a / s = q' at *
  rcases h with h | h
  · exact Or.inl (Or.inl h)
  · by_cases e : q' = I
    · exact Or.inr ⟨e, h.1⟩
    · exact Or.inl (Or.inr ⟨h.1, h.2.1, by omega⟩)

/-- a block above the diagonal -/
lemma up_val {j d i c : ℕ} {p : Sss K} (hd : d ≤ j) (hi : i < s) (hc : c < s) :
    ∑ l ∈ range s, p.U ((j - d) * s + i) l * wvChain p s j d l c = sssMat p s ((j - d) * s + i) ((j + 1) * s + c) := by
  unfold sssMat
  rw [divs hi, divs hc, mods hi, mods hc, if_neg (by omega), if_pos (by omega), Nat.add_sub_cancel, show j - (j - d) = d by omega]

lemma sssCol_spec (hg : GemmOk g) (E : DenEnv m0 N s G p A lda T1 T2 W) {D : ℕ → ℕ → Prop} {j : ℕ} (hj : j + 1 < sssK N s) (hw : Wins m0 m W V)
    (hD : ∀ a < N, ∀ c < N, D a c → V rC a c = sssMat p s a c) :
    Run (sssCol g N s G A lda T1 T2 j) m (fun _ m' => ∃ V', Wins m0 m' W V' ∧
      ∀ a < N, ∀ c < N, colDone D s j (j + 1) a c → V' rC a c = sssMat p s a c) := by
  have hs := E.hs
  have hN := E.hN
  have e := sssN hN hs
  have l1 := sssLs_pos (N := N) hs
  have l2 := sssLs_le (N := N) hs
  have hm := mul_blk (s := s) (show j + 1 ≤ sssK N s - 1 by omega)
  have er : (j + 1) * s = j * s + s := by ring
  unfold sssCol
  simp only []
  obtain ⟨bz, hbz⟩ : ∃ z, z = if j = sssK N s - 2 then sssLs N s else s := ⟨_, rfl⟩
  have hsz : bz = min s (N - (j + 1) * s) := by
    rw [blk_size hN hs hj, hbz]; exact if_congr (by omega) rfl rfl
  rw [← hbz]
  have hbs : bz ≤ s := by omega
  have hI : (j + 1) * s + bz ≤ N := by omega
  have sV : ∀ {m' : Mem K} {V'}, Wins m0 m' W V' → Src m' ⟨G.V + j * s * G.ldv, G.ldv, s, bz⟩ (wvChain p s j 0) := fun h' =>
    ((E.gS.wins h' E.dG).V.rows (j * s) s bz (by omega) hbs)
  have dV : ∀ i, (Win.mk (G.V + j * s * G.ldv) G.ldv s bz).Disj (W i) := fun i => Disj.rows (E.dG i).V (j * s) s bz (by omega) hbs
  have sU : ∀ x ≤ j, ∀ {m' : Mem K} {V'}, Wins m0 m' W V' → Src m' ⟨G.U + x * s * G.ldu, G.ldu, s, s⟩ (fun a c => p.U (x * s + a) c) := fun x hx _ _ h' => by
    have := mul_blk (s := s) (show x + 1 ≤ sssK N s - 1 by omega)
    exact ((E.gS.wins h' E.dG).U.rows (x * s) s s (by omega) le_rfl)
  have dU : ∀ x ≤ j, ∀ i, (Win.mk (G.U + x * s * G.ldu) G.ldu s s).Disj (W i) := fun x hx i => by
    have := mul_blk (s := s) (show x + 1 ≤ sssK N s - 1 by omega)
    exact Disj.rows (E.dG i).U (x * s) s s (by omega) le_rfl
  have sW : ∀ x < j, ∀ {m' : Mem K} {V'}, Wins m0 m' W V' → Src m' ⟨G.W + x * s * G.ldw, G.ldw, s, s⟩ (fun a c => p.W (x * s + a) c) := fun x hx _ _ h' => by
    have := mul_blk (s := s) (show (x + 1) + 1 ≤ sssK N s - 1 by omega)
    have : (x + 1) * s = x * s + s := by ring
    exact ((E.gS.wins h' E.dG).W.rows (x * s) s s (by omega) le_rfl)
  have dW : ∀ x < j, ∀ i, (Win.mk (G.W + x * s * G.ldw) G.ldw s s).Disj (W i) := fun x hx i => by
    have := mul_blk (s := s) (show (x + 1) + 1 ≤ sssK N s - 1 by omega)
    have : (x + 1) * s = x * s + s := by ring
    exact Disj.rows (E.dG i).W (x * s) s s (by omega) le_rfl
  have hJ : ∀ x ≤ j, x * s + s ≤ N ∧ s = min s (N - x * s) := fun x hx => by
    have := mul_blk (s := s) (show x + 1 ≤ sssK N s - 1 by omega)
    omega
  have blkT : ∀ (i : Option (Option Unit)) (T d Z : ℕ) {V m}, d ≤ j → i ≠ rC → W i = ⟨T, s, s, s⟩ → Wins m0 m W V →
      (∀ a < s, ∀ c < bz, V i a c = wvChain p s j d a c) → Z = A + (j - d) * s * lda + (j + 1) * s →
      (∀ a < N, ∀ c < N, colDone D s j d a c → V rC a c = sssMat p s a c) →
      Run (g .no .no s bz s 1 (G.U + (j - d) * s * G.ldu) G.ldu T s 0 Z lda) m (fun _ m' => ∃ V', Wins m0 m' W V' ∧
        (∀ a < N, ∀ c < N, colDone D s j (d + 1) a c → V' rC a c = sssMat p s a c) ∧ ∀ i, i ≠ rC → V' i = V i) := by
    intro i T d Z V m hd hi hWi h hT hZ hDn
    refine (den_blk (I := j - d) (J := j + 1) hg E h (hJ _ (Nat.sub_le _ _)).1 hI (hJ _ (Nat.sub_le _ _)).2 hsz
      (sU _ (Nat.sub_le _ _) h) (h.at' i hWi le_rfl hbs hT) (dU _ (Nat.sub_le _ _) _) (h.dat' i rC hWi le_rfl hbs hi) (F := sssMat p s)
      (fun a ha c hc => up_val hd ha (by omega)) hDn hZ).mono ?_
    rintro _ m' ⟨V', w', c', o'⟩
    exact ⟨V', w', fun a ha c hc q => c' a ha c hc (colDone_step hd rfl q), o'⟩
  have setT : ∀ (i i' : Option (Option Unit)) (T T' d x : ℕ) {V m}, d < j → x = j - 1 - d → i ≠ i' → W i = ⟨T, s, s, s⟩ → W i' = ⟨T', s, s, s⟩ →
      Wins m0 m W V → (∀ a < s, ∀ c < bz, V i a c = wvChain p s j d a c) →
      Run (g .no .no s bz s 1 (G.W + x * s * G.ldw) G.ldw T s 0 T' s) m (fun _ m' => ∃ V', Wins m0 m' W V' ∧
        (∀ a < s, ∀ c < bz, V' i' a c = wvChain p s j (d + 1) a c) ∧ ∀ i, i ≠ i' → V' i = V i) := by
    intro i i' T T' d x V m hd hx hi hWi hWi' h hT
    subst hx
    refine den_set hg h i' hWi' le_rfl hbs (sW _ (by omega) h) (h.at' i hWi le_rfl hbs hT) (dW _ (by omega) _) (h.dat' i i' hWi le_rfl hbs hi)
      (fun a ha c hc => ?_)
    simp only [wvChain]
    rw [show j - 1 - d = j - (d + 1) by omega]
  rw [Run_bind]
  refine (den_blk (I := j) (J := j + 1) (F := sssMat p s) hg E hw (hJ j le_rfl).1 hI (hJ j le_rfl).2 hsz (sU j le_rfl hw) (sV hw) (dU j le_rfl _) (dV _)
    (fun a ha c hc => up_val (d := 0) (Nat.zero_le _) ha (by omega)) hD rfl).mono ?_
  rintro _ m1 ⟨V1, w1, C1, -⟩
  have C1' : ∀ a < N, ∀ c < N, colDone D s j 1 a c → V1 rC a c = sssMat p s a c := fun a ha c hc q => C1 a ha c hc (by
    rcases colDone_step (x := 0) (Nat.zero_le _) rfl q with q | q
    · rcases q with q | q
      · exact Or.inl q
      · exact absurd q.2 (by generalize a / s = y; omega)
    · exact Or.inr q)
  rw [Run_bind]
  have key : ∀ m1 V1, Wins m0 m1 W V1 → (∀ a < N, ∀ c < N, colDone D s j 1 a c → V1 rC a c = sssMat p s a c) →
      (0 < j → ∀ a < s, ∀ c < bz, V1 rT1 a c = wvChain p s j 1 a c) →
      Run (do
        loop (j / 2) fun h => do
          let b := 2 * h + 1
          g .no .no s bz s 1 (G.U + (j - b) * s * G.ldu) G.ldu T1 s 0 (A + (j - b) * s * lda + (j + 1) * s) lda
          g .no .no s bz s 1 (G.W + (j - 1 - b) * s * G.ldw) G.ldw T1 s 0 T2 s
          g .no .no s bz s 1 (G.U + (j - b - 1) * s * G.ldu) G.ldu T2 s 0 (A + (j - b - 1) * s * lda + (j + 1) * s) lda
          if b + 1 < j then g .no .no s bz s 1 (G.W + (j - b - 2) * s * G.ldw) G.ldw T2 s 0 T1 s else pure ()
        if j % 2 ≠ 0 then g .no .no s bz s 1 G.U G.ldu T1 s 0 (A + (j + 1) * s) lda else pure ()) m1
      (fun _ m' => ∃ V', Wins m0 m' W V' ∧ ∀ a < N, ∀ c < N, colDone D s j (j + 1) a c → V' rC a c = sssMat p s a c) := by
    intro m1 V1 w1 C1 t1
    rw [Run_bind]
    refine (Run_loop (fun h m => ∃ V, Wins m0 m W V ∧ (∀ a < N, ∀ c < N, colDone D s j (2 * h + 1) a c → V rC a c = sssMat p s a c) ∧
      (2 * h + 1 ≤ j → ∀ a < s, ∀ c < bz, V rT1 a c = wvChain p s j (2 * h + 1) a c)) ⟨V1, w1, C1, t1⟩ (fun h m hh => ?_)).mono ?_
    · rintro ⟨V2, w2, C2, t2⟩
      have t2 := t2 (by omega)
      simp only []
      rw [Run_bind]
      refine (blkT rT1 T1 (2 * h + 1) _ (by omega) (by simp) E.w1 w2 t2 rfl C2).mono ?_
      rintro _ m3 ⟨V3, w3, C3, o3⟩
      have t3 : ∀ a < s, ∀ c < bz, V3 rT1 a c = wvChain p s j (2 * h + 1) a c := by rw [o3 _ (by simp)]; exact t2
      rw [Run_bind]
      refine (setT rT1 rT2 T1 T2 (2 * h + 1) _ (by omega) rfl (by simp) E.w1 E.w2 w3 t3).mono ?_
      rintro _ m4 ⟨V4, w4, t4, o4⟩
      rw [Run_bind, show j - (2 * h + 1) - 1 = j - (2 * h + 1 + 1) by omega]
      refine (blkT rT2 T2 (2 * h + 1 + 1) _ (by omega) (by simp) E.w2 w4 t4 rfl (by rw [o4 _ (by simp)]; exact C3)).mono ?_
      rintro _ m5 ⟨V5, w5, C5, o5⟩
      have t5 : ∀ a < s, ∀ c < bz, V5 rT2 a c = wvChain p s j (2 * h + 1 + 1) a c := by rw [o5 _ (by simp)]; exact t4
      have C5' : ∀ a < N, ∀ c < N, colDone D s j (2 * (h + 1) + 1) a c → V5 rC a c = sssMat p s a c := by
        rw [show 2 * (h + 1) + 1 = 2 * h + 1 + 1 + 1 by ring]; exact C5
      rif hlt
      · refine (setT rT2 rT1 T2 T1 (2 * h + 1 + 1) (j - (2 * h + 1) - 2) (by omega) (by omega) (by simp) E.w2 E.w1 w5 t5).mono ?_
        rintro _ m6 ⟨V6, w6, t6, o6⟩
        refine ⟨V6, w6, ?_, fun _ => ?_⟩
        · rw [o6 _ (by simp)]; exact C5'
        · rw [show 2 * (h + 1) + 1 = 2 * h + 1 + 1 + 1 by ring]; exact t6
      · rw [Run_pure]
        exact ⟨V5, w5, C5', fun q => absurd q (by omega)⟩
    · rintro _ m2 ⟨V2, w2, C2, t2⟩
      rif hodd
      · have t2 := t2 (by omega)
        have er : 2 * (j / 2) + 1 = j := by omega
        rw [er] at t2 C2
        have := blkT rT1 T1 j (A + (j + 1) * s) le_rfl (by simp) E.w1 w2 t2 (by simp) C2
        simp only [Nat.sub_self, Nat.zero_mul, Nat.add_zero] at this
        refine this.mono ?_
        rintro _ m3 ⟨V3, w3, C3, -⟩
        exact ⟨V3, w3, C3⟩
      · rw [Run_pure]
        refine ⟨V2, w2, ?_⟩
        rw [show j + 1 = 2 * (j / 2) + 1 by omega]
        exact C2
  by_cases h0 : j > 0
  · rw [if_pos h0]
    refine (den_set (τ := wvChain p s j 1) hg w1 rT1 E.w1 le_rfl hbs (sW (j - 1) (by omega) w1) (sV w1) (dW (j - 1) (by omega) _) (dV _)
      (fun a ha c hc => rfl)).mono ?_
    rintro _ m2 ⟨V2, w2, t2, o2⟩
    exact key m2 V2 w2 (by rw [o2 _ (by simp)]; exact C1') (fun _ => t2)
  · rw [if_neg h0, Run_pure]
    exact key m1 V1 w1 C1' (fun q => absurd q h0)

/-- the block diagonal -/
lemma denDiag_spec {c0 : ℕ → ℕ → K} (hs : 0 < s) (o : On m0 m ⟨A, lda, N, N⟩ c0)
    (hD : Src m0 ⟨G.D, G.ldd, N, s⟩ p.D) (dD : (Win.mk G.D G.ldd N s).Disj ⟨A, lda, N, N⟩) :
    Run (do
      loop (N / s) fun b => fassign s s (G.D + b * s * G.ldd) G.ldd (A + b * s * (lda + 1)) lda
      if N % s ≠ 0 then fassign (N % s) (N % s) (G.D + N / s * s * G.ldd) G.ldd (A + N / s * s * (lda + 1)) lda else pure ()) m
      (fun _ m' => ∃ c1, On m0 m' ⟨A, lda, N, N⟩ c1 ∧ ∀ a < N, ∀ c < N, a / s = c / s → c1 a c = sssMat p s a c) := by
  have hdm : N / s * s + N % s = N := by rw [Nat.mul_comm]; exact Nat.div_add_mod N s
  have hml := Nat.mod_lt N hs
  have one : ∀ (j bs : ℕ) (m1 : Mem K), j * s + bs ≤ N → bs = min s (N - j * s) →
      (∃ c1, On m0 m1 ⟨A, lda, N, N⟩ c1 ∧ ∀ a < N, ∀ c < N, a / s = c / s → a / s < j → c1 a c = sssMat p s a c) →
      Run (fassign bs bs (G.D + j * s * G.ldd) G.ldd (A + j * s * (lda + 1)) lda) m1
        (fun _ m' => ∃ c1, On m0 m' ⟨A, lda, N, N⟩ c1 ∧ ∀ a < N, ∀ c < N, a / s = c / s → a / s < j + 1 → c1 a c = sssMat p s a c) := by
    rintro j bs m1 hj hbs ⟨c1, o1, e1⟩
    refine (fassign_src o1 ((hD.on o1 dD).rows (j * s) bs bs hj (by omega)) (Disj.rows dD (j * s) bs bs hj (by omega)) (i0 := j * s) (j0 := j * s)
      hj hj (by simp only [Win.adr]; ring)).mono (fun _ m2 o2 => ⟨_, o2, fun a ha c hc hac hlt => ?_⟩)
    have sp : ∀ a < N, (a / s = j ↔ j * s ≤ a ∧ a < j * s + bs) := by
      intro a ha
      have hae : a / s * s + a % s = a := by rw [Nat.mul_comm]; exact Nat.div_add_mod a s
      have ham := Nat.mod_lt a hs
      constructor
      · intro q
        rw [q] at hae
        omega
      · intro q
        rw [show a = j * s + (a - j * s) by omega, divs (by omega)]
    by_cases ej : a / s = j
    · have q1 := (sp a ha).1 ej
      have q2 := (sp c hc).1 (hac ▸ ej)
      rw [upd_in' (by simp only []; omega)]
      unfold sssMat
      rw [hac, if_neg (lt_irrefl _), if_neg (lt_irrefl _), show j * s + (a - j * s) = a by omega]
      congr 1
      rw [show c = j * s + (c - j * s) by omega, mods (by omega)]; omega
    · rw [upd_out]
      · exact e1 a ha c hc hac (by generalize a / s = q at *; omega)
      · simp only []
        by_contra hcc
        exact ej ((sp a ha).2 (by omega))
  rw [Run_bind]
  refine (Run_loop (fun j m1 => ∃ c1, On m0 m1 ⟨A, lda, N, N⟩ c1 ∧ ∀ a < N, ∀ c < N, a / s = c / s → a / s < j → c1 a c = sssMat p s a c)
    ⟨c0, o, fun a _ c _ _ q => absurd q (Nat.not_lt_zero _)⟩ (fun j m1 hj o1 => ?_)).mono ?_
  · have := mul_blk (s := s) (show j + 1 ≤ N / s from hj)
    exact one j s m1 (by omega) (by omega) o1
  · intro _ m1 o1
    have fin : ∀ x, N ≤ x * s → ∀ a < N, a / s < x := fun x hx a ha => Nat.div_lt_of_lt_mul (by rw [Nat.mul_comm]; omega)
    rif h
    · refine (one (N / s) (N % s) m1 (by omega) (by omega) o1).mono ?_
      rintro _ m2 ⟨c2, o2, e2⟩
      exact ⟨c2, o2, fun a ha c hc q => e2 a ha c hc q (fin _ (by rw [Nat.add_mul]; omega) a ha)⟩
    · rw [Run_pure]
      obtain ⟨c1, o1, e1⟩ := o1
      exact ⟨c1, o1, fun a ha c hc q => e1 a ha c hc q (fin _ (by omega) a ha)⟩

/-- `SSSToDense` -/
theorem sssToDense_spec (hg : GemmOk g) {c0 : ℕ → ℕ → K} (hs : 0 < s) (hN : 0 < N) (o : On m0 m ⟨A, lda, N, N⟩ c0)
    (gS : SssSrc m0 N s G p) (dG : SssDisj N s G ⟨A, lda, N, N⟩) :
    Run (sssToDense g N s G A lda) m (fun _ m' => On m0 m' ⟨A, lda, N, N⟩ (sssMat p s)) := by
  have hk := sssK_pos hN hs
  unfold sssToDense
  rw [if_neg (by omega)]
  have dd := denDiag_spec hs o gS.D dG.D
  rw [Run_bind] at dd ⊢
  refine dd.mono (fun _ m' d' => ?_)
  rw [Run_bind]
  refine d'.mono ?_
  rintro _ m1 ⟨c1, o1, D1⟩
  rw [Run_bind, Run_alloc]
  have k1 := Wins.one o1
  have gS1 : SssSrc m1 N s G p := gS.wins k1 (fun _ => dG)
  obtain ⟨U1, q1⟩ := k1.push (N := s * s) s s rfl
  change Run _ (m1.grow (s * s)) _
  rw [Run_bind, Run_alloc]
  change Run _ ((m1.grow (s * s)).grow (s * s)) _
  obtain ⟨U2, q2⟩ := q1.push (N := s * s) s s rfl
  have gS2 := gS1.grow (s * s)
  have E : DenEnv ((m1.grow (s * s)).grow (s * s)) N s G p A lda m1.next (m1.grow (s * s)).next
      (ocons ⟨(m1.grow (s * s)).next, s, s, s⟩ (ocons ⟨m1.next, s, s, s⟩ (fun _ : Unit => ⟨A, lda, N, N⟩))) := by
    refine ⟨hs, hN, rfl, rfl, rfl, gS2.grow _, ?_⟩
    rintro (_ | _ | _)
    · exact gS2.fresh q1.wf' s s
    · exact gS1.fresh k1.wf' s s
    · exact dG
  rw [if_neg (by omega), Run_bind]
  refine (Run_loop (fun r m => ∃ V, Wins ((m1.grow (s * s)).grow (s * s)) m (ocons ⟨(m1.grow (s * s)).next, s, s, s⟩ (ocons ⟨m1.next, s, s, s⟩ (fun _ : Unit => ⟨A, lda, N, N⟩))) V ∧
    ∀ a < N, ∀ c < N, a / s = c / s ∨ (c / s < a / s ∧ a / s ≤ r) → V rC a c = sssMat p s a c) ⟨_, q2, ?_⟩ ?_).mono ?_
  · intro a ha c hc q
    exact D1 a ha c hc (by generalize a / s = x at *; generalize c / s = y at *; omega)
  · rintro r m2 hr ⟨V2, w2, C2⟩
    refine (sssRow_spec hg E (by omega) w2 C2).mono ?_
    rintro _ m3 ⟨V3, w3, C3⟩
    refine ⟨V3, w3, fun a ha c hc q => C3 a ha c hc ?_⟩
    revert q
    unfold rowDone
    beta_reduce
    generalize a / s = x; generalize c / s = y; omega
  rintro _ m2 ⟨V2, w2, C2⟩
  rw [Run_bind]
  refine (Run_loop (fun r m => ∃ V, Wins ((m1.grow (s * s)).grow (s * s)) m (ocons ⟨(m1.grow (s * s)).next, s, s, s⟩ (ocons ⟨m1.next, s, s, s⟩ (fun _ : Unit => ⟨A, lda, N, N⟩))) V ∧
    ∀ a < N, ∀ c < N, c / s ≤ a / s ∨ c / s ≤ r → V rC a c = sssMat p s a c) ⟨V2, w2, ?_⟩ ?_).mono ?_
  · intro a ha c hc q
    have := div_lt_sssK hN hs ha
    exact C2 a ha c hc (by generalize a / s = x at *; generalize c / s = y at *; omega)
  · rintro r m2 hr ⟨V2, w2, C2⟩
    refine (sssCol_spec hg E (by omega) w2 C2).mono ?_
    rintro _ m3 ⟨V3, w3, C3⟩
    refine ⟨V3, w3, fun a ha c hc q => C3 a ha c hc ?_⟩
    revert q
    unfold colDone
    beta_reduce
    generalize a / s = x; generalize c / s = y; omega
  rintro _ m3 ⟨V3, w3, C3⟩
  rw [Run_bind, Run_free, Run_free]
  have p1 := q1.pop rfl w3
  have p2 := k1.pop rfl p1
  have p3 := p2.unone
  change On m0 ((m3.drop m1.next (s * s)).drop (m1.grow (s * s)).next (s * s)) _ _
  rw [Mem.drop_comm]
  refine p3.congr (fun a ha c hc => ?_)
  have hc' := div_lt_sssK hN hs (show c < N from hc)
  exact C3 a ha c hc (Or.inr (by generalize c / s = y at *; omega))

end Verif.FF
