import Verif.Proofs.BruhatTmp

/-!
# `LTBruhatGen` computes a Bruhat generator
-/

namespace Verif.FF

open Finset Verif.Spec Verif.Spec.Perm Verif.Pluq Verif.Perm Verif.Bruhat

variable {K : Type} [Field K] [DecidableEq K] {m0 m : Mem K} {W : Win} {X V : ℕ → ℕ → K}

omit [DecidableEq K] in
lemma _root_.Verif.Bruhat.BF.congrX {d : Diag} {N r : ℕ} {X X' V : ℕ → ℕ → K} {p q : ℕ → ℕ} (h : BF d N X V p q r)
    (e : ∀ i < N, ∀ j < N, X i j = X' i j) : BF d N X' V p q r :=
  ⟨h.bd, h.injP, h.injQ, h.piv, fun i j hij => by rw [← e i (by omega) j (by omega), h.fac i j hij],
    fun i hi hz => h.zr i hi (fun j hj => by rw [e i hi j hj]; exact hz j hj),
    fun j hj hz => h.zc j hj (fun i hi => by rw [e i hi j hj]; exact hz i hi)⟩

/-- what `LTBruhatGen` promises -/
def LtPost (d : Diag) (m0 : Mem K) (W : Win) (X : ℕ → ℕ → K) (N lP lQ : ℕ) : ℕ × Arr ℕ × Arr ℕ → Mem K → Prop := fun y m' =>
  y.2.1.len = lP ∧ y.2.2.len = lQ ∧ ∃ V, On m0 m' W V ∧ BF d N X V y.2.1.get y.2.2.get y.1

/-- a recursive call is correct below a bound -/
def LtOk (rec : LtFn K) (d : Diag) (lda bound : ℕ) : Prop := ∀ (jk : List ℕ → ℕ → ℕ) (m0 m : Mem K) (W : Win) (X : ℕ → ℕ → K) (P Q : Arr ℕ),
  W.ld = lda → W.r = W.c → 0 < W.r → W.r < bound → W.r ≤ P.len → W.r ≤ Q.len → On m0 m W X →
  Run (rec jk W.r W.p P Q) m (LtPost d m0 W X W.r P.len Q.len)

omit [DecidableEq K] in
/-- a recursive call on a block -/
lemma ltRec_on {rec : LtFn K} {d : Diag} {bound : ℕ} (hrec : LtOk rec d W.ld bound) (h : On m0 m W V) (jk : List ℕ → ℕ → ℕ) {P Q : Arr ℕ}
    {n A : ℕ} (i0 j0 : ℕ) {x : ℕ → ℕ → K} (f : At V i0 j0 n n x) (hA : A = W.adr i0 j0) (hr : i0 + n ≤ W.r) (hc : j0 + n ≤ W.c) (h0 : 0 < n)
    (hb : n < bound) (hP : n ≤ P.len) (hQ : n ≤ Q.len) :
    Run (rec jk n A P Q) m (fun y m' => y.2.1.len = P.len ∧ y.2.2.len = Q.len ∧
      ∃ Y, On m0 m' W (upd i0 j0 n n Y V) ∧ BF d n x Y y.2.1.get y.2.2.get y.1) := by
  subst hA
  refine (hrec jk m m (W.sub i0 j0 n n) (blk V i0 j0) P Q rfl rfl h0 hb hP hQ (h.sub hr hc)).mono ?_
  rintro y m' ⟨e1, e2, Y, s, hF⟩
  exact ⟨e1, e2, Y, h.upd hr hc s.step, hF.congrX f⟩

omit [Field K] [DecidableEq K] in
lemma At.glueR {a b h1 h2 w : ℕ} {f g : ℕ → ℕ → K} (t1 : At V a b h1 w f) (t2 : At V (a + h1) b h2 w g) {h : ℕ} (e : h = h1 + h2) :
    At V a b h w (fun i j => if i < h1 then f i j else g (i - h1) j) := fun i hi j hj => by
  show V (a + i) (b + j) = if i < h1 then f i j else g (i - h1) j
  by_cases c : i < h1
  · rw [if_pos c]; exact t1 i c j hj
  · rw [if_neg c, ← t2 (i - h1) (by omega) j hj]
    congr 1; omega

omit [Field K] [DecidableEq K] in
lemma At.glueC {a b w1 w2 h : ℕ} {f g : ℕ → ℕ → K} (t1 : At V a b h w1 f) (t2 : At V a (b + w1) h w2 g) {w : ℕ} (e : w = w1 + w2) :
    At V a b h w (fun i j => if j < w1 then f i j else g i (j - w1)) := fun i hi j hj => by
  show V (a + i) (b + j) = if j < w1 then f i j else g i (j - w1)
  by_cases c : j < w1
  · rw [if_pos c]; exact t1 i hi j c
  · rw [if_neg c, ← t2 i hi (j - w1) (by omega)]
    congr 1; omega

omit [Field K] [DecidableEq K] in
/-- distinct numbers -/
lemma room {p p2 : ℕ → ℕ} {n r1 r2 : ℕ} (b1 : ∀ k < r1, p k < n) (b2 : ∀ k < r2, p2 k < n) (i1 : ∀ k < r1, ∀ k' < r1, p k = p k' → k = k')
    (i2 : ∀ k < r2, ∀ k' < r2, p2 k = p2 k' → k = k') (hd : ∀ k < r1, ∀ k' < r2, p k ≠ p2 k') : r1 + r2 ≤ n := by
  have := Finset.card_le_card_of_injOn (s := range (r1 + r2)) (t := range n) (fun k => if k < r1 then p k else p2 (k - r1)) ?_ ?_
  · simpa using this
  · intro k hk
    have hk : k < r1 + r2 := by simpa using hk
    simp only [coe_range, Set.mem_Iio]
    split_ifs with c
    · exact b1 k c
    · exact b2 _ (by omega)
  · intro k hk k' hk' e
    have hk : k < r1 + r2 := by simpa using hk
    have hk' : k' < r1 + r2 := by simpa using hk'
    simp only [] at e
    split_ifs at e with c c'
    · exact i1 k c k' c' e
    · exact absurd e (hd k c _ (by omega))
    · exact absurd e.symm (hd k' (by assumption) _ (by omega))
    · have := i2 _ (by omega) _ (by omega) e
      omega

omit [Field K] [DecidableEq K] in
/-- `P[i] += x` -/
lemma shiftFrom_spec (P : Arr ℕ) (o n x : ℕ) (h : o + n ≤ P.len) :
    Ok (shiftFrom P o n x) (fun P' => P'.len = P.len ∧ ∀ i, P'.get i = if o ≤ i ∧ i < o + n then P.get i + x else P.get i) := by
  unfold shiftFrom
  refine Ok_iter (fun k (A : Arr ℕ) => A.len = P.len ∧ ∀ i, A.get i = if o ≤ i ∧ i < o + k then P.get i + x else P.get i) ⟨rfl, fun i => ?_⟩ ?_
  · rw [if_neg (by omega)]
  · rintro k A hk ⟨l, e⟩
    rw [Ok_bind, Ok_rd]
    refine ⟨by omega, ?_⟩
    rw [Ok_wr]
    refine ⟨by omega, l, fun i => ?_⟩
    show Function.update A.get (o + k) (A.get (o + k) + x) i = _
    by_cases c : i = o + k
    · subst c
      rw [Function.update_self, e, if_neg (by omega), if_pos (by omega)]
    · rw [Function.update_of_ne c, e]
      by_cases c' : o ≤ i ∧ i < o + k
      · rw [if_pos c', if_pos (by omega)]
      · rw [if_neg c', if_neg (by omega)]

theorem ltStep_spec (cat : Cat) {g : GemmFn K} {ts : TrsmFn K} (hg : GemmOk g) (ht : TrsmOk ts) (thr : ℕ) {rec : LtFn K} {d : Diag} {N : ℕ}
    (hrec : LtOk rec d W.ld N) (jk : List ℕ → ℕ → ℕ) (h : On m0 m W X) (hr : W.r = N) (hc : W.c = N) (hN : 1 < N) {P Q : Arr ℕ}
    (hP : N ≤ P.len) (hQ : N ≤ Q.len) :
    Run (ltStep cat g ts thr rec d W.ld jk N W.p P Q) m (LtPost d m0 W X N P.len Q.len) := by
  unfold ltStep
  obtain ⟨n2, hN2⟩ : ∃ n2, N / 2 = n2 := ⟨_, rfl⟩
  obtain ⟨n1, hN1⟩ : ∃ n1, N - N / 2 = n1 := ⟨_, rfl⟩
  have hN1' : N - n2 = n1 := by omega
  have hNN : n1 + n2 = N := by omega
  simp only []
  rw [hN2, hN1', Run_bind]
  -- PLUQ of the leading block
  have hp := pluq_spec (W := W.sub 0 0 n1 n2) (V := X) (P := Arr.mk' n1 (jk [0])) (Q := Arr.mk' n2 (jk [1])) cat hg ht thr (fun l => jk (20 :: l)) d
    ((h.sub (i0 := 0) (j0 := 0) (r := n1) (c := n2) (by omega) (by omega)).congr (fun i hi j hj => by simp [blk])) rfl rfl
  rw [show (W.sub 0 0 n1 n2).p = W.p by simp [Win.sub, Win.adr]] at hp
  refine Run.mono hp ?_
  rintro ⟨r1, P1, Q1⟩ ma ⟨lP1, lQ1, tP1, tQ1, V1, s1, f1⟩
  simp only [] at lP1 lQ1 tP1 tQ1 f1 ⊢
  have lP1 : P1.len = n1 := lP1
  have lQ1 : Q1.len = n2 := lQ1
  have tP1 : IsTranspArray P1.get n1 := tP1
  have tQ1 : IsTranspArray Q1.get n2 := tQ1
  have f1 : Fac d n1 n2 X V1 (ofSwaps P1.get n1) (ofSwaps Q1.get n2) r1 := f1
  have ha : On m0 ma W (upd 0 0 n1 n2 V1 X) := h.upd (by omega) (by omega) s1.step
  clear s1 hp
  have r1M := f1.rM
  have r1N := f1.rN
  have bP1 : ∀ i < n1, P1.get i < n1 := fun i hi => (tP1 i hi).2
  have bQ1 : ∀ i < n2, Q1.get i < n2 := fun i hi => (tQ1 i hi).2
  rw [Run_bind, Run_liftE]
  refine (LAPACKPerm2MathPerm_spec' n1 P P1 (by omega) lP1 bP1).mono ?_
  rintro PA ⟨lPA, ePA⟩
  rw [Run_bind, Run_liftE]
  refine (LAPACKPerm2MathPerm_spec' n2 Q Q1 (by omega) lQ1 bQ1).mono ?_
  rintro QA ⟨lQA, eQA⟩
  rw [Run_bind]
  refine (ltElim_on (X := X) hg ht ha hN2 hN1 rfl hr hc At.new ?_ ?_ lP1 lQ1 bP1 bQ1 f1).mono ?_
  · intro i hi j hj
    rw [upd_out (by omega), Nat.zero_add]
  · intro i hi j hj
    rw [upd_out (by omega), Nat.zero_add]
  rintro _ mb ⟨Vb, D, E, F, G, hb, el⟩
  clear ha
  have iP : ∀ i < n1, (ofSwaps P1.get n1)⁻¹ i < n1 := fun i hi => inv_lt f1.pP hi
  have iQ : ∀ i < n2, (ofSwaps Q1.get n2)⁻¹ i < n2 := fun i hi => inv_lt f1.pQ hi
  generalize hσ : ofSwaps P1.get n1 = σ at *
  generalize hτ : ofSwaps Q1.get n2 = τ at *
  have invσ : ∀ k, σ⁻¹ (σ k) = k := fun k => σ.symm_apply_apply k
  have invτ : ∀ k, τ⁻¹ (τ k) = k := fun k => τ.symm_apply_apply k
  have invσ' : ∀ k, σ (σ⁻¹ k) = k := fun k => perm_inv σ k
  have invτ' : ∀ k, τ (τ⁻¹ k) = k := fun k => perm_inv τ k
  obtain ⟨tA, tD, tF, tE, tG, eD, eE, eF, eG⟩ := el
  -- copies
  refine copies_on hb (i2 := 0) (j2 := n2) (i3 := n1) (j3 := 0) (by simp [Win.adr]) (by simp [Win.adr]) (by omega) (by omega) (by omega) (by omega) tD tE ?_
  intro Dp Ep mE tmp
  have hc0 := tmp.on
  rw [Run_bind]
  refine (fzero_on hc0 0 n2 r1 n1 (by omega) (by omega) (by simp [Win.adr])).mono (fun _ mc hc' => ?_)
  clear hc0
  replace tA := tA.out (i0 := 0) (j0 := n2) (r := r1) (c := n1) (g := fun _ _ => 0) (by omega)
  replace tF := tF.out (i0 := 0) (j0 := n2) (r := r1) (c := n1) (g := fun _ _ => 0) (by omega)
  replace tG := tG.out (i0 := 0) (j0 := n2) (r := r1) (c := n1) (g := fun _ _ => 0) (by omega)
  have tZ : At (upd 0 n2 r1 n1 (fun _ _ => 0) Vb) 0 n2 r1 n1 (fun _ _ => 0) := At.new
  clear tD tE
  generalize upd 0 n2 r1 n1 (fun _ _ => 0) Vb = Vc at *
  rw [Run_bind]
  refine (fzero_on hc' n1 0 n2 r1 (by omega) (by omega) (by simp [Win.adr])).mono (fun _ md hd => ?_)
  clear hc'
  replace tA := tA.out (i0 := n1) (j0 := 0) (r := n2) (c := r1) (g := fun _ _ => 0) (by omega)
  replace tF := tF.out (i0 := n1) (j0 := 0) (r := n2) (c := r1) (g := fun _ _ => 0) (by omega)
  replace tG := tG.out (i0 := n1) (j0 := 0) (r := n2) (c := r1) (g := fun _ _ => 0) (by omega)
  replace tZ := tZ.out (i0 := n1) (j0 := 0) (r := n2) (c := r1) (g := fun _ _ => 0) (by omega)
  have tZ' : At (upd n1 0 n2 r1 (fun _ _ => 0) Vc) n1 0 n2 r1 (fun _ _ => 0) := At.new
  generalize upd n1 0 n2 r1 (fun _ _ => 0) Vc = Vd at *
  have t2 := At.glueR (h := n1) tZ (by rw [Nat.zero_add]; exact tF) (by omega)
  have t3 := At.glueC (w := n2) tZ' (by rw [Nat.zero_add]; exact tG) (by omega)
  clear tZ tZ' tF tG
  -- H and G
  rw [Run_bind]
  refine (rowsPinv_on hd 0 n2 (by simp [Win.adr]) (by omega) (by omega) lP1 bP1).mono (fun _ me he => ?_)
  rw [hσ] at he
  clear hd
  replace tA := tA.outR (i0 := 0) (j0 := n2) (r := n1) (c := n1) (σ := (σ⁻¹ : Equiv.Perm ℕ)) (by omega)
  replace t2 := t2.rows0 (j0 := n2) (c := n1) (σ := (σ⁻¹ : Equiv.Perm ℕ)) (by omega) (by omega) iP
  replace t3 := t3.outR (i0 := 0) (j0 := n2) (r := n1) (c := n1) (σ := (σ⁻¹ : Equiv.Perm ℕ)) (by omega)
  generalize permRows 0 n2 n1 n1 (σ⁻¹ : Equiv.Perm ℕ) Vd = Ve at *
  rw [Run_bind]
  refine (colsPinv_on he n1 0 (by simp [Win.adr]) (by omega) (by omega) lQ1 bQ1).mono (fun _ mf hf => ?_)
  rw [hτ] at hf
  clear he
  replace tA := tA.outC (i0 := n1) (j0 := 0) (r := n2) (c := n2) (σ := (τ⁻¹ : Equiv.Perm ℕ)) (by omega)
  replace t2 := t2.outC (i0 := n1) (j0 := 0) (r := n2) (c := n2) (σ := (τ⁻¹ : Equiv.Perm ℕ)) (by omega)
  replace t3 := t3.cols0 (i0 := n1) (r := n2) (σ := (τ⁻¹ : Equiv.Perm ℕ)) (by omega) (by omega) iQ
  generalize permCols n1 0 n2 n2 (τ⁻¹ : Equiv.Perm ℕ) Ve = Vf at *
  generalize hH : (fun i j => if σ⁻¹ i < r1 then (0 : K) else F (σ⁻¹ i - r1) j) = H at t2
  generalize hGG : (fun i j => if τ⁻¹ j < r1 then (0 : K) else G i (τ⁻¹ j - r1)) = GG at t3
  have hH : ∀ i j, H i j = if σ⁻¹ i < r1 then (0 : K) else F (σ⁻¹ i - r1) j := fun i j => by rw [← hH]
  have hGG : ∀ i j, GG i j = if τ⁻¹ j < r1 then (0 : K) else G i (τ⁻¹ j - r1) := fun i j => by rw [← hGG]
  have H0 : ∀ k < r1, ∀ j < n1, H (σ k) j = 0 := fun k hk j _ => by rw [hH, invσ, if_pos hk]
  have G0 : ∀ k < r1, ∀ i < n2, GG i (τ k) = 0 := fun k hk i _ => by rw [hGG, invτ, if_pos hk]
  -- first recursive call
  have eT : ∀ (P : Arr ℕ) (o : ℕ), o ≤ P.len → tailOf P o = .ok ⟨P.len - o, fun i => P.get (o + i)⟩ := fun P o ho => by rw [tailOf, if_pos ho]
  rw [Run_bind, Run_liftE, eT _ _ (by omega), Ok_ok, Run_bind, Run_liftE, eT _ _ (by omega), Ok_ok, Run_bind]
  refine (ltRec_on hrec hf (fun l => jk (21 :: l)) 0 n2 t2 (by simp [Win.adr]) (by omega) (by omega) (by omega) (by omega) (by simp only []; omega)
    (by simp only []; omega)).mono ?_
  rintro ⟨r2, P2, Q2⟩ mg ⟨lP2, lQ2, V2, hg2, f2⟩
  clear hf
  simp only [] at lP2 lQ2 f2 ⊢
  replace tA := tA.out (i0 := 0) (j0 := n2) (r := n1) (c := n1) (g := V2) (by omega)
  replace t3 := t3.out (i0 := 0) (j0 := n2) (r := n1) (c := n1) (g := V2) (by omega)
  clear t2
  have t2 : At (upd 0 n2 n1 n1 V2 Vf) 0 n2 n1 n1 V2 := At.new
  generalize upd 0 n2 n1 n1 V2 Vf = Vg at *
  have p2_ne : ∀ k < r1, ∀ k' < r2, σ k ≠ P2.get k' := fun k hk k' hk' e => by
    have b := f2.bd k' hk'
    refine f2.piv k' hk' (f2.zr _ (by omega) (fun j hj => ?_) _ b)
    rw [← e]; exact H0 k hk j hj
  have hroom : r1 + r2 ≤ n1 := room (p := σ) (p2 := P2.get) (fun k hk => f1.pP.1 k (by omega)) (fun k hk => by have := f2.bd k hk; omega)
    (fun k hk k' hk' e => f1.pP.2 k (by omega) k' (by omega) e) f2.injP p2_ne
  -- Q[i] += N2
  rw [Run_bind, Run_liftE]
  refine (shiftFrom_spec (putTail QA r1 Q2) r1 r2 n2 (by simp only [putTail]; omega)).mono ?_
  rintro QB ⟨lQB, eQB⟩
  have lQB : QB.len = Q.len := lQB.trans lQA
  have eQB1 : ∀ k < r1, QB.get k = τ k := fun k hk => by
    rw [eQB, if_neg (by omega)]
    simp only [putTail]
    rw [if_pos hk, eQA k (by omega)]
  have eQB2 : ∀ k < r2, QB.get (r1 + k) = n2 + Q2.get k := fun k hk => by
    rw [eQB, if_pos (by omega)]
    simp only [putTail]
    rw [if_neg (by omega), Nat.add_sub_cancel_left, Nat.add_comm]
  obtain ⟨PB, hPB⟩ : ∃ PB, putTail PA r1 P2 = PB := ⟨_, rfl⟩
  have lPB : PB.len = P.len := by rw [← hPB]; exact lPA
  have ePB1 : ∀ k < r1, PB.get k = σ k := fun k hk => by
    rw [← hPB]
    simp only [putTail]
    rw [if_pos hk, ePA k (by omega)]
  have ePB2 : ∀ k < r2, PB.get (r1 + k) = P2.get k := fun k hk => by
    rw [← hPB]
    simp only [putTail]
    rw [if_neg (by omega), Nat.add_sub_cancel_left]
  rw [hPB, Run_bind]
  -- rows of D
  refine (ltRestoreD_on (n2 := n2) hg2 tmp.sD tmp.dD (by simp [Win.adr]) (by omega) (by omega) (by omega)
    (fun k hk => by rw [ePB1 k hk]; exact f1.pP.1 k (by omega))
    (fun k hk k' hk' e => by rw [ePB1 k hk, ePB1 k' hk'] at e; exact f1.pP.2 k (by omega) k' (by omega) e)).mono ?_
  rintro _ mh ⟨Vh, hh, vD, vD'⟩
  have tA' : At Vh 0 0 n1 n2 (fun i j => V1 (σ⁻¹ i) (τ⁻¹ j)) := fun i hi j hj => by rw [vD' _ _ (Or.inl (by omega))]; exact tA i hi j hj
  have t3' : At Vh n1 0 n2 n2 GG := fun i hi j hj => by rw [vD' _ _ (Or.inl (by omega))]; exact t3 i hi j hj
  have t2' : ∀ i < n1, ∀ j < n1, (∀ k < r1, σ k ≠ i) → Vh i (n2 + j) = V2 i j := fun i hi j hj hn => by
    rw [vD' _ _ (Or.inr (fun k hk => by rw [ePB1 k hk]; exact hn k hk)), ← t2 i hi j hj, Nat.zero_add]
  have tD' : ∀ k < r1, ∀ j, σ k + j + 1 < n1 → Vh (σ k) (n2 + j) = D k j := fun k hk j hj => by
    have := vD k hk j (by rw [ePB1 k hk]; exact hj)
    rwa [ePB1 k hk] at this
  clear tA t3 vD vD' hg2 t2
  rw [Run_bind, Run_free]
  have hi := hh.drop (p := Dp) (n := r1 * n1) tmp.nD
  have sE := tmp.sE.drop (p := Dp) (n := r1 * n1) tmp.nDE
  change Run _ (mh.drop Dp (r1 * n1)) _
  -- second recursive call
  rw [Run_bind, Run_liftE, eT _ _ (by omega), Ok_ok, Run_bind, Run_liftE, eT _ _ (by omega), Ok_ok, Run_bind]
  refine (ltRec_on hrec hi (fun l => jk (22 :: l)) n1 0 t3' (by simp [Win.adr]) (by omega) (by omega) (by omega) (by omega) (by simp only []; omega)
    (by simp only []; omega)).mono ?_
  rintro ⟨r3, P3, Q3⟩ mj ⟨lP3, lQ3, V3, hj3, f3⟩
  clear hi hh
  simp only [] at lP3 lQ3 f3 ⊢
  have q3_ne : ∀ k < r1, ∀ k' < r3, τ k ≠ Q3.get k' := fun k hk k' hk' e => by
    have b := f3.bd k' hk'
    refine f3.piv k' hk' (f3.zc _ (by omega) (fun i hi => ?_) _ b)
    rw [← e]; exact G0 k hk i hi
  have hr3 : r3 ≤ n2 := by
    have := room (p := P3.get) (p2 := fun k => k) (n := n2) (r1 := r3) (r2 := 0) (fun k hk => by have := f3.bd k hk; omega) (fun k hk => absurd hk (Nat.not_lt_zero _))
      f3.injP (fun k hk => absurd hk (Nat.not_lt_zero _)) (fun k hk k' hk' => absurd hk' (Nat.not_lt_zero _))
    omega
  rw [Run_bind, Run_liftE]
  refine (shiftFrom_spec (putTail PB (r1 + r2) P3) (r1 + r2) r3 n1 (by simp only [putTail]; omega)).mono ?_
  rintro PC ⟨lPC, ePC⟩
  have lPC : PC.len = P.len := lPC.trans lPB
  have ePC1 : ∀ k < r1, PC.get k = σ k := fun k hk => by
    rw [ePC, if_neg (by omega)]
    simp only [putTail]
    rw [if_pos (by omega), ePB1 k hk]
  have ePC2 : ∀ k < r2, PC.get (r1 + k) = P2.get k := fun k hk => by
    rw [ePC, if_neg (by omega)]
    simp only [putTail]
    rw [if_pos (by omega), ePB2 k hk]
  have ePC3 : ∀ k < r3, PC.get (r1 + r2 + k) = n1 + P3.get k := fun k hk => by
    rw [ePC, if_pos (by omega)]
    simp only [putTail]
    rw [if_neg (by omega), Nat.add_sub_cancel_left, Nat.add_comm]
  obtain ⟨QC, hQC⟩ : ∃ QC, putTail QB (r1 + r2) Q3 = QC := ⟨_, rfl⟩
  have lQC : QC.len = Q.len := by rw [← hQC]; exact lQB
  have eQC1 : ∀ k < r1, QC.get k = τ k := fun k hk => by
    rw [← hQC]
    simp only [putTail]
    rw [if_pos (by omega), eQB1 k hk]
  have eQC2 : ∀ k < r2, QC.get (r1 + k) = n2 + Q2.get k := fun k hk => by
    rw [← hQC]
    simp only [putTail]
    rw [if_pos (by omega), eQB2 k hk]
  have eQC3 : ∀ k < r3, QC.get (r1 + r2 + k) = Q3.get k := fun k hk => by
    rw [← hQC]
    simp only [putTail]
    rw [if_neg (by omega), Nat.add_sub_cancel_left]
  rw [hQC, Run_bind]
  -- columns of E
  refine (ltRestoreE_on (n1 := n1) hj3 sE tmp.dE (by simp [Win.adr]) (by omega) (by omega) (by omega)
    (fun k hk => by rw [eQC1 k hk]; exact f1.pQ.1 k (by omega))
    (fun k hk k' hk' e => by rw [eQC1 k hk, eQC1 k' hk'] at e; exact f1.pQ.2 k (by omega) k' (by omega) e)).mono ?_
  rintro _ mk ⟨Vk, hk, vE, vE'⟩
  rw [Run_bind, Run_free, Run_pure]
  refine ⟨lPC, lQC, Vk, tmp.close _ _ (hk.drop (p := Ep) (n := n2 * r1) tmp.nE), ?_⟩
  have low : ∀ i j, i < n1 → Vk i j = Vh i j := fun i j hi => by
    rw [vE' i j (Or.inl hi), upd_out (by omega)]
  have := Comb.all (d := d) (n1 := n1) (n2 := n2) (X := X) (V1 := V1) (D := D) (E := E) (H := H) (G := GG) (V2 := V2) (V3 := V3) (V := Vk) (p := σ) (q := τ)
    (p2 := P2.get) (q2 := Q2.get) (p3 := P3.get) (q3 := Q3.get) (P := PC.get) (Q := QC.get) (s := fun i => σ⁻¹ i) (t := fun j => τ⁻¹ j) (r1 := r1) (r2 := r2)
    (r3 := r3) ⟨f1, fun x hx => ⟨iP x hx, invσ' x⟩, fun y hy => ⟨iQ y hy, invτ' y⟩, f2, f3, fun i hi j hj => ?_, fun i hi j hj => ?_, H0, G0, fun i hi j hj => ?_,
      fun k hk j hj => ?_, fun i j hij hn => ?_, fun k hk i hi => ?_, fun i j hij hn => ?_, ePC1, ePC2, ePC3, eQC1, eQC2, eQC3⟩
  · rw [hNN] at this; exact this
  · rw [hH]
    by_cases c : σ⁻¹ i < r1
    · rw [if_pos c, zero_add, eD _ c j hj, invσ']
    · have e := eF (σ⁻¹ i - r1) (by have := iP i hi; omega) j hj
      rw [show r1 + (σ⁻¹ i - r1) = σ⁻¹ i by omega, invσ'] at e
      rw [if_neg c, e, eq_comm, sub_add_eq_add_sub, sub_eq_iff_eq_add]
      congr 1
      exact sum_congr rfl (fun l hl => by rw [luL_lt (by have := mem_range.1 hl; omega)])
  · rw [hGG]
    by_cases c : τ⁻¹ j < r1
    · rw [if_pos c, zero_add, eE i hi _ c, invτ']
    · have e := eG i hi (τ⁻¹ j - r1) (by have := iQ j hj; omega)
      rw [show r1 + (τ⁻¹ j - r1) = τ⁻¹ j by omega, invτ'] at e
      rw [if_neg c, e, eq_comm, sub_add_eq_add_sub, sub_eq_iff_eq_add]
      congr 1
      exact sum_congr rfl (fun l hl => by rw [luU_lt (by have := mem_range.1 hl; omega)])
  · have := tA' i hi j hj
    rw [Nat.zero_add, Nat.zero_add] at this
    rw [low i j hi]; exact this
  · rw [low _ _ (f1.pP.1 k (by omega)), tD' k hk j hj]
  · rw [low _ _ (by omega), t2' i (by omega) j (by omega) hn]
  · have := vE k hk i (by rw [eQC1 k hk]; exact hi)
    rwa [eQC1 k hk] at this
  · rw [vE' _ _ (Or.inr (fun k hk => by rw [eQC1 k hk]; exact hn k hk)), upd_in' (by omega), Nat.add_sub_cancel_left, Nat.sub_zero]

theorem ltRec_spec (cat : Cat) {g : GemmFn K} {ts : TrsmFn K} (hg : GemmOk g) (ht : TrsmOk ts) (thr : ℕ) (d : Diag) (lda : ℕ) :
    ∀ fuel, LtOk (ltRec cat g ts thr d lda fuel) d lda fuel := by
  intro fuel
  induction fuel using Nat.strong_induction_on with
  | _ fuel ih =>
    intro jk m0 m W X P Q hld hsq h0 hb hP hQ h
    match fuel, ih, hb with
    | fuel + 1, ih, hb =>
      show Run (if W.r = 1 then _ else _) m _
      by_cases c : W.r = 1
      · rw [if_pos c, Run_bind, Run_store]
        have e : W.p = W.adr 0 0 := by simp [Win.adr]
        rw [e]
        refine ⟨h.ok'.adr (by omega) (by omega), ?_⟩
        rw [Run_pure]
        have z : ∀ {k : ℕ} {R : Prop}, k < 0 → R := fun hk => absurd hk (Nat.not_lt_zero _)
        refine ⟨rfl, rfl, _, h.set (i := 0) (j := 0) (by omega) (by omega), ⟨fun _ => z, fun _ => z, fun _ => z, fun _ => z, ?_, ?_, ?_⟩⟩ <;> intros <;> omega
      · rw [if_neg c]
        subst hld
        refine ltStep_spec cat hg ht thr (N := W.r) ?_ jk h rfl hsq.symm (by omega) hP hQ
        intro jk' m0' m' W' X' P' Q' e1 e2 e3 e4 e5 e6 h'
        exact ih fuel (by omega) jk' m0' m' W' X' P' Q' e1 e2 e3 (by omega) e5 e6 h'

/-- `LTBruhatGen` -/
theorem ltBruhatGen_spec (cat : Cat) {g : GemmFn K} {ts : TrsmFn K} (hg : GemmOk g) (ht : TrsmOk ts) (thr : ℕ) (jk : List ℕ → ℕ → ℕ) (d : Diag)
    (h : On m0 m W X) (hsq : W.r = W.c) (h0 : 0 < W.r) {P Q : Arr ℕ} (hP : W.r ≤ P.len) (hQ : W.r ≤ Q.len) :
    Run (ltBruhatGen cat g ts thr jk d W.r W.p W.ld P Q) m (LtPost d m0 W X W.r P.len Q.len) :=
  ltRec_spec cat hg ht thr d W.ld (W.r + 1) jk m0 m W X P Q rfl hsq h0 (Nat.lt_succ_self _) hP hQ h

end Verif.FF
