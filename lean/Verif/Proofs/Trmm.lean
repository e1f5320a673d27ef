import Verif.Proofs.Trsm

/-!
# Correctness of `ftrmm`
-/

namespace Verif.FF

open Finset

variable {K : Type} [Field K] [DecidableEq K]

/-- `p` computes `B ← op(A) B` for size `n × c` -/
def MulL (p : ℕ → ℕ → ℕ → ℕ → Prog K Unit) (e : Uplo) (d : Diag) (ta : Tr) (lda ldb n c : ℕ) : Prop :=
  ∀ (m : Mem K) (A B : ℕ), TrPre m e d ta n A lda ⟨B, ldb, n, c⟩ →
    Run (p n c A B) m (fun _ m' => Step m m' ⟨B, ldb, n, c⟩
      (fun i j => ∑ l ∈ range n, tm m e d ta A lda i l * m.mat ⟨B, ldb, n, c⟩ l j))

/-- `p` computes `B ← B op(A)` for size `r × n` -/
def MulR (p : ℕ → ℕ → ℕ → ℕ → Prog K Unit) (e : Uplo) (d : Diag) (ta : Tr) (lda ldb r n : ℕ) : Prop :=
  ∀ (m : Mem K) (A B : ℕ), TrPre m e d ta n A lda ⟨B, ldb, r, n⟩ →
    Run (p r n A B) m (fun _ m' => Step m m' ⟨B, ldb, r, n⟩
      (fun i j => ∑ l ∈ range n, m.mat ⟨B, ldb, r, n⟩ i l * tm m e d ta A lda l j))

section split
variable {m : Mem K} {e : Uplo} {d : Diag} {ta : Tr} {n A lda B ldb r c f0 nf s0 ns : ℕ}
  {p1 p3 : ℕ → ℕ → ℕ → ℕ → Prog K Unit} {g : GemmFn K}

lemma mulL_split (h : TrPre m e d ta n A lda ⟨B, ldb, n, c⟩) (hc : Cut n f0 nf s0 ns)
    (hb : ∀ i < nf, ∀ j < ns, below e (f0 + i) (s0 + j)) (h1 : MulL p1 e d ta lda ldb nf c)
    (h3 : MulL p3 e d ta lda ldb ns c) (hg : GemmAt g ta .no nf c ns) :
    Run (do
      p1 nf c (A + f0 * (lda + 1)) (B + f0 * ldb)
      g ta .no nf c ns 1 (opAdr ta A lda f0 s0) lda (B + s0 * ldb) ldb 1 (B + f0 * ldb) ldb
      p3 ns c (A + s0 * (lda + 1)) (B + s0 * ldb)) m (fun _ m' => Step m m' ⟨B, ldb, n, c⟩
        (fun i j => ∑ l ∈ range n, tm m e d ta A lda i l * m.mat ⟨B, ldb, n, c⟩ l j)) := by
  set W : Win := ⟨B, ldb, n, c⟩ with hW
  have hinj : W.Inj := fit_Inj h.lW
  have hf := hc.hf
  have hs := hc.hs
  have hdj := hc.disj
  have eF : (⟨B + f0 * ldb, ldb, nf, c⟩ : Win) = W.sub f0 0 nf c := rfl
  have eS : (⟨B + s0 * ldb, ldb, ns, c⟩ : Win) = W.sub s0 0 ns c := rfl
  have c0 : 0 + c ≤ W.c := by simp [hW]
  simp only [Run_bind]
  refine (h1 m _ _ (eF ▸ h.sub hf hf c0)).mono (fun _ m1 s1 => ?_)
  rw [eF] at s1
  have S1 := Step.sub hinj h.okW (i0 := f0) (j0 := 0) hf c0 s1
  have P1 := h.step S1
  obtain ⟨b1, b2, b3⟩ := P1.block hf hs hb
  have hdis : (W.sub s0 0 ns c).Disj (W.sub f0 0 nf c) := Win.sub_Disj hinj hs c0 hf c0 (by omega)
  have GP : GPre m1 ta .no nf c ns (opAdr ta A lda f0 s0) lda (B + s0 * ldb) ldb (B + f0 * ldb) ldb :=
    ⟨P1.wf, b1, P1.okW.of_sub hs c0, P1.okW.of_sub hf c0, b3, h.lW, h.lW,
      fun a ha hh => b2 a ha (Win.sub_Has (W := W) hf c0 hh), hdis⟩
  refine (hg m1 1 _ _ _ _ 1 _ _ GP).mono (fun _ m2 s2 => ?_)
  rw [eF] at s2
  have S2 := Step.sub hinj P1.okW (i0 := f0) (j0 := 0) hf c0 s2
  have P2 := P1.step S2
  refine (h3 m2 _ _ (eS ▸ P2.sub hs hs c0)).mono (fun _ m3 s3 => ?_)
  rw [eS] at s3
  have S3 := Step.sub hinj P2.okW (i0 := s0) (j0 := 0) hs c0 s3
  refine (S1.trans (S2.trans S3)).congr (fun i hi j hj => ?_)
  have hi : i < n := hi
  have hj : j < c := hj
  -- B_S is unchanged until the last step
  have uS : ∀ l < ns, m1.mat W (s0 + l) j = m.mat W (s0 + l) j := fun l hl => by
    rw [S1.mat (by simp only [hW]; omega) hj, if_neg (by omega)]
  have uS2 : ∀ l < ns, m2.mat W (s0 + l) j = m.mat W (s0 + l) j := fun l hl => by
    rw [S2.mat (by simp only [hW]; omega) hj, if_neg (by omega), uS l hl]
  have sub : ∀ (mm : Mem K) (i0 nn k j : ℕ), mm.mat (W.sub i0 0 nn c) k j = mm.mat W (i0 + k) j := fun mm i0 nn k j => by
    show mm.val _ = mm.val _
    rw [Win.sub_adr, Nat.zero_add]
  rw [hc.sum_eq]
  rcases hc.cases hi with ⟨k, hk, rfl⟩ | ⟨k, hk, rfl⟩
  · rw [if_neg (by omega), S2.mat hi hj, if_pos (by omega)]
    simp only [Nat.add_sub_cancel_left, Nat.sub_zero]
    rw [gval, eF, sub, S1.mat hi hj, if_pos (by omega), one_mul, one_mul, add_comm]
    simp only [Nat.add_sub_cancel_left, Nat.sub_zero, tm_diag, sub]
    congr 1
    refine sum_congr rfl (fun l hl => ?_)
    have hl := mem_range.1 hl
    rw [op_mat, opAdr_off, ← tm_below (m := m1) (d := d) (hb k hk l hl), h.tm S1 (by omega) (by omega)]
    congr 1
    rw [← uS l hl]
    exact sub ..
  · rw [if_pos (by omega)]
    simp only [Nat.add_sub_cancel_left, Nat.sub_zero, tm_diag, sub]
    have z : ∑ l ∈ range nf, tm m e d ta A lda (s0 + k) (f0 + l) * m.mat W (f0 + l) j = 0 :=
      sum_eq_zero (fun l hl => by rw [tm_above (hb l (mem_range.1 hl) k hk), zero_mul])
    rw [z, zero_add]
    refine sum_congr rfl (fun l hl => ?_)
    have hl := mem_range.1 hl
    rw [P1.tm S2 (by omega) (by omega), h.tm S1 (by omega) (by omega), uS2 l hl]

lemma mulR_split (h : TrPre m e d ta n A lda ⟨B, ldb, r, n⟩) (hc : Cut n f0 nf s0 ns)
    (hb : ∀ i < ns, ∀ j < nf, below e (s0 + i) (f0 + j)) (h1 : MulR p1 e d ta lda ldb r nf)
    (h3 : MulR p3 e d ta lda ldb r ns) (hg : GemmAt g .no ta r nf ns) :
    Run (do
      p1 r nf (A + f0 * (lda + 1)) (B + f0)
      g .no ta r nf ns 1 (B + s0) ldb (opAdr ta A lda s0 f0) lda 1 (B + f0) ldb
      p3 r ns (A + s0 * (lda + 1)) (B + s0)) m (fun _ m' => Step m m' ⟨B, ldb, r, n⟩
        (fun i j => ∑ l ∈ range n, m.mat ⟨B, ldb, r, n⟩ i l * tm m e d ta A lda l j)) := by
  set W : Win := ⟨B, ldb, r, n⟩ with hW
  have hinj : W.Inj := fit_Inj h.lW
  have hf := hc.hf
  have hs := hc.hs
  have hdj := hc.disj
  have eF : (⟨B + f0, ldb, r, nf⟩ : Win) = W.sub 0 f0 r nf := by simp [Win.sub, hW]
  have eS : (⟨B + s0, ldb, r, ns⟩ : Win) = W.sub 0 s0 r ns := by simp [Win.sub, hW]
  have c0 : 0 + r ≤ W.r := by simp [hW]
  have lF : nf ≤ ldb := by have := h.lW; simp only [hW] at this; omega
  have lS : ns ≤ ldb := by have := h.lW; simp only [hW] at this; omega
  simp only [Run_bind]
  refine (h1 m _ _ (eF ▸ h.sub hf c0 hf)).mono (fun _ m1 s1 => ?_)
  rw [eF] at s1
  have S1 := Step.sub hinj h.okW (i0 := 0) (j0 := f0) c0 hf s1
  have P1 := h.step S1
  obtain ⟨b1, b2, b3⟩ := P1.block hs hf hb
  have hdis : (W.sub 0 s0 r ns).Disj (W.sub 0 f0 r nf) := Win.sub_Disj hinj c0 hs c0 hf (by omega)
  have GP : GPre m1 .no ta r nf ns (B + s0) ldb (opAdr ta A lda s0 f0) lda (B + f0) ldb :=
    ⟨P1.wf, by rw [aw, opr, opc, eS]; exact P1.okW.of_sub c0 hs, b1, by rw [eF]; exact P1.okW.of_sub c0 hf, lS, b3, lF,
      by rw [aw, opr, opc, eS, eF]; exact hdis,
      fun a ha hh => b2 a ha (Win.sub_Has (W := W) c0 hf (by rw [← eF]; exact hh))⟩
  refine (hg m1 1 _ _ _ _ 1 _ _ GP).mono (fun _ m2 s2 => ?_)
  rw [eF] at s2
  have S2 := Step.sub hinj P1.okW (i0 := 0) (j0 := f0) c0 hf s2
  have P2 := P1.step S2
  refine (h3 m2 _ _ (eS ▸ P2.sub hs c0 hs)).mono (fun _ m3 s3 => ?_)
  rw [eS] at s3
  have S3 := Step.sub hinj P2.okW (i0 := 0) (j0 := s0) c0 hs s3
  refine (S1.trans (S2.trans S3)).congr (fun i hi j hj => ?_)
  have hi : i < r := hi
  have hj : j < n := hj
  have uS : ∀ l < ns, m1.mat W i (s0 + l) = m.mat W i (s0 + l) := fun l hl => by
    rw [S1.mat hi (by simp only [hW]; omega), if_neg (by omega)]
  have uS2 : ∀ l < ns, m2.mat W i (s0 + l) = m.mat W i (s0 + l) := fun l hl => by
    rw [S2.mat hi (by simp only [hW]; omega), if_neg (by omega), uS l hl]
  have sub : ∀ (mm : Mem K) (j0 nn i k : ℕ), mm.mat (W.sub 0 j0 r nn) i k = mm.mat W i (j0 + k) := fun mm j0 nn i k => by
    show mm.val _ = mm.val _
    rw [Win.sub_adr, Nat.zero_add]
  rw [hc.sum_eq]
  rcases hc.cases hj with ⟨k, hk, rfl⟩ | ⟨k, hk, rfl⟩
  · rw [if_neg (by omega), S2.mat hi hj, if_pos (by omega)]
    simp only [Nat.add_sub_cancel_left, Nat.sub_zero]
    rw [gval, eF, sub, S1.mat hi hj, if_pos (by omega), one_mul, one_mul, add_comm]
    simp only [Nat.add_sub_cancel_left, Nat.sub_zero, tm_diag, sub]
    congr 1
    refine sum_congr rfl (fun l hl => ?_)
    have hl := mem_range.1 hl
    rw [op_mat ta, opAdr_off, ← tm_below (m := m1) (d := d) (hb l hl k hk), h.tm S1 (by omega) (by omega)]
    congr 1
    rw [← uS l hl]
    change m1.mat ⟨B + s0, ldb, r, ns⟩ i l = _
    rw [eS]
    exact sub ..
  · rw [if_pos (by omega)]
    simp only [Nat.add_sub_cancel_left, Nat.sub_zero, tm_diag, sub]
    have z : ∑ l ∈ range nf, m.mat W i (f0 + l) * tm m e d ta A lda (f0 + l) (s0 + k) = 0 :=
      sum_eq_zero (fun l hl => by rw [tm_above (hb k hk l (mem_range.1 hl)), mul_zero])
    rw [z, zero_add]
    refine sum_congr rfl (fun l hl => ?_)
    have hl := mem_range.1 hl
    rw [P1.tm S2 (by omega) (by omega), h.tm S1 (by omega) (by omega), uS2 l hl]

end split

section gen
variable {m m' : Mem K} {e : Uplo} {d : Diag} {ta : Tr} {u : Uplo} {n A lda B ldb r c ns : ℕ}
  {p1 p3 : ℕ → ℕ → ℕ → ℕ → Prog K Unit} {g : GemmFn K}

lemma trmmSplit_L (hns : ns ≤ n) (h1 : MulL p1 (effUplo u ta) d ta lda ldb (n - ns) c)
    (h3 : MulL p3 (effUplo u ta) d ta lda ldb ns c) (hg : GemmAt g ta .no (n - ns) c ns) :
    MulL (fun M N A B => trmmSplit g .left u ta p1 p3 ns M N A lda B ldb) (effUplo u ta) d ta lda ldb n c := by
  intro m A B hp
  simp only [trmmSplit, trNa]
  cases he : effUplo u ta with
  | lower =>
    rw [he] at hp h1 h3
    have := mulL_split (f0 := ns) (nf := n - ns) (s0 := 0) (ns := ns) hp ⟨by omega, Or.inr ⟨rfl, rfl⟩⟩
      (fun i hi j hj => by simp only [below]; omega) h1 h3 hg
    simpa only [trmmPtr, arow_eq, Nat.zero_mul, Nat.add_zero] using this
  | upper =>
    rw [he] at hp h1 h3
    have := mulL_split (f0 := 0) (nf := n - ns) (s0 := n - ns) (ns := ns) hp ⟨by omega, Or.inl ⟨rfl, rfl⟩⟩
      (fun i hi j hj => by simp only [below]; omega) h1 h3 hg
    simpa only [trmmPtr, acol_eq, Nat.zero_mul, Nat.add_zero] using this

lemma trmmSplit_R (hns : ns ≤ n) (h1 : MulR p1 (effUplo u ta) d ta lda ldb r (n - ns))
    (h3 : MulR p3 (effUplo u ta) d ta lda ldb r ns) (hg : GemmAt g .no ta r (n - ns) ns) :
    MulR (fun M N A B => trmmSplit g .right u ta p1 p3 ns M N A lda B ldb) (effUplo u ta) d ta lda ldb r n := by
  intro m A B hp
  simp only [trmmSplit, trNa]
  cases he : effUplo u ta with
  | upper =>
    rw [he] at hp h1 h3
    have := mulR_split (f0 := ns) (nf := n - ns) (s0 := 0) (ns := ns) hp ⟨by omega, Or.inr ⟨rfl, rfl⟩⟩
      (fun i hi j hj => by simp only [below]; omega) h1 h3 hg
    simpa only [trmmPtr, acol_eq, Nat.zero_mul, Nat.add_zero] using this
  | lower =>
    rw [he] at hp h1 h3
    have := mulR_split (f0 := 0) (nf := n - ns) (s0 := n - ns) (ns := ns) hp ⟨by omega, Or.inl ⟨rfl, rfl⟩⟩
      (fun i hi j hj => by simp only [below]; omega) h1 h3 hg
    simpa only [trmmPtr, arow_eq, Nat.zero_mul, Nat.add_zero] using this

/-- order 1 -/
lemma trmm_one_L (cat : Cat) : MulL (K := K) (fun M N A B => if d = .nonUnit then do
      let a ← load A
      trScal cat .left M N a B ldb
    else pure ()) e d ta lda ldb 1 c := by
  intro m A B hp
  dsimp only
  rif hu
  · have a0 : opAdr ta A lda 0 0 = A := by cases ta <;> simp [opAdr]
    have ok := hp.okA 0 Nat.one_pos 0 Nat.one_pos (Or.inr ⟨rfl, hu⟩)
    rw [a0] at ok
    simp only [Run_bind, Run_load, ok, true_and]
    refine (trScal_L cat _ hp.wf hp.okW 1).mono (fun _ m' s => s.congr ?_)
    intro i hi j hj
    have hi : i = 0 := by simpa using hi
    subst hi hu
    simp only [sum_range_one, tm, if_true, a0]
  · refine (Run_pure ..).2 (Step.refl ?_)
    intro i hi j hj
    have hi : i = 0 := by simpa using hi
    subst hi
    have hu : d = .unit := by cases d <;> simp_all
    subst hu
    simp [tm]

lemma trmm_one_R (cat : Cat) : MulR (K := K) (fun M N A B => if d = .nonUnit then do
      let a ← load A
      trScal cat .right M N a B ldb
    else pure ()) e d ta lda ldb r 1 := by
  intro m A B hp
  dsimp only
  rif hu
  · have a0 : opAdr ta A lda 0 0 = A := by cases ta <;> simp [opAdr]
    have ok := hp.okA 0 Nat.one_pos 0 Nat.one_pos (Or.inr ⟨rfl, hu⟩)
    rw [a0] at ok
    simp only [Run_bind, Run_load, ok, true_and]
    refine (trScal_R cat _ hp.wf hp.okW hp.lW 1).mono (fun _ m' s => s.congr ?_)
    intro i hi j hj
    have hj : j = 0 := by simpa using hj
    subst hj hu
    simp only [sum_range_one, tm, if_true, a0]
    rw [mul_comm]
  · refine (Run_pure ..).2 (Step.refl ?_)
    intro i hi j hj
    have hj : j = 0 := by simpa using hj
    subst hj
    have hu : d = .unit := by cases d <;> simp_all
    subst hu
    simp [tm]

theorem ftrmmGen_L (cat : Cat) (hg : GemmOk g) (fuel : ℕ) : ∀ n, 1 ≤ n → n ≤ fuel →
    MulL (ftrmmGen cat g .left u ta d lda ldb fuel) (effUplo u ta) d ta lda ldb n c := by
  induction fuel with
  | zero => intro n h1 h2; omega
  | succ fuel ih =>
    intro n h1 h2 m A B hp
    unfold ftrmmGen
    rif h
    · have h : n = 1 := h
      subst h; exact trmm_one_L cat m A B hp
    · have h : ¬ n = 1 := h
      have : n >>> 1 = n / 2 := by rw [Nat.shiftRight_eq_div_pow]
      simp only [trNa, this]
      exact trmmSplit_L (by omega) (ih _ (by omega) (by omega)) (ih _ (by omega) (by omega)) (hg _ _ _ _ _) m A B hp

theorem ftrmmGen_R (cat : Cat) (hg : GemmOk g) (fuel : ℕ) : ∀ n, 1 ≤ n → n ≤ fuel →
    MulR (ftrmmGen cat g .right u ta d lda ldb fuel) (effUplo u ta) d ta lda ldb r n := by
  induction fuel with
  | zero => intro n h1 h2; omega
  | succ fuel ih =>
    intro n h1 h2 m A B hp
    unfold ftrmmGen
    rif h
    · have h : n = 1 := h
      subst h; exact trmm_one_R cat m A B hp
    · have h : ¬ n = 1 := h
      have : n >>> 1 = n / 2 := by rw [Nat.shiftRight_eq_div_pow]
      simp only [trNa, this]
      exact trmmSplit_R (by omega) (ih _ (by omega) (by omega)) (ih _ (by omega) (by omega)) (hg _ _ _ _ _) m A B hp

end gen

section double
variable {m m' : Mem K} {d : Diag} {ta : Tr} {u : Uplo} {n A lda B ldb r c ns nrest : ℕ} {g : GemmFn K}
  {bm : ℕ → ℕ → ℕ → ℕ → Prog K Unit}

/-- The block loop of `operator()`: the loop on the trailing (or leading) part followed by the last iteration. -/
lemma trmmBlocks_L (hbm : ∀ n, MulL bm (effUplo u ta) d ta lda ldb n c) (hg : GemmOk g) :
    ∀ nbb, MulL (trmmBlocks g bm .left u ta ns nbb nrest lda ldb) (effUplo u ta) d ta lda ldb (nrest + nbb * ns) c := by
  intro nbb
  induction nbb with
  | zero =>
    intro m A B hp
    rw [Nat.zero_mul, Nat.add_zero] at hp ⊢
    unfold trmmBlocks
    simp only [loop, Run_bind, Run_pure]
    have := hbm _ m A B hp
    cases he : effUplo u ta <;> rw [he] at this <;>
      simpa only [trmmLoopPtr, trmmBrest, trNa, Nat.zero_mul, Nat.add_zero] using this
  | succ nbb ih =>
    intro m A B hp
    have hn : nrest + (nbb + 1) * ns - ns = nrest + nbb * ns := by rw [Nat.succ_mul]; omega
    have key := trmmSplit_L (p1 := trmmBlocks g bm .left u ta ns nbb nrest lda ldb) (p3 := bm)
      (n := nrest + (nbb + 1) * ns) (ns := ns) (g := g) (by rw [Nat.succ_mul]; omega) (hn ▸ ih) (hbm ns) (hg _ _ _ _ _) m A B hp
    unfold trmmSplit at key
    simp only [Run_bind] at key
    unfold trmmBlocks at key ⊢
    simp only [Run_bind, loop] at key ⊢
    cases he : effUplo u ta <;> rw [he] at key
    all_goals simp only [trmmPtr, trNa, trmmLoopPtr, trmmBrest, hn] at key ⊢
    · exact key
    · have q1 : A + ns * (lda + 1) + nbb * ns * (lda + 1) = A + (nbb + 1) * ns * (lda + 1) := by ring
      have q2 : B + ns * ldb + nbb * ns * ldb = B + (nbb + 1) * ns * ldb := by ring
      rw [q1, q2] at key
      refine key.mono (fun _ m1 h1 => ?_)
      have e0 : nbb + 1 - (nbb + 1) = 0 := by omega
      have e1 : nbb + 1 - nbb = 1 := by omega
      rw [e0, e1]
      simp only [Nat.zero_mul, Nat.add_zero, Nat.one_mul]
      convert h1 using 1
      refine loop_congr (fun i hi => ?_)
      obtain ⟨t, ht⟩ : ∃ t, nbb - (i + 1) = t := ⟨_, rfl⟩
      have f1 : nbb + 1 - (i + 1) = t + 1 := by omega
      have f2 : nbb + 1 - i = t + 2 := by omega
      have f3 : nbb - i = t + 1 := by omega
      rw [f1, f2, f3, ht]
      have g1 : A + (t + 1) * ns * (lda + 1) = A + ns * (lda + 1) + t * ns * (lda + 1) := by ring
      have g2 : B + (t + 1) * ns * ldb = B + ns * ldb + t * ns * ldb := by ring
      have g3 : B + (t + 2) * ns * ldb = B + ns * ldb + (t + 1) * ns * ldb := by ring
      rw [g1, g2, g3]

/-- The block loop of `operator()`: the loop on the trailing (or leading) part followed by the last iteration. -/
lemma trmmBlocks_R (hbm : ∀ n, MulR bm (effUplo u ta) d ta lda ldb r n) (hg : GemmOk g) :
    ∀ nbb, MulR (trmmBlocks g bm .right u ta ns nbb nrest lda ldb) (effUplo u ta) d ta lda ldb r (nrest + nbb * ns) := by
  intro nbb
  induction nbb with
  | zero =>
    intro m A B hp
    rw [Nat.zero_mul, Nat.add_zero] at hp ⊢
    unfold trmmBlocks
    simp only [loop, Run_bind, Run_pure]
    have := hbm _ m A B hp
    cases he : effUplo u ta <;> rw [he] at this <;>
      simpa only [trmmLoopPtr, trmmBrest, trNa, Nat.zero_mul, Nat.add_zero] using this
  | succ nbb ih =>
    intro m A B hp
    have hn : nrest + (nbb + 1) * ns - ns = nrest + nbb * ns := by rw [Nat.succ_mul]; omega
    have key := trmmSplit_R (p1 := trmmBlocks g bm .right u ta ns nbb nrest lda ldb) (p3 := bm)
      (n := nrest + (nbb + 1) * ns) (ns := ns) (g := g) (by rw [Nat.succ_mul]; omega) (hn ▸ ih) (hbm ns) (hg _ _ _ _ _) m A B hp
    unfold trmmSplit at key
    simp only [Run_bind] at key
    unfold trmmBlocks at key ⊢
    simp only [Run_bind, loop] at key ⊢
    cases he : effUplo u ta <;> rw [he] at key
    all_goals simp only [trmmPtr, trNa, trmmLoopPtr, trmmBrest, hn] at key ⊢
    swap
    · exact key
    · have q1 : A + ns * (lda + 1) + nbb * ns * (lda + 1) = A + (nbb + 1) * ns * (lda + 1) := by ring
      have q2 : B + ns + nbb * ns = B + (nbb + 1) * ns := by ring
      rw [q1, q2] at key
      refine key.mono (fun _ m1 h1 => ?_)
      have e0 : nbb + 1 - (nbb + 1) = 0 := by omega
      have e1 : nbb + 1 - nbb = 1 := by omega
      rw [e0, e1]
      simp only [Nat.zero_mul, Nat.add_zero, Nat.one_mul]
      convert h1 using 1
      refine loop_congr (fun i hi => ?_)
      obtain ⟨t, ht⟩ : ∃ t, nbb - (i + 1) = t := ⟨_, rfl⟩
      have f1 : nbb + 1 - (i + 1) = t + 1 := by omega
      have f2 : nbb + 1 - i = t + 2 := by omega
      have f3 : nbb - i = t + 1 := by omega
      rw [f1, f2, f3, ht]
      have g1 : A + (t + 1) * ns * (lda + 1) = A + ns * (lda + 1) + t * ns * (lda + 1) := by ring
      have g2 : B + (t + 1) * ns = B + ns + t * ns := by ring
      have g3 : B + (t + 2) * ns = B + ns + (t + 1) * ns := by ring
      rw [g1, g2, g3]

/-- effect of in-place `ftrmm` -/
def MulEff (side : Side) (m m' : Mem K) (u : Uplo) (ta : Tr) (d : Diag) (M N : ℕ) (alpha : K) (A lda B ldb : ℕ) : Prop :=
  Step m m' ⟨B, ldb, M, N⟩ (fun i j => alpha * Spec.sideMul side (Spec.sideDim side M N)
    (Spec.op ta (Spec.tri u d (m.mat ⟨A, lda, Spec.sideDim side M N, Spec.sideDim side M N⟩))) (m.mat ⟨B, ldb, M, N⟩) i j)

lemma mulEff_scal (cat : Cat) (side : Side) {M N : ℕ} (alpha : K) {p : Prog K Unit} (hl : N ≤ ldb) (hwf : WF m)
    (hok : OkIn m ⟨B, ldb, M, N⟩)
    (h : Run p m (fun _ m' => MulEff side m m' u ta d M N 1 A lda B ldb)) :
    Run (do p; if alpha = 1 then pure () else fscalin cat M N alpha B ldb) m
      (fun _ m' => MulEff side m m' u ta d M N alpha A lda B ldb) := by
  simp only [Run_bind]
  refine h.mono (fun _ m1 s1 => ?_)
  unfold MulEff at s1
  rif ha
  · subst ha; exact (Run_pure ..).2 s1
  · refine (fscalin_spec cat alpha (hwf.step s1) (hok.step s1) hl).mono (fun _ m2 s2 => (s1.trans s2).congr ?_)
    intro i hi j hj
    rw [s1.mat hi hj, one_mul]

lemma MulL.eff {p : ℕ → ℕ → ℕ → ℕ → Prog K Unit} (h : MulL p (effUplo u ta) d ta lda ldb n c)
    (hp : TrPre m (effUplo u ta) d ta n A lda ⟨B, ldb, n, c⟩) :
    Run (p n c A B) m (fun _ m' => MulEff .left m m' u ta d n c 1 A lda B ldb) :=
  (h m A B hp).mono (fun _ _ s => s.congr (fun i _ j _ => by rw [one_mul, tm_eq]; rfl))

lemma MulR.eff {p : ℕ → ℕ → ℕ → ℕ → Prog K Unit} (h : MulR p (effUplo u ta) d ta lda ldb r n)
    (hp : TrPre m (effUplo u ta) d ta n A lda ⟨B, ldb, r, n⟩) :
    Run (p r n A B) m (fun _ m' => MulEff .right m m' u ta d r n 1 A lda B ldb) :=
  (h m A B hp).mono (fun _ _ s => s.congr (fun i _ j _ => by rw [one_mul, tm_eq]; rfl))

/-- in-place `ftrmm` over a generic field -/
theorem ftrmm_ok (cat : Cat) (hg : GemmOk g) (side : Side) (M N : ℕ) (alpha : K)
    (hp : TrPre m (effUplo u ta) d ta (Spec.sideDim side M N) A lda ⟨B, ldb, M, N⟩) :
    Run (ftrmm cat g side u ta d M N alpha A lda B ldb) m (fun _ m' => MulEff side m m' u ta d M N alpha A lda B ldb) := by
  unfold ftrmm
  rif h0
  · exact (Run_pure ..).2 (Step.refl (fun i hi j hj => by have hi : i < M := hi; have hj : j < N := hj; omega))
  · refine mulEff_scal cat side alpha hp.lW hp.wf hp.okW ?_
    cases side with
    | left => exact (ftrmmGen_L cat hg M M (by omega) le_rfl).eff hp
    | right => exact (ftrmmGen_R cat hg N N (by omega) le_rfl).eff hp

/-- contract of the BLAS triangular product -/
def BmOk (bm : ℕ → ℕ → ℕ → ℕ → Prog K Unit) (side : Side) (e : Uplo) (d : Diag) (ta : Tr) (lda ldb : ℕ) : Prop :=
  match side with
  | .left => ∀ n c, MulL bm e d ta lda ldb n c
  | .right => ∀ n r, MulR bm e d ta lda ldb r n

/-- in-place `ftrmm` for `double` and `float`, whatever the block size -/
theorem ftrmmD_ok (cat : Cat) (hg : GemmOk g) (side : Side) (hbm : BmOk bm side (effUplo u ta) d ta lda ldb) (M N : ℕ)
    (hnd : 0 < ns) (alpha : K) (hp : TrPre m (effUplo u ta) d ta (Spec.sideDim side M N) A lda ⟨B, ldb, M, N⟩) :
    Run (ftrmmD cat g bm side u ta ns M N alpha A lda B ldb) m
      (fun _ m' => MulEff side m m' u ta d M N alpha A lda B ldb) := by
  unfold ftrmmD
  rif h0
  · exact (Run_pure ..).2 (Step.refl (fun i hi j hj => by have hi : i < M := hi; have hj : j < N := hj; omega))
  · refine mulEff_scal cat side alpha hp.lW hp.wf hp.okW ?_
    unfold ftrmmDouble
    rw [if_neg h0, if_neg (by omega)]
    have hdm : ∀ k, 0 < k → (k - 1) % ns + 1 + (k - 1) / ns * ns = k := by
      intro k hk
      have := Nat.div_add_mod (k - 1) ns
      rw [Nat.mul_comm] at this
      omega
    cases side with
    | left =>
      have key := trmmBlocks_L (u := u) (ta := ta) (d := d) (ns := ns) (nrest := (M - 1) % ns + 1) (fun n => hbm n N) hg ((M - 1) / ns)
      rw [hdm M (by omega)] at key
      exact key.eff hp
    | right =>
      have key := trmmBlocks_R (u := u) (ta := ta) (d := d) (ns := ns) (nrest := (N - 1) % ns + 1) (fun n => hbm n M) hg ((N - 1) / ns)
      rw [hdm N (by omega)] at key
      exact key.eff hp

end double

end Verif.FF
