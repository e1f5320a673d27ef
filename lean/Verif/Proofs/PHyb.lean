import Verif.Model.PHyb
import Verif.Proofs.ParSparse

/-!
# Proofs for the parallel products with the hybrid formats
-/

namespace Verif.Par
open Verif.FF Verif.BlockCuts Verif.Sparse Finset

variable {K : Type} [Field K] [DecidableEq K] {kd : PKind} {col st : Arr ℕ} {x ldx bs yr j k : ℕ} {m m' : Mem K}
variable {M N y ldy : ℕ} {bounds : ℕ → Except Fault (ℕ × ℕ)} {lo cnt : ℕ → ℕ} {Rs : ℕ → Prop} {v v1 : ℕ → K} {G : ℕ → ℕ → K}

/-- between two parts: `y` contains `G` and what is read is as at the beginning -/
structure HInv (w : Win) (Rs : ℕ → Prop) (v : ℕ → K) (G : ℕ → ℕ → K) (v1 : ℕ → K) : Prop where
  same : ∀ a, Rs a → v1 a = v a
  vals : Vals w G v1

theorem mvZO_inv {neg : Bool} {t : ℕ} {kp : Proc K} {Q : (ℕ → K) → Prop} (hs : SpOk (if neg then .mone else .one) M N bounds col Rs lo cnt)
    (hX : ∀ a, (Win.mk x 1 N 1).Has a → Rs a) (hd : ∀ a, Rs a → ¬ (Win.mk y 1 M 1).Has a) (hf : FinS Rs) (hi : HInv ⟨y, 1, M, 1⟩ Rs v G v1)
    (hk : ∀ v2, HInv ⟨y, 1, M, 1⟩ Rs v (fun i j => G i j + rowSum v (if neg then .mone else .one) col x 1 (lo i) (cnt i) 0) v2 →
      wp kp (Win.mk y 1 M 1).Has Rs (fun _ => False) v2 Q) :
    wp (pfspmvZO neg M bounds col x y t kp) (Win.mk y 1 M 1).Has Rs (fun _ => False) v1 Q := by
  refine wp_for_rows (w := ⟨y, 1, M, 1⟩) (G := fun i _ => v1 (y + i) + rowSum v1 (if neg then .mone else .one) col x 1 (lo i) (cnt i) 0)
    (by simp) rfl (Win.Inj_of_le (Or.inl le_rfl)) (fun _ h => Or.inl h) (fun _ h => Or.inr (Or.inl h)) hd ?_ ?_
  · intro a b e hbe hen
    refine task_call hf (wrIn_loop fun i hi => wrIn_mvRow (Or.inl ⟨i, hi, 0, Nat.one_pos, by simp only [Win.sub, Win.adr]; ring⟩)) ?_
    intro m hm ho hRm hv
    have hsub : ∀ c, (Win.sub ⟨y, 1, M, 1⟩ b 0 (e - b) 1).Has c → (Win.mk y 1 M 1).Has c := fun c hc =>
      Win.sub_Has (W := ⟨y, 1, M, 1⟩) (i := b) (j := 0) (by simp only []; omega) (by simp) hc
    refine rows_task (G := fun i _ => v1 (y + i) + rowSum v1 (if neg then .mone else .one) col x 1 (lo i) (cnt i) 0) (Win.Inj_of_le (Or.inl le_rfl)) ho rfl hRm
      (fun c hc h => hd c hc (hsub c h)) ?_
    intro i hi m' h1 h2 h3
    have hi : i < e - b := hi
    have hr := mvRow_run (m := m') (kd := (if neg then .mone else .one)) (col := col) (x := x) (y := y) (hs.bnd (b + i) (by omega))
      (fun t ht => by
        have := hs.ent (y := y) (ldy := 1) (m := m') hX hd (fun a ha => by rw [h1]; exact hRm a ha) (i := b + i) (by omega) ht
        rwa [mul_one] at this)
      (by rw [h1]; exact ho _ ⟨i, hi, 0, Nat.one_pos, by simp only [Win.sub, Win.adr]; ring⟩)
    have ep : (Win.sub ⟨y, 1, M, 1⟩ b 0 (e - b) 1).p + i * (Win.sub ⟨y, 1, M, 1⟩ b 0 (e - b) 1).ld = y + (b + i) := by
      simp only [Win.sub, Win.adr]; ring
    rw [ep]
    refine hr.mono (fun _ _ s => s.congr (fun k hk => ?_))
    have h4 := h3 0 Nat.one_pos
    have ea : (Win.sub ⟨y, 1, M, 1⟩ b 0 (e - b) 1).adr i 0 = y + (b + i) := by simp only [Win.sub, Win.adr]; ring
    rw [ea] at h4
    rw [h4, rowSum_congr hs hX h2 (by omega) Nat.one_pos, hv]
  · intro v2 h1 h2
    refine hk v2 ⟨fun a ha => (h1 a (Or.inr (Or.inl ha)) (hd a ha)).trans (hi.same a ha), fun i hi' j hj => ?_⟩
    rw [h2 i hi' j hj]
    dsimp only
    rw [rowSum_congr hs hX hi.same hi' Nat.one_pos]
    obtain rfl : j = 0 := by simpa using hj
    have := hi.vals i hi' 0 Nat.one_pos
    simp only [Win.adr, mul_one, add_zero] at this
    rw [this]

theorem mvPar_inv {kp : Proc K} {Q : (ℕ → K) → Prop} (hs : SpOk kd M N bounds col Rs lo cnt)
    (hX : ∀ a, (Win.mk x 1 N 1).Has a → Rs a) (hd : ∀ a, Rs a → ¬ (Win.mk y 1 M 1).Has a) (hf : FinS Rs) (hi : HInv ⟨y, 1, M, 1⟩ Rs v G v1)
    (hk : ∀ v2, HInv ⟨y, 1, M, 1⟩ Rs v (fun i j => G i j + rowSum v kd col x 1 (lo i) (cnt i) 0) v2 →
      wp kp (Win.mk y 1 M 1).Has Rs (fun _ => False) v2 Q) :
    wp (.par M (fun i => call (mvRow kd bounds col x y i) .ret) kp) (Win.mk y 1 M 1).Has Rs (fun _ => False) v1 Q := by
  refine mvPar_wp hs hX hd hf (fun _ h => Or.inl h) (fun _ h => Or.inr (Or.inl h)) (fun v2 h1 h2 => hk v2 ⟨fun a ha => ?_, fun i hi' j hj => ?_⟩)
  · exact (h1 a (Or.inr (Or.inl ha)) (hd a ha)).trans (hi.same a ha)
  · rw [h2 i hi' j hj]
    dsimp only
    rw [rowSum_congr hs hX hi.same hi' Nat.one_pos]
    obtain rfl : j = 0 := by simpa using hj
    have := hi.vals i hi' 0 Nat.one_pos
    simp only [Win.adr, mul_one, add_zero] at this
    rw [this]

theorem mmTasks_inv {kp : Proc K} {Q : (ℕ → K) → Prop} {t : ℕ} (hs : SpOk kd M N bounds col Rs lo cnt) (hX : ∀ a, (Win.mk x ldx N bs).Has a → Rs a)
    (hd : ∀ a, Rs a → ¬ (Win.mk y ldy M bs).Has a) (hl : bs ≤ ldy) (hf : FinS Rs) (hi : HInv ⟨y, ldy, M, bs⟩ Rs v G v1)
    (hk : ∀ v2, HInv ⟨y, ldy, M, bs⟩ Rs v (fun i k => G i k + rowSum v kd col x ldx (lo i) (cnt i) k) v2 →
      wp kp (Win.mk y ldy M bs).Has Rs (fun _ => False) v2 Q) :
    wp (mmTasks kd M bounds col x ldx bs y ldy t kp) (Win.mk y ldy M bs).Has Rs (fun _ => False) v1 Q := by
  refine mmTasks_wp hs hX hd hl hf (fun _ h => Or.inl h) (fun _ h => Or.inr (Or.inl h)) (fun v2 h1 h2 => hk v2 ⟨fun a ha => ?_, fun i hi' j hj => ?_⟩)
  · exact (h1 a (Or.inr (Or.inl ha)) (hd a ha)).trans (hi.same a ha)
  · rw [h2 i hi' j hj]
    dsimp only
    rw [rowSum_congr hs hX hi.same hi' hj]
    have := hi.vals i hi' j hj
    simp only [Win.adr] at this
    rw [this]

theorem mvInit_inv {kp : Proc K} {Q : (ℕ → K) → Prop} {beta : K} (hd : ∀ a, Rs a → ¬ (Win.mk y 1 M 1).Has a)
    (hk : ∀ v2, HInv ⟨y, 1, M, 1⟩ Rs v (fun i _ => beta * v (y + i)) v2 → wp kp (Win.mk y 1 M 1).Has Rs (fun _ => False) v2 Q) :
    wp (call (mvInit M beta y) kp) (Win.mk y 1 M 1).Has Rs (fun _ => False) v Q := by
  refine wp_call (w := vw y 1 M) (g := fun i _ => beta * v (y + i)) (Win.mk y 1 M 1).Has (FinS.has _) (fun _ h => Or.inl h)
    (wrIn_mvInit fun i hi => Or.inl ⟨i, hi, 0, Nat.one_pos, rfl⟩) ?_ ?_
  · intro m hm ho hv
    subst hv
    exact mvInit_run hm ho
  · intro v' h1 h2
    exact hk v' ⟨fun a ha => h1 a (Or.inr (Or.inl ha)) (hd a ha), h2⟩

/-! ### CSR_HYB -/

/-- a row of CSR_HYB and its cells -/
structure HybRowOk (M N D : ℕ) (st col : Arr ℕ) (Rs : ℕ → Prop) : Prop where
  len : 4 * M < st.len
  a1 : ∀ i < M, st.get (4 * i) ≤ st.get (4 * i + 1)
  a2 : ∀ i < M, st.get (4 * i + 1) ≤ st.get (4 * i + 2)
  a3 : ∀ i < M, st.get (4 * i + 2) ≤ st.get (4 * (i + 1))
  col : ∀ i < M, ∀ t < st.get (4 * (i + 1)), t < col.len ∧ col.get t < N
  dat : ∀ i < M, ∀ t < st.get (4 * (i + 1)) - st.get (4 * i + 2), Rs (D + (st.get (4 * i + 3) + t))

/-- the sum of the third part -/
def datSum (v : ℕ → K) (D : ℕ) (st col : Arr ℕ) (x i n : ℕ) : K :=
  ∑ t ∈ range n, v (D + (st.get (4 * i + 3) + t)) * v (x + col.get (st.get (4 * i + 2) + t))

/-- the sum of a row -/
def hybSum (v : ℕ → K) (D : ℕ) (st col : Arr ℕ) (x i : ℕ) : K :=
  rowSum v .mone col x 1 (st.get (4 * i)) (st.get (4 * i + 1) - st.get (4 * i)) 0 +
  rowSum v .one col x 1 (st.get (4 * i + 1)) (st.get (4 * i + 2) - st.get (4 * i + 1)) 0 +
  datSum v D st col x i (st.get (4 * (i + 1)) - st.get (4 * i + 2))

lemma hybCell_run {g : ℕ → K} {d yi : ℕ} (hc : j < col.len) (hx : m.ok (x + col.get j) = true ∧ x + col.get j ≠ yi) (hdd : m.ok d = true ∧ d ≠ yi)
    (hy : m.ok yi = true) (h : RowSt m m' yi 1 g) :
    Run (hybCell col d x yi j) m' (fun _ m'' => RowSt m m'' yi 1 (fun _ => g 0 + m.val d * m.val (x + col.get j))) := by
  have fr : ∀ a, a ≠ yi → m'.val a = m.val a := fun a ha => h.frame a (fun k hk e => ha (by omega))
  simp only [hybCell, Run_bind, Run_liftE, Ok_rd]
  refine ⟨hc, ?_⟩
  rw [Run_load]
  refine ⟨by rw [h.ok]; exact hx.1, ?_⟩
  rw [Run_load]
  refine ⟨by rw [h.ok]; exact hdd.1, ?_⟩
  rw [Run_load]
  refine ⟨by rw [h.ok]; exact hy, ?_⟩
  rw [Run_store]
  refine ⟨by rw [h.ok]; exact hy, ?_⟩
  have h0 : m'.val yi = g 0 := h.val 0 Nat.one_pos
  rw [h0, fr _ hx.2, fr _ hdd.2]
  refine (h.set (k := 0) Nat.one_pos _).congr (fun k hk => ?_)
  obtain rfl : k = 0 := by omega
  simp

lemma zoLoop_run {g : ℕ → K} {yi s n : ℕ} (he : ∀ t < n, EntOk m kd col x 1 1 yi (s + t)) (hy : m.ok yi = true) (h : RowSt m m' yi 1 g) :
    Run (loop n fun t => mmCell kd col x 1 yi (s + t) 0) m' (fun _ m'' => RowSt m m'' yi 1 (fun _ => g 0 + rowSum m.val kd col x 1 s n 0)) := by
  refine Run_loop (fun T m1 => RowSt m m1 yi 1 (fun _ => g 0 + rowSum m.val kd col x 1 s T 0)) ?_ ?_
  · exact h.congr (fun k hk => by obtain rfl : k = 0 := (by omega); simp [rowSum])
  · intro t m1 ht h1
    refine (mmCell_run (he t ht) (fun k hk => by obtain rfl : k = 0 := (by omega); exact hy) h1 Nat.one_pos).mono (fun _ _ h2 => h2.congr (fun k hk => ?_))
    obtain rfl : k = 0 := by omega
    simp only [Function.update_self, rowSum]
    rw [sum_range_succ]; ring

lemma hybRow_run {D i : ℕ} (hs : HybRowOk M N D st col Rs) (hX : ∀ a, (Win.mk x 1 N 1).Has a → Rs a) (hi : i < M) (hR : ∀ a, Rs a → m.ok a = true)
    (hd : ∀ a, Rs a → a ≠ y + i) (hy : m.ok (y + i) = true) :
    Run (hybRow D st col x y i) m (fun _ m' => RowSt m m' (y + i) 1 (fun _ => m.val (y + i) + hybSum m.val D st col x i)) := by
  have hl := hs.len
  have a1 := hs.a1 i hi
  have a2 := hs.a2 i hi
  have a3 := hs.a3 i hi
  have hx : ∀ t < st.get (4 * (i + 1)), Rs (x + col.get t) := fun t ht =>
    hX _ ⟨col.get t, (hs.col i hi t ht).2, 0, Nat.one_pos, by simp [Win.adr]⟩
  have ent : ∀ kd : PKind, (∀ t a, ¬ kd.cell t a) → ∀ t < st.get (4 * (i + 1)), EntOk m kd col x 1 1 (y + i) t := by
    intro kd hkd t ht
    refine ⟨(hs.col i hi t ht).1, fun k hk => ?_, fun a ha => absurd ha (hkd t a)⟩
    obtain rfl : k = 0 := by omega
    rw [mul_one, add_zero]
    refine ⟨hR _ (hx t ht), fun l hl' => ?_⟩
    obtain rfl : l = 0 := by omega
    exact hd _ (hx t ht)
  simp only [hybRow, Run_bind, Run_liftE, Ok_rd]
  refine ⟨by omega, by omega, ?_⟩
  refine (zoLoop_run (kd := .mone) (g := fun _ => m.val (y + i)) (fun t ht => ent .mone (fun _ _ h => h) _ (by omega)) hy
    ⟨rfl, le_rfl, fun k hk => by obtain rfl : k = 0 := (by omega); rfl, fun _ _ => rfl⟩).mono ?_
  intro _ m1 h1
  refine ⟨by omega, ?_⟩
  refine (zoLoop_run (kd := .one) (fun t ht => ent .one (fun _ _ h => h) _ (by omega)) hy h1).mono ?_
  intro _ m2 h2
  refine ⟨by omega, by omega, ?_⟩
  refine (Run_loop (fun T m3 => RowSt m m3 (y + i) 1 (fun _ => m.val (y + i) +
      rowSum m.val .mone col x 1 (st.get (4 * i)) (st.get (4 * i + 1) - st.get (4 * i)) 0 +
      rowSum m.val .one col x 1 (st.get (4 * i + 1)) (st.get (4 * i + 2) - st.get (4 * i + 1)) 0 + datSum m.val D st col x i T)) ?_ ?_).mono ?_
  · exact h2.congr (fun k _ => by simp [datSum])
  · intro t m3 ht h3
    have ht' : st.get (4 * i + 2) + t < st.get (4 * (i + 1)) := by omega
    have hD := hs.dat i hi t ht
    refine (hybCell_run (hs.col i hi _ ht').1 ⟨hR _ (hx _ ht'), hd _ (hx _ ht')⟩ ⟨hR _ hD, hd _ hD⟩ hy h3).mono (fun _ _ h4 => h4.congr (fun k _ => ?_))
    simp only [datSum]
    rw [sum_range_succ]; ring
  · intro _ m3 h3
    refine h3.congr (fun k _ => ?_)
    unfold hybSum
    ring

lemma wrIn_hybRow {S : ℕ → Prop} {D i : ℕ} (h : S (y + i)) : Small.wrIn (hybRow D st col x y i : Prog K Unit) S := by
  refine wrIn_bind wrIn_liftE fun _ => wrIn_bind wrIn_liftE fun _ => wrIn_bind (wrIn_loop fun _ _ => wrIn_mmCell (by simpa using h)) fun _ =>
    wrIn_bind wrIn_liftE fun _ => wrIn_bind (wrIn_loop fun _ _ => wrIn_mmCell (by simpa using h)) fun _ => wrIn_bind wrIn_liftE fun _ =>
    wrIn_bind wrIn_liftE fun _ => wrIn_loop fun _ _ => ?_
  exact wrIn_bind wrIn_liftE fun _ => wrIn_bind wrIn_load fun _ => wrIn_bind wrIn_load fun _ => wrIn_bind wrIn_load fun _ => wrIn_store h

lemma hybSum_congr {D i : ℕ} {v' : ℕ → K} (hs : HybRowOk M N D st col Rs) (hX : ∀ a, (Win.mk x 1 N 1).Has a → Rs a) (hi : i < M) (h : ∀ a, Rs a → v' a = v a) :
    hybSum v' D st col x i = hybSum v D st col x i := by
  have a1 := hs.a1 i hi
  have a2 := hs.a2 i hi
  have a3 := hs.a3 i hi
  have hx : ∀ t < st.get (4 * (i + 1)), v' (x + col.get t) = v (x + col.get t) := fun t ht =>
    h _ (hX _ ⟨col.get t, (hs.col i hi t ht).2, 0, Nat.one_pos, by simp [Win.adr]⟩)
  unfold hybSum rowSum datSum
  congr 1
  · congr 1
    · refine sum_congr rfl (fun t ht => ?_)
      have ht := mem_range.1 ht
      simp only [PKind.coef, mul_one, add_zero]
      rw [hx _ (by omega)]
    · refine sum_congr rfl (fun t ht => ?_)
      have ht := mem_range.1 ht
      simp only [PKind.coef, mul_one, add_zero]
      rw [hx _ (by omega)]
  · refine sum_congr rfl (fun t ht => ?_)
    have ht := mem_range.1 ht
    rw [hx _ (by omega), h _ (hs.dat i hi t ht)]

theorem pfspmvCsrHyb_ok {D : ℕ} {beta : K} (hs : HybRowOk M N D st col Rs) (hX : ∀ a, (Win.mk x 1 N 1).Has a → Rs a)
    (hd : ∀ a, Rs a → ¬ (Win.mk y 1 M 1).Has a) (hf : FinS Rs) :
    TaskOk (pfspmvCsrHyb D M st col x beta y .ret) ⟨y, 1, M, 1⟩ Rs v (fun i _ => beta * v (y + i) + hybSum v D st col x i) := by
  refine mvInit_inv (v := v) hd (fun v1 hv1 => ?_)
  have hH : ∀ (i : ℕ) a, (Win.mk (y + i) 1 1 1).Has a ↔ a = y + i := by
    intro i a
    constructor
    · rintro ⟨p, hp, q, hq, rfl⟩
      have hp : p < 1 := hp
      have hq : q < 1 := hq
      simp only [Win.adr]; omega
    · rintro rfl; exact ⟨0, Nat.one_pos, 0, Nat.one_pos, by simp [Win.adr]⟩
  have hH2 : ∀ i < M, (Win.mk y 1 M 1).Has (y + i) := fun i hi => ⟨i, hi, 0, Nat.one_pos, by simp [Win.adr]⟩
  refine wp_spawn (fun i => ⟨y + i, 1, 1, 1⟩) (fun i _ _ => v1 (y + i) + hybSum v1 D st col x i) Rs ?_ (fun _ h => Or.inr (Or.inl h)) ?_ ?_ ?_ ?_
  · intro i a ha
    rw [hH] at ha; subst ha
    exact Or.inl (hH2 i i.2)
  · intro i a ha h
    rw [hH] at h; subst h
    exact hd _ ha (hH2 i i.2)
  · intro i l hil a h1 h2
    rw [hH] at h1 h2
    exact hil (Fin.ext (by omega))
  · intro i
    refine task_call hf (wrIn_hybRow (Or.inl ((hH _ _).2 rfl))) ?_
    intro m hm ho hRm hv
    refine (hybRow_run (m := m) hs hX i.2 hRm (fun a ha e => hd a ha (e ▸ hH2 i i.2)) (ho _ ((hH _ _).2 rfl))).mono (fun _ _ s => ?_)
    rw [← hv]; exact s.step
  · intro v' h1 h2 i hi j hj
    obtain rfl : j = 0 := by simpa using hj
    have := h2 ⟨i, hi⟩ 0 Nat.one_pos 0 Nat.one_pos
    simp only [Win.adr, mul_one, add_zero] at this ⊢
    rw [this, hybSum_congr hs hX hi hv1.same]
    have h3 := hv1.vals i hi 0 Nat.one_pos
    simp only [Win.adr, mul_one, add_zero] at h3
    rw [h3]

end Verif.Par
