import Verif.Model.Transpose
import Verif.Proofs.Simd
import Verif.Proofs.Level2
import Mathlib.Data.Nat.GCD.Basic
import Mathlib.Data.Nat.ModEq

/-!
# Correctness of the transposition routines
-/

namespace Verif.FF

variable {K : Type} [Field K] [DecidableEq K]

/-! ## Partial writes of a window -/

/-- `m'` is `m` after the cells of `W` selected by `D` received `T`; other allocated cells unchanged. -/
structure Wr (m m' : Mem K) (W : Win) (T : ℕ → ℕ → K) (D : ℕ → ℕ → Prop) : Prop where
  ok : m'.ok = m.ok
  next : m.next ≤ m'.next
  val : ∀ i < W.r, ∀ j < W.c, D i j → m'.val (W.adr i j) = T i j
  frame : ∀ a, m.ok a = true → (∀ i < W.r, ∀ j < W.c, D i j → a ≠ W.adr i j) → m'.val a = m.val a

section Wr
omit [Field K] [DecidableEq K]
variable {m m' m'' : Mem K} {W Z : Win} {T g : ℕ → ℕ → K} {D E : ℕ → ℕ → Prop}

lemma Wr.refl (m : Mem K) (W : Win) (T : ℕ → ℕ → K) (D : ℕ → ℕ → Prop) (h : ∀ i < W.r, ∀ j < W.c, ¬ D i j) : Wr m m W T D :=
  ⟨rfl, le_rfl, fun i hi j hj hd => absurd hd (h i hi j hj), fun _ _ _ => rfl⟩

lemma Wr.congr (h : Wr m m' W T D) (e : ∀ i < W.r, ∀ j < W.c, (D i j ↔ E i j)) : Wr m m' W T E :=
  ⟨h.ok, h.next, fun i hi j hj he => h.val i hi j hj ((e i hi j hj).2 he),
    fun a ha hn => h.frame a ha fun i hi j hj hd => hn i hi j hj ((e i hi j hj).1 hd)⟩

lemma Wr.trans (hW : W.Inj) (hok : OkIn m W) (h : Wr m m' W T D) (h' : Wr m' m'' W T E) :
    Wr m m'' W T (fun i j => D i j ∨ E i j) := by
  refine ⟨h'.ok.trans h.ok, h.next.trans h'.next, ?_, ?_⟩
  · intro i hi j hj hd
    by_cases he : E i j
    · exact h'.val i hi j hj he
    · rw [h'.frame _ (by rw [h.ok]; exact hok.adr hi hj) ?_]
      · exact h.val i hi j hj (hd.resolve_right he)
      · intro a ha b hb hab e
        obtain ⟨rfl, rfl⟩ := hW i hi j hj a ha b hb e
        exact he hab
  · intro a ha hn
    rw [h'.frame a (by rw [h.ok]; exact ha) fun i hi j hj he => hn i hi j hj (Or.inr he),
      h.frame a ha fun i hi j hj he => hn i hi j hj (Or.inl he)]

lemma Wr.okIn (h : Wr m m' W T D) (hZ : OkIn m Z) : OkIn m' Z := fun a ha => by rw [h.ok]; exact hZ a ha

lemma Wr.wf (h : Wr m m' W T D) (hm : WF m) : WF m' := fun a ha => by rw [h.ok]; exact hm a (h.next.trans ha)

/-- cells outside `W` keep their contents -/
lemma Wr.out (h : Wr m m' W T D) {a : ℕ} (ha : m.ok a = true) (hn : ¬ W.Has a) : m'.val a = m.val a :=
  h.frame a ha fun i hi j hj _ e => hn ⟨i, hi, j, hj, e⟩

/-- cells not selected keep their contents -/
lemma Wr.old (hW : W.Inj) (hok : OkIn m W) (h : Wr m m' W T D) {i j : ℕ} (hi : i < W.r) (hj : j < W.c) (hd : ¬ D i j) :
    m'.val (W.adr i j) = m.val (W.adr i j) :=
  h.frame _ (hok.adr hi hj) fun a ha b hb hab e => by
    obtain ⟨rfl, rfl⟩ := hW i hi j hj a ha b hb e
    exact hd hab

lemma Wr.loop {n : ℕ} {f : ℕ → Prog K Unit} {D : ℕ → ℕ → ℕ → Prop} (hW : W.Inj) (hok : OkIn m W)
    (hf : ∀ t < n, ∀ m', Wr m m' W T (fun i j => ∃ s < t, D s i j) → Run (f t) m' (fun _ m'' => Wr m' m'' W T (D t))) :
    Run (loop n f) m (fun _ m' => Wr m m' W T (fun i j => ∃ s < n, D s i j)) := by
  refine Run_loop (fun t m' => Wr m m' W T (fun i j => ∃ s < t, D s i j)) (Wr.refl _ _ _ _ (by simp)) ?_
  intro t m' ht h
  refine (hf t ht m' h).mono fun _ m'' h' => (h.trans hW hok h').congr fun i _ j _ => ?_
  constructor
  · rintro (⟨s, hs, hd⟩ | hd)
    · exact ⟨s, by omega, hd⟩
    · exact ⟨t, by omega, hd⟩
  · rintro ⟨s, hs, hd⟩
    rcases Nat.lt_or_ge s t with h | h
    · exact Or.inl ⟨s, h, hd⟩
    · obtain rfl : s = t := by omega
      exact Or.inr hd

/-- a step on a window whose cells are selected cells of `W` -/
lemma Wr.of_step (s : Step m m' Z g)
    (h1 : ∀ a < Z.r, ∀ b < Z.c, ∃ i < W.r, ∃ j < W.c, D i j ∧ Z.adr a b = W.adr i j)
    (h2 : ∀ i < W.r, ∀ j < W.c, D i j → ∃ a < Z.r, ∃ b < Z.c, W.adr i j = Z.adr a b ∧ g a b = T i j) :
    Wr m m' W T D := by
  refine ⟨s.ok, s.next, ?_, ?_⟩
  · intro i hi j hj hd
    obtain ⟨a, ha, b, hb, e, e'⟩ := h2 i hi j hj hd
    rw [e, s.val a ha b hb, e']
  · intro a ha hn
    refine s.frame a ha ?_
    rintro ⟨x, hx, y, hy, rfl⟩
    obtain ⟨i, hi, j, hj, hd, e⟩ := h1 x hx y hy
    exact hn i hi j hj hd e

lemma Wr.step (h : Wr m m' W T D) (hd : ∀ i < W.r, ∀ j < W.c, D i j) : Step m m' W T :=
  ⟨h.ok, h.next, fun i hi j hj => h.val i hi j hj (hd i hi j hj), fun _ ha hn => h.out ha hn⟩

end Wr

/-! ## Block transposition -/

lemma Simd.vs_pos (S : Simd) : 0 < S.vs := by cases S <;> simp [Simd.vs]

omit [DecidableEq K] in
lemma loadVec_spec {μ : Mem K} {A : ℕ} (n : ℕ) (h : ∀ j < n, μ.ok (A + j) = true) :
    Run (loadVec n A) μ (fun v μ' => μ' = μ ∧ ∀ j < n, v j = μ.val (A + j)) := by
  induction n with
  | zero => simp [loadVec]
  | succ n ih =>
    unfold loadVec
    rw [Run_bind]
    refine (ih fun j hj => h j (by omega)).mono ?_
    rintro v _ ⟨rfl, hv⟩
    rw [Run_bind, Run_load, Run_pure]
    refine ⟨h n (by omega), rfl, fun j hj => ?_⟩
    by_cases e : j = n
    · subst e; rw [Function.update_self]
    · rw [Function.update_of_ne e]; exact hv j (by omega)

omit [DecidableEq K] in
lemma loadRegs_spec {μ : Mem K} {vs A lda : ℕ} (n : ℕ) (h : ∀ i < n, ∀ j < vs, μ.ok (A + lda * i + j) = true) :
    Run (loadRegs vs A lda n) μ (fun R μ' => μ' = μ ∧ ∀ i < n, ∀ j < vs, R i j = μ.val (A + lda * i + j)) := by
  induction n with
  | zero => simp [loadRegs]
  | succ n ih =>
    unfold loadRegs
    rw [Run_bind]
    refine (ih fun i hi => h i (by omega)).mono ?_
    rintro R _ ⟨rfl, hR⟩
    rw [Run_bind]
    refine (loadVec_spec vs (h n (by omega))).mono ?_
    rintro v _ ⟨rfl, hv⟩
    rw [Run_pure]
    refine ⟨rfl, fun i hi j hj => ?_⟩
    by_cases e : i = n
    · subst e; rw [Function.update_self]; exact hv j hj
    · rw [Function.update_of_ne e]; exact hR i (by omega) j hj

omit [DecidableEq K] in
lemma blockT_spec {μ : Mem K} (S : Simd) {A lda B ldb : ℕ} (hA : OkIn μ ⟨A, lda, S.vs, S.vs⟩)
    (hB : OkIn μ ⟨B, ldb, S.vs, S.vs⟩) (hi : (Win.mk B ldb S.vs S.vs).Inj) :
    Run (blockT S A lda B ldb) μ (fun _ μ' => Step μ μ' ⟨B, ldb, S.vs, S.vs⟩ (fun i j => μ.val (A + j * lda + i))) := by
  unfold blockT
  rw [Run_bind]
  refine (loadRegs_spec S.vs fun i hi j hj => ?_).mono ?_
  · have := hA.adr (i := i) (j := j) hi hj
    simpa only [Win.adr, Nat.mul_comm] using this
  rintro R _ ⟨rfl, hR⟩
  unfold storeRegs
  refine (Run_store_loop2 (r := S.vs) (c := S.vs) (fun i j => B + ldb * i + j) (fun i j => S.net R i j) ?_ ?_).mono ?_
  · intro i h1 j h2 i' h3 j' h4 e
    exact (hi i h1 j h2 i' h3 j' h4 (by simpa only [Win.adr, Nat.mul_comm] using e)).1
  · intro i h1 μ' e1 e2
    refine Run_store_loop (fun j => B + ldb * i + j) (fun j => S.net R i j) ?_ ?_ ?_
    · intro j hj
      have := hB.adr (i := i) (j := j) h1 hj
      rw [e1]
      simpa only [Win.adr, Nat.mul_comm] using this
    · intro s _ t _ e
      omega
    · intro t ht μ'' e3 _
      rw [Run_store]
      refine ⟨?_, rfl⟩
      have := hB.adr (i := i) (j := t) h1 ht
      rw [e3, e1]
      simpa only [Win.adr, Nat.mul_comm] using this
  · rintro _ μ' ⟨h1, h2, h3, h4⟩
    refine ⟨h1, h2.ge, ?_, ?_⟩
    · intro i hi j hj
      have e := h3 i hi j hj
      rw [S.net_ok R i hi j hj, hR j hj i hi] at e
      simpa only [Win.adr, Nat.mul_comm] using e
    · intro a _ hn
      refine h4 a fun i hi j hj e => hn ⟨i, hi, j, hj, ?_⟩
      simpa only [Win.adr, Nat.mul_comm] using e

/-! ## Blocking arithmetic -/

lemma lt_steps {t n s x : ℕ} (hs : 0 < s) (h1 : t * s ≤ x) (h2 : x < n) : t < steps n s := by
  unfold steps
  rw [Nat.lt_div_iff_mul_lt hs]
  omega

lemma steps_lt {t n s : ℕ} (hs : 0 < s) (h : t < steps n s) : t * s < n := by
  unfold steps at h
  rw [Nat.lt_div_iff_mul_lt hs] at h
  omega

/-- the blocks of `vs` handled in the block starting at `ib` are inside -/
lemma block_range {ib m bs vs u : ℕ} (h : u < (min m (ib + bs) - ib) / vs) :
    ib + u * vs + vs ≤ m ∧ u * vs + vs ≤ bs := by
  have h1 : (u + 1) * vs ≤ min m (ib + bs) - ib := le_trans (Nat.mul_le_mul_right _ h) (Nat.div_mul_le_self _ _)
  rw [Nat.succ_mul] at h1
  rcases Nat.eq_zero_or_pos vs with h0 | h0
  · subst h0; simp at h
  · omega

/-- every index below the last multiple of `vs` is in one of the blocks of `vs` of one of the blocks of `bs` -/
lemma block_cover {i m bs vs : ℕ} (hb : 0 < bs) (hv : 0 < vs) (hd : vs ∣ bs) (hi : i < m / vs * vs) :
    ∃ t < steps m bs, ∃ u < (min m (t * bs + bs) - t * bs) / vs, t * bs + u * vs ≤ i ∧ i < t * bs + u * vs + vs := by
  obtain ⟨q, rfl⟩ := hd
  have hm : i < m := lt_of_lt_of_le hi (Nat.div_mul_le_self _ _)
  have e1 := Nat.div_add_mod i (vs * q)
  have e1' := Nat.mod_lt i hb
  have e2 := Nat.div_add_mod (i % (vs * q)) vs
  have e2' := Nat.mod_lt (i % (vs * q)) hv
  rw [Nat.mul_comm _ (i / (vs * q))] at e1
  rw [Nat.mul_comm vs (i % (vs * q) / vs)] at e2
  refine ⟨i / (vs * q), lt_steps hb (Nat.div_mul_le_self _ _) hm, i % (vs * q) / vs, ?_, by omega, by omega⟩
  rw [Nat.lt_iff_add_one_le, Nat.le_div_iff_mul_le hv, Nat.succ_mul]
  have h1 : i % (vs * q) / vs < q := by rw [Nat.div_lt_iff_lt_mul hv, Nat.mul_comm q]; exact e1'
  have h2 : (i % (vs * q) / vs + 1) * vs ≤ q * vs := Nat.mul_le_mul_right _ h1
  rw [Nat.succ_mul] at h2
  have h3 : i / vs < m / vs := by rw [Nat.div_lt_iff_lt_mul hv]; exact hi
  have h4 : (i / vs + 1) * vs ≤ m := le_trans (Nat.mul_le_mul_right _ h3) (Nat.div_mul_le_self _ _)
  have h5 : i / (vs * q) * q + i % (vs * q) / vs = i / vs := by
    have : i = vs * (i / (vs * q) * q + i % (vs * q) / vs) + i % (vs * q) % vs := by
      rw [Nat.mul_add]
      have : vs * (i / (vs * q) * q) = i / (vs * q) * (vs * q) := by ring
      rw [this, Nat.mul_comm vs (i % (vs * q) / vs)]
      omega
    conv_rhs => rw [this]
    rw [Nat.mul_add_div hv, Nat.div_eq_of_lt e2', Nat.add_zero]
  have h6 : i / (vs * q) * (vs * q) + i % (vs * q) / vs * vs = i / vs * vs := by
    rw [← h5]; ring
  rw [Nat.succ_mul] at h4
  have h7 : vs * q = q * vs := Nat.mul_comm ..
  omega

/-! ## Out of place -/

theorem notInplace_spec {μ : Mem K} (S : Simd) {bs m n A lda B ldb : ℕ} (hb : 0 < bs) (hd : S.vs ∣ bs)
    (hA : OkIn μ ⟨A, lda, m, n⟩) (hB : OkIn μ ⟨B, ldb, n, m⟩) (hl : m ≤ ldb) (hdis : (Win.mk A lda m n).Disj ⟨B, ldb, n, m⟩) :
    Run (notInplace S bs m n A lda B ldb) μ
      (fun _ μ' => Step μ μ' ⟨B, ldb, n, m⟩ (fun j i => μ.val (A + i * lda + j))) := by
  have hv := Simd.vs_pos S
  have hI : (Win.mk B ldb n m).Inj := Win.Inj_of_le (Or.inl hl)
  generalize hT : (fun j i => μ.val (A + i * lda + j)) = T
  have hTv : ∀ j i, T j i = μ.val (A + i * lda + j) := fun j i => by rw [← hT]
  -- the source is never modified
  have src : ∀ {μ' : Mem K} {D}, Wr μ μ' ⟨B, ldb, n, m⟩ T D → ∀ i < m, ∀ j < n, μ'.val (A + i * lda + j) = T j i := by
    intro μ' D h i hi j hj
    rw [hTv]
    exact h.out (hA.adr (i := i) (j := j) hi hj) (hdis _ ⟨i, hi, j, hj, rfl⟩)
  unfold notInplace
  simp only []
  rw [Run_bind]
  have hmain := Wr.loop (m := μ) (W := ⟨B, ldb, n, m⟩) (T := T) (n := steps m bs)
    (D := fun t j i => ∃ s < steps n bs, ∃ u < (min m (t * bs + bs) - t * bs) / S.vs,
      ∃ w < (min n (s * bs + bs) - s * bs) / S.vs,
        (s * bs + w * S.vs ≤ j ∧ j < s * bs + w * S.vs + S.vs) ∧ (t * bs + u * S.vs ≤ i ∧ i < t * bs + u * S.vs + S.vs))
    (f := fun t => loop (steps n bs) fun s => loop ((min m (t * bs + bs) - t * bs) / S.vs) fun u =>
      loop ((min n (s * bs + bs) - s * bs) / S.vs) fun w =>
        blockT S (A + (t * bs + u * S.vs) * lda + (s * bs + w * S.vs)) lda
          (B + (s * bs + w * S.vs) * ldb + (t * bs + u * S.vs)) ldb) hI hB ?_
  swap
  · intro t ht μ1 w1
    refine Wr.loop hI (w1.okIn hB) ?_
    intro s hs μ2 w2
    refine Wr.loop hI (w2.okIn (w1.okIn hB)) ?_
    intro u hu μ3 w3
    refine Wr.loop hI (w3.okIn (w2.okIn (w1.okIn hB))) ?_
    intro w hw μ4 w4
    have w5 := ((w1.trans hI hB w2).trans hI hB w3).trans hI hB w4
    have hu' := (block_range hu).1
    have hw' := (block_range hw).1
    generalize t * bs + u * S.vs = iv at *
    generalize s * bs + w * S.vs = jv at *
    have okA := (w5.okIn hA).of_sub (i := iv) (j := jv) (r' := S.vs) (c' := S.vs) hu' hw'
    have okB := (w5.okIn hB).of_sub (i := jv) (j := iv) (r' := S.vs) (c' := S.vs) hw' hu'
    have inj := Win.sub_Inj (W := ⟨B, ldb, n, m⟩) (i := jv) (j := iv) (r' := S.vs) (c' := S.vs) hw' hu' hI
    simp only [Win.sub, Win.adr] at okA okB inj
    refine (blockT_spec S okA okB inj).mono fun _ μ5 st => Wr.of_step st ?_ ?_
    · intro a ha b hb
      refine ⟨jv + a, by simp only at ha ⊢; omega, iv + b, by simp only at hb ⊢; omega, ⟨by simp only at ha; omega, by simp only at hb; omega⟩, ?_⟩
      simp only [Win.adr]; ring
    · intro j hj i hi hji
      refine ⟨j - jv, by simp only; omega, i - iv, by simp only; omega, ?_, ?_⟩
      · simp only [Win.adr]
        obtain ⟨a, rfl⟩ := Nat.exists_eq_add_of_le hji.1.1
        obtain ⟨b, rfl⟩ := Nat.exists_eq_add_of_le hji.2.1
        simp only [Nat.add_sub_cancel_left]; ring
      · rw [← src w5 i hi j hj]
        congr 1
        obtain ⟨a, rfl⟩ := Nat.exists_eq_add_of_le hji.1.1
        obtain ⟨b, rfl⟩ := Nat.exists_eq_add_of_le hji.2.1
        simp only [Nat.add_sub_cancel_left]; ring
  refine hmain.mono fun _ μ1 w1 => ?_
  have hln : n / S.vs * S.vs ≤ n := Nat.div_mul_le_self _ _
  have hlm : m / S.vs * S.vs ≤ m := Nat.div_mul_le_self _ _
  rw [Run_bind]
  refine (Wr.loop (T := T) (D := fun t j i => j = n / S.vs * S.vs + t ∧ i < m / S.vs * S.vs) hI (w1.okIn hB) ?_).mono ?_
  · intro t ht μ2 w2
    have w3 := w1.trans hI hB w2
    generalize hj0 : n / S.vs * S.vs + t = j0 at *
    have hj : j0 < n := by omega
    have k1 : OkIn μ2 (vw (A + j0) lda (m / S.vs * S.vs)) := by
      rintro a ⟨i, hi, z, hz, rfl⟩
      have hz : z = 0 := by simpa [vw] using hz
      subst hz
      have := (w3.okIn hA).adr (i := i) (j := j0) (lt_of_lt_of_le hi hlm) hj
      simp only [Win.adr, vw] at this ⊢
      rw [← this]; congr 1; ring
    have k2 : OkIn μ2 (vw (B + j0 * ldb) 1 (m / S.vs * S.vs)) := by
      rintro a ⟨i, hi, z, hz, rfl⟩
      have hz : z = 0 := by simpa [vw] using hz
      subst hz
      have := (w3.okIn hB).adr (i := j0) (j := i) hj (lt_of_lt_of_le hi hlm)
      simp only [Win.adr, vw] at this ⊢
      rw [← this]; congr 1; ring
    have k3 : (vw (A + j0) lda (m / S.vs * S.vs)).Disj (vw (B + j0 * ldb) 1 (m / S.vs * S.vs)) := by
      rintro a ⟨i, hi, z, hz, rfl⟩ ⟨i', hi', z', hz', e⟩
      have hz : z = 0 := by simpa [vw] using hz
      have hz' : z' = 0 := by simpa [vw] using hz'
      subst hz; subst hz'
      refine hdis _ ⟨i, lt_of_lt_of_le hi hlm, j0, hj, rfl⟩ ⟨j0, hj, i', lt_of_lt_of_le hi' hlm, ?_⟩
      simp only [Win.adr, vw] at e ⊢
      omega
    refine (vassign_spec k1 k2 (k3.safe rfl rfl) Nat.one_pos).mono fun _ μ3 st => Wr.of_step st ?_ ?_
    · intro a ha b hb
      have hb : b = 0 := by simpa [vw] using hb
      subst hb
      refine ⟨j0, hj, a, lt_of_lt_of_le ha hlm, ⟨rfl, ha⟩, ?_⟩
      simp only [Win.adr, vw]; ring
    · rintro j _ i hi ⟨rfl, hi'⟩
      refine ⟨i, hi', 0, Nat.one_pos, ?_, ?_⟩
      · simp only [Win.adr, vw]; ring
      · rw [← src w3 i hi j hj]; congr 1; ring
  · intro _ μ2 w2
    have w3 := w1.trans hI hB w2
    refine (Wr.loop (T := T) (D := fun t _ i => i = m / S.vs * S.vs + t) hI (w3.okIn hB) ?_).mono ?_
    · intro t ht μ3 w4
      have w5 := w3.trans hI hB w4
      generalize hi0 : m / S.vs * S.vs + t = i0 at *
      have hi : i0 < m := by omega
      have k1 : OkIn μ3 (vw (A + i0 * lda) 1 n) := by
        rintro a ⟨j, hj, z, hz, rfl⟩
        have hz : z = 0 := by simpa [vw] using hz
        subst hz
        have := (w5.okIn hA).adr (i := i0) (j := j) hi hj
        simp only [Win.adr, vw] at this ⊢
        rw [← this]; congr 1; ring
      have k2 : OkIn μ3 (vw (B + i0) ldb n) := by
        rintro a ⟨j, hj, z, hz, rfl⟩
        have hz : z = 0 := by simpa [vw] using hz
        subst hz
        have := (w5.okIn hB).adr (i := j) (j := i0) hj hi
        simp only [Win.adr, vw] at this ⊢
        rw [← this]; congr 1; ring
      have k3 : (vw (A + i0 * lda) 1 n).Disj (vw (B + i0) ldb n) := by
        rintro a ⟨j, hj, z, hz, rfl⟩ ⟨j', hj', z', hz', e⟩
        have hz : z = 0 := by simpa [vw] using hz
        have hz' : z' = 0 := by simpa [vw] using hz'
        subst hz; subst hz'
        refine hdis _ ⟨i0, hi, j, hj, rfl⟩ ⟨j', hj', i0, hi, ?_⟩
        simp only [Win.adr, vw] at e ⊢
        omega
      refine (vassign_spec k1 k2 (k3.safe rfl rfl) (by omega)).mono fun _ μ4 st => Wr.of_step st ?_ ?_
      · intro a ha b hb
        have hb : b = 0 := by simpa [vw] using hb
        subst hb
        refine ⟨a, ha, i0, hi, rfl, ?_⟩
        simp only [Win.adr, vw]; ring
      · rintro j hj i _ rfl
        refine ⟨j, hj, 0, Nat.one_pos, ?_, ?_⟩
        · simp only [Win.adr, vw]; ring
        · rw [← src w5 i hi j hj]; congr 1; ring
    · intro _ μ3 w4
      refine (w3.trans hI hB w4).step ?_
      intro j hj i hi
      simp only at hj hi
      by_cases c1 : i < m / S.vs * S.vs
      · left
        by_cases c2 : j < n / S.vs * S.vs
        · left
          obtain ⟨t, ht, u, hu, h1, h2⟩ := block_cover hb hv hd c1
          obtain ⟨s, hs, w, hw, h3, h4⟩ := block_cover hb hv hd c2
          exact ⟨t, ht, s, hs, u, hu, w, hw, ⟨h3, h4⟩, h1, h2⟩
        · exact Or.inr ⟨j - n / S.vs * S.vs, by omega, by omega, c1⟩
      · exact Or.inr ⟨i - m / S.vs * S.vs, by omega, by omega⟩

/-! ## In place, square -/

lemma vs_cover {i b n vs : ℕ} (hv : 0 < vs) (h1 : b ≤ i) (h2 : i < b + n / vs * vs) :
    ∃ u < n / vs, b + u * vs ≤ i ∧ i < b + u * vs + vs := by
  have e := Nat.div_add_mod (i - b) vs
  have e' := Nat.mod_lt (i - b) hv
  rw [Nat.mul_comm] at e
  refine ⟨(i - b) / vs, ?_, by omega, by omega⟩
  rw [Nat.div_lt_iff_lt_mul hv]; omega

lemma vs_range {u n vs : ℕ} (h : u < n / vs) : u * vs + vs ≤ n / vs * vs := by
  have h1 : (u + 1) * vs ≤ n / vs * vs := Nat.mul_le_mul_right _ h
  rw [Nat.succ_mul] at h1
  exact h1

/-- entry `(i, j)` is in the block at `(ib, jb)` -/
def InTile (ib jb bs i j : ℕ) : Prop := (ib ≤ i ∧ i < ib + bs) ∧ (jb ≤ j ∧ j < jb + bs)

instance (ib jb bs i j : ℕ) : Decidable (InTile ib jb bs i j) := by unfold InTile; infer_instance

/-- writing a `r × c` sub-block of the matrix from the transposed source -/
lemma Wr.of_sub {μ μ' : Mem K} {A lda m p q r c : ℕ} {g T : ℕ → ℕ → K} {D : ℕ → ℕ → Prop} (hr : p + r ≤ m) (hc : q + c ≤ m)
    (st : Step μ μ' ⟨A + p * lda + q, lda, r, c⟩ g) (hg : ∀ a < r, ∀ b < c, g a b = T (p + a) (q + b))
    (hD : ∀ i j, D i j ↔ (p ≤ i ∧ i < p + r) ∧ (q ≤ j ∧ j < q + c)) :
    Wr μ μ' ⟨A, lda, m, m⟩ T D := by
  refine Wr.of_step st ?_ ?_
  · intro a ha b hb
    simp only at ha hb
    refine ⟨p + a, by simp only; omega, q + b, by simp only; omega, (hD _ _).2 ⟨by omega, by omega⟩, ?_⟩
    simp only [Win.adr]; ring
  · intro i hi j hj hd
    obtain ⟨⟨h1, h2⟩, h3, h4⟩ := (hD _ _).1 hd
    obtain ⟨a, rfl⟩ := Nat.exists_eq_add_of_le h1
    obtain ⟨b, rfl⟩ := Nat.exists_eq_add_of_le h3
    refine ⟨a, by simp only; omega, b, by simp only; omega, ?_, hg a (by omega) b (by omega)⟩
    simp only [Win.adr]; ring

/-- the effect of transposing two opposite blocks in place -/
structure SqEff (μ μ' : Mem K) (W T1 T2 : Win) (D : ℕ → ℕ → Prop) : Prop where
  ok : μ'.ok = μ.ok
  next : μ.next ≤ μ'.next
  new : ∀ i < W.r, ∀ j < W.c, D i j → μ'.val (W.adr i j) = μ.val (W.adr j i)
  old : ∀ i < W.r, ∀ j < W.c, ¬ D i j → μ'.val (W.adr i j) = μ.val (W.adr i j)
  frame : ∀ a, μ.ok a = true → ¬ W.Has a → ¬ T1.Has a → ¬ T2.Has a → μ'.val a = μ.val a

theorem squareBlock_spec {μ : Mem K} (S : Simd) {bs m A lda T1 T2 ib jb : ℕ} (hm : WF μ) (hd : S.vs ∣ bs)
    (hA : OkIn μ ⟨A, lda, m, m⟩) (h1 : OkIn μ ⟨T1, bs, bs, bs⟩) (h2 : OkIn μ ⟨T2, bs, bs, bs⟩) (hl : m ≤ lda)
    (d1 : (Win.mk A lda m m).Disj ⟨T1, bs, bs, bs⟩) (d2 : (Win.mk A lda m m).Disj ⟨T2, bs, bs, bs⟩)
    (d3 : (Win.mk T1 bs bs bs).Disj ⟨T2, bs, bs, bs⟩) (hij : jb = ib ∨ ib + bs ≤ jb) (hjb : jb < m) :
    Run (squareBlock S bs m A lda T1 T2 ib jb) μ
      (fun _ μ' => SqEff μ μ' ⟨A, lda, m, m⟩ ⟨T1, bs, bs, bs⟩ ⟨T2, bs, bs, bs⟩
        (fun i j => InTile ib jb bs i j ∨ InTile jb ib bs i j)) := by
  have hv := Simd.vs_pos S
  have hI : (Win.mk A lda m m).Inj := Win.Inj_of_le (Or.inl hl)
  have hib : ib < m := by omega
  unfold squareBlock
  simp only []
  generalize hl' : min bs (m - ib) = l
  generalize hk' : min bs (m - jb) = k
  have eib : min m (ib + bs) = ib + l := by omega
  have ejb : min m (jb + bs) = jb + k := by omega
  rw [eib, ejb, Nat.add_sub_cancel_left, Nat.add_sub_cancel_left]
  -- the copies
  have okS1 : OkIn μ ⟨A + ib * lda + jb, lda, l, k⟩ :=
    hA.of_sub (i := ib) (j := jb) (r' := l) (c' := k) (by simp only; omega) (by simp only; omega)
  have okD1 : OkIn μ ⟨T1, bs, l, k⟩ := fun a ha => h1 a (Win.Has_mono (W := ⟨T1, bs, l, k⟩) rfl rfl (by simp only; omega) (by simp only; omega) ha)
  have sub1 : (Win.mk (A + ib * lda + jb) lda l k).Disj ⟨T1, bs, l, k⟩ := fun a ha hb =>
    d1 a (Win.sub_Has (W := ⟨A, lda, m, m⟩) (i := ib) (j := jb) (r' := l) (c' := k) (by simp only; omega) (by simp only; omega) ha)
      (Win.Has_mono (W := ⟨T1, bs, l, k⟩) rfl rfl (by simp only; omega) (by simp only; omega) hb)
  rw [Run_bind]
  refine (fassign_spec hm okS1 okD1 (by omega) (sub1.safe rfl rfl)).mono fun _ μ1 s1 => ?_
  have okS2 : OkIn μ1 ⟨A + jb * lda + ib, lda, k, l⟩ :=
    (hA.step s1).of_sub (i := jb) (j := ib) (r' := k) (c' := l) (by simp only; omega) (by simp only; omega)
  have okD2 : OkIn μ1 ⟨T2, bs, k, l⟩ := fun a ha => (h2.step s1) a (Win.Has_mono (W := ⟨T2, bs, k, l⟩) rfl rfl (by simp only; omega) (by simp only; omega) ha)
  have sub2 : (Win.mk (A + jb * lda + ib) lda k l).Disj ⟨T2, bs, k, l⟩ := fun a ha hb =>
    d2 a (Win.sub_Has (W := ⟨A, lda, m, m⟩) (i := jb) (j := ib) (r' := k) (c' := l) (by simp only; omega) (by simp only; omega) ha)
      (Win.Has_mono (W := ⟨T2, bs, k, l⟩) rfl rfl (by simp only; omega) (by simp only; omega) hb)
  rw [Run_bind]
  refine (fassign_spec (hm.step s1) okS2 okD2 (by omega) (sub2.safe rfl rfl)).mono fun _ μ2 s2 => ?_
  have hA2 : OkIn μ2 ⟨A, lda, m, m⟩ := (hA.step s1).step s2
  have hasT1 : ∀ {a}, (Win.mk T1 bs l k).Has a → (Win.mk T1 bs bs bs).Has a := fun ha =>
    Win.Has_mono (W := ⟨T1, bs, l, k⟩) rfl rfl (by simp only; omega) (by simp only; omega) ha
  have hasT2 : ∀ {a}, (Win.mk T2 bs k l).Has a → (Win.mk T2 bs bs bs).Has a := fun ha =>
    Win.Has_mono (W := ⟨T2, bs, k, l⟩) rfl rfl (by simp only; omega) (by simp only; omega) ha
  -- contents of the matrix and of the temporaries
  have keepA : ∀ i < m, ∀ j < m, μ2.val (A + i * lda + j) = μ.val (A + i * lda + j) := by
    intro i hi j hj
    have ha : (Win.mk A lda m m).Has (A + i * lda + j) := ⟨i, hi, j, hj, rfl⟩
    rw [s2.frame _ (by rw [s1.ok]; exact hA _ ha) (fun h => d2 _ ha (hasT2 h)), s1.frame _ (hA _ ha) (fun h => d1 _ ha (hasT1 h))]
  have valT1 : ∀ x < l, ∀ y < k, μ2.val (T1 + x * bs + y) = μ.val (A + (ib + x) * lda + (jb + y)) := by
    intro x hx y hy
    have ht : (Win.mk T1 bs l k).Has (T1 + x * bs + y) := ⟨x, hx, y, hy, rfl⟩
    rw [s2.frame _ (by rw [s1.ok]; exact okD1 _ ht) (fun h => d3 _ (hasT1 ht) (hasT2 h))]
    have := s1.val x hx y hy
    simp only [Win.adr, Mem.mat] at this
    rw [this]; congr 1; ring
  have valT2 : ∀ x < k, ∀ y < l, μ2.val (T2 + x * bs + y) = μ.val (A + (jb + x) * lda + (ib + y)) := by
    intro x hx y hy
    have := s2.val x hx y hy
    simp only [Win.adr, Mem.mat] at this
    rw [this]
    have ha : (Win.mk A lda m m).Has (A + (jb + x) * lda + (ib + y)) := ⟨jb + x, by simp only; omega, ib + y, by simp only; omega, rfl⟩
    rw [← s1.frame _ (hA _ ha) (fun h => d1 _ ha (hasT1 h))]
    congr 1; ring
  generalize hT : (fun i j => μ.val (A + j * lda + i)) = T
  have hTv : ∀ i j, T i j = μ.val (A + j * lda + i) := fun i j => by rw [← hT]
  have rd1 : ∀ {μ' : Mem K} {D}, Wr μ2 μ' ⟨A, lda, m, m⟩ T D → ∀ x < l, ∀ y < k,
      μ'.val (T1 + x * bs + y) = T (jb + y) (ib + x) := by
    intro μ' D h x hx y hy
    have ht : (Win.mk T1 bs l k).Has (T1 + x * bs + y) := ⟨x, hx, y, hy, rfl⟩
    rw [h.out (by rw [s2.ok, s1.ok]; exact okD1 _ ht) (fun ha => d1 _ ha (hasT1 ht)), valT1 x hx y hy, hTv]
  have rd2 : ∀ {μ' : Mem K} {D}, Wr μ2 μ' ⟨A, lda, m, m⟩ T D → ∀ x < k, ∀ y < l,
      μ'.val (T2 + x * bs + y) = T (ib + y) (jb + x) := by
    intro μ' D h x hx y hy
    have ht : (Win.mk T2 bs k l).Has (T2 + x * bs + y) := ⟨x, hx, y, hy, rfl⟩
    rw [h.out (by rw [s2.ok]; exact okD2 _ ht) (fun ha => d2 _ ha (hasT2 ht)), valT2 x hx y hy, hTv]
  have okT1 : OkIn μ2 ⟨T1, bs, bs, bs⟩ := (h1.step s1).step s2
  have okT2 : OkIn μ2 ⟨T2, bs, bs, bs⟩ := (h2.step s1).step s2
  have hlb : l / S.vs * S.vs ≤ l := Nat.div_mul_le_self _ _
  have hkb : k / S.vs * S.vs ≤ k := Nat.div_mul_le_self _ _
  -- if the rows do not split exactly, this is the last diagonal block
  have hlast : l / S.vs * S.vs < l → jb = ib ∧ l = k := by
    intro h
    rcases Nat.lt_or_ge (m - ib) bs with c | c
    · have : jb = ib := by omega
      subst this
      exact ⟨rfl, by omega⟩
    · have : l = bs := by omega
      rw [this, Nat.div_mul_cancel hd] at h
      omega
  rw [Run_bind]
  refine (Wr.loop (T := T) (D := fun u i j =>
      (∃ w < k / S.vs, ((ib + u * S.vs ≤ i ∧ i < ib + u * S.vs + S.vs) ∧ (jb + w * S.vs ≤ j ∧ j < jb + w * S.vs + S.vs)) ∨
        ((jb + w * S.vs ≤ i ∧ i < jb + w * S.vs + S.vs) ∧ (ib + u * S.vs ≤ j ∧ j < ib + u * S.vs + S.vs))) ∨
      (∃ t < jb + k - (jb + k / S.vs * S.vs),
        ((ib + u * S.vs ≤ i ∧ i < ib + u * S.vs + S.vs) ∧ j = jb + k / S.vs * S.vs + t) ∨
        (i = jb + k / S.vs * S.vs + t ∧ (ib + u * S.vs ≤ j ∧ j < ib + u * S.vs + S.vs)))) hI hA2 ?_).mono ?_
  · intro u hu μ3 w3
    have hu' := vs_range hu
    rw [Run_bind]
    refine (Wr.loop (T := T) (D := fun w i j =>
      ((ib + u * S.vs ≤ i ∧ i < ib + u * S.vs + S.vs) ∧ (jb + w * S.vs ≤ j ∧ j < jb + w * S.vs + S.vs)) ∨
        ((jb + w * S.vs ≤ i ∧ i < jb + w * S.vs + S.vs) ∧ (ib + u * S.vs ≤ j ∧ j < ib + u * S.vs + S.vs)))
      hI (w3.okIn hA2) ?_).mono ?_
    · intro w hw μ4 w4
      have hw' := vs_range hw
      have w34 := w3.trans hI hA2 w4
      rw [Run_bind]
      refine (Run_liftE _ _ _).2 ((Ok_usub _ _ _).2 ⟨Nat.le_add_right _ _, ?_⟩)
      rw [Run_bind]
      refine (Run_liftE _ _ _).2 ((Ok_usub _ _ _).2 ⟨Nat.le_add_right _ _, ?_⟩)
      rw [Nat.add_sub_cancel_left, Nat.add_sub_cancel_left]
      generalize hx : w * S.vs = x at *
      generalize hy : u * S.vs = y at *
      have bA1 := (w34.okIn hA2).of_sub (i := ib + y) (j := jb + x) (r' := S.vs) (c' := S.vs) (by simp only; omega) (by simp only; omega)
      have bT2 := (w34.okIn okT2).of_sub (i := x) (j := y) (r' := S.vs) (c' := S.vs) (by simp only; omega) (by simp only; omega)
      have iA1 := Win.sub_Inj (W := ⟨A, lda, m, m⟩) (i := ib + y) (j := jb + x) (r' := S.vs) (c' := S.vs) (by simp only; omega) (by simp only; omega) hI
      simp only [Win.sub, Win.adr] at bA1 bT2 iA1
      rw [Run_bind]
      refine (blockT_spec S bT2 bA1 iA1).mono fun _ μ5 st5 => ?_
      have w5 : Wr μ4 μ5 ⟨A, lda, m, m⟩ T (fun i j => ((ib + y ≤ i ∧ i < ib + y + S.vs) ∧ (jb + x ≤ j ∧ j < jb + x + S.vs))) := by
        refine Wr.of_sub (by omega) (by omega) st5 (fun a ha b hb => ?_) (fun i j => Iff.rfl)
        have := rd2 w34 (x + b) (by omega) (y + a) (by omega)
        rw [Nat.add_assoc ib, Nat.add_assoc jb, ← this]; congr 1; ring
      have w345 := w34.trans hI hA2 w5
      have bA2 := (w345.okIn hA2).of_sub (i := jb + x) (j := ib + y) (r' := S.vs) (c' := S.vs) (by simp only; omega) (by simp only; omega)
      have bT1 := (w345.okIn okT1).of_sub (i := y) (j := x) (r' := S.vs) (c' := S.vs) (by simp only; omega) (by simp only; omega)
      have iA2 := Win.sub_Inj (W := ⟨A, lda, m, m⟩) (i := jb + x) (j := ib + y) (r' := S.vs) (c' := S.vs) (by simp only; omega) (by simp only; omega) hI
      simp only [Win.sub, Win.adr] at bA2 bT1 iA2
      refine (blockT_spec S bT1 bA2 iA2).mono fun _ μ6 st6 => ?_
      have w6 : Wr μ5 μ6 ⟨A, lda, m, m⟩ T (fun i j => ((jb + x ≤ i ∧ i < jb + x + S.vs) ∧ (ib + y ≤ j ∧ j < ib + y + S.vs))) := by
        refine Wr.of_sub (by omega) (by omega) st6 (fun a ha b hb => ?_) (fun i j => Iff.rfl)
        have := rd1 w345 (y + b) (by omega) (x + a) (by omega)
        rw [Nat.add_assoc ib, Nat.add_assoc jb, ← this]; congr 1; ring
      exact w5.trans hI (w34.okIn hA2) w6
    · intro _ μ4 w4
      have w34 := w3.trans hI hA2 w4
      refine (Wr.loop (T := T) (D := fun t i j =>
        ((ib + u * S.vs ≤ i ∧ i < ib + u * S.vs + S.vs) ∧ j = jb + k / S.vs * S.vs + t) ∨
        (i = jb + k / S.vs * S.vs + t ∧ (ib + u * S.vs ≤ j ∧ j < ib + u * S.vs + S.vs))) hI (w34.okIn hA2) ?_).mono
        fun _ μ5 w5 => w4.trans hI (w3.okIn hA2) w5
      intro t ht μ5 w5
      have w345 := w34.trans hI hA2 w5
      rw [Run_bind]
      refine (Run_liftE _ _ _).2 ((Ok_usub _ _ _).2 ⟨by omega, ?_⟩)
      rw [Run_bind]
      refine (Run_liftE _ _ _).2 ((Ok_usub _ _ _).2 ⟨Nat.le_add_right _ _, ?_⟩)
      have ex : jb + k / S.vs * S.vs + t - jb = k / S.vs * S.vs + t := by omega
      rw [Nat.add_sub_cancel_left, ex, Nat.add_assoc jb]
      generalize hx : k / S.vs * S.vs + t = x at *
      generalize hy : u * S.vs = y at *
      have hxk : x < k := by omega
      -- column of the first block
      have bA1 := (w345.okIn hA2).of_sub (i := ib + y) (j := jb + x) (r' := S.vs) (c' := 1) (by simp only; omega) (by simp only; omega)
      simp only [Win.sub, Win.adr] at bA1
      have bT2 : OkIn μ5 (vw (T2 + x * bs + y) 1 S.vs) := by
        rintro a ⟨b, hb, z, hz, rfl⟩
        have hz : z = 0 := by simpa [vw] using hz
        subst hz
        have hb : b < S.vs := hb
        have := (w345.okIn okT2).adr (i := x) (j := y + b) (by simp only; omega) (by simp only; omega)
        simp only [Win.adr, vw] at this ⊢
        rw [← this]; congr 1; ring
      have dj : (vw (T2 + x * bs + y) 1 S.vs).Disj (vw (A + (ib + y) * lda + (jb + x)) lda S.vs) := by
        rintro a ⟨b, hb, z, hz, rfl⟩ ⟨b', hb', z', hz', e⟩
        have hz : z = 0 := by simpa [vw] using hz
        have hz' : z' = 0 := by simpa [vw] using hz'
        subst hz; subst hz'
        have hb : b < S.vs := hb
        have hb' : b' < S.vs := hb'
        refine d2 (A + (ib + y + b') * lda + (jb + x)) ⟨ib + y + b', by simp only; omega, jb + x, by simp only; omega, rfl⟩
          ⟨x, by simp only; omega, y + b, by simp only; omega, ?_⟩
        simp only [Win.adr, vw] at e ⊢
        rw [Nat.add_mul (ib + y)]
        omega
      rw [Run_bind]
      refine (vassign_spec bT2 bA1 (dj.safe rfl rfl) (by omega)).mono fun _ μ6 st6 => ?_
      have w6 : Wr μ5 μ6 ⟨A, lda, m, m⟩ T (fun i j => ((ib + y ≤ i ∧ i < ib + y + S.vs) ∧ j = jb + x)) := by
        refine Wr.of_sub (p := ib + y) (q := jb + x) (r := S.vs) (c := 1) (by omega) (by omega) st6 (fun a ha b hb => ?_) (fun i j => by omega)
        obtain rfl : b = 0 := by omega
        have := rd2 w345 x (by omega) (y + a) (by omega)
        rw [Nat.add_assoc ib, Nat.add_zero, ← this]; congr 1; ring
      have w3456 := w345.trans hI hA2 w6
      -- row of the second block
      have bA2 : OkIn μ6 (vw (A + (jb + x) * lda + (ib + y)) 1 S.vs) := by
        rintro a ⟨b, hb, z, hz, rfl⟩
        have hz : z = 0 := by simpa [vw] using hz
        subst hz
        have hb : b < S.vs := hb
        have := (w3456.okIn hA2).adr (i := jb + x) (j := ib + y + b) (by simp only; omega) (by simp only; omega)
        simp only [Win.adr, vw] at this ⊢
        rw [← this]; congr 1; ring
      have bT1 : OkIn μ6 (vw (T1 + y * bs + x) bs S.vs) := by
        rintro a ⟨b, hb, z, hz, rfl⟩
        have hz : z = 0 := by simpa [vw] using hz
        subst hz
        have hb : b < S.vs := hb
        have := (w3456.okIn okT1).adr (i := y + b) (j := x) (by simp only; omega) (by simp only; omega)
        simp only [Win.adr, vw] at this ⊢
        rw [← this]; congr 1; ring
      have dj' : (vw (T1 + y * bs + x) bs S.vs).Disj (vw (A + (jb + x) * lda + (ib + y)) 1 S.vs) := by
        rintro a ⟨b, hb, z, hz, rfl⟩ ⟨b', hb', z', hz', e⟩
        have hz : z = 0 := by simpa [vw] using hz
        have hz' : z' = 0 := by simpa [vw] using hz'
        subst hz; subst hz'
        have hb : b < S.vs := hb
        have hb' : b' < S.vs := hb'
        refine d1 (A + (jb + x) * lda + (ib + y + b')) ⟨jb + x, by simp only; omega, ib + y + b', by simp only; omega, rfl⟩
          ⟨y + b, by simp only; omega, x, by simp only; omega, ?_⟩
        simp only [Win.adr, vw] at e ⊢
        rw [Nat.add_mul y]
        omega
      refine (vassign_spec bT1 bA2 (dj'.safe rfl rfl) Nat.one_pos).mono fun _ μ7 st7 => ?_
      have w7 : Wr μ6 μ7 ⟨A, lda, m, m⟩ T (fun i j => i = jb + x ∧ (ib + y ≤ j ∧ j < ib + y + S.vs)) := by
        refine Wr.of_step st7 ?_ ?_
        · intro a ha b hb
          have hb : b = 0 := by simpa [vw] using hb
          subst hb
          have ha : a < S.vs := ha
          refine ⟨jb + x, by simp only; omega, ib + y + a, by simp only; omega, ⟨rfl, by omega, by omega⟩, ?_⟩
          simp only [Win.adr, vw]; ring
        · rintro i hi j hj ⟨rfl, hj1, hj2⟩
          obtain ⟨a, rfl⟩ := Nat.exists_eq_add_of_le hj1
          refine ⟨a, by simp only [vw]; omega, 0, Nat.one_pos, ?_, ?_⟩
          · simp only [Win.adr, vw]; ring
          · have := rd1 w3456 (y + a) (by omega) x (by omega)
            rw [Nat.add_assoc ib, ← this]; congr 1; ring
      exact w6.trans hI (w345.okIn hA2) w7
  · intro _ μ3 w3
    have elen : ib + l - (ib + l / S.vs * S.vs) = l - l / S.vs * S.vs := by omega
    rw [elen]
    refine (Wr.loop (T := T) (D := fun t i j => i = ib + l / S.vs * S.vs + t ∧ (ib + l / S.vs * S.vs ≤ j ∧ j < jb + k))
      hI (w3.okIn hA2) ?_).mono ?_
    · intro t ht μ4 w4
      have w34 := w3.trans hI hA2 w4
      obtain ⟨rfl, rfl⟩ := hlast (by omega)
      rw [Run_bind]
      refine (Run_liftE _ _ _).2 ((Ok_usub _ _ _).2 ⟨by omega, ?_⟩)
      rw [Run_bind]
      refine (Run_liftE _ _ _).2 ((Ok_usub _ _ _).2 ⟨Nat.le_add_right _ _, ?_⟩)
      rw [Run_bind]
      refine (Run_liftE _ _ _).2 ((Ok_usub _ _ _).2 ⟨by omega, ?_⟩)
      rw [elen, Nat.add_sub_cancel_left]
      have ey : jb + l / S.vs * S.vs + t - jb = l / S.vs * S.vs + t := by omega
      rw [ey]
      generalize hx : l / S.vs * S.vs = x at *
      have bA : OkIn μ4 (vw (A + (jb + x + t) * lda + (jb + x)) 1 (l - x)) := by
        rintro a ⟨b, hb, z, hz, rfl⟩
        have hz : z = 0 := by simpa [vw] using hz
        subst hz
        have hb : b < l - x := hb
        have := (w34.okIn hA2).adr (i := jb + x + t) (j := jb + x + b) (by simp only; omega) (by simp only; omega)
        simp only [Win.adr, vw] at this ⊢
        rw [← this]; congr 1; ring
      have bT : OkIn μ4 (vw (T2 + x * bs + (x + t)) bs (l - x)) := by
        rintro a ⟨b, hb, z, hz, rfl⟩
        have hz : z = 0 := by simpa [vw] using hz
        subst hz
        have hb : b < l - x := hb
        have := (w34.okIn okT2).adr (i := x + b) (j := x + t) (by simp only; omega) (by simp only; omega)
        simp only [Win.adr, vw] at this ⊢
        rw [← this]; congr 1; ring
      have dj : (vw (T2 + x * bs + (x + t)) bs (l - x)).Disj (vw (A + (jb + x + t) * lda + (jb + x)) 1 (l - x)) := by
        rintro a ⟨b, hb, z, hz, rfl⟩ ⟨b', hb', z', hz', e⟩
        have hz : z = 0 := by simpa [vw] using hz
        have hz' : z' = 0 := by simpa [vw] using hz'
        subst hz; subst hz'
        have hb : b < l - x := hb
        have hb' : b' < l - x := hb'
        refine d2 (A + (jb + x + t) * lda + (jb + x + b')) ⟨jb + x + t, by simp only; omega, jb + x + b', by simp only; omega, rfl⟩
          ⟨x + b, by simp only; omega, x + t, by simp only; omega, ?_⟩
        simp only [Win.adr, vw] at e ⊢
        rw [Nat.add_mul x]
        omega
      refine (vassign_spec bT bA (dj.safe rfl rfl) Nat.one_pos).mono fun _ μ5 st5 => Wr.of_step st5 ?_ ?_
      · intro a ha b hb
        have hb : b = 0 := by simpa [vw] using hb
        subst hb
        have ha : a < l - x := ha
        refine ⟨jb + x + t, by simp only; omega, jb + x + a, by simp only; omega, ⟨rfl, by omega, by omega⟩, ?_⟩
        simp only [Win.adr, vw]; ring
      · rintro i hi j hj ⟨rfl, hj1, hj2⟩
        obtain ⟨a, rfl⟩ := Nat.exists_eq_add_of_le hj1
        refine ⟨a, by simp only [vw]; omega, 0, Nat.one_pos, ?_, ?_⟩
        · simp only [Win.adr, vw]; ring
        · have := rd2 w34 (x + a) (by omega) (x + t) (by omega)
          rw [Nat.add_assoc jb x t, Nat.add_assoc jb x a, ← this]; congr 1; ring
    · intro _ μ4 w4
      have w34 := w3.trans hI hA2 w4
      -- rows that split exactly
      have cov : ∀ i j, ib ≤ i → i < ib + l / S.vs * S.vs → jb ≤ j → j < jb + k → ∃ u < l / S.vs,
          (ib + u * S.vs ≤ i ∧ i < ib + u * S.vs + S.vs) ∧
          ((∃ w < k / S.vs, jb + w * S.vs ≤ j ∧ j < jb + w * S.vs + S.vs) ∨
            ∃ t < jb + k - (jb + k / S.vs * S.vs), j = jb + k / S.vs * S.vs + t) := by
        intro i j h1 h2 h3 h4
        obtain ⟨u, hu, h5, h6⟩ := vs_cover hv h1 h2
        refine ⟨u, hu, ⟨h5, h6⟩, ?_⟩
        by_cases c : j < jb + k / S.vs * S.vs
        · exact Or.inl (vs_cover hv h3 c)
        · exact Or.inr ⟨j - (jb + k / S.vs * S.vs), by omega, by omega⟩
      have w : Wr μ2 μ4 ⟨A, lda, m, m⟩ T (fun i j => InTile ib jb bs i j ∨ InTile jb ib bs i j) := by
        refine w34.congr fun i hi j hj => ?_
        simp only at hi hj
        unfold InTile
        constructor
        · rintro (⟨u, hu, ⟨w, hw, ⟨h1, h2⟩ | ⟨h1, h2⟩⟩ | ⟨t, ht, ⟨h1, h2⟩ | ⟨h1, h2⟩⟩⟩ | ⟨t, ht, h1, h2⟩)
          · have := vs_range hu; have := vs_range hw; left; omega
          · have := vs_range hu; have := vs_range hw; right; omega
          · have := vs_range hu; left; omega
          · have := vs_range hu; right; omega
          · obtain ⟨rfl, rfl⟩ := hlast (by omega)
            left; omega
        · rintro (⟨⟨h1, h2⟩, h3, h4⟩ | ⟨⟨h1, h2⟩, h3, h4⟩)
          · by_cases c : i < ib + l / S.vs * S.vs
            · obtain ⟨u, hu, h5, ⟨w, hw, h6⟩ | ⟨t, ht, h6⟩⟩ := cov i j h1 c h3 (by omega)
              · exact Or.inl ⟨u, hu, Or.inl ⟨w, hw, Or.inl ⟨h5, h6⟩⟩⟩
              · exact Or.inl ⟨u, hu, Or.inr ⟨t, ht, Or.inl ⟨h5, h6⟩⟩⟩
            · obtain ⟨rfl, rfl⟩ := hlast (by omega)
              by_cases c' : j < jb + l / S.vs * S.vs
              · obtain ⟨u, hu, h5, ⟨w, hw, h6⟩ | ⟨t, ht, h6⟩⟩ := cov j i h3 c' h1 (by omega)
                · exact Or.inl ⟨u, hu, Or.inl ⟨w, hw, Or.inr ⟨h6, h5⟩⟩⟩
                · exact Or.inl ⟨u, hu, Or.inr ⟨t, ht, Or.inr ⟨h6, h5⟩⟩⟩
              · exact Or.inr ⟨i - (jb + l / S.vs * S.vs), by omega, by omega, by omega, by omega⟩
          · by_cases c : j < ib + l / S.vs * S.vs
            · obtain ⟨u, hu, h5, ⟨w, hw, h6⟩ | ⟨t, ht, h6⟩⟩ := cov j i h3 c h1 (by omega)
              · exact Or.inl ⟨u, hu, Or.inl ⟨w, hw, Or.inr ⟨h6, h5⟩⟩⟩
              · exact Or.inl ⟨u, hu, Or.inr ⟨t, ht, Or.inr ⟨h6, h5⟩⟩⟩
            · obtain ⟨rfl, rfl⟩ := hlast (by omega)
              by_cases c' : i < jb + l / S.vs * S.vs
              · obtain ⟨u, hu, h5, ⟨w, hw, h6⟩ | ⟨t, ht, h6⟩⟩ := cov i j h1 c' h3 (by omega)
                · exact Or.inl ⟨u, hu, Or.inl ⟨w, hw, Or.inl ⟨h5, h6⟩⟩⟩
                · exact Or.inl ⟨u, hu, Or.inr ⟨t, ht, Or.inl ⟨h5, h6⟩⟩⟩
              · exact Or.inr ⟨i - (jb + l / S.vs * S.vs), by omega, by omega, by omega, by omega⟩
      refine ⟨by rw [w.ok, s2.ok, s1.ok], (s1.next.trans s2.next).trans w.next, ?_, ?_, ?_⟩
      · intro i hi j hj hd
        rw [w.val i hi j hj hd, hTv]
        rfl
      · intro i hi j hj hd
        rw [w.old hI hA2 hi hj hd]
        exact keepA i hi j hj
      · intro a ha n0 n1 n2
        rw [w.out (by rw [s2.ok, s1.ok]; exact ha) n0, s2.frame a (by rw [s1.ok]; exact ha) (fun h => n2 (hasT2 h)),
          s1.frame a ha (fun h => n1 (hasT1 h))]

/-- In-place transposition of a square matrix. -/
theorem squareInplace_spec {μ : Mem K} (S : Simd) {bs m A lda : ℕ} (hm : WF μ) (hb : 0 < bs) (hd : S.vs ∣ bs)
    (hA : OkIn μ ⟨A, lda, m, m⟩) (hl : m ≤ lda) :
    Run (squareInplace S bs m A lda) μ
      (fun _ μ' => Step μ μ' ⟨A, lda, m, m⟩ (fun i j => μ.val (A + j * lda + i))) := by
  have hI : (Win.mk A lda m m).Inj := Win.Inj_of_le (Or.inl hl)
  unfold squareInplace
  simp only []
  rw [Run_bind, Run_alloc]
  change Run _ (μ.grow (bs * bs)) _
  generalize hT1 : μ.next = T1
  have a1 : OkIn (μ.grow (bs * bs)) ⟨T1, bs, bs, bs⟩ := by rw [← hT1]; exact OkIn.grow_new μ bs bs
  have d1 : (Win.mk A lda m m).Disj ⟨T1, bs, bs, bs⟩ := by rw [← hT1]; exact Disj_new hm hA
  have hA1 := hA.grow (bs * bs)
  have hm1 := hm.grow (bs * bs)
  generalize hμ1 : μ.grow (bs * bs) = μ1 at *
  rw [Run_bind, Run_alloc]
  change Run _ (μ1.grow (bs * bs)) _
  generalize hT2 : μ1.next = T2
  have a2 : OkIn (μ1.grow (bs * bs)) ⟨T2, bs, bs, bs⟩ := by rw [← hT2]; exact OkIn.grow_new μ1 bs bs
  have d2 : (Win.mk A lda m m).Disj ⟨T2, bs, bs, bs⟩ := by rw [← hT2]; exact Disj_new hm1 hA1
  have d3 : (Win.mk T1 bs bs bs).Disj ⟨T2, bs, bs, bs⟩ := by rw [← hT2]; exact Disj_new hm1 a1
  have hA2 := hA1.grow (bs * bs)
  have a1' := a1.grow (bs * bs)
  have hm2 := hm1.grow (bs * bs)
  have hframe0 : ∀ a, (μ1.grow (bs * bs)).val a = μ.val a := fun a => by rw [← hμ1]; rfl
  have hok0 : ∀ a, μ.ok a = true → (μ1.grow (bs * bs)).ok a = true := fun a ha => by
    rw [← hμ1]; exact grow_ok (grow_ok ha)
  generalize hμ2 : μ1.grow (bs * bs) = μ2 at *
  rw [Run_bind]
  refine (fzero_spec hm2 a1' le_rfl).mono fun _ μ3 s3 => ?_
  rw [Run_bind]
  refine (fzero_spec (hm2.step s3) (a2.step s3) le_rfl).mono fun _ μ4 s4 => ?_
  have hA4 := (hA2.step s3).step s4
  have okT1 := (a1'.step s3).step s4
  have okT2 := (a2.step s3).step s4
  have hm4 := (hm2.step s3).step s4
  have e4 : ∀ a, μ.ok a = true → ¬ (Win.mk T1 bs bs bs).Has a → ¬ (Win.mk T2 bs bs bs).Has a → μ4.val a = μ.val a := by
    intro a ha n1 n2
    rw [s4.frame a (by rw [s3.ok]; exact hok0 a ha) n2, s3.frame a (hok0 a ha) n1, hframe0]
  have out1 : ∀ a, μ.ok a = true → ¬ (Win.mk T1 bs bs bs).Has a := fun a ha h => by
    obtain ⟨i, _, j, _, rfl⟩ := h
    rw [hm _ (by simp only [Win.adr, ← hT1]; omega)] at ha
    exact absurd ha (by simp)
  have out2 : ∀ a, μ.ok a = true → ¬ (Win.mk T2 bs bs bs).Has a := fun a ha h => by
    obtain ⟨i, _, j, _, rfl⟩ := h
    rw [hm _ (by simp only [Win.adr, ← hT2, ← hμ1, Mem.grow]; omega)] at ha
    exact absurd ha (by simp)
  -- after the blocks of `D`
  have step : ∀ {D E : ℕ → ℕ → Prop} {μ5 μ6 : Mem K}, (∀ i j, D i j → D j i) → (∀ i j, D i j → ¬ E i j) → (∀ i j, E i j → E j i) →
      SqEff μ4 μ5 ⟨A, lda, m, m⟩ ⟨T1, bs, bs, bs⟩ ⟨T2, bs, bs, bs⟩ D →
      SqEff μ5 μ6 ⟨A, lda, m, m⟩ ⟨T1, bs, bs, bs⟩ ⟨T2, bs, bs, bs⟩ E →
      SqEff μ4 μ6 ⟨A, lda, m, m⟩ ⟨T1, bs, bs, bs⟩ ⟨T2, bs, bs, bs⟩ (fun i j => D i j ∨ E i j) := by
    intro D E μ5 μ6 hD hDE hE s t
    refine ⟨t.ok.trans s.ok, s.next.trans t.next, ?_, ?_, ?_⟩
    · rintro i hi j hj (h | h)
      · rw [t.old i hi j hj (hDE _ _ h), s.new i hi j hj h]
      · rw [t.new i hi j hj h, s.old j hj i hi fun hd => hDE _ _ hd (hE _ _ h)]
    · intro i hi j hj h
      rw [t.old i hi j hj fun h' => h (Or.inr h'), s.old i hi j hj fun h' => h (Or.inl h')]
    · intro a ha n0 n1 n2
      rw [t.frame a (by rw [s.ok]; exact ha) n0 n1 n2, s.frame a ha n0 n1 n2]
  have blk : ∀ t i, (t * bs ≤ i ∧ i < t * bs + bs) ↔ i / bs = t := by
    intro t i
    have e := Nat.div_add_mod i bs
    have e' := Nat.mod_lt i hb
    rw [Nat.mul_comm] at e
    constructor
    · rintro ⟨h1, h2⟩
      rw [Nat.div_eq_of_lt_le h1 (by rw [Nat.succ_mul]; exact h2)]
    · rintro rfl; omega
  have congr : ∀ {D E : ℕ → ℕ → Prop} {μ5 : Mem K}, SqEff μ4 μ5 ⟨A, lda, m, m⟩ ⟨T1, bs, bs, bs⟩ ⟨T2, bs, bs, bs⟩ D →
      (∀ i < m, ∀ j < m, (D i j ↔ E i j)) → SqEff μ4 μ5 ⟨A, lda, m, m⟩ ⟨T1, bs, bs, bs⟩ ⟨T2, bs, bs, bs⟩ E := by
    intro D E μ5 s h
    exact ⟨s.ok, s.next, fun i hi j hj hd => s.new i hi j hj ((h i hi j hj).2 hd),
      fun i hi j hj hd => s.old i hi j hj fun h' => hd ((h i hi j hj).1 h'), s.frame⟩
  rw [Run_bind]
  refine (Run_loop (fun t μ5 => SqEff μ4 μ5 ⟨A, lda, m, m⟩ ⟨T1, bs, bs, bs⟩ ⟨T2, bs, bs, bs⟩
    (fun i j => i / bs < t ∨ j / bs < t)) ⟨rfl, le_rfl, by simp, by simp, by simp⟩ ?_).mono ?_
  · intro t μ5 ht s5
    have ht' := steps_lt hb ht
    refine (Run_loop (fun s μ6 => SqEff μ4 μ6 ⟨A, lda, m, m⟩ ⟨T1, bs, bs, bs⟩ ⟨T2, bs, bs, bs⟩
      (fun i j => (i / bs < t ∨ j / bs < t) ∨ (i / bs = t ∧ j / bs < t + s) ∨ (j / bs = t ∧ i / bs < t + s)))
      (congr s5 fun i _ j _ => by omega) ?_).mono ?_
    · intro s μ6 hs s6
      have hs' := steps_lt hb hs
      have okm : ∀ {W : Win}, OkIn μ4 W → OkIn μ6 W := fun h a ha => by rw [s6.ok]; exact h a ha
      have wf6 : WF μ6 := fun a ha => by rw [s6.ok]; exact hm4 a (s6.next.trans ha)
      refine (squareBlock_spec S wf6 hd (okm hA4) (okm okT1) (okm okT2) hl d1 d2 d3 ?_ (by omega)).mono fun _ μ7 s7 => ?_
      · rcases Nat.eq_zero_or_pos s with rfl | h
        · left; omega
        · right
          have : 1 * bs ≤ s * bs := Nat.mul_le_mul_right _ h
          omega
      · have es : t * bs + s * bs = (t + s) * bs := by ring
        rw [es] at s7
        refine congr (step ?_ ?_ ?_ s6 s7) ?_
        · intro i j h; omega
        · intro i j h h'
          unfold InTile at h'
          simp only [blk] at h'
          omega
        · intro i j h
          unfold InTile at h ⊢
          omega
        · intro i _ j _
          unfold InTile
          simp only [blk]
          omega
    · intro _ μ6 s6
      have lt : ∀ j < m, t ≤ j / bs → j / bs < t + steps (m - t * bs) bs := by
        intro j hj h
        have : j / bs - t < steps (m - t * bs) bs := by
          refine lt_steps hb (x := j - t * bs) ?_ ?_
          · have h1 := Nat.div_mul_le_self j bs
            rw [Nat.sub_mul]; omega
          · have h1 := Nat.div_mul_le_self j bs
            have h2 : t * bs ≤ j / bs * bs := Nat.mul_le_mul_right _ h
            omega
        omega
      refine congr s6 fun i hi j hj => ?_
      have h1 := lt i hi
      have h2 := lt j hj
      omega
  · intro _ μ5 s5
    rw [Run_bind, Run_free, Run_free]
    have hall : ∀ i < m, i / bs < steps m bs := fun i hi => lt_steps hb (Nat.div_mul_le_self i bs) hi
    refine ⟨?_, ?_, ?_, ?_⟩
    · funext a
      have h5 : μ5.ok = ((μ.grow (bs * bs)).grow (bs * bs)).ok := by rw [s5.ok, s4.ok, s3.ok, ← hμ2, ← hμ1]
      have hT2' : T2 = T1 + bs * bs := by rw [← hT2, ← hμ1, ← hT1]; rfl
      simp only [h5, Mem.grow, hT1, hT2']
      by_cases c : T1 ≤ a
      · rw [hm a (by omega)]
        by_cases c1 : a < T1 + bs * bs <;> by_cases c2 : a < T1 + bs * bs + bs * bs <;> simp [c, c1, c2]
      · have c1 : ¬ T1 + bs * bs ≤ a := by omega
        simp [c, c1]
    · have h1 := s5.next
      have h2 := s4.next
      have h3 := s3.next
      have h4 : μ.next ≤ μ2.next := by rw [← hμ2, ← hμ1]; simp only [Mem.grow]; omega
      change μ.next ≤ μ5.next
      omega
    · intro i hi j hj
      have e := s5.new i hi j hj (Or.inl (hall i hi))
      have ha : (Win.mk A lda m m).Has (A + j * lda + i) := ⟨j, hj, i, hi, rfl⟩
      change μ5.val _ = _
      rw [e]
      exact e4 _ (hA _ ha) (out1 _ (hA _ ha)) (out2 _ (hA _ ha))
    · intro a ha hn
      change μ5.val a = μ.val a
      rw [s5.frame a (by rw [s4.ok, s3.ok]; exact hok0 a ha) hn (out1 a ha) (out2 a ha), e4 a ha (out1 a ha) (out2 a ha)]

/-! ## In place, not square -/

/-- `nonsquare_inplace_v1`: afterwards the cells hold the `n × m` transpose, row after row. -/
theorem nonsquareV1_spec {μ : Mem K} (S : Simd) {bs m n A : ℕ} (hm : WF μ) (hb : 0 < bs) (hd : S.vs ∣ bs)
    (hA : OkIn μ ⟨A, n, m, n⟩) :
    Run (nonsquareV1 S bs m n A) μ (fun _ μ' => Step μ μ' ⟨A, m, n, m⟩ (fun j i => μ.val (A + i * n + j))) := by
  have hA' : OkIn μ ⟨A, m, n, m⟩ := fun a ha => hA a (by
    rw [← flat_Has] at ha ⊢
    rwa [Nat.mul_comm])
  unfold nonsquareV1
  simp only []
  rw [Run_bind, Run_alloc]
  change Run _ (μ.grow (m * n)) _
  rw [Run_bind]
  have dj : (Win.mk A n m n).Disj ⟨μ.next, n, m, n⟩ := Disj_new hm hA
  refine (fassign_spec (hm.grow _) (hA.grow _) (OkIn.grow_new μ m n) le_rfl (dj.safe rfl rfl)).mono fun _ μ1 s1 => ?_
  rw [Run_bind]
  refine (notInplace_spec S hb hd ((OkIn.grow_new μ m n).step s1) ((hA'.grow _).step s1) le_rfl
    (Disj_new hm hA').symm).mono fun _ μ2 s2 => ?_
  rw [Run_free]
  refine (Step.temp hm s1 s2).congr fun j hj i hi => ?_
  exact s1.val i hi j hj

/-! ### The three passes of `nonsquare_inplace_v2` -/

/-- the memory of the three passes: `A` holds `V`, only `A` and the temporary differ from `μ0` -/
structure Pass (μ0 μ : Mem K) (W T : Win) (V : ℕ → ℕ → K) : Prop where
  ok : μ.ok = μ0.ok
  next : μ0.next ≤ μ.next
  val : ∀ i < W.r, ∀ j < W.c, μ.val (W.adr i j) = V i j
  frame : ∀ a, μ0.ok a = true → ¬ W.Has a → ¬ T.Has a → μ.val a = μ0.val a

section Pass
omit [Field K] [DecidableEq K]
variable {μ0 μ μ' : Mem K} {A m n tmp N : ℕ} {V U : ℕ → ℕ → K}

lemma Pass.congr {W T : Win} (h : Pass μ0 μ W T V) (e : ∀ i < W.r, ∀ j < W.c, V i j = U i j) : Pass μ0 μ W T U :=
  ⟨h.ok, h.next, fun i hi j hj => by rw [h.val i hi j hj, e i hi j hj], h.frame⟩

/-- fill the temporary, then copy it to cells `adr t` of the matrix -/
lemma pass_copy {k : ℕ} {σ τ adr : ℕ → ℕ} {g : ℕ → K} (hA : OkIn μ0 ⟨A, n, m, n⟩) (hT : OkIn μ0 (vw tmp 1 N))
    (hd : (Win.mk A n m n).Disj (vw tmp 1 N)) (h : Pass μ0 μ ⟨A, n, m, n⟩ (vw tmp 1 N) V) (hk : k ≤ N)
    (hσ : ∀ t < k, (Win.mk A n m n).Has (σ t)) (hτ : ∀ t < k, τ t < k) (hinj : ∀ s < k, ∀ t < k, τ s = τ t → s = t)
    (hadr : ∀ t < k, (Win.mk A n m n).Has (adr t)) (hinj' : ∀ s < k, ∀ t < k, adr s = adr t → s = t)
    (hg : ∀ t < k, g (τ t) = μ.val (σ t)) :
    Run (do
      loop k fun t => do
        let x ← load (σ t)
        store (tmp + τ t) x
      loop k fun t => do
        let x ← load (tmp + t)
        store (adr t) x) μ
      (fun _ μ' => μ'.ok = μ.ok ∧ μ'.next = μ.next ∧ (∀ t < k, μ'.val (adr t) = g t) ∧
        ∀ a, (∀ t < k, a ≠ adr t) → ¬ (vw tmp 1 N).Has a → μ'.val a = μ.val a) := by
  have hasT : ∀ t < k, (vw tmp 1 N).Has (tmp + t) := fun t ht =>
    ⟨t, lt_of_lt_of_le ht hk, 0, Nat.one_pos, by simp [Win.adr, vw]⟩
  have surj : ∀ q < k, ∃ t < k, τ t = q := by
    intro q hq
    have hinj2 : Function.Injective (fun t : Fin k => (⟨τ t, hτ t t.2⟩ : Fin k)) := fun s t e =>
      Fin.ext (hinj s s.2 t t.2 (by simpa using congrArg Fin.val e))
    obtain ⟨t, ht⟩ := Finite.surjective_of_injective hinj2 ⟨q, hq⟩
    exact ⟨t, t.2, by simpa using congrArg Fin.val ht⟩
  rw [Run_bind]
  refine (Run_store_loop (fun t => tmp + τ t) (fun t => μ.val (σ t)) ?_ ?_ ?_).mono ?_
  · intro t ht
    rw [h.ok]; exact hT _ (hasT _ (hτ t ht))
  · intro s hs t ht e
    exact hinj s hs t ht (by omega)
  · intro t ht μ1 e1 e2
    rw [Run_bind, Run_load, Run_store]
    refine ⟨by rw [e1, h.ok]; exact hA _ (hσ t ht), by rw [e1, h.ok]; exact hT _ (hasT _ (hτ t ht)), ?_⟩
    rw [e2 (σ t) fun s hs e => hd _ (hσ t ht) (by rw [e]; exact hasT _ (hτ s (by omega)))]
  · rintro _ μ1 ⟨o1, n1, v1, f1⟩
    refine (Run_store_loop adr g ?_ hinj' ?_).mono ?_
    · intro t ht
      rw [o1, h.ok]; exact hA _ (hadr t ht)
    · intro t ht μ2 e1 e2
      rw [Run_bind, Run_load, Run_store]
      refine ⟨by rw [e1, o1, h.ok]; exact hT _ (hasT t ht), by rw [e1, o1, h.ok]; exact hA _ (hadr t ht), ?_⟩
      rw [e2 _ fun s hs e => hd _ (hadr s (by omega)) (by rw [← e]; exact hasT t ht)]
      obtain ⟨s, hs, rfl⟩ := surj t ht
      rw [v1 s hs, hg s hs]
    · rintro _ μ2 ⟨o2, n2, v2, f2⟩
      refine ⟨o2.trans o1, n2.trans n1, v2, fun a ha hn => ?_⟩
      rw [f2 a ha, f1 a fun t ht e => hn (by rw [e]; exact hasT _ (hτ t ht))]

/-- a pass on the columns: column `j` is gathered with `σ j` -/
lemma pass_cols {σ : ℕ → ℕ → ℕ} (hA : OkIn μ0 ⟨A, n, m, n⟩) (hT : OkIn μ0 (vw tmp 1 N))
    (hd : (Win.mk A n m n).Disj (vw tmp 1 N)) (h : Pass μ0 μ ⟨A, n, m, n⟩ (vw tmp 1 N) V) (hk : m ≤ N)
    (hσ : ∀ j < n, ∀ i < m, σ j i < m) :
    Run (loop n fun j => do
      loop m fun i => do
        let x ← load (A + σ j i * n + j)
        store (tmp + i) x
      loop m fun i => do
        let x ← load (tmp + i)
        store (A + i * n + j) x) μ
      (fun _ μ' => Pass μ0 μ' ⟨A, n, m, n⟩ (vw tmp 1 N) (fun i j => V (σ j i) j)) := by
  have hI : (Win.mk A n m n).Inj := Win.Inj_of_le (Or.inl le_rfl)
  refine (Run_loop (fun s μ' => Pass μ0 μ' ⟨A, n, m, n⟩ (vw tmp 1 N) (fun i j => if j < s then V (σ j i) j else V i j))
    (h.congr fun i _ j _ => by simp) ?_).mono ?_
  · intro j μ1 hj h1
    refine (pass_copy (σ := fun i => A + σ j i * n + j) (τ := fun i => i) (adr := fun i => A + i * n + j)
      (g := fun i => V (σ j i) j) hA hT hd h1 hk (fun i hi => ⟨σ j i, hσ j hj i hi, j, hj, rfl⟩) (fun _ h => h)
      (fun _ _ _ _ e => e) (fun i hi => ⟨i, hi, j, hj, rfl⟩) (fun s hs t ht e => (hI s hs j hj t ht j hj e).1) ?_).mono ?_
    · intro i hi
      have := h1.val (σ j i) (hσ j hj i hi) j hj
      simp only [Win.adr] at this
      rw [this, if_neg (by omega)]
    · rintro _ μ2 ⟨o2, n2, v2, f2⟩
      refine ⟨o2.trans h1.ok, h1.next.trans n2.ge, ?_, ?_⟩
      · intro i hi j' hj'
        by_cases e : j' = j
        · subst e
          rw [if_pos (by omega)]
          exact v2 i hi
        · rw [f2 _ (fun t ht e' => e (hI i hi j' hj' t ht j hj e').2) (hd _ ⟨i, hi, j', hj', rfl⟩), h1.val i hi j' hj']
          by_cases c : j' < j
          · rw [if_pos c, if_pos (by omega)]
          · rw [if_neg c, if_neg (by omega)]
      · intro a ha n0 n1
        rw [f2 a (fun t ht e => n0 ⟨t, ht, j, hj, e⟩) n1, h1.frame a ha n0 n1]
  · intro _ μ' h'
    exact h'.congr fun i _ j hj => if_pos hj

/-- a pass on the rows: row `i` is scattered with `τ i` -/
lemma pass_rows {τ : ℕ → ℕ → ℕ} (hA : OkIn μ0 ⟨A, n, m, n⟩) (hT : OkIn μ0 (vw tmp 1 N))
    (hd : (Win.mk A n m n).Disj (vw tmp 1 N)) (h : Pass μ0 μ ⟨A, n, m, n⟩ (vw tmp 1 N) V) (hk : n ≤ N)
    (hτ : ∀ i < m, ∀ j < n, τ i j < n) (hinj : ∀ i < m, ∀ s < n, ∀ t < n, τ i s = τ i t → s = t)
    (hU : ∀ i < m, ∀ j < n, U i (τ i j) = V i j) :
    Run (loop m fun i => do
      loop n fun j => do
        let x ← load (A + i * n + j)
        store (tmp + τ i j) x
      loop n fun j => do
        let x ← load (tmp + j)
        store (A + i * n + j) x) μ
      (fun _ μ' => Pass μ0 μ' ⟨A, n, m, n⟩ (vw tmp 1 N) U) := by
  have hI : (Win.mk A n m n).Inj := Win.Inj_of_le (Or.inl le_rfl)
  refine (Run_loop (fun s μ' => Pass μ0 μ' ⟨A, n, m, n⟩ (vw tmp 1 N) (fun i j => if i < s then U i j else V i j))
    (h.congr fun i _ j _ => by simp) ?_).mono ?_
  · intro i μ1 hi h1
    refine (pass_copy (σ := fun j => A + i * n + j) (τ := τ i) (adr := fun j => A + i * n + j)
      (g := fun j => U i j) hA hT hd h1 hk (fun j hj => ⟨i, hi, j, hj, rfl⟩) (hτ i hi)
      (hinj i hi) (fun j hj => ⟨i, hi, j, hj, rfl⟩) (fun s hs t ht e => (hI i hi s hs i hi t ht e).2) ?_).mono ?_
    · intro j hj
      have := h1.val i hi j hj
      simp only [Win.adr] at this
      rw [this, if_neg (by omega), hU i hi j hj]
    · rintro _ μ2 ⟨o2, n2, v2, f2⟩
      refine ⟨o2.trans h1.ok, h1.next.trans n2.ge, ?_, ?_⟩
      · intro i' hi' j hj
        by_cases e : i' = i
        · subst e
          rw [if_pos (by omega)]
          exact v2 j hj
        · rw [f2 _ (fun t ht e' => e (hI i' hi' j hj i hi t ht e').1) (hd _ ⟨i', hi', j, hj, rfl⟩), h1.val i' hi' j hj]
          by_cases c : i' < i
          · rw [if_pos c, if_pos (by omega)]
          · rw [if_neg c, if_neg (by omega)]
      · intro a ha n0 n1
        rw [f2 a (fun t ht e => n0 ⟨i, hi, t, ht, e⟩) n1, h1.frame a ha n0 n1]
  · intro _ μ' h'
    exact h'.congr fun i hi j _ => if_pos hi

end Pass

/-! ### The permutations compose to the transposition -/

/-- the row shuffle is injective -/
lemma rowShuffle_inj {m n i s t : ℕ} (hm : 0 < m) (hn : 0 < n) (hs : s < n) (ht : t < n)
    (e : (((i + s / (n / Nat.gcd m n)) % m) + s * m) % n = (((i + t / (n / Nat.gcd m n)) % m) + t * m) % n) : s = t := by
  have hc : 0 < Nat.gcd m n := Nat.gcd_pos_of_pos_left _ hm
  obtain ⟨a, b, hab, em, en⟩ := Nat.exists_coprime m n
  generalize hcc : Nat.gcd m n = c at *
  have hb : 0 < b := Nat.pos_of_ne_zero (by rintro rfl; omega)
  have hnc : n / c = b := by rw [en, Nat.mul_div_cancel _ hc]
  rw [hnc] at e
  have hsb : s / b < c := by rw [Nat.div_lt_iff_lt_mul hb, Nat.mul_comm, ← en]; exact hs
  have htb : t / b < c := by rw [Nat.div_lt_iff_lt_mul hb, Nat.mul_comm, ← en]; exact ht
  have key : ∀ x, (((i + x / b) % m) + x * m) % c = (i + x / b) % c := by
    intro x
    rw [em, ← Nat.mul_assoc, Nat.add_mul_mod_self_right, Nat.mod_mul_left_mod]
  have h1 : (i + s / b) % c = (i + t / b) % c := by
    rw [← key s, ← key t, ← Nat.mod_mul_left_mod _ b c, ← Nat.mod_mul_left_mod (_ + t * m) b c, ← en, e]
  have h2 : s / b = t / b := by
    have : (s / b) % c = (t / b) % c := Nat.ModEq.add_left_cancel' i h1
    rwa [Nat.mod_eq_of_lt hsb, Nat.mod_eq_of_lt htb] at this
  rw [h2] at e
  have h3 : s * m ≡ t * m [MOD n] := Nat.ModEq.add_left_cancel' _ e
  rw [em, en, ← Nat.mul_assoc, ← Nat.mul_assoc] at h3
  have h4 : s * a ≡ t * a [MOD b] := Nat.ModEq.mul_right_cancel' hc.ne' h3
  have h5 : s ≡ t [MOD b] := Nat.ModEq.cancel_right_of_coprime (by rw [Nat.gcd_comm]; exact hab) h4
  have e1 := Nat.div_add_mod s b
  have e2 := Nat.div_add_mod t b
  rw [h2, h5] at e1
  omega

/-- what the three passes bring at flat position `l` -/
lemma three_passes {m n l : ℕ} (hm : 0 < m) (hn : 0 < n) (hl : l < m * n) :
    ((((l % n + l / n * n - l / n / (m / Nat.gcd m n)) % m) + l / m / (n / Nat.gcd m n)) % m = l % m) ∧
    ((l % m + l / m * m) % n = l % n) := by
  have hc : 0 < Nat.gcd m n := Nat.gcd_pos_of_pos_left _ hm
  obtain ⟨a, b, hab, em, en⟩ := Nat.exists_coprime m n
  generalize hcc : Nat.gcd m n = c at *
  have ea : m / c = a := by rw [em, Nat.mul_div_cancel _ hc]
  have eb : n / c = b := by rw [en, Nat.mul_div_cancel _ hc]
  rw [ea, eb]
  have e1 : l % n + l / n * n = l := by rw [Nat.mul_comm]; exact Nat.mod_add_div l n
  have e2 : l % m + l / m * m = l := by rw [Nat.mul_comm]; exact Nat.mod_add_div l m
  have e3 : l / n / a = l / m / b := by
    rw [Nat.div_div_eq_div_mul, Nat.div_div_eq_div_mul]
    congr 1
    conv_lhs => rw [en]
    conv_rhs => rw [em]
    ring
  rw [e1, e2, e3]
  refine ⟨?_, rfl⟩
  have hle : l / m / b ≤ l := le_trans (Nat.div_le_self _ _) (Nat.div_le_self _ _)
  rw [Nat.mod_add_mod, Nat.sub_add_cancel hle]

/-- `nonsquare_inplace_v2` also leaves the `n × m` transpose. -/
theorem nonsquareV2_spec {μ : Mem K} {m n A : ℕ} (hm : WF μ) (hA : OkIn μ ⟨A, n, m, n⟩) (hmn : 0 < m ∨ 0 < n) :
    Run (nonsquareV2 m n A) μ (fun _ μ' => Step μ μ' ⟨A, m, n, m⟩ (fun j i => μ.val (A + i * n + j))) := by
  have hc : 0 < Nat.gcd m n := by
    rcases hmn with h | h
    · exact Nat.gcd_pos_of_pos_left _ h
    · exact Nat.gcd_pos_of_pos_right _ h
  have hdj : (Win.mk A n m n).Disj (vw μ.next 1 (max m n)) := Disj_new_vw hm hA
  unfold nonsquareV2
  simp only []
  rw [if_neg (by omega), Run_bind, Run_pure, Run_bind, Run_alloc]
  change Run _ (μ.grow (max m n)) _
  have hA1 := hA.grow (max m n)
  have hT1 := grow_vw μ (max m n)
  have p0 : Pass (μ.grow (max m n)) (μ.grow (max m n)) ⟨A, n, m, n⟩ (vw μ.next 1 (max m n))
      (fun i j => μ.val (A + i * n + j)) := ⟨rfl, le_rfl, fun i _ j _ => rfl, fun _ _ _ _ => rfl⟩
  rw [Run_bind]
  have r1 : Run (if 1 < Nat.gcd m n then
      loop n fun j => do
        loop m fun i => do
          let x ← load (A + ((i + j / (n / Nat.gcd m n)) % m) * n + j)
          store (μ.next + i) x
        loop m fun i => do
          let x ← load (μ.next + i)
          store (A + i * n + j) x
    else pure ()) (μ.grow (max m n)) (fun _ μ1 => Pass (μ.grow (max m n)) μ1 ⟨A, n, m, n⟩ (vw μ.next 1 (max m n))
      (fun i j => μ.val (A + ((i + j / (n / Nat.gcd m n)) % m) * n + j))) := by
    rif c
    · exact pass_cols (σ := fun j i => (i + j / (n / Nat.gcd m n)) % m) hA1 hT1 hdj p0 (le_max_left _ _)
        (fun j _ i hi => Nat.mod_lt _ (by omega))
    · rw [Run_pure]
      refine p0.congr fun i hi j hj => ?_
      have : Nat.gcd m n = 1 := by omega
      have hi : i < m := hi
      have hj : j < n := hj
      rw [this, Nat.div_one, Nat.div_eq_of_lt hj, Nat.add_zero, Nat.mod_eq_of_lt hi]
  refine r1.mono fun _ μ1 p1 => ?_
  rw [Run_bind]
  set V1 : ℕ → ℕ → K := fun i j => μ.val (A + ((i + j / (n / Nat.gcd m n)) % m) * n + j) with hV1
  set τ : ℕ → ℕ → ℕ := fun i j => (((i + j / (n / Nat.gcd m n)) % m) + j * m) % n with hτ
  have hinj : ∀ i < m, ∀ s < n, ∀ t < n, τ i s = τ i t → s = t := fun i hi s hs t ht e =>
    rowShuffle_inj (by omega) (by omega) hs ht e
  classical
  set U : ℕ → ℕ → K := fun i q => if h : ∃ j, j < n ∧ τ i j = q then V1 i h.choose else 0 with hU
  have hUτ : ∀ i < m, ∀ j < n, U i (τ i j) = V1 i j := by
    intro i hi j hj
    have h : ∃ j', j' < n ∧ τ i j' = τ i j := ⟨j, hj, rfl⟩
    have e : h.choose = j := hinj i hi _ h.choose_spec.1 _ hj h.choose_spec.2
    simp only [hU]
    rw [dif_pos h, e]
  refine (pass_rows (τ := τ) (U := U) hA1 hT1 hdj p1 (le_max_right _ _) (fun i _ j hj => Nat.mod_lt _ (by omega)) hinj
    hUτ).mono fun _ μ2 p2 => ?_
  rw [Run_bind]
  have r3 : Run (loop n fun j => do
      loop m fun i => do
        let k ← liftE (usub (j + i * n) (i / (m / Nat.gcd m n)))
        let x ← load (A + (k % m) * n + j)
        store (μ.next + i) x
      loop m fun i => do
        let x ← load (μ.next + i)
        store (A + i * n + j) x) μ2 (fun _ μ3 => Pass (μ.grow (max m n)) μ3 ⟨A, n, m, n⟩ (vw μ.next 1 (max m n))
      (fun i j => U ((j + i * n - i / (m / Nat.gcd m n)) % m) j)) := by
    rcases Nat.eq_zero_or_pos n with h0 | hn
    · subst h0
      rw [show (loop 0 _ : Prog K Unit) = pure () from rfl, Run_pure]
      exact p2.congr fun i hi j hj => absurd hj (Nat.not_lt_zero _)
    · have e : ∀ j i, (do
          let k ← liftE (usub (j + i * n) (i / (m / Nat.gcd m n)))
          let x ← load (A + (k % m) * n + j)
          store (μ.next + i) x : Prog K Unit) = (do
          let x ← load (A + ((j + i * n - i / (m / Nat.gcd m n)) % m) * n + j)
          store (μ.next + i) x) := by
        intro j i
        have h1 : i / (m / Nat.gcd m n) ≤ j + i * n :=
          (Nat.div_le_self _ _).trans ((Nat.le_mul_of_pos_right i hn).trans (Nat.le_add_left _ _))
        rw [show usub (j + i * n) (i / (m / Nat.gcd m n)) = .ok (j + i * n - i / (m / Nat.gcd m n)) from if_pos h1]
        rfl
      simp only [e]
      exact pass_cols (σ := fun j i => (j + i * n - i / (m / Nat.gcd m n)) % m) hA1 hT1 hdj p2 (le_max_left _ _)
        (fun j _ i hi => Nat.mod_lt _ (by omega))
  refine r3.mono fun _ μ3 p3 => ?_
  rw [Run_free]
  change Step μ (μ3.drop μ.next (max m n)) _ _
  refine Step.of_temp hm p3.ok p3.next ?_ ?_
  · intro j hj i hi
    have hj : j < n := hj
    have hi : i < m := hi
    have hm0 : 0 < m := by omega
    have hn0 : 0 < n := by omega
    obtain ⟨l, hl⟩ : ∃ l, l = j * m + i := ⟨_, rfl⟩
    have e1 : l / m = j := by rw [hl, Nat.mul_comm, Nat.mul_add_div hm0, Nat.div_eq_of_lt hi, Nat.add_zero]
    have e2 : l % m = i := by rw [hl, Nat.mul_comm, Nat.mul_add_mod, Nat.mod_eq_of_lt hi]
    have hlt : l < m * n := by
      have : (j + 1) * m ≤ n * m := Nat.mul_le_mul_right _ (by omega)
      rw [hl, Nat.mul_comm m n]
      rw [Nat.add_mul] at this
      omega
    have hp : l / n < m := by rw [Nat.div_lt_iff_lt_mul hn0]; exact hlt
    have hq : l % n < n := Nat.mod_lt _ hn0
    obtain ⟨t1, t2⟩ := three_passes hm0 hn0 hlt
    have ev := p3.val (l / n) hp (l % n) hq
    simp only [Win.adr] at ev ⊢
    have el : A + l / n * n + l % n = A + j * m + i := by
      have := Nat.div_add_mod l n
      rw [Nat.mul_comm] at this
      omega
    rw [el] at ev
    rw [ev]
    set i1 := (l % n + l / n * n - l / n / (m / Nat.gcd m n)) % m with hi1
    have hi1m : i1 < m := Nat.mod_lt _ hm0
    rw [e1, e2] at t1 t2
    have et : τ i1 j = l % n := by simp only [hτ]; rw [t1, t2]
    rw [← et, hUτ i1 hi1m j hj]
    simp only [hV1]
    rw [t1]
  · intro a ha hn
    have hna : ¬ (Win.mk A n m n).Has a := by
      rw [← flat_Has] at hn ⊢
      rwa [Nat.mul_comm] at hn
    rw [p3.frame a (by simp [Mem.grow, ha]) hna ?_]
    · rfl
    · rintro ⟨i, hi, z, hz, rfl⟩
      have hz : z = 0 := by simpa [vw] using hz
      subst hz
      rw [hm _ (by simp only [Win.adr, vw]; omega)] at ha
      exact absurd ha (by simp)

end Verif.FF
