import Verif.Proofs.IGemmPack

/-!
# Product of matrices of 64-bit integers: blocking
-/

namespace Verif.IG

open Finset Verif.FF

lemma dot_add (s n : ℕ) (a b : ℕ → ℤ) : dot (s + n) a b = dot s a b + dot n (fun k => a (s + k)) (fun k => b (s + k)) :=
  sum_range_add _ _ _

lemma Good.blk {K : Kind} {alpha : ℤ} {depth : ℕ} {a b : ℕ → ℤ} {c : ℤ} (h : Good K alpha depth a b c) {s n : ℕ} (hn : s + n ≤ depth) :
    Good K alpha n (fun k => a (s + k)) (fun k => b (s + k)) (c + alpha * dot s a b) := by
  have hsub : ∀ g : ℕ → ℤ, (∀ k, 0 ≤ g k) → ∑ k ∈ range s, g k + ∑ k ∈ range n, g (s + k) ≤ ∑ k ∈ range depth, g k := fun g hg => by
    rw [← sum_range_add]
    exact sum_le_sum_of_subset_of_nonneg (range_mono hn) (fun _ _ _ => hg _)
  refine ⟨fun k hk => h.fa _ (by omega), fun k hk => h.fb _ (by omega), lt_of_le_of_lt ?_ h.bd, ?_⟩
  · have h1 := hsub (fun k => |alpha * (a k * b k)|) (fun _ => abs_nonneg _)
    have h2 : |alpha * dot s a b| ≤ ∑ k ∈ range s, |alpha * (a k * b k)| := by
      unfold dot
      rw [mul_sum]
      exact abs_sum_le_sum_abs _ _
    have h3 := abs_add_le c (alpha * dot s a b)
    omega
  · rcases h.kind with q | q | ⟨q1, q2, q3, q4⟩
    · exact Or.inl q
    · exact Or.inr (Or.inl q)
    · refine Or.inr (Or.inr ⟨q1, q2, fun k hk => q3 _ (by omega), lt_of_le_of_lt ?_ q4⟩)
      have h1 := hsub (fun k => |a k * b k|) (fun _ => abs_nonneg _)
      have h2 : 0 ≤ ∑ k ∈ range s, |a k * b k| := sum_nonneg (fun _ _ => abs_nonneg _)
      omega

/-- address of the entry `(i, k)` of an operand stored by columns -/
def cadr (t : Tr) (A lda i k : ℕ) : ℕ := match t with
  | .no => A + i + k * lda
  | .yes => A + k + i * lda

/-- the operand seen as the other one -/
def flip (t : Tr) : Tr := match t with
  | .no => .yes
  | .yes => .no

/-- the state: only `W` and the cells `lo, …, hi - 1` have changed since `m2` -/
structure St (m2 m : Mem ℤ) (W : Win) (lo hi : ℕ) (V : ℕ → ℕ → ℤ) : Prop where
  ok : m.ok = m2.ok
  next : m2.next ≤ m.next
  val : ∀ j < W.r, ∀ i < W.c, m.val (W.adr j i) = V j i
  frame : ∀ q, m2.ok q = true → ¬ W.Has q → q < lo ∨ hi ≤ q → m.val q = m2.val q

/-- what the driver needs of the memory after the allocation of the blocks -/
structure Env (m2 : Mem ℤ) (W : Win) (lo hi : ℕ) : Prop where
  wf : WF m2
  okW : OkIn m2 W
  ld : W.c ≤ W.ld
  low : ∀ q, W.Has q → q < lo
  scr : ∀ q, lo ≤ q → q < hi → m2.ok q = true

/-- an operand, outside `W` and of the scratch cells -/
def Opd (m2 : Mem ℤ) (W : Win) (lo : ℕ) (t : Tr) (A lda r c : ℕ) (a : ℕ → ℕ → ℤ) : Prop :=
  ∀ i < r, ∀ k < c, m2.ok (cadr t A lda i k) = true ∧ m2.val (cadr t A lda i k) = a i k ∧ ¬ W.Has (cadr t A lda i k) ∧ cadr t A lda i k < lo

section
variable {m2 m m' : Mem ℤ} {W : Win} {lo hi : ℕ} {V : ℕ → ℕ → ℤ}

lemma St.pack {XX n : ℕ} (h : St m2 m W lo hi V) (e : Env m2 W lo hi) (hs : PS m m' XX n) (hl : lo ≤ XX) (hh : XX + n ≤ hi) :
    St m2 m' W lo hi V :=
  ⟨hs.ok.trans h.ok, hs.next ▸ h.next, fun j hj i hi => by
    have := e.low _ (Win.Has_adr hj hi)
    rw [hs.frame _ (by omega), h.val j hj i hi], fun q hq hW hr => by
    rw [hs.frame q (by omega), h.frame q hq hW hr]⟩

lemma St.on (h : St m2 m W lo hi V) (e : Env m2 W lo hi) : On m m W V :=
  ⟨fun a ha => by rw [h.ok]; exact e.wf a (le_trans h.next ha), fun a ha => by rw [h.ok]; exact e.okW a ha, e.ld, rfl, le_rfl, h.val, fun _ _ _ => rfl⟩

lemma St.wf (h : St m2 m W lo hi V) (e : Env m2 W lo hi) : WF m := (h.on e).wf

/-- an operand is still there -/
lemma Opd.st {t : Tr} {A lda r c : ℕ} {a : ℕ → ℕ → ℤ} (ha : Opd m2 W lo t A lda r c a) (h : St m2 m W lo hi V) {i k : ℕ} (hi : i < r) (hk : k < c) :
    m.ok (cadr t A lda i k) = true ∧ m.val (cadr t A lda i k) = a i k ∧ cadr t A lda i k < lo := by
  obtain ⟨h1, h2, h3, h4⟩ := ha i hi k hk
  exact ⟨by rw [h.ok]; exact h1, by rw [h.frame _ h1 h3 (Or.inl h4)]; exact h2, h4⟩

lemma packA_spec {v : ℕ} {tA : Tr} {blA A lda i2 k2 mc kc rows depth : ℕ} {a : ℕ → ℕ → ℤ} (ha : Opd m2 W lo tA A lda rows depth a)
    (h : St m2 m W lo hi V) (e : Env m2 W lo hi) (hi2 : i2 + mc ≤ rows) (hk2 : k2 + kc ≤ depth) (hl : lo ≤ blA) (hh : blA + mc * kc ≤ hi) :
    Run (packA v tA blA A lda i2 k2 mc kc) m (fun _ m' => PS m m' blA (mc * kc) ∧
      Packed m' blA (2 * v) v mc kc (fun i k => a (i2 + i) (k2 + k))) := by
  have hok : ∀ t < mc * kc, m.ok (blA + t) = true := fun t ht => by rw [h.ok]; exact e.scr _ (by omega) (by omega)
  cases tA with
  | no =>
    simp only [packA]
    rw [packLhs_eq]
    refine packG_spec rfl hok (fun i hi t ht => ?_)
    have := ha.st h (i := i2 + i) (k := k2 + t) (by omega) (by omega)
    simp only [cadr] at this
    rw [show A + i2 + k2 * lda + (i + t * lda) = A + (i2 + i) + (k2 + t) * lda by ring]
    exact ⟨this.1, this.2.1, by omega⟩
  | yes =>
    simp only [packA]
    rw [packRhs_eq]
    refine packG_spec rfl hok (fun i hi t ht => ?_)
    have := ha.st h (i := i2 + i) (k := k2 + t) (by omega) (by omega)
    simp only [cadr] at this
    rw [show A + i2 * lda + k2 + (t + i * lda) = A + (k2 + t) + (i2 + i) * lda by ring]
    exact ⟨this.1, this.2.1, by omega⟩

lemma packB_spec {v : ℕ} {tB : Tr} {blB B ldb k2 kc cols depth : ℕ} {b : ℕ → ℕ → ℤ} (hb : Opd m2 W lo (flip tB) B ldb cols depth b)
    (h : St m2 m W lo hi V) (e : Env m2 W lo hi) (hk2 : k2 + kc ≤ depth) (hl : lo ≤ blB) (hh : blB + cols * kc ≤ hi) :
    Run (packB v tB blB B ldb k2 kc cols) m (fun _ m' => PS m m' blB (cols * kc) ∧
      Packed m' blB 4 0 cols kc (fun j k => b j (k2 + k))) := by
  have hok : ∀ t < cols * kc, m.ok (blB + t) = true := fun t ht => by rw [h.ok]; exact e.scr _ (by omega) (by omega)
  cases tB with
  | no =>
    simp only [packB]
    rw [packRhs_eq]
    refine packG_spec rfl hok (fun i hi t ht => ?_)
    have := hb.st h (i := i) (k := k2 + t) (by omega) (by omega)
    simp only [cadr, flip] at this
    rw [show B + k2 + (t + i * ldb) = B + (k2 + t) + i * ldb by ring]
    exact ⟨this.1, this.2.1, by omega⟩
  | yes =>
    simp only [packB]
    rw [packLhs_eq]
    refine packG_spec rfl hok (fun i hi t ht => ?_)
    have := hb.st h (i := i) (k := k2 + t) (by omega) (by omega)
    simp only [cadr, flip] at this
    rw [show B + k2 * ldb + (i + t * ldb) = B + i + (k2 + t) * ldb by ring]
    exact ⟨this.1, this.2.1, by omega⟩

end

lemma Packed.keep {m m' : Mem ℤ} {X g s n depth : ℕ} {f : ℕ → ℕ → ℤ} (h : Packed m X g s n depth f) (ho : m'.ok = m.ok)
    (hv : ∀ q, X ≤ q → q < X + n * depth → m'.val q = m.val q) : Packed m' X g s n depth f := by
  have hle : n / g * g ≤ n := Nat.div_mul_le_self n g
  have key : ∀ i w, i + w ≤ n → X + i * depth + depth * w ≤ X + n * depth := fun i w h => by
    have : (i + w) * depth ≤ n * depth := Nat.mul_le_mul_right _ h
    rw [Nat.add_mul, Nat.mul_comm w] at this
    omega
  refine ⟨fun q hq => (h.main q hq).frame ho (fun z h1 h2 => hv z (by omega) ?_), fun hs => (h.grp hs).frame ho (fun z h1 h2 => hv z (by omega) ?_),
    fun i h1 h2 => (h.rest i h1 h2).frame ho (fun z h3 h4 => hv z (by omega) ?_)⟩
  · have : (q + 1) * g ≤ n / g * g := Nat.mul_le_mul_right _ hq
    rw [Nat.succ_mul] at this
    have := key (q * g) g (by omega)
    omega
  · have := key (n / g * g) s (by omega)
    omega
  · have := key i 1 (by omega)
    omega

lemma steps_spec {n d : ℕ} (hd : 0 < d) : ∃ s, steps n d = .ok s ∧ (∀ a < s, a * d < n) ∧ n ≤ s * d := by
  unfold steps
  by_cases h0 : n = 0
  · exact ⟨0, by rw [if_pos h0], by simp, by omega⟩
  · refine ⟨(n + d - 1) / d, by rw [if_neg h0, if_neg (by omega)], fun a ha => ?_, ?_⟩
    · have h1 : (a + 1) * d ≤ (n + d - 1) / d * d := Nat.mul_le_mul_right _ ha
      have h2 := Nat.div_mul_le_self (n + d - 1) d
      rw [Nat.succ_mul] at h1
      omega
    · have h1 := Nat.div_add_mod (n + d - 1) d
      have h2 := Nat.mod_lt (n + d - 1) hd
      rw [Nat.mul_comm] at h1
      omega

theorem igemmColmajor_spec {m : Mem ℤ} {v : ℕ} {ca : Caches} {tA tB : Tr} {K : Kind} {rows cols depth : ℕ} {alpha : ℤ} {A lda B ldb C ldc mc kc : ℕ}
    {a b V : ℕ → ℕ → ℤ} (hv : 0 < v) (hbf : blockingFactor v ca rows depth = .ok (mc, kc)) (hmc : 0 < mc) (hkc : 0 < kc)
    (h : On m m ⟨C, ldc, cols, rows⟩ V) (hA : Opd m ⟨C, ldc, cols, rows⟩ m.next tA A lda rows depth a)
    (hB : Opd m ⟨C, ldc, cols, rows⟩ m.next (flip tB) B ldb cols depth b)
    (hg : ∀ j < cols, ∀ i < rows, Good K alpha depth (a i) (b j) (V j i)) :
    Run (igemmColmajor v ca tA tB K rows cols depth alpha A lda B ldb C ldc) m
      (fun _ m' => On m m' ⟨C, ldc, cols, rows⟩ (fun j i => V j i + alpha * dot depth (a i) (b j))) := by
  set W : Win := ⟨C, ldc, cols, rows⟩ with hW
  have hlow : ∀ q, W.Has q → q < m.next := fun q hq => WF.lt' h.wf (h.ok q hq)
  unfold igemmColmajor
  rw [hbf, Run_bind, Run_liftE, Ok_ok]
  simp only []
  rw [Run_bind, Run_alloc, Run_bind, Run_alloc]
  simp only []
  generalize hm2 : (Mem.mk _ _ _ : Mem ℤ) = m2
  have hok2 : ∀ q, m2.ok q = true ↔ m.ok q = true ∨ m.next ≤ q ∧ q < m.next + mc * kc + kc * cols := fun q => by
    rw [← hm2]
    simp only [Bool.or_eq_true, Bool.and_eq_true, decide_eq_true_eq]
    constructor
    · rintro ((h1 | h1) | h1)
      · exact Or.inl h1
      · exact Or.inr (by omega)
      · exact Or.inr (by omega)
    · rintro (h1 | h1)
      · exact Or.inl (Or.inl h1)
      · by_cases hc : q < m.next + mc * kc
        · exact Or.inl (Or.inr ⟨h1.1, hc⟩)
        · exact Or.inr ⟨by omega, h1.2⟩
  have hval2 : m2.val = m.val := by rw [← hm2]
  have hnext2 : m2.next = m.next + mc * kc + kc * cols := by rw [← hm2]
  have env : Env m2 W m.next (m.next + mc * kc + kc * cols) := by
    refine ⟨fun q hq => ?_, fun q hq => (hok2 q).2 (Or.inl (h.ok q hq)), h.ld, hlow, fun q h1 h2 => (hok2 q).2 (Or.inr ⟨h1, h2⟩)⟩
    rw [hnext2] at hq
    by_contra hc
    have := (hok2 q).1 (by simpa using hc)
    rcases this with h1 | h1
    · have := WF.lt' h.wf h1
      omega
    · omega
  have opA : Opd m2 W m.next tA A lda rows depth a := fun i hi k hk => by
    obtain ⟨h1, h2, h3⟩ := hA i hi k hk
    exact ⟨(hok2 _).2 (Or.inl h1), by rw [hval2]; exact h2, h3⟩
  have opB : Opd m2 W m.next (flip tB) B ldb cols depth b := fun i hi k hk => by
    obtain ⟨h1, h2, h3⟩ := hB i hi k hk
    exact ⟨(hok2 _).2 (Or.inl h1), by rw [hval2]; exact h2, h3⟩
  have st0 : St m2 m2 W m.next (m.next + mc * kc + kc * cols) V :=
    ⟨rfl, le_rfl, fun j hj i hi => by rw [hval2]; exact h.val hj hi, fun _ _ _ _ => rfl⟩
  obtain ⟨nk, e1, e2, e3⟩ := steps_spec (n := depth) hkc
  obtain ⟨ni, f1, f2, f3⟩ := steps_spec (n := rows) hmc
  rw [e1, Run_bind, Run_liftE, Ok_ok, Run_bind]
  refine (Run_loop (fun s m' => St m2 m' W m.next (m.next + mc * kc + kc * cols) (fun j i => V j i + alpha * dot (min (s * kc) depth) (a i) (b j)))
    ?_ (fun s m3 hs h3 => ?_)).mono (fun _ m3 h3 => ?_)
  · simpa [dot] using st0
  · -- one panel
    have hs' := e2 s hs
    rw [Nat.min_eq_left hs'.le] at h3
    have hk1 : s * kc + (min (s * kc + kc) depth - s * kc) = min ((s + 1) * kc) depth := by rw [Nat.succ_mul]; omega
    have hkk : min (s * kc + kc) depth - s * kc ≤ kc := by omega
    have hk2 : s * kc + (min (s * kc + kc) depth - s * kc) ≤ depth := by omega
    generalize min (s * kc + kc) depth - s * kc = kk at *
    generalize s * kc = k2 at *
    have hck : cols * kk ≤ kc * cols := by rw [Nat.mul_comm kc]; exact Nat.mul_le_mul_left _ hkk
    rw [Run_bind]
    refine (packB_spec opB h3 env hk2 (by omega) (by omega)).mono (fun _ m4 ⟨p4, q4⟩ => ?_)
    have h4 := h3.pack env p4 (by omega) (by omega)
    rw [f1, Run_bind, Run_liftE, Ok_ok]
    set V1 : ℕ → ℕ → ℤ := fun j i => V j i + alpha * dot k2 (a i) (b j) with hV1
    set T1 : ℕ → ℕ → ℤ := fun j i => V j i + alpha * dot (min ((s + 1) * kc) depth) (a i) (b j) with hT1
    have hTV : ∀ j i, T1 j i = V1 j i + alpha * dot kk (fun k => a i (k2 + k)) (fun k => b j (k2 + k)) := fun j i => by
      rw [hT1, hV1, ← hk1]
      simp only []
      rw [dot_add]; ring
    refine (Run_loop (fun t m' => St m2 m' W m.next (m.next + mc * kc + kc * cols) (mix (fun _ i' => i' < t * mc) T1 V1) ∧
      Packed m' (m.next + mc * kc) 4 0 cols kk (fun j k => b j (k2 + k))) ⟨?_, q4⟩ (fun t m5 ht h5 => ?_)).mono (fun _ m5 h5 => ?_)
    · refine ⟨h4.ok, h4.next, fun j hj i hi => ?_, h4.frame⟩
      rw [h4.val j hj i hi, mix_neg (by omega)]
    · obtain ⟨h5, q5⟩ := h5
      have ht' := f2 t ht
      have hm1 : t * mc + (min (t * mc + mc) rows - t * mc) = min ((t + 1) * mc) rows := by rw [Nat.succ_mul]; omega
      have hmm : min (t * mc + mc) rows - t * mc ≤ mc := by omega
      have hm3 : t * mc + (min (t * mc + mc) rows - t * mc) ≤ rows := by omega
      generalize min (t * mc + mc) rows - t * mc = mm at *
      generalize hi2 : t * mc = i2 at *
      have hmk : mm * kk ≤ mc * kc := Nat.mul_le_mul hmm hkk
      rw [Run_bind]
      refine (packA_spec opA h5 env hm3 hk2 le_rfl (by omega)).mono (fun _ m6 ⟨p6, q6⟩ => ?_)
      have h6 := h5.pack env p6 le_rfl (by omega)
      have qB : Packed m6 (m.next + mc * kc) 4 0 cols kk (fun j k => b j (k2 + k)) :=
        q5.keep p6.ok (fun q h1 h2 => p6.frame q (by omega))
      have o6 := h6.on env
      have hadr : ∀ j i, (Win.mk (C + i2) ldc cols mm).adr j i = W.adr j (i2 + i) := fun j i => by simp only [Win.adr, hW]; ring
      have hsub : ∀ q, (Win.mk (C + i2) ldc cols mm).Has q → W.Has q := fun q ⟨j, hj, i, hi, eq⟩ => by
        rw [eq, hadr]
        have hi : i < mm := hi
        exact Win.Has_adr (W := W) hj (by show _ < rows; omega)
      have onS : On m6 m6 ⟨C + i2, ldc, cols, mm⟩ (fun j i => V1 j (i2 + i)) := by
        refine ⟨o6.wf, fun q hq => o6.ok q (hsub q hq), ?_, rfl, le_rfl, fun j hj i hi => ?_, fun _ _ _ => rfl⟩
        · have := h.ld
          show mm ≤ ldc
          have h' : rows ≤ ldc := this
          omega
        · have hi : i < mm := hi
          rw [hadr, o6.val hj (by show _ < rows; omega), mix_neg (by omega)]
      refine (igebp_spec hv onS q6 qB (fun q h1 h2 hc => ?_) (fun q h1 h2 hc => ?_) (fun j hj i hi => ?_)).mono (fun _ m7 h7 => ?_)
      · have := hlow q (hsub q hc); omega
      · have := hlow q (hsub q hc); omega
      · exact (hg j hj (i2 + i) (by omega)).blk hk2
      · have hst := h7.step
        refine ⟨⟨hst.ok.trans h6.ok, le_trans h6.next hst.next, fun j hj i hi => ?_, fun q h1 h2 h8 => ?_⟩, ?_⟩
        · rw [Nat.succ_mul, hi2]
          have hi' : i < rows := hi
          rw [Nat.succ_mul, hi2] at hm1
          by_cases hin : i2 ≤ i ∧ i < i2 + mm
          · obtain ⟨i', rfl⟩ := Nat.exists_eq_add_of_le hin.1
            have := hst.val j hj i' (by show i' < mm; omega)
            rw [hadr] at this
            rw [this, mix_pos (by omega), hTV]
          · rw [hst.frame _ (o6.ok.adr hj hi), o6.val hj hi]
            · exact mix_iff (by omega)
            · rintro ⟨j', hj', i', hi', eq⟩
              rw [hadr] at eq
              have hi' : i' < mm := hi'
              have := o6.inj j hj i hi j' hj' (i2 + i') (by show _ < rows; omega) eq
              omega
        · rw [hst.frame q (by rw [h6.ok]; exact h1) (fun hc => h2 (hsub q hc)), h6.frame q h1 h2 h8]
        · refine qB.keep hst.ok (fun q h1 h2 => hst.frame q ?_ (fun hc => ?_))
          · rw [h6.ok]; exact env.scr q (by omega) (by omega)
          · have := hlow q (hsub q hc); omega
    · refine ⟨h5.1.ok, h5.1.next, fun j hj i hi => ?_, h5.1.frame⟩
      rw [h5.1.val j hj i hi, mix_pos]
      have hi : i < rows := hi
      omega
  · rw [Nat.min_eq_right e3] at h3
    rw [Run_bind, Run_free, Run_free]
    refine ⟨h.wf, h.ok, h.ld, funext (fun q => Bool.eq_iff_iff.2 ?_), ?_, h3.val, fun q hq hn => ?_⟩
    · simp only [h3.ok, Bool.and_eq_true, Bool.not_eq_true', Bool.and_eq_false_iff, decide_eq_false_iff_not, hok2]
      constructor
      · rintro ⟨⟨h1 | h1, h2⟩, h4⟩
        · exact h1
        · omega
      · intro h1
        have := WF.lt' h.wf h1
        exact ⟨⟨Or.inl h1, by omega⟩, by omega⟩
    · have := h3.next
      show m.next ≤ m3.next
      omega
    · rw [← hval2]
      have := WF.lt' h.wf hq
      exact h3.frame q ((hok2 q).2 (Or.inl hq)) hn (Or.inl this)

end Verif.IG
