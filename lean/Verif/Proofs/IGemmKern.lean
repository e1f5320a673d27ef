import Verif.Proofs.IGemm

/-!
# Product of matrices of 64-bit integers: kernels
-/

namespace Verif.IG

open Finset Verif.FF

/-- an accumulator after `t` products: lane `l` is for the row `ar l`, all lanes for the column `br` -/
def AccOk (v t : ℕ) (ar : ℕ → ℕ → ℤ) (br : ℕ → ℤ) (C : Vec) : Prop :=
  ∀ l < v, I64 (C l) ∧ (C l : Z64) = ∑ k ∈ range t, (ar l k : Z64) * (br k : Z64)

lemma AccOk.zero (v : ℕ) (ar : ℕ → ℕ → ℤ) (br : ℕ → ℤ) : AccOk v 0 ar br (fun _ => 0) := fun l _ =>
  ⟨⟨by norm_num, by norm_num⟩, by simp⟩

lemma AccOk.step {v t : ℕ} {ar : ℕ → ℕ → ℤ} {br : ℕ → ℤ} {C A : Vec} {B : ℤ} (h : AccOk v t ar br C) (hA : ∀ l < v, A l = ar l t)
    (hB : B = br t) (fa : ∀ l < v, Fits (ar l t)) (fb : Fits (br t)) : AccOk v (t + 1) ar br (fmaddx C A (set1 B)) := fun l hl => by
  refine ⟨fmaddx_range _ _ _ _, ?_⟩
  rw [fmaddx_cast (by rw [hA l hl]; exact fa l hl) (by rw [set1, hB]; exact fb), sum_range_succ, (h l hl).2, hA l hl, set1, hB]

/-- readable cells with given contents -/
def Blk (m : Mem ℤ) (p n w : ℕ) (f : ℕ → ℕ → ℤ) : Prop := ∀ k < n, ∀ h < w, m.ok (p + k * w + h) = true ∧ m.val (p + k * w + h) = f h k

section
variable {m : Mem ℤ} {p n w : ℕ} {f : ℕ → ℕ → ℤ}

lemma Blk.ok (h : Blk m p n w f) (k c : ℕ) (hk : k < n) (hc : c < w) {q : ℕ} (hq : q = p + k * w + c) : m.ok q = true := by
  rw [hq]; exact (h k hk c hc).1

lemma Blk.val (h : Blk m p n w f) (k c : ℕ) (hk : k < n) (hc : c < w) {q : ℕ} (hq : q = p + k * w + c) : m.val q = f c k := by
  rw [hq]; exact (h k hk c hc).2

/-- a vector of a packed block -/
lemma Blk.vload (h : Blk m p n w f) (k c v : ℕ) (hk : k < n) (hc : c + v ≤ w) {q : ℕ} (hq : q = p + k * w + c) {Q : Vec → Mem ℤ → Prop}
    (hQ : ∀ x : Vec, (∀ l < v, x l = f (c + l) k) → Q x m) : Run (vload v q) m Q := by
  subst hq
  refine Run_vload (fun l hl => ?_) (fun x hx => hQ x (fun l hl => ?_))
  · rw [Nat.add_assoc]; exact (h k hk (c + l) (by omega)).1
  · rw [hx l hl, Nat.add_assoc]; exact (h k hk (c + l) (by omega)).2

lemma Blk.load (h : Blk m p n w f) (k c : ℕ) (hk : k < n) (hc : c < w) {q : ℕ} (hq : q = p + k * w + c) {Q : ℤ → Mem ℤ → Prop}
    (hQ : ∀ x : ℤ, x = f c k → Q x m) : Run (load q) m Q := by
  rw [Run_load]
  exact ⟨h.ok k c hk hc hq, hQ _ (h.val k c hk hc hq)⟩

lemma Blk.frame {m' : Mem ℤ} (h : Blk m p n w f) (ho : m'.ok = m.ok) (hv : ∀ q, p ≤ q → q < p + n * w → m'.val q = m.val q) :
    Blk m' p n w f := fun k hk c hc => by
  refine ⟨by rw [ho]; exact (h k hk c hc).1, ?_⟩
  rw [hv _ (by omega), (h k hk c hc).2]
  have : (k + 1) * w ≤ n * w := Nat.mul_le_mul_right _ hk
  rw [Nat.succ_mul] at this
  omega

lemma Blk.congr {g : ℕ → ℕ → ℤ} (h : Blk m p n w f) (e : ∀ c < w, ∀ k < n, f c k = g c k) : Blk m p n w g := fun k hk c hc =>
  ⟨(h k hk c hc).1, by rw [← e c hc k hk]; exact (h k hk c hc).2⟩

end

section
variable {m0 m : Mem ℤ} {W : Win} {P : ℕ → ℕ → Prop} {T V a b : ℕ → ℕ → ℤ} {K : Kind} {alpha : ℤ} {depth i j v blA blB : ℕ}

/-- the eight accumulators -/
def Acc8Ok (v t i j : ℕ) (a b : ℕ → ℕ → ℤ) (s : Acc8) : Prop :=
  AccOk v t (fun l => a (i + l)) (b (j + 0)) s.C0 ∧ AccOk v t (fun l => a (i + l)) (b (j + 1)) s.C1 ∧
  AccOk v t (fun l => a (i + l)) (b (j + 2)) s.C2 ∧ AccOk v t (fun l => a (i + l)) (b (j + 3)) s.C3 ∧
  AccOk v t (fun l => a (i + (v + l))) (b (j + 0)) s.C4 ∧ AccOk v t (fun l => a (i + (v + l))) (b (j + 1)) s.C5 ∧
  AccOk v t (fun l => a (i + (v + l))) (b (j + 2)) s.C6 ∧ AccOk v t (fun l => a (i + (v + l))) (b (j + 3)) s.C7

lemma igebb44body_spec {t : ℕ} {s : Acc8} (hA : Blk m blA depth (2 * v) (fun h => a (i + h))) (hB : Blk m blB depth 4 (fun c => b (j + c)))
    (ht : t + 4 ≤ depth) (fa : ∀ k < depth, ∀ h < 2 * v, Fits (a (i + h) k)) (fb : ∀ k < depth, ∀ c < 4, Fits (b (j + c) k))
    (hs : Acc8Ok v t i j a b s) :
    Run (igebb44body v (blA + t * (2 * v)) (blB + t * 4) s) m (fun s' m' => m' = m ∧ Acc8Ok v (t + 4) i j a b s') := by
  unfold igebb44body
  have fa0 : ∀ d < 4, ∀ l < v, Fits (a (i + l) (t + d)) := fun d hd l hl => fa _ (by omega) _ (by omega)
  have fa1 : ∀ d < 4, ∀ l < v, Fits (a (i + (v + l)) (t + d)) := fun d hd l hl => fa _ (by omega) _ (by omega)
  have fb' : ∀ c < 4, ∀ d < 4, Fits (b (j + c) (t + d)) := fun c hc d hd => fb _ (by omega) _ hc
  rw [Run_bind]; refine hA.vload (t + 0) 0 v (by omega) (by omega) (by ring) (fun A0 hA0 => ?_)
  rw [Run_bind]; refine hA.vload (t + 0) v v (by omega) (by omega) (by ring) (fun A1 hA1 => ?_)
  rw [Run_bind]; refine hB.load (t + 0) 0 (by omega) (by omega) (by ring) (fun B0 hB0 => ?_)
  rw [Run_bind]; refine hB.load (t + 0) 1 (by omega) (by omega) (by ring) (fun B1 hB1 => ?_)
  simp only []
  rw [Run_bind]; refine hB.load (t + 0) 2 (by omega) (by omega) (by ring) (fun B2 hB2 => ?_)
  rw [Run_bind]; refine hB.load (t + 0) 3 (by omega) (by omega) (by ring) (fun B3 hB3 => ?_)
  rw [Run_bind]; refine hB.load (t + 1) 0 (by omega) (by omega) (by ring) (fun B4 hB4 => ?_)
  rw [Run_bind]; refine hB.load (t + 1) 1 (by omega) (by omega) (by ring) (fun B5 hB5 => ?_)
  rw [Run_bind]; refine hB.load (t + 1) 2 (by omega) (by omega) (by ring) (fun B6 hB6 => ?_)
  rw [Run_bind]; refine hA.vload (t + 1) 0 v (by omega) (by omega) (by ring) (fun A2 hA2 => ?_)
  rw [Run_bind]; refine hA.vload (t + 1) v v (by omega) (by omega) (by ring) (fun A3 hA3 => ?_)
  rw [Run_bind]; refine hB.load (t + 1) 3 (by omega) (by omega) (by ring) (fun B7 hB7 => ?_)
  rw [Run_bind]; refine hB.load (t + 2) 0 (by omega) (by omega) (by ring) (fun B8 hB8 => ?_)
  rw [Run_bind]; refine hB.load (t + 2) 1 (by omega) (by omega) (by ring) (fun B9 hB9 => ?_)
  rw [Run_bind]; refine hB.load (t + 2) 2 (by omega) (by omega) (by ring) (fun B10 hB10 => ?_)
  rw [Run_bind]; refine hA.vload (t + 2) 0 v (by omega) (by omega) (by ring) (fun A4 hA4 => ?_)
  rw [Run_bind]; refine hA.vload (t + 2) v v (by omega) (by omega) (by ring) (fun A5 hA5 => ?_)
  rw [Run_bind]; refine hB.load (t + 2) 3 (by omega) (by omega) (by ring) (fun B11 hB11 => ?_)
  rw [Run_bind]; refine hB.load (t + 3) 0 (by omega) (by omega) (by ring) (fun B12 hB12 => ?_)
  rw [Run_bind]; refine hB.load (t + 3) 1 (by omega) (by omega) (by ring) (fun B13 hB13 => ?_)
  rw [Run_bind]; refine hB.load (t + 3) 2 (by omega) (by omega) (by ring) (fun B14 hB14 => ?_)
  rw [Run_bind]; refine hA.vload (t + 3) 0 v (by omega) (by omega) (by ring) (fun A6 hA6 => ?_)
  rw [Run_bind]; refine hA.vload (t + 3) v v (by omega) (by omega) (by ring) (fun A7 hA7 => ?_)
  rw [Run_bind]; refine hB.load (t + 3) 3 (by omega) (by omega) (by ring) (fun B15 hB15 => ?_)
  rw [Run_pure]
  simp only [Nat.zero_add] at hA0 hA2 hA4 hA6
  obtain ⟨h0, h1, h2, h3, h4, h5, h6, h7⟩ := hs
  refine ⟨rfl, ?_, ?_, ?_, ?_, ?_, ?_, ?_, ?_⟩
  · exact (((h0.step hA0 hB0 (fa0 0 (by omega)) (fb' 0 (by omega) 0 (by omega))).step hA2 hB4 (fa0 1 (by omega)) (fb' 0 (by omega) 1 (by omega))).step
      hA4 hB8 (fa0 2 (by omega)) (fb' 0 (by omega) 2 (by omega))).step hA6 hB12 (fa0 3 (by omega)) (fb' 0 (by omega) 3 (by omega))
  · exact (((h1.step hA0 hB1 (fa0 0 (by omega)) (fb' 1 (by omega) 0 (by omega))).step hA2 hB5 (fa0 1 (by omega)) (fb' 1 (by omega) 1 (by omega))).step
      hA4 hB9 (fa0 2 (by omega)) (fb' 1 (by omega) 2 (by omega))).step hA6 hB13 (fa0 3 (by omega)) (fb' 1 (by omega) 3 (by omega))
  · exact (((h2.step hA0 hB2 (fa0 0 (by omega)) (fb' 2 (by omega) 0 (by omega))).step hA2 hB6 (fa0 1 (by omega)) (fb' 2 (by omega) 1 (by omega))).step
      hA4 hB10 (fa0 2 (by omega)) (fb' 2 (by omega) 2 (by omega))).step hA6 hB14 (fa0 3 (by omega)) (fb' 2 (by omega) 3 (by omega))
  · exact (((h3.step hA0 hB3 (fa0 0 (by omega)) (fb' 3 (by omega) 0 (by omega))).step hA2 hB7 (fa0 1 (by omega)) (fb' 3 (by omega) 1 (by omega))).step
      hA4 hB11 (fa0 2 (by omega)) (fb' 3 (by omega) 2 (by omega))).step hA6 hB15 (fa0 3 (by omega)) (fb' 3 (by omega) 3 (by omega))
  · exact (((h4.step hA1 hB0 (fa1 0 (by omega)) (fb' 0 (by omega) 0 (by omega))).step hA3 hB4 (fa1 1 (by omega)) (fb' 0 (by omega) 1 (by omega))).step
      hA5 hB8 (fa1 2 (by omega)) (fb' 0 (by omega) 2 (by omega))).step hA7 hB12 (fa1 3 (by omega)) (fb' 0 (by omega) 3 (by omega))
  · exact (((h5.step hA1 hB1 (fa1 0 (by omega)) (fb' 1 (by omega) 0 (by omega))).step hA3 hB5 (fa1 1 (by omega)) (fb' 1 (by omega) 1 (by omega))).step
      hA5 hB9 (fa1 2 (by omega)) (fb' 1 (by omega) 2 (by omega))).step hA7 hB13 (fa1 3 (by omega)) (fb' 1 (by omega) 3 (by omega))
  · exact (((h6.step hA1 hB2 (fa1 0 (by omega)) (fb' 2 (by omega) 0 (by omega))).step hA3 hB6 (fa1 1 (by omega)) (fb' 2 (by omega) 1 (by omega))).step
      hA5 hB10 (fa1 2 (by omega)) (fb' 2 (by omega) 2 (by omega))).step hA7 hB14 (fa1 3 (by omega)) (fb' 2 (by omega) 3 (by omega))
  · exact (((h7.step hA1 hB3 (fa1 0 (by omega)) (fb' 3 (by omega) 0 (by omega))).step hA3 hB7 (fa1 1 (by omega)) (fb' 3 (by omega) 1 (by omega))).step
      hA5 hB11 (fa1 2 (by omega)) (fb' 3 (by omega) 2 (by omega))).step hA7 hB15 (fa1 3 (by omega)) (fb' 3 (by omega) 3 (by omega))

lemma igebb44rest_spec {t : ℕ} {s : Acc8} (hA : Blk m blA depth (2 * v) (fun h => a (i + h))) (hB : Blk m blB depth 4 (fun c => b (j + c)))
    (ht : t < depth) (fa : ∀ k < depth, ∀ h < 2 * v, Fits (a (i + h) k)) (fb : ∀ k < depth, ∀ c < 4, Fits (b (j + c) k))
    (hs : Acc8Ok v t i j a b s) :
    Run (igebb44rest v (blA + t * (2 * v)) (blB + t * 4) s) m (fun s' m' => m' = m ∧ Acc8Ok v (t + 1) i j a b s') := by
  unfold igebb44rest
  have fa0 : ∀ l < v, Fits (a (i + l) t) := fun l hl => fa _ (by omega) _ (by omega)
  have fa1 : ∀ l < v, Fits (a (i + (v + l)) t) := fun l hl => fa _ (by omega) _ (by omega)
  have fb' : ∀ c < 4, Fits (b (j + c) t) := fun c hc => fb _ (by omega) _ hc
  rw [Run_bind]; refine hA.vload t 0 v (by omega) (by omega) (by ring) (fun A0 hA0 => ?_)
  rw [Run_bind]; refine hA.vload t v v (by omega) (by omega) (by ring) (fun A1 hA1 => ?_)
  rw [Run_bind]; refine hB.load t 0 (by omega) (by omega) (by ring) (fun B0 hB0 => ?_)
  rw [Run_bind]; refine hB.load t 1 (by omega) (by omega) (by ring) (fun B1 hB1 => ?_)
  rw [Run_bind]; refine hB.load t 2 (by omega) (by omega) (by ring) (fun B2 hB2 => ?_)
  rw [Run_bind]; refine hB.load t 3 (by omega) (by omega) (by ring) (fun B3 hB3 => ?_)
  rw [Run_pure]
  simp only [Nat.zero_add] at hA0
  obtain ⟨h0, h1, h2, h3, h4, h5, h6, h7⟩ := hs
  exact ⟨rfl, h0.step hA0 hB0 fa0 (fb' 0 (by omega)), h1.step hA0 hB1 fa0 (fb' 1 (by omega)), h2.step hA0 hB2 fa0 (fb' 2 (by omega)),
    h3.step hA0 hB3 fa0 (fb' 3 (by omega)), h4.step hA1 hB0 fa1 (fb' 0 (by omega)), h5.step hA1 hB1 fa1 (fb' 1 (by omega)),
    h6.step hA1 hB2 fa1 (fb' 2 (by omega)), h7.step hA1 hB3 fa1 (fb' 3 (by omega))⟩

/-- the entries of the box have what the kernels need, and the target is the sum -/
structure BoxOk (K : Kind) (alpha : ℤ) (depth i j h w : ℕ) (a b T V : ℕ → ℕ → ℤ) (P : ℕ → ℕ → Prop) : Prop where
  good : ∀ c < h, ∀ r < w, Good K alpha depth (a (i + r)) (b (j + c)) (V (j + c) (i + r))
  tgt : ∀ c < h, ∀ r < w, T (j + c) (i + r) = V (j + c) (i + r) + alpha * dot depth (a (i + r)) (b (j + c))
  new : ∀ c < h, ∀ r < w, ¬ P (j + c) (i + r)

lemma BoxOk.fin {h w : ℕ} (B : BoxOk K alpha depth i j h w a b T V P) {c r0 : ℕ} (hc : c < h) (hr : r0 + v ≤ w) {R C : Vec}
    (hR : ∀ l < v, R l = V (j + c) (i + r0 + l)) (hC : AccOk v depth (fun l => a (i + (r0 + l))) (b (j + c)) C) :
    ∀ l < v, comb K alpha R C l = T (j + c) (i + r0 + l) := by
  intro l hl
  rw [Nat.add_assoc, B.tgt c hc (r0 + l) (by omega)]
  refine (B.good c hc (r0 + l) (by omega)).comb ?_ (hC l hl).1 (hC l hl).2
  rw [hR l hl, Nat.add_assoc]

theorem igebb44_spec (hv : 0 < v) (h : On m0 m W (mix P T V)) (hj : j + 4 ≤ W.r) (hi : i + 2 * v ≤ W.c)
    (hA : Blk m blA depth (2 * v) (fun h => a (i + h))) (hB : Blk m blB depth 4 (fun c => b (j + c)))
    (B : BoxOk K alpha depth i j 4 (2 * v) a b T V P) :
    Run (igebb44 v K i j depth (depth / 4 * 4) alpha blA blB W.p W.ld) m (fun _ m' => On m0 m' W
      (mix (fun j' i' => P j' i' ∨ j ≤ j' ∧ j' < j + 4 ∧ i ≤ i' ∧ i' < i + 2 * v) T V)) := by
  have fa : ∀ k < depth, ∀ h < 2 * v, Fits (a (i + h) k) := fun k hk h hh => (B.good 0 (by omega) h hh).fa k hk
  have fb : ∀ k < depth, ∀ c < 4, Fits (b (j + c) k) := fun k hk c hc => (B.good c hc 0 (by omega)).fb k hk
  unfold igebb44
  simp only []
  rw [Run_bind]
  refine (Run_iter (fun t s m' => m' = m ∧ Acc8Ok v (t * 4) i j a b s) ⟨rfl, ?_⟩ ?_).mono ?_
  · rw [Nat.zero_mul]
    exact ⟨AccOk.zero _ _ _, AccOk.zero _ _ _, AccOk.zero _ _ _, AccOk.zero _ _ _, AccOk.zero _ _ _, AccOk.zero _ _ _, AccOk.zero _ _ _,
      AccOk.zero _ _ _⟩
  · rintro t s m' ht ⟨rfl, hs⟩
    have e1 : blA + t * (8 * v) = blA + t * 4 * (2 * v) := by ring
    have e2 : blB + t * 16 = blB + t * 4 * 4 := by ring
    rw [e1, e2]
    refine (igebb44body_spec (t := t * 4) hA hB (by omega) fa fb hs).mono (fun s' m' h => ⟨h.1, ?_⟩)
    rw [Nat.succ_mul]; exact h.2
  rintro s m' ⟨e, hs⟩
  rw [e]
  rw [Run_bind]
  refine (Run_iter (fun t s m' => m' = m ∧ Acc8Ok v (depth / 4 * 4 + t) i j a b s) ⟨rfl, ?_⟩ ?_).mono ?_
  · rw [Nat.mul_div_cancel _ (by norm_num)] at hs
    exact hs
  · rintro t s m' ht ⟨rfl, hs⟩
    exact igebb44rest_spec hA hB (by omega) fa fb hs
  rintro s m' ⟨e, hs⟩
  rw [e]
  rw [show depth / 4 * 4 + (depth - depth / 4 * 4) = depth by omega] at hs
  obtain ⟨h0, h1, h2, h3, h4, h5, h6, h7⟩ := hs
  have q : ∀ c r, W.adr (j + c) (i + r) = W.p + j * W.ld + i + c * W.ld + r := fun c r => by simp only [Win.adr]; ring
  have B' : ∀ {c r}, c < 4 → r < 2 * v → ¬ P (j + c) (i + r) := fun hc hr => B.new _ hc _ hr
  rw [Run_bind]; refine vload_mix (j := j + 0) (i := i + 0) h (by rw [q]; ring) (by omega) (by omega)
    (fun l hl => by rw [Nat.add_assoc]; exact B' (by omega) (by omega)) (fun R0 hR0 => ?_)
  rw [Run_bind]; refine vload_mix (j := j + 1) (i := i + 0) h (by rw [q]; ring) (by omega) (by omega)
    (fun l hl => by rw [Nat.add_assoc]; exact B' (by omega) (by omega)) (fun R1 hR1 => ?_)
  rw [Run_bind]; refine vload_mix (j := j + 2) (i := i + 0) h (by rw [q]; ring) (by omega) (by omega)
    (fun l hl => by rw [Nat.add_assoc]; exact B' (by omega) (by omega)) (fun R2 hR2 => ?_)
  rw [Run_bind]; refine vload_mix (j := j + 3) (i := i + 0) h (by rw [q]; ring) (by omega) (by omega)
    (fun l hl => by rw [Nat.add_assoc]; exact B' (by omega) (by omega)) (fun R3 hR3 => ?_)
  rw [Run_bind]; refine vload_mix (j := j + 0) (i := i + v) h (by rw [q]; ring) (by omega) (by omega)
    (fun l hl => by rw [Nat.add_assoc]; exact B' (by omega) (by omega)) (fun R4 hR4 => ?_)
  rw [Run_bind]; refine vload_mix (j := j + 1) (i := i + v) h (by rw [q]; ring) (by omega) (by omega)
    (fun l hl => by rw [Nat.add_assoc]; exact B' (by omega) (by omega)) (fun R5 hR5 => ?_)
  rw [Run_bind]; refine vload_mix (j := j + 2) (i := i + v) h (by rw [q]; ring) (by omega) (by omega)
    (fun l hl => by rw [Nat.add_assoc]; exact B' (by omega) (by omega)) (fun R6 hR6 => ?_)
  rw [Run_bind]
  refine (vstore_mix (j := j + 0) (i := i + 0) h (by rw [q]; ring) (by omega) (by omega)
    (B.fin (by omega) (by omega) hR0 (by simpa only [Nat.zero_add] using h0))).mono (fun _ m1 g => ?_)
  rw [Run_bind]; refine vload_mix (j := j + 3) (i := i + v) g (by rw [q]; ring) (by omega) (by omega)
    (fun l hl => by
      rintro (hc | hc)
      · rw [Nat.add_assoc] at hc; exact B' (by omega) (by omega) hc
      · omega) (fun R7 hR7 => ?_)
  rw [Run_bind]
  refine (vstore_mix (j := j + 1) (i := i + 0) g (by rw [q]; ring) (by omega) (by omega)
    (B.fin (by omega) (by omega) hR1 (by simpa only [Nat.zero_add] using h1))).mono (fun _ m1 g => ?_)
  rw [Run_bind]
  refine (vstore_mix (j := j + 2) (i := i + 0) g (by rw [q]; ring) (by omega) (by omega)
    (B.fin (by omega) (by omega) hR2 (by simpa only [Nat.zero_add] using h2))).mono (fun _ m1 g => ?_)
  rw [Run_bind]
  refine (vstore_mix (j := j + 3) (i := i + 0) g (by rw [q]; ring) (by omega) (by omega)
    (B.fin (by omega) (by omega) hR3 (by simpa only [Nat.zero_add] using h3))).mono (fun _ m1 g => ?_)
  rw [Run_bind]
  refine (vstore_mix (j := j + 0) (i := i + v) g (by rw [q]; ring) (by omega) (by omega)
    (B.fin (by omega) (by omega) hR4 h4)).mono (fun _ m1 g => ?_)
  rw [Run_bind]
  refine (vstore_mix (j := j + 1) (i := i + v) g (by rw [q]; ring) (by omega) (by omega)
    (B.fin (by omega) (by omega) hR5 h5)).mono (fun _ m1 g => ?_)
  rw [Run_bind]
  refine (vstore_mix (j := j + 2) (i := i + v) g (by rw [q]; ring) (by omega) (by omega)
    (B.fin (by omega) (by omega) hR6 h6)).mono (fun _ m1 g => ?_)
  refine (vstore_mix (j := j + 3) (i := i + v) g (by rw [q]; ring) (by omega) (by omega)
    (B.fin (by omega) (by omega) hR7 h7)).mono (fun _ m1 g => ?_)
  refine mix_congr g (fun j' _ i' _ => ?_)
  by_cases hP : P j' i'
  · simp [hP]
  · simp only [hP, false_or]
    omega

/-- the four accumulators of `igebb24` -/
def Acc4Ok (v t i j : ℕ) (a b : ℕ → ℕ → ℤ) (s : Acc4) : Prop :=
  AccOk v t (fun l => a (i + l)) (b (j + 0)) s.C0 ∧ AccOk v t (fun l => a (i + l)) (b (j + 1)) s.C1 ∧
  AccOk v t (fun l => a (i + l)) (b (j + 2)) s.C2 ∧ AccOk v t (fun l => a (i + l)) (b (j + 3)) s.C3

lemma igebb24body_spec {t : ℕ} {s : Acc4} (hA : Blk m blA depth v (fun h => a (i + h))) (hB : Blk m blB depth 4 (fun c => b (j + c)))
    (ht : t + 4 ≤ depth) (fa : ∀ k < depth, ∀ h < v, Fits (a (i + h) k)) (fb : ∀ k < depth, ∀ c < 4, Fits (b (j + c) k))
    (hs : Acc4Ok v t i j a b s) :
    Run (igebb24body v (blA + t * v) (blB + t * 4) s) m (fun s' m' => m' = m ∧ Acc4Ok v (t + 4) i j a b s') := by
  unfold igebb24body
  have fa0 : ∀ d < 4, ∀ l < v, Fits (a (i + l) (t + d)) := fun d hd l hl => fa _ (by omega) _ (by omega)
  have fb' : ∀ c < 4, ∀ d < 4, Fits (b (j + c) (t + d)) := fun c hc d hd => fb _ (by omega) _ hc
  rw [Run_bind]; refine hA.vload (t + 0) 0 v (by omega) (by omega) (by ring) (fun A0 hA0 => ?_)
  rw [Run_bind]; refine hB.load (t + 0) 0 (by omega) (by omega) (by ring) (fun B0 hB0 => ?_)
  rw [Run_bind]; refine hB.load (t + 0) 1 (by omega) (by omega) (by ring) (fun B1 hB1 => ?_)
  simp only []
  rw [Run_bind]; refine hB.load (t + 0) 2 (by omega) (by omega) (by ring) (fun B2 hB2 => ?_)
  rw [Run_bind]; refine hB.load (t + 0) 3 (by omega) (by omega) (by ring) (fun B3 hB3 => ?_)
  rw [Run_bind]; refine hB.load (t + 1) 0 (by omega) (by omega) (by ring) (fun B4 hB4 => ?_)
  rw [Run_bind]; refine hB.load (t + 1) 1 (by omega) (by omega) (by ring) (fun B5 hB5 => ?_)
  rw [Run_bind]; refine hB.load (t + 1) 2 (by omega) (by omega) (by ring) (fun B6 hB6 => ?_)
  rw [Run_bind]; refine hA.vload (t + 1) 0 v (by omega) (by omega) (by ring) (fun A1 hA1 => ?_)
  rw [Run_bind]; refine hB.load (t + 1) 3 (by omega) (by omega) (by ring) (fun B7 hB7 => ?_)
  rw [Run_bind]; refine hB.load (t + 2) 0 (by omega) (by omega) (by ring) (fun B8 hB8 => ?_)
  rw [Run_bind]; refine hB.load (t + 2) 1 (by omega) (by omega) (by ring) (fun B9 hB9 => ?_)
  rw [Run_bind]; refine hB.load (t + 2) 2 (by omega) (by omega) (by ring) (fun B10 hB10 => ?_)
  rw [Run_bind]; refine hA.vload (t + 2) 0 v (by omega) (by omega) (by ring) (fun A2 hA2 => ?_)
  rw [Run_bind]; refine hB.load (t + 2) 3 (by omega) (by omega) (by ring) (fun B11 hB11 => ?_)
  rw [Run_bind]; refine hB.load (t + 3) 0 (by omega) (by omega) (by ring) (fun B12 hB12 => ?_)
  rw [Run_bind]; refine hB.load (t + 3) 1 (by omega) (by omega) (by ring) (fun B13 hB13 => ?_)
  rw [Run_bind]; refine hB.load (t + 3) 2 (by omega) (by omega) (by ring) (fun B14 hB14 => ?_)
  rw [Run_bind]; refine hA.vload (t + 3) 0 v (by omega) (by omega) (by ring) (fun A3 hA3 => ?_)
  rw [Run_bind]; refine hB.load (t + 3) 3 (by omega) (by omega) (by ring) (fun B15 hB15 => ?_)
  rw [Run_pure]
  simp only [Nat.zero_add] at hA0 hA1 hA2 hA3
  obtain ⟨h0, h1, h2, h3⟩ := hs
  refine ⟨rfl, ?_, ?_, ?_, ?_⟩
  · exact ((((h0.step hA0 hB0 (fa0 0 (by omega)) (fb' 0 (by omega) 0 (by omega))).step hA1 hB4 (fa0 1 (by omega)) (fb' 0 (by omega) 1 (by omega))).step hA2 hB8 (fa0 2 (by omega)) (fb' 0 (by omega) 2 (by omega))).step hA3 hB12 (fa0 3 (by omega)) (fb' 0 (by omega) 3 (by omega)))
  · exact ((((h1.step hA0 hB1 (fa0 0 (by omega)) (fb' 1 (by omega) 0 (by omega))).step hA1 hB5 (fa0 1 (by omega)) (fb' 1 (by omega) 1 (by omega))).step hA2 hB9 (fa0 2 (by omega)) (fb' 1 (by omega) 2 (by omega))).step hA3 hB13 (fa0 3 (by omega)) (fb' 1 (by omega) 3 (by omega)))
  · exact ((((h2.step hA0 hB2 (fa0 0 (by omega)) (fb' 2 (by omega) 0 (by omega))).step hA1 hB6 (fa0 1 (by omega)) (fb' 2 (by omega) 1 (by omega))).step hA2 hB10 (fa0 2 (by omega)) (fb' 2 (by omega) 2 (by omega))).step hA3 hB14 (fa0 3 (by omega)) (fb' 2 (by omega) 3 (by omega)))
  · exact ((((h3.step hA0 hB3 (fa0 0 (by omega)) (fb' 3 (by omega) 0 (by omega))).step hA1 hB7 (fa0 1 (by omega)) (fb' 3 (by omega) 1 (by omega))).step hA2 hB11 (fa0 2 (by omega)) (fb' 3 (by omega) 2 (by omega))).step hA3 hB15 (fa0 3 (by omega)) (fb' 3 (by omega) 3 (by omega)))

lemma igebb24rest_spec {t : ℕ} {s : Acc4} (hA : Blk m blA depth v (fun h => a (i + h))) (hB : Blk m blB depth 4 (fun c => b (j + c)))
    (ht : t < depth) (fa : ∀ k < depth, ∀ h < v, Fits (a (i + h) k)) (fb : ∀ k < depth, ∀ c < 4, Fits (b (j + c) k))
    (hs : Acc4Ok v t i j a b s) :
    Run (igebb24rest v (blA + t * v) (blB + t * 4) s) m (fun s' m' => m' = m ∧ Acc4Ok v (t + 1) i j a b s') := by
  unfold igebb24rest
  have fa0 : ∀ l < v, Fits (a (i + l) t) := fun l hl => fa _ (by omega) _ (by omega)
  have fb' : ∀ c < 4, Fits (b (j + c) t) := fun c hc => fb _ (by omega) _ hc
  rw [Run_bind]; refine hA.vload t 0 v (by omega) (by omega) (by ring) (fun A0 hA0 => ?_)
  rw [Run_bind]; refine hB.load t 0 (by omega) (by omega) (by ring) (fun B0 hB0 => ?_)
  rw [Run_bind]; refine hB.load t 1 (by omega) (by omega) (by ring) (fun B1 hB1 => ?_)
  rw [Run_bind]; refine hB.load t 2 (by omega) (by omega) (by ring) (fun B2 hB2 => ?_)
  rw [Run_bind]; refine hB.load t 3 (by omega) (by omega) (by ring) (fun B3 hB3 => ?_)
  rw [Run_pure]
  simp only [Nat.zero_add] at hA0
  obtain ⟨h0, h1, h2, h3⟩ := hs
  exact ⟨rfl, h0.step hA0 hB0 fa0 (fb' 0 (by omega)), h1.step hA0 hB1 fa0 (fb' 1 (by omega)), h2.step hA0 hB2 fa0 (fb' 2 (by omega)),
    h3.step hA0 hB3 fa0 (fb' 3 (by omega))⟩

theorem igebb24_spec (hv : 0 < v) (h : On m0 m W (mix P T V)) (hj : j + 4 ≤ W.r) (hi : i + v ≤ W.c)
    (hA : Blk m blA depth v (fun h => a (i + h))) (hB : Blk m blB depth 4 (fun c => b (j + c)))
    (B : BoxOk K alpha depth i j 4 v a b T V P) :
    Run (igebb24 v K i j depth (depth / 4 * 4) alpha blA blB W.p W.ld) m (fun _ m' => On m0 m' W
      (mix (fun j' i' => P j' i' ∨ j ≤ j' ∧ j' < j + 4 ∧ i ≤ i' ∧ i' < i + v) T V)) := by
  have fa : ∀ k < depth, ∀ h < v, Fits (a (i + h) k) := fun k hk h hh => (B.good 0 (by omega) h hh).fa k hk
  have fb : ∀ k < depth, ∀ c < 4, Fits (b (j + c) k) := fun k hk c hc => (B.good c hc 0 (by omega)).fb k hk
  unfold igebb24
  simp only []
  rw [Run_bind]
  refine (Run_iter (fun t s m' => m' = m ∧ Acc4Ok v (t * 4) i j a b s) ⟨rfl, ?_⟩ ?_).mono ?_
  · rw [Nat.zero_mul]
    exact ⟨AccOk.zero _ _ _, AccOk.zero _ _ _, AccOk.zero _ _ _, AccOk.zero _ _ _⟩
  · rintro t s m' ht ⟨rfl, hs⟩
    have e1 : blA + t * (4 * v) = blA + t * 4 * v := by ring
    have e2 : blB + t * 16 = blB + t * 4 * 4 := by ring
    rw [e1, e2]
    refine (igebb24body_spec (t := t * 4) hA hB (by omega) fa fb hs).mono (fun s' m' h => ⟨h.1, ?_⟩)
    rw [Nat.succ_mul]; exact h.2
  rintro s m' ⟨e, hs⟩
  rw [e]
  rw [Run_bind]
  refine (Run_iter (fun t s m' => m' = m ∧ Acc4Ok v (depth / 4 * 4 + t) i j a b s) ⟨rfl, ?_⟩ ?_).mono ?_
  · rw [Nat.mul_div_cancel _ (by norm_num)] at hs
    exact hs
  · rintro t s m' ht ⟨rfl, hs⟩
    exact igebb24rest_spec hA hB (by omega) fa fb hs
  rintro s m' ⟨e, hs⟩
  rw [e]
  rw [show depth / 4 * 4 + (depth - depth / 4 * 4) = depth by omega] at hs
  obtain ⟨h0, h1, h2, h3⟩ := hs
  have q : ∀ c r, W.adr (j + c) (i + r) = W.p + j * W.ld + i + c * W.ld + r := fun c r => by simp only [Win.adr]; ring
  have B' : ∀ {c r}, c < 4 → r < v → ¬ P (j + c) (i + r) := fun hc hr => B.new _ hc _ hr
  rw [Run_bind]; refine vload_mix (j := j + 0) (i := i + 0) h (by rw [q]; ring) (by omega) (by omega)
    (fun l hl => by rw [Nat.add_assoc]; exact B' (by omega) (by omega)) (fun R0 hR0 => ?_)
  rw [Run_bind]; refine vload_mix (j := j + 1) (i := i + 0) h (by rw [q]; ring) (by omega) (by omega)
    (fun l hl => by rw [Nat.add_assoc]; exact B' (by omega) (by omega)) (fun R1 hR1 => ?_)
  rw [Run_bind]; refine vload_mix (j := j + 2) (i := i + 0) h (by rw [q]; ring) (by omega) (by omega)
    (fun l hl => by rw [Nat.add_assoc]; exact B' (by omega) (by omega)) (fun R2 hR2 => ?_)
  rw [Run_bind]; refine vload_mix (j := j + 3) (i := i + 0) h (by rw [q]; ring) (by omega) (by omega)
    (fun l hl => by rw [Nat.add_assoc]; exact B' (by omega) (by omega)) (fun R3 hR3 => ?_)
  rw [Run_bind]
  refine (vstore_mix (j := j + 0) (i := i + 0) h (by rw [q]; ring) (by omega) (by omega)
    (B.fin (by omega) (by omega) hR0 (by simpa only [Nat.zero_add] using h0))).mono (fun _ m1 g => ?_)
  rw [Run_bind]
  refine (vstore_mix (j := j + 1) (i := i + 0) g (by rw [q]; ring) (by omega) (by omega)
    (B.fin (by omega) (by omega) hR1 (by simpa only [Nat.zero_add] using h1))).mono (fun _ m1 g => ?_)
  rw [Run_bind]
  refine (vstore_mix (j := j + 2) (i := i + 0) g (by rw [q]; ring) (by omega) (by omega)
    (B.fin (by omega) (by omega) hR2 (by simpa only [Nat.zero_add] using h2))).mono (fun _ m1 g => ?_)
  refine (vstore_mix (j := j + 3) (i := i + 0) g (by rw [q]; ring) (by omega) (by omega)
    (B.fin (by omega) (by omega) hR3 (by simpa only [Nat.zero_add] using h3))).mono (fun _ m1 g => ?_)
  refine mix_congr g (fun j' _ i' _ => ?_)
  by_cases hP : P j' i'
  · simp [hP]
  · simp only [hP, false_or]
    omega

theorem igebb41_spec (hv : 0 < v) (h : On m0 m W (mix P T V)) (hj : j + 1 ≤ W.r) (hi : i + 2 * v ≤ W.c)
    (hA : Blk m blA depth (2 * v) (fun h => a (i + h))) (hB : Blk m blB depth 1 (fun c => b (j + c)))
    (B : BoxOk K alpha depth i j 1 (2 * v) a b T V P) :
    Run (igebb41 v K i j depth alpha blA blB W.p W.ld) m (fun _ m' => On m0 m' W
      (mix (fun j' i' => P j' i' ∨ j ≤ j' ∧ j' < j + 1 ∧ i ≤ i' ∧ i' < i + 2 * v) T V)) := by
  have fa : ∀ k < depth, ∀ h < 2 * v, Fits (a (i + h) k) := fun k hk h hh => (B.good 0 (by omega) h hh).fa k hk
  have fb : ∀ k < depth, Fits (b (j + 0) k) := fun k hk => (B.good 0 (by omega) 0 (by omega)).fb k hk
  unfold igebb41
  simp only []
  rw [Run_bind]
  refine (Run_iter (fun t (s : Vec × Vec) m' => m' = m ∧ AccOk v t (fun l => a (i + l)) (b (j + 0)) s.1 ∧
    AccOk v t (fun l => a (i + (v + l))) (b (j + 0)) s.2) ⟨rfl, AccOk.zero _ _ _, AccOk.zero _ _ _⟩ ?_).mono ?_
  · rintro t s m' ht ⟨rfl, h1, h2⟩
    rw [Run_bind]; refine hA.vload t 0 v (by omega) (by omega) (by ring) (fun A0 hA0 => ?_)
    rw [Run_bind]; refine hA.vload t v v (by omega) (by omega) (by ring) (fun A1 hA1 => ?_)
    rw [Run_bind]; refine hB.load t 0 (by omega) (by omega) (by ring) (fun B0 hB0 => ?_)
    rw [Run_pure]
    simp only [Nat.zero_add] at hA0
    exact ⟨rfl, h1.step hA0 hB0 (fun l hl => fa _ ht _ (by omega)) (fb _ ht), h2.step hA1 hB0 (fun l hl => fa _ ht _ (by omega)) (fb _ ht)⟩
  rintro s m' ⟨e, h1, h2⟩
  rw [e]
  have q : ∀ c r, W.adr (j + c) (i + r) = W.p + j * W.ld + i + c * W.ld + r := fun c r => by simp only [Win.adr]; ring
  have B' : ∀ {c r}, c < 1 → r < 2 * v → ¬ P (j + c) (i + r) := fun hc hr => B.new _ hc _ hr
  rw [Run_bind]; refine vload_mix (j := j + 0) (i := i + 0) h (by rw [q]; ring) (by omega) (by omega)
    (fun l hl => by rw [Nat.add_assoc]; exact B' (by omega) (by omega)) (fun R0 hR0 => ?_)
  rw [Run_bind]; refine vload_mix (j := j + 0) (i := i + v) h (by rw [q]; ring) (by omega) (by omega)
    (fun l hl => by rw [Nat.add_assoc]; exact B' (by omega) (by omega)) (fun R4 hR4 => ?_)
  rw [Run_bind]
  refine (vstore_mix (j := j + 0) (i := i + 0) h (by rw [q]; ring) (by omega) (by omega)
    (B.fin (by omega) (by omega) hR0 (by simpa only [Nat.zero_add] using h1))).mono (fun _ m1 g => ?_)
  refine (vstore_mix (j := j + 0) (i := i + v) g (by rw [q]; ring) (by omega) (by omega)
    (B.fin (by omega) (by omega) hR4 h2)).mono (fun _ m1 g => ?_)
  refine mix_congr g (fun j' _ i' _ => ?_)
  by_cases hP : P j' i'
  · simp [hP]
  · simp only [hP, false_or]
    omega

theorem igebb21_spec (hv : 0 < v) (h : On m0 m W (mix P T V)) (hj : j + 1 ≤ W.r) (hi : i + v ≤ W.c)
    (hA : Blk m blA depth v (fun h => a (i + h))) (hB : Blk m blB depth 1 (fun c => b (j + c)))
    (B : BoxOk K alpha depth i j 1 v a b T V P) :
    Run (igebb21 v K i j depth alpha blA blB W.p W.ld) m (fun _ m' => On m0 m' W
      (mix (fun j' i' => P j' i' ∨ j ≤ j' ∧ j' < j + 1 ∧ i ≤ i' ∧ i' < i + v) T V)) := by
  have fa : ∀ k < depth, ∀ h < v, Fits (a (i + h) k) := fun k hk h hh => (B.good 0 (by omega) h hh).fa k hk
  have fb : ∀ k < depth, Fits (b (j + 0) k) := fun k hk => (B.good 0 (by omega) 0 (by omega)).fb k hk
  unfold igebb21
  simp only []
  rw [Run_bind]
  refine (Run_iter (fun t (s : Vec) m' => m' = m ∧ AccOk v t (fun l => a (i + l)) (b (j + 0)) s) ⟨rfl, AccOk.zero _ _ _⟩ ?_).mono ?_
  · rintro t s m' ht ⟨rfl, h1⟩
    rw [Run_bind]; refine hA.vload t 0 v (by omega) (by omega) (by ring) (fun A0 hA0 => ?_)
    rw [Run_bind]; refine hB.load t 0 (by omega) (by omega) (by ring) (fun B0 hB0 => ?_)
    rw [Run_pure]
    simp only [Nat.zero_add] at hA0
    exact ⟨rfl, h1.step hA0 hB0 (fun l hl => fa _ ht _ (by omega)) (fb _ ht)⟩
  rintro s m' ⟨e, h1⟩
  rw [e]
  have q : ∀ c r, W.adr (j + c) (i + r) = W.p + j * W.ld + i + c * W.ld + r := fun c r => by simp only [Win.adr]; ring
  have B' : ∀ {c r}, c < 1 → r < v → ¬ P (j + c) (i + r) := fun hc hr => B.new _ hc _ hr
  rw [Run_bind]; refine vload_mix (j := j + 0) (i := i + 0) h (by rw [q]; ring) (by omega) (by omega)
    (fun l hl => by rw [Nat.add_assoc]; exact B' (by omega) (by omega)) (fun R0 hR0 => ?_)
  refine (vstore_mix (j := j + 0) (i := i + 0) h (by rw [q]; ring) (by omega) (by omega)
    (B.fin (by omega) (by omega) hR0 (by simpa only [Nat.zero_add] using h1))).mono (fun _ m1 g => ?_)
  refine mix_congr g (fun j' _ i' _ => ?_)
  by_cases hP : P j' i'
  · simp [hP]
  · simp only [hP, false_or]
    omega

/-- packed blocks are outside of the matrix written -/
lemma Blk.on {p n w : ℕ} {f U : ℕ → ℕ → ℤ} (hb : Blk m0 p n w f) (h : On m0 m W U) (hd : ∀ q, p ≤ q → q < p + n * w → ¬ W.Has q) :
    Blk m p n w f := fun k hk c hc => by
  have hw : (k + 1) * w ≤ n * w := Nat.mul_le_mul_right _ hk
  rw [Nat.succ_mul] at hw
  refine ⟨by rw [h.step.ok]; exact (hb k hk c hc).1, ?_⟩
  rw [h.step.frame _ (hb k hk c hc).1 (hd _ (by omega) (by omega))]
  exact (hb k hk c hc).2

lemma dot_succ (t : ℕ) (a b : ℕ → ℤ) : dot (t + 1) a b = dot t a b + a t * b t := sum_range_succ _ _

/-- one lane of `igebb14` -/
def Lane (alpha : ℤ) (t : ℕ) (a b : ℕ → ℤ) (c x : ℤ) : Prop := I64 x ∧ (x : Z64) = ((c + alpha * dot t a b : ℤ) : Z64)

lemma igebb14body_spec {t : ℕ} {R Bv : Vec} {x : ℤ} {c : ℕ → ℤ} {ar : ℕ → ℤ} {br : ℕ → ℕ → ℤ} (ht : t < depth)
    (hg : ∀ l < 4, Good K alpha depth ar (br l) (c l)) (hx : x = ar t) (hB : ∀ l < 4, Bv l = br l t)
    (hR : ∀ l < 4, Lane alpha t ar (br l) (c l) (R l)) :
    Run (igebb14body K alpha x Bv R) m (fun R' m' => m' = m ∧ ∀ l < 4, Lane alpha (t + 1) ar (br l) (c l) (R' l)) := by
  have h0 := hg 0 (by omega)
  have hfa : Fits x := by rw [hx]; exact h0.fa t ht
  rcases h0.kind with ⟨rfl, rfl⟩ | ⟨rfl, rfl⟩ | ⟨rfl, h5, h6, h7⟩
  · simp only [igebb14body, Run_pure, true_and]
    intro l hl
    refine ⟨fmaddx_range _ _ _ _, ?_⟩
    rw [fmaddx_cast hfa (by rw [hB l hl]; exact (hg l hl).fb t ht), (hR l hl).2, dot_succ, hB l hl, set1, hx]
    push_cast; ring
  · simp only [igebb14body, Run_pure, true_and]
    intro l hl
    refine ⟨wrap_range _, ?_⟩
    simp only [vsub, mulx, set1]
    rw [wrap_cast, lo32_eq hfa, lo32_eq (by rw [hB l hl]; exact (hg l hl).fb t ht), hB l hl, hx, dot_succ]
    have := (hR l hl).2
    push_cast at this ⊢
    rw [this]; ring
  · simp only [igebb14body, Run_bind]
    have h8 : Fits (alpha * x) := by rw [hx]; exact h6 t ht
    refine Run_chk h8.i64 ?_
    rw [Run_pure]
    refine ⟨rfl, fun l hl => ⟨fmaddx_range _ _ _ _, ?_⟩⟩
    rw [fmaddx_cast h8 (by rw [hB l hl]; exact (hg l hl).fb t ht), (hR l hl).2, dot_succ, hB l hl, set1, hx]
    push_cast; ring

theorem igebb14_spec (h : On m0 m W (mix P T V)) (hj : j + 4 ≤ W.r) (hi : i + 1 ≤ W.c)
    (hA : Blk m blA depth 1 (fun h => a (i + h))) (hB : Blk m blB depth 4 (fun c => b (j + c)))
    (B : BoxOk K alpha depth i j 4 1 a b T V P) :
    Run (igebb14 K i j depth alpha blA blB W.p W.ld) m (fun _ m' => On m0 m' W
      (mix (fun j' i' => P j' i' ∨ j ≤ j' ∧ j' < j + 4 ∧ i ≤ i' ∧ i' < i + 1) T V)) := by
  have hg : ∀ l < 4, Good K alpha depth (a i) (b (j + l)) (V (j + l) i) := fun l hl => B.good l hl 0 (by omega)
  have q : ∀ c, W.adr (j + c) i = W.p + j * W.ld + i + c * W.ld := fun c => by simp only [Win.adr]; ring
  have B' : ∀ {c}, c < 4 → ¬ P (j + c) i := fun hc => B.new _ hc 0 (by omega)
  unfold igebb14
  simp only []
  rw [Run_bind]; refine load_mix (j := j + 0) (i := i) h (by rw [q]; ring) (by omega) (by omega) (B' (by omega)) ?_
  rw [Run_bind]; refine load_mix (j := j + 1) (i := i) h (by rw [q]; ring) (by omega) (by omega) (B' (by omega)) ?_
  rw [Run_bind]; refine load_mix (j := j + 2) (i := i) h (by rw [q]; ring) (by omega) (by omega) (B' (by omega)) ?_
  rw [Run_bind]; refine load_mix (j := j + 3) (i := i) h (by rw [q]; ring) (by omega) (by omega) (B' (by omega)) ?_
  rw [Run_bind]
  refine (Run_iter (fun t (R : Vec) m' => m' = m ∧ ∀ l < 4, Lane alpha t (a i) (b (j + l)) (V (j + l) i) (R l)) ⟨rfl, ?_⟩ ?_).mono ?_
  · intro l hl
    have e : ∀ l < 4, (if l = 0 then V (j + 0) i else if l = 1 then V (j + 1) i else if l = 2 then V (j + 2) i else V (j + 3) i) = V (j + l) i := by
      intro l hl
      interval_cases l <;> rfl
    simp only [e l hl]
    have := (hg l hl).part 0 (by omega)
    simp only [dot, range_zero, sum_empty, mul_zero, add_zero] at this
    exact ⟨this, by simp [dot]⟩
  · rintro t R m' ht ⟨rfl, hR⟩
    rw [Run_bind]; refine hB.vload t 0 4 ht (by omega) (by ring) (fun Bv hBv => ?_)
    rw [Run_bind]; refine hA.load t 0 ht (by omega) (by ring) (fun x hx => ?_)
    simp only [Nat.zero_add] at hBv
    exact igebb14body_spec ht hg hx hBv hR
  rintro R m' ⟨e, hR⟩
  rw [e]
  have fin : ∀ l < 4, R l = T (j + l) i := fun l hl => by
    have := B.tgt l hl 0 (by omega)
    rw [Nat.add_zero] at this
    rw [this]
    exact (hR l hl).1.eq ((hg l hl).part depth le_rfl) (hR l hl).2
  rw [Run_bind]
  refine (store_mix (j := j + 0) (i := i) h (by rw [q]; ring) (by omega) (by omega) (fin 0 (by omega))).mono (fun _ m1 g => ?_)
  rw [Run_bind]
  refine (store_mix (j := j + 1) (i := i) g (by rw [q]; ring) (by omega) (by omega) (fin 1 (by omega))).mono (fun _ m1 g => ?_)
  rw [Run_bind]
  refine (store_mix (j := j + 2) (i := i) g (by rw [q]; ring) (by omega) (by omega) (fin 2 (by omega))).mono (fun _ m1 g => ?_)
  refine (store_mix (j := j + 3) (i := i) g (by rw [q]; ring) (by omega) (by omega) (fin 3 (by omega))).mono (fun _ m1 g => ?_)
  refine mix_congr g (fun j' _ i' _ => ?_)
  by_cases hP : P j' i'
  · simp [hP]
  · simp only [hP, false_or]
    omega

theorem igebb11_spec (h : On m0 m W (mix P T V)) (hj : j + 1 ≤ W.r) (hi : i + 1 ≤ W.c)
    (hA : Blk m0 blA depth 1 (fun h => a (i + h))) (hB : Blk m0 blB depth 1 (fun c => b (j + c)))
    (dA : ∀ q, blA ≤ q → q < blA + depth * 1 → ¬ W.Has q) (dB : ∀ q, blB ≤ q → q < blB + depth * 1 → ¬ W.Has q)
    (B : BoxOk K alpha depth i j 1 1 a b T V P) :
    Run (igebb11 K i j depth alpha blA blB W.p W.ld) m (fun _ m' => On m0 m' W
      (mix (fun j' i' => P j' i' ∨ j ≤ j' ∧ j' < j + 1 ∧ i ≤ i' ∧ i' < i + 1) T V)) := by
  have hg : Good K alpha depth (a i) (b j) (V j i) := B.good 0 (by omega) 0 (by omega)
  have hP : ¬ P j i := B.new 0 (by omega) 0 (by omega)
  unfold igebb11
  simp only []
  have q : W.p + j * W.ld + i = W.adr j i := rfl
  rw [q]
  refine (Run_loop (fun t m' => On m0 m' W (fun j' i' => if j' = j ∧ i' = i then V j i + alpha * dot t (a i) (b j) else mix P T V j' i')) ?_ ?_).mono ?_
  · refine h.congr (fun j' _ i' _ => ?_)
    split_ifs with hc
    · obtain ⟨rfl, rfl⟩ := hc
      rw [mix_neg hP]; simp [dot]
    · rfl
  · intro t m' ht g
    have hA' := hA.on g dA
    have hB' := hB.on g dB
    have st : ∀ x, x = V j i + alpha * dot (t + 1) (a i) (b j) → Run (store (W.adr j i) x) m' (fun _ m'' => On m0 m'' W (fun j' i' =>
        if j' = j ∧ i' = i then V j i + alpha * dot (t + 1) (a i) (b j) else mix P T V j' i')) := by
      rintro x rfl
      rw [Run_store]
      refine ⟨g.ok'.adr (by omega) (by omega), g.wf, g.ok, g.ld, g.step.ok, g.step.next, fun j' hj' i' hi' => ?_, fun b' hb hn => ?_⟩
      · rw [Mem.set_val]
        by_cases hc : j' = j ∧ i' = i
        · obtain ⟨rfl, rfl⟩ := hc
          rw [Function.update_self, if_pos ⟨rfl, rfl⟩]
        · rw [Function.update_of_ne, g.val hj' hi', if_neg hc, if_neg hc]
          intro hc2
          exact hc (g.inj j' hj' i' hi' j (by omega) i (by omega) hc2)
      · rw [Mem.set_val, Function.update_of_ne, g.step.frame b' hb hn]
        rintro rfl
        exact hn (Win.Has_adr (by omega) (by omega))
    rw [Run_bind, Run_load]
    refine ⟨g.ok'.adr (by omega) (by omega), ?_⟩
    rw [g.val (i := j) (j := i) (by omega) (by omega), if_pos ⟨rfl, rfl⟩]
    rw [Run_bind]; refine hA'.load t 0 ht (by omega) (by ring) (fun x hx => ?_)
    rw [Run_bind]; refine hB'.load t 0 ht (by omega) (by ring) (fun y hy => ?_)
    simp only [Nat.add_zero] at hx hy
    subst hx hy
    have h1 := hg.part (t + 1) ht
    have h2 := (hg.fa t ht).mul (hg.fb t ht)
    rcases hg.kind with ⟨rfl, rfl⟩ | ⟨rfl, rfl⟩ | ⟨rfl, h5, h6, h7⟩
    · simp only [Run_bind]
      refine Run_chk h2 (Run_chk ?_ (st _ ?_))
      · rw [dot_succ] at h1
        convert h1 using 1; ring
      · rw [dot_succ]; ring
    · simp only [Run_bind]
      refine Run_chk h2 (Run_chk ?_ (st _ ?_))
      · rw [dot_succ] at h1
        convert h1 using 1; ring
      · rw [dot_succ]; ring
    · simp only [Run_bind]
      refine Run_chk (h6 t ht).i64 (Run_chk ((h6 t ht).mul (hg.fb t ht)) (Run_chk ?_ (st _ ?_)))
      · rw [dot_succ] at h1
        convert h1 using 1; ring
      · rw [dot_succ]; ring
  · intro _ m' g
    refine g.congr (fun j' _ i' _ => ?_)
    split_ifs with hc
    · obtain ⟨rfl, rfl⟩ := hc
      rw [mix_pos (Or.inr (by omega))]
      exact (B.tgt 0 (by omega) 0 (by omega)).symm
    · refine mix_iff ?_
      constructor
      · exact Or.inl
      · rintro (hq | hq)
        · exact hq
        · exact absurd ⟨by omega, by omega⟩ hc

end

end Verif.IG
