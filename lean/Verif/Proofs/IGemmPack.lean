import Verif.Proofs.IGemmKern

/-!
# Product of matrices of 64-bit integers: packing and block times panel
-/

namespace Verif.IG

open Finset Verif.FF

/-- since `m0`, only the cells `XX, …, XX + p - 1` have changed -/
structure PS (m0 m : Mem ℤ) (XX p : ℕ) : Prop where
  ok : m.ok = m0.ok
  next : m.next = m0.next
  frame : ∀ q, q < XX ∨ XX + p ≤ q → m.val q = m0.val q

lemma packLoop_spec {m0 m : Mem ℤ} {XX X n k p tot : ℕ} {src : ℕ → ℕ → ℕ} {f : ℕ → ℕ → ℤ} (hs : PS m0 m XX p)
    (hok : ∀ t < tot, m0.ok (XX + t) = true) (hp : p + n * k ≤ tot)
    (hsrc : ∀ i < n, ∀ l < k, m0.ok (X + src i l) = true ∧ m0.val (X + src i l) = f l i ∧ (X + src i l < XX ∨ XX + tot ≤ X + src i l)) :
    Run (packLoop XX X n k src p) m (fun p' m' => p' = p + n * k ∧ PS m0 m' XX (p + n * k) ∧ Blk m' (XX + p) n k f ∧
      ∀ q < XX + p, m'.val q = m.val q) := by
  unfold packLoop
  refine (Run_iter (fun i p' m' => p' = p + i * k ∧ PS m0 m' XX (p + i * k) ∧ Blk m' (XX + p) i k f ∧
      ∀ q < XX + p, m'.val q = m.val q) ⟨by simp, by simpa using hs, by intro k hk; omega, fun _ _ => rfl⟩ ?_)
  rintro i p' m1 hi ⟨rfl, h1, h2, h3⟩
  have hik : (i + 1) * k ≤ n * k := Nat.mul_le_mul_right _ hi
  rw [Nat.succ_mul] at hik
  refine (Run_iter (fun l p' m' => p' = p + i * k + l ∧ PS m0 m' XX (p + i * k + l) ∧ (∀ h < l, m'.val (XX + p + i * k + h) = f h i) ∧
      ∀ q < XX + (p + i * k), m'.val q = m1.val q) ⟨by simp, by simpa using h1, by simp, fun _ _ => rfl⟩ ?_).mono ?_
  · rintro l p' m' hl ⟨rfl, g1, g2, g3⟩
    obtain ⟨s1, s2, s3⟩ := hsrc i hi l hl
    have hv : m'.val (X + src i l) = f l i := by
      rw [g1.frame _ (by omega)]; exact s2
    simp only [Run_bind, Run_load, Run_store, Run_pure, g1.ok, s1, true_and, hv]
    refine ⟨by rw [show XX + (p + i * k + l) = XX + (p + i * k + l) from rfl]; exact hok _ (by omega), by omega, ⟨g1.ok, g1.next, ?_⟩, ?_, ?_⟩
    · intro q hq
      rw [Mem.set_val, Function.update_of_ne (by omega), g1.frame q (by omega)]
    · intro h hh
      rw [Mem.set_val]
      by_cases e : h = l
      · subst e
        rw [show XX + p + i * k + h = XX + (p + i * k + h) by ring, Function.update_self]
      · rw [Function.update_of_ne (by omega)]
        exact g2 h (by omega)
    · intro q hq
      rw [Mem.set_val, Function.update_of_ne (by omega)]
      exact g3 q hq
  · rintro p' m' ⟨rfl, g1, g2, g3⟩
    refine ⟨by ring, by rw [Nat.succ_mul, ← Nat.add_assoc]; exact g1, fun t ht h hh => ?_, fun q hq => ?_⟩
    · by_cases e : t = i
      · subst e
        refine ⟨?_, g2 h hh⟩
        rw [g1.ok]
        rw [show XX + p + t * k + h = XX + (p + t * k + h) by ring]
        exact hok _ (by omega)
      · have ht' : t < i := by omega
        have : (t + 1) * k ≤ i * k := Nat.mul_le_mul_right _ ht'
        rw [Nat.succ_mul] at this
        refine ⟨?_, ?_⟩
        · rw [g1.ok, ← h1.ok]; exact (h2 t ht' h hh).1
        · rw [g3 _ (by omega)]; exact (h2 t ht' h hh).2
    · rw [g3 q (by omega), h3 q hq]

/-- a packed matrix: `n` lines of length `depth`, by groups of `g` lines, then if possible one group of `s` lines, then line by line -/
structure Packed (m : Mem ℤ) (X g s n depth : ℕ) (f : ℕ → ℕ → ℤ) : Prop where
  main : ∀ q < n / g, Blk m (X + q * g * depth) depth g (fun h => f (q * g + h))
  grp : s ≤ n - n / g * g → Blk m (X + n / g * g * depth) depth s (fun h => f (n / g * g + h))
  rest : ∀ i, (if s ≤ n - n / g * g then n / g * g + s else n / g * g) ≤ i → i < n → Blk m (X + i * depth) depth 1 (fun h => f (i + h))

/-- the common form of `packRhs` and `packLhs` -/
def packG (v k : ℕ) (b0 : Bool) (XX X n depth : ℕ) (adr : ℕ → ℕ → ℕ) : Prog ℤ Unit := do
  let by_k := n / k * k
  let p ← iter (n / k) (fun jj p => packLoop XX X depth k (fun i l => adr (jj * k + l) i) p) 0
  let b := b0 && decide (v ≤ n - by_k)
  let p ← packLoop XX X depth (if b then v else 0) (fun i l => adr (by_k + l) i) p
  let by_k := if b then by_k + v else by_k
  let _ ← packLoop XX X (n - by_k) depth (fun j i => adr (by_k + j) i) p
  pure ()

lemma packRhs_eq (v k : ℕ) (tr : Bool) (XX X ldx rows cols : ℕ) :
    packRhs v k tr XX X ldx rows cols = packG v k tr XX X cols rows (fun c r => r + c * ldx) := rfl

lemma packLhs_eq (v k : ℕ) (tr : Bool) (XX X ldx rows cols : ℕ) :
    packLhs v k tr XX X ldx rows cols = packG v k (!tr) XX X rows cols (fun r c => r + c * ldx) := rfl

lemma Blk.below {m m' : Mem ℤ} {p n w e : ℕ} {f : ℕ → ℕ → ℤ} (h : Blk m p n w f) (he : p + n * w ≤ e) (ho : m'.ok = m.ok)
    (hv : ∀ q < e, m'.val q = m.val q) : Blk m' p n w f := h.frame ho (fun q _ hq => hv q (by omega))

theorem packG_spec {m : Mem ℤ} {v k XX X n depth s : ℕ} {b0 : Bool} {adr : ℕ → ℕ → ℕ} {f : ℕ → ℕ → ℤ} (hs : s = if b0 then v else 0)
    (hok : ∀ t < n * depth, m.ok (XX + t) = true)
    (hsrc : ∀ i < n, ∀ t < depth, m.ok (X + adr i t) = true ∧ m.val (X + adr i t) = f i t ∧ (X + adr i t < XX ∨ XX + n * depth ≤ X + adr i t)) :
    Run (packG v k b0 XX X n depth adr) m (fun _ m' => PS m m' XX (n * depth) ∧ Packed m' XX k s n depth f) := by
  unfold packG
  simp only []
  have hn : n / k * k ≤ n := Nat.div_mul_le_self n k
  have hnd : n / k * k * depth ≤ n * depth := Nat.mul_le_mul_right _ hn
  rw [Run_bind]
  refine (Run_iter (fun jj p m' => p = jj * k * depth ∧ PS m m' XX (jj * k * depth) ∧
    ∀ q < jj, Blk m' (XX + q * k * depth) depth k (fun h => f (q * k + h))) ⟨by simp, ⟨rfl, rfl, fun _ _ => rfl⟩, by simp⟩ ?_).mono ?_
  · rintro jj p m1 hj ⟨rfl, h1, h2⟩
    have e1 : (jj + 1) * k ≤ n / k * k := Nat.mul_le_mul_right _ hj
    have e2 : (jj + 1) * k * depth ≤ n / k * k * depth := Nat.mul_le_mul_right _ e1
    have e3 : (jj + 1) * k * depth = jj * k * depth + depth * k := by ring
    rw [Nat.succ_mul] at e1
    refine (packLoop_spec (tot := n * depth) (f := fun h => f (jj * k + h)) h1 hok (by omega) (fun i hi l hl => hsrc _ (by omega) _ hi)).mono ?_
    rintro p' m2 ⟨rfl, g1, g2, g3⟩
    rw [e3]
    refine ⟨rfl, g1, fun q hq => ?_⟩
    by_cases e : q = jj
    · subst e; exact g2
    · have e4 : (q + 1) * k * depth ≤ jj * k * depth := Nat.mul_le_mul_right _ (Nat.mul_le_mul_right _ (by omega))
      have e5 : (q + 1) * k * depth = q * k * depth + depth * k := by ring
      exact (h2 q (by omega)).below (by omega) (g1.ok.trans h1.ok.symm) g3
  rintro p m1 ⟨rfl, h1, h2⟩
  rw [Run_bind]
  generalize hb : (b0 && decide (v ≤ n - n / k * k)) = b
  have hbs : (if b then v else 0) ≤ n - n / k * k ∧ ((if s ≤ n - n / k * k then n / k * k + s else n / k * k) = if b then n / k * k + v else n / k * k) ∧
      (s ≤ n - n / k * k → s = if b then v else 0) := by
    subst hb hs
    cases b0
    · simp
    · by_cases hv : v ≤ n - n / k * k
      · simp [hv]
      · simp [hv]
  obtain ⟨hb1, hb2, hb3⟩ := hbs
  have e6 : (n / k * k + (if b then v else 0)) * depth ≤ n * depth := Nat.mul_le_mul_right _ (by omega)
  have e7 : (n / k * k + (if b then v else 0)) * depth = n / k * k * depth + depth * (if b then v else 0) := by ring
  refine (packLoop_spec (tot := n * depth) (f := fun h => f (n / k * k + h)) h1 hok (by omega) (fun i hi l hl => hsrc _ (by omega) _ hi)).mono ?_
  rintro p m2 ⟨rfl, g1, g2, g3⟩
  rw [Run_bind]
  have e8 : (if b then n / k * k + v else n / k * k) = n / k * k + (if b then v else 0) := by cases b <;> simp
  rw [e8] at hb2 ⊢
  generalize hB : n / k * k + (if b then v else 0) = B at *
  have e9 : n / k * k * depth + depth * (if b then v else 0) + (n - B) * depth = n * depth := by
    rw [← e7, ← Nat.add_mul, Nat.add_sub_cancel' (by omega)]
  refine (packLoop_spec (tot := n * depth) (f := fun h i => f (B + i) h) g1 hok (by omega) (fun i hi l hl => hsrc _ (by omega) _ hl)).mono ?_
  rintro p m3 ⟨rfl, k1, k2, k3⟩
  rw [Run_pure]
  refine ⟨by rw [← e9]; exact k1, fun q hq => ?_, fun hq => ?_, fun i hi hin => ?_⟩
  · have e4 : (q + 1) * k * depth ≤ n / k * k * depth := Nat.mul_le_mul_right _ (Nat.mul_le_mul_right _ (by omega))
    have e5 : (q + 1) * k * depth = q * k * depth + depth * k := by ring
    have := (h2 q hq).below (e := XX + n / k * k * depth) (by omega) (g1.ok.trans h1.ok.symm) g3
    exact this.below (e := XX + (n / k * k * depth + depth * (if b then v else 0))) (by omega) (k1.ok.trans g1.ok.symm) k3
  · have := g2.below (e := XX + (n / k * k * depth + depth * (if b then v else 0))) (by omega) (k1.ok.trans g1.ok.symm) k3
    rw [hb3 hq]; exact this
  · rw [hb2] at hi
    intro t ht h hh
    obtain rfl : h = 0 := by omega
    have := k2 (i - B) (by omega) t ht
    have e10 : B * depth + (i - B) * depth = i * depth := by rw [← Nat.add_mul, Nat.add_sub_cancel' hi]
    rw [show XX + (n / k * k * depth + depth * (if b then v else 0)) + (i - B) * depth + t = XX + i * depth + t * 1 + 0 by omega] at this
    refine ⟨this.1, this.2.trans ?_⟩
    show f (B + (i - B)) t = f (i + 0) t
    rw [show B + (i - B) = i + 0 by omega]

/-! ## Block times panel -/

lemma remRows1 {v f i rem : ℕ} {kv k1 : ℕ → Prog ℤ Unit} {I : ℕ → Mem ℤ → Prop} (hr : rem < v) (hf : rem ≤ f) :
    ∀ {m : Mem ℤ}, I i m → (∀ t < rem, ∀ m, I (i + t) m → Run (k1 (i + t)) m (fun _ m' => I (i + t + 1) m')) →
      Run (remRows v kv k1 f i rem) m (fun _ m' => I (i + rem) m') := by
  induction f generalizing i rem with
  | zero =>
    intro m h _
    obtain rfl : rem = 0 := by omega
    simp only [remRows, if_true, Run_pure]; exact h
  | succ f ih =>
    intro m h hs
    unfold remRows
    by_cases h0 : rem = 0
    · subst h0
      simp only [if_true, Run_pure]; exact h
    · rw [if_neg h0, if_neg (by omega), Run_bind]
      refine (hs 0 (by omega) m h).mono (fun _ m' h' => ?_)
      refine (ih (i := i + 1) (rem := rem - 1) (by omega) (by omega) h' (fun t ht m1 h1 => ?_)).mono (fun _ m2 h2 => ?_)
      · rw [show i + 1 + t = i + (t + 1) by omega] at h1 ⊢
        exact hs (t + 1) (by omega) m1 h1
      · rw [show i + 1 + (rem - 1) = i + rem by omega] at h2
        exact h2

lemma strip_run {v rows : ℕ} {k2 kv k1 : ℕ → Prog ℤ Unit} {I : ℕ → Mem ℤ → Prop} {m : Mem ℤ} (hv : 0 < v) (h0 : I 0 m)
    (h2 : ∀ q < rows / (2 * v), ∀ m, I (q * (2 * v)) m → Run (k2 q) m (fun _ m' => I (q * (2 * v) + 2 * v) m'))
    (hkv : v ≤ rows - rows / (2 * v) * (2 * v) → ∀ m, I (rows / (2 * v) * (2 * v)) m →
      Run (kv (rows / (2 * v) * (2 * v))) m (fun _ m' => I (rows / (2 * v) * (2 * v) + v) m'))
    (h1 : ∀ i, (if v ≤ rows - rows / (2 * v) * (2 * v) then rows / (2 * v) * (2 * v) + v else rows / (2 * v) * (2 * v)) ≤ i → i < rows →
      ∀ m, I i m → Run (k1 i) m (fun _ m' => I (i + 1) m')) :
    Run (do
      loop (rows / (2 * v)) k2
      remRows v kv k1 (rows - rows / (2 * v) * (2 * v)) (rows / (2 * v) * (2 * v)) (rows - rows / (2 * v) * (2 * v))) m
      (fun _ m' => I rows m') := by
  have hm : rows - rows / (2 * v) * (2 * v) < 2 * v := by
    have := Nat.mod_lt rows (show 0 < 2 * v by omega)
    have h := Nat.div_add_mod rows (2 * v)
    rw [Nat.mul_comm] at h
    omega
  have hle := Nat.div_mul_le_self rows (2 * v)
  rw [Run_bind]
  refine (Run_loop (fun q m' => I (q * (2 * v)) m') (by rw [Nat.zero_mul]; exact h0) (fun q m' hq h => ?_)).mono (fun _ m' h => ?_)
  · rw [Nat.succ_mul]; exact h2 q hq m' h
  generalize rows / (2 * v) * (2 * v) = i0 at *
  by_cases hr : v ≤ rows - i0
  · rw [if_pos hr] at h1
    obtain ⟨f, hf⟩ : ∃ f, rows - i0 = f + 1 := ⟨rows - i0 - 1, by omega⟩
    rw [show remRows v kv k1 (rows - i0) i0 (rows - i0) = remRows v kv k1 (f + 1) i0 (rows - i0) by rw [← hf]]
    unfold remRows
    rw [if_neg (by omega), if_pos hr, Run_bind]
    refine (hkv hr m' h).mono (fun _ m1 g => ?_)
    refine (remRows1 (I := I) (by omega) (by omega) g (fun t ht m2 g2 => h1 _ (by omega) (by omega) m2 g2)).mono (fun _ m2 g2 => ?_)
    rw [show i0 + v + (rows - i0 - v) = rows by omega] at g2
    exact g2
  · rw [if_neg hr] at h1
    refine (remRows1 (I := I) (by omega) (by omega) h (fun t ht m2 g2 => h1 _ (by omega) (by omega) m2 g2)).mono (fun _ m2 g2 => ?_)
    rw [show i0 + (rows - i0) = rows by omega] at g2
    exact g2

theorem igebp_spec {m0 : Mem ℤ} {v rows cols depth blA blB C ldc : ℕ} {K : Kind} {alpha : ℤ} {a b V : ℕ → ℕ → ℤ} (hv : 0 < v)
    (h : On m0 m0 ⟨C, ldc, cols, rows⟩ V) (hA : Packed m0 blA (2 * v) v rows depth a) (hB : Packed m0 blB 4 0 cols depth b)
    (dA : ∀ q, blA ≤ q → q < blA + rows * depth → ¬ (Win.mk C ldc cols rows).Has q)
    (dB : ∀ q, blB ≤ q → q < blB + cols * depth → ¬ (Win.mk C ldc cols rows).Has q)
    (hg : ∀ j < cols, ∀ i < rows, Good K alpha depth (a i) (b j) (V j i)) :
    Run (igebp v K rows cols depth alpha blA depth blB depth C ldc) m0
      (fun _ m' => On m0 m' ⟨C, ldc, cols, rows⟩ (fun j i => V j i + alpha * dot depth (a i) (b j))) := by
  set W : Win := ⟨C, ldc, cols, rows⟩ with hW
  set T : ℕ → ℕ → ℤ := fun j i => V j i + alpha * dot depth (a i) (b j) with hT
  have dA' : ∀ p n w, blA ≤ p → p + n * w ≤ blA + rows * depth → ∀ q, p ≤ q → q < p + n * w → ¬ W.Has q :=
    fun p n w h1 h2 q h3 h4 => dA q (by omega) (by omega)
  have dB' : ∀ p n w, blB ≤ p → p + n * w ≤ blB + cols * depth → ∀ q, p ≤ q → q < p + n * w → ¬ W.Has q :=
    fun p n w h1 h2 q h3 h4 => dB q (by omega) (by omega)
  have eA : ∀ i w, i + w ≤ rows → blA + i * depth + depth * w ≤ blA + rows * depth := fun i w h => by
    have : (i + w) * depth ≤ rows * depth := Nat.mul_le_mul_right _ h
    rw [Nat.add_mul, Nat.mul_comm w] at this
    omega
  have eB : ∀ i w, i + w ≤ cols → blB + i * depth + depth * w ≤ blB + cols * depth := fun i w h => by
    have : (i + w) * depth ≤ cols * depth := Nat.mul_le_mul_right _ h
    rw [Nat.add_mul, Nat.mul_comm w] at this
    omega
  have hr := Nat.div_mul_le_self rows (2 * v)
  have hq : ∀ q < rows / (2 * v), q * (2 * v) + 2 * v ≤ rows := fun q hq => by
    have : (q + 1) * (2 * v) ≤ rows / (2 * v) * (2 * v) := Nat.mul_le_mul_right _ hq
    rw [Nat.succ_mul] at this
    omega
  -- the entries done so far when working on the columns `j, …, j + hh - 1`
  have box : ∀ {m : Mem ℤ} {j hh i w : ℕ}, j + hh ≤ cols → i + w ≤ rows →
      On m0 m W (mix (fun j' i' => j' < j ∨ j' < j + hh ∧ i' < i) T V) →
      BoxOk K alpha depth i j hh w a b T V (fun j' i' => j' < j ∨ j' < j + hh ∧ i' < i) := fun hj hi _ =>
    ⟨fun c hc r hr => hg _ (by omega) _ (by omega), fun c hc r hr => rfl, fun c hc r hr => by omega⟩
  have fin : ∀ {m : Mem ℤ} {j hh i w : ℕ}, On m0 m W (mix (fun j' i' => (j' < j ∨ j' < j + hh ∧ i' < i) ∨ j ≤ j' ∧ j' < j + hh ∧ i ≤ i' ∧ i' < i + w) T V) →
      On m0 m W (mix (fun j' i' => j' < j ∨ j' < j + hh ∧ i' < i + w) T V) := fun h => mix_congr h (fun j' _ i' _ => by omega)
  have ent : ∀ {m : Mem ℤ} {j : ℕ} (hh : ℕ), On m0 m W (mix (fun j' _ => j' < j) T V) →
      On m0 m W (mix (fun j' i' => j' < j ∨ j' < j + hh ∧ i' < 0) T V) := fun hh h => mix_congr h (fun j' _ i' _ => by omega)
  have ext : ∀ {m : Mem ℤ} {j hh : ℕ}, On m0 m W (mix (fun j' i' => j' < j ∨ j' < j + hh ∧ i' < rows) T V) →
      On m0 m W (mix (fun j' _ => j' < j + hh) T V) := fun h => mix_congr h (fun j' _ i' hi' => by
        have hi' : i' < rows := hi'
        omega)
  unfold igebp
  simp only []
  rw [Run_bind]
  refine (Run_loop (fun jj m' => On m0 m' W (mix (fun j' _ => j' < jj * 4) T V)) ?_ (fun jj m1 hjj h1 => ?_)).mono (fun _ m1 h1 => ?_)
  · exact h.congr (fun j' _ i' _ => (mix_neg (by omega)).symm)
  · have hj : jj * 4 + 4 ≤ cols := by
      have : (jj + 1) * 4 ≤ cols / 4 * 4 := Nat.mul_le_mul_right _ hjj
      have := Nat.div_mul_le_self cols 4
      omega
    have bB : ∀ {m U}, On m0 m W U → Blk m (blB + jj * 4 * depth) depth 4 (fun c => b (jj * 4 + c)) := fun h =>
      (hB.main jj hjj).on h (dB' _ _ _ (by omega) (eB _ _ hj))
    refine (strip_run (I := fun i m' => On m0 m' W (mix (fun j' i' => j' < jj * 4 ∨ j' < jj * 4 + 4 ∧ i' < i) T V)) hv (ent 4 h1) ?_ ?_ ?_).mono ?_
    · intro q hq' m2 h2
      refine (igebb44_spec (W := W) hv h2 hj (hq q hq') ?_ (bB h2) (box hj (hq q hq') h2)).mono (fun _ m3 h3 => fin h3)
      exact (hA.main q hq').on h2 (dA' _ _ _ (by omega) (eA _ _ (hq q hq')))
    · intro hc m2 h2
      refine (igebb24_spec (W := W) hv h2 hj (by show _ ≤ rows; omega) ?_ (bB h2) (box hj (by omega) h2)).mono (fun _ m3 h3 => fin h3)
      exact (hA.grp hc).on h2 (dA' _ _ _ (by omega) (eA _ _ (by omega)))
    · intro i hi hir m2 h2
      refine (igebb14_spec (W := W) h2 hj hir ?_ (bB h2) (box hj (by omega) h2)).mono (fun _ m3 h3 => fin h3)
      exact (hA.rest i hi hir).on h2 (dA' _ _ _ (by omega) (eA _ _ (by omega)))
    · intro _ m2 h2
      rw [Nat.succ_mul]; exact ext h2
  · have h4 := Nat.div_mul_le_self cols 4
    refine (Run_loop (fun jj m' => On m0 m' W (mix (fun j' _ => j' < cols / 4 * 4 + jj) T V)) h1 (fun jj m1 hjj h1 => ?_)).mono (fun _ m1 h1 => ?_)
    · have hj : cols / 4 * 4 + jj + 1 ≤ cols := by omega
      have bB0 : Blk m0 (blB + (cols / 4 * 4 + jj) * depth) depth 1 (fun c => b (cols / 4 * 4 + jj + c)) :=
        hB.rest _ (by simp) (by omega)
      have bB : ∀ {m U}, On m0 m W U → Blk m (blB + (cols / 4 * 4 + jj) * depth) depth 1 (fun c => b (cols / 4 * 4 + jj + c)) := fun h =>
        bB0.on h (dB' _ _ _ (by omega) (eB _ _ hj))
      refine (strip_run (I := fun i m' => On m0 m' W (mix (fun j' i' => j' < cols / 4 * 4 + jj ∨ j' < cols / 4 * 4 + jj + 1 ∧ i' < i) T V)) hv (ent 1 h1) ?_ ?_ ?_).mono ?_
      · intro q hq' m2 h2
        refine (igebb41_spec (W := W) hv h2 hj (hq q hq') ?_ (bB h2) (box hj (hq q hq') h2)).mono (fun _ m3 h3 => fin h3)
        exact (hA.main q hq').on h2 (dA' _ _ _ (by omega) (eA _ _ (hq q hq')))
      · intro hc m2 h2
        refine (igebb21_spec (W := W) hv h2 hj (by show _ ≤ rows; omega) ?_ (bB h2) (box hj (by omega) h2)).mono (fun _ m3 h3 => fin h3)
        exact (hA.grp hc).on h2 (dA' _ _ _ (by omega) (eA _ _ (by omega)))
      · intro i hi hir m2 h2
        refine (igebb11_spec (W := W) h2 hj hir (hA.rest i hi hir) bB0 (dA' _ _ _ (by omega) (eA _ _ (by omega)))
          (dB' _ _ _ (by omega) (eB _ _ hj)) (box hj (by omega) h2)).mono (fun _ m3 h3 => fin h3)
      · intro _ m2 h2
        rw [← Nat.add_assoc]; exact ext h2
    · refine h1.congr (fun j' hj' i' _ => mix_pos ?_)
      have hj' : j' < cols := hj'
      omega

end Verif.IG
