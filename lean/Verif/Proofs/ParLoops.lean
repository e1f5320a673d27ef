import Verif.Proofs.ParWr
import Verif.Spec.Par
import Verif.Props.Splitting

/-!
# Loops of tasks over the blocks of a matrix
-/

namespace Verif.Par
open Verif.FF Verif.BlockCuts Verif.Spec.Splitting

variable {K : Type} {W R T : ℕ → Prop} {v : ℕ → K} {Q : (ℕ → K) → Prop}

/-- a bounded set of cells -/
def FinS (S : ℕ → Prop) : Prop := ∃ b, ∀ x, S x → x < b

lemma FinS.or {S S' : ℕ → Prop} (h : FinS S) (h' : FinS S') : FinS (fun x => S x ∨ S' x) := by
  obtain ⟨b, hb⟩ := h
  obtain ⟨b', hb'⟩ := h'
  exact ⟨max b b', fun x hx => hx.elim (fun h => lt_of_lt_of_le (hb x h) (le_max_left _ _)) (fun h => lt_of_lt_of_le (hb' x h) (le_max_right _ _))⟩

lemma FinS.has (w : Win) : FinS w.Has := by
  refine ⟨w.p + w.r * w.ld + w.c, ?_⟩
  rintro x ⟨i, hi, j, hj, rfl⟩
  have : i * w.ld ≤ w.r * w.ld := Nat.mul_le_mul_right _ hi.le
  simp only [Win.adr]; omega

lemma FinS.mono {S S' : ℕ → Prop} (h : FinS S') (hs : ∀ x, S x → S' x) : FinS S := h.imp fun _ hb x hx => hb x (hs x hx)

lemma FinS.none : FinS (fun _ => False) := ⟨0, fun _ h => h.elim⟩

lemma Vals.local (w : Win) (g : ℕ → ℕ → K) (S : ℕ → Prop) : Local (fun i => w.Has i ∨ S i) (Vals w g) :=
  fun _ _ h q i hi j hj => (h _ (Or.inl (Win.Has_adr hi hj))).trans (q i hi j hj)

lemma wp_mono (p : Proc K) : ∀ {W R T : ℕ → Prop} {v : ℕ → K} {Q Q' : (ℕ → K) → Prop}, (∀ v, Q v → Q' v) → wp p W R T v Q → wp p W R T v Q' := by
  induction p with
  | ret => intro W R T v Q Q' h hw; exact h _ hw
  | fault => intro W R T v Q Q' h hw; exact hw
  | rd i k ih => intro W R T v Q Q' h hw; exact ⟨hw.1, ih _ h hw.2⟩
  | wr i x k ih => intro W R T v Q Q' h hw; exact ⟨hw.1, ih h hw.2⟩
  | alloc n k ih => intro W R T v Q Q' h hw p c hp; exact ih _ h (hw p c hp)
  | free p n k ih => intro W R T v Q Q' h hw; exact ⟨hw.1, ih h hw.2⟩
  | par n ts k _ ih =>
    rintro W R T v Q Q' h ⟨T0, Wc, Rc, Tc, Qc, h1, h2, h3, h4, h5, h6, h7, h8⟩
    exact ⟨T0, Wc, Rc, Tc, Qc, h1, h2, h3, h4, h5, h6, h7, fun v' e q => ih h (h8 v' e q)⟩

open Classical in
/-- a sequential program with its specification, as a part of a task -/
lemma wp_call {p : Prog K Unit} [hp : Small p] {k : Proc K} {w : Win} {g : ℕ → ℕ → K} (S : ℕ → Prop) (hf : FinS S)
    (hS : ∀ x, S x → W x ∨ R x ∨ T x) (hw : Small.wrIn p (fun i => W i ∨ T i))
    (hr : ∀ m : Mem K, WF m → (∀ x, S x → m.ok x = true) → m.val = v → Run p m (fun _ m' => Step m m' w g))
    (hk : ∀ v', (∀ i, (W i ∨ R i ∨ T i) → ¬ w.Has i → v' i = v i) → Vals w g v' → wp k W R T v' Q) :
    wp (call p k) W R T v Q := by
  obtain ⟨b, hb⟩ := hf
  let m : Mem K := ⟨v, fun x => decide (S x), b⟩
  have hwf : WF m := fun a ha => by
    have : ¬ S a := fun h => absurd (hb a h) (by simp only [m] at ha; omega)
    simp [m, this]
  refine wp_tr p m rfl (fun i hi => hS i (by simpa [m] using hi)) (hr m hwf (fun x hx => by simp [m, hx]) rfl) hw ?_
  intro _ m' st _ fr _
  refine hk m'.val (fun i _ hn => ?_) st.val
  cases h : m.ok i
  · exact fr i h
  · exact st.frame i h hn

/-- task `t` writes the window `w` only, reads it and `Rs` only, and leaves `g` in `w` -/
def TaskOk (t : Proc K) (w : Win) (Rs : ℕ → Prop) (v : ℕ → K) (g : ℕ → ℕ → K) : Prop := wp t w.Has Rs (fun _ => False) v (Vals w g)

lemma InS_Has {C ldc m n : ℕ} {T : ℕ → Prop} : InS (fun i => (Win.mk C ldc m n).Has i ∨ T i) C ldc m n :=
  fun i hi j hj => Or.inl ⟨i, hi, j, hj, rfl⟩

lemma task_call {p : Prog K Unit} [hp : Small p] {w : Win} {g : ℕ → ℕ → K} {Rs : ℕ → Prop} (hf : FinS Rs)
    (hw : Small.wrIn p (fun i => w.Has i ∨ False))
    (hr : ∀ m : Mem K, WF m → OkIn m w → (∀ x, Rs x → m.ok x = true) → m.val = v → Run p m (fun _ m' => Step m m' w g)) :
    TaskOk (call p .ret) w Rs v g :=
  wp_call (fun x => w.Has x ∨ Rs x) ((FinS.has w).or hf) (fun x hx => hx.elim Or.inl (fun h => Or.inr (Or.inl h))) hw
    (fun m hm ho => hr m hm (fun a ha => ho a (Or.inl ha)) (fun x hx => ho x (Or.inr hx))) (fun _ _ h => h)

/-- tasks with disjoint windows -/
lemma wp_spawn {n : ℕ} {ts : Fin n → Proc K} {k : Proc K} (win : Fin n → Win) (g : Fin n → ℕ → ℕ → K) (Rs : ℕ → Prop)
    (hW : ∀ j x, (win j).Has x → W x ∨ T x) (hR : ∀ x, Rs x → W x ∨ R x ∨ T x) (hRW : ∀ j x, Rs x → ¬ (win j).Has x)
    (hd : ∀ j l, j ≠ l → (win j).Disj (win l)) (ht : ∀ j, TaskOk (ts j) (win j) Rs v (g j))
    (hk : ∀ v', (∀ i, W i ∨ R i ∨ T i → (∀ j, ¬ (win j).Has i) → v' i = v i) → (∀ j, Vals (win j) (g j) v') → wp k W R T v' Q) :
    wp (.par n ts k) W R T v Q :=
  wp_par (fun j => (win j).Has) (fun _ => Rs) (fun j => Vals (win j) (g j)) hW (fun _ => hR)
    (fun j l i e => ⟨fun h => hd j l e i h.1 h.2, fun h => hRW l i h.1 h.2⟩) (fun j => Vals.local _ _ _) ht hk

/-! ### tiles -/

/-- entry in the tile -/
def Tile.In (t : Tile) (i j : ℕ) : Prop := (t.i0 ≤ i ∧ i < t.i1) ∧ t.j0 ≤ j ∧ j < t.j1

/-- the tiles cut an `m × n` matrix -/
structure TilesOk {N : ℕ} (tl : Fin N → Tile) (m n : ℕ) : Prop where
  le : ∀ a, (tl a).i0 ≤ (tl a).i1 ∧ (tl a).i1 ≤ m ∧ (tl a).j0 ≤ (tl a).j1 ∧ (tl a).j1 ≤ n
  cover : ∀ i < m, ∀ j < n, ∃ a, Tile.In (tl a) i j
  disj : ∀ a b i j, Tile.In (tl a) i j → Tile.In (tl b) i j → a = b

/-- the window of a tile -/
def Win.tile (w : Win) (t : Tile) : Win := w.sub t.i0 t.j0 (t.i1 - t.i0) (t.j1 - t.j0)

lemma wp_tiles {N m n : ℕ} {tl : Fin N → Tile} {w : Win} (hr : w.r = m) (hc : w.c = n) (hi : w.Inj) (hl : TilesOk tl m n)
    {ts : Fin N → Proc K} {k : Proc K} {Rs : ℕ → Prop} {G : ℕ → ℕ → K}
    (hW : ∀ x, w.Has x → W x ∨ T x) (hR : ∀ x, Rs x → W x ∨ R x ∨ T x) (hRW : ∀ x, Rs x → ¬ w.Has x)
    (ht : ∀ a, TaskOk (ts a) (Win.tile w (tl a)) Rs v (fun i j => G ((tl a).i0 + i) ((tl a).j0 + j)))
    (hk : ∀ v', (∀ i, W i ∨ R i ∨ T i → ¬ w.Has i → v' i = v i) → Vals w G v' → wp k W R T v' Q) :
    wp (.par N ts k) W R T v Q := by
  have hin : ∀ a x, (Win.tile w (tl a)).Has x → ∃ i < m, ∃ j < n, x = w.adr i j ∧ Tile.In (tl a) i j := by
    rintro a x ⟨i, hi, j, hj, rfl⟩
    have := hl.le a
    simp only [Win.tile, Win.sub] at hi hj
    exact ⟨_, by omega, _, by omega, Win.sub_adr .., ⟨by omega, by omega⟩, by omega, by omega⟩
  have hsub : ∀ a x, (Win.tile w (tl a)).Has x → w.Has x := fun a x h => by
    obtain ⟨i, hi, j, hj, rfl, _⟩ := hin a x h
    exact ⟨i, by omega, j, by omega, rfl⟩
  refine wp_spawn (fun a => Win.tile w (tl a)) _ Rs (fun a x h => hW x (hsub a x h)) hR (fun a x h h' => hRW x h (hsub a x h')) ?_ ht ?_
  · intro a b ne x ha hb
    obtain ⟨i, hi', j, hj', e, t⟩ := hin a x ha
    obtain ⟨i2, hi2, j2, hj2, e2, t2⟩ := hin b x hb
    obtain ⟨rfl, rfl⟩ := hi i (by omega) j (by omega) i2 (by omega) j2 (by omega) (e.symm.trans e2)
    exact ne (hl.disj a b i j t t2)
  · intro v' fr vals
    refine hk v' (fun i hi hn => fr i hi (fun a ha => hn (hsub a i ha))) (fun i hi' j hj' => ?_)
    obtain ⟨a, ⟨h1, h2⟩, h3, h4⟩ := hl.cover i (by omega) j (by omega)
    have := vals a (i - (tl a).i0) (by simp only [Win.tile, Win.sub]; omega) (j - (tl a).j0) (by simp only [Win.tile, Win.sub]; omega)
    simp only [Win.tile, Win.sub_adr] at this
    rwa [show (tl a).i0 + (i - (tl a).i0) = i by omega, show (tl a).j0 + (j - (tl a).j0) = j by omega] at this

lemma countP_inj {α : Type} (p : α → Bool) : ∀ (l : List α), l.countP p ≤ 1 → ∀ a b : Fin l.length, p (l.get a) = true → p (l.get b) = true → a = b
  | [], _, a, _, _, _ => a.elim0
  | x :: l, h, a, b, ha, hb => by
    rw [List.countP_cons] at h
    refine Fin.cases ?_ (fun a' => ?_) a (motive := fun a => p ((x :: l).get a) = true → a = b) ha <;> intro ha
    · refine Fin.cases (fun _ => rfl) (fun b' hb => ?_) b (motive := fun b => p ((x :: l).get b) = true → 0 = b) hb
      have hx : p x = true := ha
      have : 0 < l.countP p := List.countP_pos_iff.2 ⟨_, List.get_mem l b', hb⟩
      rw [if_pos hx] at h; omega
    · refine Fin.cases (fun hb => ?_) (fun b' hb => ?_) b (motive := fun b => p ((x :: l).get b) = true → a'.succ = b) hb
      · have hx : p x = true := hb
        have : 0 < l.countP p := List.countP_pos_iff.2 ⟨_, List.get_mem l a', ha⟩
        rw [if_pos hx] at h; omega
      · rw [countP_inj p l (by omega) a' b' ha hb]

/-- ranges of the 1-D splitter: rows -/
lemma ranges_tiles {l : List (ℕ × ℕ)} {n : ℕ} (hc : ExactCover l n) (hlt : ∀ r ∈ l, r.1 < r.2) :
    (∀ c, TilesOk (fun a : Fin l.length => (⟨(l.get a).1, (l.get a).2, 0, c⟩ : Tile)) n c) ∧
    (∀ r, TilesOk (fun a : Fin l.length => (⟨0, r, (l.get a).1, (l.get a).2⟩ : Tile)) r n) ∧ ∀ a, (l.get a).1 < (l.get a).2 ∧ (l.get a).2 ≤ n := by
  have h1 : ∀ a, (l.get a).1 < (l.get a).2 := fun a => hlt _ (List.get_mem l a)
  have h2 : ∀ a, (l.get a).2 ≤ n := by
    intro a
    have := hc ((l.get a).2 - 1)
    have hp : 0 < l.countP (fun r => decide (r.1 ≤ (l.get a).2 - 1 ∧ (l.get a).2 - 1 < r.2)) :=
      List.countP_pos_iff.2 ⟨_, List.get_mem l a, by have := h1 a; simp only [decide_eq_true_eq]; omega⟩
    rw [this] at hp
    have := h1 a
    by_contra hn
    rw [if_neg (by omega)] at hp
    omega
  have h3 : ∀ i < n, ∃ a, (l.get a).1 ≤ i ∧ i < (l.get a).2 := by
    intro i hi
    have := hc i
    rw [if_pos hi] at this
    obtain ⟨r, hr, hp⟩ := List.countP_pos_iff.1 (show 0 < l.countP _ by rw [this]; exact Nat.one_pos)
    obtain ⟨a, rfl⟩ := List.mem_iff_get.1 hr
    exact ⟨a, by simpa using hp⟩
  have h4 : ∀ a b i, ((l.get a).1 ≤ i ∧ i < (l.get a).2) → ((l.get b).1 ≤ i ∧ i < (l.get b).2) → a = b := by
    intro a b i ha hb
    refine countP_inj (fun r => decide (r.1 ≤ i ∧ i < r.2)) l ?_ a b (by simpa using ha) (by simpa using hb)
    rw [hc i]; split <;> omega
  refine ⟨fun c => ⟨fun a => ⟨(h1 a).le, h2 a, Nat.zero_le _, le_rfl⟩, fun i hi j hj => ?_, fun a b i j ha hb => h4 a b i ha.1 hb.1⟩,
    fun r => ⟨fun a => ⟨Nat.zero_le _, le_rfl, (h1 a).le, h2 a⟩, fun i hi j hj => ?_, fun a b i j ha hb => h4 a b j ha.2 hb.2⟩, fun a => ⟨h1 a, h2 a⟩⟩
  · obtain ⟨a, ha⟩ := h3 i hi
    exact ⟨a, ha, Nat.zero_le _, hj⟩
  · obtain ⟨a, ha⟩ := h3 j hj
    exact ⟨a, ⟨Nat.zero_le _, hi⟩, ha⟩

/-- `FORBLOCK1D` over the rows of a window -/
lemma wp_for_rows {p : Param} {n t : ℕ} {body : ℕ → ℕ → ℕ → Proc K} {k : Proc K} {w : Win} {Rs : ℕ → Prop} {G : ℕ → ℕ → K}
    (hg : p = .Grain → t ≠ 0) (hr : w.r = n) (hi : w.Inj)
    (hW : ∀ x, w.Has x → W x ∨ T x) (hR : ∀ x, Rs x → W x ∨ R x ∨ T x) (hRW : ∀ x, Rs x → ¬ w.Has x)
    (ht : ∀ a b e, b < e → e ≤ n → TaskOk (body a b e) (w.sub b 0 (e - b) w.c) Rs v (fun i j => G (b + i) j))
    (hk : ∀ v', (∀ i, W i ∨ R i ∨ T i → ¬ w.Has i → v' i = v i) → Vals w G v' → wp k W R T v' Q) :
    wp (forBlock1D p n t body k) W R T v Q := by
  obtain ⟨s, l, h1, h2, hc, _, hlt⟩ := Props.C01_split1D_exact_cover p n t hg
  obtain ⟨tr, _, bd⟩ := ranges_tiles hc hlt
  simp only [forBlock1D, h1, h2]
  refine wp_tiles hr rfl hi (tr w.c) hW hR hRW (fun a => ?_) hk
  rw [if_neg (by have := bd a; omega)]
  have := ht a (l.get a).1 (l.get a).2 (bd a).1 (bd a).2
  simpa only [Win.tile, Nat.sub_zero, Nat.zero_add] using this

/-- `FORBLOCK1D` over the columns of a window -/
lemma wp_for_cols {p : Param} {n t : ℕ} {body : ℕ → ℕ → ℕ → Proc K} {k : Proc K} {w : Win} {Rs : ℕ → Prop} {G : ℕ → ℕ → K}
    (hg : p = .Grain → t ≠ 0) (hc : w.c = n) (hi : w.Inj)
    (hW : ∀ x, w.Has x → W x ∨ T x) (hR : ∀ x, Rs x → W x ∨ R x ∨ T x) (hRW : ∀ x, Rs x → ¬ w.Has x)
    (ht : ∀ a b e, b < e → e ≤ n → TaskOk (body a b e) (w.sub 0 b w.r (e - b)) Rs v (fun i j => G i (b + j)))
    (hk : ∀ v', (∀ i, W i ∨ R i ∨ T i → ¬ w.Has i → v' i = v i) → Vals w G v' → wp k W R T v' Q) :
    wp (forBlock1D p n t body k) W R T v Q := by
  obtain ⟨s, l, h1, h2, hcv, _, hlt⟩ := Props.C01_split1D_exact_cover p n t hg
  obtain ⟨_, tc, bd⟩ := ranges_tiles hcv hlt
  simp only [forBlock1D, h1, h2]
  refine wp_tiles rfl hc hi (tc w.r) hW hR hRW (fun a => ?_) hk
  rw [if_neg (by have := bd a; omega)]
  have := ht a (l.get a).1 (l.get a).2 (bd a).1 (bd a).2
  simpa only [Win.tile, Nat.sub_zero, Nat.zero_add] using this

/-- `FORBLOCK2D`: the tiles cut the part of the matrix given by `bnd` -/
lemma wp_for_bnd {c : Cut} {p : Param} {m n t tr tc : ℕ} {body : Tile → Proc K} {k : Proc K} {w : Win} {Rs : ℕ → Prop} {G : ℕ → ℕ → K}
    (hb : blockSizes c p m n t = .ok (tr, tc)) (g1 : 1 ≤ tr) (g2 : 1 ≤ tc)
    (hr : w.r = bnd tr (m % tr) (m / tr)) (hc : w.c = bnd tc (n % tc) (n / tc)) (hi : w.Inj)
    (hW : ∀ x, w.Has x → W x ∨ T x) (hR : ∀ x, Rs x → W x ∨ R x ∨ T x) (hRW : ∀ x, Rs x → ¬ w.Has x)
    (ht : ∀ b : Tile, b.i0 ≤ b.i1 → b.i1 ≤ w.r → b.j0 ≤ b.j1 → b.j1 ≤ w.c →
      TaskOk (body b) (Win.tile w b) Rs v (fun i j => G (b.i0 + i) (b.j0 + j)))
    (hk : ∀ v', (∀ i, W i ∨ R i ∨ T i → ¬ w.Has i → v' i = v i) → Vals w G v' → wp k W R T v' Q) :
    wp (forBlock2D c p m n t body k) W R T v Q := by
  obtain ⟨s, l, h1, h2, hcv, hbd⟩ := FS2D.main_bounds c p m n t _ _ hb g1 g2
  rw [← hr, ← hc] at hbd
  simp only [← hr, ← hc] at hcv
  simp only [forBlock2D, h1, h2]
  have hbd' : ∀ a : Fin l.length, _ := fun a => hbd _ (List.get_mem l a)
  refine wp_tiles rfl rfl hi (tl := l.get) ⟨hbd', fun i hi j hj => ?_, fun a b i j ha hb => ?_⟩ hW hR hRW (fun a => ?_) hk
  · have := hcv i j
    rw [if_pos ⟨hi, hj⟩] at this
    obtain ⟨r, hr, hp⟩ := List.countP_pos_iff.1 (show 0 < l.countP _ by rw [this]; exact Nat.one_pos)
    obtain ⟨a, rfl⟩ := List.mem_iff_get.1 hr
    exact ⟨a, by simpa [Tile.In, and_assoc] using hp⟩
  · refine countP_inj (fun t => decide ((t.i0 ≤ i ∧ i < t.i1) ∧ (t.j0 ≤ j ∧ j < t.j1))) l ?_ a b (by simpa [Tile.In, and_assoc] using ha)
      (by simpa [Tile.In, and_assoc] using hb)
    rw [hcv i j]; split <;> omega
  · have h := hbd' a
    rw [if_neg (by omega)]
    exact ht _ h.1 h.2.1 h.2.2.1 h.2.2.2

/-- `FORBLOCK2D` with `Threads` over the tiles of a window -/
lemma wp_for_tiles {c : Cut} {m n t : ℕ} {body : Tile → Proc K} {k : Proc K} {w : Win} {Rs : ℕ → Prop} {G : ℕ → ℕ → K}
    (hg : 1 ≤ t) (hr : w.r = m) (hc : w.c = n) (hi : w.Inj)
    (hW : ∀ x, w.Has x → W x ∨ T x) (hR : ∀ x, Rs x → W x ∨ R x ∨ T x) (hRW : ∀ x, Rs x → ¬ w.Has x)
    (ht : ∀ b : Tile, b.i0 ≤ b.i1 → b.i1 ≤ m → b.j0 ≤ b.j1 → b.j1 ≤ n →
      TaskOk (body b) (Win.tile w b) Rs v (fun i j => G (b.i0 + i) (b.j0 + j)))
    (hk : ∀ v', (∀ i, W i ∨ R i ∨ T i → ¬ w.Has i → v' i = v i) → Vals w G v' → wp k W R T v' Q) :
    wp (forBlock2D c .Threads m n t body k) W R T v Q := by
  obtain ⟨tr, tc, g1, g2, hb, _⟩ := blockSizes_threads c m n t hg
  refine wp_for_bnd hb (by omega) (by omega) (hr.trans (bnd_full (change_le m tr g1)).symm) (hc.trans (bnd_full (change_le n tc g2)).symm) hi hW hR hRW ?_ hk
  rw [hr, hc]; exact ht

/-! ### all executions -/

lemma steps_ok {p : Proc K} {m : Mem K} {W R : ℕ → Prop} {Q : (ℕ → K) → Prop} (ho : ∀ i, W i ∨ R i → m.ok i = true)
    (hw : wp p W R (fun _ => False) m.val Q) {p' : Proc K} {m' : Mem K} (hs : Steps (p, m) (p', m')) : ∀ i, W i → m'.ok i = true := by
  obtain ⟨T, o, w⟩ := wp_steps hs (T := fun _ => False) ⟨fun i hi => ho i (by simpa using hi), fun _ h => h.elim⟩ hw
  exact fun i hi => o.ok i (Or.inl hi)

theorem everyRun {p : Proc K} {m : Mem K} {w : Win} {Rs : ℕ → Prop} {g : ℕ → ℕ → K} (hwf : WF m) (hw : OkIn m w) (hR : ∀ x, Rs x → m.ok x = true)
    (h : TaskOk p w Rs m.val g) : EveryRun p m w g := by
  have ho : ∀ i, w.Has i ∨ Rs i → m.ok i = true := fun i hi => hi.elim (hw i) (hR i)
  have hB : Bounded m := ⟨m.next, hwf⟩
  refine ⟨fun p' m' s => (wp_sound ho hB h s).1, fun p' m' s => wp_noRace ho h s, fun p' m' s => (wp_sound ho hB h s).2.1, ?_, fun m' s => ?_, ?_⟩
  · intro f h0
    by_contra hc
    push Not at hc
    have key : ∀ q : Proc K, ∀ n, (f n).1 = q → False := by
      intro q
      induction q using next_wf.induction with
      | _ q ih => intro n e; exact ih (f (n + 1)).1 ⟨_, _, e ▸ hc n⟩ (n + 1) rfl
    exact key _ 0 rfl
  · have := wp_sound ho hB h s
    refine ⟨this.2.2.1 rfl, fun a ha => ⟨?_, fun hn => (this.2.2.2 a ha hn).1⟩⟩
    by_cases hh : w.Has a
    · exact steps_ok ho h s a hh
    · exact (this.2.2.2 a ha hh).2
  · obtain ⟨ms, e, s, _⟩ := seq_exec p (T := fun _ => False) ⟨fun i hi => ho i (by simpa using hi), fun _ h => h.elim⟩ hwf h
    refine ⟨ms, e, fun m' s' a ha => ?_⟩
    have h1 := wp_sound ho hB h s
    have h2 := wp_sound ho hB h s'
    by_cases hh : w.Has a
    · obtain ⟨i, hi, j, hj, rfl⟩ := hh
      rw [h2.2.2.1 rfl i hi j hj, h1.2.2.1 rfl i hi j hj]
    · rw [(h2.2.2.2 a ha hh).1, (h1.2.2.2 a ha hh).1]

end Verif.Par
