import Verif.Model.ParSparse
import Verif.Proofs.ParElem

/-!
# Proofs for the parallel sparse products
-/

namespace Verif.Par
open Verif.FF Verif.BlockCuts Verif.Sparse Finset

variable {K : Type} [Field K] [DecidableEq K] {kd : PKind} {col : Arr ℕ} {x ldx bs yr j k : ℕ} {m m' : Mem K}

/-- the coefficient of entry `j` -/
def PKind.coef (kd : PKind) (v : ℕ → K) (j : ℕ) : K :=
  match kd with
  | .val d => v (d + j)
  | .one => 1
  | .mone => -1

/-- the cell of the coefficient -/
def PKind.cell (kd : PKind) (j : ℕ) (a : ℕ) : Prop :=
  match kd with
  | .val d => a = d + j
  | _ => False

/-- `m'` is `m` with the cells `yr .. yr + bs` set to `g` -/
structure RowSt (m m' : Mem K) (yr bs : ℕ) (g : ℕ → K) : Prop where
  ok : m'.ok = m.ok
  next : m.next ≤ m'.next
  val : ∀ k < bs, m'.val (yr + k) = g k
  frame : ∀ a, (∀ k < bs, a ≠ yr + k) → m'.val a = m.val a

lemma RowSt.congr {g g' : ℕ → K} (h : RowSt m m' yr bs g) (hg : ∀ k < bs, g k = g' k) : RowSt m m' yr bs g' :=
  ⟨h.ok, h.next, fun k hk => (h.val k hk).trans (hg k hk), h.frame⟩

lemma RowSt.set {g : ℕ → K} (h : RowSt m m' yr bs g) (hk : k < bs) (r : K) :
    RowSt m (m'.set (yr + k) r) yr bs (Function.update g k r) := by
  refine ⟨by rw [Mem.set_ok, h.ok], by rw [Mem.set_next]; exact h.next, fun l hl => ?_, fun a ha => ?_⟩
  · rw [Mem.set_val]
    by_cases e : l = k
    · subst e; simp
    · rw [Function.update_of_ne (by omega), Function.update_of_ne e]; exact h.val l hl
  · rw [Mem.set_val, Function.update_of_ne (ha k hk)]; exact h.frame a ha

lemma upd_run {v : ℕ → K} {yv xv : K} (hc : ∀ a, kd.cell j a → m.ok a = true ∧ m.val a = v a) :
    Run (kd.upd j yv xv) m (fun r m' => m' = m ∧ r = yv + kd.coef v j * xv) := by
  cases kd with
  | val d =>
    obtain ⟨h1, h2⟩ := hc (d + j) rfl
    simp [PKind.upd, PKind.coef, h1, h2]
  | one => simp [PKind.upd, PKind.coef]
  | mone => simp [PKind.upd, PKind.coef, sub_eq_add_neg]

/-- what an entry needs: its column, its value and its row of `x` are there, apart from the row of `y` -/
structure EntOk (m : Mem K) (kd : PKind) (col : Arr ℕ) (x ldx bs yr j : ℕ) : Prop where
  hcol : j < col.len
  hx : ∀ k < bs, m.ok (x + col.get j * ldx + k) = true ∧ ∀ l < bs, x + col.get j * ldx + k ≠ yr + l
  hdat : ∀ a, kd.cell j a → m.ok a = true ∧ ∀ l < bs, a ≠ yr + l

lemma mmCell_run {g : ℕ → K} (he : EntOk m kd col x ldx bs yr j) (hy : ∀ k < bs, m.ok (yr + k) = true)
    (h : RowSt m m' yr bs g) (hk : k < bs) :
    Run (mmCell kd col x ldx yr j k) m' (fun _ m'' => RowSt m m'' yr bs
      (Function.update g k (g k + kd.coef m.val j * m.val (x + col.get j * ldx + k)))) := by
  have hx := he.hx k hk
  simp only [mmCell, Run_bind, Run_liftE, Ok_rd]
  refine ⟨he.hcol, ?_⟩
  rw [Run_load]
  refine ⟨by rw [h.ok]; exact hx.1, ?_⟩
  rw [Run_load]
  refine ⟨by rw [h.ok]; exact hy k hk, ?_⟩
  refine (upd_run (v := m.val) (fun a ha => ⟨by rw [h.ok]; exact (he.hdat a ha).1, h.frame a (he.hdat a ha).2⟩)).mono ?_
  rintro r _ ⟨rfl, rfl⟩
  rw [Run_store]
  refine ⟨by rw [h.ok]; exact hy k hk, ?_⟩
  rw [h.val k hk, h.frame _ hx.2]
  exact h.set hk _

lemma mmEntry_run {g : ℕ → K} (he : EntOk m kd col x ldx bs yr j) (hy : ∀ k < bs, m.ok (yr + k) = true)
    (h : RowSt m m' yr bs g) :
    Run (mmEntry kd col x ldx bs yr j) m' (fun _ m'' => RowSt m m'' yr bs
      (fun k => g k + kd.coef m.val j * m.val (x + col.get j * ldx + k))) := by
  set s : ℕ → K := fun k => g k + kd.coef m.val j * m.val (x + col.get j * ldx + k) with hs
  let G : ℕ → ℕ → K := fun q k => if k < q then s k else g k
  have step : ∀ q, ∀ m1 : Mem K, q < bs → RowSt m m1 yr bs (G q) →
      Run (mmCell kd col x ldx yr j q) m1 (fun _ m'' => RowSt m m'' yr bs (G (q + 1))) := by
    intro q m1 hq h1
    refine (mmCell_run he hy h1 hq).mono (fun _ _ h2 => h2.congr (fun k _ => ?_))
    by_cases e : k = q
    · subst e; simp [G, hs]
    · rw [Function.update_of_ne e]
      simp only [G]
      by_cases e2 : k < q
      · rw [if_pos e2, if_pos (by omega)]
      · rw [if_neg e2, if_neg (by omega)]
  unfold mmEntry
  rw [Run_bind]
  refine (Run_loop (fun q m1 => RowSt m m1 yr bs (G (4 * q))) (h.congr (fun k _ => by simp [G])) ?_).mono ?_
  · intro q m1 hq h1
    rw [Run_bind]
    refine (step _ m1 (by omega) h1).mono (fun _ m2 h2 => ?_)
    rw [Run_bind]
    refine (step _ m2 (by omega) h2).mono (fun _ m3 h3 => ?_)
    rw [Run_bind]
    refine (step _ m3 (by omega) h3).mono (fun _ m4 h4 => ?_)
    exact (step _ m4 (by omega) h4)
  · intro _ m1 h1
    refine (Run_loop (fun e m1 => RowSt m m1 yr bs (G (4 * (bs / 4) + e))) h1 ?_).mono ?_
    · intro e m2 he2 h2
      exact step _ m2 (by omega) h2
    · intro _ m2 h2
      refine h2.congr (fun k hk => ?_)
      simp only [G]
      rw [if_pos (by omega)]

/-- the row sum -/
def rowSum (v : ℕ → K) (kd : PKind) (col : Arr ℕ) (x ldx lo n k : ℕ) : K :=
  ∑ t ∈ range n, kd.coef v (lo + t) * v (x + col.get (lo + t) * ldx + k)

lemma mmRow_run {bounds : ℕ → Except Fault (ℕ × ℕ)} {y ldy i lo n : ℕ} (hb : bounds i = .ok (lo, n))
    (he : ∀ t < n, EntOk m kd col x ldx bs (y + i * ldy) (lo + t)) (hy : ∀ k < bs, m.ok (y + i * ldy + k) = true) :
    Run (mmRow kd bounds col x ldx bs y ldy i) m (fun _ m' => RowSt m m' (y + i * ldy) bs
      (fun k => m.val (y + i * ldy + k) + rowSum m.val kd col x ldx lo n k)) := by
  simp only [mmRow, Run_bind, Run_liftE, hb, Ok_ok]
  refine (Run_loop (fun T m1 => RowSt m m1 (y + i * ldy) bs (fun k => m.val (y + i * ldy + k) + rowSum m.val kd col x ldx lo T k)) ?_ ?_)
  · exact ⟨rfl, le_rfl, fun k _ => by simp [rowSum], fun _ _ => rfl⟩
  · intro t m1 ht h1
    refine (mmEntry_run (he t ht) hy h1).mono (fun _ _ h2 => h2.congr (fun k _ => ?_))
    simp only [rowSum]
    rw [sum_range_succ]; ring

/-! ### one row of the product with a vector -/

/-- the coefficient used for the accumulators -/
def PKind.acoef (kd : PKind) (v : ℕ → K) (j : ℕ) : K :=
  match kd with
  | .val d => v (d + j)
  | _ => 1

/-- the sign with which the accumulators are added -/
def PKind.sg (kd : PKind) : K :=
  match kd with
  | .mone => -1
  | _ => 1

omit [DecidableEq K] in
lemma coef_eq (v : ℕ → K) (j : ℕ) : kd.coef v j = kd.sg * kd.acoef v j := by cases kd <;> simp [PKind.coef, PKind.sg, PKind.acoef]

lemma mvStep_run {acc : K} (he : EntOk m kd col x 1 1 yr j) :
    Run (mvStep kd col x j acc) m (fun r m' => m' = m ∧ r = acc + kd.acoef m.val j * m.val (x + col.get j)) := by
  have hx := (he.hx 0 (by omega)).1
  simp only [mul_one, add_zero] at hx
  simp only [mvStep, Run_bind, Run_liftE, Ok_rd]
  refine ⟨he.hcol, ?_⟩
  rw [Run_load]
  refine ⟨hx, ?_⟩
  cases kd with
  | val d =>
    have := (he.hdat (d + j) rfl).1
    simp [PKind.acoef, this]
  | one => simp [PKind.acoef]
  | mone => simp [PKind.acoef]

lemma mvOut_run {g : ℕ → K} {a : K} (hy : m.ok yr = true) (h : RowSt m m' yr 1 g) :
    Run (mvOut kd yr a) m' (fun _ m'' => RowSt m m'' yr 1 (fun _ => g 0 + kd.sg * a)) := by
  have hv : m'.val yr = g 0 := h.val 0 (by omega)
  have ho : m'.ok yr = true := by rw [h.ok]; exact hy
  have key : ∀ r, RowSt m (m'.set yr r) yr 1 (fun _ => r) := fun r =>
    (h.set (k := 0) (by omega) r).congr (fun k hk => by obtain rfl : k = 0 := (by omega); simp)
  unfold mvOut
  rw [Run_bind, Run_load]
  refine ⟨ho, ?_⟩
  rw [hv]
  cases kd <;> (dsimp only; rw [Run_store]; refine ⟨ho, (key _).congr (fun _ _ => ?_)⟩; simp [PKind.sg, sub_eq_add_neg])

lemma mvRow_run {bounds : ℕ → Except Fault (ℕ × ℕ)} {y i lo n : ℕ} (hb : bounds i = .ok (lo, n))
    (he : ∀ t < n, EntOk m kd col x 1 1 (y + i) (lo + t)) (hy : m.ok (y + i) = true) :
    Run (mvRow kd bounds col x y i) m (fun _ m' => RowSt m m' (y + i) 1
      (fun _ => m.val (y + i) + rowSum m.val kd col x 1 lo n 0)) := by
  let w : ℕ → K := fun t => kd.acoef m.val (lo + t) * m.val (x + col.get (lo + t))
  have step : ∀ (t : ℕ) (acc : K), t < n → Run (mvStep kd col x (lo + t) acc) m (fun r m' => m' = m ∧ r = acc + w t) :=
    fun t acc ht => mvStep_run (he t ht)
  have hsum : rowSum m.val kd col x 1 lo n 0 = kd.sg * ∑ t ∈ range n, w t := by
    simp only [rowSum, coef_eq, mul_one, add_zero, w, mul_sum, mul_assoc]
  rw [hsum]
  simp only [mvRow, Run_bind, Run_liftE, hb, Ok_ok]
  refine (Run_iter (fun q (s : K × K × K × K) m1 => m1 = m ∧ s.1 + s.2.1 + s.2.2.1 + s.2.2.2 = ∑ t ∈ range (4 * q), w t) ⟨rfl, by simp⟩ ?_).mono ?_
  · rintro q ⟨s1, s2, s3, s4⟩ m1 hq ⟨e1, hs⟩
    rw [e1]
    simp only [Run_bind]
    refine (step (4 * q) _ (by omega)).mono ?_
    rintro a1 m1 ⟨e1, rfl⟩
    rw [e1]
    refine (step (4 * q + 1) _ (by omega)).mono ?_
    rintro a2 m1 ⟨e1, rfl⟩
    rw [e1]
    refine (step (4 * q + 2) _ (by omega)).mono ?_
    rintro a3 m1 ⟨e1, rfl⟩
    rw [e1]
    refine (step (4 * q + 3) _ (by omega)).mono ?_
    rintro a4 m1 ⟨e1, rfl⟩
    rw [e1]
    rw [Run_pure]
    refine ⟨rfl, ?_⟩
    have e : 4 * (q + 1) = 4 * q + 1 + 1 + 1 + 1 := by ring
    rw [e, sum_range_succ, sum_range_succ, sum_range_succ, sum_range_succ, ← hs]
    ring
  · rintro ⟨s1, s2, s3, s4⟩ m1 ⟨e1, hs⟩
    rw [e1]
    refine (Run_iter (fun e (a : K) m1 => m1 = m ∧ a + s2 + s3 + s4 = ∑ t ∈ range (4 * (n / 4) + e), w t) ⟨rfl, by simpa using hs⟩ ?_).mono ?_
    · rintro e a m1 he2 ⟨e1, ha⟩
      rw [e1]
      refine (step (4 * (n / 4) + e) _ (by omega)).mono ?_
      rintro _ m1 ⟨e1, rfl⟩
      refine ⟨e1, ?_⟩
      rw [← add_assoc, sum_range_succ, ← ha]; ring
    · rintro a1 m1 ⟨e1, ha⟩
      rw [e1]
      rw [Nat.div_add_mod] at ha
      have h0 : RowSt m m (y + i) 1 (fun _ => m.val (y + i)) := ⟨rfl, le_rfl, fun k hk => by obtain rfl : k = 0 := (by omega); simp, fun _ _ => rfl⟩
      refine (mvOut_run hy h0).mono (fun _ m2 h2 => ?_)
      refine (mvOut_run hy h2).mono (fun _ m3 h3 => ?_)
      refine (mvOut_run hy h3).mono (fun _ m4 h4 => ?_)
      refine (mvOut_run hy h4).mono (fun _ m5 h5 => h5.congr (fun _ _ => ?_))
      rw [← ha]; ring

/-! ### the tasks -/

/-- the row bounds `lo i`, `cnt i`, the columns and the cells of the values (in `Rs`) are right -/
structure SpOk (kd : PKind) (M N : ℕ) (bounds : ℕ → Except Fault (ℕ × ℕ)) (col : Arr ℕ) (Rs : ℕ → Prop) (lo cnt : ℕ → ℕ) : Prop where
  bnd : ∀ i < M, bounds i = .ok (lo i, cnt i)
  len : ∀ i < M, ∀ t < cnt i, lo i + t < col.len ∧ col.get (lo i + t) < N
  cells : ∀ i < M, ∀ t < cnt i, ∀ a, kd.cell (lo i + t) a → Rs a

lemma RowSt.step {g : ℕ → K} (h : RowSt m m' yr bs g) : Step m m' ⟨yr, 1, bs, 1⟩ (fun j _ => g j) := by
  refine ⟨h.ok, h.next, fun i hi j hj => ?_, fun a _ hn => h.frame a (fun k hk e => hn ⟨k, hk, 0, Nat.one_pos, by simp [Win.adr, e]⟩)⟩
  obtain rfl : j = 0 := by simpa using hj
  simpa [Win.adr] using h.val i hi

section
variable {M N y ldy : ℕ} {bounds : ℕ → Except Fault (ℕ × ℕ)} {lo cnt : ℕ → ℕ} {Rs : ℕ → Prop} {v : ℕ → K}

lemma rowSum_congr {v' : ℕ → K} (hs : SpOk kd M N bounds col Rs lo cnt) (hX : ∀ a, (Win.mk x ldx N bs).Has a → Rs a)
    (h : ∀ a, Rs a → v' a = v a) {i : ℕ} (hi : i < M) (hk : k < bs) :
    rowSum v' kd col x ldx (lo i) (cnt i) k = rowSum v kd col x ldx (lo i) (cnt i) k := by
  refine sum_congr rfl (fun t ht => ?_)
  have ht := mem_range.1 ht
  rw [h (x + col.get (lo i + t) * ldx + k) (hX _ ⟨_, (hs.len i hi t ht).2, k, hk, rfl⟩)]
  congr 1
  have hc := hs.cells i hi t ht
  cases kd with
  | val d => exact h _ (hc _ rfl)
  | one => rfl
  | mone => rfl

lemma SpOk.ent (hs : SpOk kd M N bounds col Rs lo cnt) (hX : ∀ a, (Win.mk x ldx N bs).Has a → Rs a)
    (hd : ∀ a, Rs a → ¬ (Win.mk y ldy M bs).Has a) (hR : ∀ a, Rs a → m.ok a = true) {i t : ℕ} (hi : i < M) (ht : t < cnt i) :
    EntOk m kd col x ldx bs (y + i * ldy) (lo i + t) := by
  refine ⟨(hs.len i hi t ht).1, fun k hk => ?_, fun a ha => ?_⟩
  · have h := hX _ ⟨_, (hs.len i hi t ht).2, k, hk, rfl⟩
    simp only [Win.adr] at h
    exact ⟨hR _ h, fun l hl e => hd _ h ⟨i, hi, l, hl, by simp only [Win.adr]; exact e⟩⟩
  · have h := hs.cells i hi t ht a ha
    exact ⟨hR _ h, fun l hl e => hd _ h ⟨i, hi, l, hl, by simp only [Win.adr]; exact e⟩⟩

lemma wrIn_mmCell {S : ℕ → Prop} (h : S (yr + k)) : Small.wrIn (mmCell kd col x ldx yr j k : Prog K Unit) S := by
  refine wrIn_bind wrIn_liftE fun _ => wrIn_bind wrIn_load fun _ => wrIn_bind wrIn_load fun _ => wrIn_bind ?_ fun _ => wrIn_store h
  cases kd
  · exact wrIn_bind wrIn_load fun _ => wrIn_pure
  · exact wrIn_pure
  · exact wrIn_pure

lemma wrIn_mmEntry {S : ℕ → Prop} (h : ∀ k < bs, S (yr + k)) : Small.wrIn (mmEntry kd col x ldx bs yr j : Prog K Unit) S :=
  wrIn_bind (wrIn_loop fun q hq => wrIn_bind (wrIn_mmCell (h _ (by omega))) fun _ => wrIn_bind (wrIn_mmCell (h _ (by omega))) fun _ =>
    wrIn_bind (wrIn_mmCell (h _ (by omega))) fun _ => wrIn_mmCell (h _ (by omega))) fun _ => wrIn_loop fun e he => wrIn_mmCell (h _ (by omega))

lemma wrIn_mmRow {S : ℕ → Prop} {i : ℕ} (h : ∀ k < bs, S (y + i * ldy + k)) : Small.wrIn (mmRow kd bounds col x ldx bs y ldy i : Prog K Unit) S :=
  wrIn_bind wrIn_liftE fun _ => wrIn_loop fun _ _ => wrIn_mmEntry h

lemma wrIn_mvStep {S : ℕ → Prop} {acc : K} : Small.wrIn (mvStep kd col x j acc) S := by
  cases kd
  · exact wrIn_bind wrIn_liftE fun _ => wrIn_bind wrIn_load fun _ => wrIn_bind wrIn_load fun _ => wrIn_pure
  · exact wrIn_bind wrIn_liftE fun _ => wrIn_bind wrIn_load fun _ => wrIn_pure
  · exact wrIn_bind wrIn_liftE fun _ => wrIn_bind wrIn_load fun _ => wrIn_pure

lemma wrIn_mvOut {S : ℕ → Prop} {a : K} (h : S yr) : Small.wrIn (mvOut kd yr a) S := by
  cases kd
  · exact wrIn_bind wrIn_load fun _ => wrIn_store h
  · exact wrIn_bind wrIn_load fun _ => wrIn_store h
  · exact wrIn_bind wrIn_load fun _ => wrIn_store h

lemma wrIn_iter {S : ℕ → Prop} {σ : Type} {n : ℕ} {f : ℕ → σ → Prog K σ} {s : σ} [hf : ∀ i s, Small (f i s)]
    (h : ∀ i < n, ∀ t, Small.wrIn (f i t) S) : Small.wrIn (iter n f s) S := h

lemma wrIn_mvRow {S : ℕ → Prop} {i : ℕ} (h : S (y + i)) : Small.wrIn (mvRow kd bounds col x y i : Prog K Unit) S :=
  wrIn_bind wrIn_liftE fun _ => wrIn_bind (wrIn_iter fun _ _ _ => wrIn_bind wrIn_mvStep fun _ => wrIn_bind wrIn_mvStep fun _ =>
    wrIn_bind wrIn_mvStep fun _ => wrIn_bind wrIn_mvStep fun _ => wrIn_pure) fun _ => wrIn_bind (wrIn_iter fun _ _ _ => wrIn_mvStep) fun _ =>
    wrIn_bind (wrIn_mvOut h) fun _ => wrIn_bind (wrIn_mvOut h) fun _ => wrIn_bind (wrIn_mvOut h) fun _ => wrIn_mvOut h

/-- a row as seen by a task: rows of a window -/
lemma rows_task {row : ℕ → Prog K Unit} {G : ℕ → ℕ → K} {b n : ℕ} {w : Win} (hi : w.Inj) (hok : OkIn m w) (hn : n = w.r)
    (hR : ∀ a, Rs a → m.ok a = true) (hd : ∀ a, Rs a → ¬ w.Has a)
    (hrow : ∀ i < w.r, ∀ m' : Mem K, m'.ok = m.ok → (∀ a, Rs a → m'.val a = m.val a) → (∀ k < w.c, m'.val (w.adr i k) = m.val (w.adr i k)) →
      Run (row (b + i)) m' (fun _ m'' => RowSt m' m'' (w.p + i * w.ld) w.c (G (b + i)))) :
    Run (loop n fun i => row (b + i)) m (fun _ m' => Step m m' w (fun i j => G (b + i) j)) := by
  subst hn
  refine Run_rows _ hok hi (fun i hi' m' h1 h2 h3 => ?_)
  refine (hrow i hi' m' h1 (fun a ha => h3 a (hR a ha) (fun i' hi2 _ j hj e => hd a ha ⟨i', hi2, j, hj, e⟩)) (fun k hk => ?_)).mono (fun _ _ s => s.step)
  exact h3 _ (hok.adr hi' hk) (fun i' hi2 hne j hj e => hne (hi i hi' k hk i' hi2 j hj e).1.symm)

/-- the products as tasks -/
theorem mmTasks_wp {W R T : ℕ → Prop} {Q : (ℕ → K) → Prop} {kp : Proc K} {t : ℕ} (hs : SpOk kd M N bounds col Rs lo cnt) (hX : ∀ a, (Win.mk x ldx N bs).Has a → Rs a)
    (hd : ∀ a, Rs a → ¬ (Win.mk y ldy M bs).Has a) (hl : bs ≤ ldy) (hf : FinS Rs)
    (hW : ∀ a, (Win.mk y ldy M bs).Has a → W a ∨ T a) (hR : ∀ a, Rs a → W a ∨ R a ∨ T a)
    (hk : ∀ v', (∀ i, W i ∨ R i ∨ T i → ¬ (Win.mk y ldy M bs).Has i → v' i = v i) →
      Vals ⟨y, ldy, M, bs⟩ (fun i k => v (y + i * ldy + k) + rowSum v kd col x ldx (lo i) (cnt i) k) v' → wp kp W R T v' Q) :
    wp (mmTasks kd M bounds col x ldx bs y ldy t kp) W R T v Q := by
  refine wp_for_rows (w := ⟨y, ldy, M, bs⟩) (by simp) rfl (Win.Inj_of_le (Or.inl hl)) hW hR hd ?_ hk
  intro a b e hbe hen
  refine task_call hf (wrIn_loop fun i hi => wrIn_mmRow fun k hk => Or.inl ⟨i, hi, k, hk, by simp only [Win.sub, Win.adr]; ring⟩) ?_
  intro m hm ho hRm hv
  have hsub : ∀ c, (Win.sub ⟨y, ldy, M, bs⟩ b 0 (e - b) bs).Has c → (Win.mk y ldy M bs).Has c := fun c hc =>
    Win.sub_Has (W := ⟨y, ldy, M, bs⟩) (i := b) (j := 0) (by simp only []; omega) (by simp) hc
  refine rows_task (G := fun i k => v (y + i * ldy + k) + rowSum v kd col x ldx (lo i) (cnt i) k) (Win.Inj_of_le (Or.inl hl)) ho rfl hRm
    (fun c hc h => hd c hc (hsub c h)) ?_
  intro i hi m' h1 h2 h3
  have hi : i < e - b := hi
  have hr := mmRow_run (m := m') (kd := kd) (col := col) (x := x) (ldx := ldx) (bs := bs) (y := y) (ldy := ldy) (hs.bnd (b + i) (by omega))
    (fun t ht => hs.ent hX hd (fun a ha => by rw [h1]; exact hRm a ha) (by omega) ht)
    (fun k hk => by rw [h1]; exact ho _ ⟨i, hi, k, hk, by simp only [Win.sub, Win.adr]; ring⟩)
  have ep : (Win.sub ⟨y, ldy, M, bs⟩ b 0 (e - b) bs).p + i * (Win.sub ⟨y, ldy, M, bs⟩ b 0 (e - b) bs).ld = y + (b + i) * ldy := by
    simp only [Win.sub, Win.adr]; ring
  rw [ep]
  refine hr.mono (fun _ _ s => s.congr (fun k hk => ?_))
  have h4 := h3 k hk
  have ea : (Win.sub ⟨y, ldy, M, bs⟩ b 0 (e - b) bs).adr i k = y + (b + i) * ldy + k := by simp only [Win.sub, Win.adr]; ring
  rw [ea] at h4
  rw [h4, rowSum_congr hs hX h2 (by omega) hk, hv]

theorem mvZO_ok {neg : Bool} {t : ℕ} (hs : SpOk (if neg then .mone else .one) M N bounds col Rs lo cnt) (hX : ∀ a, (Win.mk x 1 N 1).Has a → Rs a)
    (hd : ∀ a, Rs a → ¬ (Win.mk y 1 M 1).Has a) (hf : FinS Rs) :
    TaskOk (pfspmvZO neg M bounds col x y t .ret) ⟨y, 1, M, 1⟩ Rs v
      (fun i _ => v (y + i) + rowSum v (if neg then .mone else .one) col x 1 (lo i) (cnt i) 0) := by
  refine wp_for_rows (w := ⟨y, 1, M, 1⟩) (by simp) rfl (Win.Inj_of_le (Or.inl le_rfl)) (fun _ h => Or.inl h) (fun _ h => Or.inr (Or.inl h)) hd ?_ (fun _ _ h => h)
  intro a b e hbe hen
  refine task_call hf (wrIn_loop fun i hi => wrIn_mvRow (Or.inl ⟨i, hi, 0, Nat.one_pos, by simp only [Win.sub, Win.adr]; ring⟩)) ?_
  intro m hm ho hRm hv
  have hsub : ∀ c, (Win.sub ⟨y, 1, M, 1⟩ b 0 (e - b) 1).Has c → (Win.mk y 1 M 1).Has c := fun c hc =>
    Win.sub_Has (W := ⟨y, 1, M, 1⟩) (i := b) (j := 0) (by simp only []; omega) (by simp) hc
  refine rows_task (G := fun i _ => v (y + i) + rowSum v (if neg then .mone else .one) col x 1 (lo i) (cnt i) 0) (Win.Inj_of_le (Or.inl le_rfl)) ho rfl hRm
    (fun c hc h => hd c hc (hsub c h)) ?_
  intro i hi m' h1 h2 h3
  have hi : i < e - b := hi
  have hr := mvRow_run (m := m') (kd := (if neg then .mone else .one)) (col := col) (x := x) (y := y) (hs.bnd (b + i) (by omega))
    (fun t ht => by
      have := hs.ent (y := y) (ldy := 1) (m := m') hX hd (fun a ha => by rw [h1]; exact hRm a ha) (i := b + i) (by omega) ht
      rwa [mul_one] at this)
    (by rw [h1]; exact ho _ ⟨i, hi, 0, Nat.one_pos, by simp only [Win.sub, Win.adr]; ring⟩)
  have ep : (Win.sub ⟨y, 1, M, 1⟩ b 0 (e - b) 1).p + i * (Win.sub ⟨y, 1, M, 1⟩ b 0 (e - b) 1).ld = y + (b + i) := by
    simp only [Win.sub, Win.adr]; ring
  rw [ep]
  refine hr.mono (fun _ _ s => s.congr (fun k hk => ?_))
  have h4 := h3 0 Nat.one_pos
  have ea : (Win.sub ⟨y, 1, M, 1⟩ b 0 (e - b) 1).adr i 0 = y + (b + i) := by simp only [Win.sub, Win.adr]; ring
  rw [ea] at h4
  rw [h4, rowSum_congr hs hX h2 (by omega) Nat.one_pos, hv]

theorem mvPar_wp {W R T : ℕ → Prop} {Q : (ℕ → K) → Prop} {kp : Proc K} (hs : SpOk kd M N bounds col Rs lo cnt) (hX : ∀ a, (Win.mk x 1 N 1).Has a → Rs a)
    (hd : ∀ a, Rs a → ¬ (Win.mk y 1 M 1).Has a) (hf : FinS Rs)
    (hW : ∀ a, (Win.mk y 1 M 1).Has a → W a ∨ T a) (hR : ∀ a, Rs a → W a ∨ R a ∨ T a)
    (hk : ∀ v', (∀ i, W i ∨ R i ∨ T i → ¬ (Win.mk y 1 M 1).Has i → v' i = v i) →
      Vals ⟨y, 1, M, 1⟩ (fun i _ => v (y + i) + rowSum v kd col x 1 (lo i) (cnt i) 0) v' → wp kp W R T v' Q) :
    wp (.par M (fun i => call (mvRow kd bounds col x y i) .ret) kp) W R T v Q := by
  have hH : ∀ (i : ℕ) a, (Win.mk (y + i) 1 1 1).Has a ↔ a = y + i := by
    intro i a
    constructor
    · rintro ⟨p, hp, q, hq, rfl⟩
      have hp : p < 1 := hp
      have hq : q < 1 := hq
      simp only [Win.adr]; omega
    · rintro rfl; exact ⟨0, Nat.one_pos, 0, Nat.one_pos, by simp [Win.adr]⟩
  have hH2 : ∀ i < M, (Win.mk y 1 M 1).Has (y + i) := fun i hi => ⟨i, hi, 0, Nat.one_pos, by simp [Win.adr]⟩
  refine wp_spawn (fun i => ⟨y + i, 1, 1, 1⟩) (fun i _ _ => v (y + i) + rowSum v kd col x 1 (lo i) (cnt i) 0) Rs ?_ hR ?_ ?_ ?_ ?_
  · intro i a ha
    rw [hH] at ha; subst ha
    exact hW _ (hH2 i i.2)
  · intro i a ha h
    rw [hH] at h; subst h
    exact hd _ ha (hH2 i i.2)
  · intro i l hil a h1 h2
    rw [hH] at h1 h2
    exact hil (Fin.ext (by omega))
  · intro i
    refine task_call hf (wrIn_mvRow (Or.inl ((hH _ _).2 rfl))) ?_
    intro m hm ho hRm hv
    refine (mvRow_run (m := m) (hs.bnd i i.2) (fun t ht => ?_) (ho _ ((hH _ _).2 rfl))).mono (fun _ _ s => ?_)
    · have := hs.ent (y := y) (ldy := 1) (m := m) hX hd hRm (i := i) i.2 ht
      rwa [mul_one] at this
    · rw [← hv]; exact s.step
  · intro v' h1 h2
    refine hk v' (fun a ha hn => h1 a ha (fun i h => hn ?_)) (fun i hi j hj => ?_)
    · rw [hH] at h; subst h; exact hH2 i i.2
    · obtain rfl : j = 0 := by simpa using hj
      have := h2 ⟨i, hi⟩ 0 Nat.one_pos 0 Nat.one_pos
      simpa [Win.adr] using this

lemma wrIn_mvInit {S : ℕ → Prop} {beta : K} (h : ∀ i < M, S (y + i * 1)) : Small.wrIn (mvInit M beta y) S :=
  wrIn_ite (fun _ => wrIn_pure) fun _ => wrIn_ite (fun _ => wrIn_vzero h) fun _ => wrIn_ite (fun _ => wrIn_vnegin h) fun _ => wrIn_vscalin h

lemma mvInit_run {beta : K} (hm : WF m) (h : OkIn m (vw y 1 M)) :
    Run (mvInit M beta y) m (fun _ m' => Step m m' (vw y 1 M) (fun i _ => beta * m.val (y + i))) := by
  unfold mvInit
  rif e1
  · rw [Run_pure]
    refine ⟨rfl, le_rfl, fun i _ j hj => ?_, fun _ _ _ => rfl⟩
    obtain rfl : j = 0 := by simpa [vw] using hj
    simp [e1, vw, Win.adr]
  rif e2
  · exact (vzero_spec h Nat.one_pos).mono (fun _ _ s => s.congr (fun i _ j _ => by rw [e2]; simp))
  rif e3
  · exact (vnegin_spec h Nat.one_pos).mono (fun _ _ s => s.congr (fun i _ j _ => by rw [e3]; simp))
  · exact (vscalin_spec .generic beta hm h Nat.one_pos).mono (fun _ _ s => s.congr (fun i _ j _ => by simp))

theorem pfspmv_ok {d : ℕ} {beta : K} (hs : SpOk (.val d) M N bounds col Rs lo cnt) (hX : ∀ a, (Win.mk x 1 N 1).Has a → Rs a)
    (hd : ∀ a, Rs a → ¬ (Win.mk y 1 M 1).Has a) (hf : FinS Rs) :
    TaskOk (pfspmv d M bounds col x beta y .ret) ⟨y, 1, M, 1⟩ Rs v
      (fun i _ => beta * v (y + i) + rowSum v (.val d) col x 1 (lo i) (cnt i) 0) := by
  refine wp_call (w := vw y 1 M) (g := fun i _ => beta * v (y + i)) (Win.mk y 1 M 1).Has (FinS.has _) (fun _ h => Or.inl h)
    (wrIn_mvInit fun i hi => Or.inl ⟨i, hi, 0, Nat.one_pos, rfl⟩) ?_ ?_
  · intro m hm ho hv
    subst hv
    exact mvInit_run hm ho
  · intro v' h1 h2
    refine mvPar_wp hs hX hd hf (fun _ h => Or.inl h) (fun _ h => Or.inr (Or.inl h)) (fun v'' _ h4 => ?_)
    intro i hi j hj
    rw [h4 i hi j hj]
    dsimp only
    rw [rowSum_congr hs hX (fun a ha => h1 a (Or.inr (Or.inl ha)) (hd a ha)) hi Nat.one_pos]
    have := h2 i hi 0 Nat.one_pos
    simp only [vw, Win.adr, mul_one, add_zero] at this
    rw [this]

lemma wrIn_mmInit {S : ℕ → Prop} {beta : K} (hb : beta = 0 ∨ beta = 1) (h : InS S y ldy M bs) : Small.wrIn (mmInit M bs beta y ldy) S :=
  wrIn_ite (fun _ => wrIn_pure) fun e1 => wrIn_ite (fun _ => wrIn_fzero h) fun e2 => absurd hb (by tauto)

lemma mmInit_run {beta : K} (hb : beta = 0 ∨ beta = 1) (hm : WF m) (h : OkIn m ⟨y, ldy, M, bs⟩) (hl : bs ≤ ldy) :
    Run (mmInit M bs beta y ldy) m (fun _ m' => Step m m' ⟨y, ldy, M, bs⟩ (fun i k => beta * m.val (y + i * ldy + k))) := by
  unfold mmInit
  rif e1
  · rw [Run_pure]
    exact ⟨rfl, le_rfl, fun i _ j _ => by simp [e1, Win.adr], fun _ _ _ => rfl⟩
  have e2 : beta = 0 := by tauto
  rw [if_pos e2]
  exact (fzero_spec hm h hl).mono (fun _ _ s => s.congr (fun i _ j _ => by rw [e2]; simp))

theorem mmInit_wp {W R T : ℕ → Prop} {Q : (ℕ → K) → Prop} {kp : Proc K} {beta : K} (hb : beta = 0 ∨ beta = 1) (hl : bs ≤ ldy)
    (hW : ∀ a, (Win.mk y ldy M bs).Has a → W a)
    (hk : ∀ v', (∀ i, W i ∨ R i ∨ T i → ¬ (Win.mk y ldy M bs).Has i → v' i = v i) →
      Vals ⟨y, ldy, M, bs⟩ (fun i k => beta * v (y + i * ldy + k)) v' → wp kp W R T v' Q) :
    wp (call (mmInit M bs beta y ldy) kp) W R T v Q := by
  refine wp_call (w := ⟨y, ldy, M, bs⟩) (g := fun i k => beta * v (y + i * ldy + k)) (Win.mk y ldy M bs).Has (FinS.has _) (fun a h => Or.inl (hW a h))
    (wrIn_mmInit hb (fun i hi j hj => Or.inl (hW _ ⟨i, hi, j, hj, rfl⟩))) ?_ hk
  intro m hm ho hv
  subst hv
  exact mmInit_run hb hm ho hl

theorem mm_ok {beta : K} {t : ℕ} (hb : beta = 0 ∨ beta = 1) (hs : SpOk kd M N bounds col Rs lo cnt) (hX : ∀ a, (Win.mk x ldx N bs).Has a → Rs a)
    (hd : ∀ a, Rs a → ¬ (Win.mk y ldy M bs).Has a) (hl : bs ≤ ldy) (hf : FinS Rs) :
    TaskOk (call (mmInit M bs beta y ldy) (mmTasks kd M bounds col x ldx bs y ldy t .ret)) ⟨y, ldy, M, bs⟩ Rs v
      (fun i k => beta * v (y + i * ldy + k) + rowSum v kd col x ldx (lo i) (cnt i) k) := by
  refine mmInit_wp hb hl (fun _ h => h) (fun v' h1 h2 => ?_)
  refine mmTasks_wp hs hX hd hl hf (fun _ h => Or.inl h) (fun _ h => Or.inr (Or.inl h)) (fun v'' _ h4 => ?_)
  intro i hi j hj
  rw [h4 i hi j hj]
  dsimp only
  rw [rowSum_congr hs hX (fun a ha => h1 a (Or.inr (Or.inl ha)) (hd a ha)) hi hj]
  have := h2 i hi j hj
  simp only [Win.adr] at this
  rw [this]

end

end Verif.Par
