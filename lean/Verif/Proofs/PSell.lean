import Verif.Model.PSell
import Verif.Proofs.PHyb

/-!
# Proofs for the parallel products with the sliced formats
-/

namespace Verif.Par
open Verif.FF Verif.BlockCuts Verif.Sparse Finset

variable {K : Type} [Field K] [DecidableEq K] {col : Arr ℕ} {x yr j k n c D y nc N : ℕ} {m m' : Mem K}
variable {bounds : ℕ → Except Fault (ℕ × ℕ)} {lo cnt : ℕ → ℕ} {Rs : ℕ → Prop} {v : ℕ → K}

lemma hybCellN_run {g : ℕ → K} {d : ℕ} (hc : j < col.len) (hx : m.ok (x + col.get j) = true ∧ ∀ l < n, x + col.get j ≠ yr + l)
    (hdd : m.ok d = true ∧ ∀ l < n, d ≠ yr + l) (hk : k < n) (hy : m.ok (yr + k) = true) (h : RowSt m m' yr n g) :
    Run (hybCell col d x (yr + k) j) m' (fun _ m'' => RowSt m m'' yr n (Function.update g k (g k + m.val d * m.val (x + col.get j)))) := by
  simp only [hybCell, Run_bind, Run_liftE, Ok_rd]
  refine ⟨hc, ?_⟩
  rw [Run_load]
  refine ⟨by rw [h.ok]; exact hx.1, ?_⟩
  rw [Run_load]
  refine ⟨by rw [h.ok]; exact hdd.1, ?_⟩
  rw [Run_load]
  refine ⟨by rw [h.ok]; exact hy, ?_⟩
  rw [Run_store]
  refine ⟨by rw [h.ok]; exact hy, ?_⟩
  rw [h.val k hk, h.frame _ hx.2, h.frame _ hdd.2]
  exact h.set hk _

/-- the chunks and their cells -/
structure ChunkRowsOk (nc N D c : ℕ) (bounds : ℕ → Except Fault (ℕ × ℕ)) (col : Arr ℕ) (Rs : ℕ → Prop) (lo cnt : ℕ → ℕ) : Prop where
  bnd : ∀ i < nc, bounds i = .ok (lo i, cnt i)
  col : ∀ i < nc, ∀ j < cnt i, ∀ k < c, lo i + j * c + k < col.len ∧ col.get (lo i + j * c + k) < N
  dat : ∀ i < nc, ∀ j < cnt i, ∀ k < c, Rs (D + (lo i + j * c + k))

/-- the sum of row `k` of a chunk -/
def chunkSum (v : ℕ → K) (D c : ℕ) (col : Arr ℕ) (x s n k : ℕ) : K := ∑ j ∈ range n, v (D + (s + j * c + k)) * v (x + col.get (s + j * c + k))

lemma chunkBody_run {i : ℕ} (hs : ChunkRowsOk nc N D c bounds col Rs lo cnt) (hX : ∀ a, (Win.mk x 1 N 1).Has a → Rs a) (hi : i < nc)
    (hR : ∀ a, Rs a → m.ok a = true) (hd : ∀ a, Rs a → ∀ l < c, a ≠ y + i * c + l) (hy : ∀ l < c, m.ok (y + i * c + l) = true) :
    Run (chunkBody D bounds c col x y i) m (fun _ m' => RowSt m m' (y + i * c) c (fun k => m.val (y + i * c + k) + chunkSum m.val D c col x (lo i) (cnt i) k)) := by
  simp only [chunkBody, Run_bind, Run_liftE, hs.bnd i hi, Ok_ok]
  refine Run_loop (fun J m1 => RowSt m m1 (y + i * c) c (fun k => m.val (y + i * c + k) + chunkSum m.val D c col x (lo i) J k)) ?_ ?_
  · exact ⟨rfl, le_rfl, fun k hk => by simp [chunkSum], fun _ _ => rfl⟩
  · intro j m1 hj h1
    refine (Run_loop (fun L m2 => RowSt m m2 (y + i * c) c (fun k => m.val (y + i * c + k) +
      chunkSum m.val D c col x (lo i) (if k < L then j + 1 else j) k)) ?_ ?_).mono (fun _ _ h => h.congr (fun k hk => by rw [if_pos hk]))
    · exact h1.congr (fun k hk => by simp)
    · intro k m2 hk h2
      obtain ⟨hc1, hc2⟩ := hs.col i hi j hj k hk
      have hx : Rs (x + col.get (lo i + j * c + k)) := hX _ ⟨_, hc2, 0, Nat.one_pos, by simp [Win.adr]⟩
      have hD := hs.dat i hi j hj k hk
      refine (hybCellN_run hc1 ⟨hR _ hx, hd _ hx⟩ ⟨hR _ hD, hd _ hD⟩ hk (hy k hk) h2).mono (fun _ _ h3 => h3.congr (fun l hl => ?_))
      by_cases e : l = k
      · subst e
        rw [Function.update_self, if_neg (lt_irrefl _), if_pos (Nat.lt_succ_self _)]
        unfold chunkSum
        rw [sum_range_succ]; ring
      · rw [Function.update_of_ne e]
        have : l < k ↔ l < k + 1 := by omega
        simp only [this]

lemma wrIn_chunkBody {S : ℕ → Prop} {i : ℕ} (h : ∀ k < c, S (y + i * c + k)) : Small.wrIn (chunkBody D bounds c col x y i : Prog K Unit) S :=
  wrIn_bind wrIn_liftE fun _ => wrIn_loop fun _ _ => wrIn_loop fun k hk =>
    wrIn_bind wrIn_liftE fun _ => wrIn_bind wrIn_load fun _ => wrIn_bind wrIn_load fun _ => wrIn_bind wrIn_load fun _ => wrIn_store (h k hk)

theorem pfspmvChunks_ok {beta : K} (hs : ChunkRowsOk nc N D c bounds col Rs lo cnt) (hX : ∀ a, (Win.mk x 1 N 1).Has a → Rs a)
    (hd : ∀ a, Rs a → ¬ (Win.mk y 1 (nc * c) 1).Has a) (hf : FinS Rs) :
    TaskOk (pfspmvChunks D (nc * c) nc bounds c col x beta y .ret) ⟨y, 1, nc * c, 1⟩ Rs v
      (fun r _ => beta * v (y + r) + chunkSum v D c col x (lo (r / c)) (cnt (r / c)) (r % c)) := by
  refine mvInit_inv (v := v) hd (fun v1 hv1 => ?_)
  have hlt : ∀ i < nc, ∀ k < c, i * c + k < nc * c := fun i hi k hk => by
    have : (i + 1) * c ≤ nc * c := Nat.mul_le_mul_right _ hi
    rw [Nat.add_mul, one_mul] at this; omega
  have hH : ∀ (i : ℕ) a, (Win.mk (y + i * c) 1 c 1).Has a ↔ ∃ k < c, a = y + i * c + k := by
    intro i a
    constructor
    · rintro ⟨p, hp, q, hq, rfl⟩
      have hq : q < 1 := hq
      exact ⟨p, hp, by simp only [Win.adr]; omega⟩
    · rintro ⟨k, hk, rfl⟩; exact ⟨k, hk, 0, Nat.one_pos, by simp [Win.adr]⟩
  have hH2 : ∀ i < nc, ∀ k < c, (Win.mk y 1 (nc * c) 1).Has (y + i * c + k) := fun i hi k hk =>
    ⟨i * c + k, hlt i hi k hk, 0, Nat.one_pos, by simp [Win.adr, add_assoc]⟩
  refine wp_spawn (fun i => ⟨y + i * c, 1, c, 1⟩) (fun i k _ => v1 (y + i * c + k) + chunkSum v1 D c col x (lo i) (cnt i) k) Rs ?_ (fun _ h => Or.inr (Or.inl h)) ?_ ?_ ?_ ?_
  · intro i a ha
    rw [hH] at ha
    obtain ⟨k, hk, rfl⟩ := ha
    exact Or.inl (hH2 i i.2 k hk)
  · intro i a ha h
    rw [hH] at h
    obtain ⟨k, hk, rfl⟩ := h
    exact hd _ ha (hH2 i i.2 k hk)
  · intro i l hil a h1 h2
    rw [hH] at h1 h2
    obtain ⟨k, hk, rfl⟩ := h1
    obtain ⟨k', hk', e⟩ := h2
    refine hil (Fin.ext ?_)
    have e2 : (i : ℕ) * c + k = (l : ℕ) * c + k' := by omega
    have e3 := congrArg (· / c) e2
    have hc : 0 < c := by omega
    simp only [Nat.mul_comm _ c, Nat.mul_add_div hc, Nat.div_eq_of_lt hk, Nat.div_eq_of_lt hk', add_zero] at e3
    exact e3
  · intro i
    refine task_call hf (wrIn_chunkBody fun k hk => Or.inl ((hH _ _).2 ⟨k, hk, rfl⟩)) ?_
    intro m hm ho hRm hv
    refine (chunkBody_run (m := m) hs hX i.2 hRm (fun a ha l hl e => hd a ha (e ▸ hH2 i i.2 l hl)) (fun l hl => ho _ ((hH _ _).2 ⟨l, hl, rfl⟩))).mono (fun _ _ s => ?_)
    rw [← hv]; exact s.step
  · intro v' h1 h2 r hr j hj
    have hr : r < nc * c := hr
    obtain rfl : j = 0 := by simpa using hj
    have hc : 0 < c := by
      rcases Nat.eq_zero_or_pos c with rfl | h
      · omega
      · exact h
    have hi : r / c < nc := Nat.div_lt_of_lt_mul (by rwa [Nat.mul_comm])
    have hk : r % c < c := Nat.mod_lt _ hc
    have er : r / c * c + r % c = r := Nat.div_add_mod' r c
    have := h2 ⟨r / c, hi⟩ (r % c) hk 0 Nat.one_pos
    simp only [Win.adr, mul_one, add_zero, add_assoc, er] at this ⊢
    rw [this]
    have h3 := hv1.vals r hr 0 Nat.one_pos
    simp only [Win.adr, mul_one, add_zero] at h3
    rw [h3]
    congr 1
    unfold chunkSum
    refine sum_congr rfl (fun j hj => ?_)
    have hj := mem_range.1 hj
    rw [hv1.same _ (hs.dat _ hi j hj _ hk), hv1.same _ (hX _ ⟨_, (hs.col _ hi j hj _ hk).2, 0, Nat.one_pos, by simp [Win.adr]⟩)]

end Verif.Par
