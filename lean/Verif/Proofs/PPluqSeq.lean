import Verif.Proofs.PhaseV
import Verif.Proofs.PluqStep

/-!
# The sequential parts of the parallel PLUQ decomposition
-/

namespace Verif.ParV
open Verif.FF Verif.Par Verif.Perm Finset Verif.Spec Verif.Spec.Perm Verif.Pluq

variable {K : Type} [Field K] [DecidableEq K]
variable {m0 m : Mem K} {W : Win} {V : ℕ → ℕ → K} {i0 j0 r c : ℕ}

omit [Field K] [DecidableEq K] in
lemma cyclicShiftRowV_on (cc : ℕ → K) (h : On m0 m W V) (hr : i0 + r ≤ W.r) (hc : j0 + c ≤ W.c) :
    Run (cyclicShiftRowV cc (W.adr i0 j0) r c W.ld) m (fun _ m' => On m0 m' W (permRows i0 j0 r c (rot r) V)) := by
  unfold cyclicShiftRowV
  rif h1
  · simp only [Run_bind]
    refine (Run_iter (fun k b m' => On m0 m' W V ∧ b.len = c ∧ ∀ j < k, b.get j = V (i0 + (r - 1)) (j0 + j)) ⟨h, rfl, fun j hj => absurd hj (Nat.not_lt_zero _)⟩ ?_).mono ?_
    · rintro k b m' hk ⟨h', lb, eb⟩
      have e1 : W.adr i0 j0 + (r - 1) * W.ld + k = W.adr (i0 + (r - 1)) (j0 + k) := by rw [Win.adr_add_row, Win.adr_add_col]
      simp only [Run_bind, Run_load, Run_liftE, e1, Ok_wr]
      refine ⟨h'.okc (by omega) (by omega), by omega, h', lb, fun j hj => ?_⟩
      rw [h'.val (by omega) (by omega)]
      by_cases e : j = k
      · subst e; simp
      · rw [Function.update_of_ne e]; exact eb j (by omega)
    rintro b m1 ⟨h1', lb, eb⟩
    have L2 : Run (loop (r - 1) fun t => vassign c (W.adr i0 j0 + (r - 1 - t) * W.ld - W.ld) 1 (W.adr i0 j0 + (r - 1 - t) * W.ld) 1) m1
        (fun _ m' => On m0 m' W (upd (i0 + 1) j0 (r - 1) c (fun i j => V (i0 + i) (j0 + j)) V)) := by
      refine (Run_loop (fun k m' => On m0 m' W (upd (i0 + (r - k)) j0 k c (fun i j => V (i0 + (r - k - 1) + i) (j0 + j)) V)) ?_ ?_).mono ?_
      · exact h1'.congr (fun i hi j hj => by rw [upd_out (by omega)])
      · intro k m' hk h'
        have e1 : W.adr i0 j0 + (r - 1 - k) * W.ld = W.adr (i0 + (r - 1 - k)) j0 := by rw [Win.adr_add_row]
        have e2 : W.adr i0 j0 + (r - 1 - k) * W.ld - W.ld = W.adr (i0 + (r - 1 - k - 1)) j0 := by
          rw [show r - 1 - k = (r - 1 - k - 1) + 1 by omega, Nat.succ_mul, ← Nat.add_assoc, Nat.add_sub_cancel, Win.adr_add_row]
          rw [show r - 1 - k - 1 + 1 - 1 = r - 1 - k - 1 by omega]
        rw [e2, e1]
        refine (moveRow_on h' (i := i0 + (r - 1 - k)) (j := j0) (i' := i0 + (r - 1 - k - 1)) (j' := j0) (by omega) hc (by omega) hc
          (Or.inr le_rfl)).mono (fun _ m'' h'' => h''.congr (fun i hi j hj => ?_))
        by_cases e : i = i0 + (r - 1 - k) ∧ j0 ≤ j ∧ j < j0 + c
        · rw [upd_in' (by omega), upd_out (by omega), upd_in' (by omega)]
          congr 1; omega
        · rw [upd_out (by omega)]
          by_cases e' : i0 + (r - k) ≤ i ∧ i < i0 + (r - k) + k ∧ j0 ≤ j ∧ j < j0 + c
          · rw [upd_in' (by omega), upd_in' (by omega)]
            congr 1; omega
          · rw [upd_out (by omega), upd_out (by omega)]
      · intro _ m' h'
        refine h'.congr (fun i hi j hj => ?_)
        rw [show r - (r - 1) = 1 by omega]
        simp only [Nat.sub_self, Nat.add_zero]
    refine L2.mono (fun _ m2 h5 => ?_)
    have L3 : Run (loop c fun i => do
        let x ← liftE (Arr.rd b i)
        store (W.adr i0 j0 + i) x) m2 (fun _ m' => On m0 m' W (permRows i0 j0 r c (rot r) V)) := by
      refine (Run_loop (fun k m' => On m0 m' W (upd i0 j0 1 k (fun _ j => V (i0 + (r - 1)) (j0 + j))
        (upd (i0 + 1) j0 (r - 1) c (fun i j => V (i0 + i) (j0 + j)) V))) ?_ ?_).mono ?_
      · exact h5.congr (fun i hi j hj => by rw [upd_out (r := 1) (by omega)])
      · intro k m' hk h'
        simp only [Run_bind, Run_liftE, Run_store, Ok_rd]
        refine ⟨by omega, ?_, ?_⟩
        · rw [Win.adr_add_col]; exact h'.okc (by omega) (by omega)
        · rw [Win.adr_add_col, eb k hk]
          refine (h'.set (by omega) (by omega)).congr (fun i hi j hj => ?_)
          by_cases e : i = i0 ∧ j = j0 + k
          · rw [upd_in' (by omega), upd_in' (by omega)]; congr 1; omega
          · rw [upd_out (by omega)]
            by_cases e' : i = i0 ∧ j0 ≤ j ∧ j < j0 + k
            · rw [upd_in' (by omega), upd_in' (by omega)]
            · rw [upd_out (by omega), upd_out (r := 1) (by omega)]
      · intro _ m' h'
        refine h'.congr (fun i hi j hj => ?_)
        simp only [permRows]
        by_cases e : i = i0 ∧ j0 ≤ j ∧ j < j0 + c
        · rw [upd_in' (by omega), upd_in' (by omega), rot, if_pos (by omega)]
        · rw [upd_out (by omega)]
          by_cases e' : i0 + 1 ≤ i ∧ i < i0 + r ∧ j0 ≤ j ∧ j < j0 + c
          · rw [upd_in' (by omega), upd_in' (by omega), rot, if_neg (by omega), if_pos (by omega)]
            congr 1
          · rw [upd_out (by omega), upd_out (by omega)]
    exact L3
  · rw [Run_pure]
    refine h.congr (fun i hi j hj => ?_)
    simp only [permRows]
    by_cases hin : i0 ≤ i ∧ i < i0 + r ∧ j0 ≤ j ∧ j < j0 + c
    · rw [upd_in' hin, rot]
      rw [if_pos (by omega)]; congr 1 <;> omega
    · rw [upd_out (by omega)]


/-! ## A single row or column -/

section
variable {A inc n : ℕ} {x : ℕ → K}

lemma firstNz_spec (h : On m0 m (vw A inc n) (fun i _ => x i)) : ∀ f piv, piv + f = n → (∀ i < piv, x i = 0) →
    Run (firstNz A inc f piv) m (fun p m' => m' = m ∧ p ≤ n ∧ (∀ i < p, x i = 0) ∧ (p < n → x p ≠ 0))
  | 0, piv, e, hz => by
    rw [firstNz, Run_pure]
    exact ⟨rfl, by omega, hz, fun h => absurd h (by omega)⟩
  | f + 1, piv, e, hz => by
    have ea : A + piv * inc = (vw A inc n).adr piv 0 := by simp [Win.adr]
    rw [firstNz, Run_bind, Run_load, ea]
    refine ⟨h.okc (by simp only; omega) (by simp), ?_⟩
    rw [h.val (by simp only; omega) (by simp)]
    rif c
    · exact firstNz_spec h f (piv + 1) (by omega) (fun i hi => by
        by_cases e' : i = piv
        · rw [e', c]
        · exact hz i (by omega))
    · rw [Run_pure]
      exact ⟨rfl, by omega, hz, fun _ => c⟩

/-- the contents of the line: pivot, zeroes, rest -/
def lineVal (scale : Bool) (x : ℕ → K) (piv i : ℕ) : K :=
  if i = 0 then x piv else if i ≤ piv then 0 else if scale = true then (x piv)⁻¹ * x i else x i

lemma pluqLine_spec (scale : Bool) (hinc : 0 < inc) (h : On m0 m (vw A inc n) (fun i _ => x i)) :
    Run (pluqLine scale n A inc) m (fun p m' => ∃ y, On m0 m' (vw A inc n) (fun i _ => y i) ∧
      ((p = n ∧ (∀ i < n, x i = 0) ∧ y = x) ∨ (p < n ∧ x p ≠ 0 ∧ (∀ i < p, x i = 0) ∧ y = lineVal scale x p))) := by
  unfold pluqLine
  rw [Run_bind]
  refine (firstNz_spec h n 0 (by omega) (fun i hi => absurd hi (Nat.not_lt_zero _))).mono ?_
  rintro p m' ⟨e, hp, hz, hnz⟩
  subst e
  rif c
  · rw [Run_pure]
    subst c
    exact ⟨x, h, Or.inl ⟨rfl, hz, rfl⟩⟩
  · have hpn : p < n := by omega
    have ea : A = (vw A inc n).adr 0 0 := by simp [Win.adr]
    have ep : A + p * inc = (vw A inc n).adr p 0 := by simp [Win.adr]
    have n1 : (0 : ℕ) < (vw A inc n).c := Nat.one_pos
    rw [Run_bind]
    have L : Run (lineMove A inc p) m' (fun _ m'' => On m0 m'' (vw A inc n) (fun i _ => if i = 0 then x p else if i ≤ p then 0 else x i)) := by
      unfold lineMove
      rif c1
      · simp only [Run_bind, Run_load, Run_store]
        rw [ep]
        refine ⟨h.okc hpn n1, ?_⟩
        rw [h.val hpn n1]
        have h0 : 0 < (vw A inc n).r := by show 0 < n; omega
        rw [show m'.ok A = m'.ok ((vw A inc n).adr 0 0) by rw [← ea], show m'.set A = m'.set ((vw A inc n).adr 0 0) by rw [← ea]]
        refine ⟨h.okc h0 n1, ?_⟩
        have s := h.set (x := x p) h0 n1
        refine ⟨s.okc hpn n1, ?_⟩
        refine (s.set (x := 0) hpn n1).congr (fun i hi j hj => ?_)
        have hj : j < 1 := hj
        by_cases e1 : i = p
        · rw [upd_in' (by omega), if_neg (by omega), if_pos (by omega)]
        · rw [upd_out (by omega)]
          by_cases e0 : i = 0
          · rw [upd_in' (by omega), if_pos e0]
          · rw [upd_out (by omega), if_neg e0]
            split_ifs with e2
            · exact hz i (by omega)
            · rfl
      · rw [Run_pure]
        obtain rfl : p = 0 := not_not.1 c1
        refine h.congr (fun i hi j hj => ?_)
        split_ifs with e1 e2
        · rw [e1]
        · omega
        · rfl
    refine L.mono (fun _ m1 h1 => ?_)
    rw [Run_bind]
    have S : Run (lineScale scale n A inc p) m1 (fun _ m'' => On m0 m'' (vw A inc n) (fun i _ => lineVal scale x p i)) := by
      unfold lineScale
      rif c2
      · rw [Run_bind, Run_load]
        have h0 : 0 < (vw A inc n).r := by show 0 < n; omega
        have o := h1.okc h0 n1
        have w := h1.val h0 n1
        rw [← ea] at o w
        refine ⟨o, ?_⟩
        rw [w, if_pos rfl, Run_bind, Run_liftE, Ok_invE]
        refine ⟨hnz hpn, ?_⟩
        have eb : A + (p + 1) * inc = (vw A inc n).adr (p + 1) 0 := by simp [Win.adr]
        have hr : p + 1 + (n - p - 1) ≤ (vw A inc n).r := by show _ ≤ n; omega
        rw [eb]
        refine (vscalin_spec .generic (x p)⁻¹ h1.wf' (h1.ok'.of_sub (r' := n - p - 1) (c' := 1) hr le_rfl) hinc).mono (fun _ m2 s => ?_)
        refine (h1.upd (r := n - p - 1) (c := 1) hr le_rfl s).congr (fun i hi j hj => ?_)
        have hi : i < n := hi
        have hj : j < 1 := hj
        unfold lineVal
        by_cases e1 : i ≤ p
        · rw [upd_out (by omega), if_pos e1]
          by_cases e0 : i = 0
          · rw [if_pos e0, if_pos e0]
          · rw [if_neg e0, if_neg e0, if_pos e1]
        · rw [upd_in' (by omega), if_neg (by omega), if_neg e1, if_pos c2]
          have e2 : (vw A inc n).adr (p + 1) 0 + (i - (p + 1)) * inc = (vw A inc n).adr i 0 := by
            simp only [Win.adr, Nat.add_zero, Nat.add_assoc, ← Nat.add_mul]
            congr 2; omega
          rw [e2, h1.val hi n1, if_neg (by omega), if_neg e1]
      · rw [Run_pure]
        refine h1.congr (fun i hi j hj => ?_)
        unfold lineVal
        rw [if_neg c2]
    refine S.mono (fun _ m2 h2 => ?_)
    rw [Run_pure]
    exact ⟨_, h2, Or.inr ⟨hpn, hnz hpn, hz, rfl⟩⟩

/-- the first entry of the array is `p`, the others are fixed -/
lemma ofSwaps_first {P : ℕ → ℕ} {p : ℕ} (h0 : P 0 = p) : ∀ {n : ℕ}, 0 < n → (∀ i, 0 < i → i < n → P i = i) → ∀ i, ofSwaps P n i = Equiv.swap 0 p i
  | 1, _, _, i => by simp [ofSwaps, h0]
  | n + 2, _, h, i => by
    rw [ofSwaps, h (n + 1) (by omega) (by omega), Equiv.swap_self]
    exact ofSwaps_first h0 (by omega) (fun i h1 h2 => h i h1 (by omega)) i

lemma swap_perm {p n : ℕ} (hp : p < n) : IsPermArray (fun i => Equiv.swap 0 p i) n := by
  refine ⟨fun i hi => ?_, fun i _ j _ e => (Equiv.swap 0 p).injective e⟩
  simp only [Equiv.swap_apply_def]
  split_ifs <;> omega

lemma idp (n : ℕ) : IsPermArray (fun i => i) n := ⟨fun _ h => h, fun _ _ _ _ e => e⟩

/-- no pivot -/
lemma fac0_zero {d : Diag} {M N : ℕ} {X : ℕ → ℕ → K} (hX : ∀ i < M, ∀ j < N, X i j = 0) : Fac0 d M N X X (fun i => i) (fun i => i) 0 :=
  ⟨⟨Nat.zero_le _, Nat.zero_le _, fun k hk => absurd hk (Nat.not_lt_zero _), fun i hi j hj => by simpa using hX i hi j hj⟩, idp _, idp _,
    fun i hi j hj _ _ => hX i hi j hj⟩

/-- entry of the factor next to the pivot -/
lemma line_entry {s : Bool} {p n : ℕ} (hp : p < n) (hnz : x p ≠ 0) (hz : ∀ i < p, x i = 0) {j : ℕ} (hj : 0 < j) :
    (if s = true then x p else 1) * lineVal s x p j = x (Equiv.swap 0 p j) := by
  unfold lineVal
  rw [if_neg (show ¬ j = 0 by omega), Equiv.swap_apply_def, if_neg (show ¬ j = 0 by omega)]
  by_cases e : j = p
  · subst e
    rw [if_pos rfl, if_pos le_rfl, mul_zero, hz 0 hj]
  · rw [if_neg e]
    by_cases e' : j ≤ p
    · rw [if_pos e', mul_zero, hz j (by omega)]
    · rw [if_neg e']
      cases s
      · simp
      · simp [hnz]

lemma fac0_row {d : Diag} {N p : ℕ} {X Y : ℕ → ℕ → K} (hp : p < N) (hx : ∀ j < N, X 0 j = x j) (hnz : x p ≠ 0) (hz : ∀ i < p, x i = 0)
    (hY : ∀ j < N, Y 0 j = lineVal (d = .unit) x p j) : Fac0 d 1 N X Y (fun i => i) (fun i => Equiv.swap 0 p i) 1 := by
  have y0 : Y 0 0 = x p := by rw [hY 0 (by omega)]; simp [lineVal]
  refine ⟨⟨le_rfl, by omega, fun k hk => ?_, fun i hi j hj => ?_⟩, idp _, swap_perm hp, fun i hi j hj h1 h2 => by omega⟩
  · obtain rfl : k = 0 := by omega
    rw [y0]; exact hnz
  · obtain rfl : i = 0 := by omega
    rw [sum_range_one, hx _ ((swap_perm hp).1 j hj)]
    by_cases e : j = 0
    · subst e; rw [lu_diag, y0]; simp
    · rw [luU_lt (by omega), hY j hj, ← line_entry (s := d = .unit) hp hnz hz (by omega : 0 < j)]
      cases d
      · rw [luL_diag_nonUnit]; simp
      · rw [luL_diag_unit, y0]; simp

lemma fac0_col {d : Diag} {M p : ℕ} {X Y : ℕ → ℕ → K} (hp : p < M) (hx : ∀ j < M, X j 0 = x j) (hnz : x p ≠ 0) (hz : ∀ i < p, x i = 0)
    (hY : ∀ j < M, Y j 0 = lineVal (d = .nonUnit) x p j) : Fac0 d M 1 X Y (fun i => Equiv.swap 0 p i) (fun i => i) 1 := by
  have y0 : Y 0 0 = x p := by rw [hY 0 (by omega)]; simp [lineVal]
  refine ⟨⟨by omega, le_rfl, fun k hk => ?_, fun j hj i hi => ?_⟩, swap_perm hp, idp _, fun i hi j hj h1 h2 => by omega⟩
  · obtain rfl : k = 0 := by omega
    rw [y0]; exact hnz
  · obtain rfl : i = 0 := by omega
    rw [sum_range_one, hx _ ((swap_perm hp).1 j hj)]
    by_cases e : j = 0
    · subst e; rw [lu_diag, y0]; simp
    · rw [luL_lt (by omega), hY j hj, ← line_entry (s := d = .nonUnit) hp hnz hz (by omega : 0 < j), mul_comm]
      cases d
      · rw [luU_diag_nonUnit, y0]; simp
      · rw [luU_diag_unit]; simp
end

/-! ## As parts of a task -/

/-- what the parallel decomposition of the window `W` with contents `X` establishes -/
def PPost (d : Diag) (W : Win) (X : ℕ → ℕ → K) (x : Res) (v : ℕ → K) : Prop :=
  x.2.1.len = W.r ∧ x.2.2.len = W.c ∧ IsTranspArray x.2.1.get W.r ∧ IsTranspArray x.2.2.get W.c ∧
    ∃ Y, Vals W Y v ∧ Fac0 d W.r W.c X Y (ofSwaps x.2.1.get W.r) (ofSwaps x.2.2.get W.c) x.1

/-- contract of the recursive calls on matrices with `M + N < bound` -/
def PRecOk (rec : PPluqFn K) (d : Diag) (lda bound : ℕ) : Prop := ∀ (jk : List ℕ → ℕ → ℕ) (nt : ℕ) (W : Win) (v : ℕ → K) (P Q : Arr ℕ),
  W.ld = lda → W.c ≤ W.ld → W.r + W.c < bound → P.len = W.r → Q.len = W.c →
  wp (rec jk nt d W.r W.c W.p P Q) W.Has (fun _ => False) (fun _ => False) v (PPost d W (fun i j => v (W.adr i j)))

/-- a sequential part on the window `W` -/
lemma wp_cutW {α : Type} (p : Prog K α) [Cut Res p] {W W' : Win} {v : ℕ → K} {k : α → VProc K Res} {Q : Res → (ℕ → K) → Prop} {post : α → (ℕ → ℕ → K) → Prop}
    (hl : W'.c ≤ W'.ld) (hW : ∀ x, W'.Has x ↔ W.Has x)
    (hr : ∀ m : Mem K, m.val = v → On m m W' (fun i j => v (W'.adr i j)) → Run p m (fun a m' => ∃ Y, post a Y ∧ On m m' W' Y))
    (hk : ∀ a Y v', post a Y → Vals W' Y v' → wp (k a) W.Has (fun _ => False) (fun _ => False) v' Q) :
    wp (Cut.tr p k) W.Has (fun _ => False) (fun _ => False) v Q := by
  obtain ⟨m, hwf, hmv, hok⟩ := exists_mem v (FinS.has W')
  refine wp_cut p m hmv (fun i hi => Or.inl ((hW i).1 ((hok i).1 hi))) (hr m hmv ⟨hwf, fun a ha => (hok a).2 ha, hl, (Step.refl (fun _ _ _ _ => by show m.val _ = _; rw [hmv]))⟩) ?_
  rintro a m' ⟨Y, h1, h2⟩ _ _
  exact hk a Y m'.val h1 (fun i hi j hj => h2.val hi hj)

end Verif.ParV
