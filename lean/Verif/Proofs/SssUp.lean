import Verif.Proofs.SssBuild

/-!
# `DenseToSSS`: above the diagonal
-/

namespace Verif.FF

open Finset Verif.Spec Verif.Spec.Perm Verif.Pluq Verif.Perm

variable {K : Type} [Field K] [DecidableEq K] {m0 m : Mem K} {N s fs H T : ℕ} {G : SssPtr} {α : ℕ → ℕ → K}

inductive SssIx
  | P | Q | R | U | V | W | D
  deriving DecidableEq

/-- the generators as windows -/
def sssWin (G : SssPtr) (N s : ℕ) : SssIx → Win
  | .P => ⟨G.P, G.ldp, N - s, s⟩
  | .Q => ⟨G.Q, G.ldq, N - sssLs N s, s⟩
  | .R => ⟨G.R, G.ldr, N - s - sssLs N s, s⟩
  | .U => ⟨G.U, G.ldu, N - sssLs N s, s⟩
  | .V => ⟨G.V, G.ldv, N - sssLs N s, s⟩
  | .W => ⟨G.W, G.ldw, N - s - sssLs N s, s⟩
  | .D => ⟨G.D, G.ldd, N, s⟩

/-- and the copy of the matrix -/
def win8 (G : SssPtr) (N s H : ℕ) : Option SssIx → Win := ocons ⟨H, N, N, N⟩ (sssWin G N s)

/-- contents of the copy of the matrix while the blocks above the diagonal are treated -/
structure UpMat (N s : ℕ) (α VH : ℕ → ℕ → K) (hh : ℕ → ℕ → ℕ → K) (b : ℕ) : Prop where
  cur : ∀ l < s, ∀ j, (b + 1) * s ≤ j → j < N → VH (b * s + l) j = hh b l j
  rows : ∀ i j, (b + 1) * s ≤ i → i < N → j < N → VH i j = α i j
  low : ∀ c i j, c * s ≤ i → i < N → j < c * s → VH i j = α i j

section
variable (cat : Cat) {g : GemmFn K} {ts : TrsmFn K} (hg : GemmOk g) (ht : TrsmOk ts) (thr : ℕ) (jk : List ℕ → ℕ → ℕ)
include hg ht

lemma d2sUp1_spec {V : Option SssIx → ℕ → ℕ → K} (hs : 0 < s) (hN : s < N) (hfs : fs = min s (N - s)) (h : Wins m0 m (win8 G N s H) V)
    (hH : ∀ i < N, ∀ j < N, V none i j = α i j) (hz : fs < s → ∀ a < s, ∀ l < s, V (some .U) a l = 0) :
    Run (d2sUp1 cat g ts thr jk (N - sssLs N s) N s fs G H) m (fun _ m' => ∃ V' hh, Wins m0 m' (win8 G N s H) V' ∧
      UpFacts N s α (V' (some .U)) (V' (some .V)) (V' (some .W)) hh 0 ∧ UpMat N s α (V' none) hh 0 ∧
      ∀ x, x ≠ none → x ≠ some .U → x ≠ some .V → x ≠ some .W → V' x = V x) := by
  have l1 := sssLs_le (N := N) hs
  have l2 : s ≤ N - sssLs N s := by
    have e := sssN (N := N) (s := s) (by omega) hs
    have hk : sssK N s - 1 ≠ 0 := fun q => by rw [q] at e; omega
    have := mul_blk (s := s) (show 0 + 1 ≤ sssK N s - 1 by omega)
    omega
  have l0 := sssLs_pos (N := N) hs
  unfold d2sUp1
  rw [Run_bind]
  refine (h.pluq cat hg ht thr jk none 0 s (X := fun i j => α i (s + j)) (by simp only [win8, ocons]; omega) (by simp only [win8, ocons]; omega)
    (fun a ha b hb => by rw [Nat.zero_add]; exact hH _ (by omega) _ (by omega)) l2 (by omega) (by simp [win8, ocons, Win.adr]) rfl).mono ?_
  rintro ⟨r, p, q⟩ m1 ⟨pl, ql, pt, qt, Z, F, h1⟩
  simp only at pl ql pt qt F
  have rM := F.rM
  have rN := F.rN
  generalize e1 : Function.update V none _ = V1 at h1
  simp only
  apply Run_two
  refine (h1.pL false (some .U) none 0 0 s 0 s (N - s) (Z := Z) (by simp only [win8, ocons, sssWin]; omega) (by simp only [win8, ocons, sssWin]; omega)
    (by simp only [win8, ocons]; omega) (by simp only [win8, ocons]; omega)
    (h1.disj_sub (by decide) (by simp only [win8, ocons]; omega) (by simp only [win8, ocons]; omega) (by simp only [win8, ocons, sssWin]; omega)
      (by simp only [win8, ocons, sssWin]; omega))
    (fun a ha b hb => by rw [← e1, Function.update_self, upd_in ha hb]) rM (by omega) (by omega) (show r ≤ fs by omega) (by omega) (fun _ => rfl)
    (fun a ha b hb q => by
      have := q rfl
      rw [← e1, Function.update_of_ne (by decide)]; exact hz (by omega) _ (by omega) _ (by omega)) pl pt (by simp [win8, ocons, Win.adr]) rfl
    (by simp [win8, ocons, sssWin, Win.adr]) rfl).mono (fun _ m2 h2 => ?_)
  generalize e2 : Function.update V1 (some SssIx.U) _ = V2 at h2
  apply Run_two
  refine (h2.Uq_in none 0 s (Z := Z) (by simp only [win8, ocons]; omega) (by simp only [win8, ocons]; omega)
    (fun a ha b hb => by rw [← e2, Function.update_of_ne (by decide), ← e1, Function.update_self, upd_in ha hb]) rM rN ql qt
    (by simp [win8, ocons, Win.adr]) rfl).mono (fun _ m3 h3 => ?_)
  generalize e3 : Function.update V2 none _ = V3 at h3
  refine (h3.copy (some .V) none 0 0 0 s (x := facU Z (ofSwaps q.get (N - s)) r) (by decide) (by simp only [win8, ocons, sssWin]; omega)
    (by simp only [win8, ocons, sssWin]; omega)
    (by simp only [win8, ocons]; omega) (by simp only [win8, ocons]; omega)
    (fun a ha b hb => by rw [← e3, Function.update_self, upd_in ha (by omega)]) (by simp [win8, ocons, Win.adr]) rfl
    (by simp [win8, ocons, sssWin, Win.adr]) rfl).mono (fun _ m4 h4 => ?_)
  generalize e4 : Function.update V3 (some SssIx.V) _ = V4 at h4
  have vH : V4 none = upd 0 s s (N - s) (facU Z (ofSwaps q.get (N - s)) r) (V2 none) := by
    rw [← e4, Function.update_of_ne (by decide), ← e3, Function.update_self]
  have vH2 : V2 none = upd 0 s s (N - s) Z (V none) := by
    rw [← e2, Function.update_of_ne (by decide), ← e1, Function.update_self]
  refine ⟨V4, _, h4, UpFacts.start F (fun a ha l hl => ?_) (fun l hl y hy hyN => ?_), ⟨fun l hl j h1 h2 => ?_, fun i j h1 h2 h3 => ?_, fun c i j h1 h2 h3 => ?_⟩,
    fun x x1 x2 x3 x4 => ?_⟩
  · rw [← e4, Function.update_of_ne (by decide), ← e3, Function.update_of_ne (by decide), ← e2, Function.update_self]
    conv_lhs => rw [← Nat.zero_add a, ← Nat.zero_add l]
    rw [upd_in ha hl]
  · rw [← e4, Function.update_self]
    conv_lhs => rw [← Nat.zero_add l, ← Nat.zero_add y]
    rw [upd_in hl (by omega)]
  · rw [vH, upd_in' (by omega)]
    simp only [Nat.zero_mul, Nat.zero_add, Nat.sub_zero]
  · rw [vH, upd_out (by omega), vH2, upd_out (by omega)]
    exact hH i h2 j h3
  · have : ¬ (i < s ∧ s ≤ j) := by omega
    rw [vH, upd_out (by omega), vH2, upd_out (by omega)]
    exact hH i h2 j (by omega)
  · rw [← e4, Function.update_of_ne x3, ← e3, Function.update_of_ne x1, ← e2, Function.update_of_ne x2, ← e1, Function.update_of_ne x1]

omit hg ht in
/-- sizes met in iteration `b` -/
lemma d2s_sizes (hs : 0 < s) (hN : s < N) {b : ℕ} (hb : b + 2 < sssK N s) : (b + 2) * s < N ∧ (b + 2) * s ≤ N - sssLs N s ∧
    (b + 1) * s ≤ N - s - sssLs N s ∧ (b + 2) * s = b * s + 2 * s ∧ (b + 1) * s = b * s + s ∧ b * s + s + sssLs N s + s ≤ N := by
  have e := sssN (N := N) (s := s) (by omega) hs
  have l0 := sssLs_pos (N := N) hs
  have := Nat.mul_le_mul_right s (show b + 2 ≤ sssK N s - 1 by omega)
  have e2 : (b + 2) * s = b * s + 2 * s := by ring
  have e1 : (b + 1) * s = b * s + s := by ring
  refine ⟨?_, ?_, ?_, e2, e1, ?_⟩ <;> omega

omit hg ht [Field K] [DecidableEq K] in
/-- every cell of a contiguous square matrix -/
lemma full_has {H N x : ℕ} (hx : x < N * N) : (Win.mk H N N N).Has (H + x) := by
  have hN : 0 < N := Nat.pos_of_ne_zero (fun h => by simp [h] at hx)
  refine ⟨x / N, Nat.div_lt_of_lt_mul hx, x % N, Nat.mod_lt _ hN, ?_⟩
  simp only [Win.adr]
  rw [Nat.add_assoc, Nat.mul_comm, Nat.div_add_mod]

/-- and the temporary -/
def win9 (G : SssPtr) (N s H T r c : ℕ) : Option (Option SssIx) → Win := ocons ⟨T, c, r, c⟩ (win8 G N s H)

lemma d2sUpStep_spec {V : Option (Option SssIx) → ℕ → ℕ → K} {hh : ℕ → ℕ → ℕ → K} {b : ℕ} (hs : 0 < s) (hN : s < N) (hb : b + 2 < sssK N s)
    (hQ : QuasiSep N s α) (h : Wins m0 m (win9 G N s H T (2 * s) s) V)
    (u : UpFacts N s α (V (some (some .U))) (V (some (some .V))) (V (some (some .W))) hh b) (hM : UpMat N s α (V (some none)) hh b) :
    Run (d2sUpStep cat g ts thr jk (N - sssLs N s) N s G H T b) m (fun _ m' => ∃ V' hh', Wins m0 m' (win9 G N s H T (2 * s) s) V' ∧
      UpFacts N s α (V' (some (some .U))) (V' (some (some .V))) (V' (some (some .W))) hh' (b + 1) ∧ UpMat N s α (V' (some none)) hh' (b + 1) ∧
      ∀ x, x ≠ none → x ≠ some .U → x ≠ some .V → x ≠ some .W → V' (some x) = V (some x)) := by
  obtain ⟨z1, z2, z3, e2, e1, z4⟩ := d2s_sizes hs hN hb
  have l0 := sssLs_pos (N := N) hs
  have l1 := sssLs_le (N := N) hs
  unfold d2sUpStep
  simp only [Nat.mul_comm s 2, Nat.mul_comm s (b + 2)]
  rw [Run_bind]
  refine (h.pluq cat hg ht thr jk (some none) (b * s) ((b + 2) * s) (X := upY s b α (hh b)) (by simp only [win9, win8, ocons]; omega)
    (by simp only [win9, win8, ocons]; omega) (fun x hx y hy => ?_) (by omega) (by omega) (by simp only [win9, win8, ocons, Win.adr]; ring) rfl).mono ?_
  · unfold upY
    by_cases c : x < s
    · rw [if_pos c]; exact hM.cur x c _ (by omega) (by omega)
    · rw [if_neg c, ← hM.rows _ _ (by omega) (by omega) (by omega)]
      congr 1; omega
  rintro ⟨r, p, q⟩ m1 ⟨pl, ql, pt, qt, Z, F, h1⟩
  simp only at pl ql pt qt F
  have rs : r ≤ s := by
    have := upY_rank u hQ z1
    unfold rk at this
    rwa [F.rank_eq] at this
  have rN := F.rN
  generalize f1 : Function.update V (some none) _ = V1 at h1
  simp only
  rw [Run_bind]
  refine (h1.zero none 0 0 (by simp only [win9, ocons]; omega) (by simp only [win9, ocons]; omega) (by simp [win9, ocons, Win.adr]) rfl).mono (fun _ m2 h2 => ?_)
  generalize f2 : Function.update V1 none _ = V2 at h2
  apply Run_two
  refine (h2.pL true none (some none) 0 0 s (b * s) ((b + 2) * s) (N - (b + 2) * s) (Z := Z) (by simp only [win9, ocons]; omega)
    (by simp only [win9, ocons]; omega) (by simp only [win9, win8, ocons]; omega) (by simp only [win9, win8, ocons]; omega)
    (h2.disj_sub (by decide) (by simp only [win9, win8, ocons]; omega) (by simp only [win9, win8, ocons]; omega) (by simp only [win9, ocons]; omega)
      (by simp only [win9, ocons]; omega))
    (fun x hx y hy => by rw [← f2, Function.update_of_ne (by decide), ← f1, Function.update_self, upd_in hx hy]) (by omega) (by omega) (by omega) rs le_rfl
    (by simp)
    (fun x hx y hy _ => by rw [← f2, Function.update_self, upd_in hx hy]) pl pt (by simp only [win9, win8, ocons, Win.adr]; ring) rfl
    (by simp [win9, ocons, Win.adr]) rfl).mono (fun _ m3 h3 => ?_)
  generalize f3 : Function.update V2 none _ = V3 at h3
  have t3 : ∀ x < 2 * s, ∀ y < s, V3 none x y = facL Z (ofSwaps p.get (2 * s)) r x y := fun x hx y hy => by
    rw [← f3, Function.update_self]
    conv_lhs => rw [← Nat.zero_add x, ← Nat.zero_add y]
    rw [upd_in hx hy]
  rw [Run_bind]
  refine (h3.copy (some (some .W)) none (b * s) 0 0 0 (x := facL Z (ofSwaps p.get (2 * s)) r) (by decide) (by simp only [win9, win8, ocons, sssWin]; omega)
    (by simp only [win9, win8, ocons, sssWin]; omega) (by simp only [win9, ocons]; omega) (by simp only [win9, ocons]; omega)
    (fun x hx y hy => by rw [Nat.zero_add, Nat.zero_add]; exact t3 x (by omega) y hy) (by simp [win9, ocons, Win.adr]) rfl
    (by simp only [win9, win8, ocons, sssWin, Win.adr]; ring) rfl).mono (fun _ m4 h4 => ?_)
  generalize f4 : Function.update V3 (some (some SssIx.W)) _ = V4 at h4
  rw [Run_bind]
  refine (h4.copy (some (some .U)) none ((b + 1) * s) 0 s 0 (x := fun x y => facL Z (ofSwaps p.get (2 * s)) r (s + x) y) (by decide)
    (by simp only [win9, win8, ocons, sssWin]; omega)
    (by simp only [win9, win8, ocons, sssWin]; omega) (by simp only [win9, ocons]; omega) (by simp only [win9, ocons]; omega)
    (fun x hx y hy => by rw [Nat.zero_add, ← f4, Function.update_of_ne (by decide)]; exact t3 _ (by omega) y hy) (by simp [win9, ocons, Win.adr]) rfl
    (by simp only [win9, win8, ocons, sssWin, Win.adr]; ring) rfl).mono (fun _ m5 h5 => ?_)
  generalize f5 : Function.update V4 (some (some SssIx.U)) _ = V5 at h5
  have vH5 : V5 (some none) = upd (b * s) ((b + 2) * s) (2 * s) (N - (b + 2) * s) Z (V (some none)) := by
    rw [← f5, Function.update_of_ne (by decide), ← f4, Function.update_of_ne (by decide), ← f3, Function.update_of_ne (by decide), ← f2,
      Function.update_of_ne (by decide), ← f1, Function.update_self]
  apply Run_two
  refine (h5.Uq false (some none) (some none) ((b + 1) * s) ((b + 2) * s) s (b * s) ((b + 2) * s) s (Z := Z) (by simp only [win9, win8, ocons]; omega)
    (by simp only [win9, win8, ocons]; omega) (by simp only [win9, win8, ocons]; omega) (by simp only [win9, win8, ocons]; omega)
    ((h5.on (some none)).disj2 _ _ _ _ (by simp only [win9, win8, ocons]; omega) (by simp only [win9, win8, ocons]; omega)
      (by simp only [win9, win8, ocons]; omega) (by simp only [win9, win8, ocons]; omega) (by omega))
    (fun x hx y hy => by rw [vH5, upd_in (by omega) hy]) (by omega) (by omega) (by omega) (by omega) (by omega) (fun _ => rfl)
    (fun x hx y hy hq => absurd (hq rfl) (by omega)) ql qt (by simp only [win9, win8, ocons, Win.adr]; ring) rfl
    (by simp only [win9, win8, ocons, Win.adr]; ring) rfl).mono (fun _ m6 h6 => ?_)
  generalize f6 : Function.update V5 (some none) _ = V6 at h6
  have vH6 : V6 (some none) = upd ((b + 1) * s) ((b + 2) * s) s (N - (b + 2) * s) (facU Z (ofSwaps q.get (N - (b + 2) * s)) r) (V5 (some none)) := by
    rw [← f6, Function.update_self]
  -- the copy may read beyond the end of the rows
  have hin : ∀ a, (Win.mk (H + s * N * (b + 1) + (b + 2) * s) N s s).Has a → (Win.mk H N N N).Has a := by
    rintro a ⟨x, hx, y, hy, rfl⟩
    have : (Win.mk (H + s * N * (b + 1) + (b + 2) * s) N s s).adr x y = H + (((b + 1) * s + x) * N + ((b + 2) * s + y)) := by
      simp only [Win.adr]; ring
    rw [this]
    apply full_has
    simp only at hx hy
    have l := Nat.mul_le_mul_right N (show (b + 1) * s + x + 2 ≤ N by omega)
    have : ((b + 1) * s + x + 2) * N = ((b + 1) * s + x) * N + 2 * N := by ring
    omega
  have sV : Src m6 ⟨H + s * N * (b + 1) + (b + 2) * s, N, s, s⟩ (fun x y => m6.val ((Win.mk H N N N).adr ((b + 1) * s + x) ((b + 2) * s + y))) := by
    refine ⟨fun a ha => (h6.on (some none)).ok a (hin a ha), by simp only []; omega, fun x hx y hy => ?_⟩
    congr 1
    simp only [Win.adr]; ring
  refine (h6.assign (some (some .V)) sV ((b + 1) * s) 0 (by simp only [win9, win8, ocons, sssWin]; omega)
    (by simp only [win9, win8, ocons, sssWin]; omega) (fun a ha => h6.disj (some none) (some (some .V)) (by decide) a (hin a ha))
    (by simp only [win9, win8, ocons, sssWin, Win.adr]; ring) rfl).mono (fun _ m7 h7 => ?_)
  generalize f7 : Function.update V6 (some (some SssIx.V)) _ = V7 at h7
  have vH : V7 (some none) = V6 (some none) := by rw [← f7, Function.update_of_ne (by decide)]
  have vU : V7 (some (some .U)) = upd ((b + 1) * s) 0 s s (fun x y => facL Z (ofSwaps p.get (2 * s)) r (s + x) y) (V (some (some .U))) := by
    rw [← f7, Function.update_of_ne (by decide), ← f6, Function.update_of_ne (by decide), ← f5, Function.update_self, ← f4, Function.update_of_ne (by decide),
      ← f3, Function.update_of_ne (by decide), ← f2, Function.update_of_ne (by decide), ← f1, Function.update_of_ne (by decide)]
  have vW : V7 (some (some .W)) = upd (b * s) 0 s s (facL Z (ofSwaps p.get (2 * s)) r) (V (some (some .W))) := by
    rw [← f7, Function.update_of_ne (by decide), ← f6, Function.update_of_ne (by decide), ← f5, Function.update_of_ne (by decide), ← f4, Function.update_self,
      ← f3, Function.update_of_ne (by decide), ← f2, Function.update_of_ne (by decide), ← f1, Function.update_of_ne (by decide)]
  have vV : V7 (some (some .V)) = upd ((b + 1) * s) 0 s s (fun x y => m6.val ((Win.mk H N N N).adr ((b + 1) * s + x) ((b + 2) * s + y)))
      (V (some (some .V))) := by
    rw [← f7, Function.update_self, ← f6, Function.update_of_ne (by decide), ← f5, Function.update_of_ne (by decide), ← f4, Function.update_of_ne (by decide),
      ← f3, Function.update_of_ne (by decide), ← f2, Function.update_of_ne (by decide), ← f1, Function.update_of_ne (by decide)]
  have e3 : (b + 1 + 1) * s = (b + 2) * s := by ring
  refine ⟨V7, _, h7, UpFacts.next u F rs (fun i hi l hl => ?_) (fun i hi l hl => ?_) (fun i hi l hl => ?_) (fun a ha l hl => ?_)
    (fun a ha l hl => ?_) (fun l hl y hy hyN => ?_), ⟨fun l hl j h1 h2 => ?_, fun i j h1 h2 h3 => ?_, fun c i j h1 h2 h3 => ?_⟩, fun x x1 x2 x3 x4 => ?_⟩
  · rw [vU, upd_out (by omega)]
  · rw [vV, upd_out (by omega)]
  · rw [vW, upd_out (by omega)]
  · rw [vU, upd_in' (by omega)]
    congr 1; omega
  · rw [vW, upd_in' (by omega)]
    congr 1; omega
  · rw [vV, upd_in' (by omega)]
    have := h6.val (some none) ((b + 1) * s + l) (by simp only [win9, win8, ocons]; omega) ((b + 2) * s + y) (by simp only [win9, win8, ocons]; omega)
    simp only [win9, win8, ocons] at this
    simp only [Nat.add_sub_cancel_left, Nat.sub_zero]
    rw [this, vH6, upd_in hl (by omega)]
  · rw [Function.update_self, vH, vH6, upd_in' (by omega)]
    congr 1; omega
  · rw [vH, vH6, upd_out (by omega), vH5, upd_out (by omega)]
    exact hM.rows i j (by omega) h2 h3
  · have : ¬ (i < (b + 2) * s ∧ (b + 2) * s ≤ j) := by omega
    rw [vH, vH6, upd_out (by omega), vH5, upd_out (by omega)]
    exact hM.low c i j h1 h2 h3
  · rw [← f7, Function.update_of_ne (fun q => x3 (Option.some_injective _ q)), ← f6, Function.update_of_ne (fun q => x1 (Option.some_injective _ q)),
      ← f5, Function.update_of_ne (fun q => x2 (Option.some_injective _ q)), ← f4, Function.update_of_ne (fun q => x4 (Option.some_injective _ q)),
      ← f3, Function.update_of_ne (by simp), ← f2, Function.update_of_ne (by simp), ← f1, Function.update_of_ne (fun q => x1 (Option.some_injective _ q))]

end

end Verif.FF
