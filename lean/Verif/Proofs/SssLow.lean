import Verif.Proofs.SssUp

/-!
# `DenseToSSS`: below the diagonal
-/

namespace Verif.FF

open Finset Verif.Spec Verif.Spec.Perm Verif.Pluq Verif.Perm

variable {K : Type} [Field K] [DecidableEq K] {m0 m : Mem K} {N s fs H T : ℕ} {G : SssPtr} {α : ℕ → ℕ → K}

/-- contents of the copy of the matrix while the blocks below the diagonal are treated -/
structure LowMat (N s : ℕ) (α VH : ℕ → ℕ → K) (gg : ℕ → ℕ → ℕ → K) (b : ℕ) : Prop where
  cur : ∀ l < s, ∀ i, (b + 1) * s ≤ i → i < N → VH i (b * s + l) = gg b i l
  low : ∀ c i j, c * s ≤ i → i < N → j < c * s → (b + 1) * s ≤ j → VH i j = α i j

section
variable (cat : Cat) {g : GemmFn K} {ts : TrsmFn K} (hg : GemmOk g) (ht : TrsmOk ts) (thr : ℕ) (jk : List ℕ → ℕ → ℕ)
include hg ht

lemma d2sLow1_spec {V : Option SssIx → ℕ → ℕ → K} (hs : 0 < s) (hN : s < N) (hfs : fs = min s (N - s)) (h : Wins m0 m (win8 G N s H) V)
    (hH : ∀ c i j, c * s ≤ i → i < N → j < c * s → V none i j = α i j) (hz : fs < s → ∀ a < s, ∀ l < s, V (some .Q) a l = 0) :
    Run (d2sLow1 cat g ts thr jk (N - sssLs N s) N s fs G H) m (fun _ m' => ∃ V' gg, Wins m0 m' (win8 G N s H) V' ∧
      LowFacts N s α (V' (some .P)) (V' (some .Q)) (V' (some .R)) gg 0 ∧ LowMat N s α (V' none) gg 0 ∧
      ∀ x, x ≠ none → x ≠ some .P → x ≠ some .Q → x ≠ some .R → V' x = V x) := by
  have l1 := sssLs_le (N := N) hs
  have l2 : s ≤ N - sssLs N s := by
    have e := sssN (N := N) (s := s) (by omega) hs
    have hk : sssK N s - 1 ≠ 0 := fun q => by rw [q] at e; omega
    have := mul_blk (s := s) (show 0 + 1 ≤ sssK N s - 1 by omega)
    omega
  have l0 := sssLs_pos (N := N) hs
  unfold d2sLow1
  rw [Run_bind]
  refine (h.pluq cat hg ht thr jk none s 0 (X := fun i j => α (s + i) j) (by simp only [win8, ocons]; omega) (by simp only [win8, ocons]; omega)
    (fun a ha b hb => by rw [Nat.zero_add]; exact hH 1 _ _ (by omega) (by omega) (by omega)) (by omega) l2 (by simp [win8, ocons, Win.adr]) rfl).mono ?_
  rintro ⟨r, p, q⟩ m1 ⟨pl, ql, pt, qt, Z, F, h1⟩
  simp only at pl ql pt qt F
  have rM := F.rM
  have rN := F.rN
  generalize e1 : Function.update V none _ = V1 at h1
  simp only
  apply Run_two
  refine (h1.Uq false (some .Q) none 0 0 s s 0 (N - s) (Z := Z) (by simp only [win8, ocons, sssWin]; omega) (by simp only [win8, ocons, sssWin]; omega)
    (by simp only [win8, ocons]; omega) (by simp only [win8, ocons]; omega)
    (h1.disj_sub (by decide) (by simp only [win8, ocons]; omega) (by simp only [win8, ocons]; omega) (by simp only [win8, ocons, sssWin]; omega)
      (by simp only [win8, ocons, sssWin]; omega))
    (fun a ha b hb => by rw [← e1, Function.update_self, upd_in ha hb]) rN (by omega) (by omega) (show r ≤ fs by omega) (by omega) (fun _ => rfl)
    (fun a ha b hb q => by
      have := q rfl
      rw [← e1, Function.update_of_ne (by decide)]; exact hz (by omega) _ (by omega) _ (by omega)) ql qt (by simp [win8, ocons, Win.adr]) rfl
    (by simp [win8, ocons, sssWin, Win.adr]) rfl).mono (fun _ m2 h2 => ?_)
  generalize e2 : Function.update V1 (some SssIx.Q) _ = V2 at h2
  apply Run_two
  refine (h2.pL_in none s 0 (Z := Z) (by simp only [win8, ocons]; omega) (by simp only [win8, ocons]; omega)
    (fun a ha b hb => by rw [← e2, Function.update_of_ne (by decide), ← e1, Function.update_self, upd_in ha hb]) rM rN pl pt
    (by simp [win8, ocons, Win.adr]) rfl).mono (fun _ m3 h3 => ?_)
  generalize e3 : Function.update V2 none _ = V3 at h3
  refine (h3.copy (some .P) none 0 0 s 0 (x := facL Z (ofSwaps p.get (N - s)) r) (by decide) (by simp only [win8, ocons, sssWin]; omega)
    (by simp only [win8, ocons, sssWin]; omega)
    (by simp only [win8, ocons]; omega) (by simp only [win8, ocons]; omega)
    (fun a ha b hb => by rw [← e3, Function.update_self, upd_in (by omega) hb]) (by simp [win8, ocons, Win.adr]) rfl
    (by simp [win8, ocons, sssWin, Win.adr]) rfl).mono (fun _ m4 h4 => ?_)
  generalize e4 : Function.update V3 (some SssIx.P) _ = V4 at h4
  have vH : V4 none = upd s 0 (N - s) s (facL Z (ofSwaps p.get (N - s)) r) (V2 none) := by
    rw [← e4, Function.update_of_ne (by decide), ← e3, Function.update_self]
  have vH2 : V2 none = upd s 0 (N - s) s Z (V none) := by
    rw [← e2, Function.update_of_ne (by decide), ← e1, Function.update_self]
  refine ⟨V4, _, h4, LowFacts.start F (fun l hl a ha => ?_) (fun y hy l hl hyN => ?_), ⟨fun l hl i h1 h2 => ?_, fun c i j h1 h2 h3 h4 => ?_⟩,
    fun x x1 x2 x3 x4 => ?_⟩
  · rw [← e4, Function.update_of_ne (by decide), ← e3, Function.update_of_ne (by decide), ← e2, Function.update_self]
    conv_lhs => rw [← Nat.zero_add a, ← Nat.zero_add l]
    rw [upd_in hl ha]
  · rw [← e4, Function.update_self]
    conv_lhs => rw [← Nat.zero_add l, ← Nat.zero_add y]
    rw [upd_in (by omega) hl]
  · rw [vH, upd_in' (by omega)]
    simp only [Nat.zero_mul, Nat.zero_add, Nat.sub_zero]
  · rw [vH, upd_out (by omega), vH2, upd_out (by omega)]
    exact hH c i j h1 h2 h3
  · rw [← e4, Function.update_of_ne x2, ← e3, Function.update_of_ne x1, ← e2, Function.update_of_ne x3, ← e1, Function.update_of_ne x1]

lemma d2sLowStep_spec {V : Option (Option SssIx) → ℕ → ℕ → K} {gg : ℕ → ℕ → ℕ → K} {b : ℕ} (hs : 0 < s) (hN : s < N) (hb : b + 2 < sssK N s)
    (hQ : QuasiSep N s α) (h : Wins m0 m (win9 G N s H T s (2 * s)) V)
    (u : LowFacts N s α (V (some (some .P))) (V (some (some .Q))) (V (some (some .R))) gg b) (hM : LowMat N s α (V (some none)) gg b) :
    Run (d2sLowStep cat g ts thr jk (N - sssLs N s) N s (sssLs N s) G H T b (decide (b = sssK N s - 3))) m
      (fun _ m' => ∃ V' gg', Wins m0 m' (win9 G N s H T s (2 * s)) V' ∧
      LowFacts N s α (V' (some (some .P))) (V' (some (some .Q))) (V' (some (some .R))) gg' (b + 1) ∧ LowMat N s α (V' (some none)) gg' (b + 1) ∧
      ∀ x, x ≠ none → x ≠ some .P → x ≠ some .Q → x ≠ some .R → V' (some x) = V (some x)) := by
  obtain ⟨z1, z2, z3, e2, e1, z4⟩ := d2s_sizes hs hN hb
  have l0 := sssLs_pos (N := N) hs
  have l1 := sssLs_le (N := N) hs
  have e3 : (b + 1 + 1) * s = (b + 2) * s := by ring
  have zb : (if decide (b = sssK N s - 3) = true then sssLs N s else s) = min s (N - (b + 2) * s) := by
    have e := sssN (N := N) (s := s) (by omega) hs
    by_cases c : b = sssK N s - 3
    · rw [if_pos (by simpa using c)]
      have : b + 2 = sssK N s - 1 := by omega
      rw [← this] at e
      omega
    · rw [if_neg (by simpa using c)]
      have := Nat.mul_le_mul_right s (show b + 3 ≤ sssK N s - 1 by omega)
      have : (b + 3) * s = (b + 2) * s + s := by ring
      omega
  unfold d2sLowStep
  simp only [Nat.mul_comm s 2, Nat.mul_comm s (b + 2)]
  rw [zb, Run_bind]
  refine (h.pluq cat hg ht thr jk (some none) ((b + 2) * s) (b * s) (X := lowY s b α (gg b)) (by simp only [win9, win8, ocons]; omega)
    (by simp only [win9, win8, ocons]; omega) (fun x hx y hy => ?_) (by omega) (by omega) (by simp only [win9, win8, ocons, Win.adr]; ring) rfl).mono ?_
  · unfold lowY
    by_cases c : y < s
    · rw [if_pos c]; exact hM.cur y c _ (by omega) (by omega)
    · rw [if_neg c, ← hM.low (b + 2) _ _ (by omega) (by omega) (by omega) (by omega)]
      congr 1; omega
  rintro ⟨r, p, q⟩ m1 ⟨pl, ql, pt, qt, Z, F, h1⟩
  simp only at pl ql pt qt F
  have rs : r ≤ s := by
    have := lowY_rank u hQ z1
    unfold rk at this
    rwa [F.rank_eq] at this
  have rM := F.rM
  generalize f1 : Function.update V (some none) _ = V1 at h1
  simp only
  rw [Run_bind]
  refine (h1.zero none 0 0 (by simp only [win9, ocons]; omega) (by simp only [win9, ocons]; omega) (by simp [win9, ocons, Win.adr]) rfl).mono (fun _ m2 h2 => ?_)
  generalize f2 : Function.update V1 none _ = V2 at h2
  apply Run_two
  refine (h2.Uq true none (some none) 0 0 s ((b + 2) * s) (b * s) (N - (b + 2) * s) (Z := Z) (by simp only [win9, ocons]; omega)
    (by simp only [win9, ocons]; omega) (by simp only [win9, win8, ocons]; omega) (by simp only [win9, win8, ocons]; omega)
    (h2.disj_sub (by decide) (by simp only [win9, win8, ocons]; omega) (by simp only [win9, win8, ocons]; omega) (by simp only [win9, ocons]; omega)
      (by simp only [win9, ocons]; omega))
    (fun x hx y hy => by rw [← f2, Function.update_of_ne (by decide), ← f1, Function.update_self, upd_in hx hy]) (by omega) (by omega) (by omega) rs le_rfl
    (by simp)
    (fun x hx y hy _ => by rw [← f2, Function.update_self, upd_in hx hy]) ql qt (by simp only [win9, win8, ocons, Win.adr]; ring) rfl
    (by simp [win9, ocons, Win.adr]) rfl).mono (fun _ m3 h3 => ?_)
  generalize f3 : Function.update V2 none _ = V3 at h3
  have t3 : ∀ x < s, ∀ y < 2 * s, V3 none x y = facU Z (ofSwaps q.get (2 * s)) r x y := fun x hx y hy => by
    rw [← f3, Function.update_self]
    conv_lhs => rw [← Nat.zero_add x, ← Nat.zero_add y]
    rw [upd_in hx hy]
  rw [Run_bind]
  refine (h3.copy (some (some .R)) none (b * s) 0 0 0 (x := facU Z (ofSwaps q.get (2 * s)) r) (by decide) (by simp only [win9, win8, ocons, sssWin]; omega)
    (by simp only [win9, win8, ocons, sssWin]; omega) (by simp only [win9, ocons]; omega) (by simp only [win9, ocons]; omega)
    (fun x hx y hy => by rw [Nat.zero_add, Nat.zero_add]; exact t3 x hx y (by omega)) (by simp [win9, ocons, Win.adr]) rfl
    (by simp only [win9, win8, ocons, sssWin, Win.adr]; ring) rfl).mono (fun _ m4 h4 => ?_)
  generalize f4 : Function.update V3 (some (some SssIx.R)) _ = V4 at h4
  rw [Run_bind]
  refine (h4.copy (some (some .Q)) none ((b + 1) * s) 0 0 s (x := fun x y => facU Z (ofSwaps q.get (2 * s)) r x (s + y)) (by decide)
    (by simp only [win9, win8, ocons, sssWin]; omega)
    (by simp only [win9, win8, ocons, sssWin]; omega) (by simp only [win9, ocons]; omega) (by simp only [win9, ocons]; omega)
    (fun x hx y hy => by rw [Nat.zero_add, ← f4, Function.update_of_ne (by decide)]; exact t3 _ hx _ (by omega)) (by simp [win9, ocons, Win.adr]) rfl
    (by simp only [win9, win8, ocons, sssWin, Win.adr]; ring) rfl).mono (fun _ m5 h5 => ?_)
  generalize f5 : Function.update V4 (some (some SssIx.Q)) _ = V5 at h5
  have vH5 : V5 (some none) = upd ((b + 2) * s) (b * s) (N - (b + 2) * s) (2 * s) Z (V (some none)) := by
    rw [← f5, Function.update_of_ne (by decide), ← f4, Function.update_of_ne (by decide), ← f3, Function.update_of_ne (by decide), ← f2,
      Function.update_of_ne (by decide), ← f1, Function.update_self]
  apply Run_two
  refine (h5.pL false (some none) (some none) ((b + 2) * s) ((b + 1) * s) s ((b + 2) * s) (b * s) s (Z := Z) (by simp only [win9, win8, ocons]; omega)
    (by simp only [win9, win8, ocons]; omega) (by simp only [win9, win8, ocons]; omega) (by simp only [win9, win8, ocons]; omega)
    ((h5.on (some none)).disj2 _ _ _ _ (by simp only [win9, win8, ocons]; omega) (by simp only [win9, win8, ocons]; omega)
      (by simp only [win9, win8, ocons]; omega) (by simp only [win9, win8, ocons]; omega) (by omega))
    (fun x hx y hy => by rw [vH5, upd_in hx (by omega)]) (by omega) (by omega) (by omega) (by omega) (by omega) (fun _ => rfl)
    (fun x hx y hy hq => absurd (hq rfl) (by omega)) pl pt (by simp only [win9, win8, ocons, Win.adr]; ring) rfl
    (by simp only [win9, win8, ocons, Win.adr]; ring) rfl).mono (fun _ m6 h6 => ?_)
  generalize f6 : Function.update V5 (some none) _ = V6 at h6
  have vH6 : V6 (some none) = upd ((b + 2) * s) ((b + 1) * s) (N - (b + 2) * s) s (facL Z (ofSwaps p.get (N - (b + 2) * s)) r) (V5 (some none)) := by
    rw [← f6, Function.update_self]
  refine (h6.copy (some (some .P)) (some none) ((b + 1) * s) 0 ((b + 2) * s) ((b + 1) * s) (x := facL Z (ofSwaps p.get (N - (b + 2) * s)) r) (by decide)
    (by simp only [win9, win8, ocons, sssWin]; omega)
    (by simp only [win9, win8, ocons, sssWin]; omega) (by simp only [win9, win8, ocons]; omega) (by simp only [win9, win8, ocons]; omega)
    (fun x hx y hy => by rw [vH6, upd_in (by omega) hy]) (by simp only [win9, win8, ocons, Win.adr]; ring) rfl
    (by simp only [win9, win8, ocons, sssWin, Win.adr]; ring) rfl).mono (fun _ m7 h7 => ?_)
  generalize f7 : Function.update V6 (some (some SssIx.P)) _ = V7 at h7
  have vH : V7 (some none) = V6 (some none) := by rw [← f7, Function.update_of_ne (by decide)]
  have vQ : V7 (some (some .Q)) = upd ((b + 1) * s) 0 s s (fun x y => facU Z (ofSwaps q.get (2 * s)) r x (s + y)) (V (some (some .Q))) := by
    rw [← f7, Function.update_of_ne (by decide), ← f6, Function.update_of_ne (by decide), ← f5, Function.update_self, ← f4, Function.update_of_ne (by decide),
      ← f3, Function.update_of_ne (by decide), ← f2, Function.update_of_ne (by decide), ← f1, Function.update_of_ne (by decide)]
  have vR : V7 (some (some .R)) = upd (b * s) 0 s s (facU Z (ofSwaps q.get (2 * s)) r) (V (some (some .R))) := by
    rw [← f7, Function.update_of_ne (by decide), ← f6, Function.update_of_ne (by decide), ← f5, Function.update_of_ne (by decide), ← f4, Function.update_self,
      ← f3, Function.update_of_ne (by decide), ← f2, Function.update_of_ne (by decide), ← f1, Function.update_of_ne (by decide)]
  have vP : V7 (some (some .P)) = upd ((b + 1) * s) 0 (min s (N - (b + 2) * s)) s (facL Z (ofSwaps p.get (N - (b + 2) * s)) r)
      (V (some (some .P))) := by
    rw [← f7, Function.update_self, ← f6, Function.update_of_ne (by decide), ← f5, Function.update_of_ne (by decide), ← f4, Function.update_of_ne (by decide),
      ← f3, Function.update_of_ne (by decide), ← f2, Function.update_of_ne (by decide), ← f1, Function.update_of_ne (by decide)]
  refine ⟨V7, _, h7, LowFacts.next u F rs (fun i hi l hl => ?_) (fun i hi l hl => ?_) (fun i hi l hl => ?_) (fun l hl a ha => ?_)
    (fun x hx l hl => ?_) (fun y hy l hl hyN => ?_), ⟨fun l hl i h1 h2 => ?_, fun c i j h1 h2 h3 h4 => ?_⟩, fun x x1 x2 x3 x4 => ?_⟩
  · rw [vQ, upd_out (by omega)]
  · rw [vP, upd_out (by omega)]
  · rw [vR, upd_out (by omega)]
  · rw [vQ, upd_in' (by omega)]
    congr 1; omega
  · rw [vR, upd_in' (by omega)]
    congr 1; omega
  · rw [vP, upd_in' (by omega)]
    congr 1; omega
  · rw [Function.update_self, vH, vH6, upd_in' (by omega)]
    congr 1; omega
  · rw [vH, vH6, upd_out (by omega), vH5, upd_out (by omega)]
    exact hM.low c i j h1 h2 h3 (by omega)
  · rw [← f7, Function.update_of_ne (fun q => x2 (Option.some_injective _ q)), ← f6, Function.update_of_ne (fun q => x1 (Option.some_injective _ q)),
      ← f5, Function.update_of_ne (fun q => x3 (Option.some_injective _ q)), ← f4, Function.update_of_ne (fun q => x4 (Option.some_injective _ q)),
      ← f3, Function.update_of_ne (by simp), ← f2, Function.update_of_ne (by simp), ← f1, Function.update_of_ne (fun q => x1 (Option.some_injective _ q))]

end

end Verif.FF
