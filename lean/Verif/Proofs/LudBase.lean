import Verif.Proofs.LudStep

/-!
# LUdivine on a single row or column
-/

namespace Verif.FF

open Finset Verif.Perm Verif.Spec Verif.Spec.Perm Verif.Pluq Verif.Lud

variable {K : Type} [Field K] [DecidableEq K]
variable {ta : Tr} {m0 m m' : Mem K} {W : Win} {X V : ℕ → ℕ → K} {d : Diag} {sing : Bool}

omit [DecidableEq K] in
lemma cup_zero {M N : ℕ} {X Y : ℕ → ℕ → K} {p q : ℕ → ℕ} (hp : ∀ j < N, p j = j) (hX : ∀ i < M, ∀ j < N, X i j = 0) (hY : ∀ i < M, ∀ j < N, Y i j = 0) :
    Cup d M N X Y p q 0 :=
  ⟨⟨by omega, fun k hk => by omega, fun k l h hl => by omega, fun k hk => by omega, fun i hi j hj => by
    rw [hp j hj, range_zero, sum_empty]; exact hX i hi j hj⟩,
    ⟨fun j hj => by rw [hp j hj]; exact hj, fun i hi j hj e => by rwa [hp i hi, hp j hj] at e⟩, fun k hk => by omega, fun i hi j hj _ _ => hY i hi j hj⟩

omit [DecidableEq K] in
lemma cup_col {M a : ℕ} {X Y : ℕ → ℕ → K} {p q : ℕ → ℕ} (hp : p 0 = 0) (hq : q 0 = a) (ha : a < M) (hz : ∀ i < a, X i 0 = 0) (hn : X a 0 ≠ 0)
    (h1 : d = .unit → ∀ i < M, Y i 0 = X i 0)
    (h2 : d = .nonUnit → Y 0 0 = X a 0 ∧ (∀ i, 1 ≤ i → i ≤ a → Y i 0 = 0) ∧ ∀ i < M, a < i → Y i 0 * X a 0 = X i 0) :
    Cup d M 1 X Y p q 1 := by
  refine ⟨⟨le_rfl, fun k hk => ?_, fun k l h hl => by omega, fun k hk => ?_, fun i hi j hj => ?_⟩, ⟨fun j hj => ?_, fun i hi j hj _ => by omega⟩,
    fun k hk i hi c1 c2 => ?_, fun i _ j hj _ h => by omega⟩
  · obtain rfl : k = 0 := by omega
    omega
  · obtain rfl : k = 0 := by omega
    cases d
    · simp only []
      rw [(h2 rfl).1]; exact hn
    · simp only []
      rw [hq, h1 rfl a ha]; exact hn
  · obtain rfl : j = 0 := by omega
    rw [hp, sum_range_one]
    rcases Nat.lt_trichotomy i a with c | c | c
    · rw [cupC_lt (by omega), hz i c, zero_mul]
    · subst c
      cases d
      · rw [← hq, cupC_eq_nonUnit, luU_diag_nonUnit, one_mul, hq, (h2 rfl).1]
      · rw [← hq, cupC_eq_unit, luU_diag_unit, mul_one, hq, h1 rfl i hi]
    · rw [cupC_gt (by omega)]
      cases d
      · rw [luU_diag_nonUnit, (h2 rfl).1, (h2 rfl).2.2 i hi c]
      · rw [luU_diag_unit, mul_one, h1 rfl i hi]
  · obtain rfl : j = 0 := by omega
    omega
  · obtain rfl : k = 0 := by omega
    rw [hq] at c2
    cases d
    · simp only [ub] at c1 c2
      exact (h2 rfl).2.1 i (by omega) (by omega)
    · simp only [ub] at c1 c2
      rw [h1 rfl i hi]; exact hz i (by omega)

omit [DecidableEq K] in
lemma cup_row {N a : ℕ} {X Y : ℕ → ℕ → K} {p q : ℕ → ℕ} (hp : ∀ j < N, p j = Equiv.swap 0 a j) (hq : q 0 = 0) (ha : a < N) (hn : X 0 a ≠ 0)
    (h1 : d = .nonUnit → ∀ j < N, Y 0 j = X 0 (Equiv.swap 0 a j))
    (h2 : d = .unit → Y 0 0 = X 0 a ∧ ∀ j < N, 1 ≤ j → X 0 a * Y 0 j = X 0 (Equiv.swap 0 a j)) :
    Cup d 1 N X Y p q 1 := by
  refine ⟨⟨by omega, fun k hk => ?_, fun k l h hl => by omega, fun k hk => ?_, fun i hi j hj => ?_⟩, ⟨fun j hj => ?_, fun i hi j hj e => ?_⟩,
    fun k hk i hi c1 c2 => ?_, fun i _ j hj h _ => by omega⟩
  · obtain rfl : k = 0 := by omega
    omega
  · obtain rfl : k = 0 := by omega
    cases d
    · simp only []
      rw [h1 rfl 0 (by omega), Equiv.swap_apply_left]; exact hn
    · simp only []
      rw [hq, (h2 rfl).1]; exact hn
  · obtain rfl : i = 0 := by omega
    rw [hp j hj, sum_range_one]
    cases d
    · have : cupC .nonUnit Y q (q 0) 0 = 1 := cupC_eq_nonUnit
      rw [hq] at this
      rw [this, one_mul, ← h1 rfl j hj]
      rcases Nat.eq_zero_or_pos j with c | c
      · subst c; rw [luU_diag_nonUnit]
      · rw [luU_lt c]
    · have : cupC .unit Y q (q 0) 0 = Y (q 0) 0 := cupC_eq_unit
      rw [hq] at this
      rw [this, (h2 rfl).1]
      rcases Nat.eq_zero_or_pos j with c | c
      · subst c; rw [luU_diag_unit, mul_one, Equiv.swap_apply_left]
      · rw [luU_lt c, (h2 rfl).2 j hj c]
  · rw [hp j hj]; exact swap_lt (by omega) ha hj
  · rw [hp i hi, hp j hj] at e; exact (Equiv.swap 0 a).injective e
  · obtain rfl : k = 0 := by omega
    obtain rfl : i = 0 := by omega
    rw [hq] at c2
    cases d <;> simp only [ub] at c1 c2 <;> omega

lemma scanRow_spec (h : OnL ta m0 m W V) (hr : 0 < lr ta W) : ∀ (f ip : ℕ), ip < lc ta W → lc ta W - ip ≤ f →
    Run (scanRow W.p (luCol ta W.ld) (lc ta W) f ip) m (fun c m' => m' = m ∧ ip ≤ c ∧ c ≤ lc ta W ∧ (∀ j, ip ≤ j → j < c → V 0 j = 0) ∧
      (c < lc ta W → V 0 c ≠ 0)) := by
  intro f
  induction f with
  | zero => intro ip h1 h2; omega
  | succ f ih =>
    intro ip h1 h2
    unfold scanRow
    have ea : W.p + ip * luCol ta W.ld = ladr ta W 0 ip := by rw [← ladr_eq]; ring
    rw [ea, Run_bind, Run_load]
    refine ⟨h.okc hr h1, ?_⟩
    rw [h.val hr h1]
    rif c
    · rif c'
      · rw [Run_pure]
        exact ⟨rfl, by omega, by omega, fun j hj hj' => by obtain rfl : j = ip := by omega
                                                           exact c, fun hh => by omega⟩
      · refine (ih (ip + 1) (by omega) (by omega)).mono ?_
        rintro x m' ⟨e1, e2, e3, e4, e5⟩
        refine ⟨e1, by omega, e3, fun j hj hj' => ?_, e5⟩
        by_cases cj : j = ip
        · rw [cj]; exact c
        · exact e4 j (by omega) hj'
    · rw [Run_pure]
      exact ⟨rfl, le_rfl, by omega, fun j hj hj' => by omega, fun _ => c⟩

lemma scanCol_spec (h : OnL ta m0 m W V) (hc : 0 < lc ta W) : ∀ (f ip : ℕ), ip ≤ lr ta W → lr ta W - ip < f →
    Run (scanCol W.p (luRow ta W.ld) (lr ta W) f ip) m (fun c m' => m' = m ∧ ip ≤ c ∧ c ≤ lr ta W ∧ (∀ j, ip ≤ j → j < c → V j 0 = 0) ∧
      (c < lr ta W → V c 0 ≠ 0)) := by
  intro f
  induction f with
  | zero => intro ip h1 h2; omega
  | succ f ih =>
    intro ip h1 h2
    unfold scanCol
    rif ci
    · have ea : W.p + ip * luRow ta W.ld = ladr ta W ip 0 := by rw [← ladr_eq]; ring
      rw [ea, Run_bind, Run_load]
      refine ⟨h.okc ci hc, ?_⟩
      rw [h.val ci hc]
      rif c
      · refine (ih (ip + 1) (by omega) (by omega)).mono ?_
        rintro x m' ⟨e1, e2, e3, e4, e5⟩
        refine ⟨e1, by omega, e3, fun j hj hj' => ?_, e5⟩
        by_cases cj : j = ip
        · rw [cj]; exact c
        · exact e4 j (by omega) hj'
      · rw [Run_pure]
        exact ⟨rfl, le_rfl, by omega, fun j hj hj' => by omega, fun _ => c⟩
    · rw [Run_pure]
      exact ⟨rfl, le_rfl, h1, fun j hj hj' => by omega, fun hh => absurd hh ci⟩

lemma ludColumn_spec (cat : Cat) {ip : ℕ} (h : OnL ta m0 m W V) (hc : 0 < lc ta W) (hip : ip < lr ta W) (h1 : 0 < ip) (hn : V ip 0 ≠ 0) (hz : ∀ i < ip, V i 0 = 0) :
    Run (ludColumn cat d (lr ta W) W.p (luRow ta W.ld) ip) m (fun _ m' => ∃ Y, OnL ta m0 m' W Y ∧
      (d = .unit → ∀ i < lr ta W, Y i 0 = V i 0) ∧
      (d = .nonUnit → Y 0 0 = V ip 0 ∧ (∀ i, 1 ≤ i → i ≤ ip → Y i 0 = 0) ∧ ∀ i < lr ta W, ip < i → Y i 0 * V ip 0 = V i 0)) := by
  have ea : ∀ i, W.p + i * luRow ta W.ld = ladr ta W i 0 := fun i => by rw [← ladr_eq]; ring
  have e0 : W.p = ladr ta W 0 0 := by rw [← ladr_eq]; ring
  cases d with
  | unit =>
    rw [ludColumn, Run_pure]
    exact ⟨V, h, fun _ _ _ => rfl, fun hh => by simp at hh⟩
  | nonUnit =>
    simp only [ludColumn, ea]
    rw [Run_bind, Run_load]
    refine ⟨h.okc hip hc, ?_⟩
    rw [h.val hip hc, Run_bind, Run_liftE]
    refine (Ok_invE _ _).2 ⟨hn, ?_⟩
    rw [Run_bind]
    have sc : Run (if ip + 1 < lr ta W then vscalin cat (lr ta W - (ip + 1)) (V ip 0)⁻¹ (ladr ta W (ip + 1) 0) (luRow ta W.ld) else pure ()) m
        (fun _ m' => OnL ta m0 m' W (upd (ip + 1) 0 (lr ta W - (ip + 1)) 1 (fun t _ => (V ip 0)⁻¹ * V (ip + 1 + t) 0) V)) := by
      rif c
      · exact scalLc_on cat h _ (by omega) hc
      · rw [Run_pure]
        exact h.congr (fun i hi j hj => by rw [upd_out (by omega)])
    refine sc.mono (fun _ m1 h1' => ?_)
    rw [Run_bind, Run_load]
    refine ⟨h1'.okc hip hc, ?_⟩
    rw [h1'.val hip hc, upd_out (by omega), Run_bind]
    conv in store W.p _ => rw [e0]
    rw [Run_store]
    refine ⟨h1'.okc (by omega) hc, ?_⟩
    have h2 := h1'.set (i := 0) (j := 0) (x := V ip 0) (by omega) hc
    rw [Run_store]
    refine ⟨h2.okc hip hc, _, h2.set (x := 0) hip hc, fun hh => by simp at hh, fun _ => ⟨?_, fun i c1 c2 => ?_, fun i hi c1 => ?_⟩⟩
    · rw [upd_out (by omega), upd_in' (by omega)]
    · by_cases c : i = ip
      · rw [upd_in' (by omega)]
      · rw [upd_out (by omega), upd_out (by omega), upd_out (by omega), hz i (by omega)]
    · rw [upd_out (by omega), upd_out (by omega), upd_in' (by omega), show ip + 1 + (i - (ip + 1)) = i by omega, mul_comm, ← mul_assoc,
        mul_inv_cancel₀ hn, one_mul]

omit [DecidableEq K] in
/-- the properties of a result that is a decomposition, when the matrix has one row or one column -/
lemma LudPost.of_cup {r : ℕ} {P Q : Arr ℕ} {lP lQ : ℕ} {Y : ℕ → ℕ → K} (h1 : P.len = lP) (h2 : Q.len = lQ) (h3 : ∀ i < r, i ≤ P.get i) (h4 : ∀ i < r, P.get i < lc ta W)
    (h5 : OnL ta m0 m W Y) (hC : Cup d (lr ta W) (lc ta W) X Y (ofSwaps P.get r) Q.get r) (hs : sing = true → lr ta W ≤ lc ta W → lr ta W ≤ 1) :
    LudPost sing d ta m0 W X lP lQ (r, P, Q) m := by
  refine ⟨h1, h2, h3, h4, ⟨Y, h5, fun _ => hC⟩, fun s l hz h0 => ?_, fun s l hz => ?_⟩
  · simp only [] at hz
    rw [hC.rank_eq, hz]; omega
  · simp only [] at hz ⊢
    have := hs s l
    have := hC.rM
    omega

theorem ludBase_spec (cat : Cat) {P Q : Arr ℕ} (h : OnL ta m0 m W X) (h1 : min (lr ta W) (lc ta W) = 1) (hP : 1 ≤ P.len) (hQ : lr ta W ≤ Q.len) :
    Run (ludBase cat ta d (lr ta W) (lc ta W) W.p W.ld P Q) m (LudPost sing d ta m0 W X P.len Q.len) := by
  have hr : 0 < lr ta W := by omega
  have hc : 0 < lc ta W := by omega
  have ea : ∀ i, W.p + i * luRow ta W.ld = ladr ta W i 0 := fun i => by rw [← ladr_eq]; ring
  have eb : ∀ j, W.p + j * luCol ta W.ld = ladr ta W 0 j := fun i => by rw [← ladr_eq]; ring
  have eb1 : W.p + luCol ta W.ld = ladr ta W 0 1 := by rw [← eb, Nat.one_mul]
  have e0 : W.p = ladr ta W 0 0 := by rw [← ladr_eq]; ring
  have hsing : sing = true → lr ta W ≤ lc ta W → lr ta W ≤ 1 := fun _ h => by omega
  unfold ludBase
  rw [Run_bind]
  refine (scanRow_spec h hr (lc ta W) 0 hc (by omega)).mono ?_
  rintro ip m1 ⟨rfl, _, hip, hz, hn⟩
  rw [Run_bind, Run_liftE]
  refine (Ok_wr _ _ _ _).2 ⟨by omega, ?_⟩
  rif c1
  · rw [Run_bind, Run_liftE]
    refine (Ok_wr _ _ _ _).2 ⟨by omega, ?_⟩
    rif c2
    · rw [Run_bind]
      refine (scanCol_spec h hc (lr ta W + 1) ip (by omega) (by omega)).mono ?_
      rintro ip2 m2 ⟨rfl, hge, hle, hz2, hn2⟩
      have hz3 : ∀ i < ip2, X i 0 = 0 := fun i hi => by
        rcases Nat.eq_zero_or_pos i with c | c
        · rw [c]; exact hz 0 (by omega) (by omega)
        · exact hz2 i (by omega) hi
      rif c3
      · rw [Run_pure]
        have hz4 : ∀ i < lr ta W, ∀ j < lc ta W, X i j = 0 := fun i hi j hj => by
          obtain rfl : j = 0 := by omega
          exact hz3 i (by omega)
        exact LudPost.of_cup rfl rfl (fun i hi => by omega) (fun i hi => by omega) h
          (cup_zero (fun j _ => rfl) hz4 hz4) hsing
      · rw [Run_bind]
        refine (ludColumn_spec cat (d := d) h hc (by omega) (by omega) (hn2 (by omega)) hz3).mono ?_
        rintro _ m3 ⟨Y, h3, y1, y2⟩
        rw [Run_bind, Run_liftE]
        refine (Ok_wr _ _ _ _).2 ⟨by simp only []; omega, ?_⟩
        rw [Run_pure]
        refine LudPost.of_cup rfl rfl (fun i hi => by omega) (fun i hi => ?_) h3 ?_ hsing
        · obtain rfl : i = 0 := by omega
          simpa using hc
        · rw [c2]
          exact cup_col (a := ip2) (by simp [ofSwaps]) (by simp) (by omega) hz3 (hn2 (by omega)) y1 y2
    · rw [Run_bind, Run_liftE]
      refine (Ok_wr _ _ _ _).2 ⟨by simp only []; omega, ?_⟩
      rw [Run_pure]
      have hz4 : ∀ i < lr ta W, ∀ j < lc ta W, X i j = 0 := fun i hi j hj => by
        obtain rfl : i = 0 := by omega
        exact hz j (by omega) (by omega)
      exact LudPost.of_cup rfl rfl (fun i hi => by omega) (fun i hi => by omega) h
        (cup_zero (fun j _ => rfl) hz4 hz4) hsing
  · have hn := hn (by omega)
    rw [Run_bind, Run_liftE]
    refine (Ok_wr _ _ _ _).2 ⟨by omega, ?_⟩
    rw [Run_bind]
    simp only [ea, eb, eb1]
    have sw : Run (if ip ≠ 0 then do
        let tmp ← load W.p
        let x ← load (ladr ta W 0 ip)
        store W.p x
        store (ladr ta W 0 ip) tmp
      else pure ()) m1 (fun _ m' => ∃ V, OnL ta m0 m' W V ∧ (∀ j < lc ta W, V 0 j = X 0 (Equiv.swap 0 ip j)) ∧
        ∀ i, 1 ≤ i → ∀ j, V i j = X i j) := by
      rif c
      · rw [Run_bind, e0, Run_load]
        refine ⟨h.okc hr hc, ?_⟩
        rw [h.val hr hc, Run_bind, Run_load]
        refine ⟨h.okc hr (by omega), ?_⟩
        rw [h.val hr (by omega), Run_bind, Run_store]
        refine ⟨h.okc hr hc, ?_⟩
        have h2 := h.set (i := 0) (j := 0) (x := X 0 ip) hr hc
        rw [Run_store]
        refine ⟨h2.okc hr (by omega), _, h2.set hr (by omega), fun j hj => ?_, fun i hi j => ?_⟩
        · rw [Equiv.swap_apply_def]
          split_ifs with d1 d2
          · rw [d1, upd_out (by omega), upd_in' (by omega)]
          · rw [upd_in' (by omega)]
          · rw [upd_out (by omega), upd_out (by omega)]
        · rw [upd_out (by omega), upd_out (by omega)]
      · rw [Run_pure]
        have : ip = 0 := by omega
        subst this
        exact ⟨X, h, fun j _ => by simp, fun _ _ _ => rfl⟩
    refine sw.mono ?_
    rintro _ m2 ⟨V, h2, v1, v2⟩
    have v0 : V 0 0 = X 0 ip := by rw [v1 0 hc, Equiv.swap_apply_left]
    conv in load W.p => rw [e0]
    rw [Run_bind, Run_load]
    refine ⟨h2.okc hr hc, ?_⟩
    rw [h2.val hr hc, v0, Run_bind, Run_liftE]
    refine (Ok_invE _ _).2 ⟨hn, ?_⟩
    rw [Run_bind]
    have fin : ∀ Y m', OnL ta m0 m' W Y → Cup d (lr ta W) (lc ta W) X Y (ofSwaps (Function.update P.get 0 ip) 1) (Function.update Q.get 0 0) 1 →
        LudPost sing d ta m0 W X P.len Q.len (1, ⟨P.len, Function.update P.get 0 ip⟩, ⟨Q.len, Function.update Q.get 0 0⟩) m' := by
      intro Y m' h3 hC
      refine LudPost.of_cup rfl rfl (fun i hi => by omega) (fun i hi => ?_) h3 hC hsing
      obtain rfl : i = 0 := by omega
      simp only [Function.update_self]; omega
    have pe : ∀ j, ofSwaps (Function.update P.get 0 ip) 1 j = Equiv.swap 0 ip j := fun j => by simp [ofSwaps]
    rif c2
    · obtain ⟨rfl, c2⟩ := c2
      have r1 : lr ta W = 1 := by omega
      refine (scalL_on cat h2 (i := 0) (j := 1) (n := lc ta W - 1) _ hr (by omega)).mono (fun _ m3 h3 => ?_)
      rw [Run_pure]
      refine fin _ _ h3 ?_
      rw [r1]
      refine cup_row (a := ip) (fun j _ => pe j) (by simp) (by omega) hn (fun hh => by simp at hh) (fun _ => ⟨?_, fun j hj cj => ?_⟩)
      · rw [upd_out (by omega), v0]
      · rw [upd_in' (by omega), ← mul_assoc, mul_inv_cancel₀ hn, one_mul, show 1 + (j - 1) = j by omega, v1 j hj]
    · rif c3
      · obtain ⟨c3, rfl⟩ := c3
        obtain rfl : ip = 0 := by omega
        have sc : Run (if 0 + 1 < lr ta W then vscalin cat (lr ta W - (0 + 1)) (X 0 0)⁻¹ (ladr ta W (0 + 1) 0) (luRow ta W.ld) else pure ()) m2
            (fun _ m' => OnL ta m0 m' W (upd 1 0 (lr ta W - 1) 1 (fun t _ => (X 0 0)⁻¹ * V (1 + t) 0) V)) := by
          rif c
          · exact scalLc_on cat h2 _ (by omega) hc
          · rw [Run_pure]
            exact h2.congr (fun i hi j hj => by rw [upd_out (by omega)])
        refine sc.mono (fun _ m3 h3 => ?_)
        rw [Run_pure]
        refine fin _ _ h3 ?_
        rw [c3]
        refine cup_col (a := 0) (by simp [ofSwaps]) (by simp) hr (fun i hi => by omega) hn (fun hh => by simp at hh) (fun _ => ⟨?_, fun i _ _ => by omega, fun i hi ci => ?_⟩)
        · rw [upd_out (by omega), v0]
        · rw [upd_in' (by omega), show 1 + (i - 1) = i by omega, v2 i (by omega), mul_comm, ← mul_assoc, mul_inv_cancel₀ hn, one_mul]
      · rw [Run_pure, Run_pure]
        refine fin _ _ h2 ?_
        cases d with
        | nonUnit =>
          have r1 : lr ta W = 1 := by
            have : lc ta W ≠ 1 := fun hh => c3 ⟨hh, rfl⟩
            omega
          rw [r1]
          exact cup_row (a := ip) (fun j _ => pe j) (by simp) (by omega) hn (fun _ => v1) (fun hh => by simp at hh)
        | unit =>
          have r1 : lc ta W = 1 := by
            have : ¬ 1 < lc ta W := fun hh => c2 ⟨rfl, hh⟩
            omega
          obtain rfl : ip = 0 := by omega
          rw [r1]
          refine cup_col (a := 0) (by simp [ofSwaps]) (by simp) hr (fun i hi => by omega) hn (fun _ i hi => ?_) (fun hh => by simp at hh)
          rcases Nat.eq_zero_or_pos i with c | c
          · rw [c, v0]
          · exact v2 i c 0

end Verif.FF
