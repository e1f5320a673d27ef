import Verif.Proofs.PFsytrf

/-!
# The base cases and the whole of the parallel `fsytrf`
-/

namespace Verif.ParV

open Verif.FF Verif.Spec Finset
open Verif.Par (blkAt Vals TaskOk triCells triV exists_mem FinS SPre SPost PGemm PGemmOk PSyrkOk)

variable {K ν : Type} [Field K] [DecidableEq K] {u : Uplo} {lda n n1 n2 A D : ℕ} {W R T : ℕ → Prop} {v v' : ℕ → K}

omit [Field K] [DecidableEq K] in
/-- a program with a temporary, as a part of a task; it uses the cells `S` and the temporary -/
lemma wp_temp {S : ℕ → Prop} (hf : FinS S) (hS : ∀ x, S x → W x ∨ T x) {N : ℕ} {body : ℕ → Prog K Unit} [hb : ∀ t, Cut ν (body t)] {k : VProc K ν}
    {Q : ν → (ℕ → K) → Prop} {P : (ℕ → K) → Prop}
    (hr : ∀ tmp (m : Mem K), WF m → (∀ x, m.ok x = true ↔ S x ∨ blkAt tmp N x) → (∀ x, S x → ¬ blkAt tmp N x) → (∀ x, S x → m.val x = v x) →
      Run (body tmp) m (fun _ m' => P m'.val))
    (hk : ∀ v', (∀ x, W x ∨ R x ∨ T x → ¬ S x → v' x = v x) → P v' → wp k W R T v' Q) :
    wp (.alloc N fun tmp => Cut.tr (body tmp) fun _ => .free tmp N k) W R T v Q := by
  intro tmp c hfr
  have nS : ∀ x, S x → ¬ blkAt tmp N x := fun x hx hb => hfr x hb ((hS x hx).imp id Or.inr)
  have hF : FinS (fun x => S x ∨ blkAt tmp N x) := hf.or ⟨tmp + N, fun x hx => hx.2⟩
  obtain ⟨m, hwf, hmv, hok⟩ := exists_mem (fun i => if blkAt tmp N i then c i else v i) hF
  refine wp_cut (body tmp) m hmv (fun i hi => ?_) (hr tmp m hwf hok nS (fun x hx => by rw [hmv]; exact if_neg (nS x hx))) ?_
  · rcases (hok i).1 hi with h | h
    · exact (hS i h).imp id Or.inl
    · exact Or.inr (Or.inr h)
  · intro _ m' hP _ fr
    refine ⟨fun i hi => Or.inr hi, wp_mono_T _ (T := T) (fun i hi => ⟨Or.inl hi, fun hb => hfr i hb (Or.inr (Or.inr hi))⟩) (hk _ (fun x hx hn => ?_) hP)⟩
    have nb : ¬ blkAt tmp N x := fun hb => hfr x hb hx
    rw [fr x (by
      by_contra hc
      exact ((hok x).1 (by simpa using hc)).elim hn nb), if_neg nb]

lemma sytHead_run {m : Mem K} (hA : m.ok A = true) (hD : m.ok D = true) : Run (sytHead A D) m (fun o m' =>
    (m.val A = 0 ∧ o = none ∧ m' = m) ∨ (m.val A ≠ 0 ∧ o = some (m.val A)⁻¹ ∧ m' = m.set D (m.val A)⁻¹)) := by
  unfold sytHead
  rw [Run_bind, Run_load]
  refine ⟨hA, ?_⟩
  rif c
  · rw [Run_pure]; exact Or.inl ⟨c, rfl, rfl⟩
  · rw [Run_bind, Run_liftE]
    simp only [Ok_invE]
    refine ⟨c, ?_⟩
    rw [Run_bind, Run_store]
    refine ⟨hD, ?_⟩
    rw [Run_pure]
    exact Or.inr ⟨c, rfl, rfl⟩

/-- the test of a pivot, as a part of a task -/
lemma wp_head {k : Option K → VProc K ν} {Q : ν → (ℕ → K) → Prop} (hA : W A ∨ T A) (hD : W D ∨ T D) (h0 : v A = 0 → wp (k none) W R T v Q)
    (h1 : v A ≠ 0 → wp (k (some (v A)⁻¹)) W R T (Function.update v D (v A)⁻¹) Q) : wp (Cut.tr (sytHead A D) k) W R T v Q := by
  have hF : FinS (fun x => x = A ∨ x = D) := ⟨A + D + 1, fun x hx => by omega⟩
  obtain ⟨m, hwf, rfl, hok⟩ := exists_mem v hF
  refine wp_cut _ m rfl (fun i hi => ?_) (sytHead_run ((hok A).2 (Or.inl rfl)) ((hok D).2 (Or.inr rfl))) ?_
  · rcases (hok i).1 hi with rfl | rfl
    · exact hA
    · exact hD
  · rintro o m' (⟨c, rfl, rfl⟩ | ⟨c, rfl, rfl⟩) _ _
    · exact h0 c
    · exact h1 c

/-- recursion on the second part -/
lemma SytVOk.second {p : ℕ → ℕ → (Bool → VProc K ν) → VProc K ν} (hp : SytVOk u lda n2 p) (hn : n1 + n2 = n) {b c : ℕ → ℕ → K} {q : Bool → VProc K ν}
    {Q : ν → (ℕ → K) → Prop} (hl : n ≤ lda) (hd : (Win.mk A lda n n).Disj (vw D 1 n)) (hA : ∀ x, (Win.mk A lda n n).Has x → W x ∨ T x)
    (hD : ∀ x, (vw D 1 n).Has x → W x ∨ T x) (hy : ∀ i < n1, v (D + i) = (mt v A lda i i)⁻¹) (hh : HalfF u n1 n2 b c (mt v A lda))
    (hc : ∀ i < n2, ∀ j ≤ i, Spec.op (lowTr u) (mt v A lda) (n1 + i) (n1 + j) = Spec.op (lowTr u) c i j)
    (hq : ∀ r v', (∀ x, W x ∨ R x ∨ T x → ¬ (Win.mk A lda n n).Has x → ¬ (vw D 1 n).Has x → v' x = v x) → SytPost u n lda A D b r v' → wp (q r) W R T v' Q) :
    wp (p (A + n1 * (lda + 1)) (D + n1) q) W R T v Q := by
  obtain ⟨m0, hwf, hmv, hok⟩ := exists_mem v ((FinS.has ⟨A, lda, n, n⟩).or (FinS.has (vw D 1 n)))
  subst hmv
  have h0 : On2 m0 m0 ⟨A, lda, n, n⟩ (mt m0.val A lda) (vw D 1 n) (fun l _ => m0.val (D + l)) :=
    ⟨hwf, fun a ha => (hok a).2 (Or.inl ha), fun a ha => (hok a).2 (Or.inr ha), hl, le_rfl, hd, rfl, le_rfl, fun _ _ _ _ => rfl, fun i hi j hj => by
      obtain rfl : j = 0 := by simpa [vw] using hj
      simp [Win.adr, vw], fun _ _ _ _ => rfl⟩
  have own : ∀ x, m0.ok x = true → W x ∨ R x ∨ T x := fun x hx => ((hok x).1 hx).elim (fun h => (hA x h).imp id Or.inr) (fun h => (hD x h).imp id Or.inr)
  have sD2 : ∀ x, (vw (D + n1) 1 n2).Has x → (vw D 1 n).Has x := fun x hx => by
    obtain ⟨i, hi, rfl⟩ := vw1_Has.1 hx
    exact vw1_Has.2 ⟨n1 + i, by omega, by ring⟩
  refine hp _ _ q W R T m0.val Q (by omega) (fun a ha hb => hd a (sq_last hn ha) (sD2 a hb)) (fun x hx => hA x (sq_last hn hx)) (fun x hx => hD x (sD2 x hx)) ?_
  intro r v4 f4 s4
  have P4 : SytOk u lda 1 n2 (patchS u lda n2 (A + n1 * (lda + 1)) (D + n1) m0 { m0 with val := v4 } r) :=
    patchS_ok (fun _ _ _ _ => rfl) (fun x hx a b => f4 x (own x hx) a b) s4
  have := P4.second hn h0 hy hh hc
  rw [Nat.mul_one, Run_of_eq (patchS_at _ _ _)] at this
  obtain ⟨z, y, g, gt, gf⟩ := this
  refine hq r v4 (fun x hx a b => f4 x hx (fun h => a (sq_last hn h)) (fun h => b (sD2 x h)))
    ⟨fun hr => ⟨(gt hr).1.congr (fun _ _ _ _ => rfl) (op_congr_sq fun i hi j hj => (g.valW i hi j hj).symm), fun i hi => ?_⟩, gf⟩
  have e1 := g.valT i hi 0 Nat.one_pos
  have e2 := g.valW i hi i hi
  simp only [Win.adr, vw, Nat.mul_one, Nat.add_zero] at e1 e2
  rw [mt, e1, e2]
  exact (gt hr).2 i hi

/-- the rank one update, with its temporary -/
lemma rlBody_run {m : Mem K} {N tmp : ℕ} {b : ℕ → ℕ → K} (y : K) (hu : u = .upper) (hwf : WF m) (hl : N + 1 ≤ lda) (hA : OkIn m ⟨A, lda, N + 1, N + 1⟩)
    (hv : ∀ i < N + 1, ∀ j < N + 1, m.val (A + i * lda + j) = b i j) (hT : OkIn m (vw tmp 1 N)) (hd : (Win.mk A lda (N + 1) (N + 1)).Disj (vw tmp 1 N)) :
    Run (rlBody u lda N A y tmp) m (fun _ m' => (∀ x, m.ok x = true → ¬ (Win.mk A lda (N + 1) (N + 1)).Has x → ¬ (vw tmp 1 N).Has x → m'.val x = m.val x) ∧
      ∀ p < N + 1, ∀ q ≤ p, Spec.op (lowTr u) (mt m'.val A lda) p q =
        if 1 ≤ q then -y * Spec.op (lowTr u) b q 0 * Spec.op (lowTr u) b p 0 + Spec.op (lowTr u) b p q else Spec.op (lowTr u) b p q) := by
  have hI := sytInc_pos u (lda := lda) (by omega)
  have hW : On m m ⟨A, lda, N + 1, N + 1⟩ b := ⟨hwf, hA, hl, Step.refl hv⟩
  have eX : A + sytInc u lda = opAdr (lowTr u) A lda 1 0 := by
    cases u <;> simp only [opAdr, lowTr, sytInc] <;> ring
  unfold rlBody
  rw [Run_bind, eX]
  refine (vscal_spec .generic (-y) hwf (oseg_ok hW (by omega) (by omega)) hT
    (Win.Disj.safe (fun a ha => hd a (oseg_sub (by omega) (by omega) ha)) rfl rfl) hI Nat.one_pos).mono ?_
  intro _ m2 s2
  have s2' : On m m2 (vw tmp 1 N) (fun i _ => -y * m.val (opAdr (lowTr u) A lda 1 0 + i * sytInc u lda)) := ⟨hwf, hT, le_rfl, s2⟩
  have hW2 : On m2 m2 ⟨A, lda, N + 1, N + 1⟩ b := (hW.src.step s2 hd).toOn s2'.wf'
  refine (fsytrfRL_loop (Or.inr hu) s2'.src hd.symm hW2).mono ?_
  rintro _ m3 ⟨V, h3, e3⟩
  refine ⟨fun x hx a c => ?_, fun p hp q hq => ?_⟩
  · rw [h3.step.frame x (by rw [s2.ok]; exact hx) a, s2.frame x hx c]
  · rw [op_congr_sq (n := N + 1) (b := mt m3.val A lda) (z := V) (fun i hi j hj => h3.val (i := i) (j := j) hi hj) p hp q hq, e3 p hp q hq]
    split_ifs with c
    · rw [oa_add, show 1 + (q - 1) = q by omega, oa_val hW (by omega) (by omega)]
    · rfl

/-- `fsytrf_BC_RL`, for the upper triangle -/
theorem rlV_ok (hu : u = .upper) (n : ℕ) : SytVOk (K := K) (ν := ν) u lda n (rlV u lda n) := by
  induction n with
  | zero =>
    intro A D q W R T v Q hl hd hA hD hq
    exact hq true v (fun _ _ _ _ => rfl) ⟨fun _ => ⟨⟨fun i hi => absurd hi (by omega), fun i hi => absurd hi (by omega)⟩, fun i hi => absurd hi (by omega)⟩,
      fun hh => absurd hh (by simp)⟩
  | succ N ih =>
    intro A D q W R T v Q hl hd hA hD hq
    have hA0 : (Win.mk A lda (N + 1) (N + 1)).Has A := ⟨0, Nat.succ_pos N, 0, Nat.succ_pos N, by simp [Win.adr]⟩
    have hD0 : (vw D 1 (N + 1)).Has D := vw1_Has.2 ⟨0, Nat.succ_pos N, rfl⟩
    simp only [rlV]
    refine wp_head (hA _ hA0) (hD _ hD0) (fun h0 => ?_) (fun h0 => ?_)
    · refine hq false v (fun _ _ _ _ => rfl) ⟨fun hh => absurd hh (by simp), fun _ => ⟨0, Nat.succ_pos N, fun _ _ => 0, fun _ => 0, fun p hp q hq => ?_⟩⟩
      obtain rfl : p = 0 := by omega
      obtain rfl : q = 0 := by omega
      rw [range_zero, sum_empty, op_diag]
      simp only [mt, Nat.zero_mul, Nat.add_zero]
      exact h0.symm
    · set y := (v A)⁻¹ with hy
      have nD : ∀ i < N + 1, ∀ j < N + 1, A + i * lda + j ≠ D := fun i hi j hj e => hd D ⟨i, hi, j, hj, e.symm⟩ hD0
      have ev : ∀ i < N + 1, ∀ j < N + 1, Function.update v D y (A + i * lda + j) = mt v A lda i j := fun i hi j hj => Function.update_of_ne (nD i hi j hj) _ _
      refine wp_temp (S := fun x => (Win.mk A lda (N + 1) (N + 1)).Has x ∨ (vw D 1 (N + 1)).Has x) ((FinS.has _).or (FinS.has _)) (fun x hx => hx.elim (hA x) (hD x))
        (P := fun v' => (∀ x, (vw D 1 (N + 1)).Has x → v' x = Function.update v D y x) ∧ ∀ p < N + 1, ∀ q ≤ p, Spec.op (lowTr u) (mt v' A lda) p q =
          if 1 ≤ q then -y * Spec.op (lowTr u) (mt v A lda) q 0 * Spec.op (lowTr u) (mt v A lda) p 0 + Spec.op (lowTr u) (mt v A lda) p q
          else Spec.op (lowTr u) (mt v A lda) p q) ?_ ?_
      · intro tmp m hwf hok nb hv
        have hb : ∀ x, (vw tmp 1 N).Has x → blkAt tmp N x := fun x hx => by
          obtain ⟨i, hi, rfl⟩ := vw1_Has.1 hx
          exact ⟨by omega, by omega⟩
        refine (rlBody_run (b := mt v A lda) y hu hwf hl (fun x hx => (hok x).2 (Or.inl (Or.inl hx)))
          (fun i hi j hj => (hv _ (Or.inl ⟨i, hi, j, hj, rfl⟩)).trans (ev i hi j hj)) (fun x hx => (hok x).2 (Or.inr (hb x hx)))
          (fun x hx ht => nb x (Or.inl hx) (hb x ht))).mono ?_
        rintro _ m' ⟨fr, e⟩
        refine ⟨fun x hx => ?_, e⟩
        rw [fr x ((hok x).2 (Or.inl (Or.inr hx))) (fun h => hd x h hx) (fun h => nb x (Or.inr hx) (hb x h)), hv x (Or.inr hx)]
      · rintro v2 f2 ⟨eD, e2⟩
        have e00 : mt v2 A lda 0 0 = v A := by
          have := e2 0 (Nat.succ_pos N) 0 le_rfl
          rw [if_neg (by omega), op_diag, op_diag] at this
          rw [this]; simp [mt]
        have ec : ∀ p < N + 1, Spec.op (lowTr u) (mt v2 A lda) p 0 = Spec.op (lowTr u) (mt v A lda) p 0 := fun p hp => by
          rw [e2 p hp 0 (by omega), if_neg (by omega)]
        have eb0 : mt v A lda 0 0 = v A := by simp [mt]
        have hH : HalfF u 1 N (mt v A lda) (blk (mt v2 A lda) 1 1) (mt v2 A lda) := by
          refine HalfF.one (by rw [e00]; exact h0) ec (fun i hi j hj => ?_)
          rw [op_blk, e2 _ (by omega) _ (by omega), if_pos (by omega), ec _ (by omega), ec _ (by omega), e00, hy]
          ring
        have := ih.second (n1 := 1) (A := A) (D := D) (W := W) (R := R) (T := T) (v := v2) (b := mt v A lda) (c := blk (mt v2 A lda) 1 1) (q := q) (Q := Q)
          (Nat.add_comm 1 N) hl hd hA hD (fun i hi => ?_) hH (fun i _ j _ => by rw [op_blk]) (fun r v' f s => hq r v' (fun x hx a b => ?_) s)
        · simpa only [Nat.one_mul] using this
        · obtain rfl : i = 0 := by omega
          rw [Nat.add_zero, eD D hD0, Function.update_self, e00]
        · rw [f x hx a b, f2 x hx (fun h => h.elim a b), Function.update_of_ne]
          rintro rfl
          exact b hD0

/-- the update of one column in `fsytrf_BC_Crout`, with its temporary -/
lemma croutBody_run {m : Mem K} {i tmp : ℕ} {z : ℕ → ℕ → K} {y : ℕ → K} (hin : i < n) (hwf : WF m) (hl : n ≤ lda) (hA : OkIn m ⟨A, lda, n, n⟩)
    (hv : ∀ i < n, ∀ j < n, m.val (A + i * lda + j) = z i j) (hD : OkIn m (vw D 1 n)) (hy : ∀ l < i, m.val (D + l) = y l)
    (hT : OkIn m (vw tmp 1 i)) (hd : (Win.mk A lda n n).Disj (vw tmp 1 i)) (hdD : (vw D 1 n).Disj (vw tmp 1 i)) :
    Run (croutBody u n A lda D i tmp) m (fun _ m' => (∀ x, m.ok x = true → ¬ (Win.mk A lda n n).Has x → ¬ (vw tmp 1 i).Has x → m'.val x = m.val x) ∧
      ∃ z', (∀ i < n, ∀ j < n, m'.val (A + i * lda + j) = z' i j) ∧ ∀ p q, Spec.op (lowTr u) z' p q = if q = i ∧ i ≤ p ∧ p < n then Spec.op (lowTr u) z p i -
            ∑ l ∈ range i, Spec.op (lowTr u) z p l * (Spec.op (lowTr u) z i l * y l) else Spec.op (lowTr u) z p q) := by
  have hW : On m m ⟨A, lda, n, n⟩ z := ⟨hwf, hA, hl, Step.refl hv⟩
  unfold croutBody
  rw [Run_bind]
  have tHas : ∀ t < i, (vw tmp 1 i).Has (tmp + t) := fun t ht => vw1_Has.2 ⟨t, ht, rfl⟩
  refine (Run_store_loop (n := i) (fun t => tmp + t) (fun t => Spec.op (lowTr u) z i t * y t) (fun t ht => hT _ (tHas t ht)) (fun s _ t _ e => by omega) ?_).mono ?_
  · intro t ht m1 o1 v1
    have eA : A + i * sytInc u lda + t * sytSel u lda 1 = opAdr (lowTr u) A lda i t := by
      cases u <;> simp only [opAdr, lowTr, sytInc, sytSel] <;> ring
    have oA := oa_ok (u := u) (i := i) (j := t) hW hin (by omega)
    have vA := oa_val (u := u) (i := i) (j := t) hW hin (by omega)
    have hDt : (vw D 1 n).Has (D + t) := vw1_Has.2 ⟨t, by omega, rfl⟩
    have hAt : (Win.mk A lda n n).Has (opAdr (lowTr u) A lda i t) := by
      rw [oa_eq u A lda n]
      exact Win.Has_adr (by cases u <;> simp only [pick'] <;> omega) (by cases u <;> simp only [pick'] <;> omega)
    rw [eA, Nat.mul_one, Run_bind, Run_load, o1]
    refine ⟨oA, ?_⟩
    rw [Run_bind, Run_load, o1]
    refine ⟨hD _ hDt, ?_⟩
    rw [Run_store]
    refine ⟨by rw [o1]; exact hT _ (tHas t ht), ?_⟩
    rw [v1 _ (fun s hs e => hd _ hAt (by rw [e]; exact tHas s (by omega))), v1 _ (fun s hs e => hdD _ hDt (by rw [e]; exact tHas s (by omega))), vA, hy t ht]
  · rintro _ m1 ⟨o1, x1, v1, f1⟩
    have s1 : Step m m1 (vw tmp 1 i) (fun t _ => Spec.op (lowTr u) z i t * y t) := by
      refine ⟨o1, x1.ge, fun t ht j hj => ?_, fun a _ hn => f1 a (fun t ht e => hn (by rw [e]; exact tHas t ht))⟩
      obtain rfl : j = 0 := by simpa [vw] using hj
      have := v1 t ht
      simpa [Win.adr, vw] using this
    have s1' : On m m1 (vw tmp 1 i) (fun t _ => Spec.op (lowTr u) z i t * y t) := ⟨hwf, hT, le_rfl, s1⟩
    have hW2 : On m1 m1 ⟨A, lda, n, n⟩ z := (hW.src.step s1 hd).toOn s1'.wf'
    refine (syt_gemv .generic (τ := fun t => Spec.op (lowTr u) z i t * y t) hin hW2 s1'.src hd.symm).mono ?_
    rintro _ m2 ⟨z', h2, e2⟩
    refine ⟨fun x hx a c => ?_, z', fun i hi j hj => h2.val (i := i) (j := j) hi hj, e2⟩
    rw [h2.step.frame x (by rw [s1.ok]; exact hx) a, s1.frame x hx c]

/-- `fsytrf_BC_Crout` -/
theorem croutV_ok (n : ℕ) : SytVOk (K := K) (ν := ν) u lda n (fun A D q => croutV u n A lda D n q) := by
  intro A D q W R T v Q hl hd hA hD hq
  have key : ∀ k i, i + k = n → ∀ (v1 : ℕ → K) (z : ℕ → ℕ → K), (∀ x, W x ∨ R x ∨ T x → ¬ (Win.mk A lda n n).Has x → ¬ (vw D 1 n).Has x → v1 x = v x) →
      (∀ i < n, ∀ j < n, v1 (A + i * lda + j) = z i j) → CroutF u n i (mt v A lda) z → (∀ l < i, v1 (D + l) = (z l l)⁻¹) →
      wp (croutV u n A lda D k q) W R T v1 Q := by
    intro k
    induction k with
    | zero =>
      intro i hi v1 z f hz hc hy
      obtain rfl : i = n := by omega
      refine hq true v1 f ⟨fun _ => ⟨hc.stop.congr (fun _ _ _ _ => rfl) (op_congr_sq fun i hi j hj => (hz i hi j hj).symm), fun l hl => ?_⟩, fun hh => absurd hh (by simp)⟩
      rw [hy l hl, mt, hz l hl l hl]
    | succ k ih =>
      intro i hi v1 z f hz hc hy
      have hin : i < n := by omega
      have hDi : (vw D 1 n).Has (D + i * 1) := vw1_Has.2 ⟨i, hin, by ring⟩
      have hAi : (Win.mk A lda n n).Has (A + i * (lda + 1)) := ⟨i, hin, i, hin, by simp only [Win.adr]; ring⟩
      rw [croutV]
      have hi' : n - (k + 1) = i := by omega
      rw [hi']
      refine wp_temp (S := fun x => (Win.mk A lda n n).Has x ∨ (vw D 1 n).Has x) ((FinS.has _).or (FinS.has _)) (fun x hx => hx.elim (hA x) (hD x))
        (P := fun v' => (∀ x, (vw D 1 n).Has x → v' x = v1 x) ∧ ∃ z', (∀ i < n, ∀ j < n, v' (A + i * lda + j) = z' i j) ∧
          ∀ p q, Spec.op (lowTr u) z' p q = if q = i ∧ i ≤ p ∧ p < n then Spec.op (lowTr u) z p i -
            ∑ l ∈ range i, Spec.op (lowTr u) z p l * (Spec.op (lowTr u) z i l * (z l l)⁻¹) else Spec.op (lowTr u) z p q) ?_ ?_
      · intro tmp m hwf hok nb hv
        have hb : ∀ x, (vw tmp 1 i).Has x → blkAt tmp i x := fun x hx => by
          obtain ⟨i, hi, rfl⟩ := vw1_Has.1 hx
          exact ⟨by omega, by omega⟩
        refine (croutBody_run (z := z) (y := fun l => (z l l)⁻¹) hin hwf hl (fun x hx => (hok x).2 (Or.inl (Or.inl hx)))
          (fun i hi j hj => (hv _ (Or.inl ⟨i, hi, j, hj, rfl⟩)).trans (hz i hi j hj)) (fun x hx => (hok x).2 (Or.inl (Or.inr hx)))
          (fun l hl => (hv _ (Or.inr (vw1_Has.2 ⟨l, by omega, rfl⟩))).trans (hy l hl)) (fun x hx => (hok x).2 (Or.inr (hb x hx)))
          (fun x hx ht => nb x (Or.inl hx) (hb x ht)) (fun x hx ht => nb x (Or.inr hx) (hb x ht))).mono ?_
        rintro _ m' ⟨fr, e⟩
        refine ⟨fun x hx => ?_, e⟩
        rw [fr x ((hok x).2 (Or.inl (Or.inr hx))) (fun h => hd x h hx) (fun h => nb x (Or.inr hx) (hb x h)), hv x (Or.inr hx)]
      · rintro v2 f2 ⟨eD, z', hz', e2⟩
        have eA : v2 (A + i * (lda + 1)) = z' i i := by
          rw [show A + i * (lda + 1) = A + i * lda + i by ring]; exact hz' i hin i hin
        refine wp_head (hA _ hAi) (hD _ hDi) (fun h0 => ?_) (fun h0 => ?_)
        · rw [eA] at h0
          exact hq false v2 (fun x hx a b => by rw [f2 x hx (fun h => h.elim a b), f x hx a b]) ⟨fun hh => absurd hh (by simp), fun _ => hc.fail hin e2 h0⟩
        · rw [eA] at h0 ⊢
          refine ih (i + 1) (by omega) _ z' (fun x hx a b => ?_) (fun i' hi' j hj => ?_) (hc.next hin e2 h0) (fun l hl => ?_)
          · rw [Function.update_of_ne (fun e => b (by rw [e]; exact hDi)), f2 x hx (fun h => h.elim a b), f x hx a b]
          · rw [Function.update_of_ne (fun e => hd _ ⟨i', hi', j, hj, rfl⟩ (by rw [Win.adr, e]; exact hDi)), hz' i' hi' j hj]
          · by_cases c : l = i
            · subst c
              rw [Nat.mul_one, Function.update_self]
            · rw [Function.update_of_ne (by omega), eD _ (vw1_Has.2 ⟨l, by omega, rfl⟩), hy l (by omega)]
              have := e2 l l
              rw [if_neg (by omega), op_diag, op_diag] at this
              rw [this]
  exact key n 0 (by omega) v (mt v A lda) (fun _ _ _ _ => rfl) (fun _ _ _ _ => rfl) CroutF.start (fun l hl => by omega)

theorem syrkPar_ok {gs : PGemm K} {gc gb : ℕ → PGemm K} (hs : PGemmOk gs) (hc : ∀ nt, 1 ≤ nt → PGemmOk (gc nt)) (hb : ∀ nt, 1 ≤ nt → PGemmOk (gb nt))
    {sthr nt : ℕ} (h1 : 1 ≤ sthr) (hnt : 1 ≤ nt) : SkOk (syrkPar gs gc gb sthr nt) :=
  fun v _ _ n _ _ A _ _ _ _ C _ hp => Par.pSyrk_ok hs hc hb h1 (n + 1) nt n hnt (by omega) (by omega) A C .ret _ _ _ v _ hp (fun _ h => Or.inl (Or.inl h))
    (fun _ h => Or.inl (Or.inr h)) (fun _ h => Or.inr (Or.inl h)) (fun _ _ h => h)

theorem syrkSeq_ok {gs : PGemm K} (hs : PGemmOk gs) {sthr : ℕ} (h1 : 1 ≤ sthr) : SkOk (syrkSeq gs sthr) :=
  fun v _ _ n _ _ A _ _ _ _ C _ hp => Par.seqSyrk_ok hs h1 (n + 1) n (by omega) (by omega) A C .ret _ _ _ v _ hp (fun _ h => Or.inl (Or.inl h))
    (fun _ h => Or.inl (Or.inr h)) (fun _ h => Or.inr (Or.inl h)) (fun _ _ h => h)

theorem trsmPar_ok (nt : ℕ) : TsOk (trsmPar nt : TrP K) :=
  fun _ _ _ _ _ _ _ alpha _ _ _ _ hl hla hd hnz => Par.pftrsm_ok alpha (fun h => absurd h (by simp)) hl hla hd hnz

theorem trsmSeq_ok : TsOk (trsmSeq : TrP K) := by
  intro v side u ta d M N alpha A lda B ldb hl hla hd hnz
  obtain ⟨m, hwf, hmv, hok⟩ := exists_mem v ((FinS.has ⟨B, ldb, M, N⟩).or (Par.triCells_fin (u := u) (d := d) (A := A) (lda := lda) (n := Spec.sideDim side M N)))
  have hc : Props.TriCall m u d (Spec.sideDim side M N) A lda ⟨B, ldb, M, N⟩ :=
    ⟨hwf, fun a ha => (hok a).2 (Or.inl ha), hl, hla, fun i hi j hj h => (hok _).2 (Or.inr ⟨i, hi, j, hj, h, rfl⟩), fun i hi j hj h => hd _ ⟨i, hi, j, hj, h, rfl⟩⟩
  obtain ⟨_, m', _, X, _, hX, _⟩ := Props.C11_ftrsm (side := side) (ta := ta) .generic (gemmClassic_ok .generic) alpha hc (by rw [Props.Regular]; subst hmv; exact hnz)
  subst hmv
  refine ⟨X, ?_, fun i hi j hj => hX i hi j hj⟩
  refine Par.task_call Par.triCells_fin (Par.wrIn_ftrsm Par.InS_Has) ?_
  intro m1 hm1 ho hR hv
  have hc1 : Props.TriCall m1 u d (Spec.sideDim side M N) A lda ⟨B, ldb, M, N⟩ :=
    ⟨hm1, ho, hl, hla, fun i hi j hj h => hR _ ⟨i, hi, j, hj, h, rfl⟩, fun i hi j hj h hh => hd _ ⟨i, hi, j, hj, h, rfl⟩ hh⟩
  refine (Props.C11_ftrsm (side := side) (ta := ta) .generic (gemmClassic_ok .generic) alpha hc1 (by rw [Props.Regular]; simp only [Mem.mat, hv]; exact hnz)).mono ?_
  rintro _ m2 ⟨Y, st, hY, uq⟩
  refine st.congr (fun i hi j hj => ?_)
  refine (uq X (fun i hi j hj => ?_) i hi j hj).symm
  have h := hX i hi j hj
  have et : ∀ n, Props.triOp m1 u ta d n A lda = Props.triOp m u ta d n A lda := fun n => by rw [Par.triV_eq, Par.triV_eq, hv]
  simp only [et, Mem.mat, hv] at h ⊢
  exact h

/-- `fsytrf_nonunit` with a parallel helper -/
theorem pfsytrfNonunit_ok [Inhabited ν] {gs : PGemm K} {gc gb : ℕ → PGemm K} (hs : PGemmOk gs) (hc : ∀ nt, 1 ≤ nt → PGemmOk (gc nt))
    (hb : ∀ nt, 1 ≤ nt → PGemmOk (gb nt)) {bc : SytrfV K ν} {sthr nt thr : ℕ} (hst : 1 ≤ sthr) (hnt : 1 ≤ nt) (h1 : 1 ≤ thr)
    (hbc : ∀ n ≤ thr, SytVOk u lda n (fun A D q => bc u n A lda D q)) (n : ℕ) :
    SytVOk u lda n (fun A D q => pfsytrfNonunit gs gc gb bc sthr nt u n A lda D thr q) := by
  intro A D q W R T v Q hl hd hA hD hq
  unfold pfsytrfNonunit
  split
  · exact sytrfV_ok trsmSeq_ok (syrkSeq_ok hs hst) h1 hbc (n + 1) n (by omega) (by omega) A D q W R T v Q hl hd hA hD hq
  · exact sytrfV_ok (trsmPar_ok nt) (syrkPar_ok hs hc hb hst hnt) h1 hbc (n + 1) n (by omega) (by omega) A D q W R T v Q hl hd hA hD hq

/-- `fsytrf` with a parallel helper -/
theorem pfsytrf_wp {gs : PGemm K} {gc gb : ℕ → PGemm K} (hs : PGemmOk gs) (hc : ∀ nt, 1 ≤ nt → PGemmOk (gc nt))
    (hb : ∀ nt, 1 ≤ nt → PGemmOk (gb nt)) {bc : SytrfV K Bool} {sthr nt thr : ℕ} (hst : 1 ≤ sthr) (hnt : 1 ≤ nt) (h1 : 1 ≤ thr)
    (hbc : ∀ n ≤ thr, SytVOk u lda n (fun A D q => bc u n A lda D q)) (n : ℕ) (hl : n ≤ lda) :
    wp (pfsytrf gs gc gb bc sthr nt u n A lda thr) (Win.mk A lda n n).Has (fun _ => False) (fun _ => False) v (fun r v' =>
      (r = true → ∃ z, NonF u n (mt v A lda) z ∧ ∀ p < n, ∀ q ≤ p, Spec.op (lowTr u) (mt v' A lda) p q =
        if q < p then (z q q)⁻¹ * Spec.op (lowTr u) z p q else Spec.op (lowTr u) z p q) ∧ (r = false → FailF u n (mt v A lda))) := by
  intro D c hfr
  have bD : ∀ x, (vw D 1 n).Has x → blkAt D n x := fun x hx => by
    obtain ⟨i, hi, rfl⟩ := vw1_Has.1 hx
    exact ⟨by omega, by omega⟩
  have hd : (Win.mk A lda n n).Disj (vw D 1 n) := fun x hx hb => hfr x (bD x hb) (Or.inl hx)
  set v0 : ℕ → K := fun i => if blkAt D n i then c i else v i with hv0
  have e0 : ∀ i < n, ∀ j < n, mt v A lda i j = mt v0 A lda i j := fun i hi j hj => by
    simp only [mt, hv0]
    exact (if_neg (fun hb : blkAt D n (A + i * lda + j) => hfr _ hb (Or.inl ⟨i, hi, j, hj, rfl⟩))).symm
  refine pfsytrfNonunit_ok hs hc hb hst hnt h1 hbc n A D _ _ _ _ v0 _ hl hd (fun _ h => Or.inl h) (fun x hx => Or.inr (Or.inr (bD x hx))) ?_
  intro r v1 f1 s1
  by_cases hr : r = false
  · subst hr
    rw [if_pos rfl]
    exact ⟨fun h => absurd h (by simp), fun _ => (s1.2 rfl).congr (op_congr_sq fun i hi j hj => (e0 i hi j hj).symm)⟩
  · rw [if_neg hr]
    obtain ⟨N1, Y1⟩ := s1.1 (by simpa using hr)
    obtain ⟨m, hwf, hmv, hok⟩ := exists_mem v1 ((FinS.has ⟨A, lda, n, n⟩).or (FinS.has (vw D 1 n)))
    subst hmv
    have oA : On m m ⟨A, lda, n, n⟩ (mt m.val A lda) := ⟨hwf, fun a ha => (hok a).2 (Or.inl ha), hl, Step.refl (fun _ _ _ _ => rfl)⟩
    have sD : Src m (vw D 1 n) (fun l _ => m.val (D + l)) := ⟨fun a ha => (hok a).2 (Or.inr ha), le_rfl, fun i hi j hj => by
      obtain rfl : j = 0 := by simpa [vw] using hj
      simp [Win.adr, vw]⟩
    refine wp_cut _ m rfl (fun i hi => ((hok i).1 hi).imp id (fun h => Or.inr (bD i h))) (syt_scale (u := u) .generic oA sD hd.symm) ?_
    rintro _ m2 ⟨Z, h2, e2⟩ _ _
    refine ⟨fun i hi => Or.inr hi, fun _ => ⟨mt m.val A lda, N1.congr (op_congr_sq fun i hi j hj => (e0 i hi j hj).symm) (fun _ _ _ _ => rfl), fun p hp q hq => ?_⟩,
      fun h => absurd h (by simp)⟩
    rw [op_congr_sq (n := n) (b := mt m2.val A lda) (z := Z) (fun i hi j hj => h2.val (i := i) (j := j) hi hj) p hp q hq, e2 p hp q hq, Y1 q (by omega)]

end Verif.ParV
