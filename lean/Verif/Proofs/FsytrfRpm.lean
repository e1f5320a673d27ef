import Verif.Proofs.FsytrfRpmMath
import Verif.Proofs.Fsytrf
import Verif.Model.FsytrfRpm

/-!
# `fsytrf_UP_RPM_BC_Crout`: the updates and the search for pivots
-/

namespace Verif.FF

open Finset Verif.Perm

variable {K : Type} [Field K] [DecidableEq K]
variable {m0 m mB : Mem K} {W T : Win} {V Y : ℕ → ℕ → K} {N A lda D tmp rank c : ℕ} {mate : ℕ → ℕ}

/-- the flags of the 2 x 2 blocks agree with the pairs -/
structure Flags (rank : ℕ) (tb : Arr Bool) (mate : ℕ → ℕ) : Prop where
  lt : ∀ l < rank, mate l < rank
  inv : ∀ l < rank, mate (mate l) = l
  near : ∀ l < rank, mate l ≤ l + 1 ∧ l ≤ mate l + 1
  flag : ∀ l < rank, tb.get l = true ↔ mate l ≠ l

/-- a block starts at `j` -/
def BlockCut (mate : ℕ → ℕ) (j : ℕ) : Prop := ∀ l < j, mate l < j

lemma Flags.one {tb : Arr Bool} {j : ℕ} (hF : Flags rank tb mate) (hj : j < rank) (hc : BlockCut mate j) (ht : tb.get j = false) : mate j = j ∧ BlockCut mate (j + 1) := by
  have e : mate j = j := by
    by_contra hh
    rw [(hF.flag j hj).2 hh] at ht
    exact absurd ht (by simp)
  refine ⟨e, fun l hl => ?_⟩
  rcases Nat.lt_succ_iff_lt_or_eq.1 hl with q | rfl
  · have := hc l q; omega
  · omega

lemma Flags.two {tb : Arr Bool} {j : ℕ} (hF : Flags rank tb mate) (hj : j < rank) (hc : BlockCut mate j) (ht : tb.get j = true) :
    mate j = j + 1 ∧ mate (j + 1) = j ∧ j + 1 < rank ∧ BlockCut mate (j + 2) := by
  have h1 := (hF.flag j hj).1 ht
  have h2 := hF.near j hj
  have h3 := hF.inv j hj
  have e : mate j = j + 1 := by
    by_contra hh
    have h4 := hc (mate j) (by omega)
    omega
  rw [e] at h3
  have h5 := hF.lt j hj
  refine ⟨e, h3, by omega, fun l hl => ?_⟩
  rcases (show l < j ∨ l = j ∨ l = j + 1 by omega) with q | rfl | rfl
  · have := hc l q; omega
  · omega
  · omega

omit [DecidableEq K] in
lemma rpmScale_spec {tb : Arr Bool} (hF : Flags rank tb mate) (htb : rank ≤ tb.len) (hr : rank ≤ N) (hc : c < N) (hw : WF mB) (hA : Src mB ⟨A, lda, N, N⟩ V)
    (hD : Src mB (vw D 1 N) Y) (hX : OkIn mB (vw tmp 1 rank)) (dA : (Win.mk A lda N N).Disj (vw tmp 1 rank)) (dD : (vw D 1 N).Disj (vw tmp 1 rank)) :
    ∀ fuel j (m' : Mem K) (τ : ℕ → ℕ → K), BlockCut mate j → j ≤ rank → rank ≤ fuel + j → On mB m' (vw tmp 1 rank) τ →
      (∀ l < j, τ l 0 = V (mate l) c * Y (mate l) 0) →
      Run (rpmScale tb tmp lda 1 rank fuel j (A + c + j * lda) (D + j)) m' (fun r m'' => r = D + rank ∧
        On mB m'' (vw tmp 1 rank) (fun l _ => V (mate l) c * Y (mate l) 0)) := by
  have stop : ∀ j (m' : Mem K) (τ : ℕ → ℕ → K), j = rank → On mB m' (vw tmp 1 rank) τ → (∀ l < j, τ l 0 = V (mate l) c * Y (mate l) 0) →
      D + j = D + rank ∧ On mB m' (vw tmp 1 rank) (fun l _ => V (mate l) c * Y (mate l) 0) := by
    rintro j m' τ rfl h e
    refine ⟨rfl, h.congr (fun l hl q hq => ?_)⟩
    have hl : l < j := hl
    obtain rfl : q = 0 := by simpa [vw] using hq
    exact e l hl
  have rdA : ∀ (m' : Mem K) (τ : ℕ → ℕ → K) j, On mB m' (vw tmp 1 rank) τ → j < N → m'.ok (A + c + j * lda) = true ∧ m'.val (A + c + j * lda) = V j c := by
    intro m' τ j h hj
    have e : A + c + j * lda = (Win.mk A lda N N).adr j c := by simp only [Win.adr]; ring
    have hS := hA.on h dA
    rw [e]
    exact ⟨hS.ok.adr hj hc, hS.val j hj c hc⟩
  have rdD : ∀ (m' : Mem K) (τ : ℕ → ℕ → K) j, On mB m' (vw tmp 1 rank) τ → j < N → m'.ok (D + j) = true ∧ m'.val (D + j) = Y j 0 := by
    intro m' τ j h hj
    have e : D + j = (vw D 1 N).adr j 0 := by simp only [Win.adr, vw]; ring
    have hS := hD.on h dD
    rw [e]
    exact ⟨hS.ok.adr hj Nat.one_pos, hS.val j hj 0 Nat.one_pos⟩
  have et : ∀ j, tmp + j = (vw tmp 1 rank).adr j 0 := fun j => by simp only [Win.adr, vw]; ring
  intro fuel
  induction fuel with
  | zero =>
    intro j m' τ _ hj hf h e
    unfold rpmScale
    rw [if_neg (by omega), Run_pure]
    exact stop j m' τ (by omega) h e
  | succ fuel ih =>
    intro j m' τ hcut hj hf h e
    unfold rpmScale
    by_cases c1 : j < rank
    · rw [if_pos c1, Run_bind, Run_liftE, Ok_rd]
      refine ⟨by omega, ?_⟩
      obtain ⟨o1, v1⟩ := rdA m' τ j h (by omega)
      obtain ⟨o2, v2⟩ := rdD m' τ j h (by omega)
      by_cases ht : tb.get j = false
      · obtain ⟨em, hcut'⟩ := hF.one c1 hcut ht
        rw [if_pos ht, Run_bind, Run_load]
        refine ⟨o1, ?_⟩
        rw [Run_bind, Run_load]
        refine ⟨o2, ?_⟩
        rw [Run_bind, Run_store, v1, v2, et]
        refine ⟨h.okc c1 Nat.one_pos, ?_⟩
        have h' := h.set (x := V j c * Y j 0) (i := j) (j := 0) c1 Nat.one_pos
        have := ih (j + 1) _ _ hcut' (by omega) (by omega) h' (fun l hl => by
          by_cases q : l = j
          · subst q; rw [upd_in' (by omega), em]
          · rw [upd_out (by omega), e l (by omega)])
        rw [show A + c + (j + 1) * lda = A + c + j * lda + lda by ring] at this
        exact this
      · have ht' : tb.get j = true := by simpa using ht
        obtain ⟨em, em', hlt, hcut'⟩ := hF.two c1 hcut ht'
        rw [if_neg ht, Run_bind, Run_load]
        refine ⟨o1, ?_⟩
        rw [Run_bind, Run_load]
        refine ⟨o2, ?_⟩
        rw [Run_bind, Run_store, v1, v2, et (j + 1)]
        refine ⟨h.okc hlt Nat.one_pos, ?_⟩
        have h' := h.set (x := V j c * Y j 0) (i := j + 1) (j := 0) hlt Nat.one_pos
        obtain ⟨o3, v3⟩ := rdA _ _ (j + 1) h' (by omega)
        obtain ⟨o4, v4⟩ := rdD _ _ (j + 1) h' (by omega)
        rw [show A + c + (j + 1) * lda = A + c + j * lda + lda by ring] at o3 v3
        rw [← add_assoc] at o4 v4
        rw [Run_bind, Run_load]
        refine ⟨o3, ?_⟩
        rw [Run_bind, Run_load]
        refine ⟨o4, ?_⟩
        rw [Run_bind, Run_store, v3, v4, et j]
        refine ⟨h'.okc c1 Nat.one_pos, ?_⟩
        have h'' := h'.set (x := V (j + 1) c * Y (j + 1) 0) (i := j) (j := 0) c1 Nat.one_pos
        have := ih (j + 2) _ _ hcut' (by omega) (by omega) h'' (fun l hl => by
          by_cases q : l = j
          · subst q; rw [upd_in' (by omega), em]
          · rw [upd_out (by omega)]
            by_cases q' : l = j + 1
            · subst q'; rw [upd_in' (by omega), em']
            · rw [upd_out (by omega), e l (by omega)])
        rw [show A + c + (j + 2) * lda = A + c + j * lda + 2 * lda by ring] at this
        exact this
    · rw [if_neg c1, Run_pure]
      exact stop j m' τ (by omega) h e

/-- subtraction of a combination of the rows done from a piece of a row -/
lemma rpm_gemv (cat : Cat) {i0 j0 len : ℕ} {τ : ℕ → K} (hr : rank ≤ i0) (hi : i0 < N) (hj : j0 + len ≤ N) (h : On m m ⟨A, lda, N, N⟩ V)
    (hS : Src m (vw tmp 1 rank) (fun l _ => τ l)) (hd : (vw tmp 1 rank).Disj ⟨A, lda, N, N⟩) :
    Run (fgemv cat .yes rank len (-1) (A + j0) lda tmp 1 1 ((Win.mk A lda N N).adr i0 j0) 1) m (fun _ m' =>
      On m m' ⟨A, lda, N, N⟩ (upd i0 j0 1 len (fun _ t => V i0 (j0 + t) - ∑ l ∈ range rank, V l (j0 + t) * τ l) V)) := by
  have hl : N ≤ lda := h.ld
  rcases Nat.eq_zero_or_pos rank with rfl | hpos
  · rw [fgemv, if_pos rfl, Run_pure]
    refine h.congr (fun a _ b _ => ?_)
    by_cases q : i0 ≤ a ∧ a < i0 + 1 ∧ j0 ≤ b ∧ b < j0 + len
    · rw [upd_in' q, range_zero, sum_empty, sub_zero]
      congr 1 <;> omega
    · rw [upd_out (by omega)]
  have eW : Win.mk (A + j0) lda rank len = (Win.mk A lda N N).sub 0 j0 rank len := by simp [Win.sub, Win.adr]
  have hseg : ∀ a, (vw ((Win.mk A lda N N).adr i0 j0) 1 len).Has a → ∃ t < len, a = (Win.mk A lda N N).adr i0 (j0 + t) := by
    rintro a ⟨t, ht, z, hz, rfl⟩
    have ht : t < len := ht
    obtain rfl : z = 0 := by simpa [vw] using hz
    exact ⟨t, ht, by simp only [Win.adr, vw]; ring⟩
  refine (fgemv_spec cat .yes (Xd := rank) (Yd := len) (-1) 1 rfl rfl (Or.inl (by omega)) h.wf' ?_ (by omega) hS.ok (h.vw_row hi hj) Nat.one_pos ?_ ?_).mono
    (fun _ m' s => (h.rowStep (g := fun t => V i0 (j0 + t) - ∑ l ∈ range rank, V l (j0 + t) * τ l) hi hj (s.congr (fun t ht z hz => ?_))))
  · rw [eW]; exact (h.sub (i0 := 0) (j0 := j0) (r := rank) (c := len) (by show 0 + rank ≤ N; omega) hj).ok'
  · rw [eW]
    intro a ha hb
    obtain ⟨t, ht, rfl⟩ := hseg a hb
    obtain ⟨p, hp, q, hq, e⟩ := ha
    have hp : p < rank := hp
    have hq : q < len := hq
    rw [Win.sub_adr] at e
    have := h.inj _ hi _ (show j0 + t < N by omega) _ (show 0 + p < N by omega) _ (show j0 + q < N by omega) e
    omega
  · intro a ha hb
    obtain ⟨t, ht, rfl⟩ := hseg a hb
    exact hd _ ha (Win.Has_adr hi (show j0 + t < N by omega))
  · have ht : t < len := ht
    rw [Nat.mul_one, Win.adr_add_col, h.val hi (show j0 + t < N by omega), one_mul, neg_one_mul, neg_add_eq_sub]
    congr 1
    refine sum_congr rfl (fun l hl => ?_)
    have hl := mem_range.1 hl
    have e1 := hS.val l hl 0 Nat.one_pos
    simp only [Win.adr_mk, vw, Nat.add_zero] at e1
    rw [e1, show opAdr .yes (A + j0) lda t l = (Win.mk A lda N N).adr l (j0 + t) by simp only [opAdr, Win.adr]; ring,
      h.val (show l < N by omega) (show j0 + t < N by omega)]

/-- what `rpmUpdate` subtracts -/
def updRow (rank : ℕ) (mate : ℕ → ℕ) (Y V : ℕ → ℕ → K) (c i0 j0 len : ℕ) : ℕ → ℕ → K :=
  upd i0 j0 1 len (fun _ t => V i0 (j0 + t) - ∑ l ∈ range rank, V l (j0 + t) * (V (mate l) c * Y (mate l) 0)) V

lemma rpmUpdate_spec (cat : Cat) {s : RpmSt} {i0 j0 len dst : ℕ} (hF : Flags s.rank s.tb mate) (htb : s.tb.len = N) (hr : s.rank ≤ i0) (hi : i0 < N) (hc : c < N)
    (hj : j0 + len ≤ N) (h : On2 m0 m ⟨A, lda, N, N⟩ V (vw D 1 N) Y) (hdst : dst = (Win.mk A lda N N).adr i0 j0) :
    Run (rpmUpdate cat lda D 1 s (A + c) (A + j0) len dst) m (fun r m' => r = D + s.rank ∧
      On2 m0 m' ⟨A, lda, N, N⟩ (updRow s.rank mate Y V c i0 j0 len) (vw D 1 N) Y) := by
  subst hdst
  unfold rpmUpdate
  rw [Run_bind, Run_alloc]
  change Run _ (m.grow s.rank) _
  have hW := h.left
  have hT := h.right
  have okX : OkIn (m.grow s.rank) (vw m.next 1 s.rank) := OkIn.grow_le m (by omega)
  have dX : ∀ a, (vw m.next 1 s.rank).Has a → m.next ≤ a := by
    rintro a ⟨i, _, j, _, rfl⟩
    simp only [Win.adr, vw]; omega
  have dS : ∀ {W : Win}, OkIn m W → W.Disj (vw m.next 1 s.rank) := fun hw a ha hx => by
    have := hW.wf' a (dX a hx)
    rw [hw a ha] at this; exact absurd this (by simp)
  have hwg := hW.wf'.grow s.rank
  rw [Run_bind]
  have hsc := rpmScale_spec (c := c) hF (by omega) (by omega : s.rank ≤ N) hc hwg (hW.src.grow s.rank) (hT.src.grow s.rank) okX (dS hW.ok') (dS hT.ok')
    s.rank 0 (m.grow s.rank) ((m.grow s.rank).mat (vw m.next 1 s.rank)) (fun l hl => by omega) (by omega) (by omega) (On.start hwg okX le_rfl) (fun l hl => by omega)
  simp only [Nat.zero_mul, Nat.add_zero] at hsc
  refine hsc.mono ?_
  rintro r m1 ⟨rfl, s1⟩
  have hW2 : On m1 m1 ⟨A, lda, N, N⟩ V := ((hW.src.grow s.rank).on s1 (dS hW.ok')).toOn s1.wf'
  have hT2 := ((hT.src.grow s.rank).on s1 (dS hT.ok')).toOn s1.wf'
  rw [Run_bind]
  refine (rpm_gemv cat (τ := fun l => V (mate l) c * Y (mate l) 0) hr hi hj hW2 s1.src (dS hW.ok').symm).mono ?_
  intro _ m2 h2
  rw [Run_bind, Run_free, Run_pure]
  exact ⟨rfl, h.temp3 dX s1 hT2 h2⟩

lemma rpmFind_spec {i0 : ℕ} (h : On m0 m W V) (hi : i0 < W.r) {p len : ℕ} {j0 : ℕ} (hp : p = W.adr i0 j0) (hj : j0 + len ≤ W.c) :
    ∀ fuel i, i < len → len ≤ fuel + i → (∀ t < i, V i0 (j0 + t) = 0) →
      Run (rpmFind p len fuel i) m (fun r m' => m' = m ∧ r < len ∧ (∀ t < r, V i0 (j0 + t) = 0) ∧ (V i0 (j0 + r) = 0 → r + 1 = len)) := by
  subst hp
  intro fuel
  induction fuel with
  | zero => intro i h1 h2; omega
  | succ fuel ih =>
    intro i h1 h2 h3
    unfold rpmFind
    rw [Run_bind, Run_load, Win.adr_add_col]
    refine ⟨h.okc hi (by omega), ?_⟩
    rw [h.val hi (by omega)]
    by_cases q : V i0 (j0 + i) = 0 ∧ i + 1 < len
    · rw [if_pos q]
      refine ih (i + 1) q.2 (by omega) (fun t ht => ?_)
      rcases Nat.lt_succ_iff_lt_or_eq.1 ht with e | rfl
      · exact h3 t e
      · exact q.1
    · rw [if_neg q, Run_pure]
      exact ⟨rfl, h1, h3, fun e => by
        by_contra hh
        exact q ⟨e, by omega⟩⟩

end Verif.FF
