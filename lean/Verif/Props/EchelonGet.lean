import Verif.Proofs.EchelonForm
import Verif.Proofs.EchelonGetIn
import Verif.Props.Echelon
import Verif.Props.LUdivine

/-!
# Properties C64, C65, C66: echelon forms by LUdivine, the accessors, and uniqueness
-/

namespace Verif.Props

open Verif.FF Verif.Spec Verif.Spec.Perm Verif.Pluq Verif.Perm Finset

variable {K : Type} [Field K] [DecidableEq K] {m m1 m2 m3 : Mem K} {M N A lda E lde T ldt : ℕ} {P Q : Arr ℕ} {k : Kit K}

/-- the permutation described by the first `r` exchanges of an array of length at least `r` -/
structure FirstSwaps (P : Arr ℕ) (n r : ℕ) : Prop where
  len : r ≤ P.len
  low : ∀ i < r, i ≤ P.get i
  lt : ∀ i < r, P.get i < n

/-- C64: `RowEchelonForm` with the default tag `FfpackSlabRecursive`: `T · X(P) = E`; row `k` of the echelon form `E` is stored in row `k` of
`A` to the right of its pivot, which is in column `Qt[k]`; the exchanges of rows are the first `r` of `P`. -/
theorem C64_rowEchelonForm (hk : KitOk k) {cutoff : ℕ} (hc : cutoff ≤ 1) (h : Rect m M N A lda) (hP : min M N ≤ P.len) (hQ : N ≤ Q.len) :
    Run (rowEchelonSlab k cutoff true M N A lda P Q) m (fun x m' => ∃ V, Step m m' ⟨A, lda, M, N⟩ V ∧ x.1 = rk (m.mat ⟨A, lda, M, N⟩) M N ∧
      FirstSwaps x.2.1 M x.1 ∧ x.1 ≤ x.2.2.len ∧
      IsSlabEchelon M N x.1 (m.mat ⟨A, lda, M, N⟩) V (applySwaps x.2.1.get id x.1) x.2.2.get) := by
  refine (rowEchelonSlab_spec hk hc h.on hP hQ).mono ?_
  rintro ⟨r, P', Q'⟩ m' ⟨a1, a2, a3, V0, V, h1, hT⟩
  have e := hT.fac.echelon hT.li hT.up hT.bel
  have := hT.fac.rM
  have := hT.fac.rN
  simp only [] at *
  refine ⟨V, h1.step, (IsSlabEchelon.form e).rank_eq.symm, ⟨by omega, a3.low, a3.lt⟩, by omega, ?_⟩
  rw [applySwaps_eq]
  exact e

/-- C64: `ColumnEchelonForm` with the tag `FfpackSlabRecursive`, the statement for the transposed matrices -/
theorem C64_columnEchelonForm (hk : KitOk k) (cutoff : ℕ) (h : Rect m M N A lda) (hP : min M N ≤ P.len) (hQ : M ≤ Q.len) :
    Run (columnEchelonSlab k cutoff true M N A lda P Q) m (fun x m' => ∃ V, Step m m' ⟨A, lda, M, N⟩ V ∧ x.1 = rk (m.mat ⟨A, lda, M, N⟩) M N ∧
      FirstSwaps x.2.1 N x.1 ∧ x.1 ≤ x.2.2.len ∧
      IsSlabEchelon N M x.1 (fun i j => m.mat ⟨A, lda, M, N⟩ j i) (fun i j => V j i) (applySwaps x.2.1.get id x.1) x.2.2.get) := by
  refine (columnEchelonSlab_spec hk cutoff h.on hP hQ).mono ?_
  rintro ⟨r, P', Q'⟩ m' ⟨a1, a2, a3, V0, V, h1, hT⟩
  have e := hT.fac.echelon hT.li hT.up hT.bel
  have := hT.fac.rM
  have := hT.fac.rN
  simp only [] at *
  refine ⟨_, h1.step, ?_, ⟨by omega, a3.low, a3.lt⟩, by omega, ?_⟩
  · rw [← rk_transp]; exact (IsSlabEchelon.form e).rank_eq.symm
  · rw [applySwaps_eq]
    exact e

/-- C64: `ReducedRowEchelonForm` with the tag `FfpackSlabRecursive`: `T · X(P, Qt) = (I S; 0 0)`, the pivots `Qt[0] < Qt[1] < …` -/
theorem C64_reducedRowEchelonForm (hk : KitOk k) {cutoff : ℕ} (hc : cutoff ≤ 1) (h : Rect m M N A lda) (hP : M ≤ P.len) (hQ : N ≤ Q.len) :
    Run (reducedRowEchelonSlab k cutoff true M N A lda P Q) m (fun x m' => ∃ V, Step m m' ⟨A, lda, M, N⟩ V ∧ x.1 = rk (m.mat ⟨A, lda, M, N⟩) M N ∧
      FirstSwaps x.2.1 M x.1 ∧ FirstSwaps x.2.2 N x.1 ∧ (∀ i j, i < j → j < x.1 → x.2.2.get i < x.2.2.get j) ∧
      IsReduced M N x.1 (m.mat ⟨A, lda, M, N⟩) V (applySwaps x.2.1.get id x.1) (applySwaps x.2.2.get id x.1)) := by
  refine (reducedRowEchelonSlab_spec hk hc h.on hP hQ).mono ?_
  rintro ⟨r, P', Q'⟩ m' ⟨a1, a2, a3, a4, a5, V, h1, hT⟩
  have hR := hT.isReduced
  have := hR.rM
  have := hR.rN
  simp only [] at *
  refine ⟨V, h1.step, hR.rank_eq.symm, ⟨by omega, a3.low, a3.lt⟩, ⟨by omega, le_of_inc a5, a4⟩, a5, ?_⟩
  rw [applySwaps_eq, applySwaps_eq]
  exact hR

/-- C64: `ReducedRowEchelonForm` with the tag `FfpackSlabRecursive` without the transformation -/
theorem C64_reducedRowEchelonForm_noTransform (hk : KitOk k) {cutoff : ℕ} (hc : cutoff ≤ 1) (h : Rect m M N A lda) (hP : M ≤ P.len) (hQ : N ≤ Q.len) :
    Run (reducedRowEchelonSlab k cutoff false M N A lda P Q) m (fun x m' => ∃ V, Step m m' ⟨A, lda, M, N⟩ V ∧ x.1 = rk (m.mat ⟨A, lda, M, N⟩) M N ∧
      FirstSwaps x.2.1 M x.1 ∧ FirstSwaps x.2.2 N x.1 ∧ (∀ i j, i < j → j < x.1 → x.2.2.get i < x.2.2.get j) ∧
      IsReducedNT M N x.1 (m.mat ⟨A, lda, M, N⟩) V (applySwaps x.2.1.get id x.1) (applySwaps x.2.2.get id x.1)) := by
  refine (reducedRowEchelonSlabNT_spec hk hc h.on hP hQ).mono ?_
  rintro ⟨r, P', Q'⟩ m' ⟨a1, a2, a3, a4, a5, V, h1, hR⟩
  have := hR.rM
  have := hR.rN
  simp only [] at *
  refine ⟨V, h1.step, hR.rank_eq.symm, ⟨by omega, a3.low, a3.lt⟩, ⟨by omega, le_of_inc a5, a4⟩, a5, ?_⟩
  rw [applySwaps_eq, applySwaps_eq]
  exact hR

/-- C64: `ReducedColumnEchelonForm` with the tag `FfpackSlabRecursive` -/
theorem C64_reducedColumnEchelonForm (hk : KitOk k) (cutoff : ℕ) (h : Rect m M N A lda) (hP : min M N ≤ P.len) (hQ : M ≤ Q.len) :
    Run (reducedColumnEchelonSlab k cutoff true M N A lda P Q) m (fun x m' => ∃ V, Step m m' ⟨A, lda, M, N⟩ V ∧
      x.1 = rk (m.mat ⟨A, lda, M, N⟩) M N ∧
      FirstSwaps x.2.1 N x.1 ∧ FirstSwaps x.2.2 M x.1 ∧ (∀ i j, i < j → j < x.1 → x.2.2.get i < x.2.2.get j) ∧
      IsReduced N M x.1 (fun i j => m.mat ⟨A, lda, M, N⟩ j i) (fun i j => V j i) (applySwaps x.2.1.get id x.1) (applySwaps x.2.2.get id x.1)) := by
  refine (reducedColumnEchelonSlab_spec hk cutoff h.on hP hQ).mono ?_
  rintro ⟨r, P', Q'⟩ m' ⟨a1, a2, a3, a4, a5, V, h1, hT⟩
  have hR := hT.isReduced
  have := hR.rM
  have := hR.rN
  simp only [] at *
  refine ⟨_, h1.step, ?_, ⟨by omega, a3.low, a3.lt⟩, ⟨by omega, le_of_inc a5, a4⟩, a5, ?_⟩
  · rw [← rk_transp]; exact hR.rank_eq.symm
  · rw [applySwaps_eq, applySwaps_eq]
    exact hR

/-- C64: `ReducedColumnEchelonForm` with the tag `FfpackSlabRecursive` without the transformation -/
theorem C64_reducedColumnEchelonForm_noTransform (hk : KitOk k) (cutoff : ℕ) (h : Rect m M N A lda) (hP : min M N ≤ P.len) (hQ : M ≤ Q.len) :
    Run (reducedColumnEchelonSlab k cutoff false M N A lda P Q) m (fun x m' => ∃ V, Step m m' ⟨A, lda, M, N⟩ V ∧
      x.1 = rk (m.mat ⟨A, lda, M, N⟩) M N ∧
      FirstSwaps x.2.1 N x.1 ∧ FirstSwaps x.2.2 M x.1 ∧ (∀ i j, i < j → j < x.1 → x.2.2.get i < x.2.2.get j) ∧
      IsReducedNT N M x.1 (fun i j => m.mat ⟨A, lda, M, N⟩ j i) (fun i j => V j i) (applySwaps x.2.1.get id x.1) (applySwaps x.2.2.get id x.1)) := by
  refine (reducedColumnEchelonSlabNT_spec hk cutoff h.on hP hQ).mono ?_
  rintro ⟨r, P', Q'⟩ m' ⟨a1, a2, a3, a4, a5, V, h1, hR⟩
  have := hR.rM
  have := hR.rN
  simp only [] at *
  refine ⟨_, h1.step, ?_, ⟨by omega, a3.low, a3.lt⟩, ⟨by omega, le_of_inc a5, a4⟩, a5, ?_⟩
  · rw [← rk_transp]; exact hR.rank_eq.symm
  · rw [applySwaps_eq, applySwaps_eq]
    exact hR

/-! ### the accessors -/

/-- nothing but three windows has changed -/
structure Only3 (m m' : Mem K) (W T S : Win) : Prop where
  ok : m'.ok = m.ok
  frame : ∀ a, m.ok a = true → ¬ W.Has a → ¬ T.Has a → ¬ S.Has a → m'.val a = m.val a

/-- What a user calls to have the row echelon form in `E` and the transformation in `T`; returns the rank. -/
def rowEchelonUse (k : Kit K) (cutoff : ℕ) (jl : List ℕ → ℕ → ℕ) (jk : ℕ → ℕ → ℕ) (tag : EchTag) (M N A lda E lde T ldt : ℕ) (onz : Bool)
    (P Q : Arr ℕ) : Prog K ℕ := do
  let x ← (match tag with
    | .slab => rowEchelonSlab k cutoff true M N A lda P Q
    | _ => rowEchelonForm k jl true M N A lda P Q)
  getEchelonForm jk tag .upper .unit M N x.1 x.2.2 A lda E lde onz
  getEchelonTransform jk tag .upper .unit M N x.1 x.2.1 x.2.2 A lda T ldt
  pure x.1

/-- the same for the column echelon form -/
def columnEchelonUse (k : Kit K) (cutoff : ℕ) (jl : List ℕ → ℕ → ℕ) (jk : ℕ → ℕ → ℕ) (tag : EchTag) (M N A lda E lde T ldt : ℕ) (onz : Bool)
    (P Q : Arr ℕ) : Prog K ℕ := do
  let x ← (match tag with
    | .slab => columnEchelonSlab k cutoff true M N A lda P Q
    | _ => columnEchelonForm k jl true M N A lda P Q)
  getEchelonForm jk tag .lower .unit M N x.1 x.2.2 A lda E lde onz
  getEchelonTransform jk tag .lower .unit M N x.1 x.2.1 x.2.2 A lda T ldt
  pure x.1

/-- the same for the reduced row echelon form -/
def reducedRowEchelonUse (k : Kit K) (cutoff : ℕ) (jl : List ℕ → ℕ → ℕ) (jk : ℕ → ℕ → ℕ) (tag : EchTag) (M N A lda E lde T ldt : ℕ) (onz : Bool)
    (P Q : Arr ℕ) : Prog K ℕ := do
  let x ← (match tag with
    | .slab => reducedRowEchelonSlab k cutoff true M N A lda P Q
    | .tile => reducedRowEchelonForm k jl true M N A lda P Q
    | .gjTile => reducedRowEchelonFormGJ k jl M N A lda P Q)
  getReducedEchelonForm jk tag .upper M N x.1 x.2.2 A lda E lde onz
  getReducedEchelonTransform jk tag .upper M N x.1 x.2.1 x.2.2 A lda T ldt
  pure x.1

/-- the same for the reduced column echelon form -/
def reducedColumnEchelonUse (k : Kit K) (cutoff : ℕ) (jl : List ℕ → ℕ → ℕ) (jk : ℕ → ℕ → ℕ) (tag : EchTag) (M N A lda E lde T ldt : ℕ) (onz : Bool)
    (P Q : Arr ℕ) : Prog K ℕ := do
  let x ← (match tag with
    | .slab => reducedColumnEchelonSlab k cutoff true M N A lda P Q
    | _ => reducedColumnEchelonForm k jl true M N A lda P Q)
  getReducedEchelonForm jk tag .lower M N x.1 x.2.2 A lda E lde onz
  getReducedEchelonTransform jk tag .lower M N x.1 x.2.1 x.2.2 A lda T ldt
  pure x.1

/-- the three windows of the users above: the matrix, the echelon form and the transformation (square, of dimension `n`) -/
structure Place (m : Mem K) (M N A lda E lde T ldt n : ℕ) : Prop where
  a : Rect m M N A lda
  e : Rect m M N E lde
  t : Rect m n n T ldt
  ae : (⟨A, lda, M, N⟩ : Win).Disj ⟨E, lde, M, N⟩
  at_ : (⟨A, lda, M, N⟩ : Win).Disj ⟨T, ldt, n, n⟩
  et : (⟨E, lde, M, N⟩ : Win).Disj ⟨T, ldt, n, n⟩

/-- what is in `E` when only the non-zero rows have been asked for -/
def onlyRows (onz : Bool) (r : ℕ) (Z : ℕ → ℕ → K) (i j : ℕ) : K := if onz = true ∧ r ≤ i then 0 else Z i j

omit [DecidableEq K] in
lemma IsRowEchelonForm.congr' {r : ℕ} {X T T' E E' : ℕ → ℕ → K} {c : ℕ → ℕ} (h : IsRowEchelonForm M N r X T E c)
    (hT : ∀ i < M, ∀ j < M, T' i j = T i j) (hE : ∀ i < M, ∀ j < N, E' i j = E i j) : IsRowEchelonForm M N r X T' E' c := by
  have hr := h.rM
  refine ⟨h.rM, h.cN, h.inc, fun k hk => ?_, fun k hk j hj => ?_, fun i hi hr j hj => ?_, fun i hi j hj => ?_, ?_⟩
  · rw [hE k (by omega) _ (h.cN k hk), h.piv k hk]
  · have := h.cN k hk
    rw [hE k (by omega) _ (by omega), h.left k hk j hj]
  · rw [hE i hi j hj, h.below i hi hr j hj]
  · rw [hE i hi j hj, ← h.eq i hi j hj]
    exact sum_congr rfl (fun k hk => by rw [hT i hi k (mem_range.1 hk)])
  · obtain ⟨S, hS⟩ := h.inv
    refine ⟨S, fun i hi k hk => ?_⟩
    rw [← hS i hi k hk]
    exact sum_congr rfl (fun l hl => by rw [hT l (mem_range.1 hl) k hk])

omit [DecidableEq K] in
lemma IsReducedRowEchelonForm.congr' {r : ℕ} {X T T' E E' : ℕ → ℕ → K} {c : ℕ → ℕ} (h : IsReducedRowEchelonForm M N r X T E c)
    (hT : ∀ i < M, ∀ j < M, T' i j = T i j) (hE : ∀ i < M, ∀ j < N, E' i j = E i j) : IsReducedRowEchelonForm M N r X T' E' c := by
  have hr := h.rM
  exact ⟨IsRowEchelonForm.congr' h.toIsRowEchelonForm hT hE, fun i hi k hk => by rw [hE i (by omega) _ (h.cN k hk), h.red i hi k hk]⟩

/-- the run of the three calls -/
lemma use_run {α : Type} {f : Prog K α} {gE gT : α → Prog K Unit} {ret : α → ℕ} {Ψ : α → (ℕ → ℕ → K) → Prop} {FE : α → (ℕ → ℕ → K) → (ℕ → ℕ → K) → ℕ → ℕ → K}
    {FT : α → (ℕ → ℕ → K) → ℕ → ℕ → K} {n : ℕ} (hp : Place m M N A lda E lde T ldt n)
    (h1 : Run f m (fun x m1 => ∃ V, On m m1 ⟨A, lda, M, N⟩ V ∧ Ψ x V))
    (hE : ∀ x V m1, Ψ x V → Src m1 ⟨A, lda, M, N⟩ V → On m1 m1 ⟨E, lde, M, N⟩ (m.mat ⟨E, lde, M, N⟩) →
      Run (gE x) m1 (fun _ m2 => On m1 m2 ⟨E, lde, M, N⟩ (FE x V (m.mat ⟨E, lde, M, N⟩))))
    (hT : ∀ x V m1, Ψ x V → Src m1 ⟨A, lda, M, N⟩ V → On m1 m1 ⟨T, ldt, n, n⟩ (m1.mat ⟨T, ldt, n, n⟩) →
      Run (gT x) m1 (fun _ m2 => On m1 m2 ⟨T, ldt, n, n⟩ (FT x V))) :
    Run (f >>= fun x => gE x >>= fun _ => gT x >>= fun _ => pure (ret x)) m (fun r m' =>
      Only3 m m' ⟨A, lda, M, N⟩ ⟨E, lde, M, N⟩ ⟨T, ldt, n, n⟩ ∧ ∃ x V, r = ret x ∧ Ψ x V ∧
        (∀ i < M, ∀ j < N, m'.mat ⟨E, lde, M, N⟩ i j = FE x V (m.mat ⟨E, lde, M, N⟩) i j) ∧
        (∀ i < n, ∀ j < n, m'.mat ⟨T, ldt, n, n⟩ i j = FT x V i j)) := by
  rw [Run_bind]
  refine h1.mono ?_
  rintro x m1 ⟨V, o1, hΨ⟩
  rw [Run_bind]
  have s1 : Src m1 ⟨A, lda, M, N⟩ V := ⟨hp.a.ok.step o1.step, hp.a.ld, o1.step.val⟩
  have okE1 : OkIn m1 ⟨E, lde, M, N⟩ := hp.e.ok.step o1.step
  have sE1 : Src m1 ⟨E, lde, M, N⟩ (m.mat ⟨E, lde, M, N⟩) := (⟨hp.e.ok, hp.e.ld, fun _ _ _ _ => rfl⟩ : Src m ⟨E, lde, M, N⟩ _).step o1.step hp.ae.symm
  have oE : On m1 m1 ⟨E, lde, M, N⟩ (m.mat ⟨E, lde, M, N⟩) := (On.start (hp.a.wf.step o1.step) okE1 hp.e.ld).congr (fun i hi j hj => sE1.val i hi j hj)
  refine (hE x V m1 hΨ s1 oE).mono (fun _ m2 o2 => ?_)
  rw [Run_bind]
  have s2 : Src m2 ⟨A, lda, M, N⟩ V := s1.step o2.step hp.ae
  have okT2 : OkIn m2 ⟨T, ldt, n, n⟩ := (hp.t.ok.step o1.step).step o2.step
  refine (hT x V m2 hΨ s2 (On.start ((hp.a.wf.step o1.step).step o2.step) okT2 hp.t.ld)).mono (fun _ m3 o3 => ?_)
  rw [Run_pure]
  have sE3 : Src m3 ⟨E, lde, M, N⟩ _ := (⟨okE1.step o2.step, hp.e.ld, o2.step.val⟩ : Src m2 ⟨E, lde, M, N⟩ _).step o3.step hp.et
  refine ⟨⟨by rw [o3.step.ok, o2.step.ok, o1.step.ok], fun a ha h1 h2 h3 => ?_⟩, x, V, rfl, hΨ, fun i hi j hj => sE3.val i hi j hj,
    fun i hi j hj => o3.step.val i hi j hj⟩
  rw [o3.step.frame a (by rw [o2.step.ok, o1.step.ok]; exact ha) h3, o2.step.frame a (by rw [o1.step.ok]; exact ha) h2, o1.step.frame a ha h1]

/-- C65: the row echelon form in `E` and the transformation in `T`, by the tags `FfpackSlabRecursive` and `FfpackTileRecursive`: `T` is
invertible and `T · X = E`, a matrix in row echelon form; with `OnlyNonZeroVectors` the rows of `E` after the rank are not written.  Nothing
but the three matrices has changed. -/
theorem C65_rowEchelon (hk : KitOk k) {cutoff : ℕ} (hc : cutoff ≤ 1) (jl : List ℕ → ℕ → ℕ) (jk : ℕ → ℕ → ℕ) {tag : EchTag} (ht : tag ≠ .gjTile)
    (onz : Bool) (hp : Place m M N A lda E lde T ldt M) (hP : P.len = M) (hQ : Q.len = N) :
    Run (rowEchelonUse k cutoff jl jk tag M N A lda E lde T ldt onz P Q) m (fun r m' =>
      Only3 m m' ⟨A, lda, M, N⟩ ⟨E, lde, M, N⟩ ⟨T, ldt, M, M⟩ ∧ r = rk (m.mat ⟨A, lda, M, N⟩) M N ∧
      (onz = true → ∀ i < M, r ≤ i → ∀ j < N, m'.mat ⟨E, lde, M, N⟩ i j = m.mat ⟨E, lde, M, N⟩ i j) ∧
      ∃ c, IsRowEchelonForm M N r (m.mat ⟨A, lda, M, N⟩) (m'.mat ⟨T, ldt, M, M⟩) (onlyRows onz r (m'.mat ⟨E, lde, M, N⟩)) c) := by
  unfold rowEchelonUse
  cases tag with
  | gjTile => exact absurd rfl ht
  | slab =>
    refine (use_run (Ψ := fun x V => x.1 ≤ x.2.1.len ∧ x.1 ≤ x.2.2.len ∧ x.1 ≤ N ∧ (∀ i < x.1, x.2.1.get i < M) ∧
        IsSlabEchelon M N x.1 (m.mat ⟨A, lda, M, N⟩) V (ofSwaps x.2.1.get x.1) x.2.2.get)
      (FE := fun x V U i j => if i < x.1 then slabRow V x.2.2.get i j else if onz = false ∧ i < M then 0 else U i j)
      (FT := fun x V i j => rowTransOf x.1 V i ((ofSwaps x.2.1.get x.1)⁻¹ j)) hp ?_ ?_ ?_).mono ?_
    · refine (rowEchelonSlab_spec hk hc hp.a.on (by simp only []; omega) hQ.ge).mono ?_
      rintro ⟨r, P', Q'⟩ m' ⟨a1, a2, a3, V0, V, h1, hT⟩
      have := hT.fac.rM
      have := hT.fac.rN
      simp only [] at *
      exact ⟨V, h1, by omega, by omega, by omega, a3.lt, hT.fac.echelon hT.li hT.up hT.bel⟩
    · rintro ⟨r, P', Q'⟩ V m1 ⟨a1, a2, a3, a4, e⟩ s o
      have := e.rM
      exact getEchelonForm_slab_upper jk .unit onz o s hp.ae e.rM rfl e.rM (by simp only []; split_ifs <;> omega) a2 e.qN
    · rintro ⟨r, P', Q'⟩ V m1 ⟨a1, a2, a3, a4, e⟩ s o
      refine (getEchelonTransform_upper (Q := Q') jk .slab .unit o s hp.at_ rfl rfl e.rM a3 a3 (by simpa using a1) (by simpa using a4) (by simp)).mono
        (fun _ m2 o2 => o2.congr (fun i _ j _ => ?_))
      simp only [ordOf_neg (show decide (EchTag.slab = .tile) = false from rfl)]
      rfl
    · rintro r m' ⟨h3, x, V, rfl, ⟨a1, a2, a3, a4, e⟩, vE, vT⟩
      have f := IsSlabEchelon.form e
      refine ⟨h3, f.rank_eq.symm, fun hz i hi hr j hj => ?_, x.2.2.get, IsRowEchelonForm.congr' f vT (fun i hi j hj => ?_)⟩
      · rw [vE i hi j hj, if_neg (by omega), if_neg (by simp [hz])]
      · rw [onlyRows]
        by_cases hr : i < x.1
        · rw [if_neg (by omega), vE i hi j hj, if_pos hr, if_pos hr]
        · cases onz with
          | true => rw [if_pos ⟨rfl, by omega⟩, if_neg hr]
          | false => rw [if_neg (by simp), vE i hi j hj, if_neg hr, if_neg hr, if_pos ⟨rfl, hi⟩]
  | tile =>
    refine (use_run (Ψ := fun x V => ArrOk x.2.1 M ∧ ArrOk x.2.2 N ∧
        IsEchelon M N x.1 (m.mat ⟨A, lda, M, N⟩) V (ofSwaps x.2.1.get M) (ofSwaps x.2.2.get N))
      (FE := fun x V U i j => if i < x.1 then tri .upper .unit V (ech (ofSwaps x.2.2.get N) x.1 i) ((ofSwaps x.2.2.get N)⁻¹ j)
        else if onz = false ∧ i < M then 0 else U i j)
      (FT := fun x V i j => rowTransOf x.1 V (ech (ofSwaps x.2.2.get N) x.1 i) ((ofSwaps x.2.1.get M)⁻¹ j)) hp ?_ ?_ ?_).mono ?_
    · refine (rowEchelonForm_tr hk jl hp.a.on hP hQ).mono ?_
      rintro ⟨r, P', Q'⟩ m' ⟨a, b, V, h', e⟩
      exact ⟨V, h', a, b, e⟩
    · rintro ⟨r, P', Q'⟩ V m1 ⟨a, b, e⟩ s o
      have := e.rM
      exact getEchelonForm_tile_upper jk .unit onz o s hp.ae e.rM rfl e.rN e.rM (by simp only []; split_ifs <;> omega) b.1 (fun i hi => (b.2 i hi).2)
    · rintro ⟨r, P', Q'⟩ V m1 ⟨a, b, e⟩ s o
      refine (getEchelonTransform_upper (Q := Q') jk .tile .unit o s hp.at_ rfl rfl e.rM e.rN e.rN (by simpa using a.1.ge)
        (by simpa using fun i hi => (a.2 i hi).2) (fun _ => ⟨b.1, fun i hi => (b.2 i hi).2⟩)).mono (fun _ m2 o2 => o2.congr (fun i _ j _ => ?_))
      simp only [ordOf_pos (show decide (EchTag.tile = .tile) = true from rfl)]
      rfl
    · rintro r m' ⟨h3, x, V, rfl, ⟨a, b, e⟩, vE, vT⟩
      have f := IsEchelon.form e
      refine ⟨h3, f.rank_eq.symm, fun hz i hi hr j hj => ?_, _, IsRowEchelonForm.congr' f vT (fun i hi j hj => ?_)⟩
      · rw [vE i hi j hj, if_neg (by omega), if_neg (by simp [hz])]
      · rw [onlyRows]
        by_cases hr : i < x.1
        · rw [if_neg (by omega), vE i hi j hj, if_pos hr, rowEchOf, if_pos (ech_lt hr)]
        · have := ech_ge (q := ofSwaps x.2.2.get N) (not_lt.1 hr)
          cases onz with
          | true => rw [if_pos ⟨rfl, by omega⟩, rowEchOf, if_neg (by rw [this]; exact hr)]
          | false => rw [if_neg (by simp), vE i hi j hj, if_neg hr, if_pos ⟨rfl, hi⟩, rowEchOf, if_neg (by rw [this]; exact hr)]

/-- C65: the column echelon form in `E` and the transformation in `T`: `X · T = E`, stated for the transposed matrices -/
theorem C65_columnEchelon (hk : KitOk k) (cutoff : ℕ) (jl : List ℕ → ℕ → ℕ) (jk : ℕ → ℕ → ℕ) {tag : EchTag} (ht : tag ≠ .gjTile)
    (onz : Bool) (hp : Place m M N A lda E lde T ldt N) (hP : P.len = N) (hQ : Q.len = M) :
    Run (columnEchelonUse k cutoff jl jk tag M N A lda E lde T ldt onz P Q) m (fun r m' =>
      Only3 m m' ⟨A, lda, M, N⟩ ⟨E, lde, M, N⟩ ⟨T, ldt, N, N⟩ ∧ r = rk (m.mat ⟨A, lda, M, N⟩) M N ∧
      (onz = true → ∀ i < M, ∀ j < N, r ≤ j → m'.mat ⟨E, lde, M, N⟩ i j = m.mat ⟨E, lde, M, N⟩ i j) ∧
      ∃ c, IsRowEchelonForm N M r (fun i j => m.mat ⟨A, lda, M, N⟩ j i) (fun i j => m'.mat ⟨T, ldt, N, N⟩ j i)
        (onlyRows onz r (fun i j => m'.mat ⟨E, lde, M, N⟩ j i)) c) := by
  unfold columnEchelonUse
  cases tag with
  | gjTile => exact absurd rfl ht
  | slab =>
    refine (use_run (Ψ := fun x V => x.1 ≤ x.2.1.len ∧ x.1 ≤ x.2.2.len ∧ x.1 ≤ M ∧ (∀ i < x.1, x.2.1.get i < N) ∧
        IsSlabEchelon N M x.1 (fun i j => m.mat ⟨A, lda, M, N⟩ j i) (fun i j => V j i) (ofSwaps x.2.1.get x.1) x.2.2.get)
      (FE := fun x V U i j => if j < x.1 then slabRow (fun a b => V b a) x.2.2.get j i else if onz = false ∧ j < N then 0 else U i j)
      (FT := fun x V i j => rowTransOf x.1 (fun a b => V b a) j ((ofSwaps x.2.1.get x.1)⁻¹ i)) hp ?_ ?_ ?_).mono ?_
    · refine (columnEchelonSlab_spec hk cutoff hp.a.on (by simp only []; omega) hQ.ge).mono ?_
      rintro ⟨r, P', Q'⟩ m' ⟨a1, a2, a3, V0, V, h1, hT⟩
      have := hT.fac.rM
      have := hT.fac.rN
      simp only [] at *
      exact ⟨_, h1, by omega, by omega, by omega, a3.lt, hT.fac.echelon hT.li hT.up hT.bel⟩
    · rintro ⟨r, P', Q'⟩ V m1 ⟨a1, a2, a3, a4, e⟩ s o
      have := e.rM
      exact getEchelonForm_slab_lower jk .unit onz o s hp.ae e.rM rfl e.rM (by simp only []; split_ifs <;> omega) a2 e.qN
    · rintro ⟨r, P', Q'⟩ V m1 ⟨a1, a2, a3, a4, e⟩ s o
      refine (getEchelonTransform_lower (Q := Q') jk .slab .unit o s hp.at_ rfl rfl e.rM a3 a3 (by simpa using a1) (by simpa using a4) (by simp)).mono
        (fun _ m2 o2 => o2.congr (fun i _ j _ => ?_))
      simp only [ordOf_neg (show decide (EchTag.slab = .tile) = false from rfl)]
      rfl
    · rintro r m' ⟨h3, x, V, rfl, ⟨a1, a2, a3, a4, e⟩, vE, vT⟩
      have f := IsSlabEchelon.form e
      refine ⟨h3, by rw [← rk_transp]; exact f.rank_eq.symm, fun hz i hi j hj hr => ?_, x.2.2.get,
        IsRowEchelonForm.congr' f (fun i hi j hj => vT j hj i hi) (fun i hi j hj => ?_)⟩
      · rw [vE i hi j hj, if_neg (by omega), if_neg (by simp [hz])]
      · rw [onlyRows]
        by_cases hr : i < x.1
        · rw [if_neg (by omega), vE j hj i hi, if_pos hr, if_pos hr]
        · cases onz with
          | true => rw [if_pos ⟨rfl, by omega⟩, if_neg hr]
          | false => rw [if_neg (by simp), vE j hj i hi, if_neg hr, if_neg hr, if_pos ⟨rfl, hi⟩]
  | tile =>
    refine (use_run (Ψ := fun x V => ArrOk x.2.1 N ∧ ArrOk x.2.2 M ∧
        IsEchelon N M x.1 (fun i j => m.mat ⟨A, lda, M, N⟩ j i) (fun i j => V j i) (ofSwaps x.2.1.get N) (ofSwaps x.2.2.get M))
      (FE := fun x V U i j => if j < x.1 then tri .lower .unit V ((ofSwaps x.2.2.get M)⁻¹ i) (ech (ofSwaps x.2.2.get M) x.1 j)
        else if onz = false ∧ j < N then 0 else U i j)
      (FT := fun x V i j => rowTransOf x.1 (fun a b => V b a) (ech (ofSwaps x.2.2.get M) x.1 j) ((ofSwaps x.2.1.get N)⁻¹ i)) hp ?_ ?_ ?_).mono ?_
    · refine (columnEchelonForm_tr hk jl hp.a.on hP hQ).mono ?_
      rintro ⟨r, P', Q'⟩ m' ⟨a, b, V, h', e⟩
      exact ⟨V, h', a, b, e⟩
    · rintro ⟨r, P', Q'⟩ V m1 ⟨a, b, e⟩ s o
      have := e.rM
      exact getEchelonForm_tile_lower jk .unit onz o s hp.ae e.rM rfl e.rN e.rM (by simp only []; split_ifs <;> omega) b.1 (fun i hi => (b.2 i hi).2)
    · rintro ⟨r, P', Q'⟩ V m1 ⟨a, b, e⟩ s o
      refine (getEchelonTransform_lower (Q := Q') jk .tile .unit o s hp.at_ rfl rfl e.rM e.rN e.rN (by simpa using a.1.ge)
        (by simpa using fun i hi => (a.2 i hi).2) (fun _ => ⟨b.1, fun i hi => (b.2 i hi).2⟩)).mono (fun _ m2 o2 => o2.congr (fun i _ j _ => ?_))
      simp only [ordOf_pos (show decide (EchTag.tile = .tile) = true from rfl)]
      rfl
    · rintro r m' ⟨h3, x, V, rfl, ⟨a, b, e⟩, vE, vT⟩
      have f := IsEchelon.form e
      refine ⟨h3, by rw [← rk_transp]; exact f.rank_eq.symm, fun hz i hi j hj hr => ?_, _,
        IsRowEchelonForm.congr' f (fun i hi j hj => vT j hj i hi) (fun i hi j hj => ?_)⟩
      · rw [vE i hi j hj, if_neg (by omega), if_neg (by simp [hz])]
      · rw [onlyRows]
        by_cases hr : i < x.1
        · rw [if_neg (by omega), vE j hj i hi, if_pos hr, rowEchOf, if_pos (ech_lt hr), tri_tr]
        · have := ech_ge (q := ofSwaps x.2.2.get M) (not_lt.1 hr)
          cases onz with
          | true => rw [if_pos ⟨rfl, by omega⟩, rowEchOf, if_neg (by rw [this]; exact hr)]
          | false => rw [if_neg (by simp), vE j hj i hi, if_neg hr, if_pos ⟨rfl, hi⟩, rowEchOf, if_neg (by rw [this]; exact hr)]

/-- what the reduced forms give, whatever the order of the pivots -/
lemma reduced_use {r M N : ℕ} {tag : EchTag} {X V : ℕ → ℕ → K} {p q : Equiv.Perm ℕ} (e : IsReduced M N r X V p q)
    (inc : tag = .slab → ∀ i j, i < j → j < r → q i < q j) : ∃ c,
    IsReducedRowEchelonForm M N r X (fun i k => transOf 0 0 r V (ordOf (tag ≠ .slab) q r i) (p⁻¹ k))
      (fun i j => if i < r then reducedOf 0 0 r V (ordOf (tag ≠ .slab) q r i) (q⁻¹ j) else 0) c := by
  have key : ∀ σ : ℕ → ℕ, IsPermArray σ M → (∀ i < r, σ i < r) → (∀ i, r ≤ i → σ i = i) → (∀ k l, k < l → l < r → q (σ k) < q (σ l)) →
      (∀ i, ordOf (tag ≠ .slab) q r i = σ i) → ∃ c, IsReducedRowEchelonForm M N r X (fun i k => transOf 0 0 r V (ordOf (tag ≠ .slab) q r i) (p⁻¹ k))
      (fun i j => if i < r then reducedOf 0 0 r V (ordOf (tag ≠ .slab) q r i) (q⁻¹ j) else 0) c := by
    intro σ h1 h2 h3 h4 h5
    have f := IsReduced.form e h1 h2 h3 h4
    refine ⟨_, IsReducedRowEchelonForm.congr' f (fun i _ j _ => by simp only [h5]) (fun i hi j hj => ?_)⟩
    simp only [h5]
    by_cases hr : i < r
    · rw [if_pos hr]
    · rw [if_neg hr, ← f.below i hi (by omega) j hj]
  by_cases ht : tag = .slab
  · refine key id ⟨fun i hi => hi, fun i _ j _ h => h⟩ (fun i hi => hi) (fun i _ => rfl) (inc ht) (fun i => ordOf_neg (by simp [ht]))
  · exact key (ech q r) (ech_perm q e.rM) (fun i hi => ech_lt hi) (fun i hi => ech_ge hi) (fun k l => ech_inc) (fun i => ordOf_pos (by simp [ht]))

/-- C65: the reduced row echelon form in `E` and the transformation in `T`, by all the tags -/
theorem C65_reducedRowEchelon (hk : KitOk k) {cutoff : ℕ} (hc : cutoff ≤ 1) (jl : List ℕ → ℕ → ℕ) (jk : ℕ → ℕ → ℕ) (tag : EchTag)
    (onz : Bool) (hp : Place m M N A lda E lde T ldt M) (hP : P.len = M) (hQ : Q.len = N) :
    Run (reducedRowEchelonUse k cutoff jl jk tag M N A lda E lde T ldt onz P Q) m (fun r m' =>
      Only3 m m' ⟨A, lda, M, N⟩ ⟨E, lde, M, N⟩ ⟨T, ldt, M, M⟩ ∧ r = rk (m.mat ⟨A, lda, M, N⟩) M N ∧
      (onz = true → ∀ i < M, r ≤ i → ∀ j < N, m'.mat ⟨E, lde, M, N⟩ i j = m.mat ⟨E, lde, M, N⟩ i j) ∧
      ∃ c, IsReducedRowEchelonForm M N r (m.mat ⟨A, lda, M, N⟩) (m'.mat ⟨T, ldt, M, M⟩) (onlyRows onz r (m'.mat ⟨E, lde, M, N⟩)) c) := by
  unfold reducedRowEchelonUse
  refine (use_run (Ψ := fun x V => (x.2.1.len = M ∧ x.2.2.len = N) ∧
      (∀ i < (if tag = .slab then x.1 else M), x.2.1.get i < M) ∧ (∀ i < (if tag = .slab then x.1 else N), x.2.2.get i < N) ∧
      (tag = .slab → ∀ i j, i < j → j < x.1 → ofSwaps x.2.2.get (if tag = .slab then x.1 else N) i < ofSwaps x.2.2.get (if tag = .slab then x.1 else N) j) ∧
      IsReduced M N x.1 (m.mat ⟨A, lda, M, N⟩) V (ofSwaps x.2.1.get (if tag = .slab then x.1 else M)) (ofSwaps x.2.2.get (if tag = .slab then x.1 else N)))
    (FE := fun x V U i j => if i < x.1 then reducedOf 0 0 x.1 V (ordOf (tag ≠ .slab) (ofSwaps x.2.2.get N) x.1 i)
        ((ofSwaps x.2.2.get (if tag = .slab then x.1 else N))⁻¹ j) else if onz = false ∧ i < M then 0 else U i j)
    (FT := fun x V i j => transOf 0 0 x.1 V (ordOf (tag ≠ .slab) (ofSwaps x.2.2.get N) x.1 i) ((ofSwaps x.2.1.get (if tag = .slab then x.1 else M))⁻¹ j))
    hp ?_ ?_ ?_).mono ?_
  · cases tag with
    | slab =>
      refine (reducedRowEchelonSlab_spec hk hc hp.a.on hP.ge hQ.ge).mono ?_
      rintro ⟨r, P', Q'⟩ m' ⟨a1, a2, a3, a4, a5, V, h1, hT⟩
      have e := hT.isReduced
      simp only [if_true] at *
      refine ⟨V, h1, ⟨by omega, by omega⟩, a3.lt, a4, fun _ i j hij hj => ?_, e⟩
      rw [ofSwaps_pivot a5 r (by omega) le_rfl, ofSwaps_pivot a5 r hj le_rfl]
      exact a5 i j hij hj
    | tile =>
      refine (reducedRowEchelonForm_spec hk jl hp.a.on hP hQ).mono ?_
      rintro ⟨r, P', Q'⟩ m' ⟨a, b, V, h', e⟩
      exact ⟨V, h', ⟨a.1, b.1⟩, by simpa using fun i hi => (a.2 i hi).2, by simpa using fun i hi => (b.2 i hi).2, by simp, by simpa using e.isReduced⟩
    | gjTile =>
      refine (reducedRowEchelonFormGJ_spec hk jl hp.a.on hP hQ).mono ?_
      rintro ⟨r, P', Q'⟩ m' ⟨a, b, V, h', e⟩
      exact ⟨V, h', ⟨a.1, b.1⟩, by simpa using fun i hi => (a.2 i hi).2, by simpa using fun i hi => (b.2 i hi).2, by simp, by simpa using e⟩
  · rintro ⟨r, P', Q'⟩ V m1 ⟨⟨a1, a2⟩, a3, a4, -, e⟩ s o
    have := e.rM
    have := e.rN
    exact getReducedEchelonForm_upper jk tag onz o s hp.ae e.rM rfl e.rN e.rM (by simp only []; split_ifs <;> omega)
      (by simp only [] at *; split_ifs <;> omega) (fun _ => a2) a4
  · rintro ⟨r, P', Q'⟩ V m1 ⟨⟨a1, a2⟩, a3, a4, -, e⟩ s o
    have := e.rM
    have := e.rN
    exact getReducedEchelonTransform_upper jk tag o s hp.at_ rfl rfl e.rM e.rN e.rN (by simp only [] at *; split_ifs <;> omega) a3
      (fun ht => ⟨a2, by simpa [ht] using a4⟩)
  · rintro r m' ⟨h3, x, V, rfl, ⟨-, -, -, inc, e⟩, vE, vT⟩
    obtain ⟨c, f⟩ := reduced_use e inc
    have eo : ∀ i, ordOf (tag ≠ .slab) (ofSwaps x.2.2.get (if tag = .slab then x.1 else N)) x.1 i = ordOf (tag ≠ .slab) (ofSwaps x.2.2.get N) x.1 i := by
      intro i
      cases tag <;> rfl
    refine ⟨h3, f.rank_eq.symm, fun hz i hi hr j hj => ?_, c, IsReducedRowEchelonForm.congr' f (fun i hi j hj => by rw [vT i hi j hj, ← eo]) (fun i hi j hj => ?_)⟩
    · rw [vE i hi j hj, if_neg (by omega), if_neg (by simp [hz])]
    · rw [onlyRows]
      by_cases hr : i < x.1
      · rw [if_neg (by omega), vE i hi j hj, if_pos hr, if_pos hr, eo]
      · rw [if_neg hr]
        cases onz with
        | true => rw [if_pos ⟨rfl, by omega⟩]
        | false => rw [if_neg (by simp), vE i hi j hj, if_neg hr, if_pos ⟨rfl, hi⟩]

/-- C65: the reduced column echelon form in `E` and the transformation in `T`, stated for the transposed matrices -/
theorem C65_reducedColumnEchelon (hk : KitOk k) (cutoff : ℕ) (jl : List ℕ → ℕ → ℕ) (jk : ℕ → ℕ → ℕ) {tag : EchTag} (htg : tag ≠ .gjTile)
    (onz : Bool) (hp : Place m M N A lda E lde T ldt N) (hP : P.len = N) (hQ : Q.len = M) :
    Run (reducedColumnEchelonUse k cutoff jl jk tag M N A lda E lde T ldt onz P Q) m (fun r m' =>
      Only3 m m' ⟨A, lda, M, N⟩ ⟨E, lde, M, N⟩ ⟨T, ldt, N, N⟩ ∧ r = rk (m.mat ⟨A, lda, M, N⟩) M N ∧
      (onz = true → ∀ i < M, ∀ j < N, r ≤ j → m'.mat ⟨E, lde, M, N⟩ i j = m.mat ⟨E, lde, M, N⟩ i j) ∧
      ∃ c, IsReducedRowEchelonForm N M r (fun i j => m.mat ⟨A, lda, M, N⟩ j i) (fun i j => m'.mat ⟨T, ldt, N, N⟩ j i)
        (onlyRows onz r (fun i j => m'.mat ⟨E, lde, M, N⟩ j i)) c) := by
  unfold reducedColumnEchelonUse
  refine (use_run (Ψ := fun x V => (x.1 ≤ x.2.1.len ∧ (tag = .tile → x.2.1.len = N) ∧ x.2.2.len = M) ∧
      (∀ i < (if tag = .slab then x.1 else N), x.2.1.get i < N) ∧ (∀ i < (if tag = .slab then x.1 else M), x.2.2.get i < M) ∧
      (tag = .slab → ∀ i j, i < j → j < x.1 → ofSwaps x.2.2.get (if tag = .slab then x.1 else M) i < ofSwaps x.2.2.get (if tag = .slab then x.1 else M) j) ∧
      IsReduced N M x.1 (fun i j => m.mat ⟨A, lda, M, N⟩ j i) (fun i j => V j i) (ofSwaps x.2.1.get (if tag = .slab then x.1 else N))
        (ofSwaps x.2.2.get (if tag = .slab then x.1 else M)))
    (FE := fun x V U i j => if j < x.1 then reducedOf 0 0 x.1 (fun a b => V b a) (ordOf (tag = .tile) (ofSwaps x.2.2.get M) x.1 j)
        ((ofSwaps x.2.2.get (if tag = .slab then x.1 else M))⁻¹ i) else if onz = false ∧ j < N then 0 else U i j)
    (FT := fun x V i j => transOf 0 0 x.1 (fun a b => V b a) (ordOf (tag = .tile) (ofSwaps x.2.2.get M) x.1 j)
      ((ofSwaps x.2.1.get (if tag = .slab then x.1 else N))⁻¹ i))
    hp ?_ ?_ ?_).mono ?_
  · cases tag with
    | slab =>
      refine (reducedColumnEchelonSlab_spec hk cutoff hp.a.on (by simp only []; omega) hQ.ge).mono ?_
      rintro ⟨r, P', Q'⟩ m' ⟨a1, a2, a3, a4, a5, V, h1, hT⟩
      have e := hT.isReduced
      have := e.rM
      simp only [if_true] at *
      refine ⟨_, h1, ⟨by omega, by simp, by omega⟩, a3.lt, a4, fun _ i j hij hj => ?_, e⟩
      rw [ofSwaps_pivot a5 r (by omega) le_rfl, ofSwaps_pivot a5 r hj le_rfl]
      exact a5 i j hij hj
    | tile =>
      refine (reducedColumnEchelonForm_spec hk jl hp.a.on hP hQ).mono ?_
      rintro ⟨r, P', Q'⟩ m' ⟨a, b, V, h', e⟩
      have hrM := e.isReduced.rM
      exact ⟨V, h', ⟨by have := a.1; simp only [] at *; omega, fun _ => a.1, b.1⟩, by simpa using fun i hi => (a.2 i hi).2, by simpa using fun i hi => (b.2 i hi).2, by simp,
        by simpa using e.isReduced⟩
    | gjTile => exact absurd rfl htg
  · rintro ⟨r, P', Q'⟩ V m1 ⟨⟨a1, a1', a2⟩, a3, a4, -, e⟩ s o
    have := e.rM
    have := e.rN
    exact getReducedEchelonForm_lower jk tag onz o s hp.ae e.rM rfl e.rN e.rM (by simp only []; split_ifs <;> omega)
      (by simp only [] at *; split_ifs <;> omega) (fun _ => a2) a4
  · rintro ⟨r, P', Q'⟩ V m1 ⟨⟨a1, a1', a2⟩, a3, a4, -, e⟩ s o
    have := e.rM
    have := e.rN
    refine getReducedEchelonTransform_lower jk tag o s hp.at_ rfl rfl e.rM e.rN e.rN ?_ a3 (fun ht => ⟨a2, by simpa [ht] using a4⟩)
    cases tag with
    | slab => simpa using a1
    | tile => simpa using (a1' rfl).ge
    | gjTile => exact absurd rfl htg
  · rintro r m' ⟨h3, x, V, rfl, ⟨-, -, -, inc, e⟩, vE, vT⟩
    obtain ⟨c, f⟩ := reduced_use e inc
    have eo : ∀ i, ordOf (tag ≠ .slab) (ofSwaps x.2.2.get (if tag = .slab then x.1 else M)) x.1 i = ordOf (tag = .tile) (ofSwaps x.2.2.get M) x.1 i := by
      intro i
      cases tag with
      | gjTile => exact absurd rfl htg
      | _ => rfl
    refine ⟨h3, by rw [← rk_transp]; exact f.rank_eq.symm, fun hz i hi j hj hr => ?_, c,
      IsReducedRowEchelonForm.congr' f (fun i hi j hj => by rw [vT j hj i hi, ← eo]) (fun i hi j hj => ?_)⟩
    · rw [vE i hi j hj, if_neg (by omega), if_neg (by simp [hz])]
    · rw [onlyRows]
      by_cases hr : i < x.1
      · rw [if_neg (by omega), vE j hj i hi, if_pos hr, if_pos hr, eo]
      · rw [if_neg hr]
        cases onz with
        | true => rw [if_pos ⟨rfl, by omega⟩]
        | false => rw [if_neg (by simp), vE j hj i hi, if_neg hr, if_pos ⟨rfl, hi⟩]

/-! ### in place -/

/-- What a user calls to have the transformation in `T` and the echelon form in the place of the matrix. -/
def rowEchelonUseIn (k : Kit K) (cutoff : ℕ) (jl : List ℕ → ℕ → ℕ) (jk : ℕ → ℕ → ℕ) (tag : EchTag) (M N A lda T ldt : ℕ) (P Q : Arr ℕ) : Prog K ℕ := do
  let x ← (match tag with
    | .slab => rowEchelonSlab k cutoff true M N A lda P Q
    | _ => rowEchelonForm k jl true M N A lda P Q)
  getEchelonTransform jk tag .upper .unit M N x.1 x.2.1 x.2.2 A lda T ldt
  getEchelonFormIn jk tag .upper .unit M N x.1 x.2.2 A lda
  pure x.1

/-- the same for the column echelon form -/
def columnEchelonUseIn (k : Kit K) (cutoff : ℕ) (jl : List ℕ → ℕ → ℕ) (jk : ℕ → ℕ → ℕ) (tag : EchTag) (M N A lda T ldt : ℕ) (P Q : Arr ℕ) : Prog K ℕ := do
  let x ← (match tag with
    | .slab => columnEchelonSlab k cutoff true M N A lda P Q
    | _ => columnEchelonForm k jl true M N A lda P Q)
  getEchelonTransform jk tag .lower .unit M N x.1 x.2.1 x.2.2 A lda T ldt
  getEchelonFormIn jk tag .lower .unit M N x.1 x.2.2 A lda
  pure x.1

/-- the same for the reduced row echelon form -/
def reducedRowEchelonUseIn (k : Kit K) (cutoff : ℕ) (jl : List ℕ → ℕ → ℕ) (jk : ℕ → ℕ → ℕ) (tag : EchTag) (M N A lda T ldt : ℕ) (P Q : Arr ℕ) :
    Prog K ℕ := do
  let x ← (match tag with
    | .slab => reducedRowEchelonSlab k cutoff true M N A lda P Q
    | .tile => reducedRowEchelonForm k jl true M N A lda P Q
    | .gjTile => reducedRowEchelonFormGJ k jl M N A lda P Q)
  getReducedEchelonTransform jk tag .upper M N x.1 x.2.1 x.2.2 A lda T ldt
  getReducedEchelonFormIn jk tag .upper M N x.1 x.2.2 A lda
  pure x.1

/-- the same for the reduced column echelon form -/
def reducedColumnEchelonUseIn (k : Kit K) (cutoff : ℕ) (jl : List ℕ → ℕ → ℕ) (jk : ℕ → ℕ → ℕ) (tag : EchTag) (M N A lda T ldt : ℕ) (P Q : Arr ℕ) :
    Prog K ℕ := do
  let x ← (match tag with
    | .slab => reducedColumnEchelonSlab k cutoff true M N A lda P Q
    | _ => reducedColumnEchelonForm k jl true M N A lda P Q)
  getReducedEchelonTransform jk tag .lower M N x.1 x.2.1 x.2.2 A lda T ldt
  getReducedEchelonFormIn jk tag .lower M N x.1 x.2.2 A lda
  pure x.1

/-- the two windows of these users -/
structure Place2 (m : Mem K) (M N A lda T ldt n : ℕ) : Prop where
  a : Rect m M N A lda
  t : Rect m n n T ldt
  at_ : (⟨A, lda, M, N⟩ : Win).Disj ⟨T, ldt, n, n⟩

/-- the run of the three calls -/
lemma use_runIn {α : Type} {f : Prog K α} {gE gT : α → Prog K Unit} {ret : α → ℕ} {Ψ : α → (ℕ → ℕ → K) → Prop} {FE FT : α → (ℕ → ℕ → K) → ℕ → ℕ → K}
    {n : ℕ} (hp : Place2 m M N A lda T ldt n)
    (h1 : Run f m (fun x m1 => ∃ V, On m m1 ⟨A, lda, M, N⟩ V ∧ Ψ x V))
    (hT : ∀ x V m1, Ψ x V → Src m1 ⟨A, lda, M, N⟩ V → On m1 m1 ⟨T, ldt, n, n⟩ (m1.mat ⟨T, ldt, n, n⟩) →
      Run (gT x) m1 (fun _ m2 => On m1 m2 ⟨T, ldt, n, n⟩ (FT x V)))
    (hE : ∀ x V m1, Ψ x V → On m1 m1 ⟨A, lda, M, N⟩ V → Run (gE x) m1 (fun _ m2 => On m1 m2 ⟨A, lda, M, N⟩ (FE x V))) :
    Run (f >>= fun x => gT x >>= fun _ => gE x >>= fun _ => pure (ret x)) m (fun r m' =>
      Only2 m m' ⟨A, lda, M, N⟩ ⟨T, ldt, n, n⟩ ∧ ∃ x V, r = ret x ∧ Ψ x V ∧
        (∀ i < M, ∀ j < N, m'.mat ⟨A, lda, M, N⟩ i j = FE x V i j) ∧ (∀ i < n, ∀ j < n, m'.mat ⟨T, ldt, n, n⟩ i j = FT x V i j)) := by
  rw [Run_bind]
  refine h1.mono ?_
  rintro x m1 ⟨V, o1, hΨ⟩
  rw [Run_bind]
  have s1 : Src m1 ⟨A, lda, M, N⟩ V := ⟨hp.a.ok.step o1.step, hp.a.ld, o1.step.val⟩
  refine (hT x V m1 hΨ s1 (On.start (hp.a.wf.step o1.step) (hp.t.ok.step o1.step) hp.t.ld)).mono (fun _ m2 o2 => ?_)
  rw [Run_bind]
  have s2 : Src m2 ⟨A, lda, M, N⟩ V := s1.step o2.step hp.at_
  have oA : On m2 m2 ⟨A, lda, M, N⟩ V := (On.start ((hp.a.wf.step o1.step).step o2.step) s2.ok hp.a.ld).congr (fun i hi j hj => s2.val i hi j hj)
  refine (hE x V m2 hΨ oA).mono (fun _ m3 o3 => ?_)
  rw [Run_pure]
  have sT3 : Src m3 ⟨T, ldt, n, n⟩ _ := (⟨(hp.t.ok.step o1.step).step o2.step, hp.t.ld, o2.step.val⟩ : Src m2 ⟨T, ldt, n, n⟩ _).step o3.step hp.at_.symm
  refine ⟨⟨by rw [o3.step.ok, o2.step.ok, o1.step.ok], fun a ha h1 h2 => ?_⟩, x, V, rfl, hΨ, fun i hi j hj => o3.step.val i hi j hj,
    fun i hi j hj => sT3.val i hi j hj⟩
  rw [o3.step.frame a (by rw [o2.step.ok, o1.step.ok]; exact ha) h1, o2.step.frame a (by rw [o1.step.ok]; exact ha) h2, o1.step.frame a ha h1]

/-- C65: the row echelon form in place of the matrix and the transformation in `T` -/
theorem C65_rowEchelon_inPlace (hk : KitOk k) {cutoff : ℕ} (hc : cutoff ≤ 1) (jl : List ℕ → ℕ → ℕ) (jk : ℕ → ℕ → ℕ) {tag : EchTag} (ht : tag ≠ .gjTile)
    (hp : Place2 m M N A lda T ldt M) (hP : P.len = M) (hQ : Q.len = N) :
    Run (rowEchelonUseIn k cutoff jl jk tag M N A lda T ldt P Q) m (fun r m' =>
      Only2 m m' ⟨A, lda, M, N⟩ ⟨T, ldt, M, M⟩ ∧ r = rk (m.mat ⟨A, lda, M, N⟩) M N ∧
      ∃ c, IsRowEchelonForm M N r (m.mat ⟨A, lda, M, N⟩) (m'.mat ⟨T, ldt, M, M⟩) (m'.mat ⟨A, lda, M, N⟩) c) := by
  unfold rowEchelonUseIn
  cases tag with
  | gjTile => exact absurd rfl ht
  | slab =>
    refine (use_runIn (Ψ := fun x V => x.1 ≤ x.2.1.len ∧ x.1 ≤ x.2.2.len ∧ x.1 ≤ N ∧ (∀ i < x.1, x.2.1.get i < M) ∧
        IsSlabEchelon M N x.1 (m.mat ⟨A, lda, M, N⟩) V (ofSwaps x.2.1.get x.1) x.2.2.get)
      (FE := fun x V i j => if i < x.1 then slabRow V x.2.2.get i j else 0)
      (FT := fun x V i j => rowTransOf x.1 V i ((ofSwaps x.2.1.get x.1)⁻¹ j)) hp ?_ ?_ ?_).mono ?_
    · refine (rowEchelonSlab_spec hk hc hp.a.on (by simp only []; omega) hQ.ge).mono ?_
      rintro ⟨r, P', Q'⟩ m' ⟨a1, a2, a3, V0, V, h1, hT⟩
      have := hT.fac.rM
      have := hT.fac.rN
      simp only [] at *
      exact ⟨V, h1, by omega, by omega, by omega, a3.lt, hT.fac.echelon hT.li hT.up hT.bel⟩
    · rintro ⟨r, P', Q'⟩ V m1 ⟨a1, a2, a3, a4, e⟩ s o
      refine (getEchelonTransform_upper (Q := Q') jk .slab .unit o s hp.at_ rfl rfl e.rM a3 a3 (by simpa using a1) (by simpa using a4) (by simp)).mono
        (fun _ m2 o2 => o2.congr (fun i _ j _ => ?_))
      simp only [ordOf_neg (show decide (EchTag.slab = .tile) = false from rfl)]
      rfl
    · rintro ⟨r, P', Q'⟩ V m1 ⟨a1, a2, a3, a4, e⟩ o
      have := e.rM
      exact getEchelonFormIn_slab_upper jk .unit o e.rM a2 e.qN
    · rintro r m' ⟨h3, x, V, rfl, ⟨a1, a2, a3, a4, e⟩, vE, vT⟩
      have f := IsSlabEchelon.form e
      refine ⟨h3, f.rank_eq.symm, x.2.2.get, IsRowEchelonForm.congr' f vT (fun i hi j hj => ?_)⟩
      exact vE i hi j hj
  | tile =>
    refine (use_runIn (Ψ := fun x V => ArrOk x.2.1 M ∧ ArrOk x.2.2 N ∧
        IsEchelon M N x.1 (m.mat ⟨A, lda, M, N⟩) V (ofSwaps x.2.1.get M) (ofSwaps x.2.2.get N))
      (FE := fun x V i j => if i < x.1 then tri .upper .unit V (ech (ofSwaps x.2.2.get N) x.1 i) ((ofSwaps x.2.2.get N)⁻¹ j)
        else 0)
      (FT := fun x V i j => rowTransOf x.1 V (ech (ofSwaps x.2.2.get N) x.1 i) ((ofSwaps x.2.1.get M)⁻¹ j)) hp ?_ ?_ ?_).mono ?_
    · refine (rowEchelonForm_tr hk jl hp.a.on hP hQ).mono ?_
      rintro ⟨r, P', Q'⟩ m' ⟨a, b, V, h', e⟩
      exact ⟨V, h', a, b, e⟩
    · rintro ⟨r, P', Q'⟩ V m1 ⟨a, b, e⟩ s o
      refine (getEchelonTransform_upper (Q := Q') jk .tile .unit o s hp.at_ rfl rfl e.rM e.rN e.rN (by simpa using a.1.ge)
        (by simpa using fun i hi => (a.2 i hi).2) (fun _ => ⟨b.1, fun i hi => (b.2 i hi).2⟩)).mono (fun _ m2 o2 => o2.congr (fun i _ j _ => ?_))
      simp only [ordOf_pos (show decide (EchTag.tile = .tile) = true from rfl)]
      rfl
    · rintro ⟨r, P', Q'⟩ V m1 ⟨a, b, e⟩ o
      have := e.rM
      exact getEchelonFormIn_tile_upper jk .unit o e.rM e.rN b.1 (fun i hi => (b.2 i hi).2)
    · rintro r m' ⟨h3, x, V, rfl, ⟨a, b, e⟩, vE, vT⟩
      have f := IsEchelon.form e
      refine ⟨h3, f.rank_eq.symm, _, IsRowEchelonForm.congr' f vT (fun i hi j hj => ?_)⟩
      rw [vE i hi j hj]
      by_cases hr : i < x.1
      · rw [if_pos hr, rowEchOf, if_pos (ech_lt hr)]
      · rw [if_neg hr, rowEchOf, if_neg (by rw [ech_ge (not_lt.1 hr)]; exact hr)]

/-- C65: the column echelon form in place, for the transposed matrices -/
theorem C65_columnEchelon_inPlace (hk : KitOk k) (cutoff : ℕ) (jl : List ℕ → ℕ → ℕ) (jk : ℕ → ℕ → ℕ) {tag : EchTag} (ht : tag ≠ .gjTile)
    (hp : Place2 m M N A lda T ldt N) (hP : P.len = N) (hQ : Q.len = M) :
    Run (columnEchelonUseIn k cutoff jl jk tag M N A lda T ldt P Q) m (fun r m' =>
      Only2 m m' ⟨A, lda, M, N⟩ ⟨T, ldt, N, N⟩ ∧ r = rk (m.mat ⟨A, lda, M, N⟩) M N ∧
      ∃ c, IsRowEchelonForm N M r (fun i j => m.mat ⟨A, lda, M, N⟩ j i) (fun i j => m'.mat ⟨T, ldt, N, N⟩ j i)
        (fun i j => m'.mat ⟨A, lda, M, N⟩ j i) c) := by
  unfold columnEchelonUseIn
  cases tag with
  | gjTile => exact absurd rfl ht
  | slab =>
    refine (use_runIn (Ψ := fun x V => x.1 ≤ x.2.1.len ∧ x.1 ≤ x.2.2.len ∧ x.1 ≤ M ∧ (∀ i < x.1, x.2.1.get i < N) ∧
        IsSlabEchelon N M x.1 (fun i j => m.mat ⟨A, lda, M, N⟩ j i) (fun i j => V j i) (ofSwaps x.2.1.get x.1) x.2.2.get)
      (FE := fun x V i j => if j < x.1 then slabRow (fun a b => V b a) x.2.2.get j i else 0)
      (FT := fun x V i j => rowTransOf x.1 (fun a b => V b a) j ((ofSwaps x.2.1.get x.1)⁻¹ i)) hp ?_ ?_ ?_).mono ?_
    · refine (columnEchelonSlab_spec hk cutoff hp.a.on (by simp only []; omega) hQ.ge).mono ?_
      rintro ⟨r, P', Q'⟩ m' ⟨a1, a2, a3, V0, V, h1, hT⟩
      have := hT.fac.rM
      have := hT.fac.rN
      simp only [] at *
      exact ⟨_, h1, by omega, by omega, by omega, a3.lt, hT.fac.echelon hT.li hT.up hT.bel⟩
    · rintro ⟨r, P', Q'⟩ V m1 ⟨a1, a2, a3, a4, e⟩ s o
      refine (getEchelonTransform_lower (Q := Q') jk .slab .unit o s hp.at_ rfl rfl e.rM a3 a3 (by simpa using a1) (by simpa using a4) (by simp)).mono
        (fun _ m2 o2 => o2.congr (fun i _ j _ => ?_))
      simp only [ordOf_neg (show decide (EchTag.slab = .tile) = false from rfl)]
      rfl
    · rintro ⟨r, P', Q'⟩ V m1 ⟨a1, a2, a3, a4, e⟩ o
      have := e.rM
      exact getEchelonFormIn_slab_lower jk .unit o e.rM a2 e.qN
    · rintro r m' ⟨h3, x, V, rfl, ⟨a1, a2, a3, a4, e⟩, vE, vT⟩
      have f := IsSlabEchelon.form e
      refine ⟨h3, by rw [← rk_transp]; exact f.rank_eq.symm, x.2.2.get,
        IsRowEchelonForm.congr' f (fun i hi j hj => vT j hj i hi) (fun i hi j hj => ?_)⟩
      exact vE j hj i hi
  | tile =>
    refine (use_runIn (Ψ := fun x V => ArrOk x.2.1 N ∧ ArrOk x.2.2 M ∧
        IsEchelon N M x.1 (fun i j => m.mat ⟨A, lda, M, N⟩ j i) (fun i j => V j i) (ofSwaps x.2.1.get N) (ofSwaps x.2.2.get M))
      (FE := fun x V i j => if j < x.1 then tri .lower .unit V ((ofSwaps x.2.2.get M)⁻¹ i) (ech (ofSwaps x.2.2.get M) x.1 j)
        else 0)
      (FT := fun x V i j => rowTransOf x.1 (fun a b => V b a) (ech (ofSwaps x.2.2.get M) x.1 j) ((ofSwaps x.2.1.get N)⁻¹ i)) hp ?_ ?_ ?_).mono ?_
    · refine (columnEchelonForm_tr hk jl hp.a.on hP hQ).mono ?_
      rintro ⟨r, P', Q'⟩ m' ⟨a, b, V, h', e⟩
      exact ⟨V, h', a, b, e⟩
    · rintro ⟨r, P', Q'⟩ V m1 ⟨a, b, e⟩ s o
      refine (getEchelonTransform_lower (Q := Q') jk .tile .unit o s hp.at_ rfl rfl e.rM e.rN e.rN (by simpa using a.1.ge)
        (by simpa using fun i hi => (a.2 i hi).2) (fun _ => ⟨b.1, fun i hi => (b.2 i hi).2⟩)).mono (fun _ m2 o2 => o2.congr (fun i _ j _ => ?_))
      simp only [ordOf_pos (show decide (EchTag.tile = .tile) = true from rfl)]
      rfl
    · rintro ⟨r, P', Q'⟩ V m1 ⟨a, b, e⟩ o
      have := e.rM
      exact getEchelonFormIn_tile_lower jk .unit o e.rN e.rM b.1 (fun i hi => (b.2 i hi).2)
    · rintro r m' ⟨h3, x, V, rfl, ⟨a, b, e⟩, vE, vT⟩
      have f := IsEchelon.form e
      refine ⟨h3, by rw [← rk_transp]; exact f.rank_eq.symm, _,
        IsRowEchelonForm.congr' f (fun i hi j hj => vT j hj i hi) (fun i hi j hj => ?_)⟩
      rw [vE j hj i hi]
      by_cases hr : i < x.1
      · rw [if_pos hr, rowEchOf, if_pos (ech_lt hr), tri_tr]
      · rw [if_neg hr, rowEchOf, if_neg (by rw [ech_ge (not_lt.1 hr)]; exact hr)]

/-- C65: the reduced row echelon form in place, by all the tags -/
theorem C65_reducedRowEchelon_inPlace (hk : KitOk k) {cutoff : ℕ} (hc : cutoff ≤ 1) (jl : List ℕ → ℕ → ℕ) (jk : ℕ → ℕ → ℕ) (tag : EchTag)
    (hp : Place2 m M N A lda T ldt M) (hP : P.len = M) (hQ : Q.len = N) :
    Run (reducedRowEchelonUseIn k cutoff jl jk tag M N A lda T ldt P Q) m (fun r m' =>
      Only2 m m' ⟨A, lda, M, N⟩ ⟨T, ldt, M, M⟩ ∧ r = rk (m.mat ⟨A, lda, M, N⟩) M N ∧
      ∃ c, IsReducedRowEchelonForm M N r (m.mat ⟨A, lda, M, N⟩) (m'.mat ⟨T, ldt, M, M⟩) (m'.mat ⟨A, lda, M, N⟩) c) := by
  unfold reducedRowEchelonUseIn
  refine (use_runIn (Ψ := fun x V => (x.2.1.len = M ∧ x.2.2.len = N) ∧
      (∀ i < (if tag = .slab then x.1 else M), x.2.1.get i < M) ∧ (∀ i < (if tag = .slab then x.1 else N), x.2.2.get i < N) ∧
      (tag = .slab → ∀ i j, i < j → j < x.1 → ofSwaps x.2.2.get (if tag = .slab then x.1 else N) i < ofSwaps x.2.2.get (if tag = .slab then x.1 else N) j) ∧
      IsReduced M N x.1 (m.mat ⟨A, lda, M, N⟩) V (ofSwaps x.2.1.get (if tag = .slab then x.1 else M)) (ofSwaps x.2.2.get (if tag = .slab then x.1 else N)))
    (FE := fun x V i j => if i < x.1 then reducedOf 0 0 x.1 V (ordOf (tag ≠ .slab) (ofSwaps x.2.2.get N) x.1 i)
        ((ofSwaps x.2.2.get (if tag = .slab then x.1 else N))⁻¹ j) else 0)
    (FT := fun x V i j => transOf 0 0 x.1 V (ordOf (tag ≠ .slab) (ofSwaps x.2.2.get N) x.1 i) ((ofSwaps x.2.1.get (if tag = .slab then x.1 else M))⁻¹ j))
    hp ?_ ?_ ?_).mono ?_
  · cases tag with
    | slab =>
      refine (reducedRowEchelonSlab_spec hk hc hp.a.on hP.ge hQ.ge).mono ?_
      rintro ⟨r, P', Q'⟩ m' ⟨a1, a2, a3, a4, a5, V, h1, hT⟩
      have e := hT.isReduced
      simp only [if_true] at *
      refine ⟨V, h1, ⟨by omega, by omega⟩, a3.lt, a4, fun _ i j hij hj => ?_, e⟩
      rw [ofSwaps_pivot a5 r (by omega) le_rfl, ofSwaps_pivot a5 r hj le_rfl]
      exact a5 i j hij hj
    | tile =>
      refine (reducedRowEchelonForm_spec hk jl hp.a.on hP hQ).mono ?_
      rintro ⟨r, P', Q'⟩ m' ⟨a, b, V, h', e⟩
      exact ⟨V, h', ⟨a.1, b.1⟩, by simpa using fun i hi => (a.2 i hi).2, by simpa using fun i hi => (b.2 i hi).2, by simp, by simpa using e.isReduced⟩
    | gjTile =>
      refine (reducedRowEchelonFormGJ_spec hk jl hp.a.on hP hQ).mono ?_
      rintro ⟨r, P', Q'⟩ m' ⟨a, b, V, h', e⟩
      exact ⟨V, h', ⟨a.1, b.1⟩, by simpa using fun i hi => (a.2 i hi).2, by simpa using fun i hi => (b.2 i hi).2, by simp, by simpa using e⟩
  · rintro ⟨r, P', Q'⟩ V m1 ⟨⟨a1, a2⟩, a3, a4, -, e⟩ s o
    have := e.rM
    have := e.rN
    exact getReducedEchelonTransform_upper jk tag o s hp.at_ rfl rfl e.rM e.rN e.rN (by simp only [] at *; split_ifs <;> omega) a3
      (fun ht => ⟨a2, by simpa [ht] using a4⟩)
  · rintro ⟨r, P', Q'⟩ V m1 ⟨⟨a1, a2⟩, a3, a4, -, e⟩ o
    have := e.rM
    have := e.rN
    exact getReducedEchelonFormIn_upper jk tag o e.rM e.rN
      (by simp only [] at *; split_ifs <;> omega) (fun _ => a2) a4
  · rintro r m' ⟨h3, x, V, rfl, ⟨-, -, -, inc, e⟩, vE, vT⟩
    obtain ⟨c, f⟩ := reduced_use e inc
    have eo : ∀ i, ordOf (tag ≠ .slab) (ofSwaps x.2.2.get (if tag = .slab then x.1 else N)) x.1 i = ordOf (tag ≠ .slab) (ofSwaps x.2.2.get N) x.1 i := by
      intro i
      cases tag <;> rfl
    refine ⟨h3, f.rank_eq.symm, c, IsReducedRowEchelonForm.congr' f (fun i hi j hj => by rw [vT i hi j hj, ← eo]) (fun i hi j hj => ?_)⟩
    rw [vE i hi j hj]
    by_cases hr : i < x.1
    · rw [if_pos hr, if_pos hr, eo]
    · rw [if_neg hr, if_neg hr]

/-- C65: the reduced column echelon form in place, for the transposed matrices -/
theorem C65_reducedColumnEchelon_inPlace (hk : KitOk k) (cutoff : ℕ) (jl : List ℕ → ℕ → ℕ) (jk : ℕ → ℕ → ℕ) {tag : EchTag} (htg : tag ≠ .gjTile)
    (hp : Place2 m M N A lda T ldt N) (hP : P.len = N) (hQ : Q.len = M) :
    Run (reducedColumnEchelonUseIn k cutoff jl jk tag M N A lda T ldt P Q) m (fun r m' =>
      Only2 m m' ⟨A, lda, M, N⟩ ⟨T, ldt, N, N⟩ ∧ r = rk (m.mat ⟨A, lda, M, N⟩) M N ∧
      ∃ c, IsReducedRowEchelonForm N M r (fun i j => m.mat ⟨A, lda, M, N⟩ j i) (fun i j => m'.mat ⟨T, ldt, N, N⟩ j i)
        (fun i j => m'.mat ⟨A, lda, M, N⟩ j i) c) := by
  unfold reducedColumnEchelonUseIn
  refine (use_runIn (Ψ := fun x V => (x.1 ≤ x.2.1.len ∧ (tag = .tile → x.2.1.len = N) ∧ x.2.2.len = M) ∧
      (∀ i < (if tag = .slab then x.1 else N), x.2.1.get i < N) ∧ (∀ i < (if tag = .slab then x.1 else M), x.2.2.get i < M) ∧
      (tag = .slab → ∀ i j, i < j → j < x.1 → ofSwaps x.2.2.get (if tag = .slab then x.1 else M) i < ofSwaps x.2.2.get (if tag = .slab then x.1 else M) j) ∧
      IsReduced N M x.1 (fun i j => m.mat ⟨A, lda, M, N⟩ j i) (fun i j => V j i) (ofSwaps x.2.1.get (if tag = .slab then x.1 else N))
        (ofSwaps x.2.2.get (if tag = .slab then x.1 else M)))
    (FE := fun x V i j => if j < x.1 then reducedOf 0 0 x.1 (fun a b => V b a) (ordOf (tag = .tile) (ofSwaps x.2.2.get M) x.1 j)
        ((ofSwaps x.2.2.get (if tag = .slab then x.1 else M))⁻¹ i) else 0)
    (FT := fun x V i j => transOf 0 0 x.1 (fun a b => V b a) (ordOf (tag = .tile) (ofSwaps x.2.2.get M) x.1 j)
      ((ofSwaps x.2.1.get (if tag = .slab then x.1 else N))⁻¹ i))
    hp ?_ ?_ ?_).mono ?_
  · cases tag with
    | slab =>
      refine (reducedColumnEchelonSlab_spec hk cutoff hp.a.on (by simp only []; omega) hQ.ge).mono ?_
      rintro ⟨r, P', Q'⟩ m' ⟨a1, a2, a3, a4, a5, V, h1, hT⟩
      have e := hT.isReduced
      have := e.rM
      simp only [if_true] at *
      refine ⟨_, h1, ⟨by omega, by simp, by omega⟩, a3.lt, a4, fun _ i j hij hj => ?_, e⟩
      rw [ofSwaps_pivot a5 r (by omega) le_rfl, ofSwaps_pivot a5 r hj le_rfl]
      exact a5 i j hij hj
    | tile =>
      refine (reducedColumnEchelonForm_spec hk jl hp.a.on hP hQ).mono ?_
      rintro ⟨r, P', Q'⟩ m' ⟨a, b, V, h', e⟩
      have hrM := e.isReduced.rM
      exact ⟨V, h', ⟨by have := a.1; simp only [] at *; omega, fun _ => a.1, b.1⟩, by simpa using fun i hi => (a.2 i hi).2, by simpa using fun i hi => (b.2 i hi).2, by simp,
        by simpa using e.isReduced⟩
    | gjTile => exact absurd rfl htg
  · rintro ⟨r, P', Q'⟩ V m1 ⟨⟨a1, a1', a2⟩, a3, a4, -, e⟩ s o
    have := e.rM
    have := e.rN
    refine getReducedEchelonTransform_lower jk tag o s hp.at_ rfl rfl e.rM e.rN e.rN ?_ a3 (fun ht => ⟨a2, by simpa [ht] using a4⟩)
    cases tag with
    | slab => simpa using a1
    | tile => simpa using (a1' rfl).ge
    | gjTile => exact absurd rfl htg
  · rintro ⟨r, P', Q'⟩ V m1 ⟨⟨a1, a1', a2⟩, a3, a4, -, e⟩ o
    have := e.rM
    have := e.rN
    have t := getReducedEchelonFormIn_lower (P := Q') jk tag o e.rN e.rM (by simp only [] at *; split_ifs <;> omega) (fun _ => a2) a4
    cases tag with
    | gjTile => exact absurd rfl htg
    | _ => exact t
  · rintro r m' ⟨h3, x, V, rfl, ⟨-, -, -, inc, e⟩, vE, vT⟩
    obtain ⟨c, f⟩ := reduced_use e inc
    have eo : ∀ i, ordOf (tag ≠ .slab) (ofSwaps x.2.2.get (if tag = .slab then x.1 else M)) x.1 i = ordOf (tag = .tile) (ofSwaps x.2.2.get M) x.1 i := by
      intro i
      cases tag with
      | gjTile => exact absurd rfl htg
      | _ => rfl
    refine ⟨h3, by rw [← rk_transp]; exact f.rank_eq.symm, c,
      IsReducedRowEchelonForm.congr' f (fun i hi j hj => by rw [vT j hj i hi, ← eo]) (fun i hi j hj => ?_)⟩
    rw [vE j hj i hi]
    by_cases hr : i < x.1
    · rw [if_pos hr, if_pos hr, eo]
    · rw [if_neg hr, if_neg hr]

/-- C66: the number of pivots left of column `b` of a row echelon form is the rank of the first `b` columns: the pivots are the column
rank profile. -/
theorem C66_pivots_rankProfile {r b : ℕ} {X T E : ℕ → ℕ → K} {c : ℕ → ℕ} (h : IsRowEchelonForm M N r X T E c) (hb : b ≤ N) :
    rk X M b = ((range r).filter (fun k => c k < b)).card := h.rank_cols hb

/-- C66: two calls for the reduced row echelon forms of equal matrices, with whatever tags, thresholds, kernels, leading dimensions and initial
contents, give the same rank and the same form. -/
theorem C66_reducedRow_unique {k' : Kit K} (hk : KitOk k) (hk' : KitOk k') {cutoff cutoff' : ℕ} (hc : cutoff ≤ 1) (hc' : cutoff' ≤ 1)
    {jl jl' : List ℕ → ℕ → ℕ} {jk jk' : ℕ → ℕ → ℕ} {tag tag' : EchTag} {m' n n' : Mem K} {A' lda' E' lde' T' ldt' r r' : ℕ} {P' Q' : Arr ℕ}
    (hp : Place m M N A lda E lde T ldt M) (hp' : Place m' M N A' lda' E' lde' T' ldt' M) (hP : P.len = M) (hQ : Q.len = N) (hP' : P'.len = M)
    (hQ' : Q'.len = N) (eq : ∀ i < M, ∀ j < N, m.mat ⟨A, lda, M, N⟩ i j = m'.mat ⟨A', lda', M, N⟩ i j)
    (h : reducedRowEchelonUse k cutoff jl jk tag M N A lda E lde T ldt false P Q m = .ok (r, n))
    (h' : reducedRowEchelonUse k' cutoff' jl' jk' tag' M N A' lda' E' lde' T' ldt' false P' Q' m' = .ok (r', n')) :
    r = r' ∧ ∀ i < M, ∀ j < N, n.mat ⟨E, lde, M, N⟩ i j = n'.mat ⟨E', lde', M, N⟩ i j := by
  obtain ⟨a, b, h1, -, -, -, c, f⟩ := C65_reducedRowEchelon hk hc jl jk tag false hp hP hQ
  obtain ⟨a', b', h1', -, -, -, c', f'⟩ := C65_reducedRowEchelon hk' hc' jl' jk' tag' false hp' hP' hQ'
  rw [h] at h1; rw [h'] at h1'
  obtain ⟨rfl, rfl⟩ : r = a ∧ n = b := by simpa using h1
  obtain ⟨rfl, rfl⟩ : r' = a' ∧ n' = b' := by simpa using h1'
  have f2 : IsReducedRowEchelonForm M N r' (m.mat ⟨A, lda, M, N⟩) (n'.mat ⟨T', ldt', M, M⟩) (onlyRows false r' (n'.mat ⟨E', lde', M, N⟩)) c' :=
    ⟨⟨f'.rM, f'.cN, f'.inc, f'.piv, f'.left, f'.below, fun i hi j hj => by
      rw [← f'.eq i hi j hj]; exact sum_congr rfl (fun l hl => by rw [eq l (mem_range.1 hl) j hj]), f'.inv⟩, f'.red⟩
  refine ⟨(f.toIsRowEchelonForm.unique f2.toIsRowEchelonForm).1, fun i hi j hj => ?_⟩
  simpa [onlyRows] using f.unique f2 i hi j hj

/-- C66: and for the reduced column echelon forms -/
theorem C66_reducedColumn_unique {k' : Kit K} (hk : KitOk k) (hk' : KitOk k') {cutoff cutoff' : ℕ}
    {jl jl' : List ℕ → ℕ → ℕ} {jk jk' : ℕ → ℕ → ℕ} {tag tag' : EchTag} (ht : tag ≠ .gjTile) (ht' : tag' ≠ .gjTile)
    {m' n n' : Mem K} {A' lda' E' lde' T' ldt' r r' : ℕ} {P' Q' : Arr ℕ}
    (hp : Place m M N A lda E lde T ldt N) (hp' : Place m' M N A' lda' E' lde' T' ldt' N) (hP : P.len = N) (hQ : Q.len = M) (hP' : P'.len = N)
    (hQ' : Q'.len = M) (eq : ∀ i < M, ∀ j < N, m.mat ⟨A, lda, M, N⟩ i j = m'.mat ⟨A', lda', M, N⟩ i j)
    (h : reducedColumnEchelonUse k cutoff jl jk tag M N A lda E lde T ldt false P Q m = .ok (r, n))
    (h' : reducedColumnEchelonUse k' cutoff' jl' jk' tag' M N A' lda' E' lde' T' ldt' false P' Q' m' = .ok (r', n')) :
    r = r' ∧ ∀ i < M, ∀ j < N, n.mat ⟨E, lde, M, N⟩ i j = n'.mat ⟨E', lde', M, N⟩ i j := by
  obtain ⟨a, b, h1, -, -, -, c, f⟩ := C65_reducedColumnEchelon hk cutoff jl jk ht false hp hP hQ
  obtain ⟨a', b', h1', -, -, -, c', f'⟩ := C65_reducedColumnEchelon hk' cutoff' jl' jk' ht' false hp' hP' hQ'
  rw [h] at h1; rw [h'] at h1'
  obtain ⟨rfl, rfl⟩ : r = a ∧ n = b := by simpa using h1
  obtain ⟨rfl, rfl⟩ : r' = a' ∧ n' = b' := by simpa using h1'
  have f2 : IsReducedRowEchelonForm N M r' (fun i j => m.mat ⟨A, lda, M, N⟩ j i) (fun i j => n'.mat ⟨T', ldt', N, N⟩ j i)
      (onlyRows false r' (fun i j => n'.mat ⟨E', lde', M, N⟩ j i)) c' :=
    ⟨⟨f'.rM, f'.cN, f'.inc, f'.piv, f'.left, f'.below, fun i hi j hj => by
      rw [← f'.eq i hi j hj]; exact sum_congr rfl (fun l hl => by rw [eq j hj l (mem_range.1 hl)]), f'.inv⟩, f'.red⟩
  refine ⟨(f.toIsRowEchelonForm.unique f2.toIsRowEchelonForm).1, fun i hi j hj => ?_⟩
  simpa [onlyRows] using f.unique f2 j hj i hi

/-! ### concrete cases -/

/-- the `4 × 5` matrix of rank 3 of `Props/Pluq`, followed by room for the echelon form (leading dimension 5) and the transformations -/
def ech4 : Mem ℚ := memOf ([0, 2, 4, 1, 3, 77, 0, 1, 2, 3, 5, 77, 0, 3, 6, 4, 8, 77, 0, 1, 1, 1, 1, 77] ++ List.replicate 20 66 ++ List.replicate 25 55)

lemma ech4_place : Place ech4 4 5 0 6 24 5 44 4 4 :=
  ⟨⟨WF_memOf _, OkIn_memOf (by decide), by decide⟩, ⟨WF_memOf _, OkIn_memOf (by decide), by decide⟩, ⟨WF_memOf _, OkIn_memOf (by decide), by decide⟩,
    Win.Ends.disj (by decide), Win.Ends.disj (by decide), Win.Ends.disj (by decide)⟩

lemma ech4_place2 : Place2 ech4 4 5 0 6 44 5 5 :=
  ⟨⟨WF_memOf _, OkIn_memOf (by decide), by decide⟩, ⟨WF_memOf _, OkIn_memOf (by decide), by decide⟩, Win.Ends.disj (by decide)⟩

example : Place ech4 4 5 0 6 24 5 44 5 5 :=
  ⟨⟨WF_memOf _, OkIn_memOf (by decide), by decide⟩, ⟨WF_memOf _, OkIn_memOf (by decide), by decide⟩, ⟨WF_memOf _, OkIn_memOf (by decide), by decide⟩,
    Win.Ends.disj (by decide), Win.Ends.disj (by decide), Win.Ends.disj (by decide)⟩

/-- the reduced row echelon form of `ech4` -/
abbrev ech4R : List ℚ := [0, 1, 0, 0, -8/5, 0, 0, 1, 0, 6/5, 0, 0, 0, 1, 7/5, 0, 0, 0, 0, 0]
/-- scratch values -/
abbrev gJ : ℕ → ℕ → ℕ := fun a i => a + i

example : result (rowEchelonUse exK 1 eJ gJ .slab 4 5 0 6 24 5 44 4 false ePQ.1 ePQ.2) ech4 = some 3 := by decide +kernel
example : (List.range 20).map (fun a => after (rowEchelonUse exK 1 eJ gJ .slab 4 5 0 6 24 5 44 4 false ePQ.1 ePQ.2) ech4 (24 + a)) =
    [0, 1, 2, 1/2, 3/2, 0, 0, 1, -1/2, 1/2, 0, 0, 0, 1, 7/5, 0, 0, 0, 0, 0].map some := by decide +kernel
example : (List.range 20).map (fun a => after (rowEchelonUse exK 1 eJ gJ .tile 4 5 0 6 24 5 44 4 false ePQ.1 ePQ.2) ech4 (24 + a)) =
    [0, 1, 2, 1/2, 3/2, 0, 0, 1, 0, 6/5, 0, 0, 0, 1, 7/5, 0, 0, 0, 0, 0].map some := by decide +kernel
example : (List.range 20).map (fun a => after (reducedRowEchelonUse exK 1 eJ gJ .slab 4 5 0 6 24 5 44 4 false ePQ.1 ePQ.2) ech4 (24 + a)) =
    ech4R.map some := by decide +kernel
example : (List.range 20).map (fun a => after (reducedRowEchelonUse exK 1 eJ gJ .tile 4 5 0 6 24 5 44 4 false ePQ.1 ePQ.2) ech4 (24 + a)) =
    ech4R.map some := by decide +kernel
example : (List.range 20).map (fun a => after (reducedRowEchelonUse exK 1 eJ gJ .gjTile 4 5 0 6 24 5 44 4 false ePQ.1 ePQ.2) ech4 (24 + a)) =
    ech4R.map some := by decide +kernel
example : (List.range 5).map (fun a => after (reducedRowEchelonUse exK 1 eJ gJ .gjTile 4 5 0 6 24 5 44 4 true ePQ.1 ePQ.2) ech4 (39 + a)) =
    [66, 66, 66, 66, 66].map some := by decide +kernel
example : (List.range 20).map (fun a => after (reducedColumnEchelonUse exK 1 eJ gJ .slab 4 5 0 6 24 5 44 5 false ePQ.2 ePQ.1) ech4 (24 + a)) =
    [1, 0, 0, 0, 0, 0, 1, 0, 0, 0, 1, 1, 0, 0, 0, 0, 0, 1, 0, 0].map some := by decide +kernel
example : (List.range 11).map (after (reducedRowEchelonUseIn exK 1 eJ gJ .slab 4 5 0 6 44 5 ePQ.1 ePQ.2) ech4) =
    [0, 1, 0, 0, -8/5, 77, 0, 0, 1, 0, 6/5].map some := by decide +kernel
example : (List.range 11).map (after (columnEchelonUseIn exK 1 eJ gJ .tile 4 5 0 6 44 5 ePQ.2 ePQ.1) ech4) =
    [1, 0, 0, 0, 0, 77, 1/2, 1, 0, 0, 0].map some := by decide +kernel

end Verif.Props
