import Verif.Proofs.PEchelon
import Verif.Props.PPluq

/-!
# Property C123: the parallel echelon forms with their transformation, and the C interface
-/

namespace Verif.Props

open Verif.FF Verif.Spec Verif.Spec.Perm Finset Verif.ParV Verif.Par

variable {K : Type} [Field K] [DecidableEq K] {m : Mem K} {M N A lda : ℕ} {P Q : Arr ℕ} {k : Kit K}

/-- the matrix after the exchanges of `P` on its rows and of `Q` on its columns -/
def permutedMat (M N : ℕ) (P Q : ℕ → ℕ) (X : ℕ → ℕ → K) (i j : ℕ) : K := applySwaps Q (applySwaps P X M i) N j

/-- What the documentation of the four functions promises (ffpack.h:720-880) about the matrix `V` they leave, `Y` being the original matrix
after the exchanges, `r` its rank.  With `transform`: `T · Y` is the echelon matrix, respectively `(I S; 0 0)`, `T` and the form stored in
`V` (for the column forms everything is transposed: `Y · T`).  Without: `V` holds the factors of `Y`, or `S` and the factors.  The lists of
columns are `id` because `Y` is already permuted. -/
def FormOf (f : EchForm) (transform : Bool) (M N r : ℕ) (Y V : ℕ → ℕ → K) : Prop :=
  match f, transform with
  | .row, true => IsEchelon M N r Y V id id
  | .row, false => IsPLUQ .unit M N Y V id id r
  | .redRow, true => IsReduced M N r Y V id id
  | .redRow, false => IsReducedNT M N r Y V id id
  | .col, true => IsEchelon N M r (fun i j => Y j i) (fun i j => V j i) id id
  | .col, false => IsPLUQ .nonUnit M N Y V id id r
  | .redCol, true => IsReduced N M r (fun i j => Y j i) (fun i j => V j i) id id
  | .redCol, false => IsReducedNT N M r (fun i j => Y j i) (fun i j => V j i) id id

/-- diagonal of the upper factor -/
def formDiag : EchForm → Diag
  | .col | .redCol => .nonUnit
  | .row | .redRow => .unit

lemma pEchPluq_eq (junk : ℕ → K) (gthr thr : ℕ) (jk : List ℕ → ℕ → ℕ) (nt : ℕ) (f : EchForm) :
    pEchPluq junk gthr thr jk nt f M N A lda P Q = ppluq junk gthr thr jk nt (formDiag f) M N A lda P Q := by
  cases f <;> rfl

lemma decomposes_id {d : Diag} {X V : ℕ → ℕ → K} {p q : ℕ → ℕ} {r : ℕ} (D : Decomposes d M N X V p q r) :
    Pluq.Fac d M N (permutedMat M N p q X) V id id r :=
  facId ⟨D.rM, D.rN, D.piv, D.fac⟩ D.zero

/-- the rest of the function, after any execution of its parallel part -/
lemma pEchTail_spec (hk : KitOk k) (junk : ℕ → K) (gthr thr : ℕ) (jk : List ℕ → ℕ → ℕ) (nt : ℕ) (f : EchForm) (transform : Bool)
    (h : Rect m M N A lda) (hP : P.len = M) (hQ : Q.len = N) {x : Res} {m' : Mem K}
    (s : Steps (pEchPluq junk gthr thr jk nt f M N A lda P Q, m) (.ret x, m')) :
    Run (pEchTail k f transform M N A lda x.1) m' (fun _ m'' => ∃ V, Step m' m'' ⟨A, lda, M, N⟩ V ∧
      FormOf f transform M N x.1 (permutedMat M N x.2.1.get x.2.2.get (m.mat ⟨A, lda, M, N⟩)) V) := by
  rw [pEchPluq_eq] at s
  have E := C107_ppluq junk gthr thr jk nt (formDiag f) h hP hQ
  obtain ⟨h1, h2, _, D⟩ := E.result x m' s
  have hR : Rect m' M N A lda := ⟨wf_steps s h.wf, fun a ha => (E.frame x m' s a (h.ok a ha)).1, h.ld⟩
  have F := decomposes_id D
  have o := hR.on
  cases f <;> cases transform
  · exact (Run_pure _ _ _).2 ⟨_, o.step, F.toIsPLUQ⟩
  · exact (colTail_on hk o F).mono (fun _ _ ⟨V, h3, h4⟩ => ⟨V, h3.step, h4⟩)
  · exact (Run_pure _ _ _).2 ⟨_, o.step, F.toIsPLUQ⟩
  · exact (rowTail_on hk o F).mono (fun _ _ ⟨V, h3, h4⟩ => ⟨V, h3.step, h4⟩)
  · exact (redColTailNT_on hk o F).mono (fun _ _ ⟨V, h3, h4, _⟩ => ⟨V, h3.step, h4⟩)
  · exact (redColTail'_on hk o F).mono (fun _ _ ⟨V, h3, h4⟩ => ⟨V, h3.step, h4⟩)
  · exact (redRowTailNT_on hk o F).mono (fun _ _ ⟨V, h3, h4, _⟩ => ⟨V, h3.step, h4⟩)
  · exact (redRowTail_on hk o F).mono (fun _ _ ⟨V, h3, h4⟩ => ⟨V, h3.step, h4⟩)

/-- C123: the four functions with a parallel helper, for every matrix, number of threads and threshold: the parallel part has no fault, race,
deadlock or infinite execution under any schedule, its value is the rank; and after every one of its executions the rest of the function
ends without fault, leaves what is promised in the matrix, and changes nothing else.  (The row and column profiles are another matter,
see C108.) -/
theorem C123_pechelon (hk : KitOk k) (junk : ℕ → K) (gthr thr : ℕ) (jk : List ℕ → ℕ → ℕ) (nt : ℕ) (f : EchForm) (transform : Bool)
    (h : Rect m M N A lda) (hP : P.len = M) (hQ : Q.len = N) :
    EveryExec (pEchPluq junk gthr thr jk nt f M N A lda P Q) m (Win.Has ⟨A, lda, M, N⟩) (fun x m' =>
      x.2.1.len = M ∧ x.2.2.len = N ∧ IsTranspArray x.2.1.get M ∧ IsTranspArray x.2.2.get N ∧ x.1 = rk (m.mat ⟨A, lda, M, N⟩) M N ∧
      Run (pEchTail k f transform M N A lda x.1) m' (fun _ m'' => ∃ V, Step m' m'' ⟨A, lda, M, N⟩ V ∧
        FormOf f transform M N x.1 (permutedMat M N x.2.1.get x.2.2.get (m.mat ⟨A, lda, M, N⟩)) V)) := by
  have E := C107_ppluq junk gthr thr jk nt (formDiag f) h hP hQ
  have e := pEchPluq_eq (M := M) (N := N) (A := A) (lda := lda) (P := P) (Q := Q) junk gthr thr jk nt f
  rw [e]
  refine ⟨E.1, E.2, E.3, E.4, E.5, fun x m' s => ?_, E.7⟩
  obtain ⟨h1, h2, h3, D⟩ := E.result x m' s
  exact ⟨h1, h2, D.tP, D.tQ, h3, pEchTail_spec hk junk gthr thr jk nt f transform h hP hQ (e ▸ s)⟩

/-- the C functions whose arguments are exchanged: single precision reduced forms, and all those for 32-bit integers -/
def SwappedArgs (ty : CElt) (f : EchForm) : Prop := ty = .int32 ∨ ty = .float ∧ (f = .redCol ∨ f = .redRow)

/-- C123, partial: the C functions for `double`, and `pColumnEchelonForm_modular_float`, `pRowEchelonForm_modular_float`, do what is
promised for the value of `transform` they get; the other six do so when `transform` is false.  Missing: those six with `transform`, where it is false. -/
theorem C123_c_partial (hk : KitOk k) (junk : ℕ → K) (gthr thr : ℕ) (jk : List ℕ → ℕ → ℕ) (dflt : ℕ) (ty : CElt) (f : EchForm) (transform : Bool)
    (ht : ¬ (SwappedArgs ty f ∧ transform = true)) (h : Rect m M N A lda) (hP : P.len = M) (hQ : Q.len = N) :
    EveryExec (cEchPluq junk gthr thr jk dflt ty f transform M N A lda P Q) m (Win.Has ⟨A, lda, M, N⟩) (fun x m' =>
      x.1 = rk (m.mat ⟨A, lda, M, N⟩) M N ∧
      Run (cEchTail k ty f transform M N A lda x.1) m' (fun _ m'' => ∃ V, Step m' m'' ⟨A, lda, M, N⟩ V ∧
        FormOf f transform M N x.1 (permutedMat M N x.2.1.get x.2.2.get (m.mat ⟨A, lda, M, N⟩)) V)) := by
  have e : (cEchArgs ty f transform).1 = transform := by
    cases transform
    · cases ty <;> cases f <;> rfl
    · cases ty <;> cases f <;> first | rfl | exact absurd ⟨by simp [SwappedArgs], rfl⟩ ht
  have E := C123_pechelon hk junk gthr thr jk (echThreads (cEchArgs ty f transform).2 dflt) f transform h hP hQ
  refine ⟨E.1, E.2, E.3, E.4, E.5, fun x m' s => ?_, E.7⟩
  obtain ⟨_, _, _, _, h3, h4⟩ := E.result x m' s
  refine ⟨h3, ?_⟩
  unfold cEchTail
  rw [e]
  exact h4

/-- C123: those six functions never compute the transformation: whatever `transform` is, they leave what is promised for `transform = false`. -/
theorem C123_c_ignored (hk : KitOk k) (junk : ℕ → K) (gthr thr : ℕ) (jk : List ℕ → ℕ → ℕ) (dflt : ℕ) {ty : CElt} {f : EchForm} (transform : Bool)
    (ht : SwappedArgs ty f) (h : Rect m M N A lda) (hP : P.len = M) (hQ : Q.len = N) :
    EveryExec (cEchPluq junk gthr thr jk dflt ty f transform M N A lda P Q) m (Win.Has ⟨A, lda, M, N⟩) (fun x m' =>
      x.1 = rk (m.mat ⟨A, lda, M, N⟩) M N ∧
      Run (cEchTail k ty f transform M N A lda x.1) m' (fun _ m'' => ∃ V, Step m' m'' ⟨A, lda, M, N⟩ V ∧
        FormOf f false M N x.1 (permutedMat M N x.2.1.get x.2.2.get (m.mat ⟨A, lda, M, N⟩)) V)) := by
  have e : (cEchArgs ty f transform).1 = false := by
    rcases ht with rfl | ⟨rfl, rfl | rfl⟩ <;> rfl
  have E := C123_pechelon hk junk gthr thr jk (echThreads (cEchArgs ty f transform).2 dflt) f false h hP hQ
  refine ⟨E.1, E.2, E.3, E.4, E.5, fun x m' s => ?_, E.7⟩
  obtain ⟨_, _, _, _, h3, h4⟩ := E.result x m' s
  refine ⟨h3, ?_⟩
  unfold cEchTail
  rw [e]
  exact h4

omit [DecidableEq K] in
/-- a 1 × 1 matrix other than `1`, `-1`: what is promised without and with the transformation differ -/
lemma formOf_one {f : EchForm} {r : ℕ} {Y V : ℕ → ℕ → K} (h0 : Y 0 0 ≠ 0) (h1 : Y 0 0 * Y 0 0 ≠ 1) (h : FormOf f false 1 1 r Y V) : ¬ FormOf f true 1 1 r Y V := by
  intro h'
  cases f <;> simp only [FormOf] at h h'
  · have hr := h.rM
    interval_cases r
    · exact h0 (by simpa using h.fac 0 (by omega) 0 (by omega))
    · have a := h.fac 0 (by omega) 0 (by omega)
      have b := h'.eq 0 (by omega) 0 (by omega)
      simp [luL, luU, tri, rowTransOf, rowEchOf] at a b
      exact h1 (by rw [← a] at b; exact b)
  · have hr := h.rM
    interval_cases r
    · exact h0 (by simpa using h.fac 0 (by omega) 0 (by omega))
    · have a := h.fac 0 (by omega) 0 (by omega)
      have b := h'.eq 0 (by omega) 0 (by omega)
      simp [luL, luU, tri, rowTransOf, rowEchOf] at a b
      exact h1 (by rw [← a] at b; exact b)
  · have hr := h.rM
    interval_cases r
    · exact h0 (by simpa using h.eq 0 (by omega) 0 (by omega))
    · have a := h.eq 0 (by omega) 0 (by omega)
      have b := h'.eq 0 (by omega) 0 (by omega)
      simp [tri, transOf, reducedOf] at a b
      exact h1 (by rw [← a] at b; exact b)
  · have hr := h.rM
    interval_cases r
    · exact h0 (by simpa using h.eq 0 (by omega) 0 (by omega))
    · have a := h.eq 0 (by omega) 0 (by omega)
      have b := h'.eq 0 (by omega) 0 (by omega)
      simp [tri, transOf, reducedOf] at a b
      exact h1 (by rw [← a] at b; exact b)

omit [DecidableEq K] in
lemma permutedMat_one {p q : ℕ → ℕ} (X : ℕ → ℕ → K) (tP : IsTranspArray p 1) (tQ : IsTranspArray q 1) : permutedMat 1 1 p q X 0 0 = X 0 0 := by
  have a := (tP 0 (by omega)).2
  have b := (tQ 0 (by omega)).2
  have a : p 0 = 0 := by omega
  have b : q 0 = 0 := by omega
  simp [permutedMat, applySwaps, exchange, a, b]

/-- C123: so the promise is broken, in every execution, for every 1 × 1 matrix other than `0`, `1`, `-1`. -/
theorem C123_c_violated (hk : KitOk k) (junk : ℕ → K) (gthr thr : ℕ) (jk : List ℕ → ℕ → ℕ) (dflt : ℕ) {ty : CElt} {f : EchForm}
    (ht : SwappedArgs ty f) (h : Rect m 1 1 A lda) (hP : P.len = 1) (hQ : Q.len = 1) (h0 : m.val A ≠ 0) (h1 : m.val A * m.val A ≠ 1) :
    EveryExec (cEchPluq junk gthr thr jk dflt ty f true 1 1 A lda P Q) m (Win.Has ⟨A, lda, 1, 1⟩) (fun x m' =>
      Run (cEchTail k ty f true 1 1 A lda x.1) m' (fun _ m'' =>
        ∃ V, Step m' m'' ⟨A, lda, 1, 1⟩ V ∧ ¬ FormOf f true 1 1 x.1 (permutedMat 1 1 x.2.1.get x.2.2.get (m.mat ⟨A, lda, 1, 1⟩)) V)) := by
  have E := C123_c_ignored hk junk gthr thr jk dflt true ht h hP hQ
  have E' := C123_pechelon hk junk gthr thr jk (echThreads (cEchArgs ty f true).2 dflt) f false h hP hQ
  refine ⟨E.1, E.2, E.3, E.4, E.5, fun x m' s => ?_, E.7⟩
  obtain ⟨_, h4⟩ := E.result x m' s
  obtain ⟨_, _, tP, tQ, _, _⟩ := E'.result x m' s
  refine h4.mono ?_
  rintro _ m'' ⟨V, h5, h6⟩
  have e : permutedMat 1 1 x.2.1.get x.2.2.get (m.mat ⟨A, lda, 1, 1⟩) 0 0 = m.val A := by
    rw [permutedMat_one _ tP tQ]
    simp [Mem.mat, Win.adr]
  exact ⟨V, h5, formOf_one (by rw [e]; exact h0) (by rw [e]; exact h1) h6⟩

/-! ### Concrete cases -/

/-- the 4 × 5 matrix of rank 3 of C107, with the transformation -/
example : EveryExec (pEchPluq (fun _ => 5) 2 2 eJ 4 .redRow 4 5 0 6 (Arr.mk' 4 (fun _ => 9)) (Arr.mk' 5 (fun _ => 8))) pex
    (Win.Has ⟨0, 6, 4, 5⟩) (fun x m' => x.2.1.len = 4 ∧ x.2.2.len = 5 ∧ IsTranspArray x.2.1.get 4 ∧ IsTranspArray x.2.2.get 5 ∧
      x.1 = rk (pex.mat ⟨0, 6, 4, 5⟩) 4 5 ∧
      Run (pEchTail exK .redRow true 4 5 0 6 x.1) m' (fun _ m'' => ∃ V, Step m' m'' ⟨0, 6, 4, 5⟩ V ∧
        FormOf .redRow true 4 5 x.1 (permutedMat 4 5 x.2.1.get x.2.2.get (pex.mat ⟨0, 6, 4, 5⟩)) V)) :=
  C123_pechelon exK_ok _ _ _ _ _ _ _ pex_rect rfl rfl

/-- `pReducedRowEchelonForm_modular_float` and `pRowEchelonForm_modular_int32_t` on the matrix `(2)`: the matrix is left as it is, the
promised transformation is `1/2` -/
def echTwo : Mem ℚ := memOf [2, 77]

example : Rect echTwo 1 1 0 1 ∧ echTwo.val 0 ≠ 0 ∧ echTwo.val 0 * echTwo.val 0 ≠ 1 ∧ SwappedArgs .float .redRow ∧ SwappedArgs .int32 .row ∧
    ¬ SwappedArgs .double .redRow ∧ ¬ SwappedArgs .float .row := by
  exact ⟨⟨WF_memOf _, OkIn_memOf (by decide), by decide⟩, by decide +kernel, by decide +kernel, by simp [SwappedArgs], by simp [SwappedArgs],
    by simp [SwappedArgs], by simp [SwappedArgs]⟩

example : after ((cEchPluq (fun _ => 5) 2 2 eJ 4 .float .redRow true 1 1 0 1 (Arr.mk' 1 (fun _ => 9)) (Arr.mk' 1 (fun _ => 8))).seq >>= fun x =>
      cEchTail exK .float .redRow true 1 1 0 1 x.1) echTwo 0 = some 2 ∧
    after ((cEchPluq (fun _ => 5) 2 2 eJ 4 .double .redRow true 1 1 0 1 (Arr.mk' 1 (fun _ => 9)) (Arr.mk' 1 (fun _ => 8))).seq >>= fun x =>
      cEchTail exK .double .redRow true 1 1 0 1 x.1) echTwo 0 = some (1 / 2) := by decide +kernel

end Verif.Props
