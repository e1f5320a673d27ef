import Verif.Proofs.SyrkStrassen3

/-!
# The two schedules of the Strassen-like rank-k update
-/

namespace Verif.FF

open Finset Verif.Spec

variable {K : Type} [Field K] [DecidableEq K]

section acc
variable {ι : Type} [DecidableEq ι] {m m' : Mem K} {C : Win} {l : List (ℕ × ℕ)} {V V2 : ι → Win} {wr : ι → Prop} {σ : ι → ℕ → ℕ → K}
variable {u : Uplo} {t : Tr} {n2 k2 : ℕ}

/-- end of the schedule with accumulation -/
lemma accTail_k (hm : WF m) {D : ℕ} (s : St m C ((D, n2) :: l) V σ m') (F : FamOk m C ((D, n2) :: l) V wr) (F2 : FamOk m C l V2 wr)
    (hl : ∀ b ∈ l, b.1 + b.2 ≤ D ∨ D + n2 ≤ b.1) (cat : Cat)
    {rec : SyrkFn K} (hr : SyrkAt rec n2 k2) {alpha beta : K} (hn : 0 < n2)
    {a11 a12 w d c11 cd cl c22 : ι} (ww : wr w) (w11 : wr c11) (wd : wr cd) (wl : wr cl) (w22 : wr c22) {A lda T ldt Cp ldc : ℕ}
    (hV : ∀ v, v ≠ d → V2 v = V v) (e1 : a12 ≠ d) (e2 : w ≠ d) (e3 : c11 ≠ d) (e4 : cl ≠ d) (e5 : c22 ≠ d) (e6 : d ≠ w) (e7 : d ≠ cd)
    (e8 : d ≠ cl) (e9 : d ≠ c22)
    (d1 : a11 ≠ w) (d2 : a12 ≠ c11) (d3 : a12 ≠ w) (d4 : a12 ≠ cl) (d5 : a12 ≠ c22) (d6 : a12 ≠ cd)
    (n1 : w ≠ cd) (n3 : c22 ≠ cd) (n4 : cl ≠ cd) (n5 : cl ≠ c22) (n6 : w ≠ c22) (n7 : w ≠ cl) (g1 : c11 ≠ w) (g2 : c11 ≠ cd) (g3 : c11 ≠ cl)
    (g4 : c11 ≠ c22)
    (va : V a11 = aw t n2 k2 A lda) (va2 : V a12 = aw t n2 k2 (q12 t A lda n2 k2) lda) (vw : V w = ⟨T, ldt, n2, n2⟩)
    (v11 : V c11 = ⟨Cp, ldc, n2, n2⟩) (vD : V d = ⟨D, n2, 1, n2⟩)
    (vd : V cd = ⟨cDead u Cp ldc n2, ldc, n2, n2⟩) (vl : V cl = ⟨cLive u Cp ldc n2, ldc, n2, n2⟩)
    (v22 : V c22 = ⟨Cp + n2 * ldc + n2, ldc, n2, n2⟩) {p5 : ℕ → ℕ → K} (y5 : ∀ i j, p5 i j = p5 j i)
    (h5 : ∀ i < n2, ∀ j < n2, inHalf u i j → σ cd i j = p5 i j) {f : ℕ → ℕ → K}
    (hf : ∀ i < n2, ∀ j < n2, ¬ inHalf u i j → σ c11 i j = savedV u n2 f i j) (hd : ∀ i < n2, σ d 0 i = f i i) :
    Run (strassenAccTail cat rec u t n2 k2 alpha A lda beta Cp ldc T ldt D) m' (fun _ m'' => ∃ σ',
      (∀ i < n2, ∀ j < n2, inHalf u i j → σ' c11 i j =
        alpha * sdot k2 (op t (σ a11)) (op t (σ a11)) i j + alpha * sdot k2 (op t (σ a12)) (op t (σ a12)) i j + beta * σ c11 i j) ∧
      (∀ i < n2, ∀ j < n2, σ' cl i j = alpha * sdot k2 (op t (σ a11)) (op t (σ a11)) i j + p5 i j + σ c22 j i + σ cl i j) ∧
      (∀ i < n2, ∀ j < n2, inHalf u i j → σ' c22 i j =
        alpha * sdot k2 (op t (σ a11)) (op t (σ a11)) i j + p5 i j + σ c22 j i + σ c22 i j + beta * f i j) ∧ St m C l V2 σ' m'') := by
  unfold strassenAccTail
  simp only []
  rw [Run_bind]
  refine (s.k_syrk F hr (u := u) alpha 0 ww d1 (Or.inl rfl) va vw).mono ?_
  rintro _ m1 ⟨σ1, q1, o1, t1⟩
  have := uSteps_k t1 F cat u wd wl w22 n1 n3 n4 n5 n6 n7 vw vd vl v22 (p1 := fun i j => alpha * sdot k2 (op t (σ a11)) (op t (σ a11)) i j) (p5 := p5)
    (fun i j => by rw [sdot_comm]) y5 (fun i hi j hj c => by rw [q1 i hi j hj c]; ring)
    (fun i hi j hj c => by rw [o1 cd n1.symm, h5 i hi j hj c])
  unfold uSteps at this
  simp only [Run_bind] at this ⊢
  refine this.mono (fun _ a1 h => h.mono (fun _ a2 h => h.mono (fun _ a3 h => h.mono (fun _ a4 h => h.mono ?_))))
  rintro _ m2 ⟨σ2, q2, q3, o2, t2⟩
  have k11 : σ2 c11 = σ c11 := by rw [o2 c11 g2 g3 g4, o1 c11 g1]
  have kd : σ2 d = σ d := by rw [o2 d e7 e8 e9, o1 d e6]
  refine (t2.k_restore F cat u beta hn w22 g4 e9 v11 vD v22 (f := f) (by rw [k11]; exact hf) (by rw [kd]; exact hd)).mono ?_
  rintro _ m3 ⟨σ3, q4, o3, t3⟩
  refine (St.free (l1 := []) t3 hm (by simpa using hl)).mono ?_
  intro _ m4 t4
  obtain ⟨σ4, o4, t4⟩ := St.refam t4 V2
  rw [← hV _ e1] at va2
  rw [← hV _ e2] at vw
  rw [← hV _ e3] at v11
  refine (t4.k_syrk F2 hr (u := u) alpha beta w11 d2 (Or.inr hn) va2 v11).mono ?_
  rintro _ m5 ⟨σ5, q5, o5, t5⟩
  refine (t5.k_tri F2 cat u w11 g1.symm vw v11).mono ?_
  rintro _ m6 ⟨σ6, q6, o6, t6⟩
  have r11 : σ4 c11 = σ c11 := by rw [o4 c11 (hV _ e3), o3 c11 g4, k11]
  have rw' : σ5 w = σ1 w := by rw [o5 w g1.symm, o4 w (hV _ e2), o3 w n6, o2 w n1 n7 n6]
  have ra : σ4 a12 = σ a12 := by rw [o4 a12 (hV _ e1), o3 a12 d5, o2 a12 d6 d4 d5, o1 a12 d3]
  refine ⟨σ6, fun i hi j hj c => ?_, fun i hi j hj => ?_, fun i hi j hj c => ?_, t6⟩
  · rw [q6, halfUpd, if_pos c, rw', q1 i hi j hj c, q5 i hi j hj c, ra, r11]; ring
  · rw [o6 cl g3.symm, o5 cl g3.symm, o4 cl (hV _ e4), o3 cl n5, q2 i hi j hj, o1 c22 n6.symm, o1 cl n7.symm]
  · rw [o6 c22 g4.symm, o5 c22 g4.symm, o4 c22 (hV _ e5), q4, halfUpd, if_pos c, q3 i hi j hj c, o1 c22 n6.symm]

end acc

/-! ### The windows -/

inductive SB | a11 | a12 | a21 | a22 | c11 | cd | cl | c22 | x1 | x2 | x3
  deriving DecidableEq

/-- blocks of `A`, of `C` and temporaries -/
def sfam (t : Tr) (n2 k2 A lda : ℕ) (w11 wd wl w22 X1 X2 X3 : Win) : SB → Win
  | .a11 => aw t n2 k2 A lda
  | .a12 => aw t n2 k2 (q12 t A lda n2 k2) lda
  | .a21 => aw t n2 k2 (q21 t A lda n2 k2) lda
  | .a22 => aw t n2 k2 (q22 t A lda n2 k2) lda
  | .c11 => w11
  | .cd => wd
  | .cl => wl
  | .c22 => w22
  | .x1 => X1
  | .x2 => X2
  | .x3 => X3

/-- what may be written -/
def swr : SB → Prop
  | .a11 | .a12 | .a21 | .a22 => False
  | _ => True

/-- correspondence with the blocks of a product -/
def toWB (u : Uplo) : SB → WB
  | .a11 => .a11
  | .a12 => .a12
  | .a21 => .a21
  | .a22 => .a22
  | .c11 => .c11
  | .cd => match u with | .lower => .c12 | .upper => .c21
  | .cl => match u with | .lower => .c21 | .upper => .c12
  | .c22 => .c22
  | .x1 => .x1
  | .x2 => .x2
  | .x3 => .x3

omit [Field K] [DecidableEq K] in
/-- smaller windows -/
lemma _root_.Verif.FamOk.small {ι ι' : Type} {m : Mem K} {C : Win} {l : List (ℕ × ℕ)} {V : ι → Win} {wr : ι → Prop} (F : FamOk m C l V wr)
    {V' : ι' → Win} {wr' : ι' → Prop} (f : ι' → ι) (hf : Function.Injective f) (h1 : ∀ v a, (V' v).Has a → (V (f v)).Has a)
    (h2 : ∀ v, (V' v).c ≤ (V' v).ld) (h3 : ∀ v, wr' v → wr (f v)) : FamOk m C l V' wr' :=
  ⟨fun v a h => F.okv (f v) a (h1 v a h), fun k hk v hne a ha hb => F.disj (f k) (h3 k hk) (f v) (fun e => hne (hf e)) a (h1 v a ha) (h1 k a hb),
    fun k hk a ha => F.wrin (f k) (h3 k hk) a (h1 k a ha), h2⟩

section sf
variable {m m' : Mem K} {l : List (ℕ × ℕ)} {t : Tr} {n2 k2 A lda C ldc : ℕ} {w11 wd wl w22 X1 X2 X3 : Win}

lemma sfam_ok (u : Uplo) (h : GPre m t (oppTr t) (2 * n2) (2 * n2) (2 * k2) A lda A lda C ldc) (t1 : TmpOk m l X1) (t2 : TmpOk m l X2)
    (t3 : TmpOk m l X3) (d12 : X1.Disj X2) (d13 : X1.Disj X3) (d23 : X2.Disj X3)
    (h1 : ∀ a, w11.Has a → (Win.mk C ldc n2 n2).Has a) (h2 : ∀ a, wd.Has a → (Win.mk (cDead u C ldc n2) ldc n2 n2).Has a)
    (h3 : ∀ a, wl.Has a → (Win.mk (cLive u C ldc n2) ldc n2 n2).Has a) (h4 : ∀ a, w22.Has a → (Win.mk (C + n2 * ldc + n2) ldc n2 n2).Has a)
    (f1 : w11.c ≤ w11.ld) (f2 : wd.c ≤ wd.ld) (f3 : wl.c ≤ wl.ld) (f4 : w22.c ≤ w22.ld) :
    FamOk m ⟨C, ldc, 2 * n2, 2 * n2⟩ l (sfam t n2 k2 A lda w11 wd wl w22 X1 X2 X3) swr := by
  have la : opc t n2 k2 ≤ lda := le_trans (by cases t <;> simp only [opc] <;> omega) h.lA
  refine (wfam_ok h t1 t2 t3 d12 d13 d23).small (toWB u) ?_ ?_ ?_ ?_
  · intro a b e
    cases a <;> cases b <;> cases u <;> first | rfl | (exact absurd e (by decide))
  · intro v a hv
    cases v with
    | a11 => exact hv
    | a12 => exact hv
    | a21 => exact hv
    | a22 => exact hv
    | c11 => exact h1 a hv
    | cd => cases u <;> exact h2 a hv
    | cl => cases u <;> exact h3 a hv
    | c22 => exact h4 a hv
    | x1 => exact hv
    | x2 => exact hv
    | x3 => exact hv
  · intro v
    cases v with
    | a11 => exact la
    | a12 => exact la
    | a21 => exact la
    | a22 => exact la
    | c11 => exact f1
    | cd => exact f2
    | cl => exact f3
    | c22 => exact f4
    | x1 => exact t1.fit
    | x2 => exact t2.fit
    | x3 => exact t3.fit
  · intro v hv
    cases v <;> cases u <;> first | exact hv | trivial

lemma aw_small {P ld : ℕ} (hk : k2 ≤ n2) (a : ℕ) (h : (aw t n2 k2 P ld).Has a) : (Win.mk P ld n2 n2).Has a := by
  obtain ⟨i, hi, j, hj, rfl⟩ := h
  cases t
  · exact ⟨i, hi, j, lt_of_lt_of_le hj hk, rfl⟩
  · exact ⟨i, lt_of_lt_of_le hi hk, j, hj, rfl⟩

/-- blocks of a matrix of `K` -/
def xb12 (k2 : ℕ) (X : ℕ → ℕ → K) : ℕ → ℕ → K := fun i l => X i (k2 + l)
/-- second block row, first block column -/
def xb21 (n2 : ℕ) (X : ℕ → ℕ → K) : ℕ → ℕ → K := fun i l => X (n2 + i) l
/-- second block row, second block column -/
def xb22 (n2 k2 : ℕ) (X : ℕ → ℕ → K) : ℕ → ℕ → K := fun i l => X (n2 + i) (k2 + l)

/-- the slots of `A` contain the blocks of `X` -/
structure XA (t : Tr) (n2 k2 : ℕ) (X : ℕ → ℕ → K) (σ : SB → ℕ → ℕ → K) : Prop where
  a11 : ∀ i < n2, ∀ l < k2, op t (σ .a11) i l = X i l
  a12 : ∀ i < n2, ∀ l < k2, op t (σ .a12) i l = xb12 k2 X i l
  a21 : ∀ i < n2, ∀ l < k2, op t (σ .a21) i l = xb21 n2 X i l
  a22 : ∀ i < n2, ∀ l < k2, op t (σ .a22) i l = xb22 n2 k2 X i l

omit [Field K] [DecidableEq K] in
lemma XA.congr {X : ℕ → ℕ → K} {σ σ' : SB → ℕ → ℕ → K} (h : XA t n2 k2 X σ) (h1 : σ' .a11 = σ .a11) (h2 : σ' .a12 = σ .a12) (h3 : σ' .a21 = σ .a21)
    (h4 : σ' .a22 = σ .a22) : XA t n2 k2 X σ' := ⟨by rw [h1]; exact h.a11, by rw [h2]; exact h.a12, by rw [h3]; exact h.a21, by rw [h4]; exact h.a22⟩

/-- the entry of the off-diagonal block -/
def liveVal (u : Uplo) (n2 : ℕ) (G : ℕ → ℕ → K) (i j : ℕ) : K := match u with
  | .lower => G (n2 + i) j
  | .upper => G i (n2 + j)

section close
variable {u : Uplo} {X V : ℕ → ℕ → K} {alpha beta : K} {i j : ℕ}

omit [DecidableEq K] in
lemma syVal_11 : syVal (2 * k2) alpha beta X V i j = alpha * (sdot k2 X X i j + sdot k2 (xb12 k2 X) (xb12 k2 X) i j) + beta * V i j := by
  unfold syVal sdot
  rw [two_mul, sum_range_add]; rfl

omit [DecidableEq K] in
lemma syVal_22 : syVal (2 * k2) alpha beta X V (n2 + i) (n2 + j) = alpha * (sdot k2 (xb21 n2 X) (xb21 n2 X) i j +
    sdot k2 (xb22 n2 k2 X) (xb22 n2 k2 X) i j) + beta * V (n2 + i) (n2 + j) := by
  unfold syVal sdot
  rw [two_mul, sum_range_add]; rfl

omit [DecidableEq K] in
lemma syVal_live : liveVal u n2 (syVal (2 * k2) alpha beta X V) i j =
    alpha * (spr u k2 (xb21 n2 X) X i j + spr u k2 (xb22 n2 k2 X) (xb12 k2 X) i j) + beta * liveVal u n2 V i j := by
  cases u <;> simp only [liveVal, spr] <;> unfold syVal sdot <;> rw [two_mul, sum_range_add] <;> rfl

lemma sfinish (u : Uplo) {σ : SB → ℕ → ℕ → K} {G : ℕ → ℕ → K} (h : On m m ⟨C, ldc, 2 * n2, 2 * n2⟩ V)
    (s : St m ⟨C, ldc, 2 * n2, 2 * n2⟩ [] (sfam t n2 k2 A lda ⟨C, ldc, n2, n2⟩ ⟨cDead u C ldc n2, ldc, n2, n2⟩ ⟨cLive u C ldc n2, ldc, n2, n2⟩
      ⟨C + n2 * ldc + n2, ldc, n2, n2⟩ X1 X2 X3) σ m')
    (h11 : ∀ i < n2, ∀ j < n2, inHalf u i j → σ .c11 i j = G i j) (hl : ∀ i < n2, ∀ j < n2, σ .cl i j = liveVal u n2 G i j)
    (h22 : ∀ i < n2, ∀ j < n2, inHalf u i j → σ .c22 i j = G (n2 + i) (n2 + j)) :
    ∃ V', On m m' ⟨C, ldc, 2 * n2, 2 * n2⟩ V' ∧ ∀ i < 2 * n2, ∀ j < 2 * n2, inHalf u i j → V' i j = G i j := by
  refine ⟨_, ⟨h.wf, h.ok, h.ld, s.finish (fun i hi j hj => rfl)⟩, fun i hi j hj c => ?_⟩
  have e11 : ∀ i < n2, ∀ j < n2, m'.mat ⟨C, ldc, 2 * n2, 2 * n2⟩ i j = σ .c11 i j := fun i hi j hj => s.holds .c11 i hi j hj
  have e22 : ∀ i < n2, ∀ j < n2, m'.mat ⟨C, ldc, 2 * n2, 2 * n2⟩ (n2 + i) (n2 + j) = σ .c22 i j := fun i hi j hj => by
    refine Eq.trans ?_ (s.holds .c22 i hi j hj)
    simp only [sfam, Mem.mat, Win.adr_mk]
    congr 1; ring
  cases u with
  | lower =>
    have c : j ≤ i := c
    by_cases ci : i < n2
    · rw [e11 i ci j (by omega), h11 i ci j (by omega) c]
    · obtain ⟨i', rfl⟩ : ∃ i', i = n2 + i' := ⟨i - n2, by omega⟩
      by_cases cj : j < n2
      · refine Eq.trans ?_ ((s.holds .cl i' (by simp only [sfam]; omega) j cj).trans (hl i' (by omega) j cj))
        simp only [sfam, Mem.mat, Win.adr_mk, cLive]
        congr 1; ring
      · obtain ⟨j', rfl⟩ : ∃ j', j = n2 + j' := ⟨j - n2, by omega⟩
        rw [e22 i' (by omega) j' (by omega), h22 i' (by omega) j' (by omega) (show j' ≤ i' by omega)]
  | upper =>
    have c : i ≤ j := c
    by_cases cj : j < n2
    · rw [e11 i (by omega) j cj, h11 i (by omega) j cj c]
    · obtain ⟨j', rfl⟩ : ∃ j', j = n2 + j' := ⟨j - n2, by omega⟩
      by_cases ci : i < n2
      · refine Eq.trans ?_ ((s.holds .cl i ci j' (by simp only [sfam]; omega)).trans (hl i ci j' (by omega)))
        simp only [sfam, Mem.mat, Win.adr_mk, cLive]
        congr 1; ring
      · obtain ⟨i', rfl⟩ : ∃ i', i = n2 + i' := ⟨i - n2, by omega⟩
        rw [e22 i' (by omega) j' (by omega), h22 i' (by omega) j' (by omega) (show i' ≤ j' by omega)]

end close

/-- the sums of the schedule, for the blocks of `X` -/
def sS1 (x y : K) (n2 k2 : ℕ) (X : ℕ → ℕ → K) : ℕ → ℕ → K := fun i l => yrot (k2 / 2) x y (xb21 n2 X) i l - yrot (k2 / 2) x y X i l
/-- `S2` -/
def sS2 (x y : K) (n2 k2 : ℕ) (X : ℕ → ℕ → K) : ℕ → ℕ → K := fun i l => xb22 n2 k2 X i l - yrot (k2 / 2) x y (xb21 n2 X) i l
/-- `S3` -/
def sS3 (x y : K) (n2 k2 : ℕ) (X : ℕ → ℕ → K) : ℕ → ℕ → K := fun i l => sS1 x y n2 k2 X i l - xb22 n2 k2 X i l
/-- `S4` -/
def sS4 (x y : K) (n2 k2 : ℕ) (X : ℕ → ℕ → K) : ℕ → ℕ → K := fun i l => sS3 x y n2 k2 X i l + xb12 k2 X i l

section close2
variable {u : Uplo} {X V : ℕ → ℕ → K} {alpha beta x y : K} {i j : ℕ}

omit [DecidableEq K] in
lemma close_live (hxy : x * x + y * y = -1) (hk : 2 * (k2 / 2) = k2) :
    alpha * sdot k2 X X i j + alpha * sdot k2 (sS3 x y n2 k2 X) (sS3 x y n2 k2 X) i j + alpha * spr u k2 (sS2 x y n2 k2 X) (sS1 x y n2 k2 X) j i +
      (alpha * spr u k2 (xb22 n2 k2 X) (sS4 x y n2 k2 X) i j + beta * liveVal u n2 V i j) = liveVal u n2 (syVal (2 * k2) alpha beta X V) i j := by
  have := alg21 (u := u) (k4 := k2 / 2) X (xb12 k2 X) (xb21 n2 X) (xb22 n2 k2 X) hxy (s1 := sS1 x y n2 k2 X) (s2 := sS2 x y n2 k2 X)
    (s3 := sS3 x y n2 k2 X) (s4 := sS4 x y n2 k2 X) rfl rfl rfl rfl i j
  rw [hk] at this
  rw [syVal_live, ← this]; ring

omit [DecidableEq K] in
lemma close_22 (hxy : x * x + y * y = -1) (hk : 2 * (k2 / 2) = k2) :
    alpha * sdot k2 X X i j + alpha * sdot k2 (sS3 x y n2 k2 X) (sS3 x y n2 k2 X) i j + alpha * spr u k2 (sS2 x y n2 k2 X) (sS1 x y n2 k2 X) j i +
      alpha * spr u k2 (sS2 x y n2 k2 X) (sS1 x y n2 k2 X) i j + beta * V (n2 + i) (n2 + j) =
      syVal (2 * k2) alpha beta X V (n2 + i) (n2 + j) := by
  have := alg22 (u := u) (k4 := k2 / 2) X (xb21 n2 X) (xb22 n2 k2 X) hxy (s1 := sS1 x y n2 k2 X) (s2 := sS2 x y n2 k2 X)
    (s3 := sS3 x y n2 k2 X) rfl rfl rfl i j
  rw [hk] at this
  rw [syVal_22, ← this]; ring

omit [DecidableEq K] in
lemma yrot_congr {f f' : ℕ → ℕ → K} (hk : 2 * (k2 / 2) = k2) (h : ∀ l < k2, f i l = f' i l) {l : ℕ} (hl : l < k2) :
    yrot (k2 / 2) x y f i l = yrot (k2 / 2) x y f' i l := by
  unfold yrot
  by_cases c : l < k2 / 2
  · rw [if_pos c, if_pos c, h l hl, h _ (by omega)]
  · rw [if_neg c, if_neg c, h l hl, h _ (by omega)]

omit [DecidableEq K] in
lemma op_pt (t : Tr) {f g h : ℕ → ℕ → K} {φ : K → K → K} (e : f = fun i j => φ (g i j) (h i j)) (i j : ℕ) : op t f i j = φ (op t g i j) (op t h i j) := by
  subst e; cases t <;> rfl

end close2

/-- initial state -/
lemma sstart (u : Uplo) {X V : ℕ → ℕ → K} (h : On m m ⟨C, ldc, 2 * n2, 2 * n2⟩ V) (hA : OSrc m t (2 * n2) (2 * k2) A lda X) (w11 wd wl w22 X1 X2 X3 : Win) :
    ∃ σ, St m ⟨C, ldc, 2 * n2, 2 * n2⟩ [] (sfam t n2 k2 A lda w11 wd wl w22 X1 X2 X3) σ m ∧ XA t n2 k2 X σ ∧
      (w11 = ⟨C, ldc, n2, n2⟩ → ∀ i < n2, ∀ j < n2, σ .c11 i j = V i j) ∧
      (wl = ⟨cLive u C ldc n2, ldc, n2, n2⟩ → ∀ i < n2, ∀ j < n2, σ .cl i j = liveVal u n2 V i j) ∧
      (w22 = ⟨C + n2 * ldc + n2, ldc, n2, n2⟩ → ∀ i < n2, ∀ j < n2, σ .c22 i j = V (n2 + i) (n2 + j)) := by
  refine ⟨fun v => m.mat (sfam t n2 k2 A lda w11 wd wl w22 X1 X2 X3 v), St.start h.wf _ _ _ (fun _ _ _ _ _ => rfl), ?_, ?_, ?_, ?_⟩
  · refine ⟨fun i hi l hl => ?_, fun i hi l hl => ?_, fun i hi l hl => ?_, fun i hi l hl => ?_⟩
    · simp only [sfam]; rw [op_mat, hA.val i (by omega) l (by omega)]
    · simp only [sfam]; rw [op_mat, ← opAdr_q.1, hA.val i (by omega) (k2 + l) (by omega)]; rfl
    · simp only [sfam]; rw [op_mat, ← opAdr_q.2.1, hA.val (n2 + i) (by omega) l (by omega)]; rfl
    · simp only [sfam]; rw [op_mat, ← opAdr_q.2.2, hA.val (n2 + i) (by omega) (k2 + l) (by omega)]; rfl
  · rintro rfl i hi j hj
    exact h.mat (W := ⟨C, ldc, 2 * n2, 2 * n2⟩) (i := i) (j := j) (by simp only; omega) (by simp only; omega)
  · rintro rfl i hi j hj
    cases u with
    | lower =>
      refine Eq.trans ?_ (h.mat (W := ⟨C, ldc, 2 * n2, 2 * n2⟩) (i := n2 + i) (j := j) (by simp only; omega) (by simp only; omega))
      simp only [sfam, Mem.mat, Win.adr_mk, cLive]; congr 1; ring
    | upper =>
      refine Eq.trans ?_ (h.mat (W := ⟨C, ldc, 2 * n2, 2 * n2⟩) (i := i) (j := n2 + j) (by simp only; omega) (by simp only; omega))
      simp only [sfam, Mem.mat, Win.adr_mk, cLive]; congr 1; ring
  · rintro rfl i hi j hj
    refine Eq.trans ?_ (h.mat (W := ⟨C, ldc, 2 * n2, 2 * n2⟩) (i := n2 + i) (j := n2 + j) (by simp only; omega) (by simp only; omega))
    simp only [sfam, Mem.mat, Win.adr_mk]; congr 1; ring

end sf

end Verif.FF
