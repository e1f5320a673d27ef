import Verif.Proofs.SimdVec3

/-!
# Correctness of the vectorised kernels
-/

namespace Verif.SimdVec
open Verif.FP Verif.Reduce Verif.SimdInt Verif.FF

variable {K : Type} {E : Arith K} {m : Mem K} {n T U V : ℕ}

/-- entry-by-entry step of a unary kernel -/
lemma scal1 {f : K → Option K} {g : ℕ → K} (hU : OkIn m (vw U 1 n)) (hT : OkIn m (vw T 1 n))
    (hs : (vw U 1 n).Safe (vw T 1 n)) {t : ℕ} (ht : t < n) (hf : f (m.val (U + t)) = some (g t)) {m' : Mem K}
    (h : Pre m T g t m') :
    Run (do let u ← load (U + t); let r ← opt (f u); store (T + t) r) m' (fun _ => Pre m T g (t + 1)) := by
  obtain ⟨e1, e2⟩ := h.rd hU hs le_rfl ht
  simp only [Run_bind, Run_load, Run_store, e1, e2, hf, Run_opt_some, h.ok hT ht, true_and]
  exact h.set

/-- register step of a unary kernel -/
lemma vec1 {f : (Fin E.vs → K) → Option (Fin E.vs → K)} {g : ℕ → K} (hU : OkIn m (vw U 1 n)) (hT : OkIn m (vw T 1 n))
    (hs : (vw U 1 n).Safe (vw T 1 n)) {t : ℕ} (ht : t + E.vs ≤ n) (haU : aligned E (U + t)) (haT : aligned E (T + t))
    (hf : f (fun l : Fin E.vs => m.val (U + (t + l))) = some fun l : Fin E.vs => g (t + l)) {m' : Mem K} (h : Pre m T g t m') :
    Run (do let C ← loada E (U + t); let C ← opt (f C); storea E (T + t) C) m' (fun _ => Pre m T g (t + E.vs)) := by
  simp only [Run_bind]
  have e : (fun l : Fin E.vs => m'.val (U + t + l)) = fun l : Fin E.vs => m.val (U + (t + l)) := by
    funext l
    have := (h.rd hU hs (s := t + l) (by omega) (by omega)).2
    rw [Nat.add_assoc]; exact this
  refine Run_loada haU (fun l => ?_) ?_
  · rw [Nat.add_assoc]; exact (h.rd hU hs (s := t + l) (by omega) (by omega)).1
  · rw [e, hf, Run_opt_some]
    exact Run_storea haT (fun l => by rw [Nat.add_assoc]; exact h.ok hT (by omega)) h.setv

lemma dvd_add_of {v a i k : ℕ} (h : v ∣ a + i) : v ∣ a + (i + k * v) := by
  rw [← Nat.add_assoc]; exact Nat.dvd_add h (Nat.dvd_mul_left _ _)

/-- Unary kernel. -/
lemma drive1 {fs : K → Option K} {fv : (Fin E.vs → K) → Option (Fin E.vs → K)} (hsz : 0 < E.sz) (hvs : 0 < E.vs) (g : ℕ → K)
    (hU : OkIn m (vw U 1 n)) (hT : OkIn m (vw T 1 n)) (hs : (vw U 1 n).Safe (vw T 1 n))
    (h1 : ∀ t < n, ¬ inSimd E n T (fun i => aligned E (U + i)) t → fs (m.val (U + t)) = some (g t))
    (h2 : ∀ t, t + E.vs ≤ n → (∀ l < E.vs, inSimd E n T (fun i => aligned E (U + i)) (t + l)) →
      fv (fun l : Fin E.vs => m.val (U + (t + l))) = some fun l : Fin E.vs => g (t + l)) :
    Run (drive E n T (fun i => aligned E (U + i))
      (fun t => do let u ← load (U + t); let r ← opt (fs u); store (T + t) r)
      (fun t => do let C ← loada E (U + t); let C ← opt (fv C); storea E (T + t) C)) m
      (fun _ m' => Step m m' (vw T 1 n) (fun i _ => g i)) := by
  refine drive_spec E hsz hvs g (fun t ht hn m' h => scal1 hU hT hs ht (h1 t ht hn) h) ?_
  rintro t ht hd ha ⟨k, rfl⟩ hin m' h
  rw [aligned_iff E hsz] at ha
  exact vec1 hU hT hs ht ((aligned_iff E hsz _).2 (dvd_add_of ha)) ((aligned_iff E hsz _).2 hd) (h2 _ ht hin) h

variable {ofZ : ℤ → K} {p : ℕ} {mn mx : ℤ} {In : ℤ → Prop}

lemma modp_spec (S : Sound E ofZ p mn mx In) (z : ℕ → ℤ) (hz : ∀ i < n, m.val (U + i) = ofZ (z i) ∧ In (z i))
    (hU : OkIn m (vw U 1 n)) (hT : OkIn m (vw T 1 n)) (hs : (vw U 1 n).Safe (vw T 1 n)) :
    Run (modp E U n T) m (fun _ m' => Step m m' (vw T 1 n) (fun i _ => ofZ (canon p mn (z i)))) := by
  refine drive1 S.sz S.vs _ hU hT hs (fun t ht _ => ?_) (fun t ht _ => ?_)
  · rw [(hz t ht).1, S.red _ (hz t ht).2]
  · rw [show (fun l : Fin E.vs => m.val (U + (t + l))) = fun l : Fin E.vs => ofZ (z (t + l)) from
      funext fun l => (hz _ (by omega)).1]
    exact S.vmod _ fun l => (hz _ (by omega)).2

lemma scalp_spec (S : Sound E ofZ p mn mx In) (a : ℤ) (ha : In a) (z : ℕ → ℤ)
    (hz : ∀ i < n, m.val (U + i) = ofZ (z i) ∧ In (z i) ∧ In (a * z i))
    (hU : OkIn m (vw U 1 n)) (hT : OkIn m (vw T 1 n)) (hs : (vw U 1 n).Safe (vw T 1 n)) :
    Run (scalp E T (ofZ a) U n) m (fun _ m' => Step m m' (vw T 1 n) (fun i _ => ofZ (canon p mn (a * z i)))) := by
  refine drive1 S.sz S.vs _ hU hT hs (fun t ht _ => ?_) (fun t ht _ => ?_)
  · rw [(hz t ht).1, S.mul _ _ ha (hz t ht).2.1 (hz t ht).2.2]
    exact S.red _ (hz t ht).2.2
  · rw [show (fun l : Fin E.vs => m.val (U + (t + l))) = fun l : Fin E.vs => ofZ (z (t + l)) from
      funext fun l => (hz _ (by omega)).1]
    have e := S.vmul (fun l : Fin E.vs => z (t + l)) (fun _ => a)
      (fun l => ⟨(hz (t + l) (by omega)).2.1, ha, by rw [mul_comm]; exact (hz (t + l) (by omega)).2.2⟩)
    rw [e, Option.bind_some, S.vmod _ (fun l => by rw [mul_comm]; exact (hz (t + l) (by omega)).2.2)]
    simp only [mul_comm]

lemma axpyp_spec (S : Sound E ofZ p mn mx In) {X Y : ℕ} (a : ℤ) (ha : In a) (x y : ℕ → ℤ)
    (hx : ∀ i < n, m.val (X + i) = ofZ (x i) ∧ In (x i) ∧ In (a * x i))
    (hy : ∀ i < n, m.val (Y + i) = ofZ (y i) ∧ In (y i) ∧ In (a * x i + y i))
    (hX : OkIn m (vw X 1 n)) (hY : OkIn m (vw Y 1 n)) (hs : (vw X 1 n).Safe (vw Y 1 n)) :
    Run (axpyp E (ofZ a) X Y n) m (fun _ m' => Step m m' (vw Y 1 n) (fun i _ => ofZ (canon p mn (a * x i + y i)))) := by
  have hYs : (vw Y 1 n).Safe (vw Y 1 n) := (vw_Inj Nat.one_pos).safe
  refine drive_spec E S.sz S.vs _ (fun t ht _ m' h => ?_) ?_
  · obtain ⟨e1, e2⟩ := h.rd hX hs le_rfl ht
    obtain ⟨e3, e4⟩ := h.rd hY hYs le_rfl ht
    have e5 : ((E.mul (ofZ a) (ofZ (x t))).bind fun r => E.add r (ofZ (y t))).bind E.red
        = some (ofZ (canon p mn (a * x t + y t))) := by
      rw [S.mul _ _ ha (hx t ht).2.1 (hx t ht).2.2, Option.bind_some,
        S.add _ _ (hx t ht).2.2 (hy t ht).2.1 (hy t ht).2.2, Option.bind_some, S.red _ (hy t ht).2.2]
    simp only [Run_bind, Run_load, e1, e2, e3, e4, true_and, (hx t ht).1, (hy t ht).1, e5, Run_opt_some, Run_store]
    exact h.set
  · rintro t ht hd ha' ⟨k, rfl⟩ hin m' h
    have hal := (aligned_iff E S.sz _).2 hd
    simp only [Run_bind, Run_loadu]
    refine ⟨fun l => by rw [Nat.add_assoc]; exact (h.rd hX hs (by omega) (by omega)).1, ?_⟩
    refine Run_loada hal (fun l => by rw [Nat.add_assoc]; exact (h.rd hY hYs (by omega) (by omega)).1) ?_
    set t := prologue E Y + k * E.vs
    have e1 : (fun l : Fin E.vs => m'.val (X + t + l)) = fun l : Fin E.vs => ofZ (x (t + l)) := by
      funext l
      rw [Nat.add_assoc, (h.rd hX hs (s := t + l) (by omega) (by omega)).2, (hx _ (by omega)).1]
    have e2 : (fun l : Fin E.vs => m'.val (Y + t + l)) = fun l : Fin E.vs => ofZ (y (t + l)) := by
      funext l
      rw [Nat.add_assoc, (h.rd hY hYs (s := t + l) (by omega) (by omega)).2, (hy _ (by omega)).1]
    rw [e1, e2]
    have e3 := S.vfmadd (fun l : Fin E.vs => y (t + l)) (fun _ => a) (fun l : Fin E.vs => x (t + l))
      (fun l => ⟨ha, (hx _ (by omega)).2.1, (hx _ (by omega)).2.2, (hy _ (by omega)).2.2⟩)
    rw [e3, Option.bind_some, S.vmod _ (fun l => (hy _ (by omega)).2.2), Run_opt_some]
    exact Run_storea hal (fun l => by rw [Nat.add_assoc]; exact h.ok hY (by omega)) h.setv

/-! ### Sums and differences -/

/-- operands and results of the corrected sum -/
structure Rng (p : ℕ) (mn mx : ℤ) (In : ℤ → Prop) : Prop where
  hmm : mx - mn = p - 1
  hmin : mn ≤ 0
  hmax : 0 ≤ mx
  hp : 1 ≤ p
  hin : ∀ z : ℤ, |z| ≤ 2 * p → In z

lemma canon_sum {p : ℕ} {mn mx t : ℤ} (hmm : mx - mn = p - 1) (hmin : mn ≤ 0) (hmax : 0 ≤ mx) (h1 : 2 * mn ≤ t)
    (h2 : t ≤ 2 * mx) : canon p mn t = if t > mx then t - p else if t < mn then t + p else t := by
  split_ifs with h h'
  · exact (eq_canon hmm (by omega) (by omega) ⟨1, by ring⟩).symm
  · exact (eq_canon hmm (by omega) (by omega) ⟨-1, by ring⟩).symm
  · exact (eq_canon hmm (by omega) (by omega) ⟨0, by ring⟩).symm

lemma canon_diff {p : ℕ} {mn mx t : ℤ} (hmm : mx - mn = p - 1) (h1 : mn - mx ≤ t)
    (h2 : t ≤ mx - mn) (hmin : mn ≤ 0) (hmax : 0 ≤ mx) :
    canon p mn t = if t > mx then t - p else if t < mn then t + p else t := by
  split_ifs with h h'
  · exact (eq_canon hmm (by omega) (by omega) ⟨1, by ring⟩).symm
  · exact (eq_canon hmm (by omega) (by omega) ⟨-1, by ring⟩).symm
  · exact (eq_canon hmm (by omega) (by omega) ⟨0, by ring⟩).symm

lemma Rng.abs {p : ℕ} {mn mx : ℤ} {In : ℤ → Prop} (R : Rng p mn mx In) {z : ℤ} (h1 : -(2 * p) ≤ z) (h2 : z ≤ 2 * p) : In z :=
  R.hin z (abs_le.2 ⟨by omega, by omega⟩)

lemma addS_spec (S : Sound E ofZ p mn mx In) (R : Rng p mn mx In) (positive : Bool) (hpos : positive = true → mn = 0)
    {a b : ℤ} (ha : mn ≤ a ∧ a ≤ mx) (hb : mn ≤ b ∧ b ≤ mx) :
    addS E positive (ofZ a) (ofZ b) = some (ofZ (canon p mn (a + b))) := by
  have := R.hmm; have := R.hmin; have := R.hmax; have := R.hp
  rw [canon_sum R.hmm R.hmin R.hmax (by omega) (by omega)]
  unfold addS
  rw [S.add _ _ (R.abs (by omega) (by omega)) (R.abs (by omega) (by omega)) (R.abs (by omega) (by omega))]
  simp only [Option.bind_eq_bind, Option.bind_some, S.max, S.min, S.chr, S.zero]
  rw [S.lt _ _ (R.abs (by omega) (by omega)) (R.abs (by omega) (by omega))]
  by_cases h : a + b > mx
  · rw [if_pos (by simpa using h), S.sub _ _ (R.abs (by omega) (by omega)) (R.abs (by omega) (by omega))
      (R.abs (by omega) (by omega)), Option.bind_some, if_pos h]
    cases positive with
    | true => rfl
    | false =>
      simp only [Bool.not_false, if_true]
      rw [S.lt _ _ (R.abs (by omega) (by omega)) (R.abs (by omega) (by omega)), if_neg (by simp; omega),
        S.add _ _ (R.abs (by omega) (by omega)) (R.abs (by omega) (by omega)) (R.abs (by omega) (by omega)), add_zero]
  · rw [if_neg (by simpa using h), S.sub _ _ (R.abs (by omega) (by omega)) (R.abs (by omega) (by omega))
      (R.abs (by omega) (by omega)), Option.bind_some, if_neg h, sub_zero]
    cases positive with
    | true =>
      have := hpos rfl
      simp only [Bool.not_true, Bool.false_eq_true, if_false]
      rw [if_neg (by omega)]
    | false =>
      simp only [Bool.not_false, if_true]
      rw [S.lt _ _ (R.abs (by omega) (by omega)) (R.abs (by omega) (by omega))]
      by_cases h' : a + b < mn
      · rw [if_pos (by simpa using h'), if_pos h', S.add _ _ (R.abs (by omega) (by omega)) (R.abs (by omega) (by omega))
          (R.abs (by omega) (by omega))]
      · rw [if_neg (by simpa using h'), if_neg h', S.add _ _ (R.abs (by omega) (by omega)) (R.abs (by omega) (by omega))
          (R.abs (by omega) (by omega)), add_zero]

lemma subS_spec (S : Sound E ofZ p mn mx In) (R : Rng p mn mx In) (positive : Bool) (hpos : positive = true → mn = 0)
    {a b : ℤ} (ha : mn ≤ a ∧ a ≤ mx) (hb : mn ≤ b ∧ b ≤ mx) :
    subS E positive (ofZ a) (ofZ b) = some (ofZ (canon p mn (a - b))) := by
  have := R.hmm; have := R.hmin; have := R.hmax; have := R.hp
  rw [canon_diff R.hmm (by omega) (by omega) R.hmin R.hmax]
  unfold subS
  rw [S.sub _ _ (R.abs (by omega) (by omega)) (R.abs (by omega) (by omega)) (R.abs (by omega) (by omega))]
  simp only [Option.bind_eq_bind, Option.bind_some, S.max, S.min, S.chr, S.zero]
  have tail : ∀ t : ℤ, -(2 * p) ≤ t → t ≤ p → E.add (ofZ t) (if E.lt (ofZ t) (ofZ mn) = true then ofZ p else ofZ 0)
      = some (ofZ (if t < mn then t + p else t)) := by
    intro t h1 h2
    rw [S.lt _ _ (R.abs (by omega) (by omega)) (R.abs (by omega) (by omega))]
    by_cases h' : t < mn
    · rw [if_pos (by simpa using h'), if_pos h', S.add _ _ (R.abs (by omega) (by omega)) (R.abs (by omega) (by omega))
        (R.abs (by omega) (by omega))]
    · rw [if_neg (by simpa using h'), if_neg h', S.add _ _ (R.abs (by omega) (by omega)) (R.abs (by omega) (by omega))
        (R.abs (by omega) (by omega)), add_zero]
  cases positive with
  | true =>
    have := hpos rfl
    simp only [Bool.not_true, Bool.false_eq_true, if_false, Option.bind_some]
    rw [tail _ (by omega) (by omega), if_neg (by omega : ¬ a - b > mx)]
  | false =>
    simp only [Bool.not_false, if_true]
    rw [S.lt _ _ (R.abs (by omega) (by omega)) (R.abs (by omega) (by omega))]
    by_cases h : a - b > mx
    · rw [if_pos (by simpa using h), S.sub _ _ (R.abs (by omega) (by omega)) (R.abs (by omega) (by omega))
        (R.abs (by omega) (by omega)), Option.bind_some, if_pos h, tail _ (by omega) (by omega), if_neg (by omega)]
    · rw [if_neg (by simpa using h), S.sub _ _ (R.abs (by omega) (by omega)) (R.abs (by omega) (by omega))
        (R.abs (by omega) (by omega)), Option.bind_some, if_neg h, sub_zero, tail _ (by omega) (by omega)]

/-- the correction of `VEC_ADD` and `VEC_SUB` -/
lemma corr_spec (S : Sound E ofZ p mn mx In) (R : Rng p mn mx In) (t : Fin E.vs → ℤ)
    (ht : ∀ l, -(2 * p) ≤ t l ∧ t l ≤ 2 * p) :
    E.vandGt (fun l => ofZ (t l)) (fun _ => E.max) (fun _ => E.negp) = (fun l => ofZ (if t l > mx then -(p : ℤ) else 0)) ∧
    E.vandLt (fun l => ofZ (t l)) (fun _ => E.min) (fun _ => E.p) = (fun l => ofZ (if t l < mn then (p : ℤ) else 0)) ∧
    E.vor (fun l => ofZ (if t l > mx then -(p : ℤ) else 0)) (fun l => ofZ (if t l < mn then (p : ℤ) else 0))
      = fun l => ofZ ((if t l > mx then -(p : ℤ) else 0) + (if t l < mn then (p : ℤ) else 0)) := by
  have := R.hmm; have := R.hmin; have := R.hmax; have := R.hp
  refine ⟨?_, ?_, ?_⟩
  · rw [S.max, S.negp]
    exact S.vandGt t (fun _ => mx) (fun _ => -(p : ℤ)) fun l => ⟨R.abs (ht l).1 (ht l).2, R.abs (by omega) (by omega)⟩
  · rw [S.min, S.chr]
    exact S.vandLt t (fun _ => mn) (fun _ => p) fun l => ⟨R.abs (ht l).1 (ht l).2, R.abs (by omega) (by omega)⟩
  · refine S.vor _ _ fun l => ?_
    split_ifs <;> first | omega | simp

lemma addV_spec (S : Sound E ofZ p mn mx In) (R : Rng p mn mx In) (positive : Bool) (hpos : positive = true → mn = 0)
    {a b : Fin E.vs → ℤ} (ha : ∀ l, mn ≤ a l ∧ a l ≤ mx) (hb : ∀ l, mn ≤ b l ∧ b l ≤ mx) :
    addV E positive (fun l => ofZ (a l)) (fun l => ofZ (b l)) = some fun l => ofZ (canon p mn (a l + b l)) := by
  have := R.hmm; have := R.hmin; have := R.hmax; have := R.hp
  have ht : ∀ l, -(2 * (p : ℤ)) ≤ a l + b l ∧ a l + b l ≤ 2 * p := fun l => by
    have := ha l; have := hb l; constructor <;> omega
  obtain ⟨c1, c2, c3⟩ := corr_spec S R (fun l => a l + b l) ht
  unfold addV
  rw [S.vadd _ _ (fun l : Fin E.vs => R.abs (ht l).1 (ht l).2)]
  simp only [Option.bind_eq_bind, Option.bind_some, c1, c2, c3]
  cases positive with
  | true =>
    have := hpos rfl
    simp only [Bool.not_true, Bool.false_eq_true, if_false]
    rw [S.vadd _ _ (fun l => by have := ha l; have := hb l; apply R.abs <;> split_ifs <;> omega)]
    congr 1; funext l; congr 1
    have := ha l; have := hb l
    rw [canon_sum R.hmm R.hmin R.hmax (by omega) (by omega)]
    split_ifs <;> omega
  | false =>
    simp only [Bool.not_false, if_true]
    rw [S.vadd _ _ (fun l => by have := ha l; have := hb l; apply R.abs <;> split_ifs <;> omega)]
    congr 1; funext l; congr 1
    have := ha l; have := hb l
    rw [canon_sum R.hmm R.hmin R.hmax (by omega) (by omega)]
    split_ifs <;> omega

lemma subV_spec (S : Sound E ofZ p mn mx In) (R : Rng p mn mx In) (positive : Bool) (hpos : positive = true → mn = 0)
    {a b : Fin E.vs → ℤ} (ha : ∀ l, mn ≤ a l ∧ a l ≤ mx) (hb : ∀ l, mn ≤ b l ∧ b l ≤ mx) :
    subV E positive (fun l => ofZ (a l)) (fun l => ofZ (b l)) = some fun l => ofZ (canon p mn (a l - b l)) := by
  have := R.hmm; have := R.hmin; have := R.hmax; have := R.hp
  have ht : ∀ l, -(2 * (p : ℤ)) ≤ a l - b l ∧ a l - b l ≤ 2 * p := fun l => by
    have := ha l; have := hb l; constructor <;> omega
  obtain ⟨c1, c2, c3⟩ := corr_spec S R (fun l => a l - b l) ht
  unfold subV
  rw [S.vsub _ _ (fun l : Fin E.vs => R.abs (ht l).1 (ht l).2)]
  simp only [Option.bind_eq_bind, Option.bind_some, c1, c2, c3]
  cases positive with
  | true =>
    have := hpos rfl
    simp only [Bool.not_true, Bool.false_eq_true, if_false]
    rw [S.vadd _ _ (fun l => by have := ha l; have := hb l; apply R.abs <;> split_ifs <;> omega)]
    congr 1; funext l; congr 1
    have := ha l; have := hb l
    rw [canon_diff R.hmm (by omega) (by omega) R.hmin R.hmax]
    split_ifs <;> omega
  | false =>
    simp only [Bool.not_false, if_true]
    rw [S.vadd _ _ (fun l => by have := ha l; have := hb l; apply R.abs <;> split_ifs <;> omega)]
    congr 1; funext l; congr 1
    have := ha l; have := hb l
    rw [canon_diff R.hmm (by omega) (by omega) R.hmin R.hmax]
    split_ifs <;> omega

lemma addsubp_spec (S : Sound E ofZ p mn mx In) (R : Rng p mn mx In) (ADD positive : Bool) (hpos : positive = true → mn = 0)
    {A B C : ℕ} (a b : ℕ → ℤ)
    (ha : ∀ i < n, m.val (A + i) = ofZ (a i) ∧ mn ≤ a i ∧ a i ≤ mx)
    (hb : ∀ i < n, m.val (B + i) = ofZ (b i) ∧ mn ≤ b i ∧ b i ≤ mx)
    (hA : OkIn m (vw A 1 n)) (hB : OkIn m (vw B 1 n)) (hC : OkIn m (vw C 1 n))
    (hsA : (vw A 1 n).Safe (vw C 1 n)) (hsB : (vw B 1 n).Safe (vw C 1 n)) :
    Run (addsubp E ADD positive C A B n) m
      (fun _ m' => Step m m' (vw C 1 n) (fun i _ => ofZ (canon p mn (if ADD then a i + b i else a i - b i)))) := by
  refine drive_spec E S.sz S.vs _ (fun t ht _ m' h => ?_) ?_
  · obtain ⟨e1, e2⟩ := h.rd hA hsA le_rfl ht
    obtain ⟨e3, e4⟩ := h.rd hB hsB le_rfl ht
    have e5 : (if ADD = true then addS E positive (ofZ (a t)) (ofZ (b t)) else subS E positive (ofZ (a t)) (ofZ (b t)))
        = some (ofZ (canon p mn (if ADD then a t + b t else a t - b t))) := by
      split_ifs
      · exact addS_spec S R positive hpos (ha t ht).2 (hb t ht).2
      · exact subS_spec S R positive hpos (ha t ht).2 (hb t ht).2
    simp only [Run_bind, Run_load, e1, e2, e3, e4, true_and, (ha t ht).1, (hb t ht).1, e5, Run_opt_some, Run_store,
      h.ok hC ht]
    exact h.set
  · rintro t ht hd ⟨hal1, hal2⟩ ⟨k, rfl⟩ hin m' h
    rw [aligned_iff E S.sz] at hal1 hal2
    simp only [Run_bind]
    set t := prologue E C + k * E.vs
    refine Run_loada ((aligned_iff E S.sz _).2 (dvd_add_of hal1))
      (fun l => by rw [Nat.add_assoc]; exact (h.rd hA hsA (by omega) (by omega)).1) ?_
    refine Run_loada ((aligned_iff E S.sz _).2 (dvd_add_of hal2))
      (fun l => by rw [Nat.add_assoc]; exact (h.rd hB hsB (by omega) (by omega)).1) ?_
    have e1 : (fun l : Fin E.vs => m'.val (A + t + l)) = fun l : Fin E.vs => ofZ (a (t + l)) := by
      funext l
      rw [Nat.add_assoc, (h.rd hA hsA (s := t + l) (by omega) (by omega)).2, (ha _ (by omega)).1]
    have e2 : (fun l : Fin E.vs => m'.val (B + t + l)) = fun l : Fin E.vs => ofZ (b (t + l)) := by
      funext l
      rw [Nat.add_assoc, (h.rd hB hsB (s := t + l) (by omega) (by omega)).2, (hb _ (by omega)).1]
    rw [e1, e2]
    have e5 : (if ADD = true then addV E positive (fun l : Fin E.vs => ofZ (a (t + l))) (fun l : Fin E.vs => ofZ (b (t + l)))
        else subV E positive (fun l : Fin E.vs => ofZ (a (t + l))) (fun l : Fin E.vs => ofZ (b (t + l))))
        = some fun l : Fin E.vs => ofZ (canon p mn (if ADD then a (t + l) + b (t + l) else a (t + l) - b (t + l))) := by
      split_ifs
      · exact addV_spec S R positive hpos (fun l => (ha _ (by omega)).2) (fun l => (hb _ (by omega)).2)
      · exact subV_spec S R positive hpos (fun l => (ha _ (by omega)).2) (fun l => (hb _ (by omega)).2)
    rw [e5, Run_opt_some]
    exact Run_storea ((aligned_iff E S.sz _).2 hd) (fun l => by rw [Nat.add_assoc]; exact h.ok hC (by omega)) h.setv

end Verif.SimdVec
