import Verif.Model.SyrkStrassen
import Verif.Proofs.Fsyr2k

/-!
# Kernels of the Strassen-like rank-k update, on one matrix
-/

namespace Verif.FF

open Finset Verif.Spec

variable {K : Type} [Field K] [DecidableEq K]
variable {m0 m m' : Mem K} {W S : Win} {V f : ℕ → ℕ → K} {n : ℕ}

section
omit [Field K] [DecidableEq K]

lemma okRow (h : OkIn m W) {i j n : ℕ} (hi : i < W.r) (hj : j + n ≤ W.c) : OkIn m (vw (W.adr i j) 1 n) := by
  intro a ha
  obtain ⟨t, ht, rfl⟩ := vw_row_Has.1 ha
  exact h.adr hi (by omega)

lemma okCol (h : OkIn m W) {i j n : ℕ} (hi : i + n ≤ W.r) (hj : j < W.c) : OkIn m (vw (W.adr i j) W.ld n) := by
  intro a ha
  obtain ⟨t, ht, rfl⟩ := vw_col_Has.1 ha
  exact h.adr (by omega) hj

lemma disjRow (hd : S.Disj W) {a b i j n n' : ℕ} (ha : a < S.r) (hb : b + n ≤ S.c) (hi : i < W.r) (hj : j + n' ≤ W.c) :
    (vw (S.adr a b) 1 n).Disj (vw (W.adr i j) 1 n') := by
  intro x hx hy
  obtain ⟨t, ht, rfl⟩ := vw_row_Has.1 hx
  obtain ⟨t', ht', e⟩ := vw_row_Has.1 hy
  exact hd _ (Win.Has_adr ha (by omega)) (e ▸ Win.Has_adr hi (by omega))

lemma disjRowCol (hd : S.Disj W) {a b i j n n' : ℕ} (ha : a < S.r) (hb : b + n ≤ S.c) (hi : i + n' ≤ W.r) (hj : j < W.c) :
    (vw (S.adr a b) 1 n).Disj (vw (W.adr i j) W.ld n') := by
  intro x hx hy
  obtain ⟨t, ht, rfl⟩ := vw_row_Has.1 hx
  obtain ⟨t', ht', e⟩ := vw_col_Has.1 hy
  exact hd _ (Win.Has_adr ha (by omega)) (e ▸ Win.Has_adr (by omega) hj)

lemma upd_row {i j n a b : ℕ} {g V : ℕ → ℕ → K} : upd i j 1 n g V a b = if a = i ∧ j ≤ b ∧ b < j + n then g 0 (b - j) else V a b := by
  unfold upd
  by_cases c : a = i ∧ j ≤ b ∧ b < j + n
  · rw [if_pos c, if_pos (by omega), show a - i = 0 by omega]
  · rw [if_neg c, if_neg (by omega)]

lemma upd_col {i j n a b : ℕ} {g V : ℕ → ℕ → K} : upd i j n 1 g V a b = if b = j ∧ i ≤ a ∧ a < i + n then g (a - i) 0 else V a b := by
  unfold upd
  by_cases c : b = j ∧ i ≤ a ∧ a < i + n
  · rw [if_pos c, if_pos (by omega), show b - j = 0 by omega]
  · rw [if_neg c, if_neg (by omega)]

end

/-- a vector kernel from a row of a source to a row of the matrix -/
lemma KerIn.row_on {φ : K → K → K} {op : ℕ → ℕ → ℕ → Prog K Unit} (hk : KerIn φ op) (h : On m0 m W V) (hS : Src m S f)
    (hd : S.Disj W) {a b i j n X Y : ℕ} (ha : a < S.r) (hb : b + n ≤ S.c) (hi : i < W.r) (hj : j + n ≤ W.c) (hX : X = S.adr a b)
    (hY : Y = W.adr i j) :
    Run (op n X Y) m (fun _ m' => On m0 m' W (upd i j 1 n (fun _ t => φ (f a (b + t)) (V i (j + t))) V)) := by
  subst hX hY
  refine (hk m n _ _ h.wf' (okRow hS.ok ha hb) (okRow h.ok' hi hj) ((disjRow hd ha hb hi hj).safe rfl rfl)).mono (fun _ m' s => ?_)
  refine h.rowStep hi hj (s.congr (fun t ht _ _ => ?_))
  have ht : t < n := ht
  rw [Win.adr_add_col, Win.adr_add_col, hS.val a ha _ (by omega), h.val hi (by omega)]

lemma kin_assign : KerIn (fun x _ => x) (fun n A C => vassign n A 1 C 1 : ℕ → ℕ → ℕ → Prog K Unit) :=
  fun m n A C _ hA hC hs => by simpa only [Nat.mul_one] using vassign_spec hA hC hs Nat.one_pos

lemma ker_scalc (cat : Cat) (a : K) : KerIn (fun x _ => a * x) (fun n A C => vscal cat n a A 1 C 1) :=
  fun m n A C hm hA hC hs => by simpa only [Nat.mul_one] using vscal_spec cat a hm hA hC hs Nat.one_pos Nat.one_pos

lemma faddinTri_on (cat : Cat) (u : Uplo) {B ldb C ldc : ℕ} (h : On m0 m ⟨C, ldc, n, n⟩ V) (hS : Src m ⟨B, ldb, n, n⟩ f)
    (hd : (Win.mk B ldb n n).Disj ⟨C, ldc, n, n⟩) :
    Run (faddinTri cat u n B ldb C ldc) m (fun _ m' => On m0 m' ⟨C, ldc, n, n⟩ (halfUpd u (fun i j => f i j + V i j) V)) := by
  have key : ∀ (beg len : ℕ → ℕ), (∀ i < n, beg i + len i ≤ n) → (∀ i < n, ∀ j < n, inHalf u i j ↔ beg i ≤ j ∧ j < beg i + len i) →
      Run (loop n fun i => vaddin cat (len i) ((Win.mk B ldb n n).adr i (beg i)) 1 ((Win.mk C ldc n n).adr i (beg i)) 1) m
        (fun _ m' => On m0 m' ⟨C, ldc, n, n⟩ (halfUpd u (fun i j => f i j + V i j) V)) := by
    intro beg len h1 h2
    refine (Run_loop (fun i m' => On m0 m' ⟨C, ldc, n, n⟩ (fun a b => if a < i ∧ inHalf u a b then f a b + V a b else V a b) ∧
      Src m' ⟨B, ldb, n, n⟩ f) ?_ ?_).mono (fun _ m' h' => h'.1.congr (fun a ha b hb => ?_))
    · exact ⟨h.congr (fun i _ j _ => by rw [if_neg (by omega)]), hS⟩
    · intro i m1 hi hh
      obtain ⟨g1, g2⟩ := hh
      have l1 := h1 i hi
      refine ((ker_addin cat).row_on g1.here g2 hd (a := i) (b := beg i) (i := i) (j := beg i) (n := len i) hi l1 hi l1 rfl rfl).mono
        (fun _ m2 g3 => ⟨(g1.trans g3).congr (fun a ha b hb => ?_), g2.on g3 hd⟩)
      have hb : b < n := hb
      rw [upd_row]
      have l2 := h2 i hi b hb
      by_cases c : a = i
      · subst c
        by_cases c' : inHalf u a b
        · have := l2.1 c'
          rw [if_pos ⟨rfl, this⟩, show beg a + (b - beg a) = b by omega, if_neg (by omega), if_pos ⟨by omega, c'⟩]
        · rw [if_neg (fun q => c' (l2.2 q.2)), if_neg (fun q => c' q.2), if_neg (fun q => c' q.2)]
      · rw [if_neg (fun q => c q.1)]
        by_cases c' : a < i ∧ inHalf u a b
        · rw [if_pos c', if_pos ⟨by omega, c'.2⟩]
        · rw [if_neg c', if_neg (fun q => c' ⟨by omega, q.2⟩)]
    · have ha : a < n := ha
      unfold halfUpd
      by_cases c : inHalf u a b
      · rw [if_pos ⟨ha, c⟩, if_pos c]
      · rw [if_neg (fun q => c q.2), if_neg c]
  unfold faddinTri
  cases u with
  | upper =>
    have := key (fun i => i) (fun i => n - i) (fun i hi => by omega) (fun i hi j hj => by simp only [inHalf]; omega)
    simp only [Win.adr_mk] at this
    simpa only [Nat.mul_add, Nat.mul_one, Nat.add_assoc] using this
  | lower =>
    have := key (fun i => 0) (fun i => i + 1) (fun i hi => by omega) (fun i hi j hj => by simp only [inHalf]; omega)
    simpa only [Win.adr_mk, Nat.add_zero] using this

/-- the matrix plus the transpose of a source -/
lemma addT_on (cat : Cat) {B ldb C ldc : ℕ} (h : On m0 m ⟨C, ldc, n, n⟩ V) (hS : Src m ⟨B, ldb, n, n⟩ f)
    (hd : (Win.mk B ldb n n).Disj ⟨C, ldc, n, n⟩) :
    Run (loop n fun i => vaddin cat n (B + i * ldb) 1 (C + i) ldc) m
      (fun _ m' => On m0 m' ⟨C, ldc, n, n⟩ (fun i j => f j i + V i j)) := by
  have hld : n ≤ ldc := h.ld
  refine (Run_loop (fun i m' => On m0 m' ⟨C, ldc, n, n⟩ (fun a b => if b < i then f b a + V a b else V a b) ∧
      Src m' ⟨B, ldb, n, n⟩ f) ?_ ?_).mono (fun _ m' h' => h'.1.congr (fun a ha b hb => if_pos hb))
  · exact ⟨h.congr (fun i _ j _ => by rw [if_neg (by omega)]), hS⟩
  · intro i m1 hi hh
    obtain ⟨g1, g2⟩ := hh
    have eX : B + i * ldb = (Win.mk B ldb n n).adr i 0 := rfl
    have eY : C + i = (Win.mk C ldc n n).adr 0 i := by simp [Win.adr]
    rw [eX, eY]
    refine (vaddin_spec cat (okRow g2.ok hi (by simp)) (okCol g1.ok' (i := 0) (n := n) (by simp) hi)
      ((disjRowCol hd hi (by simp) (by simp) hi).safe rfl rfl) (by simp only; omega)).mono (fun _ m2 s => ?_)
    have g3 := g1.here.colStep (W := ⟨C, ldc, n, n⟩) (i := 0) (j := i) (n := n) (g := fun t => f i t + V t i) (by simp) hi (s.congr (fun t ht _ _ => by
      have ht : t < n := ht
      rw [Nat.mul_one, Win.adr_add_col, g2.val i hi _ (by simpa using ht),
        show (Win.mk C ldc n n).adr 0 i + t * ldc = (Win.mk C ldc n n).adr t i by simp only [Win.adr]; ring, g1.val ht hi, Nat.zero_add, if_neg (by omega)]))
    refine ⟨(g1.trans g3).congr (fun a ha b hb => ?_), g2.on g3 hd⟩
    have ha : a < n := ha
    rw [upd_col]
    by_cases c : b = i
    · subst c
      rw [if_pos ⟨rfl, by omega, by omega⟩, if_pos (by omega), Nat.sub_zero]
    · rw [if_neg (fun q => c q.1)]
      by_cases c' : b < i
      · rw [if_pos c', if_pos (by omega)]
      · rw [if_neg c', if_neg (by omega)]

/-- a vector copied into the vector in symmetric position -/
lemma mirror_on (u : Uplo) {C ldc : ℕ} (h : On m0 m ⟨C, ldc, n, n⟩ V) :
    Run (mirror u n C ldc) m (fun _ m' => On m0 m' ⟨C, ldc, n, n⟩ (fun i j => if inHalf u i j then V i j else V j i)) := by
  have hld : n ≤ ldc := h.ld
  have ax : ∀ i t, (Win.mk C ldc n n).adr i 0 + t * 1 = (Win.mk C ldc n n).adr i t := fun i t => by simp only [Win.adr]; ring
  have ay : ∀ i t, (Win.mk C ldc n n).adr 0 i + t * ldc = (Win.mk C ldc n n).adr t i := fun i t => by simp only [Win.adr]; ring
  have e1 : ∀ i, C + i * ldc = (Win.mk C ldc n n).adr i 0 := fun i => rfl
  have e2 : ∀ i, C + i = (Win.mk C ldc n n).adr 0 i := fun i => by simp [Win.adr]
  unfold mirror
  cases u with
  | lower =>
    refine (Run_loop (fun i m' => On m0 m' ⟨C, ldc, n, n⟩ (fun a b => if b < i ∧ a < b then V b a else V a b)) ?_ ?_).mono
      (fun _ m' h' => h'.congr (fun a ha b hb => ?_))
    · exact h.congr (fun i _ j _ => by rw [if_neg (by omega)])
    · intro i m1 hi g1
      simp only [e1, e2]
      refine (vassign_spec (okRow g1.ok' hi (show 0 + i ≤ n by omega)) (okCol g1.ok' (W := ⟨C, ldc, n, n⟩) (i := 0) (n := i) (by simp only; omega) hi) ?_
        (show 0 < ldc by omega)).mono (fun _ m2 s => ?_)
      · intro t ht z hz t' ht' z' hz' e
        have hz : z = 0 := by simpa [vw] using hz
        have hz' : z' = 0 := by simpa [vw] using hz'
        subst hz hz'
        have ht : t < i := ht
        have ht' : t' < i := ht'
        have e : (Win.mk C ldc n n).adr i 0 + t * 1 = (Win.mk C ldc n n).adr 0 i + t' * ldc := e
        rw [ax, ay] at e
        have := g1.inj i hi t (show t < n by omega) t' (show t' < n by omega) i hi e
        omega
      · refine (g1.colStep (W := ⟨C, ldc, n, n⟩) (i := 0) (j := i) (n := i) (g := fun t => V i t) (by simp only; omega) hi (s.congr (fun t ht _ _ => by
          have ht : t < i := ht
          rw [ax, g1.val (W := ⟨C, ldc, n, n⟩) hi (show t < n by omega), if_neg (by omega)]))).congr (fun a ha b hb => ?_)
        rw [upd_col]
        by_cases c : b = i ∧ a < b
        · obtain ⟨rfl, c⟩ := c
          rw [if_pos (by omega), if_pos (by omega), Nat.sub_zero]
        · rw [if_neg (by omega)]
          by_cases c' : b < i ∧ a < b
          · rw [if_pos c', if_pos (by omega)]
          · rw [if_neg c', if_neg (by omega)]
    · have hb : b < n := hb
      show _ = if b ≤ a then _ else _
      by_cases c : b ≤ a
      · rw [if_neg (by omega), if_pos c]
      · rw [if_pos (by omega), if_neg c]
  | upper =>
    refine (Run_loop (fun i m' => On m0 m' ⟨C, ldc, n, n⟩ (fun a b => if a < i ∧ b < a then V b a else V a b)) ?_ ?_).mono
      (fun _ m' h' => h'.congr (fun a ha b hb => ?_))
    · exact h.congr (fun i _ j _ => by rw [if_neg (by omega)])
    · intro i m1 hi g1
      simp only [e1, e2]
      refine (vassign_spec (okCol g1.ok' (W := ⟨C, ldc, n, n⟩) (i := 0) (n := i) (by simp only; omega) hi) (okRow g1.ok' hi (show 0 + i ≤ n by omega)) ?_
        Nat.one_pos).mono (fun _ m2 s => ?_)
      · intro t ht z hz t' ht' z' hz' e
        have hz : z = 0 := by simpa [vw] using hz
        have hz' : z' = 0 := by simpa [vw] using hz'
        subst hz hz'
        have ht : t < i := ht
        have ht' : t' < i := ht'
        have e : (Win.mk C ldc n n).adr 0 i + t * ldc = (Win.mk C ldc n n).adr i 0 + t' * 1 := e
        rw [ax, ay] at e
        have := g1.inj t (show t < n by omega) i hi i hi t' (show t' < n by omega) e
        omega
      · refine (g1.rowStep (W := ⟨C, ldc, n, n⟩) (i := i) (j := 0) (n := i) (g := fun t => V t i) hi (by simp only; omega) (s.congr (fun t ht _ _ => by
          have ht : t < i := ht
          rw [ay, g1.val (W := ⟨C, ldc, n, n⟩) (show t < n by omega) hi, if_neg (by omega)]))).congr (fun a ha b hb => ?_)
        rw [upd_row]
        by_cases c : a = i ∧ b < a
        · obtain ⟨rfl, c⟩ := c
          rw [if_pos (by omega), if_pos (by omega), Nat.sub_zero]
        · rw [if_neg (by omega)]
          by_cases c' : a < i ∧ b < a
          · rw [if_pos c', if_pos (by omega)]
          · rw [if_neg c', if_neg (by omega)]
    · have ha : a < n := ha
      show _ = if a ≤ b then _ else _
      by_cases c : a ≤ b
      · rw [if_neg (by omega), if_pos c]
      · rw [if_pos (by omega), if_neg c]

/-! ### Saving and restoring a triangle -/

/-- where the entries of the triangle are saved -/
def savedV (u : Uplo) (n : ℕ) (f : ℕ → ℕ → K) (a b : ℕ) : K := match u with
  | .lower => f (n - 1 - a) (b - a - 1)
  | .upper => f (n - 1 - a) (n - a + b)

lemma saveTri_on (u : Uplo) {B C ldc : ℕ} (h : On m0 m ⟨C, ldc, n, n⟩ V) (hS : Src m ⟨B, ldc, n, n⟩ f)
    (hd : (Win.mk B ldc n n).Disj ⟨C, ldc, n, n⟩) :
    Run (saveTri u n B C ldc) m (fun _ m' => On m0 m' ⟨C, ldc, n, n⟩ (fun a b => if inHalf u a b then V a b else savedV u n f a b)) := by
  unfold saveTri
  cases u with
  | lower =>
    refine (Run_loop (fun i m' => On m0 m' ⟨C, ldc, n, n⟩ (fun a b => if a < i ∧ a < b then f (n - 1 - a) (b - a - 1) else V a b) ∧
      Src m' ⟨B, ldc, n, n⟩ f) ?_ ?_).mono (fun _ m' h' => h'.1.congr (fun a ha b hb => ?_))
    · exact ⟨h.congr (fun i _ j _ => by rw [if_neg (by omega)]), hS⟩
    · intro i m1 hi hh
      obtain ⟨g1, g2⟩ := hh
      refine (kin_assign.row_on g1.here g2 hd (a := n - (i + 1)) (b := 0) (i := i) (j := i + 1) (n := n - (i + 1)) (by simp only; omega)
        (by simp only; omega) (by simp only; omega) (by simp only; omega) (by simp [Win.adr]) (by simp only [Win.adr]; ring)).mono
        (fun _ m2 g3 => ⟨(g1.trans g3).congr (fun a ha b hb => ?_), g2.on g3 hd⟩)
      have ha : a < n := ha
      have hb : b < n := hb
      rw [upd_row]
      by_cases c : a = i ∧ a < b
      · obtain ⟨rfl, c⟩ := c
        rw [if_pos (by omega), if_pos (by omega)]
        congr 1 <;> omega
      · rw [if_neg (by omega)]
        by_cases c' : a < i ∧ a < b
        · rw [if_pos c', if_pos (by omega)]
        · rw [if_neg c', if_neg (by omega)]
    · have ha : a < n := ha
      have hb : b < n := hb
      show _ = if b ≤ a then _ else _
      by_cases c : b ≤ a
      · rw [if_neg (by omega), if_pos c]
      · rw [if_pos (by omega), if_neg c]; rfl
  | upper =>
    refine (Run_loop (fun i m' => On m0 m' ⟨C, ldc, n, n⟩ (fun a b => if n - i ≤ a ∧ b < a then f (n - 1 - a) (n - a + b) else V a b) ∧
      Src m' ⟨B, ldc, n, n⟩ f) ?_ ?_).mono (fun _ m' h' => h'.1.congr (fun a ha b hb => ?_))
    · exact ⟨h.congr (fun i hi j _ => by rw [if_neg (by simp only at hi; omega)]), hS⟩
    · intro i m1 hi hh
      obtain ⟨g1, g2⟩ := hh
      refine (kin_assign.row_on g1.here g2 hd (a := i) (b := i + 1) (i := n - (i + 1)) (j := 0) (n := n - (i + 1)) (by simp only; omega)
        (by simp only; omega) (by simp only; omega) (by simp only; omega) (by simp only [Win.adr]; ring) (by simp [Win.adr])).mono
        (fun _ m2 g3 => ⟨(g1.trans g3).congr (fun a ha b hb => ?_), g2.on g3 hd⟩)
      have ha : a < n := ha
      have hb : b < n := hb
      rw [upd_row]
      by_cases c : a = n - (i + 1) ∧ b < a
      · rw [if_pos (by omega), if_pos (by omega)]
        congr 1 <;> omega
      · rw [if_neg (by omega)]
        by_cases c' : n - i ≤ a ∧ b < a
        · rw [if_pos c', if_pos (by omega)]
        · rw [if_neg c', if_neg (by omega)]
    · have ha : a < n := ha
      have hb : b < n := hb
      show _ = if a ≤ b then _ else _
      by_cases c : a ≤ b
      · rw [if_neg (by omega), if_pos c]
      · rw [if_pos (by omega), if_neg c]; rfl

lemma saveDiag_on {B ldc D : ℕ} (h : On m0 m ⟨D, n, 1, n⟩ V) (hS : Src m ⟨B, ldc, n, n⟩ f) (hd : (Win.mk B ldc n n).Disj ⟨D, n, 1, n⟩) :
    Run (saveDiag n B ldc D) m (fun _ m' => On m0 m' ⟨D, n, 1, n⟩ (fun _ j => f j j)) := by
  unfold saveDiag
  refine (Run_loop (fun i m' => On m0 m' ⟨D, n, 1, n⟩ (fun a b => if b < i then f b b else V a b) ∧ Src m' ⟨B, ldc, n, n⟩ f) ?_ ?_).mono
    (fun _ m' h' => h'.1.congr (fun a ha b hb => if_pos hb))
  · exact ⟨h.congr (fun i _ j _ => by rw [if_neg (by omega)]), hS⟩
  · intro i m1 hi hh
    obtain ⟨g1, g2⟩ := hh
    have eB : B + i * (ldc + 1) = (Win.mk B ldc n n).adr i i := by simp only [Win.adr]; ring
    have eD : D + i = (Win.mk D n 1 n).adr 0 i := by simp [Win.adr]
    rw [Run_bind, Run_load, Run_store, eB, eD]
    refine ⟨g2.ok.adr hi hi, g1.okc Nat.one_pos hi, ?_⟩
    rw [g2.val i hi i hi]
    have g3 := g1.here.set (W := ⟨D, n, 1, n⟩) (x := f i i) Nat.one_pos hi
    refine ⟨(g1.trans g3).congr (fun a ha b hb => ?_), g2.on g3 hd⟩
    have ha : a < 1 := ha
    rw [upd_row]
    by_cases c : b = i
    · subst c; rw [if_pos (by omega), if_pos (by omega)]
    · rw [if_neg (by omega)]
      by_cases c' : b < i
      · rw [if_pos c', if_pos (by omega)]
      · rw [if_neg c', if_neg (by omega)]

/-- the saved triangle is added -/
lemma restoreTri_on (cat : Cat) (u : Uplo) {B C D ldc : ℕ} {g d : ℕ → ℕ → K} (beta : K) (hn : 0 < n) (h : On m0 m ⟨C, ldc, n, n⟩ V)
    (hS : Src m ⟨B, ldc, n, n⟩ g) (hD : Src m ⟨D, n, 1, n⟩ d) (hd : (Win.mk B ldc n n).Disj ⟨C, ldc, n, n⟩)
    (hdD : (Win.mk D n 1 n).Disj ⟨C, ldc, n, n⟩)
    (hg : ∀ a < n, ∀ b < n, ¬ inHalf u a b → g a b = savedV u n f a b) (hdf : ∀ i < n, d 0 i = f i i) :
    Run (restoreTri cat u n beta C B ldc D) m (fun _ m' => On m0 m' ⟨C, ldc, n, n⟩ (halfUpd u (fun i j => V i j + beta * f i j) V)) := by
  have dia : ∀ {m1 : Mem K} {U : ℕ → ℕ → K} {i : ℕ}, i < n → On m0 m1 ⟨C, ldc, n, n⟩ U → Src m1 ⟨B, ldc, n, n⟩ g → Src m1 ⟨D, n, 1, n⟩ d →
      Run (axpyDiag beta C ldc D i) m1 (fun _ m' => On m0 m' ⟨C, ldc, n, n⟩ (upd i i 1 1 (fun _ _ => U i i + beta * f i i) U) ∧
        Src m' ⟨B, ldc, n, n⟩ g ∧ Src m' ⟨D, n, 1, n⟩ d) := by
    intro m1 U i hi g1 g2 g3
    have eC : C + i * (ldc + 1) = (Win.mk C ldc n n).adr i i := by simp only [Win.adr]; ring
    have eD : D + i = (Win.mk D n 1 n).adr 0 i := by simp [Win.adr]
    unfold axpyDiag
    rw [Run_bind, Run_load, Run_bind, Run_load, Run_store, eC, eD]
    refine ⟨g1.okc hi hi, g3.ok.adr Nat.one_pos hi, g1.okc hi hi, ?_⟩
    rw [g1.val (W := ⟨C, ldc, n, n⟩) hi hi, g3.val 0 Nat.one_pos i hi, hdf i hi]
    have g4 := g1.here.set (W := ⟨C, ldc, n, n⟩) (x := U i i + beta * f i i) hi hi
    exact ⟨g1.trans g4, g2.on g4 hd, g3.on g4 hdD⟩
  unfold restoreTri
  rw [Run_bind]
  cases u with
  | lower =>
    refine (Run_loop (fun i m' => On m0 m' ⟨C, ldc, n, n⟩ (fun a b => if (n - i ≤ a ∧ b < a) ∨ (a = b ∧ a < i) then V a b + beta * f a b else V a b) ∧
      Src m' ⟨B, ldc, n, n⟩ g ∧ Src m' ⟨D, n, 1, n⟩ d) ?_ ?_).mono ?_
    · exact ⟨h.congr (fun a ha b _ => by rw [if_neg (by simp only at ha; omega)]), hS, hD⟩
    · rintro i m1 hi ⟨g1, g2, g3⟩
      rw [Run_bind]
      refine ((ker_axpy cat beta).row_on g1.here g2 hd (a := i) (b := i + 1) (i := n - (i + 1)) (j := 0) (n := n - (i + 1)) (by simp only; omega)
        (by simp only; omega) (by simp only; omega) (by simp only; omega) (by simp only [Win.adr]; ring) (by simp [Win.adr])).mono
        (fun _ m2 g4 => (dia (by omega) (g1.trans g4) (g2.on g4 hd) (g3.on g4 hdD)).mono ?_)
      rintro _ m3 ⟨h1, h2, h3⟩
      refine ⟨h1.congr (fun a ha b hb => ?_), h2, h3⟩
      have ha : a < n := ha
      have hb : b < n := hb
      simp only [upd_row]
      by_cases c : a = b
      · subst c
        by_cases c1 : a = i
        · subst c1
          rw [if_pos (by omega), if_neg (by omega), if_neg (by simp), if_pos (by omega)]
        · rw [if_neg (by omega), if_neg (by omega)]
          by_cases c2 : a < i
          · rw [if_pos (by omega), if_pos (by omega)]
          · rw [if_neg (by omega), if_neg (by omega)]
      · rw [if_neg (by omega)]
        by_cases c1 : a = n - (i + 1) ∧ b < a
        · rw [if_pos (by omega), Nat.sub_zero, Nat.zero_add, ← c1.1, if_neg (by omega), if_pos (by omega),
            hg i (by omega) _ (by omega) (by simp only [inHalf]; omega)]
          simp only [savedV]
          rw [show n - 1 - i = a by omega, show i + 1 + b - i - 1 = b by omega, add_comm]
        · rw [if_neg (by omega)]
          by_cases c2 : n - i ≤ a ∧ b < a
          · rw [if_pos (by omega), if_pos (by omega)]
          · rw [if_neg (by omega), if_neg (by omega)]
    · rintro _ m1 ⟨g1, g2, g3⟩
      rw [if_neg (by omega)]
      refine (dia (by omega) g1 g2 g3).mono ?_
      rintro _ m2 ⟨h1, -, -⟩
      refine h1.congr (fun a ha b hb => ?_)
      have ha : a < n := ha
      have hb : b < n := hb
      show _ = if b ≤ a then _ else _
      simp only [upd_row]
      by_cases c : a = n - 1 ∧ b = n - 1
      · obtain ⟨rfl, rfl⟩ := c
        rw [if_pos (by omega), if_neg (by omega), if_pos (by omega)]
      · rw [if_neg (by omega)]
        by_cases c1 : b ≤ a
        · rw [if_pos (by omega), if_pos c1]
        · rw [if_neg (by omega), if_neg c1]
  | upper =>
    refine (Run_loop (fun i m' => On m0 m' ⟨C, ldc, n, n⟩ (fun a b => if a < i ∧ a ≤ b then V a b + beta * f a b else V a b) ∧
      Src m' ⟨B, ldc, n, n⟩ g ∧ Src m' ⟨D, n, 1, n⟩ d) ?_ ?_).mono ?_
    · exact ⟨h.congr (fun a ha b _ => by rw [if_neg (by omega)]), hS, hD⟩
    · rintro i m1 hi ⟨g1, g2, g3⟩
      rw [Run_bind]
      refine ((ker_axpy cat beta).row_on g1.here g2 hd (a := n - (i + 1)) (b := 0) (i := i) (j := i + 1) (n := n - (i + 1)) (by simp only; omega)
        (by simp only; omega) (by simp only; omega) (by simp only; omega) (by simp [Win.adr]) (by simp only [Win.adr]; ring)).mono
        (fun _ m2 g4 => (dia (by omega) (g1.trans g4) (g2.on g4 hd) (g3.on g4 hdD)).mono ?_)
      rintro _ m3 ⟨h1, h2, h3⟩
      refine ⟨h1.congr (fun a ha b hb => ?_), h2, h3⟩
      have ha : a < n := ha
      have hb : b < n := hb
      simp only [upd_row]
      by_cases c : a = i ∧ b = i
      · obtain ⟨rfl, rfl⟩ := c
        rw [if_pos (by omega), if_neg (by omega), if_neg (by omega), if_pos (by omega)]
      · rw [if_neg (by omega)]
        by_cases c1 : a = i ∧ i < b
        · obtain ⟨rfl, c1⟩ := c1
          rw [if_pos (by omega), show a + 1 + (b - (a + 1)) = b by omega, if_neg (by omega), if_pos (by omega),
            hg _ (by omega) _ (by omega) (by simp only [inHalf]; omega)]
          simp only [savedV]
          rw [show n - 1 - (n - (a + 1)) = a by omega, show n - (n - (a + 1)) + (0 + (b - (a + 1))) = b by omega, add_comm]
        · rw [if_neg (by omega)]
          by_cases c2 : a < i ∧ a ≤ b
          · rw [if_pos (by omega), if_pos (by omega)]
          · rw [if_neg (by omega), if_neg (by omega)]
    · rintro _ m1 ⟨g1, g2, g3⟩
      rw [if_neg (by omega)]
      refine (dia (by omega) g1 g2 g3).mono ?_
      rintro _ m2 ⟨h1, -, -⟩
      refine h1.congr (fun a ha b hb => ?_)
      have ha : a < n := ha
      have hb : b < n := hb
      show _ = if a ≤ b then _ else _
      simp only [upd_row]
      by_cases c : a = n - 1 ∧ b = n - 1
      · obtain ⟨rfl, rfl⟩ := c
        rw [if_pos (by omega), if_neg (by omega), if_pos (by omega)]
      · rw [if_neg (by omega)]
        by_cases c1 : a ≤ b
        · rw [if_pos (by omega), if_pos c1]
        · rw [if_neg (by omega), if_neg c1]

end Verif.FF
