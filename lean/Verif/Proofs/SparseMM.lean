import Verif.Model.SparseMM
import Verif.Spec.SparseMM
import Verif.Proofs.Sparse

/-! # Proofs about the product of a sparse matrix and a block of vectors -/

namespace Verif.Sparse
open Verif Verif.Lazy Finset

variable {K : Type}

/-- The first `n` cells from `b` on hold `g`, everything else is as in `y`. -/
def Pre (b : ℕ) (g : ℕ → K) (y : Arr K) (n : ℕ) (z : Arr K) : Prop :=
  z.len = y.len ∧ (∀ k < n, z.get (b + k) = g k) ∧ ∀ p, (p < b ∨ b + n ≤ p) → z.get p = y.get p

lemma Pre.zero (b : ℕ) (g : ℕ → K) (y : Arr K) : Pre b g y 0 y := ⟨rfl, by simp, fun _ _ => rfl⟩

/-- What `entryUpd` needs from its operation and operands. -/
structure EntOk (bs : ℕ) (op : K → K → Except Fault K) (x : Arr K) (bx b : ℕ) (y : Arr K) (g : ℕ → K) : Prop where
  hx : ∀ k < bs, bx + k < x.len
  hy : b + bs ≤ y.len
  hop : ∀ k < bs, op (y.get (b + k)) (x.get (bx + k)) = .ok (g k)

variable {bs : ℕ} {op : K → K → Except Fault K} {x : Arr K} {bx b : ℕ} {y : Arr K} {g : ℕ → K}

lemma cell_ok (h : EntOk bs op x bx b y g) (n : ℕ) (hn : n < bs) (z : Arr K) (hz : Pre b g y n z) :
    Ok (cell op x bx b n z) (Pre b g y (n + 1)) := by
  obtain ⟨h1, h2, h3⟩ := hz
  have hy := h.hy
  unfold cell
  simp only [Ok_bind, Ok_rd]
  refine ⟨by omega, h.hx n hn, ?_⟩
  rw [h3 (b + n) (by omega), h.hop n hn]
  simp only [Ok_ok, Ok_wr]
  refine ⟨by omega, h1, ?_, ?_⟩
  · intro k hk
    by_cases e : k = n
    · subst e; simp
    · dsimp only; rw [Function.update_of_ne (by omega)]; exact h2 k (by omega)
  · intro p hp
    dsimp only; rw [Function.update_of_ne (by omega)]; exact h3 p (by omega)

lemma vecCell_ok (h : EntOk bs op x bx b y g) (v : ℕ) (al : Bool) (w n : ℕ) (hn : n + w ≤ bs)
    (hal : al = true → (b + n) % v = 0 ∧ (bx + n) % v = 0) (z : Arr K) (hz : Pre b g y n z) :
    Ok (vecCell op x bx b v al w n z) (Pre b g y (n + w)) := by
  obtain ⟨h1, h2, h3⟩ := hz
  have hy := h.hy
  unfold vecCell
  rw [if_neg (fun hc => hc.2 (hal hc.1))]
  simp only [Ok_bind]
  refine (Ok_iter (fun l (t : Arr K) => t.len = w ∧ ∀ l' < l, t.get l' = g (n + l')) ⟨rfl, by simp⟩ ?_).mono ?_
  · rintro l t hl ⟨t1, t2⟩
    simp only [Ok_bind, Ok_rd]
    refine ⟨by omega, h.hx _ (by omega), ?_⟩
    rw [h3 (b + (n + l)) (by omega), h.hop _ (by omega)]
    simp only [Ok_ok, Ok_wr]
    refine ⟨by omega, t1, fun l' hl' => ?_⟩
    by_cases e : l' = l
    · subst e; simp
    · rw [Function.update_of_ne e]; exact t2 l' (by omega)
  · rintro t ⟨t1, t2⟩
    refine (Ok_iter (fun l (z : Arr K) => Pre b g y (n + l) z) ⟨h1, h2, h3⟩ ?_).mono (fun z hz => hz)
    rintro l z hl ⟨z1, z2, z3⟩
    simp only [Ok_bind, Ok_rd, Ok_wr]
    refine ⟨by omega, by omega, z1, ?_, ?_⟩
    · intro k hk
      by_cases e : k = n + l
      · subst e; dsimp only; rw [Function.update_self]; exact t2 l hl
      · dsimp only; rw [Function.update_of_ne (by omega)]; exact z2 k (by omega)
    · intro p hp
      dsimp only; rw [Function.update_of_ne (by omega)]; exact z3 p (by omega)

/-- The mode can be used with these offsets. -/
def ModeOk (md : Mode) (bx b : ℕ) : Prop :=
  match md with
  | .scal4 => True
  | .vec _ v al => 0 < v ∧ (al = true → b % v = 0 ∧ bx % v = 0)

lemma add_mul_mod (a q v : ℕ) (h : a % v = 0) : (a + q * v) % v = 0 := by
  rw [Nat.add_mul_mod_self_right, h]

lemma entryUpd_ok (md : Mode) (hmd : ModeOk md bx b) (h : EntOk bs op x bx b y g) :
    Ok (entryUpd md bs op x bx b y) (Pre b g y bs) := by
  cases md with
  | scal4 =>
    have hd := Nat.div_add_mod bs 4
    unfold entryUpd
    simp only [Ok_bind]
    refine (Ok_iter (fun q (z : Arr K) => Pre b g y (4 * q) z) (Pre.zero b g y) ?_).mono ?_
    · intro q z hq hz
      simp only [Ok_bind]
      refine (cell_ok h (4 * q) (by omega) z hz).mono (fun z hz => ?_)
      refine (cell_ok h (4 * q + 1) (by omega) z hz).mono (fun z hz => ?_)
      refine (cell_ok h (4 * q + 2) (by omega) z hz).mono (fun z hz => ?_)
      exact cell_ok h (4 * q + 3) (by omega) z hz
    · intro z hz
      refine (Ok_iter (fun r (z : Arr K) => Pre b g y (4 * (bs / 4) + r) z) hz ?_).mono ?_
      · intro r z hr hz
        exact cell_ok h (4 * (bs / 4) + r) (by omega) z hz
      · intro z hz; rw [hd] at hz; exact hz
  | vec two v al =>
    obtain ⟨hv, hal⟩ := hmd
    have hR : bs / v * v ≤ bs := Nat.div_mul_le_self bs v
    have hal2 : ∀ q, al = true → (b + q * v) % v = 0 ∧ (bx + q * v) % v = 0 := fun q ha =>
      ⟨add_mul_mod _ _ _ (hal ha).1, add_mul_mod _ _ _ (hal ha).2⟩
    obtain ⟨Q, hQ, hQle⟩ : ∃ Q, (if two then bs / (2 * v) * (2 * v) else 0) = Q * (2 * v) ∧ Q * (2 * v) ≤ bs / v * v := by
      cases two
      · exact ⟨0, by simp, by simp⟩
      · refine ⟨bs / (2 * v), by simp, ?_⟩
        rw [← Nat.mul_assoc]
        refine Nat.mul_le_mul_right v ((Nat.le_div_iff_mul_le hv).2 ?_)
        rw [Nat.mul_assoc]
        exact Nat.div_mul_le_self bs (2 * v)
    unfold entryUpd
    simp only [hQ, Nat.mul_div_cancel Q (show 0 < 2 * v by omega), Ok_bind]
    refine (Ok_iter (fun q (z : Arr K) => Pre b g y (q * (2 * v)) z)
      (by simpa using Pre.zero b g y) ?_).mono ?_
    · intro q z hq hz
      have h1 : (q + 1) * (2 * v) ≤ Q * (2 * v) := Nat.mul_le_mul_right _ hq
      rw [Nat.add_mul, Nat.one_mul] at h1
      have := vecCell_ok h v al (2 * v) (q * (2 * v)) (by omega)
        (fun ha => by rw [show q * (2 * v) = (2 * q) * v by ring]; exact hal2 _ ha) z hz
      rw [Nat.add_mul, Nat.one_mul]
      exact this
    · intro z hz
      have hdiv : (bs / v * v - Q * (2 * v)) / v * v = bs / v * v - Q * (2 * v) := by
        rw [show bs / v * v - Q * (2 * v) = (bs / v - Q * 2) * v by rw [Nat.sub_mul, Nat.mul_assoc],
          Nat.mul_div_cancel _ hv]
      refine (Ok_iter (fun q (z : Arr K) => Pre b g y (Q * (2 * v) + q * v) z) (by simpa using hz) ?_).mono ?_
      · intro q z hq hz
        have h1 : (q + 1) * v ≤ (bs / v * v - Q * (2 * v)) / v * v := Nat.mul_le_mul_right _ hq
        rw [Nat.add_mul, Nat.one_mul] at h1
        have := vecCell_ok h v al v (Q * (2 * v) + q * v) (by omega)
          (fun ha => by rw [show Q * (2 * v) + q * v = (2 * Q + q) * v by ring]; exact hal2 _ ha) z hz
        rw [Nat.add_mul, Nat.one_mul, ← Nat.add_assoc]
        exact this
      · intro z hz
        rw [hdiv, show Q * (2 * v) + (bs / v * v - Q * (2 * v)) = bs / v * v by omega] at hz
        refine (Ok_iter (fun r (z : Arr K) => Pre b g y (bs / v * v + r) z) hz ?_).mono ?_
        · intro r z hr hz
          exact cell_ok h _ (by omega) z hz
        · intro z hz
          rw [show bs / v * v + (bs - bs / v * v) = bs by omega] at hz
          exact hz

/-! ## Accumulating a list of entries into one row -/

variable [CommRing K]

/-- Entry `e` adds `v k` to column `k`, as long as sizes stay within `B`. -/
def EntSpec (md : Mode) (sz : K → ℕ) (B bs : ℕ) (x : Arr K) (ldx b : ℕ)
    (e : Except Fault (ℕ × (K → K → Except Fault K))) (v : ℕ → K) : Prop :=
  ∃ c op, e = .ok (c, op) ∧ ModeOk md (c * ldx) b ∧ (∀ k < bs, c * ldx + k < x.len) ∧
    ∀ k < bs, ∀ a, sz a + sz (v k) ≤ B → op a (x.get (c * ldx + k)) = .ok (a + v k)

lemma Pre.trans {b n : ℕ} {g g' : ℕ → K} {y z w : Arr K} (h1 : Pre b g y n z) (h2 : Pre b g' z n w) :
    Pre b g' y n w :=
  ⟨h2.1.trans h1.1, h2.2.1, fun p hp => (h2.2.2 p hp).trans (h1.2.2 p hp)⟩

lemma Pre.congr {b n : ℕ} {g g' : ℕ → K} {y z : Arr K} (h : Pre b g y n z) (hg : ∀ k < n, g k = g' k) :
    Pre b g' y n z := ⟨h.1, fun k hk => (h.2.1 k hk).trans (hg k hk), h.2.2⟩

lemma accRow_ok {ops : FOps K} {sz : K → ℕ} {B : ℕ} (hg : Good ops sz B) (md : Mode) (bs : ℕ) (x : Arr K) (ldx b c : ℕ)
    (ent : ℕ → Except Fault (ℕ × (K → K → Except Fault K))) (v : ℕ → ℕ → K)
    (hent : ∀ j < c, EntSpec md sz B bs x ldx b (ent j) (v j)) (y : Arr K) (hy : b + bs ≤ y.len)
    (hB : ∀ k < bs, sz (y.get (b + k)) + ∑ j ∈ range c, sz (v j k) ≤ B) :
    Ok (iter c (fun j (y : Arr K) => do
      let e ← ent j
      entryUpd md bs e.2 x (e.1 * ldx) b y) y)
      (Pre b (fun k => y.get (b + k) + ∑ j ∈ range c, v j k) y bs) := by
  refine (Ok_iter (fun j (z : Arr K) => Pre b (fun k => y.get (b + k) + ∑ j ∈ range j, v j k) y bs z ∧
    ∀ k < bs, sz (z.get (b + k)) ≤ sz (y.get (b + k)) + ∑ j ∈ range j, sz (v j k))
    ⟨⟨rfl, by simp, fun _ _ => rfl⟩, by simp⟩ ?_).mono (fun z hz => hz.1)
  rintro j z hj ⟨hz, hs⟩
  obtain ⟨c', op, he, hm, hx, hop⟩ := hent j hj
  rw [he]
  simp only [Ok_bind, Ok_ok]
  have hmono : ∀ k, ∑ j ∈ range (j + 1), sz (v j k) ≤ ∑ j ∈ range c, sz (v j k) := fun k =>
    Finset.sum_le_sum_of_subset (Finset.range_subset_range.2 hj)
  have hbnd : ∀ k < bs, sz (z.get (b + k)) + sz (v j k) ≤ B := by
    intro k hk
    have h1 := hs k hk
    have h2 := hB k hk
    have h3 := hmono k
    rw [Finset.sum_range_succ] at h3
    omega
  refine (entryUpd_ok (g := fun k => z.get (b + k) + v j k) md hm
    ⟨hx, by rw [hz.1]; exact hy, fun k hk => hop k hk _ (hbnd k hk)⟩).mono ?_
  intro w hw
  refine ⟨(hz.trans hw).congr (fun k hk => ?_), fun k hk => ?_⟩
  · rw [hz.2.1 k hk, Finset.sum_range_succ, add_assoc]
  · rw [hw.2.1 k hk, Finset.sum_range_succ]
    dsimp only
    have := hg.tri (z.get (b + k)) (v j k)
    have := hs k hk
    omega

/-! ## Row-wise kernels -/

lemma row_apart (ldy bs i i' k : ℕ) (hbs : bs ≤ ldy) (hk : k < bs) (hne : i ≠ i') :
    i * ldy + k < i' * ldy ∨ i' * ldy + bs ≤ i * ldy + k := by
  rcases Nat.lt_or_gt_of_ne hne with h | h
  · left
    have : (i + 1) * ldy ≤ i' * ldy := Nat.mul_le_mul_right _ h
    rw [Nat.add_mul] at this; omega
  · right
    have : (i' + 1) * ldy ≤ i * ldy := Nat.mul_le_mul_right _ h
    rw [Nat.add_mul] at this; omega

/-- Rows handled one after the other, each changing only its own cells. -/
lemma rows_ok (m bs ldy : ℕ) (hbs : bs ≤ ldy) (body : ℕ → Arr K → Except Fault (Arr K)) (f : ℕ → ℕ → K) (y : Arr K)
    (hbody : ∀ i < m, ∀ z : Arr K, z.len = y.len → (∀ k < bs, z.get (i * ldy + k) = y.get (i * ldy + k)) →
      Ok (body i z) (Pre (i * ldy) (f i) z bs)) :
    Ok (iter m body y) (IsBlock m bs ldy f y) := by
  refine (Ok_iter (fun n (z : Arr K) => IsBlock n bs ldy f y z) ⟨rfl, by simp, fun _ _ => rfl⟩ ?_).mono (fun z hz => hz)
  rintro i z hi ⟨h1, h2, h3⟩
  refine (hbody i hi z h1 (fun k hk => h3 _ (fun i' hi' k' hk' he => ?_))).mono ?_
  · have := row_apart ldy bs i i' k hbs hk (by omega)
    omega
  · rintro w ⟨w1, w2, w3⟩
    refine ⟨w1.trans h1, fun i' hi' k hk => ?_, fun p hp => ?_⟩
    · by_cases e : i' = i
      · subst e; exact w2 k hk
      · rw [w3 _ (row_apart ldy bs i' i k hbs hk e)]; exact h2 i' (by omega) k hk
    · rw [w3 p ?_]
      · exact h3 p (fun i' hi' k hk => hp i' (by omega) k hk)
      · by_contra hc
        push Not at hc
        exact hp i (by omega) (p - i * ldy) (by omega) (by omega)

lemma rowsMM_ok {ops : FOps K} {sz : K → ℕ} {B : ℕ} (hg : Good ops sz B) (md : Mode) (bs m : ℕ)
    (bounds : ℕ → Except Fault (ℕ × ℕ)) (st len : ℕ → ℕ) (hb : ∀ i < m, bounds i = .ok (st i, len i))
    (ent : ℕ → Except Fault (ℕ × (K → K → Except Fault K))) (v : ℕ → ℕ → K) (x : Arr K) (ldx : ℕ) (y : Arr K) (ldy : ℕ)
    (hbs : bs ≤ ldy)
    (hent : ∀ i < m, ∀ j < len i, EntSpec md sz B bs x ldx (i * ldy) (ent (st i + j)) (v (st i + j)))
    (hy : Fits m bs ldy y)
    (hB : ∀ i < m, ∀ k < bs, sz (y.get (i * ldy + k)) + ∑ j ∈ range (len i), sz (v (st i + j) k) ≤ B) :
    Ok (rowsMM md bs m bounds ent x ldx y ldy)
      (IsBlock m bs ldy (fun i k => y.get (i * ldy + k) + ∑ j ∈ range (len i), v (st i + j) k) y) := by
  unfold rowsMM
  refine rows_ok m bs ldy hbs _ _ y ?_
  intro i hi z hz1 hz2
  rw [hb i hi]
  simp only [Ok_bind, Ok_ok]
  refine (accRow_ok hg md bs x ldx (i * ldy) (len i) (fun j => ent (st i + j)) (fun j => v (st i + j)) (hent i hi) z
    (by rw [hz1]; exact hy i hi) (fun k hk => by rw [hz2 k hk]; exact hB i hi k hk)).mono ?_
  intro w hw
  exact hw.congr (fun k hk => by rw [hz2 k hk])

/-! ## Reductions -/

lemma reduceRow_ok (F : FpField) (bs b : ℕ) (y : Arr ℤ) (hy : b + bs ≤ y.len) :
    Ok (reduceRow F bs b y) (Pre b (fun k => F.red (y.get (b + k))) y bs) := by
  unfold reduceRow
  refine (Ok_iter (fun n (z : Arr ℤ) => Pre b (fun k => F.red (y.get (b + k))) y n z) (Pre.zero _ _ _) ?_).mono
    (fun z hz => hz)
  rintro n z hn ⟨h1, h2, h3⟩
  simp only [Ok_bind, Ok_rd, Ok_wr]
  refine ⟨by omega, by omega, h1, ?_, ?_⟩
  · intro k hk
    by_cases e : k = n
    · subst e; dsimp only; rw [Function.update_self, h3 _ (by omega)]
    · dsimp only; rw [Function.update_of_ne (by omega)]; exact h2 k (by omega)
  · intro p hp
    dsimp only; rw [Function.update_of_ne (by omega)]; exact h3 p (by omega)

lemma reduceBlock_ok (F : FpField) (m n ld : ℕ) (hn : n ≤ ld) (y : Arr ℤ) (hy : Fits m n ld y) :
    Ok (reduceBlock F m n ld y) (IsBlock m n ld (fun i k => F.red (y.get (i * ld + k))) y) := by
  unfold reduceBlock
  refine rows_ok m n ld hn _ _ y ?_
  intro i hi z hz1 hz2
  exact (reduceRow_ok F n (i * ld) z (by rw [hz1]; exact hy i hi)).mono
    (fun w hw => hw.congr (fun k hk => by rw [hz2 k hk]))

lemma rowsMMK_ok (F : FpField) (kmax : ℕ) (hk : 0 < kmax) (R V : ℕ) (hR : ∀ z, (F.red z).natAbs ≤ R)
    (hRV : R + kmax * V ≤ 2 ^ F.prec) (md : Mode) (bs m : ℕ)
    (bounds : ℕ → Except Fault (ℕ × ℕ)) (st len : ℕ → ℕ) (hb : ∀ i < m, bounds i = .ok (st i, len i))
    (ent : ℕ → Except Fault (ℕ × (ℤ → ℤ → Except Fault ℤ))) (v : ℕ → ℕ → ℤ) (x : Arr ℤ) (ldx : ℕ) (y : Arr ℤ) (ldy : ℕ)
    (hbs : bs ≤ ldy)
    (hent : ∀ i < m, ∀ j < len i,
      EntSpec md Int.natAbs (2 ^ F.prec) bs x ldx (i * ldy) (ent (st i + j)) (v (st i + j)))
    (hV : ∀ i < m, ∀ j < len i, ∀ k < bs, (v (st i + j) k).natAbs ≤ V)
    (hy : Fits m bs ldy y) (hyR : ∀ i < m, ∀ k < bs, (y.get (i * ldy + k)).natAbs ≤ R) :
    Ok (rowsMMK F kmax md bs m bounds ent x ldx y ldy)
      (IsBlock m bs ldy (fun i k => F.red (y.get (i * ldy + k) + ∑ j ∈ range (len i), v (st i + j) k)) y) := by
  unfold rowsMMK
  refine rows_ok m bs ldy hbs _ _ y ?_
  intro i hi z hz1 hz2
  rw [hb i hi]
  simp only [Ok_bind, Ok_ok]
  rw [if_neg (by omega)]
  simp only [Ok_bind]
  have hyl := hy i hi
  have hdm := Nat.div_add_mod (len i) kmax
  have hcm : kmax * (len i / kmax) = len i / kmax * kmax := Nat.mul_comm _ _
  have hmod := Nat.mod_lt (len i) hk
  have hsV : ∀ a c, a + c ≤ len i → c ≤ kmax → ∀ k < bs, ∑ j ∈ range c, (v (st i + (a + j)) k).natAbs ≤ kmax * V := by
    intro a c hac hc k hk'
    calc ∑ j ∈ range c, (v (st i + (a + j)) k).natAbs ≤ ∑ _j ∈ range c, V :=
          Finset.sum_le_sum (fun j hj => hV i hi _ (by have := Finset.mem_range.1 hj; omega) k hk')
      _ = c * V := by simp
      _ ≤ kmax * V := Nat.mul_le_mul_right _ hc
  have hblk : ∀ l < len i / kmax, l * kmax + kmax ≤ len i := by
    intro l hl
    have : (l + 1) * kmax ≤ len i / kmax * kmax := Nat.mul_le_mul_right _ hl
    rw [Nat.add_mul] at this
    omega
  -- blocks
  refine (Ok_iter (fun l (w : Arr ℤ) => ∃ e : ℕ → ℤ, Pre (i * ldy) e z bs w ∧ (∀ k < bs, (e k).natAbs ≤ R) ∧
      ∀ k < bs, e k ≡ y.get (i * ldy + k) + ∑ j ∈ range (l * kmax), v (st i + j) k [ZMOD F.p])
    ⟨fun k => z.get (i * ldy + k), ⟨rfl, fun _ _ => rfl, fun _ _ => rfl⟩,
      fun k hk => by dsimp only; rw [hz2 k hk]; exact hyR i hi k hk, fun k hk => by dsimp only; rw [hz2 k hk]; simp⟩ ?_).mono ?_
  · rintro l w hl ⟨e, he0, he1, he2⟩
    have hl' := hblk l hl
    simp only [Ok_bind]
    refine (accRow_ok (good_mach F.prec) md bs x ldx (i * ldy) kmax (fun j => ent (st i + (l * kmax + j)))
      (fun j => v (st i + (l * kmax + j))) (fun j hj => hent i hi _ (by omega)) w
      (by rw [he0.1, hz1]; exact hyl) ?_).mono ?_
    · intro k hk'
      rw [he0.2.1 k hk']
      have := hsV (l * kmax) kmax hl' le_rfl k hk'
      have := he1 k hk'
      omega
    · intro w' hw'
      refine (reduceRow_ok F bs (i * ldy) w' (by rw [hw'.1, he0.1, hz1]; exact hyl)).mono ?_
      intro w2 hw2
      refine ⟨_, (he0.trans hw').trans hw2, fun k _ => hR _, fun k hk' => ?_⟩
      refine (FpField.red_modEq F _).trans ?_
      rw [hw'.2.1 k hk']
      dsimp only
      rw [he0.2.1 k hk', Nat.succ_mul, Finset.sum_range_add, ← add_assoc]
      exact (he2 k hk').add_right _
  · rintro w ⟨e, he0, he1, he2⟩
    refine (accRow_ok (good_mach F.prec) md bs x ldx (i * ldy) (len i % kmax)
      (fun j => ent (st i + (len i / kmax * kmax + j)))
      (fun j => v (st i + (len i / kmax * kmax + j))) (fun j hj => hent i hi _ (by omega)) w
      (by rw [he0.1, hz1]; exact hyl) ?_).mono ?_
    · intro k hk'
      rw [he0.2.1 k hk']
      have := hsV (len i / kmax * kmax) (len i % kmax) (by omega) (by omega) k hk'
      have := he1 k hk'
      omega
    · intro w' hw'
      refine (reduceRow_ok F bs (i * ldy) w' (by rw [hw'.1, he0.1, hz1]; exact hyl)).mono ?_
      intro w2 hw2
      refine ((he0.trans hw').trans hw2).congr (fun k hk' => ?_)
      rw [hw'.2.1 k hk']
      dsimp only
      rw [he0.2.1 k hk']
      apply red_congr
      rw [show len i = len i / kmax * kmax + len i % kmax by omega, Finset.sum_range_add, ← add_assoc,
        show len i / kmax * kmax + len i % kmax = len i by omega]
      exact (he2 k hk').add_right _

/-! ## Scattering kernels -/

lemma scatterMM_ok {ops : FOps K} {sz : K → ℕ} {B : ℕ} (hg : Good ops sz B) (md : Mode) (bs nnz m : ℕ) (row : Arr ℕ)
    (hrl : nnz ≤ row.len) (hr : ∀ t < nnz, row.get t < m)
    (ent : ℕ → Except Fault (ℕ × (K → K → Except Fault K))) (v : ℕ → ℕ → K) (x : Arr K) (ldx : ℕ) (y : Arr K) (ldy : ℕ)
    (hbs : bs ≤ ldy) (hent : ∀ j < nnz, EntSpec md sz B bs x ldx (row.get j * ldy) (ent j) (v j))
    (hy : Fits m bs ldy y)
    (hB : ∀ i < m, ∀ k < bs,
      sz (y.get (i * ldy + k)) + ∑ t ∈ range nnz, (if row.get t = i then sz (v t k) else 0) ≤ B) :
    Ok (iter nnz (fun j (y : Arr K) => do
      let r ← row.rd j
      let e ← ent j
      entryUpd md bs e.2 x (e.1 * ldx) (r * ldy) y) y)
      (IsBlock m bs ldy (fun i k => y.get (i * ldy + k) + ∑ t ∈ range nnz, if row.get t = i then v t k else 0) y) := by
  refine (Ok_iter (fun n (z : Arr K) => IsBlock m bs ldy
    (fun i k => y.get (i * ldy + k) + ∑ t ∈ range n, if row.get t = i then v t k else 0) y z)
    ⟨rfl, by simp, fun _ _ => rfl⟩ ?_).mono (fun z hz => hz)
  rintro j z hj ⟨h1, h2, h3⟩
  obtain ⟨c', op, he, hm, hx, hop⟩ := hent j hj
  have hrj := hr j hj
  simp only [Ok_bind, Ok_rd]
  refine ⟨by omega, ?_⟩
  rw [he]
  simp only [Ok_ok]
  have hbnd : ∀ k < bs, sz (z.get (row.get j * ldy + k)) + sz (v j k) ≤ B := by
    intro k hk
    have h4 := hB _ hrj k hk
    have h5 := sum_ite_le nnz (j + 1) row (row.get j) (fun t => sz (v t k)) (by omega)
    rw [Finset.sum_range_succ, if_pos rfl] at h5
    have h6 := hg.tri (y.get (row.get j * ldy + k)) (∑ t ∈ range j, if row.get t = row.get j then v t k else 0)
    have h7 := sz_sum_le hg j row (row.get j) (fun t => v t k)
    rw [h2 _ hrj k hk]
    dsimp only
    omega
  refine (entryUpd_ok (g := fun k => z.get (row.get j * ldy + k) + v j k) md hm
    ⟨hx, by rw [h1]; exact hy _ hrj, fun k hk => hop k hk _ (hbnd k hk)⟩).mono ?_
  rintro w ⟨w1, w2, w3⟩
  refine ⟨w1.trans h1, fun i hi k hk => ?_, fun p hp => ?_⟩
  · dsimp only
    rw [Finset.sum_range_succ]
    by_cases e : row.get j = i
    · rw [if_pos e, ← e, w2 k hk]; dsimp only; rw [h2 _ hrj k hk, add_assoc]
    · rw [if_neg e, add_zero, w3 _ (row_apart ldy bs i _ k hbs hk (Ne.symm e)), h2 i hi k hk]
  · rw [w3 p ?_, h3 p hp]
    by_contra hc
    push Not at hc
    exact hp _ hrj (p - row.get j * ldy) (by omega) (by omega)

/-! ## The formats -/

/-- The leading dimensions suit the mode: with aligned accesses they are multiples of the vector size. -/
def Suits (md : Mode) (ldx ldy : ℕ) : Prop :=
  match md with
  | .scal4 => True
  | .vec _ v al => 0 < v ∧ (al = true → v ∣ ldx ∧ v ∣ ldy)

lemma Suits.modeOk {md : Mode} {ldx ldy : ℕ} (h : Suits md ldx ldy) (c i : ℕ) : ModeOk md (c * ldx) (i * ldy) := by
  cases md with
  | scal4 => trivial
  | vec two v al =>
    exact ⟨h.1, fun ha => ⟨Nat.mod_eq_zero_of_dvd (Dvd.dvd.mul_left (h.2 ha).2 i),
      Nat.mod_eq_zero_of_dvd (Dvd.dvd.mul_left (h.2 ha).1 c)⟩⟩

lemma entVal_spec {ops : FOps K} {sz : K → ℕ} {B : ℕ} (hg : Good ops sz B) {md : Mode} {ldx ldy : ℕ}
    (hmd : Suits md ldx ldy) (bs : ℕ) (x dat : Arr K) (col : Arr ℕ) (p i n : ℕ) (hd : p < dat.len) (hc : p < col.len)
    (hn : col.get p < n) (hx : Fits n bs ldx x) :
    EntSpec md sz B bs x ldx (i * ldy) (entVal ops dat col p) (fun k => dat.get p * x.get (col.get p * ldx + k)) := by
  refine ⟨col.get p, fun e u => ops.axpy e (dat.get p) u, ?_, hmd.modeOk _ _, ?_, ?_⟩
  · simp [entVal, Arr.rd, hd, hc, bind, Except.bind, pure, Except.pure]
  · intro k hk; have := hx _ hn; omega
  · intro k hk a ha; exact hg.axpy _ _ _ ha

/-- the sign of a zero-one part -/
def zsgn (neg : Bool) (u : K) : K := if neg then -u else u

lemma entZO_spec {ops : FOps K} {sz : K → ℕ} {B : ℕ} (hg : Good ops sz B) {md : Mode} {ldx ldy : ℕ}
    (hmd : Suits md ldx ldy) (neg : Bool) (bs : ℕ) (x : Arr K) (col : Arr ℕ) (p i n : ℕ) (hc : p < col.len)
    (hn : col.get p < n) (hx : Fits n bs ldx x) :
    EntSpec md sz B bs x ldx (i * ldy) (entZO ops neg col p) (fun k => zsgn neg (x.get (col.get p * ldx + k))) := by
  refine ⟨col.get p, if neg then ops.sub else ops.add, ?_, hmd.modeOk _ _, ?_, ?_⟩
  · simp [entZO, Arr.rd, hc, bind, Except.bind, pure, Except.pure]
  · intro k hk; have := hx _ hn; omega
  · intro k hk a ha
    cases neg
    · exact hg.add _ _ ha
    · simp only [zsgn, if_true, hg.neg] at ha ⊢
      rw [hg.sub _ _ ha, sub_eq_add_neg]

lemma csrRows_ok {ops : FOps K} {sz : K → ℕ} {B : ℕ} (hg : Good ops sz B) (md : Mode) (bs m nnz : ℕ) (row st : Arr ℕ)
    (hst : Starts m nnz row st) (hs : SortedRows row nnz)
    (ent : ℕ → Except Fault (ℕ × (K → K → Except Fault K))) (v : ℕ → ℕ → K) (x : Arr K) (ldx : ℕ) (y : Arr K) (ldy : ℕ)
    (hbs : bs ≤ ldy) (hent : ∀ i < m, ∀ t < nnz, EntSpec md sz B bs x ldx (i * ldy) (ent t) (v t))
    (hy : Fits m bs ldy y)
    (hB : ∀ i < m, ∀ k < bs,
      sz (y.get (i * ldy + k)) + ∑ t ∈ range nnz, (if row.get t = i then sz (v t k) else 0) ≤ B) :
    Ok (rowsMM md bs m (csrBounds st) ent x ldx y ldy)
      (IsBlock m bs ldy (fun i k => y.get (i * ldy + k) + ∑ t ∈ range nnz, if row.get t = i then v t k else 0) y) := by
  have hin : ∀ i < m, ∀ j < cnt row nnz i, cntLt row nnz i + j < nnz := by
    intro i hi j hj
    have := cntLt_succ row nnz i
    have := cntLt_le row nnz (i + 1)
    omega
  have := rowsMM_ok hg md bs m (csrBounds st) (cntLt row nnz) (cnt row nnz) (csrBounds_ok m nnz row st hst) ent v x ldx y
    ldy hbs (fun i hi j hj => hent i hi _ (hin i hi j hj)) hy
    (fun i hi k hk => by rw [sum_row row nnz i hs (fun t => sz (v t k))]; exact hB i hi k hk)
  simp only [fun i k => sum_row row nnz i hs (fun t => v t k)] at this
  exact this

/-- Sizes of the products accumulated in one cell. -/
def blockSize (sz : K → ℕ) (nnz : ℕ) (row col : Arr ℕ) (dat x : Arr K) (ldx i k : ℕ) : ℕ :=
  ∑ t ∈ range nnz, if row.get t = i then sz (dat.get t * x.get (col.get t * ldx + k)) else 0

lemma csrMM_ok {ops : FOps K} {sz : K → ℕ} {B : ℕ} (hg : Good ops sz B) (md : Mode) (bs : ℕ) (A : Csr K) (m n nnz : ℕ)
    (row col : Arr ℕ) (dat : Arr K) (hT : Trip m n nnz row col dat) (hs : SortedRows row nnz)
    (hAm : A.m = m) (hst : Starts m nnz row A.st) (hcl : A.col.len = nnz) (hdl : A.dat.len = nnz)
    (hc : ∀ t < nnz, A.col.get t = col.get t) (hd : ∀ t < nnz, A.dat.get t = dat.get t)
    (x : Arr K) (ldx : ℕ) (y : Arr K) (ldy : ℕ) (hmd : Suits md ldx ldy) (hbs : bs ≤ ldy) (hx : Fits n bs ldx x)
    (hy : Fits m bs ldy y)
    (hB : ∀ i < m, ∀ k < bs, sz (y.get (i * ldy + k)) + blockSize sz nnz row col dat x ldx i k ≤ B) :
    Ok (csrMM ops md bs A x ldx y ldy)
      (IsBlock m bs ldy (fun i k => y.get (i * ldy + k) + blockDot nnz row col dat x ldx i k) y) := by
  unfold csrMM
  rw [hAm]
  refine csrRows_ok hg md bs m nnz row A.st hst hs _ (fun t k => dat.get t * x.get (col.get t * ldx + k)) x ldx y ldy hbs
    ?_ hy hB
  intro i hi t ht
  have := entVal_spec hg hmd bs x A.dat A.col t i n (by omega) (by omega) (by rw [hc t ht]; exact hT.clt t ht) hx
  rw [hc t ht, hd t ht] at this
  exact this

lemma csrZOMM_ok {ops : FOps K} {sz : K → ℕ} {B : ℕ} (hg : Good ops sz B) (neg : Bool) (md : Mode) (bs : ℕ) (A : CsrZO K)
    (m n nnz : ℕ) (row col : Arr ℕ) (dat : Arr K) (hT : Trip m n nnz row col dat) (hs : SortedRows row nnz)
    (hAm : A.m = m) (hst : Starts m nnz row A.st) (hcl : A.col.len = nnz)
    (hc : ∀ t < nnz, A.col.get t = col.get t)
    (x : Arr K) (ldx : ℕ) (y : Arr K) (ldy : ℕ) (hmd : Suits md ldx ldy) (hbs : bs ≤ ldy) (hx : Fits n bs ldx x)
    (hy : Fits m bs ldy y)
    (hB : ∀ i < m, ∀ k < bs, sz (y.get (i * ldy + k)) +
      ∑ t ∈ range nnz, (if row.get t = i then sz (zsgn neg (x.get (col.get t * ldx + k))) else 0) ≤ B) :
    Ok (csrZOMM ops neg md bs A x ldx y ldy)
      (IsBlock m bs ldy (fun i k => y.get (i * ldy + k) +
        ∑ t ∈ range nnz, if row.get t = i then zsgn neg (x.get (col.get t * ldx + k)) else 0) y) := by
  unfold csrZOMM
  rw [hAm]
  refine csrRows_ok hg md bs m nnz row A.st hst hs _ (fun t k => zsgn neg (x.get (col.get t * ldx + k))) x ldx y ldy hbs
    ?_ hy hB
  intro i hi t ht
  have := entZO_spec hg hmd neg bs x A.col t i n (by omega) (by rw [hc t ht]; exact hT.clt t ht) hx
  rw [hc t ht] at this
  exact this

lemma cooMM_ok {ops : FOps K} {sz : K → ℕ} {B : ℕ} (hg : Good ops sz B) (md : Mode) (bs : ℕ) (A : Coo K) (m n : ℕ)
    (hT : Trip m n A.nnz A.row A.col A.dat)
    (x : Arr K) (ldx : ℕ) (y : Arr K) (ldy : ℕ) (hmd : Suits md ldx ldy) (hbs : bs ≤ ldy) (hx : Fits n bs ldx x)
    (hy : Fits m bs ldy y)
    (hB : ∀ i < m, ∀ k < bs, sz (y.get (i * ldy + k)) + blockSize sz A.nnz A.row A.col A.dat x ldx i k ≤ B) :
    Ok (cooMM ops md bs A x ldx y ldy)
      (IsBlock m bs ldy (fun i k => y.get (i * ldy + k) + blockDot A.nnz A.row A.col A.dat x ldx i k) y) := by
  unfold cooMM
  refine scatterMM_ok hg md bs A.nnz m A.row hT.rlen hT.rlt _
    (fun t k => A.dat.get t * x.get (A.col.get t * ldx + k)) x ldx y ldy hbs ?_ hy hB
  intro t ht
  have := hT.clen; have := hT.dlen
  exact entVal_spec hg hmd bs x A.dat A.col t _ n (by omega) (by omega) (hT.clt t ht) hx

lemma cooZOMM_ok {ops : FOps K} {sz : K → ℕ} {B : ℕ} (hg : Good ops sz B) (neg : Bool) (md : Mode) (bs : ℕ) (A : Coo K)
    (m n : ℕ) (hT : Trip m n A.nnz A.row A.col A.dat)
    (x : Arr K) (ldx : ℕ) (y : Arr K) (ldy : ℕ) (hmd : Suits md ldx ldy) (hbs : bs ≤ ldy) (hx : Fits n bs ldx x)
    (hy : Fits m bs ldy y)
    (hB : ∀ i < m, ∀ k < bs, sz (y.get (i * ldy + k)) +
      ∑ t ∈ range A.nnz, (if A.row.get t = i then sz (zsgn neg (x.get (A.col.get t * ldx + k))) else 0) ≤ B) :
    Ok (cooZOMM ops neg md bs A x ldx y ldy)
      (IsBlock m bs ldy (fun i k => y.get (i * ldy + k) +
        ∑ t ∈ range A.nnz, if A.row.get t = i then zsgn neg (x.get (A.col.get t * ldx + k)) else 0) y) := by
  unfold cooZOMM
  refine scatterMM_ok hg md bs A.nnz m A.row hT.rlen hT.rlt _
    (fun t k => zsgn neg (x.get (A.col.get t * ldx + k))) x ldx y ldy hbs ?_ hy hB
  intro t ht
  have := hT.clen
  exact entZO_spec hg hmd neg bs x A.col t _ n (by omega) (hT.clt t ht) hx

lemma ellEnt {ops : FOps K} {sz : K → ℕ} {B : ℕ} (hg : Good ops sz B) {md : Mode} {ldx ldy : ℕ} (hmd : Suits md ldx ldy)
    (bs m n nnz : ℕ) (A : Ell K) (row col : Arr ℕ) (dat : Arr K) (hrep : EllRep m n A.ld nnz row col dat A.col A.dat)
    (x : Arr K) (hx : Fits n bs ldx x) (i : ℕ) (hi : i < m) (j : ℕ) (hj : j < A.ld) :
    EntSpec md sz B bs x ldx (i * ldy) (entVal ops A.dat A.col (i * A.ld + j))
      (fun k => A.dat.get (i * A.ld + j) * x.get (A.col.get (i * A.ld + j) * ldx + k)) := by
  have h1 := addr_lt m A.ld i j hi hj
  have h3 := hrep.clen
  have h4 := hrep.dlen
  exact entVal_spec hg hmd bs x A.dat A.col _ i n (by omega) (by omega) (hrep.cell i hi j hj) hx

lemma ellMM_ok {ops : FOps K} {sz : K → ℕ} {B : ℕ} (hg : Good ops sz B) (md : Mode) (bs : ℕ) (A : Ell K) (m n nnz : ℕ)
    (row col : Arr ℕ) (dat : Arr K) (hAm : A.m = m) (hrep : EllRep m n A.ld nnz row col dat A.col A.dat)
    (x : Arr K) (ldx : ℕ) (y : Arr K) (ldy : ℕ) (hmd : Suits md ldx ldy) (hbs : bs ≤ ldy) (hx : Fits n bs ldx x)
    (hy : Fits m bs ldy y)
    (hB : ∀ i < m, ∀ k < bs, sz (y.get (i * ldy + k)) + blockSize sz nnz row col dat x ldx i k ≤ B) :
    Ok (ellMM ops md bs A x ldx y ldy)
      (IsBlock m bs ldy (fun i k => y.get (i * ldy + k) + blockDot nnz row col dat x ldx i k) y) := by
  unfold ellMM
  rw [hAm]
  refine (rowsMM_ok hg md bs m _ (fun i => i * A.ld) (fun _ => A.ld) (fun i _ => rfl) _
    (fun p k => A.dat.get p * x.get (A.col.get p * ldx + k)) x ldx y ldy hbs
    (fun i hi j hj => ellEnt hg hmd bs m n nnz A row col dat hrep x hx i hi j hj) hy ?_).mono ?_
  · intro i hi k hk
    rw [hrep.sum ℕ (fun c d => sz (d * x.get (c * ldx + k))) (by simp [hg.zero]) i hi]
    exact hB i hi k hk
  · rintro z ⟨h1, h2, h3⟩
    refine ⟨h1, fun i hi k hk => ?_, h3⟩
    rw [h2 i hi k hk]
    dsimp only
    rw [hrep.sum K (fun c d => d * x.get (c * ldx + k)) (by simp) i hi]
    rfl

/-! ## HYB_ZO -/

section Hyb
variable [DecidableEq K]

lemma IsBlock.trans {m bs ldy : ℕ} {f f' : ℕ → ℕ → K} {y z w : Arr K} (h1 : IsBlock m bs ldy f y z)
    (h2 : IsBlock m bs ldy f' z w) : IsBlock m bs ldy f' y w :=
  ⟨h2.1.trans h1.1, h2.2.1, fun p hp => (h2.2.2 p hp).trans (h1.2.2 p hp)⟩

lemma IsBlock.congr {m bs ldy : ℕ} {f f' : ℕ → ℕ → K} {y z : Arr K} (h : IsBlock m bs ldy f y z)
    (hf : ∀ i < m, ∀ k < bs, f i k = f' i k) : IsBlock m bs ldy f' y z :=
  ⟨h.1, fun i hi k hk => (h.2.1 i hi k hk).trans (hf i hi k hk), h.2.2⟩

lemma IsBlock.refl (m bs ldy : ℕ) (y : Arr K) : IsBlock m bs ldy (fun i k => y.get (i * ldy + k)) y y :=
  ⟨rfl, fun _ _ _ _ => rfl, fun _ _ => rfl⟩

lemma Fits.of_len {r bs ld : ℕ} {y z : Arr K} (h : Fits r bs ld y) (hl : z.len = y.len) : Fits r bs ld z :=
  fun i hi => by rw [hl]; exact h i hi

/-- Construction followed by product, exact arithmetic. -/
lemma hybMM_ok (md : Mode) (kmax m n nnz : ℕ) (row col : Arr ℕ) (dat : Arr K) (jN : ℕ → ℕ) (jK : ℕ → K)
    (hT : Trip m n nnz row col dat) (hs : SortedRows row nnz) (hm : 0 < m) (bs : ℕ)
    (x : Arr K) (ldx ldy : ℕ) (hmd : Suits md ldx ldy) (hbs : bs ≤ ldy) (hx : Fits n bs ldx x) :
    Ok (hybInit (-1) kmax m nnz row col dat jN jK) (fun A => ∀ y, Fits m bs ldy y →
      Ok (hybMM exactOps md bs A x ldx y ldy)
      (IsBlock m bs ldy (fun i k => y.get (i * ldy + k) + ((∑ t ∈ range nnz, if cls (-1) (dat.get t) = 0 then
          (if row.get t = i then x.get (col.get t * ldx + k) else 0) else 0) +
        (∑ t ∈ range nnz, if cls (-1) (dat.get t) = 1 then
          (if row.get t = i then - x.get (col.get t * ldx + k) else 0) else 0) +
        (∑ t ∈ range nnz, if cls (-1) (dat.get t) = 2 then
          (if row.get t = i then dat.get t * x.get (col.get t * ldx + k) else 0) else 0))) y)) := by
  have hdl := hT.dlen; have hcl := hT.clen; have hrl := hT.rlen
  unfold hybInit
  simp only [Ok_bind, Ok_pure]
  refine (hybCount_ok (-1) nnz dat 0 hdl).mono ?_
  intro n0 hn0
  refine (hybCount_ok (-1) nnz dat 1 hdl).mono ?_
  intro n1 hn1
  refine (hybCount_ok (-1) nnz dat 2 hdl).mono ?_
  intro n2 hn2
  have hnew : ∀ c N, PartInv (-1) c 0 N row col dat ⟨0, Arr.mk' N jN, Arr.mk' N jN, Arr.mk' N jK⟩ := by
    intro c N
    refine ⟨by simp, rfl, rfl, rfl, by intro M _ g; simp, ?_, ?_⟩
    · intro s hs; simp at hs
    · intro s t _ ht; simp at ht
  refine (Ok_iter (fun k (s : Part K × Part K × Part K) => PartInv (-1) 0 k n0 row col dat s.1 ∧
      PartInv (-1) 1 k n1 row col dat s.2.1 ∧ PartInv (-1) 2 k n2 row col dat s.2.2)
      ⟨hnew 0 n0, hnew 1 n1, hnew 2 n2⟩ ?_).mono ?_
  · rintro k ⟨P0, P1, P2⟩ hk ⟨h0, h1, h2⟩
    simp only [Ok_bind, Ok_rd]
    refine ⟨by omega, by omega, by omega, ?_⟩
    by_cases c0 : dat.get k = 1
    · rw [if_pos c0]
      have hc : cls (-1) (dat.get k) = 0 := by unfold cls; rw [if_pos c0]
      simp only [Ok_bind, Ok_pure]
      refine (h0.push hc hk hn0 hs).mono (fun P hP => ⟨hP, h1.skip (by omega), h2.skip (by omega)⟩)
    · rw [if_neg c0]
      by_cases c1 : dat.get k = -1
      · rw [if_pos c1]
        have hc : cls (-1) (dat.get k) = 1 := by unfold cls; rw [if_neg c0, if_pos c1]
        simp only [Ok_bind, Ok_pure]
        refine (h1.push hc hk hn1 hs).mono (fun P hP => ⟨h0.skip (by omega), hP, h2.skip (by omega)⟩)
      · rw [if_neg c1]
        have hc : cls (-1) (dat.get k) = 2 := by unfold cls; rw [if_neg c0, if_neg c1]
        simp only [Ok_bind, Ok_pure]
        refine (h2.push hc hk hn2 hs).mono (fun P hP => ⟨h0.skip (by omega), h1.skip (by omega), hP⟩)
  rintro ⟨P0, P1, P2⟩ ⟨h0, h1, h2⟩
  simp only at h0 h1 h2 ⊢
  have e0 : P0.it = n0 := by rw [h0.it, hn0]
  have e1 : P1.it = n1 := by rw [h1.it, hn1]
  have e2 : P2.it = n2 := by rw [h2.it, hn2]
  have s0 := h0.sum K; have s1 := h1.sum K; have s2 := h2.sum K
  have so0 := h0.sorted; have so1 := h1.sorted; have so2 := h2.sorted
  have T0 := h0.trip e0 hT; have T1 := h1.trip e1 hT; have T2 := h2.trip e2 hT
  rw [e0] at s0 so0; rw [e1] at s1 so1; rw [e2] at s2 so2
  have one : Ok (if n0 ≠ 0 then do
      let A ← csrZOInit m n0 P0.row P0.col (1 : K) jN
      pure (some A) else pure none) (fun o => ∀ y : Arr K, Fits m bs ldy y →
        Ok (match o with | some B => csrZOMM exactOps false md bs B x ldx y ldy | none => pure y)
        (IsBlock m bs ldy (fun i k => y.get (i * ldy + k) + ∑ t ∈ range nnz, if cls (-1) (dat.get t) = 0 then
          (if row.get t = i then x.get (col.get t * ldx + k) else 0) else 0) y)) := by
    by_cases hn : n0 = 0
    · subst hn
      simp only [ne_eq, not_true, if_false, Ok_pure]
      intro y _
      refine (IsBlock.refl m bs ldy y).congr (fun i _ k _ => ?_)
      rw [← s0 (fun r c _ => if r = i then x.get (c * ldx + k) else 0)]; simp
    · rw [if_pos hn]
      simp only [Ok_bind, Ok_pure]
      refine (csrZOInit_ok m n n0 P0.row P0.col P0.dat 1 jN T0 hm).mono ?_
      rintro A ⟨a1, a2, a3, a4, a5⟩ y hy
      refine (csrZOMM_ok good_exact false md bs A m n n0 P0.row P0.col P0.dat T0 so0 a1 a4 a2 a5 x ldx y ldy hmd hbs hx hy
        (by simp)).mono ?_
      intro z hz
      refine hz.congr (fun i _ k _ => ?_)
      rw [← s0 (fun r c _ => if r = i then x.get (c * ldx + k) else 0)]
      rfl
  have mone : Ok (if n1 ≠ 0 then do
      let A ← csrZOInit m n1 P1.row P1.col (-1 : K) jN
      pure (some A) else pure none) (fun o => ∀ y : Arr K, Fits m bs ldy y →
        Ok (match o with | some B => csrZOMM exactOps true md bs B x ldx y ldy | none => pure y)
        (IsBlock m bs ldy (fun i k => y.get (i * ldy + k) + ∑ t ∈ range nnz, if cls (-1) (dat.get t) = 1 then
          (if row.get t = i then - x.get (col.get t * ldx + k) else 0) else 0) y)) := by
    by_cases hn : n1 = 0
    · subst hn
      simp only [ne_eq, not_true, if_false, Ok_pure]
      intro y _
      refine (IsBlock.refl m bs ldy y).congr (fun i _ k _ => ?_)
      rw [← s1 (fun r c _ => if r = i then - x.get (c * ldx + k) else 0)]; simp
    · rw [if_pos hn]
      simp only [Ok_bind, Ok_pure]
      refine (csrZOInit_ok m n n1 P1.row P1.col P1.dat (-1) jN T1 hm).mono ?_
      rintro A ⟨a1, a2, a3, a4, a5⟩ y hy
      refine (csrZOMM_ok good_exact true md bs A m n n1 P1.row P1.col P1.dat T1 so1 a1 a4 a2 a5 x ldx y ldy hmd hbs hx hy
        (by simp)).mono ?_
      intro z hz
      refine hz.congr (fun i _ k _ => ?_)
      rw [← s1 (fun r c _ => if r = i then - x.get (c * ldx + k) else 0)]
      rfl
  have oth : Ok (if n2 ≠ 0 then do
      let A ← csrInit kmax m n2 P2.row P2.col P2.dat jN jK
      pure (some A) else pure none) (fun o => ∀ y : Arr K, Fits m bs ldy y →
        Ok (match o with | some B => csrMM exactOps md bs B x ldx y ldy | none => pure y)
        (IsBlock m bs ldy (fun i k => y.get (i * ldy + k) + ∑ t ∈ range nnz, if cls (-1) (dat.get t) = 2 then
          (if row.get t = i then dat.get t * x.get (col.get t * ldx + k) else 0) else 0) y)) := by
    by_cases hn : n2 = 0
    · subst hn
      simp only [ne_eq, not_true, if_false, Ok_pure]
      intro y _
      refine (IsBlock.refl m bs ldy y).congr (fun i _ k _ => ?_)
      rw [← s2 (fun r c d => if r = i then d * x.get (c * ldx + k) else 0)]; simp
    · rw [if_pos hn]
      simp only [Ok_bind, Ok_pure]
      refine (csrInit_ok kmax m n n2 P2.row P2.col P2.dat jN jK T2 hm).mono ?_
      rintro A ⟨a1, a2, a3, a4, a5, a6, a7, a8, _⟩ y hy
      refine (csrMM_ok good_exact md bs A m n n2 P2.row P2.col P2.dat T2 so2 a1 a6 a3 a4 a7 a8 x ldx y ldy hmd hbs hx hy
        (by simp [blockSize])).mono ?_
      intro z hz
      refine hz.congr (fun i _ k _ => ?_)
      rw [← s2 (fun r c d => if r = i then d * x.get (c * ldx + k) else 0)]
      rfl
  refine one.mono (fun o1 ho1 => mone.mono (fun o2 ho2 => oth.mono (fun o3 ho3 y hy => ?_)))
  unfold hybMM
  simp only [Ok_bind]
  refine (ho1 y hy).mono ?_
  intro z1 v1
  refine (ho2 z1 (hy.of_len v1.1)).mono ?_
  intro z2 v2
  refine (ho3 z2 (hy.of_len (v2.1.trans v1.1))).mono ?_
  intro z3 v3
  refine ((v1.trans v2).trans v3).congr (fun i hi k hk => ?_)
  rw [v2.2.1 i hi k hk]
  dsimp only
  rw [v1.2.1 i hi k hk]
  ring

/-- Scaling the block before the product, for `beta` zero or one. -/
lemma initY2_ok (m n : ℕ) (beta : K) (hb : beta = 0 ∨ beta = 1) (ldy : ℕ) (hn : n ≤ ldy) (y : Arr K)
    (hy : Fits m n ldy y) :
    Ok (initY2 m n beta ldy y) (IsBlock m n ldy (fun i k => beta * y.get (i * ldy + k)) y) := by
  unfold initY2
  by_cases h1 : beta = 1
  · rw [if_neg (by simpa using h1), Ok_pure]
    exact (IsBlock.refl m n ldy y).congr (fun i _ k _ => by rw [h1, one_mul])
  · have h0 : beta = 0 := by tauto
    rw [if_pos h1, if_pos h0]
    refine rows_ok m n ldy hn _ _ y ?_
    intro i hi z hz1 hz2
    have := hy i hi
    refine (Ok_iter (fun k (w : Arr K) => Pre (i * ldy) (fun k => beta * y.get (i * ldy + k)) z k w)
      (Pre.zero _ _ _) ?_).mono (fun w hw => hw)
    rintro k w hk ⟨w1, w2, w3⟩
    simp only [Ok_wr]
    refine ⟨by omega, w1, fun k' hk' => ?_, fun p hp => ?_⟩
    · by_cases e : k' = k
      · subst e; simp [h0]
      · dsimp only; rw [Function.update_of_ne (by omega)]; exact w2 k' (by omega)
    · dsimp only; rw [Function.update_of_ne (by omega)]; exact w3 p (by omega)

end Hyb

end Verif.Sparse
