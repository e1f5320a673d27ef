import Verif.Model.RnsElt
import Verif.Proofs.TrsmMP

/-!
# Proofs about the elements of `RNSIntegerMod`
-/

namespace Verif.MP

open Verif.RNS Verif.FF Verif.Lazy

/-- the residues of the integer `z` are in element `x` -/
def Holds (R : Rns) (A : Arr ℤ) (x : Elt) (z : ℤ) : Prop := ∀ t < R.size, x.ptr + t * x.stride < A.len ∧ A.get (x.ptr + t * x.stride) = z % R.basis t

/-- address `a` is one of the residues of `x` -/
def Elt.Has (R : Rns) (x : Elt) (a : ℕ) : Prop := ∃ t < R.size, a = x.ptr + t * x.stride

/-- the low `16 k` bits of the absolute value, with the sign -/
def trunc (k : ℕ) (y : ℤ) : ℤ := y.sign * (y.natAbs % 2 ^ (16 * k) : ℕ)

section trunc

lemma word_big {x l : ℕ} (h : limbWords x ≤ l) : word x l = 0 := by
  have h1 : x < 2 ^ (16 * l) := lt_of_lt_of_le (Nat.lt_size_self x) (Nat.pow_le_pow_right (by norm_num) (by unfold limbWords at h; omega))
  unfold word
  rw [Nat.div_eq_of_lt h1, Nat.zero_mod]

lemma dig_eq {k l : ℕ} (hl : l < k) (a : ℤ) :
    (if l < min k (limbWords a.natAbs) then (if 0 ≤ a then (word a.natAbs l : ℤ) else -(word a.natAbs l : ℤ)) else 0) = a.sign * word a.natAbs l := by
  by_cases h : l < limbWords a.natAbs
  · rw [if_pos (by omega)]
    rcases lt_trichotomy a 0 with h1 | h1 | h1
    · rw [if_neg (by omega), Int.sign_eq_neg_one_of_neg h1]; ring
    · subst h1; simp [word]
    · rw [if_pos (by omega), Int.sign_eq_one_of_pos h1]; ring
  · rw [if_neg (by omega), word_big (by omega)]; simp

lemma word_mod {x k l : ℕ} (hl : l < k) : word (x % 2 ^ (16 * k)) l = word x l := by
  unfold word
  have e : 2 ^ (16 * k) = 2 ^ (16 * l) * 2 ^ (16 * (k - l)) := by rw [← pow_add]; congr 1; omega
  rw [e, Nat.mod_mul_right_div_self, Nat.mod_mod_of_dvd]
  exact pow_dvd_pow _ (by omega)

lemma dig_trunc {k l : ℕ} (hl : l < k) (y : ℤ) : (trunc k y).sign * word (trunc k y).natAbs l = y.sign * word y.natAbs l := by
  rw [← word_mod (x := y.natAbs) hl]
  rcases lt_trichotomy y 0 with h1 | h1 | h1
  · have e : trunc k y = -((y.natAbs % 2 ^ (16 * k) : ℕ) : ℤ) := by unfold trunc; rw [Int.sign_eq_neg_one_of_neg h1]; ring
    rw [e, Int.natAbs_neg, Int.natAbs_natCast, Int.sign_eq_neg_one_of_neg h1]
    generalize y.natAbs % 2 ^ (16 * k) = q
    rcases Nat.eq_zero_or_pos q with rfl | hq
    · simp [word]
    · rw [Int.sign_eq_neg_one_of_neg (by omega)]
  · subst h1; simp [trunc]
  · have e : trunc k y = ((y.natAbs % 2 ^ (16 * k) : ℕ) : ℤ) := by unfold trunc; rw [Int.sign_eq_one_of_pos h1]; ring
    rw [e, Int.natAbs_natCast, Int.sign_eq_one_of_pos h1]
    generalize y.natAbs % 2 ^ (16 * k) = q
    rcases Nat.eq_zero_or_pos q with rfl | hq
    · simp [word]
    · rw [Int.sign_eq_one_of_pos (by omega)]

lemma iter_congr {σ : Type} {n : ℕ} {f g : ℕ → σ → Except Fault σ} (h : ∀ i < n, ∀ s, f i s = g i s) (s : σ) : iter n f s = iter n g s := by
  induction n with
  | zero => rfl
  | succ n ih =>
    simp only [iter]
    rw [ih (fun i hi => h i (by omega))]
    congr 1
    funext t
    exact h n (by omega) t

lemma split_trunc (k : ℕ) (y : ℤ) (junk : ℕ → ℤ) : split false 1 1 k 1 (Arr.ofList [y]) junk = split false 1 1 k 1 (Arr.ofList [trunc k y]) junk := by
  unfold split
  refine iter_congr (fun i hi B => ?_) _
  have hi : i = 0 := by omega
  subst hi
  simp only [Arr.rd, Arr.ofList, bind, Except.bind]
  norm_num
  refine iter_congr (fun l hl B => ?_) _
  have h1 := dig_eq hl y
  have h2 := dig_eq hl (trunc k y)
  rw [dig_trunc hl] at h2
  simp only [lt_min_iff] at h1 h2
  rw [h1, h2]

lemma init_trunc (R : Rns) (B : Arr ℤ) (k : ℕ) (y : ℤ) (junk : ℕ → ℤ) (sched : ℕ → ℕ → SumTree) :
    init R false false 1 1 B 1 (Arr.ofList [y]) 1 k junk sched = init R false false 1 1 B 1 (Arr.ofList [trunc k y]) 1 k junk sched := by
  unfold init
  rw [split_trunc]

lemma trunc_lt (k : ℕ) (y : ℤ) : (trunc k y).natAbs < 2 ^ (16 * k) := by
  unfold trunc
  rw [Int.natAbs_mul, Int.natAbs_natCast]
  have h1 : y.sign.natAbs ≤ 1 := by rcases lt_trichotomy y 0 with h | h | h <;> simp [Int.sign_eq_neg_one_of_neg, Int.sign_eq_one_of_pos, h]
  have h2 : y.natAbs % 2 ^ (16 * k) < 2 ^ (16 * k) := Nat.mod_lt _ (by positivity)
  exact lt_of_le_of_lt ((Nat.mul_le_mul_right _ h1).trans (by rw [Nat.one_mul])) h2

lemma trunc_small {k : ℕ} {y : ℤ} (h : y.natAbs < 2 ^ (16 * k)) : trunc k y = y := by
  unfold trunc
  rw [Nat.mod_eq_of_lt h, Int.sign_mul_natAbs]

end trunc

section elt
variable {E : Env} {R : Rns} {bound pbits p : ℕ} {A : Arr ℤ}

lemma initRes_spec (hs : ∀ c k t idx, (E.sched c k t idx).Covers k) (h : Good R bound pbits) (hp : p ≤ prodM R.size R.basis) (y : ℤ) :
    Ok (initRes E R p y) (fun B => B.len = R.size ∧ ∀ t < R.size, B.get t = trunc (modWords p) y % R.basis t) := by
  have hw : modWords p ≤ words (prodM R.size R.basis) := up16_le_words hp (prodM_pos h.cop)
  unfold initRes
  rw [init_trunc]
  refine (init_spec R R.size R.basis h.cop h.pre false false 1 1 _ 1 _ 1 _ _ _ (fun t idx => hs _ _ _ _) (by rw [h.pre.ldm_eq]; exact hw) (h.fitIn hw)
    (fun i hi j hj => by simp only [Arr.ofList, List.length_singleton]; omega) (fun i hi j hj => ?_) ?_).mono ?_
  · have : j + i * 1 = 0 := by omega
    rw [this]
    exact trunc_lt _ _
  · simp only [AddrOk, Bool.false_eq_true, if_false, Arr.mk']
    exact ⟨le_rfl, fun t ht idx hi => by omega⟩
  · rintro B ⟨h1, h2, -⟩
    refine ⟨h1, fun t ht => ?_⟩
    simpa [addr, colOf, rowOf, Arr.ofList] using h2 t ht 0 (by omega)

lemma rdAt_spec {ptr s : ℕ} (h : ∀ t < R.size, ptr + t * s < A.len) :
    Ok (rdAt R A ptr s) (fun v => v.len = R.size ∧ ∀ t < R.size, v.get t = A.get (ptr + t * s)) := by
  unfold rdAt
  refine (Ok_fill R.size id (fun t => A.rd (ptr + t * s)) (fun t => A.get (ptr + t * s)) (Arr.mk' R.size (fun _ => 0))
    (fun t ht => by unfold Arr.rd; rw [if_pos (h t ht)]) (fun t ht => ht) (fun _ _ _ _ h => h)).mono ?_
  rintro v ⟨h1, h2, -⟩
  exact ⟨h1, h2⟩

/-- distinct residues of an element are at distinct addresses -/
lemma elt_inj {ptr s : ℕ} (hs : 0 < s) {t t' : ℕ} (h : ptr + t * s = ptr + t' * s) : t = t' := Nat.eq_of_mul_eq_mul_right hs (by omega)

lemma wrElt_spec {x : Elt} {v : Arr ℤ} {z : ℤ} (hx : 0 < x.stride) (h : ∀ t < R.size, x.ptr + t * x.stride < A.len) (hv : v.len = R.size)
    (hz : ∀ t < R.size, v.get t = z % R.basis t) :
    Ok (wrElt R A x v) (fun B => B.len = A.len ∧ Holds R B x z ∧ ∀ a, ¬ x.Has R a → B.get a = A.get a) := by
  unfold wrElt
  refine (Ok_fill R.size (fun t => x.ptr + t * x.stride) (fun t => v.rd t) (fun t => v.get t) A
    (fun t ht => by unfold Arr.rd; rw [if_pos (by omega)]) h (fun s _ t _ h => elt_inj hx h)).mono ?_
  rintro B ⟨h1, h2, h3⟩
  refine ⟨h1, fun t ht => ⟨by rw [h1]; exact h t ht, by rw [h2 t ht, hz t ht]⟩, fun a ha => h3 a (fun t ht e => ha ⟨t, ht, e⟩)⟩

lemma Holds.lt {x : Elt} {z : ℤ} (h : Holds R A x z) : ∀ t < R.size, x.ptr + t * x.stride < A.len := fun t ht => (h t ht).1

lemma eltInit_spec (hs : ∀ c k t idx, (E.sched c k t idx).Covers k) (h : Good R bound pbits) (hp : p ≤ prodM R.size R.basis) {x : Elt} (hx : 0 < x.stride)
    (hl : ∀ t < R.size, x.ptr + t * x.stride < A.len) (y : ℤ) :
    Ok (eltInit E R p A x y) (fun B => B.len = A.len ∧ Holds R B x (trunc (modWords p) y) ∧ ∀ a, ¬ x.Has R a → B.get a = A.get a) := by
  unfold eltInit
  rw [Ok_bind]
  refine (initRes_spec hs h hp y).mono ?_
  rintro v ⟨h1, h2⟩
  exact wrElt_spec hx hl h1 h2

lemma eltConvert_spec (hs : ∀ c k t idx, (E.sched c k t idx).Covers k) (h : Good R bound pbits) {x : Elt} {z : ℤ} (hz : Holds R A x z)
    (hb : 2 * |z| < prodM R.size R.basis) : Ok (eltConvert E R A x) (fun t => t = z) := by
  unfold eltConvert
  simp only [Ok_bind]
  refine (rdAt_spec hz.lt).mono ?_
  rintro v ⟨h1, h2⟩
  refine (fconv_spec hs h 1 1 0 (Arr.ofList [0]) 1 v (by rw [h1]; ring) (fun i hi j hj => by simp only [Arr.ofList, List.length_singleton]; omega) le_rfl (fun _ _ => z)
    (fun i hi j hj => by rw [Int.abs_eq_natAbs] at hb; omega) (fun t ht i hi j hj => ?_)).mono ?_
  · have e : t * (1 * 1) + (i * 1 + j) = t := by omega
    rw [e, h2 t ht, (hz t ht).2]
  · rintro d ⟨d1, d2, -⟩
    rw [Ok_rd]
    refine ⟨by rw [d1]; simp [Arr.ofList], ?_⟩
    have := d2 0 (by omega) 0 (by omega)
    simpa using this

lemma iter_and {n : ℕ} {f g : ℕ → ℤ} {v w : Arr ℤ} (hv : v.len = n) (hw : w.len = n) (h1 : ∀ t < n, v.get t = f t) (h2 : ∀ t < n, w.get t = g t) :
    Ok (iter n (fun i (b : Bool) => do
      let s ← v.rd i
      let t ← w.rd i
      pure (b && decide (s = t))) true) (fun b => b = true ↔ ∀ t < n, f t = g t) := by
  refine Ok_iter (fun k (b : Bool) => b = true ↔ ∀ t < k, f t = g t) (by simp) ?_
  intro k b hk hb
  simp only [Ok_bind, Ok_rd, Ok_pure]
  refine ⟨by omega, by omega, ?_⟩
  rw [h1 k hk, h2 k hk, Bool.and_eq_true, hb, decide_eq_true_eq]
  constructor
  · rintro ⟨h3, h4⟩ t ht
    rcases Nat.lt_succ_iff_lt_or_eq.1 ht with h | rfl
    · exact h3 t h
    · exact h4
  · intro h3
    exact ⟨fun t ht => h3 t (by omega), h3 k (by omega)⟩

lemma sameRaw_spec {x : Elt} {c : Arr ℤ} {z : ℤ} (hl : ∀ t < R.size, x.ptr + t < A.len) (hc : c.len = R.size) (hz : ∀ t < R.size, c.get t = z % R.basis t) :
    Ok (sameRaw R A x c) (fun b => b = true ↔ ∀ t < R.size, z % R.basis t = A.get (x.ptr + t)) := by
  unfold sameRaw
  rw [Ok_bind]
  refine (rdAt_spec (fun t ht => by rw [Nat.mul_one]; exact hl t ht)).mono ?_
  rintro v ⟨h1, h2⟩
  refine iter_and hc h1 hz (fun t ht => by rw [h2 t ht, Nat.mul_one])

/-- integers with the same residues -/
lemma eq_of_res (h : Good R bound pbits) {y z : ℤ} (hr : ∀ t < R.size, y % R.basis t = z % R.basis t) (hb : |y - z| < prodM R.size R.basis) : y = z := by
  have hd : ((prodM R.size R.basis : ℕ) : ℤ) ∣ y - z := by
    unfold prodM
    push_cast
    refine Finset.prod_dvd_of_coprime (fun i hi j hj hij => ?_) (fun t ht => ?_)
    · have := h.cop.cop i (Finset.mem_range.1 hi) j (Finset.mem_range.1 hj) hij
      exact Nat.isCoprime_iff_coprime.2 this
    · exact Int.ModEq.dvd (hr t (Finset.mem_range.1 ht)).symm
  have := Int.eq_zero_of_abs_lt_dvd hd hb
  omega

/-! ## Arithmetic -/

lemma addF_spec {m : ℕ} (hm : 0 < m) (y z : ℤ) : addF m (y % m) (z % m) = (y + z) % m := by
  have h1 := Int.emod_nonneg y (show (m : ℤ) ≠ 0 by omega)
  have h2 := Int.emod_nonneg z (show (m : ℤ) ≠ 0 by omega)
  have h3 := Int.emod_lt_of_pos y (show (0 : ℤ) < m by omega)
  have h4 := Int.emod_lt_of_pos z (show (0 : ℤ) < m by omega)
  unfold addF
  rw [Int.add_emod]
  split_ifs with h
  · rw [Int.emod_eq_of_lt (a := y % m + z % m) (by omega) h]
  · rw [← Int.sub_emod_right (y % m + z % m), Int.emod_eq_of_lt (a := y % m + z % m - m) (by omega) (by omega)]

lemma subF_spec {m : ℕ} (hm : 0 < m) (y z : ℤ) : subF m (y % m) (z % m) = (y - z) % m := by
  have h1 := Int.emod_nonneg y (show (m : ℤ) ≠ 0 by omega)
  have h2 := Int.emod_nonneg z (show (m : ℤ) ≠ 0 by omega)
  have h3 := Int.emod_lt_of_pos y (show (0 : ℤ) < m by omega)
  have h4 := Int.emod_lt_of_pos z (show (0 : ℤ) < m by omega)
  unfold subF
  rw [Int.sub_emod]
  split_ifs with h
  · rw [← Int.add_emod_right (y % m - z % m), Int.emod_eq_of_lt (a := y % m - z % m + m) (by omega) (by omega)]
  · rw [Int.emod_eq_of_lt (a := y % m - z % m) (by omega) (by omega)]

lemma negF_spec {m : ℕ} (hm : 0 < m) (y : ℤ) : negF m (y % m) = (-y) % m := by
  have h1 := Int.emod_nonneg y (show (m : ℤ) ≠ 0 by omega)
  have h3 := Int.emod_lt_of_pos y (show (0 : ℤ) < m by omega)
  have e : (-y) % m = (-(y % m)) % m := ((Int.mod_modEq y m).neg).symm
  unfold negF
  rw [e]
  split_ifs with h
  · rw [h]; simp
  · rw [← Int.add_emod_right (-(y % m)), Int.emod_eq_of_lt (a := -(y % m) + m) (by omega) (by omega)]; ring

lemma mulF_spec (m : ℕ) (y z : ℤ) : mulF m (y % m) (z % m) = (y * z) % m := by unfold mulF; rw [← Int.mul_emod]

/-- the cells of two elements of a matrix: the same element, or no common cell -/
def Apart (R : Rns) (x y : Elt) : Prop := x = y ∨ ∀ s < R.size, ∀ t < R.size, x.ptr + s * x.stride ≠ y.ptr + t * y.stride

lemma Apart.ne {x y : Elt} (h : Apart R x y) (hx : 0 < x.stride) {s t : ℕ} (hs : s < R.size) (ht : t < R.size) (hne : s ≠ t) :
    y.ptr + t * y.stride ≠ x.ptr + s * x.stride := by
  rcases h with rfl | h
  · exact fun e => hne (elt_inj hx e).symm
  · exact fun e => h s hs t ht e.symm

/-- a loop that writes residue `i` of `x` from residues `i` -/
lemma elt_loop {x : Elt} {f : ℕ → Arr ℤ → Except Fault (Arr ℤ)} {z : ℤ} (hx : 0 < x.stride) (hl : ∀ t < R.size, x.ptr + t * x.stride < A.len)
    (hf : ∀ i < R.size, ∀ B : Arr ℤ, B.len = A.len → (∀ a, (∀ s < i, a ≠ x.ptr + s * x.stride) → B.get a = A.get a) →
      f i B = B.wr (x.ptr + i * x.stride) (z % R.basis i)) :
    Ok (iter R.size f A) (fun B => B.len = A.len ∧ Holds R B x z ∧ ∀ a, ¬ x.Has R a → B.get a = A.get a) := by
  refine (Ok_iter (fun k (B : Arr ℤ) => B.len = A.len ∧ (∀ t < k, B.get (x.ptr + t * x.stride) = z % R.basis t) ∧
    ∀ a, (∀ s < k, a ≠ x.ptr + s * x.stride) → B.get a = A.get a) ⟨rfl, by simp, by simp⟩ ?_).mono ?_
  · rintro k B hk ⟨h1, h2, h3⟩
    rw [hf k hk B h1 h3, Ok_wr]
    refine ⟨by rw [h1]; exact hl k hk, h1, fun t ht => ?_, fun a ha => ?_⟩
    · by_cases e : t = k
      · subst e; simp
      · simp only
        rw [Function.update_of_ne (fun e' => e (elt_inj hx e'))]
        exact h2 t (by omega)
    · simp only
      rw [Function.update_of_ne (ha k (by omega))]
      exact h3 a (fun s hs => ha s (by omega))
  · rintro B ⟨h1, h2, h3⟩
    exact ⟨h1, fun t ht => ⟨by rw [h1]; exact hl t ht, h2 t ht⟩, fun a ha => h3 a (fun s hs e => ha ⟨s, hs, e⟩)⟩

lemma rd_keep {x y : Elt} {Y : ℤ} {B : Arr ℤ} {i : ℕ} (hx : 0 < x.stride) (hy : Holds R A y Y) (hap : Apart R x y) (hi : i < R.size) (hB : B.len = A.len)
    (hk : ∀ a, (∀ s < i, a ≠ x.ptr + s * x.stride) → B.get a = A.get a) : B.rd (y.ptr + i * y.stride) = .ok (Y % R.basis i) := by
  unfold Arr.rd
  rw [if_pos (by rw [hB]; exact (hy i hi).1), hk _ (fun s hs => hap.ne hx (by omega) hi (by omega)), (hy i hi).2]

lemma eltBin_spec {f : ℕ → ℤ → ℤ → ℤ} {x y z : Elt} {Y Z V : ℤ} (hx : 0 < x.stride) (hl : ∀ t < R.size, x.ptr + t * x.stride < A.len)
    (hy : Holds R A y Y) (hz : Holds R A z Z) (hxy : Apart R x y) (hxz : Apart R x z) (hf : ∀ t < R.size, f (R.basis t) (Y % R.basis t) (Z % R.basis t) = V % R.basis t) :
    Ok (eltBin R f A x y z) (fun B => B.len = A.len ∧ Holds R B x V ∧ ∀ a, ¬ x.Has R a → B.get a = A.get a) := by
  unfold eltBin
  refine elt_loop hx hl (fun i hi B hB hk => ?_)
  rw [rd_keep hx hy hxy hi hB hk, rd_keep hx hz hxz hi hB hk]
  simp only [bind, Except.bind]
  rw [hf i hi]

lemma eltUn_spec {f : ℕ → ℤ → ℤ} {x y : Elt} {Y V : ℤ} (hx : 0 < x.stride) (hl : ∀ t < R.size, x.ptr + t * x.stride < A.len)
    (hy : Holds R A y Y) (hxy : Apart R x y) (hf : ∀ t < R.size, f (R.basis t) (Y % R.basis t) = V % R.basis t) :
    Ok (eltUn R f A x y) (fun B => B.len = A.len ∧ Holds R B x V ∧ ∀ a, ¬ x.Has R a → B.get a = A.get a) := by
  unfold eltUn
  refine elt_loop hx hl (fun i hi B hB hk => ?_)
  rw [rd_keep hx hy hxy hi hB hk]
  simp only [bind, Except.bind]
  rw [hf i hi]

lemma eltAxpyin_spec {x y z : Elt} {X Y Z : ℤ} (hx : 0 < x.stride) (hX : Holds R A x X)
    (hy : Holds R A y Y) (hz : Holds R A z Z) (hxy : Apart R x y) (hxz : Apart R x z) :
    Ok (eltAxpyin R A x y z) (fun B => B.len = A.len ∧ Holds R B x (X + Y * Z) ∧ ∀ a, ¬ x.Has R a → B.get a = A.get a) := by
  unfold eltAxpyin
  refine elt_loop hx hX.lt (fun i hi B hB hk => ?_)
  rw [rd_keep hx hy hxy hi hB hk, rd_keep hx hz hxz hi hB hk, rd_keep hx hX (Or.inl rfl) hi hB hk]
  simp only [bind, Except.bind]
  congr 1
  have h1 : Y % R.basis i * (Z % R.basis i) + X % R.basis i ≡ Y * Z + X [ZMOD R.basis i] :=
    ((Int.mod_modEq _ _).mul (Int.mod_modEq _ _)).add (Int.mod_modEq _ _)
  rw [add_comm X]
  exact h1

end elt

end Verif.MP
