import Verif.Proofs.RnsElt
import Verif.Props.TrsmMP

/-!
# C113: elements of `RNSIntegerMod`
-/

namespace Verif.Props

open Verif.MP Verif.RNS Verif.FF Verif.Lazy

/-- a residue system built by the constructor of `rns_double`, large enough for `p`, and the ways to sum its products -/
structure System (E : Env) (R : Rns) (p : ℕ) : Prop where
  good : ∃ bound pbits, Good R bound pbits
  sched : ∀ c k t idx, (E.sched c k t idx).Covers k
  two : 2 ≤ p
  fits : 2 * (p + 1) < prodM R.size R.basis

section elt
variable {E : Env} {R : Rns} {p : ℕ} {A : Arr ℤ} {x y z : Elt} {X Y Z : ℤ}

/-- the state after an operation: `x` holds the integer `z` and nothing else has changed -/
def Sets (R : Rns) (A : Arr ℤ) (x : Elt) (z : ℤ) (B : Arr ℤ) : Prop := B.len = A.len ∧ Holds R B x z ∧ ∀ a, ¬ x.Has R a → B.get a = A.get a

/-- the element is in the array -/
def Within (R : Rns) (A : Arr ℤ) (x : Elt) : Prop := 0 < x.stride ∧ ∀ t < R.size, x.ptr + t * x.stride < A.len

/-- C113: `init` of an integer that fits the words of `p`. -/
theorem C113_init_partial (S : System E R p) (hx : Within R A x) (v : ℤ) (hv : v.natAbs < 2 ^ (16 * modWords p)) :
    Ok (eltInit E R p A x v) (Sets R A x v) := by
  obtain ⟨_, _, g⟩ := S.good
  have h := eltInit_spec S.sched g (p := p) (by have := S.fits; omega) hx.1 hx.2 v
  rwa [trunc_small hv] at h

/-- C113: `init` reads the low words of larger integers only: `2^(16 k)` becomes zero, although it is not divisible by an odd `p`. -/
theorem C113_init_violated (S : System E R p) (hodd : p % 2 = 1) (hx : Within R A x) :
    Ok (eltInit E R p A x (2 ^ (16 * modWords p))) (Sets R A x 0) ∧ ¬ (p : ℤ) ∣ 2 ^ (16 * modWords p) := by
  obtain ⟨_, _, g⟩ := S.good
  have h := eltInit_spec S.sched g (p := p) (by have := S.fits; omega) hx.1 hx.2 (2 ^ (16 * modWords p))
  have e : trunc (modWords p) (2 ^ (16 * modWords p)) = 0 := by
    unfold trunc
    have : ((2 : ℤ) ^ (16 * modWords p)).natAbs = 2 ^ (16 * modWords p) := by rw [Int.natAbs_pow]; rfl
    rw [this, Nat.mod_self]; simp
  rw [e] at h
  refine ⟨h, fun hd => ?_⟩
  have hc : Nat.Coprime p (2 ^ (16 * modWords p)) := Nat.Coprime.pow_right _ (by
    rw [Nat.coprime_comm, Nat.Coprime, Nat.gcd_rec, hodd]; decide)
  have hd' : p ∣ 2 ^ (16 * modWords p) := by exact_mod_cast hd
  have := Nat.Coprime.eq_one_of_dvd hc hd'
  have := S.two
  omega

/-- C113: `convert` returns the integer, for integers in the symmetric range of the residue system. -/
theorem C113_convert (S : System E R p) (hx : Holds R A x X) (hb : 2 * |X| < prodM R.size R.basis) : Ok (eltConvert E R A x) (fun v => v = X) := by
  obtain ⟨_, _, g⟩ := S.good
  exact eltConvert_spec S.sched g hx hb

/-- C113: the arithmetic operations compute the sum, difference, product, … of the integers, whatever the strides, and if the operands are the
same element. -/
theorem C113_arith (S : System E R p) (hx : Within R A x) (hy : Holds R A y Y) (hz : Holds R A z Z) (hxy : Apart R x y) (hxz : Apart R x z) :
    Ok (eltBin R addF A x y z) (Sets R A x (Y + Z)) ∧ Ok (eltBin R subF A x y z) (Sets R A x (Y - Z)) ∧ Ok (eltBin R mulF A x y z) (Sets R A x (Y * Z)) ∧
    Ok (eltUn R negF A x y) (Sets R A x (-Y)) ∧ Ok (eltUn R (fun _ a => a) A x y) (Sets R A x Y) ∧
    (∀ X, Holds R A x X → Ok (eltAxpyin R A x y z) (Sets R A x (X + Y * Z))) := by
  obtain ⟨_, _, g⟩ := S.good
  have bp : ∀ t < R.size, 0 < R.basis t := fun t ht => (g.pr t ht).pos
  exact ⟨eltBin_spec hx.1 hx.2 hy hz hxy hxz (fun t ht => addF_spec (bp t ht) _ _), eltBin_spec hx.1 hx.2 hy hz hxy hxz (fun t ht => subF_spec (bp t ht) _ _),
    eltBin_spec hx.1 hx.2 hy hz hxy hxz (fun t ht => mulF_spec _ _ _), eltUn_spec hx.1 hx.2 hy hxy (fun t ht => negF_spec (bp t ht) _),
    eltUn_spec hx.1 hx.2 hy hxy (fun _ _ => rfl), fun X hX => eltAxpyin_spec hx.1 hX hy hz hxy hxz⟩

/-- C113: `reduce` leaves the canonical representative. -/
theorem C113_reduce (S : System E R p) (hx : Within R A x) (hy : Holds R A y Y) (hb : 2 * |Y| < prodM R.size R.basis) :
    Ok (eltReduce E R p A x y) (Sets R A x (Y % p)) := by
  unfold eltReduce
  rw [Ok_bind]
  refine (C113_convert S hy hb).mono ?_
  intro c hc'
  rw [hc']
  have p0 : (0 : ℤ) < p := by have := S.two; omega
  refine C113_init_partial S hx _ (natAbs_lt_up16 ?_)
  have h1 := Int.emod_nonneg Y p0.ne'
  have h2 := Int.emod_lt_of_pos Y p0
  omega

/-- C113: `inv` returns the inverse modulo `p`, reduced. -/
theorem C113_inv (S : System E R p) (hx : Within R A x) (hy : Holds R A y Y) (hb : 2 * |Y| < prodM R.size R.basis) (hc : IsCoprime Y p) :
    Ok (eltInv E R p A x y) (fun B => ∃ v : ℤ, 0 ≤ v ∧ v < p ∧ Y * v ≡ 1 [ZMOD p] ∧ Sets R A x v B) := by
  unfold eltInv
  simp only [Ok_bind]
  refine (C113_convert S hy hb).mono ?_
  intro c hc'
  rw [hc']
  have p0 : (0 : ℤ) < p := by have := S.two; omega
  have h1 := Int.emod_nonneg Y p0.ne'
  have h2 := Int.emod_lt_of_pos Y p0
  have e1 : (((Y % p).toNat : ℕ) : ℤ) = Y % p := Int.toNat_of_nonneg h1
  have hcop : Nat.Coprime (Y % p).toNat p := by
    rw [← Nat.isCoprime_iff_coprime, e1]
    have := hc.add_mul_left_left (-(Y / p))
    rwa [show Y + (p : ℤ) * -(Y / p) = Y % p by have := Int.emod_add_mul_ediv Y p; linarith] at this
  obtain ⟨b, b1, b2, b3⟩ := modInv_ok (Y % p).toNat p S.two hcop
  rw [Nat.mod_eq_of_lt (by omega)] at b1
  refine ⟨b, b1, ?_⟩
  refine (C113_init_partial S hx (b : ℤ) (natAbs_lt_up16 (by omega))).mono (fun B hB => ⟨b, by omega, by omega, ?_, hB⟩)
  have b4 := (Int.natCast_modEq_iff.2 b3)
  push_cast at b4
  rw [Int.toNat_of_nonneg h1] at b4
  exact ((Int.mod_modEq Y p).symm.mul_right _).trans b4

/-- the value of `isZero`: also true if the first residue and the numbers that follow it in memory are zero -/
lemma isZero_spec (S : System E R p) (hx : Holds R A x X) (hb : 2 * |X| < prodM R.size R.basis) (hl : ∀ t < R.size, x.ptr + t < A.len) :
    Ok (eltIsZero E R p A x) (fun b => b = true ↔ (∀ t < R.size, A.get (x.ptr + t) = 0) ∨ (p : ℤ) ∣ X) := by
  obtain ⟨_, _, g⟩ := S.good
  unfold eltIsZero
  simp only [Ok_bind, Ok_pure]
  refine (C113_convert S hx hb).mono ?_
  rintro _ rfl
  refine (initRes_spec S.sched g (p := p) (by have := S.fits; omega) 0).mono ?_
  rintro c ⟨c1, c2⟩
  refine (sameRaw_spec hl c1 c2).mono (fun b hb => ?_)
  rw [Bool.or_eq_true, hb, decide_eq_true_eq, Int.dvd_iff_emod_eq_zero]
  have e : trunc (modWords p) 0 = 0 := by simp [trunc]
  rw [e]
  simp only [Int.zero_emod]
  refine or_congr ⟨fun h t ht => (h t ht).symm, fun h t ht => (h t ht).symm⟩ Iff.rfl

/-- C113: `isZero` of an element with its residues side by side. -/
theorem C113_isZero_partial (S : System E R p) (hs : x.stride = 1) (hx : Holds R A x X) (hb : 2 * |X| < prodM R.size R.basis) :
    Ok (eltIsZero E R p A x) (fun b => b = true ↔ (p : ℤ) ∣ X) := by
  obtain ⟨_, _, g⟩ := S.good
  refine (isZero_spec S hx hb (fun t ht => by have := (hx t ht).1; rwa [hs, Nat.mul_one] at this)).mono (fun b hb' => ?_)
  rw [hb']
  refine ⟨fun h => h.elim (fun h => ?_) id, Or.inr⟩
  have h0 : X = 0 := by
    refine eq_of_res g (z := 0) (fun t ht => ?_) (by rw [sub_zero]; have := abs_nonneg X; omega)
    have h1 := (hx t ht).2
    rw [hs, Nat.mul_one] at h1
    rw [← h1, h t ht, Int.zero_emod]
  rw [h0]; exact dvd_zero _

/-- C113: `isZero` recognises every multiple of `p`, with any stride. -/
theorem C113_isZero_zero (S : System E R p) (hx : Holds R A x X) (hb : 2 * |X| < prodM R.size R.basis) (hl : ∀ t < R.size, x.ptr + t < A.len)
    (hd : (p : ℤ) ∣ X) : Ok (eltIsZero E R p A x) (fun b => b = true) :=
  (isZero_spec S hx hb hl).mono (fun _ h => h.2 (Or.inr hd))

/-- a row of `n` entries with values `V`, stored as `fflas_new(Zp, 1, n)` and `finit_rns` do -/
def RowHolds (R : Rns) (A : Arr ℤ) (n : ℕ) (V : ℕ → ℤ) : Prop := A.len = R.size * n ∧ ∀ j < n, Holds R A ⟨j, n⟩ (V j)

lemma row_in {n j t : ℕ} (h : A.len = R.size * n) (hj : j < n) (ht : t < R.size) : j + t < A.len := by
  rw [h]
  obtain ⟨s, rfl⟩ : ∃ s, n = s + 1 := ⟨n - 1, by omega⟩
  obtain ⟨q, e⟩ : ∃ q, R.size = q + 1 := ⟨R.size - 1, by omega⟩
  rw [e]
  nlinarith

/-- C113: in a matrix, an entry is taken for zero because its residue modulo the first modulus, and those of its neighbours, are zero: here the entry is
the first modulus itself. -/
theorem C113_isZero_violated (S : System E R p) {n : ℕ} (hn : R.size ≤ n) (hpos : 0 < R.size) (hd : ¬ p ∣ R.basis 0) (hb : 2 * R.basis 0 < prodM R.size R.basis)
    (hA : RowHolds R A n (fun j => if j = 0 then (R.basis 0 : ℤ) else 0)) :
    Ok (eltIsZero E R p A ⟨0, n⟩) (fun b => b = true) ∧ ¬ (p : ℤ) ∣ (R.basis 0 : ℤ) := by
  refine ⟨?_, fun h => hd (by exact_mod_cast h)⟩
  have h0 := hA.2 0 (by omega)
  simp only [if_true] at h0
  refine (isZero_spec S h0 (by rw [Nat.abs_cast]; exact_mod_cast hb) (fun t ht => row_in hA.1 (show 0 < n by omega) ht)).mono (fun b hb' => hb'.2 (Or.inl (fun t ht => ?_)))
  have h1 := (hA.2 t (by omega) 0 hpos).2
  simp only [Nat.zero_mul, Nat.add_zero] at h1
  rw [Nat.zero_add, h1]
  split_ifs
  · exact Int.emod_self
  · exact Int.zero_emod _

/-- C113: the search for a pivot of `LUdivine` in this row finds none: the rank of a matrix that is not zero modulo `p` is 0. -/
theorem C113_pivot_violated (S : System E R p) {n : ℕ} (hn : R.size ≤ n) (hpos : 0 < R.size) (hd : ¬ p ∣ R.basis 0) (hb : 2 * R.basis 0 < prodM R.size R.basis)
    (hA : RowHolds R A n (fun j => if j = 0 then (R.basis 0 : ℤ) else 0)) :
    Ok (pivotSearch E R p n A n (n + 1) 0) (fun r => r = n) ∧ ¬ (p : ℤ) ∣ (R.basis 0 : ℤ) := by
  obtain ⟨h0, h1⟩ := C113_isZero_violated S hn hpos hd hb hA
  refine ⟨?_, h1⟩
  have hz : ∀ j < n, Ok (eltIsZero E R p A ⟨j, n⟩) (fun b => b = true) := by
    intro j hj
    rcases Nat.eq_zero_or_pos j with rfl | hj0
    · exact h0
    · have h2 := hA.2 j hj
      simp only [if_neg (show ¬ j = 0 by omega)] at h2
      exact C113_isZero_zero S h2 (by simp; exact Nat.pos_of_ne_zero (fun e => by rw [e] at hb; omega)) (fun t ht => row_in hA.1 hj ht) (dvd_zero _)
  have key : ∀ fuel j, j < n → n < fuel + j → Ok (pivotSearch E R p n A n fuel j) (fun r => r = n) := by
    intro fuel
    induction fuel with
    | zero => intro j hj hf; omega
    | succ fuel ih =>
      intro j hj hf
      unfold pivotSearch
      rw [Ok_bind]
      refine (hz j hj).mono ?_
      rintro b rfl
      rw [if_pos rfl]
      by_cases e : j + 1 = n
      · rw [if_pos e, Ok_pure]; exact e
      · rw [if_neg e]; exact ih (j + 1) (by omega) (by omega)
  exact key (n + 1) 0 (by omega) (by omega)

/-- C113: a pivot that is found is not zero modulo `p`. -/
theorem C113_pivot_partial (S : System E R p) {n : ℕ} {V : ℕ → ℤ} (hn : 0 < n) (hA : RowHolds R A n V) (hb : ∀ j < n, 2 * |V j| < prodM R.size R.basis) :
    Ok (pivotSearch E R p n A n (n + 1) 0) (fun r => r ≤ n ∧ (r < n → ¬ (p : ℤ) ∣ V r)) := by
  have key : ∀ fuel j, j < n → n < fuel + j → Ok (pivotSearch E R p n A n fuel j) (fun r => r ≤ n ∧ (r < n → ¬ (p : ℤ) ∣ V r)) := by
    intro fuel
    induction fuel with
    | zero => intro j hj hf; omega
    | succ fuel ih =>
      intro j hj hf
      unfold pivotSearch
      rw [Ok_bind]
      refine (isZero_spec S (hA.2 j hj) (hb j hj) (fun t ht => row_in hA.1 hj ht)).mono (fun b hb' => ?_)
      by_cases hbt : b = true
      · rw [if_pos hbt]
        by_cases e : j + 1 = n
        · rw [if_pos e, Ok_pure]; exact ⟨by omega, by omega⟩
        · rw [if_neg e]; exact ih (j + 1) (by omega) (by omega)
      · rw [if_neg hbt, Ok_pure]
        exact ⟨by omega, fun _ hd => hbt (hb'.2 (Or.inr hd))⟩
  exact key (n + 1) 0 hn (by omega)

/-- C113: `isOne` and `isMOne` compare representatives: `p + 1` is not one, `p - 1` is not minus one, and `areEqual` of `0` and `p` is false. -/
theorem C113_congruent_violated (S : System E R p) (hs : x.stride = 1) :
    (Holds R A x (p + 1) → Ok (eltIsOne E R p A x) (fun b => b = false)) ∧ (Holds R A x (p - 1) → Ok (eltIsMOne E R p A x) (fun b => b = false)) ∧
    (Holds R A x p → Holds R A y 0 → Ok (eltAreEqual R A x y) (fun b => b = false)) := by
  obtain ⟨_, _, g⟩ := S.good
  have hf : 2 * ((p : ℤ) + 1) < prodM R.size R.basis := by exact_mod_cast S.fits
  have p2 : (2 : ℤ) ≤ p := by exact_mod_cast S.two
  have w1 : ∀ v : ℤ, v.natAbs ≤ 1 → trunc (modWords p) v = v := fun v hv => trunc_small (natAbs_lt_up16 (by have := S.two; omega))
  have main : ∀ (c v : ℤ), c.natAbs ≤ 1 → Holds R A x v → c ≠ v → |c - v| < prodM R.size R.basis →
      Ok (initRes E R p c >>= sameRaw R A x) (fun b => b = false) := by
    intro c v hc hv hne hlt
    rw [Ok_bind]
    refine (initRes_spec S.sched g (p := p) (by have := S.fits; omega) c).mono ?_
    rintro d ⟨d1, d2⟩
    refine (sameRaw_spec (fun t ht => by have := (hv t ht).1; rwa [hs, Nat.mul_one] at this) d1 d2).mono (fun b hb => ?_)
    rw [← Bool.not_eq_true, hb, w1 c hc]
    intro h
    refine hne (eq_of_res g (fun t ht => ?_) hlt)
    have := (hv t ht).2
    rw [hs, Nat.mul_one] at this
    rw [h t ht, this]
  refine ⟨fun h => main 1 _ (by decide) h (by omega) (by rw [abs_lt]; omega), fun h => main (-1) _ (by decide) h (by omega) (by rw [abs_lt]; omega), fun hx hy => ?_⟩
  unfold eltAreEqual
  simp only [Ok_bind]
  refine (rdAt_spec hx.lt).mono ?_
  rintro v ⟨v1, v2⟩
  refine (rdAt_spec hy.lt).mono ?_
  rintro w ⟨u1, u2⟩
  refine (iter_and v1 u1 (fun t ht => (v2 t ht).trans (hx t ht).2) (fun t ht => (u2 t ht).trans (hy t ht).2)).mono (fun b hb => ?_)
  rw [← Bool.not_eq_true, hb]
  intro h
  have := eq_of_res g h (by rw [sub_zero, abs_lt]; omega)
  omega

end elt

section examples

/-- two moduli of 24 and 25 bits, for computations modulo 7 -/
lemma ex_system : Ok (mkRnsMod trsmEnv 392 25) (fun R => System trsmEnv R 7 ∧ R.size = 2 ∧ R.basis 0 = 8388617 ∧ R.basis 1 = 16777259) := by
  have hr : ReturnsMod trsmEnv 392 25 := by unfold ReturnsMod; decide +kernel
  have h := mkRnsMod_spec (n0 := 2) (w := 2 ^ 25) trsmEnv_ok hr (by norm_num) trsmEnv_ok.hi (by norm_num) (by norm_num)
  obtain ⟨R, e, g, -, -, -⟩ := h
  refine ⟨R, e, ⟨⟨_, _, g⟩, trsmEnv_ok.sched, by norm_num, ?_⟩, ?_⟩
  · have := g.bound; omega
  · have hb : (buildBound (trsmEnv.cand 25) 392 true trsmEnv.inner trsmEnv.fuel ⟨[], 1, 1, 0⟩).map (fun b => b.basis) = some [8388617, 16777259] := by decide +kernel
    obtain ⟨b, hb1, hb2⟩ := Option.map_eq_some_iff.1 hb
    unfold mkRnsMod at e
    rw [hb1] at e
    simp only [hb2] at e
    have hc : Coprime' 2 (fun i => [8388617, 16777259].getD i 0) := coprime_list [8388617, 16777259] (by
      intro q hq; simp at hq; rcases hq with rfl | rfl <;> norm_num) (by decide)
    obtain ⟨R', e', hR⟩ := precompute_spec 2 _ hc trsmEnv.junkN (trsmEnv.junk 0)
    simp only [List.length_cons, List.length_nil] at e
    have e2 := e'.symm.trans e
    obtain rfl : R' = R := by simpa using e2
    exact ⟨hR.size_eq, by rw [hR.basis_eq]; rfl, by rw [hR.basis_eq]; rfl⟩

/-- the row `(8388617, 0)` modulo 7, as an array of residues: no pivot is found, although `8388617 = 6` modulo 7 -/
theorem C113_pivot_example : Ok (mkRnsMod trsmEnv 392 25) (fun R =>
    Ok (pivotSearch trsmEnv R 7 2 (Arr.ofList [0, 0, 8388617, 0]) 2 3 0) (fun r => r = 2)) ∧ (8388617 : ℤ) % 7 = 6 := by
  refine ⟨ex_system.mono ?_, by decide⟩
  rintro R ⟨S, h2, b0, b1⟩
  refine (C113_pivot_violated S (n := 2) (by omega) (by omega) (by rw [b0]; decide) ?_ ⟨by rw [h2]; rfl, fun j hj t ht => ?_⟩).1
  · rw [b0, h2, prodM, Finset.prod_range_succ, Finset.prod_range_one, b0, b1]; norm_num
  · rw [h2] at ht
    interval_cases j <;> interval_cases t <;> simp [b0, b1, Arr.ofList]

/-- adding 6 and 3 modulo 7: the element holds 9; after `reduce` it holds 2 -/
theorem C113_arith_example : Ok (mkRnsMod trsmEnv 392 25) (fun R =>
    Ok (eltBin R addF (Arr.ofList [6, 3, 6, 3]) ⟨0, 2⟩ ⟨0, 2⟩ ⟨1, 2⟩) (fun B => Holds R B ⟨0, 2⟩ 9 ∧
      Ok (eltReduce trsmEnv R 7 B ⟨0, 2⟩ ⟨0, 2⟩) (fun B => Holds R B ⟨0, 2⟩ 2))) := by
  refine ex_system.mono ?_
  rintro R ⟨S, h2, b0, b1⟩
  have w : Within R (Arr.ofList [6, 3, 6, 3]) ⟨0, 2⟩ := ⟨by decide, fun t ht => by simp only [Arr.ofList, List.length]; omega⟩
  have hy : Holds R (Arr.ofList [6, 3, 6, 3]) ⟨0, 2⟩ 6 := fun t ht => by
    rw [h2] at ht; interval_cases t <;> simp [b0, b1, Arr.ofList]
  have hz : Holds R (Arr.ofList [6, 3, 6, 3]) ⟨1, 2⟩ 3 := fun t ht => by
    rw [h2] at ht; interval_cases t <;> simp [b0, b1, Arr.ofList]
  refine (C113_arith S w hy hz (Or.inl rfl) (Or.inr (fun s _ t _ => by simp only; omega))).1.mono ?_
  rintro B ⟨hl, hB, -⟩
  have hB : Holds R B ⟨0, 2⟩ 9 := hB
  refine ⟨hB, (C113_reduce S ⟨by decide, hB.lt⟩ hB ?_).mono (fun B' h => h.2.1)⟩
  have := S.fits
  rw [h2, prodM, Finset.prod_range_succ, Finset.prod_range_one, b0, b1]
  norm_num

/-- `init` of 65536 modulo 7, which is 2, stores 0; `init` of -20 stores it; `inv` of 3 gives 5; `isOne` of 8 is false -/
theorem C113_init_example : Ok (mkRnsMod trsmEnv 392 25) (fun R =>
    Ok (eltInit trsmEnv R 7 (Arr.ofList [1, 1]) ⟨0, 1⟩ 65536) (fun B => Holds R B ⟨0, 1⟩ 0) ∧
    Ok (eltInit trsmEnv R 7 (Arr.ofList [1, 1]) ⟨0, 1⟩ (-20)) (fun B => Holds R B ⟨0, 1⟩ (-20)) ∧
    Ok (eltInv trsmEnv R 7 (Arr.ofList [3, 3]) ⟨0, 1⟩ ⟨0, 1⟩) (fun B => Holds R B ⟨0, 1⟩ 5) ∧
    Ok (eltIsOne trsmEnv R 7 (Arr.ofList [8, 8]) ⟨0, 1⟩) (fun b => b = false) ∧
    Ok (eltIsZero trsmEnv R 7 (Arr.ofList [21, 21]) ⟨0, 1⟩) (fun b => b = true)) := by
  refine ex_system.mono ?_
  rintro R ⟨S, h2, b0, b1⟩
  have mw : modWords 7 = 1 := by decide
  have w : ∀ a b : ℤ, Within R (Arr.ofList [a, b]) ⟨0, 1⟩ := fun a b => ⟨by decide, fun t ht => by simp only [Arr.ofList, List.length]; omega⟩
  have hy : ∀ v : ℤ, 0 ≤ v → v < 100 → Holds R (Arr.ofList [v, v]) ⟨0, 1⟩ v := fun v h0 h1 t ht => by
    rw [h2] at ht; interval_cases t <;> simp [b0, b1, Arr.ofList] <;> omega
  have hM : (prodM R.size R.basis : ℤ) = 8388617 * 16777259 := by
    rw [h2, prodM, Finset.prod_range_succ, Finset.prod_range_one, b0, b1]; norm_num
  refine ⟨?_, ?_, ?_, ?_, ?_⟩
  · have h := (C113_init_violated S (by decide) (w 1 1)).1
    rw [mw] at h
    exact h.mono (fun B h => h.2.1)
  · exact (C113_init_partial S (w 1 1) (-20) (by rw [mw]; decide)).mono (fun B h => h.2.1)
  · refine (C113_inv S (w 3 3) (hy 3 (by norm_num) (by norm_num)) (by rw [hM]; norm_num) (by rw [Int.isCoprime_iff_gcd_eq_one]; decide)).mono ?_
    rintro B ⟨v, v0, v7, hv, -, h, -⟩
    have : v = 5 := by
      unfold Int.ModEq at hv
      push_cast at hv v7
      omega
    rwa [this] at h
  · exact (C113_congruent_violated S (y := ⟨0, 1⟩) rfl).1 (by have := hy 8 (by norm_num) (by norm_num); exact_mod_cast this)
  · exact (C113_isZero_partial S rfl (hy 21 (by norm_num) (by norm_num)) (by rw [hM]; norm_num)).mono (fun b h => h.2 (by norm_num))

end examples

end Verif.Props
