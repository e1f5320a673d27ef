import Verif.Model.Pluq
import Mathlib.Data.List.Sort

/-!
# Rank and rank profiles

/repo/fflas-ffpack/ffpack/ffpack.inl (`Rank`) and ffpack_rankprofiles.inl.  `LuTag` is `FfpackTileRecursive` in the functions
that call `PLUQ`; the slab variant calls `LUdivine`.
-/

namespace Verif.FF

open Verif.Perm

variable {K : Type}

/-- `std::sort (A, A + n)` -/
def sortPrefix (A : Arr ℕ) (n : ℕ) : Except Fault (Arr ℕ) :=
  if n ≤ A.len then
    let l := ((List.range n).map A.get).insertionSort (· ≤ ·)
    .ok ⟨A.len, fun i => if i < n then l.getD i 0 else A.get i⟩
  else .error .oob

/-- `LuTag` -/
inductive LuTag | slab | tile
deriving DecidableEq

/-- `RankProfileFromLU`, ffpack_rankprofiles.inl:121-138 -/
def rankProfileFromLU (Q : Arr ℕ) (N R : ℕ) (rk : Arr ℕ) (junk : ℕ → ℕ) (tag : LuTag) : Except Fault (Arr ℕ) :=
  match tag with
  | .slab => copyTo Q 0 rk 0 R
  | .tile => do
    let RP ← iota (Arr.mk' N junk) N
    let RP ← iter N (fun i RP => do
      let q ← Q.rd i
      if q ≠ i then aswap RP i q else pure RP) RP
    let rk ← copyTo RP 0 rk 0 R
    sortPrefix rk R

section
variable [Field K] [DecidableEq K]

/-- `Rank`, ffpack.inl:56-71 -/
def rank (cat : Cat) (g : GemmFn K) (ts : TrsmFn K) (thr : ℕ) (jk : List ℕ → ℕ → ℕ) (M N A lda : ℕ) : Prog K ℕ :=
  if M = 0 ∧ N = 0 then pure 0
  else do
    let (R, _, _) ← pluq cat g ts thr (fun l => jk (2 :: l)) .nonUnit M N A lda (Arr.mk' M (jk [0])) (Arr.mk' N (jk [1]))
    pure R

/-- `RowRankProfile` with `LuTag = FfpackTileRecursive`, ffpack_rankprofiles.inl:51-75; the second result is `rkprofile` -/
def rowRankProfile (cat : Cat) (g : GemmFn K) (ts : TrsmFn K) (thr : ℕ) (jk : List ℕ → ℕ → ℕ) (M N A lda : ℕ) :
    Prog K (ℕ × Arr ℕ) := do
  let (R, P, _) ← pluq cat g ts thr (fun l => jk (4 :: l)) .nonUnit M N A lda (Arr.mk' M (jk [0])) (Arr.mk' N (jk [1]))
  let rk ← liftE (rankProfileFromLU P M R (Arr.mk' R (jk [2])) (jk [3]) .tile)
  pure (R, rk)

/-- `ColumnRankProfile` with `LuTag = FfpackTileRecursive`, ffpack_rankprofiles.inl:98-118 -/
def columnRankProfile (cat : Cat) (g : GemmFn K) (ts : TrsmFn K) (thr : ℕ) (jk : List ℕ → ℕ → ℕ) (M N A lda : ℕ) :
    Prog K (ℕ × Arr ℕ) := do
  let (R, _, Q) ← pluq cat g ts thr (fun l => jk (4 :: l)) .nonUnit M N A lda (Arr.mk' M (jk [0])) (Arr.mk' N (jk [1]))
  let rk ← liftE (rankProfileFromLU Q N R (Arr.mk' R (jk [2])) (jk [3]) .tile)
  pure (R, rk)

end

/-- `LeadingSubmatrixRankProfiles`, ffpack_rankprofiles.inl:140-164; returns `LSr`, `RRP`, `CRP` -/
def leadingSubmatrixRankProfiles (M N R LSm LSn : ℕ) (P Q RRP CRP : Arr ℕ) (junkP junkQ : ℕ → ℕ) :
    Except Fault (ℕ × Arr ℕ × Arr ℕ) := do
  let MathP ← LAPACKPerm2MathPerm (Arr.mk' M junkP) P M
  let MathQ ← LAPACKPerm2MathPerm (Arr.mk' N junkQ) Q N
  let (LSr, RRP, CRP) ← iter R (fun i (LSr, RRP, CRP) => do
    let p ← MathP.rd i
    let q ← (if p < LSm then MathQ.rd i else pure LSn)
    if p < LSm ∧ q < LSn then do
      let RRP ← Arr.wr RRP LSr p
      let CRP ← Arr.wr CRP LSr q
      pure (LSr + 1, RRP, CRP)
    else pure (LSr, RRP, CRP)) (0, RRP, CRP)
  let RRP ← sortPrefix RRP LSr
  let CRP ← sortPrefix CRP LSr
  pure (LSr, RRP, CRP)

end Verif.FF
