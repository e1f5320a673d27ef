import Verif.Model.Pluq

/-!
# LUdivine: CUP and PLE decompositions

/repo/fflas-ffpack/ffpack/ffpack_ludivine.inl.  The matrix is in memory; the index arrays are values with checked accesses,
passed in and returned; `P + R` passed to a recursive call is the tail of the array (`tailA`), whose new contents replace the
tail afterwards (`spliceA`).  The casts `(int) R` of the arguments of `applyP` are the identity (ranks below 2^31).
-/

namespace Verif.FF

open Verif.Perm

variable {K : Type}

section arrays
variable {α : Type}

/-- the array at `A + off` -/
def tailA (A : Arr α) (off : ℕ) : Except Fault (Arr α) :=
  if off ≤ A.len then .ok ⟨A.len - off, fun i => A.get (off + i)⟩ else .error .oob

/-- `A` with the contents of the array at `A + off` replaced -/
def spliceA (A : Arr α) (off : ℕ) (B : Arr α) : Arr α := ⟨A.len, fun i => if i < off then A.get i else B.get (i - off)⟩

end arrays

/-- `incRow`, ffpack_ludivine.inl:420-431 -/
def luRow (ta : Tr) (lda : ℕ) : ℕ := match ta with
  | .no => lda
  | .yes => 1

/-- `incCol`, ffpack_ludivine.inl:420-431 -/
def luCol (ta : Tr) (lda : ℕ) : ℕ := match ta with
  | .no => 1
  | .yes => lda

section
variable [Field K] [DecidableEq K]

/-- `while (F.isZero (*(A+ip*incCol))) if (++ip == colDim) break;`, ffpack_ludivine.inl:439-441 -/
def scanRow (A inc n : ℕ) : ℕ → ℕ → Prog K ℕ
  | 0, _ => Prog.fault .fuel
  | f+1, ip => do
    let x ← load (A + ip * inc)
    if x = 0 then (if ip + 1 = n then pure (ip + 1) else scanRow A inc n f (ip + 1)) else pure ip

/-- `while (ip<rowDim && F.isZero(*(A + ip*incRow))) ip++;`, ffpack_ludivine.inl:447-450 -/
def scanCol (A inc n : ℕ) : ℕ → ℕ → Prog K ℕ
  | 0, _ => Prog.fault .fuel
  | f+1, ip =>
    if ip < n then do
      let x ← load (A + ip * inc)
      if x = 0 then scanCol A inc n f (ip + 1) else pure ip
    else pure ip

/-- a single column whose first entry is zero: normalisation and move of the pivot, ffpack_ludivine.inl:455-470 -/
def ludColumn (cat : Cat) (d : Diag) (rowDim A inc ip : ℕ) : Prog K Unit :=
  match d with
  | .nonUnit => do
    let x ← load (A + ip * inc)
    let invpiv ← liftE (invE x)
    let _ ← (if ip + 1 < rowDim then vscalin cat (rowDim - (ip + 1)) invpiv (A + (ip + 1) * inc) inc else pure ())
    let y ← load (A + ip * inc)
    store A y
    store (A + ip * inc) 0
  | .unit => pure ()

/-- the matrix has one row or one column, ffpack_ludivine.inl:437-506; dimensions after exchange for the transposed case -/
def ludBase (cat : Cat) (ta : Tr) (d : Diag) (rowDim colDim A lda : ℕ) (P Q : Arr ℕ) : Prog K (ℕ × Arr ℕ × Arr ℕ) := do
  let ip ← scanRow A (luCol ta lda) colDim colDim 0
  let Q ← liftE (Q.wr 0 0)
  if ip = colDim then do
    let P ← liftE (P.wr 0 0)
    if colDim = 1 then do
      let ip ← scanCol A (luRow ta lda) rowDim (rowDim + 1) ip
      if ip = rowDim then pure (0, P, Q)
      else do
        ludColumn cat d rowDim A (luRow ta lda) ip
        let Q ← liftE (Q.wr 0 ip)
        pure (1, P, Q)
    else do
      let Q ← liftE (Q.wr 0 0)
      pure (0, P, Q)
  else do
    let P ← liftE (P.wr 0 ip)
    let _ ← (if ip ≠ 0 then do
        let tmp ← load A
        let x ← load (A + ip * luCol ta lda)
        store A x
        store (A + ip * luCol ta lda) tmp
      else pure ())
    let x ← load A
    let invpiv ← liftE (invE x)
    let _ ← (if d = .unit ∧ 1 < colDim then vscalin cat (colDim - 1) invpiv (A + luCol ta lda) (luCol ta lda)
      else if colDim = 1 ∧ d = .nonUnit then
        (if ip + 1 < rowDim then vscalin cat (rowDim - (ip + 1)) invpiv (A + (ip + 1) * luRow ta lda) (luRow ta lda) else pure ())
      else pure ())
    pure (1, P, Q)

/-- update of the lower block after the first recursive call, ffpack_ludivine.inl:527-539 (Trans), :566-580 (NoTrans) -/
def ludUpdate (g : GemmFn K) (ts : TrsmFn K) (ta : Tr) (d : Diag) (colDim Nup Ndown R A lda : ℕ) (P : Arr ℕ) : Prog K Unit :=
  let Ar := A + Nup * luRow ta lda
  let Ac := A + R * luCol ta lda
  let An := Ar + R * luCol ta lda
  match ta with
  | .yes => do
    applyP .left .no Ndown 0 R Ar lda P
    ts .left .lower .no d R Ndown 1 A lda Ar lda
    if R < colDim then g .no .no (colDim - R) Ndown R (-1) Ac lda Ar lda 1 An lda else pure ()
  | .no => do
    applyP .right .yes Ndown 0 R Ar lda P
    ts .right .upper .no d Ndown R 1 A lda Ar lda
    if R < colDim then g .no .no Ndown (colDim - R) R (-1) Ar lda Ac lda 1 An lda else pure ()

/-- permutation of the upper block by the second call, ffpack_ludivine.inl:545-549 (Trans), :585-588 (NoTrans) -/
def ludPermTop (ta : Tr) (Nup R R2 A lda : ℕ) (P : Arr ℕ) : Prog K Unit :=
  match ta with
  | .yes => applyP .left .no Nup R (R + R2) A lda P
  | .no => applyP .right .yes Nup R (R + R2) A lda P

/-- rows of the upper factor moved up, one iteration, ffpack_ludivine.inl:600-611 (NonUnit), :614-626 (Unit).  The column
`j` of the code is `R + t` in the first case and `R + t + 1` in the second. -/
def ludMove (ta : Tr) (d : Diag) (colDim Nup R A lda t : ℕ) (Q : Arr ℕ) : Prog K (Arr ℕ) := do
  let i := Nup + t
  match d with
  | .nonUnit => do
    let j := R + t
    vassign (colDim - j) (A + i * luRow ta lda + j * luCol ta lda) (luCol ta lda) (A + j * (lda + 1)) (luCol ta lda)
    loop (colDim - j) fun s => store (A + i * luRow ta lda + j * luCol ta lda + s * luCol ta lda) 0
    liftE (aswap Q j i)
  | .unit => do
    let j := R + 1 + t
    vassign (colDim - j) (A + i * luRow ta lda + j * luCol ta lda) (luCol ta lda)
      (A + (j - 1) * luRow ta lda + j * luCol ta lda) (luCol ta lda)
    loop (colDim - j) fun s => store (A + i * luRow ta lda + j * luCol ta lda + s * luCol ta lda) 0
    liftE (aswap Q (j - 1) i)

/-- type of the recursive calls: `rowDim colDim A P Q` -/
abbrev LudFn (K : Type) := ℕ → ℕ → ℕ → Arr ℕ → Arr ℕ → Prog K (ℕ × Arr ℕ × Arr ℕ)

/-- after the second call, ffpack_ludivine.inl:543-628 -/
def ludFinish (ta : Tr) (d : Diag) (sing : Bool) (colDim Nup R R2 A lda : ℕ) (P Q : Arr ℕ) : Prog K (ℕ × Arr ℕ × Arr ℕ) := do
  let P ← liftE (addFrom P R (R + R2) R)
  if R2 = 0 ∧ sing = true then pure (0, P, Q)
  else do
    let _ ← (if R2 = 0 then pure () else ludPermTop ta Nup R R2 A lda P)
    let Q ← liftE (addFrom Q Nup (Nup + R2) Nup)
    let Q ← (if R < Nup then iter R2 (fun t Q => ludMove ta d colDim Nup R A lda t Q) Q else pure Q)
    pure (R + R2, P, Q)

/-- the recursive case, ffpack_ludivine.inl:507-630 -/
def ludStep (g : GemmFn K) (ts : TrsmFn K) (rec : LudFn K) (ta : Tr) (d : Diag) (sing : Bool) (rowDim colDim A lda : ℕ) (P Q : Arr ℕ) :
    Prog K (ℕ × Arr ℕ × Arr ℕ) := do
  let Nup := rowDim / 2
  let Ndown := rowDim - Nup
  let (R, P, Q) ← rec Nup colDim A P Q
  if R = 0 ∧ sing = true then pure (0, P, Q)
  else do
    let _ ← (if R = 0 then pure () else ludUpdate g ts ta d colDim Nup Ndown R A lda P)
    let P2 ← liftE (tailA P R)
    let Q2 ← liftE (tailA Q Nup)
    let (R2, P2, Q2) ← rec Ndown (colDim - R) (A + Nup * luRow ta lda + R * luCol ta lda) P2 Q2
    ludFinish ta d sing colDim Nup R R2 A lda (spliceA P R P2) (spliceA Q Nup Q2)

/-- search of a pivot in `LUdivine_small`, ffpack_ludivine.inl:103-113; the result is `(rowp, colp)` -/
def smallScan (M N A lda k : ℕ) : ℕ → ℕ → ℕ → Prog K (ℕ × ℕ)
  | 0, _, _ => Prog.fault .fuel
  | f+1, rowp, colp => do
    let x ← load (A + rowp * lda + colp)
    if x = 0 then
      if colp + 1 = N then
        if rowp + 1 = M then pure (rowp, colp + 1) else smallScan M N A lda k f (rowp + 1) k
      else smallScan M N A lda k f rowp (colp + 1)
    else pure (rowp, colp)

/-- the elimination of `LUdivine_small`, ffpack_ludivine.inl:97-151; the result is `R` -/
def smallElim (cat : Cat) (d : Diag) (M N A lda : ℕ) : ℕ → ℕ → ℕ → Arr ℕ → Arr ℕ → Prog K (ℕ × Arr ℕ × Arr ℕ)
  | 0, _, _, _, _ => Prog.fault .fuel
  | f+1, rowp, k, P, Q =>
    if rowp < M ∧ k < N then do
      let (rowp, colp) ← smallScan M N A lda k (M * N + 1) rowp k
      if rowp + 1 = M ∧ colp = N then pure (k, P, Q)
      else do
        let P ← liftE (P.wr k colp)
        let Q ← liftE (Q.wr k rowp)
        vswap M (A + k) lda (A + colp) lda
        let x ← load (A + rowp * lda + k)
        let invpiv ← liftE (invE x)
        let _ ← (match d with
          | .unit => vscalin cat (N - k - 1) invpiv (A + rowp * lda + k + 1) 1
          | .nonUnit => vscalin cat (M - rowp - 1) invpiv (A + rowp * lda + k + lda) lda)
        fger (M - rowp - 1) (N - k - 1) (-1) (A + rowp * lda + k + lda) lda (A + rowp * lda + k + 1) 1 (A + rowp * lda + k + (lda + 1)) lda
        smallElim cat d M N A lda f (rowp + 1) (k + 1) P Q
    else pure (k, P, Q)

/-- first column, and end, of the rows moved by `LUdivine_small`, ffpack_ludivine.inl:154-162 -/
def smallShift (d : Diag) : ℕ := match d with
  | .nonUnit => 0
  | .unit => 1

/-- rows of the upper factor moved up, ffpack_ludivine.inl:163-169 -/
def smallMove (d : Diag) (N A lda : ℕ) (Q : Arr ℕ) (i : ℕ) : Prog K Unit := do
  let Aini := A + smallShift d + i * (lda + 1)
  let l := N - smallShift d
  let q ← liftE (Q.rd i)
  if i < q then do
    vassign (l - i) (Aini + (q - i) * lda) 1 Aini 1
    loop (l - i) fun j => store (Aini + (q - i) * lda + j) 0
  else pure ()

/-- `LUdivine_small` for a generic element type, ffpack_ludivine.inl:75-175.  `F.reduce` is the identity on field elements.
The versions for `double` and `float` (:177-404) do the same operations, with delayed reductions instead of `fger`.  `R` and
`k` are equal throughout. -/
def ludSmall (cat : Cat) (d : Diag) (M N A lda : ℕ) (P Q : Arr ℕ) : Prog K (ℕ × Arr ℕ × Arr ℕ) :=
  if M = 0 ∨ N = 0 then pure (0, P, Q)
  else do
    let (R, P, Q) ← smallElim cat d M N A lda (M + 1) 0 0 P Q
    loop R fun i => smallMove d N A lda Q i
    pure (R, P, Q)

/-- `LUdivine`, ffpack_ludivine.inl:406-633, with the dimensions already exchanged in the transposed case (:419-431).
`sing`: `LuTag == FfpackSingular`.  The first argument bounds the recursion depth. -/
def ludRec (cat : Cat) (g : GemmFn K) (ts : TrsmFn K) (cutoff : ℕ) (ta : Tr) (d : Diag) (sing : Bool) (lda : ℕ) : ℕ → LudFn K
  | 0 => fun _ _ _ _ _ => Prog.fault .fuel
  | fuel+1 => fun rowDim colDim A P Q =>
    if rowDim = 0 ∨ colDim = 0 then pure (0, P, Q)
    else if rowDim < cutoff ∧ colDim < 2 * cutoff then
      match ta with
      | .no => ludSmall cat d rowDim colDim A lda P Q
      | .yes => ludSmall cat d colDim rowDim A lda P Q
    else if min rowDim colDim = 1 then ludBase cat ta d rowDim colDim A lda P Q
    else ludStep g ts (ludRec cat g ts cutoff ta d sing lda fuel) ta d sing rowDim colDim A lda P Q

/-- `LUdivine`, ffpack_ludivine.inl:406-633; the result is the rank and the arrays `P` and `Q` -/
def ludivine (cat : Cat) (g : GemmFn K) (ts : TrsmFn K) (cutoff : ℕ) (ta : Tr) (d : Diag) (sing : Bool) (M N A lda : ℕ) (P Q : Arr ℕ) :
    Prog K (ℕ × Arr ℕ × Arr ℕ) :=
  match ta with
  | .no => ludRec cat g ts cutoff .no d sing lda (M + 1) M N A P Q
  | .yes => ludRec cat g ts cutoff .yes d sing lda (N + 1) N M A P Q

/-- `while ((p < N) && F.isZero (*(Acurr++))) p++;`, ffpack_ludivine.inl:46-47 -/
def gaussScan (C N : ℕ) : ℕ → ℕ → Prog K ℕ
  | 0, _ => Prog.fault .fuel
  | f+1, p =>
    if p < N then do
      let x ← load (C + p)
      if x = 0 then gaussScan C N f (p + 1) else pure p
    else pure p

/-- one iteration of `LUdivine_gauss`, ffpack_ludivine.inl:43-66; the state is `(r, P, Q)` -/
def gaussStep (cat : Cat) (M N A lda k : ℕ) (s : ℕ × Arr ℕ × Arr ℕ) : Prog K (ℕ × Arr ℕ × Arr ℕ) := do
  let (r, P, Q) := s
  let p ← gaussScan (A + k * lda) N (N + 1) r
  let (r, P, Q) ← (if p < N then do
      let P ← liftE (P.wr r p)
      let _ ← (if r < k then do
          vassign (N - r) (A + k * lda + r) 1 (A + r * (lda + 1)) 1
          loop (N - r) fun i => store (A + r + k * lda + i) 0
        else pure ())
      vswap M (A + r) lda (A + p) lda
      let Q ← liftE (Q.wr r k)
      pure (r + 1, P, Q)
    else pure (r, P, Q))
  let _ ← (if k + 1 < M then do
      ftrsv .upper .yes .nonUnit r A lda (A + (k + 1) * lda) 1
      fgemv cat .yes r (N - r) (-1) (A + r) lda (A + (k + 1) * lda) 1 1 (A + (k + 1) * lda + r) 1
    else pure ())
  pure (r, P, Q)

/-- `LUdivine_gauss`, ffpack_ludivine.inl:33-69; `Diag` and `LuTag` are not used.  The `break` (:65) happens in the last
iteration only. -/
def ludGauss (cat : Cat) (M N A lda : ℕ) (P Q : Arr ℕ) : Prog K (ℕ × Arr ℕ × Arr ℕ) :=
  iter (min M N) (fun k s => gaussStep cat M N A lda k s) (0, P, Q)

end
end Verif.FF
