import Verif.Model.Pluq

/-!
# Bruhat generators of left triangular matrices

/repo/fflas-ffpack/ffpack/ffpack_bruhatgen.inl:31-192.  The matrices are in memory; the arrays of `size_t` are values with checked
accesses.  Arrays obtained from `fflas_new<size_t>` have unspecified contents, supplied by `jk`.  `fgemm` and `ftrsm` are
parameters.  A subtraction of `size_t` that would wrap is a fault.
-/

namespace Verif.FF

open Verif.Perm

variable {K : Type}

/-- `a - b` on `size_t` -/
def usub (a b : ℕ) : Prog K ℕ := if b ≤ a then pure (a - b) else Prog.fault .underflow

/-- the array starting at `P + o` -/
def tailOf (P : Arr ℕ) (o : ℕ) : Except Fault (Arr ℕ) :=
  if o ≤ P.len then .ok ⟨P.len - o, fun i => P.get (o + i)⟩ else .error .oob

/-- the array `P` after the array starting at `P + o` has become `B` -/
def putTail (P : Arr ℕ) (o : ℕ) (B : Arr ℕ) : Arr ℕ := ⟨P.len, fun i => if i < o then P.get i else B.get (i - o)⟩

/-- `for (size_t i=o;i<o+n;i++) P[i]+=x;`, ffpack_bruhatgen.inl:87, :96 -/
def shiftFrom (P : Arr ℕ) (o n x : ℕ) : Except Fault (Arr ℕ) :=
  iter n (fun i P => do
    let v ← P.rd (o + i)
    P.wr (o + i) (v + x)) P

variable [Field K] [DecidableEq K]

/-- ffpack_bruhatgen.inl:54-68: the blocks `A2` and `A3` are eliminated with the factors of `A1`, which are then put back in place -/
def ltElim (g : GemmFn K) (ts : TrsmFn K) (d : Diag) (N A lda r1 : ℕ) (P1 Q1 : Arr ℕ) : Prog K Unit := do
  let N2 := N / 2
  let A2 := A + N2
  let A3 := A + (N - N2) * lda
  applyP .left .no (N - N2) 0 (N - N2) A2 lda P1
  applyP .right .yes N2 0 N2 A3 lda Q1
  ts .left .lower .no (otherDiag d) r1 (N - N2) 1 A lda A2 lda
  ts .right .upper .no d N2 r1 1 A lda A3 lda
  g .no .no (N - N2 - r1) (N - N2) r1 (-1) (A + r1 * lda) lda A2 lda 1 (A2 + r1 * lda) lda
  g .no .no N2 (N2 - r1) r1 (-1) A3 lda (A + r1) lda 1 (A3 + r1) lda
  applyP .left .yes N2 0 (N - N2) A lda P1
  applyP .right .no (N - N2) 0 N2 A lda Q1

/-- ffpack_bruhatgen.inl:89-92: rows of `D` restored in `A2`, which has `n` columns -/
def ltRestoreD (n A2 lda D ldd r1 : ℕ) (P : Arr ℕ) : Prog K Unit :=
  loop r1 fun i => do
    let row ← liftE (P.rd i)
    let l ← usub n (1 + row)
    vassign l (D + i * ldd) 1 (A2 + row * lda) 1

/-- ffpack_bruhatgen.inl:97-100: columns of `E` restored in `A3`, which has `n` rows -/
def ltRestoreE (n A3 lda E lde r1 : ℕ) (Q : Arr ℕ) : Prog K Unit :=
  loop r1 fun i => do
    let col ← liftE (Q.rd i)
    let l ← usub n (1 + col)
    vassign l (E + i) lde (A3 + col) lda

/-- the type of `LTBruhatGen` once the parameters that do not change are given -/
abbrev LtFn (K : Type) := (List ℕ → ℕ → ℕ) → ℕ → ℕ → Arr ℕ → Arr ℕ → Prog K (ℕ × Arr ℕ × Arr ℕ)

/-- `LTBruhatGen` for `N ≠ 1`, ffpack_bruhatgen.inl:41-102; the recursive calls are `rec` -/
def ltStep (cat : Cat) (g : GemmFn K) (ts : TrsmFn K) (thr : ℕ) (rec : LtFn K) (d : Diag) (lda : ℕ) (jk : List ℕ → ℕ → ℕ) (N A : ℕ)
    (P Q : Arr ℕ) : Prog K (ℕ × Arr ℕ × Arr ℕ) := do
  let N2 := N / 2
  let (r1, P1, Q1) ← pluq cat g ts thr (fun l => jk (20 :: l)) d (N - N2) N2 A lda (Arr.mk' (N - N2) (jk [0])) (Arr.mk' N2 (jk [1]))
  let P ← liftE (LAPACKPerm2MathPerm P P1 (N - N2))
  let Q ← liftE (LAPACKPerm2MathPerm Q Q1 N2)
  let A2 := A + N2
  let A3 := A + (N - N2) * lda
  ltElim g ts d N A lda r1 P1 Q1
  let D ← alloc (r1 * (N - N2))
  fassign r1 (N - N2) A2 lda D (N - N2)
  let E ← alloc (N2 * r1)
  fassign N2 r1 A3 lda E r1
  fzero r1 (N - N2) A2 lda
  fzero N2 r1 A3 lda
  applyP .left .yes (N - N2) 0 (N - N2) A2 lda P1
  applyP .right .no N2 0 N2 A3 lda Q1
  let P' ← liftE (tailOf P r1)
  let Q' ← liftE (tailOf Q r1)
  let (r2, P', Q') ← rec (fun l => jk (21 :: l)) (N - N2) A2 P' Q'
  let P := putTail P r1 P'
  let Q ← liftE (shiftFrom (putTail Q r1 Q') r1 r2 N2)
  ltRestoreD (N - N2) A2 lda D (N - N2) r1 P
  free D (r1 * (N - N2))
  let P' ← liftE (tailOf P (r1 + r2))
  let Q' ← liftE (tailOf Q (r1 + r2))
  let (r3, P', Q') ← rec (fun l => jk (22 :: l)) N2 A3 P' Q'
  let P ← liftE (shiftFrom (putTail P (r1 + r2) P') (r1 + r2) r3 (N - N2))
  let Q := putTail Q (r1 + r2) Q'
  ltRestoreE N2 A3 lda E r1 r1 Q
  free E (N2 * r1)
  pure (r1 + r2 + r3, P, Q)

/-- `LTBruhatGen`, ffpack_bruhatgen.inl:33-104.  The first argument bounds the recursion depth. -/
def ltRec (cat : Cat) (g : GemmFn K) (ts : TrsmFn K) (thr : ℕ) (d : Diag) (lda : ℕ) : ℕ → LtFn K
  | 0 => fun _ _ _ _ _ => Prog.fault .fuel
  | fuel+1 => fun jk N A P Q =>
    if N = 1 then do
      store A 0
      pure (0, P, Q)
    else ltStep cat g ts thr (ltRec cat g ts thr d lda fuel) d lda jk N A P Q

/-- `LTBruhatGen`; `N + 1` levels of recursion suffice unless `N = 0` (proved) -/
def ltBruhatGen (cat : Cat) (g : GemmFn K) (ts : TrsmFn K) (thr : ℕ) (jk : List ℕ → ℕ → ℕ) (d : Diag) (N A lda : ℕ) (P Q : Arr ℕ) :
    Prog K (ℕ × Arr ℕ × Arr ℕ) :=
  ltRec cat g ts thr d lda (N + 1) jk N A P Q

omit [DecidableEq K] in
/-- `getLTBruhatGen` for the middle factor, ffpack_bruhatgen.inl:106-112 -/
def getLTBruhatR (N r : ℕ) (P Q : Arr ℕ) (R ldr : ℕ) : Prog K Unit := do
  fzero N N R ldr
  loop r fun i => do
    let p ← liftE (P.rd i)
    let q ← liftE (Q.rd i)
    store (R + (p * ldr + q)) 1

omit [DecidableEq K] in
/-- `getLTBruhatGen` for a triangular factor, ffpack_bruhatgen.inl:114-164 (the first line clears `T` with leading dimension `N`,
whatever `ldt` is) -/
def getLTBruhatT (u : Uplo) (d : Diag) (N r : ℕ) (P Q : Arr ℕ) (A lda T ldt : ℕ) : Prog K Unit := do
  fzero N N T N
  loop r fun i => do
    let row ← liftE (P.rd i)
    let col ← liftE (Q.rd i)
    match u, d with
    | .upper, .nonUnit => do
      let l ← usub N (1 + row + col)
      vassign l (A + row * lda + col) 1 (T + row * ldt + col) 1
      loop i fun j => do
        let q ← liftE (Q.rd j)
        store (T + (row * ldt + q)) 0
    | .upper, .unit => do
      let l ← usub N (2 + row + col)
      vassign l (A + row * lda + col + 1) 1 (T + row * ldt + col + 1) 1
      store (T + (row * ldt + col)) 1
      loop i fun j => do
        let q ← liftE (Q.rd j)
        store (T + (row * ldt + q)) 0
    | .lower, .nonUnit => do
      let l ← usub N (1 + row + col)
      vassign l (A + row * lda + col) lda (T + row * ldt + col) ldt
      loop i fun j => do
        let p ← liftE (P.rd j)
        store (T + (p * ldt + col)) 0
    | .lower, .unit => do
      let l ← usub N (2 + row + col)
      vassign l (A + (row + 1) * lda + col) lda (T + (row + 1) * ldt + col) ldt
      store (T + (row * ldt + col)) 1
      loop i fun j => do
        let p ← liftE (P.rd j)
        store (T + (p * ldt + col)) 0

/-- `LTQSorder`, ffpack_bruhatgen.inl:168-192.  `rows[0]` on the empty vectors of `N = 0` is a fault, and so is a decrement of `t = 0`. -/
def ltQSorder (N r : ℕ) (P Q : Arr ℕ) : Except Fault ℕ := do
  let (rows, cols) ← iter r (fun i (x : Arr Bool × Arr Bool) => do
    let p ← P.rd i
    let rows ← x.1.wr p true
    let q ← Q.rd i
    let cols ← x.2.wr q true
    pure (rows, cols)) (Arr.mk' N (fun _ => false), Arr.mk' N (fun _ => false))
  let b ← rows.rd 0
  let (_, s) ← iter (N - 1) (fun i (x : ℕ × ℕ) => do
    let a ← rows.rd (i + 1)
    let t := if a then x.1 + 1 else x.1
    let c ← cols.rd (N - 1 - (i + 1))
    let t ← if c then (if t = 0 then .error .underflow else pure (t - 1)) else pure t
    pure (t, max x.2 t)) (if b then (1, 1) else (0, 0))
  pure s

end Verif.FF
