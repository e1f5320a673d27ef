import Verif.Core.Arr
import Mathlib.Data.ZMod.Basic

/-!
# Reading and writing matrices

/repo/fflas-ffpack/utils/fflas_io.h.  Files and streams are lists of character codes.  `F.write`, `F.read` (Givaro), the characters of
`F.cardinality()` and the bytes of an element in memory are parameters (`Codec`).

The code never tests the state of the stream.  An extraction that fails is the outcome `bad`: the code goes on with values that are not those
of the file (the variables keep their old value or are not initialised).  Not modelled: signs in front of a `size_t`; the formats `FflasMath`,
`FflasMaple` and `FflasSageMath`, which cannot be read; products `m*n` beyond `size_t`.
-/

namespace Verif.MatIO

open Verif

variable {K : Type}

/-- outcomes of `ReadMatrix` other than success -/
inductive RdErr where
  /-- an extraction failed, the code does not notice -/
  | bad
  /-- message on `std::cerr`, `NULL` is returned -/
  | null
  /-- access outside of the matrix -/
  | oob
  deriving DecidableEq, Repr

/-- `isspace` -/
def isWs (c : ℕ) : Bool := c = 32 || (9 ≤ c && c ≤ 13)

/-- `isdigit` -/
def isDig (c : ℕ) : Bool := 48 ≤ c && c ≤ 57

/-- decimal notation, at most `f` digits -/
def showF : ℕ → ℕ → List ℕ
  | 0, _ => []
  | f+1, n => if n < 10 then [48 + n] else showF f (n / 10) ++ [48 + n % 10]

/-- `c << n` for a `size_t` -/
def showNat (n : ℕ) : List ℕ := showF 20 n

/-- `ifs >> n` for a `size_t`: white space is skipped, then all digits are taken; fails without digits or beyond 64 bits -/
def readNat (l : List ℕ) : Option (ℕ × List ℕ) :=
  let l1 := l.dropWhile isWs
  let d := l1.takeWhile isDig
  let v := d.foldl (fun a c => 10 * a + (c - 48)) 0
  if d = [] then none else if v < 2 ^ 64 then some (v, l1.dropWhile isDig) else none

/-- `ifs >> tmp` for a `std::string` -/
def readWord (l : List ℕ) : Option (List ℕ × List ℕ) :=
  let l1 := l.dropWhile isWs
  if l1 = [] then none else some (l1.takeWhile (fun c => !isWs c), l1.dropWhile (fun c => !isWs c))

/-- what the field provides -/
structure Codec (K : Type) where
  /-- `F.write` -/
  write : K → List ℕ
  /-- `F.read`; `none` if it fails -/
  read : List ℕ → Option (K × List ℕ)
  /-- `c << F.cardinality()` -/
  card : List ℕ
  /-- bytes of an element in memory -/
  enc : K → List ℕ
  /-- the element with these bytes -/
  dec : List ℕ → K
  /-- `sizeof(Element)` -/
  size : ℕ

/-- the extraction `o` -/
def ext {α : Type} (o : Option α) : Except RdErr α := match o with
  | none => .error .bad
  | some a => .ok a

/-- `A[i] = v` while reading -/
def put (A : Arr K) (i : ℕ) (v : K) : Except RdErr (Arr K) := match A.wr i v with
  | .error _ => .error .oob
  | .ok B => .ok B

/-- formats that can be written and read, fflas_io.h:32-40 -/
inductive Fmt where
  | auto | dense | sms | binary
  deriving DecidableEq, Repr

/-- address of entry `(i, j)`: `column_major` or not, fflas_io.h:227-228, :239-240 -/
def eAdr (cm : Bool) (lda i j : ℕ) : ℕ := if cm then j * lda + i else i * lda + j

/-! ### Writing -/

/-- `WriteMatrix`, `FflasDense`, fflas_io.h:223-233 -/
def writeDense (C : Codec K) (m n : ℕ) (A : Arr K) (lda : ℕ) (cm : Bool) : Except Fault (List ℕ) := do
  let o ← iter m (fun i o => iter n (fun j o => do
    let x ← A.rd (eAdr cm lda i j)
    pure (o ++ C.write x ++ [32])) o) (showNat m ++ [32] ++ showNat n ++ [10])
  pure (o ++ [10])

/-- one entry of `FflasSMS`, fflas_io.h:238-245 -/
def smsEntry [Zero K] [DecidableEq K] (C : Codec K) (A : Arr K) (lda : ℕ) (cm : Bool) (i j : ℕ) (o : List ℕ) : Except Fault (List ℕ) := do
  let x ← A.rd (eAdr cm lda i j)
  if x ≠ 0 then pure (o ++ showNat (i + 1) ++ [32] ++ showNat (j + 1) ++ [32] ++ C.write x ++ [10])
  else pure o

/-- `WriteMatrix`, `FflasSMS`, fflas_io.h:234-249 -/
def writeSMS [Zero K] [DecidableEq K] (C : Codec K) (m n : ℕ) (A : Arr K) (lda : ℕ) (cm : Bool) : Except Fault (List ℕ) := do
  let o ← iter m (fun i o => iter n (fun j o => smsEntry C A lda cm i j o) o)
    (showNat m ++ [32] ++ showNat n ++ [32] ++ C.card ++ [10])
  pure (o ++ [48, 32, 48, 32, 48, 10])

/-- "FFBinFmt" -/
def magic : List ℕ := [70, 70, 66, 105, 110, 70, 109, 116]

/-- the `f` bytes of a number, the lowest first -/
def leBytes : ℕ → ℕ → List ℕ
  | 0, _ => []
  | f+1, n => (n % 256) :: leBytes f (n / 256)

/-- the number with these bytes -/
def ofBytes : List ℕ → ℕ
  | [] => 0
  | b :: l => b + 256 * ofBytes l

/-- `WriteMatrix`, `FflasBinary`, fflas_io.h:250-258: `m*n` consecutive elements, whatever `lda` and `column_major` are -/
def writeBinary (C : Codec K) (m n : ℕ) (A : Arr K) : Except Fault (List ℕ) :=
  iter (m * n) (fun i o => do
    let x ← A.rd i
    pure (o ++ C.enc x)) (magic ++ [10] ++ leBytes 8 m ++ leBytes 8 n)

/-- `WriteMatrix`, fflas_io.h:185-275; `FflasAuto` is treated as `FflasMath` by the code and not modelled here -/
def writeMatrix [Zero K] [DecidableEq K] (C : Codec K) (fmt : Fmt) (m n : ℕ) (A : Arr K) (lda : ℕ) (cm : Bool) :
    Except Fault (List ℕ) :=
  match fmt with
  | .sms => writeSMS C m n A lda cm
  | .binary => writeBinary C m n A
  | _ => writeDense C m n A lda cm

/-! ### Reading -/

/-- an input file stream: all the characters of the file, those from the current position on -/
structure IStream where
  all : List ℕ
  rest : List ℕ

/-- what `ReadMatrix` gives back: dimensions, matrix, and the stream afterwards -/
structure Got (K : Type) where
  m : ℕ
  n : ℕ
  A : Arr K
  rest : List ℕ

/-- `FflasDense`, fflas_io.h:91-99 -/
def readDense (C : Codec K) (junk : ℕ → K) (l : List ℕ) : Except RdErr (Got K) := do
  let (m, l) ← ext (readNat l)
  let (n, l) ← ext (readNat l)
  let (A, l) ← iter (m * n) (fun i (s : Arr K × List ℕ) => do
    let (v, l) ← ext (C.read s.2)
    let A ← put s.1 i v
    pure (A, l)) (Arr.mk' (m * n) junk, l)
  pure ⟨m, n, A, l⟩

/-- lines that begin with `%`, fflas_io.h:101-104; the first argument bounds their number -/
def skipComments : ℕ → List ℕ → List ℕ
  | 0, l => l
  | f+1, l => if l.head? = some 37 then skipComments f ((l.dropWhile (fun c => c ≠ 10)).drop 1) else l

/-- store one entry, fflas_io.h:120 (the second test of `i` was meant for `j`) -/
def smsPut (n : ℕ) (A : Arr K) (i j : ℕ) (v : K) : Except RdErr (Arr K) :=
  if 0 < i ∧ 0 < i then (if (i - 1) * n + j = 0 then .error .oob else put A ((i - 1) * n + j - 1) v) else .ok A

/-- the entries, fflas_io.h:113-121; every iteration takes at least one character, so the first argument, the number of characters, is
not a restriction -/
def smsLoop [Zero K] [DecidableEq K] (C : Codec K) (m n : ℕ) : ℕ → Arr K → List ℕ → Except RdErr (Arr K × List ℕ)
  | 0, _, _ => .error .bad
  | f+1, A, l => do
    let (i, l) ← ext (readNat l)
    let (j, l) ← ext (readNat l)
    if m < i ∨ n < j then .error .null
    else do
      let (v, l) ← ext (C.read l)
      let A ← smsPut n A i j v
      if i = 0 ∧ j = 0 ∧ v = 0 then pure (A, l) else smsLoop C m n f A l

/-- `FflasSMS`, fflas_io.h:100-123 -/
def readSMS [Zero K] [DecidableEq K] (C : Codec K) (l : List ℕ) : Except RdErr (Got K) := do
  let l := skipComments l.length l
  let (m, l) ← ext (readNat l)
  let (n, l) ← ext (readNat l)
  let (_, l) ← ext (readWord l)
  let (A, l) ← smsLoop C m n l.length ⟨m * n, fun _ => 0⟩ l
  pure ⟨m, n, A, l⟩

/-- `ifs.read` of `k` bytes -/
def readBytes (k : ℕ) (l : List ℕ) : Option (List ℕ × List ℕ) := if k ≤ l.length then some (l.take k, l.drop k) else none

/-- `ifs.getline(st, 9)` and the comparison with "FFBinFmt", fflas_io.h:125-130: after eight characters the end of the line must follow -/
def readMagic (l : List ℕ) : Except RdErr (List ℕ) :=
  if (l.take 8).takeWhile (fun c => c ≠ 10) = magic then
    match l.drop 8 with
    | 10 :: l => .ok l
    | _ => .error .bad
  else .error .null

/-- `FflasBinary`, fflas_io.h:124-139; the stream is closed afterwards -/
def readBinary (C : Codec K) (junk : ℕ → K) (l : List ℕ) : Except RdErr (Got K) := do
  let l ← readMagic l
  let (bm, l) ← ext (readBytes 8 l)
  let (bn, l) ← ext (readBytes 8 l)
  let m := ofBytes bm
  let n := ofBytes bn
  let (A, _) ← iter (m * n) (fun i (s : Arr K × List ℕ) => do
    let (b, l) ← ext (readBytes C.size s.2)
    let A ← put s.1 i (C.dec b)
    pure (A, l)) (Arr.mk' (m * n) junk, l)
  pure ⟨m, n, A, []⟩

/-- `preamble`, fflas_io.h:56-67: eight characters are read and the stream is rewound to the beginning of the file.  If there are not
eight characters the stream has failed and is not rewound. -/
def preamble (s : IStream) : Except RdErr (Fmt × List ℕ) :=
  if s.rest.length < 8 then .error .bad
  else if s.rest.take 8 = magic then .ok (.binary, s.all) else .ok (.sms, s.all)

/-- the `switch` of `ReadMatrix`, fflas_io.h:90-142 -/
def readAs [Zero K] [DecidableEq K] (C : Codec K) (junk : ℕ → K) (fmt : Fmt) (l : List ℕ) : Except RdErr (Got K) :=
  match fmt with
  | .dense => readDense C junk l
  | .sms => readSMS C l
  | .binary => readBinary C junk l
  | .auto => .error .null

/-- `ReadMatrix`, fflas_io.h:79-144 -/
def readMatrix [Zero K] [DecidableEq K] (C : Codec K) (junk : ℕ → K) (fmt : Fmt) (s : IStream) : Except RdErr (Got K) :=
  if fmt = .auto then do
    let (f, l) ← preamble s
    readAs C junk f l
  else readAs C junk fmt s.rest

/-- decimal notation of the canonical representative, as for `Modular<…>` -/
def codecZMod (p : ℕ) : Codec (ZMod p) where
  write x := showNat x.val
  read l := (readNat l).map fun r => ((r.1 : ZMod p), r.2)
  card := showNat p
  enc x := leBytes 8 x.val
  dec b := (ofBytes b : ZMod p)
  size := 8

end Verif.MatIO
