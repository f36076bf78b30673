import Verif.Model.Basic
/-!
# src/utilities.cpp and src/utilities.h
-/
namespace Verif.Model

/-- `mod`: src/utilities.cpp L9, `(a % b + b) % b` with 32-bit checked arithmetic. -/
def cmod (a b : Int) : Outcome Int := do
  let r ← crem a b
  let s ← cadd r b
  crem s b

/-- `compress3Indices`: src/utilities.cpp L11-15.  `size1` is ignored by the code. -/
def compress3Indices (i1 i2 i3 _size1 size2 size3 : Int) : Outcome Int := do
  let a ← cmul i1 size2
  let b ← cmul a size3
  let c ← cmul i2 size3
  let d ← cadd b c
  cadd d i3

/-- `decompress3Indices`: src/utilities.cpp L17-27. -/
def decompress3Indices (iTot _size1 size2 size3 : Int) : Outcome (Int × Int × Int) := do
  let s23 ← cmul size2 size3
  let i1 ← cdiv iTot s23
  let p ← cmul i1 size2
  let q ← cmul p size3
  let rem ← csub iTot q
  let i2 ← cdiv rem size3
  let t ← cmul i2 size3
  let i3 ← csub rem t
  pure (i1, i2, i3)

/-- `compress2Indices`: src/utilities.cpp L29-33. -/
def compress2Indices (i1 i2 _size1 size2 : Int) : Outcome Int := do
  let a ← cmul i1 size2
  cadd a i2

/-- `decompress2Indices`: src/utilities.cpp L35-41. -/
def decompress2Indices (iTot _size1 size2 : Int) : Outcome (Int × Int) := do
  let i1 ← cdiv iTot size2
  let a ← cmul i1 size2
  let i2 ← csub iTot a
  pure (i1, i2)

/-- One execution of the `while (it != end)` loop of `splitVector`, src/utilities.h L114-124, with
`fuel` bounding the number of iterations; `diverge` when the fuel is used up.  `v` is the part of the
vector from `it` to `end`.  Simplification: lengths are below `2^32`, so the cast to `unsigned` of
`std::distance` is the identity. -/
def splitVectorLoop (fuel : Nat) (v : List α) (chunkSize : Nat) : Outcome (List (List α)) :=
  match fuel with
  | 0 => .diverge
  | fuel + 1 =>
    match v with
    | [] => .ok []
    | _ :: _ =>
      let numToCopy := min v.length chunkSize
      match splitVectorLoop fuel (v.drop numToCopy) chunkSize with
      | .ok rest => .ok (v.take numToCopy :: rest)
      | o => o

/-- `splitVector`, src/utilities.h L108-127, run for at most `fuel` loop iterations. -/
def splitVector (fuel : Nat) (v : List α) (chunkSize : Nat) : Outcome (List (List α)) :=
  splitVectorLoop fuel v chunkSize

/-- The scan of `findMaxRelativeDifference`, src/utilities.cpp L88-97: `maxDiff` starts at `1.e20`
and is replaced whenever the new element is *smaller*.  The triple loop over the tensor is a fold over
the list of its entries; `α` stands for `double`, and the list holds `|x - xRef| / |xRef|`. -/
def scanDiff [LT α] [DecidableRel (α := α) (· < ·)] (start : α) (diff : List α) : α :=
  diff.foldl (fun maxDiff d => if d < maxDiff then d else maxDiff) start

/-- `findMaxRelativeDifference`, src/utilities.cpp L80-102, on the list of relative differences.
`big` is the constant `1.e20`. -/
def findMaxRelativeDifference [LT α] [DecidableRel (α := α) (· < ·)] [DecidableEq α]
    (big : α) (diff : List α) : Outcome α :=
  let m := scanDiff big diff
  if m = big then .error else .ok m

/-- Separators of `tokenize`: the character class `[\s|,|\"]` of src/utilities.cpp L108 contains white
space, the vertical bar, the comma and the double quote. -/
def isTokenSep (c : Char) : Bool :=
  c == ' ' || c == '\t' || c == '\n' || c == '\r' || c == '\x0b' || c == '\x0c' ||
  c == '|' || c == ',' || c == '"'

/-- `std::sregex_token_iterator(..., re, -1)` with `re = [sep]+` (src/utilities.cpp L108-110): the
pieces of the string between the maximal runs of separators.  `cur` is the piece being read and
`inSep` tells whether the previous character was a separator (a run of separators cuts only once). -/
def regexSplit : List Char → List Char → Bool → List (List Char)
  | [], cur, inSep => if inSep then [] else [cur]   -- an empty suffix is not a token
  | c :: cs, cur, inSep =>
    if isTokenSep c then
      if inSep then regexSplit cs [] true
      else cur :: regexSplit cs [] true
    else regexSplit cs (cur ++ [c]) false

/-- `tokenize`, src/utilities.cpp L105-118: split, then erase the empty strings. -/
def tokenize (s : List Char) : List (List Char) :=
  (regexSplit s [] false).filter (fun t => !t.isEmpty)

end Verif.Model
