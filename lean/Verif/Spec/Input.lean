/-!
# Specification of the text of an input file

Nothing here refers to the model of the code.
-/
namespace Verif.Spec

/-- White space. -/
def whiteSpace : List Char := [' ', '\t', '\n', '\r', '\x0b', '\x0c']

/-- `Words s ws`: `ws` are the maximal runs of characters of `s` that are not white space, in order. -/
inductive Words : List Char → List (List Char) → Prop where
  | nil : Words [] []
  | space (c : Char) (s : List Char) (ws : List (List Char)) : c ∈ whiteSpace → Words s ws → Words (c :: s) ws
  | word (w rest : List Char) (ws : List (List Char)) :
      w ≠ [] → (∀ c ∈ w, c ∉ whiteSpace) → (∀ c, rest.head? = some c → c ∈ whiteSpace) →
      Words rest ws → Words (w ++ rest) (w :: ws)

/-- An integer in decimal notation. -/
def decimal (z : Int) : List Char :=
  if z < 0 then '-' :: Nat.toDigits 10 z.natAbs else Nat.toDigits 10 z.natAbs

/-- Texts separated by commas. -/
def commaList : List (List Char) → List Char
  | [] => []
  | [t] => t
  | t :: r => t ++ ',' :: commaList r

/-- Text with its white space removed. -/
def squeeze (s : List Char) : List Char := s.filter fun c => c ∉ whiteSpace

/-- A part of an input file. -/
inductive Item where
  /-- a line `name = value # comment` (`comment` is empty or begins with `#`) -/
  | param (name value comment : List Char)
  /-- a block: `begin name`, the lines of its content, and a line with the word `end` -/
  | block (name : List Char) (content : List (List Char)) (last : List Char)
  /-- an empty line or a line with only a comment -/
  | comment (text : List Char)

/-- The lines of a part of an input file. -/
def Item.lines : Item → List (List Char)
  | .param n v c => [n ++ '=' :: (v ++ c)]
  | .block n content last => ("begin ".toList ++ n) :: (content ++ [last])
  | .comment t => [t]

/-- A comment: empty, or `#` and text without `;`. -/
def IsComment (c : List Char) : Prop := (c = [] ∨ c.head? = some '#') ∧ ';' ∉ c

/-- Well-formed parts of an input file.  No `;` is used.  The lines of a block do not contain `=` or the words `begin`
and `end`. -/
def Item.WellFormed : Item → Prop
  | .param n v c => ('=' ∉ n ∧ '#' ∉ n ∧ ';' ∉ n ∧ '(' ∉ n) ∧ ('#' ∉ v ∧ ';' ∉ v) ∧ IsComment c
  | .block n content last =>
    (n ≠ [] ∧ '=' ∉ n ∧ '#' ∉ n ∧ ';' ∉ n) ∧
    (∀ l ∈ content, '=' ∉ l ∧ ';' ∉ l ∧ ¬ "begin".toList <:+: l ∧ ¬ "end".toList <:+: l ∧ l ≠ []) ∧
    '=' ∉ last ∧ ';' ∉ last ∧ ¬ "begin".toList <:+: last ∧ "end".toList <:+: last
  | .comment t => IsComment t

/-- The setting that a part of the file defines: whether it is a block, and its name. -/
def Item.key : Item → Option (Bool × List Char)
  | .param n _ _ => some (false, squeeze n)
  | .block n _ _ => some (true, n)
  | .comment _ => none

end Verif.Spec
