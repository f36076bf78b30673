/-! Specification vocabulary about text. -/
namespace Verif.Spec

/-- Characters that separate tokens: white space, vertical bar, comma, double quote. -/
def tokenSeparators : List Char := [' ', '\t', '\n', '\r', '\x0b', '\x0c', '|', ',', '"']

/-- `Tokens s ts`: `ts` is the list of maximal runs of non-separators of `s`, in order. -/
inductive Tokens : List Char → List (List Char) → Prop where
  | nil : Tokens [] []
  | sep (c : Char) (s : List Char) (ts : List (List Char)) :
      c ∈ tokenSeparators → Tokens s ts → Tokens (c :: s) ts
  | word (w rest : List Char) (ts : List (List Char)) :
      w ≠ [] → (∀ c ∈ w, c ∉ tokenSeparators) →
      (∀ c, rest.head? = some c → c ∈ tokenSeparators) →
      Tokens rest ts → Tokens (w ++ rest) (w :: ts)

end Verif.Spec
