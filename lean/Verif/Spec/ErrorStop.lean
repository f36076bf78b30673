import Verif.Model.ErrorStop

/-! # All processes end together -/
namespace Verif.Spec
open Verif.Model

/-- All `n` processes end with the same code. -/
def AllStop (n : Nat) (code : Int) (e : Ending) : Prop := e = .finished (List.replicate n code)

/-- What a run that meets no error does: collectives only. -/
def OnlyCollectives (p : List MpiAct) : Prop := ∀ a ∈ p, ∃ name, a = .collective name

/-- A run whose first communication is not a barrier. -/
def StartsWithData (p : List MpiAct) : Prop := ∃ name q, p = .collective name :: q ∧ name ≠ "barrier"

end Verif.Spec
