import Verif.Model.ElPhWrite
import Verif.Spec.ElPhRead

/-! Vocabulary of the statements on writing the electron-phonon coupling. -/
namespace Verif.Spec
open Verif.Model

variable {α : Type}

/-- The tensor is distributed: process `r` holds the elements of the vectors of its share, and those only. -/
def Distributed (g : Nat → Nat → α) (n perBV size : Nat) (mems : Nat → Nat × List α) : Prop :=
  ∀ r < size, ∃ w, divideWorkIter n r size = .ok w ∧ mems r = (w.length, elementsOf g perBV w)

/-- Every process holds the whole tensor. -/
def Replicated (g : Nat → Nat → α) (n perBV size : Nat) (mems : Nat → Nat × List α) : Prop :=
  ∀ r < size, mems r = (n, elementsOf g perBV (List.range n))

/-- `events` is an order in which the `size` processes may do what they have to do: each does its own part in order. -/
def Interleaving (mems : Nat → Nat × List α) (n perBV size : Nat) (events : List (V2Event α)) : Prop :=
  (∀ e ∈ events, e.rank < size) ∧
  ∀ r < size, v2Script (mems r).2 (mems r).1 n perBV r size = .ok (events.filter fun e => e.rank == r)

end Verif.Spec
