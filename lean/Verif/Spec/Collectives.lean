import Verif.Model.Collectives

/-!
# Specification: processes of a communicator and buffers of all processes
-/
namespace Verif.Spec

open Verif.Model

/-- Buffers of `size` processes with `n` elements each, `v r i` the element `i` on process `r`. -/
def uniform {α : Type} (size n : Nat) (v : Nat → Nat → α) : List (List α) :=
  (List.range size).map fun r => (List.range n).map (v r)

/-- Process `r'` is in the communicator of process `r`: all processes, those of the same pool (`ps` consecutive ranks),
those with the same place in their pools. -/
def _root_.Verif.Model.MpiComm.sameAs (c : MpiComm) (ps r r' : Nat) : Bool :=
  match c with
  | .world => true
  | .intra => r' / ps == r / ps
  | .inter => r' % ps == r % ps

/-- Number of processes of a communicator. -/
def _root_.Verif.Model.MpiComm.members (c : MpiComm) (size ps : Nat) : Nat :=
  match c with
  | .world => size
  | .intra => ps
  | .inter => size / ps

/-- World rank of the process of rank `q` in the communicator of process `r`. -/
def _root_.Verif.Model.MpiComm.memberOf (c : MpiComm) (ps r q : Nat) : Nat :=
  match c with
  | .world => q
  | .intra => r / ps * ps + q
  | .inter => q * ps + r % ps

end Verif.Spec
