import Verif.Model.ScatMatrix

/-!
# Scattering processes with and without symmetries: src/bte/ph_scattering.cpp, src/bte/el_scattering.cpp

The same physical process gives a different pass through the updates (`ScatEvent`) depending on whether symmetries
are used.
-/
namespace Verif.Model

/-- A scattering process between two states of the full mesh. -/
structure Process (α : Type) where
  s1 : Nat
  s2 : Nat
  rate : α
  rateOff : α

/-- The process without symmetries: BTE indices are state indices and rotations are identities
(src/points.cpp L927-944, `getRotationToIrreducible` of a list without symmetries). -/
def fullEvent {α : Type} [Zero α] [One α] (t : Process α) : ScatEvent α :=
  ⟨t.s1, t.s2, t.s1, t.s2, fun i j => if i = j then 1 else 0, t.rate, t.rateOff⟩

/-- Reduction of the states: BTE index of a state (`stateToBte`), state of a BTE index (`bteToState`) and inverse of the
rotation of a state to its irreducible partner (`getRotationToIrreducible`). -/
structure Reduction (α : Type) where
  bte : Nat → Nat
  state : Nat → Nat
  rotInv : Nat → Nat → Nat → α

/-- The process with symmetries, for an irreducible state 1: src/bte/ph_scattering.cpp L285-303,
src/bte/el_scattering.cpp L235-275 (`is2Irr` is the state of the irreducible wavevector with the same band). -/
def irrEvent {α : Type} (r : Reduction α) (t : Process α) : ScatEvent α :=
  ⟨r.bte t.s1, r.bte t.s2, t.s1, r.state (r.bte t.s2), r.rotInv t.s2, t.rate, t.rateOff⟩

/-- The processes of the calculation with symmetries: state 1 runs over the irreducible states only
(`getIteratorWavevectorPairs`, modelled in `Verif.Model.Pairs`). -/
def irrProcesses {α : Type} (r : Reduction α) (l : List (Process α)) : List (Process α) :=
  l.filter fun t => decide (t.s1 = r.state (r.bte t.s1))

end Verif.Model
