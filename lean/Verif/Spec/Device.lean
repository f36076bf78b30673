import Verif.Model.Device
import Mathlib.Algebra.BigOperators.Group.Finset.Basic

/-! Specification of the device memory in use, and the histories for which its registration is right (C75). -/
namespace Verif.Model

/-- Some existing object refers to allocation `i`. -/
def DevState.live (s : DevState) (i : Nat) : Prop := ∃ (h : Nat) (o : DevObj), s.objs[h]? = some (some o) ∧ (o.main = i ∨ o.cache = i)

open Classical in
/-- Bytes of the live allocations. -/
noncomputable def DevState.liveBytes (s : DevState) : Int :=
  ∑ i ∈ Finset.range s.sizes.length, if s.live i then (s.sizes.getD i 0 : Int) else 0

/-- The uses of the objects that keep the registration right: `PhononH0` and `ElectronH0Wannier` are not copied, only
`Interaction3Ph` is assigned, and an object that shares its arrays with a copy is not updated. -/
def SafeOp (s : DevState) : DevOp → Prop
  | .construct _ _ => True
  | .copy h => ∀ o, s.objs[h]? = some (some o) → o.kind ≠ .harmonic
  | .assign dst _ => ∀ o, s.objs[dst]? = some (some o) → o.kind = .threePh
  | .update h _ => ∀ o, s.objs[h]? = some (some o) →
      ∀ (h' : Nat) (o' : DevObj), h' ≠ h → s.objs[h']? = some (some o') → o'.main ≠ o.main
  | .destroy _ => True

/-- Every operation of the history is safe in the state in which it is executed. -/
def SafeFrom : DevState → List DevOp → Prop
  | _, [] => True
  | s, op :: t => SafeOp s op ∧ SafeFrom (devStep s op) t

end Verif.Model
