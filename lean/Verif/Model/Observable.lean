import Verif.Model.Utilities
import Mathlib.Analysis.SpecialFunctions.Pow.Real

/-!
# src/observable/observable.cpp, and the copies of src/observable/phonon_thermal_cond.cpp

The arrays `scalar`, `vectord`, `tensordxd` and `tensordxdxdxd` are one function of the kind, the calculation and the list of
Cartesian indices, with a flag that says whether the array has been given a size.  The context, the sweep and the crystal are not
part of the model.
-/
namespace Verif.Model

/-- `isScalar`, `isVector`, `is2Tensor` and `is4Tensor`, src/observable/observable.h L63-66. -/
inductive ObsKind where
  | scalar | vector | tensor2 | tensor4
deriving DecidableEq, Repr

/-- Number of Cartesian indices. -/
def ObsKind.rank : ObsKind → Nat
  | .scalar => 0
  | .vector => 1
  | .tensor2 => 2
  | .tensor4 => 4

/-- An observable: its kind (`whichType`), the numbers of calculations and dimensions, and its arrays. -/
structure Obs where
  kind : ObsKind
  numCalc : Nat
  dim : Nat
  sized : ObsKind → Bool
  value : ObsKind → Nat → List Nat → ℝ

/-- The values of `rank` nested loops over the Cartesian indices, src/observable/observable.cpp L63-96. -/
def cartesianTuples (dim : Nat) : Nat → List (List Nat)
  | 0 => [[]]
  | n + 1 => (List.range dim).flatMap fun i => (cartesianTuples dim n).map fun l => i :: l

/-- `Observable::Observable`, src/observable/observable.cpp L4-11: the arrays have no elements. -/
def Obs.make (kind : ObsKind) (numCalc dim : Nat) : Obs := ⟨kind, numCalc, dim, fun _ => false, fun _ _ _ => 0⟩

/-- The array of the kind of the observable is resized and set to zero, e.g. src/observable/phonon_thermal_cond.cpp L16-17. -/
def Obs.resized (o : Obs) : Obs := { o with sized := fun k => if k = o.kind then true else o.sized k }

/-- Copy constructor, src/observable/observable.cpp L14-25. -/
def Obs.copy (o : Obs) : Obs := o

/-- Copy assignment, src/observable/observable.cpp L28-41: the dimensionality is not copied.  The
assignments of the references `context`, `statisticsSweep` and `crystal` are left out: both sides are taken to refer to the same objects. -/
def Obs.assign (a b : Obs) : Obs := { b with kind := a.kind, dim := a.dim }

/-- The arrays after the loops of `baseOperatorMinus`, src/observable/observable.cpp L63-96. -/
noncomputable def subtracted (new a b : Obs) (k : ObsKind) (c : Nat) (l : List Nat) : ℝ :=
  if k = a.kind ∧ c < a.numCalc ∧ l ∈ cartesianTuples a.dim a.kind.rank then a.value k c l - b.value k c l
  else new.value k c l

/-- `baseOperatorMinus`, src/observable/observable.cpp L61-97; the loops have the sizes of the first operand, and elements of
arrays without a size, or outside of their size, are undefined behaviour. -/
noncomputable def Obs.baseMinus (new a b : Obs) : Outcome Obs :=
  if a.numCalc = 0 ∨ (a.dim = 0 ∧ a.kind ≠ .scalar) then .ok new
  else if new.sized a.kind ∧ a.sized a.kind ∧ b.sized a.kind ∧ a.numCalc ≤ new.numCalc ∧ a.numCalc ≤ b.numCalc ∧
      (a.kind = .scalar ∨ (a.dim ≤ new.dim ∧ a.dim ≤ b.dim)) then
    .ok { new with value := subtracted new a b }
  else .ub

/-- `Observable::operator-`, src/observable/observable.cpp L55-59: the result is made with the constructor of the base class. -/
noncomputable def Obs.minus (a b : Obs) : Outcome Obs := (Obs.make .scalar a.numCalc a.dim).baseMinus a b

/-- `getNorm`, src/observable/observable.cpp L101-140; `abs` is taken to be the overload for floating-point numbers. -/
noncomputable def Obs.norm (o : Obs) (c : Nat) : ℝ :=
  if o.kind = .scalar then |o.value .scalar c []|
  else Real.sqrt ((cartesianTuples o.dim o.kind.rank).map fun l => o.value o.kind c l * o.value o.kind c l).sum /
    (o.dim : ℝ) ^ o.kind.rank

/-- `PhononThermalConductivity`: the observable, and `thCondConversion` and `thCondUnits` (one value for both), which may not be
set. -/
structure Conductivity where
  obs : Obs
  conversion : Option ℝ

/-- Constructor, src/observable/phonon_thermal_cond.cpp L12-33. -/
noncomputable def Conductivity.make (auToSi thickness : ℝ) (numCalc dim : Nat) : Conductivity :=
  ⟨(Obs.make .tensor2 numCalc dim).resized, some (if dim = 2 then auToSi * (1 / thickness) else auToSi)⟩

/-- Copy constructor, src/observable/phonon_thermal_cond.cpp L36-38. -/
def Conductivity.copy (a : Conductivity) : Conductivity := ⟨a.obs.copy, none⟩

/-- Copy assignment, src/observable/phonon_thermal_cond.cpp L41-48. -/
def Conductivity.assign (a b : Conductivity) : Conductivity := ⟨a.obs.assign b.obs, a.conversion⟩

/-- `operator-`, src/observable/phonon_thermal_cond.cpp L50-56. -/
noncomputable def Conductivity.minus (auToSi thickness : ℝ) (a b : Conductivity) : Outcome Conductivity := do
  let new := Conductivity.make auToSi thickness a.obs.numCalc a.obs.dim
  let o ← new.obs.baseMinus a.obs b.obs
  .ok ⟨o, new.conversion⟩

/-- An element of the conductivity as it is printed, src/observable/phonon_thermal_cond.cpp L467, L493 and L534: a
conversion that has not been set is undefined behaviour. -/
noncomputable def Conductivity.printed (a : Conductivity) (c i j : Nat) : Outcome ℝ :=
  match a.conversion with
  | none => .ub
  | some x => .ok (a.obs.value .tensor2 c [i, j] * x)

end Verif.Model
