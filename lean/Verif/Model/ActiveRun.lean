import Verif.Model.ActiveStore
import Verif.Model.Window
import Verif.Model.Sweep
import Verif.Model.IrrPoints

/-!
# The states kept for a transport calculation: src/bands/active_bandstructure.cpp, `builder`

From the table of calculations to the window and to the first and last band kept at each point of the mesh; the
scan of the points and the storage of the kept states are those of `Model/ActiveBuild.lean` and
`Model/ActiveStore.lean`.
-/
namespace Verif.Model

/-- A window ready to be applied: the members of `Window` used by `Window::apply` (src/bands/window.h). -/
structure ReadyWindow where
  statistics : Statistics
  method : WindowMethod
  temperatureMax : ℝ
  muMin : ℝ
  muMax : ℝ

/-- The inputs of the window: `windowType`, `windowPopulationLimit`, `windowEnergyLimit`
(src/bands/window.cpp L18-63). -/
structure WindowInput where
  windowType : String
  populationLimit : Option ℝ
  energyLimit : Option (ℝ × ℝ)

/-- The window of `buildAsPostprocessing`, src/bands/active_bandstructure.cpp L784-801: extremes of the temperatures
and chemical potentials of the calculations of the sweep, read one by one (L784-790); with no calculation an
iterator past the end is dereferenced (L792-795). -/
noncomputable def postWindow (s : Statistics) (w : WindowInput) (sweep : Sweep) : Outcome ReadyWindow :=
  if sweep.table = [] then .ub
  else do
    let temps := sweep.table.map (·.temperature)
    let chemPots := sweep.table.map (·.chemicalPotential)
    let m ← windowCtor w.windowType w.populationLimit w.energyLimit (listMin chemPots) (listMax chemPots)
    .ok ⟨s, m, listMax temps, listMin chemPots, listMax chemPots⟩

/-- The window of phonons built on the fly, src/bands/active_bandstructure.cpp L512-516: the temperatures of the
input, and chemical potentials with their default value zero (src/bands/window.h L22-23). -/
noncomputable def flyWindow (s : Statistics) (w : WindowInput) (temperatures : List ℝ) : Outcome ReadyWindow :=
  if temperatures = [] then .ub
  else do
    let m ← windowCtor w.windowType w.populationLimit w.energyLimit 0 0
    .ok ⟨s, m, listMax temperatures, 0, 0⟩

/-- First and last band kept for a list of energies, src/bands/active_bandstructure.cpp L569-578 (L855-867): nothing
if the list of filtered energies is empty. -/
noncomputable def ReadyWindow.select (W : ReadyWindow) (energies : List ℝ) : Option (Nat × Nat) :=
  match windowApply W.statistics W.method W.temperatureMax W.muMin W.muMax energies with
  | (_ :: _, [first, last]) => some (first, last)
  | _ => none

/-- Selection at point `ik` of the mesh as postprocessing, src/bands/active_bandstructure.cpp L836-867: the energies
are those at the irreducible point equivalent to it (`getRotationToIrreducible`, src/points.cpp L936-962; the index
found from the coordinates of point `ik` is `ik`).  `bands` is the number of bands of the Hamiltonian. -/
noncomputable def postSelect {κ γ : Type} (W : ReadyWindow) (H : HamView κ ℝ γ) (bands : Nat) (coords : Nat → κ)
    (irr : IrrPoints) (ik : Nat) : Option (Nat × Nat) :=
  W.select ((List.range bands).map fun b => H.energy (coords (irr.equiv ik)) b)

/-- Selection at point `ik` on the fly, src/bands/active_bandstructure.cpp L558-578: the energies of the point. -/
noncomputable def flySelect {κ γ : Type} (W : ReadyWindow) (H : HamView κ ℝ γ) (bands : Nat) (coords : Nat → κ)
    (ik : Nat) : Option (Nat × Nat) :=
  W.select ((List.range bands).map fun b => H.energy (coords ik) b)

/-- `ActiveBandStructure::builder`, src/bands/active_bandstructure.cpp L486-525: the selection of the bands at each
point.  Electrons always, and phonons on request, as postprocessing. -/
noncomputable def builderSelect {κ γ : Type} (s : Statistics) (forceBuildAPP : Bool) (w : WindowInput) (sweep : Sweep)
    (temperatures : List ℝ) (H : HamView κ ℝ γ) (bands : Nat) (coords : Nat → κ) (irr : IrrPoints) :
    Outcome (Nat → Option (Nat × Nat)) :=
  if s = .fermi ∨ forceBuildAPP = true then do
    let W ← postWindow s w sweep
    .ok (postSelect W H bands coords irr)
  else do
    let W ← flyWindow s w temperatures
    .ok (flySelect W H bands coords)

end Verif.Model
