import Verif.Model.Particle
import Verif.Model.Basic

/-! # src/bands/window.cpp -/
namespace Verif.Model

/-- Loop over bands of `internalPopWindow` (src/bands/window.cpp L121-128) and `internalEnWindow` (L143-149):
the energies and the indices of the bands that pass the test, in order. -/
def selectLoop {α : Type} (keep : Nat → α → Bool) : Nat → List α → List α × List Nat
  | _, [] => ([], [])
  | ib, e :: es =>
    let (fe, bi) := selectLoop keep (ib + 1) es
    if keep ib e then (e :: fe, ib :: bi) else (fe, bi)

/-- First and last index, src/bands/window.cpp L129-132 and L151-154: empty when no band was kept. -/
def bandExtrema (bandIndices : List Nat) : List Nat :=
  match bandIndices with
  | [] => []
  | b :: bs => [b, (b :: bs).getLast (by simp)]

/-- `internalEnWindow`, src/bands/window.cpp L137-157. -/
def internalEnWindow {α : Type} [LT α] [DecidableRel (α := α) (· < ·)] (minEnergy maxEnergy : α) (energies : List α) :
    List α × List Nat :=
  let r := selectLoop (fun _ e => decide (e < maxEnergy) && decide (minEnergy < e)) 0 energies
  (r.1, bandExtrema r.2)

/-- `internalPopWindow`, src/bands/window.cpp L113-135. -/
noncomputable def internalPopWindow (threshold : ℝ) (popMin popMax : List ℝ) (energies : List ℝ) :
    List ℝ × List Nat :=
  let r := selectLoop (fun ib _ => decide (|popMin.getD ib 0| > threshold) || decide (|popMax.getD ib 0| > threshold)) 0
    energies
  (r.1, bandExtrema r.2)

/-- The kinds of window, src/bands/window.cpp L18-29, with the limits computed in L31-78. -/
inductive WindowMethod where
  | population (threshold : ℝ)
  | energy (minEnergy maxEnergy : ℝ)
  | nothing

/-- `Window::Window`, src/bands/window.cpp L18-78: `populationLimit` and `energyLimit` are the user inputs
(`none`: not given, not-a-number).  L62-63: for `muCenteredEnergy`, limits relative to the extreme chemical
potentials. -/
noncomputable def windowCtor (windowType : String) (populationLimit : Option ℝ) (energyLimit : Option (ℝ × ℝ))
    (muMin muMax : ℝ) : Outcome WindowMethod :=
  if windowType = "population" then .ok (.population (populationLimit.getD 1e-10))
  else if windowType = "energy" then
    match energyLimit with
    | none => .error
    | some (a, b) => if min a b = max a b then .error else .ok (.energy (min a b) (max a b))
  else if windowType = "muCenteredEnergy" then
    match energyLimit with
    | none => .error
    | some (a, b) =>
      let lo := muMin - |min a b|
      let hi := muMax + |max a b|
      if lo = hi then .error else .ok (.energy lo hi)
  else if windowType = "nothing" then .ok .nothing
  else .error

/-- `Window::apply`, src/bands/window.cpp L81-111. -/
noncomputable def windowApply (s : Statistics) (m : WindowMethod) (temperatureMax muMin muMax : ℝ) (energies : List ℝ) :
    List ℝ × List Nat :=
  match m with
  | .population threshold =>
    internalPopWindow threshold (energies.map fun e => getPopPopPm1 s e temperatureMax muMin)
      (energies.map fun e => getPopPopPm1 s e temperatureMax muMax) energies
  | .energy lo hi => internalEnWindow lo hi energies
  | .nothing => ((List.range energies.length).map (fun ib : Nat => (ib : ℝ)), [0, energies.length - 1])

/-- The bands of a wavevector kept by `buildOnTheFly` and `buildAsPostprocessing`
(src/bands/active_bandstructure.cpp L570-580, L640): all bands between the extrema; none if the list of
filtered energies is empty. -/
def keptBands {α : Type} (r : List α × List Nat) : List Nat :=
  match r with
  | ([], _) => []
  | (_ :: _, [first, last]) => List.range' first (last + 1 - first)
  | _ => []

end Verif.Model
