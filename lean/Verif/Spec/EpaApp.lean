import Verif.Spec.RtaRun
import Verif.Spec.EpaRates
import Verif.Model.EpaApp

/-! # What a run of the electron-phonon averaged approximation should give -/
namespace Verif.Spec
open Verif.Model

/-- Energies of the mesh: the centers of the steps from the lower end of the window. -/
noncomputable def windowEnergy (A : EpaApp) (i : Nat) : ℝ := A.fermiLevel - A.range + ((i : ℝ) + 1 / 2) * A.step

/-- The density of states of one spin at energy `e`, per volume: a sum over all the states of the full mesh. -/
noncomputable def spinDensity (A : EpaApp) (numStates : Nat) (e : ℝ) : ℝ :=
  (∑ s ∈ Finset.range numStates, A.delta s e) / (A.numPoints * A.volume)

/-- The averaged golden rule in calculation `c` at energy number `i` of `n`, with the density of states of the mesh,
interpolated. -/
noncomputable def goldenRate (A : EpaApp) (g : Nat → ℝ → ℝ → ℝ) (numStates n c i : Nat) : ℝ :=
  let rho := fun e => interpolated (fun j => spinDensity A numStates (windowEnergy A j)) n ((e - windowEnergy A 0) / A.step)
  averagedRate A.volume (A.stat c).temp (A.stat c).chemPot A.phEnergies g rho (windowEnergy A i)

/-- The rates that the program uses: `2π` over a positive `constantRelaxationTime` (see C135), or the averaged golden rule;
half of it without spin-orbit coupling (see C133). -/
noncomputable def epaRateOf (A : EpaApp) (g : Nat → ℝ → ℝ → ℝ) (numStates n c i : Nat) : ℝ :=
  let computed := (if A.spinOrbit then 1 else 1 / 2) * goldenRate A g numStates n c i
  match A.crt with
  | some T => if 0 < T then 2 * Real.pi / T else computed
  | none => computed

/-- The energies that count: rate above `1e-10` and `f(1-f)` above `1e-20`. -/
noncomputable def epaKept (n : Nat) (temp chemPot : ℝ) (energies rate : Nat → ℝ) : Finset Nat :=
  open Classical in (Finset.range n).filter fun i => 1e-10 < rate i ∧
    1e-20 < fermiOccupation (energies i) temp chemPot * (1 - fermiOccupation (energies i) temp chemPot)

/-- Moments of electrons: `g Σ_ε dε (1/rate(ε)) (-∂f/∂ε) (ε - μ)^p [1/(N V) Σ_s δ(ε - ε_s) v v]`. -/
noncomputable def epaMoment (A : EpaApp) (numStates n : Nat) (temp chemPot : ℝ) (rate : Nat → ℝ) (p : Nat) : Mat3 :=
  fun a b => (if A.spinOrbit then 1 else 2) * ∑ i ∈ epaKept n temp chemPot (windowEnergy A) rate,
    A.step * (1 / rate i) *
      (fermiOccupation (windowEnergy A i) temp chemPot * (1 - fermiOccupation (windowEnergy A i) temp chemPot) / temp) *
      (windowEnergy A i - chemPot) ^ p *
      ((∑ s ∈ Finset.range numStates, A.delta s (windowEnergy A i) * A.B.vel s a * A.B.vel s b) / (A.numPoints * A.volume))

/-- Entry of a list of lists. -/
def entry2 (l : List (List ℝ)) (c i : Nat) : Option ℝ := l[c]?.bind (·[i]?)

end Verif.Spec
