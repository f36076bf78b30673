import Verif.Model.Times

/-! # Relaxation times and linewidths in the units of the output files -/
namespace Verif.Spec
open Verif.Model

/-- Positive physical constants. -/
structure GoodConstants (k : TimeConstants) : Prop where
  hbar : 0 < k.hbar
  rydberg : 0 < k.rydberg
  electronVolt : 0 < k.electronVolt

/-- A time of the input file in seconds. -/
noncomputable def inputSeconds (value : ℝ) : TimeUnit → ℝ
  | .fs => value * 1e-15
  | .ps => value * 1e-12

/-- The time, in seconds, after which a rate of `rate` Rydberg over `hbar` relaxes. -/
noncomputable def rateSeconds (k : TimeConstants) (rate : ℝ) : ℝ := k.hbar / (rate * k.rydberg)

/-- The energy, in electronvolt, of a linewidth of `gamma` Rydberg. -/
noncomputable def linewidthEv (k : TimeConstants) (gamma : ℝ) : ℝ := gamma * k.rydberg / k.electronVolt

/-- `hbar` in electronvolt times seconds: linewidth times relaxation time. -/
noncomputable def hbarEv (k : TimeConstants) : ℝ := k.hbar / k.electronVolt

/-- The unit, in seconds, of the relaxation times: femtoseconds for electrons, picoseconds for phonons. -/
noncomputable def timeUnitSeconds (isElectron : Bool) : ℝ := if isElectron then 1e-15 else 1e-12

/-- The unit, in electronvolt, of the linewidths: eV for electrons, meV for phonons. -/
noncomputable def energyUnitEv (isElectron : Bool) : ℝ := if isElectron then 1 else 1e-3

end Verif.Spec
