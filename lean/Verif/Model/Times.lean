import Verif.Model.ScatMatrix
import Verif.Model.Particle
import Mathlib.Analysis.SpecialFunctions.Trigonometric.Basic

/-!
# Constant relaxation times, and the relaxation times that are printed

src/context.cpp, src/constants/constants.h, src/bte/scattering.cpp, src/apps/transport_epa_app.cpp.  Numbers of type
`double` are real numbers (exact arithmetic).
-/
namespace Verif.Model

/-- The physical constants behind the unit conversions, src/constants/constants.h L22-33. -/
structure TimeConstants where
  hbar : ℝ
  rydberg : ℝ
  electronVolt : ℝ

/-- `timeAuToFs`, src/constants/constants.h L30 and L48. -/
noncomputable def timeAuToFs (k : TimeConstants) : ℝ := k.hbar / k.rydberg * 1e15

/-- `energyRyToFs`, src/constants/constants.h L49. -/
noncomputable def energyRyToFs (k : TimeConstants) : ℝ := timeAuToFs k * (2 * Real.pi)

/-- `energyRyToEv`, src/constants/constants.h L43. -/
noncomputable def energyRyToEvOf (k : TimeConstants) : ℝ := k.rydberg / k.electronVolt

/-- The units of time of the input file. -/
inductive TimeUnit | fs | ps

/-- `parseDoubleWithUnits`, src/context.cpp L77-82, on `constantRelaxationTime = value unit` (L613-614). -/
noncomputable def parseTime (k : TimeConstants) (value : ℝ) : TimeUnit → ℝ
  | .fs => value / timeAuToFs k
  | .ps => value / (timeAuToFs k * 1e-3)

/-- `constantRTA`, src/bte/scattering.cpp L52-54. -/
noncomputable def constantRTA (crt : Option ℝ) : Option ℝ :=
  match crt with
  | some t => if 0 < t then some t else none
  | none => none

/-- `getTimesFromVectorBTE`, src/bte/scattering.cpp L484-513: the relaxation times used by the solvers. -/
noncomputable def timesOf (crt : Option ℝ) (omega : Bool) (pop diag : Nat → Nat → ℝ) : Nat → Nat → ℝ :=
  match constantRTA crt with
  | some t => fun _ _ => t / (2 * Real.pi)
  | none => fun c b => if omega then 1 / diag c b else pop c b / diag c b

/-- `getLinewidths`, src/bte/scattering.cpp L529-568: `2π / constantRelaxationTime` in the constant mode (L532). -/
noncomputable def linewidthsOf (crt : Option ℝ) (omega isElectron : Bool) (pop diag : Nat → Nat → ℝ) :
    Outcome (Nat → Nat → ℝ) :=
  getLinewidths ((constantRTA crt).map fun t => 2 * Real.pi / t) omega isElectron pop diag

/-- What `outputToJSON` writes for one state, src/bte/scattering.cpp L652-672 and L722-725: relaxation time, in fs for
electrons and ps for phonons, and linewidth, in eV for electrons and meV for phonons. -/
noncomputable def printedTime (k : TimeConstants) (isElectron : Bool) (tau : ℝ) : ℝ :=
  tau * (if isElectron then energyRyToFs k / (2 * Real.pi) else energyRyToFs k / (2 * Real.pi) * 1e-3)

noncomputable def printedLinewidth (k : TimeConstants) (isElectron : Bool) (gamma : ℝ) : ℝ :=
  gamma * (if isElectron then energyRyToEvOf k else energyRyToEvOf k * 1000)

/-- `relaxonsToJSON`, src/bte/scattering.cpp L820 and L832-855: relaxation time of a relaxon, in fs. -/
noncomputable def printedRelaxonTime (k : TimeConstants) (eigenvalue : ℝ) : ℝ := 1 / eigenvalue * energyRyToFs k

/-- `TransportEpaApp::outputToJSON`, src/apps/transport_epa_app.cpp L316-318 and L346-353: relaxation time in fs and
linewidth in eV. -/
noncomputable def printedEpa (k : TimeConstants) (rate : ℝ) : ℝ × ℝ :=
  let tau := 1 / rate
  let linewidth := 1 / tau
  (tau * energyRyToFs k, linewidth * energyRyToEvOf k)

end Verif.Model
