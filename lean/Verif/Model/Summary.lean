import Verif.Model.Input

/-!
# The summary of the input on the terminal

`Context::printInputSummary`, src/context.cpp L823-1151: the lines with real numbers.  Not modelled: the lines with
words, truth values, integers and points of paths.  Simplification: numbers are printed exactly, and a number that was
not given and is printed as `nan` (the energies of the DoS) is no line here.
-/
namespace Verif.Model
section
variable {α : Type} [Field α] [LinearOrder α]

/-- A line of the summary: name, numbers, unit (empty if none is printed). -/
structure Echo (α : Type) where
  name : String
  numbers : List α
  unit : String

/-- A number times a factor, printed if it is set (`!std::isnan`). -/
def echo (c : Settings α) (name : String) (factor : α) (unit : String) : List (Echo α) :=
  match c name.toList with
  | some (.dbl x) => [⟨name, [x * factor], unit⟩]
  | _ => []

/-- `printVectorXd`, src/context.cpp L813-820, of a vector times a factor, if it has elements. -/
def echoList (c : Settings α) (name : String) (factor : α) (unit : String) : List (Echo α) :=
  match c name.toList with
  | some (.dbls l) => [⟨name, l.map (· * factor), unit⟩]
  | _ => []

/-- `appName.find(part) != std::string::npos`. -/
def appHas (app : Str) (part : String) : Bool := patternInString app part.toList

/-- The text of a setting (empty by default). -/
def textOf (c : Settings α) (name : String) : Str :=
  match c name.toList with
  | some (.str s) => s
  | _ => []

/-- src/context.cpp L833-836: the thickness is printed in the unit `ang` if the dimension is not 3; by default it is 1. -/
def crystalSummary (u : UnitTable α) (c : Settings α) : List (Echo α) :=
  match c "dimensionality".toList with
  | some (.int d) =>
    if d = 3 then []
    else match c "thickness".toList with
      | some (.dbl x) => [⟨"thickness", [x * u.bohrToAng], "ang"⟩]
      | _ => [⟨"thickness", [1 * u.bohrToAng], "ang"⟩]
  | _ => []

/-- `deltaPath`, L919 and L1061: by default 0.05. -/
def pathSummary (c : Settings α) : List (Echo α) :=
  match c "deltaPath".toList with
  | some (.dbl x) => [⟨"deltaPath", [x], "1/Bohr"⟩]
  | _ => [⟨"deltaPath", [5 / 100], "1/Bohr"⟩]

/-- src/context.cpp L856-946: applications of the electron-phonon coupling. -/
def couplingSummary (u : UnitTable α) (app : Str) (c : Settings α) : List (Echo α) :=
  if appHas app "elPh" || app = "electronLifetimes".toList || app = "electronWannierTransport".toList then
    (if textOf c "elPhInterpolation" = "epa".toList then
      echo c "epaMinEnergy" u.ryToEv "eV" ++ echo c "epaMaxEnergy" u.ryToEv "eV" ++
      echo c "epaSmearingEnergy" u.ryToEv "eV" ++ echo c "electronFourierCutoff" 1 "" else []) ++
    (if appHas app "CouplingPlot" && decide (textOf c "couplingMeshStyle" = "pointsPath".toList) then pathSummary c
     else [])
  else []

/-- `windowEnergyLimit`, src/context.cpp L1001-1005. -/
def windowSummary (u : UnitTable α) (c : Settings α) : List (Echo α) :=
  match c "windowEnergyLimit".toList with
  | some (.dbls [a, b]) => if a ≠ 0 ∨ b ≠ 0 then [⟨"windowEnergyLimit", [a * u.ryToEv, b * u.ryToEv], "eV"⟩] else []
  | _ => []

/-- `temperatures`, src/context.cpp L1011 and L1109: printed also if there are none. -/
def temperaturesSummary (u : UnitTable α) (c : Settings α) : List (Echo α) :=
  match c "temperatures".toList with
  | some (.dbls l) => [⟨"temperatures", l.map (· * u.tempAuToSi), "K"⟩]
  | _ => [⟨"temperatures", [], "K"⟩]

/-- Temperatures and their range, src/context.cpp L1011-1018, the same in L1109-1116. -/
def rangeSummary (u : UnitTable α) (c : Settings α) : List (Echo α) :=
  temperaturesSummary u c ++ echo c "minTemperature" 1 "K" ++ echo c "maxTemperature" 1 "K" ++
    echo c "deltaTemperature" 1 "K"

/-- Dopings and chemical potentials, src/context.cpp L1022-1038, the same in L1117-1135. -/
def potentialSummary (u : UnitTable α) (c : Settings α) : List (Echo α) :=
  echoList c "dopings" 1 "cm^-3" ++ echoList c "chemicalPotentials" u.ryToEv "eV" ++
    echo c "minChemicalPotential" u.ryToEv "eV" ++ echo c "maxChemicalPotential" u.ryToEv "eV" ++
    echo c "deltaChemicalPotential" u.ryToEv "eV" ++ echo c "eFermiRange" 1 "eV" ++
    echo c "fermiLevel" u.ryToEv ""

/-- src/context.cpp L953-1047: transport and lifetimes. -/
def transportSummary (u : UnitTable α) (app : Str) (c : Settings α) : List (Echo α) :=
  if appHas app "Transport" || appHas app "Lifetimes" then
    echo c "constantRelaxationTime" u.auToFs "fs" ++ echo c "smearingWidth" u.ryToEv "eV" ++
    (if appHas app "Transport" then echo c "convergenceThresholdBTE" 1 "" else []) ++
    windowSummary u c ++ echo c "windowPopulationLimit" 1 "" ++ rangeSummary u c ++
    (if appHas app "lectron" || app = "phononElectronLifetimes".toList ||
        (appHas app "honon" && decide (textOf c "elphFileName" ≠ [])) then
      potentialSummary u c ++
      (if spinOrbitOf c then echo c "numOccupiedStates" 1 "" else echo c "numOccupiedStates" (1 / 2) "") else []) ++
    (if appHas app "honon" && !appHas app "lectron" then
      (match c "masses".toList with
        | some (.dbls l) => [⟨"masses", l.map (· * (1 / u.massAmuToRy)), "amu"⟩]
        | _ => []) ++
      echoList c "isotopeCouplings" 1 "" ++ echo c "boundaryLength" u.bohrToMum "mum" else [])
  else []

/-- src/context.cpp L1050-1062. -/
def dosSummary (u : UnitTable α) (app : Str) (c : Settings α) : List (Echo α) :=
  if appHas app "Dos" then
    echo c "dosMinEnergy" u.ryToEv "eV" ++ echo c "dosMaxEnergy" u.ryToEv "eV" ++ echo c "dosDeltaEnergy" u.ryToEv "eV" ++
    (if appHas app "Fourier" then echo c "electronFourierCutoff" 1 "" else [])
  else []

/-- src/context.cpp L1065-1090. -/
def bandsSummary (app : Str) (c : Settings α) : List (Echo α) :=
  if appHas app "Bands" then
    pathSummary c ++ (if appHas app "Fourier" then echo c "electronFourierCutoff" 1 "" else [])
  else []

/-- src/context.cpp L1093-1139. -/
def epaSummary (u : UnitTable α) (app : Str) (c : Settings α) : List (Echo α) :=
  if app = "transportEpa".toList then
    echo c "epaEnergyRange" u.ryToEv "eV" ++ echo c "epaEnergyStep" u.ryToEv "eV" ++
    echo c "epaMinEnergy" u.ryToEv "eV" ++ echo c "epaMaxEnergy" u.ryToEv "eV" ++
    echo c "epaSmearingEnergy" u.ryToEv "eV" ++ echo c "epaDeltaEnergy" u.ryToEv "eV" ++
    echo c "electronFourierCutoff" 1 "" ++ rangeSummary u c ++ potentialSummary u c ++
    echo c "numOccupiedStates" 1 ""
  else []

/-- `Context::printInputSummary`, src/context.cpp L823-1151, on the process `head` or another one. -/
def inputSummary (head : Bool) (u : UnitTable α) (app : Str) (c : Settings α) : List (Echo α) :=
  if !head then []
  else crystalSummary u c ++ couplingSummary u app c ++ transportSummary u app c ++ dosSummary u app c ++
    bandsSummary app c ++ epaSummary u app c

end
end Verif.Model
