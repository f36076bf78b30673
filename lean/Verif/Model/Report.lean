import Verif.Model.Transport

/-!
# Transport coefficients on the terminal and in the JSON files

src/observable/onsager.cpp L441-695, src/observable/phonon_thermal_cond.cpp L448-540,
src/observable/wigner_phonon_thermal_cond.cpp L165-190, src/observable/specific_heat.cpp L71-144,
src/observable/viscosity_io.cpp L198-309.

The terminal is a list of lines, a line a list of words and numbers.  Simplification: numbers are printed exactly (the
program keeps two to five decimal digits), and the spaces between them are not modelled.
-/
namespace Verif.Model

/-- One thing written on a line. -/
inductive Item
  | word (s : String)
  | int (n : Int)
  | num (x : ℝ)

/-- A line of the terminal. -/
abbrev Line := List Item

/-- The other conversions, src/constants/constants.h: `temperatureAuToSi`, `energyRyToEv`, `mobilityAuToSi` (times 10^4),
`thermopowerAuToSi` (times 10^6) and `viscosityAuToSi`. -/
structure ReportUnits where
  si : SiConstants
  temperature : ℝ
  ev : ℝ
  mobility : ℝ
  seebeck : ℝ
  viscosity : ℝ

/-- The loops over rows and columns of a tensor, e.g. src/observable/onsager.cpp L488-496. -/
def tableLines (d : Nat) (M : Nat → Nat → ℝ) : List Line :=
  (List.range d).map fun i => (List.range d).map fun j => .num (M i j)

/-- The nested vectors of a tensor in the file, e.g. src/observable/onsager.cpp L626-634. -/
def tableFile (d : Nat) (M : Nat → Nat → ℝ) : List (List ℝ) :=
  (List.range d).map fun i => (List.range d).map fun j => M i j

/-! ## Electrons -/

/-- src/observable/onsager.cpp L445-462, the same in L585-602. -/
def sigmaUnit (d : Nat) : String := if d = 1 then "S m" else if d = 2 then "S" else "S / m"

/-- src/observable/onsager.cpp L445-462, the same in L585-602. -/
def kappaUnit (d : Nat) : String := if d = 1 then "W m / K" else if d = 2 then "W / K" else "W / m / K"

/-- `sigma`, `mobility`, `kappa`, `seebeck`: calculation, row, column. -/
structure OnsagerTensors where
  sigma : Nat → Nat → Nat → ℝ
  mobility : Nat → Nat → Nat → ℝ
  kappa : Nat → Nat → Nat → ℝ
  seebeck : Nat → Nat → Nat → ℝ

/-- A title, the table and an empty line, src/observable/onsager.cpp L486-498. -/
def titledTable (title unit : String) (d : Nat) (M : Nat → Nat → ℝ) : List Line :=
  [.word title, .word unit] :: tableLines d M ++ [[]]

/-- What `print` writes for one calculation, after the line with its number, src/observable/onsager.cpp L480-539. -/
noncomputable def onsagerBody (u : ReportUnits) (d : Nat) (stat : Nat → CalcStat) (t : OnsagerTensors) (iCalc : Nat) :
    List Line :=
  open Classical in
  [[.word "(K), mu =", .num ((stat iCalc).chemPot * u.ev), .word "(eV), n =", .num (stat iCalc).doping,
      .word "cm^-3"]] ++
  titledTable "Electrical Conductivity" (sigmaUnit d) d (fun i j => t.sigma iCalc i j * convSigma u.si d) ++
  (if |(stat iCalc).doping| > 0 then
    titledTable "Carrier mobility" "cm^2 / V / s" d (fun i j => t.mobility iCalc i j * u.mobility) else []) ++
  titledTable "Thermal Conductivity" (kappaUnit d) d (fun i j => t.kappa iCalc i j * convKappa u.si d) ++
  titledTable "Seebeck Coefficient" "muV / K" d (fun i j => t.seebeck iCalc i j * u.seebeck)

/-- The line with the number and the temperature of a calculation, src/observable/onsager.cpp L476-478. -/
noncomputable def onsagerHeader (u : ReportUnits) (stat : Nat → CalcStat) (iCalc : Nat) : Line :=
  [.word "iCalc =", .int iCalc, .word "T =", .num ((stat iCalc).temp * u.temperature)]

/-- `OnsagerCoefficients::print()`, src/observable/onsager.cpp L441-541 (also used by `WignerElCoefficients`). -/
noncomputable def onsagerPrint (head : Bool) (u : ReportUnits) (d numCalc : Nat) (stat : Nat → CalcStat)
    (t : OnsagerTensors) : List Line :=
  if !head then []
  else [] :: (List.range numCalc).flatMap fun iCalc => onsagerHeader u stat iCalc :: onsagerBody u d stat t iCalc

/-- The file of `OnsagerCoefficients::outputToJSON`. -/
structure OnsagerFile where
  temperatures : List ℝ
  dopings : List ℝ
  dopingUnit : String
  chemPots : List ℝ
  sigma : List (List (List ℝ))
  sigmaUnit : String
  mobility : List (List (List ℝ))
  mobilityUnit : String
  kappa : List (List (List ℝ))
  kappaUnit : String
  seebeck : List (List (List ℝ))
  seebeckUnit : String

/-- `OnsagerCoefficients::outputToJSON`, src/observable/onsager.cpp L581-695: nothing is written by the other
processes. -/
noncomputable def onsagerFile (head : Bool) (u : ReportUnits) (d numCalc : Nat) (stat : Nat → CalcStat)
    (t : OnsagerTensors) : Option OnsagerFile :=
  if !head then none
  else some {
    temperatures := jsonList numCalc fun iCalc => (stat iCalc).temp * u.temperature
    dopings := jsonList numCalc fun iCalc => (stat iCalc).doping
    dopingUnit := "cm$^{-" ++ toString d ++ "}$"
    chemPots := jsonList numCalc fun iCalc => (stat iCalc).chemPot * u.ev
    sigma := jsonList numCalc fun iCalc => tableFile d fun i j => t.sigma iCalc i j * convSigma u.si d
    sigmaUnit := Model.sigmaUnit d
    mobility := jsonMobility numCalc stat fun iCalc => tableFile d fun i j => t.mobility iCalc i j * u.mobility
    mobilityUnit := "cm^2 / V / s"
    kappa := jsonList numCalc fun iCalc => tableFile d fun i j => t.kappa iCalc i j * convKappa u.si d
    kappaUnit := Model.kappaUnit d
    seebeck := jsonList numCalc fun iCalc => tableFile d fun i j => t.seebeck iCalc i j * u.seebeck
    seebeckUnit := "muV / K" }

/-- The two lines of one calculation in `OnsagerCoefficients::print(iter)`, src/observable/onsager.cpp L557-577: the
conversions of three dimensions, whatever the dimension. -/
noncomputable def onsagerIteration (u : ReportUnits) (d : Nat) (stat : Nat → CalcStat) (t : OnsagerTensors)
    (iCalc : Nat) : List Line :=
  [[.word "T =", .num ((stat iCalc).temp * u.temperature), .word "sigma ="] ++
      (List.range d).map fun i => .num (t.sigma iCalc i i * u.si.elConductivity),
    [.word "T =", .num ((stat iCalc).temp * u.temperature), .word "k ="] ++
      (List.range d).map fun i => .num (t.kappa iCalc i i * u.si.thConductivity)]

/-- `OnsagerCoefficients::print(iter)`, src/observable/onsager.cpp L543-579; the time is left out. -/
noncomputable def onsagerPrintIter (head : Bool) (u : ReportUnits) (d numCalc iter : Nat) (stat : Nat → CalcStat)
    (t : OnsagerTensors) : List Line :=
  if !head then []
  else [.word "Iteration:", .int iter] :: ((List.range numCalc).flatMap (onsagerIteration u d stat t) ++ [[]])

/-! ## Phonons -/

/-- The line with the temperature, src/observable/phonon_thermal_cond.cpp L459-462. -/
noncomputable def temperatureLine (u : ReportUnits) (temp : Nat → ℝ) (iCalc : Nat) : Line :=
  [.word "Temperature:", .num (temp iCalc * u.temperature), .word "(K)"]

/-- `PhononThermalConductivity::print()`, src/observable/phonon_thermal_cond.cpp L448-473, and
`WignerPhononThermalConductivity::print`, src/observable/wigner_phonon_thermal_cond.cpp L165-190, with their `title`.
`conv` is `thCondConversion`. -/
noncomputable def phononPrint (head : Bool) (title : String) (u : ReportUnits) (d numCalc : Nat) (conv : ℝ)
    (temp : Nat → ℝ) (kappa : Nat → Nat → Nat → ℝ) : List Line :=
  if !head then []
  else [] :: [.word title, .word "W /(m K)"] :: (List.range numCalc).flatMap fun iCalc =>
    temperatureLine u temp iCalc :: (tableLines d (fun i j => kappa iCalc i j * conv) ++ [[]])

/-- The file of `PhononThermalConductivity::outputToJSON`. -/
structure PhononFile where
  temperatures : List ℝ
  kappa : List (List (List ℝ))
  kappaUnit : String

/-- `PhononThermalConductivity::outputToJSON`, src/observable/phonon_thermal_cond.cpp L475-511. -/
noncomputable def phononFile (head : Bool) (u : ReportUnits) (d numCalc : Nat) (conv : ℝ) (temp : Nat → ℝ)
    (kappa : Nat → Nat → Nat → ℝ) : Option PhononFile :=
  if !head then none
  else some {
    temperatures := jsonList numCalc fun iCalc => temp iCalc * u.temperature
    kappa := jsonList numCalc fun iCalc => tableFile d fun i j => kappa iCalc i j * conv
    kappaUnit := "W /(m K)" }

/-- `PhononThermalConductivity::print(iter)`, src/observable/phonon_thermal_cond.cpp L512-540; the time is left out. -/
noncomputable def phononPrintIter (head : Bool) (u : ReportUnits) (d numCalc iter : Nat) (conv : ℝ) (temp : Nat → ℝ)
    (kappa : Nat → Nat → Nat → ℝ) : List Line :=
  if !head then []
  else [.word "Iteration:", .int iter] :: ((List.range numCalc).map (fun iCalc =>
    [.word "T =", .num (temp iCalc * u.temperature), .word "k ="] ++
      (List.range d).map fun i => .num (kappa iCalc i i * conv)) ++ [[]])

/-! ## Specific heat -/

/-- src/observable/specific_heat.cpp L75-82, the same in L112-119. -/
def heatUnit (d : Nat) : String := if d = 1 then "J / K / m" else if d = 2 then "J / K / m^2" else "J / K / m^3"

/-- `SpecificHeat::print`, src/observable/specific_heat.cpp L71-106. -/
noncomputable def heatPrint (head isPhonon : Bool) (u : ReportUnits) (d numCalc : Nat) (temp heat : Nat → ℝ) :
    List Line :=
  if !head then []
  else [] :: [.word (if isPhonon then "Phonon specific heat" else "Electron specific heat"), .word (heatUnit d)] ::
    (List.range numCalc).map fun iCalc =>
      [.word "Temperature:", .num (temp iCalc * u.temperature), .word "(K), C =",
        .num (heat iCalc * heatConversion u.si d)]

/-- The file of `SpecificHeat::outputToJSON`. -/
structure HeatFile where
  temperatures : List ℝ
  heat : List ℝ
  heatUnit : String

/-- `SpecificHeat::outputToJSON`, src/observable/specific_heat.cpp L108-144. -/
noncomputable def heatFile (head : Bool) (u : ReportUnits) (d numCalc : Nat) (temp heat : Nat → ℝ) : Option HeatFile :=
  if !head then none
  else some {
    temperatures := jsonList numCalc fun iCalc => temp iCalc * u.temperature
    heat := jsonList numCalc fun iCalc => heat iCalc * heatConversion u.si d
    heatUnit := Model.heatUnit d }

/-! ## Viscosity -/

/-- src/observable/viscosity_io.cpp L204-216, the same in L260-263. -/
def viscosityUnit (d : Nat) : String := if d = 1 then "Pa s / m^2" else if d = 2 then "Pa s / m" else "Pa s"

/-- The indices at the start of a row, src/observable/viscosity_io.cpp L239-241. -/
def viscosityLabel (d i j k : Nat) : Line :=
  (if d = 1 then [.int i] else []) ++ (if d = 2 then [.int i, .int j] else []) ++
    (if d = 3 then [.int i, .int j, .int k] else [])

/-- The rows of one calculation, src/observable/viscosity_io.cpp L236-250. -/
noncomputable def viscosityRows (u : ReportUnits) (d : Nat) (eta : Nat → Nat → Nat → Nat → ℝ) : List Line :=
  (List.range d).flatMap fun i => (List.range d).flatMap fun j => (List.range d).map fun k =>
    viscosityLabel d i j k ++ (List.range d).map fun l => .num (eta i j k l * u.viscosity)

/-- `printViscosity`, src/observable/viscosity_io.cpp L198-255; the line with the names of the columns is left out. -/
noncomputable def viscosityPrint (head : Bool) (name : String) (u : ReportUnits) (d numCalc : Nat) (temp : Nat → ℝ)
    (eta : Nat → Nat → Nat → Nat → Nat → ℝ) : List Line :=
  if !head then []
  else [] :: [.word name, .word (viscosityUnit d)] :: (List.range numCalc).flatMap fun iCalc =>
    temperatureLine u temp iCalc :: (viscosityRows u d (eta iCalc) ++ [[]])

/-- The file of `outputViscosityToJSON`. -/
structure ViscosityFile where
  temperatures : List ℝ
  viscosity : List (List (List (List (List ℝ))))
  viscosityUnit : String

/-- `outputViscosityToJSON`, src/observable/viscosity_io.cpp L252-309, without `append` (never used). -/
noncomputable def viscosityFile (head : Bool) (u : ReportUnits) (d numCalc : Nat) (temp : Nat → ℝ)
    (eta : Nat → Nat → Nat → Nat → Nat → ℝ) : Option ViscosityFile :=
  if !head then none
  else some {
    temperatures := jsonList numCalc fun iCalc => temp iCalc * u.temperature
    viscosity := jsonList numCalc fun iCalc => (List.range d).map fun i => (List.range d).map fun j =>
      (List.range d).map fun k => (List.range d).map fun l => eta iCalc i j k l * u.viscosity
    viscosityUnit := Model.viscosityUnit d }

end Verif.Model
