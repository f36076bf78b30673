import Verif.Model.IrrPoints
import Verif.Model.Bands
import Mathlib.Data.Rat.Defs
import Mathlib.Algebra.Order.Ring.Rat

/-!
# The atoms of the crystal: src/crystal.cpp L23-116, src/constants/periodic_table.cpp, src/constants/periodic_table.h

Numbers of type `double` are rational numbers; names are lists of characters.
-/
namespace Verif.Model

/-- A decimal literal `digits * 10^(-places)`. -/
structure Decimal where
  digits : Nat
  places : Nat
deriving DecidableEq

/-- Its value. -/
def Decimal.val (d : Decimal) : ℚ := (d.digits : ℚ) / (10 : ℚ) ^ d.places

/-- `struct Element`, src/constants/periodic_table.h L5-12. -/
structure Element where
  symbol : List Char
  atomicNumber : Nat
  mass : Decimal
  massVariance : Decimal
deriving DecidableEq

/-- The array `elements`, src/constants/periodic_table.h L20-128 (generated from that file). -/
def elementTable : List Element := [
  ⟨['H'], 1, ⟨1008, 3⟩, ⟨2789062238058872, 19⟩⟩,
  ⟨['H', 'e'], 2, ⟨4002602, 6⟩, ⟨1215076833998857, 22⟩⟩,
  ⟨['L', 'i'], 3, ⟨694, 2⟩, ⟨1496682231674627, 18⟩⟩,
  ⟨['B', 'e'], 4, ⟨90121831, 7⟩, ⟨0, 1⟩⟩,
  ⟨['B'], 5, ⟨1081, 2⟩, ⟨13805405232090412, 19⟩⟩,
  ⟨['C'], 6, ⟨12011, 3⟩, ⟨8000097592094282, 20⟩⟩,
  ⟨['N'], 7, ⟨14007, 3⟩, ⟨21290646750606633, 21⟩⟩,
  ⟨['O'], 8, ⟨15999, 3⟩, ⟨36319747512798014, 21⟩⟩,
  ⟨['F'], 9, ⟨18998403163, 9⟩, ⟨0, 1⟩⟩,
  ⟨['N', 'e'], 10, ⟨201797, 4⟩, ⟨8278312013487067, 19⟩⟩,
  ⟨['N', 'a'], 11, ⟨2298976928, 8⟩, ⟨0, 1⟩⟩,
  ⟨['M', 'g'], 12, ⟨24305, 3⟩, ⟨7435878422415102, 19⟩⟩,
  ⟨['A', 'l'], 13, ⟨269815385, 7⟩, ⟨0, 1⟩⟩,
  ⟨['S', 'i'], 14, ⟨28085, 3⟩, ⟨20164270215294942, 20⟩⟩,
  ⟨['P'], 15, ⟨30973761998, 9⟩, ⟨0, 1⟩⟩,
  ⟨['S'], 16, ⟨3206, 2⟩, ⟨18482784294313574, 20⟩⟩,
  ⟨['C', 'l'], 17, ⟨3545, 2⟩, ⟨619333162756516, 18⟩⟩,
  ⟨['A', 'r'], 18, ⟨39948, 3⟩, ⟨34803742792164614, 21⟩⟩,
  ⟨['K'], 19, ⟨390983, 4⟩, ⟨16400010165430582, 20⟩⟩,
  ⟨['C', 'a'], 20, ⟨40078, 3⟩, ⟨2975638195255614, 19⟩⟩,
  ⟨['S', 'c'], 21, ⟨44955908, 6⟩, ⟨0, 1⟩⟩,
  ⟨['T', 'i'], 22, ⟨47867, 3⟩, ⟨28645554052913216, 20⟩⟩,
  ⟨['V'], 23, ⟨509415, 4⟩, ⟨954832036799122, 21⟩⟩,
  ⟨['C', 'r'], 24, ⟨519961, 4⟩, ⟨13287039947669415, 20⟩⟩,
  ⟨['M', 'n'], 25, ⟨54938044, 6⟩, ⟨0, 1⟩⟩,
  ⟨['F', 'e'], 26, ⟨55845, 3⟩, ⟨824441020198494, 19⟩⟩,
  ⟨['C', 'o'], 27, ⟨58933194, 6⟩, ⟨0, 1⟩⟩,
  ⟨['N', 'i'], 28, ⟨586934, 4⟩, ⟨43070969156679167, 20⟩⟩,
  ⟨['C', 'u'], 29, ⟨63546, 3⟩, ⟨21093313034487347, 20⟩⟩,
  ⟨['Z', 'n'], 30, ⟨6538, 2⟩, ⟨5931534544256652, 19⟩⟩,
  ⟨['G', 'a'], 31, ⟨69723, 3⟩, ⟨19712729693874742, 20⟩⟩,
  ⟨['G', 'e'], 32, ⟨7263, 2⟩, ⟨5867117795429008, 19⟩⟩,
  ⟨['A', 's'], 33, ⟨74921595, 6⟩, ⟨0, 1⟩⟩,
  ⟨['S', 'e'], 34, ⟨78971, 3⟩, ⟨46053781437921013, 20⟩⟩,
  ⟨['B', 'r'], 35, ⟨79904, 3⟩, ⟨16577469277381828, 20⟩⟩,
  ⟨['K', 'r'], 36, ⟨83798, 3⟩, ⟨24880741715297897, 20⟩⟩,
  ⟨['R', 'b'], 37, ⟨854678, 4⟩, ⟨10969638953101122, 20⟩⟩,
  ⟨['S', 'r'], 38, ⟨8762, 2⟩, ⟨6099700710365833, 20⟩⟩,
  ⟨['Y'], 39, ⟨8890584, 5⟩, ⟨0, 1⟩⟩,
  ⟨['Z', 'r'], 40, ⟨91224, 3⟩, ⟨34262838409586854, 20⟩⟩,
  ⟨['N', 'b'], 41, ⟨9290637, 5⟩, ⟨0, 1⟩⟩,
  ⟨['M', 'o'], 42, ⟨9595, 2⟩, ⟨5968578764839594, 19⟩⟩,
  ⟨['T', 'c'], 43, ⟨9790721, 5⟩, ⟨0, 1⟩⟩,
  ⟨['R', 'u'], 44, ⟨10107, 2⟩, ⟨40666639101881745, 20⟩⟩,
  ⟨['R', 'h'], 45, ⟨1029055, 4⟩, ⟨0, 1⟩⟩,
  ⟨['P', 'd'], 46, ⟨10642, 2⟩, ⟨3094784331573286, 19⟩⟩,
  ⟨['A', 'g'], 47, ⟨1078682, 4⟩, ⟨8579859015398756, 20⟩⟩,
  ⟨['C', 'd'], 48, ⟨112414, 3⟩, ⟨27153582954249383, 20⟩⟩,
  ⟨['I', 'n'], 49, ⟨114818, 3⟩, ⟨12430878582037971, 21⟩⟩,
  ⟨['S', 'n'], 50, ⟨11871, 2⟩, ⟨33408521010159045, 20⟩⟩,
  ⟨['S', 'b'], 51, ⟨12176, 2⟩, ⟨6607546197957849, 20⟩⟩,
  ⟨['T', 'e'], 52, ⟨1276, 1⟩, ⟨2839333322460794, 19⟩⟩,
  ⟨['I'], 53, ⟨12690447, 5⟩, ⟨0, 1⟩⟩,
  ⟨['X', 'e'], 54, ⟨131293, 3⟩, ⟨2675478178911911, 19⟩⟩,
  ⟨['C', 's'], 55, ⟨13290545196, 8⟩, ⟨0, 1⟩⟩,
  ⟨['B', 'a'], 56, ⟨137327, 3⟩, ⟨6247983393130228, 20⟩⟩,
  ⟨['L', 'a'], 57, ⟨13890547, 5⟩, ⟨45917359997528195, 24⟩⟩,
  ⟨['C', 'e'], 58, ⟨140116, 3⟩, ⟨22504655383416496, 21⟩⟩,
  ⟨['P', 'r'], 59, ⟨14090766, 5⟩, ⟨0, 1⟩⟩,
  ⟨['N', 'd'], 60, ⟨144242, 3⟩, ⟨23237352095226282, 20⟩⟩,
  ⟨['P', 'm'], 61, ⟨14491276, 5⟩, ⟨0, 1⟩⟩,
  ⟨['S', 'm'], 62, ⟨15036, 2⟩, ⟨3348898354048051, 19⟩⟩,
  ⟨['E', 'u'], 63, ⟨151964, 3⟩, ⟨4327943128302847, 20⟩⟩,
  ⟨['G', 'd'], 64, ⟨15725, 2⟩, ⟨12767481945965138, 20⟩⟩,
  ⟨['T', 'b'], 65, ⟨15892535, 5⟩, ⟨0, 1⟩⟩,
  ⟨['D', 'y'], 66, ⟨1625, 1⟩, ⟨51980645724531205, 21⟩⟩,
  ⟨['H', 'o'], 67, ⟨16493033, 5⟩, ⟨0, 1⟩⟩,
  ⟨['E', 'r'], 68, ⟨167259, 3⟩, ⟨7232484216696818, 20⟩⟩,
  ⟨['T', 'm'], 69, ⟨16893422, 5⟩, ⟨0, 1⟩⟩,
  ⟨['Y', 'b'], 70, ⟨173045, 3⟩, ⟨8560802725546705, 20⟩⟩,
  ⟨['L', 'u'], 71, ⟨1749668, 4⟩, ⟨8300719193988442, 22⟩⟩,
  ⟨['H', 'f'], 72, ⟨17849, 2⟩, ⟨5253848527005391, 20⟩⟩,
  ⟨['T', 'a'], 73, ⟨18094788, 5⟩, ⟨3671578002866865, 24⟩⟩,
  ⟨['W'], 74, ⟨18384, 2⟩, ⟨696679689149215, 19⟩⟩,
  ⟨['R', 'e'], 75, ⟨186207, 3⟩, ⟨2708496655430222, 20⟩⟩,
  ⟨['O', 's'], 76, ⟨19023, 2⟩, ⟨7452361349988645, 20⟩⟩,
  ⟨['I', 'r'], 77, ⟨192217, 3⟩, ⟨2537864205006749, 20⟩⟩,
  ⟨['P', 't'], 78, ⟨195084, 3⟩, ⟨3428660338142578, 20⟩⟩,
  ⟨['A', 'u'], 79, ⟨196966569, 6⟩, ⟨0, 1⟩⟩,
  ⟨['H', 'g'], 80, ⟨200592, 3⟩, ⟨652279806399407, 19⟩⟩,
  ⟨['T', 'l'], 81, ⟨20438, 2⟩, ⟨22233484775588543, 21⟩⟩,
  ⟨['P', 'b'], 82, ⟨2072, 1⟩, ⟨19437786146643996, 21⟩⟩,
  ⟨['B', 'i'], 83, ⟨2089804, 4⟩, ⟨0, 1⟩⟩,
  ⟨['P', 'o'], 84, ⟨2090, 1⟩, ⟨0, 1⟩⟩,
  ⟨['A', 't'], 85, ⟨2100, 1⟩, ⟨0, 1⟩⟩,
  ⟨['R', 'n'], 86, ⟨2220, 1⟩, ⟨0, 1⟩⟩,
  ⟨['F', 'r'], 87, ⟨2230, 1⟩, ⟨0, 1⟩⟩,
  ⟨['R', 'a'], 88, ⟨2260, 1⟩, ⟨0, 1⟩⟩,
  ⟨['A', 'c'], 89, ⟨2270, 1⟩, ⟨0, 1⟩⟩,
  ⟨['T', 'h'], 90, ⟨2320377, 4⟩, ⟨1492878990056669, 23⟩⟩,
  ⟨['P', 'a'], 91, ⟨23103588, 5⟩, ⟨0, 1⟩⟩,
  ⟨['U'], 92, ⟨23802891, 5⟩, ⟨11564605377712275, 22⟩⟩,
  ⟨['N', 'p'], 93, ⟨2370, 1⟩, ⟨0, 1⟩⟩,
  ⟨['P', 'u'], 94, ⟨2440, 1⟩, ⟨0, 1⟩⟩,
  ⟨['A', 'm'], 95, ⟨2430, 1⟩, ⟨0, 1⟩⟩,
  ⟨['C', 'm'], 96, ⟨2470, 1⟩, ⟨0, 1⟩⟩,
  ⟨['B', 'k'], 97, ⟨2470, 1⟩, ⟨0, 1⟩⟩,
  ⟨['C', 'f'], 98, ⟨2510, 1⟩, ⟨0, 1⟩⟩,
  ⟨['E', 's'], 99, ⟨2520, 1⟩, ⟨0, 1⟩⟩,
  ⟨['F', 'm'], 100, ⟨2570, 1⟩, ⟨0, 1⟩⟩,
  ⟨['M', 'd'], 101, ⟨2580, 1⟩, ⟨0, 1⟩⟩,
  ⟨['N', 'o'], 102, ⟨2590, 1⟩, ⟨0, 1⟩⟩,
  ⟨['L', 'r'], 103, ⟨2620, 1⟩, ⟨0, 1⟩⟩,
  ⟨['R', 'f'], 104, ⟨2670, 1⟩, ⟨0, 1⟩⟩,
  ⟨['D', 'b'], 105, ⟨2680, 1⟩, ⟨0, 1⟩⟩,
  ⟨['S', 'g'], 106, ⟨2710, 1⟩, ⟨0, 1⟩⟩,
  ⟨['B', 'h'], 107, ⟨2740, 1⟩, ⟨0, 1⟩⟩,
  ⟨['H', 's'], 108, ⟨2690, 1⟩, ⟨0, 1⟩⟩,
  ⟨['M', 't'], 109, ⟨2760, 1⟩, ⟨0, 1⟩⟩
]

/-- `PeriodicTable::findElementByStr`, src/constants/periodic_table.cpp L5-13: the atomic number, less one, of the first row
with this symbol. -/
def findElementByStr (table : List Element) (name : List Char) : Outcome Int :=
  match table.find? (fun e => e.symbol == name) with
  | some e => .ok ((e.atomicNumber : Int) - 1)
  | none => .error

/-- Row `i` of the array. -/
def elementAt (table : List Element) (i : Int) : Outcome Element :=
  if i < 0 then .ub else readAt table i.toNat

/-- `getMassVariance`, src/constants/periodic_table.cpp L32-36. -/
def getMassVariance (table : List Element) (name : List Char) : Outcome ℚ := do
  let i ← findElementByStr table name
  let e ← elementAt table i
  .ok e.massVariance.val

/-- `getMass`, src/constants/periodic_table.cpp L21-24. -/
def getMass (table : List Element) (name : List Char) : Outcome ℚ := do
  let i ← findElementByStr table name
  let e ← elementAt table i
  .ok e.mass.val

/-- `s1.find(s2) != std::string::npos`. -/
def containsWord (s w : List Char) : Bool := s.tails.any fun t => w.isPrefixOf t

/-- The input of the constructor: the volume of the cell, the rows and columns of the positions, the species of the atoms,
the names and masses of the species, and from the input file the name of the application, the masses and the isotope
couplings (empty if not given). -/
structure CrystalInput where
  volume : ℚ
  positionRows : Nat
  positionCols : Nat
  atomicSpecies : List Int
  speciesNames : List (List Char)
  speciesMasses : List ℚ
  appName : List Char
  customMasses : List ℚ
  customCouplings : List ℚ

/-- What the crystal stores of an atom. -/
structure AtomData where
  name : List Char
  mass : ℚ
  isotopeCoupling : ℚ
deriving DecidableEq

/-- The masses of the species, src/crystal.cpp L69-91. -/
def crystalMasses (c : CrystalInput) : Outcome (List ℚ) :=
  if c.customMasses.length > 0 then
    if !containsWord c.appName "phonon".toList then .error
    else if c.customMasses.length ≠ c.speciesNames.length then .error
    else mapOutcome (fun i => do
      let x ← readAt c.customMasses i
      let y ← readAt c.speciesMasses i
      if x > 0 then .ok x else .ok y) (List.range c.speciesNames.length)
  else .ok c.speciesMasses

/-- The isotope couplings of the species, src/crystal.cpp L93-107, `natural` those of the periodic table. -/
def crystalCouplings (c : CrystalInput) (natural : List ℚ) : Outcome (List ℚ) :=
  mapOutcome (fun i => do
    let y ← readAt natural i
    if c.customCouplings.length > 0 then
      if c.customCouplings.length ≠ c.speciesNames.length then .error
      else do
        let x ← readAt c.customCouplings i
        if x > 0 then .ok x else .ok y
    else .ok y) (List.range c.speciesNames.length)

/-- An element of a vector at an index of type `int`. -/
def readInt {α : Type} (l : List α) (i : Int) : Outcome α := if i < 0 then .ub else readAt l i.toNat

/-- The constructor of `Crystal` as far as the atoms go, src/crystal.cpp L29-116. -/
def crystalAtoms (table : List Element) (c : CrystalInput) : Outcome (List AtomData) :=
  if c.volume ≤ 0 then .error
  else if c.atomicSpecies.length ≠ c.positionRows then .error
  else if c.positionCols ≠ 3 then .error
  else if c.speciesMasses.length ≠ c.speciesNames.length then .error
  else do
    let natural ← mapOutcome (getMassVariance table) c.speciesNames
    let masses ← crystalMasses c
    let couplings ← crystalCouplings c natural
    mapOutcome (fun s => do
      let m ← readInt masses s
      let n ← readInt c.speciesNames s
      let g ← readInt couplings s
      .ok ⟨n, m, g⟩) c.atomicSpecies

/-- Masses of the species as `PhonopyParser` finds them, src/parser/phonopy_input_parser.cpp L297-303; `amu` is
`massAmuToRy`. -/
def phonopyMasses (table : List Element) (amu : ℚ) (names : List (List Char)) : Outcome (List ℚ) :=
  mapOutcome (fun n => do
    let m ← getMass table n
    .ok (m * amu)) names

/-- Masses of the species for a crystal given in the input file together with a Wannier Hamiltonian,
src/parser/qe_input_parser.cpp L1047-1054. -/
def wannierMasses (table : List Element) (names : List (List Char)) : Outcome (List ℚ) :=
  mapOutcome (getMass table) names

end Verif.Model
