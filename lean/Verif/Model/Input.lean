import Verif.Model.Basic
import Verif.Model.IrrPoints
import Mathlib.Algebra.Field.Defs

/-!
# src/context.cpp: the input file

Text is a list of characters.  An exception thrown by the standard library (`std::stoi`, `std::substr`, ...) is not
caught and ends the program, as does `Error`: both are `.error`.  Reading past the end of a vector is `.ub`.
`std::stod` is a parameter: a function from text to a number or an exception.
-/
namespace Verif.Model

/-- Text. -/
abbrev Str := List Char

/-- `isspace` in the C locale. -/
def isSpaceC (c : Char) : Bool := c ∈ [' ', '\t', '\n', '\r', '\x0b', '\x0c']

/-- `s.find(pattern)`: position of the first occurrence. -/
def findSub (p : Str) : Str → Option Nat
  | [] => if p = [] then some 0 else none
  | c :: t => if p.isPrefixOf (c :: t) then some 0 else (findSub p t).map (· + 1)

/-- `patternInString`, src/context.cpp L16-22. -/
def patternInString (s p : Str) : Bool := (findSub p s).isSome

/-- Position of the first `c` (`find`, `find_first_of` of one character). -/
def findFirst (c : Char) : Str → Option Nat
  | [] => none
  | d :: t => if d = c then some 0 else (findFirst c t).map (· + 1)

/-- Position of the last `c` (`find_last_of` of one character). -/
def findLast (c : Char) : Str → Option Nat
  | [] => none
  | d :: t => match findLast c t with
    | some k => some (k + 1)
    | none => if d = c then some 0 else none

/-- Text after the first `=`, or the whole text (`npos + 1 = 0`): src/context.cpp L27-29, L53-55, L65-67, L145-147. -/
def afterEq (s : Str) : Str :=
  match findFirst '=' s with
  | some k => s.drop (k + 1)
  | none => s

/-- `parseBool`, src/context.cpp L26-48; `tolower` and `isalpha` of the C locale are `Char.toLower` and `Char.isAlpha`. -/
def parseBool (line : Str) : Outcome Bool :=
  let s := ((afterEq line).map Char.toLower).filter Char.isAlpha
  if s = "false".toList then .ok false
  else if s = "true".toList then .ok true
  else if s = "0".toList then .ok false
  else if s = "1".toList then .ok true
  else .error

/-- Value of a string of decimal digits. -/
def digitsVal (ds : Str) : Nat := ds.foldl (fun n c => n * 10 + (c.toNat - '0'.toNat)) 0

/-- `std::stoi`: leading white space, optional sign, as many digits as possible; an exception without digits or outside
of the range of `int`. -/
def stoi (s : Str) : Outcome Int :=
  let s1 := s.dropWhile isSpaceC
  let neg : Bool := s1.head? = some '-'
  let s2 := if s1.head? = some '-' ∨ s1.head? = some '+' then s1.tail else s1
  let ds := s2.takeWhile Char.isDigit
  if ds = [] then .error
  else
    let v : Int := if neg then -(digitsVal ds : Int) else digitsVal ds
    if v < intMin ∨ intMax < v then .error else .ok v

/-- `parseInt`, src/context.cpp L144-149. -/
def parseInt (line : Str) : Outcome Int := stoi (afterEq line)

/-- `parseDouble`, src/context.cpp L52-57. -/
def parseDouble {α : Type} (stod : Str → Outcome α) (line : Str) : Outcome α := stod (afterEq line)

/-- Loop that cuts the text at the commas, src/context.cpp L115-121, L170-175, L222-232. -/
def splitCommas : Str → List Str
  | [] => [[]]
  | c :: t =>
    if c = ',' then [] :: splitCommas t
    else match splitCommas t with
      | h :: r => (c :: h) :: r
      | [] => [[c]]

/-- Text between the first `[` and the last `]`, src/context.cpp L99-112, L154-167; with `]` before `[` the length
`pos2 - pos1 - 1` wraps around and `substr` returns all the text after `[`. -/
def brackets (line : Str) : Outcome Str :=
  match findFirst '[' line with
  | none => .error
  | some pos1 => match findLast ']' line with
    | none => .error
    | some pos2 =>
      if pos1 + 1 ≤ pos2 then .ok ((line.drop (pos1 + 1)).take (pos2 - pos1 - 1)) else .ok (line.drop (pos1 + 1))

/-- `parseIntList`, src/context.cpp L153-178. -/
def parseIntList (line : Str) : Outcome (List Int) := do
  let s ← brackets line
  mapOutcome stoi (splitCommas s)

/-- `parseDoubleList`, src/context.cpp L98-124. -/
def parseDoubleList {α : Type} (stod : Str → Outcome α) (line : Str) : Outcome (List α) := do
  let s ← brackets line
  mapOutcome stod (splitCommas s)

/-- `parseStringList`, src/context.cpp L205-237: spaces and double quotes are removed. -/
def parseStringList (line : Str) : Outcome (List Str) := do
  let s ← brackets (line.filter fun c => c ≠ ' ')
  .ok ((splitCommas s).map fun t => t.filter fun c => c ≠ '"')

/-- `parseString`, src/context.cpp L182-201. -/
def parseString (line : Str) : Outcome Str :=
  let cut (pos1 pos2 : Nat) : Outcome Str :=
    if pos1 = pos2 then .error else .ok ((line.drop (pos1 + 1)).take (pos2 - pos1 - 1))
  match findFirst '\'' line, findLast '\'' line with
  | some pos1, some pos2 => cut pos1 pos2
  | _, _ => match findFirst '"' line, findLast '"' line with
    | some pos1, some pos2 => cut pos1 pos2
    | _, _ => .error

/-- Conversion factors of src/constants.h used by the parser. -/
structure UnitTable (α : Type) where
  ryToEv : α
  ryToCmm1 : α
  auToPs : α
  auToFs : α
  bohrToMum : α
  bohrToAng : α
  tempAuToSi : α
  massAmuToRy : α

section
variable {α : Type} [Field α] [LinearOrder α]

/-- `parseDoubleWithUnits`, src/context.cpp L62-94: each unit name found anywhere in the text divides the value;
`auToPs` is `timeAuToFs * 1.0e-3`. -/
def parseDoubleWithUnits (u : UnitTable α) (stod : Str → Outcome α) (line : Str) : Outcome α := do
  let x ← stod (afterEq line)
  let x := if patternInString line "eV".toList then x / u.ryToEv else x
  let x := if patternInString line "cmm1".toList then x / u.ryToCmm1 else x
  let x := if patternInString line "ps".toList then x / u.auToPs else x
  let x := if patternInString line "fs".toList then x / u.auToFs else x
  let x := if patternInString line "mum".toList then x / u.bohrToMum else x
  let x := if patternInString line "ang".toList then x / u.bohrToAng else x
  .ok (if patternInString line "Bohr".toList ∨ patternInString line "bohr".toList then x / 1 else x)

/-- Words of a line (`istream_iterator<string>`): `cur` is the word being read. -/
def wordsAux : Str → Str → List Str
  | [], cur => if cur = [] then [] else [cur]
  | c :: t, cur =>
    if isSpaceC c then (if cur = [] then wordsAux t [] else cur :: wordsAux t [])
    else wordsAux t (cur ++ [c])

/-- Words of a line. -/
def words (s : Str) : List Str := wordsAux s []

/-- `splitLine[k]`: reading past the end is undefined. -/
def wordAt (ws : List Str) (k : Nat) : Outcome Str :=
  match ws[k]? with
  | some w => .ok w
  | none => .ub

/-- Index of a name in the list of species, src/context.cpp L266-272. -/
def speciesIndex (names : List Str) (w : Str) : Nat := names.findIdx (· = w)

/-- The result of `parseCrystal`: positions, species of each atom, names of the species. -/
structure CrystalBlock (α : Type) where
  positions : List (α × α × α)
  species : List Nat
  names : List Str

/-- One line of the crystal block, src/context.cpp L253-280. -/
def crystalLine (stod : Str → Outcome α) (line : Str) (b : CrystalBlock α) : Outcome (CrystalBlock α) := do
  let ws := words line
  let w ← wordAt ws 0
  let names := if w ∈ b.names then b.names else b.names ++ [w]
  let t1 ← wordAt ws 1
  let x ← stod t1
  let t2 ← wordAt ws 2
  let y ← stod t2
  let t3 ← wordAt ws 3
  let z ← stod t3
  .ok ⟨b.positions ++ [(x, y, z)], b.species ++ [speciesIndex names w], names⟩

/-- Lines of the crystal block. -/
def crystalLines (stod : Str → Outcome α) : List Str → CrystalBlock α → Outcome (CrystalBlock α)
  | [], b => .ok b
  | l :: t, b => do
    let b' ← crystalLine stod l b
    crystalLines stod t b'

/-- `parseCrystal`, src/context.cpp L246-286. -/
def parseCrystal (u : UnitTable α) (stod : Str → Outcome α) (lines : List Str) : Outcome (CrystalBlock α) := do
  let b ← crystalLines stod lines ⟨[], [], []⟩
  .ok { b with positions := b.positions.map fun p => (p.1 / u.bohrToAng, p.2.1 / u.bohrToAng, p.2.2 / u.bohrToAng) }

/-- A segment of a path: labels and coordinates of its two ends. -/
structure PathSegment (α : Type) where
  label1 : Str
  label2 : Str
  end1 : α × α × α
  end2 : α × α × α

/-- One line of `parsePathExtrema`, src/context.cpp L314-332. -/
def pathLine (stod : Str → Outcome α) (line : Str) : Outcome (PathSegment α) := do
  let ws := words line
  let l1 ← wordAt ws 0
  let l2 ← wordAt ws 4
  let t1 ← wordAt ws 1
  let x1 ← stod t1
  let t2 ← wordAt ws 2
  let y1 ← stod t2
  let t3 ← wordAt ws 3
  let z1 ← stod t3
  let t5 ← wordAt ws 5
  let x2 ← stod t5
  let t6 ← wordAt ws 6
  let y2 ← stod t6
  let t7 ← wordAt ws 7
  let z2 ← stod t7
  .ok ⟨l1, l2, (x1, y1, z1), (x2, y2, z2)⟩

/-- `parsePathExtrema`, src/context.cpp L304-335. -/
def parsePathExtrema (stod : Str → Outcome α) (lines : List Str) : Outcome (List (PathSegment α)) :=
  mapOutcome (pathLine stod) lines

/-- `parseBlockNameValue`, src/context.cpp L343-365, for the line `line` (without its comment) and the lines after it
(with their comments: these are removed only when the loop of `setupFromInput` reaches them). -/
def parseBlockNameValue (line : Str) (rest : List Str) : Outcome (Str × List Str) :=
  match findSub "begin".toList line with
  | none => .ok ([], [])
  | some found =>
    if found + 5 + 1 ≤ line.length then
      .ok (line.drop (found + 5 + 1), rest.takeWhile fun l => !patternInString l "end".toList)
    else .error

/-- `parseParameterNameValue`, src/context.cpp L402-420. -/
def parseParameterNameValue (line : Str) : Str × Str :=
  let position := (findFirst '=' line).getD line.length
  let s := (line.take position).filter fun c => !isSpaceC c
  let val := line.drop (position + 1)
  match findFirst '(' line with
  | none => (s, val)
  | some position2 =>
    let s2 := (s.take position2).filter fun c => !isSpaceC c
    (s2, if s2 ≠ s then line.drop (position2 + 1) else val)

/-! ## Settings -/

/-- The value of a setting. -/
inductive Val (α : Type) where
  | str (s : Str)
  | int (z : Int)
  | ints (l : List Int)
  | dbl (x : α)
  | dbls (l : List α)
  | strs (l : List Str)
  | bool (b : Bool)
  | crystal (b : CrystalBlock α)
  | path (b : List (PathSegment α))

/-- How a parameter is read. -/
inductive Kind where
  /-- `parseString` -/
  | string
  /-- `parseDouble` -/
  | real
  /-- `parseDouble`, divided by `temperatureAuToSi` -/
  | temperature
  /-- `parseDoubleWithUnits` -/
  | realUnits
  /-- `parseInt` -/
  | int
  /-- `parseBool` -/
  | bool
  /-- `parseStringList` -/
  | strings
  /-- `parseIntList`, all elements -/
  | ints
  /-- the first `n` elements of `parseIntList` -/
  | intsFirst (n : Nat)
  /-- the first `n` elements of `parseDoubleList` -/
  | realsFirst (n : Nat)
  /-- `parseDoubleList` -/
  | reals
  /-- `parseDoubleList` in eV -/
  | realsEv
  /-- `parseDoubleList` in K -/
  | realsTemp
  /-- `parseDoubleList` in atomic mass units -/
  | realsMass
  /-- minimum and maximum of the first two elements of `parseDoubleList`, in eV -/
  | window
  /-- name of a smearing method -/
  | smearing
  /-- `parseDouble`, doubled unless `hasSpinOrbit` is set at this moment -/
  | occupied
deriving DecidableEq

/-- The parameters of `setupFromInput` and how each is read, src/context.cpp L450-744.  Each sets one member of
`Context`, named here after the parameter. -/
def paramTable : List (Str × Kind) := [
  ("phFC2FileName".toList, .string), ("phFC3FileName".toList, .string), ("phonopyDispFileName".toList, .string),
  ("phonopyBORNFileName".toList, .string), ("sumRuleFC2".toList, .string), ("electronH0Name".toList, .string),
  ("wannier90Prefix".toList, .string), ("quantumEspressoPrefix".toList, .string),
  ("elPhInterpolation".toList, .string), ("elphFileName".toList, .string),
  ("electronFourierCutoff".toList, .real), ("qMesh".toList, .intsFirst 3), ("kMesh".toList, .intsFirst 3),
  ("windowType".toList, .string), ("windowEnergyLimit".toList, .window), ("windowPopulationLimit".toList, .real),
  ("chemicalPotentials".toList, .realsEv), ("dopings".toList, .reals), ("temperatures".toList, .realsTemp),
  ("appName".toList, .string), ("solverBTE".toList, .strings), ("convergenceThresholdBTE".toList, .real),
  ("maxIterationsBTE".toList, .int), ("dimensionality".toList, .int), ("thickness".toList, .realUnits),
  ("dosMinEnergy".toList, .realUnits), ("dosMaxEnergy".toList, .realUnits), ("dosDeltaEnergy".toList, .realUnits),
  ("deltaPath".toList, .real), ("outputEigendisplacements".toList, .bool), ("outputUNTimes".toList, .bool),
  ("fermiLevel".toList, .realUnits), ("hasSpinOrbit".toList, .bool), ("distributedElPhCoupling".toList, .bool),
  ("numOccupiedStates".toList, .occupied), ("smearingMethod".toList, .smearing), ("smearingWidth".toList, .realUnits),
  ("constantRelaxationTime".toList, .realUnits), ("scatteringMatrixInMemory".toList, .bool),
  ("symmetrizeMatrix".toList, .bool), ("numRelaxonsEigenvalues".toList, .int),
  ("checkNegativeRelaxons".toList, .bool), ("useSymmetries".toList, .bool),
  ("withIsotopeScattering".toList, .bool), ("masses".toList, .realsMass), ("isotopeCouplings".toList, .reals),
  ("boundaryLength".toList, .realUnits), ("epaFileName".toList, .string), ("minChemicalPotential".toList, .realUnits),
  ("maxChemicalPotential".toList, .realUnits), ("deltaChemicalPotential".toList, .realUnits),
  ("minTemperature".toList, .temperature), ("maxTemperature".toList, .temperature),
  ("deltaTemperature".toList, .temperature), ("eFermiRange".toList, .realUnits),
  ("epaSmearingEnergy".toList, .realUnits), ("epaDeltaEnergy".toList, .realUnits), ("epaNumBins".toList, .int),
  ("epaMinEnergy".toList, .realUnits), ("epaMaxEnergy".toList, .realUnits), ("epaEnergyRange".toList, .realUnits),
  ("epaEnergyStep".toList, .realUnits), ("couplingPlotStyle".toList, .string), ("couplingMeshStyle".toList, .string),
  ("couplingFixedPoint".toList, .realsFirst 3), ("couplingPlotBandEl1".toList, .intsFirst 2),
  ("couplingPlotBandEl2".toList, .intsFirst 2), ("couplingPlotBandPh".toList, .intsFirst 2),
  ("hdf5ElphFileFormat".toList, .int), ("wsVecFileName".toList, .string), ("numCoreElectrons".toList, .ints)]

/-- The settings: `none` for a member with its default value. -/
abbrev Settings (α : Type) := Str → Option (Val α)

/-- The first `n` elements; reading past the end is undefined. -/
def firstOf {β : Type} (n : Nat) (l : List β) : Outcome (List β) := if n ≤ l.length then .ok (l.take n) else .ub

/-- The smearing methods, src/context.cpp L597-609. -/
def smearingCode (s : Str) : Int :=
  if s = "gaussian".toList then 0 else if s = "adaptiveGaussian".toList then 1
  else if s = "tetrahedron".toList then 2 else -1

/-- The value assigned for one parameter, src/context.cpp L450-744; `spinOrbit` is `hasSpinOrbit` at this moment. -/
def parseKind (u : UnitTable α) (stod : Str → Outcome α) (spinOrbit : Bool) (k : Kind) (val : Str) : Outcome (Val α) :=
  match k with
  | .string => do let s ← parseString val; .ok (.str s)
  | .real => do let x ← parseDouble stod val; .ok (.dbl x)
  | .temperature => do let x ← parseDouble stod val; .ok (.dbl (x / u.tempAuToSi))
  | .realUnits => do let x ← parseDoubleWithUnits u stod val; .ok (.dbl x)
  | .int => do let z ← parseInt val; .ok (.int z)
  | .bool => do let b ← parseBool val; .ok (.bool b)
  | .strings => do let l ← parseStringList val; .ok (.strs l)
  | .ints => do let l ← parseIntList val; .ok (.ints l)
  | .intsFirst n => do let l ← parseIntList val; let l' ← firstOf n l; .ok (.ints l')
  | .realsFirst n => do let l ← parseDoubleList stod val; let l' ← firstOf n l; .ok (.dbls l')
  | .reals => do let l ← parseDoubleList stod val; .ok (.dbls l)
  | .realsEv => do let l ← parseDoubleList stod val; .ok (.dbls (l.map (· / u.ryToEv)))
  | .realsTemp => do let l ← parseDoubleList stod val; .ok (.dbls (l.map (· / u.tempAuToSi)))
  | .realsMass => do let l ← parseDoubleList stod val; .ok (.dbls (l.map (· * u.massAmuToRy)))
  | .window => do
    let l ← parseDoubleList stod val
    match l with
    | a :: b :: _ => .ok (.dbls [min a b / u.ryToEv, max a b / u.ryToEv])
    | _ => .ub
  | .smearing => do let s ← parseString val; .ok (.int (smearingCode s))
  | .occupied => do let x ← parseDouble stod val; .ok (.dbl (if spinOrbit then x else x * 2))

/-- `hasSpinOrbit` (false by default). -/
def spinOrbitOf (c : Settings α) : Bool :=
  match c "hasSpinOrbit".toList with
  | some (.bool b) => b
  | _ => false

/-- Assignment of a member. -/
def assign (c : Settings α) (name : Str) (v : Val α) : Settings α := fun n => if n = name then some v else c n

/-- A line with a parameter: names not in the table have no effect. -/
def setParam (u : UnitTable α) (stod : Str → Outcome α) (line : Str) (c : Settings α) : Outcome (Settings α) :=
  let nv := parseParameterNameValue line
  match paramTable.lookup nv.1 with
  | none => .ok c
  | some k => do
    let v ← parseKind u stod (spinOrbitOf c) k nv.2
    .ok (assign c nv.1 v)

/-- A line without `=`: a block or a line of its content, src/context.cpp L746-766.  The settings of blocks are named
after them. -/
def setBlock (u : UnitTable α) (stod : Str → Outcome α) (line : Str) (rest : List Str) (c : Settings α) :
    Outcome (Settings α) := do
  let nb ← parseBlockNameValue line rest
  if nb.1 = "crystal".toList then do
    let b ← parseCrystal u stod nb.2
    .ok (assign c "crystal".toList (.crystal b))
  else if nb.1 = "point path".toList then do
    let b ← parsePathExtrema stod nb.2
    .ok (assign c "point path".toList (.path b))
  else .ok c

/-- Line without its comment, src/context.cpp L439. -/
def stripComment (line : Str) : Str := line.takeWhile fun c => c ≠ '#'

/-- The loop of `setupFromInput`, src/context.cpp L436-769. -/
def processLines (u : UnitTable α) (stod : Str → Outcome α) : List Str → Settings α → Outcome (Settings α)
  | [], c => .ok c
  | raw :: rest, c =>
    let line := stripComment raw
    if line = [] then processLines u stod rest c
    else if '=' ∈ line then do
      let c' ← setParam u stod line c
      processLines u stod rest c'
    else do
      let c' ← setBlock u stod line rest c
      processLines u stod rest c'

/-- Pieces of a line between semicolons, src/context.cpp L367-385: empty pieces are dropped. -/
def splitSemi : Str → List Str
  | [] => [[]]
  | c :: t =>
    if c = ';' then [] :: splitSemi t
    else match splitSemi t with
      | h :: r => (c :: h) :: r
      | [] => [[c]]

/-- `setupFromInput`, src/context.cpp L422-770, for a file given by its lines; the settings start from the defaults. -/
def setupFromInput (u : UnitTable α) (stod : Str → Outcome α) (file : List Str) : Outcome (Settings α) :=
  processLines u stod (file.flatMap fun l => (splitSemi l).filter fun t => t ≠ []) (fun _ => none)

end

end Verif.Model
