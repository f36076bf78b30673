import Verif.Model.Phono3py

/-!
# src/parser/phonopy_input_parser.cpp: harmonic force constants from phonopy

Numbers are reals (no rounding).
-/
namespace Verif.Model

/-- A line of the file of displacements: which strings `line.find` finds in it, what `tokenize` makes of it, and its characters. -/
structure PhLine extends YamlLine where
  text : List Char

/-- A line with nothing in it. -/
def PhLine.blank : PhLine := ⟨⟨fun _ => false, []⟩, []⟩

/-- The variable `line` after the end of the file, see `endLine`. -/
def phEnd (newline : Bool) (lines : List PhLine) : PhLine := if newline then .blank else lines.getLastD .blank

/-! ## The supercell matrix -/

/-- The three rows of the matrix, src/parser/phonopy_input_parser.cpp L80-93, L101-114. -/
def phMatrix (last : PhLine) (rest : List PhLine) : Outcome (V3 Int) := do
  let x ← gridRow (rest.getD 0 last).toYamlLine 0
  let y ← gridRow (rest.getD 1 last).toYamlLine 1
  let z ← gridRow (rest.getD 2 last).toYamlLine 2
  .ok ⟨x, y, z⟩

/-- `qCoarseGrid`, and whether `supercellSearchString` is `phonon_supercell:`, src/parser/phonopy_input_parser.cpp L73-116.  `skip` lines were read
already. -/
def phDims (last : PhLine) : List PhLine → Nat → V3 Int → Outcome (V3 Int × Bool)
  | [], _, g => .ok (g, false)
  | _ :: rest, skip + 1, g => phDims last rest skip g
  | l :: rest, 0, g =>
    if l.has "phonon_supercell_matrix:" then do
      let n ← phMatrix last rest
      .ok (n, true)
    else if l.has "supercell_matrix:" then do
      let n ← phMatrix last rest
      phDims last rest 3 n
    else phDims last rest 0 g

/-! ## The unit cell -/

/-- The characters of `symbol: `. -/
def symbolKey : List Char := ['s', 'y', 'm', 'b', 'o', 'l', ':', ' ']

/-- `find` of a string, as the characters after the place. -/
def afterKey (key : List Char) : List Char → Option (List Char)
  | [] => none
  | c :: t => if key.isPrefixOf (c :: t) then some ((c :: t).drop key.length) else afterKey key t

/-- The name of the species, src/parser/phonopy_input_parser.cpp L154-158: the characters after `symbol: `, at most as many as the place of the first `#`
minus 13 (no limit if there is no `#` or it is before: the difference is unsigned), without white space. -/
def symbolOf (text : List Char) : List Char :=
  let rest := (afterKey symbolKey text).getD []
  let part := match text.findIdx? (· == '#') with
    | none => rest
    | some p => if p < 13 then rest else rest.take (p - 13)
  part.filter fun c => !c.isWhitespace

/-- The variables of the loop at src/parser/phonopy_input_parser.cpp L143-216 (`primUnitCell` only decides on a warning). -/
structure CellState where
  au : Bool
  cell : Nat → Option (Fin 3 → ℝ)
  positions : List (Fin 3 → ℝ)
  names : List (List Char)
  species : List Nat
  ilatt : Nat
  foundUnit : Bool
  foundPrim : Bool

/-- The initial values, src/parser/phonopy_input_parser.cpp L44, L126-138: the matrix is not initialised. -/
def CellState.init : CellState := ⟨false, fun _ => none, [], [], [], 3, false, false⟩

/-- A species, src/parser/phonopy_input_parser.cpp L154-167. -/
def CellState.addSpecies (s : CellState) (name : List Char) : CellState :=
  let names := if name ∈ s.names then s.names else s.names ++ [name]
  { s with names := names, species := s.species ++ [names.idxOf name] }

/-- A line after `unit_cell:`, src/parser/phonopy_input_parser.cpp L151-190. -/
noncomputable def unitLine (s : CellState) (l : PhLine) : Outcome CellState := do
  let s1 := if l.has " symbol: " then s.addSpecies (symbolOf l.text) else s
  let s2 ← (if l.has "coordinates: " then do
      let p ← l.vec
      .ok { s1 with positions := s1.positions ++ [p] }
    else .ok s1 : Outcome CellState)
  let s3 ← (if s2.ilatt < 3 then do
      let p ← l.vec
      .ok { s2 with cell := Function.update s2.cell s2.ilatt (some p), ilatt := s2.ilatt + 1 }
    else .ok s2 : Outcome CellState)
  .ok (if l.has "lattice:" then { s3 with ilatt := 0 } else s3)

/-- A line after `primitive_cell:`, src/parser/phonopy_input_parser.cpp L191-207. -/
noncomputable def primLine (s : CellState) (l : PhLine) : Outcome CellState := do
  let s1 ← (if s.ilatt < 3 then do
      let _ ← l.vec
      .ok { s with ilatt := s.ilatt + 1, foundPrim := decide (s.ilatt + 1 ≠ 3) }
    else .ok s : Outcome CellState)
  .ok (if l.has "lattice:" ∧ l.has "recip" = false then { s1 with ilatt := 0 } else s1)

/-- The loop at src/parser/phonopy_input_parser.cpp L143-216: the variables, and the lines that are left (none if the file ended: the stream is then not
read any more). -/
noncomputable def readCell : List PhLine → CellState → Outcome (CellState × List PhLine)
  | [], s => .ok (s, [])
  | l :: rest, s => do
    let s1 : CellState := { s with au := s.au || (l.has "length" && l.has "au") }
    let s2 ← (if s1.foundUnit then unitLine s1 l else .ok s1 : Outcome CellState)
    if s1.foundUnit ∧ l.text = [] then .ok (s2, rest)
    else do
      let s3 ← (if s2.foundPrim then primLine s2 l else .ok s2 : Outcome CellState)
      let s4 : CellState := if l.has "unit_cell:" then { s3 with foundUnit := true } else s3
      let s5 : CellState := if l.has "primitive_cell:" then { s4 with foundPrim := true } else s4
      readCell rest s5

/-! ## The supercell -/

/-- The loop at src/parser/phonopy_input_parser.cpp L234-266. -/
noncomputable def phSup (search : String) : List PhLine → SupState → Outcome SupState
  | [], s => .ok s
  | l :: rest, s => do
    let s1 : SupState := if l.has search then { s with read := true } else s
    let s2 ← (if l.has "coordinates: " ∧ s1.read then do
        let p ← l.vec
        .ok { s1 with positions := s1.positions ++ [p] }
      else .ok s1 : Outcome SupState)
    let s3 ← (if s2.ilatt < 3 ∧ s2.read then do
        let p ← l.vec
        .ok { s2 with lattice := Function.update s2.lattice s2.ilatt p, ilatt := s2.ilatt + 1 }
      else .ok s2 : Outcome SupState)
    phSup search rest (if l.has "lattice:" ∧ s3.read then { s3 with ilatt := 0 } else s3)

/-! ## Born charges -/

/-- A line of the file `BORN`. -/
structure BornLine extends YamlLine where
  blank : Bool

/-- The values read by `>>` into variables that are zero: up to the first word that is not a number. -/
noncomputable def streamNumbers : Nat → List YamlWord → List ℝ
  | 0, _ => []
  | n + 1, .num x :: t => x :: streamNumbers n t
  | n + 1, .int k :: t => (k : ℝ) :: streamNumbers n t
  | n + 1, _ => List.replicate (n + 1) 0

/-- The variables of the loop at src/parser/phonopy_input_parser.cpp L366-390. -/
structure BornState where
  dielectric : Option (List ℝ)
  charges : List (List ℝ)

/-- The nine numbers of a line, src/parser/phonopy_input_parser.cpp L383-388. -/
noncomputable def bornNine (l : BornLine) : Outcome (List ℝ) := mapOutcome (fun k => l.num k) (List.range 9)

/-- The loop at src/parser/phonopy_input_parser.cpp L366-390: charges of more atoms than there are are written outside of the tensor. -/
noncomputable def readBorn (numAtoms : Nat) : List BornLine → BornState → Outcome BornState
  | [], s => .ok s
  | l :: rest, s =>
    if l.has "#" ∨ l.blank then readBorn numAtoms rest s
    else match s.dielectric with
    | none => readBorn numAtoms rest { s with dielectric := some (streamNumbers 9 l.tok) }
    | some _ => do
      let z ← bornNine l
      if numAtoms ≤ s.charges.length then .ub
      else readBorn numAtoms rest { s with charges := s.charges ++ [z] }

/-- The file `BORN`, src/parser/phonopy_input_parser.cpp L340-407: the first line is skipped; in the end `speciesNames[idx]` is printed for each line of
charges. -/
noncomputable def bornFile (numAtoms numSpecies : Nat) (lines : List BornLine) : Outcome BornState := do
  let s ← readBorn numAtoms (lines.drop 1) ⟨none, []⟩
  if numSpecies < s.charges.length then .ub else .ok s

/-- Without the file there are no charges and the dielectric tensor is zero, src/parser/phonopy_input_parser.cpp L331-343. -/
noncomputable def bornOf (numAtoms numSpecies : Nat) : Option (List BornLine) → Outcome BornState
  | none => .ok ⟨none, []⟩
  | some ls => bornFile numAtoms numSpecies ls

/-! ## Force constants -/

open Classical in
/-- `findRIndex`, src/parser/phonopy_input_parser.cpp L21-33. -/
noncomputable def findRIndex (cells : List (Fin 3 → ℝ)) (p : Fin 3 → ℝ) : Outcome Nat :=
  match cells.findIdx? fun c => decide (vdot (fun i => p i - c i) (fun i => p i - c i) < 1.0e-6) with
  | some i => .ok i
  | none => .error

/-- The file of force constants: `p2s_map`, `force_constants` of extents `(d0, d1, 3, 3)` and the unit (`eV/angstrom^2` if the file has none). -/
structure Fc2File where
  cellMap : List Int
  d0 : Nat
  d1 : Nat
  val : Nat → Nat → Fin 3 → Fin 3 → ℝ
  unit : String

/-- `cellMap[a] + shift`. -/
def fc2Atom (f : Fc2File) (a shift : Nat) : Outcome Int :=
  match f.cellMap[a]? with
  | none => .ub
  | some m => cadd m shift

/-- `ifc2[i][j]`. -/
def Fc2File.at2 (f : Fc2File) (i j : Int) : Outcome (Fin 3 → Fin 3 → ℝ) :=
  if (0 ≤ i ∧ i < f.d0) ∧ 0 ≤ j ∧ j < f.d1 then .ok (f.val i.toNat j.toNat) else .ub

/-- The elements of two atoms, src/parser/phonopy_input_parser.cpp L524-552. -/
noncomputable def fc2Block (f : Fc2File) (conversion : ℝ) (ir iat jat : Nat) : Outcome (Fin 3 → Fin 3 → ℝ) := do
  let v ← (if f.d0 ≠ f.d1 then do
      let js ← fc2Atom f iat ir
      f.at2 jat js
    else do
      let is ← fc2Atom f iat ir
      let js ← fc2Atom f jat 0
      f.at2 is js : Outcome (Fin 3 → Fin 3 → ℝ))
  .ok fun ic jc => v ic jc * conversion

/-- Some elements of `forceConstants`. -/
structure Fc2Entry where
  cell : V3 Int
  iat : Nat
  jat : Nat
  val : Fin 3 → Fin 3 → ℝ

/-- The cells of the three nested loops, src/parser/phonopy_input_parser.cpp L487-489. -/
def phCells (N : V3 Int) : List (V3 Int) :=
  (List.range N.z.toNat).flatMap fun z : Nat => (List.range N.y.toNat).flatMap fun y : Nat => (List.range N.x.toNat).map fun x : Nat => ⟨(x : Int), (y : Int), (z : Int)⟩

/-- `forceConstants`, src/parser/phonopy_input_parser.cpp L473-557.  `d` has the lattice vectors in its columns. -/
noncomputable def phEntries (A : Nat) (d : Mat3) (N : V3 Int) (cells : List (Fin 3 → ℝ)) (f : Fc2File) (conversion : ℝ) : Outcome (List Fc2Entry) :=
  if f.d0 = 0 then .ub
  else collect (fun n : V3 Int => do
    let ir ← findRIndex cells (latVec d n)
    collect (fun iat => collect (fun jat => do
      let v ← fc2Block f conversion ir iat jat
      .ok [⟨n, iat, jat, v⟩]) (List.range A)) (List.range A)) (phCells N)

/-- What `PhonopyParser::parsePhHarmonic` passes to the crystal and to the dynamical matrix.  The lattice vectors are the columns of `cell`. -/
structure PhonopyData where
  cell : Mat3
  positions : List Vec3
  species : List Nat
  names : List (List Char)
  masses : List ℝ
  dielectric : Fin 3 → Fin 3 → ℝ
  born : Nat → Fin 3 → Fin 3 → ℝ
  grid : V3 Int
  entries : List Fc2Entry

/-- `forceConstants(ic, jc, r1, r2, r3, iat, jat)`. -/
noncomputable def PhonopyData.force (p : PhonopyData) (n : V3 Int) (iat jat : Nat) (ic jc : Fin 3) : Option ℝ :=
  (p.entries.find? fun e => decide (e.cell = n ∧ e.iat = iat ∧ e.jat = jat)).map fun e => e.val ic jc

/-- `PhonopyParser::parsePhHarmonic`, src/parser/phonopy_input_parser.cpp L36-586.  `bohr` is `distanceBohrToAng`, `ryd` is `energyRyToEv`, `amu` is
`massAmuToRy`; `mass` is `PeriodicTable::getMass`; `evAng` says if `eV/ang` is found in a unit.  Without a file `BORN` the argument is `none`. -/
noncomputable def parsePhonopy (bohr ryd amu : ℝ) (mass : List Char → Outcome ℝ) (evAng : String → Bool) (newline : Bool) (lines : List PhLine)
    (born : Option (List BornLine)) (f : Fc2File) : Outcome PhonopyData := do
  let last := phEnd newline lines
  let (N, phonon) ← phDims last lines 0 ⟨0, 0, 0⟩
  if N.x ≤ 0 ∨ N.y ≤ 0 ∨ N.z ≤ 0 then .error
  else do
    let (c, rest) ← readCell (lines ++ [last]) .init
    let s ← phSup (if phonon then "phonon_supercell:" else "supercell:") rest ⟨[], fun _ _ => 0, 3, false⟩
    match c.cell 0, c.cell 1, c.cell 2 with
    | some a0, some a1, some a2 => do
      let unit : ℝ := if c.au then 1 else 1 / bohr
      let d : Mat3 := fun i k => (if k = 0 then a0 i else if k = 1 then a1 i else a2 i) * unit
      if c.species.length < c.positions.length then .ub
      else do
        let masses ← mapOutcome mass c.names
        let toCart (v : Fin 3 → Fin 3 → ℝ) (x : Fin 3 → ℝ) : Vec3 := fun i => v 0 i * x 0 + v 1 i * x 1 + v 2 i * x 2
        let sup := s.positions.map (toCart fun k i => s.lattice k.val i * unit)
        let p ← cmul N.x N.y
        let p ← cmul p N.z
        if (sup.length : Int) < p then .ub
        else do
          let cells := (sup.take p.toNat).map fun x i => x i - sup.getD 0 (fun _ => 0) i
          let b ← bornOf c.positions.length c.names.length born
          if f.cellMap.length ≠ c.positions.length then .error
          else do
            let es ← phEntries c.positions.length d N cells f (if evAng f.unit then bohr ^ 2 / ryd else 1)
            .ok
              { cell := d, positions := c.positions.map (toCart fun k i => d i k)
                species := c.species.take c.positions.length, names := c.names, masses := masses.map (· * amu)
                dielectric := fun i j => (b.dielectric.getD []).getD (3 * i + j) 0
                born := fun a i j => (b.charges.getD a []).getD (3 * i + j) 0
                grid := N, entries := es }
    | _, _, _ => .ub

end Verif.Model
