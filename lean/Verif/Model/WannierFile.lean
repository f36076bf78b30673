import Verif.Model.ElWannier

/-!
# Files of Wannier90

`QEParser::parseElHarmonicWannier` and `parseWSVecFromWannier90` (src/parser/qe_input_parser.cpp).

A file is the list of its lines and a line is the list of its words (`split(line, ' ')`, L365-384, which separates words
at any white space).  A word is known by the results of `std::stoi` and `std::stod` (`none`: they throw, and the program
stops with an error).  Numbers are reals (no rounding).  Files end with the end of a line, so that reading beyond the
end gives empty lines.  The constants `energyRyToEv` and `distanceBohrToAng` are parameters.  The Crystal built at
L1040-1056 is not modelled.
-/

namespace Verif.Model

/-- A word of a line: the results of `std::stoi` and `std::stod`. -/
structure Token where
  toInt : Option Int
  toDouble : Option ℝ

/-- A line: its words. -/
abbrev TextLine := List Token

/-- `std::getline(infile, line)`. -/
def getLine : List TextLine → TextLine × List TextLine
  | [] => ([], [])
  | l :: ls => (l, ls)

/-- `std::stoi(x)`. -/
def intOf (t : Token) : Outcome Int := match t.toInt with | some v => .ok v | none => .error

/-- `std::stod(x)`. -/
def doubleOf (t : Token) : Outcome ℝ := match t.toDouble with | some v => .ok v | none => .error

/-- `std::stoi(lineSplit[i])`: reading beyond the words of a line is undefined. -/
def tokInt (l : TextLine) (i : Nat) : Outcome Int := (readAt l i).bind intOf

/-- `std::stod(lineSplit[i])`. -/
def tokDouble (l : TextLine) (i : Nat) : Outcome ℝ := (readAt l i).bind doubleOf

/-- `std::stoi(line)`: the first word of the line; an empty line throws. -/
def lineInt : TextLine → Outcome Int
  | [] => .error
  | t :: _ => intOf t

/-- A loop of `n` iterations that read the file. -/
def readMany {β : Type} (p : List TextLine → Outcome (β × List TextLine)) :
    Nat → List TextLine → Outcome (List β × List TextLine)
  | 0, ls => .ok ([], ls)
  | n + 1, ls => do
    let t ← p ls
    let u ← readMany p n t.2
    .ok (t.1 :: u.1, u.2)

/-- A row of `directUnitCell_`, src/parser/qe_input_parser.cpp L914-920. -/
noncomputable def tbCellLine (bohrToAng : ℝ) (ls : List TextLine) : Outcome (Vec3 × List TextLine) := do
  let x ← tokDouble (getLine ls).1 0
  let y ← tokDouble (getLine ls).1 1
  let z ← tokDouble (getLine ls).1 2
  .ok (![x / bohrToAng, y / bohrToAng, z / bohrToAng], (getLine ls).2)

/-- The degeneracies of a line, src/parser/qe_input_parser.cpp L949-955. -/
def tbDegLine (ls : List TextLine) : Outcome (List Int × List TextLine) := do
  let ds ← mapOutcome intOf (getLine ls).1
  .ok (ds, (getLine ls).2)

/-- `numLines`, src/parser/qe_input_parser.cpp L933-934. -/
def tbNumLines (numVectors : Nat) : Nat := numVectors / 15 + (if numVectors % 15 ≠ 0 then 1 else 0)

/-- An element of `h0R`, src/parser/qe_input_parser.cpp L982-986: the words `0` and `1`, the indices of the element, are
not read. -/
noncomputable def tbElement (ryToEv : ℝ) (ls : List TextLine) : Outcome (ℂ × List TextLine) := do
  let re ← tokDouble (getLine ls).1 2
  let im ← tokDouble (getLine ls).1 3
  .ok (⟨re / ryToEv, im / ryToEv⟩, (getLine ls).2)

/-- The elements of `rMatrix` of a line, src/parser/qe_input_parser.cpp L1005-1015. -/
noncomputable def tbPosition (bohrToAng : ℝ) (ls : List TextLine) : Outcome ((Fin 3 → ℂ) × List TextLine) := do
  let l := (getLine ls).1
  let re0 ← tokDouble l 2
  let im0 ← tokDouble l 3
  let re1 ← tokDouble l 4
  let im1 ← tokDouble l 5
  let re2 ← tokDouble l 6
  let im2 ← tokDouble l 7
  .ok (![⟨re0 / bohrToAng, im0 / bohrToAng⟩, ⟨re1 / bohrToAng, im1 / bohrToAng⟩, ⟨re2 / bohrToAng, im2 / bohrToAng⟩],
    (getLine ls).2)

/-- A block of the file with the elements of one lattice vector: `numWannier` times `numWannier` lines,
src/parser/qe_input_parser.cpp L980-989, L1003-1018. -/
def tbMatrix {β : Type} (p : List TextLine → Outcome (β × List TextLine)) (numWannier : Nat) (ls : List TextLine) :
    Outcome (List (List β) × List TextLine) :=
  readMany (readMany p numWannier) numWannier ls

/-- A vector and its elements of the Hamiltonian, src/parser/qe_input_parser.cpp L969-990. -/
noncomputable def tbHam (ryToEv : ℝ) (numWannier : Nat) (ls : List TextLine) :
    Outcome ((Vec3 × List (List ℂ)) × List TextLine) := do
  let ls := (getLine ls).2
  let x ← tokDouble (getLine ls).1 0
  let y ← tokDouble (getLine ls).1 1
  let z ← tokDouble (getLine ls).1 2
  let t ← tbMatrix (tbElement ryToEv) numWannier (getLine ls).2
  .ok ((![x, y, z], t.1), t.2)

/-- The elements of the position operator of a vector, src/parser/qe_input_parser.cpp L995-1019; the line of the vector
is skipped. -/
noncomputable def tbPos (bohrToAng : ℝ) (numWannier : Nat) (ls : List TextLine) :
    Outcome (List (List (Fin 3 → ℂ)) × List TextLine) :=
  tbMatrix (tbPosition bohrToAng) numWannier (getLine (getLine ls).2).2

/-- An element `(i, j)` of a list of rows; the loops above give all the rows. -/
def rowAt {β : Type} (z : β) (l : List (List β)) (i j : Nat) : β := (((l[i]?).getD [])[j]?).getD z

/-- The result of the parser: `directUnitCell` and the data of the `ElectronH0Wannier`. -/
structure TbResult where
  numWannier : Nat
  numVectors : Nat
  cell : Mat3
  data : WannierData numWannier numVectors

/-- `QEParser::parseElHarmonicWannier`, src/parser/qe_input_parser.cpp L884-1030, without the file of the shifts;
`inCell` is the unit cell of `inCrystal`.  Negative dimensions of arrays count as undefined behaviour, as does a
degeneracy written beyond the end of the array. -/
noncomputable def parseTb (ryToEv bohrToAng : ℝ) (inCell : Option Mat3) (file : List TextLine) : Outcome TbResult := do
  let ls := (getLine file).2
  let cellRows ← readMany (tbCellLine bohrToAng) 3 ls
  let numWannier ← lineInt (getLine cellRows.2).1
  let ls := (getLine cellRows.2).2
  let numVectors ← lineInt (getLine ls).1
  let ls := (getLine ls).2
  if numWannier < 0 ∨ numVectors < 0 then .ub
  else
    let w := numWannier.toNat
    let r := numVectors.toNat
    let degs ← readMany tbDegLine (tbNumLines r) ls
    let ds := degs.1.flatten
    if r < ds.length then .ub
    else
      let hams ← readMany (tbHam ryToEv w) r degs.2
      let poss ← readMany (tbPos bohrToAng w) r hams.2
      let cell_ : Mat3 := fun j i => ((cellRows.1[i.1]?).getD 0) j
      let cell := inCell.getD cell_
      .ok { numWannier := w, numVectors := r, cell := cell, data :=
        { bravais := fun iR => matVec cell (((hams.1[iR.1]?).getD (0, [])).1)
          degeneracy := fun iR => (((ds[iR.1]?).getD 0 : Int) : ℝ)
          h0R := fun iR i j => rowAt 0 (((hams.1[iR.1]?).getD (0, [])).2) i j
          rMatrix := fun a iR i j => rowAt 0 ((poss.1[iR.1]?).getD []) i j a
          shifts := none } }

/-! ## Shifts -/

/-- Changes an element of a function. -/
def setShift {W R : Nat} {β : Type} (f : Fin W → Fin W → Fin R → β) (a b : Fin W) (r : Fin R) (v : β) :
    Fin W → Fin W → Fin R → β := fun a' b' r' => if a' = a ∧ b' = b ∧ r' = r then v else f a' b' r'

/-- The lines of the shifts of a pair, src/parser/qe_input_parser.cpp L862-876; there is space for eight. -/
noncomputable def wsShiftLines {W R : Nat} (cell : Mat3) (a b : Fin W) (r : Fin R) :
    Nat → Nat → List TextLine → WannierShifts W R → Outcome (WannierShifts W R × List TextLine)
  | 0, _, ls, s => .ok (s, ls)
  | n + 1, iDeg, ls, s => do
    let x ← tokInt (getLine ls).1 0
    let y ← tokInt (getLine ls).1 1
    let z ← tokInt (getLine ls).1 2
    if iDeg < 8 then
      wsShiftLines cell a b r n (iDeg + 1) (getLine ls).2
        { s with vectors := fun j => if j.1 = iDeg then setShift (s.vectors j) a b r (matVec cell (toVec ⟨x, y, z⟩))
                                     else s.vectors j }
    else .ub

/-- The indices of an element of `degeneracyShifts`, src/parser/qe_input_parser.cpp L857-861: `none` if it is outside of the
array. -/
def wsIndex (W R : Nat) (iw1 iw2 iR : Int) : Option (Fin W × Fin W × Fin R) :=
  if h : (0 ≤ iw1 ∧ iw1 < W) ∧ (0 ≤ iw2 ∧ iw2 < W) ∧ (0 ≤ iR ∧ iR < R) then
    some (⟨iw1.toNat, by omega⟩, ⟨iw2.toNat, by omega⟩, ⟨iR.toNat, by omega⟩)
  else none

/-- The loop over the file, src/parser/qe_input_parser.cpp L850-877; `fuel` is at least the number of lines (every
iteration reads one). -/
noncomputable def wsVecLoop {W R : Nat} (cell : Mat3) :
    Nat → List TextLine → V3 Int → Int → WannierShifts W R → Outcome (WannierShifts W R)
  | 0, _, _, _, s => .ok s
  | _ + 1, [], _, _, s => .ok s
  | fuel + 1, l :: ls, oldBV, iR, s => do
    let x ← tokInt l 0
    let y ← tokInt l 1
    let z ← tokInt l 2
    let iR := if (⟨x, y, z⟩ : V3 Int) ≠ oldBV then iR + 1 else iR
    let w1 ← tokInt l 3
    let w2 ← tokInt l 4
    let thisDegeneracy ← lineInt (getLine ls).1
    match wsIndex W R (w1 - 1) (w2 - 1) iR with
    | none => .ub
    | some (a, b, r) =>
      let t ← wsShiftLines cell a b r thisDegeneracy.toNat 0 (getLine ls).2
        { s with degeneracy := setShift s.degeneracy a b r thisDegeneracy.toNat }
      wsVecLoop cell fuel t.2 ⟨x, y, z⟩ iR t.1

/-- `parseWSVecFromWannier90`, src/parser/qe_input_parser.cpp L810-881; `hasTrue` is the presence of `.true.` in the
first line. -/
noncomputable def parseWsVec (W R : Nat) (cell : Mat3) (hasTrue : Bool) (file : List TextLine) :
    Outcome (WannierShifts W R) :=
  if hasTrue then
    wsVecLoop cell file.length (getLine file).2 ⟨0, 0, 0⟩ (-1) ⟨fun _ _ _ => 0, fun _ _ _ _ => 0⟩
  else .error

/-- The Hamiltonian of a calculation, src/parser/qe_input_parser.cpp L884-1040: `wsVec` is the file of the shifts. -/
noncomputable def parseWannier (ryToEv bohrToAng : ℝ) (inCell : Option Mat3) (tb : List TextLine)
    (wsVec : Option (Bool × List TextLine)) : Outcome TbResult := do
  let t ← parseTb ryToEv bohrToAng inCell tb
  match wsVec with
  | none => .ok t
  | some f =>
    let s ← parseWsVec t.numWannier t.numVectors t.cell f.1 f.2
    let d ← addShiftedVectors t.data s
    .ok { t with data := d }

end Verif.Model
