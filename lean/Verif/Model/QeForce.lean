import Verif.Model.QeLattice
import Verif.Model.WannierFile

/-!
# src/parser/qe_input_parser.cpp: `QEParser::parsePhHarmonic`

A file is the list of its lines.  Words are those of `Verif.Model.WannierFile`.  Numbers are reals (no rounding).  Files end with the end of a line, so that
reading beyond the end gives empty lines.  The constructors of `Crystal` and of `PhononH0`, to which the data are handed (L543-561), are
not modelled here.
-/
namespace Verif.Model

/-- A line of the file: its words (`split(line, ' ')`, src/parser/qe_input_parser.cpp L365-384), its parts between apostrophes without white space
(`split(line, '\'')`), and whether it is `T` up to white space. -/
structure FcLine where
  words : TextLine
  parts : List (String × Token)
  isT : Bool

/-- `std::getline(infile, line)`. -/
def fcGetLine : List FcLine → FcLine × List FcLine
  | [] => (⟨[], [], false⟩, [])
  | l :: ls => (l, ls)

/-- A loop of `n` iterations that change a state. -/
def loopRead {σ β : Type} (p : σ → Outcome (β × σ)) : Nat → σ → Outcome (List β × σ)
  | 0, s => .ok ([], s)
  | n + 1, s => do
    let t ← p s
    let u ← loopRead p n t.2
    .ok (t.1 :: u.1, u.2)

/-- The three numbers of a line, from the word `k` on. -/
noncomputable def fcThree (k : Nat) (l : TextLine) : Outcome (Fin 3 → ℝ) := do
  let x ← tokDouble l k
  let y ← tokDouble l (k + 1)
  let z ← tokDouble l (k + 2)
  .ok ![x, y, z]

/-- A line of three numbers, src/parser/qe_input_parser.cpp L440-444, L499-503, L509-513. -/
noncomputable def fcRow (ls : List FcLine) : Outcome ((Fin 3 → ℝ) × List FcLine) := do
  let v ← fcThree 0 (fcGetLine ls).1.words
  .ok (v, (fcGetLine ls).2)

/-- A species, src/parser/qe_input_parser.cpp L455-458. -/
noncomputable def fcSpecies (ls : List FcLine) : Outcome ((String × ℝ) × List FcLine) := do
  let n ← readAt (fcGetLine ls).1.parts 1
  let m ← (readAt (fcGetLine ls).1.parts 2).bind fun t => doubleOf t.2
  .ok ((n.1, m), (fcGetLine ls).2)

/-- An atom, src/parser/qe_input_parser.cpp L466-474: the index of the species and the position; `alat` is `celldm(0)`. -/
noncomputable def fcAtom (alat : ℝ) (ls : List FcLine) : Outcome ((Int × (Fin 3 → ℝ)) × List FcLine) := do
  let s ← tokInt (fcGetLine ls).1.words 1
  let s ← csub s 1
  let v ← fcThree 2 (fcGetLine ls).1.words
  .ok ((s, fun i => alat * v i), (fcGetLine ls).2)

/-- The Born charges of an atom, src/parser/qe_input_parser.cpp L507-515. -/
noncomputable def fcBorn (ls : List FcLine) : Outcome (List (Fin 3 → ℝ) × List FcLine) :=
  loopRead fcRow 3 (fcGetLine ls).2

/-- The variable `x` after `iss >> m1Test >> m2Test >> m3Test >> x`, src/parser/qe_input_parser.cpp L538-539: it is not changed if the line has
less than four words or if one of the first three is not an integer, and zero if the fourth is not a number. -/
noncomputable def fcExtract (l : TextLine) (x : Option ℝ) : Option ℝ :=
  match l with
  | a :: b :: c :: d :: _ =>
    if a.toInt.isSome ∧ b.toInt.isSome ∧ c.toInt.isSome then some (d.toDouble.getD 0) else x
  | _ => x

/-- A force constant, src/parser/qe_input_parser.cpp L537-540: the state is the rest of the file and `x`, which is not initialised at first. -/
noncomputable def fcValue (s : List FcLine × Option ℝ) : Outcome (ℝ × (List FcLine × Option ℝ)) :=
  match fcExtract (fcGetLine s.1).1.words s.2 with
  | none => .ub
  | some x => .ok (x, ((fcGetLine s.1).2, some x))

/-- The force constants of two directions and two atoms, src/parser/qe_input_parser.cpp L531-543: first `r3`, then `r2`, then `r1`. -/
noncomputable def fcBlock (n1 n2 n3 : Nat) (s : List FcLine × Option ℝ) : Outcome (List (List (List ℝ)) × (List FcLine × Option ℝ)) :=
  loopRead (loopRead (loopRead fcValue n1) n2) n3 ((fcGetLine s.1).2, s.2)

/-- The force constants of a first direction, src/parser/qe_input_parser.cpp L523-547: `x` is a variable of the body of this loop. -/
noncomputable def fcDirection (nat n1 n2 n3 : Nat) (ls : List FcLine) :
    Outcome (List (List (List (List (List (List ℝ))))) × List FcLine) := do
  let t ← loopRead (loopRead (loopRead (fcBlock n1 n2 n3) nat) nat) 3 (ls, none)
  .ok (t.1, t.2.1)

/-- What is handed to the constructors: src/parser/qe_input_parser.cpp L550-551, L562-563. -/
structure FcParsed where
  cell : Axes
  species : List (String × ℝ)
  atoms : List (Int × (Fin 3 → ℝ))
  dielectric : List (Fin 3 → ℝ)
  born : List (List (Fin 3 → ℝ))
  grid : Int × Int × Int
  fc : List (List (List (List (List (List (List ℝ))))))

/-- `forceConstants(ic, jc, r1, r2, r3, iat, jat)`. -/
def FcParsed.elem (f : FcParsed) (ic jc r1 r2 r3 iat jat : Nat) : ℝ :=
  (((((((f.fc.getD ic []).getD jc []).getD iat []).getD jat []).getD r3 []).getD r2 []).getD r1 0)

/-- The dielectric matrix and the Born charges, src/parser/qe_input_parser.cpp L478-516: zero if they are not in the file. -/
noncomputable def fcDielectric (nat : Nat) (ls : List FcLine) :
    Outcome ((List (Fin 3 → ℝ) × List (List (Fin 3 → ℝ))) × List FcLine) :=
  if (fcGetLine ls).1.isT then do
    let e ← loopRead fcRow 3 (fcGetLine ls).2
    let z ← loopRead fcBorn nat e.2
    .ok ((e.1, z.1), z.2)
  else .ok ((List.replicate 3 0, List.replicate nat (List.replicate 3 0)), (fcGetLine ls).2)

/-- The axes written in the file if the Bravais index is zero, src/parser/qe_input_parser.cpp L435-446.  Simplification: otherwise the axes are not
initialised; they are not used. -/
noncomputable def fcAxes (iBravais : Int) (ls : List FcLine) : Outcome (Axes × List FcLine) :=
  if iBravais = 0 then do
    let t ← loopRead fcRow 3 ls
    .ok ((t.1.getD 0 0, t.1.getD 1 0, t.1.getD 2 0), t.2)
  else .ok ((0, 0, 0), ls)

/-- The first line, src/parser/qe_input_parser.cpp L407-433: numbers of species and of atoms, Bravais index, `celldm`. -/
noncomputable def fcHeader (l : TextLine) : Outcome (Int × Int × Int × (Fin 6 → ℝ)) := do
  let numElements ← tokInt l 0
  let numAtoms ← tokInt l 1
  let iBravais ← tokInt l 2
  let c0 ← tokDouble l 3
  let c1 ← tokDouble l 4
  let c2 ← tokDouble l 5
  let c3 ← tokDouble l 6
  let c4 ← tokDouble l 7
  let c5 ← tokDouble l 8
  .ok (numElements, numAtoms, iBravais, ![c0, c1, c2, c3, c4, c5])

/-- `QEParser::parsePhHarmonic`, src/parser/qe_input_parser.cpp L386-566, from the first line on.  Simplifications: arrays of negative
size are undefined; the test of the grid (L553-555) comes after the construction of the crystal. -/
noncomputable def parsePhHarmonic (ls : List FcLine) : Outcome FcParsed := do
  let h ← fcHeader (fcGetLine ls).1.words
  let ax ← fcAxes h.2.2.1 (fcGetLine ls).2
  let lat ← getQELattice h.2.2.1 h.2.2.2 ax.1
  if h.1 < 0 ∨ h.2.1 < 0 then .ub
  else do
    let sp ← loopRead fcSpecies h.1.toNat ax.2
    let at' ← loopRead (fcAtom lat.1) h.2.1.toNat sp.2
    let di ← fcDielectric h.2.1.toNat at'.2
    let g := (fcGetLine di.2).1.words
    let q1 ← tokInt g 0
    let q2 ← tokInt g 1
    let q3 ← tokInt g 2
    if q1 < 0 ∨ q2 < 0 ∨ q3 < 0 then .ub
    else do
      let fc ← loopRead (fcDirection h.2.1.toNat q1.toNat q2.toNat q3.toNat) 3 (fcGetLine di.2).2
      if q1 ≤ 0 ∨ q2 ≤ 0 ∨ q3 ≤ 0 then .error
      else .ok ⟨lat.2, sp.1, at'.1, di.1.1, di.1.2, (q1, q2, q3), fc.1⟩

end Verif.Model
