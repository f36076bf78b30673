import Verif.Model.Coupling3Ph
import Verif.Model.Utilities
import Mathlib.Analysis.SpecialFunctions.Pow.Real

/-!
# src/parser/ifc3_parser.cpp: third-order force constants from a file of ShengBTE

Numbers are reals (no rounding).  A line of the file is the list of its tokens.  Simplifications: a token is an integer or a
number (words are not modelled), `>>` to an integer variable fails on a token that is not an integer, and `std::stoi` too.
-/
namespace Verif.Model

/-- A token of the file. -/
inductive FcToken where
  | int (n : Int)
  | num (x : ℝ)

/-- `std::stod`, or `>>` to a `double`. -/
noncomputable def FcToken.value : FcToken → ℝ
  | .int n => n
  | .num x => x

/-- Lines left in the file, and the variable `line`. -/
structure FcStream where
  lines : List (List FcToken)
  line : List FcToken

/-- `std::getline(infile, line)`.  At the end of the file nothing is reported: `line` is empty if the file ends with an end of
line (`newline`), and otherwise keeps the last line, because the stream has already met the end of the file. -/
def FcStream.next (newline : Bool) (s : FcStream) : FcStream :=
  match s.lines with
  | l :: ls => ⟨ls, l⟩
  | [] => if newline then ⟨[], []⟩ else s

/-- A triplet as it is stored, src/parser/ifc3_parser.cpp L681-686: positions of the second and third cell, atoms, and the force
constants in the order in which they were read. -/
structure ShengTriplet where
  pos2 : Fin 3 → ℝ
  pos3 : Fin 3 → ℝ
  atoms : Nat → Int
  fc : Nat → ℝ

/-- A position, src/parser/ifc3_parser.cpp L695-712: more than three numbers are written outside of the array. -/
noncomputable def shengPosition (bohr : ℝ) (words : List FcToken) : Outcome (Fin 3 → ℝ) :=
  if 3 < words.length then .ub
  else .ok fun j => match words[j.val]? with
    | some t => t.value / bohr
    | none => 0

/-- The integers at the start of a line. -/
def leadingInts : List FcToken → List Int
  | .int n :: rest => n :: leadingInts rest
  | _ => []

/-- The atoms, src/parser/ifc3_parser.cpp L714-722. -/
def shengAtoms (line : List FcToken) : Outcome (Nat → Int) :=
  let l := leadingInts line
  if 3 < l.length then .ub
  else .ok fun j => match l[j]? with
    | some n => n - 1
    | none => 0

/-- A line of the force constants, src/parser/ifc3_parser.cpp L731-735: the last group of three integers and a number, if there is
one. -/
noncomputable def shengEntry : List FcToken → Option ℝ
  | .int _ :: .int _ :: .int _ :: t :: rest =>
    match shengEntry rest with
    | some x => some x
    | none => some t.value
  | _ => none

/-- `n` lines of force constants, src/parser/ifc3_parser.cpp L724-738. -/
noncomputable def shengEntries (newline : Bool) (conversion : ℝ) : Nat → FcStream → List ℝ × FcStream
  | 0, s => ([], s)
  | n + 1, s =>
    let s1 := s.next newline
    let x := match shengEntry s1.line with
      | some d => d * conversion
      | none => 0
    let r := shengEntries newline conversion n s1
    (x :: r.1, r.2)

/-- One triplet, src/parser/ifc3_parser.cpp L688-739.  The force constants of the line read in the loops `a`, `b`, `c` (elements
`(c, b, a)` of the array) have index `9 a + 3 b + c`. -/
noncomputable def readTriplet (newline : Bool) (bohr ryd : ℝ) (s : FcStream) : Outcome (ShengTriplet × FcStream) := do
  let s := ((s.next newline).next newline).next newline
  let p2 ← shengPosition bohr s.line
  let s := s.next newline
  let p3 ← shengPosition bohr s.line
  let s := s.next newline
  let at3 ← shengAtoms s.line
  let r := shengEntries newline (bohr ^ 3 / ryd) 27 s
  .ok (⟨p2, p3, at3, fun k => r.1.getD k 0⟩, r.2)

/-- All the triplets, src/parser/ifc3_parser.cpp L688-739. -/
noncomputable def readTriplets (newline : Bool) (bohr ryd : ℝ) : Nat → FcStream → Outcome (List ShengTriplet)
  | 0, _ => .ok []
  | n + 1, s => do
    let r ← readTriplet newline bohr ryd s
    let rest ← readTriplets newline bohr ryd n r.2
    .ok (r.1 :: rest)

open Classical in
/-- `tmpCellPositions2` (or `3`), src/parser/ifc3_parser.cpp L751-784: positions that are not yet in the list are added. -/
noncomputable def distinctCells (ps : List (Fin 3 → ℝ)) : List (Fin 3 → ℝ) :=
  ps.foldl (fun l p => if p ∈ l then l else l ++ [p]) []

/-- Norm of a vector. -/
noncomputable def norm3 (v : Fin 3 → ℝ) : ℝ := Real.sqrt (v 0 * v 0 + v 1 * v 1 + v 2 * v 2)

open Classical in
/-- `findIndexRow`, src/parser/ifc3_parser.cpp L98-110. -/
noncomputable def findIndexRow (cells : List (Fin 3 → ℝ)) (p : Fin 3 → ℝ) : Outcome Nat :=
  match cells.findIdx? fun c => decide (norm3 (fun i => p i - c i) < 1.0e-12) with
  | some i => .ok i
  | none => .error

/-- The place in memory of the element `(i1, i2, i3, i4, i5)` of a tensor of extents `(nb, nb, nb, nr2, nr3)`, as Eigen
computes it (first index fastest, no test of the indices). -/
def fc3Address (nb nr2 : Nat) (i1 i2 i3 i4 i5 : Int) : Int := i1 + nb * (i2 + nb * (i3 + nb * (i4 + nr2 * i5)))

/-- The elements of the three nested loops over directions. -/
def directions : List (Int × Int × Int) :=
  ([0, 1, 2] : List Int).flatMap fun a => ([0, 1, 2] : List Int).flatMap fun b => ([0, 1, 2] : List Int).map fun c => (a, b, c)

/-- The writes of one triplet, src/parser/ifc3_parser.cpp L814-825: outside of the memory of the tensor they are undefined
behaviour. -/
def writeTriplet (nb nr2 size : Nat) (numAtoms : Int) (atoms : Nat → Int) (fc : Nat → ℝ) (ir2 ir3 : Nat) :
    List (Int × Int × Int) → (Int → ℝ) → Outcome (Int → ℝ)
  | [], mem => .ok mem
  | (c1, c2, c3) :: l, mem => do
    let ind1 ← compress2Indices (atoms 0) c1 numAtoms 3
    let ind2 ← compress2Indices (atoms 1) c2 numAtoms 3
    let ind3 ← compress2Indices (atoms 2) c3 numAtoms 3
    let k := fc3Address nb nr2 ind1 ind2 ind3 ir3 ir2
    if k < 0 ∨ (size : Int) ≤ k then .ub
    else
      let mem' := Function.update mem k (fc (9 * c1 + 3 * c2 + c3).toNat)
      writeTriplet nb nr2 size numAtoms atoms fc ir2 ir3 l mem'

/-- The loop over triplets, src/parser/ifc3_parser.cpp L800-826. -/
noncomputable def fillFc3 (nb nr2 size : Nat) (numAtoms : Int) (cells2 cells3 : List (Fin 3 → ℝ)) :
    List ShengTriplet → (Int → ℝ) → Outcome (Int → ℝ)
  | [], mem => .ok mem
  | t :: ts, mem => do
    let ir2 ← findIndexRow cells2 t.pos2
    let ir3 ← findIndexRow cells3 t.pos3
    let mem' ← writeTriplet nb nr2 size numAtoms t.atoms t.fc ir2 ir3 directions mem
    fillFc3 nb nr2 size numAtoms cells2 cells3 ts mem'

open Classical in
/-- `IFC3Parser::parseFromShengBTE`, src/parser/ifc3_parser.cpp L648-841, from the lines of the file.  `bohr` is
`distanceBohrToAng` and `ryd` is `energyRyToEv`.  The tensor is allocated (L797) with extents `(nb, nb, nb, nr2, nr3)` and is
used (L822, and src/interaction/interaction_3ph.cpp L53-62) with the fourth index up to `nr3` and the fifth up to `nr2`. -/
noncomputable def parseSheng (numAtoms : Nat) (bohr ryd : ℝ) (newline : Bool) (lines : List (List FcToken)) :
    Outcome Coupling3Ph := do
  let s := FcStream.next newline ⟨lines, []⟩
  match s.line with
  | .int numTriplets :: _ =>
    if numTriplets < 0 then .error
    else do
      let _ ← cmul 27 numTriplets
      let ts ← readTriplets newline bohr ryd numTriplets.toNat s
      let cells2 := distinctCells (ts.map ShengTriplet.pos2)
      let cells3 := distinctCells (ts.map ShengTriplet.pos3)
      let nb := numAtoms * 3
      let nr2 := cells2.length
      let nr3 := cells3.length
      let size := nb * nb * nb * nr2 * nr3
      let mem ← fillFc3 nb nr2 size numAtoms cells2 cells3 ts (fun _ => 0)
      if ∀ i1 i2 i3 i5 i4 : Nat, i1 < nb → i2 < nb → i3 < nb → i5 < nr3 → i4 < nr2 →
          fc3Address nb nr2 i1 i2 i3 i5 i4 < size then
        Coupling3Ph.make numAtoms nr2 nr3 (fun i1 i2 i3 i5 i4 => mem (fc3Address nb nr2 i1 i2 i3 i5 i4))
          (fun i r => cells2.getD r (fun _ => 0) i) (fun i r => cells3.getD r (fun _ => 0) i)
          (fun _ _ _ => 1) (fun _ _ _ => 1)
      else .ub
  | _ => .error

end Verif.Model
