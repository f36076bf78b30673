import Verif.Model.QeForce
import Verif.Spec.WannierFile

/-!
The file of force constants of q2r.x (Quantum ESPRESSO), independent of the program.  Only the types of words and lines are those of the model.
-/
namespace Verif.Spec

open Verif.Model (Token TextLine FcLine)

/-- What the file is about: species with their masses, atoms, and force constants between the atom `i` of the cell `(r1, r2, r3)`, in the direction `a`, and
the atom `j` of the home cell, in the direction `b`. -/
structure FcContents (S N n1 n2 n3 : ℕ) where
  index : Int
  celldm : Fin 6 → ℝ
  /-- The vectors of the cell, if the Bravais index is zero. -/
  cell : Fin 3 → Fin 3 → ℝ
  name : Fin S → String
  mass : Fin S → ℝ
  kind : Fin N → Fin S
  /-- Cartesian coordinates in units of the lattice parameter. -/
  position : Fin N → Fin 3 → ℝ
  dielectric : Option ((Fin 3 → Fin 3 → ℝ) × (Fin N → Fin 3 → Fin 3 → ℝ))
  force : Fin 3 → Fin 3 → Fin N → Fin N → Fin n1 → Fin n2 → Fin n3 → ℝ

variable {S N n1 n2 n3 : ℕ}

/-- A line made of words without apostrophes, which is not the letter `T`. -/
def plainLine (w : TextLine) : FcLine := ⟨w, [], false⟩

def threeLine (pr : Printer) (v : Fin 3 → ℝ) : FcLine := plainLine [pr.real (v 0), pr.real (v 1), pr.real (v 2)]

/-- The line of a species: its number, its name between apostrophes and its mass. -/
def speciesLine (pr : Printer) (other : Token) (c : FcContents S N n1 n2 n3) (s : Fin S) : FcLine :=
  ⟨[pr.int (s + 1), other, pr.real (c.mass s)], [("", pr.int (s + 1)), (c.name s, other), ("", pr.real (c.mass s))], false⟩

/-- The line of an atom: its number, the number of its species and its position. -/
def atomLine (pr : Printer) (c : FcContents S N n1 n2 n3) (i : Fin N) : FcLine :=
  plainLine [pr.int (i + 1), pr.int (c.kind i + 1), pr.real (c.position i 0), pr.real (c.position i 1), pr.real (c.position i 2)]

/-- A line with the letter `T` or `F`. -/
def flagLine (other : Token) (b : Bool) : FcLine := ⟨[other], [], b⟩

/-- The dielectric matrix and the charges. -/
def dielectricLines (pr : Printer) (other : Token) (c : FcContents S N n1 n2 n3) : List FcLine :=
  match c.dielectric with
  | none => [flagLine other false]
  | some (e, z) => flagLine other true :: (List.finRange 3).map (fun a => threeLine pr (e a)) ++
      (List.finRange N).flatMap fun i : Fin N => plainLine [pr.int (i + 1)] :: (List.finRange 3).map fun a => threeLine pr (z i a)

/-- The line of a force constant: the cell, counted from one, and the value. -/
def forceLine (pr : Printer) (c : FcContents S N n1 n2 n3) (a b : Fin 3) (i j : Fin N) (r1 : Fin n1) (r2 : Fin n2) (r3 : Fin n3) : FcLine :=
  plainLine [pr.int (r1 + 1), pr.int (r2 + 1), pr.int (r3 + 1), pr.real (c.force a b i j r1 r2 r3)]

/-- The force constants of two directions and two atoms; the first index of the cell runs fastest. -/
def forceBlock (pr : Printer) (c : FcContents S N n1 n2 n3) (a b : Fin 3) (i j : Fin N) : List FcLine :=
  plainLine [pr.int (a + 1), pr.int (b + 1), pr.int (i + 1), pr.int (j + 1)] ::
    (List.finRange n3).flatMap fun r3 => (List.finRange n2).flatMap fun r2 => (List.finRange n1).map fun r1 => forceLine pr c a b i j r1 r2 r3

def headerLine (pr : Printer) (c : FcContents S N n1 n2 n3) : FcLine :=
  plainLine [pr.int S, pr.int N, pr.int c.index, pr.real (c.celldm 0), pr.real (c.celldm 1), pr.real (c.celldm 2), pr.real (c.celldm 3),
    pr.real (c.celldm 4), pr.real (c.celldm 5)]

/-- The lines before the force constants. -/
def fcTop (pr : Printer) (other : Token) (c : FcContents S N n1 n2 n3) : List FcLine :=
  [headerLine pr c] ++ (if c.index = 0 then (List.finRange 3).map fun a => threeLine pr (c.cell a) else []) ++
    (List.finRange S).map (speciesLine pr other c) ++ (List.finRange N).map (atomLine pr c) ++ dielectricLines pr other c ++
    [plainLine [pr.int n1, pr.int n2, pr.int n3]]

/-- The lines of the force constants of a first direction. -/
def forceLines (pr : Printer) (c : FcContents S N n1 n2 n3) (a : Fin 3) : List FcLine :=
  (List.finRange 3).flatMap fun b => (List.finRange N).flatMap fun i => (List.finRange N).flatMap fun j => forceBlock pr c a b i j

/-- The file. -/
def fcFile (pr : Printer) (other : Token) (c : FcContents S N n1 n2 n3) : List FcLine :=
  fcTop pr other c ++ (List.finRange 3).flatMap (forceLines pr c)

end Verif.Spec
