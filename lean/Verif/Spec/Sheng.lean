import Verif.Model.Sheng
import Verif.Spec.Coupling3Ph
import Mathlib.Data.Set.Card

/-! Vocabulary of the statements on force constants from ShengBTE: the format of the file, and what it means. -/
namespace Verif.Spec
open Verif.Model

/-- A triplet of atoms of a crystal of `A` atoms: positions of the second and third cell (in angstrom), atoms in the first,
second and third cell, third-order force constants (in electronvolt per cubic angstrom). -/
structure Triplet (A : Nat) where
  cell2 : Fin 3 → ℝ
  cell3 : Fin 3 → ℝ
  atom1 : Fin A
  atom2 : Fin A
  atom3 : Fin A
  phi : Fin 3 → Fin 3 → Fin 3 → ℝ

/-- The block of a triplet in `FORCE_CONSTANTS_3RD`: an empty line, its number, the two cells, the atoms counted from one,
and a line for each element with its three indices counted from one, the last running fastest. -/
noncomputable def Triplet.lines {A : Nat} (t : Triplet A) (number : Int) : List (List FcToken) :=
  [[], [.int number], [.num (t.cell2 0), .num (t.cell2 1), .num (t.cell2 2)],
    [.num (t.cell3 0), .num (t.cell3 1), .num (t.cell3 2)],
    [.int ((t.atom1 : Nat) + 1), .int ((t.atom2 : Nat) + 1), .int ((t.atom3 : Nat) + 1)]] ++
  (List.finRange 3).flatMap fun i => (List.finRange 3).flatMap fun j => (List.finRange 3).map fun k =>
    [.int ((i : Nat) + 1), .int ((j : Nat) + 1), .int ((k : Nat) + 1), .num (t.phi i j k)]

/-- The file `FORCE_CONSTANTS_3RD`: the number of triplets, and their blocks. -/
noncomputable def shengFile {A : Nat} (ts : List (Triplet A)) : List (List FcToken) :=
  [.int ts.length] :: (ts.zipIdx.flatMap fun p => p.1.lines (p.2 + 1))

/-- The word of a file is a way to write the number: with a decimal point, or without if it is an integer. -/
def SpellsNumber (t : FcToken) (x : ℝ) : Prop := t = .num x ∨ ∃ n : Int, t = .int n ∧ (n : ℝ) = x

/-- The block of a triplet by a program that writes numbers as `wr`. -/
noncomputable def Triplet.linesBy {A : Nat} (wr : ℝ → FcToken) (t : Triplet A) (number : Int) : List (List FcToken) :=
  [[], [.int number], [wr (t.cell2 0), wr (t.cell2 1), wr (t.cell2 2)],
    [wr (t.cell3 0), wr (t.cell3 1), wr (t.cell3 2)],
    [.int ((t.atom1 : Nat) + 1), .int ((t.atom2 : Nat) + 1), .int ((t.atom3 : Nat) + 1)]] ++
  (List.finRange 3).flatMap fun i => (List.finRange 3).flatMap fun j => (List.finRange 3).map fun k =>
    [.int ((i : Nat) + 1), .int ((j : Nat) + 1), .int ((k : Nat) + 1), wr (t.phi i j k)]

/-- The file by a program that writes numbers as `wr`. -/
noncomputable def shengFileBy {A : Nat} (wr : ℝ → FcToken) (ts : List (Triplet A)) : List (List FcToken) :=
  [.int ts.length] :: (ts.zipIdx.flatMap fun p => p.1.linesBy wr (p.2 + 1))

/-- The coupling the triplets of the file mean: the sum over triplets and directions of force constants (in rydberg per
cubic bohr), displacements and phases; `3 a + i` is the coordinate of atom `a` in direction `i`. -/
noncomputable def tripletCoupling {A : Nat} (bohr ryd : ℝ) (ts : List (Triplet A)) (s : ℝ) (q2 q3 : Fin 3 → ℝ)
    (e1 e2 e3 : Nat → ℂ) : ℂ :=
  (ts.map fun t => ∑ i : Fin 3, ∑ j : Fin 3, ∑ k : Fin 3,
    e1 (3 * t.atom1 + i) * e2 (3 * t.atom2 + j) * (starRingEnd ℂ) (e3 (3 * t.atom3 + k)) *
      ((t.phi i j k * (bohr ^ 3 / ryd) : ℝ) : ℂ) *
      Complex.exp (Complex.I * ((s * scal q2 (fun c => t.cell2 c / bohr) - scal q3 (fun c => t.cell3 c / bohr) : ℝ) : ℂ))).sum

/-- The two triplets are about the same atoms in the same cells. -/
def Triplet.same {A : Nat} (t t' : Triplet A) : Prop :=
  t.cell2 = t'.cell2 ∧ t.cell3 = t'.cell3 ∧ t.atom1 = t'.atom1 ∧ t.atom2 = t'.atom2 ∧ t.atom3 = t'.atom3

/-- Number of different cells. -/
noncomputable def numCells (cells : List (Fin 3 → ℝ)) : Nat := Set.ncard {c | c ∈ cells}

/-- Cells that are not the same are not closer than 10^-12 bohr. -/
def CellsApart (bohr : ℝ) (cells : List (Fin 3 → ℝ)) : Prop :=
  ∀ c ∈ cells, ∀ c' ∈ cells, c = c' ∨ 1.0e-12 ≤ norm3 (fun i => c i / bohr - c' i / bohr)

end Verif.Spec
