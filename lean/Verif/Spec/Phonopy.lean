import Verif.Model.Phonopy
import Verif.Spec.Phono3py

/-!
Vocabulary of the statements on harmonic force constants from phonopy: what the file of displacements and the file of force constants say.
-/
namespace Verif.Spec
open Verif.Model

/-- The line of the first atom of a cell: `  - symbol: Si # 1`. -/
def symbolText (name number : List Char) : List Char :=
  [' ', ' ', '-', ' ', 's', 'y', 'm', 'b', 'o', 'l', ':', ' '] ++ name ++ [' ', '#', ' '] ++ number

/-- The line has these three numbers: `- [ x, y, z ]` or `coordinates: [ x, y, z ]`. -/
def HasNumbers (l : YamlLine) (p : Fin 3 → ℝ) : Prop := ∃ w w' more, l.tok = w :: w' :: .num (p 0) :: .num (p 1) :: .num (p 2) :: more

/-- Three rows with a diagonal matrix. -/
def HasDiagonal (g : Fin 3 → PhLine) (N : V3 Int) : Prop :=
  ∀ i, ∃ w w' more, (g i).tok = w :: w' :: .int (if i = 0 then N.x else 0) :: .int (if i = 1 then N.y else 0) :: .int (if i = 2 then N.z else 0) :: more

/-- None of the lines has the string. -/
def Without (s : String) (ls : List PhLine) : Prop := ∀ l ∈ ls, l.has s = false

/-- The supercell of the harmonic force constants has `N` cells; `own` if it is not that of the third-order force constants. -/
inductive SupercellOf (lines : List PhLine) (N : V3 Int) : Bool → Prop
  | same (pre : List PhLine) (sm : PhLine) (g : Fin 3 → PhLine) (post : List PhLine) (h : lines = pre ++ sm :: g 0 :: g 1 :: g 2 :: post)
      (h1 : Without "supercell_matrix:" (pre ++ post)) (h2 : Without "phonon_supercell_matrix:" (sm :: pre ++ post))
      (h3 : sm.has "supercell_matrix:" = true) (h4 : HasDiagonal g N) : SupercellOf lines N false
  | own (pre : List PhLine) (sm : PhLine) (g : Fin 3 → PhLine) (mid : List PhLine) (pm : PhLine) (g' : Fin 3 → PhLine) (post : List PhLine) (M : V3 Int)
      (h : lines = pre ++ sm :: g 0 :: g 1 :: g 2 :: (mid ++ pm :: g' 0 :: g' 1 :: g' 2 :: post))
      (h1 : Without "supercell_matrix:" (pre ++ mid)) (h2 : Without "phonon_supercell_matrix:" (sm :: pre ++ mid))
      (h3 : sm.has "supercell_matrix:" = true) (h4 : HasDiagonal g M) (h5 : pm.has "phonon_supercell_matrix:" = true) (h6 : HasDiagonal g' N) :
      SupercellOf lines N true

/-- The lines of a cell without its atoms: a title, `lattice:`, and the lattice vectors. -/
structure CellLines (title lat : PhLine) (a : Fin 3 → PhLine) (name : String) (v : Fin 3 → Fin 3 → ℝ) : Prop where
  title_has : title.has name = true
  lat_has : lat.has "lattice:" = true
  rows : ∀ k, HasNumbers (a k).toYamlLine (v k)

/-- None of the words of the file. -/
structure Plain (l : PhLine) : Prop where
  symbol : l.has " symbol: " = false
  coordinates : l.has "coordinates: " = false
  lattice : l.has "lattice:" = false
  unitCell : l.has "unit_cell:" = false
  primitive : l.has "primitive_cell:" = false
  text : l.text ≠ []

/-- The lines of the atoms of the unit cell: names and reduced coordinates. -/
inductive AtomLines : List PhLine → List (List Char × (Fin 3 → ℝ)) → Prop
  | nil : AtomLines [] []
  | other (l : PhLine) (ls : List PhLine) (as : List (List Char × (Fin 3 → ℝ))) (h : Plain l) (t : AtomLines ls as) : AtomLines (l :: ls) as
  | atom (l l' : PhLine) (ls : List PhLine) (name number : List Char) (p : Fin 3 → ℝ) (as : List (List Char × (Fin 3 → ℝ)))
      (h1 : l.has " symbol: " = true) (h2 : l.text = symbolText name number) (h3 : l.has "coordinates: " = false ∧ l.has "lattice:" = false)
      (h4 : l.has "unit_cell:" = false ∧ l.has "primitive_cell:" = false)
      (h5 : name ≠ [] ∧ ∀ c ∈ name, c ≠ '#' ∧ c.isWhitespace = false)
      (k1 : l'.has "coordinates: " = true) (k2 : HasNumbers l'.toYamlLine p) (k3 : l'.has " symbol: " = false ∧ l'.has "lattice:" = false)
      (k4 : l'.has "unit_cell:" = false ∧ l'.has "primitive_cell:" = false) (k5 : l'.text ≠ [])
      (t : AtomLines ls as) : AtomLines (l :: l' :: ls) ((name, p) :: as)

/-- Lines from which the reader takes the given coordinates. -/
inductive SupLines : List PhLine → List (Fin 3 → ℝ) → Prop
  | nil : SupLines [] []
  | other (l : PhLine) (ls : List PhLine) (ps : List (Fin 3 → ℝ)) (h1 : l.has "coordinates: " = false) (h2 : l.has "lattice:" = false)
      (t : SupLines ls ps) : SupLines (l :: ls) ps
  | coord (l : PhLine) (ls : List PhLine) (p : Fin 3 → ℝ) (ps : List (Fin 3 → ℝ)) (h1 : l.has "coordinates: " = true) (h2 : l.has "lattice:" = false)
      (h3 : HasNumbers l.toYamlLine p) (t : SupLines ls ps) : SupLines (l :: ls) (p :: ps)

/-- The parts of the file of displacements: the primitive cell, the unit cell, the supercell. -/
structure PhonopyFile where
  head : List PhLine
  pc : PhLine
  plat : PhLine
  p : Fin 3 → PhLine
  mid : List PhLine
  uc : PhLine
  lat : PhLine
  a : Fin 3 → PhLine
  atoms : List PhLine
  between : List PhLine
  su : PhLine
  slat : PhLine
  v : Fin 3 → PhLine
  coords : List PhLine

/-- The lines of the file: an empty line follows the unit cell. -/
def PhonopyFile.upToCell (f : PhonopyFile) : List PhLine :=
  f.head ++ f.pc :: f.plat :: f.p 0 :: f.p 1 :: f.p 2 :: (f.mid ++ f.uc :: f.lat :: f.a 0 :: f.a 1 :: f.a 2 :: f.atoms)

def PhonopyFile.lines (f : PhonopyFile) : List PhLine :=
  f.upToCell ++ .blank :: (f.between ++ f.su :: f.slat :: f.v 0 :: f.v 1 :: f.v 2 :: f.coords)

/-- The file describes the supercell of `N` cells of the crystal with lattice vectors in the columns of `d` (in Bohr radii) and atoms with the given names at
the reduced coordinates `frac`; the copies of the first atom come first, in the given order of the cells, then those of the second atom, and so on. -/
structure PhonopyFile.Describes {A : Nat} (f : PhonopyFile) (N : V3 Int) (own : Bool) (d : Mat3) (name : Fin A → List Char) (frac : Fin A → Fin 3 → ℝ)
    (order : List (V3 Int)) (bohr : ℝ) : Prop where
  supercell : SupercellOf f.lines N own
  quiet : ∀ l ∈ f.head ++ f.mid, l.has "unit_cell:" = false ∧ l.has "primitive_cell:" = false
  prim : ∃ v, CellLines f.pc f.plat f.p "primitive_cell:" v
  primOther : f.pc.has "lattice:" = false ∧ f.plat.has "recip" = false ∧ (∀ k, (f.p k).has "lattice:" = false) ∧
    ∀ l ∈ [f.pc, f.plat, f.p 0, f.p 1, f.p 2], l.has "unit_cell:" = false
  primOnce : ∀ l ∈ [f.plat, f.p 0, f.p 1, f.p 2], l.has "primitive_cell:" = false
  cell : ∃ v unit, CellLines f.uc f.lat f.a "unit_cell:" v ∧
    ((unit = 1 ∧ ∃ l ∈ f.upToCell, l.has "length" = true ∧ l.has "au" = true) ∨
      (unit = 1 / bohr ∧ ∀ l ∈ f.upToCell, ¬ (l.has "length" = true ∧ l.has "au" = true))) ∧ (∀ k i, v k i * unit = d i k) ∧
    ∃ w, CellLines f.su f.slat f.v (if own then "phonon_supercell:" else "supercell:") w ∧ ∀ k i, w k i * unit = asFun N k * d i k
  cellOther : f.uc.has "primitive_cell:" = false ∧
    (∀ l ∈ [f.lat, f.a 0, f.a 1, f.a 2], l.has " symbol: " = false ∧ l.has "coordinates: " = false ∧ l.has "primitive_cell:" = false ∧ l.text ≠ []) ∧
    ∀ k, (f.a k).has "lattice:" = false
  atoms : AtomLines f.atoms ((List.finRange A).map fun b => (name b, frac b))
  between : ∀ l ∈ f.between, l.has (if own then "phonon_supercell:" else "supercell:") = false
  supOther : (∀ l ∈ [f.su, f.slat, f.v 0, f.v 1, f.v 2], l.has "coordinates: " = false) ∧ f.su.has "lattice:" = false ∧ ∀ k, (f.v k).has "lattice:" = false
  coords : SupLines f.coords ((List.finRange A).flatMap fun b => order.map fun c k => (frac b k + asFun c k) / asFun N k)

/-- Harmonic force constants of an infinite crystal of `A` atoms per cell: `Phi b n b' i j` is the force constant between direction `i` of atom `b` of cell `n`
and direction `j` of atom `b'` of the home cell. -/
abbrev HarmonicFc (A : Nat) := Fin A → V3 Int → Fin A → Fin 3 → Fin 3 → ℝ

/-- They are those of a supercell of `N` cells. -/
def PeriodicHarmonic {A : Nat} (N : V3 Int) (Phi : HarmonicFc A) : Prop :=
  ∀ b b' n n', N.x ∣ n.x - n'.x → N.y ∣ n.y - n'.y → N.z ∣ n.z - n'.z → Phi b n b' = Phi b n' b'

/-- The force constants are second derivatives: they do not depend on the order of the two atoms. -/
def SymmetricHarmonic {A : Nat} (Phi : HarmonicFc A) : Prop :=
  ∀ b b' n i j, Phi b n b' i j = Phi b' ⟨-n.x, -n.y, -n.z⟩ b j i

/-- The file of force constants of all pairs of atoms of the supercell. -/
structure IsFullFc2 {A : Nat} (order : List (V3 Int)) (Phi : HarmonicFc A) (f : Fc2File) : Prop where
  map : f.cellMap = (List.range A).map fun b => ((b * order.length : Nat) : Int)
  size0 : f.d0 = A * order.length
  size1 : f.d1 = A * order.length
  val : ∀ (b b' : Fin A) (s s' : Nat) (c c' : V3 Int), order[s]? = some c → order[s']? = some c' →
    f.val (b * order.length + s) (b' * order.length + s') = Phi b ⟨c.x - c'.x, c.y - c'.y, c.z - c'.z⟩ b'

/-- The compact file: the first atom is in the home cell. -/
structure IsCompactFc2 {A : Nat} (order : List (V3 Int)) (Phi : HarmonicFc A) (f : Fc2File) : Prop where
  map : f.cellMap = (List.range A).map fun b => ((b * order.length : Nat) : Int)
  size0 : f.d0 = A
  size1 : f.d1 = A * order.length
  val : ∀ (b b' : Fin A) (s' : Nat) (c' : V3 Int), order[s']? = some c' →
    f.val b (b' * order.length + s') = Phi b ⟨-c'.x, -c'.y, -c'.z⟩ b'

/-- Different lattice points are at least a thousandth of a Bohr radius apart. -/
def LatticeApart6 (d : Mat3) : Prop :=
  ∀ n n' : V3 Int, n ≠ n' → 1.0e-6 ≤ vdot (fun i => latVec d n i - latVec d n' i) (fun i => latVec d n i - latVec d n' i)

/-- The crystal that is passed on: the lattice, the number of cells of the supercell, and for each atom its place, its species and the mass of its species. -/
structure ReadAs {A : Nat} (p : PhonopyData) (N : V3 Int) (d : Mat3) (name : Fin A → List Char) (frac : Fin A → Fin 3 → ℝ) (m : Fin A → ℝ) (amu : ℝ) :
    Prop where
  cell : p.cell = d
  grid : p.grid = N
  count : p.positions.length = A
  atom : ∀ b : Fin A, p.positions[b.val]? = some (fun i => d i 0 * frac b 0 + d i 1 * frac b 1 + d i 2 * frac b 2) ∧
    ∃ k, p.species[b.val]? = some k ∧ p.names[k]? = some (name b) ∧ p.masses[k]? = some (m b * amu)
  species : p.species.length = A
  masses : p.masses.length = p.names.length
  only : ∀ x ∈ p.names, ∃ b, name b = x

/-- The units of force constants that phonopy writes, depending on the program that computed the forces. -/
inductive FcUnit | evAng2 | ryAu2 | hartreeAu2 | mRyAu2 | evAngAu

/-- How phonopy writes them. -/
def FcUnit.name : FcUnit → String
  | .evAng2 => "eV/angstrom^2"
  | .ryAu2 => "Ry/au^2"
  | .hartreeAu2 => "hartree/au^2"
  | .mRyAu2 => "mRy/au^2"
  | .evAngAu => "eV/angstrom.au"

/-- Their values in Ry/Bohr^2: a Bohr radius is `bohr` angstrom, a Rydberg is `ryd` eV. -/
noncomputable def FcUnit.value (bohr ryd : ℝ) : FcUnit → ℝ
  | .evAng2 => bohr ^ 2 / ryd
  | .ryAu2 => 1
  | .hartreeAu2 => 2
  | .mRyAu2 => 1 / 1000
  | .evAngAu => bohr / ryd

/-- Which of the names contain `eV/ang`. -/
def FindsEvAng (evAng : String → Bool) : Prop :=
  evAng FcUnit.evAng2.name = true ∧ evAng FcUnit.ryAu2.name = false ∧ evAng FcUnit.hartreeAu2.name = false ∧ evAng FcUnit.mRyAu2.name = false ∧
    evAng FcUnit.evAngAu.name = true

/-- The nine numbers of a tensor. -/
def nineWords (e : Fin 3 → Fin 3 → ℝ) : List YamlWord :=
  [.num (e 0 0), .num (e 0 1), .num (e 0 2), .num (e 1 0), .num (e 1 1), .num (e 1 2), .num (e 2 0), .num (e 2 1), .num (e 2 2)]

/-- A line with a tensor. -/
def HasTensor (l : BornLine) (e : Fin 3 → Fin 3 → ℝ) : Prop := l.has "#" = false ∧ l.blank = false ∧ l.tok = nineWords e

/-- The file `BORN`: a line that is not used, the dielectric tensor, the charges `Z` line by line. -/
structure IsBornFile (ls : List BornLine) (eps : Fin 3 → Fin 3 → ℝ) (Z : List (Fin 3 → Fin 3 → ℝ)) : Prop where
  parts : ∃ first el zl, ls = first :: el :: zl ∧ HasTensor el eps ∧ List.Forall₂ HasTensor zl Z

end Verif.Spec
