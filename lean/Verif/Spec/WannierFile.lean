import Verif.Model.WannierFile

/-!
The files `seedname_tb.dat` and `seedname_wsvec.dat` of Wannier90 and the Hamiltonian they stand for, independent of the
program.  Only the types of words, lines and integer vectors are those of the model.
-/

namespace Verif.Spec

open Verif.Model (Token TextLine V3)

/-- How numbers are printed: reading a printed number gives the number. -/
structure Printer where
  int : Int → Token
  real : ℝ → Token
  int_toInt : ∀ n, (int n).toInt = some n
  int_toDouble : ∀ n, (int n).toDouble = some (n : ℝ)
  real_toDouble : ∀ x, (real x).toDouble = some x

/-- The content of `seedname_tb.dat`: the lattice vectors in angstrom, the lattice vectors of the matrix elements with
their degeneracies, the elements `⟨m 0| H |n R⟩` in eV and `⟨m 0| r |n R⟩` in angstrom. -/
structure TbContents (W R : ℕ) where
  cell : Fin 3 → Fin 3 → ℝ
  degeneracy : Fin R → ℕ
  vector : Fin R → V3 Int
  ham : Fin R → Fin W → Fin W → ℂ
  pos : Fin 3 → Fin R → Fin W → Fin W → ℂ

/-- The content of `seedname_wsvec.dat`: for each pair of functions and each vector the number of images and their
shifts. -/
structure ShiftContents (W R : ℕ) where
  count : Fin W → Fin W → Fin R → ℕ
  shift : Fin W → Fin W → Fin R → ℕ → V3 Int

variable {W R : ℕ}

/-- The line of a lattice vector. -/
def vectorLine (pr : Printer) (v : V3 Int) : TextLine := [pr.int v.x, pr.int v.y, pr.int v.z]

/-- The line of an element of the Hamiltonian: its indices, counted from one, and its value. -/
def hamLine (pr : Printer) (c : TbContents W R) (r : Fin R) (m n : Fin W) : TextLine :=
  [pr.int (m + 1), pr.int (n + 1), pr.real (c.ham r m n).re, pr.real (c.ham r m n).im]

/-- The line of an element of the position operator. -/
def posLine (pr : Printer) (c : TbContents W R) (r : Fin R) (m n : Fin W) : TextLine :=
  [pr.int (m + 1), pr.int (n + 1), pr.real (c.pos 0 r m n).re, pr.real (c.pos 0 r m n).im,
   pr.real (c.pos 1 r m n).re, pr.real (c.pos 1 r m n).im, pr.real (c.pos 2 r m n).re, pr.real (c.pos 2 r m n).im]

/-- A block of a lattice vector: an empty line, the vector and the elements; the first index of the element runs
faster. -/
def tbBlock (pr : Printer) (c : TbContents W R) (line : Fin R → Fin W → Fin W → TextLine) (r : Fin R) : List TextLine :=
  [] :: vectorLine pr (c.vector r) :: (List.finRange W).flatMap fun n => (List.finRange W).map fun m => line r m n

/-- The lines of the degeneracies: fifteen in a line, the last line may have fewer. -/
def degeneracyLines (pr : Printer) (c : TbContents W R) : List TextLine :=
  (List.range ((R + 14) / 15)).map fun i =>
    (((List.finRange R).map fun r => pr.int (c.degeneracy r)).drop (15 * i)).take 15

/-- `seedname_tb.dat`. -/
def tbFile (pr : Printer) (title : TextLine) (c : TbContents W R) : List TextLine :=
  title :: ((List.finRange 3).map fun i => [pr.real (c.cell i 0), pr.real (c.cell i 1), pr.real (c.cell i 2)]) ++
    [pr.int W] :: [pr.int R] :: degeneracyLines pr c ++
    (List.finRange R).flatMap (tbBlock pr c (hamLine pr c)) ++
    (List.finRange R).flatMap (tbBlock pr c (posLine pr c))

/-- The lines of a pair of functions and a vector in `seedname_wsvec.dat`. -/
def wsVecEntry (pr : Printer) (c : TbContents W R) (s : ShiftContents W R) (r : Fin R) (m n : Fin W) : List TextLine :=
  [pr.int (c.vector r).x, pr.int (c.vector r).y, pr.int (c.vector r).z, pr.int (m + 1), pr.int (n + 1)] ::
    [pr.int (s.count m n r)] :: (List.range (s.count m n r)).map fun j => vectorLine pr (s.shift m n r j)

/-- `seedname_wsvec.dat`. -/
def wsVecFile (pr : Printer) (title : TextLine) (c : TbContents W R) (s : ShiftContents W R) : List TextLine :=
  title :: (List.finRange R).flatMap fun r => (List.finRange W).flatMap fun m => (List.finRange W).flatMap fun n =>
    wsVecEntry pr c s r m n

/-- The cartesian components, in bohr, of the lattice vector with the integer components `v`. -/
noncomputable def latticeVector (bohrToAng : ℝ) (cell : Fin 3 → Fin 3 → ℝ) (v : V3 Int) : Fin 3 → ℝ := fun i =>
  ((v.x : ℝ) * cell 0 i + v.y * cell 1 i + v.z * cell 2 i) / bohrToAng

/-- The phase `exp(i k·R)`. -/
noncomputable def phase (k x : Fin 3 → ℝ) : ℂ := Complex.exp (Complex.I * ((∑ i, k i * x i : ℝ) : ℂ))

/-- The Hamiltonian at the wavevector `k`, in Rydberg. -/
noncomputable def wannierH (ryToEv bohrToAng : ℝ) (c : TbContents W R) (k : Fin 3 → ℝ) : Matrix (Fin W) (Fin W) ℂ :=
  fun m n => ∑ r, phase k (latticeVector bohrToAng c.cell (c.vector r)) / (c.degeneracy r : ℂ) *
    (c.ham r m n / (ryToEv : ℂ))

/-- The Hamiltonian at the wavevector `k` with the shifts: the element of a pair is repeated at its images. -/
noncomputable def wannierHShifted (ryToEv bohrToAng : ℝ) (c : TbContents W R) (s : ShiftContents W R) (k : Fin 3 → ℝ) :
    Matrix (Fin W) (Fin W) ℂ :=
  fun m n => ∑ r, ∑ j ∈ Finset.range (s.count m n r),
    phase k (latticeVector bohrToAng c.cell (c.vector r) + latticeVector bohrToAng c.cell (s.shift m n r j)) /
      ((c.degeneracy r : ℂ) * (s.count m n r : ℂ)) * (c.ham r m n / (ryToEv : ℂ))

end Verif.Spec
