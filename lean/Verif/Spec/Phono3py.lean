import Verif.Model.Phono3py
import Mathlib.Data.Int.Interval
import Verif.Spec.Coupling3Ph
import Verif.Spec.Phonon
import Mathlib.Data.Fintype.Pi

/-! Vocabulary of the statements on force constants from phono3py. -/
namespace Verif.Spec
open Verif.Model

/-- Third-order force constants of an infinite crystal of `A` atoms per cell: `Phi b1 b2 n2 b3 n3` couples atom `b1` of the home
cell with atom `b2` of cell `n2` and atom `b3` of cell `n3`. -/
abbrev ForceConstants (A : Nat) := Fin A → Fin A → V3 Int → Fin A → V3 Int → Fin 3 → Fin 3 → Fin 3 → ℝ

/-- They are those of a supercell of `N` cells. -/
def PeriodicFc {A : Nat} (N : V3 Int) (Phi : ForceConstants A) : Prop :=
  ∀ b1 b2 b3 n n' m m', N.x ∣ n.x - n'.x → N.y ∣ n.y - n'.y → N.z ∣ n.z - n'.z →
    N.x ∣ m.x - m'.x → N.y ∣ m.y - m'.y → N.z ∣ m.z - m'.z → Phi b1 b2 n b3 m = Phi b1 b2 n' b3 m'

/-- The cells of the supercell in some order, the home cell first. -/
structure IsOrder (N : V3 Int) (order : List (V3 Int)) : Prop where
  nodup : order.Nodup
  home : order[0]? = some ⟨0, 0, 0⟩
  mem : ∀ n, n ∈ order ↔ (0 ≤ n.x ∧ n.x < N.x) ∧ (0 ≤ n.y ∧ n.y < N.y) ∧ (0 ≤ n.z ∧ n.z < N.z)

/-- The file of force constants of phono3py: the images of the first atom come first, in the given order, then those of the second
atom, and so on. -/
structure IsFc3File {A : Nat} (order : List (V3 Int)) (Phi : ForceConstants A) (f : Fc3File) : Prop where
  map : f.cellMap = (List.range A).map fun b => ((b * order.length : Nat) : Int)
  size0 : f.d0 = A * order.length
  size1 : f.d1 = A * order.length
  size2 : f.d2 = A * order.length
  val : ∀ (b1 b2 b3 : Fin A) (s2 s3 : Nat) (c2 c3 : V3 Int), order[s2]? = some c2 → order[s3]? = some c3 →
    f.val (b1 * order.length) (b2 * order.length + s2) (b3 * order.length + s3) = Phi b1 b2 c2 b3 c3

/-- The cells of which the second and the third are summed: up to two supercells away, from `-2 N` to `2 N - 1`. -/
noncomputable def cellBox (N : V3 Int) : Finset (Int × Int × Int) :=
  Finset.Ico (-2 * N.x) (2 * N.x) ×ˢ (Finset.Ico (-2 * N.y) (2 * N.y) ×ˢ Finset.Ico (-2 * N.z) (2 * N.z))

/-- The coupling: the sum over atoms, directions and cells of weights, force constants, displacements and phases. -/
noncomputable def weightedCoupling {A : Nat} (N : V3 Int) (R : V3 Int → Fin 3 → ℝ) (w2 w3 : V3 Int → Fin A → Fin A → ℝ) (conv : ℝ)
    (Phi : ForceConstants A) (s : ℝ) (q2 q3 : Fin 3 → ℝ) (e1 e2 e3 : Nat → ℂ) : ℂ :=
  ∑ b1 : Fin A, ∑ i : Fin 3, ∑ b2 : Fin A, ∑ j : Fin 3, ∑ b3 : Fin A, ∑ k : Fin 3,
    e1 (3 * b1 + i) * e2 (3 * b2 + j) * (starRingEnd ℂ) (e3 (3 * b3 + k)) *
    ∑ n ∈ cellBox N, ∑ m ∈ cellBox N,
      ((w2 ⟨n.1, n.2.1, n.2.2⟩ b1 b2 * w3 ⟨m.1, m.2.1, m.2.2⟩ b1 b3 *
        (Phi b1 b2 ⟨n.1, n.2.1, n.2.2⟩ b3 ⟨m.1, m.2.1, m.2.2⟩ i j k * conv) : ℝ) : ℂ) *
      Complex.exp (Complex.I * ((s * scal q2 (R ⟨n.1, n.2.1, n.2.2⟩) - scal q3 (R ⟨m.1, m.2.1, m.2.2⟩) : ℝ) : ℂ))

/-- Different lattice points are not closer than 10^-12. -/
def LatticeApart (d : Mat3) : Prop :=
  ∀ n n' : V3 Int, n ≠ n' → 1.0e-12 ≤ norm3 (fun i => latVec d n i - latVec d n' i)

/-! ## The weights -/

/-- A triple of integers as a function. -/
def asFun (n : V3 Int) : Fin 3 → ℤ := ![n.x, n.y, n.z]

open Classical in
/-- The copies of the image in cell `n`, up to two supercells of `N` cells away, at the same distance from the origin. -/
noncomputable def equalCopies (a : Fin 3 → Fin 3 → ℝ) (t : Fin 3 → ℝ) (N n : Fin 3 → ℤ) : Finset (Fin 3 → ℤ) :=
  (Fintype.piFinset fun _ => Finset.Icc (-2 : ℤ) 2).filter fun g => dist2 a t (fun k => n k - N k * g k) = dist2 a t n

open Classical in
/-- The weight of the image in cell `n`: zero if a copy is nearer, otherwise it is shared among the copies at the same distance. -/
noncomputable def imageWeight (a : Fin 3 → Fin 3 → ℝ) (t : Fin 3 → ℝ) (N n : Fin 3 → ℤ) : ℝ :=
  if ∃ g : Fin 3 → ℤ, (∀ k, |g k| ≤ 2) ∧ dist2 a t (fun k => n k - N k * g k) < dist2 a t n then 0
  else 1 / ((equalCopies a t N n).card : ℝ)

/-- Squared distances of copies are equal or differ by more than the tolerance, and copies are at least a thousandth apart. -/
structure ClearDistances (a : Fin 3 → Fin 3 → ℝ) (t : Fin 3 → ℝ) (N : Fin 3 → ℤ) : Prop where
  tie : ∀ n g : Fin 3 → ℤ, (∀ k, |g k| ≤ 2) → dist2 a t (fun k => n k - N k * g k) = dist2 a t n ∨
    2.0e-6 < |dist2 a t n - dist2 a t (fun k => n k - N k * g k)|
  apart : ∀ g : Fin 3 → ℤ, g ≠ 0 → 1.0e-6 < dist2 a 0 (fun k => N k * g k)

/-- The weight of the cell `n` for the pair of atom `b` of the home cell and atom `b'` of the cell. -/
noncomputable def pairWeight {A : Nat} (d : Mat3) (pos : Fin A → Fin 3 → ℝ) (N n : V3 Int) (b b' : Fin A) : ℝ :=
  imageWeight (fun k i => d i k) (fun i => pos b' i - pos b i) (asFun N) (asFun n)

/-- `t` holds, for all bands, the squared modulus of the weighted coupling. -/
def IsWeightedCoupling {A : Nat} (t : Tensor3) (nb1 nb2 nb3 : Nat) (N : V3 Int) (d : Mat3) (w2 w3 : V3 Int → Fin A → Fin A → ℝ) (conv : ℝ)
    (Phi : ForceConstants A) (s : ℝ) (q2 q3 : Fin 3 → ℝ) (e1 e2 e3 : Nat → Nat → ℂ) : Prop :=
  t.d0 = nb1 ∧ t.d1 = nb2 ∧ t.d2 = nb3 ∧ ∀ b1 < nb1, ∀ b2 < nb2, ∀ b3 < nb3,
    t.val b1 b2 b3 = Complex.normSq (weightedCoupling N (latVec d) w2 w3 conv Phi s q2 q3 (fun a => e1 a b1) (fun a => e2 a b2)
      (fun a => e3 a b3))

/-! ## The file of the displacements -/

/-- Lines from which the reader takes the given coordinates, in this order. -/
inductive CoordLines : List YamlLine → List (Fin 3 → ℝ) → Prop
  | nil : CoordLines [] []
  | other (l : YamlLine) (ls : List YamlLine) (ps : List (Fin 3 → ℝ)) (h1 : l.has "coordinates:" = false)
      (h2 : l.has "lattice:" = false) (h3 : l.has "phonon" = false) (h : CoordLines ls ps) : CoordLines (l :: ls) ps
  | coord (l : YamlLine) (ls : List YamlLine) (p : Fin 3 → ℝ) (ps : List (Fin 3 → ℝ)) (w w' : YamlWord) (more : List YamlWord)
      (h0 : l.tok = w :: w' :: .num (p 0) :: .num (p 1) :: .num (p 2) :: more) (h1 : l.has "coordinates:" = true)
      (h2 : l.has "lattice:" = false) (h3 : l.has "phonon" = false) (h : CoordLines ls ps) : CoordLines (l :: ls) (p :: ps)

/-- The parts of the file of displacements. -/
structure DispFile where
  pre : List YamlLine
  sm : YamlLine
  g : Fin 3 → YamlLine
  mid : List YamlLine
  sup : YamlLine
  lat : YamlLine
  a : Fin 3 → YamlLine
  body : List YamlLine
  post : List YamlLine

/-- The lines of the file. -/
def DispFile.lines (f : DispFile) : List YamlLine :=
  f.pre ++ (f.sm :: f.g 0 :: f.g 1 :: f.g 2 :: f.mid) ++ (f.sup :: f.lat :: f.a 0 :: f.a 1 :: f.a 2 :: f.body) ++ f.post

/-- The unit of length of a file: Bohr radii if the first line with `length` has `au`, otherwise Angstrom. -/
def UnitOfLength (bohr unit : ℝ) (lines : List YamlLine) : Prop :=
  (∃ (pre : List YamlLine) (l : YamlLine) (post : List YamlLine), lines = pre ++ l :: post ∧ (∀ x ∈ pre, x.has "length" = false) ∧
    l.has "length" = true ∧ ((l.has "au" = true ∧ unit = 1) ∨ (l.has "au" = false ∧ unit = 1 / bohr))) ∨
  ((∀ x ∈ lines, x.has "length" = false) ∧ unit = 1 / bohr)

/-- The file describes the supercell of `N` cells of the crystal with lattice vectors in the columns of `d` and atoms at the reduced
coordinates `frac`: the diagonal matrix of the supercell, its lattice vectors, and the reduced coordinates of its atoms, first all
images of the first atom in the order of the cells, then those of the second, and so on.  Nothing follows the supercell, or a line
with `phonon` does. -/
structure DispFile.Describes {A : Nat} (f : DispFile) (N : V3 Int) (d : Mat3) (frac : Fin A → Fin 3 → ℝ)
    (order : List (V3 Int)) (bohr : ℝ) : Prop where
  before : ∀ l ∈ f.pre, l.has "supercell_matrix:" = false
  matrix : f.sm.has "supercell_matrix:" = true
  rows : ∀ i, ∃ w w' more, (f.g i).tok = w :: w' :: .int (if i = 0 then N.x else 0) :: .int (if i = 1 then N.y else 0) ::
    .int (if i = 2 then N.z else 0) :: more
  quiet : ∀ l ∈ f.pre ++ (f.sm :: f.g 0 :: f.g 1 :: f.g 2 :: f.mid), l.has "supercell:" = false ∧ l.has "phonon" = false
  sup : f.sup.has "supercell:" = true ∧ f.sup.has "phonon" = false ∧ f.sup.has "coordinates:" = false ∧ f.sup.has "lattice:" = false
  lat : f.lat.has "lattice:" = true ∧ f.lat.has "phonon" = false ∧ f.lat.has "coordinates:" = false
  vectors : ∃ v : Fin 3 → Fin 3 → ℝ, (∃ unit, UnitOfLength bohr unit f.lines ∧ ∀ k i, v k i * unit = asFun N k * d i k) ∧
    ∀ k, (∃ w w' more, (f.a k).tok = w :: w' :: .num (v k 0) :: .num (v k 1) :: .num (v k 2) :: more) ∧
      (f.a k).has "lattice:" = false ∧ (f.a k).has "phonon" = false ∧ (f.a k).has "coordinates:" = false
  atoms : CoordLines f.body ((List.finRange A).flatMap fun b => order.map fun c k => (frac b k + asFun c k) / asFun N k)
  stop : f.post = [] ∨ ∃ l rest, f.post = l :: rest ∧ l.has "phonon" = true

end Verif.Spec
