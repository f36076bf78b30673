import Verif.Spec.Sheng
import Verif.Spec.Phono3py

/-! Vocabulary of the statements on third-order force constants of the same crystal, written by ShengBTE or by phono3py. -/
namespace Verif.Spec
open Verif.Model

/-- A triplet of atoms: `atom1` of the home cell, `atom2` of the cell `cell2`, `atom3` of the cell `cell3`, and its force constants. -/
structure LatticeTriplet (A : Nat) where
  cell2 : V3 Int
  cell3 : V3 Int
  atom1 : Fin A
  atom2 : Fin A
  atom3 : Fin A
  phi : Fin 3 → Fin 3 → Fin 3 → ℝ

/-- As it is written in a file of ShengBTE: the lattice vectors of the two cells in angstrom. -/
noncomputable def LatticeTriplet.inAngstrom {A : Nat} (d : Mat3) (bohr : ℝ) (l : LatticeTriplet A) : Triplet A :=
  ⟨fun i => latVec d l.cell2 i * bohr, fun i => latVec d l.cell3 i * bohr, l.atom1, l.atom2, l.atom3, l.phi⟩

/-- Same cell, up to lattice vectors of the supercell of `N` cells. -/
def SameImage (N n n' : V3 Int) : Prop := N.x ∣ n.x - n'.x ∧ N.y ∣ n.y - n'.y ∧ N.z ∣ n.z - n'.z

instance (N n n' : V3 Int) : Decidable (SameImage N n n') := by unfold SameImage; infer_instance

/-- The triplets are those of the supercell: the force constant of a triplet of atoms is shared among the images in the list, however many and
whichever they are. -/
def SharedAmong {A : Nat} (N : V3 Int) (Phi : ForceConstants A) (ls : List (LatticeTriplet A)) : Prop :=
  ∀ (b1 b2 b3 : Fin A) (n m : V3 Int) (i j k : Fin 3),
    ((ls.filter fun l => l.atom1 = b1 ∧ l.atom2 = b2 ∧ l.atom3 = b3 ∧ SameImage N l.cell2 n ∧ SameImage N l.cell3 m).map
      fun l => l.phi i j k).sum = Phi b1 b2 n b3 m i j k

/-- No two elements of the list are about the same atoms. -/
def ListedOnce {A : Nat} (ls : List (LatticeTriplet A)) : Prop :=
  ls.Pairwise fun l l' => ¬ (l.cell2 = l'.cell2 ∧ l.cell3 = l'.cell3 ∧ l.atom1 = l'.atom1 ∧ l.atom2 = l'.atom2 ∧ l.atom3 = l'.atom3)

/-- The wavevector fits the supercell: the phase along each edge of the supercell is a multiple of `2 pi`. -/
def FitsSupercell (N : V3 Int) (d : Mat3) (q : Fin 3 → ℝ) : Prop :=
  ∀ k, ∃ z : ℤ, (asFun N k : ℝ) * scal q (fun i => d i k) = 2 * Real.pi * z

/-- The cells of the supercell. -/
noncomputable def superCells (N : V3 Int) : Finset (Int × Int × Int) :=
  Finset.Ico 0 N.x ×ˢ (Finset.Ico 0 N.y ×ˢ Finset.Ico 0 N.z)

/-- The coupling of the crystal: the sum over the atoms of the home cell and all pairs of atoms of the supercell of the force constants (times `conv`),
displacements and phases. -/
noncomputable def superCoupling {A : Nat} (N : V3 Int) (d : Mat3) (conv : ℝ) (Phi : ForceConstants A) (s : ℝ) (q2 q3 : Fin 3 → ℝ)
    (e1 e2 e3 : Nat → ℂ) : ℂ :=
  ∑ b1 : Fin A, ∑ i : Fin 3, ∑ b2 : Fin A, ∑ j : Fin 3, ∑ b3 : Fin A, ∑ k : Fin 3,
    e1 (3 * b1 + i) * e2 (3 * b2 + j) * (starRingEnd ℂ) (e3 (3 * b3 + k)) *
    ∑ n ∈ superCells N, ∑ m ∈ superCells N, ((Phi b1 b2 ⟨n.1, n.2.1, n.2.2⟩ b3 ⟨m.1, m.2.1, m.2.2⟩ i j k * conv : ℝ) : ℂ) *
      Complex.exp (Complex.I * ((s * scal q2 (latVec d ⟨n.1, n.2.1, n.2.2⟩) - scal q3 (latVec d ⟨m.1, m.2.1, m.2.2⟩) : ℝ) : ℂ))

/-- `t` holds, for all bands, the squared modulus of the coupling of the crystal. -/
def IsSuperCoupling {A : Nat} (t : Tensor3) (nb1 nb2 nb3 : Nat) (N : V3 Int) (d : Mat3) (conv : ℝ) (Phi : ForceConstants A) (s : ℝ)
    (q2 q3 : Fin 3 → ℝ) (e1 e2 e3 : Nat → Nat → ℂ) : Prop :=
  t.d0 = nb1 ∧ t.d1 = nb2 ∧ t.d2 = nb3 ∧ ∀ b1 < nb1, ∀ b2 < nb2, ∀ b3 < nb3,
    t.val b1 b2 b3 = Complex.normSq (superCoupling N d conv Phi s q2 q3 (fun a => e1 a b1) (fun a => e2 a b2) (fun a => e3 a b3))

/-- Each cell has one image, not more than a supercell away, that is strictly nearer to the home cell than all its other images: the supercell is compact and no
image lies on the border of its Wigner-Seitz cell. -/
def NearestInside (a : Fin 3 → Fin 3 → ℝ) (t : Fin 3 → ℝ) (N : V3 Int) : Prop :=
  ∀ n : V3 Int, ∃ n0 : V3 Int, SameImage N n0 n ∧ (-N.x ≤ n0.x ∧ n0.x < N.x) ∧ (-N.y ≤ n0.y ∧ n0.y < N.y) ∧ (-N.z ≤ n0.z ∧ n0.z < N.z) ∧
    ∀ g : Fin 3 → ℤ, g ≠ 0 → dist2 a t (asFun n0) < dist2 a t (fun k => asFun n0 k - asFun N k * g k)

end Verif.Spec
