import Verif.Spec.XmlBands
import Verif.Spec.CouplingFile
import Verif.Spec.RotationFile

/-!
# Specification: the wavevectors of the files of a conversion
-/
namespace Verif.Spec
open Verif.Model (V3)

/-- Crystal coordinates of the wavevector of a mesh with components `k`. -/
def gridCoordinates (n : Fin 3 → Nat) (k : (i : Fin 3) → Fin (n i)) : V3 Rat := ⟨(k 0 : ℕ) / n 0, (k 1 : ℕ) / n 1, (k 2 : ℕ) / n 2⟩

/-- Crystal coordinates of the sum of two wavevectors of two meshes. -/
def sumOfPoints (nk nq : Fin 3 → Nat) (k : (i : Fin 3) → Fin (nk i)) (q : (i : Fin 3) → Fin (nq i)) : V3 Rat :=
  ⟨(gridCoordinates nk k).x + (gridCoordinates nq q).x, (gridCoordinates nk k).y + (gridCoordinates nq q).y,
    (gridCoordinates nk k).z + (gridCoordinates nq q).z⟩

/-- Equal up to reciprocal lattice vectors and the rounding to ten decimals. -/
def IsPoint (n : Fin 3 → Nat) (p : V3 Rat) (k : (i : Fin 3) → Fin (n i)) : Prop := SamePoint (1 / 10000000000) p (gridCoordinates n k)

/-- The list has each wavevector of the mesh once, in any order: `pos w` is the one at place `w`. -/
def ListsGrid (n : Fin 3 → Nat) (ks : List (V3 Rat)) (pos : Nat → (i : Fin 3) → Fin (n i)) : Prop :=
  (∀ w, w < ks.length → IsPoint n (ks.getD w ⟨0, 0, 0⟩) (pos w)) ∧ ∀ k, ∃! w, w < ks.length ∧ pos w = k

/-- The files of the stars have each wavevector of the mesh once: `pos a i` is the one at place `i` of file `a`. -/
def StarsGrid (n : Fin 3 → Nat) (stars : List StarContent) (pos : Nat → Nat → (i : Fin 3) → Fin (n i)) : Prop :=
  (∀ a (ha : a < stars.length) i (hi : i < stars[a].crystal.length), ∃ p : V3 Rat,
    stars[a].crystal[i] = ⟨(p.x : ℝ), (p.y : ℝ), (p.z : ℝ)⟩ ∧ IsPoint n p (pos a i)) ∧
  (∀ q, ∃ a, ∃ ha : a < stars.length, ∃ i < stars[a].crystal.length, pos a i = q) ∧
  ∀ a (ha : a < stars.length) i, i < stars[a].crystal.length → ∀ b (hb : b < stars.length) j, j < stars[b].crystal.length →
    pos a i = pos b j → a = b ∧ i = j

end Verif.Spec
