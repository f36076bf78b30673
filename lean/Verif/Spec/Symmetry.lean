import Verif.Model.Points

/-! Specification vocabulary for points, lattices and symmetry groups (independent of the algorithms). -/
namespace Verif.Props
open Verif.Model

/-- The point translated by a reciprocal lattice vector (crystal coordinates). -/
def translate (p : V3 Rat) (g : V3 Int) : V3 Rat := ⟨p.x + g.x, p.y + g.y, p.z + g.z⟩

/-- Two points that differ by a reciprocal lattice vector. -/
def Equivalent (p q : V3 Rat) : Prop := ∃ g : V3 Int, p = translate q g

/-- The identity matrix. -/
def M3.one : M3 := ⟨⟨1, 0, 0⟩, ⟨0, 1, 0⟩, ⟨0, 0, 1⟩⟩

/-- `rots` is a finite group of lattice-preserving matrices with the identity first. -/
structure IsPointGroup (rots : List M3) : Prop where
  id_first : rots.head? = some M3.one
  integral : ∀ R ∈ rots, ∀ g : V3 Int, ∃ h : V3 Int, R.mulVec g.cast = h.cast
  closed : ∀ R ∈ rots, ∀ S ∈ rots, ∃ T ∈ rots, ∀ v, T.mulVec v = S.mulVec (R.mulVec v)
  inverse : ∀ R ∈ rots, ∃ S ∈ rots, ∀ v, S.mulVec (R.mulVec v) = v

/-- Points `i` and `j` of a list are related by some symmetry. -/
def SymRelated (rots : List M3) (coords : Nat → V3 Rat) (i j : Nat) : Prop :=
  ∃ R ∈ rots, Equivalent (R.mulVec (coords i)) (coords j)

/-- A lookup function is right about point `p`: it returns the index of the stored point equivalent to `p`
if there is one, and -1 if there is none. -/
def LookupCorrect (n : Nat) (coords : Nat → V3 Rat) (lookup : V3 Rat → Outcome Int) (p : V3 Rat) : Prop :=
  (∀ j, j < n → Equivalent p (coords j) → lookup p = .ok (j : Int)) ∧
  ((∀ j, j < n → ¬ Equivalent p (coords j)) → lookup p = .ok (-1))

end Verif.Props
