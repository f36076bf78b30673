import Verif.Model.ElPhPlot

/-!
# Specification: the block of a pair of wavevectors in the file of couplings
-/
namespace Verif.Spec

variable {α : Type}

/-- Number of bands of a range. -/
def widthOf (r : Int × Int) : Nat := (r.2 - r.1 + 1).toNat

/-- The element at position `x` of the block of a pair: the bands of the first electron vary slowest, the modes fastest. -/
def plotElement (c : Nat → Nat → Nat → α) (r1 r2 r3 : Int × Int) (x : Nat) : α :=
  c (r1.1.toNat + x / (widthOf r2 * widthOf r3)) (r2.1.toNat + x % (widthOf r2 * widthOf r3) / widthOf r3)
    (r3.1.toNat + x % (widthOf r2 * widthOf r3) % widthOf r3)

end Verif.Spec
