import Mathlib.Algebra.Order.Field.Basic
import Mathlib.Algebra.Order.AbsoluteValue.Basic

/-!
# Blocks of degenerate bands

Independent of the model.
-/
namespace Verif.Spec

/-- `l` lists the blocks (first band and number of bands) of the bands `s, ..., n-1` with energies `en`: the blocks
follow each other without gaps; the bands of a block differ from its first one by no more than `threshold`, and the band
after the block differs by more. -/
def BlocksFrom {α : Type} [Field α] [LinearOrder α] (en : Nat → α) (threshold : α) (n : Nat) : Nat → List (Nat × Nat) → Prop
  | s, [] => s = n
  | s, (a, d) :: l => a = s ∧ 1 ≤ d ∧ s + d ≤ n ∧ (∀ j, s < j → j < s + d → |en s - en j| ≤ threshold) ∧
      (s + d < n → threshold < |en s - en (s + d)|) ∧ BlocksFrom en threshold n (s + d) l

/-- The blocks of all `n` bands. -/
def Blocks {α : Type} [Field α] [LinearOrder α] (en : Nat → α) (threshold : α) (n : Nat) (l : List (Nat × Nat)) : Prop :=
  BlocksFrom en threshold n 0 l

end Verif.Spec
