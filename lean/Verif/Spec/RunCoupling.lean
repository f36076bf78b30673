import Verif.Spec.ElPhWrite
import Verif.Model.RunCoupling

/-! Where the tensor is before it is written (C191). -/
namespace Verif.Spec
open Verif.Model

variable {E P M W : Nat}

/-- The tensor is in the memory of the processes that write: either each has its share, of at most 10^9 bytes, or each has all of it, at
most 2^31 - 1 elements. -/
def HeldByWriters (d : ElPhData E P M W) (size : Nat) (mems : Nat → Nat × List ℂ) : Prop :=
  (2 ≤ size ∧ Distributed (tensorMemory d) E (W * W * M * P) size mems ∧
    ∀ r < size, ∀ w, divideWorkIter E r size = .ok w → w.length * (W * W * M * P) * 16 ≤ 1000000000) ∨
  (0 < size ∧ Replicated (tensorMemory d) E (W * W * M * P) size mems ∧ E * (W * W * M * P) ≤ 2147483647)

end Verif.Spec
