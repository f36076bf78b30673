import Verif.Model.PhononDos
import Verif.Spec.PhononRun
import Verif.Spec.Times

/-!
# The phonon density of states of a file: what the run is given
-/
namespace Verif.Spec
open Verif.Model

/-- The external calls and the input of the run are as they should be. -/
structure GoodPhononDos (D : PhononDosRun) (A : ℕ) : Prop where
  constants : GoodConstants D.k
  solver : ∀ d : DynM A, d.IsHermitian → IsEigenDecomposition d (D.eig A d).1 (D.eig A d).2
  arrange : ∀ l, (D.arrange l).Perm l
  wrap : ∀ cell q, SameModLattice cell.reciprocal (D.wrap cell q) q
  batch : 0 < D.batchSize
  sched : ∀ rank, GoodSched (D.sched rank)
  step : 0 < D.delta
  window : D.minEnergy ≤ D.maxEnergy

end Verif.Spec
