import Verif.Model.WannierDos
import Verif.Spec.WannierRun
import Verif.Spec.DosApp
import Verif.Spec.Times

/-!
# The density of states of a file of Wannier90: what the run is given
-/
namespace Verif.Spec
open Verif.Model

/-- The external calls and the input of the run are as they should be, for `W` functions. -/
structure GoodWannierDos (D : WannierDosApp) (W : ℕ) : Prop where
  constants : GoodConstants D.k
  bohr : D.ang ≠ 0
  atoms : KnownAtoms D.names D.species D.positions
  solver : ∀ d : Matrix (Fin W) (Fin W) ℂ, d.IsHermitian → IsEigenDecomposition d (D.eig W d).1 (D.eig W d).2
  batch : ∀ rank, 0 < D.batchSize rank
  sched : ∀ rank l, (D.sched rank l).Perm l
  step : 0 < D.delta
  window : D.minEnergy ≤ D.maxEnergy
  points : (D.mesh.x * D.mesh.y * D.mesh.z).toNat ≤ 1073741823

end Verif.Spec
