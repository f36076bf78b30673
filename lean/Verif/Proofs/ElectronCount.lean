import Verif.Model.ElectronCount
import Verif.Spec.ElectronCount
import Verif.Proofs.Bands
import Verif.Proofs.ElFourier
import Mathlib.Tactic.Ring
import Mathlib.Tactic.NormNum

namespace Verif.Model

theorem truncToInt_cast (z : Int) (h1 : intMin ≤ z) (h2 : z ≤ intMax) : truncToInt (z : ℝ) = .ok z := by
  unfold truncToInt
  rw [Int.floor_intCast, Int.ceil_intCast, ite_self]
  exact i32_ok h1 h2

end Verif.Model
