import Mathlib.Data.Real.Basic
import Mathlib.Algebra.Field.Basic

/-!
# Filling of the bands of a calculation
-/
namespace Verif.Spec

/-- Electrons that a band holds at each wavevector: one if the bands are resolved in spin (spin-orbit coupling), else two. -/
def electronsPerState (spinOrbit : Bool) : ℝ := if spinOrbit then 1 else 2

/-- Occupied states per wavevector, among the bands that are left when `removed` full bands are taken away from a calculation
with `nelec` electrons in the cell. -/
noncomputable def fillingLeft (nelec : ℝ) (spinOrbit : Bool) (removed : ℝ) : ℝ :=
  (nelec - electronsPerState spinOrbit * removed) / electronsPerState spinOrbit

end Verif.Spec
