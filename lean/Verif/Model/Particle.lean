import Mathlib.Analysis.SpecialFunctions.Exp
import Mathlib.Analysis.SpecialFunctions.Trigonometric.Deriv
import Mathlib.Analysis.SpecialFunctions.Pow.NNReal

/-!
# src/particle.cpp

Floating-point numbers are modelled as real numbers (no rounding, no overflow): see DESIGN.md.
Division by zero, an infinity in C++, is `0` in Lean: theorems exclude it by hypothesis.
-/
namespace Verif.Model

/-- `statistics`, src/particle.cpp L5-15: phonons are bosons, electrons are fermions. -/
inductive Statistics where
  | bose
  | fermi
deriving DecidableEq

/-- `Particle::getPopulation`, src/particle.cpp L64-96. -/
noncomputable def getPopulation (s : Statistics) (energy temperature mu : ℝ) : ℝ :=
  if temperature ≤ 0 then (if energy ≤ mu then 1 else 0)
  else
    let y := (energy - mu) / temperature
    match s with
    | .bose =>
      let population := 1 / (Real.exp y - 1)
      if population < 0 then 0 else population
    | .fermi =>
      let population := 1 / (Real.exp y + 1)
      let population := if population < 0 then 0 else population
      if population > 1 then 1 else population

/-- `Particle::getPopPopPm1`, src/particle.cpp L117-128. -/
noncomputable def getPopPopPm1 (s : Statistics) (energy temperature mu : ℝ) : ℝ :=
  let x := energy - mu
  let arg := x / 2 / temperature
  let x := match s with
    | .bose => Real.sinh arg
    | .fermi => Real.cosh arg
  0.25 / x / x

/-- `Particle::getDndt`, src/particle.cpp L98-106. -/
noncomputable def getDndt (s : Statistics) (energy temperature mu : ℝ) (symmetrize : Bool) : ℝ :=
  let x := getPopPopPm1 s energy temperature mu
  let x := if symmetrize then Real.sqrt x else x
  let y := energy - mu
  x * y / temperature / temperature

/-- `Particle::getDnde`, src/particle.cpp L108-115. -/
noncomputable def getDnde (s : Statistics) (energy temperature mu : ℝ) (symmetrize : Bool) : ℝ :=
  let x := getPopPopPm1 s energy temperature mu
  let x := if symmetrize then Real.sqrt x else x
  let dnde := -x / temperature
  dnde

end Verif.Model
