import Verif.Model.PhRates
import Verif.Model.ScatMatrix
import Mathlib.Analysis.SpecialFunctions.Trigonometric.DerivHyp

/-!
# src/bte/el_scattering.cpp: rates of electron-phonon scattering

Floating-point numbers are modelled as real numbers.  The squared couplings, after their average over degenerate states
(`Verif.Model.Degeneracy`), are inputs.
-/
namespace Verif.Model

/-- An electron state as the rate formulas see it. -/
structure ElState where
  energy : ℝ
  velocity : Fin 3 → ℝ

/-- Constants of a calculation: `norm` (src/bte/el_scattering.cpp L63), `phononCutoff` (L126), the delta function,
temperature and chemical potential. -/
structure ElSetup where
  norm : ℝ
  phononCutoff : ℝ
  smearing : Smearing
  temperature : ℝ
  mu : ℝ

/-- `delta1`, src/bte/el_scattering.cpp L284-297. -/
noncomputable def elDelta1 (sm : Smearing) (s1 s2 : ElState) (e3 : ℝ) : ℝ :=
  match sm with
  | .gaussian w => gaussianSmearing w (s1.energy - s2.energy + e3)
  | .adaptive c q => adaptiveSmearing c q (s1.energy - s2.energy + e3) (fun i => s1.velocity i - s2.velocity i)
  | .tetra f => f (e3 + s1.energy)

/-- `delta2`, src/bte/el_scattering.cpp L284-297. -/
noncomputable def elDelta2 (sm : Smearing) (s1 s2 : ElState) (e3 : ℝ) : ℝ :=
  match sm with
  | .gaussian w => gaussianSmearing w (s1.energy - s2.energy - e3)
  | .adaptive c q => adaptiveSmearing c q (s1.energy - s2.energy - e3) (fun i => s1.velocity i - s2.velocity i)
  | .tetra f => f (e3 - s1.energy)

/-- The tests that skip a process, src/bte/el_scattering.cpp L279-282 and L299-301. -/
noncomputable def elSkipped (p : ElSetup) (s1 s2 : ElState) (e3 : ℝ) : Bool :=
  if e3 < p.phononCutoff then true
  else decide (elDelta1 p.smearing s1 s2 e3 ≤ 0 ∧ elDelta2 p.smearing s1 s2 e3 ≤ 0)

/-- `rate`, src/bte/el_scattering.cpp L307-318; zero when the process is skipped.  `fermi2` is the population of state
2 (L87-108) and `bose3` that of the phonon (src/bte/helper_el_scattering.cpp L265, L323). -/
noncomputable def elRate (p : ElSetup) (coupling : ℝ) (s1 s2 : ElState) (e3 : ℝ) : ℝ :=
  if elSkipped p s1 s2 e3 then 0
  else
    let fermi2 := getPopulation .fermi s2.energy p.temperature p.mu
    let bose3 := getPopulation .bose e3 p.temperature 0
    coupling * ((fermi2 + bose3) * elDelta1 p.smearing s1 s2 e3 + (1 - fermi2 + bose3) * elDelta2 p.smearing s1 s2 e3)
      * p.norm / e3 * Real.pi

/-- `sinh3Data`, src/bte/el_scattering.cpp L253-261. -/
noncomputable def elBose3Symm (e3 kT : ℝ) : ℝ := 0.5 / Real.sinh (0.5 * e3 / kT)

/-- `rateOffDiagonal`, src/bte/el_scattering.cpp L320-322; zero when the process is skipped. -/
noncomputable def elRateOff (p : ElSetup) (coupling : ℝ) (s1 s2 : ElState) (e3 : ℝ) : ℝ :=
  if elSkipped p s1 s2 e3 then 0
  else -(coupling * elBose3Symm e3 p.temperature *
    (elDelta1 p.smearing s1 s2 e3 + elDelta2 p.smearing s1 s2 e3) * p.norm / e3 * Real.pi)

/-- One scattering process: BTE indices and states of the two electrons, energy of the phonon and squared coupling. -/
structure ElProcess where
  b1 : Nat
  b2 : Nat
  s1 : ElState
  s2 : ElState
  e3 : ℝ
  coupling : ℝ

/-- One pass through the loops of src/bte/el_scattering.cpp L264-386 without symmetries (`rotation` is the identity and
BTE indices are state indices). -/
noncomputable def elEvent (p : ElSetup) (t : ElProcess) : ScatEvent ℝ :=
  ⟨t.b1, t.b2, t.b1, t.b2, fun i j => if i = j then 1 else 0, elRate p t.coupling t.s1 t.s2 t.e3,
    elRateOff p t.coupling t.s1 t.s2 t.e3⟩

/-- The test before the loops, src/bte/el_scattering.cpp L110-115: the tetrahedron scheme is refused.  The product of
the scattering matrix with a vector, computed on the fly by processes with the given lists of scattering processes. -/
noncomputable def elProduct (p : ElSetup) (n : Nat) (boundary : Nat → ℝ) (procs : List (List ElProcess))
    (inp : Nat → Nat → ℝ) : Outcome (List (Nat → Nat → ℝ)) :=
  match p.smearing with
  | .tetra _ => .error
  | _ => .ok (buildProduct n [] boundary (procs.map fun l => l.map (elEvent p)) inp)

end Verif.Model
