import Verif.Model.Delta
import Verif.Model.Particle

/-!
# Three-phonon, isotope and boundary rates, src/bte/ph_scattering.cpp

Floating-point numbers are modelled as real numbers.  The couplings are inputs.
-/
namespace Verif.Model

/-- A phonon state as the rate formulas see it: energy, velocity and population. -/
structure PhState where
  energy : ℝ
  velocity : Fin 3 → ℝ
  bose : ℝ

/-- `DeltaFunction`: the three schemes.  The tetrahedron weight of state 2 is a function of the energy (L181-270 of
src/delta_function.cpp, modelled by `tetraSmearing`). -/
inductive Smearing where
  | gaussian (width : ℝ)
  | adaptive (c : AdaptiveConsts) (q : Fin 3 → Fin 3 → ℝ)
  | tetra (weight : ℝ → ℝ)

/-- Energy cutoff test, src/bte/ph_scattering.cpp L345-354 and L474-483: `true` when the process is skipped. -/
noncomputable def cutOff (outerEqualInnerMesh : Bool) (energyCutoff e1 e2 e3 : ℝ) : Bool :=
  if outerEqualInnerMesh then decide (e1 < energyCutoff ∨ e2 < energyCutoff ∨ e3 < energyCutoff)
  else decide (e1 * e2 * e3 < energyCutoff)

/-- `deltaPlus`, src/bte/ph_scattering.cpp L356-365. -/
noncomputable def deltaPlus (sm : Smearing) (s1 s2 s3 : PhState) : ℝ :=
  match sm with
  | .gaussian w => gaussianSmearing w (s1.energy + s2.energy - s3.energy)
  | .adaptive c q => adaptiveSmearing c q (s1.energy + s2.energy - s3.energy) (fun i => s2.velocity i - s3.velocity i)
  | .tetra f => f (s3.energy - s1.energy)

/-- `deltaMinus1`, src/bte/ph_scattering.cpp L485-498, after L502. -/
noncomputable def deltaMinus1 (sm : Smearing) (s1 s2 s3 : PhState) : ℝ :=
  let d := match sm with
    | .gaussian w => gaussianSmearing w (s1.energy + s3.energy - s2.energy)
    | .adaptive c q => adaptiveSmearing c q (s1.energy + s3.energy - s2.energy) (fun i => s2.velocity i - s3.velocity i)
    | .tetra f => f (s1.energy + s3.energy)
  if d < 0 then 0 else d

/-- `deltaMinus2`, src/bte/ph_scattering.cpp L485-498, after L504. -/
noncomputable def deltaMinus2 (sm : Smearing) (s1 s2 s3 : PhState) : ℝ :=
  let d := match sm with
    | .gaussian w => gaussianSmearing w (s2.energy + s3.energy - s1.energy)
    | .adaptive c q => adaptiveSmearing c q (s2.energy + s3.energy - s1.energy) (fun i => s2.velocity i - s3.velocity i)
    | .tetra f => f (s1.energy - s3.energy)
  if d < 0 then 0 else d

/-- Constants of a calculation: mesh normalisation, cutoff and scheme. -/
structure PhSetup where
  norm : ℝ
  energyCutoff : ℝ
  outerEqualInnerMesh : Bool
  smearing : Smearing

/-- `ratePlus`, src/bte/ph_scattering.cpp L330-380; zero when the process is skipped (L345-354, L367-369). -/
noncomputable def ratePlus (p : PhSetup) (coupling : ℝ) (s1 s2 s3 : PhState) : ℝ :=
  let enProd := s1.energy * s2.energy * s3.energy
  if cutOff p.outerEqualInnerMesh p.energyCutoff s1.energy s2.energy s3.energy then 0
  else if deltaPlus p.smearing s1 s2 s3 ≤ 0 then 0
  else Real.pi * 0.25 * s1.bose * s2.bose * (s3.bose + 1) * coupling * deltaPlus p.smearing s1 s2 s3 * p.norm / enProd

/-- `rateMinus1`, src/bte/ph_scattering.cpp L458-515 (with both deltas zero the rate is zero, so the skip of L500 is
not modelled apart). -/
noncomputable def rateMinus1 (p : PhSetup) (coupling : ℝ) (s1 s2 s3 : PhState) : ℝ :=
  let enProd := s1.energy * s2.energy * s3.energy
  if cutOff p.outerEqualInnerMesh p.energyCutoff s1.energy s2.energy s3.energy then 0
  else Real.pi * 0.25 * s3.bose * s1.bose * (s2.bose + 1) * coupling * deltaMinus1 p.smearing s1 s2 s3 * p.norm / enProd

/-- `rateMinus2`, src/bte/ph_scattering.cpp L458-518. -/
noncomputable def rateMinus2 (p : PhSetup) (coupling : ℝ) (s1 s2 s3 : PhState) : ℝ :=
  let enProd := s1.energy * s2.energy * s3.energy
  if cutOff p.outerEqualInnerMesh p.energyCutoff s1.energy s2.energy s3.energy then 0
  else Real.pi * 0.25 * s2.bose * s3.bose * (s1.bose + 1) * coupling * deltaMinus2 p.smearing s1 s2 s3 * p.norm / enProd

/-- Off-diagonal element of the three-phonon matrix between states 1 and 2 without symmetries: the sum of L407 and
L542 over the third states, given with their couplings. -/
noncomputable def threePhononElement (p : PhSetup) (s1 s2 : PhState) (plus minus : List (PhState × ℝ)) : ℝ :=
  (plus.map fun t => ratePlus p t.2 s1 s2 t.1).sum -
    (minus.map fun t => rateMinus1 p t.2 s1 s2 t.1 + rateMinus2 p t.2 s1 s2 t.1).sum

/-- Isotope delta, src/bte/ph_scattering.cpp L684-693: in the adaptive scheme the second assignment (L689) discards
the first (L688). -/
noncomputable def deltaIso (sm : Smearing) (s1 s2 : PhState) : ℝ :=
  match sm with
  | .gaussian w => gaussianSmearing w (s1.energy - s2.energy)
  | .adaptive c q => adaptiveSmearing c q (s1.energy - s2.energy) s1.velocity * 0.5
  | .tetra f => f s1.energy

/-- Isotope rate, src/bte/ph_scattering.cpp L670-682 (cutoffs) and L695-713; `overlap` is the sum of L695-702. -/
noncomputable def rateIso (p : PhSetup) (overlap : ℝ) (s1 s2 : PhState) : ℝ :=
  if s1.energy < p.energyCutoff ∨ s2.energy < p.energyCutoff then 0
  else
    let termIso := overlap * (Real.pi * 0.5 * p.norm * s1.energy * s2.energy * deltaIso p.smearing s1 s2)
    termIso * (s1.bose * s2.bose + 0.5 * (s1.bose + s2.bose))

end Verif.Model
