import Verif.Model.Transport
import Mathlib.Algebra.Order.Monoid.Unbundled.WithTop
import Mathlib.Data.Complex.Basic
import Mathlib.Analysis.SpecialFunctions.Exp

/-!
# Corrections of the Wigner transport equation

src/observable/wigner_phonon_thermal_cond.cpp, wigner_electron.cpp.  Numbers of type `double` are real numbers (exact
arithmetic), except where the code may divide by zero: there `⊤` stands for a number that is infinite or not a number,
and what is added to it stays so.
-/
namespace Verif.Model

/-- What the corrections read of the band structure, at a wavevector: `getEnergies`, `getVelocities`, the index in the BTE
of the states of the corresponding irreducible wavevector, `getRotationsStar` and the irreducible wavevectors. -/
structure PointView where
  numBands : Nat → Nat
  energy : Nat → Nat → ℝ
  vel : Nat → Nat → Nat → Fin 3 → ℂ
  toBte : Nat → Nat → Nat
  rots : Nat → List Mat3
  irr : List Nat

/-- The quotient `1. / x` of a relaxation time: `x = ⊤` is an infinite time (the quotient of a population by a linewidth
that is zero, src/bte/scattering.cpp L506), `x = 0` the time that `VectorBTE::reciprocal` leaves for a linewidth that is
zero, src/bte/vector_bte.cpp L281-285. -/
noncomputable def recipTime (x : WithTop ℝ) : WithTop ℝ :=
  match x with
  | none => 0
  | some t => if t = 0 then ⊤ else ((1 / t : ℝ) : WithTop ℝ)

/-! ## Phonons -/

/-- `bose`, src/observable/wigner_phonon_thermal_cond.cpp L50-63; `cutoff` is `0.1 / ryToCmm1`. -/
noncomputable def wignerBose (cutoff temp energy : ℝ) : ℝ :=
  if energy < cutoff then 0 else getPopulation .bose energy temp 0

/-- What a pair of bands adds, src/observable/wigner_phonon_thermal_cond.cpp L101-118.  If the sum of the inverse times is
infinite, the code computes `num / inf * inf`; if the denominator is zero, so is the sum of the inverse times, and the code
computes `num / 0 * 0`. -/
noncomputable def wignerPhPair (e1 e2 n1 n2 vel norm : ℝ) (tau1 tau2 : WithTop ℝ) : WithTop ℝ :=
  match recipTime tau1 + recipTime tau2 with
  | none => ⊤
  | some g =>
    let num := e1 * n1 * (n1 + 1) + e2 * n2 * (n2 + 1)
    let den := 4 * (e1 - e2) ^ 2 + g ^ 2
    if den = 0 then ⊤ else (((e1 + e2) * vel * num / den * g * norm : ℝ) : WithTop ℝ)

/-- `velRot`, src/observable/wigner_phonon_thermal_cond.cpp L73-83. -/
noncomputable def rotateComplex (rot : Mat3) (v : Fin 3 → ℂ) : Fin 3 → ℂ := fun i =>
  (rot i 0 : ℂ) * v 0 + (rot i 1 : ℂ) * v 1 + (rot i 2 : ℂ) * v 2

/-- The contribution of an irreducible wavevector, src/observable/wigner_phonon_thermal_cond.cpp L42-122: element
`(ic1, ic2)`, that exists below the dimensionality. -/
noncomputable def wignerPhTerm (P : PointView) (cutoff volume : ℝ) (numPoints : Nat) (stat : Nat → CalcStat)
    (tau : Nat → Nat → WithTop ℝ) (iCalc iq : Nat) : Fin 3 → Fin 3 → WithTop ℝ := fun ic1 ic2 =>
  let temp := (stat iCalc).temp
  let norm := 1 / numPoints / volume / temp / temp / 2
  let bands := List.range (P.numBands iq)
  ((P.rots iq).map fun rot => (bands.map fun ib1 => (bands.map fun ib2 =>
    if ib1 = ib2 then (0 : WithTop ℝ)
    else
      let vel := (rotateComplex rot (P.vel iq ib1 ib2) ic1 * rotateComplex rot (P.vel iq ib2 ib1) ic2).re
      wignerPhPair (P.energy iq ib1) (P.energy iq ib2) (wignerBose cutoff temp (P.energy iq ib1))
        (wignerBose cutoff temp (P.energy iq ib2)) vel norm (tau iCalc (P.toBte iq ib1)) (tau iCalc (P.toBte iq ib2))).sum).sum).sum

/-- `wignerCorrection` on every process, the constructor, src/observable/wigner_phonon_thermal_cond.cpp L5-124.
`parallelIrrPointsIterator` gives each process a slice of the irreducible wavevectors. -/
noncomputable def wignerPhonon (P : PointView) (cutoff volume : ℝ) (numPoints : Nat) (stat : Nat → CalcStat)
    (tau : Nat → Nat → WithTop ℝ) (size : Nat) : List (Nat → Fin 3 → Fin 3 → WithTop ℝ) :=
  stateSum size (fun r => [sliceOf P.irr r size]) (wignerPhTerm P cutoff volume numPoints stat tau)

/-! ## Electrons -/

/-- `fE`, src/observable/wigner_electron.cpp L73-81.  With equal energies the last quotient is `0 / 0`; with an infinite
inverse time the quotient by `xC` is zero. -/
noncomputable def wignerFE (e1 e2 f1 f2 : ℝ) (v : ℂ) (tau1 tau2 : WithTop ℝ) : WithTop ℂ :=
  if e1 = e2 then ⊤
  else match recipTime tau1 + recipTime tau2 with
  | none => 0
  | some g => ((-2 * v / ⟨g, 2 * (e1 - e2)⟩ * (((f1 - f2 : ℝ) : ℂ)) / (((e1 - e2 : ℝ) : ℂ)) : ℂ) : WithTop ℂ)

/-- `fT`, src/observable/wigner_electron.cpp L82-83. -/
noncomputable def wignerFT (e1 e2 dfdt1 dfdt2 : ℝ) (v : ℂ) (tau1 tau2 : WithTop ℝ) : WithTop ℂ :=
  match recipTime tau1 + recipTime tau2 with
  | none => 0
  | some g =>
    if g = 0 ∧ e1 = e2 then ⊤
    else ((2 * v / ⟨g, 2 * (e1 - e2)⟩ * ((dfdt1 + dfdt2 : ℝ) : ℂ) : ℂ) : WithTop ℂ)

/-- `xE` and `xT`, src/observable/wigner_electron.cpp L102-107, times the factor `c`. -/
noncomputable def wignerFlux (c : ℝ) (v12 v21 : ℂ) (f21 f12 : WithTop ℂ) : WithTop ℝ :=
  match f21, f12 with
  | some a, some b => ((c * (v12 * a + v21 * b).re : ℝ) : WithTop ℝ)
  | _, _ => ⊤

/-- The contribution of wavevector `ik` to `correctionLEE` and `correctionLTE` (`thermal = false`) or `correctionLET` and
`correctionLTT` (`thermal = true`), src/observable/wigner_electron.cpp L28-116; `w` is the factor of `xE` or `xT`. -/
noncomputable def wignerElTerm (P : PointView) (stat : Nat → CalcStat) (tau : Nat → Nat → WithTop ℝ) (thermal : Bool)
    (w : Nat → ℝ → ℝ) (iCalc ik : Nat) : Fin 3 → Fin 3 → WithTop ℝ := fun ic1 ic2 =>
  let temp := (stat iCalc).temp
  let mu := (stat iCalc).chemPot
  let bands := List.range (P.numBands ik)
  let f := fun (ib1 ib2 : Nat) (ic : Fin 3) =>
    let e1 := P.energy ik ib1
    let e2 := P.energy ik ib2
    let tau1 := tau iCalc (P.toBte ik ib1)
    let tau2 := tau iCalc (P.toBte ik ib2)
    if thermal then
      wignerFT e1 e2 (getDndt .fermi e1 temp mu false) (getDndt .fermi e2 temp mu false) (P.vel ik ib1 ib2 ic) tau1 tau2
    else
      wignerFE e1 e2 (getPopulation .fermi e1 temp mu) (getPopulation .fermi e2 temp mu) (P.vel ik ib1 ib2 ic) tau1 tau2
  (bands.map fun ib1 => (bands.map fun ib2 =>
    if ib1 = ib2 then (0 : WithTop ℝ)
    else wignerFlux (w iCalc (P.energy ik ib1)) (P.vel ik ib1 ib2 ic1) (P.vel ik ib2 ib1 ic1) (f ib2 ib1 ic2) (f ib1 ib2 ic2)).sum).sum

/-- One of the four corrections, on every process: the loop over all the wavevectors, src/observable/wigner_electron.cpp
L30-122. -/
noncomputable def wignerElSum (P : PointView) (numPoints : Nat) (stat : Nat → CalcStat) (tau : Nat → Nat → WithTop ℝ)
    (thermal : Bool) (w : Nat → ℝ → ℝ) (size : Nat) : List (Nat → Fin 3 → Fin 3 → WithTop ℝ) :=
  stateSum size (fun r => [sliceOf (List.range numPoints) r size]) (wignerElTerm P stat tau thermal w)

/-- `norm`, src/observable/wigner_electron.cpp L25-26; `meshSize` is the product of the mesh. -/
noncomputable def wignerElNorm (spin volume : ℝ) (meshSize : Nat) : ℝ := spin / meshSize / volume / 2

/-- `correctionLEE`, src/observable/wigner_electron.cpp L108. -/
noncomputable def wignerLEE (P : PointView) (numPoints meshSize : Nat) (spin volume : ℝ) (stat : Nat → CalcStat)
    (tau : Nat → Nat → WithTop ℝ) (size : Nat) : List (Nat → Fin 3 → Fin 3 → WithTop ℝ) :=
  wignerElSum P numPoints stat tau false (fun _ _ => wignerElNorm spin volume meshSize) size

/-- `correctionLET`, src/observable/wigner_electron.cpp L109. -/
noncomputable def wignerLET (P : PointView) (numPoints meshSize : Nat) (spin volume : ℝ) (stat : Nat → CalcStat)
    (tau : Nat → Nat → WithTop ℝ) (size : Nat) : List (Nat → Fin 3 → Fin 3 → WithTop ℝ) :=
  wignerElSum P numPoints stat tau true (fun _ _ => -wignerElNorm spin volume meshSize) size

/-- `correctionLTE`, src/observable/wigner_electron.cpp L110-111. -/
noncomputable def wignerLTE (P : PointView) (numPoints meshSize : Nat) (spin volume : ℝ) (stat : Nat → CalcStat)
    (tau : Nat → Nat → WithTop ℝ) (size : Nat) : List (Nat → Fin 3 → Fin 3 → WithTop ℝ) :=
  wignerElSum P numPoints stat tau false
    (fun iCalc e => -(wignerElNorm spin volume meshSize * (e - (stat iCalc).chemPot))) size

/-- `correctionLTT`, src/observable/wigner_electron.cpp L112-113. -/
noncomputable def wignerLTT (P : PointView) (numPoints meshSize : Nat) (spin volume : ℝ) (stat : Nat → CalcStat)
    (tau : Nat → Nat → WithTop ℝ) (size : Nat) : List (Nat → Fin 3 → Fin 3 → WithTop ℝ) :=
  wignerElSum P numPoints stat tau true
    (fun iCalc e => -(wignerElNorm spin volume meshSize * (e - (stat iCalc).chemPot))) size

end Verif.Model
