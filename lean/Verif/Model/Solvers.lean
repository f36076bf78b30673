import Verif.Model.Transport

/-!
# Solvers of the Boltzmann transport equation

src/apps/phonon_transport_app.cpp, src/apps/electron_wannier_transport_app.cpp and the functions of
src/observable/phonon_thermal_cond.cpp and onsager.cpp that they call.  The products with the scattering matrix are
parameters (they are modelled in `Verif.Model.ScatMatrix`); vectors and tensors are the same on all the processes, so that
one copy is followed.  Three dimensions.
-/
namespace Verif.Model

/-- The entries of `((x - xRef) / xRef).abs()`, src/utilities.cpp L87, that can be smaller than another number: where the
reference is zero the quotient is infinite or not a number. -/
noncomputable def relativeEntries (numCalc : Nat) (x xRef : Nat → Mat3) : List ℝ :=
  ((List.range numCalc).flatMap fun c => (List.finRange 3).flatMap fun i => (List.finRange 3).filterMap fun j =>
    if xRef c i j = 0 then none else some |(x c i j - xRef c i j) / xRef c i j|)

/-- `findMaxRelativeDifference(x, xRef)`, src/utilities.cpp L80-102. -/
noncomputable def relativeChange (numCalc : Nat) (x xRef : Nat → Mat3) : Outcome ℝ :=
  findMaxRelativeDifference (1e20 : ℝ) (relativeEntries numCalc x xRef)

/-! ## Canonical populations -/

/-- The elements of `v` multiplied by `g(calculation, energy)`: the loops of `canonical2Population` and
`population2Canonical`, src/bte/vector_bte.cpp L292-329.  `bteEnergy` is the energy of a state in BTE order. -/
noncomputable def scaleByState (bteEnergy : Nat → ℝ) (g : Nat → ℝ → ℝ) (v : VBte ℝ) : VBte ℝ :=
  ⟨v.numChemPots, v.numTemps, v.dim, v.numStates, fun row s => v.data row s * g (row / v.dim) (bteEnergy s), v.exclude⟩

/-- `n(n+1)` in a calculation. -/
noncomputable def bosePop (stat : Nat → CalcStat) (iCalc : Nat) (en : ℝ) : ℝ :=
  getPopPopPm1 .bose en (stat iCalc).temp (stat iCalc).chemPot

/-- `canonical2Population`, src/bte/vector_bte.cpp L292-309, for phonons. -/
noncomputable def canonical2Population (bteEnergy : Nat → ℝ) (stat : Nat → CalcStat) (v : VBte ℝ) : VBte ℝ :=
  scaleByState bteEnergy (bosePop stat) v

/-- `population2Canonical`, src/bte/vector_bte.cpp L311-329, for phonons (fermions are refused, L313-315). -/
noncomputable def population2Canonical (bteEnergy : Nat → ℝ) (stat : Nat → CalcStat) (v : VBte ℝ) : VBte ℝ :=
  scaleByState bteEnergy (fun c e => 1 / bosePop stat c e) v

/-- `calcFromCanonicalPopulation`, src/observable/phonon_thermal_cond.cpp L58-62, in three dimensions, on the first process. -/
noncomputable def phCanonicalCond (B : BandView) (numPoints : Nat) (volume : ℝ) (bteEnergy : Nat → ℝ) (stat : Nat → CalcStat)
    (junk : Nat → Nat → Mat3 → Vec3) (size : Nat) (sched : Nat → List (List Nat)) (f : VBte ℝ) : Nat → Mat3 :=
  (phTensor B 3 numPoints volume (canonical2Population bteEnergy stat f) junk size sched).headD (fun _ => 0)

/-! ## Iterative solver -/

/-- One step, src/apps/phonon_transport_app.cpp L218-219 and src/apps/electron_wannier_transport_app.cpp L514-519: `off` is
`offDiagonalDot`, `diag` the diagonal or the linewidths. -/
noncomputable def ominiStep (off : VBte ℝ → VBte ℝ) (diag rta old : VBte ℝ) : Outcome (VBte ℝ) := do
  let next ← (off old).baseOperator (· / ·) diag
  rta.baseOperator (· - ·) next

/-- The loop over iterations for phonons, src/apps/phonon_transport_app.cpp L216-240, with `left` iterations left: the
conductivities printed, in order.  `cond` is `calcFromCanonicalPopulation`. -/
noncomputable def phOminiLoop (off : VBte ℝ → VBte ℝ) (diag rta : VBte ℝ) (cond : VBte ℝ → Nat → Mat3) (numCalc : Nat)
    (threshold : ℝ) : Nat → VBte ℝ → (Nat → Mat3) → List (Nat → Mat3) → Outcome (List (Nat → Mat3))
  | 0, _, _, printed => .ok printed
  | left + 1, old, condOld, printed => do
    let next ← ominiStep off diag rta old
    let printed := printed ++ [cond next]
    let diff ← relativeChange numCalc (cond next) condOld
    if diff < threshold then .ok printed
    else if left = 0 then .error
    else phOminiLoop off diag rta cond numCalc threshold left next (cond next) printed

/-- The iterative solver of the phonon app, src/apps/phonon_transport_app.cpp L197-246: the conductivity printed at the
end, on the screen and in the file.  `condRTA` is the conductivity of the relaxation time approximation, computed before. -/
noncomputable def phOmini (off : VBte ℝ → VBte ℝ) (diag popRTA : VBte ℝ) (bteEnergy : Nat → ℝ) (stat : Nat → CalcStat)
    (cond : VBte ℝ → Nat → Mat3) (condRTA : Nat → Mat3) (threshold : ℝ) (maxIter : Nat) : Outcome (Nat → Mat3) := do
  let rta := population2Canonical bteEnergy stat popRTA
  let printed ← phOminiLoop off diag rta cond popRTA.numCalc threshold maxIter rta condRTA []
  return printed.getLastD condRTA

/-- The loop over iterations for electrons, src/apps/electron_wannier_transport_app.cpp L507-542; `cond` gives the
electrical and thermal conductivities of the two populations. -/
noncomputable def elOminiLoop (off : VBte ℝ → VBte ℝ) (width rtaE rtaT : VBte ℝ)
    (cond : VBte ℝ → VBte ℝ → (Nat → Mat3) × (Nat → Mat3)) (numCalc : Nat) (threshold : ℝ) :
    Nat → VBte ℝ × VBte ℝ → (Nat → Mat3) × (Nat → Mat3) → Outcome (VBte ℝ × VBte ℝ)
  | 0, old, _ => .ok old
  | left + 1, old, condOld => do
    let nextE ← ominiStep off width rtaE old.1
    let nextT ← ominiStep off width rtaT old.2
    let c := cond nextE nextT
    let dE ← relativeChange numCalc c.1 condOld.1
    let dT ← relativeChange numCalc c.2 condOld.2
    if dE < threshold ∧ dT < threshold then .ok (nextE, nextT)
    else if left = 0 then .error
    else elOminiLoop off width rtaE rtaT cond numCalc threshold left (nextE, nextT) c

/-! ## Variational solver -/

/-- A rotation with indices of type `Nat`. -/
def matNat (R : Mat3) : Nat → Nat → ℝ := fun i j =>
  if h : i < 3 ∧ j < 3 then R ⟨i, h.1⟩ ⟨j, h.2⟩ else 0

/-- `x.dot(y)`, src/bte/vector_bte.cpp L66-111, on the first process. -/
noncomputable def bteDot (B : BandView) (size : Nat) (x y : VBte ℝ) : Outcome (Nat → Nat → ℝ) := do
  let res ← x.dot y B.irr B.toBte (fun is => (B.rots is).map matNat) size
  match res with
  | [] => .ub
  | f :: _ => .ok f

/-- `alpha` and `beta`, src/apps/phonon_transport_app.cpp L303-316 and L327-339: zero where the denominator is zero. -/
noncomputable def cgRatio (num den : Nat → Nat → ℝ) : Nat → Nat → ℝ := fun c i =>
  if den c i ≠ 0 then num c i / den c i else 0

/-- Population, residual and search direction. -/
structure CgState where
  f : VBte ℝ
  r : VBte ℝ
  d : VBte ℝ

/-- The start, src/apps/phonon_transport_app.cpp L270-283 and src/apps/electron_wannier_transport_app.cpp L309-329. -/
noncomputable def cgStart (mul : VBte ℝ → VBte ℝ) (b f : VBte ℝ) : Outcome CgState := do
  let r ← b.baseOperator (· - ·) (mul f)
  return ⟨f, r, r⟩

/-- One step, src/apps/phonon_transport_app.cpp L291-350 and src/apps/electron_wannier_transport_app.cpp L337-400; `mul` is
the product with the scattering matrix. -/
noncomputable def cgStep (mul : VBte ℝ → VBte ℝ) (dotp : VBte ℝ → VBte ℝ → Outcome (Nat → Nat → ℝ)) (s : CgState) :
    Outcome CgState := do
  let w := mul s.d
  let rr ← dotp s.r s.r
  let dw ← dotp s.d w
  let alpha := cgRatio rr dw
  let fNew ← (s.d.scaleCalc alpha).baseOperator (· + ·) s.f
  let rNew ← s.r.baseOperator (· - ·) (w.scaleCalc alpha)
  let rrNew ← dotp rNew rNew
  let beta := cgRatio rrNew rr
  let dNew ← (s.d.scaleCalc beta).baseOperator (· + ·) rNew
  return ⟨fNew, rNew, dNew⟩

/-- The contribution of state `is` to `y1` (with `y` the product `af`) or `y2` (with `y` the vector `b`),
src/observable/phonon_thermal_cond.cpp L169-201 and src/observable/onsager.cpp L741-783.  The index `is` of the state is
looked up in the list of excluded BTE indices. -/
noncomputable def variationalTerm (B : BandView) (norm : Nat → ℝ) (f y : VBte ℝ) (iCalc is : Nat) : Mat3 :=
  if is ∈ f.exclude then 0
  else
    ((B.rots is).map fun rot =>
      let fRot := matVec rot (vec3Of f iCalc (B.toBte is))
      let yRot := matVec rot (vec3Of y iCalc (B.toBte is))
      (fun i j => fRot i * yRot j * norm iCalc : Mat3)).foldr (· + ·) 0

/-- `calcVariational`, src/observable/phonon_thermal_cond.cpp L148-233 (`norm` is `1 / N / V * T * T`) and
src/observable/onsager.cpp L706-805 (`spin / N / V * T` for `sigma`, `spin / N / V * T * T` for `kappa`), on the first process. -/
noncomputable def calcVariational (B : BandView) (norm : Nat → ℝ) (size : Nat) (sched : Nat → List (List Nat))
    (af f b : VBte ℝ) (iCalc : Nat) : Mat3 :=
  let y1 := (stateSum size sched (variationalTerm B norm f af)).headD (fun _ => 0)
  let y2 := (stateSum size sched (variationalTerm B norm f b)).headD (fun _ => 0)
  (2 : ℝ) • y2 iCalc - y1 iCalc

/-- The loop for phonons, src/apps/phonon_transport_app.cpp L287-373: the conductivities printed, in order.  L353 passes the
new product `aF` with the population `f` of the previous step. -/
noncomputable def phCgLoop (mul : VBte ℝ → VBte ℝ) (dotp : VBte ℝ → VBte ℝ → Outcome (Nat → Nat → ℝ))
    (cond : VBte ℝ → VBte ℝ → VBte ℝ → Nat → Mat3) (b : VBte ℝ) (numCalc : Nat) (threshold : ℝ) :
    Nat → CgState → (Nat → Mat3) → List (Nat → Mat3) → Outcome (List (Nat → Mat3))
  | 0, _, _, printed => .ok printed
  | left + 1, s, condOld, printed => do
    let new ← cgStep mul dotp s
    let aF := mul new.f
    let c := cond aF s.f b
    let printed := printed ++ [c]
    let diff ← relativeChange numCalc c condOld
    if diff < threshold then .ok printed
    else if left = 0 then .error
    else phCgLoop mul dotp cond b numCalc threshold left new c printed

/-- The variational solver of the phonon app, src/apps/phonon_transport_app.cpp L248-385: the conductivities printed during
the iterations. -/
noncomputable def phVariational (mul : VBte ℝ → VBte ℝ) (B : BandView) (size : Nat) (sched : Nat → List (List Nat))
    (norm : Nat → ℝ) (b f0 : VBte ℝ) (condRTA : Nat → Mat3) (threshold : ℝ) (maxIter : Nat) :
    Outcome (List (Nat → Mat3)) := do
  let s ← cgStart mul b f0
  phCgLoop mul (bteDot B size) (calcVariational B norm size sched) b b.numCalc threshold maxIter s condRTA []

/-- The loop for electrons, src/apps/electron_wannier_transport_app.cpp L333-450, at iteration `iter`: the conductivities
`sigma` and `kappa` printed, in order, and the populations of the last step.  The new population goes with its own product. -/
noncomputable def elCgLoop (mul : VBte ℝ → VBte ℝ) (dotp : VBte ℝ → VBte ℝ → Outcome (Nat → Nat → ℝ))
    (condE condT : VBte ℝ → VBte ℝ → VBte ℝ → Nat → Mat3) (bE bT : VBte ℝ) (numCalc : Nat) (threshold : ℝ) :
    Nat → Nat → CgState × CgState → (Nat → Mat3) × (Nat → Mat3) → List ((Nat → Mat3) × (Nat → Mat3)) →
    Outcome (List ((Nat → Mat3) × (Nat → Mat3)) × VBte ℝ × VBte ℝ)
  | 0, _, s, _, printed => .ok (printed, s.1.f, s.2.f)
  | left + 1, iter, s, condOld, printed => do
    let newE ← cgStep mul dotp s.1
    let newT ← cgStep mul dotp s.2
    let c := (condE (mul newE.f) newE.f bE, condT (mul newT.f) newT.f bT)
    let printed := printed ++ [c]
    let deltaE ← relativeChange numCalc c.1 condOld.1
    let deltaT ← relativeChange numCalc c.2 condOld.2
    if deltaE < threshold ∧ deltaT < threshold ∧ iter > 2 then .ok (printed, newE.f, newT.f)
    else if left = 0 then .error
    else elCgLoop mul dotp condE condT bE bT numCalc threshold left (iter + 1) (newE, newT) c printed

/-- The variational solver of the electron app, src/apps/electron_wannier_transport_app.cpp L270-462, up to the final
`calcFromSymmetricPopulation`: the first guess is `b` itself; the conductivities start from one. -/
noncomputable def elVariational (mul : VBte ℝ → VBte ℝ) (B : BandView) (size : Nat) (sched : Nat → List (List Nat))
    (normE normT : Nat → ℝ) (bE bT : VBte ℝ) (threshold : ℝ) (maxIter : Nat) :
    Outcome (List ((Nat → Mat3) × (Nat → Mat3)) × VBte ℝ × VBte ℝ) := do
  let sE ← cgStart mul bE bE
  let sT ← cgStart mul bT bT
  elCgLoop mul (bteDot B size) (calcVariational B normE size sched) (calcVariational B normT size sched) bE bT bE.numCalc
    threshold maxIter 0 (sE, sT) (fun _ _ _ => 1, fun _ _ _ => 1) []

/-! ## Relaxons -/

/-- The test `eigenvalues(alpha) <= 0. || alpha >= numEigenvalues`, src/observable/phonon_thermal_cond.cpp L268-274 and
src/observable/onsager.cpp L349-351: the eigenvalue is read first. -/
noncomputable def keepRelaxon (lam : List ℝ) (alpha : Nat) : Outcome Bool :=
  match lam[alpha]? with
  | none => .ub
  | some l => .ok (if l ≤ 0 then false else decide (alpha < lam.length))

/-- The local states that are kept: pairs (state, relaxon). -/
noncomputable def keptStates (lam : List ℝ) : List (Nat × Nat) → Outcome (List (Nat × Nat))
  | [] => .ok []
  | t :: rest => do
    let k ← keepRelaxon lam t.2
    let r ← keptStates lam rest
    return if k then t :: r else r

/-- Sums over the local states of the threads of a process: `adds` gives the element to update and the amount. -/
noncomputable def relaxonAdds (threads : List (List (Nat × Nat))) (adds : Nat × Nat → Nat × ℝ) : Nat → ℝ :=
  threads.foldl (fun acc chunk => fun k => acc k +
    chunk.foldl (fun priv t => fun k => if k = (adds t).1 then priv k + (adds t).2 else priv k) (fun _ => 0) k) (fun _ => 0)

/-- `relaxonsPopulation` of one component, then the back rotation, without symmetries,
src/observable/phonon_thermal_cond.cpp L355-418 and src/observable/onsager.cpp L342-386.  `src` is the drift divided by the
square root of `n(n+1)`; `vec` the eigenvectors (state, relaxon); `sched p` the kept local states of the threads of process
`p`; the result is the element of every process after the sum over processes. -/
noncomputable def relaxonPopulation (lam : List ℝ) (vec : Nat → Nat → ℝ) (src : Nat → ℝ) (size : Nat)
    (sched sched' : Nat → List (List (Nat × Nat))) : List (Nat → ℝ) :=
  let fs := allReduceSum1 ((List.range size).map fun p =>
    relaxonAdds (sched p) fun t => (t.2, src t.1 * vec t.1 t.2 / lam.getD t.2 0))
  allReduceSum1 ((List.range size).map fun p =>
    relaxonAdds (sched' p) fun t => (t.1, vec t.1 t.2 * fs.getD p (fun _ => 0) t.2))

/-- The source of the relaxons for phonons, src/observable/phonon_thermal_cond.cpp L371-382. -/
noncomputable def phRelaxonSource (energy : Nat → ℝ) (vel : Nat → Vec3) (temp chemPot : ℝ) (i : Fin 3) (is : Nat) : ℝ :=
  if energy is > 0 then
    getDndt .bose (energy is) temp chemPot false / Real.sqrt (getPopPopPm1 .bose (energy is) temp chemPot) * vel is i
  else 0

/-- The source of the relaxons for electrons, src/observable/onsager.cpp L354-359 (force `E`). -/
noncomputable def elRelaxonSource (energy : Nat → ℝ) (vel : Nat → Vec3) (temp chemPot : ℝ) (i : Fin 3) (is : Nat) : ℝ :=
  -getDnde .fermi (energy is) temp chemPot true * vel is i

/-- The source of the relaxons for electrons, src/observable/onsager.cpp L360-361 (force `T`). -/
noncomputable def elRelaxonSourceT (energy : Nat → ℝ) (vel : Nat → Vec3) (temp chemPot : ℝ) (i : Fin 3) (is : Nat) : ℝ :=
  -getDndt .fermi (energy is) temp chemPot true * vel is i

/-- The population of phonons made from the relaxons, src/observable/phonon_thermal_cond.cpp L237-440: `states p` are the
local states of process `p`; the threads take them in the order `split p`, `split' p`. -/
noncomputable def phRelaxons (lam : List ℝ) (vec : Nat → Nat → ℝ) (energy : Nat → ℝ) (vel : Nat → Vec3) (temp chemPot : ℝ)
    (size : Nat) (states : Nat → List (Nat × Nat)) (split split' : Nat → List (Nat × Nat) → List (List (Nat × Nat)))
    (i : Fin 3) : Outcome (List (Nat → ℝ)) := do
  let kept ← mapOutcome (fun p => keptStates lam (states p)) (List.range size)
  let pop := relaxonPopulation lam vec (phRelaxonSource energy vel temp chemPot i) size
    (fun p => split p (kept.getD p [])) (fun p => split' p (kept.getD p []))
  return pop.map fun f => fun is =>
    if energy is > 0 then f is * Real.sqrt (getPopPopPm1 .bose (energy is) temp chemPot) else f is

/-- The symmetrised population of electrons made from the relaxons, src/observable/onsager.cpp L324-382, for the source `src`:
the loops are serial, and the test is made in both. -/
noncomputable def elRelaxons (lam : List ℝ) (vec : Nat → Nat → ℝ) (src : Nat → ℝ) (size : Nat)
    (states : Nat → List (Nat × Nat)) : Outcome (List (Nat → ℝ)) := do
  let kept ← mapOutcome (fun p => keptStates lam (states p)) (List.range size)
  let kept' ← mapOutcome (fun p => keptStates lam (states p)) (List.range size)
  return relaxonPopulation lam vec src size (fun p => [kept.getD p []]) (fun p => [kept'.getD p []])

/-- The populations `nE` and `nT` of component `i` before `calcFromSymmetricPopulation`, src/observable/onsager.cpp L324-384.
The loops do both forces at once; the model does one after the other. -/
noncomputable def elRelaxonPair (lam : List ℝ) (vec : Nat → Nat → ℝ) (energy : Nat → ℝ) (vel : Nat → Vec3) (temp chemPot : ℝ)
    (size : Nat) (states : Nat → List (Nat × Nat)) (i : Fin 3) : Outcome (List (Nat → ℝ) × List (Nat → ℝ)) := do
  let nE ← elRelaxons lam vec (elRelaxonSource energy vel temp chemPot i) size states
  let nT ← elRelaxons lam vec (elRelaxonSourceT energy vel temp chemPot i) size states
  return (nE, nT)

end Verif.Model
