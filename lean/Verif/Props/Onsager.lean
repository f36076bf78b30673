import Verif.Props.Transport

/-!
# C110: Onsager coefficients of electrons
-/
namespace Verif.Props
open Verif.Model Verif.Spec

/-- In three dimensions the four tensors are, on every process and whatever the number of processes and the schedule, sums
over the full mesh: the currents of particles (`ee`, `et`) and of heat (`te`, `tt`) carried by the two populations. -/
theorem C110_tensors_partial (B : BandView) (numPoints : Nat) (volume spin : ℝ) (nE nT : VBte ℝ) (stat : Nat → CalcStat)
    (size : Nat) (sched : Nat → List (List Nat)) (star : Nat → List Nat) (numStates : Nat)
    (hrun : MeshRun B size sched star numStates numPoints volume)
    (iCalc : Nat) (xE xT : Nat → Vec3) (hxE : Covariant B.irr B.rots star xE) (hxT : Covariant B.irr B.rots star xT)
    (hnE : ∀ is ∈ B.irr, ∀ i : Fin 3, nE.get iCalc i (B.toBte is) = xE is i)
    (hnT : ∀ is ∈ B.irr, ∀ i : Fin 3, nT.get iCalc i (B.toBte is) = xT is i) :
    ∃ out, onsagerTensors B 3 numPoints volume spin nE nT stat size sched = .ok out ∧ out.length = size ∧
      ∀ f ∈ out, ∀ i j : Fin 3,
        (f iCalc).ee i j = spin * crystalAverage numStates numPoints volume xE B.vel (fun _ => 1) i j ∧
        (f iCalc).et i j = spin * crystalAverage numStates numPoints volume xT B.vel (fun _ => 1) i j ∧
        (f iCalc).te i j = spin * crystalAverage numStates numPoints volume xE B.vel
          (fun s => B.energy s - (stat iCalc).chemPot) i j ∧
        (f iCalc).tt i j = spin * crystalAverage numStates numPoints volume xT B.vel
          (fun s => B.energy s - (stat iCalc).chemPot) i j := by
  refine ⟨_, if_neg (not_not.mpr (by unfold viewFits; exact le_rfl)), ?_, ?_⟩
  · simp
  · intro f hf i j
    obtain ⟨r, hr, rfl⟩ := List.mem_map.mp hf
    have hr' : r < size := List.mem_range.mp hr
    have mem : ∀ (term : Nat → Nat → Mat3), (stateSum size sched term).getD r 0 ∈ stateSum size sched term := by
      intro term
      have hl := (stateSum_val B.irr size hrun.procs hrun.fits sched hrun.schedule term).1
      rw [List.getD_eq_getElem?_getD, List.getElem?_eq_getElem (by rw [hl]; exact hr'), Option.getD_some]
      exact List.getElem_mem _
    have val : ∀ (n : VBte ℝ) (x : Nat → Vec3) (w : Nat → ℝ → ℝ), Covariant B.irr B.rots star x →
        (∀ is ∈ B.irr, ∀ i : Fin 3, n.get iCalc i (B.toBte is) = x is i) →
        ((stateSum size sched (fun iCalc => onsagerTerm B (spin / numPoints / volume) n (w iCalc) iCalc)).getD r 0) iCalc i j =
          spin * crystalAverage numStates numPoints volume x B.vel (fun s => w iCalc (B.energy s)) i j :=
      fun n x w hx hn => onsager_val B numPoints volume spin n w size sched hrun.procs hrun.fits hrun.schedule hrun.unfolding
        hrun.energies hrun.velocities iCalc x hx hn _ (mem _) i j
    exact ⟨val nE xE (fun _ _ => 1) hxE hnE, val nT xT (fun _ _ => 1) hxT hnT,
      val nE xE (fun c e => e - (stat c).chemPot) hxE hnE, val nT xT (fun c e => e - (stat c).chemPot) hxT hnT⟩

/-- The same tensors when the iterative solvers hand over symmetrised populations: every element is multiplied by
`sqrt(f(1-f))` of its state exactly once, although every process scales only the states that it owns. -/
theorem C110_symmetrised_partial (B : BandView) (numPoints : Nat) (volume spin : ℝ) (n : VBte ℝ) (stat : Nat → CalcStat)
    (w : Nat → ℝ → ℝ) (size : Nat) (sched : Nat → List (List Nat)) (star : Nat → List Nat) (numStates : Nat)
    (hrun : MeshRun B size sched star numStates numPoints volume) (hd : n.dim = 3)
    (iCalc : Nat) (hc : iCalc < n.numCalc) (z : Nat → Vec3) (hz : Covariant B.irr B.rots star z)
    (hn : ∀ is ∈ B.irr, ∀ i : Fin 3, n.get iCalc i (B.toBte is) = z is i) :
    (symmetricTensor B (spin / numPoints / volume) n w stat size sched).length = size ∧
    ∀ f ∈ symmetricTensor B (spin / numPoints / volume) n w stat size sched, ∀ i j : Fin 3,
      f iCalc i j = spin * crystalAverage numStates numPoints volume
        (fun s i => Real.sqrt (getPopPopPm1 .fermi (B.energy s) (stat iCalc).temp (stat iCalc).chemPot) * z s i) B.vel
        (fun s => w iCalc (B.energy s)) i j := by
  obtain ⟨h1, h2⟩ := symmetricTensor_val B numPoints volume spin n w stat size sched hrun.procs hrun.fits hrun.schedule
    hrun.bte hd hrun.unfolding hrun.energies hrun.velocities iCalc hc z hz hn
  refine ⟨h1, fun f hf i j => ?_⟩
  rw [h2 f hf i j]
  unfold crystalAverage
  congr 2
  apply Finset.sum_congr rfl
  intro s _; ring

/-- The weights and moments of the relaxation time approximation. -/
noncomputable abbrev rtaMoment (B : BandView) (numStates numPoints : Nat) (volume spin : ℝ) (stat : CalcStat) (t : Nat → ℝ)
    (p : Nat) : Mat3 :=
  moment (Finset.range numStates) (rtaWeight numPoints volume spin stat.temp stat.chemPot B.energy t)
    (fun s => B.energy s - stat.chemPot) B.vel p

/-- The coefficients of a run in the relaxation time approximation in terms of the moments. -/
theorem onsager_rta_moments (B : BandView) (numPoints : Nat) (volume spin toCm : ℝ) (stat : Nat → CalcStat)
    (driftE driftT tau : VBte ℝ) (size : Nat) (sched : Nat → List (List Nat)) (star : Nat → List Nat) (numStates : Nat)
    (hrun : MeshRun B size sched star numStates numPoints volume)
    (hdim : driftE.dim = 3 ∧ driftT.dim = 3 ∧ tau.dim = 1)
    (hs : driftE.numStates = tau.numStates ∧ driftT.numStates = tau.numStates)
    (hmu : tau.numChemPots = driftE.numChemPots ∧ tau.numChemPots = driftT.numChemPots)
    (ht : tau.numTemps = driftE.numTemps ∧ tau.numTemps = driftT.numTemps)
    (hsz : (driftE.numRows : Int) ≤ intMax ∧ (driftT.numRows : Int) ≤ intMax)
    (hexc : driftE.exclude = [] ∧ driftT.exclude = [])
    (hE : ∀ iCalc < driftE.numCalc, ∀ i : Fin 3, (fun b => driftE.get iCalc i b) ∈
      bulkDrift B size (fun c e => getDnde .fermi e (stat c).temp (stat c).chemPot false) iCalc i)
    (hT : ∀ iCalc < driftT.numCalc, ∀ i : Fin 3, (fun b => driftT.get iCalc i b) ∈
      bulkDrift B size (fun c e => getDndt .fermi e (stat c).temp (stat c).chemPot false) iCalc i)
    (iCalc : Nat) (hc : iCalc < driftE.numCalc)
    (t : Nat → ℝ) (htau : Invariant B.irr star t) (htau' : ∀ is ∈ B.irr, tau.get iCalc 0 (B.toBte is) = t is) :
    ∃ nE nT out, (driftE.mapData (- ·)).baseOperator (· * ·) tau = .ok nE ∧
      (driftT.mapData (- ·)).baseOperator (· * ·) tau = .ok nT ∧
      onsagerFromPopulation B 3 numPoints volume spin toCm nE nT stat size sched = .ok out ∧ out.length = size ∧
      ∀ f ∈ out, f iCalc = transportCoefficients toCm (stat iCalc).doping
        (rtaMoment B numStates numPoints volume spin (stat iCalc) t 0)
        (-(1 / (stat iCalc).temp) • rtaMoment B numStates numPoints volume spin (stat iCalc) t 1)
        (rtaMoment B numStates numPoints volume spin (stat iCalc) t 1)
        (-(1 / (stat iCalc).temp) • rtaMoment B numStates numPoints volume spin (stat iCalc) t 2) := by
  have hcov : ∀ dn : Nat → ℝ → ℝ, Covariant B.irr B.rots star (fun s i => -(dn iCalc (B.energy s) * B.vel s i) * t s) := by
    intro dn is his p hp
    funext i
    simp only [matVec_row]
    rw [hrun.velocities is his p hp, hrun.energies is his p.2 (zip_mem_snd hp), htau is his p.2 (zip_mem_snd hp), matVec_row]
    ring
  have hpop : ∀ (drift : VBte ℝ) (dn : Nat → ℝ → ℝ), drift.dim = 3 → drift.numStates = tau.numStates →
      tau.numChemPots = drift.numChemPots → tau.numTemps = drift.numTemps → (drift.numRows : Int) ≤ intMax →
      drift.exclude = [] → iCalc < drift.numCalc →
      (∀ i : Fin 3, (fun b => drift.get iCalc i b) ∈ bulkDrift B size dn iCalc i) →
      ∃ n, (drift.mapData (- ·)).baseOperator (· * ·) tau = .ok n ∧ ∀ is ∈ B.irr, ∀ i : Fin 3,
        n.get iCalc i (B.toBte is) = -(dn iCalc (B.energy is) * B.vel is i) * t is := by
    intro drift dn h1 h2 h3 h4 h5 h6 h7 h8
    obtain ⟨n, q1, _, _, _, q5⟩ := C47_one_component (α := ℝ) (· * ·) (drift.mapData (- ·)) tau h2 h3 h4 hdim.2.2 h5
    refine ⟨n, q1, fun is his i => ?_⟩
    rw [q5 iCalc i _ h7 (by rw [show (drift.mapData (- ·)).dim = drift.dim from rfl, h1]; exact i.isLt),
      show (drift.mapData (- ·)).exclude = drift.exclude from rfl, h6]
    simp only [List.not_mem_nil, if_false]
    rw [htau' is his, ← (bulkDrift_val B size dn iCalc i hrun.procs hrun.fits hrun.bte).2 _ (h8 i) is his]
    rfl
  have hcT : iCalc < driftT.numCalc := by
    have : driftT.numCalc = driftE.numCalc := by unfold VBte.numCalc; rw [← hmu.1, ← ht.1, hmu.2, ht.2]
    rw [this]; exact hc
  obtain ⟨nE, e1, e2⟩ := hpop driftE _ hdim.1 hs.1 hmu.1 ht.1 hsz.1 hexc.1 hc (hE iCalc hc)
  obtain ⟨nT, t1, t2⟩ := hpop driftT _ hdim.2.1 hs.2 hmu.2 ht.2 hsz.2 hexc.2 hcT (hT iCalc hcT)
  obtain ⟨L, l1, l2, l3⟩ := C110_tensors_partial B numPoints volume spin nE nT stat size sched star numStates hrun iCalc _ _
    (hcov (fun c e => getDnde .fermi e (stat c).temp (stat c).chemPot false))
    (hcov (fun c e => getDndt .fermi e (stat c).temp (stat c).chemPot false)) e2 t2
  refine ⟨nE, nT, L.map fun l => fun iCalc =>
    transportCoefficients toCm (stat iCalc).doping (l iCalc).ee (l iCalc).et (l iCalc).te (l iCalc).tt, e1, t1, ?_, ?_, ?_⟩
  · unfold onsagerFromPopulation
    rw [l1]; rfl
  · rw [List.length_map]; exact l2
  intro f hf
  obtain ⟨l, hl, rfl⟩ := List.mem_map.mp hf
  have hl' := l3 l hl
  set K := rtaMoment B numStates numPoints volume spin (stat iCalc) t with hK
  have k0 : (l iCalc).ee = K 0 := by
    ext i j
    rw [(hl' i j).1]
    have := (rta_average numStates numPoints volume spin (stat iCalc).temp (stat iCalc).chemPot B.energy t B.vel 0 i j).1
    simp only [pow_zero] at this
    exact this
  have k1 : (l iCalc).et = -(1 / (stat iCalc).temp) • K 1 := by
    ext i j
    rw [(hl' i j).2.1]
    have := (rta_average numStates numPoints volume spin (stat iCalc).temp (stat iCalc).chemPot B.energy t B.vel 0 i j).2
    simp only [pow_zero, Nat.zero_add] at this
    exact this
  have k2 : (l iCalc).te = K 1 := by
    ext i j
    rw [(hl' i j).2.2.1]
    have := (rta_average numStates numPoints volume spin (stat iCalc).temp (stat iCalc).chemPot B.energy t B.vel 1 i j).1
    simp only [pow_one] at this
    exact this
  have k3 : (l iCalc).tt = -(1 / (stat iCalc).temp) • K 2 := by
    ext i j
    rw [(hl' i j).2.2.2]
    have := (rta_average numStates numPoints volume spin (stat iCalc).temp (stat iCalc).chemPot B.energy t B.vel 1 i j).2
    simp only [pow_one] at this
    exact this
  dsimp only
  rw [k0, k1, k2, k3]

/-- The relaxation time approximation for electrons in three dimensions, from the drift vectors and the relaxation times to
the printed coefficients, on every process.  For the response of the crystal to a force `E` on the electrons and a gradient
`g` of the temperature (`rtaResponse`):
* without gradient the current of particles is `sigma E`;
* without current, `E = - seebeck g` and the current of heat is `- kappa g`;
* `sigma` and `kappa` are symmetric and dissipate;
* the mobility is `sigma` divided by the number of carriers per volume. -/
theorem C110_rta_partial (B : BandView) (numPoints : Nat) (volume spin toCm : ℝ) (stat : Nat → CalcStat)
    (driftE driftT tau : VBte ℝ) (size : Nat) (sched : Nat → List (List Nat)) (star : Nat → List Nat) (numStates : Nat)
    (hrun : MeshRun B size sched star numStates numPoints volume) (hspin : 0 ≤ spin)
    (hdim : driftE.dim = 3 ∧ driftT.dim = 3 ∧ tau.dim = 1)
    (hs : driftE.numStates = tau.numStates ∧ driftT.numStates = tau.numStates)
    (hmu : tau.numChemPots = driftE.numChemPots ∧ tau.numChemPots = driftT.numChemPots)
    (ht : tau.numTemps = driftE.numTemps ∧ tau.numTemps = driftT.numTemps)
    (hsz : (driftE.numRows : Int) ≤ intMax ∧ (driftT.numRows : Int) ≤ intMax)
    (hexc : driftE.exclude = [] ∧ driftT.exclude = [])
    (hE : ∀ iCalc < driftE.numCalc, ∀ i : Fin 3, (fun b => driftE.get iCalc i b) ∈
      bulkDrift B size (fun c e => getDnde .fermi e (stat c).temp (stat c).chemPot false) iCalc i)
    (hT : ∀ iCalc < driftT.numCalc, ∀ i : Fin 3, (fun b => driftT.get iCalc i b) ∈
      bulkDrift B size (fun c e => getDndt .fermi e (stat c).temp (stat c).chemPot false) iCalc i)
    (iCalc : Nat) (hc : iCalc < driftE.numCalc) (htemp : 0 < (stat iCalc).temp)
    (t : Nat → ℝ) (htau : Invariant B.irr star t) (htau' : ∀ is ∈ B.irr, tau.get iCalc 0 (B.toBte is) = t is)
    (hpos : ∀ s, 0 ≤ t s) :
    ∃ nE nT out, (driftE.mapData (- ·)).baseOperator (· * ·) tau = .ok nE ∧
      (driftT.mapData (- ·)).baseOperator (· * ·) tau = .ok nT ∧
      onsagerFromPopulation B 3 numPoints volume spin toCm nE nT stat size sched = .ok out ∧ out.length = size ∧
      ∀ f ∈ out,
        (∀ E : Vec3, flux numStates numPoints volume spin B.vel (fun _ => 1)
          (fun s => rtaResponse (stat iCalc).temp (stat iCalc).chemPot (B.energy s) (t s) (B.vel s) E 0) =
            (f iCalc).sigma.mulVec E) ∧
        IsConductivity (f iCalc).sigma ∧
        (0 < |(stat iCalc).doping| * toCm ^ 3 → (f iCalc).mobility = (1 / (|(stat iCalc).doping| * toCm ^ 3)) • (f iCalc).sigma) ∧
        (IsUnit (f iCalc).sigma.det → IsConductivity (f iCalc).kappa ∧
          ∀ E g : Vec3, flux numStates numPoints volume spin B.vel (fun _ => 1)
              (fun s => rtaResponse (stat iCalc).temp (stat iCalc).chemPot (B.energy s) (t s) (B.vel s) E g) = 0 →
            E = -(f iCalc).seebeck.mulVec g ∧
            flux numStates numPoints volume spin B.vel (fun s => B.energy s - (stat iCalc).chemPot)
              (fun s => rtaResponse (stat iCalc).temp (stat iCalc).chemPot (B.energy s) (t s) (B.vel s) E g) =
                -(f iCalc).kappa.mulVec g) := by
  obtain ⟨nE, nT, out, e1, t1, o1, o2, o3⟩ := onsager_rta_moments B numPoints volume spin toCm stat driftE driftT tau size sched
    star numStates hrun hdim hs hmu ht hsz hexc hE hT iCalc hc t htau htau'
  refine ⟨nE, nT, out, e1, t1, o1, o2, ?_⟩
  intro f hf
  rw [o3 f hf]
  set K := rtaMoment B numStates numPoints volume spin (stat iCalc) t with hK
  have hN : (0 : ℝ) < numPoints := by exact_mod_cast hrun.points
  have hw : ∀ s ∈ Finset.range numStates, 0 ≤ rtaWeight numPoints volume spin (stat iCalc).temp (stat iCalc).chemPot B.energy t s := by
    intro s _
    unfold rtaWeight
    have hp := (C45_symmetrized .fermi (B.energy s) (stat iCalc).temp (stat iCalc).chemPot).1
    exact div_nonneg (mul_nonneg (mul_nonneg hspin (hpos s)) hp) (mul_pos htemp (mul_pos hN hrun.cell)).le
  have hfl1 : ∀ E g : Vec3, flux numStates numPoints volume spin B.vel (fun _ => 1)
      (fun s => rtaResponse (stat iCalc).temp (stat iCalc).chemPot (B.energy s) (t s) (B.vel s) E g) =
      (K 0).mulVec E - (1 / (stat iCalc).temp) • (K 1).mulVec g := by
    intro E g
    have := rta_flux numStates numPoints volume spin (stat iCalc).temp (stat iCalc).chemPot B.energy t B.vel 0 E g
    simp only [pow_zero, Nat.zero_add] at this
    exact this
  refine ⟨?_, ?_, ?_, ?_⟩
  · intro E
    rw [hfl1, Matrix.mulVec_zero, smul_zero, sub_zero]
    rfl
  · have : IsConductivity (K 0) := by
      rw [hK]
      unfold rtaMoment
      exact moment_isConductivity _ _ _ _ 0 (fun s hs => by rw [pow_zero, mul_one]; exact hw s hs)
    exact this
  · intro hdop
    ext i j
    simp only [transportCoefficients]
    rw [if_pos hdop, Matrix.smul_apply, smul_eq_mul, one_div, div_eq_inv_mul]
  · intro hdet
    have hdet' : IsUnit (K 0).det := hdet
    obtain ⟨c1, c2⟩ := coefficients_of_moments toCm (stat iCalc).doping (stat iCalc).temp (K 0) (K 1) (K 2)
    rw [c1, c2]
    refine ⟨isConductivity_smul _ _ (by positivity) (schur_isConductivity _ _ _ _ hw hdet'), ?_⟩
    intro E g h0
    rw [hfl1] at h0
    obtain ⟨o1, o2⟩ := open_circuit (stat iCalc).temp (K 0) (K 1) (K 2) hdet' E g h0
    refine ⟨o1, ?_⟩
    rw [← o2]
    have := rta_flux numStates numPoints volume spin (stat iCalc).temp (stat iCalc).chemPot B.energy t B.vel 1 E g
    simp only [pow_one] at this
    exact this

/-- Onsager reciprocity of the exact solutions: if the symmetrised populations solve the transport equation with a
symmetric scattering operator `A`, then `L_TE = - T L_ET` with the axes exchanged. -/
theorem C110_reciprocity (numStates numPoints : Nat) (volume spin temp chemPot : ℝ) (htemp : 0 < temp)
    (energy : Nat → ℝ) (v zE zT : Nat → Vec3) (A : Nat → Nat → ℝ) (hA : ∀ s s', A s s' = A s' s)
    (hzE : ∀ s < numStates, ∀ i, ∑ s' ∈ Finset.range numStates, A s s' * zE s' i =
      -(getDnde .fermi (energy s) temp chemPot true * v s i))
    (hzT : ∀ s < numStates, ∀ i, ∑ s' ∈ Finset.range numStates, A s s' * zT s' i =
      -(getDndt .fermi (energy s) temp chemPot true * v s i)) (i j : Fin 3) :
    spin * crystalAverage numStates numPoints volume
        (fun s i => Real.sqrt (getPopPopPm1 .fermi (energy s) temp chemPot) * zE s i) v (fun s => energy s - chemPot) i j =
    -(temp * (spin * crystalAverage numStates numPoints volume
        (fun s i => Real.sqrt (getPopPopPm1 .fermi (energy s) temp chemPot) * zT s i) v (fun _ => 1) j i)) := by
  -- the bilinear form of the operator
  have hsym : ∑ s ∈ Finset.range numStates, zE s i * (∑ s' ∈ Finset.range numStates, A s s' * zT s' j) =
      ∑ s ∈ Finset.range numStates, zT s j * (∑ s' ∈ Finset.range numStates, A s s' * zE s' i) := by
    have e1 : ∀ s, zE s i * (∑ s' ∈ Finset.range numStates, A s s' * zT s' j) =
        ∑ s' ∈ Finset.range numStates, zE s i * (A s s' * zT s' j) := fun s => Finset.mul_sum _ _ _
    have e2 : ∀ s, zT s j * (∑ s' ∈ Finset.range numStates, A s s' * zE s' i) =
        ∑ s' ∈ Finset.range numStates, zT s j * (A s s' * zE s' i) := fun s => Finset.mul_sum _ _ _
    rw [Finset.sum_congr rfl (fun s _ => e1 s), Finset.sum_congr rfl (fun s _ => e2 s), Finset.sum_comm]
    apply Finset.sum_congr rfl
    intro s _
    apply Finset.sum_congr rfl
    intro s' _
    rw [hA s s']; ring
  have hl : ∑ s ∈ Finset.range numStates, zE s i * (∑ s' ∈ Finset.range numStates, A s s' * zT s' j) =
      ∑ s ∈ Finset.range numStates, -(1 / temp ^ 2) * ((energy s - chemPot) *
        (Real.sqrt (getPopPopPm1 .fermi (energy s) temp chemPot) * zE s i) * v s j) := by
    apply Finset.sum_congr rfl
    intro s hs
    rw [hzT s (Finset.mem_range.mp hs) j]
    simp only [getDndt, if_true]
    field_simp
  have hr : ∑ s ∈ Finset.range numStates, zT s j * (∑ s' ∈ Finset.range numStates, A s s' * zE s' i) =
      ∑ s ∈ Finset.range numStates, (1 / temp) *
        (1 * (Real.sqrt (getPopPopPm1 .fermi (energy s) temp chemPot) * zT s j) * v s i) := by
    apply Finset.sum_congr rfl
    intro s hs
    rw [hzE s (Finset.mem_range.mp hs) i]
    simp only [getDnde, if_true]
    field_simp
  rw [hl, hr, ← Finset.mul_sum, ← Finset.mul_sum] at hsym
  unfold crystalAverage
  have := mul_left_cancel₀ (a := -(1 / temp ^ 2)) (b := ∑ s ∈ Finset.range numStates, ((energy s - chemPot) *
        (Real.sqrt (getPopPopPm1 .fermi (energy s) temp chemPot) * zE s i) * v s j))
    (c := -(temp * ∑ s ∈ Finset.range numStates,
        (1 * (Real.sqrt (getPopPopPm1 .fermi (energy s) temp chemPot) * zT s j) * v s i)))
    (by simp [htemp.ne']) (by rw [hsym]; field_simp)
  rw [this]
  ring

/-- With fewer than three dimensions the program writes past the end of the tensors. -/
theorem C110_violated_low_dimension (B : BandView) (d numPoints : Nat) (volume spin toCm : ℝ) (nE nT : VBte ℝ)
    (stat : Nat → CalcStat) (size : Nat) (sched : Nat → List (List Nat)) (hd : d < 3) (hc : 0 < nE.numCalc) :
    onsagerFromPopulation B d numPoints volume spin toCm nE nT stat size sched = .ub := by
  unfold onsagerFromPopulation onsagerTensors
  have : ¬ viewFits nE.numCalc d := by
    unfold viewFits
    have h1 : d * d ≤ 2 * 2 := Nat.mul_le_mul (by omega) (by omega)
    rw [Nat.mul_assoc, Nat.mul_assoc, not_le]
    exact Nat.mul_lt_mul_of_pos_left (by omega) hc
  rw [if_pos this]; rfl

/-! The hypotheses are met by the example: drift vectors made on two processes, relaxation times that depend on the state,
and an electrical conductivity that can be inverted. -/

noncomputable def exVec (dn : ℝ → ℝ) : VBte ℝ := ⟨1, 1, 3, 3, fun row b => if b < 3 ∧ row = b then dn (1 + (b : ℝ)) else 0, []⟩

theorem exVec_mem (dn : Nat → ℝ → ℝ) (iCalc : Nat) (hc : iCalc < 1) (i : Fin 3) :
    (fun b => (exVec (dn 0)).get iCalc i b) ∈ bulkDrift exBand 2 dn iCalc i := by
  have h0 : iCalc = 0 := by omega
  subst h0
  obtain ⟨hlen, hval⟩ := bulkDrift_val exBand 2 dn 0 i (by norm_num) exBand_run.fits exBand_run.bte
  have hne : bulkDrift exBand 2 dn 0 i ≠ [] := by
    intro h; rw [h] at hlen; simp at hlen
  obtain ⟨f, hf⟩ := List.exists_mem_of_ne_nil _ hne
  convert hf using 1
  funext b
  by_cases hb : b < 3
  · have hb' : b ∈ exBand.irr := by simp only [exBand, List.mem_cons, List.not_mem_nil, or_false]; omega
    have := hval f hf b hb'
    simp only [exBand] at this
    rw [this]
    simp only [exVec, VBte.get, Nat.zero_mul, Nat.zero_add, hb, true_and, Nat.mod_eq_of_lt hb, if_true]
    split <;> simp
  · rw [exBulk_zero dn i f hf b (by omega)]
    simp only [exVec, VBte.get]
    rw [if_neg (fun h => hb h.1)]

example : IsUnit (rtaMoment exBand 6 6 2 2 ⟨1, 0, 1⟩ (fun s => 1 + (s % 3 : Nat)) 0).det := by
  rw [isUnit_iff_ne_zero]
  have hp : ∀ s, 0 < rtaWeight 6 2 2 1 0 exBand.energy (fun s => 1 + (s % 3 : Nat)) s := by
    intro s
    unfold rtaWeight
    have h1 : 0 < getPopPopPm1 .fermi (exBand.energy s) 1 0 := by
      simp only [getPopPopPm1, div_div]
      exact div_pos (by norm_num) (mul_pos (Real.cosh_pos _) (Real.cosh_pos _))
    positivity
  have h0 := hp 0; have h1 := hp 1; have h2 := hp 2; have h3 := hp 3; have h4 := hp 4; have h5 := hp 5
  have hd : rtaMoment exBand 6 6 2 2 ⟨1, 0, 1⟩ (fun s => 1 + (s % 3 : Nat)) 0 = Matrix.diagonal (fun i : Fin 3 =>
      rtaWeight 6 2 2 1 0 exBand.energy (fun s => 1 + (s % 3 : Nat)) i +
      rtaWeight 6 2 2 1 0 exBand.energy (fun s => 1 + (s % 3 : Nat)) (i + 3)) := by
    ext i j
    unfold rtaMoment moment
    fin_cases i <;> fin_cases j <;> simp [Finset.sum_range_succ, exBand]
  rw [hd, Matrix.det_diagonal, Fin.prod_univ_three]
  simp only [Fin.val_zero, Fin.val_one, Fin.val_two, Nat.zero_add, Nat.reduceAdd]
  positivity

example : ∃ nE nT out,
    ((exVec (fun e => getDnde .fermi e 1 0 false)).mapData (- ·)).baseOperator (· * ·) exTau = .ok nE ∧
    ((exVec (fun e => getDndt .fermi e 1 0 false)).mapData (- ·)).baseOperator (· * ·) exTau = .ok nT ∧
    onsagerFromPopulation exBand 3 6 2 2 1 nE nT (fun _ => ⟨1, 0, 1⟩) 2 (fun r => [(sliceOf exBand.irr r 2).reverse]) = .ok out ∧
    out.length = 2 := by
  obtain ⟨nE, nT, out, h1, h2, h3, h4, _⟩ := C110_rta_partial exBand 6 2 2 1 (fun _ => ⟨1, 0, 1⟩)
    (exVec (fun e => getDnde .fermi e 1 0 false)) (exVec (fun e => getDndt .fermi e 1 0 false)) exTau 2 _ _ 6 exBand_run
    (by norm_num) ⟨rfl, rfl, rfl⟩ ⟨rfl, rfl⟩ ⟨rfl, rfl⟩ ⟨rfl, rfl⟩ ⟨by decide, by decide⟩ ⟨rfl, rfl⟩
    (fun iCalc hc i => exVec_mem (fun _ e => getDnde .fermi e 1 0 false) iCalc hc i)
    (fun iCalc hc i => exVec_mem (fun _ e => getDndt .fermi e 1 0 false) iCalc hc i) 0 (by decide) (by norm_num)
    (fun s => 1 + (s % 3 : Nat))
    (by
      intro is _ s hs
      simp only [List.mem_cons, List.not_mem_nil, or_false] at hs
      rcases hs with rfl | rfl <;> simp)
    (by
      intro is his
      simp only [exBand, List.mem_cons, List.not_mem_nil, or_false] at his
      rcases his with rfl | rfl | rfl <;> simp [exTau, VBte.get, exBand])
    (fun s => by positivity)
  exact ⟨nE, nT, out, h1, h2, h3, h4⟩

/-- Reciprocity: an operator that is not diagonal. -/
example : ∃ (A : Nat → Nat → ℝ) (zE zT : Nat → Vec3), (∀ s s', A s s' = A s' s) ∧ A 0 1 ≠ 0 ∧
    (∀ s < 2, ∀ i, ∑ s' ∈ Finset.range 2, A s s' * zE s' i = -(getDnde .fermi (exBand.energy s) 1 0 true * exBand.vel s i)) ∧
    (∀ s < 2, ∀ i, ∑ s' ∈ Finset.range 2, A s s' * zT s' i = -(getDndt .fermi (exBand.energy s) 1 0 true * exBand.vel s i)) := by
  set bE : Nat → Vec3 := fun s i => -(getDnde .fermi (exBand.energy s) 1 0 true * exBand.vel s i)
  set bT : Nat → Vec3 := fun s i => -(getDndt .fermi (exBand.energy s) 1 0 true * exBand.vel s i)
  refine ⟨fun s s' => if s = s' then 2 else 1, fun s i => (2 * bE s i - bE (1 - s) i) / 3,
    fun s i => (2 * bT s i - bT (1 - s) i) / 3, ?_, by norm_num, ?_, ?_⟩
  · intro s s'; by_cases h : s = s'
    · simp [h]
    · simp [h, Ne.symm h]
  · intro s hs i
    change _ = bE s i
    obtain rfl | rfl : s = 0 ∨ s = 1 := by omega
    all_goals simp [Finset.sum_range_succ]
    all_goals ring
  · intro s hs i
    change _ = bT s i
    obtain rfl | rfl : s = 0 ∨ s = 1 := by omega
    all_goals simp [Finset.sum_range_succ]
    all_goals ring

end Verif.Props
