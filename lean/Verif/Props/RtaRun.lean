import Verif.Proofs.RtaRun

/-! # C175: from the scattering rates to the transport coefficients on the terminal and in the file -/
namespace Verif.Props
open Verif.Model Verif.Spec Verif.Proofs

/-- A run of a transport app up to the relaxation time approximation, for a crystal whose rates have its symmetry, with a
mesh of `numStates` states distributed over `size` processes and over threads as in `sched`. -/
structure RtaReady (S : RtaSetup) (size : Nat) (sched : Nat → List (List Nat)) (star : Nat → List Nat) (numStates : Nat)
    (rate : Nat → Nat → ℝ) : Prop where
  run : MeshRun S.B size sched star numStates S.numPoints S.volume
  small : ((S.numCalc * 3 : Nat) : Int) ≤ intMax
  back : ∀ is ∈ S.B.irr, S.toState (S.B.toBte is) = is
  temps : ∀ c < S.numCalc, 0 < (S.stat c).temp
  symmetric : ∀ c < S.numCalc, Invariant S.B.irr star (rate c)
  positive : ∀ c s, 0 < rate c s

theorem head_mem {α : Type} (out : List α) (size : Nat) (h : out.length = size) (hs : 0 < size) (r : Nat) (hr : r < size)
    (d : α) : out.getD r d ∈ out := by
  rw [List.getD_eq_getElem?_getD, List.getElem?_eq_getElem (by omega), Option.getD_some]
  exact List.getElem_mem _

theorem phonon_average (S : RtaSetup) (cutoff : ℝ) (hcut : 0 < cutoff) (numStates c : Nat) (hT : 0 < (S.stat c).temp)
    (rate : Nat → ℝ) (i j : Fin 3) :
    crystalAverage numStates S.numPoints S.volume S.B.vel S.B.vel
        (fun s => if S.B.energy s < cutoff then 0 else
          S.B.energy s * getDndt .bose (S.B.energy s) (S.stat c).temp 0 false * (1 / rate s)) i j =
      peierlsConductivity numStates S.numPoints S.volume (S.stat c).temp cutoff S.B.energy rate S.B.vel i j := by
  unfold crystalAverage peierlsConductivity
  congr 1
  apply Finset.sum_congr rfl
  intro s _
  by_cases h : S.B.energy s < cutoff
  · simp [h]
  · have he : 0 < S.B.energy s := by linarith [not_lt.mp h]
    simp only [h, if_false, getDndt, Bool.false_eq_true, bose_eq _ _ hT he, sub_zero]
    ring

/-- Phonons: the factor with which the scattering matrix is held. -/
theorem bose_factor (S : RtaSetup) (cutoff : ℝ) (hcut : 0 < cutoff) (hT : ∀ c < S.numCalc, 0 < (S.stat c).temp)
    (hmu : ∀ c < S.numCalc, (S.stat c).chemPot = 0) :
    ∀ c < S.numCalc, ∀ is ∈ S.B.irr, (¬ S.B.energy is < cutoff) →
      getPopPopPm1 .bose (S.B.energy is) (S.stat c).temp (S.stat c).chemPot =
        boseOccupation (S.B.energy is) (S.stat c).temp * (boseOccupation (S.B.energy is) (S.stat c).temp + 1) ∧
      boseOccupation (S.B.energy is) (S.stat c).temp * (boseOccupation (S.B.energy is) (S.stat c).temp + 1) ≠ 0 := by
  intro c hc is _ hk
  have he : 0 < S.B.energy is := by linarith [not_lt.mp hk]
  rw [hmu c hc, bose_eq _ _ (hT c hc) he]
  refine ⟨rfl, ?_⟩
  have h1 : 1 < Real.exp (S.B.energy is / (S.stat c).temp) := Real.one_lt_exp_iff.mpr (div_pos he (hT c hc))
  have h2 : 0 < boseOccupation (S.B.energy is) (S.stat c).temp := by
    unfold boseOccupation
    exact one_div_pos.mpr (by linarith)
  positivity

/-- Phonons in three dimensions.  For any crystal, mesh, scattering rates, temperatures, number of processes and schedule of
the threads, the program ends the relaxation time approximation without error; the head process writes the table of each
temperature of the file also on the terminal, below its temperature in kelvin, and every number is the textbook conductivity
of the full mesh, in `W/(m K)`.  The other processes write nothing. -/
theorem C175_phonons (S : RtaSetup) (u : ReportUnits) (cutoff thickness : ℝ) (hcut : 0 < cutoff)
    (junk : Nat → Nat → Mat3 → Vec3) (size : Nat) (sched : Nat → List (List Nat)) (star : Nat → List Nat)
    (numStates : Nat) (rate : Nat → Nat → ℝ) (h : RtaReady S size sched star numStates rate)
    (hmu : ∀ c < S.numCalc, (S.stat c).chemPot = 0)
    (hrate : RatesOf S (fun is => ¬ S.B.energy is < cutoff) (fun c is => boseOccupation (S.B.energy is) (S.stat c).temp *
      (boseOccupation (S.B.energy is) (S.stat c).temp + 1)) rate) :
    (∃ terminal file, phononRta S u cutoff thickness 3 junk size sched 0 = .ok (terminal, some file) ∧
      (blocks "Temperature:" terminal).map (fun b => numbersOf b.1) = file.temperatures.map (fun T => [T]) ∧
      tablesUnder "Temperature:" terminal = file.kappa ∧
      file.temperatures = (List.range S.numCalc).map (fun c => (S.stat c).temp * u.temperature) ∧
      ∀ c < S.numCalc, ∀ i j : Fin 3, entry3 file.kappa c i j = some
        (peierlsConductivity numStates S.numPoints S.volume (S.stat c).temp cutoff S.B.energy (rate c) S.B.vel i j *
          siThermal u.si.boltzmann u.si.rydberg u.si.hbar u.si.bohr 3)) ∧
    ∀ rank, 0 < rank → phononRta S u cutoff thickness 3 junk size sched rank = .ok ([], none) := by
  obtain ⟨out, h1, h2, h3⟩ := phononRta_val S u cutoff thickness junk size sched star numStates h.run h.small hmu
    (fun c s => 1 / rate c s) (fun c hc is his s hs => by simp only; rw [h.symmetric c hc is his s hs])
    (fun c s => (one_div_pos.mpr (h.positive c s)).le)
    (fun c hc is his hk => times_val S .bose _ _ rate h.back hrate
      (bose_factor S cutoff hcut h.temps hmu) c hc is his hk)
  constructor
  · obtain ⟨f, f1, f2, f3, f4, f5⟩ := C172_phonons "Thermal Conductivity" (by decide) u 3 S.numCalc (by norm_num)
      u.si.thConductivity (fun c => (S.stat c).temp) (elementsOf3 (out.getD 0 0))
    refine ⟨_, f, ?_, f2, f3, ?_, ?_⟩
    · rw [h2 0]
      simp only [beq_self_eq_true]
      rw [f1]
    · have := Option.some.inj f1
      rw [← this]
      exact jsonList_val _ _
    · intro c hc i j
      rw [f5 c i j hc i.isLt j.isLt, elementsOf3_val,
        h3 _ (head_mem out size h1 h.run.procs 0 h.run.procs 0) c hc i j,
        phonon_average S cutoff hcut numStates c (h.temps c hc) (rate c) i j]
      congr 2
      unfold SiConstants.thConductivity siThermal
      rw [show (2 - ((3 : Nat) : ℤ)) = -1 by norm_num, zpow_neg_one]
      ring
  · intro rank hr
    rw [h2 rank]
    have : (rank == 0) = false := by simpa using hr.ne'
    rw [this]
    rfl

/-- The whole output of phonons is the same on any number of processes, with any schedule of the threads. -/
theorem C175_phonon_processes (S : RtaSetup) (u : ReportUnits) (cutoff thickness : ℝ) (hcut : 0 < cutoff)
    (junk junk' : Nat → Nat → Mat3 → Vec3) (size size' : Nat) (sched sched' : Nat → List (List Nat))
    (star : Nat → List Nat) (numStates : Nat) (rate : Nat → Nat → ℝ) (h : RtaReady S size sched star numStates rate)
    (h' : RtaReady S size' sched' star numStates rate) (hmu : ∀ c < S.numCalc, (S.stat c).chemPot = 0)
    (hrate : RatesOf S (fun is => ¬ S.B.energy is < cutoff) (fun c is => boseOccupation (S.B.energy is) (S.stat c).temp *
      (boseOccupation (S.B.energy is) (S.stat c).temp + 1)) rate) :
    phononRta S u cutoff thickness 3 junk size sched 0 = phononRta S u cutoff thickness 3 junk' size' sched' 0 := by
  obtain ⟨out, h1, h2, h3⟩ := phononRta_val S u cutoff thickness junk size sched star numStates h.run h.small hmu
    (fun c s => 1 / rate c s) (fun c hc is his s hs => by simp only; rw [h.symmetric c hc is his s hs])
    (fun c s => (one_div_pos.mpr (h.positive c s)).le)
    (fun c hc is his hk => times_val S .bose _ _ rate h.back hrate
      (bose_factor S cutoff hcut h.temps hmu) c hc is his hk)
  obtain ⟨out', h1', h2', h3'⟩ := phononRta_val S u cutoff thickness junk' size' sched' star numStates h'.run h.small hmu
    (fun c s => 1 / rate c s) (fun c hc is his s hs => by simp only; rw [h.symmetric c hc is his s hs])
    (fun c s => (one_div_pos.mpr (h.positive c s)).le)
    (fun c hc is his hk => times_val S .bose _ _ rate h.back hrate
      (bose_factor S cutoff hcut h.temps hmu) c hc is his hk)
  rw [h2, h2']
  have hk : ∀ k < S.numCalc, elementsOf3 (out.getD 0 0) k = elementsOf3 (out'.getD 0 0) k := by
    intro k hk
    funext i j
    apply elementsOf3_congr
    ext a b
    rw [h3 _ (head_mem out size h1 h.run.procs 0 h.run.procs 0) k hk a b,
      h3' _ (head_mem out' size' h1' h'.run.procs 0 h'.run.procs 0) k hk a b]
  obtain ⟨e1, e2⟩ := phononPrint_congr (0 == 0) "Thermal Conductivity" u 3 S.numCalc u.si.thConductivity
    (fun c => (S.stat c).temp) _ _ hk
  rw [e1, e2]

theorem fermi_factor (S : RtaSetup) (hT : ∀ c < S.numCalc, 0 < (S.stat c).temp) :
    ∀ c < S.numCalc, ∀ is ∈ S.B.irr, True →
      getPopPopPm1 .fermi (S.B.energy is) (S.stat c).temp (S.stat c).chemPot =
        fermiOccupation (S.B.energy is) (S.stat c).temp (S.stat c).chemPot *
          (1 - fermiOccupation (S.B.energy is) (S.stat c).temp (S.stat c).chemPot) ∧
      fermiOccupation (S.B.energy is) (S.stat c).temp (S.stat c).chemPot *
          (1 - fermiOccupation (S.B.energy is) (S.stat c).temp (S.stat c).chemPot) ≠ 0 := by
  intro c hc is _ _
  rw [fermi_eq _ _ _ (hT c hc)]
  refine ⟨rfl, ?_⟩
  have hx := Real.exp_pos ((S.B.energy is - (S.stat c).chemPot) / (S.stat c).temp)
  have h1 : 0 < fermiOccupation (S.B.energy is) (S.stat c).temp (S.stat c).chemPot := by
    unfold fermiOccupation
    exact one_div_pos.mpr (by linarith)
  have h2 : fermiOccupation (S.B.energy is) (S.stat c).temp (S.stat c).chemPot < 1 := by
    unfold fermiOccupation
    rw [div_lt_one (by linarith)]
    linarith
  exact (mul_pos h1 (by linarith)).ne'

theorem electron_moment (S : RtaSetup) (spin : ℝ) (numStates c : Nat) (hT : 0 < (S.stat c).temp) (rate : Nat → ℝ) (p : Nat) :
    rtaMoment S.B numStates S.numPoints S.volume spin (S.stat c) (fun s => 1 / rate s) p =
      electronMoment numStates S.numPoints S.volume spin (S.stat c).temp (S.stat c).chemPot S.B.energy rate S.B.vel p := by
  ext i j
  unfold rtaMoment moment electronMoment
  rw [Finset.mul_sum, Finset.sum_div]
  apply Finset.sum_congr rfl
  intro s _
  unfold rtaWeight
  rw [fermi_eq _ _ _ hT]
  rw [div_mul_eq_div_div_swap]
  ring

/-- Electrons in three dimensions, the same: the electrical conductivity is the moment `K0`, in `S/m`; if it can be
inverted, the Seebeck coefficient is `-K0⁻¹ K1 / T` and the thermal conductivity `(K2 - K1 K0⁻¹ K1) / T`, in `W/(m K)`. -/
theorem C175_electrons (S : RtaSetup) (u : ReportUnits) (spin toCm : ℝ) (size : Nat) (sched : Nat → List (List Nat))
    (star : Nat → List Nat) (numStates : Nat) (rate : Nat → Nat → ℝ) (h : RtaReady S size sched star numStates rate)
    (hrate : RatesOf S (fun _ => True) (fun c is => fermiOccupation (S.B.energy is) (S.stat c).temp (S.stat c).chemPot *
      (1 - fermiOccupation (S.B.energy is) (S.stat c).temp (S.stat c).chemPot)) rate) :
    (∃ terminal file, electronRta S u spin toCm 3 size sched 0 = .ok (terminal, some file) ∧
      (blocks "iCalc =" terminal).map (fun b => numbersOf b.1) = file.temperatures.map (fun T => [T]) ∧
      (blocks "iCalc =" terminal).map (fun b => tableBelow "Electrical Conductivity" b.2) = file.sigma.map some ∧
      (blocks "iCalc =" terminal).map (fun b => tableBelow "Thermal Conductivity" b.2) = file.kappa.map some ∧
      (blocks "iCalc =" terminal).map (fun b => tableBelow "Seebeck Coefficient" b.2) = file.seebeck.map some ∧
      ∀ c < S.numCalc,
        let K := electronMoment numStates S.numPoints S.volume spin (S.stat c).temp (S.stat c).chemPot S.B.energy (rate c)
          S.B.vel
        file.temperatures[c]? = some ((S.stat c).temp * u.temperature) ∧
        file.chemPots[c]? = some ((S.stat c).chemPot * u.ev) ∧
        ∀ i j : Fin 3,
          entry3 file.sigma c i j = some (K 0 i j * siConductivity u.si.electron u.si.hbar u.si.bohr 3) ∧
          (IsUnit (K 0).det →
            entry3 file.kappa c i j = some (((K 2 - K 1 * (K 0)⁻¹ * K 1) i j / (S.stat c).temp) *
              siThermal u.si.boltzmann u.si.rydberg u.si.hbar u.si.bohr 3) ∧
            entry3 file.seebeck c i j = some (-(((K 0)⁻¹ * K 1) i j / (S.stat c).temp) * u.seebeck))) ∧
    ∀ rank, 0 < rank → electronRta S u spin toCm 3 size sched rank = .ok ([], none) := by
  obtain ⟨out, h1, h2, h3⟩ := electronRta_val S u spin toCm size sched star numStates h.run h.small
    (fun c s => 1 / rate c s) (fun c hc is his s hs => by simp only; rw [h.symmetric c hc is his s hs])
    (fun c hc is his => times_val S .fermi _ _ rate h.back hrate (fermi_factor S h.temps) c hc is his trivial)
  constructor
  · obtain ⟨f, f1, _, f3, _, f5, f6, f7, _⟩ := C172_electrons u 3 S.numCalc (by norm_num) S.stat
      (onsagerElements (out.getD 0 fun _ => ⟨0, 0, 0, 0⟩))
    refine ⟨_, f, ?_, f3, f5, f6, f7, ?_⟩
    · rw [h2 0]
      simp only [beq_self_eq_true]
      rw [f1]
    · intro c hc K
      have hval := h3 _ (head_mem out size h1 h.run.procs 0 h.run.procs (fun _ => ⟨0, 0, 0, 0⟩)) c hc
      simp only [electron_moment S spin numStates c (h.temps c hc) (rate c)] at hval
      have hco := coefficients_of_moments toCm (S.stat c).doping (S.stat c).temp (K 0) (K 1) (K 2)
      have key : ∀ i j : Fin 3, f.temperatures[c]? = some ((S.stat c).temp * u.temperature) ∧
          f.chemPots[c]? = some ((S.stat c).chemPot * u.ev) ∧
          entry3 f.sigma c i j = some (K 0 i j * convSigma u.si 3) ∧
          entry3 f.kappa c i j = some (((1 / (S.stat c).temp) • (K 2 - K 1 * (K 0)⁻¹ * K 1)) i j * convKappa u.si 3) ∧
          entry3 f.seebeck c i j = some ((-(1 / (S.stat c).temp) • ((K 0)⁻¹ * K 1)) i j * u.seebeck) := by
        intro i j
        obtain ⟨g, g1, g2, g3, _, g5, g6, g7⟩ := C172_electron_file u 3 S.numCalc S.stat
          (onsagerElements (out.getD 0 fun _ => ⟨0, 0, 0, 0⟩)) c i j hc i.isLt j.isLt
        rw [f1] at g1
        have hfg := Option.some.inj g1
        subst hfg
        refine ⟨g2, g3, ?_, ?_, ?_⟩
        · rw [g5]
          simp only [onsagerElements, elementsOf3_val, hval]
          rfl
        · rw [g6]
          simp only [onsagerElements, elementsOf3_val, hval]
          rw [hco.1]
        · rw [g7]
          simp only [onsagerElements, elementsOf3_val, hval]
          rw [hco.2]
      refine ⟨(key 0 0).1, (key 0 0).2.1, fun i j => ⟨?_, fun _ => ⟨?_, ?_⟩⟩⟩
      · rw [(key i j).2.2.1]
        congr 2
        unfold convSigma SiConstants.elConductivity siConductivity
        rw [if_neg (by norm_num), if_neg (by norm_num), show (2 - ((3 : Nat) : ℤ)) = -1 by norm_num, zpow_neg_one]
        ring
      · rw [(key i j).2.2.2.1, Matrix.smul_apply, smul_eq_mul]
        congr 2
        · ring
        · unfold convKappa SiConstants.thConductivity siThermal
          rw [if_neg (by norm_num), if_neg (by norm_num), show (2 - ((3 : Nat) : ℤ)) = -1 by norm_num, zpow_neg_one]
          ring
      · rw [(key i j).2.2.2.2, Matrix.smul_apply, smul_eq_mul]
        congr 2
        ring
  · intro rank hr
    rw [h2 rank]
    have : (rank == 0) = false := by simpa using hr.ne'
    rw [this]
    rfl

/-- The whole output of electrons is the same on any number of processes, with any schedule of the threads. -/
theorem C175_electron_processes (S : RtaSetup) (u : ReportUnits) (spin toCm : ℝ) (size size' : Nat)
    (sched sched' : Nat → List (List Nat)) (star : Nat → List Nat) (numStates : Nat) (rate : Nat → Nat → ℝ)
    (h : RtaReady S size sched star numStates rate) (h' : RtaReady S size' sched' star numStates rate)
    (hrate : RatesOf S (fun _ => True) (fun c is => fermiOccupation (S.B.energy is) (S.stat c).temp (S.stat c).chemPot *
      (1 - fermiOccupation (S.B.energy is) (S.stat c).temp (S.stat c).chemPot)) rate) :
    electronRta S u spin toCm 3 size sched 0 = electronRta S u spin toCm 3 size' sched' 0 := by
  obtain ⟨out, h1, h2, h3⟩ := electronRta_val S u spin toCm size sched star numStates h.run h.small
    (fun c s => 1 / rate c s) (fun c hc is his s hs => by simp only; rw [h.symmetric c hc is his s hs])
    (fun c hc is his => times_val S .fermi _ _ rate h.back hrate (fermi_factor S h.temps) c hc is his trivial)
  obtain ⟨out', h1', h2', h3'⟩ := electronRta_val S u spin toCm size' sched' star numStates h'.run h.small
    (fun c s => 1 / rate c s) (fun c hc is his s hs => by simp only; rw [h.symmetric c hc is his s hs])
    (fun c hc is his => times_val S .fermi _ _ rate h.back hrate (fermi_factor S h.temps) c hc is his trivial)
  rw [h2, h2']
  obtain ⟨e1, e2⟩ := onsager_congr (0 == 0) u 3 S.numCalc S.stat (out.getD 0 fun _ => ⟨0, 0, 0, 0⟩)
    (out'.getD 0 fun _ => ⟨0, 0, 0, 0⟩) (by
      intro k hk
      rw [h3 _ (head_mem out size h1 h.run.procs 0 h.run.procs _) k hk,
        h3' _ (head_mem out' size' h1' h'.run.procs 0 h'.run.procs _) k hk])
  rw [e1, e2]

/-! The hypotheses are met by the example of C109, with rates that depend on the state; the states of energy 1 are dropped by
a cutoff of 1.5. -/

noncomputable def exSetup (omega : Bool) (mu : ℝ) : RtaSetup where
  B := exBand
  toState b := b
  numChemPots := 1
  numTemps := 2
  stat c := ⟨1 + c, mu, 0⟩
  numPoints := 6
  volume := 2
  crt := none
  omega := omega
  diag c b := (1 + (b : ℝ)) * if omega then 1 else
    boseOccupation (exBand.energy b) (1 + c) * (boseOccupation (exBand.energy b) (1 + c) + 1)

theorem exSetup_ready (omega : Bool) (mu : ℝ) :
    RtaReady (exSetup omega mu) 2 (fun r => [(sliceOf exBand.irr r 2).reverse]) (fun is => [is, is + 3]) 6
      (fun _ s => 1 + ((s % 3 : Nat) : ℝ)) where
  run := exBand_run
  small := (by decide : ((1 * 2 * 3 : Nat) : Int) ≤ intMax)
  back := fun _ _ => rfl
  temps := fun c _ => by simp only [exSetup]; positivity
  symmetric := by
    intro c _ is his s hs
    simp only [List.mem_cons, List.not_mem_nil, or_false] at hs
    rcases hs with rfl | rfl <;> simp
  positive := fun c s => by positivity

example (omega : Bool) : RatesOf (exSetup omega 0) (fun is => ¬ exBand.energy is < 3 / 2)
    (fun c is => boseOccupation (exBand.energy is) (1 + c) * (boseOccupation (exBand.energy is) (1 + c) + 1))
    (fun _ s => 1 + ((s % 3 : Nat) : ℝ)) := by
  right
  refine ⟨(fun T hT => by cases hT), ?_⟩
  intro c _ is his _
  have his' : is < 3 := by
    simp only [exSetup, exBand, List.mem_cons, List.not_mem_nil, or_false] at his; omega
  simp only [exSetup, show exBand.toBte is = is from rfl, Nat.mod_eq_of_lt his']
  cases omega
  · simp only [Bool.false_eq_true, if_false]; ring
  · simp only [if_true]; ring

example : RatesOf (exSetup true 1) (fun _ => True)
    (fun c is => fermiOccupation (exBand.energy is) (1 + c) 1 * (1 - fermiOccupation (exBand.energy is) (1 + c) 1))
    (fun _ s => 1 + ((s % 3 : Nat) : ℝ)) := by
  right
  refine ⟨(fun T hT => by cases hT), ?_⟩
  intro c _ is his _
  have his' : is < 3 := by
    simp only [exSetup, exBand, List.mem_cons, List.not_mem_nil, or_false] at his; omega
  simp only [exSetup, show exBand.toBte is = is from rfl, Nat.mod_eq_of_lt his', if_true]
  ring

end Verif.Props
