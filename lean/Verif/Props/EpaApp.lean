import Verif.Proofs.EpaApp
import Verif.Props.Times
import Verif.Spec.DosApp

/-!
# C179: the app of the electron-phonon averaged approximation, from the bands to the three files

Specification: `windowEnergy`, `spinDensity`, `epaRateOf`, `epaMoment` (Spec/EpaApp).
-/
namespace Verif.Props
open Verif.Model Verif.Spec Verif.Proofs

theorem entry2_json (numCalc n : Nat) (f : Nat → Nat → ℝ) (c i : Nat) (hc : c < numCalc) (hi : i < n) :
    entry2 (jsonList numCalc fun c => jsonList n fun i => f c i) c i = some (f c i) := by
  unfold entry2
  simp only [jsonList_val]
  rw [List.getElem?_map, List.getElem?_range hc]
  simp only [Option.map_some, Option.bind_some]
  rw [List.getElem?_map, List.getElem?_range hi]
  rfl

theorem json_entry {α : Type} (n : Nat) (f : Nat → α) (c : Nat) (hc : c < n) : (jsonList n f)[c]? = some (f c) := by
  rw [jsonList_val, List.getElem?_map, List.getElem?_range hc]
  rfl

/-- The file of the relaxation times.  For any crystal, mesh, window, number of processes: the head process writes, for each
calculation, its temperature in kelvin, chemical potential in eV and doping, and for each energy of the window, in eV, the
rate of the averaged golden rule as a linewidth in eV and as a relaxation time in fs.  The times are `2π` times too long. -/
theorem C179_times_partial (A : EpaApp) (g : Nat → ℝ → ℝ → ℝ) (star : Nat → List Nat) (numStates n size : Nat)
    (h : EpaReady A g star numStates n size) (k : TimeConstants) (hk : GoodConstants k) (u : ReportUnits) (toCm : ℝ) :
    ∃ out f, epaApp A k u toCm size 0 = .ok out ∧ out.times = some f ∧
      (f.temperatureUnit, f.chemPotUnit, f.dopingUnit, f.linewidthUnit, f.timeUnit, f.energyUnit) =
        ("K", "eV", "cm$^{-3}$", "eV", "fs", "eV") ∧
      f.times.length = A.numCalc ∧ f.linewidths.length = A.numCalc ∧
      ∀ c < A.numCalc, f.temperatures[c]? = some ((A.stat c).temp * u.temperature) ∧
        f.chemPots[c]? = some ((A.stat c).chemPot * (k.rydberg / k.electronVolt)) ∧
        f.dopings[c]? = some (A.stat c).doping ∧
        ∀ i < n, entry2 f.energies c i = some (windowEnergy A i * (k.rydberg / k.electronVolt)) ∧
          (0 < epaRateOf A g numStates n c i →
            entry2 f.linewidths c i = some (linewidthEv k (epaRateOf A g numStates n c i)) ∧
            ∃ t, entry2 f.times c i = some t ∧ t * 1e-15 = 2 * Real.pi * rateSeconds k (epaRateOf A g numStates n c i)) := by
  refine ⟨_, _, epaApp_val h k u toCm 0 h.procs, rfl, rfl, ?_, ?_, fun c hc => ⟨?_, ?_, ?_, fun i hi => ⟨?_, fun hr => ?_⟩⟩⟩
  · simp only [epaTimesFile, jsonList_val, List.length_map, List.length_range]
  · simp only [epaTimesFile, jsonList_val, List.length_map, List.length_range]
  · exact json_entry _ _ c hc
  · exact json_entry _ _ c hc
  · exact json_entry _ _ c hc
  · exact entry2_json A.numCalc n (fun _ i => windowEnergy A i * energyRyToEvOf k) c i hc hi
  · obtain ⟨p1, p2, _⟩ := C136_violated_epa k hk _ hr
    refine ⟨?_, _, entry2_json A.numCalc n (fun c i => (printedEpa k (epaRateOf A g numStates n c i)).1) c i hc hi, p2⟩
    rw [← p1]
    exact entry2_json A.numCalc n (fun c i => (printedEpa k (epaRateOf A g numStates n c i)).2) c i hc hi

/-- The full C179 is violated: in the file of a run the relaxation time of an energy times its linewidth is not `ħ` but
`2π ħ`. -/
theorem C179_violated_times (A : EpaApp) (g : Nat → ℝ → ℝ → ℝ) (star : Nat → List Nat) (numStates n size : Nat)
    (h : EpaReady A g star numStates n size) (k : TimeConstants) (hk : GoodConstants k) (u : ReportUnits) (toCm : ℝ)
    (c i : Nat) (hc : c < A.numCalc) (hi : i < n) (hr : 0 < epaRateOf A g numStates n c i) :
    ∃ out f t l, epaApp A k u toCm size 0 = .ok out ∧ out.times = some f ∧ entry2 f.times c i = some t ∧
      entry2 f.linewidths c i = some l ∧ t * 1e-15 * l = 2 * Real.pi * hbarEv k := by
  refine ⟨_, _, _, _, epaApp_val h k u toCm 0 h.procs, rfl,
    entry2_json A.numCalc n (fun c i => (printedEpa k (epaRateOf A g numStates n c i)).1) c i hc hi,
    entry2_json A.numCalc n (fun c i => (printedEpa k (epaRateOf A g numStates n c i)).2) c i hc hi, ?_⟩
  exact (C136_violated_epa k hk _ hr).2.2

/-- The transport coefficients.  The terminal and the file have the same tables; the electrical conductivity is the moment
`K0` of the transport distribution of the bands, in `S/m`, and the Seebeck coefficient `-K0⁻¹ K1 / T`.  The thermal
conductivity is `(K2 - K1 K0⁻¹ K1) / T`, in `W/(m K)`, if the first moment vanishes; it is `(K2 + K1 K0⁻¹ K1) / T` in
general.  The other processes write nothing. -/
theorem C179_coefficients_partial (A : EpaApp) (g : Nat → ℝ → ℝ → ℝ) (star : Nat → List Nat) (numStates n size : Nat)
    (h : EpaReady A g star numStates n size) (k : TimeConstants) (u : ReportUnits) (toCm : ℝ) :
    (∃ out file, epaApp A k u toCm size 0 = .ok out ∧ out.file = some file ∧
      (blocks "iCalc =" out.terminal).map (fun b => numbersOf b.1) = file.temperatures.map (fun T => [T]) ∧
      (blocks "iCalc =" out.terminal).map (fun b => tableBelow "Electrical Conductivity" b.2) = file.sigma.map some ∧
      (blocks "iCalc =" out.terminal).map (fun b => tableBelow "Thermal Conductivity" b.2) = file.kappa.map some ∧
      (blocks "iCalc =" out.terminal).map (fun b => tableBelow "Seebeck Coefficient" b.2) = file.seebeck.map some ∧
      ∀ c < A.numCalc,
        let T := (A.stat c).temp
        let K := epaMoment A numStates n T (A.stat c).chemPot (epaRateOf A g numStates n c)
        file.temperatures[c]? = some (T * u.temperature) ∧
        file.chemPots[c]? = some ((A.stat c).chemPot * u.ev) ∧
        file.dopings[c]? = some (A.stat c).doping ∧
        ∀ i j : Fin 3,
          entry3 file.sigma c i j = some (K 0 i j * siConductivity u.si.electron u.si.hbar u.si.bohr 3) ∧
          entry3 file.seebeck c i j = some (-(((K 0)⁻¹ * K 1) i j / T) * u.seebeck) ∧
          entry3 file.kappa c i j = some (((K 2 + K 1 * (K 0)⁻¹ * K 1) i j / T) *
            siThermal u.si.boltzmann u.si.rydberg u.si.hbar u.si.bohr 3) ∧
          (K 1 = 0 → entry3 file.kappa c i j = some (((K 2 - K 1 * (K 0)⁻¹ * K 1) i j / T) *
            siThermal u.si.boltzmann u.si.rydberg u.si.hbar u.si.bohr 3))) ∧
    ∀ rank, 0 < rank → rank < size → epaApp A k u toCm size rank = .ok ⟨none, none, [], none⟩ := by
  constructor
  · obtain ⟨f, f1, _, f3, _, f5, f6, f7, _⟩ := C172_electrons u 3 A.numCalc (by norm_num) A.stat
      (onsagerElements (epaCoefficients A g toCm numStates n))
    refine ⟨_, f, epaApp_val h k u toCm 0 h.procs, f1, f3, f5, f6, f7, ?_⟩
    intro c hc T K
    have key : ∀ i j : Fin 3, f.temperatures[c]? = some (T * u.temperature) ∧
        f.chemPots[c]? = some ((A.stat c).chemPot * u.ev) ∧ f.dopings[c]? = some (A.stat c).doping ∧
        entry3 f.sigma c i j = some (K 0 i j * convSigma u.si 3) ∧
        entry3 f.kappa c i j = some (((1 / T) • (K 2 + K 1 * (K 0)⁻¹ * K 1)) i j * convKappa u.si 3) ∧
        entry3 f.seebeck c i j = some ((-(1 / T) • ((K 0)⁻¹ * K 1)) i j * u.seebeck) := by
      intro i j
      obtain ⟨f', g1, g2, g3, g4, g5, g6, g7⟩ := C172_electron_file u 3 A.numCalc A.stat
        (onsagerElements (epaCoefficients A g toCm numStates n)) c i j hc i.isLt j.isLt
      rw [f1] at g1
      have hfg := Option.some.inj g1
      subst hfg
      refine ⟨g2, g3, g4, ?_, ?_, ?_⟩
      · rw [g5]
        simp only [onsagerElements, elementsOf3_val]
        rfl
      · rw [g6]
        simp only [onsagerElements, elementsOf3_val, epaCoefficients, coefficients_of_epa]
        rfl
      · rw [g7]
        simp only [onsagerElements, elementsOf3_val, epaCoefficients, transportCoefficients]
        rw [Matrix.mul_smul, Matrix.neg_mul, smul_neg, neg_smul, neg_smul, one_smul, neg_neg]
    have hconv : convKappa u.si 3 = siThermal u.si.boltzmann u.si.rydberg u.si.hbar u.si.bohr 3 := by
      unfold convKappa SiConstants.thConductivity siThermal
      rw [if_neg (by norm_num), if_neg (by norm_num), show (2 - ((3 : Nat) : ℤ)) = -1 by norm_num, zpow_neg_one]
      ring
    have hkap : ∀ i j : Fin 3, entry3 f.kappa c i j = some (((K 2 + K 1 * (K 0)⁻¹ * K 1) i j / T) *
            siThermal u.si.boltzmann u.si.rydberg u.si.hbar u.si.bohr 3) := by
      intro i j
      rw [(key i j).2.2.2.2.1, hconv, Matrix.smul_apply, smul_eq_mul]
      congr 2
      ring
    refine ⟨(key 0 0).1, (key 0 0).2.1, (key 0 0).2.2.1, fun i j => ⟨?_, ?_, hkap i j, fun h0 => ?_⟩⟩
    · rw [(key i j).2.2.2.1]
      congr 2
      unfold convSigma SiConstants.elConductivity siConductivity
      rw [if_neg (by norm_num), if_neg (by norm_num), show (2 - ((3 : Nat) : ℤ)) = -1 by norm_num, zpow_neg_one]
      ring
    · rw [(key i j).2.2.2.2.2, Matrix.smul_apply, smul_eq_mul]
      congr 2
      ring
    · rw [hkap i j, h0]
      simp
  · intro rank h0 hr
    rw [epaApp_val h k u toCm rank hr]
    have : (rank == 0) = false := by simpa using h0.ne'
    rw [this]
    rfl

/-- The file of the density of states: the energies of the window in eV, and the density of states of one spin, per volume
of the cell, per eV. -/
theorem C179_dos_partial (A : EpaApp) (g : Nat → ℝ → ℝ → ℝ) (star : Nat → List Nat) (numStates n size : Nat)
    (h : EpaReady A g star numStates n size) (k : TimeConstants) (u : ReportUnits) (toCm : ℝ) :
    ∃ out f, epaApp A k u toCm size 0 = .ok out ∧ out.dos = some f ∧
      f.particle = "electron" ∧ f.energyUnit = "eV" ∧ f.dosUnit = "1/eV" ∧
      f.energies = (List.range n).map (fun i => windowEnergy A i * rydbergIn k false) ∧
      f.dos = (List.range n).map fun i => spinDensity A numStates (windowEnergy A i) / rydbergIn k false := by
  refine ⟨_, _, epaApp_val h k u toCm 0 h.procs, rfl, rfl, rfl, rfl, ?_, ?_⟩
  · simp only [dosFile, dosOutput, Bool.false_eq_true, if_false, List.map_map, rydbergIn, div_one]
    rfl
  · simp only [dosFile, dosOutput, Bool.false_eq_true, if_false, List.map_map, rydbergIn, div_one]
    rfl

/-- All the files and the terminal of the head are the same on any number of processes. -/
theorem C179_processes (A : EpaApp) (g : Nat → ℝ → ℝ → ℝ) (star : Nat → List Nat) (numStates n size size' : Nat)
    (h : EpaReady A g star numStates n size) (h' : EpaReady A g star numStates n size') (k : TimeConstants)
    (u : ReportUnits) (toCm : ℝ) : epaApp A k u toCm size 0 = epaApp A k u toCm size' 0 := by
  rw [epaApp_val h k u toCm 0 h.procs, epaApp_val h' k u toCm 0 h'.procs]

/-- A window that holds no energy is refused. -/
theorem C179_empty_window_refused (A : EpaApp) (k : TimeConstants) (u : ReportUnits) (toCm : ℝ) (size rank : Nat)
    (hs : 0 < size) (hn : epaNumEnergies A.fermiLevel A.range A.step = .ok 0) (hc : 0 < A.numCalc) :
    epaApp A k u toCm size rank = .error := by
  obtain ⟨v, h1, _⟩ := fillReduce_val
    (fun i => .ok (epaVelocityAt A.B A.delta 3 A.numPoints A.volume (epaEnergy (A.setup 0)) i)) _ 0 size hs (by omega)
    (fun i _ => rfl)
  obtain ⟨d, k1, _⟩ := fillReduce_val
    (fun i => .ok (epaDosAt A.B A.delta A.numPoints A.volume (epaEnergy (A.setup 0)) i)) _ 0 size hs (by omega)
    (fun i _ => rfl)
  unfold epaApp
  rw [hn]
  simp only [Outcome.bind_eq, Outcome.bind_ok, epaVelocity, h1, k1]
  obtain ⟨m, hm⟩ : ∃ m, A.numCalc = m + 1 := ⟨A.numCalc - 1, by omega⟩
  rw [hm, List.range_succ_eq_map]
  have he : ∀ t mu dos, epaRates (A.setup 0) A.crt dos t mu size = .error := fun t mu dos =>
    C133_empty_mesh_refused (A.setup 0) rfl A.crt dos t mu size
  simp only [mapOutcome, he, Outcome.bind_eq]
  rfl

/-- The full C179 is violated: without spin-orbit coupling every linewidth of the file is half of that of the averaged
golden rule. -/
theorem C179_violated_spin (A : EpaApp) (g : Nat → ℝ → ℝ → ℝ) (star : Nat → List Nat) (numStates n size : Nat)
    (h : EpaReady A g star numStates n size) (k : TimeConstants) (hk : GoodConstants k) (u : ReportUnits) (toCm : ℝ)
    (hso : A.spinOrbit = false) (hcrt : A.crt = none) (c i : Nat) (hc : c < A.numCalc) (hi : i < n)
    (hr : 0 < goldenRate A g numStates n c i) :
    ∃ out f, epaApp A k u toCm size 0 = .ok out ∧ out.times = some f ∧
      entry2 f.linewidths c i = some (linewidthEv k (goldenRate A g numStates n c i) / 2) := by
  obtain ⟨out, f, h1, h2, _, _, _, h3⟩ := C179_times_partial A g star numStates n size h k hk u toCm
  have hv : epaRateOf A g numStates n c i = goldenRate A g numStates n c i / 2 := by
    simp only [epaRateOf, hcrt, hso, Bool.false_eq_true, if_false]
    ring
  refine ⟨out, f, h1, h2, ?_⟩
  rw [(((h3 c hc).2.2.2 i hi).2 (by rw [hv]; linarith)).1, hv]
  congr 1
  unfold linewidthEv
  ring

/-! The hypotheses are met by the band of three wavevectors and their opposites, with three energies and a phonon of half a
step. -/

/-- Energies 1, 2 and 3. -/
noncomputable def exEpaApp (so : Bool) : EpaApp where
  fermiLevel := 2
  range := 3 / 2
  step := 1
  phEnergies := [1 / 2]
  elEnergies := [0, 1, 2]
  average := fun _ _ _ => 1
  volume := 2
  spinOrbit := so
  B := exBand
  delta s e := if exBand.energy s = e then 1 else 0
  numPoints := 6
  numCalc := 2
  stat c := ⟨1 + c, 2, 0⟩
  crt := none

theorem exEpaApp_energy (so : Bool) (i : Nat) : windowEnergy (exEpaApp so) i = i + 1 := by
  simp only [windowEnergy, exEpaApp]; ring

theorem exEpaApp_ready (so : Bool) (size : Nat) (hs : 0 < size) (hs' : size < 1000) :
    EpaReady (exEpaApp so) (fun _ _ _ => 1) (fun is => [is, is + 3]) 6 3 size where
  procs := hs
  fits := by omega
  window := by
    have hf : ⌊((2 : ℝ) + 3 / 2 - (2 - 3 / 2)) / 1⌋ = 3 := by norm_num [Int.floor_eq_iff]
    have ht : truncInt (((2 : ℝ) + 3 / 2 - (2 - 3 / 2)) / 1) = 3 := by
      unfold truncInt
      rw [if_pos (by norm_num), hf]
    unfold epaNumEnergies
    simp only [exEpaApp, one_ne_zero, if_false, ht]
    norm_num
    rfl
  two := by norm_num
  step := by norm_num [exEpaApp]
  unfolding := exBand_run.unfolding
  velocities := exBand_run.velocities
  weights := by
    intro e is his s hs
    simp only [exEpaApp]
    rw [exBand_run.energies is his s hs]
  phonons := by simp [exEpaApp]
  jumps := by norm_num [exEpaApp]
  offMesh := by
    intro w hw m _ he
    simp only [exEpaApp, List.mem_singleton, mul_one] at hw he
    rw [hw] at he
    have h2 : (1 : ℝ) = ((2 * m : Nat) : ℝ) := by push_cast; linarith
    have : 1 = 2 * m := by exact_mod_cast h2
    omega
  temps := by intro c _; simp only [exEpaApp]; positivity
  coupling := by
    intro i hi nu hnu
    have hnu' : nu < 1 := hnu
    obtain rfl : nu = 0 := by omega
    have hib : (i : ℝ) ≤ 2 := by
      have : i ≤ 2 := by omega
      exact_mod_cast this
    have hi0 : (0 : ℝ) ≤ i := Nat.cast_nonneg i
    have hw : (exEpaApp so).phEnergies.getD 0 0 = 1 / 2 := rfl
    rw [exEpaApp_energy, hw]
    obtain ⟨j, k, h1⟩ := exEpa_coupling so (fun _ _ _ => 1) 0 (i + 1) (i + 1 + 1 / 2)
      (by rw [abs_le]; constructor <;> linarith) (by rw [abs_le]; constructor <;> linarith)
    obtain ⟨j', k', h2⟩ := exEpa_coupling so (fun _ _ _ => 1) 0 (i + 1) (i + 1 - 1 / 2)
      (by rw [abs_le]; constructor <;> linarith) (by rw [abs_le]; constructor <;> linarith)
    exact ⟨h1, h2⟩

theorem exEpaApp_density (so : Bool) (j : Nat) (hj : j < 3) : spinDensity (exEpaApp so) 6 (windowEnergy (exEpaApp so) j) = 1 / 6 := by
  rw [exEpaApp_energy]
  unfold spinDensity
  interval_cases j <;> simp only [exEpaApp, exBand, Finset.sum_range_succ, Finset.sum_range_zero] <;> norm_num

/-- The rates of this run are positive. -/
theorem exEpaApp_rate (so : Bool) : 0 < goldenRate (exEpaApp so) (fun _ _ _ => 1) 6 3 0 1 := by
  have hrho : ∀ x : ℝ, 0 ≤ x → x < 2 → interpolated (fun j => spinDensity (exEpaApp so) 6 (windowEnergy (exEpaApp so) j)) 3 x
      = 1 / 6 := by
    intro x h0 h2
    unfold interpolated
    have hf0 : 0 ≤ ⌊x⌋ := Int.floor_nonneg.mpr h0
    have hf1 : ⌊x⌋ < 2 := Int.floor_lt.mpr (by exact_mod_cast h2)
    rw [if_pos ⟨h0, by norm_num; linarith⟩]
    beta_reduce
    rw [exEpaApp_density so ⌊x⌋.toNat (by omega), exEpaApp_density so (⌊x⌋.toNat + 1) (by omega)]
    ring
  unfold goldenRate averagedRate
  have hw : (exEpaApp so).phEnergies = [1 / 2] := rfl
  simp only [hw, exEpaApp_energy, List.length_cons, List.length_nil, zero_add, List.range_one, List.map_cons, List.map_nil,
    List.sum_cons, List.sum_nil, add_zero, List.getD_cons_zero, one_mul]
  have hst : (exEpaApp so).step = 1 := rfl
  have hT : ((exEpaApp so).stat 0).temp = 1 := by simp [exEpaApp]
  have hmu : ((exEpaApp so).stat 0).chemPot = 2 := rfl
  have hV : (exEpaApp so).volume = 2 := rfl
  simp only [exEpaApp_energy] at hrho
  rw [hst, hT, hmu, hV, hrho _ (by norm_num) (by norm_num), hrho _ (by norm_num) (by norm_num)]
  have hb := (C45_bose_range (1 / 2) 1 0).2 (by norm_num) (by norm_num)
  have hfa := C45_fermi_range (((1 : Nat) : ℝ) + 1 + 1 / 2) 1 2
  have hfe := C45_fermi_range (((1 : Nat) : ℝ) + 1 - 1 / 2) 1 2
  have hpi := Real.pi_pos
  have h1 : 0 < getPopulation .bose (1 / 2) 1 0 + getPopulation .fermi (((1 : Nat) : ℝ) + 1 + 1 / 2) 1 2 := by
    linarith [hfa.1]
  have h2 : 0 < getPopulation .bose (1 / 2) 1 0 + 1 - getPopulation .fermi (((1 : Nat) : ℝ) + 1 - 1 / 2) 1 2 := by
    linarith [hfe.2.1]
  positivity

example (k : TimeConstants) (hk : GoodConstants k) (u : ReportUnits) :
    ∃ out f, epaApp (exEpaApp false) k u 1 2 0 = .ok out ∧ out.times = some f ∧
      entry2 f.linewidths 0 1 = some (linewidthEv k (goldenRate (exEpaApp false) (fun _ _ _ => 1) 6 3 0 1) / 2) :=
  C179_violated_spin (exEpaApp false) _ _ 6 3 2 (exEpaApp_ready false 2 (by norm_num) (by norm_num)) k hk u 1 rfl rfl 0 1
    (by simp [exEpaApp]) (by norm_num) (exEpaApp_rate false)

/-- The full C179 is violated: the file names the density of states `1/eV`, the unit of the densities per cell of the other
apps, but its numbers are divided by the volume of the cell. -/
theorem C179_violated_dos_unit (k : TimeConstants) (u : ReportUnits) :
    ∃ out f, epaApp (exEpaApp true) k u 1 2 0 = .ok out ∧ out.dos = some f ∧ f.dosUnit = "1/eV" ∧
      f.dos[0]? = some ((∑ s ∈ Finset.range 6, (exEpaApp true).delta s (windowEnergy (exEpaApp true) 0)) / 6 /
        rydbergIn k false / 2) ∧
      0 < ∑ s ∈ Finset.range 6, (exEpaApp true).delta s (windowEnergy (exEpaApp true) 0) := by
  obtain ⟨out, f, h1, h2, _, _, h5, _, h7⟩ := C179_dos_partial (exEpaApp true) _ _ 6 3 2
    (exEpaApp_ready true 2 (by norm_num) (by norm_num)) k u 1
  refine ⟨out, f, h1, h2, h5, ?_, ?_⟩
  · rw [h7, List.getElem?_map, List.getElem?_range (by norm_num), Option.map_some]
    congr 1
    unfold spinDensity
    have hn : (exEpaApp true).numPoints = 6 := rfl
    have hV : (exEpaApp true).volume = 2 := rfl
    rw [hn, hV]
    push_cast
    ring
  · rw [exEpaApp_energy]
    simp only [exEpaApp, exBand, Finset.sum_range_succ, Finset.sum_range_zero]
    norm_num

end Verif.Props
