import Verif.Proofs.EpaRates
import Verif.Props.Epa
import Verif.Props.Delta
import Verif.Props.Transport
import Mathlib.Algebra.BigOperators.Field
import Mathlib.Tactic.IntervalCases

/-!
# C133, C134: transport in the electron-phonon averaged approximation

Specification: `averagedRate` and `interpolated` (Spec/EpaRates), `crystalAverage`, `Unfolding` (Spec/Transport).
-/
namespace Verif.Props
open Verif.Model Verif.Spec

/-! ## C133: scattering rates -/

/-- A calculation of the rates on `size` processes: a mesh with a positive step, phonons of positive energy, a density of
states on the mesh, and energies at which the file has the coupling `g` (see C63). -/
structure EpaRun (s : EpaSetup) (dos : List ℝ) (g : Nat → ℝ → ℝ → ℝ) (size : Nat) : Prop where
  procs : 0 < size
  mesh : 0 < s.numEnergies
  fits : s.numEnergies * size < 18446744073709551616
  step : 0 < s.step
  states : dos.length = s.numEnergies
  phonons : ∀ w ∈ s.phEnergies, 0 ≤ w
  jumps : ∀ w ∈ s.phEnergies, w / s.step + s.numEnergies < 2147483647
  coupling : ∀ i < s.numEnergies, ∀ nu < s.phEnergies.length,
    epaCoupling s.elEnergies s.average nu (epaEnergy s i) (epaEnergy s i + s.phEnergies.getD nu 0) =
      .ok (g nu (epaEnergy s i) (epaEnergy s i + s.phEnergies.getD nu 0)) ∧
    epaCoupling s.elEnergies s.average nu (epaEnergy s i) (epaEnergy s i - s.phEnergies.getD nu 0) =
      .ok (g nu (epaEnergy s i) (epaEnergy s i - s.phEnergies.getD nu 0))

theorem getD_mem {l : List ℝ} {k : Nat} (h : k < l.length) : l.getD k 0 ∈ l := by
  rw [List.getD_eq_getElem?_getD, List.getElem?_eq_getElem h]
  exact List.getElem_mem h

/-- The rates are a sum over the modes on every process. -/
theorem epaRates_sum (s : EpaSetup) (dos : List ℝ) (g : Nat → ℝ → ℝ → ℝ) (size : Nat) (h : EpaRun s dos g size)
    (temp chemPot : ℝ) :
    ∃ (term : Nat → Nat → ℝ) (rho : Nat → Nat → ℝ × ℝ),
      (∀ i < s.numEnergies, ∀ nu < s.phEnergies.length,
        epaFinalDos dos s.step (s.phEnergies.getD nu 0) i = .ok (rho i nu) ∧
        term i nu = 2 * Real.pi / (if s.spinOrbit then 1 else 2) * s.volume *
          (g nu (epaEnergy s i) (epaEnergy s i + s.phEnergies.getD nu 0) * (getPopulation .bose (s.phEnergies.getD nu 0) temp 0 +
            getPopulation .fermi (epaEnergy s i + s.phEnergies.getD nu 0) temp chemPot) * (rho i nu).2 +
           g nu (epaEnergy s i) (epaEnergy s i - s.phEnergies.getD nu 0) * (getPopulation .bose (s.phEnergies.getD nu 0) temp 0 + 1 -
            getPopulation .fermi (epaEnergy s i - s.phEnergies.getD nu 0) temp chemPot) * (rho i nu).1)) ∧
      ∃ res, epaRates s none dos temp chemPot size = .ok res ∧ res.length = size ∧
        ∀ f ∈ res, ∀ i < s.numEnergies, f i = ((List.range s.phEnergies.length).map (term i)).sum := by
  have key : ∀ i nu, i < s.numEnergies → nu < s.phEnergies.length → _ := fun i nu hi hnu =>
    epaModeRate_val s dos temp chemPot i nu (s.phEnergies.getD nu 0) _ _ h.step (h.phonons _ (getD_mem hnu))
      (by rw [h.states]; exact hi) (by rw [h.states]; exact h.jumps _ (getD_mem hnu)) (h.coupling i hi nu hnu).1
      (h.coupling i hi nu hnu).2
  classical
  let rho : Nat → Nat → ℝ × ℝ := fun i nu =>
    if hh : i < s.numEnergies ∧ nu < s.phEnergies.length then (key i nu hh.1 hh.2).choose else 0
  let term : Nat → Nat → ℝ := fun i nu => 2 * Real.pi / (if s.spinOrbit then 1 else 2) * s.volume *
          (g nu (epaEnergy s i) (epaEnergy s i + s.phEnergies.getD nu 0) * (getPopulation .bose (s.phEnergies.getD nu 0) temp 0 +
            getPopulation .fermi (epaEnergy s i + s.phEnergies.getD nu 0) temp chemPot) * (rho i nu).2 +
           g nu (epaEnergy s i) (epaEnergy s i - s.phEnergies.getD nu 0) * (getPopulation .bose (s.phEnergies.getD nu 0) temp 0 + 1 -
            getPopulation .fermi (epaEnergy s i - s.phEnergies.getD nu 0) temp chemPot) * (rho i nu).1)
  have hrho : ∀ i nu (hi : i < s.numEnergies) (hnu : nu < s.phEnergies.length), rho i nu = (key i nu hi hnu).choose := by
    intro i nu hi hnu
    simp only [rho]
    rw [dif_pos ⟨hi, hnu⟩]
  refine ⟨term, rho, fun i hi nu hnu => ⟨by rw [hrho i nu hi hnu]; exact (key i nu hi hnu).choose_spec.1, rfl⟩, ?_⟩
  have hat : ∀ i < s.numEnergies, epaRateAt s dos temp chemPot i = .ok ((List.range s.phEnergies.length).map (term i)).sum := by
    intro i hi
    unfold epaRateAt
    rw [mapOutcome_eq_map _ (term i) _ (fun nu hnu => ?_)]
    · simp only [Outcome.bind_eq, Outcome.bind_ok]
      rw [foldl_add_sum, zero_add]
    · have hnu := List.mem_range.mp hnu
      rw [(key i nu hi hnu).choose_spec.2, ← hrho i nu hi hnu]
  obtain ⟨res, h1, h2, h3⟩ := fillReduce_val (epaRateAt s dos temp chemPot) _ s.numEnergies size h.procs h.fits hat
  refine ⟨res, ?_, h2, h3⟩
  unfold epaRates
  rw [if_neg h.mesh.ne']
  exact h1

/-- Partial C133: on every process, for any number of processes, the rate at each energy of the mesh is the averaged
golden rule with the density of states interpolated between energies of the mesh.  Missing: half of the rate without
spin-orbit coupling (`C133_violated_spin`), and energies with a final state exactly on the first or last energy of the
mesh (`C133_violated_edge`). -/
theorem C133_value_partial (s : EpaSetup) (dos : List ℝ) (g : Nat → ℝ → ℝ → ℝ) (size : Nat) (h : EpaRun s dos g size)
    (temp chemPot : ℝ) :
    ∃ res, epaRates s none dos temp chemPot size = .ok res ∧ res.length = size ∧ ∀ f ∈ res, ∀ i < s.numEnergies,
      (∀ w ∈ s.phEnergies, epaEnergy s i - w ≠ epaEnergy s 0 ∧ epaEnergy s i + w ≠ epaEnergy s (s.numEnergies - 1)) →
      f i = (if s.spinOrbit then 1 else 1 / 2) * averagedRate s.volume temp chemPot s.phEnergies g
        (fun e => interpolated (fun k => dos.getD k 0) s.numEnergies ((e - epaEnergy s 0) / s.step)) (epaEnergy s i) := by
  obtain ⟨term, rho, h1, res, h2, h3, h4⟩ := epaRates_sum s dos g size h temp chemPot
  refine ⟨res, h2, h3, fun f hf i hi hedge => ?_⟩
  rw [h4 f hf i hi]
  unfold averagedRate
  rw [← mul_assoc, ← List.sum_map_mul_left]
  congr 1
  apply List.map_congr_left
  intro nu hnu
  have hnu := List.mem_range.mp hnu
  obtain ⟨hr, ht⟩ := h1 i hi nu hnu
  have hmem := getD_mem hnu
  obtain ⟨hd1, hd2⟩ := hedge _ hmem
  generalize s.phEnergies.getD nu 0 = w at *
  obtain ⟨j, hj, hval⟩ := epaFinalDos_val dos s.step w i h.step (h.phonons w hmem) (by rw [h.states]; exact hi)
    (by rw [h.states]; exact h.jumps w hmem)
  rw [hval] at hr
  have hr := Outcome.ok.inj hr
  have hst := h.step
  have e1 : (epaEnergy s i - w - epaEnergy s 0) / s.step = i - w / s.step := by
    unfold epaEnergy; field_simp; push_cast; ring
  have e2 : (epaEnergy s i + w - epaEnergy s 0) / s.step = i + w / s.step := by
    unfold epaEnergy; field_simp; push_cast; ring
  have hn : ((s.numEnergies - 1 : Nat) : ℝ) = s.numEnergies - 1 := by rw [Nat.cast_sub h.mesh]; norm_num
  have hne1 : (i : ℝ) ≠ w / s.step := by
    intro hh
    apply hd1
    unfold epaEnergy
    rw [hh]; field_simp; push_cast; ring
  have hne2 : (s.numEnergies : ℝ) - 1 - i ≠ w / s.step := by
    intro hh
    apply hd2
    have : w = ((s.numEnergies : ℝ) - 1 - i) * s.step := by rw [hh]; field_simp
    unfold epaEnergy
    rw [this, hn]; ring
  rw [ht, ← hr]
  simp only
  rw [h.states, interpolated_emission (fun k => dos.getD k 0) s.numEnergies i j _ hj hi hne1,
    interpolated_absorption (fun k => dos.getD k 0) s.numEnergies i j _ hj hne2, e1, e2]
  cases s.spinOrbit
  · simp only [Bool.false_eq_true, if_false]; ring
  · simp only [if_true]; ring

/-- The rates are never negative, at all the energies of the mesh. -/
theorem C133_nonneg (s : EpaSetup) (dos : List ℝ) (g : Nat → ℝ → ℝ → ℝ) (size : Nat) (h : EpaRun s dos g size)
    (temp chemPot : ℝ) (hv : 0 ≤ s.volume) (hd : ∀ x ∈ dos, 0 ≤ x) (hg : ∀ nu e e', 0 ≤ g nu e e') :
    ∃ res, epaRates s none dos temp chemPot size = .ok res ∧ ∀ f ∈ res, ∀ i < s.numEnergies, 0 ≤ f i := by
  obtain ⟨term, rho, h1, res, h2, h3, h4⟩ := epaRates_sum s dos g size h temp chemPot
  refine ⟨res, h2, fun f hf i hi => ?_⟩
  rw [h4 f hf i hi]
  apply List.sum_nonneg
  intro x hx
  obtain ⟨nu, hnu, rfl⟩ := List.mem_map.mp hx
  have hnu := List.mem_range.mp hnu
  obtain ⟨hr, ht⟩ := h1 i hi nu hnu
  have hmem := getD_mem hnu
  generalize s.phEnergies.getD nu 0 = w at *
  obtain ⟨j, hj, hval⟩ := epaFinalDos_val dos s.step w i h.step (h.phonons w hmem) (by rw [h.states]; exact hi)
    (by rw [h.states]; exact h.jumps w hmem)
  rw [hval] at hr
  have hr := Outcome.ok.inj hr
  have hdos : ∀ k, 0 ≤ dos.getD k 0 := by
    intro k
    by_cases hk : k < dos.length
    · exact hd _ (getD_mem hk)
    · rw [List.getD_eq_getElem?_getD, List.getElem?_eq_none (by omega)]; simp
  have hf0 := Int.fract_nonneg (w / s.step)
  have hf1 := (Int.fract_lt_one (w / s.step)).le
  have hf1' : 0 ≤ 1 - Int.fract (w / s.step) := by linarith
  have hr1 : 0 ≤ (rho i nu).1 := by
    rw [← hr]
    simp only
    split
    · exact add_nonneg (mul_nonneg (hdos _) hf0) (mul_nonneg (hdos _) hf1')
    · exact le_rfl
  have hr2 : 0 ≤ (rho i nu).2 := by
    rw [← hr]
    simp only
    split
    · exact add_nonneg (mul_nonneg (hdos _) hf1') (mul_nonneg (hdos _) hf0)
    · exact le_rfl
  rw [ht]
  have hb := (C45_bose_range w temp 0).1
  have hfa := C45_fermi_range (epaEnergy s i + w) temp chemPot
  have hfe := C45_fermi_range (epaEnergy s i - w) temp chemPot
  have hpi := Real.pi_pos
  have hn : 0 ≤ 2 * Real.pi / (if s.spinOrbit then (1 : ℝ) else 2) * s.volume := by
    cases s.spinOrbit <;> simp <;> positivity
  refine mul_nonneg hn (add_nonneg (mul_nonneg (mul_nonneg (hg _ _ _) (by linarith)) hr2)
    (mul_nonneg (mul_nonneg (hg _ _ _) (by linarith)) hr1))

/-- Three energies, a phonon of half a step, constant coupling. -/
noncomputable def exEpa (so : Bool) : EpaSetup := ⟨-1 / 2, 1, 3, [1 / 2], [0, 1, 2], fun _ _ _ => 1, 1, so⟩

theorem exEpa_coupling (so : Bool) (avg : Nat → Nat → Nat → ℝ) (nu : Nat) (e e' : ℝ) (he : |e| ≤ 1000) (he' : |e'| ≤ 1000) :
    ∃ j k, epaCoupling (exEpa so).elEnergies avg nu e e' = .ok (avg nu j k) := by
  obtain ⟨j, k, _, _, h, _⟩ := C63_nearest_partial (α := ℝ) [0, 1, 2] avg nu e e' 0 1 (by simp) (by norm_num)
    (by
      intro i hi
      have : i < 3 := by simpa using hi
      interval_cases i <;> norm_num) (by simp) (by rw [sub_zero, abs_one]; linarith) (by rw [sub_zero, abs_one]; linarith)
  exact ⟨j, k, h⟩

theorem exEpa_run (so : Bool) (size : Nat) (hs : 0 < size) (hs' : size < 1000) :
    EpaRun (exEpa so) [1, 1, 1] (fun _ _ _ => 1) size where
  procs := hs
  mesh := by simp [exEpa]
  fits := by simp only [exEpa]; omega
  step := by norm_num [exEpa]
  states := rfl
  phonons := by simp [exEpa]
  jumps := by norm_num [exEpa]
  coupling := by
    intro i hi nu hnu
    have hi' : i < 3 := hi
    have hnu' : nu < 1 := hnu
    obtain rfl : nu = 0 := by omega
    have hw : (exEpa so).phEnergies.getD 0 0 = 1 / 2 := rfl
    have he : epaEnergy (exEpa so) i = i := by simp only [epaEnergy, exEpa]; ring
    have hib : (i : ℝ) ≤ 2 := by
      have : i ≤ 2 := by omega
      exact_mod_cast this
    have hi0 : (0 : ℝ) ≤ i := Nat.cast_nonneg i
    rw [hw, he]
    obtain ⟨j, k, h1⟩ := exEpa_coupling so (fun _ _ _ => 1) 0 i (i + 1 / 2) (by rw [abs_le]; constructor <;> linarith)
      (by rw [abs_le]; constructor <;> linarith)
    obtain ⟨j', k', h2⟩ := exEpa_coupling so (fun _ _ _ => 1) 0 i (i - 1 / 2) (by rw [abs_le]; constructor <;> linarith)
      (by rw [abs_le]; constructor <;> linarith)
    exact ⟨h1, h2⟩

/-- Two processes: `C133_value_partial` applies at the energy in the middle. -/
example : ∃ res, epaRates (exEpa true) none [1, 1, 1] 1 0 2 = .ok res ∧ ∀ f ∈ res, 0 ≤ f 1 := by
  obtain ⟨res, h1, h2⟩ := C133_nonneg (exEpa true) [1, 1, 1] _ 2 (exEpa_run true 2 (by norm_num) (by norm_num)) 1 0
    (by norm_num [exEpa]) (by simp) (by intros; norm_num)
  exact ⟨res, h1, fun f hf => h2 f hf 1 (by simp [exEpa])⟩

theorem exEpa_positive (rho : ℝ → ℝ) (e w : ℝ) (hw : 0 < w) (h1 : 0 ≤ rho (e + w)) (h2 : 0 < rho (e - w)) :
    0 < averagedRate 1 1 0 [w] (fun _ _ _ => 1) rho e := by
  have hb := (C45_bose_range w 1 0).2 (by norm_num) hw
  have hfa := C45_fermi_range (e + w) 1 0
  have hfe := (C45_fermi_range (e - w) 1 0)
  have hpi := Real.pi_pos
  unfold averagedRate
  simp only [List.length_cons, List.length_nil, zero_add, List.range_one, List.map_cons, List.map_nil, List.sum_cons,
    List.sum_nil, add_zero, List.getD_cons_zero, one_mul, mul_one]
  have : 0 < (getPopulation .bose w 1 0 + 1 - getPopulation .fermi (e - w) 1 0) * rho (e - w) :=
    mul_pos (by linarith [hfe.2.1]) h2
  have : 0 ≤ (getPopulation .bose w 1 0 + getPopulation .fermi (e + w) 1 0) * rho (e + w) :=
    mul_nonneg (by linarith [hfa.1]) h1
  positivity

/-- The full C133 is violated: without spin-orbit coupling the rate is half of the golden rule, because the density of
states, which has no spin factor, is divided by the spin degeneracy. -/
theorem C133_violated_spin : ∃ res, epaRates (exEpa false) none [1, 1, 1] 1 0 1 = .ok res ∧ ∀ f ∈ res,
    0 < averagedRate 1 1 0 [1 / 2] (fun _ _ _ => 1) (interpolated (fun k => [1, 1, 1].getD k 0) 3) 1 ∧
    f 1 = averagedRate 1 1 0 [1 / 2] (fun _ _ _ => 1) (interpolated (fun k => [1, 1, 1].getD k 0) 3) 1 / 2 := by
  obtain ⟨res, h1, _, h3⟩ := C133_value_partial (exEpa false) [1, 1, 1] _ 1 (exEpa_run false 1 (by norm_num) (by norm_num)) 1 0
  refine ⟨res, h1, fun f hf => ⟨?_, ?_⟩⟩
  · apply exEpa_positive
    · norm_num
    · unfold interpolated
      rw [if_pos (by norm_num), show (1 : ℝ) + 1 / 2 = ((1 : Nat) : ℝ) + 1 / 2 by norm_num, Int.floor_natCast_add,
        Int.fract_natCast_add, show ⌊(1 / 2 : ℝ)⌋ = 0 by norm_num, show Int.fract (1 / 2 : ℝ) = 1 / 2 by norm_num]
      norm_num
    · unfold interpolated
      rw [if_pos (by norm_num), show (1 : ℝ) - 1 / 2 = 1 / 2 by norm_num, show ⌊(1 / 2 : ℝ)⌋ = 0 by norm_num,
        show Int.fract (1 / 2 : ℝ) = 1 / 2 by norm_num]
      norm_num
  · have := h3 f hf 1 (by simp [exEpa]) (by
      intro w hw
      simp only [exEpa, List.mem_singleton] at hw
      rw [hw]
      simp only [epaEnergy, exEpa]
      norm_num)
    rw [this]
    have e0 : epaEnergy (exEpa false) 0 = 0 := by simp only [epaEnergy, exEpa]; norm_num
    have e1 : epaEnergy (exEpa false) 1 = 1 := by simp only [epaEnergy, exEpa]; norm_num
    rw [e0, e1]
    simp only [exEpa, sub_zero, div_one, Bool.false_eq_true, if_false]
    ring

/-- A phonon of exactly one step on a mesh of three energies. -/
noncomputable def exEpaEdge : EpaSetup := ⟨-1 / 2, 1, 3, [1], [0, 1, 2], fun _ _ _ => 1, 1, true⟩

/-- The full C133 is violated: from the middle of a mesh of three energies, phonons of exactly one step lead to the first
and last energies of the mesh, where there are states; the rate is zero. -/
theorem C133_violated_edge : ∃ res, epaRates exEpaEdge none [1, 1, 1] 1 0 1 = .ok res ∧ ∀ f ∈ res, f 1 = 0 ∧
    0 < averagedRate 1 1 0 [1] (fun _ _ _ => 1) (interpolated (fun k => [1, 1, 1].getD k 0) 3) 1 := by
  have hrun : EpaRun exEpaEdge [1, 1, 1] (fun _ _ _ => 1) 1 := {
    procs := one_pos
    mesh := by simp [exEpaEdge]
    fits := by simp [exEpaEdge]
    step := by norm_num [exEpaEdge]
    states := rfl
    phonons := by simp [exEpaEdge]
    jumps := by norm_num [exEpaEdge]
    coupling := by
      intro i hi nu hnu
      have hi' : i < 3 := hi
      have hnu' : nu < 1 := hnu
      obtain rfl : nu = 0 := by omega
      have hw : exEpaEdge.phEnergies.getD 0 0 = 1 := rfl
      have he : epaEnergy exEpaEdge i = i := by simp only [epaEnergy, exEpaEdge]; ring
      have hib : (i : ℝ) ≤ 2 := by
        have : i ≤ 2 := by omega
        exact_mod_cast this
      have hi0 : (0 : ℝ) ≤ i := Nat.cast_nonneg i
      rw [hw, he]
      obtain ⟨j, k, h1⟩ := exEpa_coupling true (fun _ _ _ => 1) 0 i (i + 1) (by rw [abs_le]; constructor <;> linarith)
        (by rw [abs_le]; constructor <;> linarith)
      obtain ⟨j', k', h2⟩ := exEpa_coupling true (fun _ _ _ => 1) 0 i (i - 1) (by rw [abs_le]; constructor <;> linarith)
        (by rw [abs_le]; constructor <;> linarith)
      exact ⟨h1, h2⟩ }
  obtain ⟨term, rho, h1, res, h2, h3, h4⟩ := epaRates_sum exEpaEdge [1, 1, 1] _ 1 hrun 1 0
  refine ⟨res, h2, fun f hf => ⟨?_, ?_⟩⟩
  · rw [h4 f hf 1 (by simp [exEpaEdge])]
    obtain ⟨hr, ht⟩ := h1 1 (by simp [exEpaEdge]) 0 (by simp [exEpaEdge])
    obtain ⟨j, hj, hval⟩ := epaFinalDos_val [1, 1, 1] 1 1 1 one_pos zero_le_one (by simp) (by norm_num)
    have hj1 : j = 1 := by
      rw [div_one, Int.floor_one] at hj
      exact_mod_cast hj
    have hr' : epaFinalDos [1, 1, 1] 1 1 1 = .ok (rho 1 0) := hr
    rw [hval, hj1] at hr'
    have hr' := Outcome.ok.inj hr'
    rw [if_neg (by norm_num), if_neg (by simp)] at hr'
    rw [show exEpaEdge.phEnergies.length = 1 from rfl, List.range_one, List.map_cons, List.map_nil, List.sum_cons,
      List.sum_nil, add_zero, ht, ← hr']
    simp
  · apply exEpa_positive
    · norm_num
    · unfold interpolated
      rw [if_pos (by norm_num), show (1 : ℝ) + 1 = ((2 : Nat) : ℝ) by norm_num, Int.floor_natCast, Int.fract_natCast]
      simp
    · unfold interpolated
      norm_num

/-- The full C133 is violated: with an averaged phonon energy that is negative (an unstable mode), the density of states is
read before its first element. -/
theorem C133_violated_imaginary (s : EpaSetup) (hst : s.step = 1) (hn : s.numEnergies = 2)
    (hw : s.phEnergies = [-3 / 2]) (temp chemPot : ℝ) : epaRates s none [1, 1] temp chemPot 1 = .ub := by
  have hf : epaFinalDos [1, 1] 1 (-3 / 2) 0 = .ub := by
    have hc : ⌈(-3 / 2 : ℝ)⌉ = -1 := by norm_num [Int.ceil_eq_iff]
    unfold epaFinalDos truncInt
    rw [if_neg one_ne_zero, div_one, if_neg (by norm_num), hc]
    rfl
  have h1 : epaRateAt s [1, 1] temp chemPot 0 = .ub := by
    unfold epaRateAt
    rw [hw]
    simp only [List.length_cons, List.length_nil, zero_add, List.range_one, mapOutcome, epaModeRate, hst,
      List.getD_cons_zero, hf, Outcome.bind_eq]
    rfl
  have h2 : fillShare (epaRateAt s [1, 1] temp chemPot) 2 0 1 = .ub := by
    unfold fillShare
    rw [divideWorkIter_val (by norm_num) (by norm_num), show head 2 1 0 = 0 from rfl, show head 2 1 (0 + 1) = 2 from rfl,
      show List.range' 0 (2 - 0) = [0, 1] from rfl]
    simp only [mapOutcome, h1, Outcome.bind_eq, Outcome.bind_ok]
    rfl
  unfold epaRates fillReduce
  rw [if_neg (by rw [hn]; norm_num), hn]
  simp only [List.range_one, mapOutcome, h2, Outcome.bind_eq]
  rfl

/-- An empty mesh is refused. -/
theorem C133_empty_mesh_refused (s : EpaSetup) (hn : s.numEnergies = 0) (crt : Option ℝ) (dos : List ℝ)
    (temp chemPot : ℝ) (size : Nat) : epaRates s crt dos temp chemPot size = .error := by
  unfold epaRates; rw [if_pos hn]

/-- The mesh of energies fills the window asked for: its centres lie strictly inside the window, consecutive bins cover it
from its lower end, and what is left at the upper end is smaller than one step. -/
theorem C133_window_covered (fermi range step : ℝ) (n : Nat) (hs : 0 < step) (hr : 0 ≤ range)
    (hn : epaNumEnergies fermi range step = .ok n) :
    (∀ i < n, fermi - range < ((i : ℝ) + 1 / 2) * step + (fermi - range) ∧
      ((i : ℝ) + 1 / 2) * step + (fermi - range) < fermi + range) ∧
    ∀ e, fermi - range ≤ e → e ≤ fermi + range - step →
      ∃ i < n, |e - (((i : ℝ) + 1 / 2) * step + (fermi - range))| ≤ step / 2 := by
  have hq : 0 ≤ (fermi + range - (fermi - range)) / step := by
    apply div_nonneg _ hs.le; linarith
  have hfl : ((n : ℤ)) = ⌊(fermi + range - (fermi - range)) / step⌋ := by
    unfold epaNumEnergies truncInt at hn
    simp only [hs.ne', if_false, if_pos hq] at hn
    split_ifs at hn with h
    · have := Outcome.ok.inj hn
      omega
  have hle : (n : ℝ) * step ≤ 2 * range := by
    have h := Int.floor_le ((fermi + range - (fermi - range)) / step)
    rw [← hfl, le_div_iff₀ hs] at h
    push_cast at h; linarith
  have hlt : 2 * range < ((n : ℝ) + 1) * step := by
    have h := Int.lt_floor_add_one ((fermi + range - (fermi - range)) / step)
    rw [← hfl, div_lt_iff₀ hs] at h
    push_cast at h; linarith
  refine ⟨fun i hi => ?_, fun e h1 h2 => ?_⟩
  · have hi' : (i : ℝ) + 1 ≤ n := by exact_mod_cast hi
    have h0 : (0 : ℝ) ≤ i := Nat.cast_nonneg i
    constructor
    · nlinarith
    · nlinarith
  · have hx : 0 ≤ (e - (fermi - range)) / step := div_nonneg (by linarith) hs.le
    refine ⟨⌊(e - (fermi - range)) / step⌋₊, ?_, ?_⟩
    · rw [Nat.floor_lt hx, div_lt_iff₀ hs]; linarith
    · have ha := Nat.floor_le hx
      have hb := Nat.lt_floor_add_one ((e - (fermi - range)) / step)
      rw [le_div_iff₀ hs] at ha
      rw [div_lt_iff₀ hs] at hb
      rw [abs_le]; constructor <;> linarith

/-- A case that meets the hypotheses: five energies, of which the last is at the upper end of the window minus half a step. -/
example : epaNumEnergies 1 1 (2 / 5) = .ok 5 := by
  have hf : ⌊((1 : ℝ) + 1 - (1 - 1)) / (2 / 5)⌋ = 5 := by norm_num [Int.floor_eq_iff]
  have ht : truncInt (((1 : ℝ) + 1 - (1 - 1)) / (2 / 5)) = 5 := by
    unfold truncInt
    rw [if_pos (by norm_num), hf]
  unfold epaNumEnergies
  simp only [show (2 / 5 : ℝ) ≠ 0 by norm_num, if_false, ht]
  norm_num
  rfl

/-- A range smaller than the step gives an empty mesh. -/
example : epaNumEnergies 0 0.1 1 = .ok 0 := by
  have hf : ⌊((0 : ℝ) + 0.1 - (0 - 0.1)) / 1⌋ = 0 := by norm_num [Int.floor_eq_iff]
  have ht : truncInt (((0 : ℝ) + 0.1 - (0 - 0.1)) / 1) = 0 := by
    unfold truncInt
    rw [if_pos (by norm_num), hf]
  unfold epaNumEnergies
  simp only [one_ne_zero, if_false, ht]
  rfl

/-! ## C134: energy-projected velocities and density of states -/

/-- Partial C134: when the weights have the symmetry of the crystal, the projected velocities and the density of states are
those of the full mesh, on every process and for any number of processes.  Missing: the weights of tetrahedra, which do
not have this symmetry, see `C134_violated_symmetry`. -/
theorem C134_value_partial (B : BandView) (delta : Nat → ℝ → ℝ) (dim numPoints : Nat) (volume : ℝ) (energies : Nat → ℝ)
    (numEnergies size : Nat) (star : Nat → List Nat) (numStates : Nat) (hs : 0 < size)
    (hfit : numEnergies * size < 18446744073709551616) (hU : Unfolding B.irr B.rots star numStates)
    (hv : Covariant B.irr B.rots star B.vel)
    (hd : ∀ i < numEnergies, Invariant B.irr star fun s => delta s (energies i)) :
    ∃ v d, epaVelocity B delta dim numPoints volume energies numEnergies size = .ok (v, d) ∧
      v.length = size ∧ d.length = size ∧
      (∀ f ∈ v, ∀ i < numEnergies, ∀ a b, f i a b = (2 * Real.pi) ^ dim *
        crystalAverage numStates numPoints volume B.vel B.vel (fun s => delta s (energies i)) a b) ∧
      ∀ f ∈ d, ∀ i < numEnergies, f i = (∑ s ∈ Finset.range numStates, delta s (energies i)) / (numPoints * volume) := by
  obtain ⟨v, h1, h2, h3⟩ := fillReduce_val (fun i => .ok (epaVelocityAt B delta dim numPoints volume energies i)) _
    numEnergies size hs hfit (fun i _ => rfl)
  obtain ⟨d, k1, k2, k3⟩ := fillReduce_val (fun i => .ok (epaDosAt B delta numPoints volume energies i)) _
    numEnergies size hs hfit (fun i _ => rfl)
  refine ⟨v, d, ?_, h2, k2, fun f hf i hi a b => ?_, fun f hf i hi => ?_⟩
  · unfold epaVelocity
    simp only [h1, k1, Outcome.bind_eq, Outcome.bind_ok]
  · rw [h3 f hf i hi, epaVelocityAt_sum]
    rw [unfold_sum hU _ (fun s => B.vel s a * B.vel s b * delta s (energies i) * ((2 * Real.pi) ^ dim / volume / numPoints))
      (fun is his p hp => by
        have hde : delta p.2 (energies i) = delta is (energies i) := hd i hi is his p.2 (zip_mem_snd hp)
        rw [hv is his p hp, hde])]
    unfold crystalAverage
    rw [← mul_div_assoc, Finset.mul_sum, Finset.sum_div]
    apply Finset.sum_congr rfl
    intro s _
    rw [div_div, mul_comm volume]
    ring
  · rw [k3 f hf i hi, epaDosAt_sum]
    rw [unfold_sum hU _ (fun s => delta s (energies i) * (1 / volume / numPoints)) (fun is his p hp => by
        have hde : delta p.2 (energies i) = delta is (energies i) := hd i hi is his p.2 (zip_mem_snd hp)
        rw [hde]), ← Finset.sum_mul, div_div, mul_comm volume]
    ring

/-- With weights that are not negative, the projected velocities are a symmetric tensor without negative directions and
the density of states is not negative, at all energies and on every process. -/
theorem C134_nonneg (B : BandView) (delta : Nat → ℝ → ℝ) (dim numPoints : Nat) (volume : ℝ) (energies : Nat → ℝ)
    (numEnergies size : Nat) (hs : 0 < size) (hfit : numEnergies * size < 18446744073709551616) (hvol : 0 ≤ volume)
    (hd : ∀ s e, 0 ≤ delta s e) :
    ∃ v d, epaVelocity B delta dim numPoints volume energies numEnergies size = .ok (v, d) ∧
      (∀ f ∈ v, ∀ i < numEnergies, IsConductivity (f i)) ∧ ∀ f ∈ d, ∀ i < numEnergies, 0 ≤ f i := by
  obtain ⟨v, h1, h2, h3⟩ := fillReduce_val (fun i => .ok (epaVelocityAt B delta dim numPoints volume energies i)) _
    numEnergies size hs hfit (fun i _ => rfl)
  obtain ⟨d, k1, k2, k3⟩ := fillReduce_val (fun i => .ok (epaDosAt B delta numPoints volume energies i)) _
    numEnergies size hs hfit (fun i _ => rfl)
  have hpi := Real.pi_pos
  refine ⟨v, d, ?_, fun f hf i hi => ?_, fun f hf i hi => ?_⟩
  · unfold epaVelocity
    simp only [h1, k1, Outcome.bind_eq, Outcome.bind_ok]
  · rw [h3 f hf i hi]
    constructor
    · intro a b
      rw [epaVelocityAt_sum, epaVelocityAt_sum]
      congr 1
      apply List.map_congr_left
      intro is _
      congr 1
      apply List.map_congr_left
      intro r _
      ring
    · intro x
      have hsum : ∑ a, ∑ b, x a * epaVelocityAt B delta dim numPoints volume energies i a b * x b =
          (B.irr.map fun is => ((B.rots is).map fun r => (∑ a, x a * matVec r (B.vel is) a) ^ 2 *
            (delta is (energies i) * ((2 * Real.pi) ^ dim / volume / numPoints))).sum).sum := by
        simp only [epaVelocityAt_sum, Fin.sum_univ_three]
        simp only [← List.sum_map_mul_left, ← List.sum_map_mul_right, ← List.sum_map_add]
        congr 1
        apply List.map_congr_left
        intro is _
        congr 1
        apply List.map_congr_left
        intro r _
        ring
      rw [hsum]
      apply List.sum_nonneg
      intro y hy
      obtain ⟨is, _, rfl⟩ := List.mem_map.mp hy
      apply List.sum_nonneg
      intro y hy
      obtain ⟨r, _, rfl⟩ := List.mem_map.mp hy
      exact mul_nonneg (sq_nonneg _) (mul_nonneg (hd _ _) (by positivity))
  · rw [k3 f hf i hi, epaDosAt_sum]
    apply List.sum_nonneg
    intro y hy
    obtain ⟨is, _, rfl⟩ := List.mem_map.mp hy
    apply List.sum_nonneg
    intro y hy
    obtain ⟨r, _, rfl⟩ := List.mem_map.mp hy
    exact mul_nonneg (hd _ _) (by positivity)

/-- The band of three wavevectors and their opposites, one energy, two processes: weights that depend on the energy of
the state have the symmetry of the crystal. -/
example : ∃ v d, epaVelocity exBand (fun s e => if exBand.energy s = e then 1 else 0) 3 6 2 (fun _ => 1) 1 2 = .ok (v, d) ∧
    ∀ f ∈ d, f 0 = 1 / 6 := by
  obtain ⟨v, d, h1, _, _, _, h5⟩ := C134_value_partial exBand (fun s e => if exBand.energy s = e then 1 else 0) 3 6 2
    (fun _ => 1) 1 2 _ 6 (by norm_num) (by norm_num) exBand_run.unfolding exBand_run.velocities (by
      intro i _ is his s hs
      simp only
      rw [exBand_run.energies is his s hs])
  refine ⟨v, d, h1, fun f hf => ?_⟩
  rw [h5 f hf 0 (by norm_num)]
  simp only [Finset.sum_range_succ, Finset.sum_range_zero, exBand]
  norm_num

/-- Four wavevectors along a line, one band with energies 0, 1, 2, 1 and inversion symmetry. -/
noncomputable def exLine : BandView where
  energy s := if s = 0 then 0 else if s = 2 then 2 else 1
  vel s := fun i => if i = 0 then (if s = 1 then 1 else if s = 3 then -1 else 0) else 0
  toBte s := s
  rots s := if s = 1 then [1, -1] else [1]
  irr := [0, 1, 2]

/-- The weight of tetrahedra on this mesh: the cell of wavevector `s` has corners `s` and `s + 1`. -/
noncomputable def exLineDelta (s : Nat) (e : ℝ) : ℝ :=
  tetraSmearing (fun c => exLine.energy ((s + (subCellShift.getD c (0, 0, 0)).1) % 4)) e

/-- The full C134 is violated: on four wavevectors with inversion symmetry, the tetrahedra at an irreducible wavevector do
not stand for those at its opposite.  Here the density of states with symmetries is half of that of the full mesh. -/
theorem C134_violated_symmetry :
    Unfolding exLine.irr exLine.rots (fun is => if is = 1 then [1, 3] else [is]) 4 ∧
    Invariant exLine.irr (fun is => if is = 1 then [1, 3] else [is]) exLine.energy ∧
    ∃ v d, epaVelocity exLine exLineDelta 1 4 1 (fun _ => 1 / 2) 1 1 = .ok (v, d) ∧ d.length = 1 ∧ ∀ f ∈ d,
      0 < (∑ s ∈ Finset.range 4, exLineDelta s (1 / 2)) / (4 * 1) ∧
      f 0 = (∑ s ∈ Finset.range 4, exLineDelta s (1 / 2)) / (4 * 1) / 2 := by
  refine ⟨⟨by simp only [exLine]; decide, by
      intro is his
      simp only [exLine]
      split <;> rfl⟩, ?_, ?_⟩
  · intro is his s hs
    simp only [exLine, List.mem_cons, List.not_mem_nil, or_false] at his
    rcases his with rfl | rfl | rfl
    · simp at hs; rw [hs]
    · simp at hs
      rcases hs with rfl | rfl <;> simp [exLine]
    · simp at hs; rw [hs]
  · obtain ⟨v, h1, h2, h3⟩ := fillReduce_val (fun i => .ok (epaVelocityAt exLine exLineDelta 1 4 1 (fun _ => 1 / 2) i)) _
      1 1 one_pos (by norm_num) (fun i _ => rfl)
    obtain ⟨d, k1, k2, k3⟩ := fillReduce_val (fun i => .ok (epaDosAt exLine exLineDelta 4 1 (fun _ => 1 / 2) i)) _
      1 1 one_pos (by norm_num) (fun i _ => rfl)
    have w1 : exLineDelta 1 (1 / 2) = 0 := by
      apply C43_outside
      left
      intro i hi
      interval_cases i <;> simp [exLine, subCellShift] <;> norm_num
    have w2 : exLineDelta 2 (1 / 2) = 0 := by
      apply C43_outside
      left
      intro i hi
      interval_cases i <;> simp [exLine, subCellShift] <;> norm_num
    have w0 : exLineDelta 0 (1 / 2) = 1 := by
      simp [exLineDelta, tetraSmearing, tetraVertices, subCellShift, exLine, tetraWeight, List.insertionSort,
        List.orderedInsert, tetraSorted]
      norm_num
    have w3 : exLineDelta 3 (1 / 2) = 1 := by
      simp [exLineDelta, tetraSmearing, tetraVertices, subCellShift, exLine, tetraWeight, List.insertionSort,
        List.orderedInsert, tetraSorted]
      norm_num
    refine ⟨v, d, ?_, k2, fun f hf => ⟨?_, ?_⟩⟩
    · unfold epaVelocity
      simp only [h1, k1, Outcome.bind_eq, Outcome.bind_ok]
    · simp only [Finset.sum_range_succ, Finset.sum_range_zero, w0, w1, w2, w3]
      norm_num
    · rw [k3 f hf 0 one_pos, epaDosAt_sum]
      simp only [Finset.sum_range_succ, Finset.sum_range_zero, w0, w1, w2, w3, exLine, List.map_cons, List.map_nil,
        List.sum_cons, List.sum_nil]
      norm_num

end Verif.Props
