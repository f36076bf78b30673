import Verif.Spec.Times
import Verif.Proofs.ScatMatrix
import Verif.Props.EpaRates
import Mathlib.Tactic.FieldSimp
import Mathlib.Tactic.Linarith

/-!
# C135, C136: constant relaxation times, and the relaxation times that are printed

Specification: Spec/Times.
-/
namespace Verif.Props
open Verif.Model Verif.Spec

theorem parseTime_pos (k : TimeConstants) (hk : GoodConstants k) (value : ℝ) (hv : 0 < value) (u : TimeUnit) :
    0 < parseTime k value u := by
  have h1 := hk.hbar
  have h2 := hk.rydberg
  cases u <;> simp only [parseTime, timeAuToFs] <;> positivity

theorem parseTime_seconds (k : TimeConstants) (hk : GoodConstants k) (value : ℝ) (u : TimeUnit) :
    parseTime k value u * (k.hbar / k.rydberg) = inputSeconds value u := by
  have h1 := hk.hbar.ne'
  have h2 := hk.rydberg.ne'
  cases u <;> simp only [parseTime, timeAuToFs, inputSeconds] <;> field_simp <;> norm_num <;> ring

/-! ## C135 -/

/-- Partial C135: with a constant relaxation time all the states, electrons or phonons, have the same relaxation time in
all the calculations, its inverse is the linewidth, and it is proportional to the input, whatever the unit; but by
`1/(2π)`.  Missing: equality with the input, see `C135_violated`. -/
theorem C135_uniform_partial (k : TimeConstants) (hk : GoodConstants k) (value : ℝ) (hv : 0 < value) (u : TimeUnit)
    (omega isElectron : Bool) (pop diag : Nat → Nat → ℝ) :
    ∃ rate : ℝ, 0 < rate ∧ rateSeconds k rate = inputSeconds value u / (2 * Real.pi) ∧
      (∀ c b, timesOf (some (parseTime k value u)) omega pop diag c b = 1 / rate) ∧
      ∃ lw, linewidthsOf (some (parseTime k value u)) omega isElectron pop diag = .ok lw ∧ ∀ c b, lw c b = rate := by
  have hp := parseTime_pos k hk value hv u
  have hpi := Real.pi_pos
  refine ⟨2 * Real.pi / parseTime k value u, by positivity, ?_, ?_, ?_⟩
  · rw [← parseTime_seconds k hk value u]
    unfold rateSeconds
    have h1 := hk.hbar.ne'
    have h2 := hk.rydberg.ne'
    field_simp
  · intro c b
    unfold timesOf constantRTA
    simp only
    rw [if_pos hp]
    simp
  · unfold linewidthsOf constantRTA getLinewidths
    simp only
    rw [if_pos hp]
    exact ⟨_, rfl, fun _ _ => rfl⟩

/-- Transport with the electron-phonon averaged approximation uses the same constant rate, at all energies, on all
processes. -/
theorem C135_epa_partial (k : TimeConstants) (hk : GoodConstants k) (value : ℝ) (hv : 0 < value) (u : TimeUnit)
    (s : EpaSetup) (hn : s.numEnergies ≠ 0) (dos : List ℝ) (temp chemPot : ℝ) (size : Nat) :
    ∃ rate res, epaRates s (some (parseTime k value u)) dos temp chemPot size = .ok res ∧ res.length = size ∧
      (∀ f ∈ res, ∀ i, f i = rate) ∧ rateSeconds k rate = inputSeconds value u / (2 * Real.pi) := by
  have hp := parseTime_pos k hk value hv u
  refine ⟨2 * Real.pi / parseTime k value u, List.replicate size fun _ => 2 * Real.pi / parseTime k value u, ?_, by simp, ?_, ?_⟩
  · unfold epaRates
    rw [if_neg hn]
    simp only
    rw [if_pos hp]
  · intro f hf i
    rw [List.eq_of_mem_replicate hf]
  · rw [← parseTime_seconds k hk value u]
    unfold rateSeconds
    have hpi := Real.pi_pos
    have h1 := hk.hbar.ne'
    have h2 := hk.rydberg.ne'
    field_simp

/-- The full C135 is violated: a constant relaxation time of `T` femtoseconds is used, and printed, as `T / (2π)`, for
every `T`; and so it is for `T` picoseconds for phonons. -/
theorem C135_violated (k : TimeConstants) (hk : GoodConstants k) (value : ℝ) (hv : 0 < value) (omega : Bool)
    (pop diag : Nat → Nat → ℝ) (c b : Nat) :
    printedTime k true (timesOf (some (parseTime k value .fs)) omega pop diag c b) = value / (2 * Real.pi) ∧
    printedTime k false (timesOf (some (parseTime k value .ps)) omega pop diag c b) = value / (2 * Real.pi) ∧
    value / (2 * Real.pi) < value := by
  have h1 := hk.hbar.ne'
  have h2 := hk.rydberg.ne'
  have hpi := Real.pi_gt_three
  have hpi0 := Real.pi_pos.ne'
  have ht : ∀ u, timesOf (some (parseTime k value u)) omega pop diag c b = parseTime k value u / (2 * Real.pi) := by
    intro u
    unfold timesOf constantRTA
    simp only
    rw [if_pos (parseTime_pos k hk value hv u)]
  refine ⟨?_, ?_, ?_⟩
  · rw [ht]
    simp only [printedTime, parseTime, energyRyToFs, timeAuToFs, if_true]
    field_simp
  · rw [ht]
    simp only [printedTime, parseTime, energyRyToFs, timeAuToFs, Bool.false_eq_true, if_false]
    field_simp
  · rw [div_lt_iff₀ (by linarith)]
    nlinarith

/-- Numbers that are not positive do not switch the constant mode on. -/
theorem C135_not_positive (t : ℝ) (ht : t ≤ 0) (omega : Bool) (pop diag : Nat → Nat → ℝ) :
    timesOf (some t) omega pop diag = timesOf none omega pop diag := by
  unfold timesOf constantRTA
  simp only [if_neg (not_lt.mpr ht)]

/-- Constants of order one and ten femtoseconds: the hypotheses hold. -/
example : GoodConstants ⟨1, 2, 3⟩ ∧ 0 < parseTime ⟨1, 2, 3⟩ 10 .fs :=
  have hk : GoodConstants ⟨1, 2, 3⟩ := ⟨by norm_num, by norm_num, by norm_num⟩
  ⟨hk, parseTime_pos _ hk 10 (by norm_num) .fs⟩

/-! ## C136 -/

/-- Relaxation times and linewidths of states are printed in the units beside them: `ħ` over the rate, in fs or ps, and
the rate, in eV or meV; their product is `ħ`. -/
theorem C136_states (k : TimeConstants) (hk : GoodConstants k) (omega isElectron : Bool) (pop diag : Nat → Nat → ℝ)
    (c b : Nat) (hmode : omega = true ∨ isElectron = false) (hd : 0 < diag c b) (hp : 0 < pop c b) :
    ∃ lw, linewidthsOf none omega isElectron pop diag = .ok lw ∧ 0 < lw c b ∧
      (lw c b = if omega then diag c b else diag c b / pop c b) ∧
      printedLinewidth k isElectron (lw c b) * energyUnitEv isElectron = linewidthEv k (lw c b) ∧
      printedTime k isElectron (timesOf none omega pop diag c b) * timeUnitSeconds isElectron = rateSeconds k (lw c b) ∧
      printedLinewidth k isElectron (lw c b) * energyUnitEv isElectron *
        (printedTime k isElectron (timesOf none omega pop diag c b) * timeUnitSeconds isElectron) = hbarEv k := by
  have h1 := hk.hbar.ne'
  have h2 := hk.rydberg.ne'
  have h3 := hk.electronVolt.ne'
  have hpi := Real.pi_pos.ne'
  have hlw : ∃ lw, linewidthsOf none omega isElectron pop diag = .ok lw ∧ lw c b = if omega then diag c b else diag c b / pop c b := by
    unfold linewidthsOf constantRTA getLinewidths
    rcases hmode with h | h
    · rw [h]; exact ⟨_, rfl, rfl⟩
    · rw [h]
      cases omega
      · exact ⟨_, rfl, rfl⟩
      · exact ⟨_, rfl, rfl⟩
  obtain ⟨lw, hl1, hl2⟩ := hlw
  have hpos : 0 < lw c b := by
    rw [hl2]
    split
    · exact hd
    · exact div_pos hd hp
  have htime : timesOf none omega pop diag c b = 1 / lw c b := by
    rw [hl2]
    unfold timesOf constantRTA
    simp only
    split
    · rfl
    · rw [one_div_div]
  have hA : printedLinewidth k isElectron (lw c b) * energyUnitEv isElectron = linewidthEv k (lw c b) := by
    cases isElectron <;> simp only [printedLinewidth, energyUnitEv, linewidthEv, energyRyToEvOf, Bool.false_eq_true, if_false, if_true] <;>
      field_simp <;> norm_num
  have hB : printedTime k isElectron (timesOf none omega pop diag c b) * timeUnitSeconds isElectron = rateSeconds k (lw c b) := by
    rw [htime]
    have := hpos.ne'
    cases isElectron <;> simp only [printedTime, timeUnitSeconds, rateSeconds, energyRyToFs, timeAuToFs, Bool.false_eq_true, if_false, if_true] <;>
      field_simp <;> norm_num
  refine ⟨lw, hl1, hpos, hl2, hA, hB, ?_⟩
  rw [hA, hB]
  have := hpos.ne'
  unfold linewidthEv rateSeconds hbarEv
  field_simp

/-- The full C136 is violated: the relaxation time of a relaxon is printed `2π` times too long, so that it does not compare
with that of a state with the same rate. -/
theorem C136_violated_relaxons (k : TimeConstants) (hk : GoodConstants k) (rate : ℝ) (hr : 0 < rate) :
    printedRelaxonTime k rate * 1e-15 = 2 * Real.pi * rateSeconds k rate ∧
    printedRelaxonTime k rate = 2 * Real.pi * printedTime k true (1 / rate) := by
  have h2 := hk.rydberg.ne'
  have := hr.ne'
  have hpi := Real.pi_pos.ne'
  constructor
  · simp only [printedRelaxonTime, rateSeconds, energyRyToFs, timeAuToFs]
    field_simp
    norm_num
    ring
  · simp only [printedRelaxonTime, printedTime, if_true]
    field_simp

/-- The full C136 is violated: with the electron-phonon averaged approximation the printed relaxation time times the printed
linewidth is not `ħ` but `2π ħ`. -/
theorem C136_violated_epa (k : TimeConstants) (hk : GoodConstants k) (rate : ℝ) (hr : 0 < rate) :
    (printedEpa k rate).2 = linewidthEv k rate ∧
    (printedEpa k rate).1 * 1e-15 = 2 * Real.pi * rateSeconds k rate ∧
    (printedEpa k rate).1 * 1e-15 * (printedEpa k rate).2 = 2 * Real.pi * hbarEv k := by
  have h2 := hk.rydberg.ne'
  have h3 := hk.electronVolt.ne'
  have := hr.ne'
  have hpi := Real.pi_pos.ne'
  refine ⟨?_, ?_, ?_⟩
  · simp only [printedEpa, linewidthEv, energyRyToEvOf]
    field_simp
  · simp only [printedEpa, rateSeconds, energyRyToFs, timeAuToFs]
    field_simp
    norm_num
    ring
  · simp only [printedEpa, hbarEv, energyRyToFs, timeAuToFs, energyRyToEvOf]
    field_simp
    norm_num
    ring

/-- A phonon of a matrix that is not symmetrised: the hypotheses of `C136_states` hold. -/
example : ∃ lw, linewidthsOf none false false (fun _ _ => 2) (fun _ _ => 1) = .ok lw ∧ lw 0 0 = 1 / 2 := by
  obtain ⟨lw, h1, _, h3, _⟩ := C136_states ⟨1, 1, 1⟩ ⟨one_pos, one_pos, one_pos⟩ false false (fun _ _ => 2) (fun _ _ => 1) 0 0
    (Or.inr rfl) one_pos two_pos
  exact ⟨lw, h1, by simpa using h3⟩

end Verif.Props
