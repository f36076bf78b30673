import Verif.Props.Onsager
import Mathlib.Analysis.Complex.ExponentialBounds

/-!
# C111-C114: averages over energies, specific heat, units and output
-/
namespace Verif.Props
open Verif.Model Verif.Spec

/-! ## C111 -/

open Classical in
/-- The energies whose scattering rate and occupation are above the thresholds. -/
noncomputable def epaSet (numEnergies : Nat) (temp chemPot : ℝ) (energies rate : Nat → ℝ) : Finset Nat :=
  (Finset.range numEnergies).filter fun k =>
    1e-10 < rate k ∧ 1e-20 < getPopPopPm1 .fermi (energies k) temp chemPot

/-- The four tensors in terms of the moments. -/
theorem epa_tensors {d : Nat} (numEnergies : Nat) (energies : Nat → ℝ) (v2 : Fin d → Fin d → Nat → ℝ) (rate : Nat → ℝ)
    (stat : CalcStat) (spin toCm : ℝ) (h2 : 2 ≤ numEnergies) :
    let K := energyMoment (epaSet numEnergies stat.temp stat.chemPot energies rate) spin stat.temp stat.chemPot
      (energies 1 - energies 0) energies v2 rate
    onsagerFromEPA d numEnergies energies v2 rate stat spin toCm = .ok (transportCoefficients toCm stat.doping
      (K 0) (-(1 / stat.temp) • K 1) (-K 1) (-(1 / stat.temp) • K 2)) := by
  classical
  intro K
  unfold onsagerFromEPA
  rw [if_neg (by omega)]
  simp only [epaLoop_val]
  have hset : ∀ k, EpaUsed stat.temp stat.chemPot energies rate k ↔
      1e-10 < rate k ∧ 1e-20 < getPopPopPm1 .fermi (energies k) stat.temp stat.chemPot := by
    intro k
    unfold EpaUsed
    rw [not_or, not_le, not_le]
  have hsum : ∀ (a b : Fin d) (p : Nat), ((List.range numEnergies).map fun k =>
      (if EpaUsed stat.temp stat.chemPot energies rate k then
        v2 a b k / rate k * (spin / (2 * Real.pi) ^ d) * getPopPopPm1 .fermi (energies k) stat.temp stat.chemPot *
          (energies 1 - energies 0) / stat.temp else 0) * (energies k - stat.chemPot) ^ p).sum = K p a b := by
    intro a b p
    have hr : ∀ F : Nat → ℝ, ((List.range numEnergies).map F).sum = ∑ k ∈ Finset.range numEnergies, F k := fun _ => rfl
    rw [hr]
    simp only [K, energyMoment, epaSet]
    rw [Finset.mul_sum, Finset.sum_filter]
    apply Finset.sum_congr rfl
    intro k _
    by_cases hk : EpaUsed stat.temp stat.chemPot energies rate k
    · rw [if_pos hk, if_pos ((hset k).mp hk)]
      simp only [getDnde, Bool.false_eq_true, if_false]
      ring
    · rw [if_neg hk, if_neg (fun h => hk ((hset k).mpr h)), zero_mul]
  refine congrArg Outcome.ok ?_
  congr 1
  · ext a b
    rw [zero_add, ← hsum a b 0]
    simp only [pow_zero, mul_one]
  · ext a b
    rw [zero_sub, Matrix.smul_apply, ← hsum a b 1, smul_eq_mul, neg_mul]
    simp only [pow_one]
  · ext a b
    rw [zero_sub, Matrix.neg_apply, ← hsum a b 1]
    simp only [pow_one]
  · ext a b
    rw [zero_sub, Matrix.smul_apply, ← hsum a b 2, smul_eq_mul, neg_mul]

/-- Electron-phonon averaged approximation, two or more energies: the electrical conductivity and the Seebeck coefficient
are those of the transport distribution.  The thermal conductivity is not: instead of subtracting the heat dragged by the
electric field, the program adds it, so that it is too large by `2/T K_1 K_0⁻¹ K_1`. -/
theorem C111_coefficients_partial {d : Nat} (numEnergies : Nat) (energies : Nat → ℝ) (v2 : Fin d → Fin d → Nat → ℝ)
    (rate : Nat → ℝ) (stat : CalcStat) (spin toCm : ℝ) (h2 : 2 ≤ numEnergies) :
    let K := energyMoment (epaSet numEnergies stat.temp stat.chemPot energies rate) spin stat.temp stat.chemPot
      (energies 1 - energies 0) energies v2 rate
    ∃ c, onsagerFromEPA d numEnergies energies v2 rate stat spin toCm = .ok c ∧
      c.sigma = K 0 ∧ c.seebeck = -(1 / stat.temp) • ((K 0)⁻¹ * K 1) ∧
      c.kappa = (1 / stat.temp) • (K 2 - K 1 * (K 0)⁻¹ * K 1) + (2 / stat.temp) • (K 1 * (K 0)⁻¹ * K 1) := by
  intro K
  refine ⟨_, epa_tensors numEnergies energies v2 rate stat spin toCm h2, rfl, ?_, ?_⟩
  · simp only [transportCoefficients]
    rw [Matrix.mul_smul, Matrix.neg_mul, smul_neg, neg_smul, neg_smul, one_smul, neg_neg]
  · rw [coefficients_of_epa, smul_sub, smul_add]
    have : (2 / stat.temp) • (K 1 * (K 0)⁻¹ * K 1) = (1 / stat.temp) • (K 1 * (K 0)⁻¹ * K 1) +
        (1 / stat.temp) • (K 1 * (K 0)⁻¹ * K 1) := by
      rw [← add_smul]; congr 1; ring
    rw [this]; abel

/-- The thermal conductivity is right when the first moment vanishes (a spectrum symmetric about the chemical
potential). -/
theorem C111_symmetric_partial {d : Nat} (numEnergies : Nat) (energies : Nat → ℝ) (v2 : Fin d → Fin d → Nat → ℝ)
    (rate : Nat → ℝ) (stat : CalcStat) (spin toCm : ℝ) (h2 : 2 ≤ numEnergies)
    (h0 : energyMoment (epaSet numEnergies stat.temp stat.chemPot energies rate) spin stat.temp stat.chemPot
      (energies 1 - energies 0) energies v2 rate 1 = 0) :
    ∃ c, onsagerFromEPA d numEnergies energies v2 rate stat spin toCm = .ok c ∧
      c.kappa = (1 / stat.temp) • energyMoment (epaSet numEnergies stat.temp stat.chemPot energies rate) spin stat.temp
        stat.chemPot (energies 1 - energies 0) energies v2 rate 2 := by
  obtain ⟨c, h1, _, _, h4⟩ := C111_coefficients_partial (d := d) numEnergies energies v2 rate stat spin toCm h2
  refine ⟨c, h1, ?_⟩
  rw [h4, h0]
  simp

theorem exRate_pop (k : Nat) (hk : k < 2) : (1e-20 : ℝ) < getPopPopPm1 .fermi ((k : ℝ) + 1) 1 0 := by
  rw [C45_fermi_product _ _ _ (by norm_num), getPopulation_fermi (by norm_num)]
  have he : Real.exp (((k : ℝ) + 1 - 0) / 1) ≤ 9 := by
    have h1 : ((k : ℝ) + 1 - 0) / 1 ≤ 2 := by
      have : (k : ℝ) ≤ 1 := by exact_mod_cast Nat.le_of_lt_succ hk
      linarith
    have h2 : Real.exp 2 ≤ 9 := by
      have h3 := Real.exp_one_lt_three
      have h4 : Real.exp 2 = Real.exp 1 * Real.exp 1 := by rw [← Real.exp_add]; norm_num
      have h5 := Real.exp_pos 1
      nlinarith
    exact (Real.exp_le_exp.mpr h1).trans h2
  have hpos := Real.exp_pos (((k : ℝ) + 1 - 0) / 1)
  have h1 : (1 : ℝ) / 10 ≤ 1 / (Real.exp (((k : ℝ) + 1 - 0) / 1) + 1) := by
    apply one_div_le_one_div_of_le (by linarith) (by linarith)
  have hge : (1 : ℝ) ≤ Real.exp (((k : ℝ) + 1 - 0) / 1) := by
    apply Real.one_le_exp
    have : (0 : ℝ) ≤ (k : ℝ) := by positivity
    linarith
  have h2 : 1 / (Real.exp (((k : ℝ) + 1 - 0) / 1) + 1) ≤ 1 / 2 := by
    apply one_div_le_one_div_of_le (by norm_num) (by linarith)
  nlinarith

/-- Two energies, of which only the first one carries a current, one dimension: without a current all the electrons that
move heat are stopped, the thermal conductivity is zero; the program finds a positive one. -/
theorem C111_violated :
    let K := energyMoment (d := 1) (epaSet 2 1 0 (fun k => (k : ℝ) + 1) fun _ => 1) 2 1 0 1 (fun k => (k : ℝ) + 1)
      (fun _ _ k => if k = 0 then 1 else 0) (fun _ => 1)
    (1 / 1 : ℝ) • (K 2 - K 1 * (K 0)⁻¹ * K 1) = 0 ∧
    ∃ c, onsagerFromEPA 1 2 (fun k => (k : ℝ) + 1) (fun _ _ k => if k = 0 then 1 else 0) (fun _ => 1) ⟨1, 0, 1⟩ 2 1 = .ok c ∧
      0 < c.kappa 0 0 := by
  intro K
  set q : ℝ := 2 / (2 * Real.pi) ^ 1 * (-getDnde .fermi (((0 : Nat) : ℝ) + 1) 1 0 false) with hq
  have hqpos : 0 < q := by
    have := exRate_pop 0 (by norm_num)
    simp only [hq, getDnde, Bool.false_eq_true, if_false]
    have hp : (0 : ℝ) < getPopPopPm1 .fermi (((0 : Nat) : ℝ) + 1) 1 0 := lt_trans (by norm_num) this
    have := Real.pi_pos
    rw [neg_div, neg_neg]
    positivity
  have hset : epaSet 2 1 0 (fun k => (k : ℝ) + 1) (fun _ => 1) = Finset.range 2 := by
    unfold epaSet
    apply Finset.filter_true_of_mem
    intro k hk
    exact ⟨by norm_num, exRate_pop k (Finset.mem_range.mp hk)⟩
  have hK : ∀ p, K p = q • (1 : Matrix (Fin 1) (Fin 1) ℝ) := by
    intro p
    ext a b
    have hab : a = b := Subsingleton.elim _ _
    rw [Matrix.smul_apply, hab, Matrix.one_apply_eq]
    simp only [K, energyMoment, hset, Finset.sum_range_succ, Finset.sum_range_zero, hq]
    simp
  have h1 : (q • (1 : Matrix (Fin 1) (Fin 1) ℝ))⁻¹ = q⁻¹ • 1 := by
    apply Matrix.inv_eq_right_inv
    rw [smul_mul_smul_comm, mul_one, mul_inv_cancel₀ hqpos.ne', one_smul]
  have h2 : K 1 * (K 0)⁻¹ * K 1 = q • (1 : Matrix (Fin 1) (Fin 1) ℝ) := by
    rw [hK 0, hK 1, h1, smul_mul_smul_comm, smul_mul_smul_comm, mul_one, mul_one, mul_inv_cancel₀ hqpos.ne', one_mul]
  refine ⟨by rw [h2, hK 2, sub_self, smul_zero], ?_⟩
  obtain ⟨c, c1, _, _, c4⟩ := C111_coefficients_partial (d := 1) 2 (fun k => (k : ℝ) + 1)
    (fun _ _ k => if k = 0 then 1 else 0) (fun _ => 1) ⟨1, 0, 1⟩ 2 1 le_rfl
  refine ⟨c, c1, ?_⟩
  have hstep : ((1 : Nat) : ℝ) + 1 - (((0 : Nat) : ℝ) + 1) = 1 := by norm_num
  simp only [hstep] at c4
  rw [c4]
  change 0 < ((1 / 1 : ℝ) • (K 2 - K 1 * (K 0)⁻¹ * K 1) + (2 / 1 : ℝ) • (K 1 * (K 0)⁻¹ * K 1)) 0 0
  rw [h2, hK 2, sub_self, smul_zero, zero_add, Matrix.smul_apply, smul_eq_mul]
  rw [Matrix.smul_apply, Matrix.one_apply_eq, smul_eq_mul]
  linarith

/-- Fewer than two energies: the program reads an energy that does not exist. -/
theorem C111_violated_one_energy (d : Nat) (energies : Nat → ℝ) (v2 : Fin d → Fin d → Nat → ℝ) (rate : Nat → ℝ)
    (stat : CalcStat) (spin toCm : ℝ) : onsagerFromEPA d 1 energies v2 rate stat spin toCm = .ub := by
  unfold onsagerFromEPA
  rw [if_pos (by norm_num)]

/-- A spectrum symmetric about the chemical potential. -/
example : energyMoment (d := 1) (epaSet 2 1 (3 / 2) (fun k => (k : ℝ) + 1) fun _ => 1) 2 1 (3 / 2) 1 (fun k => (k : ℝ) + 1)
    (fun _ _ _ => 1) (fun _ => 1) 1 = 0 := by
  have hp : ∀ e, getPopPopPm1 .fermi (3 / 2 + e) 1 (3 / 2) = getPopPopPm1 .fermi (3 / 2 - e) 1 (3 / 2) := by
    intro e
    simp only [getPopPopPm1, add_sub_cancel_left]
    have : (3 / 2 - e - 3 / 2) / 2 / 1 = -(e / 2 / 1) := by ring
    rw [this, Real.cosh_neg]
  have h12 : getPopPopPm1 .fermi (((1 : Nat) : ℝ) + 1) 1 (3 / 2) = getPopPopPm1 .fermi (((0 : Nat) : ℝ) + 1) 1 (3 / 2) := by
    have := hp (1 / 2)
    norm_num at this ⊢
    exact this
  ext a b
  simp only [energyMoment, epaSet, Matrix.zero_apply]
  rw [Finset.sum_filter, Finset.sum_range_succ, Finset.sum_range_succ, Finset.sum_range_zero, h12]
  simp only [getDnde, Bool.false_eq_true, if_false, h12]
  split
  · norm_num
  · simp

/-! ## C112 -/

/-- The specific heat is, whatever the schedule of the threads, the sum over the full mesh; phonons below the cutoff are
left out.  It is never negative (at positive temperatures). -/
theorem C112_value (B : BandView) (s : Statistics) (cutoff : ℝ) (numPoints : Nat) (volume : ℝ) (stat : CalcStat)
    (threads : List (List Nat)) (star : Nat → List Nat) (numStates : Nat) (hth : threads.flatten.Perm B.irr)
    (hU : Unfolding B.irr B.rots star numStates) (hE : Invariant B.irr star B.energy) (hv : 0 < volume) :
    specificHeat B s cutoff numPoints volume stat threads =
      (∑ k ∈ Finset.range numStates, if B.energy k < cutoff ∧ s = .bose then 0 else
        |getDndt s (B.energy k) stat.temp stat.chemPot false| * |B.energy k - stat.chemPot|) / (numPoints * volume) ∧
    0 ≤ specificHeat B s cutoff numPoints volume stat threads := by
  have hval : specificHeat B s cutoff numPoints volume stat threads =
      (∑ k ∈ Finset.range numStates, if B.energy k < cutoff ∧ s = .bose then 0 else
        |getDndt s (B.energy k) stat.temp stat.chemPot false| * |B.energy k - stat.chemPot|) / (numPoints * volume) := by
    unfold specificHeat
    rw [threadSum_eq, (hth.map _).sum_eq]
    have e : B.irr.map (heatTerm B s cutoff (1 / volume / numPoints) stat.temp stat.chemPot) = B.irr.map fun is =>
        ((B.rots is).map fun _ => (if B.energy is < cutoff ∧ s = .bose then 0 else
          |getDndt s (B.energy is) stat.temp stat.chemPot false| * |B.energy is - stat.chemPot|) *
            (1 / volume / numPoints)).sum := by
      apply List.map_congr_left
      intro is _
      rw [List.map_const', List.sum_replicate, nsmul_eq_mul]
      simp only [heatTerm]
      split
      · simp
      · ring
    rw [e, unfold_sum hU (fun is _ => (if B.energy is < cutoff ∧ s = .bose then 0 else
          |getDndt s (B.energy is) stat.temp stat.chemPot false| * |B.energy is - stat.chemPot|) * (1 / volume / numPoints))
        (fun k => (if B.energy k < cutoff ∧ s = .bose then 0 else
          |getDndt s (B.energy k) stat.temp stat.chemPot false| * |B.energy k - stat.chemPot|) * (1 / volume / numPoints))
        (by
          intro is his p hp
          rw [hE is his p.2 (zip_mem_snd hp)]),
      ← Finset.sum_mul, div_div, mul_one_div, mul_comm volume]
  refine ⟨hval, ?_⟩
  rw [hval]
  apply div_nonneg
  · apply Finset.sum_nonneg
    intro k _
    split
    · exact le_rfl
    · positivity
  · positivity

theorem heat_term (s : Statistics) (e T mu : ℝ) (hT : 0 < T) :
    |getDndt s e T mu false| * |e - mu| = (e - mu) * getDndt s e T mu false := by
  have hp := (C45_symmetrized s e T mu).1
  rw [← abs_mul, mul_comm]
  apply abs_of_nonneg
  simp only [getDndt, Bool.false_eq_true, if_false]
  have : (e - mu) * (getPopPopPm1 s e T mu * (e - mu) / T / T) = getPopPopPm1 s e T mu * (e - mu) ^ 2 / (T * T) := by ring
  rw [this]
  positivity

/-- Phonons: the specific heat is the derivative with respect to the temperature of the energy of the crystal per volume,
as long as no phonon is below the cutoff (the acoustic ones at the centre are).  -/
theorem C112_phonons_partial (B : BandView) (cutoff : ℝ) (hcut : 0 < cutoff) (numPoints : Nat) (volume : ℝ) (stat : CalcStat)
    (threads : List (List Nat)) (star : Nat → List Nat) (numStates : Nat) (hth : threads.flatten.Perm B.irr)
    (hU : Unfolding B.irr B.rots star numStates) (hE : Invariant B.irr star B.energy) (hv : 0 < volume)
    (hT : 0 < stat.temp) (hmu : stat.chemPot = 0) (habove : ∀ k < numStates, cutoff ≤ B.energy k) :
    HasDerivAt (energyDensity .bose numStates numPoints volume 1 0 B.energy)
      (specificHeat B .bose cutoff numPoints volume stat threads) stat.temp := by
  rw [(C112_value B .bose cutoff numPoints volume stat threads star numStates hth hU hE hv).1]
  unfold energyDensity
  have : ∀ k ∈ Finset.range numStates, HasDerivAt (fun T => (B.energy k - 0) * getPopulation .bose (B.energy k) T 0)
      (if B.energy k < cutoff ∧ (Statistics.bose = .bose) then 0 else
        |getDndt .bose (B.energy k) stat.temp stat.chemPot false| * |B.energy k - stat.chemPot|) stat.temp := by
    intro k hk
    have ha := habove k (Finset.mem_range.mp hk)
    rw [if_neg (fun h => absurd h.1 (by linarith)), heat_term _ _ _ _ hT, hmu]
    exact (C45_bose_dndt (B.energy k) stat.temp 0 hT (by linarith)).const_mul _
  have hd := (HasDerivAt.fun_sum this).div_const ((numPoints : ℝ) * volume)
  refine hd.congr_of_eventuallyEq (Filter.Eventually.of_forall fun T => ?_)
  dsimp only
  rw [one_mul]

/-- Electrons: the specific heat is the derivative at constant chemical potential of the energy measured from it, for one
electron per state. -/
theorem C112_electrons_partial (B : BandView) (cutoff : ℝ) (numPoints : Nat) (volume : ℝ) (stat : CalcStat)
    (threads : List (List Nat)) (star : Nat → List Nat) (numStates : Nat) (hth : threads.flatten.Perm B.irr)
    (hU : Unfolding B.irr B.rots star numStates) (hE : Invariant B.irr star B.energy) (hv : 0 < volume)
    (hT : 0 < stat.temp) :
    HasDerivAt (energyDensity .fermi numStates numPoints volume 1 stat.chemPot B.energy)
      (specificHeat B .fermi cutoff numPoints volume stat threads) stat.temp := by
  rw [(C112_value B .fermi cutoff numPoints volume stat threads star numStates hth hU hE hv).1]
  unfold energyDensity
  have : ∀ k ∈ Finset.range numStates, HasDerivAt
      (fun T => (B.energy k - stat.chemPot) * getPopulation .fermi (B.energy k) T stat.chemPot)
      (if B.energy k < cutoff ∧ (Statistics.fermi = .bose) then 0 else
        |getDndt .fermi (B.energy k) stat.temp stat.chemPot false| * |B.energy k - stat.chemPot|) stat.temp := by
    intro k _
    rw [if_neg (fun h => absurd h.2 (by decide)), heat_term _ _ _ _ hT]
    exact (C45_fermi_dndt (B.energy k) stat.temp stat.chemPot hT).const_mul _
  have hd := (HasDerivAt.fun_sum this).div_const ((numPoints : ℝ) * volume)
  refine hd.congr_of_eventuallyEq (Filter.Eventually.of_forall fun T => ?_)
  dsimp only
  rw [one_mul]

/-- Without spin-orbit coupling every state holds two electrons: the specific heat of electrons is half of what it should
be, for every crystal and temperature (the transport coefficients and the viscosity have the factor of two). -/
theorem C112_violated_spin (B : BandView) (cutoff : ℝ) (numPoints : Nat) (volume : ℝ) (stat : CalcStat)
    (threads : List (List Nat)) (star : Nat → List Nat) (numStates : Nat) (hth : threads.flatten.Perm B.irr)
    (hU : Unfolding B.irr B.rots star numStates) (hE : Invariant B.irr star B.energy) (hv : 0 < volume)
    (hT : 0 < stat.temp) :
    HasDerivAt (energyDensity .fermi numStates numPoints volume 2 stat.chemPot B.energy)
      (2 * specificHeat B .fermi cutoff numPoints volume stat threads) stat.temp := by
  have h := (C112_electrons_partial B cutoff numPoints volume stat threads star numStates hth hU hE hv hT).const_mul 2
  have e : energyDensity .fermi numStates numPoints volume 2 stat.chemPot B.energy =
      fun T => 2 * energyDensity .fermi numStates numPoints volume 1 stat.chemPot B.energy T := by
    funext T; unfold energyDensity; ring
  rw [e]; exact h

/-- The example has a specific heat that is not zero, so that twice the value is not the value. -/
theorem C112_violated_spin_example : 0 < specificHeat exBand .fermi 0 6 2 ⟨1, 0, 0⟩ [[2, 0], [1]] ∧
    ([[2, 0], [1]] : List (List Nat)).flatten.Perm exBand.irr := by
  have hperm : ([[2, 0], [1]] : List (List Nat)).flatten.Perm exBand.irr := by simp only [exBand]; decide
  refine ⟨?_, hperm⟩
  rw [(C112_value exBand .fermi 0 6 2 ⟨1, 0, 0⟩ [[2, 0], [1]] _ 6 hperm exBand_run.unfolding exBand_run.energies (by norm_num)).1]
  apply div_pos _ (by norm_num)
  apply Finset.sum_pos _ ⟨0, by simp⟩
  intro k _
  rw [if_neg (fun h => absurd h.2 (by decide)), heat_term _ _ _ _ (by norm_num)]
  have hp : 0 < getPopPopPm1 .fermi (exBand.energy k) 1 0 := by
    simp only [getPopPopPm1, div_div]
    exact div_pos (by norm_num) (mul_pos (Real.cosh_pos _) (Real.cosh_pos _))
  have he : 0 < exBand.energy k := by simp only [exBand]; positivity
  simp only [getDndt, Bool.false_eq_true, if_false, sub_zero]
  positivity

/-- Phonons above the cutoff. -/
example : ([[2, 0], [1]] : List (List Nat)).flatten.Perm exBand.irr ∧ ∀ k < 6, (1 / 2 : ℝ) ≤ exBand.energy k := by
  refine ⟨C112_violated_spin_example.2, fun k _ => ?_⟩
  simp only [exBand]
  have : (0 : ℝ) ≤ ((k % 3 : Nat) : ℝ) := by positivity
  linarith

/-! ## C113 -/

/-- Three dimensions: the printed numbers are in the units that are printed beside them. -/
theorem C113_three_dimensions_partial (c : SiConstants) (hb : c.bohr ≠ 0) (thickness : ℝ) :
    convSigma c 3 = siConductivity c.electron c.hbar c.bohr 3 ∧
    convKappa c 3 = siThermal c.boltzmann c.rydberg c.hbar c.bohr 3 ∧
    phCondConversion c 3 thickness = siThermal c.boltzmann c.rydberg c.hbar c.bohr 3 ∧
    heatConversion c 3 = siHeat c.boltzmann c.bohr 3 := by
  have h1 : c.bohr ^ (2 - ((3 : Nat) : ℤ)) = c.bohr⁻¹ := by norm_num [zpow_neg]
  have h2 : c.bohr ^ (-((3 : Nat) : ℤ)) = (c.bohr ^ 3)⁻¹ := by rw [zpow_neg, zpow_natCast]
  refine ⟨?_, ?_, ?_, ?_⟩
  · simp only [convSigma, siConductivity, SiConstants.elConductivity, h1]; norm_num; ring
  · simp only [convKappa, siThermal, SiConstants.thConductivity, h1]; norm_num; ring
  · simp only [phCondConversion, siThermal, SiConstants.thConductivity, h1]; norm_num; ring
  · simp only [heatConversion, siHeat, h2]; ring

/-- Two dimensions, phonons: the printed conductivity is that of a layer of the given thickness, in `W/m/K`. -/
theorem C113_layer_partial (c : SiConstants) (hb : c.bohr ≠ 0) (thickness : ℝ) :
    phCondConversion c 2 thickness = siThermal c.boltzmann c.rydberg c.hbar c.bohr 2 / (thickness * c.bohr) := by
  simp only [phCondConversion, siThermal, SiConstants.thConductivity]
  norm_num
  field_simp

/-- The values of the constants in the program. -/
noncomputable def codeConstants : SiConstants where
  bohr := 0.52917721067e-10
  rydberg := 4.359744650e-18 / 2
  hbar := 6.62607015e-34 / (2 * Real.pi)
  electron := 1.602176487e-19
  boltzmann := 1.38064852e-23

theorem codeConstants_pos : 0 < codeConstants.bohr ∧ 0 < codeConstants.rydberg ∧ 0 < codeConstants.hbar ∧
    0 < codeConstants.electron ∧ 0 < codeConstants.boltzmann := by
  have := Real.pi_pos
  refine ⟨?_, ?_, ?_, ?_, ?_⟩ <;> simp only [codeConstants] <;> (try positivity)

/-- Two and one dimensions, electrons: the conversion multiplies by an energy instead of a length, and the result is more
than ten million times too small. -/
theorem C113_violated_conductivities :
    convSigma codeConstants 2 * 10 ^ 7 < siConductivity codeConstants.electron codeConstants.hbar codeConstants.bohr 2 ∧
    convKappa codeConstants 2 * 10 ^ 7 <
      siThermal codeConstants.boltzmann codeConstants.rydberg codeConstants.hbar codeConstants.bohr 2 ∧
    convSigma codeConstants 1 * 10 ^ 14 < siConductivity codeConstants.electron codeConstants.hbar codeConstants.bohr 1 ∧
    convKappa codeConstants 1 * 10 ^ 14 <
      siThermal codeConstants.boltzmann codeConstants.rydberg codeConstants.hbar codeConstants.bohr 1 := by
  obtain ⟨hb, hr, hh, he, hk⟩ := codeConstants_pos
  have hrb : codeConstants.rydberg * 10 ^ 7 < codeConstants.bohr := by simp only [codeConstants]; norm_num
  have hne := hb.ne'
  have hhn := hh.ne'
  -- the ratio of the two lengths
  have hrat : codeConstants.rydberg * 10 ^ 7 / codeConstants.bohr < 1 := (div_lt_one hb).mpr hrb
  have hrat0 : 0 < codeConstants.rydberg * 10 ^ 7 / codeConstants.bohr := by positivity
  have hsq : (codeConstants.rydberg * 10 ^ 7 / codeConstants.bohr) ^ 2 < 1 := by nlinarith
  have hS : 0 < codeConstants.electron ^ 2 / codeConstants.hbar := by positivity
  have hK : 0 < codeConstants.boltzmann * codeConstants.rydberg / codeConstants.hbar := by positivity
  refine ⟨?_, ?_, ?_, ?_⟩
  · have e1 : convSigma codeConstants 2 * 10 ^ 7 = codeConstants.electron ^ 2 / codeConstants.hbar *
        (codeConstants.rydberg * 10 ^ 7 / codeConstants.bohr) := by
      simp only [convSigma, SiConstants.elConductivity]; norm_num; ring
    have e2 : siConductivity codeConstants.electron codeConstants.hbar codeConstants.bohr 2 =
        codeConstants.electron ^ 2 / codeConstants.hbar := by simp [siConductivity]
    rw [e1, e2]; nlinarith
  · have e1 : convKappa codeConstants 2 * 10 ^ 7 = codeConstants.boltzmann * codeConstants.rydberg / codeConstants.hbar *
        (codeConstants.rydberg * 10 ^ 7 / codeConstants.bohr) := by
      simp only [convKappa, SiConstants.thConductivity]; norm_num; ring
    have e2 : siThermal codeConstants.boltzmann codeConstants.rydberg codeConstants.hbar codeConstants.bohr 2 =
        codeConstants.boltzmann * codeConstants.rydberg / codeConstants.hbar := by simp [siThermal]
    rw [e1, e2]; nlinarith
  · have e1 : convSigma codeConstants 1 * 10 ^ 14 = codeConstants.electron ^ 2 / codeConstants.hbar * codeConstants.bohr *
        (codeConstants.rydberg * 10 ^ 7 / codeConstants.bohr) ^ 2 := by
      simp only [convSigma, SiConstants.elConductivity]; norm_num; field_simp; norm_num
    have e2 : siConductivity codeConstants.electron codeConstants.hbar codeConstants.bohr 1 =
        codeConstants.electron ^ 2 / codeConstants.hbar * codeConstants.bohr := by simp [siConductivity]
    have : 0 < codeConstants.electron ^ 2 / codeConstants.hbar * codeConstants.bohr := by positivity
    rw [e1, e2]; nlinarith
  · have e1 : convKappa codeConstants 1 * 10 ^ 14 = codeConstants.boltzmann * codeConstants.rydberg / codeConstants.hbar *
        codeConstants.bohr * (codeConstants.rydberg * 10 ^ 7 / codeConstants.bohr) ^ 2 := by
      simp only [convKappa, SiConstants.thConductivity]; norm_num; field_simp; norm_num
    have e2 : siThermal codeConstants.boltzmann codeConstants.rydberg codeConstants.hbar codeConstants.bohr 1 =
        codeConstants.boltzmann * codeConstants.rydberg / codeConstants.hbar * codeConstants.bohr := by simp [siThermal]
    have : 0 < codeConstants.boltzmann * codeConstants.rydberg / codeConstants.hbar * codeConstants.bohr := by positivity
    rw [e1, e2]; nlinarith

/-- Specific heat in two and one dimensions: the number printed with the unit `J/K/m^2` (`J/K/m`) is divided by one (two)
lengths too many, more than ten billion times too large. -/
theorem C113_violated_heat :
    siHeat codeConstants.boltzmann codeConstants.bohr 2 * 10 ^ 10 < heatConversion codeConstants 2 ∧
    siHeat codeConstants.boltzmann codeConstants.bohr 1 * 10 ^ 20 < heatConversion codeConstants 1 := by
  have e2 : codeConstants.bohr ^ (-((2 : Nat) : ℤ)) = (codeConstants.bohr ^ 2)⁻¹ := by rw [zpow_neg, zpow_natCast]
  have e1 : codeConstants.bohr ^ (-((1 : Nat) : ℤ)) = (codeConstants.bohr ^ 1)⁻¹ := by rw [zpow_neg, zpow_natCast]
  constructor
  · simp only [siHeat, heatConversion, e2]
    simp only [codeConstants]; norm_num
  · simp only [siHeat, heatConversion, e1]
    simp only [codeConstants]; norm_num

/-! ## C114 -/

theorem jsonList_val {α : Type} (n : Nat) (val : Nat → α) : jsonList n val = (List.range n).map val := by
  unfold jsonList
  have : ∀ (l : List Nat) (out : List α), l.foldl (fun out i => out ++ [val i]) out = out ++ l.map val := by
    intro l
    induction l with
    | nil => intro out; simp
    | cons a t ih => intro out; rw [List.foldl_cons, ih]; simp
  rw [this]; simp

theorem jsonMobility_val {α : Type} (n : Nat) (stat : Nat → CalcStat) (val : Nat → α) :
    jsonMobility n stat val = ((List.range n).filter fun i => decide ((stat i).doping ≠ 0)).map val := by
  unfold jsonMobility
  have : ∀ (l : List Nat) (out : List α), l.foldl (fun out i => if |(stat i).doping| > 0 then out ++ [val i] else out) out =
      out ++ (l.filter fun i => decide ((stat i).doping ≠ 0)).map val := by
    intro l
    induction l with
    | nil => intro out; simp
    | cons a t ih =>
      intro out
      rw [List.foldl_cons, ih, List.filter_cons]
      by_cases h : (stat a).doping = 0
      · simp [h]
      · simp [h]
  rw [this]; simp

/-- The lists in the output file have one entry for every calculation, in the order of the temperatures. -/
theorem C114_lists {α : Type} (n : Nat) (val : Nat → α) :
    (jsonList n val).length = n ∧ ∀ i < n, (jsonList n val)[i]? = some (val i) := by
  rw [jsonList_val]
  refine ⟨by simp, fun i hi => ?_⟩
  simp [List.getElem?_range hi]

/-- The mobilities are in line with the other lists when no calculation has zero doping. -/
theorem C114_mobility_partial {α : Type} (n : Nat) (stat : Nat → CalcStat) (val : Nat → α)
    (h : ∀ i < n, (stat i).doping ≠ 0) :
    (jsonMobility n stat val).length = n ∧ ∀ i < n, (jsonMobility n stat val)[i]? = some (val i) := by
  have e : jsonMobility n stat val = jsonList n val := by
    rw [jsonMobility_val, jsonList_val, List.filter_eq_self.mpr]
    intro i hi
    simpa using h i (List.mem_range.mp hi)
  rw [e]
  exact C114_lists n val

/-- With a calculation of zero doping before others, the list of mobilities is shorter and the entry number `i` belongs to
another calculation. -/
theorem C114_violated {α : Type} (stat : Nat → CalcStat) (val : Nat → α) (h0 : (stat 0).doping = 0) (h1 : (stat 1).doping ≠ 0) :
    (jsonMobility 2 stat val).length = 1 ∧ (jsonMobility 2 stat val)[0]? = some (val 1) := by
  have e : (List.range 2).filter (fun i => decide ((stat i).doping ≠ 0)) = [1] := by
    rw [show List.range 2 = [0, 1] from rfl]
    simp [h0, h1]
  rw [jsonMobility_val, e]
  simp

example : ∃ stat : Nat → CalcStat, (stat 0).doping = 0 ∧ (stat 1).doping ≠ 0 :=
  ⟨fun i => ⟨1, 0, i⟩, by simp, by simp⟩

end Verif.Props
