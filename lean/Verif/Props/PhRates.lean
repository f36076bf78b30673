import Verif.Model.PhRates
import Verif.Proofs.Particle
import Verif.Props.Delta

/-! # C46: detailed balance -/
namespace Verif.Props
open Verif.Model

/-- With energy conserved the statistical factors of coalescence `1 + 2 -> 3` and of decay `3 -> 1 + 2` are equal,
at every temperature. -/
theorem C46_detailed_balance (e1 e2 e3 T : ℝ) (hT : 0 < T) (h1 : 0 < e1) (h2 : 0 < e2) (h : e1 + e2 = e3) :
    getPopulation .bose e1 T 0 * getPopulation .bose e2 T 0 * (getPopulation .bose e3 T 0 + 1) =
      (getPopulation .bose e1 T 0 + 1) * (getPopulation .bose e2 T 0 + 1) * getPopulation .bose e3 T 0 := by
  subst h
  rw [getPopulation_bose hT h1, getPopulation_bose hT h2, getPopulation_bose hT (by linarith)]
  have x1 : 1 < Real.exp ((e1 - 0) / T) := Real.one_lt_exp_iff.mpr (div_pos (by linarith) hT)
  have x2 : 1 < Real.exp ((e2 - 0) / T) := Real.one_lt_exp_iff.mpr (div_pos (by linarith) hT)
  have x3 : Real.exp ((e1 + e2 - 0) / T) = Real.exp ((e1 - 0) / T) * Real.exp ((e2 - 0) / T) := by
    rw [← Real.exp_add]; congr 1; ring
  rw [x3]
  generalize Real.exp ((e1 - 0) / T) = a at *
  generalize Real.exp ((e2 - 0) / T) = b at *
  have h12 : a * b - 1 ≠ 0 := by nlinarith
  have : a - 1 ≠ 0 := by linarith
  have : b - 1 ≠ 0 := by linarith
  field_simp
  ring

example : (0 : ℝ) < 0.002 ∧ (0 : ℝ) < 0.001 ∧ (0 : ℝ) < 0.003 ∧ (0.001 : ℝ) + 0.003 = 0.004 := by norm_num

/-- Partial C46: with the Gaussian scheme the matrix element between two states is the same in both orders, for all
energies, populations and couplings, the third states of the two orders being the same (`q1 + q2`) or time-reversed
(`q1 - q2` and `q2 - q1`, equal energies and populations) with equal couplings.  Missing: the adaptive and
tetrahedron schemes. -/
theorem C46_symmetric_partial (p : PhSetup) (w : ℝ) (hp : p.smearing = .gaussian w) (s1 s2 : PhState)
    (plus minus minus' : List (PhState × ℝ))
    (hm : minus'.map (fun t => (t.1.energy, t.1.bose, t.2)) = minus.map (fun t => (t.1.energy, t.1.bose, t.2))) :
    threePhononElement p s2 s1 plus minus' = threePhononElement p s1 s2 plus minus := by
  obtain ⟨norm, cutoff, om, sm⟩ := p
  obtain rfl : sm = .gaussian w := hp
  have hcut : ∀ a b c : ℝ, cutOff om cutoff b a c = cutOff om cutoff a b c := by
    intro a b c
    unfold cutOff
    split
    · simp only [decide_eq_decide]; tauto
    · rw [mul_comm b a]
  unfold threePhononElement
  congr 1
  · congr 1
    apply List.map_congr_left
    intro t _
    have hd : deltaPlus (.gaussian w) s2 s1 t.1 = deltaPlus (.gaussian w) s1 s2 t.1 := by
      simp only [deltaPlus]; rw [add_comm s2.energy s1.energy]
    unfold ratePlus
    simp only [hd, hcut s1.energy s2.energy]
    split
    · rfl
    · split
      · rfl
      · rw [mul_comm s2.energy s1.energy]; ring
  · -- each summand only depends on the energy, the population and the coupling
    let f : PhState → PhState → ℝ × ℝ × ℝ → ℝ := fun s1 s2 t =>
      rateMinus1 ⟨norm, cutoff, om, .gaussian w⟩ t.2.2 s1 s2 ⟨t.1, 0, t.2.1⟩ +
        rateMinus2 ⟨norm, cutoff, om, .gaussian w⟩ t.2.2 s1 s2 ⟨t.1, 0, t.2.1⟩
    have hf : ∀ (a b : PhState) (l : List (PhState × ℝ)), (l.map fun t =>
        rateMinus1 ⟨norm, cutoff, om, .gaussian w⟩ t.2 a b t.1 +
        rateMinus2 ⟨norm, cutoff, om, .gaussian w⟩ t.2 a b t.1) =
        (l.map (fun t => (t.1.energy, t.1.bose, t.2))).map (f a b) := by
      intro a b l
      rw [List.map_map]
      apply List.map_congr_left
      intro t _
      rfl
    rw [hf, hf, hm]
    congr 1
    apply List.map_congr_left
    intro t _
    simp only [f, rateMinus1, rateMinus2, deltaMinus1, deltaMinus2, hcut s1.energy s2.energy]
    split
    · rfl
    · rw [mul_comm s2.energy s1.energy]
      generalize (if gaussianSmearing w (s2.energy + t.1 - s1.energy) < 0 then 0
        else gaussianSmearing w (s2.energy + t.1 - s1.energy)) = x
      generalize (if gaussianSmearing w (s1.energy + t.1 - s2.energy) < 0 then 0
        else gaussianSmearing w (s1.energy + t.1 - s2.energy)) = y
      ring

/-- Partial C46 for isotope scattering: with the Gaussian scheme the rate between two states within six widths is the
same in both orders.  Missing: states further apart (the Gaussian is cut on one side only) and the other schemes. -/
theorem C46_isotope_partial (p : PhSetup) (w overlap : ℝ) (hw : 0 < w) (hp : p.smearing = .gaussian w) (s1 s2 : PhState)
    (he : |s1.energy - s2.energy| ≤ 6 * w) : rateIso p overlap s2 s1 = rateIso p overlap s1 s2 := by
  have hd : deltaIso p.smearing s2 s1 = deltaIso p.smearing s1 s2 := by
    rw [hp]
    simp only [deltaIso]
    rw [← C41_even_partial w (s1.energy - s2.energy) hw he, neg_sub]
  unfold rateIso
  rw [hd]
  by_cases h : s1.energy < p.energyCutoff ∨ s2.energy < p.energyCutoff
  · rw [if_pos h, if_pos (Or.symm h)]
  · rw [if_neg h, if_neg (fun h' => h (Or.symm h'))]; ring

/-- Partial C46 (the Gaussian scheme): one and the same process `1 + 2 -> 3` has the same rate whether it is counted
as coalescence of state 1 with state 2, as coalescence of state 1 with state 2 seen in the loop over pairs `(1, 3)`,
or as decay of state 3 into 1 and 2, for all energies, populations and couplings. -/
theorem C46_rates_agree_partial (p : PhSetup) (w : ℝ) (hp : p.smearing = .gaussian w) (coupling : ℝ)
    (s1 s2 s3 : PhState) :
    ratePlus p coupling s1 s2 s3 = rateMinus1 p coupling s1 s3 s2 ∧
      ratePlus p coupling s1 s2 s3 = rateMinus2 p coupling s3 s1 s2 := by
  obtain ⟨norm, cutoff, om, sm⟩ := p
  obtain rfl : sm = .gaussian w := hp
  have hcut1 : cutOff om cutoff s1.energy s3.energy s2.energy = cutOff om cutoff s1.energy s2.energy s3.energy := by
    unfold cutOff
    split
    · simp only [decide_eq_decide]; tauto
    · rw [mul_right_comm]
  have hcut2 : cutOff om cutoff s3.energy s1.energy s2.energy = cutOff om cutoff s1.energy s2.energy s3.energy := by
    unfold cutOff
    split
    · simp only [decide_eq_decide]; tauto
    · rw [show s3.energy * s1.energy * s2.energy = s1.energy * s2.energy * s3.energy by ring]
  unfold ratePlus rateMinus1 rateMinus2 deltaPlus deltaMinus1 deltaMinus2
  simp only [hcut1, hcut2]
  generalize gaussianSmearing w (s1.energy + s2.energy - s3.energy) = d
  by_cases hc : cutOff om cutoff s1.energy s2.energy s3.energy = true
  · simp only [if_pos hc, and_self]
  · simp only [if_neg hc]
    by_cases hd : d ≤ 0
    · have : (if d < 0 then 0 else d) = 0 := by
        split
        · rfl
        · linarith
      simp only [if_pos hd, this, mul_zero, zero_mul, zero_div, and_self]
    · have : ¬ d < 0 := fun h => hd h.le
      simp only [if_neg hd, if_neg this]
      constructor
      · rw [show s1.energy * s3.energy * s2.energy = s1.energy * s2.energy * s3.energy by ring]; ring
      · rw [show s3.energy * s1.energy * s2.energy = s1.energy * s2.energy * s3.energy by ring]

/-- With equilibrium populations at temperature `T` and exact energy conservation the rate of the process equals the
rate with forward and backward populations exchanged, in all schemes. -/
theorem C46_rate_balance (p : PhSetup) (coupling T : ℝ) (hT : 0 < T) (s1 s2 s3 : PhState) (h1 : 0 < s1.energy)
    (h2 : 0 < s2.energy) (h : s1.energy + s2.energy = s3.energy) (b1 : s1.bose = getPopulation .bose s1.energy T 0)
    (b2 : s2.bose = getPopulation .bose s2.energy T 0) (b3 : s3.bose = getPopulation .bose s3.energy T 0)
    (hk : cutOff p.outerEqualInnerMesh p.energyCutoff s1.energy s2.energy s3.energy = false)
    (hd : 0 < deltaPlus p.smearing s1 s2 s3) :
    ratePlus p coupling s1 s2 s3 = Real.pi * 0.25 * ((s1.bose + 1) * (s2.bose + 1) * s3.bose) * coupling *
      deltaPlus p.smearing s1 s2 s3 * p.norm / (s1.energy * s2.energy * s3.energy) := by
  unfold ratePlus
  simp only [hk, Bool.false_eq_true, if_false, if_neg (not_le.mpr hd)]
  rw [b1, b2, b3, ← C46_detailed_balance s1.energy s2.energy s3.energy T hT h1 h2 h]
  ring

/-- Tetrahedron scheme: when the weight of state 2 vanishes at energies further than `w` from the energy of state 2,
only processes that conserve energy within `w` have a rate. -/
theorem C46_energy_tetra (p : PhSetup) (f : ℝ → ℝ) (hp : p.smearing = .tetra f) (coupling w : ℝ) (s1 s2 s3 : PhState)
    (hf : ∀ e, f e ≠ 0 → |e - s2.energy| ≤ w) :
    (ratePlus p coupling s1 s2 s3 ≠ 0 → |s1.energy + s2.energy - s3.energy| ≤ w) ∧
    (rateMinus1 p coupling s1 s2 s3 ≠ 0 → |s1.energy + s3.energy - s2.energy| ≤ w) ∧
    (rateMinus2 p coupling s1 s2 s3 ≠ 0 → |s2.energy + s3.energy - s1.energy| ≤ w) := by
  obtain ⟨norm, cutoff, om, sm⟩ := p
  obtain rfl : sm = .tetra f := hp
  have hz : ∀ e, (if f e < 0 then 0 else f e) ≠ 0 → f e ≠ 0 := by
    intro e he h0
    exact he (by rw [h0]; simp)
  refine ⟨?_, ?_, ?_⟩
  · intro hr
    have : f (s3.energy - s1.energy) ≠ 0 := by
      intro h0
      apply hr
      unfold ratePlus deltaPlus
      simp only [h0, le_refl, if_true, ite_self]
    have := hf _ this
    rwa [show s3.energy - s1.energy - s2.energy = -(s1.energy + s2.energy - s3.energy) by ring, abs_neg] at this
  · intro hr
    have : f (s1.energy + s3.energy) ≠ 0 := by
      intro h0
      apply hr
      unfold rateMinus1 deltaMinus1
      simp only [h0, lt_irrefl, if_false, mul_zero, zero_mul, zero_div, ite_self]
    exact hf _ this
  · intro hr
    have : f (s1.energy - s3.energy) ≠ 0 := by
      intro h0
      apply hr
      unfold rateMinus2 deltaMinus2
      simp only [h0, lt_irrefl, if_false, mul_zero, zero_mul, zero_div, ite_self]
    have := hf _ this
    rwa [show s1.energy - s3.energy - s2.energy = -(s2.energy + s3.energy - s1.energy) by ring, abs_neg] at this

/-- A weight supported on `[0.9, 1.1]` and a process conserving energy: the rate is not zero. -/
example : ∃ f : ℝ → ℝ, (∀ e, f e ≠ 0 → |e - 1| ≤ 0.1) ∧
    ratePlus ⟨1, 0, true, .tetra f⟩ 1 ⟨1, fun _ => 0, 1⟩ ⟨1, fun _ => 0, 1⟩ ⟨2, fun _ => 0, 1⟩ ≠ 0 := by
  refine ⟨fun e => if |e - 1| ≤ 0.1 then 1 else 0, ?_, ?_⟩
  · intro e he
    by_contra h
    exact he (if_neg h)
  · unfold ratePlus deltaPlus cutOff
    norm_num

/-- All rates are non-negative for positive energies, with any scheme whose tetrahedron weights are non-negative. -/
theorem C46_nonneg (p : PhSetup) (coupling : ℝ) (s1 s2 s3 : PhState) (hc : 0 ≤ coupling) (hn : 0 ≤ p.norm)
    (h1 : 0 ≤ s1.energy) (h2 : 0 ≤ s2.energy) (h3 : 0 ≤ s3.energy)
    (b1 : 0 ≤ s1.bose) (b2 : 0 ≤ s2.bose) (b3 : 0 ≤ s3.bose) :
    0 ≤ ratePlus p coupling s1 s2 s3 ∧ 0 ≤ rateMinus1 p coupling s1 s2 s3 ∧ 0 ≤ rateMinus2 p coupling s1 s2 s3 := by
  have hpi := Real.pi_pos
  have hd : ∀ d : ℝ, 0 ≤ if d < 0 then 0 else d := by
    intro d; split
    · exact le_rfl
    · linarith
  have hd1 : 0 ≤ deltaMinus1 p.smearing s1 s2 s3 := hd _
  have hd2 : 0 ≤ deltaMinus2 p.smearing s1 s2 s3 := hd _
  refine ⟨?_, ?_, ?_⟩
  · unfold ratePlus
    simp only
    split
    · exact le_rfl
    · split
      · exact le_rfl
      · rename_i h
        have : 0 < deltaPlus p.smearing s1 s2 s3 := not_le.mp h
        positivity
  · unfold rateMinus1
    simp only
    split
    · exact le_rfl
    · positivity
  · unfold rateMinus2
    simp only
    split
    · exact le_rfl
    · positivity

/-- The full C46 is violated with the adaptive scheme: the width is taken from the velocity difference of states 2
and 3 only, so exchanging states 1 and 2 changes the matrix element. -/
theorem C46_violated : ∃ (p : PhSetup) (s1 s2 s3 : PhState), GoodConsts ⟨1, 1, 1, 0.1⟩ ∧
    p.smearing = .adaptive ⟨1, 1, 1, 0.1⟩ (fun i j => if i = j then 1 else 0) ∧
    s1.energy + s2.energy = s3.energy ∧ 0 < s1.energy ∧ 0 < s2.energy ∧
    threePhononElement p s1 s2 [(s3, 1)] [] ≠ threePhononElement p s2 s1 [(s3, 1)] [] := by
  let q : Fin 3 → Fin 3 → ℝ := fun i j => if i = j then 1 else 0
  refine ⟨⟨1, 0, true, .adaptive ⟨1, 1, 1, 0.1⟩ q⟩, ⟨1, ![1, 0, 0], 1⟩, ⟨1, ![0, 0, 0], 1⟩, ⟨2, ![1, 0, 0], 1⟩,
    ⟨by norm_num, by norm_num, by norm_num, by norm_num⟩, rfl, by norm_num, by norm_num, by norm_num, ?_⟩
  have hs1 : adaptiveSigma ⟨1, 1, 1, 0.1⟩ q (fun i => (![0, 0, 0] : Fin 3 → ℝ) i - (![1, 0, 0] : Fin 3 → ℝ) i) =
      Real.sqrt (1 / 6) := by
    simp [adaptiveSigma, q]
  have hs2 : adaptiveSigma ⟨1, 1, 1, 0.1⟩ q (fun i => (![1, 0, 0] : Fin 3 → ℝ) i - (![1, 0, 0] : Fin 3 → ℝ) i) = 0 := by
    simp [adaptiveSigma]
  have hsq : (0.4 : ℝ) < Real.sqrt (1 / 6) := by
    apply Real.lt_sqrt_of_sq_lt; norm_num
  have hd1 : adaptiveSmearing ⟨1, 1, 1, 0.1⟩ q ((1 : ℝ) + 1 - 2)
      (fun i => (![0, 0, 0] : Fin 3 → ℝ) i - (![1, 0, 0] : Fin 3 → ℝ) i) = 1 / Real.sqrt (1 / 6) := by
    unfold adaptiveSmearing
    rw [hs1]
    rw [if_neg (by simp)]
    have : Real.sqrt (1 / 6) ≠ 0 := by linarith
    simp only
    rw [if_neg this, if_neg (c := Real.sqrt (1 / 6) < 0.1) (by rw [not_lt]; linarith)]
    rw [if_neg (by norm_num), if_neg (by norm_num)]
    norm_num
  have hd2 : adaptiveSmearing ⟨1, 1, 1, 0.1⟩ q ((1 : ℝ) + 1 - 2)
      (fun i => (![1, 0, 0] : Fin 3 → ℝ) i - (![1, 0, 0] : Fin 3 → ℝ) i) = 1 := by
    unfold adaptiveSmearing
    rw [if_pos]
    constructor
    · simp
    · norm_num
  have hs6 : Real.sqrt (1 / 6) < 1 := by
    rw [Real.sqrt_lt' one_pos]; norm_num
  have hp : 0 < Real.sqrt (1 / 6) := by linarith
  have hcut : cutOff true 0 1 1 2 = false := by
    unfold cutOff; rw [if_pos rfl]; norm_num
  have hinv : 1 < 1 / Real.sqrt (1 / 6) := by rw [lt_div_iff₀ hp]; linarith
  have hp1 : deltaPlus (.adaptive ⟨1, 1, 1, 0.1⟩ q) ⟨1, ![1, 0, 0], 1⟩ ⟨1, ![0, 0, 0], 1⟩ ⟨2, ![1, 0, 0], 1⟩ =
      1 / Real.sqrt (1 / 6) := hd1
  have hp2 : deltaPlus (.adaptive ⟨1, 1, 1, 0.1⟩ q) ⟨1, ![0, 0, 0], 1⟩ ⟨1, ![1, 0, 0], 1⟩ ⟨2, ![1, 0, 0], 1⟩ = 1 := hd2
  simp only [threePhononElement, List.map_cons, List.map_nil, List.sum_cons, List.sum_nil, ratePlus, hp1, hp2, hcut]
  rw [if_neg (by simp), if_neg (by rw [not_le]; linarith), if_neg (by simp), if_neg (by norm_num)]
  intro h
  have hpi := Real.pi_pos
  nlinarith

end Verif.Props
