import Verif.Proofs.Delta
import Mathlib.Tactic.IntervalCases

/-! # C41-C44: delta functions -/
namespace Verif.Props
open Verif.Model MeasureTheory

/-! ## C41 Gaussian -/

theorem gaussian_prefactor_pos {w : ℝ} (hw : 0 < w) : 0 < 1 / w / Real.sqrt Real.pi := by
  have := Real.pi_pos
  positivity

/-- Non-negative and bounded by the peak value `1 / (w sqrt(pi))`, for every energy and positive width. -/
theorem C41_bounds (w e : ℝ) (hw : 0 < w) :
    0 ≤ gaussianSmearing w e ∧ gaussianSmearing w e ≤ 1 / w / Real.sqrt Real.pi := by
  have hp := gaussian_prefactor_pos hw
  unfold gaussianSmearing
  simp only
  split
  · exact ⟨le_rfl, hp.le⟩
  · refine ⟨by positivity, ?_⟩
    have : Real.exp (-(e * (1 / w)) * (e * (1 / w))) ≤ 1 := by
      rw [Real.exp_le_one_iff]; nlinarith [mul_self_nonneg (e * (1 / w))]
    nlinarith

/-- Partial C41: even in the energy up to six widths.  Missing: larger energies, where the negative side is not
cut. -/
theorem C41_even_partial (w e : ℝ) (hw : 0 < w) (he : |e| ≤ 6 * w) : gaussianSmearing w (-e) = gaussianSmearing w e := by
  have h1 : ∀ x : ℝ, |x| ≤ 6 * w → ¬ x * (1 / w) > 6 := by
    intro x hx
    rw [not_lt, mul_one_div, div_le_iff₀ hw]
    exact le_trans (le_abs_self x) hx
  unfold gaussianSmearing
  simp only
  rw [if_neg (h1 _ (by rwa [abs_neg])), if_neg (h1 _ he)]
  congr 2; ring

/-- In all cases the two sides differ by less than `exp(-36)` times the peak value. -/
theorem C41_almost_even (w e : ℝ) (hw : 0 < w) :
    |gaussianSmearing w (-e) - gaussianSmearing w e| ≤ 1 / w / Real.sqrt Real.pi * Real.exp (-36) := by
  have hp := gaussian_prefactor_pos hw
  rcases le_or_gt |e| (6 * w) with h | h
  · rw [C41_even_partial w e hw h, sub_self, abs_zero]; positivity
  · have key : ∀ x : ℝ, 6 * w < |x| → 0 ≤ gaussianSmearing w x ∧
        gaussianSmearing w x ≤ 1 / w / Real.sqrt Real.pi * Real.exp (-36) := by
      intro x hx
      refine ⟨(C41_bounds w x hw).1, ?_⟩
      unfold gaussianSmearing
      simp only
      split
      · positivity
      · apply mul_le_mul_of_nonneg_left _ hp.le
        rw [Real.exp_le_exp]
        have h6 : 6 < |x * (1 / w)| := by
          rw [abs_mul, abs_of_pos (by positivity : 0 < 1 / w), mul_one_div, lt_div_iff₀ hw]; exact hx
        have := abs_mul_abs_self (x * (1 / w))
        nlinarith
    have k1 := key e h
    have k2 := key (-e) (by rwa [abs_neg])
    rw [abs_le]
    constructor <;> linarith [k1.1, k1.2, k2.1, k2.2]

/-- The full C41 is violated: beyond six widths the positive side is zero, the negative one is not. -/
theorem C41_violated : gaussianSmearing 1 7 = 0 ∧ 0 < gaussianSmearing 1 (-7) := by
  have hp := gaussian_prefactor_pos (w := 1) one_pos
  constructor
  · unfold gaussianSmearing; simp only; rw [if_pos (by norm_num)]
  · unfold gaussianSmearing; simp only; rw [if_neg (by norm_num)]; positivity

example : (0 : ℝ) < 0.01 ∧ |(0.03 : ℝ)| ≤ 6 * 0.01 := by
  constructor
  · norm_num
  · rw [abs_of_pos] <;> norm_num

/-! ## C42 adaptive -/

/-- The constants are positive (in the code `prefactor = 1`, `erf2 = 0.995..`, cutoff `0.1 meV`). -/
structure GoodConsts (c : AdaptiveConsts) : Prop where
  prefactor : 0 ≤ c.prefactor
  erf2 : 0 < c.erf2
  sqrtPi : 0 < c.sqrtPi
  cutoff : 0 ≤ c.broadeningCutoff

theorem adaptiveSigma_nonneg (c : AdaptiveConsts) (h : GoodConsts c) (q : Fin 3 → Fin 3 → ℝ) (v : Fin 3 → ℝ) :
    0 ≤ adaptiveSigma c q v := mul_nonneg h.prefactor (Real.sqrt_nonneg _)

/-- Non-negative for every energy and velocity. -/
theorem C42_nonneg (c : AdaptiveConsts) (h : GoodConsts c) (q : Fin 3 → Fin 3 → ℝ) (e : ℝ) (v : Fin 3 → ℝ) :
    0 ≤ adaptiveSmearing c q e v := by
  have h0 := adaptiveSigma_nonneg c h q v
  have h1 := h.cutoff
  have h2 := h.erf2
  have h3 := h.sqrtPi
  have h4 : 0 ≤ if adaptiveSigma c q v < c.broadeningCutoff then c.broadeningCutoff else adaptiveSigma c q v := by
    split <;> assumption
  unfold adaptiveSmearing
  simp only
  generalize (if adaptiveSigma c q v < c.broadeningCutoff then c.broadeningCutoff else adaptiveSigma c q v) = s at h4
  split
  · norm_num
  · split
    · exact le_rfl
    · split
      · exact le_rfl
      · split
        · exact le_rfl
        · positivity

theorem adaptive_cut (c : AdaptiveConsts) (h : GoodConsts c) (q : Fin 3 → Fin 3 → ℝ) (e : ℝ) (v : Fin 3 → ℝ)
    (hs : adaptiveSigma c q v ≠ 0) (s : ℝ)
    (hsd : s = if adaptiveSigma c q v < c.broadeningCutoff then c.broadeningCutoff else adaptiveSigma c q v)
    (he : ¬ |e| > 2 * s) : 0 < s ∧ ¬ e / s > 6 := by
  have h0 := lt_of_le_of_ne (adaptiveSigma_nonneg c h q v) (Ne.symm hs)
  have hpos : 0 < s := by
    rw [hsd]; split
    · linarith
    · exact h0
  refine ⟨hpos, ?_⟩
  rw [not_lt, div_le_iff₀ hpos]
  have := le_abs_self e
  linarith

/-- Even in the energy. -/
theorem C42_even_energy (c : AdaptiveConsts) (h : GoodConsts c) (q : Fin 3 → Fin 3 → ℝ) (e : ℝ) (v : Fin 3 → ℝ) :
    adaptiveSmearing c q (-e) v = adaptiveSmearing c q e v := by
  unfold adaptiveSmearing
  simp only [neg_eq_zero, abs_neg]
  by_cases h1 : Real.sqrt (v 0 ^ 2 + v 1 ^ 2 + v 2 ^ 2) = 0 ∧ e = 0
  · rw [if_pos h1, if_pos h1]
  · rw [if_neg h1, if_neg h1]
    by_cases h2 : adaptiveSigma c q v = 0
    · rw [if_pos h2, if_pos h2]
    · rw [if_neg h2, if_neg h2]
      generalize hsd : (if adaptiveSigma c q v < c.broadeningCutoff then c.broadeningCutoff
        else adaptiveSigma c q v) = s
      by_cases h3 : |e| > 2 * s
      · rw [if_pos h3, if_pos h3]
      · rw [if_neg h3, if_neg h3]
        rw [if_neg (adaptive_cut c h q e v h2 s hsd.symm h3).2,
          if_neg (adaptive_cut c h q (-e) v h2 s hsd.symm (by rwa [abs_neg])).2]
        congr 4; ring

/-- Even in the velocity. -/
theorem C42_even_velocity (c : AdaptiveConsts) (q : Fin 3 → Fin 3 → ℝ) (e : ℝ) (v : Fin 3 → ℝ) :
    adaptiveSmearing c q e (fun i => - v i) = adaptiveSmearing c q e v := by
  have h : adaptiveSigma c q (fun i => - v i) = adaptiveSigma c q v := by
    unfold adaptiveSigma
    congr 2; ring
  unfold adaptiveSmearing
  rw [h]
  simp only [even_two, Even.neg_pow]

/-- Vanishes beyond two standard deviations (the width being at least the cutoff). -/
theorem C42_support (c : AdaptiveConsts) (h : GoodConsts c) (q : Fin 3 → Fin 3 → ℝ) (e : ℝ) (v : Fin 3 → ℝ)
    (he : 2 * max (adaptiveSigma c q v) c.broadeningCutoff < |e|) : adaptiveSmearing c q e v = 0 := by
  have h0 := adaptiveSigma_nonneg c h q v
  have hmax := le_max_left (adaptiveSigma c q v) c.broadeningCutoff
  unfold adaptiveSmearing
  simp only
  have hne : e ≠ 0 := by
    intro h'; rw [h', abs_zero] at he; linarith
  rw [if_neg (by rintro ⟨_, h'⟩; exact hne h')]
  split
  · rfl
  · rw [if_pos]
    have : (if adaptiveSigma c q v < c.broadeningCutoff then c.broadeningCutoff else adaptiveSigma c q v) =
        max (adaptiveSigma c q v) c.broadeningCutoff := by
      split
      · rw [max_eq_right (by linarith)]
      · rw [max_eq_left (by linarith)]
    rw [this]; exact he

example : GoodConsts ⟨1, 0.9953222650189527, 1.772, 0.0001⟩ :=
  ⟨by norm_num, by norm_num, by norm_num, by norm_num⟩

/-! ## C43 tetrahedron weights -/

/-- Non-negative. -/
theorem C43_nonneg (en : Nat → ℝ) (E : ℝ) : 0 ≤ tetraSmearing en E := by
  unfold tetraSmearing
  simp only
  split
  · norm_num
  · rename_i h
    rw [not_lt] at h
    have : (0 : ℝ) ≤ 1e-12 := by norm_num
    exact div_nonneg (le_trans this h) (by norm_num)

theorem tetraWeight_nonneg (l : List ℝ) (hl : l.length = 4) (E : ℝ) : 0 ≤ tetraWeight l E := by
  obtain ⟨e1, e2, e3, e4, h, h12, h23, h34, _⟩ := sort_four l hl
  unfold tetraWeight
  rw [h]
  exact tetraSorted_nonneg h12 h23 h34

/-- A tetrahedron's weight vanishes outside the range of its corner energies. -/
theorem tetraWeight_outside (l : List ℝ) (hl : l.length = 4) (E : ℝ) (h : (∀ e ∈ l, E < e) ∨ ∀ e ∈ l, e < E) :
    tetraWeight l E = 0 := by
  obtain ⟨e1, e2, e3, e4, hs, h12, h23, h34, hp⟩ := sort_four l hl
  unfold tetraWeight
  rw [hs]
  apply tetraSorted_outside h12 h23 h34
  rcases h with h | h
  · exact Or.inl (h e1 (hp.mem_iff.mp (by simp)))
  · exact Or.inr (h e4 (hp.mem_iff.mp (by simp)))

/-- Zero outside the energy range of the eight corners. -/
theorem C43_outside (en : Nat → ℝ) (E : ℝ) (h : (∀ i < 8, E < en i) ∨ ∀ i < 8, en i < E) : tetraSmearing en E = 0 := by
  have hz : ∀ vs ∈ tetraVertices, tetraWeight (vs.map en) E = 0 := by
    intro vs hvs
    have hlen : vs.length = 4 := by revert vs; decide
    have hlt : ∀ i ∈ vs, i < 8 := by revert vs; decide
    apply tetraWeight_outside _ (by simpa using hlen)
    rcases h with h | h
    · left; intro e he; obtain ⟨i, hi, rfl⟩ := List.mem_map.mp he; exact h i (hlt i hi)
    · right; intro e he; obtain ⟨i, hi, rfl⟩ := List.mem_map.mp he; exact h i (hlt i hi)
  unfold tetraSmearing
  simp only
  have : (tetraVertices.map fun vs => tetraWeight (vs.map en) E).sum = 0 := by
    apply List.sum_eq_zero
    intro x hx
    obtain ⟨vs, hvs, rfl⟩ := List.mem_map.mp hx
    exact hz vs hvs
  rw [this, if_pos (by norm_num), zero_div]

/-- The weight of a tetrahedron does not depend on the order of its corners. -/
theorem C43_order (l l' : List ℝ) (h : l.Perm l') (E : ℝ) : tetraWeight l E = tetraWeight l' E := by
  unfold tetraWeight
  have : l.insertionSort (· ≤ ·) = l'.insertionSort (· ≤ ·) := by
    apply List.Perm.eq_of_pairwise' (r := (· ≤ ·)) (List.pairwise_insertionSort _ l) (List.pairwise_insertionSort _ l')
    exact ((List.perm_insertionSort _ l).trans h).trans (List.perm_insertionSort _ l').symm
  rw [this]

/-- The weight of a tetrahedron integrates to one as soon as two of its corner energies differ. -/
theorem C43_tetra_integral (l : List ℝ) (hl : l.length = 4) (hne : ∃ x ∈ l, ∃ y ∈ l, x ≠ y) (a b : ℝ)
    (hab : ∀ e ∈ l, a ≤ e ∧ e ≤ b) :
    IntervalIntegrable (tetraWeight l) volume a b ∧ ∫ E in a..b, tetraWeight l E = 1 := by
  obtain ⟨e1, e2, e3, e4, hs, h12, h23, h34, hp⟩ := sort_four l hl
  have hf : tetraWeight l = tetraSorted e1 e2 e3 e4 := by funext E; unfold tetraWeight; rw [hs]
  rw [hf]
  refine tetraSorted_integral h12 h23 h34 ?_ (hab e1 (hp.mem_iff.mp (by simp))).1 (hab e4 (hp.mem_iff.mp (by simp))).2
  by_contra hcon
  have h14 : e4 ≤ e1 := not_lt.mp hcon
  obtain ⟨x, hx, y, hy, hxy⟩ := hne
  have hall : ∀ x ∈ l, x = e1 := by
    intro x hx
    have := hp.mem_iff.mpr hx
    simp only [List.mem_cons, List.not_mem_nil, or_false] at this
    rcases this with h | h | h | h <;> linarith
  exact hxy ((hall x hx).trans (hall y hy).symm)

theorem sum_vertices {β : Type} [AddMonoid β] (f : List Nat → β) : (tetraVertices.map f).sum =
    f [0, 1, 2, 5] + (f [0, 2, 4, 5] + (f [2, 4, 5, 6] + (f [2, 5, 6, 7] + (f [2, 3, 5, 7] + f [1, 2, 3, 5])))) := by
  simp [tetraVertices]

/-- Partial C43: when no tetrahedron has four equal corner energies, the weight integrates to one up to the
zeroing of weights below 1e-12, that is within `1e-12 / 6` times the energy range.  Missing: exactly one (false
because of the zeroing). -/
theorem C43_integral_partial (en : Nat → ℝ) (a b : ℝ) (hle : a ≤ b) (hab : ∀ i < 8, a ≤ en i ∧ en i ≤ b)
    (hne : ∀ vs ∈ tetraVertices, ∃ i ∈ vs, ∃ j ∈ vs, en i ≠ en j) :
    IntervalIntegrable (tetraSmearing en) volume a b ∧
    |(∫ E in a..b, tetraSmearing en E) - 1| ≤ 1e-12 / 6 * (b - a) := by
  have hone : ∀ vs ∈ tetraVertices, IntervalIntegrable (tetraWeight (vs.map en)) volume a b ∧
      ∫ E in a..b, tetraWeight (vs.map en) E = 1 := by
    intro vs hvs
    have hlen : vs.length = 4 := by revert vs; decide
    have hlt : ∀ i ∈ vs, i < 8 := by revert vs; decide
    obtain ⟨i, hi, j, hj, hij⟩ := hne vs hvs
    apply C43_tetra_integral _ (by simpa using hlen) ⟨en i, List.mem_map_of_mem hi, en j, List.mem_map_of_mem hj, hij⟩
    intro e he
    obtain ⟨i, hi, rfl⟩ := List.mem_map.mp he
    exact hab i (hlt i hi)
  set w : ℝ → ℝ := fun E => (tetraVertices.map fun vs => tetraWeight (vs.map en) E).sum with hw
  have o1 := hone [0, 1, 2, 5] (by decide)
  have o2 := hone [0, 2, 4, 5] (by decide)
  have o3 := hone [2, 4, 5, 6] (by decide)
  have o4 := hone [2, 5, 6, 7] (by decide)
  have o5 := hone [2, 3, 5, 7] (by decide)
  have o6 := hone [1, 2, 3, 5] (by decide)
  have hw' : w = fun E => tetraWeight ([0, 1, 2, 5].map en) E + (tetraWeight ([0, 2, 4, 5].map en) E +
      (tetraWeight ([2, 4, 5, 6].map en) E + (tetraWeight ([2, 5, 6, 7].map en) E +
      (tetraWeight ([2, 3, 5, 7].map en) E + tetraWeight ([1, 2, 3, 5].map en) E)))) := by
    funext E; rw [hw]; exact sum_vertices (fun vs => tetraWeight (vs.map en) E)
  have j5 := o5.1.add o6.1
  have j4 := o4.1.add j5
  have j3 := o3.1.add j4
  have j2 := o2.1.add j3
  have j1 := o1.1.add j2
  have hwi : IntervalIntegrable w volume a b := by rw [hw']; exact j1
  have hw6 : ∫ E in a..b, w E = 6 := by
    rw [hw', intervalIntegral.integral_add o1.1 j2, intervalIntegral.integral_add o2.1 j3,
      intervalIntegral.integral_add o3.1 j4, intervalIntegral.integral_add o4.1 j5,
      intervalIntegral.integral_add o5.1 o6.1, o1.2, o2.2, o3.2, o4.2, o5.2, o6.2]
    norm_num
  have hw0 : ∀ E, 0 ≤ w E := by
    intro E
    apply List.sum_nonneg
    intro x hx
    obtain ⟨vs, hvs, rfl⟩ := List.mem_map.mp hx
    have hlen : ∀ vs ∈ tetraVertices, vs.length = 4 := by decide
    have hlen := hlen vs hvs
    exact tetraWeight_nonneg _ (by simpa using hlen) E
  have hts : ∀ E, tetraSmearing en E = (if w E < 1e-12 then 0 else w E) / 6 := fun E => rfl
  have hbound : ∀ E, |tetraSmearing en E - w E / 6| ≤ 1e-12 / 6 := by
    intro E
    rw [hts E]
    have h0 := hw0 E
    split
    · rename_i h
      rw [zero_div, zero_sub, abs_neg, abs_of_nonneg (by positivity)]
      linarith
    · rw [sub_self, abs_zero]; norm_num
  -- integrability of the zeroed weight
  have hti : IntervalIntegrable (tetraSmearing en) volume a b := by
    rw [intervalIntegrable_iff] at hwi ⊢
    have hphi : Measurable (fun x : ℝ => (if x < 1e-12 then 0 else x) / 6) :=
      (Measurable.ite measurableSet_Iio measurable_const measurable_id).div_const 6
    have hae : AEStronglyMeasurable (tetraSmearing en) (volume.restrict (Set.uIoc a b)) := by
      have := (hphi.comp_aemeasurable hwi.aestronglyMeasurable.aemeasurable).aestronglyMeasurable
      exact this
    refine Integrable.mono' hwi hae (Filter.Eventually.of_forall fun E => ?_)
    rw [Real.norm_eq_abs, abs_of_nonneg (C43_nonneg en E), hts E]
    have h0 := hw0 E
    split <;> linarith
  refine ⟨hti, ?_⟩
  have hdiff : (∫ E in a..b, tetraSmearing en E) - 1 = ∫ E in a..b, (tetraSmearing en E - w E / 6) := by
    rw [intervalIntegral.integral_sub hti (hwi.div_const 6), intervalIntegral.integral_div, hw6]
    norm_num
  rw [hdiff, ← Real.norm_eq_abs]
  have := intervalIntegral.norm_integral_le_of_norm_le_const (a := a) (b := b)
    (f := fun E => tetraSmearing en E - w E / 6) (C := 1e-12 / 6) (fun E _ => by
      rw [Real.norm_eq_abs]; exact hbound E)
  rwa [abs_of_nonneg (by linarith)] at this

theorem tetraSorted_le {e1 e2 e3 e4 W : ℝ} (hW : 0 < W) (h12 : W ≤ e2 - e1) (h23 : W ≤ e3 - e2) (h34 : W ≤ e4 - e3) (E : ℝ) :
    tetraSorted e1 e2 e3 e4 E ≤ 6 / W := by
  have key : ∀ a b c x y : ℝ, W ≤ c → 0 < a → 0 < b → 0 ≤ x → 0 ≤ y → x ≤ a → y ≤ b → x * y / a / b / c ≤ 1 / W := by
    intro a b c x y hc ha hb hx hy hxa hyb
    have h1 : x * y / a / b ≤ 1 := by
      rw [div_div, div_le_one (by positivity)]
      exact mul_le_mul hxa hyb hy ha.le
    calc x * y / a / b / c ≤ 1 / c := by
          apply div_le_div_of_nonneg_right h1 (by linarith)
      _ ≤ 1 / W := one_div_le_one_div_of_le hW hc
  have h6 : 6 / W = 6 * (1 / W) := by ring
  have hp : 0 < 1 / W := by positivity
  unfold tetraSorted
  simp only
  rw [if_neg (by rintro ⟨⟨h, _⟩, _⟩; linarith), h6]
  split
  · rename_i h
    rw [if_neg (by rintro (h | h | h) <;> linarith)]
    have := key (e2 - e1) (e3 - e1) (e4 - e1) (E - e1) (E - e1) (by linarith) (by linarith) (by linarith) (by linarith)
      (by linarith) (by linarith) (by linarith)
    have e : 3 * (E - e1) * (E - e1) / (e2 - e1) / (e3 - e1) / (e4 - e1) =
        3 * ((E - e1) * (E - e1) / (e2 - e1) / (e3 - e1) / (e4 - e1)) := by ring
    rw [e]; linarith
  · split
    · rename_i h
      rw [if_neg (by rintro (h | h | h) <;> linarith), if_neg (by rintro (h | h | h) <;> linarith)]
      have k1 := key (e3 - e2) (e4 - e2) (e3 - e1) (e3 - E) (E - e2) (by linarith) (by linarith) (by linarith) (by linarith)
        (by linarith) (by linarith) (by linarith)
      have k2 := key (e4 - e2) (e3 - e1) (e4 - e1) (e4 - E) (E - e1) (by linarith) (by linarith) (by linarith) (by linarith)
        (by linarith) (by linarith) (by linarith)
      have e1' : (e3 - E) * (E - e2) / (e4 - e2) / (e3 - e2) / (e3 - e1) =
          (e3 - E) * (E - e2) / (e3 - e2) / (e4 - e2) / (e3 - e1) := by
        rw [div_right_comm ((e3 - E) * (E - e2))]
      have e2' : (e4 - E) * (E - e1) / (e4 - e1) / (e4 - e2) / (e3 - e1) =
          (e4 - E) * (E - e1) / (e4 - e2) / (e3 - e1) / (e4 - e1) := by
        rw [div_right_comm _ (e4 - e1) (e4 - e2), div_right_comm _ (e4 - e1) (e3 - e1)]
      rw [e1', e2']; linarith
    · split
      · rename_i h
        rw [if_neg (by rintro (h | h | h) <;> linarith)]
        have := key (e4 - e2) (e4 - e3) (e4 - e1) (e4 - E) (e4 - E) (by linarith) (by linarith) (by linarith) (by linarith)
          (by linarith) (by linarith) (by linarith)
        have e : 3 * (e4 - E) * (e4 - E) / (e4 - e1) / (e4 - e2) / (e4 - e3) =
            3 * ((e4 - E) * (e4 - E) / (e4 - e2) / (e4 - e3) / (e4 - e1)) := by ring
        rw [e]; linarith
      · linarith

/-- The integral is violated: for corner energies that are far apart all the weights are below the cutoff of 1e-12, and the weights
of non-degenerate corners vanish everywhere. -/
theorem C43_violated_integral : ∃ en : Nat → ℝ, (∀ i < 8, ∀ j < 8, i ≠ j → en i ≠ en j) ∧ (∀ E, tetraSmearing en E = 0) ∧
    ∫ E in (en 0)..(en 7), tetraSmearing en E = 0 := by
  have hz : ∀ E, tetraSmearing (fun i => (i : ℝ) * 1e14) E = 0 := by
    intro E
    have hw : ∀ vs ∈ tetraVertices, tetraWeight (vs.map fun i : Nat => (i : ℝ) * 1e14) E ≤ 6 / 1e14 := by
      have hmain : ∀ a b c d : Nat, a < b → b < c → c < d →
          tetraWeight ([a, b, c, d].map fun i : Nat => (i : ℝ) * 1e14) E ≤ 6 / 1e14 := by
        intro a b c d hab hbc hcd
        have h1 : (a : ℝ) + 1 ≤ b := by exact_mod_cast hab
        have h2 : (b : ℝ) + 1 ≤ c := by exact_mod_cast hbc
        have h3 : (c : ℝ) + 1 ≤ d := by exact_mod_cast hcd
        have hs : ([a, b, c, d].map fun i : Nat => (i : ℝ) * 1e14).insertionSort (· ≤ ·) =
            [(a : ℝ) * 1e14, (b : ℝ) * 1e14, (c : ℝ) * 1e14, (d : ℝ) * 1e14] := by
          apply List.Pairwise.insertionSort_eq
          simp only [List.map_cons, List.map_nil, List.pairwise_cons, List.mem_cons, List.not_mem_nil, or_false, forall_eq_or_imp, forall_eq]
          refine ⟨⟨?_, ?_, ?_⟩, ⟨?_, ?_⟩, ?_, ?_⟩
          any_goals (apply mul_le_mul_of_nonneg_right _ (by norm_num); linarith)
          simp
        unfold tetraWeight
        rw [hs]
        exact tetraSorted_le (by norm_num) (by linarith) (by linarith) (by linarith) E
      intro vs hvs
      simp only [tetraVertices, List.mem_cons, List.not_mem_nil, or_false] at hvs
      rcases hvs with rfl | rfl | rfl | rfl | rfl | rfl <;> exact hmain _ _ _ _ (by decide) (by decide) (by decide)
    unfold tetraSmearing
    simp only
    rw [if_pos, zero_div]
    calc (tetraVertices.map fun vs => tetraWeight (vs.map fun i : Nat => (i : ℝ) * 1e14) E).sum
        ≤ (tetraVertices.map fun vs => tetraWeight (vs.map fun i : Nat => (i : ℝ) * 1e14) E).length • (6 / 1e14 : ℝ) := by
          apply List.sum_le_card_nsmul
          intro x hx
          obtain ⟨vs, hvs, rfl⟩ := List.mem_map.mp hx
          exact hw vs hvs
      _ < 1e-12 := by
          simp only [tetraVertices, List.length_map, List.length_cons, List.length_nil]
          norm_num
  refine ⟨fun i => (i : ℝ) * 1e14, ?_, hz, ?_⟩
  · intro i _ j _ hij h
    apply hij
    have := mul_right_cancel₀ (by norm_num) h
    exact_mod_cast this
  · simp [hz]

example : ∀ vs ∈ tetraVertices, ∃ i ∈ vs, ∃ j ∈ vs, (fun n : Nat => (n : ℝ)) i ≠ (fun n : Nat => (n : ℝ)) j := by
  have h : ∀ vs ∈ tetraVertices, ∃ i ∈ vs, ∃ j ∈ vs, i ≠ j := by decide
  intro vs hvs
  obtain ⟨i, hi, j, hj, hij⟩ := h vs hvs
  exact ⟨i, hi, j, hj, fun h => hij (Nat.cast_injective (R := ℝ) h)⟩

/-! ## C44 tetrahedra tile the cell -/

/-- Coordinates of corner `i` of the sub-cell, in units of the mesh spacing. -/
def corner (i : Nat) : ℝ × ℝ × ℝ :=
  let c := subCellShift.getD i (0, 0, 0)
  ((c.1 : ℝ), (c.2.1 : ℝ), (c.2.2 : ℝ))

/-- `(x,y,z)` is the combination with weights `w` of the corners `vs`. -/
def IsCombination (vs : List Nat) (w : Fin 4 → ℝ) (x y z : ℝ) : Prop :=
  w 0 + w 1 + w 2 + w 3 = 1 ∧
  x = w 0 * (corner (vs.getD 0 0)).1 + w 1 * (corner (vs.getD 1 0)).1 + w 2 * (corner (vs.getD 2 0)).1 +
    w 3 * (corner (vs.getD 3 0)).1 ∧
  y = w 0 * (corner (vs.getD 0 0)).2.1 + w 1 * (corner (vs.getD 1 0)).2.1 + w 2 * (corner (vs.getD 2 0)).2.1 +
    w 3 * (corner (vs.getD 3 0)).2.1 ∧
  z = w 0 * (corner (vs.getD 0 0)).2.2 + w 1 * (corner (vs.getD 1 0)).2.2 + w 2 * (corner (vs.getD 2 0)).2.2 +
    w 3 * (corner (vs.getD 3 0)).2.2

/-- The point is in the tetrahedron, or in its interior. -/
def InTetra (t : Nat) (x y z : ℝ) : Prop :=
  ∃ w : Fin 4 → ℝ, (∀ i, 0 ≤ w i) ∧ IsCombination (tetraVertices.getD t []) w x y z
def InInterior (t : Nat) (x y z : ℝ) : Prop :=
  ∃ w : Fin 4 → ℝ, (∀ i, 0 < w i) ∧ IsCombination (tetraVertices.getD t []) w x y z

/-- Every point of the cell is in one of the six tetrahedra. -/
theorem C44_cover (x y z : ℝ) (hx : 0 ≤ x ∧ x ≤ 1) (hy : 0 ≤ y ∧ y ≤ 1) (hz : 0 ≤ z ∧ z ≤ 1) :
    ∃ t, t < 6 ∧ InTetra t x y z := by
  obtain ⟨hx0, hx1⟩ := hx
  obtain ⟨hy0, hy1⟩ := hy
  obtain ⟨hz0, hz1⟩ := hz
  have mk : ∀ (t : Nat) (a b c d : ℝ), t < 6 → 0 ≤ a → 0 ≤ b → 0 ≤ c → 0 ≤ d →
      IsCombination (tetraVertices.getD t []) ![a, b, c, d] x y z → ∃ t, t < 6 ∧ InTetra t x y z := by
    intro t a b c d ht ha hb hc hd h
    refine ⟨t, ht, ![a, b, c, d], ?_, h⟩
    intro i
    fin_cases i <;> simpa
  -- order of x, 1 - y, z
  rcases le_total x (1 - y) with h1 | h1 <;> rcases le_total (1 - y) z with h2 | h2 <;>
    rcases le_total x z with h3 | h3
  · refine mk 2 (1 - z) (1 - x - y) (x) (y - 1 + z) (by norm_num) (by linarith) (by linarith) (by linarith) (by linarith) ?_
    simp [IsCombination, corner, tetraVertices, subCellShift]
    (try constructorm* _ ∧ _) <;> ring
  · refine mk 2 (1 - z) (1 - x - y) (x) (y - 1 + z) (by norm_num) (by linarith) (by linarith) (by linarith) (by linarith) ?_
    simp [IsCombination, corner, tetraVertices, subCellShift]
    (try constructorm* _ ∧ _) <;> ring
  · refine mk 1 (1 - y - z) (y) (z - x) (x) (by norm_num) (by linarith) (by linarith) (by linarith) (by linarith) ?_
    simp [IsCombination, corner, tetraVertices, subCellShift]
    (try constructorm* _ ∧ _) <;> ring
  · refine mk 0 (1 - x - y) (x - z) (y) (z) (by norm_num) (by linarith) (by linarith) (by linarith) (by linarith) ?_
    simp [IsCombination, corner, tetraVertices, subCellShift]
    (try constructorm* _ ∧ _) <;> ring
  · refine mk 3 (1 - z) (1 - y) (z - x) (x - 1 + y) (by norm_num) (by linarith) (by linarith) (by linarith) (by linarith) ?_
    simp [IsCombination, corner, tetraVertices, subCellShift]
    (try constructorm* _ ∧ _) <;> ring
  · refine mk 4 (1 - x) (x - z) (1 - y) (z - 1 + y) (by norm_num) (by linarith) (by linarith) (by linarith) (by linarith) ?_
    simp [IsCombination, corner, tetraVertices, subCellShift]
    (try constructorm* _ ∧ _) <;> ring
  · refine mk 5 (1 - y - z) (1 - x) (y - 1 + x) (z) (by norm_num) (by linarith) (by linarith) (by linarith) (by linarith) ?_
    simp [IsCombination, corner, tetraVertices, subCellShift]
    (try constructorm* _ ∧ _) <;> ring
  · refine mk 5 (1 - y - z) (1 - x) (y - 1 + x) (z) (by norm_num) (by linarith) (by linarith) (by linarith) (by linarith) ?_
    simp [IsCombination, corner, tetraVertices, subCellShift]
    (try constructorm* _ ∧ _) <;> ring

/-- The interior of a tetrahedron does not meet another tetrahedron. -/
theorem C44_disjoint (x y z : ℝ) (t t' : Nat) (ht : t < 6) (ht' : t' < 6) (h : InInterior t x y z)
    (h' : InTetra t' x y z) : t = t' := by
  obtain ⟨w, hw, hc⟩ := h
  obtain ⟨w', hw', hc'⟩ := h'
  have a0 := hw 0; have a1 := hw 1; have a2 := hw 2; have a3 := hw 3
  have b0 := hw' 0; have b1 := hw' 1; have b2 := hw' 2; have b3 := hw' 3
  interval_cases t <;> interval_cases t' <;> first | rfl | exfalso
  all_goals
    simp [IsCombination, corner, tetraVertices, subCellShift] at hc hc'
    linarith [hc.1, hc.2.1, hc.2.2.1, hc.2.2.2, hc'.1, hc'.2.1, hc'.2.2.1, hc'.2.2.2]

/-- The six volumes are equal: each is one sixth of the cell (the determinant of the edges is one in absolute
value). -/
theorem C44_volume (t : Nat) (ht : t < 6) :
    let v := fun i => (tetraVertices.getD t []).getD i 0
    let d := fun i => ((corner (v i)).1 - (corner (v 0)).1, (corner (v i)).2.1 - (corner (v 0)).2.1,
      (corner (v i)).2.2 - (corner (v 0)).2.2)
    |(d 1).1 * ((d 2).2.1 * (d 3).2.2 - (d 2).2.2 * (d 3).2.1) -
      (d 1).2.1 * ((d 2).1 * (d 3).2.2 - (d 2).2.2 * (d 3).1) +
      (d 1).2.2 * ((d 2).1 * (d 3).2.1 - (d 2).2.1 * (d 3).1)| = 1 := by
  interval_cases t <;> simp [corner, tetraVertices, subCellShift]

end Verif.Props
