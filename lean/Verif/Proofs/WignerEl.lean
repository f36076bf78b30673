import Verif.Proofs.Wigner
import Verif.Proofs.Particle

namespace Verif.Model
open Verif.Spec

theorem complex_double (g d : ℝ) : (⟨g, 2 * d⟩ : ℂ) = 2 * (((g / 2 : ℝ) : ℂ) + (d : ℂ) * Complex.I) := by
  apply Complex.ext <;> simp <;> ring

theorem wignerFE_val (e1 e2 f1 f2 : ℝ) (v : ℂ) {g g' : ℝ} (hg : 0 < g) (hg' : 0 < g') (he : e1 ≠ e2) :
    wignerFE e1 e2 f1 f2 v ((1 / g : ℝ) : WithTop ℝ) ((1 / g' : ℝ) : WithTop ℝ) =
      (coherence e1 e2 g g' ((f1 - f2) / (e1 - e2)) v : WithTop ℂ) := by
  unfold wignerFE
  rw [if_neg he, recipTime_sum (one_div_pos.mpr hg) (one_div_pos.mpr hg'), one_div_one_div, one_div_one_div]
  show ((_ : ℂ) : WithTop ℂ) = _
  congr 1
  unfold coherence
  rw [complex_double]
  have h2 : (2 : ℂ) ≠ 0 := two_ne_zero
  rw [mul_comm (-2 : ℂ) v, ← neg_mul_comm, mul_comm (-v) 2, mul_div_mul_left _ _ h2]
  push_cast
  ring

theorem wignerFT_val (e1 e2 d1 d2 : ℝ) (v : ℂ) {g g' : ℝ} (hg : 0 < g) (hg' : 0 < g') :
    wignerFT e1 e2 d1 d2 v ((1 / g : ℝ) : WithTop ℝ) ((1 / g' : ℝ) : WithTop ℝ) =
      ((-2 * coherence e1 e2 g g' ((d1 + d2) / 2) v : ℂ) : WithTop ℂ) := by
  unfold wignerFT
  rw [recipTime_sum (one_div_pos.mpr hg) (one_div_pos.mpr hg'), one_div_one_div, one_div_one_div]
  show (if g + g' = 0 ∧ e1 = e2 then _ else _) = _
  rw [if_neg (fun h => by linarith [h.1])]
  congr 1
  unfold coherence
  rw [complex_double, Complex.ofReal_div]
  have h2 : (2 : ℂ) ≠ 0 := two_ne_zero
  rw [mul_div_mul_left _ _ h2]
  push_cast
  ring

/-- The population matrix that the program makes, as a complex number. -/
noncomputable def wignerResponse (P : PointView) (temp mu : ℝ) (rate : Nat → Nat → ℝ) (thermal : Bool) (s b b' : Nat) (i : Fin 3) : ℂ :=
  if thermal then -2 * coherence (P.energy s b) (P.energy s b') (rate s b) (rate s b')
    ((getDndt .fermi (P.energy s b) temp mu false + getDndt .fermi (P.energy s b') temp mu false) / 2) (P.vel s b b' i)
  else coherence (P.energy s b) (P.energy s b') (rate s b) (rate s b')
    ((getPopulation .fermi (P.energy s b) temp mu - getPopulation .fermi (P.energy s b') temp mu) /
      (P.energy s b - P.energy s b')) (P.vel s b b' i)

theorem wignerElSum_val (P : PointView) (numQ : Nat) (stat : Nat → CalcStat)
    (tau : Nat → Nat → WithTop ℝ) (thermal : Bool) (w : Nat → ℝ → ℝ) (size : Nat) (hs : 0 < size)
    (hfit : numQ * size < 18446744073709551616) (iCalc : Nat) (rate : Nat → Nat → ℝ)
    (hpos : ∀ s < numQ, ∀ b < P.numBands s, 0 < rate s b)
    (htau : ∀ s < numQ, ∀ b < P.numBands s, tau iCalc (P.toBte s b) = ((1 / rate s b : ℝ) : WithTop ℝ))
    (hdiff : ∀ s < numQ, ∀ b < P.numBands s, ∀ b' < P.numBands s, b ≠ b' → P.energy s b ≠ P.energy s b') :
    (wignerElSum P numQ stat tau thermal w size).length = size ∧
    ∀ f ∈ wignerElSum P numQ stat tau thermal w size, ∀ i j, f iCalc i j =
      ((∑ s ∈ Finset.range numQ, ∑ b ∈ Finset.range (P.numBands s), ∑ b' ∈ Finset.range (P.numBands s),
        if b ≠ b' then (w iCalc (P.energy s b) + w iCalc (P.energy s b')) *
          (P.vel s b' b i * wignerResponse P (stat iCalc).temp (stat iCalc).chemPot rate thermal s b b' j).re
        else 0 : ℝ) : WithTop ℝ) := by
  obtain ⟨h1, h2⟩ := stateSum_val (List.range numQ) size hs (by simpa using hfit)
    (fun r => [sliceOf (List.range numQ) r size]) (by intro r _; simp) (wignerElTerm P stat tau thermal w)
  refine ⟨h1, ?_⟩
  intro f hf i j
  rw [h2 f hf iCalc, pi_sum_apply]
  set F := wignerResponse P (stat iCalc).temp (stat iCalc).chemPot rate thermal with hF
  rw [withTop_sum (List.range numQ) _ (fun s => ∑ b ∈ Finset.range (P.numBands s), ∑ b' ∈ Finset.range (P.numBands s),
        if b = b' then 0 else w iCalc (P.energy s b) * (P.vel s b b' i * F s b' b j + P.vel s b' b i * F s b b' j).re)]
  · rw [list_range_sum]
    congr 1
    apply Finset.sum_congr rfl
    intro s _
    have e1 : ∀ b b' : Nat, (if b = b' then (0 : ℝ) else
        w iCalc (P.energy s b) * (P.vel s b b' i * F s b' b j + P.vel s b' b i * F s b b' j).re) =
        (if b = b' then 0 else w iCalc (P.energy s b) * (P.vel s b b' i * F s b' b j).re) +
        (if b = b' then 0 else w iCalc (P.energy s b) * (P.vel s b' b i * F s b b' j).re) := by
      intro b b'
      by_cases h : b = b'
      · simp [h]
      · rw [if_neg h, if_neg h, if_neg h, Complex.add_re]; ring
    simp only [e1, Finset.sum_add_distrib]
    rw [Finset.sum_comm, ← Finset.sum_add_distrib]
    apply Finset.sum_congr rfl
    intro b _
    rw [← Finset.sum_add_distrib]
    apply Finset.sum_congr rfl
    intro b' _
    by_cases h : b = b'
    · subst h; simp
    · rw [if_neg h, if_neg (Ne.symm h), if_pos h]
      ring
  · intro s hsm
    rw [List.mem_range] at hsm
    unfold wignerElTerm
    dsimp only
    rw [← list_range_sum]
    apply withTop_sum
    intro b hb
    rw [← list_range_sum]
    apply withTop_sum
    intro b' hb'
    rw [List.mem_range] at hb hb'
    by_cases hbb : b = b'
    · simp [hbb]
    · rw [if_neg hbb, if_neg hbb, htau s hsm b hb, htau s hsm b' hb']
      have hb1 := hpos s hsm b hb
      have hb2 := hpos s hsm b' hb'
      cases thermal with
      | true =>
        simp only [if_true]
        rw [wignerFT_val _ _ _ _ _ hb2 hb1, wignerFT_val _ _ _ _ _ hb1 hb2]
        show (((_ : ℝ) : ℝ) : WithTop ℝ) = _
        simp only [hF, wignerResponse, if_true]
      | false =>
        simp only [Bool.false_eq_true, if_false]
        rw [wignerFE_val _ _ _ _ _ hb2 hb1 (hdiff s hsm b' hb' b hb (Ne.symm hbb)),
          wignerFE_val _ _ _ _ _ hb1 hb2 (hdiff s hsm b hb b' hb' hbb)]
        show (((_ : ℝ) : ℝ) : WithTop ℝ) = _
        simp only [hF, wignerResponse, Bool.false_eq_true, if_false]

/-- Occupations decrease with the energy. -/
theorem fermi_quotient_nonpos (e1 e2 T mu : ℝ) :
    (getPopulation .fermi e1 T mu - getPopulation .fermi e2 T mu) / (e1 - e2) ≤ 0 := by
  have anti : ∀ a b : ℝ, a ≤ b → getPopulation .fermi b T mu ≤ getPopulation .fermi a T mu := by
    intro a b hab
    by_cases hT : T ≤ 0
    · simp only [getPopulation, if_pos hT]
      split
      · rw [if_pos (by linarith)]
      · split <;> norm_num
    · push Not at hT
      rw [getPopulation_fermi hT, getPopulation_fermi hT]
      apply one_div_le_one_div_of_le (by positivity)
      have : Real.exp ((a - mu) / T) ≤ Real.exp ((b - mu) / T) := by
        apply Real.exp_le_exp.mpr
        apply div_le_div_of_nonneg_right _ hT.le
        linarith
      linarith
  rcases le_total e1 e2 with h | h
  · exact div_nonpos_of_nonneg_of_nonpos (by linarith [anti e1 e2 h]) (by linarith)
  · exact div_nonpos_of_nonpos_of_nonneg (by linarith [anti e2 e1 h]) (by linarith)

/-- The current of the coherences never opposes the force. -/
theorem coherentFlux_nonneg (numQ numPoints : Nat) (numBands : Nat → Nat) (volume spin : ℝ) (hN : 0 < numPoints)
    (hvol : 0 < volume) (hspin : 0 ≤ spin) (v : Nat → Nat → Nat → Fin 3 → ℂ) (hv : HermitianVel v)
    (energy rate : Nat → Nat → ℝ) (hpos : ∀ s < numQ, ∀ b < numBands s, 0 < rate s b) (source : Nat → Nat → Nat → ℝ)
    (hsrc : ∀ s b b', source s b b' ≤ 0) (x : Fin 3 → ℝ) :
    0 ≤ ∑ i, ∑ j, x i * coherentFlux numQ numPoints numBands volume spin v (fun _ _ _ => 1)
      (fun s b b' i => coherence (energy s b) (energy s b') (rate s b) (rate s b') (source s b b') (v s b b' i)) i j * x j := by
  have hNV : (0 : ℝ) < numPoints * volume := mul_pos (by exact_mod_cast hN) hvol
  set z : Nat → Nat → Nat → ℂ := fun s b b' =>
    (((rate s b + rate s b') / 2 : ℝ) : ℂ) + ((energy s b - energy s b' : ℝ) : ℂ) * Complex.I with hz
  have e : ∑ i, ∑ j, x i * coherentFlux numQ numPoints numBands volume spin v (fun _ _ _ => 1)
      (fun s b b' i => coherence (energy s b) (energy s b') (rate s b) (rate s b') (source s b b') (v s b b' i)) i j * x j =
      spin * (∑ s ∈ Finset.range numQ, ∑ b ∈ Finset.range (numBands s), ∑ b' ∈ Finset.range (numBands s),
        if b ≠ b' then -source s b b' * Complex.normSq (∑ i, (x i : ℂ) * v s b b' i) * (1 / z s b b').re else 0) /
        (numPoints * volume) := by
    unfold coherentFlux
    have : ∀ i j, x i * (spin * (∑ s ∈ Finset.range numQ, ∑ b ∈ Finset.range (numBands s),
        ∑ b' ∈ Finset.range (numBands s), if b ≠ b' then 1 * (v s b' b i * coherence (energy s b) (energy s b') (rate s b)
          (rate s b') (source s b b') (v s b b' j)).re else 0) / (numPoints * volume)) * x j =
        spin * (∑ s ∈ Finset.range numQ, ∑ b ∈ Finset.range (numBands s),
        ∑ b' ∈ Finset.range (numBands s), if b ≠ b' then x i * (v s b' b i * coherence (energy s b) (energy s b') (rate s b)
          (rate s b') (source s b b') (v s b b' j)).re * x j else 0) / (numPoints * volume) := by
      intro i j
      have : ∀ S : ℝ, x i * (spin * S / (numPoints * volume)) * x j = spin * (x i * S * x j) / (numPoints * volume) := by
        intro S; ring
      rw [this, Finset.mul_sum, Finset.sum_mul]
      congr 2
      apply Finset.sum_congr rfl
      intro s _
      rw [Finset.mul_sum, Finset.sum_mul]
      apply Finset.sum_congr rfl
      intro b _
      rw [Finset.mul_sum, Finset.sum_mul]
      apply Finset.sum_congr rfl
      intro b' _
      split <;> ring
    simp only [this]
    simp only [← Finset.sum_div, ← Finset.mul_sum]
    congr 2
    rw [Finset.sum_congr rfl fun i _ => Finset.sum_comm, Finset.sum_comm]
    apply Finset.sum_congr rfl
    intro s _
    rw [Finset.sum_congr rfl fun i _ => Finset.sum_comm, Finset.sum_comm]
    apply Finset.sum_congr rfl
    intro b _
    rw [Finset.sum_congr rfl fun i _ => Finset.sum_comm, Finset.sum_comm]
    apply Finset.sum_congr rfl
    intro b' _
    split
    · have h1 : ∀ i j, x i * (v s b' b i * coherence (energy s b) (energy s b') (rate s b) (rate s b') (source s b b')
          (v s b b' j)).re * x j = -source s b b' *
            (((x i : ℂ) * v s b' b i * ((x j : ℂ) * v s b b' j)) * (1 / z s b b')).re := by
        intro i j
        have : (x i : ℂ) * v s b' b i * ((x j : ℂ) * v s b b' j) * (1 / z s b b') =
            ((x i * x j : ℝ) : ℂ) * (v s b' b i * v s b b' j * (1 / z s b b')) := by push_cast; ring
        rw [this, Complex.re_ofReal_mul]
        unfold coherence
        have h3 : v s b' b i * (-((source s b b' : ℂ) * v s b b' j) /
            (((rate s b + rate s b') / 2 : ℝ) + ((energy s b - energy s b' : ℝ) : ℂ) * Complex.I)) =
            ((-source s b b' : ℝ) : ℂ) * (v s b' b i * v s b b' j * (1 / z s b b')) := by
          simp only [hz]; push_cast; ring
        rw [h3, Complex.re_ofReal_mul]
        ring
      simp only [h1, ← Finset.mul_sum]
      rw [mul_assoc]
      congr 1
      have h4 : ∑ i, ∑ j, (((x i : ℂ) * v s b' b i * ((x j : ℂ) * v s b b' j)) * (1 / z s b b')).re =
          (((∑ i, (x i : ℂ) * v s b' b i) * (∑ j, (x j : ℂ) * v s b b' j)) * (1 / z s b b')).re := by
        rw [Finset.sum_mul_sum, Finset.sum_mul, Complex.re_sum]
        apply Finset.sum_congr rfl
        intro i _
        rw [Finset.sum_mul, Complex.re_sum]
      rw [h4]
      have h5 : (∑ i, (x i : ℂ) * v s b' b i) = starRingEnd ℂ (∑ i, (x i : ℂ) * v s b b' i) := by
        rw [map_sum]
        apply Finset.sum_congr rfl
        intro i _
        rw [map_mul, Complex.conj_ofReal, ← hv s b b' i]
      rw [h5, ← Complex.normSq_eq_conj_mul_self, Complex.re_ofReal_mul]
    · simp
  rw [e]
  apply div_nonneg _ hNV.le
  apply mul_nonneg hspin
  apply Finset.sum_nonneg
  intro s hs
  apply Finset.sum_nonneg
  intro b hb
  apply Finset.sum_nonneg
  intro b' hb'
  split
  · apply mul_nonneg (mul_nonneg (by linarith [hsrc s b b']) (Complex.normSq_nonneg _))
    rw [one_div, Complex.inv_re]
    apply div_nonneg _ (Complex.normSq_nonneg _)
    have h1 := hpos s (Finset.mem_range.mp hs) b (Finset.mem_range.mp hb)
    have h2 := hpos s (Finset.mem_range.mp hs) b' (Finset.mem_range.mp hb')
    simp only [hz, Complex.add_re, Complex.ofReal_re, Complex.mul_re, Complex.ofReal_im, Complex.I_re, Complex.I_im]
    linarith
  · exact le_rfl

/-- With time reversal the tensor of the currents is symmetric. -/
theorem coherentFlux_symm (numQ numPoints : Nat) (numBands : Nat → Nat) (volume spin : ℝ)
    (v : Nat → Nat → Nat → Fin 3 → ℂ) (hv : HermitianVel v) (energy rate : Nat → Nat → ℝ) (bar : Nat → Nat)
    (htr : TimeReversal numQ bar numBands energy rate v) (source : ℝ → ℝ → ℝ)
    (i j : Fin 3) :
    coherentFlux numQ numPoints numBands volume spin v (fun _ _ _ => 1)
      (fun s b b' i => coherence (energy s b) (energy s b') (rate s b) (rate s b') (source (energy s b) (energy s b'))
        (v s b b' i)) i j =
    coherentFlux numQ numPoints numBands volume spin v (fun _ _ _ => 1)
      (fun s b b' i => coherence (energy s b) (energy s b') (rate s b) (rate s b') (source (energy s b) (energy s b'))
        (v s b b' i)) j i := by
  unfold coherentFlux
  congr 2
  apply Finset.sum_nbij' bar bar
  · intro s hs; exact Finset.mem_range.mpr (htr.range s (Finset.mem_range.mp hs))
  · intro s hs; exact Finset.mem_range.mpr (htr.range s (Finset.mem_range.mp hs))
  · intro s hs; exact htr.invol s (Finset.mem_range.mp hs)
  · intro s hs; exact htr.invol s (Finset.mem_range.mp hs)
  · intro s hs
    have hs := Finset.mem_range.mp hs
    rw [htr.bands s hs]
    apply Finset.sum_congr rfl
    intro b _
    apply Finset.sum_congr rfl
    intro b' _
    split
    · congr 2
      simp only [htr.energy s hs, htr.rate s hs, htr.vel s hs]
      unfold coherence
      rw [← hv s b' b j, ← hv s b b' i]
      ring
    · rfl

end Verif.Model
