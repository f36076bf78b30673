import Verif.Proofs.EpaAverage
import Mathlib.Tactic.FinCases

/-! # C146 and C147: averages of the coupling over energies, and their file -/
namespace Verif.Props
open Verif.Model Verif.Spec

variable {N B M : Nat}

/-! ## C146 averages -/

/-- C146 (partial): if the energies of the electrons are not changed by going from the order of the wavevectors of the file
to that of the mesh, the averages are, for any distribution of the files over processes, means of `|g|^2 / (2 omega)` over
the transitions, with Gaussian weights (if the weights are not negligible).
Missing: other energies (`C146_violated_order`). -/
theorem C146_mean_partial (order : Equiv.Perm (Fin N)) (energies : Fin B → Fin N → ℝ)
    (h : ∀ ib ik, energies ib (order ik) = energies ib ik) (smearing cutoff ei ej : ℝ)
    (shares : List (List (List (EpaQPoint N B M)))) (points : List (EpaQPoint N B M))
    (hp : shares.flatten.flatten.Perm points) (nu : Fin M) (hn : 1.0e-12 < weightSum order energies smearing ei ej points) :
    epaAverage order energies smearing cutoff shares ei ej nu = couplingMean order energies smearing cutoff ei ej points nu :=
  epaAverage_val order energies h smearing cutoff ei ej shares points hp nu hn

/-- C146: the averages are not negative, and not larger than the largest of the squared couplings. -/
theorem C146_bounds (ikMap : Fin N → Fin N) (energies : Fin B → Fin N → ℝ) (smearing cutoff ei ej G : ℝ) (hc : 0 ≤ cutoff)
    (shares : List (List (List (EpaQPoint N B M)))) (nu : Fin M) (hG : 0 ≤ G)
    (hb : ∀ s ∈ shares.flatten.flatten, ∀ ik ib1 ib2, cutoff < s.phEnergies nu →
      Complex.normSq (s.g ik ib1 ib2 nu) / (2 * s.phEnergies nu) ≤ G) :
    0 ≤ epaAverage ikMap energies smearing cutoff shares ei ej nu ∧
    epaAverage ikMap energies smearing cutoff shares ei ej nu ≤ G := by
  unfold epaAverage
  simp only [nested_sum]
  obtain ⟨l0, l1⟩ := list_sum_bounds shares.flatten.flatten (epaCouplingSum ikMap energies smearing cutoff ei ej nu)
    (epaNorm energies smearing ei ej) G
    (fun s hs => (epaCouplingSum_bounds ikMap energies smearing cutoff ei ej G hc nu s hG (hb s hs)).1)
    (fun s hs => (epaCouplingSum_bounds ikMap energies smearing cutoff ei ej G hc nu s hG (hb s hs)).2)
  split
  · rename_i hn
    have hpos : 0 < (shares.flatten.flatten.map (epaNorm energies smearing ei ej)).sum := by
      refine lt_trans ?_ hn; norm_num
    exact ⟨div_nonneg l0 hpos.le, (div_le_iff₀ hpos).mpr l1⟩
  · rename_i hn
    rw [not_lt] at hn
    refine ⟨l0, l1.trans ?_⟩
    calc G * _ ≤ G * 1 := mul_le_mul_of_nonneg_left (hn.trans (by norm_num)) hG
      _ = G := mul_one G

/-- C146: if the stars make up the mesh of the phonons, the energies of the phonons in the file are means over it. -/
theorem C146_phonons (shares : List (List (List (EpaQPoint N B M)))) (points : List (EpaQPoint N B M))
    (hp : shares.flatten.flatten.Perm points) (nu : Fin M) :
    epaPhAverage shares points.length nu = (points.map fun s => s.phEnergies nu).sum / points.length := by
  rw [epaPhAverage_val, (hp.map _).sum_eq]

/-- The transitions of the witness: four wavevectors of a mesh of two by two points, q = 0, one band, one mode of energy
`1/2`, coupling `1` for the second wavevector of the file. -/
noncomputable def squareEpa : EpaQPoint 4 1 1 where
  phEnergies _ := 1 / 2
  kPlusQ ik := ik
  g ik _ _ _ := if ik = 1 then 1 else 0

/-- Energies of the witness: one at the second wavevector of the file. -/
noncomputable def squareEnergies : Fin 1 → Fin 4 → ℝ := fun _ ik => if ik = 1 then 1 else 0

/-- C146 is violated: in a mesh of two by two wavevectors, with the last coordinate running fastest in the file and the
first in the mesh, the coupling of the only state with energy 1 has a smaller weight than it should, at that energy. -/
theorem C146_violated_order :
    let order : Equiv.Perm (Fin 4) := Equiv.swap 1 2
    couplingMean order squareEnergies 1 0 1 1 [squareEpa] 0 = 1 / (1 + 3 * Real.exp (-1)) ∧
    epaAverage order squareEnergies 1 0 [[[squareEpa]]] 1 1 0 = Real.exp (-1) / (1 + 3 * Real.exp (-1)) ∧
    epaAverage order squareEnergies 1 0 [[[squareEpa]]] 1 1 0 < couplingMean order squareEnergies 1 0 1 1 [squareEpa] 0 := by
  intro order
  have ho : order 0 = 0 ∧ order 1 = 2 ∧ order 2 = 1 ∧ order 3 = 3 := by
    refine ⟨?_, ?_, ?_, ?_⟩ <;> decide
  have hs : order.symm = order := Equiv.symm_swap 1 2
  obtain ⟨o0, o1, o2, o3⟩ := ho
  have hsq : Real.exp (-(1 / 2)) * Real.exp (-(1 / 2)) = Real.exp (-1) := by
    rw [← Real.exp_add]; norm_num
  have hw : weightSum order squareEnergies 1 1 1 [squareEpa] = 1 + 3 * Real.exp (-1) := by
    simp only [weightSum, transitionWeight, binWeight, squareEnergies, squareEpa, hs, List.map_cons, List.map_nil,
      List.sum_cons, List.sum_nil, Fin.sum_univ_four, Fin.sum_univ_one, o0, o1, o2, o3]
    norm_num [Fin.ext_iff]
    rw [hsq]; ring
  have h1 : couplingMean order squareEnergies 1 0 1 1 [squareEpa] 0 = 1 / (1 + 3 * Real.exp (-1)) := by
    unfold couplingMean
    rw [hw]
    congr 1
    simp only [transportCoupling, transitionWeight, binWeight, squareEnergies, squareEpa, hs, List.map_cons, List.map_nil,
      List.sum_cons, List.sum_nil, Fin.sum_univ_four, Fin.sum_univ_one, o0, o1, o2, o3]
    norm_num [Fin.ext_iff]
  have h2 : epaAverage order squareEnergies 1 0 [[[squareEpa]]] 1 1 0 = Real.exp (-1) / (1 + 3 * Real.exp (-1)) := by
    have g0 : ∀ ik : Fin 4, epaGStar order squareEpa 0 0 0 (order ik) = if ik = 1 then 1 else 0 := fun ik =>
      epaGStar_val order squareEpa 0 0 0 ik
    have g00 := g0 0
    have g01 := g0 1
    have g02 := g0 2
    have g03 := g0 3
    rw [o0] at g00
    rw [o1] at g01
    rw [o2] at g02
    rw [o3] at g03
    have hn : epaNorm squareEnergies 1 1 1 squareEpa = 1 + 3 * Real.exp (-1) := by
      unfold epaNorm
      simp only [real_finRange_sum]
      simp only [epaGaussian, squareEnergies, squareEpa, Fin.sum_univ_four, Fin.sum_univ_one]
      norm_num [Fin.ext_iff]
      rw [hsq]; ring
    have hg : epaCouplingSum order squareEnergies 1 0 1 1 0 squareEpa = Real.exp (-1) := by
      unfold epaCouplingSum
      simp only [real_finRange_sum, Fin.sum_univ_four, Fin.sum_univ_one, g00, g01, g02, g03]
      simp only [epaGaussian, squareEnergies, squareEpa]
      norm_num [Fin.ext_iff]
      exact hsq
    unfold epaAverage
    simp only [List.map_cons, List.map_nil, List.sum_cons, List.sum_nil, add_zero, hn, hg]
    rw [if_pos]
    have := Real.exp_pos (-1)
    norm_num
    linarith
  refine ⟨h1, h2, ?_⟩
  rw [h1, h2]
  have hp := Real.exp_pos (-1)
  have : Real.exp (-1) < 1 := by rw [Real.exp_lt_one_iff]; norm_num
  exact div_lt_div_of_pos_right this (by linarith)

/-- A case that meets the hypotheses of `C146_mean_partial`: the order of the witness, with energies that do not change when
the coordinates are exchanged. -/
example : let order : Equiv.Perm (Fin 4) := Equiv.swap 1 2
    let energies : Fin 1 → Fin 4 → ℝ := fun _ ik => if ik = 3 then 1 else 0
    (∀ ib ik, energies ib (order ik) = energies ib ik) ∧
    epaAverage order energies 1 0 [[[squareEpa]], []] 1 1 0 = couplingMean order energies 1 0 1 1 [squareEpa] 0 := by
  intro order energies
  have h : ∀ ib ik, energies ib (order ik) = energies ib ik := by
    intro ib ik
    have : order ik = 3 ↔ ik = 3 := by revert ik; decide
    simp only [energies, this]
  refine ⟨h, C146_mean_partial order energies h 1 0 1 1 _ [squareEpa] (by simp) 0 ?_⟩
  have one : binWeight 1 1 1 = 1 := by simp [binWeight]
  have pos : ∀ x, 0 ≤ binWeight 1 1 x := fun x => (Real.exp_pos _).le
  have hle : (1 : ℝ) ≤ weightSum order energies 1 1 1 [squareEpa] := by
    simp only [weightSum, List.map_cons, List.map_nil, List.sum_cons, List.sum_nil, add_zero, Fin.sum_univ_one]
    refine le_trans (le_of_eq ?_) (Finset.single_le_sum (f := fun ik => transitionWeight order energies 1 1 1 squareEpa ik 0 0)
      (fun ik _ => mul_nonneg (pos _) (pos _)) (Finset.mem_univ 3))
    simp [transitionWeight, energies, squareEpa, one]
  refine lt_of_lt_of_le ?_ hle
  norm_num

/-- C146: the bins of a given spacing start at the smallest energy, are spaced by it, and go up to the largest energy. -/
theorem C146_bins_spacing (minEnergy maxEnergy delta : ℝ) (numBins : Int) (h : minEnergy ≤ maxEnergy) (hd : 0 < delta)
    (hfit : (maxEnergy - minEnergy) / delta < intMax) :
    ∃ bins : List ℝ, epaBins minEnergy maxEnergy numBins (some delta) = .ok bins ∧ 0 < bins.length ∧
      (∀ i (hi : i < bins.length), bins[i] = minEnergy + i * delta ∧ bins[i] ≤ maxEnergy) ∧
      maxEnergy < minEnergy + bins.length * delta := by
  have hq : 0 ≤ (maxEnergy - minEnergy) / delta := div_nonneg (by linarith) hd.le
  have ht : truncInt ((maxEnergy - minEnergy) / delta) = ⌊(maxEnergy - minEnergy) / delta⌋ := if_pos hq
  have hf : 0 ≤ ⌊(maxEnergy - minEnergy) / delta⌋ := Int.floor_nonneg.mpr hq
  have hl : ⌊(maxEnergy - minEnergy) / delta⌋ < intMax := Int.floor_lt.mpr hfit
  unfold epaBins
  rw [if_neg (not_lt.mpr h)]
  simp only [ht]
  rw [if_neg (by
    have : intMin ≤ 0 := by decide
    rintro (h | h | h)
    · exact hd.ne' h
    · omega
    · omega), if_neg (by omega)]
  set n := ⌊(maxEnergy - minEnergy) / delta⌋ with hn
  have hlen : ((n + 1).toNat : ℝ) = n + 1 := by
    have : ((n + 1).toNat : ℤ) = n + 1 := Int.toNat_of_nonneg (by omega)
    exact_mod_cast this
  refine ⟨_, rfl, by simp; omega, ?_, ?_⟩
  · intro i hi
    simp only [List.length_map, List.length_range] at hi
    simp only [List.getElem_map, List.getElem_range]
    refine ⟨by ring, ?_⟩
    have h1 : (i : ℝ) ≤ n := by
      have : (i : ℤ) ≤ n := by omega
      exact_mod_cast this
    have h2 : (n : ℝ) ≤ (maxEnergy - minEnergy) / delta := Int.floor_le _
    have h3 : (i : ℝ) * delta ≤ maxEnergy - minEnergy := by
      rw [← le_div_iff₀ hd]; linarith
    linarith
  · simp only [List.length_map, List.length_range, hlen]
    have h2 : (maxEnergy - minEnergy) / delta < n + 1 := Int.lt_floor_add_one _
    rw [div_lt_iff₀ hd] at h2
    linarith

/-- C146: a given number of bins divides the range of energies into equal parts; the bins are at the lower ends. -/
theorem C146_bins_number (minEnergy maxEnergy : ℝ) (n : Nat) (h : minEnergy ≤ maxEnergy) :
    ∃ bins : List ℝ, epaBins minEnergy maxEnergy n none = .ok bins ∧ bins.length = n ∧
      ∀ i (hi : i < bins.length), bins[i] = minEnergy + (maxEnergy - minEnergy) * (i / n) := by
  unfold epaBins
  rw [if_neg (not_lt.mpr h)]
  simp only
  rw [if_neg (by omega)]
  refine ⟨_, rfl, by simp, ?_⟩
  intro i hi
  simp only [List.getElem_map, List.getElem_range, Int.cast_natCast]
  ring

/-- C146: an empty range of energies and a negative number of bins are refused. -/
theorem C146_bins_refused (minEnergy maxEnergy : ℝ) (numBins : Int) :
    (maxEnergy < minEnergy → ∀ delta, epaBins minEnergy maxEnergy numBins delta = .error) ∧
    (numBins < 0 → epaBins minEnergy maxEnergy numBins none = .error) := by
  unfold epaBins
  refine ⟨fun h delta => if_pos h, fun h => ?_⟩
  split
  · rfl
  · simp [h]

/-- Cases that meet the hypotheses. -/
example : (∃ bins : List ℝ, epaBins (-1) 1 0 (some (1 / 2)) = .ok bins ∧ bins.length = 5) ∧
    ∃ bins : List ℝ, epaBins (-1) 1 4 none = .ok bins ∧ bins.length = 4 := by
  constructor
  · obtain ⟨bins, h1, _, h2, h3⟩ := C146_bins_spacing (-1) 1 (1 / 2) 0 (by norm_num) (by norm_num)
      (by norm_num [intMax])
    refine ⟨bins, h1, ?_⟩
    have l1 : 4 < bins.length := by
      have : (4 : ℝ) < bins.length := by linarith
      exact_mod_cast this
    by_contra hne
    have h5 := (h2 5 (by omega)).1
    have h6 := (h2 5 (by omega)).2
    rw [h5] at h6
    norm_num at h6
  · obtain ⟨bins, h1, h2, _⟩ := C146_bins_number (-1) 1 4 (by norm_num)
    exact ⟨bins, h1, h2⟩

/-! ## C147 the file of the averages -/

/-- C147 (partial): what was written, with the digits that were written, is read back, for calculations without spin.
Missing: all the digits; files that end too early (`C147_violated_truncated`). -/
theorem C147_read_partial (print : ℝ → ℝ) (f : EpaFile) (hspin : f.numSpin = 1)
    (hg : f.coupling.length = f.phEnergies.length ∧
      ∀ a ∈ f.coupling, a.length = f.energies.length ∧ ∀ r ∈ a, r.length = f.energies.length)
    (garbage : Int) (garbageNum : ℝ) :
    epaRead garbage garbageNum (epaWrite print f) = .ok ⟨f.numElectrons, f.numSpin, f.phEnergies.map print,
      f.energies.map print, f.coupling.map fun a => a.map fun r => r.map print⟩ := by
  have e1 := epaReadNums_val garbageNum print f.phEnergies ([.int f.energies.length] ++ (f.energies.map fun x => .num (print x)) ++
    (f.coupling.flatten.flatten.map fun x => .num (print x)))
  have e2 := epaReadNums_val garbageNum print f.energies (f.coupling.flatten.flatten.map fun x => .num (print x))
  have e3 := epaReadMats_val 0 f.energies.length f.energies.length print f.coupling hg.2 []
  rw [hg.1, List.append_nil] at e3
  unfold epaRead epaWrite
  simp only [List.cons_append, List.nil_append, epaReadInt, hspin, List.append_assoc] at e1 ⊢
  simp only [ne_eq, not_true_eq_false, if_false, Int.toNat_natCast, Int.natCast_nonneg, not_lt.mpr, e1, e2, e3]

/-- C147: files of calculations with spin are refused. -/
theorem C147_spin (print : ℝ → ℝ) (f : EpaFile) (hspin : f.numSpin ≠ 1) (garbage : Int) (garbageNum : ℝ) :
    epaRead garbage garbageNum (epaWrite print f) = .error := by
  unfold epaRead epaWrite
  simp [epaReadInt, hspin]

/-- C147 is violated: a file that ends before the last numbers is accepted, and the missing averages are zero. -/
theorem C147_violated_truncated :
    ∃ (t t' : List EpaToken) (last : EpaToken), t = t' ++ [last] ∧
      epaRead 0 0 t = .ok ⟨8, 1, [3], [5], [[[7]]]⟩ ∧ epaRead 0 0 t' = .ok ⟨8, 1, [3], [5], [[[0]]]⟩ :=
  ⟨[.int 8, .int 1, .int 1, .num 3, .int 1, .num 5, .num 7], [.int 8, .int 1, .int 1, .num 3, .int 1, .num 5], .num 7, rfl,
    by simp [epaRead, epaReadInt, epaReadNums, epaReadNum, epaReadMats, epaReadRows],
    by simp [epaRead, epaReadInt, epaReadNums, epaReadNum, epaReadMats, epaReadRows]⟩

/-- A case that meets the hypotheses: one mode, two bins, digits dropped after the first decimal. -/
example : epaRead 0 0 (epaWrite (fun x => ⌊10 * x⌋ / 10) ⟨8, 1, [0.25], [0, 1], [[[1, 2], [3, 4]]]⟩) =
    .ok ⟨8, 1, [0.2], [0, 1], [[[1, 2], [3, 4]]]⟩ := by
  rw [C147_read_partial _ _ rfl (by simp)]
  have h0 : ⌊10 * (0.25 : ℝ)⌋ = 2 := by rw [Int.floor_eq_iff]; norm_num
  have h1 : ∀ n : ℕ, ((⌊10 * (n : ℝ)⌋ : ℤ) : ℝ) / 10 = n := by
    intro n
    have : (10 * (n : ℝ)) = ((10 * n : ℤ) : ℝ) := by push_cast; ring
    rw [this, Int.floor_intCast]; push_cast; ring
  have a0 := h1 0
  have a1 := h1 1
  have a2 := h1 2
  have a3 := h1 3
  have a4 := h1 4
  push_cast at a0 a1 a2 a3 a4
  simp only [List.map_cons, List.map_nil, h0, a0, a1, a2, a3, a4]
  norm_num

end Verif.Props
