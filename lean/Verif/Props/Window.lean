import Verif.Proofs.Window
import Verif.Props.Particle

/-! # C31-C33: windows -/
namespace Verif.Props
open Verif.Model

/-! ## C31 -/

/-- The energies returned by the energy window are those strictly inside it, in order. -/
theorem C31_energies {α : Type} [LinearOrder α] (lo hi : α) (es : List α) :
    (internalEnWindow lo hi es).1 = es.filter (fun e => lo < e ∧ e < hi) := by
  unfold internalEnWindow
  simp only
  rw [selectLoop_filter]
  congr 1; funext e
  rw [Bool.and_comm]; simp

/-- For ascending energies, the bands kept are exactly those with energy strictly inside the window. -/
theorem C31_bands {α : Type} [LinearOrder α] (lo hi : α) (es : List α) (hs : es.Pairwise (· ≤ ·)) (b : Nat) :
    b ∈ keptBands (internalEnWindow lo hi es) ↔ ∃ e, es[b]? = some e ∧ lo < e ∧ e < hi := by
  unfold internalEnWindow
  simp only
  rw [mem_keptBands]
  · constructor
    · rintro ⟨e, h1, h2⟩
      simp only [Bool.and_eq_true, decide_eq_true_eq] at h2
      exact ⟨e, h1, h2.2, h2.1⟩
    · rintro ⟨e, h1, h2, h3⟩
      exact ⟨e, h1, by simp [h2, h3]⟩
  · intro a b c ha hc hab hbc
    obtain ⟨_, h2, _⟩ := selectLoop_spec (fun _ e => decide (e < hi) && decide (lo < e)) es 0
    rw [h2] at ha hc ⊢
    obtain ⟨_, ea, ha1, ha2⟩ := ha
    obtain ⟨_, ec, hc1, hc2⟩ := hc
    simp only [Nat.sub_zero, Bool.and_eq_true, decide_eq_true_eq] at *
    obtain ⟨hcl, rfl⟩ := List.getElem?_eq_some_iff.mp hc1
    obtain ⟨hal, rfl⟩ := List.getElem?_eq_some_iff.mp ha1
    have hbl : b < es.length := by omega
    have hmono : ∀ i j (hi : i < es.length) (hj : j < es.length), i ≤ j → es[i] ≤ es[j] := by
      intro i j hi hj hij
      rcases Nat.lt_or_ge i j with h | h
      · exact List.pairwise_iff_getElem.mp hs i j hi hj h
      · have : i = j := by omega
        subst this; exact le_rfl
    exact ⟨Nat.zero_le _, es[b], List.getElem?_eq_getElem hbl,
      lt_of_le_of_lt (hmono b c hbl hcl hbc) hc2.1, lt_of_lt_of_le ha2.2 (hmono a b hal hbl hab)⟩

/-- Sortedness is needed: with unsorted energies a band outside the window is kept. -/
theorem C31_unsorted : keptBands (internalEnWindow (0 : Int) 10 [1, 20, 2]) = [0, 1, 2] := by decide

example : internalEnWindow (0 : Int) 10 [-3, 0, 1, 5, 10, 12] = ([1, 5], [2, 3]) := by decide

/-- The window accepted by the constructor is never empty or inverted for the "energy" kind. -/
theorem C31_ctor (pl : Option ℝ) (el : Option (ℝ × ℝ)) (muMin muMax : ℝ) (m : WindowMethod)
    (h : windowCtor "energy" pl el muMin muMax = .ok m) :
    ∃ a b, el = some (a, b) ∧ m = .energy (min a b) (max a b) ∧ min a b < max a b := by
  unfold windowCtor at h
  rw [if_neg (by decide), if_pos rfl] at h
  match el with
  | none => simp at h
  | some (a, b) =>
    simp only at h
    by_cases hab : min a b = max a b
    · rw [if_pos hab] at h; simp at h
    · rw [if_neg hab] at h
      cases h
      exact ⟨a, b, rfl, rfl, lt_of_le_of_ne min_le_max hab⟩

/-! ## C32 -/

/-- What the user relies on: a state discarded by the population window has an occupation factor not above the
threshold at every requested temperature and chemical potential. -/
def WindowSafe (s : Statistics) (threshold Tmax muMin muMax : ℝ) (es : List ℝ) (T mu : ℝ) : Prop :=
  ∀ (b : Nat) e, es[b]? = some e → b ∉ keptBands (windowApply s (.population threshold) Tmax muMin muMax es) →
    getPopPopPm1 s e T mu ≤ threshold

theorem kept_of_above (s : Statistics) (threshold Tmax muMin muMax : ℝ) (es : List ℝ) (b : Nat) (e : ℝ)
    (he : es[b]? = some e)
    (hb : b ∉ keptBands (windowApply s (.population threshold) Tmax muMin muMax es)) :
    getPopPopPm1 s e Tmax muMin ≤ threshold ∧ getPopPopPm1 s e Tmax muMax ≤ threshold := by
  by_contra hcon
  apply hb
  simp only [windowApply, internalPopWindow]
  refine keptBands_superset _ es b e he ?_
  simp only [List.getD_eq_getElem?_getD, List.getElem?_map, he, Option.map_some, Option.getD_some,
    abs_of_nonneg (C45_symmetrized s e Tmax muMin).1, abs_of_nonneg (C45_symmetrized s e Tmax muMax).1,
    Bool.or_eq_true, decide_eq_true_eq]
  rw [not_and_or, not_le, not_le] at hcon
  exact hcon

/-- Partial C32: safe for all temperatures up to the maximum when the chemical potential is one of the two
extreme ones, or the state lies outside the interval of chemical potentials (phonons, with zero chemical
potential, are always covered).  Missing: intermediate chemical potentials with the state in between. -/
theorem C32_extremes_partial (s : Statistics) (threshold Tmax muMin muMax : ℝ) (es : List ℝ) (T mu : ℝ) (hT : 0 < T)
    (hTm : T ≤ Tmax) (hmu : muMin ≤ mu ∧ mu ≤ muMax)
    (hout : mu = muMin ∨ mu = muMax ∨ ∀ e ∈ es, e < muMin ∨ muMax < e)
    (hne : s = .bose → ∀ e ∈ es, e ≠ muMin ∧ e ≠ muMax) : WindowSafe s threshold Tmax muMin muMax es T mu := by
  intro b e he hb
  obtain ⟨h1, h2⟩ := kept_of_above s threshold Tmax muMin muMax es b e he hb
  have hmem := List.mem_of_getElem? he
  have n1 : s = .bose → e ≠ muMin := fun h => (hne h e hmem).1
  have n2 : s = .bose → e ≠ muMax := fun h => (hne h e hmem).2
  rcases hout with rfl | rfl | h
  · exact le_trans (popPopPm1_anti s hT hTm n1 le_rfl) h1
  · exact le_trans (popPopPm1_anti s hT hTm n2 le_rfl) h2
  · rcases h e hmem with h | h
    · refine le_trans (popPopPm1_anti s hT hTm n1 ?_) h1
      rw [abs_of_neg (by linarith), abs_of_neg (by linarith)]; linarith [hmu.1]
    · refine le_trans (popPopPm1_anti s hT hTm n2 ?_) h2
      rw [abs_of_pos (by linarith), abs_of_pos (by linarith)]; linarith [hmu.2]

/-- Phonons: the chemical potential is zero and the window is safe at every temperature. -/
theorem C32_phonons (threshold Tmax : ℝ) (es : List ℝ) (T : ℝ) (hT : 0 < T) (hTm : T ≤ Tmax)
    (hes : ∀ e ∈ es, e ≠ 0) : WindowSafe .bose threshold Tmax 0 0 es T 0 :=
  C32_extremes_partial .bose threshold Tmax 0 0 es T 0 hT hTm ⟨le_rfl, le_rfl⟩ (Or.inl rfl)
    (fun _ e he => ⟨hes e he, hes e he⟩)

/-- The full C32 is violated: with chemical potentials -20, 0 and 20 at temperature 1 and threshold 0.01, a
state at energy 0, half filled for the middle one (factor 1/4), is discarded. -/
theorem C32_violated : ¬ WindowSafe .fermi 0.01 1 (-20) 20 [0] 1 0 := by
  intro h
  have hcosh : (10 : ℝ) < Real.cosh 10 := by
    rw [Real.cosh_eq]
    have h1 : (2 : ℝ) < Real.exp 1 := by
      have := Real.add_one_lt_exp (x := 1) (by norm_num); linarith
    have h2 : Real.exp 10 = Real.exp 1 ^ 10 := by rw [← Real.exp_nat_mul]; norm_num
    have h3 : (2 : ℝ) ^ 10 < Real.exp 1 ^ 10 := pow_lt_pow_left₀ h1 (by norm_num) (by norm_num)
    have h4 := Real.exp_pos (-10)
    rw [h2]; norm_num at h3 ⊢; linarith
  have hc : ∀ mu : ℝ, |mu| = 20 → getPopPopPm1 .fermi 0 1 mu ≤ 0.01 := by
    intro mu hmu
    simp only [getPopPopPm1]
    have : Real.cosh ((0 - mu) / 2 / 1) = Real.cosh 10 := by
      rw [← Real.cosh_abs]; congr 1
      rw [div_one, abs_div, zero_sub, abs_neg, hmu]; norm_num
    rw [this, div_div, div_le_iff₀ (by positivity)]
    nlinarith
  have := h 0 0 rfl (by
    simp only [windowApply, internalPopWindow, selectLoop, List.map_cons, List.map_nil]
    have c1 := hc (-20) (by norm_num)
    have c2 := hc 20 (by norm_num)
    have e1 : decide (|[getPopPopPm1 .fermi 0 1 (-20)].getD 0 0| > (0.01 : ℝ)) = false := by
      simp only [List.getD_cons_zero, decide_eq_false_iff_not, not_lt, gt_iff_lt]
      rw [abs_of_nonneg (C45_symmetrized _ _ _ _).1]; exact c1
    have e2 : decide (|[getPopPopPm1 .fermi 0 1 20].getD 0 0| > (0.01 : ℝ)) = false := by
      simp only [List.getD_cons_zero, decide_eq_false_iff_not, not_lt, gt_iff_lt]
      rw [abs_of_nonneg (C45_symmetrized _ _ _ _).1]; exact c2
    rw [e1, e2]
    simp [keptBands])
  simp only [getPopPopPm1] at this
  norm_num at this

/-! ## C77 -/

/-- The window centred on the chemical potentials keeps every state whose distance from some chemical potential
of the calculation is within the requested limits. -/
theorem C77_covers (s : Statistics) (pl : Option ℝ) (a b muMin muMax Tmax mu : ℝ) (hmu : muMin ≤ mu ∧ mu ≤ muMax)
    (m : WindowMethod) (h : windowCtor "muCenteredEnergy" pl (some (a, b)) muMin muMax = .ok m)
    (es : List ℝ) (ib : Nat) (e : ℝ) (he : es[ib]? = some e) (h1 : mu + min a b < e) (h2 : e < mu + max a b) :
    ib ∈ keptBands (windowApply s m Tmax muMin muMax es) := by
  unfold windowCtor at h
  rw [if_neg (by decide), if_neg (by decide), if_pos rfl] at h
  simp only at h
  by_cases hab : muMin - |min a b| = muMax + |max a b|
  · rw [if_pos hab] at h; simp at h
  · rw [if_neg hab] at h
    cases h
    simp only [windowApply, internalEnWindow]
    refine keptBands_superset _ es ib e he ?_
    simp only [Bool.and_eq_true, decide_eq_true_eq]
    have h3 := neg_abs_le (min a b)
    have h4 := le_abs_self (max a b)
    exact ⟨by linarith [hmu.2], by linarith [hmu.1]⟩

example : windowCtor "muCenteredEnergy" none (some (-1, 2)) 0 3 = .ok (.energy (-1) 5) := by
  unfold windowCtor
  rw [if_neg (by decide), if_neg (by decide), if_pos rfl]
  norm_num

/-! ## C33 -/

/-- Partial C33: with the window disabled all bands are kept.  Missing: the energies returned are not those
of the bands. -/
theorem C33_all_bands_partial (s : Statistics) (Tmax muMin muMax : ℝ) (es : List ℝ) :
    keptBands (windowApply s .nothing Tmax muMin muMax es) = List.range es.length := by
  cases es with
  | nil => rfl
  | cons e es =>
    simp only [windowApply, List.length_cons, List.range_succ_eq_map, List.map_cons, keptBands]
    rw [← List.range_succ_eq_map, List.range_eq_range']
    congr 1

/-- The full C33 is violated: the energies returned are the band indices. -/
theorem C33_violated : (windowApply .fermi .nothing 1 0 0 [5, 7]).1 ≠ [5, 7] := by
  simp [windowApply, List.range_succ_eq_map]

end Verif.Props
