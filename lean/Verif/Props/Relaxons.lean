import Verif.Proofs.Relaxons
import Verif.Props.Omini

/-!
# C117: the relaxons solver of the Boltzmann equation
-/
namespace Verif.Props
open Verif.Model Verif.Spec

/-- The part of the source along the relaxons whose eigenvalue is not positive, which are left out. -/
noncomputable def leftOut (n : Nat) (lam : List ℝ) (vec : Nat → Nat → ℝ) (src : Nat → ℝ) (s : Nat) : ℝ :=
  ∑ alpha ∈ Finset.range n with lam.getD alpha 0 ≤ 0, vec s alpha * ∑ t ∈ Finset.range n, vec t alpha * src t

theorem kept_perm {n size : Nat} {lam : List ℝ} (hlen : lam.length = n) {states : Nat → List (Nat × Nat)}
    (hst : SharedOut n size states) :
    mapOutcome (fun p => keptStates lam (states p)) (List.range size) =
      .ok ((List.range size).map fun p => (states p).filter fun t => 0 < lam.getD t.2 0) ∧
    ∀ split : Nat → List (Nat × Nat) → List (List (Nat × Nat)), (∀ p l, (split p l).flatten.Perm l) →
      KeptPerm n (fun alpha => lam.getD alpha 0) ((List.range size).flatMap fun p =>
        (split p (((List.range size).map fun p => (states p).filter fun t => 0 < lam.getD t.2 0).getD p [])).flatten) := by
  have hin : ∀ p < size, ∀ t ∈ states p, t.2 < lam.length := by
    intro p hp t ht
    have h3 := (hst.mem_iff (a := t)).mp (List.mem_flatMap.mpr ⟨p, List.mem_range.mpr hp, ht⟩)
    simp only [List.mem_flatMap, List.mem_map, List.mem_range] at h3
    obtain ⟨x, _, y, hy, rfl⟩ := h3
    omega
  refine ⟨mapOutcome_ok _ fun p hp => keptStates_val lam _ (hin p (List.mem_range.mp hp)), ?_⟩
  intro split hsplit
  have h1 : ((List.range size).flatMap fun p =>
      (split p (((List.range size).map fun p => (states p).filter fun t => 0 < lam.getD t.2 0).getD p [])).flatten).Perm
      ((List.range size).flatMap fun p => (states p).filter fun t => 0 < lam.getD t.2 0) := by
    apply List.Perm.flatMap_left
    intro p hp
    have e : ((List.range size).map fun p => (states p).filter fun t => 0 < lam.getD t.2 0).getD p [] =
        (states p).filter fun t => 0 < lam.getD t.2 0 := by
      have hp' := List.mem_range.mp hp
      rw [List.getD_eq_getElem?_getD, List.getElem?_eq_getElem (by simpa using hp')]
      simp
    rw [e]
    exact hsplit p _
  refine h1.trans ?_
  rw [← List.filter_flatMap]
  exact hst.filter _

/-- Phonons, without symmetries, all the eigenvalues computed: for every distribution of the matrix among processes and
threads, the population `f` solves the Boltzmann equation with the symmetrised scattering matrix `A` (the population is
multiplied by `sqrt(n(n+1))` where the energy is positive), up to the part of the source along the relaxons left out; it is
the solution if all the eigenvalues are positive. -/
theorem C117_phonons {n size : Nat} {A : Nat → Nat → ℝ} {lam : List ℝ} {vec : Nat → Nat → ℝ} (hlen : lam.length = n)
    (he : Eigensystem n A (fun alpha => lam.getD alpha 0) vec) (energy : Nat → ℝ) (vel : Nat → Vec3) (temp chemPot : ℝ)
    (hpop : ∀ s < n, energy s > 0 → 0 < getPopPopPm1 .bose (energy s) temp chemPot)
    (states : Nat → List (Nat × Nat)) (hst : SharedOut n size states)
    (split split' : Nat → List (Nat × Nat) → List (List (Nat × Nat)))
    (hsplit : ∀ p l, (split p l).flatten.Perm l) (hsplit' : ∀ p l, (split' p l).flatten.Perm l) (i : Fin 3) :
    let weight := fun s => if energy s > 0 then Real.sqrt (getPopPopPm1 .bose (energy s) temp chemPot) else 1
    let src := fun s => if energy s > 0 then getDndt .bose (energy s) temp chemPot false * vel s i / weight s else 0
    ∃ res, phRelaxons lam vec energy vel temp chemPot size states split split' i = .ok res ∧ res.length = size ∧
      ∀ f ∈ res, ∀ s < n,
        ∑ t ∈ Finset.range n, A s t * (f t / weight t) = src s - leftOut n lam vec src s ∧
        ((∀ alpha < n, 0 < lam.getD alpha 0) → ∑ t ∈ Finset.range n, A s t * (f t / weight t) = src s) := by
  intro weight src
  obtain ⟨hk, hperm⟩ := kept_perm hlen hst
  have hsrc : phRelaxonSource energy vel temp chemPot i = src := by
    funext s
    unfold phRelaxonSource
    simp only [src, weight]
    by_cases h : energy s > 0
    · rw [if_pos h, if_pos h, if_pos h]; ring
    · rw [if_neg h, if_neg h]
  obtain ⟨h1, h2⟩ := relaxonPopulation_val (size := size) he src _ _ (hperm split hsplit) (hperm split' hsplit')
  refine ⟨_, by unfold phRelaxons; simp only [hk, hsrc, Outcome.bind_eq, Outcome.bind_ok]; rfl, by rw [List.length_map, h1], ?_⟩
  intro f hf s hs
  obtain ⟨g, hg, rfl⟩ := List.mem_map.mp hf
  have hmain := h2 g hg s hs
  have e : ∀ t ∈ Finset.range n, A s t * ((if energy t > 0 then
      g t * Real.sqrt (getPopPopPm1 .bose (energy t) temp chemPot) else g t) / weight t) = A s t * g t := by
    intro t ht
    simp only [weight]
    by_cases h : energy t > 0
    · rw [if_pos h, if_pos h, mul_div_assoc, div_self (Real.sqrt_pos.mpr (hpop t (Finset.mem_range.mp ht) h)).ne', mul_one]
    · rw [if_neg h, if_neg h, div_one]
  refine ⟨?_, ?_⟩
  · rw [Finset.sum_congr rfl e]
    exact hmain
  · intro hpos
    rw [Finset.sum_congr rfl e, hmain]
    rw [Finset.sum_eq_zero, sub_zero]
    intro alpha ha
    rw [Finset.mem_filter, Finset.mem_range] at ha
    exact absurd (hpos alpha ha.1) (not_lt.mpr ha.2)

/-- Electrons: the same for any of the two sources. -/
theorem C117_electrons {n size : Nat} {A : Nat → Nat → ℝ} {lam : List ℝ} {vec : Nat → Nat → ℝ} (hlen : lam.length = n)
    (he : Eigensystem n A (fun alpha => lam.getD alpha 0) vec) (src : Nat → ℝ)
    (states : Nat → List (Nat × Nat)) (hst : SharedOut n size states) :
    ∃ res, elRelaxons lam vec src size states = .ok res ∧ res.length = size ∧
      ∀ f ∈ res, ∀ s < n,
        ∑ t ∈ Finset.range n, A s t * f t = src s - leftOut n lam vec src s ∧
        ((∀ alpha < n, 0 < lam.getD alpha 0) → ∑ t ∈ Finset.range n, A s t * f t = src s) := by
  obtain ⟨hk, hperm⟩ := kept_perm hlen hst
  have hp := hperm (fun _ l => [l]) (fun _ l => by simp)
  obtain ⟨h1, h2⟩ := relaxonPopulation_val (size := size) he src _ _ hp hp
  refine ⟨_, by unfold elRelaxons; simp only [hk, Outcome.bind_eq, Outcome.bind_ok]; rfl, h1, ?_⟩
  intro f hf s hs
  refine ⟨h2 f hf s hs, ?_⟩
  intro hpos
  rw [h2 f hf s hs, Finset.sum_eq_zero, sub_zero]
  intro alpha ha
  rw [Finset.mem_filter, Finset.mem_range] at ha
  exact absurd (hpos alpha ha.1) (not_lt.mpr ha.2)

/-- Electrons, without symmetries, all the eigenvalues computed: the two symmetrised populations solve the Boltzmann equation
with the drifts of an electric field, `sqrt(n(1-n)) v / T`, and of a gradient of temperature,
`-sqrt(n(1-n)) (E - mu) v / T²`, where `n` is the Fermi-Dirac occupation. -/
theorem C117_electron_forces {n size : Nat} {A : Nat → Nat → ℝ} {lam : List ℝ} {vec : Nat → Nat → ℝ} (hlen : lam.length = n)
    (he : Eigensystem n A (fun alpha => lam.getD alpha 0) vec) (energy : Nat → ℝ) (vel : Nat → Vec3) (temp chemPot : ℝ)
    (states : Nat → List (Nat × Nat)) (hst : SharedOut n size states) (i : Fin 3) :
    let weight := fun s => Real.sqrt (fermiWeight temp chemPot (energy s))
    let driftE := fun s => weight s * vel s i / temp
    let driftT := fun s => -(weight s * (energy s - chemPot) * vel s i / temp ^ 2)
    ∃ resE resT, elRelaxonPair lam vec energy vel temp chemPot size states i = .ok (resE, resT) ∧
      resE.length = size ∧ resT.length = size ∧
      (∀ f ∈ resE, ∀ s < n,
        ∑ t ∈ Finset.range n, A s t * f t = driftE s - leftOut n lam vec driftE s ∧
        ((∀ alpha < n, 0 < lam.getD alpha 0) → ∑ t ∈ Finset.range n, A s t * f t = driftE s)) ∧
      (∀ f ∈ resT, ∀ s < n,
        ∑ t ∈ Finset.range n, A s t * f t = driftT s - leftOut n lam vec driftT s ∧
        ((∀ alpha < n, 0 < lam.getD alpha 0) → ∑ t ∈ Finset.range n, A s t * f t = driftT s)) := by
  intro weight driftE driftT
  have hw : ∀ s, Real.sqrt (getPopPopPm1 .fermi (energy s) temp chemPot) = weight s := by
    intro s
    rw [popPopPm1_fermi_occ]
    rfl
  have hE : elRelaxonSource energy vel temp chemPot i = driftE := by
    funext s
    simp only [elRelaxonSource, getDnde, if_true, hw, driftE]
    ring
  have hT : elRelaxonSourceT energy vel temp chemPot i = driftT := by
    funext s
    simp only [elRelaxonSourceT, getDndt, if_true, hw, driftT]
    ring
  obtain ⟨resE, e1, e2, e3⟩ := C117_electrons hlen he driftE states hst
  obtain ⟨resT, t1, t2, t3⟩ := C117_electrons hlen he driftT states hst
  refine ⟨resE, resT, ?_, e2, t2, e3, t3⟩
  unfold elRelaxonPair
  simp only [Outcome.bind_eq]
  rw [hE, e1, Outcome.bind_ok, hT, t1, Outcome.bind_ok]
  rfl

/-- When fewer eigenvalues than states are computed, as the input allows, both functions read the eigenvalues out of bounds:
the eigenvalue is read before its number is tested. -/
theorem C117_violated_few_eigenvalues {n size : Nat} (hs : 0 < size) {lam : List ℝ} (hlen : lam.length < n)
    (vec : Nat → Nat → ℝ) (energy : Nat → ℝ) (vel : Nat → Vec3) (temp chemPot : ℝ) (src : Nat → ℝ)
    (states : Nat → List (Nat × Nat)) (hst : SharedOut n size states)
    (split split' : Nat → List (Nat × Nat) → List (List (Nat × Nat))) (i : Fin 3) :
    phRelaxons lam vec energy vel temp chemPot size states split split' i = .ub ∧
    elRelaxons lam vec src size states = .ub := by
  have hk : ∀ l : List (Nat × Nat), (keptStates lam l = .ub ∨ ∃ r, keptStates lam l = .ok r) ∧
      ((∃ t ∈ l, lam.length ≤ t.2) → keptStates lam l = .ub) := by
    intro l
    induction l with
    | nil => exact ⟨.inr ⟨[], rfl⟩, by rintro ⟨t, ht, _⟩; simp at ht⟩
    | cons t l ih =>
      by_cases ht : lam.length ≤ t.2
      · have hu : keptStates lam (t :: l) = .ub := by
          unfold keptStates keepRelaxon
          rw [List.getElem?_eq_none ht]
          rfl
        exact ⟨.inl hu, fun _ => hu⟩
      · obtain ⟨b, hb⟩ : ∃ b, keepRelaxon lam t.2 = .ok b := by
          unfold keepRelaxon
          rw [List.getElem?_eq_getElem (not_le.mp ht)]
          exact ⟨_, rfl⟩
        have hunf : keptStates lam (t :: l) = (keptStates lam l).bind fun r => .ok (if b then t :: r else r) := by
          rw [keptStates]
          simp only [hb, Outcome.bind_eq, Outcome.bind_ok]
          rfl
        rw [hunf]
        refine ⟨?_, ?_⟩
        · rcases ih.1 with h | ⟨r, h⟩
          · left; rw [h]; rfl
          · right; rw [h]; exact ⟨_, rfl⟩
        · rintro ⟨u, hu, hul⟩
          rcases List.mem_cons.mp hu with rfl | hu
          · exact absurd hul ht
          · rw [ih.2 ⟨u, hu, hul⟩]; rfl
  have hm : mapOutcome (fun p => keptStates lam (states p)) (List.range size) = .ub := by
    obtain ⟨p, hp, t, ht, htl⟩ : ∃ p ∈ List.range size, ∃ t ∈ states p, lam.length ≤ t.2 := by
      have h3 := (hst.mem_iff (a := (0, lam.length))).mpr (by
        simp only [List.mem_flatMap, List.mem_map, List.mem_range]
        exact ⟨0, by omega, lam.length, hlen, rfl⟩)
      obtain ⟨p, hp, ht⟩ := List.mem_flatMap.mp h3
      exact ⟨p, hp, _, ht, le_refl _⟩
    have key : ∀ l : List Nat, p ∈ l → mapOutcome (fun p => keptStates lam (states p)) l = .ub := by
      intro l
      induction l with
      | nil => intro h; simp at h
      | cons x l ih =>
        intro hx
        rcases (hk (states x)).1 with h | ⟨r, h⟩
        · rw [mapOutcome, h]; rfl
        · rcases List.mem_cons.mp hx with rfl | hx
          · rw [(hk (states p)).2 ⟨t, ht, htl⟩] at h; cases h
          · rw [mapOutcome, h]
            simp only [Outcome.bind_eq, Outcome.bind_ok, ih hx]
            rfl
    exact key _ hp
  exact ⟨by unfold phRelaxons; rw [hm]; rfl, by unfold elRelaxons; rw [hm]; rfl⟩

/-! ### An example: the two coupled states -/

/-- The two states with the matrix `((1, 1/2), (1/2, 1))`. -/
noncomputable def twoRelaxons (s alpha : Nat) : ℝ :=
  if s = 1 ∧ alpha = 0 then -(Real.sqrt 2)⁻¹ else (Real.sqrt 2)⁻¹

theorem two_eigensystem : Eigensystem 2 (fun s t => if s = t then 1 else 1 / 2)
    (fun alpha => ([1 / 2, 3 / 2] : List ℝ).getD alpha 0) twoRelaxons where
  eigen s hs alpha ha := by
    rw [Finset.sum_range_succ, Finset.sum_range_succ, Finset.sum_range_zero]
    unfold twoRelaxons
    obtain rfl | rfl : s = 0 ∨ s = 1 := by omega
    all_goals obtain rfl | rfl : alpha = 0 ∨ alpha = 1 := by omega
    all_goals simp
    all_goals ring
  complete s hs t ht := by
    have h2 : (Real.sqrt 2)⁻¹ * (Real.sqrt 2)⁻¹ = 1 / 2 := by
      rw [← mul_inv, Real.mul_self_sqrt (by norm_num)]; norm_num
    rw [Finset.sum_range_succ, Finset.sum_range_succ, Finset.sum_range_zero]
    unfold twoRelaxons
    obtain rfl | rfl : s = 0 ∨ s = 1 := by omega
    all_goals obtain rfl | rfl : t = 0 ∨ t = 1 := by omega
    all_goals simp only [zero_ne_one, one_ne_zero, false_and, true_and, and_true, and_false, if_true, if_false, zero_add]
    all_goals linarith [h2]

/-- Two processes hold one row each. -/
def twoShares (p : Nat) : List (Nat × Nat) := [(p, 0), (p, 1)]

theorem two_shared : SharedOut 2 2 twoShares := by unfold SharedOut twoShares; decide

/-- The example meets the hypotheses of `C117_phonons`, with threads that take the elements in any order. -/
example : ∃ res, phRelaxons [1 / 2, 3 / 2] twoRelaxons (fun _ => 1) (fun s i => if s = 0 ∧ i = 0 then 1 else 0) 1 0 2 twoShares
    (fun _ l => [l.reverse]) (fun _ l => [l]) 0 = .ok res ∧ res.length = 2 := by
  obtain ⟨res, h1, h2, _⟩ := C117_phonons (n := 2) (lam := [1 / 2, 3 / 2]) rfl two_eigensystem (fun _ => 1)
    (fun s i => if s = 0 ∧ i = 0 then 1 else 0) 1 0 (fun _ _ _ => twoBose_pos 0 0) twoShares two_shared
    (fun _ l => [l.reverse]) (fun _ l => [l]) (fun _ l => by simp) (fun _ l => by simp) 0
  exact ⟨res, h1, h2⟩

example : ∃ res, elRelaxons [1 / 2, 3 / 2] twoRelaxons (fun s => s) 2 twoShares = .ok res ∧ ∀ f ∈ res, f 0 + f 1 / 2 = 0 := by
  obtain ⟨res, h1, _, h3⟩ := C117_electrons (n := 2) (lam := [1 / 2, 3 / 2]) rfl two_eigensystem (fun s => (s : ℝ)) twoShares two_shared
  refine ⟨res, h1, ?_⟩
  intro f hf
  have := (h3 f hf 0 (by norm_num)).2 (by
    intro alpha ha
    obtain rfl | rfl : alpha = 0 ∨ alpha = 1 := by omega
    all_goals simp)
  rw [Finset.sum_range_succ, Finset.sum_range_succ, Finset.sum_range_zero] at this
  simp at this
  linarith

/-- An electric field moves the electrons along the velocity. -/
example : ∃ resE resT, elRelaxonPair [1 / 2, 3 / 2] twoRelaxons (fun _ => 0) (fun s i => if s = 0 ∧ i = 0 then 1 else 0) 1 0 2
      twoShares 0 = .ok (resE, resT) ∧ resE.length = 2 ∧ ∀ f ∈ resE, f 0 + f 1 / 2 = 1 / 2 := by
  obtain ⟨resE, resT, h1, h2, _, h3, _⟩ := C117_electron_forces (n := 2) (size := 2) (lam := [1 / 2, 3 / 2]) rfl two_eigensystem
    (fun _ => 0) (fun s i => if s = 0 ∧ i = 0 then 1 else 0) 1 0 twoShares two_shared 0
  refine ⟨resE, resT, h1, h2, ?_⟩
  intro f hf
  have h := (h3 f hf 0 (by norm_num)).2 (by intro a ha; interval_cases a <;> norm_num)
  have hs : Real.sqrt (fermiWeight 1 0 0) = 1 / 2 := by
    have : fermiWeight 1 0 0 = (1 / 2) ^ 2 := by unfold fermiWeight fermiOcc; norm_num
    rw [this, Real.sqrt_sq (by norm_num)]
  simp only [hs] at h
  rw [Finset.sum_range_succ, Finset.sum_range_one] at h
  norm_num at h
  linarith

/-- One eigenvalue of two: the read is out of bounds. -/
example : elRelaxons [1 / 2] twoRelaxons (fun s => s) 2 twoShares = .ub :=
  (C117_violated_few_eigenvalues (by norm_num) (by norm_num) twoRelaxons (fun _ => 1) (fun _ _ => 0) 1 0 _ twoShares two_shared
    (fun _ l => [l]) (fun _ l => [l]) 0).2

end Verif.Props
