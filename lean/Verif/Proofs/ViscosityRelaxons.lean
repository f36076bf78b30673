import Verif.Proofs.Viscosity

namespace Verif.Model
open Verif.Spec Verif.Props

theorem phRelaxonW_val (vel : Nat → Vec3) (phi : Fin 3 → Nat → ℝ) (theta : Nat → Nat → ℝ) (n size numStates : Nat)
    (locals : LocalPairs) (hd : PairsDistributed locals size numStates numStates) (hn : n ≤ numStates) (i j : Fin 3) (a : Nat)
    (ha : a < n) : phRelaxonW vel phi theta n size locals i j a =
      ∑ s ∈ Finset.range numStates, phi j s * vel s i * theta s a := by
  unfold phRelaxonW
  rw [localSum_val locals size numStates numStates hd]
  apply Finset.sum_congr rfl
  intro s _
  rw [Finset.sum_eq_single a]
  · rw [if_pos (by simp [ha])]
  · intro b _ hb
    rw [if_neg (by simp [hb])]
  · intro h
    exact absurd (Finset.mem_range.mpr (lt_of_lt_of_le ha hn)) h

/-- The tensor of the phonons when the eigenvectors of momentum are `√pop q_j c_j`. -/
theorem phRelaxons_val (vel q : Nat → Vec3) (pop : Nat → ℝ) (phi : Fin 3 → Nat → ℝ) (c A : Fin 3 → ℝ)
    (hphi : ∀ i s, phi i s = q s i * Real.sqrt (pop s) * c i) (theta : Nat → Nat → ℝ) (eig : Nat → ℝ) (alpha0 : Option Nat)
    (n size numStates : Nat) (hs : 0 < size) (hfit : n * size < 18446744073709551616)
    (locals : LocalPairs) (hd : PairsDistributed locals size numStates numStates) (hn : n ≤ numStates)
    (sched : Nat → List (List Nat)) (hsched : ∀ r < size, (sched r).flatten.Perm (sliceOf (List.range n) r size))
    (use : Finset Nat) (huse : ∀ a, a ∈ use ↔ a < n ∧ 0 < eig a ∧ alpha0 ≠ some a) :
    (phViscosityRelaxons vel phi A theta eig alpha0 n size locals sched).length = size ∧
    ∀ f ∈ phViscosityRelaxons vel phi A theta eig alpha0 n size locals sched, ∀ iCalc i j k l,
      f iCalc i j k l = Real.sqrt (A i * A k) * c j * c l *
        ∑ a ∈ use, (momentumFlux numStates q vel pop theta j i a * momentumFlux numStates q vel pop theta l k a +
          momentumFlux numStates q vel pop theta j k a * momentumFlux numStates q vel pop theta l i a) / 2 / eig a := by
  obtain ⟨h1, h2⟩ := stateSum_val (List.range n) size hs (by simpa using hfit) sched hsched
    (fun _ => phRelaxonTerm (phRelaxonW vel phi theta n size locals) A eig alpha0)
  refine ⟨h1, ?_⟩
  intro f hf iCalc i j k l
  rw [h2 f hf iCalc, tensor4_sum_apply]
  have hw : ∀ i j, ∀ a < n, phRelaxonW vel phi theta n size locals i j a =
      c j * momentumFlux numStates q vel pop theta j i a := by
    intro i j a ha
    rw [phRelaxonW_val vel phi theta n size numStates locals hd hn i j a ha]
    unfold momentumFlux
    rw [Finset.mul_sum]
    exact Finset.sum_congr rfl fun s _ => by rw [hphi]; ring
  have husub : use = (Finset.range n).filter (fun a => 0 < eig a ∧ alpha0 ≠ some a) := by
    ext a; rw [huse, Finset.mem_filter, Finset.mem_range]
  rw [husub, Finset.sum_filter, Finset.mul_sum]
  show ∑ a ∈ Finset.range n, _ = _
  apply Finset.sum_congr rfl
  intro a ha
  have ha' := Finset.mem_range.mp ha
  unfold phRelaxonTerm
  by_cases he : eig a ≤ 0
  · rw [if_pos he, if_neg (fun h => absurd h.1 (not_lt.mpr he)), mul_zero]
  · rw [if_neg he]
    by_cases h0 : alpha0 = some a
    · rw [if_pos h0, if_neg (fun h => h.2 h0), mul_zero]
    · rw [if_neg h0, if_pos ⟨not_le.mp he, h0⟩, hw i j a ha', hw k l a ha', hw i l a ha', hw k j a ha']
      ring

/-- With states that do not mix (diagonal scattering matrix with the rates `1/τ`), the sum over the relaxons is the viscosity in
the relaxation time approximation. -/
theorem relaxonViscosity_diagonal (numStates numPoints : Nat) (volume spin temp : ℝ) (q v : Nat → Vec3) (pop tau : Nat → ℝ)
    (hpop : ∀ s, 0 ≤ pop s) (i j k l : Fin 3) :
    relaxonViscosity numStates numPoints volume spin temp q v pop (fun s a => if s = a then 1 else 0) (fun a => 1 / tau a)
      (Finset.range numStates) i j k l = meshViscosity numStates numPoints volume spin temp q v pop tau i j k l := by
  unfold relaxonViscosity meshViscosity
  congr 2
  apply Finset.sum_congr rfl
  intro a ha
  have hm : ∀ i j, momentumFlux numStates q v pop (fun s a => if s = a then 1 else 0) i j a =
      q a i * v a j * Real.sqrt (pop a) := by
    intro i j
    unfold momentumFlux
    simp only [mul_ite, mul_one, mul_zero]
    rw [Finset.sum_ite_eq' (Finset.range numStates) a, if_pos ha]
  rw [hm, hm, hm, hm]
  have hs : Real.sqrt (pop a) * Real.sqrt (pop a) = pop a := Real.mul_self_sqrt (hpop a)
  rw [div_div_eq_mul_div, div_one]
  linear_combination tau a * q a i * v a j * q a k * v a l * hs

/-! ## Electrons -/

theorem elViscosityRelaxons_val (vel k : Nat → Vec3) (pop : Nat → ℝ) (kBT volume : ℝ) (numPoints : Nat)
    (theta : Nat → Nat → ℝ) (eig : Nat → ℝ) (alpha0 alphaE : Option Nat) (numStates size : Nat) (hs : 0 < size)
    (hfit : numStates * size < 18446744073709551616)
    (locals : LocalPairs) (hd : PairsDistributed locals size numStates numStates)
    (use : Finset Nat) (huse : ∀ a, a ∈ use ↔ a < numStates ∧ 0 < eig a ∧ alpha0 ≠ some a ∧ alphaE ≠ some a) :
    ∃ out, elViscosityRelaxons vel k pop kBT volume numPoints theta eig alpha0 alphaE numStates numStates size locals = .ok out ∧
      out.length = size ∧ ∀ f ∈ out, ∀ iCalc i j m l, f iCalc i j m l = (∑ a ∈ use,
        ((∑ s ∈ Finset.range numStates, pop s * (k s i * vel s j * Real.sqrt (pop s) * theta s a)) *
            momentumFlux numStates k vel pop theta m l a +
          (∑ s ∈ Finset.range numStates, pop s * (k s i * vel s l * Real.sqrt (pop s) * theta s a)) *
            momentumFlux numStates k vel pop theta m j a) / 2 / eig a) / (kBT * numPoints * volume) := by
  unfold elViscosityRelaxons
  rw [if_neg]
  swap
  · rintro ⟨r, hr, p, hp, h⟩
    have := distributed_mem hd r hr p hp
    omega
  obtain ⟨h1, h2⟩ := stateSum_val (List.range numStates) size hs (by simpa using hfit)
    (fun r => [sliceOf (List.range numStates) r size]) (by intro r _; simp)
    (fun _ => elRelaxonTerm vel k pop (1 / volume / numPoints) (elStatePop (elRelaxonPop vel k pop kBT theta eig alpha0 alphaE size
      locals) theta eig alpha0 alphaE size locals))
  refine ⟨_, rfl, h1, ?_⟩
  intro f hf iCalc i j m l
  have hskip : ∀ a, elSkip eig alpha0 alphaE a = false ↔ 0 < eig a ∧ alpha0 ≠ some a ∧ alphaE ≠ some a := by
    intro a
    unfold elSkip
    rw [decide_eq_false_iff_not]
    push Not
    rfl
  have hRel : ∀ x y, ∀ a < numStates, elSkip eig alpha0 alphaE a = false →
      elRelaxonPop vel k pop kBT theta eig alpha0 alphaE size locals x y a =
        momentumFlux numStates k vel pop theta x y a / kBT / eig a := by
    intro x y a ha hsk
    unfold elRelaxonPop
    rw [localSum_val locals size numStates numStates hd]
    unfold momentumFlux
    rw [Finset.sum_div, Finset.sum_div]
    apply Finset.sum_congr rfl
    intro s _
    rw [Finset.sum_eq_single a]
    · rw [if_pos (by simp [hsk])]; ring
    · intro b _ hb
      rw [if_neg (by simp [hb])]
    · intro h; exact absurd (Finset.mem_range.mpr ha) h
  have husub : use = (Finset.range numStates).filter (fun a => elSkip eig alpha0 alphaE a = false) := by
    ext a; rw [huse, Finset.mem_filter, Finset.mem_range, hskip]
  have hState : ∀ x y, ∀ s < numStates,
      elStatePop (elRelaxonPop vel k pop kBT theta eig alpha0 alphaE size locals) theta eig alpha0 alphaE size locals x y s =
        ∑ a ∈ use, theta s a * (momentumFlux numStates k vel pop theta x y a / kBT / eig a) := by
    intro x y s hs'
    unfold elStatePop
    rw [localSum_val locals size numStates numStates hd, husub, Finset.sum_filter, Finset.sum_eq_single s]
    · apply Finset.sum_congr rfl
      intro a ha
      by_cases h : elSkip eig alpha0 alphaE a = false
      · rw [if_pos (by simp [h]), if_pos h, hRel x y a (Finset.mem_range.mp ha) h]
      · rw [if_neg (by simp [h]), if_neg h]
    · intro b _ hb
      apply Finset.sum_eq_zero
      intro a _
      rw [if_neg (by simp [hb])]
    · intro h; exact absurd (Finset.mem_range.mpr hs') h
  rw [h2 f hf iCalc, tensor4_sum_apply]
  have hterm : ∀ s ∈ Finset.range numStates, elRelaxonTerm vel k pop (1 / volume / numPoints) (elStatePop (elRelaxonPop vel k pop kBT
      theta eig alpha0 alphaE size locals) theta eig alpha0 alphaE size locals) s i j m l =
      ∑ a ∈ use, (pop s * (k s i * vel s j * Real.sqrt (pop s) * theta s a) * momentumFlux numStates k vel pop theta m l a +
        pop s * (k s i * vel s l * Real.sqrt (pop s) * theta s a) * momentumFlux numStates k vel pop theta m j a) / 2 / eig a /
          (kBT * numPoints * volume) := by
    intro s hs'
    unfold elRelaxonTerm
    rw [hState m l s (Finset.mem_range.mp hs'), hState m j s (Finset.mem_range.mp hs'), Finset.mul_sum, Finset.mul_sum,
      ← Finset.sum_add_distrib, Finset.mul_sum]
    apply Finset.sum_congr rfl
    intro a _
    simp only [div_eq_mul_inv, mul_inv]
    norm_num
    ring
  show ∑ s ∈ Finset.range numStates, _ = _
  rw [Finset.sum_congr rfl hterm, Finset.sum_comm, Finset.sum_div]
  apply Finset.sum_congr rfl
  intro a _
  rw [Finset.sum_mul, Finset.sum_mul, ← Finset.sum_add_distrib, Finset.sum_div, Finset.sum_div, Finset.sum_div]

end Verif.Model
