import Verif.Spec.PhononDos
import Verif.Proofs.PhononRun
import Verif.Proofs.DosApp

namespace Verif.Proofs
open Verif.Model Verif.Spec Verif.Props

variable {A n1 n2 n3 S : ℕ}

noncomputable def crystalDos [NeZero n1] [NeZero n2] [NeZero n3] (D : PhononDosRun) (X : HarmonicCrystal A n1 n2 n3) : Outcome DosFile :=
  (makeCell X.d).bind fun cell => (makePhononH0 D.rule (HarmonicCrystal.view X cell) (HarmonicCrystal.tensor X)).bind fun s =>
    dosApp D.k (.phonon D.batchSize D.sched) (A * 3) (phononView (D.eig A) s.1 s.2 (D.arrange (s.1.gVectors n1 n2 n3))) cell (D.wrap cell)
      D.rots D.mesh D.minEnergy D.maxEnergy D.delta D.size

theorem dosOfInput_eq [NeZero n1] [NeZero n2] [NeZero n3] (D : PhononDosRun) (x : HarmonicInput) (X : HarmonicCrystal A n1 n2 n3) (h : Gives x X) :
    D.ofInput x = crystalDos D X := by
  have hl : x.positions.length = A := by rw [h.positions]; simp
  unfold PhononDosRun.ofInput
  rw [hl, h.grid]
  simp only [Int.toNat_natCast]
  unfold PhononDosRun.harmonic crystalDos
  rw [h.cell]
  simp only [Outcome.bind_eq]
  congr 1
  funext cell
  rw [if_neg (by rw [h.count, hl]; simp), if_neg (by simp [h.masses])]
  rw [mapOutcome_eq_map (getMassVariance elementTable) (fun y => match getMassVariance elementTable y with | .ok r => r | _ => 0) x.names (by
    intro y hy
    obtain ⟨e, he, rfl⟩ := h.known y hy
    rw [(C158_table.1 e he).2.1])]
  rw [read_species x.masses x.species X.mass h.count (fun b => by obtain ⟨k, k1, _, k3⟩ := h.atom b; exact ⟨k, k1, k3⟩)]
  rw [read_species x.names x.species X.name h.count (fun b => by obtain ⟨k, k1, k2, _⟩ := h.atom b; exact ⟨k, k1, k2⟩)]
  simp only [Outcome.bind_ok]
  rw [dif_pos ⟨Nat.pos_of_neZero n1, Nat.pos_of_neZero n2, Nat.pos_of_neZero n3⟩]
  have hc : (⟨X.d, cell.reciprocal, cell.volume, fun a => x.positions.getD a 0, fun a => (List.ofFn X.mass).getD a 0, x.eps, fun a => x.born a⟩ : PhCrystal A) =
      HarmonicCrystal.view X cell := by
    unfold HarmonicCrystal.view
    congr 1
    · funext a
      rw [h.positions, List.getD_eq_getElem?_getD, List.getElem?_eq_getElem (by simp)]
      simp
    · funext a
      rw [List.getD_eq_getElem?_getD, List.getElem?_eq_getElem (by simp)]
      simp
    · exact h.eps
    · funext a
      exact h.born a
  have hf : (fun e : FcIx A n1 n2 n3 => x.force ⟨e.1.val, e.2.1.val, e.2.2.1.val⟩ e.2.2.2.2.2.1 e.2.2.2.2.2.2 e.2.2.2.1 e.2.2.2.2.1) =
      HarmonicCrystal.tensor X := by
    funext e
    exact h.force _ _ _ _ _ _ _
  rw [hc, hf]

/-- At the wavevectors that fit the supercell the matrix of the forces is the sum over the cells of the supercell. -/
theorem fourier_at [NeZero n1] [NeZero n2] [NeZero n3] (rule : String) (X : HarmonicCrystal A n1 n2 n3) (cell : Cell) (hcell : makeCell X.d = .ok cell)
    (hdir : cell.direct = X.d)
    (hs : makePhononH0 rule (HarmonicCrystal.view X cell) (HarmonicCrystal.tensor X) = .ok (HarmonicCrystal.view X cell, HarmonicCrystal.tensor X))
    (hcomp : ∀ b b', CompactCell (fun k i => X.d i k) (fun i => X.pos b i - X.pos b' i) ![n1, n2, n3])
    (hplain : ¬ (HarmonicCrystal.view X cell).hasDielectric) (p : V3 ℝ) (hcm : Commensurate n1 n2 n3 p) :
    dynMatrix (HarmonicCrystal.view X cell) (HarmonicCrystal.tensor X) (cartesianOf cell.reciprocal p) = X.fourier p := by
  obtain ⟨z, z0, z1, z2⟩ := hcm
  have hdual : ∀ k, (∑ i, cartesianOf cell.reciprocal p i * X.d i k) =
      2 * Real.pi * (if k = 0 then p.x else if k = 1 then p.y else p.z) := by
    intro k
    have d := fun j => (C69_reciprocal X.d cell hcell).1 k j
    rw [hdir] at d
    have d0 := d 0
    have d1 := d 1
    have d2 := d 2
    simp only [Fin.sum_univ_three] at d0 d1 d2 ⊢
    simp only [cartesianOf]
    have : ∀ x y zz : ℝ, (cell.reciprocal 0 0 * x + cell.reciprocal 0 1 * y + cell.reciprocal 0 2 * zz) * X.d 0 k +
        (cell.reciprocal 1 0 * x + cell.reciprocal 1 1 * y + cell.reciprocal 1 2 * zz) * X.d 1 k +
        (cell.reciprocal 2 0 * x + cell.reciprocal 2 1 * y + cell.reciprocal 2 2 * zz) * X.d 2 k =
        (if k = 0 then 2 * Real.pi else 0) * x + (if k = 1 then 2 * Real.pi else 0) * y + (if k = 2 then 2 * Real.pi else 0) * zz := by
      intro x y zz
      rw [← d0, ← d1, ← d2]
      ring
    rw [this]
    fin_cases k <;> simp
  have hint := fun b b' i j => C95_interpolation rule (HarmonicCrystal.view X cell) _ (HarmonicCrystal.tensor X) _ hs hcomp hplain
    (cartesianOf cell.reciprocal p) z (by
      intro k
      have := hdual k
      show _ * (∑ i, _ * X.d i k) = _
      rw [this]
      fin_cases k
      · simp [← z0]; ring
      · simp [← z1]; ring
      · simp [← z2]; ring) b b' i j
  funext a b
  have := hint a.1 b.1 a.2 b.2
  rw [Prod.mk.eta, Prod.mk.eta] at this
  rw [this]
  unfold HarmonicCrystal.fourier
  refine Finset.sum_congr rfl fun m1 _ => Finset.sum_congr rfl fun m2 _ => Finset.sum_congr rfl fun m3 _ => ?_
  have hphase : (∑ k, cartesianOf cell.reciprocal p k * ((m1 : ℝ) * X.d k 0 + (m2 : ℝ) * X.d k 1 + (m3 : ℝ) * X.d k 2)) =
      2 * Real.pi * (p.x * m1 + p.y * m2 + p.z * m3) := by
    have e0 := hdual 0
    have e1 := hdual 1
    have e2 := hdual 2
    simp only [Fin.sum_univ_three, if_true, one_ne_zero, if_false, show (2 : Fin 3) ≠ 0 by decide, show (2 : Fin 3) ≠ 1 by decide] at e0 e1 e2 ⊢
    linear_combination (m1 : ℝ) * e0 + (m2 : ℝ) * e1 + (m3 : ℝ) * e2
  show ((HarmonicCrystal.tensor X _ : ℝ) : ℂ) * _ = _
  congr 1
  congr 1
  rw [show (∑ k, cartesianOf cell.reciprocal p k * ((m1 : ℝ) * (HarmonicCrystal.view X cell).cell k 0 + (m2 : ℝ) * (HarmonicCrystal.view X cell).cell k 1 +
    (m3 : ℝ) * (HarmonicCrystal.view X cell).cell k 2)) = _ from hphase]
  ring

/-- Without a sum rule the constructor leaves the force constants as they are. -/
theorem plain_constructor [NeZero n1] [NeZero n2] [NeZero n3] (c : PhCrystal A) (f : FcVec A n1 n2 n3) (s : PhCrystal A × FcVec A n1 n2 n3)
    (h : makePhononH0 "" c f = .ok s) : s = (c, f) := by
  unfold makePhononH0 at h
  rw [show setAcousticSumRule "" c.born f = .ok (c.born, f) by simp [setAcousticSumRule]] at h
  dsimp only at h
  split_ifs at h
  exact (Outcome.ok.inj h).symm

end Verif.Proofs
