import Verif.Proofs.Transport2
import Verif.Props.VectorBte
import Verif.Props.Particle

/-! # Relaxation time approximation, fluxes and averages over energies -/
namespace Verif.Model
open Verif.Spec

theorem baseOperator_exclude {α : Type} [Zero α] (op : α → α → α) (v w r : VBte α) (h : v.baseOperator op w = .ok r) :
    r.exclude = v.exclude := by
  unfold VBte.baseOperator at h
  split at h
  · cases h
  split at h
  · cases h
  · rw [Outcome.bind_eq_ok_iff] at h
    obtain ⟨data, _, h⟩ := h
    cases h
    rfl

/-- Weights of the electrons in the relaxation time approximation. -/
noncomputable def rtaWeight (numPoints : Nat) (volume spin temp chemPot : ℝ) (energy tau : Nat → ℝ) (s : Nat) : ℝ :=
  spin * tau s * getPopPopPm1 .fermi (energy s) temp chemPot / (temp * (numPoints * volume))

theorem rta_average (numStates numPoints : Nat) (volume spin temp chemPot : ℝ) (energy tau : Nat → ℝ) (v : Nat → Vec3)
    (p : Nat) (i j : Fin 3) :
    spin * crystalAverage numStates numPoints volume
        (fun s i => -(getDnde .fermi (energy s) temp chemPot false * v s i) * tau s) v (fun s => (energy s - chemPot) ^ p) i j =
      moment (Finset.range numStates) (rtaWeight numPoints volume spin temp chemPot energy tau)
        (fun s => energy s - chemPot) v p i j ∧
    spin * crystalAverage numStates numPoints volume
        (fun s i => -(getDndt .fermi (energy s) temp chemPot false * v s i) * tau s) v (fun s => (energy s - chemPot) ^ p) i j =
      (-(1 / temp) • moment (Finset.range numStates) (rtaWeight numPoints volume spin temp chemPot energy tau)
        (fun s => energy s - chemPot) v (p + 1)) i j := by
  constructor
  · unfold crystalAverage moment rtaWeight
    rw [mul_div_assoc', Finset.mul_sum, Finset.sum_div]
    apply Finset.sum_congr rfl
    intro s _
    simp only [getDnde, Bool.false_eq_true, if_false]
    ring
  · rw [Matrix.smul_apply, smul_eq_mul]
    unfold crystalAverage moment rtaWeight
    rw [mul_div_assoc', Finset.mul_sum, Finset.sum_div, Finset.mul_sum]
    apply Finset.sum_congr rfl
    intro s _
    simp only [getDndt, Bool.false_eq_true, if_false]
    ring

theorem vdot_sum (v x : Vec3) : vdot v x = ∑ j, v j * x j := by
  simp only [Fin.sum_univ_three]; rfl

/-- The fluxes of the relaxation time approximation are linear in the fields, with the moments as coefficients. -/
theorem rta_flux (numStates numPoints : Nat) (volume spin temp chemPot : ℝ) (energy tau : Nat → ℝ) (v : Nat → Vec3)
    (p : Nat) (E g : Vec3) :
    flux numStates numPoints volume spin v (fun s => (energy s - chemPot) ^ p)
        (fun s => rtaResponse temp chemPot (energy s) (tau s) (v s) E g) =
      (moment (Finset.range numStates) (rtaWeight numPoints volume spin temp chemPot energy tau)
        (fun s => energy s - chemPot) v p).mulVec E -
      (1 / temp) • (moment (Finset.range numStates) (rtaWeight numPoints volume spin temp chemPot energy tau)
        (fun s => energy s - chemPot) v (p + 1)).mulVec g := by
  funext j
  rw [Pi.sub_apply, Pi.smul_apply, smul_eq_mul, moment_mulVec, moment_mulVec, Finset.mul_sum, ← Finset.sum_sub_distrib]
  unfold flux
  rw [Finset.mul_sum, Finset.sum_div]
  apply Finset.sum_congr rfl
  intro s _
  rw [← vdot_sum, ← vdot_sum]
  simp only [rtaResponse, getDnde, getDndt, Bool.false_eq_true, if_false, rtaWeight]
  ring

/-- Open circuit. -/
theorem open_circuit {d : Nat} (T : ℝ) (K0 K1 K2 : Matrix (Fin d) (Fin d) ℝ) (hdet : IsUnit K0.det) (E g : Fin d → ℝ)
    (h : K0.mulVec E - (1 / T) • K1.mulVec g = 0) :
    E = -((-(1 / T) • (K0⁻¹ * K1)).mulVec g) ∧
    K1.mulVec E - (1 / T) • K2.mulVec g = -(((1 / T) • (K2 - K1 * K0⁻¹ * K1)).mulVec g) := by
  have hE : E = (1 / T) • (K0⁻¹ * K1).mulVec g := by
    have h1 : K0⁻¹.mulVec (K0.mulVec E) = K0⁻¹.mulVec ((1 / T) • K1.mulVec g) := by
      rw [sub_eq_zero.mp h]
    rwa [Matrix.mulVec_mulVec, Matrix.nonsing_inv_mul _ hdet, Matrix.one_mulVec, Matrix.mulVec_smul,
      Matrix.mulVec_mulVec] at h1
  constructor
  · rw [Matrix.smul_mulVec, neg_smul, neg_neg]
    exact hE
  · rw [hE, Matrix.mulVec_smul, Matrix.mulVec_mulVec, Matrix.smul_mulVec, Matrix.sub_mulVec, smul_sub, Matrix.mul_assoc]
    abel

/-! ## Averages over energies -/

/-- The energies that enter the averages: scattering rate and occupation above the thresholds. -/
def EpaUsed (temp chemPot : ℝ) (energies rate : Nat → ℝ) (k : Nat) : Prop :=
  ¬ (rate k ≤ 1e-10 ∨ getPopPopPm1 .fermi (energies k) temp chemPot ≤ 1e-20)

open Classical in
theorem epaLoop_val (factor step chemPot temp : ℝ) (energies v2 rate : Nat → ℝ) (ks : List Nat) (l : ℝ × ℝ × ℝ × ℝ) :
    epaLoop factor step chemPot temp energies v2 rate ks l =
      let w : Nat → ℝ := fun k => if EpaUsed temp chemPot energies rate k then
        v2 k / rate k * factor * getPopPopPm1 .fermi (energies k) temp chemPot * step / temp else 0
      (l.1 + (ks.map fun k => w k).sum,
       l.2.1 - (1 / temp) * (ks.map fun k => w k * (energies k - chemPot)).sum,
       l.2.2.1 - (ks.map fun k => w k * (energies k - chemPot)).sum,
       l.2.2.2 - (1 / temp) * (ks.map fun k => w k * (energies k - chemPot) ^ 2).sum) := by
  induction ks generalizing l with
  | nil => simp [epaLoop]
  | cons k t ih =>
    simp only [epaLoop, List.map_cons, List.sum_cons]
    by_cases hk : EpaUsed temp chemPot energies rate k
    · rw [if_neg hk, ih]
      simp only [if_pos hk]
      ext <;> simp only [] <;> ring
    · have hk' := not_not.mp hk
      rw [if_pos hk', ih]
      simp only [if_neg hk]
      ext <;> simp only [] <;> ring

end Verif.Model
