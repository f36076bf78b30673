import Verif.Model.Isotope
import Verif.Spec.Isotope
import Mathlib.Algebra.BigOperators.Field
import Mathlib.Tactic.Positivity
import Mathlib.Tactic.FieldSimp

/-!
Lemmas for C168.
-/
namespace Verif.Props

open Verif.Model Verif.Spec

variable {A : Nat}

theorem massVariance_val (g m : Fin A → ℝ) :
    ∃ mv, massVariance true A (List.ofFn g) (List.ofFn m) = .ok (some mv) ∧
      ∀ a : Fin A, mv.getD a 0 = g a * (m a * m a) := by
  refine ⟨List.zipWith (fun g m => g * (m * m)) (List.ofFn g) (List.ofFn m), ?_, fun a => ?_⟩
  · unfold massVariance
    simp
  · simp [List.getD_eq_getElem?_getD]

theorem isoOverlap_scaled (g m : Fin A → ℝ) (hm : ∀ a, 0 < m a) {β : Type} (mv : List ℝ)
    (hmv : ∀ a : Fin A, mv.getD a 0 = g a * (m a * m a)) (e1 e2 : Matrix (Fin A × Fin 3) β ℂ) (ib1 ib2 : β) :
    isoOverlap mv (fun a b => e1 a b / (Real.sqrt (m a.1) : ℂ)) (fun a b => e2 a b / (Real.sqrt (m a.1) : ℂ)) ib1 ib2 =
      massDisorder g e1 e2 ib1 ib2 := by
  unfold isoOverlap massDisorder
  refine Finset.sum_congr rfl fun a _ => ?_
  have hs : Real.sqrt (m a) * Real.sqrt (m a) = m a := Real.mul_self_sqrt (hm a).le
  have hsum : (∑ k : Fin 3, (starRingEnd ℂ) (e1 (a, k) ib1 / (Real.sqrt (m a) : ℂ)) *
      (e2 (a, k) ib2 / (Real.sqrt (m a) : ℂ))) =
      (∑ k : Fin 3, star (e1 (a, k) ib1) * e2 (a, k) ib2) / ((m a : ℝ) : ℂ) := by
    rw [Finset.sum_div]
    refine Finset.sum_congr rfl fun k _ => ?_
    rw [map_div₀, Complex.conj_ofReal]
    conv_rhs => rw [← hs]
    rw [Complex.ofReal_mul, div_mul_div_comm]
    rfl
  simp only
  rw [hsum, hmv a, map_div₀, Complex.normSq_ofReal, ← Complex.normSq_eq_norm_sq]
  have := (hm a).ne'
  field_simp

theorem massDisorder_sum {β : Type} [Fintype β] [DecidableEq β] (g : Fin A → ℝ) (e1 : Fin A × Fin 3 → β → ℂ)
    (u : Matrix (Fin A × Fin 3) β ℂ) (hu : u * u.conjTranspose = 1) (ib1 : β) :
    ∑ ib2, massDisorder g e1 u ib1 ib2 = ∑ a : Fin A, g a * ∑ k : Fin 3, ‖e1 (a, k) ib1‖ ^ 2 := by
  unfold massDisorder
  rw [Finset.sum_comm]
  refine Finset.sum_congr rfl fun a _ => ?_
  rw [← Finset.mul_sum]
  congr 1
  have key : ∀ k k' : Fin 3, ∑ b, u (a, k) b * star (u (a, k') b) = if k = k' then 1 else 0 := by
    intro k k'
    have := congrFun (congrFun hu (a, k)) (a, k')
    rw [Matrix.mul_apply] at this
    simp only [Matrix.conjTranspose_apply] at this
    rw [this, Matrix.one_apply]
    simp
  have hc : ((∑ b, ‖∑ k : Fin 3, star (e1 (a, k) ib1) * u (a, k) b‖ ^ 2 : ℝ) : ℂ) =
      ((∑ k : Fin 3, ‖e1 (a, k) ib1‖ ^ 2 : ℝ) : ℂ) := by
    push_cast
    have h1 : ∀ b, ((‖∑ k : Fin 3, star (e1 (a, k) ib1) * u (a, k) b‖ : ℂ)) ^ 2 =
        ∑ k : Fin 3, ∑ k' : Fin 3, star (e1 (a, k) ib1) * e1 (a, k') ib1 * (u (a, k) b * star (u (a, k') b)) := by
      intro b
      rw [← Complex.mul_conj', map_sum, Finset.sum_mul_sum]
      refine Finset.sum_congr rfl fun k _ => Finset.sum_congr rfl fun k' _ => ?_
      rw [map_mul]
      simp only [← starRingEnd_apply, Complex.conj_conj]
      ring
    simp only [h1]
    rw [Finset.sum_comm]
    refine Finset.sum_congr rfl fun k _ => ?_
    rw [Finset.sum_comm]
    have h2 : ∀ k' : Fin 3, ∑ b, star (e1 (a, k) ib1) * e1 (a, k') ib1 * (u (a, k) b * star (u (a, k') b)) =
        star (e1 (a, k) ib1) * e1 (a, k') ib1 * (if k = k' then 1 else 0) := fun k' => by
      rw [← Finset.mul_sum, key]
    simp only [h2]
    rw [Finset.sum_eq_single k]
    · rw [if_pos rfl, mul_one, ← Complex.conj_mul']
      rfl
    · intro k' _ hk
      rw [if_neg (fun h => hk h.symm), mul_zero]
    · simp
  exact_mod_cast hc

theorem massDisorder_symm {β : Type} (g : Fin A → ℝ) (e1 e2 : Fin A × Fin 3 → β → ℂ) (ib1 ib2 : β) :
    massDisorder g e2 e1 ib2 ib1 = massDisorder g e1 e2 ib1 ib2 := by
  unfold massDisorder
  refine Finset.sum_congr rfl fun a _ => ?_
  congr 2
  rw [← norm_star, star_sum]
  congr 1
  refine Finset.sum_congr rfl fun k _ => ?_
  rw [star_mul, star_star]

theorem massDisorder_nonneg {β : Type} (g : Fin A → ℝ) (hg : ∀ a, 0 ≤ g a) (e1 e2 : Fin A × Fin 3 → β → ℂ)
    (ib1 ib2 : β) : 0 ≤ massDisorder g e1 e2 ib1 ib2 :=
  Finset.sum_nonneg fun a _ => mul_nonneg (hg a) (by positivity)

theorem massDisorder_zero {β : Type} (g : Fin A → ℝ) (hg : ∀ a, g a = 0) (e1 e2 : Fin A × Fin 3 → β → ℂ)
    (ib1 ib2 : β) : massDisorder g e1 e2 ib1 ib2 = 0 :=
  Finset.sum_eq_zero fun a _ => by rw [hg a, zero_mul]

end Verif.Props
