import Verif.Proofs.ElPhCoupling
import Mathlib.Order.Interval.Finset.Nat
import Mathlib.Data.Int.Interval
import Mathlib.Algebra.BigOperators.Field

namespace Verif.Model
open Verif.Spec

variable {A : Nat}

theorem symmetricRange_sum (n : Nat) (f : Int → ℂ) :
    ((symmetricRange n).map f).sum = ∑ m ∈ Finset.Icc (-(n : ℤ)) n, f m := by
  have h1 : ((symmetricRange n).map f).sum = ∑ i ∈ Finset.range (2 * n + 1), f ((i : Int) - n) := by
    unfold symmetricRange
    rw [List.map_map, Finset.sum_eq_multiset_sum, Finset.range_val, ← Multiset.coe_range, Multiset.map_coe, Multiset.sum_coe]
    rfl
  rw [h1]
  apply Finset.sum_bij (fun (i : Nat) _ => (i : Int) - n)
  · intro i hi
    rw [Finset.mem_range] at hi
    rw [Finset.mem_Icc]
    omega
  · intro i _ j _ h
    omega
  · intro b hb
    rw [Finset.mem_Icc] at hb
    refine ⟨(b + n).toNat, ?_, ?_⟩
    · rw [Finset.mem_range]; omega
    · omega
  · intro _ _; rfl

/-- The correction as a sum over three indices. -/
theorem polarPart1_sum (c : PolarData A) (q : Vec3) (ev : Fin A → Fin 3 → ℂ) :
    polarPart1 c q ev = ∑ m1 ∈ Finset.Icc (-(c.mesh 0 : ℤ)) (c.mesh 0), ∑ m2 ∈ Finset.Icc (-(c.mesh 1 : ℤ)) (c.mesh 1),
      ∑ m3 ∈ Finset.Icc (-(c.mesh 2 : ℤ)) (c.mesh 2),
        polarTerm c ev (fun i => q i + (c.reciprocal i 0 * m1 + c.reciprocal i 1 * m2 + c.reciprocal i 2 * m3)) := by
  have hvec : ∀ m1 m2 m3 : Int, c.reciprocal.mulVec ![(m1 : ℝ), (m2 : ℝ), (m3 : ℝ)] + q =
      fun i => q i + (c.reciprocal i 0 * m1 + c.reciprocal i 1 * m2 + c.reciprocal i 2 * m3) := by
    intro m1 m2 m3
    funext i
    rw [Pi.add_apply, add_comm]
    simp [Matrix.mulVec, dotProduct, Fin.sum_univ_three]
  have hflat : ∀ {α β : Type} (l : List α) (g : α → List β) (h : β → ℂ),
      ((l.flatMap g).map h).sum = (l.map fun a => ((g a).map h).sum).sum := by
    intro α β l g h
    induction l with
    | nil => rfl
    | cons a t ih => rw [List.flatMap_cons, List.map_append, List.sum_append, ih]; rfl
  unfold polarPart1 polarVectors
  rw [hflat, symmetricRange_sum]
  refine Finset.sum_congr rfl fun m1 _ => ?_
  rw [hflat, symmetricRange_sum]
  refine Finset.sum_congr rfl fun m2 _ => ?_
  rw [List.map_map, symmetricRange_sum]
  refine Finset.sum_congr rfl fun m3 _ => ?_
  rw [Function.comp, hvec]

theorem sum_Icc_neg (n : Nat) (f : Int → ℂ) : ∑ m ∈ Finset.Icc (-(n : ℤ)) n, f m = ∑ m ∈ Finset.Icc (-(n : ℤ)) n, f (-m) := by
  apply Finset.sum_bij (fun (i : Int) _ => -i)
  · intro i hi
    rw [Finset.mem_Icc] at hi ⊢
    omega
  · intro i _ j _ h
    omega
  · intro b hb
    rw [Finset.mem_Icc] at hb
    exact ⟨-b, by rw [Finset.mem_Icc]; omega, by simp⟩
  · intro i _; rw [neg_neg]

theorem polarQEq_neg (c : PolarData A) (g : Vec3) : polarQEq c (-g) = polarQEq c g := by
  simp only [polarQEq, vdot, Matrix.mulVec_neg, Pi.neg_apply]
  ring

theorem polarTerm_neg (c : PolarData A) (ev : Fin A → Fin 3 → ℂ) (g : Vec3) :
    polarTerm c (fun a i => (starRingEnd ℂ) (ev a i)) (-g) = (starRingEnd ℂ) (polarTerm c ev g) := by
  unfold polarTerm
  rw [polarQEq_neg]
  split_ifs
  · rw [map_sum]
    refine Finset.sum_congr rfl fun a _ => ?_
    rw [map_sum]
    refine Finset.sum_congr rfl fun i _ => ?_
    simp only [map_mul, Complex.conj_ofReal, Complex.conj_I]
    have h1 : hostPhase (-vdot (-g) (c.positions a)) = (starRingEnd ℂ) (hostPhase (-vdot g (c.positions a))) := by
      have : -vdot (-g) (c.positions a) = - -vdot g (c.positions a) := by
        simp only [vdot, Pi.neg_apply]; ring
      rw [this]
      apply Complex.ext <;> simp [hostPhase]
    have h2 : (∑ j, (-g) j * c.born a j i) = -∑ j, g j * c.born a j i := by
      simp only [Pi.neg_apply, neg_mul, Finset.sum_neg_distrib]
    rw [h1, h2]
    push_cast
    ring
  · simp

theorem polarTerm_linear (c : PolarData A) {n : Nat} (v : Fin n → Fin A → Fin 3 → ℂ) (u : Fin n → ℂ) (g : Vec3) :
    polarTerm c (fun a i => ∑ k, v k a i * u k) g = ∑ k, polarTerm c (v k) g * u k := by
  unfold polarTerm
  split_ifs
  · simp only [Finset.mul_sum, Finset.sum_mul]
    refine Eq.symm ?_
    rw [Finset.sum_comm]; refine Finset.sum_congr rfl fun _ _ => ?_
    rw [Finset.sum_comm]; refine Finset.sum_congr rfl fun _ _ => Finset.sum_congr rfl fun _ _ => ?_
    ring
  · simp

theorem polarTerm_frohlich (c : PolarData A) (ev : Fin A → Fin 3 → ℂ) (g : Vec3) :
    open Classical in
    2 * polarTerm c ev g = if UsedVector c g then frohlichTerm c ev g else 0 := by
  unfold polarTerm UsedVector
  have hiff : (0 < polarQEq c g ∧ polarQEq c g / 4 < 14) ↔
      (0 < vdot g (c.epsilon.mulVec g) ∧ vdot g (c.epsilon.mulVec g) < 56) := by
    unfold polarQEq
    constructor <;> rintro ⟨h1, h2⟩ <;> exact ⟨h1, by linarith⟩
  by_cases h : 0 < polarQEq c g ∧ polarQEq c g / 4 < 14
  · rw [if_pos h, if_pos (hiff.mp h)]
    unfold frohlichTerm
    rw [Finset.mul_sum, Finset.mul_sum]
    refine Finset.sum_congr rfl fun a _ => ?_
    rw [hostPhase_eq_exp]
    have e : Complex.exp (Complex.I * ((-vdot g (c.positions a) : ℝ) : ℂ)) =
        Complex.exp (-Complex.I * (vdot g (c.positions a) : ℂ)) := by
      congr 1; push_cast; ring
    rw [e, Finset.mul_sum, Finset.mul_sum, Finset.sum_div, Finset.mul_sum]
    refine Finset.sum_congr rfl fun i _ => ?_
    unfold constFourPi polarQEq
    push_cast
    ring
  · rw [if_neg h, if_neg (fun h' => h (hiff.mpr h')), mul_zero]

end Verif.Model
