import Verif.Spec.ElPhCoupling
import Mathlib.Algebra.BigOperators.Fin
import Mathlib.LinearAlgebra.UnitaryGroup

namespace Verif.Model
open Verif.Spec

variable {E P M W : Nat}

theorem hostPhase_eq_exp (x : ℝ) : hostPhase x = Complex.exp (Complex.I * (x : ℂ)) := by
  rw [mul_comm, Complex.exp_mul_I]
  apply Complex.ext
  · simp [hostPhase, Complex.cos_ofReal_re, Complex.sin_ofReal_im]
  · simp [hostPhase, Complex.cos_ofReal_im, Complex.sin_ofReal_re]

theorem finRange_map_sum {n : Nat} (f : Fin n → ℂ) : ((List.finRange n).map f).sum = ∑ i, f i := by
  rw [← List.ofFn_eq_map, List.sum_ofFn]

theorem elphPhase_eq (k R : Vec3) (g : ℝ) : elphPhase k R g = Complex.exp (Complex.I * (vdot k R : ℂ)) / (g : ℂ) := by
  unfold elphPhase; rw [hostPhase_eq_exp]

/-- The cached coupling does not depend on the distribution of lattice vectors over the pool. -/
theorem cacheElPh_val (d : ElPhData E P M W) (shares : List (List (Fin E))) (hs : shares.flatten.Perm (List.finRange E))
    (asked : Nat → Vec3 × (Fin W → Nat → ℂ)) (own : Nat) (irP : Fin P) (nu : Fin M) (ib1 : Nat) (iw2 : Fin W) :
    cacheElPh d shares asked own irP nu ib1 iw2 = ∑ iw1, (∑ irE, d.coupling irE irP nu iw1 iw2 *
      elphPhase (asked own).1 (d.elVectors irE) (d.elDegeneracies irE)) * (asked own).2 iw1 ib1 := by
  have key : ∀ l : List (List (Fin E)), (l.map fun vectors => elphRotate d vectors (asked own).1 (asked own).2 irP nu ib1 iw2).sum =
      ∑ iw1, ((l.flatten.map fun irE => d.coupling irE irP nu iw1 iw2 *
        elphPhase (asked own).1 (d.elVectors irE) (d.elDegeneracies irE)).sum) * (asked own).2 iw1 ib1 := by
    intro l
    induction l with
    | nil => simp
    | cons a l ih =>
      rw [List.map_cons, List.sum_cons, ih]
      unfold elphRotate elphFourier
      rw [finRange_map_sum, ← Finset.sum_add_distrib]
      apply Finset.sum_congr rfl
      intro iw1 _
      rw [List.flatten_cons, List.map_append, List.sum_append]
      ring
  have hfull : cacheElPh d shares asked own irP nu ib1 iw2 =
      (shares.map fun vectors => elphRotate d vectors (asked own).1 (asked own).2 irP nu ib1 iw2).sum := by
    unfold cacheElPh
    match shares with
    | [] => rfl
    | [v] => simp
    | _ :: _ :: _ => rfl
  rw [hfull, key]
  apply Finset.sum_congr rfl
  intro iw1 _
  rw [(hs.map _).sum_eq, finRange_map_sum]

theorem couplingSquared_val (d : ElPhData E P M W) (usePolar : Bool) (shares : List (List (Fin E)))
    (hs : shares.flatten.Perm (List.finRange E)) (asked : Nat → Vec3 × (Fin W → Nat → ℂ)) (own : Nat) (garbage : ℂ)
    (it : CouplingItem M W) (ib1 ib2 : Nat) (h2 : ib2 < it.nb2) (nu : Fin M) :
    couplingSquared d usePolar (cacheElPh d shares asked own) (asked own).2 garbage it ib1 ib2 nu =
      Complex.normSq (matrixElement d (longRangeUsed usePolar it.q) (asked own).1 it.q
        (fun w => (asked own).2 w ib1) (fun w => it.ev2 w ib2) (fun mu => it.ev3 mu nu) (it.polar nu)) := by
  have hg : ((List.finRange W).map fun iw2 => (starRingEnd ℂ) (it.ev2 iw2 ib2) *
      ((List.finRange M).map fun mu => ((List.finRange P).map fun irP =>
        elphPhase it.q (d.phVectors irP) (d.phDegeneracies irP) * cacheElPh d shares asked own irP mu ib1 iw2).sum *
          it.ev3 mu nu).sum).sum =
      elphShortRange d (asked own).1 it.q (fun w => (asked own).2 w ib1) (fun w => it.ev2 w ib2) (fun mu => it.ev3 mu nu) := by
    simp only [finRange_map_sum, cacheElPh_val d shares hs, elphPhase_eq, Finset.mul_sum, Finset.sum_mul]
    unfold elphShortRange
    rw [Finset.sum_comm]
    -- order of summation: mu, iw2, irP, iw1, irE on the left
    have e1 : ∀ F : Fin M → Fin W → Fin P → Fin W → Fin E → ℂ,
        ∑ mu, ∑ iw2, ∑ irP, ∑ iw1, ∑ irE, F mu iw2 irP iw1 irE =
        ∑ irE, ∑ irP, ∑ mu, ∑ iw1, ∑ iw2, F mu iw2 irP iw1 irE := by
      intro F
      have a1 : ∀ mu, ∑ iw2, ∑ irP, ∑ iw1, ∑ irE, F mu iw2 irP iw1 irE =
          ∑ irE, ∑ irP, ∑ iw1, ∑ iw2, F mu iw2 irP iw1 irE := by
        intro mu
        rw [Finset.sum_comm]
        have b1 : ∀ irP, ∑ iw2, ∑ iw1, ∑ irE, F mu iw2 irP iw1 irE = ∑ irE, ∑ iw1, ∑ iw2, F mu iw2 irP iw1 irE := by
          intro irP
          rw [Finset.sum_comm]
          have c1 : ∀ iw1, ∑ iw2, ∑ irE, F mu iw2 irP iw1 irE = ∑ irE, ∑ iw2, F mu iw2 irP iw1 irE :=
            fun iw1 => Finset.sum_comm
          rw [Finset.sum_congr rfl fun iw1 _ => c1 iw1, Finset.sum_comm]
        rw [Finset.sum_congr rfl fun irP _ => b1 irP, Finset.sum_comm]
      rw [Finset.sum_congr rfl fun mu _ => a1 mu, Finset.sum_comm]
      apply Finset.sum_congr rfl
      intro irE _
      rw [Finset.sum_comm]
    rw [e1]
    refine Finset.sum_congr rfl fun irE _ => Finset.sum_congr rfl fun irP _ => Finset.sum_congr rfl fun mu _ =>
      Finset.sum_congr rfl fun iw1 _ => Finset.sum_congr rfl fun iw2 _ => ?_
    ring
  unfold couplingSquared
  simp only [h2, if_true]
  rw [hg]
  unfold matrixElement longRangeUsed
  rw [Complex.normSq_apply]
  cases usePolar with
  | false => simp
  | true =>
    simp only [Bool.true_and, if_true]
    rfl

/-- The sum of squares over a group of states does not change when the states are mixed by a unitary matrix. -/
theorem unitary_normSq {n : Nat} (U : Matrix (Fin n) (Fin n) ℂ) (hU : U * U.conjTranspose = 1) (a : Fin n → ℂ) :
    ∑ b, Complex.normSq (∑ c, a c * U c b) = ∑ c, Complex.normSq (a c) := by
  apply Complex.ofReal_injective
  rw [Complex.ofReal_sum, Complex.ofReal_sum]
  have h1 : ∀ z : ℂ, ((Complex.normSq z : ℝ) : ℂ) = z * (starRingEnd ℂ) z := fun z => (Complex.mul_conj z).symm
  simp only [h1, map_sum, map_mul, Finset.sum_mul, Finset.mul_sum]
  have h2 : ∀ b, ∑ c, ∑ c', a c * U c b * ((starRingEnd ℂ) (a c') * (starRingEnd ℂ) (U c' b)) =
      ∑ c, ∑ c', a c * (starRingEnd ℂ) (a c') * (U c b * U.conjTranspose b c') := by
    intro b
    refine Finset.sum_congr rfl fun c _ => Finset.sum_congr rfl fun c' _ => ?_
    rw [Matrix.conjTranspose_apply]
    show _ = a c * (starRingEnd ℂ) (a c') * (U c b * (starRingEnd ℂ) (U c' b))
    ring
  have h3 : ∑ b, ∑ c, ∑ c', a c * (starRingEnd ℂ) (a c') * (U c b * U.conjTranspose b c') =
      ∑ c, ∑ c', a c * (starRingEnd ℂ) (a c') * (U * U.conjTranspose) c c' := by
    rw [Finset.sum_comm]
    refine Finset.sum_congr rfl fun c _ => ?_
    rw [Finset.sum_comm]
    refine Finset.sum_congr rfl fun c' _ => ?_
    rw [Matrix.mul_apply, Finset.mul_sum]
  have h4 : ∑ b, ∑ c, ∑ c', a c * U c b * ((starRingEnd ℂ) (a c') * (starRingEnd ℂ) (U c' b)) =
      ∑ c, a c * (starRingEnd ℂ) (a c) := by
    rw [Finset.sum_congr rfl fun b _ => h2 b, h3, hU]
    refine Finset.sum_congr rfl fun c _ => ?_
    rw [Finset.sum_eq_single c]
    · simp
    · intro c' _ hc'
      rw [Matrix.one_apply_ne (Ne.symm hc'), mul_zero]
    · simp
  rw [← h4]
  refine Finset.sum_congr rfl fun b _ => ?_
  rw [Finset.sum_comm]

/-! Linearity of the matrix element. -/

theorem elphShortRange_ev1 (d : ElPhData E P M W) (k q : Vec3) {n : Nat} (v : Fin n → Fin W → ℂ) (u : Fin n → ℂ)
    (ev2 : Fin W → ℂ) (ev3 : Fin M → ℂ) :
    elphShortRange d k q (fun w => ∑ c, v c w * u c) ev2 ev3 = ∑ c, elphShortRange d k q (v c) ev2 ev3 * u c := by
  unfold elphShortRange
  simp only [Finset.mul_sum, Finset.sum_mul]
  refine Eq.symm ?_
  rw [Finset.sum_comm]; refine Finset.sum_congr rfl fun _ _ => ?_
  rw [Finset.sum_comm]; refine Finset.sum_congr rfl fun _ _ => ?_
  rw [Finset.sum_comm]; refine Finset.sum_congr rfl fun _ _ => ?_
  rw [Finset.sum_comm]; refine Finset.sum_congr rfl fun _ _ => ?_
  rw [Finset.sum_comm]; refine Finset.sum_congr rfl fun _ _ => ?_
  refine Finset.sum_congr rfl fun _ _ => ?_
  ring

theorem elphShortRange_ev3 (d : ElPhData E P M W) (k q : Vec3) {n : Nat} (ev1 ev2 : Fin W → ℂ) (v : Fin n → Fin M → ℂ)
    (u : Fin n → ℂ) :
    elphShortRange d k q ev1 ev2 (fun m => ∑ c, v c m * u c) = ∑ c, elphShortRange d k q ev1 ev2 (v c) * u c := by
  unfold elphShortRange
  simp only [Finset.mul_sum, Finset.sum_mul]
  refine Eq.symm ?_
  rw [Finset.sum_comm]; refine Finset.sum_congr rfl fun _ _ => ?_
  rw [Finset.sum_comm]; refine Finset.sum_congr rfl fun _ _ => ?_
  rw [Finset.sum_comm]; refine Finset.sum_congr rfl fun _ _ => ?_
  rw [Finset.sum_comm]; refine Finset.sum_congr rfl fun _ _ => ?_
  rw [Finset.sum_comm]; refine Finset.sum_congr rfl fun _ _ => ?_
  refine Finset.sum_congr rfl fun _ _ => ?_
  ring

theorem elphShortRange_ev2 (d : ElPhData E P M W) (k q : Vec3) {n : Nat} (v : Fin n → Fin W → ℂ) (u : Fin n → ℂ)
    (ev1 : Fin W → ℂ) (ev3 : Fin M → ℂ) :
    elphShortRange d k q ev1 (fun w => ∑ c, v c w * u c) ev3 =
      ∑ c, elphShortRange d k q ev1 (v c) ev3 * (starRingEnd ℂ) (u c) := by
  unfold elphShortRange
  simp only [map_sum, map_mul, Finset.mul_sum, Finset.sum_mul]
  refine Eq.symm ?_
  rw [Finset.sum_comm]; refine Finset.sum_congr rfl fun _ _ => ?_
  rw [Finset.sum_comm]; refine Finset.sum_congr rfl fun _ _ => ?_
  rw [Finset.sum_comm]; refine Finset.sum_congr rfl fun _ _ => ?_
  rw [Finset.sum_comm]; refine Finset.sum_congr rfl fun _ _ => ?_
  rw [Finset.sum_comm]; refine Finset.sum_congr rfl fun _ _ => ?_
  refine Finset.sum_congr rfl fun _ _ => ?_
  ring

theorem overlap_ev1 {n : Nat} (v : Fin n → Fin W → ℂ) (u : Fin n → ℂ) (ev2 : Fin W → ℂ) :
    overlap ev2 (fun w => ∑ c, v c w * u c) = ∑ c, overlap ev2 (v c) * u c := by
  unfold overlap
  simp only [Finset.mul_sum, Finset.sum_mul]
  rw [Finset.sum_comm]
  refine Finset.sum_congr rfl fun _ _ => Finset.sum_congr rfl fun _ _ => ?_
  ring

theorem overlap_ev2 {n : Nat} (v : Fin n → Fin W → ℂ) (u : Fin n → ℂ) (ev1 : Fin W → ℂ) :
    overlap (fun w => ∑ c, v c w * u c) ev1 = ∑ c, overlap (v c) ev1 * (starRingEnd ℂ) (u c) := by
  unfold overlap
  simp only [map_sum, map_mul, Finset.sum_mul]
  rw [Finset.sum_comm]
  refine Finset.sum_congr rfl fun _ _ => Finset.sum_congr rfl fun _ _ => ?_
  ring

end Verif.Model
