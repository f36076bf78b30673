import Verif.Proofs.ElFourier
import Mathlib.Analysis.SpecialFunctions.ExpDeriv
import Mathlib.Analysis.Calculus.Deriv.Pi

/-!
# Fourier interpolation: the coarse energies, and the search for lattice vectors
-/
namespace Verif.Model

/-! ## The coarse energies -/

theorem zip_map_self {α β : Type} (f : α → β) (l : List α) : (l.map f).zip l = l.map fun p => (f p, p) := by
  induction l with
  | nil => rfl
  | cons a l ih => simp [ih]

theorem re_list_sum (l : List ℂ) : l.sum.re = (l.map Complex.re).sum := by
  induction l with
  | nil => simp
  | cons a l ih => simp [ih]

theorem starFunction_origin (k : Vec3) : starFunction k (0, 1) = 1 := by
  simp [starFunction, vdot]

theorem fourierEnergy_cons (v0 : RVec) (rest : List RVec) (c0 : ℂ) (f : RVec → ℂ) (k : Vec3) :
    fourierEnergy (v0 :: rest) (c0 :: rest.map f) k =
      (c0 * starFunction k v0 + (rest.map fun p => f p * starFunction k p).sum).re := by
  unfold fourierEnergy
  rw [List.zip_cons_cons, List.foldl_cons, foldl_add_list, zip_map_self, List.map_map, Complex.add_re, re_list_sum,
    List.map_map, zero_add]
  rfl

/-- The interpolation gives the energies of the coarse grid when the multipliers solve the linear system. -/
theorem interpolates (solve : LinearSolver) (v : FourierVectors) {n : Nat} (k : Fin (n + 1) → Vec3)
    (e : Fin (n + 1) → ℝ) (rest : List RVec) (hv : v.vecs = (0, 1) :: rest)
    (hs : (fourierH v.minDistance v.vecs k).mulVec (getLagrangeMultipliers solve v k e) =
      fun i => ((e i.succ - e 0 : ℝ) : ℂ)) :
    ∃ c, getCoefficients solve v k e = .ok c ∧ ∀ i, fourierEnergy v.vecs c (k i) = e i := by
  obtain ⟨lam, hlam⟩ : ∃ lam, lam = getLagrangeMultipliers solve v k e := ⟨_, rfl⟩
  rw [← hlam] at hs
  obtain ⟨f, hf⟩ : ∃ f : RVec → ℂ, f = fun p => (List.finRange n).foldl (fun c i => c + lam i *
      (starRingEnd ℂ) (starFunction (k i.succ) p - starFunction (k 0) p)) 0 / (roughness v.minDistance p.1 : ℂ) := ⟨_, rfl⟩
  obtain ⟨c0, hc0⟩ : ∃ c0 : ℂ, c0 = (e 0 : ℂ) - (rest.map fun p => f p * starFunction (k 0) p).sum := ⟨_, rfl⟩
  refine ⟨c0 :: rest.map f, ?_, ?_⟩
  · unfold getCoefficients
    rw [hv]
    simp only
    rw [← hlam, ← hf, foldl_sub_list, zip_map_self, List.map_map, hc0]
    rfl
  · intro i
    rw [hv, fourierEnergy_cons, starFunction_origin, mul_one, hc0]
    have key : ∀ i, (rest.map fun p => f p * starFunction (k i) p).sum -
        (rest.map fun p => f p * starFunction (k 0) p).sum = ((e i - e 0 : ℝ) : ℂ) := by
      intro i
      refine Fin.cases ?_ (fun j => ?_) i
      · simp
      · have h1 := congrFun hs j
        rw [← h1]
        simp only [Matrix.mulVec, dotProduct, fourierH_apply, hv, List.map_cons, List.sum_cons]
        have h0 : ∀ j, starDiff k (0, 1) j = 0 := by
          intro j; unfold starDiff; rw [starFunction_origin, starFunction_origin, sub_self]
        simp only [h0, zero_mul, zero_div, zero_add]
        simp only [← List.sum_map_mul_right]
        rw [fintype_list_sum_comm]
        have : ∀ (a b : RVec → ℂ), (rest.map a).sum - (rest.map b).sum = (rest.map fun p => a p - b p).sum := by
          intro a b
          generalize rest = l
          induction l with
          | nil => simp
          | cons x l ih => simp only [List.map_cons, List.sum_cons, ← ih]; ring
        rw [this]
        refine congrArg _ (List.map_congr_left fun p _ => ?_)
        rw [← mul_sub, hf]
        simp only
        rw [foldl_add_list, zero_add, ← List.ofFn_eq_map, List.sum_ofFn, div_mul_eq_mul_div, Finset.sum_mul, Finset.sum_div]
        refine Finset.sum_congr rfl fun j' _ => ?_
        unfold starDiff
        ring
    have h2 := key i
    rw [show (e 0 : ℂ) - (rest.map fun p => f p * starFunction (k 0) p).sum +
      (rest.map fun p => f p * starFunction (k i) p).sum = (e 0 : ℂ) +
      ((rest.map fun p => f p * starFunction (k i) p).sum - (rest.map fun p => f p * starFunction (k 0) p).sum) by ring, h2]
    rw [← Complex.ofReal_add, Complex.ofReal_re]
    ring

/-! ## Velocities -/

theorem star_hasDeriv (k : Vec3) (p : RVec) (i : Fin 3) (t : ℝ) :
    HasDerivAt (fun t => starFunction (Function.update k i t) p) (starDerivative (Function.update k i t) p i) t := by
  unfold starFunction starDerivative
  have h1 : HasDerivAt (fun t => vdot (Function.update k i t) p.1) (p.1 i) t := by
    have : (fun t => vdot (Function.update k i t) p.1) = fun t => t * p.1 i + (vdot (Function.update k i 0) p.1) := by
      funext t
      fin_cases i <;> simp [vdot, Function.update] <;> ring
    rw [this]
    simpa using ((hasDerivAt_id t).mul_const (p.1 i)).add_const (vdot (Function.update k i 0) p.1)
  have h2 := ((h1.ofReal_comp.const_mul Complex.I).cexp).div_const (p.2 : ℂ)
  refine h2.congr_deriv ?_
  ring

theorem energy_hasDeriv (vecs : List RVec) (c : List ℂ) (k : Vec3) (i : Fin 3) (t : ℝ) :
    HasDerivAt (fun t => fourierEnergy vecs c (Function.update k i t))
      (fourierVelocity vecs c (Function.update k i t) i) t := by
  unfold fourierEnergy fourierVelocity
  simp only [foldl_add_list, zero_add]
  generalize c.zip vecs = l
  induction l with
  | nil => simpa using hasDerivAt_const t (0 : ℝ)
  | cons q l ih =>
    simp only [List.map_cons, List.sum_cons]
    refine HasDerivAt.add ?_ ih
    have h := ((star_hasDeriv k q.2 i t).const_mul q.1)
    exact Complex.reCLM.hasFDerivAt.comp_hasDerivAt t h

end Verif.Model
