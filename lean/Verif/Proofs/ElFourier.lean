import Verif.Model.ElFourier
import Verif.Proofs.Crystal
import Mathlib.LinearAlgebra.Matrix.Hermitian
import Mathlib.Algebra.BigOperators.Field
import Mathlib.Algebra.Order.BigOperators.Group.List
import Mathlib.LinearAlgebra.LinearIndependent.Basic
import Mathlib.Analysis.Complex.Basic
import Mathlib.Analysis.SpecialFunctions.Exp

/-!
# Lemmas on the Fourier interpolation
-/
namespace Verif.Model

open Complex in
/-- `exp(2 pi i x)`. -/
noncomputable def unitWave (x : ℝ) : ℂ := exp (2 * Real.pi * I * x)

theorem unitWave_add (x y : ℝ) : unitWave (x + y) = unitWave x * unitWave y := by
  unfold unitWave
  rw [← Complex.exp_add]
  push_cast
  ring_nf

theorem unitWave_zero : unitWave 0 = 1 := by simp [unitWave]

theorem unitWave_int (n : ℤ) : unitWave n = 1 := by
  unfold unitWave
  rw [show (2 * Real.pi * Complex.I * ((n : ℝ) : ℂ)) = n * (2 * Real.pi * Complex.I) by push_cast; ring]
  exact Complex.exp_int_mul_two_pi_mul_I n

theorem unitWave_inj {x y : ℝ} (h : unitWave x = unitWave y) : ∃ n : ℤ, x = y + n := by
  unfold unitWave at h
  obtain ⟨n, hn⟩ := Complex.exp_eq_exp_iff_exists_int.mp h
  refine ⟨n, ?_⟩
  have h2 : (2 * Real.pi * Complex.I : ℂ) ≠ 0 := Complex.two_pi_I_ne_zero
  have h3 : (2 * Real.pi * Complex.I : ℂ) * (x : ℂ) = (2 * Real.pi * Complex.I : ℂ) * ((y + n : ℝ) : ℂ) := by
    rw [hn]; push_cast; ring
  exact_mod_cast mul_left_cancel₀ h2 h3

/-- The wave of a wavevector (crystal coordinates) on the lattice. -/
noncomputable def waveHom (kappa : Fin 3 → ℝ) : Multiplicative (Fin 3 → ℤ) →* ℂ where
  toFun n := unitWave (∑ a, kappa a * (n.toAdd a : ℝ))
  map_one' := by
    show unitWave (∑ a, kappa a * ((0 : Fin 3 → ℤ) a : ℝ)) = 1
    simp [unitWave_zero]
  map_mul' m n := by
    show unitWave (∑ a, kappa a * ((m.toAdd + n.toAdd) a : ℝ)) = _
    rw [← unitWave_add]
    congr 1
    rw [← Finset.sum_add_distrib]
    refine Finset.sum_congr rfl fun a _ => ?_
    simp only [Pi.add_apply, Int.cast_add]; ring

theorem waveHom_single (kappa : Fin 3 → ℝ) (a : Fin 3) :
    waveHom kappa (Multiplicative.ofAdd (Pi.single a 1)) = unitWave (kappa a) := by
  show unitWave (∑ b, kappa b * ((Pi.single a 1 : Fin 3 → ℤ) b : ℝ)) = _
  congr 1
  rw [Finset.sum_eq_single a]
  · simp
  · intro b _ hb; simp [hb]
  · simp

/-- Waves of wavevectors that differ by more than a reciprocal lattice vector are independent. -/
theorem waves_independent {ι : Type} [Fintype ι] (kappa : ι → Fin 3 → ℝ)
    (hinj : ∀ i j, (∀ a, ∃ n : ℤ, kappa i a = kappa j a + n) → i = j) (y : ι → ℂ)
    (h : ∀ n : Fin 3 → ℤ, ∑ i, y i * unitWave (∑ a, kappa i a * (n a : ℝ)) = 0) : y = 0 := by
  have hi : Function.Injective fun i => waveHom (kappa i) := by
    intro i j hij
    refine hinj i j fun a => unitWave_inj ?_
    rw [← waveHom_single, ← waveHom_single]
    exact congrArg (fun f => f (Multiplicative.ofAdd (Pi.single a 1))) hij
  have hl := (linearIndependent_monoidHom (Multiplicative (Fin 3 → ℤ)) ℂ).comp _ hi
  funext i
  refine Fintype.linearIndependent_iff.mp hl y ?_ i
  funext n
  rw [Finset.sum_apply]
  exact h n.toAdd

/-! ## The matrix of the interpolation -/

theorem foldl_add_list {α β : Type} [AddCommMonoid β] (l : List α) (f : α → β) (b : β) :
    l.foldl (fun h p => h + f p) b = b + (l.map f).sum := by
  induction l generalizing b with
  | nil => simp
  | cons a l ih => rw [List.foldl_cons, ih, List.map_cons, List.sum_cons, add_assoc]

theorem foldl_sub_list {α : Type} (l : List α) (f : α → ℂ) (b : ℂ) :
    l.foldl (fun h p => h - f p) b = b - (l.map f).sum := by
  induction l generalizing b with
  | nil => simp
  | cons a l ih => rw [List.foldl_cons, ih, List.map_cons, List.sum_cons]; ring

theorem roughness_pos (m : ℝ) (r : Vec3) : 0 < roughness m r := by
  unfold roughness
  obtain ⟨x, hx⟩ : ∃ x, x = vnorm r / m := ⟨_, rfl⟩
  rw [mul_div_assoc, ← hx]
  by_cases h : x = 0
  · subst h; norm_num
  · have : 0 < x ^ 6 := by positivity
    have := sq_nonneg (1 - 0.75 * x)
    linarith

section
variable {n : Nat} (m : ℝ) (vecs : List RVec) (k : Fin (n + 1) → Vec3)

/-- The row of the matrix of the interpolation for one lattice vector. -/
noncomputable def starDiff (k : Fin (n + 1) → Vec3) (p : RVec) (i : Fin n) : ℂ :=
  starFunction (k i.succ) p - starFunction (k 0) p

theorem fourierH_apply (i j : Fin n) : fourierH m vecs k i j =
    (vecs.map fun p => starDiff k p i * (starRingEnd ℂ) (starDiff k p j) / (roughness m p.1 : ℂ)).sum := by
  unfold fourierH
  rw [foldl_add_list, zero_add]
  rfl

theorem fourierH_hermitian : (fourierH m vecs k).IsHermitian := by
  funext i j
  rw [Matrix.conjTranspose_apply, fourierH_apply, fourierH_apply, Complex.star_def, map_list_sum, List.map_map]
  refine congrArg _ (List.map_congr_left fun p _ => ?_)
  simp only [Function.comp_apply, map_div₀, map_mul, Complex.conj_conj, Complex.conj_ofReal]
  ring

theorem fintype_list_sum_comm {α ι : Type} [Fintype ι] (l : List α) (f : ι → α → ℂ) :
    ∑ i, (l.map (f i)).sum = (l.map fun p => ∑ i, f i p).sum := by
  induction l with
  | nil => simp
  | cons a l ih => simp only [List.map_cons, List.sum_cons, Finset.sum_add_distrib, ih]

theorem fourierH_form (x : Fin n → ℂ) : star x ⬝ᵥ (fourierH m vecs k).mulVec x =
    ((vecs.map fun p => Complex.normSq (∑ i, (starRingEnd ℂ) (x i) * starDiff k p i) / roughness m p.1).sum : ℝ) := by
  have e : star x ⬝ᵥ (fourierH m vecs k).mulVec x = (vecs.map fun p =>
      ((Complex.normSq (∑ i, (starRingEnd ℂ) (x i) * starDiff k p i) / roughness m p.1 : ℝ) : ℂ)).sum := by
    simp only [dotProduct, Matrix.mulVec, fourierH_apply, Pi.star_apply, ← List.sum_map_mul_right,
      ← List.sum_map_mul_left]
    simp only [Finset.mul_sum, ← List.sum_map_mul_left]
    rw [Finset.sum_congr rfl fun i _ => fintype_list_sum_comm vecs _, fintype_list_sum_comm]
    refine congrArg _ (List.map_congr_left fun p _ => ?_)
    rw [Complex.ofReal_div, ← Complex.mul_conj, map_sum, Finset.sum_mul_sum, Finset.sum_div]
    refine Finset.sum_congr rfl fun i _ => ?_
    rw [Finset.sum_div]
    refine Finset.sum_congr rfl fun j _ => ?_
    simp only [map_mul, Complex.conj_conj, Complex.star_def]
    ring
  rw [e]
  have := map_list_sum Complex.ofRealHom (vecs.map fun p =>
    Complex.normSq (∑ i, (starRingEnd ℂ) (x i) * starDiff k p i) / roughness m p.1)
  rw [List.map_map] at this
  exact this.symm

/-- The matrix is positive definite when the waves distinguish the wavevectors. -/
theorem fourierH_posDef (hind : ∀ x : Fin n → ℂ, (∀ p ∈ vecs, ∑ i, x i * starDiff k p i = 0) → x = 0) :
    (fourierH m vecs k).IsHermitian ∧ ∀ x, x ≠ 0 → 0 < (star x ⬝ᵥ (fourierH m vecs k).mulVec x).re := by
  refine ⟨fourierH_hermitian m vecs k, fun x hx => ?_⟩
  rw [fourierH_form, Complex.ofReal_re]
  have hnn : ∀ y ∈ vecs.map fun p => Complex.normSq (∑ i, (starRingEnd ℂ) (x i) * starDiff k p i) / roughness m p.1,
      0 ≤ y := by
    intro y hy
    obtain ⟨p, _, rfl⟩ := List.mem_map.mp hy
    exact div_nonneg (Complex.normSq_nonneg _) (roughness_pos m p.1).le
  have h0 := List.sum_nonneg hnn
  rcases h0.lt_or_eq with h | h
  · exact h
  · exfalso
    apply hx
    have hz : ∀ p ∈ vecs, ∑ i, (starRingEnd ℂ) (x i) * starDiff k p i = 0 := by
      intro p hp
      have := (List.all_zero_of_le_zero_le_of_sum_eq_zero hnn h.symm) (List.mem_map_of_mem hp)
      rcases div_eq_zero_iff.mp this with h1 | h1
      · exact Complex.normSq_eq_zero.mp h1
      · exact absurd h1 (roughness_pos m p.1).ne'
    have := hind (fun i => (starRingEnd ℂ) (x i)) hz
    funext i
    have h1 := congrFun this i
    simpa using h1

end

end Verif.Model
