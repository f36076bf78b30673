import Verif.Model.DynMat
import Verif.Spec.Phonon
import Verif.Spec.SumRule
import Verif.Proofs.Crystal
import Mathlib.LinearAlgebra.Matrix.Charpoly.Coeff
import Mathlib.LinearAlgebra.Matrix.Charpoly.Basic
import Mathlib.Data.List.Sort
import Mathlib.Algebra.Polynomial.Roots

namespace Verif.Model

open Verif.Spec

variable {A n1 n2 n3 : Nat}

/-! ### Lists and sums -/

theorem sum_flatMap_map {α β : Type} {M : Type} [AddCommMonoid M] (l : List α) (g : α → List β)
    (h : β → M) : ((l.flatMap g).map h).sum = (l.map fun x => ((g x).map h).sum).sum := by
  induction l with
  | nil => rfl
  | cons x l ih => simp [List.flatMap_cons, ih]

theorem sum_filter_map {α : Type} {M : Type} [AddCommMonoid M] (l : List α) (p : α → Bool)
    (h : α → M) : ((l.filter p).map h).sum = (l.map fun x => if p x then h x else 0).sum := by
  induction l with
  | nil => rfl
  | cons x l ih =>
    by_cases hp : p x = true
    · simp [hp, ih]
    · simp [hp, ih]

theorem sum_finRange {M : Type} [AddCommMonoid M] (n : Nat) (h : Fin n → M) :
    ((List.finRange n).map h).sum = ∑ i, h i := (Fin.sum_univ_def h).symm

theorem sum_list_finset {α ι : Type} {M : Type} [AddCommMonoid M] (l : List α) (s : Finset ι)
    (g : α → ι → M) : (l.map fun x => ∑ i ∈ s, g x i).sum = ∑ i ∈ s, (l.map fun x => g x i).sum := by
  induction l with
  | nil => simp
  | cons x l ih => simp only [List.map_cons, List.sum_cons, ih, Finset.sum_add_distrib]

/-! ### Weights -/

theorem wsWeightLoop_nonneg (r : Vec3) (l : List Vec3) : ∀ k, 0 ≤ wsWeightLoop r l k := by
  induction l with
  | nil => intro k; simp only [wsWeightLoop]; positivity
  | cons g l ih =>
    intro k
    simp only [wsWeightLoop]
    split_ifs
    · exact le_refl _
    · exact ih _
    · exact ih _

theorem wsCacheAt_nonneg (c : PhCrystal A) (n : V3 Int) (na nb : Fin A) :
    0 ≤ wsCacheAt c n1 n2 n3 n na nb := wsWeightLoop_nonneg _ _ _

/-! ### Short range part -/

theorem shortRange_reorder [NeZero n1] [NeZero n2] [NeZero n3] (c : PhCrystal A)
    (f : FcVec A n1 n2 n3) (q : Vec3) (a b : Fin A × Fin 3) :
    shortRange (reorder c f) q a b = ((wsCells n1 n2 n3).map fun n =>
      (f (foldFin n1 n.x, foldFin n2 n.y, foldFin n3 n.z, a.2, b.2, a.1, b.1) : ℂ) *
        phaseOf q (latVec c.cell n) * (wsCacheAt c n1 n2 n3 n a.1 b.1 : ℂ)).sum := by
  simp only [shortRange, reorder]
  rw [sum_flatMap_map]
  refine congrArg _ (List.map_congr_left fun n _ => ?_)
  rw [sum_flatMap_map]
  simp only [List.map_map, sum_filter_map, sum_finRange, Function.comp_def, Bravais.mat2R]
  rw [Finset.sum_eq_single b.1, Finset.sum_eq_single a.1]
  · simp only [and_self, if_true]
    by_cases h : 0 < wsCacheAt c n1 n2 n3 n a.1 b.1
    · simp [h]
    · have h0 : wsCacheAt c n1 n2 n3 n a.1 b.1 = 0 :=
        le_antisymm (not_lt.mp h) (wsCacheAt_nonneg c n _ _)
      simp [h0]
  · intro x _ hx
    have : ¬ (a.1 = x) := fun e => hx e.symm
    simp [this]
  · simp
  · intro x _ hx
    have : ¬ (b.1 = x) := fun e => hx e.symm
    simp [this]
  · simp

theorem phaseOf_neg (q r : Vec3) : phaseOf (-q) r = (starRingEnd ℂ) (phaseOf q r) := by
  simp only [phaseOf]
  rw [← Complex.exp_conj]
  congr 1
  have : vdot (-q) r = - vdot q r := by simp only [vdot, Pi.neg_apply]; ring
  rw [this]
  simp

theorem conj_list_sum (l : List ℂ) :
    (starRingEnd ℂ) l.sum = (l.map (starRingEnd ℂ)).sum := map_list_sum _ _

theorem shortRange_neg (bs : List (Bravais A)) (q : Vec3) (a b : Fin A × Fin 3) :
    shortRange bs (-q) a b = (starRingEnd ℂ) (shortRange bs q a b) := by
  simp only [shortRange]
  rw [conj_list_sum, List.map_map]
  refine congrArg _ (List.map_congr_left fun e _ => ?_)
  simp only [Function.comp_apply, map_mul, Complex.conj_ofReal, phaseOf_neg]

/-! ### Long range part -/

theorem latVec_neg (d : Mat3) (n : V3 Int) : latVec d (negV n) = - latVec d n := by
  funext i
  simp only [latVec, negV, Pi.neg_apply, Int.cast_neg]
  ring

/-- A sum over the reciprocal vectors may be taken over their opposites. -/
theorem gVectors_neg {M : Type} [AddCommMonoid M] (c : PhCrystal A) (h : Vec3 → M) :
    ((c.gVectors n1 n2 n3).map h).sum = ((c.gVectors n1 n2 n3).map fun g => h (-g)).sum := by
  simp only [PhCrystal.gVectors, List.map_map]
  conv_lhs => rw [← List.sum_reverse, ← List.map_reverse, reverse_zBox, List.map_map]
  refine congrArg _ (List.map_congr_left fun n _ => ?_)
  simp only [Function.comp_apply, latVec_neg]

theorem geg_neg (c : PhCrystal A) (g : Vec3) : c.geg (-g) = c.geg g := by
  simp only [PhCrystal.geg, vdot, matVec, Pi.neg_apply]; ring

theorem gZ_neg (c : PhCrystal A) (g : Vec3) (i : Fin 3) (na : Fin A) :
    c.gZ (-g) i na = - c.gZ g i na := by
  simp only [PhCrystal.gZ, Pi.neg_apply]; ring

theorem arg_neg (c : PhCrystal A) (na nb : Fin A) (g : Vec3) : c.arg na nb (-g) = - c.arg na nb g := by
  simp only [PhCrystal.arg, vdot, Pi.neg_apply]; ring

theorem arg_swap (c : PhCrystal A) (na nb : Fin A) (g : Vec3) : c.arg na nb g = - c.arg nb na g := by
  simp only [PhCrystal.arg, vdot]; ring

open scoped Classical in
/-- The contribution of one shifted reciprocal vector. -/
noncomputable def PhCrystal.lrTerm (c : PhCrystal A) (gq : Vec3) (a b : Fin A × Fin 3) : ℂ :=
  if inCutoff (c.geg gq) then
    (c.normG (c.geg gq) : ℂ) * ((Real.cos (c.arg a.1 b.1 gq) : ℂ) +
      (Real.sin (c.arg a.1 b.1 gq) : ℂ) * Complex.I) *
      ((c.gZ gq a.2 a.1 * c.gZ gq b.2 b.1 : ℝ) : ℂ)
  else 0

theorem longRange_apply (c : PhCrystal A) (q : Vec3) (a b : Fin A × Fin 3) :
    c.longRange n1 n2 n3 q a b =
      (if a.1 = b.1 then (c.longRange1 n1 n2 n3 a.2 b.2 a.1 : ℂ) else 0) +
      ((c.gVectors n1 n2 n3).map fun g => c.lrTerm (g + q) a b).sum := rfl

theorem lrTerm_neg (c : PhCrystal A) (g : Vec3) (a b : Fin A × Fin 3) :
    c.lrTerm (-g) a b = (starRingEnd ℂ) (c.lrTerm g a b) := by
  unfold PhCrystal.lrTerm
  rw [geg_neg]
  simp only [gZ_neg, arg_neg, Real.cos_neg, Real.sin_neg]
  split_ifs
  · simp only [map_mul, map_add, Complex.conj_ofReal, Complex.conj_I, Complex.ofReal_mul,
      Complex.ofReal_neg]
    ring
  · simp

theorem lrTerm_swap (c : PhCrystal A) (g : Vec3) (a b : Fin A × Fin 3) :
    c.lrTerm g b a = (starRingEnd ℂ) (c.lrTerm g a b) := by
  simp only [PhCrystal.lrTerm]
  rw [arg_swap c b.1 a.1]
  simp only [Real.cos_neg, Real.sin_neg]
  split_ifs
  · simp only [map_mul, map_add, Complex.conj_ofReal, Complex.conj_I, Complex.ofReal_mul,
      Complex.ofReal_neg]
    ring
  · simp

theorem longRange_neg (c : PhCrystal A) (q : Vec3) (a b : Fin A × Fin 3) :
    c.longRange n1 n2 n3 (-q) a b = (starRingEnd ℂ) (c.longRange n1 n2 n3 q a b) := by
  rw [longRange_apply, longRange_apply, map_add, conj_list_sum, List.map_map, gVectors_neg]
  congr 1
  · split_ifs <;> simp
  · refine congrArg _ (List.map_congr_left fun g _ => ?_)
    simp only [Function.comp_apply]
    rw [← lrTerm_neg]
    congr 1
    abel

theorem dynMatrix_neg [NeZero n1] [NeZero n2] [NeZero n3] (c : PhCrystal A)
    (f : FcVec A n1 n2 n3) (q : Vec3) :
    dynMatrix c f (-q) = (dynMatrix c f q).map (starRingEnd ℂ) := by
  ext a b
  simp only [dynMatrix, Matrix.add_apply, Matrix.map_apply, map_add, shortRange_neg]
  congr 1
  split_ifs
  · exact longRange_neg c q a b
  · simp

theorem conj_half : (starRingEnd ℂ) (0.5 : ℂ) = 0.5 := by
  have : (0.5 : ℂ) = ((0.5 : ℝ) : ℂ) := by norm_num
  rw [this, Complex.conj_ofReal]

theorem massScaled_hermitian (c : PhCrystal A) (d : DynM A) :
    (massScaled c d).IsHermitian := by
  ext a b
  simp only [Matrix.conjTranspose_apply, massScaled, Matrix.add_apply, star_div₀, star_mul',
    star_add, Complex.star_def, Complex.conj_ofReal, Complex.conj_conj]
  rw [mul_comm (c.mass b.1), add_comm]
  congr 2
  exact conj_half

theorem massScaled_conj (c : PhCrystal A) (d : DynM A) :
    massScaled c (d.map (starRingEnd ℂ)) = (massScaled c d).map (starRingEnd ℂ) := by
  ext a b
  simp only [massScaled, Matrix.add_apply, Matrix.map_apply, Matrix.conjTranspose_apply, map_div₀,
    map_mul, map_add, Complex.conj_ofReal, Complex.star_def, Complex.conj_conj, conj_half]

/-! ### Eigenvalues -/

theorem decomposition_charpoly {N : Type} [Fintype N] [DecidableEq N] {k : Nat}
    (hk : Fintype.card N = k) {d : Matrix N N ℂ} {e : Fin k → ℝ} {u : Matrix N (Fin k) ℂ}
    (h : IsEigenDecomposition d e u) :
    d.charpoly = ∏ b, (Polynomial.X - Polynomial.C (e b : ℂ)) := by
  have hd : d = (u * Matrix.diagonal fun b => (e b : ℂ)) * u.conjTranspose := by
    rw [← h.eigen, Matrix.mul_assoc, h.right, Matrix.mul_one]
  have h1 := Matrix.charpoly_mul_comm' (u * Matrix.diagonal fun b => (e b : ℂ)) u.conjTranspose
  rw [← hd, ← Matrix.mul_assoc, h.left, Matrix.one_mul, hk, Fintype.card_fin] at h1
  have h2 := mul_left_cancel₀ (pow_ne_zero k Polynomial.X_ne_zero) h1
  rw [h2, Matrix.charpoly_diagonal]

theorem sorted_unique {k : Nat} {e e' : Fin k → ℝ} (he : Monotone e) (he' : Monotone e')
    (h : (Finset.univ.val.map fun b => (e b : ℂ)) = Finset.univ.val.map fun b => (e' b : ℂ)) :
    e = e' := by
  have h1 : Finset.univ.val.map e = Finset.univ.val.map e' := by
    have := congrArg (Multiset.map Complex.re) h
    simpa [Multiset.map_map, Function.comp_def] using this
  have h2 : (List.ofFn e).Perm (List.ofFn e') := by
    rw [← Multiset.coe_eq_coe, List.ofFn_eq_map, List.ofFn_eq_map]
    exact h1
  have h3 : List.ofFn e = List.ofFn e' :=
    h2.eq_of_pairwise (fun a b _ _ h1 h2 => le_antisymm h1 h2)
      (List.sortedLE_ofFn_iff.mpr he).pairwise (List.sortedLE_ofFn_iff.mpr he').pairwise
  exact List.ofFn_injective h3

theorem eigenvalues_unique {N : Type} [Fintype N] [DecidableEq N] {k : Nat}
    (hk : Fintype.card N = k) {d d' : Matrix N N ℂ} {e e' : Fin k → ℝ} {u u' : Matrix N (Fin k) ℂ}
    (h : IsEigenDecomposition d e u) (h' : IsEigenDecomposition d' e' u')
    (hd : d.charpoly = d'.charpoly) : e = e' := by
  rw [decomposition_charpoly hk h, decomposition_charpoly hk h'] at hd
  refine sorted_unique h.sorted h'.sorted ?_
  have h3 : ∀ e : Fin k → ℝ, (∏ b, (Polynomial.X - Polynomial.C (e b : ℂ))) =
      ((Finset.univ.val.map fun b => (e b : ℂ)).map fun a => Polynomial.X - Polynomial.C a).prod := by
    intro e
    rw [Multiset.map_map]
    rfl
  rw [h3, h3] at hd
  have := congrArg Polynomial.roots hd
  rwa [Polynomial.roots_multiset_prod_X_sub_C, Polynomial.roots_multiset_prod_X_sub_C] at this

end Verif.Model
