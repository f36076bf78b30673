import Verif.Proofs.BlochWannier2
import Verif.Spec.ElPhCoupling
import Verif.Props.ElWannier

/-! Lemmas on the transform from Bloch states to Wannier functions and back. -/
namespace Verif.Props
open Verif.Model Verif.Spec
open scoped Matrix

variable {E P M W B R : Nat}

/-- Wigner-Seitz weights: the inverse degeneracies of the lattice vectors that fall in each cell of the supercell add up
to one. -/
def CellWeights (n : Fin 3 → Nat) (m : Fin R → Fin 3 → ℤ) (degeneracy : Fin R → ℝ) : Prop :=
  ∀ p : KGrid n, ∑ r with ∀ i, (n i : ℤ) ∣ m r i - (p i : ℕ), 1 / degeneracy r = 1

theorem fourier_inversion (d b : Mat3) (hdb : DualCells d b) (n : Fin 3 → Nat) (hn : ∀ i, 0 < n i)
    (m : Fin R → Fin 3 → ℤ) (v : Fin R → Vec3) (hm : ∀ r, v r = matVec d fun i => (m r i : ℝ))
    (degeneracy : Fin R → ℝ) (hweights : CellWeights n m degeneracy) (q q' : KGrid n) :
    ∑ r, Complex.exp (Complex.I * (vdot (gridPoint b q) (v r) : ℂ)) / (degeneracy r : ℂ) *
      (Complex.exp (-Complex.I * (vdot (gridPoint b q') (v r) : ℂ)) / ((∏ i, n i : ℕ) : ℂ)) = if q' = q then 1 else 0 := by
  have hN : ((∏ i, n i : ℕ) : ℂ) ≠ 0 := by
    have : (∏ i, n i : ℕ) ≠ 0 := Finset.prod_ne_zero_iff.mpr fun i _ => (hn i).ne'
    exact_mod_cast this
  have hdot : ∀ (q : KGrid n) r, vdot (gridPoint b q) (v r) =
      2 * Real.pi * ∑ i, ((q i : ℕ) : ℝ) / n i * (m r i : ℝ) := by
    intro q r
    have := dual_dot hdb (fun i => ((q i : ℕ) : ℝ) / n i) (fun i => (m r i : ℝ))
    rw [← this, hm]
    rfl
  have key : ∀ r, Complex.exp (Complex.I * (vdot (gridPoint b q) (v r) : ℂ)) / (degeneracy r : ℂ) *
      (Complex.exp (-Complex.I * (vdot (gridPoint b q') (v r) : ℂ)) / ((∏ i, n i : ℕ) : ℂ)) =
      (((1 / degeneracy r : ℝ) : ℂ) * cis (2 * Real.pi * ∑ i, (((q i : ℕ) : ℝ) - ((q' i : ℕ) : ℝ)) / n i * (m r i : ℝ))) *
        (1 / ((∏ i, n i : ℕ) : ℂ)) := by
    intro r
    rw [hdot, hdot]
    have hc : cis (2 * Real.pi * ∑ i, (((q i : ℕ) : ℝ) - ((q' i : ℕ) : ℝ)) / n i * (m r i : ℝ)) =
        Complex.exp (-Complex.I * ((2 * Real.pi * ∑ i, ((q' i : ℕ) : ℝ) / n i * (m r i : ℝ) : ℝ) : ℂ)) *
        Complex.exp (Complex.I * ((2 * Real.pi * ∑ i, ((q i : ℕ) : ℝ) / n i * (m r i : ℝ) : ℝ) : ℂ)) := by
      rw [← Complex.exp_add]
      unfold cis
      congr 1
      simp only [sub_div, sub_mul, Finset.sum_sub_distrib]
      push_cast
      ring
    rw [hc]
    push_cast
    ring
  simp only [key]
  rw [← Finset.sum_mul, grid_class_sum n hn m (fun r => 1 / degeneracy r) hweights q q']
  by_cases h : q = q'
  · rw [if_pos h, if_pos h.symm]; field_simp
  · rw [if_neg h, if_neg (Ne.symm h), zero_mul]

theorem eachOnce_sum {α : Type} [Fintype α] (l : List α) (hl : EachOnce l) (f : α → ℂ) : (l.map f).sum = ∑ x, f x :=
  sum_of_nodup_support l hl.1 f fun x hx => absurd (hl.2 x) hx

theorem eachOnce_length {α : Type} [Fintype α] (l : List α) (hl : EachOnce l) : l.length = Fintype.card α := by
  classical
  rw [← List.toFinset_card_of_nodup hl.1]
  congr 1
  ext x
  simp [hl.2 x]

theorem card_grid (n : Fin 3 → Nat) : Fintype.card (KGrid n) = ∏ i, n i := by
  simp [KGrid]

/-- From the Wannier gauge to any states and any displacement. -/
theorem gauge_states (uKq uK : Fin B → Fin W → ℂ) (inv : Matrix (Fin M) (Fin M) ℂ) (g : Fin B → Fin B → Fin M → ℂ)
    (v1 v2 : Fin W → ℂ) (e3 : Fin M → ℂ) :
    ∑ mu, ∑ iw1, ∑ iw2, (∑ nu', wannierGauge uKq uK g iw2 iw1 nu' * inv nu' mu) * (starRingEnd ℂ) (v2 iw2) * e3 mu * v1 iw1 =
      ∑ l, ∑ m, ∑ nu, (starRingEnd ℂ) (stateOf uKq v2 l) * g l m nu * stateOf uK v1 m * (inv *ᵥ e3) nu := by
  have e1 : ∀ mu iw1 iw2, (∑ nu', wannierGauge uKq uK g iw2 iw1 nu' * inv nu' mu) * (starRingEnd ℂ) (v2 iw2) * e3 mu * v1 iw1 =
      ∑ l, ∑ m, ∑ nu, (uKq l iw2 * (starRingEnd ℂ) (v2 iw2)) * g l m nu * ((starRingEnd ℂ) (uK m iw1) * v1 iw1) *
        (inv nu mu * e3 mu) := by
    intro mu iw1 iw2
    unfold wannierGauge
    simp only [Finset.sum_mul]
    rw [Finset.sum_comm]
    refine Finset.sum_congr rfl fun l _ => ?_
    rw [Finset.sum_comm]
    refine Finset.sum_congr rfl fun m _ => Finset.sum_congr rfl fun nu _ => ?_
    ring
  have e2 : ∀ l m nu, (starRingEnd ℂ) (stateOf uKq v2 l) * g l m nu * stateOf uK v1 m * (inv *ᵥ e3) nu =
      ∑ mu, ∑ iw1, ∑ iw2, (uKq l iw2 * (starRingEnd ℂ) (v2 iw2)) * g l m nu * ((starRingEnd ℂ) (uK m iw1) * v1 iw1) *
        (inv nu mu * e3 mu) := by
    intro l m nu
    have s2 : (starRingEnd ℂ) (stateOf uKq v2 l) = ∑ iw2, uKq l iw2 * (starRingEnd ℂ) (v2 iw2) := by
      unfold stateOf
      rw [map_sum]
      refine Finset.sum_congr rfl fun w _ => ?_
      rw [map_mul, Complex.conj_conj]
    rw [s2, stateOf, Matrix.mulVec, dotProduct, Finset.mul_sum]
    refine Finset.sum_congr rfl fun mu _ => ?_
    rw [Finset.mul_sum, Finset.sum_mul]
    refine Finset.sum_congr rfl fun iw1 _ => ?_
    simp only [Finset.sum_mul]
  simp only [e1, e2]
  have c3 : ∀ F : Fin M → Fin W → Fin W → Fin B → Fin B → Fin M → ℂ,
      ∑ mu, ∑ iw1, ∑ iw2, ∑ l, ∑ m, ∑ nu, F mu iw1 iw2 l m nu = ∑ l, ∑ m, ∑ nu, ∑ mu, ∑ iw1, ∑ iw2, F mu iw1 iw2 l m nu := by
    intro F
    simp only [← Fintype.sum_prod_type']
    rw [← Equiv.sum_comp (Equiv.mk (fun x : Fin M × Fin W × Fin W × Fin B × Fin B × Fin M =>
      ((x.2.2.2.1, x.2.2.2.2.1, x.2.2.2.2.2, x.1, x.2.1, x.2.2.1) : Fin B × Fin B × Fin M × Fin M × Fin W × Fin W))
      (fun y => (y.2.2.2.1, y.2.2.2.2.1, y.2.2.2.2.2, y.1, y.2.1, y.2.2.1)) (fun _ => rfl) (fun _ => rfl))]
    rfl
  exact c3 _

/-- Interpolating the matrix elements in real space at the wavevectors of the coarse meshes. -/
theorem roundTripStates (d b : Mat3) (hdb : DualCells d b) (nk nq : Fin 3 → Nat) (hnk : ∀ i, 0 < nk i) (hnq : ∀ i, 0 < nq i)
    (c : CoarseData (KGrid nk) (KGrid nq) E P M W B) (hks : EachOnce c.ks) (hqs : EachOnce c.qs)
    (hkc : ∀ k, c.kCart k = gridPoint b k) (hqc : ∀ q, c.qCart q = gridPoint b q)
    (mE : Fin E → Fin 3 → ℤ) (hmE : ∀ r, c.elVectors r = matVec d fun i => (mE r i : ℝ))
    (mP : Fin P → Fin 3 → ℤ) (hmP : ∀ r, c.phVectors r = matVec d fun i => (mP r i : ℝ))
    (dE : Fin E → ℝ) (hdE : CellWeights nk mE dE) (dP : Fin P → ℝ) (hdP : CellWeights nq mP dP)
    (k : KGrid nk) (q : KGrid nq) (v1 v2 : Fin W → ℂ) (e3 : Fin M → ℂ) :
    elphShortRange (coarseElPhData c dE dP (wannierCoupling c)) (c.kCart k) (c.qCart q) v1 v2 e3 =
      ∑ l, ∑ m, ∑ nu, (starRingEnd ℂ) (stateOf (c.u (c.kPlusQ k q)) v2 l) * c.g l m nu k q * stateOf (c.u k) v1 m *
        ((c.phEig q)⁻¹ *ᵥ e3) nu := by
  have hfE : ∀ k', ∑ r, Complex.exp (Complex.I * (vdot (c.kCart k) (c.elVectors r) : ℂ)) / (dE r : ℂ) *
      (Complex.exp (-Complex.I * (vdot (c.kCart k') (c.elVectors r) : ℂ)) / (c.ks.length : ℂ)) = if k' = k then 1 else 0 := by
    intro k'
    rw [hkc, hkc, eachOnce_length c.ks hks, card_grid]
    exact fourier_inversion d b hdb nk hnk mE c.elVectors hmE dE hdE k k'
  have hfP : ∀ q', ∑ r, Complex.exp (Complex.I * (vdot (c.qCart q) (c.phVectors r) : ℂ)) / (dP r : ℂ) *
      (Complex.exp (-Complex.I * (vdot (c.qCart q') (c.phVectors r) : ℂ)) / (c.qs.length : ℂ)) = if q' = q then 1 else 0 := by
    intro q'
    rw [hqc, hqc, eachOnce_length c.qs hqs, card_grid]
    exact fourier_inversion d b hdb nq hnq mP c.phVectors hmP dP hdP q q'
  set H : KGrid nk → KGrid nq → ℂ := fun k' q' => ∑ mu, ∑ iw1, ∑ iw2,
    (∑ nu', wannierGauge (c.u (c.kPlusQ k' q')) (c.u k') (fun l m nu => c.g l m nu k' q') iw2 iw1 nu' * (c.phEig q')⁻¹ nu' mu) *
      (starRingEnd ℂ) (v2 iw2) * e3 mu * v1 iw1 with hH
  have hback : H k q = ∑ l, ∑ m, ∑ nu, (starRingEnd ℂ) (stateOf (c.u (c.kPlusQ k q)) v2 l) * c.g l m nu k q *
      stateOf (c.u k) v1 m * ((c.phEig q)⁻¹ *ᵥ e3) nu :=
    gauge_states _ _ _ (fun l m nu => c.g l m nu k q) v1 v2 e3
  rw [← hback]
  have expand : ∀ irE irP, ∑ mu, ∑ iw1, ∑ iw2,
      Complex.exp (Complex.I * (vdot (c.kCart k) (c.elVectors irE) : ℂ)) / (dE irE : ℂ) *
      (Complex.exp (Complex.I * (vdot (c.qCart q) (c.phVectors irP) : ℂ)) / (dP irP : ℂ)) *
      wannierCoupling c iw2 iw1 mu irP irE * (starRingEnd ℂ) (v2 iw2) * e3 mu * v1 iw1 =
      ∑ q', ∑ k', (Complex.exp (Complex.I * (vdot (c.kCart k) (c.elVectors irE) : ℂ)) / (dE irE : ℂ) *
        (Complex.exp (-Complex.I * (vdot (c.kCart k') (c.elVectors irE) : ℂ)) / (c.ks.length : ℂ))) *
        ((Complex.exp (Complex.I * (vdot (c.qCart q) (c.phVectors irP) : ℂ)) / (dP irP : ℂ) *
        (Complex.exp (-Complex.I * (vdot (c.qCart q') (c.phVectors irP) : ℂ)) / (c.qs.length : ℂ))) * H k' q') := by
    intro irE irP
    have hin : ∀ mu iw1 iw2, Complex.exp (Complex.I * (vdot (c.kCart k) (c.elVectors irE) : ℂ)) / (dE irE : ℂ) *
      (Complex.exp (Complex.I * (vdot (c.qCart q) (c.phVectors irP) : ℂ)) / (dP irP : ℂ)) *
      wannierCoupling c iw2 iw1 mu irP irE * (starRingEnd ℂ) (v2 iw2) * e3 mu * v1 iw1 =
      ∑ q', ∑ k', (Complex.exp (Complex.I * (vdot (c.kCart k) (c.elVectors irE) : ℂ)) / (dE irE : ℂ) *
        (Complex.exp (-Complex.I * (vdot (c.kCart k') (c.elVectors irE) : ℂ)) / (c.ks.length : ℂ))) *
        ((Complex.exp (Complex.I * (vdot (c.qCart q) (c.phVectors irP) : ℂ)) / (dP irP : ℂ) *
        (Complex.exp (-Complex.I * (vdot (c.qCart q') (c.phVectors irP) : ℂ)) / (c.qs.length : ℂ))) *
        ((∑ nu', wannierGauge (c.u (c.kPlusQ k' q')) (c.u k') (fun l m nu => c.g l m nu k' q') iw2 iw1 nu' * (c.phEig q')⁻¹ nu' mu) *
      (starRingEnd ℂ) (v2 iw2) * e3 mu * v1 iw1)) := by
      intro mu iw1 iw2
      unfold wannierCoupling
      simp only [eachOnce_sum c.qs hqs, eachOnce_sum c.ks hks]
      rw [Finset.mul_sum, Finset.sum_mul, Finset.sum_mul, Finset.sum_mul]
      refine Finset.sum_congr rfl fun q' _ => ?_
      rw [Finset.mul_sum, Finset.sum_mul, Finset.sum_mul, Finset.sum_mul]
      refine Finset.sum_congr rfl fun k' _ => ?_
      ring
    simp only [hin]
    simp only [hH, Finset.mul_sum]
    have swap5 : ∀ F : Fin M → Fin W → Fin W → KGrid nq → KGrid nk → ℂ,
        ∑ mu, ∑ iw1, ∑ iw2, ∑ q', ∑ k', F mu iw1 iw2 q' k' = ∑ q', ∑ k', ∑ mu, ∑ iw1, ∑ iw2, F mu iw1 iw2 q' k' := by
      intro F
      have s1 : ∀ mu iw1, ∑ iw2, ∑ q', ∑ k', F mu iw1 iw2 q' k' = ∑ q', ∑ k', ∑ iw2, F mu iw1 iw2 q' k' := by
        intro mu iw1
        rw [Finset.sum_comm]
        exact Finset.sum_congr rfl fun q' _ => Finset.sum_comm
      have s2 : ∀ mu, ∑ iw1, ∑ q', ∑ k', ∑ iw2, F mu iw1 iw2 q' k' = ∑ q', ∑ k', ∑ iw1, ∑ iw2, F mu iw1 iw2 q' k' := by
        intro mu
        rw [Finset.sum_comm]
        exact Finset.sum_congr rfl fun q' _ => Finset.sum_comm
      simp only [s1, s2]
      rw [Finset.sum_comm]
      exact Finset.sum_congr rfl fun q' _ => Finset.sum_comm
    exact swap5 _
  unfold elphShortRange
  refine Eq.trans (Finset.sum_congr rfl fun irE _ => Finset.sum_congr rfl fun irP _ => expand irE irP) ?_
  have swap4 : ∀ (a : Fin E → KGrid nk → ℂ) (p : Fin P → KGrid nq → ℂ),
      ∑ irE, ∑ irP, ∑ q', ∑ k', a irE k' * (p irP q' * H k' q') = ∑ q', ∑ k', (∑ irE, a irE k') * ((∑ irP, p irP q') * H k' q') := by
    intro a p
    have t1 : ∀ irE, ∑ irP, ∑ q', ∑ k', a irE k' * (p irP q' * H k' q') =
        ∑ q', ∑ k', a irE k' * ((∑ irP, p irP q') * H k' q') := by
      intro irE
      rw [Finset.sum_comm]
      refine Finset.sum_congr rfl fun q' _ => ?_
      rw [Finset.sum_comm]
      refine Finset.sum_congr rfl fun k' _ => ?_
      rw [Finset.sum_mul, Finset.mul_sum]
    simp only [t1]
    rw [Finset.sum_comm]
    refine Finset.sum_congr rfl fun q' _ => ?_
    rw [Finset.sum_comm]
    refine Finset.sum_congr rfl fun k' _ => ?_
    exact (Finset.sum_mul _ _ _).symm
  refine Eq.trans (swap4 (fun irE k' => Complex.exp (Complex.I * (vdot (c.kCart k) (c.elVectors irE) : ℂ)) / (dE irE : ℂ) *
        (Complex.exp (-Complex.I * (vdot (c.kCart k') (c.elVectors irE) : ℂ)) / (c.ks.length : ℂ)))
      (fun irP q' => Complex.exp (Complex.I * (vdot (c.qCart q) (c.phVectors irP) : ℂ)) / (dP irP : ℂ) *
        (Complex.exp (-Complex.I * (vdot (c.qCart q') (c.phVectors irP) : ℂ)) / (c.qs.length : ℂ)))) ?_
  simp only [hfE, hfP]
  simp

/-- The states of the first-principles code come back. -/
theorem roundTrip (d b : Mat3) (hdb : DualCells d b) (nk nq : Fin 3 → Nat) (hnk : ∀ i, 0 < nk i) (hnq : ∀ i, 0 < nq i)
    (c : CoarseData (KGrid nk) (KGrid nq) E P M W B) (hks : EachOnce c.ks) (hqs : EachOnce c.qs)
    (hkc : ∀ k, c.kCart k = gridPoint b k) (hqc : ∀ q, c.qCart q = gridPoint b q)
    (mE : Fin E → Fin 3 → ℤ) (hmE : ∀ r, c.elVectors r = matVec d fun i => (mE r i : ℝ))
    (mP : Fin P → Fin 3 → ℤ) (hmP : ∀ r, c.phVectors r = matVec d fun i => (mP r i : ℝ))
    (dE : Fin E → ℝ) (hdE : CellWeights nk mE dE) (dP : Fin P → ℝ) (hdP : CellWeights nq mP dP)
    (hu : ∀ k l l', ∑ w, c.u k l w * (starRingEnd ℂ) (c.u k l' w) = if l = l' then 1 else 0)
    (he : ∀ q, IsUnit (c.phEig q).det) (k : KGrid nk) (q : KGrid nq) (b1 b2 : Fin B) (nu : Fin M) :
    elphShortRange (coarseElPhData c dE dP (wannierCoupling c)) (c.kCart k) (c.qCart q)
      (fun w => c.u k b1 w) (fun w => c.u (c.kPlusQ k q) b2 w) (fun mu => c.phEig q mu nu) = c.g b2 b1 nu k q := by
  rw [roundTripStates d b hdb nk nq hnk hnq c hks hqs hkc hqc mE hmE mP hmP dE hdE dP hdP k q]
  have s1 : ∀ m, stateOf (c.u k) (fun w => c.u k b1 w) m = if b1 = m then 1 else 0 := by
    intro m
    rw [← hu k b1 m]
    exact Finset.sum_congr rfl fun w _ => mul_comm _ _
  have s2 : ∀ l, stateOf (c.u (c.kPlusQ k q)) (fun w => c.u (c.kPlusQ k q) b2 w) l = if b2 = l then 1 else 0 := by
    intro l
    rw [← hu _ b2 l]
    exact Finset.sum_congr rfl fun w _ => mul_comm _ _
  have s3 : ∀ nu', ((c.phEig q)⁻¹ *ᵥ fun mu => c.phEig q mu nu) nu' = if nu' = nu then 1 else 0 := by
    intro nu'
    rw [← Matrix.one_apply, ← Matrix.nonsing_inv_mul _ (he q)]
    rfl
  simp [s1, s2, s3]

end Verif.Props
