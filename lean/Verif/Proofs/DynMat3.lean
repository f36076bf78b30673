import Verif.Proofs.WsWeights
import Mathlib.LinearAlgebra.Matrix.Trace
import Mathlib.Topology.Algebra.Order.Field
import Mathlib.Topology.Algebra.Monoid
import Mathlib.Analysis.SpecialFunctions.ExpDeriv
import Mathlib.Analysis.SpecialFunctions.Trigonometric.Deriv

namespace Verif.Model

open Verif.Spec

variable {A n1 n2 n3 : Nat}

/-! ### Rectangular supercells are compact -/

theorem dist2_diag (l t : Fin 3 → ℝ) (n : Fin 3 → ℤ) :
    dist2 (fun k i => if k = i then l k else 0) t n =
      (n 0 * l 0 + t 0) ^ 2 + (n 1 * l 1 + t 1) ^ 2 + (n 2 * l 2 + t 2) ^ 2 := by
  simp [dist2, image, Fin.sum_univ_three]

theorem rect_axis (l t : Fin 3 → ℝ) (size : Fin 3 → ℕ) (n : Fin 3 → ℤ)
    (h : NearImage (fun k i => if k = i then l k else 0) t size n) (k : Fin 3) :
    |n k * l k + t k| * |size k * l k| * 2 ≤ (size k * l k) ^ 2 + 2.0e-5 := by
  have key : ∀ s : ℤ, |s| ≤ 2 → (n k * l k + t k) ^ 2 ≤
      ((n k - size k * s : ℤ) * l k + t k) ^ 2 + 2.0e-5 := by
    intro s hs
    have := h (fun i => if i = k then s else 0) (by intro i; split_ifs <;> simp [hs])
    rw [dist2_diag, dist2_diag] at this
    fin_cases k <;> simp at this ⊢ <;> linarith
  have h1 := key 1 (by norm_num)
  have h2 := key (-1) (by norm_num)
  push_cast at h1 h2
  rw [← abs_mul]
  rcases abs_choice ((n k * l k + t k) * (size k * l k)) with h3 | h3 <;> rw [h3] <;> nlinarith

theorem rect_compact (l t : Fin 3 → ℝ) (size : Fin 3 → ℕ)
    (hl : ∀ k, 1.0e-5 < (size k * l k) ^ 2) :
    CompactCell (fun k i => if k = i then l k else 0) t size := by
  constructor
  · intro n n' g hg h h' k
    have h1 := rect_axis l t size n h k
    have h2 := rect_axis l t size n' h' k
    have h3 : (n k * l k + t k) - (n' k * l k + t k) = g k * (size k * l k) := by
      have : (n k : ℝ) - n' k = size k * g k := by exact_mod_cast hg k
      linear_combination l k * this
    obtain ⟨w, hw⟩ : ∃ w, w = (size k : ℝ) * l k := ⟨_, rfl⟩
    rw [← hw] at h1 h2 h3
    have hl' := hl k
    rw [← hw] at hl'
    have hw0 : 0 ≤ |w| := abs_nonneg _
    have hw2 : |w| * |w| = w ^ 2 := by rw [← sq, sq_abs]
    have h4 : |(g k : ℝ)| * |w| ≤ |n k * l k + t k| + |n' k * l k + t k| := by
      rw [← abs_mul, ← h3]
      exact abs_sub _ _
    have h5 : |(g k : ℝ)| * w ^ 2 * 2 ≤ 2 * (w ^ 2 + 2.0e-5) := by
      rw [← hw2]
      nlinarith [mul_le_mul_of_nonneg_right h4 hw0]
    have h6 : |(g k : ℝ)| < 3 := by
      by_contra hge
      push Not at hge
      norm_num at h5 hl'
      nlinarith
    have h7 : |g k| < 3 := by exact_mod_cast h6
    omega
  · intro g hg
    obtain ⟨k, hk⟩ : ∃ k, g k ≠ 0 := by
      by_contra hn
      push Not at hn
      exact hg (funext hn)
    rw [dist2_diag]
    have h1 : (1 : ℝ) ≤ (g k : ℝ) ^ 2 := by
      have : 1 ≤ (g k) ^ 2 := by
        have := Int.one_le_abs hk
        nlinarith [abs_mul_abs_self (g k)]
      exact_mod_cast this
    have h2 : (1.0e-6 : ℝ) < ((size k * g k : ℤ) * l k + 0) ^ 2 := by
      have hl' := hl k
      have : ((size k * g k : ℤ) * l k + 0 : ℝ) ^ 2 = (g k : ℝ) ^ 2 * (size k * l k) ^ 2 := by
        push_cast; ring
      rw [this]
      norm_num at hl' ⊢
      nlinarith
    have p0 := sq_nonneg ((size 0 * g 0 : ℤ) * l 0 + 0 : ℝ)
    have p1 := sq_nonneg ((size 1 * g 1 : ℤ) * l 1 + 0 : ℝ)
    have p2 := sq_nonneg ((size 2 * g 2 : ℤ) * l 2 + 0 : ℝ)
    simp only [Pi.zero_apply]
    fin_cases k <;> simp only [Fin.zero_eta, Fin.mk_one, Fin.reduceFinMk, Fin.isValue] at h2 <;> linarith

/-! ### Interpolation -/

theorem phaseOf_class (q : Vec3) (d : Mat3) (n1 n2 n3 : Nat) [NeZero n1] [NeZero n2] [NeZero n3]
    (z : Fin 3 → ℤ) (h0 : n1 * vdot q (fun i => d i 0) = 2 * Real.pi * z 0)
    (h1 : n2 * vdot q (fun i => d i 1) = 2 * Real.pi * z 1)
    (h2 : n3 * vdot q (fun i => d i 2) = 2 * Real.pi * z 2) (n : V3 Int) :
    phaseOf q (latVec d n) = phaseOf q (latVec d
      ⟨(foldFin n1 n.x : Nat), (foldFin n2 n.y : Nat), (foldFin n3 n.z : Nat)⟩) := by
  have key : ∀ (k : Nat) [NeZero k] (x : Int), ∃ g : Int, x = ((foldFin k x : Nat) : Int) + k * g := by
    intro k _ x
    refine ⟨x / k, ?_⟩
    have : ((foldFin k x : Nat) : Int) = x % k := by
      rw [← foldCell_eq]
      have := foldCell_range k x
      simp only [foldFin]
      omega
    rw [this]
    exact (Int.emod_add_mul_ediv x k).symm
  obtain ⟨gx, hx⟩ := key n1 n.x
  obtain ⟨gy, hy⟩ := key n2 n.y
  obtain ⟨gz, hz⟩ := key n3 n.z
  have hx' : (n.x : ℝ) = ((foldFin n1 n.x : Nat) : ℝ) + n1 * gx := by exact_mod_cast congrArg (Int.cast (R := ℝ)) hx
  have hy' : (n.y : ℝ) = ((foldFin n2 n.y : Nat) : ℝ) + n2 * gy := by exact_mod_cast congrArg (Int.cast (R := ℝ)) hy
  have hz' : (n.z : ℝ) = ((foldFin n3 n.z : Nat) : ℝ) + n3 * gz := by exact_mod_cast congrArg (Int.cast (R := ℝ)) hz
  have e : vdot q (latVec d n) = vdot q (latVec d
      ⟨(foldFin n1 n.x : Nat), (foldFin n2 n.y : Nat), (foldFin n3 n.z : Nat)⟩) +
      ((gx * z 0 + gy * z 1 + gz * z 2 : Int) : ℝ) * (2 * Real.pi) := by
    simp only [vdot, latVec] at h0 h1 h2 ⊢
    push_cast
    linear_combination (gx : ℝ) * h0 + (gy : ℝ) * h1 + (gz : ℝ) * h2 +
      (q 0 * d 0 0 + q 1 * d 1 0 + q 2 * d 2 0) * hx' +
      (q 0 * d 0 1 + q 1 * d 1 1 + q 2 * d 2 1) * hy' +
      (q 0 * d 0 2 + q 1 * d 1 2 + q 2 * d 2 2) * hz'
  simp only [phaseOf]
  rw [e]
  have := Complex.exp_int_mul_two_pi_mul_I (-(gx * z 0 + gy * z 1 + gz * z 2))
  have e2 : ∀ x : ℝ, -Complex.I * ((x + ((gx * z 0 + gy * z 1 + gz * z 2 : Int) : ℝ) *
      (2 * Real.pi) : ℝ) : ℂ) = -Complex.I * (x : ℝ) +
      ((-(gx * z 0 + gy * z 1 + gz * z 2) : Int) : ℂ) * (2 * Real.pi * Complex.I) := by
    intro x
    push_cast; ring
  rw [e2, Complex.exp_add, this, mul_one]

theorem shortRange_commensurate [NeZero n1] [NeZero n2] [NeZero n3] (c : PhCrystal A)
    (hp : Partition c n1 n2 n3) (f : FcVec A n1 n2 n3) (q : Vec3) (z : Fin 3 → ℤ)
    (h0 : n1 * vdot q (fun i => c.cell i 0) = 2 * Real.pi * z 0)
    (h1 : n2 * vdot q (fun i => c.cell i 1) = 2 * Real.pi * z 1)
    (h2 : n3 * vdot q (fun i => c.cell i 2) = 2 * Real.pi * z 2) (a b : Fin A × Fin 3) :
    shortRange (reorder c f) q a b = ∑ m1 : Fin n1, ∑ m2 : Fin n2, ∑ m3 : Fin n3,
      (f (m1, m2, m3, a.2, b.2, a.1, b.1) : ℂ) *
        phaseOf q (latVec c.cell ⟨(m1 : Nat), (m2 : Nat), (m3 : Nat)⟩) := by
  rw [shortRange_reorder, ← partition_sum c hp a.1 b.1 fun m1 m2 m3 =>
    (f (m1, m2, m3, a.2, b.2, a.1, b.1) : ℂ) *
      phaseOf q (latVec c.cell ⟨(m1 : Nat), (m2 : Nat), (m3 : Nat)⟩)]
  refine congrArg _ (List.map_congr_left fun n _ => ?_)
  rw [phaseOf_class q c.cell n1 n2 n3 z h0 h1 h2]

/-! ### Acoustic modes -/

/-- The rigid displacement along `j`, scaled with the masses. -/
noncomputable def rigid (c : PhCrystal A) (j : Fin 3) : Fin A × Fin 3 → ℂ :=
  fun a => if a.2 = j then (Real.sqrt (c.mass a.1) : ℂ) else 0

theorem rigid_independent (c : PhCrystal A) (hm : ∀ na, 0 < c.mass na) (na : Fin A) :
    LinearIndependent ℂ (rigid c) := by
  rw [Fintype.linearIndependent_iff]
  intro g hg j
  have h := congrFun hg (na, j)
  simp only [Finset.sum_apply, Pi.smul_apply, rigid, smul_eq_mul, mul_ite, mul_zero, Pi.zero_apply] at h
  rw [Finset.sum_ite_eq Finset.univ j, if_pos (Finset.mem_univ _)] at h
  have : (Real.sqrt (c.mass na) : ℂ) ≠ 0 := by
    exact_mod_cast (Real.sqrt_pos.mpr (hm na)).ne'
  exact (mul_eq_zero.mp h).resolve_right this

theorem massScaled_rigid (c : PhCrystal A) (hm : ∀ na, 0 < c.mass na) (d : DynM A)
    (h : ∀ i j na, (∑ nb, d (na, i) (nb, j)) + (starRingEnd ℂ) (∑ nb, d (nb, j) (na, i)) = 0)
    (j : Fin 3) : (massScaled c d).mulVec (rigid c j) = 0 := by
  funext a
  have key : ∀ nb k, massScaled c d a (nb, k) * rigid c j (nb, k) =
      if k = j then 0.5 * (d a (nb, j) + (starRingEnd ℂ) (d (nb, j) a)) / (Real.sqrt (c.mass a.1) : ℂ)
      else 0 := by
    intro nb k
    simp only [rigid, massScaled]
    by_cases hk : k = j
    · subst hk
      have hs : (Real.sqrt (c.mass nb) : ℂ) ≠ 0 := by
        exact_mod_cast (Real.sqrt_pos.mpr (hm nb)).ne'
      have hs' : (Real.sqrt (c.mass a.1) : ℂ) ≠ 0 := by
        exact_mod_cast (Real.sqrt_pos.mpr (hm a.1)).ne'
      simp only [if_true, Matrix.add_apply, Matrix.conjTranspose_apply, Complex.star_def]
      rw [Real.sqrt_mul (hm a.1).le, Complex.ofReal_mul]
      field_simp
    · simp [hk]
  simp only [Matrix.mulVec, dotProduct, Pi.zero_apply, Fintype.sum_prod_type, key]
  simp only [Finset.sum_ite_eq', Finset.mem_univ, if_true]
  rw [← Finset.sum_div, ← Finset.mul_sum, Finset.sum_add_distrib, ← map_sum]
  have := h a.2 j a.1
  rw [show (∑ nb, d a (nb, j)) + (starRingEnd ℂ) (∑ nb, d (nb, j) a) = 0 from this]
  simp

theorem frequency_zero (w : ℝ) : frequency w = 0 ↔ w = 0 := by
  unfold frequency
  constructor
  · intro h
    split_ifs at h with hw
    · have := Real.sqrt_pos.mpr (neg_pos.mpr hw); linarith
    · exact le_antisymm (Real.sqrt_eq_zero'.mp h) (not_lt.mp hw)
  · rintro rfl; simp

theorem frequency_injective : Function.Injective frequency := by
  intro x y h
  unfold frequency at h
  split_ifs at h with hx hy hy
  · have := (Real.sqrt_inj (by linarith) (by linarith)).mp (neg_injective h)
    linarith
  · have h1 := Real.sqrt_pos.mpr (neg_pos.mpr hx)
    have h2 := Real.sqrt_nonneg y
    linarith
  · have h1 := Real.sqrt_pos.mpr (neg_pos.mpr hy)
    have h2 := Real.sqrt_nonneg x
    linarith
  · exact (Real.sqrt_inj (not_lt.mp hx) (not_lt.mp hy)).mp h

theorem frequency_monotone : Monotone frequency := by
  intro x y h
  unfold frequency
  split_ifs with hx hy hy
  · have := Real.sqrt_le_sqrt (show -y ≤ -x by linarith)
    linarith
  · have h1 := Real.sqrt_nonneg (-x)
    have h2 := Real.sqrt_nonneg y
    linarith
  · linarith
  · exact Real.sqrt_le_sqrt h

theorem dynMatrix_gamma [NeZero n1] [NeZero n2] [NeZero n3] (c : PhCrystal A)
    (hp : Partition c n1 n2 n3) (f : FcVec A n1 n2 n3) (hs : Symmetric f)
    (ht : TranslationInvariant f)
    (hl : c.hasDielectric → ∀ i j na, c.longRange1 n1 n2 n3 i j na = c.longRange1 n1 n2 n3 j i na)
    (i j : Fin 3) (na : Fin A) :
    (∑ nb, dynMatrix c f 0 (na, i) (nb, j)) +
      (starRingEnd ℂ) (∑ nb, dynMatrix c f 0 (nb, j) (na, i)) = 0 := by
  have hcol : ∑ nb, shortRange (reorder c f) 0 (nb, j) (na, i) = (rowSum f i j na : ℂ) := by
    rw [← shortRange_row c hp]
    refine Finset.sum_congr rfl fun nb _ => ?_
    rw [shortRange_zero c hp, shortRange_zero c hp]
    congr 1
    have hneg : ∀ k : Nat, [NeZero k] → ∀ m : Fin k, Opposite m (-m) := by
      intro k _ m
      simp only [Opposite]
      have := congrArg Fin.val (add_neg_cancel m)
      rw [Fin.val_add] at this
      simpa using this
    rw [← Equiv.sum_comp (Equiv.neg (Fin n1))]
    refine Finset.sum_congr rfl fun m1 _ => ?_
    rw [← Equiv.sum_comp (Equiv.neg (Fin n2))]
    refine Finset.sum_congr rfl fun m2 _ => ?_
    rw [← Equiv.sum_comp (Equiv.neg (Fin n3))]
    refine Finset.sum_congr rfl fun m3 _ => ?_
    exact (hs _ _ _ _ _ _ _ _ _ _ (hneg n1 m1) (hneg n2 m2) (hneg n3 m3)).symm
  unfold dynMatrix
  simp only [Matrix.add_apply, Finset.sum_add_distrib, hcol, shortRange_row c hp, ht i j na]
  by_cases hd : c.hasDielectric
  · simp only [if_pos hd, longRange_row, longRange_col, hl hd j i na]
    simp
  · simp [if_neg hd]

end Verif.Model
