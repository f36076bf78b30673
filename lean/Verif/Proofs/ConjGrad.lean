import Mathlib.LinearAlgebra.Matrix.DotProduct
import Mathlib.LinearAlgebra.Dimension.Finite
import Mathlib.LinearAlgebra.Dimension.Constructions
import Mathlib.LinearAlgebra.LinearIndependent.Basic
import Mathlib.Data.Real.Basic
import Mathlib.Tactic.LinearCombination

/-!
# Conjugate gradients

Sequences `f`, `r`, `d` that follow the recursion of the variational solvers, on vectors over a finite type.
-/
namespace Verif.Model
open Matrix

/-- The recursion of the conjugate gradient method, with coefficients that are zero when the denominator is zero. -/
structure CgSeq {ι : Type} [Fintype ι] (A : Matrix ι ι ℝ) (b : ι → ℝ) (f r d : Nat → ι → ℝ) : Prop where
  r0 : r 0 = b - A *ᵥ f 0
  d0 : d 0 = r 0
  fs : ∀ k, f (k + 1) = ((if d k ⬝ᵥ A *ᵥ d k ≠ 0 then (r k ⬝ᵥ r k) / (d k ⬝ᵥ A *ᵥ d k) else 0) • d k) + f k
  rs : ∀ k, r (k + 1) = r k - (if d k ⬝ᵥ A *ᵥ d k ≠ 0 then (r k ⬝ᵥ r k) / (d k ⬝ᵥ A *ᵥ d k) else 0) • A *ᵥ d k
  ds : ∀ k, d (k + 1) = ((if r k ⬝ᵥ r k ≠ 0 then (r (k + 1) ⬝ᵥ r (k + 1)) / (r k ⬝ᵥ r k) else 0) • d k) + r (k + 1)

section
variable {ι : Type} [Fintype ι] {A : Matrix ι ι ℝ} {b : ι → ℝ} {f r d : Nat → ι → ℝ}

/-- Symmetric matrices: the bilinear form is symmetric. -/
theorem dot_mulVec_symm (hs : ∀ i j, A i j = A j i) (x y : ι → ℝ) : x ⬝ᵥ A *ᵥ y = y ⬝ᵥ A *ᵥ x := by
  have hT : A.transpose = A := by ext i j; exact hs j i
  rw [dotProduct_mulVec, ← mulVec_transpose, hT, dotProduct_comm]

/-- Sum of squares that is zero. -/
theorem dot_self_zero (x : ι → ℝ) (h : x ⬝ᵥ x = 0) : x = 0 := dotProduct_self_eq_zero.mp h

theorem dot_self_nonneg (x : ι → ℝ) : 0 ≤ x ⬝ᵥ x := Finset.sum_nonneg fun i _ => mul_self_nonneg (x i)

/-- The residual is what it should be. -/
theorem CgSeq.residual (h : CgSeq A b f r d) (k : Nat) : r k = b - A *ᵥ f k := by
  induction k with
  | zero => exact h.r0
  | succ k ih =>
    rw [h.rs, h.fs, ih, mulVec_add, mulVec_smul]
    abel

/-- What is kept by the recursion. -/
structure CgInv (A : Matrix ι ι ℝ) (r d : Nat → ι → ℝ) (k : Nat) : Prop where
  rd : ∀ i < k, r k ⬝ᵥ d i = 0
  rr : ∀ i < k, r k ⬝ᵥ r i = 0
  dd : ∀ i < k, d k ⬝ᵥ A *ᵥ d i = 0
  diag : r k ⬝ᵥ d k = r k ⬝ᵥ r k

variable (hpos : ∀ x : ι → ℝ, x ≠ 0 → 0 < x ⬝ᵥ A *ᵥ x)

include hpos in
theorem dAd_zero (x : ι → ℝ) (h : x ⬝ᵥ A *ᵥ x = 0) : x = 0 := by
  by_contra hx
  exact absurd h (hpos x hx).ne'

/-- The descent coefficient. -/
noncomputable def cgAlpha (A : Matrix ι ι ℝ) (r d : Nat → ι → ℝ) (k : Nat) : ℝ :=
  if d k ⬝ᵥ A *ᵥ d k ≠ 0 then (r k ⬝ᵥ r k) / (d k ⬝ᵥ A *ᵥ d k) else 0

/-- The correction coefficient. -/
noncomputable def cgBeta (r : Nat → ι → ℝ) (k : Nat) : ℝ :=
  if r k ⬝ᵥ r k ≠ 0 then (r (k + 1) ⬝ᵥ r (k + 1)) / (r k ⬝ᵥ r k) else 0

include hpos in
theorem cgAlpha_mul {k : Nat} (hi : CgInv A r d k) : cgAlpha A r d k * (d k ⬝ᵥ A *ᵥ d k) = r k ⬝ᵥ r k := by
  unfold cgAlpha
  split
  · rename_i h; exact div_mul_cancel₀ _ h
  · rename_i h
    have h0 : d k = 0 := dAd_zero hpos _ (not_not.mp h)
    rw [zero_mul, ← hi.diag, h0, dotProduct_zero]

include hpos in
theorem cgAlpha_zero (h : CgSeq A b f r d) {k : Nat} (ha : cgAlpha A r d k = 0) : d k = 0 := by
  unfold cgAlpha at ha
  by_cases hd : d k ⬝ᵥ A *ᵥ d k = 0
  · exact dAd_zero hpos _ hd
  · rw [if_pos hd, div_eq_zero_iff] at ha
    have hr : r k ⬝ᵥ r k = 0 := ha.resolve_right hd
    have hr0 := dot_self_zero _ hr
    cases k with
    | zero => rw [h.d0, hr0]
    | succ k =>
      rw [h.ds, hr0]
      simp

include hpos in
theorem cgBeta_mul (h : CgSeq A b f r d) {k : Nat} (hi : CgInv A r d k) :
    cgBeta r k * (r k ⬝ᵥ r k) = r (k + 1) ⬝ᵥ r (k + 1) := by
  unfold cgBeta
  split
  · rename_i h'; exact div_mul_cancel₀ _ h'
  · rename_i h'
    have h0 := not_not.mp h'
    have hr0 := dot_self_zero _ h0
    rw [zero_mul, h.rs, hr0]
    simp

include hpos in
theorem CgSeq.inv (hs : ∀ i j, A i j = A j i) (h : CgSeq A b f r d) : ∀ k, CgInv A r d k := by
  intro k
  induction k using Nat.strong_induction_on with
  | _ k ih =>
    cases k with
    | zero => exact ⟨by simp, by simp, by simp, by rw [h.d0]⟩
    | succ k =>
      have hk := ih k (by omega)
      have hrs : r (k + 1) = r k - cgAlpha A r d k • A *ᵥ d k := h.rs k
      have hds : ∀ j, d (j + 1) = cgBeta r j • d j + r (j + 1) := h.ds
      have rd : ∀ i < k + 1, r (k + 1) ⬝ᵥ d i = 0 := by
        intro i hik
        rw [hrs, sub_dotProduct, smul_dotProduct, smul_eq_mul, dotProduct_comm (A *ᵥ d k), dot_mulVec_symm hs]
        rcases Nat.lt_succ_iff_lt_or_eq.mp hik with hlt | rfl
        · rw [hk.rd i hlt, hk.dd i hlt]; simp
        · rw [cgAlpha_mul hpos hk, hk.diag, sub_self]
      have rr : ∀ i < k + 1, r (k + 1) ⬝ᵥ r i = 0 := by
        intro i hik
        cases i with
        | zero => rw [← h.d0]; exact rd 0 (by omega)
        | succ i =>
          have e : r (i + 1) = d (i + 1) - cgBeta r i • d i := by rw [hds i]; abel
          rw [e, dotProduct_sub, dotProduct_smul, rd (i + 1) hik, rd i (by omega)]
          simp
      have key : ∀ i < k + 1, cgAlpha A r d i * (r (k + 1) ⬝ᵥ A *ᵥ d i) = r (k + 1) ⬝ᵥ r i - r (k + 1) ⬝ᵥ r (i + 1) := by
        intro i hik
        have e : cgAlpha A r d i • A *ᵥ d i = r i - r (i + 1) := by
          have := h.rs i
          rw [show r (i + 1) = r i - cgAlpha A r d i • A *ᵥ d i from this]; abel
        rw [← smul_eq_mul, ← dotProduct_smul, e, dotProduct_sub]
      refine ⟨rd, rr, ?_, ?_⟩
      · intro i hik
        by_cases ha : cgAlpha A r d i = 0
        · rw [cgAlpha_zero hpos h ha]; simp
        · have h2 := key i hik
          rw [rr i hik, zero_sub] at h2
          rw [hds k, add_dotProduct, smul_dotProduct, smul_eq_mul]
          apply mul_left_cancel₀ ha
          rw [mul_zero, mul_add, h2]
          rcases Nat.lt_succ_iff_lt_or_eq.mp hik with hlt | rfl
          · rw [hk.dd i hlt, rr (i + 1) (by omega)]; simp
          · have h3 := cgAlpha_mul hpos hk
            have h4 := cgBeta_mul hpos h hk
            rw [← h3] at h4
            linear_combination h4
      · rw [hds k, dotProduct_add, dotProduct_smul, rd k (by omega)]; simp

/-- Residuals that are zero stay zero. -/
theorem CgSeq.stays (h : CgSeq A b f r d) {k : Nat} (hk : r k = 0) : ∀ m, k ≤ m → r m = 0 := by
  intro m hm
  induction m, hm using Nat.le_induction with
  | base => exact hk
  | succ m _ ih => rw [h.rs, ih]; simp

include hpos in
/-- The residual is zero after as many steps as there are unknowns. -/
theorem CgSeq.terminates (hs : ∀ i j, A i j = A j i) (h : CgSeq A b f r d) {k : Nat} (hk : Fintype.card ι ≤ k) :
    r k = 0 := by
  by_contra hne
  have hall : ∀ m ≤ k, r m ≠ 0 := fun m hm h0 => hne (h.stays h0 k hm)
  have hort : ∀ i j : Fin (k + 1), i ≠ j → r i ⬝ᵥ r j = 0 := by
    intro i j hij
    rcases lt_or_gt_of_ne hij with hlt | hlt
    · rw [dotProduct_comm]; exact (CgSeq.inv hpos hs h j).rr i hlt
    · exact (CgSeq.inv hpos hs h i).rr j hlt
  have hli : LinearIndependent ℝ (fun i : Fin (k + 1) => r i) := by
    rw [Fintype.linearIndependent_iff]
    intro g hg j
    have h1 : r j ⬝ᵥ (∑ i, g i • r i) = 0 := by rw [hg, dotProduct_zero]
    rw [dotProduct_sum, Finset.sum_eq_single j] at h1
    · rw [dotProduct_smul, smul_eq_mul, mul_eq_zero] at h1
      exact h1.resolve_right (fun h0 => hall j (by omega) (dot_self_zero _ h0))
    · intro i _ hij
      rw [dotProduct_smul, hort j i (fun e => hij e.symm), smul_zero]
    · intro h'; exact absurd (Finset.mem_univ j) h'
  have := hli.fintype_card_le_finrank
  simp only [Fintype.card_fin, Module.finrank_fintype_fun_eq_card] at this
  omega

/-- The functional of the variational principle. -/
noncomputable def cgValue (A : Matrix ι ι ℝ) (b f : ι → ℝ) : ℝ := 2 * (f ⬝ᵥ b) - f ⬝ᵥ A *ᵥ f

include hpos in
theorem cgValue_le (hs : ∀ i j, A i j = A j i) {x : ι → ℝ} (hx : A *ᵥ x = b) (y : ι → ℝ) :
    cgValue A b y ≤ x ⬝ᵥ b := by
  have h0 : 0 ≤ (x - y) ⬝ᵥ A *ᵥ (x - y) := by
    by_cases h : x - y = 0
    · rw [h]; simp
    · exact (hpos _ h).le
  have e : (x - y) ⬝ᵥ A *ᵥ (x - y) = x ⬝ᵥ b - cgValue A b y := by
    unfold cgValue
    rw [mulVec_sub, hx, sub_dotProduct, dotProduct_sub, dotProduct_sub, dot_mulVec_symm hs x y, hx]
    ring
  linarith

include hpos in
theorem CgSeq.mono (hs : ∀ i j, A i j = A j i) (h : CgSeq A b f r d) (k : Nat) :
    cgValue A b (f k) ≤ cgValue A b (f (k + 1)) := by
  have hfs : f (k + 1) = cgAlpha A r d k • d k + f k := h.fs k
  have hi := CgSeq.inv hpos hs h k
  have h1 := cgAlpha_mul hpos hi
  have hb : b = r k + A *ᵥ f k := by rw [h.residual k]; abel
  have e : cgValue A b (f (k + 1)) - cgValue A b (f k) = cgAlpha A r d k * (r k ⬝ᵥ r k) := by
    unfold cgValue
    rw [hfs, mulVec_add, mulVec_smul]
    simp only [add_dotProduct, dotProduct_add, smul_dotProduct, dotProduct_smul, smul_eq_mul]
    have h2 : d k ⬝ᵥ b = r k ⬝ᵥ r k + d k ⬝ᵥ A *ᵥ f k := by
      conv_lhs => rw [hb]
      rw [dotProduct_add, dotProduct_comm, hi.diag]
    rw [h2, dot_mulVec_symm hs (f k) (d k)]
    linear_combination -(cgAlpha A r d k) * h1
  have hnn : 0 ≤ cgAlpha A r d k * (r k ⬝ᵥ r k) := by
    apply mul_nonneg
    · unfold cgAlpha
      split
      · apply div_nonneg
        · exact dot_self_nonneg _
        · by_cases h0 : d k = 0
          · rw [h0]; simp
          · exact (hpos _ h0).le
      · exact le_refl _
    · exact dot_self_nonneg _
  linarith

end
end Verif.Model
