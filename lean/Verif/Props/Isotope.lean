import Verif.Proofs.Isotope
import Verif.Props.DynMat

/-!
C168: isotope and boundary scattering.
-/
namespace Verif.Props

open Verif.Model Verif.Spec

variable {A n1 n2 n3 : Nat}

/-- Lists of couplings and masses of the atoms are accepted only if both have one entry per atom, and without isotope
scattering they do not matter. -/
theorem C168_accepts (numAtoms : Nat) (couplings masses : List ℝ) :
    massVariance false numAtoms couplings masses = .ok none ∧
    ((∃ mv, massVariance true numAtoms couplings masses = .ok mv) ↔
      couplings.length = numAtoms ∧ masses.length = numAtoms) ∧
    massVariance true numAtoms couplings masses ≠ .ub ∧ massVariance true numAtoms couplings masses ≠ .ok none := by
  refine ⟨rfl, ?_, ?_, ?_⟩ <;> unfold massVariance <;> simp only [if_true]
  · split_ifs with h
    · constructor
      · rintro ⟨mv, h⟩; cases h
      · rintro ⟨h1, h2⟩; omega
    · constructor
      · intro _; omega
      · intro _; exact ⟨_, rfl⟩
  · split_ifs <;> simp
  · split_ifs <;> simp

/-- The strength computed with the stored eigenvectors (divided by square roots of masses) and the mass variances of the
crystal is the one of the normalized polarization vectors, without masses: it does not depend on the unit of mass. -/
theorem C168_polarization [NeZero n1] [NeZero n2] [NeZero n3] (eig : EigenSolver A) (c : PhCrystal A)
    (hm : ∀ a, 0 < c.mass a) (f : FcVec A n1 n2 n3) (g : Fin A → ℝ) :
    ∃ mv, massVariance true A (List.ofFn g) (List.ofFn c.mass) = .ok (some mv) ∧
      ∀ q1 q2 ib1 ib2,
        isoOverlap mv (diagonalizeFromCoordinates eig c f q1 true).2 (diagonalizeFromCoordinates eig c f q2 true).2 ib1
          ib2 =
        massDisorder g (diagonalizeFromCoordinates eig c f q1 false).2 (diagonalizeFromCoordinates eig c f q2 false).2
          ib1 ib2 := by
  obtain ⟨mv, h1, h2⟩ := massVariance_val g c.mass
  refine ⟨mv, h1, fun q1 q2 ib1 ib2 => ?_⟩
  exact isoOverlap_scaled g c.mass hm mv h2 _ _ ib1 ib2

/-- The same for the eigenvectors computed in batches. -/
theorem C168_polarization_device [NeZero n1] [NeZero n2] [NeZero n3] (eig : EigenSolver A) (c : PhCrystal A)
    (hm : ∀ a, 0 < c.mass a) (f : FcVec A n1 n2 n3) (g : Fin A → ℝ) (order : List Vec3) :
    ∃ mv, massVariance true A (List.ofFn g) (List.ofFn c.mass) = .ok (some mv) ∧
      ∀ q1 q2 ib1 ib2,
        isoOverlap mv (devDiagonalize eig c f order q1 true).2 (devDiagonalize eig c f order q2 true).2 ib1 ib2 =
        massDisorder g (devDiagonalize eig c f order q1 false).2 (devDiagonalize eig c f order q2 false).2 ib1 ib2 := by
  obtain ⟨mv, h1, h2⟩ := massVariance_val g c.mass
  refine ⟨mv, h1, fun q1 q2 ib1 ib2 => ?_⟩
  exact isoOverlap_scaled g c.mass hm mv h2 _ _ ib1 ib2

/-- Non-negative for non-negative couplings, zero without isotopic disorder, the same when the two phonons are
exchanged. -/
theorem C168_symmetric (g : Fin A → ℝ) (c : PhCrystal A) (hm : ∀ a, 0 < c.mass a) [NeZero n1] [NeZero n2] [NeZero n3]
    (eig : EigenSolver A) (f : FcVec A n1 n2 n3) :
    ∃ mv, massVariance true A (List.ofFn g) (List.ofFn c.mass) = .ok (some mv) ∧
      ∀ q1 q2 ib1 ib2,
        let e := fun q => (diagonalizeFromCoordinates eig c f q true).2
        isoOverlap mv (e q2) (e q1) ib2 ib1 = isoOverlap mv (e q1) (e q2) ib1 ib2 ∧
        ((∀ a, 0 ≤ g a) → 0 ≤ isoOverlap mv (e q1) (e q2) ib1 ib2) ∧
        ((∀ a, g a = 0) → isoOverlap mv (e q1) (e q2) ib1 ib2 = 0) := by
  obtain ⟨mv, h1, h2⟩ := C168_polarization eig c hm f g
  refine ⟨mv, h1, fun q1 q2 ib1 ib2 => ?_⟩
  intro e
  refine ⟨(h2 q2 q1 ib2 ib1).trans ((massDisorder_symm g _ _ ib1 ib2).trans (h2 q1 q2 ib1 ib2).symm), fun hg => ?_,
    fun hg => ?_⟩
  · exact le_of_le_of_eq (massDisorder_nonneg g hg _ _ ib1 ib2) (h2 q1 q2 ib1 ib2).symm
  · exact (h2 q1 q2 ib1 ib2).trans (massDisorder_zero g hg _ _ ib1 ib2)

/-- Sum rule: summed over all modes of the second wavevector the strength is the one of the polarization vector of the
first phonon alone, whatever the second wavevector; it never exceeds the largest coupling. -/
theorem C168_sum_rule (g : Fin A → ℝ) (c : PhCrystal A) (hm : ∀ a, 0 < c.mass a) [NeZero n1] [NeZero n2] [NeZero n3]
    (eig : EigenSolver A) (he : GoodSolver eig) (f : FcVec A n1 n2 n3) :
    ∃ mv, massVariance true A (List.ofFn g) (List.ofFn c.mass) = .ok (some mv) ∧
      ∀ q1 q2 ib1,
        let e := fun q => (diagonalizeFromCoordinates eig c f q true).2
        let z := (diagonalizeFromCoordinates eig c f q1 false).2
        (∑ ib2, isoOverlap mv (e q1) (e q2) ib1 ib2) = ∑ a : Fin A, g a * ∑ k : Fin 3, ‖z (a, k) ib1‖ ^ 2 ∧
        ∀ G : ℝ, (∀ a, g a ≤ G) → (∑ ib2, isoOverlap mv (e q1) (e q2) ib1 ib2) ≤ G := by
  obtain ⟨mv, h1, h2⟩ := C168_polarization eig c hm f g
  refine ⟨mv, h1, fun q1 q2 ib1 => ?_⟩
  intro e z
  have hsum : (∑ ib2, isoOverlap mv (e q1) (e q2) ib1 ib2) = ∑ a : Fin A, g a * ∑ k : Fin 3, ‖z (a, k) ib1‖ ^ 2 := by
    rw [← massDisorder_sum g z _ (C93_plain eig he c f q2).2.2.1 ib1]
    exact Finset.sum_congr rfl fun ib2 _ => h2 q1 q2 ib1 ib2
  refine ⟨hsum, fun G hG => ?_⟩
  rw [hsum]
  have hone : ∑ a : Fin A, ∑ k : Fin 3, ‖z (a, k) ib1‖ ^ 2 = 1 := by
    have h := congrFun (congrFun (C93_plain eig he c f q1).2.1 ib1) ib1
    rw [Matrix.mul_apply, Matrix.one_apply_eq, Fintype.sum_prod_type] at h
    have hc : ((∑ a : Fin A, ∑ k : Fin 3, ‖z (a, k) ib1‖ ^ 2 : ℝ) : ℂ) = 1 := by
      rw [← h]
      push_cast
      refine Finset.sum_congr rfl fun a _ => Finset.sum_congr rfl fun k _ => ?_
      rw [← Complex.conj_mul']
      rfl
    exact_mod_cast hc
  calc _ ≤ ∑ a : Fin A, G * ∑ k : Fin 3, ‖z (a, k) ib1‖ ^ 2 :=
        Finset.sum_le_sum fun a _ => mul_le_mul_of_nonneg_right (hG a) (by positivity)
    _ = G := by rw [← Finset.mul_sum, hone, mul_one]

/-- The strength summed over the modes in a set `S` of the second wavevector does not depend on the basis chosen for
them: `w` has orthonormal columns that span the same space on `S` (`w = u * v` with `v` unitary within `S`). -/
theorem C168_degenerate {β : Type} [Fintype β] [DecidableEq β] (mv : List ℝ) (e1 u : Matrix (Fin A × Fin 3) β ℂ)
    (v : Matrix β β ℂ) (hv : v * v.conjTranspose = 1) (S : Finset β)
    (hS : ∀ b b', v b b' ≠ 0 → (b ∈ S ↔ b' ∈ S)) (ib1 : β) :
    ∑ b ∈ S, isoOverlap mv e1 (u * v) ib1 b = ∑ b ∈ S, isoOverlap mv e1 u ib1 b := by
  unfold isoOverlap
  rw [Finset.sum_comm, Finset.sum_comm (s := S)]
  refine Finset.sum_congr rfl fun a _ => ?_
  rw [← Finset.sum_mul, ← Finset.sum_mul]
  congr 1
  set x : β → ℂ := fun b => ∑ k : Fin 3, (starRingEnd ℂ) (e1 (a, k) ib1) * u (a, k) b with hx
  have h1 : ∀ b, (∑ k : Fin 3, (starRingEnd ℂ) (e1 (a, k) ib1) * (u * v) (a, k) b) = ∑ c, x c * v c b := by
    intro b
    simp only [Matrix.mul_apply, Finset.mul_sum, hx, Finset.sum_mul]
    rw [Finset.sum_comm]
    refine Finset.sum_congr rfl fun c _ => Finset.sum_congr rfl fun k _ => ?_
    ring
  simp only [h1]
  have h2 : ∀ b ∈ S, (∑ c, x c * v c b) = ∑ c ∈ S, x c * v c b := by
    intro b hb
    refine (Finset.sum_subset (Finset.subset_univ S) fun c _ hc => ?_).symm
    by_contra h
    exact hc ((hS c b (right_ne_zero_of_mul h)).mpr hb)
  have key : ∀ c ∈ S, ∀ c' ∈ S, ∑ b ∈ S, v c b * (starRingEnd ℂ) (v c' b) = if c = c' then 1 else 0 := by
    intro c hc c' _
    have := congrFun (congrFun hv c) c'
    rw [Matrix.mul_apply, Matrix.one_apply] at this
    rw [← this]
    refine Finset.sum_subset (Finset.subset_univ S) fun b _ hb => ?_
    by_contra h
    exact hb ((hS c b (left_ne_zero_of_mul h)).mp hc)
  have hc : ((∑ b ∈ S, Complex.normSq (∑ c, x c * v c b) : ℝ) : ℂ) = ((∑ b ∈ S, Complex.normSq (x b) : ℝ) : ℂ) := by
    push_cast
    have h3 : ∀ b ∈ S, ((Complex.normSq (∑ c, x c * v c b) : ℝ) : ℂ) =
        ∑ c ∈ S, ∑ c' ∈ S, x c * (starRingEnd ℂ) (x c') * (v c b * (starRingEnd ℂ) (v c' b)) := by
      intro b hb
      rw [h2 b hb, ← Complex.mul_conj, map_sum, Finset.sum_mul_sum]
      refine Finset.sum_congr rfl fun c _ => Finset.sum_congr rfl fun c' _ => ?_
      rw [map_mul]
      ring
    rw [Finset.sum_congr rfl h3, Finset.sum_comm]
    refine Finset.sum_congr rfl fun c hcS => ?_
    rw [Finset.sum_comm]
    have h4 : ∀ c' ∈ S, ∑ b ∈ S, x c * (starRingEnd ℂ) (x c') * (v c b * (starRingEnd ℂ) (v c' b)) =
        x c * (starRingEnd ℂ) (x c') * (if c = c' then 1 else 0) := fun c' hc' => by
      rw [← Finset.mul_sum, key c hcS c' hc']
    rw [Finset.sum_congr rfl h4, Finset.sum_eq_single c]
    · rw [if_pos rfl, mul_one, Complex.mul_conj]
    · intro c' _ h
      rw [if_neg (fun e => h e.symm), mul_zero]
    · intro h; exact absurd hcS h
  exact_mod_cast hc

/-- Boundary scattering: zero unless the input file sets a positive length, otherwise the inverse of the time to cross
that length at the group velocity, times `n (n + 1)` for phonons; never negative, smaller for longer samples. -/
theorem C168_boundary (vel : Vec3) (pop : ℝ) (hp : 0 ≤ pop) :
    boundaryRate none vel pop = 0 ∧ (∀ l ≤ 0, boundaryRate (some l) vel pop = 0) ∧
    (∀ l > 0, boundaryRate (some l) vel pop * l = Real.sqrt (vdot vel vel) * pop) ∧
    (∀ l, 0 ≤ boundaryRate l vel pop) ∧
    ∀ l l', 0 < l → l ≤ l' → boundaryRate (some l') vel pop ≤ boundaryRate (some l) vel pop := by
  have hpos : ∀ l : ℝ, 0 < l → boundaryRate (some l) vel pop = Real.sqrt (vdot vel vel) / l * pop := fun l hl => by
    simp [boundaryRate, boundarySetup, hl]
  have hneg : ∀ l : ℝ, l ≤ 0 → boundaryRate (some l) vel pop = 0 := fun l hl => by
    simp [boundaryRate, boundarySetup, not_lt.mpr hl]
  refine ⟨rfl, hneg, fun l hl => ?_, fun l => ?_, fun l l' hl hll => ?_⟩
  · rw [hpos l hl]
    have := hl.ne'
    field_simp
  · rcases l with _ | l
    · exact le_refl 0
    · rcases le_or_gt l 0 with h | h
      · rw [hneg l h]
      · rw [hpos l h]; positivity
  · rw [hpos l hl, hpos l' (lt_of_lt_of_le hl hll)]
    gcongr

example : massVariance true 2 [1 / 10, 1 / 5] [2, 3] = .ok (some [(2 / 5 : Rat), 9 / 5]) ∧
    massVariance true 2 [1 / 10] [2, (3 : Rat)] = .error := by decide +kernel

/-- A crystal with two atoms of different masses, and a library as assumed. -/
example : ∃ (c : PhCrystal 2) (eig : EigenSolver 2), (∀ a, 0 < c.mass a) ∧ c.mass 0 ≠ c.mass 1 ∧ GoodSolver eig := by
  obtain ⟨eig, he⟩ := exists_solver 2
  refine ⟨⟨0, 0, 1, 0, fun a => if a = 0 then 1 else 2, 0, 0⟩, eig, fun a => ?_, ?_, he⟩
  · by_cases h : a = 0 <;> simp [h]
  · simp

/-- Two of three modes exchanged. -/
example : ∃ v : Matrix (Fin 3) (Fin 3) ℂ, v * v.conjTranspose = 1 ∧ v ≠ 1 ∧
    ∀ b b', v b b' ≠ 0 → (b ∈ ({0, 1} : Finset (Fin 3)) ↔ b' ∈ ({0, 1} : Finset (Fin 3))) := by
  refine ⟨!![0, 1, 0; 1, 0, 0; 0, 0, 1], ?_, ?_, ?_⟩
  · ext i j
    fin_cases i <;> fin_cases j <;> simp [Matrix.mul_apply, Fin.sum_univ_three]
  · intro h
    have := congrFun (congrFun h 0) 0
    simp at this
  · intro b b' h
    fin_cases b <;> fin_cases b' <;> simp_all

end Verif.Props
