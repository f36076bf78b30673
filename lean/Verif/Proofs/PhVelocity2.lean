import Verif.Proofs.PhVelocity

/-!
# Phonon velocities: choice of eigenvectors, opposite wavevectors, device
-/
namespace Verif.Model
open Verif.Spec

variable {A n1 n2 n3 : Nat} [NeZero n1] [NeZero n2] [NeZero n3]

/-- The library diagonalizes every Hermitian matrix. -/
def Solves (eig : EigenSolver A) : Prop :=
  ∀ d : DynM A, d.IsHermitian → IsEigenDecomposition d (eig d).1 (eig d).2

theorem sqrtD_unique (eig eig' : EigenSolver A) (he : Solves eig) (he' : Solves eig') (c : PhCrystal A)
    (f : FcVec A n1 n2 n3) (q : Vec3) : sqrtD eig c f q = sqrtD eig' c f q :=
  func_unique (he _ (massScaled_hermitian c (dynMatrix c f q))) (he' _ (massScaled_hermitian c (dynMatrix c f q))) frequency

theorem velDer_unique (eig eig' : EigenSolver A) (he : Solves eig) (he' : Solves eig') (c : PhCrystal A)
    (f : FcVec A n1 n2 n3) (q : Vec3) (i : Fin 3) : velDer eig c f q i = velDer eig' c f q i := by
  unfold velDer
  rw [sqrtD_unique eig eig' he he', sqrtD_unique eig eig' he he']

theorem velDer_hermitian (eig : EigenSolver A) (c : PhCrystal A) (f : FcVec A n1 n2 n3) (q : Vec3) (i : Fin 3) :
    (velDer eig c f q i).conjTranspose = velDer eig c f q i := by
  funext a b
  rw [Matrix.conjTranspose_apply]
  unfold velDer
  simp only [RCLike.star_def, map_mul, map_add, Complex.conj_conj, conj_half]
  ring

theorem rawVelocity_hermitian (eig : EigenSolver A) (c : PhCrystal A) (f : FcVec A n1 n2 n3) (q : Vec3) (i : Fin 3) :
    (rawVelocity eig c f q i).conjTranspose = rawVelocity eig c f q i := by
  unfold rawVelocity
  rw [Matrix.conjTranspose_mul, Matrix.conjTranspose_mul, Matrix.conjTranspose_conjTranspose, velDer_hermitian,
    Matrix.mul_assoc]

/-- The bands of a block. -/
def blockIx {n s d : Nat} (h : s + d ≤ n) (i : Fin d) : Fin n := ⟨s + i, by omega⟩

theorem blockIx_injective {n s d : Nat} (h : s + d ≤ n) : Function.Injective (blockIx h) := by
  intro i j hij
  simp only [blockIx, Fin.mk.injEq] at hij
  exact Fin.ext (by omega)

theorem hostSub_bandVel {n : Nat} (v : Fin 3 → Matrix (Fin n) (Fin n) ℂ) (hv : ∀ i, (v i).conjTranspose = v i)
    {s d : Nat} (h : s + d ≤ n) (c : Fin 3) :
    hostSub (bandVel v) s c d = (v c).submatrix (blockIx h) (blockIx h) := by
  have key : ∀ i j : Fin d, bandVel v (s + i) (s + j) c = v c (blockIx h i) (blockIx h j) := by
    intro i j
    unfold bandVel
    rw [dif_pos ⟨by omega, by omega, c.2⟩]
    rfl
  funext i j
  unfold hostSub
  rw [key, key, Matrix.submatrix_apply]
  have : (starRingEnd ℂ) (v c (blockIx h j) (blockIx h i)) = v c (blockIx h i) (blockIx h j) := by
    conv_rhs => rw [← hv c]
    rfl
  rw [this, show (0.5 : ℂ) = 1 / 2 by norm_num]
  ring

/-- The frequencies of all bands as the loops read them. -/
theorem bandFn_mono {n : Nat} (w : Fin n → ℝ) (hw : Monotone w) : ∀ i j, i ≤ j → j < n → bandFn w i ≤ bandFn w j := by
  intro i j hij hj
  unfold bandFn
  rw [dif_pos hj, dif_pos (by omega)]
  exact hw (by simpa using hij)

/-- The diagonal of a block after the treatment lists the eigenvalues of the block before it. -/
theorem host_roots (solver : (d : Nat) → Matrix (Fin d) (Fin d) ℂ → Matrix (Fin d) (Fin d) ℂ)
    (hz : ∀ d (h : Matrix (Fin d) (Fin d) ℂ), h.conjTranspose = h → (solver d h).conjTranspose * solver d h = 1 ∧
      ∀ i j, i ≠ j → ((solver d h).conjTranspose * h * solver d h) i j = 0)
    {n : Nat} (en : Nat → ℝ) (t : ℝ) (v : Fin 3 → Matrix (Fin n) (Fin n) ℂ) (hv : ∀ i, (v i).conjTranspose = v i)
    (l : List (Nat × Nat)) (hl : Blocks en t n l) {s d : Nat} (hm : (s, d) ∈ l) (h : s + d ≤ n) (c : Fin 3) :
    ((v c).submatrix (blockIx h) (blockIx h)).charpoly.roots =
      Finset.univ.val.map fun i : Fin d => hostDegLoop solver en t n n 0 (bandVel v) (s + i) (s + i) c := by
  have hb : l = blocksLoop en t n n 0 := blocksFrom_unique en t n _ _ 0 hl (blocksLoop_spec _ _ _ _ _ (by omega) (by omega))
  obtain ⟨h1, h2⟩ := hostDegLoop_val solver en t n n 0 (bandVel v) (by omega) (by omega)
  have hge := blocksFrom_ge en t n _ _ hl s d hm
  have hherm : ((v c).submatrix (blockIx h) (blockIx h)).conjTranspose = (v c).submatrix (blockIx h) (blockIx h) := by
    rw [Matrix.conjTranspose_submatrix, hv]
  by_cases hd : 2 ≤ d
  · obtain ⟨z1, z2⟩ := hz d _ hherm
    rw [diag_roots z1 z2]
    refine Multiset.map_congr rfl fun i _ => ?_
    rw [h1 s d (hb ▸ hm) hd c c.2 i i, hostSub_bandVel v hv h c, hostRotate_eq solver _ hherm]
  · have h0 : ∀ i : Fin d, hostDegLoop solver en t n n 0 (bandVel v) (s + i) (s + i) c = v c (blockIx h i) (blockIx h i) := by
      intro i
      rw [h2]
      · unfold bandVel
        rw [dif_pos ⟨by omega, by omega, c.2⟩]
        rfl
      · intro s' d' hm' hd' hc
        have := blocksFrom_disjoint en t n l 0 hl s d s' d' hm (hb ▸ hm') (s + i) (by omega) hc.1
        omega
    have := diag_roots (s := (v c).submatrix (blockIx h) (blockIx h)) (u := 1)
      (by rw [Matrix.conjTranspose_one, Matrix.one_mul]) (by
        intro i j hij
        exact absurd (Fin.ext (by omega)) hij)
    rw [this]
    refine Multiset.map_congr rfl fun i _ => ?_
    rw [h0, Matrix.conjTranspose_one, Matrix.one_mul, Matrix.mul_one, Matrix.submatrix_apply]

theorem energies_unique (eig eig' : EigenSolver A) (he : Solves eig) (he' : Solves eig') (c : PhCrystal A)
    (f : FcVec A n1 n2 n3) (q : Vec3) (s s' : Bool) :
    (diagonalizeFromCoordinates eig c f q s).1 = (diagonalizeFromCoordinates eig' c f q s').1 := by
  have h := eigenvalues_unique (by simp) (he _ (massScaled_hermitian c (dynMatrix c f q)))
    (he' _ (massScaled_hermitian c (dynMatrix c f q))) rfl
  funext b
  simp only [diagonalizeFromCoordinates, h]

/-- The eigenvalues of a block of the velocity operator do not depend on the choice of the eigenvectors. -/
theorem block_roots_unique (eig eig' : EigenSolver A) (he : Solves eig) (he' : Solves eig') (t : ℝ) (ht : 0 ≤ t)
    (c : PhCrystal A) (f : FcVec A n1 n2 n3) (q : Vec3) (l : List (Nat × Nat))
    (hl : Blocks (bandFn (diagonalizeFromCoordinates eig c f q false).1) t (A * 3) l) {s d : Nat} (hm : (s, d) ∈ l)
    (h : s + d ≤ A * 3) (i : Fin 3) :
    ((rawVelocity eig c f q i).submatrix (blockIx h) (blockIx h)).charpoly.roots =
      ((rawVelocity eig' c f q i).submatrix (blockIx h) (blockIx h)).charpoly.roots := by
  have d1 := he _ (massScaled_hermitian c (dynMatrix c f q))
  have d2 := he' _ (massScaled_hermitian c (dynMatrix c f q))
  have ee := eigenvalues_unique (by simp) d1 d2 rfl
  have hmono : Monotone (diagonalizeFromCoordinates eig c f q false).1 :=
    fun b b' hb => frequency_monotone (d1.sorted hb)
  have hsep := blocks_sep _ t ht (A * 3) (bandFn_mono _ hmono) l 0 hl s d hm
  obtain ⟨w, w1, w2⟩ := block_similar d1.right d2.left (velDer eig c f q i) (blockIx h) (blockIx_injective h) (by
    intro a j hj
    refine overlap_zero d1 d2 a _ fun hab => ?_
    have hfr : bandFn (diagonalizeFromCoordinates eig c f q false).1 (s + j) =
        bandFn (diagonalizeFromCoordinates eig c f q false).1 a := by
      unfold bandFn
      rw [dif_pos (by omega), dif_pos a.2]
      rw [← ee] at hab
      exact congrArg frequency hab.symm
    obtain ⟨g1, g2⟩ := hsep (s + j) a (by omega) (by omega) (by omega) a.2 hfr
    exact hj ⟨a - s, by omega⟩ (Fin.ext (by simp [blockIx]; omega)))
  have e1 : (rawVelocity eig' c f q i).submatrix (blockIx h) (blockIx h) =
      w.conjTranspose * (rawVelocity eig c f q i).submatrix (blockIx h) (blockIx h) * w := by
    rw [rawVelocity, ← velDer_unique eig eig' he he']
    exact w2
  rw [e1, Matrix.charpoly_mul_comm, ← Matrix.mul_assoc, mul_eq_one_comm.mp w1, Matrix.one_mul]

/-! ### Opposite wavevectors -/

/-- The library, used on complex conjugate matrices. -/
noncomputable def conjSolver (eig : EigenSolver A) : EigenSolver A := fun d =>
  ((eig (d.map (starRingEnd ℂ))).1, (eig (d.map (starRingEnd ℂ))).2.map (starRingEnd ℂ))

theorem map_conj_conj {M N : Type} (d : Matrix M N ℂ) : (d.map (starRingEnd ℂ)).map (starRingEnd ℂ) = d := by
  funext a b; simp

theorem conjTranspose_map_conj {M N : Type} (d : Matrix M N ℂ) :
    (d.map (starRingEnd ℂ)).conjTranspose = d.conjTranspose.map (starRingEnd ℂ) := by
  funext a b; simp

theorem conjSolver_solves (eig : EigenSolver A) (he : Solves eig) : Solves (conjSolver eig) := by
  intro d hd
  have hd' : (d.map (starRingEnd ℂ)).IsHermitian := by
    show (d.map (starRingEnd ℂ)).conjTranspose = d.map (starRingEnd ℂ)
    rw [conjTranspose_map_conj, hd]
  have h := he _ hd'
  refine ⟨h.sorted, ?_, ?_, ?_⟩
  · show ((eig (d.map (starRingEnd ℂ))).2.map (starRingEnd ℂ)).conjTranspose * (eig (d.map (starRingEnd ℂ))).2.map (starRingEnd ℂ) = 1
    rw [conjTranspose_map_conj, ← Matrix.map_mul, h.left, Matrix.map_one _ (map_zero _) (map_one _)]
  · show (eig (d.map (starRingEnd ℂ))).2.map (starRingEnd ℂ) * ((eig (d.map (starRingEnd ℂ))).2.map (starRingEnd ℂ)).conjTranspose = 1
    rw [conjTranspose_map_conj, ← Matrix.map_mul, h.right, Matrix.map_one _ (map_zero _) (map_one _)]
  · have := congrArg (fun m => m.map (starRingEnd ℂ)) h.eigen
    simp only [Matrix.map_mul, map_conj_conj] at this
    refine this.trans ?_
    refine congrArg _ ?_
    funext a b
    by_cases hab : a = b
    · subst hab; simp [conjSolver]
    · simp [Matrix.diagonal_apply_ne _ hab]

theorem matrix_neg_q (c : PhCrystal A) (f : FcVec A n1 n2 n3) (q : Vec3) :
    massScaled c (dynMatrix c f (-q)) = (massScaled c (dynMatrix c f q)).map (starRingEnd ℂ) := by
  rw [dynMatrix_neg, massScaled_conj]

theorem diagonalize_neg (eig : EigenSolver A) (c : PhCrystal A) (f : FcVec A n1 n2 n3) (q : Vec3) :
    (diagonalizeFromCoordinates eig c f (-q) false).1 = (diagonalizeFromCoordinates (conjSolver eig) c f q false).1 ∧
    (diagonalizeFromCoordinates eig c f (-q) false).2 =
      (diagonalizeFromCoordinates (conjSolver eig) c f q false).2.map (starRingEnd ℂ) := by
  unfold diagonalizeFromCoordinates conjSolver
  rw [matrix_neg_q]
  refine ⟨rfl, ?_⟩
  exact (map_conj_conj _).symm

theorem sqrtD_neg (eig : EigenSolver A) (c : PhCrystal A) (f : FcVec A n1 n2 n3) (q : Vec3) :
    sqrtD eig c f (-q) = (sqrtD (conjSolver eig) c f q).map (starRingEnd ℂ) := by
  unfold sqrtD
  obtain ⟨h1, h2⟩ := diagonalize_neg eig c f q
  simp only [h1, h2, conjTranspose_map_conj, Matrix.map_mul]
  refine congrArg (· * _) (congrArg _ ?_)
  funext a b
  by_cases hab : a = b
  · subst hab; simp
  · simp [Matrix.diagonal_apply_ne _ hab]

theorem shiftQ_neg (q : Vec3) (i : Fin 3) (d : ℝ) : shiftQ (-q) i d = -(shiftQ q i (-d)) := by
  funext k
  simp only [shiftQ, Pi.neg_apply]
  split_ifs <;> ring

theorem velDer_neg (eig : EigenSolver A) (c : PhCrystal A) (f : FcVec A n1 n2 n3) (q : Vec3) (i : Fin 3) :
    velDer eig c f (-q) i = -((velDer (conjSolver eig) c f q i).map (starRingEnd ℂ)) := by
  funext a b
  refine Eq.trans (b := -(starRingEnd ℂ) (velDer (conjSolver eig) c f q i a b)) ?_ rfl
  unfold velDer
  rw [shiftQ_neg, shiftQ_neg, sqrtD_neg, sqrtD_neg, neg_neg]
  simp only [Matrix.map_apply, map_mul, map_add, map_div₀, map_sub, Complex.conj_conj, conj_half,
    Complex.conj_ofReal]
  ring

theorem rawVelocity_neg (eig : EigenSolver A) (c : PhCrystal A) (f : FcVec A n1 n2 n3) (q : Vec3) (i : Fin 3) :
    rawVelocity eig c f (-q) i = -((rawVelocity (conjSolver eig) c f q i).map (starRingEnd ℂ)) := by
  unfold rawVelocity
  obtain ⟨_, h2⟩ := diagonalize_neg eig c f q
  simp only [h2, velDer_neg, conjTranspose_map_conj, Matrix.map_mul, Matrix.mul_neg, Matrix.neg_mul]

/-- Eigenvalues of `-conj s` for a Hermitian `s`. -/
theorem roots_neg_conj {d : Nat} (s : Matrix (Fin d) (Fin d) ℂ) (hs : s.conjTranspose = s) :
    (-(s.map (starRingEnd ℂ))).charpoly.roots = s.charpoly.roots.map fun x => -x := by
  have hh : s.IsHermitian := hs
  have hu : (hh.eigenvectorUnitary : Matrix (Fin d) (Fin d) ℂ).conjTranspose * hh.eigenvectorUnitary = 1 :=
    Unitary.coe_star_mul_self hh.eigenvectorUnitary
  have hd : (hh.eigenvectorUnitary : Matrix (Fin d) (Fin d) ℂ).conjTranspose * s * hh.eigenvectorUnitary =
      Matrix.diagonal fun i => (hh.eigenvalues i : ℂ) := by
    have := hh.conjStarAlgAut_star_eigenvectorUnitary
    rw [Unitary.conjStarAlgAut_apply] at this
    simp only [Unitary.coe_star, star_star] at this
    exact this
  generalize (hh.eigenvectorUnitary : Matrix (Fin d) (Fin d) ℂ) = u at *
  have h1 := diag_roots hu (s := s) (by intro i j hij; rw [hd, Matrix.diagonal_apply_ne _ hij])
  have hu2 : (u.map (starRingEnd ℂ)).conjTranspose * u.map (starRingEnd ℂ) = 1 := by
    rw [conjTranspose_map_conj, ← Matrix.map_mul, hu, Matrix.map_one _ (map_zero _) (map_one _)]
  have hd2 : (u.map (starRingEnd ℂ)).conjTranspose * (-(s.map (starRingEnd ℂ))) * u.map (starRingEnd ℂ) =
      Matrix.diagonal fun i => -(hh.eigenvalues i : ℂ) := by
    rw [conjTranspose_map_conj, Matrix.mul_neg, Matrix.neg_mul, ← Matrix.map_mul, ← Matrix.map_mul, hd]
    funext a b
    by_cases hab : a = b
    · subst hab; simp
    · simp [Matrix.diagonal_apply_ne _ hab]
  have h2 := diag_roots hu2 (s := -(s.map (starRingEnd ℂ)))
    (by intro i j hij; rw [hd2, Matrix.diagonal_apply_ne _ hij])
  rw [h1, h2, Multiset.map_map]
  refine Multiset.map_congr rfl fun i _ => ?_
  simp only [hd2, hd, Function.comp_apply, Matrix.diagonal_apply_eq]

end Verif.Model
