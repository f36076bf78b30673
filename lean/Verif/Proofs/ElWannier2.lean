import Verif.Proofs.ElWannier
import Verif.Props.DegVelocity

/-!
# Wannier interpolation: velocities
-/
namespace Verif.Model
open Verif.Spec Verif.Props

/-! ### The treatment of degenerate bands, for any operator -/

section Generic
variable {n : Nat} (solver : (d : Nat) → Matrix (Fin d) (Fin d) ℂ → Matrix (Fin d) (Fin d) ℂ)

theorem degLoop_block (en : Nat → ℝ) (t : ℝ) (v : Fin 3 → Matrix (Fin n) (Fin n) ℂ) (l : List (Nat × Nat))
    (hl : Blocks en t n l) :
    (∀ s d, (s, d) ∈ l → 2 ≤ d → ∀ k < 3, ∀ i j : Fin d, hostDegLoop solver en t n n 0 (bandVel v) (s + i) (s + j) k =
      ((solver d (hostSub (bandVel v) s k d)).conjTranspose * hostSub (bandVel v) s k d *
        solver d (hostSub (bandVel v) s k d) : Matrix (Fin d) (Fin d) ℂ) i j) ∧
    ∀ a b k, (∀ s d, (s, d) ∈ l → 2 ≤ d → ¬ ((s ≤ a ∧ a < s + d) ∧ s ≤ b ∧ b < s + d)) →
      hostDegLoop solver en t n n 0 (bandVel v) a b k = bandVel v a b k := by
  have hb : l = blocksLoop en t n n 0 :=
    blocksFrom_unique _ t _ _ _ 0 hl (blocksLoop_spec _ _ _ _ _ (by omega) (by omega))
  obtain ⟨h1, h2⟩ := hostDegLoop_val solver en t n n 0 (bandVel v) (by omega) (by omega)
  refine ⟨fun s d hm hd k hk i j => ?_, fun a b k hn => h2 a b k fun s d hm hd hin => ?_⟩
  · rw [h1 s d (hb ▸ hm) hd k hk i j, hostRotate_eq solver _ (hostSub_hermitian _ _ _ _)]
  · exact hn s d (hb ▸ hm) hd ⟨hin.1, hin.2.1⟩

theorem bandVel_hermitian (v : Fin 3 → Matrix (Fin n) (Fin n) ℂ) (hv : ∀ i, (v i).conjTranspose = v i) (a b k : Nat) :
    bandVel v b a k = (starRingEnd ℂ) (bandVel v a b k) := by
  unfold bandVel
  by_cases h : a < n ∧ b < n ∧ k < 3
  · rw [dif_pos h, dif_pos ⟨h.2.1, h.1, h.2.2⟩]
    exact (congrFun (congrFun (hv ⟨k, h.2.2⟩) ⟨b, h.2.1⟩) ⟨a, h.1⟩).symm
  · rw [dif_neg h, dif_neg fun h' => h ⟨h'.2.1, h'.1, h'.2.2⟩, map_zero]

theorem degLoop_hermitian (en : Nat → ℝ) (t : ℝ) (v : Fin 3 → Matrix (Fin n) (Fin n) ℂ)
    (hv : ∀ i, (v i).conjTranspose = v i) (a b k : Nat) :
    hostDegLoop solver en t n n 0 (bandVel v) b a k = (starRingEnd ℂ) (hostDegLoop solver en t n n 0 (bandVel v) a b k) := by
  obtain ⟨l, hl, _⟩ := C73_partition en t n
  obtain ⟨h1, h2⟩ := degLoop_block solver en t v l hl
  have hraw := bandVel_hermitian v hv a b k
  by_cases hex : ∃ s d, (s, d) ∈ l ∧ 2 ≤ d ∧ (s ≤ a ∧ a < s + d) ∧ s ≤ b ∧ b < s + d
  · obtain ⟨s, d, hm, hd, ⟨ha1, ha2⟩, hb1, hb2⟩ := hex
    by_cases hk : k < 3
    · have e : ∀ i j : Fin d, hostDegLoop solver en t n n 0 (bandVel v) (s + i) (s + j) k =
          (starRingEnd ℂ) (hostDegLoop solver en t n n 0 (bandVel v) (s + j) (s + i) k) := by
        intro i j
        rw [h1 s d hm hd k hk, h1 s d hm hd k hk]
        obtain ⟨H, hH⟩ : ∃ H, H = hostSub (bandVel v) s k d := ⟨_, rfl⟩
        rw [← hH]
        have hh : ((solver d H).conjTranspose * H * solver d H).conjTranspose =
            (solver d H).conjTranspose * H * solver d H := by
          have : H.conjTranspose = H := by rw [hH]; exact hostSub_hermitian _ _ _ _
          rw [Matrix.conjTranspose_mul, Matrix.conjTranspose_mul, Matrix.conjTranspose_conjTranspose, this,
            Matrix.mul_assoc]
        conv_lhs => rw [← hh]
        rfl
      have := e ⟨b - s, by omega⟩ ⟨a - s, by omega⟩
      rwa [show s + (b - s) = b by omega, show s + (a - s) = a by omega] at this
    · obtain ⟨g1, g2⟩ := hostDegLoop_val solver en t n n 0 (bandVel v) (by omega) (by omega)
      rw [g2 b a k fun _ _ _ _ h => hk h.2.2, g2 a b k fun _ _ _ _ h => hk h.2.2, hraw]
  · have hn : ∀ s d, (s, d) ∈ l → 2 ≤ d → ¬ ((s ≤ a ∧ a < s + d) ∧ s ≤ b ∧ b < s + d) :=
      fun s d hm hd h => hex ⟨s, d, hm, hd, h⟩
    have hn' : ∀ s d, (s, d) ∈ l → 2 ≤ d → ¬ ((s ≤ b ∧ b < s + d) ∧ s ≤ a ∧ a < s + d) :=
      fun s d hm hd h => hex ⟨s, d, hm, hd, ⟨h.2, h.1⟩⟩
    rw [h2 a b k hn, h2 b a k hn', hraw]

/-- The velocities of a block do not depend on the eigenvectors. -/
theorem operator_roots_unique {h : Matrix (Fin n) (Fin n) ℂ} {e e' : Fin n → ℝ} {u u' : Matrix (Fin n) (Fin n) ℂ}
    (d1 : IsEigenDecomposition h e u) (d2 : IsEigenDecomposition h e' u') (t : ℝ) (ht : 0 ≤ t)
    (x : Matrix (Fin n) (Fin n) ℂ) (l : List (Nat × Nat)) (hl : Blocks (bandFn e) t n l) {s d : Nat} (hm : (s, d) ∈ l)
    (hb : s + d ≤ n) :
    ((u.conjTranspose * x * u).submatrix (blockIx hb) (blockIx hb)).charpoly.roots =
      ((u'.conjTranspose * x * u').submatrix (blockIx hb) (blockIx hb)).charpoly.roots := by
  have ee := eigenvalues_unique (by simp) d1 d2 rfl
  have hsep := blocks_sep _ t ht n (bandFn_mono _ d1.sorted) l 0 hl s d hm
  obtain ⟨w, w1, w2⟩ := block_similar d1.right d2.left x (blockIx hb) (blockIx_injective hb) (by
    intro a j hj
    refine overlap_zero d1 d2 a _ fun hab => ?_
    have hfr : bandFn e (s + j) = bandFn e a := by
      unfold bandFn
      rw [dif_pos (by omega), dif_pos a.2]
      rw [← ee] at hab
      exact hab.symm
    obtain ⟨g1, g2⟩ := hsep (s + j) a (by omega) (by omega) (by omega) a.2 hfr
    exact hj ⟨a - s, by omega⟩ (Fin.ext (by simp [blockIx]; omega)))
  rw [w2, Matrix.charpoly_mul_comm, ← Matrix.mul_assoc, mul_eq_one_comm.mp w1, Matrix.one_mul]

end Generic

variable {W R : Nat}

/-- The library diagonalizes every Hermitian matrix. -/
def ElSolves (eig : ElSolver W) : Prop :=
  ∀ d : Matrix (Fin W) (Fin W) ℂ, d.IsHermitian → IsEigenDecomposition d (eig d).1 (eig d).2

theorem elDer_hermitian (w : WannierData W R) (k : Vec3) (i : Fin 3) : (elDer w k i).conjTranspose = elDer w k i := by
  funext a b
  rw [Matrix.conjTranspose_apply]
  unfold elDer
  simp only [RCLike.star_def, map_mul, map_add, Complex.conj_conj, conj_half]
  ring

theorem elRaw_hermitian (eig : ElSolver W) (w : WannierData W R) (k : Vec3) (i : Fin 3) :
    (elRaw eig w k i).conjTranspose = elRaw eig w k i := by
  unfold elRaw
  rw [Matrix.conjTranspose_mul, Matrix.conjTranspose_mul, Matrix.conjTranspose_conjTranspose, elDer_hermitian,
    Matrix.mul_assoc]

/-- The library, used on complex conjugate matrices. -/
noncomputable def elConjSolver (eig : ElSolver W) : ElSolver W := fun d =>
  ((eig (d.map (starRingEnd ℂ))).1, (eig (d.map (starRingEnd ℂ))).2.map (starRingEnd ℂ))

theorem elConjSolver_solves (eig : ElSolver W) (he : ElSolves eig) : ElSolves (elConjSolver eig) := by
  intro d hd
  have hd' : (d.map (starRingEnd ℂ)).IsHermitian := by
    show (d.map (starRingEnd ℂ)).conjTranspose = d.map (starRingEnd ℂ)
    rw [conjTranspose_map_conj, hd]
  have h := he _ hd'
  refine ⟨h.sorted, ?_, ?_, ?_⟩
  · show ((eig (d.map (starRingEnd ℂ))).2.map (starRingEnd ℂ)).conjTranspose * (eig (d.map (starRingEnd ℂ))).2.map (starRingEnd ℂ) = 1
    rw [conjTranspose_map_conj, ← Matrix.map_mul, h.left, Matrix.map_one _ (map_zero _) (map_one _)]
  · show (eig (d.map (starRingEnd ℂ))).2.map (starRingEnd ℂ) * ((eig (d.map (starRingEnd ℂ))).2.map (starRingEnd ℂ)).conjTranspose = 1
    rw [conjTranspose_map_conj, ← Matrix.map_mul, h.right, Matrix.map_one _ (map_zero _) (map_one _)]
  · have := congrArg (fun m => m.map (starRingEnd ℂ)) h.eigen
    simp only [Matrix.map_mul, map_conj_conj] at this
    refine this.trans ?_
    refine congrArg _ ?_
    funext a b
    by_cases hab : a = b
    · subst hab; simp [elConjSolver]
    · simp [Matrix.diagonal_apply_ne _ hab]

section Real
variable (w : WannierData W R) (hreal : ∀ r a b, (starRingEnd ℂ) (w.h0R r a b) = w.h0R r a b)
include hreal

theorem elDiagonalize_neg (eig : ElSolver W) (k : Vec3) :
    (elDiagonalize eig w (-k)).1 = (elDiagonalize (elConjSolver eig) w k).1 ∧
    (elDiagonalize eig w (-k)).2 = (elDiagonalize (elConjSolver eig) w k).2.map (starRingEnd ℂ) := by
  unfold elDiagonalize elConjSolver
  rw [blochH_conj w hreal]
  exact ⟨rfl, (map_conj_conj _).symm⟩

theorem elDer_neg (k : Vec3) (i : Fin 3) : elDer w (-k) i = -((elDer w k i).map (starRingEnd ℂ)) := by
  funext a b
  refine Eq.trans (b := -(starRingEnd ℂ) (elDer w k i a b)) ?_ rfl
  unfold elDer
  rw [shiftQ_neg, shiftQ_neg, blochH_conj w hreal, blochH_conj w hreal, neg_neg]
  simp only [Matrix.map_apply, map_mul, map_add, map_div₀, map_sub, Complex.conj_conj, conj_half,
    Complex.conj_ofReal]
  ring

theorem elRaw_neg (eig : ElSolver W) (k : Vec3) (i : Fin 3) :
    elRaw eig w (-k) i = -((elRaw (elConjSolver eig) w k i).map (starRingEnd ℂ)) := by
  unfold elRaw
  obtain ⟨_, h2⟩ := elDiagonalize_neg w hreal eig k
  simp only [h2, elDer_neg w hreal, conjTranspose_map_conj, Matrix.map_mul, Matrix.mul_neg, Matrix.neg_mul]

end Real

/-! ### Derivative -/

/-- The derivative of the Hamiltonian with respect to a component of the wavevector. -/
noncomputable def blochDer (w : WannierData W R) (k : Vec3) (i : Fin 3) : Matrix (Fin W) (Fin W) ℂ := fun a b =>
  ∑ r, ((w.images a b r).map fun v => Complex.I * (v i : ℂ) * cis (vdot k v)).sum /
    ((w.degeneracy r : ℂ) * ((w.images a b r).length : ℂ)) * w.h0R r a b

theorem cis_line (k v : Vec3) (i : Fin 3) (t : ℝ) :
    cis (vdot (k + Pi.single i t) v) = cis (vdot k v) * cis (t * v i) := by
  rw [← cis_add]
  congr 1
  fin_cases i <;> simp [vdot] <;> ring

theorem cis_hasDeriv (x t : ℝ) : HasDerivAt (fun t : ℝ => cis (t * x)) (Complex.I * (x : ℂ) * cis (t * x)) t := by
  unfold cis
  have h : HasDerivAt (fun t : ℝ => Complex.I * ((t * x : ℝ) : ℂ)) (Complex.I * (x : ℂ)) t := by
    have h1 : HasDerivAt (fun t : ℝ => ((t * x : ℝ) : ℂ)) ((x : ℝ) : ℂ) t := by
      have := ((hasDerivAt_id t).mul_const x).ofReal_comp
      simpa using this
    exact h1.const_mul Complex.I
  have := h.cexp
  refine this.congr_deriv ?_
  ring

theorem list_sum_hasDeriv {α : Type} (l : List α) (f : α → ℝ → ℂ) (f' : α → ℂ) (t : ℝ)
    (h : ∀ x ∈ l, HasDerivAt (f x) (f' x) t) : HasDerivAt (fun t => (l.map fun x => f x t).sum) (l.map f').sum t := by
  induction l with
  | nil => simpa using hasDerivAt_const t (0 : ℂ)
  | cons x l ih =>
    simp only [List.map_cons, List.sum_cons]
    exact (h x (by simp)).add (ih fun y hy => h y (by simp [hy]))

theorem blochH_hasDeriv (w : WannierData W R) (k : Vec3) (i : Fin 3) (a b : Fin W) :
    HasDerivAt (fun t : ℝ => blochH w (k + Pi.single i t) a b) (blochDer w k i a b) 0 := by
  have e : (fun t : ℝ => blochH w (k + Pi.single i t) a b) = fun t => ∑ r, ((w.images a b r).map fun v =>
      cis (vdot k v) * cis (t * v i)).sum / ((w.degeneracy r : ℂ) * ((w.images a b r).length : ℂ)) * w.h0R r a b := by
    funext t
    rw [blochH_apply]
    simp only [cis_line]
  rw [e]
  unfold blochDer
  refine HasDerivAt.fun_sum fun r _ => ?_
  refine HasDerivAt.mul_const (HasDerivAt.div_const ?_ _) _
  refine (list_sum_hasDeriv _ _ (fun v => Complex.I * (v i : ℂ) * cis (vdot k v)) 0 fun v _ => ?_)
  refine ((cis_hasDeriv (v i) 0).const_mul (cis (vdot k v))).congr_deriv ?_
  rw [zero_mul, cis_zero]
  ring

theorem cis_sub_cis (x : ℝ) : cis x - cis (-x) = 2 * Complex.I * (Real.sin x : ℂ) := by
  rw [← hostPhase_eq, ← hostPhase_eq]
  apply Complex.ext
  · simp [hostPhase]
  · simp [hostPhase, Complex.sin_ofReal_re]; ring

theorem shiftQ_single (k : Vec3) (i : Fin 3) (d : ℝ) : shiftQ k i d = k + Pi.single i d := by
  funext j
  by_cases hj : j = i
  · subst hj; simp [shiftQ]
  · simp [shiftQ, hj]

theorem central_difference (w : WannierData W R) (k : Vec3) (i : Fin 3) (d : ℝ) (hd : 0 < d) (a b : Fin W) :
    ‖(blochH w (shiftQ k i d) a b - blochH w (shiftQ k i (-d)) a b) / ((2 * d : ℝ) : ℂ) - blochDer w k i a b‖ ≤
      ∑ r, ((w.images a b r).map fun v => d ^ 2 * |v i| ^ 3 / 6).sum /
        (|w.degeneracy r| * ((w.images a b r).length : ℝ)) * ‖w.h0R r a b‖ := by
  have hd' : ((2 * d : ℝ) : ℂ) ≠ 0 := by
    have : (2 * d : ℝ) ≠ 0 := by positivity
    exact_mod_cast this
  have e : (blochH w (shiftQ k i d) a b - blochH w (shiftQ k i (-d)) a b) / ((2 * d : ℝ) : ℂ) - blochDer w k i a b =
      ∑ r, ((w.images a b r).map fun v => Complex.I * cis (vdot k v) * ((Real.sin (d * v i) / d - v i : ℝ) : ℂ)).sum /
        ((w.degeneracy r : ℂ) * ((w.images a b r).length : ℂ)) * w.h0R r a b := by
    rw [shiftQ_single, shiftQ_single, blochH_apply, blochH_apply, blochDer, ← Finset.sum_sub_distrib, Finset.sum_div,
      ← Finset.sum_sub_distrib]
    refine Finset.sum_congr rfl fun r _ => ?_
    rw [← sub_mul, ← sub_div, mul_div_right_comm, ← sub_mul, div_right_comm, ← sub_div]
    refine congrArg (· / _ * _) ?_
    induction w.images a b r with
    | nil => simp
    | cons v l ih =>
      simp only [List.map_cons, List.sum_cons, cis_line] at ih ⊢
      rw [← ih]
      have := cis_sub_cis (d * v i)
      rw [neg_mul]
      have hh : (cis (vdot k v) * cis (d * v i) - cis (vdot k v) * cis (-(d * v i))) / ((2 * d : ℝ) : ℂ) -
          Complex.I * (v i : ℂ) * cis (vdot k v) =
          Complex.I * cis (vdot k v) * ((Real.sin (d * v i) / d - v i : ℝ) : ℂ) := by
        rw [← mul_sub, this]
        have hdc : (d : ℂ) ≠ 0 := by exact_mod_cast hd.ne'
        push_cast
        field_simp
      rw [← hh]
      ring
  rw [e]
  refine (norm_sum_le _ _).trans (Finset.sum_le_sum fun r _ => ?_)
  rw [norm_mul, norm_div, norm_mul, Complex.norm_real, Real.norm_eq_abs, Complex.norm_natCast]
  refine mul_le_mul_of_nonneg_right (div_le_div_of_nonneg_right ?_ (by positivity)) (norm_nonneg _)
  induction w.images a b r with
  | nil => simp
  | cons v l ih =>
    simp only [List.map_cons, List.sum_cons]
    refine (norm_add_le _ _).trans (add_le_add ?_ ih)
    rw [norm_mul, norm_mul, Complex.norm_I, cis_norm, one_mul, one_mul, Complex.norm_real, Real.norm_eq_abs]
    have h1 := Real.abs_sub_sin_le (d * v i)
    have h2 : Real.sin (d * v i) / d - v i = -((d * v i - Real.sin (d * v i)) / d) := by
      field_simp; ring
    rw [h2, abs_neg, abs_div, abs_of_pos hd, div_le_iff₀ hd]
    refine h1.trans (le_of_eq ?_)
    rw [abs_mul, abs_of_pos hd]
    ring

theorem unitary_entry_le {n : Nat} {u : Matrix (Fin n) (Fin n) ℂ} (hu : u.conjTranspose * u = 1) (m a : Fin n) :
    ‖u m a‖ ≤ 1 := by
  have h := congrFun (congrFun hu a) a
  rw [Matrix.mul_apply, Matrix.one_apply_eq] at h
  have h1 : ∑ j, ‖u j a‖ ^ 2 = 1 := by
    have h2 : ∀ j, u.conjTranspose a j * u j a = ((‖u j a‖ ^ 2 : ℝ) : ℂ) := by
      intro j
      rw [Matrix.conjTranspose_apply, RCLike.star_def, Complex.conj_mul']
      push_cast; rfl
    simp only [h2] at h
    exact_mod_cast h
  have h3 : ‖u m a‖ ^ 2 ≤ 1 := by
    rw [← h1]
    exact Finset.single_le_sum (f := fun j => ‖u j a‖ ^ 2) (fun j _ => by positivity) (Finset.mem_univ m)
  nlinarith [norm_nonneg (u m a)]

end Verif.Model
