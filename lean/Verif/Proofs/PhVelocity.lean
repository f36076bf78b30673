import Verif.Model.PhVelocity
import Verif.Proofs.DynMat4
import Verif.Proofs.DegVelocity

/-!
# Lemmas about phonon velocities
-/
namespace Verif.Model
open Verif.Spec

/-! ### The loop over blocks of bands -/

section Loop
variable (solver : (d : Nat) → Matrix (Fin d) (Fin d) ℂ → Matrix (Fin d) (Fin d) ℂ)

theorem hostBlock_in (v : BandVel) (ib d c : Nat) (hc : c < 3) (i j : Fin d) :
    hostBlock solver v ib d (ib + i) (ib + j) c = hostRotate solver (hostSub v ib c d) i j := by
  unfold hostBlock
  have h : (ib ≤ ib + i.1 ∧ ib + i.1 < ib + d) ∧ (ib ≤ ib + j.1 ∧ ib + j.1 < ib + d) ∧ c < 3 := by omega
  rw [dif_pos h]
  congr 1 <;> exact Fin.ext (by simp)

theorem hostBlock_out (v : BandVel) (ib d a b c : Nat)
    (h : ¬ ((ib ≤ a ∧ a < ib + d) ∧ (ib ≤ b ∧ b < ib + d) ∧ c < 3)) : hostBlock solver v ib d a b c = v a b c :=
  dif_neg h

theorem hostDegLoop_val (en : Nat → ℝ) (t : ℝ) (n : Nat) : ∀ fuel ib (v : BandVel), ib ≤ n → n - ib ≤ fuel →
    (∀ s d, (s, d) ∈ blocksLoop en t n fuel ib → 2 ≤ d → ∀ c < 3, ∀ i j : Fin d,
      hostDegLoop solver en t n fuel ib v (s + i) (s + j) c = hostRotate solver (hostSub v s c d) i j) ∧
    ∀ a b c, (∀ s d, (s, d) ∈ blocksLoop en t n fuel ib → 2 ≤ d →
      ¬ ((s ≤ a ∧ a < s + d) ∧ (s ≤ b ∧ b < s + d) ∧ c < 3)) →
      hostDegLoop solver en t n fuel ib v a b c = v a b c := by
  intro fuel
  induction fuel with
  | zero => intro ib v _ _; exact ⟨fun s d h => by simp [blocksLoop] at h, fun a b c _ => rfl⟩
  | succ fuel ih =>
    intro ib v h h'
    unfold hostDegLoop blocksLoop
    by_cases hn : ib < n
    · simp only [if_pos hn]
      obtain ⟨h1, h2, _, _⟩ := degBlockSize_spec en t n ib hn
      generalize degBlockSize en t n ib = d0 at *
      have e : ib + (d0 - 1) + 1 = ib + d0 := by omega
      rw [e]
      obtain ⟨v', hv'⟩ : ∃ v', v' = (if d0 > 1 then hostBlock solver v ib d0 else v) := ⟨_, rfl⟩
      rw [← hv']
      obtain ⟨i1, i2⟩ := ih (ib + d0) v' h2 (by omega)
      have hsp := blocksLoop_spec en t n fuel (ib + d0) h2 (by omega)
      have hge := blocksFrom_ge en t n _ _ hsp
      have hout : ∀ a b c, ¬ ((ib ≤ a ∧ a < ib + d0) ∧ (ib ≤ b ∧ b < ib + d0) ∧ c < 3) → v' a b c = v a b c := by
        intro a b c hab
        rw [hv']
        split_ifs with hd
        · exact hostBlock_out solver v ib d0 a b c hab
        · rfl
      refine ⟨?_, ?_⟩
      · intro s d hm hd c hc i j
        rcases List.mem_cons.mp hm with hm | hm
        · simp only [Prod.mk.injEq] at hm
          obtain ⟨rfl, rfl⟩ := hm
          rw [i2, hv', if_pos (by omega)]
          · exact hostBlock_in solver v s d c hc i j
          · intro s' d' hm' _ hc'
            have := hge _ _ hm'
            omega
        · rw [i1 s d hm hd c hc i j]
          have hs := hge _ _ hm
          refine congrArg (fun x => hostRotate solver x i j) ?_
          funext a b
          unfold hostSub
          rw [hout _ _ _ (by omega), hout _ _ _ (by omega)]
      · intro a b c hnot
        rw [i2 a b c fun s d hm hd => hnot s d (List.mem_cons_of_mem _ hm) hd]
        by_cases hd : 2 ≤ d0
        · exact hout a b c (hnot ib d0 (List.mem_cons_self ..) hd)
        · rw [hv', if_neg (by omega)]
    · simp only [if_neg hn]
      exact ⟨fun s d hm => by simp at hm, fun a b c _ => trivial⟩

theorem hostSub_hermitian (v : BandVel) (ib c d : Nat) : (hostSub v ib c d).conjTranspose = hostSub v ib c d := by
  funext i j
  rw [Matrix.conjTranspose_apply]
  unfold hostSub
  simp only [RCLike.star_def, map_mul, map_add, Complex.conj_conj, conj_half]
  ring

theorem hostRotate_eq {d : Nat} (s : Matrix (Fin d) (Fin d) ℂ) (hs : s.conjTranspose = s) :
    hostRotate solver s = (solver d s).conjTranspose * s * solver d s := by
  have h3 : ((solver d s).conjTranspose * s * solver d s).conjTranspose = (solver d s).conjTranspose * s * solver d s := by
    rw [Matrix.conjTranspose_mul, Matrix.conjTranspose_mul, Matrix.conjTranspose_conjTranspose, hs, Matrix.mul_assoc]
  funext i j
  unfold hostRotate
  have : (starRingEnd ℂ) (((solver d s).conjTranspose * s * solver d s) j i) =
      ((solver d s).conjTranspose * s * solver d s) i j := by
    conv_rhs => rw [← h3]
    rfl
  simp only [this]
  rw [show (0.5 : ℂ) = 1 / 2 by norm_num]
  ring

end Loop

/-! ### Blocks do not separate equal energies -/

theorem blocks_sep (en : Nat → ℝ) (t : ℝ) (ht : 0 ≤ t) (n : Nat)
    (hmono : ∀ i j, i ≤ j → j < n → en i ≤ en j) : ∀ (l : List (Nat × Nat)) (s : Nat), BlocksFrom en t n s l →
    ∀ a d, (a, d) ∈ l → ∀ j j', a ≤ j → j < a + d → s ≤ j' → j' < n → en j = en j' → a ≤ j' ∧ j' < a + d := by
  intro l
  induction l with
  | nil => intro s _ a d hm; simp at hm
  | cons x l ih =>
    obtain ⟨a0, d0⟩ := x
    rintro s ⟨rfl, h1, h2, h3, h4, h5⟩ a d hm j j' ha hj hs hn he
    have hin : ∀ k, a0 ≤ k → k < a0 + d0 → en k ≤ en a0 + t := by
      intro k hk hk'
      rcases Nat.eq_or_lt_of_le hk with rfl | hk
      · linarith
      · have := h3 k hk hk'
        rw [abs_le] at this
        linarith [this.1]
    have hout : ∀ k, a0 + d0 ≤ k → k < n → en a0 + t < en k := by
      intro k hk hk'
      have h6 := h4 (by omega)
      have h7 := hmono a0 (a0 + d0) (by omega) (by omega)
      have h8 := hmono (a0 + d0) k hk hk'
      rw [abs_sub_comm, abs_of_nonneg (by linarith)] at h6
      linarith
    rcases List.mem_cons.mp hm with hm | hm
    · simp only [Prod.mk.injEq] at hm
      obtain ⟨rfl, rfl⟩ := hm
      refine ⟨hs, ?_⟩
      by_contra hc
      have := hin j ha hj
      have := hout j' (by omega) hn
      linarith
    · have hge := blocksFrom_ge en t n _ _ h5 a d hm
      by_cases hc : a0 + d0 ≤ j'
      · exact ih (a0 + d0) h5 a d hm j j' ha hj hc hn he
      · exfalso
        have hb : a + d ≤ n := hge.2.2
        have := hin j' hs (by omega)
        have := hout j (by omega) (by omega)
        linarith

/-! ### Functions of a Hermitian matrix -/

section Func
variable {N : Type} [Fintype N] [DecidableEq N] {k : Nat}

theorem overlap_comm {d : Matrix N N ℂ} {e e' : Fin k → ℝ} {u u' : Matrix N (Fin k) ℂ}
    (h : IsEigenDecomposition d e u) (h' : IsEigenDecomposition d e' u') (a b : Fin k) :
    (e a : ℂ) * (u.conjTranspose * u') a b = (u.conjTranspose * u') a b * (e' b : ℂ) := by
  have h1 : u.conjTranspose * d = (Matrix.diagonal fun b => (e b : ℂ)) * u.conjTranspose := by
    calc u.conjTranspose * d = u.conjTranspose * d * (u * u.conjTranspose) := by rw [h.right, Matrix.mul_one]
      _ = u.conjTranspose * (d * u) * u.conjTranspose := by simp only [Matrix.mul_assoc]
      _ = _ := by rw [h.eigen, ← Matrix.mul_assoc u.conjTranspose, h.left, Matrix.one_mul]
  have h2 : (Matrix.diagonal fun b => (e b : ℂ)) * (u.conjTranspose * u') =
      (u.conjTranspose * u') * Matrix.diagonal fun b => (e' b : ℂ) := by
    rw [← Matrix.mul_assoc, ← h1, Matrix.mul_assoc, h'.eigen, Matrix.mul_assoc]
  have := congrFun (congrFun h2 a) b
  rwa [Matrix.diagonal_mul, Matrix.mul_diagonal] at this

theorem overlap_zero {d : Matrix N N ℂ} {e e' : Fin k → ℝ} {u u' : Matrix N (Fin k) ℂ}
    (h : IsEigenDecomposition d e u) (h' : IsEigenDecomposition d e' u') (a b : Fin k) (hab : e a ≠ e' b) :
    (u.conjTranspose * u') a b = 0 := by
  have h1 := overlap_comm h h' a b
  have h2 : ((e a : ℂ) - (e' b : ℂ)) * (u.conjTranspose * u') a b = 0 := by rw [sub_mul, h1]; ring
  rcases mul_eq_zero.mp h2 with h3 | h3
  · exact absurd (by exact_mod_cast sub_eq_zero.mp h3) hab
  · exact h3

/-- A function of a Hermitian matrix does not depend on the choice of the eigenvectors. -/
theorem func_unique {d : Matrix N N ℂ} {e e' : Fin k → ℝ} {u u' : Matrix N (Fin k) ℂ}
    (h : IsEigenDecomposition d e u) (h' : IsEigenDecomposition d e' u') (g : ℝ → ℝ) :
    u * (Matrix.diagonal fun b => (g (e b) : ℂ)) * u.conjTranspose =
      u' * (Matrix.diagonal fun b => (g (e' b) : ℂ)) * u'.conjTranspose := by
  have h1 : (Matrix.diagonal fun b => (g (e b) : ℂ)) * (u.conjTranspose * u') =
      (u.conjTranspose * u') * Matrix.diagonal fun b => (g (e' b) : ℂ) := by
    funext a b
    rw [Matrix.diagonal_mul, Matrix.mul_diagonal]
    by_cases hab : e a = e' b
    · rw [hab]; ring
    · rw [overlap_zero h h' a b hab]; ring
  calc u * (Matrix.diagonal fun b => (g (e b) : ℂ)) * u.conjTranspose
      = u * ((Matrix.diagonal fun b => (g (e b) : ℂ)) * (u.conjTranspose * u')) * u'.conjTranspose := by
        simp only [Matrix.mul_assoc, h'.right, Matrix.mul_one]
    _ = _ := by
        rw [h1, ← Matrix.mul_assoc, ← Matrix.mul_assoc, h.right, Matrix.one_mul]

/-- Within a set of bands that is not coupled to the others, a change of eigenvectors is a unitary transformation. -/
theorem block_similar {u u' : Matrix N (Fin k) ℂ} (hr : u * u.conjTranspose = 1) (hl' : u'.conjTranspose * u' = 1)
    (x : Matrix N N ℂ) {d : Nat} (p : Fin d → Fin k) (hp : Function.Injective p)
    (hz : ∀ a i, (∀ j, p j ≠ a) → (u.conjTranspose * u') a (p i) = 0) :
    ∃ w : Matrix (Fin d) (Fin d) ℂ, w.conjTranspose * w = 1 ∧
      (u'.conjTranspose * x * u').submatrix p p = w.conjTranspose * (u.conjTranspose * x * u).submatrix p p * w := by
  obtain ⟨W, hW⟩ : ∃ W, W = u.conjTranspose * u' := ⟨_, rfl⟩
  rw [← hW] at hz
  have hu : u' = u * W := by rw [hW, ← Matrix.mul_assoc, hr, Matrix.one_mul]
  have hWW : W.conjTranspose * W = 1 := by
    rw [hW, Matrix.conjTranspose_mul, Matrix.conjTranspose_conjTranspose, Matrix.mul_assoc, ← Matrix.mul_assoc u, hr,
      Matrix.one_mul, hl']
  have hV : u'.conjTranspose * x * u' = W.conjTranspose * (u.conjTranspose * x * u) * W := by
    rw [hu, Matrix.conjTranspose_mul]
    simp only [Matrix.mul_assoc]
  have hsum : ∀ (g : Fin k → ℂ), (∀ a, (∀ j, p j ≠ a) → g a = 0) → ∑ a, g a = ∑ j, g (p j) := by
    intro g hg
    refine (Fintype.sum_of_injective p hp _ _ (fun a ha => hg a fun j hj => ha ⟨j, hj⟩) fun j => rfl).symm
  refine ⟨W.submatrix p p, ?_, ?_⟩
  · funext i j
    have := congrFun (congrFun hWW (p i)) (p j)
    rw [Matrix.mul_apply, hsum _ fun a ha => by rw [hz a j ha, mul_zero]] at this
    rw [Matrix.mul_apply]
    refine Eq.trans ?_ (this.trans ?_)
    · rfl
    · simp only [Matrix.one_apply, hp.eq_iff]
  · funext i j
    rw [hV, Matrix.submatrix_apply, Matrix.mul_apply, hsum _ fun a ha => by rw [hz a j ha, mul_zero], Matrix.mul_apply]
    refine Finset.sum_congr rfl fun b _ => ?_
    rw [Matrix.submatrix_apply]
    refine congrArg (· * _) ?_
    rw [Matrix.mul_apply, hsum _ fun a ha => by
      rw [Matrix.conjTranspose_apply, hz a i ha, star_zero, zero_mul], Matrix.mul_apply]
    rfl

end Func

/-- The diagonal of a diagonal matrix that is unitarily equivalent to `s` lists the eigenvalues of `s`. -/
theorem diag_roots {d : Nat} {s u : Matrix (Fin d) (Fin d) ℂ} (hu : u.conjTranspose * u = 1)
    (hd : ∀ i j, i ≠ j → (u.conjTranspose * s * u) i j = 0) :
    s.charpoly.roots = Finset.univ.val.map fun i => (u.conjTranspose * s * u) i i := by
  have hu' : u * u.conjTranspose = 1 := mul_eq_one_comm.mp hu
  have h1 : (u.conjTranspose * s * u).charpoly = s.charpoly := by
    rw [Matrix.charpoly_mul_comm, ← Matrix.mul_assoc, hu', Matrix.one_mul]
  have h2 : u.conjTranspose * s * u = Matrix.diagonal fun i => (u.conjTranspose * s * u) i i := by
    funext i j
    by_cases h : i = j
    · subst h; rw [Matrix.diagonal_apply_eq]
    · rw [Matrix.diagonal_apply_ne _ h, hd i j h]
  rw [← h1, h2, Matrix.charpoly_diagonal]
  have h3 : ∀ e : Fin d → ℂ, (∏ b, (Polynomial.X - Polynomial.C (e b))) =
      ((Finset.univ.val.map e).map fun a => Polynomial.X - Polynomial.C a).prod := by
    intro e
    rw [Multiset.map_map]
    rfl
  rw [h3, Polynomial.roots_multiset_prod_X_sub_C]
  simp only [Matrix.diagonal_apply_eq]

end Verif.Model
