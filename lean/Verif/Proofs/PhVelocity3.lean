import Verif.Proofs.PhVelocity2

/-!
# Phonon velocities on the device, and a crystal with velocities near the zone centre
-/
namespace Verif.Model
open Verif.Spec

section Dev
variable {A n1 n2 n3 : Nat} [NeZero n1] [NeZero n2] [NeZero n3]

theorem devAll_eq (eig : EigenSolver A) (c : PhCrystal A) (f : FcVec A n1 n2 n3) (order : Nat → List Vec3)
    (ho : ∀ j, (order j).Perm (c.gVectors n1 n2 n3)) (qs : Nat → Vec3) (j : Nat) :
    devAll eig c f order qs j = diagonalizeFromCoordinates eig c f (devAllVectors qs j) false := by
  unfold devAll devDiagonalize diagonalizeFromCoordinates
  rw [devHamiltonian_eq c f (order j) (ho j)]
  simp only [devFrequency_eq]

theorem devAllVectors_zero (qs : Nat → Vec3) (iK : Nat) : devAllVectors qs (iK * 7) = qs iK := by
  unfold devAllVectors
  rw [dif_pos (by omega), show iK * 7 / 7 = iK by omega]

theorem devAllVectors_plus (qs : Nat → Vec3) (iK : Nat) (i : Fin 3) :
    devAllVectors qs (iK * 7 + i * 2 + 1) = shiftQ (qs iK) i constDeltaQ := by
  unfold devAllVectors
  have h1 : (iK * 7 + i.1 * 2 + 1) / 7 = iK := by omega
  have h2 : (iK * 7 + i.1 * 2 + 1) % 7 = i.1 * 2 + 1 := by omega
  rw [dif_neg (by omega), h1]
  have h3 : (⟨((iK * 7 + i.1 * 2 + 1) % 7 - 1) / 2, by omega⟩ : Fin 3) = i := Fin.ext (by simp only; omega)
  rw [if_pos (by omega)]
  exact congrArg (fun x => shiftQ (qs iK) x constDeltaQ) h3

theorem devAllVectors_minus (qs : Nat → Vec3) (iK : Nat) (i : Fin 3) :
    devAllVectors qs (iK * 7 + i * 2 + 2) = shiftQ (qs iK) i (-constDeltaQ) := by
  unfold devAllVectors
  have h1 : (iK * 7 + i.1 * 2 + 2) / 7 = iK := by omega
  have h2 : (iK * 7 + i.1 * 2 + 2) % 7 = i.1 * 2 + 2 := by omega
  rw [dif_neg (by omega), h1]
  have h3 : (⟨((iK * 7 + i.1 * 2 + 2) % 7 - 1) / 2, by omega⟩ : Fin 3) = i := Fin.ext (by simp only; omega)
  rw [if_neg (by omega)]
  exact congrArg (fun x => shiftQ (qs iK) x (-constDeltaQ)) h3

theorem sqrtD_apply (eig : EigenSolver A) (c : PhCrystal A) (f : FcVec A n1 n2 n3) (q : Vec3) (m n : Fin A × Fin 3) :
    sqrtD eig c f q m n = ∑ l, (diagonalizeFromCoordinates eig c f q false).2 m l *
      ((diagonalizeFromCoordinates eig c f q false).1 l : ℂ) *
      (starRingEnd ℂ) ((diagonalizeFromCoordinates eig c f q false).2 n l) := by
  unfold sqrtD
  rw [Matrix.mul_apply]
  refine Finset.sum_congr rfl fun l _ => ?_
  rw [Matrix.mul_diagonal]
  rfl

theorem devDer_eq (eig : EigenSolver A) (c : PhCrystal A) (f : FcVec A n1 n2 n3) (order : Nat → List Vec3)
    (ho : ∀ j, (order j).Perm (c.gVectors n1 n2 n3)) (qs : Nat → Vec3) (iK : Nat) (i : Fin 3) (m n : Fin A × Fin 3) :
    devDer eig c f order qs iK i m n = (sqrtD eig c f (shiftQ (qs iK) i constDeltaQ) m n -
      sqrtD eig c f (shiftQ (qs iK) i (-constDeltaQ)) m n) / ((2 * constDeltaQ : ℝ) : ℂ) := by
  unfold devDer
  simp only [devAll_eq eig c f order ho, devAllVectors_plus, devAllVectors_minus]
  rw [foldl_add_map, sum_finRange, zero_add, Finset.sum_sub_distrib, sqrtD_apply, sqrtD_apply]

theorem devRaw_eq (eig : EigenSolver A) (c : PhCrystal A) (f : FcVec A n1 n2 n3) (order : Nat → List Vec3)
    (ho : ∀ j, (order j).Perm (c.gVectors n1 n2 n3)) (qs : Nat → Vec3) (iK : Nat) (i : Fin 3) :
    devRaw eig c f order qs iK i = if vdot (qs iK) (qs iK) > 1.0e-6 then rawVelocity eig c f (qs iK) i else 0 := by
  have hn : 0 + qs iK 0 * qs iK 0 + qs iK 1 * qs iK 1 + qs iK 2 * qs iK 2 = vdot (qs iK) (qs iK) := by
    simp only [vdot]; ring
  funext m n
  unfold devRaw
  simp only [hn]
  by_cases h : vdot (qs iK) (qs iK) > 1.0e-6
  · have e : (if vdot (qs iK) (qs iK) > 1.0e-6 then rawVelocity eig c f (qs iK) i else 0) =
      rawVelocity eig c f (qs iK) i := if_pos h
    rw [if_pos h, e]
    unfold rawVelocity
    rw [Matrix.mul_apply]
    refine Finset.sum_congr rfl fun l _ => ?_
    simp only [devAll_eq eig c f order ho, devAllVectors_zero]
    refine congrArg (· * _) ?_
    unfold devTmpV
    rw [Matrix.mul_apply]
    refine Finset.sum_congr rfl fun k _ => ?_
    simp only [devAll_eq eig c f order ho, devAllVectors_zero, devDer_eq eig c f order ho]
    unfold velDer
    rw [mul_assoc]
    rfl
  · have e : (if vdot (qs iK) (qs iK) > 1.0e-6 then rawVelocity eig c f (qs iK) i else 0) = 0 := if_neg h
    rw [if_neg h, e]
    rfl

end Dev

/-! ### A crystal with velocities near the zone centre -/

theorem hermitian_rank_one {N : Type} [Fintype N] [DecidableEq N] {k : Nat} {d : Matrix N N ℂ} {e : Fin k → ℝ}
    {u : Matrix N (Fin k) ℂ} (h : IsEigenDecomposition d e u) (lam : ℝ) (hl : 0 < lam)
    (hsq : d * d = (lam : ℂ) • d) (htr : d.trace = lam) : ∑ b, frequency (e b) = Real.sqrt lam := by
  have hv : ∀ b, e b * e b = lam * e b := by
    intro b
    have h1 : d * d * u = u * Matrix.diagonal fun b => ((e b * e b : ℝ) : ℂ) := by
      rw [Matrix.mul_assoc, h.eigen, ← Matrix.mul_assoc, h.eigen, Matrix.mul_assoc, Matrix.diagonal_mul_diagonal]
      simp
    have h2 : d * d * u = u * Matrix.diagonal fun b => ((lam * e b : ℝ) : ℂ) := by
      rw [hsq, Matrix.smul_mul, h.eigen, ← Matrix.mul_smul]
      refine congrArg _ ?_
      funext a b
      by_cases hab : a = b
      · subst hab; simp
      · simp [Matrix.diagonal_apply_ne _ hab]
    have h3 := congrArg (fun m => u.conjTranspose * m) (h1.symm.trans h2)
    simp only [← Matrix.mul_assoc, h.left, Matrix.one_mul] at h3
    have h4 := congrFun (congrFun h3 b) b
    rw [Matrix.diagonal_apply_eq, Matrix.diagonal_apply_eq] at h4
    exact_mod_cast h4
  have hs : ∑ b, e b = lam := by
    have := (trace_eq h).symm.trans htr
    exact_mod_cast this
  have hf : ∀ b, frequency (e b) = e b / Real.sqrt lam := by
    intro b
    rcases mul_eq_mul_right_iff.mp (hv b) with h1 | h1
    · rw [h1]
      unfold frequency
      rw [if_neg (by linarith), eq_div_iff (Real.sqrt_pos.mpr hl).ne', Real.mul_self_sqrt hl.le]
    · rw [h1, (frequency_zero 0).mpr rfl, zero_div]
  rw [Finset.sum_congr rfl fun b _ => hf b, ← Finset.sum_div, hs]
  exact Real.div_sqrt

theorem sqrtD_trace {A n1 n2 n3 : Nat} [NeZero n1] [NeZero n2] [NeZero n3] (eig : EigenSolver A) (he : Solves eig)
    (c : PhCrystal A) (f : FcVec A n1 n2 n3) (q : Vec3) :
    (sqrtD eig c f q).trace = ((∑ b, frequency ((eig (massScaled c (dynMatrix c f q))).1 b) : ℝ) : ℂ) := by
  have h := he _ (massScaled_hermitian c (dynMatrix c f q))
  have h2 : sqrtD eig c f q = (eig (massScaled c (dynMatrix c f q))).2 *
      Matrix.diagonal (fun b => ((frequency ((eig (massScaled c (dynMatrix c f q))).1 b) : ℝ) : ℂ)) *
      (eig (massScaled c (dynMatrix c f q))).2.conjTranspose := rfl
  rw [h2, Matrix.trace_mul_comm, ← Matrix.mul_assoc, h.left, Matrix.one_mul, Matrix.trace_diagonal]
  simp

/-- The amplitude of the plane wave on each atom. -/
noncomputable def dipoleWave (t : ℝ) : Fin 2 × Fin 3 → ℂ := fun a =>
  if a.2 = 0 then (if a.1 = 0 then 1 else -Complex.exp (Complex.I * (t : ℂ))) else 0

theorem cubic_gZ (t : ℝ) (a : Fin 2 × Fin 3) : (cubic 1 dipole).gZ ![t, 0, 0] a.2 a.1 =
    if a.2 = 0 then (if a.1 = 0 then t else -t) else 0 := by
  obtain ⟨na, i⟩ := a
  simp only [PhCrystal.gZ, cubic, dipole]
  fin_cases na <;> fin_cases i <;> simp

theorem cubic_arg (t : ℝ) (a b : Fin 2) : (cubic 1 dipole).arg a b ![t, 0, 0] =
    (if a = 0 then 0 else t) - (if b = 0 then 0 else t) := by
  simp only [PhCrystal.arg, vdot, cubic]
  fin_cases a <;> fin_cases b <;> simp

theorem cubic_geg (t : ℝ) : (cubic 1 dipole).geg ![t, 0, 0] = t ^ 2 := by
  simp [PhCrystal.geg, vdot, matVec, cubic, pow_two]

theorem star_wave (t : ℝ) : star (Complex.exp (Complex.I * (t : ℂ))) = Complex.exp (-(Complex.I * (t : ℂ))) := by
  rw [Complex.star_def, ← Complex.exp_conj]
  simp

theorem dipoleWave_mul (t : ℝ) (a b : Fin 2 × Fin 3) : dipoleWave t a * star (dipoleWave t b) =
    (if a.2 = 0 then (if a.1 = 0 then 1 else -1) else 0) * (if b.2 = 0 then (if b.1 = 0 then 1 else -1) else 0) *
    Complex.exp (Complex.I * (((if a.1 = 0 then 0 else t) - (if b.1 = 0 then 0 else t) : ℝ) : ℂ)) := by
  have hee : Complex.exp (Complex.I * (t : ℂ)) * Complex.exp (-(Complex.I * (t : ℂ))) = 1 := by
    rw [← Complex.exp_add]; simp
  unfold dipoleWave
  split_ifs <;> simp [star_wave, hee] <;> ring_nf <;> simp [hee]

theorem cubic_entry (t : ℝ) (h0 : t ≠ 0) (h1 : t ^ 2 < 56) (a b : Fin 2 × Fin 3) :
    (cubic 1 dipole).lrTerm ![t, 0, 0] a b =
      ((2 * (2 * Real.pi) / (2 * Real.pi) ^ 3 * Real.exp (-t ^ 2 / 4) : ℝ) : ℂ) *
        (dipoleWave t a * star (dipoleWave t b)) := by
  obtain ⟨N, hN⟩ : ∃ N : ℝ, N = 2 * (2 * Real.pi) / (2 * Real.pi) ^ 3 * Real.exp (-t ^ 2 / 4) := ⟨_, rfl⟩
  rw [← hN]
  have hin : inCutoff ((cubic 1 dipole).geg ![t, 0, 0]) := by
    rw [cubic_geg]
    refine ⟨by positivity, ?_⟩
    norm_num [constGMax]; linarith
  have en : (cubic 1 dipole).normG (t ^ 2) = N / t ^ 2 := by
    rw [hN]
    simp only [PhCrystal.normG, constE2, constFourPi, cubic]
    ring_nf
  have hexp : ∀ x : ℝ, (Real.cos x : ℂ) + (Real.sin x : ℂ) * Complex.I = Complex.exp (Complex.I * (x : ℂ)) := by
    intro x
    rw [mul_comm Complex.I, Complex.exp_mul_I, Complex.ofReal_cos, Complex.ofReal_sin]
  have ht : (t : ℂ) ≠ 0 := by exact_mod_cast h0
  unfold PhCrystal.lrTerm
  rw [if_pos hin, cubic_geg, en, cubic_gZ, cubic_gZ, cubic_arg, dipoleWave_mul, hexp]
  by_cases ha : a.2 = 0 <;> by_cases hb : b.2 = 0 <;> by_cases ha1 : a.1 = 0 <;> by_cases hb1 : b.1 = 0 <;>
    simp only [ha, hb, ha1, hb1, if_true, if_false, Complex.ofReal_zero, mul_zero, zero_mul, Complex.ofReal_neg,
      Complex.ofReal_div, Complex.ofReal_pow, Complex.ofReal_mul] <;> field_simp

theorem cubic_dyn (t : ℝ) (h0 : t ≠ 0) (h1 : t ^ 2 < 56) :
    massScaled (cubic 1 dipole) (dynMatrix (cubic 1 dipole) (0 : FcVec 2 1 1 1) ![t, 0, 0]) =
      ((2 * (2 * Real.pi) / (2 * Real.pi) ^ 3 * Real.exp (-t ^ 2 / 4) : ℝ) : ℂ) •
        Matrix.vecMulVec (dipoleWave t) (star (dipoleWave t)) := by
  obtain ⟨N, hN⟩ : ∃ N : ℝ, N = 2 * (2 * Real.pi) / (2 * Real.pi) ^ 3 * Real.exp (-t ^ 2 / 4) := ⟨_, rfl⟩
  have hdyn : dynMatrix (cubic 1 dipole) (0 : FcVec 2 1 1 1) ![t, 0, 0] =
      (N : ℂ) • Matrix.vecMulVec (dipoleWave t) (star (dipoleWave t)) := by
    have hd : (cubic 1 dipole).hasDielectric := by
      simp [PhCrystal.hasDielectric, cubic, Matrix.one_apply]
    have hs : shortRange (reorder (cubic 1 dipole) (0 : FcVec 2 1 1 1)) ![t, 0, 0] = 0 := by
      funext a b
      unfold shortRange
      refine List.sum_eq_zero fun x hx => ?_
      obtain ⟨e, he, rfl⟩ := List.mem_map.mp hx
      unfold reorder at he
      simp only [List.mem_flatMap, List.mem_map] at he
      obtain ⟨_, _, _, _, _, _, rfl⟩ := he
      simp [Bravais.mat2R]
    unfold dynMatrix
    rw [if_pos hd, hs, zero_add]
    funext a b
    rw [longRange_apply, cubic_gVectors]
    have hl1 : (cubic 1 dipole).longRange1 1 1 1 a.2 b.2 a.1 = 0 := by
      unfold PhCrystal.longRange1
      rw [cubic_gVectors]
      simp only [List.map_cons, List.map_nil, List.sum_cons, List.sum_nil, add_zero]
      refine if_neg fun h : inCutoff ((cubic 1 dipole).geg 0) => ?_
      have h1 := h.1
      simp [PhCrystal.geg, vdot] at h1
    rw [hl1]
    simp only [Complex.ofReal_zero, ite_self, zero_add, List.map_cons, List.map_nil, List.sum_cons, List.sum_nil, add_zero]
    rw [hN, Matrix.smul_apply, Matrix.vecMulVec_apply, Pi.star_apply, smul_eq_mul]
    exact cubic_entry t h0 h1 a b
  have hm : ∀ x : Fin 2, (cubic 1 dipole).mass x = 1 := fun _ => rfl
  rw [hdyn, ← hN]
  funext a b
  simp only [massScaled, hm, Matrix.add_apply, Matrix.conjTranspose_apply, Matrix.smul_apply, Matrix.vecMulVec_apply,
    Pi.star_apply, smul_eq_mul, mul_one, Real.sqrt_one, Complex.ofReal_one, div_one, star_mul',
    Complex.star_def, Complex.conj_ofReal, Complex.conj_conj]
  rw [show (0.5 : ℂ) = 1 / 2 by norm_num]
  ring

theorem cubic_sqrt_trace (eig : EigenSolver 2) (he : Solves eig) (t : ℝ) (h0 : t ≠ 0) (h1 : t ^ 2 < 56) :
    (sqrtD eig (cubic 1 dipole) (0 : FcVec 2 1 1 1) ![t, 0, 0]).trace =
      ((Real.sqrt (2 * (2 * (2 * Real.pi) / (2 * Real.pi) ^ 3 * Real.exp (-t ^ 2 / 4))) : ℝ) : ℂ) := by
  rw [sqrtD_trace eig he]
  have h := he _ (massScaled_hermitian (cubic 1 dipole) (dynMatrix (cubic 1 dipole) (0 : FcVec 2 1 1 1) ![t, 0, 0]))
  obtain ⟨N, hN⟩ : ∃ N : ℝ, N = 2 * (2 * Real.pi) / (2 * Real.pi) ^ 3 * Real.exp (-t ^ 2 / 4) := ⟨_, rfl⟩
  have hpos : 0 < N := by
    have := Real.pi_pos
    rw [hN]; positivity
  have hdot : star (dipoleWave t) ⬝ᵥ dipoleWave t = 2 := by
    have hee : Complex.exp (-(Complex.I * (t : ℂ))) * Complex.exp (Complex.I * (t : ℂ)) = 1 := by
      rw [← Complex.exp_add]; simp
    simp only [dotProduct, Fintype.sum_prod_type, Fin.sum_univ_two, Fin.sum_univ_three, Pi.star_apply]
    simp [dipoleWave, star_wave, hee]
    norm_num
  refine congrArg _ (hermitian_rank_one h _ (by rw [← hN]; linarith) ?_ ?_)
  · rw [cubic_dyn t h0 h1, ← hN, Matrix.smul_mul, Matrix.mul_smul, Matrix.vecMulVec_mul_vecMulVec, hdot]
    funext a b
    simp only [smul_smul, Matrix.smul_apply, Matrix.vecMulVec_apply, Pi.smul_apply, smul_eq_mul]
    push_cast
    ring
  · rw [cubic_dyn t h0 h1, ← hN, Matrix.trace_smul, Matrix.trace_vecMulVec, dotProduct_comm, hdot, smul_eq_mul]
    push_cast
    ring

/-- The trace of the velocity operator of the crystal with two charges. -/
theorem cubic_raw_trace (eig : EigenSolver 2) (he : Solves eig) (t : ℝ) (h0 : 1.0e-6 ≤ t) (h1 : t ≤ 1) :
    (rawVelocity eig (cubic 1 dipole) (0 : FcVec 2 1 1 1) ![t, 0, 0] 0).trace ≠ 0 := by
  have h := he _ (massScaled_hermitian (cubic 1 dipole) (dynMatrix (cubic 1 dipole) (0 : FcVec 2 1 1 1) ![t, 0, 0]))
  have hu : (diagonalizeFromCoordinates eig (cubic 1 dipole) (0 : FcVec 2 1 1 1) ![t, 0, 0] false).2 =
    (eig (massScaled (cubic 1 dipole) (dynMatrix (cubic 1 dipole) (0 : FcVec 2 1 1 1) ![t, 0, 0]))).2 := rfl
  unfold rawVelocity
  rw [hu, Matrix.trace_mul_comm, ← Matrix.mul_assoc, h.right, Matrix.one_mul]
  have hd : constDeltaQ = 1 / 100000000 := by norm_num [constDeltaQ]
  have h0' : (1 : ℝ) / 1000000 ≤ t := by norm_num at h0 ⊢; linarith
  have hp : shiftQ ![t, 0, 0] 0 constDeltaQ = ![t + constDeltaQ, 0, 0] := by
    funext k; fin_cases k <;> simp [shiftQ]
  have hm : shiftQ ![t, 0, 0] 0 (-constDeltaQ) = ![t - constDeltaQ, 0, 0] := by
    funext k; fin_cases k <;> simp [shiftQ, sub_eq_add_neg]
  have p1 := cubic_sqrt_trace eig he (t + constDeltaQ) (by rw [hd]; linarith) (by rw [hd]; nlinarith)
  have p2 := cubic_sqrt_trace eig he (t - constDeltaQ) (by rw [hd]; linarith) (by rw [hd]; nlinarith)
  rw [← hp] at p1
  rw [← hm] at p2
  have htr : (velDer eig (cubic 1 dipole) (0 : FcVec 2 1 1 1) ![t, 0, 0] 0).trace =
      0.5 * (((sqrtD eig (cubic 1 dipole) (0 : FcVec 2 1 1 1) (shiftQ ![t, 0, 0] 0 constDeltaQ)).trace -
        (sqrtD eig (cubic 1 dipole) (0 : FcVec 2 1 1 1) (shiftQ ![t, 0, 0] 0 (-constDeltaQ))).trace) /
        ((2 * constDeltaQ : ℝ) : ℂ) + (starRingEnd ℂ)
        (((sqrtD eig (cubic 1 dipole) (0 : FcVec 2 1 1 1) (shiftQ ![t, 0, 0] 0 constDeltaQ)).trace -
        (sqrtD eig (cubic 1 dipole) (0 : FcVec 2 1 1 1) (shiftQ ![t, 0, 0] 0 (-constDeltaQ))).trace) /
        ((2 * constDeltaQ : ℝ) : ℂ))) := by
    simp only [velDer, Matrix.trace, Matrix.diag, ← Finset.sum_sub_distrib, Finset.sum_div, map_sum,
      ← Finset.sum_add_distrib, Finset.mul_sum]
  rw [htr, p1, p2]
  obtain ⟨K, hK⟩ : ∃ K : ℝ, K = 2 * (2 * Real.pi) / (2 * Real.pi) ^ 3 := ⟨_, rfl⟩
  have hKp : 0 < K := by
    have := Real.pi_pos
    rw [hK]; positivity
  rw [← hK]
  have hlt : Real.sqrt (2 * (K * Real.exp (-(t + constDeltaQ) ^ 2 / 4))) <
      Real.sqrt (2 * (K * Real.exp (-(t - constDeltaQ) ^ 2 / 4))) := by
    refine Real.sqrt_lt_sqrt (by positivity) ?_
    have : Real.exp (-(t + constDeltaQ) ^ 2 / 4) < Real.exp (-(t - constDeltaQ) ^ 2 / 4) :=
      Real.exp_lt_exp.mpr (by rw [hd]; nlinarith)
    have := mul_lt_mul_of_pos_left this hKp
    linarith
  rw [← Complex.ofReal_sub, ← Complex.ofReal_div, Complex.conj_ofReal, show (0.5 : ℂ) = ((1 / 2 : ℝ) : ℂ) by norm_num,
    ← Complex.ofReal_add, ← Complex.ofReal_mul]
  rw [Complex.ofReal_ne_zero]
  have hdp : 0 < 2 * constDeltaQ := by rw [hd]; norm_num
  have := div_neg_of_neg_of_pos (sub_neg.mpr hlt) hdp
  linarith

end Verif.Model
