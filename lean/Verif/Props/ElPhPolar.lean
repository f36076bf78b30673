import Verif.Proofs.ElPhPolar
import Verif.Proofs.ElPhCoupling
import Mathlib.Analysis.Complex.Exponential
import Mathlib.Tactic.IntervalCases

/-!
C124: the polar correction to the electron-phonon coupling.
-/
namespace Verif.Props
open Verif.Model Verif.Spec

variable {A : Nat}

/-- C124 (strength): the correction is half of the long-range part of Verdi and Giustino.  Missing: the other half (see
`C124_violated_strength`). -/
theorem C124_strength_partial (c : PolarData A) (q : Vec3) (ev : Fin A → Fin 3 → ℂ) :
    polarPart1 c q ev = frohlich c q ev / 2 := by
  have : 2 * polarPart1 c q ev = frohlich c q ev := by
    rw [polarPart1_sum]
    unfold frohlich
    simp only [Finset.mul_sum, polarTerm_frohlich]
  rw [← this]
  ring

/-- C124 (mixing of phonons): the correction is linear in the eigenvector. -/
theorem C124_linear (c : PolarData A) (q : Vec3) {n : Nat} (v : Fin n → Fin A → Fin 3 → ℂ) (u : Fin n → ℂ) :
    polarPart1 c q (fun a i => ∑ k, v k a i * u k) = ∑ k, polarPart1 c q (v k) * u k := by
  simp only [polarPart1_sum, polarTerm_linear, Finset.sum_mul]
  refine Eq.symm ?_
  rw [Finset.sum_comm]; refine Finset.sum_congr rfl fun _ _ => ?_
  rw [Finset.sum_comm]; refine Finset.sum_congr rfl fun _ _ => ?_
  rw [Finset.sum_comm]

/-- C124 (opposite wavevectors): at `-q`, with the conjugate eigenvector, the correction is the complex conjugate. -/
theorem C124_conjugate (c : PolarData A) (q : Vec3) (ev : Fin A → Fin 3 → ℂ) :
    polarPart1 c (-q) (fun a i => (starRingEnd ℂ) (ev a i)) = (starRingEnd ℂ) (polarPart1 c q ev) := by
  rw [polarPart1_sum, polarPart1_sum, map_sum, sum_Icc_neg]
  refine Finset.sum_congr rfl fun m1 _ => ?_
  rw [map_sum, sum_Icc_neg]
  refine Finset.sum_congr rfl fun m2 _ => ?_
  rw [map_sum, sum_Icc_neg]
  refine Finset.sum_congr rfl fun m3 _ => ?_
  rw [← polarTerm_neg]
  congr 1
  funext i
  simp only [Pi.neg_apply]
  push_cast
  ring

/-- C124 (non-polar crystals): without effective charges there is no correction. -/
theorem C124_nonpolar (c : PolarData A) (hZ : ∀ a, c.born a = 0) (q : Vec3) (ev : Fin A → Fin 3 → ℂ) :
    polarPart1 c q ev = 0 := by
  rw [polarPart1_sum]
  refine Finset.sum_eq_zero fun _ _ => Finset.sum_eq_zero fun _ _ => Finset.sum_eq_zero fun _ _ => ?_
  unfold polarTerm
  split_ifs
  · refine Finset.sum_eq_zero fun a _ => Finset.sum_eq_zero fun i _ => ?_
    simp [hZ a]
  · rfl

/-- C124 (periodic images): if some atoms are described by their images in other cells, and the eigenvector by the
displacements of these images, the correction is the same. -/
theorem C124_images (c : PolarData A) (T : Fin A → Vec3) (q : Vec3) (ev : Fin A → Fin 3 → ℂ)
    (hT : ∀ a j, ∃ m : ℤ, vdot (fun i => c.reciprocal i j) (T a) = 2 * Real.pi * m) :
    polarPart1 { c with positions := fun a => c.positions a + T a } q
      (fun a i => Complex.exp (Complex.I * (vdot q (T a) : ℂ)) * ev a i) = polarPart1 c q ev := by
  rw [polarPart1_sum, polarPart1_sum]
  refine Finset.sum_congr rfl fun m1 _ => Finset.sum_congr rfl fun m2 _ => Finset.sum_congr rfl fun m3 _ => ?_
  unfold polarTerm
  show (open Classical in if 0 < polarQEq c _ ∧ polarQEq c _ / 4 < 14 then _ else 0) = _
  split_ifs
  · refine Finset.sum_congr rfl fun a _ => Finset.sum_congr rfl fun i _ => ?_
    obtain ⟨n0, h0⟩ := hT a 0
    obtain ⟨n1, h1⟩ := hT a 1
    obtain ⟨n2, h2⟩ := hT a 2
    have harg : -vdot (fun i => q i + (c.reciprocal i 0 * m1 + c.reciprocal i 1 * m2 + c.reciprocal i 2 * m3))
        (c.positions a + T a) =
        -vdot (fun i => q i + (c.reciprocal i 0 * m1 + c.reciprocal i 1 * m2 + c.reciprocal i 2 * m3)) (c.positions a) +
        -vdot q (T a) - 2 * Real.pi * (n0 * m1 + n1 * m2 + n2 * m3) := by
      have : 2 * Real.pi * (n0 * m1 + n1 * m2 + n2 * m3) = vdot (fun i => c.reciprocal i 0) (T a) * m1 +
          vdot (fun i => c.reciprocal i 1) (T a) * m2 + vdot (fun i => c.reciprocal i 2) (T a) * m3 := by
        rw [h0, h1, h2]; ring
      rw [this]
      simp only [vdot, Pi.add_apply]
      ring
    have hphase : hostPhase (-vdot (fun i => q i + (c.reciprocal i 0 * m1 + c.reciprocal i 1 * m2 + c.reciprocal i 2 * m3))
        (c.positions a + T a)) * Complex.exp (Complex.I * (vdot q (T a) : ℂ)) =
        hostPhase (-vdot (fun i => q i + (c.reciprocal i 0 * m1 + c.reciprocal i 1 * m2 + c.reciprocal i 2 * m3))
          (c.positions a)) := by
      rw [hostPhase_eq_exp, hostPhase_eq_exp, ← Complex.exp_add, harg]
      have : Complex.I * ((-vdot (fun i => q i + (c.reciprocal i 0 * m1 + c.reciprocal i 1 * m2 + c.reciprocal i 2 * m3))
          (c.positions a) + -vdot q (T a) - 2 * Real.pi * (n0 * m1 + n1 * m2 + n2 * m3) : ℝ) : ℂ) +
          Complex.I * (vdot q (T a) : ℂ) =
          Complex.I * ((-vdot (fun i => q i + (c.reciprocal i 0 * m1 + c.reciprocal i 1 * m2 + c.reciprocal i 2 * m3))
          (c.positions a) : ℝ) : ℂ) + ((-(n0 * m1 + n1 * m2 + n2 * m3) : ℤ) : ℂ) * (2 * Real.pi * Complex.I) := by
        push_cast; ring
      rw [this, Complex.exp_add, Complex.exp_int_mul_two_pi_mul_I, mul_one]
    rw [← hphase]
    simp only [polarQEq]
    ring
  · rfl

/-! #### A crystal for the examples -/

/-- One atom with an effective charge along the first axis, dielectric constant one, coarse grid of one wavevector. -/
noncomputable def lineCrystal : PolarData 1 where
  volume := 1
  reciprocal := Matrix.diagonal ![6, 100, 100]
  epsilon := 1
  born _ := Matrix.diagonal ![1, 0, 0]
  positions _ := 0
  mesh _ := 1

/-- The eigenvector along the first axis. -/
def alongLine : Fin 1 → Fin 3 → ℂ := fun _ i => if i = 0 then 1 else 0

open Classical in
theorem lineCrystal_term (x y z : ℝ) : polarTerm lineCrystal alongLine ![x, y, z] =
    if 0 < x * x + y * y + z * z ∧ (x * x + y * y + z * z) / 4 < 14 then
      ((4 * Real.pi * Real.exp (-(x * x + y * y + z * z) / 4) / (x * x + y * y + z * z) * x : ℝ) : ℂ) * Complex.I else 0 := by
  have hq : polarQEq lineCrystal ![x, y, z] = x * x + y * y + z * z := by
    simp [polarQEq, lineCrystal, vdot]
  unfold polarTerm
  rw [hq]
  split_ifs
  · rw [Fin.sum_univ_one, Fin.sum_univ_three]
    simp [lineCrystal, alongLine, vdot, hostPhase, constFourPi, Fin.sum_univ_three]
    have e1 : (⟨1, 0⟩ : ℂ) = 1 := rfl
    simp only [e1]
    ring
  · rfl

/-- The correction of the example on the axis. -/
theorem lineCrystal_part1 (x : ℝ) : polarPart1 lineCrystal ![x, 0, 0] alongLine =
    polarTerm lineCrystal alongLine ![x - 6, 0, 0] + polarTerm lineCrystal alongLine ![x, 0, 0] +
      polarTerm lineCrystal alongLine ![x + 6, 0, 0] := by
  have hfar : ∀ a b c : ℝ, 56 ≤ b * b + c * c → polarTerm lineCrystal alongLine ![a, b, c] = 0 := by
    intro a b c h
    rw [lineCrystal_term, if_neg]
    rintro ⟨_, h2⟩
    have := mul_self_nonneg a
    linarith
  have hvec : ∀ m1 m2 m3 : ℤ, (fun i => (![x, 0, 0] : Vec3) i + (lineCrystal.reciprocal i 0 * m1 +
      lineCrystal.reciprocal i 1 * m2 + lineCrystal.reciprocal i 2 * m3)) = ![x + 6 * m1, 100 * m2, 100 * m3] := by
    intro m1 m2 m3
    funext i
    fin_cases i <;> simp [lineCrystal]
  rw [polarPart1_sum]
  simp only [hvec]
  have hI : Finset.Icc (-((1 : Nat) : ℤ)) ((1 : Nat) : ℤ) = {-1, 0, 1} := by decide
  show ∑ m1 ∈ Finset.Icc (-((1 : Nat) : ℤ)) ((1 : Nat) : ℤ), ∑ m2 ∈ Finset.Icc (-((1 : Nat) : ℤ)) ((1 : Nat) : ℤ),
    ∑ m3 ∈ Finset.Icc (-((1 : Nat) : ℤ)) ((1 : Nat) : ℤ), _ = _
  rw [hI]
  have h3 : ∀ f : ℤ → ℂ, ∑ m ∈ ({-1, 0, 1} : Finset ℤ), f m = f (-1) + f 0 + f 1 := by
    intro f
    rw [Finset.sum_insert (by decide), Finset.sum_insert (by decide), Finset.sum_singleton]
    ring
  simp only [h3]
  push_cast
  simp only [hfar _ (100 * -1) _ (by nlinarith [mul_self_nonneg (100 * (-1 : ℝ)), mul_self_nonneg (100 * (0:ℝ))] : (56:ℝ) ≤ 100 * -1 * (100 * -1) + 100 * -1 * (100 * -1)),
    hfar _ (100 * -1) (100 * 0) (by norm_num), hfar _ (100 * -1) (100 * 1) (by norm_num),
    hfar _ (100 * 0) (100 * -1) (by norm_num), hfar _ (100 * 0) (100 * 1) (by norm_num),
    hfar _ (100 * 1) (100 * -1) (by norm_num), hfar _ (100 * 1) (100 * 0) (by norm_num),
    hfar _ (100 * 1) (100 * 1) (by norm_num)]
  simp only [mul_zero, mul_one, add_zero, zero_add]
  rw [show x + 6 * -1 = x - 6 by ring]

/-- C124 is violated (strength): at a small wavevector of a polar crystal the correction is not the long-range part. -/
theorem C124_violated_strength : polarPart1 lineCrystal ![1, 0, 0] alongLine ≠ frohlich lineCrystal ![1, 0, 0] alongLine := by
  intro h
  have h2 := C124_strength_partial lineCrystal ![1, 0, 0] alongLine
  rw [← h] at h2
  have h0 : polarPart1 lineCrystal ![1, 0, 0] alongLine = 0 := by
    have : polarPart1 lineCrystal ![1, 0, 0] alongLine - polarPart1 lineCrystal ![1, 0, 0] alongLine / 2 = 0 := by
      rw [← h2, sub_self]
    have h4 : polarPart1 lineCrystal ![1, 0, 0] alongLine / 2 = 0 := by rw [← this]; ring
    simpa using h4
  rw [lineCrystal_part1, lineCrystal_term, lineCrystal_term, lineCrystal_term,
    if_pos (by norm_num), if_pos (by norm_num), if_pos (by norm_num)] at h0
  have him := congrArg Complex.im h0
  simp only [Complex.add_im, Complex.mul_im, Complex.ofReal_re, Complex.ofReal_im, Complex.I_re, Complex.I_im, mul_one,
    mul_zero, add_zero, zero_add, Complex.zero_im] at him
  norm_num at him
  have hpi := Real.pi_pos
  have e1 : Real.exp (-(25 / 4)) < Real.exp (-(1 / 4)) := Real.exp_lt_exp.mpr (by norm_num)
  have e2 := Real.exp_pos (-(49 / 4))
  have e3 := Real.exp_pos (-(25 / 4))
  nlinarith [mul_pos hpi e2, mul_pos hpi e3, mul_pos hpi (sub_pos.mpr e1)]

/-- C124 is violated (periodicity): the correction, and the coupling with it, is not the same at two wavevectors that
differ by a reciprocal lattice vector. -/
theorem C124_violated_periodic :
    ∃ (c : PolarData 1) (ev : Fin 1 → Fin 3 → ℂ) (q : Vec3),
      polarPart1 c (fun i => q i + c.reciprocal i 0) ev ≠ polarPart1 c q ev := by
  refine ⟨lineCrystal, alongLine, ![-0.6, 0, 0], ?_⟩
  have hq : (fun i => (![-0.6, 0, 0] : Vec3) i + lineCrystal.reciprocal i 0) = ![5.4, 0, 0] := by
    funext i
    fin_cases i
    · simp [lineCrystal]; norm_num
    · simp [lineCrystal]
    · simp [lineCrystal]
  rw [hq, lineCrystal_part1, lineCrystal_part1]
  rw [show (5.4 : ℝ) - 6 = -0.6 by norm_num, show (-0.6 : ℝ) + 6 = 5.4 by norm_num, show (5.4 : ℝ) + 6 = 11.4 by norm_num,
    show (-0.6 : ℝ) - 6 = -6.6 by norm_num]
  have hfar : polarTerm lineCrystal alongLine ![11.4, 0, 0] = 0 := by
    rw [lineCrystal_term, if_neg (by norm_num)]
  rw [hfar]
  intro h
  have h0 : polarTerm lineCrystal alongLine ![-6.6, 0, 0] = 0 := by linear_combination -h
  rw [lineCrystal_term, if_pos (by norm_num)] at h0
  have him := congrArg Complex.im h0
  simp only [Complex.mul_im, Complex.ofReal_re, Complex.ofReal_im, Complex.I_re, Complex.I_im, mul_one,
    mul_zero, zero_mul, add_zero, zero_add, Complex.zero_im] at him
  have hpi := Real.pi_pos
  have e := Real.exp_pos (-(-6.6 * -6.6 + 0 * 0 + 0 * 0 : ℝ) / 4)
  have hp := mul_pos hpi e
  norm_num at him

/-- C123 is violated (periodicity): with the polar correction the squared coupling of a phonon is not the same at two
wavevectors that differ by a reciprocal lattice vector, with the same eigenvectors. -/
theorem C123_violated_polar :
    ∃ (d : ElPhData 1 1 3 1) (asked : Nat → Vec3 × (Fin 1 → Nat → ℂ)) (it it' : CouplingItem 3 1) (c : PolarData 1) (G : Vec3),
      IsReciprocal G d.phVectors ∧ it' = { it with q := it.q + G, polar := it'.polar } ∧
      (∀ nu, it.polar nu = polarPart1 c it.q fun _ i => it.ev3 i nu) ∧
      (∀ nu, it'.polar nu = polarPart1 c it'.q fun _ i => it'.ev3 i nu) ∧ 0 < it.nb2 ∧
      couplingSquared d true (cacheElPh d [[0]] asked 0) (asked 0).2 0 it' 0 0 0 ≠
        couplingSquared d true (cacheElPh d [[0]] asked 0) (asked 0).2 0 it 0 0 0 := by
  set ev : Fin 3 → Fin 3 → ℂ := fun mu nu => if mu = nu then 1 else 0 with hev
  set q : Vec3 := ![-0.6, 0, 0] with hq
  set G : Vec3 := ![6, 0, 0] with hG
  have hqG : q + G = ![5.4, 0, 0] := by
    funext i
    fin_cases i
    · simp [hq, hG]; norm_num
    · simp [hq, hG]
    · simp [hq, hG]
  let d : ElPhData 1 1 3 1 := ⟨fun _ _ _ _ _ => 0, fun _ => 0, fun _ => 1, fun _ => ![2 * Real.pi / 6, 0, 0], fun _ => 1⟩
  let pol : Vec3 → Fin 3 → ℂ := fun x nu => polarPart1 lineCrystal x fun _ i => ev i nu
  let asked : Nat → Vec3 × (Fin 1 → Nat → ℂ) := fun _ => (0, fun _ _ => 1)
  let item : Vec3 → CouplingItem 3 1 := fun x => ⟨x, 1, fun _ _ => 1, ev, pol x⟩
  refine ⟨d, asked, item q, item (q + G), lineCrystal, G, ?_, rfl, fun _ => rfl, fun _ => rfl, one_pos, ?_⟩
  · intro i
    refine ⟨1, ?_⟩
    simp [d, hG, vdot]
    ring
  · have hs : ([[0]] : List (List (Fin 1))).flatten.Perm (List.finRange 1) := by decide
    have hval : ∀ x : Vec3, 1.0e-8 < Real.sqrt (vdot x x) →
        couplingSquared d true (cacheElPh d [[0]] asked 0) (asked 0).2 0 (item x) 0 0 0 = Complex.normSq (polarPart1 lineCrystal x alongLine) := by
      intro x hx
      rw [couplingSquared_val d true [[0]] hs asked 0 0 (item x) 0 0 one_pos 0]
      have hl : longRangeUsed true (item x).q = true := by
        simp only [longRangeUsed, Bool.true_and, decide_eq_true_eq]
        exact hx
      rw [hl]
      unfold matrixElement
      rw [if_pos rfl]
      have h0 : elphShortRange d (asked 0).1 (item x).q (fun w => (asked 0).2 w 0) (fun w => (item x).ev2 w 0)
          (fun mu => (item x).ev3 mu 0) = 0 := by
        simp [elphShortRange, d]
      have h1 : overlap (fun w => (item x).ev2 w 0) (fun w => (asked 0).2 w 0) = 1 := by
        simp [overlap, item, asked]
      have h2 : (item x).polar 0 = polarPart1 lineCrystal x alongLine := by
        show polarPart1 lineCrystal x _ = _
        congr 1
      rw [h0, h1, h2, zero_add, mul_one]
    have hn : ∀ x : ℝ, 1 ≤ 10 * |x| → (1.0e-8 : ℝ) < Real.sqrt (vdot ![x, 0, 0] ![x, 0, 0]) := by
      intro x hx
      have : vdot ![x, 0, 0] ![x, 0, 0] = x ^ 2 := by simp [vdot]; ring
      rw [this, Real.sqrt_sq_eq_abs]
      norm_num
      linarith
    rw [hqG, hval _ (hn _ (by norm_num [abs_of_pos])), hq, hval _ (hn _ (by norm_num [abs_of_neg])), lineCrystal_part1, lineCrystal_part1,
      show (5.4 : ℝ) - 6 = -0.6 by norm_num, show (-0.6 : ℝ) + 6 = 5.4 by norm_num, show (5.4 : ℝ) + 6 = 11.4 by norm_num,
      show (-0.6 : ℝ) - 6 = -6.6 by norm_num, lineCrystal_term 11.4, if_neg (by norm_num), lineCrystal_term, if_pos (by norm_num),
      lineCrystal_term, if_pos (by norm_num), lineCrystal_term, if_pos (by norm_num)]
    have ha : 4 * Real.pi * Real.exp (-(-6.6 * -6.6 + 0 * 0 + 0 * 0) / 4) / (-6.6 * -6.6 + 0 * 0 + 0 * 0) * -6.6 < 0 := by
      have := mul_pos Real.pi_pos (Real.exp_pos (-(-6.6 * -6.6 + 0 * 0 + 0 * 0 : ℝ) / 4))
      norm_num at this ⊢
      linarith
    have hbc : 4 * Real.pi * Real.exp (-(-0.6 * -0.6 + 0 * 0 + 0 * 0) / 4) / (-0.6 * -0.6 + 0 * 0 + 0 * 0) * -0.6 +
        4 * Real.pi * Real.exp (-(5.4 * 5.4 + 0 * 0 + 0 * 0) / 4) / (5.4 * 5.4 + 0 * 0 + 0 * 0) * 5.4 < 0 := by
      have h1 : Real.exp (-(5.4 * 5.4 + 0 * 0 + 0 * 0 : ℝ) / 4) ≤ Real.exp (-(-0.6 * -0.6 + 0 * 0 + 0 * 0 : ℝ) / 4) :=
        Real.exp_le_exp.mpr (by norm_num)
      have h2 := Real.exp_pos (-(5.4 * 5.4 + 0 * 0 + 0 * 0 : ℝ) / 4)
      have h3 := mul_le_mul_of_nonneg_left h1 Real.pi_pos.le
      have h4 := mul_pos Real.pi_pos h2
      generalize Real.exp (-(5.4 * 5.4 + 0 * 0 + 0 * 0 : ℝ) / 4) = u at *
      generalize Real.exp (-(-0.6 * -0.6 + 0 * 0 + 0 * 0 : ℝ) / 4) = v at *
      norm_num
      nlinarith
    generalize 4 * Real.pi * Real.exp (-(-6.6 * -6.6 + 0 * 0 + 0 * 0) / 4) / (-6.6 * -6.6 + 0 * 0 + 0 * 0) * -6.6 = a at ha ⊢
    generalize 4 * Real.pi * Real.exp (-(-0.6 * -0.6 + 0 * 0 + 0 * 0) / 4) / (-0.6 * -0.6 + 0 * 0 + 0 * 0) * -0.6 = b at hbc ⊢
    generalize 4 * Real.pi * Real.exp (-(5.4 * 5.4 + 0 * 0 + 0 * 0) / 4) / (5.4 * 5.4 + 0 * 0 + 0 * 0) * 5.4 = e at hbc ⊢
    have n1 : Complex.normSq ((b : ℂ) * Complex.I + (e : ℂ) * Complex.I + 0) = (b + e) ^ 2 := by
      simp [Complex.normSq_apply]; ring
    have n2 : Complex.normSq ((a : ℂ) * Complex.I + (b : ℂ) * Complex.I + (e : ℂ) * Complex.I) = (a + (b + e)) ^ 2 := by
      simp [Complex.normSq_apply]; ring
    rw [n1, n2]
    nlinarith

/-- A case that meets the hypothesis of `C124_images`: an atom and its image along the first axis. -/
example : ∀ (_ : Fin 1) (j : Fin 3), ∃ m : ℤ, vdot (fun i => lineCrystal.reciprocal i j) ![2 * Real.pi / 6, 0, 0] =
    2 * Real.pi * m := by
  intro _ j
  fin_cases j
  · exact ⟨1, by simp [lineCrystal, vdot]; ring⟩
  · exact ⟨0, by simp [lineCrystal, vdot]⟩
  · exact ⟨0, by simp [lineCrystal, vdot]⟩

end Verif.Props
