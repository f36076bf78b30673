import Verif.Proofs.ElPhCoupling

/-!
C122 and C123: the coupling of electrons and phonons interpolated from Wannier functions.
-/
namespace Verif.Props
open Verif.Model Verif.Spec

variable {E P M W : Nat}

/-! ### C122: the value of the coupling -/

/-- C122: however the lattice vectors are distributed over the processes of a pool, whatever the other processes ask for,
whatever the other entries of the batch and the contents of uninitialised memory, entry `i` of the result is the square of
the matrix element of entry `i`. -/
theorem C122_value (d : ElPhData E P M W) (usePolar : Bool) (shares : List (List (Fin E)))
    (hs : shares.flatten.Perm (List.finRange E)) (asked : Nat → Vec3 × (Fin W → Nat → ℂ)) (own : Nat) (garbage : Nat → ℂ)
    (items : List (CouplingItem M W)) :
    let result := calcCouplingSquared d usePolar (cacheElPh d shares asked own) (asked own).2 garbage items
    result.length = items.length ∧
    ∀ (i : Nat) (hi : i < items.length) (hr : i < result.length) (ib1 ib2 : Nat) (nu : Fin M), ib2 < items[i].nb2 →
      result[i] ib1 ib2 nu = Complex.normSq (matrixElement d (longRangeUsed usePolar items[i].q) (asked own).1 items[i].q
        (fun w => (asked own).2 w ib1) (fun w => items[i].ev2 w ib2) (fun mu => items[i].ev3 mu nu) (items[i].polar nu)) := by
  refine ⟨by simp [calcCouplingSquared], fun i hi hr ib1 ib2 nu h2 => ?_⟩
  have e : (calcCouplingSquared d usePolar (cacheElPh d shares asked own) (asked own).2 garbage items)[i]'hr =
      couplingSquared d usePolar (cacheElPh d shares asked own) (asked own).2 (garbage i) items[i] := by
    simp [calcCouplingSquared]
  have := couplingSquared_val d usePolar shares hs asked own (garbage i) items[i] ib1 ib2 h2 nu
  rw [← this]
  exact congrFun (congrFun (congrFun e ib1) ib2) nu

/-- C122: the coupling is never negative. -/
theorem C122_nonneg (d : ElPhData E P M W) (usePolar : Bool) (cached : CachedCoupling P M W) (ev1 : Fin W → Nat → ℂ)
    (garbage : ℂ) (it : CouplingItem M W) (ib1 ib2 : Nat) (nu : Fin M) :
    0 ≤ couplingSquared d usePolar cached ev1 garbage it ib1 ib2 nu :=
  add_nonneg (mul_self_nonneg _) (mul_self_nonneg _)

/-- Data of the examples: one Wannier function, one displacement, two lattice vectors for electrons, one for phonons. -/
noncomputable def chainElPh : ElPhData 2 1 1 1 where
  coupling irE _ _ _ _ := if irE = 0 then 2 else 1
  elVectors irE := if irE = 0 then 0 else ![1, 0, 0]
  elDegeneracies _ := 1
  phVectors _ := ![1, 0, 0]
  phDegeneracies _ := 1

/-- A case that meets the hypotheses, and the value there: two processes, at `k = (pi, 0, 0)`. -/
example : ([[1], [0]] : List (List (Fin 2))).flatten.Perm (List.finRange 2) ∧
    (calcCouplingSquared chainElPh false (cacheElPh chainElPh [[1], [0]] (fun _ => (![Real.pi, 0, 0], fun _ _ => 1)) 0)
      (fun _ _ => 1) (fun _ => 7) [⟨![0, 0, 0], 1, fun _ _ => 1, fun _ _ => 1, fun _ => 5⟩])[0]?.map (fun g => g 0 0 0) =
      some 1 := by
  have hp : ([[1], [0]] : List (List (Fin 2))).flatten.Perm (List.finRange 2) := by decide
  refine ⟨hp, ?_⟩
  obtain ⟨hl, hv⟩ := C122_value chainElPh false [[1], [0]] hp (fun _ => (![Real.pi, 0, 0], fun _ _ => 1)) 0 (fun _ => 7)
    [⟨![0, 0, 0], 1, fun _ _ => 1, fun _ _ => 1, fun _ => 5⟩]
  have := hv 0 (by simp) (by rw [hl]; simp) 0 0 0 (by simp)
  rw [List.getElem?_eq_getElem (by rw [hl]; simp), Option.map_some, this]
  have e : Complex.exp (Complex.I * (Real.pi : ℂ)) = -1 := by rw [mul_comm]; exact Complex.exp_pi_mul_I
  simp [matrixElement, longRangeUsed, elphShortRange, chainElPh, vdot, Fin.sum_univ_two, Fin.sum_univ_three, e]
  norm_num

/-! ### C123: symmetries of the coupling -/

/-- C123 (degenerate initial states): the sum over a group of states at `k` does not change when they are mixed by a
unitary matrix. -/
theorem C123_initial (d : ElPhData E P M W) (usePolar : Bool) (shares : List (List (Fin E)))
    (hs : shares.flatten.Perm (List.finRange E)) (asked asked' : Nat → Vec3 × (Fin W → Nat → ℂ)) (own : Nat) (garbage garbage' : ℂ)
    (it : CouplingItem M W) {n : Nat} (group : Fin n → Nat) (U : Matrix (Fin n) (Fin n) ℂ) (hU : U * U.conjTranspose = 1)
    (hk : (asked' own).1 = (asked own).1)
    (hmix : ∀ w b, (asked' own).2 w (group b) = ∑ c, (asked own).2 w (group c) * U c b) (ib2 : Nat) (h2 : ib2 < it.nb2)
    (nu : Fin M) :
    ∑ b, couplingSquared d usePolar (cacheElPh d shares asked' own) (asked' own).2 garbage' it (group b) ib2 nu =
    ∑ b, couplingSquared d usePolar (cacheElPh d shares asked own) (asked own).2 garbage it (group b) ib2 nu := by
  simp only [couplingSquared_val d usePolar shares hs _ own _ it _ ib2 h2 nu, hk, hmix]
  refine Eq.trans ?_ (unitary_normSq U hU _)
  refine Finset.sum_congr rfl fun b _ => congrArg _ ?_
  unfold matrixElement
  rw [elphShortRange_ev1 d _ _ (fun c w => (asked own).2 w (group c)) (fun c => U c b),
    overlap_ev1 (fun c w => (asked own).2 w (group c)) (fun c => U c b)]
  split_ifs
  · rw [Finset.mul_sum, ← Finset.sum_add_distrib]
    exact Finset.sum_congr rfl fun c _ => by ring
  · rw [add_zero]
    exact Finset.sum_congr rfl fun c _ => by ring

/-- C123 (degenerate final states). -/
theorem C123_final (d : ElPhData E P M W) (usePolar : Bool) (shares : List (List (Fin E)))
    (hs : shares.flatten.Perm (List.finRange E)) (asked : Nat → Vec3 × (Fin W → Nat → ℂ)) (own : Nat) (garbage garbage' : ℂ)
    (it it' : CouplingItem M W) {n : Nat} (group : Fin n → Nat) (U : Matrix (Fin n) (Fin n) ℂ)
    (hU : U * U.conjTranspose = 1) (hq : it'.q = it.q) (h3 : it'.ev3 = it.ev3) (hx : it'.polar = it.polar)
    (hg : ∀ b, group b < it.nb2) (hn : it'.nb2 = it.nb2)
    (hmix : ∀ w b, it'.ev2 w (group b) = ∑ c, it.ev2 w (group c) * U c b) (ib1 : Nat) (nu : Fin M) :
    ∑ b, couplingSquared d usePolar (cacheElPh d shares asked own) (asked own).2 garbage' it' ib1 (group b) nu =
    ∑ b, couplingSquared d usePolar (cacheElPh d shares asked own) (asked own).2 garbage it ib1 (group b) nu := by
  have e1 : ∀ b, couplingSquared d usePolar (cacheElPh d shares asked own) (asked own).2 garbage it ib1 (group b) nu = _ :=
    fun b => couplingSquared_val d usePolar shares hs asked own garbage it ib1 _ (hg b) nu
  have e2 : ∀ b, couplingSquared d usePolar (cacheElPh d shares asked own) (asked own).2 garbage' it' ib1 (group b) nu = _ :=
    fun b => couplingSquared_val d usePolar shares hs asked own garbage' it' ib1 _ (by rw [hn]; exact hg b) nu
  simp only [e1, e2, hq, h3, hx, hmix]
  have hU' : (U.map (starRingEnd ℂ)) * (U.map (starRingEnd ℂ)).conjTranspose = 1 := by
    have h := congrArg (fun A => A.map (starRingEnd ℂ)) hU
    simp only [Matrix.map_mul] at h
    rw [Matrix.map_one _ (map_zero _) (map_one _)] at h
    rw [← h]
    rfl
  refine Eq.trans ?_ (unitary_normSq _ hU' _)
  refine Finset.sum_congr rfl fun b _ => congrArg _ ?_
  unfold matrixElement
  rw [elphShortRange_ev2 d _ _ (fun c w => it.ev2 w (group c)) (fun c => U c b),
    overlap_ev2 (fun c w => it.ev2 w (group c)) (fun c => U c b)]
  simp only [Matrix.map_apply]
  split_ifs
  · rw [Finset.mul_sum, ← Finset.sum_add_distrib]
    exact Finset.sum_congr rfl fun c _ => by ring
  · rw [add_zero]
    exact Finset.sum_congr rfl fun c _ => by ring

/-- C123 (degenerate phonons): polar data are mixed with the eigenvectors (see `C124_linear`). -/
theorem C123_phonons (d : ElPhData E P M W) (usePolar : Bool) (shares : List (List (Fin E)))
    (hs : shares.flatten.Perm (List.finRange E)) (asked : Nat → Vec3 × (Fin W → Nat → ℂ)) (own : Nat) (garbage garbage' : ℂ)
    (it it' : CouplingItem M W) {n : Nat} (group : Fin n → Fin M) (U : Matrix (Fin n) (Fin n) ℂ)
    (hU : U * U.conjTranspose = 1) (hq : it'.q = it.q) (he : it'.ev2 = it.ev2) (hn : it'.nb2 = it.nb2)
    (hmix : ∀ mu b, it'.ev3 mu (group b) = ∑ c, it.ev3 mu (group c) * U c b)
    (hx : ∀ b, it'.polar (group b) = ∑ c, it.polar (group c) * U c b) (ib1 ib2 : Nat) (h2 : ib2 < it.nb2) :
    ∑ b, couplingSquared d usePolar (cacheElPh d shares asked own) (asked own).2 garbage' it' ib1 ib2 (group b) =
    ∑ b, couplingSquared d usePolar (cacheElPh d shares asked own) (asked own).2 garbage it ib1 ib2 (group b) := by
  simp only [couplingSquared_val d usePolar shares hs asked own _ it ib1 _ h2,
    couplingSquared_val d usePolar shares hs asked own _ it' ib1 _ (by rw [hn]; exact h2 : ib2 < it'.nb2), hq, he, hx, hmix]
  refine Eq.trans ?_ (unitary_normSq U hU _)
  refine Finset.sum_congr rfl fun b _ => congrArg _ ?_
  unfold matrixElement
  rw [elphShortRange_ev3 d _ _ _ _ (fun c mu => it.ev3 mu (group c)) (fun c => U c b)]
  split_ifs
  · rw [Finset.sum_mul, ← Finset.sum_add_distrib]
    exact Finset.sum_congr rfl fun c _ => by ring
  · rw [add_zero]
    exact Finset.sum_congr rfl fun c _ => by ring

/-- Phases of a reciprocal lattice vector are one. -/
theorem exp_reciprocal {n : Nat} {G : Vec3} {R : Fin n → Vec3} (hG : IsReciprocal G R) (k : Vec3) (i : Fin n) :
    Complex.exp (Complex.I * (vdot (k + G) (R i) : ℂ)) = Complex.exp (Complex.I * (vdot k (R i) : ℂ)) := by
  obtain ⟨m, hm⟩ := hG i
  have hadd : vdot (k + G) (R i) = vdot k (R i) + 2 * Real.pi * m := by
    rw [← hm]
    simp only [vdot, Pi.add_apply]
    ring
  rw [hadd]
  push_cast
  rw [mul_add, Complex.exp_add]
  have : Complex.I * (2 * (Real.pi : ℂ) * (m : ℂ)) = (m : ℂ) * (2 * Real.pi * Complex.I) := by ring
  rw [this, Complex.exp_int_mul_two_pi_mul_I, mul_one]

/-- C123 (periodicity): the coupling is the same at equivalent wavevectors of the electron, and, without polar
correction, of the phonon.  Missing: the polar correction (see `C124_violated_periodic`). -/
theorem C123_periodic_partial (d : ElPhData E P M W) (usePolar : Bool) (shares : List (List (Fin E)))
    (hs : shares.flatten.Perm (List.finRange E)) (asked asked' : Nat → Vec3 × (Fin W → Nat → ℂ)) (own : Nat) (garbage garbage' : ℂ)
    (it it' : CouplingItem M W) (G H : Vec3) (hG : IsReciprocal G d.elVectors) (hH : IsReciprocal H d.phVectors)
    (hk : (asked' own).1 = (asked own).1 + G) (he : (asked' own).2 = (asked own).2)
    (hi : it' = { it with q := it.q + H }) (hp : usePolar = true → H = 0) (ib1 ib2 : Nat) (h2 : ib2 < it.nb2) (nu : Fin M) :
    couplingSquared d usePolar (cacheElPh d shares asked' own) (asked' own).2 garbage' it' ib1 ib2 nu =
    couplingSquared d usePolar (cacheElPh d shares asked own) (asked own).2 garbage it ib1 ib2 nu := by
  have h2' : ib2 < it'.nb2 := by rw [hi]; exact h2
  rw [couplingSquared_val d usePolar shares hs asked own _ it ib1 _ h2,
    couplingSquared_val d usePolar shares hs asked' own _ it' ib1 _ h2']
  have hl : longRangeUsed usePolar it'.q = longRangeUsed usePolar it.q := by
    cases usePolar with
    | false => simp [longRangeUsed]
    | true => rw [hi, hp rfl, add_zero]
  rw [hl, hk, he, hi]
  unfold matrixElement elphShortRange
  simp only [exp_reciprocal hG, exp_reciprocal hH]

/-- A case that meets the hypotheses of the periodicity. -/
example : IsReciprocal ![2 * Real.pi, 0, 0] chainElPh.elVectors ∧ IsReciprocal ![2 * Real.pi, 0, 0] chainElPh.phVectors := by
  constructor
  · intro i
    fin_cases i
    · exact ⟨0, by simp [chainElPh, vdot]⟩
    · exact ⟨1, by simp [chainElPh, vdot, Fin.sum_univ_three]⟩
  · intro i
    exact ⟨1, by simp [chainElPh, vdot, Fin.sum_univ_three]⟩

/-- A unitary matrix that mixes two states, for the other theorems of C123. -/
example : (!![0, Complex.I; 1, 0] : Matrix (Fin 2) (Fin 2) ℂ) * (!![0, Complex.I; 1, 0] : Matrix (Fin 2) (Fin 2) ℂ).conjTranspose = 1 := by
  ext i j
  fin_cases i <;> fin_cases j <;> simp [Matrix.mul_apply, Matrix.conjTranspose_apply]

end Verif.Props
