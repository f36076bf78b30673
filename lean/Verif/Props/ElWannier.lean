import Verif.Proofs.ElWannier2
import Verif.Proofs.PhVelocity3
import Verif.Props.Device
import Verif.Props.Crystal

/-!
C102 to C106: Wannier interpolation of electron bands.
-/

namespace Verif.Props

open Verif.Model Verif.Spec

variable {W R : Nat}

/-- The Hamiltonian that a user builds: without or with the shifts of the lattice vectors. -/
noncomputable def build (w : WannierData W R) : Option (WannierShifts W R) → Outcome (WannierData W R)
  | none => .ok w
  | some s => addShiftedVectors w s

/-- The places of the second Wannier function in the terms of a lattice vector: the lattice vector, or the lattice
vector plus each of its shifts. -/
noncomputable def copies (w : WannierData W R) (s : Option (WannierShifts W R)) (a b : Fin W) (r : Fin R) : List Vec3 :=
  match s with
  | none => [w.bravais r]
  | some s => (List.range (s.degeneracy a b r)).map fun j =>
      w.bravais r + (if h : j < 8 then s.vectors ⟨j, h⟩ a b r else 0)

theorem build_spec (w w' : WannierData W R) (s : Option (WannierShifts W R)) (hw : w.shifts = none)
    (h : build w s = .ok w') : w'.degeneracy = w.degeneracy ∧ w'.h0R = w.h0R ∧ w'.bravais = w.bravais ∧
      ∀ a b r, w'.images a b r = copies w s a b r := by
  rcases s with _ | s
  · cases h
    refine ⟨rfl, rfl, rfl, fun a b r => ?_⟩
    unfold WannierData.images copies
    rw [hw]
  · change addShiftedVectors w s = .ok w' at h
    unfold addShiftedVectors at h
    by_cases hno : ∃ a b r, 8 < s.degeneracy a b r
    · rw [if_pos hno] at h; cases h
    · rw [if_neg hno] at h
      cases h
      refine ⟨rfl, rfl, rfl, fun a b r => ?_⟩
      unfold WannierData.images copies
      refine List.map_congr_left fun j hj => ?_
      have hj : j < s.degeneracy a b r := List.mem_range.mp hj
      unfold WannierShifts.at
      by_cases h8 : j < 8
      · simp only [dif_pos h8, if_pos hj, add_comm]
      · exact absurd ⟨a, b, r, by omega⟩ hno

/-! ### C102: Hamiltonians -/

/-- C102 (what is computed): the Hamiltonian at a wavevector is the sum over the lattice vectors of the matrix elements,
divided by the degeneracy of the vector, times the mean phase of the copies of the vector. -/
theorem C102_value (w w' : WannierData W R) (s : Option (WannierShifts W R)) (hw : w.shifts = none)
    (h : build w s = .ok w') (k : Vec3) (a b : Fin W) :
    blochH w' k a b = ∑ r, (w.h0R r a b / (w.degeneracy r : ℂ)) *
      (((copies w s a b r).map fun v => Complex.exp (Complex.I * ((∑ i, k i * v i : ℝ) : ℂ))).sum /
        ((copies w s a b r).length : ℂ)) := by
  obtain ⟨h1, h2, h3, h4⟩ := build_spec w w' s hw h
  rw [blochH_apply]
  refine Finset.sum_congr rfl fun r _ => ?_
  rw [h1, h2, h4]
  have : ∀ v, cis (vdot k v) = Complex.exp (Complex.I * ((∑ i, k i * v i : ℝ) : ℂ)) := by
    intro v
    rw [Fin.sum_univ_three]
    rfl
  simp only [this]
  rw [div_eq_mul_inv, div_eq_mul_inv, div_eq_mul_inv, mul_inv]
  ring

/-- C102: the shifts are accepted when no vector has more than eight, and the program is undefined otherwise. -/
theorem C102_accepted (w : WannierData W R) (s : WannierShifts W R) :
    ((∀ a b r, s.degeneracy a b r ≤ 8) → ∃ w', build w (some s) = .ok w') ∧
    ((∃ a b r, 8 < s.degeneracy a b r) → build w (some s) = .ub) := by
  show ((∀ a b r, s.degeneracy a b r ≤ 8) → ∃ w', addShiftedVectors w s = .ok w') ∧
    ((∃ a b r, 8 < s.degeneracy a b r) → addShiftedVectors w s = .ub)
  unfold addShiftedVectors
  constructor
  · intro h
    rw [if_neg (by rintro ⟨a, b, r, hr⟩; have := h a b r; omega)]
    exact ⟨_, rfl⟩
  · intro h
    exact if_pos h

/-- The Hamiltonian in real space is Hermitian: to every lattice vector belongs the opposite one, with the same
degeneracy, the adjoint matrix elements, and opposite copies. -/
structure HermitianData (w : WannierData W R) (s : Option (WannierShifts W R)) (opposite : Fin R ≃ Fin R) : Prop where
  degeneracy : ∀ r, w.degeneracy (opposite r) = w.degeneracy r
  elements : ∀ r a b, w.h0R (opposite r) b a = (starRingEnd ℂ) (w.h0R r a b)
  vectors : ∀ a b r, ((copies w s a b r).map fun v => -v).Perm (copies w s b a (opposite r))

theorem built_hermitian (w w' : WannierData W R) (s : Option (WannierShifts W R)) (hw : w.shifts = none)
    (h : build w s = .ok w') (opposite : Fin R ≃ Fin R) (hh : HermitianData w s opposite) (k : Vec3) :
    (blochH w' k).IsHermitian := by
  obtain ⟨h1, h2, h3, h4⟩ := build_spec w w' s hw h
  refine blochH_hermitian w' opposite ?_ ?_ ?_ k
  · intro r; rw [h1]; exact hh.degeneracy r
  · intro r a b; rw [h2]; exact hh.elements r a b
  · intro a b r; rw [h4, h4]; exact hh.vectors a b r

/-- C102: the Hamiltonian is Hermitian at every wavevector, when the data in real space are: the bands are real. -/
theorem C102_hermitian (w w' : WannierData W R) (s : Option (WannierShifts W R)) (hw : w.shifts = none)
    (h : build w s = .ok w') (opposite : Fin R ≃ Fin R) (hh : HermitianData w s opposite) (k : Vec3) (a b : Fin W) :
    blochH w' k b a = (starRingEnd ℂ) (blochH w' k a b) :=
  (congrFun (congrFun (built_hermitian w w' s hw h opposite hh k) b) a).symm

/-- C102: the Hamiltonian, so the energies, are the same at wavevectors that differ by a vector of the reciprocal
lattice, when the copies are lattice vectors. -/
theorem C102_periodic (d b : Mat3) (hdb : DualCells d b) (w w' : WannierData W R) (s : Option (WannierShifts W R))
    (hw : w.shifts = none) (h : build w s = .ok w')
    (hv : ∀ x y r, ∀ v ∈ copies w s x y r, ∃ i : V3 Int, v = matVec d (toVec i)) (eig : ElSolver W)
    (k : Vec3) (m : V3 Int) :
    blochH w' (k + matVec b (toVec m)) = blochH w' k ∧
    elDiagonalize eig w' (k + matVec b (toVec m)) = elDiagonalize eig w' k := by
  obtain ⟨h1, h2, h3, h4⟩ := build_spec w w' s hw h
  have e : blochH w' (k + matVec b (toVec m)) = blochH w' k := by
    refine blochH_congr w' w' (fun _ => rfl) (fun _ => rfl) _ _ fun x y r => ?_
    refine congrArg (· / _) (congrArg _ (List.map_congr_left fun v hv' => ?_))
    rw [h4] at hv'
    obtain ⟨i, hi⟩ := hv x y r v hv'
    obtain ⟨z, hz⟩ := recip_dot hdb m i
    rw [vdot_add, hi, hz, cis_periodic]
  refine ⟨e, ?_⟩
  unfold elDiagonalize
  rw [e]

/-- A wavevector of the grid `n`, in cartesian coordinates. -/
noncomputable def gridPoint (b : Mat3) {n : Fin 3 → Nat} (q : KGrid n) : Vec3 := matVec b fun i => ((q i : ℕ) : ℝ) / n i

/-- C102: at the wavevectors of the grid, shifts by vectors of the supercell change nothing. -/
theorem C102_shifts (d b : Mat3) (hdb : DualCells d b) (n : Fin 3 → Nat) (hn : ∀ i, 0 < n i)
    (w w' : WannierData W R) (s : WannierShifts W R) (hw : w.shifts = none) (h : build w (some s) = .ok w')
    (hpos : ∀ x y r, 0 < s.degeneracy x y r)
    (hs : ∀ j x y r, ∃ z : Fin 3 → ℤ, s.vectors j x y r = matVec d fun i => (n i : ℝ) * z i) (q : KGrid n) :
    blochH w' (gridPoint b q) = blochH w (gridPoint b q) := by
  obtain ⟨h1, h2, h3, h4⟩ := build_spec w w' (some s) hw h
  refine blochH_congr w w' (fun _ => by rw [h1]) (fun _ => by rw [h2]) _ _ fun x y r => ?_
  have e0 : w.images x y r = [w.bravais r] := by unfold WannierData.images; rw [hw]
  have e1 : ∀ v ∈ w'.images x y r, cis (vdot (gridPoint b q) v) = cis (vdot (gridPoint b q) (w.bravais r)) := by
    intro v hv
    rw [h4] at hv
    obtain ⟨j, hj, rfl⟩ := List.mem_map.mp hv
    have : ∃ z : Fin 3 → ℤ, (if h : j < 8 then s.vectors ⟨j, h⟩ x y r else 0) = matVec d fun i => (n i : ℝ) * z i := by
      split_ifs with h8
      · exact hs _ x y r
      · refine ⟨0, ?_⟩
        funext i
        simp [matVec, vdot]
    obtain ⟨z, hz⟩ := this
    rw [hz]
    have hadd : vdot (gridPoint b q) (w.bravais r + matVec d fun i => (n i : ℝ) * z i) =
        vdot (gridPoint b q) (w.bravais r) + vdot (gridPoint b q) (matVec d fun i => (n i : ℝ) * z i) := by
      simp [vdot]; ring
    rw [hadd, gridPoint, dual_dot hdb]
    refine Eq.trans ?_ (cis_periodic _ (∑ i, ((q i : ℕ) : ℤ) * z i))
    congr 2
    have g0 : (n 0 : ℝ) ≠ 0 := by have := hn 0; positivity
    have g1 : (n 1 : ℝ) ≠ 0 := by have := hn 1; positivity
    have g2 : (n 2 : ℝ) ≠ 0 := by have := hn 2; positivity
    simp only [Fin.sum_univ_three]
    push_cast
    field_simp
  rw [List.map_congr_left e1, List.map_const', List.sum_replicate, e0]
  have hl : ((w'.images x y r).length : ℂ) ≠ 0 := by
    rw [h4]
    have := hpos x y r
    simp [copies]
    omega
  simp only [nsmul_eq_mul, List.map_cons, List.map_nil, List.sum_cons, List.sum_nil, List.length_singleton, add_zero,
    Nat.cast_one, div_one]
  field_simp

/-- C102 (interpolation): if the matrix elements in real space are the Fourier transform of the Hamiltonians `H` of a grid,
and the inverse degeneracies of the lattice vectors that fall in each cell of the supercell add up to one (Wigner-Seitz
weights), the interpolated Hamiltonian at each wavevector of the grid is the Hamiltonian it was built from. -/
theorem C102_interpolation (d b : Mat3) (hdb : DualCells d b) (n : Fin 3 → Nat) (hn : ∀ i, 0 < n i)
    (w : WannierData W R) (hw : w.shifts = none) (m : Fin R → Fin 3 → ℤ)
    (hm : ∀ r, w.bravais r = matVec d fun i => (m r i : ℝ))
    (hweights : ∀ p : KGrid n, ∑ r with ∀ i, (n i : ℤ) ∣ m r i - (p i : ℕ), 1 / w.degeneracy r = 1)
    (H : KGrid n → Matrix (Fin W) (Fin W) ℂ)
    (hH : ∀ r x y, w.h0R r x y = (∑ q : KGrid n,
      Complex.exp (-Complex.I * ((∑ i, gridPoint b q i * w.bravais r i : ℝ) : ℂ)) * H q x y) / ((∏ i, n i : ℕ) : ℂ))
    (q : KGrid n) : blochH w (gridPoint b q) = H q := by
  funext x y
  have e := C102_value w w none hw rfl (gridPoint b q) x y
  rw [e]
  simp only [copies, List.map_cons, List.map_nil, List.sum_cons, List.sum_nil, add_zero, List.length_singleton,
    Nat.cast_one, div_one]
  have hN : ((∏ i, n i : ℕ) : ℂ) ≠ 0 := by
    have : (∏ i, n i : ℕ) ≠ 0 := Finset.prod_ne_zero_iff.mpr fun i _ => (hn i).ne'
    exact_mod_cast this
  have hdot : ∀ (q : KGrid n) r, (∑ i, gridPoint b q i * w.bravais r i) =
      2 * Real.pi * ∑ i, ((q i : ℕ) : ℝ) / n i * (m r i : ℝ) := by
    intro q r
    have := dual_dot hdb (fun i => ((q i : ℕ) : ℝ) / n i) (fun i => (m r i : ℝ))
    rw [← this, hm, Fin.sum_univ_three]
    rfl
  have key : ∀ r, w.h0R r x y / (w.degeneracy r : ℂ) *
      Complex.exp (Complex.I * ((∑ i, gridPoint b q i * w.bravais r i : ℝ) : ℂ)) =
      ∑ q', (((1 / w.degeneracy r : ℝ) : ℂ) * cis (2 * Real.pi * ∑ i, (((q i : ℕ) : ℝ) - ((q' i : ℕ) : ℝ)) / n i * (m r i : ℝ))) *
        (H q' x y / ((∏ i, n i : ℕ) : ℂ)) := by
    intro r
    rw [hH, div_div, mul_comm ((∏ i, n i : ℕ) : ℂ), ← div_div, div_mul_eq_mul_div, Finset.sum_div, Finset.sum_mul,
      Finset.sum_div]
    refine Finset.sum_congr rfl fun q' _ => ?_
    rw [hdot, hdot]
    have hc : cis (2 * Real.pi * ∑ i, (((q i : ℕ) : ℝ) - ((q' i : ℕ) : ℝ)) / n i * (m r i : ℝ)) =
        Complex.exp (-Complex.I * ((2 * Real.pi * ∑ i, ((q' i : ℕ) : ℝ) / n i * (m r i : ℝ) : ℝ) : ℂ)) *
        Complex.exp (Complex.I * ((2 * Real.pi * ∑ i, ((q i : ℕ) : ℝ) / n i * (m r i : ℝ) : ℝ) : ℂ)) := by
      rw [← Complex.exp_add]
      unfold cis
      congr 1
      simp only [sub_div, sub_mul, Finset.sum_sub_distrib]
      push_cast
      ring
    rw [hc]
    push_cast
    ring
  simp only [key]
  rw [Finset.sum_comm]
  simp only [← Finset.sum_mul]
  simp only [grid_class_sum n hn m (fun r => 1 / w.degeneracy r) hweights q]
  rw [Finset.sum_eq_single q]
  · rw [if_pos rfl]; field_simp
  · intro q' _ hq'
    rw [if_neg (Ne.symm hq'), zero_mul]
  · intro h; exact absurd (Finset.mem_univ q) h

/-- A chain along the first axis with one function per cell and hopping `t`. -/
noncomputable def chain (t : ℂ) : WannierData 1 2 where
  bravais := fun r => if r = 0 then ![1, 0, 0] else ![-1, 0, 0]
  degeneracy := fun _ => 1
  h0R := fun r => fun _ _ => if r = 0 then t else (starRingEnd ℂ) t
  rMatrix := fun _ _ => 0
  shifts := none

/-- The chain meets the hypotheses of `C102_hermitian`. -/
example (t : ℂ) : build (chain t) none = .ok (chain t) ∧ (chain t).shifts = none ∧
    HermitianData (chain t) none (Equiv.swap 0 1) := by
  refine ⟨rfl, rfl, fun _ => rfl, ?_, ?_⟩
  · intro r a b
    fin_cases r <;> simp [chain]
  · intro a b r
    fin_cases r <;> simp [copies, chain]

/-- And of `C102_periodic`, with the cubic cell. -/
example (t : ℂ) : DualCells (fun i j => if i = j then 1 else 0) (fun i j => if i = j then 2 * Real.pi else 0) ∧
    ∀ x y r, ∀ v ∈ copies (chain t) none x y r, ∃ i : V3 Int, v = matVec (fun i j => if i = j then 1 else 0) (toVec i) := by
  constructor
  · intro i j
    fin_cases i <;> fin_cases j <;> simp
  · intro x y r v hv
    simp only [copies, List.mem_singleton] at hv
    subst hv
    fin_cases r
    · refine ⟨⟨1, 0, 0⟩, ?_⟩
      funext i
      fin_cases i <;> simp [chain, matVec, toVec, vdot]
    · refine ⟨⟨-1, 0, 0⟩, ?_⟩
      funext i
      fin_cases i <;> simp [chain, matVec, toVec, vdot]

/-- The Wigner-Seitz vectors of two cells along a line meet the weights of `C102_interpolation`: zero, and one cell
to each side with degeneracy two. -/
example (p : KGrid ![2, 1, 1]) : ∑ r : Fin 3 with ∀ i, ((![2, 1, 1] i : ℕ) : ℤ) ∣
    (![![0, 0, 0], ![1, 0, 0], ![-1, 0, 0]] : Fin 3 → Fin 3 → ℤ) r i - (p i : ℕ), 1 / (![1, 2, 2] : Fin 3 → ℝ) r = 1 := by
  have h1 : (p 1 : ℕ) = 0 := by have : (p 1 : ℕ) < 1 := (p 1).2; omega
  have h2 : (p 2 : ℕ) = 0 := by have : (p 2 : ℕ) < 1 := (p 2).2; omega
  have h0 : (p 0 : ℕ) < 2 := (p 0).2
  rw [Finset.sum_filter, Fin.sum_univ_three]
  simp only [Fin.forall_fin_succ, Fin.forall_fin_zero_pi]
  obtain h | h : (p 0 : ℕ) = 0 ∨ (p 0 : ℕ) = 1 := by omega
  · simp [Fin.forall_fin_succ, h, h1, h2]
  · simp [Fin.forall_fin_succ, h, h1, h2]; norm_num

/-- A chain with two copies of each vector, two cells apart, meets the hypotheses of `C102_shifts`. -/
example (t : ℂ) : ∃ w', build (chain t) (some ⟨fun _ _ _ => 2, fun j _ _ _ => ![2 * j.1, 0, 0]⟩) = .ok w' ∧
    ∀ (j : Fin 8) (_ _ : Fin 1) (_ : Fin 2), ∃ z : Fin 3 → ℤ, (![2 * (j.1 : ℝ), 0, 0] : Vec3) =
      matVec (fun i j => if i = j then 1 else 0) fun i => ((![2, 1, 1] i : ℕ) : ℝ) * z i := by
  obtain ⟨w', h⟩ := (C102_accepted (chain t) ⟨fun _ _ _ => 2, fun j _ _ _ => ![2 * j.1, 0, 0]⟩).1 (by intros; simp)
  refine ⟨w', h, fun j _ _ _ => ⟨![j.1, 0, 0], ?_⟩⟩
  funext i
  fin_cases i <;> simp [matVec, vdot]

/-! ### C103: velocities on the host -/

/-- The energies at a wavevector, numbered from zero. -/
noncomputable def elEnergies (eig : ElSolver W) (w : WannierData W R) (k : Vec3) : Nat → ℝ := fun b =>
  if h : b < W then (elDiagonalize eig w k).1 ⟨b, h⟩ else 0

/-- C103: the velocities at a wavevector shorter than `1e-6` are zero. -/
theorem C103_centre (eig : ElSolver W) (solver : (d : Nat) → Matrix (Fin d) (Fin d) ℂ → Matrix (Fin d) (Fin d) ℂ) (t : ℝ)
    (w : WannierData W R) (k : Vec3) (hk : vnorm k < 1.0e-6) (a b i : Nat) : elVelocity eig solver t w k a b i = 0 := by
  have : elVelocity eig solver t w k = 0 := if_pos hk
  rw [this]; rfl

theorem elVelocity_eq (eig : ElSolver W) (solver : (d : Nat) → Matrix (Fin d) (Fin d) ℂ → Matrix (Fin d) (Fin d) ℂ) (t : ℝ)
    (w : WannierData W R) (k : Vec3) (hk : 1.0e-6 ≤ vnorm k) : elVelocity eig solver t w k =
      hostDegLoop solver (elEnergies eig w k) t W W 0 (bandVel fun i => elRaw eig w k i) := if_neg (not_lt.mpr hk)

/-- C103: the velocity operator is Hermitian, for all data and whatever the libraries return: the diagonal elements, the
group velocities, are real. -/
theorem C103_hermitian (eig : ElSolver W) (solver : (d : Nat) → Matrix (Fin d) (Fin d) ℂ → Matrix (Fin d) (Fin d) ℂ)
    (t : ℝ) (w : WannierData W R) (k : Vec3) (a b i : Nat) :
    elVelocity eig solver t w k b a i = (starRingEnd ℂ) (elVelocity eig solver t w k a b i) := by
  by_cases hk : vnorm k < 1.0e-6
  · rw [C103_centre eig solver t w k hk, C103_centre eig solver t w k hk, map_zero]
  rw [elVelocity_eq eig solver t w k (not_lt.mp hk)]
  exact degLoop_hermitian solver _ t _ (fun i => elRaw_hermitian eig w k i) a b i

/-- A bound on the error of the central differences with step `1e-8`: it is of the order of the square of the step. -/
noncomputable def differenceError (w : WannierData W R) (s : Option (WannierShifts W R)) (i : Fin 3) : ℝ :=
  ∑ m, ∑ n, ∑ r, ((copies w s m n r).map fun v => |v i| ^ 3).sum / ((copies w s m n r).length : ℝ) *
    (‖w.h0R r m n‖ / |w.degeneracy r|) * (1.0e-16 / 6)

/-- C103 (what is computed): between the bands of different blocks, and for a band that is not degenerate, the velocity
operator is the matrix element of the derivative `D` of the Hamiltonian between the eigenvectors at the wavevector, with
an error of the order of the square of the step. -/
theorem C103_value_partial (w w' : WannierData W R) (s : Option (WannierShifts W R)) (hw : w.shifts = none)
    (h : build w s = .ok w') (opposite : Fin R ≃ Fin R) (hh : HermitianData w s opposite)
    (eig : ElSolver W) (he : ElSolves eig)
    (solver : (d : Nat) → Matrix (Fin d) (Fin d) ℂ → Matrix (Fin d) (Fin d) ℂ) (t : ℝ)
    (k : Vec3) (hk : 1.0e-6 ≤ vnorm k) (l : List (Nat × Nat)) (hl : Blocks (elEnergies eig w' k) t W l) (i : Fin 3)
    (D : Matrix (Fin W) (Fin W) ℂ)
    (hD : ∀ m n, HasDerivAt (fun x : ℝ => blochH w' (k + Pi.single i x) m n) (D m n) 0) (a b : Fin W)
    (hab : ∀ s d, (s, d) ∈ l → 2 ≤ d → ¬ ((s ≤ a.1 ∧ a.1 < s + d) ∧ s ≤ b.1 ∧ b.1 < s + d)) :
    ‖elVelocity eig solver t w' k a b i - ∑ m, ∑ n, (starRingEnd ℂ) ((elDiagonalize eig w' k).2 m a) * D m n *
      (elDiagonalize eig w' k).2 n b‖ ≤ differenceError w s i := by
  obtain ⟨h1, h2, h3, h4⟩ := build_spec w w' s hw h
  have herm := built_hermitian w w' s hw h opposite hh
  have hDe : D = blochDer w' k i := by
    funext m n
    exact (hD m n).unique (blochH_hasDeriv w' k i m n)
  have hu := (he _ (herm k)).left
  obtain ⟨u, hu'⟩ : ∃ u, u = (elDiagonalize eig w' k).2 := ⟨_, rfl⟩
  have hder : ∀ m n, elDer w' k i m n = (blochH w' (shiftQ k i constDeltaQ) m n -
      blochH w' (shiftQ k i (-constDeltaQ)) m n) / ((2 * constDeltaQ : ℝ) : ℂ) := by
    intro m n
    have c1 : ∀ q : Vec3, ∀ m n, (starRingEnd ℂ) (blochH w' q n m) = blochH w' q m n :=
      fun q m n => congrFun (congrFun (herm q) m) n
    unfold elDer
    simp only [map_div₀, map_sub, c1, Complex.conj_ofReal]
    rw [show (0.5 : ℂ) = 1 / 2 by norm_num]
    ring
  have hv : elVelocity eig solver t w' k a b i = ∑ m, ∑ n, (starRingEnd ℂ) (u m a) * elDer w' k i m n * u n b := by
    rw [elVelocity_eq eig solver t w' k hk, (degLoop_block solver _ t _ l hl).2 a b i hab]
    unfold bandVel
    rw [dif_pos ⟨a.2, b.2, i.2⟩]
    show elRaw eig w' k i a b = _
    unfold elRaw
    rw [← hu']
    simp only [Matrix.mul_apply, Finset.sum_mul, Matrix.conjTranspose_apply]
    rw [Finset.sum_comm]
    rfl
  rw [hv, ← hu', ← Finset.sum_sub_distrib]
  simp only [← Finset.sum_sub_distrib]
  unfold differenceError
  refine (norm_sum_le _ _).trans (Finset.sum_le_sum fun m _ => ?_)
  refine (norm_sum_le _ _).trans (Finset.sum_le_sum fun n _ => ?_)
  have e1 : (starRingEnd ℂ) (u m a) * elDer w' k i m n * u n b - (starRingEnd ℂ) (u m a) * D m n * u n b =
      (starRingEnd ℂ) (u m a) * (elDer w' k i m n - D m n) * u n b := by ring
  have hum : ‖u m a‖ ≤ 1 := by rw [hu']; exact unitary_entry_le hu m a
  have hun : ‖u n b‖ ≤ 1 := by rw [hu']; exact unitary_entry_le hu n b
  rw [e1, norm_mul, norm_mul, RCLike.norm_conj]
  have e2 : ‖u m a‖ * ‖elDer w' k i m n - D m n‖ * ‖u n b‖ ≤ ‖elDer w' k i m n - D m n‖ := by
    have g := norm_nonneg (elDer w' k i m n - D m n)
    have g1 := norm_nonneg (u m a)
    have g2 := norm_nonneg (u n b)
    calc _ ≤ 1 * ‖elDer w' k i m n - D m n‖ * 1 := by gcongr
      _ = _ := by ring
  refine e2.trans ?_
  rw [hder, hDe]
  refine (central_difference w' k i constDeltaQ (by unfold constDeltaQ; norm_num) m n).trans (le_of_eq ?_)
  refine Finset.sum_congr rfl fun r _ => ?_
  rw [h4, h1, h2]
  have e3 : ((copies w s m n r).map fun v => constDeltaQ ^ 2 * |v i| ^ 3 / 6).sum =
      ((copies w s m n r).map fun v => |v i| ^ 3).sum * (1.0e-16 / 6) := by
    rw [← List.sum_map_mul_right]
    refine congrArg _ (List.map_congr_left fun v _ => ?_)
    unfold constDeltaQ
    norm_num
    ring
  rw [e3]
  simp only [div_eq_mul_inv, mul_inv]
  ring

/-- There is such a derivative at every wavevector. -/
example (w : WannierData W R) (k : Vec3) (i : Fin 3) : ∃ D : Matrix (Fin W) (Fin W) ℂ, ∀ m n,
    HasDerivAt (fun x : ℝ => blochH w (k + Pi.single i x) m n) (D m n) 0 := ⟨_, blochH_hasDeriv w k i⟩

/-- C103: the diagonal element of the velocity operator of a band that is not degenerate is the derivative of its
energy, with an error of the order of the square of the step: `e` and `psi` follow the band, with differentiable energy
and wavefunction, when the wavevector moves along an axis. -/
theorem C103_gradient_partial (w w' : WannierData W R) (s : Option (WannierShifts W R)) (hw : w.shifts = none)
    (h : build w s = .ok w') (opposite : Fin R ≃ Fin R) (hh : HermitianData w s opposite)
    (eig : ElSolver W) (he : ElSolves eig)
    (solver : (d : Nat) → Matrix (Fin d) (Fin d) ℂ → Matrix (Fin d) (Fin d) ℂ) (t : ℝ)
    (k : Vec3) (hk : 1.0e-6 ≤ vnorm k) (l : List (Nat × Nat)) (hl : Blocks (elEnergies eig w' k) t W l) (i : Fin 3)
    (a : Fin W) (ha : ∀ s d, (s, d) ∈ l → 2 ≤ d → ¬ (s ≤ a.1 ∧ a.1 < s + d))
    (e : ℝ → ℝ) (e' : ℝ) (psi : ℝ → Fin W → ℂ) (psi' : Fin W → ℂ)
    (hband : ∀ x m, ∑ n, blochH w' (k + Pi.single i x) m n * psi x n = (e x : ℂ) * psi x m)
    (h0 : ∀ m, psi 0 m = (elDiagonalize eig w' k).2 m a) (hed : HasDerivAt e e' 0)
    (hpd : ∀ m, HasDerivAt (fun x => psi x m) (psi' m) 0) :
    ‖elVelocity eig solver t w' k a a i - (e' : ℂ)‖ ≤ differenceError w s i := by
  have herm := built_hermitian w w' s hw h opposite hh
  have hu := (he _ (herm k)).left
  have hD := blochH_hasDeriv w' k i
  have hv := C103_value_partial w w' s hw h opposite hh eig he solver t k hk l hl i _ hD a a
    (fun s d hm hd hc => ha s d hm hd hc.1)
  obtain ⟨u, hu'⟩ : ∃ u, u = (elDiagonalize eig w' k).2 := ⟨_, rfl⟩
  have hu : u.conjTranspose * u = 1 := by rw [hu']; exact hu
  rw [← hu'] at hv
  simp only [← hu'] at h0
  suffices hs : ∑ m, ∑ n, (starRingEnd ℂ) (u m a) * blochDer w' k i m n * u n a = (e' : ℂ) by rwa [hs] at hv
  have k0 : k + Pi.single i (0 : ℝ) = k := by simp
  have hb0 : ∀ m, ∑ n, blochH w' k m n * u n a = (e 0 : ℂ) * u m a := by
    intro m
    have := hband 0 m
    simp only [k0, h0] at this
    exact this
  have hnorm : ∑ m, (starRingEnd ℂ) (u m a) * u m a = 1 := by
    have := congrFun (congrFun hu a) a
    rw [Matrix.mul_apply, Matrix.one_apply_eq] at this
    exact this
  have hec : HasDerivAt (fun x : ℝ => (e x : ℂ)) (e' : ℂ) 0 := hed.ofReal_comp
  -- differentiate the expectation value of the equation of the band
  have hl1 : HasDerivAt (fun x => ∑ m, (starRingEnd ℂ) (u m a) * ∑ n, blochH w' (k + Pi.single i x) m n * psi x n)
      (∑ m, (starRingEnd ℂ) (u m a) * ∑ n, (blochDer w' k i m n * u n a + blochH w' k m n * psi' n)) 0 := by
    refine HasDerivAt.fun_sum fun m _ => HasDerivAt.const_mul _ (HasDerivAt.fun_sum fun n _ => ?_)
    refine ((hD m n).mul (hpd n)).congr_deriv ?_
    rw [h0, k0]
  have hl2 : HasDerivAt (fun x => ∑ m, (starRingEnd ℂ) (u m a) * ((e x : ℂ) * psi x m))
      (∑ m, (starRingEnd ℂ) (u m a) * ((e' : ℂ) * u m a + (e 0 : ℂ) * psi' m)) 0 := by
    refine HasDerivAt.fun_sum fun m _ => HasDerivAt.const_mul _ ?_
    refine (hec.mul (hpd m)).congr_deriv ?_
    rw [h0]
  simp only [hband] at hl1
  have heq := hl1.unique hl2
  have hleft : ∑ m, (starRingEnd ℂ) (u m a) * ∑ n, blochH w' k m n * psi' n =
      (e 0 : ℂ) * ∑ n, (starRingEnd ℂ) (u n a) * psi' n := by
    have : ∀ n, ∑ m, (starRingEnd ℂ) (u m a) * blochH w' k m n = (e 0 : ℂ) * (starRingEnd ℂ) (u n a) := by
      intro n
      have := congrArg (starRingEnd ℂ) (hb0 n)
      rw [map_sum, map_mul, Complex.conj_ofReal] at this
      rw [← this]
      refine Finset.sum_congr rfl fun m _ => ?_
      rw [map_mul, mul_comm]
      exact congrArg (· * _) (congrFun (congrFun (herm k) m) n).symm
    simp only [Finset.mul_sum]
    rw [Finset.sum_comm]
    refine Finset.sum_congr rfl fun n _ => ?_
    rw [← mul_assoc, ← this, Finset.sum_mul]
    exact Finset.sum_congr rfl fun m _ => by ring
  simp only [Finset.sum_add_distrib, mul_add] at heq
  rw [hleft] at heq
  have hr1 : ∑ m, (starRingEnd ℂ) (u m a) * ((e' : ℂ) * u m a) = (e' : ℂ) := by
    have : ∑ m, (starRingEnd ℂ) (u m a) * ((e' : ℂ) * u m a) = (e' : ℂ) * ∑ m, (starRingEnd ℂ) (u m a) * u m a := by
      rw [Finset.mul_sum]
      exact Finset.sum_congr rfl fun m _ => by ring
    rw [this, hnorm, mul_one]
  have hr2 : ∑ m, (starRingEnd ℂ) (u m a) * ((e 0 : ℂ) * psi' m) = (e 0 : ℂ) * ∑ n, (starRingEnd ℂ) (u n a) * psi' n := by
    rw [Finset.mul_sum]
    exact Finset.sum_congr rfl fun m _ => by ring
  rw [hr1, hr2] at heq
  have := add_right_cancel heq
  rw [← this]
  refine Finset.sum_congr rfl fun m _ => ?_
  rw [Finset.mul_sum]
  exact Finset.sum_congr rfl fun n _ => by ring

theorem el_block_bound {en : Nat → ℝ} {t : ℝ} {n : Nat} {l : List (Nat × Nat)} (hl : Blocks en t n l) {s d : Nat}
    (hm : (s, d) ∈ l) : s + d ≤ n := (blocksFrom_ge en t n _ _ hl s d hm).2.2

theorem el_multiset (eig : ElSolver W)
    (solver : (d : Nat) → Matrix (Fin d) (Fin d) ℂ → Matrix (Fin d) (Fin d) ℂ) (hz : IsEigensolver solver)
    (t : ℝ) (w : WannierData W R) (k : Vec3) (hk : 1.0e-6 ≤ vnorm k)
    (l : List (Nat × Nat)) (hl : Blocks (elEnergies eig w k) t W l) (s d : Nat) (hm : (s, d) ∈ l) (i : Fin 3) :
    (Finset.univ.val.map fun j : Fin d => elVelocity eig solver t w k (s + j) (s + j) i) =
      ((elRaw eig w k i).submatrix (blockIx (el_block_bound hl hm)) (blockIx (el_block_bound hl hm))).charpoly.roots := by
  rw [elVelocity_eq eig solver t w k hk]
  exact (host_roots solver hz _ t _ (fun i => elRaw_hermitian eig w k i) l hl hm (el_block_bound hl hm) i).symm

/-- C103: within a block of degenerate bands the velocity operator is diagonal, and the velocities of the block in each
direction, as a multiset, do not depend on the choice of the eigenvectors: any two libraries that keep their promise
give the same ones. -/
theorem C103_gauge (w w' : WannierData W R) (s : Option (WannierShifts W R)) (hw : w.shifts = none)
    (h : build w s = .ok w') (opposite : Fin R ≃ Fin R) (hh : HermitianData w s opposite)
    (eig eig' : ElSolver W) (he : ElSolves eig) (he' : ElSolves eig')
    (solver solver' : (d : Nat) → Matrix (Fin d) (Fin d) ℂ → Matrix (Fin d) (Fin d) ℂ) (hz : IsEigensolver solver)
    (hz' : IsEigensolver solver') (t : ℝ) (ht : 0 ≤ t) (k : Vec3)
    (l : List (Nat × Nat)) (hl : Blocks (elEnergies eig w' k) t W l) (p d : Nat) (hm : (p, d) ∈ l) (i : Fin 3) :
    (∀ x y : Fin d, x ≠ y → elVelocity eig solver t w' k (p + x) (p + y) i = 0) ∧
    (Finset.univ.val.map fun x : Fin d => elVelocity eig solver t w' k (p + x) (p + x) i) =
      Finset.univ.val.map fun x : Fin d => elVelocity eig' solver' t w' k (p + x) (p + x) i := by
  by_cases hk : vnorm k < 1.0e-6
  · simp [C103_centre _ _ t w' k hk]
  have hk := not_lt.mp hk
  have d1 := he _ (built_hermitian w w' s hw h opposite hh k)
  have d2 := he' _ (built_hermitian w w' s hw h opposite hh k)
  have hl' : Blocks (elEnergies eig' w' k) t W l := by
    have : elEnergies eig' w' k = elEnergies eig w' k := by
      unfold elEnergies elDiagonalize
      rw [eigenvalues_unique (by simp) d2 d1 rfl]
    rw [this]; exact hl
  constructor
  · intro x y hxy
    have hd : 2 ≤ d := by
      have := x.2
      have := y.2
      have : x.1 ≠ y.1 := fun h => hxy (Fin.ext h)
      omega
    rw [elVelocity_eq eig solver t w' k hk, (degLoop_block solver _ t _ l hl).1 p d hm hd i i.2 x y]
    exact (hz d _ (hostSub_hermitian _ _ _ _)).2 x y hxy
  · rw [el_multiset eig solver hz t w' k hk l hl p d hm i, el_multiset eig' solver' hz' t w' k hk l hl' p d hm i]
    exact operator_roots_unique d1 d2 t ht (elDer w' k i) l hl hm _

/-- C103: with real matrix elements (time reversal symmetry without spin) the energies at opposite wavevectors are the
same, so the blocks of degenerate bands are, and in each block the velocities at `-k` are those at `k` with the sign
changed. -/
theorem C103_odd (w w' : WannierData W R) (s : Option (WannierShifts W R)) (hw : w.shifts = none)
    (h : build w s = .ok w') (opposite : Fin R ≃ Fin R) (hh : HermitianData w s opposite)
    (hreal : ∀ r a b, (w.h0R r a b).im = 0)
    (eig eig' : ElSolver W) (he : ElSolves eig) (he' : ElSolves eig')
    (solver solver' : (d : Nat) → Matrix (Fin d) (Fin d) ℂ → Matrix (Fin d) (Fin d) ℂ) (hz : IsEigensolver solver)
    (hz' : IsEigensolver solver') (t : ℝ) (ht : 0 ≤ t) (k : Vec3)
    (l : List (Nat × Nat)) (hl : Blocks (elEnergies eig w' k) t W l) :
    elEnergies eig' w' (-k) = elEnergies eig w' k ∧ ∀ p d, (p, d) ∈ l → ∀ i : Fin 3,
    (Finset.univ.val.map fun x : Fin d => elVelocity eig' solver' t w' (-k) (p + x) (p + x) i) =
      Finset.univ.val.map fun x : Fin d => -elVelocity eig solver t w' k (p + x) (p + x) i := by
  obtain ⟨h1, h2, h3, h4⟩ := build_spec w w' s hw h
  have hr : ∀ r a b, (starRingEnd ℂ) (w'.h0R r a b) = w'.h0R r a b := by
    intro r a b
    rw [h2]
    exact Complex.conj_eq_iff_im.mpr (hreal r a b)
  have hc := elConjSolver_solves eig' he'
  have d1 := he _ (built_hermitian w w' s hw h opposite hh k)
  have dc := hc _ (built_hermitian w w' s hw h opposite hh k)
  have hce : elEnergies (elConjSolver eig') w' k = elEnergies eig w' k := by
    unfold elEnergies elDiagonalize
    rw [eigenvalues_unique (by simp) dc d1 rfl]
  have hen : elEnergies eig' w' (-k) = elEnergies eig w' k := by
    rw [← hce]
    unfold elEnergies
    rw [(elDiagonalize_neg w' hr eig' k).1]
  have hl' : Blocks (elEnergies eig' w' (-k)) t W l := by rw [hen]; exact hl
  refine ⟨hen, fun p d hm i => ?_⟩
  have hn : vnorm (-k) = vnorm k := by simp [vnorm, vdot]
  by_cases hk : vnorm k < 1.0e-6
  · simp only [C103_centre _ _ t w' k hk, C103_centre _ _ t w' (-k) (hn ▸ hk), neg_zero]
  have hk := not_lt.mp hk
  rw [el_multiset eig' solver' hz' t w' (-k) (hn ▸ hk) l hl' p d hm i, elRaw_neg w' hr]
  have hlc : Blocks (elEnergies (elConjSolver eig') w' k) t W l := by rw [hce]; exact hl
  have e := operator_roots_unique dc d1 t ht (elDer w' k i) l hlc hm (el_block_bound hl hm)
  have e2 := el_multiset eig solver hz t w' k hk l hl p d hm i
  have e3 : ((elRaw (elConjSolver eig') w' k i).submatrix (blockIx (el_block_bound hl hm))
      (blockIx (el_block_bound hl hm))).charpoly.roots = Finset.univ.val.map fun j : Fin d =>
        elVelocity eig solver t w' k (p + j) (p + j) i := e.trans e2.symm
  have hs : (-((elRaw (elConjSolver eig') w' k i).map (starRingEnd ℂ))).submatrix
      (blockIx (el_block_bound hl' hm)) (blockIx (el_block_bound hl' hm)) =
      -(((elRaw (elConjSolver eig') w' k i).submatrix (blockIx (el_block_bound hl hm))
        (blockIx (el_block_bound hl hm))).map (starRingEnd ℂ)) := rfl
  rw [hs, roots_neg_conj, e3, Multiset.map_map]
  · rfl
  · rw [Matrix.conjTranspose_submatrix, elRaw_hermitian]

theorem chain_bloch (t : ℂ) (x : ℝ) : blochH (chain t) ![x, 0, 0] 0 0 =
    t * Complex.exp (Complex.I * (x : ℂ)) + (starRingEnd ℂ) t * Complex.exp (-(Complex.I * (x : ℂ))) := by
  have := C102_value (chain t) (chain t) none rfl rfl ![x, 0, 0] 0 0
  rw [this, Fin.sum_univ_two]
  simp [chain, copies, Fin.sum_univ_three]

theorem chain_der (t : ℂ) (x : ℝ) : elDer (chain t) ![x, 0, 0] 0 0 0 =
    (((t * Complex.exp (Complex.I * (x : ℂ))).im * (-2) * (Real.sin constDeltaQ / constDeltaQ) : ℝ) : ℂ) := by
  have hs : ∀ d, shiftQ ![x, 0, 0] 0 d = ![x + d, 0, 0] := by
    intro d
    funext i
    fin_cases i <;> simp [shiftQ]
  have hd : constDeltaQ ≠ 0 := by unfold constDeltaQ; norm_num
  unfold elDer
  simp only [hs, chain_bloch]
  obtain ⟨z, hz⟩ : ∃ z, z = t * Complex.exp (Complex.I * (x : ℂ)) := ⟨_, rfl⟩
  have hz' : (starRingEnd ℂ) z = (starRingEnd ℂ) t * Complex.exp (-(Complex.I * (x : ℂ))) := by
    rw [hz, map_mul, ← Complex.exp_conj]
    simp
  have e1 : ∀ d : ℝ, t * Complex.exp (Complex.I * ((x + d : ℝ) : ℂ)) = z * cis d := by
    intro d
    rw [hz, cis, mul_assoc, ← Complex.exp_add]
    push_cast
    ring_nf
  have e2 : ∀ d : ℝ, (starRingEnd ℂ) t * Complex.exp (-(Complex.I * ((x + d : ℝ) : ℂ))) = (starRingEnd ℂ) z * cis (-d) := by
    intro d
    rw [hz', cis, mul_assoc, ← Complex.exp_add]
    push_cast
    ring_nf
  simp only [e1, e2, neg_neg]
  have e3 : z * cis constDeltaQ + (starRingEnd ℂ) z * cis (-constDeltaQ) -
      (z * cis (-constDeltaQ) + (starRingEnd ℂ) z * cis constDeltaQ) =
      (((z.im * (-4) * Real.sin constDeltaQ : ℝ)) : ℂ) := by
    have h1 := cis_sub_cis constDeltaQ
    have h2 : z - (starRingEnd ℂ) z = ((2 * z.im : ℝ) : ℂ) * Complex.I := Complex.sub_conj z
    calc _ = (z - (starRingEnd ℂ) z) * (cis constDeltaQ - cis (-constDeltaQ)) := by ring
      _ = _ := by
        rw [h1, h2]
        push_cast
        linear_combination (2 * (z.im : ℂ) * 2 * Complex.sin constDeltaQ) * Complex.I_mul_I
  rw [e3, ← hz]
  simp only [← Complex.ofReal_div, Complex.conj_ofReal]
  rw [show (0.5 : ℂ) = 1 / 2 by norm_num, ← two_mul, ← mul_assoc, show (1 / 2 : ℂ) * 2 = 1 by norm_num, one_mul]
  congr 1
  field_simp
  ring

theorem chain_velocity (t : ℂ) (eig : ElSolver 1) (he : ElSolves eig)
    (solver : (d : Nat) → Matrix (Fin d) (Fin d) ℂ → Matrix (Fin d) (Fin d) ℂ) (thr x : ℝ) (hx : 1.0e-6 ≤ x) :
    elVelocity eig solver thr (chain t) ![x, 0, 0] 0 0 0 =
    (((t * Complex.exp (Complex.I * (x : ℂ))).im * (-2) * (Real.sin constDeltaQ / constDeltaQ) : ℝ) : ℂ) := by
  have hh : HermitianData (chain t) none (Equiv.swap 0 1) := by
    refine ⟨fun _ => rfl, ?_, ?_⟩
    · intro r a b
      fin_cases r <;> simp [chain]
    · intro a b r
      fin_cases r <;> simp [copies, chain]
  have hk : (1.0e-6 : ℝ) ≤ vnorm ![x, 0, 0] := by
    unfold vnorm
    refine Real.le_sqrt_of_sq_le ?_
    have : vdot ![x, 0, 0] ![x, 0, 0] = x ^ 2 := by simp [vdot]; ring
    rw [this]
    have : (0 : ℝ) ≤ 1.0e-6 := by norm_num
    nlinarith
  have hu := (he _ (built_hermitian (chain t) (chain t) none rfl rfl _ hh ![x, 0, 0])).left
  rw [elVelocity_eq eig solver thr (chain t) _ hk]
  obtain ⟨l, hl, _⟩ := C73_partition (elEnergies eig (chain t) ![x, 0, 0]) thr 1
  rw [(degLoop_block solver _ thr _ l hl).2 0 0 0 (by
    intro s d hm hd hc
    have := el_block_bound hl hm
    omega)]
  unfold bandVel
  rw [dif_pos ⟨by omega, by omega, by omega⟩]
  show elRaw eig (chain t) ![x, 0, 0] 0 0 0 = _
  rw [← chain_der]
  unfold elRaw
  have h1 := congrFun (congrFun hu 0) 0
  change ((elDiagonalize eig (chain t) ![x, 0, 0]).2.conjTranspose * (elDiagonalize eig (chain t) ![x, 0, 0]).2) 0 0 =
    (1 : Matrix (Fin 1) (Fin 1) ℂ) 0 0 at h1
  rw [Matrix.mul_apply, Matrix.one_apply_eq, Fin.sum_univ_one] at h1
  rw [Matrix.mul_apply, Fin.sum_univ_one, Matrix.mul_apply, Fin.sum_univ_one]
  linear_combination (elDer (chain t) ![x, 0, 0] 0 0 0) * h1

theorem sinc_pos : 0 < Real.sin constDeltaQ / constDeltaQ := by
  have hd : 0 < constDeltaQ := by unfold constDeltaQ; norm_num
  refine div_pos (Real.sin_pos_of_pos_of_lt_pi hd ?_) hd
  have := Real.pi_gt_three
  unfold constDeltaQ
  norm_num
  linarith

/-- C103 is violated at the zone centre: in a chain with hopping `i` the band is `-2 sin k`, with slope `-2` at the zone
centre, where the program returns a velocity of zero.  At the equivalent wavevector `(2 pi, 0, 0)`, with the same
Hamiltonian, the velocity is not zero. -/
theorem C103_violated (eig : ElSolver 1) (he : ElSolves eig)
    (solver : (d : Nat) → Matrix (Fin d) (Fin d) ℂ → Matrix (Fin d) (Fin d) ℂ) (thr : ℝ) :
    HermitianData (chain Complex.I) none (Equiv.swap 0 1) ∧
    (∀ x : ℝ, blochH (chain Complex.I) ![x, 0, 0] 0 0 = ((-2 * Real.sin x : ℝ) : ℂ)) ∧
    HasDerivAt (fun x : ℝ => -2 * Real.sin x) (-2) 0 ∧
    elVelocity eig solver thr (chain Complex.I) 0 0 0 0 = 0 ∧
    elVelocity eig solver thr (chain Complex.I) ![2 * Real.pi, 0, 0] 0 0 0 ≠ 0 := by
  refine ⟨?_, ?_, ?_, ?_, ?_⟩
  · refine ⟨fun _ => rfl, ?_, ?_⟩
    · intro r a b
      fin_cases r <;> simp [chain]
    · intro a b r
      fin_cases r <;> simp [copies, chain]
  · intro x
    rw [chain_bloch]
    have h := cis_sub_cis x
    have e1 : Complex.exp (Complex.I * (x : ℂ)) = cis x := rfl
    have e2 : Complex.exp (-(Complex.I * (x : ℂ))) = cis (-x) := by
      unfold cis; congr 1; push_cast; ring
    rw [e1, e2, Complex.conj_I]
    have : Complex.I * cis x + -Complex.I * cis (-x) = Complex.I * (cis x - cis (-x)) := by ring
    rw [this, h]
    push_cast
    linear_combination (2 * Complex.sin x) * Complex.I_mul_I
  · have := (Real.hasDerivAt_sin 0).const_mul (-2 : ℝ)
    simpa using this
  · refine C103_centre eig solver thr _ 0 ?_ 0 0 0
    simp [vnorm, vdot]
    norm_num
  · have hpi := Real.pi_gt_three
    rw [chain_velocity Complex.I eig he solver thr _ (by norm_num; linarith)]
    have : Complex.exp (Complex.I * ((2 * Real.pi : ℝ) : ℂ)) = 1 := by
      have := cis_int 1
      rw [Int.cast_one, one_mul] at this
      exact this
    rw [this, mul_one, Complex.I_im]
    have h := sinc_pos
    have h2 : (1 * (-2) * (Real.sin constDeltaQ / constDeltaQ) : ℝ) ≠ 0 := by
      intro h0
      nlinarith
    exact_mod_cast h2

end Verif.Props
