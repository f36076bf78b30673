import Verif.Proofs.DynMat4
import Verif.Proofs.WsAccept
import Verif.Props.Crystal
import Verif.Props.SumRule

/-!
C90-C96: phonon dynamical matrices.
-/

namespace Verif.Props

open Verif.Model Verif.Spec Filter Topology

variable {A n1 n2 n3 : Nat}

/-- The library diagonalizes every Hermitian matrix. -/
def GoodSolver (eig : EigenSolver A) : Prop :=
  ∀ d : DynM A, d.IsHermitian → IsEigenDecomposition d (eig d).1 (eig d).2

/-- There is such a library. -/
example : ∃ eig : EigenSolver A, GoodSolver eig := exists_solver A

theorem card_modes (A : Nat) : Fintype.card (Fin A × Fin 3) = A * 3 := by simp

/-! ### C90: time reversal -/

/-- C90: the frequencies at `q` and `-q` are the same, for every crystal, force constants, with and without a
dielectric tensor, and whichever orthonormal eigenvectors the library returns. -/
theorem C90_frequencies [NeZero n1] [NeZero n2] [NeZero n3] (eig : EigenSolver A)
    (he : GoodSolver eig) (c : PhCrystal A) (f : FcVec A n1 n2 n3) (q : Vec3) (s s' : Bool) :
    (diagonalizeFromCoordinates eig c f (-q) s).1 = (diagonalizeFromCoordinates eig c f q s').1 := by
  have h1 := he _ (massScaled_hermitian c (dynMatrix c f q))
  have h2 := he _ (massScaled_hermitian c (dynMatrix c f (-q)))
  have hcp : (massScaled c (dynMatrix c f (-q))).charpoly =
      (massScaled c (dynMatrix c f q)).charpoly := by
    rw [dynMatrix_neg, massScaled_conj]
    have hh := massScaled_hermitian c (dynMatrix c f q)
    have : (massScaled c (dynMatrix c f q)).map (starRingEnd ℂ) =
        (massScaled c (dynMatrix c f q)).transpose := by
      ext a b
      rw [Matrix.map_apply, Matrix.transpose_apply, ← congrFun (congrFun hh b) a]
      rfl
    rw [this, Matrix.charpoly_transpose]
  have h3 := eigenvalues_unique (card_modes A) h2 h1 hcp
  funext b
  simp only [diagonalizeFromCoordinates, h3]

/-- C90: the dynamical matrices at opposite wavevectors are complex conjugate. -/
theorem C90_matrix [NeZero n1] [NeZero n2] [NeZero n3] (c : PhCrystal A) (f : FcVec A n1 n2 n3)
    (q : Vec3) (a b : Fin A × Fin 3) :
    dynMatrix c f (-q) a b = (starRingEnd ℂ) (dynMatrix c f q a b) := by
  rw [dynMatrix_neg]; rfl

/-! ### C93: orthonormal eigenvectors -/

/-- C93: whatever the input, the matrix given to the library is Hermitian, so that the frequencies are increasing and
the eigenvectors are orthonormal and complete; without mass scaling the columns are eigenvectors of the mass-scaled
matrix, with the square of the frequency (negative for imaginary frequencies) as eigenvalue. -/
theorem C93_plain [NeZero n1] [NeZero n2] [NeZero n3] (eig : EigenSolver A) (he : GoodSolver eig)
    (c : PhCrystal A) (f : FcVec A n1 n2 n3) (q : Vec3) :
    let w := (diagonalizeFromCoordinates eig c f q false).1
    let u := (diagonalizeFromCoordinates eig c f q false).2
    Monotone w ∧ u.conjTranspose * u = 1 ∧ u * u.conjTranspose = 1 ∧
      massScaled c (dynMatrix c f q) * u =
        u * Matrix.diagonal fun b => ((w b * |w b| : ℝ) : ℂ) := by
  have h := he _ (massScaled_hermitian c (dynMatrix c f q))
  refine ⟨fun b b' hb => frequency_monotone (h.sorted hb), h.left, h.right, ?_⟩
  simp only [diagonalizeFromCoordinates]
  have : ∀ x : ℝ, frequency x * |frequency x| = x := by
    intro x
    unfold frequency
    split_ifs with hx
    · rw [abs_neg, abs_of_nonneg (Real.sqrt_nonneg _), neg_mul, Real.mul_self_sqrt (by linarith)]
      ring
    · rw [abs_of_nonneg (Real.sqrt_nonneg _), Real.mul_self_sqrt (not_lt.mp hx)]
  simp only [this]
  exact h.eigen

/-- C93 (with mass scaling): the eigenvectors satisfy `U^dagger M U = 1`, and they solve the generalized problem
`D U = M U w^2` for the Hermitian part `D` of the dynamical matrix. -/
theorem C93_scaled [NeZero n1] [NeZero n2] [NeZero n3] (eig : EigenSolver A) (he : GoodSolver eig)
    (c : PhCrystal A) (hm : ∀ na, 0 < c.mass na) (f : FcVec A n1 n2 n3) (q : Vec3) :
    let w := (diagonalizeFromCoordinates eig c f q true).1
    let u := (diagonalizeFromCoordinates eig c f q true).2
    let m : DynM A := Matrix.diagonal fun a => (c.mass a.1 : ℂ)
    let d : DynM A := (1 / 2 : ℂ) • (dynMatrix c f q + (dynMatrix c f q).conjTranspose)
    u.conjTranspose * m * u = 1 ∧
      d * u = m * u * Matrix.diagonal fun b => ((w b * |w b| : ℝ) : ℂ) := by
  obtain ⟨_, h1, _, h2⟩ := C93_plain eig he c f q
  intro w u m d
  obtain ⟨v, hv⟩ : ∃ v, v = (diagonalizeFromCoordinates eig c f q false).2 := ⟨_, rfl⟩
  rw [← hv] at h1 h2
  have hw : (diagonalizeFromCoordinates eig c f q false).1 = w := rfl
  rw [hw] at h2
  have hu : u = (Matrix.diagonal fun a : Fin A × Fin 3 => ((Real.sqrt (c.mass a.1))⁻¹ : ℂ)) * v := by
    ext a b
    rw [Matrix.diagonal_mul]
    have : u a b = v a b / (Real.sqrt (c.mass a.1) : ℂ) := by rw [hv]; rfl
    rw [this]; ring
  have hs : ∀ a : Fin A × Fin 3, (Real.sqrt (c.mass a.1) : ℂ) ≠ 0 := fun a => by
    exact_mod_cast (Real.sqrt_pos.mpr (hm a.1)).ne'
  have hsq : ∀ a : Fin A × Fin 3, (c.mass a.1 : ℂ) =
      (Real.sqrt (c.mass a.1) : ℂ) * (Real.sqrt (c.mass a.1) : ℂ) := fun a => by
    rw [← Complex.ofReal_mul, Real.mul_self_sqrt (hm a.1).le]
  have hd : d = (Matrix.diagonal fun a : Fin A × Fin 3 => (Real.sqrt (c.mass a.1) : ℂ)) *
      massScaled c (dynMatrix c f q) *
      (Matrix.diagonal fun a : Fin A × Fin 3 => (Real.sqrt (c.mass a.1) : ℂ)) := by
    ext a b
    rw [Matrix.mul_diagonal, Matrix.diagonal_mul]
    simp only [d, massScaled, Matrix.smul_apply, smul_eq_mul]
    rw [Real.sqrt_mul (hm a.1).le, Complex.ofReal_mul]
    have h1 := hs a
    have h2 := hs b
    have h3 : (0.5 : ℂ) = 1 / 2 := by norm_num
    rw [h3]
    field_simp
  have hdd : (Matrix.diagonal fun a : Fin A × Fin 3 => (Real.sqrt (c.mass a.1) : ℂ)) *
      (Matrix.diagonal fun a : Fin A × Fin 3 => ((Real.sqrt (c.mass a.1))⁻¹ : ℂ)) = 1 := by
    rw [Matrix.diagonal_mul_diagonal]
    have : (fun a : Fin A × Fin 3 => (Real.sqrt (c.mass a.1) : ℂ) * (Real.sqrt (c.mass a.1) : ℂ)⁻¹) =
        fun _ => 1 := by
      funext a
      rw [mul_inv_cancel₀ (hs a)]
    rw [this, Matrix.diagonal_one]
  have hmm : m * (Matrix.diagonal fun a : Fin A × Fin 3 => ((Real.sqrt (c.mass a.1))⁻¹ : ℂ)) =
      Matrix.diagonal fun a : Fin A × Fin 3 => (Real.sqrt (c.mass a.1) : ℂ) := by
    simp only [m, Matrix.diagonal_mul_diagonal]
    congr 1
    funext a
    rw [hsq a, mul_assoc, mul_inv_cancel₀ (hs a), mul_one]
  constructor
  · have hct : u.conjTranspose = v.conjTranspose *
        (Matrix.diagonal fun a : Fin A × Fin 3 => ((Real.sqrt (c.mass a.1))⁻¹ : ℂ)) := by
      rw [hu, Matrix.conjTranspose_mul, Matrix.diagonal_conjTranspose]
      congr 2
      funext a
      simp
    rw [hct, hu, Matrix.mul_assoc, Matrix.mul_assoc, ← Matrix.mul_assoc m, hmm, ← Matrix.mul_assoc (Matrix.diagonal _)]
    have : (Matrix.diagonal fun a : Fin A × Fin 3 => ((Real.sqrt (c.mass a.1))⁻¹ : ℂ)) *
        (Matrix.diagonal fun a : Fin A × Fin 3 => (Real.sqrt (c.mass a.1) : ℂ)) = 1 := by
      rw [Matrix.diagonal_mul_diagonal]
      have : (fun a : Fin A × Fin 3 => (Real.sqrt (c.mass a.1) : ℂ)⁻¹ * (Real.sqrt (c.mass a.1) : ℂ)) =
          fun _ => 1 := by
        funext a
        rw [inv_mul_cancel₀ (hs a)]
      rw [this, Matrix.diagonal_one]
    rw [this, Matrix.one_mul, h1]
  · rw [hd, hu, Matrix.mul_assoc, ← Matrix.mul_assoc (Matrix.diagonal _) (Matrix.diagonal _), hdd,
      Matrix.one_mul, Matrix.mul_assoc, h2, ← Matrix.mul_assoc, ← Matrix.mul_assoc m, hmm]

/-! ### C91: periodicity -/

/-- C91, the part that holds: without a dielectric tensor the dynamical matrix, and with it the frequencies and
the eigenvectors, is the same at wavevectors that differ by a vector of the reciprocal lattice.  Missing: crystals
with a dielectric tensor, for which it is false (`C91_violated`). -/
theorem C91_periodic_partial [NeZero n1] [NeZero n2] [NeZero n3] (eig : EigenSolver A)
    (d : Mat3) (cell : Cell) (hcell : makeCell d = .ok cell) (c : PhCrystal A)
    (h1 : c.cell = cell.direct) (h2 : c.recip = cell.reciprocal) (hd : ¬ c.hasDielectric)
    (f : FcVec A n1 n2 n3) (q : Vec3) (k : V3 Int) (s : Bool) :
    diagonalizeFromCoordinates eig c f
      (fun i => q i + ((k.x : ℝ) * cell.reciprocal i 0 + (k.y : ℝ) * cell.reciprocal i 1 +
        (k.z : ℝ) * cell.reciprocal i 2)) s = diagonalizeFromCoordinates eig c f q s := by
  have hdual : c.Dual := by
    intro i j
    rw [h1, h2]
    exact (C69_reciprocal d cell hcell).1 i j
  have : dynMatrix c f (fun i => q i + ((k.x : ℝ) * cell.reciprocal i 0 +
      (k.y : ℝ) * cell.reciprocal i 1 + (k.z : ℝ) * cell.reciprocal i 2)) = dynMatrix c f q := by
    have e := shortRange_periodic c hdual f q k
    unfold dynMatrix
    rw [if_neg hd, if_neg hd, add_zero, add_zero, ← e, h2]
    rfl
  unfold diagonalizeFromCoordinates
  rw [this]

/-- The hypotheses are met: the unit cube has a reciprocal cell. -/
example : ∃ cell, makeCell (1 : Mat3) = .ok cell := by
  obtain ⟨c, h, _⟩ := (C69_volume (1 : Mat3)).1 (by simp)
  exact ⟨c, h⟩

/-- C91 is violated when there is a dielectric tensor: for two atoms with opposite charges in a cubic cell and
force constants on a grid of one cell, the program accepts the input whatever the force constants, but the
frequencies at the zone centre and at the first vector of the reciprocal lattice differ. -/
theorem C91_violated (eig : EigenSolver 2) (he : GoodSolver eig) (f : FcVec 2 1 1 1) (s : Bool) :
    ∃ c : PhCrystal 2, c.Dual ∧ Neutral c.born ∧ makePhononH0 "" c f = .ok (c, f) ∧
      (diagonalizeFromCoordinates eig c f (latVec c.recip ⟨1, 0, 0⟩) s).1 ≠
        (diagonalizeFromCoordinates eig c f 0 s).1 := by
  refine ⟨cubic 1 dipole, cubic_dual _ _, ?_, ?_, ?_⟩
  · intro i j
    simp only [cubic, dipole, Fin.sum_univ_two]
    split_ifs <;> simp_all
  · exact make_unruled _ f (cubic_check _ _)
  · intro h
    have h1 := he _ (massScaled_hermitian (cubic 1 dipole) (dynMatrix (cubic 1 dipole) f 0))
    have h2 := he _ (massScaled_hermitian (cubic 1 dipole)
      (dynMatrix (cubic 1 dipole) f (latVec (cubic 1 dipole).recip ⟨1, 0, 0⟩)))
    have h3 : (eig (massScaled (cubic 1 dipole)
        (dynMatrix (cubic 1 dipole) f (latVec (cubic 1 dipole).recip ⟨1, 0, 0⟩)))).1 =
        (eig (massScaled (cubic 1 dipole) (dynMatrix (cubic 1 dipole) f 0))).1 := by
      funext b
      exact frequency_injective (congrFun h b)
    have t1 := trace_eq h1
    have t2 := trace_eq h2
    rw [h3, ← t1] at t2
    have hpos := cubic_trace f
    rw [t2] at hpos
    exact lt_irrefl _ hpos

/-! ### C94: device and host -/

/-- C94: for every order in which the teams of the device add their contributions, the device computes the same
frequencies and eigenvectors as the host. -/
theorem C94_device [NeZero n1] [NeZero n2] [NeZero n3] (eig : EigenSolver A) (c : PhCrystal A)
    (f : FcVec A n1 n2 n3) (order : List Vec3) (ho : order.Perm (c.gVectors n1 n2 n3)) (q : Vec3)
    (s : Bool) : devDiagonalize eig c f order q s = diagonalizeFromCoordinates eig c f q s := by
  unfold devDiagonalize diagonalizeFromCoordinates
  rw [devHamiltonian_eq c f order ho]
  simp only [devFrequency_eq]

/-- The hypothesis is met by the reverse of the order of the host. -/
example (c : PhCrystal A) : (c.gVectors n1 n2 n3).reverse.Perm (c.gVectors n1 n2 n3) :=
  List.reverse_perm _

/-! ### C95: weights of equivalent cells -/

/-- C95 (weights): when the constructor accepts the input and the supercell is compact, the weights of the cells that
are equivalent to a cell of the grid sum to exactly one, for every pair of atoms.  The tolerance used to compare
distances is harmless: whenever it makes the sum of a class differ from one, the check of the constructor fails. -/
theorem C95_weights [NeZero n1] [NeZero n2] [NeZero n3] (rule : String) (c c' : PhCrystal A)
    (f f' : FcVec A n1 n2 n3) (h : makePhononH0 rule c f = .ok (c', f'))
    (hc : ∀ na nb, CompactCell (fun k i => c.cell i k) (fun i => c.pos na i - c.pos nb i) ![n1, n2, n3])
    (na nb : Fin A) (m1 : Fin n1) (m2 : Fin n2) (m3 : Fin n3) :
    (∑ x ∈ Finset.Icc (-(2 * n1 : ℤ)) (2 * n1), ∑ y ∈ Finset.Icc (-(2 * n2 : ℤ)) (2 * n2),
      ∑ z ∈ Finset.Icc (-(2 * n3 : ℤ)) (2 * n3),
      if (n1 : ℤ) ∣ x - (m1 : Nat) ∧ (n2 : ℤ) ∣ y - (m2 : Nat) ∧ (n3 : ℤ) ∣ z - (m3 : Nat) then
        wsCacheAt c' n1 n2 n3 ⟨x, y, z⟩ na nb else 0) = 1 := by
  have hp := partition_of_make rule c c' f f' h hc
  rw [← hp na nb m1 m2 m3]
  have key : ∀ (n : Nat) [NeZero n] (x : Int) (m : Fin n), (n : Int) ∣ x - (m : Nat) ↔ foldFin n x = m := by
    intro n _ x m
    have e : foldFin n ((m : Nat) : Int) = m := by
      rw [Fin.ext_iff]
      have : foldCell n ((m : Nat) : Int) = (m : Nat) := by
        rw [foldCell_eq]
        exact Int.emod_eq_of_lt (by omega) (by exact_mod_cast m.2)
      simp only [foldFin, this]
      omega
    rw [← foldFin_eq_iff, e]
  simp only [key]
  rw [sum_filter_map]
  unfold wsCells
  rw [zBox_sum_all]
  simp only [decide_eq_true_eq]

/-- C95 (interpolation): at the wavevectors commensurate with the supercell the short-range dynamical matrix is
exactly the Fourier sum of the force constants over the cells of the grid: the interpolation returns the data it was
built from. -/
theorem C95_interpolation [NeZero n1] [NeZero n2] [NeZero n3] (rule : String) (c c' : PhCrystal A)
    (f f' : FcVec A n1 n2 n3) (h : makePhononH0 rule c f = .ok (c', f'))
    (hc : ∀ na nb, CompactCell (fun k i => c.cell i k) (fun i => c.pos na i - c.pos nb i) ![n1, n2, n3])
    (hd : ¬ c.hasDielectric) (q : Vec3) (z : Fin 3 → ℤ)
    (hq : ∀ k, (![n1, n2, n3] k : ℝ) * (∑ i, q i * c.cell i k) = 2 * Real.pi * z k)
    (na nb : Fin A) (i j : Fin 3) :
    dynMatrix c' f' q (na, i) (nb, j) = ∑ m1 : Fin n1, ∑ m2 : Fin n2, ∑ m3 : Fin n3,
      (f' (m1, m2, m3, i, j, na, nb) : ℂ) * Complex.exp (-Complex.I *
        ((∑ k, q k * ((m1 : ℝ) * c.cell k 0 + (m2 : ℝ) * c.cell k 1 + (m3 : ℝ) * c.cell k 2) : ℝ) : ℂ)) := by
  have hp := partition_of_make rule c c' f f' h hc
  obtain ⟨hcell, heps, _⟩ := make_data rule c c' f f' h
  have hd' : ¬ c'.hasDielectric := by
    unfold PhCrystal.hasDielectric at hd ⊢
    rwa [heps]
  unfold dynMatrix
  rw [if_neg hd', add_zero]
  have h0 := hq 0
  have h1 := hq 1
  have h2 := hq 2
  simp only [Matrix.cons_val_zero, Matrix.cons_val_one, Matrix.cons_val, Fin.sum_univ_three] at h0 h1 h2
  rw [shortRange_commensurate c' hp f' q z (by rw [hcell]; exact h0) (by rw [hcell]; exact h1)
    (by rw [hcell]; exact h2)]
  simp only [hcell, phaseOf, vdot, latVec, Fin.sum_univ_three]
  push_cast
  rfl

/-- Supercells with three perpendicular edges longer than 0.0032 bohr are compact, wherever the atoms are. -/
theorem C95_rectangular (l t : Fin 3 → ℝ) (size : Fin 3 → ℕ)
    (hl : ∀ k, 1.0e-5 < (size k * l k) ^ 2) :
    CompactCell (fun k i => if k = i then l k else 0) t size := rect_compact l t size hl

/-- C95 (acceptance): crystals with a rectangular cell are accepted, for every size of the supercell and any number of
atoms: the positions of two atoms differ by no more than a cell along each edge, the edges of the supercell are longer
than 0.0032 bohr, and no two images of an atom are at almost, but not exactly, the same distance along an edge. -/
theorem C95_accepted [NeZero n1] [NeZero n2] [NeZero n3] (c : PhCrystal A) (f : FcVec A n1 n2 n3) (l : Fin 3 → ℝ)
    (hcell : ∀ i k, c.cell i k = if i = k then l k else 0)
    (hpos : ∀ na nb k, |c.pos na k - c.pos nb k| ≤ |l k|)
    (hedge : ∀ k, 1.0e-5 < ((![n1, n2, n3] k : ℕ) * l k) ^ 2)
    (htie : ∀ na nb k, ∀ j : ℤ, j * l k + 2 * (c.pos na k - c.pos nb k) = 0 ∨
      2.0e-5 < |(![n1, n2, n3] k : ℕ) * l k * (j * l k + 2 * (c.pos na k - c.pos nb k))|) :
    makePhononH0 "" c f = .ok (c, f) := by
  refine make_unruled c f (rect_check c l ?_ fun na nb => ⟨hpos na nb, hedge, htie na nb⟩)
  funext i k
  exact hcell i k

/-- Two atoms at the corner and at the centre of a cubic cell of one bohr, in any supercell. -/
example (c : PhCrystal 2) (n1 n2 n3 : Nat) [NeZero n1] [NeZero n2] [NeZero n3] (f : FcVec 2 n1 n2 n3)
    (h1 : c.cell = fun i k => if i = k then 1 else 0) (h2 : c.pos = fun na _ => if na = 0 then 0 else 1 / 2) :
    makePhononH0 "" c f = .ok (c, f) := by
  have hn : ∀ k, (1 : ℝ) ≤ (![n1, n2, n3] k : ℕ) := by
    intro k
    have p1 := Nat.pos_of_ne_zero (NeZero.ne n1)
    have p2 := Nat.pos_of_ne_zero (NeZero.ne n2)
    have p3 := Nat.pos_of_ne_zero (NeZero.ne n3)
    have : 1 ≤ ![n1, n2, n3] k := by fin_cases k <;> assumption
    exact_mod_cast this
  refine C95_accepted c f (fun _ => 1) (by simp [h1]) ?_ ?_ ?_
  · intro na nb k
    fin_cases na <;> fin_cases nb <;> simp [h2] <;> norm_num
  · intro k
    have := hn k
    norm_num
    nlinarith
  · intro na nb k j
    have hint : ∃ m : ℤ, (j : ℝ) * 1 + 2 * (c.pos na k - c.pos nb k) = m := by
      fin_cases na <;> fin_cases nb <;> simp [h2]
      · exact ⟨j - 1, by push_cast; ring⟩
      · exact ⟨j + 1, by push_cast; ring⟩
    obtain ⟨m, hm⟩ := hint
    rw [hm]
    by_cases h0 : m = 0
    · left; rw [h0]; simp
    · right
      have : (1 : ℝ) ≤ |(m : ℝ)| := by
        have := Int.one_le_abs h0
        exact_mod_cast this
      rw [abs_mul, mul_one, abs_of_nonneg (by linarith [hn k])]
      have := hn k
      norm_num
      nlinarith

/-- The hypotheses of `C95_weights` and `C95_interpolation` are met by two atoms in a cubic cell, at the zone centre
and at a vector of the reciprocal lattice. -/
example (f : FcVec 2 1 1 1) : makePhononH0 "" (cubic 0 dipole) f = .ok (cubic 0 dipole, f) ∧
    (∀ na nb, CompactCell (fun k i => (cubic 0 dipole).cell i k)
      (fun i => (cubic 0 dipole).pos na i - (cubic 0 dipole).pos nb i) ![1, 1, 1]) ∧
    ¬ (cubic 0 dipole).hasDielectric ∧
    ∀ k, ((![1, 1, 1] k : ℕ) : ℝ) * (∑ i, (![1, 0, 0] : Vec3) i * (cubic 0 dipole).cell i k) =
      2 * Real.pi * ((![1, 0, 0] k : ℤ) : ℝ) := by
  refine ⟨make_unruled _ f (cubic_check _ _), cubic_compact _ _, ?_, ?_⟩
  · simp [PhCrystal.hasDielectric, cubic]
  · intro k
    fin_cases k <;> simp [Fin.sum_univ_three, cubic]

/-! ### C92: acoustic modes -/

/-- C92, the part that holds: at the zone centre at least three frequencies vanish, when the force constants that
the constructor keeps are symmetric and translation invariant.  With a dielectric tensor the on-site correction must
also be symmetric in the two directions.  Missing: every input accepted with the rule "simple", for which it is false
(`C92_violated`). -/
theorem C92_acoustic_partial [NeZero n1] [NeZero n2] [NeZero n3] (eig : EigenSolver A)
    (he : GoodSolver eig) (rule : String) (c c' : PhCrystal A) (f f' : FcVec A n1 n2 n3)
    (h : makePhononH0 rule c f = .ok (c', f'))
    (hc : ∀ na nb, CompactCell (fun k i => c.cell i k) (fun i => c.pos na i - c.pos nb i) ![n1, n2, n3])
    (hA : 0 < A) (hm : ∀ na, 0 < c.mass na)
    (hs : Symmetric f') (ht : TranslationInvariant f')
    (hl : c.hasDielectric → ∀ i j na, c'.longRange1 n1 n2 n3 i j na = c'.longRange1 n1 n2 n3 j i na)
    (s : Bool) :
    3 ≤ (Finset.univ.filter fun b => (diagonalizeFromCoordinates eig c' f' 0 s).1 b = 0).card := by
  have hp := partition_of_make rule c c' f f' h hc
  obtain ⟨_, heps, hmass⟩ := make_data rule c c' f f' h
  have hm' : ∀ na, 0 < c'.mass na := by rw [hmass]; exact hm
  have hdec := he _ (massScaled_hermitian c' (dynMatrix c' f' 0))
  have hz := zero_count hdec (rigid c') (rigid_independent c' hm' ⟨0, hA⟩) fun j =>
    massScaled_rigid c' hm' _ (fun i j na => dynMatrix_gamma c' hp f' hs ht (by
      intro hdi
      refine hl ?_
      unfold PhCrystal.hasDielectric at hdi ⊢
      rwa [← heps]) i j na) j
  simpa only [diagonalizeFromCoordinates, frequency_zero] using hz

/-- C92 with the rule "simple", from the force constants of the input: symmetric force constants whose row sums are
symmetric in the two directions, without a dielectric tensor. -/
theorem C92_simple_partial [NeZero n1] [NeZero n2] [NeZero n3] (eig : EigenSolver A)
    (he : GoodSolver eig) (c c' : PhCrystal A) (f f' : FcVec A n1 n2 n3)
    (h : makePhononH0 "simple" c f = .ok (c', f'))
    (hc : ∀ na nb, CompactCell (fun k i => c.cell i k) (fun i => c.pos na i - c.pos nb i) ![n1, n2, n3])
    (hA : 0 < A) (hm : ∀ na, 0 < c.mass na) (hd : ¬ c.hasDielectric)
    (hs : Symmetric f) (hrow : ∀ i j na, rowSum f i j na = rowSum f j i na) (s : Bool) :
    3 ≤ (Finset.univ.filter fun b => (diagonalizeFromCoordinates eig c' f' 0 s).1 b = 0).card := by
  obtain ⟨z1, f1, e1, ht1, _⟩ := C88_simple (n1 := n1) (n2 := n2) (n3 := n3) "simple" (by decide) c.born f
  obtain ⟨z2, f2, e2, hs2⟩ := C89_simple_partial (n1 := n1) (n2 := n2) (n3 := n3) c.born f hs hrow
  have hf := make_forces "simple" c c' f f' h
  rw [e1] at e2
  rw [e1] at hf
  simp only [Outcome.ok.injEq, Prod.mk.injEq] at e2 hf
  rw [hf.2] at ht1
  rw [← e2.2, hf.2] at hs2
  exact C92_acoustic_partial eig he "simple" c c' f f' h hc hA hm hs2 ht1 (fun h => absurd h hd) s

/-- The force constants of two atoms joined by a spring meet the hypotheses. -/
example : ∃ f : FcVec 2 1 1 1, Symmetric f ∧ TranslationInvariant f ∧ f (0, 0, 0, 0, 0, 0, 1) = -1 ∧
    ∀ i j na, rowSum f i j na = rowSum f j i na := by
  have ht : TranslationInvariant (A := 2) (n1 := 1) (n2 := 1) (n3 := 1)
      fun ix => if ix.2.2.2.1 = ix.2.2.2.2.1 then
        (if ix.2.2.2.2.2.1 = ix.2.2.2.2.2.2 then 1 else -1) else 0 := by
    intro i j na
    simp only [rowSum, Fin.sum_univ_two, Finset.univ_unique, Finset.sum_singleton]
    by_cases h : i = j
    · fin_cases na <;> simp [h]
    · simp [h]
  refine ⟨_, ?_, ht, by simp, fun i j na => by rw [ht i j na, ht j i na]⟩
  intro m1 m1' m2 m2' m3 m3' i j na nb _ _ _
  exact if_congr eq_comm (if_congr eq_comm rfl rfl) rfl

/-- C92 is violated by the rule "simple" for force constants that are symmetric, as second derivatives are: two
atoms, a cubic cell, no dielectric tensor.  Whatever the solver, at most one of the six frequencies at the zone centre
is zero. -/
theorem C92_violated : ∃ (c c' : PhCrystal 2) (f f' : FcVec 2 1 1 1), Symmetric f ∧
    (∀ na, 0 < c.mass na) ∧ ¬ c.hasDielectric ∧ makePhononH0 "simple" c f = .ok (c', f') ∧
    TranslationInvariant f' ∧
    ∀ (eig : EigenSolver 2) (s : Bool), GoodSolver eig →
      (Finset.univ.filter fun b => (diagonalizeFromCoordinates eig c' f' 0 s).1 b = 0).card ≤ 1 := by
  obtain ⟨z, f', e1, ht, _, hon, hoff, _⟩ := C88_simple (n1 := 1) (n2 := 1) (n3 := 1) "simple" (by decide)
    (cubic 0 dipole).born skewForces
  have hmake : makePhononH0 "simple" (cubic 0 dipole) skewForces = .ok (cubic 0 z, f') := by
    unfold makePhononH0
    rw [e1]
    exact if_pos (cubic_check 0 z)
  refine ⟨cubic 0 dipole, cubic 0 z, skewForces, f', skewForces_symmetric, fun _ => one_pos,
    by simp [PhCrystal.hasDielectric, cubic], hmake, ht, fun eig s he => ?_⟩
  have hp := cubic_partition 0 z
  have hdec := he _ (massScaled_hermitian (cubic 0 z) (dynMatrix (cubic 0 z) f' 0))
  have hnd : ¬ (cubic 0 z).hasDielectric := by simp [PhCrystal.hasDielectric, cubic]
  have hf : ∀ na nb i j, f' (0, 0, 0, i, j, na, nb) =
      if na = nb then (if na = 0 then - skew i j else - skew j i)
      else if na = 0 then skew i j else skew j i := by
    intro na nb i j
    by_cases h : na = nb
    · subst h
      rw [hon, if_pos rfl]
      fin_cases na <;>
        simp [skewForces, rowSum, Fin.sum_univ_two, Finset.univ_unique, Finset.sum_singleton]
    · rw [hoff _ _ _ _ _ _ _ (fun hh => h hh.2.2.2), if_neg h]
      simp [skewForces, h]
  have hd : ∀ na nb i j, massScaled (cubic 0 z) (dynMatrix (cubic 0 z) f' 0) (na, i) (nb, j) =
      ((if na = nb then -((skew i j + skew j i) / 2) else if na = 0 then skew i j else skew j i : ℝ) : ℂ) := by
    intro na nb i j
    have hD : ∀ a b, dynMatrix (cubic 0 z) f' 0 a b = (f' (0, 0, 0, a.2, b.2, a.1, b.1) : ℂ) := by
      intro a b
      unfold dynMatrix
      rw [if_neg hnd, add_zero, shortRange_zero _ hp]
      simp
    have hm : ∀ x : Fin 2, (cubic 0 z).mass x = 1 := fun _ => rfl
    simp only [massScaled, Matrix.add_apply, Matrix.conjTranspose_apply, hD, hm, hf]
    have h5 : (0.5 : ℂ) = 1 / 2 := by norm_num
    rw [h5]
    fin_cases na <;> fin_cases nb <;> simp <;> ring
  have := skew_zero_count _ _ _ hd hdec
  simpa only [diagonalizeFromCoordinates, frequency_zero] using this

/-! ### C96: strength of the macroscopic field -/

/-- C96, the part that holds: approaching the zone centre along `q`, the macroscopic field changes the dynamical matrix
in proportion to `4 pi e^2 / volume * (q.Z_a)_i (q.Z_b)_j / (q.eps.q)`, with `e^2 = 2` in Rydberg units, but the factor
is one half for every crystal with a positive dielectric tensor (the constant named `fourPi` is `2 pi`).  Missing: the
factor should be one (`C96_violated`).  Reciprocal vectors exactly on the cutoff are excluded. -/
theorem C96_jump_partial [NeZero n1] [NeZero n2] [NeZero n3] (c : PhCrystal A) (hd : c.Dual)
    (f : FcVec A n1 n2 n3) (hdi : c.hasDielectric)
    (heps : ∀ v : Vec3, v ≠ 0 → 0 < ∑ i, ∑ j, v i * c.eps i j * v j)
    (hcut : ∀ g ∈ c.gVectors n1 n2 n3, (∑ i, ∑ j, g i * c.eps i j * g j) ≠ 56)
    (q : Vec3) (hq : q ≠ 0) (na nb : Fin A) (i j : Fin 3) :
    Tendsto (fun t : ℝ => dynMatrix c f (t • q) (na, i) (nb, j) - dynMatrix c f 0 (na, i) (nb, j)) (𝓝[>] 0)
      (𝓝 ((1 / 2 * (4 * Real.pi * 2 / c.volume *
        ((∑ k, q k * c.born na k i) * (∑ k, q k * c.born nb k j) / ∑ k, ∑ l, q k * c.eps k l * q l)) : ℝ) : ℂ)) := by
  have e : ∀ v : Vec3, ∑ i, ∑ j, v i * c.eps i j * v j = c.geg v := by
    intro v
    simp only [PhCrystal.geg, vdot, matVec, Fin.sum_univ_three]; ring
  simp only [e] at heps hcut ⊢
  have h := dynMatrix_jump c hd f hdi heps (by
    intro g hg
    have := hcut g hg
    intro h
    refine this (h.trans ?_)
    norm_num [constGMax]) q hq (na, i) (nb, j)
  have e2 : 1 / 2 * (4 * Real.pi * 2 / c.volume * ((∑ k, q k * c.born na k i) *
      (∑ k, q k * c.born nb k j) / c.geg q)) =
      constE2 * constFourPi / c.volume * (c.gZ q i na * c.gZ q j nb / c.geg q) := by
    simp only [constE2, constFourPi, PhCrystal.gZ, Fin.sum_univ_three]
    ring
  rw [e2]
  exact h

/-- The hypotheses are met by the cubic cell with two opposite charges, where the change is not zero. -/
theorem cubic_polar : (cubic 1 dipole).Dual ∧ (cubic 1 dipole).hasDielectric ∧
    (∀ v : Vec3, v ≠ 0 → 0 < ∑ i, ∑ j, v i * (cubic 1 dipole).eps i j * v j) ∧
    (∀ g ∈ (cubic 1 dipole).gVectors 1 1 1, (∑ i, ∑ j, g i * (cubic 1 dipole).eps i j * g j) ≠ 56) ∧
    (∑ k, (![1, 0, 0] : Vec3) k * (cubic 1 dipole).born 0 k 0) = 1 := by
  refine ⟨cubic_dual _ _, ?_, ?_, ?_, ?_⟩
  · simp [PhCrystal.hasDielectric, cubic, Matrix.one_apply]
  · intro v hv
    have : ∑ i, ∑ j, v i * (cubic 1 dipole).eps i j * v j = v 0 ^ 2 + v 1 ^ 2 + v 2 ^ 2 := by
      simp [cubic, Matrix.one_apply, Fin.sum_univ_three]; ring
    rw [this]
    by_contra hn
    have h0 := sq_nonneg (v 0)
    have h1 := sq_nonneg (v 1)
    have h2 := sq_nonneg (v 2)
    refine hv (funext fun i => ?_)
    have : v i ^ 2 = 0 := by
      fin_cases i <;> simp only [Fin.zero_eta, Fin.mk_one, Fin.reduceFinMk] <;> linarith
    exact pow_eq_zero_iff (n := 2) (by norm_num) |>.mp this
  · intro g hg
    rw [cubic_gVectors, List.mem_singleton] at hg
    subst hg
    simp
  · simp [Fin.sum_univ_three, cubic, dipole]

/-- C96 is violated: for two opposite charges in a cubic cell, whatever the force constants, the change is not the
one of the macroscopic field. -/
theorem C96_violated (f : FcVec 2 1 1 1) : ∃ (c : PhCrystal 2) (q : Vec3), c.Dual ∧ c.hasDielectric ∧
    (∀ v : Vec3, v ≠ 0 → 0 < ∑ i, ∑ j, v i * c.eps i j * v j) ∧ makePhononH0 "" c f = .ok (c, f) ∧ q ≠ 0 ∧
    ¬ Tendsto (fun t : ℝ => dynMatrix c f (t • q) (0, 0) (0, 0) - dynMatrix c f 0 (0, 0) (0, 0)) (𝓝[>] 0)
      (𝓝 ((4 * Real.pi * 2 / c.volume *
        ((∑ k, q k * c.born 0 k 0) * (∑ k, q k * c.born 0 k 0) / ∑ k, ∑ l, q k * c.eps k l * q l) : ℝ) : ℂ)) := by
  obtain ⟨h1, h2, h3, h4, h5⟩ := cubic_polar
  have hq : (![1, 0, 0] : Vec3) ≠ 0 := fun h => by simpa using congrFun h 0
  refine ⟨cubic 1 dipole, ![1, 0, 0], h1, h2, h3, make_unruled _ f (cubic_check _ _), hq, fun h => ?_⟩
  have h' := C96_jump_partial (cubic 1 dipole) h1 f h2 h3 h4 ![1, 0, 0] hq 0 0 0 0
  have e := tendsto_nhds_unique h h'
  rw [Complex.ofReal_inj, h5] at e
  have hv : (0 : ℝ) < 4 * Real.pi * 2 / (cubic 1 dipole).volume := by
    have : 0 < (cubic 1 dipole).volume := by simp [cubic]; try positivity
    positivity
  have hx := h3 _ hq
  have : 0 < 4 * Real.pi * 2 / (cubic 1 dipole).volume * (1 * 1 / ∑ k, ∑ l,
      (![1, 0, 0] : Vec3) k * (cubic 1 dipole).eps k l * (![1, 0, 0] : Vec3) l) := by positivity
  linarith

end Verif.Props
