import Verif.Model.Crystal
import Verif.Model.SumRule
import Mathlib.Analysis.SpecialFunctions.Trigonometric.Basic
import Mathlib.Analysis.SpecialFunctions.Exp
import Mathlib.LinearAlgebra.Matrix.ConjTranspose
import Mathlib.LinearAlgebra.Matrix.Hermitian

/-!
# Phonon dynamical matrices

src/harmonic/phonon_h0.cpp (one wavevector at a time) and
src/harmonic/phonon_h0_kokkos.cpp (batches on the device).

Numbers of type `double` are real numbers (exact arithmetic).  The index
`iat * 3 + i` of a matrix is written as the pair `(iat, i)`.  The member
`longRange2d` is `false` and nothing sets it (src/harmonic/phonon_h0.h L187), so the
branches for two-dimensional systems are left out.  The copies between host and device
are left out.
-/
namespace Verif.Model

/-- `fourPi`, src/constants/constants.h L12. -/
noncomputable def constFourPi : ℝ := 2 * Real.pi

/-- `e2`, src/constants/constants.h L36. -/
noncomputable def constE2 : ℝ := 2

/-- `gMax`, src/harmonic/phonon_h0.h L196. -/
noncomputable def constGMax : ℝ := 14

/-- The data of a crystal that `PhononH0` keeps, src/harmonic/phonon_h0.cpp L28-46:
cell, reciprocal cell and volume, positions and mass of every atom, dielectric tensor and
Born charges. -/
structure PhCrystal (A : Nat) where
  cell : Mat3
  recip : Mat3
  volume : ℝ
  pos : Fin A → Vec3
  mass : Fin A → ℝ
  eps : Mat3
  born : ZVec A

/-! ## Weights of the cells of the supercell -/

/-- A lattice vector, src/harmonic/phonon_h0.cpp L440-441, L481-485, L731-735. -/
noncomputable def latVec (d : Mat3) (n : V3 Int) : Vec3 := fun i =>
  (n.x : ℝ) * d i 0 + (n.y : ℝ) * d i 1 + (n.z : ℝ) * d i 2

/-- `directUnitCellSup`, src/harmonic/phonon_h0.cpp L680-683. -/
noncomputable def superCell (d : Mat3) (n1 n2 n3 : Nat) : Mat3 := fun i j =>
  d i j * (if j = 0 then (n1 : ℝ) else if j = 1 then (n2 : ℝ) else (n3 : ℝ))

/-- `rws`, src/harmonic/phonon_h0.cpp L431-458: the neighbouring lattice points of the
supercell.  There are at most 124 of them, so the check against 200 never fails. -/
noncomputable def rwsList (sup : Mat3) : List Vec3 :=
  ((zBox ⟨2, 2, 2⟩).map (latVec sup)).filter fun r => vdot r r > 1.0e-6

/-- The loop of `wsWeight`, src/harmonic/phonon_h0.cpp L521-533. -/
noncomputable def wsWeightLoop (r : Vec3) : List Vec3 → Nat → ℝ
  | [], numREq => 1 / (numREq : ℝ)
  | g :: rws, numREq =>
    let rrt := vdot r g
    let ck := rrt - vdot g g / 2
    if ck > 1.0e-5 then 0
    else wsWeightLoop r rws (if |ck| ≤ 1.0e-5 then numREq + 1 else numREq)

/-- `PhononH0::wsWeight`, src/harmonic/phonon_h0.cpp L505-535. -/
noncomputable def wsWeight (r : Vec3) (rws : List Vec3) : ℝ := wsWeightLoop r rws 1

/-- An element of `wsCache`, src/harmonic/phonon_h0.cpp L478-490. -/
noncomputable def wsCacheAt {A : Nat} (c : PhCrystal A) (n1 n2 n3 : Nat) (n : V3 Int)
    (na nb : Fin A) : ℝ :=
  wsWeight (fun i => latVec c.cell n i + (c.pos na i - c.pos nb i))
    (rwsList (superCell c.cell n1 n2 n3))

/-- The cells of the loops, src/harmonic/phonon_h0.cpp L685-687: from minus twice to
twice the number of cells of the grid.  (The order of the loops differs between `wsInit`
and `reorderDynamicalMatrix`; only sums are taken of the result.) -/
def wsCells (n1 n2 n3 : Nat) : List (V3 Int) := zBox ⟨2 * n1, 2 * n2, 2 * n3⟩

/-- The check at the end of `wsInit`, src/harmonic/phonon_h0.cpp L469, L491, L496-499. -/
noncomputable def wsCheck {A : Nat} (c : PhCrystal A) (n1 n2 n3 : Nat) : Prop :=
  ∀ na nb : Fin A,
    ¬ (|((wsCells n1 n2 n3).map fun n => wsCacheAt c n1 n2 n3 n na nb).sum -
        (n1 : ℝ) * n2 * n3| > 1.0e-8)

/-- `m1` in `reorderDynamicalMatrix`, src/harmonic/phonon_h0.cpp L738-752;
`mod` is src/utilities.cpp L9. -/
def foldCell (n : Nat) (x : Int) : Int :=
  let m := Int.tmod (Int.tmod (x + 1) n + n) n
  let m := if m ≤ 0 then m + n else m
  m + -1

theorem foldCell_range (n : Nat) [NeZero n] (x : Int) : 0 ≤ foldCell n x ∧ foldCell n x < n := by
  have hn : 0 < (n : Int) := by exact_mod_cast Nat.pos_of_ne_zero (NeZero.ne n)
  have h1 := Int.tmod_lt_of_pos (x + 1) hn
  have h2 : -(n : Int) < Int.tmod (x + 1) n := by
    have := Int.tmod_lt_of_pos (-(x + 1)) hn
    rw [Int.neg_tmod] at this
    omega
  have h3 : 0 ≤ Int.tmod (Int.tmod (x + 1) n + n) n := Int.tmod_nonneg _ (by omega)
  have h4 := Int.tmod_lt_of_pos (Int.tmod (x + 1) n + n) hn
  unfold foldCell
  dsimp only
  split_ifs <;> omega

/-- The same as an index of the tensor of the force constants. -/
def foldFin (n : Nat) [NeZero n] (x : Int) : Fin n :=
  ⟨(foldCell n x).toNat, by have := foldCell_range n x; omega⟩

/-- One entry of `weights`, `bravaisVectors` and `mat2R`,
src/harmonic/phonon_h0.cpp L725-766: `mat2R` is zero except for the pair of atoms of the
entry. -/
structure Bravais (A : Nat) where
  weight : ℝ
  r : Vec3
  na : Fin A
  nb : Fin A
  mat : Fin 3 → Fin 3 → ℝ

/-- `reorderDynamicalMatrix`, src/harmonic/phonon_h0.cpp L672-771. -/
noncomputable def reorder {A n1 n2 n3 : Nat} [NeZero n1] [NeZero n2] [NeZero n3]
    (c : PhCrystal A) (f : FcVec A n1 n2 n3) : List (Bravais A) :=
  (wsCells n1 n2 n3).flatMap fun n => (List.finRange A).flatMap fun nb =>
    ((List.finRange A).filter fun na => 0 < wsCacheAt c n1 n2 n3 n na nb).map fun na =>
      { weight := wsCacheAt c n1 n2 n3 n na nb
        r := latVec c.cell n
        na := na
        nb := nb
        mat := fun i j => f (foldFin n1 n.x, foldFin n2 n.y, foldFin n3 n.z, i, j, na, nb) }

/-- `mat2R(i, j, na, nb, iR)`, src/harmonic/phonon_h0.cpp L715-716, L754-759. -/
def Bravais.mat2R {A : Nat} (b : Bravais A) (i j : Fin 3) (na nb : Fin A) : ℝ :=
  if na = b.na ∧ nb = b.nb then b.mat i j else 0

/-! ## The dynamical matrix of one wavevector -/

/-- A dynamical matrix, `dyn(i, j, na, nb)` is the element `(na, i), (nb, j)`. -/
abbrev DynM (A : Nat) := Matrix (Fin A × Fin 3) (Fin A × Fin 3) ℂ

/-- `exp(-complexI * arg)`, src/harmonic/phonon_h0.cpp L781-789. -/
noncomputable def phaseOf (q r : Vec3) : ℂ := Complex.exp (-Complex.I * (vdot q r : ℝ))

/-- `PhononH0::shortRangeTerm`, src/harmonic/phonon_h0.cpp L773-813, starting from zero. -/
noncomputable def shortRange {A : Nat} (bs : List (Bravais A)) (q : Vec3) : DynM A :=
  fun a b => (bs.map fun e => (e.mat2R a.2 b.2 a.1 b.1 : ℂ) * phaseOf q e.r * (e.weight : ℂ)).sum

/-- `hasDielectric`, src/harmonic/phonon_h0.cpp L37-39. -/
noncomputable def PhCrystal.hasDielectric {A : Nat} (c : PhCrystal A) : Prop :=
  0 < ∑ i, ∑ j, c.eps i j

/-- `nr1x`, src/harmonic/phonon_h0.cpp L68-80. -/
noncomputable def gLimit (recip : Mat3) (j : Fin 3) (n : Nat) : Int :=
  if n > 1 then ⌊Real.sqrt (constGMax * 4) / vnorm (fun i => recip i j)⌋ + 1 else 0

/-- `gVectors`, src/harmonic/phonon_h0.cpp L92-106. -/
noncomputable def PhCrystal.gVectors {A : Nat} (c : PhCrystal A) (n1 n2 n3 : Nat) : List Vec3 :=
  (zBox ⟨gLimit c.recip 0 n1, gLimit c.recip 1 n2, gLimit c.recip 2 n3⟩).map (latVec c.recip)

/-- `geg`, src/harmonic/phonon_h0.cpp L124, L629. -/
noncomputable def PhCrystal.geg {A : Nat} (c : PhCrystal A) (g : Vec3) : ℝ :=
  vdot g (matVec c.eps g)

/-- `normG`, src/harmonic/phonon_h0.cpp L89, L133, L617, L637. -/
noncomputable def PhCrystal.normG {A : Nat} (c : PhCrystal A) (geg : ℝ) : ℝ :=
  constE2 * constFourPi / c.volume * Real.exp (-geg * 0.25) / geg

/-- `gZ`, src/harmonic/phonon_h0.cpp L136-141, and `gqZ`, L640-647. -/
noncomputable def PhCrystal.gZ {A : Nat} (c : PhCrystal A) (g : Vec3) (i : Fin 3) (na : Fin A) : ℝ :=
  g 0 * c.born na 0 i + g 1 * c.born na 1 i + g 2 * c.born na 2 i

/-- `arg`, src/harmonic/phonon_h0.cpp L147-149, L652-653. -/
noncomputable def PhCrystal.arg {A : Nat} (c : PhCrystal A) (na nb : Fin A) (g : Vec3) : ℝ :=
  vdot (fun i => c.pos na i - c.pos nb i) g

/-- The condition for a reciprocal vector to be used, src/harmonic/phonon_h0.cpp L127, L632. -/
def inCutoff (geg : ℝ) : Prop := 0 < geg ∧ geg < 4 * constGMax

open scoped Classical in
/-- `longRangeCorrection1`, src/harmonic/phonon_h0.cpp L110-163. -/
noncomputable def PhCrystal.longRange1 {A : Nat} (c : PhCrystal A) (n1 n2 n3 : Nat)
    (i j : Fin 3) (na : Fin A) : ℝ :=
  ((c.gVectors n1 n2 n3).map fun g =>
    if inCutoff (c.geg g) then
      -c.normG (c.geg g) * c.gZ g i na * ∑ nb, c.gZ g j nb * Real.cos (c.arg na nb g)
    else 0).sum

open scoped Classical in
/-- `PhononH0::addLongRangeTerm`, src/harmonic/phonon_h0.cpp L537-670: what is added to the
dynamical matrix. -/
noncomputable def PhCrystal.longRange {A : Nat} (c : PhCrystal A) (n1 n2 n3 : Nat) (q : Vec3) :
    DynM A := fun a b =>
  (if a.1 = b.1 then (c.longRange1 n1 n2 n3 a.2 b.2 a.1 : ℂ) else 0) +
  ((c.gVectors n1 n2 n3).map fun g =>
    let gq : Vec3 := fun i => g i + q i
    let geg := c.geg gq
    if inCutoff geg then
      (c.normG geg : ℂ) * ((Real.cos (c.arg a.1 b.1 gq) : ℂ) +
        (Real.sin (c.arg a.1 b.1 gq) : ℂ) * Complex.I) *
        ((c.gZ gq a.2 a.1 * c.gZ gq b.2 b.1 : ℝ) : ℂ)
    else 0).sum

open scoped Classical in
/-- The dynamical matrix before the masses are used,
src/harmonic/phonon_h0.cpp L351-361. -/
noncomputable def dynMatrix {A n1 n2 n3 : Nat} [NeZero n1] [NeZero n2] [NeZero n3]
    (c : PhCrystal A) (f : FcVec A n1 n2 n3) (q : Vec3) : DynM A :=
  shortRange (reorder c f) q + if c.hasDielectric then c.longRange n1 n2 n3 q else 0

/-- `dyn2` in `dynDiagonalize`, src/harmonic/phonon_h0.cpp L825-855: the Hermitian part divided
by the square roots of the masses. -/
noncomputable def massScaled {A : Nat} (c : PhCrystal A) (d : DynM A) : DynM A :=
  fun a b => (0.5 * (d + d.conjTranspose) a b) / (Real.sqrt (c.mass a.1 * c.mass b.1) : ℂ)

/-- The frequency of an eigenvalue, src/harmonic/phonon_h0.cpp L866-874. -/
noncomputable def frequency (w2 : ℝ) : ℝ := if w2 < 0 then -Real.sqrt (-w2) else Real.sqrt w2

/-- Eigenvalues and eigenvectors in columns, as the library returns them. -/
abbrev EigenSolver (A : Nat) :=
  DynM A → (Fin (A * 3) → ℝ) × Matrix (Fin A × Fin 3) (Fin (A * 3)) ℂ

/-- `diagonalizeFromCoordinates`, src/harmonic/phonon_h0.cpp L346-387, with `eig` for
`Eigen::SelfAdjointEigenSolver`. -/
noncomputable def diagonalizeFromCoordinates {A n1 n2 n3 : Nat} [NeZero n1] [NeZero n2] [NeZero n3]
    (eig : EigenSolver A) (c : PhCrystal A) (f : FcVec A n1 n2 n3) (q : Vec3)
    (withMassScaling : Bool) :
    (Fin (A * 3) → ℝ) × Matrix (Fin A × Fin 3) (Fin (A * 3)) ℂ :=
  let t := eig (massScaled c (dynMatrix c f q))
  (fun b => frequency (t.1 b),
    if withMassScaling then fun a b => t.2 a b / (Real.sqrt (c.mass a.1) : ℂ) else t.2)

/-- The constructor up to the point where a wavevector can be diagonalized,
src/harmonic/phonon_h0.cpp L18-54: sum rule, weights, and the error of `wsInit`. -/
noncomputable def makePhononH0 {A n1 n2 n3 : Nat} [NeZero n1] [NeZero n2] [NeZero n3]
    (rule : String) (c : PhCrystal A) (f : FcVec A n1 n2 n3) :
    Outcome (PhCrystal A × FcVec A n1 n2 n3) := open scoped Classical in
  match setAcousticSumRule rule c.born f with
  | .ok (z, f') =>
    let c' := { c with born := z }
    if wsCheck c' n1 n2 n3 then .ok (c', f') else .error
  | .error => .error
  | .ub => .ub
  | .diverge => .diverge

/-! ## Batches on the device -/

/-- `phases_d`, src/harmonic/phonon_h0_kokkos.cpp L21-32. -/
noncomputable def devPhase {A : Nat} (e : Bravais A) (q : Vec3) : ℂ :=
  Complex.exp (-Complex.I * ((0 + q 0 * e.r 0 + q 1 * e.r 1 + q 2 * e.r 2 : ℝ) : ℂ)) * (e.weight : ℂ)

/-- The sum over the Bravais vectors, src/harmonic/phonon_h0_kokkos.cpp L38-47; `mat2R_d` is
filled in src/harmonic/phonon_h0.cpp L180-190. -/
noncomputable def devShort {A : Nat} (bs : List (Bravais A)) (q : Vec3) : DynM A := fun a b =>
  bs.foldl (fun tmp e => tmp + devPhase e q * (e.mat2R a.2 b.2 a.1 b.1 : ℂ)) 0

/-- `geg` as a sum over nine pairs, src/harmonic/phonon_h0_kokkos.cpp L100-105. -/
noncomputable def PhCrystal.devGeg {A : Nat} (c : PhCrystal A) (gq : Vec3) : ℝ :=
  ∑ ij : Fin 9, gq ⟨ij.1 / 3, by omega⟩ * c.eps ⟨ij.1 / 3, by omega⟩ ⟨ij.1 % 3, by omega⟩ *
    gq ⟨ij.1 % 3, by omega⟩

/-- `bornCharges_d(j, i, iAt)`, src/harmonic/phonon_h0.cpp L219-226. -/
def PhCrystal.devBorn {A : Nat} (c : PhCrystal A) (j i : Fin 3) (na : Fin A) : ℝ := c.born na i j

/-- `GQZ`, src/harmonic/phonon_h0_kokkos.cpp L110-118. -/
noncomputable def PhCrystal.devGQZ {A : Nat} (c : PhCrystal A) (gq : Vec3) (nb : Fin A) (i : Fin 3) : ℝ :=
  0 + gq 0 * c.devBorn i 0 nb + gq 1 * c.devBorn i 1 nb + gq 2 * c.devBorn i 2 nb

/-- The value added to an element for one reciprocal vector,
src/harmonic/phonon_h0_kokkos.cpp L120-137. -/
noncomputable def PhCrystal.devTerm {A : Nat} (c : PhCrystal A) (gq : Vec3) (a b : Fin A × Fin 3) : ℂ :=
  let normG := constE2 * constFourPi / c.volume * Real.exp (-c.devGeg gq * 0.25) / c.devGeg gq
  let arg := 0 + (c.pos a.1 0 - c.pos b.1 0) * gq 0 + (c.pos a.1 1 - c.pos b.1 1) * gq 1 +
    (c.pos a.1 2 - c.pos b.1 2) * gq 2
  (normG : ℂ) * Complex.exp (Complex.I * (arg : ℂ)) * (c.devGQZ gq a.1 a.2 : ℂ) *
    (c.devGQZ gq b.1 b.2 : ℂ)

open scoped Classical in
/-- The long range part, src/harmonic/phonon_h0_kokkos.cpp L50-141: the teams run over the
reciprocal vectors in any `order`, each adds to the matrix with `atomic_add`. -/
noncomputable def PhCrystal.devLong {A : Nat} (c : PhCrystal A) (n1 n2 n3 : Nat) (order : List Vec3)
    (q : Vec3) (d : DynM A) : DynM A :=
  let d1 : DynM A := fun a b =>
    if a.1 = b.1 then d a b + (c.longRange1 n1 n2 n3 a.2 b.2 a.1 : ℂ) else d a b
  order.foldl (fun d g =>
    let gq : Vec3 := fun i => g i + q i
    if 0 < c.devGeg gq ∧ c.devGeg gq < 4 * constGMax then
      fun a b => d a b + c.devTerm gq a b
    else d) d1

open scoped Classical in
/-- `kokkosBatchedBuildBlochHamiltonian` for one wavevector of the batch,
src/harmonic/phonon_h0_kokkos.cpp L6-172. -/
noncomputable def devHamiltonian {A n1 n2 n3 : Nat} [NeZero n1] [NeZero n2] [NeZero n3]
    (c : PhCrystal A) (f : FcVec A n1 n2 n3) (order : List Vec3) (q : Vec3) : DynM A :=
  let d := devShort (reorder c f) q
  let d := if c.hasDielectric then c.devLong n1 n2 n3 order q d else d
  fun a b => 0.5 * (d a b + (starRingEnd ℂ) (d b a)) / (Real.sqrt (c.mass a.1 * c.mass b.1) : ℂ)

/-- The frequencies on the device, src/harmonic/phonon_h0_kokkos.cpp L192-201. -/
noncomputable def devFrequency (w2 : ℝ) : ℝ := if 0 < w2 then Real.sqrt w2 else -Real.sqrt (-w2)

/-- `kokkosBatchedDiagonalizeFromCoordinates` for one wavevector,
src/harmonic/phonon_h0_kokkos.cpp L177-219, with `eig` for `kokkosZHEEV`. -/
noncomputable def devDiagonalize {A n1 n2 n3 : Nat} [NeZero n1] [NeZero n2] [NeZero n3]
    (eig : EigenSolver A) (c : PhCrystal A) (f : FcVec A n1 n2 n3) (order : List Vec3) (q : Vec3)
    (withMassScaling : Bool) :
    (Fin (A * 3) → ℝ) × Matrix (Fin A × Fin 3) (Fin (A * 3)) ℂ :=
  let t := eig (devHamiltonian c f order q)
  (fun b => devFrequency (t.1 b),
    if withMassScaling then fun a b => t.2 a b / (Real.sqrt (c.mass a.1) : ℂ) else t.2)

end Verif.Model
