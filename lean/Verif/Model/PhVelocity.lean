import Verif.Model.DynMat
import Verif.Model.DegVelocity
import Mathlib.LinearAlgebra.Matrix.Trace

/-!
# Phonon velocities

`PhononH0::diagonalizeVelocityFromCoordinates` (src/harmonic/phonon_h0.cpp) and
`PhononH0::kokkosBatchedDiagonalizeWithVelocities` (src/harmonic/phonon_h0_kokkos.cpp).

Numbers are reals and complex numbers (no rounding).  The threshold for degenerate bands,
`0.0001 / ryToCmm1`, is a parameter.  The two uses of `Eigen::SelfAdjointEigenSolver` are the
parameters `eig` (dynamical matrices) and `solver` (blocks of degenerate bands).
-/

namespace Verif.Model

/-- `deltaQ`, src/harmonic/phonon_h0.cpp L921; `delta`, src/harmonic/phonon_h0_kokkos.cpp L388. -/
noncomputable def constDeltaQ : ℝ := 1.0e-8

/-- `qPlus` and `qMinus`, src/harmonic/phonon_h0.cpp L924-927. -/
noncomputable def shiftQ (q : Vec3) (i : Fin 3) (d : ℝ) : Vec3 := fun k => if k = i then q k + d else q k

section
variable {A n1 n2 n3 : Nat} [NeZero n1] [NeZero n2] [NeZero n3]

/-- `sqrtDPlus` and `sqrtDMinus`, src/harmonic/phonon_h0.cpp L934-962. -/
noncomputable def sqrtD (eig : EigenSolver A) (c : PhCrystal A) (f : FcVec A n1 n2 n3) (q : Vec3) : DynM A :=
  let t := diagonalizeFromCoordinates eig c f q false
  t.2 * (Matrix.diagonal fun b => (t.1 b : ℂ)) * t.2.conjTranspose

/-- `der`, src/harmonic/phonon_h0.cpp L964-988: the derivative of the square root of the dynamical matrix, and its
Hermitian part. -/
noncomputable def velDer (eig : EigenSolver A) (c : PhCrystal A) (f : FcVec A n1 n2 n3) (q : Vec3) (i : Fin 3) : DynM A :=
  let der : DynM A := fun a b =>
    (sqrtD eig c f (shiftQ q i constDeltaQ) a b - sqrtD eig c f (shiftQ q i (-constDeltaQ)) a b) /
      ((2 * constDeltaQ : ℝ) : ℂ)
  fun a b => 0.5 * (der a b + (starRingEnd ℂ) (der b a))

/-- `der` in the basis of the eigenvectors, src/harmonic/phonon_h0.cpp L909-911, L991. -/
noncomputable def rawVelocity (eig : EigenSolver A) (c : PhCrystal A) (f : FcVec A n1 n2 n3) (q : Vec3) (i : Fin 3) :
    Matrix (Fin (A * 3)) (Fin (A * 3)) ℂ :=
  let u := (diagonalizeFromCoordinates eig c f q false).2
  u.conjTranspose * velDer eig c f q i * u

end

/-- A velocity operator: two bands, direction (src/harmonic/phonon_h0.cpp L900). -/
abbrev BandVel := Nat → Nat → Nat → ℂ

/-- Elements of an array of bands; only elements within the array are read. -/
noncomputable def bandFn {n : Nat} (w : Fin n → ℝ) : Nat → ℝ := fun b => if h : b < n then w ⟨b, h⟩ else 0

/-- Elements of `velocity`, src/harmonic/phonon_h0.cpp L900-901, L993-999. -/
noncomputable def bandVel {n : Nat} (v : Fin 3 → Matrix (Fin n) (Fin n) ℂ) : BandVel := fun a b c =>
  if h : a < n ∧ b < n ∧ c < 3 then v ⟨c, h.2.2⟩ ⟨a, h.1⟩ ⟨b, h.2.1⟩ else 0

/-- `subMat` before the diagonalization, src/harmonic/phonon_h0.cpp L1019-1030. -/
noncomputable def hostSub (v : BandVel) (ib iCart d : Nat) : Matrix (Fin d) (Fin d) ℂ := fun i j =>
  0.5 * (v (ib + i) (ib + j) iCart + (starRingEnd ℂ) (v (ib + j) (ib + i) iCart))

/-- `subMat` after the rotation, src/harmonic/phonon_h0.cpp L1032-1042. -/
noncomputable def hostRotate (solver : (d : Nat) → Matrix (Fin d) (Fin d) ℂ → Matrix (Fin d) (Fin d) ℂ) {d : Nat}
    (s : Matrix (Fin d) (Fin d) ℂ) : Matrix (Fin d) (Fin d) ℂ :=
  let u := solver d s
  let s' := u.conjTranspose * s * u
  fun i j => 0.5 * (s' i j + (starRingEnd ℂ) (s' j i))

/-- The treatment of one block, src/harmonic/phonon_h0.cpp L1018-1051: every direction is read and written once. -/
noncomputable def hostBlock (solver : (d : Nat) → Matrix (Fin d) (Fin d) ℂ → Matrix (Fin d) (Fin d) ℂ)
    (v : BandVel) (ib d : Nat) : BandVel := fun a b c =>
  if h : (ib ≤ a ∧ a < ib + d) ∧ (ib ≤ b ∧ b < ib + d) ∧ c < 3 then
    hostRotate solver (hostSub v ib c d) ⟨a - ib, by omega⟩ ⟨b - ib, by omega⟩
  else v a b c

/-- The loop over the bands, src/harmonic/phonon_h0.cpp L1005-1055; `fuel` bounds the iterations (each advances by at
least one band).  The search for the block, L1008-1016, is the same as on the device (`degBlockSize`). -/
noncomputable def hostDegLoop (solver : (d : Nat) → Matrix (Fin d) (Fin d) ℂ → Matrix (Fin d) (Fin d) ℂ)
    (en : Nat → ℝ) (threshold : ℝ) (numBands : Nat) : Nat → Nat → BandVel → BandVel
  | 0, _, v => v
  | fuel + 1, ib, v =>
    if ib < numBands then
      let sizeSubspace := degBlockSize en threshold numBands ib
      let v := if sizeSubspace > 1 then hostBlock solver v ib sizeSubspace else v
      hostDegLoop solver en threshold numBands fuel (ib + (sizeSubspace - 1) + 1) v
    else v

section
variable {A n1 n2 n3 : Nat} [NeZero n1] [NeZero n2] [NeZero n3]

/-- `PhononH0::diagonalizeVelocityFromCoordinates`, src/harmonic/phonon_h0.cpp L895-1070. -/
noncomputable def hostVelocity (eig : EigenSolver A)
    (solver : (d : Nat) → Matrix (Fin d) (Fin d) ℂ → Matrix (Fin d) (Fin d) ℂ) (threshold : ℝ)
    (c : PhCrystal A) (f : FcVec A n1 n2 n3) (q : Vec3) : BandVel :=
  let energies := (diagonalizeFromCoordinates eig c f q false).1
  let velocity := hostDegLoop solver (bandFn energies) threshold (A * 3) (A * 3) 0
    (bandVel fun i => rawVelocity eig c f q i)
  if vnorm q < 1.0e-6 then 0 else velocity

/-! ## Batches on the device -/

/-- `allVectors`, src/harmonic/phonon_h0_kokkos.cpp L390-408: the vector number `j` of the batch. -/
noncomputable def devAllVectors (qs : Nat → Vec3) (j : Nat) : Vec3 :=
  let q := qs (j / 7)
  if h : j % 7 = 0 then q
  else
    let iDir : Fin 3 := ⟨(j % 7 - 1) / 2, by omega⟩
    if (j % 7 - 1) % 2 = 0 then shiftQ q iDir constDeltaQ else shiftQ q iDir (-constDeltaQ)

/-- `allEnergies` and `allEigenvectors`, src/harmonic/phonon_h0_kokkos.cpp L413-415; the teams that add the terms of the
reciprocal vectors to the matrix number `j` run in the order `order j`. -/
noncomputable def devAll (eig : EigenSolver A) (c : PhCrystal A) (f : FcVec A n1 n2 n3) (order : Nat → List Vec3)
    (qs : Nat → Vec3) (j : Nat) : (Fin (A * 3) → ℝ) × Matrix (Fin A × Fin 3) (Fin (A * 3)) ℂ :=
  devDiagonalize eig c f (order j) (devAllVectors qs j) false

/-- `der`, src/harmonic/phonon_h0_kokkos.cpp L457-476. -/
noncomputable def devDer (eig : EigenSolver A) (c : PhCrystal A) (f : FcVec A n1 n2 n3) (order : Nat → List Vec3)
    (qs : Nat → Vec3) (iK : Nat) (i : Fin 3) : DynM A := fun m n =>
  let p := devAll eig c f order qs (iK * 7 + i * 2 + 1)
  let s := devAll eig c f order qs (iK * 7 + i * 2 + 2)
  (List.finRange (A * 3)).foldl (fun x l => x + (p.2 m l * (p.1 l : ℂ) * (starRingEnd ℂ) (p.2 n l) -
    s.2 m l * (s.1 l : ℂ) * (starRingEnd ℂ) (s.2 n l))) 0 / ((2 * constDeltaQ : ℝ) : ℂ)

/-- `tmpV`, src/harmonic/phonon_h0_kokkos.cpp L485-496. -/
noncomputable def devTmpV (eig : EigenSolver A) (c : PhCrystal A) (f : FcVec A n1 n2 n3) (order : Nat → List Vec3)
    (qs : Nat → Vec3) (iK : Nat) (i : Fin 3) : Matrix (Fin (A * 3)) (Fin A × Fin 3) ℂ := fun m n =>
  let u := (devAll eig c f order qs (iK * 7)).2
  let r := devDer eig c f order qs iK i
  ∑ l, (starRingEnd ℂ) (u l m) * 0.5 * (r l n + (starRingEnd ℂ) (r n l))

/-- `resultVelocities` before the treatment of degenerate bands, src/harmonic/phonon_h0_kokkos.cpp L499-513. -/
noncomputable def devRaw (eig : EigenSolver A) (c : PhCrystal A) (f : FcVec A n1 n2 n3) (order : Nat → List Vec3)
    (qs : Nat → Vec3) (iK : Nat) (i : Fin 3) : Matrix (Fin (A * 3)) (Fin (A * 3)) ℂ := fun m n =>
  let norm := 0 + qs iK 0 * qs iK 0 + qs iK 1 * qs iK 1 + qs iK 2 * qs iK 2
  if norm > 1.0e-6 then
    ∑ l, devTmpV eig c f order qs iK i m l * (devAll eig c f order qs (iK * 7)).2 l n
  else 0

/-- `kokkosBatchedDiagonalizeWithVelocities`, src/harmonic/phonon_h0_kokkos.cpp L378-532: the velocities of a batch of
`numK` wavevectors; `order1` and `order2` are the orders of the parallel loops of
`kokkosBatchedTreatDegenerateVelocities`. -/
noncomputable def devVelocities (eig : EigenSolver A)
    (solver : (d : Nat) → Matrix (Fin d) (Fin d) ℂ → Matrix (Fin d) (Fin d) ℂ) (threshold : ℝ)
    (c : PhCrystal A) (f : FcVec A n1 n2 n3) (order : Nat → List Vec3) (order1 : Nat → List (Nat × Nat))
    (order2 : (iDeg : Nat) → List (Nat × Fin iDeg × Fin iDeg)) (numK : Nat) (qs : Nat → Vec3) : Outcome VelView :=
  treatDegenerateVelocities solver (fun iK => bandFn (devAll eig c f order qs (iK * 7)).1) threshold numK (A * 3)
    order1 order2 (fun iK => bandVel fun i => devRaw eig c f order qs iK i)

end

end Verif.Model
