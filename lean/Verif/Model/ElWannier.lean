import Verif.Model.PhVelocity
import Verif.Model.Device
import Verif.Model.Crystal

/-!
# Wannier interpolation of electron bands

src/harmonic/electron_h0_wannier.cpp.  Numbers are reals and complex numbers (no rounding).  The threshold for
degenerate bands, `0.000001 / energyRyToEv`, is a parameter.  The two uses of `Eigen::SelfAdjointEigenSolver` (and of
`kokkosZHEEV` on the device) are the parameters `eig` (Hamiltonians) and `solver` (blocks of degenerate bands).
-/

namespace Verif.Model

/-- `degeneracyShifts` and `vectorsShifts`, src/harmonic/electron_h0_wannier.h L224-225; the second dimension of the
second array is eight (src/harmonic/electron_h0_wannier.cpp L569).  The degeneracies are read as integers
(src/parser/qe_input_parser.cpp L860-861); a negative one is no iteration of the loops, like zero. -/
structure WannierShifts (W R : Nat) where
  degeneracy : Fin W → Fin W → Fin R → Nat
  vectors : Fin 8 → Fin W → Fin W → Fin R → Vec3

/-- The data of an `ElectronH0Wannier`: `numWannier` functions and `numVectors` vectors, src/harmonic/electron_h0_wannier.cpp
L6-41, with the dimensions that the constructor checks; `hasShiftedVectors` is the presence of `shifts`. -/
structure WannierData (W R : Nat) where
  bravais : Fin R → Vec3
  degeneracy : Fin R → ℝ
  h0R : Fin R → Matrix (Fin W) (Fin W) ℂ
  rMatrix : Fin 3 → Fin R → Matrix (Fin W) (Fin W) ℂ
  shifts : Option (WannierShifts W R)

variable {W R : Nat}

/-- `ElectronH0Wannier::addShiftedVectors`, src/harmonic/electron_h0_wannier.cpp L560-592 (L595-622 copies the arrays to the
device): the lattice vector is added to the shifts; a degeneracy above eight
is a write beyond the end of a dimension. -/
noncomputable def addShiftedVectors (w : WannierData W R) (s : WannierShifts W R) : Outcome (WannierData W R) :=
  open Classical in
  if ∃ a b r, 8 < s.degeneracy a b r then .ub
  else .ok { w with shifts := some ⟨s.degeneracy, fun j a b r =>
    if j.1 < s.degeneracy a b r then s.vectors j a b r + w.bravais r else s.vectors j a b r⟩ }

/-- `{cos(phase), sin(phase)}`, src/harmonic/electron_h0_wannier.cpp L175, L206. -/
noncomputable def hostPhase (x : ℝ) : ℂ := ⟨Real.cos x, Real.sin x⟩

/-- An element of `vectorsShifts`, src/harmonic/electron_h0_wannier.cpp L204; `addShiftedVectors` excludes degeneracies above eight. -/
def WannierShifts.at (s : WannierShifts W R) (iDeg : Nat) (a b : Fin W) (r : Fin R) : Vec3 :=
  if h : iDeg < 8 then s.vectors ⟨iDeg, h⟩ a b r else 0

/-- `ElectronH0Wannier::batchedBuildHamiltonians`, src/harmonic/electron_h0_wannier.cpp L160-216, for one wavevector (every
iteration of the loops over wavevectors and matrix elements adds to its own element). -/
noncomputable def blochH (w : WannierData W R) (k : Vec3) : Matrix (Fin W) (Fin W) ℂ :=
  match w.shifts with
  | none => fun m n => (List.finRange R).foldl (fun h iR =>
      h + hostPhase (vdot k (w.bravais iR)) / (w.degeneracy iR : ℂ) * w.h0R iR m n) 0
  | some s => fun a b => (List.finRange R).foldl (fun h iR =>
      (List.range (s.degeneracy a b iR)).foldl (fun h iDeg =>
        h + hostPhase (vdot k (s.at iDeg a b iR)) / ((w.degeneracy iR * s.degeneracy a b iR : ℝ) : ℂ) * w.h0R iR a b) h) 0

/-- The library that diagonalizes the Hamiltonians, src/harmonic/electron_h0_wannier.cpp L229-231, L669-671. -/
abbrev ElSolver (W : Nat) := Matrix (Fin W) (Fin W) ℂ → (Fin W → ℝ) × Matrix (Fin W) (Fin W) ℂ

/-- `ElectronH0Wannier::batchedDiagonalizeFromCoordinates`, src/harmonic/electron_h0_wannier.cpp L218-235, for one
wavevector. -/
noncomputable def elDiagonalize (eig : ElSolver W) (w : WannierData W R) (k : Vec3) :
    (Fin W → ℝ) × Matrix (Fin W) (Fin W) ℂ := eig (blochH w k)

/-- `der`, src/harmonic/electron_h0_wannier.cpp L694-701: the difference of the Hamiltonians at the wavevectors of L645-657
(`delta` is that of the phonons, `1.0e-8`, L640) and its Hermitian part. -/
noncomputable def elDer (w : WannierData W R) (k : Vec3) (i : Fin 3) : Matrix (Fin W) (Fin W) ℂ :=
  let der : Matrix (Fin W) (Fin W) ℂ := fun a b =>
    (blochH w (shiftQ k i constDeltaQ) a b - blochH w (shiftQ k i (-constDeltaQ)) a b) / ((2 * constDeltaQ : ℝ) : ℂ)
  fun a b => 0.5 * (der a b + (starRingEnd ℂ) (der b a))

/-- `der` in the basis of the eigenvectors, src/harmonic/electron_h0_wannier.cpp L704. -/
noncomputable def elRaw (eig : ElSolver W) (w : WannierData W R) (k : Vec3) (i : Fin 3) : Matrix (Fin W) (Fin W) ℂ :=
  (elDiagonalize eig w k).2.conjTranspose * elDer w k i * (elDiagonalize eig w k).2

/-- `ElectronH0Wannier::batchedDiagonalizeWithVelocities`, src/harmonic/electron_h0_wannier.cpp L630-772, the velocities of
one wavevector.  The treatment of the degenerate bands, L716-767, is the code of the phonons (`hostDegLoop`). -/
noncomputable def elVelocity (eig : ElSolver W)
    (solver : (d : Nat) → Matrix (Fin d) (Fin d) ℂ → Matrix (Fin d) (Fin d) ℂ) (threshold : ℝ)
    (w : WannierData W R) (k : Vec3) : BandVel :=
  let velocity := hostDegLoop solver (bandFn (elDiagonalize eig w k).1) threshold W W 0 (bandVel fun i => elRaw eig w k i)
  if vnorm k < 1.0e-6 then 0 else velocity

/-! ## Device -/

open Classical in
/-- `ElectronH0Wannier::kokkosBatchedBuildBlochHamiltonian`, src/harmonic/electron_h0_wannier.cpp L777-850, for one
wavevector.  The array `h0R_d` has the indices
`(i, j, iR)` (L45, L56); with shifts it is read with the indices `(iR, iw1, iw2)`, and the phase is divided by the
degeneracy of the vector and multiplied by that of the shift (L840-842).  A read beyond a dimension of the array counts as undefined behaviour (Kokkos stops there when
bounds are checked, and otherwise reads another element or other memory). -/
noncomputable def devBloch (w : WannierData W R) (k : Vec3) : Outcome (Matrix (Fin W) (Fin W) ℂ) :=
  match w.shifts with
  | none => .ok fun m n => (List.finRange R).foldl (fun tmp iR =>
      tmp + Complex.exp (Complex.I * (vdot k (w.bravais iR) : ℝ)) / (w.degeneracy iR : ℂ) * w.h0R iR m n) 0
  | some s =>
    if ∃ (a b : Fin W) (r : Fin R), 0 < s.degeneracy a b r ∧ ¬ (r.1 < W ∧ b.1 < R) then .ub
    else .ok fun a b => (List.finRange R).foldl (fun tmp iR =>
      (List.range (s.degeneracy a b iR)).foldl (fun tmp iDeg =>
        tmp + (if h : iR.1 < W ∧ b.1 < R then w.h0R ⟨b.1, h.2⟩ ⟨iR.1, h.1⟩ a else 0) *
          (Complex.exp (Complex.I * (vdot k (s.at iDeg a b iR) : ℝ)) / (w.degeneracy iR : ℂ) *
            (s.degeneracy a b iR : ℂ))) tmp) 0

/-- `resultVelocities` before the treatment of degenerate bands, src/harmonic/electron_h0_wannier.cpp L932-989; `hs` are the Hamiltonians of the seven
wavevectors of each point. -/
noncomputable def devElRaw (eig : ElSolver W) (hs : Nat → Matrix (Fin W) (Fin W) ℂ) (qs : Nat → Vec3) (iK : Nat) (i : Fin 3) :
    Matrix (Fin W) (Fin W) ℂ :=
  let u := (eig (hs (iK * 7))).2
  let hp := hs (iK * 7 + i * 2 + 1)
  let hm := hs (iK * 7 + i * 2 + 2)
  let der : Fin W → Fin W → ℂ := fun m n => ((0.25 / constDeltaQ : ℝ) : ℂ) *
    ((hp m n - hm m n) + (starRingEnd ℂ) (hp n m - hm n m))
  let tmpV : Fin W → Fin W → ℂ := fun m n => ∑ l, (starRingEnd ℂ) (u l m) * der l n
  fun m n =>
    let norm := 0 + qs iK 0 * qs iK 0 + qs iK 1 * qs iK 1 + qs iK 2 * qs iK 2
    if norm > 1.0e-6 then ∑ l, tmpV m l * u l n else 0

/-- `ElectronH0Wannier::kokkosBatchedDiagonalizeWithVelocities`, src/harmonic/electron_h0_wannier.cpp L887-999: the velocities of a batch of `numK` wavevectors.
Every iteration of the parallel loops of this function writes its own element; `order1` and `order2` are the orders of
the loops of `kokkosBatchedTreatDegenerateVelocities`. -/
noncomputable def devElVelocities (eig : ElSolver W)
    (solver : (d : Nat) → Matrix (Fin d) (Fin d) ℂ → Matrix (Fin d) (Fin d) ℂ) (threshold : ℝ)
    (w : WannierData W R) (order1 : Nat → List (Nat × Nat))
    (order2 : (iDeg : Nat) → List (Nat × Fin iDeg × Fin iDeg)) (numK : Nat) (qs : Nat → Vec3) : Outcome VelView := do
  let l ← mapOutcome (fun j => devBloch w (devAllVectors qs j)) (List.range (numK * 7))
  let hs : Nat → Matrix (Fin W) (Fin W) ℂ := fun j => (l[j]?).getD 0
  treatDegenerateVelocities solver (fun iK => bandFn (eig (hs (iK * 7))).1) threshold numK W
    order1 order2 (fun iK => bandVel fun i => devElRaw eig hs qs iK i)

/-! ## Berry connection -/

/-- `ElectronH0Wannier::getBerryConnection`, src/harmonic/electron_h0_wannier.cpp L520-558, the three components.  The array
`rMatrix` has the dimensions `(3, R, W, W)` (L30-38) and is read with the indices `(iR, m, n, i)` (L549); a read beyond a
dimension counts as undefined behaviour (an assertion of Eigen, or another element or other memory). -/
noncomputable def berryConnection (eig : ElSolver W) (w : WannierData W R) (k : Vec3) :
    Outcome (Fin 3 → Matrix (Fin W) (Fin W) ℂ) :=
  let u := (elDiagonalize eig w k).2
  if 0 < R ∧ 0 < W ∧ ¬ (R ≤ 3 ∧ W ≤ R ∧ 3 ≤ W) then .ub
  else .ok fun i =>
    let bw : Matrix (Fin W) (Fin W) ℂ := fun m n => (List.finRange R).foldl (fun x iR =>
      x + hostPhase (vdot k (w.bravais iR)) / (w.degeneracy iR : ℂ) *
        (if h : R ≤ 3 ∧ W ≤ R ∧ 3 ≤ W then
          w.rMatrix ⟨iR.1, by omega⟩ ⟨m.1, by omega⟩ n ⟨i.1, by omega⟩ else 0)) 0
    u.conjTranspose * bw * u

/-! ## Batches -/

/-- `numFinishedPoints` and `ik`, src/harmonic/electron_h0_wannier.cpp L277-357: the results of the batches are stored one after the other; `kernel` gives the
results of the wavevectors of a batch.  Reading beyond the wavevectors, or storing beyond the results, is undefined. -/
def elPopulateLoop {β : Type} (kernel : List Vec3 → Outcome (List β)) (coordinates : List Vec3) :
    List (List Int) → Nat → List (Option β) → Outcome (List (Option β))
  | [], _, all => .ok all
  | b :: bs, numFinishedPoints, all => do
    let ks ← mapOutcome (fun iik => readAt coordinates (iik + numFinishedPoints)) (List.range b.length)
    let rs ← kernel ks
    let all ← (List.range b.length).foldlM (fun (all : List (Option β)) iik => do
      let r ← readAt rs iik
      if iik + numFinishedPoints < all.length then .ok (all.set (iik + numFinishedPoints) (some r)) else .ub) all
    elPopulateLoop kernel coordinates bs (numFinishedPoints + b.length) all

/-- `ElectronH0Wannier::kokkosPopulate`, src/harmonic/electron_h0_wannier.cpp L253-359; `none` is a value that is never
written.  `batchSize` is that of `estimateBatchSize` (`batchSizeOf`, C83). -/
def elKokkosPopulate {β : Type} (kernel : List Vec3 → Outcome (List β)) (coordinates : List Vec3) (iks : List Int)
    (batchSize : Int) : Outcome (List (Option β)) := do
  let t ← splitToBatches iks batchSize
  elPopulateLoop kernel coordinates t.1 0 (List.replicate coordinates.length none)

end Verif.Model
