import Verif.Model.CouplingFile
import Verif.Model.RotationFile
import Verif.Model.Crystal

/-!
# src/apps/qe_to_phoebe_wannier.cpp: the conversion of the electron-phonon coupling

`ElPhQeToPhoebeApp::postProcessingWannier` from the files of Quantum ESPRESSO and Wannier90 to the file of phoebe, without
polar correction and with all the matrix elements in each process.  The parts are those of C70, C141, C143, C186 and C188; a
wavevector of a mesh is given by its three components.
-/
namespace Verif.Model

/-- The number of a wavevector of a mesh without offset, src/points.cpp L416-424. -/
def gridNumber (n : Fin 3 → Nat) (k : (i : Fin 3) → Fin (n i)) : Nat := k 2 * n 0 * n 1 + k 1 * n 0 + k 0

/-- The wavevector of a number, src/points.cpp L230-240. -/
def gridOf (n : Fin 3 → Nat) (hn : ∀ i, 0 < n i) (index : Nat) : (i : Fin 3) → Fin (n i) := fun i =>
  ⟨(match i with
    | 0 => index
    | 1 => index / n 0
    | 2 => index / (n 0 * n 1)) % n i, Nat.mod_lt _ (hn i)⟩

/-- All the wavevectors of a mesh in the order of their numbers. -/
def gridList (n : Fin 3 → Nat) (hn : ∀ i, 0 < n i) : List ((i : Fin 3) → Fin (n i)) :=
  (List.range (n 0 * n 1 * n 2)).map (gridOf n hn)

/-- `Points` of a mesh without offset, src/points.cpp L14-22. -/
def gridPoints (n : Fin 3 → Nat) : Outcome Points := setMesh ⟨n 0, n 1, n 2⟩ ⟨0, 0, 0⟩

open scoped Classical in
/-- `qPoints.getIndex` at a vector read from a text file, whose numbers are rational. -/
noncomputable def rationalIndex (points : Points) (v : V3 ℝ) : Outcome Nat :=
  if h : ∃ r : V3 Rat, v = ⟨(r.x : ℝ), (r.y : ℝ), (r.z : ℝ)⟩ then
    match points.getIndex h.choose with
    | .ok i => .ok i.toNat
    | .error => .error
    | .ub => .ub
    | .diverge => .diverge
  else .ub

/-- What the conversion is given: the cell `d` and its reciprocal `b`, the meshes, the files of rotation matrices, the energies
at the first wavevector of all the bands and of those given to Wannier90, the wavevectors of Quantum ESPRESSO and the files of the
coupling. -/
structure ConversionInput where
  d : Mat3
  b : Mat3
  nk : Fin 3 → Nat
  nq : Fin 3 → Nat
  numModes : Nat
  numQEBands : Nat
  numWannier : Nat
  wannierPrefix : String
  uFile : Option TextStream
  disFile : Option TextStream
  energies : List ℝ
  wannierEnergies : List ℝ
  kGridFull : List (V3 Rat)
  starFiles : List (Option (Nat × List ℝ))

/-- How the work is shared: the order of the assignments of the threads that read, the threads that rotate, and the shares of the
processes. -/
structure ConversionShares (nk nq : Fin 3 → Nat) where
  order : List FullWrite → List FullWrite
  threads : ∀ M W B, ((i : Fin 3) → Fin (nk i)) → ((i : Fin 3) → Fin (nq i)) → List (GaugeThread M W B)
  kShares : List (List ((i : Fin 3) → Fin (nk i)))
  qShares : List (List ((i : Fin 3) → Fin (nq i)))
  eShares : ∀ E, List (List (Fin E))

/-- The arrays that the transform is given, src/apps/qe_to_phoebe_wannier.cpp L1054-1065.  `sums` has the numbers of the wavevectors
k+q, src/apps/qe_to_phoebe_wannier.cpp L542-552, a list for each q. -/
noncomputable def assembleCoarse (x : ConversionInput) (hk : ∀ i, 0 < x.nk i) (hq : ∀ i, 0 < x.nq i) (u : RotTensor) (A : FullArrays)
    (elVectors phVectors : List Vec3) (sums : List (List Int)) :
    CoarseData ((i : Fin 3) → Fin (x.nk i)) ((i : Fin 3) → Fin (x.nq i)) elVectors.length phVectors.length x.numModes u.cols u.rows where
  ks := gridList x.nk hk
  qs := gridList x.nq hq
  kCart k := matVec x.b fun i => ((k i : ℕ) : ℝ) / x.nk i
  qCart q := matVec x.b fun i => ((q i : ℕ) : ℝ) / x.nq i
  kPlusQ k q := gridOf x.nk hk ((sums.getD (gridNumber x.nq q) []).getD (gridNumber x.nk k) 0).toNat
  elVectors := elVectors.get
  phVectors := phVectors.get
  u k l w := u.entry l w (gridNumber x.nk k)
  phEig q := fun mu nu => A.ev (mu, nu, gridNumber x.nq q)
  g l m nu k q := A.g (l, m, nu, gridNumber x.nk k, gridNumber x.nq q)

/-- The file that is written. -/
structure ConvertedCoupling (M : Nat) where
  E : Nat
  P : Nat
  W : Nat
  data : ElPhData E P M W

/-- The crystal coordinates of k+q, src/apps/qe_to_phoebe_wannier.cpp L544-551 (the conversion to Cartesian coordinates and back is
exact). -/
def sumCoordinates (nk nq : Fin 3 → Nat) (k : (i : Fin 3) → Fin (nk i)) (q : (i : Fin 3) → Fin (nq i)) : V3 Rat :=
  ⟨(k 0 : ℕ) / nk 0 + (q 0 : ℕ) / nq 0, (k 1 : ℕ) / nk 1 + (q 1 : ℕ) / nq 1, (k 2 : ℕ) / nk 2 + (q 2 : ℕ) / nq 2⟩

/-- `ElPhQeToPhoebeApp::postProcessingWannier`, src/apps/qe_to_phoebe_wannier.cpp L998-1070, and the part of `readGFromQEFile`
that numbers the wavevectors, src/apps/elph_qe_to_phoebe_app.cpp L221-227.  Meshes that are not positive stop the program before
(C14). -/
noncomputable def convertCoupling (x : ConversionInput) (hk : ∀ i, 0 < x.nk i) (hq : ∀ i, 0 < x.nq i) (s : ConversionShares x.nk x.nq) :
    Outcome (ConvertedCoupling x.numModes) := do
  let kPoints ← gridPoints x.nk
  let qPoints ← gridPoints x.nq
  let u ← setupRotationMatrices x.wannierPrefix x.uFile x.disFile kPoints
  let offset ← computeOffset x.energies x.wannierEnergies
  let el ← buildWignerSeitz x.d ⟨x.nk 0, x.nk 1, x.nk 2⟩ 2
  let ph ← buildWignerSeitz x.d ⟨x.nq 0, x.nq 1, x.nq 2⟩ 2
  let ikMap ← mapOutcome kPoints.getIndex x.kGridFull
  let A ← readFull x.numModes x.numQEBands x.numWannier (x.nk 0 * x.nk 1 * x.nk 2) offset (fun ik => (ikMap.getD ik 0).toNat)
    (rationalIndex qPoints) x.starFiles s.order
  let sums ← mapOutcome (fun q => mapOutcome (fun k => kPoints.getIndex (sumCoordinates x.nk x.nq k q)) (gridList x.nk hk)) (gridList x.nq hq)
  let c := assembleCoarse x hk hq u A el.1 ph.1 sums
  .ok ⟨el.1.length, ph.1.length, u.cols, coarseElPhData c (fun r => (el.2.getD r 0 : ℝ)) (fun r => (ph.2.getD r 0 : ℝ))
    (blochToWannier c (s.threads _ _ _) s.kShares s.qShares (s.eShares _))⟩

end Verif.Model
