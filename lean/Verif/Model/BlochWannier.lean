import Verif.Model.ElPhCoupling
import Verif.Model.Mpi
import Verif.Model.Utilities
import Verif.Model.IrrPoints
import Mathlib.LinearAlgebra.Matrix.NonsingularInverse

/-!
# src/apps/qe_to_phoebe_wannier.cpp: from Bloch states on coarse meshes to Wannier functions

Numbers are complex (no rounding).  The wavevectors of the two coarse meshes are elements of types `K` and `Q`, listed
in `ks` and `qs`; `kPlusQ` is the result of `Points::getIndex` at the sum of two of them (C12), which is an error when
the sum is not in the mesh.  Indices `gFull(ib1, ib2, nu, ik, iq)` as in the code: `ib1` is the band at k+q.
-/
namespace Verif.Model

/-! ## Rotation to the Wannier gauge -/

/-- The iterations one OpenMP thread executes in the two loops of src/apps/qe_to_phoebe_wannier.cpp L230-242 and L245-254
(also L574-586 and L589-598), each `(nu, i, j, l)`. -/
structure GaugeThread (M W B : Nat) where
  first : List (Fin M × Fin W × Fin B × Fin B)
  second : List (Fin M × Fin W × Fin W × Fin B)

variable {E P M W B : Nat}

/-- `tmp(i, j, nu)` of a thread, src/apps/qe_to_phoebe_wannier.cpp L227-242 (L571-586): private to the thread. -/
def gaugeTmp (t : GaugeThread M W B) (uKq : Fin B → Fin W → ℂ) (g : Fin B → Fin B → Fin M → ℂ) (i : Fin W) (j : Fin B)
    (nu : Fin M) : ℂ :=
  (t.first.map fun p => if p.1 = nu ∧ p.2.1 = i ∧ p.2.2.1 = j then uKq p.2.2.2 i * g p.2.2.2 j nu else 0).sum

/-- `tmp2(i, j, nu)` of a thread, src/apps/qe_to_phoebe_wannier.cpp L243-254 (L587-598).  The thread has finished its own
part of the first loop, and reads its own `tmp`.  `uKDagger(j, l)` is the conjugate of `uK(l, j)` (L221-222, L565-566). -/
def gaugeTmp2 (t : GaugeThread M W B) (uKq uK : Fin B → Fin W → ℂ) (g : Fin B → Fin B → Fin M → ℂ) (i j : Fin W)
    (nu : Fin M) : ℂ :=
  (t.second.map fun p => if p.1 = nu ∧ p.2.1 = i ∧ p.2.2.1 = j then
    gaugeTmp t uKq g i p.2.2.2 nu * (starRingEnd ℂ) (uK p.2.2.2 j) else 0).sum

/-- `gFullTmp(i, j, nu, ik, iq)`, src/apps/qe_to_phoebe_wannier.cpp L256-263 (L600-607): the sum over the threads. -/
def gaugeRotate (threads : List (GaugeThread M W B)) (uKq uK : Fin B → Fin W → ℂ) (g : Fin B → Fin B → Fin M → ℂ)
    (i j : Fin W) (nu : Fin M) : ℂ :=
  (threads.map fun t => gaugeTmp2 t uKq uK g i j nu).sum

/-- The iterations of `omp for collapse(4)` in the order of the loops, src/apps/qe_to_phoebe_wannier.cpp L230-235 and
L245-249; the last two indices run to `n2` and `n3`. -/
def collapsedLoop (M W n2 n3 : Nat) : List (Fin M × Fin W × Fin n2 × Fin n3) :=
  ((List.finRange M).flatMap fun nu => (List.finRange W).map fun i => (nu, i)).flatMap fun p =>
    (List.finRange n2).flatMap fun j => (List.finRange n3).map fun l => (p.1, p.2, j, l)

/-- What thread `t` of `T` executes of a loop under the schedule `static` (the default of GNU and LLVM for a loop
without a `schedule` clause): contiguous parts, the first ones longer by one. -/
def staticPart (T t : Nat) (l : List α) : List α :=
  (l.drop (t * (l.length / T) + min t (l.length % T))).take (l.length / T + if t < l.length % T then 1 else 0)

/-- The threads of the two loops under the schedule `static`. -/
def staticThreads (M W B T : Nat) : List (GaugeThread M W B) :=
  (List.range T).map fun t => ⟨staticPart T t (collapsedLoop M W B B), staticPart T t (collapsedLoop M W W B)⟩

/-! ## The transform when all processes hold all the matrix elements -/

/-- What the transform is given, src/apps/qe_to_phoebe_wannier.cpp L442-449: matrix elements, rotation matrices
`uMatrices(band, wannier, ik)`, eigenvectors of phonons `phEigenvectors(mu, nu, iq)`, wavevectors and lattice vectors. -/
structure CoarseData (K Q : Type) (E P M W B : Nat) where
  ks : List K
  qs : List Q
  kCart : K → Vec3
  qCart : Q → Vec3
  kPlusQ : K → Q → K
  elVectors : Fin E → Vec3
  phVectors : Fin P → Vec3
  u : K → Fin B → Fin W → ℂ
  phEig : Q → Matrix (Fin M) (Fin M) ℂ
  g : Fin B → Fin B → Fin M → K → Q → ℂ

variable {K Q : Type}

/-- An array of which each process fills the entries of its share, and `mpi->allReduceSum`. -/
def reduceOver [DecidableEq ι] (shares : List (List ι)) (f : ι → ℂ) (x : ι) : ℂ :=
  (shares.map fun s => if x ∈ s then f x else 0).sum

/-- Rotation to the Wannier gauge, src/apps/qe_to_phoebe_wannier.cpp L538-611, for one pair of wavevectors. -/
def coarseGauge (c : CoarseData K Q E P M W B) (threads : K → Q → List (GaugeThread M W B)) (i j : Fin W) (nu : Fin M)
    (k : K) (q : Q) : ℂ :=
  gaugeRotate (threads k q) (c.u (c.kPlusQ k q)) (c.u k) (fun l m nu => c.g l m nu k q) i j nu

/-- `phases(ik, iR)`, src/apps/qe_to_phoebe_wannier.cpp L624-638 (L275-285). -/
noncomputable def coarseElPhase (c : CoarseData K Q E P M W B) (k : K) (irE : Fin E) : ℂ :=
  hostPhase (-vdot (c.kCart k) (c.elVectors irE)) / (c.ks.length : ℂ)

/-- `phases(irP, iq)`, src/apps/qe_to_phoebe_wannier.cpp L734-748 (`phPhases`, L365-375). -/
noncomputable def coarsePhPhase (c : CoarseData K Q E P M W B) (irP : Fin P) (q : Q) : ℂ :=
  hostPhase (-vdot (c.qCart q) (c.phVectors irP)) / (c.qs.length : ℂ)

variable [DecidableEq K] [DecidableEq Q]

/-- `gMixed`, src/apps/qe_to_phoebe_wannier.cpp L617-674, with the processes' shares of wavevectors. -/
noncomputable def coarseMixed (c : CoarseData K Q E P M W B) (threads : K → Q → List (GaugeThread M W B))
    (kShares : List (List K)) (qShares : List (List Q)) (i j : Fin W) (nu : Fin M) (irE : Fin E) (q : Q) : ℂ :=
  reduceOver qShares (fun q => (c.ks.map fun k =>
    reduceOver qShares (coarseGauge c threads i j nu k) q * reduceOver kShares (fun k => coarseElPhase c k irE) k).sum) q

/-- `gWannierTmp`, src/apps/qe_to_phoebe_wannier.cpp L681-722.  Simplification: the inverse of a matrix of eigenvectors
is the exact one, zero if there is none (Eigen's is infinite). -/
noncomputable def coarseRotated (c : CoarseData K Q E P M W B) (threads : K → Q → List (GaugeThread M W B))
    (kShares : List (List K)) (qShares : List (List Q)) (i j : Fin W) (mu : Fin M) (irE : Fin E) (q : Q) : ℂ :=
  reduceOver qShares (fun q => ((List.finRange M).map fun nu2 =>
    coarseMixed c threads kShares qShares i j nu2 irE q * reduceOver qShares (fun q => (c.phEig q)⁻¹ nu2 mu) q).sum) q

/-- `ElPhQeToPhoebeApp::blochToWannier`, src/apps/qe_to_phoebe_wannier.cpp L442-793, without polar correction:
`gWannier(i, j, mu, irP, irE)`. -/
noncomputable def blochToWannier (c : CoarseData K Q E P M W B) (threads : K → Q → List (GaugeThread M W B))
    (kShares : List (List K)) (qShares : List (List Q)) (eShares : List (List (Fin E)))
    (i j : Fin W) (mu : Fin M) (irP : Fin P) (irE : Fin E) : ℂ :=
  reduceOver eShares (fun irE => (c.qs.map fun q =>
    reduceOver qShares (coarsePhPhase c irP) q * coarseRotated c threads kShares qShares i j mu irE q).sum) irE

/-- The file, as it is read back: the memory of `gWannier(i, j, nu, irP, irE)` (first index fastest) is that of
`couplingWannier_k(irE, irP, nu, iw1, iw2)` (last index fastest), src/apps/qe_to_phoebe_utils.cpp L447-575 and
src/interaction/interaction_elph.cpp L1050-1100; so `iw2 = i` and `iw1 = j`. -/
def coarseElPhData (c : CoarseData K Q E P M W B) (elDegeneracies : Fin E → ℝ) (phDegeneracies : Fin P → ℝ)
    (g : Fin W → Fin W → Fin M → Fin P → Fin E → ℂ) : ElPhData E P M W where
  coupling irE irP nu iw1 iw2 := g iw2 iw1 nu irP irE
  elVectors := c.elVectors
  elDegeneracies := elDegeneracies
  phVectors := c.phVectors
  phDegeneracies := phDegeneracies

/-! ## The transform when each process reads some of the files -/

/-- The contribution of one wavevector q to `gWannierTmp`, src/apps/qe_to_phoebe_wannier.cpp L196-363: as above, but one
process does all of it. -/
noncomputable def localRotated (c : CoarseData K Q E P M W B) (threads : K → Q → List (GaugeThread M W B)) (i j : Fin W)
    (mu : Fin M) (irE : Fin E) (q : Q) : ℂ :=
  ((List.finRange M).map fun nu2 =>
    (c.ks.map fun k => coarseGauge c threads i j nu2 k q * coarseElPhase c k irE).sum * (c.phEig q)⁻¹ nu2 mu).sum

/-- `ElPhQeToPhoebeApp::BlochToWannierEfficient`, src/apps/qe_to_phoebe_wannier.cpp L14-440, on process `rank`: the files
`stars` list the wavevectors of each star; `localElIndices[0]` (L68) is undefined behaviour when the process has no
lattice vectors; in each loop the processes add what they got from their file of that loop, in chunks (L379-432).
Result: `gWannierPara` at the local index of a lattice vector. -/
noncomputable def blochToWannierEfficient (c : CoarseData K Q E P M W B) (threads : K → Q → List (GaugeThread M W B))
    (stars : List (List Q)) (size rank fuel : Nat) :
    Outcome (Fin W → Fin W → Fin M → Fin P → Nat → ℂ) :=
  if stars.length < size then .error
  else do
    let localEl ← divideWorkIter E rank size
    match localEl with
    | [] => .ub
    | offset :: _ =>
      let files ← mapOutcome (fun r => divideWorkIter stars.length r size) (List.range size)
      let loopSize := (files.map List.length).foldl max 0
      let chunks ← splitVector fuel (List.range E) (E / size)
      .ok fun i j nu irP irELocal =>
        ((List.range loopSize).map fun iLoop => (chunks.map fun chunk => (chunk.map fun irE =>
          if irE ∈ localEl ∧ irE - offset = irELocal then
            (files.map fun mine => match mine[iLoop]? with
              | none => 0
              | some iqIrr => ((stars.getD iqIrr []).map fun q =>
                  coarsePhPhase c irP q * (if h : irE < E then localRotated c threads i j nu ⟨irE, h⟩ q else 0)).sum).sum
          else 0).sum).sum).sum

/-! ## Reading of the matrix elements, rotation matrices, offset of the bands -/

/-- `gFull`, src/apps/elph_qe_to_phoebe_app.cpp L248-261 (`gStar`, src/apps/qe_to_phoebe_wannier.cpp L112-130), from the
matrix elements between the bands of Quantum ESPRESSO: an array of `B` by `B` bands of which only the first `W` by `W`
are filled, the rest is zero. -/
def keepBands (W B offset : Nat) (gStar : Nat → Nat → Fin M → ℂ) (ib1 ib2 : Fin B) (nu : Fin M) : ℂ :=
  if (ib1 : Nat) < W ∧ (ib2 : Nat) < W then gStar (offset + ib1) (offset + ib2) nu else 0

/-- The product of the two rotation matrices at one wavevector, src/apps/qe_to_phoebe_wannier.cpp L911-917: `a` is read
from `_u_dis.mat`, `b` from `_u.mat`.  Without the first file the result is `b` (L851-855). -/
def rotationProduct (a : Fin B → Fin W → ℂ) (b : Fin W → Fin W → ℂ) (i : Fin B) (j : Fin W) : ℂ :=
  ((List.finRange W).map fun k => b k j * a i k).sum

/-- `difference(i)`, src/apps/qe_to_phoebe_wannier.cpp L968-976. -/
noncomputable def offsetDifference (full wannier : List ℝ) (i : Nat) : ℝ :=
  ((List.range wannier.length).map fun ib => (full.getD (ib + i) 0 - wannier.getD ib 0) ^ 2).sum

open Classical in
/-- `ElPhQeToPhoebeApp::computeOffset`, src/apps/qe_to_phoebe_wannier.cpp L922-996, from the energies at k = 0 of all the
bands and of those given to Wannier90.  A negative size of `difference` is an exception; the comparison of L981 is with
the smallest of the differences. -/
noncomputable def computeOffset (full wannier : List ℝ) : Outcome Nat :=
  if full.length < wannier.length then .error
  else
    let possibleValues := full.length - wannier.length
    if possibleValues = 0 then .ok 0
    else
      match (List.range possibleValues).find? fun i =>
        decide (∀ i' < possibleValues, offsetDifference full wannier i ≤ offsetDifference full wannier i') with
      | some i => .ok (i + 1)
      | none => .error

/-! ## Polar correction -/

/-- `v(ib1, ib2, nu)`, src/apps/qe_to_phoebe_wannier.cpp L160-178 (L508-521): `ev1` and `ev2` are the adjoints of the
rotation matrices (L173-174), then `getPolarCorrectionStatic` with long-range part `x`. -/
noncomputable def coarsePolar (uK uKq : Fin B → Fin W → ℂ) (x : Fin M → ℂ) (ib1 ib2 : Fin B) (nu : Fin M) : ℂ :=
  let ev1 : Fin W → Fin B → ℂ := fun w b => (starRingEnd ℂ) (uK b w)
  let ev2 : Fin W → Fin B → ℂ := fun w b => (starRingEnd ℂ) (uKq b w)
  x nu * ∑ iw, (starRingEnd ℂ) (ev2 iw ib2) * ev1 iw ib1

open Classical in
/-- The subtraction when each process reads some files, src/apps/qe_to_phoebe_wannier.cpp L132-191: `v(j, i, nu)`. -/
noncomputable def polarSubtractEfficient (c : CoarseData K Q E P M W B) (x : Q → Fin M → ℂ) : CoarseData K Q E P M W B :=
  { c with g := fun i j nu k q =>
      if 1.0e-8 < Real.sqrt (vdot (c.qCart q) (c.qCart q)) then
        c.g i j nu k q - coarsePolar (c.u k) (c.u (c.kPlusQ k q)) (x q) j i nu
      else c.g i j nu k q }

open Classical in
/-- The subtraction when all processes hold all the matrix elements, src/apps/qe_to_phoebe_wannier.cpp L464-531:
`v(i, j, nu)`.  The loop of L510 runs over `numBands` columns of matrices that have `numWannier`. -/
noncomputable def polarSubtractPlain (c : CoarseData K Q E P M W B) (x : Q → Fin M → ℂ) :
    Outcome (CoarseData K Q E P M W B) :=
  if W < B then .ub
  else .ok { c with
    g := fun i j nu k q =>
      if 1.0e-8 < Real.sqrt (vdot (c.qCart q) (c.qCart q)) then
        c.g i j nu k q - coarsePolar (c.u k) (c.u (c.kPlusQ k q)) (x q) i j nu
      else c.g i j nu k q }

end Verif.Model
