import Verif.Model.ActiveBuild
import Verif.Model.Utilities

/-!
# Values stored in an active band structure: src/bands/active_bandstructure.cpp

The three ways of filling the arrays `energies`, `eigenvectors` and `velocities`: the constructor that
diagonalises batches of points (L50-190), `buildOnTheFly` (L687-760) and `buildAsPostprocessing` (L978-1070), and
the functions that read them (L247-344).  Indices are natural numbers, as in `ActiveLayout`.
-/
namespace Verif.Model

/-- The Hamiltonian as seen by the band structure (external code): for the coordinates of a wavevector the
energies (`diagonalize`), the matrix of eigenvectors (row, column) and the velocity operator (band, band,
component; `diagonalizeVelocity`). -/
structure HamView (κ α γ : Type) where
  energy : κ → Nat → α
  vector : κ → Nat → Nat → γ
  velocity : κ → Nat → Nat → Nat → γ

/-- Element assignments of `setEnergies` at the active point `ik`, src/bands/active_bandstructure.cpp L356-363. -/
def ActiveLayout.energyAt {α : Type} (B : ActiveLayout) (ik : Nat) (e : Nat → α) : List (Nat × α) :=
  (List.range (B.numBands ik)).map fun ib => (B.bloch2Comb ik ib, e ib)

/-- Element assignments of `setEigenvectors` at the active point `ik`, L374-383. -/
def ActiveLayout.vectorAt {γ : Type} (B : ActiveLayout) (ik : Nat) (u : Nat → Nat → γ) : List (Nat × γ) :=
  (List.range B.numFullBands).flatMap fun i => (List.range (B.numBands ik)).map fun j =>
    (B.eigBloch2Comb ik i j, u i j)

/-- Element assignments of `setVelocities` at the active point `ik`, L385-396. -/
def ActiveLayout.velocityAt {γ : Type} (B : ActiveLayout) (ik : Nat) (v : Nat → Nat → Nat → γ) : List (Nat × γ) :=
  (List.range (B.numBands ik)).flatMap fun ib1 => (List.range (B.numBands ik)).flatMap fun ib2 =>
    (List.range 3).map fun j => (B.velBloch2Comb ik ib1 ib2 j, v ib1 ib2 j)

/-! ## Batches -/

/-- The loop `for (start = 0; start < n; start += size)` with `stop = min(n, start + size)`,
src/bands/active_bandstructure.cpp L97-98 and L154-155.  A batch size of zero would never end. -/
def batchBounds (n size start : Nat) : Outcome (List (Nat × Nat)) :=
  if h : start < n then
    if hs : size = 0 then .diverge
    else do
      let rest ← batchBounds n size (start + size)
      .ok ((start, min n (start + size)) :: rest)
  else .ok []
  termination_by n - start

/-- One batch, L98-140 (L155-180): the coordinates of the points `start .. stop-1` of the list `iks` of the
process are passed to the Hamiltonian (`Kokkos::subview` of `qs`, filled at L78-89), which returns one result per
coordinate (external); result `iik` is stored at the point `iks[start + iik]`. -/
def batchStore {κ δ : Type} (coords : Nat → κ) (store : Nat → κ → List (Nat × δ)) (iks : List Nat)
    (b : Nat × Nat) : Outcome (List (Nat × δ)) := do
  let qs := ((iks.map coords).drop b.1).take (b.2 - b.1)
  let l ← mapOutcome (fun iik => do
      let ik ← readAt iks (b.1 + iik)
      let q ← readAt qs iik
      .ok (store ik q)) (List.range (b.2 - b.1))
  .ok l.flatten

/-- All the assignments of a process of the constructor, L91-140 (energies, eigenvectors) and L145-182
(velocities). -/
def batchedStore {κ δ : Type} (size : Nat) (coords : Nat → κ) (store : Nat → κ → List (Nat × δ))
    (iks : List Nat) : Outcome (List (Nat × δ)) := do
  let bs ← batchBounds iks.length size 0
  let l ← mapOutcome (batchStore coords store iks) bs
  .ok l.flatten

/-! ## As postprocessing -/

/-- `numPoints` and `numBands(ik)` from the lists of active points, first bands and last bands,
src/bands/active_bandstructure.cpp L655-664 (L943-957).  Simplification: natural numbers, so the first band must
not be larger than the last. -/
def activeLayoutOf (numFullBands : Nat) (f : List Nat × List Nat × List Nat) : ActiveLayout :=
  ⟨f.1.length, fun ik => f.2.2.getD ik 0 - f.2.1.getD ik 0 + 1, numFullBands⟩

/-- The loop over the points found by the process, src/bands/active_bandstructure.cpp L978-1024 (L1038-1068 for
the velocities): `mine` are the indices of these points in the full list, `store ika ik` are the assignments
made at the active point `ika` with the data of the point `ik` of the full list. -/
def postStore {δ : Type} (disp : Nat) (mine : List Nat) (store : Nat → Nat → List (Nat × δ)) : List (Nat × δ) :=
  (List.range mine.length).flatMap fun i => store (i + disp) (mine.getD i 0)

/-! ## Reduction and access -/

/-- Each of the `size` processes performs its assignments on a zeroed array of length `n`; then the arrays are
summed with `allReduceSum`, src/bands/active_bandstructure.cpp L183-185, L751-753, L1026-1028, L1069. -/
def reduceStore {α : Type} [Add α] [Zero α] (size n : Nat) (ws : Nat → List (Nat × α)) : Outcome (List (List α)) := do
  let bufs ← mapOutcome (fun r => writeAll (ws r) (List.replicate n 0)) (List.range size)
  .ok ((allReduceSum1 (bufs.map fun b => fun i => b.getD i 0)).map fun o => (List.range n).map o)

/-- The arrays of a process. -/
structure ActiveArrays (α γ : Type) where
  energies : List α
  velocities : List γ
  eigenvectors : List γ

/-- `getGroupVelocities(ik)`, src/bands/active_bandstructure.cpp L287-297; `re` is the real part. -/
def ActiveLayout.getGroupVelocities {α γ : Type} (B : ActiveLayout) (re : γ → α) (vel : List γ) (ik : Nat) :
    Outcome (List (List α)) :=
  mapOutcome (fun ib => mapOutcome (fun i => do
    let v ← readAt vel (B.velBloch2Comb ik ib ib i)
    .ok (re v)) (List.range 3)) (List.range (B.numBands ik))

/-- First part of `buildSymmetries`, L450-457: the group velocities of all points. -/
def ActiveLayout.allGroupVelocities {α γ : Type} (B : ActiveLayout) (re : γ → α) (vel : List γ) :
    Outcome (List (List (List α))) :=
  mapOutcome (B.getGroupVelocities re vel) (List.range B.numPoints)

/-- The end of the constructor (`sym = false`, L183-187) or of the two building functions (`sym = true`,
L751-757, L1026-1072): the arrays, resized only if the corresponding quantity is wanted (L66-68, L675-682,
L963-971), are summed over the processes; the building functions then call `buildSymmetries`. -/
def activeArrays {α γ : Type} [Add α] [Zero α] [Add γ] [Zero γ] (B : ActiveLayout) (re : γ → α) (size : Nat)
    (sym withVec withVel : Bool) (we : Nat → List (Nat × α)) (wu wv : Nat → List (Nat × γ)) :
    Outcome (List (ActiveArrays α γ)) := do
  let e ← reduceStore size B.numStates we
  let v ← reduceStore size (if withVel then B.numVelStates else 0) (fun r => if withVel then wv r else [])
  let u ← reduceStore size (if withVec then B.numEigStates else 0) (fun r => if withVec then wu r else [])
  let _ ← (if sym then mapOutcome (fun r => B.allGroupVelocities re (v.getD r [])) (List.range size) else .ok [])
  .ok ((List.range size).map fun r => ⟨e.getD r [], v.getD r [], u.getD r []⟩)

/-- `getEnergy`, src/bands/active_bandstructure.cpp L247-253. -/
def ActiveArrays.getEnergy {α γ : Type} (A : ActiveArrays α γ) (is : Nat) : Outcome α :=
  if A.energies.isEmpty then .error else readAt A.energies is

/-- `getGroupVelocity`, src/bands/active_bandstructure.cpp L273-285. -/
def ActiveArrays.getGroupVelocity {α γ : Type} (A : ActiveArrays α γ) (B : ActiveLayout) (re : γ → α) (is : Nat) :
    Outcome (List α) :=
  if A.velocities.isEmpty then .error
  else do
    let p ← B.comb2Bloch is
    mapOutcome (fun i => do
      let v ← readAt A.velocities (B.velBloch2Comb p.1 p.2 p.2 i)
      .ok (re v)) (List.range 3)

/-- Element `(ic, iat, ib)` of `getPhEigenvectors(ik)`, src/bands/active_bandstructure.cpp L329-344: the last
row `i` of the matrix of eigenvectors which `decompress2Indices` maps to `(iat, ic)`; `none` if there is none
(the element is then not initialised). -/
def ActiveArrays.getPhEigenvector {α γ : Type} (A : ActiveArrays α γ) (B : ActiveLayout) (ik ic iat ib : Nat) :
    Outcome (Option γ) := do
  let rows ← mapOutcome (fun i : Nat => do
    let t ← decompress2Indices (i : Int) ((B.numFullBands / 3 : Nat) : Int) 3
    let u ← B.getEigenvector A.eigenvectors ik i ib
    .ok (t, u)) (List.range B.numFullBands)
  .ok ((rows.reverse.find? fun x => x.1 = ((iat : Int), (ic : Int))).map (·.2))

end Verif.Model
