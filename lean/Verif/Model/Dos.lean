import Verif.Model.EpaRates
import Verif.Model.Points
import Verif.Model.Delta
import Verif.Model.Mpi
import Verif.Model.Times

/-!
# src/apps/dos_app.cpp and the density of states of src/delta_function.cpp

Floating-point numbers are modelled as real numbers, and coordinates of wavevectors as rational numbers.
-/
namespace Verif.Model

/-- The index of corner `c` of the sub-cell of point `ik`, src/delta_function.cpp L181-197; `Points::getIndex` is on the full
mesh (the application never removes points). -/
def tetraCorner (mesh : V3 Int) (ik : Nat) (c : Nat) : Outcome Nat :=
  if c = 0 then .ok ik
  else
    let k := meshCoordinates mesh ⟨0, 0, 0⟩ ik
    let s := subCellShift.getD c (0, 0, 0)
    let i := isPointStoredMesh mesh ⟨0, 0, 0⟩ ⟨k.x + (s.1 : Rat) * (1 / mesh.x), k.y + (s.2.1 : Rat) * (1 / mesh.y),
      k.z + (s.2.2 : Rat) * (1 / mesh.z)⟩
    if i = -1 then .error else .ok i.toNat

/-- `TetrahedronDeltaFunction::getSmearing`, src/delta_function.cpp L171-270, at band `ib` of point `ik`; `energy` is
`getEnergy`, by point and band. -/
noncomputable def tetraStateSmearing (mesh : V3 Int) (energy : Nat → Nat → Outcome ℝ) (ik ib : Nat) (e : ℝ) : Outcome ℝ := do
  let es ← mapOutcome (fun c => do
    let i ← tetraCorner mesh ik c
    energy i ib) (List.range 8)
  .ok (tetraSmearing (fun c => es.getD c 0) e)

/-- `TetrahedronDeltaFunction::getDOS`, src/delta_function.cpp L157-168.  `irr` are the irreducible points, `mult` the
number of rotations of their star; the iterator goes over the bands of these points. -/
noncomputable def tetraDosFrom (mesh : V3 Int) (numBands : Nat) (energy : Nat → Nat → Outcome ℝ) (irr : List Nat)
    (mult : Nat → Outcome Nat) (e : ℝ) : Outcome ℝ := do
  let ws ← mapOutcome (fun s : Nat × Nat => do
    let m ← mult s.1
    let w ← tetraStateSmearing mesh energy s.1 s.2 e
    .ok (w * (m : ℝ))) (irr.flatMap fun ik => (List.range numBands).map fun ib => (ik, ib))
  .ok (ws.sum / ((mesh.x * mesh.y * mesh.z : Int) : ℝ))

/-- The same when all energies and numbers of rotations can be read. -/
noncomputable def tetraDos (mesh : V3 Int) (numBands : Nat) (energy : Nat → Nat → ℝ) (irr : List Nat) (mult : Nat → Nat)
    (e : ℝ) : Outcome ℝ :=
  tetraDosFrom mesh numBands (fun k b => .ok (energy k b)) irr (fun k => .ok (mult k)) e

/-- `numEnergies`, src/apps/dos_app.cpp L137: undefined when the quotient does not fit.  A negative number is refused, when
the vector of energies is allocated (L147). -/
noncomputable def dosNumEnergies (minEnergy maxEnergy delta : ℝ) : Outcome Nat :=
  if delta = 0 then .ub
  else
    let n := truncInt ((maxEnergy - minEnergy) / delta)
    if n < intMin ∨ intMax ≤ n then .ub
    else if n + 1 < 0 then .error
    else .ok (n + 1).toNat

/-- `calcDOS`, src/apps/dos_app.cpp L127-171, on `size` processes: what the head gathers.  Every process works on the
energies between those of `divideWork` (L140-144), each thread on its own elements; `dos` is `getDOS` on each process. -/
noncomputable def calcDos (dos : Nat → ℝ → Outcome ℝ) (minEnergy maxEnergy delta : ℝ) (size : Nat) :
    Outcome (List ℝ × List ℝ) := do
  let n ← dosNumEnergies minEnergy maxEnergy delta
  let energies ← mapOutcome (fun r => do
    let w ← divideWorkIter n r size
    .ok (w.map fun i : Nat => (i : ℝ) * delta + minEnergy)) (List.range size)
  let doses ← mapOutcome (fun r => do
    let es ← readAt energies r
    mapOutcome (dos r) es) (List.range size)
  let eneTotal ← allGatherv energies (List.replicate n 0)
  let dosTotal ← allGatherv doses (List.replicate n 0)
  .ok (eneTotal, dosTotal)

/-- `outputDOSToJSON`, src/apps/dos_app.cpp L176-201: the two lists of the file, in eV for electrons and meV for phonons. -/
noncomputable def dosOutput (k : TimeConstants) (isPhonon : Bool) (t : List ℝ × List ℝ) : List ℝ × List ℝ :=
  let conversion := if isPhonon then energyRyToEvOf k * 1000 else energyRyToEvOf k
  (t.1.map (· * conversion), t.2.map (· / conversion))

end Verif.Model
