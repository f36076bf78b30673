import Verif.Model.Bands
import Verif.Model.Mpi
import Mathlib.Logic.Relation

/-!
# Selection of the active states: src/bands/active_bandstructure.cpp, `buildOnTheFly` and `buildAsPostprocessing`

`sel ik` stands for diagonalisation at the point followed by `Window::apply`: `none` if no energy passes the
window, otherwise the extrema of the bands (L558-580, L845-868).  The diagonalisation is external code.
-/
namespace Verif.Model

/-- One iteration of the scan loop, src/bands/active_bandstructure.cpp L558-580 (L829-868 as postprocessing). -/
def scanOne {β : Type} (sel : Nat → Option β) (found : List (Nat × β)) (ik : Nat) : List (Nat × β) :=
  match sel ik with
  | none => found
  | some ext => found ++ [(ik, ext)]

/-- Private data of an OpenMP thread of the region L552-599: points still to be scanned and results found. -/
structure ScanThread (β : Type) where
  todo : List Nat
  found : List (Nat × β)

/-- State of the parallel region: threads, next iteration allowed to enter the `ordered` section, and the
shared vectors `myFilteredPoints`/`myFilteredBands` (zipped). -/
structure ScanState (β : Type) where
  threads : List (ScanThread β)
  next : Nat
  merged : List (Nat × β)

/-- A step of some thread: scan one more point of its chunk (L558-580; `nowait`, so threads are not
synchronised), or, once its chunk is finished, perform its iteration of the merge loop (L586-598; with
`schedule(static)` and as many iterations as threads, thread `i` performs iteration `i`; `ordered` lets it in
only after iterations `0 .. i-1`). -/
inductive ScanStep {β : Type} (sel : Nat → Option β) : ScanState β → ScanState β → Prop where
  | scan (s : ScanState β) (i ik : Nat) (rest : List Nat) (found : List (Nat × β))
      (h : s.threads[i]? = some ⟨ik :: rest, found⟩) :
      ScanStep sel s { s with threads := s.threads.set i ⟨rest, scanOne sel found ik⟩ }
  | merge (s : ScanState β) (found : List (Nat × β)) (h : s.threads[s.next]? = some ⟨[], found⟩) :
      ScanStep sel s { s with next := s.next + 1, merged := s.merged ++ found }

/-- Start of the region: thread `i` gets the consecutive chunk `chunks[i]` of the points of the process
(`schedule(static)`). -/
def scanStart {β : Type} (chunks : List (List Nat)) : ScanState β := ⟨chunks.map fun c => ⟨c, []⟩, 0, []⟩

/-- `merged` is a possible content of the shared vectors at the end of the region. -/
def ScanRun {β : Type} (sel : Nat → Option β) (chunks : List (List Nat)) (merged : List (Nat × β)) : Prop :=
  ∃ s, Relation.ReflTransGen (ScanStep sel) (scanStart chunks) s ∧ s.next = s.threads.length ∧ s.merged = merged

/-- Displacements, src/bands/active_bandstructure.cpp L626-629. -/
def displacement (receiveCounts : List Nat) : Nat → Nat
  | 0 => 0
  | i + 1 => displacement receiveCounts i + receiveCounts.getD i 0

/-- The values `mine[r]` of every process `r` placed at its displacement in a zeroed array and summed over the
processes, src/bands/active_bandstructure.cpp L615-650 (L902-938); `receiveCounts` are the numbers of values of
the processes.  The result is the array seen by each process. -/
def collectWith (receiveCounts : List Nat) (mine : List (List Nat)) : Outcome (List (List Nat)) := do
  let numPoints := receiveCounts.foldl (· + ·) 0
  let bufs ← mapOutcome (fun r =>
      let l := mine.getD r []
      writeAll ((List.range l.length).map fun i => (i + displacement receiveCounts r, l.getD i 0))
        (List.replicate numPoints 0))
    (List.range mine.length)
  .ok ((allReduceSum1 (bufs.map fun b => fun i => b.getD i 0)).map fun o => (List.range numPoints).map o)

/-- The reduced array `filter` (or a column of `filteredBands`) seen by all processes,
src/bands/active_bandstructure.cpp L609-650 (L896-938): `mine[r]` are the values found by process `r`. -/
def collectArray (mine : List (List Nat)) : Outcome (List (List Nat)) := do
  let receiveCounts ← allGatherv (mine.map fun l => [l.length]) (List.replicate mine.length 0)
  collectWith receiveCounts mine

/-- The list of active points and the first and last band of each, seen by each process. -/
def collectActive (mine : List (List (Nat × (Nat × Nat)))) : Outcome (List (List Nat × List Nat × List Nat)) := do
  let filter ← collectArray (mine.map fun l => l.map (·.1))
  let first ← collectArray (mine.map fun l => l.map (·.2.1))
  let last ← collectArray (mine.map fun l => l.map (·.2.2))
  .ok (filter.zip (first.zip last))

/-- The element assignments made by a process that stores the energies of the active points `iks`,
src/bands/active_bandstructure.cpp L693-713 (L986-1018), through `setEnergies` L356-372: `en k b` is the energy of
band `b` at the active point `k`, `first k` its first kept band. -/
def energyWrites {α : Type} (B : ActiveLayout) (first : Nat → Nat) (en : Nat → Nat → α) (iks : List Nat) :
    List (Nat × α) :=
  iks.flatMap fun ik => (List.range (B.numBands ik)).map fun ib => (B.bloch2Comb ik ib, en ik (first ik + ib))

end Verif.Model
