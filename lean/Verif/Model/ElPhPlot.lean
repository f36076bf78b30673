import Verif.Model.ElPhWrite
import Verif.Model.Bands
import Verif.Model.Crystal

/-!
# src/apps/elph_plot_app.cpp: the squared electron-phonon coupling of selected wavevectors and bands

Wavevectors are elements of a type `P` with addition; `g k k' q b b' m` is the squared coupling computed for the electrons
`k, b` and `k', b'` and the phonon `q, m` (L174-210: eigenvectors at the three wavevectors, polar correction,
`calcCouplingSquared`).  Files, eigenvectors and what is printed are not modelled.
-/
namespace Verif.Model

/-- The input of the app: `couplingPlotStyle`, `couplingMeshStyle`, `kMesh`, `qMesh`, the points of a mesh and of the path
(src/points.cpp), `couplingPlotFixedPoint` (Cartesian) and the ranges of bands. -/
structure PlotInput (P : Type) where
  style : String
  meshStyle : String
  kMesh : Int × Int × Int
  qMesh : Int × Int × Int
  meshPoints : Int × Int × Int → Outcome (List P)
  pathPoints : Outcome (List P)
  fixed : P
  el1 : Int × Int
  el2 : Int × Int
  ph : Int × Int

/-- What `throwErrorIfUnset` finds set. -/
structure PlotSet where
  electronH0 : Bool
  phFC2 : Bool
  pathExtrema : Bool
  kMesh : Bool
  elphFile : Bool

/-- `ElPhCouplingPlotApp::checkRequirements`, src/apps/elph_plot_app.cpp L392-401: the test of L395 is on
`couplingPlotStyle`. -/
def plotCheck {P : Type} (inp : PlotInput P) (s : PlotSet) : Outcome Unit :=
  if s.electronH0 = false ∨ s.phFC2 = false then .error
  else if (if inp.style = "pointsPath" then s.pathExtrema else s.kMesh) = false then .error
  else if s.elphFile = false then .error
  else .ok ()

/-- The mesh, src/apps/elph_plot_app.cpp L38-50. -/
def plotMesh {P : Type} (inp : PlotInput P) : Outcome (Int × Int × Int) :=
  if inp.style = "qFixed" then .ok inp.kMesh
  else if inp.style = "kFixed" then .ok inp.qMesh
  else if inp.style = "allToAll" then (if inp.kMesh ≠ inp.qMesh then .error else .ok inp.kMesh)
  else .error

/-- The points, src/apps/elph_plot_app.cpp L54-61. -/
def plotPoints {P : Type} (inp : PlotInput P) (mesh : Int × Int × Int) : Outcome (List P) :=
  if inp.meshStyle = "pointsPath" then inp.pathPoints else inp.meshPoints mesh

/-- The pairs of wavevectors, src/apps/elph_plot_app.cpp L63-90. -/
def plotPairs {P : Type} (inp : PlotInput P) (pts : List P) : List (P × P) :=
  pts.flatMap fun p =>
    if inp.style = "qFixed" then [(p, inp.fixed)]
    else if inp.style = "kFixed" then [(inp.fixed, p)]
    else pts.map fun q => (p, q)

/-- Upper end of a range of bands, src/apps/elph_plot_app.cpp L108-118. -/
def plotUpper (numBands second : Int) : Int :=
  if second ≤ 0 ∨ numBands ≤ second then numBands - 1 else second

/-- Lower end, src/apps/elph_plot_app.cpp L126-128. -/
def plotLower (first : Int) : Int := if first < 0 then 0 else first

/-- Range of bands used, both ends included. -/
def plotRange (numBands : Int) (r : Int × Int) : Int × Int := (plotLower r.1, plotUpper numBands r.2)

/-- The three ranges, src/apps/elph_plot_app.cpp L92-134, for `nb` electron bands and `nm` phonon modes. -/
def plotRanges {P : Type} (inp : PlotInput P) (nb nm : Nat) : Outcome ((Int × Int) × (Int × Int) × (Int × Int)) :=
  let r1 := plotRange nb inp.el1
  let r2 := plotRange nb inp.el2
  let r3 := plotRange nm inp.ph
  if r3.2 < r3.1 ∨ r1.2 < r1.1 ∨ r2.2 < r2.1 then .error else .ok (r1, r2, r3)

/-- The indices from `r.1` to `r.2`. -/
def rangeOf (r : Int × Int) : List Int := (List.range (r.2 - r.1 + 1).toNat).map fun (i : Nat) => r.1 + (i : Int)

/-- `coupling(ib1, ib2, ib3)`: outside of the tensor undefined (assertions of Eigen are off). -/
def couplingAt {α : Type} (c : Nat → Nat → Nat → α) (nb nm : Nat) (i j k : Int) : Outcome α :=
  if 0 ≤ i ∧ i < nb ∧ 0 ≤ j ∧ j < nb ∧ 0 ≤ k ∧ k < nm then .ok (c i.toNat j.toNat k.toNat) else .ub

/-- What is appended to `allGs` for one pair, src/apps/elph_plot_app.cpp L212-223. -/
def plotValues {α : Type} (c : Nat → Nat → Nat → α) (nb nm : Nat) (r1 r2 r3 : Int × Int) : Outcome (List α) :=
  mapOutcome (fun t : Int × Int × Int => couplingAt c nb nm t.1 t.2.1 t.2.2)
    ((rangeOf r1).flatMap fun i => (rangeOf r2).flatMap fun j => (rangeOf r3).map fun k => (i, j, k))

/-- `allGs` of one process, whose share of the pairs is `w`, src/apps/elph_plot_app.cpp L167-224. -/
def plotShare {α P : Type} [Add P] (g : P → P → P → Nat → Nat → Nat → α) (nb nm : Nat) (r1 r2 r3 : Int × Int)
    (pairs : List (P × P)) (w : List Nat) : Outcome (List α) := do
  let vs ← mapOutcome (fun i => do
    let p ← readAt pairs i
    plotValues (g p.1 (p.1 + p.2) p.2) nb nm r1 r2 r3) w
  .ok vs.flatten

/-- `bandProd`, src/apps/elph_plot_app.cpp L236-239: a product of `int`. -/
def plotBandProd (r1 r2 r3 : Int × Int) : Outcome Nat :=
  let n := (r1.2 - r1.1 + 1) * (r2.2 - r2.1 + 1) * (r3.2 - r3.1 + 1)
  if 0 ≤ n ∧ n < 2147483648 then .ok n.toNat else .ub

/-- `int numPairs = pointsPairs.size()`, src/apps/elph_plot_app.cpp L146.  A negative number becomes about 2^64 tasks, which can
not be listed (`bad_alloc`). -/
def plotNumPairs {β : Type} (pairs : List β) : Outcome Nat :=
  let n := toInt32 pairs.length
  if n < 0 then .error else .ok n.toNat

/-- Calls of `cacheElPh` by a process, src/apps/elph_plot_app.cpp L149-161 and L208: one for each pair of its share, and one
before if its share is not the largest (`max`, reduced over all processes).  The processes of a pool wait for each other
in each call. -/
def plotCacheCalls (numPairs size rank : Nat) : Outcome Nat := do
  let shares ← mapOutcome (fun r => divideWorkIter numPairs r size) (List.range size)
  let mine ← readAt shares rank
  let max := (shares.map List.length).foldl Nat.max 0
  .ok (mine.length + if mine.length < max then 1 else 0)

/-- What the app has computed before writing. -/
structure PlotJob (P : Type) where
  pairs : List (P × P)
  numPairs : Nat
  bandProd : Nat
  r1 : Int × Int
  r2 : Int × Int
  r3 : Int × Int

/-- src/apps/elph_plot_app.cpp L38-147 and L236-239. -/
def plotSetup {P : Type} (inp : PlotInput P) (nb nm : Nat) : Outcome (PlotJob P) := do
  let mesh ← plotMesh inp
  let pts ← plotPoints inp mesh
  let pairs := plotPairs inp pts
  let rs ← plotRanges inp nb nm
  let n ← plotNumPairs pairs
  let bp ← plotBandProd rs.1 rs.2.1 rs.2.2
  .ok ⟨pairs, n, bp, rs.1, rs.2.1, rs.2.2⟩

/-- What one process writes with parallel HDF5, src/apps/elph_plot_app.cpp L259-313.  Each bunch is written from the beginning
of `allGs` (L312).  The first and last pair of the share are read without testing that there are any (L263, L280).
Simplification: `netOffset` (an `int`, L298) does not wrap around. -/
def plotWriteProcess {α P : Type} [Add P] (g : P → P → P → Nat → Nat → Nat → α) (nb nm : Nat) (job : PlotJob P)
    (size rank : Nat) : Outcome (List (Nat × List α)) := do
  let w ← divideWorkIter job.numPairs rank size
  let allGs ← plotShare g nb nm job.r1 job.r2 job.r3 job.pairs w
  match w.head?, w.getLast? with
  | some first, some last =>
    writeBunches allGs true (first * job.bandProd)
      ((bunchLoop job.bandProd (1000000000 / 8) (last + 1 - first) 0).map fun n => n * job.bandProd) 0
  | _, _ => .ub

/-- The file with parallel HDF5, src/apps/elph_plot_app.cpp L244-315: the number of elements of the dataset (`unsigned int`,
L252) and what the processes write into it. -/
def plotParallel {α P : Type} [Add P] (g : P → P → P → Nat → Nat → Nat → α) (nb nm : Nat) (job : PlotJob P) (size : Nat) :
    Outcome (Nat × List (Nat × List α)) := do
  let ws ← mapOutcome (plotWriteProcess g nb nm job size) (List.range size)
  .ok (job.numPairs * job.bandProd % 4294967296, ws.flatten)

/-- The dataset with HDF5 without MPI, src/apps/elph_plot_app.cpp L316-337: `allGatherv(&collectedGs, &allGs)` sends
`collectedGs`, zeros on the head and nothing on the others, and receives into `allGs`; `collectedGs` is written. -/
def plotSerial {α P : Type} [Zero α] [Add P] (g : P → P → P → Nat → Nat → Nat → α) (nb nm : Nat) (job : PlotJob P)
    (size : Nat) : Outcome (List α) := do
  let shares ← mapOutcome (fun rank => do
    let w ← divideWorkIter job.numPairs rank size
    plotShare g nb nm job.r1 job.r2 job.r3 job.pairs w) (List.range size)
  let globalSize := job.numPairs * job.bandProd % 4294967296
  if 1000000000 / 8 < globalSize then .error
  else do
    let collected := List.replicate globalSize (0 : α)
    let _ ← mapOutcome (fun allGs => allGatherv (collected :: List.replicate (size - 1) []) allGs) shares
    .ok collected

/-- What the head process adds to the file: `/pointsPairs`, six numbers for each pair, `/elBandRange1`, `/elBandRange2` and
`/phModeRange`. -/
structure PlotLabels where
  pointsPairs : List (Fin 6 → ℝ)
  elBandRange1 : List Int
  elBandRange2 : List Int
  phModeRange : List Int

/-- src/apps/elph_plot_app.cpp L341-377, with src/points.cpp L461-464.  The file is opened again after the data set of the
couplings has been closed.  Not modelled: exceptions of HDF5. -/
noncomputable def plotLabels (cell : Cell) (job : PlotJob Vec3) : PlotLabels where
  pointsPairs := job.pairs.map fun p => fun (i : Fin 6) =>
    if h : i.val < 3 then cell.cartesianToCrystal p.1 ⟨i.val, h⟩ else cell.cartesianToCrystal p.2 ⟨i.val - 3, by omega⟩
  elBandRange1 := [job.r1.1, job.r1.2]
  elBandRange2 := [job.r2.1, job.r2.2]
  phModeRange := [job.r3.1, job.r3.2]

end Verif.Model
