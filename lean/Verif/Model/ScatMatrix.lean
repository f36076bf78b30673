import Verif.Model.Pairs
import Verif.Model.Matrix
import Verif.Model.Degeneracy
import Mathlib.Analysis.SpecialFunctions.Sqrt

/-!
# src/bte/scattering.cpp, ph_scattering.cpp, el_scattering.cpp: the scattering matrix and its products

The loops of the phonon and of the electron builder over wavevectors and bands end in the same updates, with different
rates.  One pass through these updates is a `ScatEvent`; the lists of events of each process are parameters (the
wavevector pairs of a process are modelled in `Verif.Model.Pairs`, the rates in `Verif.Model.PhRates`).  Only one
calculation (temperature and chemical potential) is followed: the loops over calculations repeat the same updates on
separate rows.  Events with an excluded state are skipped before the updates (src/bte/ph_scattering.cpp L313-326), so
they are not in the lists.
-/
namespace Verif.Model

/-- One process contributing to the scattering of state 1 by state 2: BTE indices of state 1 and of the irreducible
state equivalent to state 2, state indices `is1` and `is2Irr`, `rotation.inverse()`, the diagonal rate and the
off-diagonal rate.  Phonons: `0.5 * ratePlus` and `ratePlus` (src/bte/ph_scattering.cpp L377-432),
`0.5 * (rateMinus1 + rateMinus2)` and its opposite doubled (L512-574), `rateIso` and `-rateIso` (L704-769);
electrons: `rate` and `rateOffDiagonal` (src/bte/el_scattering.cpp L313-380). -/
structure ScatEvent (α : Type) where
  bte1 : Nat
  bte2 : Nat
  is1 : Nat
  is2Irr : Nat
  rotInv : Nat → Nat → α
  rate : α
  rateOff : α

/-- `x(b) += v`. -/
def addAt {α : Type} [Add α] (f : Nat → α) (b : Nat) (v : α) : Nat → α := fun b' => if b' = b then f b' + v else f b'

/-- The pairs `(i, j)` of the loops over Cartesian components. -/
def cart9 : List (Nat × Nat) := [(0, 0), (0, 1), (0, 2), (1, 0), (1, 1), (1, 2), (2, 0), (2, 1), (2, 2)]

/-- Matrix construction, one event on process `(pr, pc)`: src/bte/ph_scattering.cpp L382-409, L520-544, L716-742 and
src/bte/el_scattering.cpp L332-355.  The state is the distributed matrix and the linewidths of this process. -/
def matrixEvent {α : Type} [Zero α] [Add α] [Mul α] (sym : Bool) (n : Nat) (L : Layout) (pr pc : Nat)
    (e : ScatEvent α) (s : DistData α × (Nat → α)) : Outcome (DistData α × (Nat → α)) :=
  if sym then
    foldOutcome (fun (ij : Nat × Nat) (s : DistData α × (Nat → α)) => do
      let iMat1 ← smatIndex true n e.bte1 ij.1
      let iMat2 ← smatIndex true n e.bte2 ij.2
      if L.global2Local pr pc iMat1 iMat2 ≠ -1 then
        .ok (if e.is1 ≠ e.is2Irr then L.addTo s.1 pr pc iMat1 iMat2 (e.rotInv ij.1 ij.2 * e.rateOff) else s.1,
          if ij.1 = 0 ∧ ij.2 = 0 then addAt s.2 e.bte1 e.rate else s.2)
      else .ok s) cart9 s
  else
    .ok (L.addTo s.1 pr pc e.bte1 e.bte2 e.rateOff,
      if L.global2Local pr pc e.bte1 e.bte2 ≠ -1 then addAt s.2 e.bte1 e.rate else s.2)

/-- All the events of one process; the linewidths start from zero. -/
def matrixProcess {α : Type} [Zero α] [Add α] [Mul α] (sym : Bool) (n : Nat) (L : Layout) (p : Nat × Nat)
    (events : List (ScatEvent α)) (m : DistData α) : Outcome (DistData α × (Nat → α)) :=
  foldOutcome (matrixEvent sym n L p.1 p.2) events (m, fun _ => 0)

/-- The loops of all processes: the matrix (each process writes to its own part) and the linewidths of each process
before the reduction. -/
def matrixLoops {α : Type} [Zero α] [Add α] [Mul α] (sym : Bool) (n : Nat) (L : Layout)
    (events : Nat × Nat → List (ScatEvent α)) : List (Nat × Nat) → DistData α → Outcome (DistData α × List (Nat → α))
  | [], m => .ok (m, [])
  | p :: ps, m => do
    let s ← matrixProcess sym n L p (events p) m
    let r ← matrixLoops sym n L events ps s.1
    .ok (r.1, s.2 :: r.2)

/-- Boundary scattering and excluded states in the linewidths, src/bte/ph_scattering.cpp L820-847, L865-890 and
src/bte/el_scattering.cpp L409-431; `boundary` is zero without boundary scattering. -/
def finishLinewidth {α : Type} [Zero α] [Add α] (ex : List Nat) (boundary : Nat → α) (lw : Nat → α) : Nat → α :=
  fun b => if b ∈ ex then 0 else lw b + boundary b

/-- Zero elements between excluded states, src/bte/ph_scattering.cpp L868-892, on process `(pr, pc)`. -/
def zeroExcluded {α : Type} [Zero α] (sym : Bool) (n : Nat) (L : Layout) (pr pc : Nat) (ex : List Nat)
    (m : DistData α) : Outcome (DistData α) :=
  foldOutcome (fun (bb : Nat × Nat) (m : DistData α) =>
    if sym then
      foldOutcome (fun (ij : Nat × Nat) (m : DistData α) => do
        let iMat1 ← smatIndex true n bb.1 ij.1
        let iMat2 ← smatIndex true n bb.2 ij.2
        .ok (L.set m pr pc iMat1 iMat2 0)) cart9 m
    else .ok (L.set m pr pc bb.1 bb.2 0))
    (ex.flatMap fun b1 => ex.map fun b2 => (b1, b2)) m

/-- The linewidths placed on the diagonal of the matrix: src/bte/ph_scattering.cpp L910-934,
src/bte/el_scattering.cpp L452-477 and `setLinewidths`, src/bte/scattering.cpp L613-636, on process `(pr, pc)`. -/
def placeDiagonal {α : Type} [Zero α] [Add α] (sym : Bool) (n : Nat) (L : Layout) (pr pc : Nat) (diag : Nat → α)
    (m : DistData α) : Outcome (DistData α) :=
  if sym then
    foldOutcome (fun (iBte : Nat) (m : DistData α) =>
      foldOutcome (fun (i : Nat) (m : DistData α) => do
        let iMati ← smatIndex true n iBte i
        let m' ← foldOutcome (fun (j : Nat) (m : DistData α) => do
          let iMatj ← smatIndex true n iBte j
          .ok (L.set m pr pc iMati iMatj 0)) [0, 1, 2] m
        .ok (L.addTo m' pr pc iMati iMati (diag iBte))) [0, 1, 2] m) (List.range n) m
  else
    .ok ((List.range n).foldl (fun m is => L.set m pr pc is is (diag is)) m)

/-- `f` on every process in turn, with the data of that process. -/
def onProcesses {α β : Type} (f : Nat × Nat → β → DistData α → Outcome (DistData α)) :
    List ((Nat × Nat) × β) → DistData α → Outcome (DistData α)
  | [], m => .ok m
  | (p, x) :: ps, m => do
    let m' ← f p x m
    onProcesses f ps m'

/-- `builder` with `switchCase == 0`: the distributed matrix and, for each process, the stored diagonal
(`internalDiagonal`). -/
def buildMatrix {α : Type} [Zero α] [Add α] [Mul α] (sym : Bool) (n : Nat) (L : Layout) (ex : List Nat)
    (boundary : Nat → α) (events : Nat × Nat → List (ScatEvent α)) (procs : List (Nat × Nat)) (m : DistData α) :
    Outcome (DistData α × List (Nat → α)) := do
  let r ← matrixLoops sym n L events procs m
  let diags := (allReduceSum1 r.2).map (finishLinewidth ex boundary)
  let m1 ← onProcesses (fun p (_ : Nat → α) => zeroExcluded sym n L p.1 p.2 ex) (procs.zip diags) r.1
  let m2 ← onProcesses (fun p d => placeDiagonal sym n L p.1 p.2 d) (procs.zip diags) m1
  .ok (m2, diags)

/-! ## Product computed on the fly -/

/-- Matrix-vector product, one event: src/bte/ph_scattering.cpp L411-432, L546-573, L744-769 and
src/bte/el_scattering.cpp L356-380. -/
def productEvent {α : Type} [Zero α] [Add α] [Mul α] (inp : Nat → Nat → α) (out : Nat → Nat → α) (e : ScatEvent α) :
    Nat → Nat → α :=
  let inPopRot : Nat → α := fun i =>
    0 + e.rotInv i 0 * inp 0 e.bte2 + e.rotInv i 1 * inp 1 e.bte2 + e.rotInv i 2 * inp 2 e.bte2
  fun i b => if b = e.bte1 ∧ i < 3 then
      (if e.is1 ≠ e.is2Irr then out i b + e.rateOff * inPopRot i else out i b) + e.rate * inp i b
    else out i b

/-- `builder` with `switchCase == 1` for one vector and one calculation, as returned on every process: the events of
the processes, `allReduceSum`, boundary scattering (src/bte/ph_scattering.cpp L820-860, el_scattering.cpp L433-440)
and excluded states (L893-899).  The 3 x `n` array is stored by rows. -/
def buildProduct {α : Type} [Zero α] [Add α] [Mul α] (n : Nat) (ex : List Nat) (boundary : Nat → α)
    (events : List (List (ScatEvent α))) (inp : Nat → Nat → α) : List (Nat → Nat → α) :=
  let locals := events.map fun evs => fun k : Nat =>
    evs.foldl (productEvent inp) (fun _ _ => 0) (k / n) (k % n)
  (allReduceSum1 locals).map fun f => fun i b =>
    if b ∈ ex then 0 else f (i * n + b) + boundary b * inp i b

/-- `builder` with `switchCase == 2` for one calculation (the first), on every process: src/bte/ph_scattering.cpp
L434, L575, L771 and el_scattering.cpp L381-384; reduction, average over the degenerate states (L811-812), boundary
and excluded states. -/
def buildLinewidths {α : Type} [Field α] [LinearOrder α] (ex : List Nat) (boundary : Nat → α)
    (points : List (DegPoint α)) (events : List (List (ScatEvent α))) : List (Nat → α) :=
  let locals := events.map fun evs => evs.foldl (fun lw e => addAt lw e.bte1 e.rate) (fun _ => 0)
  (allReduceSum1 locals).map fun lw =>
    finishLinewidth ex boundary (degeneracyAveraging points (fun _ => lw) 0)

/-! ## Product with the stored matrix -/

/-- Updates of the private data by one local element, src/bte/scattering.cpp L285-320 (`dot`) and L195-222
(`offDiagonalDot`): `(i, iBte1, value)`; `skip` is the test that leads to `continue`. -/
def elementAdds {α : Type} [Zero α] [Mul α] (sym : Bool) (n : Nat) (L : Layout) (m : DistData α) (p : Nat × Nat)
    (skip : Nat → Nat → Bool) (inp : Nat → Nat → α) (t : Nat × Nat) : Outcome (List (Nat × Nat × α)) := do
  let t1 ← smatIndexInv sym n t.1
  let t2 ← smatIndexInv sym n t.2
  if skip t1.1 t2.1 then .ok []
  else if sym then .ok [(t1.2, t1.1, L.get m p.1 p.2 t.1 t.2 * inp t2.2 t2.1)]
  else .ok ([0, 1, 2].map fun i => (i, t1.1, L.get m p.1 p.2 t.1 t.2 * inp i t2.1))

/-- `dataPrivate` of a thread. -/
def threadAdds {α : Type} [Zero α] [Add α] (adds : List (Nat × Nat × α)) : Nat → Nat → α :=
  adds.foldl (fun priv a => fun i b => if i = a.1 ∧ b = a.2.1 then priv i b + a.2.2 else priv i b) (fun _ _ => 0)

/-- One process: threads in the order in which they enter the `critical` section (L225-230, L322-327). -/
def processAdds {α : Type} [Zero α] [Add α] [Mul α] (sym : Bool) (n : Nat) (L : Layout) (m : DistData α)
    (p : Nat × Nat) (skip : Nat → Nat → Bool) (inp : Nat → Nat → α) (merge : List (List (Nat × Nat))) :
    Outcome (Nat → Nat → α) := do
  let threads ← mapOutcome (fun states => mapOutcome (elementAdds sym n L m p skip inp) states) merge
  .ok (threads.foldl (fun acc adds => fun i b => acc i b + threadAdds adds.flatten i b) (fun _ _ => 0))

/-- `dot` and `offDiagonalDot` with the matrix in memory, src/bte/scattering.cpp L271-331 and L181-235, as returned on
every process. -/
def storedProduct {α : Type} [Zero α] [Add α] [Mul α] (sym : Bool) (n : Nat) (L : Layout) (m : DistData α)
    (skip : Nat → Nat → Bool) (inp : Nat → Nat → α) (procs : List (Nat × Nat))
    (merge : Nat × Nat → List (List (Nat × Nat))) : Outcome (List (Nat → Nat → α)) := do
  let locals ← mapOutcome (fun p => processAdds sym n L m p skip inp (merge p)) procs
  .ok ((allReduceSum1 (locals.map fun f => fun k : Nat => f (k / n) (k % n))).map fun f => fun i b => f (i * n + b))

/-- `dot` with the matrix in memory: elements with an excluded state are skipped (L294-297, L311-314). -/
def dotStored {α : Type} [Zero α] [Add α] [Mul α] (sym : Bool) (n : Nat) (L : Layout) (m : DistData α)
    (ex : List Nat) (inp : Nat → Nat → α) (procs : List (Nat × Nat)) (merge : Nat × Nat → List (List (Nat × Nat))) :
    Outcome (List (Nat → Nat → α)) :=
  storedProduct sym n L m (fun b1 b2 => decide (b1 ∈ ex) || decide (b2 ∈ ex)) inp procs merge

/-- `offDiagonalDot` with the matrix in memory: elements with equal BTE indices are skipped (L203, L216). -/
def offDiagonalDotStored {α : Type} [Zero α] [Add α] [Mul α] (sym : Bool) (n : Nat) (L : Layout) (m : DistData α)
    (inp : Nat → Nat → α) (procs : List (Nat × Nat)) (merge : Nat × Nat → List (List (Nat × Nat))) :
    Outcome (List (Nat → Nat → α)) :=
  storedProduct sym n L m (fun b1 b2 => decide (b1 = b2)) inp procs merge

/-- `offDiagonalDot` without the matrix in memory, src/bte/scattering.cpp L236-249, from the product computed on the
fly and the stored diagonal. -/
def offDiagonalDotFly {α : Type} [Sub α] [Mul α] (diag : Nat → α) (inp product : Nat → Nat → α) : Nat → Nat → α :=
  fun i b => product i b - diag b * inp i b

/-! ## Symmetrised form -/

/-- One local element of `a2Omega`, src/bte/scattering.cpp L389-432, on process `p`; the state is the matrix and the
stored diagonal of this process; `term` is `getPopPopPm1` of the energy of a BTE state. -/
noncomputable def a2OmegaElement (sym : Bool) (n : Nat) (L : Layout) (ex : List Nat) (term : Nat → ℝ) (p : Nat × Nat)
    (t : Nat × Nat) (s : DistData ℝ × (Nat → ℝ)) : Outcome (DistData ℝ × (Nat → ℝ)) := do
  let t1 ← smatIndexInv sym n t.1
  let t2 ← smatIndexInv sym n t.2
  if t1.1 ∈ ex then .ok s
  else if t2.1 ∈ ex then .ok s
  else
    let term1 := term t1.1
    let term2 := term t2.1
    let d := if t1.1 = t2.1 then fun b => if b = t1.1 then s.2 b / term1 else s.2 b else s.2
    .ok (L.set s.1 p.1 p.2 t.1 t.2 (L.get s.1 p.1 p.2 t.1 t.2 / Real.sqrt (term1 * term2)), d)

/-- The loop of `a2Omega` on every process, in the order `order p` of its local elements. -/
noncomputable def a2OmegaLoops (sym : Bool) (n : Nat) (L : Layout) (ex : List Nat) (term : Nat → ℝ)
    (order : Nat × Nat → List (Nat × Nat)) : List ((Nat × Nat) × (Nat → ℝ)) → DistData ℝ →
    Outcome (DistData ℝ × List (Nat → ℝ))
  | [], m => .ok (m, [])
  | (p, d) :: ps, m => do
    let s ← foldOutcome (a2OmegaElement sym n L ex term p) (order p) (m, d)
    let r ← a2OmegaLoops sym n L ex term order ps s.1
    .ok (r.1, s.2 :: r.2)

/-- A scattering matrix object seen on all processes: the matrix, the stored diagonal of each process (one
calculation) and the flag `isMatrixOmega`. -/
structure ScatState where
  matrix : DistData ℝ
  diags : List (Nat → ℝ)
  isMatrixOmega : Bool

/-- `a2Omega`, src/bte/scattering.cpp L366-434. -/
noncomputable def a2Omega (highMemory sym : Bool) (n : Nat) (L : Layout) (ex : List Nat) (term : Nat → ℝ)
    (procs : List (Nat × Nat)) (order : Nat × Nat → List (Nat × Nat)) (s : ScatState) : Outcome ScatState :=
  if highMemory = false then .error
  else if L.numRows = 0 then .error
  else if s.isMatrixOmega then .ok s
  else do
    let r ← a2OmegaLoops sym n L ex term order (procs.zip s.diags) s.matrix
    .ok ⟨r.1, r.2, true⟩

/-! ## Linewidths -/

/-- `setLinewidths` on one process, src/bte/scattering.cpp L570-637, up to the matrix: the stored diagonal
(calculation, state) from the linewidths `lw` with `numCalc'` calculations and `n'` states; `pop` is `getPopPopPm1`. -/
def setDiagonal {α : Type} [Mul α] (omega : Bool) (numCalc n numCalc' n' : Nat) (pop : Nat → Nat → α)
    (lw diag : Nat → Nat → α) : Outcome (Nat → Nat → α) :=
  if numCalc ≠ numCalc' then .error
  else if n ≠ n' then .error
  else if omega then .ok lw
  else .ok fun c b => if c < numCalc' ∧ b < n then lw c b * pop c b else diag c b

/-- `setLinewidths` on all processes; with the matrix in memory the diagonal of the first calculation is placed in the
matrix (L613-636). -/
def setLinewidths {α : Type} [Zero α] [Add α] [Mul α] (highMemory sym omega : Bool) (L : Layout)
    (numCalc n numCalc' n' : Nat) (pop : Nat → Nat → α) (lw : Nat → Nat → α) (procs : List (Nat × Nat))
    (diags : List (Nat → Nat → α)) (m : DistData α) : Outcome (DistData α × List (Nat → Nat → α)) := do
  let diags' ← mapOutcome (fun d => setDiagonal omega numCalc n numCalc' n' pop lw d) diags
  if highMemory then do
    let m' ← onProcesses (fun p (d : Nat → Nat → α) => placeDiagonal sym n L p.1 p.2 (d 0)) (procs.zip diags') m
    .ok (m', diags')
  else .ok (m, diags')

/-- `getLinewidths` on one process, src/bte/scattering.cpp L529-568; `constantRTA` carries the constant linewidth. -/
def getLinewidths {α : Type} [Div α] (constantRTA : Option α) (omega isElectron : Bool) (pop : Nat → Nat → α)
    (diag : Nat → Nat → α) : Outcome (Nat → Nat → α) :=
  match constantRTA with
  | some c => .ok fun _ _ => c
  | none =>
    if omega then .ok diag
    else if isElectron then .error
    else .ok fun c b => diag c b / pop c b

end Verif.Model
