import Verif.Model.BandsFile
import Verif.Model.BlochWannier

/-!
# Reading of the electron-phonon coupling of Quantum ESPRESSO

src/apps/elph_qe_to_phoebe_app.cpp L75-284.  A file is the number of wavevectors of its star and the list of the numbers after it.
Arrays are functions of their indices.
-/
namespace Verif.Model

/-- `infileQ >> x`.  At the end of the file `x` keeps the value it had: the variables of src/apps/elph_qe_to_phoebe_app.cpp L112,
L120, L141 and L157 have none. -/
def nextNumber : List ℝ → Outcome (ℝ × List ℝ)
  | [] => .ub
  | x :: rest => .ok (x, rest)

/-- A loop that reads a vector of three components at each step, src/apps/elph_qe_to_phoebe_app.cpp L111-117 and L119-122. -/
def readVectors : Nat → List ℝ → Outcome (List (V3 ℝ) × List ℝ)
  | 0, s => .ok ([], s)
  | n + 1, s => do
    let a ← nextNumber s
    let b ← nextNumber a.2
    let c ← nextNumber b.2
    let t ← readVectors n c.2
    .ok (⟨a.1, b.1, c.1⟩ :: t.1, t.2)

/-- A loop that reads a number at each step, src/apps/elph_qe_to_phoebe_app.cpp L124-127. -/
def readNumbers : Nat → List ℝ → Outcome (List ℝ × List ℝ)
  | 0, s => .ok ([], s)
  | n + 1, s => do
    let a ← nextNumber s
    let t ← readNumbers n a.2
    .ok (a.1 :: t.1, t.2)

/-- One step of a loop that reads the real and imaginary part of an element and assigns it, src/apps/elph_qe_to_phoebe_app.cpp
L141-143 and L157-159. -/
def readElement {κ : Type} [DecidableEq κ] (key : κ) (st : List ℝ × (κ → ℂ)) : Outcome (List ℝ × (κ → ℂ)) := do
  let re ← nextNumber st.1
  let im ← nextNumber re.2
  .ok (im.2, fun k => if k = key then ⟨re.1, im.1⟩ else st.2 k)

/-- The assignments of the loops of src/apps/elph_qe_to_phoebe_app.cpp L134-136: indices `(i, j, iq)`. -/
def eigenvectorLoop (nq numModes : Nat) : List (Nat × Nat × Nat) :=
  (List.range nq).flatMap fun iq => (List.range numModes).flatMap fun j => (List.range numModes).map fun i => (i, j, iq)

/-- The assignments of the loops of src/apps/elph_qe_to_phoebe_app.cpp L152-156: indices `(ib1, ib2, nu, ikMap(ik), iq)`. -/
def couplingLoop (nq numModes numK numBands : Nat) (ikMap : Nat → Nat) : List (Nat × Nat × Nat × Nat × Nat) :=
  (List.range nq).flatMap fun iq => (List.range numModes).flatMap fun nu => (List.range numK).flatMap fun ik =>
    (List.range numBands).flatMap fun ib2 => (List.range numBands).map fun ib1 => (ib1, ib2, nu, ikMap ik, iq)

/-- What `readChunkGFromQE` returns. -/
structure StarChunk where
  q : List (V3 ℝ)
  energies : List ℝ
  eigenvectors : Nat × Nat × Nat → ℂ
  g : Nat × Nat × Nat × Nat × Nat → ℂ

/-- `readChunkGFromQE`, src/apps/elph_qe_to_phoebe_app.cpp L75-169; `none` is a file that cannot be opened, which leaves `nqStar`
without a value (L89-97).  The energies are the same for all the wavevectors (L130-132).  `ikMap` is in range, as it is made by
`Points::getIndex`. -/
def readChunk (numModes numBands numK : Nat) (ikMap : Nat → Nat) : Option (Nat × List ℝ) → Outcome StarChunk
  | none => .ub
  | some (nq, s) => do
    let q ← readVectors nq s
    let cart ← readVectors nq q.2
    let en ← readNumbers numModes cart.2
    let ev ← foldOutcome readElement (eigenvectorLoop nq numModes) (en.2, fun _ => 0)
    let g ← foldOutcome readElement (couplingLoop nq numModes numK numBands ikMap) (ev.1, fun _ => 0)
    .ok ⟨q.1, en.1, ev.2, g.2⟩

/-- An assignment to one of the three arrays of `readGFromQEFile`: `gFull`, `phEigenvectors` or `phEnergies`. -/
inductive FullWrite where
  | g (ib1 ib2 nu ik iq : Nat) (x : ℂ)
  | ev (i j iq : Nat) (x : ℂ)
  | en (i iq : Nat) (x : ℝ)

/-- The assignments for a wavevector of a star, src/apps/elph_qe_to_phoebe_app.cpp L252-273; `iqFull` is its index in the mesh.
The element `phononEnergiesStar(i)` is the one of row `i` of the first column. -/
def vectorWrites (numModes numWannier numK offset : Nat) (c : StarChunk) (iqStar iqFull : Nat) : List FullWrite :=
  ((List.range numModes).flatMap fun nu => (List.range numK).flatMap fun ik => (List.range numWannier).flatMap fun ib2 =>
    (List.range numWannier).map fun ib1 => FullWrite.g ib1 ib2 nu ik iqFull (c.g (offset + ib1, offset + ib2, nu, ik, iqStar))) ++
  ((List.range numModes).flatMap fun j => (List.range numModes).map fun i => FullWrite.ev i j iqFull (c.eigenvectors (i, j, iqStar))) ++
  (List.range numModes).map fun i => FullWrite.en i iqFull (c.energies.getD i 0)

/-- The body of the loop over the files, src/apps/elph_qe_to_phoebe_app.cpp L232-274; `qIndex` is `qPoints.getIndex`. -/
def starWrites (numModes numBands numWannier numK offset : Nat) (ikMap : Nat → Nat) (qIndex : V3 ℝ → Outcome Nat)
    (file : Option (Nat × List ℝ)) : Outcome (List FullWrite) := do
  let c ← readChunk numModes numBands numK ikMap file
  let idx ← mapOutcome qIndex c.q
  .ok (((List.range idx.length).map fun iqStar => vectorWrites numModes numWannier numK offset c iqStar (idx.getD iqStar 0)).flatten)

/-- The three arrays. -/
structure FullArrays where
  g : Nat × Nat × Nat × Nat × Nat → ℂ
  ev : Nat × Nat × Nat → ℂ
  en : Nat × Nat → ℝ

/-- One assignment. -/
def FullArrays.write (a : FullArrays) : FullWrite → FullArrays
  | .g ib1 ib2 nu ik iq x => { a with g := fun k => if k = (ib1, ib2, nu, ik, iq) then x else a.g k }
  | .ev i j iq x => { a with ev := fun k => if k = (i, j, iq) then x else a.ev k }
  | .en i iq x => { a with en := fun k => if k = (i, iq) then x else a.en k }

/-- `readGFromQEFile` on the head process, src/apps/elph_qe_to_phoebe_app.cpp L171-284, and on the others after the broadcast
(L279-281).  The files are read by the threads (L231); `order` gives the order in which the assignments of all the threads come. -/
def readFull (numModes numBands numWannier numK offset : Nat) (ikMap : Nat → Nat) (qIndex : V3 ℝ → Outcome Nat)
    (files : List (Option (Nat × List ℝ))) (order : List FullWrite → List FullWrite) : Outcome FullArrays := do
  let w ← mapOutcome (starWrites numModes numBands numWannier numK offset ikMap qIndex) files
  .ok ((order w.flatten).foldl FullArrays.write ⟨fun _ => 0, fun _ => 0, fun _ => 0⟩)

end Verif.Model
