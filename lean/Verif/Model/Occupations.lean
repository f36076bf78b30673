import Verif.Model.ElHelper

/-!
# Occupations used by the scattering matrices and the third phonon of a three-phonon process

src/bte/ph_scattering.cpp L102-143 (src/bte/el_scattering.cpp L66-109), src/bte/helper_3rd_state.cpp.
-/
namespace Verif.Model

variable {α υ ω : Type}

/-- What the tables of occupations use of a band structure: `irrStateIterator().size()`, `bteToState`, `stateToBte`,
`getEnergy` and `getIndex`. -/
structure BteStates (α : Type) where
  numIrrStates : Nat
  bteToState : Nat → Outcome Nat
  stateToBte : Nat → Outcome Nat
  getEnergy : Nat → Outcome α
  getIndex : Nat → Nat → Nat

/-- The part of the table `outerBose(iCalc, iBte)` computed by a process, src/bte/ph_scattering.cpp L103-121
(src/bte/el_scattering.cpp L67-86): zero where the index `iBte` is not of the process.  `stats` are temperature and
chemical potential of the calculations, `pop e t mu` is `Particle::getPopulation`.  The table is a function of `iBte`
and `iCalc`; the iterations of the parallel loop write different entries. -/
def occupationPart [Zero α] (pop : α → α → α → α) (stats : List (α × α)) (B : BteStates α) (size rank : Nat) :
    Outcome (Nat → Nat → α) := do
  let iBtes ← divideWorkIter B.numIrrStates rank size
  let cols ← mapOutcome (fun iBte => do
    let is ← B.bteToState iBte
    let energy ← B.getEnergy is
    .ok (iBte, stats.map fun s => pop energy s.1 s.2)) iBtes
  .ok fun iBte iCalc => match cols.find? fun c => c.1 = iBte with
    | some c => c.2.getD iCalc 0
    | none => 0

/-- The tables of all processes after the sum, src/bte/ph_scattering.cpp L122 and L143 (src/bte/el_scattering.cpp L87,
L109). -/
def occupationTables [Add α] [Zero α] (pop : α → α → α → α) (stats : List (α × α)) (B : BteStates α) (size : Nat) :
    Outcome (List (Nat → Nat → α)) := do
  let parts ← mapOutcome (occupationPart pop stats B size) (List.range size)
  .ok (allReduceSum1 parts)

/-- The occupations of a state, for all calculations: `outerBose(iCalc, iBte1)` with `iBte1` from `stateToBte`,
src/bte/ph_scattering.cpp L373-374, L508-509, L708-709, src/bte/el_scattering.cpp L309, and
src/bte/helper_3rd_state.cpp L170-176.  A column that is not there is undefined. -/
def readOccupations (B : BteStates α) (numCalc : Nat) (table : Nat → Nat → α) (is : Nat) : Outcome (List α) := do
  let iBte ← B.stateToBte is
  if iBte < B.numIrrStates then .ok ((List.range numCalc).map (table iBte)) else .ub

/-- The tuple returned by `Helper3rdState::get`; `bose3[ib]` is the column of mode `ib`.  `v3s = none` stands for
velocities that were not asked for (an empty matrix, or zeros in the cache). -/
structure ThirdPhonon (α υ ω : Type) where
  q3 : V3 Rat
  energies3 : List α
  nb3 : Nat
  eigenVectors3 : υ
  v3s : Option ω
  bose3 : List (List α)
deriving DecidableEq

/-- The state of the helper: the inner band structure on the whole mesh with the table of occupations, the band structure
of the points reached, or the caches of `prepare` for the two signs (plus, minus). -/
inductive Helper3 (α υ ω : Type)
  | mesh (table : Nat → Nat → α)
  | window (bands : StoredPhonons α υ ω)
  | computed (cache : Option (ThirdCache (ThirdPhonon α υ ω × ThirdPhonon α υ ω)))

/-- The constructor, src/bte/helper_3rd_state.cpp L7-119: arguments as in `ElHelper.make`; `table` is `outerBose` and
`active` the points of `Verif.Model.thirdPoints`. -/
def Helper3.make (same : Bool) (offset : V3 Rat) (window : Bool) (table : Nat → Nat → α) (active : Outcome Points)
    (bandsOf : Points → StoredPhonons α υ ω) : Outcome (Helper3 α υ ω) :=
  if same ∧ offset = ⟨0, 0, 0⟩ ∧ window = false then .ok (.mesh table)
  else if same ∧ offset = ⟨0, 0, 0⟩ ∧ window = true then do
    let P ← active
    .ok (.window (bandsOf P))
  else .ok (.computed none)

/-- Occupations of the modes of given energies, src/bte/helper_3rd_state.cpp L188-196 and L266-277. -/
def modeOccupations (pop : α → α → α → α) (stats : List (α × α)) (energies : List α) : List (List α) :=
  energies.map fun e => stats.map fun s => pop e s.1 s.2

/-- What `prepare` computes for one third wavevector, src/bte/helper_3rd_state.cpp L253-318. -/
def computeThird (pop : α → α → α → α) (stats : List (α × α)) (adaptive : Bool) (diag : V3 Rat → List α × υ)
    (vel : V3 Rat → ω) (q3 : V3 Rat) : ThirdPhonon α υ ω :=
  let d := diag q3
  ⟨q3, d.1, d.1.length, d.2, if adaptive then some (vel q3) else none, modeOccupations pop stats d.1⟩

/-- `Helper3rdState::prepare`, src/bte/helper_3rd_state.cpp L226-319: `outer` and `inner` are the points of the band
structures. -/
def Helper3.prepare (h : Helper3 α υ ω) (outer inner : Points) (compute : V3 Rat → ThirdPhonon α υ ω)
    (q1Indexes : List Int) (iq2 : Int) : Outcome (Helper3 α υ ω) :=
  match h with
  | .mesh t => .ok (.mesh t)
  | .window b => .ok (.window b)
  | .computed _ =>
    match q1Indexes with
    | [] => .ub
    | first :: rest => do
      let entries ← mapOutcome (fun iq1 => do
        let q1 ← outer.getPointCoordinates iq1
        let q2 ← inner.getPointCoordinates iq2
        .ok (compute (q1.add q2), compute (q1.sub q2))) (first :: rest)
      .ok (.computed (some ⟨first, entries⟩))

/-- `Helper3rdState::get`, src/bte/helper_3rd_state.cpp L126-224: `innerBands` is the inner band structure and `B` the
states of the outer one; `iq1` is the index of `point1`, `q1` and `q2` the coordinates of the points. -/
def Helper3.get (h : Helper3 α υ ω) (innerBands : StoredPhonons α υ ω) (B : BteStates α) (pop : α → α → α → α)
    (stats : List (α × α)) (adaptive : Bool) (iq1 : Int) (q1 q2 : V3 Rat) (plus : Bool) :
    Outcome (ThirdPhonon α υ ω) :=
  let q3 := if plus then q1.add q2 else q1.sub q2
  match h with
  | .mesh table => do
    let iq3 ← innerBands.points.getIndex q3
    let energies3 ← innerBands.getEnergies iq3.toNat
    let eigenVectors3 ← innerBands.getEigenvectors iq3.toNat
    let v3s ← if adaptive then (do let v ← innerBands.getGroupVelocities iq3.toNat; .ok (some v)) else .ok none
    let bose3 ← mapOutcome (fun ib3 => readOccupations B stats.length table (B.getIndex iq3.toNat ib3))
      (List.range energies3.length)
    .ok ⟨q3, energies3, energies3.length, eigenVectors3, v3s, bose3⟩
  | .window bands => do
    let iq3 ← bands.points.getIndex q3
    let energies3 ← bands.getEnergies iq3.toNat
    let eigenVectors3 ← bands.getEigenvectors iq3.toNat
    let v3s ← if adaptive then (do let v ← bands.getGroupVelocities iq3.toNat; .ok (some v)) else .ok none
    .ok ⟨q3, energies3, energies3.length, eigenVectors3, v3s, modeOccupations pop stats energies3⟩
  | .computed none => .ub
  | .computed (some c) => do
    let e ← c.get iq1
    .ok { (if plus then e.1 else e.2) with q3 := q3 }

/-- States of a full band structure with symmetries, src/bands/bandstructure.cpp L419-462; `getIndex` is
L133-136. -/
def fullBteStates (numBands n : Nat) (s : IrrPoints) (getEnergy : Nat → Outcome α) : BteStates α :=
  { numIrrStates := (fullIrrStateIterator numBands n s).length
    bteToState := fullBteToState numBands s
    stateToBte := fullStateToBte numBands s
    getEnergy := getEnergy
    getIndex := fun ik ib => ik * numBands + ib }

/-- States of an active band structure, src/bands/active_bandstructure.cpp L1077-1142. -/
def activeBteStates (B : ActiveLayout) (s : IrrPoints) (getEnergy : Nat → Outcome α) : BteStates α :=
  { numIrrStates := (B.irrStateIterator s).length
    bteToState := B.bteToState s
    stateToBte := B.stateToBte s
    getEnergy := getEnergy
    getIndex := B.bloch2Comb }

/-- States of a full band structure whose points were not reduced: `asIrreducibleIndex` and `asReducibleIndex` return
their argument (src/points.cpp L918-934), so that the BTE index of a state is the state. -/
def plainBteStates (numBands n : Nat) (getEnergy : Nat → Outcome α) : BteStates α :=
  { numIrrStates := n * numBands
    bteToState := fun i => if numBands = 0 then .ub else .ok (i / numBands * numBands + (i - i / numBands * numBands))
    stateToBte := fun i => if numBands = 0 then .ub else .ok (i / numBands * numBands + (i - i / numBands * numBands))
    getEnergy := getEnergy
    getIndex := fun ik ib => ik * numBands + ib }

end Verif.Model
