import Verif.Model.ThirdState
import Verif.Model.ScatMatrix
import Verif.Model.Bands

/-!
# The phonon of an electron-phonon process: src/bte/helper_el_scattering.cpp

`HelperElScattering` gives, for a pair of electron wavevectors, the phonon of wavevector `k2 - k1`.  When the mesh
allows it the phonons are computed once and stored; otherwise they are computed for a list of `k2` before use.
Types are generic: `α` real numbers, `γ` complex numbers, `υ` matrices of eigenvectors and `ω` of velocities.
Wavevectors are in crystal coordinates, as in `Verif.Model.ThirdState`.
-/
namespace Verif.Model

variable {α γ υ ω : Type}

/-- `Points::parallelIrrPointsIterator`, src/points.cpp L907-916: `its` is the list of `irrPointsIterator`. -/
def parallelIrr (its : List Nat) (size rank : Nat) : List Nat :=
  let divs := divideWork its.length rank size
  (its.take divs.2).drop divs.1

/-- The columns of the polar data computed by a process, src/bte/helper_el_scattering.cpp L173-183, as the column-major
array of `polarData`: `part1 iq3` is `polarCorrectionPart1` at wavevector `iq3`.  A vector of another size than the
number of bands cannot be assigned to a column (an assertion of Eigen, off in release builds).  The iterations of the
parallel loop write different columns. -/
def polarLocal (nb : Nat) (part1 : Nat → Outcome (List γ)) (iq3s : List Nat) : Outcome (List γ) := do
  let cols ← mapOutcome (fun iq3 => do
    let c ← part1 iq3
    if c.length = nb then .ok c else .ub) iq3s
  .ok cols.flatten

/-- `polarstarts[rank]` from the pair of size and start of the preceding process, src/bte/helper_el_scattering.cpp
L199, in `int` arithmetic. -/
def polarStart : Option (Int × Int) → Outcome Int
  | none => .ok 0
  | some p => cadd p.2 p.1

/-- `polarsizes` and `polarstarts`, src/bte/helper_el_scattering.cpp L197-200, in `int` arithmetic: `prev` is the pair
of the preceding process. -/
def polarDisps (nb : Nat) : List Nat → Option (Int × Int) → Outcome (List (Int × Int))
  | [], _ => .ok []
  | n :: t, prev => do
    let size ← cmul nb n
    let start ← polarStart prev
    let rest ← polarDisps nb t (some (size, start))
    .ok ((size, start) :: rest)

/-- The gathering of the polar data, src/bte/helper_el_scattering.cpp L168-170 and L186-219, with MPI: `iq3s[r]` are the
wavevectors of process `r` and `cols[r]` its columns.  The result is the content of `mappedPolarData` in the order of
insertion, common to all processes.  `zero` is the content of new arrays. -/
def polarGather (zero : γ) (nb : Nat) (iq3s : List (List Nat)) (cols : List (List γ)) :
    Outcome (List (Nat × List γ)) := do
  let numQ3 := (iq3s.map List.length).sum
  let all ← allGatherv iq3s (List.replicate numQ3 0)
  let d ← polarDisps nb (iq3s.map List.length) none
  let data ← mpiGatherv cols (d.map Prod.fst) (d.map Prod.snd) (List.replicate (nb * numQ3) zero)
  mapOutcome (fun i => do
    let iq3 ← readAt all i
    .ok (iq3, (data.drop (nb * i)).take nb)) (List.range numQ3)

/-- The polar data on `size` processes, src/bte/helper_el_scattering.cpp L164-221. -/
def polarTable (zero : γ) (size nb : Nat) (its : List Nat) (part1 : Nat → Outcome (List γ)) :
    Outcome (List (Nat × List γ)) := do
  let iq3s := (List.range size).map (parallelIrr its size)
  let cols ← mapOutcome (polarLocal nb part1) iq3s
  polarGather zero nb iq3s cols

/-- `mappedPolarData.at(iq3)`, src/bte/helper_el_scattering.cpp L270: `insert` keeps the first value of a key, and `at`
throws for a key that is absent. -/
def polarAt (table : List (Nat × List γ)) (iq3 : Nat) : Outcome (List γ) :=
  match table.find? fun p => p.1 = iq3 with
  | some p => .ok p.2
  | none => .error

/-- What `bandStructure3` gives for a wavevector (L252-258). -/
structure StoredPhonons (α υ ω : Type) where
  points : Points
  getEnergies : Nat → Outcome (List α)
  getEigenvectors : Nat → Outcome υ
  getGroupVelocities : Nat → Outcome ω

/-- The tuple returned by `get`.  `v3s = none` stands for velocities that were not asked for: an empty matrix (L255) or
a matrix of zeros (L329-330). -/
structure PhononOf (α γ υ ω : Type) where
  q3 : V3 Rat
  energies3 : List α
  nb3 : Nat
  eigenVectors3 : υ
  v3s : Option ω
  bose3 : List (List α)
  polar : List γ
deriving DecidableEq

/-- `bose3Data`, src/bte/helper_el_scattering.cpp L262-268 and L319-327: rows are the calculations, `temps` their
temperatures and `pop` is `Particle::getPopulation`. -/
def boseData (pop : α → α → α) (temps energies : List α) : List (List α) :=
  temps.map fun t => energies.map fun e => pop e t

/-- The state of the helper: the stored phonons and polar data, or the cache of `prepare`. -/
inductive ElHelper (α γ υ ω : Type)
  | stored (bands : StoredPhonons α υ ω) (polar : List (Nat × List γ))
  | computed (cache : Option (ThirdCache (PhononOf α γ υ ω)))

/-- The constructor, src/bte/helper_el_scattering.cpp L8-223, on `size` processes.  `same` is the comparison of the
addresses of the two band structures, `offset` that of the mesh of the outer one, `window` is `hasWindow() != 0`; `full`
are the points of the whole mesh, `active` those of `Verif.Model.thirdPoints`; `bandsOf` is the calculation of the
phonons on a list of points and `part1` is `polarCorrectionPart1`.  Points made here have no irreducible points, hence
the iterator runs over all of them. -/
def ElHelper.make (zero : γ) (same : Bool) (offset : V3 Rat) (window : Bool) (size nb : Nat) (full : Points)
    (active : Outcome Points) (bandsOf : Points → StoredPhonons α υ ω) (part1 : V3 Rat → υ → Outcome (List γ)) :
    Outcome (ElHelper α γ υ ω) :=
  if same ∧ offset = ⟨0, 0, 0⟩ then do
    let P ← if window then active else .ok full
    let bands := bandsOf P
    let table ← polarTable zero size nb (List.range P.numPoints) fun iq3 => do
      let q3 ← P.getPointCoordinates iq3
      let ev3 ← bands.getEigenvectors iq3
      part1 q3 ev3
    .ok (.stored bands table)
  else .ok (.computed none)

/-- What `prepare` computes for one `k2`, src/bte/helper_el_scattering.cpp L307-349: `diag` is
`diagonalizeFromCoordinates` and `vel` the diagonal of `diagonalizeVelocityFromCoordinates`. -/
def computePhonon (pop : α → α → α) (temps : List α) (adaptive : Bool) (diag : V3 Rat → List α × υ) (vel : V3 Rat → ω)
    (part1 : V3 Rat → υ → Outcome (List γ)) (q3 : V3 Rat) : Outcome (PhononOf α γ υ ω) := do
  let d := diag q3
  let polar ← part1 q3 d.2
  .ok ⟨q3, d.1, d.1.length, d.2, if adaptive then some (vel q3) else none, boseData pop temps d.1, polar⟩

/-- `HelperElScattering::prepare`, src/bte/helper_el_scattering.cpp L292-353: `inner` are the points of the inner band
structure and `compute` is `computePhonon`. -/
def ElHelper.prepare (h : ElHelper α γ υ ω) (inner : Points) (compute : V3 Rat → Outcome (PhononOf α γ υ ω))
    (k1 : V3 Rat) (k2Indexes : List Int) : Outcome (ElHelper α γ υ ω) :=
  match h with
  | .stored b p => .ok (.stored b p)
  | .computed _ =>
    match k2Indexes with
    | [] => .ub
    | first :: rest => do
      let entries ← mapOutcome (fun ik2 => do
        let k2 ← inner.getPointCoordinates ik2
        compute (k2.sub k1)) (first :: rest)
      .ok (.computed (some ⟨first, entries⟩))

/-- `HelperElScattering::get`, src/bte/helper_el_scattering.cpp L228-290.  The wavevector returned is computed from the
arguments, also when the rest comes from the cache. -/
def ElHelper.get (h : ElHelper α γ υ ω) (inner : Points) (pop : α → α → α) (temps : List α) (adaptive : Bool)
    (k1 : V3 Rat) (ik2 : Int) : Outcome (PhononOf α γ υ ω) := do
  let k2 ← inner.getPointCoordinates ik2
  let q3 := k2.sub k1
  match h with
  | .stored bands table =>
    let iq3 ← bands.points.getIndex q3
    let energies3 ← bands.getEnergies iq3.toNat
    let eigenVectors3 ← bands.getEigenvectors iq3.toNat
    let v3s ← if adaptive then (do let v ← bands.getGroupVelocities iq3.toNat; .ok (some v)) else .ok none
    let polar ← polarAt table iq3.toNat
    .ok ⟨q3, energies3, energies3.length, eigenVectors3, v3s, boseData pop temps energies3, polar⟩
  | .computed none => .ub
  | .computed (some c) => do
    let e ← c.get ik2
    .ok { e with q3 := q3 }

end Verif.Model
