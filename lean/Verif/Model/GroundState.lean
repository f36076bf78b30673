import Verif.Model.Sweep

/-!
# Filling of the ground state: the constructor of `StatisticsSweep`, src/statistics_sweep.cpp L54-125

Number of occupied states and Fermi level of the undoped crystal at zero temperature, from the number of electrons or from
the Fermi level of the input.  Integers and `double`s are taken as reals; the product `numBands * numPoints` of L120 is
taken without overflow.
-/
namespace Verif.Model

/-- What the constructor reads: `getNumOccupiedStates()` and `getFermiLevel()` of the context (`none` for NaN), the flag of
spin-orbit coupling, the number of bands, of wavevectors of the whole mesh, the volume of the cell and the conversion of
volumes. -/
structure GroundInput where
  numOccupied : Option ℝ
  fermiLevel : Option ℝ
  spinOrbit : Bool
  numBands : Nat
  numPoints : Nat
  volume : ℝ
  cm3 : ℝ

/-- `spinFactor`, src/statistics_sweep.cpp L58-63. -/
noncomputable def GroundInput.spinFactor (g : GroundInput) : ℝ := if g.spinOrbit then 1 else 2

/-- `occupiedStatesPrivate` of one thread, which gets the states `share`, src/statistics_sweep.cpp L105-110. -/
noncomputable def threadBelow (level : ℝ) (share : List ℝ) : ℝ :=
  share.foldl (fun acc e => if e < level then acc + 1 else acc) 0

/-- The threads add their numbers one after the other (`omp critical`, L111-112), in the order of the list. -/
noncomputable def sumBelow (level : ℝ) (shares : List (List ℝ)) : ℝ :=
  shares.foldl (fun acc s => acc + threadBelow level s) 0

/-- `occupiedStates`, src/statistics_sweep.cpp L91-118, on a process whose states are given to threads as `shares`. -/
noncomputable def occupiedProg (g : GroundInput) (distributed : Bool) (shares : List (List ℝ)) : Prog :=
  match g.numOccupied, g.fermiLevel with
  | some n, _ => .ret (n / g.spinFactor)
  | none, none => .err
  | none, some level =>
    let n := sumBelow level shares / g.numPoints
    if distributed then .red .sum n fun s => .ret s else .ret n

/-- The members used by the search, once the number of occupied states is known. -/
noncomputable def GroundInput.search (g : GroundInput) (occupied guess : ℝ) : SearchData :=
  { numPoints := g.numPoints, numBands := g.numBands, occupiedStates := occupied, fermiLevel := guess
    volume := g.volume, spinFactor := g.spinFactor, cm3 := g.cm3 }

/-- `fermiLevel`, src/statistics_sweep.cpp L91-125, on a process with energies `states`: the one of the input if the number of
electrons is not known; otherwise the mean of the energies, refined by the search at zero temperature and doping. -/
noncomputable def fermiProg (g : GroundInput) (distributed head : Bool) (states : List ℝ) : Prog :=
  match g.numOccupied, g.fermiLevel with
  | none, none => .err
  | none, some level => .ret level
  | some n, _ =>
    let go : ℝ → Prog := fun sum =>
      findMuProg distributed head (g.search (n / g.spinFactor) (sum / (g.numBands * g.numPoints))) states 0 0
    if distributed then .red .sum (states.foldl (· + ·) 0) go else go (states.foldl (· + ·) 0)

end Verif.Model
