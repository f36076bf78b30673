import Verif.Model.PhononRun
import Verif.Model.DosApp

/-!
# From the files of the force constants to the file of the phonon density of states

src/apps/dos_app.cpp L24-57: `PhononDosApp::run` with the two parsers, the constructors of `Crystal` and `PhononH0`, the tetrahedra and the output.
-/
namespace Verif.Model

/-- What the run depends on besides the files: constants, input variables, the rotations of the crystal (`spglib`), the number of processes, and the external calls.
`eig` is the eigensolver, `arrange` the order of the sum over the vectors of the reciprocal lattice, `wrap` is `bzToWs` on Cartesian coordinates, `sched` the order in
which the threads of a process make the calls of a batch. -/
structure PhononDosRun where
  k : TimeConstants
  rule : String
  rots : List M3
  eig : (A : Nat) → EigenSolver A
  arrange : List Vec3 → List Vec3
  wrap : Cell → Vec3 → Vec3
  mesh : V3 Int
  minEnergy : ℝ
  maxEnergy : ℝ
  delta : ℝ
  batchSize : Int
  sched : Nat → List FullStore × List FullStore → List FullStore
  size : Nat

/-- The constructors and the rest of the app, for a crystal with `A` atoms and a supercell of the given sizes, src/crystal.cpp L22-116,
src/harmonic/phonon_h0.cpp L18-54, src/apps/dos_app.cpp L33-55.  Simplification: the masses are those of the files, the input file does not replace them (C158). -/
noncomputable def PhononDosRun.harmonic (D : PhononDosRun) (x : HarmonicInput) (A n1 n2 n3 : Nat) : Outcome DosFile := do
  let cell ← makeCell x.cell
  if x.species.length ≠ x.positions.length then .error
  else if x.masses.length ≠ x.names.length then .error
  else do
    let _ ← mapOutcome (getMassVariance elementTable) x.names
    let ms ← mapOutcome (readInt x.masses) x.species
    let _ ← mapOutcome (readInt x.names) x.species
    if h : 0 < n1 ∧ 0 < n2 ∧ 0 < n3 then
      haveI : NeZero n1 := ⟨h.1.ne'⟩
      haveI : NeZero n2 := ⟨h.2.1.ne'⟩
      haveI : NeZero n3 := ⟨h.2.2.ne'⟩
      (makePhononH0 D.rule
          (⟨x.cell, cell.reciprocal, cell.volume, fun a => x.positions.getD a 0, fun a => ms.getD a 0, x.eps, fun a => x.born a⟩ : PhCrystal A)
          (fun e : FcIx A n1 n2 n3 => x.force ⟨e.1.val, e.2.1.val, e.2.2.1.val⟩ e.2.2.2.2.2.1 e.2.2.2.2.2.2 e.2.2.2.1 e.2.2.2.2.1)).bind fun s =>
        dosApp D.k (.phonon D.batchSize D.sched) (A * 3) (phononView (D.eig A) s.1 s.2 (D.arrange (s.1.gVectors n1 n2 n3))) cell (D.wrap cell)
          D.rots D.mesh D.minEnergy D.maxEnergy D.delta D.size
    else .error

/-- The number of atoms and the supercell are those of the parser; a grid that is not positive is an error, src/parser/qe_input_parser.cpp L554-556. -/
noncomputable def PhononDosRun.ofInput (D : PhononDosRun) (x : HarmonicInput) : Outcome DosFile :=
  D.harmonic x x.positions.length x.grid.x.toNat x.grid.y.toNat x.grid.z.toNat

/-- `PhononDosApp::run` with a file of Quantum ESPRESSO, src/apps/dos_app.cpp L24-57. -/
noncomputable def PhononDosRun.fromEspresso (D : PhononDosRun) (ls : List FcLine) : Outcome DosFile := do
  let f ← parsePhHarmonic ls
  D.ofInput f.toInput

/-- `PhononDosApp::run` with the files of phonopy, src/apps/dos_app.cpp L24-57.  The arguments are those of the parser. -/
noncomputable def PhononDosRun.fromPhonopy (D : PhononDosRun) (bohr ryd amu : ℝ) (mass : List Char → Outcome ℝ) (evAng : String → Bool) (newline : Bool)
    (lines : List PhLine) (born : Option (List BornLine)) (fc : Fc2File) : Outcome DosFile := do
  let p ← parsePhonopy bohr ryd amu mass evAng newline lines born fc
  D.ofInput p.toInput

end Verif.Model
