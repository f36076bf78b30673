import Verif.Model.Atoms
import Verif.Model.BandsFile
import Verif.Model.Phonopy
import Verif.Model.QeForce

/-!
# From the files of the force constants to the file of the phonon bands

src/apps/bands_app.cpp L19-45: `PhononBandsApp::run` with the two parsers, the constructors of `Crystal` and `PhononH0` and the output.
-/
namespace Verif.Model

/-- What the two parsers hand to the constructors of `Crystal` and `PhononH0`, src/parser/qe_input_parser.cpp L550-563,
src/parser/phonopy_input_parser.cpp L564-566.  The force constants are `forceConstants(i, j, r1, r2, r3, iat, jat)`. -/
structure HarmonicInput where
  cell : Mat3
  positions : List Vec3
  species : List Int
  names : List (List Char)
  masses : List ℝ
  eps : Mat3
  born : Nat → Fin 3 → Fin 3 → ℝ
  grid : V3 Int
  force : V3 Int → Nat → Nat → Fin 3 → Fin 3 → ℝ

/-- The arguments of the constructors after a file of Quantum ESPRESSO, src/parser/qe_input_parser.cpp L440-475, L550-563: the columns of `directUnitCell`
are the lattice vectors. -/
noncomputable def FcParsed.toInput (f : FcParsed) : HarmonicInput where
  cell := fun i k => if k = 0 then f.cell.1 i else if k = 1 then f.cell.2.1 i else f.cell.2.2 i
  positions := f.atoms.map Prod.snd
  species := f.atoms.map Prod.fst
  names := f.species.map fun s => s.1.toList
  masses := f.species.map Prod.snd
  eps := fun i j => f.dielectric.getD i 0 j
  born := fun a i j => (f.born.getD a []).getD i 0 j
  grid := ⟨f.grid.1, f.grid.2.1, f.grid.2.2⟩
  force := fun n a b i j => f.elem i j n.x.toNat n.y.toNat n.z.toNat a b

/-- The arguments of the constructors after the files of phonopy, src/parser/phonopy_input_parser.cpp L472-566.  The parser sets all the elements of the
force constants or stops. -/
noncomputable def PhonopyData.toInput (p : PhonopyData) : HarmonicInput where
  cell := p.cell
  positions := p.positions
  species := p.species.map Int.ofNat
  names := p.names
  masses := p.masses
  eps := p.dielectric
  born := p.born
  grid := p.grid
  force := fun n a b i j => (p.force n a b i j).getD 0

/-- What the run depends on besides the files: constants, input variables, the process, and the external calls.  `eig` is the eigensolver, `arrange` the order
of the sum over the vectors of the reciprocal lattice, `wrap` is `bzToWs` on Cartesian coordinates, `sched` the order in which the threads make the calls of
a batch. -/
structure BandsRun where
  ry : ℝ
  ang : ℝ
  want : Bool
  rule : String
  eig : (A : Nat) → EigenSolver A
  arrange : List Vec3 → List Vec3
  wrap : Cell → Vec3 → Vec3
  segs : List Segment
  delta : ℝ
  batchSize : Int
  sched : List FullStore × List FullStore → List FullStore
  size : Nat
  rank : Nat

/-- The constructors and the rest of the app, for a crystal with `A` atoms and a supercell of the given sizes, src/crystal.cpp L22-116,
src/harmonic/phonon_h0.cpp L18-54, src/apps/bands_app.cpp L27-41.  Simplification: the masses are those of the files, the input file does not replace them
(C158); the symmetries of the crystal are not used. -/
noncomputable def harmonicRun (R : BandsRun) (x : HarmonicInput) (A n1 n2 n3 : Nat) : Outcome (Option BandsFile) := do
  let cell ← makeCell x.cell
  if x.species.length ≠ x.positions.length then .error
  else if x.masses.length ≠ x.names.length then .error
  else do
    let _ ← mapOutcome (getMassVariance elementTable) x.names
    let ms ← mapOutcome (readInt x.masses) x.species
    let ns ← mapOutcome (readInt x.names) x.species
    if h : 0 < n1 ∧ 0 < n2 ∧ 0 < n3 then
      haveI : NeZero n1 := ⟨h.1.ne'⟩
      haveI : NeZero n2 := ⟨h.2.1.ne'⟩
      haveI : NeZero n3 := ⟨h.2.2.ne'⟩
      (makePhononH0 R.rule
          (⟨x.cell, cell.reciprocal, cell.volume, fun a => x.positions.getD a 0, fun a => ms.getD a 0, x.eps, fun a => x.born a⟩ : PhCrystal A)
          (fun e : FcIx A n1 n2 n3 => x.force ⟨e.1.val, e.2.1.val, e.2.2.1.val⟩ e.2.2.2.2.2.1 e.2.2.2.2.2.2 e.2.2.2.1 e.2.2.2.2.1)).bind fun s =>
        phononBandsApp R.ry R.ang R.want (A * 3) (phononView (R.eig A) s.1 s.2 (R.arrange (s.1.gVectors n1 n2 n3))) cell (R.wrap cell)
          ⟨x.cell, x.positions, ns.map String.ofList⟩ R.segs R.delta R.batchSize R.sched R.size R.rank
    else .error

/-- The number of atoms and the supercell are those of the parser; a grid that is not positive is an error, src/parser/qe_input_parser.cpp L554-556. -/
noncomputable def bandsOfInput (R : BandsRun) (x : HarmonicInput) : Outcome (Option BandsFile) :=
  harmonicRun R x x.positions.length x.grid.x.toNat x.grid.y.toNat x.grid.z.toNat

/-- `PhononBandsApp::run` with a file of Quantum ESPRESSO, src/apps/bands_app.cpp L19-45. -/
noncomputable def bandsFromEspresso (R : BandsRun) (ls : List FcLine) : Outcome (Option BandsFile) := do
  let f ← parsePhHarmonic ls
  bandsOfInput R f.toInput

/-- `PhononBandsApp::run` with the files of phonopy, src/apps/bands_app.cpp L19-45.  The arguments are those of the parser. -/
noncomputable def bandsFromPhonopy (R : BandsRun) (bohr ryd amu : ℝ) (mass : List Char → Outcome ℝ) (evAng : String → Bool) (newline : Bool)
    (lines : List PhLine) (born : Option (List BornLine)) (fc : Fc2File) : Outcome (Option BandsFile) := do
  let p ← parsePhonopy bohr ryd amu mass evAng newline lines born fc
  bandsOfInput R p.toInput

end Verif.Model
