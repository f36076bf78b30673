import Verif.Model.PathPhTimes
import Verif.Model.Degeneracy
import Verif.Model.Sheng
import Verif.Model.Phono3py
import Verif.Model.Input

/-!
# The phonon lifetimes along a path from the files of third-order force constants

`IFC3Parser::parse` (src/parser/ifc3_parser.cpp L14-35) and the couplings of a pair of wavevectors (src/bte/ph_scattering.cpp L186-283), put in front of
`PathPhApp.run` (C183).  Simplifications: the batches of wavevectors are one (C60, C62); the eigenvectors and energies of the third phonon are those at the sum or
the difference of the two wavevectors after `bzToWs`, which differ from the coordinates of the program (src/bte/helper_3rd_state.cpp L250-258) by reciprocal lattice
vectors.
-/
namespace Verif.Model

/-- The input of `IFC3Parser::parse`: the two file names of the input, and what is in the files. -/
structure ThirdInput where
  name : Str
  dispName : Str
  newline : Bool
  triplets : List (List FcToken)
  displacements : List YamlLine
  tensor : Fc3File

/-- `IFC3Parser::parse`, src/parser/ifc3_parser.cpp L14-35: the name of the file decides. -/
noncomputable def parseThird {A : Nat} (d : Mat3) (pos : Fin A → Vec3) (bohr ryd : ℝ) (f : ThirdInput) : Outcome Coupling3Ph :=
  if patternInString f.name "hdf5".toList then
    if f.dispName = [] then .error else parsePhono3py d pos bohr ryd f.newline f.displacements f.tensor
  else parseSheng A bohr ryd f.newline f.triplets

/-- An element of the averaged tensor, src/bte/scattering.cpp L1209-1318; elements outside of it are not read. -/
noncomputable def Tensor3.averaged (t : Tensor3) (e1 e2 e3 : Nat → ℝ) (b1 b2 b3 : Nat) : ℝ :=
  if b1 < t.d0 ∧ b2 < t.d1 ∧ b3 < t.d2 then symmetrizeCoupling t.d0 t.d1 t.d2 e1 e2 e3 t.val b1 b2 b3 else 0

/-- The couplings of a pair of wavevectors, src/bte/ph_scattering.cpp L186-283: `cacheD3` (L190), the eigenvectors (L169, L244-246), the squared couplings
(L261-265) and their averages (L273-282). -/
noncomputable def PathPhApp.pairCouplings (P : PathPhApp) (o : Coupling3Ph) (q1 q2 : Vec3) :
    Outcome ((Nat → Nat → Nat → ℝ) × (Nat → Nat → Nat → ℝ)) := do
  let plus : Vec3 := fun i => q1 i + q2 i
  let minus : Vec3 := fun i => q1 i - q2 i
  let res ← getCouplingsSquared (o.cacheD3 q2) [⟨q1, P.H.vector q1, P.H.vector plus, P.H.vector minus, P.bands, P.bands, P.bands⟩] q2 (P.H.vector q2) P.bands
  let t ← readAt res 0
  .ok (t.1.averaged (P.H.energy q1) (P.H.energy q2) (P.H.energy plus), t.2.averaged (P.H.energy q1) (P.H.energy q2) (P.H.energy minus))

/-- The couplings of the run are those of the third-order force constants (`getCouplingsSquared` fails for empty batches only). -/
noncomputable def PathPhApp.withThird (P : PathPhApp) (o : Coupling3Ph) : PathPhApp :=
  { P with
    plus := fun q1 q2 b1 b2 b3 => match P.pairCouplings o q1 q2 with | .ok c => c.1 b1 b2 b3 | _ => 0
    minus := fun q1 q2 b1 b2 b3 => match P.pairCouplings o q1 q2 with | .ok c => c.2 b1 b2 b3 | _ => 0 }

/-- `PhononLifetimesApp::run`, src/apps/lifetimes_app.cpp L59-98, with the file of the third-order force constants (L67). -/
noncomputable def PathPhApp.runFrom {A : Nat} (P : PathPhApp) (d : Mat3) (pos : Fin A → Vec3) (bohr ryd : ℝ) (f : ThirdInput) (u : FileUnits) (ang : ℝ)
    (c : AtomsView) (segs : List Segment) (delta : ℝ) (batchSize : Nat → Int) (sched : Nat → List FullStore × List FullStore → List FullStore) (sweep : Sweep)
    (size : Nat) : Outcome (TimesOutput × Option BandsFile) := do
  let o ← parseThird d pos bohr ryd f
  (P.withThird o).run u ang c segs delta batchSize sched sweep size

end Verif.Model
