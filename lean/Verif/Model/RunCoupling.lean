import Verif.Model.ElPhHeader
import Verif.Model.ElPhWrite
import Verif.Model.ElPhCoupling

/-!
# From the tensor of the conversion to the coupling of a transport run

The tensor `gWannier` of src/apps/qe_to_phoebe_wannier.cpp, the file of the first format, and the processes of a run that read it
and interpolate: the parts of C122, C121, C148 and C164, with the layouts of the memory.
-/
namespace Verif.Model

variable {E P M W : Nat}

/-- The coupling at natural numbers. -/
def couplingAtNumbers (d : ElPhData E P M W) (irE irP nu iw1 iw2 : Nat) : ℂ :=
  if h : irE < E ∧ irP < P ∧ nu < M ∧ iw1 < W ∧ iw2 < W then
    d.coupling ⟨irE, h.1⟩ ⟨irP, h.2.1⟩ ⟨nu, h.2.2.1⟩ ⟨iw1, h.2.2.2.1⟩ ⟨iw2, h.2.2.2.2⟩
  else 0

/-- Element `j` of the part of `gWannier(i, j, nu, irP, irE)` of lattice vector `irE`, in the layout of Eigen in which the first index is
fastest, src/apps/qe_to_phoebe_wannier.cpp L729-731.  The first index is the Wannier function at k+q (`coarseElPhData`). -/
def tensorMemory (d : ElPhData E P M W) (irE j : Nat) : ℂ :=
  couplingAtNumbers d irE (j / (W * W * M)) (j / (W * W) % M) (j / W % W) (j % W)

/-- The header of the file, src/apps/qe_to_phoebe_utils.cpp L375-444. -/
def headerOf (d : ElPhData E P M W) (numElectrons numSpin : Int) : ElPhFile Vec3 ℝ :=
  ⟨numElectrons, numSpin, W, M, List.ofFn d.phVectors, List.ofFn d.phDegeneracies, List.ofFn d.elVectors, List.ofFn d.elDegeneracies⟩

/-- What a process of a run has read. -/
structure ProcessCoupling where
  elVectors : List Vec3
  elDegeneracies : List ℝ
  phVectors : List Vec3
  phDegeneracies : List ℝ
  tensor : List ℂ

/-- What a process reads from a file of the first format, src/interaction/interaction_elph_parsing.cpp L163-270 and L284-525 (MPI and
parallel HDF5). -/
noncomputable def readCoupling (f : ElPhFile Vec3 ℝ) (data : List ℂ) (size ps rank : Nat) : Outcome ProcessCoupling := do
  let h ← elphHeader f size ps rank
  let perBV ← elphPerVector h.numElBands h.numPhBands h.phVectors.length
  let t ← if ps = 1 then v1Read data h.totalEl perBV size else v1Pool data h.totalEl perBV (rank % ps) ps
  .ok ⟨h.elVectors, h.elDegeneracies, h.phVectors, h.phDegeneracies, t⟩

/-- The processes of a pool, src/mpi/mpiController.cpp L52-78. -/
noncomputable def readPoolCoupling (f : ElPhFile Vec3 ℝ) (data : List ℂ) (size ps pool : Nat) : Outcome (List ProcessCoupling) :=
  mapOutcome (fun r => readCoupling f data size ps (pool * ps + r)) (List.range ps)

/-- What a process reads from a file of the second format, src/interaction/interaction_elph_parsing.cpp L163-270 and L527-640; `slices` are
its datasets. -/
noncomputable def readCoupling2 (f : ElPhFile Vec3 ℝ) (slices : Nat → List ℂ) (size ps rank : Nat) : Outcome ProcessCoupling := do
  let h ← elphHeader f size ps rank
  let perBV ← elphPerVector h.numElBands h.numPhBands h.phVectors.length
  let t ← if ps = 1 then v2Read slices h.totalEl perBV size else v2Pool slices h.totalEl perBV (rank % ps) ps
  .ok ⟨h.elVectors, h.elDegeneracies, h.phVectors, h.phDegeneracies, t⟩

/-- The processes of a pool with the second format, src/mpi/mpiController.cpp L52-78. -/
noncomputable def readPoolCoupling2 (f : ElPhFile Vec3 ℝ) (slices : Nat → List ℂ) (size ps pool : Nat) : Outcome (List ProcessCoupling) :=
  mapOutcome (fun r => readCoupling2 f slices size ps (pool * ps + r)) (List.range ps)

/-- The arrays on the device, src/interaction/interaction_elph.cpp L34-58: the memory of Eigen is read in the layout of Kokkos, in
which the last index is fastest. -/
def deviceData (P M W : Nat) (p : ProcessCoupling) : ElPhData p.elVectors.length P M W where
  coupling irE irP nu iw1 iw2 := p.tensor.getD (((((irE : ℕ) * P + irP) * M + nu) * W + iw1) * W + iw2) 0
  elVectors := p.elVectors.get
  elDegeneracies irE := p.elDegeneracies.getD irE 0
  phVectors irP := p.phVectors.getD irP 0
  phDegeneracies irP := p.phDegeneracies.getD irP 0

/-- `cacheElPh` in a pool whose processes have read `procs`, src/interaction/interaction_elph.cpp L492-701: each sums over all the vectors
that it has. -/
noncomputable def poolCache (P M W : Nat) (procs : List ProcessCoupling) (asked : Nat → Vec3 × (Fin W → Nat → ℂ)) (own : Nat) :
    CachedCoupling P M W :=
  match procs with
  | [p] => elphRotate (deviceData P M W p) (List.finRange _) (asked own).1 (asked own).2
  | _ => fun irP nu ib1 iw2 => (procs.map fun p => elphRotate (deviceData P M W p) (List.finRange _) (asked own).1 (asked own).2 irP nu ib1 iw2).sum

end Verif.Model
