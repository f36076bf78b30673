import Verif.Model.Device

/-!
# Device memory of the electron-phonon coupling: src/interaction/interaction_elph.cpp
-/
namespace Verif.Model

/-- Memory per wavevector `evs + polar + max{...}` of src/interaction/interaction_elph.cpp L459-475, computed in `int` with
`w = numElBands = maxNb2`, `m = numPhBands = maxNb3`, `p = numPhBravaisVectors`, and only then converted to `double`. -/
def elphMemoryPerWavevector (w m p nb1 : Int) : Outcome Int := do
  let ww ← cmul w w
  let mm ← cmul m m
  let both ← cadd ww mm
  let evs ← cmul 16 both
  let phase ← cmul 16 p
  let g3 ← cprod 2 [16, m, nb1, w]
  let g4 ← cprod 2 [16, m, nb1, w]
  let gFinal ← cprod 2 [16, m, nb1, w]
  let coupling ← cprod 16 [nb1, w, m]
  let polar ← cprod 16 [m, nb1, w]
  .ok (evs + polar + max (phase + g3) (max (g3 + g4) (max (g4 + gFinal) (gFinal + coupling))))

/-- `InteractionElPhWan::estimateNumBatches`, src/interaction/interaction_elph.cpp L458-490.  No available memory, or no
wavevectors: as for `estimateNumBatches`. -/
def elphEstimateNumBatches (w m p nk2 nb1 : Int) (availableMemory : Rat) : Outcome Int := do
  let per ← elphMemoryPerWavevector w m p nb1
  let maxUsage : Rat := nk2 * per
  if availableMemory = 0 then .ub
  else do
    let numBatches ← i32 ⌈maxUsage / availableMemory⌉
    if nk2 ≠ 0 ∧ availableMemory < maxUsage / nk2 then .error else .ok numBatches

/-- The device arrays allocated and released by `calcCouplingSquared` for a batch of `n` wavevectors,
src/interaction/interaction_elph.cpp L264-433: `nb2s` (L264), `usePolarCorrections`, `polarCorrections` (L277-279), `q3`,
`ev2Dagger`, `ev3` (L319-321), `phases` (L354), `g3` (L367), release of `phases` (L376), `g4` (L378), release of `g3` (L388),
`gFinal` (L390), release of `g4` (L400), release of `polarCorrections` (L411), the squared couplings (L414), release of
`gFinal` (L424).  `b2` is the largest number of bands of the second state. -/
def elphCouplingMemory (w m p n nb1 b2 : Nat) : List MemOp :=
  [.alloc (4 * n), .alloc (4 * n), .alloc (16 * n * m * nb1 * b2), .alloc (8 * n * 3), .alloc (16 * n * w * b2),
   .alloc (16 * n * m * m),
   .alloc (16 * n * p), .alloc (16 * n * m * nb1 * w), .free (16 * n * p),
   .alloc (16 * n * m * nb1 * w), .free (16 * n * m * nb1 * w),
   .alloc (16 * n * m * nb1 * b2), .free (16 * n * m * nb1 * w),
   .free (16 * n * m * nb1 * b2), .alloc (8 * n * m * b2 * nb1), .free (16 * n * m * nb1 * b2)]

/-- One interaction: what `DeviceManager` has registered, and the bytes of `elPhCached`. -/
structure ElPhDevice where
  registered : Int
  cache : Nat

/-- `getDeviceMemoryUsage`, src/interaction/interaction_elph.cpp L703-707; `base` are the bytes of the arrays that do not change. -/
def ElPhDevice.usage (base : Nat) (s : ElPhDevice) : Int := base + s.cache

/-- The memory in `cacheElPh`, src/interaction/interaction_elph.cpp L509-510, L622-623 and L697-699: only in a pool of one
process is the array of the object replaced here. -/
def ElPhDevice.cacheElPh (base poolSize w m p nb1 : Nat) (s : ElPhDevice) : ElPhDevice :=
  let removed := s.registered - s.usage base
  let cache := if poolSize = 1 then 16 * p * m * nb1 * w else s.cache
  ⟨removed + ElPhDevice.usage base ⟨removed, cache⟩, cache⟩

/-- The memory in `calcCouplingSquared`, src/interaction/interaction_elph.cpp L239-256: in a pool of more processes the array of
the object is replaced by what the pool has computed for this process. -/
def ElPhDevice.calcCouplingSquared (poolSize w m p nb1 : Nat) (s : ElPhDevice) : ElPhDevice :=
  if 1 < poolSize then ⟨s.registered, 16 * p * m * nb1 * w⟩ else s

/-- The work for one wavevector k1 with `nb1` bands, in `numBatches` batches, src/bte/el_scattering.cpp L161-213
(src/bte/phel_scattering.cpp L192-196). -/
def ElPhDevice.wavevector (base poolSize w m p : Nat) (nb1 numBatches : Nat) (s : ElPhDevice) : ElPhDevice :=
  (List.range numBatches).foldl (fun t _ => t.calcCouplingSquared poolSize w m p nb1) (s.cacheElPh base poolSize w m p nb1)

end Verif.Model
