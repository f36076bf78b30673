import Verif.Model.ElRates
import Verif.Model.VectorBte

/-!
# src/bte/phel_scattering.cpp: linewidths of phonons scattered by electrons

Floating-point numbers are modelled as real numbers.  The squared couplings, after their average over degenerate states
(`symmetrizeCoupling`, `Verif.Model.Degeneracy`), are inputs; one calculation (temperature and chemical potential) is
followed.
-/
namespace Verif.Model

/-- `smearingValues`, src/bte/phel_scattering.cpp L283-302: `e3` is the phonon energy, `delta` the delta function of
`e1 - e2 + e3` (the same as `delta1` of electron scattering). -/
noncomputable def phelSmearing (p : ElSetup) (s1 s2 : ElState) (e3 : ℝ) : ℝ :=
  if e3 < p.phononCutoff then 0 else max (elDelta1 p.smearing s1 s2 e3) 0

/-- `rate`, src/bte/phel_scattering.cpp L338-341, with `fermiTerm` of L97; `k1Weight` is the number of points in the
star of k1 (L188-189). -/
noncomputable def phelRate (p : ElSetup) (coupling k1Weight : ℝ) (s1 s2 : ElState) (e3 : ℝ) : ℝ :=
  coupling * getPopPopPm1 .fermi s1.energy p.temperature p.mu * phelSmearing p s1 s2 e3 * p.norm / p.temperature *
    Real.pi * k1Weight

/-- What the loops read: irreducible phonon wavevectors, BTE index and energy of the modes of each, electron states at
`k1` and `k1 + q` with the coupling to a mode, and the star of a point. -/
structure PhElData where
  irrQ : List Nat
  modes : Nat → List (Nat × ℝ)
  pairs : Nat → Nat → Nat → List (ElState × ElState × ℝ)
  star : Nat → List Nat

/-- The updates of one wavevector `k1`, src/bte/phel_scattering.cpp L258-353: BTE index and rate. -/
noncomputable def phelAdds (p : ElSetup) (d : PhElData) (k1 : Nat) : List (Nat × ℝ) :=
  d.irrQ.flatMap fun q => (d.modes q).flatMap fun m => (d.pairs k1 q m.1).map fun t =>
    (m.1, phelRate p t.2.2 ((d.star k1).length : ℝ) t.1 t.2.1 m.2)

/-- The loop of one process over its irreducible wavevectors, src/bte/phel_scattering.cpp L9-25 and L153-355. -/
noncomputable def phelProcess (p : ElSetup) (d : PhElData) (ks : List Nat) : Nat → ℝ :=
  (ks.flatMap (phelAdds p d)).foldl (fun lw a => addAt lw a.1 a.2) fun _ => 0

/-- `PhElScatteringMatrix::builder`, src/bte/phel_scattering.cpp L43-364, on `size` processes: the tetrahedron scheme is
refused (L136-140), the points of a process are those of `parallelIrrPointsIterator`, the linewidths are reduced and
averaged over degenerate states. -/
noncomputable def phelLinewidths (p : ElSetup) (d : PhElData) (irrK : List Nat) (size : Nat)
    (points : List (DegPoint ℝ)) : Outcome (List (Nat → ℝ)) :=
  match p.smearing with
  | .tetra _ => .error
  | _ => .ok ((allReduceSum1 ((List.range size).map fun r => phelProcess p d (sliceOf irrK r size))).map fun lw =>
      degeneracyAveraging points (fun _ => lw) 0)

/-- `getIrrWavevectorPairs`, src/bte/phel_scattering.cpp L9-25, of one process.  Unlike
`getIteratorWavevectorPairs` (src/bte/scattering.cpp L1016-1029), the lists of the processes of a pool are not padded to
the same length. -/
def phelPairs (irrK irrQ : List Nat) (rank size : Nat) : List PairItem :=
  (sliceOf irrK rank size).map fun k => (irrQ.map Int.ofNat, Int.ofNat k)

end Verif.Model
