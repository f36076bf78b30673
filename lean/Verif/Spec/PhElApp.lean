import Verif.Model.PhElApp
import Verif.Spec.ActiveRun
import Verif.Spec.ElRates

/-! # Specification: linewidths of phonons due to electrons -/
namespace Verif.Spec
open Verif.Model

/-- An electron state: energy and group velocity, the diagonal of the velocity operator. -/
noncomputable def electronState (A : PhElApp) (k : V3 Rat) (b : Nat) : ElState :=
  ⟨A.H.energy k b, fun i => (A.H.velocity k b b i.val).re⟩

/-- Contribution of the transition from the first to the second band to the linewidth of mode `m` (frequency `omega`) of
the phonon with index `iq` and coordinates `q`: coupling, `f (1 - f) / T` and delta function of the conservation of
energy in absorption; no contribution from phonons below the cutoff. -/
noncomputable def transition (A : PhElApp) (T mu : ℝ) (k : V3 Rat) (iq m : Nat) (omega : ℝ) (b1 b2 : Nat) : ℝ :=
  let q := A.qCoords iq
  let k2 : V3 Rat := ⟨k.x + q.x, k.y + q.y, k.z + q.z⟩
  A.coupling k b1 iq b2 m * (occupationFactor .fermi (A.H.energy k b1) T mu / T) *
    (if omega < A.cutoff then 0 else max (elDelta1 A.smearing (electronState A k b1) (electronState A k2 b2) omega) 0)

/-- `π / N` times the sum, over all the wavevectors of the mesh of the electrons and the pairs of bands, of the
transitions whose first state satisfies `keep`. -/
noncomputable def phononLinewidth (A : PhElApp) (keep : ℝ → Prop) (T mu : ℝ) (iq m : Nat) (omega : ℝ) : ℝ :=
  open Classical in
  Real.pi / A.numK * ∑ i ∈ Finset.range A.numK, ∑ b1 ∈ Finset.range A.bands, ∑ b2 ∈ Finset.range A.bands,
    if keep (A.H.energy (A.kCoords i) b1) then transition A T mu (A.kCoords i) iq m omega b1 b2 else 0

/-- The energies that the app keeps: within `1.25` times the largest energy of the active phonons of the range of the
chemical potentials of the sweep. -/
def NearFermi (A : PhElApp) (sweep : Sweep) (e : ℝ) : Prop :=
  ∃ w ∈ A.phonons.arrays.energies, ∃ r ∈ sweep.table, ∃ r' ∈ sweep.table,
    r.chemicalPotential - 1.25 * w < e ∧ e < r'.chemicalPotential + 1.25 * w

/-- An execution of the selection of the electrons by `size` processes, which gives the lists `f` of points, first and
last bands. -/
def SelectedElectrons (A : PhElApp) (sweep : Sweep) (temperatures : List ℝ) (size : Nat)
    (f : List Nat × List Nat × List Nat) : Prop :=
  ∃ sel mine, A.select sweep temperatures = .ok sel ∧ ActiveScan A.numK size sel mine ∧
    collectActive mine = .ok (List.replicate size f)

end Verif.Spec
