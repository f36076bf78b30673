import Verif.Spec.Requirements
import Verif.Proofs.Bands
import Verif.Proofs.Utilities
import Mathlib.Algebra.Order.Group.Unbundled.Abs

/-! # Lemmas on required variables -/
namespace Verif.Proofs
open Verif.Model Verif.Spec

theorem needs_ok (v : InputVars) (n : String) : v.needs n = .ok () ↔ v.given n = true := by
  unfold InputVars.needs
  cases v.given n <;> simp

theorem needsMesh_given (m : Int × Int × Int) (h : needsMesh m = .ok ()) : MeshGiven m := by
  unfold needsMesh at h
  rw [Outcome.bind_eq_ok_iff] at h
  obtain ⟨a, h1, h⟩ := h
  rw [Outcome.bind_eq_ok_iff] at h
  obtain ⟨b, h2, h⟩ := h
  unfold cmul i32 at h1 h2
  split at h1 <;> cases h1
  split at h2 <;> cases h2
  by_cases h0 : m.1 * m.2.1 * m.2.2 = 0
  · rw [if_pos h0] at h; cases h
  · refine ⟨?_, ?_, ?_⟩ <;> intro e <;> exact h0 (by simp [e])

theorem needsMesh_ok (m : Int × Int × Int) (hf : MeshFits m) (hg : MeshGiven m) : needsMesh m = .ok () := by
  obtain ⟨h1, h2⟩ := hf
  rw [abs_lt] at h1 h2
  have e1 : cmul m.1 m.2.1 = .ok (m.1 * m.2.1) := i32_ok (by simp only [intMin]; omega) (by simp only [intMax]; omega)
  have e2 : cmul (m.1 * m.2.1) m.2.2 = .ok (m.1 * m.2.1 * m.2.2) :=
    i32_ok (by simp only [intMin]; omega) (by simp only [intMax]; omega)
  unfold needsMesh
  rw [e1]
  simp only [Outcome.bind_eq, Outcome.bind_ok]
  rw [e2]
  simp only [Outcome.bind_ok]
  rw [if_neg]
  exact mul_ne_zero (mul_ne_zero hg.1 hg.2.1) hg.2.2

theorem seq_ok (a b : Outcome Unit) : (a >>= fun _ => b) = .ok () ↔ a = .ok () ∧ b = .ok () := by
  rw [Outcome.bind_eq_ok_iff]
  constructor
  · rintro ⟨_, h1, h2⟩; exact ⟨h1, h2⟩
  · rintro ⟨h1, h2⟩; exact ⟨(), h1, h2⟩

theorem needsSmearing_ok (v : InputVars) :
    v.needsSmearing = .ok () ↔ (v.smearingMethod = 0 → v.given "smearingWidth" = true) := by
  unfold InputVars.needsSmearing
  rw [seq_ok]
  by_cases h : v.smearingMethod = 0
  · simp [h, needsInteger, needs_ok]
  · simp [h, needsInteger]

theorem needsPotentials_ok (v : InputVars) :
    v.needsPotentials = .ok () ↔ (v.given "dopings" = true ∨ v.given "chemicalPotentials" = true) := by
  unfold InputVars.needsPotentials
  cases v.given "dopings" <;> cases v.given "chemicalPotentials" <;> simp

theorem allGiven_cons (v : InputVars) (a : String) (l : List String) :
    AllGiven v (a :: l) ↔ v.given a = true ∧ AllGiven v l := by
  unfold AllGiven; simp

theorem allGiven_nil (v : InputVars) : AllGiven v [] ↔ True := by
  unfold AllGiven; simp

theorem needsPotentialsOrRange_ok (v : InputVars) : v.needsPotentialsOrRange = .ok () ↔ PotentialsGiven v := by
  unfold InputVars.needsPotentialsOrRange PotentialsGiven
  simp only [allGiven_cons, allGiven_nil]
  cases v.given "dopings" <;> cases v.given "chemicalPotentials" <;> cases v.given "minChemicalPotential" <;>
    cases v.given "maxChemicalPotential" <;> cases v.given "deltaChemicalPotential" <;> simp

theorem needsCouplingOrFilling_ok (v : InputVars) : v.needsCouplingOrFilling = .ok () ↔
    (v.given "constantRelaxationTime" = false → v.given "elphFileName" = true ∧
      (v.smearingMethod = 0 → v.given "smearingWidth" = true)) ∧
    (v.given "constantRelaxationTime" = true → v.given "numOccupiedStates" = true ∨ v.given "fermiLevel" = true) := by
  unfold InputVars.needsCouplingOrFilling
  cases v.given "constantRelaxationTime"
  · rw [if_pos rfl, seq_ok, needs_ok, needsSmearing_ok]; simp
  · cases v.given "numOccupiedStates" <;> cases v.given "fermiLevel" <;> simp

/-- The test ends with acceptance or with an error. -/
def Decides (o : Outcome Unit) : Prop := o = .ok () ∨ o = .error

theorem decides_seq {a b : Outcome Unit} (ha : Decides a) (hb : Decides b) : Decides (a >>= fun _ => b) := by
  rcases ha with rfl | rfl
  · exact hb
  · exact Or.inr rfl

theorem decides_needs (v : InputVars) (n : String) : Decides (v.needs n) := by
  unfold InputVars.needs Decides; cases v.given n <;> simp

theorem decides_ite {c : Prop} [Decidable c] {a b : Outcome Unit} (ha : Decides a) (hb : Decides b) :
    Decides (if c then a else b) := by split <;> assumption

theorem decides_ok : Decides (.ok ()) := Or.inl rfl

theorem decides_error : Decides .error := Or.inr rfl

theorem decides_integer : Decides needsInteger := Or.inl rfl

theorem decides_mesh (m : Int × Int × Int) (hf : MeshFits m) : Decides (needsMesh m) := by
  obtain ⟨h1, h2⟩ := hf
  rw [abs_lt] at h1 h2
  have e1 : cmul m.1 m.2.1 = .ok (m.1 * m.2.1) := i32_ok (by simp only [intMin]; omega) (by simp only [intMax]; omega)
  have e2 : cmul (m.1 * m.2.1) m.2.2 = .ok (m.1 * m.2.1 * m.2.2) :=
    i32_ok (by simp only [intMin]; omega) (by simp only [intMax]; omega)
  unfold needsMesh
  rw [e1]
  simp only [Outcome.bind_eq, Outcome.bind_ok]
  rw [e2]
  simp only [Outcome.bind_ok]
  exact decides_ite decides_error decides_ok

theorem decides_smearing (v : InputVars) : Decides v.needsSmearing :=
  decides_seq decides_integer (decides_ite (decides_needs v _) decides_ok)

theorem decides_potentials (v : InputVars) : Decides v.needsPotentials := decides_ite decides_error decides_ok

theorem decides_range (v : InputVars) : Decides v.needsPotentialsOrRange := decides_ite decides_error decides_ok

theorem decides_filling (v : InputVars) : Decides v.needsCouplingOrFilling :=
  decides_ite (decides_seq (decides_needs v _) (decides_smearing v)) (decides_ite decides_error decides_ok)

theorem decides_plot (v : InputVars) (h : Decides (needsMesh v.kMesh)) : Decides v.needsPlotPoints :=
  decides_ite (decides_needs v _) h

theorem decides_interpolation (v : InputVars) : Decides v.needsInterpolation := decides_ite decides_error decides_ok

theorem decides_requirements (app : AppKind) (v : InputVars) (hq : MeshFits v.qMesh) (hk : MeshFits v.kMesh) :
    Decides (checkRequirements app v) := by
  have mq := decides_mesh _ hq
  have mk := decides_mesh _ hk
  cases app <;> unfold checkRequirements <;>
    repeat (first
      | exact decides_needs v _ | exact mq | exact mk | exact decides_smearing v | exact decides_potentials v
      | exact decides_range v | exact decides_filling v | exact decides_ok | exact decides_error
      | exact decides_integer | exact decides_plot v mk | exact decides_interpolation v | apply decides_seq | apply decides_ite)

end Verif.Proofs
