import Verif.Proofs.Requirements
import Mathlib.Tactic.FinCases

/-! # C173: missing input variables are refused -/
namespace Verif.Props
open Verif.Model Verif.Spec Verif.Proofs

/-- C173: an input with everything that the documentation requires is accepted by every application, when temperatures and
chemical potentials are listed rather than given as ranges. -/
theorem C173_accepts_partial (app : AppKind) (v : InputVars) (hq : MeshFits v.qMesh) (hk : MeshFits v.kMesh)
    (hT : TemperaturesGiven v → v.given "temperatures" = true)
    (hP : app ≠ .electronWannierTransport → PotentialsGiven v →
      v.given "dopings" = true ∨ v.given "chemicalPotentials" = true)
    (hd : Documented app v) : checkRequirements app v = .ok () := by
  have mq := needsMesh_ok _ hq
  have mk := needsMesh_ok _ hk
  have hs : SmearingGiven v → (v.smearingMethod = 0 → v.given "smearingWidth" = true) := by
    rintro (h | h | h) h0
    · exact h.2
    · omega
    · omega
  have hc : CouplingOrFilling v → v.needsCouplingOrFilling = .ok () := by
    rw [needsCouplingOrFilling_ok]
    intro h
    rcases h with ⟨h1, h2, h3⟩ | ⟨h1, h2⟩
    · exact ⟨fun _ => ⟨h2, hs h3⟩, fun h => by rw [h1] at h; cases h⟩
    · exact ⟨fun h => (by rw [h1] at h; cases h), fun _ => h2⟩
  cases app <;> simp only [Documented, allGiven_cons, allGiven_nil, and_true] at hd <;> unfold checkRequirements <;>
    simp only [seq_ok, needs_ok, needsSmearing_ok, needsPotentials_ok, needsPotentialsOrRange_ok]
  case phononTransport =>
    obtain ⟨⟨a1, a2⟩, a3, a4, a5, a6⟩ := hd
    refine ⟨a1, mq a3, a2, hT a4, hs a5, ?_⟩
    by_cases he : v.given "elphFileName" = true
    · obtain ⟨b1, b2, b3⟩ := a6 he
      rw [if_pos he]
      simp only [seq_ok, needs_ok, needsPotentials_ok]
      exact ⟨b1, mk b2, hP (by simp) b3⟩
    · rw [if_neg he]
  case electronWannierTransport =>
    obtain ⟨⟨a1, a2⟩, a3, a4, a5, a6⟩ := hd
    exact ⟨a2, mk a3, hT a4, hc a6, a5⟩
  case elPhQeToPhoebe =>
    obtain ⟨⟨a1, a2, a3⟩, a4⟩ := hd
    refine ⟨a2, a1, a3, ?_, ?_⟩
    · unfold InputVars.needsInterpolation
      rcases a4 with ⟨a4, -⟩ | ⟨a4, -⟩ <;> simp [a4]
    · rcases a4 with ⟨a4, a5⟩ | ⟨a4, ⟨a5, a6, a7, a8⟩, -⟩
      · simp [a4, needs_ok, a5]
      · rw [if_neg (by simp [a4])]
        simp only [seq_ok, needs_ok]
        exact ⟨a7, a8, a5, a6, rfl⟩
  case phononDos => exact ⟨hd.1.1, mq hd.2, hd.1.2⟩
  case electronWannierDos => obtain ⟨⟨a1, a2, a3, a4, a5⟩, a6⟩ := hd; exact ⟨a1, mk a6, a2, a3, a4, a5⟩
  case electronFourierDos => obtain ⟨⟨a1, a2, a3, a4, a5⟩, a6⟩ := hd; exact ⟨a1, mk a6, a2, a3, a4, a5⟩
  case phononBands => exact hd
  case electronWannierBands => exact hd
  case electronFourierBands => exact hd
  case transportEpa =>
    obtain ⟨⟨a1, a2, a3, a4, a5⟩, a6, a7, a8⟩ := hd
    exact ⟨a1, a2, mk a6, a3, a4, a5, hT a7, hP (by simp) a8⟩
  case elPhCouplingPlot =>
    obtain ⟨⟨a1, a2, a3⟩, a4⟩ := hd
    refine ⟨a2, a1, ?_, a3⟩
    unfold InputVars.needsPlotPoints
    split
    · rename_i h; rw [if_pos h] at a4; exact (needs_ok _ _).mpr a4
    · rename_i h; rw [if_neg h] at a4; exact mk a4
  case electronLifetimes =>
    obtain ⟨⟨a1, a2, a3, a4⟩, a5, a6, a7, a8⟩ := hd
    exact ⟨a2, a1, a4, a3, mk a5, hT a6, hs a8, hP (by simp) a7⟩
  case phononLifetimes =>
    obtain ⟨⟨a1, a2, a3⟩, a5, a6, a7⟩ := hd
    exact ⟨a1, a2, a3, mq a5, hT a6, hs a7⟩
  case phononElectronLifetimes =>
    obtain ⟨⟨a1, a2⟩, a3, a4, a5, a6, a7⟩ := hd
    exact ⟨a2, a1, mq a3, hT a5, hc a7, hP (by simp) a6⟩

/-- C173: an input where a required variable is missing is refused with an error, except for the smearing method, the number
of bins, the harmonic file of the electronic transport and the mesh of electrons of the phonon-electron lifetimes. -/
theorem C173_refuses_partial (app : AppKind) (v : InputVars) (hq : MeshFits v.qMesh) (hk : MeshFits v.kMesh)
    (hS : v.smearingMethod = 0 ∨ v.smearingMethod = 1 ∨ v.smearingMethod = 2)
    (hN : app = .elPhQeToPhoebe → v.given "epaNumBins" = true ∨ v.given "epaDeltaEnergy" = true)
    (hF : app = .electronWannierTransport → v.given "phFC2FileName" = true)
    (hM : app = .phononElectronLifetimes → MeshGiven v.kMesh)
    (hd : ¬ Documented app v) : checkRequirements app v = .error := by
  refine (decides_requirements app v hq hk).resolve_left fun h => hd ?_
  have mq := needsMesh_given v.qMesh
  have mk := needsMesh_given v.kMesh
  have hs : (v.smearingMethod = 0 → v.given "smearingWidth" = true) → SmearingGiven v := by
    intro h0
    rcases hS with h | h | h
    · exact Or.inl ⟨h, h0 h⟩
    · exact Or.inr (Or.inl h)
    · exact Or.inr (Or.inr h)
  have hc : v.needsCouplingOrFilling = .ok () → CouplingOrFilling v := by
    rw [needsCouplingOrFilling_ok]
    rintro ⟨h1, h2⟩
    cases hr : v.given "constantRelaxationTime"
    · exact Or.inl ⟨hr, (h1 hr).1, hs (h1 hr).2⟩
    · exact Or.inr ⟨hr, h2 hr⟩
  have hp : v.given "dopings" = true ∨ v.given "chemicalPotentials" = true → PotentialsGiven v := fun h =>
    h.elim Or.inl fun h => Or.inr (Or.inl h)
  clear hd
  cases app <;> simp only [Documented, allGiven_cons, allGiven_nil, and_true] <;> unfold checkRequirements at h <;>
    simp only [seq_ok, needs_ok, needsSmearing_ok, needsPotentials_ok, needsPotentialsOrRange_ok] at h
  case phononTransport =>
    obtain ⟨a1, a2, a3, a4, a5, a6⟩ := h
    refine ⟨⟨a1, a3⟩, mq a2, Or.inl a4, hs a5, fun he => ?_⟩
    rw [if_pos he] at a6
    simp only [seq_ok, needs_ok, needsPotentials_ok] at a6
    exact ⟨a6.1, mk a6.2.1, hp a6.2.2⟩
  case electronWannierTransport =>
    obtain ⟨a1, a2, a3, a4, a5⟩ := h
    exact ⟨⟨hF rfl, a1⟩, mk a2, Or.inl a3, a5, hc a4⟩
  case elPhQeToPhoebe =>
    obtain ⟨a1, a2, a3, a4, a5⟩ := h
    refine ⟨⟨a2, a1, a3⟩, ?_⟩
    by_cases hw : v.elPhInterpolation = "wannier"
    · rw [if_pos hw, needs_ok] at a5; exact Or.inl ⟨hw, a5⟩
    · rw [if_neg hw] at a5
      simp only [seq_ok, needs_ok] at a5
      by_cases he : v.elPhInterpolation = "epa"
      · exact Or.inr ⟨he, ⟨a5.2.2.1, a5.2.2.2.1, a5.1, a5.2.1⟩, hN rfl⟩
      · unfold InputVars.needsInterpolation at a4
        rw [if_pos ⟨hw, he⟩] at a4; cases a4
  case phononDos => exact ⟨⟨h.1, h.2.2⟩, mq h.2.1⟩
  case electronWannierDos => exact ⟨⟨h.1, h.2.2⟩, mk h.2.1⟩
  case electronFourierDos => exact ⟨⟨h.1, h.2.2⟩, mk h.2.1⟩
  case phononBands => exact h
  case electronWannierBands => exact h
  case electronFourierBands => exact h
  case transportEpa =>
    obtain ⟨a1, a2, a3, a4, a5, a6, a7, a8⟩ := h
    exact ⟨⟨a1, a2, a4, a5, a6⟩, mk a3, Or.inl a7, hp a8⟩
  case elPhCouplingPlot =>
    obtain ⟨a1, a2, a3, a4⟩ := h
    refine ⟨⟨a2, a1, a4⟩, ?_⟩
    unfold InputVars.needsPlotPoints at a3
    split
    · rename_i h; rw [if_pos h, needs_ok] at a3; exact a3
    · rename_i h; rw [if_neg h] at a3; exact mk a3
  case electronLifetimes =>
    obtain ⟨a1, a2, a3, a4, a5, a6, a7, a8⟩ := h
    exact ⟨⟨a2, a1, a4, a3⟩, mk a5, Or.inl a6, hp a8, hs a7⟩
  case phononLifetimes =>
    obtain ⟨a1, a2, a3, a4, a5, a6⟩ := h
    exact ⟨⟨a1, a2, a3⟩, mq a4, Or.inl a5, hs a6⟩
  case phononElectronLifetimes =>
    obtain ⟨a1, a2, a3, a4, a5, a6⟩ := h
    exact ⟨⟨a2, a1⟩, mq a3, hM rfl, Or.inl a4, hp a6, hc a5⟩

/-- An input with everything but the variables of a list. -/
def allBut (missing : List String) : InputVars where
  given n := !missing.contains n
  qMesh := (10, 10, 10)
  kMesh := (10, 10, 10)
  smearingMethod := 1
  elPhInterpolation := "wannier"
  couplingPlotStyle := "pointsPath"

theorem allBut_documented (app : AppKind) (l : List String) (hl : ∀ n ∈ l, n = "temperatures" ∨ n = "dopings" ∨
    n = "chemicalPotentials" ∨ n = "constantRelaxationTime") : Documented app (allBut l) := by
  have hg : ∀ n, n ≠ "temperatures" → n ≠ "dopings" → n ≠ "chemicalPotentials" → n ≠ "constantRelaxationTime" →
      (allBut l).given n = true := by
    intro n h1 h2 h3 h4
    simp only [allBut, Bool.not_eq_true', List.contains_eq_mem, decide_eq_false_iff_not]
    intro h
    rcases hl n h with h | h | h | h <;> contradiction
  have ht : TemperaturesGiven (allBut l) := by
    refine Or.inr fun n hn => ?_
    fin_cases hn <;> exact hg _ (by decide) (by decide) (by decide) (by decide)
  have hp : PotentialsGiven (allBut l) := by
    refine Or.inr (Or.inr fun n hn => ?_)
    fin_cases hn <;> exact hg _ (by decide) (by decide) (by decide) (by decide)
  have hs : SmearingGiven (allBut l) := Or.inr (Or.inl rfl)
  have hc : CouplingOrFilling (allBut l) := by
    cases hr : (allBut l).given "constantRelaxationTime"
    · exact Or.inl ⟨hr, hg _ (by decide) (by decide) (by decide) (by decide), hs⟩
    · exact Or.inr ⟨hr, Or.inl (hg _ (by decide) (by decide) (by decide) (by decide))⟩
  have hm : MeshGiven (allBut l).kMesh := (by unfold MeshGiven; decide : MeshGiven (10, 10, 10))
  have hm' : MeshGiven (allBut l).qMesh := hm
  have he : (allBut l).elPhInterpolation = "wannier" := rfl
  have hy : (allBut l).couplingPlotStyle = "pointsPath" := rfl
  cases app <;> simp only [Documented, allGiven_cons, allGiven_nil, and_true, ht, hp, hs, hc, hm, hm', he, hy, if_true,
    true_and] <;> simp [hg]

/-- C173 violated: no application accepts a range of temperatures in place of the list, although the documentation asks for
one or the other. -/
theorem C173_violated_temperatures : ∀ app ∈ [AppKind.phononTransport, .electronWannierTransport, .transportEpa,
    .electronLifetimes, .phononLifetimes, .phononElectronLifetimes],
    ∃ v, Documented app v ∧ checkRequirements app v = .error := fun app happ =>
  ⟨allBut ["temperatures"], allBut_documented app _ (by simp), by
    fin_cases happ <;> decide +kernel⟩

/-- C173 violated: nor, except for the electronic transport, a range of chemical potentials in place of a list. -/
theorem C173_violated_potentials : ∀ app ∈ [AppKind.phononTransport, .transportEpa, .electronLifetimes,
    .phononElectronLifetimes],
    ∃ v, Documented app v ∧ checkRequirements app v = .error := fun app happ =>
  ⟨allBut ["dopings", "chemicalPotentials"], allBut_documented app _ (by simp), by
    fin_cases happ <;> decide +kernel⟩

/-- C173 violated: a missing (or misspelt) smearing method is not refused. -/
theorem C173_violated_smearing : ∀ app ∈ [AppKind.phononTransport, .electronWannierTransport, .electronLifetimes,
    .phononLifetimes, .phononElectronLifetimes],
    ∃ v, v.smearingMethod = -1 ∧ ¬ Documented app v ∧ checkRequirements app v = .ok () := by
  intro app happ
  refine ⟨{ allBut ["constantRelaxationTime"] with smearingMethod := -1 }, rfl, ?_, ?_⟩
  · have hs : ¬ SmearingGiven { allBut ["constantRelaxationTime"] with smearingMethod := -1 } := by
      rintro (h | h | h)
      · exact absurd h.1 (by decide)
      · exact absurd h (by decide)
      · exact absurd h (by decide)
    have hc : ¬ CouplingOrFilling { allBut ["constantRelaxationTime"] with smearingMethod := -1 } := by
      rintro (h | h)
      · exact hs h.2.2
      · exact absurd h.1 (by decide +kernel)
    fin_cases happ
    · exact fun h => hs h.2.2.2.1
    · exact fun h => hc h.2.2.2.2
    · exact fun h => hs h.2.2.2.2
    · exact fun h => hs h.2.2.2
    · exact fun h => hc h.2.2.2.2.2
  · fin_cases happ <;> decide +kernel

/-- C173 violated: a transfer to the EPA format without the number of bins is not refused. -/
theorem C173_violated_bins : ∃ v, ¬ Documented .elPhQeToPhoebe v ∧ v.given "epaNumBins" = false ∧
    checkRequirements .elPhQeToPhoebe v = .ok () := by
  refine ⟨{ allBut ["epaNumBins", "epaDeltaEnergy"] with elPhInterpolation := "epa" }, ?_, by decide +kernel,
    by decide +kernel⟩
  rintro ⟨-, ⟨h, -⟩ | ⟨-, -, h | h⟩⟩
  · exact absurd h (by decide)
  · exact absurd h (by decide +kernel)
  · exact absurd h (by decide +kernel)

/-- C173 violated: electronic transport without the file of the phonons is not refused. -/
theorem C173_violated_harmonic : ∃ v, v.given "phFC2FileName" = false ∧ ¬ Documented .electronWannierTransport v ∧
    checkRequirements .electronWannierTransport v = .ok () :=
  ⟨allBut ["phFC2FileName"], by decide +kernel, fun h => absurd (h.1 "phFC2FileName" (by simp)) (by decide +kernel),
    by decide +kernel⟩

/-- C173 violated: phonon-electron lifetimes without the mesh of the electrons are not refused. -/
theorem C173_violated_mesh : ∃ v, v.kMesh = (0, 0, 0) ∧ ¬ Documented .phononElectronLifetimes v ∧
    checkRequirements .phononElectronLifetimes v = .ok () :=
  ⟨{ allBut [] with kMesh := (0, 0, 0) }, rfl, fun h => absurd h.2.2.1.1 (by decide), by decide +kernel⟩

/-- A complete input satisfies the hypotheses of `C173_accepts_partial`. -/
example : ∀ app, checkRequirements app (allBut []) = .ok () := fun app =>
  C173_accepts_partial app _ (by constructor <;> decide) (by constructor <;> decide) (fun _ => by decide +kernel)
    (fun _ _ => Or.inl (by decide +kernel)) (allBut_documented app [] (by simp))

/-- Phonon transport without cubic force constants satisfies those of `C173_refuses_partial`. -/
example : checkRequirements .phononTransport (allBut ["phFC3FileName"]) = .error :=
  C173_refuses_partial _ _ (by constructor <;> decide) (by constructor <;> decide) (Or.inr (Or.inl rfl))
    (fun h => by cases h) (fun h => by cases h) (fun h => by cases h)
    (fun h => absurd (h.1 "phFC3FileName" (by simp)) (by decide +kernel))

end Verif.Props
