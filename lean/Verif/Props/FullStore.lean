import Verif.Proofs.FullStore
import Verif.Props.Device

/-!
# C165: a full band structure returns the energies, velocities and eigenvectors of the Hamiltonian

Spec: `Verif/Spec/FullStore.lean`.
-/
namespace Verif.Props
open Verif.Model Verif.Spec

/-- The constructor refuses more processes than wavevectors. -/
theorem C165_too_many {α γ : Type} [Zero α] [Zero γ] (size nb np : Nat) (phonon withVel withVec distributed : Bool)
    (h : np < size) :
    FullBands.make (α := α) (γ := γ) size nb np phonon withVel withVec distributed = .error := by
  unfold FullBands.make
  rw [if_pos h]

/-- The processes of a distributed band structure hold together every wavevector once and in order; if it is not
distributed every process holds all of them. -/
theorem C165_wavevectors {α γ : Type} [Zero α] [Zero γ] (size nb np : Nat) (hs : 0 < size) (hb : 0 < nb)
    (hle : size ≤ np) (phonon withVel withVec distributed : Bool) (hph : phonon = true → 3 ∣ nb) :
    ∃ (F : FullBands α γ) (iks : Nat → List Nat),
      FullBands.make size nb np phonon withVel withVec distributed = .ok F ∧
      (∀ r, r < size → F.wavevectorIndices r = .ok (iks r)) ∧
      (distributed = true → (List.range size).flatMap iks = List.range np) ∧
      (distributed = false → ∀ r, r < size → iks r = List.range np) := by
  obtain ⟨F, hm, _⟩ := full_make (α := α) (γ := γ) hs hb hle hs phonon withVel withVec distributed hph
  have hall : ∀ r, r < size → ∃ iks, F.wavevectorIndices r = .ok iks ∧
      (distributed = true → ∃ L, fullLayout size nb np = .ok L ∧ iks = fullWavevectorIndices L r) ∧
      (distributed = false → iks = List.range np) := by
    intro r hr
    obtain ⟨F', hm', hF, _, h4, h5⟩ := full_make (α := α) (γ := γ) hs hb hle hr phonon withVel withVec distributed hph
    rw [hm] at hm'
    rw [Outcome.ok.injEq] at hm'
    subst hm'
    obtain ⟨iks, e1, e2, e3, _⟩ := wavevectors_spec hF hb
    refine ⟨iks, e1, ?_, ?_⟩
    · intro hd
      obtain ⟨L, d, g1, g2⟩ := h4 hd
      refine ⟨L, g2, ?_⟩
      unfold FullBands.wavevectorIndices at e1
      rw [g1] at e1
      simp only [BandMat.localElems, Outcome.bind_eq, Outcome.bind, Outcome.ok.injEq] at e1
      exact e1.symm
    · intro hd
      refine increasing_ext e2 List.pairwise_lt_range (fun ik => ?_)
      rw [e3, List.mem_range]
      simp [hd]
  have hpick : ∀ r, ∃ iks, r < size → F.wavevectorIndices r = .ok iks ∧
      (distributed = true → ∃ L, fullLayout size nb np = .ok L ∧ iks = fullWavevectorIndices L r) ∧
      (distributed = false → iks = List.range np) := by
    intro r
    by_cases hr : r < size
    · obtain ⟨iks, h⟩ := hall r hr
      exact ⟨iks, fun _ => h⟩
    · exact ⟨[], fun h => absurd h hr⟩
  choose iks hiks using hpick
  refine ⟨F, iks, hm, fun r hr => (hiks r hr).1, ?_, fun hd r hr => (hiks r hr).2.2 hd⟩
  intro hd
  obtain ⟨L, hL, _⟩ := (hiks 0 hs).2.1 hd
  rw [← C35_points size nb np hs hb hle L hL, List.flatMap_def, List.flatMap_def]
  congr 1
  apply List.map_congr_left
  intro r hr
  obtain ⟨L', hL', e⟩ := (hiks r (by simpa using hr)).2.1 hd
  rw [hL] at hL'
  rw [Outcome.ok.injEq] at hL'
  rw [e, ← hL']

/-- **C165**: after any sequence of calls that sets, for every wavevector `iks` of the process, the quantities that are
kept, everything that can be read about these wavevectors is what the Hamiltonian gives there, everything about other
wavevectors is refused, and the energies of a band are listed in the order of the wavevectors. -/
theorem C165_values {κ α γ : Type} [Zero α] [Zero γ] (size rank nb np : Nat) (hb : 0 < nb)
    (hle : size ≤ np) (hr : rank < size) (hfit : ((np * nb : Nat) : Int) ≤ intMax)
    (hfit' : ((nb * nb * 3 : Nat) : Int) ≤ intMax) (phonon withVel withVec distributed : Bool)
    (hph : phonon = true → 3 ∣ nb) (H : HamView κ α γ) (coords : Nat → κ) (re : γ → α) :
    ∃ (F : FullBands α γ) (iks : List Nat), FullBands.make size nb np phonon withVel withVec distributed = .ok F ∧
      F.wavevectorIndices rank = .ok iks ∧
      ∀ ss, CoversPoints withVel withVec iks ss → ∃ F', fullRun H coords rank ss F = .ok F' ∧
        F'.numBands = nb ∧ F'.hasVelocities = withVel ∧ F'.hasEigenvectors = withVec ∧
        F'.wavevectorIndices rank = .ok iks ∧
        (∀ ik ∈ iks, EnergiesAt F' H (coords ik) rank ik ∧
          (withVel = true → VelocitiesAt F' H re (coords ik) rank ik) ∧
          (withVec = true → VectorsAt F' H (coords ik) rank ik)) ∧
        (∀ ik < np, ik ∉ iks → RefusesPoint F' re rank ik) ∧
        ∀ ib < nb, F'.getBandEnergies rank ib = .ok (iks.map fun ik => H.energy (coords ik) ib) := by
  obtain ⟨F, hm, hF, _⟩ :=
    full_make (α := α) (γ := γ) (by omega : 0 < size) hb hle hr phonon withVel withVec distributed hph
  obtain ⟨iks, e1, e2, e3, _⟩ := wavevectors_spec hF hb
  refine ⟨F, iks, hm, e1, fun ss hc => ?_⟩
  obtain ⟨F', r1, r2, r3, r4, r5⟩ := run_spec H coords hb hfit' ss F hF
    (fun s hs => (e3 _).mp (hc.inside s hs)) hc.noVelocities hc.noEigenvectors
  obtain ⟨iks', f1, f2, f3, f4⟩ := wavevectors_spec r2 hb
  have : iks' = iks := increasing_ext f2 e2 (fun ik => by rw [f3, e3])
  subst this
  refine ⟨F', r1, r2.bands, r2.vel, r2.vec, f1, ?_, ?_, ?_⟩
  · intro ik hik
    obtain ⟨h1, h2⟩ := (e3 ik).mp hik
    refine ⟨read_energies r2 h1 h2 hfit H (coords ik) ?_, ?_, ?_⟩
    · intro ib hib
      rw [r3 ik h1 ib hib, if_pos (hc.energies ik hik)]
    · intro hw
      subst hw
      refine read_velocities r2 h1 h2 hfit hfit' H re (coords ik) ?_
      intro i j c hi hj hc'
      rw [r4 rfl ik h1 i j c hi hj hc', if_pos (hc.velocities rfl ik hik)]
    · intro hw
      subst hw
      refine read_vectors r2 h1 h2 hfit' H (coords ik) ?_
      intro i j hi hj
      rw [r5 rfl ik h1 i j hi hj, if_pos (hc.eigenvectors rfl ik hik)]
  · intro ik hik hn
    exact read_refused r2 hik (fun h => hn ((e3 ik).mpr ⟨hik, h⟩)) hfit re
  · intro ib hib
    unfold FullBands.getBandEnergies
    rw [f1]
    simp only [Outcome.bind_eq, Outcome.bind]
    rw [← f4, mapOutcome_eq_map _ (fun i => H.energy (coords (iks'.getD i 0)) ib)]
    · congr 1
      apply List.ext_getElem
      · simp
      · intro i g1 g2
        have : i < iks'.length := by simpa using g1
        simp [this]
    · intro i hi
      rw [List.mem_range] at hi
      have hmem := (e3 iks'[i]).mp (List.getElem_mem hi)
      unfold readAt
      rw [List.getElem?_eq_getElem hi]
      simp only
      rw [r3 _ hmem.1 ib hib, if_pos (hc.energies _ (List.getElem_mem hi))]
      simp [hi]

/-- A wavevector of another process can not be set, and neither can a quantity that is not kept. -/
theorem C165_refused {α γ : Type} [Zero α] [Zero γ] (size rank nb np : Nat) (hb : 0 < nb)
    (hle : size ≤ np) (hr : rank < size) (hfit' : ((nb * nb * 3 : Nat) : Int) ≤ intMax)
    (phonon withVel withVec distributed : Bool) (hph : phonon = true → 3 ∣ nb) :
    ∃ (F : FullBands α γ) (iks : List Nat), FullBands.make size nb np phonon withVel withVec distributed = .ok F ∧
      F.wavevectorIndices rank = .ok iks ∧
      (∀ ik < np, ik ∉ iks → (∀ e, F.setEnergies rank ik e = .error) ∧ (∀ v, F.setVelocities rank ik v = .error) ∧
        ∀ u, F.setEigenvectors rank ik u = .error) ∧
      (withVel = false → ∀ ik v, F.setVelocities rank ik v = .error) ∧
      (withVec = false → ∀ ik u, F.setEigenvectors rank ik u = .error) := by
  obtain ⟨F, hm, hF, _⟩ :=
    full_make (α := α) (γ := γ) (by omega : 0 < size) hb hle hr phonon withVel withVec distributed hph
  obtain ⟨iks, e1, e2, e3, _⟩ := wavevectors_spec hF hb
  refine ⟨F, iks, hm, e1, ?_, ?_, ?_⟩
  · intro ik hik hn
    have hl : ¬ (distributed = true → rank = own (blockSize np size) size ik) := fun h => hn ((e3 ik).mpr ⟨hik, h⟩)
    refine ⟨fun e => ?_, fun v => ?_, fun u => ?_⟩
    · unfold FullBands.setEnergies
      rw [band_setColumn_refused hF.e hik hl]; rfl
    · unfold FullBands.setVelocities
      rw [hF.vel, hF.bands]
      cases hw : withVel with
      | false => rfl
      | true =>
        obtain ⟨xs, x1, _⟩ := velocityColumn_spec nb v hfit'
        rw [if_pos rfl, x1]
        show (F.velocities.setColumn rank ik xs).bind _ = _
        rw [band_setColumn_refused (hF.v hw) hik hl]; rfl
    · unfold FullBands.setEigenvectors
      rw [hF.vec, hF.bands]
      cases hw : withVec with
      | false => rfl
      | true =>
        obtain ⟨xs, x1, _⟩ := vectorColumn_spec nb u (by omega)
        rw [if_pos rfl, x1]
        show (F.eigenvectors.setColumn rank ik xs).bind _ = _
        rw [band_setColumn_refused (hF.u hw) hik hl]; rfl
  · intro hw ik v
    unfold FullBands.setVelocities
    rw [hF.vel, hw]; rfl
  · intro hw ik u
    unfold FullBands.setEigenvectors
    rw [hF.vec, hw]; rfl

/-! ### The three Hamiltonians -/

/-- Electrons with Wannier functions: the calls, in any order in which the threads make them, set all that is kept for
all wavevectors of the process. -/
theorem C165_wannier (withVel withVec : Bool) (iks : List Nat) (ss : List FullStore)
    (h : ss.Perm (wannierStores withVel withVec iks)) : CoversPoints withVel withVec iks ss := by
  have hmem : ∀ s, s ∈ ss ↔ s ∈ wannierStores withVel withVec iks := fun s => h.mem_iff
  constructor
  · intro s hs
    rw [hmem] at hs
    simp only [wannierStores, List.mem_flatMap, List.mem_cons, List.mem_append] at hs
    obtain ⟨ik, hik, rfl | hs | hs⟩ := hs
    · exact hik
    · cases withVel <;> simp at hs; subst hs; exact hik
    · cases withVec <;> simp at hs; subst hs; exact hik
  · intro ik hik
    rw [hmem]
    simp only [wannierStores, List.mem_flatMap]
    exact ⟨ik, hik, by simp⟩
  · rintro rfl ik hik
    rw [hmem]
    simp only [wannierStores, List.mem_flatMap]
    exact ⟨ik, hik, by simp⟩
  · rintro rfl ik hik
    rw [hmem]
    simp only [wannierStores, List.mem_flatMap]
    exact ⟨ik, hik, by simp⟩
  · rintro rfl ik hs
    rw [hmem] at hs
    simp only [wannierStores, List.mem_flatMap] at hs
    obtain ⟨k, _, hs⟩ := hs
    cases withVec <;> simp at hs
  · rintro rfl ik hs
    rw [hmem] at hs
    simp only [wannierStores, List.mem_flatMap] at hs
    obtain ⟨k, _, hs⟩ := hs
    cases withVel <;> simp at hs

/-- Electrons with Fourier interpolation, when the eigenvectors are not wanted (`C165_violated_fourier`). -/
theorem C165_fourier_partial (withVel : Bool) (iks : List Nat) :
    CoversPoints withVel false iks (fourierStores withVel iks) := by
  have e : fourierStores withVel iks = wannierStores withVel false iks := by
    simp [fourierStores, wannierStores]
  exact C165_wannier withVel false iks _ (by rw [e])

/-- Phonons: for every positive batch size, and whatever the order in which the threads make the calls of a batch, if the
process has wavevectors (`C165_violated_phonon`). -/
theorem C165_phonon_partial (withVel withVec : Bool) (batchSize : Int) (iks : List Nat) (hne : iks ≠ [])
    (hb : 0 < batchSize) (hbig : iks.length ≤ 1073741823) :
    ∃ bs, phononStores withVel withVec batchSize iks = .ok bs ∧
      ∀ runs : List (List FullStore), List.Forall₂ (fun b ss => ∃ p, p.Perm b.1 ∧ ss = p ++ b.2) bs runs →
        CoversPoints withVel withVec iks runs.flatten := by
  obtain ⟨bs, e1, e2, e3⟩ := C82_pieces_partial iks batchSize hne hb hbig
  refine ⟨bs.map (phononBatchStores withVel withVec), ?_, ?_⟩
  · unfold phononStores
    rw [e1]; rfl
  · intro runs hruns
    have hmem : ∀ s, s ∈ runs.flatten ↔ s ∈ wannierStores withVel withVec iks := by
      intro s
      rw [← e2]
      clear e1 e2 e3
      induction bs generalizing runs with
      | nil =>
        rw [List.map_nil, List.forall₂_nil_left_iff] at hruns
        subst hruns; simp [wannierStores]
      | cons b t ih =>
        rw [List.map_cons, List.forall₂_cons_left_iff] at hruns
        obtain ⟨ss, runs', ⟨p, hp, rfl⟩, hr, rfl⟩ := hruns
        rw [List.flatten_cons, List.flatten_cons, List.mem_append, ih runs' hr]
        have : wannierStores withVel withVec (b ++ t.flatten) =
            wannierStores withVel withVec b ++ wannierStores withVel withVec t.flatten := by
          simp [wannierStores]
        rw [this, List.mem_append (s := wannierStores withVel withVec b)]
        refine or_congr ?_ Iff.rfl
        rw [List.mem_append, hp.mem_iff]
        cases withVel <;> cases withVec <;>
          simp only [phononBatchStores, wannierStores, List.mem_flatMap, List.mem_cons, List.mem_append, List.mem_map,
            if_true, if_false, Bool.false_eq_true, List.not_mem_nil, or_false, false_or]
        · constructor
          · rintro (⟨a, h1, h2⟩ | ⟨a, h1, rfl⟩)
            · exact ⟨a, h1, Or.inl h2⟩
            · exact ⟨a, h1, Or.inr rfl⟩
          · rintro ⟨a, h1, h2 | h2⟩
            · exact Or.inl ⟨a, h1, h2⟩
            · exact Or.inr ⟨a, h1, h2.symm⟩
        · constructor
          · rintro (⟨a, h1, h2 | h2⟩ | ⟨a, h1, rfl⟩)
            · exact ⟨a, h1, Or.inl h2⟩
            · exact ⟨a, h1, Or.inr (Or.inr h2)⟩
            · exact ⟨a, h1, Or.inr (Or.inl rfl)⟩
          · rintro ⟨a, h1, h2 | h2 | h2⟩
            · exact Or.inl ⟨a, h1, Or.inl h2⟩
            · exact Or.inr ⟨a, h1, h2.symm⟩
            · exact Or.inl ⟨a, h1, Or.inr h2⟩
    have hw := C165_wannier withVel withVec iks _ (List.Perm.refl _)
    exact ⟨fun s hs => hw.inside s ((hmem s).mp hs), fun ik h => (hmem _).mpr (hw.energies ik h),
      fun h ik h' => (hmem _).mpr (hw.velocities h ik h'), fun h ik h' => (hmem _).mpr (hw.eigenvectors h ik h'),
      fun h ik hs => hw.noVelocities h ik ((hmem _).mp hs), fun h ik hs => hw.noEigenvectors h ik ((hmem _).mp hs)⟩

/-- **C165** violated: a band structure of the Fourier interpolation that was asked for with eigenvectors has only zeros
for eigenvectors, whatever the Hamiltonian. -/
theorem C165_violated_fourier {κ : Type} (H : HamView κ ℤ ℤ) (coords : Nat → κ) :
    ∃ F F' : FullBands ℤ ℤ, FullBands.make 1 1 2 false false true false = .ok F ∧
      F.wavevectorIndices 0 = .ok [0, 1] ∧ fullRun H coords 0 (fourierStores false [0, 1]) F = .ok F' ∧
      F'.getEigenvectors 0 0 = .ok [[0]] ∧ F'.getEigenvectors 0 1 = .ok [[0]] := by
  refine ⟨⟨1, 2, false, true, .serial ⟨1, 2, [0, 0]⟩, .serial ⟨0, 0, []⟩, .serial ⟨1, 2, [0, 0]⟩⟩,
    ⟨1, 2, false, true, .serial ⟨1, 2, [H.energy (coords 0) 0, H.energy (coords 1) 0]⟩, .serial ⟨0, 0, []⟩,
      .serial ⟨1, 2, [0, 0]⟩⟩, rfl, rfl, rfl, rfl, rfl⟩

/-- **C165** violated: nine wavevectors distributed over four processes leave none to the last, whose division into
batches divides by zero. -/
theorem C165_violated_phonon (batchSize : Int) (hb : 0 ≤ batchSize) : ∃ F : FullBands ℤ ℤ,
    FullBands.make 4 3 9 true false false true = .ok F ∧ F.wavevectorIndices 3 = .ok [] ∧
    phononStores false false batchSize [] = .ub := by
  refine ⟨⟨3, 9, false, false, .parallel ⟨3, 9, 3, 3, 1, 4⟩ fun _ _ _ => 0, .empty, .empty⟩, ?_, ?_, ?_⟩
  · rfl
  · decide
  · unfold phononStores
    rw [C82_violated_empty batchSize hb]; rfl

/-- Three bands on four wavevectors and two processes: the phonons of the second process. -/
def fullExample : Outcome (FullBands ℤ ℤ) := do
  let F ← FullBands.make 2 3 4 true true true true
  let iks ← F.wavevectorIndices 1
  let bs ← phononStores true true 1 iks
  fullRun (κ := ℤ) ⟨fun k b => k * 10 + b, fun k i b => k * 100 + i * 10 + b,
    fun k i j c => k * 1000 + i * 100 + j * 10 + c⟩ (fun ik => (ik : ℤ)) 1 (bs.flatMap fun b => b.1.reverse ++ b.2) F

/-- Non-vacuity of `C165_values` and `C165_phonon_partial`: the second process holds the last two wavevectors, reads back
what it has set, and can not read the others. -/
example : (fullExample >>= fun F => F.wavevectorIndices 1) = .ok [2, 3] ∧
    (fullExample >>= fun F => F.getEnergies 1 2) = .ok [20, 21, 22] ∧
    (fullExample >>= fun F => F.getEnergies 1 1) = .error ∧
    (fullExample >>= fun F => F.getStateEnergy 1 10) = .ok 31 ∧
    (fullExample >>= fun F => F.getGroupVelocity id 1 10) = .ok [3110, 3111, 3112] ∧
    (fullExample >>= fun F => F.getBandEnergies 1 2) = .ok [22, 32] := by
  refine ⟨by decide +kernel, by decide +kernel, by decide +kernel, by decide +kernel, by decide +kernel, by decide +kernel⟩

end Verif.Props
