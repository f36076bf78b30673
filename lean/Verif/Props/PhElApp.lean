import Verif.Proofs.PhElApp
import Verif.Props.DosApp

/-!
# C181: the phonon-electron lifetimes app, from the active phonons to the file

Spec: `Verif/Spec/PhElApp.lean`.
-/
namespace Verif.Props
open Verif.Model Verif.Spec Verif.Proofs

theorem mapOutcome_map {α β γ : Type} (f : β → Outcome γ) (g : α → β) (l : List α) :
    mapOutcome f (l.map g) = mapOutcome (fun a => f (g a)) l := by
  induction l with
  | nil => rfl
  | cons a t ih => simp only [List.map_cons, mapOutcome, ih]

theorem getEnergy_ok {γ : Type} (A : ActiveArrays ℝ γ) (i : Nat) (h : i < A.energies.length) :
    A.getEnergy i = .ok (A.energies.getD i 0) := by
  unfold ActiveArrays.getEnergy
  rw [if_neg]
  · simp [readAt, h]
  · rw [List.isEmpty_iff]
    intro h0
    rw [h0] at h
    simp at h

/-- The table of modes: one row per irreducible wavevector, with the BTE index and the energy of each mode. -/
theorem modeTable_val {nProc rank : Nat} {coords : Nat → V3 Rat} {lookup : V3 Rat → Outcome Int} {rots : List M3}
    {vel : Option (Nat → Nat → Rat)} (A : PhElApp)
    (h : IrrSetup nProc rank A.phonons.layout.numPoints coords lookup rots)
    (hs : setIrreduciblePoints nProc rank A.phonons.layout.numPoints coords lookup rots vel [] = .ok A.phonons.irr)
    (he : A.phonons.arrays.energies.length = A.phonons.layout.numStates) :
    let B := A.phonons.layout
    let irr := A.phonons.irr.irrPointsIterator B.numPoints
    A.modeTable = .ok ((List.range irr.length).map fun j => (List.range (B.numBands (irr.getD j 0))).map fun ib =>
      (bteOf B irr j ib, A.phonons.arrays.energies.getD (B.bloch2Comb (irr.getD j 0) ib) 0)) := by
  intro B irr
  unfold PhElApp.modeTable
  have hin := fun (j ik : Nat) (hj : irr[j]? = some ik) => irr_lt A.phonons.irr _ ik (List.mem_of_getElem? hj)
  have hmap : irr = (List.range irr.length).map (fun j => irr.getD j 0) := by
    apply List.ext_getElem
    · simp
    · intro k h1 h2; simp [h1]
  have key : ∀ j, j < irr.length → mapOutcome (fun ib => do
      let iBte ← B.stateToBte A.phonons.irr (B.bloch2Comb (irr.getD j 0) ib)
      let e ← A.phonons.arrays.getEnergy (B.bloch2Comb (irr.getD j 0) ib)
      .ok (iBte, e)) (List.range (B.numBands (irr.getD j 0))) = .ok ((List.range (B.numBands (irr.getD j 0))).map fun ib =>
        (bteOf B irr j ib, A.phonons.arrays.energies.getD (B.bloch2Comb (irr.getD j 0) ib) 0)) := by
    intro j hj
    have hk : irr[j]? = some (irr.getD j 0) := by simp [hj]
    apply mapOutcome_ok
    intro ib hib
    have hib := List.mem_range.mp hib
    have hlt := energy_bound B (hin j _ hk) hib
    rw [← he] at hlt
    rw [(bte_entry h hs hk hib).2.1]
    have hg := getEnergy_ok A.phonons.arrays _ hlt
    simp only [Outcome.bind_eq, Outcome.bind_ok, hg]
    rfl
  conv_lhs => rw [show A.phonons.irr.irrPointsIterator A.phonons.layout.numPoints = irr from rfl, hmap]
  rw [mapOutcome_map]
  apply mapOutcome_ok
  intro j hj
  exact key j (List.mem_range.mp hj)

/-- Of the modes of the table, one has a given BTE index. -/
theorem one_mode (n : Nat) (num : Nat → Nat) (idx : Nat → Nat → Nat) (en : Nat → Nat → ℝ) (j0 ib0 : Nat) (hj : j0 < n)
    (hib : ib0 < num j0)
    (hinj : ∀ j ib, j < n → ib < num j → idx j ib = idx j0 ib0 → j = j0 ∧ ib = ib0) (X : Nat → Nat × ℝ → ℝ) :
    ((List.range n).map fun j => ((((List.range (num j)).map fun ib => (idx j ib, en j ib)).filter fun m =>
      m.1 = idx j0 ib0).map (X j)).sum).sum = X j0 (idx j0 ib0, en j0 ib0) := by
  have hrow : ∀ j, j < n → ((((List.range (num j)).map fun ib => (idx j ib, en j ib)).filter fun m =>
      m.1 = idx j0 ib0).map (X j)).sum = if j = j0 then X j0 (idx j0 ib0, en j0 ib0) else 0 := by
    intro j hjn
    have hflt : ∀ l : List (Nat × ℝ), ((l.filter fun m => m.1 = idx j0 ib0).map (X j)).sum =
        (l.map fun m => if m.1 = idx j0 ib0 then X j m else 0).sum := by
      intro l
      induction l with
      | nil => rfl
      | cons a t ih =>
        by_cases ha : a.1 = idx j0 ib0
        · simp [ha, ih]
        · simp [ha, ih]
    rw [hflt, List.map_map, list_range_sum]
    by_cases hjj : j = j0
    · subst hjj
      rw [if_pos rfl, Finset.sum_eq_single ib0]
      · simp
      · intro ib h1 h2
        rw [Function.comp_apply, if_neg]
        intro e
        exact h2 (hinj j ib hjn (Finset.mem_range.mp h1) e).2
      · intro h1
        exact absurd (Finset.mem_range.mpr hib) h1
    · rw [if_neg hjj]
      apply Finset.sum_eq_zero
      intro ib h1
      rw [Function.comp_apply, if_neg]
      intro e
      exact hjj (hinj j ib hjn (Finset.mem_range.mp h1) e).1
  rw [list_range_sum, Finset.sum_congr rfl fun j h => hrow j (Finset.mem_range.mp h), Finset.sum_ite_eq']
  rw [if_pos (Finset.mem_range.mpr hj)]

/-- A rate of the code is a term of the specification. -/
theorem rate_transition (A : PhElApp) (row : CalcRow) (hT : 0 < row.temperature) (k : V3 Rat) (iq m : Nat) (omega : ℝ)
    (b1 b2 : Nat) :
    phelRate (A.setup row) (A.coupling k b1 iq b2 m) 1 (A.electron k b1)
      (A.electron (addWavevectors (A.qCoords iq) k) b2) omega =
    Real.pi / A.numK * transition A row.temperature row.chemicalPotential k iq m omega b1 b2 := by
  have h1 := factor_eq .fermi (A.H.energy k b1) row.temperature row.chemicalPotential hT (by intro h; cases h)
  have h2 : phelSmearing (A.setup row) (A.electron k b1) (A.electron (addWavevectors (A.qCoords iq) k) b2) omega =
      if omega < A.cutoff then 0 else
        max (elDelta1 A.smearing (electronState A k b1) (electronState A ⟨k.x + (A.qCoords iq).x, k.y + (A.qCoords iq).y,
          k.z + (A.qCoords iq).z⟩ b2) omega) 0 := by
    have hk : addWavevectors (A.qCoords iq) k =
        ⟨k.x + (A.qCoords iq).x, k.y + (A.qCoords iq).y, k.z + (A.qCoords iq).z⟩ := by
      unfold addWavevectors
      rw [add_comm k.x, add_comm k.y, add_comm k.z]
    rw [hk]
    rfl
  unfold phelRate transition
  rw [h2]
  show A.coupling k b1 iq b2 m * getPopPopPm1 .fermi (A.H.energy k b1) row.temperature row.chemicalPotential * _ *
    (1 / (A.numK : ℝ)) / row.temperature * Real.pi * 1 = _
  rw [h1]
  simp only
  ring

/-- The linewidths of the head process. -/
theorem linewidths_val {nProc rank nProc' rank' : Nat} {lookup lookup' : V3 Rat → Outcome Int} {rots rots' : List M3}
    {coords : Nat → V3 Rat} {vel : Option (Nat → Nat → Rat)} (A : PhElApp)
    (hel : IrrSetup nProc rank A.numK A.kCoords lookup rots)
    (hirr : setIrreduciblePoints nProc rank A.numK A.kCoords lookup rots none [] = .ok A.kIrr)
    (hH : SymmetricEnergies rots A.kCoords A.numK A.bands A.H)
    (hasc : ∀ q b b', b ≤ b' → b' < A.bands → A.H.energy q b ≤ A.H.energy q b')
    (hph : IrrSetup nProc' rank' A.phonons.layout.numPoints coords lookup' rots')
    (hs : setIrreduciblePoints nProc' rank' A.phonons.layout.numPoints coords lookup' rots' vel [] = .ok A.phonons.irr)
    (he : A.phonons.arrays.energies.length = A.phonons.layout.numStates)
    (hpos : ∃ w ∈ A.phonons.arrays.energies, 0 < w) (hsm : ElSmearing A.smearing)
    (sweep : Sweep) (temps : List ℝ) (size : Nat) (hfit : A.numK * size < 18446744073709551616)
    (f : List Nat × List Nat × List Nat) (hf : SelectedElectrons A sweep temps size f) (row : CalcRow)
    (hT : 0 < row.temperature) :
    ∃ table lw, A.modeTable = .ok table ∧ A.linewidths f table size row = .ok lw ∧
      ∀ (j iq ib : Nat), (A.phonons.irr.irrPointsIterator A.phonons.layout.numPoints)[j]? = some iq →
        ib < A.phonons.layout.numBands iq →
        lw (bteOf A.phonons.layout (A.phonons.irr.irrPointsIterator A.phonons.layout.numPoints) j ib) =
          phononLinewidth A (NearFermi A sweep) row.temperature row.chemicalPotential iq
            (bteOf A.phonons.layout (A.phonons.irr.irrPointsIterator A.phonons.layout.numPoints) j ib)
            (A.phonons.arrays.energies.getD (A.phonons.layout.bloch2Comb iq ib) 0) := by
  classical
  obtain ⟨sel, mine, s1, s2, s3⟩ := hf
  obtain ⟨pts, chunks, hp1, hp2, hp3⟩ := s2.run
  obtain ⟨_, f1⟩ := activeLists A.numK size s2.pos (by have := s2.fit; norm_num at this; exact this) s2.int sel pts hp1
    chunks hp2 mine s2.len hp3
  rw [s3] at f1
  have hfs : let serial := (List.range A.numK).filterMap fun ik => (sel ik).map fun b => (ik, b)
      f = (serial.map (·.1), serial.map (·.2.1), serial.map (·.2.2)) := by
    intro serial
    have := Outcome.ok.inj f1
    have h0 := congrArg (fun l => l[0]?) this
    simp only [List.getElem?_replicate, s2.pos, if_true, Option.some.injEq] at h0
    exact h0
  have hlen : f.1.length ≤ A.numK := by
    simp only at hfs
    rw [hfs]
    simp only [List.length_map]
    refine le_trans (List.length_filterMap_le _ _) ?_
    simp
  have htab := modeTable_val A hph hs he
  simp only at htab
  set irr := A.phonons.irr.irrPointsIterator A.phonons.layout.numPoints with hirrq
  set B := A.phonons.layout with hB
  set table := (List.range irr.length).map fun j => (List.range (B.numBands (irr.getD j 0))).map fun ib =>
      (bteOf B irr j ib, A.phonons.arrays.energies.getD (B.bloch2Comb (irr.getD j 0) ib) 0) with htable
  obtain ⟨res, r1, r2, r3⟩ := C120_no_symmetries (A.setup row) hsm (A.data f table) (List.range f.1.length) size s2.pos
    (by
      rw [List.length_range]
      exact lt_of_le_of_lt (Nat.mul_le_mul_right _ hlen) hfit) (fun k => rfl)
  have hr0 : 0 < res.length := by rw [r2]; exact s2.pos
  refine ⟨table, res[0], htab, ?_, ?_⟩
  · unfold PhElApp.linewidths
    rw [r1]
    simp [readAt, hr0, Outcome.bind_eq, Outcome.bind_ok]
  intro j iq ib hj hib
  rw [r3 _ (List.getElem_mem hr0)]
  obtain ⟨hjl, hjv⟩ := List.getElem?_eq_some_iff.mp hj
  have hg : irr.getD j 0 = iq := by simp [hj]
  set b := bteOf B irr j ib with hb
  set e0 := A.phonons.arrays.energies.getD (B.bloch2Comb iq ib) 0 with he0
  have hin := fun (j ik : Nat) (hj : irr[j]? = some ik) => irr_lt A.phonons.irr _ ik (List.mem_of_getElem? hj)
  have hnd : irr.Nodup := by
    rw [hirrq]
    unfold IrrPoints.irrPointsIterator
    exact List.Nodup.filter _ List.nodup_range
  have hinj : ∀ j' ib', j' < irr.length → ib' < B.numBands (irr.getD j' 0) → bteOf B irr j' ib' = bteOf B irr j ib →
      j' = j ∧ ib' = ib := by
    intro j' ib' hj' hib' e
    have hk' : irr[j']? = some (irr.getD j' 0) := by simp [hj']
    have e1 := (bte_entry hph hs hk' hib').2.2
    have e2 := (bte_entry hph hs hj hib).2.2
    rw [← hirrq] at e1 e2
    rw [e, e2] at e1
    have e3 := Outcome.ok.inj e1
    have c1 := (C28_roundtrip B _ ib' (hin j' _ hk') hib').2
    have c2 := (C28_roundtrip B iq ib (hin j _ hj) hib).2
    rw [← e3, c2] at c1
    have c3 := Outcome.ok.inj c1
    simp only [Prod.mk.injEq] at c3
    refine ⟨?_, c3.2.symm⟩
    have : irr[j'] = irr[j] := by
      have : irr.getD j' 0 = irr[j'] := by simp [hj']
      rw [← this, ← c3.1, hjv]
    exact (List.Nodup.getElem_inj_iff hnd).mp this
  unfold electronsAt
  have hone : ∀ ka, ((A.data f table).irrQ.map fun q => ((((A.data f table).modes q).filter fun m => m.1 = b).map fun m =>
      (((A.data f table).pairs ka q m.1).map fun t => phelRate (A.setup row) t.2.2 1 t.1 t.2.1 m.2).sum).sum).sum =
      (((A.data f table).pairs ka j b).map fun t => phelRate (A.setup row) t.2.2 1 t.1 t.2.1 e0).sum := by
    intro ka
    have := one_mode irr.length (fun j => B.numBands (irr.getD j 0)) (bteOf B irr)
      (fun j ib => A.phonons.arrays.energies.getD (B.bloch2Comb (irr.getD j 0) ib) 0) j ib hjl (by rw [hg]; exact hib) hinj
      (fun q m => (((A.data f table).pairs ka q m.1).map fun t => phelRate (A.setup row) t.2.2 1 t.1 t.2.1 m.2).sum)
    simp only [hg] at this
    rw [← this]
    have hl : (A.data f table).irrQ = List.range irr.length := by
      show List.range table.length = _
      rw [htable]; simp
    rw [hl]
    congr 1
    apply List.map_congr_left
    intro q hq
    have hq := List.mem_range.mp hq
    have hm : (A.data f table).modes q = (List.range (B.numBands (irr.getD q 0))).map fun ib =>
        (bteOf B irr q ib, A.phonons.arrays.energies.getD (B.bloch2Comb (irr.getD q 0) ib) 0) := by
      show table.getD q [] = _
      rw [htable]
      simp [hq]
    rw [hm]
  rw [List.map_congr_left fun ka _ => hone ka]
  have hpair : ∀ ka, (((A.data f table).pairs ka j b).map fun t => phelRate (A.setup row) t.2.2 1 t.1 t.2.1 e0).sum =
      ((List.range (f.2.2.getD ka 0 + 1 - f.2.1.getD ka 0)).map fun i =>
        (fun ik b1 => Real.pi / A.numK * ∑ b2 ∈ Finset.range A.bands,
          transition A row.temperature row.chemicalPotential (A.kCoords ik) iq b e0 b1 b2) (f.1.getD ka 0)
          (f.2.1.getD ka 0 + i)).sum := by
    intro ka
    simp only [PhElApp.data]
    rw [← hirrq, hg, sum_flatMap_map]
    congr 1
    apply List.map_congr_left
    intro i _
    rw [List.map_map, list_range_sum, Finset.mul_sum]
    apply Finset.sum_congr rfl
    intro b2 _
    rw [Function.comp_apply]
    exact rate_transition A row hT _ _ _ _ _ _
  rw [List.map_congr_left fun ka _ => hpair ka]
  refine (sum_kept A.numK A.bands sel (fun ik b => NearFermi A sweep (A.H.energy (A.kCoords ik) b))
    (fun ik b hik => select_near A hel hirr hH hasc hpos sweep temps sel s1 ik b hik) f hfs
    (fun ik b1 => Real.pi / A.numK * ∑ b2 ∈ Finset.range A.bands,
      transition A row.temperature row.chemicalPotential (A.kCoords ik) iq b e0 b1 b2)).trans ?_
  unfold phononLinewidth
  rw [Finset.mul_sum]
  apply Finset.sum_congr rfl
  intro ik _
  rw [Finset.mul_sum]
  apply Finset.sum_congr rfl
  intro b1 _
  split
  · rfl
  · simp

/-- What the app writes: for every number of processes and threads and every interleaving of the selection of the
electrons, the file has for every calculation of the sweep, irreducible phonon wavevector and mode the linewidth
`π/N Σ |g|² f(1-f)/T δ(E1 - E2 + ω)` summed over the whole mesh and all pairs of bands whose first state is near the
range of the chemical potentials (`NearFermi`), and the inverse of it as relaxation time.  Partial: the sum should be
over all the states, see `C181_complete_partial` and `C181_violated_window`; no symmetries of the electrons, no
degenerate phonons. -/
theorem C181_file_partial {nProc rank nProc' rank' : Nat} {lookup lookup' : V3 Rat → Outcome Int} {rots rots' : List M3}
    {coords : Nat → V3 Rat} {vel : Option (Nat → Nat → Rat)} (A : PhElApp) (u : FileUnits)
    (hel : IrrSetup nProc rank A.numK A.kCoords lookup rots)
    (hirr : setIrreduciblePoints nProc rank A.numK A.kCoords lookup rots none [] = .ok A.kIrr)
    (hH : SymmetricEnergies rots A.kCoords A.numK A.bands A.H)
    (hasc : ∀ q b b', b ≤ b' → b' < A.bands → A.H.energy q b ≤ A.H.energy q b')
    (hph : IrrSetup nProc' rank' A.phonons.layout.numPoints coords lookup' rots')
    (hs : setIrreduciblePoints nProc' rank' A.phonons.layout.numPoints coords lookup' rots' vel [] = .ok A.phonons.irr)
    (he : A.phonons.arrays.energies.length = A.phonons.layout.numStates)
    (hv : A.phonons.arrays.velocities.length = A.phonons.layout.numVelStates)
    (hpos : ∃ w ∈ A.phonons.arrays.energies, 0 < w) (hsm : ElSmearing A.smearing)
    (sweep : Sweep) (hT : ∀ row ∈ sweep.table, 0 < row.temperature) (temps : List ℝ) (size : Nat)
    (hfit : A.numK * size < 2 ^ 64)
    (f : List Nat × List Nat × List Nat) (hf : SelectedElectrons A sweep temps size f) :
    ∃ F, A.file u f sweep size = .ok F ∧
      ∀ (j iq : Nat), (A.phonons.irr.irrPointsIterator A.phonons.layout.numPoints)[j]? = some iq →
        F.wavevectors[j]? = some (A.phonons.cell.cartesianToCrystal (A.phonons.wavevector iq)) ∧
        ∀ ib, ib < A.phonons.layout.numBands iq → ∃ (is iBte : Nat) (omega : ℝ),
          A.phonons.layout.comb2Bloch is = .ok (iq, ib) ∧ A.phonons.layout.bteToState A.phonons.irr iBte = .ok is ∧
          A.phonons.arrays.getEnergy is = .ok omega ∧
          ∀ (c : Nat) (row : CalcRow), sweep.table[c]? = some row →
            let gamma := phononLinewidth A (NearFermi A sweep) row.temperature row.chemicalPotential iq iBte omega
            entryOf F.energies c j ib = some (printedLinewidth u.time false omega) ∧
            entryOf F.linewidths c j ib = some (printedLinewidth u.time false gamma) ∧
            entryOf F.relaxationTimes c j ib = some (printedTime u.time false (1 / gamma)) := by
  have hfit' : A.numK * size < 18446744073709551616 := by norm_num at hfit; exact hfit
  have htab := modeTable_val A hph hs he
  simp only at htab
  obtain ⟨table, htable⟩ : ∃ table, A.modeTable = .ok table := ⟨_, htab⟩
  have hrow : ∀ row, ∃ lw, row ∈ sweep.table → A.linewidths f table size row = .ok lw ∧
      ∀ (j iq ib : Nat), (A.phonons.irr.irrPointsIterator A.phonons.layout.numPoints)[j]? = some iq →
        ib < A.phonons.layout.numBands iq →
        lw (bteOf A.phonons.layout (A.phonons.irr.irrPointsIterator A.phonons.layout.numPoints) j ib) =
          phononLinewidth A (NearFermi A sweep) row.temperature row.chemicalPotential iq
            (bteOf A.phonons.layout (A.phonons.irr.irrPointsIterator A.phonons.layout.numPoints) j ib)
            (A.phonons.arrays.energies.getD (A.phonons.layout.bloch2Comb iq ib) 0) := by
    intro row
    by_cases hr : row ∈ sweep.table
    · obtain ⟨t', lw, h1, h2, h3⟩ := linewidths_val A hel hirr hH hasc hph hs he hpos hsm sweep temps size hfit' f hf row
        (hT row hr)
      rw [htable] at h1
      cases h1
      exact ⟨lw, fun _ => ⟨h2, h3⟩⟩
    · exact ⟨fun _ => 0, fun h => absurd h hr⟩
  choose L hL using hrow
  have hmap : mapOutcome (A.linewidths f table size) sweep.table = .ok (sweep.table.map L) :=
    mapOutcome_ok _ fun row hr => (hL row hr).1
  let diag : Nat → Nat → ℝ := fun c b => (sweep.table.map L).getD c (fun _ => 0) b
  let states := List.range (A.phonons.layout.numIrrStates A.phonons.irr)
  let I : TimesInput := { A.phonons with
    isElectron := false
    calcs := sweep.table.map fun r => (r.temperature, r.chemicalPotential, r.doping)
    times := fun c => states.map (timesOf none true (fun _ _ => 0) diag c)
    linewidths := fun c => states.map (diag c)
    normalUmklapp := none }
  have hI : GoodInput I := ⟨he, hv, fun c => by simp [I, states], fun c => by simp [I, states],
    fun p hp => by simp [I] at hp, fun p hp => by simp [I] at hp⟩
  have hfile : A.file u f sweep size = timesFile u I := by
    unfold PhElApp.file
    rw [htable]
    simp only [Outcome.bind_eq, Outcome.bind_ok, hmap]
    rfl
  obtain ⟨F, F1, -, -, -, -, F2⟩ := file_entries u I hI hph hs
  refine ⟨F, by rw [hfile]; exact F1, ?_⟩
  intro j iq hj
  obtain ⟨g1, g2⟩ := F2 j iq hj
  refine ⟨g1, ?_⟩
  intro ib hib
  obtain ⟨e, v, e1, e2, e3, -, e5⟩ := g2 ib hib
  have hin := irr_lt A.phonons.irr _ iq (List.mem_of_getElem? hj)
  refine ⟨A.phonons.layout.bloch2Comb iq ib,
    bteOf A.phonons.layout (A.phonons.irr.irrPointsIterator A.phonons.layout.numPoints) j ib, e, e1, e2, e3, ?_⟩
  intro c row hc gamma
  have hcl := (List.getElem?_eq_some_iff.mp hc).1
  obtain ⟨t, l, t1, l1, q1, -, q3, q4, -⟩ := e5 c (by simpa [I] using hcl)
  have hb := (bte_entry hph hs hj hib).1
  set iBte := bteOf A.phonons.layout (A.phonons.irr.irrPointsIterator A.phonons.layout.numPoints) j ib with hbte
  have hen : A.phonons.arrays.energies.getD (A.phonons.layout.bloch2Comb iq ib) 0 = e := by
    have hlt := energy_bound A.phonons.layout hin hib
    rw [← he] at hlt
    have := getEnergy_ok A.phonons.arrays _ hlt
    have e3' : A.phonons.arrays.getEnergy (A.phonons.layout.bloch2Comb iq ib) = .ok e := e3
    rw [this] at e3'
    exact Outcome.ok.inj e3'
  have hd : diag c iBte = gamma := by
    have h1 : diag c iBte = L row iBte := by simp [diag, hc]
    rw [h1]
    have := (hL row (List.mem_of_getElem? hc)).2 j iq ib hj hib
    rw [← hbte, hen] at this
    exact this
  have hst : states[iBte]? = some iBte := by
    exact List.getElem?_range hb
  have hl : l = gamma := by
    have : (I.linewidths c)[iBte]? = some (diag c iBte) := by simp [I, hst]
    rw [this] at l1
    rw [← hd]; exact (Option.some.inj l1).symm
  have ht : t = 1 / gamma := by
    have : (I.times c)[iBte]? = some (1 / diag c iBte) := by simp [I, hst, timesOf, constantRTA]
    rw [this] at t1
    rw [← hd]; exact (Option.some.inj t1).symm
  rw [← ht, ← hl]
  exact ⟨q1, q4, q3⟩

/-- The sum over the states near the chemical potentials is the sum over all states if the other states do not
contribute. -/
theorem C181_complete_partial (A : PhElApp) (sweep : Sweep) (T mu : ℝ) (iq m : Nat) (omega : ℝ)
    (h : ∀ i b1 b2, i < A.numK → b1 < A.bands → b2 < A.bands → transition A T mu (A.kCoords i) iq m omega b1 b2 ≠ 0 →
      NearFermi A sweep (A.H.energy (A.kCoords i) b1)) :
    phononLinewidth A (NearFermi A sweep) T mu iq m omega = phononLinewidth A (fun _ => True) T mu iq m omega := by
  unfold phononLinewidth
  congr 1
  apply Finset.sum_congr rfl
  intro i hi
  apply Finset.sum_congr rfl
  intro b1 hb1
  apply Finset.sum_congr rfl
  intro b2 hb2
  by_cases hz : transition A T mu (A.kCoords i) iq m omega b1 b2 = 0
  · simp [hz]
  · rw [if_pos (h i b1 b2 (Finset.mem_range.mp hi) (Finset.mem_range.mp hb1) (Finset.mem_range.mp hb2) hz), if_pos trivial]

/-- The selection of the electrons ends without error when there is a phonon of positive energy and a calculation, and
some execution of it exists. -/
theorem selected_exists (A : PhElApp) (hpos : ∃ w ∈ A.phonons.arrays.energies, 0 < w) (sweep : Sweep)
    (hne : sweep.table ≠ []) (temps : List ℝ) : ∃ f, SelectedElectrons A sweep temps 1 f := by
  obtain ⟨w0, hw0, hp⟩ := hpos
  have hen : A.phonons.arrays.energies ≠ [] := by intro he; rw [he] at hw0; simp at hw0
  have hm : 0 < listMax A.phonons.arrays.energies := lt_of_lt_of_le hp (mem_le_listMax _ _ hw0)
  have hsel : ∃ sel, A.select sweep temps = .ok sel := by
    have hmn : sweep.table.map (·.chemicalPotential) ≠ [] := by simpa using hne
    have hmu : listMin (sweep.table.map (·.chemicalPotential)) ≤ listMax (sweep.table.map (·.chemicalPotential)) :=
      mem_le_listMax _ _ (listMin_mem _ hmn)
    unfold PhElApp.select PhElApp.window maxEnergy builderSelect postWindow windowCtor
    rw [if_neg hen]
    simp only [Outcome.bind_eq, Outcome.bind_ok]
    rw [if_pos (.inl trivial), if_neg hne, if_neg (by decide), if_neg (by decide), if_pos trivial, if_neg]
    · simp only [Outcome.bind_ok]
      exact ⟨_, rfl⟩
    · generalize listMax A.phonons.arrays.energies = m at *
      rw [min_eq_left (by linarith), max_eq_right (by linarith), abs_of_nonpos (by linarith), abs_of_nonneg (by linarith)]
      intro h
      linarith
  obtain ⟨sel, hsel⟩ := hsel
  obtain ⟨mine, hm⟩ := activeScan_exists A.numK sel
  obtain ⟨pts, chunks, hp1, hp2, hp3⟩ := hm.run
  obtain ⟨_, f1⟩ := activeLists A.numK 1 hm.pos (by decide) hm.int sel pts hp1 chunks hp2 mine hm.len hp3
  exact ⟨_, sel, mine, hsel, hm, f1⟩

/-- Without active phonons the largest energy of an empty list is read. -/
theorem C181_no_phonons (A : PhElApp) (h : A.phonons.arrays.energies = []) (sweep : Sweep) (temps : List ℝ) :
    A.select sweep temps = .ub := by
  unfold PhElApp.select PhElApp.window maxEnergy
  rw [if_pos h]
  rfl

/-- One wavevector, two electron bands at 0.02 and 0.03, a phonon of energy 0.01 that couples them. -/
noncomputable def exPhElApp (s : IrrPoints) : PhElApp where
  phonons := ⟨⟨1, fun _ => 1, 1⟩, s, ⟨[0.01], [0, 0, 0], []⟩, fun _ => 0, ⟨1, 1, 1⟩, false, [], fun _ => [], fun _ => [], none⟩
  qCoords _ := ⟨0, 0, 0⟩
  bands := 2
  H := ⟨fun _ b => if b = 0 then 0.02 else 0.03, fun _ _ _ => 1, fun _ _ _ _ => 0⟩
  numK := 1
  kCoords k := meshCoordinates ⟨1, 1, 1⟩ ⟨0, 0, 0⟩ k
  kIrr := s
  populationLimit := none
  smearing := .gaussian 1
  cutoff := 0.001
  coupling _ _ _ _ _ := 1

theorem point_setup : IrrSetup 1 0 1 (fun k => meshCoordinates ⟨1, 1, 1⟩ ⟨0, 0, 0⟩ k)
    (fun p => .ok (isPointStoredMesh ⟨1, 1, 1⟩ ⟨0, 0, 0⟩ p)) [M3.one] := by
  refine ⟨one_group, ?_, by decide, by decide⟩
  intro R hR i hi
  apply C18_mesh_lookup ⟨1, 1, 1⟩ ⟨0, 0, 0⟩ (by simp [PosMesh])
  obtain rfl := List.mem_singleton.mp hR
  exact ⟨i, by simp only; omega, by rw [one_mulVec]; exact equivalent_refl _⟩

theorem exPhEl_entries (s : IrrPoints) (hs : setIrreduciblePoints 1 0 1 (fun k => meshCoordinates ⟨1, 1, 1⟩ ⟨0, 0, 0⟩ k)
    (fun p => .ok (isPointStoredMesh ⟨1, 1, 1⟩ ⟨0, 0, 0⟩ p)) [M3.one] none [] = .ok s)
    (u : FileUnits) (sweep : Sweep) (hT : ∀ row ∈ sweep.table, 0 < row.temperature) (temps : List ℝ)
    (f : List Nat × List Nat × List Nat) (hf : SelectedElectrons (exPhElApp s) sweep temps 1 f) :
    ∃ F, (exPhElApp s).file u f sweep 1 = .ok F ∧ ∃ iBte, ∀ (c : Nat) (row : CalcRow), sweep.table[c]? = some row →
      entryOf F.linewidths c 0 0 = some (printedLinewidth u.time false (phononLinewidth (exPhElApp s)
        (NearFermi (exPhElApp s) sweep) row.temperature row.chemicalPotential 0 iBte 0.01)) := by
  obtain ⟨F, F1, F2⟩ := C181_file_partial (exPhElApp s) u point_setup hs (fun _ _ _ _ _ _ _ => rfl) (by
      intro q b b' h1 h2
      have : b = 0 ∧ b' = 0 ∨ b = 0 ∧ b' = 1 ∨ b = 1 ∧ b' = 1 := by
        have : b' < 2 := h2
        omega
      rcases this with ⟨rfl, rfl⟩ | ⟨rfl, rfl⟩ | ⟨rfl, rfl⟩ <;> norm_num [exPhElApp]) point_setup hs rfl rfl
    ⟨0.01, by simp [exPhElApp], by norm_num⟩ (by simp [exPhElApp, ElSmearing]) sweep hT temps 1
    (by show 1 * 1 < 2 ^ 64; decide) f hf
  have h0 : ((exPhElApp s).phonons.irr.irrPointsIterator 1)[0]? = some 0 := by
    obtain ⟨s', h1, _, _, _, _, h6⟩ := C18_stars point_setup none
    rw [hs] at h1
    cases h1
    have h7 := (h6 0 (by decide)).1
    have h8 : s.equiv 0 = 0 := by have := (h6 0 (by decide)).2.1; omega
    rw [h8] at h7
    show (s.irrPointsIterator 1)[0]? = some 0
    unfold IrrPoints.irrPointsIterator at h7 ⊢
    rw [List.mem_filter] at h7
    have : List.range 1 = [0] := rfl
    rw [this, List.filter_cons, if_pos h7.2]
    rfl
  obtain ⟨is, iBte, omega, e1, e2, e3, e4⟩ := (F2 0 0 h0).2 0 (by show 0 < 1; decide)
  have ho : omega = 0.01 := by
    have : is = 0 ∨ 0 < is := by omega
    have e3' : readAt [(0.01 : ℝ)] is = .ok omega := e3
    rcases this with rfl | hp
    · simpa [readAt] using e3'.symm
    · simp [readAt, List.getElem?_eq_none (show [(0.01 : ℝ)].length ≤ is from hp)] at e3'
  subst ho
  exact ⟨F, F1, iBte, fun c row hc => (e4 c row hc).2.1⟩

/-- VIOLATED: the linewidth at a temperature and a chemical potential depends on the other chemical potentials of the
sweep.  Electrons at 0.02 that absorb a phonon of energy 0.01 at temperature 1: with the chemical potential 0 alone the
file has the linewidth zero; with the chemical potentials 0 and 0.02 it has for the same calculation the sum over all
the states, which is positive. -/
theorem C181_violated_window : ∃ (A : PhElApp) (u : FileUnits) (sweep1 sweep2 : Sweep) (f1 f2 : List Nat × List Nat × List Nat)
    (F1 F2 : TimesOutput) (x : ℝ),
    electronSweep [1] [] [0] (fun _ _ => 0) (fun _ _ => 0) = .ok sweep1 ∧
    electronSweep [1] [] [0, 0.02] (fun _ _ => 0) (fun _ _ => 0) = .ok sweep2 ∧
    SelectedElectrons A sweep1 [1] 1 f1 ∧ SelectedElectrons A sweep2 [1] 1 f2 ∧
    A.file u f1 sweep1 1 = .ok F1 ∧ A.file u f2 sweep2 1 = .ok F2 ∧
    sweep1.table[0]? = some ⟨1, 0, 0⟩ ∧ sweep2.table[0]? = some ⟨1, 0, 0⟩ ∧
    entryOf F1.linewidths 0 0 0 = some 0 ∧ entryOf F2.linewidths 0 0 0 = some x ∧ 0 < x ∧
    ∃ iBte, x = printedLinewidth u.time false (phononLinewidth A (fun _ => True) 1 0 0 iBte 0.01) := by
  obtain ⟨s, hs, -⟩ := C18_stars point_setup none
  obtain ⟨sweep1, s1, t1, _⟩ := C36_chemical_potentials_partial [1] [0] (fun _ _ => 0) (fun _ _ => 0) (by simp) (by decide)
  obtain ⟨sweep2, s2, t2, _⟩ := C36_chemical_potentials_partial [1] [0, 0.02] (fun _ _ => 0) (fun _ _ => 0) (by simp)
    (by simp [intMax])
  have t1 : sweep1.table = [⟨1, 0, 0⟩] := by rw [t1]; rfl
  have t2 : sweep2.table = [⟨1, 0, 0⟩, ⟨1, 0.02, 0⟩] := by rw [t2]; rfl
  have hpos : ∃ w ∈ (exPhElApp s).phonons.arrays.energies, 0 < w := ⟨0.01, by simp [exPhElApp], by norm_num⟩
  obtain ⟨f1, g1⟩ := selected_exists (exPhElApp s) hpos sweep1 (by rw [t1]; simp) [1]
  obtain ⟨f2, g2⟩ := selected_exists (exPhElApp s) hpos sweep2 (by rw [t2]; simp) [1]
  let u : FileUnits := ⟨⟨1, 1, 1⟩, 1, 1⟩
  obtain ⟨F1, h1, i1, k1⟩ := exPhEl_entries s hs u sweep1 (by rw [t1]; simp) [1] f1 g1
  obtain ⟨F2, h2, i2, k2⟩ := exPhEl_entries s hs u sweep2 (by rw [t2]; simp) [1] f2 g2
  have hn1 : ∀ i b, ¬ NearFermi (exPhElApp s) sweep1 ((exPhElApp s).H.energy ((exPhElApp s).kCoords i) b) := by
    rintro i b ⟨w, hw, r, hr, r', hr', q1, q2⟩
    rw [t1, List.mem_singleton] at hr hr'
    subst hr
    subst hr'
    have hw' : w = 0.01 := by simpa [exPhElApp] using hw
    subst hw'
    by_cases hb : b = 0
    · norm_num [exPhElApp, hb] at q2
    · norm_num [exPhElApp, hb] at q2
  have hz : phononLinewidth (exPhElApp s) (NearFermi (exPhElApp s) sweep1) 1 0 0 i1 0.01 = 0 := by
    unfold phononLinewidth
    simp only [hn1, if_false, Finset.sum_const_zero, mul_zero]
  have hfull : phononLinewidth (exPhElApp s) (NearFermi (exPhElApp s) sweep2) 1 0 0 i2 0.01 =
      phononLinewidth (exPhElApp s) (fun _ => True) 1 0 0 i2 0.01 := by
    apply C181_complete_partial
    intro i b1 b2 _ _ _ _
    refine ⟨0.01, by simp [exPhElApp], ⟨1, 0, 0⟩, by rw [t2]; simp, ⟨1, 0.02, 0⟩, by rw [t2]; simp, ?_, ?_⟩
    · by_cases hb : b1 = 0 <;> norm_num [exPhElApp, hb]
    · by_cases hb : b1 = 0 <;> norm_num [exPhElApp, hb]
  have hp : 0 < phononLinewidth (exPhElApp s) (fun _ => True) 1 0 0 i2 0.01 := by
    have hocc : ∀ e, 0 < occupationFactor .fermi e 1 0 := by
      intro e
      unfold occupationFactor
      simp only
      have := Real.exp_pos ((e - 0) / 1)
      have h1 : (0 : ℝ) < 1 / (Real.exp ((e - 0) / 1) + 1) := by positivity
      have h2 : 1 / (Real.exp ((e - 0) / 1) + 1) < 1 := by rw [div_lt_one (by positivity)]; linarith
      exact mul_pos h1 (by linarith)
    have hnn : ∀ i b1 b2, 0 ≤ transition (exPhElApp s) 1 0 ((exPhElApp s).kCoords i) 0 i2 0.01 b1 b2 := by
      intro i b1 b2
      unfold transition
      have := hocc ((exPhElApp s).H.energy ((exPhElApp s).kCoords i) b1)
      refine mul_nonneg (mul_nonneg (by norm_num [exPhElApp]) (by positivity)) ?_
      split
      · exact le_rfl
      · exact le_max_right _ _
    have hone : 0 < transition (exPhElApp s) 1 0 ((exPhElApp s).kCoords 0) 0 i2 0.01 0 1 := by
      unfold transition
      have := hocc ((exPhElApp s).H.energy ((exPhElApp s).kCoords 0) 0)
      refine mul_pos (mul_pos (by norm_num [exPhElApp]) (by positivity)) ?_
      rw [if_neg (by norm_num [exPhElApp])]
      apply lt_max_of_lt_left
      show 0 < gaussianSmearing 1 (0.02 - 0.03 + 0.01)
      unfold gaussianSmearing
      rw [if_neg (by norm_num)]
      have := Real.sqrt_pos.mpr Real.pi_pos
      positivity
    unfold phononLinewidth
    refine mul_pos (by norm_num [exPhElApp]; exact Real.pi_pos) ?_
    simp only [if_true]
    show 0 < ∑ i ∈ Finset.range 1, ∑ b1 ∈ Finset.range 2, ∑ b2 ∈ Finset.range 2, _
    rw [Finset.sum_range_one, Finset.sum_range_succ, Finset.sum_range_one, Finset.sum_range_succ, Finset.sum_range_one,
      Finset.sum_range_succ, Finset.sum_range_one]
    have a1 := hnn 0 0 0
    have a2 := hnn 0 1 0
    have a3 := hnn 0 1 1
    linarith
  have e1 := k1 0 ⟨1, 0, 0⟩ (by rw [t1]; rfl)
  have e2 := k2 0 ⟨1, 0, 0⟩ (by rw [t2]; rfl)
  simp only at e1 e2
  rw [hz] at e1
  rw [hfull] at e2
  refine ⟨exPhElApp s, u, sweep1, sweep2, f1, f2, F1, F2, _, s1, s2, g1, g2, h1, h2, by rw [t1]; rfl, by rw [t2]; rfl, ?_,
    e2, ?_, i2, rfl⟩
  · rw [e1]; simp [printedLinewidth]
  · have : (0 : ℝ) < energyRyToEvOf u.time * 1000 := by norm_num [u, energyRyToEvOf]
    exact mul_pos hp this

/-- VIOLATED: the file does not say to which chemical potential the linewidths belong.  A sweep of two chemical
potentials gives two lists of linewidths, both labelled with the chemical potential 0 and the same temperature, and no
doping concentrations. -/
theorem C181_violated_labels : ∃ (A : PhElApp) (u : FileUnits) (sweep : Sweep) (f : List Nat × List Nat × List Nat)
    (F : TimesOutput), electronSweep [1] [] [0, 0.02] (fun _ _ => 0) (fun _ _ => 0) = .ok sweep ∧
    SelectedElectrons A sweep [1] 1 f ∧ A.file u f sweep 1 = .ok F ∧
    sweep.table.map (·.chemicalPotential) = [0, 0.02] ∧ F.temperatures = [1, 1] ∧ F.chemicalPotentials = [0, 0] ∧
    F.dopings = none := by
  obtain ⟨s, hs, -⟩ := C18_stars point_setup none
  obtain ⟨sweep2, s2, t2, _⟩ := C36_chemical_potentials_partial [1] [0, 0.02] (fun _ _ => 0) (fun _ _ => 0) (by simp)
    (by simp [intMax])
  have t2 : sweep2.table = [⟨1, 0, 0⟩, ⟨1, 0.02, 0⟩] := by rw [t2]; rfl
  have hpos : ∃ w ∈ (exPhElApp s).phonons.arrays.energies, 0 < w := ⟨0.01, by simp [exPhElApp], by norm_num⟩
  obtain ⟨f2, g2⟩ := selected_exists (exPhElApp s) hpos sweep2 (by rw [t2]; simp) [1]
  let u : FileUnits := ⟨⟨1, 1, 1⟩, 1, 1⟩
  obtain ⟨F2, h2, _⟩ := exPhEl_entries s hs u sweep2 (by rw [t2]; simp) [1] f2 g2
  refine ⟨exPhElApp s, u, sweep2, f2, F2, s2, g2, h2, by rw [t2]; rfl, ?_⟩
  unfold PhElApp.file at h2
  rw [Outcome.bind_eq_ok_iff] at h2
  obtain ⟨_, _, h2⟩ := h2
  rw [Outcome.bind_eq_ok_iff] at h2
  obtain ⟨_, _, h2⟩ := h2
  simp only at h2
  rw [Outcome.bind_eq_ok_iff] at h2
  obtain ⟨_, _, h2⟩ := h2
  obtain ⟨c1, _, c3⟩ := C160_header _ _ _ h2
  obtain ⟨c4, c5, c6⟩ := c3 rfl
  refine ⟨by rw [c1]; simp [t2, u], ?_, c6⟩
  rw [t2] at c5
  match hF : F2.chemicalPotentials, c5 with
  | [a, b], _ =>
    rw [hF] at c4
    rw [c4 a (by simp), c4 b (by simp)]

/-! ## The hypotheses are met -/

/-- The run of `exPhElApp` with two chemical potentials: a file exists and has positive linewidths
(`C181_violated_window`), and the contributing states are near the chemical potentials. -/
example (s : IrrPoints) (sweep : Sweep) (ht : sweep.table = [⟨1, 0, 0⟩, ⟨1, 0.02, 0⟩]) :
    (∃ f, SelectedElectrons (exPhElApp s) sweep [1] 1 f) ∧
    ∀ b, NearFermi (exPhElApp s) sweep ((exPhElApp s).H.energy ((exPhElApp s).kCoords 0) b) := by
  refine ⟨selected_exists (exPhElApp s) ⟨0.01, by simp [exPhElApp], by norm_num⟩ sweep (by rw [ht]; simp) [1], ?_⟩
  intro b
  refine ⟨0.01, by simp [exPhElApp], ⟨1, 0, 0⟩, by rw [ht]; simp, ⟨1, 0.02, 0⟩, by rw [ht]; simp, ?_, ?_⟩
  · by_cases hb : b = 0 <;> norm_num [exPhElApp, hb]
  · by_cases hb : b = 0 <;> norm_num [exPhElApp, hb]

/-- No active phonons: an empty window. -/
example (s : IrrPoints) (sweep : Sweep) : ({ exPhElApp s with phonons := { (exPhElApp s).phonons with
    arrays := ⟨[], [], []⟩ } } : PhElApp).select sweep [1] = .ub :=
  C181_no_phonons _ rfl _ _

end Verif.Props
