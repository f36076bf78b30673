import Verif.Spec.TimesFile
import Verif.Proofs.ActiveStore
import Verif.Proofs.Input
import Verif.Props.Bands

/-! # C160: the file of relaxation times -/
namespace Verif.Props
open Verif.Model Verif.Spec

/-- Position in the vectors of the Boltzmann equation of band `ib` of the `k`-th irreducible point. -/
def bteOf (B : ActiveLayout) (irr : List Nat) (k ib : Nat) : Nat := offs (fun j => B.numBands (irr.getD j 0)) k + ib

theorem irr_lt (s : IrrPoints) (n : Nat) : ∀ x ∈ s.irrPointsIterator n, x < n := by
  intro x hx
  unfold IrrPoints.irrPointsIterator at hx
  simpa using (List.mem_filter.mp hx).1

section
variable {nProc rank : Nat} {coords : Nat → V3 Rat} {lookup : V3 Rat → Outcome Int} {rots : List M3}
  {B : ActiveLayout} {vel : Option (Nat → Nat → Rat)} {s : IrrPoints}

theorem iterator_indexed (B : ActiveLayout) (s : IrrPoints) :
    B.irrStateIterator s = (List.range (s.irrPointsIterator B.numPoints).length).flatMap fun k =>
      (List.range (B.numBands ((s.irrPointsIterator B.numPoints).getD k 0))).map fun ib =>
        B.bloch2Comb ((s.irrPointsIterator B.numPoints).getD k 0) ib := by
  unfold ActiveLayout.irrStateIterator
  generalize s.irrPointsIterator B.numPoints = irr
  have : irr = (List.range irr.length).map (fun k => irr.getD k 0) := by
    apply List.ext_getElem
    · simp
    · intro k h1 h2; simp [h1]
  conv_lhs => rw [this]
  rw [List.flatMap_map]

theorem bte_entry (h : IrrSetup nProc rank B.numPoints coords lookup rots)
    (hs : setIrreduciblePoints nProc rank B.numPoints coords lookup rots vel [] = .ok s) {k ik ib : Nat}
    (hk : (s.irrPointsIterator B.numPoints)[k]? = some ik) (hib : ib < B.numBands ik) :
    bteOf B (s.irrPointsIterator B.numPoints) k ib < B.numIrrStates s ∧
    B.stateToBte s (B.bloch2Comb ik ib) = .ok (bteOf B (s.irrPointsIterator B.numPoints) k ib) ∧
    B.bteToState s (bteOf B (s.irrPointsIterator B.numPoints) k ib) = .ok (B.bloch2Comb ik ib) := by
  obtain ⟨h1, h2⟩ := C30_active B h vel s hs
  have hit := iterator_indexed B s
  set irr := s.irrPointsIterator B.numPoints with hirr
  obtain ⟨hlt, hv⟩ := List.getElem?_eq_some_iff.mp hk
  have hg : irr.getD k 0 = ik := by simp [hk]
  have hf := flatMap_offs_getElem? (fun k => (List.range (B.numBands (irr.getD k 0))).map fun ib =>
    B.bloch2Comb (irr.getD k 0) ib) hlt (b := ib) (by simpa [hk] using hib)
  simp only [List.length_map, List.length_range] at hf
  rw [← hit] at hf
  have hf' : (B.irrStateIterator s)[bteOf B irr k ib]? = some (B.bloch2Comb ik ib) := by
    unfold bteOf
    rw [hf]
    simp [hib, hk]
  obtain ⟨hp, hpv⟩ := List.getElem?_eq_some_iff.mp hf'
  obtain ⟨l1, g1⟩ := mapOutcome_getElem h1
  obtain ⟨l2, g2⟩ := mapOutcome_getElem h2
  have hp' : bteOf B irr k ib < B.numIrrStates s := by
    simp only [List.length_range] at l1
    omega
  refine ⟨hp', ?_, ?_⟩
  · have := g1 _ hp (by simpa using hp')
    rw [hpv] at this
    simpa using this
  · have := g2 _ (by simpa using hp') hp
    rw [hpv] at this
    simpa using this

/-- The lists of one quantity. -/
theorem stateLists_ok {β : Type} (h : IrrSetup nProc rank B.numPoints coords lookup rots)
    (hs : setIrreduciblePoints nProc rank B.numPoints coords lookup rots vel [] = .ok s)
    (f : Nat → Nat → Outcome β) (g : Nat → Nat → β)
    (hf : ∀ k ik ib, (s.irrPointsIterator B.numPoints)[k]? = some ik → ib < B.numBands ik →
      f (B.bloch2Comb ik ib) (bteOf B (s.irrPointsIterator B.numPoints) k ib) = .ok (g k ib)) :
    stateLists B s f = .ok ((List.range (s.irrPointsIterator B.numPoints).length).map fun k =>
      (List.range (B.numBands ((s.irrPointsIterator B.numPoints).getD k 0))).map (g k)) := by
  have hin : ∀ k ik, (s.irrPointsIterator B.numPoints)[k]? = some ik →
      mapOutcome (fun ib => do
        let iBte ← B.stateToBte s (B.bloch2Comb ik ib)
        f (B.bloch2Comb ik ib) iBte) (List.range (B.numBands ik)) = .ok ((List.range (B.numBands ik)).map (g k)) := by
    intro k ik hk
    apply mapOutcome_eq_map
    intro ib hib
    simp only [List.mem_range] at hib
    obtain ⟨_, e, _⟩ := bte_entry h hs hk hib
    simp only [Outcome.bind_eq, e, Outcome.bind_ok]
    exact hf k ik ib hk hib
  unfold stateLists
  generalize s.irrPointsIterator B.numPoints = irr at hin
  have hgen : ∀ (l : List Nat) (g' : Nat → Nat → β), (∀ k ik, l[k]? = some ik → mapOutcome (fun ib => do
        let iBte ← B.stateToBte s (B.bloch2Comb ik ib)
        f (B.bloch2Comb ik ib) iBte) (List.range (B.numBands ik)) = .ok ((List.range (B.numBands ik)).map (g' k))) →
      mapOutcome (fun ik => mapOutcome (fun ib => do
        let iBte ← B.stateToBte s (B.bloch2Comb ik ib)
        f (B.bloch2Comb ik ib) iBte) (List.range (B.numBands ik))) l =
        .ok ((List.range l.length).map fun k => (List.range (B.numBands (l.getD k 0))).map (g' k)) := by
    intro l
    induction l with
    | nil => intro g' _; rfl
    | cons x t ih =>
      intro g' hx
      have h0 := hx 0 x rfl
      have ht := ih (fun k => g' (k + 1)) (fun k ik hk => hx (k + 1) ik (by simpa using hk))
      unfold mapOutcome
      simp only [Outcome.bind_eq] at h0 ht ⊢
      rw [h0, ht]
      simp [List.range_succ_eq_map, Function.comp_def]
  exact hgen irr g hin

/-- All the positions of the vectors, in the order of the lists. -/
theorem flatten_rows {β : Type} (B : ActiveLayout) (s : IrrPoints) (g : Nat → β) :
    ((List.range (s.irrPointsIterator B.numPoints).length).map fun k =>
      (List.range (B.numBands ((s.irrPointsIterator B.numPoints).getD k 0))).map fun ib =>
        g (bteOf B (s.irrPointsIterator B.numPoints) k ib)).flatten = (List.range (B.numIrrStates s)).map g := by
  have hN : B.numIrrStates s = offs (fun k => B.numBands ((s.irrPointsIterator B.numPoints).getD k 0))
      (s.irrPointsIterator B.numPoints).length := foldl_list_offs B.numBands _
  have key : ∀ (len : Nat → Nat) (n : Nat), ((List.range n).map fun k =>
      (List.range (len k)).map fun ib => g (offs len k + ib)).flatten = (List.range (offs len n)).map g := by
    intro len n
    induction n with
    | zero => rfl
    | succ n ih =>
      rw [List.range_succ, List.map_append, List.flatten_append, ih]
      simp only [List.map_cons, List.map_nil, List.flatten_cons, List.flatten_nil, List.append_nil, offs]
      rw [List.range_add, List.map_append, List.map_map]
      rfl
  rw [hN]
  exact key _ _

/-- A row written to the file. -/
theorem readScaled_ok (row : List ℝ) (g : ℝ → ℝ) (i : Nat) (hi : i < row.length) :
    readScaled row g i = .ok (g (row.getD i 0)) := by
  simp [readScaled, readAt, hi, Outcome.bind_eq]

end

/-- The lists of one quantity for all calculations: their shape and entries. -/
theorem calcLists_ok {β : Type} {nProc rank : Nat} {coords : Nat → V3 Rat} {lookup : V3 Rat → Outcome Int} {rots : List M3}
    {vel : Option (Nat → Nat → Rat)} (I : TimesInput) (h : IrrSetup nProc rank I.layout.numPoints coords lookup rots)
    (hs : setIrreduciblePoints nProc rank I.layout.numPoints coords lookup rots vel [] = .ok I.irr)
    (f : Nat → Nat → Nat → Outcome β) (g : Nat → Nat → Nat → β)
    (hf : ∀ c k ik ib, (I.irr.irrPointsIterator I.layout.numPoints)[k]? = some ik → ib < I.layout.numBands ik →
      f c (I.layout.bloch2Comb ik ib) (bteOf I.layout (I.irr.irrPointsIterator I.layout.numPoints) k ib) = .ok (g c k ib)) :
    ∃ l, calcLists I f = .ok l ∧ ShapeOf I l ∧
      (∀ c, c < I.calcs.length → ∀ k ik ib, (I.irr.irrPointsIterator I.layout.numPoints)[k]? = some ik →
        ib < I.layout.numBands ik → entryOf l c k ib = some (g c k ib)) ∧
      ∀ c, c < I.calcs.length → l[c]? = some ((List.range (I.irr.irrPointsIterator I.layout.numPoints).length).map fun k =>
        (List.range (I.layout.numBands ((I.irr.irrPointsIterator I.layout.numPoints).getD k 0))).map (g c k)) := by
  have hl : calcLists I f = .ok ((List.range I.calcs.length).map fun c =>
      (List.range (I.irr.irrPointsIterator I.layout.numPoints).length).map fun k =>
        (List.range (I.layout.numBands ((I.irr.irrPointsIterator I.layout.numPoints).getD k 0))).map (g c k)) := by
    unfold calcLists
    apply mapOutcome_eq_map
    intro c _
    exact stateLists_ok h hs (f c) (g c) (hf c)
  refine ⟨_, hl, ⟨by simp, ?_⟩, ?_, ?_⟩
  · intro x hx
    obtain ⟨c, _, rfl⟩ := List.mem_map.1 hx
    apply List.ext_getElem
    · simp
    · intro k h1 h2
      simp only [List.length_map, List.length_range] at h1
      simp [h1]
  · intro c hc k ik ib hk hib
    obtain ⟨hlt, hv⟩ := List.getElem?_eq_some_iff.mp hk
    simp [entryOf, hc, hlt, hv, hib]
  · intro c hc
    simp [hc]

/-- The energy of a state of the band structure. -/
theorem fileEnergy_ok (u : FileUnits) (I : TimesInput) (hI : GoodInput I) {ik ib : Nat} (hk : ik < I.layout.numPoints)
    (hb : ib < I.layout.numBands ik) : ∃ e, I.arrays.getEnergy (I.layout.bloch2Comb ik ib) = .ok e ∧
      fileEnergy u I (I.layout.bloch2Comb ik ib) = .ok (printedLinewidth u.time I.isElectron e) := by
  have hlt := energy_bound I.layout hk hb
  rw [← hI.energies] at hlt
  have he : I.arrays.getEnergy (I.layout.bloch2Comb ik ib) = .ok I.arrays.energies[I.layout.bloch2Comb ik ib] := by
    unfold ActiveArrays.getEnergy
    rw [if_neg]
    · simp [readAt, hlt]
    · rw [List.isEmpty_iff]
      intro hn
      rw [hn] at hlt
      simp at hlt
  exact ⟨_, he, by simp only [fileEnergy, he, Outcome.bind_eq, Outcome.bind_ok]⟩

/-- The velocity of a state of the band structure. -/
theorem fileVelocity_ok (u : FileUnits) (I : TimesInput) (hI : GoodInput I) {ik ib : Nat} (hk : ik < I.layout.numPoints)
    (hb : ib < I.layout.numBands ik) :
    ∃ v, I.arrays.getGroupVelocity I.layout Complex.re (I.layout.bloch2Comb ik ib) = .ok v ∧
      fileVelocity u I (I.layout.bloch2Comb ik ib) = .ok (v.map fun x => x * u.velocityRyToSi) := by
  have hlt : ∀ c, c < 3 → I.layout.velBloch2Comb ik ib ib c < I.arrays.velocities.length := by
    intro c hc
    rw [hI.velocities]
    exact velocity_bound I.layout hk hb hb hc
  have hv : I.arrays.getGroupVelocity I.layout Complex.re (I.layout.bloch2Comb ik ib) =
      .ok ((List.range 3).map fun c => (I.arrays.velocities.getD (I.layout.velBloch2Comb ik ib ib c) 0).re) := by
    unfold ActiveArrays.getGroupVelocity
    rw [if_neg]
    · rw [(C28_roundtrip I.layout ik ib hk hb).2]
      simp only [Outcome.bind_eq, Outcome.bind_ok]
      apply mapOutcome_eq_map
      intro c hc
      rw [List.mem_range] at hc
      simp [readAt, hlt c hc]
    · rw [List.isEmpty_iff]
      intro hn
      have := hlt 0 (by omega)
      rw [hn] at this
      simp at this
  refine ⟨_, hv, ?_⟩
  simp only [fileVelocity, hv, Outcome.bind_eq, Outcome.bind_ok]
  rfl

/-- The entries of the file, with the indices of the code. -/
theorem file_entries {nProc rank : Nat} {coords : Nat → V3 Rat} {lookup : V3 Rat → Outcome Int} {rots : List M3}
    {vel : Option (Nat → Nat → Rat)} (u : FileUnits) (I : TimesInput) (hI : GoodInput I)
    (h : IrrSetup nProc rank I.layout.numPoints coords lookup rots)
    (hs : setIrreduciblePoints nProc rank I.layout.numPoints coords lookup rots vel [] = .ok I.irr) :
    ∃ F, timesFile u I = .ok F ∧
      ShapeOf I F.relaxationTimes ∧ ShapeOf I F.linewidths ∧ ShapeOf I F.energies ∧ ShapeOf I F.velocities ∧
      ∀ (k ik : Nat), (I.irr.irrPointsIterator I.layout.numPoints)[k]? = some ik →
        F.wavevectors[k]? = some (I.cell.cartesianToCrystal (I.wavevector ik)) ∧
        ∀ ib, ib < I.layout.numBands ik → ∃ (e : ℝ) (v : List ℝ),
          I.layout.comb2Bloch (I.layout.bloch2Comb ik ib) = .ok (ik, ib) ∧
          I.layout.bteToState I.irr (bteOf I.layout (I.irr.irrPointsIterator I.layout.numPoints) k ib) =
            .ok (I.layout.bloch2Comb ik ib) ∧
          I.arrays.getEnergy (I.layout.bloch2Comb ik ib) = .ok e ∧ I.arrays.getGroupVelocity I.layout Complex.re (I.layout.bloch2Comb ik ib) = .ok v ∧
          ∀ c, c < I.calcs.length → ∃ t l : ℝ, (I.times c)[bteOf I.layout (I.irr.irrPointsIterator I.layout.numPoints) k ib]? = some t ∧
              (I.linewidths c)[bteOf I.layout (I.irr.irrPointsIterator I.layout.numPoints) k ib]? = some l ∧
            entryOf F.energies c k ib = some (printedLinewidth u.time I.isElectron e) ∧
            entryOf F.velocities c k ib = some (v.map fun x => x * u.velocityRyToSi) ∧
            entryOf F.relaxationTimes c k ib = some (printedTime u.time I.isElectron t) ∧
            entryOf F.linewidths c k ib = some (printedLinewidth u.time I.isElectron l) ∧
            ∀ p, I.normalUmklapp = some p → ∃ n um ln lu, F.normalUmklapp = some (ln, lu) ∧
              (p.1 c)[bteOf I.layout (I.irr.irrPointsIterator I.layout.numPoints) k ib]? = some n ∧
              (p.2 c)[bteOf I.layout (I.irr.irrPointsIterator I.layout.numPoints) k ib]? = some um ∧
              entryOf ln c k ib = some (printedTime u.time I.isElectron n) ∧
              entryOf lu c k ib = some (printedTime u.time I.isElectron um) := by
  set irr := I.irr.irrPointsIterator I.layout.numPoints with hirr
  have hin : ∀ k ik, irr[k]? = some ik → ik < I.layout.numPoints := fun k ik hk =>
    irr_lt I.irr _ ik (List.mem_of_getElem? hk)
  have hrow : ∀ (row : Nat → List ℝ) (g : ℝ → ℝ), (∀ c, (row c).length = I.layout.numIrrStates I.irr) →
      ∀ c k ik ib, irr[k]? = some ik → ib < I.layout.numBands ik →
        readScaled (row c) g (bteOf I.layout irr k ib) = .ok (g ((row c).getD (bteOf I.layout irr k ib) 0)) := by
    intro row g hlen c k ik ib hk hib
    apply readScaled_ok
    rw [hlen]
    exact (bte_entry h hs hk hib).1
  have hget : ∀ (row : Nat → List ℝ), (∀ c, (row c).length = I.layout.numIrrStates I.irr) →
      ∀ c k ik ib, irr[k]? = some ik → ib < I.layout.numBands ik →
        (row c)[bteOf I.layout irr k ib]? = some ((row c).getD (bteOf I.layout irr k ib) 0) := by
    intro row hlen c k ik ib hk hib
    have := (bte_entry h hs hk hib).1
    rw [← hlen c] at this
    rw [← hirr] at this
    simp [this]
  obtain ⟨lt, et, st, gt, -⟩ := calcLists_ok I h hs
    (fun c _ iBte => readScaled (I.times c) (printedTime u.time I.isElectron) iBte) _ (hrow I.times _ hI.times)
  obtain ⟨ll, el, sl, gl, -⟩ := calcLists_ok I h hs
    (fun c _ iBte => readScaled (I.linewidths c) (printedLinewidth u.time I.isElectron) iBte) _
    (hrow I.linewidths _ hI.linewidths)
  have hfv : ∀ (c k ik ib : Nat), irr[k]? = some ik → ib < I.layout.numBands ik →
      fileVelocity u I (I.layout.bloch2Comb ik ib) =
        .ok ((fun (_ k ib : Nat) => match fileVelocity u I (I.layout.bloch2Comb (irr.getD k 0) ib) with
          | .ok v => v
          | _ => []) c k ib) := by
    intro c k ik ib hk hib
    obtain ⟨v, -, e⟩ := fileVelocity_ok u I hI (hin k ik hk) hib
    have hg : irr.getD k 0 = ik := by simp [hk]
    simp only [hg, e]
  obtain ⟨lv, ev, sv, gv, -⟩ := calcLists_ok I h hs (fun _ is _ => fileVelocity u I is) _ hfv
  have hfe : ∀ (c k ik ib : Nat), irr[k]? = some ik → ib < I.layout.numBands ik →
      fileEnergy u I (I.layout.bloch2Comb ik ib) =
        .ok ((fun (_ k ib : Nat) => match fileEnergy u I (I.layout.bloch2Comb (irr.getD k 0) ib) with
          | .ok v => v
          | _ => 0) c k ib) := by
    intro c k ik ib hk hib
    obtain ⟨v, -, e⟩ := fileEnergy_ok u I hI (hin k ik hk) hib
    have hg : irr.getD k 0 = ik := by simp [hk]
    simp only [hg, e]
  obtain ⟨le, ee, se, ge, -⟩ := calcLists_ok I h hs (fun _ is _ => fileEnergy u I is) _ hfe
  have hun : ∃ un, fileUN u I I.normalUmklapp = .ok un ∧ ∀ p, I.normalUmklapp = some p → ∃ ln lu, un = some (ln, lu) ∧
      ∀ c, c < I.calcs.length → ∀ k ik ib, irr[k]? = some ik → ib < I.layout.numBands ik →
        entryOf ln c k ib = some (printedTime u.time I.isElectron ((p.1 c).getD (bteOf I.layout irr k ib) 0)) ∧
        entryOf lu c k ib = some (printedTime u.time I.isElectron ((p.2 c).getD (bteOf I.layout irr k ib) 0)) := by
    cases hp : I.normalUmklapp with
    | none => exact ⟨none, rfl, fun p e => by cases e⟩
    | some p =>
      obtain ⟨n, um⟩ := p
      obtain ⟨l1, e1, -, g1, -⟩ := calcLists_ok I h hs
        (fun c _ iBte => readScaled (n c) (printedTime u.time I.isElectron) iBte) _ (hrow n _ (hI.normal _ hp))
      obtain ⟨l2, e2, -, g2, -⟩ := calcLists_ok I h hs
        (fun c _ iBte => readScaled (um c) (printedTime u.time I.isElectron) iBte) _ (hrow um _ (hI.umklapp _ hp))
      refine ⟨some (l1, l2), by simp only [fileUN, e1, e2, Outcome.bind_eq, Outcome.bind_ok], ?_⟩
      intro p e
      cases e
      exact ⟨l1, l2, rfl, fun c hc k ik ib hk hib => ⟨g1 c hc k ik ib hk hib, g2 c hc k ik ib hk hib⟩⟩
  obtain ⟨un, eun, gun⟩ := hun
  refine ⟨{ temperatures := I.calcs.map fun x => x.1 * u.temperatureAuToSi
            chemicalPotentials := I.calcs.map fun x => if I.isElectron then x.2.1 * energyRyToEvOf u.time else 0
            dopings := if I.isElectron then some (I.calcs.map fun x => x.2.2) else none
            linewidths := ll, relaxationTimes := lt, normalUmklapp := un, velocities := lv, energies := le
            wavevectors := irr.map fun ik => I.cell.cartesianToCrystal (I.wavevector ik) },
    by simp only [timesFile, et, el, ev, ee, eun, Outcome.bind_eq, Outcome.bind_ok, hirr], st, sl, se, sv, ?_⟩
  intro k ik hk
  refine ⟨by simp [hk], ?_⟩
  intro ib hib
  obtain ⟨e, he1, he2⟩ := fileEnergy_ok u I hI (hin k ik hk) hib
  obtain ⟨v, hv1, hv2⟩ := fileVelocity_ok u I hI (hin k ik hk) hib
  have hg : irr.getD k 0 = ik := by simp [hk]
  refine ⟨e, v, (C28_roundtrip I.layout ik ib (hin k ik hk) hib).2,
    (bte_entry h hs hk hib).2.2, he1, hv1, ?_⟩
  intro c hc
  refine ⟨_, _, hget I.times hI.times c k ik ib hk hib, hget I.linewidths hI.linewidths c k ik ib hk hib, ?_, ?_,
    gt c hc k ik ib hk hib, gl c hc k ik ib hk hib, ?_⟩
  · rw [ge c hc k ik ib hk hib]
    simp only [hg, he2]
  · rw [gv c hc k ik ib hk hib]
    simp only [hg, hv2]
  · intro p hp
    obtain ⟨ln, lu, e1, e2⟩ := gun p hp
    exact ⟨_, _, ln, lu, e1, hget p.1 (hI.normal p hp) c k ik ib hk hib, hget p.2 (hI.umklapp p hp) c k ik ib hk hib,
      (e2 c hc k ik ib hk hib).1, (e2 c hc k ik ib hk hib).2⟩

/-- The file has one entry per calculation, irreducible wavevector and band.  The entry of calculation `c`, of the `k`-th
wavevector of the file and of band `ib` is the energy, the velocity, the relaxation time and the linewidth of one and the same
state, that of band `ib` at that wavevector. -/
theorem C160_entries {nProc rank : Nat} {coords : Nat → V3 Rat} {lookup : V3 Rat → Outcome Int} {rots : List M3}
    {vel : Option (Nat → Nat → Rat)} (u : FileUnits) (I : TimesInput) (hI : GoodInput I)
    (h : IrrSetup nProc rank I.layout.numPoints coords lookup rots)
    (hs : setIrreduciblePoints nProc rank I.layout.numPoints coords lookup rots vel [] = .ok I.irr) :
    ∃ F, timesFile u I = .ok F ∧
      ShapeOf I F.relaxationTimes ∧ ShapeOf I F.linewidths ∧ ShapeOf I F.energies ∧ ShapeOf I F.velocities ∧
      ∀ (k ik : Nat), (I.irr.irrPointsIterator I.layout.numPoints)[k]? = some ik →
        F.wavevectors[k]? = some (I.cell.cartesianToCrystal (I.wavevector ik)) ∧
        ∀ ib, ib < I.layout.numBands ik → ∃ (is iBte : Nat) (e : ℝ) (v : List ℝ),
          I.layout.comb2Bloch is = .ok (ik, ib) ∧ I.layout.bteToState I.irr iBte = .ok is ∧
          I.arrays.getEnergy is = .ok e ∧ I.arrays.getGroupVelocity I.layout Complex.re is = .ok v ∧
          ∀ c, c < I.calcs.length → ∃ t l : ℝ, (I.times c)[iBte]? = some t ∧ (I.linewidths c)[iBte]? = some l ∧
            entryOf F.energies c k ib = some (printedLinewidth u.time I.isElectron e) ∧
            entryOf F.velocities c k ib = some (v.map fun x => x * u.velocityRyToSi) ∧
            entryOf F.relaxationTimes c k ib = some (printedTime u.time I.isElectron t) ∧
            entryOf F.linewidths c k ib = some (printedLinewidth u.time I.isElectron l) ∧
            ∀ p, I.normalUmklapp = some p → ∃ n um ln lu, F.normalUmklapp = some (ln, lu) ∧
              (p.1 c)[iBte]? = some n ∧ (p.2 c)[iBte]? = some um ∧
              entryOf ln c k ib = some (printedTime u.time I.isElectron n) ∧
              entryOf lu c k ib = some (printedTime u.time I.isElectron um) := by
  obtain ⟨F, f0, f1, f2, f3, f4, f5⟩ := file_entries u I hI h hs
  refine ⟨F, f0, f1, f2, f3, f4, fun k ik hk => ⟨(f5 k ik hk).1, fun ib hib => ?_⟩⟩
  obtain ⟨e, v, e1, e2, e3, e4, e5⟩ := (f5 k ik hk).2 ib hib
  exact ⟨_, _, e, v, e1, e2, e3, e4, e5⟩

/-- Read from the beginning to the end, the relaxation times and linewidths of a calculation are those of all the states of the
Boltzmann equation, each once, in order. -/
theorem C160_complete {nProc rank : Nat} {coords : Nat → V3 Rat} {lookup : V3 Rat → Outcome Int} {rots : List M3}
    {vel : Option (Nat → Nat → Rat)} (u : FileUnits) (I : TimesInput) (hI : GoodInput I)
    (h : IrrSetup nProc rank I.layout.numPoints coords lookup rots)
    (hs : setIrreduciblePoints nProc rank I.layout.numPoints coords lookup rots vel [] = .ok I.irr) (F : TimesOutput)
    (hF : timesFile u I = .ok F) (c : Nat) (hc : c < I.calcs.length) :
    (∃ l, F.relaxationTimes[c]? = some l ∧ l.flatten = (I.times c).map (printedTime u.time I.isElectron)) ∧
    (∃ l, F.linewidths[c]? = some l ∧ l.flatten = (I.linewidths c).map (printedLinewidth u.time I.isElectron)) := by
  have hrow : ∀ (row : Nat → List ℝ) (g : ℝ → ℝ), (∀ c, (row c).length = I.layout.numIrrStates I.irr) →
      ∃ l, calcLists I (fun c _ iBte => readScaled (row c) g iBte) = .ok l ∧
        ∃ x, l[c]? = some x ∧ x.flatten = (row c).map g := by
    intro row g hlen
    obtain ⟨l, el, -, -, gl⟩ := calcLists_ok I h hs (fun c _ iBte => readScaled (row c) g iBte)
      (fun c k ib => g ((row c).getD (bteOf I.layout (I.irr.irrPointsIterator I.layout.numPoints) k ib) 0)) (by
        intro c k ik ib hk hib
        apply readScaled_ok
        rw [hlen]
        exact (bte_entry h hs hk hib).1)
    refine ⟨l, el, _, gl c hc, ?_⟩
    rw [flatten_rows I.layout I.irr (fun i => g ((row c).getD i 0)), ← hlen c]
    apply List.ext_getElem
    · simp
    · intro i h1 h2
      simp only [List.length_map, List.length_range] at h1
      simp [h1]
  obtain ⟨lt, et, xt, gt, ft⟩ := hrow I.times (printedTime u.time I.isElectron) hI.times
  obtain ⟨ll, el, xl, gl, fl⟩ := hrow I.linewidths (printedLinewidth u.time I.isElectron) hI.linewidths
  simp only [timesFile, et, el, Outcome.bind_eq, Outcome.bind_ok] at hF
  rw [← Outcome.bind_eq, Outcome.bind_eq_ok_iff] at hF
  obtain ⟨_, _, hF⟩ := hF
  rw [← Outcome.bind_eq, Outcome.bind_eq_ok_iff] at hF
  obtain ⟨_, _, hF⟩ := hF
  rw [← Outcome.bind_eq, Outcome.bind_eq_ok_iff] at hF
  obtain ⟨_, _, hF⟩ := hF
  rw [Outcome.ok.injEq] at hF
  subst hF
  exact ⟨⟨xt, gt, ft⟩, ⟨xl, gl, fl⟩⟩

/-- The header: temperatures in order; chemical potentials and dopings of electrons, none of phonons. -/
theorem C160_header (u : FileUnits) (I : TimesInput) (F : TimesOutput) (hF : timesFile u I = .ok F) :
    F.temperatures = I.calcs.map (fun x => x.1 * u.temperatureAuToSi) ∧
    (I.isElectron = true → F.chemicalPotentials = I.calcs.map (fun x => x.2.1 * energyRyToEvOf u.time) ∧
      F.dopings = some (I.calcs.map fun x => x.2.2)) ∧
    (I.isElectron = false → (∀ x ∈ F.chemicalPotentials, x = 0) ∧ F.chemicalPotentials.length = I.calcs.length ∧
      F.dopings = none) := by
  unfold timesFile at hF
  rw [Outcome.bind_eq_ok_iff] at hF
  obtain ⟨_, _, hF⟩ := hF
  rw [Outcome.bind_eq_ok_iff] at hF
  obtain ⟨_, _, hF⟩ := hF
  rw [Outcome.bind_eq_ok_iff] at hF
  obtain ⟨_, _, hF⟩ := hF
  rw [Outcome.bind_eq_ok_iff] at hF
  obtain ⟨_, _, hF⟩ := hF
  rw [Outcome.bind_eq_ok_iff] at hF
  obtain ⟨_, _, hF⟩ := hF
  rw [Outcome.ok.injEq] at hF
  subst hF
  refine ⟨rfl, ?_, ?_⟩
  · intro he
    simp [he]
  · intro he
    simp [he]

/-- Four wavevectors, two of them related by symmetry, with one or two bands; two calculations: the hypotheses hold. -/
example : ∃ (I : TimesInput), GoodInput I ∧ I.calcs.length = 2 ∧ I.layout.numPoints = 4 ∧
    setIrreduciblePoints 3 1 I.layout.numPoints (fun k => meshCoordinates ⟨2, 2, 1⟩ ⟨0, 0, 0⟩ k)
      (fun p => .ok (isPointStoredMesh ⟨2, 2, 1⟩ ⟨0, 0, 0⟩ p)) exampleGroup none [] = .ok I.irr := by
  obtain ⟨s, hs, -⟩ := C18_stars exampleSetup none
  let B : ActiveLayout := ⟨4, fun k => [1, 2, 2, 1].getD k 0, 2⟩
  refine ⟨⟨B, s, ⟨List.replicate B.numStates 1, List.replicate B.numVelStates 1, []⟩, fun _ => 0, ⟨1, 1, 1⟩, false,
    [(1, 0, 0), (2, 0, 0)], fun _ => List.replicate (B.numIrrStates s) 1, fun _ => List.replicate (B.numIrrStates s) 1, none⟩,
    ⟨by simp, by simp, by simp, by simp, by simp, by simp⟩, rfl, rfl, hs⟩

end Verif.Props
