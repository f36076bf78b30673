import Verif.Proofs.Occupations
import Verif.Props.TimesFile
import Verif.Props.ElHelper

/-! # C167: occupations used by the scattering matrices, third phonon of a three-phonon process -/
namespace Verif.Props
open Verif.Model Verif.Spec Verif.Proofs.Occupations

variable {α γ υ ω : Type}

/-- For every number of processes, on each of them: the occupations read for a state are those of the energy of the
state that represents it. -/
theorem C167_tables [AddMonoid α] (pop : α → α → α → α) (stats : List (α × α)) (B : BteStates α) (size : Nat)
    (hs : 0 < size) (hfit : B.numIrrStates * size < sizeTMod)
    (hB : ∀ i < B.numIrrStates, ∃ is e, B.bteToState i = .ok is ∧ B.getEnergy is = .ok e) :
    ∃ tables, occupationTables pop stats B size = .ok tables ∧ tables.length = size ∧
      ∀ t ∈ tables, ∀ is iBte rep e, B.stateToBte is = .ok iBte → iBte < B.numIrrStates → B.bteToState iBte = .ok rep →
        B.getEnergy rep = .ok e → readOccupations B stats.length t is = .ok (occupations pop stats e) := by
  choose! st en hst hen using hB
  obtain ⟨tables, h1, h2, h3⟩ := tables_val pop stats B size hs hfit st en (fun i hi => ⟨hst i hi, hen i hi⟩)
  refine ⟨tables, h1, h2, fun t ht is iBte rep e e1 e2 e3 e4 => ?_⟩
  have a := hst iBte e2
  rw [e3] at a; cases a
  have b := hen iBte e2
  rw [e4, Outcome.ok.injEq] at b
  subst b
  unfold readOccupations
  rw [e1, Outcome.bind_eq]
  show (if iBte < B.numIrrStates then _ else _) = _
  rw [if_pos e2, h3 t ht iBte e2, range_column]

/-- Full band structure reduced by symmetry: the occupations read for a state of any wavevector are those of the same
band at an irreducible wavevector related to it by symmetry. -/
theorem C167_full [AddMonoid α] {nProc rank n : Nat} {coords : Nat → V3 Rat} {lookup : V3 Rat → Outcome Int}
    {rots : List M3} (numBands : Nat) (hb : 0 < numBands) (h : IrrSetup nProc rank n coords lookup rots)
    (vel : Option (Nat → Nat → Rat)) (s : IrrPoints)
    (hs : setIrreduciblePoints nProc rank n coords lookup rots vel [] = .ok s) (pop : α → α → α → α)
    (stats : List (α × α)) (energy : Nat → Nat → α) (getEnergy : Nat → Outcome α)
    (hen : ∀ ik ib, ik < n → ib < numBands → getEnergy (ik * numBands + ib) = .ok (energy ik ib)) (size : Nat)
    (hsize : 0 < size) (hfit : (fullBteStates numBands n s getEnergy).numIrrStates * size < sizeTMod) :
    ∃ tables, occupationTables pop stats (fullBteStates numBands n s getEnergy) size = .ok tables ∧
      tables.length = size ∧ ∀ t ∈ tables, ∀ j ib, j < n → ib < numBands → ∃ ik, ik < n ∧ SymRelated rots coords ik j ∧
        readOccupations (fullBteStates numBands n s getEnergy) stats.length t (j * numBands + ib) =
          .ok (occupations pop stats (energy ik ib)) := by
  obtain ⟨c1, c2, c3⟩ := C30_full numBands hb h vel s hs
  have hlen : (fullBteStates numBands n s getEnergy).numIrrStates = (s.irrPointsIterator n).length * numBands := by
    unfold fullBteStates fullIrrStateIterator
    simp [List.length_flatMap]
  have hirr : ∀ ik ∈ s.irrPointsIterator n, ik < n := fun ik hik => by
    unfold IrrPoints.irrPointsIterator at hik
    simpa using (List.mem_filter.mp hik).1
  have hmem : ∀ is ∈ fullIrrStateIterator numBands n s, ∃ ik ib, ik < n ∧ ib < numBands ∧ is = ik * numBands + ib := by
    intro is hi
    unfold fullIrrStateIterator at hi
    obtain ⟨ik, hk, hi⟩ := List.mem_flatMap.mp hi
    obtain ⟨ib, hi1, rfl⟩ := List.mem_map.mp hi
    exact ⟨ik, ib, hirr ik hk, List.mem_range.mp hi1, rfl⟩
  obtain ⟨tables, h1, h2, h3⟩ := C167_tables pop stats (fullBteStates numBands n s getEnergy) size hsize hfit (by
    intro i hi
    rw [hlen] at hi
    obtain ⟨is, hm, hi1, _⟩ := c2 i hi
    obtain ⟨ik, ib, a1, a2, rfl⟩ := hmem is hm
    exact ⟨_, _, hi1, hen ik ib a1 a2⟩)
  refine ⟨tables, h1, h2, fun t ht j ib hj hib => ?_⟩
  obtain ⟨ik, hik, hrel, heq⟩ := c3 j ib hj hib
  have hst : ik * numBands + ib ∈ fullIrrStateIterator numBands n s := by
    unfold fullIrrStateIterator
    exact List.mem_flatMap.mpr ⟨ik, hik, List.mem_map.mpr ⟨ib, List.mem_range.mpr hib, rfl⟩⟩
  obtain ⟨iBte, b1, b2, b3⟩ := c1 _ hst
  exact ⟨ik, hirr ik hik, hrel, h3 t ht _ iBte _ _ (heq.trans b1) (by rw [hlen]; exact b2) b3 (hen ik ib (hirr ik hik) hib)⟩

/-- The same for an active band structure, where the number of bands depends on the wavevector. -/
theorem C167_active [AddMonoid α] {nProc rank : Nat} {coords : Nat → V3 Rat} {lookup : V3 Rat → Outcome Int}
    {rots : List M3} (B : ActiveLayout) (h : IrrSetup nProc rank B.numPoints coords lookup rots)
    (vel : Option (Nat → Nat → Rat)) (s : IrrPoints)
    (hs : setIrreduciblePoints nProc rank B.numPoints coords lookup rots vel [] = .ok s)
    (hnb : ∀ i j, i < B.numPoints → j < B.numPoints → SymRelated rots coords i j → B.numBands i = B.numBands j)
    (pop : α → α → α → α) (stats : List (α × α)) (energy : Nat → Nat → α) (getEnergy : Nat → Outcome α)
    (hen : ∀ ik ib, ik < B.numPoints → ib < B.numBands ik → getEnergy (B.bloch2Comb ik ib) = .ok (energy ik ib))
    (size : Nat) (hsize : 0 < size) (hfit : (activeBteStates B s getEnergy).numIrrStates * size < sizeTMod) :
    ∃ tables, occupationTables pop stats (activeBteStates B s getEnergy) size = .ok tables ∧
      tables.length = size ∧ ∀ t ∈ tables, ∀ j ib, j < B.numPoints → ib < B.numBands j → ∃ ik, ik < B.numPoints ∧
        SymRelated rots coords ik j ∧
        readOccupations (activeBteStates B s getEnergy) stats.length t (B.bloch2Comb j ib) =
          .ok (occupations pop stats (energy ik ib)) := by
  obtain ⟨c1, c2⟩ := C30_active B h vel s hs
  have hlen : (activeBteStates B s getEnergy).numIrrStates = B.numIrrStates s := by
    have := (mapOutcome_getElem c1).1
    rw [List.length_range] at this
    exact this.symm
  have hirr : ∀ ik ∈ s.irrPointsIterator B.numPoints, ik < B.numPoints := fun ik hik => by
    unfold IrrPoints.irrPointsIterator at hik
    simpa using (List.mem_filter.mp hik).1
  obtain ⟨g1, g2⟩ := mapOutcome_getElem c2
  rw [List.length_range] at g1
  obtain ⟨tables, h1, h2, h3⟩ := C167_tables pop stats (activeBteStates B s getEnergy) size hsize hfit (by
    intro i hi
    have hi' : i < (B.irrStateIterator s).length := hi
    have hm := List.getElem_mem hi'
    have e := g2 i (by rw [List.length_range, ← g1]; exact hi') hi'
    rw [List.getElem_range] at e
    unfold ActiveLayout.irrStateIterator at hm
    obtain ⟨ik, hk, hm⟩ := List.mem_flatMap.mp hm
    obtain ⟨ib, hm1, hm2⟩ := List.mem_map.mp hm
    refine ⟨_, energy ik ib, e, ?_⟩
    have := hen ik ib (hirr ik hk) (List.mem_range.mp hm1)
    rw [hm2] at this
    exact this)
  refine ⟨tables, h1, h2, fun t ht j ib hj hib => ?_⟩
  obtain ⟨ik, hik, hrel, heq, _⟩ := C30_active_star B h vel s hs hnb j ib hj hib
  have hbk : ib < B.numBands ik := by rw [hnb ik j (hirr ik hik) hj hrel]; exact hib
  obtain ⟨k, hk1, hk2⟩ := List.mem_iff_getElem.mp hik
  obtain ⟨b1, b2, b3⟩ := bte_entry h hs (k := k) (ik := ik) (ib := ib) (by rw [List.getElem?_eq_getElem hk1, hk2]) hbk
  exact ⟨ik, hirr ik hik, hrel, h3 t ht _ _ _ _ (heq.trans b2) (by rw [hlen]; exact b1) b3 (hen ik ib (hirr ik hik) hbk)⟩

/-- Full band structure that is not reduced: the occupations of a state are those of its energy. -/
theorem C167_plain [AddMonoid α] (numBands n : Nat) (hb : 0 < numBands) (pop : α → α → α → α)
    (stats : List (α × α)) (energy : Nat → Nat → α) (getEnergy : Nat → Outcome α)
    (hen : ∀ ik ib, ik < n → ib < numBands → getEnergy (ik * numBands + ib) = .ok (energy ik ib)) (size : Nat)
    (hsize : 0 < size) (hfit : n * numBands * size < sizeTMod) :
    ∃ tables, occupationTables pop stats (plainBteStates numBands n getEnergy) size = .ok tables ∧
      tables.length = size ∧ ∀ t ∈ tables, ∀ j ib, j < n → ib < numBands →
        readOccupations (plainBteStates numBands n getEnergy) stats.length t (j * numBands + ib) =
          .ok (occupations pop stats (energy j ib)) := by
  have hid : ∀ i, (plainBteStates numBands n getEnergy).bteToState i = .ok i ∧
      (plainBteStates numBands n getEnergy).stateToBte i = .ok i := by
    intro i
    have : i / numBands * numBands ≤ i := Nat.div_mul_le_self i numBands
    have e : i / numBands * numBands + (i - i / numBands * numBands) = i := by omega
    simp only [plainBteStates]
    rw [if_neg (by omega), e]
    exact ⟨rfl, rfl⟩
  have hlt : ∀ i, i < n * numBands → ∃ ik ib, ik < n ∧ ib < numBands ∧ i = ik * numBands + ib := fun i hi =>
    ⟨i / numBands, i % numBands, Nat.div_lt_of_lt_mul (by rw [Nat.mul_comm]; exact hi), Nat.mod_lt _ hb,
      (Nat.div_add_mod' i numBands).symm⟩
  obtain ⟨tables, h1, h2, h3⟩ := C167_tables pop stats (plainBteStates numBands n getEnergy) size hsize hfit (by
    intro i hi
    obtain ⟨ik, ib, a1, a2, rfl⟩ := hlt i hi
    exact ⟨_, _, (hid _).1, hen ik ib a1 a2⟩)
  refine ⟨tables, h1, h2, fun t ht j ib hj hib => ?_⟩
  refine h3 t ht _ _ _ _ (hid _).2 ?_ (hid _).1 (hen j ib hj hib)
  show j * numBands + ib < n * numBands
  calc j * numBands + ib < j * numBands + numBands := by omega
    _ = (j + 1) * numBands := by ring
    _ ≤ n * numBands := Nat.mul_le_mul_right _ hj

example : (do
    let t ← occupationTables (fun e t mu => e * t + mu) [(10, 1), (100, 2)] (plainBteStates 2 3 fun i => .ok (i : Int)) 4
    let t ← readAt t 2
    readOccupations (plainBteStates 2 3 fun i => .ok (i : Int)) 2 t 5) = .ok [51, 502] := by decide +kernel

/-! ## Third phonon -/

/-- Same band structure on both sides, Gamma-centred mesh, no window.  For all pairs of points and both signs, the third
phonon is made of energies, eigenvectors, velocities and occupations at a point equal to `q1 ± q2` up to a reciprocal
lattice vector, provided that the table gives the occupations of each state (`C167_plain`, `C167_mesh_reduced`). -/
theorem C167_mesh (mesh : V3 Int) (hm : PosMesh mesh) (full : Points)
    (hfull : setMesh mesh ⟨0, 0, 0⟩ = .ok full) (active : Outcome Points) (bandsOf : Points → StoredPhonons α υ ω)
    (inner : StoredPhonons α υ ω) (F : PhononField α γ υ ω) (hpts : inner.points = full) (hF : Holds inner F)
    (B : BteStates α) (pop : α → α → α → α) (stats : List (α × α)) (table : Nat → Nat → α)
    (hB : ∀ k p ib e, k < full.numPoints → full.getPointCoordinates (k : Int) = .ok p → (F.energies p)[ib]? = some e →
      readOccupations B stats.length table (B.getIndex k ib) = .ok (occupations pop stats e)) :
    ∃ h, Helper3.make true ⟨0, 0, 0⟩ false table active bandsOf = .ok h ∧
      (∀ outer inner compute l iq2, h.prepare outer inner compute l iq2 = .ok h) ∧
      ∀ adaptive (i j : Nat), i < full.numPoints → j < full.numPoints → ∃ q1 q2,
        full.getPointCoordinates i = .ok q1 ∧ full.getPointCoordinates j = .ok q2 ∧
        ∀ plus, ∃ p, Equivalent p (thirdOf q1 q2 plus) ∧
          h.get inner B pop stats adaptive i q1 q2 plus = .ok (F.third pop stats adaptive (thirdOf q1 q2 plus) p) := by
  refine ⟨.mesh table, rfl, fun _ _ _ _ _ => rfl, fun adaptive i j hi hj => ?_⟩
  obtain ⟨t, e1, e2, e3, e4, e5, e6⟩ := setMesh_pos hm
  rw [hfull] at e1; cases e1
  have hpos : 0 ≤ mesh.x * mesh.y * mesh.z :=
    Int.le_of_lt (Int.mul_pos (Int.mul_pos hm.1 hm.2.1) hm.2.2)
  have ci := commensurate_mesh hm (i : Int) (by omega)
  have cj := commensurate_mesh hm (j : Int) (by omega)
  refine ⟨_, _, full_coordinates hm hfull i, full_coordinates hm hfull j, fun plus => ?_⟩
  set q1 := meshCoordinates mesh ⟨0, 0, 0⟩ i
  set q2 := meshCoordinates mesh ⟨0, 0, 0⟩ j
  have hq : (if plus then q1.add q2 else q1.sub q2) = thirdOf q1 q2 plus := by cases plus <;> rfl
  have cs : Commensurate mesh (thirdOf q1 q2 plus) := by
    cases plus
    · exact commensurate_sub ci cj
    · exact commensurate_add ci cj
  obtain ⟨m1, m2, m3⟩ := meshIndex_spec hm cs
  set k := meshIndex mesh (thirdOf q1 q2 plus)
  have hk : k < full.numPoints := by omega
  have hp := full_coordinates hm hfull (k : Int)
  set p := meshCoordinates mesh ⟨0, 0, 0⟩ (k : Int)
  have hk' : k < inner.points.numPoints := by rw [hpts]; exact hk
  have hp' : inner.points.getPointCoordinates k = .ok p := by rw [hpts]; exact hp
  refine ⟨p, equivalent_symm m3, ?_⟩
  have hbose : mapOutcome (fun ib3 => readOccupations B stats.length table (B.getIndex k ib3))
      (List.range (F.energies p).length) = .ok ((F.energies p).map fun e => occupations pop stats e) := by
    have hlist : (F.energies p).map (fun e => occupations pop stats e) = (List.range (F.energies p).length).map fun ib =>
        ((F.energies p)[ib]?.map fun e => occupations pop stats e).getD [] := by
      apply List.ext_getElem
      · simp
      · intro a h1 h2
        simp only [List.length_map] at h1
        simp [h1]
    rw [hlist]
    apply mapOutcome_eq_map
    intro ib hib
    rw [List.mem_range] at hib
    rw [hB k p ib _ hk hp (List.getElem?_eq_getElem hib), List.getElem?_eq_getElem hib]
    rfl
  unfold Helper3.get
  simp only
  rw [hq, hpts, full_getIndex hm hfull cs, Outcome.bind_eq]
  show (inner.getEnergies k >>= fun energies3 => _) = _
  rw [hF.energies k p hk' hp', Outcome.bind_eq]
  show (inner.getEigenvectors k >>= fun eigenVectors3 => _) = _
  rw [hF.vectors k p hk' hp', Outcome.bind_eq]
  cases adaptive with
  | false =>
    show (mapOutcome (fun ib3 => readOccupations B stats.length table (B.getIndex k ib3)) _ >>= fun b => _) = _
    rw [hbose]
    rfl
  | true =>
    show ((inner.getGroupVelocities k >>= fun v => Outcome.ok (some v)) >>= fun v3s => _) = _
    rw [hF.velocities k p hk' hp']
    show (mapOutcome (fun ib3 => readOccupations B stats.length table (B.getIndex k ib3)) _ >>= fun b => _) = _
    rw [hbose]
    rfl

/-- ... and it does when the mesh is reduced by symmetries that leave the energies unchanged: on every process, the third
phonon has the occupations of its own energies. -/
theorem C167_mesh_reduced [AddMonoid α] (mesh : V3 Int) (hm : PosMesh mesh) (full : Points)
    (hfull : setMesh mesh ⟨0, 0, 0⟩ = .ok full) (active : Outcome Points) (bandsOf : Points → StoredPhonons α υ ω)
    (inner : StoredPhonons α υ ω) (F : PhononField α γ υ ω) (hpts : inner.points = full) (hF : Holds inner F)
    {nProc rank : Nat} {lookup : V3 Rat → Outcome Int} {rots : List M3} (numBands : Nat) (hb : 0 < numBands)
    (h : IrrSetup nProc rank full.numPoints (fun i => meshCoordinates mesh ⟨0, 0, 0⟩ i) lookup rots)
    (vel : Option (Nat → Nat → Rat)) (s : IrrPoints)
    (hs : setIrreduciblePoints nProc rank full.numPoints (fun i => meshCoordinates mesh ⟨0, 0, 0⟩ i) lookup rots vel []
      = .ok s)
    (hnb : ∀ p, (F.energies p).length = numBands)
    (hsym : ∀ i j : Nat, SymRelated rots (fun i => meshCoordinates mesh ⟨0, 0, 0⟩ i) i j →
      F.energies (meshCoordinates mesh ⟨0, 0, 0⟩ i) = F.energies (meshCoordinates mesh ⟨0, 0, 0⟩ j))
    (getEnergy : Nat → Outcome α)
    (hen : ∀ ik ib e, ik < full.numPoints → (F.energies (meshCoordinates mesh ⟨0, 0, 0⟩ ik))[ib]? = some e →
      getEnergy (ik * numBands + ib) = .ok e)
    (pop : α → α → α → α) (stats : List (α × α)) (size : Nat) (hsize : 0 < size)
    (hfit : (fullBteStates numBands full.numPoints s getEnergy).numIrrStates * size < sizeTMod) :
    ∃ tables, occupationTables pop stats (fullBteStates numBands full.numPoints s getEnergy) size = .ok tables ∧
      tables.length = size ∧ ∀ table ∈ tables,
        ∃ h, Helper3.make true ⟨0, 0, 0⟩ false table active bandsOf = .ok h ∧
          ∀ adaptive (i j : Nat), i < full.numPoints → j < full.numPoints → ∃ q1 q2,
            full.getPointCoordinates i = .ok q1 ∧ full.getPointCoordinates j = .ok q2 ∧
            ∀ plus, ∃ p, Equivalent p (thirdOf q1 q2 plus) ∧
              h.get inner (fullBteStates numBands full.numPoints s getEnergy) pop stats adaptive i q1 q2 plus =
                .ok (F.third pop stats adaptive (thirdOf q1 q2 plus) p) := by
  by_cases hα : Nonempty α
  · have : Inhabited α := Classical.inhabited_of_nonempty hα
    obtain ⟨tables, h1, h2, h3⟩ := C167_full numBands hb h vel s hs pop stats
      (fun ik ib => (F.energies (meshCoordinates mesh ⟨0, 0, 0⟩ ik)).getD ib default) getEnergy (by
        intro ik ib hik hib
        have hl : ib < (F.energies (meshCoordinates mesh ⟨0, 0, 0⟩ ik)).length := by rw [hnb]; exact hib
        refine hen ik ib _ hik ?_
        simp [List.getD_eq_getElem?_getD, List.getElem?_eq_getElem hl]) size hsize hfit
    refine ⟨tables, h1, h2, fun table ht => ?_⟩
    obtain ⟨hh, a1, _, a3⟩ := C167_mesh mesh hm full hfull active bandsOf inner F hpts hF
      (fullBteStates numBands full.numPoints s getEnergy) pop stats table (by
        intro k p ib e hk hp he
        rw [full_coordinates hm hfull] at hp
        cases hp
        obtain ⟨hl, he'⟩ := List.getElem?_eq_some_iff.mp he
        obtain ⟨ik, hik, hrel, hread⟩ := h3 table ht k ib hk (by rw [← hnb]; exact hl)
        rw [hsym ik k hrel, List.getD_eq_getElem?_getD, he, Option.getD_some] at hread
        exact hread)
    exact ⟨hh, a1, a3⟩
  · exact absurd ⟨(0 : α)⟩ hα

/-- Window: as in `C58_phonons_partial`, on every process the third phonon is made of the phonons at a point equal to
`q1 ± q2` up to a reciprocal lattice vector.  Missing with respect to C167: meshes with 1000 points or more along a
direction. -/
theorem C167_window_partial (mesh : V3 Int) (hm : PosMesh mesh) (hc : CoarseMesh mesh) (full inner : Points)
    (hfull : setMesh mesh ⟨0, 0, 0⟩ = .ok full) (filter : List Int)
    (hr : ∀ i ∈ filter, 0 ≤ i ∧ i < mesh.x * mesh.y * mesh.z) (hinner : full.setActiveLayer filter = .ok inner)
    (size : Nat) (hs : 0 < size) (hfit : inner.numPoints * size < sizeTMod)
    (mine : List (List Nat)) (hlen : mine.length = size)
    (hrun : ∀ r (hr : r < mine.length), ∃ work, divideWorkIter inner.numPoints r size = .ok work ∧
      RegionRun full (phThirdVectors inner) inner.numPoints work mine[r])
    (table : Nat → Nat → α) (innerBands : StoredPhonons α υ ω) (B : BteStates α) :
    ∃ P, thirdPoints full mine = .ok (List.replicate size P) ∧
      ∀ (rank : Nat), rank < size → ∀ (bandsOf : Points → StoredPhonons α υ ω) (F : PhononField α γ υ ω),
        (bandsOf P).points = P → Holds (bandsOf P) F →
        ∃ h, Helper3.make true ⟨0, 0, 0⟩ true table (thirdPoints full mine >>= fun l => readAt l rank) bandsOf = .ok h ∧
          (∀ outer inner compute l iq2, h.prepare outer inner compute l iq2 = .ok h) ∧
          ∀ pop stats adaptive (i j : Nat), i < inner.numPoints → j < inner.numPoints → ∃ q1 q2,
            inner.getPointCoordinates i = .ok q1 ∧ inner.getPointCoordinates j = .ok q2 ∧
            ∀ plus, ∃ p, Equivalent p (thirdOf q1 q2 plus) ∧
              h.get innerBands B pop stats adaptive i q1 q2 plus =
                .ok (F.third pop stats adaptive (thirdOf q1 q2 plus) p) := by
  obtain ⟨P, hP, hfound⟩ := C58_phonons_partial mesh hm hc full inner hfull filter hr hinner size hs hfit mine hlen hrun
  refine ⟨P, hP, ?_⟩
  intro rank hrank bandsOf F hpts hF
  have hact : (thirdPoints full mine >>= fun l => readAt l rank) = .ok P := by
    rw [hP]
    show readAt _ _ = _
    unfold readAt
    rw [List.getElem?_replicate, if_pos hrank]
  refine ⟨.window (bandsOf P), ?_, fun _ _ _ _ _ => rfl, fun pop stats adaptive i j hi hj => ?_⟩
  · unfold Helper3.make
    rw [if_neg (by rintro ⟨_, _, h⟩; cases h), if_pos ⟨rfl, rfl, rfl⟩, hact]
    rfl
  obtain ⟨q1, q2, e1, e2, e3⟩ := hfound i j hi hj
  refine ⟨q1, q2, e1, e2, fun plus => ?_⟩
  obtain ⟨k, p, hf, hk, hp, he⟩ := e3 plus
  refine ⟨p, he, ?_⟩
  have hq : (if plus then q1.add q2 else q1.sub q2) = thirdOf q1 q2 plus := by cases plus <;> rfl
  have hk' : k < (bandsOf P).points.numPoints := by rw [hpts]; exact hk
  have hp' : (bandsOf P).points.getPointCoordinates k = .ok p := by rw [hpts]; exact hp
  unfold phThird at hf
  rw [hq] at hf
  unfold Helper3.get
  simp only
  rw [hq, hpts, hf, Outcome.bind_eq]
  show ((bandsOf P).getEnergies k >>= fun energies3 => _) = _
  rw [hF.energies k p hk' hp', Outcome.bind_eq]
  show ((bandsOf P).getEigenvectors k >>= fun eigenVectors3 => _) = _
  rw [hF.vectors k p hk' hp', Outcome.bind_eq]
  cases adaptive with
  | false => rfl
  | true =>
    show (((bandsOf P).getGroupVelocities k >>= fun v => Outcome.ok (some v)) >>= fun v3s => _) = _
    rw [hF.velocities k p hk' hp']
    rfl

/-- Different band structures (lifetimes on a path) or a shifted mesh: after `prepare` on consecutive wavevectors, the
third phonon is made of the phonons at `q1 ± q2` itself.  Missing with respect to C167: other lists
(`C167_violated_gap`, `C167_violated_empty`). -/
theorem C167_computed_partial (same : Bool) (offset : V3 Rat) (hno : same = false ∨ offset ≠ ⟨0, 0, 0⟩)
    (window : Bool) (table : Nat → Nat → α) (active : Outcome Points) (bandsOf : Points → StoredPhonons α υ ω)
    (F : PhononField α γ υ ω) (outer inner : Points) (innerBands : StoredPhonons α υ ω) (B : BteStates α)
    (pop : α → α → α → α) (stats : List (α × α)) (adaptive : Bool) (iq2 : Int) (q2 : V3 Rat)
    (hq2 : inner.getPointCoordinates iq2 = .ok q2) (first : Int) (n : Nat) (hn : 0 < n) (q1 : Nat → V3 Rat)
    (hq1 : ∀ k < n, outer.getPointCoordinates (first + (k : Int)) = .ok (q1 k)) :
    ∃ h h', Helper3.make same offset window table active bandsOf = .ok h ∧
      h.prepare outer inner (computeThird pop stats adaptive (fun q => (F.energies q, F.vectors q)) F.velocities)
        ((List.range n).map fun k : Nat => first + (k : Int)) iq2 = .ok h' ∧
      ∀ k < n, ∀ plus, h'.get innerBands B pop stats adaptive (first + (k : Int)) (q1 k) q2 plus =
        .ok (F.third pop stats adaptive (thirdOf (q1 k) q2 plus) (thirdOf (q1 k) q2 plus)) := by
  have hmap : mapOutcome (fun iq1 => outer.getPointCoordinates iq1 >>= fun q1 => inner.getPointCoordinates iq2 >>= fun q2 =>
      Outcome.ok (computeThird pop stats adaptive (fun q => (F.energies q, F.vectors q)) F.velocities (q1.add q2),
        computeThird pop stats adaptive (fun q => (F.energies q, F.vectors q)) F.velocities (q1.sub q2)))
      ((List.range n).map fun k : Nat => first + (k : Int)) =
      .ok ((List.range n).map fun k => (F.third pop stats adaptive ((q1 k).add q2) ((q1 k).add q2),
        F.third pop stats adaptive ((q1 k).sub q2) ((q1 k).sub q2))) := by
    rw [mapOutcome_eq_map (g := fun i => (F.third pop stats adaptive ((q1 (i - first).toNat).add q2)
      ((q1 (i - first).toNat).add q2), F.third pop stats adaptive ((q1 (i - first).toNat).sub q2)
      ((q1 (i - first).toNat).sub q2)))]
    · rw [List.map_map]
      congr 1
      apply List.map_congr_left
      intro k _
      simp
    · intro i hi
      obtain ⟨k, hk, rfl⟩ := List.mem_map.mp hi
      rw [hq1 k (List.mem_range.mp hk), hq2]
      simp only [show (first + (k : Int) - first).toNat = k by omega]
      rfl
  refine ⟨.computed none, .computed (some ⟨first, (List.range n).map fun k =>
    (F.third pop stats adaptive ((q1 k).add q2) ((q1 k).add q2),
      F.third pop stats adaptive ((q1 k).sub q2) ((q1 k).sub q2))⟩), ?_, ?_, ?_⟩
  · unfold Helper3.make
    have : ¬ (same = true ∧ offset = ⟨0, 0, 0⟩) := by
      rintro ⟨h1, h2⟩
      rcases hno with h | h
      · rw [h] at h1; cases h1
      · exact h h2
    rw [if_neg (fun h => this ⟨h.1, h.2.1⟩), if_neg (fun h => this ⟨h.1, h.2.1⟩)]
  · obtain ⟨m, rfl⟩ : ∃ m, n = m + 1 := ⟨n - 1, by omega⟩
    have hl : (List.range (m + 1)).map (fun k : Nat => first + (k : Int)) =
        first :: (List.range m).map (fun k : Nat => first + ((k + 1 : Nat) : Int)) := by
      rw [List.range_succ_eq_map, List.map_cons, List.map_map]
      simp [Function.comp_def]
    rw [hl] at hmap ⊢
    unfold Helper3.prepare
    simp only
    rw [hmap]
    rfl
  · intro k hk plus
    unfold Helper3.get
    simp only
    show (ThirdCache.get _ _ >>= fun e => _) = _
    unfold ThirdCache.get
    simp only
    rw [if_neg (by omega), show (first + (k : Int) - first).toNat = k by omega, List.getElem?_map,
      List.getElem?_range hk]
    cases plus <;> rfl

/-- C167 is violated for a list with gaps: after preparing wavevectors 0 and 2, asking for wavevector 2 reads outside of
the cache. -/
theorem C167_violated_gap (outer inner : Points) (innerBands : StoredPhonons α υ ω) (B : BteStates α)
    (pop : α → α → α → α) (stats : List (α × α)) (adaptive : Bool) (iq2 : Int) (c0 c2 q2 : V3 Rat)
    (h0 : outer.getPointCoordinates 0 = .ok c0) (h2 : outer.getPointCoordinates 2 = .ok c2)
    (hq : inner.getPointCoordinates iq2 = .ok q2) (compute : V3 Rat → ThirdPhonon α υ ω) :
    ∃ h : Helper3 α υ ω, (Helper3.computed none).prepare outer inner compute [0, 2] iq2 = .ok h ∧
      ∀ plus, h.get innerBands B pop stats adaptive 2 c2 q2 plus = .ub := by
  refine ⟨.computed (some ⟨0, [(compute (c0.add q2), compute (c0.sub q2)),
    (compute (c2.add q2), compute (c2.sub q2))]⟩), ?_, fun plus => ?_⟩
  · simp [Helper3.prepare, mapOutcome, Outcome.bind_eq, Outcome.bind, h0, h2, hq]
  · simp [Helper3.get, ThirdCache.get, Outcome.bind_eq, Outcome.bind]

/-- C167: a process without wavevectors reads the first element of an empty list. -/
theorem C167_violated_empty (outer inner : Points) (iq2 : Int) (compute : V3 Rat → ThirdPhonon α υ ω) :
    (Helper3.computed none).prepare outer inner compute [] iq2 = .ub := rfl

/-- On a 4x1x1 mesh: `q1 = 3/4` and `q2 = 1/2`, the sum is stored as `1/4` and the difference is `1/4`; two modes. -/
example : (do
    let full ← setMesh ⟨4, 1, 1⟩ ⟨0, 0, 0⟩
    let B : BteStates Rat := plainBteStates 2 4 fun i => do
      let p ← full.getPointCoordinates (i / 2 : Nat)
      .ok (if i % 2 = 0 then p.x else p.y)
    let ts ← occupationTables (fun e t mu => e * t + mu) [(2, 1), (4, 0)] B 3
    let t ← readAt ts 1
    let h ← Helper3.make true ⟨0, 0, 0⟩ false t .error toyPhonons
    h.get (toyPhonons full) B (fun e t mu => e * t + mu) [(2, 1), (4, 0)] true 3 ⟨3 / 4, 0, 0⟩ ⟨1 / 2, 0, 0⟩ true) =
    .ok (toyField.third (fun e t mu => e * t + mu) [(2, 1), (4, 0)] true ⟨5 / 4, 0, 0⟩ ⟨1 / 4, 0, 0⟩) := by
  decide +kernel

example : (do
    let outer ← setMesh ⟨8, 1, 1⟩ ⟨0, 0, 0⟩
    let inner ← setMesh ⟨4, 1, 1⟩ ⟨0, 0, 0⟩
    let h ← Helper3.make false ⟨0, 0, 0⟩ false (fun _ _ => 0) .error toyPhonons
    let h ← h.prepare outer inner (computeThird (fun e t mu => e * t + mu) [(2, 1), (4, 0)] false
      (fun q => (toyField.energies q, toyField.vectors q)) toyField.velocities) [5, 6, 7] 1
    h.get (toyPhonons inner) (plainBteStates 2 4 fun _ => .ok 0) (fun e t mu => e * t + mu) [(2, 1), (4, 0)] false 6
      ⟨3 / 4, 0, 0⟩ ⟨1 / 4, 0, 0⟩ false) =
    .ok (toyField.third (fun e t mu => e * t + mu) [(2, 1), (4, 0)] false ⟨1 / 2, 0, 0⟩ ⟨1 / 2, 0, 0⟩) := by
  decide +kernel

end Verif.Props
