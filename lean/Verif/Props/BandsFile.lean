import Verif.Proofs.BandsFile

/-! # C177: the files of the band structure -/
namespace Verif.Props
open Verif.Model Verif.Spec Verif.Proofs

section
variable {A n1 n2 n3 : Nat} [NeZero n1] [NeZero n2] [NeZero n3]

omit [NeZero n1] [NeZero n2] [NeZero n3] in
theorem pathWave_eq (cell : Cell) (wrap : Vec3 → Vec3) (pts : List (V3 ℝ)) (ik : Nat) (h : ik < pts.length) :
    pathWave cell wrap pts ik = wrap (cartesianOf cell.reciprocal pts[ik]) := by
  unfold pathWave cartesianOf Cell.crystalToCartesian
  simp only [List.getD_eq_getElem?_getD, List.getElem?_eq_getElem h, Option.getD_some]
  congr 1

/-- **C177, phonons.** Whenever the run ends with a file, for each point of the path, in order, the file has its
coordinates, in meV the frequencies of all the normal modes of the crystal at that point (up to a vector of the reciprocal
lattice, and exactly if the crystal is not polar), and, if they are wanted, the displacements of the same modes in the same
order; the columns of the table of the lattice vectors are the lattice vectors and the positions are those of the atoms, in
angstrom. -/
theorem C177_phonons (eig : EigenSolver A) (he : GoodSolver eig) (c : PhCrystal A) (hA : 0 < A)
    (hm : ∀ a, 0 < c.mass a) (f : FcVec A n1 n2 n3) (order : List Vec3) (ho : order.Perm (c.gVectors n1 n2 n3))
    (cell : Cell) (hcell : makeCell c.cell = .ok cell) (hrec : c.recip = cell.reciprocal)
    (wrap : Vec3 → Vec3) (hw : ∀ q, SameModLattice cell.reciprocal (wrap q) q)
    (ry ang : ℝ) (want : Bool) (names : List String) (segs : List Segment) (delta : ℝ) (batchSize : Int)
    (hbatch : 0 < batchSize) (sched : List FullStore × List FullStore → List FullStore) (hs : GoodSched sched)
    (size : Nat) (hsize : 0 < size)
    (hfit : ∀ pts, pathPoints segs delta = .ok pts → ((pts.length * (A * 3) : Nat) : Int) ≤ intMax)
    (hfit' : ((A * 3 * (A * 3) * 3 : Nat) : Int) ≤ intMax) (file : BandsFile)
    (hrun : phononBandsApp ry ang want (A * 3) (phononView eig c f order) cell wrap
      ⟨c.cell, List.ofFn c.pos, names⟩ segs delta batchSize sched size 0 = .ok (some file)) :
    ∃ (pts : List (V3 ℝ)) (w : Nat → Fin (A * 3) → ℝ) (u : Nat → Fin (A * 3) → Fin A → Fin 3 → ℂ),
      pathPoints segs delta = .ok pts ∧ file.indices = List.range pts.length ∧
      file.coordinates = pts.map (fun p => [p.x, p.y, p.z]) ∧ file.numBands = A * 3 ∧ file.particle = "phonon" ∧
      file.energyUnit = "meV" ∧
      file.energies = (List.range pts.length).map (fun ik => List.ofFn fun s => w ik s * (1000 * ry)) ∧
      (∀ ik (h : ik < pts.length),
        (∃ k, SameModLattice c.recip k (cartesianOf c.recip pts[ik]) ∧ IsModes (dynMatrix c f k) c.mass (w ik) (u ik)) ∧
        (¬ c.hasDielectric → IsModes (dynMatrix c f (cartesianOf c.recip pts[ik])) c.mass (w ik) (u ik))) ∧
      (want = false → file.modes = none) ∧
      (want = true → ∃ m, file.modes = some m ∧
        m.displacements = (List.range pts.length).map (fun ik => List.ofFn fun s => List.ofFn fun a => List.ofFn fun i =>
          u ik s a i * (ang : ℂ)) ∧
        m.latticeVectors = (List.ofFn fun i => List.ofFn fun k : Fin 3 => latVec c.cell
          ⟨if k = 0 then 1 else 0, if k = 1 then 1 else 0, if k = 2 then 1 else 0⟩ i * ang) ∧
        m.atomPositions = (List.ofFn fun a => List.ofFn fun i => c.pos a i * ang) ∧ m.species = names) := by
  have hdual : c.Dual := by
    intro i j
    have hdir : c.cell = cell.direct := by
      unfold makeCell at hcell
      split at hcell
      · cases hcell
      · rw [← Outcome.ok.inj hcell]
    rw [hrec, hdir]
    exact (C69_reciprocal c.cell cell hcell).1 i j
  obtain ⟨pts, hp, _⟩ := (Outcome.bind_eq_ok_iff _ _ _).mp hrun
  have hle : size ≤ pts.length := by
    by_contra hlt
    have hrun' := hrun
    unfold phononBandsApp at hrun'
    rw [hp] at hrun'
    simp only [Outcome.bind_eq, Outcome.bind_ok] at hrun'
    rw [C165_too_many size (A * 3) pts.length true false want false (by omega)] at hrun'
    cases hrun'
  obtain ⟨F, f1, f2, f3, f4⟩ := phonon_run ry ang want (A * 3) (phononView eig c f order) cell wrap
    ⟨c.cell, List.ofFn c.pos, names⟩ segs delta batchSize sched size 0 pts hp hle hsize (by omega) ⟨A, by omega⟩
    (hfit pts hp) hfit' hbatch hs
  rw [f4] at hrun
  have hidx : ∃ idx, highSymIndices segs pts = .ok idx := by
    unfold outputBandsToJSON at hrun
    rw [if_neg (by simp)] at hrun
    obtain ⟨idx, h, _⟩ := (Outcome.bind_eq_ok_iff _ _ _).mp hrun
    exact ⟨idx, h⟩
  obtain ⟨idx, hidx⟩ := hidx
  rw [output_val ry ang true want _ segs pts idx hidx f2 (fun h => f3 (by simpa using h))
    (fun _ => by rw [f1, List.length_ofFn]; omega)] at hrun
  have hfile := Option.some.inj (Outcome.ok.inj hrun)
  rw [f1] at hfile
  subst hfile
  refine ⟨pts, fun ik => freqOf eig c f (pathWave cell wrap pts ik), fun ik => dispOf eig c f (pathWave cell wrap pts ik),
    hp, rfl, rfl, rfl, rfl, rfl, ?_, ?_, ?_, ?_⟩
  · apply List.map_congr_left
    intro ik _
    rw [ofFn_eq_range]
    congr 1
    funext s
    rw [view_energy eig c f order ho]
    rfl
  · intro ik h
    have hk : SameModLattice c.recip (pathWave cell wrap pts ik) (cartesianOf c.recip pts[ik]) := by
      rw [pathWave_eq cell wrap pts ik h, hrec]
      exact hw _
    refine ⟨⟨_, hk, modes_of_device eig he c hm f _⟩, fun hd => ?_⟩
    rw [← dynMatrix_same c hdual hd f _ _ hk]
    exact modes_of_device eig he c hm f _
  · rintro rfl
    rfl
  · rintro rfl
    refine ⟨_, rfl, ?_, ?_, ?_, rfl⟩
    · apply List.map_congr_left
      intro ik _
      beta_reduce
      rw [ofFn_eq_range]
      congr 1
      funext s
      have h3 : A * 3 / 3 = A := by omega
      rw [h3, ofFn_eq_range]
      congr 1
      funext a
      rw [ofFn_eq_range]
      congr 1
      funext i
      rw [view_vector eig c f order ho]
    · show (List.ofFn fun i => List.ofFn fun j => c.cell i j * ang) = _
      congr 1
      funext i
      congr 1
      funext k
      fin_cases k <;> simp [latVec]
    · show (List.ofFn c.pos).map (fun p => (List.ofFn p).map (· * ang)) = _
      rw [List.map_ofFn]
      congr 1

/-- **C177, electrons.** The same for electrons, with the energies of the Hamiltonian in eV and no displacements. -/
theorem C177_electrons (H : HamView Vec3 ℝ ℂ) (nb : Nat) (hb : 0 < nb)
    (cell : Cell) (wrap : Vec3 → Vec3) (hw : ∀ q, SameModLattice cell.reciprocal (wrap q) q)
    (hH : ∀ k q, SameModLattice cell.reciprocal k q → H.energy k = H.energy q)
    (ry ang : ℝ) (fourier want : Bool) (c : AtomsView) (segs : List Segment) (delta : ℝ)
    (sched : List FullStore → List FullStore) (hs : ∀ l, (sched l).Perm l) (size : Nat) (hsize : 0 < size)
    (hfit : ∀ pts, pathPoints segs delta = .ok pts → ((pts.length * nb : Nat) : Int) ≤ intMax)
    (hfit' : ((nb * nb * 3 : Nat) : Int) ≤ intMax) (file : BandsFile)
    (hrun : electronBandsApp ry ang fourier want nb H cell wrap c segs delta sched size 0 = .ok (some file)) :
    ∃ pts : List (V3 ℝ), pathPoints segs delta = .ok pts ∧ file.indices = List.range pts.length ∧
      file.coordinates = pts.map (fun p => [p.x, p.y, p.z]) ∧ file.numBands = nb ∧ file.particle = "electron" ∧
      file.energyUnit = "eV" ∧ file.modes = none ∧
      file.energies = pts.map (fun p => (List.range nb).map fun b => H.energy (cartesianOf cell.reciprocal p) b * ry) := by
  obtain ⟨pts, hp, _⟩ := (Outcome.bind_eq_ok_iff _ _ _).mp hrun
  have hle : size ≤ pts.length := by
    by_contra hlt
    have hrun' := hrun
    unfold electronBandsApp at hrun'
    rw [hp] at hrun'
    simp only [Outcome.bind_eq, Outcome.bind_ok] at hrun'
    rw [C165_too_many size nb pts.length false false false false (by omega)] at hrun'
    cases hrun'
  obtain ⟨F, f1, f2, f4⟩ := electron_run ry ang fourier want nb H cell wrap c segs delta sched size 0 pts hp hle hsize hb
    (hfit pts hp) hfit' hs
  rw [f4] at hrun
  have hidx : ∃ idx, highSymIndices segs pts = .ok idx := by
    unfold outputBandsToJSON at hrun
    rw [if_neg (by simp)] at hrun
    obtain ⟨idx, h, _⟩ := (Outcome.bind_eq_ok_iff _ _ _).mp hrun
    exact ⟨idx, h⟩
  obtain ⟨idx, hidx⟩ := hidx
  rw [output_val ry ang false want _ segs pts idx hidx f2 (fun h => by simp at h) (fun h => by simp at h)] at hrun
  have hfile := Option.some.inj (Outcome.ok.inj hrun)
  rw [f1] at hfile
  subst hfile
  refine ⟨pts, hp, rfl, rfl, rfl, rfl, rfl, ?_, ?_⟩
  · simp [fileOf]
  · apply List.ext_getElem
    · simp [fileOf]
    · intro ik g1 g2
      simp only [List.length_map] at g2
      simp only [fileOf, List.getElem_map, List.getElem_range]
      rw [pathWave_eq cell wrap pts ik g2, hH _ _ (hw _)]
      rfl

/-- The other processes write nothing, and with more processes than points of the path the run is refused. -/
theorem C177_processes (ry ang : ℝ) (phonon want : Bool) (c : AtomsView) (segs : List Segment) (pts : List (V3 ℝ))
    (F : FullBands ℝ ℂ) (rank : Nat) (hr : rank ≠ 0) :
    outputBandsToJSON ry ang phonon want c segs pts F rank = .ok none := by
  unfold outputBandsToJSON
  rw [if_pos hr]

/-- Runs on the paths of C139 end with a file whose indices of the labels are those of C139. -/
theorem C177_labels_partial (ry ang : ℝ) (want : Bool) (nb : Nat) (H : HamView Vec3 ℝ ℂ) (cell : Cell)
    (wrap : Vec3 → Vec3) (c : AtomsView) (hc : c.positions.length = nb / 3) (segs : List Segment) (delta : ℝ)
    (hd : 2e-8 ≤ delta) (hne : segs ≠ [])
    (hseg : ∀ s ∈ segs, GoodSegment delta s) (hlab : ∀ s ∈ segs, GoodLabels s)
    (hjoint : ∀ i (hi : i + 1 < segs.length), GoodJoint segs[i] segs[i + 1]) (batchSize : Int) (hbatch : 0 < batchSize)
    (sched : List FullStore × List FullStore → List FullStore) (hs : GoodSched sched) (size : Nat) (hsize : 0 < size)
    (hb : 0 < nb) (h3 : 3 ∣ nb) (hfit' : ((nb * nb * 3 : Nat) : Int) ≤ intMax)
    (hfit : ∀ pts, pathPoints segs delta = .ok pts → size ≤ pts.length ∧ ((pts.length * nb : Nat) : Int) ≤ intMax) :
    ∃ file, phononBandsApp ry ang want nb H cell wrap c segs delta batchSize sched size 0 = .ok (some file) ∧
      (∀ rank, 0 < rank → rank < size →
        phononBandsApp ry ang want nb H cell wrap c segs delta batchSize sched size rank = .ok none) ∧
      file.labels = segs.flatMap (fun s => [s.l0, s.l1]) ∧
      file.highSymCoordinates = segs.flatMap (fun s => [[s.p0.x, s.p0.y, s.p0.z], [s.p1.x, s.p1.y, s.p1.z]]) ∧
      file.highSymIndices.length = file.labels.length ∧
      ∀ i (hi : i < segs.length), ∃ a b, file.highSymIndices[2 * i]? = some a ∧ file.highSymIndices[2 * i + 1]? = some b ∧
        a < b ∧ file.coordinates[b]? = some [segs[i].p1.x, segs[i].p1.y, segs[i].p1.z] ∧
        (file.coordinates[a]? = some [segs[i].p0.x, segs[i].p0.y, segs[i].p0.z] ∨
          ∃ j, ∃ hj : j < segs.length, i = j + 1 ∧ segs[i].l0 = segs[j].l1 ∧
            file.coordinates[a]? = some [segs[j].p1.x, segs[j].p1.y, segs[j].p1.z]) := by
  obtain ⟨pts, idx, hp, hi, hlen, hall⟩ := C139_labels_partial delta hd segs hne hseg hlab hjoint
  obtain ⟨hle, hfit1⟩ := hfit pts hp
  have key := fun rank hr => phonon_run ry ang want nb H cell wrap c segs delta batchSize sched size rank pts hp hle hr hb h3
    hfit1 hfit' hbatch hs
  obtain ⟨F, f1, f2, f3, f4⟩ := key 0 hsize
  have hflat : ∀ l : List Segment, (pathEnds l).map (·.2) = l.flatMap (fun s => [s.l0, s.l1]) := by
    intro l
    unfold pathEnds
    rw [List.map_flatMap]
    rfl
  have hflat2 : ∀ l : List Segment, (pathEnds l).map (fun e => e.1.toList) =
      l.flatMap (fun s => [[s.p0.x, s.p0.y, s.p0.z], [s.p1.x, s.p1.y, s.p1.z]]) := by
    intro l
    unfold pathEnds
    rw [List.map_flatMap]
    rfl
  have hlen2 : ∀ l : List Segment, (l.flatMap (fun s => [s.l0, s.l1])).length = 2 * l.length := by
    intro l
    induction l with
    | nil => rfl
    | cons s t ih => rw [List.flatMap_cons, List.length_append, ih, List.length_cons]; simp only [List.length_cons, List.length_nil]; omega
  refine ⟨fileOf H F.numBands (pathWave cell wrap pts) ry ang true want c segs pts idx, ?_, ?_, hflat segs, hflat2 segs,
    ?_, ?_⟩
  · rw [f4]
    exact output_val ry ang true want c segs pts idx hi f2 (fun h => f3 (by simpa using h)) (fun _ => by rw [f1]; exact hc)
  · intro rank h0 hr
    obtain ⟨F', _, _, _, g⟩ := key rank hr
    rw [g, C177_processes _ _ _ _ _ _ _ _ _ (by omega)]
  · show idx.length = ((pathEnds segs).map (·.2)).length
    rw [hflat, hlen2, hlen]
  · intro i h
    obtain ⟨a, b, h1, h2, h3, h4, h5⟩ := hall i h
    have hpt : ∀ (n : Nat) (p : V3 ℝ), pts[n]? = some p → (pts.map V3.toList)[n]? = some [p.x, p.y, p.z] := by
      intro n p hn
      rw [List.getElem?_map, hn]
      rfl
    refine ⟨a, b, h1, h2, h3, hpt _ _ h4, ?_⟩
    rcases h5 with h5 | ⟨j, hj, e1, e2, e3⟩
    · exact Or.inl (hpt _ _ h5)
    · exact Or.inr ⟨j, hj, e1, e2, hpt _ _ e3⟩

/-- The labels are violated: for a path whose second segment starts almost at the end of the first, with another label, the phonon
bands app ends with a file of four labels and two indices. -/
theorem C177_violated_labels (ry ang : ℝ) (want : Bool) (nb : Nat) (H : HamView Vec3 ℝ ℂ) (cell : Cell)
    (wrap : Vec3 → Vec3) (c : AtomsView) (hc : c.positions.length = nb / 3) (batchSize : Int) (hbatch : 0 < batchSize)
    (sched : List FullStore × List FullStore → List FullStore) (hs : GoodSched sched) (hb : 0 < nb) (h3 : 3 ∣ nb)
    (hfit' : ((nb * nb * 3 : Nat) : Int) ≤ intMax) :
    ∃ segs : List Segment, (∀ s ∈ segs, GoodSegment (1 / 10) s ∧ GoodLabels s) ∧
      (∃ file, phononBandsApp ry ang want nb H cell wrap c segs (1 / 10) batchSize sched 1 0 = .ok (some file) ∧
        file.coordinates.length = 3 ∧ file.labels.length = 4 ∧ file.highSymIndices = [0, 1]) := by
  obtain ⟨s1, s2, g1, g2, l1, l2, pts, hp, hi, hn⟩ := C139_violated_rounding
  refine ⟨[s1, s2], ?_, ?_⟩
  · intro s hs
    simp only [List.mem_cons, List.not_mem_nil, or_false] at hs
    rcases hs with rfl | rfl
    · exact ⟨g1, l1⟩
    · exact ⟨g2, l2⟩
  · have hfit : ((pts.length * nb : Nat) : Int) ≤ intMax := by
      rw [hn]
      refine le_trans ?_ hfit'
      have : nb * 1 ≤ nb * nb := Nat.mul_le_mul_left _ hb
      push_cast
      have h2 : (nb : Int) ≤ (nb : Int) * nb := by exact_mod_cast (by omega : nb ≤ nb * nb)
      linarith
    have hle : 1 ≤ pts.length := by omega
    obtain ⟨F, f1, f2, f3, f4⟩ := phonon_run ry ang want nb H cell wrap c [s1, s2] (1 / 10) batchSize sched 1 0 pts hp hle one_pos hb h3
      hfit hfit' hbatch hs
    refine ⟨fileOf H F.numBands (pathWave cell wrap pts) ry ang true want c [s1, s2] pts [0, 1], ?_, ?_, ?_, rfl⟩
    · rw [f4]
      exact output_val ry ang true want c [s1, s2] pts [0, 1] hi f2 (fun h => f3 (by simpa using h)) (fun _ => by rw [f1]; exact hc)
    · show (pts.map V3.toList).length = _
      rw [List.length_map, hn]
    · show ((pathEnds [s1, s2]).map (·.2)).length = 4
      rfl

/-! ### A run -/

/-- A short path. -/
noncomputable def exSegment : Segment := ⟨⟨0, 0, 0⟩, ⟨1 / 10, 0, 0⟩, "G", "A"⟩

omit [NeZero n1] [NeZero n2] [NeZero n3] in
theorem exSegment_path : GoodSegment (1 / 10) exSegment ∧
    pathPoints [exSegment] (1 / 10) = .ok [⟨0, 0, 0⟩, ⟨1 / 10, 0, 0⟩] := by
  have d1 : vdist exSegment.p1 exSegment.p0 = 1 / 10 := by
    simp only [vdist, exSegment]
    rw [← Real.sqrt_sq (show (0 : ℝ) ≤ 1 / 10 by norm_num)]
    congr 1
    rw [Real.sqrt_sq (by norm_num)]
    norm_num
  have n1 : segmentCount exSegment (1 / 10) = .ok 1 := by
    unfold segmentCount truncInt
    rw [d1]
    norm_num
    decide
  have tail1 : pathTail (1 / 10) exSegment.p0 [exSegment] = .ok [exSegment.p1] := by
    simp only [pathTail, n1, Outcome.bind_eq, Outcome.bind_ok, one_ne_zero, if_false, segmentPoint_zero, vdist_self]
    rw [if_neg (by norm_num)]
    simp [segmentPoint_last exSegment 1 one_ne_zero]
  refine ⟨⟨by rw [d1], by rw [d1]; norm_num⟩, ?_⟩
  unfold pathPoints
  simp only [tail1, Outcome.bind_eq, Outcome.bind_ok]
  rfl

/-- One atom in a cubic cell. -/
noncomputable def exAtom : PhCrystal 1 := ⟨1, calcReciprocalCell 1, 1, fun _ => 0, fun _ => 2, 0, fun _ _ _ => 0⟩

/-- The hypotheses of `C177_phonons` are met by a run on two processes that ends with a file. -/
example (f : FcVec 1 1 1 1) : ∃ (eig : EigenSolver 1) (cell : Cell) (file : BandsFile), GoodSolver eig ∧
    makeCell exAtom.cell = .ok cell ∧ exAtom.recip = cell.reciprocal ∧
    (∀ q, SameModLattice cell.reciprocal (id q) q) ∧ GoodSched (fun b => b.1 ++ b.2) ∧
    phononBandsApp 13 2 true (1 * 3) (phononView eig exAtom f (exAtom.gVectors 1 1 1)) cell id
      ⟨exAtom.cell, List.ofFn exAtom.pos, ["Po"]⟩ [exSegment] (1 / 10) 1 (fun b => b.1 ++ b.2) 2 0 = .ok (some file) ∧
    file.highSymIndices.length = 2 := by
  obtain ⟨eig, he⟩ := exists_solver 1
  obtain ⟨cell, hcell, _⟩ := (C69_volume (1 : Mat3)).1 (by simp)
  have hrec : exAtom.recip = cell.reciprocal := by
    have h := hcell
    unfold makeCell at h
    split at h
    · cases h
    · rw [← Outcome.ok.inj h]; rfl
  have hs : GoodSched (fun b => b.1 ++ b.2) := fun b => ⟨b.1, List.Perm.refl _, rfl⟩
  obtain ⟨hseg, hpath⟩ := exSegment_path
  obtain ⟨file, h1, _, h3, _, h5, _⟩ := C177_labels_partial 13 2 true (1 * 3)
    (phononView eig exAtom f (exAtom.gVectors 1 1 1)) cell id ⟨exAtom.cell, List.ofFn exAtom.pos, ["Po"]⟩ (by simp)
    [exSegment] (1 / 10) (by norm_num) (by simp) (by simpa using hseg) (by simp [GoodLabels, exSegment])
    (by intro i hi; simp at hi) 1 (by norm_num) _ hs 2 (by norm_num) (by norm_num) (by norm_num) (by decide) (by
      intro pts hp
      rw [hpath, Outcome.ok.injEq] at hp
      subst hp
      exact ⟨by simp, by decide⟩)
  refine ⟨eig, cell, file, he, hcell, hrec, fun q => ⟨0, by simp⟩, hs, h1, ?_⟩
  rw [h5, h3]
  rfl

end

/-- **C177, the crystal on the terminal.** The column under `a1` is the first lattice vector, and so on, in angstrom; each
atom is printed with its position. -/
theorem C177_crystal (ang : ℝ) (c : AtomsView) : crystalPrint false ang c = none ∧
    ∃ rows atoms, crystalPrint true ang c = some (["a1", "a2", "a3"], rows, atoms) ∧
      rows = (List.ofFn fun i => [latVec c.cell ⟨1, 0, 0⟩ i * ang, latVec c.cell ⟨0, 1, 0⟩ i * ang,
        latVec c.cell ⟨0, 0, 1⟩ i * ang]) ∧
      (c.names.length = c.positions.length → atoms.length = c.positions.length ∧
        ∀ a (h : a < c.positions.length) (h' : a < c.names.length),
          atoms[a]? = some (c.names[a], List.ofFn fun i => c.positions[a] i * ang)) := by
  refine ⟨rfl, _, _, rfl, ?_, ?_⟩
  · congr 1
    funext i
    simp [latVec]
  · intro hl
    refine ⟨by simp [hl], ?_⟩
    intro a h h'
    simp [h, h', List.ofFn_succ]

end Verif.Props
