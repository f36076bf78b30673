import Verif.Proofs.PathPhTimes
import Verif.Props.PathTimes
import Verif.Props.Times
import Verif.Proofs.RtaRun
import Verif.Spec.Times

/-!
# C183: lifetimes of phonons along a path, from the dynamical matrix to the files
-/
namespace Verif.Props
open Verif.Model Verif.Spec Verif.Proofs

theorem picoseconds_of_rate (k : TimeConstants) (hk : GoodConstants k) (gamma : ℝ) :
    printedTime k false (1 / gamma) * 1e-12 = rateSeconds k gamma := by
  have h1 := hk.hbar.ne'
  have h2 := hk.rydberg.ne'
  have hpi := Real.pi_pos.ne'
  simp only [printedTime, rateSeconds, energyRyToFs, timeAuToFs, Bool.false_eq_true, if_false]
  by_cases hg : gamma = 0
  · subst hg; simp
  · field_simp
    norm_num

theorem modeMean_alone (A : PathPhApp) (k : Vec3) (f : Nat → ℝ) (ib : Nat) (hb : ib < A.bands)
    (h : ∀ b < A.bands, b ≠ ib → 1 / 1000000 ≤ |A.H.energy k b - A.H.energy k ib|) : modeMean A k f ib = f ib :=
  bandMean_alone (shim A) k f ib hb h

/-- The file of the bands along the path and that of the lifetimes are written, with one entry per point of the path. For
each point of the path, each mode and each calculation of the sweep: the wavevector of the file of the lifetimes is
that of the path up to reciprocal lattice vectors, both files have the same energy, that of the dynamical matrix, in meV;
the velocity is the diagonal of the velocity operator; the linewidth is zero for the phonons below 0.1 cm^-1, and otherwise
it is that of the golden rule, for three-phonon processes and isotopes, plus the scattering at the boundaries, and the
relaxation time is its inverse. Partial: the processes that the cutoffs of the program leave out are supposed to be those of the
specification (`SameProcesses`); with isotopes the width of the delta function is fixed; degenerate modes are averaged only
in the first calculation, `c = 0`: in the others the statement is for modes without degeneracies. -/
theorem C183_file_partial (A : PathPhApp) {d : Mat3} (hcell : makeCell d = .ok A.cell) (hA : PeriodicPhonons A)
    (hw : ∀ q, SameModLattice A.cell.reciprocal (A.wrap q) q) (hsm : ElSmearing A.smearing) (hiso : GoodIsotopes A)
    (hcut : 0 < A.cutoff) (hcuts : A.cutoff ≤ A.exclude) (hb : 0 < A.bands) (h3 : 3 ∣ A.bands) (u : FileUnits)
    (hu : GoodConstants u.time) (ang : ℝ) (cr : AtomsView) (segs : List Segment)
    (delta : ℝ) (pts : List (V3 ℝ)) (hp : pathPoints segs delta = .ok pts) (idx : List Nat)
    (hi : highSymIndices segs pts = .ok idx) (hproc : SameProcesses A pts) (batch : Nat → Int) (hbatch : ∀ r, 0 < batch r)
    (sched : Nat → List FullStore × List FullStore → List FullStore) (hs : ∀ r, GoodSched (sched r)) (sweep : Sweep)
    (hT : ∀ row ∈ sweep.table, 0 < row.temperature ∧ row.chemicalPotential = 0) (size : Nat)
    (hsize : 0 < size) (hle : size ≤ pts.length) (hle' : size ≤ A.mesh.length)
    (hfit : ((pts.length * A.bands : Nat) : Int) ≤ intMax) (hfitm : ((A.mesh.length * A.bands : Nat) : Int) ≤ intMax)
    (hfit' : ((A.bands * A.bands * 3 : Nat) : Int) ≤ intMax) :
    ∃ (t : TimesOutput) (f : BandsFile), A.run u ang cr segs delta batch sched sweep size = .ok (t, some f) ∧
      f.coordinates = pts.map (fun p => [p.x, p.y, p.z]) ∧ t.wavevectors.length = pts.length ∧
      t.linewidths.map (fun x => x.map List.length) =
        List.replicate sweep.table.length (List.replicate pts.length A.bands) ∧
      t.temperatures = sweep.table.map (fun r => r.temperature * u.temperatureAuToSi) ∧
      ∀ ik (hk : ik < pts.length),
        (∃ n1 n2 n3 : ℤ, t.wavevectors[ik]? = some ![pts[ik].x + n1, pts[ik].y + n2, pts[ik].z + n3]) ∧
        ∀ ib < A.bands, ∀ (c : Nat) (row : CalcRow), sweep.table[c]? = some row →
          let k := cartesianOf A.cell.reciprocal pts[ik]
          let e := A.H.energy k ib * u.time.rydberg / u.time.electronVolt * 1000
          entryOf t.energies c ik ib = some e ∧ (f.energies[ik]?.bind fun x => x[ib]?) = some e ∧
          entryOf t.velocities c ik ib = some [(A.H.velocity k ib ib 0).re * u.velocityRyToSi,
            (A.H.velocity k ib ib 1).re * u.velocityRyToSi, (A.H.velocity k ib ib 2).re * u.velocityRyToSi] ∧
          (A.H.energy k ib < A.exclude → entryOf t.linewidths c ik ib = some 0) ∧
          (A.exclude ≤ A.H.energy k ib →
            (c = 0 ∨ ∀ b < A.bands, b ≠ ib → 1 / 1000000 ≤ |A.H.energy k b - A.H.energy k ib|) →
            let gamma := phononWidth A row.temperature k ib
            entryOf t.linewidths c ik ib = some (linewidthEv u.time gamma * 1000) ∧
            ∃ tau, entryOf t.relaxationTimes c ik ib = some tau ∧ tau * 1e-12 = rateSeconds u.time gamma) := by
  obtain ⟨t, diag, pop, hrun, ht, hd⟩ := ph_run_val A hA hw hb h3 u ang cr segs delta pts hp idx hi batch hbatch sched hs sweep
    size hsize hle hle' hfit hfitm hfit'
  refine ⟨t, _, hrun, rfl, ?_, ?_, ?_, ?_⟩
  · rw [ht]; simp
  · rw [ht]
    simp only [List.map_map]
    rw [List.eq_replicate_iff]
    refine ⟨by simp, ?_⟩
    intro x hx
    obtain ⟨c, _, rfl⟩ := List.mem_map.mp hx
    simp only [Function.comp, List.map_map]
    rw [List.eq_replicate_iff]
    refine ⟨by simp, ?_⟩
    intro y hy
    obtain ⟨ik, _, rfl⟩ := List.mem_map.mp hy
    simp
  · rw [ht]
  · intro ik hk
    obtain ⟨n1, n2, n3, hn⟩ := wave_coordinates hcell hw pts hk
    have hkk : pathWave A.cell A.wrap pts ik = A.wrap (cartesianOf A.cell.reciprocal pts[ik]) := pathWave_eq _ _ _ _ hk
    have hE : A.H.energy (pathWave A.cell A.wrap pts ik) = A.H.energy (cartesianOf A.cell.reciprocal pts[ik]) := by
      rw [hkk]; exact hA.energy _ _ (hw _)
    have hV : ∀ b i, A.H.velocity (pathWave A.cell A.wrap pts ik) b b i =
        A.H.velocity (cartesianOf A.cell.reciprocal pts[ik]) b b i := by
      rw [hkk]; exact hA.velocity _ _ (hw _)
    refine ⟨⟨n1, n2, n3, ?_⟩, ?_⟩
    · rw [ht]
      simp only [List.getElem?_map, List.getElem?_range hk, Option.map_some, hn]
    · intro ib hib c row hrow
      have hc : c < sweep.table.length := (List.getElem?_eq_some_iff.mp hrow).1
      obtain ⟨hdg, hpp⟩ := hd c row ik ib hk hrow hib
      have hlw : entryOf t.linewidths c ik ib = some (printedLinewidth u.time false
          (diag c (ik * A.bands + ib) / pop c (ik * A.bands + ib))) := by
        rw [ht]
        exact entryOf_map _ _ _ (fun c ik ib => printedLinewidth u.time false
          (diag c (ik * A.bands + ib) / pop c (ik * A.bands + ib))) hc hk hib
      refine ⟨?_, ?_, ?_, ?_, ?_⟩
      · rw [ht]
        simp only
        rw [entryOf_map _ _ _ (fun _ ik ib => printedLinewidth u.time false (A.H.energy (pathWave A.cell A.wrap pts ik) ib))
          hc hk hib, hE]
        simp only [printedLinewidth, energyRyToEvOf, Bool.false_eq_true, if_false]
        congr 1
        ring
      · simp only [fileOf, List.getElem?_map, List.getElem?_range hk, Option.map_some, Option.bind_some,
          List.getElem?_range hib, hE, energyRyToEvOf, if_true]
        congr 1
        ring
      · rw [ht]
        simp only
        rw [entryOf_map _ _ _ (fun _ ik ib => [(A.H.velocity (pathWave A.cell A.wrap pts ik) ib ib 0).re * u.velocityRyToSi,
                (A.H.velocity (pathWave A.cell A.wrap pts ik) ib ib 1).re * u.velocityRyToSi,
                (A.H.velocity (pathWave A.cell A.wrap pts ik) ib ib 2).re * u.velocityRyToSi]) hc hk hib]
        simp only [hV]
      · intro hx
        rw [hlw, hdg]
        unfold rawDiagonal
        rw [if_pos hx]
        simp [printedLinewidth]
      · intro hx hdeg
        obtain ⟨hTr, hmu⟩ := hT row (List.mem_of_getElem? hrow)
        have hpos : 0 < A.H.energy (cartesianOf A.cell.reciprocal pts[ik]) ib := by linarith
        set k := cartesianOf A.cell.reciprocal pts[ik] with hkdef
        set n := boseOccupation (A.H.energy k ib) row.temperature with hn
        have hnpos : 0 < n := by
          rw [hn]
          unfold boseOccupation
          have : 1 < Real.exp (A.H.energy k ib / row.temperature) := Real.one_lt_exp_iff.mpr (by positivity)
          apply one_div_pos.mpr
          linarith
        have hpop : pop c (ik * A.bands + ib) = n * (n + 1) := by rw [hpp, hmu]; exact bose_eq _ _ hTr hpos
        have hrate : ∀ b < A.bands, rawRate A pts row ik b = phononRate A row.temperature k b := fun b hb' =>
          rate_eq A hsm hiso hcut hcuts pts hproc row hTr hmu hA hw hk hb'
        have hg : diag c (ik * A.bands + ib) = modeMean A k (phononRate A row.temperature k) ib + edgeWidth A k ib * (n * (n + 1)) := by
          rw [hdg]
          unfold rawDiagonal
          rw [if_neg (not_lt.mpr hx), bose_eq _ _ hTr hpos]
          congr 1
          by_cases h0 : c = 0
          · rw [if_pos h0]
            unfold modeMean
            refine congrArg (· / _) ?_
            apply Finset.sum_congr rfl
            intro b' hb'
            rw [Finset.mem_filter, Finset.mem_range] at hb'
            exact hrate b' hb'.1
          · rw [if_neg h0, modeMean_alone A _ _ ib hib (hdeg.resolve_left h0), hrate ib hib]
        have hw1 : diag c (ik * A.bands + ib) / pop c (ik * A.bands + ib) = phononWidth A row.temperature k ib := by
          rw [hg, hpop]
          unfold phononWidth
          rw [← hn]
          have : n * (n + 1) ≠ 0 := by positivity
          field_simp
        refine ⟨?_, ?_⟩
        · rw [hlw, hw1]
          simp only [printedLinewidth, linewidthEv, energyRyToEvOf, Bool.false_eq_true, if_false]
          congr 1
          ring
        · refine ⟨printedTime u.time false (1 / phononWidth A row.temperature k ib), ?_, picoseconds_of_rate u.time hu _⟩
          rw [ht]
          simp only
          rw [entryOf_map _ _ _ (fun c ik ib => printedTime u.time false
            (pop c (ik * A.bands + ib) / diag c (ik * A.bands + ib))) hc hk hib, ← hw1, one_div_div]

/-- Neither file is written when there are more processes than points of the mesh or of the path. -/
theorem C183_refused (A : PathPhApp) (u : FileUnits) (ang : ℝ) (cr : AtomsView) (segs : List Segment) (delta : ℝ)
    (pts : List (V3 ℝ)) (hp : pathPoints segs delta = .ok pts) (batch : Nat → Int) (hbatch : ∀ r, 0 < batch r)
    (sched : Nat → List FullStore × List FullStore → List FullStore) (hs : ∀ r, GoodSched (sched r)) (sweep : Sweep)
    (size : Nat) (hsize : 0 < size) (hb : 0 < A.bands) (h3 : 3 ∣ A.bands)
    (hfitm : ((A.mesh.length * A.bands : Nat) : Int) ≤ intMax) (hfit' : ((A.bands * A.bands * 3 : Nat) : Int) ≤ intMax)
    (h : A.mesh.length < size ∨ pts.length < size) :
    A.run u ang cr segs delta batch sched sweep size = .error := by
  have hfirst : ∀ (f : Nat → Outcome (FullBands ℝ ℂ × FullBands ℝ ℂ)), f 0 = .error →
      mapOutcome f (List.range size) = .error := by
    intro f hf
    obtain ⟨n, rfl⟩ := Nat.exists_eq_succ_of_ne_zero hsize.ne'
    rw [List.range_succ_eq_map]
    simp only [mapOutcome, hf]
    rfl
  have hmany : ∀ l : List (V3 ℝ), l.length < size → A.populate l (batch 0) (sched 0) size 0 = .error := by
    intro l hl
    unfold PathPhApp.populate
    rw [C165_too_many size A.bands l.length true true true false hl]
    rfl
  unfold PathPhApp.run
  rw [hp]
  simp only [Outcome.bind_eq, Outcome.bind_ok]
  by_cases h1 : A.mesh.length < size
  · rw [hfirst _ (by rw [hmany _ h1]; rfl)]
    rfl
  · obtain ⟨F, hF, _⟩ := ph_populate_val A A.mesh (batch 0) (sched 0) size 0 (by omega) hsize hb h3 hfitm hfit' (hbatch 0) (hs 0)
    rw [hfirst _ (by rw [hF, hmany _ (h.resolve_left h1)]; rfl)]
    rfl

/-- The files do not depend on the number of processes, on the batches and on the order of the calls of the threads. -/
theorem C183_processes (A : PathPhApp) (hA : PeriodicPhonons A) (hw : ∀ q, SameModLattice A.cell.reciprocal (A.wrap q) q)
    (hb : 0 < A.bands) (h3 : 3 ∣ A.bands) (u : FileUnits) (ang : ℝ) (cr : AtomsView)
    (segs : List Segment) (delta : ℝ) (pts : List (V3 ℝ)) (hp : pathPoints segs delta = .ok pts) (idx : List Nat)
    (hi : highSymIndices segs pts = .ok idx) (batch batch' : Nat → Int) (hbatch : ∀ r, 0 < batch r ∧ 0 < batch' r)
    (sched sched' : Nat → List FullStore × List FullStore → List FullStore) (hs : ∀ r, GoodSched (sched r))
    (hs' : ∀ r, GoodSched (sched' r)) (sweep : Sweep) (size size' : Nat) (hsize : 0 < size) (hsize' : 0 < size')
    (hle : size ≤ pts.length ∧ size ≤ A.mesh.length) (hle' : size' ≤ pts.length ∧ size' ≤ A.mesh.length)
    (hfit : ((pts.length * A.bands : Nat) : Int) ≤ intMax) (hfitm : ((A.mesh.length * A.bands : Nat) : Int) ≤ intMax)
    (hfit' : ((A.bands * A.bands * 3 : Nat) : Int) ≤ intMax) :
    A.run u ang cr segs delta batch sched sweep size = A.run u ang cr segs delta batch' sched' sweep size' := by
  obtain ⟨t, diag, pop, hrun, ht, hd⟩ := ph_run_val A hA hw hb h3 u ang cr segs delta pts hp idx hi batch (fun r => (hbatch r).1)
    sched hs sweep size hsize hle.1 hle.2 hfit hfitm hfit'
  obtain ⟨t', diag', pop', hrun', ht', hd'⟩ := ph_run_val A hA hw hb h3 u ang cr segs delta pts hp idx hi batch'
    (fun r => (hbatch r).2) sched' hs' sweep size' hsize' hle'.1 hle'.2 hfit hfitm hfit'
  have hlists : ∀ g : ℝ → ℝ → ℝ, ((List.range sweep.table.length).map fun c => (List.range pts.length).map fun ik =>
      (List.range A.bands).map fun ib => g (diag c (ik * A.bands + ib)) (pop c (ik * A.bands + ib))) =
      (List.range sweep.table.length).map fun c => (List.range pts.length).map fun ik =>
      (List.range A.bands).map fun ib => g (diag' c (ik * A.bands + ib)) (pop' c (ik * A.bands + ib)) := by
    intro g
    apply List.map_congr_left
    intro c hc
    apply List.map_congr_left
    intro ik hk
    apply List.map_congr_left
    intro ib hib
    rw [List.mem_range] at hc hk hib
    obtain ⟨x1, x2⟩ := hd c _ ik ib hk (List.getElem?_eq_getElem hc) hib
    obtain ⟨y1, y2⟩ := hd' c _ ik ib hk (List.getElem?_eq_getElem hc) hib
    rw [x1, x2, y1, y2]
  rw [hrun, hrun', ht, ht', hlists (fun x y => printedLinewidth u.time false (x / y)),
    hlists (fun x y => printedTime u.time false (y / x))]

/-! ### Runs -/

/-- Three modes with the energies of `energy`, no velocities, couplings that are all one, no isotopes, and the cutoffs of the
program (0.001 and 0.1 cm^-1). -/
noncomputable def exPhonons (cell : Cell) (energy : Vec3 → Nat → ℝ) : PathPhApp :=
  ⟨3, ⟨energy, fun _ _ _ => 0, fun _ _ _ _ => 0⟩, cell, id, [⟨0, 0, 0⟩, ⟨1 / 2, 0, 0⟩], fun _ _ _ _ _ => 1,
    fun _ _ _ _ _ => 1, none, .gaussian 1, 0.001 / 109737.31568, 0.1 / 109737.31568, none⟩

theorem exPhonons_good (cell : Cell) (energy : Vec3 → Nat → ℝ)
    (he : ∀ k q, SameModLattice cell.reciprocal k q → energy k = energy q) : PeriodicPhonons (exPhonons cell energy) ∧
    ElSmearing (exPhonons cell energy).smearing ∧ GoodIsotopes (exPhonons cell energy) ∧
    (∀ q, SameModLattice cell.reciprocal ((exPhonons cell energy).wrap q) q) :=
  ⟨⟨he, fun _ _ _ _ _ => rfl, fun _ _ _ _ _ _ => rfl, fun _ _ _ _ _ _ => rfl, fun _ h => by cases h⟩,
    (by show (0 : ℝ) < 1; norm_num), Or.inl rfl, fun q => ⟨0, by simp [exPhonons]⟩⟩

theorem bose_pos {e T : ℝ} (he : 0 < e) (hT : 0 < T) : 0 < boseOccupation e T := by
  unfold boseOccupation
  have : 1 < Real.exp (e / T) := Real.one_lt_exp_iff.mpr (by positivity)
  apply one_div_pos.mpr
  linarith

theorem exPhonons_delta (cell : Cell) (energy : Vec3 → Nat → ℝ) (x : ℝ) (hx : |x| < 1) (q q' : Vec3) (b b' : Nat) :
    0 < phononDelta (exPhonons cell energy) x q b q' b' := by
  show 0 < gaussianSmearing 1 x
  have hp := gaussian_prefactor_pos (w := 1) one_pos
  have := (abs_lt.mp hx).2
  unfold gaussianSmearing
  simp only
  rw [if_neg (by simp; linarith)]
  positivity

theorem exPhonons_term (cell : Cell) (energy : Vec3 → Nat → ℝ) (e T : ℝ) (he : 0.1 / 109737.31568 ≤ e) (he' : e < 1) (hT : 0 < T) (k k2 : Vec3)
    (h1 : ∀ b, energy k b = e) (h2 : ∀ b, energy k2 b = e) (h3 : ∀ b, energy (fun i => k i + k2 i) b = e)
    (h4 : ∀ b, energy (fun i => k i - k2 i) b = e) (b b2 : Nat) : 0 < stateTerm (exPhonons cell energy) T k b k2 b2 := by
  have hpos : 0 < e := lt_of_lt_of_le (by norm_num) he
  have hn := bose_pos hpos hT
  have hpi := Real.pi_pos
  unfold stateTerm
  have hno : ¬ (exPhonons cell energy).H.energy k2 b2 < (exPhonons cell energy).exclude := by
    show ¬ energy k2 b2 < 0.1 / 109737.31568
    rw [h2]
    linarith
  rw [if_neg hno]
  have hi : isotopes (exPhonons cell energy) T k b k2 b2 = 0 := rfl
  rw [hi, mul_zero, add_zero]
  apply mul_pos (by positivity)
  apply Finset.sum_pos _ ⟨0, by show 0 ∈ Finset.range 3; decide⟩
  intro b3 _
  have hd := exPhonons_delta cell energy
  apply add_pos
  · unfold coalescence
    have hno : ¬ (exPhonons cell energy).H.energy (fun i => k i + k2 i) b3 < (exPhonons cell energy).cutoff := by
      show ¬ energy _ b3 < 0.001 / 109737.31568
      rw [h3]
      have : (0.001 / 109737.31568 : ℝ) < 0.1 / 109737.31568 := by norm_num
      linarith
    simp only [if_neg hno]
    have e1 : (exPhonons cell energy).H.energy k b = e := h1 b
    have e2 : (exPhonons cell energy).H.energy k2 b2 = e := h2 b2
    have e3 : (exPhonons cell energy).H.energy (fun i => k i + k2 i) b3 = e := h3 b3
    rw [e1, e2, e3]
    have hp : (exPhonons cell energy).plus k k2 b b2 b3 = 1 := rfl
    rw [hp]
    have := hd (e + e - e) (by rw [abs_lt]; constructor <;> linarith) k2 (fun i => k i + k2 i) b2 b3
    positivity
  · unfold decay
    have hno : ¬ (exPhonons cell energy).H.energy (fun i => k i - k2 i) b3 < (exPhonons cell energy).cutoff := by
      show ¬ energy _ b3 < 0.001 / 109737.31568
      rw [h4]
      have : (0.001 / 109737.31568 : ℝ) < 0.1 / 109737.31568 := by norm_num
      linarith
    simp only [if_neg hno]
    have e1 : (exPhonons cell energy).H.energy k b = e := h1 b
    have e2 : (exPhonons cell energy).H.energy k2 b2 = e := h2 b2
    have e3 : (exPhonons cell energy).H.energy (fun i => k i - k2 i) b3 = e := h4 b3
    rw [e1, e2, e3]
    have hp : (exPhonons cell energy).minus k k2 b b2 b3 = 1 := rfl
    rw [hp]
    have := hd (e + e - e) (by rw [abs_lt]; constructor <;> linarith) k2 (fun i => k i - k2 i) b2 b3
    positivity

/-- A phonon has a positive linewidth when its energy, that of the phonons at the second point of the mesh and that of their sums
and differences are the same. -/
theorem exPhonons_width (cell : Cell) (energy : Vec3 → Nat → ℝ) (e T : ℝ) (he : 0.1 / 109737.31568 ≤ e) (he' : e < 1) (hT : 0 < T)
    (k : Vec3) (h1 : ∀ b, energy k b = e)
    (h0 : ∀ b b', 0 ≤ stateTerm (exPhonons cell energy) T k b (cartesianOf cell.reciprocal ⟨0, 0, 0⟩) b')
    (h2 : ∀ b, energy (cartesianOf cell.reciprocal ⟨1 / 2, 0, 0⟩) b = e)
    (h3 : ∀ b, energy (fun i => k i + cartesianOf cell.reciprocal ⟨1 / 2, 0, 0⟩ i) b = e)
    (h4 : ∀ b, energy (fun i => k i - cartesianOf cell.reciprocal ⟨1 / 2, 0, 0⟩ i) b = e) (b : Nat) (hb : b < 3) :
    0 < phononWidth (exPhonons cell energy) T k b := by
  have hpos : 0 < e := lt_of_lt_of_le (by norm_num) he
  have hn := bose_pos hpos hT
  have hrate : ∀ b, 0 < phononRate (exPhonons cell energy) T k b := by
    intro b
    have hno : ¬ (exPhonons cell energy).H.energy k b < (exPhonons cell energy).exclude := by
      show ¬ energy k b < 0.1 / 109737.31568
      rw [h1]
      linarith
    have hval : phononRate (exPhonons cell energy) T k b = ((∑ b2 ∈ Finset.range 3,
        stateTerm (exPhonons cell energy) T k b (cartesianOf cell.reciprocal ⟨0, 0, 0⟩) b2) + ((∑ b2 ∈ Finset.range 3,
        stateTerm (exPhonons cell energy) T k b (cartesianOf cell.reciprocal ⟨1 / 2, 0, 0⟩) b2) + 0)) / 2 := by
      unfold phononRate
      rw [if_neg hno]
      rfl
    rw [hval]
    have s0 : 0 ≤ ∑ b2 ∈ Finset.range 3,
        stateTerm (exPhonons cell energy) T k b (cartesianOf cell.reciprocal ⟨0, 0, 0⟩) b2 :=
      Finset.sum_nonneg fun b2 _ => h0 b b2
    have s1 : 0 < ∑ b2 ∈ Finset.range 3,
        stateTerm (exPhonons cell energy) T k b (cartesianOf cell.reciprocal ⟨1 / 2, 0, 0⟩) b2 :=
      Finset.sum_pos (fun b2 _ => exPhonons_term cell energy e T he he' hT k _ h1 h2 h3 h4 b b2) ⟨0, by decide⟩
    linarith
  unfold phononWidth
  have hed : edgeWidth (exPhonons cell energy) k b = 0 := rfl
  have e1 : (exPhonons cell energy).H.energy k b = e := h1 b
  rw [hed, add_zero, e1]
  apply div_pos _ (by positivity)
  unfold modeMean
  apply div_pos
  · apply Finset.sum_pos (fun b' _ => hrate b')
    exact ⟨b, by rw [Finset.mem_filter, Finset.mem_range]; exact ⟨hb, by simp⟩⟩
  · have : 0 < ((Finset.range (exPhonons cell energy).bands).filter fun b' =>
        |(exPhonons cell energy).H.energy k b' - (exPhonons cell energy).H.energy k b| < 1 / 1000000).card :=
      Finset.card_pos.mpr ⟨b, by rw [Finset.mem_filter, Finset.mem_range]; exact ⟨hb, by simp⟩⟩
    exact_mod_cast this

/-- The hypotheses of `C183_file_partial` are met by a run on two processes whose first linewidth is positive. -/
example : ∃ (cell : Cell) (t : TimesOutput) (f : BandsFile) (x : ℝ), makeCell 1 = .ok cell ∧
    SameProcesses (exPhonons cell fun _ _ => 1 / 10) [⟨0, 0, 0⟩, ⟨1 / 10, 0, 0⟩] ∧
    (exPhonons cell fun _ _ => 1 / 10).run ⟨⟨1, 2, 3⟩, 1, 1⟩ 1 ⟨1, [], []⟩ [exSegment] (1 / 10) (fun _ => 1)
      (fun _ b => b.1 ++ b.2) exRows 2 = .ok (t, some f) ∧
    entryOf t.linewidths 0 1 0 = some x ∧ 0 < x := by
  obtain ⟨cell, hcell, _⟩ := (C69_volume (1 : Mat3)).1 (by simp)
  obtain ⟨idx, hp, hi⟩ := exPath_idx
  obtain ⟨h1, h2, h3, h4⟩ := exPhonons_good cell (fun _ _ => 1 / 10) (fun _ _ _ => rfl)
  have hproc : SameProcesses (exPhonons cell fun _ _ => 1 / 10) [⟨0, 0, 0⟩, ⟨1 / 10, 0, 0⟩] := by
    refine ⟨?_, ?_, ?_⟩
    · intro i hi hm b hb h
      exact h
    · intro p hp b hb h
      exact absurd h (by norm_num [exPhonons])
    · intro p hp p2 hp2 b1 _ b2 _ b3 _ s _ q q2 q3 h
      norm_num [exPhonons]
  obtain ⟨t, f, hrun, _, _, _, _, hall⟩ := C183_file_partial (exPhonons cell fun _ _ => 1 / 10) hcell h1 h4 h2 h3
    (by norm_num [exPhonons]) (by norm_num [exPhonons]) (by show 0 < 3; decide) (by show 3 ∣ 3; decide)
    ⟨⟨1, 2, 3⟩, 1, 1⟩ ⟨by norm_num, by norm_num, by norm_num⟩ 1 ⟨1, [], []⟩ [exSegment] (1 / 10) _ hp idx hi hproc (fun _ => 1)
    (fun _ => one_pos) (fun _ b => b.1 ++ b.2) (fun _ b => ⟨b.1, List.Perm.refl _, rfl⟩) exRows (by simp [exRows])
    2 (by decide) (by simp) (by simp [exPhonons]) (by show ((2 * 3 : Nat) : Int) ≤ intMax; decide)
    (by show ((2 * 3 : Nat) : Int) ≤ intMax; decide) (by show ((3 * 3 * 3 : Nat) : Int) ≤ intMax; decide)
  obtain ⟨_, _, _, _, hx⟩ := (hall 1 (by simp)).2 0 (by show 0 < 3; decide) 0 ⟨1, 0, 0⟩ rfl
  obtain ⟨hlw, _⟩ := hx (by norm_num [exPhonons]) (Or.inl rfl)
  refine ⟨cell, t, f, _, hcell, hproc, hrun, hlw, ?_⟩
  have hw := exPhonons_width cell (fun _ _ => 1 / 10) (1 / 10) 1 (by norm_num) (by norm_num) one_pos
    (cartesianOf cell.reciprocal ⟨1 / 10, 0, 0⟩) (fun _ => rfl)
    (fun b b' => (exPhonons_term cell _ (1 / 10) 1 (by norm_num) (by norm_num) one_pos _ _ (fun _ => rfl) (fun _ => rfl)
      (fun _ => rfl) (fun _ => rfl) b b').le) (fun _ => rfl) (fun _ => rfl) (fun _ => rfl) 0 (by decide)
  simp only [linewidthEv]
  exact mul_pos (div_pos (mul_pos hw two_pos) (by norm_num)) (by norm_num)

/-- Phonons with an energy of 1/1000 of a Rydberg (13.6 meV): the product of three such energies, in Rydberg cubed, is below the
cutoff of 0.001 cm^-1, which is an energy, and all the processes are left out. The linewidths are zero, while those of the golden
rule are positive. -/
theorem C183_violated_cutoff : ∃ (A : PathPhApp) (cell : Cell) (u : FileUnits) (t : TimesOutput) (f : BandsFile),
    A.cell = cell ∧ makeCell 1 = .ok cell ∧ PeriodicPhonons A ∧ ElSmearing A.smearing ∧ GoodIsotopes A ∧
    (∀ k b, A.exclude < A.H.energy k b) ∧ A.cutoff < A.exclude ∧
    A.run u 1 ⟨1, [], []⟩ [exSegment] (1 / 10) (fun _ => 1) (fun _ b => b.1 ++ b.2) exRows 1 = .ok (t, some f) ∧
    (∀ c < 2, ∀ ik < 2, ∀ ib < 3, entryOf t.linewidths c ik ib = some 0) ∧
    ∀ k, ∀ T > 0, ∀ ib < 3, 0 < phononWidth A T k ib := by
  obtain ⟨cell, hcell, _⟩ := (C69_volume (1 : Mat3)).1 (by simp)
  obtain ⟨idx, hp, hi⟩ := exPath_idx
  obtain ⟨h1, h2, h3, h4⟩ := exPhonons_good cell (fun _ _ => 1 / 1000) (fun _ _ _ => rfl)
  obtain ⟨t, diag, pop, hrun, ht, hd⟩ := ph_run_val (exPhonons cell fun _ _ => 1 / 1000) h1 h4 (by show 0 < 3; decide)
    (by show 3 ∣ 3; decide) ⟨⟨1, 2, 3⟩, 1, 1⟩ 1 ⟨1, [], []⟩ [exSegment] (1 / 10) _ hp idx hi (fun _ => 1)
    (fun _ => one_pos) (fun _ b => b.1 ++ b.2) (fun _ b => ⟨b.1, List.Perm.refl _, rfl⟩) exRows
    1 (by decide) (by simp) (by simp [exPhonons]) (by show ((2 * 3 : Nat) : Int) ≤ intMax; decide)
    (by show ((2 * 3 : Nat) : Int) ≤ intMax; decide) (by show ((3 * 3 * 3 : Nat) : Int) ≤ intMax; decide)
  have hzero : ∀ row ik b, rawRate (exPhonons cell fun _ _ => 1 / 1000) [⟨0, 0, 0⟩, ⟨1 / 10, 0, 0⟩] row ik b = 0 := by
    intro row ik b
    unfold rawRate
    apply Finset.sum_eq_zero
    intro ik2 _
    unfold pointSum meshSum
    apply Finset.sum_eq_zero
    intro b2 _
    split
    · rfl
    · rw [updateList_sum]
      have hc : ∀ (k k2 q : Vec3) b b2 b3, cutOff (exPhonons cell fun _ _ => 1 / 1000).setup.outerEqualInnerMesh
          (exPhonons cell fun _ _ => 1 / 1000).setup.energyCutoff (phAt (exPhonons cell fun _ _ => 1 / 1000) row k b).energy
          (phAt (exPhonons cell fun _ _ => 1 / 1000) row k2 b2).energy
          (phAt (exPhonons cell fun _ _ => 1 / 1000) row q b3).energy = true := by
        intro k k2 q b b2 b3
        show decide ((1 / 1000 : ℝ) * (1 / 1000) * (1 / 1000) < 0.001 / 109737.31568) = true
        rw [decide_eq_true_iff]
        norm_num
      have hov : (exPhonons cell fun _ _ => 1 / 1000).overlap = none := rfl
      rw [hov]
      simp only [ratePlus, rateMinus1, rateMinus2, hc, if_true, mul_zero, add_zero, Finset.sum_const_zero]
  refine ⟨exPhonons cell fun _ _ => 1 / 1000, cell, _, t, _, rfl, hcell, h1, h2, h3, by norm_num [exPhonons],
    by norm_num [exPhonons], hrun, ?_, ?_⟩
  · intro c hc ik hik ib hib
    have hval := (hd c (exRows.table[c]'hc) ik ib hik (List.getElem?_eq_getElem hc) hib).1
    rw [ht]
    refine (entryOf_map 3 2 2 (fun c ik ib => printedLinewidth ⟨1, 2, 3⟩ false (diag c (ik * 3 + ib) / pop c (ik * 3 + ib)))
      hc hik hib).trans ?_
    have hz : diag c (ik * 3 + ib) = 0 := by
      refine hval.trans ?_
      unfold rawDiagonal
      have hno : ¬ (exPhonons cell fun _ _ => 1 / 1000).H.energy (cartesianOf (exPhonons cell fun _ _ => 1 / 1000).cell.reciprocal
          ([⟨0, 0, 0⟩, ⟨1 / 10, 0, 0⟩] : List (V3 ℝ))[ik]) ib < (exPhonons cell fun _ _ => 1 / 1000).exclude := by
        norm_num [exPhonons]
      rw [if_neg hno]
      have he : ∀ k b, edgeWidth (exPhonons cell fun _ _ => 1 / 1000) k b = 0 := fun _ _ => rfl
      simp only [hzero, he, modeMean, Finset.sum_const_zero, zero_div, ite_self, zero_mul, add_zero]
    rw [hz]
    simp [printedLinewidth]
  · intro k T hT ib hib
    exact exPhonons_width cell (fun _ _ => 1 / 1000) (1 / 1000) T (by norm_num) (by norm_num) hT k (fun _ => rfl)
      (fun b b' => (exPhonons_term cell _ (1 / 1000) T (by norm_num) (by norm_num) hT _ _ (fun _ => rfl) (fun _ => rfl)
        (fun _ => rfl) (fun _ => rfl) b b').le) (fun _ => rfl) (fun _ => rfl) (fun _ => rfl) ib hib

/-- The path of `exSegment` in the other direction. -/
noncomputable def exBack : Segment := ⟨⟨1 / 10, 0, 0⟩, ⟨0, 0, 0⟩, "A", "G"⟩

theorem exBack_idx : ∃ idx, pathPoints [exBack] (1 / 10) = .ok [⟨1 / 10, 0, 0⟩, ⟨0, 0, 0⟩] ∧
    highSymIndices [exBack] [⟨1 / 10, 0, 0⟩, ⟨0, 0, 0⟩] = .ok idx := by
  have d1 : vdist exBack.p1 exBack.p0 = 1 / 10 := by
    simp only [vdist, exBack]
    rw [← Real.sqrt_sq (show (0 : ℝ) ≤ 1 / 10 by norm_num)]
    congr 1
    rw [Real.sqrt_sq (by norm_num)]
    norm_num
  have n1 : segmentCount exBack (1 / 10) = .ok 1 := by
    unfold segmentCount truncInt
    rw [d1]
    norm_num
    decide
  have tail1 : pathTail (1 / 10) exBack.p0 [exBack] = .ok [exBack.p1] := by
    simp only [pathTail, n1, Outcome.bind_eq, Outcome.bind_ok, one_ne_zero, if_false, segmentPoint_zero, vdist_self]
    rw [if_neg (by norm_num)]
    simp [segmentPoint_last exBack 1 one_ne_zero]
  have hpath : pathPoints [exBack] (1 / 10) = .ok [⟨1 / 10, 0, 0⟩, ⟨0, 0, 0⟩] := by
    unfold pathPoints
    simp only [tail1, Outcome.bind_eq, Outcome.bind_ok]
    rfl
  have hseg : GoodSegment (1 / 10) exBack := ⟨by rw [d1], by rw [d1]; norm_num⟩
  obtain ⟨pts, idx, h1, h2, _⟩ := C139_labels_partial (1 / 10) (by norm_num) [exBack] (by simp) (by simpa using hseg)
    (by simp [GoodLabels, exBack]) (by intro i hi; simp at hi)
  rw [hpath, Outcome.ok.injEq] at h1
  subst h1
  exact ⟨idx, hpath, h2⟩

/-- Phonons with zero energy at the center of the zone, and with the same energy at all the other wavevectors. -/
noncomputable def gapEnergy (cell : Cell) (k : Vec3) (_ : Nat) : ℝ :=
  open Classical in if SameModLattice cell.reciprocal k (fun _ => 0) then 0 else 1 / 10

theorem gapEnergy_periodic (cell : Cell) (k q : Vec3) (h : SameModLattice cell.reciprocal k q) :
    gapEnergy cell k = gapEnergy cell q := by
  have : SameModLattice cell.reciprocal k (fun _ => 0) ↔ SameModLattice cell.reciprocal q (fun _ => 0) := by
    obtain ⟨n, hn⟩ := h
    constructor
    · rintro ⟨m, hm⟩
      refine ⟨fun j => m j - n j, fun i => ?_⟩
      have h1 := hn i
      have h2 := hm i
      simp only [Int.cast_sub, Fin.sum_univ_three] at h1 h2 ⊢
      linarith
    · rintro ⟨m, hm⟩
      refine ⟨fun j => m j + n j, fun i => ?_⟩
      have h1 := hn i
      have h2 := hm i
      simp only [Int.cast_add, Fin.sum_univ_three] at h1 h2 ⊢
      linarith
  funext b
  unfold gapEnergy
  by_cases hk : SameModLattice cell.reciprocal k (fun _ => 0)
  · rw [if_pos hk, if_pos (this.mp hk)]
  · rw [if_neg hk, if_neg fun h => hk (this.mpr h)]

theorem gapEnergy_zero (cell : Cell) (b : Nat) : gapEnergy cell (cartesianOf cell.reciprocal ⟨0, 0, 0⟩) b = 0 := by
  unfold gapEnergy
  rw [if_pos ⟨0, by simp [cartesianOf]⟩]

theorem gapEnergy_other {d : Mat3} {cell : Cell} (h : makeCell d = .ok cell) (x : ℝ) (hx : ∀ n : ℤ, x ≠ n) (k : Vec3)
    (hk : ∀ i, k i = x * cell.reciprocal i 0) (b : Nat) : gapEnergy cell k b = 1 / 10 := by
  unfold gapEnergy
  rw [if_neg]
  rintro ⟨n, hn⟩
  have h1 := C69_conversions d cell h ![x, 0, 0]
  have h2 := C69_conversions d cell h ![n 0, n 1, n 2]
  have he : cell.crystalToCartesian ![x, 0, 0] = cell.crystalToCartesian ![(n 0 : ℝ), n 1, n 2] := by
    funext i
    rw [h1.2.2, h2.2.2]
    have := hn i
    rw [hk i] at this
    simp [Fin.sum_univ_three] at this ⊢
    exact this
  have := congrFun (h1.1.symm.trans ((congrArg _ he).trans h2.1)) 0
  exact hx (n 0) this

theorem not_int {x : ℝ} (n0 : ℤ) (h1 : (n0 : ℝ) < x) (h2 : x < n0 + 1) (n : ℤ) : x ≠ n := by
  rintro rfl
  have a : n0 < n := by exact_mod_cast h1
  have b : n < n0 + 1 := by exact_mod_cast h2
  omega

/-- **The linewidth of a phonon depends on the direction of the path.** The list of the phonons below 0.1 cm^-1 is that of the
path, and it is also searched for the indices of the mesh. The same path in two directions, `G-A` and `A-G`: in the first the
linewidth of `A` is positive, in the second `G` is the second point, the second point of the mesh is left out, and the linewidth
of `A` is zero. -/
theorem C183_violated_direction : ∃ (A : PathPhApp) (cell : Cell) (u : FileUnits) (t t' : TimesOutput) (f f' : BandsFile) (x : ℝ),
    A.cell = cell ∧ makeCell 1 = .ok cell ∧ PeriodicPhonons A ∧ ElSmearing A.smearing ∧ GoodIsotopes A ∧
    A.run u 1 ⟨1, [], []⟩ [exSegment] (1 / 10) (fun _ => 1) (fun _ b => b.1 ++ b.2) exRows 1 = .ok (t, some f) ∧
    A.run u 1 ⟨1, [], []⟩ [exBack] (1 / 10) (fun _ => 1) (fun _ b => b.1 ++ b.2) exRows 1 = .ok (t', some f') ∧
    f.coordinates = [[0, 0, 0], [1 / 10, 0, 0]] ∧ f'.coordinates = [[1 / 10, 0, 0], [0, 0, 0]] ∧
    entryOf t.linewidths 0 1 0 = some x ∧ 0 < x ∧ entryOf t'.linewidths 0 0 0 = some 0 := by
  obtain ⟨cell, hcell, _⟩ := (C69_volume (1 : Mat3)).1 (by simp)
  obtain ⟨idx, hp, hi⟩ := exPath_idx
  obtain ⟨idx', hp', hi'⟩ := exBack_idx
  obtain ⟨h1, h2, h3, h4⟩ := exPhonons_good cell (gapEnergy cell) (gapEnergy_periodic cell)
  have g0 := gapEnergy_zero cell
  have gA : ∀ b, gapEnergy cell (cartesianOf cell.reciprocal ⟨1 / 10, 0, 0⟩) b = 1 / 10 :=
    gapEnergy_other hcell (1 / 10) (not_int 0 (by norm_num) (by norm_num)) _ (fun i => by simp [cartesianOf]; ring)
  have gX : ∀ b, gapEnergy cell (cartesianOf cell.reciprocal ⟨1 / 2, 0, 0⟩) b = 1 / 10 :=
    gapEnergy_other hcell (1 / 2) (not_int 0 (by norm_num) (by norm_num)) _ (fun i => by simp [cartesianOf]; ring)
  have gP : ∀ b, gapEnergy cell (fun i => cartesianOf cell.reciprocal ⟨1 / 10, 0, 0⟩ i +
      cartesianOf cell.reciprocal ⟨1 / 2, 0, 0⟩ i) b = 1 / 10 :=
    gapEnergy_other hcell (6 / 10) (not_int 0 (by norm_num) (by norm_num)) _ (fun i => by simp [cartesianOf]; ring)
  have gM : ∀ b, gapEnergy cell (fun i => cartesianOf cell.reciprocal ⟨1 / 10, 0, 0⟩ i -
      cartesianOf cell.reciprocal ⟨1 / 2, 0, 0⟩ i) b = 1 / 10 :=
    gapEnergy_other hcell (-4 / 10) (not_int (-1) (by norm_num) (by norm_num)) _ (fun i => by simp [cartesianOf]; ring)
  have hE : ∀ k b, (exPhonons cell (gapEnergy cell)).H.energy k b = gapEnergy cell k b := fun _ _ => rfl
  have hex : (exPhonons cell (gapEnergy cell)).exclude = 0.1 / 109737.31568 := rfl
  have hcu : (exPhonons cell (gapEnergy cell)).cutoff = 0.001 / 109737.31568 := rfl
  have hce : (exPhonons cell (gapEnergy cell)).cell = cell := rfl
  have hme : (exPhonons cell (gapEnergy cell)).mesh = [⟨0, 0, 0⟩, ⟨1 / 2, 0, 0⟩] := rfl
  have hproc : SameProcesses (exPhonons cell (gapEnergy cell)) [⟨0, 0, 0⟩, ⟨1 / 10, 0, 0⟩] := by
    refine ⟨?_, ?_, ?_⟩
    · intro i hi hm b hb h
      simp only [hme, hE, hex, hce] at h ⊢
      have : i = 0 ∨ i = 1 := by simp at hi; omega
      rcases this with rfl | rfl
      · exact h
      · simp only [List.getElem_cons_succ, List.getElem_cons_zero] at h ⊢
        rw [gA] at h
        norm_num at h
    · intro p hp b hb h
      simp only [hme, hE, hex, hcu, hce, List.mem_cons, List.not_mem_nil, or_false] at hp h ⊢
      rcases hp with rfl | rfl
      · rw [g0]; norm_num
      · rw [gX] at h; norm_num at h
    · intro p hp p2 hp2 b1 _ b2 _ b3 _ s hs q q2 q3 h
      simp only [hme, List.mem_cons, List.not_mem_nil, or_false] at hp hp2
      rw [hE, hex] at h
      rw [hE, hE, hE, hex, hcu]
      rcases hp with rfl | rfl
      · have : gapEnergy cell q b1 = 0 := g0 b1
        rw [this] at h
        norm_num at h
      · have hq : gapEnergy cell q b1 = 1 / 10 := gA b1
        rcases hp2 with rfl | rfl
        · have hq2 : gapEnergy cell q2 b2 = 0 := g0 b2
          rw [hq2]
          norm_num
        · have hq2 : gapEnergy cell q2 b2 = 1 / 10 := gX b2
          have hq3 : gapEnergy cell q3 b3 = 1 / 10 := by
            rcases hs with rfl | rfl
            · rw [← gP b3]
              congr 1
              funext i
              show _ + 1 * _ = _
              rw [one_mul]
              rfl
            · rw [← gM b3]
              congr 1
              funext i
              show _ + -1 * _ = _
              rw [neg_one_mul, ← sub_eq_add_neg]
              rfl
          rw [hq, hq2, hq3]
          norm_num
  obtain ⟨t, f, hrun, hco, _, _, _, hall⟩ := C183_file_partial (exPhonons cell (gapEnergy cell)) hcell h1 h4 h2 h3
    (by norm_num [exPhonons]) (by norm_num [exPhonons]) (by show 0 < 3; decide) (by show 3 ∣ 3; decide)
    ⟨⟨1, 2, 3⟩, 1, 1⟩ ⟨by norm_num, by norm_num, by norm_num⟩ 1 ⟨1, [], []⟩ [exSegment] (1 / 10) _ hp idx hi hproc (fun _ => 1)
    (fun _ => one_pos) (fun _ b => b.1 ++ b.2) (fun _ b => ⟨b.1, List.Perm.refl _, rfl⟩) exRows (by simp [exRows])
    1 (by decide) (by simp) (by simp [exPhonons]) (by show ((2 * 3 : Nat) : Int) ≤ intMax; decide)
    (by show ((2 * 3 : Nat) : Int) ≤ intMax; decide) (by show ((3 * 3 * 3 : Nat) : Int) ≤ intMax; decide)
  obtain ⟨t', diag, pop, hrun', ht', hd⟩ := ph_run_val (exPhonons cell (gapEnergy cell)) h1 h4 (by show 0 < 3; decide)
    (by show 3 ∣ 3; decide) ⟨⟨1, 2, 3⟩, 1, 1⟩ 1 ⟨1, [], []⟩ [exBack] (1 / 10) _ hp' idx' hi' (fun _ => 1)
    (fun _ => one_pos) (fun _ b => b.1 ++ b.2) (fun _ b => ⟨b.1, List.Perm.refl _, rfl⟩) exRows
    1 (by decide) (by simp) (by simp [exPhonons]) (by show ((2 * 3 : Nat) : Int) ≤ intMax; decide)
    (by show ((2 * 3 : Nat) : Int) ≤ intMax; decide) (by show ((3 * 3 * 3 : Nat) : Int) ≤ intMax; decide)
  obtain ⟨_, _, _, _, hx⟩ := (hall 1 (by simp)).2 0 (by show 0 < 3; decide) 0 ⟨1, 0, 0⟩ rfl
  obtain ⟨hlw, _⟩ := hx (by
    rw [hE, hex]
    refine le_of_le_of_eq ?_ (gA 0).symm
    norm_num) (Or.inl rfl)
  refine ⟨exPhonons cell (gapEnergy cell), cell, _, t, t', f, _, _, rfl, hcell, h1, h2, h3, hrun, hrun', by rw [hco]; simp,
    rfl, hlw, ?_, ?_⟩
  · have hw := exPhonons_width cell (gapEnergy cell) (1 / 10) 1 (by norm_num) (by norm_num) one_pos
      (cartesianOf cell.reciprocal ⟨1 / 10, 0, 0⟩) gA
      (fun b b' => by
        unfold stateTerm
        rw [if_pos]
        rw [hE, hex, g0]
        norm_num) gX gP gM 0 (by decide)
    simp only [linewidthEv]
    exact mul_pos (div_pos (mul_pos hw two_pos) (by norm_num)) (by norm_num)
  · have hval := (hd 0 ⟨1, 0, 0⟩ 0 0 (by simp) rfl (by show 0 < 3; decide)).1
    rw [ht']
    refine (entryOf_map 3 2 2 (fun c ik ib => printedLinewidth ⟨1, 2, 3⟩ false (diag c (ik * 3 + ib) / pop c (ik * 3 + ib)))
      (by decide) (by decide) (by decide)).trans ?_
    have hzero : ∀ b, rawRate (exPhonons cell (gapEnergy cell)) [⟨1 / 10, 0, 0⟩, ⟨0, 0, 0⟩] ⟨1, 0, 0⟩ 0 b = 0 := by
      intro b
      unfold rawRate
      apply Finset.sum_eq_zero
      intro ik2 hk2
      rw [Finset.mem_range] at hk2
      have : ik2 = 0 ∨ ik2 = 1 := by rw [hme] at hk2; simp at hk2; omega
      unfold pointSum meshSum
      apply Finset.sum_eq_zero
      intro b2 hb2
      rw [Finset.mem_range] at hb2
      rcases this with rfl | rfl
      · split
        · rfl
        · rw [updateList_sum]
          have hc : ∀ (k q : Vec3) b b3, cutOff (exPhonons cell (gapEnergy cell)).setup.outerEqualInnerMesh
              (exPhonons cell (gapEnergy cell)).setup.energyCutoff (phAt (exPhonons cell (gapEnergy cell)) ⟨1, 0, 0⟩ k b).energy
              (phAt (exPhonons cell (gapEnergy cell)) ⟨1, 0, 0⟩ (pathWave (exPhonons cell (gapEnergy cell)).cell
                (exPhonons cell (gapEnergy cell)).wrap (exPhonons cell (gapEnergy cell)).mesh 0) b2).energy
              (phAt (exPhonons cell (gapEnergy cell)) ⟨1, 0, 0⟩ q b3).energy = true := by
            intro k q b b3
            show decide (gapEnergy cell k b * gapEnergy cell (pathWave cell id [⟨0, 0, 0⟩, ⟨1 / 2, 0, 0⟩] 0) b2 *
              gapEnergy cell q b3 < 0.001 / 109737.31568) = true
            have : gapEnergy cell (pathWave cell id [⟨0, 0, 0⟩, ⟨1 / 2, 0, 0⟩] 0) b2 = 0 := by
              rw [pathWave_eq _ _ _ _ (by simp)]
              exact g0 b2
            rw [this, mul_zero, zero_mul, decide_eq_true_iff]
            norm_num
          have hov : (exPhonons cell (gapEnergy cell)).overlap = none := rfl
          rw [hov]
          simp only [ratePlus, rateMinus1, rateMinus2, hc, if_true, mul_zero, add_zero, Finset.sum_const_zero]
      · rw [if_pos]
        right
        rw [mem_exclOf _ _ _ _ _ hb2]
        refine ⟨by simp, ?_⟩
        rw [pathWave_eq _ _ _ _ (by simp), hE, hex]
        refine lt_of_eq_of_lt (g0 b2) (by norm_num)
    have hz : diag 0 (0 * 3 + 0) = 0 := by
      refine hval.trans ?_
      unfold rawDiagonal
      have he : ∀ k b, edgeWidth (exPhonons cell (gapEnergy cell)) k b = 0 := fun _ _ => rfl
      simp only [hzero, he, modeMean, Finset.sum_const_zero, zero_div, ite_self, zero_mul, add_zero]
    show some (printedLinewidth ⟨1, 2, 3⟩ false (diag 0 (0 * 3 + 0) / pop 0 (0 * 3 + 0))) = some 0
    rw [hz]
    simp [printedLinewidth]

/-! ### Isotopes with the adaptive delta function -/

/-- The phonons of `exPhonons` at 1/10, all with the same velocity, without three-phonon couplings and with isotopes; the width of the delta function is
adaptive. -/
noncomputable def exIsotopes (cell : Cell) : PathPhApp :=
  { exPhonons cell (fun _ _ => 1 / 10) with
    H := ⟨fun _ _ => 1 / 10, fun _ _ _ => 0, fun _ _ _ _ => 1⟩
    plus := fun _ _ _ _ _ => 0
    minus := fun _ _ _ _ _ => 0
    overlap := some fun _ _ _ _ => 1
    smearing := .adaptive ⟨1, 1, 1, 1⟩ fun i j => if i = j then 1 else 0 }

theorem exIsotopes_delta : adaptiveSmearing ⟨1, 1, 1, 1⟩ (fun i j => if i = j then 1 else 0) 0 (fun _ => 1) = 1 := by
  have hs : Real.sqrt (3 / 6) < 1 := by
    rw [Real.sqrt_lt' one_pos]
    norm_num
  have h0 : Real.sqrt (3 / 6) ≠ 0 := by
    rw [Real.sqrt_ne_zero']
    norm_num
  have hsig : adaptiveSigma ⟨1, 1, 1, 1⟩ (fun i j => if i = j then 1 else 0) (fun _ => 1) = Real.sqrt (3 / 6) := by
    unfold adaptiveSigma
    norm_num [Fin.ext_iff]
  have h3 : ¬ (Real.sqrt ((1 : ℝ) ^ 2 + 1 ^ 2 + 1 ^ 2) = 0 ∧ (0 : ℝ) = 0) := by
    rintro ⟨h, _⟩
    rw [Real.sqrt_eq_zero (by norm_num)] at h
    norm_num at h
  unfold adaptiveSmearing
  rw [if_neg h3]
  simp only [hsig]
  rw [if_neg h0, if_pos hs]
  norm_num

/-- What a run adds for a pair of states: half the term of the specification. -/
theorem exIsotopes_update (cell : Cell) (row : CalcRow) (hT : 0 < row.temperature) (hmu : row.chemicalPotential = 0) (k1 k2 qp qm : Vec3) (b1 b2 : Nat) :
    (updateList (exIsotopes cell) row k1 k2 qp qm b1 b2).sum = Real.pi / 2 * (1 / 2) * (1 / 10 * (1 / 10)) * (1 / 2) *
      (boseOccupation (1 / 10) row.temperature * boseOccupation (1 / 10) row.temperature + boseOccupation (1 / 10) row.temperature) := by
  rw [updateList_sum]
  have h1 : ∀ s1 s2 s3, ratePlus (exIsotopes cell).setup 0 s1 s2 s3 = 0 := by
    intro s1 s2 s3
    unfold ratePlus
    simp
  have h2 : ∀ s1 s2 s3, rateMinus1 (exIsotopes cell).setup 0 s1 s2 s3 = 0 := by
    intro s1 s2 s3
    unfold rateMinus1
    simp
  have h3 : ∀ s1 s2 s3, rateMinus2 (exIsotopes cell).setup 0 s1 s2 s3 = 0 := by
    intro s1 s2 s3
    unfold rateMinus2
    simp
  have hp : ∀ b1 b2 b3, (exIsotopes cell).plus k1 k2 b1 b2 b3 = 0 := fun _ _ _ => rfl
  have hm : ∀ b1 b2 b3, (exIsotopes cell).minus k1 k2 b1 b2 b3 = 0 := fun _ _ _ => rfl
  have ho : (exIsotopes cell).overlap = some fun _ _ _ _ => 1 := rfl
  simp only [hp, hm, h1, h2, h3, mul_zero, add_zero, Finset.sum_const_zero, zero_add, ho]
  have hb : ∀ k b, (phAt (exIsotopes cell) row k b).bose = boseOccupation (1 / 10) row.temperature := fun k b =>
    phAt_bose (exIsotopes cell) row hT hmu k b (by show (0 : ℝ) < 1 / 10; norm_num)
  have he : ∀ k b, (phAt (exIsotopes cell) row k b).energy = 1 / 10 := fun _ _ => rfl
  have hd : deltaIso (exIsotopes cell).setup.smearing (phAt (exIsotopes cell) row k1 b1) (phAt (exIsotopes cell) row k2 b2) = 1 * 0.5 := by
    rw [← exIsotopes_delta]
    show adaptiveSmearing _ _ (1 / 10 - 1 / 10) _ * 0.5 = _
    rw [sub_self]
    rfl
  have hn : (exIsotopes cell).setup.norm = 1 / 2 := by
    show 1 / (([⟨0, 0, 0⟩, ⟨1 / 2, 0, 0⟩] : List (V3 ℝ)).length : ℝ) = 1 / 2
    norm_num
  have hc : (exIsotopes cell).setup.energyCutoff = 0.001 / 109737.31568 := rfl
  unfold rateIso
  rw [hb, hb, he, he, hd, hn, hc, if_neg (by norm_num)]
  ring

theorem exIsotopes_rate (cell : Cell) (row : CalcRow) (hT : 0 < row.temperature) (hmu : row.chemicalPotential = 0) (pts : List (V3 ℝ)) (ik b : Nat)
    (hb : b < 3) : rawRate (exIsotopes cell) pts row ik b = 3 * Real.pi / 4 * (1 / 10 * (1 / 10)) *
      (boseOccupation (1 / 10) row.temperature * boseOccupation (1 / 10) row.temperature + boseOccupation (1 / 10) row.temperature) := by
  unfold rawRate pointSum meshSum
  have hno : ∀ wave np i, ∀ b < 3, ¬ i * (exIsotopes cell).bands + b ∈ exclOf (exIsotopes cell) wave np := by
    intro wave np i b hb h
    rw [mem_exclOf _ _ _ _ _ hb] at h
    have := h.2
    norm_num [exIsotopes, exPhonons] at this
  have hl : (exIsotopes cell).mesh.length = 2 := rfl
  have hbb : (exIsotopes cell).bands = 3 := rfl
  rw [hl]
  have : ∀ ik2 ∈ Finset.range 2, ∀ b2 ∈ Finset.range (exIsotopes cell).bands, (if ik * (exIsotopes cell).bands + b ∈
      exclOf (exIsotopes cell) (pathWave (exIsotopes cell).cell (exIsotopes cell).wrap pts) pts.length ∨ ik2 * (exIsotopes cell).bands + b2 ∈
      exclOf (exIsotopes cell) (pathWave (exIsotopes cell).cell (exIsotopes cell).wrap pts) pts.length then 0 else
      (updateList (exIsotopes cell) row (pathWave (exIsotopes cell).cell (exIsotopes cell).wrap pts ik)
        (pathWave (exIsotopes cell).cell (exIsotopes cell).wrap (exIsotopes cell).mesh ik2)
        (fun i => plainWave (exIsotopes cell).cell pts ik i + plainWave (exIsotopes cell).cell (exIsotopes cell).mesh ik2 i)
        (fun i => plainWave (exIsotopes cell).cell pts ik i - plainWave (exIsotopes cell).cell (exIsotopes cell).mesh ik2 i) b b2).sum) =
      Real.pi / 2 * (1 / 2) * (1 / 10 * (1 / 10)) * (1 / 2) *
      (boseOccupation (1 / 10) row.temperature * boseOccupation (1 / 10) row.temperature + boseOccupation (1 / 10) row.temperature) := by
    intro ik2 _ b2 hb2
    rw [if_neg (not_or.mpr ⟨hno _ _ _ _ hb, hno _ _ _ _ (Finset.mem_range.mp hb2)⟩)]
    exact exIsotopes_update cell row hT hmu _ _ _ _ _ _
  rw [Finset.sum_congr rfl fun ik2 h => Finset.sum_congr rfl (this ik2 h)]
  simp only [Finset.sum_const, Finset.card_range, hbb, nsmul_eq_mul]
  push_cast
  ring

/-- All the modes are degenerate. -/
theorem exIsotopes_mean (cell : Cell) (k : Vec3) (f : Nat → ℝ) (x : ℝ) (hf : ∀ b < 3, f b = x) (b : Nat) : modeMean (exIsotopes cell) k f b = x := by
  have he : ∀ b, (exIsotopes cell).H.energy k b = 1 / 10 := fun _ => rfl
  have hbb : (exIsotopes cell).bands = 3 := rfl
  unfold modeMean
  simp only [he, hbb]
  rw [Finset.filter_true_of_mem (by intros; norm_num), Finset.sum_congr rfl fun b hb => hf b (Finset.mem_range.mp hb)]
  simp

/-- The linewidth of the specification. -/
theorem exIsotopes_width (cell : Cell) (T : ℝ) (hT : 0 < T) (k : Vec3) (b : Nat) (hb : b < 3) :
    phononWidth (exIsotopes cell) T k b = 3 * Real.pi / 2 * (1 / 10 * (1 / 10)) := by
  have hn := bose_pos (e := 1 / 10) (by norm_num) hT
  have hed : edgeWidth (exIsotopes cell) k b = 0 := rfl
  have he : ∀ k b, (exIsotopes cell).H.energy k b = 1 / 10 := fun _ _ => rfl
  have hex : (exIsotopes cell).exclude = 0.1 / 109737.31568 := rfl
  have hbb : (exIsotopes cell).bands = 3 := rfl
  have hme : (exIsotopes cell).mesh = [⟨0, 0, 0⟩, ⟨1 / 2, 0, 0⟩] := rfl
  have hc : ∀ q b q2 b2 b3, coalescence (exIsotopes cell) T q b q2 b2 b3 = 0 := by
    intro q b q2 b2 b3
    have : (exIsotopes cell).plus q q2 b b2 b3 = 0 := rfl
    unfold coalescence
    simp [this]
  have hdc : ∀ q b q2 b2 b3, decay (exIsotopes cell) T q b q2 b2 b3 = 0 := by
    intro q b q2 b2 b3
    have : (exIsotopes cell).minus q q2 b b2 b3 = 0 := rfl
    unfold decay
    simp [this]
  have hi : ∀ q b q2 b2, isotopes (exIsotopes cell) T q b q2 b2 = 1 / 10 * (1 / 10) *
      (boseOccupation (1 / 10) T * boseOccupation (1 / 10) T + boseOccupation (1 / 10) T) := by
    intro q b q2 b2
    have hd : ∀ q b, deltaValue (exIsotopes cell).smearing 0 (phononVelocity (exIsotopes cell) q b) = 1 := by
      intro q b
      rw [← exIsotopes_delta]
      rfl
    have ho : (exIsotopes cell).overlap = some fun _ _ _ _ => 1 := rfl
    unfold isotopes
    simp only [he, ho, sub_self, hd]
    ring
  have hrate : ∀ b < 3, phononRate (exIsotopes cell) T k b = 3 * Real.pi / 2 * (1 / 10 * (1 / 10)) *
      (boseOccupation (1 / 10) T * boseOccupation (1 / 10) T + boseOccupation (1 / 10) T) := by
    intro b _
    unfold phononRate
    rw [he, hex, if_neg (by norm_num)]
    simp only [he, hc, hdc, hi, add_zero, Finset.sum_const_zero, mul_zero, zero_add, hbb, hme, if_neg (show ¬ (1 / 10 : ℝ) < 0.1 / 109737.31568 by norm_num),
      Finset.sum_const, Finset.card_range, List.map_cons, List.map_nil, List.sum_cons, List.sum_nil, List.length_cons, List.length_nil, nsmul_eq_mul]
    push_cast
    ring
  unfold phononWidth
  rw [hed, add_zero, exIsotopes_mean cell k _ _ hrate b, he]
  have : boseOccupation (1 / 10) T * (boseOccupation (1 / 10) T + 1) ≠ 0 := by positivity
  field_simp

/-- With the adaptive delta function the rate of the scattering by isotopes is not the mean over the two phonons: the value for the second phonon is
overwritten by that for the first one, and only then divided by two. When all the phonons have the same velocity and isotopes are all that scatters, every
linewidth in the file is half the linewidth of the golden rule. -/
theorem C183_violated_isotopes : ∃ (A : PathPhApp) (cell : Cell) (u : FileUnits) (t : TimesOutput) (f : BandsFile),
    A.cell = cell ∧ makeCell 1 = .ok cell ∧ PeriodicPhonons A ∧ ElSmearing A.smearing ∧ SameProcesses A [⟨0, 0, 0⟩, ⟨1 / 10, 0, 0⟩] ∧
    (∀ k b, A.exclude < A.H.energy k b) ∧
    A.run u 1 ⟨1, [], []⟩ [exSegment] (1 / 10) (fun _ => 1) (fun _ b => b.1 ++ b.2) exRows 1 = .ok (t, some f) ∧
    ∀ (c ik ib : Nat) (row : CalcRow), exRows.table[c]? = some row → ik < 2 → ib < 3 → ∃ x, entryOf t.linewidths c ik ib = some x ∧ 0 < x ∧
      ∀ k, linewidthEv u.time (phononWidth A row.temperature k ib) * 1000 = 2 * x := by
  obtain ⟨cell, hcell, _⟩ := (C69_volume (1 : Mat3)).1 (by simp)
  obtain ⟨idx, hp, hi⟩ := exPath_idx
  have h1 : PeriodicPhonons (exIsotopes cell) :=
    ⟨fun _ _ _ => rfl, fun _ _ _ _ _ => rfl, fun _ _ _ _ _ _ => rfl, fun _ _ _ _ _ _ => rfl, fun _ h _ _ _ _ _ _ => by cases h; rfl⟩
  have h2 : ElSmearing (exIsotopes cell).smearing := ⟨by norm_num, by norm_num, by norm_num, by norm_num⟩
  have h4 : ∀ q, SameModLattice (exIsotopes cell).cell.reciprocal ((exIsotopes cell).wrap q) q := fun q => ⟨0, by simp [exIsotopes, exPhonons]⟩
  have hproc : SameProcesses (exIsotopes cell) [⟨0, 0, 0⟩, ⟨1 / 10, 0, 0⟩] := by
    refine ⟨?_, ?_, ?_⟩
    · intro i hi hm b hb h
      exact h
    · intro p hp b hb h
      exact absurd h (by norm_num [exIsotopes, exPhonons])
    · intro p hp p2 hp2 b1 _ b2 _ b3 _ s _ q q2 q3 h
      norm_num [exIsotopes, exPhonons]
  obtain ⟨t, diag, pop, hrun, ht, hd⟩ := ph_run_val (exIsotopes cell) h1 h4 (by show 0 < 3; decide)
    (by show 3 ∣ 3; decide) ⟨⟨1, 2, 3⟩, 1, 1⟩ 1 ⟨1, [], []⟩ [exSegment] (1 / 10) _ hp idx hi (fun _ => 1)
    (fun _ => one_pos) (fun _ b => b.1 ++ b.2) (fun _ b => ⟨b.1, List.Perm.refl _, rfl⟩) exRows
    1 (by decide) (by simp) (by simp [exIsotopes, exPhonons]) (by show ((2 * 3 : Nat) : Int) ≤ intMax; decide)
    (by show ((2 * 3 : Nat) : Int) ≤ intMax; decide) (by show ((3 * 3 * 3 : Nat) : Int) ≤ intMax; decide)
  refine ⟨exIsotopes cell, cell, _, t, _, rfl, hcell, h1, h2, hproc, by norm_num [exIsotopes, exPhonons], hrun, ?_⟩
  intro c ik ib row hrow hik hib
  have hc : c < exRows.table.length := (List.getElem?_eq_some_iff.mp hrow).1
  obtain ⟨hT, hmu⟩ : 0 < row.temperature ∧ row.chemicalPotential = 0 := by
    have := List.mem_of_getElem? hrow
    simp only [exRows, List.mem_cons, List.not_mem_nil, or_false] at this
    rcases this with rfl | rfl <;> norm_num
  obtain ⟨hval, hpop⟩ := hd c row ik ib hik hrow hib
  have hn := bose_pos (e := 1 / 10) (by norm_num) hT
  have hq : diag c (ik * 3 + ib) / pop c (ik * 3 + ib) = 3 * Real.pi / 4 * (1 / 10 * (1 / 10)) := by
    have hp' : pop c (ik * 3 + ib) = boseOccupation (1 / 10) row.temperature * (boseOccupation (1 / 10) row.temperature + 1) := by
      refine hpop.trans ?_
      rw [hmu]
      exact bose_eq (1 / 10) _ hT (by norm_num)
    have hd' : diag c (ik * 3 + ib) = 3 * Real.pi / 4 * (1 / 10 * (1 / 10)) *
        (boseOccupation (1 / 10) row.temperature * boseOccupation (1 / 10) row.temperature + boseOccupation (1 / 10) row.temperature) := by
      refine hval.trans ?_
      unfold rawDiagonal
      have hno : ∀ k, ¬ (exIsotopes cell).H.energy k ib < (exIsotopes cell).exclude := by
        intro k
        norm_num [exIsotopes, exPhonons]
      have he : ∀ k b, edgeWidth (exIsotopes cell) k b = 0 := fun _ _ => rfl
      rw [if_neg (hno _), he, zero_mul, add_zero,
        exIsotopes_mean cell _ _ _ (fun b hb => exIsotopes_rate cell row hT hmu _ ik b hb) ib, exIsotopes_rate cell row hT hmu _ ik ib hib, ite_self]
    rw [hp', hd']
    have : boseOccupation (1 / 10) row.temperature * (boseOccupation (1 / 10) row.temperature + 1) ≠ 0 := by positivity
    field_simp
  have hpi := Real.pi_pos
  refine ⟨printedLinewidth ⟨1, 2, 3⟩ false (3 * Real.pi / 4 * (1 / 10 * (1 / 10))), ?_, ?_, ?_⟩
  · rw [ht]
    refine (entryOf_map 3 2 2 (fun c ik ib => printedLinewidth ⟨1, 2, 3⟩ false (diag c (ik * 3 + ib) / pop c (ik * 3 + ib)))
      hc hik hib).trans ?_
    rw [hq]
  · simp only [printedLinewidth, energyRyToEvOf, Bool.false_eq_true, if_false]
    positivity
  · intro k
    rw [exIsotopes_width cell row.temperature hT k ib hib]
    simp only [printedLinewidth, linewidthEv, energyRyToEvOf, Bool.false_eq_true, if_false]
    ring

end Verif.Props
