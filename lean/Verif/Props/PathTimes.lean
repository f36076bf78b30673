import Verif.Proofs.PathTimes
import Verif.Props.Times
import Verif.Spec.Times

/-!
# C182: lifetimes of electrons along a path, from the Hamiltonian to the files
-/
namespace Verif.Props
open Verif.Model Verif.Spec Verif.Proofs

theorem seconds_of_rate (k : TimeConstants) (hk : GoodConstants k) (gamma : ℝ) :
    printedTime k true (1 / gamma) * 1e-15 = rateSeconds k gamma := by
  have h1 := hk.hbar.ne'
  have h2 := hk.rydberg.ne'
  have hpi := Real.pi_pos.ne'
  simp only [printedTime, rateSeconds, energyRyToFs, timeAuToFs, if_true]
  by_cases hg : gamma = 0
  · subst hg; simp
  · field_simp
    norm_num

/-- The file of the bands along the path and that of the lifetimes are written, with one entry per point of the path. For
each point of the path, each band and each calculation of the sweep: the wavevector of the file of the lifetimes is
that of the path up to reciprocal lattice vectors, both files have the same energy, that of the Hamiltonian; the
velocity is the diagonal of the velocity operator; the linewidth is the sum over the mesh plus the
scattering at the boundaries, and the relaxation time is its inverse. Partial: degenerate bands are averaged only in the
first calculation, `c = 0`; in the others the statement is for bands without degeneracies. -/
theorem C182_file_partial (A : PathElApp) {d : Mat3} (hcell : makeCell d = .ok A.cell) (hA : PeriodicApp A)
    (hw : ∀ q, SameModLattice A.cell.reciprocal (A.wrap q) q) (hsm : ElSmearing A.smearing) (hcut : 0 < A.cutoff)
    (hb : 0 < A.bands) (u : FileUnits) (hu : GoodConstants u.time) (ang : ℝ) (cr : AtomsView) (segs : List Segment)
    (delta : ℝ) (pts : List (V3 ℝ)) (hp : pathPoints segs delta = .ok pts) (idx : List Nat)
    (hi : highSymIndices segs pts = .ok idx) (sched : Nat → List FullStore → List FullStore)
    (hs : ∀ r l, (sched r l).Perm l) (sweep : Sweep) (hT : ∀ row ∈ sweep.table, 0 < row.temperature) (size : Nat)
    (hsize : 0 < size) (hle : size ≤ pts.length) (hle' : size ≤ A.mesh.length)
    (hfit : ((pts.length * A.bands : Nat) : Int) ≤ intMax) (hfitm : ((A.mesh.length * A.bands : Nat) : Int) ≤ intMax)
    (hfit' : ((A.bands * A.bands * 3 : Nat) : Int) ≤ intMax) :
    ∃ (t : TimesOutput) (f : BandsFile), A.run u ang cr segs delta sched sweep size = .ok (t, some f) ∧
      f.coordinates = pts.map (fun p => [p.x, p.y, p.z]) ∧ t.wavevectors.length = pts.length ∧
      t.linewidths.map (fun x => x.map List.length) =
        List.replicate sweep.table.length (List.replicate pts.length A.bands) ∧
      t.temperatures = sweep.table.map (fun r => r.temperature * u.temperatureAuToSi) ∧
      ∀ ik (hk : ik < pts.length),
        (∃ n1 n2 n3 : ℤ, t.wavevectors[ik]? = some ![pts[ik].x + n1, pts[ik].y + n2, pts[ik].z + n3]) ∧
        ∀ ib < A.bands, ∀ (c : Nat) (row : CalcRow), sweep.table[c]? = some row →
          let k := cartesianOf A.cell.reciprocal pts[ik]
          let e := A.H.energy k ib * u.time.rydberg / u.time.electronVolt
          entryOf t.energies c ik ib = some e ∧ (f.energies[ik]?.bind fun x => x[ib]?) = some e ∧
          entryOf t.velocities c ik ib = some [(A.H.velocity k ib ib 0).re * u.velocityRyToSi,
            (A.H.velocity k ib ib 1).re * u.velocityRyToSi, (A.H.velocity k ib ib 2).re * u.velocityRyToSi] ∧
          ((c = 0 ∨ ∀ b < A.bands, b ≠ ib → 1 / 1000000 ≤ |A.H.energy k b - A.H.energy k ib|) →
            let gamma := bandMean A k (electronWidth A row.temperature row.chemicalPotential k) ib + boundaryWidth A k ib
            entryOf t.linewidths c ik ib = some (linewidthEv u.time gamma) ∧
            ∃ tau, entryOf t.relaxationTimes c ik ib = some tau ∧ tau * 1e-15 = rateSeconds u.time gamma) := by
  have hfit2 : pts.length * size < 18446744073709551616 := by
    have h1 : pts.length ≤ pts.length * A.bands := Nat.le_mul_of_pos_right _ hb
    have h2 : ((pts.length * A.bands : Nat) : Int) ≤ 2147483647 := hfit
    have h3 : pts.length ≤ 2147483647 := by omega
    calc pts.length * size ≤ 2147483647 * 2147483647 := Nat.mul_le_mul h3 (by omega)
      _ < 18446744073709551616 := by norm_num
  obtain ⟨t, diag, hrun, ht, hd⟩ := run_val A hA hw hsm hcut hb u ang cr segs delta pts hp idx hi sched hs sweep hT size hsize
    hle hle' hfit hfitm hfit' hfit2
  refine ⟨t, _, hrun, ?_, ?_, ?_, ?_, ?_⟩
  · rfl
  · rw [ht]; simp
  · rw [ht]
    simp only [List.map_map]
    rw [List.eq_replicate_iff]
    refine ⟨by simp, ?_⟩
    intro x hx
    obtain ⟨c, _, rfl⟩ := List.mem_map.mp hx
    simp only [Function.comp, List.map_map]
    rw [List.eq_replicate_iff]
    refine ⟨by simp, ?_⟩
    intro y hy
    obtain ⟨ik, _, rfl⟩ := List.mem_map.mp hy
    simp
  · rw [ht]
  · intro ik hk
    obtain ⟨n1, n2, n3, hn⟩ := wave_coordinates hcell hw pts hk
    have hkk : pathWave A.cell A.wrap pts ik = A.wrap (cartesianOf A.cell.reciprocal pts[ik]) := pathWave_eq _ _ _ _ hk
    have hE : A.H.energy (pathWave A.cell A.wrap pts ik) = A.H.energy (cartesianOf A.cell.reciprocal pts[ik]) := by
      rw [hkk]; exact hA.energy _ _ (hw _)
    have hV : ∀ b i, A.H.velocity (pathWave A.cell A.wrap pts ik) b b i =
        A.H.velocity (cartesianOf A.cell.reciprocal pts[ik]) b b i := by
      rw [hkk]; exact hA.velocity _ _ (hw _)
    refine ⟨⟨n1, n2, n3, ?_⟩, ?_⟩
    · rw [ht]
      simp only [List.getElem?_map, List.getElem?_range hk, Option.map_some, hn]
    · intro ib hib c row hrow
      have hc : c < sweep.table.length := (List.getElem?_eq_some_iff.mp hrow).1
      refine ⟨?_, ?_, ?_, ?_⟩
      · rw [ht]
        simp only
        rw [entryOf_map _ _ _ (fun _ ik ib => printedLinewidth u.time true (A.H.energy (pathWave A.cell A.wrap pts ik) ib))
          hc hk hib, hE]
        simp only [printedLinewidth, energyRyToEvOf, if_true, mul_div_assoc]
      · simp only [fileOf, List.getElem?_map, List.getElem?_range hk, Option.map_some, Option.bind_some,
          List.getElem?_range hib, hE, energyRyToEvOf, mul_div_assoc, Bool.false_eq_true, if_false]
      · rw [ht]
        simp only
        rw [entryOf_map _ _ _ (fun _ ik ib => [(A.H.velocity (pathWave A.cell A.wrap pts ik) ib ib 0).re * u.velocityRyToSi,
                (A.H.velocity (pathWave A.cell A.wrap pts ik) ib ib 1).re * u.velocityRyToSi,
                (A.H.velocity (pathWave A.cell A.wrap pts ik) ib ib 2).re * u.velocityRyToSi]) hc hk hib]
        simp only [hV]
      · intro hdeg
        have hg : diag c (ik * A.bands + ib) = bandMean A (cartesianOf A.cell.reciprocal pts[ik])
            (electronWidth A row.temperature row.chemicalPotential (cartesianOf A.cell.reciprocal pts[ik])) ib +
            boundaryWidth A (cartesianOf A.cell.reciprocal pts[ik]) ib := by
          rw [hd c row ik ib hk hrow hib]
          unfold fullWidth
          by_cases h0 : c = 0
          · rw [if_pos h0]
          · rw [if_neg h0, bandMean_alone A _ _ ib hib (hdeg.resolve_left h0)]
        refine ⟨?_, ?_⟩
        · rw [ht]
          simp only
          rw [entryOf_map _ _ _ (fun c ik ib => printedLinewidth u.time true (diag c (ik * A.bands + ib))) hc hk hib, hg]
          simp only [printedLinewidth, linewidthEv, energyRyToEvOf, if_true, mul_div_assoc]
        · refine ⟨_, ?_, seconds_of_rate u.time hu _⟩
          rw [ht]
          simp only
          rw [entryOf_map _ _ _ (fun c ik ib => printedTime u.time true (1 / diag c (ik * A.bands + ib))) hc hk hib, hg]

/-- Neither file is written when there are more processes than points of the mesh or of the path, and with the
tetrahedra. -/
theorem C182_refused (A : PathElApp) (u : FileUnits) (ang : ℝ) (cr : AtomsView) (segs : List Segment) (delta : ℝ)
    (pts : List (V3 ℝ)) (hp : pathPoints segs delta = .ok pts) (sched : Nat → List FullStore → List FullStore)
    (hs : ∀ r l, (sched r l).Perm l) (sweep : Sweep) (size : Nat) (hsize : 0 < size) (hb : 0 < A.bands)
    (hfit : ((pts.length * A.bands : Nat) : Int) ≤ intMax) (hfitm : ((A.mesh.length * A.bands : Nat) : Int) ≤ intMax)
    (hfit' : ((A.bands * A.bands * 3 : Nat) : Int) ≤ intMax)
    (h : A.mesh.length < size ∨ pts.length < size ∨ ∃ f, A.smearing = .tetra f) :
    A.run u ang cr segs delta sched sweep size = .error := by
  have hfirst : ∀ (f : Nat → Outcome (FullBands ℝ ℂ × FullBands ℝ ℂ)), f 0 = .error →
      mapOutcome f (List.range size) = .error := by
    intro f hf
    obtain ⟨n, rfl⟩ := Nat.exists_eq_succ_of_ne_zero hsize.ne'
    rw [List.range_succ_eq_map]
    simp only [mapOutcome, hf]
    rfl
  have hmany : ∀ l : List (V3 ℝ), l.length < size → A.populate l (sched 0) size 0 = .error := by
    intro l hl
    unfold PathElApp.populate
    rw [C165_too_many size A.bands l.length false true true false hl]
    rfl
  unfold PathElApp.run
  rw [hp]
  simp only [Outcome.bind_eq, Outcome.bind_ok]
  by_cases h1 : A.mesh.length < size
  · rw [hfirst _ (by rw [hmany _ h1]; rfl)]
    rfl
  · by_cases h2 : pts.length < size
    · obtain ⟨F, hF, _⟩ := populate_val A A.mesh (sched 0) size 0 (by omega) hsize hb hfitm hfit' (hs 0)
      rw [hfirst _ (by rw [hF, hmany _ h2]; rfl)]
      rfl
    · obtain ⟨f, hf⟩ := (h.resolve_left h1).resolve_left h2
      have hpop : ∀ r, ∃ b : FullBands ℝ ℂ × FullBands ℝ ℂ, r < size →
          ((A.populate A.mesh (sched r) size r).bind fun inner =>
            (A.populate pts (sched r) size r).bind fun outer => .ok (inner, outer)) = .ok b := by
        intro r
        by_cases hr : r < size
        · obtain ⟨F1, h1, _⟩ := populate_val A A.mesh (sched r) size r (by omega) hr hb hfitm hfit' (hs r)
          obtain ⟨F2, h3, _⟩ := populate_val A pts (sched r) size r (by omega) hr hb hfit hfit' (hs r)
          refine ⟨(F1, F2), fun _ => ?_⟩
          rw [h1, h3]
          rfl
        · exact ⟨(⟨0, 0, false, false, .empty, .empty, .empty⟩, ⟨0, 0, false, false, .empty, .empty, .empty⟩),
            fun h => absurd h hr⟩
      choose B hB using hpop
      rw [mapOutcome_ok (List.range size) fun r hr => hB r (List.mem_range.mp hr)]
      simp only [Outcome.bind_ok]
      rw [hf]
      rfl

/-- The files do not depend on the number of processes and on the order of the calls of the threads. -/
theorem C182_processes (A : PathElApp) (hA : PeriodicApp A) (hw : ∀ q, SameModLattice A.cell.reciprocal (A.wrap q) q)
    (hsm : ElSmearing A.smearing) (hcut : 0 < A.cutoff) (hb : 0 < A.bands) (u : FileUnits) (ang : ℝ) (cr : AtomsView)
    (segs : List Segment) (delta : ℝ) (pts : List (V3 ℝ)) (hp : pathPoints segs delta = .ok pts) (idx : List Nat)
    (hi : highSymIndices segs pts = .ok idx) (sched sched' : Nat → List FullStore → List FullStore)
    (hs : ∀ r l, (sched r l).Perm l) (hs' : ∀ r l, (sched' r l).Perm l) (sweep : Sweep)
    (hT : ∀ row ∈ sweep.table, 0 < row.temperature) (size size' : Nat) (hsize : 0 < size) (hsize' : 0 < size')
    (hle : size ≤ pts.length ∧ size ≤ A.mesh.length) (hle' : size' ≤ pts.length ∧ size' ≤ A.mesh.length)
    (hfit : ((pts.length * A.bands : Nat) : Int) ≤ intMax) (hfitm : ((A.mesh.length * A.bands : Nat) : Int) ≤ intMax)
    (hfit' : ((A.bands * A.bands * 3 : Nat) : Int) ≤ intMax) :
    A.run u ang cr segs delta sched sweep size = A.run u ang cr segs delta sched' sweep size' := by
  have hbig : ∀ n, n ≤ pts.length → pts.length * n < 18446744073709551616 := by
    intro n hn
    have h1 : pts.length ≤ pts.length * A.bands := Nat.le_mul_of_pos_right _ hb
    have h2 : ((pts.length * A.bands : Nat) : Int) ≤ 2147483647 := hfit
    have h3 : pts.length ≤ 2147483647 := by omega
    calc pts.length * n ≤ 2147483647 * 2147483647 := Nat.mul_le_mul h3 (by omega)
      _ < 18446744073709551616 := by norm_num
  obtain ⟨t, diag, hrun, ht, hd⟩ := run_val A hA hw hsm hcut hb u ang cr segs delta pts hp idx hi sched hs sweep hT size hsize
    hle.1 hle.2 hfit hfitm hfit' (hbig _ hle.1)
  obtain ⟨t', diag', hrun', ht', hd'⟩ := run_val A hA hw hsm hcut hb u ang cr segs delta pts hp idx hi sched' hs' sweep hT size'
    hsize' hle'.1 hle'.2 hfit hfitm hfit' (hbig _ hle'.1)
  have hsame : ∀ c < sweep.table.length, ∀ ik < pts.length, ∀ ib < A.bands,
      diag c (ik * A.bands + ib) = diag' c (ik * A.bands + ib) := by
    intro c hc ik hk ib hib
    rw [hd c _ ik ib hk (List.getElem?_eq_getElem hc) hib, hd' c _ ik ib hk (List.getElem?_eq_getElem hc) hib]
  have hlists : ∀ g : ℝ → ℝ, ((List.range sweep.table.length).map fun c => (List.range pts.length).map fun ik =>
      (List.range A.bands).map fun ib => g (diag c (ik * A.bands + ib))) =
      (List.range sweep.table.length).map fun c => (List.range pts.length).map fun ik =>
      (List.range A.bands).map fun ib => g (diag' c (ik * A.bands + ib)) := by
    intro g
    apply List.map_congr_left
    intro c hc
    apply List.map_congr_left
    intro ik hk
    apply List.map_congr_left
    intro ib hib
    rw [hsame c (List.mem_range.mp hc) ik (List.mem_range.mp hk) ib (List.mem_range.mp hib)]
  rw [hrun, hrun', ht, ht', hlists (fun x => printedLinewidth u.time true x),
    hlists (fun x => printedTime u.time true (1 / x))]

/-- Two degenerate bands, only the first of which is coupled to the only mode. -/
noncomputable def exPath (cell : Cell) : PathElApp :=
  ⟨2, 1, ⟨fun _ _ => 0, fun _ _ _ => 0, fun _ _ _ _ => 0⟩, cell, id, [⟨0, 0, 0⟩, ⟨1 / 2, 0, 0⟩], fun _ _ => 1,
    fun _ _ b _ _ => if b = 0 then 1 else 0, .gaussian 1, 1 / 2, none⟩

/-- Two temperatures. -/
def exRows : Sweep := ⟨2, 1, [⟨1, 0, 0⟩, ⟨2, 0, 0⟩]⟩

theorem exPath_good (cell : Cell) : PeriodicApp (exPath cell) ∧ ElSmearing (exPath cell).smearing ∧
    (∀ q, SameModLattice cell.reciprocal ((exPath cell).wrap q) q) ∧ ∀ row ∈ exRows.table, 0 < row.temperature :=
  ⟨⟨fun _ _ _ => rfl, fun _ _ _ _ _ => rfl, fun _ _ _ => rfl, fun _ _ _ _ _ _ => rfl⟩, one_pos,
    fun q => ⟨0, by simp [exPath]⟩, by simp [exRows]⟩

theorem exPath_idx : ∃ idx, pathPoints [exSegment] (1 / 10) = .ok [⟨0, 0, 0⟩, ⟨1 / 10, 0, 0⟩] ∧
    highSymIndices [exSegment] [⟨0, 0, 0⟩, ⟨1 / 10, 0, 0⟩] = .ok idx := by
  obtain ⟨hseg, hpath⟩ := exSegment_path
  obtain ⟨pts, idx, h1, h2, _⟩ := C139_labels_partial (1 / 10) (by norm_num) [exSegment] (by simp) (by simpa using hseg)
    (by simp [GoodLabels, exSegment]) (by intro i hi; simp at hi)
  rw [hpath, Outcome.ok.injEq] at h1
  subst h1
  exact ⟨idx, hpath, h2⟩

/-- The linewidths of the example: that of the first band is positive, that of the second is zero. -/
theorem exPath_widths (cell : Cell) (T : ℝ) (hT : 0 < T) (k : Vec3) :
    0 < electronWidth (exPath cell) T 0 k 0 ∧ electronWidth (exPath cell) T 0 k 1 = 0 := by
  have hg : 0 < gaussianSmearing 1 1 ∧ 0 < gaussianSmearing 1 (-1) := by
    have hp := gaussian_prefactor_pos (w := 1) one_pos
    constructor
    · unfold gaussianSmearing; simp only; rw [if_neg (by norm_num)]; positivity
    · unfold gaussianSmearing; simp only; rw [if_neg (by norm_num)]; positivity
  have htr : ∀ b k2 b2, phononTransition (exPath cell) T 0 k b k2 b2 0 = (if b = 0 then 1 else 0) *
      ((fermiDirac 0 T 0 + boseOccupation 1 T) * gaussianSmearing 1 1 +
        (1 - fermiDirac 0 T 0 + boseOccupation 1 T) * gaussianSmearing 1 (-1)) := by
    intro b k2 b2
    unfold phononTransition
    have hno : ¬ (exPath cell).phonon (fun i => k2 i - k i) 0 < (exPath cell).cutoff := by
      show ¬ (1 : ℝ) < 1 / 2
      norm_num
    simp only [if_neg hno]
    simp [exPath, deltaValue]
  have hpos : 0 < (fermiDirac 0 T 0 + boseOccupation 1 T) * gaussianSmearing 1 1 +
      (1 - fermiDirac 0 T 0 + boseOccupation 1 T) * gaussianSmearing 1 (-1) := by
    have h1 : 0 < boseOccupation 1 T := by
      unfold boseOccupation
      have : 1 < Real.exp (1 / T) := Real.one_lt_exp_iff.mpr (by positivity)
      apply one_div_pos.mpr
      linarith
    have h2 : fermiDirac 0 T 0 = 1 / 2 := by
      unfold fermiDirac
      simp
      norm_num
    rw [h2]
    have := hg.1
    have := hg.2
    have h3 : (0 : ℝ) < 1 / 2 + boseOccupation 1 T := by positivity
    have h4 : (0 : ℝ) < 1 - 1 / 2 + boseOccupation 1 T := by linarith
    positivity
  have hsum : ∀ b, electronWidth (exPath cell) T 0 k b = Real.pi / 2 * (4 * ((if b = 0 then 1 else 0) *
      ((fermiDirac 0 T 0 + boseOccupation 1 T) * gaussianSmearing 1 1 +
        (1 - fermiDirac 0 T 0 + boseOccupation 1 T) * gaussianSmearing 1 (-1)))) := by
    intro b
    unfold electronWidth
    have hm : (exPath cell).modes = 1 := rfl
    have hbd : (exPath cell).bands = 2 := rfl
    have hmesh : (exPath cell).mesh = [⟨0, 0, 0⟩, ⟨1 / 2, 0, 0⟩] := rfl
    rw [hm, hbd, hmesh]
    simp only [Finset.sum_range_succ, Finset.sum_range_zero, htr, List.map_cons, List.map_nil, List.sum_cons, List.sum_nil,
      List.length_cons, List.length_nil]
    push_cast
    ring
  rw [hsum, hsum]
  have hpi := Real.pi_pos
  constructor
  · rw [if_pos rfl]
    positivity
  · simp

/-- The hypotheses of `C182_file_partial` are met by a run on two processes whose first linewidth is positive. -/
example : ∃ (cell : Cell) (t : TimesOutput) (f : BandsFile) (x : ℝ), makeCell 1 = .ok cell ∧
    (exPath cell).run ⟨⟨1, 2, 3⟩, 1, 1⟩ 1 ⟨1, [], []⟩ [exSegment] (1 / 10) (fun _ l => l) exRows 2 = .ok (t, some f) ∧
    entryOf t.linewidths 0 1 0 = some x ∧ 0 < x := by
  obtain ⟨cell, hcell, _⟩ := (C69_volume (1 : Mat3)).1 (by simp)
  obtain ⟨idx, hp, hi⟩ := exPath_idx
  obtain ⟨h1, h2, h3, h4⟩ := exPath_good cell
  obtain ⟨t, f, hrun, _, _, _, _, hall⟩ := C182_file_partial (exPath cell) hcell h1 h3 h2 (by norm_num [exPath])
    (by show 0 < 2; decide) ⟨⟨1, 2, 3⟩, 1, 1⟩ ⟨by norm_num, by norm_num, by norm_num⟩ 1 ⟨1, [], []⟩ [exSegment] (1 / 10) _ hp idx hi
    (fun _ l => l) (fun _ l => List.Perm.refl l) exRows h4 2 (by decide) (by simp) (by simp [exPath])
    (by show ((2 * 2 : Nat) : Int) ≤ intMax; decide) (by show ((2 * 2 : Nat) : Int) ≤ intMax; decide)
    (by show ((2 * 2 * 3 : Nat) : Int) ≤ intMax; decide)
  have := ((hall 1 (by simp)).2 0 (by show 0 < 2; decide) 0 ⟨1, 0, 0⟩ rfl).2.2.2 (.inl rfl)
  refine ⟨cell, t, f, _, hcell, hrun, this.1, ?_⟩
  set k := cartesianOf (exPath cell).cell.reciprocal ([⟨0, 0, 0⟩, ⟨1 / 10, 0, 0⟩] : List (V3 ℝ))[1]
  obtain ⟨w0, w1⟩ := exPath_widths cell 1 one_pos k
  have hm : bandMean (exPath cell) k (electronWidth (exPath cell) 1 0 k) 0 = electronWidth (exPath cell) 1 0 k 0 / 2 := by
    unfold bandMean
    simp [exPath, Finset.sum_range_succ]
    simpa [exPath] using w1
  have hbd : boundaryWidth (exPath cell) k 0 = 0 := rfl
  simp only [linewidthEv]
  rw [hm, hbd]
  positivity

/-- The full C182 is violated: at the second temperature degenerate bands of the same wavevector have different
linewidths, although at the first temperature they are averaged and equal. -/
theorem C182_violated : ∃ (A : PathElApp) (cell : Cell) (u : FileUnits) (sweep : Sweep) (t : TimesOutput) (f : BandsFile)
    (x y z : ℝ), A.cell = cell ∧ makeCell 1 = .ok cell ∧ PeriodicApp A ∧ ElSmearing A.smearing ∧
    (∀ k, A.H.energy k 0 = A.H.energy k 1) ∧
    A.run u 1 ⟨1, [], []⟩ [exSegment] (1 / 10) (fun _ l => l) sweep 1 = .ok (t, some f) ∧
    entryOf t.linewidths 0 0 0 = some x ∧ entryOf t.linewidths 0 0 1 = some x ∧
    entryOf t.linewidths 1 0 0 = some y ∧ entryOf t.linewidths 1 0 1 = some z ∧ z < y := by
  obtain ⟨cell, hcell, _⟩ := (C69_volume (1 : Mat3)).1 (by simp)
  obtain ⟨idx, hp, hi⟩ := exPath_idx
  obtain ⟨h1, h2, h3, h4⟩ := exPath_good cell
  obtain ⟨t, diag, hrun, ht, hd⟩ := run_val (exPath cell) h1 h3 h2 (by norm_num [exPath]) (by show 0 < 2; decide)
    ⟨⟨1, 2, 3⟩, 1, 1⟩ 1 ⟨1, [], []⟩ [exSegment] (1 / 10) _ hp idx hi
    (fun _ l => l) (fun _ l => List.Perm.refl l) exRows h4 1 (by decide) (by simp) (by simp [exPath])
    (by show ((2 * 2 : Nat) : Int) ≤ intMax; decide) (by show ((2 * 2 : Nat) : Int) ≤ intMax; decide)
    (by show ((2 * 2 * 3 : Nat) : Int) ≤ intMax; decide) (by simp)
  have hent : ∀ c < 2, ∀ ib < 2, entryOf t.linewidths c 0 ib = some (printedLinewidth ⟨1, 2, 3⟩ true (diag c (0 * 2 + ib))) := by
    intro c hc ib hib
    rw [ht]
    exact entryOf_map 2 2 2 (fun c ik ib => printedLinewidth ⟨1, 2, 3⟩ true (diag c (ik * 2 + ib))) hc (by decide) hib
  set k := cartesianOf (exPath cell).cell.reciprocal (⟨0, 0, 0⟩ : V3 ℝ) with hk
  have e0 : diag 0 (0 * 2 + 0) = diag 0 (0 * 2 + 1) := by
    rw [show diag 0 (0 * 2 + 0) = _ from hd 0 ⟨1, 0, 0⟩ 0 0 (by simp) rfl (by show 0 < 2; decide),
      show diag 0 (0 * 2 + 1) = _ from hd 0 ⟨1, 0, 0⟩ 0 1 (by simp) rfl (by show 1 < 2; decide)]
    unfold fullWidth
    rw [if_pos rfl, if_pos rfl]
    rfl
  have e1 : ∀ ib, ib < 2 → diag 1 (0 * 2 + ib) = electronWidth (exPath cell) 2 0 k ib := by
    intro ib hib
    rw [show diag 1 (0 * 2 + ib) = _ from hd 1 ⟨2, 0, 0⟩ 0 ib (by simp) rfl hib]
    unfold fullWidth
    rw [if_neg (by decide)]
    exact add_zero _
  obtain ⟨w0, w1⟩ := exPath_widths cell 2 two_pos k
  refine ⟨exPath cell, cell, _, exRows, t, _, _, _, _, rfl, hcell, h1, h2, fun _ => rfl, hrun, hent 0 (by decide) 0 (by decide), ?_,
    hent 1 (by decide) 0 (by decide), hent 1 (by decide) 1 (by decide), ?_⟩
  · rw [e0]
    exact hent 0 (by decide) 1 (by decide)
  · rw [e1 0 (by decide), e1 1 (by decide), w1]
    simp only [printedLinewidth, energyRyToEvOf, if_true]
    rw [zero_mul]
    positivity

end Verif.Props
