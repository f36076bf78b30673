import Verif.Proofs.PathThird
import Verif.Proofs.Input
import Verif.Props.PathPhTimes

/-! # C194: phonon lifetimes along a path from the files of third-order force constants -/
namespace Verif.Props
open Verif.Model Verif.Spec Verif.Proofs

theorem parse_sheng_input {A : Nat} {d : Mat3} (hap : LatticeApart d) (pos : Fin A → Vec3) {N : V3 Int} (hN : 0 < N.x ∧ 0 < N.y ∧ 0 < N.z) {Phi : ForceConstants A}
    {bohr : ℝ} (ryd : ℝ) (hb : bohr ≠ 0) {f : ThirdInput} (hf : IsShengInput d N Phi bohr f) :
    ∃ o, parseThird d pos bohr ryd f = .ok o ∧ CouplesAs o N d (bohr ^ 3 / ryd) Phi := by
  obtain ⟨hn, hA, ls, ht, h1, h2, h3, h4⟩ := hf
  unfold parseThird
  rw [if_neg (by rw [patternInString_iff]; exact hn), ht]
  exact couplesAs_of fun x q2 ev2 nb2 f2 f1 => C193_sheng_partial hA d hap N hN Phi bohr ryd hb f.newline ls h1 h2 h3 h4 [x] (by simp) q2 f2
    (by simpa using f1) ev2 nb2

theorem parse_phono3py_input {A : Nat} {d : Mat3} (hap : LatticeApart d) {pos : Fin A → Vec3} {N : V3 Int} {Phi : ForceConstants A} {bohr : ℝ} (ryd : ℝ)
    {f : ThirdInput} (hf : IsPhono3pyInput d pos N Phi bohr f) : ∃ o, parseThird d pos bohr ryd f = .ok o ∧ CouplesAs o N d (bohr ^ 3 / ryd) Phi := by
  obtain ⟨hn, hd, hA, hP, hclear, hnear, order, frac, disp, h1, h2, h3, h4, h5, h6⟩ := hf
  unfold parseThird
  rw [if_pos ((patternInString_iff _ _).mpr hn), if_neg hd, h4]
  exact couplesAs_of fun x q2 ev2 nb2 f2 f1 => C193_phono3py_partial hA d hap pos N order h1 h2 hclear hnear frac bohr ryd disp h3 f.newline h5 Phi hP f.tensor h6 [x]
    (by simp) q2 f2 (by simpa using f1) ev2 nb2

theorem parse_input {A : Nat} {d : Mat3} (hap : LatticeApart d) {pos : Fin A → Vec3} {N : V3 Int} (hN : 0 < N.x ∧ 0 < N.y ∧ 0 < N.z) {Phi : ForceConstants A}
    {bohr : ℝ} (ryd : ℝ) (hb : bohr ≠ 0) {f : ThirdInput} (hf : IsShengInput d N Phi bohr f ∨ IsPhono3pyInput d pos N Phi bohr f) :
    ∃ o, parseThird d pos bohr ryd f = .ok o ∧ CouplesAs o N d (bohr ^ 3 / ryd) Phi :=
  hf.elim (parse_sheng_input hap pos hN ryd hb) (parse_phono3py_input hap ryd)

/-- **C194, the run.** With the file of ShengBTE or the files of phono3py, the run is that of the crystal with the force constants of the file, when the points of the
path and of the mesh are on the grid of the supercell.  Missing: points between those of the grid, files of ShengBTE with other numbers of second than of third cells
(`C194_violated_cells`), file names (`C194_violated_name`), supercells with images on the border of the Wigner-Seitz cell (`C194_violated_ties`). -/
theorem C194_run_partial {A : Nat} (P : PathPhApp) (d : Mat3) (hap : LatticeApart d) (hcell : makeCell d = .ok P.cell)
    (hw : ∀ q, SameModLattice P.cell.reciprocal (P.wrap q) q) (pos : Fin A → Vec3) (N : V3 Int) (hN : 0 < N.x ∧ 0 < N.y ∧ 0 < N.z) (Phi : ForceConstants A)
    (bohr ryd : ℝ) (hb : bohr ≠ 0) (f : ThirdInput) (hf : IsShengInput d N Phi bohr f ∨ IsPhono3pyInput d pos N Phi bohr f)
    (hg : GroupedModes P N d) (hmesh : ∀ p ∈ P.mesh, OnGrid N p)
    (segs : List Segment) (delta : ℝ) (hpath : ∀ pts, pathPoints segs delta = .ok pts → ∀ p ∈ pts, OnGrid N p)
    (u : FileUnits) (ang : ℝ) (c : AtomsView) (batch : Nat → Int) (sched : Nat → List FullStore × List FullStore → List FullStore) (sweep : Sweep) (size : Nat) :
    P.runFrom d pos bohr ryd f u ang c segs delta batch sched sweep size =
      (withForces P N d (bohr ^ 3 / ryd) Phi).run u ang c segs delta batch sched sweep size := by
  obtain ⟨o, ho, hc⟩ := parse_input hap hN ryd hb hf
  unfold PathPhApp.runFrom
  simp only [Outcome.bind_eq]
  rw [ho, Outcome.bind_ok]
  exact run_third P hc hcell hw hg hmesh segs delta hpath u ang c batch sched sweep size

/-- **C194, two files.** Two files with the same force constants, by ShengBTE or by phono3py, give the same output. -/
theorem C194_same_partial {A : Nat} (P : PathPhApp) (d : Mat3) (hap : LatticeApart d) (hcell : makeCell d = .ok P.cell)
    (hw : ∀ q, SameModLattice P.cell.reciprocal (P.wrap q) q) (pos : Fin A → Vec3) (N : V3 Int) (hN : 0 < N.x ∧ 0 < N.y ∧ 0 < N.z) (Phi : ForceConstants A)
    (bohr ryd : ℝ) (hb : bohr ≠ 0) (f f' : ThirdInput) (hf : IsShengInput d N Phi bohr f ∨ IsPhono3pyInput d pos N Phi bohr f)
    (hf' : IsShengInput d N Phi bohr f' ∨ IsPhono3pyInput d pos N Phi bohr f') (hg : GroupedModes P N d) (hmesh : ∀ p ∈ P.mesh, OnGrid N p)
    (segs : List Segment) (delta : ℝ) (hpath : ∀ pts, pathPoints segs delta = .ok pts → ∀ p ∈ pts, OnGrid N p)
    (u : FileUnits) (ang : ℝ) (c : AtomsView) (batch : Nat → Int) (sched : Nat → List FullStore × List FullStore → List FullStore) (sweep : Sweep) (size : Nat) :
    P.runFrom d pos bohr ryd f u ang c segs delta batch sched sweep size = P.runFrom d pos bohr ryd f' u ang c segs delta batch sched sweep size := by
  rw [C194_run_partial P d hap hcell hw pos N hN Phi bohr ryd hb f hf hg hmesh segs delta hpath,
    C194_run_partial P d hap hcell hw pos N hN Phi bohr ryd hb f' hf' hg hmesh segs delta hpath]

/-- **C194, the linewidths.** In the file of the lifetimes, the linewidth of a phonon of the path is that of the golden rule with the couplings of the crystal: the
squared moduli of the sums of the force constants over the supercell. -/
theorem C194_widths_partial {A : Nat} (P : PathPhApp) (d : Mat3) (hap : LatticeApart d) (hcell : makeCell d = .ok P.cell) (hper : PeriodicModes P)
    (hw : ∀ q, SameModLattice P.cell.reciprocal (P.wrap q) q) (hsm : ElSmearing P.smearing) (hiso : GoodIsotopes P)
    (hcut : 0 < P.cutoff) (hcuts : P.cutoff ≤ P.exclude) (hb : 0 < P.bands) (h3 : 3 ∣ P.bands)
    (pos : Fin A → Vec3) (N : V3 Int) (hN : 0 < N.x ∧ 0 < N.y ∧ 0 < N.z) (Phi : ForceConstants A)
    (bohr ryd : ℝ) (hbohr : bohr ≠ 0) (f : ThirdInput) (hf : IsShengInput d N Phi bohr f ∨ IsPhono3pyInput d pos N Phi bohr f)
    (hg : GroupedModes P N d) (hmesh : ∀ p ∈ P.mesh, OnGrid N p)
    (u : FileUnits) (hu : GoodConstants u.time) (ang : ℝ) (c : AtomsView) (segs : List Segment) (delta : ℝ) (pts : List (V3 ℝ))
    (hp : pathPoints segs delta = .ok pts) (hpath : ∀ p ∈ pts, OnGrid N p) (idx : List Nat) (hi : highSymIndices segs pts = .ok idx)
    (hproc : SameProcesses P pts) (batch : Nat → Int) (hbatch : ∀ r, 0 < batch r)
    (sched : Nat → List FullStore × List FullStore → List FullStore) (hs : ∀ r, GoodSched (sched r)) (sweep : Sweep)
    (hT : ∀ row ∈ sweep.table, 0 < row.temperature ∧ row.chemicalPotential = 0) (size : Nat)
    (hsize : 0 < size) (hle : size ≤ pts.length) (hle' : size ≤ P.mesh.length)
    (hfit : ((pts.length * P.bands : Nat) : Int) ≤ intMax) (hfitm : ((P.mesh.length * P.bands : Nat) : Int) ≤ intMax)
    (hfit' : ((P.bands * P.bands * 3 : Nat) : Int) ≤ intMax) :
    ∃ (t : TimesOutput) (b : BandsFile), P.runFrom d pos bohr ryd f u ang c segs delta batch sched sweep size = .ok (t, some b) ∧
      b.coordinates = pts.map (fun p => [p.x, p.y, p.z]) ∧
      ∀ ik (hk : ik < pts.length), ∀ ib < P.bands, ∀ (i : Nat) (row : CalcRow), sweep.table[i]? = some row →
        let k := cartesianOf P.cell.reciprocal pts[ik]
        P.exclude ≤ P.H.energy k ib → (i = 0 ∨ ∀ b < P.bands, b ≠ ib → 1 / 1000000 ≤ |P.H.energy k b - P.H.energy k ib|) →
        let gamma := phononWidth (withForces P N d (bohr ^ 3 / ryd) Phi) row.temperature k ib
        entryOf t.linewidths i ik ib = some (linewidthEv u.time gamma * 1000) ∧
        ∃ tau, entryOf t.relaxationTimes i ik ib = some tau ∧ tau * 1e-12 = rateSeconds u.time gamma := by
  obtain ⟨t, b, hrun, h1, _, _, _, hall⟩ := C183_file_partial (withForces P N d (bohr ^ 3 / ryd) Phi) hcell (withForces_periodic P N d _ Phi hcell hper) hw hsm hiso hcut
    hcuts hb h3 u hu ang c segs delta pts hp idx hi ⟨hproc.place, hproc.between, hproc.product⟩ batch hbatch sched hs sweep hT size hsize hle hle' hfit hfitm hfit'
  refine ⟨t, b, ?_, h1, ?_⟩
  · rw [C194_run_partial P d hap hcell hw pos N hN Phi bohr ryd hbohr f hf hg hmesh segs delta (fun pts' h => by
      rw [hp, Outcome.ok.injEq] at h
      exact h ▸ hpath), hrun]
  · intro ik hk ib hib i row hrow k he hdeg
    exact ((hall ik hk).2 ib hib i row hrow).2.2.2.2 he hdeg

/-- **C194, no file of displacements.** With a file of phono3py and no file of displacements, the run ends with an error. -/
theorem C194_refused {A : Nat} (P : PathPhApp) (d : Mat3) (pos : Fin A → Vec3) (bohr ryd : ℝ) (f : ThirdInput) (hn : "hdf5".toList <:+: f.name) (hd : f.dispName = [])
    (u : FileUnits) (ang : ℝ) (c : AtomsView) (segs : List Segment) (delta : ℝ) (batch : Nat → Int)
    (sched : Nat → List FullStore × List FullStore → List FullStore) (sweep : Sweep) (size : Nat) :
    P.runFrom d pos bohr ryd f u ang c segs delta batch sched sweep size = .error := by
  unfold PathPhApp.runFrom parseThird
  rw [if_pos ((patternInString_iff _ _).mpr hn), if_pos hd]
  rfl

/-! ## An example: one atom, three cells of a cubic lattice -/

noncomputable def thirdSegment : Segment := ⟨⟨0, 0, 0⟩, ⟨1 / 3, 0, 0⟩, "G", "A"⟩

theorem thirdSegment_idx : ∃ idx, pathPoints [thirdSegment] (1 / 3) = .ok [⟨0, 0, 0⟩, ⟨1 / 3, 0, 0⟩] ∧
    highSymIndices [thirdSegment] [⟨0, 0, 0⟩, ⟨1 / 3, 0, 0⟩] = .ok idx := by
  have d1 : vdist thirdSegment.p1 thirdSegment.p0 = 1 / 3 := by
    simp only [vdist, thirdSegment]
    rw [← Real.sqrt_sq (show (0 : ℝ) ≤ 1 / 3 by norm_num)]
    congr 1
    rw [Real.sqrt_sq (by norm_num)]
    norm_num
  have n1 : segmentCount thirdSegment (1 / 3) = .ok 1 := by
    unfold segmentCount truncInt
    rw [d1]
    norm_num
    decide
  have tail1 : pathTail (1 / 3) thirdSegment.p0 [thirdSegment] = .ok [thirdSegment.p1] := by
    simp only [pathTail, n1, Outcome.bind_eq, Outcome.bind_ok, one_ne_zero, if_false, segmentPoint_zero, vdist_self]
    rw [if_neg (by norm_num)]
    simp [segmentPoint_last thirdSegment 1 one_ne_zero]
  have hpath : pathPoints [thirdSegment] (1 / 3) = .ok [⟨0, 0, 0⟩, ⟨1 / 3, 0, 0⟩] := by
    unfold pathPoints
    simp only [tail1, Outcome.bind_eq, Outcome.bind_ok]
    rfl
  have hseg : GoodSegment (1 / 3) thirdSegment := ⟨by rw [d1], by rw [d1]; norm_num⟩
  obtain ⟨pts, idx, h1, h2, _⟩ := C139_labels_partial (1 / 3) (by norm_num) [thirdSegment] (by simp) (by simpa using hseg)
    (by simp [GoodLabels, thirdSegment]) (by intro i hi; simp at hi)
  rw [hpath, Outcome.ok.injEq] at h1
  subst h1
  exact ⟨idx, hpath, h2⟩

/-- Three flat bands, each along an axis. -/
noncomputable def thirdPhonons (cell : Cell) : PathPhApp :=
  { exPhonons cell (fun _ b => (b + 1) / 10) with
    H := ⟨fun _ b => (b + 1) / 10, fun _ a b => if a = b then 1 else 0, fun _ _ _ _ => 0⟩
    mesh := [⟨0, 0, 0⟩, ⟨1 / 3, 0, 0⟩, ⟨2 / 3, 0, 0⟩] }

noncomputable def thirdSheng : ThirdInput :=
  ⟨"FORCE_CONSTANTS_3RD".toList, [], true, shengFile (thirdTriplets.map (LatticeTriplet.inAngstrom unitCubic 1)), [], sampleFile⟩

noncomputable def thirdPhono3py : ThirdInput :=
  ⟨"fc3.hdf5".toList, "phono3py_disp.yaml".toList, true, [], (sampleDisp ⟨3, 1, 1⟩ unitCubic (fun (_ : Fin 1) _ => 0) [⟨0, 0, 0⟩, ⟨1, 0, 0⟩, ⟨2, 0, 0⟩] 1).lines,
    ⟨3, 3, 3, fun _ s2 s3 _ _ _ => if s2 = s3 ∧ s2 ≠ 2 then 1 else 0, [0]⟩⟩

theorem thirdSheng_input : IsShengInput unitCubic ⟨3, 1, 1⟩ thirdFc 1 thirdSheng :=
  ⟨by unfold thirdSheng; decide, by decide, thirdTriplets, rfl, third_shared, third_once, by simp [thirdTriplets, intMax], rfl⟩

theorem thirdPhono3py_input : IsPhono3pyInput unitCubic (fun (_ : Fin 1) _ => 0) ⟨3, 1, 1⟩ thirdFc 1 thirdPhono3py := by
  refine ⟨by unfold thirdPhono3py; decide, by unfold thirdPhono3py; decide, one_pos, ?_, fun b b' => cubic_clear _ (by decide) _ (by funext i; simp), fun b b' => ?_,
    [⟨0, 0, 0⟩, ⟨1, 0, 0⟩, ⟨2, 0, 0⟩], fun _ _ => 0, sampleDisp ⟨3, 1, 1⟩ unitCubic (fun (_ : Fin 1) _ => 0) [⟨0, 0, 0⟩, ⟨1, 0, 0⟩, ⟨2, 0, 0⟩] 1, ⟨by decide, rfl, ?_⟩, by simp [intMax],
    sample_describes _ _ _ _ _ one_ne_zero, ?_, Or.inl ?_, ?_⟩
  · intro b1 b2 b3 n n' m m' hx _ _ hx' _ _
    simp only at hx hx'
    have h1 : n.x % 3 = n'.x % 3 := by omega
    have h2 : m.x % 3 = m'.x % 3 := by omega
    funext i j k
    simp only [thirdFc, h1, h2]
  · have : (fun (_ : Fin 3) => (0 : ℝ) - 0) = 0 := by funext i; simp
    simp only [this]
    exact nearest_three
  · rintro ⟨x, y, z⟩
    simp only [List.mem_cons, V3.mk.injEq, List.not_mem_nil, or_false]
    omega
  · unfold thirdPhono3py
    rfl
  · unfold thirdPhono3py
    rfl
  · unfold thirdPhono3py
    refine ⟨rfl, rfl, rfl, rfl, ?_⟩
    intro b1 b2 b3 s2 s3 c2 c3 h2 h3
    rw [Subsingleton.elim b2 0, Subsingleton.elim b3 0]
    have l2 := (List.getElem?_eq_some_iff.mp h2).1
    have l3 := (List.getElem?_eq_some_iff.mp h3).1
    simp only [List.length_cons, List.length_nil] at l2 l3
    interval_cases s2 <;> interval_cases s3 <;>
      simp only [List.getElem?_cons_zero, List.getElem?_cons_succ, Option.some.injEq] at h2 h3 <;> subst h2 <;> subst h3 <;>
      (funext i j k; norm_num [thirdFc])

theorem flat_apart {i j : Nat} (h : |((i : ℝ) + 1) / 10 - (j + 1) / 10| < 1 / 1000000) : i = j := by
  rw [abs_lt] at h
  have h1 : ((i : ℤ) : ℝ) - (j : ℤ) < 1 := by push_cast; linarith [h.2]
  have h2 : ((j : ℤ) : ℝ) - (i : ℤ) < 1 := by push_cast; linarith [h.1]
  have h1' : (i : ℤ) - j < 1 := by exact_mod_cast h1
  have h2' : (j : ℤ) - i < 1 := by exact_mod_cast h2
  omega

theorem thirdPhonons_grouped (cell : Cell) : GroupedModes (thirdPhonons cell) ⟨3, 1, 1⟩ unitCubic := by
  intro q _
  refine ⟨fun i j hij _ => ?_, fun i j k _ _ _ h1 h2 => ?_⟩
  · show ((i : ℝ) + 1) / 10 ≤ (j + 1) / 10
    have : (i : ℝ) ≤ j := by exact_mod_cast hij
    linarith
  · have e1 := flat_apart h1
    have e2 := flat_apart h2
    subst e1 e2
    simp

example : ∃ (cell : Cell) (t : TimesOutput) (b : BandsFile), makeCell unitCubic = .ok cell ∧
    (thirdPhonons cell).runFrom unitCubic (fun (_ : Fin 1) _ => 0) 1 1 thirdSheng ⟨⟨1, 2, 3⟩, 1, 1⟩ 1 ⟨1, [], []⟩ [thirdSegment] (1 / 3) (fun _ => 1)
      (fun _ b => b.1 ++ b.2) exRows 2 = .ok (t, some b) ∧
    (thirdPhonons cell).runFrom unitCubic (fun (_ : Fin 1) _ => 0) 1 1 thirdPhono3py ⟨⟨1, 2, 3⟩, 1, 1⟩ 1 ⟨1, [], []⟩ [thirdSegment] (1 / 3) (fun _ => 1)
      (fun _ b => b.1 ++ b.2) exRows 2 = .ok (t, some b) ∧
    (withForces (thirdPhonons cell) ⟨3, 1, 1⟩ unitCubic (1 ^ 3 / 1) thirdFc).plus (fun _ => 0) (fun _ => 0) 0 0 0 = 4 := by
  have hone : unitCubic = (1 : Mat3) := by
    funext i j
    simp [unitCubic, Matrix.one_apply]
  obtain ⟨cell, hcell, _⟩ := (C69_volume (1 : Mat3)).1 (by simp)
  rw [← hone] at hcell
  obtain ⟨idx, hp, hi⟩ := thirdSegment_idx
  have hw : ∀ q, SameModLattice cell.reciprocal ((thirdPhonons cell).wrap q) q := fun q => ⟨0, by simp [thirdPhonons, exPhonons]⟩
  have hmesh : ∀ p ∈ (thirdPhonons cell).mesh, OnGrid ⟨3, 1, 1⟩ p := by
    intro p hp
    simp only [thirdPhonons, List.mem_cons, List.not_mem_nil, or_false] at hp
    rcases hp with rfl | rfl | rfl
    · exact ⟨0, 0, 0, by norm_num, by norm_num, by norm_num⟩
    · exact ⟨1, 0, 0, by norm_num, by norm_num, by norm_num⟩
    · exact ⟨2, 0, 0, by norm_num, by norm_num, by norm_num⟩
  have hpath : ∀ p ∈ ([⟨0, 0, 0⟩, ⟨1 / 3, 0, 0⟩] : List (V3 ℝ)), OnGrid ⟨3, 1, 1⟩ p := by
    intro p hp
    simp only [List.mem_cons, List.not_mem_nil, or_false] at hp
    rcases hp with rfl | rfl
    · exact ⟨0, 0, 0, by norm_num, by norm_num, by norm_num⟩
    · exact ⟨1, 0, 0, by norm_num, by norm_num, by norm_num⟩
  have hbig : ∀ b : Nat, (1 : ℝ) / 10 ≤ (b + 1) / 10 := fun b => by
    have : (0 : ℝ) ≤ b := b.cast_nonneg
    linarith
  have hno : ∀ b : Nat, ¬ ((b : ℝ) + 1) / 10 < 0.1 / 109737.31568 := fun b => by
    have := hbig b
    norm_num at this ⊢
    linarith
  have hproc : SameProcesses (thirdPhonons cell) [⟨0, 0, 0⟩, ⟨1 / 3, 0, 0⟩] := by
    refine ⟨fun i hi hm b hb h => absurd h (hno b), fun p hp b hb h => absurd h (hno b), ?_⟩
    intro p hp p2 hp2 b1 _ b2 _ b3 _ s _ q q2 q3 h
    show ((b1 : ℝ) + 1) / 10 * ((b2 + 1) / 10) * ((b3 + 1) / 10) < 0.001 / 109737.31568 ↔
      ((b2 : ℝ) + 1) / 10 < 0.1 / 109737.31568 ∨ ((b3 : ℝ) + 1) / 10 < 0.001 / 109737.31568
    have h1 := hbig b1
    have h2 := hbig b2
    have h3 := hbig b3
    have h12 : (1 : ℝ) / 10 * (1 / 10) ≤ ((b1 : ℝ) + 1) / 10 * ((b2 + 1) / 10) := mul_le_mul h1 h2 (by norm_num) (by linarith)
    have h123 : (1 : ℝ) / 10 * (1 / 10) * (1 / 10) ≤ ((b1 : ℝ) + 1) / 10 * ((b2 + 1) / 10) * ((b3 + 1) / 10) :=
      mul_le_mul h12 h3 (by norm_num) (by nlinarith)
    constructor
    · intro h
      exact absurd (lt_of_le_of_lt h123 h) (by norm_num)
    · rintro (h | h)
      · exact absurd h (hno b2)
      · exact absurd (lt_of_le_of_lt h3 h) (by norm_num)
  have hrun := fun f hf => C194_widths_partial (thirdPhonons cell) unitCubic cubic_apart hcell
    ⟨fun _ _ _ => rfl, fun _ _ _ _ _ => rfl, fun _ _ _ => rfl, fun _ h => by cases h⟩ hw (by show (0 : ℝ) < 1; norm_num) (Or.inl rfl)
    (by norm_num [thirdPhonons, exPhonons]) (by norm_num [thirdPhonons, exPhonons]) (by show 0 < 3; decide) (by show 3 ∣ 3; decide)
    (fun (_ : Fin 1) _ => 0) ⟨3, 1, 1⟩ (by decide) thirdFc 1 1 one_ne_zero f hf (thirdPhonons_grouped cell) hmesh
    ⟨⟨1, 2, 3⟩, 1, 1⟩ ⟨by norm_num, by norm_num, by norm_num⟩ 1 ⟨1, [], []⟩ [thirdSegment] (1 / 3) _ hp hpath idx hi hproc (fun _ => 1)
    (fun _ => one_pos) (fun _ b => b.1 ++ b.2) (fun _ b => ⟨b.1, List.Perm.refl _, rfl⟩) exRows (by simp [exRows])
    2 (by decide) (by simp) (by simp [thirdPhonons]) (by show ((2 * 3 : Nat) : Int) ≤ intMax; decide)
    (by show ((3 * 3 : Nat) : Int) ≤ intMax; decide) (by show ((3 * 3 * 3 : Nat) : Int) ≤ intMax; decide)
  obtain ⟨t, b, h1, _⟩ := hrun thirdSheng (Or.inl thirdSheng_input)
  refine ⟨cell, t, b, hcell, h1, ?_, ?_⟩
  · rw [← h1]
    exact C194_same_partial (thirdPhonons cell) unitCubic cubic_apart hcell hw (fun (_ : Fin 1) _ => 0) ⟨3, 1, 1⟩ (by decide) thirdFc 1 1 one_ne_zero _ _
      (Or.inr thirdPhono3py_input) (Or.inl thirdSheng_input) (thirdPhonons_grouped cell) hmesh _ _ (fun pts h => by
        rw [hp, Outcome.ok.injEq] at h
        exact h ▸ hpath) _ _ _ _ _ _ _
  · have hmean : ∀ (q : Vec3) (g : Nat → ℝ), modeMean (thirdPhonons cell) q g 0 = g 0 := by
      intro q g
      unfold modeMean
      have hs : ((Finset.range (thirdPhonons cell).bands).filter fun b' => |(thirdPhonons cell).H.energy q b' - (thirdPhonons cell).H.energy q 0| < 1 / 1000000) = {0} := by
        ext j
        rw [Finset.mem_filter, Finset.mem_singleton]
        constructor
        · exact fun h => flat_apart h.2
        · rintro rfl
          exact ⟨by show 0 ∈ Finset.range 3; decide, by simp⟩
      simp only
      rw [Finset.filter_congr_decidable, hs]
      simp
    unfold withForces tripleMean
    simp only [hmean]
    rw [if_pos ⟨by show 0 < 3; decide, by show 0 < 3; decide, by show 0 < 3; decide⟩]
    have hc : superCoupling ⟨3, 1, 1⟩ unitCubic (1 ^ 3 / 1) thirdFc 1 (fun _ => 0) (fun i => (fun (_ : Fin 3) => (0 : ℝ)) i + (fun (_ : Fin 3) => (0 : ℝ)) i)
        (fun a => (thirdPhonons cell).H.vector (fun _ => 0) a 0) (fun a => (thirdPhonons cell).H.vector (fun _ => 0) a 0)
        (fun a => (thirdPhonons cell).H.vector (fun i => (fun (_ : Fin 3) => (0 : ℝ)) i + (fun (_ : Fin 3) => (0 : ℝ)) i) a 0) = 2 := by
      have hs : superCells ⟨3, 1, 1⟩ = {(0, 0, 0), (1, 0, 0), (2, 0, 0)} := by decide
      unfold superCoupling scal
      simp only [hs, Finset.univ_unique, Finset.sum_singleton, Fin.sum_univ_three]
      simp [thirdPhonons, thirdFc]
      norm_num
    rw [hc]
    norm_num [Complex.normSq_apply]

/-! ## Violations -/

/-- **C194 is violated** by files of ShengBTE with other numbers of second than of third cells: for these triplets, which share the same force constants, the run
accesses memory outside of the tensor. -/
theorem C194_violated_cells : SharedAmong ⟨2, 1, 1⟩ sampleFc (tiedTriplets.take 2) ∧ ListedOnce (tiedTriplets.take 2) ∧
    ∀ (P : PathPhApp) (u : FileUnits) (ang : ℝ) (c : AtomsView) (segs : List Segment) (delta : ℝ) (batch : Nat → Int)
      (sched : Nat → List FullStore × List FullStore → List FullStore) (sweep : Sweep) (size : Nat),
      P.runFrom unitCubic (fun (_ : Fin 1) _ => 0) 1 1 ⟨"FORCE_CONSTANTS_3RD".toList, [], true,
        shengFile ((tiedTriplets.take 2).map (LatticeTriplet.inAngstrom unitCubic 1)), [], sampleFile⟩ u ang c segs delta batch sched sweep size = .ub := by
  refine ⟨C193_violated_cells.1, C193_violated_cells.2.1, fun P u ang c segs delta batch sched sweep size => ?_⟩
  unfold PathPhApp.runFrom parseThird
  rw [if_neg (by decide), C193_violated_cells.2.2]
  rfl

/-- **C194 is violated** by the names of the files: a file of ShengBTE in a directory whose name contains `hdf5` is taken for one of phono3py, and refused. -/
theorem C194_violated_name : ∃ f : ThirdInput, f.triplets = thirdSheng.triplets ∧ f.name = "hdf5/FORCE_CONSTANTS_3RD".toList ∧
    ∀ (P : PathPhApp) (u : FileUnits) (ang : ℝ) (c : AtomsView) (segs : List Segment) (delta : ℝ) (batch : Nat → Int)
      (sched : Nat → List FullStore × List FullStore → List FullStore) (sweep : Sweep) (size : Nat),
      P.runFrom unitCubic (fun (_ : Fin 1) _ => 0) 1 1 f u ang c segs delta batch sched sweep size = .error :=
  ⟨{ thirdSheng with name := "hdf5/FORCE_CONSTANTS_3RD".toList }, rfl, rfl, fun P u ang c segs delta batch sched sweep size =>
    C194_refused P _ _ _ _ _ (by decide) rfl u ang c segs delta batch sched sweep size⟩

/-! ### Images on the border of the Wigner-Seitz cell -/

theorem tied_value (w3 : V3 Int → Fin 1 → Fin 1 → ℝ) (hz : ∀ n : V3 Int, ¬ (n.y = 0 ∧ n.z = 0 ∧ (n.x = 0 ∨ n.x = 1 ∨ n.x = -1)) → w3 n 0 0 = 0)
    (s : ℝ) (q2 q3 : Vec3) (h2 : q2 = fun _ => 0) (h3 : q3 = fun _ => 0) (e1 e2 e3 : Nat → ℂ) :
    weightedCoupling ⟨2, 1, 1⟩ (latVec unitCubic) (pairWeight unitCubic (fun (_ : Fin 1) _ => 0) ⟨2, 1, 1⟩) w3 (1 ^ 3 / 1) sampleFc s q2 q3 e1 e2 e3 =
      e1 0 * e2 0 * (starRingEnd ℂ) (e3 0) * ((2 * (w3 ⟨-1, 0, 0⟩ 0 0 + w3 ⟨1, 0, 0⟩ 0 0) : ℝ) : ℂ) := by
  subst h2 h3
  unfold weightedCoupling scal
  simp only [Finset.univ_unique, Finset.sum_singleton, Fin.sum_univ_three]
  simp only [sampleFc]
  simp
  left
  refine Eq.trans (Finset.sum_congr rfl fun n _ => box_sum (fun m => ((if m.x % 2 = 1 then
    pairWeight unitCubic (fun (_ : Fin 1) _ => 0) ⟨2, 1, 1⟩ ⟨n.1, n.2.1, n.2.2⟩ 0 0 * w3 m 0 0 else 0 : ℝ) : ℂ)) ?_) ?_
  · intro m hm
    simp [hz m hm]
  · refine Eq.trans (box_sum (fun n => (((if (-1 : ℤ) % 2 = 1 then pairWeight unitCubic (fun (_ : Fin 1) _ => 0) ⟨2, 1, 1⟩ n 0 0 * w3 ⟨-1, 0, 0⟩ 0 0 else 0 : ℝ) : ℂ) +
      ((if (0 : ℤ) % 2 = 1 then pairWeight unitCubic (fun (_ : Fin 1) _ => 0) ⟨2, 1, 1⟩ n 0 0 * w3 ⟨0, 0, 0⟩ 0 0 else 0 : ℝ) : ℂ) +
      ((if (1 : ℤ) % 2 = 1 then pairWeight unitCubic (fun (_ : Fin 1) _ => 0) ⟨2, 1, 1⟩ n 0 0 * w3 ⟨1, 0, 0⟩ 0 0 else 0 : ℝ) : ℂ))) ?_) ?_
    · intro n hn
      have : pairWeight unitCubic (fun (_ : Fin 1) _ => 0) ⟨2, 1, 1⟩ n 0 0 = 0 := by
        rw [weights_two]
        split_ifs with a1 a2 a3
        · exact absurd ⟨a1.1, a1.2, Or.inl a2⟩ hn
        · exact absurd ⟨a1.1, a1.2, Or.inr a3⟩ hn
        · rfl
        · rfl
      simp [this]
    · simp only [weights_two]
      norm_num
      push_cast
      ring

/-- The same phonons, that scatter with those at the center of the zone. -/
noncomputable def tiedPhonons (cell : Cell) : PathPhApp := { thirdPhonons cell with mesh := [⟨0, 0, 0⟩] }

/-- The linewidth of the first phonon at the center of the zone, per squared coupling with two others of the first band. -/
noncomputable def tiedFactor (T : ℝ) : ℝ :=
  let e : ℝ := ((0 : Nat) + 1) / 10
  let n := boseOccupation e T
  Real.pi / 8 * (1 / (e * e * e) * (n * n * (n + 1)) * gaussianSmearing 1 (e + e - e) +
    1 / (e * e * e) * (n * n * (n + 1) * gaussianSmearing 1 (e + e - e) + n * n * (n + 1) * gaussianSmearing 1 (e + e - e))) / (n * (n + 1))

theorem tiedFactor_pos {T : ℝ} (hT : 0 < T) : 0 < tiedFactor T := by
  have hn := bose_pos (e := ((0 : Nat) + 1) / 10) (by norm_num) hT
  have hpi := Real.pi_pos
  have hg : 0 < gaussianSmearing 1 (((0 : Nat) + 1 : ℝ) / 10 + ((0 : Nat) + 1) / 10 - ((0 : Nat) + 1) / 10) := by
    have hp := gaussian_prefactor_pos (w := 1) one_pos
    unfold gaussianSmearing
    simp only
    rw [if_neg (by norm_num)]
    positivity
  unfold tiedFactor
  simp only
  have he : (0 : ℝ) < ((0 : Nat) + 1) / 10 := by norm_num
  positivity

theorem tied_mean (cell : Cell) (p m : Vec3 → Vec3 → Nat → Nat → Nat → ℝ) (q : Vec3) (g : Nat → ℝ) (b : Nat) (hb : b < 3) :
    modeMean { tiedPhonons cell with plus := p, minus := m } q g b = g b := by
  unfold modeMean
  have hs : ((Finset.range (tiedPhonons cell).bands).filter fun b' => |(tiedPhonons cell).H.energy q b' - (tiedPhonons cell).H.energy q b| < 1 / 1000000) = {b} := by
    ext j
    rw [Finset.mem_filter, Finset.mem_singleton]
    constructor
    · exact fun h => flat_apart h.2
    · rintro rfl
      exact ⟨Finset.mem_range.mpr hb, by simp⟩
  simp only
  rw [Finset.filter_congr_decidable, hs]
  simp

theorem tied_triple (cell : Cell) (q1 q2 q3 : Vec3) (f : Nat → Nat → Nat → ℝ) (b1 b2 b3 : Nat) (h1 : b1 < 3) (h2 : b2 < 3) (h3 : b3 < 3) :
    tripleMean (tiedPhonons cell) q1 q2 q3 f b1 b2 b3 = f b1 b2 b3 := by
  have h := fun q g b hb => tied_mean cell (tiedPhonons cell).plus (tiedPhonons cell).minus q g b hb
  unfold tripleMean
  refine (h _ _ b3 h3).trans ((h _ _ b2 h2).trans (h _ _ b1 h1))

theorem tied_grouped (cell : Cell) (N : V3 Int) (d : Mat3) : GroupedModes (tiedPhonons cell) N d := by
  intro q _
  refine ⟨fun i j hij _ => ?_, fun i j k _ _ _ h1 h2 => ?_⟩
  · show ((i : ℝ) + 1) / 10 ≤ (j + 1) / 10
    have : (i : ℝ) ≤ j := by exact_mod_cast hij
    linarith
  · have e1 := flat_apart h1
    have e2 := flat_apart h2
    subst e1 e2
    simp

theorem tied_width (cell : Cell) (p m : Vec3 → Vec3 → Nat → Nat → Nat → ℝ) (T c : ℝ)
    (hp : ∀ b2 < 3, ∀ b3 < 3, p (fun _ => 0) (fun _ => 0) 0 b2 b3 = if b2 = 0 ∧ b3 = 0 then c else 0)
    (hm : ∀ b2 < 3, ∀ b3 < 3, m (fun _ => 0) (fun _ => 0) 0 b2 b3 = if b2 = 0 ∧ b3 = 0 then c else 0) :
    phononWidth { tiedPhonons cell with plus := p, minus := m } T (cartesianOf cell.reciprocal ⟨0, 0, 0⟩) 0 = c * tiedFactor T := by
  have h0 : cartesianOf cell.reciprocal ⟨0, 0, 0⟩ = fun _ => 0 := by
    funext i
    simp [cartesianOf]
  have hno : ∀ b : Nat, ¬ ((b : ℝ) + 1) / 10 < 0.1 / 109737.31568 := fun b => by
    have h1 : (0 : ℝ) ≤ b := b.cast_nonneg
    have h2 : (0.1 / 109737.31568 : ℝ) < 1 / 10 := by norm_num
    linarith
  have hno' : ∀ b : Nat, ¬ ((b : ℝ) + 1) / 10 < 0.001 / 109737.31568 := fun b => by
    have h1 : (0 : ℝ) ≤ b := b.cast_nonneg
    have h2 : (0.001 / 109737.31568 : ℝ) < 1 / 10 := by norm_num
    linarith
  unfold phononWidth
  rw [tied_mean _ _ _ _ _ _ (by decide), h0]
  have hedge : edgeWidth { tiedPhonons cell with plus := p, minus := m } (fun _ => 0) 0 = 0 := rfl
  rw [hedge, add_zero]
  have hco : ∀ b2 < 3, ∀ b3 < 3, coalescence { tiedPhonons cell with plus := p, minus := m } T (fun _ => 0) 0 (fun _ => 0) b2 b3 =
      if b2 = 0 ∧ b3 = 0 then coalescence { tiedPhonons cell with plus := fun _ _ _ _ _ => c, minus := m } T (fun _ => 0) 0 (fun _ => 0) 0 0 else 0 := by
    intro b2 h2 b3 h3
    by_cases h : b2 = 0 ∧ b3 = 0
    · obtain ⟨rfl, rfl⟩ := h
      rw [if_pos ⟨rfl, rfl⟩]
      unfold coalescence
      simp only
      rw [if_neg (by exact hno' 0), if_neg (by exact hno' 0), hp 0 h2 0 h3, if_pos ⟨rfl, rfl⟩]
      rfl
    · rw [if_neg h]
      unfold coalescence
      simp only
      rw [if_neg (by exact hno' b3), hp b2 h2 b3 h3, if_neg h, zero_div, zero_mul, zero_mul]
  have hde : ∀ b2 < 3, ∀ b3 < 3, decay { tiedPhonons cell with plus := p, minus := m } T (fun _ => 0) 0 (fun _ => 0) b2 b3 =
      if b2 = 0 ∧ b3 = 0 then decay { tiedPhonons cell with plus := p, minus := fun _ _ _ _ _ => c } T (fun _ => 0) 0 (fun _ => 0) 0 0 else 0 := by
    intro b2 h2 b3 h3
    by_cases h : b2 = 0 ∧ b3 = 0
    · obtain ⟨rfl, rfl⟩ := h
      rw [if_pos ⟨rfl, rfl⟩]
      unfold decay
      simp only
      rw [if_neg (by exact hno' 0), if_neg (by exact hno' 0), hm 0 h2 0 h3, if_pos ⟨rfl, rfl⟩]
      rfl
    · rw [if_neg h]
      unfold decay
      simp only
      rw [if_neg (by exact hno' b3), hm b2 h2 b3 h3, if_neg h, zero_div, zero_mul]
  have hrate : phononRate { tiedPhonons cell with plus := p, minus := m } T (fun _ => 0) 0 = Real.pi / 8 *
      (coalescence { tiedPhonons cell with plus := fun _ _ _ _ _ => c, minus := m } T (fun _ => 0) 0 (fun _ => 0) 0 0 +
        decay { tiedPhonons cell with plus := p, minus := fun _ _ _ _ _ => c } T (fun _ => 0) 0 (fun _ => 0) 0 0) := by
    have hval : phononRate { tiedPhonons cell with plus := p, minus := m } T (fun _ => 0) 0 =
        ((∑ b2 ∈ Finset.range 3, stateTerm { tiedPhonons cell with plus := p, minus := m } T (fun _ => 0) 0 (cartesianOf cell.reciprocal ⟨0, 0, 0⟩) b2) + 0) / 1 := by
      unfold phononRate
      rw [if_neg (by exact hno 0)]
      have hl : (((tiedPhonons cell).mesh.length : Nat) : ℝ) = 1 := by simp [tiedPhonons]
      show _ / (((tiedPhonons cell).mesh.length : Nat) : ℝ) = _
      rw [hl]
      rfl
    rw [hval, h0, add_zero, div_one]
    have hst : ∀ b2 ∈ Finset.range 3, stateTerm { tiedPhonons cell with plus := p, minus := m } T (fun _ => 0) 0 (fun _ => 0) b2 =
        if b2 = 0 then Real.pi / 8 *
          (coalescence { tiedPhonons cell with plus := fun _ _ _ _ _ => c, minus := m } T (fun _ => 0) 0 (fun _ => 0) 0 0 +
            decay { tiedPhonons cell with plus := p, minus := fun _ _ _ _ _ => c } T (fun _ => 0) 0 (fun _ => 0) 0 0) else 0 := by
      intro b2 hb2
      rw [Finset.mem_range] at hb2
      unfold stateTerm
      rw [if_neg (by exact hno b2)]
      have hiso : isotopes { tiedPhonons cell with plus := p, minus := m } T (fun _ => 0) 0 (fun _ => 0) b2 = 0 := rfl
      rw [hiso, mul_zero, add_zero]
      have hsum : (∑ b3 ∈ Finset.range 3, (coalescence { tiedPhonons cell with plus := p, minus := m } T (fun _ => 0) 0 (fun _ => 0) b2 b3 +
          decay { tiedPhonons cell with plus := p, minus := m } T (fun _ => 0) 0 (fun _ => 0) b2 b3)) = if b2 = 0 then
          (coalescence { tiedPhonons cell with plus := fun _ _ _ _ _ => c, minus := m } T (fun _ => 0) 0 (fun _ => 0) 0 0 +
            decay { tiedPhonons cell with plus := p, minus := fun _ _ _ _ _ => c } T (fun _ => 0) 0 (fun _ => 0) 0 0) else 0 := by
        rw [Finset.sum_range_succ, Finset.sum_range_succ, Finset.sum_range_one]
        simp only [hco b2 hb2 _ (show 0 < 3 by decide), hco b2 hb2 _ (show 1 < 3 by decide), hco b2 hb2 _ (show 2 < 3 by decide),
          hde b2 hb2 _ (show 0 < 3 by decide), hde b2 hb2 _ (show 1 < 3 by decide), hde b2 hb2 _ (show 2 < 3 by decide)]
        by_cases h : b2 = 0 <;> simp [h]
      refine (congrArg (Real.pi / 8 * ·) hsum).trans ?_
      by_cases h : b2 = 0 <;> simp [h]
    rw [Finset.sum_congr rfl hst]
    simp
  rw [hrate]
  have hc : coalescence { tiedPhonons cell with plus := fun _ _ _ _ _ => c, minus := m } T (fun _ => 0) 0 (fun _ => 0) 0 0 =
      c / ((((0 : Nat) : ℝ) + 1) / 10 * ((((0 : Nat) : ℝ) + 1) / 10) * ((((0 : Nat) : ℝ) + 1) / 10)) *
        (boseOccupation ((((0 : Nat) : ℝ) + 1) / 10) T * boseOccupation ((((0 : Nat) : ℝ) + 1) / 10) T * (boseOccupation ((((0 : Nat) : ℝ) + 1) / 10) T + 1)) *
        gaussianSmearing 1 ((((0 : Nat) : ℝ) + 1) / 10 + (((0 : Nat) : ℝ) + 1) / 10 - (((0 : Nat) : ℝ) + 1) / 10) := by
    unfold coalescence
    simp only
    rw [if_neg (by exact hno' 0)]
    rfl
  have hd : decay { tiedPhonons cell with plus := p, minus := fun _ _ _ _ _ => c } T (fun _ => 0) 0 (fun _ => 0) 0 0 =
      c / ((((0 : Nat) : ℝ) + 1) / 10 * ((((0 : Nat) : ℝ) + 1) / 10) * ((((0 : Nat) : ℝ) + 1) / 10)) *
        (boseOccupation ((((0 : Nat) : ℝ) + 1) / 10) T * boseOccupation ((((0 : Nat) : ℝ) + 1) / 10) T * (boseOccupation ((((0 : Nat) : ℝ) + 1) / 10) T + 1) *
          gaussianSmearing 1 ((((0 : Nat) : ℝ) + 1) / 10 + (((0 : Nat) : ℝ) + 1) / 10 - (((0 : Nat) : ℝ) + 1) / 10) +
        boseOccupation ((((0 : Nat) : ℝ) + 1) / 10) T * boseOccupation ((((0 : Nat) : ℝ) + 1) / 10) T * (boseOccupation ((((0 : Nat) : ℝ) + 1) / 10) T + 1) *
          gaussianSmearing 1 ((((0 : Nat) : ℝ) + 1) / 10 + (((0 : Nat) : ℝ) + 1) / 10 - (((0 : Nat) : ℝ) + 1) / 10)) := by
    unfold decay
    simp only
    rw [if_neg (by exact hno' 0)]
    rfl
  rw [hc, hd]
  show _ / (boseOccupation ((((0 : Nat) : ℝ) + 1) / 10) T * (boseOccupation ((((0 : Nat) : ℝ) + 1) / 10) T + 1)) = _
  unfold tiedFactor
  simp only
  ring

theorem tied_super (s : ℝ) (q2 q3 : Vec3) (h2 : q2 = fun _ => 0) (h3 : q3 = fun _ => 0) (e1 e2 e3 : Nat → ℂ) :
    superCoupling ⟨2, 1, 1⟩ unitCubic (1 ^ 3 / 1) sampleFc s q2 q3 e1 e2 e3 = e1 0 * e2 0 * (starRingEnd ℂ) (e3 0) * 2 := by
  subst h2 h3
  have hs : superCells ⟨2, 1, 1⟩ = {(0, 0, 0), (1, 0, 0)} := by decide
  unfold superCoupling scal
  simp only [hs, Finset.univ_unique, Finset.sum_singleton, Fin.sum_univ_three]
  simp [sampleFc]

/-- The squared modulus for modes along the axes. -/
theorem tied_square (b2 b3 : Nat) (x : ℝ) (z w : ℂ) (hz : z = if 0 = b2 then 1 else 0) (hw : w = if 0 = b3 then 1 else 0) :
    Complex.normSq ((if 0 = 0 then 1 else 0) * z * (starRingEnd ℂ) w * (x : ℂ)) = if b2 = 0 ∧ b3 = 0 then x ^ 2 else 0 := by
  subst hz hw
  by_cases h2 : b2 = 0 <;> by_cases h3 : b3 = 0
  · simp [h2, h3, Complex.normSq_ofReal, sq]
  · simp [h2, h3, Ne.symm h3]
  · simp [h2, h3, Ne.symm h2]
  · simp [h2, h3, Ne.symm h2]

theorem tied_weight_zero (n : V3 Int) (hn : ¬ (n.y = 0 ∧ n.z = 0 ∧ (n.x = 0 ∨ n.x = 1 ∨ n.x = -1))) :
    pairWeight unitCubic (fun (_ : Fin 1) _ => 0) ⟨2, 1, 1⟩ n 0 0 ^ 2 = 0 := by
  rw [weights_two]
  split_ifs with a1 a2 a3
  · exact absurd ⟨a1.1, a1.2, Or.inl a2⟩ hn
  · exact absurd ⟨a1.1, a1.2, Or.inr a3⟩ hn
  · norm_num
  · norm_num

/-- With the files of phono3py the couplings of modes along the first axis are 1. -/
theorem tied_phono3py : ∃ o : Coupling3Ph,
    parsePhono3py unitCubic (fun (_ : Fin 1) _ => 0) 1 1 true (sampleDisp ⟨2, 1, 1⟩ unitCubic (fun (_ : Fin 1) _ => 0) [⟨0, 0, 0⟩, ⟨1, 0, 0⟩] 1).lines
      sampleFile = .ok o ∧
    ∀ (cell : Cell), ∀ b2 < 3, ∀ b3 < 3, ((tiedPhonons cell).withThird o).plus (fun _ => 0) (fun _ => 0) 0 b2 b3 = (if b2 = 0 ∧ b3 = 0 then 1 else 0) ∧
      ((tiedPhonons cell).withThird o).minus (fun _ => 0) (fun _ => 0) 0 b2 b3 = if b2 = 0 ∧ b3 = 0 then 1 else 0 := by
  obtain ⟨o, h1, h2⟩ := C150_squared_weight (by decide) unitCubic cubic_apart (fun (_ : Fin 1) _ => 0) ⟨2, 1, 1⟩ _ sample_order (by decide)
    (fun b b' => cubic_clear _ (by decide) _ (by funext i; simp)) (fun _ _ => 0) 1 1 _ (sample_describes _ _ _ _ _ one_ne_zero) true
    (Or.inl rfl) sampleFc sample_periodic sampleFile sample_file
  refine ⟨o, h1, fun cell b2 hb2 b3 hb3 => ?_⟩
  have hfit : ∀ q : Vec3, q = (fun _ => 0) → FitsSupercell ⟨2, 1, 1⟩ unitCubic q := by
    rintro q rfl k
    exact ⟨0, by simp [scal]⟩
  have ha : (fun i => (fun (_ : Fin 3) => (0 : ℝ)) i + (fun (_ : Fin 3) => (0 : ℝ)) i) = fun _ => 0 := by funext i; simp
  have hs : (fun i => (fun (_ : Fin 3) => (0 : ℝ)) i - (fun (_ : Fin 3) => (0 : ℝ)) i) = fun _ => 0 := by funext i; simp
  let x : CouplingInput := ⟨fun _ => 0, (tiedPhonons cell).H.vector fun _ => 0, (tiedPhonons cell).H.vector fun i => (fun (_ : Fin 3) => (0 : ℝ)) i + (fun (_ : Fin 3) => (0 : ℝ)) i,
    (tiedPhonons cell).H.vector fun i => (fun (_ : Fin 3) => (0 : ℝ)) i - (fun (_ : Fin 3) => (0 : ℝ)) i, 3, 3, 3⟩
  have hg : ∃ res, getCouplingsSquared (o.cacheD3 fun _ => 0) [x] (fun _ => 0) ((tiedPhonons cell).H.vector fun _ => 0) 3 = .ok res := by
    unfold getCouplingsSquared
    rw [if_neg (by simp)]
    exact ⟨_, rfl⟩
  obtain ⟨res, hr⟩ := hg
  obtain ⟨hl, hc⟩ := h2 [x] (fun _ => 0) _ 3 res hr
  obtain ⟨t, rfl⟩ := List.length_eq_one_iff.mp hl
  obtain ⟨⟨a0, a1, a2, av⟩, ⟨c0, c1, c2, cv⟩⟩ := hc 0 x t rfl rfl
  have hpair : (tiedPhonons cell).pairCouplings o (fun _ => 0) (fun _ => 0) =
      .ok (t.1.averaged ((tiedPhonons cell).H.energy fun _ => 0) ((tiedPhonons cell).H.energy fun _ => 0)
        ((tiedPhonons cell).H.energy fun i => (fun (_ : Fin 3) => (0 : ℝ)) i + (fun (_ : Fin 3) => (0 : ℝ)) i),
        t.2.averaged ((tiedPhonons cell).H.energy fun _ => 0) ((tiedPhonons cell).H.energy fun _ => 0)
        ((tiedPhonons cell).H.energy fun i => (fun (_ : Fin 3) => (0 : ℝ)) i - (fun (_ : Fin 3) => (0 : ℝ)) i)) := by
    unfold PathPhApp.pairCouplings
    simp only [Outcome.bind_eq]
    have hr' : getCouplingsSquared (o.cacheD3 fun _ => 0) [⟨fun _ => 0, (tiedPhonons cell).H.vector fun _ => 0,
        (tiedPhonons cell).H.vector fun i => (fun (_ : Fin 3) => (0 : ℝ)) i + (fun (_ : Fin 3) => (0 : ℝ)) i,
        (tiedPhonons cell).H.vector fun i => (fun (_ : Fin 3) => (0 : ℝ)) i - (fun (_ : Fin 3) => (0 : ℝ)) i,
        (tiedPhonons cell).bands, (tiedPhonons cell).bands, (tiedPhonons cell).bands⟩] (fun _ => 0) ((tiedPhonons cell).H.vector fun _ => 0)
        (tiedPhonons cell).bands = .ok [t] := hr
    rw [hr', Outcome.bind_ok]
    rfl
  have hw : 2 * (pairWeight unitCubic (fun (_ : Fin 1) _ => 0) ⟨2, 1, 1⟩ ⟨-1, 0, 0⟩ 0 0 ^ 2 + pairWeight unitCubic (fun (_ : Fin 1) _ => 0) ⟨2, 1, 1⟩ ⟨1, 0, 0⟩ 0 0 ^ 2) = 1 := by
    rw [weights_two, weights_two]
    norm_num
  constructor
  · show (match (tiedPhonons cell).pairCouplings o (fun _ => 0) (fun _ => 0) with | .ok c => c.1 0 b2 b3 | _ => 0) = _
    rw [hpair]
    refine (averaged_val (tiedPhonons cell) (tied_grouped cell ⟨2, 1, 1⟩ unitCubic) (hfit _ rfl) (hfit _ rfl) (hfit _ ha) t.1 ⟨a0, a1, a2⟩ _ av 0 b2 b3).trans ?_
    rw [if_pos ⟨by show 0 < 3; decide, hb2, hb3⟩, tied_triple cell _ _ _ _ 0 b2 b3 (by decide) hb2 hb3]
    rw [tied_value _ tied_weight_zero _ _ _ rfl ha, hw]
    refine (tied_square b2 b3 1 _ _ rfl rfl).trans ?_
    simp
  · show (match (tiedPhonons cell).pairCouplings o (fun _ => 0) (fun _ => 0) with | .ok c => c.2 0 b2 b3 | _ => 0) = _
    rw [hpair]
    refine (averaged_val (tiedPhonons cell) (tied_grouped cell ⟨2, 1, 1⟩ unitCubic) (hfit _ rfl) (hfit _ rfl) (hfit _ hs) t.2 ⟨c0, c1, c2⟩ _ cv 0 b2 b3).trans ?_
    rw [if_pos ⟨by show 0 < 3; decide, hb2, hb3⟩, tied_triple cell _ _ _ _ 0 b2 b3 (by decide) hb2 hb3]
    rw [tied_value _ tied_weight_zero _ _ _ rfl hs, hw]
    refine (tied_square b2 b3 1 _ _ ?_ rfl).trans ?_
    · show (starRingEnd ℂ) (if 0 = b2 then 1 else 0) = _
      split <;> simp
    · simp

/-- With the file of ShengBTE they are 4. -/
theorem tied_sheng (cell : Cell) (b2 b3 : Nat) (hb2 : b2 < 3) (hb3 : b3 < 3) :
    (withForces (tiedPhonons cell) ⟨2, 1, 1⟩ unitCubic (1 ^ 3 / 1) sampleFc).plus (fun _ => 0) (fun _ => 0) 0 b2 b3 = (if b2 = 0 ∧ b3 = 0 then 4 else 0) ∧
    (withForces (tiedPhonons cell) ⟨2, 1, 1⟩ unitCubic (1 ^ 3 / 1) sampleFc).minus (fun _ => 0) (fun _ => 0) 0 b2 b3 = if b2 = 0 ∧ b3 = 0 then 4 else 0 := by
  have ha : (fun i => (fun (_ : Fin 3) => (0 : ℝ)) i + (fun (_ : Fin 3) => (0 : ℝ)) i) = fun _ => 0 := by funext i; simp
  have hs : (fun i => (fun (_ : Fin 3) => (0 : ℝ)) i - (fun (_ : Fin 3) => (0 : ℝ)) i) = fun _ => 0 := by funext i; simp
  constructor
  · unfold withForces
    simp only
    rw [if_pos ⟨by show 0 < 3; decide, hb2, hb3⟩, tied_triple cell _ _ _ _ 0 b2 b3 (by decide) hb2 hb3, tied_super _ _ _ rfl ha]
    refine Eq.trans (tied_square b2 b3 2 _ _ rfl rfl) ?_
    norm_num
  · unfold withForces
    simp only
    rw [if_pos ⟨by show 0 < 3; decide, hb2, hb3⟩, tied_triple cell _ _ _ _ 0 b2 b3 (by decide) hb2 hb3, tied_super _ _ _ rfl hs]
    refine Eq.trans (tied_square b2 b3 2 _ _ ?_ rfl) ?_
    · show (starRingEnd ℂ) (if 0 = b2 then 1 else 0) = _
      split <;> simp
    · norm_num

noncomputable def halfSegment : Segment := ⟨⟨0, 0, 0⟩, ⟨1 / 2, 0, 0⟩, "G", "X"⟩

theorem halfSegment_idx : ∃ idx, pathPoints [halfSegment] (1 / 2) = .ok [⟨0, 0, 0⟩, ⟨1 / 2, 0, 0⟩] ∧
    highSymIndices [halfSegment] [⟨0, 0, 0⟩, ⟨1 / 2, 0, 0⟩] = .ok idx := by
  have d1 : vdist halfSegment.p1 halfSegment.p0 = 1 / 2 := by
    simp only [vdist, halfSegment]
    rw [← Real.sqrt_sq (show (0 : ℝ) ≤ 1 / 2 by norm_num)]
    congr 1
    rw [Real.sqrt_sq (by norm_num)]
    norm_num
  have n1 : segmentCount halfSegment (1 / 2) = .ok 1 := by
    unfold segmentCount truncInt
    rw [d1]
    norm_num
    decide
  have tail1 : pathTail (1 / 2) halfSegment.p0 [halfSegment] = .ok [halfSegment.p1] := by
    simp only [pathTail, n1, Outcome.bind_eq, Outcome.bind_ok, one_ne_zero, if_false, segmentPoint_zero, vdist_self]
    rw [if_neg (by norm_num)]
    simp [segmentPoint_last halfSegment 1 one_ne_zero]
  have hpath : pathPoints [halfSegment] (1 / 2) = .ok [⟨0, 0, 0⟩, ⟨1 / 2, 0, 0⟩] := by
    unfold pathPoints
    simp only [tail1, Outcome.bind_eq, Outcome.bind_ok]
    rfl
  have hseg : GoodSegment (1 / 2) halfSegment := ⟨by rw [d1], by rw [d1]; norm_num⟩
  obtain ⟨pts, idx, h1, h2, _⟩ := C139_labels_partial (1 / 2) (by norm_num) [halfSegment] (by simp) (by simpa using hseg)
    (by simp [GoodLabels, halfSegment]) (by intro i hi; simp at hi)
  rw [hpath, Outcome.ok.injEq] at h1
  subst h1
  exact ⟨idx, hpath, h2⟩

theorem tied_processes (cell : Cell) (p m : Vec3 → Vec3 → Nat → Nat → Nat → ℝ) (pts : List (V3 ℝ)) :
    SameProcesses { tiedPhonons cell with plus := p, minus := m } pts := by
  have hbig : ∀ b : Nat, (1 : ℝ) / 10 ≤ (b + 1) / 10 := fun b => by
    have : (0 : ℝ) ≤ b := b.cast_nonneg
    linarith
  have hno : ∀ b : Nat, ¬ ((b : ℝ) + 1) / 10 < 0.1 / 109737.31568 := fun b => by
    have := hbig b
    norm_num at this ⊢
    linarith
  refine ⟨fun i hi hm b hb h => absurd h (hno b), fun p hp b hb h => absurd h (hno b), ?_⟩
  intro p hp p2 hp2 b1 _ b2 _ b3 _ s _ q q2 q3 h
  show ((b1 : ℝ) + 1) / 10 * ((b2 + 1) / 10) * ((b3 + 1) / 10) < 0.001 / 109737.31568 ↔
    ((b2 : ℝ) + 1) / 10 < 0.1 / 109737.31568 ∨ ((b3 : ℝ) + 1) / 10 < 0.001 / 109737.31568
  have h1 := hbig b1
  have h2 := hbig b2
  have h3 := hbig b3
  have h12 : (1 : ℝ) / 10 * (1 / 10) ≤ ((b1 : ℝ) + 1) / 10 * ((b2 + 1) / 10) := mul_le_mul h1 h2 (by norm_num) (by linarith)
  have h123 : (1 : ℝ) / 10 * (1 / 10) * (1 / 10) ≤ ((b1 : ℝ) + 1) / 10 * ((b2 + 1) / 10) * ((b3 + 1) / 10) :=
    mul_le_mul h12 h3 (by norm_num) (by nlinarith)
  constructor
  · intro h
    exact absurd (lt_of_le_of_lt h123 h) (by norm_num)
  · rintro (h | h)
    · exact absurd h (hno b2)
    · exact absurd (lt_of_le_of_lt h3 h) (by norm_num)

noncomputable def tiedSheng : ThirdInput :=
  ⟨"FORCE_CONSTANTS_3RD".toList, [], true, shengFile (tiedTriplets.map (LatticeTriplet.inAngstrom unitCubic 1)), [], sampleFile⟩

noncomputable def tiedPhono3py : ThirdInput :=
  ⟨"fc3.hdf5".toList, "phono3py_disp.yaml".toList, true, [], (sampleDisp ⟨2, 1, 1⟩ unitCubic (fun (_ : Fin 1) _ => 0) [⟨0, 0, 0⟩, ⟨1, 0, 0⟩] 1).lines, sampleFile⟩

theorem tiedSheng_input : IsShengInput unitCubic ⟨2, 1, 1⟩ sampleFc 1 tiedSheng :=
  ⟨by unfold tiedSheng; decide, by decide, tiedTriplets, rfl, tied_shared, by unfold ListedOnce tiedTriplets; simp, by simp [tiedTriplets, intMax], numCells_two⟩

/-- **C194 is violated** by supercells with images on the border of the Wigner-Seitz cell: the same force constants of two cells, once in the file of ShengBTE and once in
those of phono3py; with the first the linewidth of a phonon at the center of the zone is four times that with the second. -/
theorem C194_violated_ties : ∃ (cell : Cell) (t t' : TimesOutput) (b b' : BandsFile) (x : ℝ), makeCell unitCubic = .ok cell ∧
    IsShengInput unitCubic ⟨2, 1, 1⟩ sampleFc 1 tiedSheng ∧ PeriodicFc ⟨2, 1, 1⟩ sampleFc ∧
    tiedPhono3py.displacements = (sampleDisp ⟨2, 1, 1⟩ unitCubic (fun (_ : Fin 1) _ => 0) [⟨0, 0, 0⟩, ⟨1, 0, 0⟩] 1).lines ∧
    (sampleDisp ⟨2, 1, 1⟩ unitCubic (fun (_ : Fin 1) _ => 0) [⟨0, 0, 0⟩, ⟨1, 0, 0⟩] 1).Describes ⟨2, 1, 1⟩ unitCubic (fun (_ : Fin 1) _ => 0) [⟨0, 0, 0⟩, ⟨1, 0, 0⟩] 1 ∧
    IsFc3File [⟨0, 0, 0⟩, ⟨1, 0, 0⟩] sampleFc tiedPhono3py.tensor ∧
    (tiedPhonons cell).runFrom unitCubic (fun (_ : Fin 1) _ => 0) 1 1 tiedSheng ⟨⟨1, 2, 3⟩, 1, 1⟩ 1 ⟨1, [], []⟩ [halfSegment] (1 / 2) (fun _ => 1)
      (fun _ b => b.1 ++ b.2) exRows 1 = .ok (t, some b) ∧
    (tiedPhonons cell).runFrom unitCubic (fun (_ : Fin 1) _ => 0) 1 1 tiedPhono3py ⟨⟨1, 2, 3⟩, 1, 1⟩ 1 ⟨1, [], []⟩ [halfSegment] (1 / 2) (fun _ => 1)
      (fun _ b => b.1 ++ b.2) exRows 1 = .ok (t', some b') ∧
    entryOf t.linewidths 0 0 0 = some (4 * x) ∧ entryOf t'.linewidths 0 0 0 = some x ∧ 0 < x := by
  have hone : unitCubic = (1 : Mat3) := by
    funext i j
    simp [unitCubic, Matrix.one_apply]
  obtain ⟨cell, hcell, _⟩ := (C69_volume (1 : Mat3)).1 (by simp)
  rw [← hone] at hcell
  obtain ⟨idx, hp, hi⟩ := halfSegment_idx
  have hw : ∀ q, SameModLattice cell.reciprocal ((tiedPhonons cell).wrap q) q := fun q => ⟨0, by simp [tiedPhonons, thirdPhonons, exPhonons]⟩
  have hmesh : ∀ p ∈ (tiedPhonons cell).mesh, OnGrid ⟨2, 1, 1⟩ p := by
    intro p hp
    simp only [tiedPhonons, List.mem_cons, List.not_mem_nil, or_false] at hp
    rw [hp]
    exact ⟨0, 0, 0, by norm_num, by norm_num, by norm_num⟩
  have hpath : ∀ p ∈ ([⟨0, 0, 0⟩, ⟨1 / 2, 0, 0⟩] : List (V3 ℝ)), OnGrid ⟨2, 1, 1⟩ p := by
    intro p hp
    simp only [List.mem_cons, List.not_mem_nil, or_false] at hp
    rcases hp with rfl | rfl
    · exact ⟨0, 0, 0, by norm_num, by norm_num, by norm_num⟩
    · exact ⟨1, 0, 0, by norm_num, by norm_num, by norm_num⟩
  have h0 : cartesianOf cell.reciprocal ⟨0, 0, 0⟩ = fun _ => 0 := by
    funext i
    simp [cartesianOf]
  obtain ⟨t, b, h1, _, h2⟩ := C194_widths_partial (tiedPhonons cell) unitCubic cubic_apart hcell
    ⟨fun _ _ _ => rfl, fun _ _ _ _ _ => rfl, fun _ _ _ => rfl, fun _ h => by cases h⟩ hw (by show (0 : ℝ) < 1; norm_num) (Or.inl rfl)
    (by norm_num [tiedPhonons, thirdPhonons, exPhonons]) (by norm_num [tiedPhonons, thirdPhonons, exPhonons]) (by show 0 < 3; decide) (by show 3 ∣ 3; decide)
    (fun (_ : Fin 1) _ => 0) ⟨2, 1, 1⟩ (by decide) sampleFc 1 1 one_ne_zero tiedSheng (Or.inl tiedSheng_input) (tied_grouped cell _ _) hmesh
    ⟨⟨1, 2, 3⟩, 1, 1⟩ ⟨by norm_num, by norm_num, by norm_num⟩ 1 ⟨1, [], []⟩ [halfSegment] (1 / 2) _ hp hpath idx hi (tied_processes cell _ _ _) (fun _ => 1)
    (fun _ => one_pos) (fun _ b => b.1 ++ b.2) (fun _ b => ⟨b.1, List.Perm.refl _, rfl⟩) exRows (by simp [exRows])
    1 (by decide) (by simp) (by simp [tiedPhonons]) (by show ((2 * 3 : Nat) : Int) ≤ intMax; decide)
    (by show ((1 * 3 : Nat) : Int) ≤ intMax; decide) (by show ((3 * 3 * 3 : Nat) : Int) ≤ intMax; decide)
  have hen : (tiedPhonons cell).exclude ≤ (tiedPhonons cell).H.energy (cartesianOf cell.reciprocal ⟨0, 0, 0⟩) 0 := by
    show (0.1 / 109737.31568 : ℝ) ≤ ((0 : Nat) + 1) / 10
    norm_num
  have hs := (h2 0 (by simp) 0 (by show 0 < 3; decide) 0 ⟨1, 0, 0⟩ rfl hen (Or.inl rfl)).1
  have hws : phononWidth (withForces (tiedPhonons cell) ⟨2, 1, 1⟩ unitCubic (1 ^ 3 / 1) sampleFc) 1 (cartesianOf cell.reciprocal ⟨0, 0, 0⟩) 0 = 4 * tiedFactor 1 :=
    tied_width cell _ _ 1 4 (fun b2 hb2 b3 hb3 => (tied_sheng cell b2 b3 hb2 hb3).1) (fun b2 hb2 b3 hb3 => (tied_sheng cell b2 b3 hb2 hb3).2)
  obtain ⟨o, ho, hval⟩ := tied_phono3py
  let X := cartesianOf cell.reciprocal ⟨1 / 2, 0, 0⟩
  let pl : Vec3 → Vec3 → Nat → Nat → Nat → ℝ := fun q _ => if gapEnergy cell q 0 = 0 then ((tiedPhonons cell).withThird o).plus (fun _ => 0) (fun _ => 0) else
    ((tiedPhonons cell).withThird o).plus X (fun _ => 0)
  let mi : Vec3 → Vec3 → Nat → Nat → Nat → ℝ := fun q _ => if gapEnergy cell q 0 = 0 then ((tiedPhonons cell).withThird o).minus (fun _ => 0) (fun _ => 0) else
    ((tiedPhonons cell).withThird o).minus X (fun _ => 0)
  have g0 : gapEnergy cell (fun _ => 0) 0 = 0 := h0 ▸ gapEnergy_zero cell 0
  have gX : ¬ gapEnergy cell X 0 = 0 := by
    rw [gapEnergy_other hcell (1 / 2) (not_int 0 (by norm_num) (by norm_num)) X (fun i => by simp [X, cartesianOf]; ring)]
    norm_num
  have hperQ : PeriodicPhonons { tiedPhonons cell with plus := pl, minus := mi } := by
    refine ⟨fun _ _ _ => rfl, fun _ _ _ _ _ => rfl, fun k q k' q' h _ => ?_, fun k q k' q' h _ => ?_, fun _ h => by cases h⟩
    · show (if gapEnergy cell k 0 = 0 then _ else _) = (if gapEnergy cell q 0 = 0 then _ else _)
      rw [gapEnergy_periodic cell k q h]
    · show (if gapEnergy cell k 0 = 0 then _ else _) = (if gapEnergy cell q 0 = 0 then _ else _)
      rw [gapEnergy_periodic cell k q h]
  obtain ⟨t', b', r1, _, _, _, _, r2⟩ := C183_file_partial { tiedPhonons cell with plus := pl, minus := mi } hcell hperQ hw (by show (0 : ℝ) < 1; norm_num) (Or.inl rfl)
    (by norm_num [tiedPhonons, thirdPhonons, exPhonons]) (by norm_num [tiedPhonons, thirdPhonons, exPhonons]) (by show 0 < 3; decide) (by show 3 ∣ 3; decide)
    ⟨⟨1, 2, 3⟩, 1, 1⟩ ⟨by norm_num, by norm_num, by norm_num⟩ 1 ⟨1, [], []⟩ [halfSegment] (1 / 2) _ hp idx hi (tied_processes cell _ _ _) (fun _ => 1)
    (fun _ => one_pos) (fun _ b => b.1 ++ b.2) (fun _ b => ⟨b.1, List.Perm.refl _, rfl⟩) exRows (by simp [exRows])
    1 (by decide) (by simp) (by simp [tiedPhonons]) (by show ((2 * 3 : Nat) : Int) ≤ intMax; decide)
    (by show ((1 * 3 : Nat) : Int) ≤ intMax; decide) (by show ((3 * 3 * 3 : Nat) : Int) ≤ intMax; decide)
  have hs' := (((r2 0 (by simp)).2 0 (by show 0 < 3; decide) 0 ⟨1, 0, 0⟩ rfl).2.2.2.2 hen (Or.inl rfl)).1
  have hwp : phononWidth { tiedPhonons cell with plus := pl, minus := mi } 1 (cartesianOf cell.reciprocal ⟨0, 0, 0⟩) 0 = 1 * tiedFactor 1 := by
    refine tied_width cell pl mi 1 1 (fun b2 hb2 b3 hb3 => ?_) (fun b2 hb2 b3 hb3 => ?_)
    · show (if gapEnergy cell (fun _ => 0) 0 = 0 then _ else _ : Nat → Nat → Nat → ℝ) 0 b2 b3 = _
      rw [if_pos g0]
      exact (hval cell b2 hb2 b3 hb3).1
    · show (if gapEnergy cell (fun _ => 0) 0 = 0 then _ else _ : Nat → Nat → Nat → ℝ) 0 b2 b3 = _
      rw [if_pos g0]
      exact (hval cell b2 hb2 b3 hb3).2
  have wave : ∀ (l : List (V3 ℝ)) i, pathWave cell id l i = cartesianOf cell.reciprocal (l.getD i ⟨0, 0, 0⟩) := by
    intro l i
    unfold pathWave cartesianOf Cell.crystalToCartesian
    simp only
    congr 1
  have hj : ∀ j, pathWave cell id [⟨0, 0, 0⟩] j = fun _ => 0 := by
    intro j
    rw [wave, ← h0]
    congr 1
    cases j <;> rfl
  have hi' : ∀ i, pathWave cell id [⟨0, 0, 0⟩, ⟨1 / 2, 0, 0⟩] i = (fun _ => 0) ∨ pathWave cell id [⟨0, 0, 0⟩, ⟨1 / 2, 0, 0⟩] i = X := by
    intro i
    rw [wave]
    rcases i with _ | _ | i
    · exact Or.inl h0
    · exact Or.inr rfl
    · exact Or.inl h0
  have hrun : (tiedPhonons cell).runFrom unitCubic (fun (_ : Fin 1) _ => 0) 1 1 tiedPhono3py ⟨⟨1, 2, 3⟩, 1, 1⟩ 1 ⟨1, [], []⟩ [halfSegment] (1 / 2) (fun _ => 1)
      (fun _ b => b.1 ++ b.2) exRows 1 = .ok (t', some b') := by
    have hparse : parseThird unitCubic (fun (_ : Fin 1) _ => 0) 1 1 tiedPhono3py = .ok o := by
      unfold parseThird tiedPhono3py
      rw [if_pos (by decide), if_neg (by decide)]
      exact ho
    unfold PathPhApp.runFrom
    simp only [Outcome.bind_eq]
    rw [hparse, Outcome.bind_ok, ← r1]
    refine (run_congr ((tiedPhonons cell).withThird o) pl mi [halfSegment] (1 / 2) (fun pts h i j => ?_) (fun pts h i j => ?_) _ _ _ _ _ _ _).symm
    · rw [hp, Outcome.ok.injEq] at h
      subst h
      show pl (pathWave cell id _ i) (pathWave cell id [⟨0, 0, 0⟩] j) = ((tiedPhonons cell).withThird o).plus (pathWave cell id _ i) (pathWave cell id [⟨0, 0, 0⟩] j)
      rw [hj]
      rcases hi' i with h | h <;> rw [h]
      · exact if_pos g0
      · exact if_neg gX
    · rw [hp, Outcome.ok.injEq] at h
      subst h
      show mi (pathWave cell id _ i) (pathWave cell id [⟨0, 0, 0⟩] j) = ((tiedPhonons cell).withThird o).minus (pathWave cell id _ i) (pathWave cell id [⟨0, 0, 0⟩] j)
      rw [hj]
      rcases hi' i with h | h <;> rw [h]
      · exact if_pos g0
      · exact if_neg gX
  refine ⟨cell, t, t', b, b', linewidthEv ⟨1, 2, 3⟩ (1 * tiedFactor 1) * 1000, hcell, tiedSheng_input, sample_periodic, rfl, sample_describes _ _ _ _ _ one_ne_zero,
    sample_file, h1, hrun, ?_, ?_, ?_⟩
  · refine hs.trans ?_
    have : phononWidth (withForces (tiedPhonons cell) ⟨2, 1, 1⟩ unitCubic (1 ^ 3 / 1) sampleFc) 1 (cartesianOf (tiedPhonons cell).cell.reciprocal ⟨0, 0, 0⟩) 0 = 4 * tiedFactor 1 := hws
    simp only [List.getElem_cons_zero]
    rw [this]
    simp only [linewidthEv]
    congr 1
    ring
  · refine hs'.trans ?_
    simp only [List.getElem_cons_zero]
    exact congrArg (fun y => some (linewidthEv ⟨1, 2, 3⟩ y * 1000)) hwp
  · have := tiedFactor_pos (T := 1) one_pos
    simp only [linewidthEv]
    exact mul_pos (div_pos (mul_pos (by linarith) two_pos) (by norm_num)) (by norm_num)

end Verif.Props
