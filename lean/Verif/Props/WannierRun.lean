import Verif.Proofs.WannierRun
import Verif.Props.PathThird

/-!
C195: the electron bands along a path, from the files of Wannier90 to the file of the bands.
-/
namespace Verif.Props
open Verif.Model Verif.Spec Verif.Proofs

variable {W R : Nat}

theorem fileCell_det (ang : ℝ) (c : TbContents W R) : (fileCell ang c).det = ang⁻¹ ^ 3 * (Matrix.of c.cell).det := by
  have : fileCell ang c = ang⁻¹ • (Matrix.of c.cell).transpose := by
    funext i j
    simp [fileCell, div_eq_inv_mul]
  rw [this, Matrix.det_smul, Matrix.det_transpose, Fintype.card_fin]

theorem fileCell_ne {ang : ℝ} (hang : ang ≠ 0) {c : TbContents W R} (hdet : (Matrix.of c.cell).det ≠ 0) : (fileCell ang c).det ≠ 0 := by
  rw [fileCell_det]
  exact mul_ne_zero (pow_ne_zero _ (inv_ne_zero hang)) hdet

/-- **C195** (bands, partial).  For every content of `seedname_tb.dat` with Hermitian matrices, path, order of the threads, size of the batches and number of processes,
the run ends and the first process writes a file; its energies, in eV, are at each point of the path all the eigenvalues, in increasing order, of
`∑ exp(2πi p·n) H(n) / degeneracy(n)` with the elements of the file, so that the units of the program cancel.
Missing: the file of the shifts of the functions (`C195_violated_shifts`); more processes than points, which are refused. -/
theorem C195_bands_partial (A : WannierApp) (pts : List (V3 ℝ)) (hA : GoodWannierApp A W pts) (hhead : A.rank = 0) (hW : 0 < W) (idx : List Nat)
    (hidx : highSymIndices A.segs pts = .ok idx) (pr : Printer) (title : TextLine) (c : TbContents W R) (hdet : (Matrix.of c.cell).det ≠ 0)
    (hH : HermitianContents c) :
    ∃ file, A.run (tbFile pr title c) none = .ok (some file) ∧ file.coordinates = pts.map (fun p => [p.x, p.y, p.z]) ∧ file.particle = "electron" ∧
      file.energyUnit = "eV" ∧ file.numBands = W ∧ file.energies.length = pts.length ∧
      ∀ ik (h : ik < pts.length), ∃ (e : Fin W → ℝ) (u : Matrix (Fin W) (Fin W) ℂ), file.energies[ik]? = some (List.ofFn e) ∧
        IsEigenDecomposition (tbHamiltonian c pts[ik]) e u := by
  have hfdet := fileCell_ne hA.units.2 hdet
  obtain ⟨cell, hcell, _⟩ := (C69_volume (fileCell A.ang c)).1 hfdet
  have hparse := parseWannier_none pr title A.ry A.ang none c
  simp only [Option.getD_none] at hparse
  obtain ⟨at_, hrun⟩ := run_electron A pts hA hW _ none _ _ rfl hparse cell hcell
  obtain ⟨F, f1, f2, f4⟩ := electron_run A.ry A.ang false A.want W (devView (A.eig W) (tbData A.ry A.ang (fileCell A.ang c) c)) cell id at_ A.segs A.delta A.sched A.size
    A.rank pts hA.path hA.processes hA.process hW hA.fits.2.1 hA.fits.2.2 hA.sched
  rw [f4] at hrun
  rw [hhead] at hrun f2
  rw [output_val A.ry A.ang false A.want _ A.segs pts idx hidx f2 (fun h => by simp at h) (fun h => by simp at h), f1] at hrun
  refine ⟨_, hrun, rfl, rfl, rfl, rfl, by simp [fileOf], fun ik h => ?_⟩
  have hr : A.ry ≠ 0 := hA.units.1.ne'
  have hr' : (A.ry : ℂ) ≠ 0 := by exact_mod_cast hr
  have hu := tb_units A.ry A.ang hr c cell hcell pts[ik]
  have hherm : (wannierH A.ry A.ang c (cartesianOf cell.reciprocal pts[ik])).IsHermitian := by
    have : wannierH A.ry A.ang c (cartesianOf cell.reciprocal pts[ik]) = ((A.ry⁻¹ : ℝ) : ℂ) • tbHamiltonian c pts[ik] := by
      rw [hu, smul_smul, ← Complex.ofReal_mul, inv_mul_cancel₀ hr, Complex.ofReal_one, one_smul]
    rw [this]
    unfold Matrix.IsHermitian
    rw [Matrix.conjTranspose_smul, tb_hermitian c hH pts[ik]]
    simp
  obtain ⟨cell', d', hp', hb⟩ := C107_bands_partial pr title A.ry A.ang c
  rw [hparse] at hp'
  have hd' : tbData A.ry A.ang (fileCell A.ang c) c = d' := by
    injection hp' with hp'
    injection hp' with _ _ _ hp'
  subst hd'
  obtain ⟨hb1, _, hb3⟩ := hb (cartesianOf cell.reciprocal pts[ik])
  have hherm' : (blochH (tbData A.ry A.ang (fileCell A.ang c) c) (cartesianOf cell.reciprocal pts[ik])).IsHermitian := by
    rw [hb1]
    exact hherm.transpose
  have hdec := hb3 _ _ hherm (hA.solver _ hherm')
  refine ⟨_, _, ?_, hu ▸ eigen_scale hdec A.ry hA.units.1.le⟩
  simp only [fileOf, List.getElem?_map, List.getElem?_range h, Option.map_some]
  congr 1
  rw [pathWave_eq cell id pts ik h]
  apply List.ext_getElem
  · simp
  · intro b g1 g2
    simp only [List.length_map, List.length_range] at g1
    simp [devView, g1]

/-- **C195** (processes): the other processes write nothing, and their runs end as well. -/
theorem C195_processes (A : WannierApp) (pts : List (V3 ℝ)) (hA : GoodWannierApp A W pts) (hrank : A.rank ≠ 0) (hW : 0 < W) (pr : Printer) (title : TextLine)
    (c : TbContents W R) (hdet : (Matrix.of c.cell).det ≠ 0) : A.run (tbFile pr title c) none = .ok none := by
  have hfdet := fileCell_ne hA.units.2 hdet
  obtain ⟨cell, hcell, _⟩ := (C69_volume (fileCell A.ang c)).1 hfdet
  have hparse := parseWannier_none pr title A.ry A.ang none c
  simp only [Option.getD_none] at hparse
  obtain ⟨at_, hrun⟩ := run_electron A pts hA hW _ none _ _ rfl hparse cell hcell
  obtain ⟨F, f1, f2, f4⟩ := electron_run A.ry A.ang false A.want W (devView (A.eig W) (tbData A.ry A.ang (fileCell A.ang c) c)) cell id at_ A.segs A.delta A.sched A.size
    A.rank pts hA.path hA.processes hA.process hW hA.fits.2.1 hA.fits.2.2 hA.sched
  rw [hrun, f4]
  exact C177_processes _ _ _ _ _ _ _ _ _ hrank

/-- **C195** (refused input): flat cells, atoms without a species in the table, and files of the shifts that were written without shifts stop the run. -/
theorem C195_refused (A : WannierApp) (pr : Printer) (title : TextLine) (c : TbContents W R) :
    ((Matrix.of c.cell).det = 0 → KnownAtoms A.names A.species A.positions → A.run (tbFile pr title c) none = .error) ∧
    (∀ n ns, A.names = n :: ns → (∀ e ∈ elementTable, e.symbol ≠ n) → A.run (tbFile pr title c) none = .error) ∧
    ∀ lines, A.run (tbFile pr title c) (some (false, lines)) = .error := by
  have hparse := parseWannier_none pr title A.ry A.ang none c
  simp only [Option.getD_none] at hparse
  refine ⟨fun hdet hat => ?_, fun n ns hn hk => ?_, fun lines => ?_⟩
  · obtain ⟨⟨ms, hms⟩, _⟩ := atoms_known hat
    have hz : (fileCell A.ang c).det = 0 := by
      rw [fileCell_det, hdet, mul_zero]
    unfold WannierApp.run
    simp only [Outcome.bind_eq]
    rw [hparse, Outcome.bind_ok, hms, Outcome.bind_ok, (C69_volume _).2 hz]
    rfl
  · unfold WannierApp.run
    simp only [Outcome.bind_eq]
    rw [hparse, Outcome.bind_ok, hn]
    have : getMass elementTable n = .error := by
      have : elementTable.find? (fun e => e.symbol == n) = none := by
        rw [List.find?_eq_none]
        intro e he hh
        exact hk e he (by simpa using hh)
      unfold getMass findElementByStr
      rw [this]
      rfl
    unfold wannierMasses
    simp only [mapOutcome, Outcome.bind_eq]
    rw [this]
    rfl
  · unfold WannierApp.run parseWannier
    rw [parseTb_file]
    rfl

/-- **C195 is violated** with the file of the shifts of the Wannier functions, which Wannier90 writes by default: unless there are as many vectors as functions, every
run reads beyond the bounds of the array of matrix elements. -/
theorem C195_violated_shifts (A : WannierApp) (pts : List (V3 ℝ)) (hA : GoodWannierApp A W pts) (hW : 0 < W) (hR : 0 < R) (hne : W ≠ R) (pr : Printer)
    (title title' : TextLine) (c : TbContents W R) (hdet : (Matrix.of c.cell).det ≠ 0) (s : ShiftContents W R)
    (hs : ∀ m n r, 1 ≤ s.count m n r ∧ s.count m n r ≤ 8) (hv : Function.Injective c.vector) (h0 : ∀ r : Fin R, r.1 = 0 → c.vector r ≠ ⟨0, 0, 0⟩) :
    A.run (tbFile pr title c) (some (true, wsVecFile pr title' c s)) = .ub := by
  have hfdet := fileCell_ne hA.units.2 hdet
  obtain ⟨cell, hcell, _⟩ := (C69_volume (fileCell A.ang c)).1 hfdet
  have h8 : ∀ m n r, s.count m n r ≤ 8 := fun m n r => (hs m n r).2
  obtain ⟨d, hd⟩ := addShifts_ok (tbData A.ry A.ang (fileCell A.ang c) c) (fileCell A.ang c) s h8
  have hparse := parseWannier_some pr title title' A.ry A.ang none c s h8 hv h0 d hd
  simp only [Option.getD_none] at hparse
  obtain ⟨F, at_, _, _, h3⟩ := run_populate A pts hA hW _ _ _ d hparse cell hcell
  have hpos : 0 < pts.length := by have := hA.process; have := hA.processes; omega
  have hub : ∀ k, devBloch d k = .ub := C104_violated_bounds (tbData A.ry A.ang (fileCell A.ang c) c) (fileShifts (fileCell A.ang c) s)
    (fun a b r => (hs a b r).1) hW hR hne d hd
  rw [h3]
  obtain ⟨bs, e1, e2, e3, _⟩ := C82_pieces_partial ((List.range pts.length).map Int.ofNat) A.batchSize (by simp; rintro rfl; simp at hpos) hA.batch
    (by simpa using hA.fits.1)
  have hpop : elKokkosPopulate (elKernel (A.eig W) d) ((List.range pts.length).map (pathWave cell id pts)) ((List.range pts.length).map Int.ofNat) A.batchSize = .ub := by
    unfold elKokkosPopulate
    rw [e1]
    simp only [Outcome.bind_eq, Outcome.bind_ok]
    cases bs with
    | nil =>
      have := congrArg List.length e2
      simp at this
      omega
    | cons b bs =>
      have hbne := (e3 b (by simp)).1
      have hle : b.length ≤ pts.length := by
        have := congrArg List.length e2
        simp at this
        omega
      unfold elPopulateLoop
      simp only [Outcome.bind_eq]
      rw [mapOutcome_eq_map (g := fun iik => pathWave cell id pts iik) _ _ fun iik hi => ?_, Outcome.bind_ok]
      · have : elKernel (A.eig W) d ((List.range b.length).map fun iik => pathWave cell id pts iik) = .ub := by
          obtain ⟨n, hn⟩ : ∃ n, b.length = n + 1 := ⟨b.length - 1, by have := List.length_pos_iff.mpr hbne; omega⟩
          rw [hn, List.range_succ_eq_map]
          unfold elKernel
          simp only [List.map_cons, mapOutcome, Outcome.bind_eq]
          rw [hub]
          rfl
        rw [this]
        rfl
      · have := List.mem_range.mp hi
        unfold readAt
        simp [show iik < pts.length by omega]
  rw [hpop]
  rfl

theorem exists_elSolver : ∃ eig : (W : Nat) → ElSolver W, ∀ W, ElSolves (eig W) := by
  classical
  have hdec : ∀ (W : Nat) (d : Matrix (Fin W) (Fin W) ℂ), d.IsHermitian → ∃ (e : Fin W → ℝ) (u : Matrix (Fin W) (Fin W) ℂ), IsEigenDecomposition d e u := by
    intro W d h
    obtain ⟨w, hw⟩ : ∃ w : Matrix (Fin W) (Fin W) ℂ, w = (h.eigenvectorUnitary : Matrix (Fin W) (Fin W) ℂ) := ⟨_, rfl⟩
    have hl : w.conjTranspose * w = 1 := by
      rw [hw]; exact Unitary.coe_star_mul_self h.eigenvectorUnitary
    have hr : w * w.conjTranspose = 1 := by
      rw [hw]; exact Unitary.coe_mul_star_self h.eigenvectorUnitary
    have hd : d * w = w * Matrix.diagonal fun a => (h.eigenvalues a : ℂ) := by
      have h1 : d = w * Matrix.diagonal (fun a => (h.eigenvalues a : ℂ)) * w.conjTranspose := by
        rw [hw]
        exact h.spectral_theorem
      conv_lhs => rw [h1]
      rw [Matrix.mul_assoc, hl, Matrix.mul_one]
    refine ⟨fun b => h.eigenvalues (Tuple.sort h.eigenvalues b), w.submatrix id (Tuple.sort h.eigenvalues), Tuple.monotone_sort h.eigenvalues, ?_, ?_, ?_⟩
    · rw [Matrix.conjTranspose_submatrix, ← Matrix.submatrix_mul _ _ _ _ _ Function.bijective_id, hl, Matrix.submatrix_one_equiv]
    · rw [Matrix.conjTranspose_submatrix, Matrix.submatrix_mul_equiv, hr, Matrix.submatrix_id_id]
    · ext a b
      have := congrFun (congrFun hd a) (Tuple.sort h.eigenvalues b)
      rw [Matrix.mul_diagonal] at this
      rw [Matrix.mul_diagonal]
      exact this
  refine ⟨fun W d => if h : d.IsHermitian then ((hdec W d h).choose, (hdec W d h).choose_spec.choose) else (0, 0), fun W d h => ?_⟩
  beta_reduce
  rw [dif_pos h]
  exact (hdec W d h).choose_spec.choose_spec

/-- The two theorems are about files that exist: two functions and five vectors, with and without images, and two points of a path. -/
theorem wannier_sample (eig : (W : Nat) → ElSolver W) (he : ElSolves (eig 2)) :
    let A : WannierApp := ⟨13, 1 / 2, false, [0], [0], ["C".toList], eig, [halfSegment], 1 / 2, 1, id, 1, 0⟩
    GoodWannierApp A 2 [⟨0, 0, 0⟩, ⟨1 / 2, 0, 0⟩] ∧ (Matrix.of (lineContents 13 (1 / 2)).cell).det ≠ 0 ∧ HermitianContents (lineContents 13 (1 / 2)) := by
  intro A
  obtain ⟨idx, hp, hi⟩ := halfSegment_idx
  refine ⟨⟨⟨by norm_num [A], by norm_num [A]⟩, ⟨?_, rfl, by simp [A]⟩, he, by simp [A], fun l => List.Perm.refl _, hp, by simp [A], by simp [A], by simp, by simp [intMax], by simp [intMax]⟩, ?_, ?_⟩
  · intro n hn
    simp only [A, List.mem_cons, List.not_mem_nil, or_false] at hn
    subst hn
    have h : elementTable.any (fun e => e.symbol == "C".toList) = true := by decide +kernel
    obtain ⟨e, h1, h2⟩ := List.any_eq_true.mp h
    exact ⟨e, h1, by simpa using h2⟩
  · rw [Matrix.det_fin_three]
    simp [lineContents]
  · refine ⟨Fin.revPerm, fun r => ⟨?_, ?_, fun m n => ?_⟩⟩
    · fin_cases r <;> simp [lineContents, Fin.rev]
    · fin_cases r <;> simp [lineContents, Fin.rev]
    · have h13 : (starRingEnd ℂ) 13 = 13 := map_ofNat _ 13
      fin_cases r <;> fin_cases m <;> fin_cases n <;> simp [lineContents, Fin.rev, h13]

example (pr : Printer) : ∃ eig : (W : Nat) → ElSolver W,
    let A : WannierApp := ⟨13, 1 / 2, false, [0], [0], ["C".toList], eig, [halfSegment], 1 / 2, 1, id, 1, 0⟩
    (∃ file, A.run (tbFile pr [] (lineContents 13 (1 / 2))) none = .ok (some file) ∧ file.energies.length = 2) ∧
    A.run (tbFile pr [] (lineContents 13 (1 / 2))) (some (true, wsVecFile pr [] (lineContents 13 (1 / 2)) lineShifts)) = .ub := by
  obtain ⟨eig, he⟩ := exists_elSolver
  refine ⟨eig, ?_⟩
  intro A
  obtain ⟨h1, h2, h3⟩ := wannier_sample eig (he 2)
  obtain ⟨idx, hp, hi⟩ := halfSegment_idx
  obtain ⟨hv, h0⟩ := lineVectors 13 (1 / 2)
  obtain ⟨file, h4, _, _, _, _, h5, _⟩ := C195_bands_partial A _ h1 rfl (by decide) idx hi pr [] _ h2 h3
  exact ⟨⟨file, h4, h5⟩, C195_violated_shifts A _ h1 (by decide) (by decide) (by decide) pr [] [] _ h2 lineShifts (by simp [lineShifts]) hv h0⟩

end Verif.Props
