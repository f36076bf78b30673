import Verif.Proofs.WannierDos
import Verif.Props.WannierRun
import Verif.Props.DosApp

/-!
C196: the electron density of states, from the files of Wannier90 to the file of the density of states.
-/
namespace Verif.Props
open Verif.Model Verif.Spec Verif.Proofs

variable {W R : Nat}

/-- The eigenvalues that the device computes, in eV, are those of the Hamiltonian of the file. -/
theorem device_bands (ry ang : ℝ) (hr : 0 < ry) (eig : ElSolver W)
    (he : ∀ d : Matrix (Fin W) (Fin W) ℂ, d.IsHermitian → IsEigenDecomposition d (eig d).1 (eig d).2) (c : TbContents W R) (hH : HermitianContents c) (cell : Cell)
    (hcell : makeCell (fileCell ang c) = .ok cell) (p : V3 ℝ) :
    ∃ u, IsEigenDecomposition (tbHamiltonian c p)
      (fun b : Fin W => (devView eig (tbData ry ang (fileCell ang c) c)).energy (cartesianOf cell.reciprocal p) b * ry) u := by
  have hu := tb_units ry ang hr.ne' c cell hcell p
  have hherm : (wannierH ry ang c (cartesianOf cell.reciprocal p)).IsHermitian := by
    have : wannierH ry ang c (cartesianOf cell.reciprocal p) = ((ry⁻¹ : ℝ) : ℂ) • tbHamiltonian c p := by
      rw [hu, smul_smul, ← Complex.ofReal_mul, inv_mul_cancel₀ hr.ne', Complex.ofReal_one, one_smul]
    rw [this]
    unfold Matrix.IsHermitian
    rw [Matrix.conjTranspose_smul, tb_hermitian c hH p]
    simp
  obtain ⟨cell', d', hp', hb⟩ := C107_bands_partial plainPrinter [] ry ang c
  have hparse := parseWannier_none plainPrinter [] ry ang none c
  simp only [Option.getD_none] at hparse
  rw [hparse] at hp'
  have hd' : tbData ry ang (fileCell ang c) c = d' := by
    injection hp' with hp'
    injection hp' with _ _ _ hp'
  subst hd'
  obtain ⟨hb1, _, hb3⟩ := hb (cartesianOf cell.reciprocal p)
  have hherm' : (blochH (tbData ry ang (fileCell ang c) c) (cartesianOf cell.reciprocal p)).IsHermitian := by
    rw [hb1]
    exact hherm.transpose
  have hdec := eigen_scale (hb3 _ _ hherm (he _ hherm')) ry hr.le
  rw [← hu] at hdec
  refine ⟨(eig (blochH (tbData ry ang (fileCell ang c) c) (cartesianOf cell.reciprocal p))).2.map (starRingEnd ℂ), ?_⟩
  have e : (fun b : Fin W => (devView eig (tbData ry ang (fileCell ang c) c)).energy (cartesianOf cell.reciprocal p) b * ry) =
      fun b => (eig (blochH (tbData ry ang (fileCell ang c) c) (cartesianOf cell.reciprocal p))).1 b * ry := by
    funext b
    simp [devView]
  rw [e]
  exact hdec

/-- The Hamiltonian of the device is periodic. -/
theorem device_periodic (ry ang : ℝ) (eig : ElSolver W) (c : TbContents W R) (cell : Cell) (hcell : makeCell (fileCell ang c) = .ok cell) (k q : Vec3)
    (h : SameModLattice cell.reciprocal k q) :
    (devView eig (tbData ry ang (fileCell ang c) c)).energy k = (devView eig (tbData ry ang (fileCell ang c) c)).energy q := by
  have hcell' : makeCell (fileCell ang (transposed c)) = .ok cell := hcell
  funext b
  simp only [devView]
  rw [blochH_file, blochH_file, wannierH_periodic ry ang (transposed c) cell hcell' k q h]

theorem constants_ry {k : TimeConstants} (hk : GoodConstants k) : 0 < energyRyToEvOf k := div_pos hk.rydberg hk.electronVolt

theorem rydberg_electrons (k : TimeConstants) : rydbergIn k false = energyRyToEvOf k := by
  simp [rydbergIn, energyRyToEvOf]

/-- **C196** (density of states, partial).  For every content of `seedname_tb.dat` with Hermitian matrices, mesh, window of energies, number of processes, size of the
batches and order of the threads, a run without symmetries ends with a file that lists the energies of the window in eV in equal steps, and at each the density of states
of the tetrahedra, in 1/eV, of bands `w` (in Ry) that at every point of the Brillouin zone are, in eV, all the eigenvalues of the Hamiltonian of the file.
Missing: symmetries (`C196_range`, `C178_violated_symmetry`) and the file of the shifts (`C196_violated_shifts`). -/
theorem C196_dos_partial (D : WannierDosApp) (hD : GoodWannierDos D W) (hrots : D.rots = [M3.one]) (hW : 0 < W) (hm : PosMesh D.mesh)
    (hfit : DosFits D.mesh W D.minEnergy D.maxEnergy D.delta D.size) (pr : Printer) (title : TextLine) (c : TbContents W R)
    (hdet : (Matrix.of c.cell).det ≠ 0) (hH : HermitianContents c) :
    ∃ (file : DosFile) (n : Nat) (w : V3 Rat → Nat → ℝ), D.run (tbFile pr title c) none = .ok file ∧
      (∀ p : V3 Rat, ∃ u, IsEigenDecomposition (tbHamiltonian c ⟨p.x, p.y, p.z⟩) (fun b : Fin W => w p b * energyRyToEvOf D.k) u) ∧
      (∀ i : Nat, i < n ↔ D.minEnergy + i * D.delta ≤ D.maxEnergy) ∧ file.particle = "electron" ∧ file.energyUnit = "eV" ∧ file.dosUnit = "1/eV" ∧
      file.energies = (List.range n).map (fun i : Nat => (D.minEnergy + i * D.delta) * energyRyToEvOf D.k) ∧
      file.dos = (List.range n).map (fun i : Nat => meshDos D.mesh W w (D.minEnergy + i * D.delta) / energyRyToEvOf D.k) := by
  have hfdet := fileCell_ne hD.bohr hdet
  obtain ⟨cell, hcell, _⟩ := (C69_volume (fileCell D.ang c)).1 hfdet
  have hparse := parseWannier_none pr title (energyRyToEvOf D.k) D.ang none c
  simp only [Option.getD_none] at hparse
  have hrun := dosRun_electron D hD hW hfit.points _ none _ _ rfl hparse cell hcell
  obtain ⟨file, n, f1, f2, f3, f4, f5, f6, f7⟩ := C178_value_partial D.k hD.constants (.wannier D.sched) W hW hD.sched
    (devView (D.eig W) (tbData (energyRyToEvOf D.k) D.ang (fileCell D.ang c) c)) cell id (fun q => ⟨0, by simp⟩)
    (device_periodic _ _ _ c cell hcell) D.mesh hm D.minEnergy D.maxEnergy D.delta hD.step hD.window D.size hfit
  refine ⟨file, n, bandsOf cell (devView (D.eig W) (tbData (energyRyToEvOf D.k) D.ang (fileCell D.ang c) c)), ?_, fun p => ?_, f2, f5, f6, f7, ?_, ?_⟩
  · rw [hrun, hrots, f1]
  · exact device_bands _ _ (constants_ry hD.constants) _ hD.solver c hH cell hcell ⟨p.x, p.y, p.z⟩
  · rw [f3, ← rydberg_electrons]
    rfl
  · rw [f4, ← rydberg_electrons]
    rfl

/-- **C196** (range): with the symmetries of the crystal too, the density of states is never negative, and it vanishes below and above all the eigenvalues of the
Hamiltonian of the file. -/
theorem C196_range (D : WannierDosApp) (hD : GoodWannierDos D W) (hg : IsPointGroup D.rots) (hW : 0 < W) (hm : PosMesh D.mesh) (hsym : MeshSym D.rots D.mesh)
    (hfit : DosFits D.mesh W D.minEnergy D.maxEnergy D.delta D.size) (pr : Printer) (title : TextLine) (c : TbContents W R)
    (hdet : (Matrix.of c.cell).det ≠ 0) (hH : HermitianContents c) :
    ∃ (file : DosFile) (n : Nat) (d : ℝ → ℝ), D.run (tbFile pr title c) none = .ok file ∧
      (∀ i : Nat, i < n ↔ D.minEnergy + i * D.delta ≤ D.maxEnergy) ∧
      file.energies = (List.range n).map (fun i : Nat => (D.minEnergy + i * D.delta) * energyRyToEvOf D.k) ∧
      file.dos = (List.range n).map (fun i : Nat => d ((D.minEnergy + i * D.delta) * energyRyToEvOf D.k)) ∧ (∀ e, 0 ≤ d e) ∧
      ∀ e : ℝ, ((∀ (p : V3 ℝ) (x : Fin W → ℝ) u, IsEigenDecomposition (tbHamiltonian c p) x u → ∀ b, x b < e) ∨
        (∀ (p : V3 ℝ) (x : Fin W → ℝ) u, IsEigenDecomposition (tbHamiltonian c p) x u → ∀ b, e < x b)) → d e = 0 := by
  have hfdet := fileCell_ne hD.bohr hdet
  obtain ⟨cell, hcell, _⟩ := (C69_volume (fileCell D.ang c)).1 hfdet
  have hparse := parseWannier_none pr title (energyRyToEvOf D.k) D.ang none c
  simp only [Option.getD_none] at hparse
  have hrun := dosRun_electron D hD hW hfit.points _ none _ _ rfl hparse cell hcell
  have hr := constants_ry hD.constants
  obtain ⟨file, n, d, f1, f2, f3, f4, f5, f6⟩ := C178_range D.k hD.constants (.wannier D.sched) W hW hD.sched
    (devView (D.eig W) (tbData (energyRyToEvOf D.k) D.ang (fileCell D.ang c) c)) cell id (fun q => ⟨0, by simp⟩)
    (device_periodic _ _ _ c cell hcell) D.rots hg D.mesh hm hsym D.minEnergy D.maxEnergy D.delta hD.step hD.window D.size hfit
  have hry : rydbergIn D.k (Filler.wannier D.sched).isPhonon = energyRyToEvOf D.k := rydberg_electrons D.k
  rw [hry] at f3 f4
  refine ⟨file, n, fun e => d (e / energyRyToEvOf D.k) / energyRyToEvOf D.k, by rw [hrun, f1], f2, f3, ?_, fun e => div_nonneg (f5 _) hr.le, fun e he => ?_⟩
  · rw [f4]
    refine List.map_congr_left fun i _ => ?_
    beta_reduce
    rw [mul_div_cancel_right₀ _ hr.ne']
  · beta_reduce
    rw [f6 (e / energyRyToEvOf D.k), zero_div]
    refine he.imp (fun h p b hb => ?_) fun h p b hb => ?_
    all_goals
      obtain ⟨u, hu⟩ := device_bands (energyRyToEvOf D.k) D.ang hr (D.eig W) hD.solver c hH cell hcell ⟨p.x, p.y, p.z⟩
      have := h _ _ _ hu ⟨b, hb⟩
    · rw [lt_div_iff₀ hr]
      exact this
    · rw [div_lt_iff₀ hr]
      exact this

/-- Batches of a Hamiltonian that reads beyond the bounds of its arrays. -/
theorem populate_ub (eig : ElSolver W) (d : WannierData W R) (hub : ∀ k, devBloch d k = .ub) (ks : List Vec3) (iks : List Int) (hl : iks.length = ks.length)
    (hne : ks ≠ []) (batchSize : Int) (hb : 0 < batchSize) (hbig : ks.length ≤ 1073741823) : elKokkosPopulate (elKernel eig d) ks iks batchSize = .ub := by
  have hne' : iks ≠ [] := by
    rintro rfl
    exact hne (List.length_eq_zero_iff.mp hl.symm)
  obtain ⟨bs, e1, e2, e3, _⟩ := C82_pieces_partial iks batchSize hne' hb (by omega)
  unfold elKokkosPopulate
  rw [e1]
  simp only [Outcome.bind_eq, Outcome.bind_ok]
  cases bs with
  | nil => exact absurd e2.symm hne'
  | cons b bs =>
    have hbne := (e3 b (by simp)).1
    have hle : b.length ≤ ks.length := by
      have := congrArg List.length e2
      simp at this
      omega
    unfold elPopulateLoop
    simp only [Outcome.bind_eq]
    rw [mapOutcome_eq_map (g := fun iik => ks.getD iik 0) _ _ fun iik hi => ?_, Outcome.bind_ok]
    · have : elKernel eig d ((List.range b.length).map fun iik => ks.getD iik 0) = .ub := by
        obtain ⟨n, hn⟩ : ∃ n, b.length = n + 1 := ⟨b.length - 1, by have := List.length_pos_iff.mpr hbne; omega⟩
        rw [hn, List.range_succ_eq_map]
        unfold elKernel
        simp only [List.map_cons, mapOutcome, Outcome.bind_eq]
        rw [hub]
        rfl
      rw [this]
      rfl
    · have := List.mem_range.mp hi
      unfold readAt
      simp [show iik < ks.length by omega]

/-- **C196 is violated** with the file of the shifts of the Wannier functions, which Wannier90 writes by default: unless there are as many vectors as functions, every
run reads beyond the bounds of the array of matrix elements. -/
theorem C196_violated_shifts (D : WannierDosApp) (hD : GoodWannierDos D W) (hg : IsPointGroup D.rots) (hW : 0 < W) (hm : PosMesh D.mesh)
    (hsym : MeshSym D.rots D.mesh) (hfit : DosFits D.mesh W D.minEnergy D.maxEnergy D.delta D.size) (hR : 0 < R) (hne : W ≠ R) (pr : Printer)
    (title title' : TextLine) (c : TbContents W R) (hdet : (Matrix.of c.cell).det ≠ 0) (s : ShiftContents W R)
    (hs : ∀ m n r, 1 ≤ s.count m n r ∧ s.count m n r ≤ 8) (hv : Function.Injective c.vector) (h0 : ∀ r : Fin R, r.1 = 0 → c.vector r ≠ ⟨0, 0, 0⟩) :
    D.run (tbFile pr title c) (some (true, wsVecFile pr title' c s)) = .ub := by
  have hfdet := fileCell_ne hD.bohr hdet
  obtain ⟨cell, hcell, _⟩ := (C69_volume (fileCell D.ang c)).1 hfdet
  have h8 : ∀ m n r, s.count m n r ≤ 8 := fun m n r => (hs m n r).2
  obtain ⟨d, hd⟩ := addShifts_ok (tbData (energyRyToEvOf D.k) D.ang (fileCell D.ang c) c) (fileCell D.ang c) s h8
  have hparse := parseWannier_some pr title title' (energyRyToEvOf D.k) D.ang none c s h8 hv h0 d hd
  simp only [Option.getD_none] at hparse
  have hub : ∀ k, devBloch d k = .ub := C104_violated_bounds (tbData (energyRyToEvOf D.k) D.ang (fileCell D.ang c) c) (fileShifts (fileCell D.ang c) s)
    (fun a b r => (hs a b r).1) hW hR hne d hd
  obtain ⟨⟨ms, hms⟩, ⟨vs, hvs⟩, ns, hns⟩ := atoms_known hD.atoms
  have hpts : ∃ t, dosPoints D.rots D.mesh D.size 0 = .ok t := by
    obtain ⟨t, ht, _⟩ := C18_stars (dosSetup hg hm hsym hfit.some hfit.work) none
    exact ⟨t, ht⟩
  obtain ⟨t, ht⟩ := hpts
  obtain ⟨F, iks, g1, g2, _, g4⟩ := C165_wavevectors (α := ℝ) (γ := ℂ) D.size W (D.mesh.x * D.mesh.y * D.mesh.z).toNat hfit.some hW hfit.points false false
    false false (by simp)
  have hi : F.wavevectorIndices 0 = .ok (List.range (D.mesh.x * D.mesh.y * D.mesh.z).toNat) := by rw [g2 _ hfit.some, g4 rfl _ hfit.some]
  have hbands : D.bands d cell 0 = .ub := by
    unfold WannierDosApp.bands
    simp only [Outcome.bind_eq]
    rw [g1, Outcome.bind_ok, hi, Outcome.bind_ok, populate_ub _ d hub _ _ (by simp) (by
      intro h
      have h1 := hfit.some
      have h2 := hfit.points
      simp at h
      omega) _ (hD.batch 0) (by simpa using hD.points)]
    rfl
  obtain ⟨m, hm'⟩ : ∃ m, D.size = m + 1 := ⟨D.size - 1, by have := hfit.some; omega⟩
  unfold WannierDosApp.run
  simp only [Outcome.bind_eq]
  rw [hparse, Outcome.bind_ok, hms, Outcome.bind_ok, hcell, Outcome.bind_ok, if_neg (by simpa using hD.atoms.length), hvs, Outcome.bind_ok, hns, Outcome.bind_ok]
  have hall : mapOutcome (fun rank => (dosPoints D.rots D.mesh D.size rank).bind fun s => (D.bands d cell rank).bind fun F => .ok (s, F)) (List.range D.size) = .ub := by
    have hr : List.range D.size = 0 :: (List.range m).map Nat.succ := by rw [hm', List.range_succ_eq_map]
    rw [hr]
    simp only [mapOutcome, Outcome.bind_eq]
    rw [ht, Outcome.bind_ok, hbands]
    rfl
  rw [hall]
  rfl

/-- **C196** (refused input): flat cells and more processes than points of the mesh stop the run. -/
theorem C196_refused (D : WannierDosApp) (hat : KnownAtoms D.names D.species D.positions) (pr : Printer) (title : TextLine) (c : TbContents W R) :
    ((Matrix.of c.cell).det = 0 → D.run (tbFile pr title c) none = .error) ∧
    ((Matrix.of c.cell).det ≠ 0 → D.ang ≠ 0 → IsPointGroup D.rots → PosMesh D.mesh → MeshSym D.rots D.mesh →
      (D.mesh.x * D.mesh.y * D.mesh.z).toNat < D.size → (D.mesh.x * D.mesh.y * D.mesh.z).toNat * D.size < sizeTMod →
      D.run (tbFile pr title c) none = .error) := by
  have hparse := parseWannier_none pr title (energyRyToEvOf D.k) D.ang none c
  simp only [Option.getD_none] at hparse
  obtain ⟨⟨ms, hms⟩, ⟨vs, hvs⟩, ns, hns⟩ := atoms_known hat
  refine ⟨fun hdet => ?_, fun hdet hang hg hm hsym hs hfit => ?_⟩
  · have hz : (fileCell D.ang c).det = 0 := by
      rw [fileCell_det, hdet, mul_zero]
    unfold WannierDosApp.run
    simp only [Outcome.bind_eq]
    rw [hparse, Outcome.bind_ok, hms, Outcome.bind_ok, (C69_volume _).2 hz]
    rfl
  · obtain ⟨cell, hcell, _⟩ := (C69_volume (fileCell D.ang c)).1 (fileCell_ne hang hdet)
    obtain ⟨t, ht, _⟩ := C18_stars (dosSetup hg hm hsym (show 0 < D.size by omega) hfit) none
    have ht' : dosPoints D.rots D.mesh D.size 0 = .ok t := ht
    obtain ⟨m, hm'⟩ : ∃ m, D.size = m + 1 := ⟨D.size - 1, by omega⟩
    unfold WannierDosApp.run
    simp only [Outcome.bind_eq]
    rw [hparse, Outcome.bind_ok, hms, Outcome.bind_ok, hcell, Outcome.bind_ok, if_neg (by simpa using hat.length), hvs, Outcome.bind_ok, hns, Outcome.bind_ok]
    have hall : mapOutcome (fun rank => (dosPoints D.rots D.mesh D.size rank).bind fun s =>
        (D.bands (tbData (energyRyToEvOf D.k) D.ang (fileCell D.ang c) c) cell rank).bind fun F => .ok (s, F)) (List.range D.size) = .error := by
      have hr : List.range D.size = 0 :: (List.range m).map Nat.succ := by rw [hm', List.range_succ_eq_map]
      have hb : D.bands (tbData (energyRyToEvOf D.k) D.ang (fileCell D.ang c) c) cell 0 = .error := by
        unfold WannierDosApp.bands
        rw [C165_too_many (α := ℝ) (γ := ℂ) D.size W _ false false false false hs]
        rfl
      rw [hr]
      simp only [mapOutcome, Outcome.bind_eq]
      rw [ht', Outcome.bind_ok, hb]
      rfl
    rw [hall]
    rfl

/-- The theorems are about files that exist: two functions and five vectors, with and without images, on a mesh of four points. -/
theorem wannierDos_sample (eig : (W : Nat) → ElSolver W) (he : ElSolves (eig 2)) :
    let D : WannierDosApp := ⟨⟨1, 13, 1⟩, 1 / 2, [0], [0], ["C".toList], [M3.one], eig, ⟨4, 1, 1⟩, 1 / 2, 1 / 2, 1, fun _ => 3, fun _ => List.reverse, 1⟩
    GoodWannierDos D 2 ∧ DosFits D.mesh 2 D.minEnergy D.maxEnergy D.delta D.size ∧ PosMesh D.mesh := by
  intro D
  obtain ⟨h1, _⟩ := wannier_sample eig he
  refine ⟨⟨⟨by norm_num [D], by norm_num [D], by norm_num [D]⟩, by norm_num [D], h1.atoms, he, by simp [D], fun _ l => List.reverse_perm l, by norm_num [D],
    le_rfl, ?_⟩, ?_, by simp [PosMesh, D]⟩
  · show ((4 : Int) * 1 * 1).toNat ≤ 1073741823
    decide
  · show DosFits ⟨4, 1, 1⟩ 2 (1 / 2) (1 / 2) 1 1
    refine ⟨by decide, by decide, by decide, by decide, by decide, by norm_num [intMax], ?_⟩
    norm_num

example (pr : Printer) : ∃ eig : (W : Nat) → ElSolver W,
    let D : WannierDosApp := ⟨⟨1, 13, 1⟩, 1 / 2, [0], [0], ["C".toList], [M3.one], eig, ⟨4, 1, 1⟩, 1 / 2, 1 / 2, 1, fun _ => 3, fun _ => List.reverse, 1⟩
    (∃ file, D.run (tbFile pr [] (lineContents 13 (1 / 2))) none = .ok file ∧ file.energies = [13 / 2]) ∧
    D.run (tbFile pr [] (lineContents 13 (1 / 2))) (some (true, wsVecFile pr [] (lineContents 13 (1 / 2)) lineShifts)) = .ub := by
  obtain ⟨eig, he⟩ := exists_elSolver
  refine ⟨eig, ?_⟩
  intro D
  obtain ⟨h1, h2, h3⟩ := wannierDos_sample eig (he 2)
  obtain ⟨_, h4, h5⟩ := wannier_sample eig (he 2)
  obtain ⟨hv, h0⟩ := lineVectors 13 (1 / 2)
  obtain ⟨file, n, w, r1, _, r2, _, _, _, r3, _⟩ := C196_dos_partial D h1 rfl (by decide) h3 h2 pr [] _ h4 h5
  refine ⟨⟨file, r1, ?_⟩, C196_violated_shifts D h1 one_group (by decide) h3 (one_meshSym _) h2 (by decide) (by decide) pr [] [] _ h4 lineShifts
    (by simp [lineShifts]) hv h0⟩
  have hn : n = 1 := line_number n r2
  rw [r3, hn]
  simp [D, energyRyToEvOf]
  norm_num

end Verif.Props
