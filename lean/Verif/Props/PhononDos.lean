import Verif.Proofs.PhononDos
import Verif.Props.PhononRun
import Verif.Props.DosApp

/-! # C197: the phonon density of states, from the files of the force constants to the file of the density of states -/
namespace Verif.Props
open Verif.Model Verif.Spec Verif.Proofs

section
variable {A n1 n2 n3 S : ℕ}

/-- **C197, same density of states.** If a file of Quantum ESPRESSO and the files of phonopy (all pairs of atoms, in eV/angstrom^2 or Ry/au^2; with charges only if no
two atoms are of the same element) describe the same crystal, the runs of the app of the phonon density of states with them have the same outcome, whatever the sum rule
and the other input variables: the same file, or the same stop. -/
theorem C197_same_partial (hA : 0 < A) (h1 : 0 < n1) (h2 : 0 < n2) (h3 : 0 < n3) (D : PhononDosRun) (X : HarmonicCrystal A n1 n2 n3)
    (pr : Printer) (other : Token) (c : FcContents S A n1 n2 n3) (hS : S < 2147483647) (hc : EspressoSays X c)
    (hn : ∀ s, ∃ e ∈ elementTable, e.symbol = (c.name s).toList)
    (bohr ryd amu : ℝ) (hb : bohr ≠ 0) (hr : ryd ≠ 0) (mass : List Char → Outcome ℝ) (evAng : String → Bool) (hev : FindsEvAng evAng)
    (u : FcUnit) (hu : u = .evAng2 ∨ u = .ryAu2) (f : PhonopyFile) (born : Option (List BornLine)) (fc : Fc2File)
    (hp : PhonopySays X bohr ryd amu mass u f born fc) (hd : LatticeApart6 X.d) (hinj : born ≠ none → Function.Injective X.name) :
    D.fromPhonopy bohr ryd amu mass evAng true f.lines born fc = D.fromEspresso (fcFile pr other c) := by
  haveI : NeZero n1 := ⟨h1.ne'⟩
  haveI : NeZero n2 := ⟨h2.ne'⟩
  haveI : NeZero n3 := ⟨h3.ne'⟩
  obtain ⟨g, e1, g1⟩ := gives_espresso X pr other c hS h1 h2 h3 hc hn
  have hval : u.value bohr ryd ≠ 0 := by
    rcases hu with rfl | rfl
    · exact div_ne_zero (pow_ne_zero 2 hb) hr
    · exact one_ne_zero
  obtain ⟨p, e2, g2⟩ := gives_phonopy hA X bohr ryd amu mass evAng u f born fc hp hd (fun b => by rw [← hc.name b]; exact hn _) hinj hval
  have hX : (withForces X fun b n b' i j => X.Phi b n b' i j / u.value bohr ryd * (if evAng u.name then bohr ^ 2 / ryd else 1)) = X := by
    have : (if evAng u.name then bohr ^ 2 / ryd else 1) = u.value bohr ryd := by
      rcases hu with rfl | rfl
      · rw [hev.1]; rfl
      · rw [hev.2.1]; rfl
    unfold withForces
    simp only [this, div_mul_cancel₀ _ hval]
  rw [hX] at g2
  unfold PhononDosRun.fromPhonopy PhononDosRun.fromEspresso
  simp only [Outcome.bind_eq, e1, e2, Outcome.bind_ok]
  rw [dosOfInput_eq D _ X g1, dosOfInput_eq D _ X g2]

/-- **C197, other units.** If the files of phonopy are in hartree/au^2, one of the units they can name, the run has the outcome of the run with a file of Quantum ESPRESSO of
another crystal: one with half the force constants, so with frequencies smaller by the square root of two. -/
theorem C197_violated_units (hA : 0 < A) (h1 : 0 < n1) (h2 : 0 < n2) (h3 : 0 < n3) (D : PhononDosRun) (X : HarmonicCrystal A n1 n2 n3)
    (pr : Printer) (other : Token) (c : FcContents S A n1 n2 n3) (hS : S < 2147483647)
    (hc : EspressoSays { X with Phi := fun b n b' i j => X.Phi b n b' i j / 2 } c) (hn : ∀ s, ∃ e ∈ elementTable, e.symbol = (c.name s).toList)
    (bohr ryd amu : ℝ) (mass : List Char → Outcome ℝ) (evAng : String → Bool) (hev : FindsEvAng evAng)
    (f : PhonopyFile) (born : Option (List BornLine)) (fc : Fc2File)
    (hp : PhonopySays X bohr ryd amu mass .hartreeAu2 f born fc) (hd : LatticeApart6 X.d) (hinj : born ≠ none → Function.Injective X.name) :
    D.fromPhonopy bohr ryd amu mass evAng true f.lines born fc = D.fromEspresso (fcFile pr other c) := by
  haveI : NeZero n1 := ⟨h1.ne'⟩
  haveI : NeZero n2 := ⟨h2.ne'⟩
  haveI : NeZero n3 := ⟨h3.ne'⟩
  obtain ⟨g, e1, g1⟩ := gives_espresso _ pr other c hS h1 h2 h3 hc hn
  obtain ⟨p, e2, g2⟩ := gives_phonopy hA X bohr ryd amu mass evAng .hartreeAu2 f born fc hp hd (fun b => by
    have := hc.name b
    dsimp only at this
    rw [← this]; exact hn _) hinj (by simp [FcUnit.value])
  have hX : (withForces X fun b n b' i j => X.Phi b n b' i j / FcUnit.hartreeAu2.value bohr ryd * (if evAng FcUnit.hartreeAu2.name then bohr ^ 2 / ryd else 1)) =
      { X with Phi := fun b n b' i j => X.Phi b n b' i j / 2 } := by
    rw [hev.2.2.1]
    simp [withForces, FcUnit.value]
  rw [hX] at g2
  unfold PhononDosRun.fromPhonopy PhononDosRun.fromEspresso
  simp only [Outcome.bind_eq, e1, e2, Outcome.bind_ok]
  rw [dosOfInput_eq D _ _ g1, dosOfInput_eq D _ _ g2]

/-- **C197, the density of states is that of the crystal.** Whenever the run with the file of Quantum ESPRESSO ends with a file, without symmetries and sum rule and for
a crystal that is not polar, the file lists the energies of the window in meV in equal steps, and at each the density of states of the tetrahedra, in 1/meV, of bands `w`
(in Ry) that at every wavevector that fits the supercell are the frequencies of all the normal modes of the crystal.
Missing: wavevectors that do not fit the supercell, symmetries (`C178_violated_symmetry`), and other units of the force constants (`C197_violated_units`). -/
theorem C197_dos_partial (hA : 0 < A) (h1 : 0 < n1) (h2 : 0 < n2) (h3 : 0 < n3) (D : PhononDosRun) (hD : GoodPhononDos D A) (hrule : D.rule = "")
    (hrots : D.rots = [M3.one]) (hmesh : PosMesh D.mesh) (hfit : DosFits D.mesh (A * 3) D.minEnergy D.maxEnergy D.delta D.size)
    (X : HarmonicCrystal A n1 n2 n3) (hX : X.Plain) (hm : ∀ b, 0 < X.mass b)
    (hcomp : ∀ b b', CompactCell (fun k i => X.d i k) (fun i => X.pos b i - X.pos b' i) ![n1, n2, n3])
    (pr : Printer) (other : Token) (c : FcContents S A n1 n2 n3) (hS : S < 2147483647) (hc : EspressoSays X c)
    (hn : ∀ s, ∃ e ∈ elementTable, e.symbol = (c.name s).toList) (file : DosFile) (hrun : D.fromEspresso (fcFile pr other c) = .ok file) :
    ∃ (n : Nat) (w : V3 Rat → Nat → ℝ), (∀ i : Nat, i < n ↔ D.minEnergy + i * D.delta ≤ D.maxEnergy) ∧ file.energyUnit = "meV" ∧ file.dosUnit = "1/meV" ∧
      file.energies = (List.range n).map (fun i : Nat => (D.minEnergy + i * D.delta) * rydbergIn D.k true) ∧
      file.dos = (List.range n).map (fun i : Nat => meshDos D.mesh (A * 3) w (D.minEnergy + i * D.delta) / rydbergIn D.k true) ∧
      ∀ p : V3 Rat, Commensurate n1 n2 n3 ⟨p.x, p.y, p.z⟩ → ∃ v, IsModes (X.fourier ⟨p.x, p.y, p.z⟩) X.mass (fun s : Fin (A * 3) => w p s) v := by
  haveI : NeZero n1 := ⟨h1.ne'⟩
  haveI : NeZero n2 := ⟨h2.ne'⟩
  haveI : NeZero n3 := ⟨h3.ne'⟩
  obtain ⟨g, e1, g1⟩ := gives_espresso X pr other c hS h1 h2 h3 hc hn
  unfold PhononDosRun.fromEspresso at hrun
  simp only [Outcome.bind_eq, e1, Outcome.bind_ok] at hrun
  rw [dosOfInput_eq D _ X g1] at hrun
  unfold crystalDos at hrun
  obtain ⟨cell, hcell, hrun⟩ := (Outcome.bind_eq_ok_iff _ _ _).mp hrun
  obtain ⟨s, hs, hrun⟩ := (Outcome.bind_eq_ok_iff _ _ _).mp hrun
  have hdir : cell.direct = X.d := (makeCell_ok _ _ hcell).2.1
  have hsame : s = (HarmonicCrystal.view X cell, HarmonicCrystal.tensor X) := plain_constructor _ _ _ (by rw [← hrule]; exact hs)
  subst hsame
  have hplain : ¬ (HarmonicCrystal.view X cell).hasDielectric := by
    unfold PhCrystal.hasDielectric HarmonicCrystal.view
    simp [hX.1]
  obtain ⟨file', n, w, f1, f2, f3, f4, f5, f6, f7⟩ := C178_phonons_partial D.k hD.constants (D.eig A) hD.solver (HarmonicCrystal.view X cell) hA hm hplain
    (HarmonicCrystal.tensor X) _ (hD.arrange _) cell hcell rfl (D.wrap cell) (hD.wrap cell) D.batchSize hD.batch D.sched hD.sched D.mesh hmesh D.minEnergy
    D.maxEnergy D.delta hD.step hD.window D.size hfit
  rw [hrots, f1, Outcome.ok.injEq] at hrun
  subst hrun
  refine ⟨n, w, f3, f4, f5, f6, f7, fun p hp => ?_⟩
  obtain ⟨v, hv⟩ := f2 p
  refine ⟨v, ?_⟩
  rw [← fourier_at D.rule X cell hcell hdir hs hcomp hplain _ hp]
  exact hv

end

/-! ## An example: one atom in a cubic cell, bound to its place -/

/-- A run on two processes with threads that take the calls in order. -/
noncomputable def boundDos (eig : (A : Nat) → EigenSolver A) : PhononDosRun :=
  ⟨⟨1, 13, 1⟩, "", [M3.one], eig, id, fun _ => id, ⟨4, 1, 1⟩, 1 / 2, 1 / 2, 1, 1, fun _ b => b.1 ++ b.2, 2⟩

theorem boundDos_good (eig : (A : Nat) → EigenSolver A) (he : ∀ A, GoodSolver (eig A)) : GoodPhononDos (boundDos eig) 1 where
  constants := ⟨by norm_num [boundDos], by norm_num [boundDos], by norm_num [boundDos]⟩
  solver := he 1
  arrange l := List.Perm.refl _
  wrap cell q := ⟨0, by simp [boundDos]⟩
  batch := by norm_num [boundDos]
  sched rank b := ⟨b.1, List.Perm.refl _, rfl⟩
  step := by norm_num [boundDos]
  window := le_rfl

theorem boundDos_fits (eig : (A : Nat) → EigenSolver A) :
    DosFits (boundDos eig).mesh (1 * 3) (boundDos eig).minEnergy (boundDos eig).maxEnergy (boundDos eig).delta (boundDos eig).size := by
  show DosFits ⟨4, 1, 1⟩ 3 (1 / 2) (1 / 2) 1 2
  refine ⟨by decide, by decide, by decide, by decide, by decide, by norm_num [intMax], ?_⟩
  norm_num

/-- The hypotheses of the theorems are met, and the runs with the two kinds of files end with the same file. -/
example (k : ℝ) : ∃ D : PhononDosRun, GoodPhononDos D 1 ∧ ∃ file, D.fromEspresso (fcFile samplePrinter ⟨none, none⟩ (boundEspresso k)) = .ok file ∧
    D.fromPhonopy (1 / 2) 13 1 (fun _ => .ok 2) (fun s => decide (s = "eV/angstrom^2" ∨ s = "eV/angstrom.au")) true boundPh.lines none (boundFc k .evAng2) = .ok file ∧
    file.energies = [13 * 1000 / 2] := by
  obtain ⟨eig, he⟩ : ∃ eig : (A : Nat) → EigenSolver A, ∀ A, GoodSolver (eig A) := ⟨fun A => (exists_solver A).choose, fun A => (exists_solver A).choose_spec⟩
  obtain ⟨g, e1, g1⟩ := gives_espresso (boundCrystal k) samplePrinter ⟨none, none⟩ (boundEspresso k) (by norm_num) one_pos one_pos one_pos (bound_espresso k)
    (bound_name k)
  obtain ⟨cell, hcell, _⟩ := (C69_volume (boundCrystal k).d).1 (by
    rw [show ((boundCrystal k).d : Mat3) = 1 by funext i j; simp [boundCrystal, unitCubic, Matrix.one_apply]]
    simp)
  have hplain : ¬ (HarmonicCrystal.view (boundCrystal k) cell).hasDielectric := by
    unfold PhCrystal.hasDielectric HarmonicCrystal.view
    simp [boundCrystal]
  obtain ⟨file, _, _, f1, _⟩ := C178_phonons_partial (boundDos eig).k (boundDos_good eig he).constants (eig 1) (he 1) (HarmonicCrystal.view (boundCrystal k) cell) one_pos
    (fun _ => by norm_num [HarmonicCrystal.view, boundCrystal]) hplain (HarmonicCrystal.tensor (boundCrystal k)) _ ((boundDos_good eig he).arrange _) cell hcell rfl _
    ((boundDos_good eig he).wrap cell) _ (boundDos_good eig he).batch _ (boundDos_good eig he).sched _ (by simp [PosMesh, boundDos]) _ _ _ (boundDos_good eig he).step
    (boundDos_good eig he).window _ (boundDos_fits eig)
  have hrun : (boundDos eig).fromEspresso (fcFile samplePrinter ⟨none, none⟩ (boundEspresso k)) = .ok file := by
    unfold PhononDosRun.fromEspresso
    simp only [Outcome.bind_eq, e1, Outcome.bind_ok]
    rw [dosOfInput_eq _ _ _ g1]
    unfold crystalDos
    rw [hcell, Outcome.bind_ok, show (boundDos eig).rule = "" from rfl, bound_make k cell, Outcome.bind_ok]
    exact f1
  refine ⟨boundDos eig, boundDos_good eig he, file, hrun, ?_, ?_⟩
  · rw [← hrun]
    exact C197_same_partial one_pos one_pos one_pos one_pos _ (boundCrystal k) samplePrinter ⟨none, none⟩ (boundEspresso k) (by norm_num) (bound_espresso k) (bound_name k)
      (1 / 2) 13 1 (by norm_num) (by norm_num) (fun _ => .ok 2) _ (by simp [FindsEvAng, FcUnit.name]) .evAng2 (Or.inl rfl) boundPh none _ (bound_phonopy k .evAng2)
      cubic_apart6 (by simp)
  · obtain ⟨n, w, h1, _, _, h2, _⟩ := C197_dos_partial one_pos one_pos one_pos one_pos _ (boundDos_good eig he) rfl rfl (by simp [PosMesh, boundDos]) (boundDos_fits eig)
      (boundCrystal k) ⟨rfl, rfl⟩ (fun _ => by norm_num [boundCrystal]) (bound_compact k) samplePrinter ⟨none, none⟩ (boundEspresso k) (by norm_num) (bound_espresso k)
      (bound_name k) file hrun
    have hn : n = 1 := line_number n h1
    rw [h2, hn]
    simp [boundDos, rydbergIn]
    norm_num

/-- A case of the theorem on the units: the files in hartree/au^2 of the crystal with the constant 4 give the outcome of that with the constant 2. -/
example (D : PhononDosRun) : D.fromPhonopy (1 / 2) 13 1 (fun _ => .ok 2) (fun s => decide (s = "eV/angstrom^2" ∨ s = "eV/angstrom.au")) true boundPh.lines none
    (boundFc 4 .hartreeAu2) = D.fromEspresso (fcFile samplePrinter ⟨none, none⟩ (boundEspresso 2)) := by
  refine C197_violated_units one_pos one_pos one_pos one_pos D (boundCrystal 4) samplePrinter ⟨none, none⟩ (boundEspresso 2) (by norm_num) ?_ (bound_name 2)
    (1 / 2) 13 1 (fun _ => .ok 2) _ (by simp [FindsEvAng, FcUnit.name]) boundPh none _ (bound_phonopy 4 .hartreeAu2) cubic_apart6 (by simp)
  convert bound_espresso 2 using 1
  unfold boundCrystal
  congr 1
  funext b n b' i j
  dsimp only
  split_ifs <;> norm_num at *

end Verif.Props
