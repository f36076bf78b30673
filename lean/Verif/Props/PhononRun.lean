import Verif.Proofs.PhononRun

/-! # C192: the phonon bands do not depend on the program that computed the forces -/
namespace Verif.Props
open Verif.Model Verif.Spec Verif.Proofs

section
variable {A n1 n2 n3 S : ℕ}

/-- **C192, same bands.** If a file of Quantum ESPRESSO and the files of phonopy (all pairs of atoms, in eV/angstrom^2 or Ry/au^2; with charges only if no two atoms
are of the same element) describe the same crystal, the runs of the phonon bands app with them have the same outcome on each process, whatever the sum rule and the
other input variables: the same file, or the same stop. -/
theorem C192_same_partial (hA : 0 < A) (h1 : 0 < n1) (h2 : 0 < n2) (h3 : 0 < n3) (R : BandsRun) (X : HarmonicCrystal A n1 n2 n3)
    (pr : Printer) (other : Token) (c : FcContents S A n1 n2 n3) (hS : S < 2147483647) (hc : EspressoSays X c)
    (hn : ∀ s, ∃ e ∈ elementTable, e.symbol = (c.name s).toList)
    (bohr ryd amu : ℝ) (hb : bohr ≠ 0) (hr : ryd ≠ 0) (mass : List Char → Outcome ℝ) (evAng : String → Bool) (hev : FindsEvAng evAng)
    (u : FcUnit) (hu : u = .evAng2 ∨ u = .ryAu2) (f : PhonopyFile) (born : Option (List BornLine)) (fc : Fc2File)
    (hp : PhonopySays X bohr ryd amu mass u f born fc) (hd : LatticeApart6 X.d) (hinj : born ≠ none → Function.Injective X.name) :
    bandsFromPhonopy R bohr ryd amu mass evAng true f.lines born fc = bandsFromEspresso R (fcFile pr other c) := by
  haveI : NeZero n1 := ⟨h1.ne'⟩
  haveI : NeZero n2 := ⟨h2.ne'⟩
  haveI : NeZero n3 := ⟨h3.ne'⟩
  obtain ⟨g, e1, g1⟩ := gives_espresso X pr other c hS h1 h2 h3 hc hn
  have hval : u.value bohr ryd ≠ 0 := by
    rcases hu with rfl | rfl
    · exact div_ne_zero (pow_ne_zero 2 hb) hr
    · exact one_ne_zero
  obtain ⟨p, e2, g2⟩ := gives_phonopy hA X bohr ryd amu mass evAng u f born fc hp hd (fun b => by rw [← hc.name b]; exact hn _) hinj hval
  have hX : (withForces X fun b n b' i j => X.Phi b n b' i j / u.value bohr ryd * (if evAng u.name then bohr ^ 2 / ryd else 1)) = X := by
    have : (if evAng u.name then bohr ^ 2 / ryd else 1) = u.value bohr ryd := by
      rcases hu with rfl | rfl
      · rw [hev.1]; rfl
      · rw [hev.2.1]; rfl
    unfold withForces
    simp only [this, div_mul_cancel₀ _ hval]
  rw [hX] at g2
  unfold bandsFromPhonopy bandsFromEspresso
  simp only [Outcome.bind_eq, e1, e2, Outcome.bind_ok]
  rw [bandsOfInput_eq R _ X g1, bandsOfInput_eq R _ X g2]

/-- **C192, the bands are those of the crystal.** Whenever the run with the file of Quantum ESPRESSO ends with a file, without sum rule and for a crystal that is not
polar, the run with the files of phonopy ends with the same file, and at each point of the path that fits the supercell it has the frequencies (in meV) of all the
normal modes of the crystal: the solutions of the equations of motion with the force constants of the supercell.  Missing: wavevectors that do not fit the supercell, and
other units of the force constants (`C192_violated_units`). -/
theorem C192_bands_partial (hA : 0 < A) (h1 : 0 < n1) (h2 : 0 < n2) (h3 : 0 < n3) (R : BandsRun) (hR : GoodRun R A) (hrule : R.rule = "")
    (X : HarmonicCrystal A n1 n2 n3) (hX : X.Plain) (hm : ∀ b, 0 < X.mass b)
    (hcomp : ∀ b b', CompactCell (fun k i => X.d i k) (fun i => X.pos b i - X.pos b' i) ![n1, n2, n3])
    (pr : Printer) (other : Token) (c : FcContents S A n1 n2 n3) (hS : S < 2147483647) (hc : EspressoSays X c)
    (hn : ∀ s, ∃ e ∈ elementTable, e.symbol = (c.name s).toList)
    (bohr ryd amu : ℝ) (hb : bohr ≠ 0) (hr : ryd ≠ 0) (mass : List Char → Outcome ℝ) (evAng : String → Bool) (hev : FindsEvAng evAng)
    (u : FcUnit) (hu : u = .evAng2 ∨ u = .ryAu2) (f : PhonopyFile) (fc : Fc2File)
    (hp : PhonopySays X bohr ryd amu mass u f none fc) (hd : LatticeApart6 X.d)
    (file : BandsFile) (hrun : bandsFromEspresso R (fcFile pr other c) = .ok (some file)) :
    bandsFromPhonopy R bohr ryd amu mass evAng true f.lines none fc = .ok (some file) ∧
    ∃ (pts : List (V3 ℝ)) (w : Nat → Fin (A * 3) → ℝ) (v : Nat → Fin (A * 3) → Fin A → Fin 3 → ℂ),
      pathPoints R.segs R.delta = .ok pts ∧
      file.energies = (List.range pts.length).map (fun ik => List.ofFn fun s => w ik s * (1000 * R.ry)) ∧ file.energyUnit = "meV" ∧
      ∀ ik (h : ik < pts.length), Commensurate n1 n2 n3 pts[ik] → IsModes (X.fourier pts[ik]) X.mass (w ik) (v ik) := by
  refine ⟨by rw [C192_same_partial hA h1 h2 h3 R X pr other c hS hc hn bohr ryd amu hb hr mass evAng hev u hu f none fc hp hd (by simp), hrun], ?_⟩
  haveI : NeZero n1 := ⟨h1.ne'⟩
  haveI : NeZero n2 := ⟨h2.ne'⟩
  haveI : NeZero n3 := ⟨h3.ne'⟩
  obtain ⟨g, e1, g1⟩ := gives_espresso X pr other c hS h1 h2 h3 hc hn
  unfold bandsFromEspresso at hrun
  simp only [Outcome.bind_eq, e1, Outcome.bind_ok] at hrun
  rw [bandsOfInput_eq R _ X g1] at hrun
  exact crystalRun_modes hA R hR hrule X hX.1 hm hcomp file hrun

end

/-! ## An example: one atom in a cubic cell, bound to its place -/

/-- An atom of silicon with force constant `k`. -/
noncomputable def boundCrystal (k : ℝ) : HarmonicCrystal 1 1 1 1 where
  d := unitCubic
  name _ := ['S', 'i']
  pos _ := 0
  mass _ := 2
  eps := 0
  Z := 0
  Phi _ _ _ i j := if i = j then k else 0

/-- What the file of Quantum ESPRESSO says. -/
noncomputable def boundEspresso (k : ℝ) : FcContents 1 1 1 1 1 where
  index := 1
  celldm := ![1, 0, 0, 0, 0, 0]
  cell := 0
  name _ := "Si"
  mass _ := 2
  kind _ := 0
  position _ := 0
  dielectric := none
  force i j _ _ _ _ _ := if i = j then k else 0

theorem bound_espresso (k : ℝ) : EspressoSays (boundCrystal k) (boundEspresso k) where
  lattice := by
    refine ⟨1, ?_, by simp [boundEspresso, boundCrystal]⟩
    have e : ∀ l : Fin 3, (fun i => (boundCrystal k).d i l) = ![if l = 0 then 1 else 0, if l = 1 then 1 else 0, if l = 2 then 1 else 0] := by
      intro l
      funext i
      fin_cases i <;> fin_cases l <;> simp [boundCrystal, unitCubic]
    rw [e 0, e 1, e 2]
    simp [getQELattice, indexLattice, boundEspresso]
  name _ := by simp [boundEspresso, boundCrystal]
  mass _ := rfl
  polar := Or.inl ⟨rfl, rfl, rfl⟩
  force _ _ _ _ _ _ _ := rfl

/-- The file of force constants of phonopy in some unit. -/
noncomputable def boundFc (k : ℝ) (u : FcUnit) : Fc2File :=
  ⟨[0], 1, 1, fun _ _ i j => if i = j then k / u.value (1 / 2) 13 else 0, u.name⟩

theorem one_order : IsOrder ⟨((1 : ℕ) : Int), ((1 : ℕ) : Int), ((1 : ℕ) : Int)⟩ [⟨0, 0, 0⟩] where
  nodup := by decide
  home := rfl
  mem := by
    rintro ⟨x, y, z⟩
    simp only [List.mem_cons, V3.mk.injEq, List.not_mem_nil, or_false]
    omega

theorem unit_ne (u : FcUnit) : u.value (1 / 2) 13 ≠ 0 := by cases u <;> norm_num [FcUnit.value]

noncomputable def boundPh : PhonopyFile :=
  samplePh ⟨((1 : ℕ) : Int), ((1 : ℕ) : Int), ((1 : ℕ) : Int)⟩ unitCubic (fun _ : Fin 1 => ['S', 'i']) (fun _ _ => 0) [⟨0, 0, 0⟩]

theorem bound_phonopy (k : ℝ) (u : FcUnit) :
    PhonopySays (boundCrystal k) (1 / 2) 13 1 (fun _ => .ok 2) u boundPh none (boundFc k u) where
  files := by
    refine ⟨false, fun _ _ => 0, [⟨0, 0, 0⟩], fun _ _ _ i j => if i = j then k / u.value (1 / 2) 13 else 0,
      samplePh_describes _ unitCubic _ _ _ _ silicon_name, one_order, by decide, by simp [boundCrystal], ⟨rfl, rfl, rfl, fun _ _ _ _ _ _ _ _ => rfl⟩, ?_⟩
    intro b n b' i j
    simp only [boundCrystal]
    split_ifs
    · exact div_mul_cancel₀ _ (unit_ne u)
    · simp
  unit := rfl
  mass _ := ⟨2, rfl, by norm_num [boundCrystal]⟩
  polar := Or.inl ⟨rfl, rfl, rfl⟩

/-- A run on one process along the short path. -/
noncomputable def boundRun (eig : (A : Nat) → EigenSolver A) : BandsRun :=
  ⟨13, 2, true, "", eig, id, fun _ => id, [exSegment], 1 / 10, 1, fun b => b.1 ++ b.2, 1, 0⟩

theorem bound_good (eig : (A : Nat) → EigenSolver A) (he : ∀ A, GoodSolver (eig A)) : GoodRun (boundRun eig) 1 where
  solver := he 1
  arrange _ := List.Perm.refl _
  wrap _ _ := ⟨0, by simp [boundRun]⟩
  batch := by norm_num [boundRun]
  sched := fun b => ⟨b.1, List.Perm.refl _, rfl⟩
  size := by norm_num [boundRun]
  head := rfl
  fits := by
    intro pts hp
    rw [show pathPoints (boundRun eig).segs (boundRun eig).delta = _ from exSegment_path.2, Outcome.ok.injEq] at hp
    subst hp
    decide
  fits' := by decide

theorem bound_known : ∃ e ∈ elementTable, e.symbol = ['S', 'i'] := by decide +kernel

theorem bound_name (k : ℝ) (s : Fin 1) : ∃ e ∈ elementTable, e.symbol = ((boundEspresso k).name s).toList := by
  rw [show ((boundEspresso k).name s).toList = ['S', 'i'] by simp [boundEspresso]]
  exact bound_known

theorem bound_compact (k : ℝ) (b b' : Fin 1) : CompactCell (fun l i => (boundCrystal k).d i l)
    (fun i => (boundCrystal k).pos b i - (boundCrystal k).pos b' i) ![1, 1, 1] := by
  have := C95_rectangular (fun _ => 1) (fun i => (boundCrystal k).pos b i - (boundCrystal k).pos b' i) ![1, 1, 1] (by
    intro l
    fin_cases l <;> norm_num)
  convert this using 3
  simp only [boundCrystal, unitCubic, eq_comm]

theorem bound_make (k : ℝ) (cell : Cell) : makePhononH0 "" (HarmonicCrystal.view (boundCrystal k) cell) (HarmonicCrystal.tensor (boundCrystal k)) =
    .ok (HarmonicCrystal.view (boundCrystal k) cell, HarmonicCrystal.tensor (boundCrystal k)) := by
  refine C95_accepted _ _ (fun _ => 1) ?_ ?_ ?_ ?_
  · intro i l
    simp [HarmonicCrystal.view, boundCrystal, unitCubic]
  · intro a b l
    simp [HarmonicCrystal.view, boundCrystal]
  · intro l
    fin_cases l <;> norm_num
  · intro a b l j
    simp only [HarmonicCrystal.view, boundCrystal, Pi.zero_apply, sub_self, mul_zero, add_zero, mul_one]
    rcases eq_or_ne j 0 with rfl | hj
    · left; simp
    · right
      have : (1 : ℝ) ≤ |(j : ℝ)| := by exact_mod_cast Int.one_le_abs hj
      fin_cases l <;> simp <;> linarith

theorem bound_runs (eig : (A : Nat) → EigenSolver A) (k : ℝ) : ∃ file, crystalRun (boundRun eig) (boundCrystal k) = .ok (some file) := by
  obtain ⟨cell, hcell, _⟩ := (C69_volume unitCubic).1 (by
    rw [show (unitCubic : Mat3) = 1 by funext i j; simp [unitCubic, Matrix.one_apply]]
    simp)
  have hmake := bound_make k cell
  obtain ⟨hseg, hpath⟩ := exSegment_path
  have hs : GoodSched (fun b => b.1 ++ b.2) := fun b => ⟨b.1, List.Perm.refl _, rfl⟩
  obtain ⟨file, h1, _⟩ := C177_labels_partial 13 2 true (1 * 3)
    (phononView (eig 1) (HarmonicCrystal.view (boundCrystal k) cell) (HarmonicCrystal.tensor (boundCrystal k))
      ((HarmonicCrystal.view (boundCrystal k) cell).gVectors 1 1 1)) cell id
    ⟨(boundCrystal k).d, List.ofFn (boundCrystal k).pos, List.ofFn fun b => String.ofList ((boundCrystal k).name b)⟩ (by simp)
    [exSegment] (1 / 10) (by norm_num) (by simp) (by simpa using hseg) (by simp [GoodLabels, exSegment])
    (by intro i hi; simp at hi) 1 (by norm_num) _ hs 1 (by norm_num) (by norm_num) (by norm_num) (by decide) (by
      intro pts hp
      rw [hpath, Outcome.ok.injEq] at hp
      subst hp
      exact ⟨by simp, by decide⟩)
  refine ⟨file, ?_⟩
  unfold crystalRun
  rw [show makeCell (boundCrystal k).d = .ok cell from hcell, Outcome.bind_ok]
  rw [show (boundRun eig).rule = "" from rfl, hmake, Outcome.bind_ok]
  exact h1

/-- The first energy of the file of the example. -/
theorem bound_energy (eig : (A : Nat) → EigenSolver A) (he : ∀ A, GoodSolver (eig A)) (k : ℝ) (file : BandsFile)
    (h : crystalRun (boundRun eig) (boundCrystal k) = .ok (some file)) : ∃ w l more, file.energies = (w * 13000 :: l) :: more ∧ k = 2 * (w * |w|) := by
  obtain ⟨pts, w, v, h1, h2, -, h3⟩ := crystalRun_modes (by norm_num) (boundRun eig) (bound_good eig he) rfl (boundCrystal k) rfl
    (fun _ => by norm_num [boundCrystal]) (bound_compact k) file h
  rw [show pathPoints (boundRun eig).segs (boundRun eig).delta = _ from exSegment_path.2, Outcome.ok.injEq] at h1
  subst h1
  have hm := h3 0 (by simp) ⟨0, by simp, by simp, by simp⟩
  refine ⟨w 0 0, [w 0 1 * 13000, w 0 2 * 13000], [List.ofFn fun s => w 1 s * (1000 * 13)], ?_, ?_⟩
  · rw [h2]
    simp [List.range_succ, List.ofFn_succ, boundRun]
    norm_num
  · by_contra hne
    have hz : ∀ a i, v 0 0 a i = 0 := by
      intro a i
      have := hm.motion 0 a i
      have hf : ∀ j, (boundCrystal k).fourier (⟨0, 0, 0⟩ : V3 ℝ) (a, i) (a, j) = if i = j then (k : ℂ) else 0 := by
        intro j
        simp only [HarmonicCrystal.fourier, boundCrystal, Fin.sum_univ_one]
        split_ifs <;> simp
      have hf' : ∀ j, (boundCrystal k).fourier (⟨0, 0, 0⟩ : V3 ℝ) (a, j) (a, i) = if i = j then (k : ℂ) else 0 := by
        intro j
        simp only [HarmonicCrystal.fourier, boundCrystal, Fin.sum_univ_one, @eq_comm _ j i]
        split_ifs <;> simp
      rw [Fintype.sum_subsingleton _ a] at this
      simp only [List.getElem_cons_zero, hf, hf'] at this
      have e : ∀ j, ((1 : ℂ) / 2 * ((if i = j then (k : ℂ) else 0) + (starRingEnd ℂ) (if i = j then (k : ℂ) else 0))) * v 0 0 a j =
          if i = j then (k : ℂ) * v 0 0 a j else 0 := by
        intro j
        split_ifs
        · rw [Complex.conj_ofReal]; ring
        · simp
      simp only [e, Finset.sum_ite_eq, Finset.mem_univ, if_true] at this
      have h0 : ((k - 2 * (w 0 0 * |w 0 0|) : ℝ) : ℂ) * v 0 0 a i = 0 := by
        have hmass : (((boundCrystal k).mass a : ℝ) : ℂ) = 2 := by norm_num [boundCrystal]
        rw [hmass] at this
        push_cast at this ⊢
        linear_combination this
      rcases mul_eq_zero.mp h0 with h | h
      · exact absurd (by have := Complex.ofReal_eq_zero.mp h; linarith) hne
      · exact h
    have := hm.normal 0 0
    simp [hz] at this

/-- The hypotheses of `C192_bands_partial` are met, and the run ends with a file. -/
example (k : ℝ) : ∃ R : BandsRun, GoodRun R 1 ∧ ∃ file, bandsFromEspresso R (fcFile samplePrinter ⟨none, none⟩ (boundEspresso k)) = .ok (some file) ∧
    bandsFromPhonopy R (1 / 2) 13 1 (fun _ => .ok 2) (fun s => decide (s = "eV/angstrom^2" ∨ s = "eV/angstrom.au")) true boundPh.lines none
      (boundFc k .evAng2) = .ok (some file) := by
  obtain ⟨eig, he⟩ : ∃ eig : (A : Nat) → EigenSolver A, ∀ A, GoodSolver (eig A) := ⟨fun A => (exists_solver A).choose, fun A => (exists_solver A).choose_spec⟩
  obtain ⟨file, hf⟩ := bound_runs eig k
  obtain ⟨g, e1, g1⟩ := gives_espresso (boundCrystal k) samplePrinter ⟨none, none⟩ (boundEspresso k) (by norm_num) one_pos one_pos one_pos (bound_espresso k)
    (bound_name k)
  have hrun : bandsFromEspresso (boundRun eig) (fcFile samplePrinter ⟨none, none⟩ (boundEspresso k)) = .ok (some file) := by
    unfold bandsFromEspresso
    simp only [Outcome.bind_eq, e1, Outcome.bind_ok]
    rw [bandsOfInput_eq _ _ _ g1, hf]
  refine ⟨boundRun eig, bound_good eig he, file, hrun, ?_⟩
  exact (C192_bands_partial one_pos one_pos one_pos one_pos _ (bound_good eig he) rfl (boundCrystal k) ⟨rfl, rfl⟩ (fun _ => by norm_num [boundCrystal])
    (bound_compact k) samplePrinter ⟨none, none⟩ (boundEspresso k) (by norm_num) (bound_espresso k) (bound_name k) (1 / 2) 13 1 (by norm_num) (by norm_num)
    (fun _ => .ok 2) _ (by simp [FindsEvAng, FcUnit.name]) .evAng2 (Or.inl rfl) boundPh _ (bound_phonopy k .evAng2) cubic_apart6 file hrun).1

/-- Violation: a file of Quantum ESPRESSO and the files of phonopy with the force constants in hartree/au^2 describe the same crystal, both runs end with a file, and
the energies are not the same. -/
theorem C192_violated_units : ∃ (R : BandsRun) (X : HarmonicCrystal 1 1 1 1) (c : FcContents 1 1 1 1 1) (f : PhonopyFile) (fc : Fc2File)
    (evAng : String → Bool) (file file' : BandsFile), GoodRun R 1 ∧ R.rule = "" ∧ X.Plain ∧ EspressoSays X c ∧ FindsEvAng evAng ∧
    PhonopySays X (1 / 2) 13 1 (fun _ => .ok 2) .hartreeAu2 f none fc ∧
    bandsFromEspresso R (fcFile samplePrinter ⟨none, none⟩ c) = .ok (some file) ∧
    bandsFromPhonopy R (1 / 2) 13 1 (fun _ => .ok 2) evAng true f.lines none fc = .ok (some file') ∧ file.energies ≠ file'.energies := by
  obtain ⟨eig, he⟩ : ∃ eig : (A : Nat) → EigenSolver A, ∀ A, GoodSolver (eig A) := ⟨fun A => (exists_solver A).choose, fun A => (exists_solver A).choose_spec⟩
  obtain ⟨evAng, hev'⟩ : ∃ evAng : String → Bool, evAng = fun s => decide (s = "eV/angstrom^2" ∨ s = "eV/angstrom.au") := ⟨_, rfl⟩
  have hev : FindsEvAng evAng := by rw [hev']; simp [FindsEvAng, FcUnit.name]
  obtain ⟨file, hf⟩ := bound_runs eig 4
  obtain ⟨file', hf'⟩ := bound_runs eig 2
  obtain ⟨g, e1, g1⟩ := gives_espresso (boundCrystal 4) samplePrinter ⟨none, none⟩ (boundEspresso 4) (by norm_num) one_pos one_pos one_pos (bound_espresso 4)
    (bound_name 4)
  obtain ⟨p, e2, g2⟩ := gives_phonopy one_pos (boundCrystal 4) (1 / 2) 13 1 (fun _ => .ok 2) evAng .hartreeAu2 boundPh none (boundFc 4 .hartreeAu2)
    (bound_phonopy 4 .hartreeAu2) cubic_apart6 (fun _ => bound_known) (by simp) (unit_ne _)
  have hX : (withForces (boundCrystal 4) fun b n b' i j => (boundCrystal 4).Phi b n b' i j / FcUnit.hartreeAu2.value (1 / 2) 13 *
      (if evAng FcUnit.hartreeAu2.name then (1 / 2) ^ 2 / 13 else 1)) = boundCrystal 2 := by
    rw [hev.2.2.1]
    unfold withForces boundCrystal
    congr 1
    funext b n b' i j
    simp only [FcUnit.value]
    split_ifs <;> norm_num at *
  rw [hX] at g2
  refine ⟨boundRun eig, boundCrystal 4, boundEspresso 4, boundPh, boundFc 4 .hartreeAu2, evAng, file, file', bound_good eig he, rfl, ⟨rfl, rfl⟩,
    bound_espresso 4, hev, bound_phonopy 4 _, ?_, ?_, ?_⟩
  · unfold bandsFromEspresso
    simp only [Outcome.bind_eq, e1, Outcome.bind_ok]
    rw [bandsOfInput_eq _ _ _ g1, hf]
  · unfold bandsFromPhonopy
    simp only [Outcome.bind_eq, e2, Outcome.bind_ok]
    rw [bandsOfInput_eq _ _ _ g2, hf']
  · obtain ⟨w, l, more, h1, h2⟩ := bound_energy eig he 4 file hf
    obtain ⟨w', l', more', h1', h2'⟩ := bound_energy eig he 2 file' hf'
    rw [h1, h1']
    intro he
    simp only [List.cons.injEq] at he
    have : w = w' := by linarith [he.1.1]
    rw [this] at h2
    linarith

end Verif.Props
