import Verif.Spec.WannierRun
import Verif.Proofs.BandsFile
import Verif.Proofs.Atoms
import Verif.Props.WannierFile
import Verif.Props.ElWannierDevice
import Verif.Props.Crystal

namespace Verif.Model
open Verif.Spec Verif.Props

variable {W R : Nat}

theorem foldOutcome_congr {β σ : Type} {f g : β → σ → Outcome σ} {l : List β} (h : ∀ b ∈ l, ∀ s, f b s = g b s) (s : σ) :
    foldOutcome f l s = foldOutcome g l s := by
  induction l generalizing s with
  | nil => rfl
  | cons b t ih =>
    have e := h b (by simp) s
    simp only [foldOutcome, Outcome.bind_eq]
    rw [e]
    congr 1
    funext s'
    exact ih (fun b' hb' => h b' (by simp [hb'])) s'

/-- The energies of the device at a wavevector. -/
noncomputable def devView (eig : ElSolver W) (w : WannierData W R) : HamView Vec3 ℝ ℂ where
  energy k b := if h : b < W then (eig (blochH w k)).1 ⟨b, h⟩ else 0
  vector _ _ _ := 0
  velocity _ _ _ _ := 0

theorem populated_same (eig : ElSolver W) (w : WannierData W R) (wave : Nat → Vec3) (iks : List Nat) (rank : Nat) (ss : List FullStore)
    (hss : ss.Perm (wannierStores false false iks)) (F : FullBands ℝ ℂ) :
    fullRun (populatedView iks ((iks.map wave).map fun k => some (eig (blochH w k)).1)) id rank ss F = fullRun (devView eig w) wave rank ss F := by
  refine foldOutcome_congr (fun b hb s => ?_) F
  have hb' := hss.mem_iff.mp hb
  simp only [wannierStores, List.mem_flatMap] at hb'
  obtain ⟨ik, hik, h⟩ := hb'
  simp at h
  subst h
  show s.setEnergies rank ik _ = s.setEnergies rank ik _
  congr 1
  refine List.map_congr_left fun b _ => ?_
  have hlt : iks.idxOf ik < iks.length := List.idxOf_lt_length_iff.mpr hik
  simp only [populatedView, devView, id, List.map_map, List.getElem?_map, List.getElem?_eq_getElem hlt, List.getElem_idxOf, Option.map_some, Function.comp]

theorem atoms_known {names : List (List Char)} {species : List Int} {positions : List Vec3} (h : KnownAtoms names species positions) : (∃ ms, wannierMasses elementTable names = .ok ms) ∧
    (∃ vs, mapOutcome (getMassVariance elementTable) names = .ok vs) ∧ ∃ ns, mapOutcome (readInt names) species = .ok ns := by
  have gen : ∀ {α β : Type} (f : α → Outcome β) (l : List α), (∀ a ∈ l, ∃ b, f a = .ok b) → ∃ bs, mapOutcome f l = .ok bs := by
    intro α β f l
    induction l with
    | nil => exact fun _ => ⟨[], rfl⟩
    | cons a t ih =>
      intro hl
      obtain ⟨b, hb⟩ := hl a (by simp)
      obtain ⟨bs, hbs⟩ := ih fun x hx => hl x (by simp [hx])
      exact ⟨b :: bs, by simp only [mapOutcome, Outcome.bind_eq]; rw [hb, Outcome.bind_ok, hbs, Outcome.bind_ok]⟩
  refine ⟨gen _ _ fun n hn => ?_, gen _ _ fun n hn => ?_, gen _ _ fun s hs => ?_⟩
  · obtain ⟨e, he, rfl⟩ := h.names n hn
    exact ⟨_, getMass_val e he⟩
  · obtain ⟨e, he, rfl⟩ := h.names n hn
    exact ⟨_, getMassVariance_val e he⟩
  · obtain ⟨h1, h2⟩ := h.species s hs
    unfold readInt
    rw [if_neg (by omega)]
    have : s.toNat < names.length := by omega
    exact ⟨names[s.toNat], by unfold readAt; simp [this]⟩

/-- The run up to the batches. -/
theorem run_populate (A : WannierApp) (pts : List (V3 ℝ)) (hA : GoodWannierApp A W pts) (hW : 0 < W) (tb : List TextLine) (ws : Option (Bool × List TextLine))
    (m : Mat3) (d : WannierData W R) (hparse : parseWannier A.ry A.ang none tb ws = .ok ⟨W, R, m, d⟩) (cell : Cell) (hcell : makeCell m = .ok cell) :
    ∃ (F : FullBands ℝ ℂ) (c : AtomsView), FullBands.make A.size W pts.length false false false false = .ok F ∧ F.wavevectorIndices A.rank = .ok (List.range pts.length) ∧
      A.run tb ws = (elKokkosPopulate (elKernel (A.eig W) d) ((List.range pts.length).map (pathWave cell id pts)) ((List.range pts.length).map Int.ofNat) A.batchSize).bind
        fun es => (fullRun (populatedView (List.range pts.length) es) id A.rank (A.sched (wannierStores false false (List.range pts.length))) F).bind
        fun F => outputBandsToJSON A.ry A.ang false A.want c A.segs pts F A.rank := by
  obtain ⟨⟨ms, hms⟩, ⟨vs, hvs⟩, ns, hns⟩ := atoms_known hA.atoms
  obtain ⟨F, iks, g1, g2, _, g4⟩ := C165_wavevectors (α := ℝ) (γ := ℂ) A.size W pts.length (by have := hA.process; omega) hW hA.processes false false
    false false (by simp)
  have hi : F.wavevectorIndices A.rank = .ok (List.range pts.length) := by rw [g2 _ hA.process, g4 rfl _ hA.process]
  refine ⟨F, ⟨m, A.positions, ns.map String.ofList⟩, g1, hi, ?_⟩
  unfold WannierApp.run
  simp only [Outcome.bind_eq]
  rw [hparse, Outcome.bind_ok, hms, Outcome.bind_ok, hcell, Outcome.bind_ok, if_neg (by simpa using hA.atoms.length), hvs, Outcome.bind_ok, hns, Outcome.bind_ok, hA.path,
    Outcome.bind_ok, g1, Outcome.bind_ok, hi, Outcome.bind_ok]

theorem run_electron (A : WannierApp) (pts : List (V3 ℝ)) (hA : GoodWannierApp A W pts) (hW : 0 < W) (tb : List TextLine) (ws : Option (Bool × List TextLine))
    (m : Mat3) (d : WannierData W R) (hd : d.shifts = none) (hparse : parseWannier A.ry A.ang none tb ws = .ok ⟨W, R, m, d⟩) (cell : Cell)
    (hcell : makeCell m = .ok cell) :
    ∃ c, A.run tb ws = electronBandsApp A.ry A.ang false A.want W (devView (A.eig W) d) cell id c A.segs A.delta A.sched A.size A.rank := by
  obtain ⟨F, c, h1, h2, h3⟩ := run_populate A pts hA hW tb ws m d hparse cell hcell
  refine ⟨c, ?_⟩
  have hpos : 0 < pts.length := by have := hA.process; have := hA.processes; omega
  rw [h3, C106_points_partial (fun k => (A.eig W (blochH d k)).1) _ (fun ks => ?_) _ _ _ (by simp) (by simp; rintro rfl; simp at hpos) hA.batch (by simpa using hA.fits.1), Outcome.bind_ok,
    populated_same _ d _ _ _ _ (hA.sched _)]
  · unfold electronBandsApp
    rw [hA.path]
    simp only [Outcome.bind_eq, Outcome.bind_ok]
    rw [h1, Outcome.bind_ok, h2, Outcome.bind_ok]
    rfl
  · exact mapOutcome_eq_map _ _ _ fun k _ => by
      simp only [Outcome.bind_eq]
      rw [devBloch_none d hd, Outcome.bind_ok]

/-- The Hamiltonian of the file in the two units. -/
theorem tb_units (ry ang : ℝ) (hr : ry ≠ 0) (c : TbContents W R) (cell : Cell) (hcell : makeCell (fileCell ang c) = .ok cell) (p : V3 ℝ) :
    tbHamiltonian c p = (ry : ℂ) • wannierH ry ang c (cartesianOf cell.reciprocal p) := by
  have hdual : DualCells (fileCell ang c) cell.reciprocal := by
    have h := (C69_reciprocal _ cell hcell).1
    rw [(makeCell_ok _ cell hcell).2.1] at h
    exact h
  have hr' : (ry : ℂ) ≠ 0 := by exact_mod_cast hr
  funext m n
  rw [Matrix.smul_apply]
  unfold tbHamiltonian wannierH
  rw [smul_eq_mul, Finset.mul_sum]
  refine Finset.sum_congr rfl fun r _ => ?_
  have hph : phase (cartesianOf cell.reciprocal p) (latticeVector ang c.cell (c.vector r)) =
      Complex.exp (((2 * Real.pi * (p.x * (c.vector r).x + p.y * (c.vector r).y + p.z * (c.vector r).z) : ℝ) : ℂ) * Complex.I) := by
    rw [phase_cis, ← matVec_lattice]
    have hk : cartesianOf cell.reciprocal p = matVec cell.reciprocal ![p.x, p.y, p.z] := by
      funext i
      simp [cartesianOf, matVec, vdot]
    rw [hk, dual_dot hdual, Fin.sum_univ_three]
    unfold cis
    rw [mul_comm]
    simp [toVec]
  rw [hph]
  field_simp

theorem eigen_scale {d : Matrix (Fin W) (Fin W) ℂ} {e : Fin W → ℝ} {u : Matrix (Fin W) (Fin W) ℂ} (h : IsEigenDecomposition d e u) (s : ℝ) (hs : 0 ≤ s) :
    IsEigenDecomposition ((s : ℂ) • d) (fun b => e b * s) u where
  sorted := fun a b hab => mul_le_mul_of_nonneg_right (h.sorted hab) hs
  left := h.left
  right := h.right
  eigen := by
    rw [Matrix.smul_mul, h.eigen, ← Matrix.mul_smul]
    congr 1
    funext a b
    by_cases hab : a = b
    · subst hab
      simp [mul_comm]
    · simp [Matrix.diagonal_apply_ne _ hab]

theorem tb_hermitian (c : TbContents W R) (h : HermitianContents c) (p : V3 ℝ) : (tbHamiltonian c p).IsHermitian := by
  obtain ⟨opp, ho⟩ := h
  funext m n
  rw [Matrix.conjTranspose_apply]
  unfold tbHamiltonian
  rw [star_sum, ← Equiv.sum_comp opp]
  refine Finset.sum_congr rfl fun r _ => ?_
  obtain ⟨h1, h2, h3⟩ := ho r
  rw [h1, h2, h3 m n]
  simp only [star_mul', star_div₀, RCLike.star_def, map_natCast, starRingEnd_self_apply, ← Complex.exp_conj, map_mul, Complex.conj_ofReal, Complex.conj_I]
  congr 3
  push_cast
  ring

end Verif.Model
