import Verif.Spec.WannierDos
import Verif.Proofs.WannierRun
import Verif.Proofs.DosApp

namespace Verif.Model
open Verif.Spec Verif.Props Verif.Proofs

variable {W R : Nat}

theorem mapOutcome_congr' {α β : Type} {f g : α → Outcome β} {l : List α} (h : ∀ a ∈ l, f a = g a) : mapOutcome f l = mapOutcome g l := by
  induction l with
  | nil => rfl
  | cons a t ih =>
    simp only [mapOutcome, Outcome.bind_eq]
    rw [h a (by simp), ih fun x hx => h x (by simp [hx])]

/-- The bands of a process are those of the Hamiltonian on the device. -/
theorem dosBands_electron (D : WannierDosApp) (hD : GoodWannierDos D W) (hW : 0 < W) (hsize : D.size ≤ (D.mesh.x * D.mesh.y * D.mesh.z).toNat)
    (w : WannierData W R) (hw : w.shifts = none) (cell : Cell) (rank : Nat) (hrank : rank < D.size) :
    D.bands w cell rank = dosBands (.wannier D.sched) W (devView (D.eig W) w) cell id D.mesh D.size rank := by
  obtain ⟨F, iks, g1, g2, _, g4⟩ := C165_wavevectors (α := ℝ) (γ := ℂ) D.size W (D.mesh.x * D.mesh.y * D.mesh.z).toNat (by omega) hW hsize false false
    false false (by simp)
  have hi : F.wavevectorIndices rank = .ok (List.range (D.mesh.x * D.mesh.y * D.mesh.z).toNat) := by rw [g2 _ hrank, g4 rfl _ hrank]
  have hpos : 0 < (D.mesh.x * D.mesh.y * D.mesh.z).toNat := by omega
  have g1' : FullBands.make D.size W (D.mesh.x * D.mesh.y * D.mesh.z).toNat (Filler.wannier D.sched).isPhonon false false false = .ok F := g1
  unfold WannierDosApp.bands dosBands
  simp only [Outcome.bind_eq]
  rw [g1', g1, Outcome.bind_ok, Outcome.bind_ok, hi, Outcome.bind_ok, Outcome.bind_ok,
    C106_points_partial (fun k => (D.eig W (blochH w k)).1) _ (fun ks => ?_) _ _ _ (by simp) (by intro h; simp at h; omega) (hD.batch rank)
      (by simpa using hD.points), Outcome.bind_ok,
    populated_same _ w _ _ _ _ (hD.sched _ _)]
  · rfl
  · exact mapOutcome_eq_map _ _ _ fun k _ => by
      simp only [Outcome.bind_eq]
      rw [devBloch_none w hw, Outcome.bind_ok]

/-- The run after the parser. -/
theorem dosRun_electron (D : WannierDosApp) (hD : GoodWannierDos D W) (hW : 0 < W) (hsize : D.size ≤ (D.mesh.x * D.mesh.y * D.mesh.z).toNat)
    (tb : List TextLine) (ws : Option (Bool × List TextLine)) (m : Mat3) (w : WannierData W R) (hw : w.shifts = none)
    (hparse : parseWannier (energyRyToEvOf D.k) D.ang none tb ws = .ok ⟨W, R, m, w⟩) (cell : Cell) (hcell : makeCell m = .ok cell) :
    D.run tb ws = dosApp D.k (.wannier D.sched) W (devView (D.eig W) w) cell id D.rots D.mesh D.minEnergy D.maxEnergy D.delta D.size := by
  obtain ⟨⟨ms, hms⟩, ⟨vs, hvs⟩, ns, hns⟩ := atoms_known hD.atoms
  unfold WannierDosApp.run dosApp
  simp only [Outcome.bind_eq]
  rw [hparse, Outcome.bind_ok, hms, Outcome.bind_ok, hcell, Outcome.bind_ok, if_neg (by simpa using hD.atoms.length), hvs, Outcome.bind_ok, hns, Outcome.bind_ok]
  rw [mapOutcome_congr' (g := fun rank => (dosPoints D.rots D.mesh D.size rank).bind fun s =>
    (dosBands (.wannier D.sched) W (devView (D.eig W) w) cell id D.mesh D.size rank).bind fun F => .ok (s, F)) fun rank hr => ?_]
  · rfl
  · rw [dosBands_electron D hD hW hsize w hw cell rank (List.mem_range.mp hr)]

/-- The bands of the file are periodic. -/
theorem wannierH_periodic (ry ang : ℝ) (c : TbContents W R) (cell : Cell) (hcell : makeCell (fileCell ang c) = .ok cell) (k q : Vec3)
    (h : SameModLattice cell.reciprocal k q) : wannierH ry ang c k = wannierH ry ang c q := by
  have hdual : DualCells (fileCell ang c) cell.reciprocal := by
    have h := (C69_reciprocal _ cell hcell).1
    rw [(makeCell_ok _ cell hcell).2.1] at h
    exact h
  obtain ⟨z, hz⟩ := h
  funext m n
  unfold wannierH
  refine Finset.sum_congr rfl fun r _ => ?_
  have hph : phase k (latticeVector ang c.cell (c.vector r)) = phase q (latticeVector ang c.cell (c.vector r)) := by
    rw [phase_cis, phase_cis, ← matVec_lattice]
    have hk : k = fun i => q i + matVec cell.reciprocal (fun j => (z j : ℝ)) i := by
      funext i
      rw [hz i, Fin.sum_univ_three]
      simp only [matVec, vdot]
      ring
    have hd := dual_dot hdual (fun j => (z j : ℝ)) (toVec (c.vector r))
    have hsum : vdot k (matVec (fileCell ang c) (toVec (c.vector r))) = vdot q (matVec (fileCell ang c) (toVec (c.vector r))) +
        ((z 0 * (c.vector r).x + z 1 * (c.vector r).y + z 2 * (c.vector r).z : ℤ) : ℝ) * (2 * Real.pi) := by
      have : vdot k (matVec (fileCell ang c) (toVec (c.vector r))) = vdot q (matVec (fileCell ang c) (toVec (c.vector r))) +
          vdot (matVec cell.reciprocal fun j => (z j : ℝ)) (matVec (fileCell ang c) (toVec (c.vector r))) := by
        rw [hk]
        simp only [vdot]
        ring
      rw [this, hd, Fin.sum_univ_three]
      simp [toVec]
      ring
    rw [hsum, cis_periodic]
  rw [hph]

end Verif.Model
