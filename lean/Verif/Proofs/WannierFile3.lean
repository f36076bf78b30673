import Verif.Proofs.WannierFile2
import Verif.Proofs.ElWannier2
import Mathlib.LinearAlgebra.Matrix.Charpoly.Basic
import Mathlib.LinearAlgebra.Matrix.Charpoly.Coeff

namespace Verif.Model

open Verif.Spec

variable {W R : Nat}

/-- The unit cell of the file. -/
noncomputable def fileCell (bohrToAng : ℝ) (c : TbContents W R) : Mat3 := fun j i => c.cell i j / bohrToAng

/-- The arrays of the file of shifts. -/
noncomputable def fileShifts (cell : Mat3) (s : ShiftContents W R) : WannierShifts W R :=
  ⟨s.count, fun j a b r => if j.1 < s.count a b r then matVec cell (toVec (s.shift a b r j)) else 0⟩

theorem parseWannier_none (pr : Printer) (title : TextLine) (ryToEv bohrToAng : ℝ) (inCell : Option Mat3)
    (c : TbContents W R) :
    parseWannier ryToEv bohrToAng inCell (tbFile pr title c) none = .ok ⟨W, R, inCell.getD (fileCell bohrToAng c),
      tbData ryToEv bohrToAng (inCell.getD (fileCell bohrToAng c)) c⟩ := by
  unfold parseWannier
  rw [parseTb_file]
  rfl

theorem parseWannier_some (pr : Printer) (title title' : TextLine) (ryToEv bohrToAng : ℝ) (inCell : Option Mat3)
    (c : TbContents W R) (s : ShiftContents W R) (h8 : ∀ m n r, s.count m n r ≤ 8)
    (hv : Function.Injective c.vector) (h0 : ∀ r : Fin R, r.1 = 0 → c.vector r ≠ ⟨0, 0, 0⟩) (d : WannierData W R)
    (hd : addShiftedVectors (tbData ryToEv bohrToAng (inCell.getD (fileCell bohrToAng c)) c)
      (fileShifts (inCell.getD (fileCell bohrToAng c)) s) = .ok d) :
    parseWannier ryToEv bohrToAng inCell (tbFile pr title c) (some (true, wsVecFile pr title' c s)) =
      .ok ⟨W, R, inCell.getD (fileCell bohrToAng c), d⟩ := by
  have e : parseTb ryToEv bohrToAng inCell (tbFile pr title c) = .ok ⟨W, R, inCell.getD (fileCell bohrToAng c),
      tbData ryToEv bohrToAng (inCell.getD (fileCell bohrToAng c)) c⟩ := parseTb_file pr title ryToEv bohrToAng inCell c
  unfold parseWannier
  rw [e]
  have e2 : parseWsVec W R (inCell.getD (fileCell bohrToAng c)) true (wsVecFile pr title' c s) =
      .ok (fileShifts (inCell.getD (fileCell bohrToAng c)) s) :=
    parseWsVec_file pr title' _ c s h8 (fun r r' h e => by have := hv e; omega) h0
  dsimp only [Outcome.bind_eq, Outcome.bind]
  rw [e2]
  dsimp only [Outcome.bind]
  rw [hd]

theorem addShifts_ok (w : WannierData W R) (cell : Mat3) (s : ShiftContents W R) (h8 : ∀ m n r, s.count m n r ≤ 8) :
    ∃ d, addShiftedVectors w (fileShifts cell s) = .ok d := by
  unfold addShiftedVectors
  rw [if_neg (by push Not; exact h8)]
  exact ⟨_, rfl⟩

/-- The content with the elements of the matrices transposed. -/
def transposed (c : TbContents W R) : TbContents W R := { c with ham := fun r m n => c.ham r n m }

theorem phase_cis (k x : Vec3) : phase k x = cis (vdot k x) := by
  unfold phase cis
  rw [Fin.sum_univ_three]
  rfl

theorem matVec_lattice (bohrToAng : ℝ) (c : TbContents W R) (v : V3 Int) :
    matVec (fileCell bohrToAng c) (toVec v) = latticeVector bohrToAng c.cell v := by
  funext i
  simp only [fileCell, matVec, vdot, toVec, latticeVector]
  simp
  ring

theorem blochH_file (ryToEv bohrToAng : ℝ) (c : TbContents W R) (k : Vec3) :
    blochH (tbData ryToEv bohrToAng (fileCell bohrToAng c) c) k =
      wannierH ryToEv bohrToAng (transposed c) k := by
  funext a b
  rw [blochH_apply]
  unfold wannierH
  refine Finset.sum_congr rfl fun r _ => ?_
  simp only [WannierData.images, tbData, transposed, List.map_cons, List.map_nil, List.sum_cons, List.sum_nil,
    List.length_singleton]
  rw [matVec_lattice, phase_cis]
  simp

theorem wannierH_transposed (ryToEv bohrToAng : ℝ) (c : TbContents W R) (k : Vec3) :
    wannierH ryToEv bohrToAng (transposed c) k = (wannierH ryToEv bohrToAng c k).transpose := rfl

theorem blochH_shifted (ryToEv bohrToAng : ℝ) (c : TbContents W R) (s : ShiftContents W R) (h8 : ∀ m n r, s.count m n r ≤ 8)
    (d : WannierData W R)
    (hd : addShiftedVectors (tbData ryToEv bohrToAng (fileCell bohrToAng c) c) (fileShifts (fileCell bohrToAng c) s) = .ok d)
    (k : Vec3) :
    blochH d k = wannierHShifted ryToEv bohrToAng (transposed c) s k := by
  unfold addShiftedVectors fileShifts at hd
  rw [if_neg (by push Not; exact h8)] at hd
  cases hd
  funext a b
  rw [blochH_apply]
  unfold wannierHShifted
  refine Finset.sum_congr rfl fun r _ => ?_
  simp only [WannierData.images, List.map_map, List.length_map, List.length_range]
  rw [← List.sum_toFinset _ List.nodup_range, List.toFinset_range, Finset.sum_div, Finset.sum_mul]
  refine Finset.sum_congr rfl fun j hj => ?_
  have hj : j < s.count a b r := Finset.mem_range.mp hj
  have hj8 : j < 8 := by have := h8 a b r; omega
  simp only [Function.comp, WannierShifts.at, dif_pos hj8, if_pos hj]
  rw [← phase_cis]
  simp only [tbData]
  rw [matVec_lattice, matVec_lattice, add_comm]
  simp [transposed]

theorem charpoly_transposed (H : Matrix (Fin W) (Fin W) ℂ) : H.transpose.charpoly = H.charpoly :=
  Matrix.charpoly_transpose H

/-- Five lattice vectors along a line, for a grid of four wavevectors. -/
noncomputable def lineContents (ryToEv bohrToAng : ℝ) : TbContents 2 5 where
  cell := fun i j => if i = j then bohrToAng else 0
  degeneracy := ![2, 1, 1, 1, 2]
  vector := ![⟨-2, 0, 0⟩, ⟨-1, 0, 0⟩, ⟨0, 0, 0⟩, ⟨1, 0, 0⟩, ⟨2, 0, 0⟩]
  ham := fun r m n => if m = 0 ∧ n = 1 then (![(ryToEv : ℂ), 0, ryToEv, ryToEv, ryToEv] : Fin 5 → ℂ) r
    else if m = 1 ∧ n = 0 then (![(ryToEv : ℂ), ryToEv, ryToEv, 0, ryToEv] : Fin 5 → ℂ) r else 0
  pos := fun _ _ _ _ => 0

/-- The images of the pairs: the second function is on the left of the first. -/
def lineShifts : ShiftContents 2 5 where
  count := fun _ _ _ => 1
  shift := fun m n r _ => if m = 0 ∧ n = 1 ∧ r = 4 then ⟨-4, 0, 0⟩ else if m = 1 ∧ n = 0 ∧ r = 0 then ⟨4, 0, 0⟩ else ⟨0, 0, 0⟩

/-- A third of the way along the line of wavevectors. -/
noncomputable def lineK : Vec3 := ![2 * Real.pi / 3, 0, 0]

theorem line_phase (bohrToAng ryToEv : ℝ) (hb : bohrToAng ≠ 0) (v v' : V3 Int) :
    phase lineK (latticeVector bohrToAng (lineContents ryToEv bohrToAng).cell v +
      latticeVector bohrToAng (lineContents ryToEv bohrToAng).cell v') = cis (2 * Real.pi / 3 * ((v.x + v'.x : Int) : ℝ)) := by
  rw [phase_cis]
  congr 1
  simp [vdot, lineK, latticeVector, lineContents]
  field_simp

theorem third_sum : 1 + cis (2 * Real.pi / 3 * (1 : Int)) + cis (2 * Real.pi / 3 * (-1 : Int)) = 0 := by
  have h := wave_sum 3 (by norm_num) 1
  rw [Fin.sum_univ_three, if_neg (by norm_num)] at h
  have e0 : cis (2 * Real.pi * ((1 : ℤ) * (((0 : Fin 3).1 : ℕ) : ℝ) / (3 : ℕ))) = 1 := by
    rw [← cis_zero]; congr 1; simp
  have e1 : cis (2 * Real.pi * ((1 : ℤ) * (((1 : Fin 3).1 : ℕ) : ℝ) / (3 : ℕ))) = cis (2 * Real.pi / 3 * (1 : Int)) := by
    congr 1; simp; ring
  have e2 : cis (2 * Real.pi * ((1 : ℤ) * (((2 : Fin 3).1 : ℕ) : ℝ) / (3 : ℕ))) = cis (2 * Real.pi / 3 * (-1 : Int)) := by
    rw [← cis_periodic (2 * Real.pi / 3 * (-1 : Int)) 1]; congr 1; simp; ring
  rw [e0, e1, e2] at h
  exact h

theorem third_two : cis (2 * Real.pi / 3 * (2 : Int)) = cis (2 * Real.pi / 3 * (-1 : Int)) := by
  rw [← cis_periodic (2 * Real.pi / 3 * (-1 : Int)) 1]; congr 1; push_cast; ring

theorem third_minus_two : cis (2 * Real.pi / 3 * (-2 : Int)) = cis (2 * Real.pi / 3 * (1 : Int)) := by
  rw [← cis_periodic (2 * Real.pi / 3 * (-2 : Int)) 1]; congr 1; push_cast; ring

theorem third_zero : cis (2 * Real.pi / 3 * (0 : Int)) = 1 := by
  rw [← cis_zero]; congr 1; simp

theorem third_mul : cis (2 * Real.pi / 3 * (1 : Int)) * cis (2 * Real.pi / 3 * (-1 : Int)) = 1 := by
  rw [← cis_add, ← cis_zero]; congr 1; push_cast; ring

theorem line_element (ryToEv bohrToAng : ℝ) (hb : bohrToAng ≠ 0) (c : TbContents 2 5)
    (hc : c.cell = (lineContents ryToEv bohrToAng).cell) (hv : c.vector = (lineContents ryToEv bohrToAng).vector)
    (hd : c.degeneracy = (lineContents ryToEv bohrToAng).degeneracy) (m n : Fin 2) :
    wannierHShifted ryToEv bohrToAng c lineShifts lineK m n =
      cis (2 * Real.pi / 3 * ((-2 + (lineShifts.shift m n 0 0).x : Int) : ℝ)) / 2 * (c.ham 0 m n / ryToEv) +
      cis (2 * Real.pi / 3 * ((-1 + (lineShifts.shift m n 1 0).x : Int) : ℝ)) / 1 * (c.ham 1 m n / ryToEv) +
      cis (2 * Real.pi / 3 * ((0 + (lineShifts.shift m n 2 0).x : Int) : ℝ)) / 1 * (c.ham 2 m n / ryToEv) +
      cis (2 * Real.pi / 3 * ((1 + (lineShifts.shift m n 3 0).x : Int) : ℝ)) / 1 * (c.ham 3 m n / ryToEv) +
      cis (2 * Real.pi / 3 * ((2 + (lineShifts.shift m n 4 0).x : Int) : ℝ)) / 2 * (c.ham 4 m n / ryToEv) := by
  unfold wannierHShifted
  have hcount : ∀ r, lineShifts.count m n r = 1 := fun r => rfl
  simp only [hcount, Finset.sum_range_one]
  rw [hc, hv, hd]
  simp only [line_phase bohrToAng ryToEv hb]
  rw [Fin.sum_univ_five]
  simp [lineContents]

theorem line_det (ryToEv bohrToAng : ℝ) (hr : ryToEv ≠ 0) (hb : bohrToAng ≠ 0) :
    (wannierHShifted ryToEv bohrToAng (lineContents ryToEv bohrToAng) lineShifts lineK).det = -3 ∧
    (wannierHShifted ryToEv bohrToAng (transposed (lineContents ryToEv bohrToAng)) lineShifts lineK).det = 0 := by
  have hr' : (ryToEv : ℂ) ≠ 0 := by exact_mod_cast hr
  have h1 := third_sum
  have h2 := third_mul
  have h3 := third_two
  have h4 := third_minus_two
  have h5 := third_zero
  obtain ⟨x, hx⟩ : ∃ x, x = cis (2 * Real.pi / 3 * (1 : Int)) := ⟨_, rfl⟩
  obtain ⟨y, hy⟩ : ∃ y, y = cis (2 * Real.pi / 3 * (-1 : Int)) := ⟨_, rfl⟩
  rw [← hx, ← hy] at h1 h2
  rw [← hy] at h3
  rw [← hx] at h4
  constructor
  · rw [Matrix.det_fin_two]
    rw [line_element ryToEv bohrToAng hb (lineContents ryToEv bohrToAng) rfl rfl rfl 0 0,
      line_element ryToEv bohrToAng hb (lineContents ryToEv bohrToAng) rfl rfl rfl 0 1,
      line_element ryToEv bohrToAng hb (lineContents ryToEv bohrToAng) rfl rfl rfl 1 0]
    norm_num [lineShifts, lineContents, div_self hr']
    push_cast at *
    norm_num at *
    simp only [h3, h4, h5, ← hx, ← hy]
    have hr3 : (ryToEv : ℂ) ≠ 0 := by exact_mod_cast hr
    field_simp
    linear_combination 8 * h1 + 16 * h2
  · rw [Matrix.det_fin_two]
    rw [line_element ryToEv bohrToAng hb (transposed (lineContents ryToEv bohrToAng)) rfl rfl rfl 0 0,
      line_element ryToEv bohrToAng hb (transposed (lineContents ryToEv bohrToAng)) rfl rfl rfl 0 1]
    norm_num [lineShifts, lineContents, transposed, div_self hr']
    push_cast at *
    norm_num at *
    simp only [h3, h4, h5, ← hx, ← hy]
    have hr3 : (ryToEv : ℂ) ≠ 0 := by exact_mod_cast hr
    left
    field_simp
    linear_combination 2 * h1

theorem line_offdiag (ryToEv bohrToAng : ℝ) (hr : ryToEv ≠ 0) (hb : bohrToAng ≠ 0) :
    wannierHShifted ryToEv bohrToAng (lineContents ryToEv bohrToAng) lineShifts lineK 0 1 =
      1 + 2 * cis (2 * Real.pi / 3 * (1 : Int)) ∧
    wannierHShifted ryToEv bohrToAng (lineContents ryToEv bohrToAng) lineShifts lineK 1 0 =
      1 + 2 * cis (2 * Real.pi / 3 * (-1 : Int)) := by
  have hr' : (ryToEv : ℂ) ≠ 0 := by exact_mod_cast hr
  have h3 := third_two
  have h4 := third_minus_two
  have h5 := third_zero
  rw [line_element ryToEv bohrToAng hb (lineContents ryToEv bohrToAng) rfl rfl rfl 0 1,
    line_element ryToEv bohrToAng hb (lineContents ryToEv bohrToAng) rfl rfl rfl 1 0]
  obtain ⟨x, hx⟩ : ∃ x, x = cis (2 * Real.pi / 3 * (1 : Int)) := ⟨_, rfl⟩
  obtain ⟨y, hy⟩ : ∃ y, y = cis (2 * Real.pi / 3 * (-1 : Int)) := ⟨_, rfl⟩
  rw [← hy] at h3
  rw [← hx] at h4
  rw [← hx, ← hy]
  have hr3 : (ryToEv : ℂ) / (ryToEv : ℂ) = 1 := div_self hr'
  have s00 : (lineShifts.shift 0 1 0 0).x = 0 := rfl
  have t00 : (lineContents ryToEv bohrToAng).ham 0 0 1 = ryToEv := by simp [lineContents]
  have s01 : (lineShifts.shift 0 1 1 0).x = 0 := rfl
  have t01 : (lineContents ryToEv bohrToAng).ham 1 0 1 = 0 := by simp [lineContents]
  have s02 : (lineShifts.shift 0 1 2 0).x = 0 := rfl
  have t02 : (lineContents ryToEv bohrToAng).ham 2 0 1 = ryToEv := by simp [lineContents]
  have s03 : (lineShifts.shift 0 1 3 0).x = 0 := rfl
  have t03 : (lineContents ryToEv bohrToAng).ham 3 0 1 = ryToEv := by simp [lineContents]
  have s04 : (lineShifts.shift 0 1 4 0).x = -4 := rfl
  have t04 : (lineContents ryToEv bohrToAng).ham 4 0 1 = ryToEv := by simp [lineContents]
  have s10 : (lineShifts.shift 1 0 0 0).x = 4 := rfl
  have t10 : (lineContents ryToEv bohrToAng).ham 0 1 0 = ryToEv := by simp [lineContents]
  have s11 : (lineShifts.shift 1 0 1 0).x = 0 := rfl
  have t11 : (lineContents ryToEv bohrToAng).ham 1 1 0 = ryToEv := by simp [lineContents]
  have s12 : (lineShifts.shift 1 0 2 0).x = 0 := rfl
  have t12 : (lineContents ryToEv bohrToAng).ham 2 1 0 = ryToEv := by simp [lineContents]
  have s13 : (lineShifts.shift 1 0 3 0).x = 0 := rfl
  have t13 : (lineContents ryToEv bohrToAng).ham 3 1 0 = 0 := by simp [lineContents]
  have s14 : (lineShifts.shift 1 0 4 0).x = 0 := rfl
  have t14 : (lineContents ryToEv bohrToAng).ham 4 1 0 = ryToEv := by simp [lineContents]
  simp only [s00, t00, s01, t01, s02, t02, s03, t03, s04, t04, s10, t10, s11, t11, s12, t12, s13, t13, s14, t14]
  norm_num at h3 h4 h5 hx hy ⊢
  simp only [hr3, h3, h4, h5, ← hx, ← hy]
  constructor <;> ring

theorem line_hermitian (ryToEv bohrToAng : ℝ) (hr : ryToEv ≠ 0) (hb : bohrToAng ≠ 0) :
    (wannierHShifted ryToEv bohrToAng (lineContents ryToEv bohrToAng) lineShifts lineK).IsHermitian := by
  have hc : ∀ x : ℝ, star (cis x) = cis (-x) := cis_conj
  obtain ⟨h1, h2⟩ := line_offdiag ryToEv bohrToAng hr hb
  have hd : ∀ m : Fin 2, wannierHShifted ryToEv bohrToAng (lineContents ryToEv bohrToAng) lineShifts lineK m m = 0 := by
    intro m
    unfold wannierHShifted
    refine Finset.sum_eq_zero fun r _ => Finset.sum_eq_zero fun j _ => ?_
    have : (lineContents ryToEv bohrToAng).ham r m m = 0 := by fin_cases m <;> simp [lineContents]
    rw [this]; simp
  have e : star (1 + 2 * cis (2 * Real.pi / 3 * (1 : Int))) = 1 + 2 * cis (2 * Real.pi / 3 * (-1 : Int)) := by
    rw [star_add, star_mul', hc]; simp
  have e' : star (1 + 2 * cis (2 * Real.pi / 3 * (-1 : Int))) = 1 + 2 * cis (2 * Real.pi / 3 * (1 : Int)) := by
    rw [← e, star_star]
  funext m n
  rw [Matrix.conjTranspose_apply]
  fin_cases m <;> fin_cases n
  · show star (wannierHShifted _ _ _ _ _ 0 0) = wannierHShifted _ _ _ _ _ 0 0
    rw [hd]; simp
  · show star (wannierHShifted _ _ _ _ _ 1 0) = wannierHShifted _ _ _ _ _ 0 1
    rw [h1, h2, e']
  · show star (wannierHShifted _ _ _ _ _ 0 1) = wannierHShifted _ _ _ _ _ 1 0
    rw [h1, h2, e]
  · show star (wannierHShifted _ _ _ _ _ 1 1) = wannierHShifted _ _ _ _ _ 1 1
    rw [hd]; simp

end Verif.Model
