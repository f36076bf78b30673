import Verif.Proofs.QeLattice4
import Mathlib.Tactic.IntervalCases

/-!
# C151: lattice vectors from the Bravais index of Quantum ESPRESSO
-/
namespace Verif.Props
open Verif.Model Verif.Spec Verif.Proofs

/-- The full statement is for every Bravais index of the table; index 13 is excluded, see `C151_violated_monoclinic`.  The vectors are a
right-handed primitive cell of the lattice with the given conventional cell and centring, up to `1e-11` in the squares of the lengths. -/
theorem C151_lattice_partial (i : Int) (d : Fin 6 → ℝ) (u : Axes) (cell : ConvCell) (t : Centring) (h13 : i ≠ 13)
    (hb : bravais i d = some (cell, t)) (hp : cell.proper) :
    ∃ v : Axes, getQELattice i d u = .ok (d 0, v) ∧ IsPrimitive (d 0 * d 0 / 100000000000) cell t v.1 v.2.1 v.2.2 := by
  obtain ⟨h0, hd, v, hv, hpr⟩ := index_primitive i d cell t h13 hb hp
  refine ⟨v, by simp [getQELattice, h0, not_le.mpr hd, hv], isPrimitive_mono hpr ?_⟩
  unfold tolOf
  split
  · exact le_refl _
  · positivity

/-- For the indices that do not need the square root of two or three the cell is exact. -/
theorem C151_lattice_exact (i : Int) (d : Fin 6 → ℝ) (u : Axes) (cell : ConvCell) (t : Centring) (h13 : i ≠ 13) (h4 : i ≠ 4) (h5 : i ≠ 5)
    (hb : bravais i d = some (cell, t)) (hp : cell.proper) :
    ∃ v : Axes, getQELattice i d u = .ok (d 0, v) ∧ IsPrimitive 0 cell t v.1 v.2.1 v.2.2 := by
  obtain ⟨h0, hd, v, hv, hpr⟩ := index_primitive i d cell t h13 hb hp
  refine ⟨v, by simp [getQELattice, h0, not_le.mpr hd, hv], isPrimitive_mono hpr ?_⟩
  simp [tolOf, h4, h5]

/-- A base-centred monoclinic and a triclinic cell meet the hypotheses. -/
example : (⟨1, 2, 3, 0, 1 / 2, 0⟩ : ConvCell).proper ∧ bravais (-13) ![1, 2, 3, 0, 1 / 2, 0] = some (⟨1, 2, 3, 0, 1 / 2, 0⟩, .C) := by
  constructor
  · unfold ConvCell.proper
    norm_num [abs_lt]
  · rw [bravais_m13]
    simp

example : (⟨1, 2, 3, 1 / 4, 1 / 3, 1 / 2⟩ : ConvCell).proper ∧
    bravais 14 ![1, 2, 3, 1 / 4, 1 / 3, 1 / 2] = some (⟨1, 2, 3, 1 / 4, 1 / 3, 1 / 2⟩, .P) := by
  constructor
  · unfold ConvCell.proper
    norm_num [abs_lt]
  · rw [bravais_14]
    norm_num
    refine ⟨?_, ?_, ?_⟩ <;> simp

/-- Indices that are not in the table, and parameters of cells that do not exist, are refused; except for flat triclinic cells, see
`C151_violated_flat`. -/
theorem C151_refused_partial (i : Int) (d : Fin 6 → ℝ) (u : Axes) (h0 : i ≠ 0)
    (hf : i = 14 → 1 + 2 * d 3 * d 4 * d 5 - d 3 * d 3 - d 4 * d 4 - d 5 * d 5 ≠ 0)
    (h : ∀ cell t, bravais i d = some (cell, t) → ¬ cell.proper) : getQELattice i d u = .error := by
  unfold getQELattice
  rw [if_neg h0]
  by_cases hd : d 0 ≤ 0
  · rw [if_pos hd]
  · rw [if_neg hd, index_refused i d (not_le.mp hd) h0 hf h]
    rfl

/-- An index that does not exist, and a rhombohedral angle that does not exist. -/
example : bravais 15 ![1, 1, 1, 0, 0, 0] = none ∧ ¬ (⟨1, 1, 1, -(1 / 2), -(1 / 2), -(1 / 2)⟩ : ConvCell).proper := by
  constructor
  · norm_num [bravais]
  · unfold ConvCell.proper
    norm_num

theorem qeNorm_zero (v : Fin 3 → ℝ) : qeNorm v = 0 ↔ v = 0 := by
  unfold qeNorm
  have h : 0 ≤ v 0 * v 0 + v 1 * v 1 + v 2 * v 2 :=
    add_nonneg (add_nonneg (mul_self_nonneg _) (mul_self_nonneg _)) (mul_self_nonneg _)
  rw [Real.sqrt_eq_zero h]
  constructor
  · intro e
    have h0 := mul_self_nonneg (v 0)
    have h1 := mul_self_nonneg (v 1)
    have h2 := mul_self_nonneg (v 2)
    ext m
    fin_cases m <;> simp only [Fin.zero_eta, Fin.mk_one, Fin.reduceFinMk]
    · exact mul_self_eq_zero.mp (by linarith)
    · exact mul_self_eq_zero.mp (by linarith)
    · exact mul_self_eq_zero.mp (by linarith)
  · rintro rfl
    simp

/-- Index zero: vectors of the file, in units of `celldm(1)` if it is given and in Bohr otherwise; vectors that are zero and a negative unit are
refused. -/
theorem C151_free (d : Fin 6 → ℝ) (a b c : Fin 3 → ℝ) :
    getQELattice 0 d (a, b, c) =
      open Classical in
      if a = 0 ∨ b = 0 ∨ c = 0 ∨ d 0 < 0 then .error
      else if d 0 = 0 then .ok (Real.sqrt (dot3 a a), a, b, c)
      else .ok (d 0, fun i => a i * d 0, fun i => b i * d 0, fun i => c i * d 0) := by
  unfold getQELattice freeLattice
  rw [if_pos rfl]
  simp only [qeNorm_zero]
  by_cases h : a = 0 ∨ b = 0 ∨ c = 0
  · rw [if_pos h, if_pos]
    tauto
  · rw [if_neg h]
    by_cases hd : d 0 = 0
    · have hn : ¬ qeNorm a ≤ 0 := by
        intro hle
        exact h (Or.inl ((qeNorm_zero a).mp (le_antisymm hle (Real.sqrt_nonneg _))))
      rw [if_neg (by simpa using hd), if_neg hn, if_neg, if_pos hd]
      · rfl
      · rintro (h' | h' | h' | h')
        · tauto
        · tauto
        · tauto
        · linarith
    · rw [if_pos hd]
      by_cases hl : d 0 ≤ 0
      · rw [if_pos hl, if_pos]
        exact Or.inr (Or.inr (Or.inr (lt_of_le_of_ne hl hd)))
      · rw [if_neg hl, if_neg, if_neg hd]
        rintro (h' | h' | h' | h')
        · tauto
        · tauto
        · tauto
        · linarith

example : getQELattice 0 ![2, 0, 0, 0, 0, 0] (![1, 0, 0], ![0, 3, 0], ![0, 0, 1]) =
    .ok (2, fun i => (![1, 0, 0] : Fin 3 → ℝ) i * 2, fun i => (![0, 3, 0] : Fin 3 → ℝ) i * 2, fun i => (![0, 0, 1] : Fin 3 → ℝ) i * 2) := by
  rw [C151_free, if_neg, if_neg]
  · simp
  · simp
  · rintro (h | h | h | h)
    · exact one_ne_zero (congrFun h 0)
    · exact three_ne_zero (congrFun h 1)
    · exact one_ne_zero (congrFun h 2)
    · norm_num at h

theorem int_of_near {n m : Int} (h : |(n : ℝ) / 16 - (m : ℝ) / 16| ≤ 1 / 100) : n = m := by
  have h' := abs_le.mp h
  have h1 : (n : ℝ) - m < 1 := by linarith [h'.2]
  have h2 : -(1 : ℝ) < (n : ℝ) - m := by linarith [h'.1]
  have h3 : n - m < 1 := by exact_mod_cast h1
  have h4 : -1 < n - m := by exact_mod_cast h2
  omega

/-- Violation: for index 13 (base-centred monoclinic, unique axis c) the code uses `c/a` for the cosine and `celldm(5)` for the sine of the angle.
With a right angle, `a = b = 1` and `c = 1/2` the vectors do not span the lattice, whatever the orientation of the axes, even up to one hundredth. -/
theorem C151_violated_monoclinic : ∃ (d : Fin 6 → ℝ) (cell : ConvCell) (v : Axes), bravais 13 d = some (cell, .B) ∧ cell.proper ∧
    (∀ u, getQELattice 13 d u = .ok (d 0, v)) ∧ ¬ IsPrimitive (1 / 100) cell .B v.1 v.2.1 v.2.2 := by
  refine ⟨![1, 1, 1 / 2, 0, 0, 0], ⟨1, 1, 1 / 2, 0, 0, 0⟩, (![1 / 2, 0, -(1 / 4)], ![1 / 2, 1, 0], ![1 / 2, 0, 1 / 4]), ?_, ?_, ?_, ?_⟩
  · rw [bravais_13]
    simp
  · unfold ConvCell.proper
    norm_num
  · intro u
    simp [getQELattice, indexLattice]
    norm_num
  · rintro ⟨-, A, B, C, hs, -, heq⟩
    have form : ∀ X : CellVec, X ∈ spanOf ![1 / 2, 0, -(1 / 4)] ![1 / 2, 1, 0] ![1 / 2, 0, 1 / 4] →
        ∃ s j D : Int, (s - j - D) % 2 = 0 ∧ X 0 = s / 2 ∧ X 1 = j ∧ X 2 = D / 4 := by
      rintro X ⟨i, j, k, rfl⟩
      refine ⟨i + j + k, j, k - i, by omega, ?_, ?_, ?_⟩
      · simp; ring
      · simp
      · simp; ring
    obtain ⟨sA, jA, DA, pA, A0, A1, A2⟩ := form A (by
      rw [heq]; exact ⟨2, 0, 0, by simp [Centring.holds], by ext m; simp⟩)
    obtain ⟨sB, jB, DB, pB, B0, B1, B2⟩ := form B (by
      rw [heq]; exact ⟨0, 2, 0, by simp [Centring.holds], by ext m; simp⟩)
    obtain ⟨sC, jC, DC, pC, C0, C1, C2⟩ := form C (by
      rw [heq]; exact ⟨0, 0, 2, by simp [Centring.holds], by ext m; simp⟩)
    have cc := hs.cc
    have ac := hs.ac
    have aa := hs.aa
    have ab := hs.ab
    have bc := hs.bc
    have bb := hs.bb
    simp only [dot3, A0, A1, A2, B0, B1, B2, C0, C1, C2] at cc ac aa ab bc bb
    have hcc : 4 * sC * sC + 16 * jC * jC + DC * DC = 4 := by
      apply int_of_near
      refine le_trans (le_of_eq ?_) cc
      congr 1; push_cast; ring
    have hac : 4 * sA * sC + 16 * jA * jC + DA * DC = 0 := by
      apply int_of_near
      refine le_trans (le_of_eq ?_) ac
      congr 1; push_cast; ring
    have haa : 4 * sA * sA + 16 * jA * jA + DA * DA = 16 := by
      apply int_of_near
      refine le_trans (le_of_eq ?_) aa
      congr 1; push_cast; ring
    have hab : 4 * sA * sB + 16 * jA * jB + DA * DB = 0 := by
      apply int_of_near
      refine le_trans (le_of_eq ?_) ab
      congr 1; push_cast; ring
    have hbc : 4 * sB * sC + 16 * jB * jC + DB * DC = 0 := by
      apply int_of_near
      refine le_trans (le_of_eq ?_) bc
      congr 1; push_cast; ring
    have hbb : 4 * sB * sB + 16 * jB * jB + DB * DB = 16 := by
      apply int_of_near
      refine le_trans (le_of_eq ?_) bb
      congr 1; push_cast; ring
    have hC : sC = 0 ∧ jC = 0 ∧ (DC = 2 ∨ DC = -2) := by
      have b1 : -1 ≤ sC ∧ sC ≤ 1 := by constructor <;> nlinarith [sq_nonneg jC, sq_nonneg DC, sq_nonneg sC]
      have b2 : -0 ≤ jC ∧ jC ≤ 0 := by constructor <;> nlinarith [sq_nonneg jC, sq_nonneg DC, sq_nonneg sC]
      have b3 : -2 ≤ DC ∧ DC ≤ 2 := by constructor <;> nlinarith [sq_nonneg jC, sq_nonneg DC, sq_nonneg sC]
      obtain ⟨l1, l2⟩ := b1
      obtain ⟨l3, l4⟩ := b2
      obtain ⟨l5, l6⟩ := b3
      have : jC = 0 := by omega
      subst this
      interval_cases sC <;> interval_cases DC <;> omega
    obtain ⟨rfl, rfl, hD⟩ := hC
    have hDA : DA = 0 := by rcases hD with rfl | rfl <;> omega
    have hDB : DB = 0 := by rcases hD with rfl | rfl <;> omega
    subst hDA hDB
    have b1 : -2 ≤ sA ∧ sA ≤ 2 := by constructor <;> nlinarith [sq_nonneg jA, sq_nonneg sA]
    have b2 : -1 ≤ jA ∧ jA ≤ 1 := by constructor <;> nlinarith [sq_nonneg jA, sq_nonneg sA]
    obtain ⟨l1, l2⟩ := b1
    obtain ⟨l3, l4⟩ := b2
    have b3 : -2 ≤ sB ∧ sB ≤ 2 := by constructor <;> nlinarith [sq_nonneg jB, sq_nonneg sB]
    have b4 : -1 ≤ jB ∧ jB ≤ 1 := by constructor <;> nlinarith [sq_nonneg jB, sq_nonneg sB]
    obtain ⟨l5, l6⟩ := b3
    obtain ⟨l7, l8⟩ := b4
    interval_cases sA <;> interval_cases jA <;> (try omega) <;> interval_cases sB <;> interval_cases jB <;> omega

/-- Violation: the parameters of a flat triclinic cell (three vectors in a plane, at 120 degrees) are accepted; the volume is zero. -/
theorem C151_violated_flat : ∃ (d : Fin 6 → ℝ) (cell : ConvCell) (v : Axes), bravais 14 d = some (cell, .P) ∧ ¬ cell.proper ∧
    (∀ u, getQELattice 14 d u = .ok (d 0, v)) ∧ triple v.1 v.2.1 v.2.2 = 0 := by
  have h := index_14 ![1, 1, 1, -(1 / 2), -(1 / 2), -(1 / 2)] (by simp) (by simp) (by simp; norm_num [abs_lt])
    (by simp; norm_num [abs_lt]) (by simp; norm_num [abs_lt]) (by simp; norm_num)
  obtain ⟨v, hv, ht⟩ : ∃ v : Axes, indexLattice 14 ![1, 1, 1, -(1 / 2), -(1 / 2), -(1 / 2)] = .ok v ∧ triple v.1 v.2.1 v.2.2 = 0 := by
    refine ⟨_, h, ?_⟩
    simp [triple]
    norm_num
  refine ⟨![1, 1, 1, -(1 / 2), -(1 / 2), -(1 / 2)], _, v, bravais_14 _, ?_, fun u => ?_, ht⟩
  · unfold ConvCell.proper
    simp
    norm_num
  · unfold getQELattice
    rw [if_neg (by decide), if_neg (by simp), hv]
    rfl

end Verif.Props
