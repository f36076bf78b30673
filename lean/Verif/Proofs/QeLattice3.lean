import Verif.Proofs.QeLattice2

/-!
# The vectors of each Bravais index
-/
namespace Verif.Proofs
open Verif.Model Verif.Spec

theorem index_1 (d : Fin 6 → ℝ)  : indexLattice 1 d =
    .ok (![d 0, 0, 0], ![0, d 0, 0], ![0, 0, d 0]) := by
  simp [indexLattice]

theorem index_2 (d : Fin 6 → ℝ)  : indexLattice 2 d =
    .ok (![-(d 0 / 2), 0, d 0 / 2], ![0, d 0 / 2, d 0 / 2], ![-(d 0 / 2), d 0 / 2, 0]) := by
  simp [indexLattice]

theorem index_3 (d : Fin 6 → ℝ)  : indexLattice 3 d =
    .ok (![d 0 / 2, d 0 / 2, d 0 / 2], ![-(d 0 / 2), d 0 / 2, d 0 / 2], ![-(d 0 / 2), -(d 0 / 2), d 0 / 2]) := by
  simp [indexLattice]

theorem index_m3 (d : Fin 6 → ℝ)  : indexLattice (-3) d =
    .ok (![-(d 0 / 2), d 0 / 2, d 0 / 2], ![d 0 / 2, -(d 0 / 2), d 0 / 2], ![d 0 / 2, d 0 / 2, -(d 0 / 2)]) := by
  simp [indexLattice]

theorem index_4 (d : Fin 6 → ℝ) (h2 : 0 < d 2) : indexLattice 4 d =
    .ok (![d 0, 0, 0], ![-d 0 / 2, d 0 * sr3 / 2, 0], ![0, 0, d 0 * d 2]) := by
  simp [indexLattice, not_le.mpr h2]

theorem index_6 (d : Fin 6 → ℝ) (h2 : 0 < d 2) : indexLattice 6 d =
    .ok (![d 0, 0, 0], ![0, d 0, 0], ![0, 0, d 0 * d 2]) := by
  simp [indexLattice, not_le.mpr h2]

theorem index_7 (d : Fin 6 → ℝ) (h2 : 0 < d 2) : indexLattice 7 d =
    .ok (![d 0 / 2, -(d 0 / 2), d 0 * d 2 / 2], ![d 0 / 2, d 0 / 2, d 0 * d 2 / 2], ![-(d 0 / 2), -(d 0 / 2), d 0 * d 2 / 2]) := by
  simp [indexLattice, not_le.mpr h2]
  ring

theorem index_8 (d : Fin 6 → ℝ) (h1 : 0 < d 1) (h2 : 0 < d 2) : indexLattice 8 d =
    .ok (![d 0, 0, 0], ![0, d 0 * d 1, 0], ![0, 0, d 0 * d 2]) := by
  simp [indexLattice, not_le.mpr h1, not_le.mpr h2]

theorem index_9 (d : Fin 6 → ℝ) (h1 : 0 < d 1) (h2 : 0 < d 2) : indexLattice 9 d =
    .ok (![d 0 / 2, d 0 * d 1 / 2, 0], ![-(d 0 / 2), d 0 * d 1 / 2, 0], ![0, 0, d 0 * d 2]) := by
  simp [indexLattice, not_le.mpr h1, not_le.mpr h2]
  refine ⟨?_, ?_⟩ <;> ring

theorem index_m9 (d : Fin 6 → ℝ) (h1 : 0 < d 1) (h2 : 0 < d 2) : indexLattice (-9) d =
    .ok (![d 0 / 2, -(d 0 * d 1 / 2), 0], ![d 0 / 2, d 0 * d 1 / 2, 0], ![0, 0, d 0 * d 2]) := by
  simp [indexLattice, not_le.mpr h1, not_le.mpr h2]
  refine ⟨?_, ?_⟩ <;> ring

theorem index_91 (d : Fin 6 → ℝ) (h1 : 0 < d 1) (h2 : 0 < d 2) : indexLattice 91 d =
    .ok (![d 0, 0, 0], ![0, d 0 * d 1 / 2, -(d 0 * d 2 / 2)], ![0, d 0 * d 1 / 2, d 0 * d 2 / 2]) := by
  simp [indexLattice, not_le.mpr h1, not_le.mpr h2]
  refine ⟨?_, ?_⟩ <;> ring

theorem index_10 (d : Fin 6 → ℝ) (h1 : 0 < d 1) (h2 : 0 < d 2) : indexLattice 10 d =
    .ok (![d 0 / 2, 0, d 0 * d 2 / 2], ![d 0 / 2, d 0 * d 1 / 2, 0], ![0, d 0 * d 1 / 2, d 0 * d 2 / 2]) := by
  simp [indexLattice, not_le.mpr h1, not_le.mpr h2]
  refine ⟨⟨?_, ?_⟩, ⟨?_, ?_⟩, ?_, ?_⟩ <;> ring

theorem index_11 (d : Fin 6 → ℝ) (h1 : 0 < d 1) (h2 : 0 < d 2) : indexLattice 11 d =
    .ok (![d 0 / 2, d 0 * d 1 / 2, d 0 * d 2 / 2], ![-(d 0 / 2), d 0 * d 1 / 2, d 0 * d 2 / 2], ![-(d 0 / 2), -(d 0 * d 1 / 2), d 0 * d 2 / 2]) := by
  simp [indexLattice, not_le.mpr h1, not_le.mpr h2]
  refine ⟨?_, ?_, ?_⟩ <;> ring

theorem index_12 (d : Fin 6 → ℝ) (h1 : 0 < d 1) (h2 : 0 < d 2) (hc3 : |d 3| < 1) : indexLattice 12 d =
    .ok (![d 0, 0, 0], ![d 0 * d 1 * d 3, d 0 * d 1 * Real.sqrt (1 - d 3 * d 3), 0], ![0, 0, d 0 * d 2]) := by
  simp [indexLattice, not_le.mpr h1, not_le.mpr h2, not_le.mpr hc3]

theorem index_m12 (d : Fin 6 → ℝ) (h1 : 0 < d 1) (h2 : 0 < d 2) (hc4 : |d 4| < 1) : indexLattice (-12) d =
    .ok (![d 0, 0, 0], ![0, d 0 * d 1, 0], ![d 0 * d 2 * d 4, 0, d 0 * d 2 * Real.sqrt (1 - d 4 * d 4)]) := by
  simp [indexLattice, not_le.mpr h1, not_le.mpr h2, not_le.mpr hc4]

theorem index_m13 (d : Fin 6 → ℝ) (h1 : 0 < d 1) (h2 : 0 < d 2) (hc4 : |d 4| < 1) : indexLattice (-13) d =
    .ok (![d 0 / 2, -(d 0 * d 1 / 2), 0], ![d 0 / 2, d 0 * d 1 / 2, 0], ![d 0 * d 2 * d 4, 0, d 0 * d 2 * Real.sqrt (1 - d 4 * d 4)]) := by
  simp [indexLattice, not_le.mpr h1, not_le.mpr h2, not_le.mpr hc4]
  refine ⟨?_, ?_⟩ <;> ring


theorem index_5 (d : Fin 6 → ℝ) (h1 : -(1 / 2) < d 3) (h2 : d 3 < 1) : indexLattice 5 d =
    .ok (![d 0 * Real.sqrt (1 - d 3) / sr2, -(d 0 * Real.sqrt (1 - d 3) / sr2) / sr3, d 0 * Real.sqrt (1 + 2 * d 3) / sr3],
      ![0, sr2 * d 0 * Real.sqrt (1 - d 3) / sr3, d 0 * Real.sqrt (1 + 2 * d 3) / sr3],
      ![-(d 0 * Real.sqrt (1 - d 3) / sr2), -(d 0 * Real.sqrt (1 - d 3) / sr2) / sr3, d 0 * Real.sqrt (1 + 2 * d 3) / sr3]) := by
  have h : ¬ (d 3 ≤ -(1 / 2) ∨ 1 ≤ d 3) := by
    rintro (h | h) <;> linarith
  unfold indexLattice
  rw [if_neg (by decide), if_neg (by decide), if_neg (by decide), if_neg (by decide), if_pos (by decide), if_neg h, if_pos rfl]

theorem index_m5 (d : Fin 6 → ℝ) (h1 : -(1 / 2) < d 3) (h2 : d 3 < 1) : indexLattice (-5) d =
    let p := d 0 * (Real.sqrt (1 + 2 * d 3) - 2 * Real.sqrt (1 - d 3)) / 3
    let q := d 0 * (Real.sqrt (1 + 2 * d 3) + Real.sqrt (1 - d 3)) / 3
    .ok (![p, q, q], ![q, p, q], ![q, q, p]) := by
  have h : ¬ (d 3 ≤ -(1 / 2) ∨ 1 ≤ d 3) := by
    rintro (h | h) <;> linarith
  unfold indexLattice
  rw [if_neg (by decide), if_neg (by decide), if_neg (by decide), if_neg (by decide), if_pos (by decide), if_neg h, if_neg (by decide)]

theorem index_14 (d : Fin 6 → ℝ) (h1 : 0 < d 1) (h2 : 0 < d 2) (hc3 : |d 3| < 1) (hc4 : |d 4| < 1) (hc5 : |d 5| < 1)
    (hT : 0 ≤ 1 + 2 * d 3 * d 4 * d 5 - d 3 * d 3 - d 4 * d 4 - d 5 * d 5) : indexLattice 14 d =
    .ok (![d 0, 0, 0], ![d 0 * d 1 * d 5, d 0 * d 1 * Real.sqrt (1 - d 5 * d 5), 0],
      ![d 0 * d 2 * d 4, d 0 * d 2 * (d 3 - d 4 * d 5) / Real.sqrt (1 - d 5 * d 5),
        d 0 * d 2 * Real.sqrt ((1 + 2 * d 3 * d 4 * d 5 - d 3 * d 3 - d 4 * d 4 - d 5 * d 5) / (1 - d 5 * d 5))]) := by
  have hT' := not_lt.mpr hT
  unfold indexLattice
  rw [if_neg (by decide), if_neg (by decide), if_neg (by decide), if_neg (by decide), if_neg (by decide), if_neg (by decide), if_neg (by decide), if_neg (by decide),
    if_neg (by decide), if_neg (by decide), if_neg (by decide), if_neg (by decide), if_neg (by decide), if_neg (by decide), if_neg (by decide), if_neg (by decide),
    if_pos rfl, if_neg (not_le.mpr h1), if_neg (not_le.mpr h2), if_neg (not_le.mpr hc3), if_neg (not_le.mpr hc4), if_neg (not_le.mpr hc5)]
  exact if_neg hT'

/-! ## All indices -/

/-- The tolerance of an index: the square roots of two and three are approximated. -/
noncomputable def tolOf (i : Int) (a : ℝ) : ℝ := if i = 4 ∨ i = 5 then a * a / 100000000000 else 0

theorem rhomb {x : ℝ} (h1 : |x| < 1) (h2 : 0 < 1 + 2 * x * x * x - x * x - x * x - x * x) : -(1 / 2) < x ∧ x < 1 := by
  have hx := abs_lt.mp h1
  refine ⟨?_, hx.2⟩
  by_contra hc
  have hc' : x ≤ -(1 / 2) := not_lt.mp hc
  have e : 1 + 2 * x * x * x - x * x - x * x - x * x = (1 - x) * (1 - x) * (1 + 2 * x) := by ring
  rw [e] at h2
  have : (1 - x) * (1 - x) * (1 + 2 * x) ≤ 0 := mul_nonpos_of_nonneg_of_nonpos (by nlinarith) (by linarith)
  linarith

theorem ratio_pos {a x : ℝ} (ha : 0 < a) (h : 0 < a * x) : 0 < x := (pos_iff_pos_of_mul_pos h).mp ha

theorem bravais_1 (d : Fin 6 → ℝ) : bravais 1 d = some (⟨d 0, d 0, d 0, 0, 0, 0⟩, .P) := by
  simp [bravais]

theorem bravais_2 (d : Fin 6 → ℝ) : bravais 2 d = some (⟨d 0, d 0, d 0, 0, 0, 0⟩, .F) := by
  simp [bravais]

theorem bravais_3 (d : Fin 6 → ℝ) : bravais 3 d = some (⟨d 0, d 0, d 0, 0, 0, 0⟩, .I) := by
  simp [bravais]

theorem bravais_m3 (d : Fin 6 → ℝ) : bravais (-3) d = some (⟨d 0, d 0, d 0, 0, 0, 0⟩, .I) := by
  simp [bravais]

theorem bravais_4 (d : Fin 6 → ℝ) : bravais 4 d = some (⟨d 0, d 0, d 0 * d 2, 0, 0, -(1 / 2)⟩, .P) := by
  simp [bravais]

theorem bravais_5 (d : Fin 6 → ℝ) : bravais 5 d = some (⟨d 0, d 0, d 0, d 3, d 3, d 3⟩, .P) := by
  simp [bravais]

theorem bravais_m5 (d : Fin 6 → ℝ) : bravais (-5) d = some (⟨d 0, d 0, d 0, d 3, d 3, d 3⟩, .P) := by
  simp [bravais]

theorem bravais_6 (d : Fin 6 → ℝ) : bravais 6 d = some (⟨d 0, d 0, d 0 * d 2, 0, 0, 0⟩, .P) := by
  simp [bravais]

theorem bravais_7 (d : Fin 6 → ℝ) : bravais 7 d = some (⟨d 0, d 0, d 0 * d 2, 0, 0, 0⟩, .I) := by
  simp [bravais]

theorem bravais_8 (d : Fin 6 → ℝ) : bravais 8 d = some (⟨d 0, d 0 * d 1, d 0 * d 2, 0, 0, 0⟩, .P) := by
  simp [bravais]

theorem bravais_9 (d : Fin 6 → ℝ) : bravais 9 d = some (⟨d 0, d 0 * d 1, d 0 * d 2, 0, 0, 0⟩, .C) := by
  simp [bravais]

theorem bravais_m9 (d : Fin 6 → ℝ) : bravais (-9) d = some (⟨d 0, d 0 * d 1, d 0 * d 2, 0, 0, 0⟩, .C) := by
  simp [bravais]

theorem bravais_91 (d : Fin 6 → ℝ) : bravais 91 d = some (⟨d 0, d 0 * d 1, d 0 * d 2, 0, 0, 0⟩, .A) := by
  simp [bravais]

theorem bravais_10 (d : Fin 6 → ℝ) : bravais 10 d = some (⟨d 0, d 0 * d 1, d 0 * d 2, 0, 0, 0⟩, .F) := by
  simp [bravais]

theorem bravais_11 (d : Fin 6 → ℝ) : bravais 11 d = some (⟨d 0, d 0 * d 1, d 0 * d 2, 0, 0, 0⟩, .I) := by
  simp [bravais]

theorem bravais_12 (d : Fin 6 → ℝ) : bravais 12 d = some (⟨d 0, d 0 * d 1, d 0 * d 2, 0, 0, d 3⟩, .P) := by
  simp [bravais]

theorem bravais_m12 (d : Fin 6 → ℝ) : bravais (-12) d = some (⟨d 0, d 0 * d 1, d 0 * d 2, 0, d 4, 0⟩, .P) := by
  simp [bravais]

theorem bravais_13 (d : Fin 6 → ℝ) : bravais 13 d = some (⟨d 0, d 0 * d 1, d 0 * d 2, 0, 0, d 3⟩, .B) := by
  simp [bravais]

theorem bravais_m13 (d : Fin 6 → ℝ) : bravais (-13) d = some (⟨d 0, d 0 * d 1, d 0 * d 2, 0, d 4, 0⟩, .C) := by
  simp [bravais]

theorem bravais_14 (d : Fin 6 → ℝ) : bravais 14 d = some (⟨d 0, d 0 * d 1, d 0 * d 2, d 3, d 4, d 5⟩, .P) := by
  simp [bravais]

theorem bravais_index (i : Int) (d : Fin 6 → ℝ) (h : bravais i d ≠ none) :
    i = 1 ∨ i = 2 ∨ i = 3 ∨ i = -3 ∨ i = 4 ∨ i = 5 ∨ i = -5 ∨ i = 6 ∨ i = 7 ∨ i = 8 ∨ i = 9 ∨ i = -9 ∨ i = 91 ∨ i = 10 ∨ i = 11 ∨ i = 12 ∨ i = -12 ∨ i = 13 ∨ i = -13 ∨ i = 14 := by
  by_contra hc
  simp only [not_or] at hc
  apply h
  simp [bravais, hc]

theorem index_primitive (i : Int) (d : Fin 6 → ℝ) (cell : ConvCell) (t : Centring) (h13 : i ≠ 13)
    (hb : bravais i d = some (cell, t)) (hp : cell.proper) :
    i ≠ 0 ∧ 0 < d 0 ∧ ∃ v : Axes, indexLattice i d = .ok v ∧ IsPrimitive (tolOf i (d 0)) cell t v.1 v.2.1 v.2.2 := by
  rcases bravais_index i d (by rw [hb]; simp) with rfl | rfl | rfl | rfl | rfl | rfl | rfl | rfl | rfl | rfl | rfl | rfl | rfl | rfl | rfl | rfl | rfl | rfl | rfl | rfl
  · rw [bravais_1] at hb
    obtain ⟨rfl, rfl⟩ := Prod.mk.inj (Option.some.inj hb)
    obtain ⟨p1, p2, p3, q1, q2, q3, q4⟩ := hp
    refine ⟨by decide, p1, ?_⟩
    exact ⟨_, index_1 d, isPrimitive_mono (prim_P p1 p1 p1) (by simp [tolOf])⟩
  · rw [bravais_2] at hb
    obtain ⟨rfl, rfl⟩ := Prod.mk.inj (Option.some.inj hb)
    obtain ⟨p1, p2, p3, q1, q2, q3, q4⟩ := hp
    refine ⟨by decide, p1, ?_⟩
    exact ⟨_, index_2 d, isPrimitive_mono (prim_F2 p1 p1 p1) (by simp [tolOf])⟩
  · rw [bravais_3] at hb
    obtain ⟨rfl, rfl⟩ := Prod.mk.inj (Option.some.inj hb)
    obtain ⟨p1, p2, p3, q1, q2, q3, q4⟩ := hp
    refine ⟨by decide, p1, ?_⟩
    exact ⟨_, index_3 d, isPrimitive_mono (prim_I3 p1 p1 p1) (by simp [tolOf])⟩
  · rw [bravais_m3] at hb
    obtain ⟨rfl, rfl⟩ := Prod.mk.inj (Option.some.inj hb)
    obtain ⟨p1, p2, p3, q1, q2, q3, q4⟩ := hp
    refine ⟨by decide, p1, ?_⟩
    exact ⟨_, index_m3 d, isPrimitive_mono (prim_I3' p1 p1 p1) (by simp [tolOf])⟩
  · rw [bravais_4] at hb
    obtain ⟨rfl, rfl⟩ := Prod.mk.inj (Option.some.inj hb)
    obtain ⟨p1, p2, p3, q1, q2, q3, q4⟩ := hp
    refine ⟨by decide, p1, ?_⟩
    refine ⟨_, index_4 d (ratio_pos p1 p3), isPrimitive_mono (prim_4 p1 p3) ?_⟩
    have p1' : 0 < d 0 := p1
    have : 0 < d 0 * d 0 := by positivity
    simp only [tolOf, true_or, if_true]
    linarith
  · rw [bravais_5] at hb
    obtain ⟨rfl, rfl⟩ := Prod.mk.inj (Option.some.inj hb)
    obtain ⟨p1, p2, p3, q1, q2, q3, q4⟩ := hp
    refine ⟨by decide, p1, ?_⟩
    obtain ⟨r1, r2⟩ := rhomb q1 q4
    refine ⟨_, index_5 d r1 r2, ?_⟩
    have := prim_5 p1 r1 r2
    simpa only [tolOf, or_true, if_true] using this
  · rw [bravais_m5] at hb
    obtain ⟨rfl, rfl⟩ := Prod.mk.inj (Option.some.inj hb)
    obtain ⟨p1, p2, p3, q1, q2, q3, q4⟩ := hp
    refine ⟨by decide, p1, ?_⟩
    obtain ⟨r1, r2⟩ := rhomb q1 q4
    exact ⟨_, index_m5 d r1 r2, isPrimitive_mono (prim_m5 p1 r1 r2) (by simp [tolOf])⟩
  · rw [bravais_6] at hb
    obtain ⟨rfl, rfl⟩ := Prod.mk.inj (Option.some.inj hb)
    obtain ⟨p1, p2, p3, q1, q2, q3, q4⟩ := hp
    refine ⟨by decide, p1, ?_⟩
    exact ⟨_, index_6 d (ratio_pos p1 p3), isPrimitive_mono (prim_P p1 p1 p3) (by simp [tolOf])⟩
  · rw [bravais_7] at hb
    obtain ⟨rfl, rfl⟩ := Prod.mk.inj (Option.some.inj hb)
    obtain ⟨p1, p2, p3, q1, q2, q3, q4⟩ := hp
    refine ⟨by decide, p1, ?_⟩
    exact ⟨_, index_7 d (ratio_pos p1 p3), isPrimitive_mono (prim_I7 p1 p1 p3) (by simp [tolOf])⟩
  · rw [bravais_8] at hb
    obtain ⟨rfl, rfl⟩ := Prod.mk.inj (Option.some.inj hb)
    obtain ⟨p1, p2, p3, q1, q2, q3, q4⟩ := hp
    refine ⟨by decide, p1, ?_⟩
    exact ⟨_, index_8 d (ratio_pos p1 p2) (ratio_pos p1 p3), isPrimitive_mono (prim_P p1 p2 p3) (by simp [tolOf])⟩
  · rw [bravais_9] at hb
    obtain ⟨rfl, rfl⟩ := Prod.mk.inj (Option.some.inj hb)
    obtain ⟨p1, p2, p3, q1, q2, q3, q4⟩ := hp
    refine ⟨by decide, p1, ?_⟩
    exact ⟨_, index_9 d (ratio_pos p1 p2) (ratio_pos p1 p3), isPrimitive_mono (prim_C9 p1 p2 p3) (by simp [tolOf])⟩
  · rw [bravais_m9] at hb
    obtain ⟨rfl, rfl⟩ := Prod.mk.inj (Option.some.inj hb)
    obtain ⟨p1, p2, p3, q1, q2, q3, q4⟩ := hp
    refine ⟨by decide, p1, ?_⟩
    exact ⟨_, index_m9 d (ratio_pos p1 p2) (ratio_pos p1 p3), isPrimitive_mono (prim_C9' p1 p2 p3) (by simp [tolOf])⟩
  · rw [bravais_91] at hb
    obtain ⟨rfl, rfl⟩ := Prod.mk.inj (Option.some.inj hb)
    obtain ⟨p1, p2, p3, q1, q2, q3, q4⟩ := hp
    refine ⟨by decide, p1, ?_⟩
    exact ⟨_, index_91 d (ratio_pos p1 p2) (ratio_pos p1 p3), isPrimitive_mono (prim_A91 p1 p2 p3) (by simp [tolOf])⟩
  · rw [bravais_10] at hb
    obtain ⟨rfl, rfl⟩ := Prod.mk.inj (Option.some.inj hb)
    obtain ⟨p1, p2, p3, q1, q2, q3, q4⟩ := hp
    refine ⟨by decide, p1, ?_⟩
    exact ⟨_, index_10 d (ratio_pos p1 p2) (ratio_pos p1 p3), isPrimitive_mono (prim_F10 p1 p2 p3) (by simp [tolOf])⟩
  · rw [bravais_11] at hb
    obtain ⟨rfl, rfl⟩ := Prod.mk.inj (Option.some.inj hb)
    obtain ⟨p1, p2, p3, q1, q2, q3, q4⟩ := hp
    refine ⟨by decide, p1, ?_⟩
    exact ⟨_, index_11 d (ratio_pos p1 p2) (ratio_pos p1 p3), isPrimitive_mono (prim_I3 p1 p2 p3) (by simp [tolOf])⟩
  · rw [bravais_12] at hb
    obtain ⟨rfl, rfl⟩ := Prod.mk.inj (Option.some.inj hb)
    obtain ⟨p1, p2, p3, q1, q2, q3, q4⟩ := hp
    refine ⟨by decide, p1, ?_⟩
    exact ⟨_, index_12 d (ratio_pos p1 p2) (ratio_pos p1 p3) q3, isPrimitive_mono (prim_12 p1 p2 p3 q3) (by simp [tolOf])⟩
  · rw [bravais_m12] at hb
    obtain ⟨rfl, rfl⟩ := Prod.mk.inj (Option.some.inj hb)
    obtain ⟨p1, p2, p3, q1, q2, q3, q4⟩ := hp
    refine ⟨by decide, p1, ?_⟩
    exact ⟨_, index_m12 d (ratio_pos p1 p2) (ratio_pos p1 p3) q2, isPrimitive_mono (prim_m12 p1 p2 p3 q2) (by simp [tolOf])⟩
  · exact absurd rfl h13
  · rw [bravais_m13] at hb
    obtain ⟨rfl, rfl⟩ := Prod.mk.inj (Option.some.inj hb)
    obtain ⟨p1, p2, p3, q1, q2, q3, q4⟩ := hp
    refine ⟨by decide, p1, ?_⟩
    exact ⟨_, index_m13 d (ratio_pos p1 p2) (ratio_pos p1 p3) q2, isPrimitive_mono (prim_m13 p1 p2 p3 q2) (by simp [tolOf])⟩
  · rw [bravais_14] at hb
    obtain ⟨rfl, rfl⟩ := Prod.mk.inj (Option.some.inj hb)
    obtain ⟨p1, p2, p3, q1, q2, q3, q4⟩ := hp
    refine ⟨by decide, p1, ?_⟩
    exact ⟨_, index_14 d (ratio_pos p1 p2) (ratio_pos p1 p3) q1 q2 q3 q4.le, isPrimitive_mono (prim_14 p1 p2 p3 q3 q4) (by simp [tolOf])⟩

end Verif.Proofs
