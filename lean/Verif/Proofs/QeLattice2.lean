import Verif.Proofs.QeLattice
import Mathlib.Tactic.LinearCombination

namespace Verif.Proofs
open Verif.Model Verif.Spec

theorem sin_pos {x : ℝ} (hx : |x| < 1) : 0 < 1 - x * x := by
  have := abs_lt.mp hx
  nlinarith [this.1, this.2]

theorem sin_sqrt {x : ℝ} (hx : |x| < 1) : 0 < Real.sqrt (1 - x * x) ∧ Real.sqrt (1 - x * x) * Real.sqrt (1 - x * x) = 1 - x * x :=
  ⟨Real.sqrt_pos.mpr (sin_pos hx), Real.mul_self_sqrt (sin_pos hx).le⟩

/-! ## Monoclinic lattices -/

theorem prim_12 {a b c x : ℝ} (ha : 0 < a) (hb : 0 < b) (hc : 0 < c) (hx : |x| < 1) :
    IsPrimitive 0 ⟨a, b, c, 0, 0, x⟩ .P ![a, 0, 0] ![b * x, b * Real.sqrt (1 - x * x), 0] ![0, 0, c] := by
  obtain ⟨h1, h2⟩ := sin_sqrt hx
  have ht : 0 < triple ![a, 0, 0] ![b * x, b * Real.sqrt (1 - x * x), 0] ![0, 0, c] := by
    have : triple ![a, 0, 0] ![b * x, b * Real.sqrt (1 - x * x), 0] ![0, 0, c] = a * b * c * Real.sqrt (1 - x * x) := by
      simp [triple]; ring
    rw [this]; positivity
  refine ⟨ht, _, _, _, ?_, ht, span_P _ _ _⟩
  apply hasShape_exact <;> simp [dot3]
  · linear_combination b * b * h2
  · ring

theorem shape_m12 {a b c x : ℝ} (hx : |x| < 1) :
    HasShape 0 ⟨a, b, c, 0, x, 0⟩ ![a, 0, 0] ![0, b, 0] ![c * x, 0, c * Real.sqrt (1 - x * x)] := by
  obtain ⟨h1, h2⟩ := sin_sqrt hx
  apply hasShape_exact <;> simp [dot3]
  · linear_combination c * c * h2
  · ring

theorem triple_m12 {a b c x : ℝ} (ha : 0 < a) (hb : 0 < b) (hc : 0 < c) (hx : |x| < 1) :
    0 < triple ![a, 0, 0] ![0, b, 0] ![c * x, 0, c * Real.sqrt (1 - x * x)] := by
  obtain ⟨h1, h2⟩ := sin_sqrt hx
  have : triple ![a, 0, 0] ![0, b, 0] ![c * x, 0, c * Real.sqrt (1 - x * x)] = a * b * c * Real.sqrt (1 - x * x) := by
    simp [triple]; ring
  rw [this]; positivity

theorem prim_m12 {a b c x : ℝ} (ha : 0 < a) (hb : 0 < b) (hc : 0 < c) (hx : |x| < 1) :
    IsPrimitive 0 ⟨a, b, c, 0, x, 0⟩ .P ![a, 0, 0] ![0, b, 0] ![c * x, 0, c * Real.sqrt (1 - x * x)] :=
  ⟨triple_m12 ha hb hc hx, _, _, _, shape_m12 hx, triple_m12 ha hb hc hx, span_P _ _ _⟩

theorem prim_m13 {a b c x : ℝ} (ha : 0 < a) (hb : 0 < b) (hc : 0 < c) (hx : |x| < 1) :
    IsPrimitive 0 ⟨a, b, c, 0, x, 0⟩ .C ![a / 2, -(b / 2), 0] ![a / 2, b / 2, 0] ![c * x, 0, c * Real.sqrt (1 - x * x)] := by
  obtain ⟨h1, h2⟩ := sin_sqrt hx
  refine ⟨?_, _, _, _, shape_m12 (a := a) (b := b) (c := c) hx, triple_m12 ha hb hc hx, ?_⟩
  · have : triple ![a / 2, -(b / 2), 0] ![a / 2, b / 2, 0] ![c * x, 0, c * Real.sqrt (1 - x * x)] =
        a * b * c * Real.sqrt (1 - x * x) / 2 := by
      simp [triple]; ring
    rw [this]; positivity
  · apply span_C9' <;> intro m <;> fin_cases m <;> simp <;> ring

/-! ## Triclinic lattices -/

theorem prim_14 {a b c x y z : ℝ} (ha : 0 < a) (hb : 0 < b) (hc : 0 < c) (hz : |z| < 1)
    (hT : 0 < 1 + 2 * x * y * z - x * x - y * y - z * z) :
    IsPrimitive 0 ⟨a, b, c, x, y, z⟩ .P ![a, 0, 0] ![b * z, b * Real.sqrt (1 - z * z), 0]
      ![c * y, c * (x - y * z) / Real.sqrt (1 - z * z),
        c * Real.sqrt ((1 + 2 * x * y * z - x * x - y * y - z * z) / (1 - z * z))] := by
  obtain ⟨h1, h2⟩ := sin_sqrt hz
  have hp := sin_pos hz
  set s := Real.sqrt (1 - z * z) with hs
  set T := 1 + 2 * x * y * z - x * x - y * y - z * z with hTd
  have hq : 0 < T / (1 - z * z) := div_pos hT hp
  set r := Real.sqrt (T / (1 - z * z)) with hr
  have hr1 : 0 < r := Real.sqrt_pos.mpr hq
  have hr2 : r * r = T / (s * s) := by rw [h2]; exact Real.mul_self_sqrt hq.le
  have hr3 : r * r * (s * s) = T := by
    rw [hr2]; field_simp
  have hs0 : s ≠ 0 := h1.ne'
  have ht : 0 < triple ![a, 0, 0] ![b * z, b * s, 0] ![c * y, c * (x - y * z) / s, c * r] := by
    have : triple ![a, 0, 0] ![b * z, b * s, 0] ![c * y, c * (x - y * z) / s, c * r] = a * b * c * (s * r) := by
      simp [triple]; ring
    rw [this]; positivity
  refine ⟨ht, _, _, _, ?_, ht, span_P _ _ _⟩
  apply hasShape_exact <;> simp [dot3]
  · linear_combination b * b * h2
  · have e : (x - y * z) / s * ((x - y * z) / s) = (x - y * z) * (x - y * z) / (s * s) := by
      field_simp
    have hss : s * s ≠ 0 := mul_ne_zero hs0 hs0
    have key : (x - y * z) / s * ((x - y * z) / s) + r * r = 1 - y * y := by
      rw [e, hr2, ← add_div, div_eq_iff hss, h2, hTd]
      ring
    have e2 : c * (x - y * z) / s = c * ((x - y * z) / s) := by ring
    rw [e2]
    linear_combination c * c * key
  · field_simp
    ring
  · ring
  · ring

/-! ## Trigonal and hexagonal lattices -/

theorem trig_pos {x : ℝ} (h1 : -(1 / 2) < x) (h2 : x < 1) :
    0 < Real.sqrt (1 + 2 * x) ∧ Real.sqrt (1 + 2 * x) * Real.sqrt (1 + 2 * x) = 1 + 2 * x ∧
    0 < Real.sqrt (1 - x) ∧ Real.sqrt (1 - x) * Real.sqrt (1 - x) = 1 - x :=
  ⟨Real.sqrt_pos.mpr (by linarith), Real.mul_self_sqrt (by linarith), Real.sqrt_pos.mpr (by linarith),
    Real.mul_self_sqrt (by linarith)⟩

theorem prim_m5 {a x : ℝ} (ha : 0 < a) (h1 : -(1 / 2) < x) (h2 : x < 1) :
    let p := a * (Real.sqrt (1 + 2 * x) - 2 * Real.sqrt (1 - x)) / 3
    let q := a * (Real.sqrt (1 + 2 * x) + Real.sqrt (1 - x)) / 3
    IsPrimitive 0 ⟨a, a, a, x, x, x⟩ .P ![p, q, q] ![q, p, q] ![q, q, p] := by
  obtain ⟨s1, s2, t1, t2⟩ := trig_pos h1 h2
  intro p q
  have ht : 0 < triple ![p, q, q] ![q, p, q] ![q, q, p] := by
    have : triple ![p, q, q] ![q, p, q] ![q, q, p] = a * a * a * (Real.sqrt (1 + 2 * x) * (Real.sqrt (1 - x) * Real.sqrt (1 - x))) := by
      simp [triple, p, q]; ring
    rw [this]; positivity
  refine ⟨ht, _, _, _, ?_, ht, span_P _ _ _⟩
  apply hasShape_exact <;> simp [dot3, p, q]
  · linear_combination a * a / 3 * s2 + 2 * a * a / 3 * t2
  · linear_combination a * a / 3 * s2 + 2 * a * a / 3 * t2
  · linear_combination a * a / 3 * s2 + 2 * a * a / 3 * t2
  · linear_combination a * a / 3 * s2 - a * a / 3 * t2
  · linear_combination a * a / 3 * s2 - a * a / 3 * t2
  · linear_combination a * a / 3 * s2 - a * a / 3 * t2

theorem prim_4 {a c : ℝ} (ha : 0 < a) (hc : 0 < c) :
    IsPrimitive (a * a / 1000000000000) ⟨a, a, c, 0, 0, -(1 / 2)⟩ .P ![a, 0, 0] ![-a / 2, a * sr3 / 2, 0] ![0, 0, c] := by
  have h3 : 0 < sr3 := by unfold sr3; norm_num
  have ht : 0 < triple ![a, 0, 0] ![-a / 2, a * sr3 / 2, 0] ![0, 0, c] := by
    have : triple ![a, 0, 0] ![-a / 2, a * sr3 / 2, 0] ![0, 0, c] = a * a * c * sr3 / 2 := by
      simp [triple]; ring
    rw [this]; positivity
  have h0 : 0 ≤ a * a / 1000000000000 := by positivity
  refine ⟨ht, _, _, _, ?_, ht, span_P _ _ _⟩
  constructor <;> simp [dot3]
  · exact h0
  · have : -a / 2 * (-a / 2) + a * sr3 / 2 * (a * sr3 / 2) - a * a = a * a * ((sr3 * sr3 - 3) / 4) := by ring
    rw [this, abs_mul, abs_of_nonneg (by positivity), div_eq_mul_inv]
    refine mul_le_mul_of_nonneg_left ?_ (by positivity)
    unfold sr3
    rw [abs_le]
    norm_num
  · exact h0
  · exact h0
  · exact h0
  · have : a * (-a / 2) + a * a * 2⁻¹ = 0 := by ring
    rw [this]; simpa using h0

theorem prim_5_aux {a x s t : ℝ} (ha : 0 < a) (h1 : -(1 / 2) < x) (h2 : x < 1) (s1 : 0 < s) (s2 : s * s = 1 + 2 * x) (t1 : 0 < t)
    (t2 : t * t = 1 - x) : IsPrimitive (a * a / 100000000000) ⟨a, a, a, x, x, x⟩ .P ![a * t / sr2, -(a * t / sr2) / sr3, a * s / sr3]
      ![0, sr2 * a * t / sr3, a * s / sr3] ![-(a * t / sr2), -(a * t / sr2) / sr3, a * s / sr3] := by
  have h3 : 0 < sr3 := by unfold sr3; norm_num
  have h4 : 0 < sr2 := by unfold sr2; norm_num
  have ht : 0 < triple ![a * t / sr2, -(a * t / sr2) / sr3, a * s / sr3] ![0, sr2 * a * t / sr3, a * s / sr3]
      ![-(a * t / sr2), -(a * t / sr2) / sr3, a * s / sr3] := by
    have : triple ![a * t / sr2, -(a * t / sr2) / sr3, a * s / sr3] ![0, sr2 * a * t / sr3, a * s / sr3]
      ![-(a * t / sr2), -(a * t / sr2) / sr3, a * s / sr3] =
        a * a * a * (t * t) * s * (2 + 2 / (sr2 * sr2)) / (sr3 * sr3) := by
      simp [triple]
      field_simp
      ring
    rw [this]; positivity
  have b1 : |x| < 1 := abs_lt.mpr ⟨by linarith, h2⟩
  have b2 : 0 ≤ a * a := by positivity
  refine ⟨ht, _, _, _, ?_, ht, span_P _ _ _⟩
  have fin : ∀ e f : ℝ, e = a * a * f → |f| ≤ 1 / 100000000000 → |e| ≤ a * a / 100000000000 := by
    intro e f h hf
    rw [h, abs_mul, abs_of_nonneg b2, div_eq_mul_one_div]
    exact mul_le_mul_of_nonneg_left hf b2
  constructor <;> simp only [dot3, Matrix.cons_val_zero, Matrix.cons_val_one, Matrix.cons_val]
  · refine fin _ ((1 - x) * (1 / (sr2 * sr2) + 1 / (sr2 * sr2 * (sr3 * sr3))) + (1 + 2 * x) / (sr3 * sr3) - 1) ?_ ?_
    · rw [← s2, ← t2]; field_simp
    · unfold sr2 sr3
      rw [abs_le]
      norm_num
      constructor <;> linarith
  · refine fin _ ((1 - x) * (sr2 * sr2 / (sr3 * sr3)) + (1 + 2 * x) / (sr3 * sr3) - 1) ?_ ?_
    · rw [← s2, ← t2]; field_simp; ring
    · unfold sr2 sr3
      rw [abs_le]
      norm_num
      constructor <;> linarith
  · refine fin _ ((1 - x) * (1 / (sr2 * sr2) + 1 / (sr2 * sr2 * (sr3 * sr3))) + (1 + 2 * x) / (sr3 * sr3) - 1) ?_ ?_
    · rw [← s2, ← t2]; field_simp
    · unfold sr2 sr3
      rw [abs_le]
      norm_num
      constructor <;> linarith
  · refine fin _ (-(1 - x) / (sr3 * sr3) + (1 + 2 * x) / (sr3 * sr3) - x) ?_ ?_
    · rw [neg_div, ← s2, ← t2]; field_simp; ring
    · unfold sr3
      rw [abs_le]
      norm_num
      constructor <;> linarith
  · refine fin _ ((1 - x) * (-1 / (sr2 * sr2) + 1 / (sr2 * sr2 * (sr3 * sr3))) + (1 + 2 * x) / (sr3 * sr3) - x) ?_ ?_
    · rw [← s2, ← t2]; field_simp
    · unfold sr2 sr3
      rw [abs_le]
      norm_num
      constructor <;> linarith
  · refine fin _ (-(1 - x) / (sr3 * sr3) + (1 + 2 * x) / (sr3 * sr3) - x) ?_ ?_
    · rw [neg_div, ← s2, ← t2]; field_simp; ring
    · unfold sr3
      rw [abs_le]
      norm_num
      constructor <;> linarith

theorem prim_5 {a x : ℝ} (ha : 0 < a) (h1 : -(1 / 2) < x) (h2 : x < 1) :
    let z := a * Real.sqrt (1 + 2 * x) / sr3
    let y := a * Real.sqrt (1 - x) / sr2
    IsPrimitive (a * a / 100000000000) ⟨a, a, a, x, x, x⟩ .P ![y, -y / sr3, z] ![0, sr2 * a * Real.sqrt (1 - x) / sr3, z] ![-y, -y / sr3, z] := by
  obtain ⟨s1, s2, t1, t2⟩ := trig_pos h1 h2
  exact prim_5_aux ha h1 h2 s1 s2 t1 t2

end Verif.Proofs
