import Verif.Model.Path
import Mathlib.Tactic.Linarith
import Mathlib.Tactic.FieldSimp
import Mathlib.Algebra.Order.Floor.Ring

/-! Helper lemmas for paths of wavevectors. -/
namespace Verif.Model

theorem vdist_self (p : V3 ℝ) : vdist p p = 0 := by simp [vdist]

theorem vdist_comm (p q : V3 ℝ) : vdist p q = vdist q p := by
  unfold vdist; congr 1; ring

theorem vdist_nonneg (p q : V3 ℝ) : 0 ≤ vdist p q := Real.sqrt_nonneg _

theorem segmentPoint_zero (s : Segment) (nk : Nat) : segmentPoint s nk 0 = s.p0 := by
  simp [segmentPoint]

theorem segmentPoint_last (s : Segment) (nk : Nat) (h : nk ≠ 0) : segmentPoint s nk nk = s.p1 := by
  have : (nk : ℝ) ≠ 0 := Nat.cast_ne_zero.mpr h
  unfold segmentPoint
  simp only [div_mul_cancel₀ _ this, sub_add_cancel]

/-- The distance of a point of a segment from its end. -/
theorem segmentPoint_dist (s : Segment) (nk j : Nat) (h : nk ≠ 0) (hj : j ≤ nk) :
    vdist (segmentPoint s nk j) s.p1 = (1 - (j : ℝ) / nk) * vdist s.p1 s.p0 := by
  have hn : (nk : ℝ) ≠ 0 := Nat.cast_ne_zero.mpr h
  have hpos : (0 : ℝ) < nk := Nat.cast_pos.mpr (Nat.pos_of_ne_zero h)
  have h0 : 0 ≤ 1 - (j : ℝ) / nk := by
    rw [sub_nonneg, div_le_one hpos]; exact_mod_cast hj
  unfold vdist segmentPoint
  simp only
  have e : ∀ X : ℝ, (1 - (j : ℝ) / nk) * Real.sqrt X = Real.sqrt ((1 - (j : ℝ) / nk) ^ 2 * X) := by
    intro X
    rw [Real.sqrt_mul (sq_nonneg _), Real.sqrt_sq h0]
  rw [e]
  congr 1
  field_simp
  ring

/-- Points that are close are at a distance less than two times the tolerance. -/
theorem closePoint_dist {p e : V3 ℝ} (h : closePoint p e) : vdist p e < 2e-8 := by
  obtain ⟨h1, h2, h3⟩ := h
  unfold vdist
  rw [show (2e-8 : ℝ) = Real.sqrt ((2e-8) ^ 2) by rw [Real.sqrt_sq (by norm_num)]]
  apply Real.sqrt_lt_sqrt
  · nlinarith [mul_self_nonneg (p.x - e.x), mul_self_nonneg (p.y - e.y), mul_self_nonneg (p.z - e.z)]
  · have k : ∀ x : ℝ, |x| < 1e-8 → x * x ≤ 1e-8 * 1e-8 := by
      intro x hx
      rw [← abs_mul_abs_self]
      exact mul_le_mul hx.le hx.le (abs_nonneg _) (by norm_num)
    have := k _ h1
    have := k _ h2
    have := k _ h3
    norm_num at *
    linarith

theorem closePoint_self (p : V3 ℝ) : closePoint p p := by
  unfold closePoint; simp; norm_num

/-- The number of intervals of a segment that is at least one interval long. -/
theorem segmentCount_val (s : Segment) (delta : ℝ) (hd : 0 < delta) (hlen : delta ≤ vdist s.p1 s.p0)
    (hfit : vdist s.p1 s.p0 / delta < 2147483648) :
    ∃ nk : Nat, segmentCount s delta = .ok nk ∧ nk ≠ 0 ∧ (nk : ℝ) * delta ≤ vdist s.p1 s.p0 ∧
      vdist s.p1 s.p0 < (nk + 1) * delta := by
  have hq : 1 ≤ vdist s.p1 s.p0 / delta := by rwa [le_div_iff₀ hd, one_mul]
  have hM : intMax = 2147483647 := rfl
  have hm : intMin = -2147483648 := rfl
  have h1 : 1 ≤ ⌊vdist s.p1 s.p0 / delta⌋ := Int.le_floor.mpr (by exact_mod_cast hq)
  have h2 : ⌊vdist s.p1 s.p0 / delta⌋ < 2147483648 := Int.floor_lt.mpr (by exact_mod_cast hfit)
  have hc : ((⌊vdist s.p1 s.p0 / delta⌋.natAbs : Nat) : ℝ) = ((⌊vdist s.p1 s.p0 / delta⌋ : Int) : ℝ) := by
    rw [← Int.cast_natCast, Int.natAbs_of_nonneg (by omega)]
  refine ⟨⌊vdist s.p1 s.p0 / delta⌋.natAbs, ?_, by omega, ?_, ?_⟩
  · unfold segmentCount truncInt
    rw [if_neg hd.ne']
    simp only
    rw [if_pos (by linarith : (0 : ℝ) ≤ vdist s.p1 s.p0 / delta), if_neg (by omega)]
  · rw [hc, ← le_div_iff₀ hd]
    exact Int.floor_le _
  · rw [hc, ← div_lt_iff₀ hd]
    exact Int.lt_floor_add_one _

end Verif.Model
