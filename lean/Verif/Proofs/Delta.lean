import Verif.Model.Delta
import Mathlib.Analysis.SpecialFunctions.Integrals.Basic
import Mathlib.MeasureTheory.Integral.IntervalIntegral.FundThmCalculus
import Mathlib.Tactic.FieldSimp

/-! Lemmas for the delta functions. -/
namespace Verif.Model
open MeasureTheory Set

theorem piece_integral {f g G : ℝ → ℝ} {a b : ℝ} (hab : a ≤ b) (hfg : ∀ x ∈ Ioo a b, f x = g x)
    (hG : ∀ x, HasDerivAt G (g x) x) (hg : Continuous g) :
    IntervalIntegrable f volume a b ∧ ∫ x in a..b, f x = G b - G a := by
  have hEq : EqOn g f (uIoo a b) := by
    rw [uIoo_of_le hab]; intro x hx; exact (hfg x hx).symm
  refine ⟨(hg.intervalIntegrable a b).congr_uIoo hEq, ?_⟩
  rw [intervalIntegral.integral_congr_Ioo_of_le hab hfg]
  exact intervalIntegral.integral_eq_sub_of_hasDerivAt (fun x _ => hG x) (hg.intervalIntegrable a b)

theorem tetraSorted_outside {e1 e2 e3 e4 E : ℝ} (h12 : e1 ≤ e2) (h23 : e2 ≤ e3) (h34 : e3 ≤ e4)
    (h : E < e1 ∨ e4 < E) : tetraSorted e1 e2 e3 e4 E = 0 := by
  unfold tetraSorted
  simp only
  have n1 : ¬ (e1 ≤ E ∧ E ≤ e2) := by rintro ⟨a, b⟩; rcases h with h | h <;> linarith
  have n2 : ¬ (e2 ≤ E ∧ E ≤ e3) := by rintro ⟨a, b⟩; rcases h with h | h <;> linarith
  have n3 : ¬ (e3 ≤ E ∧ E ≤ e4) := by rintro ⟨a, b⟩; rcases h with h | h <;> linarith
  have n4 : ¬ ((e1 = e2 ∧ e1 = e3 ∧ e1 = e4) ∧ E = e1) := by
    rintro ⟨⟨_, _, a⟩, b⟩; rcases h with h | h <;> linarith
  rw [if_neg n4, if_neg n1, if_neg n2, if_neg n3]

theorem tetraSorted_nonneg {e1 e2 e3 e4 E : ℝ} (h12 : e1 ≤ e2) (h23 : e2 ≤ e3) (h34 : e3 ≤ e4) :
    0 ≤ tetraSorted e1 e2 e3 e4 E := by
  have d21 : 0 ≤ e2 - e1 := by linarith
  have d31 : 0 ≤ e3 - e1 := by linarith
  have d41 : 0 ≤ e4 - e1 := by linarith
  have d32 : 0 ≤ e3 - e2 := by linarith
  have d42 : 0 ≤ e4 - e2 := by linarith
  have d43 : 0 ≤ e4 - e3 := by linarith
  unfold tetraSorted
  simp only
  split
  · norm_num
  · split
    · split
      · exact le_rfl
      · rename_i h _
        have : 0 ≤ E - e1 := by linarith [h.1]
        positivity
    · split
      · rename_i h
        have a1 : 0 ≤ E - e1 := by linarith [h.1]
        have a2 : 0 ≤ E - e2 := by linarith [h.1]
        have a3 : 0 ≤ e3 - E := by linarith [h.2]
        have a4 : 0 ≤ e4 - E := by linarith [h.2]
        have p1 : 0 ≤ (e3 - E) * (E - e2) / (e4 - e2) / (e3 - e2) / (e3 - e1) := by positivity
        have p2 : 0 ≤ (e4 - E) * (E - e1) / (e4 - e1) / (e4 - e2) / (e3 - e1) := by positivity
        split <;> split <;> linarith
      · split
        · split
          · exact le_rfl
          · rename_i h _
            have : 0 ≤ e4 - E := by linarith [h.2]
            positivity
        · exact le_rfl

/-- The weight of a tetrahedron integrates to one over any interval containing its energies. -/
theorem tetraSorted_integral {e1 e2 e3 e4 a b : ℝ} (h12 : e1 ≤ e2) (h23 : e2 ≤ e3) (h34 : e3 ≤ e4) (hlt : e1 < e4)
    (ha : a ≤ e1) (hb : e4 ≤ b) :
    IntervalIntegrable (tetraSorted e1 e2 e3 e4) volume a b ∧ ∫ E in a..b, tetraSorted e1 e2 e3 e4 E = 1 := by
  have hne : ∀ E, ¬ ((e1 = e2 ∧ e1 = e3 ∧ e1 = e4) ∧ E = e1) := by
    rintro E ⟨⟨_, _, h⟩, _⟩; exact hlt.ne h
  -- outside
  obtain ⟨i0, v0⟩ := piece_integral (f := tetraSorted e1 e2 e3 e4) (g := fun _ => 0) (G := fun _ => 0) ha
    (fun x hx => tetraSorted_outside h12 h23 h34 (Or.inl hx.2)) (fun x => hasDerivAt_const x 0) continuous_const
  obtain ⟨i4, v4⟩ := piece_integral (f := tetraSorted e1 e2 e3 e4) (g := fun _ => 0) (G := fun _ => 0) hb
    (fun x hx => tetraSorted_outside h12 h23 h34 (Or.inr hx.1)) (fun x => hasDerivAt_const x 0) continuous_const
  -- first piece
  obtain ⟨i1, v1⟩ := piece_integral (f := tetraSorted e1 e2 e3 e4)
    (g := fun E => 3 * (E - e1) ^ 2 / ((e2 - e1) * (e3 - e1) * (e4 - e1)))
    (G := fun E => (E - e1) ^ 3 / ((e2 - e1) * (e3 - e1) * (e4 - e1))) h12
    (fun x hx => by
      have g1 : e1 < e2 := lt_trans hx.1 hx.2
      unfold tetraSorted
      simp only
      rw [if_neg (hne x), if_pos ⟨hx.1.le, hx.2.le⟩,
        if_neg (by rintro (h | h | h) <;> linarith)]
      rw [div_div, div_div]; ring)
    (fun x => by
      have h := ((((hasDerivAt_id x).sub_const e1).pow 3).div_const ((e2 - e1) * (e3 - e1) * (e4 - e1)))
      refine HasDerivAt.congr_deriv h ?_
      simp) (by fun_prop)
  -- third piece
  obtain ⟨i3, v3⟩ := piece_integral (f := tetraSorted e1 e2 e3 e4)
    (g := fun E => 3 * (e4 - E) ^ 2 / ((e4 - e1) * (e4 - e2) * (e4 - e3)))
    (G := fun E => -(e4 - E) ^ 3 / ((e4 - e1) * (e4 - e2) * (e4 - e3))) h34
    (fun x hx => by
      have g1 : e3 < e4 := lt_trans hx.1 hx.2
      have := hx.1
      unfold tetraSorted
      simp only
      rw [if_neg (hne x), if_neg (by rintro ⟨_, h⟩; linarith), if_neg (by rintro ⟨_, h⟩; linarith),
        if_pos ⟨hx.1.le, hx.2.le⟩, if_neg (by rintro (h | h | h) <;> linarith)]
      rw [div_div, div_div]; ring)
    (fun x => by
      have h := ((((hasDerivAt_id x).const_sub e4).pow 3).neg.div_const ((e4 - e1) * (e4 - e2) * (e4 - e3)))
      refine HasDerivAt.congr_deriv h ?_
      simp) (by fun_prop)
  -- second piece
  obtain ⟨i2, v2⟩ := piece_integral (f := tetraSorted e1 e2 e3 e4)
    (g := fun E => 3 * ((e3 - E) * (E - e2)) / ((e4 - e2) * (e3 - e2) * (e3 - e1)) +
      3 * ((e4 - E) * (E - e1)) / ((e4 - e1) * (e4 - e2) * (e3 - e1)))
    (G := fun E => (3 * ((e3 + e2) * E ^ 2 / 2 - E ^ 3 / 3 - e3 * e2 * E)) / ((e4 - e2) * (e3 - e2) * (e3 - e1)) +
      (3 * ((e4 + e1) * E ^ 2 / 2 - E ^ 3 / 3 - e4 * e1 * E)) / ((e4 - e1) * (e4 - e2) * (e3 - e1))) h23
    (fun x hx => by
      have g1 : e2 < e3 := lt_trans hx.1 hx.2
      have := hx.1
      unfold tetraSorted
      simp only
      rw [if_neg (hne x), if_neg (by rintro ⟨_, h⟩; linarith), if_pos ⟨hx.1.le, hx.2.le⟩,
        if_neg (by rintro (h | h | h) <;> linarith), if_neg (by rintro (h | h | h) <;> linarith)]
      simp only [div_div]; ring)
    (fun x => by
      have hp : ∀ p q : ℝ, HasDerivAt (fun E : ℝ => 3 * ((p + q) * E ^ 2 / 2 - E ^ 3 / 3 - p * q * E))
          (3 * ((p - x) * (x - q))) x := by
        intro p q
        have h2 : HasDerivAt (fun E : ℝ => E ^ 2) (2 * x) x := by simpa using hasDerivAt_pow 2 x
        have h3 : HasDerivAt (fun E : ℝ => E ^ 3) (3 * x ^ 2) x := by simpa using hasDerivAt_pow 3 x
        have h := ((((h2.const_mul (p + q)).div_const 2).sub (h3.div_const 3)).sub
          ((hasDerivAt_id x).const_mul (p * q))).const_mul 3
        refine HasDerivAt.congr_deriv h ?_
        ring
      exact ((hp e3 e2).div_const _).add ((hp e4 e1).div_const _)) (by fun_prop)
  have j1 := i0.trans i1
  have j2 := j1.trans i2
  have j3 := j2.trans i3
  have j4 := j3.trans i4
  refine ⟨j4, ?_⟩
  rw [← intervalIntegral.integral_add_adjacent_intervals j3 i4, ← intervalIntegral.integral_add_adjacent_intervals j2 i3,
    ← intervalIntegral.integral_add_adjacent_intervals j1 i2, ← intervalIntegral.integral_add_adjacent_intervals i0 i1,
    v0, v1, v2, v3, v4]
  have k41 : e4 - e1 ≠ 0 := by intro h; linarith
  have s1 : (e2 - e1) ^ 3 / ((e2 - e1) * (e3 - e1) * (e4 - e1)) - (e1 - e1) ^ 3 / ((e2 - e1) * (e3 - e1) * (e4 - e1)) =
      (e2 - e1) ^ 2 / ((e3 - e1) * (e4 - e1)) := by
    rcases eq_or_lt_of_le h12 with h | h
    · rw [h]; simp
    · have k21 : e2 - e1 ≠ 0 := by intro h'; linarith
      have k31 : e3 - e1 ≠ 0 := by intro h'; linarith
      field_simp; ring
  have s3 : -(e4 - e4) ^ 3 / ((e4 - e1) * (e4 - e2) * (e4 - e3)) - -(e4 - e3) ^ 3 / ((e4 - e1) * (e4 - e2) * (e4 - e3)) =
      (e4 - e3) ^ 2 / ((e4 - e1) * (e4 - e2)) := by
    rcases eq_or_lt_of_le h34 with h | h
    · rw [h]; simp
    · have k42 : e4 - e2 ≠ 0 := by intro h'; linarith
      have k43 : e4 - e3 ≠ 0 := by intro h'; linarith
      field_simp; ring
  rw [s1, s3]
  rcases eq_or_lt_of_le h23 with h | h
  · subst h
    simp only [sub_self, add_zero, zero_add]
    rcases eq_or_lt_of_le h12 with h' | h'
    · subst h'
      simp only [sub_self, zero_mul, div_zero, zero_add, add_zero]
      field_simp
    · have k21 : e2 - e1 ≠ 0 := by intro h''; linarith
      rcases eq_or_lt_of_le h34 with h'' | h''
      · subst h''
        simp only [sub_self, mul_zero, div_zero, add_zero]
        field_simp
      · have k42 : e4 - e2 ≠ 0 := by intro h''; linarith
        field_simp; ring
  · have k31 : e3 - e1 ≠ 0 := by intro h'; linarith
    have k32 : e3 - e2 ≠ 0 := by intro h'; linarith
    have k42 : e4 - e2 ≠ 0 := by intro h'; linarith
    field_simp
    ring

theorem sort_four (l : List ℝ) (h : l.length = 4) : ∃ e1 e2 e3 e4, l.insertionSort (· ≤ ·) = [e1, e2, e3, e4] ∧
    e1 ≤ e2 ∧ e2 ≤ e3 ∧ e3 ≤ e4 ∧ [e1, e2, e3, e4].Perm l := by
  have hp := List.perm_insertionSort (· ≤ ·) l
  have hs := List.pairwise_insertionSort (· ≤ ·) l
  have hl : (l.insertionSort (· ≤ ·)).length = 4 := by rw [List.length_insertionSort, h]
  match hm : l.insertionSort (· ≤ ·), hl with
  | [e1, e2, e3, e4], _ =>
    rw [hm] at hs hp
    simp only [List.pairwise_cons, List.mem_cons] at hs
    exact ⟨e1, e2, e3, e4, rfl, hs.1 e2 (by simp), hs.2.1 e3 (by simp), hs.2.2.1 e4 (by simp), hp⟩

end Verif.Model
