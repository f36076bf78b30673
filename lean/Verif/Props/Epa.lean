import Verif.Model.Epa
import Verif.Proofs.Bands
import Verif.Proofs.Device
import Mathlib.Tactic.Linarith
import Mathlib.Tactic.Ring
import Mathlib.Tactic.NormNum
import Mathlib.Tactic.Positivity
import Mathlib.Tactic.FieldSimp
import Mathlib.Algebra.Order.Ring.Abs

/-!
# C63: the coupling of the electron-phonon averaged approximation is taken at the nearest energies

Specification: `epaCoupling` returns the average at two indices of the list of energies, each of which minimises the
distance from the corresponding energy.
-/
namespace Verif.Props
open Verif.Model

section
variable {α : Type} [Field α] [LinearOrder α] [IsStrictOrderedRing α] [FloorRing α]

/-- `std::round` is within half a unit. -/
theorem stdRound_near (x : α) : |x - stdRound x| ≤ 1 / 2 := by
  unfold stdRound
  rw [abs_le]
  split
  · have h1 := Int.floor_le (x + 1 / 2)
    have h2 := Int.lt_floor_add_one (x + 1 / 2)
    constructor <;> linarith
  · have h1 := Int.le_ceil (x - 1 / 2)
    have h2 := Int.ceil_lt_add_one (x - 1 / 2)
    constructor <;> linarith

/-- No integer in a range is nearer than the rounded value clamped to the range. -/
theorem clamp_nearest (x : α) (m i : Int) (hm : 0 ≤ m) (h0 : 0 ≤ i) (hi : i ≤ m) :
    |x - ((max 0 (min m (stdRound x)) : Int) : α)| ≤ |x - (i : α)| := by
  have hr := abs_le.mp (stdRound_near x)
  generalize stdRound x = r at hr
  have h0' : (0 : α) ≤ i := by exact_mod_cast h0
  have hi' : (i : α) ≤ m := by exact_mod_cast hi
  rcases lt_trichotomy r 0 with h | h | h
  · -- below the range
    have e : max 0 (min m r) = 0 := by omega
    have hr1 : (r : α) ≤ -1 := by
      have : r ≤ -1 := by omega
      exact_mod_cast this
    rw [e, Int.cast_zero, sub_zero, abs_of_nonpos (by linarith), abs_of_nonpos (by linarith)]
    linarith
  all_goals
    rcases le_or_gt r m with hrm | hrm
    · have e : max 0 (min m r) = r := by omega
      rw [e]
      rcases eq_or_ne i r with rfl | hne
      · exact le_rfl
      · have : (1 : α) ≤ |(i : α) - r| := by
          have : (1 : Int) ≤ |i - r| := Int.one_le_abs (sub_ne_zero.mpr hne)
          exact_mod_cast this
        have t : |(i : α) - r| ≤ |x - i| + |x - r| := by
          have := abs_add_le ((i : α) - x) (x - r)
          rw [sub_add_sub_cancel, abs_sub_comm (i : α) x] at this
          exact this
        have := stdRound_near x
        have hx : |x - (r : α)| ≤ 1 / 2 := abs_le.mpr hr
        linarith
    · -- above the range
      have e : max 0 (min m r) = m := by omega
      have hr1 : (m : α) + 1 ≤ r := by
        have : m + 1 ≤ r := by omega
        exact_mod_cast this
      rw [e, abs_of_nonneg (by linarith), abs_of_nonneg (by linarith)]
      linarith

/-- **C63** (index): whenever the call is defined, the indices are those of two energies of the list, for every list and
all energies, however far outside the list. -/
theorem C63_index_partial (el : List α) (avg : Nat → Nat → Nat → α) (nu : Nat) (enI enF v : α)
    (h : epaCoupling el avg nu enI enF = .ok v) :
    ∃ j k, j < el.length ∧ k < el.length ∧ v = avg nu j k := by
  have key : ∀ (en : α) (j : Nat), epaBin el en = .ok j → j < el.length := by
    intro en j hj
    unfold epaBin at hj
    obtain ⟨e0, he0, hj⟩ := (Outcome.bind_eq_ok_iff _ _ _).mp hj
    have hl : 0 < el.length := by
      cases el with
      | nil => simp [readAt] at he0
      | cons a l => simp
    simp only at hj
    split at hj
    · cases hj
    obtain ⟨r, _, hj⟩ := (Outcome.bind_eq_ok_iff _ _ _).mp hj
    cases hj
    omega
  unfold epaCoupling at h
  obtain ⟨j, hj, h⟩ := (Outcome.bind_eq_ok_iff _ _ _).mp h
  obtain ⟨k, hk, h⟩ := (Outcome.bind_eq_ok_iff _ _ _).mp h
  cases h
  exact ⟨j, k, key _ _ hj, key _ _ hk, rfl⟩

/-- **C63** (nearest, partial): when the energies of the list are equally spaced, and the two energies are less than
`2^31 - 1` spacings away from the first, the coupling is that of the nearest energies of the list.  Missing: other
lists, `C63_violated_spacing`, and energies farther away, `C63_violated_range`. -/
theorem C63_nearest_partial (el : List α) (avg : Nat → Nat → Nat → α) (nu : Nat) (enI enF e0 d : α)
    (hne : el ≠ []) (hd : d ≠ 0) (hgrid : ∀ i (h : i < el.length), el[i] = e0 + i * d)
    (hone : el.length = 1 → d = 1)
    (hI : |enI - e0| ≤ |d| * 2147483646) (hF : |enF - e0| ≤ |d| * 2147483646) :
    ∃ j k, ∃ (hj : j < el.length) (hk : k < el.length),
      epaCoupling el avg nu enI enF = .ok (avg nu j k) ∧
      (∀ i (h : i < el.length), |enI - el[j]| ≤ |enI - el[i]|) ∧
      (∀ i (h : i < el.length), |enF - el[k]| ≤ |enF - el[i]|) := by
  have hl : 0 < el.length := List.length_pos_of_ne_nil hne
  have key : ∀ en : α, |en - e0| ≤ |d| * 2147483646 → ∃ j, ∃ hj : j < el.length, epaBin el en = .ok j ∧
      ∀ i (h : i < el.length), |en - el[j]| ≤ |en - el[i]| := by
    intro en hen
    have hread : readAt el 0 = .ok e0 := by
      unfold readAt
      rw [List.getElem?_eq_getElem hl, hgrid 0 hl]; simp
    have hbs : epaBinSize el = d := by
      unfold epaBinSize
      split
      · next h1 =>
        rw [List.getD_eq_getElem?_getD, List.getD_eq_getElem?_getD, List.getElem?_eq_getElem h1,
          List.getElem?_eq_getElem hl, Option.getD_some, Option.getD_some, hgrid 1 h1, hgrid 0 hl]
        push_cast; ring
      · exact (hone (by omega)).symm
    have hx : |(en - e0) / d| ≤ 2147483646 := by
      rw [abs_div, div_le_iff₀ (abs_pos.mpr hd), mul_comm]; exact hen
    have hr := abs_le.mp (stdRound_near ((en - e0) / d))
    have hx' := abs_le.mp hx
    have hb1 : stdRound ((en - e0) / d) < 2147483647 := by
      have : ((stdRound ((en - e0) / d) : Int) : α) < ((2147483647 : Int) : α) := by push_cast; linarith
      exact_mod_cast this
    have hb2 : -2147483647 < stdRound ((en - e0) / d) := by
      have : ((-2147483647 : Int) : α) < ((stdRound ((en - e0) / d) : Int) : α) := by push_cast; linarith
      exact_mod_cast this
    have hjlt : (max 0 (min ((el.length : Int) - 1) (stdRound ((en - e0) / d)))).toNat < el.length := by omega
    refine ⟨_, hjlt, ?_, ?_⟩
    · unfold epaBin
      simp only [Outcome.bind_eq]
      rw [hread, Outcome.bind_ok]
      simp only [hbs, if_neg hd]
      rw [i32_ok (by unfold intMin; omega) (by unfold intMax; omega), Outcome.bind_ok]
    · intro i hi
      have hscale : ∀ y : α, |en - (e0 + y * d)| = |(en - e0) / d - y| * |d| := by
        intro y
        rw [← abs_mul, sub_mul, div_mul_cancel₀ _ hd]; congr 1; ring
      rw [hgrid _ hjlt, hgrid i hi, hscale, hscale]
      refine mul_le_mul_of_nonneg_right ?_ (abs_nonneg d)
      have := clamp_nearest ((en - e0) / d) ((el.length : Int) - 1) i (by omega) (by omega) (by omega)
      have hc : (((max 0 (min ((el.length : Int) - 1) (stdRound ((en - e0) / d)))).toNat : Nat) : α) =
          ((max 0 (min ((el.length : Int) - 1) (stdRound ((en - e0) / d))) : Int) : α) := by
        rw [← Int.cast_natCast, Int.toNat_of_nonneg (by omega)]
      rw [hc]
      exact_mod_cast this
  obtain ⟨j, hj, h1, h2⟩ := key enI hI
  obtain ⟨k, hk, h3, h4⟩ := key enF hF
  refine ⟨j, k, hj, hk, ?_, h2, h4⟩
  unfold epaCoupling
  simp only [Outcome.bind_eq]
  rw [h1, Outcome.bind_ok, h3, Outcome.bind_ok]

end

/-- Non-vacuity: a grid of four energies, one energy inside and one outside. -/
example : ∃ el : List Rat, el = [1, 3/2, 2, 5/2] ∧ (∀ i (h : i < el.length), el[i] = 1 + i * (1/2)) ∧
    epaCoupling el (fun nu j k => 100 * nu + 10 * j + k) 2 (18/10) 7 = .ok 223 := by
  refine ⟨_, rfl, ?_, by decide +kernel⟩
  intro i h
  have : i = 0 ∨ i = 1 ∨ i = 2 ∨ i = 3 := by simp at h; omega
  rcases this with rfl | rfl | rfl | rfl <;> norm_num

/-- **C63** violated: the spacing of the first two energies is used for all; with energies `0, 1, 10` the energy `4` is
given the coupling of `10`, though `1` is nearer. -/
theorem C63_violated_spacing : ∃ (el : List Rat) (en : Rat) (j i : Nat) (hj : j < el.length) (hi : i < el.length),
    el.Pairwise (· < ·) ∧ (∃ e ∈ el, e < en) ∧ (∃ e ∈ el, en < e) ∧ epaBin el en = .ok j ∧
    |en - el[i]| < |en - el[j]| := by
  refine ⟨[0, 1, 10], 4, 2, 1, by decide, by decide, ?_, ⟨0, by decide +kernel, by norm_num⟩,
    ⟨10, by decide +kernel, by norm_num⟩, by decide +kernel, ?_⟩
  · simp
  · norm_num

/-- **C63** violated: an energy `2^31` spacings above the first is converted to `int` before it is brought back into the
range: undefined behaviour instead of the last index. -/
theorem C63_violated_range : epaBin [(0 : Rat), 1] 2147483648 = .ub := by decide +kernel

/-- **C63** violated: two equal first energies make every call undefined. -/
theorem C63_violated_equal (e en : Rat) (l : List Rat) : epaBin (e :: e :: l) en = .ub := by
  unfold epaBin epaBinSize readAt
  simp

end Verif.Props
