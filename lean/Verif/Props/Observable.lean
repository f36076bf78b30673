import Verif.Model.Observable
import Verif.Proofs.Atoms

/-!
# C185: observables are values
-/
namespace Verif.Props
open Verif.Model

theorem mem_cartesianTuples (dim n : Nat) (l : List Nat) : l ∈ cartesianTuples dim n ↔ l.length = n ∧ ∀ i ∈ l, i < dim := by
  induction n generalizing l with
  | zero =>
    simp only [cartesianTuples, List.mem_singleton]
    constructor
    · rintro rfl; simp
    · rintro ⟨h, _⟩; exact List.length_eq_zero_iff.mp h
  | succ n ih =>
    simp only [cartesianTuples, List.mem_flatMap, List.mem_range, List.mem_map]
    constructor
    · rintro ⟨i, hi, t, ht, rfl⟩
      obtain ⟨h1, h2⟩ := (ih t).mp ht
      refine ⟨by simp [h1], ?_⟩
      intro j hj
      rcases List.mem_cons.mp hj with rfl | hj
      · exact hi
      · exact h2 j hj
    · rintro ⟨h1, h2⟩
      cases l with
      | nil => simp at h1
      | cons i t => exact ⟨i, h2 i (by simp), t, (ih t).mpr ⟨by simpa using h1, fun j hj => h2 j (by simp [hj])⟩, rfl⟩

/-- Specification: a scalar has no Cartesian direction, a vector one, a conductivity two and a viscosity four. -/
def obsDirections (o : Obs) : Nat :=
  match o.kind with
  | .scalar => 0
  | .vector => 1
  | .tensor2 => 2
  | .tensor4 => 4

theorem obs_rank_eq (o : Obs) : o.kind.rank = obsDirections o := by
  unfold obsDirections ObsKind.rank
  cases o.kind <;> rfl

/-- The elements of an observable: a calculation and as many Cartesian directions as its kind has. -/
def Obs.Element (o : Obs) (c : Nat) (l : List Nat) : Prop := c < o.numCalc ∧ l.length = obsDirections o ∧ ∀ i ∈ l, i < o.dim

/-- The difference of two thermal conductivities of the same sweep has, for every calculation and pair of directions, the difference
of the elements, and is printed with the same units. -/
theorem C185_difference_partial (auToSi thickness : ℝ) (a b : Conductivity) (ha : a.obs.kind = .tensor2)
    (hsa : a.obs.sized .tensor2 = true) (hsb : b.obs.sized .tensor2 = true) (hc : b.obs.numCalc = a.obs.numCalc) (hd : b.obs.dim = a.obs.dim) :
    ∃ r, a.minus auToSi thickness b = .ok r ∧ r.obs.kind = .tensor2 ∧ r.obs.numCalc = a.obs.numCalc ∧ r.obs.dim = a.obs.dim ∧
      r.conversion = (Conductivity.make auToSi thickness a.obs.numCalc a.obs.dim).conversion ∧
      ∀ c l, Obs.Element a.obs c l → r.obs.value .tensor2 c l = a.obs.value .tensor2 c l - b.obs.value .tensor2 c l := by
  set m := Conductivity.make auToSi thickness a.obs.numCalc a.obs.dim with hm
  by_cases h0 : a.obs.numCalc = 0 ∨ (a.obs.dim = 0 ∧ a.obs.kind ≠ .scalar)
  · have hb : m.obs.baseMinus a.obs b.obs = .ok m.obs := if_pos h0
    refine ⟨m, ?_, rfl, rfl, rfl, rfl, ?_⟩
    · show (m.obs.baseMinus a.obs b.obs).bind _ = _
      rw [hb]; rfl
    rintro c l ⟨h1, h2, h3⟩
    rw [← obs_rank_eq] at h2
    rcases h0 with h0 | h0
    · omega
    · rw [ha] at h2
      cases l with
      | nil => cases h2
      | cons i t =>
        have := h3 i (by simp)
        omega
  · have hb : m.obs.baseMinus a.obs b.obs = .ok { m.obs with value := subtracted m.obs a.obs b.obs } := by
      unfold Obs.baseMinus
      rw [if_neg h0, if_pos]
      rw [ha]
      exact ⟨by simp [hm, Conductivity.make, Obs.resized, Obs.make], hsa, hsb, le_refl _, hc.ge, Or.inr ⟨le_refl _, hd.ge⟩⟩
    refine ⟨⟨{ m.obs with value := subtracted m.obs a.obs b.obs }, m.conversion⟩, ?_, rfl, rfl, rfl, rfl, ?_⟩
    · show (m.obs.baseMinus a.obs b.obs).bind _ = _
      rw [hb]; rfl
    rintro c l ⟨h1, h2, h3⟩
    rw [← obs_rank_eq] at h2
    simp only [subtracted]
    rw [if_pos ⟨ha.symm, h1, (mem_cartesianTuples _ _ _).mpr ⟨h2, h3⟩⟩]

/-- The norm is not negative, it is zero when, and only when, all the elements are zero, and no element is larger than the norm times
the number of elements: a small norm of a difference means that all the elements are close. -/
theorem C185_norm (o : Obs) (c : Nat) (hd : 0 < o.dim) (hc : c < o.numCalc) :
    0 ≤ o.norm c ∧ (o.norm c = 0 ↔ ∀ l, Obs.Element o c l → o.value o.kind c l = 0) ∧
      ∀ l, Obs.Element o c l → |o.value o.kind c l| ≤ o.norm c * (o.dim : ℝ) ^ (obsDirections o) := by
  have hrank := obs_rank_eq o
  rw [← hrank]
  have hd' : (0 : ℝ) < o.dim := by exact_mod_cast hd
  by_cases hk : o.kind = .scalar
  · unfold Obs.norm
    rw [if_pos hk]
    refine ⟨abs_nonneg _, ?_, ?_⟩
    · rw [abs_eq_zero, hk]
      constructor
      · rintro h l ⟨_, hl, _⟩
        rw [← hrank, hk] at hl
        rw [List.length_eq_zero_iff.mp hl]
        exact h
      · intro h
        exact h [] ⟨hc, by rw [← hrank, hk]; rfl, by simp⟩
    · rintro l ⟨_, hl, _⟩
      rw [← hrank] at hl
      rw [hk] at hl ⊢
      rw [List.length_eq_zero_iff.mp hl]
      simp [ObsKind.rank]
  · unfold Obs.norm
    rw [if_neg hk]
    set L := (cartesianTuples o.dim o.kind.rank).map fun l => o.value o.kind c l * o.value o.kind c l with hL
    have hnn : ∀ x ∈ L, 0 ≤ x := by
      intro x hx
      obtain ⟨l, _, rfl⟩ := List.mem_map.mp hx
      exact mul_self_nonneg _
    have hsum : 0 ≤ L.sum := List.sum_nonneg hnn
    have hp : (0 : ℝ) < (o.dim : ℝ) ^ o.kind.rank := by positivity
    have hmem : ∀ l, Obs.Element o c l → o.value o.kind c l * o.value o.kind c l ≤ L.sum := by
      rintro l ⟨_, h2, h3⟩
      rw [← hrank] at h2
      exact List.single_le_sum hnn _ (List.mem_map.mpr ⟨l, (mem_cartesianTuples _ _ _).mpr ⟨h2, h3⟩, rfl⟩)
    refine ⟨by positivity, ?_, ?_⟩
    · rw [div_eq_zero_iff, or_iff_left hp.ne', Real.sqrt_eq_zero hsum]
      constructor
      · intro h l hl
        have := hmem l hl
        rw [h] at this
        have h2 := mul_self_nonneg (o.value o.kind c l)
        exact mul_self_eq_zero.mp (le_antisymm this h2)
      · intro h
        apply List.sum_eq_zero
        intro x hx
        obtain ⟨l, hl, rfl⟩ := List.mem_map.mp hx
        obtain ⟨h2, h3⟩ := (mem_cartesianTuples _ _ _).mp hl
        rw [h l ⟨hc, hrank ▸ h2, h3⟩, mul_zero]
    · intro l hl
      rw [div_mul_cancel₀ _ hp.ne', ← Real.sqrt_sq (abs_nonneg _), sq_abs, sq]
      exact Real.sqrt_le_sqrt (hmem l hl)

/-- A conductivity is printed, element by element, in W/(m K): in two dimensions the value is divided by the thickness. A difference
is printed in the same units. -/
theorem C185_units (auToSi thickness : ℝ) (numCalc dim : Nat) (a b r : Conductivity)
    (ha : a.conversion = (Conductivity.make auToSi thickness numCalc dim).conversion) (hd : a.obs.dim = dim)
    (hr : a.minus auToSi thickness b = .ok r) (c i j : Nat) :
    a.printed c i j = .ok (a.obs.value .tensor2 c [i, j] * (if dim = 2 then auToSi / thickness else auToSi)) ∧
      r.printed c i j = .ok (r.obs.value .tensor2 c [i, j] * (if dim = 2 then auToSi / thickness else auToSi)) := by
  have h1 : (Conductivity.make auToSi thickness numCalc dim).conversion = some (if dim = 2 then auToSi / thickness else auToSi) := by
    simp only [Conductivity.make, mul_one_div]
  have h2 : r.conversion = some (if dim = 2 then auToSi / thickness else auToSi) := by
    unfold Conductivity.minus at hr
    simp only [Outcome.bind_eq] at hr
    obtain ⟨o, _, ho⟩ := (Outcome.bind_eq_ok_iff _ _ _).mp hr
    cases ho
    simp only [Conductivity.make, mul_one_div, hd]
  unfold Conductivity.printed
  rw [ha, h1, h2]
  exact ⟨rfl, rfl⟩

/-- A copy has the elements of the original. -/
theorem C185_copy_partial (a : Conductivity) : a.copy.obs = a.obs := rfl

/-- After an assignment between observables of the same kind and dimension all the elements are those of the right-hand side, and a
conductivity is printed in the units it had. -/
theorem C185_assign_partial (a b : Conductivity) (hk : a.obs.kind = b.obs.kind) (hd : a.obs.dim = b.obs.dim) (hc : a.conversion = b.conversion) :
    a.assign b = b := by
  obtain ⟨⟨k, n, d, s, v⟩, x⟩ := a
  obtain ⟨⟨k', n', d', s', v'⟩, x'⟩ := b
  simp only at hk hd hc
  subst hk hd hc
  rfl

/-- Violated: a copy of a conductivity cannot be printed, its units are never set. -/
theorem C185_violated_copy (auToSi thickness : ℝ) (numCalc dim c i j : Nat) :
    (∃ x, (Conductivity.make auToSi thickness numCalc dim).printed c i j = .ok x) ∧
      (Conductivity.make auToSi thickness numCalc dim).copy.printed c i j = .ub := ⟨⟨_, rfl⟩, rfl⟩

/-- Violated: the difference of two observables other than conductivities writes into an array without a size. -/
theorem C185_violated_difference (kind : ObsKind) (numCalc dim : Nat) (hc : 0 < numCalc) (hd : 0 < dim) :
    (Obs.make kind numCalc dim).resized.minus (Obs.make kind numCalc dim).resized = .ub := by
  unfold Obs.minus Obs.baseMinus
  rw [if_neg (by simp [Obs.make, Obs.resized]; omega), if_neg (by simp [Obs.make])]

/-- Violated: an observable in two dimensions assigned to one in three keeps its three dimensions, beyond the elements it was
given. -/
theorem C185_violated_assign : ∃ a b : Obs, b.dim = 2 ∧ (a.assign b).dim = 3 ∧ (a.assign b).value = b.value :=
  ⟨Obs.make .tensor2 1 3, Obs.make .tensor2 1 2, rfl, rfl, rfl⟩

/-- The hypotheses of `C185_difference_partial` are met by two conductivities. -/
example : ∃ a b : Conductivity, a.obs.kind = .tensor2 ∧ b.obs.kind = .tensor2 ∧ a.obs.sized .tensor2 = true ∧
    b.obs.sized .tensor2 = true ∧ b.obs.numCalc = a.obs.numCalc ∧ b.obs.dim = a.obs.dim ∧ a.obs.value .tensor2 1 [0, 2] = 3 :=
  ⟨⟨⟨.tensor2, 2, 3, fun _ => true, fun _ c l => c + l.sum⟩, some 1⟩, ⟨⟨.tensor2, 2, 3, fun _ => true, fun _ _ _ => 1⟩, some 1⟩, rfl, rfl,
    rfl, rfl, rfl, rfl, by norm_num⟩

/-- The hypotheses of `C185_norm` are met by an observable with a norm that is not zero. -/
example : ∃ o : Obs, 0 < o.dim ∧ 1 < o.numCalc ∧ o.norm 1 = 2 :=
  ⟨⟨.scalar, 2, 3, fun _ => true, fun _ _ _ => -2⟩, by decide, by decide, by simp [Obs.norm]⟩

end Verif.Props
