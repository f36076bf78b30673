import Verif.Proofs.DynMat4

/-!
# Acceptance of rectangular supercells
-/
namespace Verif.Model
open Verif.Spec

variable {A n1 n2 n3 : Nat}

/-- The comparison of a neighbour along one axis. -/
noncomputable def axC (L r : ℝ) (g : ℤ) : ℝ := r * (g * L) - (g * L) ^ 2 / 2

/-- The weight along one axis. -/
noncomputable def axW (L r : ℝ) : ℝ := if |r| < |L| / 2 then 1 else if |r| = |L| / 2 then 1 / 2 else 0

theorem axC_zero (L r : ℝ) : axC L r 0 = 0 := by simp [axC]

theorem ax_inside (L r : ℝ) (hs : ∀ s : ℤ, |s| = 1 → axC L r s = 0 ∨ 1.0e-5 < |axC L r s|) (hL : 1.0e-5 < L ^ 2)
    (h : |r| < |L| / 2) (g : ℤ) (hg : |g| ≤ 2) (h0 : g ≠ 0) : axC L r g < -1.0e-5 := by
  have hLp : 0 < |L| := by
    rw [abs_pos]
    rintro rfl
    norm_num at hL
  have h1 : |r * L| < L ^ 2 / 2 := by
    rw [abs_mul]
    have : |L| * |L| = L ^ 2 := by rw [← sq, sq_abs]
    nlinarith
  have h2 := abs_lt.mp h1
  have hsm : ∀ s : ℤ, |s| = 1 → axC L r s < 0 := by
    intro s hs1
    rcases (abs_eq (by norm_num)).mp hs1 with rfl | rfl <;> simp only [axC] <;> push_cast <;> nlinarith
  have hg' : g = 1 ∨ g = -1 ∨ g = 2 ∨ g = -2 := by
    have := abs_le.mp hg
    omega
  rcases hg' with rfl | rfl | rfl | rfl
  · have := hsm 1 rfl
    rcases hs 1 rfl with h3 | h3
    · linarith
    · rw [abs_of_neg this] at h3; linarith
  · have := hsm (-1) rfl
    rcases hs (-1) rfl with h3 | h3
    · linarith
    · rw [abs_of_neg this] at h3; linarith
  · simp only [axC]; push_cast; nlinarith
  · simp only [axC]; push_cast; nlinarith

theorem ax_edge (L r : ℝ) (hL : 1.0e-5 < L ^ 2) (h : |r| = |L| / 2) : ∃ s : ℤ, |s| = 1 ∧ axC L r s = 0 ∧
    ∀ g : ℤ, |g| ≤ 2 → g ≠ 0 → g ≠ s → axC L r g < -1.0e-5 := by
  have h1 : |r * L| = L ^ 2 / 2 := by
    rw [abs_mul, h]
    have : |L| * |L| = L ^ 2 := by rw [← sq, sq_abs]
    linarith
  rcases abs_choice (r * L) with h2 | h2
  · rw [h2] at h1
    refine ⟨1, rfl, ?_, ?_⟩
    · simp only [axC]; push_cast; linarith
    · intro g hg h0 hs
      have hg' : g = -1 ∨ g = 2 ∨ g = -2 := by
        have := abs_le.mp hg
        omega
      rcases hg' with rfl | rfl | rfl <;> simp only [axC] <;> push_cast <;> nlinarith
  · rw [h2] at h1
    refine ⟨-1, rfl, ?_, ?_⟩
    · simp only [axC]; push_cast; linarith
    · intro g hg h0 hs
      have hg' : g = 1 ∨ g = 2 ∨ g = -2 := by
        have := abs_le.mp hg
        omega
      rcases hg' with rfl | rfl | rfl <;> simp only [axC] <;> push_cast <;> nlinarith

theorem ax_outside (L r : ℝ) (hs : ∀ s : ℤ, |s| = 1 → axC L r s = 0 ∨ 1.0e-5 < |axC L r s|) (hL : 1.0e-5 < L ^ 2)
    (h : |L| / 2 < |r|) : ∃ s : ℤ, |s| = 1 ∧ 1.0e-5 < axC L r s := by
  have hLp : 0 < |L| := by
    rw [abs_pos]
    rintro rfl
    norm_num at hL
  have h1 : L ^ 2 / 2 < |r * L| := by
    rw [abs_mul]
    have : |L| * |L| = L ^ 2 := by rw [← sq, sq_abs]
    nlinarith
  have key : ∀ s : ℤ, |s| = 1 → 0 < axC L r s → 1.0e-5 < axC L r s := by
    intro s hs1 hp
    rcases hs s hs1 with h3 | h3
    · linarith
    · rwa [abs_of_pos hp] at h3
  rcases abs_choice (r * L) with h2 | h2
  · rw [h2] at h1
    exact ⟨1, rfl, key 1 rfl (by simp only [axC]; push_cast; linarith)⟩
  · rw [h2] at h1
    exact ⟨-1, rfl, key (-1) rfl (by simp only [axC]; push_cast; linarith)⟩

theorem zRange_two : zRange 2 = [-2, -1, 0, 1, 2] := by decide

/-- Not outside: no neighbour along the axis is closer; the ties are counted by the weight. -/
theorem ax_count (L r : ℝ) (hs : ∀ s : ℤ, |s| = 1 → axC L r s = 0 ∨ 1.0e-5 < |axC L r s|) (hL : 1.0e-5 < L ^ 2)
    (h : |r| ≤ |L| / 2) : (∀ g : ℤ, |g| ≤ 2 → axC L r g = 0 ∨ axC L r g < -1.0e-5) ∧
    ((zRange 2).map fun g => open scoped Classical in if axC L r g = 0 then (1 : ℝ) else 0).sum = 1 / axW L r ∧ axW L r ≠ 0 := by
  classical
  rcases h.lt_or_eq with h1 | h1
  · have hi := ax_inside L r hs hL h1
    refine ⟨fun g hg => ?_, ?_, ?_⟩
    · by_cases h0 : g = 0
      · left; rw [h0, axC_zero]
      · exact Or.inr (hi g hg h0)
    · rw [zRange_two]
      have e : ∀ g : ℤ, |g| ≤ 2 → g ≠ 0 → (if axC L r g = 0 then (1 : ℝ) else 0) = 0 := by
        intro g hg h0
        rw [if_neg]
        intro h2
        have := hi g hg h0
        rw [h2] at this
        norm_num at this
      simp only [List.map_cons, List.map_nil, List.sum_cons, List.sum_nil]
      rw [e (-2) (by norm_num) (by norm_num), e (-1) (by norm_num) (by norm_num), e 1 (by norm_num) (by norm_num),
        e 2 (by norm_num) (by norm_num), if_pos (axC_zero L r)]
      unfold axW
      rw [if_pos h1]
      norm_num
    · unfold axW
      rw [if_pos h1]
      norm_num
  · obtain ⟨s, hs1, hz, hn⟩ := ax_edge L r hL h1
    refine ⟨fun g hg => ?_, ?_, ?_⟩
    · by_cases h0 : g = 0
      · left; rw [h0, axC_zero]
      by_cases h2 : g = s
      · left; rw [h2, hz]
      · exact Or.inr (hn g hg h0 h2)
    · rw [zRange_two]
      have e : ∀ g : ℤ, |g| ≤ 2 → g ≠ 0 → g ≠ s → (if axC L r g = 0 then (1 : ℝ) else 0) = 0 := by
        intro g hg h0 h3
        rw [if_neg]
        intro h2
        have := hn g hg h0 h3
        rw [h2] at this
        norm_num at this
      have hw : axW L r = 1 / 2 := by
        unfold axW
        rw [if_neg (by linarith), if_pos h1]
      simp only [List.map_cons, List.map_nil, List.sum_cons, List.sum_nil]
      rw [hw]
      rcases (abs_eq (by norm_num)).mp hs1 with rfl | rfl
      · rw [e (-2) (by norm_num) (by norm_num) (by norm_num), e (-1) (by norm_num) (by norm_num) (by norm_num), if_pos hz,
          e 2 (by norm_num) (by norm_num) (by norm_num), if_pos (axC_zero L r)]
        norm_num
      · rw [e (-2) (by norm_num) (by norm_num) (by norm_num), e 1 (by norm_num) (by norm_num) (by norm_num), if_pos hz,
          e 2 (by norm_num) (by norm_num) (by norm_num), if_pos (axC_zero L r)]
        norm_num
    · unfold axW
      rw [if_neg (by linarith), if_pos h1]
      norm_num

theorem list_sum_flatMap {β : Type} (l : List β) (f : β → List ℝ) : (l.flatMap f).sum = (l.map fun x => (f x).sum).sum := by
  induction l with
  | nil => rfl
  | cons x l ih => rw [List.flatMap_cons, List.sum_append, ih, List.map_cons, List.sum_cons]

theorem ind_three (p q r : Prop) [Decidable p] [Decidable q] [Decidable r] [Decidable (p ∧ q ∧ r)] :
    (if p then (1 : ℝ) else 0) * (if q then (1 : ℝ) else 0) * (if r then (1 : ℝ) else 0) = if p ∧ q ∧ r then (1 : ℝ) else 0 := by
  by_cases hp : p <;> by_cases hq : q <;> by_cases hr : r <;> simp [hp, hq, hr]

theorem zBox_sum (n : V3 Int) (f g h : ℤ → ℝ) : ((zBox n).map fun v => f v.x * g v.y * h v.z).sum =
    ((zRange n.x).map f).sum * ((zRange n.y).map g).sum * ((zRange n.z).map h).sum := by
  unfold zBox
  rw [List.map_flatMap, list_sum_flatMap]
  have e1 : ∀ a b : ℤ, ((zRange n.z).map fun c => f a * g b * h c).sum = f a * g b * ((zRange n.z).map h).sum := by
    intro a b
    rw [← List.sum_map_mul_left]
  have e2 : ∀ a : ℤ, (((zRange n.y).flatMap fun b => (zRange n.z).map fun c => (⟨a, b, c⟩ : V3 Int)).map fun v =>
      f v.x * g v.y * h v.z).sum = f a * (((zRange n.y).map g).sum * ((zRange n.z).map h).sum) := by
    intro a
    rw [List.map_flatMap, list_sum_flatMap]
    simp only [List.map_map, Function.comp_def, e1]
    rw [← List.sum_map_mul_right, ← List.sum_map_mul_left]
    simp only [mul_assoc]
  simp only [e2]
  rw [List.sum_map_mul_right, mul_assoc]

theorem countP_sum {β : Type} (p : β → Prop) [DecidablePred p] (l : List β) : (l.countP (fun x => decide (p x)) : ℝ) =
    (l.map fun x => if p x then (1 : ℝ) else 0).sum := by
  induction l with
  | nil => simp
  | cons x l ih =>
    rw [List.map_cons, List.sum_cons, ← ih, List.countP_cons]
    by_cases h : p x
    · simp [h]; ring
    · simp [h]

/-- The sum of the weights along an axis. -/
theorem ax_sum (N : Nat) (hN : 0 < N) (l t : ℝ) (hl : l ≠ 0) (ht : |t| ≤ |l|) :
    ((zRange (2 * N)).map fun n : ℤ => axW (N * l) (n * l + t)).sum = N := by
  classical
  obtain ⟨u, hu⟩ : ∃ u, u = t / l := ⟨_, rfl⟩
  have htu : t = u * l := by rw [hu]; field_simp
  have hla : 0 < |l| := abs_pos.mpr hl
  have hu1 : |u| ≤ 1 := by
    rw [hu, abs_div, div_le_one hla]
    exact ht
  have hN' : (1 : ℝ) ≤ N := by exact_mod_cast hN
  have hw : ∀ n : ℤ, axW (N * l) (n * l + t) = ((if -(N / 2 : ℝ) ≤ n + u ∧ n + u < N / 2 then 1 else 0) +
      if -(N / 2 : ℝ) < n + u ∧ n + u ≤ N / 2 then 1 else 0) * (1 / 2) := by
    intro n
    have e1 : |(n : ℝ) * l + t| = |(n : ℝ) + u| * |l| := by rw [htu, ← abs_mul]; congr 1; ring
    have e2 : |(N : ℝ) * l| / 2 = (N / 2) * |l| := by
      rw [abs_mul, abs_of_nonneg (by linarith : (0 : ℝ) ≤ N)]; ring
    have e3 : |(n : ℝ) + u| * |l| < (N / 2) * |l| ↔ |(n : ℝ) + u| < N / 2 := mul_lt_mul_iff_of_pos_right hla
    have e4 : |(n : ℝ) + u| * |l| = (N / 2) * |l| ↔ |(n : ℝ) + u| = N / 2 := mul_left_inj' hla.ne'
    unfold axW
    simp only [e1, e2, e3, e4]
    rcases lt_trichotomy |(n : ℝ) + u| (N / 2) with h | h | h
    · have := abs_lt.mp h
      rw [if_pos h, if_pos ⟨this.1.le, this.2⟩, if_pos ⟨this.1, this.2.le⟩]
      norm_num
    · rw [if_neg (by linarith), if_pos h]
      rcases abs_choice ((n : ℝ) + u) with h2 | h2
      · rw [h2] at h
        rw [if_neg (by rw [h]; simp), if_pos ⟨by linarith, h.le⟩]
        norm_num
      · rw [h2] at h
        rw [if_pos ⟨by linarith, by linarith⟩, if_neg (by intro h3; linarith [h3.1])]
        norm_num
    · rw [if_neg (by linarith), if_neg (by linarith)]
      rcases abs_choice ((n : ℝ) + u) with h2 | h2
      · rw [h2] at h
        rw [if_neg (by intro h3; linarith [h3.2]), if_neg (by intro h3; linarith [h3.2])]
        norm_num
      · rw [h2] at h
        rw [if_neg (by intro h3; linarith [h3.1]), if_neg (by intro h3; linarith [h3.1])]
        norm_num
  have hub := abs_le.mp hu1
  have c1 : ((zRange (2 * N)).map fun n : ℤ => if -(N / 2 : ℝ) ≤ n + u ∧ n + u < N / 2 then (1 : ℝ) else 0).sum = N := by
    rw [← List.sum_toFinset _ (nodup_zRange _), Finset.sum_ite, Finset.sum_const_zero, add_zero, Finset.sum_const, nsmul_eq_mul,
      mul_one]
    have : ((zRange (2 * N)).toFinset.filter fun n : ℤ => -(N / 2 : ℝ) ≤ n + u ∧ n + u < N / 2) =
        Finset.Ico ⌈-(N / 2 : ℝ) - u⌉ (⌈-(N / 2 : ℝ) - u⌉ + N) := by
      ext n
      rw [Finset.mem_filter, List.mem_toFinset, mem_zRange, Finset.mem_Ico]
      have a1 : ⌈-(N / 2 : ℝ) - u⌉ ≤ n ↔ -(N / 2 : ℝ) - u ≤ n := Int.ceil_le
      have a2 : n < ⌈-(N / 2 : ℝ) - u⌉ + N ↔ (n : ℝ) - N < -(N / 2 : ℝ) - u := by
        rw [← sub_lt_iff_lt_add, Int.lt_ceil]
        push_cast
        rfl
      rw [a1, a2]
      constructor
      · rintro ⟨_, h1, h2⟩
        constructor <;> linarith
      · rintro ⟨h1, h2⟩
        refine ⟨⟨?_, ?_⟩, by linarith, by linarith⟩
        · have : (-(2 * N : ℤ) : ℝ) ≤ n := by push_cast; linarith
          exact_mod_cast this
        · have : (n : ℝ) ≤ ((2 * N : ℤ) : ℝ) := by push_cast; linarith
          exact_mod_cast this
    rw [this, Int.card_Ico]
    simp
  have c2 : ((zRange (2 * N)).map fun n : ℤ => if -(N / 2 : ℝ) < n + u ∧ n + u ≤ N / 2 then (1 : ℝ) else 0).sum = N := by
    rw [← List.sum_toFinset _ (nodup_zRange _), Finset.sum_ite, Finset.sum_const_zero, add_zero, Finset.sum_const, nsmul_eq_mul,
      mul_one]
    have : ((zRange (2 * N)).toFinset.filter fun n : ℤ => -(N / 2 : ℝ) < n + u ∧ n + u ≤ N / 2) =
        Finset.Ioc ⌊-(N / 2 : ℝ) - u⌋ (⌊-(N / 2 : ℝ) - u⌋ + N) := by
      ext n
      rw [Finset.mem_filter, List.mem_toFinset, mem_zRange, Finset.mem_Ioc]
      have a1 : ⌊-(N / 2 : ℝ) - u⌋ < n ↔ -(N / 2 : ℝ) - u < n := Int.floor_lt
      have a2 : n ≤ ⌊-(N / 2 : ℝ) - u⌋ + N ↔ (n : ℝ) - N ≤ -(N / 2 : ℝ) - u := by
        rw [← sub_le_iff_le_add, Int.le_floor]
        push_cast
        rfl
      rw [a1, a2]
      constructor
      · rintro ⟨_, h1, h2⟩
        constructor <;> linarith
      · rintro ⟨h1, h2⟩
        refine ⟨⟨?_, ?_⟩, by linarith, by linarith⟩
        · have : (-(2 * N : ℤ) : ℝ) ≤ n := by push_cast; linarith
          exact_mod_cast this
        · have : (n : ℝ) ≤ ((2 * N : ℤ) : ℝ) := by push_cast; linarith
          exact_mod_cast this
    rw [this, Int.card_Ioc]
    simp
  simp only [hw]
  rw [List.sum_map_mul_right, List.sum_map_add, c1, c2]
  ring

/-- A rectangular cell. -/
def rectCell (l : Fin 3 → ℝ) : Mat3 := fun i k => if i = k then l k else 0

/-- Positions that differ by no more than a cell, without near ties. -/
structure RectPair (l t : Fin 3 → ℝ) (N : Fin 3 → ℕ) : Prop where
  cell : ∀ k, |t k| ≤ |l k|
  edge : ∀ k, 1.0e-5 < (N k * l k) ^ 2
  tie : ∀ k, ∀ j : ℤ, j * l k + 2 * t k = 0 ∨ 2.0e-5 < |N k * l k * (j * l k + 2 * t k)|

theorem rect_ck (l t : Fin 3 → ℝ) (n g : V3 Int) : wsCk (fun i => latVec (rectCell l) n i + t i)
    (latVec (superCell (rectCell l) n1 n2 n3) g) = axC (n1 * l 0) (n.x * l 0 + t 0) g.x +
      axC (n2 * l 1) (n.y * l 1 + t 1) g.y + axC (n3 * l 2) (n.z * l 2 + t 2) g.z := by
  simp [wsCk, vdot, latVec, superCell, rectCell, axC]
  ring

theorem rect_sharp {l t : Fin 3 → ℝ} {N : Fin 3 → ℕ} (h : RectPair l t N) (k : Fin 3) (n s : ℤ) (hs : |s| = 1) :
    axC (N k * l k) (n * l k + t k) s = 0 ∨ 1.0e-5 < |axC (N k * l k) (n * l k + t k) s| := by
  rcases (abs_eq (by norm_num)).mp hs with rfl | rfl
  · have e : axC (N k * l k) (n * l k + t k) 1 = N k * l k * ((2 * n - N k : ℤ) * l k + 2 * t k) / 2 := by
      simp only [axC]; push_cast; ring
    rw [e]
    rcases h.tie k (2 * n - N k) with h1 | h1
    · left; rw [h1]; simp
    · right
      rw [abs_div]
      norm_num at h1 ⊢
      linarith
  · have e : axC (N k * l k) (n * l k + t k) (-1) = -(N k * l k * ((2 * n + N k : ℤ) * l k + 2 * t k)) / 2 := by
      simp only [axC]; push_cast; ring
    rw [e]
    rcases h.tie k (2 * n + N k) with h1 | h1
    · left; rw [h1]; simp
    · right
      rw [abs_div, abs_neg]
      norm_num at h1 ⊢
      linarith

theorem rect_vdot (l : Fin 3 → ℝ) (g : V3 Int) : vdot (latVec (superCell (rectCell l) n1 n2 n3) g)
    (latVec (superCell (rectCell l) n1 n2 n3) g) = (g.x * (n1 * l 0)) ^ 2 + (g.y * (n2 * l 1)) ^ 2 + (g.z * (n3 * l 2)) ^ 2 := by
  simp [vdot, latVec, superCell, rectCell]
  ring

theorem rect_weight (l t : Fin 3 → ℝ) (h : RectPair l t ![n1, n2, n3]) (n : V3 Int) :
    wsWeight (fun i => latVec (rectCell l) n i + t i) (rwsList (superCell (rectCell l) n1 n2 n3)) =
      axW (n1 * l 0) (n.x * l 0 + t 0) * axW (n2 * l 1) (n.y * l 1 + t 1) * axW (n3 * l 2) (n.z * l 2 + t 2) := by
  classical
  have s0 := rect_sharp h 0 n.x
  have s1 := rect_sharp h 1 n.y
  have s2 := rect_sharp h 2 n.z
  have L0 := h.edge 0
  have L1 := h.edge 1
  have L2 := h.edge 2
  simp only [Matrix.cons_val_zero, Matrix.cons_val_one, Matrix.cons_val] at s0 s1 s2 L0 L1 L2
  obtain ⟨a, ha⟩ : ∃ a, a = (n1 : ℝ) * l 0 := ⟨_, rfl⟩
  obtain ⟨b, hb⟩ : ∃ b, b = (n2 : ℝ) * l 1 := ⟨_, rfl⟩
  obtain ⟨c, hc⟩ : ∃ c, c = (n3 : ℝ) * l 2 := ⟨_, rfl⟩
  obtain ⟨x, hx⟩ : ∃ x, x = (n.x : ℝ) * l 0 + t 0 := ⟨_, rfl⟩
  obtain ⟨y, hy⟩ : ∃ y, y = (n.y : ℝ) * l 1 + t 1 := ⟨_, rfl⟩
  obtain ⟨z, hz⟩ : ∃ z, z = (n.z : ℝ) * l 2 + t 2 := ⟨_, rfl⟩
  have hck : ∀ g : V3 Int, wsCk (fun i => latVec (rectCell l) n i + t i) (latVec (superCell (rectCell l) n1 n2 n3) g) =
      axC a x g.x + axC b y g.y + axC c z g.z := by
    intro g
    rw [rect_ck, ha, hb, hc, hx, hy, hz]
  have hvd : ∀ g : V3 Int, vdot (latVec (superCell (rectCell l) n1 n2 n3) g)
      (latVec (superCell (rectCell l) n1 n2 n3) g) = (g.x * a) ^ 2 + (g.y * b) ^ 2 + (g.z * c) ^ 2 := by
    intro g
    rw [rect_vdot, ha, hb, hc]
  rw [← ha, ← hx] at s0
  rw [← hb, ← hy] at s1
  rw [← hc, ← hz] at s2
  rw [← ha] at L0
  rw [← hb] at L1
  rw [← hc] at L2
  rw [← ha, ← hb, ← hc, ← hx, ← hy, ← hz]
  have hbig : ∀ g : V3 Int, 1.0e-6 < (g.x * a) ^ 2 + (g.y * b) ^ 2 + (g.z * c) ^ 2 ↔ g ≠ ⟨0, 0, 0⟩ := by
    intro g
    constructor
    · rintro h1 rfl
      norm_num at h1
    · intro hg
      have hsq : ∀ (m : ℤ) (w : ℝ), 1.0e-5 < w ^ 2 → m ≠ 0 → 1.0e-6 < ((m : ℝ) * w) ^ 2 := by
        intro m w hw hm
        have : (1 : ℝ) ≤ (m : ℝ) ^ 2 := by
          have : 1 ≤ m ^ 2 := by
            have := Int.one_le_abs hm
            nlinarith [abs_mul_abs_self m]
          exact_mod_cast this
        rw [mul_pow]
        norm_num at hw ⊢
        nlinarith
      by_cases g1 : g.x = 0
      · by_cases g2 : g.y = 0
        · have g3 : g.z ≠ 0 := by
            intro g3
            refine hg ?_
            cases g
            simp_all
          nlinarith [hsq g.z c L2 g3, sq_nonneg ((g.x : ℝ) * a), sq_nonneg ((g.y : ℝ) * b)]
        · nlinarith [hsq g.y b L1 g2, sq_nonneg ((g.x : ℝ) * a), sq_nonneg ((g.z : ℝ) * c)]
      · nlinarith [hsq g.x a L0 g1, sq_nonneg ((g.y : ℝ) * b), sq_nonneg ((g.z : ℝ) * c)]
  have hmem : ∀ g : V3 Int, |g.x| ≤ 2 → |g.y| ≤ 2 → |g.z| ≤ 2 → g ≠ ⟨0, 0, 0⟩ →
      latVec (superCell (rectCell l) n1 n2 n3) g ∈ rwsList (superCell (rectCell l) n1 n2 n3) := by
    intro g g1 g2 g3 g0
    refine (mem_rws _ _).mpr ⟨g, abs_le.mp g1, abs_le.mp g2, abs_le.mp g3, rfl, ?_⟩
    rw [hvd]
    exact (hbig g).mpr g0
  have hw0 : ∀ L r : ℝ, |L| / 2 < |r| → axW L r = 0 := by
    intro L r h1
    unfold axW
    rw [if_neg (by linarith), if_neg (by linarith)]
  by_cases h0 : |a| / 2 < |x|
  · obtain ⟨s, hs1, hs2⟩ := ax_outside a x s0 L0 h0
    rw [hw0 a x h0, zero_mul, zero_mul]
    refine (wsWeightLoop_eq _ _ 1).1 ⟨_, hmem ⟨s, 0, 0⟩ (by simp [hs1]) (by simp) (by simp) ?_, ?_⟩
    · intro he
      have : s = 0 := congrArg V3.x he
      rw [this] at hs1
      simp at hs1
    · rw [hck]
      simp only [axC_zero, add_zero]
      exact hs2
  by_cases h1 : |b| / 2 < |y|
  · obtain ⟨s, hs1, hs2⟩ := ax_outside b y s1 L1 h1
    rw [hw0 b y h1, mul_zero, zero_mul]
    refine (wsWeightLoop_eq _ _ 1).1 ⟨_, hmem ⟨0, s, 0⟩ (by simp) (by simp [hs1]) (by simp) ?_, ?_⟩
    · intro he
      have : s = 0 := congrArg V3.y he
      rw [this] at hs1
      simp at hs1
    · rw [hck]
      simp only [axC_zero, add_zero, zero_add]
      exact hs2
  by_cases h2 : |c| / 2 < |z|
  · obtain ⟨s, hs1, hs2⟩ := ax_outside c z s2 L2 h2
    rw [hw0 c z h2, mul_zero]
    refine (wsWeightLoop_eq _ _ 1).1 ⟨_, hmem ⟨0, 0, s⟩ (by simp) (by simp) (by simp [hs1]) ?_, ?_⟩
    · intro he
      have : s = 0 := congrArg V3.z he
      rw [this] at hs1
      simp at hs1
    · rw [hck]
      simp only [axC_zero, zero_add]
      exact hs2
  obtain ⟨p0, q0, w0⟩ := ax_count a x s0 L0 (not_lt.mp h0)
  obtain ⟨p1, q1, w1⟩ := ax_count b y s1 L1 (not_lt.mp h1)
  obtain ⟨p2, q2, w2⟩ := ax_count c z s2 L2 (not_lt.mp h2)
  have hle : ∀ g : V3 Int, |g.x| ≤ 2 → |g.y| ≤ 2 → |g.z| ≤ 2 → axC a x g.x + axC b y g.y + axC c z g.z ≤ 0 ∧
      (|axC a x g.x + axC b y g.y + axC c z g.z| ≤ 1.0e-5 ↔
        axC a x g.x = 0 ∧ axC b y g.y = 0 ∧ axC c z g.z = 0) := by
    intro g g1 g2 g3
    have r0 := p0 g.x g1
    have r1 := p1 g.y g2
    have r2 := p2 g.z g3
    have neg : ∀ v : ℝ, v = 0 ∨ v < -1.0e-5 → v ≤ 0 := by
      intro v hv
      rcases hv with hv | hv
      · exact hv.le
      · norm_num at hv; linarith
    have t0 := neg _ r0
    have t1 := neg _ r1
    have t2 := neg _ r2
    refine ⟨by linarith, ?_, ?_⟩
    · intro ha
      have hb := (abs_le.mp ha).1
      refine ⟨?_, ?_, ?_⟩
      · rcases r0 with r | r
        · exact r
        · linarith
      · rcases r1 with r | r
        · exact r
        · linarith
      · rcases r2 with r | r
        · exact r
        · linarith
    · rintro ⟨u0, u1, u2⟩
      rw [u0, u1, u2]
      norm_num
  refine ((wsWeightLoop_eq _ _ 1).2 ?_).trans ?_
  · intro v hv
    obtain ⟨g, g1, g2, g3, rfl, _⟩ := (mem_rws _ _).mp hv
    rw [hck]
    exact (hle g (abs_le.mpr g1) (abs_le.mpr g2) (abs_le.mpr g3)).1.trans (by norm_num)
  · have hcount : ((1 + (rwsList (superCell (rectCell l) n1 n2 n3)).countP (fun g =>
        decide (|wsCk (fun i => latVec (rectCell l) n i + t i) g| ≤ 1.0e-5)) : Nat) : ℝ) =
        1 / axW a x * (1 / axW b y) * (1 / axW c z) := by
      rw [← q0, ← q1, ← q2, ← zBox_sum ⟨2, 2, 2⟩]
      unfold rwsList
      rw [List.countP_filter, List.countP_map]
      push_cast
      have e1 : ((zBox ⟨2, 2, 2⟩).countP ((fun x => decide (|wsCk (fun i => latVec (rectCell l) n i + t i) x| ≤ 1.0e-5) &&
          decide (vdot x x > 1.0e-6)) ∘ latVec (superCell (rectCell l) n1 n2 n3))) =
          (zBox ⟨2, 2, 2⟩).countP fun g => decide ((axC a x g.x = 0 ∧ axC b y g.y = 0 ∧ axC c z g.z = 0) ∧ g ≠ ⟨0, 0, 0⟩) := by
        refine List.countP_congr fun g hg => ?_
        obtain ⟨g1, g2, g3⟩ := (mem_zBox _ _).mp hg
        simp only [Function.comp_apply, Bool.and_eq_true, decide_eq_true_eq]
        rw [hck, hvd, gt_iff_lt, hbig, (hle g (abs_le.mpr g1) (abs_le.mpr g2) (abs_le.mpr g3)).2]
      rw [e1, countP_sum]
      have e2 : (1 : ℝ) = ((zBox ⟨2, 2, 2⟩).map fun g : V3 Int => (if g.x = 0 then (1 : ℝ) else 0) *
          (if g.y = 0 then (1 : ℝ) else 0) * (if g.z = 0 then (1 : ℝ) else 0)).sum := by
        rw [zBox_sum ⟨2, 2, 2⟩ (fun v => if v = 0 then (1 : ℝ) else 0) (fun v => if v = 0 then (1 : ℝ) else 0)
          (fun v => if v = 0 then (1 : ℝ) else 0)]
        simp [zRange_two]
      refine (congrArg (fun w : ℝ => w + _) e2).trans ?_
      rw [← List.sum_map_add]
      refine congrArg _ (List.map_congr_left fun g _ => ?_)
      by_cases g0 : g = ⟨0, 0, 0⟩
      · subst g0
        simp [axC_zero]
      · have : ¬ (g.x = 0 ∧ g.y = 0 ∧ g.z = 0) := by
          rintro ⟨u0, u1, u2⟩
          refine g0 ?_
          cases g with
          | mk p q r =>
            simp only at u0 u1 u2
            rw [u0, u1, u2]
        rw [ind_three, if_neg this, zero_add, ind_three]
        simp only [g0, ne_eq, not_false_eq_true, and_true]
    have hd : (open scoped Classical in (rwsList (superCell (rectCell l) n1 n2 n3)).countP (fun g =>
        |wsCk (fun i => latVec (rectCell l) n i + t i) g| ≤ 1.0e-5)) =
        (rwsList (superCell (rectCell l) n1 n2 n3)).countP (fun g =>
        decide (|wsCk (fun i => latVec (rectCell l) n i + t i) g| ≤ 1.0e-5)) := by congr
    rw [hd, hcount]
    field_simp

theorem rect_check (c : PhCrystal A) (l : Fin 3 → ℝ) (hc : c.cell = rectCell l) [NeZero n1] [NeZero n2] [NeZero n3]
    (h : ∀ na nb, RectPair l (fun i => c.pos na i - c.pos nb i) ![n1, n2, n3]) : wsCheck c n1 n2 n3 := by
  intro na nb
  have hp := h na nb
  have hw : ∀ n, wsCacheAt c n1 n2 n3 n na nb = axW (n1 * l 0) (n.x * l 0 + (c.pos na 0 - c.pos nb 0)) *
      axW (n2 * l 1) (n.y * l 1 + (c.pos na 1 - c.pos nb 1)) * axW (n3 * l 2) (n.z * l 2 + (c.pos na 2 - c.pos nb 2)) := by
    intro n
    unfold wsCacheAt
    rw [hc]
    exact rect_weight l (fun i => c.pos na i - c.pos nb i) hp n
  have hl : ∀ k, l k ≠ 0 := by
    intro k h0
    have := hp.edge k
    rw [h0] at this
    norm_num at this
  have hn1 : 0 < n1 := Nat.pos_of_ne_zero (NeZero.ne n1)
  have hn2 : 0 < n2 := Nat.pos_of_ne_zero (NeZero.ne n2)
  have hn3 : 0 < n3 := Nat.pos_of_ne_zero (NeZero.ne n3)
  simp only [hw]
  unfold wsCells
  have e := zBox_sum ⟨2 * n1, 2 * n2, 2 * n3⟩ (fun v => axW (n1 * l 0) (v * l 0 + (c.pos na 0 - c.pos nb 0)))
    (fun v => axW (n2 * l 1) (v * l 1 + (c.pos na 1 - c.pos nb 1)))
    (fun v => axW (n3 * l 2) (v * l 2 + (c.pos na 2 - c.pos nb 2)))
  rw [e]
  dsimp only
  rw [ax_sum n1 hn1 _ _ (hl 0) (hp.cell 0), ax_sum n2 hn2 _ _ (hl 1) (hp.cell 1), ax_sum n3 hn3 _ _ (hl 2) (hp.cell 2)]
  simp
  norm_num

theorem zRange_sum (n : ℤ) (f : ℤ → ℝ) : ((zRange n).map f).sum = ∑ x ∈ Finset.Icc (-n) n, f x := by
  rw [← List.sum_toFinset _ (nodup_zRange _)]
  refine Finset.sum_congr ?_ fun _ _ => rfl
  ext x
  rw [List.mem_toFinset, mem_zRange, Finset.mem_Icc]

theorem zBox_sum_all (n : V3 Int) (f : V3 Int → ℝ) : ((zBox n).map f).sum =
    ∑ x ∈ Finset.Icc (-n.x) n.x, ∑ y ∈ Finset.Icc (-n.y) n.y, ∑ z ∈ Finset.Icc (-n.z) n.z, f ⟨x, y, z⟩ := by
  unfold zBox
  rw [List.map_flatMap, list_sum_flatMap, zRange_sum]
  refine Finset.sum_congr rfl fun x _ => ?_
  rw [List.map_flatMap, list_sum_flatMap, zRange_sum]
  refine Finset.sum_congr rfl fun y _ => ?_
  rw [List.map_map, zRange_sum]
  rfl

end Verif.Model
