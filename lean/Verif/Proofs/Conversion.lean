import Verif.Model.Conversion
import Verif.Spec.Conversion
import Verif.Spec.BlochWannier
import Verif.Proofs.Points
import Verif.Proofs.Input
import Mathlib.Data.Fintype.Pi
import Mathlib.Data.Fintype.Card
import Mathlib.Algebra.BigOperators.Fin
import Mathlib.Data.Fintype.BigOperators
import Mathlib.Tactic.FinCases

namespace Verif.Props
open Verif.Model Verif.Spec

variable {n : Fin 3 → Nat}

theorem gridNumber_lt (n : Fin 3 → Nat) (k : (i : Fin 3) → Fin (n i)) : gridNumber n k < n 0 * n 1 * n 2 := by
  unfold gridNumber
  have h0 := (k 0).2
  have h1 := (k 1).2
  have h2 := (k 2).2
  have a1 : (k 1 : ℕ) * n 0 + k 0 < n 0 * n 1 := by nlinarith
  have a2 : (k 2 : ℕ) * (n 0 * n 1) + (n 0 * n 1) ≤ n 2 * (n 0 * n 1) := by
    rw [← Nat.succ_mul]
    exact Nat.mul_le_mul_right _ h2
  have : (k 2 : ℕ) * n 0 * n 1 = k 2 * (n 0 * n 1) := by ring
  have : n 0 * n 1 * n 2 = n 2 * (n 0 * n 1) := by ring
  omega

theorem gridOf_number (n : Fin 3 → Nat) (hn : ∀ i, 0 < n i) (k : (i : Fin 3) → Fin (n i)) : gridOf n hn (gridNumber n k) = k := by
  have h0 := (k 0).2
  have h1 := (k 1).2
  have h2 := (k 2).2
  have a1 : (k 1 : ℕ) * n 0 + k 0 < n 0 * n 1 := by nlinarith
  funext i
  apply Fin.ext
  fin_cases i
  · show gridNumber n k % n 0 = k 0
    unfold gridNumber
    rw [show (k 2 : ℕ) * n 0 * n 1 + k 1 * n 0 + k 0 = k 0 + n 0 * (k 2 * n 1 + k 1) by ring, Nat.add_mul_mod_self_left, Nat.mod_eq_of_lt h0]
  · show gridNumber n k / n 0 % n 1 = k 1
    unfold gridNumber
    rw [show (k 2 : ℕ) * n 0 * n 1 + k 1 * n 0 + k 0 = k 0 + n 0 * (k 1 + n 1 * k 2) by ring, Nat.add_mul_div_left _ _ (hn 0),
      Nat.div_eq_of_lt h0, zero_add, Nat.add_mul_mod_self_left, Nat.mod_eq_of_lt h1]
  · show gridNumber n k / (n 0 * n 1) % n 2 = k 2
    unfold gridNumber
    rw [show (k 2 : ℕ) * n 0 * n 1 + k 1 * n 0 + k 0 = (k 1 * n 0 + k 0) + (n 0 * n 1) * k 2 by ring,
      Nat.add_mul_div_left _ _ (Nat.mul_pos (hn 0) (hn 1)), Nat.div_eq_of_lt a1, zero_add, Nat.mod_eq_of_lt h2]

theorem gridNumber_of (n : Fin 3 → Nat) (hn : ∀ i, 0 < n i) (i : Nat) (hi : i < n 0 * n 1 * n 2) : gridNumber n (gridOf n hn i) = i := by
  show i / (n 0 * n 1) % n 2 * n 0 * n 1 + i / n 0 % n 1 * n 0 + i % n 0 = i
  have h2 : i / (n 0 * n 1) < n 2 := by
    rw [Nat.div_lt_iff_lt_mul (Nat.mul_pos (hn 0) (hn 1))]; linarith [Nat.mul_comm (n 2) (n 0 * n 1)]
  rw [Nat.mod_eq_of_lt h2, ← Nat.div_div_eq_div_mul]
  have e1 := Nat.mod_add_div i (n 0)
  have e2 := Nat.mod_add_div (i / n 0) (n 1)
  calc i / n 0 / n 1 * n 0 * n 1 + i / n 0 % n 1 * n 0 + i % n 0
      = n 0 * (i / n 0 % n 1 + n 1 * (i / n 0 / n 1)) + i % n 0 := by ring
    _ = i := by rw [e2]; omega

theorem gridNumber_inj (n : Fin 3 → Nat) (hn : ∀ i, 0 < n i) {k k' : (i : Fin 3) → Fin (n i)} (h : gridNumber n k = gridNumber n k') : k = k' := by
  rw [← gridOf_number n hn k, h, gridOf_number]

theorem gridList_length (n : Fin 3 → Nat) (hn : ∀ i, 0 < n i) : (gridList n hn).length = n 0 * n 1 * n 2 := by simp [gridList]

theorem gridList_get (n : Fin 3 → Nat) (hn : ∀ i, 0 < n i) (k : (i : Fin 3) → Fin (n i)) : (gridList n hn)[gridNumber n k]? = some k := by
  unfold gridList
  rw [List.getElem?_map, List.getElem?_range (gridNumber_lt n k), Option.map_some, gridOf_number]

theorem gridList_once (n : Fin 3 → Nat) (hn : ∀ i, 0 < n i) : EachOnce (gridList n hn) := by
  constructor
  · unfold gridList
    refine List.Nodup.map_on ?_ List.nodup_range
    intro a ha b hb h
    rw [List.mem_range] at ha hb
    rw [← gridNumber_of n hn a ha, h, gridNumber_of n hn b hb]
  · intro k
    exact List.mem_of_getElem? (gridList_get n hn k)

theorem round_near {x : Rat} {j : Int} (h1 : (j : Rat) - 1 / 2 < x) (h2 : x < (j : Rat) + 1 / 2) : cround x = j := by
  unfold cround
  split
  · rw [Int.floor_eq_iff]; constructor <;> linarith
  · rw [Int.ceil_eq_iff]; constructor <;> linarith

/-- A coordinate near one of the mesh, in units of the mesh. -/
theorem near_scaled {x : Rat} {n k : Nat} (hn : 0 < n) (hs : n ≤ 1000) (h : NearMod (1 / 10000000000) x (k / n)) :
    ∃ m : Int, |x * n - ((k + m * n : Int) : Rat)| ≤ 1 / 10000000 := by
  obtain ⟨m, hm⟩ := h
  refine ⟨m, ?_⟩
  have hn' : (0 : Rat) < n := by exact_mod_cast hn
  have hs' : (n : Rat) ≤ 1000 := by exact_mod_cast hs
  have e : x * n - ((k + m * n : Int) : Rat) = (x - k / n - m) * n := by
    push_cast
    field_simp
    ring
  rw [e, abs_mul, abs_of_pos hn']
  have := mul_le_mul hm hs' hn'.le (by norm_num)
  linarith

/-- The program finds a wavevector of the mesh at its number. -/
theorem getIndex_near (hn : ∀ i, 0 < n i) (hs : ∀ i, n i ≤ 1000) (points : Points) (hp : gridPoints n = .ok points) (p : V3 Rat)
    (k : (i : Fin 3) → Fin (n i)) (h : IsPoint n p k) : points.getIndex p = .ok (gridNumber n k : Int) := by
  have h0 := hn 0
  have h1 := hn 1
  have h2 := hn 2
  have hval : isPointStoredMesh ⟨n 0, n 1, n 2⟩ ⟨0, 0, 0⟩ p = (gridNumber n k : Int) := by
    obtain ⟨⟨a, ha⟩, ⟨b, hb⟩, ⟨c, hc⟩⟩ := And.intro (near_scaled (hn 0) (hs 0) h.1)
      (And.intro (near_scaled (hn 1) (hs 1) h.2.1) (near_scaled (hn 2) (hs 2) h.2.2))
    rw [abs_le] at ha hb hc
    unfold isPointStoredMesh
    simp only [sub_zero]
    have ca : cround (p.x * ((n 0 : Int) : Rat)) = (k 0 : ℕ) + a * n 0 := by
      apply round_near <;> push_cast at * <;> linarith
    have cb : cround (p.y * ((n 1 : Int) : Rat)) = (k 1 : ℕ) + b * n 1 := by
      apply round_near <;> push_cast at * <;> linarith
    have cc : cround (p.z * ((n 2 : Int) : Rat)) = (k 2 : ℕ) + c * n 2 := by
      apply round_near <;> push_cast at * <;> linarith
    rw [ca, cb, cc, if_neg]
    rw [imod_eq _ (b := (n 0 : Int)) (by exact_mod_cast h0), imod_eq _ (b := (n 1 : Int)) (by exact_mod_cast h1),
      imod_eq _ (b := (n 2 : Int)) (by exact_mod_cast h2),
      Int.add_mul_emod_self_right, Int.add_mul_emod_self_right, Int.add_mul_emod_self_right,
      Int.emod_eq_of_lt (b := (n 0 : Int)) (by positivity) (by exact_mod_cast (k 0).2),
      Int.emod_eq_of_lt (b := (n 1 : Int)) (by positivity) (by exact_mod_cast (k 1).2),
      Int.emod_eq_of_lt (b := (n 2 : Int)) (by positivity) (by exact_mod_cast (k 2).2)]
    · unfold gridNumber; push_cast; ring
    · unfold eps6
      push_cast at *
      linarith
  unfold gridPoints setMesh at hp
  simp only at hp
  rw [if_neg (by omega), if_neg (by omega), if_neg (by omega), if_neg (by norm_num), if_neg (by norm_num), if_neg (by norm_num)] at hp
  injection hp with hp
  subst hp
  unfold Points.getIndex Points.isPointStored
  simp only [Bool.false_eq_true, if_false, hval]
  rw [if_neg (by omega)]

theorem gridPoints_ok (n : Fin 3 → Nat) (hn : ∀ i, 0 < n i) : ∃ points, gridPoints n = .ok points := by
  have h0 := hn 0
  have h1 := hn 1
  have h2 := hn 2
  unfold gridPoints setMesh
  simp only
  rw [if_neg (by omega), if_neg (by omega), if_neg (by omega), if_neg (by norm_num), if_neg (by norm_num), if_neg (by norm_num)]
  exact ⟨_, rfl⟩

theorem rationalIndex_near (hn : ∀ i, 0 < n i) (hs : ∀ i, n i ≤ 1000) (points : Points) (hp : gridPoints n = .ok points) (p : V3 Rat)
    (k : (i : Fin 3) → Fin (n i)) (h : IsPoint n p k) : rationalIndex points ⟨(p.x : ℝ), (p.y : ℝ), (p.z : ℝ)⟩ = .ok (gridNumber n k) := by
  have hex : ∃ r : V3 Rat, (⟨(p.x : ℝ), (p.y : ℝ), (p.z : ℝ)⟩ : V3 ℝ) = ⟨(r.x : ℝ), (r.y : ℝ), (r.z : ℝ)⟩ := ⟨p, rfl⟩
  have key : ∀ r : V3 Rat, (⟨(p.x : ℝ), (p.y : ℝ), (p.z : ℝ)⟩ : V3 ℝ) = ⟨(r.x : ℝ), (r.y : ℝ), (r.z : ℝ)⟩ → r = p := by
    intro r hr
    simp only [V3.mk.injEq, Rat.cast_inj] at hr
    cases p
    cases r
    simp only at hr
    obtain ⟨rfl, rfl, rfl⟩ := hr
    rfl
  have he : hex.choose = p := key _ hex.choose_spec
  unfold rationalIndex
  rw [dif_pos hex, he, getIndex_near hn hs points hp p k h]
  simp

/-- A list with each wavevector once has the length of the mesh. -/
theorem listsGrid_length (ks : List (V3 Rat)) (pos : Nat → (i : Fin 3) → Fin (n i)) (h : ListsGrid n ks pos) :
    ks.length = n 0 * n 1 * n 2 := by
  have hb : Function.Bijective fun w : Fin ks.length => pos w := by
    constructor
    · intro a b hab
      obtain ⟨w, _, hu⟩ := h.2 (pos a)
      have h1 := hu a ⟨a.2, rfl⟩
      have h2 := hu b ⟨b.2, hab.symm⟩
      exact Fin.ext (h1.trans h2.symm)
    · intro k
      obtain ⟨w, hw, _⟩ := h.2 k
      exact ⟨⟨w, hw.1⟩, hw.2⟩
  have := Fintype.card_congr (Equiv.ofBijective _ hb)
  rw [Fintype.card_fin, Fintype.card_pi, Fin.prod_univ_three] at this
  simpa using this

theorem listsGrid_mesh (hn : ∀ i, 0 < n i) (hs : ∀ i, n i ≤ 1000) (points : Points) (hp : gridPoints n = .ok points) (ks : List (V3 Rat))
    (pos : Nat → (i : Fin 3) → Fin (n i)) (h : ListsGrid n ks pos) : ListsMesh points ks fun w => gridNumber n (pos w) := by
  refine ⟨fun w hw => ⟨getIndex_near hn hs points hp _ _ (h.1 w hw), ?_⟩, fun v w hv hw hvw => ?_⟩
  · rw [listsGrid_length ks pos h]; exact gridNumber_lt n _
  · have := gridNumber_inj n hn hvw
    obtain ⟨u, _, hu⟩ := h.2 (pos v)
    exact (hu v ⟨hv, rfl⟩).trans (hu w ⟨hw, this.symm⟩).symm

end Verif.Props
