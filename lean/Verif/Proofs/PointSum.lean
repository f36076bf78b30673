import Verif.Proofs.ThirdState
import Verif.Spec.PointSum
import Mathlib.Tactic.LinearCombination

/-! Lemmas for the sums of points. -/
namespace Verif.Model
open Verif.Props

theorem readAt_of_getElem? {α : Type} {l : List α} {i : Nat} {x : α} (h : l[i]? = some x) : readAt l i = .ok x := by
  unfold readAt; rw [h]

theorem crystalOf_decode {mesh : V3 Int} {i a b c : Int} (d : Decode mesh i a b c) :
    crystalOf mesh i = ⟨(a : Rat) / mesh.x, (b : Rat) / mesh.y, (c : Rat) / mesh.z⟩ := by
  obtain ⟨⟨a1, a2⟩, ⟨b1, b2⟩, ⟨c1, c2⟩, hi⟩ := d
  have hx : 0 < mesh.x := by omega
  have hy : 0 < mesh.y := by omega
  have e1 : i % mesh.x = a := by
    rw [hi, show c * mesh.x * mesh.y + b * mesh.x + a = a + mesh.x * (c * mesh.y + b) by ring,
      Int.add_mul_emod_self_left, Int.emod_eq_of_lt a1 a2]
  have e2 : i / mesh.x = b + mesh.y * c := by
    rw [hi, show c * mesh.x * mesh.y + b * mesh.x + a = a + mesh.x * (b + mesh.y * c) by ring,
      Int.add_mul_ediv_left _ _ (by omega), Int.ediv_eq_zero_of_lt a1 a2, zero_add]
  have e3 : i / (mesh.x * mesh.y) = c := by
    rw [← Int.ediv_ediv_of_nonneg (by omega), e2, Int.add_mul_ediv_left _ _ (by omega), Int.ediv_eq_zero_of_lt b1 b2,
      zero_add]
  unfold crystalOf
  rw [e1, e2, e3, Int.add_mul_emod_self_left, Int.emod_eq_of_lt b1 b2]

theorem crystalOf_eq {mesh : V3 Int} (hm : PosMesh mesh) {i : Int} (hi : 0 ≤ i ∧ i < mesh.x * mesh.y * mesh.z) :
    meshCoordinates mesh ⟨0, 0, 0⟩ i = crystalOf mesh i := by
  obtain ⟨a, b, c, d⟩ := exists_decode hm.1 hm.2.1 hm.2.2 hi.1 hi.2
  rw [crystalOf_decode d, meshCoordinates_decode d]
  simp

theorem frac_bounds {a m : Int} (ha : 0 ≤ a ∧ a < m) : (0 : Rat) ≤ (a : Rat) / m ∧ (a : Rat) / m < 1 := by
  have hm : (0 : Rat) < m := by exact_mod_cast (by omega : (0 : Int) < m)
  have h1 : (0 : Rat) ≤ a := by exact_mod_cast ha.1
  have h2 : (a : Rat) < m := by exact_mod_cast ha.2
  exact ⟨div_nonneg h1 hm.le, (div_lt_one hm).mpr h2⟩

theorem crystalOf_bounds {mesh : V3 Int} (hm : PosMesh mesh) {i : Int} (hi : 0 ≤ i ∧ i < mesh.x * mesh.y * mesh.z) :
    (0 ≤ (crystalOf mesh i).x ∧ (crystalOf mesh i).x < 1) ∧ (0 ≤ (crystalOf mesh i).y ∧ (crystalOf mesh i).y < 1) ∧
    (0 ≤ (crystalOf mesh i).z ∧ (crystalOf mesh i).z < 1) := by
  obtain ⟨a, b, c, d⟩ := exists_decode hm.1 hm.2.1 hm.2.2 hi.1 hi.2
  rw [crystalOf_decode d]
  exact ⟨frac_bounds d.ha, frac_bounds d.hb, frac_bounds d.hc⟩

theorem crystalOf_commensurate {mesh : V3 Int} (hm : PosMesh mesh) {i : Int}
    (hi : 0 ≤ i ∧ i < mesh.x * mesh.y * mesh.z) : Commensurate mesh (crystalOf mesh i) := by
  rw [← crystalOf_eq hm hi]; exact commensurate_mesh hm i hi

theorem crystalOf_inj {mesh : V3 Int} (hm : PosMesh mesh) {i j : Int} (hi : 0 ≤ i ∧ i < mesh.x * mesh.y * mesh.z)
    (hj : 0 ≤ j ∧ j < mesh.x * mesh.y * mesh.z) (h : Equivalent (crystalOf mesh i) (crystalOf mesh j)) : i = j :=
  C12_injective mesh ⟨0, 0, 0⟩ hm i j hi hj (by rw [crystalOf_eq hm hi, crystalOf_eq hm hj]; exact h)

/-- The point found for commensurate coordinates. -/
theorem pointAt_val {mesh : V3 Int} (hm : PosMesh mesh) {s : Points} (hs : setMesh mesh ⟨0, 0, 0⟩ = .ok s) (P : Nat)
    {v : V3 Rat} (hv : Commensurate mesh v) :
    pointAt s P v = .ok ⟨(crystalOf mesh (meshIndex mesh v)).sub v, meshIndex mesh v, P⟩ ∧
    (0 ≤ (meshIndex mesh v : Int) ∧ (meshIndex mesh v : Int) < mesh.x * mesh.y * mesh.z) ∧
    Equivalent v (crystalOf mesh (meshIndex mesh v)) := by
  obtain ⟨h1, h2, h3⟩ := meshIndex_spec hm hv
  have hb : 0 ≤ (meshIndex mesh v : Int) ∧ (meshIndex mesh v : Int) < mesh.x * mesh.y * mesh.z :=
    ⟨Int.natCast_nonneg _, h2⟩
  refine ⟨?_, hb, ?_⟩
  · unfold pointAt
    rw [full_getIndex hm hs hv]
    simp only [Outcome.bind_eq, Outcome.bind_ok]
    rw [full_coordinates hm hs, crystalOf_eq hm hb]
    rfl
  · rw [← crystalOf_eq hm hb]; exact h3

theorem plus_val {sets : List Points} {mesh : V3 Int} (hm : PosMesh mesh) {a b : PointRef} (ha : OnMesh sets mesh a)
    (hb : OnMesh sets mesh b) (hab : b.points = a.points) :
    ∃ i : Int, (0 ≤ i ∧ i < mesh.x * mesh.y * mesh.z) ∧
      Equivalent ((crystalOf mesh a.index).add (crystalOf mesh b.index)) (crystalOf mesh i) ∧
      PointRef.plus sets a b =
        .ok ⟨(crystalOf mesh i).sub ((crystalOf mesh a.index).add (crystalOf mesh b.index)), i, a.points⟩ := by
  obtain ⟨ha1, s, ha2, hs⟩ := ha
  obtain ⟨hb1, _⟩ := hb
  obtain ⟨h1, h2, h3⟩ := pointAt_val hm hs a.points
    (commensurate_add (crystalOf_commensurate hm ha1) (crystalOf_commensurate hm hb1))
  refine ⟨_, h2, h3, ?_⟩
  unfold PointRef.plus
  rw [if_neg (by simp [hab]), readAt_of_getElem? ha2]
  simp only [Outcome.bind_eq, Outcome.bind_ok]
  rw [full_coordinates hm hs, full_coordinates hm hs, crystalOf_eq hm ha1, crystalOf_eq hm hb1]
  exact h1

theorem minus_val {sets : List Points} {mesh : V3 Int} (hm : PosMesh mesh) {a b : PointRef} (ha : OnMesh sets mesh a)
    (hb : OnMesh sets mesh b) (hab : b.points = a.points) :
    ∃ i : Int, (0 ≤ i ∧ i < mesh.x * mesh.y * mesh.z) ∧
      Equivalent ((crystalOf mesh a.index).sub (crystalOf mesh b.index)) (crystalOf mesh i) ∧
      PointRef.minus sets a b =
        .ok ⟨(crystalOf mesh i).sub ((crystalOf mesh a.index).sub (crystalOf mesh b.index)), i, a.points⟩ := by
  obtain ⟨ha1, s, ha2, hs⟩ := ha
  obtain ⟨hb1, _⟩ := hb
  obtain ⟨h1, h2, h3⟩ := pointAt_val hm hs a.points
    (commensurate_sub (crystalOf_commensurate hm ha1) (crystalOf_commensurate hm hb1))
  refine ⟨_, h2, h3, ?_⟩
  unfold PointRef.minus
  rw [if_neg (by simp [hab]), readAt_of_getElem? ha2]
  simp only [Outcome.bind_eq, Outcome.bind_ok]
  rw [full_coordinates hm hs, full_coordinates hm hs, crystalOf_eq hm ha1, crystalOf_eq hm hb1]
  exact h1

/-- An integer `g` with `0 ≤ x + g < 1` and `0 ≤ x < 2`. -/
theorem carry_unique {x y : Rat} {g : Int} (hx : 0 ≤ x ∧ x < 2) (hy : 0 ≤ y ∧ y < 1) (h : y = x + g) : g = carry x := by
  unfold carry
  subst h
  split
  · have h1 : (-1 : Rat) < g := by linarith [hx.1, hy.1]
    have h2 : (g : Rat) < 1 := by linarith [hx.1, hy.2]
    have h1' : (-1 : Int) < g := by exact_mod_cast h1
    have h2' : g < 1 := by exact_mod_cast h2
    omega
  · have h1 : (-2 : Rat) < g := by linarith [hx.2, hy.1]
    have h2 : (g : Rat) < 0 := by linarith [hy.2]
    have h1' : (-2 : Int) < g := by exact_mod_cast h1
    have h2' : g < 0 := by exact_mod_cast h2
    omega

/-- An integer `g` with `0 ≤ x + g < 1` and `-1 < x < 1`. -/
theorem borrow_unique {x y : Rat} {g : Int} (hx : -1 < x ∧ x < 1) (hy : 0 ≤ y ∧ y < 1) (h : y = x + g) : g = borrow x := by
  unfold borrow
  subst h
  split
  · have h1 : (0 : Rat) < g := by linarith [hy.1]
    have h2 : (g : Rat) < 2 := by linarith [hx.1, hy.2]
    have h1' : (0 : Int) < g := by exact_mod_cast h1
    have h2' : g < 2 := by exact_mod_cast h2
    omega
  · have h1 : (-1 : Rat) < g := by linarith [hx.2, hy.1]
    have h2 : (g : Rat) < 1 := by linarith [hy.2]
    have h1' : (-1 : Int) < g := by exact_mod_cast h1
    have h2' : g < 1 := by exact_mod_cast h2
    omega

/-- Only the null vector among the lattice vectors is not an Umklapp vector. -/
theorem hasUmklapp_cast (g : V3 Int) (i : Int) (P : Nat) :
    (PointRef.mk g.cast i P).hasUmklapp = true ↔ g ≠ ⟨0, 0, 0⟩ := by
  unfold PointRef.hasUmklapp
  rw [Bool.not_eq_true', decide_eq_false_iff_not, not_lt]
  simp only [V3.norm2, V3.dot, V3.cast]
  constructor
  · rintro h rfl
    norm_num [eps8] at h
  · intro h
    have key : 1 ≤ g.x * g.x + g.y * g.y + g.z * g.z := by
      by_contra hc
      have hx := mul_self_nonneg g.x
      have hy := mul_self_nonneg g.y
      have hz := mul_self_nonneg g.z
      apply h
      have ex : g.x = 0 := mul_self_eq_zero.mp (by omega)
      have ey : g.y = 0 := mul_self_eq_zero.mp (by omega)
      have ez : g.z = 0 := mul_self_eq_zero.mp (by omega)
      cases g; simp_all
    have k2 : (1 : Rat) ≤ g.x * g.x + g.y * g.y + g.z * g.z := by exact_mod_cast key
    have : eps8 * eps8 ≤ 1 := by norm_num [eps8]
    linarith

end Verif.Model
