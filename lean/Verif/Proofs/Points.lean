import Verif.Model.Points
import Verif.Proofs.Utilities
import Mathlib.Tactic.Linarith
import Mathlib.Tactic.FieldSimp
import Mathlib.Tactic.Ring
import Mathlib.Tactic.NormNum
/-! Helper lemmas for src/points.cpp. -/
namespace Verif.Model

theorem imod_eq (a : Int) {b : Int} (hb : 0 < b) : imod a b = a % b := by
  unfold imod
  have h1 := neg_lt_tmod a hb
  have h2 := Int.tmod_lt_of_pos a hb
  have h3 := Int.mul_tdiv_add_tmod a b
  rw [Int.tmod_eq_emod_of_nonneg (by omega)]
  have : a = (a.tmod b + b) + (a.tdiv b - 1) * b := by
    have : (a.tdiv b - 1) * b = b * a.tdiv b - b := by ring
    omega
  conv_rhs => rw [this]
  rw [Int.add_mul_emod_self_right]

theorem cround_int (n : Int) : cround (n : Rat) = n := by
  unfold cround
  split
  · rw [Int.floor_eq_iff]; constructor <;> linarith
  · rw [Int.ceil_eq_iff]; constructor <;> linarith

/-- The integer triple of mesh point `i`. -/
structure Decode (mesh : V3 Int) (i : Int) (a b c : Int) : Prop where
  ha : 0 ≤ a ∧ a < mesh.x
  hb : 0 ≤ b ∧ b < mesh.y
  hc : 0 ≤ c ∧ c < mesh.z
  hi : i = c * mesh.x * mesh.y + b * mesh.x + a

theorem exists_decode {mesh : V3 Int} {i : Int} (h1 : 0 < mesh.x) (h2 : 0 < mesh.y) (h3 : 0 < mesh.z)
    (hi : 0 ≤ i) (hi2 : i < mesh.x * mesh.y * mesh.z) : ∃ a b c, Decode mesh i a b c := by
  have p : 0 < mesh.x * mesh.y := mul_pos h1 h2
  have r1 : 0 ≤ i % (mesh.x * mesh.y) := Int.emod_nonneg _ (by omega)
  have r2 : i % (mesh.x * mesh.y) < mesh.x * mesh.y := Int.emod_lt_of_pos _ p
  have e1 := Int.mul_ediv_add_emod i (mesh.x * mesh.y)
  have e2 := Int.mul_ediv_add_emod (i % (mesh.x * mesh.y)) mesh.x
  refine ⟨i % (mesh.x * mesh.y) % mesh.x, i % (mesh.x * mesh.y) / mesh.x, i / (mesh.x * mesh.y),
    ⟨Int.emod_nonneg _ (by omega), Int.emod_lt_of_pos _ h1⟩,
    ⟨Int.ediv_nonneg r1 (by omega), Int.ediv_lt_of_lt_mul h1 (by rw [mul_comm mesh.y]; exact r2)⟩,
    ⟨Int.ediv_nonneg hi (by omega), Int.ediv_lt_of_lt_mul p (by rw [mul_comm mesh.z]; exact hi2)⟩, ?_⟩
  have : i / (mesh.x * mesh.y) * mesh.x * mesh.y = mesh.x * mesh.y * (i / (mesh.x * mesh.y)) := by ring
  have : i % (mesh.x * mesh.y) / mesh.x * mesh.x = mesh.x * (i % (mesh.x * mesh.y) / mesh.x) := by ring
  omega

theorem Decode.bounds {mesh : V3 Int} {i a b c : Int} (d : Decode mesh i a b c) :
    0 ≤ i ∧ i < mesh.x * mesh.y * mesh.z := by
  obtain ⟨q1, q2, q3, q4⟩ := nonneg_mul_lt d.hb.1 d.hb.2 d.ha.1 d.ha.2
  obtain ⟨p1, p2, p3, p4⟩ := nonneg_mul_lt (i1 := c) (s1 := mesh.z) (s2 := mesh.y * mesh.x)
    d.hc.1 d.hc.2 q1 q2
  have e : c * (mesh.y * mesh.x) = c * mesh.x * mesh.y := by ring
  have e2 : mesh.z * (mesh.y * mesh.x) = mesh.x * mesh.y * mesh.z := by ring
  have := d.hi
  omega

theorem meshCoordinates_decode {mesh : V3 Int} {offset : V3 Rat} {i a b c : Int}
    (d : Decode mesh i a b c) :
    meshCoordinates mesh offset i =
      ⟨(a : Rat) / mesh.x + offset.x, (b : Rat) / mesh.y + offset.y, (c : Rat) / mesh.z + offset.z⟩ := by
  have hx : 0 < mesh.x := by have := d.ha; omega
  have hy : 0 < mesh.y := by have := d.hb; omega
  obtain ⟨hi1, _⟩ := d.bounds
  obtain ⟨q1, q2, q3, q4⟩ := nonneg_mul_lt d.hb.1 d.hb.2 d.ha.1 d.ha.2
  have hr : i = c * (mesh.x * mesh.y) + (b * mesh.x + a) := by rw [d.hi]; ring
  have q2' : b * mesh.x + a < mesh.x * mesh.y := by rw [mul_comm mesh.x]; exact q2
  have e1 : i.tdiv (mesh.x * mesh.y) = c := by
    rw [Int.tdiv_eq_ediv_of_nonneg hi1, hr]; exact add_mul_ediv_lt q1 q2'
  have e2 : i - c * mesh.x * mesh.y = b * mesh.x + a := by rw [d.hi]; ring
  have e3 : (b * mesh.x + a).tdiv mesh.x = b := by
    rw [Int.tdiv_eq_ediv_of_nonneg q1]; exact add_mul_ediv_lt d.ha.1 d.ha.2
  have e4 : imod (b * mesh.x + a) mesh.x = a := by
    rw [imod_eq _ hx, add_comm, Int.add_mul_emod_self_right, Int.emod_eq_of_lt d.ha.1 d.ha.2]
  unfold meshCoordinates
  simp only [e1, e2, e3, e4]

theorem scale_back {m n g : Int} {o : Rat} (hm : 0 < m) :
    ((n : Rat) / m + o + g - o) * m = ((n + g * m : Int) : Rat) := by
  have : (m : Rat) ≠ 0 := by exact_mod_cast hm.ne'
  push_cast
  field_simp
  ring

/-- Lookup of the integer triple `n + g*mesh` (in units of the mesh) returns the packed residues. -/
theorem isPointStoredMesh_int (mesh : V3 Int) (offset p : V3 Rat) (nx ny nz : Int)
    (h1 : 0 < mesh.x) (h2 : 0 < mesh.y) (h3 : 0 < mesh.z)
    (hx : (p.x - offset.x) * mesh.x = nx) (hy : (p.y - offset.y) * mesh.y = ny)
    (hz : (p.z - offset.z) * mesh.z = nz) :
    isPointStoredMesh mesh offset p
      = nz % mesh.z * mesh.x * mesh.y + ny % mesh.y * mesh.x + nx % mesh.x := by
  unfold isPointStoredMesh
  simp only [hx, hy, hz, cround_int, imod_eq _ h1, imod_eq _ h2, imod_eq _ h3]
  rw [if_neg]
  simp [eps6]

end Verif.Model
