import Verif.Proofs.PointSum

/-!
# Property C171: sums and differences of wavevectors
-/
namespace Verif.Props
open Verif.Model

/-- The sum of two points of a mesh is the point of the same mesh whose coordinates are the sum of the coordinates plus
the Umklapp vector, which is the lattice vector that brings the sum back to the cell; there is an Umklapp vector exactly
when the sum leaves the cell. -/
theorem C171_sum {sets : List Points} {mesh : V3 Int} (hm : PosMesh mesh) {a b : PointRef} (ha : OnMesh sets mesh a)
    (hb : OnMesh sets mesh b) (hab : b.points = a.points) :
    ∃ r, PointRef.plus sets a b = .ok r ∧ OnMesh sets mesh r ∧ r.points = a.points ∧
      (let c := (crystalOf mesh a.index).add (crystalOf mesh b.index)
       r.umklapp = V3.cast ⟨carry c.x, carry c.y, carry c.z⟩ ∧
       crystalOf mesh r.index = translate c ⟨carry c.x, carry c.y, carry c.z⟩ ∧
       (r.hasUmklapp = true ↔ 1 ≤ c.x ∨ 1 ≤ c.y ∨ 1 ≤ c.z)) := by
  obtain ⟨i, hi, he, h⟩ := plus_val hm ha hb hab
  obtain ⟨ax, ay, az⟩ := crystalOf_bounds hm ha.1
  obtain ⟨bx, by', bz⟩ := crystalOf_bounds hm hb.1
  obtain ⟨cx, cy, cz⟩ := crystalOf_bounds hm hi
  refine ⟨_, h, ⟨hi, ha.2⟩, rfl, ?_⟩
  generalize hA : crystalOf mesh a.index = A at *
  generalize hB : crystalOf mesh b.index = C at *
  obtain ⟨g, hg⟩ := equivalent_symm he
  simp only [translate, V3.add] at hg
  have ex := carry_unique (x := A.x + C.x) ⟨by linarith [ax.1, bx.1], by linarith [ax.2, bx.2]⟩ cx (by rw [hg])
  have ey := carry_unique (x := A.y + C.y) ⟨by linarith [ay.1, by'.1], by linarith [ay.2, by'.2]⟩ cy (by rw [hg])
  have ez := carry_unique (x := A.z + C.z) ⟨by linarith [az.1, bz.1], by linarith [az.2, bz.2]⟩ cz (by rw [hg])
  have hu : (crystalOf mesh i).sub (A.add C) = V3.cast ⟨carry (A.x + C.x), carry (A.y + C.y), carry (A.z + C.z)⟩ := by
    rw [hg, ← ex, ← ey, ← ez]
    simp [V3.sub, V3.add, V3.cast]
  refine ⟨hu, ?_, ?_⟩
  · simp only [V3.add, translate]
    rw [← ex, ← ey, ← ez]; exact hg
  · rw [hu, hasUmklapp_cast]
    simp only [ne_eq, V3.mk.injEq, V3.add, carry]
    split <;> split <;> split <;> simp_all

/-- The same for differences. -/
theorem C171_difference {sets : List Points} {mesh : V3 Int} (hm : PosMesh mesh) {a b : PointRef}
    (ha : OnMesh sets mesh a) (hb : OnMesh sets mesh b) (hab : b.points = a.points) :
    ∃ r, PointRef.minus sets a b = .ok r ∧ OnMesh sets mesh r ∧ r.points = a.points ∧
      (let c := (crystalOf mesh a.index).sub (crystalOf mesh b.index)
       r.umklapp = V3.cast ⟨borrow c.x, borrow c.y, borrow c.z⟩ ∧
       crystalOf mesh r.index = translate c ⟨borrow c.x, borrow c.y, borrow c.z⟩ ∧
       (r.hasUmklapp = true ↔ c.x < 0 ∨ c.y < 0 ∨ c.z < 0)) := by
  obtain ⟨i, hi, he, h⟩ := minus_val hm ha hb hab
  obtain ⟨ax, ay, az⟩ := crystalOf_bounds hm ha.1
  obtain ⟨bx, by', bz⟩ := crystalOf_bounds hm hb.1
  obtain ⟨cx, cy, cz⟩ := crystalOf_bounds hm hi
  refine ⟨_, h, ⟨hi, ha.2⟩, rfl, ?_⟩
  generalize hA : crystalOf mesh a.index = A at *
  generalize hB : crystalOf mesh b.index = C at *
  obtain ⟨g, hg⟩ := equivalent_symm he
  simp only [translate, V3.sub] at hg
  have ex := borrow_unique (x := A.x - C.x) ⟨by linarith [ax.1, bx.2], by linarith [ax.2, bx.1]⟩ cx (by rw [hg])
  have ey := borrow_unique (x := A.y - C.y) ⟨by linarith [ay.1, by'.2], by linarith [ay.2, by'.1]⟩ cy (by rw [hg])
  have ez := borrow_unique (x := A.z - C.z) ⟨by linarith [az.1, bz.2], by linarith [az.2, bz.1]⟩ cz (by rw [hg])
  have hu : (crystalOf mesh i).sub (A.sub C) = V3.cast ⟨borrow (A.x - C.x), borrow (A.y - C.y), borrow (A.z - C.z)⟩ := by
    rw [hg, ← ex, ← ey, ← ez]
    simp [V3.sub, V3.cast]
  refine ⟨hu, ?_, ?_⟩
  · simp only [V3.sub, translate]
    rw [← ex, ← ey, ← ez]; exact hg
  · rw [hu, hasUmklapp_cast]
    simp only [ne_eq, V3.mk.injEq, V3.sub, borrow]
    split <;> split <;> split <;> simp_all

/-- The sum does not depend on the order of the operands, the point of index 0 changes nothing, and subtracting what was
added gives the first point back. -/
theorem C171_group {sets : List Points} {mesh : V3 Int} (hm : PosMesh mesh) {a b : PointRef} (ha : OnMesh sets mesh a)
    (hb : OnMesh sets mesh b) (hab : b.points = a.points) :
    PointRef.plus sets a b = PointRef.plus sets b a ∧
    PointRef.plus sets a (getPoint a.points 0) = .ok (getPoint a.points a.index) ∧
    PointRef.minus sets a a = .ok (getPoint a.points 0) ∧
    ∃ r r', PointRef.plus sets a b = .ok r ∧ PointRef.minus sets r b = .ok r' ∧ r'.index = a.index := by
  have h0 : OnMesh sets mesh (getPoint a.points 0) :=
    ⟨⟨le_refl _, by have := Int.mul_pos (Int.mul_pos hm.1 hm.2.1) hm.2.2; exact this⟩, ha.2⟩
  have c0 : crystalOf mesh 0 = ⟨0, 0, 0⟩ := by simp [crystalOf]
  refine ⟨?_, ?_, ?_, ?_⟩
  · obtain ⟨i, hi, he, h⟩ := plus_val hm ha hb hab
    obtain ⟨j, hj, he', h'⟩ := plus_val hm hb ha hab.symm
    have hc : (crystalOf mesh a.index).add (crystalOf mesh b.index) =
        (crystalOf mesh b.index).add (crystalOf mesh a.index) := by simp only [V3.add, add_comm]
    rw [hc] at he
    have : i = j := crystalOf_inj hm hi hj (equivalent_trans (equivalent_symm he) he')
    rw [h, h', this, hc, hab]
  · obtain ⟨i, hi, he, h⟩ := plus_val hm ha h0 rfl
    have hc : (crystalOf mesh a.index).add (crystalOf mesh (getPoint a.points 0).index) = crystalOf mesh a.index := by
      show (crystalOf mesh a.index).add (crystalOf mesh 0) = _
      rw [c0]; simp [V3.add]
    rw [hc] at he h
    have : a.index = i := crystalOf_inj hm ha.1 hi he
    rw [h, ← this]
    simp [V3.sub, getPoint]
  · obtain ⟨i, hi, he, h⟩ := minus_val hm ha ha rfl
    have hc : (crystalOf mesh a.index).sub (crystalOf mesh a.index) = crystalOf mesh 0 := by
      rw [c0]; simp [V3.sub]
    rw [hc] at he h
    have : 0 = i := crystalOf_inj hm h0.1 hi he
    rw [h, ← this]
    simp [V3.sub, getPoint]
  · obtain ⟨i, hi, he, h⟩ := plus_val hm ha hb hab
    obtain ⟨j, hj, he', h'⟩ := minus_val (sets := sets) hm
      (a := ⟨(crystalOf mesh i).sub ((crystalOf mesh a.index).add (crystalOf mesh b.index)), i, a.points⟩)
      ⟨hi, ha.2⟩ hb hab
    refine ⟨_, _, h, h', ?_⟩
    refine crystalOf_inj hm hj ha.1 (equivalent_trans (equivalent_symm he') ?_)
    obtain ⟨g, hg⟩ := equivalent_symm he
    refine ⟨g, ?_⟩
    simp only at hg ⊢
    rw [hg]
    simp only [translate, V3.sub, V3.add, V3.mk.injEq]
    refine ⟨?_, ?_, ?_⟩ <;> ring

/-- Sums of three points do not depend on the order in which they are taken. -/
theorem C171_associative {sets : List Points} {mesh : V3 Int} (hm : PosMesh mesh) {a b c : PointRef}
    (ha : OnMesh sets mesh a) (hb : OnMesh sets mesh b) (hc : OnMesh sets mesh c) (hab : b.points = a.points)
    (hac : c.points = a.points) :
    ∃ r s t u, PointRef.plus sets a b = .ok r ∧ PointRef.plus sets r c = .ok s ∧ PointRef.plus sets b c = .ok t ∧
      PointRef.plus sets a t = .ok u ∧ s.index = u.index := by
  obtain ⟨i, hi, e1, h1⟩ := plus_val hm ha hb hab
  obtain ⟨j, hj, e2, h2⟩ := plus_val (sets := sets) hm
    (a := ⟨(crystalOf mesh i).sub ((crystalOf mesh a.index).add (crystalOf mesh b.index)), i, a.points⟩)
    ⟨hi, ha.2⟩ hc hac
  obtain ⟨k, hk, e3, h3⟩ := plus_val hm hb hc (hac.trans hab.symm)
  obtain ⟨l, hl, e4, h4⟩ := plus_val (sets := sets) hm ha
    (b := ⟨(crystalOf mesh k).sub ((crystalOf mesh b.index).add (crystalOf mesh c.index)), k, b.points⟩)
    ⟨hk, hb.2⟩ hab
  refine ⟨_, _, _, _, h1, h2, h3, h4, ?_⟩
  refine crystalOf_inj hm hj hl (equivalent_trans (equivalent_symm e2) (equivalent_trans ?_ e4))
  obtain ⟨g, hg⟩ := equivalent_symm e1
  obtain ⟨g', hg'⟩ := e3
  refine ⟨⟨g.x + g'.x, g.y + g'.y, g.z + g'.z⟩, ?_⟩
  simp only at hg hg' ⊢
  rw [hg]
  simp only [translate, V3.add, V3.mk.injEq] at hg' ⊢
  obtain ⟨x, y, z⟩ := hg'
  push_cast
  refine ⟨?_, ?_, ?_⟩
  · linarith
  · linarith
  · linarith

/-- Points of different sets are not summed, whatever the sets are, even if they have the same mesh. -/
theorem C171_refused (sets : List Points) (a b : PointRef) (hab : b.points ≠ a.points) :
    PointRef.plus sets a b = .error ∧ PointRef.minus sets a b = .error := by
  unfold PointRef.plus PointRef.minus
  rw [if_pos hab, if_pos hab]
  exact ⟨rfl, rfl⟩

/-- The coordinates of a point: crystal coordinates, Cartesian coordinates through the reciprocal cell `B`, and
representatives equivalent to them in the Wigner-Seitz cell; another basis is refused. -/
theorem C171_coordinates (B : M3) {sets : List Points} {mesh : V3 Int} (hm : PosMesh mesh) {a : PointRef}
    (ha : OnMesh sets mesh a) :
    a.getCoordinates B sets .crystal false = .ok (crystalOf mesh a.index) ∧
    a.getCoordinates B sets .cartesian false = .ok (B.mulVec (crystalOf mesh a.index)) ∧
    (∃ w, Equivalent w (crystalOf mesh a.index) ∧ a.getCoordinates B sets .crystal true = .ok w ∧
      a.getCoordinates B sets .cartesian true = .ok (B.mulVec w)) ∧
    ∀ b, a.getCoordinates B sets .other b = .error := by
  obtain ⟨h1, s, h2, h3⟩ := ha
  have key : ∀ basis, basis ≠ .other → ∀ w, a.getCoordinates B sets basis w =
      .ok (let c := if w then bzToWs B (crystalOf mesh a.index) else crystalOf mesh a.index
        if basis = .crystal then c else B.mulVec c) := by
    intro basis hb w
    unfold PointRef.getCoordinates
    rw [if_neg hb, readAt_of_getElem? h2]
    simp only [Outcome.bind_eq, Outcome.bind_ok]
    rw [full_coordinates hm h3, crystalOf_eq hm h1]
    rfl
  refine ⟨key _ (by decide) _, key _ (by decide) _, ⟨_, C16_wigner_seitz_equivalent B _, key _ (by decide) _, key _ (by decide) _⟩,
    fun b => ?_⟩
  unfold PointRef.getCoordinates
  rw [if_pos rfl]

/-- Assigning a point of the same set copies it and changes no set.  Missing: points of other sets, see
`C171_violated_assign`. -/
theorem C171_assign_partial (sets : List Points) (a b : PointRef) (hab : b.points = a.points)
    (hb : b.points < sets.length) : PointRef.assign sets a b = .ok (b, sets) := by
  unfold PointRef.assign
  rw [readAt_of_getElem? (List.getElem?_eq_getElem hb)]
  simp only [Outcome.bind_eq, Outcome.bind_ok, ← hab, List.set_getElem_self]

/-- Assigning a point of another set to a point changes the set of the latter: here point 1 of a mesh of 2 points, with
coordinate 1/2, becomes a point of coordinate 1/4 after another point of its set was assigned to. -/
theorem C171_violated_assign :
    (do let s ← setMesh ⟨2, 1, 1⟩ ⟨0, 0, 0⟩
        let t ← setMesh ⟨4, 1, 1⟩ ⟨0, 0, 0⟩
        let k := getPoint 0 1
        let before ← k.getCoordinates M3.one [s, t] .crystal false
        let (_, sets) ← PointRef.assign [s, t] (getPoint 0 0) (getPoint 1 3)
        let after ← k.getCoordinates M3.one sets .crystal false
        .ok (before, after)) = .ok ((⟨1 / 2, 0, 0⟩ : V3 Rat), (⟨1 / 4, 0, 0⟩ : V3 Rat)) := by
  decide +kernel

/-- On a mesh with an offset the sum can be a point that is not the sum, with an Umklapp vector that is not a lattice
vector: the mesh of one point at 2/5, where 2/5 + 2/5 gives 2/5. -/
theorem C171_violated_offset :
    (do let s ← setMesh ⟨1, 1, 1⟩ ⟨2 / 5, 0, 0⟩
        PointRef.plus [s] (getPoint 0 0) (getPoint 0 0)) = .ok ⟨⟨-(2 / 5), 0, 0⟩, 0, 0⟩ := by
  decide +kernel

/-- The sums are not folded to the Wigner-Seitz cell, as documented, but to the cell `[0,1)`: 1/2 + 1/4 is 3/4 without
Umklapp vector, although -1/4 is equivalent and closer to the origin. -/
theorem C171_violated_wigner_seitz :
    (do let s ← setMesh ⟨4, 1, 1⟩ ⟨0, 0, 0⟩
        let r ← PointRef.plus [s] (getPoint 0 2) (getPoint 0 1)
        let c ← r.getCoordinates M3.one [s] .crystal false
        let w ← r.getCoordinates M3.one [s] .crystal true
        .ok (c, r.hasUmklapp, w)) = .ok ((⟨3 / 4, 0, 0⟩ : V3 Rat), false, (⟨-(1 / 4), 0, 0⟩ : V3 Rat)) := by
  decide +kernel

/-- Non-vacuity: on a 4x3x2 mesh, point 11 = (3,2,0) plus point 13 = (1,0,1) is point 20 = (0,2,1) with Umklapp vector
(-1,0,0). -/
example :
    (do let s ← setMesh ⟨4, 3, 2⟩ ⟨0, 0, 0⟩
        let r ← PointRef.plus [s] (getPoint 0 11) (getPoint 0 13)
        .ok (r.index, r.umklapp, r.hasUmklapp)) = .ok (20, (⟨-1, 0, 0⟩ : V3 Rat), true) := by
  decide +kernel

example : ∃ sets, OnMesh sets ⟨4, 3, 2⟩ (getPoint 0 11) ∧ OnMesh sets ⟨4, 3, 2⟩ (getPoint 0 13) := by
  obtain ⟨s, h, _⟩ := setMesh_pos (mesh := ⟨4, 3, 2⟩) (by simp [PosMesh])
  exact ⟨[s], ⟨by decide, s, rfl, h⟩, ⟨by decide, s, rfl, h⟩⟩

/-- A difference that needs an Umklapp vector: point 1 minus point 2 of the mesh of 4 points is point 3. -/
example :
    (do let s ← setMesh ⟨4, 1, 1⟩ ⟨0, 0, 0⟩
        let r ← PointRef.minus [s] (getPoint 0 1) (getPoint 0 2)
        .ok (r.index, r.umklapp, r.hasUmklapp)) = .ok (3, (⟨1, 0, 0⟩ : V3 Rat), true) := by
  decide +kernel

end Verif.Props
