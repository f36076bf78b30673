import Verif.Proofs.Crystal

/-!
# C69, C70: the unit cell and the Wigner-Seitz vectors

Specification.  C69: `Matrix.det`, products of matrices and vectors of Mathlib.  C70: the vectors and degeneracies
returned, in terms of the lengths of lattice vectors.
-/
namespace Verif.Props
open Verif.Model

/-! ## C69 -/

/-- **C69** (volume): the volume of a crystal is the absolute value of the determinant of its cell, and the cell is
refused exactly when the determinant vanishes. -/
theorem C69_volume (d : Mat3) :
    (d.det ≠ 0 → ∃ c, makeCell d = .ok c ∧ c.direct = d ∧ c.getVolume 3 = |d.det| ∧ 0 < c.getVolume 3) ∧
    (d.det = 0 → makeCell d = .error) := by
  constructor
  · intro h
    have hp : 0 < |d.det| := abs_pos.mpr h
    refine ⟨⟨d, calcReciprocalCell d, calcVolume d⟩, ?_, rfl, ?_, ?_⟩
    · unfold makeCell; rw [calcVolume_eq, if_neg (not_le.mpr hp)]
    · unfold Cell.getVolume; rw [if_pos rfl]; exact calcVolume_eq d
    · unfold Cell.getVolume; rw [if_pos rfl]; rw [calcVolume_eq d]; exact hp
  · intro h
    unfold makeCell; rw [calcVolume_eq, h, abs_zero, if_pos le_rfl]

theorem makeCell_ok (d : Mat3) (c : Cell) (h : makeCell d = .ok c) :
    d.det ≠ 0 ∧ c.direct = d ∧ c.reciprocal = (2 * Real.pi) • (d⁻¹).transpose := by
  by_cases hd : d.det = 0
  · rw [(C69_volume d).2 hd] at h; cases h
  · refine ⟨hd, ?_⟩
    unfold makeCell at h
    rw [calcVolume_eq, if_neg (not_le.mpr (abs_pos.mpr hd))] at h
    cases h
    refine ⟨rfl, ?_⟩
    ext i j
    show 2 * Real.pi * inverse3 d j i = _
    rw [inverse3_eq d hd]; rfl

/-- **C69** (reciprocal cell): the scalar product of the `i`-th direct and the `j`-th reciprocal lattice vector (the
columns of the matrices) is `2 pi` for `i = j` and zero otherwise, and the product of the volumes of the two cells is
`(2 pi)^3`. -/
theorem C69_reciprocal (d : Mat3) (c : Cell) (h : makeCell d = .ok c) :
    (∀ i j, (∑ k, c.direct k i * c.reciprocal k j) = if i = j then 2 * Real.pi else 0) ∧
    |c.direct.det| * |c.reciprocal.det| = (2 * Real.pi) ^ 3 := by
  obtain ⟨hd, hc, hr⟩ := makeCell_ok d c h
  have hu : IsUnit d.det := isUnit_iff_ne_zero.mpr hd
  rw [hc, hr]
  constructor
  · intro i j
    have e : (d⁻¹ * d) j i = (1 : Mat3) j i := by rw [Matrix.nonsing_inv_mul d hu]
    rw [Matrix.mul_apply] at e
    have : (∑ k, d k i * ((2 * Real.pi) • (d⁻¹).transpose) k j) = 2 * Real.pi * ∑ k, d⁻¹ j k * d k i := by
      rw [Finset.mul_sum]
      apply Finset.sum_congr rfl
      intro k _
      simp only [Matrix.smul_apply, Matrix.transpose_apply, smul_eq_mul]; ring
    rw [this, e, Matrix.one_apply]
    by_cases hij : i = j
    · rw [if_pos hij, if_pos hij.symm, mul_one]
    · rw [if_neg hij, if_neg (Ne.symm hij), mul_zero]
  · rw [Matrix.det_smul, Matrix.det_transpose, ← abs_mul, Fintype.card_fin]
    have e : d.det * (d⁻¹).det = 1 := by
      rw [← Matrix.det_mul, Matrix.mul_nonsing_inv d hu, Matrix.det_one]
    have : d.det * ((2 * Real.pi) ^ 3 * (d⁻¹).det) = (2 * Real.pi) ^ 3 * (d.det * (d⁻¹).det) := by ring
    rw [this, e, mul_one, abs_of_pos (pow_pos (by positivity) 3)]

/-- **C69** (conversions): conversions between crystal and cartesian coordinates of wavevectors are inverse to each
other, and a wavevector of integer crystal coordinates is a combination of the reciprocal lattice vectors. -/
theorem C69_conversions (d : Mat3) (c : Cell) (h : makeCell d = .ok c) (p : Vec3) :
    c.cartesianToCrystal (c.crystalToCartesian p) = p ∧ c.crystalToCartesian (c.cartesianToCrystal p) = p ∧
    ∀ k, c.crystalToCartesian p k = p 0 * c.reciprocal k 0 + p 1 * c.reciprocal k 1 + p 2 * c.reciprocal k 2 := by
  obtain ⟨hd, hc, hr⟩ := makeCell_ok d c h
  have hdet : c.reciprocal.det ≠ 0 := by
    intro h0
    have := (C69_reciprocal d c h).2
    rw [h0, abs_zero, mul_zero] at this
    exact absurd this.symm (pow_ne_zero 3 (by positivity))
  have hu : IsUnit c.reciprocal.det := isUnit_iff_ne_zero.mpr hdet
  unfold Cell.cartesianToCrystal Cell.crystalToCartesian
  rw [inverse3_eq _ hdet]
  refine ⟨?_, ?_, ?_⟩
  · rw [matVec_eq, matVec_eq, Matrix.mulVec_mulVec, Matrix.nonsing_inv_mul _ hu, Matrix.one_mulVec]
  · rw [matVec_eq, matVec_eq, Matrix.mulVec_mulVec, Matrix.mul_nonsing_inv _ hu, Matrix.one_mulVec]
  · intro k; unfold matVec vdot; ring

/-- **C69** (lower dimensions, partial): for a slab, periodic in the plane, and a wire, periodic along `z`, the area and
the length times the size in the other directions are the volume; for the wire only if `z` is positive in the third
lattice vector.  Missing: wires along `-z`, `C69_violated_wire`. -/
theorem C69_dimensions_partial (d : Mat3) (c : Cell) (h : makeCell d = .ok c)
    (hx : d 0 2 = 0) (hy : d 1 2 = 0) (hz : d 2 0 = 0) (hw : d 2 1 = 0) :
    c.getVolume 3 = c.getVolume 2 * |d 2 2| ∧
    (0 < d 2 2 → c.getVolume 3 = c.getVolume 1 * |d 0 0 * d 1 1 - d 0 1 * d 1 0|) := by
  obtain ⟨hd, hc, _⟩ := makeCell_ok d c h
  obtain ⟨c', hc', _, hv, _⟩ := (C69_volume d).1 hd
  rw [h] at hc'
  cases hc'
  have e : d.det = (d 0 0 * d 1 1 - d 0 1 * d 1 0) * d 2 2 := by
    rw [Matrix.det_fin_three, hx, hy, hz, hw]; ring
  rw [hv, e, abs_mul]
  unfold Cell.getVolume
  rw [if_neg (by decide), if_pos rfl, if_neg (by decide), if_neg (by decide), hc]
  refine ⟨rfl, ?_⟩
  intro hp
  rw [abs_of_pos hp]; ring

/-- Non-vacuity: a monoclinic cell. -/
example : ∃ c, makeCell !![1, 2, 0; 0, 3, 0; 0, 0, 5] = .ok c ∧ c.getVolume 3 = 15 ∧ c.getVolume 2 = 3 ∧
    c.getVolume 1 = 5 := by
  have hd : (!![1, 2, 0; 0, 3, 0; 0, 0, 5] : Mat3).det = 15 := by
    rw [Matrix.det_fin_three]; simp; norm_num
  obtain ⟨c, h1, h2, h3, _⟩ := (C69_volume !![1, 2, 0; 0, 3, 0; 0, 0, 5]).1 (by rw [hd]; norm_num)
  refine ⟨c, h1, ?_, ?_, ?_⟩
  · rw [h3, hd]; norm_num
  · unfold Cell.getVolume; rw [if_neg (by decide), if_pos rfl, h2]; simp
  · unfold Cell.getVolume; rw [if_neg (by decide), if_neg (by decide), h2]; simp

/-- **C69** violated: for one-dimensional systems the length of the cell is negative when the third lattice vector
points along `-z` (a left-handed choice of the axes accepted by the constructor). -/
theorem C69_violated_wire : ∃ c, makeCell !![1, 0, 0; 0, 1, 0; 0, 0, -4] = .ok c ∧ c.getVolume 1 = -4 := by
  have hd : (!![1, 0, 0; 0, 1, 0; 0, 0, -4] : Mat3).det = -4 := by
    rw [Matrix.det_fin_three]; simp
  obtain ⟨c, h1, h2, _, _⟩ := (C69_volume !![1, 0, 0; 0, 1, 0; 0, 0, -4]).1 (by rw [hd]; norm_num)
  refine ⟨c, h1, ?_⟩
  unfold Cell.getVolume; rw [if_neg (by decide), if_neg (by decide), h2]; simp

/-! ## C70 -/

/-- The distance of a lattice vector from the point `j` of the lattice of supercells. -/
noncomputable def superDistance (d : Mat3) (grid i j : V3 Int) : ℝ :=
  vnorm (d.mulVec ![(i.x - j.x * grid.x : ℝ), (i.y - j.y * grid.y : ℝ), (i.z - j.z * grid.z : ℝ)])

private theorem mem_wsDistances (d : Mat3) (grid : V3 Int) (nx : Int) (i : V3 Int) (x : ℝ) :
    x ∈ wsDistances d grid nx 0 i ↔ ∃ j ∈ zBox ⟨nx + 1, nx + 1, nx + 1⟩, superDistance d grid i j = x := by
  unfold wsDistances superDistance
  rw [List.mem_map]
  simp only [add_zero, matVec_eq]
  constructor
  · rintro ⟨j, hj, rfl⟩; exact ⟨j, hj, by simp [toVec, offsetBy]⟩
  · rintro ⟨j, hj, rfl⟩; exact ⟨j, hj, by simp [toVec, offsetBy]⟩

/-- The exchange of two indices. -/
private def swapIdx (k n : Nat) : Nat := if n = 0 then k else if n = k then 0 else n

private theorem swapIdx_invol (k n : Nat) : swapIdx k (swapIdx k n) = n := by
  unfold swapIdx
  split_ifs <;> omega

private theorem swapIdx_get {α : Type} (l l' : List α) (k : Nat) (h0 : l'[0]? = l[k]?) (hk : l'[k]? = l[0]?)
    (hr : ∀ n, n ≠ 0 → n ≠ k → l'[n]? = l[n]?) (n : Nat) : l'[n]? = l[swapIdx k n]? := by
  unfold swapIdx
  split
  · next h => rw [h, h0]
  · next h =>
    split
    · next h' => rw [h', hk]
    · next h' => exact hr n h h'

/-- What is known when `buildWignerSeitz` returns. -/
private theorem build_ok (d : Mat3) (grid : V3 Int) (nx : Int) (hnx : 0 ≤ nx) (vecs : List Vec3) (degs : List Nat)
    (h : buildWignerSeitz d grid nx = .ok (vecs, degs)) :
    ∃ (l : List (V3 Int × Nat)) (π : Nat → Nat), wsCollect d grid nx 0 (midOf nx) (wsBox grid nx) = .ok l ∧
      ¬ |(l.map fun p => 1 / (p.2 : ℝ)).sum - ((grid.x * grid.y * grid.z : Int) : ℝ)| > 1 / 1000000 ∧
      vecs.length = l.length ∧ degs.length = l.length ∧
      (∀ n, vecs[n]? = (l[π n]?).map fun p => matVec d (toVec p.1)) ∧ (∀ n, degs[n]? = (l[π n]?).map Prod.snd) ∧
      (∀ n, π (π n) = n) ∧ (l[π 0]?).map Prod.fst = some ⟨0, 0, 0⟩ := by
  unfold buildWignerSeitz at h
  obtain ⟨l, hl, h⟩ := (Outcome.bind_eq_ok_iff _ _ _).mp h
  simp only at h
  split at h
  · cases h
  next htot =>
  split at h
  · cases h
  next k hk =>
  have hok := (originIndex_spec (l.map Prod.fst)).1 k hk
  have hkl : k < l.length := by
    by_contra hc
    rw [List.getElem?_eq_none (by simpa using hc)] at hok
    cases hok
  obtain ⟨ds, hds, d1, d2, d3, d4⟩ := swapFirst_val (l.map Prod.snd) k (by simpa using hkl)
  obtain ⟨vs, hvs, v1, v2, v3, v4⟩ := swapFirst_val (l.map fun p => matVec d (toVec p.1)) k (by simpa using hkl)
  simp only [Outcome.bind_eq] at h
  rw [hds, Outcome.bind_ok, hvs, Outcome.bind_ok] at h
  cases h
  refine ⟨l, swapIdx k, hl, htot, by simpa using v1, by simpa using d1, ?_, ?_, swapIdx_invol k, ?_⟩
  · intro n
    rw [swapIdx_get _ _ k v2 v3 v4 n, List.getElem?_map]
  · intro n
    rw [swapIdx_get _ _ k d2 d3 d4 n, List.getElem?_map]
  · rw [← List.getElem?_map]; exact hok

/-- **C70** (origin and sum): when the vectors are returned, the first is the origin, there are as many degeneracies
as vectors, and the sum of the inverse degeneracies is the number of cells of the supercell within the tolerance. -/
theorem C70_origin_sum (d : Mat3) (grid : V3 Int) (nx : Int) (hnx : 0 ≤ nx) (vecs : List Vec3) (degs : List Nat)
    (h : buildWignerSeitz d grid nx = .ok (vecs, degs)) :
    vecs[0]? = some 0 ∧ vecs.length = degs.length ∧
      |(degs.map fun g : Nat => 1 / (g : ℝ)).sum - (grid.x * grid.y * grid.z : ℝ)| ≤ 1 / 1000000 := by
  obtain ⟨l, π, hl, htot, hlv, hld, hv, hd, hπ, h0⟩ := build_ok d grid nx hnx vecs degs h
  refine ⟨?_, by omega, ?_⟩
  · rw [hv 0]
    cases hq : l[π 0]? with
    | none => rw [hq] at h0; cases h0
    | some p =>
      rw [hq] at h0
      simp only [Option.map_some, Option.some.injEq] at h0 ⊢
      rw [h0, matVec_eq]
      have : toVec ⟨0, 0, 0⟩ = 0 := by funext i; fin_cases i <;> simp [toVec]
      rw [this, Matrix.mulVec_zero]
  · -- the degeneracies are a rearrangement
    have hperm : degs.Perm (l.map Prod.snd) := by
      have e1 : degs = (List.range l.length).map fun n => ((l[π n]?).map Prod.snd).getD 0 := by
        apply List.ext_getElem?
        intro n
        rw [hd n, List.getElem?_map]
        by_cases hn : n < l.length
        · rw [List.getElem?_range hn, Option.map_some]
          have : degs[n]? ≠ none := by
            rw [List.getElem?_eq_getElem (by omega)]; simp
          rw [hd n] at this
          cases hq : (l[π n]?).map Prod.snd with
          | none => exact absurd hq this
          | some g => rfl
        · have h1 : degs[n]? = none := List.getElem?_eq_none (by omega)
          rw [hd n] at h1
          rw [h1, List.getElem?_eq_none (by simpa using hn)]; rfl
      have e2 : l.map Prod.snd = (List.range l.length).map fun n => ((l[n]?).map Prod.snd).getD 0 := by
        apply List.ext_getElem?
        intro n
        rw [List.getElem?_map, List.getElem?_map]
        by_cases hn : n < l.length
        · rw [List.getElem?_range hn, Option.map_some, List.getElem?_eq_getElem hn]; rfl
        · rw [List.getElem?_eq_none (by omega), List.getElem?_eq_none (by simpa using hn)]; rfl
      have hlt : ∀ n, n < l.length → π n < l.length := by
        intro n hn
        by_contra hc
        have h1 : degs[n]? = none := by rw [hd n, List.getElem?_eq_none (by omega)]; rfl
        rw [List.getElem?_eq_getElem (by omega)] at h1; cases h1
      have hp : ((List.range l.length).map π).Perm (List.range l.length) := by
        refine (List.perm_ext_iff_of_nodup ?_ List.nodup_range).mpr ?_
        · apply List.Nodup.map _ List.nodup_range
          intro a b hab
          have := congrArg π hab
          rwa [hπ, hπ] at this
        · intro a
          rw [List.mem_map]
          constructor
          · rintro ⟨n, hn, rfl⟩; rw [List.mem_range] at hn ⊢; exact hlt n hn
          · intro ha
            rw [List.mem_range] at ha
            exact ⟨π a, List.mem_range.mpr (hlt a ha), hπ a⟩
      rw [e1, e2]
      have := hp.map fun n => ((l[n]?).map Prod.snd).getD 0
      rwa [List.map_map] at this
    have hs : (degs.map fun g : Nat => 1 / (g : ℝ)).sum = (l.map fun p => 1 / (p.2 : ℝ)).sum := by
      rw [(hperm.map fun g : Nat => 1 / (g : ℝ)).sum_eq, List.map_map]; rfl
    rw [hs]
    have := not_lt.mp htot
    push_cast at this
    exact this

/-- **C70** (opposites): with every vector its opposite is returned, with the same degeneracy. -/
theorem C70_opposite (d : Mat3) (grid : V3 Int) (nx : Int) (hnx : 0 ≤ nx) (vecs : List Vec3) (degs : List Nat)
    (h : buildWignerSeitz d grid nx = .ok (vecs, degs)) (n : Nat) (v : Vec3) (g : Nat)
    (hv : vecs[n]? = some v) (hg : degs[n]? = some g) :
    ∃ m : Nat, vecs[m]? = some (-v) ∧ degs[m]? = some g := by
  obtain ⟨l, π, hl, _, _, _, hvs, hds, hπ, _⟩ := build_ok d grid nx hnx vecs degs h
  obtain ⟨l', hl', hsub, hmem⟩ := wsCollect_val d grid nx 0 hnx (wsBox grid nx)
  rw [hl] at hl'
  cases hl'
  rw [hvs n] at hv
  rw [hds n] at hg
  cases hq : l[π n]? with
  | none => rw [hq] at hv; cases hv
  | some p =>
    rw [hq, Option.map_some, Option.some.injEq] at hv hg
    obtain ⟨i, g'⟩ := p
    simp only at hv hg
    subst hg
    obtain ⟨hi, hdeg⟩ := (hmem i g').mp (List.mem_of_getElem? hq)
    have hneg : (negV i, g') ∈ l := by
      rw [hmem]
      constructor
      · unfold wsBox at hi ⊢
        rw [mem_zBox] at hi ⊢
        simp only [negV] at hi ⊢
        omega
      · rw [wsDistances_neg, wsDegeneracy_reverse nx hnx _ (length_wsDistances d grid nx 0 i hnx)]
        exact hdeg
    obtain ⟨m, hm⟩ := List.mem_iff_getElem?.mp hneg
    refine ⟨π m, ?_, ?_⟩
    · rw [hvs, hπ, hm, Option.map_some, toVec_neg, matVec_neg, hv]
    · rw [hds, hπ, hm, Option.map_some]

/-- **C70** (Wigner-Seitz cell): the vectors returned are exactly the lattice vectors of the box searched that are not
farther from the origin than from the other points of the lattice of supercells searched, within the tolerance; the
degeneracy is the number of points of that lattice at the smallest distance, within the tolerance. -/
theorem C70_cell (d : Mat3) (grid : V3 Int) (nx : Int) (hnx : 0 ≤ nx) (vecs : List Vec3) (degs : List Nat)
    (h : buildWignerSeitz d grid nx = .ok (vecs, degs)) (v : Vec3) (g : Nat) :
    (∃ n : Nat, vecs[n]? = some v ∧ degs[n]? = some g) ↔
      ∃ i : V3 Int, |i.x| ≤ nx * grid.x ∧ |i.y| ≤ nx * grid.y ∧ |i.z| ≤ nx * grid.z ∧
        v = d.mulVec ![(i.x : ℝ), (i.y : ℝ), (i.z : ℝ)] ∧
        ∃ m : ℝ, (∀ j ∈ zBox ⟨nx + 1, nx + 1, nx + 1⟩, m ≤ superDistance d grid i j) ∧
          (∃ j ∈ zBox ⟨nx + 1, nx + 1, nx + 1⟩, m = superDistance d grid i j) ∧
          vnorm v < m + 1 / 1000000 ∧
          g = ((zBox ⟨nx + 1, nx + 1, nx + 1⟩).filter fun j =>
            decide (superDistance d grid i j < m + 1 / 1000000)).length := by
  obtain ⟨l, π, hl, _, _, _, hvs, hds, hπ, _⟩ := build_ok d grid nx hnx vecs degs h
  obtain ⟨l', hl', hsub, hmem⟩ := wsCollect_val d grid nx 0 hnx (wsBox grid nx)
  rw [hl] at hl'
  cases hl'
  have hne : ∀ i, wsDistances d grid nx 0 i ≠ [] := by
    intro i hc
    have := length_wsDistances d grid nx 0 i hnx
    rw [hc] at this; simp at this
  -- the degeneracy of a vector of the list in terms of distances
  have hdeg : ∀ (i : V3 Int) (g : Nat) (m : ℝ), m = distMin (wsDistances d grid nx 0 i) →
      (wsDegeneracy (midOf nx) (wsDistances d grid nx 0 i) = .ok (some g) ↔
        vnorm (d.mulVec (toVec i)) < m + 1 / 1000000 ∧
          g = ((zBox ⟨nx + 1, nx + 1, nx + 1⟩).filter fun j =>
            decide (superDistance d grid i j < m + 1 / 1000000)).length) := by
    intro i g m hm
    obtain ⟨m1, m2⟩ := distMin_spec _ (hne i)
    rw [← hm] at m1 m2
    have hself : m ≤ vnorm (d.mulVec (toVec i)) := by
      apply m2
      have := wsDistances_mid d grid nx 0 i hnx
      rw [add_zero, matVec_eq] at this
      exact List.mem_of_getElem? this
    have hcount : ((wsDistances d grid nx 0 i).filter fun x => decide (|x - m| < 1 / 1000000)).length =
        ((zBox ⟨nx + 1, nx + 1, nx + 1⟩).filter fun j =>
            decide (superDistance d grid i j < m + 1 / 1000000)).length := by
      have e : wsDistances d grid nx 0 i = (zBox ⟨nx + 1, nx + 1, nx + 1⟩).map (superDistance d grid i) := by
        unfold wsDistances superDistance
        apply List.map_congr_left
        intro j _
        rw [add_zero, matVec_eq]
        simp [toVec, offsetBy]
      rw [e] at m2 ⊢
      rw [List.filter_map, List.length_map]
      congr 1
      apply List.filter_congr
      intro j hj
      simp only [Function.comp]
      rw [decide_eq_decide]
      have := m2 _ (List.mem_map_of_mem hj)
      rw [abs_of_nonneg (by linarith)]
      constructor <;> intro <;> linarith
    rw [wsDegeneracy_val d grid nx 0 i hnx, ← hm, hcount, add_zero, matVec_eq, abs_of_nonneg (by linarith)]
    by_cases hc : vnorm (d.mulVec (toVec i)) - m < 1 / 1000000
    · rw [if_pos hc]
      simp only [Outcome.ok.injEq, Option.some.injEq]
      constructor
      · intro h; exact ⟨by linarith, h.symm⟩
      · intro h; exact h.2.symm
    · rw [if_neg hc]
      simp only [Outcome.ok.injEq]
      constructor
      · intro h; cases h
      · rintro ⟨h, _⟩; exact absurd (by linarith) hc
  have hbox : ∀ i : V3 Int, i ∈ wsBox grid nx ↔
      |i.x| ≤ nx * grid.x ∧ |i.y| ≤ nx * grid.y ∧ |i.z| ≤ nx * grid.z := by
    intro i
    unfold wsBox
    rw [mem_zBox, abs_le, abs_le, abs_le]
  have htv : ∀ i : V3 Int, toVec i = ![(i.x : ℝ), (i.y : ℝ), (i.z : ℝ)] := fun _ => rfl
  constructor
  · rintro ⟨n, hv, hg⟩
    rw [hvs n] at hv
    rw [hds n] at hg
    cases hq : l[π n]? with
    | none => rw [hq] at hv; cases hv
    | some p =>
      rw [hq, Option.map_some, Option.some.injEq] at hv hg
      obtain ⟨i, g'⟩ := p
      simp only at hv hg
      subst hg
      obtain ⟨hi, hdg⟩ := (hmem i g').mp (List.mem_of_getElem? hq)
      obtain ⟨b1, b2, b3⟩ := (hbox i).mp hi
      obtain ⟨m1, m2⟩ := distMin_spec _ (hne i)
      obtain ⟨c1, c2⟩ := (hdeg i g' _ rfl).mp hdg
      refine ⟨i, b1, b2, b3, by rw [← hv, matVec_eq]; rfl, distMin (wsDistances d grid nx 0 i), ?_, ?_, ?_, c2⟩
      · intro j hj
        exact m2 _ ((mem_wsDistances d grid nx i _).mpr ⟨j, hj, rfl⟩)
      · obtain ⟨j, hj, e⟩ := (mem_wsDistances d grid nx i _).mp m1
        exact ⟨j, hj, e.symm⟩
      · rw [← hv, matVec_eq]; exact c1
  · rintro ⟨i, b1, b2, b3, hv, m, hm1, ⟨j, hj, hm2⟩, hlt, hg⟩
    obtain ⟨m1, m2⟩ := distMin_spec _ (hne i)
    have hm : m = distMin (wsDistances d grid nx 0 i) := by
      apply le_antisymm
      · obtain ⟨j', hj', e⟩ := (mem_wsDistances d grid nx i _).mp m1
        rw [← e]; exact hm1 j' hj'
      · rw [hm2]; exact m2 _ ((mem_wsDistances d grid nx i _).mpr ⟨j, hj, rfl⟩)
    have hin : (i, g) ∈ l := by
      rw [hmem]
      refine ⟨(hbox i).mpr ⟨b1, b2, b3⟩, (hdeg i g m hm).mpr ⟨?_, hg⟩⟩
      rw [htv i, ← hv]; exact hlt
    obtain ⟨n, hn⟩ := List.mem_iff_getElem?.mp hin
    refine ⟨π n, ?_, ?_⟩
    · rw [hvs, hπ, hn, Option.map_some, matVec_eq, hv]; rfl
    · rw [hds, hπ, hn, Option.map_some]

/-- **C70** (no repetition): the vectors returned are distinct, for every cell with a volume. -/
theorem C70_nodup (d : Mat3) (hdet : d.det ≠ 0) (grid : V3 Int) (nx : Int) (hnx : 0 ≤ nx) (vecs : List Vec3)
    (degs : List Nat) (h : buildWignerSeitz d grid nx = .ok (vecs, degs)) : vecs.Nodup := by
  obtain ⟨l, π, hl, _, hlen, _, hvs, hds, hπ, _⟩ := build_ok d grid nx hnx vecs degs h
  obtain ⟨l', hl', hsub, hmem⟩ := wsCollect_val d grid nx 0 hnx (wsBox grid nx)
  rw [hl] at hl'
  cases hl'
  have hnd : (l.map Prod.fst).Nodup := hsub.nodup (nodup_zBox _)
  have hinj : ∀ a b : V3 Int, matVec d (toVec a) = matVec d (toVec b) → a = b := by
    intro a b hab
    rw [matVec_eq, matVec_eq] at hab
    have := congrArg (d⁻¹).mulVec hab
    rw [Matrix.mulVec_mulVec, Matrix.mulVec_mulVec, Matrix.nonsing_inv_mul d (isUnit_iff_ne_zero.mpr hdet),
      Matrix.one_mulVec, Matrix.one_mulVec] at this
    have h0 := congrFun this 0
    have h1 := congrFun this 1
    have h2 := congrFun this 2
    simp only [toVec, Matrix.cons_val_zero, Matrix.cons_val_one, Matrix.cons_val_two, Matrix.head_cons,
      Matrix.tail_cons, Matrix.cons_val, Int.cast_inj] at h0 h1 h2
    cases a; cases b
    simp only [V3.mk.injEq]
    exact ⟨h0, h1, h2⟩
  rw [List.nodup_iff_injective_get]
  intro ⟨a, ha⟩ ⟨b, hb⟩ hab
  simp only [List.get_eq_getElem] at hab
  have ea := hvs a
  have eb := hvs b
  rw [List.getElem?_eq_getElem ha] at ea
  rw [List.getElem?_eq_getElem hb] at eb
  cases hqa : l[π a]? with
  | none => rw [hqa] at ea; cases ea
  | some p =>
    cases hqb : l[π b]? with
    | none => rw [hqb] at eb; cases eb
    | some q =>
      rw [hqa, Option.map_some, Option.some.injEq] at ea
      rw [hqb, Option.map_some, Option.some.injEq] at eb
      have hpq : p.1 = q.1 := hinj _ _ (by rw [← ea, ← eb, hab])
      have hla : π a < (l.map Prod.fst).length := by
        by_contra hc
        rw [List.getElem?_eq_none (by simpa using hc)] at hqa; cases hqa
      have hlb : π b < (l.map Prod.fst).length := by
        by_contra hc
        rw [List.getElem?_eq_none (by simpa using hc)] at hqb; cases hqb
      have : π a = π b := by
        apply (List.Nodup.getElem_inj_iff hnd (hi := hla) (hj := hlb)).mp
        have e1 : (l.map Prod.fst)[π a]? = some p.1 := by rw [List.getElem?_map, hqa]; rfl
        have e2 : (l.map Prod.fst)[π b]? = some q.1 := by rw [List.getElem?_map, hqb]; rfl
        rw [List.getElem?_eq_getElem hla, Option.some.injEq] at e1
        rw [List.getElem?_eq_getElem hlb, Option.some.injEq] at e2
        rw [e1, e2, hpq]
      have := congrArg π this
      rw [hπ, hπ] at this
      simp only [this]

/-- **C70** (outcome): the search never fails to find the origin: it stops the program only when the sum of the inverse
degeneracies differs from the number of cells. -/
theorem C70_outcome (d : Mat3) (grid : V3 Int) (nx : Int) (hnx : 0 ≤ nx) (hx : 0 ≤ grid.x) (hy : 0 ≤ grid.y)
    (hz : 0 ≤ grid.z) :
    ∃ l, wsCollect d grid nx 0 (midOf nx) (wsBox grid nx) = .ok l ∧
      (|(l.map fun p => 1 / (p.2 : ℝ)).sum - ((grid.x * grid.y * grid.z : Int) : ℝ)| > 1 / 1000000 →
        buildWignerSeitz d grid nx = .error) ∧
      (¬ |(l.map fun p => 1 / (p.2 : ℝ)).sum - ((grid.x * grid.y * grid.z : Int) : ℝ)| > 1 / 1000000 →
        ∃ r, buildWignerSeitz d grid nx = .ok r) := by
  obtain ⟨l, hl, hsub, hmem⟩ := wsCollect_val d grid nx 0 hnx (wsBox grid nx)
  have hl2 := hl
  unfold midOf at hl2
  refine ⟨l, hl, ?_, ?_⟩
  · intro hgt
    unfold buildWignerSeitz
    simp only [Outcome.bind_eq]
    rw [hl2, Outcome.bind_ok]
    simp only [if_pos hgt]
  · intro hle
    -- the origin is kept
    have h0 : (⟨0, 0, 0⟩ : V3 Int) ∈ l.map Prod.fst := by
      have hbox : (⟨0, 0, 0⟩ : V3 Int) ∈ wsBox grid nx := by
        unfold wsBox
        rw [mem_zBox]
        have h1 := mul_nonneg hnx hx
        have h2 := mul_nonneg hnx hy
        have h3 := mul_nonneg hnx hz
        simp only
        omega
      have hzero : matVec d (toVec ⟨0, 0, 0⟩) + 0 = 0 := by
        have : toVec ⟨0, 0, 0⟩ = 0 := by funext i; fin_cases i <;> simp [toVec]
        rw [this, matVec_eq, Matrix.mulVec_zero, add_zero]
      have hn0 : vnorm (0 : Vec3) = 0 := by unfold vnorm vdot; simp
      have hne : wsDistances d grid nx 0 ⟨0, 0, 0⟩ ≠ [] := by
        intro hc
        have := length_wsDistances d grid nx 0 ⟨0, 0, 0⟩ hnx
        rw [hc] at this; simp at this
      obtain ⟨m1, m2⟩ := distMin_spec _ hne
      have hmid := wsDistances_mid d grid nx 0 ⟨0, 0, 0⟩ hnx
      rw [hzero, hn0] at hmid
      have hle0 := m2 _ (List.mem_of_getElem? hmid)
      have hge0 : 0 ≤ distMin (wsDistances d grid nx 0 ⟨0, 0, 0⟩) := by
        unfold wsDistances at m1 ⊢
        obtain ⟨j, _, e⟩ := List.mem_map.mp m1
        rw [← e]; exact Real.sqrt_nonneg _
      have hv := wsDegeneracy_val d grid nx 0 ⟨0, 0, 0⟩ hnx
      rw [hzero, hn0, le_antisymm hle0 hge0, sub_zero, abs_zero, if_pos (by norm_num)] at hv
      exact List.mem_map.mpr ⟨_, (hmem _ _).mpr ⟨hbox, hv⟩, rfl⟩
    cases ho : originIndex (l.map Prod.fst) with
    | none => exact absurd ho ((originIndex_spec _).2 h0)
    | some k =>
      have hok := (originIndex_spec (l.map Prod.fst)).1 k ho
      have hkl : k < l.length := by
        by_contra hc
        rw [List.getElem?_eq_none (by simpa using hc)] at hok
        cases hok
      obtain ⟨ds, hds, _⟩ := swapFirst_val (l.map Prod.snd) k (by simpa using hkl)
      obtain ⟨vs, hvs, _⟩ := swapFirst_val (l.map fun p => matVec d (toVec p.1)) k (by simpa using hkl)
      refine ⟨(vs, ds), ?_⟩
      unfold buildWignerSeitz
      simp only [Outcome.bind_eq]
      rw [hl2, Outcome.bind_ok]
      simp only [if_neg hle, ho]
      rw [hds, Outcome.bind_ok, hvs, Outcome.bind_ok]

/-- Non-vacuity: a cubic cell, a supercell of two cells: the origin and the two halves, each shared by two cells. -/
example : ∃ vecs, buildWignerSeitz 1 ⟨2, 1, 1⟩ 1 = .ok (vecs, [1, 2, 2]) := by
  have hmid : midOf 1 = 62 := by decide
  have hc : wsCollect 1 ⟨2, 1, 1⟩ 1 0 (midOf 1) (wsBox ⟨2, 1, 1⟩ 1) =
      .ok [(⟨-1, 0, 0⟩, 2), (⟨0, 0, 0⟩, 1), (⟨1, 0, 0⟩, 2)] := by
    have e : natCollect ⟨2, 1, 1⟩ 1 62 (wsBox ⟨2, 1, 1⟩ 1) =
        [(⟨-1, 0, 0⟩, 2), (⟨0, 0, 0⟩, 1), (⟨1, 0, 0⟩, 2)] := by decide +kernel
    rw [wsCollect_nat _ _ _ _ (by rw [hmid]; decide +kernel), hmid, e]
  have ho : originIndex [⟨-1, 0, 0⟩, ⟨0, 0, 0⟩, ⟨1, 0, 0⟩] = some 1 := by
    unfold originIndex
    simp only [vnorm_toVec_small]
    decide
  unfold midOf at hc
  unfold buildWignerSeitz
  simp only [Outcome.bind_eq]
  rw [hc, Outcome.bind_ok]
  rw [if_neg (by norm_num)]
  simp only [List.map_cons, List.map_nil, ho]
  exact ⟨_, rfl⟩

/-- **C70** violated (shifted vectors): with at least one shift and a supercell of more than one cell, the search for
shifted vectors always stops the program: only copies of the first vector are kept, so that the sum of the inverse
degeneracies is at most one. -/
theorem C70_violated_shift (d : Mat3) (grid : V3 Int) (nx : Int) (hnx : 0 ≤ nx) (shift : List Vec3) (hs : shift ≠ [])
    (hN : 2 ≤ grid.x * grid.y * grid.z) : buildWignerSeitzShift d grid shift nx = .error := by
  unfold buildWignerSeitzShift
  obtain ⟨all, hall, hlen⟩ : ∃ all, mapOutcome (fun p : Vec3 × Vec3 =>
      wsCollect d grid nx (p.2 - p.1) (((2 * (nx + 1) + 1) ^ 3).toNat / 2) (wsBox grid nx))
      (shift.flatMap fun si => shift.map fun sj => (si, sj)) = .ok all ∧ all ≠ [] := by
    have hne : (shift.flatMap fun si => shift.map fun sj => (si, sj)) ≠ [] := by
      cases shift with
      | nil => exact absurd rfl hs
      | cons a l => simp
    generalize (shift.flatMap fun si => shift.map fun sj => (si, sj)) = pairs at hne
    have key : ∀ pairs : List (Vec3 × Vec3), ∃ all, mapOutcome (fun p : Vec3 × Vec3 =>
        wsCollect d grid nx (p.2 - p.1) (((2 * (nx + 1) + 1) ^ 3).toNat / 2) (wsBox grid nx)) pairs = .ok all ∧
        all.length = pairs.length := by
      intro pairs
      induction pairs with
      | nil => exact ⟨[], rfl, rfl⟩
      | cons p ps ih =>
        obtain ⟨all, h1, h2⟩ := ih
        obtain ⟨l, hl, _⟩ := wsCollect_val d grid nx (p.2 - p.1) hnx (wsBox grid nx)
        unfold midOf at hl
        refine ⟨l :: all, ?_, by simp [h2]⟩
        simp only [mapOutcome, Outcome.bind_eq]
        rw [hl, Outcome.bind_ok, h1, Outcome.bind_ok]
    obtain ⟨all, h1, h2⟩ := key pairs
    refine ⟨all, h1, ?_⟩
    intro hc
    rw [hc] at h2
    exact hne (List.length_eq_zero_iff.mp h2.symm)
  simp only [Outcome.bind_eq]
  rw [hall, Outcome.bind_ok]
  rw [if_neg]
  intro hcomp
  obtain ⟨l, hl⟩ := List.exists_mem_of_ne_nil all hlen
  have hrow := hcomp _ (List.mem_map_of_mem (f := shiftDegeneracies _) hl)
  -- the sum of the row is at most one
  have hsum : ∀ tmp : List (V3 Int), tmp = ((all.flatten).map Prod.fst).foldl shiftUnique [] →
      (((shiftDegeneracies tmp l).map fun g : Nat => if 0 < g then 1 / (g : ℝ) else 0).sum) ≤ 1 := by
    intro tmp htmp
    cases hq : (all.flatten).map Prod.fst with
    | nil =>
      rw [hq] at htmp
      subst htmp
      have : shiftDegeneracies [] l = [] := by
        unfold shiftDegeneracies
        induction l with
        | nil => rfl
        | cons p l ih => simp
      simp [this]
    | cons a rest =>
      rw [hq, List.foldl_cons] at htmp
      have h1 : shiftUnique [] a = List.replicate (0 + 1) a := by
        unfold shiftUnique; simp
      obtain ⟨m, hm⟩ := shiftUnique_copies rest a 0
      rw [h1, hm] at htmp
      obtain ⟨g, hg⟩ := shiftDegeneracies_copies a m l
      rw [htmp, hg]
      simp only [List.map_cons, List.map_replicate, List.sum_cons, lt_self_iff_false, if_false, List.sum_replicate,
        smul_zero, add_zero]
      split
      · next hp =>
        have : (1 : ℝ) ≤ g := by exact_mod_cast hp
        rw [div_le_one (by linarith)]; exact this
      · exact zero_le_one
  have h1 := hsum _ rfl
  apply hrow
  have h2 : (2 : ℝ) ≤ ((grid.x * grid.y * grid.z : Int) : ℝ) := by exact_mod_cast hN
  rw [abs_sub_comm]
  refine lt_of_lt_of_le ?_ (le_abs_self _)
  linarith

end Verif.Props
