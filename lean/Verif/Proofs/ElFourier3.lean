import Verif.Proofs.ElFourier2

/-!
# Fourier interpolation: the search for lattice vectors
-/
namespace Verif.Model

theorem swapFirst_mem {α : Type} (l l' : List α) (k : Nat) (h : swapFirst l k = .ok l') (x : α) : x ∈ l' ↔ x ∈ l := by
  by_cases hk : k < l.length
  · obtain ⟨l2, h2, hlen, h0, hk2, hr⟩ := swapFirst_val l k hk
    rw [h2] at h
    cases h
    constructor
    · intro hx
      obtain ⟨n, hn, rfl⟩ := List.getElem_of_mem hx
      have hget := List.getElem?_eq_getElem hn
      by_cases hn0 : n = 0
      · subst hn0
        rw [h0] at hget
        exact List.mem_of_getElem? hget
      · by_cases hnk : n = k
        · subst hnk
          rw [hk2] at hget
          exact List.mem_of_getElem? hget
        · rw [hr n hn0 hnk] at hget
          exact List.mem_of_getElem? hget
    · intro hx
      obtain ⟨n, hn, rfl⟩ := List.getElem_of_mem hx
      have hget := List.getElem?_eq_getElem hn
      by_cases hn0 : n = 0
      · subst hn0
        rw [← hk2] at hget
        exact List.mem_of_getElem? hget
      · by_cases hnk : n = k
        · subst hnk
          rw [← h0] at hget
          exact List.mem_of_getElem? hget
        · rw [← hr n hn0 hnk] at hget
          exact List.mem_of_getElem? hget
  · unfold swapFirst readAt at h
    rw [List.getElem?_eq_none (by omega)] at h
    cases h

/-- A vector of the box is kept when no shifted vector is shorter. -/
theorem kept_of_min (d : Mat3) (grid : V3 Int) (nx : Int) (hnx : 0 ≤ nx) (i : V3 Int)
    (hmin : ∀ j, vnorm (matVec d (toVec i)) ≤ vnorm (matVec d (toVec (offsetBy grid i j)))) :
    ∃ g, 1 ≤ g ∧ wsDegeneracy (midOf nx) (wsDistances d grid nx 0 i) = .ok (some g) := by
  rw [wsDegeneracy_val d grid nx 0 i hnx]
  have hne : wsDistances d grid nx 0 i ≠ [] := by
    intro h
    have := length_wsDistances d grid nx 0 i hnx
    rw [h] at this
    simp at this
  obtain ⟨hm1, hm2⟩ := distMin_spec _ hne
  have hmid : vnorm (matVec d (toVec i) + 0) ∈ wsDistances d grid nx 0 i :=
    List.mem_of_getElem? (wsDistances_mid d grid nx 0 i hnx)
  have e : distMin (wsDistances d grid nx 0 i) = vnorm (matVec d (toVec i) + 0) := by
    refine le_antisymm (hm2 _ hmid) ?_
    unfold wsDistances at hm1
    obtain ⟨j, _, hj⟩ := List.mem_map.mp hm1
    unfold wsDistances
    rw [← hj]
    simpa using hmin j
  rw [if_pos (by rw [e]; norm_num)]
  refine ⟨_, ?_, rfl⟩
  refine List.length_pos_iff_exists_mem.mpr ⟨_, List.mem_filter.mpr ⟨hmid, ?_⟩⟩
  rw [e]; norm_num

theorem deg_pos (d : Mat3) (grid : V3 Int) (nx : Int) (hnx : 0 ≤ nx) (i : V3 Int) (g : Nat)
    (h : wsDegeneracy (midOf nx) (wsDistances d grid nx 0 i) = .ok (some g)) : 1 ≤ g := by
  rw [wsDegeneracy_val d grid nx 0 i hnx] at h
  have hmid : vnorm (matVec d (toVec i) + 0) ∈ wsDistances d grid nx 0 i :=
    List.mem_of_getElem? (wsDistances_mid d grid nx 0 i hnx)
  split_ifs at h with hc
  · cases h
    exact List.length_pos_iff_exists_mem.mpr ⟨_, List.mem_filter.mpr ⟨hmid, by simpa using hc⟩⟩
  · cases h

/-- No vector of the lattice is shorter than the tolerance of the search. -/
def NoShortVectors (d : Mat3) : Prop := ∀ i : V3 Int, i ≠ ⟨0, 0, 0⟩ → 1 / 1000000 ≤ vnorm (matVec d (toVec i))

theorem vnorm_zero : vnorm 0 = 0 := by simp [vnorm, vdot]

theorem matVec_zero (d : Mat3) : matVec d (toVec ⟨0, 0, 0⟩) = 0 := by
  funext k; simp [matVec, toVec, vdot]

theorem vnorm_nonneg (v : Vec3) : 0 ≤ vnorm v := Real.sqrt_nonneg _

/-- The origin has degeneracy one. -/
theorem origin_degeneracy (d : Mat3) (hd : NoShortVectors d) (grid : V3 Int) (hx : 0 < grid.x) (hy : 0 < grid.y)
    (hz : 0 < grid.z) (nx : Int) (hnx : 0 ≤ nx) :
    wsDegeneracy (midOf nx) (wsDistances d grid nx 0 ⟨0, 0, 0⟩) = .ok (some 1) := by
  rw [wsDegeneracy_val d grid nx 0 _ hnx]
  have hne : wsDistances d grid nx 0 ⟨0, 0, 0⟩ ≠ [] := by
    intro h
    have := length_wsDistances d grid nx 0 ⟨0, 0, 0⟩ hnx
    rw [h] at this
    simp at this
  obtain ⟨hm1, hm2⟩ := distMin_spec _ hne
  have h0 : vnorm (matVec d (toVec ⟨0, 0, 0⟩) + 0) = 0 := by rw [matVec_zero, add_zero, vnorm_zero]
  have hmid : vnorm (matVec d (toVec ⟨0, 0, 0⟩) + 0) ∈ wsDistances d grid nx 0 ⟨0, 0, 0⟩ :=
    List.mem_of_getElem? (wsDistances_mid d grid nx 0 ⟨0, 0, 0⟩ hnx)
  have e : distMin (wsDistances d grid nx 0 ⟨0, 0, 0⟩) = 0 := by
    refine le_antisymm (h0 ▸ hm2 _ hmid) ?_
    unfold wsDistances at hm1
    obtain ⟨j, _, hj⟩ := List.mem_map.mp hm1
    unfold wsDistances
    rw [← hj]
    exact vnorm_nonneg _
  rw [h0, e, if_pos (by norm_num)]
  refine congrArg (fun g => Outcome.ok (some g)) ?_
  unfold wsDistances
  rw [List.filter_map, List.length_map]
  have hf : (zBox ⟨nx + 1, nx + 1, nx + 1⟩).filter ((fun x => decide (|x - 0| < 1 / 1000000)) ∘
      fun j => vnorm (matVec d (toVec (offsetBy grid ⟨0, 0, 0⟩ j)) + 0)) =
      (zBox ⟨nx + 1, nx + 1, nx + 1⟩).filter fun j => decide (j = ⟨0, 0, 0⟩) := by
    refine List.filter_congr fun j _ => ?_
    simp only [Function.comp_apply, add_zero, sub_zero]
    rw [decide_eq_decide, abs_of_nonneg (vnorm_nonneg _)]
    constructor
    · intro hlt
      by_contra hj
      have hne : offsetBy grid ⟨0, 0, 0⟩ j ≠ ⟨0, 0, 0⟩ := by
        intro h
        apply hj
        obtain ⟨a, b, c⟩ := j
        simp only [offsetBy, V3.mk.injEq, zero_sub, neg_eq_zero, mul_eq_zero] at h
        simp only [V3.mk.injEq]
        omega
      exact absurd (hd _ hne) (not_le.mpr hlt)
    · rintro rfl
      have : offsetBy grid ⟨0, 0, 0⟩ ⟨0, 0, 0⟩ = ⟨0, 0, 0⟩ := by simp [offsetBy]
      rw [this, matVec_zero, vnorm_zero]; norm_num
  rw [hf, ← List.countP_eq_length_filter]
  have hmem : (⟨0, 0, 0⟩ : V3 Int) ∈ zBox ⟨nx + 1, nx + 1, nx + 1⟩ := by
    rw [mem_zBox]; simp only; omega
  have := List.count_eq_one_of_mem (nodup_zBox ⟨nx + 1, nx + 1, nx + 1⟩) hmem
  unfold List.count at this
  rw [← this]
  congr 1

/-- What the search returns. -/
theorem setPositionVectors_spec (d : Mat3) (grid : V3 Int) (hx : 0 < grid.x) (hy : 0 < grid.y) (hz : 0 < grid.z)
    (cutoff : ℝ) (h1 : 1 ≤ cutoff) (h2 : cutoff < 2147483648) :
    ∃ v, setPositionVectors d grid cutoff = .ok v ∧
      (∃ g rest, v.vecs = (0, g) :: rest ∧
        wsDegeneracy (midOf ⌊cutoff⌋) (wsDistances d grid ⌊cutoff⌋ 0 ⟨0, 0, 0⟩) = .ok (some g)) ∧
      ∀ p, p ∈ v.vecs ↔ ∃ i ∈ wsBox grid ⌊cutoff⌋, p.1 = matVec d (toVec i) ∧
        wsDegeneracy (midOf ⌊cutoff⌋) (wsDistances d grid ⌊cutoff⌋ 0 i) = .ok (some p.2) := by
  have hnx : 1 ≤ ⌊cutoff⌋ := Int.le_floor.mpr (by exact_mod_cast h1)
  obtain ⟨l, hl, hsub, hmem⟩ := wsCollect_val d grid ⌊cutoff⌋ 0 (by omega) (wsBox grid ⌊cutoff⌋)
  have hmid : (((⌊cutoff⌋ + 1) * 2 + 1) * ((⌊cutoff⌋ + 1) * 2 + 1) * ((⌊cutoff⌋ + 1) * 2 + 1)).toNat / 2 = midOf ⌊cutoff⌋ := by
    unfold midOf
    congr 2
    ring
  have hbox : (⟨0, 0, 0⟩ : V3 Int) ∈ wsBox grid ⌊cutoff⌋ := by
    unfold wsBox
    rw [mem_zBox]
    have a1 := mul_pos (show 0 < ⌊cutoff⌋ by omega) hx
    have a2 := mul_pos (show 0 < ⌊cutoff⌋ by omega) hy
    have a3 := mul_pos (show 0 < ⌊cutoff⌋ by omega) hz
    simp only
    omega
  obtain ⟨g, _, hg⟩ := kept_of_min d grid ⌊cutoff⌋ (by omega) ⟨0, 0, 0⟩ fun j => by
    rw [matVec_zero, vnorm_zero]; exact vnorm_nonneg _
  have h0l : (⟨0, 0, 0⟩, g) ∈ l := (hmem _ _).mpr ⟨hbox, hg⟩
  obtain ⟨o1, o2⟩ := originIndex_spec (l.map Prod.fst)
  obtain ⟨k, hk⟩ := Option.ne_none_iff_exists'.mp (o2 (List.mem_map.mpr ⟨_, h0l, rfl⟩))
  have hok := o1 k hk
  have hkl : k < l.length := by
    by_contra hc
    rw [List.getElem?_eq_none (by simpa using hc)] at hok
    cases hok
  obtain ⟨vs, hvs, v1, v2, v3, v4⟩ := swapFirst_val (l.map fun p => (matVec d (toVec p.1), p.2)) k (by simpa using hkl)
  refine ⟨⟨vs, fourierMinDistance d vs⟩, ?_, ?_, ?_⟩
  · unfold setPositionVectors
    rw [if_neg (by linarith), if_neg (by linarith)]
    simp only [Outcome.bind_eq]
    rw [hmid, hl, Outcome.bind_ok, hk, Option.getD_some, hvs, Outcome.bind_ok]
  · rw [List.getElem?_map, List.getElem?_eq_getElem hkl] at v2
    rw [List.getElem?_map, List.getElem?_eq_getElem hkl, Option.map_some, Option.some.injEq] at hok
    have hin := (hmem l[k].1 l[k].2).mp (List.getElem_mem hkl)
    rw [hok] at hin
    refine ⟨l[k].2, vs.tail, ?_, hin.2⟩
    cases vs with
    | nil => simp at v2
    | cons a vs =>
      simp only [List.getElem?_cons_zero, Option.map_some, Option.some.injEq] at v2
      rw [v2, hok, matVec_zero]
      rfl
  · intro p
    rw [swapFirst_mem _ _ _ hvs, List.mem_map]
    constructor
    · rintro ⟨q, hq, rfl⟩
      obtain ⟨q1, q2⟩ := (hmem q.1 q.2).mp hq
      exact ⟨q.1, q1, rfl, q2⟩
    · rintro ⟨i, hi, hp, hdeg⟩
      exact ⟨(i, p.2), (hmem _ _).mpr ⟨hi, hdeg⟩, by rw [← hp]⟩

end Verif.Model
