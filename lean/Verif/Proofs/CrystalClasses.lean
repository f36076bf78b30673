import Verif.Proofs.Crystal
import Verif.Spec.LatticeCell

namespace Verif.Props
open Verif.Model Verif.Spec

theorem latticeLength_eq (d : Mat3) (v : V3 Int) : latticeLength d v = vnorm (matVec d (toVec v)) := by
  rw [matVec_eq]; rfl

theorem latticeLength_nonneg (d : Mat3) (v : V3 Int) : 0 ≤ latticeLength d v := Real.sqrt_nonneg _

theorem sameCell_refl (grid v : V3 Int) : SameCell grid v v := by simp [SameCell]

theorem sameCell_symm {grid v w : V3 Int} (h : SameCell grid v w) : SameCell grid w v := by
  obtain ⟨h1, h2, h3⟩ := h
  refine ⟨?_, ?_, ?_⟩
  · rw [← neg_sub]; exact (dvd_neg).mpr h1
  · rw [← neg_sub]; exact (dvd_neg).mpr h2
  · rw [← neg_sub]; exact (dvd_neg).mpr h3

theorem sameCell_trans {grid u v w : V3 Int} (h : SameCell grid u v) (k : SameCell grid v w) : SameCell grid u w := by
  obtain ⟨h1, h2, h3⟩ := h
  obtain ⟨k1, k2, k3⟩ := k
  refine ⟨?_, ?_, ?_⟩
  · have := dvd_add h1 k1; rwa [sub_add_sub_cancel] at this
  · have := dvd_add h2 k2; rwa [sub_add_sub_cancel] at this
  · have := dvd_add h3 k3; rwa [sub_add_sub_cancel] at this

theorem sameCell_offset (grid v j : V3 Int) : SameCell grid (offsetBy grid v j) v := by
  refine ⟨?_, ?_, ?_⟩
  · exact ⟨-j.x, by simp only [offsetBy]; ring⟩
  · exact ⟨-j.y, by simp only [offsetBy]; ring⟩
  · exact ⟨-j.z, by simp only [offsetBy]; ring⟩

/-- From every vector one can go down to one of the shortest. -/
theorem shortest_below (d : Mat3) (grid : V3 Int) : ∀ (n : Nat) (v : V3 Int), latticeLength d v ≤ n * (1 / 1000000) →
    ∃ w, SameCell grid w v ∧ Shortest d grid w ∧ latticeLength d w ≤ latticeLength d v := by
  intro n
  induction n with
  | zero =>
    intro v hv
    refine ⟨v, sameCell_refl _ _, ?_, le_rfl⟩
    intro w _
    have := latticeLength_nonneg d w
    push_cast at hv
    linarith
  | succ n ih =>
    intro v hv
    by_cases hs : Shortest d grid v
    · exact ⟨v, sameCell_refl _ _, hs, le_rfl⟩
    · unfold Shortest at hs
      push Not at hs
      obtain ⟨w, hw, hlt⟩ := hs
      push_cast at hv
      obtain ⟨u, hu, hus, hul⟩ := ih w (by linarith)
      exact ⟨u, sameCell_trans hu hw, hus, by linarith⟩

theorem exists_shortest (d : Mat3) (grid v : V3 Int) :
    ∃ w, SameCell grid w v ∧ Shortest d grid w ∧ latticeLength d w ≤ latticeLength d v := by
  obtain ⟨n, hn⟩ := exists_nat_ge (latticeLength d v * 1000000)
  exact shortest_below d grid n v (by linarith)

/-- The smallest length of the vectors equivalent to `p` is that of one of them. -/
theorem exists_min_length (d : Mat3) (grid : V3 Int) (hc : CompactGrid d grid) (p : V3 Int) :
    ∃ c, SameCell grid c p ∧ c ∈ zBox grid ∧ ∀ w, SameCell grid w p → latticeLength d c ≤ latticeLength d w := by
  classical
  have hbox : ∀ w, Shortest d grid w → w ∈ zBox grid := by
    intro w hw
    obtain ⟨h1, h2, h3⟩ := hc w hw
    rw [mem_zBox]
    rw [abs_le] at h1 h2 h3
    omega
  have hne : ((zBox grid).toFinset.filter fun w => SameCell grid w p).Nonempty := by
    obtain ⟨w, hw, hs, _⟩ := exists_shortest d grid p
    exact ⟨w, by rw [Finset.mem_filter, List.mem_toFinset]; exact ⟨hbox w hs, hw⟩⟩
  obtain ⟨c, hcm, hmin⟩ := Finset.exists_min_image _ (latticeLength d) hne
  rw [Finset.mem_filter, List.mem_toFinset] at hcm
  refine ⟨c, hcm.2, hcm.1, ?_⟩
  intro w hw
  obtain ⟨u, hu, hus, hul⟩ := exists_shortest d grid w
  exact le_trans (hmin u (by rw [Finset.mem_filter, List.mem_toFinset]; exact ⟨hbox u hus, sameCell_trans hu hw⟩)) hul

open scoped Classical in
/-- The vectors equivalent to `p` that are as short as `m`. -/
noncomputable def shortClass (d : Mat3) (grid : V3 Int) (nx : Int) (p : V3 Int) (m : ℝ) : List (V3 Int) :=
  (wsBox grid nx).filter fun v => decide (SameCell grid v p ∧ latticeLength d v < m + 1 / 1000000)

theorem zBox_wsBox (grid : V3 Int) (nx : Int) (hg : 0 < grid.x ∧ 0 < grid.y ∧ 0 < grid.z) (hnx : 1 ≤ nx) (v : V3 Int)
    (h : v ∈ zBox grid) : v ∈ wsBox grid nx := by
  unfold wsBox
  rw [mem_zBox] at h ⊢
  have h1 : grid.x ≤ nx * grid.x := by nlinarith
  have h2 : grid.y ≤ nx * grid.y := by nlinarith
  have h3 : grid.z ≤ nx * grid.z := by nlinarith
  simp only
  omega

theorem translation_bound (n nx a b t : Int) (hn : 0 < n) (ha : -(nx * n) ≤ a ∧ a ≤ nx * n) (hb : -n ≤ b ∧ b ≤ n) (h : a - b = n * t) :
    -(nx + 1) ≤ t ∧ t ≤ nx + 1 := by
  constructor
  · by_contra hc
    have : t ≤ -(nx + 1) - 1 := by omega
    nlinarith
  · by_contra hc
    have : nx + 1 + 1 ≤ t := by omega
    nlinarith

/-- A short vector is seen from every equivalent vector of the box. -/
theorem seen (grid : V3 Int) (hg : 0 < grid.x ∧ 0 < grid.y ∧ 0 < grid.z) (nx : Int) (r c : V3 Int) (hr : r ∈ wsBox grid nx)
    (hcb : c ∈ zBox grid) (h : SameCell grid r c) : ∃ j ∈ zBox ⟨nx + 1, nx + 1, nx + 1⟩, offsetBy grid r j = c := by
  obtain ⟨⟨a, ha⟩, ⟨b, hb⟩, ⟨e, he⟩⟩ := h
  unfold wsBox at hr
  rw [mem_zBox] at hr hcb
  refine ⟨⟨a, b, e⟩, ?_, ?_⟩
  · rw [mem_zBox]
    have h1 := translation_bound grid.x nx r.x c.x a hg.1 ⟨hr.1.1, hr.1.2⟩ ⟨hcb.1.1, hcb.1.2⟩ ha
    have h2 := translation_bound grid.y nx r.y c.y b hg.2.1 ⟨hr.2.1.1, hr.2.1.2⟩ ⟨hcb.2.1.1, hcb.2.1.2⟩ hb
    have h3 := translation_bound grid.z nx r.z c.z e hg.2.2 ⟨hr.2.2.1, hr.2.2.2⟩ ⟨hcb.2.2.1, hcb.2.2.2⟩ he
    exact ⟨h1, h2, h3⟩
  · cases r; cases c
    simp only [offsetBy, V3.mk.injEq] at *
    refine ⟨?_, ?_, ?_⟩ <;> linarith

theorem wsDistances_eq (d : Mat3) (grid : V3 Int) (nx : Int) (i : V3 Int) :
    wsDistances d grid nx 0 i = (zBox ⟨nx + 1, nx + 1, nx + 1⟩).map fun j => latticeLength d (offsetBy grid i j) := by
  unfold wsDistances
  apply List.map_congr_left
  intro j _
  rw [add_zero, latticeLength_eq]

theorem offsetBy_inj (grid : V3 Int) (hg : 0 < grid.x ∧ 0 < grid.y ∧ 0 < grid.z) (r : V3 Int) : Function.Injective (offsetBy grid r) := by
  intro a b h
  cases a; cases b
  simp only [offsetBy, V3.mk.injEq] at h ⊢
  refine ⟨?_, ?_, ?_⟩
  · exact mul_right_cancel₀ hg.1.ne' (by linarith [h.1])
  · exact mul_right_cancel₀ hg.2.1.ne' (by linarith [h.2.1])
  · exact mul_right_cancel₀ hg.2.2.ne' (by linarith [h.2.2])

/-- The vectors kept of one class, and their degeneracy. -/
theorem degeneracy_class (d : Mat3) (grid : V3 Int) (hg : 0 < grid.x ∧ 0 < grid.y ∧ 0 < grid.z) (nx : Int) (hnx : 1 ≤ nx)
    (hc : CompactGrid d grid) (p c : V3 Int) (hcp : SameCell grid c p) (hcb : c ∈ zBox grid)
    (hmin : ∀ w, SameCell grid w p → latticeLength d c ≤ latticeLength d w) (r : V3 Int) (hr : r ∈ wsBox grid nx) (hrp : SameCell grid r p)
    (g : Nat) :
    wsDegeneracy (midOf nx) (wsDistances d grid nx 0 r) = .ok (some g) ↔
      latticeLength d r < latticeLength d c + 1 / 1000000 ∧ g = (shortClass d grid nx p (latticeLength d c)).length := by
  classical
  have hshort : ∀ v, SameCell grid v p → latticeLength d v < latticeLength d c + 1 / 1000000 → v ∈ zBox grid := by
    intro v hv hl
    have : Shortest d grid v := by
      intro w hw
      have := hmin w (sameCell_trans hw hv)
      linarith
    obtain ⟨h1, h2, h3⟩ := hc v this
    rw [mem_zBox]
    rw [abs_le] at h1 h2 h3
    omega
  have hne : wsDistances d grid nx 0 r ≠ [] := by
    intro hh
    have := length_wsDistances d grid nx 0 r (by omega)
    rw [hh] at this; simp at this
  obtain ⟨m1, m2⟩ := distMin_spec _ hne
  have hM : distMin (wsDistances d grid nx 0 r) = latticeLength d c := by
    apply le_antisymm
    · apply m2
      rw [wsDistances_eq, List.mem_map]
      obtain ⟨j, hj, e⟩ := seen grid hg nx r c hr hcb (sameCell_trans hrp (sameCell_symm hcp))
      exact ⟨j, hj, by rw [e]⟩
    · rw [wsDistances_eq] at m1
      obtain ⟨j, _, e⟩ := List.mem_map.mp m1
      rw [wsDistances_eq, ← e]
      exact hmin _ (sameCell_trans (sameCell_offset grid r j) hrp)
  have hcount : ((wsDistances d grid nx 0 r).filter fun x => decide (|x - latticeLength d c| < 1 / 1000000)).length =
      (shortClass d grid nx p (latticeLength d c)).length := by
    rw [wsDistances_eq, List.filter_map, List.length_map, ← List.length_map (f := offsetBy grid r)]
    apply List.Perm.length_eq
    rw [List.perm_ext_iff_of_nodup]
    · intro v
      unfold shortClass
      rw [List.mem_map, List.mem_filter]
      simp only [List.mem_filter, Function.comp, decide_eq_true_eq]
      constructor
      · rintro ⟨j, ⟨_, hl⟩, rfl⟩
        have hs := sameCell_trans (sameCell_offset grid r j) hrp
        have hge := hmin _ hs
        rw [abs_of_nonneg (by linarith)] at hl
        have hlt : latticeLength d (offsetBy grid r j) < latticeLength d c + 1 / 1000000 := by linarith
        exact ⟨zBox_wsBox grid nx hg hnx _ (hshort _ hs hlt), hs, hlt⟩
      · rintro ⟨_, hs, hlt⟩
        obtain ⟨j, hj, e⟩ := seen grid hg nx r v hr (hshort v hs hlt) (sameCell_trans hrp (sameCell_symm hs))
        refine ⟨j, ⟨hj, ?_⟩, e⟩
        rw [e, abs_of_nonneg (by linarith [hmin v hs])]
        linarith
    · exact (List.Nodup.filter _ (nodup_zBox _)).map (offsetBy_inj grid hg r)
    · exact List.Nodup.filter _ (nodup_zBox _)
  rw [wsDegeneracy_val d grid nx 0 r (by omega), hM, hcount, add_zero, ← latticeLength_eq,
    abs_of_nonneg (by linarith [hmin r hrp])]
  by_cases hlt : latticeLength d r - latticeLength d c < 1 / 1000000
  · rw [if_pos hlt]
    simp only [Outcome.ok.injEq, Option.some.injEq]
    constructor
    · intro h; exact ⟨by linarith, h.symm⟩
    · intro h; exact h.2.symm
  · rw [if_neg hlt]
    simp only [Outcome.ok.injEq]
    constructor
    · intro h; cases h
    · rintro ⟨h, _⟩; exact absurd (by linarith) hlt

open scoped Classical in
/-- The inverse degeneracies of each class add up to one. -/
theorem collect_class (d : Mat3) (grid : V3 Int) (hg : 0 < grid.x ∧ 0 < grid.y ∧ 0 < grid.z) (nx : Int) (hnx : 1 ≤ nx)
    (hc : CompactGrid d grid) (l : List (V3 Int × Nat)) (hl : wsCollect d grid nx 0 (midOf nx) (wsBox grid nx) = .ok l) (p : V3 Int) :
    ((l.filter fun q => decide (SameCell grid q.1 p)).map fun q => 1 / (q.2 : ℝ)).sum = 1 := by
  obtain ⟨l', hl', hsub, hmem⟩ := wsCollect_val d grid nx 0 (by omega) (wsBox grid nx)
  rw [hl] at hl'
  cases hl'
  obtain ⟨c, hcp, hcb, hmin⟩ := exists_min_length d grid hc p
  have hdeg := fun r hr hrp g => degeneracy_class d grid hg nx hnx hc p c hcp hcb hmin r hr hrp g
  have hnd : ((l.filter fun q => decide (SameCell grid q.1 p)).map Prod.fst).Nodup :=
    ((List.filter_sublist.map Prod.fst).trans hsub).nodup (nodup_zBox _)
  have hlen : (l.filter fun q => decide (SameCell grid q.1 p)).length = (shortClass d grid nx p (latticeLength d c)).length := by
    rw [← List.length_map (f := Prod.fst)]
    apply List.Perm.length_eq
    unfold shortClass
    rw [List.perm_ext_iff_of_nodup hnd (List.Nodup.filter _ (by unfold wsBox; exact nodup_zBox _))]
    intro v
    rw [List.mem_map, List.mem_filter]
    simp only [List.mem_filter, decide_eq_true_eq]
    constructor
    · rintro ⟨⟨v', g⟩, ⟨hin, hs⟩, rfl⟩
      obtain ⟨hb, hg'⟩ := (hmem v' g).mp hin
      exact ⟨hb, hs, ((hdeg v' hb hs g).mp hg').1⟩
    · rintro ⟨hb, hs, hlt⟩
      exact ⟨(v, _), ⟨(hmem v _).mpr ⟨hb, (hdeg v hb hs _).mpr ⟨hlt, rfl⟩⟩, hs⟩, rfl⟩
  have hconst : ∀ x ∈ (l.filter fun q => decide (SameCell grid q.1 p)).map fun q => 1 / (q.2 : ℝ),
      x = 1 / ((shortClass d grid nx p (latticeLength d c)).length : ℝ) := by
    intro x hx
    obtain ⟨⟨v, g⟩, hq, rfl⟩ := List.mem_map.mp hx
    rw [List.mem_filter, decide_eq_true_eq] at hq
    obtain ⟨hb, hg'⟩ := (hmem v g).mp hq.1
    rw [((hdeg v hb hq.2 g).mp hg').2]
  rw [List.eq_replicate_of_mem hconst, List.sum_replicate, List.length_map, hlen, nsmul_eq_mul, mul_one_div_cancel]
  have hcin : c ∈ shortClass d grid nx p (latticeLength d c) := by
    unfold shortClass
    rw [List.mem_filter, decide_eq_true_eq]
    exact ⟨zBox_wsBox grid nx hg hnx c hcb, hcp, by linarith⟩
  have := List.length_pos_of_mem hcin
  exact_mod_cast this.ne'

/-- The inverse degeneracies add up to the number of cells. -/
theorem collect_total (d : Mat3) (grid : V3 Int) (hg : 0 < grid.x ∧ 0 < grid.y ∧ 0 < grid.z) (nx : Int) (hnx : 1 ≤ nx)
    (hc : CompactGrid d grid) (l : List (V3 Int × Nat)) (hl : wsCollect d grid nx 0 (midOf nx) (wsBox grid nx) = .ok l) :
    (l.map fun q => 1 / (q.2 : ℝ)).sum = ((grid.x * grid.y * grid.z : Int) : ℝ) := by
  classical
  have hcls := collect_class d grid hg nx hnx hc l hl
  obtain ⟨l', hl', hsub, hmem⟩ := wsCollect_val d grid nx 0 (by omega) (wsBox grid nx)
  rw [hl] at hl'
  cases hl'
  have hnd : l.Nodup := List.Nodup.of_map Prod.fst (hsub.nodup (nodup_zBox _))
  let cells : Finset (V3 Int) := ((Finset.Ico (0 : Int) grid.x) ×ˢ (Finset.Ico (0 : Int) grid.y) ×ˢ (Finset.Ico (0 : Int) grid.z)).image
    fun t => ⟨t.1, t.2.1, t.2.2⟩
  let fold : V3 Int × Nat → V3 Int := fun q => ⟨q.1.x % grid.x, q.1.y % grid.y, q.1.z % grid.z⟩
  have hmaps : ∀ q ∈ l.toFinset, fold q ∈ cells := by
    intro q _
    simp only [cells, fold, Finset.mem_image, Finset.mem_product, Finset.mem_Ico]
    exact ⟨(q.1.x % grid.x, q.1.y % grid.y, q.1.z % grid.z), ⟨⟨Int.emod_nonneg _ hg.1.ne', Int.emod_lt_of_pos _ hg.1⟩,
      ⟨Int.emod_nonneg _ hg.2.1.ne', Int.emod_lt_of_pos _ hg.2.1⟩, ⟨Int.emod_nonneg _ hg.2.2.ne', Int.emod_lt_of_pos _ hg.2.2⟩⟩, rfl⟩
  rw [← List.sum_toFinset (fun q => 1 / (q.2 : ℝ)) hnd, ← Finset.sum_fiberwise_of_maps_to hmaps]
  have hone : ∀ c ∈ cells, ∑ q ∈ l.toFinset with fold q = c, 1 / (q.2 : ℝ) = 1 := by
    intro c hcc
    simp only [cells, Finset.mem_image, Finset.mem_product, Finset.mem_Ico] at hcc
    obtain ⟨⟨a, b, e⟩, ⟨⟨a1, a2⟩, ⟨b1, b2⟩, ⟨e1, e2⟩⟩, rfl⟩ := hcc
    simp only at a1 a2 b1 b2 e1 e2
    refine Eq.trans ?_ (hcls ⟨a, b, e⟩)
    rw [← List.sum_toFinset _ (hnd.filter _)]
    refine Finset.sum_congr ?_ fun _ _ => rfl
    ext q
    simp only [Finset.mem_filter, List.mem_toFinset, List.mem_filter, fold, SameCell, V3.mk.injEq]
    have key : ∀ x n a : Int, 0 ≤ a → a < n → (x % n = a ↔ n ∣ x - a) := by
      intro x n a h1 h2
      rw [← Int.emod_emod_of_dvd x (dvd_refl n)]
      constructor
      · intro h
        have h' : x % n = a := by rwa [Int.emod_emod_of_dvd x (dvd_refl n)] at h
        exact ⟨x / n, by have := Int.emod_add_mul_ediv x n; linarith⟩
      · rintro ⟨t, ht⟩
        rw [Int.emod_emod_of_dvd x (dvd_refl n), show x = a + n * t by linarith, Int.add_mul_emod_self_left, Int.emod_eq_of_lt h1 h2]
    rw [key _ _ _ a1 a2, key _ _ _ b1 b2, key _ _ _ e1 e2]
    exact and_congr_right fun _ => (@decide_eq_true_iff _ (Classical.propDecidable _)).symm
  rw [Finset.sum_congr rfl hone, Finset.sum_const, nsmul_eq_mul, mul_one]
  have hcard : cells.card = grid.x.toNat * (grid.y.toNat * grid.z.toNat) := by
    simp only [cells]
    rw [Finset.card_image_of_injective, Finset.card_product, Finset.card_product, Int.card_Ico, Int.card_Ico, Int.card_Ico, sub_zero,
      sub_zero, sub_zero]
    intro s t h
    simp only [V3.mk.injEq] at h
    exact Prod.ext h.1 (Prod.ext h.2.1 h.2.2)
  have hz : ((cells.card : Nat) : Int) = grid.x * grid.y * grid.z := by
    rw [hcard]
    push_cast
    rw [Int.toNat_of_nonneg hg.1.le, Int.toNat_of_nonneg hg.2.1.le, Int.toNat_of_nonneg hg.2.2.le]
    ring
  exact_mod_cast congrArg (fun z : Int => (z : ℝ)) hz

/-- The vectors and the degeneracies, with the inverse degeneracies of each class. -/
theorem build_classes (d : Mat3) (grid : V3 Int) (hg : 0 < grid.x ∧ 0 < grid.y ∧ 0 < grid.z) (nx : Int) (hnx : 1 ≤ nx)
    (hc : CompactGrid d grid) :
    ∃ ls : List (V3 Int × Nat), buildWignerSeitz d grid nx = .ok (ls.map fun q => matVec d (toVec q.1), ls.map Prod.snd) ∧
      ∃ l, wsCollect d grid nx 0 (midOf nx) (wsBox grid nx) = .ok l ∧ ls.Perm l := by
  obtain ⟨l, hl, hsub, hmem⟩ := wsCollect_val d grid nx 0 (by omega) (wsBox grid nx)
  have htot := collect_total d grid hg nx hnx hc l hl
  have h0 : (⟨0, 0, 0⟩ : V3 Int) ∈ l.map Prod.fst := by
    obtain ⟨c, hcp, hcb, hmin⟩ := exists_min_length d grid hc ⟨0, 0, 0⟩
    have hb : (⟨0, 0, 0⟩ : V3 Int) ∈ wsBox grid nx := zBox_wsBox grid nx hg hnx _ (by rw [mem_zBox]; simp only; omega)
    have hz : latticeLength d ⟨0, 0, 0⟩ = 0 := by
      have : (![((0 : Int) : ℝ), ((0 : Int) : ℝ), ((0 : Int) : ℝ)] : Vec3) = 0 := by funext i; fin_cases i <;> simp
      unfold latticeLength
      simp only [this, Matrix.mulVec_zero]
      simp [vnorm, vdot]
    have := (hmem ⟨0, 0, 0⟩ _).mpr ⟨hb, (degeneracy_class d grid hg nx hnx hc ⟨0, 0, 0⟩ c hcp hcb hmin _ hb (sameCell_refl _ _) _).mpr
      ⟨by rw [hz]; linarith [latticeLength_nonneg d c], rfl⟩⟩
    exact List.mem_map.mpr ⟨_, this, rfl⟩
  cases hk : originIndex (l.map Prod.fst) with
  | none => exact absurd hk ((originIndex_spec _).2 h0)
  | some k =>
    have hok := (originIndex_spec (l.map Prod.fst)).1 k hk
    have hkl : k < l.length := by
      by_contra hcc
      rw [List.getElem?_eq_none (by simpa using hcc)] at hok
      cases hok
    have hl0 : 0 < l.length := by omega
    have hswap : ∀ {α : Type} (f : V3 Int × Nat → α), swapFirst (l.map f) k = .ok (((l.set 0 l[k]).set k l[0]).map f) := by
      intro α f
      unfold swapFirst readAt
      rw [List.getElem?_eq_getElem (by simpa using hkl), List.getElem?_eq_getElem (by simpa using hl0), List.map_set, List.map_set,
        List.getElem_map, List.getElem_map]
      rfl
    refine ⟨(l.set 0 l[k]).set k l[0], ?_, l, hl, List.set_set_perm hl0 hkl⟩
    unfold buildWignerSeitz
    have hl2 := hl
    unfold midOf at hl2
    simp only [Outcome.bind_eq]
    rw [hl2, Outcome.bind_ok, if_neg (by rw [htot, sub_self, abs_zero]; norm_num), hk]
    simp only
    rw [hswap, Outcome.bind_ok, hswap, Outcome.bind_ok]

/-! ## Compact supercells -/

theorem fold_coordinate (n v : Int) (hn : 0 < n) : ∃ w : Int, n ∣ w - v ∧ |2 * w| ≤ n ∧ |w| ≤ |v| := by
  by_cases h : |2 * v| ≤ n
  · exact ⟨v, by simp, h, le_rfl⟩
  · refine ⟨(v + n / 2) % n - n / 2, ⟨-((v + n / 2) / n), ?_⟩, ?_, ?_⟩
    · have := Int.emod_add_mul_ediv (v + n / 2) n
      linarith
    · have h1 := Int.emod_nonneg (v + n / 2) hn.ne'
      have h2 := Int.emod_lt_of_pos (v + n / 2) hn
      rw [abs_le]; omega
    · have h1 := Int.emod_nonneg (v + n / 2) hn.ne'
      have h2 := Int.emod_lt_of_pos (v + n / 2) hn
      have hw : |2 * ((v + n / 2) % n - n / 2)| ≤ n := by rw [abs_le]; omega
      rw [abs_mul, abs_two] at h hw
      omega

theorem vdot_self_nonneg (a : Vec3) : 0 ≤ vdot a a := by
  unfold vdot
  nlinarith [mul_self_nonneg (a 0), mul_self_nonneg (a 1), mul_self_nonneg (a 2)]

theorem vnorm_sq (a : Vec3) : vnorm a ^ 2 = vdot a a := Real.sq_sqrt (vdot_self_nonneg a)

theorem abs_vdot_le (a b : Vec3) : |vdot a b| ≤ vnorm a * vnorm b := by
  apply abs_le_of_sq_le_sq
  · rw [mul_pow, vnorm_sq, vnorm_sq]
    unfold vdot
    nlinarith [sq_nonneg (a 0 * b 1 - a 1 * b 0), sq_nonneg (a 0 * b 2 - a 2 * b 0), sq_nonneg (a 1 * b 2 - a 2 * b 1)]
  · exact mul_nonneg (Real.sqrt_nonneg _) (Real.sqrt_nonneg _)

/-- A supercell is compact when its covering radius is not larger than the distance between its faces: `b` is the dual
cell, and every vector has an equivalent one not longer than `radius`. -/
theorem compact_of_covering (d b : Mat3) (hdb : b * d = 1) (grid : V3 Int) (radius : ℝ)
    (hcover : ∀ v, ∃ w, SameCell grid w v ∧ latticeLength d w ≤ radius)
    (hface : ∀ i : Fin 3, (radius + 1 / 1000000) * vnorm (b i) < ![(grid.x : ℝ), (grid.y : ℝ), (grid.z : ℝ)] i + 1) :
    CompactGrid d grid := by
  intro v hv
  obtain ⟨w, hw, hl⟩ := hcover v
  have hlen : latticeLength d v < radius + 1 / 1000000 := by linarith [hv w hw]
  have hcoord : ∀ i : Fin 3, |![(v.x : ℝ), (v.y : ℝ), (v.z : ℝ)] i| < ![(grid.x : ℝ), (grid.y : ℝ), (grid.z : ℝ)] i + 1 := by
    intro i
    have h1 : ![(v.x : ℝ), (v.y : ℝ), (v.z : ℝ)] i = vdot (b i) (d.mulVec ![(v.x : ℝ), (v.y : ℝ), (v.z : ℝ)]) := by
      have : matVec b (d.mulVec ![(v.x : ℝ), (v.y : ℝ), (v.z : ℝ)]) = ![(v.x : ℝ), (v.y : ℝ), (v.z : ℝ)] := by
        rw [matVec_eq, Matrix.mulVec_mulVec, hdb, Matrix.one_mulVec]
      exact (congrFun this i).symm
    have h2 := abs_vdot_le (b i) (d.mulVec ![(v.x : ℝ), (v.y : ℝ), (v.z : ℝ)])
    rw [← h1] at h2
    have h3 : vnorm (b i) * latticeLength d v ≤ vnorm (b i) * (radius + 1 / 1000000) :=
      mul_le_mul_of_nonneg_left hlen.le (Real.sqrt_nonneg _)
    unfold latticeLength at h3
    have h4 := hface i
    linarith
  have h0 := hcoord 0
  have h1 := hcoord 1
  have h2 := hcoord 2
  simp only [Matrix.cons_val] at h0 h1 h2
  have g0 : |v.x| < grid.x + 1 := by exact_mod_cast h0
  have g1 : |v.y| < grid.y + 1 := by exact_mod_cast h1
  have g2 : |v.z| < grid.z + 1 := by exact_mod_cast h2
  omega

/-- A coordinate of a shortest vector, in a supercell with perpendicular edges. -/
theorem coordinate_bound (a : ℝ) (n v w : Int) (hn : 0 < n) (he : 1 ≤ n * a) (hw : |2 * w| ≤ n)
    (h : (a * v) ^ 2 - (a * w) ^ 2 < 1 / 2) : |v| ≤ n := by
  by_contra hc
  have h1 : n + 1 ≤ |v| := by omega
  have h2 : ((n : ℝ) + 1) ≤ |(v : ℝ)| := by exact_mod_cast h1
  have h3 : 2 * |(w : ℝ)| ≤ n := by
    have : |2 * (w : ℝ)| ≤ (n : ℝ) := by exact_mod_cast hw
    rwa [abs_mul, abs_two] at this
  have hn' : (0 : ℝ) < n := by exact_mod_cast hn
  have h4 : ((n : ℝ) + 1) ^ 2 ≤ (v : ℝ) ^ 2 := by rw [← sq_abs (v : ℝ)]; exact pow_le_pow_left₀ (by linarith) h2 2
  have h5 : (w : ℝ) ^ 2 ≤ (n / 2) ^ 2 := by rw [← sq_abs (w : ℝ)]; exact pow_le_pow_left₀ (abs_nonneg _) (by linarith) 2
  have h6 : 1 ≤ (n * a) ^ 2 := by nlinarith
  have h7 : 3 / 4 * (n * a) ^ 2 ≤ (a * v) ^ 2 - (a * w) ^ 2 := by
    have : 3 / 4 * (n : ℝ) ^ 2 ≤ (v : ℝ) ^ 2 - (w : ℝ) ^ 2 := by nlinarith
    have := mul_le_mul_of_nonneg_left this (sq_nonneg a)
    nlinarith
  linarith

/-- The supercell of a cell with perpendicular edges is compact, when its edges are between 1 and 10000 bohr. -/
theorem compact_rectangular (d : Mat3) (grid : V3 Int) (hg : 0 < grid.x ∧ 0 < grid.y ∧ 0 < grid.z) (a : Fin 3 → ℝ) (ha : ∀ i, 0 < a i)
    (hd : d.transpose * d = Matrix.diagonal fun i => a i ^ 2) (hx : 1 ≤ grid.x * a 0 ∧ grid.x * a 0 ≤ 10000)
    (hy : 1 ≤ grid.y * a 1 ∧ grid.y * a 1 ≤ 10000) (hz : 1 ≤ grid.z * a 2 ∧ grid.z * a 2 ≤ 10000) : CompactGrid d grid := by
  have hlen : ∀ v : V3 Int, latticeLength d v ^ 2 = (a 0 * v.x) ^ 2 + (a 1 * v.y) ^ 2 + (a 2 * v.z) ^ 2 := by
    intro v
    unfold latticeLength
    rw [vnorm_sq]
    have hdot : vdot (d.mulVec ![(v.x : ℝ), (v.y : ℝ), (v.z : ℝ)]) (d.mulVec ![(v.x : ℝ), (v.y : ℝ), (v.z : ℝ)]) =
        dotProduct ![(v.x : ℝ), (v.y : ℝ), (v.z : ℝ)] ((d.transpose * d).mulVec ![(v.x : ℝ), (v.y : ℝ), (v.z : ℝ)]) := by
      rw [← Matrix.mulVec_mulVec, Matrix.dotProduct_mulVec, Matrix.vecMul_transpose, dotProduct, Fin.sum_univ_three, vdot]
    rw [hdot, hd, dotProduct, Fin.sum_univ_three]
    simp only [Matrix.mulVec_diagonal, Matrix.cons_val]
    ring
  intro v hv
  obtain ⟨x, x1, x2, x3⟩ := fold_coordinate grid.x v.x hg.1
  obtain ⟨y, y1, y2, y3⟩ := fold_coordinate grid.y v.y hg.2.1
  obtain ⟨z, z1, z2, z3⟩ := fold_coordinate grid.z v.z hg.2.2
  have hvw := hv ⟨x, y, z⟩ ⟨x1, y1, z1⟩
  have hw := hlen ⟨x, y, z⟩
  have hv2 := hlen v
  simp only at hw
  have half : ∀ (a : ℝ) (n w : Int), 0 < a → 0 < n → (n : ℝ) * a ≤ 10000 → |2 * w| ≤ n → (a * w) ^ 2 ≤ 25000000 := by
    intro a n w ha hn hu hw
    have h3 : 2 * |(w : ℝ)| ≤ n := by
      have : |2 * (w : ℝ)| ≤ (n : ℝ) := by exact_mod_cast hw
      rwa [abs_mul, abs_two] at this
    have h4 : a * |(w : ℝ)| ≤ 5000 := by nlinarith
    rw [mul_pow, ← sq_abs (w : ℝ), ← mul_pow]
    have := pow_le_pow_left₀ (mul_nonneg ha.le (abs_nonneg (w : ℝ))) h4 2
    linarith
  have hx2 := half (a 0) grid.x x (ha 0) hg.1 hx.2 x2
  have hy2 := half (a 1) grid.y y (ha 1) hg.2.1 hy.2 y2
  have hz2 := half (a 2) grid.z z (ha 2) hg.2.2 hz.2 z2
  have hwl : latticeLength d ⟨x, y, z⟩ ≤ 10000 := by
    have := latticeLength_nonneg d ⟨x, y, z⟩
    nlinarith
  have hsq : latticeLength d v ^ 2 < latticeLength d ⟨x, y, z⟩ ^ 2 + 1 / 10 := by
    have h1 := latticeLength_nonneg d ⟨x, y, z⟩
    have h2 := latticeLength_nonneg d v
    nlinarith
  have sqle : ∀ (a : ℝ) (v w : Int), |w| ≤ |v| → (a * w) ^ 2 ≤ (a * v) ^ 2 := by
    intro a v w h
    have : |(w : ℝ)| ≤ |(v : ℝ)| := by exact_mod_cast h
    rw [mul_pow, mul_pow]
    exact mul_le_mul_of_nonneg_left (sq_le_sq.mpr this) (sq_nonneg a)
  have sx := sqle (a 0) v.x x x3
  have sy := sqle (a 1) v.y y y3
  have sz := sqle (a 2) v.z z z3
  exact ⟨coordinate_bound (a 0) _ _ x hg.1 hx.1 x2 (by linarith), coordinate_bound (a 1) _ _ y hg.2.1 hy.1 y2 (by linarith),
    coordinate_bound (a 2) _ _ z hg.2.2 hz.1 z2 (by linarith)⟩

end Verif.Props
