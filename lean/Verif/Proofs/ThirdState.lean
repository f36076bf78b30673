import Verif.Model.ThirdState
import Verif.Props.Points
import Verif.Proofs.IrrPoints
import Verif.Proofs.Gather
import Verif.Proofs.VectorBte
import Mathlib.Data.List.Sort

/-! Lemmas for the third states. -/
namespace Verif.Model
open Verif.Props

/-! ## Sets -/

theorem toSet_spec (l : List Nat) : (∀ x, x ∈ toSet l ↔ x ∈ l) ∧ (toSet l).Pairwise (· < ·) := by
  have key : ∀ (l s : List Nat), s.Pairwise (· < ·) →
      (∀ x, x ∈ l.foldl (fun s x => setInsert x s) s ↔ x ∈ s ∨ x ∈ l) ∧
      (l.foldl (fun s x => setInsert x s) s).Pairwise (· < ·) := by
    intro l
    induction l with
    | nil => intro s h; simpa using h
    | cons a t ih =>
      intro s h
      obtain ⟨h1, h2⟩ := ih (setInsert a s) (sorted_setInsert a s h)
      refine ⟨fun x => ?_, h2⟩
      rw [List.foldl_cons, h1, mem_setInsert]
      simp only [List.mem_cons]
      tauto
  obtain ⟨h1, h2⟩ := key l [] List.Pairwise.nil
  exact ⟨fun x => by unfold toSet; rw [h1 x]; simp, h2⟩

theorem toSet_congr {l l' : List Nat} (h : ∀ x, x ∈ l ↔ x ∈ l') : toSet l = toSet l' := by
  obtain ⟨h1, h2⟩ := toSet_spec l
  obtain ⟨h3, h4⟩ := toSet_spec l'
  have hp : (toSet l).Perm (toSet l') := by
    rw [List.perm_ext_iff_of_nodup (h2.imp (fun h => Nat.ne_of_lt h)) (h4.imp (fun h => Nat.ne_of_lt h))]
    intro x; rw [h1, h3, h]
  exact hp.eq_of_pairwise (fun a b _ _ h h' => absurd h (by omega)) h2 h4

/-! ## Mesh points -/

/-- `v` is a point of the mesh (zero offset) up to a reciprocal lattice vector. -/
def Commensurate (mesh : V3 Int) (v : V3 Rat) : Prop :=
  ∃ n : V3 Int, v = ⟨(n.x : Rat) / mesh.x, (n.y : Rat) / mesh.y, (n.z : Rat) / mesh.z⟩

theorem commensurate_mesh {mesh : V3 Int} (hm : PosMesh mesh) (i : Int)
    (hi : 0 ≤ i ∧ i < mesh.x * mesh.y * mesh.z) : Commensurate mesh (meshCoordinates mesh ⟨0, 0, 0⟩ i) := by
  obtain ⟨h1, h2, h3⟩ := hm
  obtain ⟨a, b, c, d⟩ := exists_decode h1 h2 h3 hi.1 hi.2
  exact ⟨⟨a, b, c⟩, by rw [meshCoordinates_decode d]; simp⟩

theorem commensurate_add {mesh : V3 Int} {v w : V3 Rat} (hv : Commensurate mesh v) (hw : Commensurate mesh w) :
    Commensurate mesh (v.add w) := by
  obtain ⟨n, rfl⟩ := hv
  obtain ⟨m, rfl⟩ := hw
  exact ⟨⟨n.x + m.x, n.y + m.y, n.z + m.z⟩, by simp only [V3.add, V3.mk.injEq]; push_cast; refine ⟨?_, ?_, ?_⟩ <;> ring⟩

theorem commensurate_sub {mesh : V3 Int} {v w : V3 Rat} (hv : Commensurate mesh v) (hw : Commensurate mesh w) :
    Commensurate mesh (v.sub w) := by
  obtain ⟨n, rfl⟩ := hv
  obtain ⟨m, rfl⟩ := hw
  exact ⟨⟨n.x - m.x, n.y - m.y, n.z - m.z⟩, by simp only [V3.sub, V3.mk.injEq]; push_cast; refine ⟨?_, ?_, ?_⟩ <;> ring⟩

/-- Index in the full mesh. -/
def meshIndex (mesh : V3 Int) (v : V3 Rat) : Nat := (isPointStoredMesh mesh ⟨0, 0, 0⟩ v).toNat

theorem meshIndex_spec {mesh : V3 Int} (hm : PosMesh mesh) {v : V3 Rat} (hv : Commensurate mesh v) :
    isPointStoredMesh mesh ⟨0, 0, 0⟩ v = (meshIndex mesh v : Int) ∧
    (meshIndex mesh v : Int) < mesh.x * mesh.y * mesh.z ∧
    Equivalent v (meshCoordinates mesh ⟨0, 0, 0⟩ (meshIndex mesh v)) := by
  obtain ⟨n, hn⟩ := hv
  obtain ⟨h1, h2, h3⟩ := C12_complete mesh ⟨0, 0, 0⟩ hm n v (by rw [hn]; simp)
  have e : isPointStoredMesh mesh ⟨0, 0, 0⟩ v = (meshIndex mesh v : Int) := by unfold meshIndex; omega
  refine ⟨e, ?_, ?_⟩
  · rw [← e]; exact h2
  · rw [← e]; exact h3

theorem setMesh_pos {mesh : V3 Int} (hm : PosMesh mesh) : ∃ s, setMesh mesh ⟨0, 0, 0⟩ = .ok s ∧
    s.mesh = mesh ∧ s.offset = ⟨0, 0, 0⟩ ∧ s.explicitlyStored = false ∧
    s.numPoints = (mesh.x * mesh.y * mesh.z).toNat ∧ s.numIrrPoints = 0 := by
  obtain ⟨h1, h2, h3⟩ := hm
  refine ⟨⟨mesh, ⟨0, 0, 0⟩, (mesh.x * mesh.y * mesh.z).toNat, false, false, [], [], 0⟩, ?_, rfl, rfl, rfl, rfl, rfl⟩
  unfold setMesh
  rw [if_neg (by omega), if_neg (by omega), if_neg (by omega), if_neg (by rintro ⟨a, b⟩; norm_num at b),
    if_neg (by rintro ⟨a, b⟩; norm_num at b), if_neg (by rintro ⟨a, b⟩; norm_num at b)]

theorem full_getIndex {mesh : V3 Int} (hm : PosMesh mesh) {s : Points} (hs : setMesh mesh ⟨0, 0, 0⟩ = .ok s)
    {v : V3 Rat} (hv : Commensurate mesh v) : s.getIndex v = .ok (meshIndex mesh v : Int) := by
  obtain ⟨s', h1, h2, h3, h4, _⟩ := setMesh_pos hm
  rw [hs] at h1; cases h1
  unfold Points.getIndex Points.isPointStored
  rw [h4, h2, h3, (meshIndex_spec hm hv).1]
  simp only [Bool.false_eq_true, if_false]
  rw [if_neg (by omega)]

theorem full_coordinates {mesh : V3 Int} (hm : PosMesh mesh) {s : Points} (hs : setMesh mesh ⟨0, 0, 0⟩ = .ok s)
    (i : Int) : s.getPointCoordinates i = .ok (meshCoordinates mesh ⟨0, 0, 0⟩ i) := by
  obtain ⟨s', h1, h2, h3, h4, _⟩ := setMesh_pos hm
  rw [hs] at h1; cases h1
  unfold Points.getPointCoordinates
  rw [h4, h2, h3]; rfl

/-- Points of a filtered mesh are mesh points, whatever the filter. -/
theorem filtered_commensurate {mesh : V3 Int} (hm : PosMesh mesh) {s s' : Points}
    (hs : setMesh mesh ⟨0, 0, 0⟩ = .ok s) {filter : List Int}
    (hr : ∀ i ∈ filter, 0 ≤ i ∧ i < mesh.x * mesh.y * mesh.z) (hs' : s.setActiveLayer filter = .ok s')
    (i : Nat) (hi : i < s'.numPoints) :
    ∃ v, s'.getPointCoordinates i = .ok v ∧ Commensurate mesh v := by
  obtain ⟨t, h1, h2, h3, h4, h5, h6⟩ := setMesh_pos hm
  rw [hs] at h1; cases h1
  unfold Points.setActiveLayer at hs'
  by_cases hl : filter.length = s.numPoints
  · rw [if_pos hl] at hs'
    cases hs'
    rw [h5] at hi
    exact ⟨_, full_coordinates hm hs i, commensurate_mesh hm i (by omega)⟩
  · rw [if_neg hl] at hs'
    simp only at hs'
    rw [if_neg, if_neg, if_neg] at hs'
    · cases hs'
      have hif : i < filter.length := hi
      refine ⟨meshCoordinates mesh ⟨0, 0, 0⟩ filter[i], ?_, commensurate_mesh hm _ (hr _ (List.getElem_mem _))⟩
      unfold Points.getPointCoordinates
      simp only [if_true, List.length_map]
      rw [if_pos (by omega)]
      simp [coordAt, h2, h3, hif]
    · omega
    · rw [h2]
      obtain ⟨h1, h2, h3⟩ := hm
      have := Int.mul_pos (Int.mul_pos h1 h2) h3
      omega
    · simp only [List.any_eq_true, not_exists, not_and, decide_eq_true_eq]
      intro x hx
      have := (hr x hx).1
      omega

/-- Lookup in a mesh filtered by an ascending list. -/
theorem filtered_lookup {mesh : V3 Int} (hm : PosMesh mesh) (hc : CoarseMesh mesh) {s : Points}
    (hs : setMesh mesh ⟨0, 0, 0⟩ = .ok s) {filter : List Int}
    (hr : ∀ i ∈ filter, 0 ≤ i ∧ i < mesh.x * mesh.y * mesh.z) (hasc : filter.Pairwise (· < ·)) :
    ∃ s', s.setActiveLayer filter = .ok s' ∧ s'.numPoints = filter.length ∧
      ∀ v, Commensurate mesh v → (meshIndex mesh v : Int) ∈ filter → ∃ k : Nat, ∃ p : V3 Rat,
        s'.getIndex v = .ok (k : Int) ∧ k < filter.length ∧ s'.getPointCoordinates k = .ok p ∧ Equivalent p v := by
  obtain ⟨t, h1, h2, h3, h4, h5, h6⟩ := setMesh_pos hm
  rw [hs] at h1; cases h1
  have hpos : 0 < mesh.x * mesh.y * mesh.z := by
    obtain ⟨h1, h2, h3⟩ := hm
    exact Int.mul_pos (Int.mul_pos h1 h2) h3
  have hso : SmallOffset mesh ⟨0, 0, 0⟩ := by
    obtain ⟨h1, h2, h3⟩ := hm
    obtain ⟨c1, c2, c3⟩ := hc
    have key : ∀ m : Int, 0 < m → m < 1000 → (0 : Rat) ≤ 0 ∧ (0 : Rat) + eps8 < 1 / m := by
      intro m hm hm'
      refine ⟨le_rfl, ?_⟩
      rw [zero_add, lt_div_iff₀ (by exact_mod_cast hm)]
      have : (m : Rat) < 1000 := by exact_mod_cast hm'
      unfold eps8
      linarith
    exact ⟨key _ h1 c1, key _ h2 c2, key _ h3 c3⟩
  -- equivalence turned around
  have hsymm : ∀ {p q : V3 Rat}, Equivalent p q → ∃ g, p = translate q g := fun h => h
  have hback : ∀ {p q : V3 Rat}, Equivalent p q → Equivalent q p := by
    rintro p q ⟨g, rfl⟩
    refine ⟨⟨-g.x, -g.y, -g.z⟩, ?_⟩
    obtain ⟨a, b, c⟩ := q
    simp only [translate, V3.mk.injEq]
    push_cast
    refine ⟨by ring, by ring, by ring⟩
  -- the number of ascending in-range indexes is at most that of the mesh
  have hle : (filter.length : Int) ≤ mesh.x * mesh.y * mesh.z := by
    have hnd : filter.Nodup := hasc.imp (fun h => ne_of_lt h)
    have hsub : filter ⊆ (List.range (mesh.x * mesh.y * mesh.z).toNat).map (fun i : Nat => (i : Int)) := by
      intro i hi
      have := hr i hi
      exact List.mem_map.mpr ⟨i.toNat, by rw [List.mem_range]; omega, by omega⟩
    have := (hnd.subperm hsub).length_le
    simp at this
    omega
  by_cases hl : (filter.length : Int) = mesh.x * mesh.y * mesh.z
  · have hs' : s.setActiveLayer filter = .ok s := by
      unfold Points.setActiveLayer
      rw [if_pos (by omega)]
    obtain ⟨e1, e2⟩ := C15_full_filter_partial mesh ⟨0, 0, 0⟩ hm s s hs filter hr hasc hl hs'
    refine ⟨s, hs', e1, fun v hv hmem => ?_⟩
    obtain ⟨k, hk, hkv⟩ := List.getElem_of_mem hmem
    obtain ⟨a, b⟩ := e2 k _ (List.getElem?_eq_getElem hk)
    obtain ⟨m1, m2, m3⟩ := meshIndex_spec hm hv
    obtain ⟨g, hg⟩ := m3
    rw [hkv] at a b
    refine ⟨k, _, ?_, hk, a, hback ⟨g, hg⟩⟩
    unfold Points.getIndex
    have := b g
    rw [← hg] at this
    rw [this]
    simp only
    rw [if_neg (by omega)]
  · obtain ⟨s', hs'⟩ := (C15_negative_partial mesh ⟨0, 0, 0⟩ hm s hs filter hl).2 (fun i hi => (hr i hi).1)
    obtain ⟨e1, e2, e3⟩ := C15_filter_partial mesh ⟨0, 0, 0⟩ hm hc hso s s' hs filter hr (by omega) hs' (Or.inl hasc)
    refine ⟨s', hs', e1, fun v hv hmem => ?_⟩
    obtain ⟨k, hk, hkv⟩ := List.getElem_of_mem hmem
    have a := e2 k _ (List.getElem?_eq_getElem hk)
    obtain ⟨m1, m2, m3⟩ := meshIndex_spec hm hv
    obtain ⟨g, hg⟩ := m3
    have b := (e3 _ (by omega) m2 g).1 k (by rw [List.getElem?_eq_getElem hk, hkv])
    rw [hkv] at a
    refine ⟨k, _, ?_, hk, a, hback ⟨g, hg⟩⟩
    unfold Points.getIndex
    rw [← hg] at b
    rw [b]
    simp only
    rw [if_neg (by omega)]

/-! ## The parallel construction -/

theorem threadSet_val {mesh : V3 Int} (hm : PosMesh mesh) {full : Points} (hs : setMesh mesh ⟨0, 0, 0⟩ = .ok full)
    {vectors : Nat → Nat → Outcome (List (V3 Rat))} {n : Nat} {V : Nat → Nat → List (V3 Rat)}
    (hV : ∀ i j, i < n → j < n → vectors i j = .ok (V i j) ∧ ∀ v ∈ V i j, Commensurate mesh v)
    (c : List Nat) (hc : ∀ i ∈ c, i < n) :
    threadSet full vectors n c = .ok (toSet (c.flatMap fun i => (List.range n).flatMap fun j =>
      (V i j).map (meshIndex mesh))) := by
  have h1 : ∀ i ∈ c, ∀ j ∈ List.range n, thirdIndexes full vectors i j = .ok ((V i j).map (meshIndex mesh)) := by
    intro i hi j hj
    obtain ⟨a, b⟩ := hV i j (hc i hi) (by simpa using hj)
    unfold thirdIndexes
    simp only [Outcome.bind_eq]
    rw [a, Outcome.bind_ok]
    apply mapOutcome_ok
    intro v hv
    rw [full_getIndex hm hs (b v hv), Outcome.bind_ok]
    simp
  unfold threadSet
  simp only [Outcome.bind_eq]
  rw [mapOutcome_ok (g := fun i => (List.range n).flatMap fun j => (V i j).map (meshIndex mesh)) c, Outcome.bind_ok,
    List.flatMap_def]
  intro i hi
  rw [mapOutcome_ok (g := fun j => (V i j).map (meshIndex mesh)) _ (h1 i hi), Outcome.bind_ok, List.flatMap_def]

theorem region_spec {mesh : V3 Int} (hm : PosMesh mesh) {full : Points} (hs : setMesh mesh ⟨0, 0, 0⟩ = .ok full)
    {vectors : Nat → Nat → Outcome (List (V3 Rat))} {n : Nat} {V : Nat → Nat → List (V3 Rat)}
    (hV : ∀ i j, i < n → j < n → vectors i j = .ok (V i j) ∧ ∀ v ∈ V i j, Commensurate mesh v)
    (pts : List Nat) (hpts : ∀ i ∈ pts, i < n) {result : List Nat} (h : RegionRun full vectors n pts result) (x : Nat) :
    x ∈ result ↔ ∃ i ∈ pts, ∃ j < n, ∃ v ∈ V i j, meshIndex mesh v = x := by
  obtain ⟨chunks, sets, order, hp, hmap, ho, rfl⟩ := h
  have hc : ∀ c ∈ chunks, ∀ i ∈ c, i < n := fun c hc i hi =>
    hpts i (hp.mem_iff.mp (List.mem_flatten.mpr ⟨c, hc, hi⟩))
  rw [mapOutcome_ok chunks (fun c h => threadSet_val hm hs hV c (hc c h))] at hmap
  cases hmap
  rw [(toSet_spec _).1, (ho.flatten).mem_iff]
  simp only [List.mem_flatten, List.mem_map, exists_exists_and_eq_and, (toSet_spec _).1, List.mem_flatMap, List.mem_range]
  constructor
  · rintro ⟨c, h1, i, h2, h3⟩
    exact ⟨i, hp.mem_iff.mp (List.mem_flatten.mpr ⟨c, h1, h2⟩), h3⟩
  · rintro ⟨i, h2, h3⟩
    obtain ⟨c, h1, h2⟩ := List.mem_flatten.mp (hp.mem_iff.mpr h2)
    exact ⟨c, h1, i, h2, h3⟩

theorem sum_range_single {α : Type} [AddMonoid α] (f : Nat → α) (i : Nat) (n : Nat) :
    ((List.range n).map fun r => if i = r then f r else 0).sum = if i < n then f i else 0 := by
  induction n with
  | zero => simp
  | succ n ih =>
    rw [List.range_succ, List.map_append, List.sum_append, ih]
    by_cases h : i = n
    · subst h; simp
    · rw [if_pos_iff_lt h]
      simp [h]
where
  if_pos_iff_lt {i n : Nat} (h : ¬ i = n) : (if i < n + 1 then f i else 0) = if i < n then f i else 0 := by
    by_cases h' : i < n
    · rw [if_pos h', if_pos (by omega)]
    · rw [if_neg h', if_neg (by omega)]

theorem localCounts_val (mine : List (List Nat)) : localCounts mine = mine.map List.length := by
  unfold localCounts
  cases hh : (allReduceSum1 ((List.range mine.length).map fun r => fun i =>
      if i = r then (mine.getD r []).length else 0)).head? with
  | none =>
    have := List.head?_eq_none_iff.mp hh
    have hl : mine.length = 0 := by
      have := congrArg List.length this
      unfold allReduceSum1 at this
      split at this <;> simpa using this
    simp [List.length_eq_zero_iff.mp hl]
  | some c =>
    have hc := List.mem_of_mem_head? (Option.mem_def.mpr hh)
    simp only
    apply List.ext_getElem
    · simp
    · intro i h1 h2
      have hi : i < mine.length := by simpa using h1
      rw [List.getElem_map, List.getElem_range, mem_allReduceSum1 _ _ hc i, List.map_map]
      have := sum_range_single (fun r => (mine.getD r []).length) i mine.length
      simp only [Function.comp_def]
      rw [this, if_pos hi]
      simp [hi]

/-- All processes get the same points, in which every third wavevector is found. -/
theorem thirdPoints_spec {mesh : V3 Int} (hm : PosMesh mesh) (hc : CoarseMesh mesh) {full : Points}
    (hs : setMesh mesh ⟨0, 0, 0⟩ = .ok full)
    {vectors : Nat → Nat → Outcome (List (V3 Rat))} {n : Nat} {V : Nat → Nat → List (V3 Rat)}
    (hV : ∀ i j, i < n → j < n → vectors i j = .ok (V i j) ∧ ∀ v ∈ V i j, Commensurate mesh v)
    {size : Nat} {work : Nat → List Nat} (hw : (List.range size).flatMap work = List.range n)
    {mine : List (List Nat)} (hlen : mine.length = size)
    (hrun : ∀ r (hr : r < mine.length), RegionRun full vectors n (work r) mine[r]) :
    ∃ P, full.setActiveLayer ((toSet ((List.range n).flatMap fun i => (List.range n).flatMap fun j =>
        (V i j).map (meshIndex mesh))).map fun i : Nat => (i : Int)) = .ok P ∧
      thirdPoints full mine = .ok (List.replicate size P) ∧
      ∀ i j, i < n → j < n → ∀ v ∈ V i j, ∃ k : Nat, ∃ p : V3 Rat,
        P.getIndex v = .ok (k : Int) ∧ k < P.numPoints ∧ P.getPointCoordinates k = .ok p ∧ Equivalent p v := by
  set S := toSet ((List.range n).flatMap fun i => (List.range n).flatMap fun j => (V i j).map (meshIndex mesh)) with hS
  have hmemS : ∀ x, x ∈ S ↔ ∃ i < n, ∃ j < n, ∃ v ∈ V i j, meshIndex mesh v = x := by
    intro x
    rw [hS, (toSet_spec _).1]
    simp only [List.mem_flatMap, List.mem_map, List.mem_range]
  have hwork : ∀ r, r < size → ∀ i ∈ work r, i < n := by
    intro r hr i hi
    have : i ∈ (List.range size).flatMap work := List.mem_flatMap.mpr ⟨r, by simpa using hr, hi⟩
    rw [hw] at this
    simpa using this
  have hset : toSet mine.flatten = S := by
    rw [hS]
    apply toSet_congr
    intro x
    simp only [List.mem_flatten, List.mem_flatMap, List.mem_map, List.mem_range]
    constructor
    · rintro ⟨l, hl, hx⟩
      obtain ⟨r, hr, rfl⟩ := List.getElem_of_mem hl
      obtain ⟨i, hi, j, hj, v, hv, e⟩ := (region_spec hm hs hV _ (hwork r (by omega)) (hrun r hr) x).mp hx
      exact ⟨i, hwork r (by omega) i hi, j, hj, v, hv, e⟩
    · rintro ⟨i, hi, h⟩
      have : i ∈ (List.range size).flatMap work := by rw [hw]; simpa using hi
      obtain ⟨r, hr, hir⟩ := List.mem_flatMap.mp this
      have hr' : r < mine.length := by rw [hlen]; simpa using hr
      exact ⟨_, List.getElem_mem hr', (region_spec hm hs hV _ (hwork r (by omega)) (hrun r hr') x).mpr ⟨i, hir, h⟩⟩
  have hrange : ∀ i ∈ S.map (fun i : Nat => (i : Int)), 0 ≤ i ∧ i < mesh.x * mesh.y * mesh.z := by
    intro i hi
    obtain ⟨x, hx, rfl⟩ := List.mem_map.mp hi
    obtain ⟨a, ha, b, hb, v, hv, rfl⟩ := (hmemS x).mp hx
    have := (meshIndex_spec hm ((hV a b ha hb).2 v hv)).2.1
    omega
  have hasc : (S.map fun i : Nat => (i : Int)).Pairwise (· < ·) := by
    rw [List.pairwise_map]
    exact (toSet_spec _).2.imp (fun h => by exact_mod_cast h)
  obtain ⟨P, hP, hPn, hPl⟩ := filtered_lookup hm hc hs hrange hasc
  refine ⟨P, hP, ?_, ?_⟩
  · unfold thirdPoints
    simp only [Outcome.bind_eq]
    rw [collectWith_val mine _ (localCounts_val mine), Outcome.bind_ok, hlen,
      mapOutcome_ok (g := fun _ => P)]
    · simp
    · intro l hl
      rw [(List.mem_replicate.mp hl).2, hset, hP]
  · intro i j hi hj v hv
    obtain ⟨k, p, a, b, c, d⟩ := hPl v ((hV i j hi hj).2 v hv)
      (List.mem_map.mpr ⟨_, (hmemS _).mpr ⟨i, hi, j, hj, v, hv, rfl⟩, rfl⟩)
    exact ⟨k, p, a, by rw [hPn]; exact b, c, d⟩

end Verif.Model
