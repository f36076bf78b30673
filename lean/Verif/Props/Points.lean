import Verif.Proofs.PointSearch
import Verif.Spec.Symmetry
/-!
# Properties C12-C17: wavevector meshes
-/
namespace Verif.Props
open Verif.Model

/-- A mesh of positive dimensions. -/
def PosMesh (mesh : V3 Int) : Prop := 0 < mesh.x ∧ 0 < mesh.y ∧ 0 < mesh.z

/-! ## C12 mesh index and coordinates -/

/-- Looking up the coordinates of mesh point `i`, or any reciprocal-lattice translate, returns `i`. -/
theorem C12_lookup (mesh : V3 Int) (offset : V3 Rat) (hm : PosMesh mesh) (i : Int)
    (hi : 0 ≤ i ∧ i < mesh.x * mesh.y * mesh.z) (g : V3 Int) :
    isPointStoredMesh mesh offset (translate (meshCoordinates mesh offset i) g) = i := by
  obtain ⟨h1, h2, h3⟩ := hm
  obtain ⟨a, b, c, d⟩ := exists_decode h1 h2 h3 hi.1 hi.2
  rw [isPointStoredMesh_int mesh offset _ (a + g.x * mesh.x) (b + g.y * mesh.y) (c + g.z * mesh.z) h1 h2 h3]
  · rw [Int.add_mul_emod_self_right, Int.add_mul_emod_self_right, Int.add_mul_emod_self_right,
      Int.emod_eq_of_lt d.ha.1 d.ha.2, Int.emod_eq_of_lt d.hb.1 d.hb.2, Int.emod_eq_of_lt d.hc.1 d.hc.2]
    exact d.hi.symm
  all_goals
    rw [meshCoordinates_decode d]
    simp only [translate]
    exact scale_back (by assumption)

/-- Distinct mesh points are not equivalent (in particular have different coordinates). -/
theorem C12_injective (mesh : V3 Int) (offset : V3 Rat) (hm : PosMesh mesh) (i j : Int)
    (hi : 0 ≤ i ∧ i < mesh.x * mesh.y * mesh.z) (hj : 0 ≤ j ∧ j < mesh.x * mesh.y * mesh.z)
    (h : Equivalent (meshCoordinates mesh offset i) (meshCoordinates mesh offset j)) : i = j := by
  obtain ⟨g, hg⟩ := h
  have a := C12_lookup mesh offset hm i hi ⟨0, 0, 0⟩
  have b := C12_lookup mesh offset hm j hj g
  rw [← hg] at b
  simp only [translate, Int.cast_zero, add_zero] at a
  rw [← a, ← b]

/-- Every point commensurate with the mesh is found at an in-range index whose coordinates are equivalent to
it: the mesh covers all commensurate points. -/
theorem C12_complete (mesh : V3 Int) (offset : V3 Rat) (hm : PosMesh mesh) (n : V3 Int) (p : V3 Rat)
    (hp : p = ⟨(n.x : Rat) / mesh.x + offset.x, (n.y : Rat) / mesh.y + offset.y,
      (n.z : Rat) / mesh.z + offset.z⟩) :
    0 ≤ isPointStoredMesh mesh offset p ∧ isPointStoredMesh mesh offset p < mesh.x * mesh.y * mesh.z ∧
    Equivalent p (meshCoordinates mesh offset (isPointStoredMesh mesh offset p)) := by
  obtain ⟨h1, h2, h3⟩ := hm
  have key : ∀ {m k : Int} {o : Rat}, 0 < m → ((k : Rat) / m + o - o) * m = k := by
    intro m k o hm
    have := scale_back (m := m) (n := k) (g := 0) (o := o) hm
    simpa using this
  have hv : isPointStoredMesh mesh offset p = n.z % mesh.z * mesh.x * mesh.y + n.y % mesh.y * mesh.x + n.x % mesh.x := by
    rw [isPointStoredMesh_int mesh offset p n.x n.y n.z h1 h2 h3 (by rw [hp]; exact key h1)
      (by rw [hp]; exact key h2) (by rw [hp]; exact key h3)]
  have d : Decode mesh (isPointStoredMesh mesh offset p) (n.x % mesh.x) (n.y % mesh.y) (n.z % mesh.z) :=
    ⟨⟨Int.emod_nonneg _ (by omega), Int.emod_lt_of_pos _ h1⟩,
     ⟨Int.emod_nonneg _ (by omega), Int.emod_lt_of_pos _ h2⟩,
     ⟨Int.emod_nonneg _ (by omega), Int.emod_lt_of_pos _ h3⟩, hv⟩
  refine ⟨d.bounds.1, d.bounds.2, ⟨n.x / mesh.x, n.y / mesh.y, n.z / mesh.z⟩, ?_⟩
  rw [meshCoordinates_decode d, hp]
  have key2 : ∀ {m k : Int} {o : Rat}, 0 < m →
      (k : Rat) / m + o = ((k % m : Int) : Rat) / m + o + ((k / m : Int) : Rat) := by
    intro m k o hm
    have hm' : (m : Rat) ≠ 0 := by exact_mod_cast hm.ne'
    have e : (k : Rat) = m * ((k / m : Int) : Rat) + ((k % m : Int) : Rat) := by
      exact_mod_cast (Int.mul_ediv_add_emod k m).symm
    field_simp
    rw [e]; ring
  simp only [translate, V3.mk.injEq]
  exact ⟨key2 h1, key2 h2, key2 h3⟩

example : isPointStoredMesh ⟨2, 3, 4⟩ ⟨0, 0, 0⟩ (meshCoordinates ⟨2, 3, 4⟩ ⟨0, 0, 0⟩ 17) = 17 :=
  by simpa [translate] using C12_lookup ⟨2, 3, 4⟩ ⟨0, 0, 0⟩ (by simp [PosMesh]) 17 (by simp) ⟨0, 0, 0⟩

/-! ## C13 off-mesh points -/

/-- The full C13 is violated: on the 1x1x1 mesh the point (2/5, 0, 0), far from every mesh point, is
reported as stored (index 0), because the rounding errors are added with their sign. -/
theorem C13_violated :
    ∃ (mesh : V3 Int) (offset p : V3 Rat), PosMesh mesh ∧
      (∀ i, 0 ≤ i → i < mesh.x * mesh.y * mesh.z →
        ∀ g : V3 Int, 2 / 5 ≤ |p.x - (translate (meshCoordinates mesh offset i) g).x|) ∧
      isPointStoredMesh mesh offset p = 0 := by
  refine ⟨⟨1, 1, 1⟩, ⟨0, 0, 0⟩, ⟨2 / 5, 0, 0⟩, by simp [PosMesh], ?_, ?_⟩
  · intro i h1 h2 g
    have : i = 0 := by simp at h2; omega
    subst this
    simp only [translate, meshCoordinates, imod]
    norm_num
    rcases le_or_gt g.x 0 with h | h
    · have h' : (g.x : Rat) ≤ 0 := by exact_mod_cast h
      rw [abs_of_nonneg (by linarith)]; linarith
    · have h' : (1 : Rat) ≤ g.x := by exact_mod_cast h
      rw [abs_of_nonpos (by linarith)]; linarith
  · simp [isPointStoredMesh, cround, imod, eps6]; norm_num

/-- Part of C13 that holds: if no component is rounded down and the total distance to the mesh is at least
the tolerance, the point is rejected.  Missing: points with some component rounded down. -/
theorem C13_reject_partial (mesh : V3 Int) (offset p : V3 Rat)
    (hx : (p.x - offset.x) * mesh.x ≤ cround ((p.x - offset.x) * mesh.x))
    (hy : (p.y - offset.y) * mesh.y ≤ cround ((p.y - offset.y) * mesh.y))
    (hz : (p.z - offset.z) * mesh.z ≤ cround ((p.z - offset.z) * mesh.z))
    (hd : eps6 ≤ |cround ((p.x - offset.x) * mesh.x) - (p.x - offset.x) * mesh.x| +
      |cround ((p.y - offset.y) * mesh.y) - (p.y - offset.y) * mesh.y| +
      |cround ((p.z - offset.z) * mesh.z) - (p.z - offset.z) * mesh.z|) :
    isPointStoredMesh mesh offset p = -1 := by
  rw [abs_of_nonneg (by linarith), abs_of_nonneg (by linarith), abs_of_nonneg (by linarith)] at hd
  unfold isPointStoredMesh
  simp only
  rw [if_pos hd]

example : isPointStoredMesh ⟨1, 1, 1⟩ ⟨0, 0, 0⟩ ⟨3 / 5, 0, 0⟩ = -1 := by
  apply C13_reject_partial <;> simp [cround, eps6] <;> norm_num

/-! ## C14 offset validation -/

/-- The full C14 is violated: every offset whatsoever is accepted, for instance -1/2 and 3/2. -/
theorem C14_violated (mesh : V3 Int) (offset : V3 Rat) (hm : PosMesh mesh) :
    (setMesh mesh offset).isOk = true := by
  obtain ⟨h1, h2, h3⟩ := hm
  unfold setMesh
  rw [if_neg (by omega), if_neg (by omega), if_neg (by omega), if_neg (fun h => by linarith [h.1, h.2]),
    if_neg (fun h => by linarith [h.1, h.2]), if_neg (fun h => by linarith [h.1, h.2])]
  rfl

/-- Part of C14 that holds: non-positive mesh dimensions are rejected.  Missing: rejection of bad offsets. -/
theorem C14_bad_mesh_partial (mesh : V3 Int) (offset : V3 Rat) (hm : ¬ PosMesh mesh) :
    setMesh mesh offset = .error := by
  unfold setMesh
  unfold PosMesh at hm
  by_cases h1 : mesh.x ≤ 0
  · rw [if_pos h1]
  · rw [if_neg h1]
    by_cases h2 : mesh.y ≤ 0
    · rw [if_pos h2]
    · rw [if_neg h2, if_pos (by omega)]

example : ¬ PosMesh ⟨2, 0, 2⟩ := by simp [PosMesh]

/-! ## C15 filtered point lists -/

/-- Offsets for which every mesh coordinate stays in `[0, 1)` (with the code's tolerance): the offset is
smaller than one mesh spacing. -/
def SmallOffset (mesh : V3 Int) (offset : V3 Rat) : Prop :=
  (0 ≤ offset.x ∧ offset.x + eps8 < 1 / mesh.x) ∧ (0 ≤ offset.y ∧ offset.y + eps8 < 1 / mesh.y) ∧
  (0 ≤ offset.z ∧ offset.z + eps8 < 1 / mesh.z)

/-- Meshes coarse enough for the tolerances of the lookup in a sorted list. -/
def CoarseMesh (mesh : V3 Int) : Prop := mesh.x < 1000 ∧ mesh.y < 1000 ∧ mesh.z < 1000

/-- Meshes coarse enough for the tolerance of the lookup in an unsorted list. -/
def CoarserMesh (mesh : V3 Int) : Prop := mesh.x ≤ 316 ∧ mesh.y ≤ 316 ∧ mesh.z ≤ 316

/-- Restricting a mesh to a filter of distinct in-range indices that is ascending, or that the code itself
detects as unsorted: the stored points are those of the filter in order; looking up any mesh point (or
translate) returns its position in the filter, or -1 if it is not in the filter.
Missing with respect to C15: unsorted filters not detected as such, offsets larger than the mesh spacing, and
filters of full length that are not the identity: the claim is false for these (`C15_violated_*`); meshes with
1000 points per direction or more (`C15_violated_fine`), or more than 316 if the list is not sorted. -/
theorem C15_filter_partial (mesh : V3 Int) (offset : V3 Rat) (hm : PosMesh mesh) (hc : CoarseMesh mesh)
    (ho : SmallOffset mesh offset) (s s' : Points) (hs : setMesh mesh offset = .ok s)
    (filter : List Int) (hr : ∀ i ∈ filter, 0 ≤ i ∧ i < mesh.x * mesh.y * mesh.z)
    (hlen : (filter.length : Int) < mesh.x * mesh.y * mesh.z)
    (hs' : s.setActiveLayer filter = .ok s')
    (hsort : filter.Pairwise (· < ·) ∨ (filter.Nodup ∧ s'.isPointsListSorted = false ∧ CoarserMesh mesh)) :
    s'.numPoints = filter.length ∧
    (∀ (k : Nat) (i : Int), filter[k]? = some i → s'.getPointCoordinates k = .ok (meshCoordinates mesh offset i)) ∧
    (∀ i, 0 ≤ i → i < mesh.x * mesh.y * mesh.z → ∀ g : V3 Int,
      (∀ k : Nat, filter[k]? = some i →
        s'.isPointStored (translate (meshCoordinates mesh offset i) g) = .ok (k : Int)) ∧
      (i ∉ filter → s'.isPointStored (translate (meshCoordinates mesh offset i) g) = .ok (-1))) := by
  obtain ⟨h1, h2, h3⟩ := hm
  obtain ⟨c1, c2, c3⟩ := hc
  obtain ⟨o1, o2, o3⟩ := ho
  -- the mesh object
  have hsv := hs
  unfold setMesh at hsv
  rw [if_neg (by omega), if_neg (by omega), if_neg (by omega), if_neg (fun h => by linarith [h.1, h.2]),
    if_neg (fun h => by linarith [h.1, h.2]), if_neg (fun h => by linarith [h.1, h.2])] at hsv
  cases hsv
  -- the filtered object
  have hN : 0 < mesh.x * mesh.y * mesh.z := mul_pos (mul_pos h1 h2) h3
  unfold Points.setActiveLayer at hs'
  have hne : ¬ (filter.length = (mesh.x * mesh.y * mesh.z).toNat) := by omega
  have hany : filter.any (fun ik => decide (ik < 0)) = false := by
    rw [List.any_eq_false]; intro i hi; have := (hr i hi).1; simp; omega
  simp only [hne, if_false, hany, Bool.false_eq_true] at hs'
  rw [if_neg (by omega), if_neg (by omega)] at hs'
  cases hs'
  have hdec : ∀ i, 0 ≤ i → i < mesh.x * mesh.y * mesh.z → ∃ a b c, Decode mesh i a b c :=
    fun i a b => exists_decode h1 h2 h3 a b
  refine ⟨rfl, ?_, ?_⟩
  · intro k i hk
    obtain ⟨hk1, hk2⟩ := List.getElem?_eq_some_iff.mp hk
    unfold Points.getPointCoordinates
    simp only [if_true, List.length_map]
    rw [if_pos (by omega), Int.toNat_natCast, coordAt_map hk1, hk2]
  · intro i hi1 hi2 g
    obtain ⟨a, b, c, d⟩ := hdec i hi1 hi2
    have hfold : (⟨fold1 (translate (meshCoordinates mesh offset i) g).x,
        fold1 (translate (meshCoordinates mesh offset i) g).y,
        fold1 (translate (meshCoordinates mesh offset i) g).z⟩ : V3 Rat) = meshCoordinates mesh offset i := by
      rw [meshCoordinates_decode d]
      simp only [translate]
      rw [fold1_mesh d.ha.1 d.ha.2 o1.1 o1.2, fold1_mesh d.hb.1 d.hb.2 o2.1 o2.2,
        fold1_mesh d.hc.1 d.hc.2 o3.1 o3.2]
    have hinj : ∀ k, k < filter.length →
        coordAt (filter.map (meshCoordinates mesh offset)) k = meshCoordinates mesh offset i →
        filter[k]? = some i := by
      intro k hk he
      rw [coordAt_map hk] at he
      have hmem := hr _ (List.getElem_mem hk)
      have := C12_injective mesh offset ⟨h1, h2, h3⟩ _ i hmem ⟨hi1, hi2⟩
        ⟨⟨0, 0, 0⟩, by rw [he]; simp [translate]⟩
      rw [List.getElem?_eq_getElem hk, this]
    by_cases hflag : sortedFlag (filter.map (meshCoordinates mesh offset)) = true
    · -- binary search
      have hasc : filter.Pairwise (· < ·) := by
        rcases hsort with h | ⟨_, h, _⟩
        · exact h
        · simp only at h; rw [hflag] at h; exact absurd h (by simp)
      have hlex : LexSorted (filter.map (meshCoordinates mesh offset)) := by
        intro p q hpq hq
        simp only [List.length_map] at hq
        rw [coordAt_map hq, coordAt_map (by omega)]
        have hlt : filter[p] < filter[q] := List.pairwise_iff_getElem.mp hasc p q (by omega) hq hpq
        obtain ⟨_, _, _, d1⟩ := hdec _ (hr _ (List.getElem_mem (by omega : p < filter.length))).1
          (hr _ (List.getElem_mem _)).2
        obtain ⟨_, _, _, d2⟩ := hdec _ (hr _ (List.getElem_mem hq)).1 (hr _ (List.getElem_mem _)).2
        exact coords_lexLt d1 d2 hlt
      have hsep : Separated (filter.map (meshCoordinates mesh offset)) (meshCoordinates mesh offset i) := by
        intro q hq
        simp only [List.length_map] at hq
        rw [coordAt_map hq]
        obtain ⟨_, _, _, d2⟩ := hdec _ (hr _ (List.getElem_mem hq)).1 (hr _ (List.getElem_mem _)).2
        rw [meshCoordinates_decode d, meshCoordinates_decode d2]
        exact ⟨sep_div h1 (by omega), sep_div h2 (by omega), sep_div h3 (by omega)⟩
      obtain ⟨hf1, hf2⟩ := pointsBinarySearch_spec hlex hsep
      unfold Points.isPointStored
      simp only [if_true, hflag, hfold]
      refine ⟨fun k hk => ?_, fun hno => ?_⟩
      · obtain ⟨hk1, hk2⟩ := List.getElem?_eq_some_iff.mp hk
        exact hf1 k (by simpa using hk1) (by rw [coordAt_map hk1, hk2])
      · apply hf2
        intro q hq he
        have := hinj q (by simpa using hq) he
        exact hno (List.mem_of_getElem? this)
    · -- linear search
      obtain ⟨hnodup, c1, c2, c3⟩ : filter.Nodup ∧ CoarserMesh mesh := by
        rcases hsort with h | ⟨h, _, h'⟩
        · refine absurd (sortedFlag_lex _ ?_) hflag
          intro p q hpq hq
          simp only [List.length_map] at hq
          rw [coordAt_map hq, coordAt_map (by omega)]
          have hlt : filter[p] < filter[q] := List.pairwise_iff_getElem.mp h p q (by omega) hq hpq
          obtain ⟨_, _, _, d1⟩ := hdec _ (hr _ (List.getElem_mem (by omega : p < filter.length))).1
            (hr _ (List.getElem_mem _)).2
          obtain ⟨_, _, _, d2⟩ := hdec _ (hr _ (List.getElem_mem hq)).1 (hr _ (List.getElem_mem _)).2
          exact coords_lexLt d1 d2 hlt
        · exact ⟨h, h'⟩
      unfold Points.isPointStored
      simp only [if_true, hflag, Bool.false_eq_true, if_false]
      -- matching condition
      have hmatch : ∀ q, q < filter.length →
          ((fold1 ((coordAt (filter.map (meshCoordinates mesh offset)) q).x -
              (translate (meshCoordinates mesh offset i) g).x) *
            fold1 ((coordAt (filter.map (meshCoordinates mesh offset)) q).x -
              (translate (meshCoordinates mesh offset i) g).x) +
            fold1 ((coordAt (filter.map (meshCoordinates mesh offset)) q).y -
              (translate (meshCoordinates mesh offset i) g).y) *
            fold1 ((coordAt (filter.map (meshCoordinates mesh offset)) q).y -
              (translate (meshCoordinates mesh offset i) g).y) +
            fold1 ((coordAt (filter.map (meshCoordinates mesh offset)) q).z -
              (translate (meshCoordinates mesh offset i) g).z) *
            fold1 ((coordAt (filter.map (meshCoordinates mesh offset)) q).z -
              (translate (meshCoordinates mesh offset i) g).z) < eps5) ↔ filter[q]? = some i) := by
        intro q hq
        rw [coordAt_map hq, List.getElem?_eq_getElem hq, Option.some.injEq]
        have hmem := hr _ (List.getElem_mem hq)
        obtain ⟨a', b', c', d'⟩ := hdec _ hmem.1 hmem.2
        rw [meshCoordinates_decode d, meshCoordinates_decode d']
        simp only [translate]
        obtain ⟨x1, x2⟩ := fold1_diff (o := offset.x) (g := g.x) d'.ha.1 d'.ha.2 d.ha.1 d.ha.2 c1
        obtain ⟨y1, y2⟩ := fold1_diff (o := offset.y) (g := g.y) d'.hb.1 d'.hb.2 d.hb.1 d.hb.2 c2
        obtain ⟨z1, z2⟩ := fold1_diff (o := offset.z) (g := g.z) d'.hc.1 d'.hc.2 d.hc.1 d.hc.2 c3
        have nx := mul_self_nonneg (fold1 ((a' : Rat) / mesh.x + offset.x - ((a : Rat) / mesh.x + offset.x + g.x)))
        have ny := mul_self_nonneg (fold1 ((b' : Rat) / mesh.y + offset.y - ((b : Rat) / mesh.y + offset.y + g.y)))
        have nz := mul_self_nonneg (fold1 ((c' : Rat) / mesh.z + offset.z - ((c : Rat) / mesh.z + offset.z + g.z)))
        constructor
        · intro hlt
          by_cases ea : a' = a
          · by_cases eb : b' = b
            · by_cases ec : c' = c
              · rw [d'.hi, d.hi, ea, eb, ec]
              · linarith [z2 ec]
            · linarith [y2 eb]
          · linarith [x2 ea]
        · intro he
          have hab := C12_injective
          rcases Int.lt_trichotomy filter[q] i with hlt | _ | hlt
          · omega
          · have e1 := d'.hi
            have e2 := d.hi
            have key : a' = a ∧ b' = b ∧ c' = c := by
              have hx := meshCoordinates_decode (offset := ⟨0, 0, 0⟩) d
              have hx' := meshCoordinates_decode (offset := ⟨0, 0, 0⟩) d'
              rw [he, hx] at hx'
              simp only [V3.mk.injEq, add_zero] at hx'
              have conv : ∀ {u v m : Int}, 0 < m → (u : Rat) / m = (v : Rat) / m → v = u := by
                intro u v m hm h
                have hm' : (m : Rat) ≠ 0 := by exact_mod_cast hm.ne'
                have := (div_left_inj' hm').mp h
                exact_mod_cast this.symm
              exact ⟨conv h1 hx'.1, conv h2 hx'.2.1, conv h3 hx'.2.2⟩
            rw [x1 key.1, y1 key.2.1, z1 key.2.2]; norm_num [eps5]
          · omega
      have hl := foldl_last (P := fun q => (fold1 ((coordAt (filter.map (meshCoordinates mesh offset)) q).x -
              (translate (meshCoordinates mesh offset i) g).x) *
            fold1 ((coordAt (filter.map (meshCoordinates mesh offset)) q).x -
              (translate (meshCoordinates mesh offset i) g).x) +
            fold1 ((coordAt (filter.map (meshCoordinates mesh offset)) q).y -
              (translate (meshCoordinates mesh offset i) g).y) *
            fold1 ((coordAt (filter.map (meshCoordinates mesh offset)) q).y -
              (translate (meshCoordinates mesh offset i) g).y) +
            fold1 ((coordAt (filter.map (meshCoordinates mesh offset)) q).z -
              (translate (meshCoordinates mesh offset i) g).z) *
            fold1 ((coordAt (filter.map (meshCoordinates mesh offset)) q).z -
              (translate (meshCoordinates mesh offset i) g).z) < eps5)) filter.length
      obtain ⟨l1, l2⟩ := hl
      unfold linearSearch
      simp only [List.length_map]
      refine ⟨fun k hk => ?_, fun hno => ?_⟩
      · obtain ⟨hk1, hk2⟩ := List.getElem?_eq_some_iff.mp hk
        have := l1 k hk1 ((hmatch k hk1).mpr hk) (fun q hq hP => by
          have := (hmatch q hq).mp hP
          obtain ⟨_, e⟩ := List.getElem?_eq_some_iff.mp this
          exact (List.getElem_inj hnodup).mp (e.trans hk2.symm))
        exact congrArg Outcome.ok this
      · have := l2 (fun q hq hP => hno (List.mem_of_getElem? ((hmatch q hq).mp hP)))
        exact congrArg Outcome.ok this

/-- The hypotheses of `C15_filter_partial` are met by a sorted filter on a 2x2x2 mesh with zero offset. -/
example : ∃ s s', setMesh ⟨2, 2, 2⟩ ⟨0, 0, 0⟩ = .ok s ∧ s.setActiveLayer [1, 4, 6] = .ok s' ∧
    PosMesh ⟨2, 2, 2⟩ ∧ CoarseMesh ⟨2, 2, 2⟩ ∧ SmallOffset ⟨2, 2, 2⟩ ⟨0, 0, 0⟩ ∧
    ([1, 4, 6] : List Int).Pairwise (· < ·) := by
  refine ⟨_, _, rfl, rfl, by simp [PosMesh], by simp [CoarseMesh], ?_, by decide⟩
  norm_num [SmallOffset, eps8]

/-- A filter with as many entries as the mesh has points, ascending and in range: the stored points are those
of the filter, in order, and every mesh point (or translate) is found at its position. -/
theorem C15_full_filter_partial (mesh : V3 Int) (offset : V3 Rat) (hm : PosMesh mesh) (s s' : Points)
    (hs : setMesh mesh offset = .ok s) (filter : List Int)
    (hr : ∀ i ∈ filter, 0 ≤ i ∧ i < mesh.x * mesh.y * mesh.z)
    (hasc : filter.Pairwise (· < ·)) (hlen : (filter.length : Int) = mesh.x * mesh.y * mesh.z)
    (hs' : s.setActiveLayer filter = .ok s') :
    s'.numPoints = filter.length ∧
    ∀ (k : Nat) (i : Int), filter[k]? = some i →
      s'.getPointCoordinates k = .ok (meshCoordinates mesh offset i) ∧
      ∀ g : V3 Int, s'.isPointStored (translate (meshCoordinates mesh offset i) g) = .ok (k : Int) := by
  have hid : ∀ (k : Nat) (hk : k < filter.length), filter[k] = (k : Int) := by
    have hp := List.pairwise_iff_getElem.mp hasc
    have lo : ∀ (k : Nat) (hk : k < filter.length), (k : Int) ≤ filter[k] := by
      intro k
      induction k with
      | zero => intro hk; exact_mod_cast (hr _ (List.getElem_mem hk)).1
      | succ k ih =>
        intro hk
        have := ih (by omega)
        have := hp k (k + 1) (by omega) hk (by omega)
        push_cast; omega
    have hi : ∀ (d k : Nat) (hk : k < filter.length), filter.length = k + 1 + d → filter[k] ≤ (k : Int) := by
      intro d
      induction d with
      | zero => intro k hk he; have := (hr _ (List.getElem_mem hk)).2; omega
      | succ d ih =>
        intro k hk he
        have := ih (k + 1) (by omega) (by omega)
        have := hp k (k + 1) (by omega) (by omega) (by omega)
        omega
    intro k hk
    exact le_antisymm (hi (filter.length - (k + 1)) k hk (by omega)) (lo k hk)
  obtain ⟨h1, h2, h3⟩ := hm
  have hsv := hs
  unfold setMesh at hsv
  rw [if_neg (by omega), if_neg (by omega), if_neg (by omega), if_neg (fun h => by linarith [h.1, h.2]),
    if_neg (fun h => by linarith [h.1, h.2]), if_neg (fun h => by linarith [h.1, h.2])] at hsv
  cases hsv
  unfold Points.setActiveLayer at hs'
  rw [if_pos (by simp only; omega)] at hs'
  cases hs'
  refine ⟨by simp only; omega, ?_⟩
  intro k i hk
  obtain ⟨hk1, hk2⟩ := List.getElem?_eq_some_iff.mp hk
  have e : i = (k : Int) := by rw [← hk2]; exact hid k hk1
  subst e
  refine ⟨rfl, fun g => ?_⟩
  unfold Points.isPointStored
  simp only [Bool.false_eq_true, if_false]
  exact congrArg Outcome.ok (C12_lookup mesh offset ⟨h1, h2, h3⟩ k ⟨by omega, by omega⟩ g)

example : (do let s ← setMesh ⟨2, 1, 1⟩ ⟨1 / 2, 0, 0⟩
              let s' ← s.setActiveLayer [0, 1]
              s'.getPointCoordinates 1) = .ok ⟨1, 0, 0⟩ := by decide +kernel

/-- A filter with a negative index is refused, and a filter of in-range indices is accepted (filters with as many
entries as the mesh has points are not looked at, see `C15_violated_permutation`). -/
theorem C15_negative_partial (mesh : V3 Int) (offset : V3 Rat) (hm : PosMesh mesh) (s : Points)
    (hs : setMesh mesh offset = .ok s) (filter : List Int) (hlen : (filter.length : Int) ≠ mesh.x * mesh.y * mesh.z) :
    ((∃ i ∈ filter, i < 0) → s.setActiveLayer filter = .error) ∧
    ((∀ i ∈ filter, 0 ≤ i) → ∃ s', s.setActiveLayer filter = .ok s') := by
  obtain ⟨h1, h2, h3⟩ := hm
  have hp : 0 < mesh.x * mesh.y * mesh.z := Int.mul_pos (Int.mul_pos h1 h2) h3
  unfold setMesh at hs
  rw [if_neg (by omega), if_neg (by omega), if_neg (by omega), if_neg (by rintro ⟨a, b⟩; linarith),
    if_neg (by rintro ⟨a, b⟩; linarith), if_neg (by rintro ⟨a, b⟩; linarith)] at hs
  simp only [Outcome.ok.injEq] at hs
  subst hs
  unfold Points.setActiveLayer
  have hl : ¬ filter.length = (mesh.x * mesh.y * mesh.z).toNat := by omega
  constructor
  · rintro ⟨i, hi, hneg⟩
    simp only
    rw [if_neg hl, if_pos (List.any_eq_true.mpr ⟨i, hi, by simpa using hneg⟩)]
  · intro hnn
    simp only
    rw [if_neg hl, if_neg, if_neg (by omega), if_neg (by omega)]
    · exact ⟨_, rfl⟩
    · intro h
      obtain ⟨i, hi, h'⟩ := List.any_eq_true.mp h
      have := hnn i hi
      simp at h'; omega

example : ∃ s, setMesh ⟨2, 2, 2⟩ ⟨0, 0, 0⟩ = .ok s ∧ s.setActiveLayer [1, -4, 6] = .error := ⟨_, rfl, rfl⟩

/-- C15 is violated for unsorted filters: on the 1x2x2 mesh the filter [2, 1] (z=1/2,y=0 then z=0,y=1/2) is
not detected as unsorted, and the binary search does not find the stored point number 1. -/
theorem C15_violated_unsorted :
    ∃ s s', setMesh ⟨1, 2, 2⟩ ⟨0, 0, 0⟩ = .ok s ∧ s.setActiveLayer [2, 1] = .ok s' ∧
      s'.isPointsListSorted = true ∧
      ∃ p, s'.getPointCoordinates 1 = .ok p ∧ s'.isPointStored p = .ok (-1) := by
  refine ⟨_, _, rfl, rfl, ?_, _, rfl, ?_⟩ <;> decide +kernel

/-- C15 is violated for offsets larger than the mesh spacing: mesh 2x1x1 with offset 1/2 stores the point
x = 1 which is folded to x = 0 by the lookup and not found. -/
theorem C15_violated_offset :
    (do let s ← setMesh ⟨2, 1, 1⟩ ⟨1 / 2, 0, 0⟩
        let s' ← s.setActiveLayer [1]
        let p ← s'.getPointCoordinates 0
        s'.isPointStored p) = .ok (-1) := by
  decide +kernel

/-- C15 is violated for meshes with more than 1000 points along a direction: the lookup of a stored point fails. -/
theorem C15_violated_fine :
    (do let s ← setMesh ⟨1, 1, 1001⟩ ⟨0, 0, 0⟩
        let s' ← s.setActiveLayer [0, 1]
        let p ← s'.getPointCoordinates 1
        s'.isPointStored p) = .error := by
  decide +kernel

/-- C15 is violated for a filter of full length that is not the identity: it is ignored. -/
theorem C15_violated_permutation :
    ∃ s s', setMesh ⟨2, 1, 1⟩ ⟨0, 0, 0⟩ = .ok s ∧ s.setActiveLayer [1, 0] = .ok s' ∧
      s'.getPointCoordinates 0 ≠ s.getPointCoordinates 1 := by
  refine ⟨_, _, rfl, rfl, ?_⟩
  decide +kernel

/-- C15 is violated for filters that leave the mesh: index 7 of a 2x1x1 mesh is accepted. -/
theorem C15_violated_range :
    ∃ s, setMesh ⟨2, 1, 1⟩ ⟨0, 0, 0⟩ = .ok s ∧ (s.setActiveLayer [7]).isOk = true := by
  refine ⟨_, rfl, ?_⟩
  decide +kernel

/-! ## C16 Brillouin-zone folding -/

/-- Folding to the box changes the point by a reciprocal lattice vector, puts its coordinates in the
half-open unit interval (up to the tolerance 1e-8), and is idempotent. -/
theorem C16_fold (p : V3 Rat) :
    Equivalent (foldToBz p) p ∧
    (-eps8 ≤ (foldToBz p).x ∧ (foldToBz p).x < 1 - eps8) ∧
    (-eps8 ≤ (foldToBz p).y ∧ (foldToBz p).y < 1 - eps8) ∧
    (-eps8 ≤ (foldToBz p).z ∧ (foldToBz p).z < 1 - eps8) ∧
    foldToBz (foldToBz p) = foldToBz p := by
  have key : ∀ x : Rat, -eps8 ≤ fold1 x ∧ fold1 x < 1 - eps8 := by
    intro x
    have a := Int.floor_le (x + eps8)
    have b := Int.lt_floor_add_one (x + eps8)
    unfold fold1
    constructor <;> linarith
  have idem : ∀ x : Rat, fold1 (fold1 x) = fold1 x := by
    intro x
    obtain ⟨a, b⟩ := key x
    have : ⌊fold1 x + eps8⌋ = 0 := by
      rw [Int.floor_eq_iff]; push_cast; constructor <;> linarith
    have e : fold1 (fold1 x) = fold1 x - (⌊fold1 x + eps8⌋ : Int) := rfl
    rw [e, this]
    simp
  refine ⟨⟨⟨-⌊p.x + eps8⌋, -⌊p.y + eps8⌋, -⌊p.z + eps8⌋⟩, ?_⟩, key _, key _, key _, ?_⟩
  · simp only [foldToBz, fold1, translate, V3.mk.injEq]
    push_cast
    exact ⟨by ring, by ring, by ring⟩
  · simp only [foldToBz, idem]

/-- Folding to the Wigner-Seitz cell also changes the point only by a reciprocal lattice vector, for every
cell. -/
theorem C16_wigner_seitz_equivalent (B : M3) (p : V3 Rat) : Equivalent (bzToWs B p) p := by
  obtain ⟨⟨g, hg⟩, _⟩ := C16_fold p
  unfold bzToWs
  simp only
  generalize wsLoop B _ _ _ _ = w
  refine ⟨⟨g.x + w.x, g.y + w.y, g.z + w.z⟩, ?_⟩
  rw [hg]
  simp only [translate, V3.add, V3.cast, V3.mk.injEq]
  push_cast
  exact ⟨by ring, by ring, by ring⟩

example : foldToBz ⟨-1 / 4, 5 / 4, 0⟩ = ⟨3 / 4, 1 / 4, 0⟩ := by decide +kernel

/-! ## C17 shortest image -/

/-- Squared Cartesian length of a point given in crystal coordinates. -/
def len2 (B : M3) (p : V3 Rat) : Rat := (B.mulVec p).norm2

/-- The full C17 is violated: for a (very skewed) cell the image translated by (1,1,1) is shorter than the
returned one, because lattice vectors with three positive components are never tried. -/
theorem C17_violated :
    ∃ (B : M3) (p : V3 Rat), len2 B (translate (foldToBz p) ⟨1, 1, 1⟩) < len2 B (bzToWs B p) := by
  refine ⟨⟨⟨-19 / 10, 1, 0⟩, ⟨-19 / 10, 0, 1⟩, ⟨1 / 100, 0, 0⟩⟩, ⟨0, 9 / 10, 9 / 10⟩, ?_⟩
  decide +kernel

/-- Every vector with components in {-2,..,2} that are not all positive is tried. -/
private theorem gVectors_mem (g : V3 Int) (hx : -2 ≤ g.x ∧ g.x ≤ 2) (hy : -2 ≤ g.y ∧ g.y ≤ 2)
    (hz : -2 ≤ g.z ∧ g.z ≤ 2) (hpos : ¬ (0 < g.x ∧ 0 < g.y ∧ 0 < g.z)) : g ∈ gVectors.tail := by
  obtain ⟨x, y, z⟩ := g
  simp only at hx hy hz hpos
  have ex : x = -2 ∨ x = -1 ∨ x = 0 ∨ x = 1 ∨ x = 2 := by omega
  have ey : y = -2 ∨ y = -1 ∨ y = 0 ∨ y = 1 ∨ y = 2 := by omega
  have ez : z = -2 ∨ z = -1 ∨ z = 0 ∨ z = 1 ∨ z = 2 := by omega
  unfold gVectors
  simp only [List.cons_append, List.tail_cons, List.mem_append, List.mem_flatMap, List.mem_filterMap,
    List.mem_cons, List.not_mem_nil, or_false]
  left
  refine ⟨x, ex, y, ey, z, ez, ?_⟩
  rw [if_pos (by omega)]

/-- What the code does guarantee, for every cell: the returned image is, within 4e-8, at least as short as the
translation of the folded point by every lattice vector with components in {-2,..,2} that are not all three
positive (`L` is any upper bound of the length of that translation).  Missing with respect to C17: the 8
all-positive vectors, where the claim is false (`C17_violated`). -/
theorem C17_shortest_partial (B : M3) (p : V3 Rat) (g : V3 Int)
    (hx : -2 ≤ g.x ∧ g.x ≤ 2) (hy : -2 ≤ g.y ∧ g.y ≤ 2) (hz : -2 ≤ g.z ∧ g.z ≤ 2)
    (hpos : ¬ (0 < g.x ∧ 0 < g.y ∧ 0 < g.z)) (L : Rat) (hL : 0 ≤ L)
    (hg : len2 B (translate (foldToBz p) g) ≤ L ^ 2) :
    len2 B (bzToWs B p) ≤ (L + 4 * eps8) ^ 2 := by
  obtain ⟨w, hw, hv⟩ := wsLoop_spec B (B.mulVec (foldToBz p)) gVectors.tail
    (B.mulVec (foldToBz p)).norm2 ⟨0, 0, 0⟩
  have hb : bzToWs B p = (foldToBz p).add w.cast := by
    unfold bzToWs; simp only; rw [hw]
  have htr : ∀ h : V3 Int, translate (foldToBz p) h = (foldToBz p).add h.cast := fun h => rfl
  have hmul : ∀ h : V3 Int, B.mulVec ((foldToBz p).add h.cast) =
      (B.mulVec (foldToBz p)).add (B.mulVec h.cast) := fun h => mulVec_add _ _ _
  rw [len2, htr, hmul] at hg
  rw [len2, hb, hmul]
  have he : (0 : Rat) < eps8 := by norm_num [eps8]
  obtain ⟨v, h1, h2, h3⟩ := hv
  have hshift := norm2_shift _ L eps8 hL he.le hg
  have hv2 : v ≤ (L + 2 * eps8) ^ 2 := le_trans (h3 g (gVectors_mem g hx hy hz hpos)) hshift
  rcases h1 with ⟨hw0, hv0⟩ | h1
  · rw [hw0]
    have e0 : (B.mulVec (foldToBz p)).add (B.mulVec (V3.cast ⟨0, 0, 0⟩)) = B.mulVec (foldToBz p) := by
      simp [V3.add, M3.mulVec, V3.cast, V3.dot]
    rw [e0, ← hv0]
    refine le_trans hv2 ?_
    have : 0 ≤ L + 2 * eps8 := by linarith
    nlinarith
  · rw [h1] at hv2
    have := norm2_shift_neg _ (L + 2 * eps8) eps8 (by linarith) he.le hv2
    refine le_trans this (le_of_eq (by ring))

/-- The best image differs from the folded one in a simple cubic cell. -/
example : bzToWs ⟨⟨1, 0, 0⟩, ⟨0, 1, 0⟩, ⟨0, 0, 1⟩⟩ ⟨3 / 4, 1 / 4, -1 / 3⟩ = ⟨-1 / 4, 1 / 4, -1 / 3⟩ := by
  decide +kernel

end Verif.Props
