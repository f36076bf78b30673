import Verif.Proofs.ThirdState
import Verif.Props.IrrPoints

/-! # C58: third states of the scattering processes; C59: their cache; C60: batches -/
namespace Verif.Props
open Verif.Model

/-! ## C58 -/

/-- The third wavevectors of a pair of phonons. -/
def thirdOf (q1 q2 : V3 Rat) (plus : Bool) : V3 Rat :=
  if plus then ⟨q1.x + q2.x, q1.y + q2.y, q1.z + q2.z⟩ else ⟨q1.x - q2.x, q1.y - q2.y, q1.z - q2.z⟩

/-- `points` has, on every process, the wavevector `v` (up to a reciprocal lattice vector) at the index returned
by the lookup `found`. -/
def FoundAt (points : Points) (found : Outcome Int) (v : V3 Rat) : Prop :=
  ∃ k : Nat, ∃ p : V3 Rat, found = .ok (k : Int) ∧ k < points.numPoints ∧
    points.getPointCoordinates k = .ok p ∧ Equivalent p v

/-- Phonons with a window.  `inner` is any selection of points of a Gamma-centred mesh.  For every number of
processes, every distribution of the iterations over threads and every order in which threads deliver their sets:
the construction succeeds, all processes get the same points, and for all pairs of selected points and both signs
the third wavevector is found there, on every process.
Missing with respect to C58: meshes with 1000 points or more along a direction (see C15). -/
theorem C58_phonons_partial (mesh : V3 Int) (hm : PosMesh mesh) (hc : CoarseMesh mesh) (full inner : Points)
    (hfull : setMesh mesh ⟨0, 0, 0⟩ = .ok full) (filter : List Int)
    (hr : ∀ i ∈ filter, 0 ≤ i ∧ i < mesh.x * mesh.y * mesh.z) (hinner : full.setActiveLayer filter = .ok inner)
    (size : Nat) (hs : 0 < size) (hfit : inner.numPoints * size < sizeTMod)
    (mine : List (List Nat)) (hlen : mine.length = size)
    (hrun : ∀ r (hr : r < mine.length), ∃ work, divideWorkIter inner.numPoints r size = .ok work ∧
      RegionRun full (phThirdVectors inner) inner.numPoints work mine[r]) :
    ∃ P, thirdPoints full mine = .ok (List.replicate size P) ∧
      ∀ i j, i < inner.numPoints → j < inner.numPoints → ∃ q1 q2,
        inner.getPointCoordinates i = .ok q1 ∧ inner.getPointCoordinates j = .ok q2 ∧
        ∀ plus, FoundAt P (phThird P q1 q2 plus) (thirdOf q1 q2 plus) := by
  have hcom := fun i hi => filtered_commensurate hm hfull hr hinner i hi
  have hinh : Inhabited (V3 Rat) := ⟨⟨0, 0, 0⟩⟩
  choose! c hc1 hc2 using hcom
  obtain ⟨work, hw1, hw2⟩ := C06_partition inner.numPoints size hs hfit
  have hV : ∀ i j, i < inner.numPoints → j < inner.numPoints →
      phThirdVectors inner i j = .ok [(c j).add (c i), (c j).sub (c i)] ∧
      ∀ v ∈ [(c j).add (c i), (c j).sub (c i)], Commensurate mesh v := by
    intro i j hi hj
    constructor
    · unfold phThirdVectors
      simp only [Outcome.bind_eq]
      rw [hc1 j hj, Outcome.bind_ok, hc1 i hi, Outcome.bind_ok]
    · intro v hv
      simp only [List.mem_cons, List.not_mem_nil, or_false] at hv
      rcases hv with rfl | rfl
      · exact commensurate_add (hc2 j hj) (hc2 i hi)
      · exact commensurate_sub (hc2 j hj) (hc2 i hi)
  obtain ⟨P, _, h2, h3⟩ := thirdPoints_spec hm hc hfull hV hw2 hlen (fun r hr => by
    obtain ⟨w, e1, e2⟩ := hrun r hr
    rw [hw1 r (by omega)] at e1
    cases e1
    exact e2)
  refine ⟨P, h2, fun i j hi hj => ⟨c i, c j, hc1 i hi, hc1 j hj, ?_⟩⟩
  rintro (_ | _)
  · exact h3 j i hj hi _ (by simp)
  · exact h3 j i hj hi _ (by simp)

/-- Electrons with a window: the phonon wavevector `k2 - k1` of every pair of selected points is found.  `rots i`
are the rotations of the star of point `i`; the identity is among them (`C58_star_identity`), and they map the
mesh on itself. -/
theorem C58_electrons_partial (mesh : V3 Int) (hm : PosMesh mesh) (hc : CoarseMesh mesh) (full inner : Points)
    (hfull : setMesh mesh ⟨0, 0, 0⟩ = .ok full) (filter : List Int)
    (hr : ∀ i ∈ filter, 0 ≤ i ∧ i < mesh.x * mesh.y * mesh.z) (hinner : full.setActiveLayer filter = .ok inner)
    (rots : Nat → List M3) (hid : ∀ i < inner.numPoints, M3.one ∈ rots i)
    (hmap : ∀ i < inner.numPoints, ∀ R ∈ rots i, ∀ k, inner.getPointCoordinates i = .ok k →
      ∃ j, (0 ≤ j ∧ j < mesh.x * mesh.y * mesh.z) ∧ Equivalent (R.mulVec k) (meshCoordinates mesh ⟨0, 0, 0⟩ j))
    (size : Nat) (hs : 0 < size) (hfit : inner.numPoints * size < sizeTMod)
    (mine : List (List Nat)) (hlen : mine.length = size)
    (hrun : ∀ r (hr : r < mine.length), ∃ work, divideWorkIter inner.numPoints r size = .ok work ∧
      RegionRun full (elThirdVectors inner rots) inner.numPoints work mine[r]) :
    ∃ P, thirdPoints full mine = .ok (List.replicate size P) ∧
      ∀ i j, i < inner.numPoints → j < inner.numPoints → ∃ k1 k2,
        inner.getPointCoordinates i = .ok k1 ∧ inner.getPointCoordinates j = .ok k2 ∧
        FoundAt P (elThird P k1 k2) (thirdOf k2 k1 false) := by
  have hcom := fun i hi => filtered_commensurate hm hfull hr hinner i hi
  have hinh : Inhabited (V3 Rat) := ⟨⟨0, 0, 0⟩⟩
  choose! c hc1 hc2 using hcom
  obtain ⟨work, hw1, hw2⟩ := C06_partition inner.numPoints size hs hfit
  have htr : ∀ (p q : V3 Rat), Equivalent p q → Commensurate mesh q → Commensurate mesh p := by
    rintro p q ⟨g, rfl⟩ ⟨n, rfl⟩
    obtain ⟨h1, h2, h3⟩ := hm
    refine ⟨⟨n.x + g.x * mesh.x, n.y + g.y * mesh.y, n.z + g.z * mesh.z⟩, ?_⟩
    have key : ∀ (a g m : Int), 0 < m → (a : Rat) / m + g = ((a + g * m : Int) : Rat) / m := by
      intro a g m hm
      have : (m : Rat) ≠ 0 := by exact_mod_cast hm.ne'
      push_cast
      field_simp
    simp only [translate, V3.mk.injEq]
    exact ⟨key _ _ _ h1, key _ _ _ h2, key _ _ _ h3⟩
  have hV : ∀ i j, i < inner.numPoints → j < inner.numPoints →
      elThirdVectors inner rots i j = .ok ((rots i).map fun r => (r.mulVec (c i)).sub (c j)) ∧
      ∀ v ∈ (rots i).map fun r => (r.mulVec (c i)).sub (c j), Commensurate mesh v := by
    intro i j hi hj
    constructor
    · unfold elThirdVectors
      simp only [Outcome.bind_eq]
      rw [hc1 i hi, Outcome.bind_ok, hc1 j hj, Outcome.bind_ok]
    · intro v hv
      obtain ⟨R, hR, rfl⟩ := List.mem_map.mp hv
      obtain ⟨m, hm1, hm2⟩ := hmap i hi R hR (c i) (hc1 i hi)
      exact commensurate_sub (htr _ _ hm2 (commensurate_mesh hm m hm1)) (hc2 j hj)
  obtain ⟨P, _, h2, h3⟩ := thirdPoints_spec hm hc hfull hV hw2 hlen (fun r hr => by
    obtain ⟨w, e1, e2⟩ := hrun r hr
    rw [hw1 r (by omega)] at e1
    cases e1
    exact e2)
  refine ⟨P, h2, fun i j hi hj => ⟨c i, c j, hc1 i hi, hc1 j hj, ?_⟩⟩
  have := h3 j i hj hi ((c j).sub (c i)) (List.mem_map.mpr ⟨M3.one, hid j hj, by rw [one_mulVec]⟩)
  exact this

/-- The parallel region cannot fail: for every distribution of the points over threads, each thread computes its
set (so executions as in `C58_phonons_partial` exist for every schedule). -/
theorem C58_no_failure (mesh : V3 Int) (hm : PosMesh mesh) (full inner : Points)
    (hfull : setMesh mesh ⟨0, 0, 0⟩ = .ok full) (filter : List Int)
    (hr : ∀ i ∈ filter, 0 ≤ i ∧ i < mesh.x * mesh.y * mesh.z) (hinner : full.setActiveLayer filter = .ok inner)
    (chunk : List Nat) (hchunk : ∀ i ∈ chunk, i < inner.numPoints) :
    ∃ s, threadSet full (phThirdVectors inner) inner.numPoints chunk = .ok s := by
  have hcom := fun i hi => filtered_commensurate hm hfull hr hinner i hi
  have hinh : Inhabited (V3 Rat) := ⟨⟨0, 0, 0⟩⟩
  choose! c hc1 hc2 using hcom
  exact ⟨_, threadSet_val (V := fun i j => [(c j).add (c i), (c j).sub (c i)]) hm hfull (fun i j hi hj => by
    constructor
    · unfold phThirdVectors
      simp only [Outcome.bind_eq]
      rw [hc1 j hj, Outcome.bind_ok, hc1 i hi, Outcome.bind_ok]
    · intro v hv
      simp only [List.mem_cons, List.not_mem_nil, or_false] at hv
      rcases hv with rfl | rfl
      · exact commensurate_add (hc2 j hj) (hc2 i hi)
      · exact commensurate_sub (hc2 j hj) (hc2 i hi)) chunk hchunk⟩

/-- Without window the third states are looked up in the full mesh itself: they are always there, for all
meshes. -/
theorem C58_full_mesh (mesh : V3 Int) (hm : PosMesh mesh) (full : Points)
    (hfull : setMesh mesh ⟨0, 0, 0⟩ = .ok full) (i j : Nat) (hi : i < full.numPoints) (hj : j < full.numPoints) :
    ∃ q1 q2, full.getPointCoordinates i = .ok q1 ∧ full.getPointCoordinates j = .ok q2 ∧
      (∀ plus, FoundAt full (phThird full q1 q2 plus) (thirdOf q1 q2 plus)) ∧
      FoundAt full (elThird full q1 q2) (thirdOf q2 q1 false) := by
  obtain ⟨t, e1, _, _, _, e5, _⟩ := setMesh_pos hm
  rw [hfull] at e1; cases e1
  have hb : ∀ k, k < full.numPoints → (0 : Int) ≤ k ∧ (k : Int) < mesh.x * mesh.y * mesh.z := by
    intro k hk; omega
  have c1 := commensurate_mesh hm i (hb i hi)
  have c2 := commensurate_mesh hm j (hb j hj)
  have key : ∀ v, Commensurate mesh v → FoundAt full (full.getIndex v) v := by
    intro v hv
    obtain ⟨m1, m2, m3⟩ := meshIndex_spec hm hv
    refine ⟨meshIndex mesh v, _, full_getIndex hm hfull hv, by omega, full_coordinates hm hfull _, ?_⟩
    exact equivalent_symm m3
  refine ⟨_, _, full_coordinates hm hfull i, full_coordinates hm hfull j, ?_, key _ (commensurate_sub c2 c1)⟩
  rintro (_ | _)
  · exact key _ (commensurate_sub c1 c2)
  · exact key _ (commensurate_add c1 c2)

/-- Among the rotations of the star of any point there is the identity (symmetry number 0). -/
theorem C58_star_identity {nProc rank n : Nat} {coords : Nat → V3 Rat} {lookup : V3 Rat → Outcome Int}
    {rots : List M3} (h : IrrSetup nProc rank n coords lookup rots) (vel : Option (Nat → Nat → Rat)) (s : IrrPoints)
    (hs : setIrreduciblePoints nProc rank n coords lookup rots vel [] = .ok s) (j : Nat) (hj : j < n) :
    (∃ l, s.getRotationsStar j = .ok l ∧ (0 : Int) ∈ l) ∧ rots[0]? = some M3.one := by
  have h0 : rots[0]? = some M3.one := by rw [← List.head?_eq_getElem?]; exact h.group.id_first
  refine ⟨?_, h0⟩
  obtain ⟨s', h1, c1, _, c3, c4, _⟩ := C18_stars h vel
  rw [hs] at h1; cases h1
  obtain ⟨k, hk1, hk2, ik, hk3, _⟩ := (C19_maps h vel s hs).2 j hj
  -- the star and its irreducible point
  have hkl : k < s.irreducibleStars.length := by omega
  obtain ⟨irr, hirr⟩ : ∃ irr, (s.irrPointsIterator n)[k]? = some irr := ⟨_, List.getElem?_eq_getElem hk2⟩
  obtain ⟨b1, _, b3⟩ := c3 k _ irr (List.getElem?_eq_getElem hkl) hirr
  have hirrmem := List.mem_of_getElem? hirr
  have hfix : irr < n ∧ s.equiv irr = irr := by
    unfold IrrPoints.irrPointsIterator at hirrmem
    rw [List.mem_filter] at hirrmem
    simpa using hirrmem
  -- rotation indices
  have hrot : s.rotIndex.length = n ∧ s.rotIndex[irr]? = some 0 := by
    unfold setIrreduciblePoints at hs
    split at hs
    · cases hs
    split at hs
    · cases hs
    simp only [Outcome.bind_eq_ok_iff] at hs
    obtain ⟨es, he, rot, hrot, bufs, hbufs, hs⟩ := hs
    cases hred : (allReduceSum1 bufs)[rank]? with
    | none => rw [hred] at hs; cases hs
    | some red =>
      rw [hred] at hs
      simp only [Outcome.ok.injEq] at hs
      subst hs
      obtain ⟨g1, g2⟩ := mapOutcome_getElem hrot
      simp only [List.length_range] at g1 g2
      refine ⟨g1, ?_⟩
      have := g2 irr hfix.1 (by omega)
      simp only [List.getElem_range] at this
      unfold rotationIndex at this
      rw [if_pos hfix.2, Outcome.ok.injEq] at this
      simp only
      rw [List.getElem?_eq_getElem (by omega), ← this]
  have hstar : s.getReducibleStar j = .ok s.irreducibleStars[k] := by
    unfold IrrPoints.asIrreducibleIndex at hk1
    unfold IrrPoints.getReducibleStar
    cases hc : s.redToIrr[j]? with
    | none => rw [hc] at hk1; simp at hk1
    | some v =>
      rw [hc] at hk1
      simp only [Outcome.ok.injEq] at hk1
      subst hk1
      simp only [List.getElem?_eq_getElem hkl]
  refine ⟨s.irreducibleStars[k].map (fun i => (s.rotIndex[i]?).getD 0), ?_, ?_⟩
  · unfold IrrPoints.getRotationsStar
    simp only [Outcome.bind_eq]
    rw [hstar, Outcome.bind_ok]
    apply mapOutcome_ok
    intro i hi
    have hin := ((b3 i).mp hi).1
    rw [List.getElem?_eq_getElem (by omega)]
    rfl
  · exact List.mem_map.mpr ⟨irr, b1, by rw [hrot.2]; rfl⟩

/-! Non-vacuity: the single point 1/3 of a 3x1x1 mesh, two processes (the first has no work): the third points are
0 and 2/3. -/
example : ∃ full inner, setMesh ⟨3, 1, 1⟩ ⟨0, 0, 0⟩ = .ok full ∧ full.setActiveLayer [1] = .ok inner ∧
    inner.numPoints = 1 ∧ divideWorkIter 1 0 2 = .ok [] ∧ divideWorkIter 1 1 2 = .ok [0] ∧
    RegionRun full (phThirdVectors inner) 1 [] [] ∧ RegionRun full (phThirdVectors inner) 1 [0] [0, 2] ∧
    ((thirdPoints full [[], [0, 2]]).toOption.map fun ps => ps.map fun p => p.filteredToFullIndices) =
      some [[0, 2], [0, 2]] := by
  refine ⟨_, _, rfl, rfl, by decide +kernel, by decide +kernel, by decide +kernel, ?_, ?_, by decide +kernel⟩
  · exact ⟨[], [], [], by simp, rfl, by simp, rfl⟩
  · exact ⟨[[], [0]], [[], [0, 2]], [[0, 2], []], by simp, by decide +kernel, List.Perm.swap _ _ _, by decide +kernel⟩

/-- C58 is violated for meshes with more than 1000 points along a direction: on the mesh of 1001 points, with points 0
and 1 in the window, the third points are 0, 1, 2 and 1000, and the lookup of the sum of points 0 and 1 fails. -/
theorem C58_violated_fine : ∃ full inner, setMesh ⟨1, 1, 1001⟩ ⟨0, 0, 0⟩ = .ok full ∧
    full.setActiveLayer [0, 1] = .ok inner ∧ RegionRun full (phThirdVectors inner) 2 [0, 1] [0, 1, 2, 1000] ∧
    (do let ps ← thirdPoints full [[0, 1, 2, 1000]]
        let q1 ← inner.getPointCoordinates 0
        let q2 ← inner.getPointCoordinates 1
        .ok (ps.map fun P => phThird P q1 q2 true)) = .ok [.error] := by
  refine ⟨_, _, rfl, rfl, ?_, by decide +kernel⟩
  exact ⟨[[0, 1]], [[0, 1, 2, 1000]], [[0, 1, 2, 1000]], by simp, by decide +kernel, List.Perm.refl _, by decide +kernel⟩

/-! ## C59 -/

/-- The data returned for wavevector `i` are those computed for it exactly when `i` is at position `i - first` of
the prepared list. -/
theorem C59_exact_partial {β : Type} (compute : Int → β) (hinj : Function.Injective compute) (first : Int)
    (rest : List Int) (c : ThirdCache β) (hc : prepareCache compute (first :: rest) = .ok c) (i : Int) :
    c.get i = .ok (compute i) ↔ first ≤ i ∧ (first :: rest)[(i - first).toNat]? = some i := by
  simp only [prepareCache, Outcome.ok.injEq] at hc
  subst hc
  unfold ThirdCache.get
  simp only
  by_cases h : i - first < 0
  · rw [if_pos h]
    constructor
    · intro h; cases h
    · rintro ⟨h1, _⟩; omega
  · rw [if_neg h, List.getElem?_map]
    cases hx : (first :: rest)[(i - first).toNat]? with
    | none =>
      simp only [Option.map_none]
      constructor
      · intro h; cases h
      · rintro ⟨_, h⟩; cases h
    | some v =>
      simp only [Option.map_some, Outcome.ok.injEq, Option.some.injEq, hinj.eq_iff]
      constructor
      · intro h; exact ⟨by omega, h⟩
      · intro h; exact h.2

/-- Lists of consecutive wavevectors (those made from the points of a path, or of a whole mesh): preparing the list
and asking for any of its wavevectors returns what was computed for that wavevector.
Missing with respect to C59: other lists, for which the claim is false (`C59_violated_*`). -/
theorem C59_consecutive_partial {β : Type} (compute : Int → β) (first : Int) (n : Nat) (hn : 0 < n) :
    ∃ c, prepareCache compute ((List.range n).map fun k : Nat => first + (k : Int)) = .ok c ∧
      ∀ k : Nat, k < n → c.get (first + k) = .ok (compute (first + k)) := by
  obtain ⟨m, rfl⟩ : ∃ m, n = m + 1 := ⟨n - 1, by omega⟩
  refine ⟨⟨first, ((List.range (m + 1)).map fun k : Nat => first + (k : Int)).map compute⟩, ?_, ?_⟩
  · unfold prepareCache
    rw [List.range_succ_eq_map]
    simp
  · intro k hk
    unfold ThirdCache.get
    simp only
    rw [if_neg (by omega)]
    have : (first + (k : Int) - first).toNat = k := by omega
    rw [this, List.getElem?_map, List.getElem?_map, List.getElem?_range hk]
    rfl

example : ∃ c, prepareCache (fun i => i * i) [5, 6, 7] = .ok c ∧ c.get 6 = .ok 36 := ⟨_, rfl, by decide⟩

/-- C59 is violated for lists with gaps: wavevector 2 of the list [0, 2] is read outside of the cache. -/
theorem C59_violated_gap : ∀ compute : Int → Int, ∃ c, prepareCache compute [0, 2] = .ok c ∧ c.get 2 = .ub :=
  fun _ => ⟨_, rfl, rfl⟩

/-- C59 is violated for lists that are not ascending: for [0, 2, 1], the state of wavevector 1 is returned for
wavevector 2. -/
theorem C59_violated_order : ∀ compute : Int → Int, ∃ c, prepareCache compute [0, 2, 1] = .ok c ∧
    c.get 2 = .ok (compute 1) := fun _ => ⟨_, rfl, rfl⟩

/-- C59: an empty list (a process without work) reads the first element of an empty vector. -/
theorem C59_violated_empty : ∀ compute : Int → Int, prepareCache compute [] = .ub := fun _ => rfl

/-! ## C60 -/

/-- Every wavevector is in exactly one batch, in order, and the sizes of the batches differ by at most one
(they are the number of wavevectors over the number of batches, rounded down or up).
Missing with respect to C60: lists and batch counts whose product exceeds the range of `int`
(`C60_violated_overflow`). -/
theorem C60_cover_partial (l : List Nat) (numBatches : Nat) (hn : 0 < numBatches)
    (hfit : (l.length : Int) * numBatches ≤ intMax) :
    ∃ bs, batches l numBatches = .ok bs ∧ bs.length = numBatches ∧ bs.flatten = l ∧
      ∀ b ∈ bs, l.length / numBatches ≤ b.length ∧ b.length ≤ l.length / numBatches + 1 ∧
        b.length * numBatches < l.length + numBatches := by
  have hmul : ∀ k, k ≤ numBatches → l.length * k ≤ l.length * numBatches := fun k hk => Nat.mul_le_mul_left _ hk
  have hint : (l.length * numBatches : Nat) ≤ (2147483647 : Nat) := by
    unfold intMax at hfit; exact_mod_cast hfit
  have hdiv : ∀ k, k ≤ numBatches → ∃ a, cmul (l.length : Int) (k : Int) = .ok a ∧
      cdiv a numBatches = .ok (head l.length numBatches k : Int) := by
    intro k hk
    have := hmul k hk
    refine ⟨((l.length * k : Nat) : Int), ?_, ?_⟩
    · rw [cmul_ok]
      · push_cast; rfl
      · have : (0 : Int) ≤ (l.length : Int) * k := by positivity
        unfold intMin; omega
      · unfold intMax; exact_mod_cast le_trans this hint
    · rw [cdiv_ok (by positivity) (by unfold intMax; exact_mod_cast le_trans this hint) (by exact_mod_cast hn)]
      unfold head
      push_cast
      rfl
  have hmono := fun k => head_mono l.length numBatches (Nat.le_succ k)
  have hle : ∀ k, k ≤ numBatches → head l.length numBatches k ≤ l.length := by
    intro k hk
    have := head_mono l.length numBatches hk
    rwa [head_last _ _ hn] at this
  have hb : ∀ k ∈ List.range numBatches, batch l numBatches k =
      .ok ((l.drop (head l.length numBatches k)).take (head l.length numBatches (k + 1) - head l.length numBatches k)) := by
    intro k hk
    have hk : k < numBatches := by simpa using hk
    obtain ⟨a, ha1, ha2⟩ := hdiv k (by omega)
    obtain ⟨b, hb1, hb2⟩ := hdiv (k + 1) (by omega)
    push_cast at hb1
    unfold batch
    simp only [Outcome.bind_eq]
    rw [ha1, Outcome.bind_ok, ha2, Outcome.bind_ok, hb1, Outcome.bind_ok, hb2, Outcome.bind_ok]
    have h1 : head l.length numBatches k ≤ head l.length numBatches (k + 1) := hmono k
    have h2 := hle (k + 1) (by omega)
    have e1 : ((head l.length numBatches (k + 1) : Int) - (head l.length numBatches k : Int)).toNat =
        head l.length numBatches (k + 1) - head l.length numBatches k := by omega
    rw [e1, Int.toNat_natCast, mapOutcome_ok (g := fun i => l.getD (head l.length numBatches k + i) 0)]
    · congr 1
      apply List.ext_getElem
      · simp; omega
      · intro i h3 h4
        have : head l.length numBatches k + i < l.length := by simp at h3; omega
        simp [this]
    · intro i hi
      have : head l.length numBatches k + i < l.length := by simp at hi; omega
      simp [readAt, this]
  refine ⟨_, mapOutcome_ok _ hb, by simp, ?_, ?_⟩
  · have key : ∀ k, k ≤ numBatches → ((List.range k).map fun k => (l.drop (head l.length numBatches k)).take
        (head l.length numBatches (k + 1) - head l.length numBatches k)).flatten = l.take (head l.length numBatches k) := by
      intro k
      induction k with
      | zero => intro _; simp [head]
      | succ k ih =>
        intro hk
        rw [List.range_succ, List.map_append, List.flatten_append, ih (by omega)]
        simp only [List.map_cons, List.map_nil, List.flatten_cons, List.flatten_nil, List.append_nil]
        have hm : head l.length numBatches k ≤ head l.length numBatches (k + 1) := hmono k
        have e : head l.length numBatches (k + 1) = head l.length numBatches k +
          (head l.length numBatches (k + 1) - head l.length numBatches k) := by omega
        conv_rhs => rw [e, List.take_add]
    rw [key numBatches le_rfl, head_last _ _ hn, List.take_length]
  · intro b hbm
    obtain ⟨k, hk, rfl⟩ := List.mem_map.mp hbm
    have hk : k < numBatches := by simpa using hk
    have h2 := hle (k + 1) (by omega)
    have e : ((l.drop (head l.length numBatches k)).take
        (head l.length numBatches (k + 1) - head l.length numBatches k)).length =
        head l.length numBatches (k + 1) - head l.length numBatches k := by
      simp; omega
    rw [e]
    refine ⟨(len_bounds l.length numBatches k hn).1, (len_bounds l.length numBatches k hn).2, ?_⟩
    unfold head
    rw [Nat.mul_succ]
    have a := Nat.div_add_mod (l.length * k) numBatches
    have c := Nat.div_mul_le_self (l.length * k + l.length) numBatches
    have m1 := Nat.mod_lt (l.length * k) hn
    rw [Nat.sub_mul]
    generalize l.length * k / numBatches = x at *
    rw [Nat.mul_comm] at a
    omega

example : batches [10, 11, 12, 13, 14] 2 = .ok [[10, 11], [12, 13, 14]] := by decide

/-- C60 is violated for large products: for the 1048576 wavevectors of a 128x128x64 mesh in 4096 batches, the
product overflows `int` before the loop ends. -/
theorem C60_violated_overflow : ∃ iBatch < 4096, batch (List.range 1048576) 4096 iBatch = .ub := by
  refine ⟨2048, by norm_num, ?_⟩
  unfold batch
  simp only [Outcome.bind_eq, List.length_range]
  have : cmul ((1048576 : Nat) : Int) ((2048 : Nat) : Int) = .ub := by decide
  rw [this]
  rfl

end Verif.Props
