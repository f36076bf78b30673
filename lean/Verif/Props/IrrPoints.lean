import Verif.Proofs.IrrPoints
import Verif.Props.Points
import Mathlib.Data.List.Nodup
import Mathlib.Algebra.BigOperators.Group.Finset.Basic
import Mathlib.Algebra.BigOperators.Group.Finset.Sigma
import Mathlib.Algebra.BigOperators.Ring.Finset

/-! # Properties C18-C20: irreducible points and stars -/
namespace Verif.Props
open Verif.Model

/-- The situation of C18-C20: a point set whose lookup is right about all rotated points, a point group, and
any of the processes. -/
structure IrrSetup (nProc rank n : Nat) (coords : Nat → V3 Rat) (lookup : V3 Rat → Outcome Int)
    (rots : List M3) : Prop where
  group : IsPointGroup rots
  look : ∀ R ∈ rots, ∀ i, i < n → LookupCorrect n coords lookup (R.mulVec (coords i))
  rank_lt : rank < nProc
  fit : n * nProc < sizeTMod

/-! ## C18 stars -/

/-- The irreducible points represent each point exactly once: the computation succeeds on every process; the
k-th star is the set of points related by symmetry to the k-th irreducible point, which belongs to it; every
point is in exactly one star; and the stored rotation maps the irreducible representative on the point.
Whatever rule (velocities or not) selects among the possible rotations. -/
theorem C18_stars {nProc rank n : Nat} {coords : Nat → V3 Rat} {lookup : V3 Rat → Outcome Int}
    {rots : List M3} (h : IrrSetup nProc rank n coords lookup rots) (vel : Option (Nat → Nat → Rat)) :
    ∃ s, setIrreduciblePoints nProc rank n coords lookup rots vel [] = .ok s ∧
      s.irreducibleStars.length = (s.irrPointsIterator n).length ∧
      (s.irrPointsIterator n).Pairwise (· < ·) ∧
      (∀ (k : Nat) (star : List Nat) (irr : Nat), s.irreducibleStars[k]? = some star → (s.irrPointsIterator n)[k]? = some irr →
        irr ∈ star ∧ star.Nodup ∧ ∀ j, j ∈ star ↔ (j < n ∧ SymRelated rots coords irr j)) ∧
      (∀ j, j < n → ∃! k : Nat, ∃ star, s.irreducibleStars[k]? = some star ∧ j ∈ star) ∧
      (∀ j, j < n → s.equiv j ∈ s.irrPointsIterator n ∧ s.equiv j ≤ j ∧
        ∃ (kr : Nat) (R : M3), s.rotIndex[j]? = some (kr : Int) ∧ rots[kr]? = some R ∧
          Equivalent (R.mulVec (coords (s.equiv j))) (coords j)) := by
  obtain ⟨s, new, h1, hinv, h3, h4, h5, h6, h7, h8, h9⟩ :=
    setIrr_spec h.group h.look h.rank_lt h.fit vel []
  rw [List.nil_append] at h5
  have hit : s.irrPointsIterator n = s.irrToRed := h3.symm
  have hsorted : s.irrToRed.Pairwise (· < ·) := by
    rw [h3]; exact List.Pairwise.filter _ List.pairwise_lt_range
  have hin : ∀ x, x ∈ s.irrToRed → x < n ∧ s.equiv x = x := by
    intro x hx
    rw [h3, List.mem_filter] at hx
    simpa using hx
  have hle : ∀ j, j < n → s.equiv j ≤ j := fun j hj =>
    hinv.least j hj j hj (symRel_refl h.group _ _)
  have hidem : ∀ j, j < n → s.equiv (s.equiv j) = s.equiv j := by
    intro j hj
    have hl := hle j hj
    have h1 := hinv.least j hj (s.equiv (s.equiv j)) (by have := hle (s.equiv j) (by omega); omega)
      (symRel_trans h.group (hinv.rel (s.equiv j) (by omega)) (hinv.rel j hj))
    have := hle (s.equiv j) (by omega)
    omega
  have hmem : ∀ j, j < n → s.equiv j ∈ s.irrToRed := by
    intro j hj
    rw [h3, List.mem_filter]
    have := hle j hj
    exact ⟨by simp; omega, by simpa using hidem j hj⟩
  have hstar : ∀ (k : Nat) (star : List Nat) (irr : Nat), s.irreducibleStars[k]? = some star → s.irrToRed[k]? = some irr →
      irr ∈ star ∧ star.Nodup ∧ ∀ j, j ∈ star ↔ (j < n ∧ SymRelated rots coords irr j) := by
    intro k star irr hk hi
    rw [h5] at hk
    obtain ⟨hk1, rfl⟩ := List.getElem?_eq_some_iff.mp hk
    obtain ⟨hk2, rfl⟩ := List.getElem?_eq_some_iff.mp hi
    obtain ⟨a, b⟩ := h7 k hk1 hk2
    refine ⟨(b _).mpr ⟨?_, symRel_refl h.group _ _⟩, a.imp (fun h => by omega), b⟩
    exact (hin _ (List.getElem_mem hk2)).1
  refine ⟨s, h1, by rw [h5, h6, hit], by rw [hit]; exact hsorted, ?_, ?_, ?_⟩
  · rw [hit]; exact hstar
  · intro j hj
    obtain ⟨k, hk, hek⟩ := List.getElem_of_mem (hmem j hj)
    have hk' : k < s.irreducibleStars.length := by rw [h5, h6]; exact hk
    refine ⟨k, ⟨s.irreducibleStars[k], List.getElem?_eq_getElem hk', ?_⟩, ?_⟩
    · refine ((hstar k _ _ (List.getElem?_eq_getElem hk') (List.getElem?_eq_getElem hk)).2.2 j).mpr ⟨hj, ?_⟩
      rw [hek]; exact hinv.rel j hj
    · rintro k2 ⟨star2, hs2, hj2⟩
      obtain ⟨hk2, rfl⟩ := List.getElem?_eq_some_iff.mp hs2
      have hk2' : k2 < s.irrToRed.length := by rw [h5, h6] at hk2; exact hk2
      have hr2 := ((hstar k2 _ _ (List.getElem?_eq_getElem hk2) (List.getElem?_eq_getElem hk2')).2.2 j).mp hj2
      obtain ⟨hi2, he2⟩ := hin _ (List.getElem_mem hk2')
      -- both are the least of the orbit
      have a1 : s.equiv j ≤ s.irrToRed[k2] := hinv.least j hj _ hi2 hr2.2
      have a2 : s.equiv s.irrToRed[k2] ≤ s.equiv j :=
        hinv.least _ hi2 _ (by have := hle j hj; omega)
          (symRel_trans h.group (hinv.rel j hj) (symRel_symm h.group hr2.2))
      have : s.irrToRed[k2] = s.irrToRed[k] := by omega
      exact (List.getElem_inj (hsorted.imp (fun h => by omega) : s.irrToRed.Nodup)).mp this
  · intro j hj
    refine ⟨by rw [hit]; exact hmem j hj, hle j hj, ?_⟩
    obtain ⟨k, hk, e1, e2⟩ := h9 j (by omega)
    exact ⟨k, rots[k], by rw [List.getElem?_eq_getElem (by omega), e1], List.getElem?_eq_getElem hk, e2⟩

/-! ## C19 index maps -/

/-- Irreducible index to point index and back is the identity; point index to irreducible index and back is
the irreducible representative of the point. -/
theorem C19_maps {nProc rank n : Nat} {coords : Nat → V3 Rat} {lookup : V3 Rat → Outcome Int}
    {rots : List M3} (h : IrrSetup nProc rank n coords lookup rots) (vel : Option (Nat → Nat → Rat))
    (s : IrrPoints) (hs : setIrreduciblePoints nProc rank n coords lookup rots vel [] = .ok s) :
    (∀ k, k < (s.irrPointsIterator n).length →
      ∃ ik, s.asReducibleIndex k = .ok ik ∧ (s.irrPointsIterator n)[k]? = some ik ∧
        s.asIrreducibleIndex ik = .ok k) ∧
    (∀ j, j < n → ∃ k, s.asIrreducibleIndex j = .ok k ∧ k < (s.irrPointsIterator n).length ∧
        ∃ ik, s.asReducibleIndex k = .ok ik ∧ SymRelated rots coords ik j) := by
  obtain ⟨s', new, h1, hinv, h3, h4, h5, h6, h7, h8, h9⟩ :=
    setIrr_spec h.group h.look h.rank_lt h.fit vel []
  rw [hs] at h1; cases h1
  obtain ⟨s', h1, _, _, _, _, hq⟩ := C18_stars h vel
  rw [hs] at h1; cases h1
  have hit : s.irrPointsIterator n = s.irrToRed := h3.symm
  have hsorted : s.irrToRed.Pairwise (· < ·) := by
    rw [h3]; exact List.Pairwise.filter _ List.pairwise_lt_range
  have hin : ∀ x, x ∈ s.irrToRed → x < n ∧ s.equiv x = x := by
    intro x hx
    rw [h3, List.mem_filter] at hx
    simpa using hx
  rw [hit]
  refine ⟨?_, ?_⟩
  · intro k hk
    obtain ⟨hlt, he⟩ := hin _ (List.getElem_mem hk)
    refine ⟨s.irrToRed[k], ?_, List.getElem?_eq_getElem hk, ?_⟩
    · unfold IrrPoints.asReducibleIndex; rw [List.getElem?_eq_getElem hk]
    · unfold IrrPoints.asIrreducibleIndex
      rw [h4, List.getElem?_map, List.getElem?_range hlt]
      simp only [Option.map_some]
      rw [he, lowerBound_getElem _ hsorted]
  · intro j hj
    have hmem := (hq j hj).1
    rw [hit] at hmem
    obtain ⟨k, hk, hek⟩ := List.getElem_of_mem hmem
    refine ⟨k, ?_, hk, s.irrToRed[k], ?_, ?_⟩
    · unfold IrrPoints.asIrreducibleIndex
      rw [h4, List.getElem?_map, List.getElem?_range hj]
      simp only [Option.map_some]
      rw [← hek, lowerBound_getElem _ hsorted]
    · unfold IrrPoints.asReducibleIndex; rw [List.getElem?_eq_getElem hk]
    · rw [hek]; exact hinv.rel j hj

/-! ## C20 sums -/

/-- For every function that has the same value on symmetry-related points, the sum over the irreducible points
weighted with the number of rotations of their star is the sum over all points. -/
theorem C20_weighted_sum {nProc rank n : Nat} {coords : Nat → V3 Rat} {lookup : V3 Rat → Outcome Int}
    {rots : List M3} (h : IrrSetup nProc rank n coords lookup rots) (vel : Option (Nat → Nat → Rat))
    (s : IrrPoints) (hs : setIrreduciblePoints nProc rank n coords lookup rots vel [] = .ok s)
    {α : Type} [AddCommMonoid α] (f : Nat → α)
    (hf : ∀ i j, i < n → j < n → SymRelated rots coords i j → f i = f j) :
    ∃ mult : Nat → List Int, (∀ ik ∈ s.irrPointsIterator n, s.getRotationsStar ik = .ok (mult ik)) ∧
      ((s.irrPointsIterator n).map (fun ik => (mult ik).length • f ik)).sum = ((List.range n).map f).sum := by
  obtain ⟨s', new, h1, hinv, h3, h4, h5, h6, h7, h8, h9⟩ :=
    setIrr_spec h.group h.look h.rank_lt h.fit vel []
  rw [hs] at h1; cases h1
  obtain ⟨s', h1, c1, c2, c3, c4, hq⟩ := C18_stars h vel
  rw [hs] at h1; cases h1
  have hmaps := (C19_maps h vel s hs).1
  rw [List.nil_append] at h5
  have hit : s.irrPointsIterator n = s.irrToRed := h3.symm
  rw [hit] at c1 c2 c3 hmaps ⊢
  -- the stars list each point once
  have hperm : s.irreducibleStars.flatten.Perm (List.range n) := by
    rw [List.perm_ext_iff_of_nodup _ List.nodup_range]
    · intro j
      rw [List.mem_flatten, List.mem_range]
      constructor
      · rintro ⟨star, hst, hj⟩
        obtain ⟨k, hk, rfl⟩ := List.getElem_of_mem hst
        exact (((c3 k _ _ (List.getElem?_eq_getElem hk)
          (List.getElem?_eq_getElem (by omega))).2.2 j).mp hj).1
      · intro hj
        obtain ⟨k, ⟨star, hst, hm⟩, _⟩ := c4 j hj
        exact ⟨star, List.mem_of_getElem? hst, hm⟩
    · rw [List.nodup_flatten]
      refine ⟨?_, ?_⟩
      · intro star hst
        obtain ⟨k, hk, rfl⟩ := List.getElem_of_mem hst
        exact (c3 k _ _ (List.getElem?_eq_getElem hk) (List.getElem?_eq_getElem (by omega))).2.1
      · rw [List.pairwise_iff_getElem]
        intro a b ha hb hab j hja hjb
        have hj : j < n := (((c3 a _ _ (List.getElem?_eq_getElem ha)
          (List.getElem?_eq_getElem (by omega))).2.2 j).mp hja).1
        have := (c4 j hj).unique ⟨_, List.getElem?_eq_getElem ha, hja⟩ ⟨_, List.getElem?_eq_getElem hb, hjb⟩
        omega
  rw [← (hperm.map f).sum_eq]
  -- multiplicities
  let mult : Nat → List Int := fun ik => match s.getReducibleStar ik with
    | .ok star => star.map (fun i => (s.rotIndex[i]?).getD 0)
    | _ => []
  have hstar : ∀ k (hk : k < s.irrToRed.length) (hk' : k < s.irreducibleStars.length),
      s.getReducibleStar s.irrToRed[k] = .ok s.irreducibleStars[k] := by
    intro k hk hk'
    obtain ⟨ik, _, e2, e3⟩ := hmaps k hk
    rw [List.getElem?_eq_getElem hk] at e2
    cases e2
    unfold IrrPoints.asIrreducibleIndex at e3
    unfold IrrPoints.getReducibleStar
    cases hc : s.redToIrr[s.irrToRed[k]]? with
    | none => rw [hc] at e3; simp at e3
    | some v =>
      rw [hc] at e3
      simp only [Outcome.ok.injEq] at e3
      subst e3
      simp only [List.getElem?_eq_getElem hk']
  refine ⟨mult, ?_, ?_⟩
  · intro ik hik
    obtain ⟨k, hk, rfl⟩ := List.getElem_of_mem hik
    have hk' : k < s.irreducibleStars.length := by omega
    have hs1 := hstar k hk hk'
    unfold IrrPoints.getRotationsStar
    rw [hs1]
    simp only [Outcome.bind_eq, Outcome.bind, mult, hs1]
    apply mapOutcome_ok
    intro i hi
    have hin := (((c3 k _ _ (List.getElem?_eq_getElem hk') (List.getElem?_eq_getElem hk)).2.2 i).mp hi).1
    rw [List.getElem?_eq_getElem (by omega)]
    rfl
  · rw [List.map_flatten, List.sum_flatten, List.map_map]
    congr 1
    apply List.ext_getElem
    · simp [c1]
    · intro k hk1 hk2
      have hk : k < s.irrToRed.length := by simpa using hk1
      have hk' : k < s.irreducibleStars.length := by simpa using hk2
      simp only [List.getElem_map, Function.comp]
      have hlen : (mult s.irrToRed[k]).length = s.irreducibleStars[k].length := by
        simp only [mult, hstar k hk hk', List.length_map]
      rw [hlen]
      obtain ⟨b1, b2, b3⟩ := c3 k _ _ (List.getElem?_eq_getElem hk') (List.getElem?_eq_getElem hk)
      have : ∀ l : List Nat, (∀ j ∈ l, f j = f s.irrToRed[k]) → (l.map f).sum = l.length • f s.irrToRed[k] := by
        intro l hl
        induction l with
        | nil => simp
        | cons a t ih =>
          rw [List.map_cons, List.sum_cons, ih (fun j hj => hl j (by simp [hj])), hl a (by simp),
            List.length_cons, succ_nsmul']
      rw [this]
      intro j hj
      have hjr := (b3 j).mp hj
      exact (hf _ _ ((b3 _).mp b1).1 hjr.1 hjr.2).symm

/-! Non-vacuity: the 2x2x1 mesh with the group {identity, exchange of x and y}. -/

/-- Identity and exchange of the first two axes. -/
def exampleGroup : List M3 := [M3.one, ⟨⟨0, 1, 0⟩, ⟨1, 0, 0⟩, ⟨0, 0, 1⟩⟩]

theorem exampleGroup_isPointGroup : IsPointGroup exampleGroup := by
  constructor
  · rfl
  · intro R hR g
    simp only [exampleGroup, List.mem_cons, List.not_mem_nil, or_false] at hR
    rcases hR with rfl | rfl
    · exact ⟨g, one_mulVec _⟩
    · exact ⟨⟨g.y, g.x, g.z⟩, by simp [M3.mulVec, V3.dot, V3.cast]⟩
  · intro R hR S hS
    simp only [exampleGroup, List.mem_cons, List.not_mem_nil, or_false] at hR hS
    rcases hR with rfl | rfl <;> rcases hS with rfl | rfl
    · exact ⟨M3.one, by simp [exampleGroup], fun v => by rw [one_mulVec, one_mulVec]⟩
    · exact ⟨_, List.mem_cons_of_mem _ (List.mem_singleton.mpr rfl), fun v => by rw [one_mulVec]⟩
    · exact ⟨_, List.mem_cons_of_mem _ (List.mem_singleton.mpr rfl), fun v => by rw [one_mulVec]⟩
    · exact ⟨M3.one, by simp [exampleGroup], fun v => by rw [one_mulVec]; simp [M3.mulVec, V3.dot]⟩
  · intro R hR
    simp only [exampleGroup, List.mem_cons, List.not_mem_nil, or_false] at hR
    rcases hR with rfl | rfl
    · exact ⟨M3.one, by simp [exampleGroup], fun v => by rw [one_mulVec, one_mulVec]⟩
    · exact ⟨_, List.mem_cons_of_mem _ (List.mem_singleton.mpr rfl), fun v => by simp [M3.mulVec, V3.dot]⟩

/-- On a full mesh whose points are mapped on mesh points by all symmetries, the lookup of the code is right
about the rotated points, for every mesh and offset: the hypothesis `look` of `IrrSetup` is met. -/
theorem C18_mesh_lookup (mesh : V3 Int) (offset : V3 Rat) (hm : PosMesh mesh) (R : M3) (i : Nat)
    (hR : ∃ j : Nat, (j : Int) < mesh.x * mesh.y * mesh.z ∧
      Equivalent (R.mulVec (meshCoordinates mesh offset i)) (meshCoordinates mesh offset j)) :
    LookupCorrect (mesh.x * mesh.y * mesh.z).toNat (fun k => meshCoordinates mesh offset k)
      (fun p => .ok (isPointStoredMesh mesh offset p)) (R.mulVec (meshCoordinates mesh offset i)) := by
  constructor
  · rintro j hj ⟨g, hg⟩
    simp only at hg ⊢
    rw [hg, C12_lookup mesh offset hm j ⟨by omega, by omega⟩ g]
  · intro hno
    obtain ⟨j, hj, he⟩ := hR
    exact absurd he (hno j (by omega))

/-- The hypotheses hold for a mesh of four points with a symmetry besides the identity, on three processes. -/
theorem exampleSetup : IrrSetup 3 1 4 (fun k => meshCoordinates ⟨2, 2, 1⟩ ⟨0, 0, 0⟩ k)
    (fun p => .ok (isPointStoredMesh ⟨2, 2, 1⟩ ⟨0, 0, 0⟩ p)) exampleGroup := by
  refine ⟨exampleGroup_isPointGroup, ?_, by decide, by decide⟩
  intro R hR i hi
  apply C18_mesh_lookup ⟨2, 2, 1⟩ ⟨0, 0, 0⟩ (by simp [PosMesh])
  simp only [exampleGroup, List.mem_cons, List.not_mem_nil, or_false] at hR
  rcases hR with rfl | rfl
  · exact ⟨i, by simp only; omega, by rw [one_mulVec]; exact equivalent_refl _⟩
  · have : i = 0 ∨ i = 1 ∨ i = 2 ∨ i = 3 := by omega
    rcases this with rfl | rfl | rfl | rfl
    · exact ⟨0, by simp, ⟨0, 0, 0⟩, by decide +kernel⟩
    · exact ⟨2, by simp, ⟨0, 0, 0⟩, by decide +kernel⟩
    · exact ⟨1, by simp, ⟨0, 0, 0⟩, by decide +kernel⟩
    · exact ⟨3, by simp, ⟨0, 0, 0⟩, by decide +kernel⟩

example : (setIrreduciblePoints 3 1 4 (fun k => meshCoordinates ⟨2, 2, 1⟩ ⟨0, 0, 0⟩ k)
    (fun p => .ok (isPointStoredMesh ⟨2, 2, 1⟩ ⟨0, 0, 0⟩ p)) exampleGroup none []).toOption.map
      (fun s => (s.irreducibleStars, s.irrToRed, s.redToIrr, s.rotIndex)) =
    some ([[0], [1, 2], [3]], [0, 1, 3], [0, 1, 1, 2], [0, 0, 1, 0]) := by decide +kernel

/-- Calling the function again on the same points (the stars are appended, not replaced) leaves the star of
every point unchanged. -/
theorem C18_second_call {nProc rank n : Nat} {coords : Nat → V3 Rat} {lookup : V3 Rat → Outcome Int}
    {rots : List M3} (h : IrrSetup nProc rank n coords lookup rots) (vel vel' : Option (Nat → Nat → Rat))
    (s s' : IrrPoints) (hs : setIrreduciblePoints nProc rank n coords lookup rots vel [] = .ok s)
    (hs' : setIrreduciblePoints nProc rank n coords lookup rots vel' s.irreducibleStars = .ok s')
    (j : Nat) (hj : j < n) : ∃ star, s.getReducibleStar j = .ok star ∧ s'.getReducibleStar j = .ok star := by
  obtain ⟨t, new, h1, hinv, h3, h4, h5, h6, -⟩ :=
    setIrr_spec h.group h.look h.rank_lt h.fit vel []
  rw [hs] at h1; cases h1
  obtain ⟨t', new', h1, hinv', h3', h4', h5', h6', -⟩ :=
    setIrr_spec h.group h.look h.rank_lt h.fit vel' s.irreducibleStars
  rw [hs'] at h1; cases h1
  rw [List.nil_append] at h5
  have heq : ∀ i, i < n → s.equiv i = s'.equiv i := by
    intro i hi
    have a := hinv.least i hi i hi (symRel_refl h.group _ _)
    have b := hinv'.least i hi i hi (symRel_refl h.group _ _)
    have a2 := hinv.least i hi (s'.equiv i) (by omega) (hinv'.rel i hi)
    have b2 := hinv'.least i hi (s.equiv i) (by omega) (hinv.rel i hi)
    omega
  have hirr : s.irrToRed = s'.irrToRed := by
    rw [h3, h3']
    apply List.filter_congr
    intro i hi
    rw [heq i (by simpa using hi)]
  have hred : s.redToIrr = s'.redToIrr := by
    rw [h4, h4', hirr]
    apply List.map_congr_left
    intro i hi
    rw [heq i (by simpa using hi)]
  obtain ⟨k, hk, hkl, _⟩ := (C19_maps h vel s hs).2 j hj
  unfold IrrPoints.asIrreducibleIndex at hk
  cases hc : s.redToIrr[j]? with
  | none => rw [hc] at hk; simp at hk
  | some v =>
    rw [hc] at hk
    simp only [Outcome.ok.injEq] at hk
    subst hk
    have hlen : v < s.irreducibleStars.length := by
      rw [h5, h6, h3]; exact hkl
    refine ⟨s.irreducibleStars[v], ?_, ?_⟩
    · simp only [IrrPoints.getReducibleStar, hc, List.getElem?_eq_getElem hlen]
    · have hlen' : v < s'.irreducibleStars.length := by rw [h5', List.length_append]; omega
      have hg : s'.irreducibleStars[v] = s.irreducibleStars[v] := by
        simp only [h5', List.getElem_append_left hlen]
      simp only [IrrPoints.getReducibleStar, ← hred, hc, List.getElem?_eq_getElem hlen', hg]

end Verif.Props
