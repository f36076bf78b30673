import Verif.Proofs.CouplingFile

/-!
# C186: reading of the electron-phonon coupling of Quantum ESPRESSO
-/
namespace Verif.Props
open Verif.Model Verif.Spec Verif.Proofs

theorem getD_of_lt {α : Type} (l : List α) (d : α) {i : Nat} (h : i < l.length) : l.getD i d = l[i] := by
  simp [List.getD, h]

/-- A complete file is read, and every number of the file is found at the place of its wavevectors, bands and mode; `ikMap` gives
the index in the mesh of each electron wavevector of the file. -/
theorem C186_star (numModes numK numBands : Nat) (ikMap : Nat → Nat) (hinj : ∀ i < numK, ∀ j < numK, ikMap i = ikMap j → i = j)
    (c : StarContent) (hc : c.Good numModes) :
    ∃ r, readChunk numModes numBands numK ikMap (c.file numModes numK numBands) = .ok r ∧ r.q = c.crystal ∧ r.energies = c.energies ∧
      (∀ iq < c.crystal.length, ∀ j < numModes, ∀ i < numModes, r.eigenvectors (i, j, iq) = c.eigenvector iq j i) ∧
      ∀ iq < c.crystal.length, ∀ nu < numModes, ∀ ik < numK, ∀ ib2 < numBands, ∀ ib1 < numBands,
        r.g (ib1, ib2, nu, ikMap ik, iq) = c.coupling iq nu ik ib2 ib1 := by
  refine ⟨_, readChunk_val numModes numK numBands ikMap c hc, rfl, rfl, ?_, ?_⟩
  · intro iq hq j hj i hi
    refine assigned_val _ _ _ _ ?_ (Or.inl ⟨((i, j, iq), c.eigenvector iq j i), (mem_evPairs _ _ _).mpr ⟨iq, hq, j, hj, i, hi, rfl⟩, rfl⟩)
    intro p hp hk
    obtain ⟨iq', _, j', _, i', _, rfl⟩ := (mem_evPairs _ _ _).mp hp
    simp only [Prod.mk.injEq] at hk
    obtain ⟨rfl, rfl, rfl⟩ := hk
    rfl
  · intro iq hq nu hn ik hk ib2 h2 ib1 h1
    refine assigned_val _ _ _ _ ?_ (Or.inl ⟨((ib1, ib2, nu, ikMap ik, iq), c.coupling iq nu ik ib2 ib1),
      (mem_gPairs _ _ _ _ _ _).mpr ⟨iq, hq, nu, hn, ik, hk, ib2, h2, ib1, h1, rfl⟩, rfl⟩)
    intro p hp he
    obtain ⟨iq', _, nu', _, ik', hk', ib2', _, ib1', _, rfl⟩ := (mem_gPairs _ _ _ _ _ _).mp hp
    simp only [Prod.mk.injEq] at he
    obtain ⟨rfl, rfl, rfl, h, rfl⟩ := he
    rw [hinj _ hk' _ hk h]

/-- Files of the stars of a mesh, each wavevector of the mesh in one star and once: whatever the order in which the threads assign,
the arrays have, at the indices of the wavevectors in the meshes, the coupling between the bands from the offset on, the
eigenvectors and the energies of the files. -/
theorem C186_mesh (numModes numK numBands numWannier offset : Nat) (hoff : offset + numWannier ≤ numBands) (ikMap : Nat → Nat)
    (hmap : ∀ i < numK, ikMap i < numK) (hinj : ∀ i < numK, ∀ j < numK, ikMap i = ikMap j → i = j) (stars : List StarContent)
    (hc : ∀ c ∈ stars, c.Good numModes) (qIndex : V3 ℝ → Outcome Nat) (index : V3 ℝ → Nat)
    (hq : ∀ c ∈ stars, ∀ v ∈ c.crystal, qIndex v = .ok (index v))
    (hdist : ∀ a (ha : a < stars.length) b (hb : b < stars.length) i (hi : i < stars[a].crystal.length) j (hj : j < stars[b].crystal.length),
      index stars[a].crystal[i] = index stars[b].crystal[j] → a = b ∧ i = j)
    (order : List FullWrite → List FullWrite) (horder : ∀ l, (order l).Perm l) :
    ∃ A, readFull numModes numBands numWannier numK offset ikMap qIndex (stars.map fun c => c.file numModes numK numBands) order = .ok A ∧
      ∀ a (ha : a < stars.length) iq (hi : iq < stars[a].crystal.length) nu, nu < numModes →
        (∀ ik < numK, ∀ ib2 < numWannier, ∀ ib1 < numWannier,
          A.g (ib1, ib2, nu, ikMap ik, index stars[a].crystal[iq]) = stars[a].coupling iq nu ik (offset + ib2) (offset + ib1)) ∧
        (∀ i < numModes, A.ev (i, nu, index stars[a].crystal[iq]) = stars[a].eigenvector iq nu i) ∧
        ∀ he : nu < stars[a].energies.length, A.en (nu, index stars[a].crystal[iq]) = stars[a].energies[nu] := by
  -- the chunks
  have hch : ∀ c : StarContent, ∃ r : StarChunk, c ∈ stars →
      readChunk numModes numBands numK ikMap (c.file numModes numK numBands) = .ok r ∧ r.q = c.crystal ∧ r.energies = c.energies ∧
      (∀ iq < c.crystal.length, ∀ j < numModes, ∀ i < numModes, r.eigenvectors (i, j, iq) = c.eigenvector iq j i) ∧
      ∀ iq < c.crystal.length, ∀ nu < numModes, ∀ ik < numK, ∀ ib2 < numBands, ∀ ib1 < numBands,
        r.g (ib1, ib2, nu, ikMap ik, iq) = c.coupling iq nu ik ib2 ib1 := by
    intro c
    by_cases h : c ∈ stars
    · obtain ⟨r, hr⟩ := C186_star numModes numK numBands ikMap hinj c (hc c h)
      exact ⟨r, fun _ => hr⟩
    · exact ⟨⟨[], [], fun _ => 0, fun _ => 0⟩, fun h' => absurd h' h⟩
  choose chunk hchunk using hch
  let wr : StarContent → List FullWrite := fun c => ((List.range c.crystal.length).map fun iq =>
    vectorWrites numModes numWannier numK offset (chunk c) iq ((c.crystal.map index).getD iq 0)).flatten
  have hw : mapOutcome (starWrites numModes numBands numWannier numK offset ikMap qIndex) (stars.map fun c => c.file numModes numK numBands) =
      .ok (stars.map wr) := by
    have : ∀ l : List StarContent, (∀ c ∈ l, c ∈ stars) →
        mapOutcome (starWrites numModes numBands numWannier numK offset ikMap qIndex) (l.map fun c => c.file numModes numK numBands) =
          .ok (l.map wr) := by
      intro l hl
      induction l with
      | nil => rfl
      | cons c t ih =>
        obtain ⟨h1, h2, _⟩ := hchunk c (hl c (by simp))
        have hx : mapOutcome qIndex c.crystal = .ok (c.crystal.map index) :=
          mapOutcome_ok _ fun v hv => hq c (hl c (by simp)) v hv
        simp only [List.map_cons, mapOutcome, starWrites, h1, h2, hx, Outcome.bind_eq, Outcome.bind_ok, List.length_map,
          ih fun d hd => hl d (by simp [hd])]
        rfl
    exact this stars fun _ h => h
  refine ⟨_, by unfold readFull; rw [hw]; rfl, ?_⟩
  have hmem : ∀ w, w ∈ order (stars.map wr).flatten ↔ ∃ b, ∃ hb : b < stars.length, ∃ j, ∃ hj : j < stars[b].crystal.length,
      w ∈ vectorWrites numModes numWannier numK offset (chunk stars[b]) j (index stars[b].crystal[j]) := by
    intro w
    rw [(horder _).mem_iff, List.mem_flatten]
    constructor
    · rintro ⟨l, hl, hwl⟩
      obtain ⟨c, hcs, rfl⟩ := List.mem_map.mp hl
      obtain ⟨b, hb, rfl⟩ := List.getElem_of_mem hcs
      obtain ⟨l', hl', hw'⟩ := List.mem_flatten.mp hwl
      obtain ⟨j, hj, rfl⟩ := List.mem_map.mp hl'
      have hj := List.mem_range.mp hj
      refine ⟨b, hb, j, hj, ?_⟩
      rw [getD_of_lt _ _ (by simpa using hj), List.getElem_map] at hw'
      exact hw'
    · rintro ⟨b, hb, j, hj, h⟩
      refine ⟨wr stars[b], List.mem_map.mpr ⟨_, List.getElem_mem hb, rfl⟩, List.mem_flatten.mpr ⟨_, List.mem_map.mpr ⟨j, List.mem_range.mpr hj, rfl⟩, ?_⟩⟩
      rw [getD_of_lt _ _ (by simpa using hj), List.getElem_map]
      exact h
  intro a ha iq hi nu hnu
  obtain ⟨_, _, r3, r4, r5⟩ := hchunk stars[a] (List.getElem_mem ha)
  refine ⟨?_, ?_, ?_⟩
  · intro ik hik ib2 h2 ib1 h1
    apply fold_g
    · intro ib1' ib2' nu' ik' iq' x hx hk
      obtain ⟨b, hb, j, hj, hv⟩ := (hmem _).mp hx
      simp only [vectorWrites, List.mem_append, List.mem_flatMap, List.mem_map, List.mem_range, reduceCtorEq, and_false, exists_false,
        or_false, FullWrite.g.injEq] at hv
      obtain ⟨_, _, _, _, _, _, _, _, rfl, rfl, rfl, rfl, e, rfl⟩ := hv
      simp only [Prod.mk.injEq] at hk
      obtain ⟨rfl, rfl, rfl, rfl, e2⟩ := hk
      obtain ⟨rfl, rfl⟩ := hdist b hb a ha j hj iq hi (e.trans e2)
      exact r5 _ hj _ hnu _ hik _ (by omega) _ (by omega)
    · left
      refine ⟨ib1, ib2, nu, ikMap ik, index stars[a].crystal[iq], (chunk stars[a]).g (offset + ib1, offset + ib2, nu, ikMap ik, iq),
        (hmem _).mpr ⟨a, ha, iq, hi, ?_⟩, rfl⟩
      simp only [vectorWrites, List.mem_append, List.mem_flatMap, List.mem_map, List.mem_range]
      exact Or.inl (Or.inl ⟨nu, hnu, ikMap ik, hmap ik hik, ib2, h2, ib1, h1, rfl⟩)
  · intro i hin
    apply fold_ev
    · intro i' j' iq' x hx hk
      obtain ⟨b, hb, j, hj, hv⟩ := (hmem _).mp hx
      simp only [vectorWrites, List.mem_append, List.mem_flatMap, List.mem_map, List.mem_range, reduceCtorEq, and_false, exists_false,
        or_false, false_or, FullWrite.ev.injEq] at hv
      obtain ⟨_, _, _, _, rfl, rfl, e, rfl⟩ := hv
      simp only [Prod.mk.injEq] at hk
      obtain ⟨rfl, rfl, e2⟩ := hk
      obtain ⟨rfl, rfl⟩ := hdist b hb a ha j hj iq hi (e.trans e2)
      exact r4 _ hj _ hnu _ hin
    · left
      refine ⟨i, nu, index stars[a].crystal[iq], (chunk stars[a]).eigenvectors (i, nu, iq), (hmem _).mpr ⟨a, ha, iq, hi, ?_⟩, rfl⟩
      simp only [vectorWrites, List.mem_append, List.mem_flatMap, List.mem_map, List.mem_range]
      exact Or.inl (Or.inr ⟨nu, hnu, i, hin, rfl⟩)
  · intro he
    apply fold_en
    · intro i' iq' x hx hk
      obtain ⟨b, hb, j, hj, hv⟩ := (hmem _).mp hx
      simp only [vectorWrites, List.mem_append, List.mem_flatMap, List.mem_map, List.mem_range, reduceCtorEq, and_false, exists_false,
        false_or, FullWrite.en.injEq] at hv
      obtain ⟨_, _, rfl, e, rfl⟩ := hv
      simp only [Prod.mk.injEq] at hk
      obtain ⟨rfl, e2⟩ := hk
      obtain ⟨rfl, rfl⟩ := hdist b hb a ha j hj iq hi (e.trans e2)
      rw [r3]
      exact getD_of_lt _ _ he
    · left
      refine ⟨nu, index stars[a].crystal[iq], (chunk stars[a]).energies.getD nu 0, (hmem _).mpr ⟨a, ha, iq, hi, ?_⟩, rfl⟩
      simp only [vectorWrites, List.mem_append, List.mem_flatMap, List.mem_map, List.mem_range]
      exact Or.inr ⟨nu, hnu, rfl⟩

/-- Violated: a file that ends early is not refused: the elements after its end are made from variables without a value. -/
theorem C186_violated_truncated (numModes numK numBands : Nat) (ikMap : Nat → Nat) (c : StarContent) (hc : c.Good numModes) (n : Nat)
    (hn : n < (c.numbers numModes numK numBands).length) :
    readChunk numModes numBands numK ikMap (some (c.crystal.length, (c.numbers numModes numK numBands).take n)) = .ub := by
  apply readChunk_short numModes numK numBands ikMap c hc
  rw [List.length_take]
  omega

/-- Violated: a file that is missing is not refused: the number of wavevectors is a variable without a value. -/
theorem C186_violated_missing (numModes numK numBands : Nat) (ikMap : Nat → Nat) : readChunk numModes numBands numK ikMap none = .ub := rfl

/-- Two stars of a mesh of two wavevectors, three modes and two bands: the hypotheses of `C186_mesh` are met. -/
example : ∃ (stars : List StarContent) (ikMap : Nat → Nat) (index : V3 ℝ → Nat), stars.length = 2 ∧ (∀ c ∈ stars, c.Good 3) ∧
    (∀ i < 2, ikMap i < 2) ∧ (∀ i < 2, ∀ j < 2, ikMap i = ikMap j → i = j) ∧ ikMap 0 ≠ 0 ∧
    (∀ a (ha : a < stars.length) b (hb : b < stars.length) i (hi : i < stars[a].crystal.length) j (hj : j < stars[b].crystal.length),
      index stars[a].crystal[i] = index stars[b].crystal[j] → a = b ∧ i = j) := by
  classical
  refine ⟨[⟨[⟨0, 0, 0⟩], [⟨0, 0, 0⟩], [0, 0, 0], fun _ _ _ => 1, fun _ _ _ _ _ => 1⟩,
    ⟨[⟨1 / 2, 0, 0⟩], [⟨3, 0, 0⟩], [1, 2, 3], fun _ _ _ => 1, fun _ _ _ _ _ => 2⟩], fun i => 1 - i, fun v => if v.x = 0 then 0 else 1, rfl, ?_, ?_,
    ?_, by decide, ?_⟩
  · intro c hc
    simp only [List.mem_cons, List.not_mem_nil, or_false] at hc
    rcases hc with rfl | rfl <;> exact ⟨rfl, rfl⟩
  · intro i _; show 1 - i < 2; omega
  · intro i hi j hj h; simp only at h; omega
  · intro a ha b hb i hi j hj h
    have ha : a = 0 ∨ a = 1 := by simp at ha; omega
    have hb : b = 0 ∨ b = 1 := by simp at hb; omega
    rcases ha with rfl | rfl <;> rcases hb with rfl | rfl
    · simp at hi hj; omega
    · simp at hi hj; subst hi hj; simp at h
    · simp at hi hj; subst hi hj; simp at h
    · simp at hi hj; omega

end Verif.Props
