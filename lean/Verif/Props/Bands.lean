import Verif.Proofs.Bands
import Verif.Proofs.Utilities
import Verif.Props.IrrPoints
import Verif.Props.Mpi
import Mathlib.Data.List.Sort

/-! # Properties C27-C30, C35, C76: indices of band structures -/
namespace Verif.Props
open Verif.Model

/-! ## C27 full band structure -/

/-- The index of every (wavevector, band) is computed without overflow, lies in the range of states, and
both ways of decoding it give back the wavevector and the band. -/
theorem C27_roundtrip (numPoints numBands ik ib : Int) (hk : 0 ≤ ik ∧ ik < numPoints)
    (hb : 0 ≤ ib ∧ ib < numBands) (hfit : numPoints * numBands ≤ intMax) :
    ∃ is, fullGetIndex numBands ik ib = .ok is ∧ 0 ≤ is ∧ is < numPoints * numBands ∧
      fullGetBloch numBands is = .ok (ik, ib) ∧ fullEnergyPosition numPoints numBands is = .ok (ik, ib) := by
  obtain ⟨a, b, c, d⟩ := nonneg_mul_lt hk.1 hk.2 hb.1 hb.2
  have h1 := compress2_val hk.1 hk.2 hb.1 hb.2 (by omega : numPoints * numBands ≤ intMax + 1)
  have hd : decompress2Indices (ik * numBands + ib) numPoints numBands = .ok (ik, ib) := by
    rw [decompress2_val a (by omega) (by omega), add_mul_ediv_lt hb.1 hb.2]
    have : (ik * numBands + ib) % numBands = ib := by
      rw [add_comm, Int.add_mul_emod_self_right, Int.emod_eq_of_lt hb.1 hb.2]
    rw [this]
  exact ⟨ik * numBands + ib, h1, a, b, hd, hd⟩

/-- Every state index in range decodes to an in-range wavevector and band that encode to it. -/
theorem C27_surjective (numPoints numBands is : Int) (hb : 0 < numBands)
    (hfit : numPoints * numBands ≤ intMax) (his : 0 ≤ is ∧ is < numPoints * numBands) :
    ∃ ik ib, fullGetBloch numBands is = .ok (ik, ib) ∧ (0 ≤ ik ∧ ik < numPoints) ∧ (0 ≤ ib ∧ ib < numBands) ∧
      fullGetIndex numBands ik ib = .ok is := by
  have a : 0 ≤ is / numBands := Int.ediv_nonneg his.1 (by omega)
  have b : is / numBands * numBands + is % numBands = is := by rw [mul_comm]; exact Int.mul_ediv_add_emod is numBands
  have c : 0 ≤ is % numBands := Int.emod_nonneg _ (by omega)
  have d : is % numBands < numBands := Int.emod_lt_of_pos _ hb
  have e : is / numBands < numPoints := Int.ediv_lt_of_lt_mul hb his.2
  refine ⟨is / numBands, is % numBands, decompress2_val (s1 := numPoints) his.1 (by omega) hb, ⟨a, e⟩, ⟨c, d⟩, ?_⟩
  have := compress2_val (s1 := numPoints) a e c d (by omega)
  rw [b] at this
  exact this

example : fullGetIndex 6 3 2 = .ok 20 ∧ fullGetBloch 6 20 = .ok (3, 2) := by decide

/-! ## C28 active band structure -/

/-- For every profile of band counts: the index of an active (wavevector, band) is in range and the stored
table gives back the wavevector and the band. -/
theorem C28_roundtrip (B : ActiveLayout) (ik ib : Nat) (hk : ik < B.numPoints) (hb : ib < B.numBands ik) :
    B.bloch2Comb ik ib < B.numStates ∧ B.comb2Bloch (B.bloch2Comb ik ib) = .ok (ik, ib) := by
  refine ⟨?_, comb2Bloch_val B hk hb⟩
  unfold ActiveLayout.bloch2Comb
  rw [kbOffset_eq, numStates_eq]
  exact offs_block_lt _ hk hb

/-- Every state index in range is the index of the (wavevector, band) stored in the table. -/
theorem C28_surjective (B : ActiveLayout) (is : Nat) (h : is < B.numStates) :
    ∃ ik ib, B.comb2Bloch is = .ok (ik, ib) ∧ ik < B.numPoints ∧ ib < B.numBands ik ∧ B.bloch2Comb ik ib = is := by
  rw [numStates_eq] at h
  obtain ⟨ik, ib, h1, h2, h3⟩ := offs_exists _ h
  have he : B.bloch2Comb ik ib = is := by unfold ActiveLayout.bloch2Comb; rw [kbOffset_eq, h3]
  exact ⟨ik, ib, by rw [← he]; exact comb2Bloch_val B h1 h2, h1, h2, he⟩

/-- States are numbered wavevector by wavevector, and by band within a wavevector. -/
theorem C28_order (B : ActiveLayout) (ik ib ik' ib' : Nat) (hb : ib < B.numBands ik) (hb' : ib' < B.numBands ik') :
    B.bloch2Comb ik ib < B.bloch2Comb ik' ib' ↔ (ik < ik' ∨ (ik = ik' ∧ ib < ib')) := by
  unfold ActiveLayout.bloch2Comb
  rw [kbOffset_eq, kbOffset_eq]
  rcases Nat.lt_trichotomy ik ik' with h | h | h
  · have := offs_block_lt B.numBands h hb
    constructor
    · intro _; exact Or.inl h
    · intro _; omega
  · subst h; constructor
    · intro h; right; omega
    · rintro (h | h) <;> omega
  · have := offs_block_lt B.numBands h hb'
    constructor
    · intro _; omega
    · rintro (h' | h') <;> omega

/-- The number of states is the sum of the band counts. -/
theorem C28_count (B : ActiveLayout) : B.numStates = ((List.range B.numPoints).map B.numBands).sum := by
  unfold ActiveLayout.numStates
  rw [← List.foldl_map (f := B.numBands) (g := (· + ·)), foldl_add_eq, zero_add]

example : let B : ActiveLayout := ⟨3, fun k => [2, 0, 3].getD k 0, 6⟩
    B.bloch2Comb 2 1 = 3 ∧ B.comb2Bloch 3 = .ok (2, 1) ∧ B.numStates = 5 := by decide

/-! ## C29 storage -/

/-- Energies: for every profile of band counts and every history of writes of whole wavevectors, no access is
out of bounds, and reading the energies of a wavevector returns those last written for it (or the initial
ones). -/
theorem C29_energies {α : Type} (B : ActiveLayout) (ops : List (Nat × (Nat → α)))
    (hops : ∀ o ∈ ops, o.1 < B.numPoints) (buf : List α) (hbuf : buf.length = B.numStates) :
    ∃ buf', foldOutcome (fun (o : Nat × (Nat → α)) (b : List α) => B.setEnergies b o.1 (B.numBands o.1) o.2)
        ops buf = .ok buf' ∧ buf'.length = buf.length ∧
      ∀ ik, ik < B.numPoints → ∀ ib, ib < B.numBands ik → readAt buf' (B.bloch2Comb ik ib) =
        match ops.reverse.find? (fun o => o.1 = ik) with
        | some o => .ok (o.2 ib)
        | none => readAt buf (B.bloch2Comb ik ib) := by
  obtain ⟨buf', h1, h2, h3⟩ := history B.numPoints (fun k => List.range (B.numBands k)) B.bloch2Comb
    (fun _ => List.nodup_range) (by
      intro k k' l l' _ _ hl hl' h
      unfold ActiveLayout.bloch2Comb at h
      rw [kbOffset_eq, kbOffset_eq] at h
      exact offs_unique _ (by simpa using hl) (by simpa using hl') h) ops hops buf (by
      intro k l hk hl
      rw [hbuf]
      exact (C28_roundtrip B k l hk (by simpa using hl)).1)
  refine ⟨buf', h1, h2, fun ik hik ib hib => ?_⟩
  rw [h3 ik ib hik (by simpa using hib)]
  cases ops.reverse.find? (fun o => o.1 = ik) <;> rfl

/-- The energies of a wavevector are read from those positions. -/
theorem C29_getEnergies {α : Type} (B : ActiveLayout) (buf : List α) (hbuf : buf.length = B.numStates) (ik : Nat)
    (hik : ik < B.numPoints) (e : Nat → α)
    (he : ∀ ib, ib < B.numBands ik → readAt buf (B.bloch2Comb ik ib) = .ok (e ib)) :
    B.getEnergies buf ik = .ok ((List.range (B.numBands ik)).map e) := by
  unfold ActiveLayout.getEnergies
  exact mapOutcome_ok _ (fun ib hib => he ib (by simpa using hib))

/-- Eigenvectors, likewise. -/
theorem C29_eigenvectors {α : Type} (B : ActiveLayout) (ops : List (Nat × (Nat → Nat → α)))
    (hops : ∀ o ∈ ops, o.1 < B.numPoints) (buf : List α) (hbuf : buf.length = B.numEigStates) :
    ∃ buf', foldOutcome (fun (o : Nat × (Nat → Nat → α)) (b : List α) =>
        B.setEigenvectors b o.1 B.numFullBands (B.numBands o.1) o.2) ops buf = .ok buf' ∧
      buf'.length = buf.length ∧
      ∀ ik, ik < B.numPoints → ∀ i j, i < B.numFullBands → j < B.numBands ik → B.getEigenvector buf' ik i j =
        match ops.reverse.find? (fun o => o.1 = ik) with
        | some o => .ok (o.2 i j)
        | none => B.getEigenvector buf ik i j := by
  have hlt : ∀ k i j, i < B.numFullBands → j < B.numBands k →
      i * B.numBands k + j < B.numBands k * B.numFullBands := by
    intro k i j hi hj
    have : (i + 1) * B.numBands k ≤ B.numFullBands * B.numBands k := Nat.mul_le_mul_right _ hi
    rw [Nat.add_mul] at this
    rw [Nat.mul_comm (B.numBands k)]; omega
  obtain ⟨buf', h1, h2, h3⟩ := history (α := α) B.numPoints
    (fun k => (List.range B.numFullBands).flatMap fun i => (List.range (B.numBands k)).map fun j => (i, j))
    (fun k (l : Nat × Nat) => B.eigBloch2Comb k l.1 l.2) (fun _ => nodup_grid _ _) (by
      intro k k' l l' _ _ hl hl' h
      have hl := (mem_grid l).mp hl
      have hl' := (mem_grid l').mp hl'
      unfold ActiveLayout.eigBloch2Comb at h
      rw [kbOffset_mul_eq, kbOffset_mul_eq, Nat.add_assoc, Nat.add_assoc] at h
      obtain ⟨rfl, h'⟩ := offs_unique (fun i => B.numBands i * B.numFullBands) (hlt k _ _ hl.1 hl.2) (hlt k' _ _ hl'.1 hl'.2) h
      have hpos : 0 < B.numBands k := by omega
      refine ⟨rfl, Prod.ext ?_ ?_⟩
      · have := congrArg (· / B.numBands k) h'
        simpa [Nat.mul_comm _ (B.numBands k), Nat.mul_add_div hpos, Nat.div_eq_of_lt hl.2,
          Nat.div_eq_of_lt hl'.2] using this
      · have := congrArg (· % B.numBands k) h'
        simpa [Nat.mul_add_mod', Nat.mod_eq_of_lt hl.2, Nat.mod_eq_of_lt hl'.2] using this)
    (ops.map fun o => (o.1, fun l : Nat × Nat => o.2 l.1 l.2)) (by
      intro o ho
      obtain ⟨o', ho', rfl⟩ := List.mem_map.mp ho
      exact hops o' ho') buf (by
      intro k l hk hl
      have hl := (mem_grid l).mp hl
      rw [hbuf]
      unfold ActiveLayout.eigBloch2Comb ActiveLayout.numEigStates
      rw [foldl_offs, kbOffset_mul_eq, Nat.add_assoc]
      exact offs_block_lt _ hk (hlt k _ _ hl.1 hl.2))
  refine ⟨buf', ?_, h2, ?_⟩
  · rw [← h1]
    clear h1 h2 h3 hops hbuf
    induction ops generalizing buf with
    | nil => rfl
    | cons o t ih =>
      simp only [List.map_cons, foldOutcome]
      have : writeAll (((List.range B.numFullBands).flatMap fun i => (List.range (B.numBands o.1)).map fun j =>
          (i, j)).map fun l => (B.eigBloch2Comb o.1 l.1 l.2, o.2 l.1 l.2)) buf =
          B.setEigenvectors buf o.1 B.numFullBands (B.numBands o.1) o.2 := by
        unfold ActiveLayout.setEigenvectors
        rw [List.map_flatMap]
        simp only [List.map_map]; rfl
      rw [this]
      congr 1; funext b
      exact ih b
  · intro ik hik i j hi hj
    have := h3 ik (i, j) hik ((mem_grid _).mpr ⟨hi, hj⟩)
    unfold ActiveLayout.getEigenvector
    simp only at this
    rw [this, ← List.map_reverse, List.find?_map]
    simp only [Function.comp_def]
    cases ops.reverse.find? (fun o => o.1 = ik) <;> rfl

/-- Velocities, likewise. -/
theorem C29_velocities {α : Type} (B : ActiveLayout) (ops : List (Nat × (Nat → Nat → Nat → α)))
    (hops : ∀ o ∈ ops, o.1 < B.numPoints) (buf : List α) (hbuf : buf.length = B.numVelStates) :
    ∃ buf', foldOutcome (fun (o : Nat × (Nat → Nat → Nat → α)) (b : List α) =>
        B.setVelocities b o.1 (B.numBands o.1) (B.numBands o.1) o.2) ops buf = .ok buf' ∧
      buf'.length = buf.length ∧
      ∀ ik, ik < B.numPoints → ∀ i j c, i < B.numBands ik → j < B.numBands ik → c < 3 →
        B.getVelocity buf' ik i j c =
        match ops.reverse.find? (fun o => o.1 = ik) with
        | some o => .ok (o.2 i j c)
        | none => B.getVelocity buf ik i j c := by
  have hlt : ∀ k i j c, i < B.numBands k → j < B.numBands k → c < 3 →
      i * B.numBands k * 3 + (j * 3 + c) < 3 * B.numBands k * B.numBands k := by
    intro k i j c hi hj hc
    have h1 : (i + 1) * B.numBands k ≤ B.numBands k * B.numBands k := Nat.mul_le_mul_right _ hi
    rw [Nat.add_mul] at h1
    rw [Nat.mul_assoc 3]; omega
  have hmem : ∀ k (l : Nat × Nat × Nat), l ∈ ((List.range (B.numBands k)).flatMap fun i =>
      (List.range (B.numBands k)).flatMap fun j => (List.range 3).map fun c => (i, j, c)) ↔
      l.1 < B.numBands k ∧ l.2.1 < B.numBands k ∧ l.2.2 < 3 := by
    rintro k ⟨x, y, z⟩
    simp [List.mem_flatMap]
  obtain ⟨buf', h1, h2, h3⟩ := history (α := α) B.numPoints
    (fun k => (List.range (B.numBands k)).flatMap fun i => (List.range (B.numBands k)).flatMap fun j =>
      (List.range 3).map fun c => (i, j, c))
    (fun k (l : Nat × Nat × Nat) => B.velBloch2Comb k l.1 l.2.1 l.2.2) (by
      intro k
      rw [List.nodup_flatMap]
      refine ⟨fun i _ => ?_, List.nodup_range.imp ?_⟩
      · have := (nodup_grid (B.numBands k) 3).map (f := fun p => (i, p.1, p.2)) (by
          rintro ⟨a, b⟩ ⟨c, d⟩ h; simpa using h)
        rw [List.map_flatMap] at this
        simpa [Function.comp_def] using this
      · intro i i' hii' l hl hl'
        simp only [List.mem_flatMap, List.mem_map] at hl hl'
        obtain ⟨_, _, _, _, rfl⟩ := hl
        obtain ⟨_, _, _, _, h⟩ := hl'
        injection h with h _
        exact hii' h.symm) (by
      intro k k' l l' _ _ hl hl' h
      have hl := (hmem k l).mp hl
      have hl' := (hmem k' l').mp hl'
      unfold ActiveLayout.velBloch2Comb at h
      rw [kbbOffset_eq, kbbOffset_eq, Nat.add_assoc, Nat.add_assoc, Nat.add_assoc, Nat.add_assoc] at h
      obtain ⟨rfl, h'⟩ := offs_unique (fun i => 3 * B.numBands i * B.numBands i) (hlt k _ _ _ hl.1 hl.2.1 hl.2.2) (hlt k' _ _ _ hl'.1 hl'.2.1 hl'.2.2) h
      have hpos : 0 < B.numBands k := by omega
      have hc : l.2.2 = l'.2.2 := by omega
      have hij : l.1 * B.numBands k + l.2.1 = l'.1 * B.numBands k + l'.2.1 := by omega
      refine ⟨rfl, Prod.ext ?_ (Prod.ext ?_ hc)⟩
      · have := congrArg (· / B.numBands k) hij
        simpa [Nat.mul_comm _ (B.numBands k), Nat.mul_add_div hpos, Nat.div_eq_of_lt hl.2.1,
          Nat.div_eq_of_lt hl'.2.1] using this
      · have := congrArg (· % B.numBands k) hij
        simpa [Nat.mul_add_mod', Nat.mod_eq_of_lt hl.2.1, Nat.mod_eq_of_lt hl'.2.1] using this)
    (ops.map fun o => (o.1, fun l : Nat × Nat × Nat => o.2 l.1 l.2.1 l.2.2)) (by
      intro o ho
      obtain ⟨o', ho', rfl⟩ := List.mem_map.mp ho
      exact hops o' ho') buf (by
      intro k l hk hl
      have hl := (hmem k l).mp hl
      rw [hbuf]
      unfold ActiveLayout.velBloch2Comb ActiveLayout.numVelStates
      rw [foldl_offs, kbbOffset_eq, Nat.add_assoc, Nat.add_assoc]
      exact offs_block_lt _ hk (hlt k _ _ _ hl.1 hl.2.1 hl.2.2))
  refine ⟨buf', ?_, h2, ?_⟩
  · rw [← h1]
    clear h1 h2 h3 hops hbuf
    induction ops generalizing buf with
    | nil => rfl
    | cons o t ih =>
      simp only [List.map_cons, foldOutcome]
      have : writeAll (((List.range (B.numBands o.1)).flatMap fun i => (List.range (B.numBands o.1)).flatMap fun j =>
          (List.range 3).map fun c => (i, j, c)).map fun l =>
            (B.velBloch2Comb o.1 l.1 l.2.1 l.2.2, o.2 l.1 l.2.1 l.2.2)) buf =
          B.setVelocities buf o.1 (B.numBands o.1) (B.numBands o.1) o.2 := by
        unfold ActiveLayout.setVelocities
        simp only [List.map_flatMap, List.map_map]; rfl
      rw [this]
      congr 1; funext b
      exact ih b
  · intro ik hik i j c hi hj hc
    have := h3 ik (i, j, c) hik ((hmem _ _).mpr ⟨hi, hj, hc⟩)
    unfold ActiveLayout.getVelocity
    simp only at this
    rw [this, ← List.map_reverse, List.find?_map]
    simp only [Function.comp_def]
    cases ops.reverse.find? (fun o => o.1 = ik) <;> rfl

/-- All offsets are bounded by the array sizes: if the arrays have at most `INT_MAX` elements, no index
computation overflows. -/
theorem C29_no_overflow (B : ActiveLayout) (ik : Nat) (hik : ik ≤ B.numPoints) :
    B.kbOffset ik ≤ B.numStates ∧ B.kbbOffset ik ≤ B.numVelStates ∧
    B.kbOffset ik * B.numFullBands ≤ B.numEigStates := by
  unfold ActiveLayout.numStates ActiveLayout.numVelStates ActiveLayout.numEigStates
  rw [foldl_offs, foldl_offs, foldl_offs, kbOffset_mul_eq, kbOffset_eq, kbbOffset_eq]
  exact ⟨offs_mono _ hik, offs_mono _ hik, offs_mono _ hik⟩

example : let B : ActiveLayout := ⟨2, fun k => [1, 2].getD k 0, 2⟩
    B.setVelocities (List.replicate B.numVelStates (0 : Int)) 1 2 2 (fun i j c => 100 * i + 10 * j + c) =
      .ok [0, 0, 0, 0, 1, 2, 10, 11, 12, 100, 101, 102, 110, 111, 112] := by decide

/-! ## C30 BTE indices -/

/-- Active band structure: the BTE indices of the states of the irreducible points are `0, 1, ..` in the order
of the state iterator, and the two maps are inverse to each other. -/
theorem C30_active {nProc rank : Nat} {coords : Nat → V3 Rat} {lookup : V3 Rat → Outcome Int}
    {rots : List M3} (B : ActiveLayout) (h : IrrSetup nProc rank B.numPoints coords lookup rots)
    (vel : Option (Nat → Nat → Rat)) (s : IrrPoints)
    (hs : setIrreduciblePoints nProc rank B.numPoints coords lookup rots vel [] = .ok s) :
    mapOutcome (B.stateToBte s) (B.irrStateIterator s) = .ok (List.range (B.numIrrStates s)) ∧
    mapOutcome (B.bteToState s) (List.range (B.numIrrStates s)) = .ok (B.irrStateIterator s) := by
  set irr := s.irrPointsIterator B.numPoints with hirr
  obtain ⟨hm1, _⟩ := C19_maps h vel s hs
  have has : ∀ (k ik : Nat), irr[k]? = some ik → s.asIrreducibleIndex ik = .ok k := by
    intro k ik hk
    obtain ⟨hlt, _⟩ := List.getElem?_eq_some_iff.mp hk
    obtain ⟨ik', _, e1, e2⟩ := hm1 k hlt
    rw [← hirr, hk] at e1; cases e1; exact e2
  have hred : ∀ (k ik : Nat), irr[k]? = some ik → s.asReducibleIndex k = .ok ik := by
    intro k ik hk
    obtain ⟨hlt, _⟩ := List.getElem?_eq_some_iff.mp hk
    obtain ⟨ik', e0, e1, _⟩ := hm1 k hlt
    rw [← hirr, hk] at e1; cases e1; exact e0
  have hin : ∀ x ∈ irr, x < B.numPoints := by
    intro x hx
    rw [hirr] at hx
    unfold IrrPoints.irrPointsIterator at hx
    have := (List.mem_filter.mp hx).1
    simpa using this
  have hT : B.bteTables s = .ok ((List.range irr.length).map (offs (fun k => B.numBands (irr.getD k 0))),
      (List.range irr.length).flatMap fun k => (List.range (B.numBands (irr.getD k 0))).map fun ib => (k, ib)) :=
    bteLoop_spec B.numBands s.asIrreducibleIndex irr has
  set len : Nat → Nat := fun k => B.numBands (irr.getD k 0) with hlen
  have hN : B.numIrrStates s = offs len irr.length := foldl_list_offs B.numBands irr
  have hgetD : ∀ k (hk : k < irr.length), irr.getD k 0 = irr[k] := by
    intro k hk; simp [hk]
  -- the iterator as a list over irreducible indices
  have hiter : B.irrStateIterator s = (List.range irr.length).flatMap fun k =>
      (List.range (len k)).map fun ib => B.bloch2Comb (irr.getD k 0) ib := by
    unfold ActiveLayout.irrStateIterator
    rw [← hirr]
    have : irr = (List.range irr.length).map (fun k => irr.getD k 0) := by
      apply List.ext_getElem
      · simp
      · intro k h1 h2; simp [h1]
    conv_lhs => rw [this]
    rw [List.flatMap_map]
  have hrange : List.range (B.numIrrStates s) = (List.range irr.length).flatMap fun k =>
      (List.range (len k)).map fun ib => offs len k + ib := by
    rw [hN]
    generalize irr.length = n
    induction n with
    | zero => rfl
    | succ n ih =>
      rw [List.range_succ, List.flatMap_append, ← ih]
      simp only [List.flatMap_cons, List.flatMap_nil, List.append_nil, offs]
      exact List.range_add
  have hmapO : ∀ {α β : Type} (f : α → Outcome β) (n : Nat) (a : Nat → Nat → α) (b : Nat → Nat → β)
      (len : Nat → Nat), (∀ k ib, k < n → ib < len k → f (a k ib) = .ok (b k ib)) →
      mapOutcome f ((List.range n).flatMap fun k => (List.range (len k)).map (a k)) =
        .ok ((List.range n).flatMap fun k => (List.range (len k)).map (b k)) := by
    intro α β f n a b len hf
    have hone : ∀ (l1 l2 : List α) (r1 r2 : List β), mapOutcome f l1 = .ok r1 → mapOutcome f l2 = .ok r2 →
        mapOutcome f (l1 ++ l2) = .ok (r1 ++ r2) := by
      intro l1
      induction l1 with
      | nil => intro l2 r1 r2 e1 e2; cases e1; exact e2
      | cons x t ih =>
        intro l2 r1 r2 e1 e2
        unfold mapOutcome at e1
        cases hx : f x with
        | ok y =>
          rw [hx] at e1
          cases ht : mapOutcome f t with
          | ok ys =>
            simp only [Outcome.bind_eq, Outcome.bind_ok, ht] at e1
            cases e1
            rw [List.cons_append]
            unfold mapOutcome
            simp only [Outcome.bind_eq, hx, Outcome.bind_ok, ih l2 ys r2 ht e2, List.cons_append]
          | error => simp only [Outcome.bind_eq, Outcome.bind_ok, ht] at e1; simp at e1
          | ub => simp only [Outcome.bind_eq, Outcome.bind_ok, ht] at e1; simp at e1
          | diverge => simp only [Outcome.bind_eq, Outcome.bind_ok, ht] at e1; simp at e1
        | error => rw [hx] at e1; simp at e1
        | ub => rw [hx] at e1; simp at e1
        | diverge => rw [hx] at e1; simp at e1
    induction n with
    | zero => rfl
    | succ n ih =>
      rw [List.range_succ, List.flatMap_append, List.flatMap_append]
      refine hone _ _ _ _ (ih (fun k ib hk hib => hf k ib (by omega) hib)) ?_
      simp only [List.flatMap_cons, List.flatMap_nil, List.append_nil]
      have : ∀ l : List Nat, (∀ ib ∈ l, ib < len n) → mapOutcome f (l.map (a n)) = .ok (l.map (b n)) := by
        intro l
        induction l with
        | nil => intro _; rfl
        | cons x t ih =>
          intro hl
          simp only [List.map_cons]
          unfold mapOutcome
          simp only [Outcome.bind_eq, hf n x (by omega) (hl x (by simp)), Outcome.bind_ok,
            ih (fun y hy => hl y (by simp [hy]))]
      exact this _ (by simp)
  constructor
  · rw [hiter, hrange]
    apply hmapO
    intro k ib hk hib
    have hk? : irr[k]? = some irr[k] := List.getElem?_eq_getElem hk
    rw [hgetD k hk]
    have hib' : ib < B.numBands irr[k] := by
      have := hib; simp only [hlen] at this; rwa [hgetD k hk] at this
    unfold ActiveLayout.stateToBte
    rw [comb2Bloch_val B (hin _ (List.getElem_mem hk)) hib']
    simp only [Outcome.bind_eq, Outcome.bind_ok, has k _ hk?, hT]
    unfold readAt
    simp [hk]
  · rw [hiter, hrange]
    apply hmapO
    intro k ib hk hib
    have hk? : irr[k]? = some irr[k] := List.getElem?_eq_getElem hk
    unfold ActiveLayout.bteToState
    simp only [Outcome.bind_eq, Outcome.bind_ok, hT]
    have hr := flatMap_offs_getElem? (fun k => (List.range (len k)).map fun ib => (k, ib)) hk
      (b := ib) (by simpa using hib)
    simp only [List.length_map, List.length_range] at hr
    unfold readAt
    rw [hr]
    simp [hib, hred k _ hk?, hk]

/-- Active band structure: the states of symmetry-related points and same band have the same BTE index (the
one of the irreducible representative), given that related points have equally many bands. -/
theorem C30_active_star {nProc rank : Nat} {coords : Nat → V3 Rat} {lookup : V3 Rat → Outcome Int}
    {rots : List M3} (B : ActiveLayout) (h : IrrSetup nProc rank B.numPoints coords lookup rots)
    (vel : Option (Nat → Nat → Rat)) (s : IrrPoints)
    (hs : setIrreduciblePoints nProc rank B.numPoints coords lookup rots vel [] = .ok s)
    (hnb : ∀ i j, i < B.numPoints → j < B.numPoints → SymRelated rots coords i j → B.numBands i = B.numBands j)
    (j ib : Nat) (hj : j < B.numPoints) (hib : ib < B.numBands j) :
    ∃ ik ∈ s.irrPointsIterator B.numPoints, SymRelated rots coords ik j ∧
      B.stateToBte s (B.bloch2Comb j ib) = B.stateToBte s (B.bloch2Comb ik ib) ∧
      ∃ iBte, B.stateToBte s (B.bloch2Comb j ib) = .ok iBte ∧ iBte < B.numIrrStates s := by
  obtain ⟨hm1, hm2⟩ := C19_maps h vel s hs
  obtain ⟨k, e1, e2, ik, e3, e4⟩ := hm2 j hj
  obtain ⟨ik', f1, f2, f3⟩ := hm1 k e2
  rw [e3] at f1; cases f1
  have hmem := List.mem_of_getElem? f2
  have hik : ik < B.numPoints := by
    unfold IrrPoints.irrPointsIterator at hmem
    simpa using (List.mem_filter.mp hmem).1
  have hbk : ib < B.numBands ik := by rw [hnb ik j hik hj e4]; exact hib
  have heq : B.stateToBte s (B.bloch2Comb j ib) = B.stateToBte s (B.bloch2Comb ik ib) := by
    unfold ActiveLayout.stateToBte
    rw [comb2Bloch_val B hj hib, comb2Bloch_val B hik hbk]
    simp only [Outcome.bind_eq, Outcome.bind_ok, e1, f3]
  refine ⟨ik, hmem, e4, heq, ?_⟩
  rw [heq]
  have hall := (C30_active B h vel s hs).1
  have hin : B.bloch2Comb ik ib ∈ B.irrStateIterator s := by
    unfold ActiveLayout.irrStateIterator
    rw [List.mem_flatMap]
    exact ⟨ik, hmem, List.mem_map.mpr ⟨ib, by simpa using hbk, rfl⟩⟩
  -- a successful map gives a value of the result for each element
  have : ∀ {α β : Type} (f : α → Outcome β) (l : List α) (r : List β), mapOutcome f l = .ok r →
      ∀ x ∈ l, ∃ y ∈ r, f x = .ok y := by
    intro α β f l
    induction l with
    | nil => intro r _ x hx; simp at hx
    | cons a t ih =>
      intro r e x hx
      unfold mapOutcome at e
      cases ha : f a with
      | ok y =>
        rw [ha] at e
        cases ht : mapOutcome f t with
        | ok ys =>
          simp only [Outcome.bind_eq, Outcome.bind_ok, ht] at e
          cases e
          rcases List.mem_cons.mp hx with rfl | hx
          · exact ⟨y, by simp, ha⟩
          · obtain ⟨y', h1, h2⟩ := ih ys ht x hx
            exact ⟨y', by simp [h1], h2⟩
        | error => simp only [Outcome.bind_eq, Outcome.bind_ok, ht] at e; simp at e
        | ub => simp only [Outcome.bind_eq, Outcome.bind_ok, ht] at e; simp at e
        | diverge => simp only [Outcome.bind_eq, Outcome.bind_ok, ht] at e; simp at e
      | error => rw [ha] at e; simp at e
      | ub => rw [ha] at e; simp at e
      | diverge => rw [ha] at e; simp at e
  obtain ⟨y, hy, hfy⟩ := this _ _ _ hall _ hin
  exact ⟨y, hfy, by simpa using hy⟩

/-- Full band structure: BTE index of a state and back; range of the indices; symmetry-related states. -/
theorem C30_full {nProc rank n : Nat} {coords : Nat → V3 Rat} {lookup : V3 Rat → Outcome Int}
    {rots : List M3} (numBands : Nat) (hb : 0 < numBands) (h : IrrSetup nProc rank n coords lookup rots)
    (vel : Option (Nat → Nat → Rat)) (s : IrrPoints)
    (hs : setIrreduciblePoints nProc rank n coords lookup rots vel [] = .ok s) :
    (∀ is ∈ fullIrrStateIterator numBands n s, ∃ iBte, fullStateToBte numBands s is = .ok iBte ∧
      iBte < (s.irrPointsIterator n).length * numBands ∧ fullBteToState numBands s iBte = .ok is) ∧
    (∀ iBte, iBte < (s.irrPointsIterator n).length * numBands → ∃ is ∈ fullIrrStateIterator numBands n s,
      fullBteToState numBands s iBte = .ok is ∧ fullStateToBte numBands s is = .ok iBte) ∧
    (∀ j ib, j < n → ib < numBands → ∃ ik ∈ s.irrPointsIterator n, SymRelated rots coords ik j ∧
      fullStateToBte numBands s (j * numBands + ib) = fullStateToBte numBands s (ik * numBands + ib)) := by
  obtain ⟨hm1, hm2⟩ := C19_maps h vel s hs
  have hdiv : ∀ a b, b < numBands → (a * numBands + b) / numBands = a := by
    intro a b hb'
    rw [Nat.mul_comm, Nat.mul_add_div hb, Nat.div_eq_of_lt hb', Nat.add_zero]
  have hto : ∀ ik ib k, ib < numBands → s.asIrreducibleIndex ik = .ok k →
      fullStateToBte numBands s (ik * numBands + ib) = .ok (k * numBands + ib) := by
    intro ik ib k hib hk
    unfold fullStateToBte
    rw [if_neg (by omega)]
    simp only [hdiv _ _ hib, hk, Outcome.bind_eq, Outcome.bind_ok]
    congr 2; omega
  have hfrom : ∀ ik ib k, ib < numBands → s.asReducibleIndex k = .ok ik →
      fullBteToState numBands s (k * numBands + ib) = .ok (ik * numBands + ib) := by
    intro ik ib k hib hk
    unfold fullBteToState
    rw [if_neg (by omega)]
    simp only [hdiv _ _ hib, hk, Outcome.bind_eq, Outcome.bind_ok]
    congr 2; omega
  refine ⟨?_, ?_, ?_⟩
  · intro is his
    unfold fullIrrStateIterator at his
    obtain ⟨ik, hik, his⟩ := List.mem_flatMap.mp his
    obtain ⟨ib, hib, rfl⟩ := List.mem_map.mp his
    have hib : ib < numBands := by simpa using hib
    obtain ⟨k, hk, rfl⟩ := List.getElem_of_mem hik
    obtain ⟨ik', e1, e2, e3⟩ := hm1 k hk
    rw [List.getElem?_eq_getElem hk] at e2; cases e2
    refine ⟨_, hto _ _ _ hib e3, ?_, hfrom _ _ _ hib e1⟩
    have : (k + 1) * numBands ≤ (s.irrPointsIterator n).length * numBands := Nat.mul_le_mul_right _ hk
    rw [Nat.add_mul] at this; omega
  · intro iBte hi
    have hk : iBte / numBands < (s.irrPointsIterator n).length := Nat.div_lt_of_lt_mul (by rw [Nat.mul_comm]; exact hi)
    have hib : iBte % numBands < numBands := Nat.mod_lt _ hb
    have hdec : iBte / numBands * numBands + iBte % numBands = iBte := by
      rw [Nat.mul_comm]; exact Nat.div_add_mod _ _
    obtain ⟨ik', e1, e2, e3⟩ := hm1 _ hk
    refine ⟨ik' * numBands + iBte % numBands, ?_, ?_, ?_⟩
    · unfold fullIrrStateIterator
      rw [List.mem_flatMap]
      exact ⟨ik', List.mem_of_getElem? e2, List.mem_map.mpr ⟨_, by simpa using hib, rfl⟩⟩
    · rw [← hfrom _ _ _ hib e1, hdec]
    · rw [hto _ _ _ hib e3, hdec]
  · intro j ib hj hib
    obtain ⟨k, e1, e2, ik, e3, e4⟩ := hm2 j hj
    obtain ⟨ik', f1, f2, f3⟩ := hm1 k e2
    rw [e3] at f1; cases f1
    exact ⟨ik, List.mem_of_getElem? f2, e4, by rw [hto _ _ _ hib e1, hto _ _ _ hib f3]⟩

/-! ## C35 distributed band structure -/

private theorem sorted_set (l : List Nat) : (toSortedSet l).Pairwise (· < ·) ∧ ∀ x, x ∈ toSortedSet l ↔ x ∈ l := by
  have : ∀ (l acc : List Nat), acc.Pairwise (· < ·) → (l.foldl (fun s x => setInsert x s) acc).Pairwise (· < ·) ∧
      ∀ x, x ∈ l.foldl (fun s x => setInsert x s) acc ↔ x ∈ acc ∨ x ∈ l := by
    intro l
    induction l with
    | nil => intro acc h; exact ⟨h, by simp⟩
    | cons a t ih =>
      intro acc h
      obtain ⟨h1, h2⟩ := ih (setInsert a acc) (sorted_setInsert a acc h)
      refine ⟨h1, fun x => ?_⟩
      rw [List.foldl_cons, h2 x, mem_setInsert]
      simp only [List.mem_cons]; tauto
  have h := this l [] List.Pairwise.nil
  exact ⟨h.1, fun x => by rw [toSortedSet, h.2 x]; simp⟩

private theorem sorted_ext {l1 l2 : List Nat} (h1 : l1.Pairwise (· < ·)) (h2 : l2.Pairwise (· < ·))
    (h : ∀ x, x ∈ l1 ↔ x ∈ l2) : l1 = l2 := by
  have hp : l1.Perm l2 := (List.perm_ext_iff_of_nodup (h1.imp (fun h => by omega)) (h2.imp (fun h => by omega))).mpr h
  exact hp.eq_of_pairwise (le := (· < ·)) (fun a b _ _ hab hba => by omega) h1 h2

/-- The constructor accepts any number of processes up to the number of points and refuses more. -/
theorem C35_accepts (size numBands numPoints : Nat) (hs : 0 < size) (hb : 0 < numBands) :
    (numPoints < size → fullLayout size numBands numPoints = .error) ∧
    (size ≤ numPoints → ∃ L, fullLayout size numBands numPoints = .ok L ∧ L.Good ∧ L.numRows = numBands ∧
      L.numCols = numPoints ∧ L.numBlasRows = 1 ∧ L.numBlasCols = size ∧ L.blockSizeRows = numBands ∧
      L.blockSizeCols = blockSize numPoints size) := by
  constructor
  · intro h; unfold fullLayout; simp only; rw [if_pos h]
  · intro h
    refine ⟨⟨numBands, numPoints, blockSize numBands 1, blockSize numPoints size, 1, size⟩, ?_,
      ⟨blockSize_pos hb, blockSize_pos (by omega), Nat.one_pos, hs⟩, rfl, rfl, rfl, rfl, by simp [blockSize, Nat.mod_one], rfl⟩
    unfold fullLayout
    simp only
    rw [if_neg (by omega), min_eq_left h]
    unfold mkLayout initBlacs
    rw [if_neg (by omega), if_neg (by omega), if_neg (by omega), if_pos (by omega)]
    simp only [Outcome.bind_eq, Outcome.bind_ok]
    rw [if_neg (by simp; omega)]
    simp

/-- The lists of wavevectors held by the processes, taken in rank order, are together exactly the list of all
wavevectors: contiguous, ordered, each held once. -/
theorem C35_points (size numBands numPoints : Nat) (hs : 0 < size) (hb : 0 < numBands) (hle : size ≤ numPoints)
    (L : Layout) (hL : fullLayout size numBands numPoints = .ok L) :
    (List.range size).flatMap (fullWavevectorIndices L) = List.range numPoints := by
  obtain ⟨L', e, hG, h1, h2, h3, h4, h5, h6⟩ := (C35_accepts size numBands numPoints hs hb).2 hle
  rw [hL] at e; cases e
  set b := blockSize numPoints size with hbdef
  have hbpos : 0 < b := blockSize_pos (by omega)
  have hcov : numPoints ≤ b * size := by
    rw [hbdef]; unfold blockSize
    have hdm := Nat.div_add_mod numPoints size
    by_cases h0 : numPoints % size = 0
    · rw [if_neg (by simpa using h0), Nat.add_zero, Nat.mul_comm]; omega
    · rw [if_pos h0, Nat.add_mul, Nat.mul_comm]
      have := Nat.mod_lt numPoints hs
      omega
  let cut : Nat → Nat := fun r => min (r * b) numPoints
  have hcm : ∀ r, cut r ≤ cut (r + 1) := by
    intro r; simp only [cut, Nat.add_mul]; omega
  have hone : ∀ r, r < size → fullWavevectorIndices L r = List.range' (cut r) (cut (r + 1) - cut r) := by
    intro r hr
    apply sorted_ext (sorted_set _).1 List.pairwise_lt_range'
    intro k
    rw [List.mem_range'_1]
    rw [(sorted_set _).2, List.mem_map]
    have hiff : (k < numPoints ∧ k / b = r) ↔ (cut r ≤ k ∧ k < cut r + (cut (r + 1) - cut r)) := by
      have hdm := Nat.div_add_mod k b
      have hml := Nat.mod_lt k hbpos
      have := hcm r
      have e1 : cut r + (cut (r + 1) - cut r) = cut (r + 1) := by omega
      rw [e1]
      simp only [cut, Nat.add_mul, Nat.one_mul]
      constructor
      · rintro ⟨hk, rfl⟩
        rw [Nat.mul_comm] at hdm
        omega
      · rintro ⟨h7, h8⟩
        have hk : k < numPoints := by omega
        refine ⟨hk, ?_⟩
        have h9 : r * b ≤ k := by omega
        have h10 : k < r * b + b := by omega
        exact Nat.div_eq_of_lt_le h9 (by rw [Nat.add_mul]; omega)
    rw [← hiff]
    constructor
    · rintro ⟨e, he, rfl⟩
      obtain ⟨_, g2, g3⟩ := (mem_localStates L hG (by omega) (by omega) e).mp he
      have g4 := ((global2Local_ne L).mp g3).2
      rw [h4, h6] at g4
      rw [h2] at g2
      refine ⟨g2, ?_⟩
      unfold own at g4
      rw [Nat.mod_eq_of_lt (Nat.div_lt_of_lt_mul (by omega))] at g4
      exact g4.symm
    · rintro ⟨hk, rfl⟩
      refine ⟨(0, k), (mem_localStates L hG (by omega) (by omega) (0, k)).mpr ⟨by rw [h1]; exact hb, by rw [h2]; exact hk, ?_⟩, rfl⟩
      apply (global2Local_ne L).mpr
      refine ⟨?_, ?_⟩
      · rw [h3, h5]; unfold own; simp
      · rw [h4, h6]; unfold own
        rw [Nat.mod_eq_of_lt (Nat.div_lt_of_lt_mul (by omega))]
  have hflat : ∀ n, (List.range n).flatMap (fun r => List.range' (cut r) (cut (r + 1) - cut r)) = List.range (cut n) := by
    intro n
    induction n with
    | zero => simp [cut]
    | succ n ih =>
      rw [List.range_succ, List.flatMap_append, ih]
      simp only [List.flatMap_cons, List.flatMap_nil, List.append_nil]
      have e := List.range'_append_1 (s := 0) (m := cut n) (n := cut (n + 1) - cut n)
      rw [Nat.zero_add] at e
      rw [List.range_eq_range', List.range_eq_range', e]
      congr 1
      have := hcm n; omega
  have : (List.range size).flatMap (fullWavevectorIndices L) =
      (List.range size).flatMap (fun r => List.range' (cut r) (cut (r + 1) - cut r)) := by
    rw [List.flatMap_def, List.flatMap_def]
    congr 1
    exact List.map_congr_left (fun r hr => hone r (by simpa using hr))
  rw [this, hflat]
  congr 1
  simp only [cut, Nat.mul_comm size]; omega

/-- The lists of (wavevector, band) states held by the processes are together a permutation of all states. -/
theorem C35_states (size numBands numPoints : Nat) (hs : 0 < size) (hb : 0 < numBands) (hle : size ≤ numPoints)
    (L : Layout) (hL : fullLayout size numBands numPoints = .ok L) :
    ((List.range size).flatMap (fullStateIndices L)).Perm
      ((List.range numPoints).flatMap fun k => (List.range numBands).map fun b => (k, b)) := by
  obtain ⟨L', e, hG, h1, h2, h3, h4, h5, h6⟩ := (C35_accepts size numBands numPoints hs hb).2 hle
  rw [hL] at e; cases e
  have hp := (states_perm L hG).map (fun e => (e.2, e.1))
  have e1 : (L.procs.flatMap fun p => L.getAllLocalStates p.1 p.2).map (fun e => (e.2, e.1)) =
      (List.range size).flatMap (fullStateIndices L) := by
    unfold Layout.procs
    rw [h3, h4, List.map_flatMap]
    simp only [List.range_one, List.flatMap_cons, List.flatMap_nil, List.append_nil, List.flatMap_map]
    rfl
  rw [e1] at hp
  refine hp.trans ?_
  rw [List.perm_ext_iff_of_nodup _ (nodup_grid _ _)]
  · rintro ⟨k, bd⟩
    rw [mem_grid, List.mem_map]
    unfold Layout.elements
    rw [h1, h2]
    constructor
    · rintro ⟨e, he, hh⟩
      cases hh
      exact ((mem_grid e).mp he).symm
    · rintro ⟨g1, g2⟩
      exact ⟨(bd, k), (mem_grid _).mpr ⟨g2, g1⟩, rfl⟩
  · exact (nodup_grid _ _).map (fun a b h => by simpa [Prod.ext_iff, and_comm] using h)

example : ∃ L, fullLayout 3 2 7 = .ok L ∧ fullWavevectorIndices L 0 = [0, 1, 2] ∧
    fullWavevectorIndices L 2 = [6] ∧ fullStateIndices L 2 = [(6, 0), (6, 1)] :=
  ⟨⟨2, 7, 2, 3, 1, 3⟩, by decide, by decide, by decide, by decide⟩

/-! ## C76 iterator over states -/

/-- When every process stores all points, the per-process lists of the parallel state iterator, in rank order,
are together the list of all states.  Missing with respect to C76: distributed band structures. -/
theorem C76_not_distributed_partial (numBands numPoints size : Nat) (hs : 0 < size)
    (hfit : numBands * numPoints * size < sizeTMod) :
    ∃ it : Nat → List Nat, (∀ r, r < size → parallelStateIterator numBands numPoints r size = .ok (it r)) ∧
      (List.range size).flatMap it = List.range (numPoints * numBands) := by
  obtain ⟨w, h1, h2⟩ := C06_partition (numBands * numPoints) size hs hfit
  exact ⟨w, h1, by rw [h2, Nat.mul_comm]⟩

/-- The full C76 is violated for a distributed band structure: with 1 band and 4 points on 2 processes, each
process stores 2 points and the two iterators give states 0 and 1 only. -/
theorem C76_violated : ∃ L, fullLayout 2 1 4 = .ok L ∧ L.localCols 0 = 2 ∧ L.localCols 1 = 2 ∧
    parallelStateIterator 1 (L.localCols 0) 0 2 = .ok [0] ∧
    parallelStateIterator 1 (L.localCols 1) 1 2 = .ok [1] :=
  ⟨⟨1, 4, 1, 2, 1, 2⟩, by decide, by decide, by decide, by decide, by decide⟩

end Verif.Props
