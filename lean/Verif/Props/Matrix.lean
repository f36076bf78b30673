import Verif.Proofs.Matrix
import Mathlib.Tactic.FieldSimp
import Mathlib.Algebra.Order.Ring.Rat
import Mathlib.Algebra.BigOperators.Ring.List

/-! # Properties C21-C26: dense matrices -/
namespace Verif.Props
open Verif.Model

/-! ## C21 one owner per element -/

/-- Layouts produced by the constructor for a non-empty matrix on a process grid are good. -/
theorem C21_reachable (size r c br bc nr nc : Nat) (hr : 0 < r) (hc : 0 < c) (hs : 0 < size)
    (hb : br ≤ size ∧ bc ≤ size) (L : Layout)
    (h : mkLayout size r c br bc nr nc = .ok L) :
    L.Good ∧ L.numRows = r ∧ L.numCols = c ∧ L.numBlasRows * L.numBlasCols ≤ size := by
  unfold mkLayout at h
  have key : ∀ g, initBlacs size br bc = .ok g → 0 < g.1 ∧ 0 < g.2 ∧ g.1 * g.2 ≤ size := by
    intro g hg
    unfold initBlacs at hg
    by_cases h0 : size < br * bc
    · rw [if_pos h0] at hg; simp at hg
    · rw [if_neg h0] at hg
      by_cases h1 : br ≠ 0 ∧ bc = 0
      · rw [if_pos h1] at hg; cases hg
        exact ⟨Nat.pos_of_ne_zero h1.1, Nat.div_pos hb.1 (Nat.pos_of_ne_zero h1.1), Nat.mul_div_le _ _⟩
      · rw [if_neg h1] at hg
        by_cases h2 : br = 0 ∧ bc ≠ 0
        · rw [if_pos h2] at hg; cases hg
          exact ⟨Nat.div_pos hb.2 (Nat.pos_of_ne_zero h2.2), Nat.pos_of_ne_zero h2.2, Nat.div_mul_le_self _ _⟩
        · rw [if_neg h2] at hg
          by_cases h3 : br ≠ 0 ∧ bc ≠ 0
          · rw [if_pos h3] at hg; cases hg
            exact ⟨Nat.pos_of_ne_zero h3.1, Nat.pos_of_ne_zero h3.2, by simpa using h0⟩
          · rw [if_neg h3] at hg
            simp only at hg
            by_cases h4 : size > Nat.sqrt size * Nat.sqrt size
            · rw [if_pos h4] at hg; simp at hg
            · rw [if_neg h4] at hg; cases hg
              have hp : 0 < Nat.sqrt size := Nat.sqrt_pos.mpr hs
              exact ⟨hp, hp, Nat.sqrt_le size⟩
  cases hg : initBlacs size br bc with
  | ok g =>
    obtain ⟨k1, k2, k3⟩ := key g hg
    simp only [hg, Outcome.bind_eq, Outcome.bind] at h
    by_cases hz : (if nr = 0 then g.1 else nr) = 0 ∨ (if nc = 0 then g.2 else nc) = 0
    · rw [if_pos hz] at h; simp at h
    · rw [if_neg hz] at h
      cases h
      exact ⟨⟨blockSize_pos hr, blockSize_pos hc, k1, k2⟩, rfl, rfl, k3⟩
  | error => rw [hg] at h; simp at h
  | ub => rw [hg] at h; simp at h
  | diverge => rw [hg] at h; simp at h

example : mkLayout 4 5 7 0 0 0 0 = .ok ⟨5, 7, 3, 4, 2, 2⟩ := by decide +kernel

/-- Every element of the global matrix is stored by exactly one process of the grid. -/
theorem C21_unique_owner (L : Layout) (hL : L.Good) (i j : Nat) (hi : i < L.numRows) (hj : j < L.numCols) :
    ∃! p : Nat × Nat, p.1 < L.numBlasRows ∧ p.2 < L.numBlasCols ∧ L.global2Local p.1 p.2 i j ≠ -1 := by
  refine ⟨(own L.blockSizeRows L.numBlasRows i, own L.blockSizeCols L.numBlasCols j),
    ⟨Nat.mod_lt _ hL.pr, Nat.mod_lt _ hL.pc, (global2Local_ne L).mpr ⟨rfl, rfl⟩⟩, ?_⟩
  rintro ⟨a, b⟩ ⟨_, _, h⟩
  obtain ⟨rfl, rfl⟩ := (global2Local_ne L).mp h
  rfl

/-- On its owner, element `(i, j)` has a position inside the local buffer, from which `(i, j)` is recovered. -/
theorem C21_global_local_global (L : Layout) (hL : L.Good) (i j pr pc : Nat) (hi : i < L.numRows)
    (hj : j < L.numCols) (h : L.global2Local pr pc i j ≠ -1) :
    ∃ k : Nat, L.global2Local pr pc i j = k ∧ k < L.localElements pr pc ∧ L.local2Global pr pc k = (i, j) := by
  obtain ⟨rfl, rfl⟩ := (global2Local_ne L).mp h
  obtain ⟨k, h1, h2, h3⟩ := global_element L hL hi hj
  exact ⟨k, h2, h1, h3⟩

/-- Every position of a local buffer belongs to an element of the matrix, from which the position is
recovered. -/
theorem C21_local_global_local (L : Layout) (hL : L.Good) (pr pc k : Nat) (hpr : pr < L.numBlasRows)
    (hpc : pc < L.numBlasCols) (hk : k < L.localElements pr pc) :
    (L.local2Global pr pc k).1 < L.numRows ∧ (L.local2Global pr pc k).2 < L.numCols ∧
    L.global2Local pr pc (L.local2Global pr pc k).1 (L.local2Global pr pc k).2 = k :=
  local_element L hL hpr hpc hk

/-- The lists of local elements of all processes together list every element exactly once. -/
theorem C21_partition (L : Layout) (hL : L.Good) :
    (((List.range L.numBlasRows).flatMap fun pr => (List.range L.numBlasCols).map fun pc => (pr, pc)).flatMap
      fun p => L.getAllLocalStates p.1 p.2).Perm
    ((List.range L.numRows).flatMap fun i => (List.range L.numCols).map fun j => (i, j)) :=
  states_perm L hL

example : (⟨5, 7, 2, 3, 2, 2⟩ : Layout).Good := ⟨by decide, by decide, by decide, by decide⟩

/-! ## C22 local rows and columns -/

/-- The full C22 is violated: for a 2x2 matrix on 4 processes (default layout), process row 0 stores row 0
but its list of local rows is [-1]. -/
theorem C22_violated : ∃ L, mkLayout 4 2 2 0 0 0 0 = .ok L ∧ L.global2Local 0 0 0 0 = 0 ∧
    L.getAllLocalRows 0 = [-1] := ⟨⟨2, 2, 1, 1, 2, 2⟩, by decide +kernel, by decide, by decide⟩

/-- Also violated with two blocks per process: rows 0,1,4,5 of 8 are stored but the list is 0,1,2,5. -/
theorem C22_violated_blocks : ∃ L, mkLayout 4 8 8 0 0 4 4 = .ok L ∧ L.getAllLocalRows 0 = [0, 1, 2, 5] ∧
    L.global2Local 0 0 4 0 ≠ -1 ∧ L.global2Local 0 0 2 0 = -1 :=
  ⟨⟨8, 8, 2, 2, 2, 2⟩, by decide +kernel, by decide, by decide, by decide⟩

private theorem indxl2g_val (k nb p P : Nat) (hnb : 1 < nb) (hk : k < nb) (hp : p < P) :
    indxl2g k nb p P = ((p * nb + k : Nat) : Int) := by
  have hmod : (((P : Int) + p).tmod P) = p := by
    rw [← Int.natCast_add, ← Int.ofNat_tmod, Nat.add_mod_left, Nat.mod_eq_of_lt hp]
  unfold indxl2g
  rw [hmod]
  cases k with
  | zero =>
    have h1 : ((0 : Nat) : Int) - 1 = -((1 : Nat) : Int) := by norm_num
    rw [h1, Int.neg_tdiv, Int.neg_tmod, ← Int.ofNat_tdiv, ← Int.ofNat_tmod, Nat.div_eq_of_lt hnb,
      Nat.mod_eq_of_lt hnb]
    push_cast; ring
  | succ k =>
    have h1 : ((k + 1 : Nat) : Int) - 1 = (k : Int) := by push_cast; ring
    rw [h1, ← Int.ofNat_tdiv, ← Int.ofNat_tmod, Nat.div_eq_of_lt (by omega), Nat.mod_eq_of_lt (by omega)]
    push_cast; ring

private theorem numroc_one_block {n nb P p : Nat} (hnb : 0 < nb) (hp : p < P) (hn : n ≤ nb * P) (k : Nat)
    (hk : k < numroc n nb p P) : k < nb := by
  have h := (lt_numroc hnb hp).mp hk
  by_contra hc
  have h1 : 1 ≤ k / nb := (Nat.one_le_div_iff hnb).mpr (by omega)
  have h2 : P ≤ k / nb * P := Nat.le_mul_of_pos_left _ h1
  have h3 : P * nb ≤ (k / nb * P + p) * nb := Nat.mul_le_mul_right _ (by omega)
  unfold glo at h
  have : P * nb = nb * P := Nat.mul_comm _ _
  omega

private theorem localList {n nb P p : Nat} (hnb : 1 < nb) (hp : p < P) (hn : n ≤ nb * P) :
    let l := (List.range (numroc n nb p P)).map fun k : Nat => indxl2g k nb p P
    l.Pairwise (· < ·) ∧ ∀ x : Int, x ∈ l ↔ ∃ g : Nat, x = g ∧ g < n ∧ own nb P g = p := by
  have hval : ∀ k, k < numroc n nb p P → indxl2g k nb p P = ((glo nb P p k : Nat) : Int) := by
    intro k hk
    have hkb := numroc_one_block (by omega) hp hn k hk
    rw [indxl2g_val k nb p P hnb hkb hp]
    unfold glo
    rw [Nat.div_eq_of_lt hkb, Nat.mod_eq_of_lt hkb]; simp
  intro l
  constructor
  · refine List.Pairwise.map _ ?_ (List.Pairwise.imp_of_mem (S := fun a b => a < b ∧ b < numroc n nb p P)
      (fun _ hb h => ⟨h, by simpa using hb⟩) List.pairwise_lt_range)
    rintro a b ⟨hab, hb⟩
    rw [hval a (by omega), hval b hb]
    have ha' := numroc_one_block (by omega) hp hn a (by omega)
    have hb' := numroc_one_block (by omega) hp hn b hb
    unfold glo
    rw [Nat.div_eq_of_lt ha', Nat.mod_eq_of_lt ha', Nat.div_eq_of_lt hb', Nat.mod_eq_of_lt hb']
    push_cast; omega
  · intro x
    simp only [l, List.mem_map, List.mem_range]
    constructor
    · rintro ⟨k, hk, rfl⟩
      exact ⟨glo nb P p k, hval k hk, (lt_numroc (by omega) hp).mp hk, own_glo (by omega) hp⟩
    · rintro ⟨g, rfl, hg, rfl⟩
      have hlt := loc_lt (n := n) (nb := nb) (P := P) (g := g) (by omega) (by omega) hg
      exact ⟨loc nb P g, hlt, by rw [hval _ hlt, glo_own_loc (by omega)]⟩

/-- With one block per process (the default layout) and blocks larger than one row, the list of local rows is
exactly the ascending list of the rows of which this process stores elements; likewise for columns.
Missing with respect to C22: more than one block per process, or blocks of one row, where the claim is false. -/
theorem C22_lists_partial (L : Layout) (pr pc : Nat) (hpr : pr < L.numBlasRows) (hpc : pc < L.numBlasCols)
    (hbr : 1 < L.blockSizeRows) (hbc : 1 < L.blockSizeCols)
    (hr : L.numRows ≤ L.blockSizeRows * L.numBlasRows) (hc : L.numCols ≤ L.blockSizeCols * L.numBlasCols) :
    ((L.getAllLocalRows pr).Pairwise (· < ·) ∧ ∀ x : Int, x ∈ L.getAllLocalRows pr ↔
      ∃ i : Nat, x = i ∧ i < L.numRows ∧ ∃ q j, L.global2Local pr q i j ≠ -1) ∧
    ((L.getAllLocalCols pc).Pairwise (· < ·) ∧ ∀ x : Int, x ∈ L.getAllLocalCols pc ↔
      ∃ j : Nat, x = j ∧ j < L.numCols ∧ ∃ q i, L.global2Local q pc i j ≠ -1) := by
  obtain ⟨a1, a2⟩ := localList hbr hpr hr
  obtain ⟨b1, b2⟩ := localList hbc hpc hc
  refine ⟨⟨a1, fun x => (a2 x).trans ?_⟩, ⟨b1, fun x => (b2 x).trans ?_⟩⟩
  · constructor
    · rintro ⟨g, h1, h2, h3⟩
      exact ⟨g, h1, h2, own L.blockSizeCols L.numBlasCols 0, 0, (global2Local_ne L).mpr ⟨h3.symm, rfl⟩⟩
    · rintro ⟨g, h1, h2, q, j, h3⟩
      exact ⟨g, h1, h2, ((global2Local_ne L).mp h3).1.symm⟩
  · constructor
    · rintro ⟨g, h1, h2, h3⟩
      exact ⟨g, h1, h2, own L.blockSizeRows L.numBlasRows 0, 0, (global2Local_ne L).mpr ⟨rfl, h3.symm⟩⟩
    · rintro ⟨g, h1, h2, q, j, h3⟩
      exact ⟨g, h1, h2, ((global2Local_ne L).mp h3).2.symm⟩

example : ∃ L, mkLayout 4 5 7 0 0 0 0 = .ok L ∧ 1 < L.blockSizeRows ∧ 1 < L.blockSizeCols ∧
    L.numRows ≤ L.blockSizeRows * L.numBlasRows ∧ L.numCols ≤ L.blockSizeCols * L.numBlasCols ∧
    L.getAllLocalRows 1 = [3, 4] := ⟨⟨5, 7, 3, 4, 2, 2⟩, by decide +kernel, by decide, by decide, by decide, by decide, by decide⟩

/-! ## C23 distributed accumulation -/

/-- Writing on a process that does not store the element changes nothing anywhere, and reading there gives
zero. -/
theorem C23_nonlocal [Zero α] (L : Layout) (m : DistData α) (pr pc i j : Nat) (v : α)
    (h : L.global2Local pr pc i j = -1) : L.set m pr pc i j v = m ∧ L.get m pr pc i j = 0 := by
  have ho : ¬ (pr = own L.blockSizeRows L.numBlasRows i ∧ pc = own L.blockSizeCols L.numBlasCols j) :=
    fun hc => (global2Local_ne L).mpr hc h
  exact ⟨set_nonowner L m v ho, get_nonowner L m ho⟩

/-- Writing on the process that stores the element is read back there, and no other element or process is
affected. -/
theorem C23_local [Zero α] (L : Layout) (hL : L.Good) (m : DistData α) (pr pc i j : Nat) (v : α)
    (hi : i < L.numRows) (hj : j < L.numCols) (h : L.global2Local pr pc i j ≠ -1) :
    L.get (L.set m pr pc i j v) pr pc i j = v ∧
    ∀ pr' pc' i' j', i' < L.numRows → j' < L.numCols → ¬ (pr' = pr ∧ pc' = pc ∧ i' = i ∧ j' = j) →
      L.get (L.set m pr pc i j v) pr' pc' i' j' = L.get m pr' pc' i' j' := by
  have ho := (global2Local_ne L).mp h
  constructor
  · rw [get_set L hL m hi hj hi hj, if_pos ⟨⟨rfl, rfl, rfl, rfl⟩, ho⟩]
  · intro pr' pc' i' j' hi' hj' hne
    rw [get_set L hL m hi hj hi' hj', if_neg (fun hc => hne hc.1)]

/-- Sum over all processes of what they read at `(i, j)`. -/
def gridSum [AddMonoid α] (L : Layout) (m : DistData α) (i j : Nat) : α :=
  (((List.range L.numBlasRows).flatMap fun pr => (List.range L.numBlasCols).map fun pc => (pr, pc)).map
    fun p => L.get m p.1 p.2 i j).sum

/-- A contribution executed by one process: `matrix(row, col) += v`. -/
structure Contribution (α : Type) where
  pr : Nat
  pc : Nat
  row : Nat
  col : Nat
  v : α

/-- For every sequence of contributions, executed by any processes in any order: the sum of an element over
all processes is its initial value plus exactly the contributions made to it by the process that stores it. -/
theorem C23_accumulate [AddMonoid α] (L : Layout) (hL : L.Good) (ops : List (Contribution α))
    (hops : ∀ o ∈ ops, o.row < L.numRows ∧ o.col < L.numCols) (m : DistData α) (i j : Nat)
    (hi : i < L.numRows) (hj : j < L.numCols) :
    gridSum L (ops.foldl (fun a o => L.addTo a o.pr o.pc o.row o.col o.v) m) i j =
      gridSum L m i j +
      ((ops.filter (fun o => o.row = i ∧ o.col = j ∧ L.global2Local o.pr o.pc i j ≠ -1)).map (·.v)).sum := by
  unfold gridSum
  have hs : ∀ m' : DistData α, (((List.range L.numBlasRows).flatMap fun pr =>
      (List.range L.numBlasCols).map fun pc => (pr, pc)).map fun p => L.get m' p.1 p.2 i j).sum = L.value m' i j :=
    fun m' => sum_get L hL m' i j
  rw [hs, hs]
  induction ops generalizing m with
  | nil => simp
  | cons o t ih =>
    rw [List.foldl_cons, ih (fun o' ho' => hops o' (by simp [ho'])),
      value_addTo L hL m (hops o (by simp)).1 (hops o (by simp)).2 hi hj, add_assoc]
    congr 1
    by_cases h : o.row = i ∧ o.col = j ∧ L.global2Local o.pr o.pc i j ≠ -1
    · rw [List.filter_cons_of_pos (by simpa using h), List.map_cons, List.sum_cons]
      have := (global2Local_ne L).mp h.2.2
      rw [if_pos ⟨h.1, h.2.1, by rw [h.1]; exact this.1, by rw [h.2.1]; exact this.2⟩]
    · rw [List.filter_cons_of_neg (by simpa using h), if_neg, zero_add]
      rintro ⟨h1, h2, h3, h4⟩
      exact h ⟨h1, h2, (global2Local_ne L).mpr ⟨by rw [← h1]; exact h3, by rw [← h2]; exact h4⟩⟩

/-- If every process executes the same list of contributions, each one is counted once. -/
theorem C23_spmd [AddCommMonoid α] (L : Layout) (hL : L.Good) (adds : List (Nat × Nat × α))
    (hadds : ∀ a ∈ adds, a.1 < L.numRows ∧ a.2.1 < L.numCols) (m : DistData α) (i j : Nat)
    (hi : i < L.numRows) (hj : j < L.numCols) :
    gridSum L ((((List.range L.numBlasRows).flatMap fun pr =>
        (List.range L.numBlasCols).map fun pc => (pr, pc)).flatMap fun p => adds.map fun a =>
          (⟨p.1, p.2, a.1, a.2.1, a.2.2⟩ : Contribution α)).foldl
        (fun a o => L.addTo a o.pr o.pc o.row o.col o.v) m) i j =
      gridSum L m i j + ((adds.filter (fun a => a.1 = i ∧ a.2.1 = j)).map (·.2.2)).sum := by
  rw [C23_accumulate L hL _ _ m i j hi hj]
  · congr 1
    rw [List.filter_flatMap, List.map_flatMap, List.flatMap_def, List.sum_flatten, List.map_map]
    rw [sum_single _ (nodup_grid _ _) (own L.blockSizeRows L.numBlasRows i, own L.blockSizeCols L.numBlasCols j)
      ((mem_grid _).mpr ⟨Nat.mod_lt _ hL.pr, Nat.mod_lt _ hL.pc⟩)]
    · simp only [Function.comp_apply]
      rw [List.filter_map, List.map_map]
      congr 1
      have : (List.filter ((fun o : Contribution α => decide (o.row = i ∧ o.col = j ∧
          L.global2Local o.pr o.pc i j ≠ -1)) ∘ fun a : Nat × Nat × α =>
          (⟨own L.blockSizeRows L.numBlasRows i, own L.blockSizeCols L.numBlasCols j, a.1, a.2.1, a.2.2⟩ :
            Contribution α)) adds) = List.filter (fun a => decide (a.1 = i ∧ a.2.1 = j)) adds := by
        apply List.filter_congr
        intro a _
        have h := (global2Local_ne L (pr := own L.blockSizeRows L.numBlasRows i)
          (pc := own L.blockSizeCols L.numBlasCols j) (row := i) (col := j)).mpr ⟨rfl, rfl⟩
        simp [h]
      rw [this]
      rfl
    · intro p _ hp
      have : (adds.map fun a => (⟨p.1, p.2, a.1, a.2.1, a.2.2⟩ : Contribution α)).filter
          (fun o => o.row = i ∧ o.col = j ∧ L.global2Local o.pr o.pc i j ≠ -1) = [] := by
        rw [List.filter_eq_nil_iff]
        intro o ho
        obtain ⟨a, _, rfl⟩ := List.mem_map.mp ho
        simp only [decide_eq_true_eq]
        rintro ⟨_, _, h⟩
        have := (global2Local_ne L).mp h
        exact hp (Prod.ext this.1 this.2)
      simp only [Function.comp_apply, this]; rfl
  · intro o ho
    obtain ⟨p, _, ho⟩ := List.mem_flatMap.mp ho
    obtain ⟨a, ha, rfl⟩ := List.mem_map.mp ho
    exact hadds a ha

/-- Non-vacuity and a computed case: two processes, contributions to an element from its owner and from the
other process. -/
example : let L : Layout := ⟨3, 1, 2, 1, 2, 1⟩
    L.Good ∧ gridSum L (([⟨0, 0, 1, 0, 5⟩, ⟨1, 0, 1, 0, 7⟩, ⟨1, 0, 2, 0, 3⟩] : List (Contribution Int)).foldl
      (fun a o => L.addTo a o.pr o.pc o.row o.col o.v) (fun _ _ _ => 0)) 1 0 = 5 :=
  ⟨⟨by decide, by decide, by decide, by decide⟩, by decide⟩

/-! ## C24 serial matrix -/

/-- Reading back a written element; other elements unchanged; shape unchanged. -/
theorem C24_get_set (m : SMat α) (hw : m.WF) (i j : Nat) (hi : i < m.numRows) (hj : j < m.numCols) (v : α) :
    ∃ m', m.set i j v = .ok m' ∧ m'.numRows = m.numRows ∧ m'.numCols = m.numCols ∧ m'.WF ∧
      m'.get i j = .ok v ∧
      ∀ i' j', i' < m.numRows → j' < m.numCols → ¬ (i' = i ∧ j' = j) → m'.get i' j' = m.get i' j' := by
  obtain ⟨m', h1, h2, h3, h4, h5⟩ := sset_spec m hw hi hj v
  refine ⟨m', h1, h2, h3, h4, by rw [h5 i j hi hj, if_pos ⟨rfl, rfl⟩], ?_⟩
  intro i' j' hi' hj' hne
  rw [h5 i' j' hi' hj', if_neg hne]

/-- Every read in range of a well-formed matrix succeeds and every access out of range is an error, never
undefined behaviour. -/
theorem C24_bounds (m : SMat α) (hw : m.WF) (i j : Int) (v : α) :
    (0 ≤ i ∧ i < m.numRows ∧ 0 ≤ j ∧ j < m.numCols → (m.get i j).isOk = true ∧ (m.set i j v).isOk = true) ∧
    (¬ (0 ≤ i ∧ i < m.numRows ∧ 0 ≤ j ∧ j < m.numCols) → m.get i j = .error ∧ m.set i j v = .error) := by
  constructor
  · rintro ⟨h1, h2, h3, h4⟩
    obtain ⟨a, rfl⟩ := Int.eq_ofNat_of_zero_le h1
    obtain ⟨b, rfl⟩ := Int.eq_ofNat_of_zero_le h3
    obtain ⟨_, e⟩ := sget_val m hw (i := a) (j := b) (by omega) (by omega)
    rw [e, sset_val m hw (by omega) (by omega)]
    exact ⟨rfl, rfl⟩
  · intro h
    unfold SMat.get SMat.set
    rw [if_pos (by omega), if_pos (by omega)]
    exact ⟨rfl, rfl⟩

/-- The constructor makes a well-formed zero matrix. -/
theorem C24_zeros [Zero α] (r c : Nat) (i j : Nat) (hi : i < r) (hj : j < c) :
    (SMat.zeros r c : SMat α).WF ∧ (SMat.zeros r c : SMat α).get i j = .ok 0 := by
  have hw : (SMat.zeros r c : SMat α).WF := by simp [SMat.WF, SMat.zeros]
  refine ⟨hw, ?_⟩
  obtain ⟨h, e⟩ := sget_val _ hw (i := i) (j := j) hi hj
  rw [e]; simp [SMat.zeros]

/-- The full C24 is violated by making a matrix the identity: off-diagonal elements keep their values. -/
theorem C24_violated : ∃ m' : SMat Int, (⟨2, 2, [1, 2, 3, 4]⟩ : SMat Int).eye = .ok m' ∧ m'.get 1 0 = .ok 2 :=
  ⟨⟨2, 2, [1, 2, 3, 1]⟩, by decide, by decide⟩

/-- What making the identity does to any well-formed square matrix: ones on the diagonal, other elements
unchanged.  Hence the identity if the off-diagonal elements were zero (a fresh matrix).
Missing with respect to C24: clearing the off-diagonal elements. -/
theorem C24_eye_partial [One α] (m : SMat α) (hw : m.WF) (hsq : m.numRows = m.numCols) :
    ∃ m', m.eye = .ok m' ∧ m'.numRows = m.numRows ∧ m'.numCols = m.numCols ∧ m'.WF ∧
      ∀ i j, i < m.numRows → j < m.numCols → m'.get i j = if i = j then .ok 1 else m.get i j := by
  unfold SMat.eye
  rw [if_neg (by omega)]
  have key : ∀ (l : List Nat) (a : SMat α), (∀ r ∈ l, r < m.numRows) → a.WF → a.numRows = m.numRows →
      a.numCols = m.numCols → ∃ m', foldOutcome (fun (row : Nat) (a : SMat α) => a.set row row 1) l a = .ok m' ∧
        m'.numRows = m.numRows ∧ m'.numCols = m.numCols ∧ m'.WF ∧
        ∀ i j, i < m.numRows → j < m.numCols → m'.get i j = if i = j ∧ i ∈ l then .ok 1 else a.get i j := by
    intro l
    induction l with
    | nil => intro a _ hwa hr hc; exact ⟨a, rfl, hr, hc, hwa, by simp⟩
    | cons r t ih =>
      intro a hl hwa hr hc
      have hrl := hl r (by simp)
      obtain ⟨a1, h1, h2, h3, h4, h5⟩ := sset_spec a hwa (i := r) (j := r) (by omega) (by omega) 1
      obtain ⟨m', g1, g2, g3, g4, g5⟩ := ih a1 (fun x hx => hl x (by simp [hx])) h4 (by omega) (by omega)
      refine ⟨m', ?_, g2, g3, g4, ?_⟩
      · unfold foldOutcome; rw [h1]; exact g1
      · intro i j hi hj
        rw [g5 i j hi hj, h5 i j (by omega) (by omega)]
        by_cases hij : i = j
        · subst hij
          by_cases hit : i ∈ t
          · simp [hit]
          · by_cases hir : i = r
            · simp [hir]
            · simp [hit, hir]
        · have : ¬ (i = r ∧ j = r) := fun h => hij (h.1.trans h.2.symm)
          simp [hij, this]
  obtain ⟨m', g1, g2, g3, g4, g5⟩ := key (List.range m.numRows) m (by simp) hw rfl rfl
  refine ⟨m', g1, g2, g3, g4, ?_⟩
  intro i j hi hj
  rw [g5 i j hi hj]
  simp [hi]

example : (SMat.zeros 2 2 : SMat Int).eye = .ok ⟨2, 2, [1, 0, 0, 1]⟩ := by decide

/-! ## C25 symmetrisation -/

/-- Serial: symmetrising a well-formed square rational matrix replaces every element by the mean of the two
mirror elements. -/
theorem C25_serial (m : SMat Rat) (hw : m.WF) (hsq : m.numRows = m.numCols) :
    ∃ m', m.symmetrize (fun x y => (x + y) / 2) = .ok m' ∧ m'.numRows = m.numRows ∧ m'.numCols = m.numCols ∧
      ∀ i j, i < m.numRows → j < m.numCols → ∃ x y, m.get i j = .ok x ∧ m.get j i = .ok y ∧
        m'.get i j = .ok ((x + y) / 2) ∧ m'.get j i = .ok ((x + y) / 2) := by
  unfold SMat.symmetrize
  rw [if_neg (by omega)]
  have hent : ∀ i j, ∃ x, i < m.numRows → j < m.numCols → m.get i j = .ok x := by
    intro i j
    by_cases h : i < m.numRows ∧ j < m.numCols
    · obtain ⟨_, e⟩ := sget_val m hw h.1 h.2; exact ⟨_, fun _ _ => e⟩
    · exact ⟨0, fun a b => absurd ⟨a, b⟩ h⟩
  choose ent hent using hent
  set mean : Nat → Nat → Rat := fun i j => (ent i j + ent j i) / 2 with hmean
  have hmc : ∀ i j, mean i j = mean j i := fun i j => by simp only [hmean]; ring
  have key : ∀ (l done : List (Nat × Nat)) (a : SMat Rat),
      (∀ p ∈ l, p.1 ≤ p.2 ∧ p.2 < m.numRows) → (l.Nodup) → (∀ p ∈ l, p ∉ done) → a.WF →
      a.numRows = m.numRows → a.numCols = m.numCols →
      (∀ i j, i < m.numRows → j < m.numCols →
        a.get i j = .ok (if (min i j, max i j) ∈ done then mean i j else ent i j)) →
      ∃ m', foldOutcome (fun (p : Nat × Nat) (a : SMat Rat) => do
          let x ← a.get p.2 p.1
          let y ← a.get p.1 p.2
          let a1 ← a.set p.1 p.2 ((x + y) / 2)
          a1.set p.2 p.1 ((x + y) / 2)) l a = .ok m' ∧
        m'.numRows = m.numRows ∧ m'.numCols = m.numCols ∧
        ∀ i j, i < m.numRows → j < m.numCols →
          m'.get i j = .ok (if (min i j, max i j) ∈ done ∨ (min i j, max i j) ∈ l then mean i j else ent i j) := by
    intro l
    induction l with
    | nil => intro done a _ _ _ _ hr hc ha; exact ⟨a, rfl, hr, hc, by simpa using ha⟩
    | cons p t ih =>
      intro done a hl hnd hdone hwa hr hc ha
      obtain ⟨p1, p2⟩ := p
      obtain ⟨hle, hlt⟩ := hl (p1, p2) (by simp)
      simp only at hle hlt
      have hnd' := List.nodup_cons.mp hnd
      have hpd := hdone (p1, p2) (by simp)
      have e1 := ha p2 p1 (by omega) (by omega)
      have e2 := ha p1 p2 (by omega) (by omega)
      rw [min_eq_right hle, max_eq_left hle, if_neg hpd] at e1
      rw [min_eq_left hle, max_eq_right hle, if_neg hpd] at e2
      obtain ⟨a1, b1, b2, b3, b4, b5⟩ := sset_spec a hwa (i := p1) (j := p2) (by omega) (by omega)
        ((ent p2 p1 + ent p1 p2) / 2)
      obtain ⟨a2, c1, c2, c3, c4, c5⟩ := sset_spec a1 b4 (i := p2) (j := p1) (by omega) (by omega)
        ((ent p2 p1 + ent p1 p2) / 2)
      have hm1 : (ent p2 p1 + ent p1 p2) / 2 = mean p1 p2 := by simp only [hmean]; ring
      obtain ⟨m', g1, g2, g3, g4⟩ := ih ((p1, p2) :: done) a2 (fun q hq => hl q (by simp [hq])) hnd'.2
        (fun q hq hqd => by
          rcases List.mem_cons.mp hqd with rfl | h
          · exact hnd'.1 hq
          · exact hdone q (by simp [hq]) h) c4 (by omega) (by omega) (by
          intro i j hi hj
          rw [c5 i j (by omega) (by omega), b5 i j (by omega) (by omega), ha i j hi hj, hm1]
          by_cases h1 : i = p2 ∧ j = p1
          · rw [if_pos h1]
            obtain ⟨rfl, rfl⟩ := h1
            rw [min_eq_right hle, max_eq_left hle, if_pos (by simp), hmc]
          · rw [if_neg h1]
            by_cases h2 : i = p1 ∧ j = p2
            · rw [if_pos h2]
              obtain ⟨rfl, rfl⟩ := h2
              rw [min_eq_left hle, max_eq_right hle, if_pos (by simp)]
            · rw [if_neg h2]
              congr 1
              have hne : (min i j, max i j) ≠ (p1, p2) := by
                intro h
                injection h with h3 h4
                rcases le_total i j with hij | hij
                · rw [min_eq_left hij] at h3; rw [max_eq_right hij] at h4; exact h2 ⟨h3, h4⟩
                · rw [min_eq_right hij] at h3; rw [max_eq_left hij] at h4; exact h1 ⟨h4, h3⟩
              simp [hne])
      refine ⟨m', ?_, g2, g3, ?_⟩
      · unfold foldOutcome
        simp only [Outcome.bind_eq, e1, e2, Outcome.bind, b1, c1]
        exact g1
      · intro i j hi hj
        rw [g4 i j hi hj]
        congr 1
        have : ((min i j, max i j) ∈ (p1, p2) :: done ∨ (min i j, max i j) ∈ t) ↔
            ((min i j, max i j) ∈ done ∨ (min i j, max i j) ∈ (p1, p2) :: t) := by
          simp only [List.mem_cons]; tauto
        simp only [this]
  have hmem : ∀ p : Nat × Nat, p ∈ ((List.range m.numRows).flatMap fun i =>
      (List.range' i (m.numCols - i)).map fun j => (i, j)) ↔ (p.1 ≤ p.2 ∧ p.2 < m.numRows) := by
    rintro ⟨x, y⟩
    simp only [List.mem_flatMap, List.mem_map, List.mem_range, List.mem_range'_1, Prod.mk.injEq]
    constructor
    · rintro ⟨i, hi, j, hj, rfl, rfl⟩; omega
    · rintro ⟨h1, h2⟩; exact ⟨x, by omega, y, by omega, rfl, rfl⟩
  obtain ⟨m', g1, g2, g3, g4⟩ := key _ [] m (fun p hp => (hmem p).mp hp) (by
      rw [List.nodup_flatMap]
      refine ⟨fun i _ => List.Nodup.map (fun x y h => by simpa using h) (List.nodup_range'), ?_⟩
      apply List.nodup_range.imp
      intro i j hij p hp hp'
      simp only [List.mem_map] at hp hp'
      obtain ⟨_, _, rfl⟩ := hp
      obtain ⟨_, _, h⟩ := hp'
      injection h with h1 h2
      exact hij h1.symm) (by simp) hw rfl rfl (by
      intro i j hi hj; rw [hent i j hi hj]; simp)
  refine ⟨m', g1, g2, g3, ?_⟩
  intro i j hi hj
  have hin : ∀ i j, i < m.numRows → j < m.numRows → (min i j, max i j) ∈ ((List.range m.numRows).flatMap fun i =>
      (List.range' i (m.numCols - i)).map fun j => (i, j)) := fun i j hi hj =>
    (hmem _).mpr ⟨min_le_max, max_lt hi hj⟩
  refine ⟨ent i j, ent j i, hent i j hi hj, hent j i (by omega) (by omega), ?_, ?_⟩
  · rw [g4 i j hi hj, if_pos (Or.inr (hin i j hi (by omega)))]
  · rw [g4 j i (by omega) (by omega), if_pos (Or.inr (hin j i (by omega) hi)), hmc j i]

/-- Serial consequence: the result is symmetric, the diagonal is kept, a symmetric matrix is unchanged. -/
theorem C25_serial_symmetric (m m' : SMat Rat) (hw : m.WF) (hsq : m.numRows = m.numCols)
    (h : m.symmetrize (fun x y => (x + y) / 2) = .ok m') (i j : Nat) (hi : i < m.numRows) (hj : j < m.numRows) :
    m'.get i j = m'.get j i ∧ m'.get i i = m.get i i ∧ (m.get i j = m.get j i → m'.get i j = m.get i j) := by
  obtain ⟨m1, h1, _, _, h4⟩ := C25_serial m hw hsq
  rw [h] at h1; cases h1
  obtain ⟨x, y, a1, a2, a3, a4⟩ := h4 i j hi (by omega)
  obtain ⟨z, w, b1, b2, b3, _⟩ := h4 i i hi (by omega)
  refine ⟨by rw [a3, a4], ?_, ?_⟩
  · rw [b1] at b2; cases b2; rw [b3, b1]; congr 1; ring
  · intro he; rw [a1, a2] at he; cases he; rw [a3, a1]; congr 1; ring

/-- Distributed: symmetrising has the same effect on the global matrix. -/
theorem C25_distributed (L : Layout) (c c' : Nat → Nat → Rat) (h : L.symmetrize (1 / 2) c = .ok c') (i j : Nat) :
    c' i j = (c i j + c j i) / 2 ∧ c' i j = c' j i ∧ c' i i = c i i := by
  unfold Layout.symmetrize at h
  split at h
  · simp at h
  · cases h; refine ⟨by ring, by ring, by ring⟩

/-- Non-square matrices are refused. -/
theorem C25_nonsquare (m : SMat Rat) (L : Layout) (c : Nat → Nat → Rat) (h : m.numRows ≠ m.numCols)
    (hL : L.numRows ≠ L.numCols) : m.symmetrize (fun x y => (x + y) / 2) = .error ∧
    L.symmetrize (1 / 2) c = .error := by
  unfold SMat.symmetrize Layout.symmetrize
  rw [if_pos h, if_pos hL]; exact ⟨rfl, rfl⟩

example : (⟨2, 2, [1, 2, 4, 5]⟩ : SMat Rat).symmetrize (fun x y => (x + y) / 2) = .ok ⟨2, 2, [1, 3, 3, 5]⟩ := by
  decide +kernel

/-! ## C26 scalar product -/

/-- With at least two processes, the distributed scalar product is, on every process, the sum over all
elements of the product of the two values stored for the element.
Missing with respect to C26: one process (`C26_violated`). -/
theorem C26_dot_partial {α : Type} [Semiring α] (L : Layout) (hL : L.Good) (a b : DistData α)
    (hp : 2 ≤ L.numBlasRows * L.numBlasCols) :
    ∀ x ∈ L.dot a b, x = (((List.range L.numRows).flatMap fun i => (List.range L.numCols).map fun j => (i, j)).map
      fun e => gridSum L a e.1 e.2 * gridSum L b e.1 e.2).sum := by
  intro x hx
  unfold Layout.dot at hx
  simp only at hx
  have hlen : L.procs.length = L.numBlasRows * L.numBlasCols := by
    unfold Layout.procs; simp [List.length_flatMap]
  have hpr : ((List.range L.numBlasRows).flatMap fun pr => (List.range L.numBlasCols).map fun pc => (pr, pc))
      = L.procs := rfl
  rw [hpr] at hx
  unfold allReduceSum2 at hx
  rw [if_neg (by simp [hlen]; omega)] at hx
  simp only [List.map_map, List.mem_map, Function.comp] at hx
  obtain ⟨p, _, rfl⟩ := hx
  rw [mpiSum_eq, List.map_map]
  have hperm := ((states_perm L hL).map fun e => gridSum L a e.1 e.2 * gridSum L b e.1 e.2).sum_eq
  have hel : ((List.range L.numRows).flatMap fun i => (List.range L.numCols).map fun j => (i, j)) = L.elements := rfl
  rw [hel, ← hperm, List.map_flatMap, List.flatMap_def, List.sum_flatten, List.map_map]
  congr 1
  apply List.map_congr_left
  intro p hpm
  have hpm := (mem_grid p).mp hpm
  simp only [Function.comp]
  unfold Layout.localDot
  rw [foldl_add_eq, zero_add]
  congr 1
  unfold Layout.getAllLocalStates
  rw [List.map_map]
  apply List.map_congr_left
  intro k hk
  have hk : k < L.localElements p.1 p.2 := by simpa using hk
  obtain ⟨h1, h2, h3⟩ := local_element L hL hpm.1 hpm.2 hk
  have hg : ∀ m : DistData α, gridSum L m (L.local2Global p.1 p.2 k).1 (L.local2Global p.1 p.2 k).2 = m p.1 p.2 k := by
    intro m
    have ho := (global2Local_ne L (pr := p.1) (pc := p.2)).mp (by rw [h3]; omega)
    have e : gridSum L m (L.local2Global p.1 p.2 k).1 (L.local2Global p.1 p.2 k).2 =
        L.value m (L.local2Global p.1 p.2 k).1 (L.local2Global p.1 p.2 k).2 := sum_get L hL m _ _
    rw [e]
    unfold Layout.value
    rw [← ho.1, ← ho.2]
    unfold Layout.get
    simp only [h3]
    rw [if_neg (by omega), Int.toNat_natCast]
  simp only [Function.comp, hg]

example : (⟨2, 2, 1, 1, 2, 2⟩ : Layout).Good ∧
    (⟨2, 2, 1, 1, 2, 2⟩ : Layout).dot (fun pr pc _ => (pr + 2 * pc : Int)) (fun _ _ _ => 1) = [6, 6, 6, 6] :=
  ⟨⟨by decide, by decide, by decide, by decide⟩, by decide⟩

/-- The full C26 is violated on one process: the scalar product of any two matrices is zero. -/
theorem C26_violated {α : Type} [Semiring α] (L : Layout) (h1 : L.numBlasRows = 1) (h2 : L.numBlasCols = 1)
    (a b : DistData α) : L.dot a b = [0] := by
  unfold Layout.dot
  simp [h1, h2, allReduceSum2]

/-- The serial scalar product is the sum over all elements of the products. -/
theorem C26_serial {α : Type} [Semiring α] (a b : SMat α) (h : a.mat.length = b.mat.length) :
    a.dot b = .ok ((List.zipWith (· * ·) a.mat b.mat).sum) := by
  unfold SMat.dot
  rw [if_neg (by omega), foldl_add_eq, zero_add]

/-! ## C78 arithmetic and identity of distributed matrices -/

/-- After `eye` on every process, whatever the matrix held, its elements are those of the identity. -/
theorem C78_eye [Semiring α] (L : Layout) (hL : L.Good) (hsq : L.numRows = L.numCols) (m : DistData α) :
    ∃ m', L.eyeAll ((List.range L.numBlasRows).flatMap fun pr => (List.range L.numBlasCols).map fun pc => (pr, pc)) m = .ok m' ∧
      ∀ i j, i < L.numRows → j < L.numCols → gridSum L m' i j = if i = j then 1 else 0 := by
  have hset : ∀ (pr pc : Nat) (l : List Nat), (∀ a ∈ l, a < L.numRows) → ∀ (a : DistData α) (pr' pc' i j : Nat),
      i < L.numRows → j < L.numCols →
      L.get (l.foldl (fun a i => L.set a pr pc i i 1) a) pr' pc' i j =
        if pr' = pr ∧ pc' = pc ∧ i = j ∧ i ∈ l ∧ pr = own L.blockSizeRows L.numBlasRows i ∧
          pc = own L.blockSizeCols L.numBlasCols i then 1 else L.get a pr' pc' i j := by
    intro pr pc l
    induction l with
    | nil => intro _ a pr' pc' i j _ _; simp
    | cons x t ih =>
      intro hl a pr' pc' i j hi hj
      have hx := hl x (by simp)
      rw [List.foldl_cons, ih (fun y hy => hl y (by simp [hy])) _ _ _ _ _ hi hj,
        get_set L hL a hx (hsq ▸ hx) hi hj]
      by_cases h1 : pr' = pr ∧ pc' = pc ∧ i = j ∧ i ∈ t ∧ pr = own L.blockSizeRows L.numBlasRows i ∧
          pc = own L.blockSizeCols L.numBlasCols i
      · rw [if_pos h1, if_pos (by obtain ⟨a1, a2, a3, a4, a5⟩ := h1; exact ⟨a1, a2, a3, by simp [a4], a5⟩)]
      · rw [if_neg h1]
        by_cases h2 : (pr' = pr ∧ pc' = pc ∧ i = x ∧ j = x) ∧
            (pr = own L.blockSizeRows L.numBlasRows x ∧ pc = own L.blockSizeCols L.numBlasCols x)
        · rw [if_pos h2, if_pos]
          obtain ⟨⟨a1, a2, a3, a4⟩, a5, a6⟩ := h2
          exact ⟨a1, a2, a3.trans a4.symm, by simp [a3], a3 ▸ a5, a3 ▸ a6⟩
        · rw [if_neg h2, if_neg]
          rintro ⟨a1, a2, a3, a4, a5, a6⟩
          rcases List.mem_cons.mp a4 with rfl | a4
          · exact h2 ⟨⟨a1, a2, rfl, a3.symm⟩, a5, a6⟩
          · exact h1 ⟨a1, a2, a3, a4, a5, a6⟩
  have hgetz : ∀ (pr pc : Nat) (a : DistData α) (pr' pc' i j : Nat), i < L.numRows → j < L.numCols →
      L.get (fun pr' pc' k => if pr' = pr ∧ pc' = pc ∧ k < L.localElements pr pc then 0 else a pr' pc' k) pr' pc' i j =
        if pr' = pr ∧ pc' = pc then 0 else L.get a pr' pc' i j := by
    intro pr pc a pr' pc' i j hi hj
    by_cases ho : pr' = own L.blockSizeRows L.numBlasRows i ∧ pc' = own L.blockSizeCols L.numBlasCols j
    · obtain ⟨k, hk, hg, _⟩ := global_element L hL hi hj
      rw [← ho.1, ← ho.2] at hg hk
      unfold Layout.get
      simp only [hg, Int.toNat_natCast]
      rw [if_neg (by omega)]
      by_cases h : pr' = pr ∧ pc' = pc
      · obtain ⟨rfl, rfl⟩ := h
        rw [if_pos ⟨rfl, rfl, hk⟩, if_pos ⟨rfl, rfl⟩]
      · rw [if_neg (fun hc => h ⟨hc.1, hc.2.1⟩), if_neg h, if_neg (by omega)]
    · rw [get_nonowner L _ ho, get_nonowner L _ ho]; simp
  have hall : ∀ (ps : List (Nat × Nat)) (a : DistData α), ∃ m', L.eyeAll ps a = .ok m' ∧
      ∀ (pr' pc' i j : Nat), i < L.numRows → j < L.numCols →
        L.get m' pr' pc' i j = if (pr', pc') ∈ ps then
          (if i = j ∧ pr' = own L.blockSizeRows L.numBlasRows i ∧ pc' = own L.blockSizeCols L.numBlasCols i then 1 else 0)
          else L.get a pr' pc' i j := by
    intro ps
    induction ps with
    | nil => intro a; exact ⟨a, rfl, fun _ _ _ _ _ _ => by simp⟩
    | cons p ps ih =>
      intro a
      obtain ⟨m', h1, h2⟩ := ih ((List.range L.numRows).foldl (fun a i => L.set a p.1 p.2 i i 1)
        (fun pr' pc' k => if pr' = p.1 ∧ pc' = p.2 ∧ k < L.localElements p.1 p.2 then 0 else a pr' pc' k))
      refine ⟨m', ?_, ?_⟩
      · unfold Layout.eyeAll Layout.eye
        rw [if_neg (by simpa using hsq)]
        exact h1
      · intro pr' pc' i j hi hj
        rw [h2 pr' pc' i j hi hj, hset p.1 p.2 (List.range L.numRows) (by simp) _ _ _ _ _ hi hj, hgetz _ _ _ _ _ _ _ hi hj]
        by_cases hm : (pr', pc') ∈ ps
        · have hm' : (pr', pc') ∈ p :: ps := List.mem_cons_of_mem _ hm
          simp only [if_pos hm, if_pos hm']
        · simp only [if_neg hm]
          by_cases hp : (pr', pc') = p
          · subst hp
            rw [if_pos (by simp : (pr', pc') ∈ (pr', pc') :: ps)]
            simp [hi]
          · have hne : ¬ (pr' = p.1 ∧ pc' = p.2) := fun h => hp (Prod.ext h.1 h.2)
            have hm' : (pr', pc') ∉ p :: ps := fun h => (List.mem_cons.mp h).elim hp hm
            have hne' : ¬ (pr' = p.1 ∧ pc' = p.2 ∧ i = j ∧ i ∈ List.range L.numRows ∧
                p.1 = own L.blockSizeRows L.numBlasRows i ∧ p.2 = own L.blockSizeCols L.numBlasCols i) :=
              fun h => hne ⟨h.1, h.2.1⟩
            simp only [if_neg hm', if_neg hne', if_neg hne]
  obtain ⟨m', h1, h2⟩ := hall L.procs m
  refine ⟨m', h1, ?_⟩
  intro i j hi hj
  have e : gridSum L m' i j = L.value m' i j := sum_get L hL m' i j
  rw [e]
  unfold Layout.value
  have hin : (own L.blockSizeRows L.numBlasRows i, own L.blockSizeCols L.numBlasCols j) ∈ L.procs :=
    (mem_grid _).mpr ⟨Nat.mod_lt _ hL.pr, Nat.mod_lt _ hL.pc⟩
  rw [h2 _ _ i j hi hj, if_pos hin]
  by_cases h : i = j
  · subst h; simp
  · rw [if_neg (fun hc => h hc.1), if_neg h]

/-- A matrix that is not square is refused. -/
theorem C78_eye_refused [Semiring α] (L : Layout) (h : L.numRows ≠ L.numCols) (m : DistData α) (pr pc : Nat) :
    L.eye m pr pc = .error := by
  unfold Layout.eye; rw [if_pos h]

/-- Scaling and negation act on the elements of the global matrix. -/
theorem C78_map [AddMonoid α] (L : Layout) (hL : L.Good) (f : α → α) (m : DistData α) (i j : Nat)
    (hi : i < L.numRows) (hj : j < L.numCols) :
    gridSum L (L.mapElements f m) i j = f (gridSum L m i j) := by
  have e : ∀ m' : DistData α, gridSum L m' i j = L.value m' i j := fun m' => sum_get L hL m' i j
  rw [e, e]
  obtain ⟨k, hk, hg, _⟩ := global_element L hL hi hj
  unfold Layout.value Layout.get Layout.mapElements
  simp only [hg, Int.toNat_natCast]
  have hne : ¬ ((k : Int) = -1) := by omega
  simp only [if_neg hne, if_pos hk]

/-- Partial C78: sums and differences of matrices of the same layout act on the elements of the global matrices.
Missing: matrices of the same sizes stored with different layouts (`C78_violated`). -/
theorem C78_combine_partial [AddMonoid α] (L : Layout) (hL : L.Good) (op : α → α → α) (a b : DistData α) :
    ∃ c, L.combine L op a b = .ok c ∧ ∀ i j, i < L.numRows → j < L.numCols →
      gridSum L c i j = op (gridSum L a i j) (gridSum L b i j) := by
  unfold Layout.combine
  rw [if_neg (by simp), if_neg (by simp)]
  refine ⟨_, rfl, ?_⟩
  intro i j hi hj
  have e : ∀ m' : DistData α, gridSum L m' i j = L.value m' i j := fun m' => sum_get L hL m' i j
  rw [e, e, e]
  obtain ⟨k, hk, hg, _⟩ := global_element L hL hi hj
  unfold Layout.value Layout.get
  simp only [hg, Int.toNat_natCast]
  have hne : ¬ ((k : Int) = -1) := by omega
  simp only [if_neg hne, if_pos hk]

/-- Matrices of different sizes are refused. -/
theorem C78_refused (La Lb : Layout) (op : α → α → α) (a b : DistData α)
    (h : La.numRows ≠ Lb.numRows ∨ La.numCols ≠ Lb.numCols) : La.combine Lb op a b = .error := by
  unfold Layout.combine; rw [if_pos h]

/-- The full C78 is violated: two 4x4 matrices on a 2x2 grid, the first stored by blocks of 2 and the second cyclically
(blocks of 1); the second has a single non-zero element, (0, 2); adding it changes element (0, 1) instead. -/
theorem C78_violated : ∃ (La Lb : Layout) (b c : DistData Int), La.Good ∧ Lb.Good ∧
    mkLayout 4 4 4 0 0 2 2 = .ok La ∧ mkLayout 4 4 4 0 0 4 4 = .ok Lb ∧
    gridSum Lb b 0 2 = 7 ∧ gridSum Lb b 0 1 = 0 ∧
    La.combine Lb (· + ·) (fun _ _ _ => 0) b = .ok c ∧ gridSum La c 0 2 = 0 ∧ gridSum La c 0 1 = 7 :=
  ⟨⟨4, 4, 2, 2, 2, 2⟩, ⟨4, 4, 1, 1, 2, 2⟩, fun pr pc k => if pr = 0 ∧ pc = 0 ∧ k = 2 then 7 else 0, _,
    ⟨by decide, by decide, by decide, by decide⟩, ⟨by decide, by decide, by decide, by decide⟩,
    by decide +kernel, by decide +kernel, by decide +kernel, by decide +kernel, rfl, by decide +kernel, by decide +kernel⟩

example : (⟨5, 5, 2, 2, 2, 2⟩ : Layout).Good ∧ (⟨5, 5, 2, 2, 2, 2⟩ : Layout).numRows = (⟨5, 5, 2, 2, 2, 2⟩ : Layout).numCols :=
  ⟨⟨by decide, by decide, by decide, by decide⟩, rfl⟩

end Verif.Props
