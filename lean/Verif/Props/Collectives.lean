import Verif.Proofs.Collectives

/-!
C169: broadcasts and reductions.
-/
namespace Verif.Props

open Verif.Model Verif.Spec

variable {α : Type}

/-- Sum over a communicator, in any order of the library: each element is, on each process, the sum over the processes of
its communicator.  Missing with respect to C169: 2^31 elements or more (`C169_violated_silent`,
`C169_violated_refused`). -/
theorem C169_sum_partial [AddCommMonoid α] (order : List (List α) → List (List α)) (ho : ∀ l, (order l).Perm l)
    (c : MpiComm) (size ps n : Nat) (hn : n < 2 ^ 31) (v : Nat → Nat → α) :
    allReduce (· + ·) order c size ps (uniform size n v) = .ok (uniform size n fun r i =>
      ∑ r' ∈ (Finset.range size).filter (c.sameAs ps r ·), v r' i) := by
  haveI : Std.Commutative (fun x y : α => x + y) := ⟨add_comm⟩
  haveI : Std.Associative (fun x y : α => x + y) := ⟨add_assoc⟩
  rw [allReduce_small (· + ·) 0 order ho c size ps n hn v]
  congr 1
  unfold uniform
  apply List.map_congr_left
  intro r hr
  apply List.map_congr_left
  intro i _
  beta_reduce
  rw [combine1_sum, group_toFinset c size ps r fun r' => v r' i]
  exact group_map_ne (List.mem_range.mp hr)

/-- Maximum over a communicator. -/
theorem C169_max_partial [LinearOrder α] (order : List (List α) → List (List α)) (ho : ∀ l, (order l).Perm l)
    (c : MpiComm) (size ps n : Nat) (hn : n < 2 ^ 31) (v : Nat → Nat → α) :
    ∃ w, allReduce max order c size ps (uniform size n v) = .ok (uniform size n w) ∧
      ∀ r < size, ∀ i, IsGreatest {x | ∃ r' < size, c.sameAs ps r r' = true ∧ x = v r' i} (w r i) := by
  refine ⟨fun r i => combine1 max (v 0 0) ((c.group size ps r).map fun r' => v r' i),
    allReduce_small max (v 0 0) order ho c size ps n hn v, fun r hr i => ?_⟩
  obtain ⟨h1, h2⟩ := combine1_max ((c.group size ps r).map fun r' => v r' i) (group_map_ne hr) (v 0 0)
  constructor
  · obtain ⟨r', hr', he⟩ := List.mem_map.mp h1
    obtain ⟨a, b⟩ := same_group.mp hr'
    exact ⟨r', a, b, he.symm⟩
  · rintro x ⟨r', a, b, rfl⟩
    exact h2 _ (List.mem_map.mpr ⟨r', same_group.mpr ⟨a, b⟩, rfl⟩)

/-- Minimum over a communicator. -/
theorem C169_min_partial [LinearOrder α] (order : List (List α) → List (List α)) (ho : ∀ l, (order l).Perm l)
    (c : MpiComm) (size ps n : Nat) (hn : n < 2 ^ 31) (v : Nat → Nat → α) :
    ∃ w, allReduce min order c size ps (uniform size n v) = .ok (uniform size n w) ∧
      ∀ r < size, ∀ i, IsLeast {x | ∃ r' < size, c.sameAs ps r r' = true ∧ x = v r' i} (w r i) := by
  refine ⟨fun r i => combine1 min (v 0 0) ((c.group size ps r).map fun r' => v r' i),
    allReduce_small min (v 0 0) order ho c size ps n hn v, fun r hr i => ?_⟩
  obtain ⟨h1, h2⟩ := combine1_min ((c.group size ps r).map fun r' => v r' i) (group_map_ne hr) (v 0 0)
  constructor
  · obtain ⟨r', hr', he⟩ := List.mem_map.mp h1
    obtain ⟨a, b⟩ := same_group.mp hr'
    exact ⟨r', a, b, he.symm⟩
  · rintro x ⟨r', a, b, rfl⟩
    exact h2 _ (List.mem_map.mpr ⟨r', same_group.mpr ⟨a, b⟩, rfl⟩)

/-- Broadcast: every process ends with the buffer of the root of its communicator, process 0 of the communicator when no
root is given.  Missing: 2^31 elements or more. -/
theorem C169_bcast_partial (c : MpiComm) (size ps n : Nat) (hp : 0 < ps) (hd : ps ∣ size) (hn : n < 2 ^ 31)
    (root : Int) (hq : (max 0 root).toNat < c.members size ps) (v : Nat → Nat → α) :
    bcast c size ps root (uniform size n v) =
      .ok (uniform size n fun r i => v (c.memberOf ps r (max 0 root).toNat) i) := by
  have hroot : (if root < 0 then 0 else root.toNat) = (max 0 root).toNat := by
    split <;> omega
  unfold bcast
  cases hs : c.skips size ps with
  | true =>
    rw [if_pos rfl]
    congr 1
    unfold uniform
    apply List.map_congr_left
    intro r hr
    have hr := List.mem_range.mp hr
    have h := group_member hp hd hr hq
    rw [group_skips hr hs] at h
    obtain ⟨_, h⟩ := List.getElem?_eq_some_iff.mp h
    have hmem : c.memberOf ps r ((max 0 root).toNat) ∈ [r] := List.mem_of_getElem (h := by assumption) h
    rw [List.mem_singleton] at hmem
    beta_reduce
    rw [hmem]
  | false =>
    rw [if_neg (by simp)]
    refine mapOutcome_eq_map _ _ _ fun rank hrank => ?_
    rw [List.mem_range] at hrank
    rw [hroot, group_member hp hd hrank hq]
    simp only
    rw [readAt_uniform v (memberOf_lt hp hd hrank hq), readAt_uniform v hrank]
    show mpiBcast _ _ = _
    unfold mpiBcast
    simp only [List.length_map, List.length_range, intCount_small hn]
    rw [if_neg (by omega), if_neg (by simp), Int.toNat_natCast]
    congr 1
    rw [List.take_of_length_le (by simp), List.drop_of_length_le (by simp), List.append_nil]

/-- A sum within the pools followed by a sum across pools is the sum over all processes. -/
theorem C169_pools_partial [AddCommMonoid α] (order order' : List (List α) → List (List α))
    (ho : ∀ l, (order l).Perm l) (ho' : ∀ l, (order' l).Perm l) (size ps n : Nat) (hp : 0 < ps) (hd : ps ∣ size)
    (hn : n < 2 ^ 31) (v : Nat → Nat → α) :
    (do let b ← allReduce (· + ·) order .intra size ps (uniform size n v)
        allReduce (· + ·) order' .inter size ps b) =
      .ok (uniform size n fun _ i => ∑ r ∈ Finset.range size, v r i) := by
  rw [C169_sum_partial order ho .intra size ps n hn v]
  show allReduce _ _ _ _ _ _ = _
  rw [C169_sum_partial order' ho' .inter size ps n hn]
  congr 1
  unfold uniform
  apply List.map_congr_left
  intro r hr
  apply List.map_congr_left
  intro i _
  beta_reduce
  rw [List.mem_range] at hr
  rw [← Finset.sum_biUnion]
  · congr 1
    ext x
    simp only [Finset.mem_biUnion, Finset.mem_filter, Finset.mem_range, MpiComm.sameAs, beq_iff_eq]
    constructor
    · rintro ⟨_, _, h, _⟩; exact h
    · intro hx
      have hlt : x / ps * ps + r % ps < size := by
        obtain ⟨k, rfl⟩ := hd
        have hq : x / ps < k := Nat.div_lt_of_lt_mul hx
        have h1 : (x / ps + 1) * ps ≤ k * ps := Nat.mul_le_mul_right ps (by omega)
        have h2 : r % ps < ps := Nat.mod_lt _ hp
        rw [Nat.mul_comm ps k]
        rw [Nat.add_mul] at h1
        omega
      refine ⟨x / ps * ps + r % ps, ⟨hlt, ?_⟩, hx, ?_⟩
      · rw [Nat.add_comm, Nat.add_mul_mod_self_right, Nat.mod_mod]
      · rw [Nat.add_comm, Nat.add_mul_div_right _ _ hp, Nat.div_eq_of_lt (Nat.mod_lt _ hp), Nat.zero_add]
  · intro a ha b hb hab
    rw [Function.onFun, Finset.disjoint_left]
    simp only [Finset.coe_filter, Finset.mem_range, MpiComm.sameAs, beq_iff_eq, Set.mem_ofPred_eq] at ha hb
    intro x hxa hxb
    simp only [Finset.mem_filter, MpiComm.sameAs, beq_iff_eq] at hxa hxb
    apply hab
    rw [← Nat.div_add_mod' a ps, ← Nat.div_add_mod' b ps, ← hxa.2, ← hxb.2, ha.2, hb.2]

/-- C169 is violated for `2^32 + k` elements: the count passed to the library is `k`, so that only the first `k` elements
are summed and the others keep the values of the process, without any error. -/
theorem C169_violated_silent [AddCommMonoid α] (order : List (List α) → List (List α)) (ho : ∀ l, (order l).Perm l)
    (size ps k : Nat) (hs : 1 < size) (hk : k < 2 ^ 31) (v : Nat → Nat → α) :
    allReduce (· + ·) order .world size ps (uniform size (2 ^ 32 + k) v) = .ok (uniform size (2 ^ 32 + k) fun r i =>
      if i < k then ∑ r' ∈ Finset.range size, v r' i else v r i) := by
  haveI : Std.Commutative (fun x y : α => x + y) := ⟨add_comm⟩
  haveI : Std.Associative (fun x y : α => x + y) := ⟨add_assoc⟩
  have hc : intCount (2 ^ 32 + k) = (k : Int) := by
    have : (2 ^ 32 + k) % 2 ^ 32 = k := by omega
    unfold intCount
    rw [this, if_pos hk]
  rw [allReduce_count (· + ·) 0 order ho .world size ps (2 ^ 32 + k) k (by simp [MpiComm.skips]; omega) hc (by omega) v]
  congr 1
  unfold uniform
  apply List.map_congr_left
  intro r hr
  apply List.map_congr_left
  intro i _
  beta_reduce
  congr 1
  rw [combine1_sum _ (group_map_ne (List.mem_range.mp hr)), group_toFinset .world size ps r fun r' => v r' i]
  congr 1
  ext x
  simp [MpiComm.sameAs]

/-- ... and between 2^31 and 2^32 elements the count is negative and the library refuses the call, for sums and for
broadcasts (the coupling of a large crystal is sent to the pools with `bcast`). -/
theorem C169_violated_refused (op : α → α → α) (order : List (List α) → List (List α)) (c : MpiComm) (size ps n : Nat)
    (hs : c.skips size ps = false) (hp : 0 < ps) (hd : ps ∣ size) (h0 : 0 < size) (h1 : 2 ^ 31 ≤ n) (h2 : n < 2 ^ 32)
    (v : Nat → Nat → α) :
    allReduce op order c size ps (uniform size n v) = .error ∧ bcast c size ps (-1) (uniform size n v) = .error := by
  have hc : intCount n < 0 := by
    have : n % 2 ^ 32 = n := Nat.mod_eq_of_lt h2
    unfold intCount
    rw [this, if_neg (by omega)]
    omega
  obtain ⟨m, rfl⟩ : ∃ m, size = m + 1 := ⟨size - 1, by omega⟩
  have hr : List.range (m + 1) = 0 :: (List.range m).map (· + 1) := List.range_succ_eq_map
  constructor
  · unfold allReduce
    rw [hs, if_neg (by simp), hr]
    have hmem : mapOutcome (readAt (uniform (m + 1) n v)) (c.group (m + 1) ps 0) =
        .ok ((c.group (m + 1) ps 0).map fun r => (List.range n).map (v r)) :=
      mapOutcome_eq_map _ _ _ fun r hr => readAt_uniform v (mem_group.mp hr).1
    refine mapOutcome_cons_error ?_
    beta_reduce
    rw [hmem, readAt_uniform v h0]
    show mpiAllreduce op order _ _ = _
    unfold mpiAllreduce
    simp only [List.length_map, List.length_range]
    rw [if_pos hc]
  · unfold bcast
    rw [hs, if_neg (by simp), hr]
    refine mapOutcome_cons_error ?_
    beta_reduce
    have hq : 0 < c.members (m + 1) ps := by
      cases c
      · exact h0
      · exact hp
      · exact Nat.div_pos (Nat.le_of_dvd h0 hd) hp
    rw [if_pos (by omega), group_member hp hd h0 hq]
    simp only
    rw [readAt_uniform v (memberOf_lt hp hd h0 hq), readAt_uniform v h0]
    show mpiBcast _ _ = _
    unfold mpiBcast
    simp only [List.length_map, List.length_range]
    rw [if_pos (Or.inl hc)]

/-- Two pools of two processes: sums within the pools, across pools, over all. -/
example :
    allReduce (· + ·) List.reverse .intra 4 2 [[1, 10], [2, 20], [3, 30], [4, 40]] =
      .ok [[3, 30], [3, 30], [7, 70], [(7 : Int), 70]] ∧
    allReduce (· + ·) List.reverse .inter 4 2 [[1, 10], [2, 20], [3, 30], [4, 40]] =
      .ok [[4, 40], [6, 60], [4, 40], [(6 : Int), 60]] ∧
    allReduce max List.reverse .world 4 2 [[1, 40], [2, 30], [3, 20], [4, 10]] =
      .ok [[4, 40], [4, 40], [4, 40], [(4 : Int), 40]] ∧
    bcast .inter 4 2 (-1) [[1], [2], [3], [4]] = .ok [[1], [2], [1], [(2 : Int)]] ∧
    bcast .intra 4 2 1 [[1], [2], [3], [4]] = .ok [[2], [2], [4], [(4 : Int)]] := by
  decide +kernel

example : ∀ l : List (List Int), l.reverse.Perm l := fun l => List.reverse_perm l

end Verif.Props
