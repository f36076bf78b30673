import Verif.Proofs.Mpi
/-!
# Properties C06-C11: work division and collectives
-/
namespace Verif.Props
open Verif.Model

/-- Largest `size_t` plus one. -/
abbrev sizeTMod : Nat := 18446744073709551616

/-! ## C06 work division -/

/-- The lists of tasks handed out to ranks `0, 1, ..., size-1`, one after the other, are exactly
`0, 1, ..., n-1`: every task is done once, by one rank, in order. -/
theorem C06_partition (n size : Nat) (hs : 0 < size) (hfit : n * size < sizeTMod) :
    ∃ work : Nat → List Nat, (∀ r, r < size → divideWorkIter n r size = .ok (work r)) ∧
      (List.range size).flatMap work = List.range n := by
  refine ⟨fun r => List.range' (head n size r) (head n size (r + 1) - head n size r),
    fun r hr => divideWorkIter_val hfit hr, ?_⟩
  rw [flatMap_ranges, head_last n size hs]

/-- The number of tasks of two ranks differs by at most one. -/
theorem C06_balance (n size r1 r2 : Nat) (h1 : r1 < size) (h2 : r2 < size) (hfit : n * size < sizeTMod)
    (w1 w2 : List Nat) (e1 : divideWorkIter n r1 size = .ok w1) (e2 : divideWorkIter n r2 size = .ok w2) :
    w1.length ≤ w2.length + 1 := by
  rw [divideWorkIter_val hfit h1] at e1
  rw [divideWorkIter_val hfit h2] at e2
  cases e1; cases e2
  have a := len_bounds n size r1 (by omega)
  have b := len_bounds n size r2 (by omega)
  simp only [List.length_range']
  omega

/-- `divideWork` (start and stop) describes the same tasks as `divideWorkIter` (list). -/
theorem C06_start_stop (n size r : Nat) (hr : r < size) (hfit : n * size < sizeTMod) :
    (divideWork n r size).1 ≤ (divideWork n r size).2 ∧ (divideWork n r size).2 ≤ n ∧
    ∃ w, divideWorkIter n r size = .ok w ∧
      ∀ i, i ∈ w ↔ (divideWork n r size).1 ≤ i ∧ i < (divideWork n r size).2 := by
  have hm : head n size r ≤ head n size (r + 1) := head_mono n size (Nat.le_succ r)
  have hl : head n size (r + 1) ≤ n := by
    have := head_mono n size (show r + 1 ≤ size by omega)
    rwa [head_last n size (by omega)] at this
  rw [divideWork_val hfit hr]
  refine ⟨hm, hl, _, divideWorkIter_val hfit hr, ?_⟩
  intro i
  rw [List.mem_range'_1]
  simp only
  omega

example : divideWorkIter 7 0 3 = .ok [0, 1] ∧ divideWorkIter 7 1 3 = .ok [2, 3] ∧
    divideWorkIter 7 2 3 = .ok [4, 5, 6] ∧ 7 * 3 < sizeTMod := by decide

/-! ## C07 gather -/

/-- If every rank computes the entries of its share of an array `f 0 .. f (n-1)`, gathering gives the
serial array, whatever the receive buffer held.  (`n` must be an `int` because counts are `int`s.) -/
theorem C07_gather (n size : Nat) (hs : 0 < size) (hfit : n * size < sizeTMod) (hint : (n : Int) ≤ intMax)
    (f : Nat → α) (sends : List (List α)) (hlen : sends.length = size)
    (hsend : ∀ r (hr : r < sends.length), ∃ w, divideWorkIter n r size = .ok w ∧ sends[r] = w.map f)
    (dataOut : List α) (hout : dataOut.length = n) :
    allGatherv sends dataOut = .ok ((List.range n).map f) := by
  have hM : intMax = 2147483647 := rfl
  have hsends : sends = (List.range size).map (slice (head n size) f) := by
    apply List.ext_getElem
    · simp [hlen]
    · intro r h1 h2
      obtain ⟨w, hw, he⟩ := hsend r h1
      rw [divideWorkIter_val hfit (by omega)] at hw
      cases hw
      rw [he]; simp [slice]
  unfold allGatherv
  rw [hlen, hout, workDivHelper_val hfit (by omega), hsends]
  have hg := mpiGatherv_blocks (head n size) (fun r => head_mono n size (Nat.le_succ r)) f size 0 dataOut
    (by rw [Nat.zero_add, head_last n size hs, hout])
  simp only [head_zero, head_last n size hs, Nat.zero_add, Nat.sub_zero, List.take_zero,
    List.nil_append, ← List.range_eq_range'] at hg
  rw [List.drop_of_length_le (by omega), List.append_nil] at hg
  exact hg

example : allGatherv [[10, 11], [12, 13], [14, 15, 16]] [0, 0, 0, 0, 0, 0, 0]
    = .ok [10, 11, 12, 13, 14, 15, 16] := by decide

/-- A rank that sends a block of a different size makes the gather erroneous: agreement between the work
division and the counts is essential. -/
theorem C07_mismatch : allGatherv [[10], [12, 13], [14, 15, 16]] [0, 0, 0, 0, 0, 0, 0] = .ub := by decide

/-! ## C08 pools -/

/-- Zero or non-dividing pool sizes are rejected. -/
theorem C08_rejects (size ps rank : Nat) (h : ps = 0 ∨ ¬ ps ∣ size) : poolSetup size ps rank = .error := by
  unfold poolSetup
  by_cases h0 : ps = 0
  · simp [h0]
  · have hd : ¬ ps ∣ size := by rcases h with h | h; exact absurd h h0; exact h
    have : size % ps ≠ 0 := fun h => hd (Nat.dvd_of_mod_eq_zero h)
    simp [h0, this]

/-- Accepted pool sizes: the pool of `rank`, its rank in the pool, the inter-pool group and the rank in it
are the quotient and remainder by the pool size. -/
theorem C08_accepts (size ps rank : Nat) (h0 : 0 < ps) (hd : ps ∣ size) (hr : rank < size) :
    poolSetup size ps rank = .ok
      { poolId := rank / ps, poolRank := rank % ps, interColor := rank % ps, interRank := rank / ps,
        poolSize := ps } := by
  obtain ⟨k, rfl⟩ := hd
  have hq : rank / ps < k := Nat.div_lt_of_lt_mul hr
  have hsz : splitSize (ps * k) (fun r => r / ps) rank = ps := by
    unfold splitSize; rw [count_div ps (rank / ps) k h0, if_pos hq]
  have hinter : splitRank (ps * k) (fun r => r % ps) rank = rank / ps := splitRank_mod ps k rank h0 hr
  have hpool : splitRank (ps * k) (fun r => r / ps) rank = rank % ps := count_div_lt ps k rank h0 hr
  unfold poolSetup
  simp only [hsz]
  rw [if_neg (by omega), if_neg (by simp)]
  simp [hinter, hpool]

/-- Each pool has exactly `ps` ranks, each inter-pool group exactly `size / ps`, and the pair
(pool, rank in the pool) identifies the rank. -/
theorem C08_partition (size ps : Nat) (h0 : 0 < ps) (hd : ps ∣ size) (rank : Nat) (hr : rank < size)
    (info : PoolInfo) (hi : poolSetup size ps rank = .ok info) :
    info.poolRank < ps ∧ info.poolId < size / ps ∧
    ((List.range size).filter (fun r =>
        (poolSetup size ps r).toOption.map PoolInfo.poolId == some info.poolId)).length = ps ∧
    ((List.range size).filter (fun r =>
        (poolSetup size ps r).toOption.map PoolInfo.interColor == some info.interColor)).length = size / ps ∧
    (∀ rank' info', rank' < size → poolSetup size ps rank' = .ok info' →
      info'.poolId = info.poolId → info'.poolRank = info.poolRank → rank' = rank) := by
  rw [C08_accepts size ps rank h0 hd hr] at hi
  cases hi
  obtain ⟨k, rfl⟩ := hd
  have hk : ps * k / ps = k := Nat.mul_div_cancel_left k h0
  have hq : rank / ps < k := Nat.div_lt_of_lt_mul hr
  have hc : rank % ps < ps := Nat.mod_lt _ h0
  refine ⟨hc, by simpa [hk] using hq, ?_, ?_, ?_⟩
  · have : ∀ r ∈ List.range (ps * k), ((poolSetup (ps * k) ps r).toOption.map PoolInfo.poolId
        == some (rank / ps)) = (r / ps == rank / ps) := by
      intro r hr'
      have hr' := List.mem_range.mp hr'
      rw [C08_accepts (ps * k) ps r h0 (Nat.dvd_mul_right ..) hr']
      simp [Outcome.toOption]
    rw [List.filter_congr this, count_div ps _ k h0, if_pos hq]
  · have : ∀ r ∈ List.range (ps * k), ((poolSetup (ps * k) ps r).toOption.map PoolInfo.interColor
        == some (rank % ps)) = (r % ps == rank % ps) := by
      intro r hr'
      have hr' := List.mem_range.mp hr'
      rw [C08_accepts (ps * k) ps r h0 (Nat.dvd_mul_right ..) hr']
      simp [Outcome.toOption]
    rw [List.filter_congr this, count_mod ps _ k h0 hc, hk]
  · intro rank' info' hr' hi' e1 e2
    rw [C08_accepts (ps * k) ps rank' h0 (Nat.dvd_mul_right ..) hr'] at hi'
    cases hi'
    simp only at e1 e2
    rw [← Nat.div_add_mod rank ps, ← Nat.div_add_mod rank' ps, e1, e2]

example : poolSetup 6 2 3 = .ok ⟨1, 1, 1, 1, 2⟩ ∧ poolSetup 6 4 3 = .error := by decide

/-! ## C09 large gathers -/

/-- The derived datatype describes elements `0 .. count-1`, each once, in order. -/
theorem C09_datatype (count : Nat) : datatypeOffsets 2147483647 count = List.range count :=
  datatypeOffsets_val _ _

/-- ... and its block count and remainder are representable as `int` for every buffer below 2^62 elements. -/
theorem C09_datatype_counts (count : Nat) (h : count < 2147483647 * 2147483647) :
    count / 2147483647 ≤ 2147483647 ∧ count % 2147483647 ≤ 2147483647 := by
  constructor
  · have := Nat.div_lt_of_lt_mul h; omega
  · have := Nat.mod_lt count (show 0 < 2147483647 by decide); omega

/-- The gather is correct on the world communicator of two or more processes for every array size, on one process below
2^32 elements, and on any communicator when the array has fewer than INT_MAX elements.  The array `f` is cut at the
positions `cut 0 = 0 ≤ cut 1 ≤ ...`.  Missing with respect to C09: sub-communicators with larger arrays, where it fails
(`C09_violated`), and larger arrays on one process, where it does not end (`C09_violated_one_process`). -/
theorem C09_gather_partial (worldRanks : List Nat) (cut : Nat → Nat) (h0 : cut 0 = 0)
    (hm : ∀ r, cut r ≤ cut (r + 1)) (f : Nat → α) (size : Nat) (hs : 0 < size)
    (hlen : worldRanks.length = size) (dataOut : List α) (hb : dataOut.length = cut size)
    (hbr : cut size < 2147483647 ∨ worldRanks = List.range size) (hone : size = 1 → cut size < 4294967296)
    (datas : List (List α)) (hdlen : datas.length = size)
    (hdatas : ∀ r (hr : r < datas.length), datas[r] = (List.range' (cut r) (cut (r + 1) - cut r)).map f) :
    bigAllGatherV 2147483647 worldRanks datas
      ((List.range size).map (fun r => cut (r + 1) - cut r)) ((List.range size).map cut) dataOut
      = .ok ((List.range (cut size)).map f) := by
  have : datas = (List.range size).map (slice cut f) := by
    apply List.ext_getElem
    · simp [hdlen]
    · intro r h1 h2; rw [hdatas r h1]; simp [slice]
  rw [this]
  exact bigAllGatherV_val 2147483647 worldRanks cut h0 hm f size hs hlen dataOut hb hbr hone

example : bigAllGatherV 2147483647 [4, 5] [[1, 2], [3]] [2, 1] [0, 2] [0, 0, 0] = .ok [1, 2, 3] := by decide
-- the large branch, exercised with a small stand-in for INT_MAX
example : bigAllGatherV 2 [0, 1] [[1, 2], [3]] [2, 1] [0, 2] [0, 0, 0] = .ok [1, 2, 3] := by decide

/-- The full C09 is violated: in the pool made of world ranks 2 and 3, an array of at least INT_MAX elements
makes every process read past the end of the list of counts. -/
theorem C09_violated (d0 d1 dataOut : List α) (n0 n1 : Nat) (hbig : 2147483647 ≤ n0 + n1) :
    bigAllGatherV 2147483647 [2, 3] [d0, d1] [n0, n1] [0, n0] dataOut = .ub := by
  have : ¬ (n0 + n1 < 2147483647) := by omega
  simp [bigAllGatherV, this, collectSends, bigGatherSend]

example : 2147483647 ≤ 2147483647 + 1 := by decide

/-- The full C09 is violated on one process: the copy of 2^32 elements or more never ends, because its counter has 32
bits. -/
theorem C09_violated_one_process (data dataOut : List α) (hbig : 4294967296 ≤ data.length)
    (hout : dataOut.length = data.length) :
    bigAllGatherV 2147483647 [0] [data] [data.length] [0] dataOut = .diverge := by
  have : ¬ data.length < 4294967296 := by omega
  simp [bigAllGatherV, blit, hout, this]

-- lists of any length exist
example (n : Nat) : ∃ data : List Nat, data.length = n := ⟨List.replicate n 0, List.length_replicate⟩

/-! ## C10 sum reduction into a separate buffer -/

/-- With two or more processes, the output of every rank is the sum over ranks. Missing with respect to C10:
the single-process run (`C10_violated`). -/
theorem C10_sum_partial [AddMonoid α] (ins outs : List (Nat → α)) (h : 2 ≤ ins.length)
    (hl : outs.length = ins.length) (r : Nat) (hr : r < outs.length) (i : Nat) :
    ∃ o, (allReduceSum2 ins outs)[r]? = some o ∧ o i = (ins.map (fun b => b i)).sum := by
  refine ⟨mpiSum ins, ?_, mpiSum_eq ins i⟩
  unfold allReduceSum2
  rw [if_neg (by omega), List.getElem?_map, List.getElem?_eq_getElem hr]; rfl

example : 2 ≤ [fun _ : Nat => (1 : Int), fun i => i].length := by decide

/-- The full C10 is violated on one process: the output keeps its old content whatever the input. -/
theorem C10_violated [AddMonoid α] (inp out : Nat → α) : allReduceSum2 [inp] [out] = [out] := by
  simp [allReduceSum2]

/-! ## C11 fill and reduce -/

/-- Each rank fills the entries of its share (zero elsewhere), then the buffers are summed in place: on every
rank, every entry below `n` has the serial value. Holds for every number of processes. -/
theorem C11_fill_reduce [AddMonoid α] (n size : Nat) (hs : 0 < size) (hfit : n * size < sizeTMod)
    (f : Nat → α) (bufs : List (Nat → α)) (hlen : bufs.length = size)
    (hfill : ∀ r (hr : r < bufs.length), ∃ w, divideWorkIter n r size = .ok w ∧
      ∀ i, bufs[r] i = if i ∈ w then f i else 0)
    (r : Nat) (hr : r < size) (i : Nat) (hi : i < n) :
    ∃ o, (allReduceSum1 bufs)[r]? = some o ∧ o i = f i := by
  have hb : bufs = (List.range size).map (fun r => fun i =>
      if i ∈ List.range' (head n size r) (head n size (r + 1) - head n size r) then f i else 0) := by
    apply List.ext_getElem
    · simp [hlen]
    · intro q h1 h2
      obtain ⟨w, hw, he⟩ := hfill q h1
      rw [divideWorkIter_val hfit (by omega)] at hw
      cases hw
      funext i; rw [he i]; simp
  have hsum : mpiSum bufs i = f i := by
    rw [mpiSum_eq, hb, List.map_map]
    have := sum_slices (head n size) (head_zero n size)
      (fun r => head_mono n size (Nat.le_succ r)) f i size
    rw [head_last n size hs, if_pos hi] at this
    exact this
  unfold allReduceSum1
  by_cases h1 : bufs.length = 1
  · rw [if_pos h1]
    have hr0 : r = 0 := by omega
    subst hr0
    refine ⟨bufs[0], List.getElem?_eq_getElem (by omega), ?_⟩
    match bufs, h1 with
    | [b], _ => simpa [mpiSum] using hsum
  · rw [if_neg h1]
    refine ⟨mpiSum bufs, ?_, hsum⟩
    rw [List.getElem?_map, List.getElem?_eq_getElem (show r < bufs.length by omega)]; rfl

example : (allReduceSum1 [fun i : Nat => if i ∈ [0, 1] then (i : Int) + 5 else 0,
    fun i => if i ∈ [2, 3, 4] then (i : Int) + 5 else 0]).map (fun o => (List.range 5).map o)
    = [[5, 6, 7, 8, 9], [5, 6, 7, 8, 9]] := by decide

end Verif.Props
