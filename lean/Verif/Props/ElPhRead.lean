import Verif.Proofs.ElPhRead

/-! # C121: reading the electron-phonon coupling -/
namespace Verif.Props
open Verif.Model Verif.Spec

variable {α : Type} [Zero α]

/-- Partial C121: without pools, from a file of the first format, every process gets the coupling of all the lattice
vectors, for any number of processes up to the number of vectors.  Missing: more processes than vectors
(`C121_violated_many_processes`) and, on one process, 2^32 elements or more (`C09_violated_one_process`). -/
theorem C121_format1_partial (g : Nat → Nat → α) (n perBV size : Nat) (hp : 0 < perBV) (hs : 0 < size)
    (hfit : n * size < 18446744073709551616) (hn : size ≤ n) (hone : size = 1 → n * perBV < 4294967296) :
    v1Read (elementsOf g perBV (List.range n)) n perBV size = .ok (elementsOf g perBV (List.range n)) := by
  have hsl : mapOutcome (fun r => v1Slice (elementsOf g perBV (List.range n)) n perBV r size) (List.range size) =
      .ok ((List.range size).map fun r => (head n size r * perBV,
        elementsOf g perBV (List.range' (head n size r) (head n size (r + 1) - head n size r)))) :=
    mapOutcome_eq_map _ _ _ fun r hr => v1Slice_val g n perBV r size hp (List.mem_range.mp hr) hfit hn
  unfold v1Read
  simp only [hsl, Outcome.bind_eq, Outcome.bind_ok, List.map_map]
  -- the file as a function of the position
  let f : Nat → α := fun k => g (k / perBV) (k % perBV)
  have hf : ∀ a m, elementsOf g perBV (List.range' a m) = (List.range' (a * perBV) (m * perBV)).map f := by
    intro a m
    induction m with
    | zero => simp [elementsOf]
    | succ m ih =>
      have e : List.range' (a * perBV) ((m + 1) * perBV) =
          List.range' (a * perBV) (m * perBV) ++ List.range' (a * perBV + m * perBV) perBV := by
        rw [List.range'_append_1]; congr 1; ring
      rw [List.range'_1_concat, elementsOf_append, ih, e, List.map_append]
      congr 1
      simp only [elementsOf, List.flatMap_cons, List.flatMap_nil, List.append_nil]
      rw [List.range'_eq_map_range, List.map_map]
      apply List.map_congr_left
      intro j hj
      have hj := List.mem_range.mp hj
      simp only [Function.comp, f]
      rw [← Nat.add_mul, show (a + m) * perBV + j = j + perBV * (a + m) by ring, Nat.add_mul_div_left _ _ hp,
        Nat.add_mul_mod_self_left, Nat.div_eq_of_lt hj, Nat.mod_eq_of_lt hj, Nat.zero_add]
  have hcut : ∀ r, (head n size (r + 1) - head n size r) * perBV = head n size (r + 1) * perBV - head n size r * perBV :=
    fun r => Nat.sub_mul _ _ _
  have hlast : head n size size * perBV = n * perBV := by rw [head_last n size hs]
  have := bigAllGatherV_val 2147483647 (List.range size) (fun r => head n size r * perBV) (by simp [head])
    (fun r => Nat.mul_le_mul_right _ (head_mono n size (Nat.le_succ r))) f size hs (by simp)
    (List.replicate (n * perBV) 0) (by rw [List.length_replicate, hlast]) (Or.inr rfl)
    (fun h => by rw [hlast]; exact hone h)
  rw [hlast] at this
  have hr : elementsOf g perBV (List.range n) = (List.range (n * perBV)).map f := by
    have := hf 0 n
    rw [Nat.zero_mul, ← List.range_eq_range', ← List.range_eq_range'] at this
    exact this
  rw [hr, ← this]
  congr 1
  · apply List.map_congr_left
    intro r _
    simp only [Function.comp, slice]
    rw [hf, hcut]
  · apply List.map_congr_left
    intro r _
    simp only [Function.comp]
    rw [elementsOf_length, List.length_range', hcut]

/-- A file of the first format with fewer elements than the lattice vectors need is refused. -/
theorem C121_short_file_refused (data : List α) (n perBV size : Nat) (hp : 0 < perBV) (hs : 0 < size)
    (hfit : n * size < 18446744073709551616) (hn : size ≤ n) (hshort : data.length < n * perBV) :
    v1Read data n perBV size = .error := by
  have hm : mapOutcome (fun r => v1Slice data n perBV r size) (List.range size) = .error := by
    refine mapOutcome_error _ _ (fun r hr => ?_) (size - 1) (List.mem_range.mpr (by omega))
      ((v1Slice_outcome data n perBV (size - 1) size hp (by omega) hfit hn).2 ?_)
    · have := v1Slice_outcome data n perBV r size hp (List.mem_range.mp hr) hfit hn
      rcases le_or_gt (head n size (r + 1) * perBV) data.length with h | h
      · exact Or.inl (this.1 h)
      · exact Or.inr (this.2 h)
    · rw [Nat.sub_add_cancel hs, head_last n size hs]
      exact hshort
  unfold v1Read
  rw [hm]
  rfl

/-- Five elements for three lattice vectors with two elements each, on two processes. -/
example : v1Read [1, 2, 3, 4, (5 : Int)] 3 2 2 = .error :=
  C121_short_file_refused _ _ _ _ (by norm_num) (by norm_num) (by norm_num) (by norm_num) (by norm_num)

/-- The full C121 is violated: with more processes than lattice vectors, the share of the first process is empty and its
first element is read all the same. -/
theorem C121_violated_many_processes (data : List α) (n perBV size : Nat) (hfit : n * size < 18446744073709551616)
    (hn : n < size) : v1Read data n perBV size = .ub := by
  obtain ⟨k, rfl⟩ : ∃ k, size = k + 1 := ⟨size - 1, by omega⟩
  have h0 : v1Slice data n perBV 0 (k + 1) = .ub := by
    have h : divideWorkIter n 0 (k + 1) = .ok [] := by
      rw [divideWorkIter_val hfit (by omega)]
      have h1 : head n (k + 1) (0 + 1) = 0 := by unfold head; rw [Nat.zero_add, Nat.mul_one]; exact Nat.div_eq_of_lt hn
      rw [h1]
      simp
    unfold v1Slice
    simp only [h, Outcome.bind_eq, Outcome.bind_ok]
    rfl
  unfold v1Read
  rw [List.range_succ_eq_map]
  simp only [mapOutcome, h0, Outcome.bind_eq]
  rfl

/-- With pools, from a file of the first format, a process gets the vectors of its share, when the pool has no more
processes than there are vectors. -/
theorem C121_format1_pools_partial (g : Nat → Nat → α) (n perBV rank poolSize : Nat) (hr : rank < poolSize)
    (hfit : n * poolSize < 18446744073709551616) (hn : poolSize ≤ n) :
    ∃ w, divideWorkIter n rank poolSize = .ok w ∧
      v1Pool (elementsOf g perBV (List.range n)) n perBV rank poolSize = .ok (elementsOf g perBV w) :=
  ⟨_, divideWorkIter_val hfit hr, v1Pool_val g n perBV rank poolSize hr hfit hn⟩

/-- With pools, from a file of the second format, a process gets the vectors of its share. -/
theorem C121_format2_pools (g : Nat → Nat → α) (n perBV rank poolSize : Nat) (hr : rank < poolSize)
    (hfit : n * poolSize < 18446744073709551616) :
    ∃ w, divideWorkIter n rank poolSize = .ok w ∧
      v2Pool (fun r => (List.range perBV).map (g r)) n perBV rank poolSize = .ok (elementsOf g perBV w) := by
  refine ⟨_, divideWorkIter_val hfit hr, ?_⟩
  unfold v2Pool
  rw [divideWorkIter_val hfit hr]
  simp only [Outcome.bind_eq, Outcome.bind_ok]
  generalize head n poolSize rank = a
  generalize head n poolSize (rank + 1) - a = m
  cases m with
  | zero => simp [v2Loop, elementsOf]
  | succ m =>
    have hh : (List.range' a (m + 1)).headD 0 = a := by simp [List.range'_succ]
    rw [hh, List.length_range']
    have := v2Loop_val g perBV a a (m + 1) le_rfl [] (List.replicate ((m + 1) * perBV) 0) (by simp) (by simp)
    simpa using this

/-- On one process, from a file of the second format, the coupling is complete. -/
theorem C121_format2_one_process_partial (g : Nat → Nat → α) (n perBV : Nat) (hfit : n < 18446744073709551616) :
    v2Read (fun r => (List.range perBV).map (g r)) n perBV 1 = .ok (elementsOf g perBV (List.range n)) := by
  have hw : divideWorkIter n 0 1 = .ok (List.range' 0 n) := by
    rw [divideWorkIter_val (by omega) (by omega)]; simp [head]
  have := v2Loop_val g perBV 0 0 n le_rfl [] (List.replicate (n * perBV) 0) (by simp) (by simp)
  simp only [List.nil_append, List.drop_replicate, Nat.sub_self, List.replicate_zero, List.append_nil] at this
  unfold v2Read
  simp only [List.range_one, mapOutcome, hw, this, Outcome.bind_eq, Outcome.bind_ok]
  rw [List.range_eq_range']

/-- The full C121 is violated: on two or more processes without pools, from a file of the second format, every process
has the vectors of the share of the first process only, and zeros in place of the coupling of all the others. -/
theorem C121_violated_format2 (g : Nat → Nat → α) (n perBV size : Nat) (hs : 0 < size)
    (hfit : n * size < 18446744073709551616) :
    v2Read (fun r => (List.range perBV).map (g r)) n perBV size =
      .ok (elementsOf g perBV (List.range (n / size)) ++ List.replicate ((n - n / size) * perBV) 0) := by
  have hone : ∀ r, r < size → ((do
      let w ← divideWorkIter n r size
      v2Loop (fun r => (List.range perBV).map (g r)) perBV 0 w (List.replicate (n * perBV) 0)) : Outcome (List α)) =
      .ok (List.replicate (head n size r * perBV) 0 ++
        (elementsOf g perBV (List.range' (head n size r) (head n size (r + 1) - head n size r)) ++
          List.replicate ((n - head n size (r + 1)) * perBV) 0)) := by
    intro r hr
    have hm : head n size r ≤ head n size (r + 1) := head_mono n size (Nat.le_succ r)
    have hle : head n size (r + 1) ≤ n := head_le hr hs
    rw [divideWorkIter_val hfit hr]
    simp only [Outcome.bind_eq, Outcome.bind_ok]
    generalize head n size r = a at *
    generalize head n size (r + 1) = b at *
    have hsplit : List.replicate (n * perBV) (0 : α) = List.replicate (a * perBV) 0 ++ List.replicate ((n - a) * perBV) 0 := by
      rw [List.replicate_append_replicate, ← Nat.add_mul]; congr 2; omega
    rw [hsplit, v2Loop_val g perBV 0 a (b - a) (Nat.zero_le _) _ _ (by simp) (by
      rw [List.length_replicate]; exact Nat.mul_le_mul_right _ (by omega)), List.drop_replicate, ← Nat.sub_mul,
      show n - a - (b - a) = n - b by omega]
  unfold v2Read
  rw [mapOutcome_eq_map _ _ _ fun r hr => hone r (List.mem_range.mp hr)]
  obtain ⟨k, rfl⟩ : ∃ k, size = k + 1 := ⟨size - 1, by omega⟩
  rw [List.range_succ_eq_map, List.map_cons]
  simp only [Outcome.bind_eq, Outcome.bind_ok]
  have h0 : head n (k + 1) 0 = 0 := by simp [head]
  have h1 : head n (k + 1) (0 + 1) = n / (k + 1) := by simp [head]
  rw [h0, h1, Nat.zero_mul, List.replicate_zero, List.nil_append, Nat.sub_zero, List.range_eq_range']

/-- Two vectors, two processes: the second vector is lost. -/
example : v2Read (fun r => (List.range 2).map fun j => (10 * r + j + 1 : Int)) 2 2 2 = .ok [1, 2, 0, 0] ∧
    elementsOf (fun r j => (10 * r + j + 1 : Int)) 2 (List.range 2) = [1, 2, 11, 12] := by decide

/-- From a text file, a process gets the vectors of its share, for any number of processes of the pool; a file may go on
after the coupling. -/
theorem C121_text (g : Nat → Nat → α × α) (n perBV rank poolSize : Nat) (hr : rank < poolSize)
    (hfit : n * poolSize < 18446744073709551616) (rest : List α) :
    ∃ w, divideWorkIter n rank poolSize = .ok w ∧
      textRead ((elementsOf g perBV (List.range n)).flatMap (fun z => [z.1, z.2]) ++ rest) n perBV rank poolSize =
        .ok (elementsOf g perBV w) := by
  refine ⟨_, divideWorkIter_val hfit hr, ?_⟩
  have hle : head n poolSize (rank + 1) ≤ n := head_le hr (by omega)
  have hm : head n poolSize rank ≤ head n poolSize (rank + 1) := head_mono n poolSize (Nat.le_succ rank)
  unfold textRead
  rw [divideWorkIter_val hfit hr]
  simp only [Outcome.bind_eq, Outcome.bind_ok, List.length_range']
  obtain ⟨re, im, h⟩ := textOuter g perBV (head n poolSize rank) (head n poolSize (rank + 1) - head n poolSize rank) n rest
  rw [h]
  have e : min (n - head n poolSize rank) (head n poolSize (rank + 1) - head n poolSize rank) =
      head n poolSize (rank + 1) - head n poolSize rank := by omega
  simp only [e, Nat.sub_self, Nat.zero_mul, List.replicate_zero, List.append_nil]

/-- The full C121 is violated: a text file that ends too early is accepted, and the last number read is repeated. -/
theorem C121_violated_text : textRead [1, 2, 3, 4, (5 : Int)] 2 2 0 1 = .ok [(1, 2), (3, 4), (5, 4), (5, 4)] := by decide

/-- HDF5 reads: bunches cover all the vectors, and none is above the limit of 10^9 bytes if one vector is not. -/
theorem C121_bunches (perBV n : Nat) : (bunchSizes perBV n).sum = n ∧
    (perBV * 16 ≤ 1000000000 → ∀ b ∈ bunchSizes perBV n, b * perBV * 16 ≤ 1000000000) := by
  refine ⟨by unfold bunchSizes; rw [bunchLoop_sum, Nat.add_zero], fun h b hb => ?_⟩
  have := bunchLoop_le perBV (1000000000 / 16) (by omega) n 0 (by simp) (by rw [Nat.zero_add, Nat.one_mul]; omega) b hb
  omega

example : bunchSizes 30000000 5 = [2, 2, 1] := by decide
example : bunchSizes 30000000 4 = [2, 2, 0] := by decide

/-- The full C121 is violated: the number of elements of one vector is computed with `int`s, although the tensor of a
process may be larger. -/
theorem C121_violated_overflow : elphPerVector 100 60 4000 = .ub := by decide

/-- Below 2^31 elements for each vector the number is right. -/
theorem C121_count_partial (nb nph nr : Nat) (hnr : 0 < nr) (hph : 0 < nph) (h : nb * nb * nph * nr < 2147483648) :
    elphPerVector nb nph nr = .ok (nb * nb * nph * nr) := by
  have h1 : nb * nb ≤ nb * nb * nph := Nat.le_mul_of_pos_right _ hph
  have h2 : nb * nb * nph ≤ nb * nb * nph * nr := Nat.le_mul_of_pos_right _ hnr
  have c : ∀ a b : Nat, a * b < 2147483648 → cmul (a : Int) (b : Int) = .ok ((a * b : Nat) : Int) := by
    intro a b hab
    unfold cmul i32 intMin intMax
    rw [if_pos (by rw [← Nat.cast_mul]; omega), Nat.cast_mul]
  unfold elphPerVector
  simp only [c nb nb (by omega), c (nb * nb) nph (by omega), c (nb * nb * nph) nr h, Outcome.bind_eq, Outcome.bind_ok,
    Int.toNat_natCast]

/-- Three vectors of two elements on two processes: hypotheses and result of the readers. -/
example : v1Read (elementsOf (fun r j => (10 * r + j + 1 : Int)) 2 (List.range 3)) 3 2 2 = .ok [1, 2, 11, 12, 21, 22] ∧
    v1Pool (elementsOf (fun r j => (10 * r + j + 1 : Int)) 2 (List.range 3)) 3 2 1 2 = .ok [11, 12, 21, 22] ∧
    v2Pool (fun r => (List.range 2).map fun j => (10 * r + j + 1 : Int)) 3 2 1 2 = .ok [11, 12, 21, 22] ∧
    textRead [1, 2, 3, 4, 5, 6, (7 : Int)] 3 1 1 2 = .ok [(3, 4), (5, 6)] := by decide

end Verif.Props
