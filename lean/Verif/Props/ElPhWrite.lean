import Verif.Proofs.ElPhWrite
import Verif.Props.ElPhRead

/-! C148: writing of the electron-phonon coupling in Wannier space. -/
namespace Verif.Props
open Verif.Model Verif.Spec

variable {α : Type}

/-- C148 (partial): with the first format, a tensor distributed over several processes is written to the file as it is, in
whatever order the processes write, if the part of each process is at most 10^9 bytes.
Missing: larger tensors (`C148_violated_bunches`). -/
theorem C148_format1_partial (g : Nat → Nat → α) (n perBV size : Nat) (hs : 2 ≤ size) (hn : size ≤ n)
    (hfit : n * size < 18446744073709551616) (mems : Nat → Nat × List α) (hm : Distributed g n perBV size mems)
    (hb : ∀ r < size, ∀ w, divideWorkIter n r size = .ok w → w.length * perBV * 16 ≤ 1000000000) :
    ∃ ws, v1Writes mems n perBV size = .ok ws ∧
      ∀ ws', ws'.Perm ws → ∀ file : List α, file.length = n * perBV →
        applyWrites file ws' = .ok (elementsOf g perBV (List.range n)) := by
  refine v1Writes_val _ mems n perBV size (by omega) hfit hn (by rw [elementsOf_length, List.length_range]) ?_
  intro r hr pre b post h
  obtain ⟨w, hw, hmem⟩ := hm r hr
  have hw2 := hb r hr w hw
  rw [divideWorkIter_val hfit hr, Outcome.ok.injEq] at hw
  have hlen : w.length = head n size (r + 1) - head n size r := by rw [← hw, List.length_range']
  have hle : head n size (r + 1) ≤ n := head_le_total n size (r + 1) (by omega) hr
  have hmono : head n size r ≤ head n size (r + 1) := head_mono n size (Nat.le_succ r)
  have hlb := len_bounds n size r (by omega)
  have h1 : 1 ≤ n / size := (Nat.one_le_div_iff (by omega)).mpr hn
  have hne : w.length ≠ n := by
    have := share_lt n size r hs hn hr
    omega
  rw [hmem]
  have hbne : ((w.length, elementsOf g perBV w).1 != n) = true := by simpa using hne
  simp only [bne_iff_ne, ne_eq, hne, not_false_eq_true, if_true]
  have hcase := bunchLoop_small perBV (1000000000 / 16) (head n size (r + 1) - head n size r) 0
    (by rw [Nat.zero_add, ← hlen]; omega) (by omega)
  have hpre : b = 0 ∨ (pre = [] ∧ b = head n size (r + 1) - head n size r) := by
    unfold bunchSizes at h
    rw [Nat.zero_add] at hcase
    rcases hcase with hc | hc
    · rw [hc] at h
      cases pre with
      | nil => right; simp at h; exact ⟨rfl, h.1.symm⟩
      | cons a pre => simp at h
    · rw [hc] at h
      cases pre with
      | nil => right; simp at h; exact ⟨rfl, h.1.symm⟩
      | cons a pre =>
        cases pre with
        | nil => left; simp at h; exact h.2.1.symm
        | cons a' pre => simp at h
  rcases hpre with rfl | ⟨rfl, rfl⟩
  · simp
  · refine ⟨le_refl _, ?_, ?_⟩
    · rw [elementsOf_length, hlen]; simp
    · simp only [List.sum_nil, Nat.add_zero, Int.toNat_zero, List.drop_zero]
      rw [elementsOf_block g perBV _ _ n (by omega), hw, List.take_of_length_le (by rw [elementsOf_length, hlen])]

/-- C148 (partial): with the first format, a tensor of which all the processes have a copy is written as it is, if it has at
most 2^31 - 1 elements.  Missing: larger tensors (`C148_violated_int`). -/
theorem C148_format1_replicated_partial (g : Nat → Nat → α) (n perBV size : Nat) (hs : 0 < size) (hn : size ≤ n)
    (hfit : n * size < 18446744073709551616) (mems : Nat → Nat × List α) (hm : Replicated g n perBV size mems)
    (hb : n * perBV ≤ 2147483647) :
    ∃ ws, v1Writes mems n perBV size = .ok ws ∧
      ∀ ws', ws'.Perm ws → ∀ file : List α, file.length = n * perBV →
        applyWrites file ws' = .ok (elementsOf g perBV (List.range n)) := by
  refine v1Writes_val _ mems n perBV size (by omega) hfit hn (by rw [elementsOf_length, List.length_range]) ?_
  intro r hr pre b post h
  rw [hm r hr]
  have hsum := bunchLoop_sum perBV (1000000000 / 16) (head n size (r + 1) - head n size r) 0
  have hle : head n size (r + 1) ≤ n := head_le_total n size (r + 1) (by omega) hr
  have hmono : head n size r ≤ head n size (r + 1) := head_mono n size (Nat.le_succ r)
  have hs2 : head n size r + pre.sum + b ≤ n := by
    have := congrArg List.sum h
    rw [List.sum_append, List.sum_cons] at this
    unfold bunchSizes at this
    omega
  have h3 : (head n size r + pre.sum + b) * perBV ≤ n * perBV := Nat.mul_le_mul_right _ hs2
  rw [Nat.add_mul] at h3
  have h4 : ((n, elementsOf g perBV (List.range n)).1 != n) = false := by simp
  simp only [bne_self_eq_false, Bool.false_eq_true, if_false]
  rw [sliceToInt_small (by omega)]
  refine ⟨by omega, ?_, by rw [Int.toNat_natCast]⟩
  rw [elementsOf_length, List.length_range]
  omega

/-- C148 (partial): what some processes write is what others read, with the first format. -/
theorem C148_roundtrip_partial [Zero α] (g : Nat → Nat → α) (n perBV size size' : Nat) (hs : 2 ≤ size) (hn : size ≤ n)
    (hfit : n * size < 18446744073709551616) (mems : Nat → Nat × List α) (hm : Distributed g n perBV size mems)
    (hb : ∀ r < size, ∀ w, divideWorkIter n r size = .ok w → w.length * perBV * 16 ≤ 1000000000)
    (hp : 0 < perBV) (hs' : 2 ≤ size') (hn' : size' ≤ n) (hfit' : n * size' < 18446744073709551616) :
    ∃ ws, v1Writes mems n perBV size = .ok ws ∧
      ∀ ws', ws'.Perm ws → ∃ file, applyWrites (List.replicate (n * perBV) 0) ws' = .ok file ∧
        v1Read file n perBV size' = .ok (elementsOf g perBV (List.range n)) := by
  obtain ⟨ws, h1, h2⟩ := C148_format1_partial g n perBV size hs hn hfit mems hm hb
  refine ⟨ws, h1, fun ws' hp' => ⟨_, h2 ws' hp' _ List.length_replicate, ?_⟩⟩
  exact C121_format1_partial g n perBV size' hp (by omega) hfit' hn' (by omega)

/-- C148 is violated: if the coupling of two lattice vectors is larger than 10^9 bytes and the tensor is distributed, then in
the file all the vectors of a process have the coupling of the first of them. -/
theorem C148_violated_bunches (g : Nat → Nat → α) (n perBV size : Nat) (hs : 2 ≤ size) (hn : size ≤ n)
    (hfit : n * size < 18446744073709551616) (mems : Nat → Nat × List α) (hm : Distributed g n perBV size mems)
    (hb : 1000000000 < 2 * perBV * 16) :
    ∃ ws, v1Writes mems n perBV size = .ok ws ∧
      ∀ ws', ws'.Perm ws → ∀ file : List α, file.length = n * perBV → ∃ written, applyWrites file ws' = .ok written ∧
        ∀ r < size, ∀ irE, head n size r ≤ irE → irE < head n size (r + 1) → ∀ j < perBV,
          written[irE * perBV + j]? = some (g (head n size r) j) := by
  classical
  let g' : Nat → Nat → α := fun x =>
    if h : ∃ r, head n size r ≤ x ∧ x < head n size (r + 1) then g (head n size h.choose) else g x
  have hg' : ∀ r x, head n size r ≤ x → x < head n size (r + 1) → g' x = g (head n size r) := by
    intro r x h1 h2
    have h : ∃ r, head n size r ≤ x ∧ x < head n size (r + 1) := ⟨r, h1, h2⟩
    simp only [g', dif_pos h]
    rw [owner_unique n size x _ r h.choose_spec.1 h.choose_spec.2 h1 h2]
  obtain ⟨ws, e1, e2⟩ := v1Writes_val (elementsOf g' perBV (List.range n)) mems n perBV size (by omega) hfit hn
    (by rw [elementsOf_length, List.length_range]) (by
      intro r hr pre b post h
      obtain ⟨w, hw, hmem⟩ := hm r hr
      rw [divideWorkIter_val hfit hr, Outcome.ok.injEq] at hw
      have hlen : w.length = head n size (r + 1) - head n size r := by rw [← hw, List.length_range']
      have hle : head n size (r + 1) ≤ n := head_le_total n size (r + 1) (by omega) hr
      have hne : w.length ≠ n := by
        have := share_lt n size r hs hn hr
        omega
      rw [hmem]
      simp only [bne_iff_ne, ne_eq, hne, not_false_eq_true, if_true]
      unfold bunchSizes at h
      rw [bunchLoop_large perBV _ _ (by omega)] at h
      rcases replicate_split _ pre b post h with rfl | ⟨rfl, hp⟩
      · simp
      · have hk : head n size (r + 1) - head n size r = (head n size (r + 1) - head n size r - 1) + 1 := by omega
        refine ⟨le_refl _, ?_, ?_⟩
        · rw [elementsOf_length, hlen]
          have : 1 * perBV ≤ (head n size (r + 1) - head n size r) * perBV := Nat.mul_le_mul_right _ (by omega)
          omega
        · rw [elementsOf_block g' perBV _ 1 n (by omega), ← hw, hk, List.range'_succ]
          simp only [Int.toNat_zero, List.drop_zero, elementsOf, List.flatMap_cons, List.range'_one, List.flatMap_nil,
            List.append_nil]
          rw [hg' r _ (by omega) (by omega), List.take_left' (by simp)])
  refine ⟨ws, e1, fun ws' hp file hf => ⟨_, e2 ws' hp file hf, fun r hr irE h1 h2 j hj => ?_⟩⟩
  have hle : head n size (r + 1) ≤ n := head_le_total n size (r + 1) (by omega) hr
  rw [elementsOf_getElem? g' perBV n irE j (by omega) hj, hg' r irE h1 h2]

/-- C148 is violated: thirty lattice vectors of 1.6 * 10^9 bytes each, of which all processes have a copy: the position of a
bunch does not fit into the integer type. -/
theorem C148_violated_int (g : Nat → Nat → α) (mems : Nat → Nat × List α) (hm : Replicated g 30 100000000 1 mems) :
    v1Writes mems 30 100000000 1 = .ub := by
  have h : v1WriteProcess (mems 0).2 (mems 0).1 30 100000000 0 1 = .ub := by
    rw [v1WriteProcess_eq _ _ _ _ _ _ (by norm_num) (by norm_num) (by norm_num), hm 0 one_pos]
    have hb : bunchSizes 100000000 (head 30 1 (0 + 1) - head 30 1 0) = List.replicate 22 1 ++ 1 :: (List.replicate 7 1 ++ [0]) := by
      rw [bunchSizes, bunchLoop_large _ _ _ (by norm_num)]
      rfl
    rw [hb, List.map_append, List.map_cons]
    simp only [bne_self_eq_false]
    apply writeBunches_ub
    rw [sum_map_mul]
    decide
  unfold v1Writes
  rw [List.range_one]
  simp only [mapOutcome, h, Outcome.bind_eq]
  rfl

/-- C148: with HDF5 without MPI, the first format is written correctly, for any number of processes. -/
theorem C148_serial [AddMonoid α] (g : Nat → Nat → α) (n perBV size : Nat) (hs : 2 ≤ size) (hn : size ≤ n) (hp : 0 < perBV)
    (hfit : n * size < 18446744073709551616) (mems : Nat → Nat × List α)
    (hm : Distributed g n perBV size mems ∨ Replicated g n perBV size mems) :
    v1WriteSerial mems n perBV size = .ok (elementsOf g perBV (List.range n)) := by
  have hsh : mapOutcome (fun r => divideWorkIter n r size) (List.range size) = .ok ((List.range size).map fun r =>
      List.range' (head n size r) (head n size (r + 1) - head n size r)) :=
    mapOutcome_eq_map _ _ _ fun r hr => divideWorkIter_val hfit (List.mem_range.mp hr)
  unfold v1WriteSerial
  rw [hsh]
  simp only [Outcome.bind_eq, Outcome.bind_ok]
  rcases hm with hm | hm
  · have hmem : ∀ r < size, mems r = (head n size (r + 1) - head n size r,
        elementsOf g perBV (List.range' (head n size r) (head n size (r + 1) - head n size r))) := by
      intro r hr
      obtain ⟨w, hw, h⟩ := hm r hr
      rw [divideWorkIter_val hfit hr, Outcome.ok.injEq] at hw
      rw [h, ← hw, List.length_range']
    rw [if_pos (fun r hr => by rw [hmem r hr]; exact (share_lt n size r hs hn hr).ne)]
    congr 1
    set parts := (List.range size).map fun r => serialPart (mems r).2 perBV
      (((List.range size).map fun r => List.range' (head n size r) (head n size (r + 1) - head n size r)).getD r []) with hparts
    have hsum : ∀ x < n * perBV, mpiSum parts x = g (x / perBV) (x % perBV) := by
      intro x hx
      have hx' : x / perBV < n := (Nat.div_lt_iff_lt_mul hp).mpr hx
      have := sum_slices (head n size) (head_zero n size) (fun r => head_mono n size (Nat.le_succ r))
        (fun _ => g (x / perBV) (x % perBV)) (x / perBV) size
      rw [head_last n size (by omega), if_pos hx'] at this
      rw [mpiSum_eq, hparts, List.map_map]
      refine Eq.trans ?_ this
      congr 1
      apply List.map_congr_left
      intro r hr
      have hr' := List.mem_range.mp hr
      simp only [Function.comp_apply]
      rw [List.getD_eq_getElem?_getD, List.getElem?_map, List.getElem?_range hr', hmem r hr']
      exact serialPart_val g perBV _ _ x hp
    have hhead : (allReduceSum1 parts).headD (fun _ => 0) = mpiSum parts := by
      have hl : parts.length = size := by rw [hparts, List.length_map, List.length_range]
      unfold allReduceSum1
      rw [if_neg (by omega)]
      cases hc : parts with
      | nil => rw [hc] at hl; simp at hl; omega
      | cons a l => rfl
    rw [hhead]
    apply List.ext_getElem?
    intro x
    by_cases hx : x < n * perBV
    · rw [List.getElem?_map, List.getElem?_range hx, Option.map_some, hsum x hx]
      have hx' : x / perBV < n := (Nat.div_lt_iff_lt_mul hp).mpr hx
      have := elementsOf_getElem? g perBV n _ _ hx' (Nat.mod_lt x hp)
      rw [Nat.div_add_mod'] at this
      exact this.symm
    · rw [List.getElem?_eq_none (by simpa using hx), List.getElem?_eq_none (by rw [elementsOf_length]; simpa using hx)]
  · rw [if_neg (by push Not; exact ⟨0, by omega, by rw [hm 0 (by omega)]⟩), if_pos (fun r hr => by rw [hm r hr]),
      hm 0 (by omega)]

/-- C148 (partial): with the second format, one process writes a dataset for each lattice vector, from which the coupling is
read back.  Missing: several processes (`C148_violated_format2`). -/
theorem C148_format2_partial [Zero α] (g : Nat → Nat → α) (n perBV : Nat) (hfit : n < 18446744073709551616)
    (mems : Nat → Nat × List α) (hm : Replicated g n perBV 1 mems) (events : List (V2Event α))
    (he : Interleaving mems n perBV 1 events) (locking : Bool) :
    ∃ s, v2Run locking ⟨[], []⟩ events = .ok s ∧
      (∀ irE < n, s.dataset irE = some ((List.range perBV).map (g irE))) ∧
      ∀ rank poolSize, rank < poolSize → n * poolSize < 18446744073709551616 →
        ∃ w, divideWorkIter n rank poolSize = .ok w ∧
          v2Pool (fun r => (s.dataset r).getD []) n perBV rank poolSize = .ok (elementsOf g perBV w) := by
  have hsc := he.2 0 one_pos
  have hall : (events.filter fun e => e.rank == 0) = events := by
    rw [List.filter_eq_self]
    intro e h
    have := he.1 e h
    simp; omega
  rw [hall, hm 0 one_pos] at hsc
  unfold v2Script at hsc
  rw [divideWorkIter_val (by omega) one_pos, head_zero, Nat.zero_add, head_last n 1 one_pos, Nat.sub_zero,
    ← List.range_eq_range'] at hsc
  simp only [Outcome.bind_eq, Outcome.bind_ok, Outcome.ok.injEq, bne_self_eq_false, Bool.false_eq_true, if_false] at hsc
  rw [← hsc, List.cons_append, v2Run]
  simp only [v2Step, if_true, Outcome.bind_eq, Outcome.bind_ok]
  rw [v2Run_writes locking 0 (fun irE => ((elementsOf g perBV (List.range n)).drop (irE * perBV)).take perBV) _
    List.nodup_range [] (by simp)]
  have hd : ∀ irE < n, (V2State.mk ([] ++ (List.range n).map fun irE => (irE,
      ((elementsOf g perBV (List.range n)).drop (irE * perBV)).take perBV)) []).dataset irE =
      some ((List.range perBV).map (g irE)) := by
    intro irE hi
    unfold V2State.dataset
    rw [List.nil_append, find_map_pair _ _ _ (List.mem_range.mpr hi)]
    have := elementsOf_block g perBV irE 1 n (by omega)
    rw [Nat.one_mul] at this
    rw [this]
    simp [elementsOf]
  refine ⟨_, by simp only [v2Run, v2Step, Outcome.bind_eq]; rfl, hd, ?_⟩
  intro rank poolSize hr hf
  refine ⟨_, divideWorkIter_val hf hr, ?_⟩
  obtain ⟨w, hw, h2⟩ := C121_format2_pools g n perBV rank poolSize hr hf
  rw [divideWorkIter_val hf hr, Outcome.ok.injEq] at hw
  rw [hw, ← h2]
  unfold v2Pool
  rw [divideWorkIter_val hf hr]
  simp only [Outcome.bind_eq, Outcome.bind_ok]
  refine v2Loop_congr _ _ _ _ _ (fun irE hi => ?_) _
  have hle : head n poolSize (rank + 1) ≤ n := head_le_total n poolSize (rank + 1) (by omega) hr
  have hmono := head_mono n poolSize (Nat.le_succ rank)
  rw [List.mem_range'_1] at hi
  simp only [Nat.succ_eq_add_one] at hmono
  rw [hd irE (by omega), Option.getD_some]

/-- C148 is violated: with the second format and several processes, whatever the order in which they write, either the
program fails or the datasets of some lattice vectors are not in the file. -/
theorem C148_violated_format2 (n perBV size : Nat) (hs : 2 ≤ size) (hn : size ≤ n)
    (hfit : n * size < 18446744073709551616) (mems : Nat → Nat × List α) (events : List (V2Event α))
    (he : Interleaving mems n perBV size events) (locking : Bool) (s : V2State α)
    (h : v2Run locking ⟨[], []⟩ events = .ok s) : ∃ irE < n, s.dataset irE = none := by
  obtain ⟨r, _, h2⟩ := v2Run_oneWriter locking events events _ s (fun e h => h) ⟨0, Or.inl rfl, by simp⟩ h
  have hshare : ∀ d ∈ s.datasets, r < size ∧ head n size r ≤ d.1 ∧ d.1 < head n size (r + 1) := by
    intro d hd
    have hev := h2 d hd
    have hr : r < size := he.1 _ hev
    have hsc := he.2 r hr
    have hin : V2Event.write r d.1 d.2 ∈ events.filter fun e => e.rank == r :=
      List.mem_filter.mpr ⟨hev, by simp [V2Event.rank]⟩
    unfold v2Script at hsc
    rw [divideWorkIter_val hfit hr] at hsc
    simp only [Outcome.bind_eq, Outcome.bind_ok, Outcome.ok.injEq] at hsc
    rw [← hsc] at hin
    have hmono := head_mono n size (Nat.le_succ r)
    simp only [List.cons_append, List.mem_cons, reduceCtorEq, List.mem_append, List.mem_map, List.mem_range'_1, V2Event.write.injEq,
      List.not_mem_nil, or_false, false_or] at hin
    obtain ⟨i, hi, _, rfl, _⟩ := hin
    simp only [Nat.succ_eq_add_one] at hmono
    exact ⟨hr, hi.1, by omega⟩
  obtain ⟨irE, hi, hout⟩ : ∃ irE < n, ¬ (r < size ∧ head n size r ≤ irE ∧ irE < head n size (r + 1)) := by
    by_cases hr : r < size
    · by_contra hcon
      push Not at hcon
      have h0 := hcon 0 (by omega)
      have h1 := hcon (n - 1) (by omega)
      have := share_lt n size r hs hn hr
      omega
    · exact ⟨0, by omega, fun h => hr h.1⟩
  refine ⟨irE, hi, ?_⟩
  unfold V2State.dataset
  rw [List.find?_eq_none.mpr, Option.map_none]
  intro d hd hde
  simp only [beq_iff_eq] at hde
  exact hout (hde ▸ hshare d hd)

/-! Cases that meet the hypotheses. -/

/-- Two processes, five vectors of three elements. -/
def writeMems : Nat → Nat × List Int := fun r =>
  if r = 0 then (2, elementsOf (fun v j => 10 * v + j) 3 [0, 1]) else (3, elementsOf (fun v j => 10 * v + j) 3 [2, 3, 4])

example : Distributed (fun v j => (10 * v + j : Int)) 5 3 2 writeMems ∧
    (∀ r < 2, ∀ w, divideWorkIter 5 r 2 = .ok w → w.length * 3 * 16 ≤ 1000000000) ∧
    v1Writes writeMems 5 3 2 = .ok [(0, [0, 1, 2, 10, 11, 12]), (6, [20, 21, 22, 30, 31, 32, 40, 41, 42])] ∧
    applyWrites (List.replicate 15 0) [(6, [20, 21, 22, 30, 31, 32, 40, 41, 42]), (0, [0, 1, 2, 10, 11, 12])] =
      .ok [0, 1, 2, 10, 11, 12, 20, 21, 22, 30, 31, 32, 40, 41, 42] ∧
    v1WriteSerial writeMems 5 3 2 = .ok [0, 1, 2, 10, 11, 12, 20, 21, 22, 30, 31, 32, 40, 41, 42] := by
  refine ⟨?_, ?_, by decide +kernel, by decide +kernel, by decide +kernel⟩
  · intro r hr
    have : r = 0 ∨ r = 1 := by omega
    rcases this with rfl | rfl
    · exact ⟨[0, 1], by decide, by decide⟩
    · exact ⟨[2, 3, 4], by decide, by decide⟩
  · intro r hr w hw
    have : r = 0 ∨ r = 1 := by omega
    rcases this with rfl | rfl
    · have h : divideWorkIter 5 0 2 = .ok [0, 1] := by decide
      rw [h] at hw; cases hw; decide
    · have h : divideWorkIter 5 1 2 = .ok [2, 3, 4] := by decide
      rw [h] at hw; cases hw; decide

/-- A tensor with vectors large enough for `C148_violated_bunches` exists, and so does one for `C148_violated_int`. -/
example : (∃ mems : Nat → Nat × List Int, Distributed (fun v _ => (v : Int)) 4 40000000 2 mems) ∧
    ∃ mems : Nat → Nat × List Int, Replicated (fun v _ => (v : Int)) 30 100000000 1 mems :=
  ⟨⟨fun r => (2, elementsOf (fun v _ => (v : Int)) 40000000 [2 * r, 2 * r + 1]), fun r hr => by
    have : r = 0 ∨ r = 1 := by omega
    rcases this with rfl | rfl
    · exact ⟨[0, 1], by decide, rfl⟩
    · exact ⟨[2, 3], by decide, rfl⟩⟩, ⟨fun _ => (30, _), fun _ _ => rfl⟩⟩

/-- Two processes, one after the other, with the second format: only the datasets of the second are in the file. -/
example : let events : List (V2Event Int) := [.openFile 0, .write 0 0 [5], .close 0, .openFile 1, .write 1 1 [6], .close 1]
    let mems : Nat → Nat × List Int := fun r => (1, [5 + r])
    Interleaving mems 2 1 2 events ∧ ∃ s, v2Run true ⟨[], []⟩ events = .ok s ∧ s.dataset 0 = none ∧ s.dataset 1 = some [6] := by
  intro events mems
  refine ⟨⟨?_, ?_⟩, ⟨_, rfl, rfl, rfl⟩⟩
  · intro e he
    simp only [events, List.mem_cons, List.not_mem_nil, or_false] at he
    rcases he with rfl | rfl | rfl | rfl | rfl | rfl <;> simp [V2Event.rank]
  · intro r hr
    have : r = 0 ∨ r = 1 := by omega
    rcases this with rfl | rfl <;> rfl

/-- One process, with the second format. -/
example : let events : List (V2Event Int) := [.openFile 0, .write 0 0 [0, 1], .write 0 1 [10, 11], .close 0]
    let mems : Nat → Nat × List Int := fun _ => (2, [0, 1, 10, 11])
    Replicated (fun v j => (10 * v + j : Int)) 2 2 1 mems ∧ Interleaving mems 2 2 1 events := by
  intro events mems
  refine ⟨fun r hr => by simp [mems, elementsOf, List.range_succ], ⟨?_, ?_⟩⟩
  · intro e he
    simp only [events, List.mem_cons, List.not_mem_nil, or_false] at he
    rcases he with rfl | rfl | rfl | rfl <;> simp [V2Event.rank]
  · intro r hr
    have : r = 0 := by omega
    subst this; rfl

end Verif.Props
