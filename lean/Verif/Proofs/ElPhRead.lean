import Verif.Model.ElPhRead
import Verif.Spec.ElPhRead
import Verif.Proofs.Mpi
import Verif.Proofs.Input
import Mathlib.Algebra.BigOperators.Ring.List

namespace Verif.Model
open Verif.Spec

variable {α : Type}

theorem bunchLoop_sum (perBV maxSize : Nat) (n cur : Nat) : (bunchLoop perBV maxSize n cur).sum = n + cur := by
  induction n generalizing cur with
  | zero => simp [bunchLoop]
  | succ n ih =>
    unfold bunchLoop
    split
    · rw [List.sum_cons, ih]; omega
    · rw [ih]; omega

theorem bunchLoop_le (perBV maxSize : Nat) (h1 : perBV ≤ maxSize) (n cur : Nat) (hc : cur * perBV ≤ maxSize)
    (hc1 : (cur + 1) * perBV ≤ maxSize) :
    ∀ b ∈ bunchLoop perBV maxSize n cur, b * perBV ≤ maxSize := by
  induction n generalizing cur with
  | zero => simp [bunchLoop, hc]
  | succ n ih =>
    unfold bunchLoop
    split
    · intro b hb
      rcases List.mem_cons.mp hb with rfl | hb
      · exact hc1
      · exact ih 0 (by simp) (by simpa using h1) b hb
    · rename_i h
      exact ih (cur + 1) hc1 (not_lt.mp h)

theorem elementsOf_length (g : Nat → Nat → α) (perBV : Nat) (l : List Nat) :
    (elementsOf g perBV l).length = l.length * perBV := by
  unfold elementsOf
  induction l with
  | nil => simp
  | cons a l ih => rw [List.flatMap_cons, List.length_append, ih]; simp; ring

theorem elementsOf_append (g : Nat → Nat → α) (perBV : Nat) (l l' : List Nat) :
    elementsOf g perBV (l ++ l') = elementsOf g perBV l ++ elementsOf g perBV l' := by
  unfold elementsOf; rw [List.flatMap_append]

/-- A block of the file. -/
theorem elementsOf_block (g : Nat → Nat → α) (perBV a n m : Nat) (hn : a + n ≤ m) :
    ((elementsOf g perBV (List.range m)).drop (a * perBV)).take (n * perBV) = elementsOf g perBV (List.range' a n) := by
  have h1 : List.range m = List.range a ++ (List.range' a n ++ List.range' (a + n) (m - (a + n))) := by
    rw [List.range_eq_range', List.range_eq_range', List.range'_append_1]
    have := List.range'_append_1 (s := 0) (m := a) (n := n + (m - (a + n)))
    rw [Nat.zero_add] at this
    rw [this]; congr 1; omega
  rw [h1, elementsOf_append, elementsOf_append, List.drop_left' (by rw [elementsOf_length, List.length_range]),
    List.take_left' (by rw [elementsOf_length, List.length_range'])]

/-- Bunch after bunch, the loop copies a block of the dataset to the buffer. -/
theorem readBunches_val (data : List α) (offset : Nat) (bs : List Nat) (bo : Nat) (done rest : List α)
    (hdone : done.length = bo) (hrest : rest.length = bs.sum) (hd : offset + bo + bs.sum ≤ data.length) :
    readBunches data offset bs bo (done ++ rest) = .ok (done ++ ((data.drop (offset + bo)).take bs.sum)) := by
  induction bs generalizing bo done rest with
  | nil =>
    simp only [List.sum_nil, List.length_eq_zero_iff] at hrest
    subst hrest
    simp [readBunches]
  | cons b bs ih =>
    rw [List.sum_cons] at hrest hd
    have hsel : selectData data (offset + bo) b = .ok ((data.drop (offset + bo)).take b) := by
      unfold selectData; rw [if_pos (by omega)]
    have hlen : ((data.drop (offset + bo)).take b).length = b := by simp; omega
    have hblit : blit (done ++ rest) bo ((data.drop (offset + bo)).take b) =
        .ok ((done ++ (data.drop (offset + bo)).take b) ++ rest.drop b) := by
      unfold blit
      rw [if_pos (by rw [hlen, List.length_append]; omega), hlen, List.take_left' hdone]
      have : (done ++ rest).drop (bo + b) = rest.drop b := by
        rw [← hdone, List.drop_append, Nat.add_sub_cancel_left, List.drop_of_length_le (show done.length ≤ done.length + b by omega),
          List.nil_append]
      rw [this]
    unfold readBunches
    simp only [hsel, hblit, Outcome.bind_eq, Outcome.bind_ok]
    rw [ih (bo + b) _ _ (by rw [List.length_append, hlen]; omega) (by simp; omega) (by omega), List.sum_cons,
      List.append_assoc]
    congr 2
    rw [List.take_add, List.drop_drop]
    congr 3
    omega

theorem share_ends {a n : Nat} (hn : 0 < n) :
    (List.range' a n).head? = some a ∧ (List.range' a n).getLast? = some (a + n - 1) := by
  obtain ⟨k, rfl⟩ : ∃ k, n = k + 1 := ⟨n - 1, by omega⟩
  constructor
  · simp [List.range'_succ]
  · rw [List.range'_1_concat, List.getLast?_append]
    simp

theorem head_strict {n size r : Nat} (hsize : 0 < size) (h : size ≤ n) : head n size r < head n size (r + 1) := by
  have := len_bounds n size r hsize
  have h2 : 1 ≤ n / size := (Nat.one_le_div_iff hsize).mpr h
  omega

theorem head_le {n size r : Nat} (hr : r ≤ size) (hs : 0 < size) : head n size r ≤ n := by
  have := head_mono n size hr
  rwa [head_last n size hs] at this

theorem v1Slice_val [Zero α] (g : Nat → Nat → α) (n perBV rank size : Nat) (hp : 0 < perBV) (hr : rank < size)
    (hfit : n * size < 18446744073709551616) (hn : size ≤ n) :
    v1Slice (elementsOf g perBV (List.range n)) n perBV rank size =
      .ok (head n size rank * perBV,
        elementsOf g perBV (List.range' (head n size rank) (head n size (rank + 1) - head n size rank))) := by
  have hs : head n size rank < head n size (rank + 1) := head_strict (by omega) hn
  have hle : head n size (rank + 1) ≤ n := head_le hr (by omega)
  obtain ⟨e1, e2⟩ := share_ends (a := head n size rank) (n := head n size (rank + 1) - head n size rank) (by omega)
  unfold v1Slice
  rw [divideWorkIter_val hfit hr]
  simp only [e1, e2, Outcome.bind_eq, Outcome.bind_ok]
  generalize ha : head n size rank = a at *
  generalize hb : head n size (rank + 1) = b at *
  have hlast : a + (b - a) - 1 + 1 = b := by omega
  rw [hlast]
  have hsum : ((bunchSizes perBV (b - a)).map fun n => n * perBV).sum = (b - a) * perBV := by
    rw [List.sum_map_mul_right, List.map_id', bunchSizes, bunchLoop_sum, Nat.add_zero]
  have hcnt : b * perBV - 1 - a * perBV + 1 = (b - a) * perBV := by
    have h1 : a * perBV + (b - a) * perBV = b * perBV := by rw [← Nat.add_mul]; congr 1; omega
    have h2 : 0 < (b - a) * perBV := Nat.mul_pos (by omega) hp
    omega
  have hlen : a * perBV + (b - a) * perBV ≤ n * perBV := by
    rw [← Nat.add_mul]; exact Nat.mul_le_mul_right _ (by omega)
  have := readBunches_val (elementsOf g perBV (List.range n)) (a * perBV)
    ((bunchSizes perBV (b - a)).map fun n => n * perBV) 0 [] (List.replicate ((b - a) * perBV) 0) rfl
    (by rw [hsum, List.length_replicate]) (by rw [hsum, elementsOf_length, List.length_range]; omega)
  rw [List.nil_append, List.nil_append, Nat.add_zero, hsum, elementsOf_block _ _ _ _ _ (by omega)] at this
  rw [hcnt, this]
  rfl

/-- Bunch after bunch, a block that ends after the dataset is an error. -/
theorem readBunches_short (data : List α) (offset : Nat) (bs : List Nat) (bo : Nat) (done rest : List α) (hbs : bs ≠ [])
    (hdone : done.length = bo) (hrest : rest.length = bs.sum) (hd : data.length < offset + bo + bs.sum) :
    readBunches data offset bs bo (done ++ rest) = .error := by
  induction bs generalizing bo done rest with
  | nil => exact absurd rfl hbs
  | cons b bs ih =>
    rw [List.sum_cons] at hrest hd
    unfold readBunches
    by_cases hb : offset + bo + b ≤ data.length
    · have hsel : selectData data (offset + bo) b = .ok ((data.drop (offset + bo)).take b) := by
        unfold selectData; rw [if_pos hb]
      have hlen : ((data.drop (offset + bo)).take b).length = b := by simp; omega
      have hblit : blit (done ++ rest) bo ((data.drop (offset + bo)).take b) =
          .ok ((done ++ (data.drop (offset + bo)).take b) ++ rest.drop b) := by
        unfold blit
        rw [if_pos (by rw [hlen, List.length_append]; omega), hlen, List.take_left' hdone]
        have : (done ++ rest).drop (bo + b) = rest.drop b := by
          rw [← hdone, List.drop_append, Nat.add_sub_cancel_left,
            List.drop_of_length_le (show done.length ≤ done.length + b by omega), List.nil_append]
        rw [this]
      simp only [hsel, hblit, Outcome.bind_eq, Outcome.bind_ok]
      have hne : bs ≠ [] := by
        intro h
        rw [h, List.sum_nil] at hd
        omega
      exact ih (bo + b) _ _ hne (by rw [List.length_append, hlen]; omega) (by simp; omega) (by omega)
    · have hsel : selectData data (offset + bo) b = .error := by
        unfold selectData; rw [if_neg hb]
      simp only [hsel, Outcome.bind_eq]
      rfl

theorem mapOutcome_error {β : Type} (f : β → Outcome α) (l : List β) (h : ∀ x ∈ l, (∃ y, f x = .ok y) ∨ f x = .error)
    (x : β) (hx : x ∈ l) (hf : f x = .error) : mapOutcome f l = .error := by
  induction l with
  | nil => simp at hx
  | cons a l ih =>
    unfold mapOutcome
    rcases h a (by simp) with ⟨y, hy⟩ | hy
    · have hxl : x ∈ l := by
        rcases List.mem_cons.mp hx with rfl | hx
        · rw [hy] at hf; simp at hf
        · exact hx
      simp only [hy, ih (fun z hz => h z (by simp [hz])) hxl, Outcome.bind_eq, Outcome.bind_ok]
      rfl
    · simp only [hy, Outcome.bind_eq]
      rfl

/-- One process, for a dataset of any length. -/
theorem v1Slice_outcome [Zero α] (data : List α) (n perBV rank size : Nat) (hp : 0 < perBV) (hr : rank < size)
    (hfit : n * size < 18446744073709551616) (hn : size ≤ n) :
    (head n size (rank + 1) * perBV ≤ data.length → ∃ x, v1Slice data n perBV rank size = .ok x) ∧
    (data.length < head n size (rank + 1) * perBV → v1Slice data n perBV rank size = .error) := by
  have hs : head n size rank < head n size (rank + 1) := head_strict (by omega) hn
  obtain ⟨e1, e2⟩ := share_ends (a := head n size rank) (n := head n size (rank + 1) - head n size rank) (by omega)
  unfold v1Slice
  rw [divideWorkIter_val hfit hr]
  simp only [e1, e2, Outcome.bind_eq, Outcome.bind_ok]
  generalize ha : head n size rank = a at *
  generalize hb : head n size (rank + 1) = b at *
  have hlast : a + (b - a) - 1 + 1 = b := by omega
  rw [hlast]
  have hsum : ((bunchSizes perBV (b - a)).map fun n => n * perBV).sum = (b - a) * perBV := by
    rw [List.sum_map_mul_right, List.map_id', bunchSizes, bunchLoop_sum, Nat.add_zero]
  have h1 : a * perBV + (b - a) * perBV = b * perBV := by rw [← Nat.add_mul]; congr 1; omega
  have h2 : 0 < (b - a) * perBV := Nat.mul_pos (by omega) hp
  have hcnt : b * perBV - 1 - a * perBV + 1 = (b - a) * perBV := by omega
  rw [hcnt]
  constructor
  · intro h
    have := readBunches_val data (a * perBV) ((bunchSizes perBV (b - a)).map fun n => n * perBV) 0 []
      (List.replicate ((b - a) * perBV) 0) rfl (by rw [hsum, List.length_replicate]) (by rw [hsum]; omega)
    rw [List.nil_append] at this
    rw [this]
    exact ⟨_, rfl⟩
  · intro h
    have hne : (bunchSizes perBV (b - a)).map (fun n => n * perBV) ≠ [] := by
      intro h0
      rw [h0, List.sum_nil] at hsum
      omega
    have := readBunches_short data (a * perBV) ((bunchSizes perBV (b - a)).map fun n => n * perBV) 0 []
      (List.replicate ((b - a) * perBV) 0) hne rfl (by rw [hsum, List.length_replicate]) (by rw [hsum]; omega)
    rw [List.nil_append] at this
    rw [this]
    rfl

theorem v1Pool_val [Zero α] (g : Nat → Nat → α) (n perBV rank size : Nat) (hr : rank < size)
    (hfit : n * size < 18446744073709551616) (hn : size ≤ n) :
    v1Pool (elementsOf g perBV (List.range n)) n perBV rank size =
      .ok (elementsOf g perBV (List.range' (head n size rank) (head n size (rank + 1) - head n size rank))) := by
  have hs : head n size rank < head n size (rank + 1) := head_strict (by omega) hn
  have hle : head n size (rank + 1) ≤ n := head_le hr (by omega)
  obtain ⟨e1, e2⟩ := share_ends (a := head n size rank) (n := head n size (rank + 1) - head n size rank) (by omega)
  unfold v1Pool
  rw [divideWorkIter_val hfit hr]
  simp only [e1, e2, Outcome.bind_eq, Outcome.bind_ok]
  generalize ha : head n size rank = a at *
  generalize hb : head n size (rank + 1) = b at *
  have hlast : a + (b - a) - 1 + 1 = b := by omega
  rw [hlast, List.length_range']
  have hsum : ((bunchSizes perBV (b - a)).map fun n => n * perBV).sum = (b - a) * perBV := by
    rw [List.sum_map_mul_right, List.map_id', bunchSizes, bunchLoop_sum, Nat.add_zero]
  have hlen : a * perBV + (b - a) * perBV ≤ n * perBV := by
    rw [← Nat.add_mul]; exact Nat.mul_le_mul_right _ (by omega)
  have := readBunches_val (elementsOf g perBV (List.range n)) (a * perBV)
    ((bunchSizes perBV (b - a)).map fun n => n * perBV) 0 [] (List.replicate ((b - a) * perBV) 0) rfl
    (by rw [hsum, List.length_replicate]) (by rw [hsum, elementsOf_length, List.length_range]; omega)
  rw [List.nil_append, List.nil_append, Nat.add_zero, hsum, elementsOf_block _ _ _ _ _ (by omega)] at this
  exact this

theorem v2Loop_val (g : Nat → Nat → α) (perBV first a n : Nat) (ha : first ≤ a) (done rest : List α)
    (hdone : done.length = (a - first) * perBV) (hrest : n * perBV ≤ rest.length) :
    v2Loop (fun r => (List.range perBV).map (g r)) perBV first (List.range' a n) (done ++ rest) =
      .ok (done ++ (elementsOf g perBV (List.range' a n) ++ rest.drop (n * perBV))) := by
  induction n generalizing a done rest with
  | zero => simp [v2Loop, elementsOf]
  | succ n ih =>
    rw [Nat.add_mul, Nat.one_mul] at hrest
    rw [List.range'_succ]
    unfold v2Loop
    have hblit : blit (done ++ rest) ((a - first) * perBV) ((List.range perBV).map (g a)) =
        .ok ((done ++ (List.range perBV).map (g a)) ++ rest.drop perBV) := by
      unfold blit
      rw [if_pos (by simp; omega), List.length_map, List.length_range, List.take_left' hdone, ← hdone, List.drop_append,
        Nat.add_sub_cancel_left, List.drop_of_length_le (by omega), List.nil_append]
    simp only [hblit, Outcome.bind_eq, Outcome.bind_ok]
    rw [ih (a + 1) (by omega) _ _ (by
      rw [List.length_append, hdone, List.length_map, List.length_range, show a + 1 - first = a - first + 1 by omega]
      ring) (by rw [List.length_drop]; omega)]
    congr 1
    rw [List.append_assoc, List.drop_drop, show (n + 1) * perBV = perBV + n * perBV by ring]
    congr 1
    unfold elementsOf
    rw [List.flatMap_cons, List.append_assoc]

/-- The inner loop for a vector of this process. -/
theorem textInner_local [Zero α] (g : Nat → α × α) (perBV l : Nat) (k : Nat) (hk : k ≤ perBV) (rest : List α) (re im : α)
    (buf : List (α × α)) (hbuf : (l + 1) * perBV ≤ buf.length) :
    ∃ re' im', (List.range k).foldl (textStep perBV (some l))
      ⟨(List.range k).flatMap (fun j => [(g j).1, (g j).2]) ++ rest, re, im, buf⟩ =
      ⟨rest, re', im', buf.take (l * perBV) ++ (List.range k).map g ++ buf.drop (l * perBV + k)⟩ := by
  induction k generalizing rest with
  | zero => exact ⟨re, im, by simp⟩
  | succ k ih =>
    have hb : l * perBV + perBV ≤ buf.length := by rw [Nat.add_mul, Nat.one_mul] at hbuf; exact hbuf
    obtain ⟨re', im', h⟩ := ih (by omega) ([(g k).1, (g k).2] ++ rest)
    refine ⟨(g k).1, (g k).2, ?_⟩
    rw [List.range_succ, List.flatMap_append, List.foldl_append, List.flatMap_singleton, List.append_assoc, h]
    simp only [List.foldl_cons, List.foldl_nil, textStep, readNumber, List.cons_append, List.nil_append]
    congr 1
    have hd : buf.drop (l * perBV + k) = buf[l * perBV + k]'(by omega) :: buf.drop (l * perBV + (k + 1)) := by
      rw [List.drop_eq_getElem_cons (by omega)]; rfl
    rw [hd, List.map_append, List.map_cons, List.map_nil, List.set_append_right _ _ (by simp)]
    have h0 : l * perBV + k - (buf.take (l * perBV) ++ (List.range k).map g).length = 0 := by simp; omega
    rw [h0]
    simp

theorem textInner_other (g : Nat → α × α) (perBV : Nat) (k : Nat) (rest : List α) (re im : α)
    (buf : List (α × α)) :
    ∃ re' im', (List.range k).foldl (textStep perBV none)
      ⟨(List.range k).flatMap (fun j => [(g j).1, (g j).2]) ++ rest, re, im, buf⟩ = ⟨rest, re', im', buf⟩ := by
  induction k generalizing rest with
  | zero => exact ⟨re, im, by simp⟩
  | succ k ih =>
    obtain ⟨re', im', h⟩ := ih ([(g k).1, (g k).2] ++ rest)
    refine ⟨(g k).1, (g k).2, ?_⟩
    rw [List.range_succ, List.flatMap_append, List.foldl_append, List.flatMap_singleton, List.append_assoc, h]
    simp [textStep, readNumber]

theorem textLocal_range' (a n irE : Nat) :
    textLocal (List.range' a n) irE = if a ≤ irE ∧ irE < a + n then some (irE - a) else none := by
  unfold textLocal
  by_cases h : a ≤ irE ∧ irE < a + n
  · rw [if_pos (List.mem_range'_1.mpr h), if_pos h]
    obtain ⟨k, rfl⟩ : ∃ k, n = k + 1 := ⟨n - 1, by omega⟩
    simp [List.range'_succ]
  · rw [if_neg (fun h' => h (List.mem_range'_1.mp h')), if_neg h]

/-- The outer loop: vectors below `m` have been read; those of this process are in the tensor. -/
theorem textOuter [Zero α] (g : Nat → Nat → α × α) (perBV a n : Nat) (m : Nat) (rest : List α) :
    ∃ re im, (List.range m).foldl (fun s irE => (List.range perBV).foldl (textStep perBV (textLocal (List.range' a n) irE)) s)
      ⟨(elementsOf g perBV (List.range m)).flatMap (fun z => [z.1, z.2]) ++ rest, 0, 0,
        List.replicate (n * perBV) (0, 0)⟩ =
      ⟨rest, re, im, elementsOf g perBV (List.range' a (min (m - a) n)) ++
        List.replicate ((n - min (m - a) n) * perBV) (0, 0)⟩ := by
  induction m generalizing rest with
  | zero => exact ⟨0, 0, by simp [elementsOf]⟩
  | succ m ih =>
    obtain ⟨re, im, h⟩ := ih (((List.range perBV).map (g m)).flatMap (fun z => [z.1, z.2]) ++ rest)
    rw [List.range_succ, elementsOf_append, List.flatMap_append, List.foldl_append, List.append_assoc,
      show elementsOf g perBV [m] = (List.range perBV).map (g m) by simp [elementsOf], h, List.foldl_cons, List.foldl_nil,
      List.flatMap_map, textLocal_range']
    by_cases hin : a ≤ m ∧ m < a + n
    · rw [if_pos hin]
      have e1 : min (m - a) n = m - a := by omega
      have e2 : min (m + 1 - a) n = m - a + 1 := by omega
      rw [e1, e2]
      have hl : (elementsOf g perBV (List.range' a (m - a))).length = (m - a) * perBV := by
        rw [elementsOf_length, List.length_range']
      obtain ⟨re', im', h'⟩ := textInner_local (g m) perBV (m - a) perBV le_rfl rest re im
        (elementsOf g perBV (List.range' a (m - a)) ++ List.replicate ((n - (m - a)) * perBV) (0, 0)) (by
          rw [List.length_append, hl, List.length_replicate, ← Nat.add_mul]
          exact Nat.mul_le_mul_right _ (by omega))
      refine ⟨re', im', ?_⟩
      rw [h']
      congr 1
      rw [List.take_left' hl, ← hl, List.drop_append, hl, Nat.add_sub_cancel_left, List.drop_replicate,
        List.drop_of_length_le (by rw [hl]; omega), List.nil_append, List.range'_1_concat, elementsOf_append,
        show a + (m - a) = m by omega, show elementsOf g perBV [m] = (List.range perBV).map (g m) by simp [elementsOf]]
      congr 2
      have : (n - (m - a)) * perBV = (n - (m - a + 1)) * perBV + perBV := by
        rw [show n - (m - a) = n - (m - a + 1) + 1 by omega]; ring
      omega
    · rw [if_neg hin]
      obtain ⟨re', im', h'⟩ := textInner_other (g m) perBV perBV rest re im
        (elementsOf g perBV (List.range' a (min (m - a) n)) ++ List.replicate ((n - min (m - a) n) * perBV) (0, 0))
      refine ⟨re', im', ?_⟩
      rw [h']
      have : min (m + 1 - a) n = min (m - a) n := by omega
      rw [this]

end Verif.Model
