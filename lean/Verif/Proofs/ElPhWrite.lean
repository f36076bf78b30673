import Verif.Spec.ElPhWrite
import Verif.Proofs.ElPhRead

namespace Verif.Model
open Verif.Spec

variable {α : Type}

/-- Writes that agree with `target` and cover it produce it, in whatever order. -/
theorem applyWrites_val (target : List α) (ws : List (Nat × List α)) (file : List α) (hlen : file.length = target.length)
    (hw : ∀ w ∈ ws, w.1 + w.2.length ≤ target.length ∧ w.2 = (target.drop w.1).take w.2.length)
    (hc : ∀ x < target.length, (∃ w ∈ ws, w.1 ≤ x ∧ x < w.1 + w.2.length) ∨ file[x]? = target[x]?) :
    applyWrites file ws = .ok target := by
  induction ws generalizing file with
  | nil =>
    unfold applyWrites
    congr 1
    apply List.ext_getElem? 
    intro i
    by_cases hi : i < target.length
    · rcases hc i hi with ⟨w, hw, _⟩ | h
      · simp at hw
      · exact h
    · rw [List.getElem?_eq_none (by omega), List.getElem?_eq_none (by omega)]
  | cons w ws ih =>
    obtain ⟨h1, h2⟩ := hw w (by simp)
    unfold applyWrites selectWrite
    rw [if_pos (by omega)]
    simp only [Outcome.bind_eq, Outcome.bind_ok]
    refine ih _ ?_ (fun v hv => hw v (by simp [hv])) ?_
    · simp only [List.length_append, List.length_take, List.length_drop]; omega
    · intro x hx
      by_cases hin : w.1 ≤ x ∧ x < w.1 + w.2.length
      · right
        rw [List.append_assoc, List.getElem?_append_right (by simp; omega), List.getElem?_append_left (by simp; omega)]
        rw [h2, List.length_take, Nat.min_eq_left (by omega), List.getElem?_take, if_pos (by omega), List.getElem?_drop]
        congr 1; omega
      · rcases hc x hx with ⟨v, hv, hv2⟩ | h
        · rcases List.mem_cons.mp hv with rfl | hv
          · exact absurd hv2 hin
          · exact Or.inl ⟨v, hv, hv2⟩
        · right
          rw [← h]
          by_cases hlt : x < w.1
          · rw [List.append_assoc, List.getElem?_append_left (by simp; omega), List.getElem?_take, if_pos hlt]
          · rw [List.getElem?_append_right (by simp; omega), List.getElem?_drop]
            congr 1
            simp; omega

/-- What the loop over bunches of one process writes. -/
theorem writeBunches_spec (gwan target : List α) (dist : Bool) (start : Nat) (bs : List Nat) (net : Nat)
    (hv : ∀ (pre : List Nat) (b : Nat) (post : List Nat), bs = pre ++ b :: post →
      let s : Int := if dist then 0 else sliceToInt (start + (net + pre.sum))
      0 ≤ s ∧ s + b ≤ gwan.length ∧ (gwan.drop s.toNat).take b = (target.drop (start + (net + pre.sum))).take b ∧
      start + (net + pre.sum) + b ≤ target.length) :
    ∃ ws, writeBunches gwan dist start bs net = .ok ws ∧
      (∀ w ∈ ws, w.1 + w.2.length ≤ target.length ∧ w.2 = (target.drop w.1).take w.2.length) ∧
      ∀ x, start + net ≤ x → x < start + net + bs.sum → ∃ w ∈ ws, w.1 ≤ x ∧ x < w.1 + w.2.length := by
  induction bs generalizing net with
  | nil =>
    refine ⟨[], rfl, by simp, fun x h1 h2 => ?_⟩
    simp at h2; omega
  | cons b bs ih =>
    obtain ⟨ws, e1, e2, e3⟩ := ih (net + b) (fun pre b' post h => by
      have := hv (b :: pre) b' post (by rw [h]; rfl)
      simp only [List.sum_cons, ← Nat.add_assoc] at this ⊢
      exact this)
    have h0 := hv [] b bs rfl
    simp only [List.sum_nil, Nat.add_zero] at h0
    obtain ⟨s1, s2, s3, s4⟩ := h0
    have hl : ((target.drop (start + net)).take b).length = b := by
      rw [List.length_take, List.length_drop]; omega
    refine ⟨(start + net, (target.drop (start + net)).take b) :: ws, ?_, ?_, ?_⟩
    · unfold writeBunches
      simp only
      rw [if_neg (by push Not; exact ⟨s1, s2⟩), e1, s3]
      rfl
    · intro w hw
      rcases List.mem_cons.mp hw with rfl | hw
      · simp only [hl]; exact ⟨s4, trivial⟩
      · exact e2 w hw
    · intro x h1 h2
      rw [List.sum_cons] at h2
      by_cases hx : x < start + net + b
      · refine ⟨_, List.mem_cons_self, h1, ?_⟩
        simp only [hl]; exact hx
      · obtain ⟨w, hw, hw2⟩ := e3 x (by omega) (by omega)
        exact ⟨w, List.mem_cons_of_mem _ hw, hw2⟩

theorem sliceToInt_small {x : Nat} (h : x ≤ 2147483647) : sliceToInt x = x := by
  unfold sliceToInt; omega

theorem sum_map_mul (bs : List Nat) (p : Nat) : (bs.map fun n => n * p).sum = bs.sum * p := by
  induction bs with
  | nil => simp
  | cons b bs ih => rw [List.map_cons, List.sum_cons, List.sum_cons, ih, Nat.add_mul]

/-- One process, when its share is not empty. -/
theorem v1WriteProcess_eq (gwan : List α) (dim n perBV rank size : Nat) (hr : rank < size)
    (hfit : n * size < 18446744073709551616) (hn : size ≤ n) :
    v1WriteProcess gwan dim n perBV rank size = writeBunches gwan (dim != n) (head n size rank * perBV)
      ((bunchSizes perBV (head n size (rank + 1) - head n size rank)).map fun n => n * perBV) 0 := by
  have hb := (len_bounds n size rank (by omega)).1
  have h1 : 1 ≤ n / size := (Nat.one_le_div_iff (by omega)).mpr hn
  unfold v1WriteProcess
  rw [divideWorkIter_val hfit hr]
  simp only [Outcome.bind_eq, Outcome.bind_ok]
  obtain ⟨k, hk⟩ : ∃ k, head n size (rank + 1) - head n size rank = k + 1 :=
    ⟨head n size (rank + 1) - head n size rank - 1, by omega⟩
  rw [hk]
  have hl : (List.range' (head n size rank) (k + 1)).getLast? = some (head n size rank + k) := by
    rw [List.range'_concat, List.getLast?_append]; simp
  have hh : (List.range' (head n size rank) (k + 1)).head? = some (head n size rank) := by
    rw [List.range'_succ]; rfl
  rw [hl, hh]
  simp only
  rw [show head n size rank + k + 1 - head n size rank = k + 1 by omega]

/-- A vector of the list belongs to the share of some process. -/
theorem owner_exists (n size x : Nat) (hs : 0 < size) (hx : x < n) :
    ∃ r < size, head n size r ≤ x ∧ x < head n size (r + 1) := by
  have h := flatMap_ranges n size size
  rw [head_last n size hs] at h
  have hm : x ∈ List.range n := List.mem_range.mpr hx
  rw [← h, List.mem_flatMap] at hm
  obtain ⟨r, hr, hm⟩ := hm
  rw [List.mem_range'_1] at hm
  exact ⟨r, List.mem_range.mp hr, hm.1, by have := head_mono n size (Nat.le_succ r); simp only [Nat.succ_eq_add_one] at this; omega⟩

theorem head_le_total (n size r : Nat) (hs : 0 < size) (hr : r ≤ size) : head n size r ≤ n := by
  have := head_mono n size hr
  rwa [head_last n size hs] at this

/-- The processes' writes, in any order, produce a file, if each agrees with it. -/
theorem v1Writes_val (target : List α) (mems : Nat → Nat × List α) (n perBV size : Nat) (hs : 0 < size)
    (hfit : n * size < 18446744073709551616) (hn : size ≤ n) (ht : target.length = n * perBV)
    (hv : ∀ r < size, ∀ (pre : List Nat) (b : Nat) (post : List Nat), (bunchSizes perBV (head n size (r + 1) - head n size r)) = pre ++ b :: post →
      let s : Int := if (mems r).1 != n then 0 else sliceToInt ((head n size r + pre.sum) * perBV)
      0 ≤ s ∧ s + (b * perBV : Nat) ≤ (mems r).2.length ∧ ((mems r).2.drop s.toNat).take (b * perBV) =
        (target.drop ((head n size r + pre.sum) * perBV)).take (b * perBV)) :
    ∃ ws, v1Writes mems n perBV size = .ok ws ∧
      ∀ ws', ws'.Perm ws → ∀ file : List α, file.length = n * perBV → applyWrites file ws' = .ok target := by
  have key : ∀ r, r < size → ∃ ws, v1WriteProcess (mems r).2 (mems r).1 n perBV r size = .ok ws ∧
      (∀ w ∈ ws, w.1 + w.2.length ≤ target.length ∧ w.2 = (target.drop w.1).take w.2.length) ∧
      ∀ x, head n size r * perBV ≤ x → x < head n size (r + 1) * perBV → ∃ w ∈ ws, w.1 ≤ x ∧ x < w.1 + w.2.length := by
    intro r hr
    have hm : head n size r ≤ head n size (r + 1) := head_mono n size (Nat.le_succ r)
    have hle := head_le_total n size (r + 1) hs hr
    have hsum := bunchLoop_sum perBV (1000000000 / 16) (head n size (r + 1) - head n size r) 0
    obtain ⟨ws, e1, e2, e3⟩ := writeBunches_spec (mems r).2 target ((mems r).1 != n) (head n size r * perBV)
      ((bunchSizes perBV (head n size (r + 1) - head n size r)).map fun n => n * perBV) 0 (by
        intro pre b post h
        obtain ⟨p1, q1, hq1, hq2, hq3⟩ := List.map_eq_append_iff.mp h
        obtain ⟨b1, q2, rfl, rfl, rfl⟩ := List.map_eq_cons_iff.mp hq3
        subst hq2
        have hb := hv r hr p1 b1 q2 hq1
        have hs2 : p1.sum + b1 ≤ head n size (r + 1) - head n size r := by
          have := congrArg List.sum hq1
          rw [List.sum_append, List.sum_cons] at this
          unfold bunchSizes at this
          omega
        simp only [sum_map_mul, Nat.zero_add, ← Nat.add_mul] at hb ⊢
        refine ⟨hb.1, hb.2.1, hb.2.2, ?_⟩
        rw [ht]
        exact Nat.mul_le_mul_right _ (by omega))
    refine ⟨ws, ?_, e2, fun x h1 h2 => e3 x (by omega) ?_⟩
    · rw [v1WriteProcess_eq _ _ _ _ _ _ hr hfit hn, e1]
    · rw [sum_map_mul, bunchSizes, hsum, Nat.add_zero, Nat.add_zero, ← Nat.add_mul]
      rwa [show head n size r + (head n size (r + 1) - head n size r) = head n size (r + 1) by omega]
  let W : Nat → List (Nat × List α) := fun r => if h : r < size then (key r h).choose else []
  have hW : ∀ r (h : r < size), W r = (key r h).choose := fun r h => dif_pos h
  refine ⟨((List.range size).map W).flatten, ?_, ?_⟩
  · unfold v1Writes
    rw [mapOutcome_eq_map _ W _ (fun r hr => by
      have hr' := List.mem_range.mp hr
      rw [hW r hr']
      exact (key r hr').choose_spec.1)]
    rfl
  · intro ws' hp file hf
    refine applyWrites_val target ws' file (by rw [hf, ht]) ?_ ?_
    · intro w hw
      have := hp.mem_iff.mp hw
      simp only [List.mem_flatten, List.mem_map, List.mem_range] at this
      obtain ⟨l, ⟨r, hr, rfl⟩, hl⟩ := this
      rw [hW r hr] at hl
      exact (key r hr).choose_spec.2.1 w hl
    · intro x hx
      left
      have hp0 : 0 < perBV := by
        rcases Nat.eq_zero_or_pos perBV with h | h
        · rw [ht, h] at hx; omega
        · exact h
      have hx' : x / perBV < n := by
        rw [Nat.div_lt_iff_lt_mul hp0, ← ht]; exact hx
      obtain ⟨r, hr, h1, h2⟩ := owner_exists n size _ hs hx'
      obtain ⟨w, hw, hw2⟩ := (key r hr).choose_spec.2.2 x ((Nat.le_div_iff_mul_le hp0).mp h1)
        ((Nat.div_lt_iff_lt_mul hp0).mp h2)
      refine ⟨w, hp.mem_iff.mpr ?_, hw2⟩
      simp only [List.mem_flatten, List.mem_map, List.mem_range]
      exact ⟨W r, ⟨r, hr, rfl⟩, by rw [hW r hr]; exact hw⟩

/-- Bunches of a share that is small enough: all of it, and possibly nothing after that. -/
theorem bunchLoop_small (perBV maxSize n cur : Nat) (h : (cur + n) * perBV ≤ maxSize) (hn : 0 < n) :
    bunchLoop perBV maxSize n cur = [cur + n] ∨ bunchLoop perBV maxSize n cur = [cur + n, 0] := by
  induction n generalizing cur with
  | zero => omega
  | succ n ih =>
    rw [bunchLoop]
    rcases Nat.eq_zero_or_pos n with rfl | hn'
    · split
      · right; simp [bunchLoop]
      · left; simp [bunchLoop]
    · rw [if_neg (by
        rw [not_lt]
        exact (Nat.mul_le_mul_right _ (by omega)).trans h)]
      have := ih (cur + 1) (by rwa [show cur + 1 + n = cur + (n + 1) by omega]) hn'
      rwa [show cur + 1 + n = cur + (n + 1) by omega] at this

/-- Bunches of vectors so large that each is a bunch. -/
theorem bunchLoop_large (perBV maxSize n : Nat) (h : maxSize < 2 * perBV) :
    bunchLoop perBV maxSize n 0 = List.replicate n 1 ++ [0] := by
  induction n with
  | zero => rfl
  | succ n ih => rw [bunchLoop, if_pos (by omega), ih]; rfl

/-- With at least two processes and as many vectors, no process has all the vectors. -/
theorem share_lt (n size r : Nat) (hs : 2 ≤ size) (hn : size ≤ n) (hr : r < size) :
    head n size (r + 1) - head n size r < n := by
  have h1 : 1 ≤ n / size := (Nat.one_le_div_iff (by omega)).mpr hn
  rcases Nat.eq_zero_or_pos r with rfl | h0
  · have a := len_bounds n size 1 (by omega)
    have b : head n size (1 + 1) ≤ n := head_le_total n size _ (by omega) hs
    have c : head n size (0 + 1) ≤ n := head_le_total n size _ (by omega) (by omega)
    simp only [Nat.zero_add] at *
    omega
  · have a := len_bounds n size 0 (by omega)
    have b : head n size (r + 1) ≤ n := head_le_total n size _ (by omega) hr
    have c : head n size (0 + 1) ≤ head n size r := head_mono n size h0
    omega

theorem elementsOf_getElem? (g : Nat → Nat → α) (perBV n irE j : Nat) (hi : irE < n) (hj : j < perBV) :
    (elementsOf g perBV (List.range n))[irE * perBV + j]? = some (g irE j) := by
  have h := elementsOf_block g perBV irE 1 n (by omega)
  have h2 : (((elementsOf g perBV (List.range n)).drop (irE * perBV)).take (1 * perBV))[j]? = some (g irE j) := by
    rw [h]
    simp [elementsOf, hj]
  rw [List.getElem?_take, if_pos (by omega), List.getElem?_drop] at h2
  exact h2

/-- The part of a process in the tensor before the sum. -/
theorem serialPart_val [Zero α] (g : Nat → Nat → α) (perBV a k x : Nat) (hp : 0 < perBV) :
    serialPart (elementsOf g perBV (List.range' a k)) perBV (List.range' a k) x =
      if x / perBV ∈ List.range' a k then g (x / perBV) (x % perBV) else 0 := by
  unfold serialPart
  split
  · rename_i h
    rw [List.mem_range'_1] at h
    have hh : (List.range' a k).headD 0 = a := by
      obtain ⟨k, rfl⟩ : ∃ m, k = m + 1 := ⟨k - 1, by omega⟩
      rw [List.range'_succ]; rfl
    rw [hh, ← elementsOf_block g perBV a k (a + k) le_rfl, List.getD_eq_getElem?_getD, List.getElem?_take, if_pos,
      List.getElem?_drop, show a * perBV + ((x / perBV - a) * perBV + x % perBV) = x / perBV * perBV + x % perBV by
        rw [← Nat.add_assoc, ← Nat.add_mul]; congr 2; omega,
      elementsOf_getElem? g perBV _ _ _ (by omega) (Nat.mod_lt _ hp)]
    · rfl
    · have h1 := Nat.mod_lt x hp
      have h2 : (x / perBV - a + 1) * perBV ≤ k * perBV := Nat.mul_le_mul_right _ (by omega)
      rw [Nat.add_mul] at h2
      omega
  · rfl

/-- A part of a list of ones and a zero. -/
theorem replicate_split (k : Nat) (pre : List Nat) (b : Nat) (post : List Nat)
    (h : List.replicate k 1 ++ [0] = pre ++ b :: post) : b = 0 ∨ (b = 1 ∧ pre.sum < k) := by
  induction k generalizing pre with
  | zero =>
    cases pre with
    | nil => left; simp at h; exact h.1.symm
    | cons a pre => simp at h
  | succ k ih =>
    cases pre with
    | nil => right; simp [List.replicate_succ] at h; exact ⟨h.1.symm, by simp⟩
    | cons a pre =>
      rw [List.replicate_succ, List.cons_append, List.cons_append, List.cons.injEq] at h
      obtain ⟨rfl, h⟩ := h
      rcases ih pre h with h | ⟨h, h'⟩
      · exact Or.inl h
      · right; refine ⟨h, ?_⟩; rw [List.sum_cons]; omega

theorem owner_unique (n size x r r' : Nat) (h1 : head n size r ≤ x) (h2 : x < head n size (r + 1))
    (h3 : head n size r' ≤ x) (h4 : x < head n size (r' + 1)) : r = r' := by
  rcases lt_trichotomy r r' with h | h | h
  · have : head n size (r + 1) ≤ head n size r' := head_mono n size h
    omega
  · exact h
  · have : head n size (r' + 1) ≤ head n size r := head_mono n size h
    omega

/-- A conversion that gives a negative number is undefined behaviour. -/
theorem writeBunches_ub (gwan : List α) (start : Nat) (pre : List Nat) (b : Nat) (post : List Nat) (net : Nat)
    (h : sliceToInt (start + (net + pre.sum)) < 0) : writeBunches gwan false start (pre ++ b :: post) net = .ub := by
  induction pre generalizing net with
  | nil =>
    rw [List.nil_append, writeBunches]
    simp only [Bool.false_eq_true, if_false]
    rw [if_pos (by left; simpa using h)]
  | cons a pre ih =>
    rw [List.cons_append, writeBunches]
    simp only [Bool.false_eq_true, if_false]
    split
    · rfl
    · rw [ih (net + a) (by rw [List.sum_cons] at h; rwa [Nat.add_assoc])]
      rfl

/-! ## Second format -/

/-- All the datasets of the file were written by one process. -/
def OneWriter (events : List (V2Event α)) (s : V2State α) : Prop :=
  ∃ r, (s.holders = [] ∨ s.holders = [r]) ∧ ∀ d ∈ s.datasets, V2Event.write r d.1 d.2 ∈ events

theorem v2Step_oneWriter (locking : Bool) (events : List (V2Event α)) (s s' : V2State α) (e : V2Event α) (he : e ∈ events)
    (h : OneWriter events s) (hs : v2Step locking s e = .ok s') : OneWriter events s' := by
  obtain ⟨r, h1, h2⟩ := h
  cases e with
  | openFile r' =>
    simp only [v2Step] at hs
    split at hs
    · cases hs; exact ⟨r', Or.inr rfl, by simp⟩
    · split at hs <;> cases hs
  | write r' irE data =>
    simp only [v2Step] at hs
    split at hs
    · cases hs
    · rename_i hh
      push Not at hh
      split at hs
      · cases hs
      · cases hs
        have hr : r' = r := by
          rcases h1 with h1 | h1
          · rw [h1] at hh; cases hh
          · rw [h1] at hh; simpa using hh.symm
        subst hr
        refine ⟨r', Or.inr hh, fun d hd => ?_⟩
        rcases List.mem_append.mp hd with hd | hd
        · exact h2 d hd
        · simp at hd; subst hd; exact he
  | close r' =>
    simp only [v2Step] at hs
    split at hs
    · cases hs
    · cases hs; exact ⟨r, Or.inl rfl, h2⟩

theorem v2Run_oneWriter (locking : Bool) (events es : List (V2Event α)) (s s' : V2State α) (he : ∀ e ∈ es, e ∈ events)
    (h : OneWriter events s) (hs : v2Run locking s es = .ok s') : OneWriter events s' := by
  induction es generalizing s with
  | nil => cases hs; exact h
  | cons e es ih =>
    unfold v2Run at hs
    cases h1 : v2Step locking s e with
    | ok s1 =>
      rw [h1] at hs
      exact ih s1 (fun e he' => he e (List.mem_cons_of_mem _ he'))
        (v2Step_oneWriter locking events s s1 e (he e List.mem_cons_self) h h1) hs
    | error => rw [h1] at hs; cases hs
    | ub => rw [h1] at hs; cases hs
    | diverge => rw [h1] at hs; cases hs

/-- The writes of one process, in order, add one dataset each. -/
theorem v2Run_writes (locking : Bool) (r : Nat) (f : Nat → List α) (w : List Nat) (hw : w.Nodup) (ds : List (Nat × List α))
    (hd : ∀ i ∈ w, i ∉ ds.map Prod.fst) (rest : List (V2Event α)) :
    v2Run locking ⟨ds, [r]⟩ ((w.map fun i => V2Event.write r i (f i)) ++ rest) =
      v2Run locking ⟨ds ++ w.map fun i => (i, f i), [r]⟩ rest := by
  induction w generalizing ds with
  | nil => simp
  | cons i w ih =>
    rw [List.map_cons, List.cons_append, v2Run]
    have h1 : v2Step locking ⟨ds, [r]⟩ (.write r i (f i)) = .ok ⟨ds ++ [(i, f i)], [r]⟩ := by
      simp only [v2Step]
      rw [if_neg (fun h => h rfl), if_neg (hd i (by simp))]
    rw [h1]
    simp only [Outcome.bind_eq, Outcome.bind_ok]
    rw [ih (List.nodup_cons.mp hw).2]
    · simp
    · intro k hk
      rw [List.map_append, List.mem_append]
      rintro (h | h)
      · exact hd k (List.mem_cons_of_mem _ hk) h
      · simp at h; subst h; exact (List.nodup_cons.mp hw).1 hk

theorem v2Loop_congr (f f' : Nat → List α) (perBV first : Nat) (l : List Nat) (h : ∀ i ∈ l, f i = f' i) (buf : List α) :
    v2Loop f perBV first l buf = v2Loop f' perBV first l buf := by
  induction l generalizing buf with
  | nil => rfl
  | cons i l ih =>
    unfold v2Loop
    rw [h i List.mem_cons_self]
    cases blit buf ((i - first) * perBV) (f' i) with
    | ok b => exact ih (fun k hk => h k (List.mem_cons_of_mem _ hk)) b
    | _ => rfl

theorem find_map_pair (f : Nat → List α) (w : List Nat) (i : Nat) (hi : i ∈ w) :
    ((w.map fun i => (i, f i)).find? fun d => d.1 == i).map Prod.snd = some (f i) := by
  induction w with
  | nil => simp at hi
  | cons a w ih =>
    rw [List.map_cons, List.find?_cons]
    by_cases h : a = i
    · subst h; simp
    · have : ((a, f a).1 == i) = false := by simpa using h
      rw [this]
      rcases List.mem_cons.mp hi with h' | h'
      · exact absurd h'.symm h
      · exact ih h'

end Verif.Model
