import Verif.Model.Mpi
import Verif.Proofs.Utilities
import Mathlib.Tactic.Linarith
import Mathlib.Algebra.BigOperators.Group.List.Basic
/-! Helper lemmas for the MPI controller. -/
namespace Verif.Model

/-- First task of rank `r` (no wrap-around). -/
def head (n size r : Nat) : Nat := n * r / size

theorem head_zero (n size : Nat) : head n size 0 = 0 := by simp [head]

theorem head_last (n size : Nat) (h : 0 < size) : head n size size = n := by
  simp [head, h]

theorem head_mono (n size : Nat) {r s : Nat} (h : r ≤ s) : head n size r ≤ head n size s :=
  Nat.div_le_div_right (Nat.mul_le_mul_left n h)

theorem u64_small {x : Nat} (h : x < 18446744073709551616) : u64 x = x := Nat.mod_eq_of_lt h

theorem mul_lt_of_rank {n size r : Nat} (hn : n * size < 18446744073709551616) (hr : r ≤ size) :
    n * r < 18446744073709551616 := lt_of_le_of_lt (Nat.mul_le_mul_left n hr) hn

theorem divideWork_val {n size r : Nat} (hn : n * size < 18446744073709551616) (hr : r < size) :
    divideWork n r size = (head n size r, head n size (r + 1)) := by
  simp [divideWork, head, u64_small (mul_lt_of_rank hn (le_of_lt hr)),
    u64_small (mul_lt_of_rank hn (Nat.succ_le_of_lt hr))]

theorem divideWorkIter_val {n size r : Nat} (hn : n * size < 18446744073709551616) (hr : r < size) :
    divideWorkIter n r size =
      .ok (List.range' (head n size r) (head n size (r + 1) - head n size r)) := by
  have h : head n size r ≤ head n size (r + 1) := head_mono n size (Nat.le_succ r)
  unfold divideWorkIter
  rw [u64_small (mul_lt_of_rank hn (le_of_lt hr)),
    u64_small (mul_lt_of_rank hn (Nat.succ_le_of_lt hr))]
  change (if head n size (r + 1) < head n size r then Outcome.ub
    else .ok ((List.range (head n size (r + 1) - head n size r)).map (fun i => i + head n size r))) = _
  rw [if_neg (by omega), List.range'_eq_map_range]
  congr 2
  funext i; omega

/-- Concatenating the ranges of ranks `0..k-1` gives the tasks below the head of rank `k`. -/
theorem flatMap_ranges (n size k : Nat) :
    (List.range k).flatMap (fun r => List.range' (head n size r) (head n size (r + 1) - head n size r))
      = List.range (head n size k) := by
  induction k with
  | zero => simp [head_zero]
  | succ k ih =>
    rw [List.range_succ, List.flatMap_append, ih]
    have h := head_mono n size (Nat.le_succ k)
    simp only [List.flatMap_cons, List.flatMap_nil, List.append_nil]
    have h : head n size k ≤ head n size (k + 1) := h
    have e := List.range'_append_1 (s := 0) (m := head n size k)
      (n := head n size (k + 1) - head n size k)
    rw [Nat.zero_add] at e
    rw [List.range_eq_range', List.range_eq_range', e]
    congr 1; omega

theorem len_bounds (n size r : Nat) (hs : 0 < size) :
    n / size ≤ head n size (r + 1) - head n size r ∧
    head n size (r + 1) - head n size r ≤ n / size + 1 := by
  unfold head
  rw [Nat.mul_succ]
  have a := Nat.div_add_mod (n * r) size
  have b := Nat.div_add_mod n size
  have c := Nat.div_add_mod (n * r + n) size
  have m1 := Nat.mod_lt (n * r) hs
  have m2 := Nat.mod_lt n hs
  have m3 := Nat.mod_lt (n * r + n) hs
  generalize n * r / size = x at *
  generalize n / size = y at *
  generalize (n * r + n) / size = z at *
  -- size * z + _ = size * x + _ + size * y + _
  have h1 : x + y ≤ z := by
    by_contra hlt
    have : z + 1 ≤ x + y := by omega
    have := Nat.mul_le_mul_left size this
    rw [Nat.mul_add, Nat.mul_add] at this
    omega
  have h2 : z ≤ x + y + 1 := by
    by_contra hlt
    have : x + y + 2 ≤ z := by omega
    have := Nat.mul_le_mul_left size this
    rw [Nat.mul_add, Nat.mul_add] at this
    omega
  omega

theorem toInt32_small {x : Nat} (h : x < 2147483648) : toInt32 x = (x : Int) := by
  unfold toInt32
  have : x % 4294967296 = x := Nat.mod_eq_of_lt (by omega)
  simp [this, h]

/-- Heads and counts of `workDivHelper` as seen from the exact division. -/
theorem workDivHelper_val {n size : Nat} (hn : n * size < 18446744073709551616) (hs : n < 2147483648) :
    workDivHelper n size =
      ((List.range size).map (fun r => ((head n size (r + 1) - head n size r : Nat) : Int)),
       (List.range size).map (fun r => ((head n size r : Nat) : Int))) := by
  have hle : ∀ r ≤ size, 0 < size → head n size r ≤ n := fun r hr h0 => by
    have := head_mono n size hr; rwa [head_last n size h0] at this
  have h1 : (List.range size).map (fun i => toInt32 (u64 (n * i) / size))
      = (List.range size).map (fun r => ((head n size r : Nat) : Int)) := by
    apply List.map_congr_left
    intro r hr
    have hr := List.mem_range.mp hr
    rw [u64_small (mul_lt_of_rank hn (le_of_lt hr))]
    exact toInt32_small (lt_of_le_of_lt (hle r (le_of_lt hr) (by omega)) hs)
  have h2 : (List.range size).map (fun i => toInt32 (u64 (n * (i + 1)) / size))
      = (List.range size).map (fun r => ((head n size (r + 1) : Nat) : Int)) := by
    apply List.map_congr_left
    intro r hr
    have hr := List.mem_range.mp hr
    rw [u64_small (mul_lt_of_rank hn (Nat.succ_le_of_lt hr))]
    exact toInt32_small (lt_of_le_of_lt (hle (r + 1) hr (by omega)) hs)
  unfold workDivHelper
  simp only [h1, h2]
  rw [List.zipWith_map, List.zipWith_self]
  refine Prod.ext (List.map_congr_left ?_) rfl
  intro r _
  have := head_mono n size (Nat.le_succ r)
  simp only [Nat.succ_eq_add_one] at this
  omega

/-- Gathering blocks `blk r` placed one after the other fills the buffer. -/
theorem mpiGatherv_blocks (h : Nat → Nat) (hm : ∀ r, h r ≤ h (r + 1)) (f : Nat → α)
    (k s : Nat) (buf : List α) (hb : h (s + k) ≤ buf.length) :
    mpiGatherv ((List.range' s k).map (fun r => (List.range' (h r) (h (r + 1) - h r)).map f))
      ((List.range' s k).map (fun r => ((h (r + 1) - h r : Nat) : Int)))
      ((List.range' s k).map (fun r => ((h r : Nat) : Int))) buf
      = .ok (buf.take (h s) ++ (List.range' (h s) (h (s + k) - h s)).map f ++ buf.drop (h (s + k))) := by
  induction k generalizing s buf with
  | zero => simp [mpiGatherv]
  | succ k ih =>
    have hmono : ∀ j, h s ≤ h (s + j) := by
      intro j; induction j with
      | zero => exact le_refl _
      | succ j ihj => exact le_trans ihj (hm (s + j))
    have hmono1 : h (s + 1) ≤ h (s + (k + 1)) := by
      have : ∀ j, h (s + 1) ≤ h (s + 1 + j) := by
        intro j; induction j with
        | zero => exact le_refl _
        | succ j ihj => exact le_trans ihj (hm (s + 1 + j))
      have := this k
      rwa [show s + 1 + k = s + (k + 1) by omega] at this
    have hs1 := hm s
    rw [List.range'_succ]
    simp only [List.map_cons]
    unfold mpiGatherv
    simp only [List.length_map, List.length_range', Int.natCast_nonneg, and_true,
      if_true, Int.toNat_natCast]
    unfold blit
    simp only [List.length_map, List.length_range']
    rw [if_pos (by omega)]
    simp only
    have e0 : h s + (h (s + 1) - h s) = h (s + 1) := by omega
    rw [e0]
    have hlen : (buf.take (h s) ++ (List.range' (h s) (h (s + 1) - h s)).map f
        ++ buf.drop (h (s + 1))).length = buf.length := by
      simp only [List.length_append, List.length_take, List.length_map, List.length_range',
        List.length_drop]
      omega
    rw [ih (s + 1) _ (by rw [hlen]; rw [show s + 1 + k = s + (k + 1) by omega]; exact hb)]
    rw [show s + 1 + k = s + (k + 1) by omega]
    congr 1
    have hA : (buf.take (h s) ++ (List.range' (h s) (h (s + 1) - h s)).map f).length = h (s + 1) := by
      simp only [List.length_append, List.length_take, List.length_map, List.length_range']
      omega
    rw [List.take_append_of_le_length (by rw [hA]), List.take_of_length_le (by rw [hA])]
    rw [List.drop_append, List.drop_of_length_le (l := _ ++ _) (by rw [hA]; exact hmono1), hA,
      List.drop_drop]
    have e1 : h (s + (k + 1)) = h (s + 1) + (h (s + (k + 1)) - h (s + 1)) := by omega
    have e2 : h (s + 1) + (h (s + (k + 1)) - h (s + 1)) = h (s + (k + 1)) := by omega
    rw [e2]
    simp only [List.nil_append, List.append_assoc]
    congr 1
    rw [← List.append_assoc, ← List.map_append]
    congr 2
    rw [show h (s + (k + 1)) - h s = (h (s + 1) - h s) + (h (s + (k + 1)) - h (s + 1)) by omega]
    rw [← List.range'_append_1, e0]

/-- Sum over the ranks of the slice each one owns. -/
theorem sum_slices [AddMonoid α] (h : Nat → Nat) (h0 : h 0 = 0) (hm : ∀ r, h r ≤ h (r + 1)) (f : Nat → α)
    (i k : Nat) :
    ((List.range k).map (fun r => if i ∈ List.range' (h r) (h (r + 1) - h r) then f i else 0)).sum
      = if i < h k then f i else 0 := by
  induction k with
  | zero => simp [h0]
  | succ k ih =>
    rw [List.range_succ, List.map_append, List.sum_append, ih]
    have hk := hm k
    simp only [List.map_cons, List.map_nil, List.sum_cons, List.sum_nil, List.mem_range'_1, add_zero]
    have e : h k + (h (k + 1) - h k) = h (k + 1) := by omega
    rw [e]
    by_cases h1 : i < h k
    · rw [if_pos h1, if_neg (by omega), if_pos (by omega), add_zero]
    · rw [if_neg h1, zero_add]
      by_cases h2 : i < h (k + 1)
      · rw [if_pos (by omega), if_pos h2]
      · rw [if_neg (by omega), if_neg h2]

theorem mpiSum_eq [AddMonoid α] (bufs : List (Nat → α)) (i : Nat) :
    mpiSum bufs i = (bufs.map (fun b => b i)).sum := rfl

/-- Counting the ranks of a pool. -/
theorem count_div (ps q k : Nat) (hps : 0 < ps) :
    ((List.range (ps * k)).filter (fun r => r / ps == q)).length = if q < k then ps else 0 := by
  induction k with
  | zero => simp
  | succ k ih =>
    rw [Nat.mul_succ, List.range_add, List.filter_append, List.length_append, ih]
    rw [List.filter_map, List.length_map]
    have : ∀ r ∈ List.range ps, ((fun r => r / ps == q) ∘ fun x => ps * k + x) r = (k == q) := by
      intro r hr
      have hr := List.mem_range.mp hr
      simp only [Function.comp]
      rw [Nat.mul_add_div hps, Nat.div_eq_of_lt hr, Nat.add_zero]
    rw [List.filter_congr this]
    by_cases hkq : k = q
    · subst hkq; simp
    · have : (k == q) = false := by simpa using hkq
      simp only [this, List.filter_false, List.length_nil]
      split <;> split <;> omega

/-- Ranks below `ps * q + c` that belong to pool `q`: `c` of them. -/
theorem count_div_below (ps q c : Nat) (hps : 0 < ps) (hc : c < ps) :
    ((List.range (ps * q + c)).filter (fun r => r / ps == q)).length = c := by
  rw [List.range_add, List.filter_append, List.length_append, count_div ps q q hps, List.filter_map,
    List.length_map]
  have : ∀ r ∈ List.range c, ((fun r => r / ps == q) ∘ fun x => ps * q + x) r = true := by
    intro r hr
    have hr := List.mem_range.mp hr
    simp only [Function.comp]
    rw [Nat.mul_add_div hps, Nat.div_eq_of_lt (by omega)]; simp
  rw [List.filter_congr this]
  simp

/-- Ranks smaller than `rank` in its pool: `rank % ps` of them. -/
theorem count_div_lt (ps k rank : Nat) (hps : 0 < ps) (hr : rank < ps * k) :
    ((List.range (ps * k)).filter (fun r => r / ps == rank / ps && decide (r < rank))).length = rank % ps := by
  have hsplit : List.range (ps * k) = List.range rank ++ (List.range (ps * k - rank)).map (rank + ·) := by
    rw [← List.range_add]; congr 1; omega
  rw [hsplit, List.filter_append, List.length_append]
  have z : ((List.range (ps * k - rank)).map (rank + ·)).filter
      (fun r => r / ps == rank / ps && decide (r < rank)) = [] := by
    rw [List.filter_eq_nil_iff]
    intro a ha
    obtain ⟨b, _, rfl⟩ := List.mem_map.mp ha
    simp
  rw [z, List.length_nil, Nat.add_zero]
  have : ∀ r ∈ List.range rank, (r / ps == rank / ps && decide (r < rank)) = (r / ps == rank / ps) := by
    intro r hr
    have := List.mem_range.mp hr
    simp [this]
  rw [List.filter_congr this]
  have e : rank = ps * (rank / ps) + rank % ps := (Nat.div_add_mod rank ps).symm
  have := count_div_below ps (rank / ps) (rank % ps) hps (Nat.mod_lt _ hps)
  rwa [← e] at this

/-- Counting the ranks with a given residue below `ps * k` (inter-pool groups). -/
theorem count_mod (ps c k : Nat) (hps : 0 < ps) (hc : c < ps) :
    ((List.range (ps * k)).filter (fun r => r % ps == c)).length = k := by
  induction k with
  | zero => simp
  | succ k ih =>
    rw [Nat.mul_succ, List.range_add, List.filter_append, List.length_append, ih]
    rw [List.filter_map, List.length_map]
    have : ∀ r ∈ List.range ps, ((fun r => r % ps == c) ∘ fun x => ps * k + x) r = (r == c) := by
      intro r hr
      have hr := List.mem_range.mp hr
      simp only [Function.comp]
      rw [Nat.mul_add_mod, Nat.mod_eq_of_lt hr]
    rw [List.filter_congr this]
    congr 1
    have h2 : List.range ps = List.range c ++ c :: (List.range (ps - c - 1)).map (c + 1 + ·) := by
      have : ps = c + (1 + (ps - c - 1)) := by omega
      conv_lhs => rw [this, List.range_add, List.range_add]
      simp [Function.comp_def, Nat.add_assoc]
    rw [h2, List.filter_append, List.filter_cons_of_pos (by simp)]
    have z1 : (List.range c).filter (fun r => r == c) = [] := by
      rw [List.filter_eq_nil_iff]; intro a ha
      have := List.mem_range.mp ha
      simp; omega
    have z2 : ((List.range (ps - c - 1)).map (c + 1 + ·)).filter (fun r => r == c) = [] := by
      rw [List.filter_eq_nil_iff]; intro a ha
      obtain ⟨b, _, rfl⟩ := List.mem_map.mp ha
      simp; omega
    rw [z1, z2]; rfl

theorem splitRank_mod (ps k rank : Nat) (hps : 0 < ps) (hr : rank < ps * k) :
    splitRank (ps * k) (fun r => r % ps) rank = rank / ps := by
  unfold splitRank
  have hsplit : List.range (ps * k) = List.range rank ++ (List.range (ps * k - rank)).map (rank + ·) := by
    rw [← List.range_add]; congr 1; omega
  rw [hsplit, List.filter_append, List.length_append]
  have z : ((List.range (ps * k - rank)).map (rank + ·)).filter
      (fun r => r % ps == rank % ps && decide (r < rank)) = [] := by
    rw [List.filter_eq_nil_iff]
    intro a ha
    obtain ⟨b, _, rfl⟩ := List.mem_map.mp ha
    simp
  rw [z, List.length_nil, Nat.add_zero]
  have : ∀ r ∈ List.range rank, (r % ps == rank % ps && decide (r < rank)) = (r % ps == rank % ps) := by
    intro r hr
    have := List.mem_range.mp hr
    simp [this]
  rw [List.filter_congr this]
  have e : rank = ps * (rank / ps) + rank % ps := (Nat.div_add_mod rank ps).symm
  have hc := Nat.mod_lt rank hps
  generalize rank / ps = q at e ⊢
  generalize rank % ps = c at e hc ⊢
  subst e
  rw [List.range_add, List.filter_append, List.length_append, count_mod ps c q hps hc,
    List.filter_map, List.length_map]
  have : ∀ r ∈ List.range c, ((fun r => r % ps == c) ∘ fun x => ps * q + x) r = false := by
    intro r hr
    have hr := List.mem_range.mp hr
    simp only [Function.comp]
    rw [Nat.mul_add_mod, Nat.mod_eq_of_lt (by omega)]
    simp; omega
  rw [List.filter_congr this]
  simp

theorem datatypeOffsets_val (M count : Nat) : datatypeOffsets M count = List.range count := by
  have key : ∀ k, (List.range k).flatMap (fun b => (List.range M).map (fun i => b * M + i))
      = List.range (k * M) := by
    intro k
    induction k with
    | zero => simp
    | succ k ih =>
      rw [List.range_succ, List.flatMap_append, ih, Nat.succ_mul, List.range_add]
      simp
  unfold datatypeOffsets
  simp only [key]
  rw [← List.range_add]
  congr 1
  rw [Nat.mul_comm]; exact Nat.div_add_mod count M

/-- `collectSends` succeeds with the full buffers when each process looks up its own count. -/
theorem collectSends_full (F : Nat → Nat → List α → Outcome (List α)) (t : Nat) (ws : List Nat)
    (ds : List (List α)) (hl : ws.length = ds.length)
    (hF : ∀ j (hj : j < ds.length), F (t + j) (ws[j]'(by omega)) ds[j] = .ok ds[j]) :
    collectSends F t ws ds = .ok ds := by
  induction ds generalizing t ws with
  | nil =>
    cases ws with
    | nil => rfl
    | cons => simp at hl
  | cons d ds ih =>
    cases ws with
    | nil => simp at hl
    | cons w ws =>
      have h0 := hF 0 (by simp)
      simp only [List.getElem_cons_zero, Nat.add_zero] at h0
      have := ih (t + 1) ws (by simpa using hl) (by
        intro j hj
        have := hF (j + 1) (by simpa using hj)
        simp only [List.getElem_cons_succ] at this
        rw [show t + 1 + j = t + (j + 1) by omega]; exact this)
      simp only [collectSends, h0, this]

/-- With exact block sizes the point-to-point exchange is the gather. -/
theorem mpiRecvAll_eq (ss : List (List α)) (cs ds : List Nat) (buf : List α)
    (h : ss.map List.length = cs) :
    mpiRecvAll ss cs ds buf = mpiGatherv ss (cs.map Int.ofNat) (ds.map Int.ofNat) buf := by
  induction ss generalizing cs ds buf with
  | nil =>
    subst h
    cases ds <;> rfl
  | cons s ss ih =>
    subst h
    cases ds with
    | nil => rfl
    | cons d ds =>
      simp only [List.map_cons, mpiRecvAll, mpiGatherv]
      have h1 : ((s.length : Int) = Int.ofNat s.length ∧ 0 ≤ Int.ofNat d) := ⟨rfl, Int.natCast_nonneg d⟩
      rw [if_pos (Nat.le_refl _), if_pos h1]
      have : (Int.ofNat d).toNat = d := rfl
      rw [this]
      cases blit buf d s with
      | ok b => simp only; exact ih _ ds b rfl
      | error => rfl
      | ub => rfl
      | diverge => rfl

/-- The buffer of rank `r` when array `f` is cut at the positions `h`. -/
def slice (h : Nat → Nat) (f : Nat → α) (r : Nat) : List α :=
  (List.range' (h r) (h (r + 1) - h r)).map f

theorem bigAllGatherV_val (M : Nat) (worldRanks : List Nat) (h : Nat → Nat) (h0 : h 0 = 0)
    (hm : ∀ r, h r ≤ h (r + 1)) (f : Nat → α) (size : Nat) (hs : 0 < size)
    (hlen : worldRanks.length = size) (buf : List α) (hb : buf.length = h size)
    (hbr : h size < M ∨ worldRanks = List.range size) (hone : size = 1 → h size < 4294967296) :
    bigAllGatherV M worldRanks ((List.range size).map (slice h f))
      ((List.range size).map (fun r => h (r + 1) - h r)) ((List.range size).map h) buf
      = .ok ((List.range (h size)).map f) := by
  have hgath := mpiGatherv_blocks h hm f size 0 buf (by rw [Nat.zero_add]; omega)
  simp only [h0, Nat.zero_add, Nat.sub_zero, List.take_zero, List.nil_append,
    ← List.range_eq_range'] at hgath
  rw [List.drop_of_length_le (by omega), List.append_nil] at hgath
  have hlens : ((List.range size).map (slice h f)).map List.length
      = (List.range size).map (fun r => h (r + 1) - h r) := by
    rw [List.map_map]; apply List.map_congr_left; intro r _; simp [slice]
  have hgath' : mpiGatherv ((List.range size).map (slice h f))
      (((List.range size).map (fun r => h (r + 1) - h r)).map Int.ofNat)
      (((List.range size).map h).map Int.ofNat) buf = .ok ((List.range (h size)).map f) := by
    rw [List.map_map, List.map_map]; exact hgath
  have hsend : ∀ j, j < size → ∀ d, d = slice h f j →
      smallGatherSend ((List.range size).map (fun r => h (r + 1) - h r)) j d = .ok d := by
    intro j hj d hd
    subst hd
    have hsl : (slice h f j).length = h (j + 1) - h j := by simp [slice]
    unfold smallGatherSend
    simp only [List.getElem?_map, List.getElem?_range hj, Option.map_some]
    rw [if_pos (by omega), List.take_of_length_le (by omega)]
  unfold bigAllGatherV
  split
  · -- one process
    rename_i h1
    have hs1 : size = 1 := by omega
    subst hs1
    simp only [List.range_one, List.map_cons, List.map_nil, List.getElem?_cons_zero, slice, h0,
      List.length_map, List.length_range', Nat.sub_zero]
    rw [if_pos (by omega), List.take_of_length_le (by simp)]
    unfold blit
    rw [if_pos (by simp; omega)]
    have := hone rfl
    simp [hb, List.range_eq_range', this]
  · obtain ⟨k, rfl⟩ : ∃ k, size = k + 1 := ⟨size - 1, by omega⟩
    have l1 : ((List.range (k + 1)).map h).getLast? = some (h k) := by
      rw [List.range_succ, List.map_append]; simp
    have l2 : ((List.range (k + 1)).map (fun r => h (r + 1) - h r)).getLast? = some (h (k + 1) - h k) := by
      rw [List.range_succ, List.map_append]; simp
    rw [l1, l2]
    simp only
    have hmk := hm k
    have e : h k + (h (k + 1) - h k) = h (k + 1) := by omega
    rw [e]
    split
    · rw [collectSends_full _ 0 _ _ (by simp [hlen])]
      · simpa using hgath'
      · intro j hj
        simp only [List.length_map, List.length_range] at hj
        simp only [Nat.zero_add]
        exact hsend j hj _ (by simp)
    · rename_i hnot
      rcases hbr with hbr | hbr
      · exact absurd hbr hnot
      · subst hbr
        rw [collectSends_full _ 0 _ _ (by simp)]
        · simp only
          rw [mpiRecvAll_eq _ _ _ _ hlens]; exact hgath'
        · intro j hj
          simp only [List.length_map, List.length_range] at hj
          have := hsend j hj _ rfl
          simp only [List.getElem_range]
          simpa [smallGatherSend, bigGatherSend] using this

end Verif.Model
