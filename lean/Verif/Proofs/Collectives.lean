import Verif.Model.Collectives
import Verif.Spec.Collectives
import Verif.Proofs.Input
import Mathlib.Data.Multiset.Fold
import Mathlib.Algebra.BigOperators.Group.List.Basic

/-!
Lemmas for C169.
-/
namespace Verif.Props

open Verif.Model Verif.Spec

variable {α : Type}

/-- Combination of a non-empty list of values. -/
def combine1 (op : α → α → α) (d : α) : List α → α
  | [] => d
  | a :: l => l.foldl op a

theorem intCount_small {n : Nat} (h : n < 2 ^ 31) : intCount n = (n : Int) := by
  have : n % 2 ^ 32 = n := Nat.mod_eq_of_lt (by omega)
  unfold intCount
  rw [this, if_pos h]

theorem readAt_uniform {size n r : Nat} (v : Nat → Nat → α) (hr : r < size) :
    readAt (uniform size n v) r = .ok ((List.range n).map (v r)) := by
  unfold readAt uniform
  rw [List.getElem?_map, List.getElem?_range hr]
  rfl

theorem zipWith_range (op : α → α → α) (n : Nat) (f g : Nat → α) :
    List.zipWith op ((List.range n).map f) ((List.range n).map g) = (List.range n).map fun i => op (f i) (g i) := by
  rw [List.zipWith_map, List.zipWith_self]

theorem combineAll_range (op : α → α → α) (d : α) (n : Nat) (ms : List (Nat → α)) (hm : ms ≠ []) :
    combineAll op (ms.map fun g => (List.range n).map g) =
      (List.range n).map fun i => combine1 op d (ms.map fun g => g i) := by
  obtain ⟨f, l, rfl⟩ := List.exists_cons_of_ne_nil hm
  clear hm
  unfold combineAll combine1
  simp only [List.map_cons]
  induction l generalizing f with
  | nil => rfl
  | cons g t ih =>
    simp only [List.map_cons, List.foldl_cons]
    rw [zipWith_range]
    exact ih fun i => op (f i) (g i)

theorem combine1_perm (op : α → α → α) [hc : Std.Commutative op] [ha : Std.Associative op] (d : α) {l l' : List α}
    (h : l.Perm l') : combine1 op d l = combine1 op d l' := by
  have hfold : ∀ (a : α) (t : List α), t.foldl op a = Multiset.fold op a (t : Multiset α) := fun a t => by
    rw [Multiset.coe_fold_l]
  induction h with
  | nil => rfl
  | cons x h _ =>
    simp only [combine1, hfold]
    rw [Multiset.coe_eq_coe.mpr h]
  | swap x y l =>
    simp only [combine1, List.foldl_cons]
    rw [hc.comm]
  | trans _ _ h1 h2 => exact h1.trans h2

theorem perm_map_exists {β : Type} (f : β → α) {l : List α} {m : List α} (h : l.Perm m) (g : List β) (hg : m = g.map f) :
    ∃ g' : List β, g'.Perm g ∧ l = g'.map f := by
  induction h generalizing g with
  | nil => exact ⟨g, List.Perm.refl g, hg⟩
  | cons x _ ih =>
    cases g with
    | nil => cases hg
    | cons b t =>
      rw [List.map_cons, List.cons.injEq] at hg
      obtain ⟨g', h1, h2⟩ := ih t hg.2
      exact ⟨b :: g', h1.cons b, by rw [List.map_cons, ← h2, hg.1]⟩
  | swap x y l =>
    match g, hg with
    | [], hg => cases hg
    | [_], hg => simp at hg
    | a :: b :: t, hg =>
      simp only [List.map_cons, List.cons.injEq] at hg
      exact ⟨b :: a :: t, List.Perm.swap a b t, by simp [hg.1, hg.2.1, hg.2.2]⟩
  | trans _ _ h1 h2 =>
    obtain ⟨g1, p1, e1⟩ := h2 g hg
    obtain ⟨g2, p2, e2⟩ := h1 g1 e1
    exact ⟨g2, p2.trans p1, e2⟩

theorem mem_group {c : MpiComm} {size ps rank r : Nat} :
    r ∈ c.group size ps rank ↔ r < size ∧ c.color ps r = c.color ps rank := by
  unfold MpiComm.group
  rw [List.mem_filter, List.mem_range, beq_iff_eq]

theorem group_self {c : MpiComm} {size ps rank : Nat} (h : rank < size) : rank ∈ c.group size ps rank :=
  mem_group.mpr ⟨h, rfl⟩

theorem group_nodup (c : MpiComm) (size ps rank : Nat) : (c.group size ps rank).Nodup :=
  List.nodup_range.filter _

/-- When the call returns at once the communicator has one process. -/
theorem group_skips {c : MpiComm} {size ps rank : Nat} (h : rank < size) (hs : c.skips size ps = true) :
    c.group size ps rank = [rank] := by
  have hall : ∀ r ∈ c.group size ps rank, r = rank := by
    intro r hr
    rw [mem_group] at hr
    unfold MpiComm.skips at hs
    simp only [Bool.or_eq_true, beq_iff_eq, Bool.and_eq_true] at hs
    rcases hs with hs | ⟨rfl, rfl⟩
    · omega
    · simpa [MpiComm.color] using hr.2
  have hn := group_nodup c size ps rank
  have hm := group_self (c := c) (ps := ps) h
  generalize c.group size ps rank = l at hall hn hm
  match l, hall, hn, hm with
  | [a], hall, _, _ => rw [hall a (by simp)]
  | a :: b :: t, hall, hn, _ =>
    have h1 := hall a (by simp)
    have h2 := hall b (by simp)
    rw [h1, h2] at hn
    simp at hn

/-- The buffers after a reduction, in general: only the first elements are combined. -/
theorem allReduce_count (op : α → α → α) [Std.Commutative op] [Std.Associative op] (d : α)
    (order : List (List α) → List (List α)) (ho : ∀ l, (order l).Perm l) (c : MpiComm) (size ps n k : Nat)
    (hsk : c.skips size ps = false) (hk : intCount n = (k : Int)) (hkn : k ≤ n) (v : Nat → Nat → α) :
    allReduce op order c size ps (uniform size n v) = .ok (uniform size n fun r i =>
      if i < k then combine1 op d ((c.group size ps r).map fun r' => v r' i) else v r i) := by
  unfold allReduce
  rw [hsk, if_neg (by simp)]
  refine mapOutcome_eq_map _ _ _ fun rank hrank => ?_
  rw [List.mem_range] at hrank
  have hmem : mapOutcome (readAt (uniform size n v)) (c.group size ps rank) =
      .ok ((c.group size ps rank).map fun r => (List.range n).map (v r)) :=
    mapOutcome_eq_map _ _ _ fun r hr => readAt_uniform v (mem_group.mp hr).1
  rw [hmem, readAt_uniform v hrank]
  show mpiAllreduce op order _ _ = _
  unfold mpiAllreduce
  rw [List.length_map, List.length_range, hk, if_neg (by omega), if_neg]
  · rw [Int.toNat_natCast]
    congr 1
    have hp := ho ((c.group size ps rank).map fun r => (List.range n).map (v r))
    -- the permuted members are the buffers of a permuted list of ranks
    obtain ⟨g, hg, hgp⟩ : ∃ g : List Nat, g.Perm (c.group size ps rank) ∧
        order ((c.group size ps rank).map fun r => (List.range n).map (v r)) = g.map fun r => (List.range n).map (v r) :=
      perm_map_exists _ hp _ rfl
    rw [hgp, List.map_map]
    have htake : (g.map (List.take k ∘ fun r => (List.range n).map (v r))) =
        (g.map v).map fun f => (List.range k).map f := by
      rw [List.map_map]
      apply List.map_congr_left
      intro r _
      simp only [Function.comp]
      rw [← List.map_take, List.take_range, Nat.min_eq_left hkn]
    rw [htake, combineAll_range op d]
    · have hsplit : List.range n = List.range k ++ (List.range n).drop k := by
        conv_lhs => rw [← List.take_append_drop k (List.range n)]
        rw [List.take_range, Nat.min_eq_left hkn]
      rw [← List.map_drop]
      conv_rhs => rw [hsplit, List.map_append]
      congr 1
      · apply List.map_congr_left
        intro i hi
        rw [List.mem_range] at hi
        beta_reduce
        rw [if_pos hi]
        rw [List.map_map]
        exact combine1_perm op d (hg.map _)
      · apply List.map_congr_left
        intro i hi
        have : ¬ i < k := by
          rw [List.mem_iff_getElem] at hi
          obtain ⟨j, hj, rfl⟩ := hi
          simp
        beta_reduce
        rw [if_neg this]
    · intro h
      have := group_self (c := c) (ps := ps) hrank
      rw [List.map_eq_nil_iff] at h
      rw [h] at hg
      rw [← hg.mem_iff] at this
      cases this
  · simp only [List.any_eq_true, not_exists, not_and]
    intro b hb
    obtain ⟨r, _, rfl⟩ := List.mem_map.mp hb
    rw [List.length_map, List.length_range, hk]
    simp

theorem group_eq {c : MpiComm} {size ps rank : Nat} (l : List Nat) (hs : l.Pairwise (· < ·))
    (hl : ∀ r, r ∈ l ↔ r < size ∧ c.color ps r = c.color ps rank) : c.group size ps rank = l := by
  have h1 : (c.group size ps rank).Pairwise (· < ·) := List.pairwise_lt_range.filter _
  refine List.Perm.eq_of_pairwise (le := (· < ·)) (fun a b _ _ h h' => absurd h (by omega)) h1 hs ?_
  refine (List.perm_ext_iff_of_nodup (group_nodup _ _ _ _) (hs.imp fun h => Nat.ne_of_lt h)).mpr fun r => ?_
  rw [mem_group, hl]

theorem group_world (size ps rank : Nat) : MpiComm.world.group size ps rank = List.range size :=
  group_eq _ List.pairwise_lt_range fun r => by simp [MpiComm.color]

theorem group_intra {size ps rank : Nat} (hp : 0 < ps) (hd : ps ∣ size) (hr : rank < size) :
    MpiComm.intra.group size ps rank = (List.range ps).map fun j => rank / ps * ps + j := by
  obtain ⟨k, rfl⟩ := hd
  have hq : rank / ps < k := Nat.div_lt_of_lt_mul hr
  refine group_eq _ ?_ fun r => ?_
  · rw [List.pairwise_map]
    exact List.pairwise_lt_range.imp fun h => by omega
  · simp only [List.mem_map, List.mem_range, MpiComm.color]
    constructor
    · rintro ⟨j, hj, rfl⟩
      have h1 : (rank / ps + 1) * ps ≤ k * ps := Nat.mul_le_mul_right ps (by omega)
      refine ⟨by rw [Nat.mul_comm ps k]; rw [Nat.add_mul] at h1; omega, ?_⟩
      rw [Nat.add_comm, Nat.add_mul_div_right _ _ hp, Nat.div_eq_of_lt hj, Nat.zero_add]
    · rintro ⟨_, h⟩
      refine ⟨r % ps, Nat.mod_lt _ hp, ?_⟩
      rw [← h]
      exact Nat.div_add_mod' r ps

theorem group_inter {size ps rank : Nat} (hp : 0 < ps) (hd : ps ∣ size) :
    MpiComm.inter.group size ps rank = (List.range (size / ps)).map fun q => q * ps + rank % ps := by
  obtain ⟨k, rfl⟩ := hd
  rw [Nat.mul_div_cancel_left k hp]
  have hm : rank % ps < ps := Nat.mod_lt _ hp
  refine group_eq _ ?_ fun r => ?_
  · rw [List.pairwise_map]
    refine List.pairwise_lt_range.imp fun {a b} h => ?_
    have := Nat.mul_lt_mul_of_pos_right h hp
    omega
  · simp only [List.mem_map, List.mem_range, MpiComm.color]
    constructor
    · rintro ⟨q, hq, rfl⟩
      have h1 : (q + 1) * ps ≤ k * ps := Nat.mul_le_mul_right ps (by omega)
      refine ⟨by rw [Nat.mul_comm ps k]; rw [Nat.add_mul] at h1; omega, ?_⟩
      rw [Nat.add_comm, Nat.add_mul_mod_self_right, Nat.mod_mod]
    · rintro ⟨hr, h⟩
      refine ⟨r / ps, Nat.div_lt_of_lt_mul hr, ?_⟩
      rw [← h]
      exact Nat.div_add_mod' r ps

/-- The `q`-th process of the communicator of `rank`. -/
theorem group_member {c : MpiComm} {size ps rank q : Nat} (hp : 0 < ps) (hd : ps ∣ size) (hr : rank < size)
    (hq : q < c.members size ps) : (c.group size ps rank)[q]? = some (c.memberOf ps rank q) := by
  cases c with
  | world => rw [group_world, List.getElem?_range (by exact hq)]; rfl
  | intra => rw [group_intra hp hd hr, List.getElem?_map, List.getElem?_range (by exact hq)]; rfl
  | inter => rw [group_inter hp hd, List.getElem?_map, List.getElem?_range (by exact hq)]; rfl

theorem memberOf_lt {c : MpiComm} {size ps rank q : Nat} (hp : 0 < ps) (hd : ps ∣ size) (hr : rank < size)
    (hq : q < c.members size ps) : c.memberOf ps rank q < size := by
  have := List.mem_of_getElem? (group_member hp hd hr hq)
  exact (mem_group.mp this).1

theorem combine1_sum [AddCommMonoid α] (l : List α) (hl : l ≠ []) (d : α) : combine1 (· + ·) d l = l.sum := by
  obtain ⟨a, t, rfl⟩ := List.exists_cons_of_ne_nil hl
  unfold combine1
  rw [List.sum_cons, List.sum_eq_foldl]
  have : ∀ (t : List α) (a b : α), t.foldl (· + ·) (a + b) = a + t.foldl (· + ·) b := by
    intro t
    induction t with
    | nil => intro a b; rfl
    | cons x t ih => intro a b; simp only [List.foldl_cons]; rw [add_assoc, ih]
  have := this t a 0
  rwa [add_zero] at this

theorem combine1_max [LinearOrder α] (l : List α) (hl : l ≠ []) (d : α) :
    combine1 max d l ∈ l ∧ ∀ x ∈ l, x ≤ combine1 max d l := by
  obtain ⟨a, t, rfl⟩ := List.exists_cons_of_ne_nil hl
  clear hl
  unfold combine1
  simp only
  induction t generalizing a with
  | nil => simp
  | cons b t ih =>
    simp only [List.foldl_cons]
    obtain ⟨h1, h2⟩ := ih (max a b)
    refine ⟨?_, fun x hx => ?_⟩
    · rcases List.mem_cons.mp h1 with h | h
      · rw [h]
        rcases max_choice a b with e | e <;> rw [e] <;> simp
      · simp [h]
    · have hm := h2 (max a b) (by simp)
      rcases List.mem_cons.mp hx with rfl | hx
      · exact le_trans (le_max_left _ _) hm
      · rcases List.mem_cons.mp hx with rfl | hx
        · exact le_trans (le_max_right _ _) hm
        · exact h2 x (by simp [hx])

theorem combine1_min [LinearOrder α] (l : List α) (hl : l ≠ []) (d : α) :
    combine1 min d l ∈ l ∧ ∀ x ∈ l, combine1 min d l ≤ x :=
  combine1_max (α := αᵒᵈ) l hl d

theorem skips_one {c : MpiComm} {size ps : Nat} (v : Nat → Nat → α) (op : α → α → α) (d : α) (n : Nat)
    (hs : c.skips size ps = true) :
    uniform size n v = uniform size n fun r i => combine1 op d ((c.group size ps r).map fun r' => v r' i) := by
  unfold uniform
  apply List.map_congr_left
  intro r hr
  apply List.map_congr_left
  intro i _
  beta_reduce
  rw [group_skips (List.mem_range.mp hr) hs]
  rfl

/-- The buffers after a reduction of fewer than 2^31 elements. -/
theorem allReduce_small (op : α → α → α) [Std.Commutative op] [Std.Associative op] (d : α)
    (order : List (List α) → List (List α)) (ho : ∀ l, (order l).Perm l) (c : MpiComm) (size ps n : Nat)
    (hn : n < 2 ^ 31) (v : Nat → Nat → α) :
    allReduce op order c size ps (uniform size n v) = .ok (uniform size n fun r i =>
      combine1 op d ((c.group size ps r).map fun r' => v r' i)) := by
  cases hs : c.skips size ps with
  | true =>
    unfold allReduce
    rw [hs, if_pos rfl, skips_one v op d n hs]
  | false =>
    rw [allReduce_count op d order ho c size ps n n hs (intCount_small hn) (le_refl n) v]
    congr 1
    unfold uniform
    apply List.map_congr_left
    intro r _
    apply List.map_congr_left
    intro i hi
    beta_reduce
    rw [if_pos (List.mem_range.mp hi)]

theorem group_toFinset (c : MpiComm) (size ps rank : Nat) [AddCommMonoid α] (f : Nat → α) :
    ((c.group size ps rank).map f).sum = ∑ r ∈ (Finset.range size).filter (c.sameAs ps rank ·), f r := by
  rw [← List.sum_toFinset f (group_nodup c size ps rank)]
  congr 1
  ext r
  rw [List.mem_toFinset, mem_group, Finset.mem_filter, Finset.mem_range]
  refine and_congr_right fun _ => ?_
  cases c <;> simp [MpiComm.color, MpiComm.sameAs]

theorem same_group {c : MpiComm} {size ps r r' : Nat} :
    r' ∈ c.group size ps r ↔ r' < size ∧ c.sameAs ps r r' = true := by
  rw [mem_group]
  refine and_congr_right fun _ => ?_
  cases c <;> simp [MpiComm.color, MpiComm.sameAs]

theorem mapOutcome_cons_error {β δ : Type} {f : β → Outcome δ} {a : β} {l : List β} (h : f a = .error) :
    mapOutcome f (a :: l) = .error := by
  show (f a >>= _) = _
  rw [h]
  rfl

theorem group_map_ne {β : Type} {c : MpiComm} {size ps rank : Nat} {f : Nat → β} (hr : rank < size) :
    (c.group size ps rank).map f ≠ [] := by
  intro h
  rw [List.map_eq_nil_iff] at h
  have := group_self (c := c) (ps := ps) hr
  rw [h] at this
  cases this

end Verif.Props
