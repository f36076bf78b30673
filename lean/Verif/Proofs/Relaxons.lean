import Verif.Model.Solvers
import Verif.Spec.Solvers
import Verif.Proofs.VectorBte
import Verif.Proofs.IrrPoints
import Verif.Proofs.DynMat
import Mathlib.Algebra.BigOperators.Ring.Finset
import Mathlib.Algebra.BigOperators.Field
import Mathlib.Tactic.FieldSimp

/-!
# Lemmas on relaxons
-/
namespace Verif.Model
open Verif.Spec

theorem relaxonAdds_val (threads : List (List (Nat × Nat))) (adds : Nat × Nat → Nat × ℝ) (k : Nat) :
    relaxonAdds threads adds k = (threads.flatten.map fun t => if k = (adds t).1 then (adds t).2 else 0).sum := by
  have h1 : ∀ (l : List (Nat × Nat)) (g : Nat → ℝ),
      l.foldl (fun priv t => fun k => if k = (adds t).1 then priv k + (adds t).2 else priv k) g k =
        g k + (l.map fun t => if k = (adds t).1 then (adds t).2 else 0).sum := by
    intro l
    induction l with
    | nil => intro g; simp
    | cons t l ih =>
      intro g
      rw [List.foldl_cons, ih, List.map_cons, List.sum_cons]
      by_cases h : k = (adds t).1
      · simp only [if_pos h]; ring
      · simp only [if_neg h]; ring
  have h2 : ∀ (l : List (List (Nat × Nat))) (g : Nat → ℝ),
      l.foldl (fun acc chunk => fun k => acc k +
        chunk.foldl (fun priv t => fun k => if k = (adds t).1 then priv k + (adds t).2 else priv k) (fun _ => 0) k) g k =
        g k + (l.flatten.map fun t => if k = (adds t).1 then (adds t).2 else 0).sum := by
    intro l
    induction l with
    | nil => intro g; simp
    | cons t l ih =>
      intro g
      rw [List.foldl_cons, ih, h1, List.flatten_cons, List.map_append, List.sum_append]
      ring
  unfold relaxonAdds
  rw [h2, zero_add]

theorem keptStates_val (lam : List ℝ) (l : List (Nat × Nat)) (h : ∀ t ∈ l, t.2 < lam.length) :
    keptStates lam l = .ok (l.filter fun t => 0 < lam.getD t.2 0) := by
  induction l with
  | nil => rfl
  | cons t l ih =>
    have ht := h t (by simp)
    have hk : keepRelaxon lam t.2 = .ok (decide (0 < lam.getD t.2 0)) := by
      unfold keepRelaxon
      rw [List.getElem?_eq_getElem ht]
      have hg : lam.getD t.2 0 = lam[t.2] := by
        rw [List.getD_eq_getElem?_getD, List.getElem?_eq_getElem ht]; rfl
      rw [hg]
      simp only [ht, decide_true]
      by_cases h0 : lam[t.2] ≤ 0
      · simp [h0, not_lt.mpr h0]
      · simp [h0, not_le.mp h0]
    unfold keptStates
    simp only [hk, ih (fun u hu => h u (by simp [hu])), Outcome.bind_eq, Outcome.bind_ok]
    rw [List.filter_cons]
    by_cases h0 : 0 < lam.getD t.2 0 <;> simp [h0] <;> rfl

/-- A list of pairs that is a rearrangement of the kept elements of an `n` by `n` matrix. -/
def KeptPerm (n : Nat) (lam : Nat → ℝ) (L : List (Nat × Nat)) : Prop :=
  L.Perm (((List.range n).flatMap fun s => (List.range n).map fun alpha => (s, alpha)).filter fun t => 0 < lam t.2)

theorem KeptPerm.sum {n : Nat} {lam : Nat → ℝ} {L : List (Nat × Nat)} (h : KeptPerm n lam L) (f : Nat × Nat → ℝ) :
    (L.map f).sum = ∑ s ∈ Finset.range n, ∑ alpha ∈ Finset.range n, if 0 < lam alpha then f (s, alpha) else 0 := by
  rw [(h.map f).sum_eq, sum_filter_map, sum_flatMap_map]
  have e : ∀ s, (((List.range n).map fun alpha => (s, alpha)).map fun x =>
      if decide (0 < lam x.2) = true then f x else 0).sum =
      ∑ alpha ∈ Finset.range n, if 0 < lam alpha then f (s, alpha) else 0 := by
    intro s
    rw [List.map_map]
    show _ = ((List.range n).map _).sum
    congr 1
    apply List.map_congr_left
    intro alpha _
    simp
  simp only [e]
  rfl

/-- The sum over processes and threads. -/
theorem relaxon_reduce {n size : Nat} {lam : Nat → ℝ} (sched : Nat → List (List (Nat × Nat)))
    (h : KeptPerm n lam ((List.range size).flatMap fun p => (sched p).flatten)) (adds : Nat → Nat × Nat → Nat × ℝ)
    (adds' : Nat × Nat → Nat × ℝ) (hadds : ∀ p < size, ∀ t ∈ (sched p).flatten, adds p t = adds' t) (f : Nat → ℝ)
    (hf : f ∈ allReduceSum1 ((List.range size).map fun p => relaxonAdds (sched p) (adds p))) (k : Nat) :
    f k = ∑ s ∈ Finset.range n, ∑ alpha ∈ Finset.range n, if 0 < lam alpha then
      (if k = (adds' (s, alpha)).1 then (adds' (s, alpha)).2 else 0) else 0 := by
  rw [mem_allReduceSum1 _ _ hf, List.map_map]
  have e : ((List.range size).map ((fun b => b k) ∘ fun p => relaxonAdds (sched p) (adds p))) =
      (List.range size).map fun p => ((sched p).flatten.map fun t => if k = (adds' t).1 then (adds' t).2 else 0).sum := by
    apply List.map_congr_left
    intro p hp
    simp only [Function.comp_apply, relaxonAdds_val]
    congr 1
    apply List.map_congr_left
    intro t ht
    rw [hadds p (List.mem_range.mp hp) t ht]
  rw [e, ← sum_flatMap_map, h.sum]

/-- The population made from the relaxons solves the equation, up to the part of the source along the relaxons left out. -/
theorem relaxonPopulation_val {n size : Nat} {A : Nat → Nat → ℝ} {lam : List ℝ} {vec : Nat → Nat → ℝ}
    (he : Eigensystem n A (fun alpha => lam.getD alpha 0) vec) (src : Nat → ℝ) (sched sched' : Nat → List (List (Nat × Nat)))
    (h1 : KeptPerm n (fun alpha => lam.getD alpha 0) ((List.range size).flatMap fun p => (sched p).flatten))
    (h2 : KeptPerm n (fun alpha => lam.getD alpha 0) ((List.range size).flatMap fun p => (sched' p).flatten)) :
    (relaxonPopulation lam vec src size sched sched').length = size ∧
    ∀ f ∈ relaxonPopulation lam vec src size sched sched', ∀ s < n,
      ∑ t ∈ Finset.range n, A s t * f t = src s -
        ∑ alpha ∈ Finset.range n with lam.getD alpha 0 ≤ 0, vec s alpha * ∑ t ∈ Finset.range n, vec t alpha * src t := by
  classical
  obtain ⟨fs, hfs⟩ : ∃ fs, fs = allReduceSum1 ((List.range size).map fun p =>
    relaxonAdds (sched p) fun t => (t.2, src t.1 * vec t.1 t.2 / lam.getD t.2 0)) := ⟨_, rfl⟩
  have hlen : fs.length = size := by rw [hfs, allReduceSum1_length]; simp
  have hfsv : ∀ g ∈ fs, ∀ beta < n, 0 < lam.getD beta 0 →
      g beta = (∑ s ∈ Finset.range n, vec s beta * src s) / lam.getD beta 0 := by
    intro g hg beta hb hl
    rw [hfs] at hg
    rw [relaxon_reduce sched h1 (fun _ t => (t.2, src t.1 * vec t.1 t.2 / lam.getD t.2 0)) _ (fun _ _ _ _ => rfl) g hg beta,
      Finset.sum_div]
    apply Finset.sum_congr rfl
    intro s _
    rw [Finset.sum_eq_single beta]
    · rw [if_pos hl, if_pos rfl]; ring
    · intro a _ hne
      simp [hne.symm]
    · intro h; exact absurd (Finset.mem_range.mpr hb) h
  constructor
  · unfold relaxonPopulation; simp only; rw [allReduceSum1_length]; simp
  intro f hf s hs
  have hfv : ∀ t < n, f t = ∑ alpha ∈ Finset.range n, if 0 < lam.getD alpha 0 then
      vec t alpha * ((∑ u ∈ Finset.range n, vec u alpha * src u) / lam.getD alpha 0) else 0 := by
    intro t ht
    unfold relaxonPopulation at hf
    simp only [← hfs] at hf
    have hmem : ∀ p < size, ∀ u ∈ (sched' p).flatten, u.2 < n ∧ 0 < lam.getD u.2 0 := by
      intro p hp u hu
      have h3 := (h2.mem_iff (a := u)).mp (List.mem_flatMap.mpr ⟨p, List.mem_range.mpr hp, hu⟩)
      simp only [List.mem_filter, List.mem_flatMap, List.mem_map, List.mem_range, decide_eq_true_eq] at h3
      obtain ⟨⟨x, _, y, hy, rfl⟩, h4⟩ := h3
      exact ⟨hy, h4⟩
    rw [relaxon_reduce sched' h2 (fun p t => (t.1, vec t.1 t.2 * fs.getD p (fun _ => 0) t.2))
      (fun t => (t.1, vec t.1 t.2 * ((∑ u ∈ Finset.range n, vec u t.2 * src u) / lam.getD t.2 0))) ?_ f hf t]
    · rw [Finset.sum_eq_single t]
      · simp
      · intro u _ hne
        apply Finset.sum_eq_zero
        intro alpha _
        simp [hne.symm]
      · intro h; exact absurd (Finset.mem_range.mpr ht) h
    · intro p hp u hu
      obtain ⟨m1, m2⟩ := hmem p hp u hu
      rw [List.getD_eq_getElem?_getD, List.getElem?_eq_getElem (by omega)]
      show (u.1, vec u.1 u.2 * fs[p] u.2) = _
      rw [hfsv _ (List.getElem_mem _) u.2 m1 m2]
  set c : Nat → ℝ := fun alpha => ∑ u ∈ Finset.range n, vec u alpha * src u with hc
  have hall : ∑ alpha ∈ Finset.range n, vec s alpha * c alpha = src s := by
    have e : ∀ alpha, vec s alpha * c alpha = ∑ u ∈ Finset.range n, (vec s alpha * vec u alpha) * src u := by
      intro alpha
      rw [hc, Finset.mul_sum]
      exact Finset.sum_congr rfl fun u _ => by ring
    simp only [e]
    rw [Finset.sum_comm]
    have e2 : ∀ u ∈ Finset.range n, ∑ alpha ∈ Finset.range n, vec s alpha * vec u alpha * src u =
        if s = u then src u else 0 := by
      intro u hu
      rw [← Finset.sum_mul, he.complete s hs u (Finset.mem_range.mp hu)]
      simp
    rw [Finset.sum_congr rfl e2, Finset.sum_ite_eq, if_pos (Finset.mem_range.mpr hs)]
  have hsum : ∑ t ∈ Finset.range n, A s t * f t =
      ∑ alpha ∈ Finset.range n, if 0 < lam.getD alpha 0 then vec s alpha * c alpha else 0 := by
    have e : ∀ t ∈ Finset.range n, A s t * f t = ∑ alpha ∈ Finset.range n, if 0 < lam.getD alpha 0 then
        A s t * vec t alpha * (c alpha / lam.getD alpha 0) else 0 := by
      intro t ht
      rw [hfv t (Finset.mem_range.mp ht), Finset.mul_sum]
      apply Finset.sum_congr rfl
      intro alpha _
      by_cases h0 : 0 < lam.getD alpha 0
      · rw [if_pos h0, if_pos h0]; ring
      · rw [if_neg h0, if_neg h0, mul_zero]
    rw [Finset.sum_congr rfl e, Finset.sum_comm]
    apply Finset.sum_congr rfl
    intro alpha ha
    by_cases h0 : 0 < lam.getD alpha 0
    · simp only [if_pos h0]
      rw [← Finset.sum_mul, he.eigen s hs alpha (Finset.mem_range.mp ha)]
      have := h0.ne'
      field_simp
    · simp only [if_neg h0, Finset.sum_const_zero]
  rw [hsum, ← hall, Finset.sum_filter, ← Finset.sum_sub_distrib]
  apply Finset.sum_congr rfl
  intro alpha _
  by_cases h0 : 0 < lam.getD alpha 0
  · rw [if_pos h0, if_neg (not_le.mpr h0), sub_zero]
  · rw [if_neg h0, if_pos (not_lt.mp h0), sub_self]

end Verif.Model
