import Verif.Spec.Occupations
import Verif.Proofs.VectorBte
import Verif.Proofs.Input
import Verif.Proofs.Bands

/-! # Lemmas on the tables of occupations -/
namespace Verif.Proofs.Occupations
open Verif.Model Verif.Spec Verif.Props

variable {α : Type}

theorem find_pair {β : Type} (l : List Nat) (g : Nat → β) (i : Nat) :
    (l.map fun j => (j, g j)).find? (fun c => c.1 = i) = if i ∈ l then some (i, g i) else none := by
  induction l with
  | nil => simp
  | cons a t ih =>
    rw [List.map_cons, List.find?_cons]
    by_cases h : a = i
    · subst h; simp
    · simp only [h, decide_false, ih, List.mem_cons]
      have : ¬ i = a := fun e => h e.symm
      simp [this]

/-- The column of an index. -/
def column [Zero α] (pop : α → α → α → α) (stats : List (α × α)) (e : α) : Nat → α :=
  fun c => (stats.map fun s => pop e s.1 s.2).getD c 0

theorem part_val [Zero α] (pop : α → α → α → α) (stats : List (α × α)) (B : BteStates α) (size rank : Nat)
    (hr : rank < size) (hfit : B.numIrrStates * size < sizeTMod) (st : Nat → Nat) (en : Nat → α)
    (hB : ∀ i < B.numIrrStates, B.bteToState i = .ok (st i) ∧ B.getEnergy (st i) = .ok (en i)) :
    occupationPart pop stats B size rank = .ok fun i =>
      if i ∈ List.range' (head B.numIrrStates size rank)
        (head B.numIrrStates size (rank + 1) - head B.numIrrStates size rank) then column pop stats (en i) else 0 := by
  have hm : head B.numIrrStates size rank ≤ head B.numIrrStates size (rank + 1) := head_mono _ _ (Nat.le_succ _)
  have hl : head B.numIrrStates size (rank + 1) ≤ B.numIrrStates := by
    have := head_mono B.numIrrStates size (show rank + 1 ≤ size by omega)
    rwa [head_last _ _ (by omega)] at this
  unfold occupationPart
  rw [divideWorkIter_val hfit hr, Outcome.bind_eq]
  show (mapOutcome _ _ >>= fun cols => _) = _
  rw [mapOutcome_eq_map (g := fun i => (i, stats.map fun s => pop (en i) s.1 s.2))]
  · show Outcome.ok _ = _
    congr 1
    funext i c
    rw [find_pair _ (fun i => stats.map fun s => pop (en i) s.1 s.2)]
    by_cases h : i ∈ List.range' (head B.numIrrStates size rank)
        (head B.numIrrStates size (rank + 1) - head B.numIrrStates size rank)
    · rw [if_pos h, if_pos h]
      rfl
    · rw [if_neg h, if_neg h]
      rfl
  · intro i hi
    rw [List.mem_range'_1] at hi
    obtain ⟨h1, h2⟩ := hB i (by omega)
    rw [h1, Outcome.bind_eq]
    show (B.getEnergy (st i) >>= fun e => _) = _
    rw [h2]
    rfl

theorem tables_val [AddMonoid α] (pop : α → α → α → α) (stats : List (α × α)) (B : BteStates α) (size : Nat)
    (hs : 0 < size) (hfit : B.numIrrStates * size < sizeTMod) (st : Nat → Nat) (en : Nat → α)
    (hB : ∀ i < B.numIrrStates, B.bteToState i = .ok (st i) ∧ B.getEnergy (st i) = .ok (en i)) :
    ∃ tables, occupationTables pop stats B size = .ok tables ∧ tables.length = size ∧
      ∀ t ∈ tables, ∀ i < B.numIrrStates, t i = column pop stats (en i) := by
  have h1 := mapOutcome_eq_map (occupationPart pop stats B size) (fun rank => fun i =>
      if i ∈ List.range' (head B.numIrrStates size rank)
        (head B.numIrrStates size (rank + 1) - head B.numIrrStates size rank) then column pop stats (en i) else 0)
    (List.range size) (fun r hr => part_val pop stats B size r (List.mem_range.mp hr) hfit st en hB)
  refine ⟨_, by unfold occupationTables; rw [h1]; rfl, by rw [allReduceSum1_length]; simp, ?_⟩
  intro t ht i hi
  rw [mem_allReduceSum1 _ t ht i, List.map_map]
  have := sum_slices (head B.numIrrStates size) (by simp [head]) (fun r => head_mono _ _ (Nat.le_succ r))
    (fun i => column pop stats (en i)) i size
  rw [head_last _ _ hs, if_pos hi] at this
  exact this

theorem range_column [Zero α] (pop : α → α → α → α) (stats : List (α × α)) (e : α) :
    (List.range stats.length).map (column pop stats e) = occupations pop stats e := by
  unfold occupations
  apply List.ext_getElem
  · simp
  · intro c h1 h2
    simp only [List.length_map] at h2
    simp [column, List.getD_eq_getElem?_getD, h2]

end Verif.Proofs.Occupations
