import Verif.Spec.Atoms
import Verif.Proofs.Bands
import Verif.Proofs.Input

/-! # Lemmas on the atoms of the crystal -/
namespace Verif.Props
open Verif.Model Verif.Spec

/-- The rows are in the order of the atomic numbers. -/
theorem table_order : ∀ i, i < elementTable.length → (elementTable[i]?.map (·.atomicNumber)) = some (i + 1) := by
  decide +kernel

/-- No symbol occurs twice. -/
theorem table_nodup : (elementTable.map (·.symbol)).Nodup := by
  decide +kernel

theorem find_symbol (l : List Element) (hn : (l.map (·.symbol)).Nodup) (e : Element) (he : e ∈ l) :
    l.find? (fun x => x.symbol == e.symbol) = some e := by
  induction l with
  | nil => simp at he
  | cons a l ih =>
    simp only [List.map_cons, List.nodup_cons] at hn
    rw [List.find?_cons]
    rcases List.mem_cons.1 he with rfl | he'
    · simp
    · have hne : a.symbol ≠ e.symbol := fun h => hn.1 (h ▸ List.mem_map_of_mem he')
      simp only [beq_eq_false_iff_ne.2 hne]
      exact ih hn.2 he'

theorem lookup_row (e : Element) (he : e ∈ elementTable) :
    (do let i ← findElementByStr elementTable e.symbol
        elementAt elementTable i) = Outcome.ok e := by
  unfold findElementByStr
  rw [find_symbol _ table_nodup e he]
  simp only [Outcome.bind_eq, Outcome.bind_ok]
  obtain ⟨i, hi, rfl⟩ := List.mem_iff_getElem.1 he
  have := table_order i hi
  rw [List.getElem?_eq_getElem hi, Option.map_some, Option.some.injEq] at this
  unfold elementAt
  rw [if_neg (by omega), this]
  have : (((i + 1 : Nat) : Int) - 1).toNat = i := by omega
  rw [this]
  simp [readAt, List.getElem?_eq_getElem hi]

theorem getMassVariance_val (e : Element) (he : e ∈ elementTable) :
    getMassVariance elementTable e.symbol = .ok e.massVariance.val := by
  have h := lookup_row e he
  simp only [Outcome.bind_eq_ok_iff] at h
  obtain ⟨i, h1, h2⟩ := h
  simp only [getMassVariance, h1, h2, Outcome.bind_eq, Outcome.bind_ok]

theorem getMass_val (e : Element) (he : e ∈ elementTable) :
    getMass elementTable e.symbol = .ok e.mass.val := by
  have h := lookup_row e he
  simp only [Outcome.bind_eq_ok_iff] at h
  obtain ⟨i, h1, h2⟩ := h
  simp only [getMass, h1, h2, Outcome.bind_eq, Outcome.bind_ok]

theorem getMassVariance_unknown (n : List Char) (h : ∀ e ∈ elementTable, e.symbol ≠ n) :
    getMassVariance elementTable n = .error := by
  have : elementTable.find? (fun e => e.symbol == n) = none := by
    rw [List.find?_eq_none]
    intro e he hh
    exact h e he (by simpa using hh)
  unfold getMassVariance findElementByStr
  rw [this]
  rfl

theorem readAt_ok {α : Type} {l : List α} {i : Nat} (h : i < l.length) : readAt l i = .ok l[i] := by
  simp [readAt, List.getElem?_eq_getElem h]

/-- The variance of a known name, otherwise zero. -/
noncomputable def naturalOf (n : List Char) : ℚ :=
  match getMassVariance elementTable n with
  | .ok x => x
  | _ => 0

theorem natural_val (names : List (List Char)) (h : ∀ n ∈ names, ∃ e ∈ elementTable, e.symbol = n) :
    mapOutcome (getMassVariance elementTable) names = .ok (names.map naturalOf) ∧
      ∀ n ∈ names, ∃ e ∈ elementTable, e.symbol = n ∧ naturalOf n = e.massVariance.val := by
  constructor
  · apply mapOutcome_eq_map
    intro n hn
    obtain ⟨e, he, rfl⟩ := h n hn
    simp only [naturalOf, getMassVariance_val e he]
  · intro n hn
    obtain ⟨e, he, rfl⟩ := h n hn
    exact ⟨e, he, rfl, by simp only [naturalOf, getMassVariance_val e he]⟩

end Verif.Props
