import Verif.Spec.Report

/-! # Lemmas on reports -/
namespace Verif.Proofs
open Verif.Model Verif.Spec

theorem blocks_skip (w : String) (pre ls : List Line) (h : ∀ l ∈ pre, startsWith w l = false) :
    blocks w (pre ++ ls) = blocks w ls := by
  induction pre with
  | nil => rfl
  | cons a pre ih =>
    rw [List.cons_append, blocks, h a List.mem_cons_self]
    simp only [Bool.false_eq_true, if_false]
    exact ih fun l hl => h l (List.mem_cons_of_mem _ hl)

theorem takeWhile_block (w : String) (T rest : List Line) (hT : ∀ l ∈ T, startsWith w l = false)
    (hr : rest = [] ∨ ∃ h t, rest = h :: t ∧ startsWith w h = true) :
    (T ++ rest).takeWhile (fun l => !startsWith w l) = T := by
  induction T with
  | nil =>
    rcases hr with h | ⟨h, t, e, hs⟩
    · rw [h]; rfl
    · rw [e, List.nil_append, List.takeWhile_cons, hs]; rfl
  | cons a T ih =>
    rw [List.cons_append, List.takeWhile_cons, hT a List.mem_cons_self]
    simp only [Bool.not_false, if_true]
    rw [ih fun l hl => hT l (List.mem_cons_of_mem _ hl)]

/-- A report made of a heading line and a body for each calculation is cut into these. -/
theorem blocks_flatMap {ι : Type} (w : String) (l : List ι) (H : ι → Line) (T : ι → List Line)
    (hH : ∀ j, startsWith w (H j) = true) (hT : ∀ j, ∀ x ∈ T j, startsWith w x = false) :
    blocks w (l.flatMap fun j => H j :: T j) = l.map fun j => (H j, T j) := by
  induction l with
  | nil => rfl
  | cons a l ih =>
    rw [List.flatMap_cons, List.cons_append, blocks, hH a]
    simp only [if_true]
    rw [blocks_skip _ _ _ (hT a), ih, takeWhile_block _ _ _ (hT a)]
    · rfl
    · cases l with
      | nil => exact Or.inl rfl
      | cons b l => exact Or.inr ⟨H b, T b ++ _, by rw [List.flatMap_cons]; rfl, hH b⟩

theorem fromTitle_append (title : String) (pre : List Line) (l : Line) (post : List Line)
    (hpre : ∀ x ∈ pre, startsWith title x = false) (hl : startsWith title l = true) :
    fromTitle title (pre ++ l :: post) = l :: post := by
  unfold fromTitle
  induction pre with
  | nil => rw [List.nil_append, List.dropWhile_cons, hl]; rfl
  | cons a pre ih =>
    rw [List.cons_append, List.dropWhile_cons, hpre a List.mem_cons_self]
    simp only [Bool.not_false, if_true]
    exact ih fun x hx => hpre x (List.mem_cons_of_mem _ hx)

theorem fromTitle_none (title : String) (ls : List Line) (h : ∀ x ∈ ls, startsWith title x = false) :
    fromTitle title ls = [] := by
  unfold fromTitle
  induction ls with
  | nil => rfl
  | cons a ls ih =>
    rw [List.dropWhile_cons, h a List.mem_cons_self]
    simp only [Bool.not_false, if_true]
    exact ih fun x hx => h x (List.mem_cons_of_mem _ hx)

theorem numbersOf_map (l : List ℝ) : numbersOf (l.map .num) = l := by
  unfold numbersOf
  rw [List.filterMap_map]
  exact List.filterMap_some

theorem numbersOf_append (a b : Line) : numbersOf (a ++ b) = numbersOf a ++ numbersOf b := List.filterMap_append

theorem startsWith_nums (w : String) (l : List ℝ) : startsWith w (l.map .num) = false := by
  cases l <;> rfl

theorem startsWith_tableLines (w : String) (d : Nat) (M : Nat → Nat → ℝ) (l : Line) (hl : l ∈ tableLines d M) :
    startsWith w l = false := by
  obtain ⟨i, _, rfl⟩ := List.mem_map.mp hl
  have : ((List.range d).map fun j => Item.num (M i j)) = ((List.range d).map (M i)).map .num := by
    rw [List.map_map]; rfl
  rw [this]
  exact startsWith_nums _ _

theorem startsWith_titledTable (w title unit : String) (hne : (title == w) = false) (d : Nat) (M : Nat → Nat → ℝ)
    (l : Line) (hl : l ∈ titledTable title unit d M) : startsWith w l = false := by
  unfold titledTable at hl
  rw [List.cons_append, List.mem_cons, List.mem_append, List.mem_singleton] at hl
  rcases hl with h | h | h
  · rw [h]; exact hne
  · exact startsWith_tableLines _ _ _ _ h
  · rw [h]; rfl

/-- The rows of a table, up to the empty line after it. -/
theorem takeWhile_table (d : Nat) (hd : 0 < d) (M : Nat → Nat → ℝ) (post : List Line) :
    ((tableLines d M ++ [[]] ++ post).takeWhile fun l : Line => !l.isEmpty).map numbersOf = tableFile d M := by
  have h1 : (tableLines d M ++ ([] :: post)).takeWhile (fun l : Line => !l.isEmpty) = tableLines d M := by
    rw [List.takeWhile_append_of_pos, List.takeWhile_cons]
    · simp
    · intro l hl
      obtain ⟨i, _, rfl⟩ := List.mem_map.mp hl
      simp; omega
  rw [List.append_assoc, List.singleton_append, h1]
  unfold tableLines tableFile
  rw [List.map_map]
  apply List.map_congr_left
  intro i _
  have : ((List.range d).map fun j => Item.num (M i j)) = ((List.range d).map (M i)).map .num := by
    rw [List.map_map]; rfl
  simp only [Function.comp_apply]
  rw [this]
  exact numbersOf_map _

/-- A table below its title. -/
theorem tableBelow_titled (title unit : String) (d : Nat) (hd : 0 < d) (M : Nat → Nat → ℝ) (pre post : List Line)
    (hpre : ∀ x ∈ pre, startsWith title x = false) :
    tableBelow title (pre ++ titledTable title unit d M ++ post) = some (tableFile d M) ∧
    unitAfter title (pre ++ titledTable title unit d M ++ post) = some unit := by
  have h : fromTitle title (pre ++ titledTable title unit d M ++ post) =
      [.word title, .word unit] :: (tableLines d M ++ [[]] ++ post) := by
    unfold titledTable
    rw [List.append_assoc, List.cons_append, List.cons_append]
    exact fromTitle_append _ _ _ _ hpre (by simp [startsWith])
  refine ⟨?_, ?_⟩
  · unfold tableBelow
    rw [h]
    exact congrArg some (takeWhile_table d hd M post)
  · unfold unitAfter
    rw [h]
    rfl

end Verif.Proofs
