import Verif.Proofs.Input
import Mathlib.Data.Rat.Defs
import Mathlib.Algebra.Order.Ring.Rat
import Mathlib.Tactic.FieldSimp

/-!
# The input file: C64-C68, C79-C81

`setupFromInput u stod file` reads a file given by its lines.  `stod` is the library function that reads a
floating-point number at the beginning of a text; `u` are the conversion factors.
-/
namespace Verif.Props
open Verif.Model

variable {α : Type} [Field α] [LinearOrder α]

/-- Text made of white space. -/
def Blank (s : Str) : Prop := ∀ c ∈ s, c ∈ Spec.whiteSpace

/-- A number reader for the examples: digits only. -/
def natReader (s : Str) : Outcome ℚ :=
  if s.filter (fun c => c ≠ ' ') ≠ [] ∧ s.all (fun c => c.isDigit ∨ c = ' ') = true
  then .ok (digitsVal (s.filter fun c => c ≠ ' ')) else .error

/-- Factors for the examples. -/
def someUnits : UnitTable ℚ := ⟨2, 3, 5, 7, 11, 13, 17, 19⟩

/-! ## C64 -/

/-- **C64.** A non-empty list of machine integers written in decimal notation between brackets, separated by commas, with
any white space around the numbers, is read back. -/
theorem C64_int_list (items : List (Str × Int × Str)) (hne : items ≠ [])
    (hr : ∀ i ∈ items, intMin ≤ i.2.1 ∧ i.2.1 ≤ intMax) (hb : ∀ i ∈ items, Blank i.1 ∧ Blank i.2.2)
    (pre post : Str) (h1 : '[' ∉ pre) (h2 : ']' ∉ post) :
    parseIntList (pre ++ '[' :: (Spec.commaList (items.map fun i => i.1 ++ (Spec.decimal i.2.1 ++ i.2.2)) ++ ']' :: post))
      = .ok (items.map (·.2.1)) := by
  unfold parseIntList
  rw [brackets_ok h1 h2]
  simp only [Outcome.bind_eq, Outcome.bind_ok]
  rw [splitCommas_commaList (by simpa using hne)]
  · have := mapOutcome_eq_map (fun i : Str × Int × Str => stoi (i.1 ++ (Spec.decimal i.2.1 ++ i.2.2))) (·.2.1) items
      fun i hi => stoi_decimal (hr i hi) (hb i hi).1 (hb i hi).2
    rw [← this]
    clear this hne
    induction items with
    | nil => rfl
    | cons x t ih =>
      simp only [List.map_cons, mapOutcome]
      rw [ih (fun i hi => hr i (by simp [hi])) (fun i hi => hb i (by simp [hi]))]
  · intro t ht
    obtain ⟨i, hi, rfl⟩ := List.mem_map.mp ht
    exact decimal_no_comma (hb i hi).1 (hb i hi).2

example : parseIntList " = [ 8,-12 , 2147483647]".toList = .ok [8, -12, 2147483647] := by decide +kernel
example : Spec.decimal (-120) = "-120".toList := by decide +kernel

/-- **C64.** A list of floating-point numbers is read element by element. -/
theorem C64_double_list (stod : Str → Outcome α) (ts : List Str) (vs : List α) (hne : ts ≠ []) (hc : ∀ t ∈ ts, ',' ∉ t)
    (hv : List.Forall₂ (fun t v => stod t = .ok v) ts vs) (pre post : Str) (h1 : '[' ∉ pre) (h2 : ']' ∉ post) :
    parseDoubleList stod (pre ++ '[' :: (Spec.commaList ts ++ ']' :: post)) = .ok vs := by
  unfold parseDoubleList
  rw [brackets_ok h1 h2]
  simp only [Outcome.bind_eq, Outcome.bind_ok]
  rw [splitCommas_commaList hne hc]
  clear hne hc
  induction hv with
  | nil => rfl
  | cons h _ ih => simp only [mapOutcome, h, ih, Outcome.bind_eq, Outcome.bind_ok]

example : (parseDoubleList natReader "[300, 400]".toList).toOption = some [300, 400] := by decide +kernel

/-- **C64.** Without brackets, or with an empty list, the program stops with an error. -/
theorem C64_refused (s : Str) (h : '[' ∉ s ∨ ']' ∉ s) : parseIntList s = .error ∧ parseIntList "[]".toList = .error := by
  refine ⟨?_, by decide +kernel⟩
  unfold parseIntList brackets
  rcases h with h | h
  · rw [findFirst_none h]; rfl
  · rw [findLast_none h]
    cases findFirst '[' s <;> rfl

/-- **C64.** The meshes of the input file are the three integers written in it. -/
theorem C64_mesh (u : UnitTable α) (stod : Str → Outcome α) (name : Str)
    (hn : name = "qMesh".toList ∨ name = "kMesh".toList) (n1 n2 n3 : Nat)
    (h1 : (n1 : Int) ≤ intMax) (h2 : (n2 : Int) ≤ intMax) (h3 : (n3 : Int) ≤ intMax) :
    ∃ c, setupFromInput u stod
        [name ++ " = [".toList ++ Nat.toDigits 10 n1 ++ ", ".toList ++ Nat.toDigits 10 n2 ++ ", ".toList
          ++ Nat.toDigits 10 n3 ++ "]".toList] = .ok c ∧
      c name = some (.ints [(n1 : Int), n2, n3]) := by
  have hd : ∀ n : Nat, Spec.decimal (n : Int) = Nat.toDigits 10 n := by
    intro n
    have : ¬ ((n : Int) < 0) := by omega
    simp [Spec.decimal, this]
  have hnd : ∀ (n : Nat) (c : Char), c.isDigit = false → c ∉ Nat.toDigits 10 n := fun n c hc hm => by
    have := toDigits_isDigit hm
    rw [hc] at this; exact absurd this (by simp)
  let v : Str := " ".toList ++ '[' :: (Spec.commaList [[] ++ (Spec.decimal (n1 : Int) ++ []), " ".toList ++ (Spec.decimal (n2 : Int) ++ []),
    " ".toList ++ (Spec.decimal (n3 : Int) ++ [])] ++ ']' :: [])
  have hmin : ∀ n : Nat, intMin ≤ (n : Int) := fun n => by unfold intMin; omega
  have hv : parseIntList v = .ok [(n1 : Int), n2, n3] :=
    C64_int_list [([], (n1 : Int), []), (" ".toList, (n2 : Int), []), (" ".toList, (n3 : Int), [])] (by simp)
      (by
        intro i hi
        simp only [List.mem_cons, List.not_mem_nil, or_false] at hi
        rcases hi with rfl | rfl | rfl
        · exact ⟨hmin _, h1⟩
        · exact ⟨hmin _, h2⟩
        · exact ⟨hmin _, h3⟩)
      (by
        intro i hi
        simp only [List.mem_cons, List.not_mem_nil, or_false] at hi
        have b0 : Blank [] := by intro c hc; simp at hc
        have b1 : Blank " ".toList := by intro c hc; revert c; decide
        rcases hi with rfl | rfl | rfl
        · exact ⟨b0, b0⟩
        · exact ⟨b1, b0⟩
        · exact ⟨b1, b0⟩)
      " ".toList [] (by decide) (by simp)
  let it : Spec.Item := .param (name ++ " ".toList) v []
  have hl : [name ++ " = [".toList ++ Nat.toDigits 10 n1 ++ ", ".toList ++ Nat.toDigits 10 n2 ++ ", ".toList
          ++ Nat.toDigits 10 n3 ++ "]".toList] = [it].flatMap Spec.Item.lines := by
    simp [it, v, Spec.Item.lines, Spec.commaList, hd]
  have hwf : it.WellFormed := by
    refine ⟨?_, ?_, ?_⟩
    · rcases hn with rfl | rfl <;> decide
    · simp [v, Spec.commaList, hd, hnd _ '#' (by decide), hnd _ ';' (by decide)]
    · exact ⟨Or.inl rfl, by simp⟩
  rw [hl, setup_items u stod [it] (by simpa using hwf)]
  have hk : paramTable.lookup (Spec.squeeze (name ++ " ".toList)) = some (.intsFirst 3)
      ∧ Spec.squeeze (name ++ " ".toList) = name := by
    rcases hn with rfl | rfl <;> decide +kernel
  refine ⟨assign (fun _ => none) name (.ints [(n1 : Int), n2, n3]), ?_, by simp [assign]⟩
  have ha : itemAction u stod it = some (name, fun so => parseKind u stod so (.intsFirst 3) v) := by
    simp only [it, itemAction]
    rw [hk.1, hk.2]
  simp only [runItems, ha, runAction, parseKind, hv, Outcome.bind_eq, Outcome.bind_ok, firstOf]
  rfl

/-! ## C65 -/

/-- The letters of a text, in lower case. -/
def lowerLetters (s : Str) : Str := (s.filter Char.isAlpha).map Char.toLower

theorem isAlpha_toLower (c : Char) : c.toLower.isAlpha = c.isAlpha := by
  unfold Char.toLower
  split
  · rename_i h
    have h1 : c.isAlpha = true := by simp [Char.isAlpha, Char.isUpper]; left; exact h
    rw [h1]
    obtain ⟨ha, hb⟩ := h
    simp only [Char.isAlpha, Char.isLower, Bool.or_eq_true, Bool.and_eq_true, decide_eq_true_eq]
    right
    have ha' : 65 ≤ c.toNat := by simpa using UInt32.le_iff_toNat_le.mp ha
    have hb' : c.toNat ≤ 90 := by simpa using UInt32.le_iff_toNat_le.mp hb
    constructor
    · show 'a'.val ≤ _
      rw [UInt32.le_iff_toNat_le]; simp [UInt32.toNat_add]; omega
    · rw [UInt32.le_iff_toNat_le]; simp [UInt32.toNat_add]; omega
  · rfl

/-- **C65, spelled values.** A value is read as true (false) exactly when its letters, in any case, spell `true`
(`false`): spaces, digits and punctuation around and between them are ignored. -/
theorem C65_words_partial (s : Str) (h : '=' ∉ s) (b : Bool) :
    parseBool s = .ok b ↔ lowerLetters s = (if b then "true".toList else "false".toList) := by
  have e : ((afterEq s).map Char.toLower).filter Char.isAlpha = lowerLetters s := by
    rw [afterEq_of_not_mem h, lowerLetters, List.filter_map]
    congr 1
    apply List.filter_congr
    intro c _
    simp [isAlpha_toLower]
  have hal : ∀ c ∈ lowerLetters s, c.isAlpha = true := by
    intro c hc
    obtain ⟨d, hd, rfl⟩ := List.mem_map.mp hc
    rw [isAlpha_toLower]
    exact (List.mem_filter.mp hd).2
  unfold parseBool
  simp only [e]
  have h0 : ¬ (lowerLetters s = "0".toList) := fun e => by
    have := hal '0' (by rw [e]; decide)
    exact absurd this (by decide)
  have h1 : ¬ (lowerLetters s = "1".toList) := fun e => by
    have := hal '1' (by rw [e]; decide)
    exact absurd this (by decide)
  rw [if_neg h0, if_neg h1]
  by_cases hf : lowerLetters s = "false".toList
  · rw [if_pos hf, hf]
    cases b
    · simp
    · simp only [Outcome.ok.injEq, if_true]; constructor
      · intro h; cases h
      · intro h; exact absurd h (by decide)
  · rw [if_neg hf]
    by_cases ht : lowerLetters s = "true".toList
    · rw [if_pos ht, ht]
      cases b
      · simp only [Outcome.ok.injEq, Bool.false_eq_true, if_false]; constructor
        · intro h; cases h
        · intro h; exact absurd h (by decide)
      · simp
    · rw [if_neg ht]
      cases b
      · constructor
        · intro h; cases h
        · intro h; exact absurd h hf
      · constructor
        · intro h; cases h
        · intro h; exact absurd h ht

example : parseBool " True ".toList = .ok true := by decide +kernel
example : parseBool " .FALSE.".toList = .ok false := by decide +kernel

/-- **C65.** Every other value stops the program with an error. -/
theorem C65_refused (s : Str) (h : '=' ∉ s) (ht : lowerLetters s ≠ "true".toList) (hf : lowerLetters s ≠ "false".toList) :
    parseBool s = .error := by
  have h1 := (C65_words_partial s h true).not.mpr (by simpa using ht)
  have h2 := (C65_words_partial s h false).not.mpr (by simpa using hf)
  have : parseBool s = .ok true ∨ parseBool s = .ok false ∨ parseBool s = .error := by
    unfold parseBool
    simp only []
    split
    · exact Or.inr (Or.inl rfl)
    split
    · exact Or.inl rfl
    split
    · exact Or.inr (Or.inl rfl)
    split
    · exact Or.inl rfl
    · exact Or.inr (Or.inr rfl)
  rcases this with h | h | h
  · exact absurd h h1
  · exact absurd h h2
  · exact h

/-- **C65 is violated for 0 and 1**: the digits are erased before they are compared, so a value written with digits
always stops the program, for every text without letters. -/
theorem C65_violated_digits (s : Str) (h : '=' ∉ s) (hl : ∀ c ∈ s, c.isAlpha = false) : parseBool s = .error := by
  have : lowerLetters s = [] := by
    unfold lowerLetters
    rw [List.map_eq_nil_iff, List.filter_eq_nil_iff]
    intro c hc; simp [hl c hc]
  exact C65_refused s h (by rw [this]; decide) (by rw [this]; decide)

example : setupFromInput someUnits natReader ["useSymmetries = 1".toList] = .error :=  by
  have := setup_items someUnits natReader [.param "useSymmetries ".toList " 1".toList []]
    (by intro i hi; simp only [List.mem_singleton] at hi; subst hi; exact ⟨by decide, by decide, Or.inl rfl, by simp⟩)
  have e : ([.param "useSymmetries ".toList " 1".toList []] : List Spec.Item).flatMap Spec.Item.lines
      = ["useSymmetries = 1".toList] := by decide
  rw [e] at this
  rw [this]
  have hk : paramTable.lookup (Spec.squeeze "useSymmetries ".toList) = some .bool := by decide +kernel
  simp only [runItems, runAction, itemAction, hk, parseKind, C65_violated_digits " 1".toList (by decide) (by decide)]
  rfl

/-! ## C66 -/

/-- **C66.** Permuting the parts of an input file (parameter lines, blocks, comments), with each setting given once, does
not change the settings.  Missing: `numOccupiedStates` and `hasSpinOrbit` are not both given. -/
theorem C66_order_partial (u : UnitTable α) (stod : Str → Outcome α) (its its' : List Spec.Item) (hp : its.Perm its')
    (hwf : ∀ i ∈ its, i.WellFormed) (hnd : (its.filterMap Spec.Item.key).Nodup)
    (hso : ¬ ((false, "numOccupiedStates".toList) ∈ its.filterMap Spec.Item.key ∧
      (false, "hasSpinOrbit".toList) ∈ its.filterMap Spec.Item.key)) (c : Settings α) :
    setupFromInput u stod (its.flatMap Spec.Item.lines) = .ok c ↔
      setupFromInput u stod (its'.flatMap Spec.Item.lines) = .ok c := by
  rw [setup_items u stod its hwf, setup_items u stod its' fun i hi => hwf i (hp.mem_iff.mpr hi)]
  have hpm := hp.filterMap Spec.Item.key
  exact ⟨runItems_perm u stod hp hnd hso _ c,
    runItems_perm u stod hp.symm (hpm.nodup_iff.mp hnd)
      (fun e => hso ⟨hpm.mem_iff.mpr e.1, hpm.mem_iff.mpr e.2⟩) _ c⟩

/-- The parts used in the examples. -/
def exampleItems : List Spec.Item :=
  [.comment "# phonons".toList, .param "kMesh ".toList " [4,4,2] ".toList "# mesh".toList,
    .block "crystal".toList ["Si 0 0 0".toList, "Ge 1 1 1".toList] "end crystal".toList,
    .param "hasSpinOrbit".toList " true".toList []]

example : (∀ i ∈ exampleItems, i.WellFormed) ∧ (exampleItems.filterMap Spec.Item.key).Nodup := by
  refine ⟨?_, by decide⟩
  intro i hi
  simp only [exampleItems, List.mem_cons, List.not_mem_nil, or_false] at hi
  rcases hi with rfl | rfl | rfl | rfl
  · exact ⟨Or.inr (by decide), by decide⟩
  · exact ⟨by decide, by decide, Or.inr (by decide), by decide⟩
  · refine ⟨by decide, ?_, by decide, by decide, ?_, by decide⟩
    · intro l hl
      simp only [List.mem_cons, List.not_mem_nil, or_false] at hl
      rcases hl with rfl | rfl
      · exact ⟨by decide, by decide, by decide, by decide, by decide⟩
      · exact ⟨by decide, by decide, by decide, by decide, by decide⟩
    · decide
  · exact ⟨by decide, by decide, Or.inl rfl, by simp⟩

/-- The number of occupied states read from a file. -/
def occupiedStates (file : List Str) : Option ℚ :=
  match setupFromInput someUnits natReader file with
  | .ok c => match c "numOccupiedStates".toList with
    | some (.dbl x) => some x
    | _ => none
  | _ => none

/-- **C66 is violated**: the number of occupied states is doubled unless `hasSpinOrbit = true` comes before it. -/
theorem C66_violated_spin_orbit :
    occupiedStates ["hasSpinOrbit = true".toList, "numOccupiedStates = 4".toList] = some 4 ∧
    occupiedStates ["numOccupiedStates = 4".toList, "hasSpinOrbit = true".toList] = some 8 := by
  decide +kernel

/-! ## C67 -/

/-- **C67.** Removing the comment at the end of a line that is not inside a block does not change the result, whatever
the line contains and whatever follows.  Missing: comments with a semicolon, and comments inside blocks. -/
theorem C67_comment_partial (u : UnitTable α) (stod : Str → Outcome α) (its : List Spec.Item)
    (hwf : ∀ i ∈ its, i.WellFormed) (code comment : Str) (hc : '#' ∉ code) (hs : ';' ∉ code)
    (hcm : ';' ∉ comment) (rest : List Str) :
    setupFromInput u stod (its.flatMap Spec.Item.lines ++ (code ++ '#' :: comment) :: rest)
      = setupFromInput u stod (its.flatMap Spec.Item.lines ++ code :: rest) := by
  rw [setupFromInput_eq, setupFromInput_eq, pieces_append, pieces_append, process_items u stod its hwf,
    process_items u stod its hwf]
  congr 1
  funext s
  have e : ∀ l : Str, ';' ∉ l → pieces (l :: rest) = (if l = [] then [] else [l]) ++ pieces rest := by
    intro l hl
    have : pieces (l :: rest) = (splitSemi l).filter (fun t => t ≠ []) ++ pieces rest := by simp [pieces]
    rw [this, splitSemi_single hl]
    by_cases h0 : l = []
    · simp [h0]
    · simp [h0]
  have hs' : ';' ∉ code ++ '#' :: comment := by simp [hs, hcm]
  rw [e _ hs', e _ hs, if_neg (by simp)]
  have st : stripComment (code ++ '#' :: comment) = code := stripComment_append hc (Or.inr rfl)
  by_cases h0 : code = []
  · rw [if_pos h0, List.singleton_append, processLines]
    simp only [st]
    simp [h0]
  · rw [if_neg h0, List.singleton_append, List.singleton_append, processLines, processLines]
    simp only [st, stripComment_self hc]

/-- **C67.** A later assignment overrides an earlier one: a parameter has the value that the last line with its name
gives it, as if that line was the only one of the file (`numOccupiedStates` aside, see C66). -/
theorem C67_last_assignment (u : UnitTable α) (stod : Str → Outcome α) (before after : List Spec.Item) (n v cm : Str)
    (hwf : ∀ i ∈ before ++ .param n v cm :: after, i.WellFormed)
    (hlast : ∀ i ∈ after, i.key ≠ some (false, Spec.squeeze n)) (hocc : Spec.squeeze n ≠ "numOccupiedStates".toList)
    (hblk : Spec.squeeze n ≠ "crystal".toList ∧ Spec.squeeze n ≠ "point path".toList)
    (hkn : Spec.squeeze n ∈ paramTable.map (·.1)) (c : Settings α)
    (h : setupFromInput u stod ((before ++ .param n v cm :: after).flatMap Spec.Item.lines) = .ok c) :
    ∃ c', setupFromInput u stod (Spec.Item.lines (.param n v cm)) = .ok c' ∧
      c (Spec.squeeze n) = c' (Spec.squeeze n) ∧ (c' (Spec.squeeze n)).isSome := by
  rw [setup_items u stod _ hwf, runItems_append, Outcome.bind_eq_ok_iff] at h
  obtain ⟨s1, _, h2⟩ := h
  simp only [runItems, Outcome.bind_eq_ok_iff] at h2
  obtain ⟨s2, h3, h4⟩ := h2
  have hone := setup_items u stod [.param n v cm] (by intro i hi; exact hwf i (by simp at hi; simp [hi]))
  have el : [Spec.Item.param n v cm].flatMap Spec.Item.lines = Spec.Item.lines (.param n v cm) := by simp
  rw [el] at hone
  have hd := runItems_other u stod after (Spec.squeeze n) hlast hblk s2 c h4
  cases hl : paramTable.lookup (Spec.squeeze n) with
  | none =>
    rw [List.lookup_eq_none_iff] at hl
    obtain ⟨p, hp, hpn⟩ := List.mem_map.mp hkn
    have := hl p hp
    rw [hpn] at this
    simp at this
  | some k =>
    have ha : itemAction u stod (.param n v cm) = some (Spec.squeeze n, fun so => parseKind u stod so k v) := by
      simp only [itemAction, hl]
    rw [ha] at h3
    simp only [runAction, Outcome.bind_eq_ok_iff, Outcome.ok.injEq] at h3
    obtain ⟨w, hw, rfl⟩ := h3
    refine ⟨assign (fun _ => none) (Spec.squeeze n) w, ?_, ?_, by simp [assign]⟩
    · rw [hone]
      simp only [runItems, ha, runAction]
      have := action_spin u stod ha hocc (spinOrbitOf (fun _ => none : Settings α)) (spinOrbitOf s1)
      have e2 : parseKind u stod (spinOrbitOf (fun _ => none : Settings α)) k v = .ok w := this.trans hw
      rw [e2]; rfl
    · rw [hd]; simp [assign]

/-- **C67.** Lines with an unknown name have no effect. -/
theorem C67_unknown (u : UnitTable α) (stod : Str → Outcome α) (before after : List Spec.Item) (n v cm : Str)
    (hwf : ∀ i ∈ before ++ .param n v cm :: after, i.WellFormed)
    (hun : Spec.squeeze n ∉ paramTable.map (·.1)) :
    setupFromInput u stod ((before ++ .param n v cm :: after).flatMap Spec.Item.lines)
      = setupFromInput u stod ((before ++ after).flatMap Spec.Item.lines) := by
  rw [setup_items u stod _ hwf, setup_items u stod (before ++ after) (by
    intro i hi; apply hwf; simp at hi ⊢; tauto), runItems_append, runItems_append]
  congr 1
  funext s
  have hl : paramTable.lookup (Spec.squeeze n) = none := by
    rw [List.lookup_eq_none_iff]
    intro p hp
    have : Spec.squeeze n ≠ p.1 := fun e => hun (e ▸ List.mem_map_of_mem hp)
    simpa using this
  have : runItems u stod (.param n v cm :: after) s
      = (runAction (itemAction u stod (.param n v cm)) s >>= runItems u stod after) := rfl
  rw [this]
  simp only [itemAction, hl, runAction]
  rfl

example : occupiedStates ["numOccupiedStates = 4".toList, "numOccupiedStates = 5 # not 4".toList,
    "somethingElse = 7".toList] = some 10 := by decide +kernel

/-- **C67 is violated by a comment with a semicolon**: lines are cut at semicolons before comments are removed, so the
rest of the comment is read as a line. -/
theorem C67_violated_semicolon :
    occupiedStates ["numOccupiedStates = 4".toList, "# was 2; numOccupiedStates = 3".toList] = some 6 ∧
    occupiedStates ["numOccupiedStates = 4".toList] = some 8 := by
  decide +kernel

/-- The names of the atomic species read from a file. -/
def speciesOf (file : List Str) : Option (List Str) :=
  match setupFromInput someUnits natReader file with
  | .ok c => match c "crystal".toList with
    | some (.crystal b) => some b.names
    | _ => none
  | _ => none

/-- **C67 is violated inside blocks**, where comments are not removed: a commented atom is added to the crystal, as a new
species, and a comment with the word `end` ends the block. -/
theorem C67_violated_block :
    speciesOf ["begin crystal".toList, "Si 0 0 0".toList, "#Ge 1 1 1".toList, "Si 2 2 2".toList, "end crystal".toList]
      = some ["Si".toList, "#Ge".toList] ∧
    speciesOf ["begin crystal".toList, "Si 0 0 0".toList, "#the end".toList, "Ge 2 2 2".toList, "end crystal".toList]
      = some ["Si".toList] ∧
    speciesOf ["begin crystal".toList, "Si 0 0 0".toList, "Ge 2 2 2".toList, "end crystal".toList]
      = some ["Si".toList, "Ge".toList] := by
  decide +kernel

/-! ## C68 -/

/-- The units the input file can use, and the value of the atomic unit in each of them. -/
inductive IsUnit (u : UnitTable α) : Str → α → Prop where
  | eV : IsUnit u "eV".toList u.ryToEv
  | cmm1 : IsUnit u "cmm1".toList u.ryToCmm1
  | ps : IsUnit u "ps".toList u.auToPs
  | fs : IsUnit u "fs".toList u.auToFs
  | mum : IsUnit u "mum".toList u.bohrToMum
  | ang : IsUnit u "ang".toList u.bohrToAng
  | Bohr : IsUnit u "Bohr".toList 1
  | bohr : IsUnit u "bohr".toList 1
  | none : IsUnit u [] 1

/-- The text of a number: digits, sign, point, exponent and white space. -/
def NumberText (s : Str) : Prop := ∀ c ∈ s, c.isDigit = true ∨ c ∈ ['.', '+', '-', 'e', 'E', ' ', '\t']

omit [LinearOrder α] in
/-- **C68.** A number followed by one of the units of the documentation is divided by the factor of that unit.  Missing:
other unit names are neither refused nor recognised as different. -/
theorem C68_units_partial (u : UnitTable α) (stod : Str → Outcome α) (num unit pad : Str) (f x : α) (hu : IsUnit u unit f)
    (hn : NumberText num) (hp : NumberText pad) (hx : stod (num ++ unit ++ pad) = .ok x) :
    parseDoubleWithUnits u stod (num ++ unit ++ pad) = .ok (x / f) := by
  have key : ∀ c : Char, c.isDigit = false → c ∉ ['.', '+', '-', 'e', 'E', ' ', '\t'] → c ∉ unit →
      c ∉ num ++ unit ++ pad := by
    intro c h1 h2 h3 hm
    rcases List.mem_append.mp hm with hm | hm
    · rcases List.mem_append.mp hm with hm | hm
      · rcases hn c hm with h | h
        · rw [h1] at h; exact absurd h (by simp)
        · exact h2 h
      · exact h3 hm
    · rcases hp c hm with h | h
      · rw [h1] at h; exact absurd h (by simp)
      · exact h2 h
  have no : ∀ (p : Str) (c : Char), c ∈ p → c.isDigit = false → c ∉ ['.', '+', '-', 'e', 'E', ' ', '\t'] → c ∉ unit →
      patternInString (num ++ unit ++ pad) p = false := fun p c h1 h2 h3 h4 =>
    (patternInString_false _ _).mpr (not_infix_of_mem h1 (key c h2 h3 h4))
  have yes : patternInString (num ++ unit ++ pad) unit = true :=
    (patternInString_iff _ _).mpr ⟨num, pad, rfl⟩
  have heq : '=' ∉ num ++ unit ++ pad := key '=' (by decide) (by decide) (by cases hu <;> decide)
  unfold parseDoubleWithUnits
  rw [afterEq_of_not_mem heq, hx]
  simp only [Outcome.bind_eq, Outcome.bind_ok]
  cases hu with
  | eV =>
    rw [yes, no "cmm1".toList 'c' (by decide) (by decide) (by decide) (by decide),
      no "ps".toList 'p' (by decide) (by decide) (by decide) (by decide),
      no "fs".toList 'f' (by decide) (by decide) (by decide) (by decide),
      no "mum".toList 'u' (by decide) (by decide) (by decide) (by decide),
      no "ang".toList 'g' (by decide) (by decide) (by decide) (by decide),
      no "Bohr".toList 'B' (by decide) (by decide) (by decide) (by decide),
      no "bohr".toList 'b' (by decide) (by decide) (by decide) (by decide)]
    rfl
  | cmm1 =>
    rw [yes, no "eV".toList 'V' (by decide) (by decide) (by decide) (by decide),
      no "ps".toList 'p' (by decide) (by decide) (by decide) (by decide),
      no "fs".toList 'f' (by decide) (by decide) (by decide) (by decide),
      no "mum".toList 'u' (by decide) (by decide) (by decide) (by decide),
      no "ang".toList 'g' (by decide) (by decide) (by decide) (by decide),
      no "Bohr".toList 'B' (by decide) (by decide) (by decide) (by decide),
      no "bohr".toList 'b' (by decide) (by decide) (by decide) (by decide)]
    rfl
  | ps =>
    rw [yes, no "eV".toList 'V' (by decide) (by decide) (by decide) (by decide),
      no "cmm1".toList 'c' (by decide) (by decide) (by decide) (by decide),
      no "fs".toList 'f' (by decide) (by decide) (by decide) (by decide),
      no "mum".toList 'u' (by decide) (by decide) (by decide) (by decide),
      no "ang".toList 'g' (by decide) (by decide) (by decide) (by decide),
      no "Bohr".toList 'B' (by decide) (by decide) (by decide) (by decide),
      no "bohr".toList 'b' (by decide) (by decide) (by decide) (by decide)]
    rfl
  | fs =>
    rw [yes, no "eV".toList 'V' (by decide) (by decide) (by decide) (by decide),
      no "cmm1".toList 'c' (by decide) (by decide) (by decide) (by decide),
      no "ps".toList 'p' (by decide) (by decide) (by decide) (by decide),
      no "mum".toList 'u' (by decide) (by decide) (by decide) (by decide),
      no "ang".toList 'g' (by decide) (by decide) (by decide) (by decide),
      no "Bohr".toList 'B' (by decide) (by decide) (by decide) (by decide),
      no "bohr".toList 'b' (by decide) (by decide) (by decide) (by decide)]
    rfl
  | mum =>
    rw [yes, no "eV".toList 'V' (by decide) (by decide) (by decide) (by decide),
      no "cmm1".toList 'c' (by decide) (by decide) (by decide) (by decide),
      no "ps".toList 'p' (by decide) (by decide) (by decide) (by decide),
      no "fs".toList 'f' (by decide) (by decide) (by decide) (by decide),
      no "ang".toList 'g' (by decide) (by decide) (by decide) (by decide),
      no "Bohr".toList 'B' (by decide) (by decide) (by decide) (by decide),
      no "bohr".toList 'b' (by decide) (by decide) (by decide) (by decide)]
    rfl
  | ang =>
    rw [yes, no "eV".toList 'V' (by decide) (by decide) (by decide) (by decide),
      no "cmm1".toList 'c' (by decide) (by decide) (by decide) (by decide),
      no "ps".toList 'p' (by decide) (by decide) (by decide) (by decide),
      no "fs".toList 'f' (by decide) (by decide) (by decide) (by decide),
      no "mum".toList 'u' (by decide) (by decide) (by decide) (by decide),
      no "Bohr".toList 'B' (by decide) (by decide) (by decide) (by decide),
      no "bohr".toList 'b' (by decide) (by decide) (by decide) (by decide)]
    rfl
  | Bohr =>
    rw [yes, no "eV".toList 'V' (by decide) (by decide) (by decide) (by decide),
      no "cmm1".toList 'c' (by decide) (by decide) (by decide) (by decide),
      no "ps".toList 'p' (by decide) (by decide) (by decide) (by decide),
      no "fs".toList 'f' (by decide) (by decide) (by decide) (by decide),
      no "mum".toList 'u' (by decide) (by decide) (by decide) (by decide),
      no "ang".toList 'g' (by decide) (by decide) (by decide) (by decide)]
    rfl
  | bohr =>
    rw [yes, no "eV".toList 'V' (by decide) (by decide) (by decide) (by decide),
      no "cmm1".toList 'c' (by decide) (by decide) (by decide) (by decide),
      no "ps".toList 'p' (by decide) (by decide) (by decide) (by decide),
      no "fs".toList 'f' (by decide) (by decide) (by decide) (by decide),
      no "mum".toList 'u' (by decide) (by decide) (by decide) (by decide),
      no "ang".toList 'g' (by decide) (by decide) (by decide) (by decide)]
    simp
  | none =>
    rw [no "eV".toList 'V' (by decide) (by decide) (by decide) (by decide),
      no "cmm1".toList 'c' (by decide) (by decide) (by decide) (by decide),
      no "ps".toList 'p' (by decide) (by decide) (by decide) (by decide),
      no "fs".toList 'f' (by decide) (by decide) (by decide) (by decide),
      no "mum".toList 'u' (by decide) (by decide) (by decide) (by decide),
      no "ang".toList 'g' (by decide) (by decide) (by decide) (by decide),
      no "Bohr".toList 'B' (by decide) (by decide) (by decide) (by decide),
      no "bohr".toList 'b' (by decide) (by decide) (by decide) (by decide)]
    simp

/-- A number reader for the examples: the digits before the first other character. -/
def digitReader (s : Str) : Outcome ℚ := .ok (digitsVal ((s.dropWhile (· = ' ')).takeWhile Char.isDigit))

example : NumberText " 10 ".toList ∧ parseDoubleWithUnits someUnits digitReader (" 10 ".toList ++ "cmm1".toList ++ [])
    = .ok (10 / 3) := by
  have h : NumberText " 10 ".toList := by intro c hc; revert c; decide
  refine ⟨h, C68_units_partial someUnits digitReader " 10 ".toList "cmm1".toList [] 3 10 .cmm1 h ?_ ?_⟩
  · intro c hc; simp at hc
  · have : (digitsVal ((" 10 ".toList ++ "cmm1".toList ++ []).dropWhile (· = ' ') |>.takeWhile Char.isDigit)) = 10 := by
      decide
    simp only [digitReader, this]; rfl

/-- **C68 is violated by units that are not in the list**: a value in meV is read as a value in eV, and a value in THz is
read as a value in Rydberg, without an error. -/
theorem C68_violated_other_units :
    parseDoubleWithUnits someUnits digitReader "10 meV".toList = parseDoubleWithUnits someUnits digitReader "10 eV".toList ∧
    parseDoubleWithUnits someUnits digitReader "10 THz".toList = parseDoubleWithUnits someUnits digitReader "10".toList := by
  have e1 : (parseDoubleWithUnits someUnits digitReader "10 meV".toList).toOption = some 5 := by decide +kernel
  have e2 : (parseDoubleWithUnits someUnits digitReader "10 eV".toList).toOption = some 5 := by decide +kernel
  have e3 : (parseDoubleWithUnits someUnits digitReader "10 THz".toList).toOption = some 10 := by decide +kernel
  have e4 : (parseDoubleWithUnits someUnits digitReader "10".toList).toOption = some 10 := by decide +kernel
  have ok : ∀ {o : Outcome ℚ} {x}, o.toOption = some x → o = .ok x := by
    intro o x h; cases o <;> simp_all [Outcome.toOption]
  rw [ok e1, ok e2, ok e3, ok e4]
  exact ⟨rfl, rfl⟩

/-! ## C79 -/

omit [LinearOrder α] in
/-- **C79.** Reading a crystal block whose lines are the atoms (name and three coordinates, in Angstrom): the positions are
those of the atoms in Bohr, in the same order; the species names are distinct, each is the name of some atom, and the
species index of each atom points to its name. -/
theorem C79_crystal (u : UnitTable α) (stod : Str → Outcome α) (atoms : List (Str × Str × (α × α × α)))
    (h : ∀ a ∈ atoms, ∃ tx ty tz extra, Spec.Words a.1 (a.2.1 :: tx :: ty :: tz :: extra) ∧
      stod tx = .ok a.2.2.1 ∧ stod ty = .ok a.2.2.2.1 ∧ stod tz = .ok a.2.2.2.2) :
    ∃ b, parseCrystal u stod (atoms.map (·.1)) = .ok b ∧
      b.positions = atoms.map (fun a => (a.2.2.1 / u.bohrToAng, a.2.2.2.1 / u.bohrToAng, a.2.2.2.2 / u.bohrToAng)) ∧
      b.names.Nodup ∧ (∀ n, n ∈ b.names ↔ n ∈ atoms.map (·.2.1)) ∧
      b.species.map (fun k => b.names[k]?) = atoms.map (fun a => some a.2.1) := by
  obtain ⟨sp, names, e, n1, _, n3, n4⟩ := crystalLines_val stod atoms h ⟨[], [], []⟩ (by simp)
  refine ⟨_, by simp only [parseCrystal, e, Outcome.bind_eq, Outcome.bind_ok]; rfl, ?_, n1, ?_, ?_⟩
  · simp [List.map_map]
  · intro n
    constructor
    · intro hn
      rcases n4 n hn with h' | h'
      · simp at h'
      · exact h'
    · intro hn
      obtain ⟨a, ha, rfl⟩ := List.mem_map.mp hn
      have : some a.2.1 ∈ sp.map (fun k => names[k]?) := by rw [n3]; exact List.mem_map.mpr ⟨a, ha, rfl⟩
      obtain ⟨k, _, hk⟩ := List.mem_map.mp this
      exact List.mem_of_getElem? hk
  · simpa using n3

example : Spec.Words "  Si 0  1 2".toList ["Si".toList, "0".toList, "1".toList, "2".toList] := by
  refine .space _ _ _ (by decide) (.space _ _ _ (by decide) ?_)
  refine .word "Si".toList " 0  1 2".toList _ (by decide) (by decide) (by decide) (.space _ _ _ (by decide) ?_)
  refine .word "0".toList "  1 2".toList _ (by decide) (by decide) (by decide)
    (.space _ _ _ (by decide) (.space _ _ _ (by decide) ?_))
  refine .word "1".toList " 2".toList _ (by decide) (by decide) (by decide) (.space _ _ _ (by decide) ?_)
  exact .word "2".toList [] _ (by decide) (by decide) (by decide) .nil

omit [LinearOrder α] in
/-- **C79 is violated by short lines**: a line of the crystal block with fewer than four words (for instance a line with
only a space) makes the program read past the end of the list of words. -/
theorem C79_violated_short_line (u : UnitTable α) (stod : Str → Outcome α) (rest : List Str) :
    parseCrystal u stod (" ".toList :: rest) = .ub := by
  have : words " ".toList = [] := by decide
  simp only [parseCrystal, crystalLines, crystalLine, this, wordAt]
  rfl

/-! ## C80 -/

omit [LinearOrder α] [Field α] in
/-- **C80.** Reading a path block: each line gives one segment, with the labels and the coordinates of its two ends, in
the order of the lines. -/
theorem C80_path (stod : Str → Outcome α) (segments : List (Str × PathSegment α))
    (h : ∀ s ∈ segments, ∃ x1 y1 z1 x2 y2 z2 extra,
      Spec.Words s.1 (s.2.label1 :: x1 :: y1 :: z1 :: s.2.label2 :: x2 :: y2 :: z2 :: extra) ∧
      (stod x1 = .ok s.2.end1.1 ∧ stod y1 = .ok s.2.end1.2.1 ∧ stod z1 = .ok s.2.end1.2.2) ∧
      (stod x2 = .ok s.2.end2.1 ∧ stod y2 = .ok s.2.end2.2.1 ∧ stod z2 = .ok s.2.end2.2.2)) :
    parsePathExtrema stod (segments.map (·.1)) = .ok (segments.map (·.2)) := by
  unfold parsePathExtrema
  induction segments with
  | nil => rfl
  | cons s t ih =>
    obtain ⟨x1, y1, z1, x2, y2, z2, extra, hw, ⟨a1, a2, a3⟩, b1, b2, b3⟩ := h s (by simp)
    have hs : pathLine stod s.1 = .ok s.2 := by
      unfold pathLine
      rw [words_of_spec hw]
      simp [wordAt, Outcome.bind_eq, Outcome.bind_ok, a1, a2, a3, b1, b2, b3]
    simp only [List.map_cons, mapOutcome, hs, ih fun x hx => h x (by simp [hx]), Outcome.bind_eq, Outcome.bind_ok]

example : (parsePathExtrema natReader ["L 1 2 3 G 0 0 0".toList]).toOption.map (·.map fun s => (s.label1, s.end1, s.label2))
    = some [("L".toList, (1, 2, 3), "G".toList)] := by decide +kernel

/-! ## C81 -/

/-- **C81.** Text between single quotes is read back, whatever it contains. -/
theorem C81_single_quotes (pre s post : Str) (h1 : '\'' ∉ pre) (h2 : '\'' ∉ post) :
    parseString (pre ++ '\'' :: (s ++ '\'' :: post)) = .ok s := by
  have hl : findLast '\'' (pre ++ '\'' :: (s ++ '\'' :: post)) = some (pre.length + 1 + s.length) := by
    have := findLast_append (c := '\'') (s := pre ++ '\'' :: s) h2
    simp only [List.append_assoc, List.cons_append, List.length_append, List.length_cons] at this
    rw [this]; congr 1; omega
  unfold parseString
  rw [findFirst_append h1, hl]
  have hne : ¬ (pre.length = pre.length + 1 + s.length) := by omega
  simp only [if_neg hne]
  congr 1
  have e : (pre ++ '\'' :: (s ++ '\'' :: post)) = (pre ++ ['\'']) ++ (s ++ '\'' :: post) := by simp
  rw [e, List.drop_left' (by simp)]
  have : pre.length + 1 + s.length - pre.length - 1 = s.length := by omega
  rw [this, List.take_left']; rfl

/-- **C81.** Text between double quotes is read back, when there is no single quote on the line. -/
theorem C81_double_quotes_partial (pre s post : Str) (h1 : '"' ∉ pre) (h2 : '"' ∉ post) (h3 : '\'' ∉ pre ++ s ++ post) :
    parseString (pre ++ '"' :: (s ++ '"' :: post)) = .ok s := by
  have hl : findLast '"' (pre ++ '"' :: (s ++ '"' :: post)) = some (pre.length + 1 + s.length) := by
    have := findLast_append (c := '"') (s := pre ++ '"' :: s) h2
    simp only [List.append_assoc, List.cons_append, List.length_append, List.length_cons] at this
    rw [this]; congr 1; omega
  have hq : findFirst '\'' (pre ++ '"' :: (s ++ '"' :: post)) = none := by
    apply findFirst_none
    simp only [List.mem_append, not_or] at h3
    simp [h3.1.1, h3.1.2, h3.2]
  unfold parseString
  rw [hq, findFirst_append h1, hl]
  have hne : ¬ (pre.length = pre.length + 1 + s.length) := by omega
  simp only [if_neg hne]
  congr 1
  have e : (pre ++ '"' :: (s ++ '"' :: post)) = (pre ++ ['"']) ++ (s ++ '"' :: post) := by simp
  rw [e, List.drop_left' (by simp)]
  have : pre.length + 1 + s.length - pre.length - 1 = s.length := by omega
  rw [this, List.take_left']; rfl

/-- **C81 is violated by a single quote inside double quotes**: one such quote stops the program, and with two only the
text between them is kept. -/
theorem C81_violated_apostrophe :
    parseString "\"it's.fc\"".toList = .error ∧ parseString "\"a'b'c\"".toList = .ok "b".toList := by
  decide +kernel

/-- **C81.** A list of strings between double quotes is read back, when the strings do not contain spaces, commas or
double quotes; spaces may separate the elements. -/
theorem C81_string_list (strings : List Str) (hne : strings ≠ [])
    (h : ∀ s ∈ strings, ' ' ∉ s ∧ ',' ∉ s ∧ '"' ∉ s) (pre post : Str) (h1 : '[' ∉ pre) (h2 : ']' ∉ post) :
    parseStringList (pre ++ '[' :: (Spec.commaList (strings.map fun s => ' ' :: '"' :: (s ++ ['"'])) ++ ']' :: post))
      = .ok strings := by
  have hfl : ∀ ts : List Str, (Spec.commaList ts).filter (fun c => c ≠ ' ')
      = Spec.commaList (ts.map fun t => t.filter fun c => c ≠ ' ') := by
    intro ts
    induction ts with
    | nil => rfl
    | cons t r ih =>
      cases r with
      | nil => simp [Spec.commaList]
      | cons t' r' =>
        simp only [Spec.commaList, List.map_cons, List.filter_append, List.filter_cons] at ih ⊢
        rw [ih]; simp
  unfold parseStringList
  have e : (pre ++ '[' :: (Spec.commaList (strings.map fun s => ' ' :: '"' :: (s ++ ['"'])) ++ ']' :: post)).filter
      (fun c => c ≠ ' ')
      = pre.filter (fun c => c ≠ ' ') ++ '[' :: (Spec.commaList (strings.map fun s => '"' :: (s ++ ['"'])) ++
        ']' :: post.filter (fun c => c ≠ ' ')) := by
    simp only [List.filter_append, List.filter_cons, hfl, List.map_map]
    have : strings.map ((fun t => t.filter fun c => decide (c ≠ ' ')) ∘ fun s => ' ' :: '"' :: (s ++ ['"']))
        = strings.map fun s => '"' :: (s ++ ['"']) := by
      apply List.map_congr_left
      intro s hs
      have : s.filter (fun c => decide (c ≠ ' ')) = s := by
        rw [List.filter_eq_self]
        intro c hc
        have : c ≠ ' ' := fun e => (h s hs).1 (e ▸ hc)
        simpa using this
      simp only [Function.comp, List.filter_cons, List.filter_append, this]
      simp
    rw [this]
    simp
  rw [e, brackets_ok (fun hm => h1 (List.mem_filter.mp hm).1) (fun hm => h2 (List.mem_filter.mp hm).1)]
  simp only [Outcome.bind_eq, Outcome.bind_ok]
  rw [splitCommas_commaList (by simpa using hne)]
  · congr 1
    rw [List.map_map]
    conv_rhs => rw [← List.map_id strings]
    apply List.map_congr_left
    intro s hs
    have : s.filter (fun c => decide (c ≠ '"')) = s := by
      rw [List.filter_eq_self]
      intro c hc
      have : c ≠ '"' := fun e => (h s hs).2.2 (e ▸ hc)
      simpa using this
    simp only [Function.comp, List.filter_cons, List.filter_append, this]
    simp
  · intro t ht
    obtain ⟨s, hs, rfl⟩ := List.mem_map.mp ht
    simp [(h s hs).2.1]

example : parseStringList " [ \"iterative\", \"relaxons\"]".toList = .ok ["iterative".toList, "relaxons".toList] := by
  decide +kernel

end Verif.Props
