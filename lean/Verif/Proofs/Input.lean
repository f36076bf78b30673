import Verif.Model.Input
import Verif.Spec.Input
import Verif.Proofs.IrrPoints
import Verif.Proofs.Bands
import Mathlib.Tactic.NormNum
import Mathlib.Tactic.Push

/-! Lemmas about the input file (see `Verif.Model.Input`). -/
namespace Verif.Model

theorem isSpaceC_iff (c : Char) : isSpaceC c = true ↔ c ∈ Spec.whiteSpace := by
  simp [isSpaceC, Spec.whiteSpace]

/-! ## Searching -/

theorem findFirst_append {c : Char} {pre t : Str} (h : c ∉ pre) :
    findFirst c (pre ++ c :: t) = some pre.length := by
  induction pre with
  | nil => simp [findFirst]
  | cons d r ih =>
    have h1 : d ≠ c := fun e => h (by simp [e])
    have h2 : c ∉ r := fun e => h (by simp [e])
    simp [findFirst, h1, ih h2]

theorem findFirst_none {c : Char} {s : Str} (h : c ∉ s) : findFirst c s = none := by
  induction s with
  | nil => rfl
  | cons d r ih =>
    have h1 : d ≠ c := fun e => h (by simp [e])
    have h2 : c ∉ r := fun e => h (by simp [e])
    simp [findFirst, h1, ih h2]

theorem findLast_none {c : Char} {s : Str} (h : c ∉ s) : findLast c s = none := by
  induction s with
  | nil => rfl
  | cons d r ih =>
    have h1 : d ≠ c := fun e => h (by simp [e])
    have h2 : c ∉ r := fun e => h (by simp [e])
    simp [findLast, h1, ih h2]

theorem findLast_append {c : Char} {s post : Str} (h : c ∉ post) :
    findLast c (s ++ c :: post) = some s.length := by
  induction s with
  | nil => simp [findLast, findLast_none h]
  | cons d r ih => simp [findLast, ih]

theorem afterEq_of_not_mem {s : Str} (h : '=' ∉ s) : afterEq s = s := by simp [afterEq, findFirst_none h]

theorem findSub_isSome (p s : Str) : (findSub p s).isSome = true ↔ p <:+: s := by
  induction s with
  | nil =>
    by_cases hp : p = []
    · simp [findSub, hp]
    · simp [findSub, hp]
  | cons c t ih =>
    unfold findSub
    by_cases h : p.isPrefixOf (c :: t) = true
    · simp only [h, if_true, Option.isSome_some, true_iff]
      exact (List.isPrefixOf_iff_prefix.mp h).isInfix
    · have h' : ¬ p <+: c :: t := fun e => h (List.isPrefixOf_iff_prefix.mpr e)
      simp only [h, Bool.false_eq_true, if_false, Option.isSome_map]
      rw [ih, List.infix_cons_iff]
      simp [h']

theorem patternInString_iff (s p : Str) : patternInString s p = true ↔ p <:+: s := findSub_isSome p s

theorem patternInString_false (s p : Str) : patternInString s p = false ↔ ¬ p <:+: s := by
  rw [← patternInString_iff]; simp

theorem not_infix_of_mem {p s : Str} {c : Char} (hp : c ∈ p) (hs : c ∉ s) : ¬ p <:+: s :=
  fun h => hs (h.subset hp)

/-! ## Lists -/

theorem splitCommas_ne_nil (s : Str) : splitCommas s ≠ [] := by
  cases s with
  | nil => simp [splitCommas]
  | cons c t =>
    unfold splitCommas
    split
    · simp
    · split <;> simp

theorem splitCommas_append {t r : Str} (h : ',' ∉ t) : splitCommas (t ++ ',' :: r) = t :: splitCommas r := by
  induction t with
  | nil => simp [splitCommas]
  | cons c t ih =>
    have h1 : c ≠ ',' := fun e => h (by simp [e])
    have h2 : ',' ∉ t := fun e => h (by simp [e])
    simp [splitCommas, h1, ih h2]

theorem splitCommas_single {t : Str} (h : ',' ∉ t) : splitCommas t = [t] := by
  induction t with
  | nil => simp [splitCommas]
  | cons c t ih =>
    have h1 : c ≠ ',' := fun e => h (by simp [e])
    have h2 : ',' ∉ t := fun e => h (by simp [e])
    simp [splitCommas, h1, ih h2]

theorem splitCommas_commaList {ts : List Str} (hne : ts ≠ []) (h : ∀ t ∈ ts, ',' ∉ t) :
    splitCommas (Spec.commaList ts) = ts := by
  induction ts with
  | nil => exact absurd rfl hne
  | cons t r ih =>
    cases r with
    | nil => simpa [Spec.commaList] using splitCommas_single (h t (by simp))
    | cons t' r' =>
      rw [Spec.commaList, splitCommas_append (h t (by simp)), ih (by simp) (fun x hx => h x (by simp_all))]
      simp

theorem brackets_ok {pre body post : Str} (h1 : '[' ∉ pre) (h2 : ']' ∉ post) :
    brackets (pre ++ '[' :: (body ++ ']' :: post)) = .ok body := by
  have hl : findLast ']' (pre ++ '[' :: (body ++ ']' :: post)) = some (pre ++ '[' :: body).length := by
    have := findLast_append (c := ']') (s := pre ++ '[' :: body) h2
    simpa using this
  unfold brackets
  rw [findFirst_append h1, hl]
  have hle : pre.length + 1 ≤ (pre ++ '[' :: body).length := by simp
  simp only [hle, if_true]
  congr 1
  have e : (pre ++ '[' :: (body ++ ']' :: post)) = (pre ++ ['[']) ++ (body ++ ']' :: post) := by simp
  rw [e, List.drop_left' (by simp)]
  have : (pre ++ '[' :: body).length - pre.length - 1 = body.length := by simp
  rw [this, List.take_left']
  rfl

/-! ## Integers -/

theorem digitsVal_toDigits (n : Nat) : digitsVal (Nat.toDigits 10 n) = n := by
  have := Nat.ofDigitChars_toDigits (b := 10) (n := n) (by omega) (by omega)
  unfold Nat.ofDigitChars at this
  unfold digitsVal
  have e : (fun (n : Nat) (c : Char) => n * 10 + (c.toNat - '0'.toNat))
      = (fun sofar c => 10 * sofar + (c.toNat - '0'.toNat)) := by
    funext a c; rw [Nat.mul_comm]
  rw [e]; exact this

theorem toDigits_isDigit {n : Nat} {c : Char} (h : c ∈ Nat.toDigits 10 n) : c.isDigit = true :=
  Nat.isDigit_of_mem_toDigits (by omega) (by omega) h

theorem isDigit_not_space {c : Char} (h : c.isDigit = true) : isSpaceC c = false ∧ c ≠ '-' ∧ c ≠ '+' ∧ c ≠ ',' := by
  refine ⟨?_, ?_, ?_, ?_⟩
  · rw [← Bool.not_eq_true]
    intro hs
    rw [isSpaceC_iff] at hs
    simp only [Spec.whiteSpace, List.mem_cons, List.not_mem_nil, or_false] at hs
    rcases hs with rfl | rfl | rfl | rfl | rfl | rfl <;> exact absurd h (by decide)
  all_goals (rintro rfl; exact absurd h (by decide))

theorem space_not_digit {c : Char} (h : c ∈ Spec.whiteSpace) : c.isDigit = false := by
  simp only [Spec.whiteSpace, List.mem_cons, List.not_mem_nil, or_false] at h
  rcases h with rfl | rfl | rfl | rfl | rfl | rfl <;> decide

theorem dropWhile_space {b r : Str} (hb : ∀ c ∈ b, c ∈ Spec.whiteSpace) :
    (b ++ r).dropWhile isSpaceC = r.dropWhile isSpaceC := by
  induction b with
  | nil => rfl
  | cons c b ih =>
    have : isSpaceC c = true := (isSpaceC_iff c).mpr (hb c (by simp))
    rw [List.cons_append, List.dropWhile_cons_of_pos this, ih fun d hd => hb d (by simp [hd])]

theorem takeWhile_digits {n : Nat} {a : Str} (ha : ∀ c ∈ a, c ∈ Spec.whiteSpace) :
    (Nat.toDigits 10 n ++ a).takeWhile Char.isDigit = Nat.toDigits 10 n := by
  rw [List.takeWhile_append_of_pos fun c hc => toDigits_isDigit hc]
  cases a with
  | nil => simp
  | cons c r =>
    have : ¬ c.isDigit = true := by rw [space_not_digit (ha c (by simp))]; simp
    rw [List.takeWhile_cons_of_neg this]; simp

theorem stoi_decimal {z : Int} (hz : intMin ≤ z ∧ z ≤ intMax) {b a : Str} (hb : ∀ c ∈ b, c ∈ Spec.whiteSpace)
    (ha : ∀ c ∈ a, c ∈ Spec.whiteSpace) : stoi (b ++ (Spec.decimal z ++ a)) = .ok z := by
  have hne := Nat.toDigits_ne_nil (b := 10) (n := z.natAbs)
  unfold stoi
  rw [dropWhile_space hb]
  have hr : ¬ (z < intMin ∨ intMax < z) := by omega
  by_cases hneg : z < 0
  · have hd : Spec.decimal z = '-' :: Nat.toDigits 10 z.natAbs := by simp [Spec.decimal, hneg]
    rw [hd]
    have hw : ('-' :: Nat.toDigits 10 z.natAbs ++ a).dropWhile isSpaceC = '-' :: Nat.toDigits 10 z.natAbs ++ a := by
      rw [List.cons_append, List.dropWhile_cons_of_neg (by decide)]
    rw [hw]
    have hv : -(z.natAbs : Int) = z := by omega
    simp only [List.cons_append, List.head?_cons, List.tail_cons, true_or, if_true, decide_true,
      takeWhile_digits ha, hne, if_false, digitsVal_toDigits, hv, if_neg hr]
  · have hd : Spec.decimal z = Nat.toDigits 10 z.natAbs := by simp [Spec.decimal, hneg]
    rw [hd]
    obtain ⟨d, r, hdr⟩ := List.exists_cons_of_ne_nil hne
    have hdig : d.isDigit = true := toDigits_isDigit (n := z.natAbs) (by rw [hdr]; simp)
    obtain ⟨h1, h2, h3, _⟩ := isDigit_not_space hdig
    have hw : (Nat.toDigits 10 z.natAbs ++ a).dropWhile isSpaceC = Nat.toDigits 10 z.natAbs ++ a := by
      rw [hdr, List.cons_append, List.dropWhile_cons_of_neg (by simp [h1])]
    have hh : (Nat.toDigits 10 z.natAbs ++ a).head? = some d := by rw [hdr]; rfl
    rw [hw]
    have hv : (z.natAbs : Int) = z := by omega
    have e2 : ¬ (some d = some '-') := by simp [h2]
    have e3 : ¬ (some d = some '+') := by simp [h3]
    simp only [hh, e2, e3, or_self, decide_false, Bool.false_eq_true, if_false, takeWhile_digits ha, hne,
      digitsVal_toDigits, hv, if_neg hr]

theorem decimal_no_comma {z : Int} {b a : Str} (hb : ∀ c ∈ b, c ∈ Spec.whiteSpace)
    (ha : ∀ c ∈ a, c ∈ Spec.whiteSpace) : ',' ∉ b ++ (Spec.decimal z ++ a) := by
  have hsp : ',' ∉ Spec.whiteSpace := by decide
  have hdg : ',' ∉ Nat.toDigits 10 z.natAbs := fun h => (isDigit_not_space (toDigits_isDigit h)).2.2.2 rfl
  simp only [List.mem_append, not_or]
  refine ⟨fun h => hsp (hb _ h), ?_, fun h => hsp (ha _ h)⟩
  unfold Spec.decimal
  split
  · simp [hdg]
  · exact hdg

theorem mapOutcome_eq_map {β γ : Type} (f : β → Outcome γ) (g : β → γ) (l : List β) (h : ∀ x ∈ l, f x = .ok (g x)) :
    mapOutcome f l = .ok (l.map g) := by
  induction l with
  | nil => rfl
  | cons x t ih =>
    simp only [mapOutcome, h x (by simp), ih fun y hy => h y (by simp [hy]), Outcome.bind_eq, Outcome.bind_ok,
      List.map_cons]

/-! ## Words -/

theorem wordsAux_word (w rest cur : Str) (hw : ∀ c ∈ w, c ∉ Spec.whiteSpace) :
    wordsAux (w ++ rest) cur = wordsAux rest (cur ++ w) := by
  induction w generalizing cur with
  | nil => simp
  | cons c w ih =>
    have : ¬ isSpaceC c = true := fun h => hw c (by simp) ((isSpaceC_iff c).mp h)
    rw [List.cons_append, wordsAux, if_neg this, ih _ fun d hd => hw d (by simp [hd])]
    simp

theorem words_of_spec {s : Str} {ws : List Str} (h : Spec.Words s ws) : words s = ws := by
  induction h with
  | nil => rfl
  | space c s ws hc _ ih =>
    have : isSpaceC c = true := (isSpaceC_iff c).mpr hc
    rw [← ih]
    simp [words, wordsAux, this]
  | word w rest ws hne hw hrest _ ih =>
    rw [words, wordsAux_word w rest [] hw, List.nil_append, ← ih]
    cases rest with
    | nil => simp [wordsAux, words, hne]
    | cons c t =>
      have : isSpaceC c = true := (isSpaceC_iff c).mpr (hrest c rfl)
      simp [wordsAux, words, this, hne]

/-! ## The file -/

section
variable {α : Type} [Field α] [LinearOrder α]

theorem splitSemi_single {l : Str} (h : ';' ∉ l) : splitSemi l = [l] := by
  induction l with
  | nil => rfl
  | cons c t ih =>
    have h1 : c ≠ ';' := fun e => h (by simp [e])
    have h2 : ';' ∉ t := fun e => h (by simp [e])
    simp [splitSemi, h1, ih h2]

/-- The pieces of the lines of a file. -/
def pieces (file : List Str) : List Str := file.flatMap fun l => (splitSemi l).filter fun t => t ≠ []

theorem setupFromInput_eq (u : UnitTable α) (stod : Str → Outcome α) (file : List Str) :
    setupFromInput u stod file = processLines u stod (pieces file) (fun _ => none) := rfl

theorem pieces_append (a b : List Str) : pieces (a ++ b) = pieces a ++ pieces b := by simp [pieces]

/-- Removing empty lines changes nothing outside of blocks. -/
theorem pieces_no_semi {ls : List Str} (h : ∀ l ∈ ls, ';' ∉ l) : pieces ls = ls.filter fun t => t ≠ [] := by
  induction ls with
  | nil => rfl
  | cons l t ih =>
    have e : pieces (l :: t) = (splitSemi l).filter (fun t => t ≠ []) ++ pieces t := by simp [pieces]
    rw [e, splitSemi_single (h l (by simp)), ih fun x hx => h x (by simp [hx]), ← List.filter_append]
    rfl

theorem stripComment_append {s c : Str} (hs : '#' ∉ s) (hc : c = [] ∨ c.head? = some '#') :
    stripComment (s ++ c) = s := by
  unfold stripComment
  rw [List.takeWhile_append_of_pos]
  · rcases hc with rfl | hc
    · simp
    · cases c with
      | nil => simp
      | cons d t =>
        have : d = '#' := by simpa using hc
        subst this
        rw [List.takeWhile_cons_of_neg (by simp)]; simp
  · intro d hd
    have : d ≠ '#' := fun e => hs (e ▸ hd)
    simpa using this

theorem stripComment_self {s : Str} (hs : '#' ∉ s) : stripComment s = s := by
  simpa using stripComment_append hs (c := []) (Or.inl rfl)

theorem stripComment_prefix (s : Str) : stripComment s <+: s := List.takeWhile_prefix _

/-- What an item does: the setting it assigns, and the value, given `hasSpinOrbit`. -/
def itemAction (u : UnitTable α) (stod : Str → Outcome α) : Spec.Item → Option (Str × (Bool → Outcome (Val α)))
  | .param n v _ => match paramTable.lookup (Spec.squeeze n) with
    | none => none
    | some k => some (Spec.squeeze n, fun so => parseKind u stod so k v)
  | .block n content _ =>
    if n = "crystal".toList then
      some ("crystal".toList, fun _ => do let b ← parseCrystal u stod content; .ok (.crystal b))
    else if n = "point path".toList then
      some ("point path".toList, fun _ => do let b ← parsePathExtrema stod content; .ok (.path b))
    else none
  | .comment _ => none

/-- Effect of an action. -/
def runAction (a : Option (Str × (Bool → Outcome (Val α)))) (c : Settings α) : Outcome (Settings α) :=
  match a with
  | none => .ok c
  | some (n, f) => do
    let v ← f (spinOrbitOf c)
    .ok (assign c n v)

/-- Effect of items one after the other. -/
def runItems (u : UnitTable α) (stod : Str → Outcome α) : List Spec.Item → Settings α → Outcome (Settings α)
  | [], c => .ok c
  | i :: t, c => do
    let c' ← runAction (itemAction u stod i) c
    runItems u stod t c'

theorem squeeze_eq (s : Str) : s.filter (fun c => !isSpaceC c) = Spec.squeeze s := by
  unfold Spec.squeeze
  congr 1
  funext c
  by_cases h : isSpaceC c = true
  · simp [h, (isSpaceC_iff c).mp h]
  · have h2 : c ∉ Spec.whiteSpace := fun e => h ((isSpaceC_iff c).mpr e)
    simp [h, h2]

theorem parseParameter_val {n v : Str} (h1 : '=' ∉ n) (h2 : '(' ∉ n) :
    parseParameterNameValue (n ++ '=' :: v) = (Spec.squeeze n, v) := by
  unfold parseParameterNameValue
  simp only [findFirst_append h1, Option.getD_some, List.take_left']
  have hd : (n ++ '=' :: v).drop (n.length + 1) = v := by
    have e : n ++ '=' :: v = (n ++ ['=']) ++ v := by simp
    rw [e, List.drop_left' (by simp)]
  rw [hd, squeeze_eq]
  by_cases hv : '(' ∈ v
  · obtain ⟨p, r, rfl, hp⟩ := List.append_of_mem hv |>.elim fun a ⟨b, hab⟩ => (by
      obtain ⟨p, r, e, hp⟩ := List.eq_append_cons_of_mem hv
      exact ⟨p, r, e, hp⟩ : ∃ p r, v = p ++ '(' :: r ∧ '(' ∉ p)
    have hf : findFirst '(' (n ++ '=' :: (p ++ '(' :: r)) = some (n ++ '=' :: p).length := by
      have := findFirst_append (c := '(') (pre := n ++ '=' :: p) (t := r) (by simp [h2, hp])
      simpa using this
    rw [hf]
    have hlen : (Spec.squeeze n).length ≤ (n ++ '=' :: p).length := by
      have := List.length_filter_le (fun c => decide (c ∉ Spec.whiteSpace)) n
      unfold Spec.squeeze
      simp only [List.length_append, List.length_cons]
      omega
    simp only [List.take_of_length_le hlen]
    have hs : (Spec.squeeze n).filter (fun c => !isSpaceC c) = Spec.squeeze n := by
      rw [squeeze_eq]; unfold Spec.squeeze; simp
    rw [hs]; simp
  · have : findFirst '(' (n ++ '=' :: v) = none := findFirst_none (by simp [h2, hv])
    rw [this]

theorem process_param (u : UnitTable α) (stod : Str → Outcome α) {n v c : Str}
    (h : (Spec.Item.param n v c).WellFormed) (rest : List Str) (s : Settings α) :
    processLines u stod ((n ++ '=' :: (v ++ c)) :: rest) s
      = (runAction (itemAction u stod (.param n v c)) s >>= processLines u stod rest) := by
  obtain ⟨⟨h1, h2, _, h4⟩, ⟨h5, _⟩, h7, _⟩ := h
  have hs : stripComment (n ++ '=' :: (v ++ c)) = n ++ '=' :: v := by
    have := stripComment_append (s := n ++ '=' :: v) (c := c) (by simp [h2, h5]) h7
    simpa using this
  rw [processLines]
  simp only [hs]
  have hne : ¬ (n ++ '=' :: v = []) := by simp
  have heq : '=' ∈ n ++ '=' :: v := by simp
  rw [if_neg hne, if_pos heq]
  simp only [setParam, parseParameter_val h1 h4, itemAction]
  cases hl : paramTable.lookup (Spec.squeeze n) with
  | none => simp [runAction]
  | some k => simp [runAction]

/-- Lines without `=` and `begin` have no effect outside of blocks. -/
theorem process_inert (u : UnitTable α) (stod : Str → Outcome α) {l : Str} (h1 : '=' ∉ l)
    (h2 : ¬ "begin".toList <:+: l) (rest : List Str) (s : Settings α) :
    processLines u stod (l :: rest) s = processLines u stod rest s := by
  rw [processLines]
  have hp := stripComment_prefix l
  have h1' : '=' ∉ stripComment l := fun e => h1 (hp.subset e)
  have h2' : findSub "begin".toList (stripComment l) = none := by
    have : ¬ (findSub "begin".toList (stripComment l)).isSome = true := fun e =>
      h2 (((findSub_isSome _ _).mp e).trans hp.isInfix)
    simpa using this
  show (if stripComment l = [] then _ else if '=' ∈ stripComment l then _ else _) = _
  by_cases he : stripComment l = []
  · rw [if_pos he]
  · rw [if_neg he, if_neg h1']
    have : setBlock u stod (stripComment l) rest s = .ok s := by
      unfold setBlock parseBlockNameValue
      rw [h2']
      have n1 : ¬ (([] : Str) = "crystal".toList) := by decide
      have n2 : ¬ (([] : Str) = "point path".toList) := by decide
      simp only [Outcome.bind_eq, Outcome.bind_ok, if_neg n1, if_neg n2]
    rw [this]; rfl

theorem process_inerts (u : UnitTable α) (stod : Str → Outcome α) (ls : List Str)
    (h : ∀ l ∈ ls, '=' ∉ l ∧ ¬ "begin".toList <:+: l) (rest : List Str) (s : Settings α) :
    processLines u stod (ls ++ rest) s = processLines u stod rest s := by
  induction ls with
  | nil => rfl
  | cons l t ih =>
    rw [List.cons_append, process_inert u stod (h l (by simp)).1 (h l (by simp)).2, ih fun x hx => h x (by simp [hx])]

theorem findSub_prefix (p r : Str) : findSub p (p ++ r) = some 0 := by
  cases h : p ++ r with
  | nil =>
    have : p = [] := by cases p <;> simp_all
    simp [findSub, this]
  | cons c t =>
    unfold findSub
    have : p.isPrefixOf (c :: t) = true := List.isPrefixOf_iff_prefix.mpr (h ▸ List.prefix_append p r)
    simp [this]

theorem process_block (u : UnitTable α) (stod : Str → Outcome α) {n last : Str} {content : List Str}
    (h : (Spec.Item.block n content last).WellFormed) (rest : List Str) (s : Settings α) :
    processLines u stod (("begin ".toList ++ n) :: (content ++ [last]) ++ rest) s
      = (runAction (itemAction u stod (.block n content last)) s >>= processLines u stod rest) := by
  obtain ⟨⟨_, h1, h2, _⟩, h3, h4, _, h6, h7⟩ := h
  have hs : stripComment ("begin ".toList ++ n) = "begin ".toList ++ n :=
    stripComment_self (by simp only [List.mem_append, not_or]; exact ⟨by decide, h2⟩)
  rw [List.cons_append, processLines]
  simp only [hs]
  have hne : ¬ ("begin ".toList ++ n = []) := by simp
  have heq : '=' ∉ "begin ".toList ++ n := by simp only [List.mem_append, not_or]; exact ⟨by decide, h1⟩
  rw [if_neg hne, if_neg heq]
  have hf : findSub "begin".toList ("begin ".toList ++ n) = some 0 := by
    have e : "begin ".toList ++ n = "begin".toList ++ (' ' :: n) := by
      have : "begin ".toList = "begin".toList ++ [' '] := by decide
      rw [this]; simp
    rw [e, findSub_prefix]
  have htw : (content ++ [last] ++ rest).takeWhile (fun l => !patternInString l "end".toList) = content := by
    rw [List.append_assoc, List.takeWhile_append_of_pos]
    · have : patternInString last "end".toList = true := (patternInString_iff _ _).mpr h7
      rw [List.singleton_append, List.takeWhile_cons_of_neg (by rw [this]; decide)]; simp
    · intro l hl
      have := (patternInString_false _ _).mpr (h3 l hl).2.2.2.1
      show (!patternInString l "end".toList) = true
      rw [this]; rfl
  have hblk : parseBlockNameValue ("begin ".toList ++ n) (content ++ [last] ++ rest) = .ok (n, content) := by
    unfold parseBlockNameValue
    rw [hf]
    have hlen : 0 + 5 + 1 ≤ ("begin ".toList ++ n).length := by
      rw [List.length_append]
      have : "begin ".toList.length = 6 := by decide
      omega
    simp only [hlen, if_true, htw]
    rw [List.drop_left' (by decide)]
  have hin : ∀ s', processLines u stod (content ++ [last] ++ rest) s' = processLines u stod rest s' := fun s' =>
    process_inerts u stod (content ++ [last]) (by
      intro l hl
      rcases List.mem_append.mp hl with hl | hl
      · exact ⟨(h3 l hl).1, (h3 l hl).2.2.1⟩
      · rw [List.mem_singleton.mp hl]; exact ⟨h4, h6⟩) rest s'
  simp only [setBlock, hblk, Outcome.bind_eq, Outcome.bind_ok, itemAction]
  have hfun : (fun c' => processLines u stod (content ++ [last] ++ rest) c') = processLines u stod rest := funext hin
  by_cases hc : n = "crystal".toList
  · simp only [if_pos hc, runAction, hfun]
    cases parseCrystal u stod content <;> rfl
  · by_cases hp : n = "point path".toList
    · simp only [if_neg hc, if_pos hp, runAction, hfun]
      cases parsePathExtrema stod content <;> rfl
    · simp only [if_neg hc, if_neg hp, runAction, hin]

theorem process_comment (u : UnitTable α) (stod : Str → Outcome α) {t : Str} (h : Spec.IsComment t) (rest : List Str)
    (s : Settings α) : processLines u stod (t :: rest) s = processLines u stod rest s := by
  rw [processLines]
  have : stripComment t = [] := by simpa using stripComment_append (s := []) (by simp) h.1
  simp [this]

theorem lines_no_semi {i : Spec.Item} (h : i.WellFormed) : ∀ l ∈ i.lines, ';' ∉ l := by
  intro l hl
  cases i with
  | param n v c =>
    obtain ⟨⟨_, _, h3, _⟩, ⟨_, h6⟩, _, h8⟩ := h
    simp only [Spec.Item.lines, List.mem_singleton] at hl
    subst hl
    simp [h3, h6, h8]
  | block n content last =>
    obtain ⟨⟨_, _, _, h3⟩, h4, _, h6, _, _⟩ := h
    simp only [Spec.Item.lines, List.mem_cons, List.mem_append, List.not_mem_nil, or_false] at hl
    rcases hl with rfl | hl | rfl
    · simp only [List.mem_append, not_or]; exact ⟨by decide, h3⟩
    · exact (h4 l hl).2.1
    · exact h6
  | comment t =>
    simp only [Spec.Item.lines, List.mem_singleton] at hl
    subst hl; exact h.2

theorem infix_ne_nil {p l : Str} (hp : p ≠ []) (h : p <:+: l) : l ≠ [] := by
  rintro rfl
  exact hp (List.infix_nil.mp h)

theorem process_items (u : UnitTable α) (stod : Str → Outcome α) (its : List Spec.Item) (h : ∀ i ∈ its, i.WellFormed)
    (rest : List Str) (s : Settings α) :
    processLines u stod (pieces (its.flatMap Spec.Item.lines) ++ rest) s
      = (runItems u stod its s >>= processLines u stod rest) := by
  induction its generalizing s with
  | nil => simp [pieces, runItems]
  | cons i t ih =>
    have ht := ih fun j hj => h j (by simp [hj])
    have hi := h i (by simp)
    rw [List.flatMap_cons, pieces_append, List.append_assoc, pieces_no_semi (lines_no_semi hi)]
    have assoc : ∀ (o : Outcome (Settings α)),
        (o >>= fun s' => (runItems u stod t s' >>= processLines u stod rest))
          = ((o >>= runItems u stod t) >>= processLines u stod rest) := by
      intro o; cases o <;> rfl
    cases i with
    | param n v c =>
      have e : (Spec.Item.lines (.param n v c)).filter (fun t => t ≠ []) = [n ++ '=' :: (v ++ c)] := by
        simp [Spec.Item.lines]
      rw [e, List.singleton_append, process_param u stod hi]
      simp only [runItems, ← assoc, ← ht]
    | block n content last =>
      have e : (Spec.Item.lines (.block n content last)).filter (fun t => t ≠ [])
          = ("begin ".toList ++ n) :: (content ++ [last]) := by
        refine List.filter_eq_self.mpr ?_
        intro l hl
        simp only [Spec.Item.lines, List.mem_cons, List.mem_append, List.not_mem_nil, or_false] at hl
        obtain ⟨_, h4, _, _, _, h7⟩ := hi
        rcases hl with rfl | hl | rfl
        · simp
        · simpa using (h4 l hl).2.2.2.2
        · simpa using infix_ne_nil (by decide) h7
      rw [e, process_block u stod hi]
      simp only [runItems, ← assoc, ← ht]
    | comment x =>
      have e : processLines u stod ((Spec.Item.lines (.comment x)).filter (fun t => t ≠ [])
          ++ (pieces (t.flatMap Spec.Item.lines) ++ rest)) s
          = processLines u stod (pieces (t.flatMap Spec.Item.lines) ++ rest) s := by
        by_cases hx : x = []
        · simp [Spec.Item.lines, hx]
        · simp only [Spec.Item.lines, List.filter_cons, hx, ne_eq, not_false_eq_true, decide_true, if_true,
            List.filter_nil, List.singleton_append]
          exact process_comment u stod hi _ s
      rw [e, ht]
      rfl

theorem setup_items (u : UnitTable α) (stod : Str → Outcome α) (its : List Spec.Item) (h : ∀ i ∈ its, i.WellFormed) :
    setupFromInput u stod (its.flatMap Spec.Item.lines) = runItems u stod its (fun _ => none) := by
  have := process_items u stod its h [] (fun _ => none)
  rw [List.append_nil] at this
  rw [setupFromInput_eq, this]
  cases runItems u stod its (fun _ => none) <;> rfl

/-! ## Order of the items -/

theorem lookup_mem {n : Str} {k : Kind} (h : paramTable.lookup n = some k) : (n, k) ∈ paramTable := by
  rw [List.lookup_eq_some_iff] at h
  obtain ⟨l1, l2, e, _⟩ := h
  rw [e]; simp

theorem table_occupied : ∀ p ∈ paramTable, p.2 = Kind.occupied → p.1 = "numOccupiedStates".toList := by
  decide +kernel

theorem table_not_block : ∀ p ∈ paramTable, p.1 ≠ "crystal".toList ∧ p.1 ≠ "point path".toList := by
  decide +kernel

theorem parseKind_spin (u : UnitTable α) (stod : Str → Outcome α) {k : Kind} (hk : k ≠ .occupied) (b b' : Bool) (v : Str) :
    parseKind u stod b k v = parseKind u stod b' k v := by
  cases k <;> first | rfl | exact absurd rfl hk

theorem action_name (u : UnitTable α) (stod : Str → Outcome α) {i : Spec.Item} {n : Str} {f : Bool → Outcome (Val α)}
    (h : itemAction u stod i = some (n, f)) :
    (i.key = some (false, n) ∧ n ≠ "crystal".toList ∧ n ≠ "point path".toList) ∨
    (i.key = some (true, n) ∧ (n = "crystal".toList ∨ n = "point path".toList)) := by
  cases i with
  | param a v c =>
    unfold itemAction at h
    cases hl : paramTable.lookup (Spec.squeeze a) with
    | none => simp [hl] at h
    | some k =>
      simp only [hl, Option.some.injEq, Prod.mk.injEq] at h
      left
      rw [← h.1]
      exact ⟨rfl, table_not_block _ (lookup_mem hl)⟩
  | block a content last =>
    unfold itemAction at h
    right
    by_cases h1 : a = "crystal".toList
    · simp only [if_pos h1, Option.some.injEq, Prod.mk.injEq] at h
      exact ⟨by rw [← h.1, ← h1]; rfl, Or.inl h.1.symm⟩
    · by_cases h2 : a = "point path".toList
      · simp only [if_neg h1, if_pos h2, Option.some.injEq, Prod.mk.injEq] at h
        exact ⟨by rw [← h.1, ← h2]; rfl, Or.inr h.1.symm⟩
      · simp only [if_neg h1, if_neg h2, reduceCtorEq] at h
  | comment t => simp [itemAction] at h

theorem action_spin (u : UnitTable α) (stod : Str → Outcome α) {i : Spec.Item} {n : Str} {f : Bool → Outcome (Val α)}
    (h : itemAction u stod i = some (n, f)) (hn : n ≠ "numOccupiedStates".toList) (b b' : Bool) : f b = f b' := by
  cases i with
  | param a v c =>
    unfold itemAction at h
    cases hl : paramTable.lookup (Spec.squeeze a) with
    | none => simp [hl] at h
    | some k =>
      simp only [hl, Option.some.injEq, Prod.mk.injEq] at h
      rw [← h.2]
      refine parseKind_spin u stod ?_ b b' v
      rintro rfl
      exact hn (h.1 ▸ table_occupied _ (lookup_mem hl) rfl)
  | block a content last =>
    unfold itemAction at h
    by_cases h1 : a = "crystal".toList
    · simp only [if_pos h1, Option.some.injEq, Prod.mk.injEq] at h
      rw [← h.2]
    · by_cases h2 : a = "point path".toList
      · simp only [if_neg h1, if_pos h2, Option.some.injEq, Prod.mk.injEq] at h
        rw [← h.2]
      · simp only [if_neg h1, if_neg h2, reduceCtorEq] at h
  | comment t => simp [itemAction] at h

theorem spinOrbitOf_assign (c : Settings α) {n : Str} (v : Val α) (h : n ≠ "hasSpinOrbit".toList) :
    spinOrbitOf (assign c n v) = spinOrbitOf c := by
  have : assign c n v "hasSpinOrbit".toList = c "hasSpinOrbit".toList := by
    unfold assign; rw [if_neg (Ne.symm h)]
  unfold spinOrbitOf; rw [this]

theorem assign_comm (c : Settings α) {n m : Str} (h : n ≠ m) (v w : Val α) :
    assign (assign c n v) m w = assign (assign c m w) n v := by
  funext x
  unfold assign
  by_cases h1 : x = m
  · have : x ≠ n := fun e => h (e.symm.trans h1)
    simp [h1]
    intro e; exact absurd e.symm h
  · simp [h1]

theorem runItems_swap (u : UnitTable α) (stod : Str → Outcome α) (i j : Spec.Item) (t : List Spec.Item)
    (hk : ∀ k, i.key = some k → j.key ≠ some k)
    (hso : ¬ (i.key = some (false, "numOccupiedStates".toList) ∧ j.key = some (false, "hasSpinOrbit".toList)))
    (hos : ¬ (j.key = some (false, "numOccupiedStates".toList) ∧ i.key = some (false, "hasSpinOrbit".toList)))
    (s d : Settings α) (h : runItems u stod (i :: j :: t) s = .ok d) : runItems u stod (j :: i :: t) s = .ok d := by
  simp only [runItems] at h ⊢
  cases hi : itemAction u stod i with
  | none => rw [hi] at h; simpa [runAction] using h
  | some p =>
    obtain ⟨n, f⟩ := p
    cases hj : itemAction u stod j with
    | none => rw [hj, hi] at h; simpa [runAction] using h
    | some q =>
      obtain ⟨m, g⟩ := q
      rw [hi, hj] at h
      simp only [runAction, Outcome.bind_eq_ok_iff, Outcome.ok.injEq] at h ⊢
      obtain ⟨s1, ⟨v, hv, rfl⟩, s2, ⟨w, hw, rfl⟩, ht⟩ := h
      have ai := action_name u stod hi
      have aj := action_name u stod hj
      have hnm : n ≠ m := by
        rintro rfl
        rcases ai with ⟨k1, a1, a2⟩ | ⟨k1, a1⟩ <;> rcases aj with ⟨k2, b1, b2⟩ | ⟨k2, b1⟩
        · exact hk _ k1 k2
        · rcases b1 with b | b
          · exact a1 b
          · exact a2 b
        · rcases a1 with a | a
          · exact b1 a
          · exact b2 a
        · exact hk _ k1 k2
      have nso : n = "hasSpinOrbit".toList → i.key = some (false, "hasSpinOrbit".toList) := by
        rintro rfl
        rcases ai with ⟨k1, _⟩ | ⟨_, a | a⟩
        · exact k1
        · exact absurd a (by decide)
        · exact absurd a (by decide)
      have mso : m = "hasSpinOrbit".toList → j.key = some (false, "hasSpinOrbit".toList) := by
        rintro rfl
        rcases aj with ⟨k1, _⟩ | ⟨_, a | a⟩
        · exact k1
        · exact absurd a (by decide)
        · exact absurd a (by decide)
      have noc : n = "numOccupiedStates".toList → i.key = some (false, "numOccupiedStates".toList) := by
        rintro rfl
        rcases ai with ⟨k1, _⟩ | ⟨_, a | a⟩
        · exact k1
        · exact absurd a (by decide)
        · exact absurd a (by decide)
      have moc : m = "numOccupiedStates".toList → j.key = some (false, "numOccupiedStates".toList) := by
        rintro rfl
        rcases aj with ⟨k1, _⟩ | ⟨_, a | a⟩
        · exact k1
        · exact absurd a (by decide)
        · exact absurd a (by decide)
      have hg : g (spinOrbitOf s) = .ok w := by
        by_cases e : n = "hasSpinOrbit".toList
        · have : m ≠ "numOccupiedStates".toList := fun e' => hos ⟨moc e', nso e⟩
          rw [action_spin u stod hj this _ (spinOrbitOf (assign s n v))]; exact hw
        · rwa [spinOrbitOf_assign s v e] at hw
      have hf : f (spinOrbitOf (assign s m w)) = .ok v := by
        by_cases e : m = "hasSpinOrbit".toList
        · have : n ≠ "numOccupiedStates".toList := fun e' => hso ⟨noc e', mso e⟩
          rw [action_spin u stod hi this _ (spinOrbitOf s)]; exact hv
        · rwa [spinOrbitOf_assign s w e]
      exact ⟨_, ⟨w, hg, rfl⟩, _, ⟨v, hf, rfl⟩, by rw [← assign_comm s hnm]; exact ht⟩

theorem runItems_perm (u : UnitTable α) (stod : Str → Outcome α) {l l' : List Spec.Item} (hp : l.Perm l')
    (hnd : (l.filterMap Spec.Item.key).Nodup)
    (hso : ¬ ((false, "numOccupiedStates".toList) ∈ l.filterMap Spec.Item.key ∧
      (false, "hasSpinOrbit".toList) ∈ l.filterMap Spec.Item.key))
    (s d : Settings α) (h : runItems u stod l s = .ok d) : runItems u stod l' s = .ok d := by
  induction hp generalizing s with
  | nil => exact h
  | cons i hp ih =>
    rename_i t t'
    simp only [runItems, Outcome.bind_eq_ok_iff] at h ⊢
    obtain ⟨s1, h1, h2⟩ := h
    have hsub : (t.filterMap Spec.Item.key).Sublist ((i :: t).filterMap Spec.Item.key) :=
      (List.sublist_cons_self i t).filterMap _
    exact ⟨s1, h1, ih (hsub.nodup hnd) (fun e => hso ⟨hsub.subset e.1, hsub.subset e.2⟩) s1 h2⟩
  | swap i j t =>
    refine runItems_swap u stod j i t ?_ ?_ ?_ s d h
    · intro k h1 h2
      simp [List.filterMap_cons, h1, h2] at hnd
    · rintro ⟨a, b⟩
      exact hso (by simp [List.filterMap_cons, a, b])
    · rintro ⟨a, b⟩
      exact hso (by simp [List.filterMap_cons, a, b])
  | trans p1 p2 ih1 ih2 =>
    have hpm := p1.filterMap Spec.Item.key
    refine ih2 (hpm.nodup_iff.mp hnd) (fun e => hso ⟨hpm.mem_iff.mpr e.1, hpm.mem_iff.mpr e.2⟩) s (ih1 hnd hso s h)

theorem runItems_append (u : UnitTable α) (stod : Str → Outcome α) (a b : List Spec.Item) (s : Settings α) :
    runItems u stod (a ++ b) s = (runItems u stod a s >>= runItems u stod b) := by
  induction a generalizing s with
  | nil => rfl
  | cons i t ih =>
    simp only [List.cons_append, runItems]
    cases runAction (itemAction u stod i) s with
    | ok s' => exact ih s'
    | _ => rfl

/-- Items of other settings leave a setting as it is. -/
theorem runItems_other (u : UnitTable α) (stod : Str → Outcome α) (its : List Spec.Item) (n : Str)
    (h : ∀ i ∈ its, i.key ≠ some (false, n)) (hn : n ≠ "crystal".toList ∧ n ≠ "point path".toList)
    (s d : Settings α) (hr : runItems u stod its s = .ok d) : d n = s n := by
  induction its generalizing s with
  | nil => simp only [runItems, Outcome.ok.injEq] at hr; rw [hr]
  | cons i t ih =>
    simp only [runItems, Outcome.bind_eq_ok_iff] at hr
    obtain ⟨s1, h1, h2⟩ := hr
    rw [ih (fun j hj => h j (by simp [hj])) s1 h2]
    cases ha : itemAction u stod i with
    | none => rw [ha] at h1; simp only [runAction, Outcome.ok.injEq] at h1; rw [h1]
    | some p =>
      obtain ⟨m, f⟩ := p
      rw [ha] at h1
      simp only [runAction, Outcome.bind_eq_ok_iff, Outcome.ok.injEq] at h1
      obtain ⟨v, _, rfl⟩ := h1
      have : n ≠ m := by
        rintro rfl
        rcases action_name u stod ha with ⟨k, _⟩ | ⟨_, a | a⟩
        · exact h i (by simp) k
        · exact hn.1 a
        · exact hn.2 a
      simp [assign, this]

end

end Verif.Model

namespace Verif.Model

section
variable {α : Type} [Field α] [LinearOrder α]

/-! ## Crystal and path blocks -/

/-- The lines of a crystal block describe the atoms. -/
def AtomLine (stod : Str → Outcome α) (line name : Str) (p : α × α × α) : Prop :=
  ∃ tx ty tz extra, Spec.Words line (name :: tx :: ty :: tz :: extra) ∧ stod tx = .ok p.1 ∧ stod ty = .ok p.2.1 ∧
    stod tz = .ok p.2.2

omit [LinearOrder α] [Field α] in
theorem crystalLine_val (stod : Str → Outcome α) {line name : Str} {p : α × α × α} (h : AtomLine stod line name p)
    (b : CrystalBlock α) :
    crystalLine stod line b = .ok ⟨b.positions ++ [p],
      b.species ++ [speciesIndex (if name ∈ b.names then b.names else b.names ++ [name]) name],
      if name ∈ b.names then b.names else b.names ++ [name]⟩ := by
  obtain ⟨tx, ty, tz, extra, hw, h1, h2, h3⟩ := h
  unfold crystalLine
  rw [words_of_spec hw]
  simp [wordAt, Outcome.bind_eq, Outcome.bind_ok, h1, h2, h3]

theorem speciesIndex_get {names : List Str} {w : Str} (h : w ∈ names) :
    names[speciesIndex names w]? = some w := by
  unfold speciesIndex
  have hlt : names.findIdx (fun x => decide (x = w)) < names.length := List.findIdx_lt_length_of_exists ⟨w, h, by simp⟩
  rw [List.getElem?_eq_getElem hlt]
  have := List.findIdx_getElem (w := hlt)
  simpa using this

omit [LinearOrder α] [Field α] in
theorem crystalLines_val (stod : Str → Outcome α) (atoms : List (Str × Str × (α × α × α)))
    (h : ∀ a ∈ atoms, AtomLine stod a.1 a.2.1 a.2.2) (b : CrystalBlock α) (hnd : b.names.Nodup) :
    ∃ sp names, crystalLines stod (atoms.map (·.1)) b
        = .ok ⟨b.positions ++ atoms.map (·.2.2), b.species ++ sp, names⟩ ∧
      names.Nodup ∧ b.names <+: names ∧ sp.map (fun k => names[k]?) = atoms.map (fun a => some a.2.1) ∧
      ∀ n ∈ names, n ∈ b.names ∨ n ∈ atoms.map (·.2.1) := by
  induction atoms generalizing b with
  | nil => exact ⟨[], b.names, by simp [crystalLines], hnd, List.prefix_refl _, by simp, fun n hn => Or.inl hn⟩
  | cons a t ih =>
    obtain ⟨line, name, p⟩ := a
    have hl := crystalLine_val stod (h (line, name, p) (by simp)) b
    generalize hN : (if name ∈ b.names then b.names else b.names ++ [name]) = N at hl
    have hNnd : N.Nodup := by
      rw [← hN]; split
      · exact hnd
      · rename_i hn
        exact List.nodup_append.mpr ⟨hnd, by simp, by intro x hx y hy; simp at hy; subst hy; exact fun e => hn (e ▸ hx)⟩
    have hNp : b.names <+: N := by
      rw [← hN]; split
      · exact List.prefix_refl _
      · exact List.prefix_append _ _
    have hNm : name ∈ N := by
      rw [← hN]; split
      · assumption
      · simp
    have hNs : ∀ n ∈ N, n ∈ b.names ∨ n = name := by
      intro n hn
      rw [← hN] at hn
      split at hn
      · exact Or.inl hn
      · simpa using hn
    obtain ⟨sp, names, e, n1, n2, n3, n4⟩ := ih (fun a ha => h a (by simp [ha]))
      ⟨b.positions ++ [p], b.species ++ [speciesIndex N name], N⟩ hNnd
    refine ⟨speciesIndex N name :: sp, names, ?_, n1, hNp.trans n2, ?_, ?_⟩
    · simp only [List.map_cons, crystalLines, hl, Outcome.bind_eq, Outcome.bind_ok]
      rw [e]; simp
    · simp only [List.map_cons, n3, List.cons.injEq, and_true]
      have hg := speciesIndex_get hNm
      obtain ⟨r, hr⟩ := n2
      have hr' : N ++ r = names := hr
      rw [← hr', List.getElem?_append_left]
      · exact hg
      · exact (List.getElem?_eq_some_iff.mp hg).1
    · intro n hn
      rcases n4 n hn with h4 | h4
      · rcases hNs n h4 with h5 | h5
        · exact Or.inl h5
        · right; simp [h5]
      · right; simp at h4 ⊢; exact Or.inr h4

end

end Verif.Model
