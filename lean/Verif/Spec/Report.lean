import Verif.Model.Report

/-! # How a user reads a report on the terminal -/
namespace Verif.Spec
open Verif.Model

/-- The line starts with the given word. -/
def startsWith (w : String) (l : Line) : Bool :=
  match l with
  | .word s :: _ => s == w
  | _ => false

/-- The report cut at the lines that start with `w`: each of these lines with the lines below it, up to the next one. -/
def blocks (w : String) : List Line → List (Line × List Line)
  | [] => []
  | l :: ls => if startsWith w l then (l, ls.takeWhile fun l => !startsWith w l) :: blocks w ls else blocks w ls

/-- The numbers (with a decimal point) of a line. -/
def numbersOf (l : Line) : List ℝ :=
  l.filterMap fun x => match x with | .num y => some y | _ => none

/-- The words of a line. -/
def wordsOf (l : Line) : List String :=
  l.filterMap fun x => match x with | .word y => some y | _ => none

/-- The integers of a line. -/
def integersOf (l : Line) : List Int :=
  l.filterMap fun x => match x with | .int y => some y | _ => none

/-- The lines below the first line with a title, with that line. -/
def fromTitle (title : String) (ls : List Line) : List Line := ls.dropWhile fun l => !startsWith title l

/-- The table below a title, up to the next empty line; nothing without the title. -/
def tableBelow (title : String) (ls : List Line) : Option (List (List ℝ)) :=
  match fromTitle title ls with
  | [] => none
  | _ :: below => some ((below.takeWhile fun l => !l.isEmpty).map numbersOf)

/-- The unit written after a title. -/
def unitAfter (title : String) (ls : List Line) : Option String :=
  match fromTitle title ls with
  | [] => none
  | l :: _ => (wordsOf l)[1]?

/-- How a power of the metre is written in a unit. -/
def metrePower (n : Int) : String :=
  if n = 0 then "" else if n = 1 then " m" else if n = -1 then " / m" else if 0 < n then " m^" ++ toString n else " / m^" ++ toString (-n)

/-- Entry of nested lists. -/
def entry3 (l : List (List (List ℝ))) (k i j : Nat) : Option ℝ := (l[k]?.bind (·[i]?)).bind (·[j]?)

/-- The diagonal of a square table. -/
def diagonal (d : Nat) (t : List (List ℝ)) : List ℝ := (List.range d).filterMap fun i => t[i]?.bind (·[i]?)

/-- The numbers of the rows that start with the given indices. -/
def rowsLabelled (label : List Int) (ls : List Line) : List (List ℝ) :=
  (ls.filter fun l => integersOf l == label).map numbersOf

end Verif.Spec
