import Verif.Model.MatrixCopy

/-! # Specification: matrices are values -/
namespace Verif.Spec
open Verif.Model

/-- The values of the variables: whether the matrix is distributed, and its content. -/
abbrev Values (D : Type) := Nat → Option (Bool × D)

/-- What an operation means for values.  `none`: the program uses a variable out of its scope, or declares one twice
(excluded by the language), or adds a serial and a distributed matrix. -/
def valueStep {D : Type} (v : Values D) : MatOp D → Option (Values D)
  | .make i dist d => if (v i).isSome then none else some (Function.update v i (some (dist, d)))
  | .default i d => if (v i).isSome then none else some (Function.update v i (some (false, d)))
  | .assign i j => match v i, v j with
    | some _, some x => some (Function.update v i (some x))
    | _, _ => none
  | .modify i f => match v i with
    | some (b, d) => some (Function.update v i (some (b, f d)))
    | none => none
  | .destroy i => match v i with
    | some _ => some (Function.update v i none)
    | none => none
  | .copy i j => match v i, v j with
    | none, some x => some (Function.update v i (some x))
    | _, _ => none
  | .addTo i j op => match v i, v j with
    | some (b, d), some (b', d') => if b = b' then some (Function.update v i (some (b, op d d'))) else none
    | _, _ => none
  | .scale i f => match v i with
    | some (b, d) => some (Function.update v i (some (b, f d)))
    | none => none
  | .product i j k op => match v i, v j, v k with
    | none, some (b, d), some (b', d') => if b = b' then some (Function.update v i (some (b, op d d'))) else none
    | _, _, _ => none

/-- The values after a history. -/
def valueRun {D : Type} : List (MatOp D) → Values D → Option (Values D)
  | [], v => some v
  | o :: os, v => (valueStep v o).bind (valueRun os)

/-- Operations which do not copy-construct a `Matrix`. -/
def NoCopy {D : Type} : MatOp D → Prop
  | .copy _ _ | .addTo _ _ _ | .scale _ _ | .product _ _ _ _ => False
  | _ => True

end Verif.Spec
