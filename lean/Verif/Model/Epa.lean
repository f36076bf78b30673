import Verif.Model.Basic
import Verif.Model.Bands
import Mathlib.Algebra.Order.Floor.Ring
import Mathlib.Data.Rat.Floor

/-!
# The electron-phonon averaged coupling

src/interaction/interaction_epa.cpp.  Numbers of type `double` are elements of an ordered field (exact arithmetic).
-/
namespace Verif.Model

/-- `std::round`: to the nearest integer, halves away from zero. -/
def stdRound {α : Type} [Field α] [LinearOrder α] [IsStrictOrderedRing α] [FloorRing α] (x : α) : Int :=
  if 0 ≤ x then ⌊x + 1 / 2⌋ else ⌈x - 1 / 2⌉

/-- `binSize` of the constructor, src/interaction/interaction_epa.cpp L16-19. -/
def epaBinSize {α : Type} [Field α] (elEnergies : List α) : α :=
  if 1 < elEnergies.length then elEnergies.getD 1 0 - elEnergies.getD 0 0 else 1

/-- The index of an energy, src/interaction/interaction_epa.cpp L44-51.  Without energies `elEnergies(0)` reads outside
the vector; with a zero `binSize` the quotient is infinite or not a number, and its conversion to `int` is undefined, as
is that of a value out of range. -/
def epaBin {α : Type} [Field α] [LinearOrder α] [IsStrictOrderedRing α] [FloorRing α] (elEnergies : List α) (en : α) :
    Outcome Nat := do
  let e0 ← readAt elEnergies 0
  let binSize := epaBinSize elEnergies
  if binSize = 0 then .ub
  else do
    let j ← i32 (stdRound ((en - e0) / binSize))
    let j := min ((elEnergies.length : Int) - 1) j
    let j := max 0 j
    .ok j.toNat

/-- `InteractionEpa::getCoupling`, src/interaction/interaction_epa.cpp L42-54. -/
def epaCoupling {α : Type} [Field α] [LinearOrder α] [IsStrictOrderedRing α] [FloorRing α] (elEnergies : List α)
    (elPhMatAverage : Nat → Nat → Nat → α) (nu : Nat) (enI enF : α) : Outcome α := do
  let j ← epaBin elEnergies enI
  let k ← epaBin elEnergies enF
  .ok (elPhMatAverage nu j k)

end Verif.Model
