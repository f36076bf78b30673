/-!
# Outcomes and C++ integer arithmetic

Common vocabulary of the model.  A C++ computation either returns a value, stops in a controlled
way through phoebe's `Error` (src/exceptions.cpp), has undefined behaviour, or does not terminate.
-/
namespace Verif.Model

/-- Result of running a piece of the C++ code.
* `ok a`    the code returns `a`;
* `error`   the code calls `Error(...)` (src/exceptions.cpp L6-24: prints a message, stops the program);
* `ub`      undefined behaviour in the sense of the C++ standard (overflow of `int`, division by zero,
            out-of-bounds access, null dereference);
* `diverge` the loop never terminates. -/
inductive Outcome (α : Type u) where
  | ok (a : α) : Outcome α
  | error : Outcome α
  | ub : Outcome α
  | diverge : Outcome α
deriving DecidableEq, Repr

namespace Outcome

@[simp] def bind : Outcome α → (α → Outcome β) → Outcome β
  | ok a, f => f a
  | error, _ => error
  | ub, _ => ub
  | diverge, _ => diverge

instance : Monad Outcome where
  pure := ok
  bind := bind

@[simp] theorem pure_eq (a : α) : (pure a : Outcome α) = ok a := rfl
@[simp] theorem bind_eq (x : Outcome α) (f : α → Outcome β) : (x >>= f) = x.bind f := rfl

/-- The computation returned a value. -/
def isOk : Outcome α → Bool
  | ok _ => true
  | _ => false

/-- The returned value, if any. -/
def toOption : Outcome α → Option α
  | ok a => some a
  | _ => none

end Outcome

/-- Range of a 32-bit `int`. -/
def intMin : Int := -2147483648
def intMax : Int := 2147483647

/-- A signed 32-bit result: overflow is undefined behaviour. -/
def i32 (x : Int) : Outcome Int :=
  if intMin ≤ x ∧ x ≤ intMax then .ok x else .ub

/-- C++ `int` addition, subtraction and multiplication. -/
def cadd (a b : Int) : Outcome Int := i32 (a + b)
def csub (a b : Int) : Outcome Int := i32 (a - b)
def cmul (a b : Int) : Outcome Int := i32 (a * b)

/-- C++ `int` division and remainder: truncation towards zero, undefined for a zero divisor
(and for `INT_MIN / -1`, caught by `i32`). -/
def cdiv (a b : Int) : Outcome Int := if b = 0 then .ub else i32 (a.tdiv b)
def crem (a b : Int) : Outcome Int := if b = 0 then .ub else
  if a.tdiv b < intMin ∨ intMax < a.tdiv b then .ub else i32 (a.tmod b)

/-- `size_t` arithmetic wraps modulo `2^64` (no undefined behaviour). -/
def u64 (x : Nat) : Nat := x % 18446744073709551616

/-- Conversion of a `size_t` value to `int` (implementation-defined modulo `2^32`). -/
def toInt32 (x : Nat) : Int :=
  let r := x % 4294967296
  if r < 2147483648 then (r : Int) else (r : Int) - 4294967296

end Verif.Model
