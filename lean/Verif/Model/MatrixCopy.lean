import Verif.Model.Matrix
import Mathlib.Logic.Function.Basic

/-!
# Memory of the class `Matrix`: src/algebra/Matrix.h, src/algebra/Matrix.cpp

A `Matrix` holds two pointers, to a `ParallelMatrix` and to a `SerialMatrix`; it is used by the full band structure.
The heap holds the objects pointed to; `D` is their content (sizes and elements; the copy operations of these two
classes copy all of it, src/algebra/SMatrix.h L222-255; likewise src/algebra/PMatrix.h).
-/
namespace Verif.Model

/-- The members of a `Matrix`, src/algebra/Matrix.h L29-42. -/
structure MatObj where
  isDistributed : Bool
  pmat : Option Nat
  mat : Option Nat
deriving DecidableEq

/-- Variables of the program that hold a `Matrix`, objects on the heap, and the next free address. -/
structure MatState (D : Type) where
  vars : Nat → Option MatObj
  heap : Nat → Option D
  next : Nat

/-- Operations on variables `i`, `j`, ... that hold matrices. -/
inductive MatOp (D : Type) where
  /-- `Matrix m(rows, cols, ..., isDistributed)`: `d` is the content of a matrix of zeros. -/
  | make (i : Nat) (dist : Bool) (d : D)
  /-- `Matrix m;`: `d` is the content of an empty `SerialMatrix`. -/
  | default (i : Nat) (d : D)
  /-- `m_i = m_j;` -/
  | assign (i j : Nat)
  /-- Changes made through `m_i(row, col) = ...` or `m_i.eye()`, ... -/
  | modify (i : Nat) (f : D → D)
  /-- End of the lifetime of `m_i`. -/
  | destroy (i : Nat)
  /-- `Matrix m_i(m_j);` -/
  | copy (i j : Nat)
  /-- `m_i += m_j;` (`op` adds the elements), likewise `-=`; the result is returned by value. -/
  | addTo (i j : Nat) (op : D → D → D)
  /-- `m_i *= x;`, likewise `/=`; the result is returned by value. -/
  | scale (i : Nat) (f : D → D)
  /-- `Matrix m_i = m_j.prod(m_k, ...);` (`op` multiplies). -/
  | product (i j k : Nat) (op : D → D → D)

/-- Following a pointer: null and dangling pointers are undefined behaviour. -/
def deref {D : Type} (heap : Nat → Option D) : Option Nat → Outcome D
  | none => .ub
  | some p => match heap p with
    | some d => .ok d
    | none => .ub

/-- Writing through a pointer. -/
def writePtr {D : Type} (s : MatState D) (p : Option Nat) (d : D) : Outcome (MatState D) := do
  let _ ← deref s.heap p
  match p with
  | some a => .ok { s with heap := Function.update s.heap a (some d) }
  | none => .ub

/-- `if (p != nullptr) delete p;`: undefined if the object was already deleted. -/
def deletePtr {D : Type} (s : MatState D) : Option Nat → Outcome (MatState D)
  | none => .ok s
  | some a => match s.heap a with
    | some _ => .ok { s with heap := Function.update s.heap a none }
    | none => .ub

/-- `new ...`. -/
def newObj {D : Type} (s : MatState D) (d : D) : MatState D × Nat :=
  ({ s with heap := Function.update s.heap s.next (some d), next := s.next + 1 }, s.next)

/-- The pointer in use. -/
def MatObj.active (o : MatObj) : Option Nat := if o.isDistributed then o.pmat else o.mat

/-- A variable that is in scope. -/
def varAt {D : Type} (s : MatState D) (i : Nat) : Outcome MatObj :=
  match s.vars i with
  | some o => .ok o
  | none => .ub

/-- The copy constructor, src/algebra/Matrix.h L219-230: the pointers of the new object are null (default member
initialisers, L36-42), and `operator=` of the object pointed to is called. -/
def copyConstruct {D : Type} (s : MatState D) (src : MatObj) : Outcome (MatState D × MatObj) := do
  let o : MatObj := ⟨src.isDistributed, none, none⟩
  let d ← deref s.heap src.active
  let s ← writePtr s o.active d
  .ok (s, o)

/-- One operation. -/
def matStep {D : Type} (s : MatState D) : MatOp D → Outcome (MatState D)
  | .make i dist d => -- constructor, src/algebra/Matrix.h L195-207
    let (s, a) := newObj s d
    let o : MatObj := if dist then ⟨true, some a, none⟩ else ⟨false, none, some a⟩
    .ok { s with vars := Function.update s.vars i (some o) }
  | .default i d => -- default constructor, L210-216 (both pointers are null, nothing is deleted)
    let (s, a) := newObj s d
    .ok { s with vars := Function.update s.vars i (some ⟨false, none, some a⟩) }
  | .assign i j => do -- operator=, L232-247
    let oi ← varAt s i
    let oj ← varAt s j
    if i = j then .ok s
    else if oj.isDistributed then do
      let s ← deletePtr s oi.pmat
      let d ← deref s.heap oj.pmat
      let (s, a) := newObj s d
      .ok { s with vars := Function.update s.vars i (some ⟨true, some a, oi.mat⟩) }
    else do
      let s ← deletePtr s oi.mat
      let d ← deref s.heap oj.mat
      let (s, a) := newObj s d
      .ok { s with vars := Function.update s.vars i (some ⟨false, oi.pmat, some a⟩) }
  | .modify i f => do -- operator(), eye(), L296-306, L343-348
    let o ← varAt s i
    let d ← deref s.heap o.active
    writePtr s o.active (f d)
  | .destroy i => do -- destructor, L250-258
    let o ← varAt s i
    let s ← deletePtr s o.pmat
    let s ← deletePtr s o.mat
    .ok { s with vars := Function.update s.vars i none }
  | .copy i j => do -- L219-230
    let src ← varAt s j
    let (s, o) ← copyConstruct s src
    .ok { s with vars := Function.update s.vars i (some o) }
  | .addTo i j op => do -- operator+=, L118-132: returns `*this` by value
    let oi ← varAt s i
    let oj ← varAt s j
    let a ← deref s.heap oi.active
    let b ← deref s.heap (if oi.isDistributed then oj.pmat else oj.mat)
    let s ← writePtr s oi.active (op a b)
    let (s, _) ← copyConstruct s oi
    .ok s
  | .scale i f => do -- operator*=, L134-148: returns `*this` by value
    let o ← varAt s i
    let d ← deref s.heap o.active
    let s ← writePtr s o.active (f d)
    let (s, _) ← copyConstruct s o
    .ok s
  | .product i j k op => do -- src/algebra/Matrix.cpp L3-22; `diagonalize`, L24-90, begins with the same copy
    let oj ← varAt s j
    let ok ← varAt s k
    let (s, c) ← copyConstruct s oj
    let a ← deref s.heap oj.active
    let b ← deref s.heap (if oj.isDistributed then ok.pmat else ok.mat)
    let s ← writePtr s c.active (op a b)
    .ok { s with vars := Function.update s.vars i (some c) }

/-- A history of operations. -/
def matRun {D : Type} : List (MatOp D) → MatState D → Outcome (MatState D)
  | [], s => .ok s
  | o :: os, s => do
    let s ← matStep s o
    matRun os s

/-- Before the first operation. -/
def matStart (D : Type) : MatState D := ⟨fun _ => none, fun _ => none, 0⟩

/-- What reading `m_i` returns. -/
def matRead {D : Type} (s : MatState D) (i : Nat) : Outcome (Bool × D) := do
  let o ← varAt s i
  let d ← deref s.heap o.active
  .ok (o.isDistributed, d)

/-- The copy of a full band structure, src/bands/bandstructure.cpp L69-82, of which the three matrices are the
variables `j`, `j+1`, `j+2`; those of the copy are `i`, `i+1`, `i+2`: the members are default constructed, then
assigned. -/
def bandCopy {D : Type} (i j : Nat) (d : D) : List (MatOp D) :=
  [.default i d, .default (i + 1) d, .default (i + 2) d, .assign i j, .assign (i + 1) (j + 1), .assign (i + 2) (j + 2)]

end Verif.Model
