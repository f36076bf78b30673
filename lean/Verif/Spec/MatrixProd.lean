import Verif.Model.MatrixProd
import Mathlib.Algebra.BigOperators.Group.Finset.Basic

/-! # Specification: products and eigenvectors -/
namespace Verif.Spec
open Verif.Model

/-- The matrix has `r` rows and `c` columns, and its elements are read as `f i j`. -/
def IsMatrix {α : Type} (a : SMat α) (r c : Nat) (f : Nat → Nat → α) : Prop :=
  a.numRows = r ∧ a.numCols = c ∧ ∀ i j : Nat, i < r → j < c → a.get i j = .ok (f i j)

/-- `op(A)`: the matrix, its transpose, its adjoint. -/
def opOf {α : Type} [Star α] (t : Tr) (f : Nat → Nat → α) : Nat → Nat → α :=
  match t with
  | .N => f
  | .T => fun i j => f j i
  | .C => fun i j => star (f j i)

/-- Number of rows and columns of `op(A)`. -/
def opRows (t : Tr) (r c : Nat) : Nat := if t = .N then r else c
def opCols (t : Tr) (r c : Nat) : Nat := if t = .N then c else r

/-- The product of two matrices with inner size `k`. -/
def productOf {α : Type} [Semiring α] (k : Nat) (f g : Nat → Nat → α) (i j : Nat) : α :=
  ∑ l ∈ Finset.range k, f i l * g l j

/-- Eigenvalues and orthonormal eigenvectors (the columns of `v`) of the matrix `f` of size `n`. -/
def IsEigensystem {α : Type} [Semiring α] [StarRing α] (ofReal : ℝ → α) (n : Nat) (f : Nat → Nat → α) (e : Nat → ℝ)
    (v : Nat → Nat → α) : Prop :=
  (∀ i j : Nat, i < n → j < n → productOf n f v i j = ofReal (e j) * v i j) ∧
  ∀ i j : Nat, i < n → j < n → productOf n (opOf .C v) v i j = if i = j then 1 else 0

/-- What LAPACK guarantees: if the flag is zero, the array holds the eigenvectors of the matrix given, column-major. -/
def SolverContract {α : Type} [Semiring α] [StarRing α] (ofReal : ℝ → α) (solver : Eigensolver α) : Prop :=
  ∀ (n : Nat) (f : Nat → Nat → α) (a : SMat α), IsMatrix a n n f → ∀ e m, solver a.mat n = .ok (0, e, m) →
    e.length = n ∧ ∃ v, IsMatrix ⟨n, n, m⟩ n n v ∧ IsEigensystem ofReal n f (fun j => e.getD j 0) v

end Verif.Spec
