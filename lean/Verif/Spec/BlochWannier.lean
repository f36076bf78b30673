import Verif.Model.BlochWannier
import Mathlib.Analysis.SpecialFunctions.Exp

/-! Vocabulary of the statements on the transform from Bloch states to Wannier functions. -/
namespace Verif.Spec
open Verif.Model

variable {E P M W B : Nat} {K Q : Type}

/-- Each element of the type is in the list, once. -/
def EachOnce {α : Type} (l : List α) : Prop := l.Nodup ∧ ∀ x, x ∈ l

/-- The matrix elements in the Wannier gauge: `sum U_{k+q}(l, i) g(l, m) conj(U_k(m, j))`. -/
noncomputable def wannierGauge (uKq uK : Fin B → Fin W → ℂ) (g : Fin B → Fin B → Fin M → ℂ) (i j : Fin W) (nu : Fin M) : ℂ :=
  ∑ l, ∑ m, uKq l i * g l m nu * (starRingEnd ℂ) (uK m j)

/-- The state with the coefficients `v` on the Wannier functions, on the states of the first-principles code. -/
noncomputable def stateOf (u : Fin B → Fin W → ℂ) (v : Fin W → ℂ) (l : Fin B) : ℂ :=
  ∑ w, (starRingEnd ℂ) (u l w) * v w

/-- The Hamiltonian between Wannier functions, from the energies of the first-principles code (the convention of the program:
src/apps/qe_to_phoebe_utils.cpp L82-88). -/
noncomputable def gaugeHamiltonian (u : Fin B → Fin W → ℂ) (energy : Fin B → ℝ) (i j : Fin W) : ℂ :=
  ∑ l, u l i * (energy l : ℂ) * (starRingEnd ℂ) (u l j)

/-- `v` is a normalized eigenvector of the Hamiltonian between Wannier functions. -/
def IsEigenstate (u : Fin B → Fin W → ℂ) (energy : Fin B → ℝ) (v : Fin W → ℂ) (e : ℝ) : Prop :=
  (∀ i, ∑ j, gaugeHamiltonian u energy i j * v j = (e : ℂ) * v i) ∧ ∑ i, Complex.normSq (v i) = 1

/-- The threads execute each iteration of both loops once. -/
def Worksharing (threads : List (GaugeThread M W B)) : Prop :=
  EachOnce (threads.flatMap fun t => t.first) ∧ EachOnce (threads.flatMap fun t => t.second)

/-- The thread that reads `tmp(i, l, nu)` is the one that computed all of it. -/
def Aligned (threads : List (GaugeThread M W B)) : Prop :=
  ∀ t ∈ threads, ∀ nu i j l, (nu, i, j, l) ∈ t.second → ∀ l', (nu, i, l, l') ∈ t.first

/-- The matrix elements in real space, Giustino, Cohen and Louie, Phys. Rev. B 76, 165108, Eq. 24, for matrices with the
first index on the band. -/
noncomputable def wannierCoupling (c : CoarseData K Q E P M W B) (i j : Fin W) (mu : Fin M) (irP : Fin P) (irE : Fin E) : ℂ :=
  (c.qs.map fun q => (c.ks.map fun k =>
    Complex.exp (-Complex.I * (vdot (c.kCart k) (c.elVectors irE) : ℂ)) / (c.ks.length : ℂ) *
    (Complex.exp (-Complex.I * (vdot (c.qCart q) (c.phVectors irP) : ℂ)) / (c.qs.length : ℂ)) *
    ∑ nu, wannierGauge (c.u (c.kPlusQ k q)) (c.u k) (fun l m nu => c.g l m nu k q) i j nu * (c.phEig q)⁻¹ nu mu).sum).sum

end Verif.Spec
