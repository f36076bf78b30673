import Verif.Model.ElPhCoupling

/-! Vocabulary of the statements on the electron-phonon coupling. -/
namespace Verif.Spec
open Verif.Model

variable {E P M W : Nat}

/-- Matrix element by Wannier interpolation, short-range part:
`sum conj(U2) exp(i k.Re) exp(i q.Rp) g(Re, Rp) e U1`, each lattice vector divided by its degeneracy. -/
noncomputable def elphShortRange (d : ElPhData E P M W) (k q : Vec3) (ev1 ev2 : Fin W → ℂ) (ev3 : Fin M → ℂ) : ℂ :=
  ∑ irE, ∑ irP, ∑ mu, ∑ iw1, ∑ iw2,
    Complex.exp (Complex.I * (vdot k (d.elVectors irE) : ℂ)) / (d.elDegeneracies irE : ℂ) *
    (Complex.exp (Complex.I * (vdot q (d.phVectors irP) : ℂ)) / (d.phDegeneracies irP : ℂ)) *
    d.coupling irE irP mu iw1 iw2 * (starRingEnd ℂ) (ev2 iw2) * ev3 mu * ev1 iw1

/-- Overlap of two electron states in the Wannier gauge. -/
noncomputable def overlap (ev2 ev1 : Fin W → ℂ) : ℂ := ∑ iw, (starRingEnd ℂ) (ev2 iw) * ev1 iw

/-- The matrix element: short-range part, and long-range part `x` times the overlap, if it is used. -/
noncomputable def matrixElement (d : ElPhData E P M W) (longRange : Bool) (k q : Vec3) (ev1 ev2 : Fin W → ℂ)
    (ev3 : Fin M → ℂ) (x : ℂ) : ℂ :=
  elphShortRange d k q ev1 ev2 ev3 + if longRange then x * overlap ev2 ev1 else 0

/-- The long-range part is used away from `q = 0`. -/
noncomputable def longRangeUsed (usePolar : Bool) (q : Vec3) : Bool :=
  open Classical in usePolar && decide (1.0e-8 < Real.sqrt (vdot q q))

/-- Reciprocal lattice vector: its products with the lattice vectors `R` are multiples of `2 pi`. -/
def IsReciprocal {n : Nat} (G : Vec3) (R : Fin n → Vec3) : Prop :=
  ∀ i, ∃ m : ℤ, vdot G (R i) = 2 * Real.pi * m

variable {A : Nat}

/-- One term of the long-range part of Verdi and Giustino, Phys. Rev. Lett. 115, 176401, Eq. 4, at `g = q + G`, in Rydberg
atomic units (`e^2 / (4 pi eps0) = 2`), damped with `exp(-g.eps.g/4)`. -/
noncomputable def frohlichTerm (c : PolarData A) (ev : Fin A → Fin 3 → ℂ) (g : Vec3) : ℂ :=
  Complex.I * ((4 * Real.pi / c.volume * 2 : ℝ) : ℂ) * ((Real.exp (-vdot g (c.epsilon.mulVec g) / 4) : ℝ) : ℂ) *
    ∑ a, Complex.exp (-Complex.I * (vdot g (c.positions a) : ℂ)) *
      (∑ i, ((∑ j, g j * c.born a j i : ℝ) : ℂ) * ev a i) / ((vdot g (c.epsilon.mulVec g) : ℝ) : ℂ)

/-- The vectors `q + G` of the sum, `G` in the box of the coarse grid; those with a vanishing or a large denominator are
left out. -/
def UsedVector (c : PolarData A) (g : Vec3) : Prop :=
  0 < vdot g (c.epsilon.mulVec g) ∧ vdot g (c.epsilon.mulVec g) < 56

open Classical in
/-- The long-range part, in the box of the coarse grid. -/
noncomputable def frohlich (c : PolarData A) (q : Vec3) (ev : Fin A → Fin 3 → ℂ) : ℂ :=
  ∑ m1 ∈ Finset.Icc (-(c.mesh 0 : ℤ)) (c.mesh 0), ∑ m2 ∈ Finset.Icc (-(c.mesh 1 : ℤ)) (c.mesh 1),
    ∑ m3 ∈ Finset.Icc (-(c.mesh 2 : ℤ)) (c.mesh 2),
      let g : Vec3 := fun i => q i + (c.reciprocal i 0 * m1 + c.reciprocal i 1 * m2 + c.reciprocal i 2 * m3)
      if UsedVector c g then frohlichTerm c ev g else 0

end Verif.Spec
