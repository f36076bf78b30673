import Verif.Model.EpaAverage

/-! Vocabulary of the statements on averages of the coupling over energies. -/
namespace Verif.Spec
open Verif.Model

variable {N B M : Nat}

/-- Gaussian weight of a state of energy `e` in the bin at `center`. -/
noncomputable def binWeight (smearing center e : ℝ) : ℝ := Real.exp (-((e - center) ^ 2 / (2 * smearing ^ 2)))

/-- Weight of the transition from band `ib2` at `ik` to band `ib1` at `k + q`, for the bins at `ei` and `ej`.
All indices of wavevectors are those of the file; `order` gives the position in the mesh. -/
noncomputable def transitionWeight (order : Equiv.Perm (Fin N)) (energies : Fin B → Fin N → ℝ) (smearing ei ej : ℝ)
    (s : EpaQPoint N B M) (ik : Fin N) (ib2 ib1 : Fin B) : ℝ :=
  binWeight smearing ei (energies ib2 ik) * binWeight smearing ej (energies ib1 (order.symm (s.kPlusQ (order ik))))

/-- Squared coupling for transport, `|g|^2 / (2 omega)`, zero for the acoustic phonons at q = 0. -/
noncomputable def transportCoupling (cutoff : ℝ) (s : EpaQPoint N B M) (ik : Fin N) (ib2 ib1 : Fin B) (nu : Fin M) : ℝ :=
  open Classical in
  if s.phEnergies nu ≤ cutoff then 0 else Complex.normSq (s.g ik ib1 ib2 nu) / (2 * s.phEnergies nu)

/-- Sum of the weights over all transitions. -/
noncomputable def weightSum (order : Equiv.Perm (Fin N)) (energies : Fin B → Fin N → ℝ) (smearing ei ej : ℝ)
    (points : List (EpaQPoint N B M)) : ℝ :=
  (points.map fun s => ∑ ik, ∑ ib2, ∑ ib1, transitionWeight order energies smearing ei ej s ik ib2 ib1).sum

/-- Mean of the squared coupling over all transitions with these weights. -/
noncomputable def couplingMean (order : Equiv.Perm (Fin N)) (energies : Fin B → Fin N → ℝ) (smearing cutoff ei ej : ℝ)
    (points : List (EpaQPoint N B M)) (nu : Fin M) : ℝ :=
  (points.map fun s => ∑ ik, ∑ ib2, ∑ ib1, transportCoupling cutoff s ik ib2 ib1 nu *
    transitionWeight order energies smearing ei ej s ik ib2 ib1).sum / weightSum order energies smearing ei ej points

end Verif.Spec
