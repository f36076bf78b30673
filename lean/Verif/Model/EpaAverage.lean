import Verif.Model.EpaRates
import Verif.Model.Mpi
import Mathlib.Analysis.SpecialFunctions.Exp
import Mathlib.Analysis.Complex.Basic

/-!
# src/apps/qe_to_phoebe_epa.cpp: averages of the coupling over energies, and the file they are written to

Numbers are reals (no rounding).  `N` wavevectors of the mesh of the electrons, `B` bands, `M` modes.
-/
namespace Verif.Model

/-- What is read from the file of one star of wavevectors q, src/apps/elph_qe_to_phoebe_app.cpp L80-168, for one of the
wavevectors: energies of the phonons, index of `k + q` for each k (`Points::getIndex`, C12, src/apps/qe_to_phoebe_epa.cpp
L121-123), and the coupling in the order of the file: `g ik ib1 ib2 nu`, where `ik` is the index of Quantum ESPRESSO. -/
structure EpaQPoint (N B M : Nat) where
  phEnergies : Fin M → ℝ
  kPlusQ : Fin N → Fin N
  g : Fin N → Fin B → Fin B → Fin M → ℂ

variable {N B M : Nat}

/-- `gStar(ib1, ib2, nu, ik, iqStar)`, src/apps/elph_qe_to_phoebe_app.cpp L105, L149-164: zero, then each wavevector of
the file is written to the index `ikMap` of the mesh. -/
def epaGStar (ikMap : Fin N → Fin N) (s : EpaQPoint N B M) (ib1 ib2 : Fin B) (nu : Fin M) (ik : Fin N) : ℂ :=
  (List.finRange N).foldl (fun acc ikOld => if ikMap ikOld = ik then s.g ikOld ib1 ib2 nu else acc) 0

/-- `gaussian(i, ib, ik)`, src/apps/qe_to_phoebe_epa.cpp L49-63; `energies ib ik` with the index of Quantum ESPRESSO. -/
noncomputable def epaGaussian (energies : Fin B → Fin N → ℝ) (smearing : ℝ) (center : ℝ) (ib : Fin B) (ik : Fin N) : ℝ :=
  Real.exp (-((energies ib ik - center) ^ 2 / (2 * smearing ^ 2)))

/-- The contribution of a wavevector q to `normalization(i, j)`, src/apps/qe_to_phoebe_epa.cpp L114-135; `ei` and `ej` are
the energies of bins `i` and `j`. -/
noncomputable def epaNorm (energies : Fin B → Fin N → ℝ) (smearing : ℝ) (ei ej : ℝ) (s : EpaQPoint N B M) : ℝ :=
  ((List.finRange N).map fun ik => ((List.finRange B).map fun ib2 => ((List.finRange B).map fun ib1 =>
    epaGaussian energies smearing ei ib2 ik * epaGaussian energies smearing ej ib1 (s.kPlusQ ik)).sum).sum).sum

open Classical in
/-- The contribution of a wavevector q to `g2Epa(nu, i, j)`, src/apps/qe_to_phoebe_epa.cpp L114-148; `cutoff` is
`5 / ryToCmm1`. -/
noncomputable def epaCouplingSum (ikMap : Fin N → Fin N) (energies : Fin B → Fin N → ℝ) (smearing cutoff : ℝ) (ei ej : ℝ)
    (nu : Fin M) (s : EpaQPoint N B M) : ℝ :=
  ((List.finRange N).map fun ik => ((List.finRange B).map fun ib2 => ((List.finRange B).map fun ib1 =>
    if s.phEnergies nu ≤ cutoff then 0
    else Complex.normSq (epaGStar ikMap s ib1 ib2 nu ik) *
      (epaGaussian energies smearing ei ib2 ik * epaGaussian energies smearing ej ib1 (s.kPlusQ ik)) * 0.5 /
      s.phEnergies nu).sum).sum).sum

open Classical in
/-- `g2Epa(nu, i, j)` at the end, src/apps/qe_to_phoebe_epa.cpp L89-166: `shares` are the files of each process (L89),
each a list of wavevectors. -/
noncomputable def epaAverage (ikMap : Fin N → Fin N) (energies : Fin B → Fin N → ℝ) (smearing cutoff : ℝ)
    (shares : List (List (List (EpaQPoint N B M)))) (ei ej : ℝ) (nu : Fin M) : ℝ :=
  let total (f : EpaQPoint N B M → ℝ) : ℝ :=
    (shares.map fun files => (files.map fun star => (star.map f).sum).sum).sum
  let g2 := total (epaCouplingSum ikMap energies smearing cutoff ei ej nu)
  let norm := total (epaNorm energies smearing ei ej)
  if 1.0e-12 < norm then g2 / norm else g2

/-- `phAvgEnergies(nu)`, src/apps/qe_to_phoebe_epa.cpp L105-109 and L154; `numQ` is `qMesh.prod()`. -/
noncomputable def epaPhAverage (shares : List (List (List (EpaQPoint N B M)))) (numQ : Nat) (nu : Fin M) : ℝ :=
  (shares.map fun files => (files.map fun star => (star.map fun s => s.phEnergies nu).sum / (numQ : ℝ)).sum).sum

open Classical in
/-- The bins, src/apps/qe_to_phoebe_epa.cpp L22-42: energies of the bins from the input `epaMinEnergy`, `epaMaxEnergy`,
`epaNumBins` and `epaDeltaEnergy` (`none` if it is not in the input).  A negative number of bins is an exception (the
size of a vector); a quotient that is not an `int` is undefined behaviour. -/
noncomputable def epaBins (minEnergy maxEnergy : ℝ) (numBins : Int) (delta : Option ℝ) : Outcome (List ℝ) :=
  if maxEnergy < minEnergy then .error
  else
    let bins (n : Int) (step : ℝ) : Outcome (List ℝ) :=
      if n < 0 then .error else .ok ((List.range n.toNat).map fun (i : Nat) => i * step + minEnergy)
    match delta with
    | none => bins numBins ((maxEnergy - minEnergy) / numBins)
    | some delta =>
      let n := truncInt ((maxEnergy - minEnergy) / delta)
      if delta = 0 ∨ n < intMin ∨ intMax ≤ n then .ub else bins (n + 1) delta

/-! ## The file -/

/-- What is in the file: number of electrons, spins, energies of the phonons and of the bins, averages
(`coupling i j k`, `j` for the bin of k). -/
structure EpaFile where
  numElectrons : Int
  numSpin : Int
  phEnergies : List ℝ
  energies : List ℝ
  coupling : List (List (List ℝ))

/-- A number in the file.  Simplification: integers are read from integers only. -/
inductive EpaToken where
  | int (n : Int)
  | num (x : ℝ)

/-- The numbers written to the file, src/apps/qe_to_phoebe_epa.cpp L173-188.  `print` is the rounding to the digits that are
written (six significant digits, the default of `std::ostream`). -/
def epaWrite (print : ℝ → ℝ) (f : EpaFile) : List EpaToken :=
  [.int f.numElectrons, .int f.numSpin, .int f.phEnergies.length] ++ (f.phEnergies.map fun x => .num (print x)) ++
    [.int f.energies.length] ++ (f.energies.map fun x => .num (print x)) ++
    (f.coupling.flatten.flatten.map fun x => .num (print x))

/-- Reading of an integer; at the end of the file the variable keeps its value, which is not initialised (`garbage`). -/
def epaReadInt (garbage : Int) : List EpaToken → Int × List EpaToken
  | .int n :: rest => (n, rest)
  | t => (garbage, t)

/-- Reading of a number; at the end of the file the variable keeps its value `old`. -/
def epaReadNum (old : ℝ) : List EpaToken → ℝ × List EpaToken
  | .num x :: rest => (x, rest)
  | t => (old, t)

/-- Reading of `n` numbers into an array whose elements are `old`. -/
def epaReadNums (old : ℝ) : Nat → List EpaToken → List ℝ × List EpaToken
  | 0, t => ([], t)
  | n + 1, t =>
    let r := epaReadNum old t
    let s := epaReadNums old n r.2
    (r.1 :: s.1, s.2)

/-- Reading of `n` rows of `m` numbers. -/
def epaReadRows (old : ℝ) (m : Nat) : Nat → List EpaToken → List (List ℝ) × List EpaToken
  | 0, t => ([], t)
  | n + 1, t =>
    let r := epaReadNums old m t
    let s := epaReadRows old m n r.2
    (r.1 :: s.1, s.2)

/-- Reading of `l` matrices of `n` rows of `m` numbers. -/
def epaReadMats (old : ℝ) (n m : Nat) : Nat → List EpaToken → List (List (List ℝ)) × List EpaToken
  | 0, t => ([], t)
  | l + 1, t =>
    let r := epaReadRows old m n t
    let s := epaReadMats old n m l r.2
    (r.1 :: s.1, s.2)

/-- `InteractionEpa::parseEpaCoupling`, src/interaction/interaction_epa.cpp L56-105.  `garbage` and `garbageNum` are the values
of variables that are not initialised; the coupling is set to zero (L95). -/
def epaRead (garbage : Int) (garbageNum : ℝ) (t : List EpaToken) : Outcome EpaFile :=
  let e := epaReadInt garbage t
  let s := epaReadInt garbage e.2
  if s.1 ≠ 1 then .error
  else
    let m := epaReadInt garbage s.2
    if m.1 < 0 then .error
    else
      let ph := epaReadNums garbageNum m.1.toNat m.2
      let n := epaReadInt garbage ph.2
      if n.1 < 0 then .error
      else
        let en := epaReadNums garbageNum n.1.toNat n.2
        let g := epaReadMats 0 n.1.toNat n.1.toNat m.1.toNat en.2
        .ok ⟨e.1, s.1, ph.1, en.1, g.1⟩

end Verif.Model
