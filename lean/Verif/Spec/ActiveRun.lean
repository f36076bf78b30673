import Verif.Spec.ActiveStore
import Verif.Model.ActiveRun

import Mathlib.Analysis.SpecialFunctions.Exp

/-! # Specification: the states a transport calculation needs -/
namespace Verif.Spec
open Verif.Model

/-- The product of occupations of a state with energy `e`: `f (1 - f)` for the Fermi-Dirac and `n (n + 1)` for the
Bose-Einstein distribution. -/
noncomputable def occupationFactor (s : Statistics) (e T mu : ℝ) : ℝ :=
  match s with
  | .fermi =>
    let f := 1 / (Real.exp ((e - mu) / T) + 1)
    f * (1 - f)
  | .bose =>
    let n := 1 / (Real.exp ((e - mu) / T) - 1)
    n * (n + 1)

/-- The user asks to keep a state of energy `e` in a calculation at temperature `T` and chemical potential `mu`. -/
inductive Wanted (s : Statistics) (w : WindowInput) (T mu e : ℝ) : Prop
  /-- Inside the window of energies of the input. -/
  | energy (a b : ℝ) (h : w.windowType = "energy") (hl : w.energyLimit = some (a, b)) (h1 : min a b < e)
      (h2 : e < max a b)
  /-- Inside the window of energies of the input, measured from the chemical potential. -/
  | centered (a b : ℝ) (h : w.windowType = "muCenteredEnergy") (hl : w.energyLimit = some (a, b))
      (h1 : mu + min a b < e) (h2 : e < mu + max a b)
  /-- Occupation factor above the limit of the input, which is `1e-10` if not given. -/
  | population (h : w.windowType = "population") (hp : w.populationLimit.getD 1e-10 < occupationFactor s e T mu)
  /-- No window. -/
  | all (h : w.windowType = "nothing")

/-- Band `b` of point `ik` of the mesh is in the active band structure whose points, first and last bands are the
lists `f`. -/
def BandKept (f : List Nat × List Nat × List Nat) (ik b : Nat) : Prop :=
  ∃ ia, f.1[ia]? = some ik ∧ f.2.1.getD ia 0 ≤ b ∧ b ≤ f.2.2.getD ia 0

/-- Band `b` of point `ik` of the mesh is in the active band structure and the arrays `out` of all processes give it
the energy `e`. -/
def StateKept {γ : Type} (bands : Nat) (f : List Nat × List Nat × List Nat) (out : List (ActiveArrays ℝ γ)) (ik b : Nat)
    (e : ℝ) : Prop :=
  ∃ ia, f.1[ia]? = some ik ∧ f.2.1.getD ia 0 ≤ b ∧ b ≤ f.2.2.getD ia 0 ∧
    ∀ A ∈ out, A.getEnergy ((activeLayoutOf bands f).bloch2Comb ia (b - f.2.1.getD ia 0)) = .ok e

/-- An execution of the scan of the `n` points of the mesh by `size` processes and their threads: process `r` has
the points `pts r`, divided among its threads in the consecutive chunks `chunks r`, and finds `mine[r]`. -/
structure ActiveScan (n size : Nat) (sel : Nat → Option (Nat × Nat)) (mine : List (List (Nat × (Nat × Nat)))) : Prop where
  pos : 0 < size
  fit : size * size < 2 ^ 64
  int : (size : Int) ≤ intMax
  len : mine.length = size
  run : ∃ (pts : Nat → List Nat) (chunks : Nat → List (List Nat)),
    (List.range size).flatMap pts = List.range n ∧ (∀ r, r < size → (chunks r).flatten = pts r) ∧
    ∀ r (hr : r < mine.length), ScanRun sel (chunks r) mine[r]

/-- The assignments made as postprocessing (src/bands/active_bandstructure.cpp L981-1060), in any order: each process
stores the points it found. -/
def PostWrites {κ γ : Type} (size bands : Nat) (mine : List (List (Nat × (Nat × Nat)))) (H : HamView κ ℝ γ)
    (coords : Nat → κ) (f : List Nat × List Nat × List Nat) (we : Nat → List (Nat × ℝ)) (wu wv : Nat → List (Nat × γ)) :
    Prop :=
  let B := activeLayoutOf bands f
  let k := fun ik => coords (f.1.getD ik 0)
  let first := fun ik => f.2.1.getD ik 0
  ∀ r, r < size →
    let disp := displacement (mine.map List.length) r
    let points := (mine.getD r []).map (·.1)
    (we r).Perm (postStore disp points fun ika ik =>
      B.energyAt ika fun ib => H.energy (coords ik) (first ika + ib)) ∧
    (wu r).Perm (postStore disp points fun ika ik =>
      B.vectorAt ika fun i ib => H.vector (coords ik) i (first ika + ib)) ∧
    (wv r).Perm (postStore disp points fun ika _ => B.velocityAt ika fun ib1 ib2 c =>
      H.velocity (k ika) (first ika + ib1) (first ika + ib2) c)

/-- The assignments made on the fly (src/bands/active_bandstructure.cpp L693-735), in any order: the active points are
divided among the processes. -/
def FlyWrites {κ γ : Type} (size bands : Nat) (H : HamView κ ℝ γ)
    (coords : Nat → κ) (f : List Nat × List Nat × List Nat) (we : Nat → List (Nat × ℝ)) (wu wv : Nat → List (Nat × γ)) :
    Prop :=
  let B := activeLayoutOf bands f
  let k := fun ik => coords (f.1.getD ik 0)
  let first := fun ik => f.2.1.getD ik 0
  ∀ r, r < size → ∃ iks, divideWorkIter B.numPoints r size = .ok iks ∧
    (we r).Perm (iks.flatMap fun ik => B.energyAt ik fun ib => H.energy (k ik) (first ik + ib)) ∧
    (wu r).Perm (iks.flatMap fun ik => B.vectorAt ik fun i ib => H.vector (k ik) i (first ik + ib)) ∧
    (wv r).Perm (iks.flatMap fun ik => B.velocityAt ik fun ib1 ib2 c =>
      H.velocity (k ik) (first ik + ib1) (first ik + ib2) c)

end Verif.Spec
