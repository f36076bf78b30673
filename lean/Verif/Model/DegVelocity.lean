import Verif.Model.Basic
import Mathlib.Algebra.Order.Field.Basic
import Mathlib.Algebra.Order.AbsoluteValue.Basic
import Mathlib.Analysis.Complex.Basic
import Mathlib.LinearAlgebra.Matrix.ConjTranspose

/-!
# Velocities of degenerate bands on the device, src/harmonic/harmonic.cpp

Energies are in an ordered field and velocities are complex numbers (exact arithmetic).  Integers are natural numbers:
products such as `numK * numBands` are assumed to fit into an `int`.
-/
namespace Verif.Model

variable {α : Type} [Field α] [LinearOrder α]

/-- `sizeSubspace`, L38-49: `threshold` is exceeded first by the band after the block. -/
def degBlockSize (en : Nat → α) (threshold : α) (numBands ib : Nat) : Nat :=
  1 + ((List.range' (ib + 1) (numBands - (ib + 1))).takeWhile fun ib2 => !decide (threshold < |en ib - en ib2|)).length

/-- Assignment to one element of a row. -/
def setRow (row : Nat → Nat) (i v : Nat) : Nat → Nat := fun b => if b = i then v else row b

/-- The loop over the bands of one wavevector, L36-66: `degCount(iK, :)` and the largest block (the neutral value of the
reduction, the smallest integer, is represented by 0, as every block has at least one band); `fuel` bounds the
iterations (each advances by at least one). -/
def degRowLoop (en : Nat → α) (threshold : α) (numBands : Nat) : Nat → Nat → (Nat → Nat) × Nat → (Nat → Nat) × Nat
  | 0, _, st => st
  | fuel + 1, ib, st =>
    if ib < numBands then
      let sizeSubspace := degBlockSize en threshold numBands ib
      let iDeg := if sizeSubspace > st.2 then sizeSubspace else st.2
      let row := if sizeSubspace = 1 then setRow st.1 ib 0
        else (List.range' 1 (sizeSubspace - 1)).foldl (fun r i => setRow r (ib + i) 0) (setRow st.1 ib sizeSubspace)
      degRowLoop en threshold numBands fuel (ib + (sizeSubspace - 1) + 1) (row, iDeg)
    else st

/-- `degCount`, L25 (arrays start with zeros) and L34-67. -/
def degCountView (en : Nat → Nat → α) (threshold : α) (numBands : Nat) : Nat → Nat → Nat := fun iK =>
  (degRowLoop (en iK) threshold numBands numBands 0 (fun _ => 0, 0)).1

/-- `maxDegeneracy`, L34-67: the maximum over the wavevectors. -/
def maxDegeneracy (en : Nat → Nat → α) (threshold : α) (numK numBands : Nat) : Nat :=
  (List.range numK).foldl (fun m iK => max m (degRowLoop (en iK) threshold numBands numBands 0 (fun _ => 0, 0)).2) 0

/-- `numMatrices`, L75-83. -/
def numMatrices (deg : Nat → Nat → Nat) (numK numBands iDeg : Nat) : Nat :=
  (List.range numK).foldl (fun m iK =>
    (List.range numBands).foldl (fun m ib => if deg iK ib = iDeg then m + 1 else m) m) 0

/-- `parallel_scan`, L112-122: an exclusive scan, by the contract of Kokkos. -/
def exclScan : List Nat → Nat → List Nat
  | [], _ => []
  | v :: l, update => update :: exclScan l (update + v)

/-- `scan`, L102-122: the flags of all states, then their exclusive scan. -/
def scanView (deg : Nat → Nat → Nat) (numK numBands iDeg : Nat) : List Nat :=
  exclScan ((List.range numK).flatMap fun ik => (List.range numBands).map fun ib => if iDeg = deg ik ib then 1 else 0) 0

/-- `funcK` and `funcB`, L124-137: the iterations of the parallel loop run in any `order`; writing beyond the end of an
array is undefined. -/
def funcKB (deg : Nat → Nat → Nat) (numK numBands iDeg : Nat) (order : List (Nat × Nat)) : Outcome (List (Nat × Nat)) :=
  let scan := scanView deg numK numBands iDeg
  order.foldlM (fun func (p : Nat × Nat) =>
    match scan[p.1 * numBands + p.2]? with
    | none => .ub
    | some iMat =>
      if deg p.1 p.2 = iDeg then if iMat < func.length then .ok (func.set iMat p) else .ub else .ok func)
    (List.replicate (numMatrices deg numK numBands iDeg) (0, 0))

/-- The velocity operator: wavevector, two bands, direction. -/
abbrev VelView := Nat → Nat → Nat → Nat → ℂ

/-- `subVelocity`, L141-152: the Hermitian part of a block. -/
noncomputable def subVelocity (v : VelView) (ik ib iCart d : Nat) : Matrix (Fin d) (Fin d) ℂ := fun i j =>
  0.5 * (v ik (ib + i) (ib + j) iCart + (starRingEnd ℂ) (v ik (ib + j) (ib + i) iCart))

/-- Rotation to the new basis, L171-201: `subMat` rotated by the matrix `u`. -/
noncomputable def rotateBlock {d : Nat} (u s : Matrix (Fin d) (Fin d) ℂ) : Matrix (Fin d) (Fin d) ℂ :=
  let tmp : Fin d → Fin d → ℂ := fun i j => (List.finRange d).foldl (fun t k => t + (starRingEnd ℂ) (u k i) * s k j) 0
  fun i j => (List.finRange d).foldl (fun t k => t + tmp i k * u k j) 0

/-- One degree of degeneracy, L71-202.  `zheev` gives the eigenvectors of a Hermitian matrix (an external library).  The
loops of L171-201 only read copies (`subVelocity`, `newEigenvectors`), and the last one writes its elements in any
`order`; the array indices are in range because `iMatCart < 3 * numMatrices`. -/
noncomputable def treatDegree (zheev : (d : Nat) → Matrix (Fin d) (Fin d) ℂ → Matrix (Fin d) (Fin d) ℂ)
    (deg : Nat → Nat → Nat) (numK numBands iDeg : Nat) (order1 : List (Nat × Nat))
    (order2 : List (Nat × Fin iDeg × Fin iDeg)) (v : VelView) : Outcome VelView := do
  let func ← funcKB deg numK numBands iDeg order1
  let result : Nat → Fin iDeg → Fin iDeg → ℂ := fun iMatCart i j =>
    let p := func.getD (iMatCart / 3) (0, 0)
    let s := subVelocity v p.1 p.2 (iMatCart % 3) iDeg
    rotateBlock (zheev iDeg s) s i j
  .ok (order2.foldl (fun (w : VelView) (x : Nat × Fin iDeg × Fin iDeg) =>
    let p := func.getD (x.1 / 3) (0, 0)
    fun k a b c => if k = p.1 ∧ a = p.2 + x.2.1 ∧ b = p.2 + x.2.2 ∧ c = x.1 % 3 then result x.1 x.2.1 x.2.2 else w k a b c) v)

/-- `HarmonicHamiltonian::kokkosBatchedTreatDegenerateVelocities`, L3-206; the orders of the parallel loops are given
for each degree of degeneracy. -/
noncomputable def treatDegenerateVelocities (zheev : (d : Nat) → Matrix (Fin d) (Fin d) ℂ → Matrix (Fin d) (Fin d) ℂ)
    (en : Nat → Nat → α) (threshold : α) (numK numBands : Nat) (order1 : Nat → List (Nat × Nat))
    (order2 : (iDeg : Nat) → List (Nat × Fin iDeg × Fin iDeg)) (v : VelView) : Outcome VelView :=
  let deg := degCountView en threshold numBands
  (List.range' 2 (maxDegeneracy en threshold numK numBands - 1)).foldlM
    (fun w iDeg => treatDegree zheev deg numK numBands iDeg (order1 iDeg) (order2 iDeg) w) v

end Verif.Model
