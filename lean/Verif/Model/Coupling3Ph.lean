import Verif.Model.Basic
import Mathlib.Analysis.SpecialFunctions.Complex.CircleAddChar
import Mathlib.Analysis.Complex.Basic

/-!
# Three-phonon couplings, src/interaction/interaction_3ph.cpp

Floating-point numbers are modelled as real and complex numbers.  An array is a function of its indices; where the
extents matter (the constructor, the masks, the maximal numbers of bands) they are modelled.
-/
namespace Verif.Model

/-- A loop that adds `f 0`, ..., `f (n-1)` to a variable that starts at zero. -/
def loopSum {α : Type} [Zero α] [Add α] (n : Nat) (f : Nat → α) : α := (List.range n).foldl (fun acc i => acc + f i) 0

/-- The members of `Interaction3Ph`, src/interaction/interaction_3ph.h. -/
structure Coupling3Ph where
  numAtoms : Nat
  nr2 : Nat
  nr3 : Nat
  cellPositions2 : Nat → Fin 3 → ℝ
  cellPositions3 : Nat → Fin 3 → ℝ
  weights2 : Nat → Nat → Nat → ℝ
  weights3 : Nat → Nat → Nat → ℝ
  D3 : Nat → Nat → Nat → Nat → Nat → ℝ
  plusCached : Nat → Nat → Nat → Nat → ℂ
  minsCached : Nat → Nat → Nat → Nat → ℂ

/-- `numBands`, L13. -/
def Coupling3Ph.numBands (o : Coupling3Ph) : Nat := o.numAtoms * 3

/-- `Interaction3Ph::Interaction3Ph`, L5-68.  The positions arrive as matrices with one column per vector.  The third
array of weights is allocated with `nr2` rows (L20) and filled with `nr3` rows (L40): writing beyond its end is
undefined.  The memory accounting (L66-67) is in `Verif.Model.Device`. -/
def Coupling3Ph.make (numAtoms nr2 nr3 : Nat) (D3 : Nat → Nat → Nat → Nat → Nat → ℝ)
    (cellPositions2 cellPositions3 : Fin 3 → Nat → ℝ) (weights2 weights3 : Nat → Nat → Nat → ℝ) : Outcome Coupling3Ph :=
  if 0 < numAtoms ∧ nr2 < nr3 then .ub
  else .ok ⟨numAtoms, nr2, nr3, fun i j => cellPositions2 j i, fun i j => cellPositions3 j i, weights2, weights3, D3,
    fun _ _ _ _ => 0, fun _ _ _ _ => 0⟩

/-- Phases of `cacheD3`, L128-150: `sign * q . R`, accumulated component by component. -/
noncomputable def phase3 (sign : ℝ) (q r : Fin 3 → ℝ) : ℂ :=
  Complex.exp (Complex.I * ((([0, 1, 2] : List (Fin 3)).foldl (fun arg ic => arg + sign * q ic * r ic) (0 : ℝ) : ℝ) : ℂ))

/-- `Interaction3Ph::cacheD3`, L100-175. -/
noncomputable def Coupling3Ph.cacheD3 (o : Coupling3Ph) (q2 : Fin 3 → ℝ) : Coupling3Ph :=
  let phasePlus2 := fun ir2 => phase3 (1) q2 (o.cellPositions2 ir2)
  let phaseMins2 := fun ir2 => phase3 (-1) q2 (o.cellPositions2 ir2)
  let phasePlus3 := fun ir3 => phase3 (-1) q2 (o.cellPositions3 ir3)
  let phaseMins3 := fun ir3 => phase3 (1) q2 (o.cellPositions3 ir3)
  { o with
    plusCached := fun ind1 ind2 ind3 ir3 => loopSum o.nr2 fun ir2 =>
      (o.D3 ind1 ind2 ind3 ir3 ir2 : ℂ) * phasePlus2 ir2 * phasePlus3 ir3 * (o.weights2 ir2 (ind1 / 3) (ind2 / 3) : ℂ)
        * (o.weights3 ir3 (ind1 / 3) (ind3 / 3) : ℂ)
    minsCached := fun ind1 ind2 ind3 ir3 => loopSum o.nr2 fun ir2 =>
      (o.D3 ind1 ind2 ind3 ir3 ir2 : ℂ) * phaseMins2 ir2 * phaseMins3 ir3 * (o.weights2 ir2 (ind1 / 3) (ind2 / 3) : ℂ)
        * (o.weights3 ir3 (ind1 / 3) (ind3 / 3) : ℂ) }

/-- What `getCouplingsSquared` gets for one wavevector of a batch: the wavevector, the eigenvectors (rows: atom and
direction, columns: bands) and the numbers of bands. -/
structure CouplingInput where
  q1 : Fin 3 → ℝ
  ev1 : Nat → Nat → ℂ
  ev3Plus : Nat → Nat → ℂ
  ev3Mins : Nat → Nat → ℂ
  nb1 : Nat
  nb3Plus : Nat
  nb3Mins : Nat

/-- A tensor with its extents. -/
structure Tensor3 where
  d0 : Nat
  d1 : Nat
  d2 : Nat
  val : Nat → Nat → Nat → ℝ

/-- Eigenvectors copied to an array that starts with zeros, transposed, `nb` bands, L220-246. -/
def evView (nb : Nat) (ev : Nat → Nat → ℂ) : Nat → Nat → ℂ := fun ib iac => if ib < nb then ev iac ib else 0

/-- `int mask`, multiplied to a number. -/
def maskIf (b : Bool) : ℂ := if b then 1 else 0

/-- The Fourier transform over the third lattice vector, L275-290. -/
noncomputable def tmpView (o : Coupling3Ph) (cached : Nat → Nat → Nat → Nat → ℂ) (q1 : Fin 3 → ℝ) :
    Nat → Nat → Nat → ℂ := fun iac1 iac2 iac3 =>
  loopSum o.nr3 fun ir3 =>
    cached iac1 iac2 iac3 ir3 * phase3 (-1) q1 (o.cellPositions3 ir3) * (o.weights3 ir3 (iac1 / 3) (iac3 / 3) : ℂ)

/-- `tmp1Plus` and `tmp1Mins`, L294-309 (indices: band, third and second atomic index). -/
def tmp1View (numBands nb1 : Nat) (tmp : Nat → Nat → Nat → ℂ) (ev1 : Nat → Nat → ℂ) : Nat → Nat → Nat → ℂ :=
  fun ib1 iac3 iac2 => loopSum numBands (fun iac1 => tmp iac1 iac2 iac3 * ev1 ib1 iac1) * maskIf (decide (ib1 < nb1))

/-- `tmp2Plus` and `tmp2Mins`, L313-329; `ev2` is already conjugated for the minus process. -/
def tmp2View (numBands nb1 : Nat) (tmp1 : Nat → Nat → Nat → ℂ) (ev2 : Nat → Nat → ℂ) : Nat → Nat → Nat → ℂ :=
  fun ib1 ib2 iac3 => loopSum numBands (fun iac2 => tmp1 ib1 iac3 iac2 * ev2 ib2 iac2) * maskIf (decide (ib1 < nb1))

/-- `vPlus` and `vMins`, L333-361. -/
noncomputable def vView (numBands nb1 nb3 : Nat) (tmp2 : Nat → Nat → Nat → ℂ) (ev3 : Nat → Nat → ℂ) :
    Nat → Nat → Nat → ℂ := fun ib1 ib2 ib3 =>
  loopSum numBands (fun iac3 => tmp2 ib1 ib2 iac3 * (starRingEnd ℂ) (ev3 ib3 iac3)) *
    maskIf (decide (ib1 < nb1) && decide (ib3 < nb3))

/-- L365-383. -/
noncomputable def normView (v : Nat → Nat → Nat → ℂ) : Nat → Nat → Nat → ℝ := fun ib1 ib2 ib3 =>
  (v ib1 ib2 ib3).re * (v ib1 ib2 ib3).re + (v ib1 ib2 ib3).im * (v ib1 ib2 ib3).im

/-- The couplings of one wavevector of the batch, L188-383; the loops are parallel and each writes only its own
elements, so the wavevectors are independent. -/
noncomputable def couplingsOne (o : Coupling3Ph) (ev2 : Nat → Nat → ℂ) (nb2 : Nat) (x : CouplingInput) :
    Tensor3 × Tensor3 :=
  let e1 := evView x.nb1 x.ev1
  let e2 := evView nb2 ev2
  let tmpPlus := tmpView o o.plusCached x.q1
  let tmpMins := tmpView o o.minsCached x.q1
  let tmp1Plus := tmp1View o.numBands x.nb1 tmpPlus e1
  let tmp1Mins := tmp1View o.numBands x.nb1 tmpMins e1
  let tmp2Plus := tmp2View o.numBands x.nb1 tmp1Plus e2
  let tmp2Mins := tmp2View o.numBands x.nb1 tmp1Mins fun ib2 iac2 => (starRingEnd ℂ) (e2 ib2 iac2)
  let vPlus := vView o.numBands x.nb1 x.nb3Plus tmp2Plus (evView x.nb3Plus x.ev3Plus)
  let vMins := vView o.numBands x.nb1 x.nb3Mins tmp2Mins (evView x.nb3Mins x.ev3Mins)
  (⟨x.nb1, nb2, x.nb3Plus, normView vPlus⟩, ⟨x.nb1, nb2, x.nb3Mins, normView vMins⟩)

/-- `Interaction3Ph::getCouplingsSquared`, L176-405; the wavevector of the second phonon is an argument that is not
used (L187).  With an empty batch the largest element of an empty vector is read (L203-205). -/
noncomputable def getCouplingsSquared (o : Coupling3Ph) (batch : List CouplingInput) (_q2 : Fin 3 → ℝ)
    (ev2 : Nat → Nat → ℂ) (nb2 : Nat) : Outcome (List (Tensor3 × Tensor3)) :=
  if batch = [] then .ub else .ok (batch.map (couplingsOne o ev2 nb2))

end Verif.Model
