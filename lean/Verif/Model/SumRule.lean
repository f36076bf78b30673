import Mathlib.Analysis.SpecialFunctions.Sqrt
import Verif.Model.Basic

/-!
Acoustic sum rules: `PhononH0::setAcousticSumRule`
(src/harmonic/phonon_h0_sum_rule.cpp).

Numbers are reals and `sqrt` is the real square root (no rounding).  Tensors are
functions of indices that are in range by construction: every loop of this file
runs over the dimensions of the tensor it indexes.  Reductions are sums over the
index type.  The messages printed by the head process are not modelled.
-/

namespace Verif.Model

/-- Born effective charges `bornCharges(na, i, j)`
(src/harmonic/phonon_h0.h, member bornCharges, a rank three tensor). -/
abbrev ZVec (A : Nat) := Fin A → Fin 3 → Fin 3 → ℝ

/-- Indices of the force constants, in the order `(n1, n2, n3, i, j, na, nb)` of
`frcNew` (src/harmonic/phonon_h0_sum_rule.cpp L244).  `forceConstants` has the
same entries with `i, j` first. -/
abbrev FcIx (A n1 n2 n3 : Nat) :=
  Fin n1 × Fin n2 × Fin n3 × Fin 3 × Fin 3 × Fin A × Fin A

instance (A n1 n2 n3 : Nat) : DecidableEq (FcIx A n1 n2 n3) :=
  instDecidableEqProd (α := Fin n1) (β := Fin n2 × Fin n3 × Fin 3 × Fin 3 × Fin A × Fin A)

/-- A force-constants tensor (src/harmonic/phonon_h0_sum_rule.cpp L244). -/
abbrev FcVec (A n1 n2 n3 : Nat) := FcIx A n1 n2 n3 → ℝ

/-! ### The rule "simple" -/

/-- Simple sum rule on the charges
(src/harmonic/phonon_h0_sum_rule.cpp L49-60): the mean over the atoms is
subtracted. -/
noncomputable def simpleCharges {A : Nat} (z : ZVec A) : ZVec A :=
  fun na i j => z na i j - (∑ na', z na' i j) / A

/-- One iteration of the loop over `i, j, na`
(src/harmonic/phonon_h0_sum_rule.cpp L64-77): the sum of a row of the force
constants is subtracted from its on-site element. -/
noncomputable def simpleForcesStep {A n1 n2 n3 : Nat} [NeZero n1] [NeZero n2] [NeZero n3]
    (f : FcVec A n1 n2 n3) (r : Fin 3 × Fin 3 × Fin A) : FcVec A n1 n2 n3 :=
  let sum := ∑ nb, ∑ m1, ∑ m2, ∑ m3, f (m1, m2, m3, r.1, r.2.1, r.2.2, nb)
  Function.update f (0, 0, 0, r.1, r.2.1, r.2.2, r.2.2)
    (f (0, 0, 0, r.1, r.2.1, r.2.2, r.2.2) - sum)

/-- The rows `(i, j, na)` in the order of the loops
(src/harmonic/phonon_h0_sum_rule.cpp L64-66). -/
def fcRows (A : Nat) : List (Fin 3 × Fin 3 × Fin A) :=
  (List.finRange 3).flatMap fun i => (List.finRange 3).flatMap fun j =>
    (List.finRange A).map fun na => (i, j, na)

/-- Simple sum rule on the force constants
(src/harmonic/phonon_h0_sum_rule.cpp L62-79). -/
noncomputable def simpleForces {A n1 n2 n3 : Nat} [NeZero n1] [NeZero n2] [NeZero n3]
    (f : FcVec A n1 n2 n3) : FcVec A n1 n2 n3 :=
  (fcRows A).foldl simpleForcesStep f

/-! ### The rule "crystal": charges -/

/-- Vectors of charges, in the index order `(i, j, iat)` of `zeu_new`
(src/harmonic/phonon_h0_sum_rule.cpp L88). -/
abbrev ZeuVec (A : Nat) := Fin 3 × Fin 3 × Fin A → ℝ

/-- Scalar product (src/harmonic/phonon_h0_sum_rule.cpp L651-666, `sp_zeu`). -/
noncomputable def spZeu {A : Nat} (u v : ZeuVec A) : ℝ := ∑ ix, u ix * v ix

/-- The nine translation vectors, in the order of the counter `p`
(src/harmonic/phonon_h0_sum_rule.cpp L100-112). -/
noncomputable def zeuU (A : Nat) : List (ZeuVec A) :=
  (List.finRange 3).flatMap fun i => (List.finRange 3).map fun j =>
    fun ix => if ix.1 = i ∧ ix.2.1 = j then 1 else 0

/-- One step of the Gram-Schmidt loop on charges
(src/harmonic/phonon_h0_sum_rule.cpp L130-181).  `done` lists the vectors
`zeu_u(q)` for `q < k` (normalized), with the flag telling whether `q` is listed in
`zeu_less`.  The loop over `q` stops before `k - 1`, so the last vector is not
used. -/
noncomputable def zeuStep {A : Nat} (done : List (ZeuVec A × Bool)) (x : ZeuVec A) :
    List (ZeuVec A × Bool) :=
  let w := (done.take (done.length - 1)).foldl
    (fun w q => if q.2 then w else w - spZeu x q.1 • q.1) x
  let norm2 := spZeu w w
  if norm2 > 1.0e-16 then done ++ [(fun ix => w ix / Real.sqrt norm2, false)]
  else done ++ [(x, true)]

/-- Sum rule "crystal" on the charges
(src/harmonic/phonon_h0_sum_rule.cpp L81-236): orthonormalization, projection and
subtraction of the projection. -/
noncomputable def crystalCharges {A : Nat} (z : ZVec A) : ZVec A :=
  let zeuNew : ZeuVec A := fun ix => z ix.2.2 ix.1 ix.2.1
  let us := (zeuU A).foldl zeuStep []
  let w := us.foldl (fun w q => if q.2 then w else w + spZeu q.1 zeuNew • q.1) 0
  fun na i j => (zeuNew - w) (i, j, na)

/-! ### The rule "crystal": force constants -/

/-- Index of the opposite cell along one direction
(src/harmonic/phonon_h0_sum_rule.cpp L358-360): `mod(nr + 1 - n, nr) + 1` for the
index `n` counted from one, that is `mod(nr - n, nr)` for an index counted from
zero. -/
def oppositeCell {n : Nat} (x : Fin n) : Fin n := ⟨(n - x.1) % n, Nat.mod_lt _ x.pos⟩

/-- The element that must equal a given one when force constants are second
derivatives of an energy (src/harmonic/phonon_h0_sum_rule.cpp L358-365): opposite
cell, directions and atoms exchanged. -/
def mirror {A n1 n2 n3 : Nat} (ix : FcIx A n1 n2 n3) : FcIx A n1 n2 n3 :=
  (oppositeCell ix.1, oppositeCell ix.2.1, oppositeCell ix.2.2.1,
    ix.2.2.2.2.1, ix.2.2.2.1, ix.2.2.2.2.2.2, ix.2.2.2.2.2.1)

/-- All indices in the order of the loops that build the symmetry constraints
(src/harmonic/phonon_h0_sum_rule.cpp L298-304). -/
def fcOrder (A n1 n2 n3 : Nat) : List (FcIx A n1 n2 n3) :=
  (List.finRange 3).flatMap fun i => (List.finRange 3).flatMap fun j =>
    (List.finRange A).flatMap fun na => (List.finRange A).flatMap fun nb =>
      (List.finRange n1).flatMap fun m1 => (List.finRange n2).flatMap fun m2 =>
        (List.finRange n3).map fun m3 => (m1, m2, m3, i, j, na, nb)

/-- One iteration of the loop that builds the symmetry constraints
(src/harmonic/phonon_h0_sum_rule.cpp L305-367): an index already listed, in either
column of `ind_v`, or equal to its mirror image, is skipped. -/
def symStep {A n1 n2 n3 : Nat} (indV : List (FcIx A n1 n2 n3 × FcIx A n1 n2 n3))
    (ix : FcIx A n1 n2 n3) : List (FcIx A n1 n2 n3 × FcIx A n1 n2 n3) :=
  if indV.any (fun p => p.1 = ix ∨ p.2 = ix) then indV
  else if ix.1 = oppositeCell ix.1 ∧ ix.2.1 = oppositeCell ix.2.1 ∧
      ix.2.2.1 = oppositeCell ix.2.2.1 ∧ ix.2.2.2.1 = ix.2.2.2.2.1 ∧
      ix.2.2.2.2.2.1 = ix.2.2.2.2.2.2 then indV
  else indV ++ [(ix, mirror ix)]

/-- The list `ind_v` (src/harmonic/phonon_h0_sum_rule.cpp L287-375). -/
def symPairs (A n1 n2 n3 : Nat) : List (FcIx A n1 n2 n3 × FcIx A n1 n2 n3) :=
  (fcOrder A n1 n2 n3).foldl symStep []

/-- Scalar product with the `l`-th symmetry vector, which has the value
`1 / sqrt 2` at the first index and `-1 / sqrt 2` at the second
(src/harmonic/phonon_h0_sum_rule.cpp L397-407, L525-535). -/
noncomputable def symScalar {A n1 n2 n3 : Nat} (w : FcVec A n1 n2 n3)
    (p : FcIx A n1 n2 n3 × FcIx A n1 n2 n3) : ℝ :=
  w p.1 * (1 / Real.sqrt 2) + w p.2 * (-1 / Real.sqrt 2)

/-- `w(ind_v(l, rr)) -= scalar * v(l, rr)` for both values of `rr`
(src/harmonic/phonon_h0_sum_rule.cpp L409-418). -/
noncomputable def symSubtract {A n1 n2 n3 : Nat} (w : FcVec A n1 n2 n3)
    (p : FcIx A n1 n2 n3 × FcIx A n1 n2 n3) (scalar : ℝ) : FcVec A n1 n2 n3 :=
  let w1 := Function.update w p.1 (w p.1 - scalar * (1 / Real.sqrt 2))
  Function.update w1 p.2 (w1 p.2 - scalar * (-1 / Real.sqrt 2))

/-- Removal of the components along the symmetry vectors
(src/harmonic/phonon_h0_sum_rule.cpp L396-419). -/
noncomputable def symProject {A n1 n2 n3 : Nat}
    (pairs : List (FcIx A n1 n2 n3 × FcIx A n1 n2 n3)) (w : FcVec A n1 n2 n3) :
    FcVec A n1 n2 n3 :=
  pairs.foldl (fun w p => symSubtract w p (symScalar w p)) w

/-- Labels `(i, j, na)` of the translation vectors, in the order of the counter `p`
(src/harmonic/phonon_h0_sum_rule.cpp L263-285): `na` outermost, `i` innermost. -/
def transLabels (A : Nat) : List (Fin 3 × Fin 3 × Fin A) :=
  (List.finRange A).flatMap fun na => (List.finRange 3).flatMap fun j =>
    (List.finRange 3).map fun i => (i, j, na)

/-- A translation vector (src/harmonic/phonon_h0_sum_rule.cpp L269-281): one on the
elements with the given `i, j, na`, for every cell and every `nb`. -/
noncomputable def transVec {A n1 n2 n3 : Nat} (r : Fin 3 × Fin 3 × Fin A) :
    FcVec A n1 n2 n3 :=
  fun ix => if ix.2.2.2.1 = r.1 ∧ ix.2.2.2.2.1 = r.2.1 ∧ ix.2.2.2.2.2.1 = r.2.2 then 1 else 0

/-- The atom `na1`, counted from one, decoded from the number `k` of the vector
(src/harmonic/phonon_h0_sum_rule.cpp L423-426; the branch for `k > 9 * numAtoms`
is never taken as there are `9 * numAtoms` vectors). -/
def decodeAtom (A k : Nat) : Nat := if k % A = 0 then A else k % A

/-- The direction `i1`, counted from one, decoded from the number `k` of the vector
(src/harmonic/phonon_h0_sum_rule.cpp L427-428).  All the operands are nonnegative,
so natural numbers do. -/
def decodeDir (A k : Nat) : Nat :=
  let t := (k - decodeAtom A k) / A
  let j1 := t % 3 + 1
  ((t + 1 - j1) / 3) % 3 + 1

/-- The scalar product used in the orthogonalization
(src/harmonic/phonon_h0_sum_rule.cpp L445-458): restricted to the elements with
direction `i1` and atom `na1`. -/
noncomputable def rowScalar {A n1 n2 n3 : Nat} (k : Nat) (x u : FcVec A n1 n2 n3) : ℝ :=
  ∑ ix : FcIx A n1 n2 n3,
    if ix.2.2.2.1.1 + 1 = decodeDir A k ∧ ix.2.2.2.2.2.1.1 + 1 = decodeAtom A k then
      x ix * u ix else 0

/-- One step of the Gram-Schmidt loop on the translation vectors
(src/harmonic/phonon_h0_sum_rule.cpp L384-515).  `kept` lists the vectors
`uvec(q)`, `q < k`, that are not in `u_less`; the others are never read again. -/
noncomputable def fcStep {A n1 n2 n3 : Nat}
    (pairs : List (FcIx A n1 n2 n3 × FcIx A n1 n2 n3))
    (kept : List (FcVec A n1 n2 n3)) (lk : (Fin 3 × Fin 3 × Fin A) × Nat) :
    List (FcVec A n1 n2 n3) :=
  let x : FcVec A n1 n2 n3 := transVec lk.1
  let w := kept.foldl (fun w u => w - rowScalar lk.2 x u • u) (symProject pairs x)
  let norm2 := ∑ ix, w ix * w ix
  if norm2 > 1.0e-16 then kept ++ [fun ix => w ix / Real.sqrt norm2] else kept

/-- The vectors that survive the orthonormalization
(src/harmonic/phonon_h0_sum_rule.cpp L377-515). -/
noncomputable def fcBasis (A n1 n2 n3 : Nat) : List (FcVec A n1 n2 n3) :=
  ((transLabels A).zipIdx 1).foldl (fcStep (symPairs A n1 n2 n3)) []

/-- Sum rule "crystal" on the force constants
(src/harmonic/phonon_h0_sum_rule.cpp L238-640): the components along the symmetry
vectors and along the surviving translation vectors are subtracted.  `w += s * v`
(L537-546) is written as the subtraction of `-s` times the vector. -/
noncomputable def crystalForces {A n1 n2 n3 : Nat} (f : FcVec A n1 n2 n3) :
    FcVec A n1 n2 n3 :=
  let w0 : FcVec A n1 n2 n3 := (symPairs A n1 n2 n3).foldl
    (fun w p => symSubtract w p (-(symScalar f p))) 0
  let w := (fcBasis A n1 n2 n3).foldl (fun w u => w + (∑ ix, u ix * f ix) • u) w0
  f - w

/-! ### Entry point -/

/-- `setAcousticSumRule` (src/harmonic/phonon_h0_sum_rule.cpp L8-649): the name of
the rule is compared without regard to case; an empty name leaves the data
unchanged; any other name stops the program. -/
noncomputable def setAcousticSumRule {A n1 n2 n3 : Nat} [NeZero n1] [NeZero n2] [NeZero n3]
    (rule : String) (z : ZVec A) (f : FcVec A n1 n2 n3) :
    Outcome (ZVec A × FcVec A n1 n2 n3) :=
  let sr := rule.toList.map Char.toLower
  if sr = [] then .ok (z, f)
  else if sr ≠ "simple".toList ∧ sr ≠ "crystal".toList then
    .error
  else if sr = "simple".toList then .ok (simpleCharges z, simpleForces f)
  else .ok (crystalCharges z, crystalForces f)

end Verif.Model
