import Verif.Model.ElWannier

/-!
# src/interaction/interaction_elph.cpp: coupling of electrons and phonons

Numbers are reals and complex numbers (no rounding).  Bands are natural numbers (they may be restricted to a window),
Wannier functions, displacements and lattice vectors are elements of finite types.
-/
namespace Verif.Model

/-- The data of an `InteractionElPhWan`, src/interaction/interaction_elph.cpp L11-60: `coupling irE irP nu iw1 iw2` is
`couplingWannier_k`, with `iw1` for the state at k and `iw2` for that at k+q. -/
structure ElPhData (E P M W : Nat) where
  coupling : Fin E → Fin P → Fin M → Fin W → Fin W → ℂ
  elVectors : Fin E → Vec3
  elDegeneracies : Fin E → ℝ
  phVectors : Fin P → Vec3
  phDegeneracies : Fin P → ℝ

/-- `elPhCached` and other arrays over lattice vectors, displacements, bands at k and Wannier functions at k+q. -/
abbrev CachedCoupling (P M W : Nat) := Fin P → Fin M → Nat → Fin W → ℂ

variable {E P M W : Nat}

/-- `phases_k`, src/interaction/interaction_elph.cpp L564-573; also `phases`, L355-366. -/
noncomputable def elphPhase (k R : Vec3) (degeneracy : ℝ) : ℂ := hostPhase (vdot k R) / (degeneracy : ℂ)

/-- `g1`, src/interaction/interaction_elph.cpp L577-624: sum over the lattice vectors `vectors` that the process holds. -/
noncomputable def elphFourier (d : ElPhData E P M W) (vectors : List (Fin E)) (k1 : Vec3) (irP : Fin P) (nu : Fin M)
    (iw1 iw2 : Fin W) : ℂ :=
  (vectors.map fun irE => d.coupling irE irP nu iw1 iw2 * elphPhase k1 (d.elVectors irE) (d.elDegeneracies irE)).sum

/-- The rotation, src/interaction/interaction_elph.cpp L635-645 and L653-663.  The memory of `eigvec1`, a matrix with
columns for bands in the layout of Eigen, is read as a matrix with rows for bands in the layout of Kokkos
(L548-556): `eigvec1_k(ib1, iw1)` is `eigvec1(iw1, ib1)`. -/
noncomputable def elphRotate (d : ElPhData E P M W) (vectors : List (Fin E)) (k1 : Vec3) (ev1 : Fin W → Nat → ℂ) :
    CachedCoupling P M W := fun irP nu ib1 iw2 =>
  ((List.finRange W).map fun iw1 => elphFourier d vectors k1 irP nu iw1 iw2 * ev1 iw1 ib1).sum

/-- `InteractionElPhWan::cacheElPh`, src/interaction/interaction_elph.cpp L492-701, as seen by the process `own` of a
pool whose processes hold the lattice vectors `shares` and ask for the wavevectors and eigenvectors `asked`: in round
`iPool` all the processes compute with the data of process `iPool`, and the sum is sent to it (L679-693). -/
noncomputable def cacheElPh (d : ElPhData E P M W) (shares : List (List (Fin E))) (asked : Nat → Vec3 × (Fin W → Nat → ℂ))
    (own : Nat) : CachedCoupling P M W :=
  match shares with
  | [vectors] => elphRotate d vectors (asked own).1 (asked own).2
  | _ => fun irP nu ib1 iw2 =>
    (shares.map fun vectors => elphRotate d vectors (asked own).1 (asked own).2 irP nu ib1 iw2).sum

/-- One entry of the lists given to `calcCouplingSquared`: wavevector, number of bands and eigenvectors at k+q,
eigenvectors of the phonons (column `nu`), polar data. -/
structure CouplingItem (M W : Nat) where
  q : Vec3
  nb2 : Nat
  ev2 : Fin W → Nat → ℂ
  ev3 : Fin M → Fin M → ℂ
  polar : Fin M → ℂ

/-- `InteractionElPhWan::polarCorrectionPart2`, src/interaction/interaction_elph.cpp L208-227. -/
noncomputable def polarPart2 (ev1 ev2 : Fin W → Nat → ℂ) (x : Fin M → ℂ) (ib1 ib2 : Nat) (nu : Fin M) : ℂ :=
  x nu * ∑ iw, (starRingEnd ℂ) (ev2 iw ib2) * ev1 iw ib1

/-- `InteractionElPhWan::calcCouplingSquared`, src/interaction/interaction_elph.cpp L229-447, for one entry: arrays have
as many bands as the entry with most bands (`nb2max`); eigenvectors beyond `nb2` are zero (L319), polar corrections
beyond `nb2` are not initialised (`garbage`, L279-280).  Result: coupling of `ib1`, `ib2`, `nu`. -/
noncomputable def couplingSquared (d : ElPhData E P M W) (usePolar : Bool) (cached : CachedCoupling P M W)
    (ev1 : Fin W → Nat → ℂ) (garbage : ℂ) (it : CouplingItem M W) (ib1 ib2 : Nat) (nu : Fin M) : ℝ :=
  let g3 : Fin M → Fin W → ℂ := fun mu iw2 =>
    ((List.finRange P).map fun irP =>
      elphPhase it.q (d.phVectors irP) (d.phDegeneracies irP) * cached irP mu ib1 iw2).sum
  let g4 : Fin W → ℂ := fun iw2 => ((List.finRange M).map fun mu => g3 mu iw2 * it.ev3 mu nu).sum
  let ev2Dagger : Fin W → ℂ := fun iw2 => if ib2 < it.nb2 then (starRingEnd ℂ) (it.ev2 iw2 ib2) else 0
  let gFinal : ℂ := ((List.finRange W).map fun iw2 => ev2Dagger iw2 * g4 iw2).sum
  let correction : ℂ :=
    if ib2 < it.nb2 then
      open Classical in
      if usePolar && decide (1.0e-8 < Real.sqrt (vdot it.q it.q)) then polarPart2 ev1 it.ev2 it.polar ib1 ib2 nu else 0
    else garbage
  let g := if usePolar then gFinal + correction else gFinal
  g.re * g.re + g.im * g.im

/-- The list of results for a batch, src/interaction/interaction_elph.cpp L429-445. -/
noncomputable def calcCouplingSquared (d : ElPhData E P M W) (usePolar : Bool) (cached : CachedCoupling P M W)
    (ev1 : Fin W → Nat → ℂ) (garbage : Nat → ℂ) (items : List (CouplingItem M W)) :
    List (Nat → Nat → Fin M → ℝ) :=
  items.zipIdx.map fun t => couplingSquared d usePolar cached ev1 (garbage t.2) t.1

/-! ## Polar correction -/

/-- What `polarCorrectionPart1` gathers, src/interaction/interaction_elph.cpp L138-151. -/
structure PolarData (A : Nat) where
  volume : ℝ
  reciprocal : Mat3
  epsilon : Mat3
  born : Fin A → Mat3
  positions : Fin A → Vec3
  mesh : Fin 3 → Nat

variable {A : Nat}

/-- The range `-n, ..., n` of the loops of src/interaction/interaction_elph.cpp L171-173. -/
def symmetricRange (n : Nat) : List Int := (List.range (2 * n + 1)).map fun (i : Nat) => Int.ofNat i - Int.ofNat n

/-- `gVectors`, src/interaction/interaction_elph.cpp L169-181. -/
noncomputable def polarVectors (c : PolarData A) (q : Vec3) : List Vec3 :=
  (symmetricRange (c.mesh 0)).flatMap fun (m1 : Int) => (symmetricRange (c.mesh 1)).flatMap fun (m2 : Int) =>
    (symmetricRange (c.mesh 2)).map fun (m3 : Int) => c.reciprocal.mulVec ![(m1 : ℝ), (m2 : ℝ), (m3 : ℝ)] + q

/-- `qEq`, src/interaction/interaction_elph.cpp L187. -/
noncomputable def polarQEq (c : PolarData A) (g : Vec3) : ℝ := vdot g (c.epsilon.mulVec g)

/-- The contribution of one vector to `x`, src/interaction/interaction_elph.cpp L187-202; `gqDotZ` uses
`bornCharges(iAt, j, iPol)`.  Displacements are pairs of an atom and a direction. -/
noncomputable def polarTerm (c : PolarData A) (ev : Fin A → Fin 3 → ℂ) (g : Vec3) : ℂ :=
  open Classical in
  if 0 < polarQEq c g ∧ polarQEq c g / 4 < 14 then
    ∑ iAt, ∑ iPol, ((2 * constFourPi / c.volume : ℝ) : ℂ) * Complex.I * ((Real.exp (-polarQEq c g / 4) / polarQEq c g : ℝ) : ℂ) *
      hostPhase (-vdot g (c.positions iAt)) * ((∑ j, g j * c.born iAt j iPol : ℝ) : ℂ) * ev iAt iPol
  else 0

/-- `InteractionElPhWan::polarCorrectionPart1Static`, src/interaction/interaction_elph.cpp L153-206, for one mode. -/
noncomputable def polarPart1 (c : PolarData A) (q : Vec3) (ev : Fin A → Fin 3 → ℂ) : ℂ :=
  ((polarVectors c q).map (polarTerm c ev)).sum

end Verif.Model
