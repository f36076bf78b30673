import Verif.Proofs.Viscosity
import Verif.Props.Transport
import Mathlib.Analysis.SpecialFunctions.Trigonometric.DerivHyp

/-!
# C127, C128: viscosity in the relaxation time approximation and special eigenvectors
-/
namespace Verif.Props
open Verif.Model Verif.Spec

/-! ## C127 -/

/-- The viscosity of phonons in the relaxation time approximation is, on every process and whatever the number of processes
and the schedule of the threads, the sum over the full mesh; modes that are excluded or below the cutoff do not count.  It
has the symmetries of a viscosity and never gives back energy. -/
theorem C127_phonons (B : BandView) (Q : WaveView) (cutoff volume : ℝ) (numPoints : Nat) (stat : Nat → CalcStat)
    (exclude : List Nat) (tau : Nat → Nat → ℝ) (size : Nat) (sched : Nat → List (List Nat)) (star : Nat → List Nat)
    (numStates : Nat) (hrun : MeshRun B size sched star numStates numPoints volume)
    (hQ : ∀ is ∈ B.irr, ∀ p ∈ (B.rots is).zip (star is), Q.fold (matVec p.1 (Q.wave is)) = Q.fold (Q.wave p.2))
    (iCalc : Nat) (htemp : 0 < (stat iCalc).temp)
    (t : Nat → ℝ) (ht : Invariant B.irr star t) (ht' : ∀ is ∈ B.irr, tau iCalc (B.toBte is) = t is)
    (hpos : ∀ s < numStates, 0 ≤ t s)
    (ex : Nat → Prop) [DecidablePred ex] (hex : ∀ is ∈ B.irr, ∀ s ∈ star is, ex s ↔ B.toBte is ∈ exclude)
    (pop : Nat → ℝ)
    (hpop : ∀ s, pop s = if ex s ∨ B.energy s < cutoff then 0 else getPopPopPm1 .bose (B.energy s) (stat iCalc).temp 0) :
    (phViscosityRta B Q cutoff volume numPoints stat exclude tau size sched).length = size ∧
    ∀ f ∈ phViscosityRta B Q cutoff volume numPoints stat exclude tau size sched,
      (∀ i j k l, f iCalc i j k l = meshViscosity numStates numPoints volume 1 (stat iCalc).temp
        (fun s => Q.fold (Q.wave s)) B.vel pop t i j k l) ∧
      IsViscosity (f iCalc) := by
  classical
  obtain ⟨h1, h2⟩ := visc_val B Q .bose (stat iCalc).temp 0 1 volume numPoints
    (fun is => B.toBte is ∈ exclude ∨ B.energy is < cutoff) (fun is => tau iCalc (B.toBte is)) size sched hrun.procs hrun.fits
    hrun.schedule hrun.unfolding hrun.energies hrun.velocities hQ t ht ht' (fun s => ex s ∨ B.energy s < cutoff)
    (fun is his s hs => by rw [hex is his s hs, hrun.energies is his s hs])
    (phViscTerm B Q cutoff (1 / numPoints / volume) stat exclude tau) iCalc (1 / numPoints / volume) rfl
    (by
      intro is _
      unfold phViscTerm
      by_cases ha : B.toBte is ∈ exclude
      · simp [ha]
      · by_cases hb : B.energy is < cutoff
        · simp [hb]
        · simp [ha, hb])
  refine ⟨h1, fun f hf => ?_⟩
  have hval : ∀ i j k l, f iCalc i j k l = meshViscosity numStates numPoints volume 1 (stat iCalc).temp
        (fun s => Q.fold (Q.wave s)) B.vel pop t i j k l := by
    intro i j k l
    rw [h2 f hf i j k l]
    congr 1
    funext s
    rw [hpop s]
  refine ⟨hval, ?_⟩
  have : f iCalc = meshViscosity numStates numPoints volume 1 (stat iCalc).temp
        (fun s => Q.fold (Q.wave s)) B.vel pop t := by
    funext i j k l; exact hval i j k l
  rw [this]
  refine meshViscosity_isViscosity _ _ _ _ _ _ _ _ _ hrun.cell zero_le_one htemp ?_ hpos
  intro s _
  rw [hpop s]
  split
  · exact le_rfl
  · exact (C45_symmetrized _ _ _ _).1

/-- The same for electrons, with the spin factor. -/
theorem C127_electrons (B : BandView) (Q : WaveView) (spin volume : ℝ) (numPoints : Nat) (stat : Nat → CalcStat)
    (tau : Nat → Nat → ℝ) (size : Nat) (sched : Nat → List (List Nat)) (star : Nat → List Nat)
    (numStates : Nat) (hrun : MeshRun B size sched star numStates numPoints volume) (hspin : 0 ≤ spin)
    (hQ : ∀ is ∈ B.irr, ∀ p ∈ (B.rots is).zip (star is), Q.fold (matVec p.1 (Q.wave is)) = Q.fold (Q.wave p.2))
    (iCalc : Nat) (htemp : 0 < (stat iCalc).temp)
    (t : Nat → ℝ) (ht : Invariant B.irr star t) (ht' : ∀ is ∈ B.irr, tau iCalc (B.toBte is) = t is)
    (hpos : ∀ s < numStates, 0 ≤ t s) :
    (elViscosityRta B Q spin volume numPoints stat tau size sched).length = size ∧
    ∀ f ∈ elViscosityRta B Q spin volume numPoints stat tau size sched,
      (∀ i j k l, f iCalc i j k l = meshViscosity numStates numPoints volume spin (stat iCalc).temp
        (fun s => Q.fold (Q.wave s)) B.vel
        (fun s => getPopPopPm1 .fermi (B.energy s) (stat iCalc).temp (stat iCalc).chemPot) t i j k l) ∧
      IsViscosity (f iCalc) := by
  obtain ⟨h1, h2⟩ := visc_val B Q .fermi (stat iCalc).temp (stat iCalc).chemPot spin volume numPoints
    (fun _ => False) (fun is => tau iCalc (B.toBte is)) size sched hrun.procs hrun.fits
    hrun.schedule hrun.unfolding hrun.energies hrun.velocities hQ t ht ht' (fun _ => False)
    (fun is his s hs => Iff.rfl)
    (elViscTerm B Q (spin / numPoints / volume) stat tau) iCalc (spin / numPoints / volume) rfl
    (by intro is _; unfold elViscTerm; rw [if_neg not_false])
  simp only [if_false] at h2
  refine ⟨h1, fun f hf => ⟨h2 f hf, ?_⟩⟩
  have : f iCalc = meshViscosity numStates numPoints volume spin (stat iCalc).temp
        (fun s => Q.fold (Q.wave s)) B.vel
        (fun s => getPopPopPm1 .fermi (B.energy s) (stat iCalc).temp (stat iCalc).chemPot) t := by
    funext i j k l; exact h2 f hf i j k l
  rw [this]
  exact meshViscosity_isViscosity _ _ _ _ _ _ _ _ _ hrun.cell hspin htemp (fun s _ => (C45_symmetrized _ _ _ _).1) hpos

/-- The example: three wavevectors along the axes with their opposites, on two processes. -/
noncomputable def exWave : WaveView := ⟨exBand.vel, id⟩

theorem exWave_fold : ∀ is ∈ exBand.irr, ∀ p ∈ (exBand.rots is).zip ((fun is => [is, is + 3]) is),
    exWave.fold (matVec p.1 (exWave.wave is)) = exWave.fold (exWave.wave p.2) := by
  intro is his p hp
  exact (exBand_run.velocities is his p hp).symm

theorem exInvariant : Invariant exBand.irr (fun is => [is, is + 3]) (fun s => 1 + ((s % 3 : Nat) : ℝ)) := by
  intro is _ s hs
  simp only [List.mem_cons, List.not_mem_nil, or_false] at hs
  rcases hs with rfl | rfl <;> simp

example : ∀ f ∈ phViscosityRta exBand exWave 0.1 2 6 (fun _ => ⟨1, 0, 0⟩) [1] (fun _ b => 1 + ((b % 3 : Nat) : ℝ)) 2
    (fun r => [(sliceOf exBand.irr r 2).reverse]), IsViscosity (f 0) := fun f hf =>
  ((C127_phonons exBand exWave 0.1 2 6 (fun _ => ⟨1, 0, 0⟩) [1] _ 2 _ _ 6 exBand_run exWave_fold 0 one_pos
    (fun s => 1 + ((s % 3 : Nat) : ℝ)) exInvariant (fun _ _ => rfl) (fun s _ => by positivity) (fun s => s % 3 = 1)
    (by
      intro is his s hs
      simp only [exBand, List.mem_cons, List.not_mem_nil, or_false] at his hs
      simp only [exBand, List.mem_singleton]
      rcases his with rfl | rfl | rfl <;> rcases hs with rfl | rfl <;> simp) _ (fun _ => rfl)).2 f hf).2

example : ∀ f ∈ elViscosityRta exBand exWave 2 2 6 (fun _ => ⟨1, 1.5, 0⟩) (fun _ b => 1 + ((b % 3 : Nat) : ℝ)) 2
    (fun r => [(sliceOf exBand.irr r 2).reverse]), IsViscosity (f 0) := fun f hf =>
  ((C127_electrons exBand exWave 2 2 6 (fun _ => ⟨1, 1.5, 0⟩) _ 2 _ _ 6 exBand_run (by norm_num) exWave_fold 0 one_pos
    (fun s => 1 + ((s % 3 : Nat) : ℝ)) exInvariant (fun _ _ => rfl) (fun s _ => by positivity)).2 f hf).2

/-! ## C128 -/

/-- The special eigenvectors, for any number of processes, are the vectors of norm one along `√(n(n±1)) (ε - μ)`,
`√(n(n±1))` (electrons) and `√(n(n±1)) q_i`, without the acoustic modes below the cutoff, and the specific heat and momentum
are their averages over the wavevectors of the band structure; the direction must have a momentum. -/
theorem C128_value_partial (B : BandView) (Q : WaveView) (st : Statistics) (cutoff volume spin kB : ℝ) (numPts numStates : Nat)
    (stat : CalcStat) (size : Nat) (hs : 0 < size) (hfit : numStates * size < 18446744073709551616)
    (hvol : 0 < volume) (hspin : 0 < spin) (hkB : 0 < kB) (hN : 0 < numPts) (htemp : 0 < stat.temp)
    (mu : ℝ) (hmu : mu = match st with | .bose => 0 | .fermi => stat.chemPot) (pop : Nat → ℝ)
    (hpop : ∀ s, pop s = if st = .bose ∧ B.energy s < cutoff then 0 else getPopPopPm1 st (B.energy s) stat.temp mu) :
    let S := specialVectors B Q st cutoff volume spin kB 3 numPts numStates stat size
    let q := fun s => Q.fold (Q.wave s)
    S.heat = spin * (∑ s ∈ Finset.range numStates, pop s * (B.energy s - mu) ^ 2) /
      (stat.temp * (stat.temp / kB) * numPts * volume) ∧
    (∀ i, S.momentum i = spin * (∑ s ∈ Finset.range numStates, pop s * q s i ^ 2) / (stat.temp * numPts * volume)) ∧
    ((∃ s < numStates, pop s ≠ 0 ∧ B.energy s ≠ mu) →
      ∀ s, S.theta0 s = (unitVector numStates (fun s => Real.sqrt (pop s) * (B.energy s - mu)) s : ℝ)) ∧
    (st = .fermi → 0 < numStates → ∀ s, S.thetaE s = (unitVector numStates (fun s => Real.sqrt (pop s)) s : ℝ)) ∧
    (∀ i, (∃ s < numStates, pop s ≠ 0 ∧ q s i ≠ 0) →
      ∀ s, S.phi i s = (unitVector numStates (fun s => Real.sqrt (pop s) * q s i) s : ℝ)) := by
  have hNr : (0 : ℝ) < numPts := by exact_mod_cast hN
  have hpos : ∀ s, 0 ≤ pop s := by
    intro s; rw [hpop s]; split
    · exact le_rfl
    · exact (C45_symmetrized _ _ _ _).1
  have hskip : ∀ s, specialSkip B st cutoff s = true ↔ st = .bose ∧ B.energy s < cutoff := by
    intro s; unfold specialSkip; exact decide_eq_true_iff
  have hsum : ∀ g : Nat → ℝ, specialSum B st cutoff numStates size
      (fun is => getPopPopPm1 st (B.energy is) stat.temp mu * g is) = ∑ s ∈ Finset.range numStates, pop s * g s := by
    intro g
    rw [specialSum_val B st cutoff numStates size hs hfit]
    apply Finset.sum_congr rfl
    intro s _
    rw [hpop s]
    by_cases h : st = .bose ∧ B.energy s < cutoff
    · rw [if_pos ((hskip s).mpr h), if_pos h, zero_mul]
    · rw [if_neg (fun h' => h ((hskip s).mp h')), if_neg h]
  have hC : specialSum B st cutoff numStates size (fun is => getPopPopPm1 st (B.energy is) stat.temp mu *
      (B.energy is - mu) * (B.energy is - mu)) = ∑ s ∈ Finset.range numStates, pop s * (B.energy s - mu) ^ 2 := by
    rw [← hsum]; congr 1; funext is; ring
  have hA : ∀ i, specialSum B st cutoff numStates size (fun is => getPopPopPm1 st (B.energy is) stat.temp mu *
      Q.fold (Q.wave is) i * Q.fold (Q.wave is) i) = ∑ s ∈ Finset.range numStates, pop s * Q.fold (Q.wave s) i ^ 2 := by
    intro i; rw [← hsum]; congr 1; funext is; ring
  have hsq : ∀ x : Nat → ℝ, ∀ s, pop s * x s ^ 2 = (Real.sqrt (pop s) * x s) ^ 2 := by
    intro x s; rw [mul_pow, Real.sq_sqrt (hpos s)]
  have hSpos : ∀ x : Nat → ℝ, (∃ s < numStates, pop s ≠ 0 ∧ x s ≠ 0) → 0 < ∑ s ∈ Finset.range numStates, pop s * x s ^ 2 := by
    rintro x ⟨s, hs', h1, h2⟩
    apply Finset.sum_pos' (fun r _ => mul_nonneg (hpos r) (sq_nonneg _))
    exact ⟨s, Finset.mem_range.mpr hs', mul_pos (lt_of_le_of_ne (hpos s) (Ne.symm h1)) (by positivity)⟩
  have hunit : ∀ (x : Nat → ℝ) (s : Nat) (norm y : ℝ), 0 < ∑ s ∈ Finset.range numStates, pop s * x s ^ 2 →
      norm = (∑ s ∈ Finset.range numStates, pop s * x s ^ 2) * spin → y = Real.sqrt (pop s) * x s * Real.sqrt spin →
      rescale norm y = (unitVector numStates (fun s => Real.sqrt (pop s) * x s) s : ℝ) := by
    intro x s norm y h0 hn hy
    rw [rescale_pos (by rw [hn]; positivity), hy, hn]
    congr 1
    unfold unitVector
    rw [Finset.sum_congr rfl fun r _ => (hsq x r), Real.sqrt_mul' _ hspin.le]
    have h3 : 0 < Real.sqrt (∑ s ∈ Finset.range numStates, (Real.sqrt (pop s) * x s) ^ 2) := by
      rw [Finset.sum_congr rfl fun r _ => (hsq x r).symm]; exact Real.sqrt_pos.mpr h0
    have h4 : 0 < Real.sqrt spin := Real.sqrt_pos.mpr hspin
    field_simp
  have hroot : ∀ s (x : ℝ), (if specialSkip B st cutoff s then (0 : ℝ) else
      Real.sqrt (getPopPopPm1 st (B.energy s) stat.temp mu) * x * Real.sqrt spin) =
      Real.sqrt (pop s) * x * Real.sqrt spin := by
    intro s x
    rw [hpop s]
    by_cases h : st = .bose ∧ B.energy s < cutoff
    · rw [if_pos ((hskip s).mpr h), if_pos h]; simp
    · rw [if_neg (fun h' => h ((hskip s).mp h')), if_neg h]
  intro S q
  have hSheat : S.heat = (∑ s ∈ Finset.range numStates, pop s * (B.energy s - mu) ^ 2) *
      (spin / (volume * numPts * stat.temp * (stat.temp / kB))) := by
    rw [← hC, hmu]; rfl
  have hSmom : ∀ i, S.momentum i = (∑ s ∈ Finset.range numStates, pop s * q s i ^ 2) *
      (spin / (stat.temp * numPts * volume)) := by
    intro i
    have : S.momentum i = if i.val < 3 then specialSum B st cutoff numStates size
        (fun is => getPopPopPm1 st (B.energy is) stat.temp mu * Q.fold (Q.wave is) i * Q.fold (Q.wave is) i) *
        (spin / (stat.temp * numPts * volume)) else 0 := by rw [hmu]; rfl
    rw [this, if_pos i.isLt, hA]
  refine ⟨?_, ?_, ?_, ?_, ?_⟩
  · rw [hSheat]; field_simp
  · intro i; rw [hSmom]; ring
  · rintro ⟨s0, h0, h1, h2⟩ s
    have e : S.theta0 s = rescale (stat.temp * (stat.temp / kB) * volume * numPts * S.heat)
      (if specialSkip B st cutoff s then 0 else Real.sqrt (getPopPopPm1 st (B.energy s) stat.temp mu) * (B.energy s - mu) *
        Real.sqrt spin) := by rw [hmu]; rfl
    rw [e, hroot]
    refine hunit (fun s => B.energy s - mu) s _ _ (hSpos _ ⟨s0, h0, h1, sub_ne_zero.mpr h2⟩) ?_ rfl
    rw [hSheat]
    field_simp
  · rintro rfl hn s
    have e : S.thetaE s = rescale (stat.temp * (specialSum B .fermi cutoff numStates size
        (fun is => getPopPopPm1 .fermi (B.energy is) stat.temp mu) * (spin / (volume * numPts * stat.temp))) * numPts * volume)
      (Real.sqrt (getPopPopPm1 .fermi (B.energy s) stat.temp mu) * Real.sqrt spin) := by rw [hmu]; rfl
    have hp : ∀ s, pop s = getPopPopPm1 .fermi (B.energy s) stat.temp mu := by
      intro s; rw [hpop s, if_neg (by rintro ⟨h, _⟩; cases h)]
    have hone : (fun s => Real.sqrt (pop s)) = fun s => Real.sqrt (pop s) * 1 := by funext s; rw [mul_one]
    rw [e, hone]
    have hp0 : pop 0 ≠ 0 := by
      rw [hp 0]
      simp only [getPopPopPm1]
      have := Real.cosh_pos ((B.energy 0 - mu) / 2 / stat.temp)
      positivity
    refine hunit (fun _ => 1) s _ _ (hSpos _ ⟨0, hn, hp0, one_ne_zero⟩) ?_ (by rw [hp s]; ring)
    have h1 := hsum (fun _ => 1)
    simp only [mul_one] at h1
    rw [h1]
    simp only [one_pow, mul_one]
    field_simp
  · rintro i ⟨s0, h0, h1, h2⟩ s
    have e : S.phi i s = if i.val < 3 then rescale (stat.temp * volume * numPts * S.momentum i)
      (if specialSkip B st cutoff s then 0 else Q.fold (Q.wave s) i *
        Real.sqrt (getPopPopPm1 st (B.energy s) stat.temp mu) * Real.sqrt spin) else 0 := by rw [hmu]; rfl
    rw [e, if_pos i.isLt]
    have e2 : (if specialSkip B st cutoff s then 0 else Q.fold (Q.wave s) i *
        Real.sqrt (getPopPopPm1 st (B.energy s) stat.temp mu) * Real.sqrt spin) =
        Real.sqrt (pop s) * Q.fold (Q.wave s) i * Real.sqrt spin := by
      rw [← hroot]; split
      · rfl
      · ring
    rw [e2]
    refine hunit (fun s => Q.fold (Q.wave s) i) s _ _ (hSpos _ ⟨s0, h0, h1, h2⟩) ?_ rfl
    rw [hSmom]
    field_simp
    ring

/-- Such vectors have norm one. -/
theorem C128_norm_partial (numStates : Nat) (x : Nat → ℝ) (h : ∃ s < numStates, x s ≠ 0) :
    ∑ s ∈ Finset.range numStates, unitVector numStates x s ^ 2 = 1 := by
  obtain ⟨s, hs, hx⟩ := h
  have h0 : 0 < ∑ r ∈ Finset.range numStates, x r ^ 2 :=
    Finset.sum_pos' (fun r _ => sq_nonneg _) ⟨s, Finset.mem_range.mpr hs, by positivity⟩
  unfold unitVector
  simp only [div_pow, Real.sq_sqrt h0.le]
  rw [← Finset.sum_div, div_self h0.ne']

/-- A direction in which no wavevector has a component (a mesh with one point along that axis): the eigenvectors of that
momentum are not numbers, for every state, in one, two or three dimensions. -/
theorem C128_violated_axis (B : BandView) (Q : WaveView) (st : Statistics) (cutoff volume spin kB : ℝ) (d numPts numStates : Nat)
    (stat : CalcStat) (size : Nat) (i : Fin 3) (hi : i.val < d) (hs : 0 < size)
    (hfit : numStates * size < 18446744073709551616) (hq : ∀ s < numStates, Q.fold (Q.wave s) i = 0) :
    ∀ s, (specialVectors B Q st cutoff volume spin kB d numPts numStates stat size).phi i s = ⊤ := by
  intro s
  simp only [specialVectors, if_pos hi]
  unfold rescale
  rw [if_pos]
  rw [specialSum_val B st cutoff numStates size hs hfit, Finset.sum_eq_zero, zero_mul, mul_zero]
  intro r hr
  rw [hq r (Finset.mem_range.mp hr)]
  simp

/-- With a window that keeps `numPts` of the `N` wavevectors of the mesh, the specific heat is not even the contribution of
the states that are kept: that is divided by the number of wavevectors kept instead of those of the mesh, as the viscosity
of the same program is. -/
theorem C128_violated_window (B : BandView) (Q : WaveView) (cutoff volume spin kB : ℝ) (numPts N numStates : Nat)
    (stat : CalcStat) (size : Nat) (hs : 0 < size) (hfit : numStates * size < 18446744073709551616)
    (hvol : 0 < volume) (hspin : 0 < spin) (hkB : 0 < kB) (hN : 0 < numPts) (hwin : numPts < N) (htemp : 0 < stat.temp)
    (hne : ∃ s < numStates, B.energy s ≠ stat.chemPot) :
    spin * (∑ s ∈ Finset.range numStates, getPopPopPm1 .fermi (B.energy s) stat.temp stat.chemPot *
        (B.energy s - stat.chemPot) ^ 2) / (stat.temp * (stat.temp / kB) * N * volume) <
      (specialVectors B Q .fermi cutoff volume spin kB 3 numPts numStates stat size).heat := by
  have h := (C128_value_partial B Q .fermi cutoff volume spin kB numPts numStates stat size hs hfit hvol hspin hkB hN htemp
    stat.chemPot rfl (fun s => getPopPopPm1 .fermi (B.energy s) stat.temp stat.chemPot)
    (fun s => by rw [if_neg (by rintro ⟨h, _⟩; cases h)])).1
  rw [h]
  have hNr : (0 : ℝ) < numPts := by exact_mod_cast hN
  have hlt : (numPts : ℝ) < N := by exact_mod_cast hwin
  obtain ⟨s, hs', hx⟩ := hne
  have h0 : 0 < ∑ s ∈ Finset.range numStates, getPopPopPm1 .fermi (B.energy s) stat.temp stat.chemPot *
        (B.energy s - stat.chemPot) ^ 2 := by
    apply Finset.sum_pos' (fun r _ => mul_nonneg (C45_symmetrized _ _ _ _).1 (sq_nonneg _))
    refine ⟨s, Finset.mem_range.mpr hs', mul_pos ?_ ?_⟩
    · simp only [getPopPopPm1]
      have := Real.cosh_pos ((B.energy s - stat.chemPot) / 2 / stat.temp)
      positivity
    · have := sub_ne_zero.mpr hx
      positivity
  apply div_lt_div_of_pos_left (by positivity) (by positivity)
  have hc : 0 < stat.temp * (stat.temp / kB) := by positivity
  exact mul_lt_mul_of_pos_right (mul_lt_mul_of_pos_left hlt hc) hvol

/-- The example: six states, of which every axis has two. -/
theorem exPop_pos (e : ℝ) (he : 0 < e) : 0 < getPopPopPm1 .bose e 1 0 := by
  simp only [getPopPopPm1]
  have : 0 < Real.sinh ((e - 0) / 2 / 1) := Real.sinh_pos_iff.mpr (by simpa using he)
  positivity

example : ∀ i s, (specialVectors exBand exWave .bose 0.1 2 1 1 3 6 6 ⟨1, 0, 0⟩ 2).phi i s =
    (unitVector 6 (fun s => Real.sqrt (getPopPopPm1 .bose (exBand.energy s) 1 0) * exBand.vel s i) s : ℝ) := fun i => by
  have hb : ∀ s, ¬ ((Statistics.bose = .bose) ∧ exBand.energy s < 0.1) := by
    rintro s ⟨_, h⟩
    have h0 : (0 : ℝ) ≤ ((s % 3 : Nat) : ℝ) := Nat.cast_nonneg _
    have h1 : exBand.energy s = 1 + ((s % 3 : Nat) : ℝ) := rfl
    rw [h1] at h
    norm_num at h
    linarith
  refine (C128_value_partial exBand exWave .bose 0.1 2 1 1 6 6 ⟨1, 0, 0⟩ 2 (by norm_num) (by norm_num) (by norm_num) one_pos
    one_pos (by norm_num) one_pos 0 rfl (fun s => getPopPopPm1 .bose (exBand.energy s) 1 0)
    (fun s => by rw [if_neg (hb s)])).2.2.2.2 i ⟨i.val, by omega, ?_, ?_⟩
  · apply (exPop_pos _ _).ne'
    simp only [exBand]; positivity
  · fin_cases i <;> simp [exWave, exBand]

example : ∀ s, (specialVectors exBand ⟨fun _ => 0, id⟩ .bose 0.1 2 1 1 3 6 6 ⟨1, 0, 0⟩ 2).phi 0 s = ⊤ :=
  C128_violated_axis _ _ _ _ _ _ _ 3 _ _ _ _ 0 (by decide) (by norm_num) (by norm_num) (fun _ _ => rfl)

example : ∃ s < 6, exBand.energy s ≠ (⟨1, 0, 0⟩ : CalcStat).chemPot := ⟨0, by norm_num, by simp [exBand]⟩

end Verif.Props
