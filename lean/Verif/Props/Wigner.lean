import Verif.Proofs.WignerEl
import Verif.Props.Particle

/-!
# C125, C126: coherences between bands
-/
namespace Verif.Props
open Verif.Model Verif.Spec

/-- A band structure with the full mesh of `numQ` wavevectors behind it: the irreducible wavevectors are unfolded by the
rotations of the crystal. -/
structure PointRun (P : PointView) (size : Nat) (star : Nat → List Nat) (numQ numPoints : Nat) (volume : ℝ) : Prop where
  procs : 0 < size
  fits : P.irr.length * size < 18446744073709551616
  unfolding : Unfolding P.irr P.rots star numQ
  bands : Invariant P.irr star P.numBands
  energies : Invariant P.irr star P.energy
  velocities : CovariantVel P.irr P.rots star P.vel
  hermitian : HermitianVel P.vel
  points : 0 < numPoints
  cell : 0 < volume

/-- A wavevector and its opposite, with two bands. -/
noncomputable def exPoint (e : Nat → ℝ) : PointView where
  numBands _ := 2
  energy _ b := e b
  vel s b b' i := if s = 0 then ((1 + b + b' + i.val : Nat) : ℂ) else -((1 + b + b' + i.val : Nat) : ℂ)
  toBte _ b := b
  rots _ := [1, -1]
  irr := [0]

theorem exPoint_hermitian (e : Nat → ℝ) : HermitianVel (exPoint e).vel := by
  intro s b b' i
  simp only [exPoint]
  split
  · rw [map_natCast, add_right_comm 1 b' b]
  · rw [map_neg, map_natCast, add_right_comm 1 b' b]

theorem exPoint_run (e : Nat → ℝ) : PointRun (exPoint e) 3 (fun _ => [0, 1]) 2 2 1 where
  procs := by norm_num
  fits := by simp [exPoint]
  unfolding := ⟨by simp only [exPoint]; decide, by intro is _; rfl⟩
  bands := by intro is _ s _; rfl
  energies := by intro is _ s _; rfl
  velocities := by
    intro is his p hp
    refine ⟨fun _ => 0, fun b b' i => ?_⟩
    have h0 : is = 0 := by simpa [exPoint] using his
    subst h0
    simp only [exPoint, List.zip_cons_cons, List.zip_nil_right, List.mem_cons, List.not_mem_nil, or_false] at hp
    rcases hp with rfl | rfl
    · fin_cases i <;> simp [exPoint, Fin.sum_univ_three, Matrix.one_apply]
    · fin_cases i <;> simp [exPoint, Fin.sum_univ_three, Matrix.one_apply]
  hermitian := exPoint_hermitian e
  points := by norm_num
  cell := by norm_num

/-! ## C125 -/

/-- The correction is, on every process and whatever their number, the sum over the full mesh of the heat carried by each
pair of different modes, if every mode has a linewidth.  Modes below the cutoff count as not occupied. -/
theorem C125_value_partial (P : PointView) (cutoff volume : ℝ) (numPoints : Nat) (stat : Nat → CalcStat)
    (tau : Nat → Nat → WithTop ℝ) (size : Nat) (star : Nat → List Nat) (numQ : Nat)
    (hrun : PointRun P size star numQ numPoints volume) (iCalc : Nat) (rate : Nat → Nat → ℝ)
    (hR : Invariant P.irr star rate) (hpos : ∀ iq ∈ P.irr, ∀ b < P.numBands iq, 0 < rate iq b)
    (htau : ∀ iq ∈ P.irr, ∀ b < P.numBands iq, tau iCalc (P.toBte iq b) = ((1 / rate iq b : ℝ) : WithTop ℝ))
    (n : ℝ → ℝ) (hn : ∀ e, n e = if e < cutoff then 0 else getPopulation .bose e (stat iCalc).temp 0) :
    (wignerPhonon P cutoff volume numPoints stat tau size).length = size ∧
    ∀ f ∈ wignerPhonon P cutoff volume numPoints stat tau size, ∀ i j, f iCalc i j =
      ((pairSum numQ numPoints P.numBands volume P.vel (fun s b b' => phononWeight (stat iCalc).temp (P.energy s b)
        (P.energy s b') (n (P.energy s b)) (n (P.energy s b')) (rate s b) (rate s b')) (fun b b' => b ≠ b') i j : ℝ) :
          WithTop ℝ) := by
  have hn' : n = wignerBose cutoff (stat iCalc).temp := funext fun e => by rw [hn e]; rfl
  rw [hn']
  exact wignerPhonon_val P cutoff volume numPoints stat tau size hrun.procs hrun.fits hrun.unfolding hrun.bands
    hrun.energies hrun.velocities iCalc rate hR hpos htau

/-- The correction is a symmetric tensor along which heat never flows against the gradient, if every mode has a linewidth
and an energy that is not negative. -/
theorem C125_positive_partial (P : PointView) (cutoff volume : ℝ) (numPoints : Nat) (stat : Nat → CalcStat)
    (tau : Nat → Nat → WithTop ℝ) (size : Nat) (star : Nat → List Nat) (numQ : Nat)
    (hrun : PointRun P size star numQ numPoints volume) (iCalc : Nat) (rate : Nat → Nat → ℝ)
    (hR : Invariant P.irr star rate) (hpos : ∀ s < numQ, ∀ b < P.numBands s, 0 < rate s b)
    (hirr : ∀ iq ∈ P.irr, ∀ b < P.numBands iq, 0 < rate iq b)
    (htau : ∀ iq ∈ P.irr, ∀ b < P.numBands iq, tau iCalc (P.toBte iq b) = ((1 / rate iq b : ℝ) : WithTop ℝ))
    (hen : ∀ s < numQ, ∀ b < P.numBands s, 0 ≤ P.energy s b) :
    ∀ f ∈ wignerPhonon P cutoff volume numPoints stat tau size, ∃ K : Matrix (Fin 3) (Fin 3) ℝ, IsConductivity K ∧
      ∀ i j, f iCalc i j = (K i j : WithTop ℝ) := by
  intro f hf
  have hval := (wignerPhonon_val P cutoff volume numPoints stat tau size hrun.procs hrun.fits hrun.unfolding hrun.bands
    hrun.energies hrun.velocities iCalc rate hR hirr htau).2 f hf
  refine ⟨_, pairSum_isConductivity numQ numPoints P.numBands volume hrun.points hrun.cell P.vel hrun.hermitian _ _ ?_, hval⟩
  intro s hs b hb b' hb'
  exact phononWeight_nonneg (hen s hs b hb) (hen s hs b' hb') (wignerBose_nonneg _ _ _) (wignerBose_nonneg _ _ _)
    (hpos s hs b hb) (hpos s hs b' hb')

/-- The conductivity with the correction (relaxation time approximation plus coherences) does not depend on the choice of
the eigenvectors of degenerate modes, although each of the two terms does. -/
theorem C125_eigenvectors_partial (P P' : PointView) (cutoff volume : ℝ) (numPoints : Nat) (stat : Nat → CalcStat)
    (tau : Nat → Nat → WithTop ℝ) (size : Nat) (star : Nat → List Nat) (numQ : Nat)
    (hrun : PointRun P size star numQ numPoints volume) (hrun' : PointRun P' size star numQ numPoints volume)
    (hsame : P'.numBands = P.numBands ∧ P'.energy = P.energy ∧ P'.toBte = P.toBte ∧ P'.irr = P.irr)
    (iCalc : Nat) (rate : Nat → Nat → ℝ)
    (hR : Invariant P.irr star rate) (hpos : ∀ s < numQ, ∀ b < P.numBands s, 0 < rate s b)
    (hirr : ∀ iq ∈ P.irr, ∀ b < P.numBands iq, 0 < rate iq b)
    (htau : ∀ iq ∈ P.irr, ∀ b < P.numBands iq, tau iCalc (P.toBte iq b) = ((1 / rate iq b : ℝ) : WithTop ℝ))
    (hother : OtherEigenvectors numQ P.numBands P.energy rate P.vel P'.vel)
    (n : ℝ → ℝ) (hn : ∀ e, n e = if e < cutoff then 0 else getPopulation .bose e (stat iCalc).temp 0) :
    ∀ f ∈ wignerPhonon P cutoff volume numPoints stat tau size, ∀ f' ∈ wignerPhonon P' cutoff volume numPoints stat tau size,
      ∀ i j,
      f' iCalc i j + ((rtaConductivity numQ numPoints P.numBands volume (stat iCalc).temp P.energy
          (fun s b => n (P.energy s b)) rate P'.vel i j : ℝ) : WithTop ℝ) =
      f iCalc i j + ((rtaConductivity numQ numPoints P.numBands volume (stat iCalc).temp P.energy
          (fun s b => n (P.energy s b)) rate P.vel i j : ℝ) : WithTop ℝ) := by
  intro f hf f' hf' i j
  obtain ⟨s1, s2, s3, s4⟩ := hsame
  rw [(C125_value_partial P cutoff volume numPoints stat tau size star numQ hrun iCalc rate hR hirr htau n hn).2 f hf,
    (C125_value_partial P' cutoff volume numPoints stat tau size star numQ hrun' iCalc rate (by rw [s4]; exact hR)
      (by rw [s4, s1]; exact hirr) (by rw [s4, s1, s3]; exact htau) n hn).2 f' hf', ← WithTop.coe_add, ← WithTop.coe_add]
  rw [s1, s2, ← pairSum_split _ _ _ _ _ _ (fun s b => n (P.energy s b)) _ hpos _ hrun'.hermitian,
    ← pairSum_split _ _ _ _ _ _ (fun s b => n (P.energy s b)) _ hpos _ hrun.hermitian,
    pairSum_all_invariant numQ numPoints P.numBands volume (stat iCalc).temp P.energy rate n P.vel P'.vel hother i j]

/-- Two modes of the same wavevector with the same energy and no linewidth (the acoustic modes at the centre of the zone,
whose linewidths the scattering matrix sets to zero, have zero energy), or one mode with a relaxation time that is zero:
every element of the correction is `0 / 0`, on every process, whatever the rest of the band structure. -/
theorem C125_violated_undamped (P : PointView) (cutoff volume : ℝ) (numPoints : Nat) (stat : Nat → CalcStat)
    (tau : Nat → Nat → WithTop ℝ) (size : Nat) (hs : 0 < size) (hfit : P.irr.length * size < 18446744073709551616)
    (iCalc iq : Nat) (hq : iq ∈ P.irr) (hrot : P.rots iq ≠ []) (b b' : Nat) (hb : b < P.numBands iq) (hb' : b' < P.numBands iq)
    (hne : b ≠ b')
    (hbad : (tau iCalc (P.toBte iq b) = ⊤ ∧ tau iCalc (P.toBte iq b') = ⊤ ∧ P.energy iq b = P.energy iq b') ∨
      tau iCalc (P.toBte iq b) = 0) :
    ∀ f ∈ wignerPhonon P cutoff volume numPoints stat tau size, ∀ i j, f iCalc i j = ⊤ := by
  intro f hf i j
  rw [(stateSum_val P.irr size hs hfit (fun r => [sliceOf P.irr r size]) (by intro r _; simp)
    (wignerPhTerm P cutoff volume numPoints stat tau)).2 f hf iCalc, pi_sum_apply]
  apply withTop_sum_top _ _ iq hq
  unfold wignerPhTerm
  dsimp only
  obtain ⟨R, hR⟩ := List.exists_mem_of_ne_nil _ hrot
  apply withTop_sum_top _ _ R hR
  apply withTop_sum_top _ _ b (List.mem_range.mpr hb)
  apply withTop_sum_top _ _ b' (List.mem_range.mpr hb')
  rw [if_neg hne]
  rcases hbad with ⟨h1, h2, h3⟩ | h1
  · rw [h1, h2, h3]
    unfold wignerPhPair
    have : recipTime ⊤ + recipTime ⊤ = ((0 : ℝ) : WithTop ℝ) := by
      show (0 : WithTop ℝ) + 0 = _
      simp
    rw [this]
    show (if _ then _ else _) = _
    rw [if_pos (by ring)]
  · rw [h1]
    unfold wignerPhPair
    have : recipTime 0 + recipTime (tau iCalc (P.toBte iq b')) = ⊤ := by
      have h0 : recipTime 0 = ⊤ := by
        show (if (0 : ℝ) = 0 then _ else _) = _
        rw [if_pos rfl]
      rw [h0, WithTop.top_add]
    rw [this]




example : ∀ f ∈ wignerPhonon (exPoint fun b => 1 + b) 0.1 1 2 (fun _ => ⟨1, 0, 0⟩) (fun _ _ => ((1 / 2 : ℝ) : WithTop ℝ)) 3,
    ∃ K : Matrix (Fin 3) (Fin 3) ℝ, IsConductivity K ∧ ∀ i j, f 0 i j = (K i j : WithTop ℝ) :=
  C125_positive_partial _ 0.1 1 2 _ _ 3 _ 2 (exPoint_run _) 0 (fun _ _ => 2) (fun _ _ _ _ => rfl) (by intros; norm_num)
    (by intros; norm_num) (fun _ _ b _ => rfl) (by intro s _ b _; simp only [exPoint]; positivity)

def exSwap (b : Nat) : Nat := if b = 0 then 1 else if b = 1 then 0 else b

/-- Two degenerate modes exchanged. -/
noncomputable def exSwapped (e : Nat → ℝ) : PointView :=
  { exPoint e with vel := fun s b b' i => (exPoint e).vel s (exSwap b) (exSwap b') i }

theorem exSwap_matrix (A : Matrix (Fin 2) (Fin 2) ℂ) :
    (!![0, 1; 1, 0] : Matrix (Fin 2) (Fin 2) ℂ).conjTranspose * A * !![0, 1; 1, 0] = !![A 1 1, A 1 0; A 0 1, A 0 0] := by
  ext a b
  fin_cases a <;> fin_cases b <;> simp [Matrix.mul_apply, Fin.sum_univ_two, Matrix.conjTranspose_apply]

theorem exSwapped_vel (s : Nat) (i : Fin 3) : (Matrix.of fun b c : Fin 2 => (exSwapped fun _ => 1).vel s b c i) =
    (!![0, 1; 1, 0] : Matrix (Fin 2) (Fin 2) ℂ).conjTranspose *
      (Matrix.of fun b c : Fin 2 => (exPoint fun _ => 1).vel s b c i) * !![0, 1; 1, 0] := by
  rw [exSwap_matrix]
  ext a b
  fin_cases a <;> fin_cases b <;> rfl

theorem exSwapped_run (e : Nat → ℝ) : PointRun (exSwapped e) 3 (fun _ => [0, 1]) 2 2 1 where
  procs := by norm_num
  fits := (exPoint_run e).fits
  unfolding := (exPoint_run e).unfolding
  bands := (exPoint_run e).bands
  energies := (exPoint_run e).energies
  velocities := by
    intro is his p hp
    obtain ⟨θ, hθ⟩ := (exPoint_run e).velocities is his p hp
    exact ⟨fun b => θ (exSwap b), fun b b' i => hθ (exSwap b) (exSwap b') i⟩
  hermitian := fun s b b' i => exPoint_hermitian e s (exSwap b) (exSwap b') i
  points := by norm_num
  cell := by norm_num

example : ∀ f ∈ wignerPhonon (exPoint fun _ => 1) 0.1 1 2 (fun _ => ⟨1, 0, 0⟩) (fun _ _ => ((1 / 2 : ℝ) : WithTop ℝ)) 3,
    ∀ f' ∈ wignerPhonon (exSwapped fun _ => 1) 0.1 1 2 (fun _ => ⟨1, 0, 0⟩) (fun _ _ => ((1 / 2 : ℝ) : WithTop ℝ)) 3, ∀ i j,
      f' 0 i j + ((rtaConductivity 2 2 (fun _ => 2) 1 1 (fun _ _ => 1)
          (fun _ _ => if (1 : ℝ) < 0.1 then 0 else getPopulation .bose 1 1 0) (fun _ _ => 2) (exSwapped fun _ => 1).vel i j : ℝ) : WithTop ℝ) =
      f 0 i j + ((rtaConductivity 2 2 (fun _ => 2) 1 1 (fun _ _ => 1)
          (fun _ _ => if (1 : ℝ) < 0.1 then 0 else getPopulation .bose 1 1 0) (fun _ _ => 2) (exPoint fun _ => 1).vel i j : ℝ) : WithTop ℝ) :=
  C125_eigenvectors_partial (exPoint fun _ => 1) (exSwapped fun _ => 1) 0.1 1 2 (fun _ => ⟨1, 0, 0⟩)
    (fun _ _ => ((1 / 2 : ℝ) : WithTop ℝ)) 3 (fun _ => [0, 1]) 2 (exPoint_run _) (exSwapped_run _)
    ⟨rfl, rfl, rfl, rfl⟩ 0 (fun _ _ => 2) (fun _ _ _ _ => rfl)
    (by intros; norm_num) (by intros; norm_num) (fun _ _ b _ => rfl)
    (by
      intro s _
      refine ⟨(!![0, 1; 1, 0] : Matrix (Fin 2) (Fin 2) ℂ), ?_, fun _ _ _ => ⟨rfl, rfl⟩, ?_⟩
      · show (!![0, 1; 1, 0] : Matrix (Fin 2) (Fin 2) ℂ) ∈ Matrix.unitaryGroup (Fin 2) ℂ
        rw [Matrix.mem_unitaryGroup_iff]
        ext a b
        fin_cases a <;> fin_cases b <;> simp [Matrix.mul_apply, Fin.sum_univ_two, Matrix.star_apply]
      · exact fun i => exSwapped_vel s i)
    (fun e => if e < 0.1 then 0 else getPopulation .bose e 1 0) (fun _ => rfl)

example : ∀ f ∈ wignerPhonon (exPoint fun _ => 0) 0.1 1 2 (fun _ => ⟨1, 0, 0⟩) (fun _ _ => ⊤) 3, ∀ i j, f 0 i j = ⊤ :=
  C125_violated_undamped _ _ _ _ _ _ 3 (by norm_num) (by simp [exPoint]) 0 0 (by simp [exPoint]) (by simp [exPoint]) 0 1
    (by simp [exPoint]) (by simp [exPoint]) (by norm_num) (Or.inl ⟨rfl, rfl, rfl⟩)

/-! ## C126 -/

/-- The conductivity due to the coherences is, on every process and whatever their number, the sum over the mesh of the
response of each pair of bands to the field; it never opposes the field, and is symmetric with time reversal.  Bands with
different energies and linewidths that are not zero. -/
theorem C126_conductivity_partial (P : PointView) (numQ numPoints : Nat) (spin volume : ℝ) (hN : 0 < numPoints)
    (hvol : 0 < volume) (hspin : 0 ≤ spin) (stat : Nat → CalcStat) (tau : Nat → Nat → WithTop ℝ) (size : Nat) (hs : 0 < size)
    (hfit : numQ * size < 18446744073709551616) (hv : HermitianVel P.vel) (iCalc : Nat) (rate : Nat → Nat → ℝ)
    (hpos : ∀ s < numQ, ∀ b < P.numBands s, 0 < rate s b)
    (htau : ∀ s < numQ, ∀ b < P.numBands s, tau iCalc (P.toBte s b) = ((1 / rate s b : ℝ) : WithTop ℝ))
    (hdiff : ∀ s < numQ, ∀ b < P.numBands s, ∀ b' < P.numBands s, b ≠ b' → P.energy s b ≠ P.energy s b')
    (fermi : ℝ → ℝ) (hfermi : ∀ e, fermi e = getPopulation .fermi e (stat iCalc).temp (stat iCalc).chemPot) :
    (wignerLEE P numQ numPoints spin volume stat tau size).length = size ∧
    ∀ f ∈ wignerLEE P numQ numPoints spin volume stat tau size, ∃ K : Fin 3 → Fin 3 → ℝ,
      (∀ i j, f iCalc i j = (K i j : WithTop ℝ)) ∧
      (∀ i j, K i j = coherentFlux numQ numPoints P.numBands volume spin P.vel (fun _ _ _ => 1)
        (fun s b b' i => coherence (P.energy s b) (P.energy s b') (rate s b) (rate s b')
          ((fermi (P.energy s b) - fermi (P.energy s b')) / (P.energy s b - P.energy s b')) (P.vel s b b' i)) i j) ∧
      (∀ x : Fin 3 → ℝ, 0 ≤ ∑ i, ∑ j, x i * K i j * x j) ∧
      ∀ bar, TimeReversal numQ bar P.numBands P.energy rate P.vel → ∀ i j, K i j = K j i := by
  obtain ⟨h1, h2⟩ := wignerElSum_val P numQ stat tau false (fun _ _ => wignerElNorm spin volume numPoints) size hs hfit iCalc
    rate hpos htau hdiff
  refine ⟨h1, ?_⟩
  intro f hf
  have hfe : fermi = fun e => getPopulation .fermi e (stat iCalc).temp (stat iCalc).chemPot := funext hfermi
  subst hfe
  refine ⟨fun i j => coherentFlux numQ numPoints P.numBands volume spin P.vel (fun _ _ _ => 1)
        (fun s b b' i => coherence (P.energy s b) (P.energy s b') (rate s b) (rate s b')
          ((getPopulation .fermi (P.energy s b) (stat iCalc).temp (stat iCalc).chemPot -
            getPopulation .fermi (P.energy s b') (stat iCalc).temp (stat iCalc).chemPot) / (P.energy s b - P.energy s b'))
          (P.vel s b b' i)) i j, ?_, fun _ _ => rfl, ?_, ?_⟩
  · intro i j
    rw [h2 f hf i j]
    congr 1
    show _ = coherentFlux numQ numPoints P.numBands volume spin P.vel (fun _ _ _ => 1) _ i j
    unfold coherentFlux
    rw [mul_div_right_comm, Finset.mul_sum]
    apply Finset.sum_congr rfl
    intro s _
    rw [Finset.mul_sum]
    apply Finset.sum_congr rfl
    intro b _
    rw [Finset.mul_sum]
    apply Finset.sum_congr rfl
    intro b' _
    split
    · unfold wignerElNorm wignerResponse
      simp only [Bool.false_eq_true, if_false]
      have : spin / (numPoints : ℝ) / volume / 2 + spin / numPoints / volume / 2 = spin / (numPoints * volume) := by
        rw [div_div]; ring
      rw [this, one_mul]
    · ring
  · exact coherentFlux_nonneg numQ numPoints P.numBands volume spin hN hvol hspin P.vel hv P.energy rate hpos _
      (fun s b b' => fermi_quotient_nonpos _ _ _ _)
  · intro bar hbar i j
    exact coherentFlux_symm numQ numPoints P.numBands volume spin P.vel hv P.energy rate bar hbar
      (fun e e' => (getPopulation .fermi e (stat iCalc).temp (stat iCalc).chemPot -
            getPopulation .fermi e' (stat iCalc).temp (stat iCalc).chemPot) / (e - e')) i j

/-- A general factor on the sums of the program. -/
theorem wignerSum_factor (numQ numPoints : Nat) (numBands : Nat → Nat) (volume spin c : ℝ) (v : Nat → Nat → Nat → Fin 3 → ℂ)
    (u : Nat → Nat → ℝ) (w : Nat → Nat → Nat → ℝ) (F G : Nat → Nat → Nat → Fin 3 → ℂ) (i j : Fin 3)
    (h : ∀ s b b', (u s b + u s b') * (v s b' b i * F s b b' j).re =
      c * (spin / (numPoints * volume)) * (w s b b' * (v s b' b i * G s b b' j).re)) :
    (∑ s ∈ Finset.range numQ, ∑ b ∈ Finset.range (numBands s), ∑ b' ∈ Finset.range (numBands s),
        if b ≠ b' then (u s b + u s b') * (v s b' b i * F s b b' j).re else 0) =
      c * coherentFlux numQ numPoints numBands volume spin v w G i j := by
  unfold coherentFlux
  rw [mul_div_right_comm, ← mul_assoc, Finset.mul_sum]
  apply Finset.sum_congr rfl
  intro s _
  rw [Finset.mul_sum]
  apply Finset.sum_congr rfl
  intro b _
  rw [Finset.mul_sum]
  apply Finset.sum_congr rfl
  intro b' _
  split
  · exact h s b b'
  · ring

/-- The three other corrections are, on every process, the fluxes due to the coherences up to a factor: the heat that a
field moves with the wrong sign, and the current and the heat moved by a gradient of the temperature twice too large. -/
theorem C126_factors_partial (P : PointView) (numQ numPoints : Nat) (spin volume : ℝ)
    (stat : Nat → CalcStat) (tau : Nat → Nat → WithTop ℝ) (size : Nat) (hs : 0 < size)
    (hfit : numQ * size < 18446744073709551616) (iCalc : Nat) (rate : Nat → Nat → ℝ)
    (hpos : ∀ s < numQ, ∀ b < P.numBands s, 0 < rate s b)
    (htau : ∀ s < numQ, ∀ b < P.numBands s, tau iCalc (P.toBte s b) = ((1 / rate s b : ℝ) : WithTop ℝ))
    (hdiff : ∀ s < numQ, ∀ b < P.numBands s, ∀ b' < P.numBands s, b ≠ b' → P.energy s b ≠ P.energy s b')
    (fermi dfdt : ℝ → ℝ) (hfermi : ∀ e, fermi e = getPopulation .fermi e (stat iCalc).temp (stat iCalc).chemPot)
    (hdfdt : ∀ e, dfdt e = getDndt .fermi e (stat iCalc).temp (stat iCalc).chemPot false)
    (heat : Nat → Nat → Nat → ℝ) (hheat : ∀ s b b', heat s b b' = (P.energy s b + P.energy s b') / 2 - (stat iCalc).chemPot)
    (rE rT : Nat → Nat → Nat → Fin 3 → ℂ)
    (hrE : ∀ s b b' i, rE s b b' i = coherence (P.energy s b) (P.energy s b') (rate s b) (rate s b')
      ((fermi (P.energy s b) - fermi (P.energy s b')) / (P.energy s b - P.energy s b')) (P.vel s b b' i))
    (hrT : ∀ s b b' i, rT s b b' i = coherence (P.energy s b) (P.energy s b') (rate s b) (rate s b')
      ((dfdt (P.energy s b) + dfdt (P.energy s b')) / 2) (P.vel s b b' i)) :
    (∀ f ∈ wignerLTE P numQ numPoints spin volume stat tau size, ∀ i j, f iCalc i j =
      ((-1 * coherentFlux numQ numPoints P.numBands volume spin P.vel heat rE i j : ℝ) : WithTop ℝ)) ∧
    (∀ f ∈ wignerLET P numQ numPoints spin volume stat tau size, ∀ i j, f iCalc i j =
      ((2 * coherentFlux numQ numPoints P.numBands volume spin P.vel (fun _ _ _ => 1) rT i j : ℝ) : WithTop ℝ)) ∧
    (∀ f ∈ wignerLTT P numQ numPoints spin volume stat tau size, ∀ i j, f iCalc i j =
      ((2 * coherentFlux numQ numPoints P.numBands volume spin P.vel heat rT i j : ℝ) : WithTop ℝ)) := by
  have hfe : fermi = fun e => getPopulation .fermi e (stat iCalc).temp (stat iCalc).chemPot := funext hfermi
  have hdt : dfdt = fun e => getDndt .fermi e (stat iCalc).temp (stat iCalc).chemPot false := funext hdfdt
  subst hfe hdt
  have hN : spin / (numPoints : ℝ) / volume = spin / (numPoints * volume) := div_div _ _ _
  refine ⟨?_, ?_, ?_⟩
  · intro f hf i j
    rw [(wignerElSum_val P numQ stat tau false _ size hs hfit iCalc rate hpos htau hdiff).2 f hf i j]
    congr 1
    apply wignerSum_factor numQ numPoints P.numBands volume spin (-1) P.vel
    intro s b b'
    rw [hrE, hheat]
    unfold wignerElNorm wignerResponse
    simp only [Bool.false_eq_true, if_false]
    rw [hN]
    ring
  · intro f hf i j
    rw [(wignerElSum_val P numQ stat tau true _ size hs hfit iCalc rate hpos htau hdiff).2 f hf i j]
    congr 1
    apply wignerSum_factor numQ numPoints P.numBands volume spin 2 P.vel (fun _ _ => -wignerElNorm spin volume numPoints)
    intro s b b'
    rw [hrT]
    unfold wignerElNorm wignerResponse
    simp only [if_true]
    rw [hN, mul_left_comm, show (-2 : ℂ) = ((-2 : ℝ) : ℂ) by push_cast; ring, Complex.re_ofReal_mul]
    ring
  · intro f hf i j
    rw [(wignerElSum_val P numQ stat tau true _ size hs hfit iCalc rate hpos htau hdiff).2 f hf i j]
    congr 1
    apply wignerSum_factor numQ numPoints P.numBands volume spin 2 P.vel
    intro s b b'
    rw [hrT, hheat]
    unfold wignerElNorm wignerResponse
    simp only [if_true]
    rw [hN, mul_left_comm, show (-2 : ℂ) = ((-2 : ℝ) : ℂ) by push_cast; ring, Complex.re_ofReal_mul]
    ring

/-- Two bands with the same energy at one wavevector: all the elements of `LEE` and `LTE` are `0 / 0`, on every process,
whatever the rest of the band structure. -/
theorem C126_violated_degenerate (P : PointView) (numQ numPoints : Nat) (spin volume : ℝ)
    (stat : Nat → CalcStat) (tau : Nat → Nat → WithTop ℝ) (size : Nat) (hs : 0 < size)
    (hfit : numQ * size < 18446744073709551616) (iCalc s b b' : Nat) (hsq : s < numQ) (hb : b < P.numBands s)
    (hb' : b' < P.numBands s) (hne : b ≠ b') (hdeg : P.energy s b = P.energy s b') :
    (∀ f ∈ wignerLEE P numQ numPoints spin volume stat tau size, ∀ i j, f iCalc i j = ⊤) ∧
    (∀ f ∈ wignerLTE P numQ numPoints spin volume stat tau size, ∀ i j, f iCalc i j = ⊤) := by
  have key : ∀ w, ∀ f ∈ wignerElSum P numQ stat tau false w size, ∀ i j, f iCalc i j = ⊤ := by
    intro w f hf i j
    rw [(stateSum_val (List.range numQ) size hs (by simpa using hfit)
      (fun r => [sliceOf (List.range numQ) r size]) (by intro r _; simp) (wignerElTerm P stat tau false w)).2 f hf iCalc,
      pi_sum_apply]
    apply withTop_sum_top _ _ s (List.mem_range.mpr hsq)
    unfold wignerElTerm
    dsimp only
    apply withTop_sum_top _ _ b (List.mem_range.mpr hb)
    apply withTop_sum_top _ _ b' (List.mem_range.mpr hb')
    rw [if_neg hne]
    simp only [Bool.false_eq_true, if_false]
    have h1 : ∀ f1 f2 v t1 t2, wignerFE (P.energy s b') (P.energy s b) f1 f2 v t1 t2 = ⊤ := by
      intro f1 f2 v t1 t2
      unfold wignerFE
      rw [if_pos hdeg.symm]
    rw [h1]
    rfl
  exact ⟨fun f hf => key _ f hf, fun f hf => key _ f hf⟩

/-- One wavevector with two bands. -/
noncomputable def exPair : PointView where
  numBands _ := 2
  energy _ b := (b : ℝ)
  vel _ _ _ _ := 1
  toBte _ b := b
  rots _ := [1]
  irr := [0]

theorem coherence_one_re (e e' src : ℝ) :
    (1 * coherence e e' 1 1 src 1).re = -src / (1 + (e - e') ^ 2) := by
  unfold coherence
  rw [one_mul, mul_one, Complex.div_re]
  have hz : Complex.normSq (((((1 : ℝ) + 1) / 2 : ℝ) : ℂ) + ((e - e' : ℝ) : ℂ) * Complex.I) = 1 + (e - e') ^ 2 := by
    rw [Complex.normSq_add_mul_I]; norm_num
  rw [hz]
  simp

/-- Two bands at a temperature: the heat moved by a field has the wrong sign, and the current and the heat moved by a
gradient of the temperature are not those of the coherences. -/
theorem C126_violated_thermal :
    ∃ (P : PointView) (numQ numPoints : Nat) (spin volume : ℝ) (stat : Nat → CalcStat) (tau : Nat → Nat → WithTop ℝ)
      (size : Nat) (fermi dfdt : ℝ → ℝ) (heat : Nat → Nat → Nat → ℝ) (rE rT : Nat → Nat → Nat → Fin 3 → ℂ),
      0 < (stat 0).temp ∧ HermitianVel P.vel ∧ (∀ s < numQ, ∀ b < P.numBands s, tau 0 (P.toBte s b) = ((1 : ℝ) : WithTop ℝ)) ∧
      (∀ e, fermi e = getPopulation .fermi e (stat 0).temp (stat 0).chemPot) ∧
      (∀ e, dfdt e = getDndt .fermi e (stat 0).temp (stat 0).chemPot false) ∧
      (∀ s b b', heat s b b' = (P.energy s b + P.energy s b') / 2 - (stat 0).chemPot) ∧
      (∀ s b b' i, rE s b b' i = coherence (P.energy s b) (P.energy s b') 1 1
        ((fermi (P.energy s b) - fermi (P.energy s b')) / (P.energy s b - P.energy s b')) (P.vel s b b' i)) ∧
      (∀ s b b' i, rT s b b' i = coherence (P.energy s b) (P.energy s b') 1 1
        ((dfdt (P.energy s b) + dfdt (P.energy s b')) / 2) (P.vel s b b' i)) ∧
      (∀ f ∈ wignerLTE P numQ numPoints spin volume stat tau size, ∀ i j, f 0 i j < 0 ∧
        0 < coherentFlux numQ numPoints P.numBands volume spin P.vel heat rE i j) ∧
      (∀ f ∈ wignerLET P numQ numPoints spin volume stat tau size, ∀ i j, f 0 i j ≠
        ((coherentFlux numQ numPoints P.numBands volume spin P.vel (fun _ _ _ => 1) rT i j : ℝ) : WithTop ℝ)) ∧
      (∀ f ∈ wignerLTT P numQ numPoints spin volume stat tau size, ∀ i j, f 0 i j ≠
        ((coherentFlux numQ numPoints P.numBands volume spin P.vel heat rT i j : ℝ) : WithTop ℝ)) ∧
      (wignerLTE P numQ numPoints spin volume stat tau size ≠ []) := by
  set fermi : ℝ → ℝ := fun e => getPopulation .fermi e 1 0 with hfermi
  set dfdt : ℝ → ℝ := fun e => getDndt .fermi e 1 0 false with hdfdt
  set heat : Nat → Nat → Nat → ℝ := fun s b b' => (exPair.energy s b + exPair.energy s b') / 2 - 0 with hheat
  set rE : Nat → Nat → Nat → Fin 3 → ℂ := fun s b b' i => coherence (exPair.energy s b) (exPair.energy s b') 1 1
        ((fermi (exPair.energy s b) - fermi (exPair.energy s b')) / (exPair.energy s b - exPair.energy s b'))
        (exPair.vel s b b' i) with hrE
  set rT : Nat → Nat → Nat → Fin 3 → ℂ := fun s b b' i => coherence (exPair.energy s b) (exPair.energy s b') 1 1
        ((dfdt (exPair.energy s b) + dfdt (exPair.energy s b')) / 2) (exPair.vel s b b' i) with hrT
  have hf01 : fermi 1 < fermi 0 := by
    simp only [hfermi]
    rw [getPopulation_fermi one_pos, getPopulation_fermi one_pos]
    apply one_div_lt_one_div_of_lt (by positivity)
    have : Real.exp ((0 - 0) / 1) < Real.exp ((1 - 0) / 1) := Real.exp_lt_exp.mpr (by norm_num)
    linarith
  have hd0 : dfdt 0 = 0 := by simp [hdfdt, getDndt]
  have hd1 : 0 < dfdt 1 := by
    simp only [hdfdt, getDndt, Bool.false_eq_true, if_false]
    have : 0 < getPopPopPm1 .fermi 1 1 0 := by
      unfold getPopPopPm1
      have := Real.cosh_pos ((1 - 0) / 2 / 1)
      positivity
    simpa using this
  obtain ⟨k1, k2, k3⟩ := C126_factors_partial exPair 1 1 1 1 (fun _ => ⟨1, 0, 0⟩) (fun _ _ => ((1 : ℝ) : WithTop ℝ)) 1
    (by norm_num) (by norm_num) 0 (fun _ _ => 1) (by intros; norm_num) (by intros; norm_num)
    (by intro s _ b _ b' _ h; simpa [exPair] using h) fermi dfdt (fun _ => rfl) (fun _ => rfl) heat (fun _ _ _ => rfl)
    rE rT (fun _ _ _ _ => rfl) (fun _ _ _ _ => rfl)
  have flux : ∀ (w : Nat → Nat → Nat → ℝ) (r : Nat → Nat → Nat → Fin 3 → ℂ) (i j : Fin 3),
      coherentFlux 1 1 exPair.numBands 1 1 exPair.vel w r i j = w 0 0 1 * (1 * r 0 0 1 j).re + w 0 1 0 * (1 * r 0 1 0 j).re := by
    intro w r i j
    unfold coherentFlux
    simp [exPair, Finset.sum_range_succ]
  have p1 : ∀ i j, 0 < coherentFlux 1 1 exPair.numBands 1 1 exPair.vel heat rE i j := by
    intro i j
    rw [flux]
    simp only [hrE, exPair, coherence_one_re, hheat]
    norm_num
    nlinarith
  have p2 : ∀ i j, coherentFlux 1 1 exPair.numBands 1 1 exPair.vel (fun _ _ _ => 1) rT i j < 0 := by
    intro i j
    rw [flux]
    simp only [hrT, exPair, coherence_one_re]
    norm_num [hd0]
    linarith
  have p3 : ∀ i j, coherentFlux 1 1 exPair.numBands 1 1 exPair.vel heat rT i j < 0 := by
    intro i j
    rw [flux]
    simp only [hrT, exPair, coherence_one_re, hheat]
    norm_num [hd0]
    linarith
  refine ⟨exPair, 1, 1, 1, 1, fun _ => ⟨1, 0, 0⟩, fun _ _ => ((1 : ℝ) : WithTop ℝ), 1, fermi, dfdt, heat, rE, rT, one_pos,
    fun _ _ _ _ => by simp [exPair], fun _ _ _ _ => rfl, fun _ => rfl, fun _ => rfl, fun _ _ _ => rfl, fun _ _ _ _ => rfl,
    fun _ _ _ _ => rfl, ?_, ?_, ?_, ?_⟩
  · intro f hf i j
    refine ⟨?_, p1 i j⟩
    rw [k1 f hf i j]
    have := p1 i j
    exact_mod_cast (by linarith : -1 * coherentFlux 1 1 exPair.numBands 1 1 exPair.vel heat rE i j < 0)
  · intro f hf i j h
    rw [k2 f hf i j, WithTop.coe_eq_coe] at h
    linarith [p2 i j]
  · intro f hf i j h
    rw [k3 f hf i j, WithTop.coe_eq_coe] at h
    linarith [p3 i j]
  · have := (wignerElSum_val exPair 1 (fun _ => ⟨1, 0, 0⟩) (fun _ _ => ((1 : ℝ) : WithTop ℝ)) false
      (fun iCalc e => -(wignerElNorm 1 1 1 * (e - ((fun _ => (⟨1, 0, 0⟩ : CalcStat)) iCalc).chemPot))) 1
      (by norm_num) (by norm_num) 0 (fun _ _ => 1) (by intros; norm_num) (by intros; norm_num)
      (by intro s _ b _ b' _ h; simpa [exPair] using h)).1
    intro h
    unfold wignerLTE at h
    rw [h] at this
    simp at this

example : ∀ f ∈ wignerLEE (exPoint fun b => b) 2 2 2 1 (fun _ => ⟨1, 0, 0⟩) (fun _ _ => ((1 / 2 : ℝ) : WithTop ℝ)) 3,
    ∃ K : Fin 3 → Fin 3 → ℝ, (∀ i j, f 0 i j = (K i j : WithTop ℝ)) ∧ (∀ x : Fin 3 → ℝ, 0 ≤ ∑ i, ∑ j, x i * K i j * x j) ∧
      ∀ i j, K i j = K j i := by
  intro f hf
  obtain ⟨K, h1, _, h3, h4⟩ := (C126_conductivity_partial (exPoint fun b => b) 2 2 2 1 (by norm_num) (by norm_num) (by norm_num)
    (fun _ => ⟨1, 0, 0⟩) (fun _ _ => ((1 / 2 : ℝ) : WithTop ℝ)) 3 (by norm_num) (by norm_num) (exPoint_hermitian _) 0
    (fun _ _ => 2) (by intros; norm_num) (fun _ _ _ _ => rfl) (by intro s _ b _ b' _ h; simpa [exPoint] using h)
    _ (fun _ => rfl)).2 f hf
  refine ⟨K, h1, h3, h4 (fun s => 1 - s) ⟨?_, ?_, ?_, ?_, ?_, ?_⟩⟩
  · intro s _; omega
  · intro s hs; show 1 - (1 - s) = s; omega
  · intros; rfl
  · intros; rfl
  · intros; rfl
  · intro s hs b b' i
    have : s = 0 ∨ s = 1 := by omega
    rcases this with rfl | rfl <;> simp [exPoint]

example : ∀ f ∈ wignerLEE (exPoint fun _ => 1) 2 2 2 1 (fun _ => ⟨1, 0, 0⟩) (fun _ _ => ((1 / 2 : ℝ) : WithTop ℝ)) 3, ∀ i j,
    f 0 i j = ⊤ :=
  (C126_violated_degenerate (exPoint fun _ => 1) 2 2 2 1 (fun _ => ⟨1, 0, 0⟩) (fun _ _ => ((1 / 2 : ℝ) : WithTop ℝ)) 3
    (by norm_num) (by norm_num) 0 0 0 1 (by norm_num) (by simp [exPoint]) (by simp [exPoint]) (by norm_num) rfl).1

end Verif.Props
