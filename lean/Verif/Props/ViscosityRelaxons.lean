import Verif.Proofs.ViscosityRelaxons
import Verif.Props.Viscosity

/-!
# C129-C132: viscosity from the relaxons and quantities for the real-space solver
-/
namespace Verif.Props
open Verif.Model Verif.Spec

/-! ## C129 -/

/-- The viscosity of phonons from the relaxons, with the special eigenvectors that the program calculates, for any number of
processes and any schedule: in every component the roles of momentum and velocity are exchanged, and the ratio of the
specific momenta enters.  The components `(i, j, k, l)` in which `j, l` are `i, k` in some order are those of the sum over
the relaxons; the number of wavevectors is that of the band structure. -/
theorem C129_value_partial (B : BandView) (Q : WaveView) (cutoff volume spin kB : ℝ) (numPts numStates n : Nat)
    (stat : CalcStat) (size : Nat) (hs : 0 < size) (hfit : numStates * size < 18446744073709551616)
    (hvol : 0 < volume) (hspin : 0 < spin) (hkB : 0 < kB) (hN : 0 < numPts) (htemp : 0 < stat.temp)
    (pop : Nat → ℝ) (hpop : ∀ s, pop s = if B.energy s < cutoff then 0 else getPopPopPm1 .bose (B.energy s) stat.temp 0)
    (hq : ∀ i, ∃ s < numStates, pop s ≠ 0 ∧ Q.fold (Q.wave s) i ≠ 0)
    (phi : Fin 3 → Nat → ℝ)
    (hphi : ∀ i s, (specialVectors B Q .bose cutoff volume spin kB 3 numPts numStates stat size).phi i s = (phi i s : ℝ))
    (theta : Nat → Nat → ℝ) (eig : Nat → ℝ) (alpha0 : Option Nat)
    (locals : LocalPairs) (hd : PairsDistributed locals size numStates numStates) (hn : n ≤ numStates)
    (sched : Nat → List (List Nat)) (hsched : ∀ r < size, (sched r).flatten.Perm (sliceOf (List.range n) r size))
    (use : Finset Nat) (huse : ∀ a, a ∈ use ↔ a < n ∧ 0 < eig a ∧ alpha0 ≠ some a) :
    let A := (specialVectors B Q .bose cutoff volume spin kB 3 numPts numStates stat size).momentum
    let eta := relaxonViscosity numStates numPts volume spin stat.temp (fun s => Q.fold (Q.wave s)) B.vel pop theta eig use
    (phViscosityRelaxons B.vel phi A theta eig alpha0 n size locals sched).length = size ∧
    ∀ f ∈ phViscosityRelaxons B.vel phi A theta eig alpha0 n size locals sched, ∀ iCalc i j k l,
      f iCalc i j k l = Real.sqrt (A i * A k / (A j * A l)) * eta j i l k ∧
      ((j = i ∧ l = k ∨ j = k ∧ l = i) → f iCalc i j k l = eta i j k l) := by
  intro A eta
  have hNr : (0 : ℝ) < numPts := by exact_mod_cast hN
  obtain ⟨_, hA, _, _, hphi'⟩ := C128_value_partial B Q .bose cutoff volume spin kB numPts numStates stat size hs hfit hvol hspin
    hkB hN htemp 0 rfl pop (fun s => by rw [hpop s]; simp)
  have hpos : ∀ s, 0 ≤ pop s := by
    intro s; rw [hpop s]; split
    · exact le_rfl
    · exact (C45_symmetrized _ _ _ _).1
  have hS : ∀ i, 0 < ∑ s ∈ Finset.range numStates, pop s * Q.fold (Q.wave s) i ^ 2 := by
    intro i
    obtain ⟨s, hs', h1, h2⟩ := hq i
    apply Finset.sum_pos' (fun r _ => mul_nonneg (hpos r) (sq_nonneg _))
    exact ⟨s, Finset.mem_range.mpr hs', mul_pos (lt_of_le_of_ne (hpos s) (Ne.symm h1)) (by positivity)⟩
  have hApos : ∀ i, 0 < A i := by
    intro i
    show 0 < (specialVectors B Q .bose cutoff volume spin kB 3 numPts numStates stat size).momentum i
    rw [hA i]
    have := hS i
    positivity
  set g := spin / (stat.temp * numPts * volume) with hg
  have hgpos : 0 < g := by positivity
  have hAg : ∀ i, A i = (∑ s ∈ Finset.range numStates, pop s * Q.fold (Q.wave s) i ^ 2) * g := by
    intro i
    show (specialVectors B Q .bose cutoff volume spin kB 3 numPts numStates stat size).momentum i = _
    rw [hA i, hg]; ring
  have hc : ∀ i s, phi i s = Q.fold (Q.wave s) i * Real.sqrt (pop s) * Real.sqrt (g / A i) := by
    intro i s
    have h1 := hphi' i (hq i) s
    rw [hphi i s] at h1
    have h2 : phi i s = unitVector numStates (fun s => Real.sqrt (pop s) * Q.fold (Q.wave s) i) s := WithTop.coe_inj.mp h1
    rw [h2]
    unfold unitVector
    have e : ∑ r ∈ Finset.range numStates, (Real.sqrt (pop r) * Q.fold (Q.wave r) i) ^ 2 = A i / g := by
      rw [hAg i, mul_div_assoc, div_self hgpos.ne', mul_one]
      exact Finset.sum_congr rfl fun r _ => by rw [mul_pow, Real.sq_sqrt (hpos r)]
    rw [e, Real.sqrt_div (hApos i).le, Real.sqrt_div hgpos.le]
    have := Real.sqrt_pos.mpr hgpos
    have := Real.sqrt_pos.mpr (hApos i)
    field_simp
  have hfit' : n * size < 18446744073709551616 := lt_of_le_of_lt (Nat.mul_le_mul_right _ hn) hfit
  obtain ⟨h1, h2⟩ := phRelaxons_val B.vel (fun s => Q.fold (Q.wave s)) pop phi (fun i => Real.sqrt (g / A i)) A hc theta eig alpha0
    n size numStates hs hfit' locals hd hn sched hsched use huse
  refine ⟨h1, fun f hf iCalc i j k l => ?_⟩
  have hmain : f iCalc i j k l = Real.sqrt (A i * A k / (A j * A l)) * eta j i l k := by
    rw [h2 f hf iCalc i j k l]
    show _ = _ * relaxonViscosity _ _ _ _ _ _ _ _ _ _ _ j i l k
    unfold relaxonViscosity
    have hsq : Real.sqrt (A i * A k) * Real.sqrt (g / A j) * Real.sqrt (g / A l) =
        Real.sqrt (A i * A k / (A j * A l)) * g := by
      have hj := hApos j
      have hl := hApos l
      have hi := hApos i
      have hk := hApos k
      rw [mul_assoc, ← Real.sqrt_mul (by positivity), ← Real.sqrt_mul (by positivity)]
      have : A i * A k * (g / A j * (g / A l)) = A i * A k / (A j * A l) * (g * g) := by field_simp
      rw [this, Real.sqrt_mul (by positivity), Real.sqrt_mul_self hgpos.le]
    show Real.sqrt (A i * A k) * Real.sqrt (g / A j) * Real.sqrt (g / A l) * _ = _
    rw [hsq, mul_assoc]
    congr 1
    rw [hg]
    ring
  refine ⟨hmain, ?_⟩
  rintro (⟨e1, e2⟩ | ⟨e1, e2⟩)
  · rw [hmain, e1, e2, div_self (mul_pos (hApos _) (hApos _)).ne', Real.sqrt_one, one_mul]
  · rw [hmain, e1, e2, mul_comm (A i) (A k), div_self (mul_pos (hApos _) (hApos _)).ne', Real.sqrt_one, one_mul]
    show relaxonViscosity _ _ _ _ _ _ _ _ _ _ _ k i i k = relaxonViscosity _ _ _ _ _ _ _ _ _ _ _ i k k i
    unfold relaxonViscosity
    congr 2
    exact Finset.sum_congr rfl fun a _ => by ring

/-- Two opposite wavevectors, with a velocity along the first axis. -/
noncomputable def exRelaxBand : BandView where
  energy _ := 1
  vel s := fun i => if i = 0 then (if s = 0 then 1 else -1) else 0
  toBte s := s
  rots _ := [1]
  irr := [0, 1]

noncomputable def exRelaxWave : WaveView := ⟨fun s _ => if s = 0 then 1 else -1, id⟩

def exRelaxLocals : LocalPairs := fun r => if r = 0 then [(0, 0), (1, 0)] else if r = 1 then [(0, 1), (1, 1)] else []

theorem exRelaxLocals_ok : PairsDistributed exRelaxLocals 2 2 2 := by
  unfold PairsDistributed
  decide

theorem exRelax_run : MeshRun exRelaxBand 1 (fun r => [sliceOf exRelaxBand.irr r 1]) (fun is => [is]) 2 2 1 where
  procs := by norm_num
  fits := by simp [exRelaxBand]
  schedule := by intro r _; simp
  unfolding := ⟨by simp only [exRelaxBand]; decide, by intro is _; rfl⟩
  energies := by intro is _ s _; rfl
  velocities := by
    intro is _ p hp
    simp only [exRelaxBand, List.zip_cons_cons, List.zip_nil_right, List.mem_singleton] at hp
    subst hp
    funext i
    fin_cases i <;> simp [matVec_row, exRelaxBand]
  bte := by simp only [exRelaxBand]; decide
  points := by norm_num
  cell := by norm_num

/-- The eigenvectors of momentum of the example. -/
noncomputable def exRelaxPhi (s : Nat) : ℝ :=
  unitVector 2 (fun s => Real.sqrt (getPopPopPm1 .bose 1 1 0) * (if s = 0 then 1 else -1)) s

theorem exRelaxPhi_ok (i : Fin 3) (s : Nat) :
    (specialVectors exRelaxBand exRelaxWave .bose 0.1 1 1 1 3 2 2 ⟨1, 0, 0⟩ 2).phi i s = (exRelaxPhi s : ℝ) :=
  (C128_value_partial exRelaxBand exRelaxWave .bose 0.1 1 1 1 2 2 ⟨1, 0, 0⟩ 2 (by norm_num) (by norm_num) one_pos one_pos
    one_pos (by norm_num) one_pos 0 rfl (fun _ => getPopPopPm1 .bose 1 1 0)
    (fun s => by rw [if_neg]; · rfl
                 rintro ⟨_, h⟩; simp only [exRelaxBand] at h; norm_num at h)).2.2.2.2 i
    ⟨0, by norm_num, (exPop_pos 1 one_pos).ne', by simp [exRelaxWave]⟩ s

theorem exRelax_value (f : Nat → Tensor4) (i j k l : Fin 3)
    (hf : f ∈ phViscosityRelaxons exRelaxBand.vel (fun _ => exRelaxPhi)
      (specialVectors exRelaxBand exRelaxWave .bose 0.1 1 1 1 3 2 2 ⟨1, 0, 0⟩ 2).momentum
      (fun s a => if s = a then 1 else 0) (fun _ => 1 / 1) none 2 2 exRelaxLocals (fun r => [sliceOf (List.range 2) r 2])) :
    f 0 i j k l = meshViscosity 2 2 1 1 1 (exRelaxWave.wave) exRelaxBand.vel (fun _ => getPopPopPm1 .bose 1 1 0) (fun _ => 1)
      j i l k := by
  have hb : ∀ s, ¬ exRelaxBand.energy s < 0.1 := by
    intro s h; simp only [exRelaxBand] at h; norm_num at h
  have hm : ∀ i, (specialVectors exRelaxBand exRelaxWave .bose 0.1 1 1 1 3 2 2 ⟨1, 0, 0⟩ 2).momentum i =
      1 * (∑ s ∈ Finset.range 2, getPopPopPm1 .bose 1 1 0 * exRelaxWave.wave s 0 ^ 2) / (1 * (2 : Nat) * 1) := fun i =>
    (C128_value_partial exRelaxBand exRelaxWave .bose 0.1 1 1 1 2 2 ⟨1, 0, 0⟩ 2 (by norm_num) (by norm_num) one_pos one_pos
      one_pos (by norm_num) one_pos 0 rfl (fun _ => getPopPopPm1 .bose 1 1 0)
      (fun s => by rw [if_neg (fun h => hb s h.2)]; rfl)).2.1 i
  have hmpos : 0 < 1 * (∑ s ∈ Finset.range 2, getPopPopPm1 .bose 1 1 0 * exRelaxWave.wave s 0 ^ 2) / (1 * (2 : Nat) * 1) := by
    have := exPop_pos 1 one_pos
    simp only [Finset.sum_range_succ, Finset.sum_range_zero, exRelaxWave]
    norm_num
    exact this
  have h := ((C129_value_partial exRelaxBand exRelaxWave 0.1 1 1 1 2 2 2 ⟨1, 0, 0⟩ 2 (by norm_num) (by norm_num) one_pos one_pos
    one_pos (by norm_num) one_pos (fun _ => getPopPopPm1 .bose 1 1 0) (fun s => by rw [if_neg (hb s)]; rfl)
    (fun i => ⟨0, by norm_num, (exPop_pos 1 one_pos).ne', by simp [exRelaxWave]⟩) (fun _ => exRelaxPhi) exRelaxPhi_ok
    (fun s a => if s = a then 1 else 0) (fun _ => 1 / 1) none exRelaxLocals exRelaxLocals_ok le_rfl
    (fun r => [sliceOf (List.range 2) r 2]) (by intro r _; simp) (Finset.range 2) (by intro a; simp)).2 f hf 0 i j k l).1
  rw [h, hm i, hm j, hm k, hm l, div_self (mul_pos hmpos hmpos).ne', Real.sqrt_one, one_mul]
  exact relaxonViscosity_diagonal 2 2 1 1 1 exRelaxWave.wave exRelaxBand.vel (fun _ => getPopPopPm1 .bose 1 1 0) (fun _ => 1)
    (fun _ => (exPop_pos 1 one_pos).le) j i l k

/-- Two opposite wavevectors with a velocity along the first axis and a scattering matrix that is diagonal, so that the
relaxons are the states and the relaxation time approximation is exact: the two viscosities of the program differ, the
component `(0, 1, 0, 1)` of the second is not even zero. -/
theorem C129_violated_transposed :
    ∀ f ∈ phViscosityRelaxons exRelaxBand.vel (fun _ => exRelaxPhi)
      (specialVectors exRelaxBand exRelaxWave .bose 0.1 1 1 1 3 2 2 ⟨1, 0, 0⟩ 2).momentum
      (fun s a => if s = a then 1 else 0) (fun _ => 1 / 1) none 2 2 exRelaxLocals (fun r => [sliceOf (List.range 2) r 2]),
    ∀ g ∈ phViscosityRta exRelaxBand exRelaxWave 0.1 1 2 (fun _ => ⟨1, 0, 0⟩) [] (fun _ _ => 1) 1
      (fun r => [sliceOf exRelaxBand.irr r 1]), g 0 0 1 0 1 = 0 ∧ 0 < f 0 0 1 0 1 := by
  intro f hf g hg
  have hb : ∀ s, ¬ exRelaxBand.energy s < 0.1 := by
    intro s h; simp only [exRelaxBand] at h; norm_num at h
  constructor
  · rw [((C127_phonons exRelaxBand exRelaxWave 0.1 1 2 (fun _ => ⟨1, 0, 0⟩) [] (fun _ _ => 1) 1 _ (fun is => [is]) 2 exRelax_run
      (by
        intro is _ p hp
        simp only [exRelaxBand, List.zip_cons_cons, List.zip_nil_right, List.mem_singleton] at hp
        subst hp
        funext i
        fin_cases i <;> simp [matVec_row, exRelaxWave])
      0 one_pos (fun _ => 1) (fun _ _ _ _ => rfl) (fun _ _ => rfl) (fun _ _ => zero_le_one) (fun _ => False)
      (fun _ _ _ _ => by simp) _ (fun _ => rfl)).2 g hg).1 0 1 0 1]
    unfold meshViscosity
    simp [exRelaxBand]
  · rw [exRelax_value f 0 1 0 1 hf]
    unfold meshViscosity
    have := exPop_pos 1 one_pos
    simp only [Finset.sum_range_succ, Finset.sum_range_zero, exRelaxWave, exRelaxBand]
    norm_num
    exact this

/-! ## C130 -/

/-- The viscosity of electrons from the relaxons, for any number of processes: every state is weighted with its
`n (1 - n)` once too often, and the spin factor is missing.  If `n (1 - n)` is the same for all the states, the result is
`n (1 - n) / spin` times the viscosity. -/
theorem C130_value_partial (vel k : Nat → Vec3) (pop : Nat → ℝ) (kBT volume spin : ℝ) (numPoints : Nat) (hspin : 0 < spin)
    (theta : Nat → Nat → ℝ) (eig : Nat → ℝ) (alpha0 alphaE : Option Nat) (numStates size : Nat) (hs : 0 < size)
    (hfit : numStates * size < 18446744073709551616)
    (locals : LocalPairs) (hd : PairsDistributed locals size numStates numStates)
    (use : Finset Nat) (huse : ∀ a, a ∈ use ↔ a < numStates ∧ 0 < eig a ∧ alpha0 ≠ some a ∧ alphaE ≠ some a) :
    ∃ out, elViscosityRelaxons vel k pop kBT volume numPoints theta eig alpha0 alphaE numStates numStates size locals = .ok out ∧
      out.length = size ∧ ∀ f ∈ out, ∀ iCalc i j m l,
        f iCalc i j m l = (∑ a ∈ use,
          ((∑ s ∈ Finset.range numStates, pop s * (k s i * vel s j * Real.sqrt (pop s) * theta s a)) *
              momentumFlux numStates k vel pop theta m l a +
            (∑ s ∈ Finset.range numStates, pop s * (k s i * vel s l * Real.sqrt (pop s) * theta s a)) *
              momentumFlux numStates k vel pop theta m j a) / 2 / eig a) / (kBT * numPoints * volume) ∧
        ∀ c, (∀ s < numStates, pop s = c) → f iCalc i j m l =
          c / spin * relaxonViscosity numStates numPoints volume spin kBT k vel pop theta eig use i j m l := by
  obtain ⟨out, h1, h2, h3⟩ := elViscosityRelaxons_val vel k pop kBT volume numPoints theta eig alpha0 alphaE numStates size hs hfit
    locals hd use huse
  refine ⟨out, h1, h2, fun f hf iCalc i j m l => ⟨h3 f hf iCalc i j m l, fun c hc => ?_⟩⟩
  rw [h3 f hf iCalc i j m l]
  have hm : ∀ x y a, (∑ s ∈ Finset.range numStates, pop s * (k s x * vel s y * Real.sqrt (pop s) * theta s a)) =
      c * momentumFlux numStates k vel pop theta x y a := by
    intro x y a
    unfold momentumFlux
    rw [Finset.mul_sum]
    exact Finset.sum_congr rfl fun s hs' => by rw [hc s (Finset.mem_range.mp hs')]
  simp only [hm]
  unfold relaxonViscosity
  have : ∀ S : ℝ, c / spin * (spin * S / (kBT * numPoints * volume)) = c * S / (kBT * numPoints * volume) := by
    intro S; field_simp
  rw [this, Finset.mul_sum]
  congr 1
  exact Finset.sum_congr rfl fun a _ => by ring

/-- Two opposite wavevectors at the chemical potential, the relaxons are the states: the relaxon viscosity is an eighth of
the one in the relaxation time approximation, which is exact. -/
theorem C130_violated_occupation :
    ∃ out, elViscosityRelaxons exRelaxBand.vel exRelaxWave.wave (fun _ => getPopPopPm1 .fermi 1 1 1) 1 1 2
        (fun s a => if s = a then 1 else 0) (fun _ => 1 / 1) none none 2 2 2 exRelaxLocals = .ok out ∧ out.length = 2 ∧
      ∀ f ∈ out, ∀ g ∈ elViscosityRta exRelaxBand exRelaxWave 2 1 2 (fun _ => ⟨1, 1, 0⟩) (fun _ _ => 1) 1
        (fun r => [sliceOf exRelaxBand.irr r 1]), 0 < g 0 0 0 0 0 ∧ f 0 0 0 0 0 = g 0 0 0 0 0 / 8 := by
  have hp : getPopPopPm1 .fermi 1 1 1 = 1 / 4 := by simp [getPopPopPm1]; norm_num
  obtain ⟨out, h1, h2, h3⟩ := C130_value_partial exRelaxBand.vel exRelaxWave.wave (fun _ => getPopPopPm1 .fermi 1 1 1) 1 1 2 2
    (by norm_num) (fun s a => if s = a then 1 else 0) (fun _ => 1 / 1) none none 2 2 (by norm_num) (by norm_num)
    exRelaxLocals exRelaxLocals_ok (Finset.range 2) (by intro a; simp)
  refine ⟨out, h1, h2, fun f hf g hg => ?_⟩
  have hf' := (h3 f hf 0 0 0 0 0).2 (1 / 4) (fun _ _ => hp)
  rw [relaxonViscosity_diagonal 2 2 1 2 1 exRelaxWave.wave exRelaxBand.vel (fun _ => getPopPopPm1 .fermi 1 1 1) (fun _ => 1)
    (fun _ => by rw [hp]; norm_num)] at hf'
  have hg' := ((C127_electrons exRelaxBand exRelaxWave 2 1 2 (fun _ => ⟨1, 1, 0⟩) (fun _ _ => 1) 1 _ (fun is => [is]) 2
      exRelax_run (by norm_num)
      (by
        intro is _ p hp
        simp only [exRelaxBand, List.zip_cons_cons, List.zip_nil_right, List.mem_singleton] at hp
        subst hp
        funext i
        fin_cases i <;> simp [matVec_row, exRelaxWave])
      0 one_pos (fun _ => 1) (fun _ _ _ _ => rfl) (fun _ _ => rfl) (fun _ _ => zero_le_one)).2 g hg).1 0 0 0 0
  have hg2 : g 0 0 0 0 0 = meshViscosity 2 2 1 2 1 exRelaxWave.wave exRelaxBand.vel (fun _ => getPopPopPm1 .fermi 1 1 1)
      (fun _ => 1) 0 0 0 0 := hg'
  refine ⟨?_, ?_⟩
  · rw [hg2]
    unfold meshViscosity
    simp only [Finset.sum_range_succ, Finset.sum_range_zero, exRelaxWave, exRelaxBand, hp]
    norm_num
  · rw [hf', hg2]; ring

/-- If only some of the relaxons are calculated, the program reads eigenvalues that do not exist. -/
theorem C130_violated_some_relaxons (vel k : Nat → Vec3) (pop : Nat → ℝ) (kBT volume : ℝ) (numPoints : Nat)
    (theta : Nat → Nat → ℝ) (eig : Nat → ℝ) (alpha0 alphaE : Option Nat) (numStates numRelaxons size : Nat)
    (locals : LocalPairs) (hd : PairsDistributed locals size numStates numStates) (hlt : numRelaxons < numStates) :
    elViscosityRelaxons vel k pop kBT volume numPoints theta eig alpha0 alphaE numStates numRelaxons size locals = .ub := by
  unfold elViscosityRelaxons
  obtain ⟨r, hr, hp⟩ := distributed_exists hd (lt_of_le_of_lt (Nat.zero_le _) hlt) hlt
  rw [if_pos ⟨r, hr, _, hp, le_rfl⟩]

example : elViscosityRelaxons exRelaxBand.vel exRelaxWave.wave (fun _ => 1) 1 1 2 (fun _ _ => 0) (fun _ => 1) none none 2 1 2
    exRelaxLocals = .ub :=
  C130_violated_some_relaxons _ _ _ _ _ _ _ _ _ _ 2 1 2 _ exRelaxLocals_ok (by norm_num)

/-! ## C131 -/

/-- Among orthonormal relaxons, the one that is skipped is the only one whose overlap with a special eigenvector of norm
one is at least three quarters, and none is skipped if there is no such relaxon: whatever the distribution of the matrix and
the signs of the eigenvectors.  All the relaxons are calculated, and there are at least ten. -/
theorem C131_index_partial (numStates size : Nat) (locals : LocalPairs) (hd : PairsDistributed locals size numStates numStates)
    (hten : 10 ≤ numStates) (theta : Nat → Nat → ℝ) (ho : OrthonormalRelaxons numStates numStates theta) (x : Nat → ℝ)
    (hx : ∑ s ∈ Finset.range numStates, x s ^ 2 = 1) :
    ∃ r, specialIndex numStates size locals theta x = .ok r ∧
      ∀ a, r = some a ↔ a < numStates ∧ 0.75 ≤ |∑ s ∈ Finset.range numStates, theta s a * x s| := by
  obtain ⟨prod, h1, h2⟩ := overlaps_val numStates size numStates locals hd theta x
  unfold specialIndex
  rw [h1, Outcome.bind_eq, Outcome.bind_ok]
  rw [if_neg (by omega)]
  obtain ⟨m1, m2⟩ := argMax_spec numStates (fun g => |prod g|) (by omega)
  refine ⟨_, rfl, fun a => ?_⟩
  by_cases h : 0.75 ≤ |prod (argMax numStates fun g => |prod g|)|
  · rw [if_pos h, Option.some_inj]
    constructor
    · rintro rfl
      exact ⟨m1, by rw [← h2 _ m1]; exact h⟩
    · rintro ⟨ha, hb⟩
      by_contra hne
      exact overlap_unique numStates numStates theta x ho hx _ a m1 ha hne (by rw [← h2 _ m1]; exact h) hb
  · rw [if_neg h]
    constructor
    · intro h'; cases h'
    · rintro ⟨ha, hb⟩
      exact absurd (hb.trans (by rw [← h2 a ha]; exact m2 a ha)) h

/-- In particular a special eigenvector that is a relaxon, with either sign, is found. -/
theorem C131_found_partial (numStates size : Nat) (locals : LocalPairs) (hd : PairsDistributed locals size numStates numStates)
    (hten : 10 ≤ numStates) (theta : Nat → Nat → ℝ) (ho : OrthonormalRelaxons numStates numStates theta) (a : Nat)
    (ha : a < numStates) (sign : ℝ) (hsign : sign = 1 ∨ sign = -1) :
    specialIndex numStates size locals theta (fun s => sign * theta s a) = .ok (some a) := by
  have hss : sign * sign = 1 := by rcases hsign with rfl | rfl <;> norm_num
  obtain ⟨r, h1, h2⟩ := C131_index_partial numStates size locals hd hten theta ho (fun s => sign * theta s a) (by
    have : ∀ s, (sign * theta s a) ^ 2 = theta s a * theta s a := by intro s; linear_combination theta s a ^ 2 * hss
    simp only [this]
    rw [ho a ha a ha, if_pos rfl])
  rw [h1, (h2 a).mpr ⟨ha, ?_⟩]
  have : ∑ s ∈ Finset.range numStates, theta s a * (sign * theta s a) = sign := by
    have e : ∀ s, theta s a * (sign * theta s a) = sign * (theta s a * theta s a) := by intro s; ring
    simp only [e]
    rw [← Finset.mul_sum, ho a ha a ha, if_pos rfl, mul_one]
  rw [this]
  rcases hsign with rfl | rfl <;> norm_num

/-- If only some of the relaxons are calculated, or there are fewer than ten, the program writes or reads outside of the
vector of products. -/
theorem C131_violated_few (numStates numRelaxons size : Nat) (locals : LocalPairs)
    (hd : PairsDistributed locals size numStates numStates) (theta : Nat → Nat → ℝ) (x : Nat → ℝ)
    (hfew : numRelaxons < numStates ∨ numRelaxons = numStates ∧ numStates < 10) :
    specialIndex numRelaxons size locals theta x = .ub := by
  unfold specialIndex
  rcases hfew with hlt | ⟨rfl, hlt⟩
  · obtain ⟨r, hr, hp⟩ := distributed_exists hd (lt_of_le_of_lt (Nat.zero_le _) hlt) hlt
    have : overlaps numRelaxons size locals theta x = .ub := by
      unfold overlaps
      rw [if_pos ⟨r, hr, _, hp, le_rfl⟩]
    rw [this]; rfl
  · obtain ⟨prod, h1, _⟩ := overlaps_val numRelaxons size numRelaxons locals hd theta x
    rw [h1, Outcome.bind_eq, Outcome.bind_ok, if_pos hlt]

/-- Ten states on two processes, each with half of the relaxons. -/
def exTenLocals : LocalPairs := fun r =>
  if r = 0 then (List.range 10).flatMap fun s => (List.range 5).map fun a => (s, a)
  else if r = 1 then (List.range 10).flatMap fun s => (List.range 5).map fun a => (s, a + 5) else []

theorem exTenLocals_ok : PairsDistributed exTenLocals 2 10 10 := by
  unfold PairsDistributed
  decide +kernel

theorem exIdentity_orthonormal (n : Nat) : OrthonormalRelaxons n n (fun s a => if s = a then 1 else 0) := by
  intro a ha b hb
  simp only [mul_ite, mul_one, mul_zero]
  rw [Finset.sum_ite_eq' (Finset.range n) b, if_pos (Finset.mem_range.mpr hb)]
  by_cases h : a = b
  · rw [if_pos h, if_pos h.symm]
  · rw [if_neg h, if_neg (Ne.symm h)]

example : specialIndex 10 2 exTenLocals (fun s a => if s = a then 1 else 0)
    (fun s => (-1 : ℝ) * (if s = 7 then 1 else 0)) = .ok (some 7) :=
  C131_found_partial 10 2 exTenLocals exTenLocals_ok le_rfl _ (exIdentity_orthonormal 10) 7 (by norm_num) (-1) (Or.inr rfl)

example : specialIndex 2 2 exRelaxLocals (fun _ _ => 0) (fun _ => 0) = .ub :=
  C131_violated_few 2 2 2 _ exRelaxLocals_ok _ _ (Or.inr ⟨rfl, by norm_num⟩)

/-! ## C132 -/

/-- The dissipation of momentum, for any distribution of the matrix: the quadratic form of the scattering matrix on the
eigenvectors of momentum; symmetric and never negative if the matrix is, and zero if scattering conserves momentum. -/
theorem C132_dissipation (phi : Fin 3 → Nat → ℝ) (omega : Nat → Nat → ℝ) (size numStates : Nat) (locals : LocalPairs)
    (hd : PairsDistributed locals size numStates numStates) :
    (∀ i j, momentumDissipation phi omega size locals i j =
      ∑ s ∈ Finset.range numStates, ∑ r ∈ Finset.range numStates, phi i s * omega s r * phi j r) ∧
    ((∀ s < numStates, ∀ r < numStates, omega s r = omega r s) →
      ∀ i j, momentumDissipation phi omega size locals i j = momentumDissipation phi omega size locals j i) ∧
    ((∀ y : Nat → ℝ, 0 ≤ ∑ s ∈ Finset.range numStates, ∑ r ∈ Finset.range numStates, y s * omega s r * y r) →
      ∀ x : Fin 3 → ℝ, 0 ≤ ∑ i, ∑ j, x i * momentumDissipation phi omega size locals i j * x j) ∧
    (∀ j, (∀ s < numStates, ∑ r ∈ Finset.range numStates, omega s r * phi j r = 0) →
      ∀ i, momentumDissipation phi omega size locals i j = 0) := by
  have hval : ∀ i j, momentumDissipation phi omega size locals i j =
      ∑ s ∈ Finset.range numStates, ∑ r ∈ Finset.range numStates, phi i s * omega s r * phi j r := by
    intro i j
    unfold momentumDissipation
    have h := localSum_val locals size numStates numStates hd (fun _ => true)
      (fun p => phi i p.1 * omega p.1 p.2 * phi j p.2)
    simpa using h
  refine ⟨hval, ?_, ?_, ?_⟩
  · intro hsym i j
    rw [hval, hval, Finset.sum_comm]
    apply Finset.sum_congr rfl
    intro r hr
    apply Finset.sum_congr rfl
    intro s hs
    rw [hsym s (Finset.mem_range.mp hs) r (Finset.mem_range.mp hr)]
    ring
  · intro hpos x
    have h := hpos (fun s => ∑ i, x i * phi i s)
    convert h using 1
    simp only [hval, Finset.mul_sum, Finset.sum_mul, Fin.sum_univ_three, ← Finset.sum_add_distrib]
    apply Finset.sum_congr rfl
    intro s _
    apply Finset.sum_congr rfl
    intro r _
    ring
  · intro j h i
    rw [hval]
    apply Finset.sum_eq_zero
    intro s hs
    have e : ∀ r, phi i s * omega s r * phi j r = phi i s * (omega s r * phi j r) := fun r => by ring
    simp only [e]
    rw [← Finset.mul_sum, h s (Finset.mem_range.mp hs), mul_zero]

/-- The velocity tensors, for any number of processes: the products of the velocity between the eigenvectors of momentum and
of energy (or charge). -/
theorem C132_velocity (B : BandView) (st : Statistics) (cutoff : ℝ) (numStates size : Nat) (hs : 0 < size)
    (hfit : numStates * size < 18446744073709551616) (phi : Fin 3 → Nat → ℝ) (theta : Nat → ℝ)
    (hphi : ∀ i s, st = .bose → B.energy s < cutoff → phi i s = 0) (j i : Fin 3) :
    specialVelocity B st cutoff numStates size phi theta j i =
      ∑ s ∈ Finset.range numStates, phi i s * B.vel s j * theta s := by
  unfold specialVelocity
  rw [specialSum_val B st cutoff numStates size hs hfit]
  apply Finset.sum_congr rfl
  intro s _
  split
  · rename_i h
    unfold specialSkip at h
    obtain ⟨h1, h2⟩ := of_decide_eq_true h
    rw [hphi i s h1 h2]; ring
  · rfl

/-- Units of the specific heat of the real-space solver and of the viscosity, right in three dimensions: the heat of
`specialVectors` is per kelvin (`kB = kBoltzmannSi / Ry`). -/
theorem C132_units_partial (c : SiConstants) (hh : c.hbar ≠ 0) (hr : c.rydberg ≠ 0)
    (kB : ℝ) (hkB : kB ≠ 0) :
    realSpaceHeatConversion c kB * kB = siHeat c.boltzmann c.bohr 3 ∧ viscosityConversion c = siViscosity c.hbar c.bohr 3 := by
  constructor
  · unfold realSpaceHeatConversion siHeat
    rw [div_mul_cancel₀ _ hkB, zpow_neg, div_eq_mul_inv]
    norm_cast
  · unfold viscosityConversion siViscosity
    rw [zpow_neg]
    field_simp
    norm_cast

/-- In one and two dimensions both have the units of three dimensions: the numbers are too large by powers of the inverse of
the Bohr radius. -/
theorem C132_violated_units (c : SiConstants) (hb : 0 < c.bohr) (hb1 : c.bohr < 1) (hh : 0 < c.hbar) (hr : 0 < c.rydberg)
    (hk : 0 < c.boltzmann) (kB : ℝ) (hkB : 0 < kB) (d : Nat) (hd : d < 3) :
    siHeat c.boltzmann c.bohr d < realSpaceHeatConversion c kB * kB ∧ siViscosity c.hbar c.bohr d < viscosityConversion c := by
  obtain ⟨h1, h2⟩ := C132_units_partial c hh.ne' hr.ne' kB hkB.ne'
  have hz : c.bohr ^ (-(d : ℤ)) < c.bohr ^ (-((3 : Nat) : ℤ)) := by
    apply zpow_lt_zpow_right_of_lt_one₀ hb hb1
    omega
  rw [h1, h2]
  exact ⟨mul_lt_mul_of_pos_left hz hk, mul_lt_mul_of_pos_left hz hh⟩

example : momentumDissipation (fun i s => (i.val + s : ℝ)) (fun s r => if s = r then 2 else -1) 2 exRelaxLocals 0 1 =
    momentumDissipation (fun i s => (i.val + s : ℝ)) (fun s r => if s = r then 2 else -1) 2 exRelaxLocals 1 0 :=
  (C132_dissipation _ _ 2 2 _ exRelaxLocals_ok).2.1 (fun s _ r _ => by simp only [eq_comm]) 0 1

example : specialVelocity exBand .bose 0.1 6 2 (fun i s => exBand.vel s i) (fun _ => 1) 0 0 =
    ∑ s ∈ Finset.range 6, exBand.vel s 0 * exBand.vel s 0 * 1 :=
  C132_velocity exBand .bose 0.1 6 2 (by norm_num) (by norm_num) _ _ (fun i s _ h => by
    have h0 : (0 : ℝ) ≤ ((s % 3 : Nat) : ℝ) := Nat.cast_nonneg _
    have h1 : exBand.energy s = 1 + ((s % 3 : Nat) : ℝ) := rfl
    rw [h1] at h
    norm_num at h
    linarith) 0 0

example : ∃ c : SiConstants, 0 < c.bohr ∧ c.bohr < 1 ∧ 0 < c.hbar ∧ 0 < c.rydberg ∧ 0 < c.boltzmann :=
  ⟨⟨0.5, 1, 1, 1, 1⟩, by norm_num, by norm_num, by norm_num, by norm_num, by norm_num⟩

end Verif.Props
