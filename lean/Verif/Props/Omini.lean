import Verif.Proofs.Omini
import Verif.Proofs.Particle
import Mathlib.Analysis.SpecialFunctions.Pow.Real
import Mathlib.Analysis.SpecialFunctions.Trigonometric.DerivHyp
import Mathlib.Algebra.Order.Ring.GeomSum

/-!
# C115: the iterative solver of the Boltzmann equation
-/
namespace Verif.Props
open Verif.Model Verif.Spec

theorem bosePop_weight (stat : Nat → CalcStat) (c : Nat) (e : ℝ) :
    bosePop stat c e = boseWeight (stat c).temp (stat c).chemPot e := popPopPm1_bose_occ e _ _

/-- Population of iteration `k`, from that of the relaxation time approximation (`popRTA`), as `n(n+1)` times a canonical
population. -/
noncomputable def canonicalIterate (n : Nat) (ex : List Nat) (diag popRTA : VBte ℝ) (o : Nat → Nat × Nat → Nat × Nat → ℝ)
    (stat : Nat → CalcStat) (energy : Nat → ℝ) (k c : Nat) : Nat × Nat → ℝ :=
  ominiIterate (unknowns n ex) (fun u => diag.get c 0 u.2) (o c)
    (fun u => popRTA.get c u.1 u.2 / boseWeight (stat c).temp (stat c).chemPot (energy u.2)) k

/-- The conductivity of the canonical population `f` (component, state). -/
noncomputable def heatConductivity (B : BandView) (n numPoints : Nat) (volume : ℝ) (ex : List Nat) (stat : Nat → CalcStat)
    (c : Nat) (f : Nat × Nat → ℝ) (i j : Fin 3) : ℝ :=
  (∑ s ∈ freeStates n ex, B.energy s * (boseWeight (stat c).temp (stat c).chemPot (B.energy s) * f (i, s)) * B.vel s j) / (numPoints * volume)

/-- A run of the iterative solver that ends normally reports the conductivity of one of the iterates
`f_{k+1} = f_0 - D⁻¹ (A - D) f_k`, and between this iterate and the one before some component of the conductivity changed by
less than the threshold.  Missing: that this conductivity is that of the solution within the threshold
(`C115_violated`). -/
theorem C115_run_partial {mu temps n : Nat} {ex : List Nat} {off : VBte ℝ → VBte ℝ} {o : Nat → Nat × Nat → Nat × Nat → ℝ}
    (hoff : OffActs mu temps n ex off o) {diag popRTA : VBte ℝ} (hd : Shape1 mu temps n diag)
    (hpop : Shape mu temps n ex popRTA) (hsz : ((mu * temps * 3 : Nat) : Int) ≤ intMax)
    {B : BandView} {size : Nat} {sched : Nat → List (List Nat)} (hB : PlainRun B n size sched)
    (numPoints : Nat) (volume : ℝ) (stat : Nat → CalcStat) (junk : Nat → Nat → Mat3 → Vec3)
    (hbose : ∀ c, ∀ s ∈ freeStates n ex, boseWeight (stat c).temp (stat c).chemPot (B.energy s) ≠ 0) (threshold : ℝ) (maxIter : Nat) (hmax : 0 < maxIter)
    (kappa : Nat → Mat3)
    (hrun : phOmini off diag popRTA B.energy stat (phCanonicalCond B numPoints volume B.energy stat junk size sched)
      ((phTensor B 3 numPoints volume popRTA junk size sched).headD (fun _ => 0)) threshold maxIter = .ok kappa) :
    ∃ k, 1 ≤ k ∧ k ≤ maxIter ∧
      (∀ c < mu * temps, ∀ i j, kappa c i j =
        heatConductivity B n numPoints volume ex stat c (canonicalIterate n ex diag popRTA o stat B.energy k c) i j) ∧
      ∃ c < mu * temps, ∃ i j,
        let new := heatConductivity B n numPoints volume ex stat c (canonicalIterate n ex diag popRTA o stat B.energy k c) i j
        let old := heatConductivity B n numPoints volume ex stat c
          (canonicalIterate n ex diag popRTA o stat B.energy (k - 1) c) i j
        old ≠ 0 ∧ |(new - old) / old| < threshold := by
  unfold phOmini at hrun
  simp only at hrun
  rw [Outcome.bind_eq_ok_iff] at hrun
  obtain ⟨out, hout, hk⟩ := hrun
  set rta := population2Canonical B.energy stat popRTA with hrta
  have hr : Shape mu temps n ex rta := scaleByState_shape _ _ hpop
  have hrv : ∀ c, ∀ u ∈ unknowns n ex, rta.get c u.1 u.2 =
      popRTA.get c u.1 u.2 / boseWeight (stat c).temp (stat c).chemPot (B.energy u.2) := by
    intro c u hu
    rw [hrta]
    unfold population2Canonical
    rw [scaleByState_get hpop.dim c (mem_unknowns.mp hu).1, mul_one_div, bosePop_weight]
  have hit : ∀ c, ∀ k, ∀ u ∈ unknowns n ex,
      ominiIterate (unknowns n ex) (fun u => diag.get c 0 u.2) (o c) (fun u => rta.get c u.1 u.2) k u =
      canonicalIterate n ex diag popRTA o stat B.energy k c u := by
    intro c k
    unfold canonicalIterate
    induction k with
    | zero => intro u hu; exact hrv c u hu
    | succ k ih =>
      intro u hu
      show rta.get c u.1 u.2 - _ / _ = _ - _ / _
      rw [hrv c u hu, Finset.sum_congr rfl fun v hv => by rw [ih v hv]]
  obtain ⟨m, f, g, h1, h2, hf, hg, hfv, hgv, hlast, d, hd1, hd2⟩ := phOminiLoop_val hoff hd hr hsz _ popRTA.numCalc threshold
    _ maxIter 0 rta _ [] out hr (fun c _ u _ => rfl) (by rw [if_pos rfl]) hmax hout
  have hfree : ∀ (i : Fin 3), ∀ s ∈ freeStates n ex, ((i : Nat), s) ∈ unknowns n ex := by
    intro i s hs
    unfold unknowns
    rw [Finset.mem_product, Finset.mem_range]
    exact ⟨i.isLt, hs⟩
  have hcond : ∀ (x : VBte ℝ) (k : Nat), Shape mu temps n ex x →
      (∀ c < mu * temps, ∀ u ∈ unknowns n ex, x.get c u.1 u.2 =
        ominiIterate (unknowns n ex) (fun u => diag.get c 0 u.2) (o c) (fun u => rta.get c u.1 u.2) k u) →
      ∀ c < mu * temps, ∀ i j, phCanonicalCond B numPoints volume B.energy stat junk size sched x c i j =
        heatConductivity B n numPoints volume ex stat c (canonicalIterate n ex diag popRTA o stat B.energy k c) i j := by
    intro x k hx hxv c hc i j
    rw [phCanonicalCond_val hB numPoints volume stat junk x hx]
    unfold heatConductivity
    congr 1
    apply Finset.sum_congr rfl
    intro s hs
    rw [← hit c k _ (hfree i s hs), ← hxv c hc _ (hfree i s hs), bosePop_weight]
  have hold : ∀ c < mu * temps, ∀ i j, (if m = 1 then (phTensor B 3 numPoints volume popRTA junk size sched).headD (fun _ => 0)
      else phCanonicalCond B numPoints volume B.energy stat junk size sched g) c i j =
        heatConductivity B n numPoints volume ex stat c (canonicalIterate n ex diag popRTA o stat B.energy (m - 1) c) i j := by
    intro c hc i j
    split
    · rename_i hm1
      subst hm1
      rw [phPlain_val hB, hpop.ex]
      unfold heatConductivity
      congr 1
      apply Finset.sum_congr rfl
      intro s hs
      have e : canonicalIterate n ex diag popRTA o stat B.energy (1 - 1) c (↑i, s) =
          popRTA.get c i s / boseWeight (stat c).temp (stat c).chemPot (B.energy s) := rfl
      rw [e, mul_div_cancel₀ _ (hbose c s hs)]
    · exact hcond g (m - 1) hg hgv c hc i j
  refine ⟨m, h1, by omega, ?_, ?_⟩
  · intro c hc i j
    have hkf : kappa = phCanonicalCond B numPoints volume B.energy stat junk size sched f := by
      rw [List.getLastD_eq_getLast?, hlast] at hk
      exact ((Outcome.ok.injEq _ _).mp hk).symm
    rw [hkf]
    exact hcond f m hf hfv c hc i j
  · obtain ⟨hmem, _⟩ := relativeChange_ok hd1
    obtain ⟨c, hc, i, j, h0, rfl⟩ := mem_relativeEntries.mp hmem
    rw [hpop.numCalc] at hc
    refine ⟨c, hc, i, j, ?_⟩
    rw [hold c hc i j] at h0 hd2
    rw [hcond f m hf hfv c hc i j] at hd2
    exact ⟨h0, hd2⟩

/-- If at every iteration all the components of the conductivity change by the threshold or more, the run ends with an
error. -/
theorem C115_not_converged {mu temps n : Nat} {ex : List Nat} {off : VBte ℝ → VBte ℝ} {o : Nat → Nat × Nat → Nat × Nat → ℝ}
    (hoff : OffActs mu temps n ex off o) {diag popRTA : VBte ℝ} (hd : Shape1 mu temps n diag)
    (hpop : Shape mu temps n ex popRTA) (hsz : ((mu * temps * 3 : Nat) : Int) ≤ intMax)
    {B : BandView} {size : Nat} {sched : Nat → List (List Nat)} (hB : PlainRun B n size sched)
    (numPoints : Nat) (volume : ℝ) (stat : Nat → CalcStat) (junk : Nat → Nat → Mat3 → Vec3)
    (hbose : ∀ c, ∀ s ∈ freeStates n ex, boseWeight (stat c).temp (stat c).chemPot (B.energy s) ≠ 0) (threshold : ℝ) (maxIter : Nat) (hmax : 0 < maxIter)
    (hchange : ∀ k, 1 ≤ k → k ≤ maxIter → ∀ c < mu * temps, ∀ i j : Fin 3,
      let new := heatConductivity B n numPoints volume ex stat c (canonicalIterate n ex diag popRTA o stat B.energy k c) i j
      let old := heatConductivity B n numPoints volume ex stat c
        (canonicalIterate n ex diag popRTA o stat B.energy (k - 1) c) i j
      old = 0 ∨ threshold ≤ |(new - old) / old|) :
    phOmini off diag popRTA B.energy stat (phCanonicalCond B numPoints volume B.energy stat junk size sched)
      ((phTensor B 3 numPoints volume popRTA junk size sched).headD (fun _ => 0)) threshold maxIter = .error := by
  have hr : Shape mu temps n ex (population2Canonical B.energy stat popRTA) := scaleByState_shape _ _ hpop
  rcases phOminiLoop_total hoff hd hr hsz (phCanonicalCond B numPoints volume B.energy stat junk size sched) popRTA.numCalc
    threshold maxIter (population2Canonical B.energy stat popRTA)
    ((phTensor B 3 numPoints volume popRTA junk size sched).headD (fun _ => 0)) [] hr with ⟨out, h⟩ | h
  · exfalso
    obtain ⟨k, h1, h2, _, c, hc, i, j, h3, h4⟩ := C115_run_partial hoff hd hpop hsz hB numPoints volume stat junk hbose
      threshold maxIter hmax _ (by
        unfold phOmini
        simp only
        rw [h]
        rfl)
    rcases hchange k h1 h2 c hc i j with h5 | h5
    · exact h3 h5
    · exact absurd h4 (not_lt.mpr h5)
  · unfold phOmini
    simp only
    rw [h]
    rfl

/-- The same iteration for the two populations of electrons: when it ends, the populations are iterates of the same step, and
the relative changes of both conductivities (of their components that changed least) are below the threshold.  Missing: as
for phonons. -/
theorem C115_electrons_partial {mu temps n : Nat} {ex : List Nat} {off : VBte ℝ → VBte ℝ}
    {o : Nat → Nat × Nat → Nat × Nat → ℝ} (hoff : OffActs mu temps n ex off o) {width rtaE rtaT : VBte ℝ}
    (hd : Shape1 mu temps n width) (hE : Shape mu temps n ex rtaE) (hT : Shape mu temps n ex rtaT)
    (hsz : ((mu * temps * 3 : Nat) : Int) ≤ intMax) (cond : VBte ℝ → VBte ℝ → (Nat → Mat3) × (Nat → Mat3))
    (cond0 : (Nat → Mat3) × (Nat → Mat3)) (threshold : ℝ) (maxIter : Nat) (hmax : 0 < maxIter) (out : VBte ℝ × VBte ℝ)
    (hrun : elOminiLoop off width rtaE rtaT cond (mu * temps) threshold maxIter (rtaE, rtaT) cond0 = .ok out) :
    ∃ k gE gT, 1 ≤ k ∧ k ≤ maxIter ∧
      (∀ c < mu * temps, ∀ u ∈ unknowns n ex, out.1.get c u.1 u.2 =
        ominiIterate (unknowns n ex) (fun u => width.get c 0 u.2) (o c) (fun u => rtaE.get c u.1 u.2) k u) ∧
      (∀ c < mu * temps, ∀ u ∈ unknowns n ex, out.2.get c u.1 u.2 =
        ominiIterate (unknowns n ex) (fun u => width.get c 0 u.2) (o c) (fun u => rtaT.get c u.1 u.2) k u) ∧
      (∀ c < mu * temps, ∀ u ∈ unknowns n ex, gE.get c u.1 u.2 =
        ominiIterate (unknowns n ex) (fun u => width.get c 0 u.2) (o c) (fun u => rtaE.get c u.1 u.2) (k - 1) u) ∧
      (∀ c < mu * temps, ∀ u ∈ unknowns n ex, gT.get c u.1 u.2 =
        ominiIterate (unknowns n ex) (fun u => width.get c 0 u.2) (o c) (fun u => rtaT.get c u.1 u.2) (k - 1) u) ∧
      let new := cond out.1 out.2
      let old := if k = 1 then cond0 else cond gE gT
      (∃ c < mu * temps, ∃ i j, old.1 c i j ≠ 0 ∧ |(new.1 c i j - old.1 c i j) / old.1 c i j| < threshold) ∧
      ∃ c < mu * temps, ∃ i j, old.2 c i j ≠ 0 ∧ |(new.2 c i j - old.2 c i j) / old.2 c i j| < threshold := by
  obtain ⟨m, gE, gT, h1, h2, _, _, h3, h4, h5, h6, ⟨d, hd1, hd2⟩, d', hd1', hd2'⟩ := elOminiLoop_val hoff hd hE hT hsz cond
    (mu * temps) threshold cond0 maxIter 0 (rtaE, rtaT) cond0 out hE hT (fun c _ u _ => rfl) (fun c _ u _ => rfl)
    (by rw [if_pos rfl]) hmax hrun
  refine ⟨m, gE, gT, h1, by omega, h3, h4, h5, h6, ?_, ?_⟩
  · obtain ⟨c, hc, i, j, h0, rfl⟩ := mem_relativeEntries.mp (relativeChange_ok hd1).1
    exact ⟨c, hc, i, j, h0, hd2⟩
  · obtain ⟨c, hc, i, j, h0, rfl⟩ := mem_relativeEntries.mp (relativeChange_ok hd1').1
    exact ⟨c, hc, i, j, h0, hd2'⟩

/-- Where the iteration stands still, the equation is solved. -/
theorem C115_fixed_point {ι : Type} (S : Finset ι) (diag : ι → ℝ) (off : ι → ι → ℝ) (f0 : ι → ℝ)
    (hdiag : ∀ u ∈ S, diag u ≠ 0) (k : Nat)
    (hfix : ∀ u ∈ S, ominiIterate S diag off f0 (k + 1) u = ominiIterate S diag off f0 k u) :
    SolvesSplit S diag off (fun u => diag u * f0 u) (ominiIterate S diag off f0 k) := by
  intro u hu
  have h1 : f0 u - (∑ v ∈ S, off u v * ominiIterate S diag off f0 k v) / diag u = ominiIterate S diag off f0 k u := hfix u hu
  have h0 := hdiag u hu
  rw [← h1]
  field_simp
  ring

/-- When scattering out dominates scattering in (by a factor `q < 1`, for some weights of the states), the iterates go to the
solution: the error decreases by `q` at every iteration, and is bounded by `q / (1 - q)` times the last change of the
population. -/
theorem C115_convergence {ι : Type} (S : Finset ι) (diag : ι → ℝ) (off : ι → ι → ℝ) (f0 x w : ι → ℝ) (q : ℝ)
    (hdiag : ∀ u ∈ S, diag u ≠ 0) (hq0 : 0 ≤ q) (hq1 : q < 1) (hw : ∀ u ∈ S, 0 < w u)
    (hq : ∀ u ∈ S, ∑ v ∈ S, |off u v| * w v ≤ q * |diag u| * w u)
    (hx : SolvesSplit S diag off (fun u => diag u * f0 u) x) :
    (∀ M, 0 ≤ M → (∀ u ∈ S, |f0 u - x u| ≤ M * w u) →
      ∀ k, ∀ u ∈ S, |ominiIterate S diag off f0 k u - x u| ≤ q ^ k * M * w u) ∧
    (∀ k, ∀ δ, 0 ≤ δ → (∀ u ∈ S, |ominiIterate S diag off f0 (k + 1) u - ominiIterate S diag off f0 k u| ≤ δ * w u) →
      ∀ u ∈ S, |ominiIterate S diag off f0 (k + 1) u - x u| ≤ q / (1 - q) * δ * w u) := by
  have step : ∀ M, 0 ≤ M → ∀ k, (∀ u ∈ S, |ominiIterate S diag off f0 k u - x u| ≤ M * w u) →
      ∀ u ∈ S, |ominiIterate S diag off f0 (k + 1) u - x u| ≤ q * M * w u := by
    intro M hM k hk u hu
    rw [omini_error S diag off f0 x hdiag hx k u hu, abs_neg]
    exact off_bound S diag off w q M hdiag hq hM _ hk u hu
  constructor
  · intro M hM h0 k
    induction k with
    | zero =>
      intro u hu
      rw [pow_zero, one_mul]
      exact h0 u hu
    | succ k ih =>
      intro u hu
      have := step (q ^ k * M) (mul_nonneg (pow_nonneg hq0 k) hM) k ih u hu
      rw [pow_succ]
      linarith [this]
  · intro k δ hδ hch u hu
    have h1q : 0 < 1 - q := by linarith
    -- the largest weighted error before the last step
    obtain ⟨M, hM, hMle, hmax⟩ : ∃ M, 0 ≤ M ∧ (∀ v ∈ S, |ominiIterate S diag off f0 k v - x v| ≤ M * w v) ∧
        ∃ v ∈ S, |ominiIterate S diag off f0 k v - x v| = M * w v := by
      obtain ⟨v, hv, hmax⟩ := Finset.exists_max_image S (fun v => |ominiIterate S diag off f0 k v - x v| / w v) ⟨u, hu⟩
      refine ⟨|ominiIterate S diag off f0 k v - x v| / w v, div_nonneg (abs_nonneg _) (hw v hv).le, ?_, v, hv, ?_⟩
      · intro v' hv'
        have := hmax v' hv'
        rwa [div_le_iff₀ (hw v' hv')] at this
      · rw [div_mul_cancel₀ _ (hw v hv).ne']
    have hn := step M hM k hMle
    obtain ⟨v, hv, hve⟩ := hmax
    have h2 : M * w v ≤ q * M * w v + δ * w v := by
      have h3 := hn v hv
      have h4 := hch v hv
      rw [← hve]
      have h5 : ominiIterate S diag off f0 k v - x v = (ominiIterate S diag off f0 (k + 1) v - x v) -
          (ominiIterate S diag off f0 (k + 1) v - ominiIterate S diag off f0 k v) := by ring
      calc |ominiIterate S diag off f0 k v - x v| ≤ |ominiIterate S diag off f0 (k + 1) v - x v| +
          |ominiIterate S diag off f0 (k + 1) v - ominiIterate S diag off f0 k v| := by
            conv_lhs => rw [h5]
            exact abs_sub _ _
        _ ≤ _ := add_le_add h3 h4
    have h6 : M ≤ δ / (1 - q) := by
      rw [le_div_iff₀ h1q]
      have := hw v hv
      have h7 : (M * (1 - q)) * w v ≤ δ * w v := by linarith
      exact le_of_mul_le_mul_right h7 this
    calc |ominiIterate S diag off f0 (k + 1) u - x u| ≤ q * M * w u := hn u hu
      _ ≤ q * (δ / (1 - q)) * w u := by
          apply mul_le_mul_of_nonneg_right _ (hw u hu).le
          exact mul_le_mul_of_nonneg_left h6 hq0
      _ = q / (1 - q) * δ * w u := by ring

/-! ### An example: two states that exchange heat -/

/-- Two states of energy one and velocity along `x`. -/
noncomputable def twoStates : BandView where
  energy _ := 1
  vel _ := fun i => if i = 0 then 1 else 0
  toBte s := s
  rots _ := [1]
  irr := List.range 2

theorem twoStates_run : PlainRun twoStates 2 1 (fun _ => [[1], [0]]) where
  irr := rfl
  bte _ := rfl
  rots _ := rfl
  procs := by norm_num
  fits := by norm_num
  schedule := by
    intro r hr
    obtain rfl : r = 0 := by omega
    simp only [twoStates]
    decide

/-- Temperature one. -/
noncomputable def twoStat : Nat → CalcStat := fun _ => ⟨1, 0, 0⟩

theorem twoBose_pos (c : Nat) (s : Nat) : 0 < bosePop twoStat c (twoStates.energy s) := by
  have h : 0 < Real.sinh (1 / 2) := Real.sinh_pos_iff.2 (by norm_num)
  unfold bosePop getPopPopPm1 twoStat twoStates
  simp only [sub_zero, div_one]
  positivity

/-- A population along `x`: the same number on both states. -/
noncomputable def twoVec (a : ℝ) : VBte ℝ := ⟨1, 1, 3, 2, fun row _ => if row = 0 then a else 0, []⟩

/-- Linewidths equal to one. -/
noncomputable def twoDiag : VBte ℝ := ⟨1, 1, 1, 2, fun _ _ => 1, []⟩

/-- The population scattered from the other state, with the rate `q`. -/
noncomputable def twoOff (q : ℝ) (x : VBte ℝ) : VBte ℝ :=
  ⟨x.numChemPots, x.numTemps, x.dim, x.numStates, fun row s => -q * x.data row (1 - s), x.exclude⟩

/-- The kernel of the same. -/
noncomputable def twoKernel (q : ℝ) (_c : Nat) (u v : Nat × Nat) : ℝ := if v.1 = u.1 ∧ v.2 = 1 - u.2 then -q else 0

theorem twoVec_shape (a : ℝ) : Shape 1 1 2 [] (twoVec a) := ⟨rfl, rfl, rfl, rfl, rfl⟩
theorem twoDiag_shape : Shape1 1 1 2 twoDiag := ⟨rfl, rfl, rfl, rfl⟩

theorem twoVec_get (a : ℝ) (i s : Nat) : (twoVec a).get 0 i s = if i = 0 then a else 0 := by
  unfold twoVec VBte.get; simp

theorem two_sum (q : ℝ) (x : Nat × Nat → ℝ) (u : Nat × Nat) (hu : u ∈ unknowns 2 []) (c : Nat) :
    ∑ v ∈ unknowns 2 [], twoKernel q c u v * x v = -q * x (u.1, 1 - u.2) := by
  obtain ⟨h1, h2, _⟩ := mem_unknowns.mp hu
  rw [Finset.sum_eq_single (u.1, 1 - u.2)]
  · unfold twoKernel; simp
  · intro v _ hv
    unfold twoKernel
    rw [if_neg, zero_mul]
    rintro ⟨e1, e2⟩
    exact hv (Prod.ext e1 e2)
  · intro h
    have hmem : (u.1, 1 - u.2) ∈ unknowns 2 [] := mem_unknowns.mpr ⟨h1, (by omega : 1 - u.2 < 2), List.not_mem_nil⟩
    exact absurd hmem h

theorem twoOff_acts (q : ℝ) : OffActs 1 1 2 [] (twoOff q) (twoKernel q) where
  shape x hx := ⟨hx.mu, hx.temps, hx.dim, hx.states, hx.ex⟩
  val x _ c _ u hu := by
    rw [two_sum q (fun v => x.get c v.1 v.2) u hu c]
    rfl

/-- The population is the sum of a geometric series. -/
noncomputable def twoSum (q : ℝ) (k : Nat) : ℝ := ∑ j ∈ Finset.range (k + 1), q ^ j

theorem twoSum_succ (q : ℝ) (k : Nat) : twoSum q (k + 1) = 1 + q * twoSum q k := by
  unfold twoSum
  rw [Finset.sum_range_succ', Finset.mul_sum]
  simp only [pow_succ', pow_zero]
  ring

theorem two_iterate (q : ℝ) (k : Nat) : ∀ u ∈ unknowns 2 [],
    ominiIterate (unknowns 2 []) (fun u => twoDiag.get 0 0 u.2) (twoKernel q 0) (fun u => (twoVec 1).get 0 u.1 u.2) k u =
      if u.1 = 0 then twoSum q k else 0 := by
  induction k with
  | zero =>
    intro u _
    have h0 : twoSum q 0 = 1 := by unfold twoSum; simp
    rw [h0]
    exact twoVec_get 1 u.1 u.2
  | succ k ih =>
    intro u hu
    obtain ⟨h1, h2, _⟩ := mem_unknowns.mp hu
    have hmem : (u.1, 1 - u.2) ∈ unknowns 2 [] := mem_unknowns.mpr ⟨h1, (by omega : 1 - u.2 < 2), List.not_mem_nil⟩
    show (twoVec 1).get 0 u.1 u.2 - (∑ v ∈ unknowns 2 [], twoKernel q 0 u v * _) / twoDiag.get 0 0 u.2 = _
    have hd : twoDiag.get 0 0 u.2 = 1 := rfl
    rw [two_sum q _ u hu 0, ih _ hmem, twoVec_get, hd, twoSum_succ]
    by_cases h : u.1 = 0
    · simp [h]
    · simp [h]

theorem two_rta : population2Canonical twoStates.energy twoStat (twoVec (bosePop twoStat 0 1)) = twoVec 1 := by
  have hp : bosePop twoStat 0 1 ≠ 0 := (twoBose_pos 0 0).ne'
  have hc : ∀ c, bosePop twoStat c 1 = bosePop twoStat 0 1 := fun _ => rfl
  unfold population2Canonical scaleByState twoVec
  simp only [twoStates, hc]
  congr 1
  funext row s
  by_cases h : row = 0
  · simp only [if_pos h]; rw [mul_one_div, div_self hp]
  · simp [h]

theorem freeStates_two : freeStates 2 [] = {0, 1} := by decide

/-- The conductivity of the two states with populations `x`. -/
theorem two_heat (x : Nat × Nat → ℝ) (a : ℝ) (hx : ∀ u ∈ unknowns 2 [], x u = if u.1 = 0 then a else 0) (i j : Fin 3) :
    heatConductivity twoStates 2 1 1 [] twoStat 0 x i j = if i = 0 ∧ j = 0 then 2 * bosePop twoStat 0 1 * a else 0 := by
  unfold heatConductivity
  simp only [← bosePop_weight]
  have h0 : ((i : Nat), 0) ∈ unknowns 2 [] := mem_unknowns.mpr ⟨i.isLt, by norm_num, List.not_mem_nil⟩
  have h1 : ((i : Nat), 1) ∈ unknowns 2 [] := mem_unknowns.mpr ⟨i.isLt, by norm_num, List.not_mem_nil⟩
  rw [freeStates_two, Finset.sum_pair (by decide), hx _ h0, hx _ h1]
  have hv : ∀ s, twoStates.vel s j = if j = 0 then 1 else 0 := fun _ => rfl
  have he : ∀ s, twoStates.energy s = 1 := fun _ => rfl
  simp only [hv, he]
  have hi : ((i : Nat) = 0) ↔ i = 0 := by rw [Fin.ext_iff]; rfl
  by_cases h1 : i = 0
  · by_cases h2 : j = 0
    · simp [h1, h2]; ring
    · simp [h2]
  · simp [hi, h1]

/-- The smallest relative change is that of the only component that is not zero. -/
theorem two_change (x y : Nat → Mat3) (a b : ℝ) (hb : 0 < b) (hlt : |(a - b) / b| < 1e20)
    (hx : ∀ i j, x 0 i j = if i = 0 ∧ j = 0 then 2 * bosePop twoStat 0 1 * a else 0)
    (hy : ∀ i j, y 0 i j = if i = 0 ∧ j = 0 then 2 * bosePop twoStat 0 1 * b else 0) :
    relativeChange 1 x y = .ok |(a - b) / b| := by
  have hp : 0 < bosePop twoStat 0 1 := twoBose_pos 0 0
  have hval : |(x 0 0 0 - y 0 0 0) / y 0 0 0| = |(a - b) / b| := by
    rw [hx, hy, if_pos ⟨rfl, rfl⟩, if_pos ⟨rfl, rfl⟩]
    congr 1
    field_simp
  have hall : ∀ e ∈ relativeEntries 1 x y, e = |(a - b) / b| := by
    intro e he
    obtain ⟨c, hc, i, j, h0, rfl⟩ := mem_relativeEntries.mp he
    obtain rfl : c = 0 := by omega
    rw [hy] at h0
    by_cases h : i = 0 ∧ j = 0
    · rw [h.1, h.2, hval]
    · rw [if_neg h] at h0; exact absurd rfl h0
  have hmem : |(a - b) / b| ∈ relativeEntries 1 x y := by
    rw [← hval]
    refine mem_relativeEntries.mpr ⟨0, by norm_num, 0, 0, ?_, rfl⟩
    rw [hy, if_pos ⟨rfl, rfl⟩]
    positivity
  obtain ⟨d, hd, _⟩ := relativeChange_small hmem hlt
  rw [hd, hall d (relativeChange_ok hd).1]

theorem twoSum_pos (q : ℝ) (hq : 0 < q) (k : Nat) : 0 < twoSum q k := by
  unfold twoSum
  exact Finset.sum_pos (fun j _ => pow_pos hq j) ⟨0, by simp⟩

theorem twoSum_exact (q : ℝ) (hq : q < 1) (k : Nat) : twoSum q k = (1 - q ^ (k + 1)) / (1 - q) := by
  unfold twoSum
  rw [geom_sum_eq hq.ne]
  have h1 : q - 1 ≠ 0 := by intro h; linarith
  have h2 : 1 - q ≠ 0 := by intro h; linarith
  rw [div_eq_div_iff h1 h2]
  ring

/-- The relative change at iteration `k + 1` is at most `1 / (k + 1)`. -/
theorem twoSum_change (q : ℝ) (hq0 : 0 < q) (hq1 : q < 1) (k : Nat) :
    |(twoSum q (k + 1) - twoSum q k) / twoSum q k| ≤ 1 / (k + 1) := by
  have hpos := twoSum_pos q hq0 k
  have e : twoSum q (k + 1) - twoSum q k = q ^ (k + 1) := by
    have : twoSum q (k + 1) = twoSum q k + q ^ (k + 1) := by
      unfold twoSum; rw [Finset.sum_range_succ _ (k + 1)]
    rw [this]; ring
  rw [e, abs_of_nonneg (div_nonneg (pow_nonneg hq0.le _) hpos.le)]
  have hk : (0 : ℝ) < (k : ℝ) + 1 := by positivity
  rw [div_le_div_iff₀ hpos hk, one_mul]
  have h1 : ∀ j ∈ Finset.range (k + 1), q ^ (k + 1) ≤ q ^ j := by
    intro j hj
    exact pow_le_pow_of_le_one hq0.le hq1.le (by have := Finset.mem_range.mp hj; omega)
  have h2 := Finset.card_nsmul_le_sum (Finset.range (k + 1)) (fun j => q ^ j) (q ^ (k + 1)) h1
  rw [Finset.card_range, nsmul_eq_mul] at h2
  unfold twoSum
  push_cast at h2
  linarith

theorem two_posDef (q : ℝ) (hq0 : 0 < q) (hq1 : q < 1) :
    PosDef (unknowns 2 []) (fun u v => (if u = v then 1 else 0) + twoKernel q 0 u v) := by
  constructor
  · intro u hu v hv
    obtain ⟨_, h2, _⟩ := mem_unknowns.mp hu
    obtain ⟨_, h4, _⟩ := mem_unknowns.mp hv
    unfold twoKernel
    have e1 : (u = v) ↔ (v = u) := ⟨Eq.symm, Eq.symm⟩
    have e2 : (v.1 = u.1 ∧ v.2 = 1 - u.2) ↔ (u.1 = v.1 ∧ u.2 = 1 - v.2) := by
      constructor
      · rintro ⟨a, b⟩; exact ⟨a.symm, by omega⟩
      · rintro ⟨a, b⟩; exact ⟨a.symm, by omega⟩
    simp only [e1, e2]
  · intro x ⟨u, hu, hx⟩
    have e : ∀ u ∈ unknowns 2 [], ∑ v ∈ unknowns 2 [], x u * ((if u = v then 1 else 0) + twoKernel q 0 u v) * x v =
        x u * x u - q * (x u * x (u.1, 1 - u.2)) := by
      intro u hu
      have h1 : ∀ v ∈ unknowns 2 [], x u * ((if u = v then 1 else 0) + twoKernel q 0 u v) * x v =
          (if u = v then x u * x v else 0) + x u * (twoKernel q 0 u v * x v) := by
        intro v _
        split <;> ring
      rw [Finset.sum_congr rfl h1, Finset.sum_add_distrib, Finset.sum_ite_eq, if_pos hu, ← Finset.mul_sum,
        two_sum q x u hu 0]
      ring
    rw [Finset.sum_congr rfl e, sum_unknowns]
    have h2 : ∀ i, ∑ s ∈ freeStates 2 [], (x (i, s) * x (i, s) - q * (x (i, s) * x ((i, s).1, 1 - (i, s).2))) =
        q * (x (i, 0) - x (i, 1)) ^ 2 + (1 - q) * (x (i, 0) ^ 2 + x (i, 1) ^ 2) := by
      intro i
      rw [freeStates_two, Finset.sum_pair (by decide)]
      simp only [Nat.sub_zero, Nat.sub_self]
      ring
    simp only [h2]
    obtain ⟨h3, h4, _⟩ := mem_unknowns.mp hu
    apply Finset.sum_pos'
    · intro i _
      have := sq_nonneg (x (i, 0) - x (i, 1))
      have := sq_nonneg (x (i, 0))
      have := sq_nonneg (x (i, 1))
      have : 0 ≤ 1 - q := by linarith
      positivity
    · refine ⟨u.1, Finset.mem_range.mpr h3, ?_⟩
      have hsq : 0 < x (u.1, 0) ^ 2 + x (u.1, 1) ^ 2 := by
        obtain h5 | h5 : u.2 = 0 ∨ u.2 = 1 := by omega
        · have : x (u.1, 0) ≠ 0 := by rw [← h5]; exact hx
          have := sq_nonneg (x (u.1, 1))
          positivity
        · have : x (u.1, 1) ≠ 0 := by rw [← h5]; exact hx
          have := sq_nonneg (x (u.1, 0))
          positivity
      have := sq_nonneg (x (u.1, 0) - x (u.1, 1))
      have h1q : 0 < 1 - q := by linarith
      have := mul_pos h1q hsq
      have := mul_nonneg hq0.le (sq_nonneg (x (u.1, 0) - x (u.1, 1)))
      linarith

/-- Violation: for every threshold `t < 1` there is a (symmetric, positive definite) scattering matrix for which the solver
ends normally with a conductivity whose relative error is larger than `t`. -/
theorem C115_violated (t : ℝ) (ht0 : 0 < t) (ht1 : t < 1) :
    ∃ q, 0 < q ∧ q < 1 ∧ ∃ maxIter kappa x,
      PosDef (unknowns 2 []) (fun u v => (if u = v then 1 else 0) + twoKernel q 0 u v) ∧
      SolvesSplit (unknowns 2 []) (fun u => twoDiag.get 0 0 u.2) (twoKernel q 0)
        (fun u => twoDiag.get 0 0 u.2 * ((twoVec 1).get 0 u.1 u.2)) x ∧
      phOmini (twoOff q) twoDiag (twoVec (bosePop twoStat 0 1)) twoStates.energy twoStat
        (phCanonicalCond twoStates 1 1 twoStates.energy twoStat (fun _ _ _ _ => 0) 1 (fun _ => [[1], [0]]))
        ((phTensor twoStates 3 1 1 (twoVec (bosePop twoStat 0 1)) (fun _ _ _ _ => 0) 1 (fun _ => [[1], [0]])).headD
          (fun _ => 0)) t maxIter = .ok kappa ∧
      t * |heatConductivity twoStates 2 1 1 [] twoStat 0 x 0 0| <
        |kappa 0 0 0 - heatConductivity twoStates 2 1 1 [] twoStat 0 x 0 0| := by
  obtain ⟨K, hK⟩ := exists_nat_gt (1 / t)
  have hp : 0 < bosePop twoStat 0 1 := twoBose_pos 0 0
  have hK0 : 0 < K := by
    have : (0 : ℝ) < K := lt_trans (by positivity) hK
    exact_mod_cast this
  set q : ℝ := 1 - (1 - t) / (2 * (K + 1)) with hq
  have hKr : (0 : ℝ) < 2 * (K + 1) := by positivity
  have hu0 : 0 < (1 - t) / (2 * (K + 1)) := div_pos (by linarith) hKr
  have hu1 : (1 - t) / (2 * (K + 1)) < 1 := by
    rw [div_lt_one hKr]
    have : (0 : ℝ) ≤ K := Nat.cast_nonneg K
    linarith
  have hq0 : 0 < q := by rw [hq]; linarith
  have hq1 : q < 1 := by rw [hq]; linarith
  have h1q : 0 < 1 - q := by linarith
  -- the error left after `K` iterations
  have hpow : t < q ^ (K + 1) := by
    have hb := one_add_mul_le_pow (a := -((1 - t) / (2 * (K + 1)))) (by linarith) (K + 1)
    have e : 1 + -((1 - t) / (2 * ((K : ℝ) + 1))) = q := by rw [hq]; ring
    rw [e] at hb
    have e2 : 1 + ((K + 1 : Nat) : ℝ) * -((1 - t) / (2 * ((K : ℝ) + 1))) = (1 + t) / 2 := by
      push_cast
      have : (K : ℝ) + 1 ≠ 0 := by positivity
      field_simp
      ring
    rw [e2] at hb
    linarith
  -- the run ends
  have hsmall : ∀ j : Nat, |(twoSum q (j + 1) - twoSum q j) / twoSum q j| < 1e20 := by
    intro j
    apply lt_of_le_of_lt (twoSum_change q hq0 hq1 j)
    have : (1 : ℝ) / (j + 1) ≤ 1 := by
      rw [div_le_one (by positivity)]
      have : (0 : ℝ) ≤ j := Nat.cast_nonneg j
      linarith
    linarith
  have h0 : twoSum q 0 = 1 := by unfold twoSum; simp
  have hcond : ∀ j x, IsIterate 1 1 2 [] (twoKernel q) twoDiag (twoVec 1) j x → ∀ a b : Fin 3,
      phCanonicalCond twoStates 1 1 twoStates.energy twoStat (fun _ _ _ _ => 0) 1 (fun _ => [[1], [0]]) x 0 a b =
        if a = 0 ∧ b = 0 then 2 * bosePop twoStat 0 1 * twoSum q j else 0 := by
    intro j x hx a b
    rw [phCanonicalCond_val twoStates_run 1 1 twoStat _ x hx.shape,
      ← two_heat (fun u => x.get 0 u.1 u.2) (twoSum q j) (fun u hu => by rw [hx.val 0 (by norm_num) u hu, two_iterate q j u hu])]
    unfold heatConductivity
    simp only [← bosePop_weight]
  have hRTA : ∀ a b : Fin 3, (phTensor twoStates 3 1 1 (twoVec (bosePop twoStat 0 1)) (fun _ _ _ _ => 0) 1
      (fun _ => [[1], [0]])).headD (fun _ => 0) 0 a b = if a = 0 ∧ b = 0 then 2 * bosePop twoStat 0 1 * twoSum q 0 else 0 := by
    intro a b
    rw [phPlain_val twoStates_run, h0, ← two_heat (fun u => (twoVec 1).get 0 u.1 u.2) 1 (fun u _ => twoVec_get 1 u.1 u.2)]
    unfold heatConductivity
    simp only [← bosePop_weight]
    congr 1
    apply Finset.sum_congr rfl
    intro s _
    simp only [twoVec_get]
    have he : twoStates.energy s = 1 := rfl
    rw [he]
    by_cases h : (a : Nat) = 0
    · simp [h]
    · simp [h]
  obtain ⟨out, hout⟩ := phOminiLoop_exits (twoOff_acts q) twoDiag_shape (twoVec_shape 1) (by decide)
    (cond := phCanonicalCond twoStates 1 1 twoStates.energy twoStat (fun _ _ _ _ => 0) 1 (fun _ => [[1], [0]]))
    (numCalc := 1) (threshold := t)
    ((phTensor twoStates 3 1 1 (twoVec (bosePop twoStat 0 1)) (fun _ _ _ _ => 0) 1 (fun _ => [[1], [0]])).headD (fun _ => 0))
    (fun j => |(twoSum q (j + 1) - twoSum q j) / twoSum q j|)
    (by
      intro j x y hx hy
      apply two_change _ _ _ _ (twoSum_pos q hq0 j) (hsmall j) (hcond (j + 1) y hy)
      intro a b
      split
      · rename_i hj; rw [hRTA, hj]
      · exact hcond j x hx a b) (K - 1) (by
      apply lt_of_le_of_lt (twoSum_change q hq0 hq1 (K - 1))
      have e : ((K - 1 : Nat) : ℝ) + 1 = K := by
        have : K - 1 + 1 = K := by omega
        exact_mod_cast this
      rw [e, div_lt_iff₀ (by exact_mod_cast hK0)]
      rw [div_lt_iff₀ ht0] at hK
      linarith) K 0 (twoVec 1) [] ⟨twoVec_shape 1, fun c _ u _ => rfl⟩ (by omega) (by omega)
  have hrun : phOmini (twoOff q) twoDiag (twoVec (bosePop twoStat 0 1)) twoStates.energy twoStat
      (phCanonicalCond twoStates 1 1 twoStates.energy twoStat (fun _ _ _ _ => 0) 1 (fun _ => [[1], [0]]))
      ((phTensor twoStates 3 1 1 (twoVec (bosePop twoStat 0 1)) (fun _ _ _ _ => 0) 1 (fun _ => [[1], [0]])).headD
        (fun _ => 0)) t K = .ok (out.getLastD
          ((phTensor twoStates 3 1 1 (twoVec (bosePop twoStat 0 1)) (fun _ _ _ _ => 0) 1 (fun _ => [[1], [0]])).headD
            (fun _ => 0))) := by
    unfold phOmini
    simp only
    rw [two_rta]
    rw [if_pos rfl] at hout
    have e : (twoVec (bosePop twoStat 0 1)).numCalc = 1 := rfl
    rw [e, hout]
    rfl
  obtain ⟨k, _, hk2, hkap, _⟩ := C115_run_partial (twoOff_acts q) twoDiag_shape (twoVec_shape (bosePop twoStat 0 1))
    (by decide) twoStates_run 1 1 twoStat (fun _ _ _ _ => 0) (fun c s _ => by rw [← bosePop_weight]; exact (twoBose_pos c s).ne') t K hK0 _ hrun
  -- the exact solution
  have hx : ∀ u ∈ unknowns 2 [], (fun u : Nat × Nat => if u.1 = 0 then 1 / (1 - q) else (0 : ℝ)) u =
      if u.1 = 0 then 1 / (1 - q) else 0 := fun _ _ => rfl
  refine ⟨q, hq0, hq1, K, _, fun u => if u.1 = 0 then 1 / (1 - q) else 0, ?_, ?_, hrun, ?_⟩
  · exact two_posDef q hq0 hq1
  · intro u hu
    have hd : twoDiag.get 0 0 u.2 = 1 := rfl
    rw [two_sum q _ u hu 0]
    simp only [twoVec_get, hd]
    by_cases h : u.1 = 0
    · simp only [h, if_true]
      field_simp
      ring
    · simp [h]
  · rw [hkap 0 (by norm_num) 0 0, two_heat _ _ hx, two_heat _ (twoSum q k) (by
      intro u hu
      rw [← two_iterate q k u hu]
      unfold canonicalIterate
      congr 1
      funext u
      rw [twoVec_get, twoVec_get, ← bosePop_weight]
      have he : bosePop twoStat 0 (twoStates.energy u.2) = bosePop twoStat 0 1 := rfl
      rw [he]
      by_cases h : u.1 = 0
      · simp only [if_pos h]; exact div_self hp.ne'
      · simp [h]), if_pos ⟨rfl, rfl⟩, if_pos ⟨rfl, rfl⟩, twoSum_exact q hq1]
    have hkK : q ^ (K + 1) ≤ q ^ (k + 1) := pow_le_pow_of_le_one hq0.le hq1.le (by omega)
    have e : 2 * bosePop twoStat 0 1 * ((1 - q ^ (k + 1)) / (1 - q)) - 2 * bosePop twoStat 0 1 * (1 / (1 - q)) =
        -(q ^ (k + 1) * (2 * bosePop twoStat 0 1 * (1 / (1 - q)))) := by field_simp; ring
    have hpos : 0 < 2 * bosePop twoStat 0 1 * (1 / (1 - q)) := by positivity
    rw [e, abs_neg, abs_of_pos hpos, abs_of_pos (by positivity)]
    exact mul_lt_mul_of_pos_right (lt_of_lt_of_le hpow hkK) hpos

/-- The hypotheses of `C115_convergence` are met by the two states with `q = 1/2`. -/
example : ∀ u ∈ unknowns 2 [], ∑ v ∈ unknowns 2 [], |twoKernel (1 / 2) 0 u v| * 1 ≤ 1 / 2 * |twoDiag.get 0 0 u.2| * 1 := by
  intro u hu
  have e : ∀ v ∈ unknowns 2 [], |twoKernel (1 / 2) 0 u v| * 1 = twoKernel (-(1 / 2)) 0 u v * (fun _ => (1 : ℝ)) v := by
    intro v _
    unfold twoKernel
    split
    · norm_num
    · simp
  have hd : twoDiag.get 0 0 u.2 = 1 := rfl
  rw [Finset.sum_congr rfl e, two_sum _ _ u hu 0, hd]
  norm_num

/-- A run of the electron solver that ends: the conductivities do not change. -/
example : ∃ out, elOminiLoop (twoOff (1 / 2)) twoDiag (twoVec 1) (twoVec 2) (fun _ _ => (fun _ _ _ => 3, fun _ _ _ => 4)) (1 * 1)
    (1 / 10) 5 (twoVec 1, twoVec 2) (fun _ _ _ => 3, fun _ _ _ => 4) = .ok out := by
  have hch : ∀ a : ℝ, a ≠ 0 → relativeChange (1 * 1) (fun _ _ _ => a) (fun _ _ _ => a) = .ok 0 := by
    intro a ha
    have hmem : (0 : ℝ) ∈ relativeEntries (1 * 1) (fun _ _ _ => a) (fun _ _ _ => a) :=
      mem_relativeEntries.mpr ⟨0, by norm_num, 0, 0, ha, by simp⟩
    obtain ⟨d, hd, _⟩ := relativeChange_small hmem (by norm_num)
    obtain ⟨c, _, i, j, _, h⟩ := mem_relativeEntries.mp (relativeChange_ok hd).1
    rw [hd, h]
    simp
  obtain ⟨nE, hE, _⟩ := ominiStep_val (twoOff_acts (1 / 2)) twoDiag_shape (twoVec_shape 1) (twoVec_shape 1) (by decide)
  obtain ⟨nT, hT, _⟩ := ominiStep_val (twoOff_acts (1 / 2)) twoDiag_shape (twoVec_shape 2) (twoVec_shape 2) (by decide)
  refine ⟨(nE, nT), ?_⟩
  unfold elOminiLoop
  simp only [hE, hT, Outcome.bind_eq, Outcome.bind_ok, hch 3 (by norm_num), hch 4 (by norm_num)]
  rw [if_pos ⟨by norm_num, by norm_num⟩]

end Verif.Props
