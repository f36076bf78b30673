import Verif.Spec.EpaApp
import Verif.Proofs.RtaRun
import Verif.Props.EpaRates
import Verif.Props.TransportOut

/-! # Lemmas for C179 -/
namespace Verif.Props
open Verif.Model Verif.Spec Verif.Proofs

/-- A run of the app of the electron-phonon averaged approximation with `n` energies on `size` processes: a window of two or
more energies, a crystal of which the bands and the weights have the symmetry (`star` are the states that an irreducible one
stands for), phonons of positive averaged energy, not equal to a number of steps of the mesh, and energies at which the file
has the coupling `g` (see C63). -/
structure EpaReady (A : EpaApp) (g : Nat → ℝ → ℝ → ℝ) (star : Nat → List Nat) (numStates n size : Nat) : Prop where
  procs : 0 < size
  fits : n * size < 18446744073709551616
  window : epaNumEnergies A.fermiLevel A.range A.step = .ok n
  two : 2 ≤ n
  step : 0 < A.step
  unfolding : Unfolding A.B.irr A.B.rots star numStates
  velocities : Covariant A.B.irr A.B.rots star A.B.vel
  weights : ∀ e, Invariant A.B.irr star fun s => A.delta s e
  phonons : ∀ w ∈ A.phEnergies, 0 ≤ w
  jumps : ∀ w ∈ A.phEnergies, w / A.step + n < 2147483647
  offMesh : ∀ w ∈ A.phEnergies, ∀ m < n, w ≠ m * A.step
  temps : ∀ c < A.numCalc, 0 < (A.stat c).temp
  coupling : ∀ i < n, ∀ nu < A.phEnergies.length,
    epaCoupling A.elEnergies A.average nu (windowEnergy A i) (windowEnergy A i + A.phEnergies.getD nu 0) =
      .ok (g nu (windowEnergy A i) (windowEnergy A i + A.phEnergies.getD nu 0)) ∧
    epaCoupling A.elEnergies A.average nu (windowEnergy A i) (windowEnergy A i - A.phEnergies.getD nu 0) =
      .ok (g nu (windowEnergy A i) (windowEnergy A i - A.phEnergies.getD nu 0))

theorem windowEnergy_eq (A : EpaApp) (n i : Nat) : epaEnergy (A.setup n) i = windowEnergy A i := by
  unfold epaEnergy windowEnergy EpaApp.setup
  ring

theorem EpaReady.rates {A : EpaApp} {g : Nat → ℝ → ℝ → ℝ} {star : Nat → List Nat} {numStates n size : Nat}
    (h : EpaReady A g star numStates n size) (dos : List ℝ) (hd : dos.length = n) : EpaRun (A.setup n) dos g size where
  procs := h.procs
  mesh := by have := h.two; simp only [EpaApp.setup]; omega
  fits := h.fits
  step := h.step
  states := hd
  phonons := h.phonons
  jumps := h.jumps
  coupling := by
    intro i hi nu hnu
    rw [windowEnergy_eq]
    exact h.coupling i hi nu hnu

theorem averagedRate_congr (volume temp chemPot : ℝ) (omegas : List ℝ) (g : Nat → ℝ → ℝ → ℝ) (rho rho' : ℝ → ℝ) (e : ℝ)
    (h : ∀ x, rho x = rho' x) : averagedRate volume temp chemPot omegas g rho e =
      averagedRate volume temp chemPot omegas g rho' e := by
  rw [funext h]

theorem interpolated_congr (f f' : Nat → ℝ) (n : Nat) (h : ∀ k < n, f k = f' k) (x : ℝ) :
    interpolated f n x = interpolated f' n x := by
  unfold interpolated
  split
  · rename_i hx
    have hfl : ⌊x⌋.toNat < n := by
      have h0 : 0 ≤ ⌊x⌋ := Int.floor_nonneg.mpr hx.1
      have h1 : (⌊x⌋ : ℝ) ≤ n - 1 := (Int.floor_le x).trans hx.2
      have h2 : ⌊x⌋ ≤ (n : Int) - 1 := by exact_mod_cast h1
      omega
    rw [h _ hfl]
    by_cases h1 : ⌊x⌋.toNat + 1 < n
    · rw [h _ h1]
    · have h0 : 0 ≤ ⌊x⌋ := Int.floor_nonneg.mpr hx.1
      have he : (⌊x⌋ : Int) = n - 1 := by omega
      have hfr : Int.fract x = 0 := by
        have ha := Int.floor_add_fract x
        have hb := Int.fract_nonneg x
        have hc : (⌊x⌋ : ℝ) = n - 1 := by rw [he]; push_cast; ring
        linarith [hx.2]
      rw [hfr, zero_mul, zero_mul]
  · rfl

/-- The rates of one calculation, on all the processes. -/
theorem epaRates_of {A : EpaApp} {g : Nat → ℝ → ℝ → ℝ} {star : Nat → List Nat} {numStates n size : Nat}
    (h : EpaReady A g star numStates n size) (dos : List ℝ)
    (hd : dos = (List.range n).map fun j => spinDensity A numStates (windowEnergy A j)) (c : Nat) :
    ∃ res, epaRates (A.setup n) A.crt dos (A.stat c).temp (A.stat c).chemPot size = .ok res ∧ res.length = size ∧
      ∀ f ∈ res, ∀ i < n, f i = epaRateOf A g numStates n c i := by
  have hlen : dos.length = n := by rw [hd]; simp
  have hpos : ¬ (A.setup n).numEnergies = 0 := by have := h.two; simp only [EpaApp.setup]; omega
  obtain ⟨res, h1, h2, h3⟩ := C133_value_partial (A.setup n) dos g size (h.rates dos hlen) (A.stat c).temp (A.stat c).chemPot
  have hgold : ∀ f ∈ res, ∀ i < n, f i = (if A.spinOrbit then 1 else 1 / 2) *
      goldenRate A g numStates n c i := by
    intro f hf i hi
    unfold goldenRate
    rw [h3 f hf i hi]
    · simp only [windowEnergy_eq]
      congr 1
      apply averagedRate_congr
      intro x
      apply interpolated_congr
      intro j hj
      have hj' : j < n := hj
      rw [hd, List.getD_eq_getElem?_getD, List.getElem?_map, List.getElem?_range hj']
      rfl
    · intro w hw
      rw [windowEnergy_eq, windowEnergy_eq, windowEnergy_eq]
      have hs := h.step
      constructor
      · intro he
        refine h.offMesh w hw i hi ?_
        unfold windowEnergy at he
        push_cast at he
        linarith
      · intro he
        have h2 := h.two
        have hnum : (A.setup n).numEnergies = n := rfl
        rw [hnum] at he
        refine h.offMesh w hw (n - 1 - i) (by omega) ?_
        unfold windowEnergy at he
        have hc : ((n - 1 - i : Nat) : ℝ) = ((n - 1 : Nat) : ℝ) - i := by rw [Nat.cast_sub (by omega)]
        rw [hc]
        linarith
  have hnone : epaRates (A.setup n) none dos (A.stat c).temp (A.stat c).chemPot size =
      fillReduce (epaRateAt (A.setup n) dos (A.stat c).temp (A.stat c).chemPot) (A.setup n).numEnergies size := by
    unfold epaRates
    rw [if_neg hpos]
  cases hc : A.crt with
  | none =>
    refine ⟨res, h1, h2, fun f hf i hi => ?_⟩
    rw [hgold f hf i hi]
    simp only [epaRateOf, hc]
  | some T =>
    by_cases hT : 0 < T
    · refine ⟨List.replicate size fun _ => 2 * Real.pi / T, ?_, List.length_replicate, fun f hf i _ => ?_⟩
      · unfold epaRates
        rw [if_neg hpos]
        simp only [hT, if_true]
      · rw [List.eq_of_mem_replicate hf]
        simp only [epaRateOf, hc, hT, if_true]
    · refine ⟨res, ?_, h2, fun f hf i hi => ?_⟩
      · rw [← h1, hnone]
        unfold epaRates
        rw [if_neg hpos]
        simp only [hT, if_false]
      · rw [hgold f hf i hi]
        simp only [epaRateOf, hc, hT, if_false]

/-- The moments of the program are those of the specification. -/
theorem energyMoment_of (A : EpaApp) (numStates n : Nat) (h2 : 2 ≤ n) (temp chemPot : ℝ) (hT : 0 < temp) (v : Nat → Mat3)
    (hv : ∀ i < n, ∀ a b, v i a b = (2 * Real.pi) ^ 3 *
      crystalAverage numStates A.numPoints A.volume A.B.vel A.B.vel (fun s => A.delta s (windowEnergy A i)) a b)
    (f rate : Nat → ℝ) (hf : ∀ i < n, f i = rate i) (p : Nat) :
    energyMoment (d := 3) (epaSet n temp chemPot (windowEnergy A) f) A.spinFactor temp chemPot
      (windowEnergy A 1 - windowEnergy A 0) (windowEnergy A) (fun a b i => v i a b) f p =
      epaMoment A numStates n temp chemPot rate p := by
  have hset : epaSet n temp chemPot (windowEnergy A) f = epaKept n temp chemPot (windowEnergy A) rate := by
    unfold epaSet epaKept
    apply Finset.filter_congr
    intro i hi
    rw [hf i (Finset.mem_range.mp hi), fermi_eq _ _ _ hT]
  have hstep : windowEnergy A 1 - windowEnergy A 0 = A.step := by
    unfold windowEnergy; push_cast; ring
  have hpi := Real.pi_pos.ne'
  ext a b
  unfold energyMoment epaMoment
  rw [hset, hstep, Finset.mul_sum, Finset.mul_sum]
  apply Finset.sum_congr rfl
  intro i hi
  have hin : i < n := by
    unfold epaKept at hi
    exact Finset.mem_range.mp (Finset.mem_filter.mp hi).1
  beta_reduce
  rw [hf i hin, hv i hin a b]
  unfold crystalAverage EpaApp.spinFactor
  simp only [getDnde, Bool.false_eq_true, if_false]
  rw [fermi_eq _ _ _ hT]
  field_simp

/-- The transport coefficients in terms of the moments. -/
noncomputable def epaCoefficients (A : EpaApp) (g : Nat → ℝ → ℝ → ℝ) (toCm : ℝ) (numStates n c : Nat) :
    TransportCoefficients 3 :=
  let K := epaMoment A numStates n (A.stat c).temp (A.stat c).chemPot (epaRateOf A g numStates n c)
  transportCoefficients toCm (A.stat c).doping (K 0) (-(1 / (A.stat c).temp) • K 1) (-K 1) (-(1 / (A.stat c).temp) • K 2)

/-- What a process leaves, in terms of the specification. -/
noncomputable def epaOutputOf (A : EpaApp) (g : Nat → ℝ → ℝ → ℝ) (k : TimeConstants) (u : ReportUnits) (toCm : ℝ)
    (numStates n : Nat) (isHead : Bool) : EpaOutput where
  dos := if isHead then some (dosFile k false ((List.range n).map (windowEnergy A),
    (List.range n).map fun i => spinDensity A numStates (windowEnergy A i))) else none
  times := if isHead then some (epaTimesFile k u A.numCalc n A.stat (windowEnergy A) (epaRateOf A g numStates n)) else none
  terminal := onsagerPrint isHead u 3 A.numCalc A.stat (onsagerElements (epaCoefficients A g toCm numStates n))
  file := onsagerFile isHead u 3 A.numCalc A.stat (onsagerElements (epaCoefficients A g toCm numStates n))

theorem jsonList_congr {α : Type} (n : Nat) (f f' : Nat → α) (h : ∀ i < n, f i = f' i) : jsonList n f = jsonList n f' := by
  rw [jsonList_val, jsonList_val]
  apply List.map_congr_left
  intro i hi
  exact h i (List.mem_range.mp hi)

/-- The run, on every process. -/
theorem epaApp_val {A : EpaApp} {g : Nat → ℝ → ℝ → ℝ} {star : Nat → List Nat} {numStates n size : Nat}
    (h : EpaReady A g star numStates n size) (k : TimeConstants) (u : ReportUnits) (toCm : ℝ) (rank : Nat)
    (hr : rank < size) :
    epaApp A k u toCm size rank = .ok (epaOutputOf A g k u toCm numStates n (rank == 0)) := by
  have hen : epaEnergy (A.setup n) = windowEnergy A := funext (windowEnergy_eq A n)
  obtain ⟨v, d, e1, e2, e3, e4, e5⟩ := C134_value_partial A.B A.delta 3 A.numPoints A.volume (windowEnergy A) n size star
    numStates h.procs h.fits h.unfolding h.velocities (fun i _ => h.weights _)
  have hvmem : v.getD rank 0 ∈ v := by
    rw [List.getD_eq_getElem?_getD, List.getElem?_eq_getElem (by omega), Option.getD_some]
    exact List.getElem_mem _
  have hdmem : d.getD rank 0 ∈ d := by
    rw [List.getD_eq_getElem?_getD, List.getElem?_eq_getElem (by omega), Option.getD_some]
    exact List.getElem_mem _
  have hdos : (List.range n).map (d.getD rank 0) =
      (List.range n).map fun j => spinDensity A numStates (windowEnergy A j) := by
    apply List.map_congr_left
    intro i hi
    rw [e5 _ hdmem i (List.mem_range.mp hi)]
    rfl
  choose res r1 r2 r3 using fun c => epaRates_of h _ hdos c
  have hrates : ∀ c < A.numCalc, ∀ i < n,
      ((((List.range A.numCalc).map res).getD c []).getD rank 0) i = epaRateOf A g numStates n c i := by
    intro c hc i hi
    have : ((List.range A.numCalc).map res).getD c [] = res c := by
      rw [List.getD_eq_getElem?_getD, List.getElem?_map, List.getElem?_range hc]
      rfl
    rw [this]
    apply r3 c _ _ i hi
    have := r2 c
    rw [List.getD_eq_getElem?_getD, List.getElem?_eq_getElem (by omega), Option.getD_some]
    exact List.getElem_mem _
  have hco : ∀ c ∈ List.range A.numCalc, onsagerFromEPA 3 n (windowEnergy A) (fun a b i => v.getD rank 0 i a b)
      ((((List.range A.numCalc).map res).getD c []).getD rank 0) (A.stat c) A.spinFactor toCm =
      .ok (epaCoefficients A g toCm numStates n c) := by
    intro c hc
    have hc := List.mem_range.mp hc
    rw [epa_tensors n _ _ _ _ _ _ h.two]
    have hK := energyMoment_of A numStates n h.two (A.stat c).temp (A.stat c).chemPot (h.temps c hc) (v.getD rank 0)
      (fun i hi a b => e4 _ hvmem i hi a b) _ _ (hrates c hc)
    simp only [hK]
    rfl
  unfold epaApp
  rw [h.window]
  simp only [Outcome.bind_eq, Outcome.bind_ok]
  rw [hen, e1]
  simp only [Outcome.bind_ok]
  rw [mapOutcome_eq_map _ res _ (fun c _ => r1 c)]
  simp only [Outcome.bind_ok]
  rw [mapOutcome_eq_map _ _ _ hco]
  simp only [Outcome.bind_ok]
  obtain ⟨o1, o2⟩ := onsager_congr (rank == 0) u 3 A.numCalc A.stat
    (fun c => ((List.range A.numCalc).map fun c => epaCoefficients A g toCm numStates n c).getD c ⟨0, 0, 0, 0⟩)
    (epaCoefficients A g toCm numStates n) (by
      intro c hc
      rw [List.getD_eq_getElem?_getD, List.getElem?_map, List.getElem?_range hc]
      rfl)
  have ht : epaTimesFile k u A.numCalc n A.stat (windowEnergy A)
      (fun c => (((List.range A.numCalc).map res).getD c []).getD rank 0) =
      epaTimesFile k u A.numCalc n A.stat (windowEnergy A) (epaRateOf A g numStates n) := by
    unfold epaTimesFile
    congr 1
    · apply jsonList_congr; intro c hc; apply jsonList_congr; intro i hi; beta_reduce; rw [hrates c hc i hi]
    · apply jsonList_congr; intro c hc; apply jsonList_congr; intro i hi; beta_reduce; rw [hrates c hc i hi]
  rw [o1, o2, ht, hdos]
  rfl

end Verif.Props
