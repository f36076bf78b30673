import Verif.Proofs.Transport3

/-!
# C109-C111: transport coefficients from populations
-/
namespace Verif.Props
open Verif.Model Verif.Spec

/-- A band structure reduced by symmetry to the states `irr`, with the full mesh of `numStates` states behind it, and a run
over `size` processes in which `sched r` are the states given to each thread of process `r`, in any order. -/
structure MeshRun (B : BandView) (size : Nat) (sched : Nat → List (List Nat)) (star : Nat → List Nat)
    (numStates numPoints : Nat) (volume : ℝ) : Prop where
  procs : 0 < size
  fits : B.irr.length * size < 18446744073709551616
  schedule : ∀ r < size, (sched r).flatten.Perm (sliceOf B.irr r size)
  unfolding : Unfolding B.irr B.rots star numStates
  energies : Invariant B.irr star B.energy
  velocities : Covariant B.irr B.rots star B.vel
  bte : (B.irr.map B.toBte).Nodup
  points : 0 < numPoints
  cell : 0 < volume

/-- Three wavevectors along the axes with their opposites, on two processes. -/
noncomputable def exBand : BandView where
  energy s := 1 + ((s % 3 : Nat) : ℝ)
  vel s := fun i => if i.val = s % 3 then (if s < 3 then 1 else -1) else 0
  toBte s := s
  rots _ := [1, -1]
  irr := [0, 1, 2]

theorem exBand_run : MeshRun exBand 2 (fun r => [(sliceOf exBand.irr r 2).reverse]) (fun is => [is, is + 3]) 6 6 2 where
  procs := by norm_num
  fits := by simp [exBand]
  schedule := by intro r _; simpa using List.reverse_perm _
  unfolding := ⟨by simp only [exBand]; decide, by intro is _; rfl⟩
  energies := by
    intro is _ s hs
    simp only [List.mem_cons, List.not_mem_nil, or_false] at hs
    rcases hs with rfl | rfl <;> simp [exBand]
  velocities := by
    intro is his p hp
    have h3 : is < 3 := by simp only [exBand, List.mem_cons, List.not_mem_nil, or_false] at his; omega
    simp only [exBand, List.zip_cons_cons, List.zip_nil_right, List.mem_cons, List.not_mem_nil, or_false] at hp
    rcases hp with rfl | rfl
    · funext i; fin_cases i <;> simp [matVec_row, exBand]
    · have h6 : ¬ is + 3 < 3 := by omega
      funext i
      fin_cases i <;> simp [matVec_row, exBand, h3, neg_ite]
  bte := by simp only [exBand]; decide
  points := by norm_num
  cell := by norm_num

/-! ## C109 -/

/-- The thermal conductivity made from a population is, on every process and whatever the number of processes and the
schedule of the threads, the sum over the full mesh of `E n v`, without the excluded states.  Three dimensions. -/
theorem C109_population_partial (B : BandView) (numPoints : Nat) (volume : ℝ) (n : VBte ℝ)
    (junk : Nat → Nat → Mat3 → Vec3) (size : Nat) (sched : Nat → List (List Nat)) (star : Nat → List Nat) (numStates : Nat)
    (hrun : MeshRun B size sched star numStates numPoints volume)
    (iCalc : Nat) (x : Nat → Vec3) (hx : Covariant B.irr B.rots star x)
    (hn : ∀ is ∈ B.irr, ∀ i : Fin 3, n.get iCalc i (B.toBte is) = x is i)
    (ex : Nat → Prop) [DecidablePred ex] (hex : ∀ is ∈ B.irr, ∀ s ∈ star is, ex s ↔ B.toBte is ∈ n.exclude) :
    ∃ out, phCalcFromPopulation B 3 numPoints volume n junk size sched = .ok out ∧ out.length = size ∧
      ∀ f ∈ out, ∀ i j : Fin 3, f iCalc i j =
        crystalAverage numStates numPoints volume x B.vel (fun s => if ex s then 0 else B.energy s) i j := by
  obtain ⟨h1, h2⟩ := phTensor_val B 3 numPoints volume n junk size sched hrun.procs hrun.fits hrun.schedule hrun.unfolding
    hrun.energies hrun.velocities iCalc x hx (fun is his i _ => hn is his i)
    (fun _ _ _ _ _ k _ hk => absurd k.isLt (by omega)) ex hex
  refine ⟨_, ?_, h1, fun f hf i j => h2 f hf i j i.isLt j.isLt⟩
  unfold phCalcFromPopulation
  rw [if_neg (fun h => absurd h.1 (by norm_num))]

/-- With fewer dimensions: whatever the components that the program never assigned contain, the tensor is right as long as
no rotation mixes the first `d` axes with the others. -/
theorem C109_low_dimension_partial (B : BandView) (d numPoints : Nat) (volume : ℝ) (n : VBte ℝ)
    (junk : Nat → Nat → Mat3 → Vec3) (size : Nat) (sched : Nat → List (List Nat)) (star : Nat → List Nat) (numStates : Nat)
    (hrun : MeshRun B size sched star numStates numPoints volume)
    (hblock : ∀ is ∈ B.irr, ∀ R ∈ B.rots is, ∀ i k : Fin 3, i.val < d → d ≤ k.val → R i k = 0)
    (iCalc : Nat) (x : Nat → Vec3) (hx : Covariant B.irr B.rots star x)
    (hn : ∀ is ∈ B.irr, ∀ i : Fin 3, i.val < d → n.get iCalc i (B.toBte is) = x is i)
    (ex : Nat → Prop) [DecidablePred ex] (hex : ∀ is ∈ B.irr, ∀ s ∈ star is, ex s ↔ B.toBte is ∈ n.exclude) :
    (phTensor B d numPoints volume n junk size sched).length = size ∧
    ∀ f ∈ phTensor B d numPoints volume n junk size sched, ∀ i j : Fin 3, i.val < d → j.val < d → f iCalc i j =
      crystalAverage numStates numPoints volume x B.vel (fun s => if ex s then 0 else B.energy s) i j :=
  phTensor_val B d numPoints volume n junk size sched hrun.procs hrun.fits hrun.schedule hrun.unfolding
    hrun.energies hrun.velocities iCalc x hx hn hblock ex hex

/-- Auxiliary: the population with the excluded states replaced by what the drift gives. -/
noncomputable def fillExcluded (pop drift tau : VBte ℝ) (iCalc : Nat) : VBte ℝ :=
  ⟨pop.numChemPots, pop.numTemps, pop.dim, pop.numStates,
    fun row b => if b ∈ pop.exclude then drift.data row b * tau.data iCalc b else pop.data row b, pop.exclude⟩

/-- In the relaxation time approximation (population = drift times relaxation times) the conductivity is the sum over the
full mesh of `E ∂n/∂T τ v v`: a symmetric tensor along which heat never flows against the gradient. -/
theorem C109_rta_partial (B : BandView) (numPoints : Nat) (volume : ℝ) (stat : Nat → CalcStat) (drift tau : VBte ℝ)
    (junk : Nat → Nat → Mat3 → Vec3) (size : Nat) (sched : Nat → List (List Nat)) (star : Nat → List Nat) (numStates : Nat)
    (hrun : MeshRun B size sched star numStates numPoints volume)
    (hdim : drift.dim = 3) (hs : drift.numStates = tau.numStates) (hmu : tau.numChemPots = drift.numChemPots)
    (ht : tau.numTemps = drift.numTemps) (htd : tau.dim = 1) (hsz : (drift.numRows : Int) ≤ intMax)
    (hdrift : ∀ iCalc < drift.numCalc, ∀ i : Fin 3, (fun b => drift.get iCalc i b) ∈
      bulkDrift B size (fun c e => getDndt .bose e (stat c).temp (stat c).chemPot false) iCalc i)
    (iCalc : Nat) (hc : iCalc < drift.numCalc) (hmu0 : (stat iCalc).chemPot = 0)
    (t : Nat → ℝ) (htau : Invariant B.irr star t) (htau' : ∀ is ∈ B.irr, tau.get iCalc 0 (B.toBte is) = t is)
    (hpos : ∀ s, 0 ≤ t s)
    (ex : Nat → Prop) [DecidablePred ex] (hex : ∀ is ∈ B.irr, ∀ s ∈ star is, ex s ↔ B.toBte is ∈ drift.exclude) :
    ∃ pop out, drift.baseOperator (· * ·) tau = .ok pop ∧
      phCalcFromPopulation B 3 numPoints volume pop junk size sched = .ok out ∧ out.length = size ∧
      ∀ f ∈ out,
        (∀ i j : Fin 3, f iCalc i j = crystalAverage numStates numPoints volume B.vel B.vel (fun s => if ex s then 0 else
          B.energy s * getDndt .bose (B.energy s) (stat iCalc).temp 0 false * t s) i j) ∧
        IsConductivity (f iCalc) := by
  obtain ⟨pop, hpop, hpd, _, hpc, hpv⟩ := C47_one_component (α := ℝ) (· * ·) drift tau hs hmu ht htd hsz
  have hexc := baseOperator_exclude _ _ _ _ hpop
  set y : Nat → Vec3 := fun s i =>
    getDndt .bose (B.energy s) (stat iCalc).temp (stat iCalc).chemPot false * B.vel s i * t s with hy
  have hyc : Covariant B.irr B.rots star y := by
    intro is his p hp
    funext i
    simp only [hy, matVec_row]
    rw [hrun.velocities is his p hp, hrun.energies is his p.2 (zip_mem_snd hp), htau is his p.2 (zip_mem_snd hp), matVec_row]
    ring
  obtain ⟨h1, h2⟩ := phTensor_val B 3 numPoints volume
    (fillExcluded pop drift tau iCalc)
    junk size sched hrun.procs hrun.fits hrun.schedule hrun.unfolding
    hrun.energies hrun.velocities iCalc y hyc (by
      intro is his i _
      have hd := (bulkDrift_val B size (fun c e => getDndt .bose e (stat c).temp (stat c).chemPot false) iCalc i hrun.procs
        hrun.fits hrun.bte).2 _ (hdrift iCalc hc i) is his
      have e1 : pop.get iCalc i (B.toBte is) = pop.data (iCalc * 3 + i) (B.toBte is) := by
        unfold VBte.get; rw [hpd, hdim]
      have e2 : drift.get iCalc i (B.toBte is) = drift.data (iCalc * 3 + i) (B.toBte is) := by
        unfold VBte.get; rw [hdim]
      have e3 : tau.get iCalc 0 (B.toBte is) = tau.data iCalc (B.toBte is) := by
        unfold VBte.get; rw [htd]; simp
      have e4 : (fillExcluded pop drift tau iCalc).get iCalc i (B.toBte is) = if B.toBte is ∈ pop.exclude then
            drift.data (iCalc * 3 + i) (B.toBte is) * tau.data iCalc (B.toBte is)
          else pop.data (iCalc * 3 + i) (B.toBte is) := by
        unfold VBte.get fillExcluded; simp only [hpd, hdim]
      rw [e4, ← e1, hpv iCalc i _ hc (by rw [hdim]; exact i.isLt), hexc, ← e2, ← e3, htau' is his, hd]
      split <;> rfl)
    (fun _ _ _ _ _ k _ hk => absurd k.isLt (by omega)) ex (by intro is his s hs; rw [hex is his s hs]; exact iff_of_eq (by rw [← hexc]; rfl))
  have hterm : phTensor B 3 numPoints volume
      (fillExcluded pop drift tau iCalc)
      junk size sched = phTensor B 3 numPoints volume pop junk size sched := by
    unfold phTensor
    congr 1
    funext c is
    unfold phTerm
    have hee : (fillExcluded pop drift tau iCalc).exclude = pop.exclude := rfl
    rw [hee]
    dsimp only
    split
    · rfl
    · rename_i hne
      have : vec3Of (fillExcluded pop drift tau iCalc) c (B.toBte is) = vec3Of pop c (B.toBte is) := by
        funext i
        unfold vec3Of VBte.get fillExcluded
        exact if_neg hne
      rw [this]
  rw [hterm] at h1 h2
  refine ⟨pop, _, hpop, ?_, h1, ?_⟩
  · unfold phCalcFromPopulation
    rw [if_neg (fun h => absurd h.1 (by norm_num))]
  intro f hf
  have hval : ∀ i j : Fin 3, f iCalc i j = crystalAverage numStates numPoints volume B.vel B.vel (fun s => if ex s then 0 else
      B.energy s * getDndt .bose (B.energy s) (stat iCalc).temp 0 false * t s) i j := by
    intro i j
    rw [h2 f hf i j i.isLt j.isLt]
    unfold crystalAverage
    congr 1
    apply Finset.sum_congr rfl
    intro s _
    simp only [hy, hmu0]
    split <;> ring
  refine ⟨hval, ?_⟩
  have hmom : f iCalc = moment (Finset.range numStates) (fun s => if ex s then 0 else
      t s * getPopPopPm1 .bose (B.energy s) (stat iCalc).temp 0 / ((stat iCalc).temp * (stat iCalc).temp * (numPoints * volume)))
      B.energy B.vel 2 := by
    ext i j
    rw [hval]
    unfold crystalAverage moment
    rw [Finset.sum_div]
    apply Finset.sum_congr rfl
    intro s _
    dsimp only
    split
    · simp
    · simp only [getDndt, Bool.false_eq_true, if_false, sub_zero]; ring
  rw [hmom]
  apply moment_isConductivity
  intro s _
  apply mul_nonneg _ (sq_nonneg _)
  split
  · exact le_rfl
  · have hp := (C45_symmetrized .bose (B.energy s) (stat iCalc).temp 0).1
    have hN : (0 : ℝ) < numPoints := by exact_mod_cast hrun.points
    exact div_nonneg (mul_nonneg (hpos s) hp) (mul_nonneg (mul_self_nonneg _) (mul_pos hN hrun.cell).le)

/-- With one or two dimensions the program reads components of a local vector that it never assigned (undefined behaviour)
as soon as there is a state to add. -/
theorem C109_violated_low_dimension (B : BandView) (d numPoints : Nat) (volume : ℝ) (n : VBte ℝ)
    (junk : Nat → Nat → Mat3 → Vec3) (size : Nat) (sched : Nat → List (List Nat)) (hd : d < 3) (hc : 0 < n.numCalc)
    (is : Nat) (his : is ∈ B.irr) (hex : B.toBte is ∉ n.exclude) (hr : B.rots is ≠ []) :
    phCalcFromPopulation B d numPoints volume n junk size sched = .ub := by
  unfold phCalcFromPopulation
  rw [if_pos ⟨hd, hc, is, his, hex, hr⟩]

/-- The example meets the hypotheses. -/
noncomputable def exDrift : VBte ℝ :=
  ⟨1, 1, 3, 3, fun row b => if b < 3 ∧ row = b then getDndt .bose (1 + (b : ℝ)) 1 0 false else 0, [1]⟩

noncomputable def exTau : VBte ℝ := ⟨1, 1, 1, 3, fun _ b => 1 + (b : ℝ), []⟩

/-- Two dimensions: the program has undefined behaviour on the example. -/
theorem C109_violated_example (numPoints : Nat) (volume : ℝ) (junk : Nat → Nat → Mat3 → Vec3) (size : Nat)
    (sched : Nat → List (List Nat)) :
    phCalcFromPopulation exBand 2 numPoints volume exDrift junk size sched = .ub :=
  C109_violated_low_dimension exBand 2 numPoints volume exDrift junk size sched (by norm_num) (by decide) 0
    (by simp [exBand]) (by simp [exBand, exDrift]) (by simp [exBand])

theorem exBulk_zero (dn : Nat → ℝ → ℝ) (i : Fin 3) (f : Nat → ℝ) (hf : f ∈ bulkDrift exBand 2 dn 0 i) (b : Nat)
    (hb : 3 ≤ b) : f b = 0 := by
  unfold bulkDrift at hf
  rw [mem_allReduceSum1 _ _ hf, List.map_map]
  apply List.sum_eq_zero
  intro z hz
  obtain ⟨r, hr, rfl⟩ := List.mem_map.mp hz
  simp only [Function.comp]
  have key : ∀ (l : List Nat) (val : Nat → ℝ) (data : Nat → ℝ), (∀ is ∈ l, is < 3) → data b = 0 →
      l.foldl (fun data is => fun b => if b = exBand.toBte is then val is else data b) data b = 0 := by
    intro l val
    induction l with
    | nil => intro data _ h; exact h
    | cons a t ih =>
      intro data hl h
      rw [List.foldl_cons]
      apply ih
      · intro is his; exact hl is (List.mem_cons_of_mem _ his)
      · have := hl a List.mem_cons_self
        have hne : b ≠ exBand.toBte a := by simp only [exBand]; omega
        rw [if_neg hne]; exact h
  unfold assignStates
  apply key
  · intro is his
    have := mem_sliceOf his
    simp only [exBand, List.mem_cons, List.not_mem_nil, or_false] at this
    omega
  · rfl

theorem exDrift_mem (iCalc : Nat) (hc : iCalc < exDrift.numCalc) (i : Fin 3) (stat : Nat → CalcStat)
    (hstat : stat 0 = ⟨1, 0, 0⟩) : (fun b => exDrift.get iCalc i b) ∈
      bulkDrift exBand 2 (fun c e => getDndt .bose e (stat c).temp (stat c).chemPot false) iCalc i := by
  have h0 : iCalc = 0 := by
    have : exDrift.numCalc = 1 := rfl
    omega
  subst h0
  have hlen := (bulkDrift_val exBand 2 (fun c e => getDndt .bose e (stat c).temp (stat c).chemPot false) 0 i (by norm_num)
    exBand_run.fits exBand_run.bte).1
  have hval := (bulkDrift_val exBand 2 (fun c e => getDndt .bose e (stat c).temp (stat c).chemPot false) 0 i (by norm_num)
    exBand_run.fits exBand_run.bte).2
  have hne : bulkDrift exBand 2 (fun c e => getDndt .bose e (stat c).temp (stat c).chemPot false) 0 i ≠ [] := by
    intro h; rw [h] at hlen; simp at hlen
  obtain ⟨f, hf⟩ := List.exists_mem_of_ne_nil _ hne
  convert hf using 1
  funext b
  by_cases hb : b < 3
  · have hb' : b ∈ exBand.irr := by simp only [exBand, List.mem_cons, List.not_mem_nil, or_false]; omega
    have := hval f hf b hb'
    simp only [exBand] at this
    rw [this]
    simp only [exDrift, VBte.get, hstat, Nat.zero_mul, Nat.zero_add, hb, true_and, Nat.mod_eq_of_lt hb, if_true]
    split <;> simp
  · have hz : f b = 0 := exBulk_zero _ i f hf b (by omega)
    rw [hz]
    simp only [exDrift, VBte.get]
    rw [if_neg (fun h => hb h.1)]

example : ∃ pop out, exDrift.baseOperator (· * ·) exTau = .ok pop ∧
    phCalcFromPopulation exBand 3 6 2 pop (fun _ _ _ => 0) 2 (fun r => [(sliceOf exBand.irr r 2).reverse]) = .ok out ∧
    out.length = 2 ∧ ∀ f ∈ out,
      (∀ i j : Fin 3, f 0 i j = crystalAverage 6 6 2 exBand.vel exBand.vel (fun s => if s % 3 = 1 then 0 else
        exBand.energy s * getDndt .bose (exBand.energy s) 1 0 false * (1 + (s % 3 : Nat))) i j) ∧ IsConductivity (f 0) :=
  C109_rta_partial exBand 6 2 (fun _ => ⟨1, 0, 0⟩) exDrift exTau (fun _ _ _ => 0) 2 _ _ 6 exBand_run rfl rfl rfl rfl rfl
    (by decide) (fun iCalc hc i => exDrift_mem iCalc hc i _ rfl) 0 (by decide) rfl (fun s => 1 + (s % 3 : Nat))
    (by
      intro is _ s hs
      simp only [List.mem_cons, List.not_mem_nil, or_false] at hs
      rcases hs with rfl | rfl <;> simp)
    (by
      intro is his
      simp only [exBand, List.mem_cons, List.not_mem_nil, or_false] at his
      rcases his with rfl | rfl | rfl <;> simp [exTau, VBte.get, exBand])
    (fun s => by positivity) (fun s => s % 3 = 1)
    (by
      intro is his s hs
      simp only [exBand, List.mem_cons, List.not_mem_nil, or_false] at his hs
      simp only [exBand, exDrift, List.mem_singleton]
      rcases his with rfl | rfl | rfl <;> rcases hs with rfl | rfl <;> simp)

end Verif.Props
