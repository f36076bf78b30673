import Verif.Spec.RtaRun
import Verif.Model.RtaRun
import Verif.Props.Report
import Verif.Props.Onsager
import Verif.Props.Particle
import Verif.Props.VectorBte

namespace Verif.Proofs
open Verif.Model Verif.Spec Verif.Props

theorem drift_mem (S : RtaSetup) (dn : Nat → ℝ → ℝ) (exclude : List Nat) (size : Nat) (hs : 0 < size)
    (hfit : S.B.irr.length * size < 18446744073709551616) (hinj : (S.B.irr.map S.B.toBte).Nodup) (iCalc : Nat) (i : Fin 3) :
    (fun b => (S.drift dn exclude size 0).get iCalc i b) ∈ bulkDrift S.B size dn iCalc i := by
  have hlen := (bulkDrift_val S.B size dn iCalc i hs hfit hinj).1
  have h1 : (iCalc * 3 + i.val) / 3 = iCalc := by have := i.isLt; omega
  have h2 : (iCalc * 3 + i.val) % 3 = i.val := by have := i.isLt; omega
  have : (fun b => (S.drift dn exclude size 0).get iCalc i b) = (bulkDrift S.B size dn iCalc i)[0]'(by rw [hlen]; exact hs) := by
    funext b
    unfold VBte.get RtaSetup.drift
    simp only [h1, h2]
    rw [List.getD_eq_getElem?_getD, List.getElem?_eq_getElem (by rw [hlen]; exact hs), Option.getD_some]
  rw [this]
  exact List.getElem_mem _

theorem mem_excluded (S : RtaSetup) (cutoff : ℝ) (hinj : (S.B.irr.map S.B.toBte).Nodup) (is : Nat) (his : is ∈ S.B.irr) :
    S.B.toBte is ∈ S.excluded cutoff ↔ S.B.energy is < cutoff := by
  unfold RtaSetup.excluded
  rw [List.mem_map]
  constructor
  · rintro ⟨a, ha, hb⟩
    rw [List.mem_filter] at ha
    have : a = is := List.inj_on_of_nodup_map hinj ha.1 his hb
    subst this
    exact of_decide_eq_true ha.2
  · intro h
    exact ⟨is, List.mem_filter.mpr ⟨his, decide_eq_true h⟩, rfl⟩

/-- The product with relaxation times does not look at those of the excluded states. -/
theorem baseOperator_congr (v w w' : VBte ℝ) (h1 : w'.numChemPots = w.numChemPots) (h2 : w'.numTemps = w.numTemps)
    (h3 : w'.dim = w.dim) (h4 : w'.numStates = w.numStates)
    (h : ∀ r s, s ∉ v.exclude → w'.data r s = w.data r s) :
    v.baseOperator (· * ·) w' = v.baseOperator (· * ·) w := by
  have hr : ∀ r, v.partnerRow w' r = v.partnerRow w r := by
    intro r
    unfold VBte.partnerRow VBte.glob2Loc
    rw [h1, h2, h3]
  unfold VBte.baseOperator VBte.numCalc
  rw [h1, h2, h3, h4]
  split
  · rfl
  split
  · rfl
  split
  · simp only [Outcome.bind_eq, Outcome.bind_ok]
    congr 2
    funext r s
    split
    · rfl
    · rename_i hs; rw [h r s hs]
  split
  · rw [show v.partnerRow w' = v.partnerRow w from funext hr]
    cases mapOutcome (v.partnerRow w) (List.range v.numRows) with
    | ok rows =>
      simp only [Outcome.bind_eq, Outcome.bind_ok]
      congr 2
      funext r s
      split
      · rfl
      · rename_i hs; rw [h _ s hs]
    | error => rfl
    | ub => rfl
    | diverge => rfl
  · rfl

theorem elementsOf3_val (f : Nat → Mat3) (k : Nat) (i j : Fin 3) : elementsOf3 f k i j = f k i j := by
  unfold elementsOf3
  rw [dif_pos ⟨i.isLt, j.isLt⟩]

theorem elementsOf3_congr (f g : Nat → Mat3) (k i j : Nat) (h : f k = g k) : elementsOf3 f k i j = elementsOf3 g k i j := by
  unfold elementsOf3
  rw [h]

theorem tableLines_congr (d : Nat) (M N : Nat → Nat → ℝ) (h : ∀ i j, M i j = N i j) : tableLines d M = tableLines d N := by
  have : M = N := by funext i j; exact h i j
  rw [this]

theorem jsonList_congr {α : Type} (n : Nat) (f g : Nat → α) (h : ∀ k < n, f k = g k) : jsonList n f = jsonList n g := by
  rw [jsonList_val, jsonList_val]
  exact List.map_congr_left fun k hk => h k (List.mem_range.mp hk)

theorem phononPrint_congr (head : Bool) (title : String) (u : ReportUnits) (d n : Nat) (conv : ℝ) (temp : Nat → ℝ)
    (f g : Nat → Nat → Nat → ℝ) (h : ∀ k < n, f k = g k) :
    phononPrint head title u d n conv temp f = phononPrint head title u d n conv temp g ∧
    phononFile head u d n conv temp f = phononFile head u d n conv temp g := by
  constructor
  · unfold phononPrint
    cases head
    · rfl
    · simp only [Bool.not_true, Bool.false_eq_true, if_false]
      congr 2
      rw [List.flatMap_def, List.flatMap_def]
      congr 1
      apply List.map_congr_left
      intro k hk
      rw [h k (List.mem_range.mp hk)]
  · unfold phononFile
    cases head
    · rfl
    · simp only [Bool.not_true, Bool.false_eq_true, if_false]
      rw [jsonList_congr n (fun k => tableFile d fun i j => f k i j * conv) (fun k => tableFile d fun i j => g k i j * conv)
        (fun k hk => by rw [h k hk])]

theorem bose_eq (e T : ℝ) (hT : 0 < T) (he : 0 < e) : getPopPopPm1 .bose e T 0 =
    boseOccupation e T * (boseOccupation e T + 1) := by
  rw [C45_bose_product e T 0 hT he, getPopulation_bose hT he, sub_zero]
  rfl

theorem fermi_eq (e T mu : ℝ) (hT : 0 < T) : getPopPopPm1 .fermi e T mu =
    fermiOccupation e T mu * (1 - fermiOccupation e T mu) := by
  rw [C45_fermi_product e T mu hT, getPopulation_fermi hT]
  rfl

/-- The phonon run in terms of the relaxation times. -/
theorem phononRta_val (S : RtaSetup) (u : ReportUnits) (cutoff thickness : ℝ) (junk : Nat → Nat → Mat3 → Vec3)
    (size : Nat) (sched : Nat → List (List Nat)) (star : Nat → List Nat) (numStates : Nat)
    (hrun : MeshRun S.B size sched star numStates S.numPoints S.volume)
    (hsz : ((S.numCalc * 3 : Nat) : Int) ≤ intMax) (hmu : ∀ c < S.numCalc, (S.stat c).chemPot = 0)
    (t : Nat → Nat → ℝ) (hinv : ∀ c < S.numCalc, Invariant S.B.irr star (t c)) (hpos : ∀ c s, 0 ≤ t c s)
    (ht : ∀ c < S.numCalc, ∀ is ∈ S.B.irr, ¬ S.B.energy is < cutoff → (S.times .bose []).data c (S.B.toBte is) = t c is) :
    ∃ out : List (Nat → Mat3), out.length = size ∧
      (∀ rank, phononRta S u cutoff thickness 3 junk size sched rank =
        .ok (phononPrint (rank == 0) "Thermal Conductivity" u 3 S.numCalc u.si.thConductivity (fun c => (S.stat c).temp)
            (elementsOf3 (out.getD rank 0)),
          phononFile (rank == 0) u 3 S.numCalc u.si.thConductivity (fun c => (S.stat c).temp)
            (elementsOf3 (out.getD rank 0)))) ∧
      ∀ f ∈ out, ∀ c < S.numCalc, (∀ i j : Fin 3, f c i j = crystalAverage numStates S.numPoints S.volume S.B.vel S.B.vel
        (fun s => if S.B.energy s < cutoff then 0 else
          S.B.energy s * getDndt .bose (S.B.energy s) (S.stat c).temp 0 false * t c s) i j) := by
  classical
  set ex := S.excluded cutoff with hex
  set drift := S.drift (fun c e => getDndt .bose e (S.stat c).temp (S.stat c).chemPot false) ex size 0 with hdr
  set tau' : VBte ℝ := { S.times .bose ex with data := fun c b => if b ∈ ex then 0 else (S.times .bose ex).data c b } with htau'
  have hop : drift.baseOperator (· * ·) tau' = drift.baseOperator (· * ·) (S.times .bose ex) := by
    refine baseOperator_congr drift (S.times .bose ex) tau' rfl rfl rfl rfl ?_
    intro r s hs
    have : s ∉ ex := hs
    show (if s ∈ ex then 0 else _) = _
    rw [if_neg this]
  obtain ⟨pop, hpop, hdp, hns, hcalc, hval⟩ := C47_one_component (α := ℝ) (· * ·) drift tau' rfl rfl rfl rfl hsz
  have hin : ∀ c < S.numCalc, ∃ out, phCalcFromPopulation S.B 3 S.numPoints S.volume pop junk size sched = .ok out ∧
      out.length = size ∧ ∀ f ∈ out, ∀ i j : Fin 3, f c i j =
        crystalAverage numStates S.numPoints S.volume S.B.vel S.B.vel (fun s => if S.B.energy s < cutoff then 0 else
          S.B.energy s * getDndt .bose (S.B.energy s) (S.stat c).temp 0 false * t c s) i j := by
    intro c hc
    obtain ⟨pop', out, h1, h2, h3, h4⟩ := C109_rta_partial S.B S.numPoints S.volume S.stat drift tau' junk size sched star
      numStates hrun rfl rfl rfl rfl rfl hsz
      (fun iCalc _ i => drift_mem S _ ex size hrun.procs hrun.fits hrun.bte iCalc i) c hc (hmu c hc)
      (fun s => if S.B.energy s < cutoff then 0 else t c s)
      (by
        intro is his s hs
        simp only
        rw [hrun.energies is his s hs, hinv c hc is his s hs])
      (by
        intro is his
        show (if S.B.toBte is ∈ ex then (0 : ℝ) else _) = _
        simp only [hex, mem_excluded S cutoff hrun.bte is his]
        split
        · rfl
        · rename_i hne
          have e : (S.times .bose []).data (c * 1 + 0) (S.B.toBte is) = t c is := by
            rw [Nat.mul_one, Nat.add_zero]; exact ht c hc is his hne
          exact e)
      (by
        intro s
        by_cases h : S.B.energy s < cutoff
        · simp [h]
        · simp [h, hpos c s])
      (fun s => S.B.energy s < cutoff)
      (by
        intro is his s hs
        rw [hrun.energies is his s hs]
        exact (mem_excluded S cutoff hrun.bte is his).symm)
    have hpp : pop' = pop := by
      rw [hpop] at h1; exact (Outcome.ok.inj h1).symm
    subst hpp
    refine ⟨out, h2, h3, fun f hf i j => ?_⟩
    rw [(h4 f hf).1 i j]
    unfold crystalAverage
    congr 1
    apply Finset.sum_congr rfl
    intro s _
    by_cases h : S.B.energy s < cutoff
    · simp [h]
    · simp [h]
  obtain ⟨out, hout⟩ : ∃ out, phCalcFromPopulation S.B 3 S.numPoints S.volume pop junk size sched = .ok out := by
    unfold phCalcFromPopulation
    rw [if_neg (fun h => absurd h.1 (by norm_num))]
    exact ⟨_, rfl⟩
  refine ⟨out, ?_, ?_, ?_⟩
  · have h := hout
    unfold phCalcFromPopulation at h
    rw [if_neg (fun h => absurd h.1 (by norm_num))] at h
    rw [← Outcome.ok.inj h]
    unfold phTensor
    exact (stateSum_val S.B.irr size hrun.procs hrun.fits sched hrun.schedule _).1
  · intro rank
    unfold phononRta
    simp only [← hex, ← hdr, ← hop, hpop, hout, Outcome.bind_eq, Outcome.bind_ok]
    rfl
  · intro f hf c hc i j
    obtain ⟨out', h1, h2, h3⟩ := hin c hc
    rw [hout] at h1
    have := Outcome.ok.inj h1
    subst this
    exact h3 f hf i j

theorem times_val (S : RtaSetup) (st : Statistics) (keep : Nat → Prop) (factor rate : Nat → Nat → ℝ)
    (hst : ∀ is ∈ S.B.irr, S.toState (S.B.toBte is) = is) (hr : RatesOf S keep factor rate)
    (hf : ∀ c < S.numCalc, ∀ is ∈ S.B.irr, keep is →
      getPopPopPm1 st (S.B.energy is) (S.stat c).temp (S.stat c).chemPot = factor c is ∧ factor c is ≠ 0)
    (c : Nat) (hc : c < S.numCalc) (is : Nat) (his : is ∈ S.B.irr) (hk : keep is) :
    (S.times st []).data c (S.B.toBte is) = 1 / rate c is := by
  show timesOf _ _ _ _ _ _ = _
  unfold timesOf
  rcases hr with ⟨T, h1, h2, h3⟩ | ⟨h1, h2⟩
  · rw [h1]
    simp only [constantRTA, h2, if_true, h3, one_div_div]
  · have hn : constantRTA S.crt = none := by
      unfold constantRTA
      cases h : S.crt with
      | none => rfl
      | some T => simp only [not_lt.mpr (h1 T h), if_false]
    rw [hn]
    simp only [h2 c hc is his hk, hst is his, (hf c hc is his hk).1]
    cases S.omega
    · simp only [Bool.false_eq_true, if_false]
      rw [div_mul_eq_div_div, div_self (hf c hc is his hk).2]
    · simp only [if_true]

theorem onsager_congr (head : Bool) (u : ReportUnits) (d n : Nat) (stat : Nat → CalcStat)
    (f g : Nat → TransportCoefficients 3) (h : ∀ k < n, f k = g k) :
    onsagerPrint head u d n stat (onsagerElements f) = onsagerPrint head u d n stat (onsagerElements g) ∧
    onsagerFile head u d n stat (onsagerElements f) = onsagerFile head u d n stat (onsagerElements g) := by
  have e : ∀ k < n, (onsagerElements f).sigma k = (onsagerElements g).sigma k ∧
      (onsagerElements f).mobility k = (onsagerElements g).mobility k ∧
      (onsagerElements f).kappa k = (onsagerElements g).kappa k ∧
      (onsagerElements f).seebeck k = (onsagerElements g).seebeck k := by
    intro k hk
    refine ⟨?_, ?_, ?_, ?_⟩ <;>
    · funext i j
      simp only [onsagerElements, elementsOf3, h k hk]
  constructor
  · unfold onsagerPrint
    cases head
    · rfl
    · simp only [Bool.not_true, Bool.false_eq_true, if_false]
      congr 1
      rw [List.flatMap_def, List.flatMap_def]
      congr 1
      apply List.map_congr_left
      intro k hk
      obtain ⟨h1, h2, h3, h4⟩ := e k (List.mem_range.mp hk)
      unfold onsagerBody
      rw [h1, h2, h3, h4]
  · unfold onsagerFile
    cases head
    · rfl
    · simp only [Bool.not_true, Bool.false_eq_true, if_false]
      rw [jsonList_congr n (fun k => tableFile d fun i j => (onsagerElements f).sigma k i j * convSigma u.si d) _
          (fun k hk => by rw [(e k hk).1]),
        jsonList_congr n (fun k => tableFile d fun i j => (onsagerElements f).kappa k i j * convKappa u.si d) _
          (fun k hk => by rw [(e k hk).2.2.1]),
        jsonList_congr n (fun k => tableFile d fun i j => (onsagerElements f).seebeck k i j * u.seebeck) _
          (fun k hk => by rw [(e k hk).2.2.2])]
      have hm : jsonMobility n stat (fun k => tableFile d fun i j => (onsagerElements f).mobility k i j * u.mobility) =
          jsonMobility n stat (fun k => tableFile d fun i j => (onsagerElements g).mobility k i j * u.mobility) := by
        rw [jsonMobility_val, jsonMobility_val]
        apply List.map_congr_left
        intro k hk
        have hk' := List.mem_range.mp (List.mem_filter.mp hk).1
        rw [(e k hk').2.1]
      rw [hm]

/-- The electron run in terms of the relaxation times. -/
theorem electronRta_val (S : RtaSetup) (u : ReportUnits) (spin toCm : ℝ)
    (size : Nat) (sched : Nat → List (List Nat)) (star : Nat → List Nat) (numStates : Nat)
    (hrun : MeshRun S.B size sched star numStates S.numPoints S.volume)
    (hsz : ((S.numCalc * 3 : Nat) : Int) ≤ intMax)
    (t : Nat → Nat → ℝ) (hinv : ∀ c < S.numCalc, Invariant S.B.irr star (t c))
    (ht : ∀ c < S.numCalc, ∀ is ∈ S.B.irr, (S.times .fermi []).data c (S.B.toBte is) = t c is) :
    ∃ out : List (Nat → TransportCoefficients 3), out.length = size ∧
      (∀ rank, electronRta S u spin toCm 3 size sched rank =
        .ok (onsagerPrint (rank == 0) u 3 S.numCalc S.stat (onsagerElements (out.getD rank fun _ => ⟨0, 0, 0, 0⟩)),
          onsagerFile (rank == 0) u 3 S.numCalc S.stat (onsagerElements (out.getD rank fun _ => ⟨0, 0, 0, 0⟩)))) ∧
      ∀ f ∈ out, ∀ c < S.numCalc, f c = transportCoefficients toCm (S.stat c).doping
        (rtaMoment S.B numStates S.numPoints S.volume spin (S.stat c) (t c) 0)
        (-(1 / (S.stat c).temp) • rtaMoment S.B numStates S.numPoints S.volume spin (S.stat c) (t c) 1)
        (rtaMoment S.B numStates S.numPoints S.volume spin (S.stat c) (t c) 1)
        (-(1 / (S.stat c).temp) • rtaMoment S.B numStates S.numPoints S.volume spin (S.stat c) (t c) 2) := by
  set driftE := S.drift (fun c e => getDnde .fermi e (S.stat c).temp (S.stat c).chemPot false) [] size 0 with hdE
  set driftT := S.drift (fun c e => getDndt .fermi e (S.stat c).temp (S.stat c).chemPot false) [] size 0 with hdT
  obtain ⟨nE, hnE, _⟩ := C47_one_component (α := ℝ) (· * ·) (driftE.mapData (- ·)) (S.times .fermi []) rfl rfl rfl rfl hsz
  obtain ⟨nT, hnT, _⟩ := C47_one_component (α := ℝ) (· * ·) (driftT.mapData (- ·)) (S.times .fermi []) rfl rfl rfl rfl hsz
  obtain ⟨L, hL, hlen⟩ : ∃ L, onsagerTensors S.B 3 S.numPoints S.volume spin nE nT S.stat size sched = .ok L ∧ L.length = size :=
    ⟨_, if_neg (not_not.mpr (by unfold viewFits; exact le_rfl)), by simp⟩
  obtain ⟨out, hout, hol⟩ : ∃ out, onsagerFromPopulation S.B 3 S.numPoints S.volume spin toCm nE nT S.stat size sched = .ok out ∧
      out.length = size := by
    unfold onsagerFromPopulation
    rw [hL]
    exact ⟨_, rfl, by rw [List.length_map]; exact hlen⟩
  refine ⟨out, hol, ?_, ?_⟩
  · intro rank
    unfold electronRta
    simp only [← hdE, ← hdT, hnE, hnT, hout, Outcome.bind_eq, Outcome.bind_ok]
  · intro f hf c hc
    obtain ⟨nE', nT', out', h1, h2, h3, _, h5⟩ := onsager_rta_moments S.B S.numPoints S.volume spin toCm S.stat driftE driftT
      (S.times .fermi []) size sched star numStates hrun ⟨rfl, rfl, rfl⟩ ⟨rfl, rfl⟩ ⟨rfl, rfl⟩ ⟨rfl, rfl⟩ ⟨hsz, hsz⟩ ⟨rfl, rfl⟩
      (fun iCalc _ i => drift_mem S _ [] size hrun.procs hrun.fits hrun.bte iCalc i)
      (fun iCalc _ i => drift_mem S _ [] size hrun.procs hrun.fits hrun.bte iCalc i) c hc (t c) (hinv c hc)
      (by
        intro is his
        have e : (S.times .fermi []).data (c * 1 + 0) (S.B.toBte is) = t c is := by
          rw [Nat.mul_one, Nat.add_zero]; exact ht c hc is his
        exact e)
    rw [hnE] at h1
    rw [hnT] at h2
    have e1 := Outcome.ok.inj h1
    have e2 := Outcome.ok.inj h2
    subst e1 e2
    rw [hout] at h3
    have e3 := Outcome.ok.inj h3
    subst e3
    exact h5 f hf

end Verif.Proofs
