import Verif.Model.Solvers
import Verif.Spec.Solvers
import Verif.Proofs.Transport
import Verif.Props.VectorBte
import Mathlib.Algebra.Order.BigOperators.Group.Finset

/-!
# Lemmas on the iterative solver
-/
namespace Verif.Model
open Verif.Spec Verif.Props

/-- Vectors of the BTE of the same run: three components, the same calculations, states and excluded states. -/
structure Shape (mu temps n : Nat) (ex : List Nat) (v : VBte ℝ) : Prop where
  mu : v.numChemPots = mu
  temps : v.numTemps = temps
  dim : v.dim = 3
  states : v.numStates = n
  ex : v.exclude = ex

/-- Vectors with one component (linewidths). -/
structure Shape1 (mu temps n : Nat) (v : VBte ℝ) : Prop where
  mu : v.numChemPots = mu
  temps : v.numTemps = temps
  dim : v.dim = 1
  states : v.numStates = n

theorem Shape.numCalc {mu temps n : Nat} {ex : List Nat} {v : VBte ℝ} (h : Shape mu temps n ex v) :
    v.numCalc = mu * temps := by unfold VBte.numCalc; rw [h.mu, h.temps]

theorem base_same {mu temps n : Nat} {ex : List Nat} (op : ℝ → ℝ → ℝ) {v w : VBte ℝ} (hv : Shape mu temps n ex v)
    (hw : Shape mu temps n ex w) : ∃ r, v.baseOperator op w = .ok r ∧ Shape mu temps n ex r ∧
      ∀ c i s, r.get c i s = if s ∈ ex then 0 else op (v.get c i s) (w.get c i s) := by
  unfold VBte.baseOperator
  rw [if_neg (by rw [hv.states, hw.states]; simp), if_neg (by rw [hv.numCalc, hw.numCalc]; simp),
    if_pos (by rw [hv.dim, hw.dim])]
  refine ⟨_, rfl, ⟨hv.mu, hv.temps, hv.dim, hv.states, hv.ex⟩, ?_⟩
  intro c i s
  simp only [VBte.get, hv.dim, hw.dim, hv.ex]

theorem base_one {mu temps n : Nat} {ex : List Nat} (op : ℝ → ℝ → ℝ) {v w : VBte ℝ} (hv : Shape mu temps n ex v)
    (hw : Shape1 mu temps n w) (hsz : ((mu * temps * 3 : Nat) : Int) ≤ intMax) :
    ∃ r, v.baseOperator op w = .ok r ∧ Shape mu temps n ex r ∧
      ∀ c i s, c < mu * temps → i < 3 → r.get c i s = if s ∈ ex then 0 else op (v.get c i s) (w.get c 0 s) := by
  obtain ⟨r, h1, h2, h3, h4, h5⟩ := C47_one_component op v w (by rw [hv.states, hw.states]) (by rw [hv.mu, hw.mu])
    (by rw [hv.temps, hw.temps]) hw.dim (by unfold VBte.numRows; rw [hv.numCalc, hv.dim]; exact hsz)
  refine ⟨r, h1, ?_, ?_⟩
  · have h6 : ∃ d, r = { v with data := d } := by
      unfold VBte.baseOperator at h1
      rw [if_neg (by rw [hv.states, hw.states]; simp),
        if_neg (by rw [hv.numCalc]; unfold VBte.numCalc; rw [hw.mu, hw.temps]; simp)] at h1
      rw [Outcome.bind_eq_ok_iff] at h1
      obtain ⟨d, _, hd⟩ := h1
      exact ⟨_, ((Outcome.ok.injEq _ _).mp hd).symm⟩
    obtain ⟨d, rfl⟩ := h6
    exact ⟨hv.mu, hv.temps, hv.dim, hv.states, hv.ex⟩
  · intro c i s hc hi
    rw [h5 c i s (by rw [hv.numCalc]; exact hc) (by rw [hv.dim]; exact hi), hv.ex]

/-- Sum over the unknowns: components, then states. -/
theorem sum_unknowns (n : Nat) (ex : List Nat) (g : Nat × Nat → ℝ) :
    ∑ v ∈ unknowns n ex, g v = ∑ i ∈ Finset.range 3, ∑ s ∈ freeStates n ex, g (i, s) := Finset.sum_product _ _ _

theorem mem_unknowns {n : Nat} {ex : List Nat} {u : Nat × Nat} :
    u ∈ unknowns n ex ↔ u.1 < 3 ∧ u.2 < n ∧ u.2 ∉ ex := by
  unfold unknowns freeStates
  simp

/-- What a product with the off-diagonal part of the scattering matrix does: on vectors of the run, for calculation `c`, the
linear map with kernel `o c`. -/
structure OffActs (mu temps n : Nat) (ex : List Nat) (off : VBte ℝ → VBte ℝ) (o : Nat → Nat × Nat → Nat × Nat → ℝ) : Prop where
  shape : ∀ x, Shape mu temps n ex x → Shape mu temps n ex (off x)
  val : ∀ x, Shape mu temps n ex x → ∀ c < mu * temps, ∀ u ∈ unknowns n ex,
    (off x).get c u.1 u.2 = ∑ v ∈ unknowns n ex, o c u v * x.get c v.1 v.2

theorem ominiStep_val {mu temps n : Nat} {ex : List Nat} {off : VBte ℝ → VBte ℝ} {o : Nat → Nat × Nat → Nat × Nat → ℝ}
    (hoff : OffActs mu temps n ex off o) {diag rta old : VBte ℝ} (hd : Shape1 mu temps n diag)
    (hr : Shape mu temps n ex rta) (ho : Shape mu temps n ex old) (hsz : ((mu * temps * 3 : Nat) : Int) ≤ intMax) :
    ∃ next, ominiStep off diag rta old = .ok next ∧ Shape mu temps n ex next ∧
      ∀ c < mu * temps, ∀ u ∈ unknowns n ex, next.get c u.1 u.2 = rta.get c u.1 u.2 -
        (∑ v ∈ unknowns n ex, o c u v * old.get c v.1 v.2) / diag.get c 0 u.2 := by
  obtain ⟨q, hq1, hq2, hq3⟩ := base_one (· / ·) (hoff.shape old ho) hd hsz
  obtain ⟨next, hn1, hn2, hn3⟩ := base_same (· - ·) hr hq2
  refine ⟨next, ?_, hn2, ?_⟩
  · unfold ominiStep; rw [hq1]; exact hn1
  · intro c hc u hu
    obtain ⟨h1, _, h3⟩ := mem_unknowns.mp hu
    rw [hn3, if_neg h3, hq3 c u.1 u.2 hc h1, if_neg h3, hoff.val old ho c hc u hu]

/-- The smallest relative change below a threshold: some component with a reference different from zero changed by less. -/
theorem scanDiff_real (diff : List ℝ) (s : ℝ) :
    scanDiff s diff ≤ s ∧ (∀ d ∈ diff, scanDiff s diff ≤ d) ∧ (scanDiff s diff = s ∨ scanDiff s diff ∈ diff) := by
  induction diff generalizing s with
  | nil => simp [scanDiff]
  | cons d t ih =>
    have e : scanDiff s (d :: t) = scanDiff (if d < s then d else s) t := rfl
    rw [e]
    split
    · rename_i h
      obtain ⟨h1, h2, h3⟩ := ih d
      refine ⟨h1.trans h.le, ?_, ?_⟩
      · intro x hx
        rcases List.mem_cons.mp hx with rfl | hx
        · exact h1
        · exact h2 x hx
      · rcases h3 with h3 | h3
        · right; rw [h3]; simp
        · right; exact List.mem_cons_of_mem _ h3
    · rename_i h
      obtain ⟨h1, h2, h3⟩ := ih s
      refine ⟨h1, ?_, ?_⟩
      · intro x hx
        rcases List.mem_cons.mp hx with rfl | hx
        · exact h1.trans (not_lt.mp h)
        · exact h2 x hx
      · rcases h3 with h3 | h3
        · left; exact h3
        · right; exact List.mem_cons_of_mem _ h3

theorem mem_relativeEntries {numCalc : Nat} {x xRef : Nat → Mat3} {d : ℝ} : d ∈ relativeEntries numCalc x xRef ↔
    ∃ c < numCalc, ∃ i j : Fin 3, xRef c i j ≠ 0 ∧ d = |(x c i j - xRef c i j) / xRef c i j| := by
  unfold relativeEntries
  simp only [List.mem_flatMap, List.mem_range, List.mem_finRange, true_and, List.mem_filterMap]
  constructor
  · rintro ⟨c, hc, i, j, h⟩
    split at h
    · cases h
    · rename_i h0
      exact ⟨c, hc, i, j, h0, ((Option.some.injEq _ _).mp h).symm⟩
  · rintro ⟨c, hc, i, j, h0, rfl⟩
    exact ⟨c, hc, i, j, by rw [if_neg h0]⟩

/-- The relative change is that of some component, and no component changed less. -/
theorem relativeChange_ok {numCalc : Nat} {x xRef : Nat → Mat3} {d : ℝ} (h : relativeChange numCalc x xRef = .ok d) :
    d ∈ relativeEntries numCalc x xRef ∧ ∀ e ∈ relativeEntries numCalc x xRef, d ≤ e := by
  unfold relativeChange findMaxRelativeDifference at h
  simp only at h
  obtain ⟨h1, h2, h3⟩ := scanDiff_real (relativeEntries numCalc x xRef) (1e20 : ℝ)
  split at h
  · cases h
  · rename_i hne
    obtain rfl := (Outcome.ok.injEq _ _).mp h
    exact ⟨h3.resolve_left hne, h2⟩

/-- The change is found as soon as one component is small enough. -/
theorem relativeChange_small {numCalc : Nat} {x xRef : Nat → Mat3} {e : ℝ} (he : e ∈ relativeEntries numCalc x xRef)
    (hlt : e < 1e20) : ∃ d, relativeChange numCalc x xRef = .ok d ∧ d ≤ e := by
  obtain ⟨_, h2, _⟩ := scanDiff_real (relativeEntries numCalc x xRef) (1e20 : ℝ)
  refine ⟨_, if_neg ?_, h2 e he⟩
  intro h
  have := h2 e he
  rw [h] at this
  linarith

/-- Runs of the loop: it ends with the conductivity of an iterate whose relative change is below the threshold. -/
theorem phOminiLoop_val {mu temps n : Nat} {ex : List Nat} {off : VBte ℝ → VBte ℝ} {o : Nat → Nat × Nat → Nat × Nat → ℝ}
    (hoff : OffActs mu temps n ex off o) {diag rta : VBte ℝ} (hd : Shape1 mu temps n diag)
    (hr : Shape mu temps n ex rta) (hsz : ((mu * temps * 3 : Nat) : Int) ≤ intMax) (cond : VBte ℝ → Nat → Mat3)
    (numCalc : Nat) (threshold : ℝ) (condRTA : Nat → Mat3) :
    ∀ (left k : Nat) (old : VBte ℝ) (condOld : Nat → Mat3) (printed out : List (Nat → Mat3)),
      Shape mu temps n ex old →
      (∀ c < mu * temps, ∀ u ∈ unknowns n ex, old.get c u.1 u.2 =
        ominiIterate (unknowns n ex) (fun u => diag.get c 0 u.2) (o c) (fun u => rta.get c u.1 u.2) k u) →
      (condOld = if k = 0 then condRTA else cond old) → 0 < left →
      phOminiLoop off diag rta cond numCalc threshold left old condOld printed = .ok out →
      ∃ m f g, k < m ∧ m ≤ k + left ∧ Shape mu temps n ex f ∧ Shape mu temps n ex g ∧
        (∀ c < mu * temps, ∀ u ∈ unknowns n ex, f.get c u.1 u.2 =
          ominiIterate (unknowns n ex) (fun u => diag.get c 0 u.2) (o c) (fun u => rta.get c u.1 u.2) m u) ∧
        (∀ c < mu * temps, ∀ u ∈ unknowns n ex, g.get c u.1 u.2 =
          ominiIterate (unknowns n ex) (fun u => diag.get c 0 u.2) (o c) (fun u => rta.get c u.1 u.2) (m - 1) u) ∧
        out.getLast? = some (cond f) ∧
        ∃ d, relativeChange numCalc (cond f) (if m = 1 then condRTA else cond g) = .ok d ∧ d < threshold := by
  intro left
  induction left with
  | zero => intro _ _ _ _ _ _ _ _ h; omega
  | succ left ih =>
    intro k old condOld printed out hold hval hcond _ hrun
    obtain ⟨next, h1, h2, h3⟩ := ominiStep_val hoff hd hr hold hsz
    have hnext : ∀ c < mu * temps, ∀ u ∈ unknowns n ex, next.get c u.1 u.2 =
        ominiIterate (unknowns n ex) (fun u => diag.get c 0 u.2) (o c) (fun u => rta.get c u.1 u.2) (k + 1) u := by
      intro c hc u hu
      rw [h3 c hc u hu]
      show _ = rta.get c u.1 u.2 - _ / diag.get c 0 u.2
      rw [Finset.sum_congr rfl fun v hv => by rw [hval c hc v hv]]
    unfold phOminiLoop at hrun
    rw [Outcome.bind_eq_ok_iff] at hrun
    obtain ⟨next', h1', hrun⟩ := hrun
    obtain rfl : next = next' := by rw [h1] at h1'; exact (Outcome.ok.injEq _ _).mp h1'
    simp only at hrun
    rw [Outcome.bind_eq_ok_iff] at hrun
    obtain ⟨diff, hdiff, hrun⟩ := hrun
    split at hrun
    · rename_i hlt
      obtain rfl := (Outcome.ok.injEq _ _).mp hrun
      refine ⟨k + 1, next, old, by omega, by omega, h2, hold, hnext, hval, by simp, diff, ?_, hlt⟩
      rw [← hdiff, hcond]
      congr 1
      by_cases hk : k = 0
      · rw [if_pos hk, if_pos (by omega)]
      · rw [if_neg hk, if_neg (by omega)]
    · split at hrun
      · cases hrun
      · rename_i hl
        obtain ⟨m, f, g, hm1, hm2, hrest⟩ := ih (k + 1) next (cond next) _ out h2 hnext (by rw [if_neg (by omega)])
          (by omega) hrun
        exact ⟨m, f, g, by omega, by omega, hrest⟩

/-- The same for the two populations of electrons. -/
theorem elOminiLoop_val {mu temps n : Nat} {ex : List Nat} {off : VBte ℝ → VBte ℝ} {o : Nat → Nat × Nat → Nat × Nat → ℝ}
    (hoff : OffActs mu temps n ex off o) {width rtaE rtaT : VBte ℝ} (hd : Shape1 mu temps n width)
    (hE : Shape mu temps n ex rtaE) (hT : Shape mu temps n ex rtaT) (hsz : ((mu * temps * 3 : Nat) : Int) ≤ intMax)
    (cond : VBte ℝ → VBte ℝ → (Nat → Mat3) × (Nat → Mat3)) (numCalc : Nat) (threshold : ℝ)
    (cond0 : (Nat → Mat3) × (Nat → Mat3)) :
    ∀ (left k : Nat) (old : VBte ℝ × VBte ℝ) (condOld : (Nat → Mat3) × (Nat → Mat3)) (out : VBte ℝ × VBte ℝ),
      Shape mu temps n ex old.1 → Shape mu temps n ex old.2 →
      (∀ c < mu * temps, ∀ u ∈ unknowns n ex, old.1.get c u.1 u.2 =
        ominiIterate (unknowns n ex) (fun u => width.get c 0 u.2) (o c) (fun u => rtaE.get c u.1 u.2) k u) →
      (∀ c < mu * temps, ∀ u ∈ unknowns n ex, old.2.get c u.1 u.2 =
        ominiIterate (unknowns n ex) (fun u => width.get c 0 u.2) (o c) (fun u => rtaT.get c u.1 u.2) k u) →
      (condOld = if k = 0 then cond0 else cond old.1 old.2) → 0 < left →
      elOminiLoop off width rtaE rtaT cond numCalc threshold left old condOld = .ok out →
      ∃ m gE gT, k < m ∧ m ≤ k + left ∧ Shape mu temps n ex out.1 ∧ Shape mu temps n ex out.2 ∧
        (∀ c < mu * temps, ∀ u ∈ unknowns n ex, out.1.get c u.1 u.2 =
          ominiIterate (unknowns n ex) (fun u => width.get c 0 u.2) (o c) (fun u => rtaE.get c u.1 u.2) m u) ∧
        (∀ c < mu * temps, ∀ u ∈ unknowns n ex, out.2.get c u.1 u.2 =
          ominiIterate (unknowns n ex) (fun u => width.get c 0 u.2) (o c) (fun u => rtaT.get c u.1 u.2) m u) ∧
        (∀ c < mu * temps, ∀ u ∈ unknowns n ex, gE.get c u.1 u.2 =
          ominiIterate (unknowns n ex) (fun u => width.get c 0 u.2) (o c) (fun u => rtaE.get c u.1 u.2) (m - 1) u) ∧
        (∀ c < mu * temps, ∀ u ∈ unknowns n ex, gT.get c u.1 u.2 =
          ominiIterate (unknowns n ex) (fun u => width.get c 0 u.2) (o c) (fun u => rtaT.get c u.1 u.2) (m - 1) u) ∧
        (∃ d, relativeChange numCalc (cond out.1 out.2).1 (if m = 1 then cond0 else cond gE gT).1 = .ok d ∧ d < threshold) ∧
        ∃ d, relativeChange numCalc (cond out.1 out.2).2 (if m = 1 then cond0 else cond gE gT).2 = .ok d ∧ d < threshold := by
  intro left
  induction left with
  | zero => intro _ _ _ _ _ _ _ _ _ h; omega
  | succ left ih =>
    intro k old condOld out ho1 ho2 hv1 hv2 hcond _ hrun
    obtain ⟨nextE, h1, h2, h3⟩ := ominiStep_val hoff hd hE ho1 hsz
    obtain ⟨nextT, h4, h5, h6⟩ := ominiStep_val hoff hd hT ho2 hsz
    have hnE : ∀ c < mu * temps, ∀ u ∈ unknowns n ex, nextE.get c u.1 u.2 =
        ominiIterate (unknowns n ex) (fun u => width.get c 0 u.2) (o c) (fun u => rtaE.get c u.1 u.2) (k + 1) u := by
      intro c hc u hu
      rw [h3 c hc u hu]
      show _ = rtaE.get c u.1 u.2 - _ / width.get c 0 u.2
      rw [Finset.sum_congr rfl fun v hv => by rw [hv1 c hc v hv]]
    have hnT : ∀ c < mu * temps, ∀ u ∈ unknowns n ex, nextT.get c u.1 u.2 =
        ominiIterate (unknowns n ex) (fun u => width.get c 0 u.2) (o c) (fun u => rtaT.get c u.1 u.2) (k + 1) u := by
      intro c hc u hu
      rw [h6 c hc u hu]
      show _ = rtaT.get c u.1 u.2 - _ / width.get c 0 u.2
      rw [Finset.sum_congr rfl fun v hv => by rw [hv2 c hc v hv]]
    unfold elOminiLoop at hrun
    rw [Outcome.bind_eq_ok_iff] at hrun
    obtain ⟨nE', h1', hrun⟩ := hrun
    obtain rfl : nextE = nE' := by rw [h1] at h1'; exact (Outcome.ok.injEq _ _).mp h1'
    rw [Outcome.bind_eq_ok_iff] at hrun
    obtain ⟨nT', h4', hrun⟩ := hrun
    obtain rfl : nextT = nT' := by rw [h4] at h4'; exact (Outcome.ok.injEq _ _).mp h4'
    simp only at hrun
    rw [Outcome.bind_eq_ok_iff] at hrun
    obtain ⟨dE, hdE, hrun⟩ := hrun
    rw [Outcome.bind_eq_ok_iff] at hrun
    obtain ⟨dT, hdT, hrun⟩ := hrun
    split at hrun
    · rename_i hlt
      obtain rfl := (Outcome.ok.injEq _ _).mp hrun
      have hc' : (if k + 1 = 1 then cond0 else cond old.1 old.2) = condOld := by
        rw [hcond]
        by_cases hk : k = 0
        · rw [if_pos hk, if_pos (by omega)]
        · rw [if_neg hk, if_neg (by omega)]
      exact ⟨k + 1, old.1, old.2, by omega, by omega, h2, h5, hnE, hnT, hv1, hv2,
        ⟨dE, by rw [hc']; exact hdE, hlt.1⟩, ⟨dT, by rw [hc']; exact hdT, hlt.2⟩⟩
    · split at hrun
      · cases hrun
      · rename_i hl
        obtain ⟨m, gE, gT, hm1, hm2, hrest⟩ := ih (k + 1) (nextE, nextT) (cond nextE nextT) out h2 h5 hnE hnT
          (by rw [if_neg (by omega)]) (by omega) hrun
        exact ⟨m, gE, gT, by omega, by omega, hrest⟩

/-- A band structure that is not reduced by symmetry, with `n` states, and a run over `size` processes. -/
structure PlainRun (B : BandView) (n size : Nat) (sched : Nat → List (List Nat)) : Prop where
  irr : B.irr = List.range n
  bte : ∀ s, B.toBte s = s
  rots : ∀ s, B.rots s = [1]
  procs : 0 < size
  fits : n * size < 18446744073709551616
  schedule : ∀ r < size, (sched r).flatten.Perm (sliceOf B.irr r size)

theorem matVec_one (x : Vec3) : matVec (1 : Mat3) x = x := by
  funext i
  fin_cases i <;> simp [matVec_row]

theorem PlainRun.unfolding {B : BandView} {n size : Nat} {sched : Nat → List (List Nat)} (h : PlainRun B n size sched) :
    Unfolding B.irr B.rots (fun s => [s]) n := by
  refine ⟨?_, ?_⟩
  · rw [h.irr, List.flatMap_singleton']
  · intro is _; rw [h.rots]; rfl

theorem PlainRun.covariant {B : BandView} {n size : Nat} {sched : Nat → List (List Nat)} (h : PlainRun B n size sched)
    (x : Nat → Vec3) : Covariant B.irr B.rots (fun s => [s]) x := by
  intro is _ p hp
  rw [h.rots] at hp
  simp only [List.zip_cons_cons, List.zip_nil_right, List.mem_cons, List.not_mem_nil, or_false] at hp
  subst hp
  simp only
  rw [matVec_one]

theorem headD_mem {α : Type} (l : List α) (a : α) (h : 0 < l.length) : l.headD a ∈ l := by
  cases l with
  | nil => simp at h
  | cons b t => simp

/-- The conductivity of a population without symmetries. -/
theorem phPlain_val {B : BandView} {n size : Nat} {sched : Nat → List (List Nat)} (hB : PlainRun B n size sched)
    (numPoints : Nat) (volume : ℝ) (junk : Nat → Nat → Mat3 → Vec3) (pop : VBte ℝ) (c : Nat) (i j : Fin 3) :
    (phTensor B 3 numPoints volume pop junk size sched).headD (fun _ => 0) c i j =
      (∑ s ∈ freeStates n pop.exclude, B.energy s * pop.get c i s * B.vel s j) / (numPoints * volume) := by
  obtain ⟨h1, h2⟩ := phTensor_val B 3 numPoints volume pop junk size sched hB.procs
    (by rw [hB.irr, List.length_range]; exact hB.fits) hB.schedule hB.unfolding
    (by intro is _ s hs; simp only [List.mem_cons, List.not_mem_nil, or_false] at hs; rw [hs])
    (hB.covariant _) c (fun s i => pop.get c i s) (hB.covariant _) (by intro is _ k _; rw [hB.bte])
    (fun _ _ _ _ _ k _ hk => absurd k.isLt (by omega)) (fun s => s ∈ pop.exclude)
    (by
      intro is _ s hs
      simp only [List.mem_cons, List.not_mem_nil, or_false] at hs
      rw [hs, hB.bte])
  rw [h2 _ (headD_mem _ _ (by rw [h1]; exact hB.procs)) i j i.isLt j.isLt]
  unfold crystalAverage freeStates
  rw [Finset.sum_filter]
  congr 1
  apply Finset.sum_congr rfl
  intro s _
  by_cases hs : s ∈ pop.exclude
  · simp [hs]
  · simp only [if_neg hs, if_pos hs]

theorem scaleByState_get {e : Nat → ℝ} {g : Nat → ℝ → ℝ} {v : VBte ℝ} (hd : v.dim = 3) (c : Nat) {i : Nat} (hi : i < 3) (s : Nat) :
    (scaleByState e g v).get c i s = v.get c i s * g c (e s) := by
  unfold scaleByState VBte.get
  simp only [hd]
  have h3 : (c * 3 + i) / 3 = c := by omega
  rw [h3]

theorem scaleByState_shape {mu temps n : Nat} {ex : List Nat} (e : Nat → ℝ) (g : Nat → ℝ → ℝ) {v : VBte ℝ}
    (h : Shape mu temps n ex v) : Shape mu temps n ex (scaleByState e g v) := ⟨h.mu, h.temps, h.dim, h.states, h.ex⟩

/-- The conductivity of a canonical population without symmetries. -/
theorem phCanonicalCond_val {B : BandView} {n size : Nat} {sched : Nat → List (List Nat)} (hB : PlainRun B n size sched)
    (numPoints : Nat) (volume : ℝ) (stat : Nat → CalcStat) (junk : Nat → Nat → Mat3 → Vec3) {mu temps : Nat} {ex : List Nat}
    (f : VBte ℝ) (hf : Shape mu temps n ex f) (c : Nat) (i j : Fin 3) :
    phCanonicalCond B numPoints volume B.energy stat junk size sched f c i j =
      (∑ s ∈ freeStates n ex, B.energy s * (bosePop stat c (B.energy s) * f.get c i s) * B.vel s j) / (numPoints * volume) := by
  unfold phCanonicalCond
  rw [phPlain_val hB]
  have h1 : (canonical2Population B.energy stat f).exclude = ex := hf.ex
  rw [h1]
  congr 1
  apply Finset.sum_congr rfl
  intro s _
  unfold canonical2Population
  rw [scaleByState_get hf.dim c i.isLt]
  ring

/-- The loop ends with a result or with an error. -/
theorem phOminiLoop_total {mu temps n : Nat} {ex : List Nat} {off : VBte ℝ → VBte ℝ} {o : Nat → Nat × Nat → Nat × Nat → ℝ}
    (hoff : OffActs mu temps n ex off o) {diag rta : VBte ℝ} (hd : Shape1 mu temps n diag)
    (hr : Shape mu temps n ex rta) (hsz : ((mu * temps * 3 : Nat) : Int) ≤ intMax) (cond : VBte ℝ → Nat → Mat3)
    (numCalc : Nat) (threshold : ℝ) :
    ∀ (left : Nat) (old : VBte ℝ) (condOld : Nat → Mat3) (printed : List (Nat → Mat3)), Shape mu temps n ex old →
      (∃ out, phOminiLoop off diag rta cond numCalc threshold left old condOld printed = .ok out) ∨
      phOminiLoop off diag rta cond numCalc threshold left old condOld printed = .error := by
  intro left
  induction left with
  | zero => intro _ _ printed _; exact Or.inl ⟨printed, rfl⟩
  | succ left ih =>
    intro old condOld printed hold
    obtain ⟨next, h1, h2, _⟩ := ominiStep_val hoff hd hr hold hsz
    unfold phOminiLoop
    simp only [h1, Outcome.bind_eq, Outcome.bind_ok]
    by_cases hs : scanDiff (1e20 : ℝ) (relativeEntries numCalc (cond next) condOld) = 1e20
    · right
      have : relativeChange numCalc (cond next) condOld = .error := if_pos hs
      rw [this]; rfl
    · have : relativeChange numCalc (cond next) condOld =
          .ok (scanDiff (1e20 : ℝ) (relativeEntries numCalc (cond next) condOld)) := if_neg hs
      rw [this, Outcome.bind_ok]
      split
      · left; exact ⟨_, rfl⟩
      · split
        · right; rfl
        · exact ih _ _ _ h2

/-- Vectors that are iterate `k`. -/
structure IsIterate (mu temps n : Nat) (ex : List Nat) (o : Nat → Nat × Nat → Nat × Nat → ℝ) (diag rta : VBte ℝ) (k : Nat)
    (x : VBte ℝ) : Prop where
  shape : Shape mu temps n ex x
  val : ∀ c < mu * temps, ∀ u ∈ unknowns n ex, x.get c u.1 u.2 =
    ominiIterate (unknowns n ex) (fun u => diag.get c 0 u.2) (o c) (fun u => rta.get c u.1 u.2) k u

/-- The loop ends with a result if an iterate within reach meets the threshold. -/
theorem phOminiLoop_exits {mu temps n : Nat} {ex : List Nat} {off : VBte ℝ → VBte ℝ} {o : Nat → Nat × Nat → Nat × Nat → ℝ}
    (hoff : OffActs mu temps n ex off o) {diag rta : VBte ℝ} (hd : Shape1 mu temps n diag)
    (hr : Shape mu temps n ex rta) (hsz : ((mu * temps * 3 : Nat) : Int) ≤ intMax) {cond : VBte ℝ → Nat → Mat3}
    {numCalc : Nat} {threshold : ℝ} (condRTA : Nat → Mat3) (δ : Nat → ℝ)
    (hδ : ∀ j x y, IsIterate mu temps n ex o diag rta j x → IsIterate mu temps n ex o diag rta (j + 1) y →
      relativeChange numCalc (cond y) (if j = 0 then condRTA else cond x) = .ok (δ j)) (m : Nat) (hm : δ m < threshold) :
    ∀ (left k : Nat) (old : VBte ℝ) (printed : List (Nat → Mat3)), IsIterate mu temps n ex o diag rta k old → k ≤ m →
      m < k + left →
      ∃ out, phOminiLoop off diag rta cond numCalc threshold left old (if k = 0 then condRTA else cond old) printed =
        .ok out := by
  intro left
  induction left with
  | zero => intro k _ _ _ h1 h2; omega
  | succ left ih =>
    intro k old printed hold h1 h2
    obtain ⟨next, e1, e2, e3⟩ := ominiStep_val hoff hd hr hold.shape hsz
    have hnext : IsIterate mu temps n ex o diag rta (k + 1) next := by
      refine ⟨e2, ?_⟩
      intro c hc u hu
      rw [e3 c hc u hu]
      show _ = rta.get c u.1 u.2 - _ / diag.get c 0 u.2
      rw [Finset.sum_congr rfl fun v hv => by rw [hold.val c hc v hv]]
    unfold phOminiLoop
    simp only [e1, Outcome.bind_eq, Outcome.bind_ok, hδ k old next hold hnext]
    split
    · exact ⟨_, rfl⟩
    · rename_i hlt
      have hkm : k ≠ m := fun e => hlt (e ▸ hm)
      rw [if_neg (by omega)]
      have := ih (k + 1) next (printed ++ [cond next]) hnext (by omega) (by omega)
      rw [if_neg (by omega)] at this
      exact this

/-- Weighted sup norm estimate of one application of the off-diagonal part. -/
theorem off_bound {ι : Type} (S : Finset ι) (diag : ι → ℝ) (off : ι → ι → ℝ) (w : ι → ℝ) (q M : ℝ)
    (hdiag : ∀ u ∈ S, diag u ≠ 0)
    (hq : ∀ u ∈ S, ∑ v ∈ S, |off u v| * w v ≤ q * |diag u| * w u) (hM : 0 ≤ M) (e : ι → ℝ)
    (he : ∀ v ∈ S, |e v| ≤ M * w v) (u : ι) (hu : u ∈ S) : |(∑ v ∈ S, off u v * e v) / diag u| ≤ q * M * w u := by
  have h0 : 0 < |diag u| := abs_pos.mpr (hdiag u hu)
  rw [abs_div, div_le_iff₀ h0]
  calc |∑ v ∈ S, off u v * e v| ≤ ∑ v ∈ S, |off u v * e v| := Finset.abs_sum_le_sum_abs _ _
    _ ≤ ∑ v ∈ S, M * (|off u v| * w v) := by
        apply Finset.sum_le_sum
        intro v hv
        rw [abs_mul]
        have := mul_le_mul_of_nonneg_left (he v hv) (abs_nonneg (off u v))
        linarith
    _ = M * ∑ v ∈ S, |off u v| * w v := by rw [Finset.mul_sum]
    _ ≤ M * (q * |diag u| * w u) := mul_le_mul_of_nonneg_left (hq u hu) hM
    _ = q * M * w u * |diag u| := by ring

/-- Difference between iterates and the solution. -/
theorem omini_error {ι : Type} (S : Finset ι) (diag : ι → ℝ) (off : ι → ι → ℝ) (f0 x : ι → ℝ)
    (hdiag : ∀ u ∈ S, diag u ≠ 0) (hx : SolvesSplit S diag off (fun u => diag u * f0 u) x) (k : Nat) (u : ι) (hu : u ∈ S) :
    ominiIterate S diag off f0 (k + 1) u - x u =
      -((∑ v ∈ S, off u v * (ominiIterate S diag off f0 k v - x v)) / diag u) := by
  have h1 := hx u hu
  have h0 := hdiag u hu
  have h2 : ∑ v ∈ S, off u v * (ominiIterate S diag off f0 k v - x v) =
      ∑ v ∈ S, off u v * ominiIterate S diag off f0 k v - ∑ v ∈ S, off u v * x v := by
    rw [← Finset.sum_sub_distrib]
    exact Finset.sum_congr rfl fun v _ => by ring
  rw [h2]
  show f0 u - _ / diag u - x u = _
  rw [sub_div, eq_sub_of_add_eq' h1]
  field_simp
  ring

end Verif.Model
