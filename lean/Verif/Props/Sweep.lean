import Verif.Proofs.Sweep

/-! # C36-C40: statistics sweep -/
namespace Verif.Props
open Verif.Model

/-! ## C36 -/

/-- Chemical potentials given: the calculations are the product of temperatures and chemical potentials, in order,
and asking for `(it, imu)` gives the values requested at those positions. -/
theorem C36_chemical_potentials_partial (temps mus : List ℝ) (findMu findDop : ℝ → ℝ → ℝ) (hmu : mus ≠ [])
    (hsz : (temps.length : Int) * mus.length ≤ intMax) :
    ∃ s, electronSweep temps [] mus findMu findDop = .ok s ∧
      s.table = temps.flatMap (fun T => mus.map fun mu => ⟨T, mu, findDop mu T⟩) ∧
      ∀ (it imu : Nat) (T mu : ℝ), temps[it]? = some T → mus[imu]? = some mu →
        s.getCalc2 it imu = .ok ⟨T, mu, findDop mu T⟩ := by
  have hml : mus.length ≠ 0 := by simpa using hmu
  have htab : electronSweep temps [] mus findMu findDop = .ok ⟨temps.length, mus.length,
      temps.flatMap (fun T => mus.map fun mu => (⟨T, mu, findDop mu T⟩ : CalcRow))⟩ := by
    unfold electronSweep
    simp only [List.length_nil]
    rw [if_neg hml, if_pos trivial, Nat.max_zero, fillCalcTable_val _ _ _ (by omega)]
    simp only [Outcome.bind_eq, Outcome.bind_ok]
    congr 2
    have h1 : ∀ T : ℝ, ((List.range mus.length).map fun j => (⟨T, mus.getD j 0, findDop (mus.getD j 0) T⟩ : CalcRow)) =
        mus.map fun mu => ⟨T, mu, findDop mu T⟩ := fun T => map_range_getD mus 0 (fun mu => (⟨T, mu, findDop mu T⟩ : CalcRow))
    have h2 := flatMap_range_getD temps 0 (fun T => mus.map fun mu => (⟨T, mu, findDop mu T⟩ : CalcRow))
    rw [← h2]
    congr 1
    funext it
    exact h1 _
  refine ⟨_, htab, rfl, ?_⟩
  intro it imu T mu hT hmu'
  obtain ⟨hit, hT'⟩ := List.getElem?_eq_some_iff.mp hT
  obtain ⟨himu, hmu''⟩ := List.getElem?_eq_some_iff.mp hmu'
  unfold Sweep.getCalc2 Sweep.getCalc
  rw [compress2_val (by omega) (by simpa using hit) (by omega) (by simpa using himu) (by simpa using by omega)]
  simp only [Outcome.bind_eq, Outcome.bind_ok]
  have hidx : ((it : Int) * mus.length + imu).toNat = it * mus.length + imu := by
    have : (it : Int) * mus.length + imu = ((it * mus.length + imu : Nat) : Int) := by push_cast; ring
    rw [this, Int.toNat_natCast]
  rw [hidx]
  unfold readAt
  have h := flatMap_offs_getElem? (fun it => mus.map fun mu => (⟨temps.getD it 0, mu, findDop mu (temps.getD it 0)⟩ : CalcRow))
    (n := temps.length) (k := it) (b := imu) hit (by simpa using himu)
  have ho : offs (fun it => (mus.map fun mu =>
      (⟨temps.getD it 0, mu, findDop mu (temps.getD it 0)⟩ : CalcRow)).length) it = it * mus.length := by
    clear h hidx hT
    clear hT' hit
    induction it with
    | zero => simp [offs]
    | succ k ih => simp only [offs] at ih ⊢; rw [ih]; simp [Nat.succ_mul]
  rw [ho, flatMap_range_getD temps 0 (fun T => mus.map fun mu => (⟨T, mu, findDop mu T⟩ : CalcRow))] at h
  rw [h]
  simp [himu, hmu'', hit, hT']

/-- Dopings given: the same with the chemical potential found for each doping and temperature. -/
theorem C36_dopings_partial (temps dops : List ℝ) (findMu findDop : ℝ → ℝ → ℝ)
    (hsz : (temps.length : Int) * dops.length ≤ intMax) :
    ∃ s, electronSweep temps dops [] findMu findDop = .ok s ∧
      s.table = temps.flatMap (fun T => dops.map fun d => ⟨T, findMu d T, d⟩) ∧
      ∀ (it id : Nat) (T d : ℝ), temps[it]? = some T → dops[id]? = some d →
        s.getCalc2 it id = .ok ⟨T, findMu d T, d⟩ := by
  have htab : electronSweep temps dops [] findMu findDop = .ok ⟨temps.length, dops.length,
      temps.flatMap (fun T => dops.map fun d => (⟨T, findMu d T, d⟩ : CalcRow))⟩ := by
    unfold electronSweep
    simp only [List.length_nil]
    rw [if_pos trivial, Nat.zero_max, fillCalcTable_val _ _ _ (by omega)]
    simp only [Outcome.bind_eq, Outcome.bind_ok]
    congr 2
    have h1 : ∀ T : ℝ, ((List.range dops.length).map fun j => (⟨T, findMu (dops.getD j 0) T, dops.getD j 0⟩ : CalcRow)) =
        dops.map fun d => ⟨T, findMu d T, d⟩ := fun T => map_range_getD dops 0 (fun d => (⟨T, findMu d T, d⟩ : CalcRow))
    have h2 := flatMap_range_getD temps 0 (fun T => dops.map fun d => (⟨T, findMu d T, d⟩ : CalcRow))
    rw [← h2]
    congr 1
    funext it
    exact h1 _
  refine ⟨_, htab, rfl, ?_⟩
  intro it imu T mu hT hmu'
  obtain ⟨hit, hT'⟩ := List.getElem?_eq_some_iff.mp hT
  obtain ⟨himu, hmu''⟩ := List.getElem?_eq_some_iff.mp hmu'
  unfold Sweep.getCalc2 Sweep.getCalc
  rw [compress2_val (by omega) (by simpa using hit) (by omega) (by simpa using himu) (by simpa using by omega)]
  simp only [Outcome.bind_eq, Outcome.bind_ok]
  have hidx : ((it : Int) * dops.length + imu).toNat = it * dops.length + imu := by
    have : (it : Int) * dops.length + imu = ((it * dops.length + imu : Nat) : Int) := by push_cast; ring
    rw [this, Int.toNat_natCast]
  rw [hidx]
  unfold readAt
  have h := flatMap_offs_getElem? (fun it => dops.map fun d => (⟨temps.getD it 0, findMu d (temps.getD it 0), d⟩ : CalcRow))
    (n := temps.length) (k := it) (b := imu) hit (by simpa using himu)
  have ho : offs (fun it => (dops.map fun d =>
      (⟨temps.getD it 0, findMu d (temps.getD it 0), d⟩ : CalcRow)).length) it = it * dops.length := by
    clear h hidx hT
    clear hT' hit
    induction it with
    | zero => simp [offs]
    | succ k ih => simp only [offs] at ih ⊢; rw [ih]; simp [Nat.succ_mul]
  rw [ho, flatMap_range_getD temps 0 (fun T => dops.map fun d => (⟨T, findMu d T, d⟩ : CalcRow))] at h
  rw [h]
  simp [himu, hmu'', hit, hT']

/-- Phonons: one calculation per temperature, in order. -/
theorem C36_phonons (temps : List ℝ) : ∃ s, phononSweep temps = .ok s ∧ s.table = temps.map fun T => ⟨T, 0, 0⟩ := by
  refine ⟨⟨temps.length, 1, temps.map fun T => ⟨T, 0, 0⟩⟩, ?_, rfl⟩
  unfold phononSweep
  rw [writeAll_seq (temps.map fun T => (⟨T, 0, 0⟩ : CalcRow))]
  · simp only [Outcome.bind_eq, Outcome.bind_ok]
  · simp
  · simp [Function.comp_def]
  · rw [List.map_map]
    exact map_range_getD temps 0 (fun T => (⟨T, 0, 0⟩ : CalcRow))

/-- The full C36 is violated when both dopings and chemical potentials are given: all calculations are at zero
temperature and chemical potential. -/
theorem C36_violated : ∃ s, electronSweep [300] [1] [5] (fun _ _ => 0) (fun _ _ => 0) = .ok s ∧
    s.getCalc2 0 0 = .ok ⟨0, 0, 0⟩ := by
  refine ⟨⟨1, 1, [⟨0, 0, 0⟩]⟩, ?_, ?_⟩
  · simp [electronSweep]
  · unfold Sweep.getCalc2
    rw [compress2_val (by norm_num) (by norm_num) (by norm_num) (by norm_num) (by decide)]
    simp [Outcome.bind_eq, Sweep.getCalc, readAt]

example : ([300, 400] : List ℝ) ≠ [] ∧ ((2 : Int) * 3 ≤ intMax) := ⟨by simp, by decide⟩

/-! ## C37 -/

/-- A positive step: the expansion terminates and consists of exactly the values `lo + k * delta` not above `hi`. -/
theorem C37_range (lo hi delta : ℝ) (hd : 0 < delta) :
    ∃ n : Nat, (∀ k : Nat, k < n ↔ lo + k * delta ≤ hi) ∧
      ∀ fuel, n < fuel → sweepRange fuel lo hi delta = .ok ((List.range n).map fun k : Nat => lo + k * delta) := by
  obtain ⟨n, hn⟩ : ∃ n : Nat, hi - lo < n * delta := by
    obtain ⟨n, hn⟩ := exists_nat_gt ((hi - lo) / delta)
    exact ⟨n, (div_lt_iff₀ hd).mp hn⟩
  induction n generalizing lo with
  | zero =>
    refine ⟨0, ?_, ?_⟩
    · intro k
      have : (0 : ℝ) ≤ k * delta := by positivity
      simp only [Nat.cast_zero, zero_mul] at hn
      constructor
      · intro h; omega
      · intro h; linarith
    · intro fuel hf
      obtain ⟨f, rfl⟩ : ∃ f, fuel = f + 1 := ⟨fuel - 1, by omega⟩
      unfold sweepRange
      rw [if_neg (by simp only [Nat.cast_zero, zero_mul] at hn; linarith)]
      rfl
  | succ n ih =>
    by_cases hlo : lo ≤ hi
    · obtain ⟨m, h1, h2⟩ := ih (lo + delta) (by push_cast at hn; linarith)
      refine ⟨m + 1, ?_, ?_⟩
      · intro k
        cases k with
        | zero => simp [hlo]
        | succ k =>
          rw [Nat.add_lt_add_iff_right, h1 k]
          push_cast
          constructor <;> intro h <;> linarith
      · intro fuel hf
        obtain ⟨f, rfl⟩ : ∃ f, fuel = f + 1 := ⟨fuel - 1, by omega⟩
        unfold sweepRange
        rw [if_pos hlo, h2 f (by omega)]
        simp only [Outcome.ok.injEq]
        rw [List.range_succ_eq_map, List.map_cons, List.map_map]
        congr 1
        · simp
        · apply List.map_congr_left
          intro k _
          simp only [Function.comp_apply, Nat.succ_eq_add_one]
          push_cast; ring
    · refine ⟨0, ?_, ?_⟩
      · intro k
        have : (0 : ℝ) ≤ k * delta := by positivity
        constructor
        · intro h; omega
        · intro h; exact absurd (by linarith) hlo
      · intro fuel hf
        obtain ⟨f, rfl⟩ : ∃ f, fuel = f + 1 := ⟨fuel - 1, by omega⟩
        unfold sweepRange
        rw [if_neg hlo]
        rfl

/-- A step that is not positive is not refused: the expansion never ends. -/
theorem C37_no_step (lo hi delta : ℝ) (hd : delta ≤ 0) (h : lo ≤ hi) (fuel : Nat) :
    sweepRange fuel lo hi delta = .diverge := by
  induction fuel generalizing lo with
  | zero => rfl
  | succ f ih =>
    unfold sweepRange
    rw [if_pos h, ih (lo + delta) (by linarith)]

/-! ## C38 and C39 -/

/-- The interval where the search starts, common to all processes. -/
noncomputable def startA (parts : List Proc) : ℝ :=
  reduceOp .min (parts.map fun p => if p.2 = [] then 0 else listMin p.2 - 1)
noncomputable def startB (parts : List Proc) : ℝ :=
  reduceOp .max (parts.map fun p => if p.2 = [] then 0 else listMax p.2 + 1)

theorem startA_le_startB (parts : List Proc) (hne : parts ≠ []) : startA parts ≤ startB parts := by
  obtain ⟨p, t, rfl⟩ := List.exists_cons_of_ne_nil hne
  have h1 : startA (p :: t) ≤ if p.2 = [] then 0 else listMin p.2 - 1 := reduce_min_le _ _ (by simp)
  have h2 : (if p.2 = [] then 0 else listMax p.2 + 1) ≤ startB (p :: t) := le_reduce_max _ _ (by simp)
  have := listMin_le_listMax p.2
  split at h1 <;> split at h2 <;> first | linarith | contradiction

/-- The whole search, reduced to its first tests and the bisection. -/
theorem findMu_run (c : SearchData) (parts : List Proc) (hne : parts ≠ []) (doping T : ℝ)
    (h0 : ¬ (doping = 0 ∧ T = 0)) (fuel : Nat) :
    runAll (fuel + 4) (parts.map fun p => findMuProg true p.1 c p.2 doping T) =
      if c.electrons doping > c.numBands ∨ c.electrons doping < 0 then .error
      else if sgn (missing c (c.electrons doping) (parts.flatMap (·.2)) T (startA parts)) =
          sgn (missing c (c.electrons doping) (parts.flatMap (·.2)) T (startB parts)) then
        runAll fuel (parts.map fun _ => .err)
      else runAll fuel (parts.map fun p => bisectProg true p.1 c (c.electrons doping) p.2 T
        (sgn (missing c (c.electrons doping) (parts.flatMap (·.2)) T (startA parts))) maxIter
        (startA parts) (startB parts)) := by
  by_cases h1 : c.electrons doping > c.numBands
  · rw [if_pos (Or.inl h1)]
    have : (parts.map fun p => findMuProg true p.1 c p.2 doping T) = parts.map fun _ => .err := by
      apply List.map_congr_left; intro p _; unfold findMuProg; simp only; rw [if_pos h1]
    rw [this, runAll_err _ hne]
  · by_cases h2 : c.electrons doping < 0
    · rw [if_pos (Or.inr h2)]
      have : (parts.map fun p => findMuProg true p.1 c p.2 doping T) = parts.map fun _ => .err := by
        apply List.map_congr_left; intro p _; unfold findMuProg; simp only; rw [if_neg h1, if_pos h2]
      rw [this, runAll_err _ hne]
    · rw [if_neg (by rintro (h | h) <;> contradiction)]
      have hprog : (parts.map fun p => findMuProg true p.1 c p.2 doping T) = parts.map fun p =>
          Prog.red .min (if p.2 = [] then 0 else listMin p.2 - 1) fun a =>
          Prog.red .max (if p.2 = [] then 0 else listMax p.2 + 1) fun b =>
          Prog.red .sum (popSum p.2 T a) fun s =>
          Prog.red .sum (popSum p.2 T b) fun s' =>
            if sgn (c.electrons doping - s / c.numPoints) = sgn (c.electrons doping - s' / c.numPoints) then .err
            else bisectProg true p.1 c (c.electrons doping) p.2 T (sgn (c.electrons doping - s / c.numPoints))
              maxIter a b := by
        apply List.map_congr_left
        intro p _
        unfold findMuProg
        simp only
        rw [if_neg h1, if_neg h2, if_neg (by tauto), if_neg (by tauto), if_pos trivial]
        simp [fPopProg]
      rw [hprog, runAll_red _ _ hne, runAll_red _ _ hne, runAll_red _ _ hne, runAll_red _ _ hne]
      have e1 : reduceOp .min (parts.map fun p : Proc => if p.2 = [] then 0 else listMin p.2 - 1) = startA parts := rfl
      have e2 : reduceOp .max (parts.map fun p : Proc => if p.2 = [] then 0 else listMax p.2 + 1) = startB parts := rfl
      rw [e1, e2, reduce_sum_parts, reduce_sum_parts]
      have m1 : c.electrons doping - popSum (parts.flatMap (·.2)) T (startA parts) / c.numPoints =
        missing c (c.electrons doping) (parts.flatMap (·.2)) T (startA parts) := rfl
      have m2 : c.electrons doping - popSum (parts.flatMap (·.2)) T (startB parts) / c.numPoints =
        missing c (c.electrons doping) (parts.flatMap (·.2)) T (startB parts) := rfl
      rw [m1, m2]
      split
      · rfl
      · rfl

/-- C38: at positive temperature, whenever the search completes, on any distribution of the states over processes, the
value returned by every process is within the tolerance of a chemical potential at which the electron count is exactly
the requested one. -/
theorem C38_root (c : SearchData) (parts : List Proc) (hhead : ∃ p ∈ parts, p.1 = true) (doping T : ℝ) (hT : 0 < T)
    (fuel : Nat) (vs : List ℝ)
    (h : runAll fuel (parts.map fun p => findMuProg true p.1 c p.2 doping T) = .ok vs) (v : ℝ) (hv : v ∈ vs) :
    ∃ r, |v - r| ≤ 1.0e-8 ∧ popSum (parts.flatMap (·.2)) T r / c.numPoints = c.electrons doping := by
  have hne : parts ≠ [] := by rintro rfl; simp at hhead
  -- more fuel gives the same result
  have hmono : ∀ (f : Nat) (ps : List Prog) (vs : List ℝ), runAll f ps = .ok vs → runAll (f + 1) ps = .ok vs := by
    intro f
    induction f with
    | zero => intro ps vs h; simp [runAll] at h
    | succ f ih =>
      intro ps vs h
      unfold runAll at h ⊢
      cases hr : allRet ps with
      | some ws => rw [hr] at h; exact h
      | none =>
        rw [hr] at h
        simp only at h ⊢
        split at h
        · simp at h
        · rename_i he
          rw [if_neg he]
          split at h
          · split at h
            · rename_i l hl
              exact ih _ _ h
            · simp at h
          · simp at h
  have h4 : runAll (fuel + 4) (parts.map fun p => findMuProg true p.1 c p.2 doping T) = .ok vs :=
    hmono _ _ _ (hmono _ _ _ (hmono _ _ _ (hmono _ _ _ h)))
  rw [findMu_run c parts hne doping T (by rintro ⟨_, h'⟩; linarith)] at h4
  split at h4
  · simp at h4
  · split at h4
    · exact absurd h4 (runAll_err_mem _ _ (by
        obtain ⟨p, hp, _⟩ := hhead
        exact List.mem_map.mpr ⟨p, hp, rfl⟩) _)
    · rename_i _ hs
      obtain ⟨v', hv', rfl⟩ := bisect_run c _ T _ parts hne hhead maxIter fuel _ _ vs (by decide) h4
      obtain ⟨p, hp, rfl⟩ := List.mem_map.mp hv
      obtain ⟨a', b', h1, h2, h3, h4, h5, h6, h7⟩ := bisectPure_spec _ _ _ _ _ _ (startA_le_startB parts hne) rfl
        (fun h' => hs h'.symm) hv'
      rcases h7 with h7 | h7
      · refine ⟨v', by norm_num, ?_⟩
        unfold missing at h7; linarith
      · obtain ⟨r, hr1, hr2, hr3⟩ := root_of_sgn _ (missing_continuous c (c.electrons doping) _ T hT) a' b'
          (by linarith) (by rw [h5]; exact h6)
        refine ⟨r, ?_, ?_⟩
        · rw [abs_le]; constructor <;> linarith
        · unfold missing at hr3; linarith

/-- C38: the bracket is kept at every iteration: the result of the bisection of any function with different signs at
the ends of an interval stays in the interval, between two points of different sign closer than the tolerance (or is a
zero). -/
theorem C38_bracket (f : ℝ → ℝ) (rem : Nat) (a b v : ℝ) (hab : a ≤ b) (hb : sgn (f b) ≠ sgn (f a))
    (h : bisectPure f (sgn (f a)) rem a b = some v) :
    a ≤ v ∧ v ≤ b ∧ ∃ a' b', a' ≤ v ∧ v ≤ b' ∧ sgn (f a') ≠ sgn (f b') ∧ (f v = 0 ∨ b' - a' < 1.0e-8) := by
  obtain ⟨a', b', h1, h2, h3, h4, h5, h6, h7⟩ := bisectPure_spec f _ rem a b v hab rfl hb h
  exact ⟨by linarith, by linarith, a', b', h2, h3, by rw [h5]; exact fun h' => h6 h'.symm, h7⟩

/-- The electron count strictly increases with the chemical potential (at positive temperature, with at least one
state), so the requested count is met at one chemical potential only. -/
theorem C38_unique (states : List ℝ) (hs : states ≠ []) (T mu mu' : ℝ) (hT : 0 < T) (h : mu < mu') :
    popSum states T mu < popSum states T mu' := by
  have hlt : ∀ e : ℝ, getPopulation .fermi e T mu < getPopulation .fermi e T mu' := by
    intro e
    rw [getPopulation_fermi hT, getPopulation_fermi hT]
    have h1 := Real.exp_pos ((e - mu') / T)
    have h2 : Real.exp ((e - mu') / T) < Real.exp ((e - mu) / T) := by
      rw [Real.exp_lt_exp]; exact div_lt_div_of_pos_right (by linarith) hT
    exact one_div_lt_one_div_of_lt (by linarith) (by linarith)
  have hle : ∀ l : List ℝ, popSum l T mu ≤ popSum l T mu' := by
    intro l
    induction l with
    | nil => simp [popSum]
    | cons e t ih => simp only [popSum, List.map_cons, List.sum_cons] at ih ⊢; linarith [hlt e]
  obtain ⟨e, t, rfl⟩ := List.exists_cons_of_ne_nil hs
  have := hle t
  simp only [popSum, List.map_cons, List.sum_cons] at this ⊢
  linarith [hlt e]

/-- At the chemical potential where the count is the requested one, the doping reported back is the requested one. -/
theorem C38_roundtrip (c : SearchData) (states : List ℝ) (doping T r : ℝ) (hv : c.volume ≠ 0) (hs : c.spinFactor ≠ 0)
    (hc : c.cm3 ≠ 0) (hr : popSum states T r / c.numPoints = c.electrons doping) :
    findDoping c states r T = doping := by
  unfold findDoping
  simp only
  rw [hr]
  unfold SearchData.electrons
  field_simp
  ring

/-- Partial C39: except for the Fermi level of completely empty or full bands (zero temperature and doping), on any
distribution of the states over processes and with an initial bracket below 1e-8 * 2^98, all processes take part in the
same reductions to the end: either all stop with the same error, or all return the same value.  Missing: the corner
cases (see `C39_violated`) and larger brackets, where only the head process reports the failure. -/
theorem C39_collective_partial (c : SearchData) (parts : List Proc) (hne : parts ≠ []) (doping T : ℝ)
    (h0 : ¬ (doping = 0 ∧ T = 0)) (hw : startB parts - startA parts < 1.0e-8 * 2 ^ 98) :
    runAll 200 (parts.map fun p => findMuProg true p.1 c p.2 doping T) = .error ∨
    ∃ v, runAll 200 (parts.map fun p => findMuProg true p.1 c p.2 doping T) = .ok (parts.map fun _ => v) := by
  rw [show (200 : Nat) = 196 + 4 from rfl, findMu_run c parts hne doping T h0]
  split
  · exact Or.inl rfl
  · split
    · left; exact runAll_err _ hne _
    · right
      obtain ⟨v, hv⟩ := bisectPure_some (missing c (c.electrons doping) (parts.flatMap (·.2)) T)
        (sgn (missing c (c.electrons doping) (parts.flatMap (·.2)) T (startA parts))) 98 _ _
        (startA_le_startB parts hne) hw
      exact ⟨v, bisect_runs c _ T _ parts hne maxIter 196 _ _ v (by decide) hv⟩

/-- Any completed search returns the same value on all processes (same corner cases excepted). -/
theorem C39_same_value_partial (c : SearchData) (parts : List Proc) (hhead : ∃ p ∈ parts, p.1 = true) (doping T : ℝ)
    (h0 : ¬ (doping = 0 ∧ T = 0)) (fuel : Nat) (vs : List ℝ)
    (h : runAll (fuel + 4) (parts.map fun p => findMuProg true p.1 c p.2 doping T) = .ok vs) :
    ∃ v, vs = parts.map fun _ => v := by
  have hne : parts ≠ [] := by rintro rfl; simp at hhead
  rw [findMu_run c parts hne doping T h0] at h
  split at h
  · simp at h
  · split at h
    · exact absurd h (runAll_err_mem _ _ (by
        obtain ⟨p, hp, _⟩ := hhead
        exact List.mem_map.mpr ⟨p, hp, rfl⟩) _)
    · obtain ⟨v', _, rfl⟩ := bisect_run c _ T _ parts hne hhead maxIter fuel _ _ vs (by decide) h
      exact ⟨v', rfl⟩

/-- The full C39 is violated: with no electrons, two processes holding a state each (energies 1 and 2) return different
Fermi levels. -/
theorem C39_violated : runAll 200 ([(true, [1]), (false, [2])].map fun p : Proc =>
    findMuProg true p.1 ⟨1, 2, 0, 0, 1, 2, 1⟩ p.2 0 0) = .ok [1, 2] := by
  have h1 : findMuProg true true ⟨1, 2, 0, 0, 1, 2, 1⟩ [1] 0 0 = .ret 1 := by
    simp [findMuProg, SearchData.electrons, listMin]
  have h2 : findMuProg true false ⟨1, 2, 0, 0, 1, 2, 1⟩ [2] 0 0 = .ret 2 := by
    simp [findMuProg, SearchData.electrons, listMin]
  simp only [List.map_cons, List.map_nil, h1, h2]
  rfl

example : ∃ p ∈ ([(true, [0.1, 0.3]), (false, [0.2]), (false, [])] : List Proc), p.1 = true := ⟨(true, [0.1, 0.3]), by simp, rfl⟩

/-! ## C40 -/

/-- Partial C40: with a single temperature or a single chemical potential, the value stored for a calculation is the
one returned for its temperature and chemical potential.  Missing: several of both. -/
theorem C40_lookup_partial {α : Type} (s : Sweep) (values : List α) (it imu : Nat) (hit : it < s.nTemp)
    (himu : imu < s.nChemPot) (hsz : (s.nTemp : Int) * s.nChemPot ≤ intMax) (h1 : s.nTemp = 1 ∨ s.nChemPot = 1) :
    ∃ i : Nat, compress2Indices it imu s.nTemp s.nChemPot = .ok i ∧
      observableGet s values imu it = readAt values i := by
  refine ⟨it * s.nChemPot + imu, ?_, ?_⟩
  · rw [compress2_val (by omega) (by omega) (by omega) (by omega) (by omega)]; push_cast; rfl
  · unfold observableGet observableIndex
    rw [compress2_val (by omega) (by omega) (by omega) (by omega) (by rw [mul_comm]; omega)]
    simp only [Outcome.bind_eq, Outcome.bind_ok]
    congr 1
    have : (imu : Int) * s.nTemp + it = ((it * s.nChemPot + imu : Nat) : Int) := by
      rcases h1 with h1 | h1
      · have : it = 0 := by omega
        subst this; rw [h1]; push_cast; ring
      · have : imu = 0 := by omega
        subst this; rw [h1]; push_cast; ring
    rw [this, Int.toNat_natCast]

/-- The full C40 is violated with two temperatures and two chemical potentials: asking for the second temperature and
first chemical potential (calculation 2) returns the value of calculation 1. -/
theorem C40_violated : ∃ s : Sweep, s.nTemp = 2 ∧ s.nChemPot = 2 ∧ compress2Indices 1 0 2 2 = .ok 2 ∧
    observableGet s ["calc 0", "calc 1", "calc 2", "calc 3"] 0 1 = .ok "calc 1" :=
  ⟨⟨2, 2, []⟩, rfl, rfl, by decide, by decide⟩

example : ∃ s : Sweep, s.nTemp = 1 ∧ s.nChemPot = 5 := ⟨⟨1, 5, []⟩, rfl, rfl⟩

end Verif.Props
