import Verif.Proofs.GroundState
import Verif.Props.Input

namespace Verif.Props
open Verif.Model Verif.Spec

/-! ## C162 filling of the ground state -/

theorem foldl_min_ge (xs : List ℝ) (x b : ℝ) (hx : b ≤ x) (h : ∀ y ∈ xs, b ≤ y) : b ≤ xs.foldl min x := by
  induction xs generalizing x with
  | nil => simpa using hx
  | cons y t ih =>
    simp only [List.foldl_cons]
    exact ih _ (le_min hx (h y (by simp))) fun z hz => h z (by simp [hz])

theorem foldl_max_le (xs : List ℝ) (x b : ℝ) (hx : x ≤ b) (h : ∀ y ∈ xs, y ≤ b) : xs.foldl max x ≤ b := by
  induction xs generalizing x with
  | nil => simpa using hx
  | cons y t ih =>
    simp only [List.foldl_cons]
    exact ih _ (max_le hx (h y (by simp))) fun z hz => h z (by simp [hz])

/-- Energies of any material give an interval that is halved often enough. -/
theorem start_width (parts : List Proc) (hne : parts ≠ []) (hE : ∀ e ∈ parts.flatMap (·.2), |e| ≤ 10 ^ 20) :
    startB parts - startA parts < 1.0e-8 * 2 ^ 98 := by
  have hp : ∀ p ∈ parts, ∀ e ∈ p.2, -(10 ^ 20) ≤ e ∧ e ≤ (10 ^ 20 : ℝ) := by
    intro p hp e he
    exact abs_le.mp (hE e (List.mem_flatMap.mpr ⟨p, hp, he⟩))
  have hmin : ∀ p ∈ parts, -(10 ^ 20) - 1 ≤ (if p.2 = [] then (0 : ℝ) else listMin p.2 - 1) := by
    intro p h
    have := hp p h
    cases hl : p.2 with
    | nil => norm_num
    | cons x t =>
      rw [hl] at this
      simp only [reduceCtorEq, if_false, listMin]
      have := foldl_min_ge t x (-(10 ^ 20)) (this x (by simp)).1 fun y hy => (this y (by simp [hy])).1
      linarith
  have hmax : ∀ p ∈ parts, (if p.2 = [] then (0 : ℝ) else listMax p.2 + 1) ≤ 10 ^ 20 + 1 := by
    intro p h
    have := hp p h
    cases hl : p.2 with
    | nil => norm_num
    | cons x t =>
      rw [hl] at this
      simp only [reduceCtorEq, if_false, listMax]
      have := foldl_max_le t x (10 ^ 20) (this x (by simp)).2 fun y hy => (this y (by simp [hy])).2
      linarith
  obtain ⟨p, t, rfl⟩ := List.exists_cons_of_ne_nil hne
  have hA : -(10 ^ 20) - 1 ≤ startA (p :: t) := by
    unfold startA
    simp only [List.map_cons, reduceOp]
    apply foldl_min_ge
    · exact hmin p (by simp)
    · intro y hy
      obtain ⟨q, hq, rfl⟩ := List.mem_map.mp hy
      exact hmin q (by simp [hq])
  have hB : startB (p :: t) ≤ 10 ^ 20 + 1 := by
    unfold startB
    simp only [List.map_cons, reduceOp]
    apply foldl_max_le
    · exact hmax p (by simp)
    · intro y hy
      obtain ⟨q, hq, rfl⟩ := List.mem_map.mp hy
      exact hmax q (by simp [hq])
  have : (2 : ℝ) * 10 ^ 20 + 2 < 1.0e-8 * 2 ^ 98 := by norm_num
  linarith

/-- C162 (partial): from the number of electrons, with bands that are neither empty nor full, all the processes find the same
Fermi level, whatever the distribution of the states, and it is within 1e-8 Ry of one where the filling from the lowest
state ends.  Missing: empty or full bands (`C162_violated_empty`). -/
theorem C162_fermi_partial (g : GroundInput) (n : ℝ) (hn : g.numOccupied = some n) (hk : 0 < g.numPoints)
    (parts : List Proc) (hne : parts ≠ []) (hlen : (parts.flatMap (·.2)).length = g.numBands * g.numPoints)
    (hE : ∀ e ∈ parts.flatMap (·.2), |e| ≤ 10 ^ 20)
    (h1 : 0 < n / g.spinFactor) (h2 : n / g.spinFactor < g.numBands) :
    ∃ v, runAll 200 (parts.map fun p => fermiProg g true p.1 p.2) = .ok (parts.map fun _ => v) ∧
      ∃ r, |v - r| ≤ 1.0e-8 ∧ IsFermiLevel (parts.flatMap (·.2)) g.numPoints (n / g.spinFactor) r := by
  have hprog : (parts.map fun p => fermiProg g true p.1 p.2) = parts.map fun p =>
      Prog.red .sum (p.2.foldl (· + ·) 0) fun s =>
        findMuProg true p.1 (g.search (n / g.spinFactor) (s / (g.numBands * g.numPoints))) p.2 0 0 := by
    apply List.map_congr_left
    intro p _
    simp [fermiProg, hn]
  rw [show (200 : Nat) = 195 + 4 + 1 from rfl, hprog, runAll_red _ _ hne]
  generalize reduceOp .sum (parts.map fun p => p.2.foldl (· + ·) 0) / (g.numBands * g.numPoints : ℝ) = guess
  have he : (g.search (n / g.spinFactor) guess).electrons 0 = n / g.spinFactor := by
    simp [SearchData.electrons, GroundInput.search]
  have b1 : 0 < (g.search (n / g.spinFactor) guess).electrons 0 := by rw [he]; exact h1
  have b2 : (g.search (n / g.spinFactor) guess).electrons 0 < (g.search (n / g.spinFactor) guess).numBands := by
    rw [he]; exact h2
  obtain ⟨hA, hB, v, hv, hr⟩ := bisect_fermi (g.search (n / g.spinFactor) guess) parts g.numPoints g.numBands hk rfl rfl
    hlen hne b1 b2 (start_width parts hne hE)
  refine ⟨v, ?_, ?_⟩
  · rw [findMu_zero _ _ hne b1 b2, hA, hB, if_neg (by decide)]
    exact bisect_runs _ _ _ _ parts hne maxIter 195 _ _ v (by decide) hv
  · rw [he] at hr; exact hr

/-- The same when every process has all the states and none are exchanged. -/
theorem C162_fermi_copies_partial (g : GroundInput) (n : ℝ) (hn : g.numOccupied = some n) (hk : 0 < g.numPoints)
    (hb : 0 < g.numBands) (states : List ℝ) (hlen : states.length = g.numBands * g.numPoints)
    (hE : ∀ e ∈ states, |e| ≤ 10 ^ 20) (h1 : 0 < n / g.spinFactor) (h2 : n / g.spinFactor < g.numBands) :
    ∃ v, (∀ head, fermiProg g false head states = .ret v) ∧
      ∃ r, |v - r| ≤ 1.0e-8 ∧ IsFermiLevel states g.numPoints (n / g.spinFactor) r := by
  have hs : states ≠ [] := by
    rintro rfl
    simp only [List.length_nil] at hlen
    have := Nat.mul_pos hb hk
    omega
  have hflat : ∀ head : Bool, ([(head, states)] : List Proc).flatMap (·.2) = states := by intro h; simp
  generalize hguess : states.foldl (· + ·) 0 / (g.numBands * g.numPoints : ℝ) = guess
  have he : (g.search (n / g.spinFactor) guess).electrons 0 = n / g.spinFactor := by
    simp [SearchData.electrons, GroundInput.search]
  have b1 : 0 < (g.search (n / g.spinFactor) guess).electrons 0 := by rw [he]; exact h1
  have b2 : (g.search (n / g.spinFactor) guess).electrons 0 < (g.search (n / g.spinFactor) guess).numBands := by
    rw [he]; exact h2
  have key := fun head : Bool => bisect_fermi (g.search (n / g.spinFactor) guess) [(head, states)] g.numPoints
    g.numBands hk rfl rfl (by rw [hflat]; exact hlen) (by simp) b1 b2
    (start_width _ (by simp) (by rw [hflat]; exact hE))
  obtain ⟨hA, hB, v, hv, hr⟩ := key true
  refine ⟨v, ?_, ?_⟩
  · intro head
    have e1 : startA [(head, states)] = startA [(true, states)] := rfl
    have e2 : startB [(head, states)] = startB [(true, states)] := rfl
    rw [hflat] at hA hB hv
    simp only [fermiProg, hn, Bool.false_eq_true, if_false]
    rw [hguess, findMu_alone head _ states hs b1 b2, e1, e2, hA, hB, if_neg (by decide)]
    exact bisectProg_alone _ _ _ _ _ _ _ _ _ hv
  · rw [hflat, he] at hr; exact hr

/-- A gap: if the states up to `ev` are exactly the occupied ones and the next state is `ec`, a Fermi level is in the gap. -/
theorem C162_gap (states : List ℝ) (numPoints : Nat) (filling ev ec r : ℝ) (hv : ev ∈ states)
    (hfill : (statesUpTo states ev : ℝ) = filling * numPoints) (hc : ec ∈ states) (hgap : ev < ec)
    (h : IsFermiLevel states numPoints filling r) : ev ≤ r ∧ r ≤ ec := by
  obtain ⟨h1, h2⟩ := h
  rw [← hfill] at h1 h2
  have h1' : statesBelow states r ≤ statesUpTo states ev := by exact_mod_cast h1
  have h2' : statesUpTo states ev ≤ statesUpTo states r := by exact_mod_cast h2
  constructor
  · by_contra hr
    push Not at hr
    -- `ev` itself is not counted up to `r`
    have : statesUpTo states r < statesUpTo states ev := by
      unfold statesUpTo
      have hs : (states.filter fun e => decide (e ≤ r)).Sublist (states.filter fun e => decide (e ≤ ev)) :=
        List.monotone_filter_right states fun e he => by simp only [decide_eq_true_eq] at he ⊢; linarith
      rcases hs.length_le.lt_or_eq with h | h
      · exact h
      · exfalso
        have := hs.eq_of_length h
        have hm : ev ∈ states.filter fun e => decide (e ≤ r) := by rw [this]; simp [hv]
        simp only [List.mem_filter, decide_eq_true_eq] at hm
        linarith [hm.2]
    omega
  · by_contra hr
    push Not at hr
    have : statesUpTo states ev < statesBelow states r := by
      unfold statesUpTo statesBelow
      have hs : (states.filter fun e => decide (e ≤ ev)).Sublist (states.filter fun e => decide (e < r)) :=
        List.monotone_filter_right states fun e he => by simp only [decide_eq_true_eq] at he ⊢; linarith
      rcases hs.length_le.lt_or_eq with h | h
      · exact h
      · exfalso
        have := hs.eq_of_length h
        have hm : ec ∈ states.filter fun e => decide (e ≤ ev) := by rw [this]; simp [hc, hr]
        simp only [List.mem_filter, decide_eq_true_eq] at hm
        linarith [hm.2]
    omega

/-- The filling from the Fermi level of the input is the number of states below it for each wavevector, on all processes, for
any distribution of the states over processes and over the threads of each; the Fermi level of the input is one for this
filling. -/
theorem C162_level (g : GroundInput) (level : ℝ) (hn : g.numOccupied = none) (hf : g.fermiLevel = some level)
    (hk : 0 < g.numPoints) (shares : List (List (List ℝ))) (hne : shares ≠ []) (states : List ℝ)
    (hs : (shares.flatMap List.flatten).Perm states) :
    runAll 2 (shares.map fun s => occupiedProg g true s) =
      .ok (shares.map fun _ => (statesBelow states level : ℝ) / g.numPoints) ∧
    runAll 1 ((shares.map fun _ => states).map fun s => fermiProg g true true s) = .ok (shares.map fun _ => level) ∧
    IsFermiLevel states g.numPoints ((statesBelow states level : ℝ) / g.numPoints) level := by
  have hnk : (g.numPoints : ℝ) ≠ 0 := by exact_mod_cast hk.ne'
  refine ⟨?_, ?_, ?_⟩
  · have hprog : (shares.map fun s => occupiedProg g true s) = shares.map fun s =>
        Prog.red .sum (sumBelow level s / g.numPoints) fun t => .ret t := by
      apply List.map_congr_left
      intro s _
      simp [occupiedProg, hn, hf]
    rw [hprog, runAll_red _ _ hne, runAll_ret]
    congr 1
    apply List.map_congr_left
    intro s hmem
    rw [← statesBelow_perm hs]
    clear hs hprog hne hmem
    simp only [reduceOp]
    induction shares with
    | nil => simp [statesBelow]
    | cons a t ih =>
      rw [List.map_cons, List.foldr_cons, ih, List.flatMap_cons, statesBelow_append, sumBelow_eq]
      push_cast; ring
  · rw [List.map_map]
    have : ((fun s => fermiProg g true true s) ∘ fun _ : List (List ℝ) => states) = fun _ => .ret level := by
      funext s; simp [fermiProg, hn, hf]
    rw [this, runAll_ret]
  · unfold IsFermiLevel
    rw [div_mul_cancel₀ _ hnk]
    exact ⟨le_rfl, by exact_mod_cast below_le_upTo states level⟩

/-- The same when every process has all the states. -/
theorem C162_level_copies (g : GroundInput) (level : ℝ) (hn : g.numOccupied = none) (hf : g.fermiLevel = some level)
    (shares : List (List ℝ)) (states : List ℝ) (hs : shares.flatten.Perm states) :
    occupiedProg g false shares = .ret ((statesBelow states level : ℝ) / g.numPoints) := by
  simp [occupiedProg, hn, hf, sumBelow_eq, statesBelow_perm hs]

/-- The filling is the number of occupied states written in the input, with and without spin-orbit coupling, if the flag comes
before it in the input file (`C66_violated_spin_orbit`). -/
theorem C162_input (u : UnitTable ℝ) (stod : Str → Outcome ℝ) (g : GroundInput) (val : Str) (x y : ℝ)
    (hx : parseDouble stod val = .ok x) (hy : parseKind u stod g.spinOrbit .occupied val = .ok (.dbl y))
    (hg : g.numOccupied = some y) (distributed : Bool) (shares : List (List ℝ)) :
    occupiedProg g distributed shares = .ret x := by
  simp only [parseKind, hx, Outcome.bind_eq, Outcome.bind_ok, Outcome.ok.injEq, Val.dbl.injEq] at hy
  simp only [occupiedProg, hg, GroundInput.spinFactor]
  rw [← hy]
  cases g.spinOrbit <;> simp

/-- Without a number of electrons and a Fermi level, all the processes stop with an error. -/
theorem C162_neither (g : GroundInput) (hn : g.numOccupied = none) (hf : g.fermiLevel = none) (distributed : Bool)
    (procs : List (List (List ℝ))) (hne : procs ≠ []) :
    runAll 1 (procs.map fun s => occupiedProg g distributed s) = .error := by
  have : (procs.map fun s => occupiedProg g distributed s) = procs.map fun _ => .err := by
    apply List.map_congr_left; intro s _; simp [occupiedProg, hn, hf]
  rw [this, runAll_err _ hne]

/-- The full C162 is violated: without electrons, two processes that have a state each (1 and 2 Ry) find different Fermi
levels; the one of the second is not one of the crystal. -/
theorem C162_violated_empty : ∃ g : GroundInput, g.numOccupied = some 0 ∧
    runAll 200 ([(true, [1]), (false, [2])].map fun p : Proc => fermiProg g true p.1 p.2) = .ok [1, 2] ∧
    ∀ r : ℝ, |2 - r| ≤ 1.0e-8 → ¬ IsFermiLevel [1, 2] g.numPoints 0 r := by
  refine ⟨⟨some 0, none, true, 2, 1, 1, 1⟩, rfl, ?_, ?_⟩
  · have e : ∀ s, ((⟨some 0, none, true, 2, 1, 1, 1⟩ : GroundInput).search
        (0 / (⟨some 0, none, true, 2, 1, 1, 1⟩ : GroundInput).spinFactor) s).electrons 0 = 0 := by
      intro s; simp [SearchData.electrons, GroundInput.search]
    have h : ∀ (head : Bool) (x : ℝ), fermiProg ⟨some 0, none, true, 2, 1, 1, 1⟩ true head [x] =
        .red .sum x fun _ => .ret x := by
      intro head x
      simp only [fermiProg, if_true, List.foldl_cons, List.foldl_nil, zero_add]
      congr 1
      funext s
      unfold findMuProg
      simp only [e]
      simp [GroundInput.search, listMin]
    simp only [List.map_cons, List.map_nil, h]
    simp [runAll, allRet, allRed, allErr]
  · intro r hr h
    have := h.1
    rw [abs_le] at hr
    have h1 : (1 : ℝ) < r := by linarith [hr.1, hr.2]
    simp [statesBelow, h1] at this
    have h0 : (0 : ℝ) ≤ (([2].filter fun e : ℝ => decide (e < r)).length : ℝ) := Nat.cast_nonneg _
    linarith

/-- One electron per wavevector in two bands at two wavevectors, on two processes, without spin-orbit coupling. -/
example : ∃ v, runAll 200 ([(true, [0, 3]), (false, [1, 2])].map fun p : Proc =>
      fermiProg ⟨some 2, none, false, 2, 2, 1, 1⟩ true p.1 p.2) = .ok [v, v] ∧
    ∃ r, |v - r| ≤ 1.0e-8 ∧ IsFermiLevel [0, 3, 1, 2] 2 1 r := by
  obtain ⟨v, h1, h2⟩ := C162_fermi_partial ⟨some 2, none, false, 2, 2, 1, 1⟩ 2 rfl (by norm_num)
    [(true, [0, 3]), (false, [1, 2])] (by simp) (by simp)
    (by
      intro e he
      simp at he
      rcases he with rfl | rfl | rfl | rfl <;> norm_num)
    (by simp [GroundInput.spinFactor]) (by simp [GroundInput.spinFactor])
  refine ⟨v, h1, ?_⟩
  simpa [GroundInput.spinFactor] using h2

/-- Both processes report one of two states below the level. -/
example : runAll 2 ([[[0], [3]], [[1, 2]]].map fun s => occupiedProg ⟨none, some 1.5, false, 2, 2, 1, 1⟩ true s) =
    .ok [1, 1] := by
  have h := (C162_level ⟨none, some 1.5, false, 2, 2, 1, 1⟩ 1.5 rfl rfl (by norm_num) [[[0], [3]], [[1, 2]]] (by simp)
    _ (List.Perm.refl _)).1
  rw [h]
  have : statesBelow [0, 3, 1, 2] 1.5 = 2 := by
    unfold statesBelow
    norm_num [List.filter_cons]
  simp [this]

/-- Four states written in the input, with and without spin-orbit coupling. -/
example (u : UnitTable ℝ) (so : Bool) :
    occupiedProg ⟨some (if so then 4 else 4 * 2), none, so, 8, 2, 1, 1⟩ true [] = .ret 4 :=
  C162_input u (fun _ => .ok 4) _ "4".toList 4 _ rfl rfl rfl true []

end Verif.Props
