import Verif.Proofs.LoopPrint

/-!
# C71, C72, C84: progress reports, applications, command line
-/
namespace Verif.Props
open Verif.Model

/-- **C71** (missing: loops of zero steps, see `C71_violated_zero`).  On the process that prints, a loop of `N ≥ 1`
steps can be reported on from its first to its last step without undefined operations; at most nineteen lines are
printed, whatever the number of steps; the first line is for step 1, the last line says that `N` steps, 100 per cent,
are done; the steps shown grow from line to line, the percentages lie between 0 and 100 and do not decrease. -/
theorem C71_lines_partial (N : Nat) (h1 : 1 ≤ N) (hN : (N : Int) ≤ intMax) :
    ∃ p q lines, LoopPrint.make true N = .ok p ∧ p.run N = .ok (q, lines) ∧ lines.length ≤ 19 ∧
      (∃ a, lines.head? = some a ∧ a.step = 1) ∧ lines.getLast? = some ⟨100, N⟩ ∧
      lines.Pairwise (fun a b => a.step < b.step ∧ a.percentage ≤ b.percentage) ∧
      ∀ a ∈ lines, 0 ≤ a.percentage ∧ a.percentage ≤ 100 ∧ 1 ≤ a.step ∧ a.step ≤ N := by
  obtain ⟨re, hre⟩ : ∃ re, re = if N < 10 then 1 else N / 10 := ⟨_, rfl⟩
  have hpos : 0 < re := by rw [hre]; split <;> omega
  have hmake : LoopPrint.make true N = .ok (loopState N re 0) := by
    unfold LoopPrint.make loopState
    simp only [if_true, Outcome.bind_eq]
    have e : (if (N : Int) < 10 then Outcome.ok 1 else cdiv (N : Int) 10) = .ok (re : Int) := by
      rw [hre]
      by_cases h : N < 10
      · rw [if_pos (by exact_mod_cast h), if_pos h]; rfl
      · rw [if_neg (by omega), if_neg h]
        have g := Nat.div_le_self N 10
        unfold cdiv
        rw [if_neg (by norm_num)]
        have e' : (N : Int).tdiv 10 = ((N / 10 : Nat) : Int) := by
          rw [Int.tdiv_eq_ediv_of_nonneg (by positivity)]; push_cast; rfl
        rw [e']
        unfold intMax at hN
        exact i32_ok (by unfold intMin; omega) (by unfold intMax; omega)
    rw [e, Outcome.bind_ok, if_neg (by omega)]
    simp
  refine ⟨_, _, _, hmake, run_val N re hN hpos N le_rfl, ?_, ?_, ?_, ?_, ?_⟩
  · rw [List.length_map]
    exact reports_le N re hre
  · obtain ⟨M, rfl⟩ := Nat.exists_eq_succ_of_ne_zero (by omega : N ≠ 0)
    rw [List.range_succ_eq_map, List.filter_cons, if_pos (by simp [reports])]
    exact ⟨_, rfl, by simp⟩
  · obtain ⟨M, rfl⟩ := Nat.exists_eq_succ_of_ne_zero (by omega : N ≠ 0)
    rw [List.range_succ, List.filter_append, List.map_append]
    have : [M].filter (reports (M + 1) re) = [M] := by simp [reports]
    rw [this, List.map_singleton, List.getLast?_append]
    simp only [List.getLast?_singleton, Option.some_or]
    have e : ((M : Int) + 1) * 100 / ((M.succ : Nat) : Int) = 100 := by
      push_cast
      exact Int.mul_ediv_cancel_left _ (by omega)
    rw [e]; push_cast; rfl
  · rw [List.pairwise_map]
    refine List.Pairwise.imp ?_ (List.Pairwise.filter _ List.pairwise_lt_range)
    intro a b hab
    refine ⟨by simp only; omega, ?_⟩
    exact Int.ediv_le_ediv (by omega) (by omega)
  · intro a ha
    obtain ⟨s, hs, rfl⟩ := List.mem_map.mp ha
    have hs' := List.mem_range.mp (List.mem_of_mem_filter hs)
    refine ⟨Int.ediv_nonneg (by omega) (by omega), ?_, by simp only; omega, by simp only; omega⟩
    exact Int.ediv_le_of_le_mul (by omega) (by omega)

/-- The other processes print nothing. -/
theorem C71_others (N : Int) (n : Nat) :
    ∃ p, LoopPrint.make false N = .ok p ∧ p.run n = .ok (p, []) := by
  refine ⟨_, rfl, ?_⟩
  induction n with
  | zero => rfl
  | succ n ih => simp only [LoopPrint.run, Outcome.bind_eq]; rw [ih]; rfl

/-- Nineteen lines are reached, with nineteen steps; one hundred steps give twelve lines. -/
example : (do let p ← LoopPrint.make true 19; let r ← p.run 19; Outcome.ok r.2.length) = .ok 19 := by decide +kernel
example : (do let p ← LoopPrint.make true 100; let r ← p.run 100; Outcome.ok (r.2.map ReportLine.step)) =
    .ok [1, 3, 10, 20, 30, 40, 50, 60, 70, 80, 90, 100] := by decide +kernel

/-- **C71 is violated** by a loop of zero steps (for instance a process pool with no wavevectors): the number of digits
`int(log10(0)) + 1` is an undefined conversion. -/
theorem C71_violated_zero : LoopPrint.make true 0 = .ub := by decide

/-- **C72.**  Every name in the list of choices (the one shown in the error message) gets an application, different
names get different applications; every other name stops with an error.  In particular no name gives a null pointer. -/
theorem C72_dispatch (name : String) :
    (name ∈ appChoices → ∃ app, loadApp name = .ok (some app)) ∧ (name ∉ appChoices → loadApp name = .error) := by
  constructor
  · intro h
    have : ∀ c ∈ appChoices, ∃ app, loadApp c = .ok (some app) := by
      intro c hc
      have : (∃ app, loadApp c = .ok (some app)) ↔ (loadApp c).toOption.join.isSome = true := by
        cases h : loadApp c with
        | ok a => cases a <;> simp [Outcome.toOption]
        | error => simp [Outcome.toOption]
        | ub => simp [Outcome.toOption]
        | diverge => simp [Outcome.toOption]
      rw [this]
      clear this
      revert c
      decide +kernel
    exact this name h
  · intro h
    unfold loadApp
    rw [if_pos h]

/-- The application belongs to the name: no two names give the same one. -/
theorem C72_injective (a b : String) (ha : a ∈ appChoices) (hb : b ∈ appChoices) (h : loadApp a = loadApp b) : a = b := by
  have : ∀ a ∈ appChoices, ∀ b ∈ appChoices, loadApp a = loadApp b → a = b := by decide +kernel
  exact this a ha b hb h

/-- The name is that of the class. -/
theorem C72_names : appChoices.map loadApp = [.phononTransport, .phononDos, .electronWannierDos, .electronFourierDos,
    .phononBands, .electronWannierBands, .electronFourierBands, .electronWannierTransport, .elPhQeToPhoebe,
    .elPhCouplingPlot, .electronLifetimes, .phononLifetimes, .transportEpa, .phononElectronLifetimes].map
      fun a => Outcome.ok (some a) := by decide +kernel

example : loadApp "phononTransport" = .ok (some .phononTransport) ∧ loadApp "phonontransport" = .error := by
  decide +kernel

/-! ## C84 -/

theorem getCmdOption_eq (pre rest : List String) (option value : String) (h : option ∉ pre) :
    getCmdOption (pre ++ option :: value :: rest) option = some value := by
  induction pre with
  | nil => simp [getCmdOption]
  | cons a pre ih =>
    rw [List.cons_append, getCmdOption, if_neg (fun e => h (by simp [e]))]
    exact ih fun hm => h (List.mem_cons_of_mem _ hm)

theorem getCmdOption_none (argv : List String) (option : String) (h : option ∉ argv) :
    getCmdOption argv option = none := by
  induction argv with
  | nil => rfl
  | cons a argv ih =>
    rw [getCmdOption, if_neg (fun e => h (by simp [e]))]
    exact ih fun hm => h (List.mem_cons_of_mem _ hm)

/-- **C84** (missing: the output file, see `C84_violated_output`).  The file read is the one named after the first
`-in`, whatever comes before and after it; a command line without `-in`, or whose last word is `-in`, or naming a file
that cannot be opened, stops with an error; without `-out` the output goes to the screen. -/
theorem C84_input_partial (readable : String → Bool) (pre rest : List String) (file : String) (h : "-in" ∉ pre) :
    (readable file = true → ∃ s, makeIO readable (pre ++ "-in" :: file :: rest) = .ok (file, s) ∧
        ("-out" ∉ pre ++ "-in" :: file :: rest → s = .screen)) ∧
      (readable file = false → makeIO readable (pre ++ "-in" :: file :: rest) = .error) ∧
      makeIO readable pre = .error ∧ makeIO readable (pre ++ ["-in"]) = .error := by
  have e := getCmdOption_eq pre rest "-in" file h
  refine ⟨?_, ?_, ?_, ?_⟩
  · intro hr
    unfold makeIO
    rw [e]
    simp only [hr, if_true]
    cases ho : getCmdOption (pre ++ "-in" :: file :: rest) "-out" with
    | none => exact ⟨_, rfl, fun _ => rfl⟩
    | some o =>
      refine ⟨_, rfl, fun hn => ?_⟩
      rw [getCmdOption_none _ _ hn] at ho
      exact absurd ho (by simp)
  · intro hr
    unfold makeIO
    rw [e]
    simp [hr]
  · unfold makeIO
    rw [getCmdOption_none _ _ h]
  · unfold makeIO
    have : getCmdOption (pre ++ ["-in"]) "-in" = none := by
      clear e
      induction pre with
      | nil => simp [getCmdOption]
      | cons a pre ih =>
        rw [List.cons_append, getCmdOption, if_neg (fun e => h (by simp [e]))]
        exact ih fun hm => h (List.mem_cons_of_mem _ hm)
    rw [this]

/-- **C84 is violated**: an output file never receives the output; the stream is put back immediately. -/
theorem C84_violated_output (readable : String → Bool) (argv : List String) (r : String × Sink)
    (h : makeIO readable argv = .ok r) : r.2 = .screen := by
  unfold makeIO at h
  cases hi : getCmdOption argv "-in" with
  | none => rw [hi] at h; simp at h
  | some f =>
    rw [hi] at h
    simp only at h
    split at h
    · cases ho : getCmdOption argv "-out" with
      | none => rw [ho] at h; simp only [Outcome.ok.injEq] at h; rw [← h]
      | some o =>
        rw [ho] at h
        simp only [List.foldl, Outcome.ok.injEq] at h
        rw [← h]
    · simp at h

example : makeIO (fun f => f == "a.in") ["phoebe", "-in", "a.in", "-out", "a.out"] = .ok ("a.in", .screen) := by decide

end Verif.Props
