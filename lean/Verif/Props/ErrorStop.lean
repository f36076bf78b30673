import Verif.Proofs.ErrorStop
import Mathlib.Data.Nat.Find

/-! # C174: an error ends all processes -/
namespace Verif.Props
open Verif.Model Verif.Spec Verif.Proofs

theorem errorActs_eq : errorActs = [.collective "barrier", .collective "barrier"] ++ [.stop 1] := rfl

theorem barriers : OnlyCollectives [.collective "barrier", .collective "barrier"] :=
  onlyCollectives_cons _ (onlyCollectives_cons _ onlyCollectives_nil)

/-- C174: when the application or its requirements are refused, all processes end with the code of an error, provided that
the sanity check passes. -/
theorem C174_refused_partial (n : Nat) (hn : 0 < n) (s : RunSettings) (hs : inputSanityCheck s ≠ .error)
    (run : List MpiAct) : AllStop n 1 (runProcesses n (mainProgram s false run)) :=
  runProcesses_same n _ _ 1 hn barriers fun r _ => by
    unfold mainProgram
    rw [if_neg (fun h => hs h.2), if_neg (by decide), errorActs_eq]

/-- C174: a run that meets no error ends on all processes with the code of success. -/
theorem C174_success (n : Nat) (hn : 0 < n) (s : RunSettings) (hs : inputSanityCheck s ≠ .error)
    (run : List MpiAct) (hr : OnlyCollectives run) : AllStop n 0 (runProcesses n (mainProgram s true run)) :=
  runProcesses_same n _ (run ++ [.collective "barrier"]) 0 hn
    (onlyCollectives_append hr (onlyCollectives_cons _ onlyCollectives_nil)) fun r _ => by
    unfold mainProgram
    rw [if_neg (fun h => hs h.2), if_pos rfl]
    simp [finalizeActs]

/-- C174: an error met by all processes after the same communications ends them all. -/
theorem C174_common (n : Nat) (hn : 0 < n) (before : List MpiAct) (hb : OnlyCollectives before) :
    AllStop n 1 (runProcesses n fun _ => before ++ errorActs) :=
  runProcesses_same n _ (before ++ [.collective "barrier", .collective "barrier"]) 1 hn
    (onlyCollectives_append hb barriers) fun r _ => by simp [errorActs_eq]

/-- C174: with one process every error ends the run. -/
theorem C174_serial (s : RunSettings) (hs : inputSanityCheck s = .error) (accepted : Bool) (run : List MpiAct) :
    AllStop 1 1 (runProcesses 1 (mainProgram s accepted run)) :=
  runProcesses_same 1 _ _ 1 (by omega) barriers fun r hr => by
    unfold mainProgram
    rw [if_pos ⟨by omega, hs⟩, errorActs_eq]

/-- C174: a missing file of the coupling ends all processes with HDF5; without HDF5, and for a file without the header, when
all processes are in one pool. -/
theorem C174_coupling_partial (n poolSize : Nat) (hn : 0 < n) (hp : n ≤ poolSize) (rest : List MpiAct)
    (isHdf5 hasHeader : Bool) :
    AllStop n 1 (runProcesses n (readCouplingHdf5 poolSize false isHdf5 hasHeader rest)) ∧
    AllStop n 1 (runProcesses n (readCouplingText poolSize false rest)) ∧
    AllStop n 1 (runProcesses n (readCouplingHdf5 poolSize true true false rest)) := by
  have h0 : ∀ r, r < n → r / poolSize = 0 := fun r hr => Nat.div_eq_of_lt (by omega)
  refine ⟨runProcesses_same n _ _ 1 hn barriers fun r _ => ?_, runProcesses_same n _ _ 1 hn barriers fun r hr => ?_,
    runProcesses_same n _ (.collective "bcast" :: [.collective "barrier", .collective "barrier"]) 1 hn
      (onlyCollectives_cons _ barriers) fun r hr => ?_⟩
  · unfold readCouplingHdf5; rw [if_pos rfl, errorActs_eq]
  · unfold readCouplingText; rw [if_pos ⟨h0 r hr, rfl⟩, errorActs_eq]
  · unfold readCouplingHdf5 readCouplingHeader
    rw [if_neg (by decide), if_neg (by simp), if_pos ⟨h0 r hr, rfl⟩, errorActs_eq]
    rfl

/-- C174: the search of the chemical potential ends on all processes with the error on the bounds, and goes on when it
converges before its last iteration. -/
theorem C174_potential_partial (n : Nat) (hn : 0 < n) (exits : Nat → Bool) (rest : List MpiAct) (code : Int)
    (hr : OnlyCollectives rest) :
    AllStop n 1 (runProcesses n (bisectionProgram false exits rest)) ∧
    ((∃ k, k < 99 ∧ exits k = true) →
      AllStop n code (runProcesses n (bisectionProgram true exits (rest ++ [.stop code])))) := by
  have hpre : ∀ {a : List MpiAct}, OnlyCollectives a → OnlyCollectives (.collective "allReduceMin" ::
      .collective "allReduceMax" :: .collective "allReduceSum" :: .collective "allReduceSum" :: a) := fun h =>
    onlyCollectives_cons _ (onlyCollectives_cons _ (onlyCollectives_cons _ (onlyCollectives_cons _ h)))
  constructor
  · exact runProcesses_same n _ _ 1 hn (hpre barriers) fun r _ => rfl
  · intro hk
    have hd : ∃ k, k < 99 ∧ exits k = true ∧ ∀ i, i < k → exits i = false := by
      refine ⟨Nat.find hk, (Nat.find_spec hk).1, (Nat.find_spec hk).2, fun i hi => ?_⟩
      have h1 := Nat.find_min hk hi
      have h2 := (Nat.find_spec hk).1
      cases h : exits i
      · rfl
      · exact absurd ⟨by omega, h⟩ h1
    obtain ⟨k, h1, h2, h3⟩ := hd
    refine runProcesses_same n _ _ code hn
      (hpre (onlyCollectives_append (onlyCollectives_replicate (k + 1) "allReduceSum") hr)) fun r _ => ?_
    unfold bisectionProgram
    rw [if_pos rfl, bisectionLoop_same exits _ 100 0 k (by omega) (fun i hi => by simpa using h3 i hi)
      (by simpa using h2)]
    simp

theorem data_head {p : List MpiAct} (h : StartsWithData p) : p.head? ≠ some (.collective "barrier") := by
  obtain ⟨name, q, rfl, hn⟩ := h
  simpa using hn

/-- C174 violated: the error on solvers and symmetries is met by the head only.  With more than one process, no run ends on
all of them with the error, and the runs that begin by exchanging data wait forever. -/
theorem C174_violated_sanity (n : Nat) (hn : 2 ≤ n) (s : RunSettings) (hs : inputSanityCheck s = .error)
    (run : List MpiAct) (hr : OnlyCollectives run) :
    ¬ AllStop n 1 (runProcesses n (mainProgram s true run)) ∧
    (StartsWithData run → runProcesses n (mainProgram s true run) = .stuck) := by
  have h0 : mainProgram s true run 0 = errorActs := by unfold mainProgram; rw [if_pos ⟨rfl, hs⟩]
  have h1 : mainProgram s true run 1 = run ++ finalizeActs 0 := by
    unfold mainProgram; rw [if_neg (by simp), if_pos rfl]
  constructor
  · intro h
    have := runProcesses_allStop n _ 1 h 1 (by omega)
    rw [h1] at this
    rcases List.mem_append.mp this with h | h
    · obtain ⟨name, h⟩ := hr _ h; cases h
    · simp [finalizeActs] at h
  · intro hd
    refine runProcesses_stuck n _ [] (mainProgram s true run) "barrier" _ 1 (by omega) (by omega) onlyCollectives_nil
      (fun r _ => rfl) h0 ?_
    rw [h1]
    obtain ⟨name, q, rfl, hne⟩ := hd
    simpa using hne

/-- C174 violated: with more than one pool, as in the default of one process per pool, a missing file of the coupling
(without HDF5) or a file without the header makes all processes wait forever, and so does, with more than one process, a
file that is not an HDF5 file. -/
theorem C174_violated_coupling (n poolSize : Nat) (hp : 0 < poolSize) (rest : List MpiAct) :
    (poolSize < n → runProcesses n (readCouplingText poolSize false rest) = .stuck) ∧
    (poolSize < n → runProcesses n (readCouplingHdf5 poolSize true true false rest) = .stuck) ∧
    (2 ≤ n → ∀ hasHeader, runProcesses n (readCouplingHdf5 poolSize true false hasHeader rest) = .stuck) := by
  have e0 : 0 / poolSize = 0 := Nat.zero_div _
  have e1 : poolSize / poolSize ≠ 0 := by rw [Nat.div_self hp]; decide
  refine ⟨fun h => ?_, fun h => ?_, fun h b => ?_⟩
  · refine runProcesses_stuck n _ [] (readCouplingText poolSize false rest) "barrier" (finalizeActs 1) poolSize (by omega) h
      onlyCollectives_nil (fun r _ => rfl) ?_ ?_
    · unfold readCouplingText; rw [if_pos ⟨e0, rfl⟩]; rfl
    · unfold readCouplingText; rw [if_neg (fun h => e1 h.1)]; simp [List.replicate]
  · refine runProcesses_stuck n _ [.collective "bcast"] (readCouplingHeader poolSize false rest) "barrier" (finalizeActs 1)
      poolSize (by omega) h (onlyCollectives_cons _ onlyCollectives_nil) (fun r _ => ?_) ?_ ?_
    · unfold readCouplingHdf5; rw [if_neg (by decide), if_neg (by simp)]; rfl
    · unfold readCouplingHeader; rw [if_pos ⟨e0, rfl⟩]; rfl
    · unfold readCouplingHeader; rw [if_neg (fun h => e1 h.1)]; simp [List.replicate]
  · refine runProcesses_stuck n _ [] (readCouplingHdf5 poolSize true false b rest) "barrier" (finalizeActs 1) 1 (by omega) h
      onlyCollectives_nil (fun r _ => rfl) ?_ ?_
    · unfold readCouplingHdf5; rw [if_neg (by decide), if_pos ⟨rfl, rfl⟩]; rfl
    · unfold readCouplingHdf5; rw [if_neg (by decide), if_neg (by simp)]; simp

/-- C174 violated: with more than one process, a missing file of Quantum ESPRESSO, and a file of the EPA coupling that cannot
be written, make all processes wait forever. -/
theorem C174_violated_files (n : Nat) (hn : 2 ≤ n) (rest : List MpiAct) :
    runProcesses n (readHeaderProgram false rest) = .stuck ∧ runProcesses n (writeEpaProgram false) = .stuck := by
  constructor
  · refine runProcesses_stuck n _ [] (readHeaderProgram false rest) "barrier" (finalizeActs 1) 1 (by omega) hn
      onlyCollectives_nil (fun r _ => rfl) rfl ?_
    unfold readHeaderProgram; rw [if_neg (by simp)]; simp [List.replicate]
  · refine runProcesses_stuck n _ [.collective "barrier"]
      (fun r => if r = 0 then finalizeActs 1 else [.stop 0]) "barrier" [.stop 1] 1 (by omega) hn
      (onlyCollectives_cons _ onlyCollectives_nil) (fun r _ => ?_) rfl ?_
    · unfold writeEpaProgram
      by_cases hr : r = 0
      · rw [if_pos ⟨hr, rfl⟩, if_pos hr]; rfl
      · rw [if_neg (fun h => hr h.1), if_neg hr]; rfl
    · simp

/-- C174 violated: with more than one process and distributed bands, a search of the chemical potential that does not
converge makes all processes wait forever. -/
theorem C174_violated_potential (n : Nat) (hn : 2 ≤ n) (exits : Nat → Bool) (hx : ∀ k, k < 99 → exits k = false)
    (rest : List MpiAct) : runProcesses n (bisectionProgram true exits rest) = .stuck := by
  refine runProcesses_stuck n _ ([.collective "allReduceMin", .collective "allReduceMax", .collective "allReduceSum",
      .collective "allReduceSum"] ++ List.replicate 99 (.collective "allReduceSum"))
    (fun r => if r = 0 then errorActs else
      .collective "allReduceSum" :: rest) "barrier" (finalizeActs 1) 1 (by omega) hn
    (onlyCollectives_append (onlyCollectives_cons _ (onlyCollectives_cons _ (onlyCollectives_cons _
      (onlyCollectives_cons _ onlyCollectives_nil)))) (onlyCollectives_replicate _ _)) (fun r _ => ?_) rfl ?_
  · unfold bisectionProgram
    rw [if_pos rfl, bisectionLoop_last exits rest 99 0 (fun i hi => by simpa using hx i hi) r]
    simp only [List.cons_append, List.nil_append]
  · simp

/-- Two processes with an error on both end, with an error on the head only wait. -/
example : runProcesses 2 (fun _ => .collective "bcast" :: errorActs) = .finished [1, 1] := by decide
example : runProcesses 2 (readCouplingText 2 false []) = .finished [1, 1] := by decide
example : runProcesses 2 (readCouplingText 1 false []) = .stuck := by decide
/-- A convergence at the fourth iteration. -/
example : runProcesses 3 (bisectionProgram true (fun k => k == 3) (finalizeActs 0)) = .finished [0, 0, 0] := by
  decide +kernel
/-- The relaxons with symmetries are refused by the sanity check. -/
example (s : RunSettings) (h : s.solvers = ["relaxons"]) (hs : s.useSymmetries = true) : inputSanityCheck s = .error := by
  unfold inputSanityCheck
  rw [h, hs]
  decide

end Verif.Props
