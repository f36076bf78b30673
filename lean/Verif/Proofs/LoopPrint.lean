import Verif.Model.LoopPrint
import Verif.Proofs.Utilities
import Verif.Proofs.Bands
import Mathlib.Tactic.Linarith
import Mathlib.Tactic.Ring
import Mathlib.Data.Nat.ModEq

/-! Lemmas on progress reports. -/
namespace Verif.Model

/-- Steps with a report. -/
def reports (N re s : Nat) : Bool :=
  decide (s = 0) || decide (s = 2) || decide (s + 1 = N) || decide ((s + 1) % re = 0)

def loopState (N re n : Nat) : LoopPrint := ⟨true, N, re, (n : Int) - 1, Nat.log 10 N + 1⟩

theorem crem_nat (a b : Nat) (hb : 0 < b) (ha : (a : Int) ≤ intMax) : crem (a : Int) (b : Int) = .ok ((a % b : Nat) : Int) := by
  unfold crem
  have e1 : (a : Int).tdiv (b : Int) = ((a / b : Nat) : Int) := by
    rw [Int.tdiv_eq_ediv_of_nonneg (by positivity)]; push_cast; rfl
  have e2 : (a : Int).tmod (b : Int) = ((a % b : Nat) : Int) := by
    rw [Int.tmod_eq_emod_of_nonneg (by positivity)]; push_cast; rfl
  have g1 : ((a / b : Nat) : Int) ≤ a := by exact_mod_cast Nat.div_le_self a b
  have g2 : (0 : Int) ≤ ((a / b : Nat) : Int) := Int.natCast_nonneg _
  have g3 : ((a % b : Nat) : Int) ≤ a := by exact_mod_cast Nat.mod_le a b
  have g4 : (0 : Int) ≤ ((a % b : Nat) : Int) := Int.natCast_nonneg _
  rw [e1, e2, if_neg (by omega)]
  generalize ((a / b : Nat) : Int) = x at *
  generalize ((a % b : Nat) : Int) = y at *
  unfold intMax at ha
  rw [if_neg (by unfold intMin intMax; omega)]
  exact i32_ok (by unfold intMin; omega) (by unfold intMax; omega)

theorem update_val (N re n : Nat) (hN : (N : Int) ≤ intMax) (hre : 0 < re) (hn : n < N) :
    (loopState N re n).update = .ok (loopState N re (n + 1),
      if reports N re n then some ⟨((n : Int) + 1) * 100 / N, (n : Int) + 1⟩ else none) := by
  have hN' := hN
  unfold intMax at hN'
  have e1 : cadd ((n : Int) - 1) 1 = .ok (n : Int) := by
    rw [cadd_ok (by unfold intMin; omega) (by unfold intMax; omega)]; congr 1; omega
  have e2 : cadd (n : Int) 1 = .ok ((n : Int) + 1) := cadd_ok (by unfold intMin; omega) (by unfold intMax; omega)
  have e3 : csub (N : Int) 1 = .ok ((N : Int) - 1) := csub_ok (by unfold intMin; omega) (by unfold intMax; omega)
  have e4 : crem ((n : Int) + 1) (re : Int) = .ok (((n + 1) % re : Nat) : Int) := by
    have := crem_nat (n + 1) re hre (by unfold intMax; push_cast; omega)
    push_cast at this ⊢; exact this
  have hz : ((((n + 1) % re : Nat) : Int) = 0) ↔ (n + 1) % re = 0 := by exact_mod_cast Iff.rfl
  have hr : reports N re n = true ↔
      ((n : Int) = 0 ∨ (n : Int) = 2 ∨ (n : Int) = (N : Int) - 1) ∨ (((n + 1) % re : Nat) : Int) = 0 := by
    unfold reports
    simp only [Bool.or_eq_true, decide_eq_true_eq, hz]
    omega
  generalize hx : (((n + 1) % re : Nat) : Int) = x at *
  have hfin : (⟨true, (N : Int), (re : Int), (n : Int), Nat.log 10 N + 1⟩ : LoopPrint) = loopState N re (n + 1) := by
    unfold loopState
    simp
  unfold LoopPrint.update
  have f1 : (loopState N re n).head = true := rfl
  have f2 : (loopState N re n).currentStep = (n : Int) - 1 := rfl
  have f3 : (loopState N re n).numSteps = (N : Int) := rfl
  have f4 : (loopState N re n).reportEvery = (re : Int) := rfl
  have f5 : (loopState N re n).stepDigits = Nat.log 10 N + 1 := rfl
  simp only [f1, f2, f3, f4, f5, if_true, Outcome.bind_eq]
  rw [e1, Outcome.bind_ok, e2, Outcome.bind_ok, e3, Outcome.bind_ok]
  simp only [hfin, e4, Outcome.bind_ok]
  by_cases hrep : reports N re n = true
  · rw [if_pos hrep]
    have hrep' := hr.mp hrep
    have ho : (if (n : Int) ≤ 2 then Outcome.ok true
        else Outcome.ok (decide (x = 0) || decide ((n : Int) = (N : Int) - 1))) = Outcome.ok true := by
      split
      · rfl
      · next h1 =>
        refine congrArg Outcome.ok ?_
        simp only [Bool.or_eq_true, decide_eq_true_eq]
        rcases hrep' with (h | h | h) | h
        · omega
        · omega
        · exact Or.inr h
        · exact Or.inl h
    have hi : (if (n : Int) = 0 ∨ (n : Int) = 2 ∨ (n : Int) = (N : Int) - 1 then Outcome.ok true
        else Outcome.ok (decide (x = 0))) = Outcome.ok true := by
      split
      · rfl
      · next h1 =>
        refine congrArg Outcome.ok ?_
        rw [decide_eq_true_eq]
        exact hrep'.resolve_left h1
    simp only [ho, hi, Outcome.bind_ok, if_true]
  · rw [if_neg hrep]
    have h1 : ¬ ((n : Int) = 0 ∨ (n : Int) = 2 ∨ (n : Int) = (N : Int) - 1) := fun h => hrep (hr.mpr (Or.inl h))
    have h2 : ¬ x = 0 := fun h => hrep (hr.mpr (Or.inr h))
    simp only [if_neg h1, decide_eq_false h2, Outcome.bind_ok, Bool.false_eq_true, if_false]
    have : ∀ o : Outcome Bool, (o = .ok true ∨ o = .ok false) →
        (o.bind fun outer => if outer = true then Outcome.ok (loopState N re (n + 1), (none : Option ReportLine))
          else Outcome.ok (loopState N re (n + 1), none)) = Outcome.ok (loopState N re (n + 1), none) := by
      rintro o (rfl | rfl) <;> rfl
    apply this
    split
    · exact Or.inl rfl
    · cases decide ((n : Int) = (N : Int) - 1)
      · exact Or.inr rfl
      · exact Or.inl rfl

theorem run_val (N re : Nat) (hN : (N : Int) ≤ intMax) (hre : 0 < re) (n : Nat) (hn : n ≤ N) :
    (loopState N re 0).run n = .ok (loopState N re n, ((List.range n).filter (reports N re)).map
      fun s : Nat => (⟨((s : Int) + 1) * 100 / N, (s : Int) + 1⟩ : ReportLine)) := by
  induction n with
  | zero => rfl
  | succ n ih =>
    simp only [LoopPrint.run, Outcome.bind_eq]
    rw [ih (by omega), Outcome.bind_ok]
    simp only
    rw [update_val N re n hN hre (by omega), Outcome.bind_ok]
    rw [List.range_succ, List.filter_append, List.map_append]
    by_cases h : reports N re n
    · simp [h]
    · simp [h]

theorem count_multiples (re : Nat) (hre : 0 < re) (n : Nat) :
    ((List.range n).filter fun s => decide ((s + 1) % re = 0)).length = n / re := by
  induction n with
  | zero => simp
  | succ n ih =>
    rw [List.range_succ, List.filter_append, List.length_append, ih, Nat.succ_div]
    by_cases h : (n + 1) % re = 0
    · rw [if_pos (Nat.dvd_of_mod_eq_zero h)]; simp [h]
    · rw [if_neg (fun hd => h (Nat.mod_eq_zero_of_dvd hd))]; simp [h]

theorem filter_or_le {α : Type} (l : List α) (p q : α → Bool) :
    (l.filter fun a => p a || q a).length ≤ (l.filter p).length + (l.filter q).length := by
  induction l with
  | nil => simp
  | cons a l ih =>
    simp only [List.filter_cons]
    cases p a <;> cases q a <;> simp <;> omega

theorem filter_eq_le_one (n k : Nat) : ((List.range n).filter fun s => decide (s = k)).length ≤ 1 := by
  induction n with
  | zero => simp
  | succ n ih =>
    rw [List.range_succ, List.filter_append, List.length_append]
    by_cases h : n = k
    · have : ((List.range n).filter fun s => decide (s = k)) = [] := by
        rw [List.filter_eq_nil_iff]
        intro a ha
        rw [List.mem_range] at ha
        simp; omega
      rw [this]; simp [h]
    · simpa [h] using ih

theorem filter_last_le_one (n N : Nat) : ((List.range n).filter fun s => decide (s + 1 = N)).length ≤ 1 := by
  cases N with
  | zero => simp
  | succ N =>
    simp only [Nat.add_right_cancel_iff]
    exact filter_eq_le_one n N

/-- At most nineteen reports. -/
theorem reports_le (N re : Nat) (hre : re = if N < 10 then 1 else N / 10) :
    ((List.range N).filter (reports N re)).length ≤ 19 := by
  by_cases h : N < 20
  · exact le_trans (List.length_filter_le _ _) (by rw [List.length_range]; omega)
  · rw [if_neg (by omega)] at hre
    have h1 : 0 < re := by omega
    have e : (List.range N).filter (reports N re) = (List.range N).filter fun s =>
        (((decide (s = 0) || decide (s = 2)) || decide (s + 1 = N)) || decide ((s + 1) % re = 0)) := rfl
    rw [e]
    have a1 := filter_or_le (List.range N) (fun s => ((decide (s = 0) || decide (s = 2)) || decide (s + 1 = N)))
      (fun s => decide ((s + 1) % re = 0))
    have a2 := filter_or_le (List.range N) (fun s => (decide (s = 0) || decide (s = 2))) (fun s => decide (s + 1 = N))
    have a3 := filter_or_le (List.range N) (fun s => decide (s = 0)) (fun s => decide (s = 2))
    have b1 := filter_eq_le_one N 0
    have b2 := filter_eq_le_one N 2
    have b3 := filter_last_le_one N N
    rw [count_multiples re h1] at a1
    have h2 : N / re < 15 := by
      rw [Nat.div_lt_iff_lt_mul h1]
      omega
    omega

end Verif.Model
