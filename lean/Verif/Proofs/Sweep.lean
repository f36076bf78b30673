import Verif.Model.Sweep
import Verif.Proofs.Bands
import Verif.Proofs.Particle
import Mathlib.Topology.Order.IntermediateValue
import Mathlib.Tactic.FieldSimp
import Mathlib.Analysis.SpecialFunctions.Exp

namespace Verif.Model

/-! ## Tables -/

theorem writeAll_seq {α : Type} (l buf : List α) (h : buf.length = l.length) (ws : List (Nat × α))
    (h1 : ws.map (·.1) = List.range l.length) (h2 : ws.map (·.2) = l) : writeAll ws buf = .ok l := by
  obtain ⟨buf', e1, e2, e3, -⟩ := writeAll_spec ws buf (by
    intro w hw
    have : w.1 ∈ ws.map (·.1) := List.mem_map_of_mem hw
    rw [h1, List.mem_range] at this
    omega) (by rw [h1]; exact List.nodup_range)
  rw [e1]
  congr 1
  apply List.ext_getElem?
  intro i
  by_cases hi : i < l.length
  · have hlw : ws.length = l.length := by
      have := congrArg List.length h1; simpa using this
    have hi' : i < ws.length := by omega
    have hw := e3 ws[i] (List.getElem_mem hi')
    have i1 : (ws[i]).1 = i := by
      have : (ws.map (·.1))[i]? = (List.range l.length)[i]? := by rw [h1]
      rw [List.getElem?_map, List.getElem?_eq_getElem hi', List.getElem?_range hi] at this
      simpa using this
    have i2 : l[i]? = some (ws[i]).2 := by
      have : (ws.map (·.2))[i]? = l[i]? := by rw [h2]
      rw [List.getElem?_map, List.getElem?_eq_getElem hi'] at this
      exact this.symm
    rw [i1] at hw
    rw [hw, i2]
  · rw [List.getElem?_eq_none (by omega), List.getElem?_eq_none (by omega)]

theorem flatMap_index (nT n : Nat) :
    ((List.range nT).flatMap fun it => (List.range n).map fun j => it * n + j) = List.range (nT * n) := by
  induction nT with
  | zero => simp
  | succ k ih =>
    rw [List.range_succ, List.flatMap_append, ih, Nat.succ_mul, List.range_add]
    simp

theorem fillCalcTable_val (nTemp n : Nat) (row : Nat → Nat → CalcRow) (hsz : (nTemp : Int) * n ≤ intMax + 1) :
    fillCalcTable (nTemp * n) nTemp n row =
      .ok ((List.range nTemp).flatMap fun it => (List.range n).map fun j => row it j) := by
  unfold fillCalcTable
  rw [mapOutcome_ok (g := fun p : Nat × Nat => (p.1 * n + p.2, row p.1 p.2))]
  · simp only [Outcome.bind_eq, Outcome.bind_ok]
    apply writeAll_seq
    · simp [List.length_flatMap]
    · rw [List.map_map, List.map_flatMap]
      have : ((List.range nTemp).flatMap fun it => (List.range n).map fun j => row it j).length = nTemp * n := by
        simp [List.length_flatMap]
      rw [this, ← flatMap_index]
      simp [Function.comp_def]
    · rw [List.map_map, List.map_flatMap]
      simp [Function.comp_def]
  · intro p hp
    simp only [List.mem_flatMap, List.mem_map, List.mem_range] at hp
    obtain ⟨it, hit, j, hj, rfl⟩ := hp
    simp only
    rw [compress2_val (by omega) (by omega) (by omega) (by omega) hsz]
    simp only [Outcome.bind_eq, Outcome.bind_ok]
    have : (it : Int) * n + j = ((it * n + j : Nat) : Int) := by push_cast; ring
    rw [this, Int.toNat_natCast]

theorem flatMap_range_getD {α β : Type} (l : List α) (d : α) (f : α → List β) :
    ((List.range l.length).flatMap fun i => f (l.getD i d)) = l.flatMap f := by
  have : l = (List.range l.length).map fun i => l.getD i d := by
    apply List.ext_getElem?
    intro i
    by_cases hi : i < l.length
    · simp [hi]
    · rw [List.getElem?_eq_none (by omega), List.getElem?_eq_none (by simpa using hi)]
  conv_rhs => rw [this]
  rw [List.flatMap_map]

theorem map_range_getD {α β : Type} (l : List α) (d : α) (f : α → β) :
    ((List.range l.length).map fun i => f (l.getD i d)) = l.map f := by
  have := flatMap_range_getD l d (fun a => [f a])
  rw [← List.map_eq_flatMap, ← List.map_eq_flatMap] at this
  exact this

/-! ## Collective execution -/

theorem allRet_map {ι : Type} (l : List ι) (g : ι → ℝ) : allRet (l.map fun i => .ret (g i)) = some (l.map g) := by
  induction l with
  | nil => rfl
  | cons a t ih => simp [allRet, ih]

theorem allRed_map {ι : Type} (op : RedOp) (l : List ι) (x : ι → ℝ) (k : ι → ℝ → Prog) :
    allRed op (l.map fun i => .red op (x i) (k i)) = some (l.map fun i => (x i, k i)) := by
  induction l with
  | nil => rfl
  | cons a t ih => simp [allRed, ih]

theorem runAll_ret {ι : Type} (l : List ι) (g : ι → ℝ) (fuel : Nat) :
    runAll (fuel + 1) (l.map fun i => .ret (g i)) = .ok (l.map g) := by
  unfold runAll
  rw [allRet_map]

theorem runAll_red {ι : Type} (op : RedOp) (l : List ι) (hl : l ≠ []) (x : ι → ℝ) (k : ι → ℝ → Prog) (fuel : Nat) :
    runAll (fuel + 1) (l.map fun i => .red op (x i) (k i)) =
      runAll fuel (l.map fun i => k i (reduceOp op (l.map x))) := by
  obtain ⟨a, t, rfl⟩ := List.exists_cons_of_ne_nil hl
  have h := allRed_map op (a :: t) x k
  conv_lhs => unfold runAll
  simp only [List.map_cons] at h
  simp only [List.map_cons, allRet, allErr]
  rw [h]
  simp [Function.comp_def]

theorem runAll_err {ι : Type} (l : List ι) (hl : l ≠ []) (fuel : Nat) :
    runAll (fuel + 1) (l.map fun _ => .err) = .error := by
  obtain ⟨a, t, rfl⟩ := List.exists_cons_of_ne_nil hl
  have h : ∀ t : List ι, allErr (t.map fun _ => .err) = true := by
    intro t; induction t with
    | nil => rfl
    | cons a t ih => simpa [allErr] using ih
  unfold runAll
  simp only [List.map_cons, allRet]
  have := h (a :: t)
  simp only [List.map_cons] at this
  rw [this]
  rfl

theorem allRet_err (ps : List Prog) (h : Prog.err ∈ ps) : allRet ps = none := by
  induction ps with
  | nil => simp at h
  | cons p t ih =>
    cases p with
    | ret v =>
      simp only [List.mem_cons, reduceCtorEq, false_or] at h
      simp [allRet, ih h]
    | err => rfl
    | red op x k => rfl

theorem allRed_err (op : RedOp) (ps : List Prog) (h : Prog.err ∈ ps) : allRed op ps = none := by
  induction ps with
  | nil => simp at h
  | cons p t ih =>
    cases p with
    | ret v => rfl
    | err => rfl
    | red op' x k =>
      simp only [List.mem_cons, reduceCtorEq, false_or] at h
      simp [allRed, ih h]

theorem runAll_err_mem (fuel : Nat) (ps : List Prog) (h : Prog.err ∈ ps) (vs : List ℝ) : runAll fuel ps ≠ .ok vs := by
  cases fuel with
  | zero => simp [runAll]
  | succ fuel =>
    unfold runAll
    rw [allRet_err ps h]
    simp only
    split
    · simp
    · split
      · rw [allRed_err _ _ h]; simp
      · simp

/-! ## Bisection -/

/-- The bisection on a function, with `none` when the iterations are used up. -/
noncomputable def bisectPure (f : ℝ → ℝ) (sA : Int) : Nat → ℝ → ℝ → Option ℝ
  | 0, _, _ => none
  | rem + 1, a, b =>
    if rem = 0 then none
    else
      let c := (a + b) / 2
      if f c = 0 ∨ |b - a| < 1.0e-8 then some c
      else if sgn (f c) = sA then bisectPure f sA rem c b
      else bisectPure f sA rem a c

theorem bisectPure_spec (f : ℝ → ℝ) (sA : Int) (rem : Nat) (a b v : ℝ) (hab : a ≤ b) (ha : sgn (f a) = sA)
    (hb : sgn (f b) ≠ sA) (h : bisectPure f sA rem a b = some v) :
    ∃ a' b', a ≤ a' ∧ a' ≤ v ∧ v ≤ b' ∧ b' ≤ b ∧ sgn (f a') = sA ∧ sgn (f b') ≠ sA ∧
      (f v = 0 ∨ b' - a' < 1.0e-8) := by
  induction rem generalizing a b with
  | zero => simp [bisectPure] at h
  | succ rem ih =>
    unfold bisectPure at h
    split at h
    · simp at h
    · simp only at h
      split at h
      · rename_i hc
        obtain rfl : (a + b) / 2 = v := by simpa using h
        refine ⟨a, b, le_rfl, by linarith, by linarith, le_rfl, ha, hb, ?_⟩
        rcases hc with hc | hc
        · exact Or.inl hc
        · rw [abs_of_nonneg (by linarith)] at hc; exact Or.inr hc
      · split at h
        · rename_i hs
          obtain ⟨a', b', h1, h2, h3, h4, h5⟩ := ih _ _ (by linarith) hs hb h
          exact ⟨a', b', by linarith, h2, h3, h4, h5⟩
        · rename_i hs
          obtain ⟨a', b', h1, h2, h3, h4, h5⟩ := ih _ _ (by linarith) ha hs h
          exact ⟨a', b', h1, h2, h3, by linarith, h5⟩

theorem bisectPure_some (f : ℝ → ℝ) (sA : Int) (rem : Nat) (a b : ℝ) (hab : a ≤ b)
    (hw : b - a < 1.0e-8 * 2 ^ rem) : ∃ v, bisectPure f sA (rem + 2) a b = some v := by
  induction rem generalizing a b with
  | zero =>
    refine ⟨(a + b) / 2, ?_⟩
    unfold bisectPure
    rw [if_neg (by decide)]
    simp only
    rw [if_pos (Or.inr (by rw [abs_of_nonneg (by linarith)]; simpa using hw))]
  | succ rem ih =>
    unfold bisectPure
    rw [if_neg (by omega)]
    simp only
    rw [pow_succ] at hw
    split
    · exact ⟨_, rfl⟩
    · split
      · exact ih _ _ (by linarith) (by linarith)
      · exact ih _ _ (by linarith) (by linarith)

theorem sgn_pos_iff {x : ℝ} : sgn x = 1 ↔ 0 < x := by
  unfold sgn
  constructor
  · intro h
    by_contra hx
    rw [if_neg hx] at h
    split at h <;> omega
  · intro h; rw [if_pos h, if_neg (by linarith)]; rfl

theorem sgn_neg_iff {x : ℝ} : sgn x = -1 ↔ x < 0 := by
  unfold sgn
  constructor
  · intro h
    by_contra hx
    rw [if_neg hx] at h
    split at h <;> omega
  · intro h; rw [if_neg (by linarith), if_pos h]; rfl

theorem sgn_zero_iff {x : ℝ} : sgn x = 0 ↔ x = 0 := by
  unfold sgn
  constructor
  · intro h
    rcases lt_trichotomy x 0 with hx | hx | hx
    · rw [if_neg (by linarith), if_pos hx] at h; omega
    · exact hx
    · rw [if_pos hx, if_neg (by linarith)] at h; omega
  · rintro rfl; simp

/-- A continuous function with different signs at the ends of an interval has a zero in it. -/
theorem root_of_sgn (f : ℝ → ℝ) (hf : Continuous f) (a b : ℝ) (hab : a ≤ b) (h : sgn (f b) ≠ sgn (f a)) :
    ∃ r, a ≤ r ∧ r ≤ b ∧ f r = 0 := by
  rcases lt_trichotomy (f a) 0 with ha | ha | ha
  · rcases lt_trichotomy (f b) 0 with hb | hb | hb
    · exact absurd ((sgn_neg_iff.mpr hb).trans (sgn_neg_iff.mpr ha).symm) h
    · exact ⟨b, hab, le_rfl, hb⟩
    · obtain ⟨r, hr, h0⟩ := intermediate_value_Icc hab hf.continuousOn ⟨ha.le, hb.le⟩
      exact ⟨r, hr.1, hr.2, h0⟩
  · exact ⟨a, le_rfl, hab, ha⟩
  · rcases lt_trichotomy (f b) 0 with hb | hb | hb
    · obtain ⟨r, hr, h0⟩ := intermediate_value_Icc' hab hf.continuousOn ⟨hb.le, ha.le⟩
      exact ⟨r, hr.1, hr.2, h0⟩
    · exact ⟨b, hab, le_rfl, hb⟩
    · exact absurd ((sgn_pos_iff.mpr hb).trans (sgn_pos_iff.mpr ha).symm) h

/-- Electron count missing at chemical potential `mu`, for the states of all processes. -/
noncomputable def missing (c : SearchData) (n : ℝ) (states : List ℝ) (T mu : ℝ) : ℝ :=
  n - popSum states T mu / c.numPoints

theorem popSum_continuous (states : List ℝ) (T : ℝ) (hT : 0 < T) : Continuous fun mu => popSum states T mu := by
  unfold popSum
  have : (fun mu => (states.map fun e => getPopulation .fermi e T mu).sum) =
      fun mu => (states.map fun e => 1 / (Real.exp ((e - mu) / T) + 1)).sum := by
    funext mu
    congr 1
    apply List.map_congr_left
    intro e _
    exact getPopulation_fermi hT
  rw [this]
  induction states with
  | nil => simpa using continuous_const
  | cons e t ih =>
    simp only [List.map_cons, List.sum_cons]
    apply Continuous.add _ (ih (by
      funext mu
      congr 1
      apply List.map_congr_left
      intro e _
      exact getPopulation_fermi hT))
    apply Continuous.div continuous_const
    · fun_prop
    · intro mu; have := Real.exp_pos ((e - mu) / T); positivity

theorem missing_continuous (c : SearchData) (n : ℝ) (states : List ℝ) (T : ℝ) (hT : 0 < T) :
    Continuous fun mu => missing c n states T mu := by
  unfold missing
  exact continuous_const.sub ((popSum_continuous states T hT).div_const _)

theorem reduce_sum_parts {ι : Type} (parts : List ι) (st : ι → List ℝ) (T mu : ℝ) :
    reduceOp .sum (parts.map fun p => popSum (st p) T mu) = popSum (parts.flatMap st) T mu := by
  unfold reduceOp
  simp only
  induction parts with
  | nil => rfl
  | cons p t ih =>
    rw [List.map_cons, List.foldr_cons, ih]
    simp [popSum, List.sum_append]

/-- Processes as pairs: whether it is the head, and its states. -/
abbrev Proc := Bool × List ℝ

theorem bisect_run (c : SearchData) (n T : ℝ) (sA : Int) (parts : List Proc) (hne : parts ≠ [])
    (hhead : ∃ p ∈ parts, p.1 = true) (rem fuel : Nat) (a b : ℝ) (vs : List ℝ) (hr : 0 < rem)
    (h : runAll fuel (parts.map fun p => bisectProg true p.1 c n p.2 T sA rem a b) = .ok vs) :
    ∃ v, bisectPure (missing c n (parts.flatMap (·.2)) T) sA rem a b = some v ∧ vs = parts.map fun _ => v := by
  induction rem generalizing a b fuel with
  | zero => omega
  | succ rem ih =>
    cases fuel with
    | zero => simp [runAll] at h
    | succ fuel =>
      by_cases hrem : rem = 0
      · exfalso
        obtain ⟨p, hp, hp1⟩ := hhead
        refine runAll_err_mem _ _ ?_ _ h
        refine List.mem_map.mpr ⟨p, hp, ?_⟩
        unfold bisectProg
        rw [if_pos (by simp [hp1, hrem])]
      · have hprog : (parts.map fun p => bisectProg true p.1 c n p.2 T sA (rem + 1) a b) =
            parts.map fun p => Prog.red .sum (popSum p.2 T ((a + b) / 2)) fun s =>
              (fun cY => if cY = 0 ∨ |b - a| < 1.0e-8 then Prog.ret ((a + b) / 2)
                else if sgn cY = sA then bisectProg true p.1 c n p.2 T sA rem ((a + b) / 2) b
                else bisectProg true p.1 c n p.2 T sA rem a ((a + b) / 2)) (n - s / c.numPoints) := by
          apply List.map_congr_left
          intro p _
          conv_lhs => unfold bisectProg
          rw [if_neg (by simp [hrem])]
          simp [fPopProg]
        rw [hprog, runAll_red _ _ hne, reduce_sum_parts] at h
        unfold bisectPure
        rw [if_neg hrem]
        simp only at h ⊢
        have hm : missing c n (parts.flatMap (·.2)) T ((a + b) / 2) =
            n - popSum (parts.flatMap (·.2)) T ((a + b) / 2) / c.numPoints := rfl
        rw [hm]
        by_cases h1 : n - popSum (parts.flatMap (·.2)) T ((a + b) / 2) / c.numPoints = 0 ∨ |b - a| < 1.0e-8
        · simp only [if_pos h1] at h ⊢
          cases fuel with
          | zero => simp [runAll] at h
          | succ fuel =>
            rw [runAll_ret] at h
            exact ⟨_, rfl, by injection h with h; exact h.symm⟩
        · simp only [if_neg h1] at h ⊢
          by_cases h2 : sgn (n - popSum (parts.flatMap (·.2)) T ((a + b) / 2) / c.numPoints) = sA
          · simp only [if_pos h2] at h ⊢
            exact ih _ _ _ (by omega) h
          · simp only [if_neg h2] at h ⊢
            exact ih _ _ _ (by omega) h

theorem bisect_runs (c : SearchData) (n T : ℝ) (sA : Int) (parts : List Proc) (hne : parts ≠ [])
    (rem fuel : Nat) (a b v : ℝ) (hf : rem < fuel)
    (h : bisectPure (missing c n (parts.flatMap (·.2)) T) sA rem a b = some v) :
    runAll fuel (parts.map fun p => bisectProg true p.1 c n p.2 T sA rem a b) = .ok (parts.map fun _ => v) := by
  induction rem generalizing a b fuel with
  | zero => simp [bisectPure] at h
  | succ rem ih =>
    obtain ⟨fuel, rfl⟩ : ∃ k, fuel = k + 1 := ⟨fuel - 1, by omega⟩
    unfold bisectPure at h
    by_cases hrem : rem = 0
    · rw [if_pos hrem] at h; simp at h
    · rw [if_neg hrem] at h
      have hprog : (parts.map fun p => bisectProg true p.1 c n p.2 T sA (rem + 1) a b) =
          parts.map fun p => Prog.red .sum (popSum p.2 T ((a + b) / 2)) fun s =>
            (fun cY => if cY = 0 ∨ |b - a| < 1.0e-8 then Prog.ret ((a + b) / 2)
              else if sgn cY = sA then bisectProg true p.1 c n p.2 T sA rem ((a + b) / 2) b
              else bisectProg true p.1 c n p.2 T sA rem a ((a + b) / 2)) (n - s / c.numPoints) := by
        apply List.map_congr_left
        intro p _
        conv_lhs => unfold bisectProg
        rw [if_neg (by simp [hrem])]
        simp [fPopProg]
      rw [hprog, runAll_red _ _ hne, reduce_sum_parts]
      simp only at h ⊢
      have hm : missing c n (parts.flatMap (·.2)) T ((a + b) / 2) =
          n - popSum (parts.flatMap (·.2)) T ((a + b) / 2) / c.numPoints := rfl
      rw [hm] at h
      by_cases h1 : n - popSum (parts.flatMap (·.2)) T ((a + b) / 2) / c.numPoints = 0 ∨ |b - a| < 1.0e-8
      · simp only [if_pos h1] at h ⊢
        obtain ⟨fuel, rfl⟩ : ∃ k, fuel = k + 1 := ⟨fuel - 1, by omega⟩
        rw [runAll_ret]
        congr 1
        injection h with h
        rw [h]
      · simp only [if_neg h1] at h ⊢
        by_cases h2 : sgn (n - popSum (parts.flatMap (·.2)) T ((a + b) / 2) / c.numPoints) = sA
        · simp only [if_pos h2] at h ⊢
          exact ih _ _ _ (by omega) h
        · simp only [if_neg h2] at h ⊢
          exact ih _ _ _ (by omega) h

theorem foldl_min_le (xs : List ℝ) (x : ℝ) : xs.foldl min x ≤ x ∧ ∀ y ∈ xs, xs.foldl min x ≤ y := by
  induction xs generalizing x with
  | nil => simp
  | cons y t ih =>
    have h := ih (min x y)
    simp only [List.foldl_cons, List.mem_cons]
    refine ⟨h.1.trans (min_le_left _ _), ?_⟩
    rintro z (rfl | hz)
    · exact h.1.trans (min_le_right _ _)
    · exact h.2 z hz

theorem le_foldl_max (xs : List ℝ) (x : ℝ) : x ≤ xs.foldl max x ∧ ∀ y ∈ xs, y ≤ xs.foldl max x := by
  induction xs generalizing x with
  | nil => simp
  | cons y t ih =>
    have h := ih (max x y)
    simp only [List.foldl_cons, List.mem_cons]
    refine ⟨(le_max_left _ _).trans h.1, ?_⟩
    rintro z (rfl | hz)
    · exact (le_max_right _ _).trans h.1
    · exact h.2 z hz

theorem reduce_min_le (xs : List ℝ) (x : ℝ) (h : x ∈ xs) : reduceOp .min xs ≤ x := by
  cases xs with
  | nil => simp at h
  | cons y t =>
    simp only [reduceOp]
    rcases List.mem_cons.mp h with rfl | h
    · exact (foldl_min_le t _).1
    · exact (foldl_min_le t _).2 x h

theorem le_reduce_max (xs : List ℝ) (x : ℝ) (h : x ∈ xs) : x ≤ reduceOp .max xs := by
  cases xs with
  | nil => simp at h
  | cons y t =>
    simp only [reduceOp]
    rcases List.mem_cons.mp h with rfl | h
    · exact (le_foldl_max t _).1
    · exact (le_foldl_max t _).2 x h

theorem listMin_le_listMax (l : List ℝ) : listMin l ≤ listMax l := by
  cases l with
  | nil => simp [listMin, listMax]
  | cons x t => exact (foldl_min_le t x).1.trans (le_foldl_max t x).1

end Verif.Model
