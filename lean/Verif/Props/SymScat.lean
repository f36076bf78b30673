import Verif.Model.SymScat
import Verif.Proofs.ScatMatrix
import Mathlib.Tactic.NormNum

/-! # C119: symmetries do not change the action of the scattering matrix -/
namespace Verif.Props
open Verif.Model

/-- A vector on the full mesh with the symmetry of the crystal: its value at a state is the rotated value at the
irreducible partner. -/
def Symmetric {α : Type} [Semiring α] (r : Reduction α) (red full : Nat → Nat → α) : Prop :=
  ∀ i s, i < 3 → full i s = r.rotInv s i 0 * red 0 (r.bte s) + r.rotInv s i 1 * red 1 (r.bte s) +
    r.rotInv s i 2 * red 2 (r.bte s)

/-- Irreducible states are their own partners, with the identity as rotation. -/
structure GoodReduction {α : Type} [Semiring α] (r : Reduction α) (n N : Nat) : Prop where
  inverse : ∀ b, b < n → r.bte (r.state b) = b
  lt : ∀ b, b < n → r.state b < N
  self : ∀ b, b < n → ∀ i j, i < 3 → j < 3 → r.rotInv (r.state b) i j = if i = j then 1 else 0

/-- Partial C119: the product with symmetries at an irreducible state is the product without symmetries, for every
vector with the symmetry of the crystal and every distribution of the processes, if no scattering process connects an
irreducible state with another state of its own star.  Missing: such processes, see `C119_violated`. -/
theorem C119_product_partial {α : Type} [CommRing α] (r : Reduction α) (n N : Nat) (hr : GoodReduction r n N)
    (boundary : Nat → α) (procs : List (Process α)) (full irr : List (List (Process α)))
    (hfull : full.flatten.Perm procs) (hirr : irr.flatten.Perm (irrProcesses r procs))
    (hstar : ∀ t ∈ procs, t.s1 = r.state (r.bte t.s2) → t.s2 = t.s1)
    (red inp : Nat → Nat → α) (hsym : Symmetric r red inp) :
    ∀ f ∈ buildProduct n [] (fun b => boundary (r.state b)) (irr.map fun l => l.map (irrEvent r)) red,
    ∀ g ∈ buildProduct N [] boundary (full.map fun l => l.map fullEvent) inp,
    ∀ i b, i < 3 → b < n → f i b = g i (r.state b) := by
  have p1 : (irr.map fun l => l.map (irrEvent r)).flatten.Perm ((irrProcesses r procs).map (irrEvent r)) := by
    have : (irr.map fun l => l.map (irrEvent r)).flatten = irr.flatten.map (irrEvent r) := by rw [List.map_flatten]
    rw [this]; exact hirr.map _
  have p2 : (full.map fun l => l.map (fullEvent (α := α))).flatten.Perm (procs.map fullEvent) := by
    have : (full.map fun l => l.map (fullEvent (α := α))).flatten = full.flatten.map fullEvent := by
      rw [List.map_flatten]
    rw [this]; exact hfull.map _
  intro f hf g hg i b hi hb
  rw [(buildProduct_val n [] _ _ _ p1 red).2 f hf i b hi hb,
    (buildProduct_val N [] _ _ _ p2 inp).2 g hg i _ hi (hr.lt b hb), if_neg List.not_mem_nil, if_neg List.not_mem_nil]
  have hself : inp i (r.state b) = red i b := by
    rw [hsym i _ hi, hr.inverse b hb, hr.self b hb i 0 hi (by norm_num), hr.self b hb i 1 hi (by norm_num),
      hr.self b hb i 2 hi (by norm_num)]
    obtain rfl | rfl | rfl : i = 0 ∨ i = 1 ∨ i = 2 := by omega
    all_goals simp
  rw [hself]
  congr 1
  rw [List.filter_map, List.filter_map, List.map_map, List.map_map]
  unfold irrProcesses
  rw [List.filter_filter]
  have hfilter : procs.filter (fun t => ((fun e : ScatEvent α => decide (e.bte1 = b)) ∘ irrEvent r) t &&
      decide (t.s1 = r.state (r.bte t.s1))) =
      procs.filter ((fun e : ScatEvent α => decide (e.bte1 = r.state b)) ∘ fullEvent) := by
    apply List.filter_congr
    intro t _
    show (decide (r.bte t.s1 = b) && decide (t.s1 = r.state (r.bte t.s1))) = decide (t.s1 = r.state b)
    rw [← Bool.decide_and, decide_eq_decide]
    constructor
    · rintro ⟨h1, h2⟩; rw [h2, h1]
    · intro h; rw [h, hr.inverse b hb]; exact ⟨rfl, rfl⟩
  rw [hfilter]
  congr 1
  apply List.map_congr_left
  intro t ht
  have hm := List.mem_of_mem_filter ht
  simp only [Function.comp]
  congr 1
  show (if t.s1 ≠ r.state (r.bte t.s2) then t.rateOff * (r.rotInv t.s2 i 0 * red 0 (r.bte t.s2) +
      r.rotInv t.s2 i 1 * red 1 (r.bte t.s2) + r.rotInv t.s2 i 2 * red 2 (r.bte t.s2)) else 0) =
    if t.s1 ≠ t.s2 then t.rateOff * ((if i = 0 then 1 else 0) * inp 0 t.s2 + (if i = 1 then 1 else 0) * inp 1 t.s2 +
      (if i = 2 then 1 else 0) * inp 2 t.s2) else 0
  rw [← hsym i t.s2 hi]
  have hid : (if i = 0 then (1 : α) else 0) * inp 0 t.s2 + (if i = 1 then 1 else 0) * inp 1 t.s2 +
      (if i = 2 then 1 else 0) * inp 2 t.s2 = inp i t.s2 := by
    obtain rfl | rfl | rfl : i = 0 ∨ i = 1 ∨ i = 2 := by omega
    all_goals simp
  rw [hid]
  by_cases h : t.s1 = t.s2
  · have hs1 : t.s1 = r.state b := by
      have h := List.of_mem_filter ht
      change decide (t.s1 = r.state b) = true at h
      exact of_decide_eq_true h
    have : t.s1 = r.state (r.bte t.s2) := by rw [← h, hs1, hr.inverse b hb]
    rw [if_neg (not_not.mpr this), if_neg (not_not.mpr h)]
  · have : ¬ t.s1 = r.state (r.bte t.s2) := fun h' => h (hstar t hm h').symm
    rw [if_pos this, if_pos h]

/-- Linewidths of the irreducible states do not depend on symmetries (before the average over degenerate states). -/
theorem C119_linewidths (r : Reduction ℝ) (n N : Nat) (hr : GoodReduction r n N) (boundary : Nat → ℝ)
    (procs : List (Process ℝ)) (full irr : List (List (Process ℝ))) (hfull : full.flatten.Perm procs)
    (hirr : irr.flatten.Perm (irrProcesses r procs)) :
    ∀ f ∈ buildLinewidths [] (fun b => boundary (r.state b)) [] (irr.map fun l => l.map (irrEvent r)),
    ∀ g ∈ buildLinewidths [] boundary [] (full.map fun l => l.map fullEvent), ∀ b, b < n → f b = g (r.state b) := by
  have val : ∀ (bd : Nat → ℝ) (E : List (ScatEvent ℝ)) (events : List (List (ScatEvent ℝ))), events.flatten.Perm E →
      ∀ f ∈ buildLinewidths [] bd [] events, ∀ b,
        f b = ((E.filter fun e => e.bte1 = b).map fun e => e.rate).sum + bd b := by
    intro bd E events hE f hf b
    unfold buildLinewidths at hf
    obtain ⟨lw, hlw, rfl⟩ := List.mem_map.mp hf
    simp only [finishLinewidth, List.not_mem_nil, if_false]
    congr 1
    show lw b = _
    rw [mem_allReduceSum1 _ _ hlw, List.map_map, ← ((hE.filter (fun e => decide (e.bte1 = b))).map _).sum_eq]
    have key : ∀ (l : List (ScatEvent ℝ)) (acc : Nat → ℝ), l.foldl (fun lw e => addAt lw e.bte1 e.rate) acc b =
        acc b + ((l.filter fun e => e.bte1 = b).map fun e => e.rate).sum := by
      intro l
      induction l with
      | nil => intro acc; simp
      | cons e t ih =>
        intro acc
        rw [List.foldl_cons, ih, addAt_val]
        by_cases hb : e.bte1 = b
        · rw [List.filter_cons_of_pos (by simpa using hb), List.map_cons, List.sum_cons, ← add_assoc]
          simp [hb]
        · rw [List.filter_cons_of_neg (by simpa using hb)]
          simp [Ne.symm hb]
    clear hE hlw hf
    induction events with
    | nil => rfl
    | cons evs t ih =>
      rw [List.map_cons, List.sum_cons, ih, List.flatten_cons, List.filter_append, List.map_append, List.sum_append]
      congr 1
      simp only [Function.comp]
      rw [key]; simp
  have p1 : (irr.map fun l => l.map (irrEvent r)).flatten.Perm ((irrProcesses r procs).map (irrEvent r)) := by
    have : (irr.map fun l => l.map (irrEvent r)).flatten = irr.flatten.map (irrEvent r) := by rw [List.map_flatten]
    rw [this]; exact hirr.map _
  have p2 : (full.map fun l => l.map (fullEvent (α := ℝ))).flatten.Perm (procs.map fullEvent) := by
    have : (full.map fun l => l.map (fullEvent (α := ℝ))).flatten = full.flatten.map fullEvent := by
      rw [List.map_flatten]
    rw [this]; exact hfull.map _
  intro f hf g hg b hb
  rw [val _ _ _ p1 f hf b, val _ _ _ p2 g hg (r.state b)]
  congr 1
  rw [List.filter_map, List.filter_map, List.map_map, List.map_map]
  unfold irrProcesses
  rw [List.filter_filter]
  have hfilter : procs.filter (fun t => ((fun e : ScatEvent ℝ => decide (e.bte1 = b)) ∘ irrEvent r) t &&
      decide (t.s1 = r.state (r.bte t.s1))) =
      procs.filter ((fun e : ScatEvent ℝ => decide (e.bte1 = r.state b)) ∘ fullEvent) := by
    apply List.filter_congr
    intro t _
    show (decide (r.bte t.s1 = b) && decide (t.s1 = r.state (r.bte t.s1))) = decide (t.s1 = r.state b)
    rw [← Bool.decide_and, decide_eq_decide]
    constructor
    · rintro ⟨h1, h2⟩; rw [h2, h1]
    · intro h; rw [h, hr.inverse b hb]; exact ⟨rfl, rfl⟩
  rw [hfilter]
  rfl

/-- Two wavevectors `k` and `-k` related by inversion, and a state of another star. -/
def exReduction : Reduction ℤ :=
  ⟨fun s => if s = 2 then 1 else if s < 2 then 0 else s, fun b => if b = 1 then 2 else 0,
    fun s i j => if i = j then (if s = 1 then -1 else 1) else 0⟩

theorem exReduction_good : GoodReduction exReduction 2 3 := by
  refine ⟨?_, ?_, ?_⟩
  · intro b hb
    obtain rfl | rfl : b = 0 ∨ b = 1 := by omega
    all_goals decide
  · intro b hb
    obtain rfl | rfl : b = 0 ∨ b = 1 := by omega
    all_goals decide
  · intro b hb i j _ _
    obtain rfl | rfl : b = 0 ∨ b = 1 := by omega
    all_goals simp [exReduction]

/-- The hypotheses of `C119_product_partial` hold with scattering between different stars, and the product is not
zero. -/
example : (∀ t ∈ [(⟨0, 2, 1, -1⟩ : Process ℤ), ⟨2, 0, 1, -1⟩, ⟨2, 1, 1, -1⟩],
      t.s1 = exReduction.state (exReduction.bte t.s2) → t.s2 = t.s1) ∧
    ((buildProduct 2 [] (fun _ => 0) [[irrEvent exReduction ⟨0, 2, 1, -1⟩, irrEvent exReduction ⟨2, 0, 1, -1⟩,
      irrEvent exReduction ⟨2, 1, 1, -1⟩]] (fun i b => if i = 0 ∧ b = 0 then 1 else 0)).map fun f => f 0 0) = [1] := by
  constructor
  · intro t ht
    simp only [List.mem_cons, List.not_mem_nil, or_false] at ht
    rcases ht with rfl | rfl | rfl <;> decide
  · decide

/-- The full C119 is violated: scattering from `k` to `-k` is in the linewidth, but its effect on the current is
lost with symmetries, because states of the same star are taken for the same state.  Without symmetries the product is
twice as large. -/
theorem C119_violated :
    Symmetric exReduction (fun i b => if i = 0 ∧ b = 0 then 1 else 0)
      (fun i s => if i = 0 then (if s = 0 then 1 else if s = 1 then -1 else 0) else 0) ∧
    (buildProduct 2 [] (fun _ => 0) [(irrProcesses exReduction [⟨0, 1, 1, -1⟩, ⟨1, 0, 1, -1⟩]).map (irrEvent exReduction)]
      (fun i b => if i = 0 ∧ b = 0 then 1 else 0)).map (fun f => f 0 0) = [(1 : ℤ)] ∧
    (buildProduct 3 [] (fun _ => 0) [[(⟨0, 1, 1, -1⟩ : Process ℤ), ⟨1, 0, 1, -1⟩].map fullEvent]
      (fun i s => if i = 0 then (if s = 0 then 1 else if s = 1 then -1 else 0) else 0)).map (fun f => f 0 0) =
        [(2 : ℤ)] := by
  refine ⟨?_, by decide, by decide⟩
  intro i s hi
  obtain rfl | rfl | rfl : i = 0 ∨ i = 1 ∨ i = 2 := by omega
  · by_cases h0 : s = 0
    · subst h0; decide
    · by_cases h1 : s = 1
      · subst h1; decide
      · by_cases h2 : s = 2
        · subst h2; decide
        · simp [exReduction, h0, h1, h2]; omega
  · simp [exReduction]
  · simp [exReduction]

end Verif.Props
