import Verif.Proofs.LinewidthSplit
import Verif.Props.Points
import Mathlib.Tactic.NormNum
import Mathlib.Algebra.Order.Ring.Rat

/-!
# C57: Normal and Umklapp parts of phonon linewidths.  C74: excluded final states

Specification.  A process is Umklapp when folding the sum (difference) of its wavevectors, both taken in the
Wigner-Seitz cell, moves it (`crosses`).  `parts` lists the contributions of a process to the linewidth of its first
state, each with its label.  `weightOf label` is the sum of the contributions with this label over all processes of
all MPI processes, leaving out the processes between excluded states.
-/
namespace Verif.Props
open Verif.Model

variable {α : Type} [Field α] [LinearOrder α]

/-- Nonzero reciprocal lattice vectors are longer than `10⁻⁶` (true of any crystal, in atomic units). -/
def LongLattice (B : M3) : Prop :=
  ∀ g : V3 Int, g ≠ ⟨0, 0, 0⟩ → (B.mulVec g.cast).norm2 > eps6 * eps6

/-- Folding into the Wigner-Seitz cell moves the wavevector. -/
def crosses (B : M3) (q : V3 Rat) : Bool := decide (bzToWs B q ≠ q)

def vplus (a b : V3 Rat) : V3 Rat := ⟨a.x + b.x, a.y + b.y, a.z + b.z⟩
def vminus (a b : V3 Rat) : V3 Rat := ⟨a.x - b.x, a.y - b.y, a.z - b.z⟩

def firstState : PhProcess α → Nat
  | .plus i _ _ _ _ => i
  | .minus i _ _ _ _ _ => i
  | .isotope i _ _ _ _ => i

def secondState : PhProcess α → Nat
  | .plus _ i _ _ _ => i
  | .minus _ i _ _ _ _ => i
  | .isotope _ i _ _ _ => i

/-- Contributions of a process to the linewidth of its first state, with label Umklapp (`true`) or Normal. -/
def parts (B : M3) : PhProcess α → List (Bool × (Nat → α))
  | .plus _ _ q1 q2 r => [(crosses B (vplus (bzToWs B q1) (bzToWs B q2)), fun c => r c / 2)]
  | .minus _ _ q1 q2 r1 r2 =>
    [(crosses B (vminus (bzToWs B q1) (bzToWs B q2)), fun c => r1 c / 2),
     (crosses B (vminus (bzToWs B q2) (bzToWs B q1)), fun c => r2 c / 2)]
  | .isotope _ _ q1 q2 r => [(crosses B (vplus (bzToWs B q1) (bzToWs B q2)), r)]

/-- The process contributes to state `s`. -/
def Contributes (exclude : List Nat) (p : PhProcess α) (s : Nat) : Prop :=
  firstState p = s ∧ s ∉ exclude ∧ secondState p ∉ exclude

instance (exclude : List Nat) (p : PhProcess α) (s : Nat) : Decidable (Contributes exclude p s) := by
  unfold Contributes; infer_instance

/-- Total contribution with a label of all processes to state `s`. -/
def weightOf (B : M3) (exclude : List Nat) (work : List (List (PhProcess α))) (label : Bool) (c s : Nat) : α :=
  ((work.flatten.filter fun p => Contributes exclude p s).map fun p =>
    (((parts B p).filter fun x => x.1 = label).map fun x => x.2 c).sum).sum

/-- Total contribution of all processes to state `s`. -/
def totalOf (B : M3) (exclude : List Nat) (work : List (List (PhProcess α))) (c s : Nat) : α :=
  ((work.flatten.filter fun p => Contributes exclude p s).map fun p => ((parts B p).map fun x => x.2 c).sum).sum

/-- The label of the code is the one of the specification. -/
theorem C57_label (B : M3) (hB : LongLattice B) (a b : V3 Rat) (plus : Bool) :
    isUmklapp B a b plus =
      crosses B (if plus then vplus (bzToWs B a) (bzToWs B b) else vminus (bzToWs B a) (bzToWs B b)) := by
  unfold isUmklapp crosses
  simp only [show ∀ u v : V3 Rat, vplus u v = u.add v from fun _ _ => rfl,
    show ∀ u v : V3 Rat, (⟨u.x - v.x, u.y - v.y, u.z - v.z⟩ : V3 Rat) = vminus u v from fun _ _ => rfl]
  generalize (if plus = true then (bzToWs B a).add (bzToWs B b) else vminus (bzToWs B a) (bzToWs B b)) = q
  rw [decide_eq_decide]
  obtain ⟨g, hg⟩ := C16_wigner_seitz_equivalent B q
  constructor
  · intro h he
    rw [he] at h
    have : (B.mulVec (vminus q q)).norm2 = 0 := by
      simp [vminus, M3.mulVec, V3.dot, V3.norm2]
    rw [this] at h
    unfold eps6 at h
    norm_num at h
  · intro h
    have hd : vminus q (bzToWs B q) = V3.cast ⟨-g.x, -g.y, -g.z⟩ := by
      rw [hg]
      simp only [vminus, translate, V3.cast, V3.mk.injEq]
      push_cast
      refine ⟨by ring, by ring, by ring⟩
    rw [hd]
    apply hB
    intro h0
    apply h
    simp only [V3.mk.injEq, neg_eq_zero] at h0
    rw [hg]
    obtain ⟨h1, h2, h3⟩ := h0
    simp [translate, h1, h2, h3]

/-- One process adds its contributions with their labels. -/
private theorem addProcess_spec (B : M3) (hB : LongLattice B) (ex : List Nat) (w : Linewidths α) (p : PhProcess α)
    (c s : Nat) :
    ((addProcess B ex w p).total c s = w.total c s +
      if Contributes ex p s then ((parts B p).map fun x => x.2 c).sum else 0) ∧
    ∀ label, (addProcess B ex w p).part label c s = w.part label c s +
      if Contributes ex p s then (((parts B p).filter fun x => x.1 = label).map fun x => x.2 c).sum else 0 := by
  have key : ∀ i1 i2 : Nat, firstState p = i1 → secondState p = i2 → ∀ w' : Linewidths α,
      addProcess B ex w p = (if i1 ∈ ex then w else if i2 ∈ ex then w else w') →
      (w'.total c s = w.total c s + if s = i1 then ((parts B p).map fun x => x.2 c).sum else 0) →
      (∀ label, w'.part label c s = w.part label c s +
        if s = i1 then (((parts B p).filter fun x => x.1 = label).map fun x => x.2 c).sum else 0) →
      ((addProcess B ex w p).total c s = w.total c s +
        if Contributes ex p s then ((parts B p).map fun x => x.2 c).sum else 0) ∧
      ∀ label, (addProcess B ex w p).part label c s = w.part label c s +
        if Contributes ex p s then (((parts B p).filter fun x => x.1 = label).map fun x => x.2 c).sum else 0 := by
    intro i1 i2 h1 h2 w' hw ht hp
    rw [hw]
    by_cases e1 : i1 ∈ ex
    · have hn : ¬ Contributes ex p s := by
        rintro ⟨ha, hb, hc⟩; rw [h1] at ha; exact hb (ha ▸ e1)
      simp only [if_pos e1, if_neg hn, add_zero]; exact ⟨trivial, fun _ => trivial⟩
    by_cases e2 : i2 ∈ ex
    · have hn : ¬ Contributes ex p s := by
        rintro ⟨ha, hb, hc⟩; rw [h2] at hc; exact hc e2
      simp only [if_neg e1, if_pos e2, if_neg hn, add_zero]; exact ⟨trivial, fun _ => trivial⟩
    have hiff : Contributes ex p s ↔ s = i1 := by
      unfold Contributes
      rw [h1, h2]
      constructor
      · intro h; exact h.1.symm
      · intro h; exact ⟨h.symm, h ▸ e1, e2⟩
    simp only [if_neg e1, if_neg e2, hiff]
    exact ⟨ht, hp⟩
  cases p with
  | plus i1 i2 q1 q2 r =>
    refine key i1 i2 rfl rfl _ rfl ?_ ?_
    · simp only [addPart_total, addColumn_val]; simp [parts, div_eq_inv_mul]
    · intro label
      rw [addPart_part, part_total, C57_label B hB]
      simp only [parts, if_true]
      generalize crosses B _ = x
      cases x <;> cases label <;> simp [div_eq_inv_mul]
  | minus i1 i2 q1 q2 r1 r2 =>
    refine key i1 i2 rfl rfl _ rfl ?_ ?_
    · simp only [addPart_total, addColumn_val]
      by_cases h : s = i1
      · simp only [parts, h, if_true, List.map_cons, List.map_nil, List.sum_cons, List.sum_nil]; ring
      · simp [h]
    · intro label
      rw [addPart_part, addPart_part, part_total, C57_label B hB, C57_label B hB]
      simp only [parts]
      simp only [Bool.false_eq_true, if_false]
      generalize crosses B _ = x
      generalize crosses B _ = y
      by_cases h : s = i1
      · cases x <;> cases y <;> cases label <;> simp [h, div_eq_inv_mul] <;> ring
      · simp [h]
  | isotope i1 i2 q1 q2 r =>
    refine key i1 i2 rfl rfl _ rfl ?_ ?_
    · simp only [addPart_total, addColumn_val]; simp [parts]
    · intro label
      rw [addPart_part, part_total, C57_label B hB]
      simp only [parts, if_true]
      generalize crosses B _ = x
      cases x <;> cases label <;> simp

private theorem sum_map_ite_filter {β : Type} (l : List β) (P : β → Prop) [DecidablePred P] (f : β → α) :
    (l.map fun x => if P x then f x else 0).sum = ((l.filter fun x => decide (P x)).map f).sum := by
  induction l with
  | nil => rfl
  | cons x t ih =>
    by_cases h : P x
    · rw [List.filter_cons_of_pos (by simpa using h)]; simp [h, ih]
    · rw [List.filter_cons_of_neg (by simpa using h)]; simp [h, ih]

private theorem sum_flatten {β : Type} (ll : List (List β)) (f : β → α) :
    (ll.map fun l => (l.map f).sum).sum = (ll.flatten.map f).sum := by
  induction ll with
  | nil => rfl
  | cons x t ih => simp [ih]

private theorem reduced (B : M3) (ex : List Nat) (work : List (List (PhProcess α))) (rank : Nat)
    (hr : rank < work.length) (obs : Linewidths α → Nat → Nat → α) (v : PhProcess α → Nat → Nat → α)
    (h0 : ∀ c s, obs ⟨fun _ _ => 0, fun _ _ => 0, fun _ _ => 0⟩ c s = 0)
    (P : PhProcess α → Nat → Prop) [∀ p s, Decidable (P p s)]
    (h : ∀ w p c s, obs (addProcess B ex w p) c s = obs w c s + if P p s then v p c s else 0) :
    (fun c s => match (reduceData ((work.map (addProcesses B ex)).map obs) c)[rank]? with
      | some g => g s
      | none => 0) =
    fun c s => ((work.flatten.filter fun p => decide (P p s)).map fun p => v p c s).sum := by
  funext c s
  obtain ⟨g, hg, hs⟩ := reduceData_val ((work.map (addProcesses B ex)).map obs) c rank s (by simpa using hr)
  rw [hg]
  simp only [hs, List.map_map]
  rw [← sum_map_ite_filter, ← sum_flatten]
  congr 1
  apply List.map_congr_left
  intro l _
  simp only [Function.comp_apply, addProcesses]
  rw [foldl_observe (addProcess B ex) (fun w => obs w c s) (fun p => if P p s then v p c s else 0)
    (fun w p => h w p c s), h0, zero_add]

/-- **C57** (parts): every contribution of every process is counted once, in the part given by its label, on every MPI
process and for any division of the processes among them; the parts are then averaged over degenerate states. -/
theorem C57_parts (B : M3) (hB : LongLattice B) (ex : List Nat) (points : List (DegPoint α))
    (boundary : Option (Nat → Nat → α)) (work : List (List (PhProcess α))) (rank : Nat) (hr : rank < work.length) :
    (phLinewidths B ex points boundary work rank).umklapp =
      degeneracyAveraging points (weightOf B ex work true) ∧
    (phLinewidths B ex points boundary work rank).normal =
      degeneracyAveraging points (weightOf B ex work false) := by
  unfold phLinewidths finishLinewidths
  constructor
  · exact congrArg (degeneracyAveraging points) (reduced B ex work rank hr Linewidths.umklapp
      (fun (p : PhProcess α) (c _ : Nat) =>
        (((parts B p).filter fun x : Bool × (Nat → α) => x.1 = true).map fun x : Bool × (Nat → α) => x.2 c).sum) (fun _ _ => rfl)
      (Contributes ex) (fun w p c s => (addProcess_spec B hB ex w p c s).2 true))
  · exact congrArg (degeneracyAveraging points) (reduced B ex work rank hr Linewidths.normal
      (fun (p : PhProcess α) (c _ : Nat) =>
        (((parts B p).filter fun x : Bool × (Nat → α) => x.1 = false).map fun x : Bool × (Nat → α) => x.2 c).sum) (fun _ _ => rfl)
      (Contributes ex) (fun w p c s => (addProcess_spec B hB ex w p c s).2 false))

private theorem weight_sum (B : M3) (ex : List Nat) (work : List (List (PhProcess α))) (c s : Nat) :
    totalOf B ex work c s = weightOf B ex work true c s + weightOf B ex work false c s := by
  unfold totalOf weightOf
  rw [← List.sum_map_add]
  congr 1
  apply List.map_congr_left
  intro p _
  generalize parts B p = l
  induction l with
  | nil => simp
  | cons x t ih =>
    obtain ⟨b, f⟩ := x
    cases b
    · rw [List.filter_cons_of_neg (by simp), List.filter_cons_of_pos (by simp)]
      simp only [List.map_cons, List.sum_cons, ih]; ring
    · rw [List.filter_cons_of_pos (by simp), List.filter_cons_of_neg (by simp)]
      simp only [List.map_cons, List.sum_cons, ih]; ring

/-- **C57** (sum, partial): for the states that are not excluded, the linewidth is the averaged sum of all
contributions, and Normal and Umklapp parts add up to it, apart from boundary scattering.  Partial: excluded states
(`C57_violated_excluded`), and isotope scattering is among the contributions (`C57_violated_isotope`). -/
theorem C57_sum_partial (B : M3) (hB : LongLattice B) (ex : List Nat) (points : List (DegPoint α))
    (boundary : Option (Nat → Nat → α)) (work : List (List (PhProcess α))) (rank : Nat) (hr : rank < work.length)
    (c s : Nat) (hs : s ∉ ex) :
    let w := phLinewidths B ex points boundary work rank
    let b := match boundary with | some r => r c s | none => 0
    w.total c s = degeneracyAveraging points (totalOf B ex work) c s + b ∧
    w.umklapp c s + w.normal c s + b = w.total c s := by
  intro w b
  have ht : w.total c s = degeneracyAveraging points (totalOf B ex work) c s + b := by
    show (phLinewidths B ex points boundary work rank).total c s = _
    unfold phLinewidths finishLinewidths
    have hred := reduced B ex work rank hr Linewidths.total
      (fun p c _ => ((parts B p).map fun x => x.2 c).sum) (fun _ _ => rfl)
      (Contributes ex) (fun w p c s => (addProcess_spec B hB ex w p c s).1)
    have hred' := congrArg (degeneracyAveraging points) hred
    simp only [if_neg hs]
    cases boundary with
    | none =>
      simp only [b, add_zero]
      exact congrFun (congrFun hred' c) s
    | some r =>
      simp only [b, if_neg hs]
      exact congrArg (· + r c s) (congrFun (congrFun hred' c) s)
  refine ⟨ht, ?_⟩
  obtain ⟨hu, hn⟩ := C57_parts B hB ex points boundary work rank hr
  rw [ht]
  show (phLinewidths B ex points boundary work rank).umklapp c s +
    (phLinewidths B ex points boundary work rank).normal c s + b = _
  rw [hu, hn]
  have : totalOf B ex work = fun c s => weightOf B ex work true c s + weightOf B ex work false c s := by
    funext c s; exact weight_sum B ex work c s
  rw [this, degeneracyAveraging_add]

/-- The unit lattice. -/
def cubic1 : M3 := ⟨⟨1, 0, 0⟩, ⟨0, 1, 0⟩, ⟨0, 0, 1⟩⟩

theorem cubic1_long : LongLattice cubic1 := by
  intro g hg
  have hn : (cubic1.mulVec g.cast).norm2 = ((g.x ^ 2 + g.y ^ 2 + g.z ^ 2 : Int) : Rat) := by
    simp [cubic1, M3.mulVec, V3.dot, V3.norm2, V3.cast]; ring
  have h1 : 1 ≤ g.x ^ 2 + g.y ^ 2 + g.z ^ 2 := by
    by_contra hlt
    apply hg
    have hx := sq_nonneg g.x
    have hy := sq_nonneg g.y
    have hz := sq_nonneg g.z
    have ex : g.x = 0 := by
      have : g.x ^ 2 = 0 := by omega
      exact pow_eq_zero_iff (two_ne_zero) |>.mp this
    have ey : g.y = 0 := by
      have : g.y ^ 2 = 0 := by omega
      exact pow_eq_zero_iff (two_ne_zero) |>.mp this
    have ez : g.z = 0 := by
      have : g.z ^ 2 = 0 := by omega
      exact pow_eq_zero_iff (two_ne_zero) |>.mp this
    cases g; simp_all
  rw [hn]
  have : (1 : Rat) ≤ ((g.x ^ 2 + g.y ^ 2 + g.z ^ 2 : Int) : Rat) := by exact_mod_cast h1
  unfold eps6
  norm_num at this ⊢
  linarith

/-- A cubic crystal, two MPI processes: a Normal decay, an Umklapp coalescence. -/
def sampleWork : List (List (PhProcess Rat)) :=
  [[.plus 1 2 ⟨1 / 5, 0, 0⟩ ⟨1 / 5, 0, 0⟩ fun _ => 4, .plus 1 2 ⟨2 / 5, 0, 0⟩ ⟨2 / 5, 0, 0⟩ fun _ => 6],
   [.minus 1 2 ⟨2 / 5, 0, 0⟩ ⟨1 / 5, 0, 0⟩ (fun _ => 8) fun _ => 2]]

/-- Non-vacuity: both parts of the linewidth are nonzero, on a lattice meeting the hypothesis. -/
example : LongLattice cubic1 ∧
    (phLinewidths cubic1 [0] [] (some fun _ _ => 7) sampleWork 1).umklapp 0 1 = 3 ∧
    (phLinewidths cubic1 [0] [] (some fun _ _ => 7) sampleWork 1).normal 0 1 = 7 ∧
    (phLinewidths cubic1 [0] [] (some fun _ _ => 7) sampleWork 1).total 0 1 = 17 := by
  refine ⟨cubic1_long, ?_, ?_, ?_⟩ <;> decide +kernel

/-- **C57** violated: an excluded state (energy below 0.1 cm⁻¹) degenerate with another one has linewidth zero, but
nonzero Normal and Umklapp parts. -/
theorem C57_violated_excluded : ∃ (ex : List Nat) (points : List (DegPoint Rat)) (work : List (List (PhProcess Rat))),
    let w : Linewidths Rat := phLinewidths cubic1 ex points none work 0
    w.total 0 0 = 0 ∧ w.umklapp 0 0 + w.normal 0 0 ≠ 0 := by
  refine ⟨excludeIndices (9 / 10000000 : Rat) [5 / 10000000, 12 / 10000000],
    [⟨2, fun b => if b = 0 then 5 / 10000000 else 12 / 10000000, fun b => b⟩],
    [[.plus 1 1 ⟨1 / 5, 0, 0⟩ ⟨1 / 5, 0, 0⟩ fun _ => 4]], ?_⟩
  decide +kernel

/-- **C57** violated: with isotope scattering only, there is no three-phonon process, but the Normal part is not
zero. -/
theorem C57_violated_isotope : ∃ (work : List (List (PhProcess Rat))),
    (∀ l ∈ work, ∀ p ∈ l, ∃ i1 i2 q1 q2 r, p = PhProcess.isotope i1 i2 q1 q2 r) ∧
    (phLinewidths cubic1 [] [] none work 0).normal 0 0 ≠ 0 := by
  refine ⟨[[.isotope 0 1 ⟨1 / 5, 0, 0⟩ ⟨1 / 5, 0, 0⟩ fun _ => 4]], ?_, ?_⟩
  · intro l hl p hp
    simp only [List.mem_singleton] at hl
    subst hl
    simp only [List.mem_singleton] at hp
    exact ⟨_, _, _, _, _, hp⟩
  · decide +kernel

/-- No linewidth yet. -/
def zeroWidths : Linewidths Rat := ⟨fun _ _ => 0, fun _ _ => 0, fun _ _ => 0⟩

/-! ## C74: which final states are skipped -/

/-- **C74** (partial): when the final states are those of the same band structure as the initial ones, a process is
skipped exactly when the energy of one of its two states is below the cutoff, and otherwise adds its contributions.
Partial: with two band structures (initial states on a path) the list of skipped indices is the one of the outer band
structure: `C74_violated`. -/
theorem C74_skip_partial (B : M3) (hB : LongLattice B) (cutoff : α) (energies : List α) (w : Linewidths α)
    (p : PhProcess α) (h1 : firstState p < energies.length) (h2 : secondState p < energies.length) :
    let w' := addProcess B (excludeIndices cutoff energies) w p
    (energies[firstState p] < cutoff ∨ energies[secondState p] < cutoff → w' = w) ∧
    (cutoff ≤ energies[firstState p] → cutoff ≤ energies[secondState p] → ∀ c,
      w'.total c (firstState p) = w.total c (firstState p) + ((parts B p).map fun x => x.2 c).sum) := by
  intro w'
  constructor
  · intro h
    have hex : firstState p ∈ excludeIndices cutoff energies ∨ secondState p ∈ excludeIndices cutoff energies := by
      rcases h with h | h
      · left; exact (mem_excludeIndices _ _ _).mpr ⟨h1, h⟩
      · right; exact (mem_excludeIndices _ _ _).mpr ⟨h2, h⟩
    show addProcess B (excludeIndices cutoff energies) w p = w
    cases p <;> (simp only [firstState, secondState] at hex; unfold addProcess; rcases hex with h | h <;> simp [h])
  · intro ha hb c
    have hc : Contributes (excludeIndices cutoff energies) p (firstState p) := by
      refine ⟨rfl, ?_, ?_⟩
      · rw [mem_excludeIndices]; rintro ⟨_, h⟩; exact absurd h (not_lt.mpr ha)
      · rw [mem_excludeIndices]; rintro ⟨_, h⟩; exact absurd h (not_lt.mpr hb)
    have := (addProcess_spec B hB (excludeIndices cutoff energies) w p c (firstState p)).1
    rwa [if_pos hc] at this

/-- Non-vacuity of `C74_skip_partial`: of three states one is below the cutoff. -/
example : firstState (PhProcess.plus 1 2 ⟨0, 0, 0⟩ ⟨0, 0, 0⟩ (fun _ => (4 : Rat))) < [(0 : Rat), 1, 2].length ∧
    (addProcess cubic1 (excludeIndices (1 / 2) [(0 : Rat), 1, 2]) zeroWidths
      (.plus 1 2 ⟨0, 0, 0⟩ ⟨0, 0, 0⟩ fun _ => 4)).total 0 1 = 2 ∧
    (addProcess cubic1 (excludeIndices (1 / 2) [(0 : Rat), 1, 2]) zeroWidths
      (.plus 1 0 ⟨0, 0, 0⟩ ⟨0, 0, 0⟩ fun _ => 4)).total 0 1 = 0 := by
  refine ⟨by decide, ?_, ?_⟩ <;> decide +kernel

/-- **C74** violated: initial states on a path containing Gamma (outer energies 0 and 1), final states on a mesh without
zero energies; the process into final state 0 is skipped although both its energies are far above the cutoff. -/
theorem C74_violated : ∃ (cutoff : Rat) (outer inner : List Rat) (p : PhProcess Rat)
    (h1 : firstState p < outer.length) (h2 : secondState p < inner.length),
    cutoff ≤ outer[firstState p] ∧ cutoff ≤ inner[secondState p] ∧ (∀ e ∈ inner, cutoff ≤ e) ∧
    ((parts cubic1 p).map fun x => x.2 0).sum ≠ 0 ∧
    (addProcess cubic1 (excludeIndices cutoff outer) zeroWidths p).total 0
      (firstState p) = 0 := by
  refine ⟨1 / 10, [0, 1], [1, 2], .plus 1 0 ⟨1 / 5, 0, 0⟩ ⟨1 / 5, 0, 0⟩ fun _ => 4, by decide, by decide, ?_⟩
  decide +kernel

end Verif.Props
