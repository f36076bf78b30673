import Verif.Model.ScatMatrix
import Verif.Proofs.ScatMatrix
import Verif.Props.Degeneracy
import Verif.Props.Matrix
import Mathlib.Tactic.Linarith
import Mathlib.Tactic.LinearCombination

/-!
# C54, C55, C56: the scattering matrix in its different forms

`gridSum L m i j`, from `Verif.Props.Matrix`, is the value of element `(i, j)` of a matrix distributed over the
processes of the grid `L.procs`.
-/
namespace Verif.Props
open Verif.Model

/-- Row (or column) of component `i` of state `b`: three rows per state with symmetries, one otherwise. -/
def stateRow (sym : Bool) (b i : Nat) : Nat := if sym then 3 * b + i else b

theorem stateRow_eq (sym : Bool) (b i : Nat) : stateRow sym b i = matIndex sym b i := by
  unfold stateRow matIndex; cases sym <;> simp; omega

/-- State of a row. -/
def rowState (sym : Bool) (k : Nat) : Nat := if sym then k / 3 else k

theorem rowState_eq (sym : Bool) (k : Nat) : rowState sym k = matState sym k := rfl

/-- Number of rows. -/
def rowCount (sym : Bool) (n : Nat) : Nat := if sym then n * 3 else n

/-- The scattering events of a calculation and how they are distributed.  `E`: all the events; `stored p`: those met by
process `p` when the matrix is stored; `fly`: those met by each process when it is not.  Events refer to states that
are not excluded; an event is between equal states exactly when the BTE indices are equal; without symmetries there is
no rotation.  A process that stores an element of the block of two states meets all their events (`C50_matrix`), and
the processes together meet every event once when the matrix is not stored (`C50_electrons`, `C50_phonons`). -/
structure Events {α : Type} [Semiring α] (sym : Bool) (n : Nat) (L : Layout) (ex : List Nat) (E : List (ScatEvent α))
    (stored : Nat × Nat → List (ScatEvent α)) (fly : List (List (ScatEvent α))) : Prop where
  states : ∀ e ∈ E, e.bte1 < n ∧ e.bte2 < n ∧ e.bte1 ∉ ex ∧ e.bte2 ∉ ex
  same : ∀ e ∈ E, (e.is1 = e.is2Irr ↔ e.bte1 = e.bte2)
  unrotated : sym = false → ∀ e ∈ E, ∀ i j, i < 3 → j < 3 → e.rotInv i j = if i = j then 1 else 0
  storedStates : ∀ p ∈ L.procs, ∀ e ∈ stored p, e.bte1 < n ∧ e.bte2 < n
  storedBlocks : ∀ p ∈ L.procs, ∀ b1 b2, b1 < n → b2 < n →
    (∃ i j, i < 3 ∧ j < 3 ∧ L.global2Local p.1 p.2 (stateRow sym b1 i) (stateRow sym b2 j) ≠ -1) →
    ((stored p).filter fun e => e.bte1 = b1 ∧ e.bte2 = b2).Perm (E.filter fun e => e.bte1 = b1 ∧ e.bte2 = b2)
  flyAll : fly.flatten.Perm E

/-- The layout of the matrix of `n` states and the excluded states. -/
structure MatrixFits (sym : Bool) (n : Nat) (L : Layout) (ex : List Nat) : Prop where
  good : L.Good
  rows : L.numRows = rowCount sym n
  cols : L.numCols = rowCount sym n
  small : (n : Int) * 3 ≤ intMax
  excluded : ∀ b ∈ ex, b < n

/-- Any distribution of the local elements among the threads of each process. -/
def AnyThreads (L : Layout) (merge : Nat × Nat → List (List (Nat × Nat))) : Prop :=
  ∀ p ∈ L.procs, (merge p).flatten.Perm (L.getAllLocalStates p.1 p.2)

/-- The matrix before the construction. -/
def ZeroMatrix {α : Type} [AddMonoid α] (L : Layout) (m : DistData α) : Prop :=
  ∀ i j, i < L.numRows → j < L.numCols → gridSum L m i j = 0

theorem events_complete {α : Type} [Semiring α] {sym : Bool} {n : Nat} {L : Layout} {ex : List Nat}
    {E : List (ScatEvent α)} {stored : Nat × Nat → List (ScatEvent α)} {fly : List (List (ScatEvent α))}
    (hE : Events sym n L ex E stored fly) (hL : MatrixFits sym n L ex) : BlocksComplete sym n L E stored := by
  intro b1 b2 i j hb1 hb2 hi hj
  refine hE.storedBlocks _ (owner_mem L hL.good _ _) b1 b2 hb1 hb2 ⟨i, j, hi, hj, ?_⟩
  rw [stateRow_eq, stateRow_eq, local_iff_owner]

/-! ## C56 -/

/-- The stored matrix: sum of the rates on the diagonal, events off the diagonal, the same diagonal on all processes. -/
theorem stored_matrix {α : Type} [CommRing α] {sym : Bool} {n : Nat} {L : Layout} {ex : List Nat}
    {E : List (ScatEvent α)} {stored : Nat × Nat → List (ScatEvent α)} {fly : List (List (ScatEvent α))}
    (hE : Events sym n L ex E stored fly) (hL : MatrixFits sym n L ex) (boundary : Nat → α)
    (m : DistData α) (hm : ZeroMatrix L m) :
    ∃ m' diags, buildMatrix sym n L ex boundary stored L.procs m = .ok (m', diags) ∧
      diags.length = L.procs.length ∧ (∀ d ∈ diags, ∀ b, b < n → d b = lineSum ex boundary E b) ∧
      ∀ b1 b2 i j, b1 < n → b2 < n → i < 3 → j < 3 →
        L.value m' (matIndex sym b1 i) (matIndex sym b2 j) =
          if b1 = b2 then (if sym = true ∧ i ≠ j then 0 else lineSum ex boundary E b1)
          else ((E.filter fun e => e.bte1 = b1 ∧ e.bte2 = b2).map fun e => evVal sym e i j).sum :=
  buildMatrix_val sym n L hL.good hL.rows hL.cols hL.small ex hL.excluded boundary E stored hE.states
    hE.storedStates (events_complete hE hL) m
    (fun i j hi hj => by rw [← gridSum_value L hL.good]; exact hm i j (by rw [hL.rows]; exact hi) (by rw [hL.cols]; exact hj))

/-- Sum of the events between two different states, applied to a vector. -/
theorem block_product {α : Type} [CommRing α] {sym : Bool} {n : Nat} {L : Layout} {ex : List Nat}
    {E : List (ScatEvent α)} {stored : Nat × Nat → List (ScatEvent α)} {fly : List (List (ScatEvent α))}
    (hE : Events sym n L ex E stored fly) (inp : Nat → Nat → α) (b b2 i : Nat) (hi : i < 3) (hne : b ≠ b2) :
    (if sym then ((E.filter fun e => e.bte1 = b ∧ e.bte2 = b2).map fun e => evVal sym e i 0).sum * inp 0 b2 +
        ((E.filter fun e => e.bte1 = b ∧ e.bte2 = b2).map fun e => evVal sym e i 1).sum * inp 1 b2 +
        ((E.filter fun e => e.bte1 = b ∧ e.bte2 = b2).map fun e => evVal sym e i 2).sum * inp 2 b2
      else ((E.filter fun e => e.bte1 = b ∧ e.bte2 = b2).map fun e => evVal sym e i 0).sum * inp i b2) =
    ((E.filter fun e => e.bte1 = b ∧ e.bte2 = b2).map fun e => if e.is1 ≠ e.is2Irr then e.rateOff *
        (e.rotInv i 0 * inp 0 e.bte2 + e.rotInv i 1 * inp 1 e.bte2 + e.rotInv i 2 * inp 2 e.bte2) else 0).sum := by
  have key : ∀ l : List (ScatEvent α), (∀ e ∈ l, e ∈ E ∧ e.bte1 = b ∧ e.bte2 = b2) →
      (if sym then (l.map fun e => evVal sym e i 0).sum * inp 0 b2 + (l.map fun e => evVal sym e i 1).sum * inp 1 b2 +
        (l.map fun e => evVal sym e i 2).sum * inp 2 b2
      else (l.map fun e => evVal sym e i 0).sum * inp i b2) =
      (l.map fun e => if e.is1 ≠ e.is2Irr then e.rateOff *
        (e.rotInv i 0 * inp 0 e.bte2 + e.rotInv i 1 * inp 1 e.bte2 + e.rotInv i 2 * inp 2 e.bte2) else 0).sum := by
    intro l
    induction l with
    | nil => intro _; cases sym <;> simp
    | cons e t ih =>
      intro hl
      obtain ⟨he, h1, h2⟩ := hl e (by simp)
      have hne' : e.is1 ≠ e.is2Irr := fun h => hne (h1.symm.trans (((hE.same e he).mp h).trans h2))
      rw [List.map_cons, List.map_cons, List.map_cons, List.map_cons, List.sum_cons, List.sum_cons, List.sum_cons,
        List.sum_cons, ← ih (fun e he => hl e (by simp [he])), if_pos hne', h2]
      cases hs : sym with
      | true =>
        simp only [evVal, if_true, if_pos hne']
        ring
      | false =>
        simp only [evVal, Bool.false_eq_true, if_false]
        have hu := hE.unrotated hs e he i
        rw [hu 0 hi (by omega), hu 1 hi (by omega), hu 2 hi (by omega)]
        have a1 : i = 0 ∨ i = 1 ∨ i = 2 := by omega
        rcases a1 with rfl | rfl | rfl <;> simp <;> ring
  apply key
  intro e he
  have := List.of_mem_filter he
  simp only [decide_eq_true_eq] at this
  exact ⟨List.mem_of_mem_filter he, this⟩

/-- The off-diagonal part of the product, for the stored matrix. -/
theorem offdiag_stored {α : Type} [CommRing α] {sym : Bool} {n : Nat} {L : Layout} {ex : List Nat}
    {E : List (ScatEvent α)} {stored : Nat × Nat → List (ScatEvent α)} {fly : List (List (ScatEvent α))}
    (hE : Events sym n L ex E stored fly) (hL : MatrixFits sym n L ex) (boundary : Nat → α)
    (m' : DistData α) (skip : Nat → Nat → Bool)
    (hm' : ∀ b1 b2 i j, b1 < n → b2 < n → i < 3 → j < 3 →
        L.value m' (matIndex sym b1 i) (matIndex sym b2 j) =
          if b1 = b2 then (if sym = true ∧ i ≠ j then 0 else lineSum ex boundary E b1)
          else ((E.filter fun e => e.bte1 = b1 ∧ e.bte2 = b2).map fun e => evVal sym e i j).sum)
    (inp : Nat → Nat → α) (merge : Nat × Nat → List (List (Nat × Nat))) (hmerge : AnyThreads L merge) :
    ∃ res, storedProduct sym n L m' skip inp L.procs merge = .ok res ∧ res.length = L.procs.length ∧
      ∀ f ∈ res, ∀ i b, i < 3 → b < n → f i b = ((List.range n).map fun b2 =>
        if skip b b2 then 0 else if b = b2 then lineSum ex boundary E b * inp i b else
          ((E.filter fun e => e.bte1 = b ∧ e.bte2 = b2).map fun e => if e.is1 ≠ e.is2Irr then e.rateOff *
        (e.rotInv i 0 * inp 0 e.bte2 + e.rotInv i 1 * inp 1 e.bte2 + e.rotInv i 2 * inp 2 e.bte2) else 0).sum).sum := by
  obtain ⟨res, h1, h2, h3⟩ := storedProduct_val sym n L hL.good hL.rows hL.cols hL.small m' skip inp merge
    (fun p hp1 hp2 => hmerge p ((mem_grid p).mpr ⟨hp1, hp2⟩))
  refine ⟨res, h1, h2, ?_⟩
  intro f hf i b hi hb
  rw [h3 f hf i b hi hb]
  congr 1
  apply List.map_congr_left
  intro b2 hb2
  have hb2 : b2 < n := by simpa using hb2
  by_cases hs : skip b b2 = true
  · rw [if_pos hs, if_pos hs]
  · rw [if_neg hs, if_neg hs]
    by_cases hbb : b = b2
    · subst hbb
      rw [if_pos rfl, hm' b b i 0 hb hb hi (by omega), hm' b b i 1 hb hb hi (by omega), hm' b b i 2 hb hb hi (by omega),
        if_pos rfl, if_pos rfl, if_pos rfl]
      cases sym with
      | false => simp
      | true =>
        have a1 : i = 0 ∨ i = 1 ∨ i = 2 := by omega
        rcases a1 with rfl | rfl | rfl <;> simp
    · rw [if_neg hbb, ← block_product hE inp b b2 i hi hbb, hm' b b2 i 0 hb hb2 hi (by omega),
        hm' b b2 i 1 hb hb2 hi (by omega), hm' b b2 i 2 hb hb2 hi (by omega), if_neg hbb, if_neg hbb, if_neg hbb]

/-- Sum over the final states split into the initial state and the others. -/
theorem product_split {α : Type} [CommRing α] {sym : Bool} {n : Nat} {L : Layout} {ex : List Nat}
    {E : List (ScatEvent α)} {stored : Nat × Nat → List (ScatEvent α)} {fly : List (List (ScatEvent α))}
    (hE : Events sym n L ex E stored fly) (boundary : Nat → α) (inp : Nat → Nat → α) (b i : Nat) (hb : b < n) :
    ((List.range n).map fun b2 => if b = b2 then lineSum ex boundary E b * inp i b else
          ((E.filter fun e => e.bte1 = b ∧ e.bte2 = b2).map fun e => if e.is1 ≠ e.is2Irr then e.rateOff *
        (e.rotInv i 0 * inp 0 e.bte2 + e.rotInv i 1 * inp 1 e.bte2 + e.rotInv i 2 * inp 2 e.bte2) else 0).sum).sum =
    lineSum ex boundary E b * inp i b + ((E.filter fun e => e.bte1 = b).map fun e => if e.is1 ≠ e.is2Irr then e.rateOff *
        (e.rotInv i 0 * inp 0 e.bte2 + e.rotInv i 1 * inp 1 e.bte2 + e.rotInv i 2 * inp 2 e.bte2) else 0).sum := by
  rw [sum_by_key (E.filter fun e => e.bte1 = b) (fun e => e.bte2) n
      (fun e he => (hE.states e (List.mem_of_mem_filter he)).2.1)]
  have e0 : lineSum ex boundary E b * inp i b =
      ((List.range n).map fun b2 => if b2 = b then lineSum ex boundary E b * inp i b else 0).sum := by
    rw [sum_single (List.range n) List.nodup_range b (by simpa using hb)]
    · rw [if_pos rfl]
    · intro a _ h; rw [if_neg h]
  conv_rhs => rw [e0]
  rw [← List.sum_map_add]
  congr 1
  apply List.map_congr_left
  intro b2 _
  have ef : ((E.filter fun e => decide (e.bte1 = b)).filter fun e => decide (e.bte2 = b2)) =
      E.filter fun e => decide (e.bte1 = b ∧ e.bte2 = b2) := by
    rw [List.filter_filter]
    apply List.filter_congr
    intro e _
    by_cases x1 : e.bte1 = b <;> by_cases x2 : e.bte2 = b2 <;> simp [x1, x2]
  rw [ef]
  by_cases h : b = b2
  · subst h
    rw [if_pos rfl, if_pos rfl]
    have hz : ((E.filter fun e => decide (e.bte1 = b ∧ e.bte2 = b)).map fun e => if e.is1 ≠ e.is2Irr then e.rateOff *
        (e.rotInv i 0 * inp 0 e.bte2 + e.rotInv i 1 * inp 1 e.bte2 + e.rotInv i 2 * inp 2 e.bte2) else 0).sum = 0 := by
      apply List.sum_eq_zero
      intro x hx
      obtain ⟨e, he, rfl⟩ := List.mem_map.mp hx
      have h1 := List.of_mem_filter he
      simp only [decide_eq_true_eq] at h1
      rw [if_neg]
      rw [not_not]
      exact (hE.same e (List.mem_of_mem_filter he)).mpr (h1.1.trans h1.2.symm)
    rw [hz, add_zero]
  · rw [if_neg h, if_neg (fun h' => h h'.symm), zero_add]

/-- **C56** (modes): the product with the stored matrix, on any process of any grid and with any threads, is the
product computed on the fly by any number of processes. -/
theorem C56_modes_agree {α : Type} [CommRing α] (sym : Bool) (n : Nat) (L : Layout) (ex : List Nat)
    (E : List (ScatEvent α)) (stored : Nat × Nat → List (ScatEvent α)) (fly : List (List (ScatEvent α)))
    (hE : Events sym n L ex E stored fly) (hL : MatrixFits sym n L ex) (boundary : Nat → α)
    (m : DistData α) (hm : ZeroMatrix L m) (inp : Nat → Nat → α) (merge : Nat × Nat → List (List (Nat × Nat)))
    (hmerge : AnyThreads L merge) :
    ∃ m' diags res, buildMatrix sym n L ex boundary stored L.procs m = .ok (m', diags) ∧
      dotStored sym n L m' ex inp L.procs merge = .ok res ∧ res.length = L.procs.length ∧
      (buildProduct n ex boundary fly inp).length = fly.length ∧
      ∀ f ∈ res, ∀ g ∈ buildProduct n ex boundary fly inp, ∀ i b, i < 3 → b < n → f i b = g i b := by
  obtain ⟨m', diags, h1, h2, h3, h4⟩ := stored_matrix hE hL boundary m hm
  obtain ⟨res, h5, h6, h7⟩ := offdiag_stored hE hL boundary m'
    (fun b1 b2 => decide (b1 ∈ ex) || decide (b2 ∈ ex)) h4 inp merge hmerge
  obtain ⟨h8, h9⟩ := buildProduct_val n ex boundary E fly hE.flyAll inp
  refine ⟨m', diags, res, h1, h5, h6, h8, ?_⟩
  intro f hf g hg i b hi hb
  rw [h7 f hf i b hi hb, h9 g hg i b hi hb]
  by_cases hx : b ∈ ex
  · rw [if_pos hx]
    apply List.sum_eq_zero
    intro x hxm
    obtain ⟨b2, _, rfl⟩ := List.mem_map.mp hxm
    rw [if_pos (by simp [hx])]
  · rw [if_neg hx]
    have e1 : ((List.range n).map fun b2 =>
        if (decide (b ∈ ex) || decide (b2 ∈ ex)) = true then 0 else if b = b2 then lineSum ex boundary E b * inp i b else
          ((E.filter fun e => e.bte1 = b ∧ e.bte2 = b2).map fun e => if e.is1 ≠ e.is2Irr then e.rateOff *
        (e.rotInv i 0 * inp 0 e.bte2 + e.rotInv i 1 * inp 1 e.bte2 + e.rotInv i 2 * inp 2 e.bte2) else 0).sum) =
        (List.range n).map fun b2 => if b = b2 then lineSum ex boundary E b * inp i b else
          ((E.filter fun e => e.bte1 = b ∧ e.bte2 = b2).map fun e => if e.is1 ≠ e.is2Irr then e.rateOff *
        (e.rotInv i 0 * inp 0 e.bte2 + e.rotInv i 1 * inp 1 e.bte2 + e.rotInv i 2 * inp 2 e.bte2) else 0).sum := by
      apply List.map_congr_left
      intro b2 _
      by_cases hx2 : b2 ∈ ex
      · have hbb : ¬ b = b2 := fun h => hx (h ▸ hx2)
        rw [if_pos (by simp [hx2]), if_neg hbb]
        symm
        apply List.sum_eq_zero
        intro x hxm
        obtain ⟨e, he, rfl⟩ := List.mem_map.mp hxm
        have h := List.of_mem_filter he
        simp only [decide_eq_true_eq] at h
        exact absurd (h.2 ▸ hx2) (hE.states e (List.mem_of_mem_filter he)).2.2.2
      · rw [if_neg (by simp [hx, hx2])]
    rw [e1, product_split hE boundary inp b i hb, List.sum_map_add, List.sum_map_mul_right]
    unfold lineSum
    rw [if_neg hx]
    ring

/-- **C56** (parts): with the stored matrix, the off-diagonal product plus the diagonal part is the full product, so
the two overloads of `offDiagonalDot` (one skips the diagonal, the other subtracts it) agree. -/
theorem C56_parts {α : Type} [CommRing α] (sym : Bool) (n : Nat) (L : Layout) (ex : List Nat)
    (E : List (ScatEvent α)) (stored : Nat × Nat → List (ScatEvent α)) (fly : List (List (ScatEvent α)))
    (hE : Events sym n L ex E stored fly) (hL : MatrixFits sym n L ex) (boundary : Nat → α)
    (m : DistData α) (hm : ZeroMatrix L m) (inp : Nat → Nat → α) (merge merge' : Nat × Nat → List (List (Nat × Nat)))
    (hmerge : AnyThreads L merge) (hmerge' : AnyThreads L merge') :
    ∃ m' diags full off, buildMatrix sym n L ex boundary stored L.procs m = .ok (m', diags) ∧
      dotStored sym n L m' ex inp L.procs merge = .ok full ∧ full.length = L.procs.length ∧
      offDiagonalDotStored sym n L m' inp L.procs merge' = .ok off ∧ off.length = L.procs.length ∧
      diags.length = L.procs.length ∧
      ∀ f ∈ full, ∀ o ∈ off, ∀ d ∈ diags, ∀ i b, i < 3 → b < n →
        o i b + d b * inp i b = f i b ∧ offDiagonalDotFly d inp f i b = o i b := by
  obtain ⟨m', diags, h1, h2, h3, h4⟩ := stored_matrix hE hL boundary m hm
  obtain ⟨full, h5, h6, h7⟩ := offdiag_stored hE hL boundary m'
    (fun b1 b2 => decide (b1 ∈ ex) || decide (b2 ∈ ex)) h4 inp merge hmerge
  obtain ⟨off, h8, h9, h10⟩ := offdiag_stored hE hL boundary m' (fun b1 b2 => decide (b1 = b2)) h4 inp merge' hmerge'
  refine ⟨m', diags, full, off, h1, h5, h6, h8, h9, h2, ?_⟩
  intro f hf o ho d hd i b hi hb
  have main : o i b + d b * inp i b = f i b := by
    rw [h7 f hf i b hi hb, h10 o ho i b hi hb, h3 d hd b hb]
    have e0 : lineSum ex boundary E b * inp i b =
        ((List.range n).map fun b2 => if b2 = b then lineSum ex boundary E b * inp i b else 0).sum := by
      rw [sum_single (List.range n) List.nodup_range b (by simpa using hb)]
      · rw [if_pos rfl]
      · intro a _ h; rw [if_neg h]
    refine (congrArg (_ + ·) e0).trans ?_
    rw [← List.sum_map_add]
    congr 1
    apply List.map_congr_left
    intro b2 _
    by_cases hbb : b = b2
    · subst hbb
      rw [if_pos (by simp), if_pos rfl, if_pos rfl, zero_add]
      by_cases hx : b ∈ ex
      · rw [if_pos (by simp [hx])]
        unfold lineSum
        rw [if_pos hx, zero_mul]
      · rw [if_neg (by simp [hx])]
    · have hbb' : ¬ b2 = b := fun h => hbb h.symm
      rw [if_neg (by simpa using hbb)]
      simp only [if_neg hbb', if_neg hbb, add_zero]
      by_cases hx : b ∈ ex ∨ b2 ∈ ex
      · rw [if_pos (by simpa using hx)]
        apply List.sum_eq_zero
        intro x hxm
        obtain ⟨e, he, rfl⟩ := List.mem_map.mp hxm
        have h := List.of_mem_filter he
        simp only [decide_eq_true_eq] at h
        obtain ⟨_, _, h13, h14⟩ := hE.states e (List.mem_of_mem_filter he)
        rcases hx with hx | hx
        · exact absurd (h.1 ▸ hx) h13
        · exact absurd (h.2 ▸ hx) h14
      · rw [if_neg (by simpa using hx)]
  refine ⟨main, ?_⟩
  unfold offDiagonalDotFly
  rw [← main, add_sub_cancel_right]

/-- Without the matrix in memory, the off-diagonal product plus the diagonal part is the full product, whatever the
stored diagonal. -/
theorem C56_parts_fly {α : Type} [CommRing α] (diag : Nat → α) (inp product : Nat → Nat → α) (i b : Nat) :
    offDiagonalDotFly diag inp product i b + diag b * inp i b = product i b := by
  unfold offDiagonalDotFly
  rw [sub_add_cancel]

/-- Two degenerate states; the first decays with rate 1 into the second, the second with rate 3 into the first. -/
def twoEvents : List (ScatEvent ℚ) :=
  [⟨0, 1, 0, 1, fun i j => if i = j then 1 else 0, 1, -1⟩, ⟨1, 0, 1, 0, fun i j => if i = j then 1 else 0, 3, -1⟩]

/-- One element per process on a 2x2 grid. -/
def grid22 : Layout := ⟨2, 2, 1, 1, 2, 2⟩

/-- The hypotheses hold for two states on a 2x2 grid of processes, on the fly by three processes. -/
example : Events false 2 grid22 [] twoEvents (fun _ => twoEvents) [twoEvents.take 1, [], twoEvents.drop 1] ∧
    MatrixFits false 2 grid22 [] ∧ ZeroMatrix grid22 (fun _ _ _ => (0 : ℚ)) ∧
    AnyThreads grid22 fun p => [grid22.getAllLocalStates p.1 p.2, []] := by
  refine ⟨⟨?_, ?_, ?_, ?_, ?_, by simp [twoEvents]⟩, ⟨⟨by decide, by decide, by decide, by decide⟩, rfl, rfl, by decide, by simp⟩, ?_, ?_⟩
  · intro e he
    simp only [twoEvents, List.mem_cons, List.not_mem_nil, or_false] at he
    rcases he with rfl | rfl <;> simp
  · intro e he
    simp only [twoEvents, List.mem_cons, List.not_mem_nil, or_false] at he
    rcases he with rfl | rfl <;> simp
  · intro _ e he i j _ _
    simp only [twoEvents, List.mem_cons, List.not_mem_nil, or_false] at he
    rcases he with rfl | rfl <;> rfl
  · intro p _ e he
    simp only [twoEvents, List.mem_cons, List.not_mem_nil, or_false] at he
    rcases he with rfl | rfl <;> simp
  · intros; exact List.Perm.refl _
  · intro i j _ _
    rw [gridSum_value grid22 ⟨by decide, by decide, by decide, by decide⟩]
    simp [Layout.value, Layout.get]
  · intro p _
    rw [List.flatten_cons, List.flatten_cons, List.flatten_nil, List.append_nil, List.append_nil]

/-- Process `(0, 0)` stores all of a 2x2 matrix. -/
def grid11 : Layout := ⟨2, 2, 2, 2, 1, 1⟩

/-- The off-diagonal product of a vector of ones, stored mode, first component of the first state. -/
def offStored : Option ℚ := do
  let m ← (buildMatrix false 2 grid11 [] (fun _ => 0) (fun _ => twoEvents) grid11.procs fun _ _ _ => 0).toOption
  let r ← (offDiagonalDotStored false 2 grid11 m.1 (fun _ _ => 1) grid11.procs
    fun p => [grid11.getAllLocalStates p.1 p.2]).toOption
  let f ← r[0]?
  some (f 0 0)

/-- The same, on the fly. -/
def offFly : Option ℚ := do
  let d ← (buildLinewidths [] (fun _ => 0) [doublet] [twoEvents])[0]?
  let f ← (buildProduct 2 [] (fun _ => 0) [twoEvents] fun _ _ => 1)[0]?
  some (offDiagonalDotFly d (fun _ _ => 1) f 0 0)

/-- **C56 is violated** for the off-diagonal product of degenerate states: without the matrix in memory the diagonal
was averaged over the degenerate states when it was computed, but the full product was not, so the result differs from
the product with the stored matrix. -/
theorem C56_violated_degenerate : offStored = some (-1) ∧ offFly = some (-2) := by
  constructor <;> decide +kernel

/-! ## C54 -/

/-- Layout of a matrix of `n` states, for any number of rows that fits. -/
structure OmegaFits (L : Layout) : Prop where
  good : L.Good
  rows : (L.numRows : Int) ≤ intMax
  cols : (L.numCols : Int) ≤ intMax
  notEmpty : 0 < L.numRows

/-- **C54** (matrix): every element of the matrix is divided by the square root of the product of the factors of its
two states, once, for any layout and any order of the local elements; elements with an excluded state are unchanged.
A second conversion changes nothing. -/
theorem C54_matrix (sym : Bool) (n : Nat) (L : Layout) (hL : OmegaFits L) (ex : List Nat) (term : Nat → ℝ)
    (order : Nat × Nat → List (Nat × Nat)) (horder : ∀ p ∈ L.procs, (order p).Perm (L.getAllLocalStates p.1 p.2))
    (m : DistData ℝ) (diags : List (Nat → ℝ)) (hd : diags.length = L.procs.length) :
    ∃ s, a2Omega true sym n L ex term L.procs order ⟨m, diags, false⟩ = .ok s ∧ s.isMatrixOmega = true ∧
      s.diags.length = diags.length ∧
      (∀ i j, i < L.numRows → j < L.numCols → gridSum L s.matrix i j =
        if rowState sym i ∈ ex ∨ rowState sym j ∈ ex then gridSum L m i j
        else gridSum L m i j / Real.sqrt (term (rowState sym i) * term (rowState sym j))) ∧
      a2Omega true sym n L ex term L.procs order s = .ok s := by
  have hfst : (L.procs.zip diags).map (·.1) = L.procs := by
    apply List.map_fst_zip; rw [hd]
  obtain ⟨m', ds, h1, h2, h3, h4⟩ := a2OmegaLoops_val sym n L hL.good hL.rows hL.cols ex term order (L.procs.zip diags)
    (by rw [hfst]; exact nodup_grid _ _) (fun x hx => (List.of_mem_zip hx).1) horder
    (fun p hp => nodup_localStates L hL.good ((mem_grid p).mp hp).1 ((mem_grid p).mp hp).2) m
  have hne := hL.notEmpty
  refine ⟨⟨m', ds, true⟩, ?_, rfl, ?_, ?_, ?_⟩
  · unfold a2Omega
    rw [if_neg (by simp), if_neg (by omega), if_neg (by simp)]
    simp only [Outcome.bind_eq]
    rw [h1]; rfl
  · rw [h2, List.length_zip, hd, Nat.min_self]
  · intro i j hi hj
    simp only
    rw [gridSum_value L hL.good, gridSum_value L hL.good, h3 i j hi hj, hfst, rowState_eq, rowState_eq]
    by_cases hx : matState sym i ∈ ex ∨ matState sym j ∈ ex
    · rw [if_pos hx, if_neg]
      rintro ⟨_, a, b⟩
      exact hx.elim a b
    · rw [if_neg hx, if_pos]
      exact ⟨owner_mem L hL.good i j, fun h => hx (Or.inl h), fun h => hx (Or.inr h)⟩
  · unfold a2Omega
    rw [if_neg (by simp), if_neg (by omega), if_pos rfl]

/-- **C54** (refused): the conversion is refused when the matrix is not in memory or has not been built. -/
theorem C54_refused (highMemory sym : Bool) (n : Nat) (L : Layout) (ex : List Nat) (term : Nat → ℝ)
    (procs : List (Nat × Nat)) (order : Nat × Nat → List (Nat × Nat)) (s : ScatState)
    (h : highMemory = false ∨ L.numRows = 0) : a2Omega highMemory sym n L ex term procs order s = .error := by
  unfold a2Omega
  by_cases h1 : highMemory = false
  · rw [if_pos h1]
  · rw [if_neg h1, if_pos (h.resolve_left h1)]

/-- Number of elements of the diagonal block of a state that process `p` stores. -/
def blockOf (sym : Bool) (L : Layout) (p : Nat × Nat) (b : Nat) : Nat :=
  ((L.getAllLocalStates p.1 p.2).filter fun t => rowState sym t.1 = b ∧ rowState sym t.2 = b).length

/-- What happens to the stored diagonal: process `k` divides it by the factor once for each element of the diagonal
block that it stores.  This is the property only if that number is one (`C54_diagonal_partial`). -/
theorem C54_diagonal_actual (sym : Bool) (n : Nat) (L : Layout) (hL : OmegaFits L) (ex : List Nat) (term : Nat → ℝ)
    (order : Nat × Nat → List (Nat × Nat)) (horder : ∀ p ∈ L.procs, (order p).Perm (L.getAllLocalStates p.1 p.2))
    (m : DistData ℝ) (diags : List (Nat → ℝ)) (hd : diags.length = L.procs.length) :
    ∃ s, a2Omega true sym n L ex term L.procs order ⟨m, diags, false⟩ = .ok s ∧
      ∀ (k : Nat) (p : Nat × Nat) (d d' : Nat → ℝ), L.procs[k]? = some p → diags[k]? = some d →
        s.diags[k]? = some d' → ∀ b, d' b = if b ∈ ex then d b else d b / term b ^ blockOf sym L p b := by
  have hfst : (L.procs.zip diags).map (·.1) = L.procs := by
    apply List.map_fst_zip; rw [hd]
  obtain ⟨m', ds, h1, h2, h3, h4⟩ := a2OmegaLoops_val sym n L hL.good hL.rows hL.cols ex term order (L.procs.zip diags)
    (by rw [hfst]; exact nodup_grid _ _) (fun x hx => (List.of_mem_zip hx).1) horder
    (fun p hp => nodup_localStates L hL.good ((mem_grid p).mp hp).1 ((mem_grid p).mp hp).2) m
  have hne := hL.notEmpty
  refine ⟨⟨m', ds, true⟩, ?_, ?_⟩
  · unfold a2Omega
    rw [if_neg (by simp), if_neg (by omega), if_neg (by simp)]
    simp only [Outcome.bind_eq]
    rw [h1]; rfl
  · intro k p d d' hp hdk hd' b
    exact h4 k (p, d) d' (by rw [List.getElem?_zip_eq_some]; exact ⟨hp, hdk⟩) hd' b

/-- **C54** (stored diagonal, partial): without symmetries, the process that stores the diagonal element of a state
divides its stored diagonal by the factor of the state, once.  Missing: the other processes, and symmetries, for which
the property fails (`C54_violated_processes`, `C54_violated_symmetries`). -/
theorem C54_diagonal_partial (n : Nat) (L : Layout) (hL : OmegaFits L) (hsq : L.numRows = L.numCols) (ex : List Nat)
    (term : Nat → ℝ) (order : Nat × Nat → List (Nat × Nat))
    (horder : ∀ p ∈ L.procs, (order p).Perm (L.getAllLocalStates p.1 p.2))
    (m : DistData ℝ) (diags : List (Nat → ℝ)) (hd : diags.length = L.procs.length) :
    ∃ s, a2Omega true false n L ex term L.procs order ⟨m, diags, false⟩ = .ok s ∧
      ∀ (k : Nat) (p : Nat × Nat) (d d' : Nat → ℝ), L.procs[k]? = some p → diags[k]? = some d →
        s.diags[k]? = some d' → ∀ b, b < L.numRows → L.global2Local p.1 p.2 b b ≠ -1 →
          d' b = if b ∈ ex then d b else d b / term b := by
  obtain ⟨s, h1, h2⟩ := C54_diagonal_actual false n L hL ex term order horder m diags hd
  refine ⟨s, h1, ?_⟩
  intro k p d d' hp hdk hd' b hb hown
  rw [h2 k p d d' hp hdk hd' b]
  have hpm : p ∈ L.procs := List.mem_of_getElem? hp
  have hp' := (mem_grid p).mp hpm
  have hone : blockOf false L p b = 1 := by
    unfold blockOf rowState
    have hmem : (b, b) ∈ L.getAllLocalStates p.1 p.2 :=
      (mem_localStates L hL.good hp'.1 hp'.2 (b, b)).mpr ⟨hb, by rw [← hsq]; exact hb, hown⟩
    have hnd := nodup_localStates L hL.good hp'.1 hp'.2
    rw [← List.countP_eq_length_filter]
    have e : List.countP (fun t : Nat × Nat => decide ((if false = true then t.1 / 3 else t.1) = b ∧
        (if false = true then t.2 / 3 else t.2) = b)) (L.getAllLocalStates p.1 p.2) =
        List.count (b, b) (L.getAllLocalStates p.1 p.2) := by
      unfold List.count
      apply List.countP_congr
      intro t _
      simp [Prod.ext_iff]
    rw [e]
    exact List.count_eq_one_of_mem hnd hmem
  rw [hone, pow_one]

/-- Four processes in a 2x2 grid, one element each: non-vacuity of the theorems above. -/
example : OmegaFits grid22 ∧ grid22.numRows = grid22.numCols ∧ grid22.global2Local 1 1 1 1 ≠ -1 ∧
    grid22.global2Local 0 1 0 1 ≠ -1 :=
  ⟨⟨⟨by decide, by decide, by decide, by decide⟩, by decide, by decide, by decide⟩, rfl, by decide, by decide⟩

/-- **C54 is violated** with several processes: the process that does not store the diagonal element of a state keeps
the diagonal of the unsymmetrised matrix, although the flag says that the matrix is symmetrised. -/
theorem C54_violated_processes : ∃ s, a2Omega true false 2 grid22 [] (fun _ => 2) grid22.procs
      (fun p => grid22.getAllLocalStates p.1 p.2) ⟨fun _ _ _ => 1, [fun _ => 1, fun _ => 1, fun _ => 1, fun _ => 1], false⟩ =
        .ok s ∧ s.isMatrixOmega = true ∧
      (∀ d, s.diags[0]? = some d → d 0 = 1 / 2) ∧ ∀ d, s.diags[1]? = some d → d 0 = 1 := by
  have hF : OmegaFits grid22 := ⟨⟨by decide, by decide, by decide, by decide⟩, by decide, by decide, by decide⟩
  obtain ⟨s, h1, h2⟩ := C54_diagonal_actual false 2 grid22 hF [] (fun _ => 2)
    (fun p => grid22.getAllLocalStates p.1 p.2) (fun p _ => List.Perm.refl _) (fun _ _ _ => 1)
    [fun _ => 1, fun _ => 1, fun _ => 1, fun _ => 1] rfl
  obtain ⟨s', h3, h4, _⟩ := C54_matrix false 2 grid22 hF [] (fun _ => 2)
    (fun p => grid22.getAllLocalStates p.1 p.2) (fun p _ => List.Perm.refl _) (fun _ _ _ => 1)
    [fun _ => 1, fun _ => 1, fun _ => 1, fun _ => 1] rfl
  rw [h1, Outcome.ok.injEq] at h3
  subst h3
  refine ⟨s, h1, h4, ?_, ?_⟩
  · intro d hd
    rw [h2 0 (0, 0) (fun _ => 1) d (by decide) rfl hd 0, if_neg (by simp)]
    have : blockOf false grid22 (0, 0) 0 = 1 := by decide +kernel
    rw [this]; norm_num
  · intro d hd
    rw [h2 1 (0, 1) (fun _ => 1) d (by decide) rfl hd 0, if_neg (by simp)]
    have : blockOf false grid22 (0, 1) 0 = 0 := by decide +kernel
    rw [this]; norm_num

/-- One state with symmetries: a 3x3 matrix on one process. -/
def grid33 : Layout := ⟨3, 3, 3, 3, 1, 1⟩

/-- **C54 is violated** with symmetries: the stored diagonal is divided by the factor nine times, once for each element
of the 3x3 block, while the matrix is divided once. -/
theorem C54_violated_symmetries : ∃ s, a2Omega true true 1 grid33 [] (fun _ => 2) grid33.procs
      (fun p => grid33.getAllLocalStates p.1 p.2) ⟨fun _ _ _ => 1, [fun _ => 1], false⟩ = .ok s ∧
      gridSum grid33 s.matrix 0 0 = 1 / 2 ∧ ∀ d, s.diags[0]? = some d → d 0 = 1 / 2 ^ 9 := by
  have hF : OmegaFits grid33 := ⟨⟨by decide, by decide, by decide, by decide⟩, by decide, by decide, by decide⟩
  obtain ⟨s, h1, h2⟩ := C54_diagonal_actual true 1 grid33 hF [] (fun _ => 2)
    (fun p => grid33.getAllLocalStates p.1 p.2) (fun p _ => List.Perm.refl _) (fun _ _ _ => 1) [fun _ => 1] rfl
  obtain ⟨s', h3, _, _, h4, _⟩ := C54_matrix true 1 grid33 hF [] (fun _ => 2)
    (fun p => grid33.getAllLocalStates p.1 p.2) (fun p _ => List.Perm.refl _) (fun _ _ _ => 1) [fun _ => 1] rfl
  rw [h1, Outcome.ok.injEq] at h3
  subst h3
  refine ⟨s, h1, ?_, ?_⟩
  · rw [h4 0 0 (by decide) (by decide), if_neg (by simp), Real.sqrt_mul_self (by norm_num)]
    have : gridSum grid33 (fun _ _ _ => (1 : ℝ)) 0 0 = 1 := by
      rw [gridSum_value grid33 hF.good]
      rfl
    rw [this]
  · intro d hd
    rw [h2 0 (0, 0) (fun _ => 1) d (by decide) rfl hd 0, if_neg (by simp)]
    have : blockOf true grid33 (0, 0) 0 = 9 := by decide +kernel
    rw [this]

/-! ## C55 -/

/-- **C55** (read back): the linewidths read after they are set are those that were set, for phonons (nonzero
population factors) or for a symmetrised matrix, on every process, with or without the matrix in memory.  Partial: in
the constant relaxation time mode it fails (`C55_violated_constant`), and for electrons with a matrix that is not
symmetrised the linewidths cannot be read (`C55_electrons`). -/
theorem C55_read_back_partial {α : Type} [Field α] (highMemory sym omega isElectron : Bool) (L : Layout)
    (numCalc n : Nat) (hL : highMemory = true → MatrixFits sym n L []) (pop lw : Nat → Nat → α)
    (diags : List (Nat → Nat → α)) (hd : diags.length = L.procs.length) (m : DistData α)
    (hmode : omega = true ∨ isElectron = false) (hpop : ∀ c b, c < numCalc → b < n → pop c b ≠ 0) :
    ∃ m' diags', setLinewidths highMemory sym omega L numCalc n numCalc n pop lw L.procs diags m = .ok (m', diags') ∧
      diags'.length = diags.length ∧
      ∀ d ∈ diags', ∃ r, getLinewidths none omega isElectron pop d = .ok r ∧
        ∀ c b, c < numCalc → b < n → r c b = lw c b := by
  have hset : ∀ d : Nat → Nat → α, ∃ d', setDiagonal omega numCalc n numCalc n pop lw d = .ok d' ∧
      ∀ c b, c < numCalc → b < n → d' c b = if omega then lw c b else lw c b * pop c b := by
    intro d
    unfold setDiagonal
    rw [if_neg (by simp), if_neg (by simp)]
    by_cases ho : omega = true
    · rw [if_pos ho]
      exact ⟨lw, rfl, fun c b _ _ => by rw [if_pos ho]⟩
    · rw [if_neg ho]
      exact ⟨_, rfl, fun c b hc hb => by rw [if_neg ho, if_pos ⟨hc, hb⟩]⟩
  choose g hg using hset
  have hmap : mapOutcome (fun d => setDiagonal omega numCalc n numCalc n pop lw d) diags = .ok (diags.map g) :=
    mapOutcome_ok _ (fun d _ => (hg d).1)
  have hread : ∀ d ∈ diags.map g, ∃ r, getLinewidths none omega isElectron pop d = .ok r ∧
        ∀ c b, c < numCalc → b < n → r c b = lw c b := by
    intro d hd
    obtain ⟨d0, _, rfl⟩ := List.mem_map.mp hd
    unfold getLinewidths
    by_cases ho : omega = true
    · simp only [if_pos ho]
      exact ⟨_, rfl, fun c b hc hb => by rw [(hg d0).2 c b hc hb, if_pos ho]⟩
    · simp only [if_neg ho]
      rw [if_neg (by rw [hmode.resolve_left ho]; simp)]
      refine ⟨_, rfl, fun c b hc hb => ?_⟩
      rw [(hg d0).2 c b hc hb, if_neg ho, mul_div_cancel_right₀ _ (hpop c b hc hb)]
  unfold setLinewidths
  simp only [Outcome.bind_eq]
  rw [hmap]
  simp only [Outcome.bind_ok]
  by_cases hh : highMemory = true
  · rw [if_pos hh]
    have hF := hL hh
    have hok : ∃ m', onProcesses (fun p (d : Nat → Nat → α) => placeDiagonal sym n L p.1 p.2 (d 0))
        (L.procs.zip (diags.map g)) m = .ok m' := by
      have hone : ∀ (p : Nat × Nat) (d : Nat → Nat → α), ∃ g : DistData α → DistData α,
          ∀ m, placeDiagonal sym n L p.1 p.2 (d 0) m = .ok (g m) := by
        intro p d
        obtain ⟨g, hg, _⟩ := placeDiagonal_val sym n L hF.good hF.rows hF.cols hF.small p (d 0)
        exact ⟨g, hg⟩
      choose g2 hg2 using hone
      exact ⟨_, onProcesses_ok _ g2 _ m (fun x _ m => hg2 x.1 x.2 m)⟩
    obtain ⟨m', h⟩ := hok
    rw [h]
    exact ⟨m', diags.map g, rfl, by simp, hread⟩
  · rw [if_neg hh]
    exact ⟨m, diags.map g, rfl, by simp, hread⟩

/-- **C55** (matrix): with the matrix in memory, after the linewidths are set the diagonal of the matrix is the stored
diagonal of every process (with symmetries: the diagonal 3x3 block of each state is the stored diagonal times the
identity), and the other elements are unchanged. -/
theorem C55_matrix_diagonal {α : Type} [Field α] (sym omega : Bool) (L : Layout)
    (numCalc n : Nat) (hc : 0 < numCalc) (hL : MatrixFits sym n L []) (pop lw : Nat → Nat → α)
    (diags : List (Nat → Nat → α)) (hd : diags.length = L.procs.length) (m : DistData α) :
    ∃ m' diags', setLinewidths true sym omega L numCalc n numCalc n pop lw L.procs diags m = .ok (m', diags') ∧
      diags'.length = diags.length ∧
      ∀ b1 b2 i j, b1 < n → b2 < n → i < 3 → j < 3 →
        (b1 = b2 → ∀ d ∈ diags', gridSum L m' (stateRow sym b1 i) (stateRow sym b2 j) =
          if sym = true ∧ i ≠ j then 0 else d 0 b1) ∧
        (b1 ≠ b2 → gridSum L m' (stateRow sym b1 i) (stateRow sym b2 j) =
          gridSum L m (stateRow sym b1 i) (stateRow sym b2 j)) := by
  have hset : ∀ d : Nat → Nat → α, ∃ d', setDiagonal omega numCalc n numCalc n pop lw d = .ok d' ∧
      ∀ b, b < n → d' 0 b = if omega then lw 0 b else lw 0 b * pop 0 b := by
    intro d
    unfold setDiagonal
    rw [if_neg (by simp), if_neg (by simp)]
    by_cases ho : omega = true
    · rw [if_pos ho]
      exact ⟨lw, rfl, fun b _ => by rw [if_pos ho]⟩
    · rw [if_neg ho]
      exact ⟨_, rfl, fun b hb => by rw [if_neg ho, if_pos ⟨hc, hb⟩]⟩
  choose g hg using hset
  have hmap : mapOutcome (fun d => setDiagonal omega numCalc n numCalc n pop lw d) diags = .ok (diags.map g) :=
    mapOutcome_ok _ (fun d _ => (hg d).1)
  have hfst : (L.procs.zip (diags.map g)).map (·.1) = L.procs := by
    apply List.map_fst_zip; rw [List.length_map, hd]
  obtain ⟨m', h1, h2⟩ := placeAll_val sym n L hL.good hL.rows hL.cols hL.small
    (fun (d : Nat → Nat → α) => d 0) (fun b => if omega then lw 0 b else lw 0 b * pop 0 b)
    (L.procs.zip (diags.map g)) (fun x hx b hb => by
      obtain ⟨d0, _, h⟩ := List.mem_map.mp (List.of_mem_zip hx).2
      rw [← h]; exact (hg d0).2 b hb) m
  refine ⟨m', diags.map g, ?_, by simp, ?_⟩
  · unfold setLinewidths
    simp only [Outcome.bind_eq]
    rw [hmap]
    simp only [Outcome.bind_ok, if_true]
    rw [h1]; rfl
  · intro b1 b2 i j hb1 hb2 hi hj
    have hs : ∀ b i, i < 3 → matState sym (matIndex sym b i) = b := by
      intro b i hi
      unfold matState matIndex
      cases sym <;> simp <;> omega
    rw [gridSum_value L hL.good, gridSum_value L hL.good, stateRow_eq, stateRow_eq,
      h2 _ _ (matIndex_lt sym hb1 hi) (matIndex_lt sym hb2 hj) (by rw [hfst]; exact owner_mem L hL.good _ _),
      hs b1 i hi, hs b2 j hj]
    constructor
    · rintro rfl d hd
      obtain ⟨d0, _, rfl⟩ := List.mem_map.mp hd
      rw [if_pos rfl, (hg d0).2 b1 hb1]
      by_cases hij : sym = true ∧ i ≠ j
      · rw [if_pos hij, if_neg]
        unfold matIndex; rw [hij.1]; simp only [if_true]
        have := hij.2
        omega
      · rw [if_neg hij, if_pos]
        unfold matIndex
        cases sym with
        | false => rfl
        | true =>
          have : i = j := by
            by_contra hne; exact hij ⟨rfl, hne⟩
          rw [this]
    · intro hne
      rw [if_neg hne]

/-- **C55** (refused): linewidths for another number of calculations or states are refused. -/
theorem C55_refused {α : Type} [Field α] (highMemory sym omega : Bool) (L : Layout) (numCalc n numCalc' n' : Nat)
    (h : numCalc ≠ numCalc' ∨ n ≠ n') (pop lw : Nat → Nat → α) (procs : List (Nat × Nat))
    (d : Nat → Nat → α) (diags : List (Nat → Nat → α)) (m : DistData α) :
    setLinewidths highMemory sym omega L numCalc n numCalc' n' pop lw procs (d :: diags) m = .error := by
  have : setDiagonal omega numCalc n numCalc' n' pop lw d = .error := by
    unfold setDiagonal
    by_cases h1 : numCalc ≠ numCalc'
    · rw [if_pos h1]
    · rw [if_neg h1, if_pos (h.resolve_left h1)]
  unfold setLinewidths mapOutcome
  simp only [this]
  rfl

/-- Electrons: linewidths of a matrix that is not symmetrised are refused rather than divided by a population factor
that can vanish. -/
theorem C55_electrons {α : Type} [Field α] (pop diag : Nat → Nat → α) :
    getLinewidths none false true pop diag = .error := rfl

/-- Phonons on one process, two states, two calculations: the hypotheses hold. -/
example : MatrixFits true 2 ⟨6, 6, 4, 4, 2, 2⟩ [] ∧ ∀ c b : Nat, c < 2 → b < 2 → ((c + b + 1 : Nat) : ℚ) ≠ 0 :=
  ⟨⟨⟨by decide, by decide, by decide, by decide⟩, rfl, rfl, by decide, by simp⟩,
    fun c b _ _ => by exact_mod_cast Nat.succ_ne_zero (c + b)⟩

/-- **C55 is violated** in the constant relaxation time mode: the linewidths that are read are the constant, not those
that were set. -/
theorem C55_violated_constant : ∃ (m' : DistData ℚ) (diags' : List (Nat → Nat → ℚ)),
    setLinewidths false false true grid11 1 2 1 2 (fun _ _ => 1) (fun _ b => (b : ℚ)) grid11.procs [fun _ _ => 5]
      (fun _ _ _ => 0) = .ok (m', diags') ∧
    ∀ d ∈ diags', ∀ r, getLinewidths (some 7) true false (fun _ _ => 1) d = .ok r → r 0 1 = 7 := by
  refine ⟨_, _, rfl, ?_⟩
  intro d _ r hr
  unfold getLinewidths at hr
  simp only [Outcome.ok.injEq] at hr
  subst hr; rfl

end Verif.Props
