import Verif.Model.ScatMatrix
import Verif.Proofs.Pairs
import Verif.Proofs.VectorBte
import Verif.Proofs.IrrPoints
import Verif.Proofs.Degeneracy
import Verif.Props.Matrix
import Mathlib.Tactic.Ring
import Mathlib.Tactic.Linarith

namespace Verif.Model
open Verif.Props (Contribution gridSum C23_accumulate)

/-! ## General lemmas -/

theorem foldOutcome_ok {β σ : Type} (f : β → σ → Outcome σ) (g : β → σ → σ) (l : List β) (s : σ)
    (h : ∀ b ∈ l, ∀ s, f b s = .ok (g b s)) : foldOutcome f l s = .ok (l.foldl (fun s b => g b s) s) := by
  induction l generalizing s with
  | nil => rfl
  | cons b t ih =>
    unfold foldOutcome
    rw [h b (by simp)]
    simp only [Outcome.bind_eq, Outcome.bind_ok]
    rw [ih _ (fun b hb => h b (by simp [hb]))]
    rfl

/-- Matrix index of component `i` of state `b`. -/
def matIndex (sym : Bool) (b i : Nat) : Nat := if sym then b * 3 + i else b

/-- Size of the matrix. -/
def matSize (sym : Bool) (n : Nat) : Nat := if sym then n * 3 else n

/-- State of a matrix index. -/
def matState (sym : Bool) (k : Nat) : Nat := if sym then k / 3 else k

/-- The process that stores an element. -/
def Layout.owner (L : Layout) (i j : Nat) : Nat × Nat :=
  (own L.blockSizeRows L.numBlasRows i, own L.blockSizeCols L.numBlasCols j)

theorem owner_mem (L : Layout) (hL : L.Good) (i j : Nat) : L.owner i j ∈ L.procs :=
  (mem_grid _).mpr ⟨Nat.mod_lt _ hL.pr, Nat.mod_lt _ hL.pc⟩

theorem local_iff_owner (L : Layout) (p : Nat × Nat) (i j : Nat) :
    L.global2Local p.1 p.2 i j ≠ -1 ↔ p = L.owner i j := by
  rw [global2Local_ne]
  constructor
  · rintro ⟨h1, h2⟩; exact Prod.ext h1 h2
  · intro h; rw [h]; exact ⟨rfl, rfl⟩

theorem gridSum_value {α : Type} [AddMonoid α] (L : Layout) (hL : L.Good) (m : DistData α) (i j : Nat) :
    gridSum L m i j = L.value m i j := sum_get L hL m i j

theorem value_set {α : Type} [Zero α] (L : Layout) (hL : L.Good) (m : DistData α) (p : Nat × Nat) (v : α)
    {i j i' j' : Nat} (hi : i < L.numRows) (hj : j < L.numCols) (hi' : i' < L.numRows) (hj' : j' < L.numCols) :
    L.value (L.set m p.1 p.2 i j v) i' j' = if p = L.owner i' j' ∧ i' = i ∧ j' = j then v else L.value m i' j' := by
  unfold Layout.value
  rw [get_set L hL m hi hj hi' hj']
  by_cases h : p = L.owner i' j' ∧ i' = i ∧ j' = j
  · obtain ⟨rfl, rfl, rfl⟩ := h
    rw [if_pos ⟨⟨rfl, rfl, rfl, rfl⟩, rfl, rfl⟩, if_pos ⟨rfl, rfl, rfl⟩]
  · rw [if_neg h, if_neg]
    rintro ⟨⟨h1, h2, h3, h4⟩, h5, h6⟩
    subst h3 h4
    exact h ⟨Prod.ext h5 h6, rfl, rfl⟩

theorem value_addTo' {α : Type} [AddMonoid α] (L : Layout) (hL : L.Good) (m : DistData α) (p : Nat × Nat) (v : α)
    {i j i' j' : Nat} (hi : i < L.numRows) (hj : j < L.numCols) (hi' : i' < L.numRows) (hj' : j' < L.numCols) :
    L.value (L.addTo m p.1 p.2 i j v) i' j' =
      if p = L.owner i' j' ∧ i' = i ∧ j' = j then L.value m i' j' + v else L.value m i' j' := by
  rw [value_addTo L hL m hi hj hi' hj']
  by_cases h : p = L.owner i' j' ∧ i' = i ∧ j' = j
  · obtain ⟨rfl, rfl, rfl⟩ := h
    rw [if_pos ⟨rfl, rfl, rfl, rfl⟩, if_pos ⟨rfl, rfl, rfl⟩]
  · rw [if_neg h, if_neg, add_zero]
    rintro ⟨h1, h2, h3, h4⟩
    subst h1 h2
    exact h ⟨Prod.ext h3 h4, rfl, rfl⟩

/-- Steps that overwrite values with those of one function. -/
theorem value_overwrite {α β : Type} [Zero α] (L : Layout) (step : β → DistData α → DistData α)
    (P : β → Nat → Nat → Prop) [∀ b i j, Decidable (P b i j)] (G : Nat → Nat → α) (i j : Nat)
    (l : List β) (h : ∀ b ∈ l, ∀ m, L.value (step b m) i j = if P b i j then G i j else L.value m i j) (m : DistData α) :
    L.value (l.foldl (fun m b => step b m) m) i j = if ∃ b ∈ l, P b i j then G i j else L.value m i j := by
  induction l generalizing m with
  | nil => simp
  | cons b t ih =>
    rw [List.foldl_cons, ih (fun b hb => h b (by simp [hb])), h b (by simp)]
    by_cases h1 : ∃ b ∈ t, P b i j
    · obtain ⟨b', hb', hP⟩ := h1
      rw [if_pos ⟨b', hb', hP⟩, if_pos ⟨b', by simp [hb'], hP⟩]
    · rw [if_neg h1]
      by_cases h2 : P b i j
      · rw [if_pos h2, if_pos ⟨b, by simp, h2⟩]
      · rw [if_neg h2, if_neg]
        rintro ⟨b', hb', hP⟩
        rcases List.mem_cons.mp hb' with rfl | hb'
        · exact h2 hP
        · exact h1 ⟨b', hb', hP⟩

theorem onProcesses_ok {α β : Type} (f : Nat × Nat → β → DistData α → Outcome (DistData α))
    (g : Nat × Nat → β → DistData α → DistData α) (l : List ((Nat × Nat) × β)) (m : DistData α)
    (h : ∀ x ∈ l, ∀ m, f x.1 x.2 m = .ok (g x.1 x.2 m)) :
    onProcesses f l m = .ok (l.foldl (fun m x => g x.1 x.2 m) m) := by
  induction l generalizing m with
  | nil => rfl
  | cons x t ih =>
    obtain ⟨p, b⟩ := x
    unfold onProcesses
    rw [h (p, b) (by simp)]
    simp only [Outcome.bind_eq, Outcome.bind_ok]
    rw [ih _ (fun x hx => h x (by simp [hx]))]
    rfl

/-- Sum of a list grouped by a key. -/
theorem sum_by_key {α β : Type} [AddCommMonoid α] (l : List β) (key : β → Nat) (n : Nat) (h : ∀ b ∈ l, key b < n)
    (f : β → α) : (l.map f).sum = ((List.range n).map fun k => ((l.filter fun b => key b = k).map f).sum).sum := by
  induction l with
  | nil => simp
  | cons b t ih =>
    rw [List.map_cons, List.sum_cons, ih (fun b hb => h b (by simp [hb]))]
    have e : ((List.range n).map fun k => (((b :: t).filter fun b => key b = k).map f).sum) =
        (List.range n).map fun k => (if k = key b then f b else 0) + ((t.filter fun b => key b = k).map f).sum := by
      apply List.map_congr_left
      intro k _
      by_cases hk : key b = k
      · rw [List.filter_cons_of_pos (by simpa using hk), List.map_cons, List.sum_cons, if_pos hk.symm]
      · rw [List.filter_cons_of_neg (by simpa using hk), if_neg (fun h => hk h.symm), zero_add]
    rw [e, List.sum_map_add]
    congr 1
    rw [sum_single (List.range n) List.nodup_range (key b) (by simpa using h b (by simp))]
    · rw [if_pos rfl]
    · intro a _ hne; rw [if_neg hne]

theorem addAt_val {α : Type} [Add α] (f : Nat → α) (b : Nat) (v : α) (b' : Nat) :
    addAt f b v b' = if b' = b then f b' + v else f b' := rfl

/-! ## Loops over events -/

/-- The matrix updates of an event. -/
def evOps {α : Type} [Mul α] (sym : Bool) (p : Nat × Nat) (e : ScatEvent α) : List (Contribution α) :=
  if sym then
    if e.is1 ≠ e.is2Irr then cart9.map fun ij =>
      ⟨p.1, p.2, e.bte1 * 3 + ij.1, e.bte2 * 3 + ij.2, e.rotInv ij.1 ij.2 * e.rateOff⟩
    else []
  else [⟨p.1, p.2, e.bte1, e.bte2, e.rateOff⟩]

/-- The linewidth update of an event. -/
def evRate {α : Type} [Zero α] (sym : Bool) (L : Layout) (p : Nat × Nat) (e : ScatEvent α) : α :=
  if p = L.owner (matIndex sym e.bte1 0) (matIndex sym e.bte2 0) then e.rate else 0

theorem addTo_nonowner {α : Type} [AddMonoid α] (L : Layout) (m : DistData α) {p : Nat × Nat} {i j : Nat} (v : α)
    (h : ¬ p = L.owner i j) : L.addTo m p.1 p.2 i j v = m := by
  unfold Layout.addTo
  exact set_nonowner L m _ (fun hc => h (Prod.ext hc.1 hc.2))

theorem matrixEvent_val {α : Type} [Semiring α] (sym : Bool) (n : Nat) (L : Layout) (p : Nat × Nat) (e : ScatEvent α)
    (h1 : e.bte1 < n) (h2 : e.bte2 < n) (hfit : (n : Int) * 3 ≤ intMax) (s : DistData α × (Nat → α)) :
    matrixEvent sym n L p.1 p.2 e s =
      .ok ((evOps sym p e).foldl (fun a o => L.addTo a o.pr o.pc o.row o.col o.v) s.1, addAt s.2 e.bte1 (evRate sym L p e)) := by
  have hadd0 : ∀ f : Nat → α, addAt f e.bte1 0 = f := by
    intro f; funext b; rw [addAt_val]; split
    · rw [add_zero]
    · rfl
  cases sym with
  | false =>
    unfold matrixEvent evOps evRate
    simp only [Bool.false_eq_true, if_false, List.foldl_cons, List.foldl_nil, matIndex, Outcome.ok.injEq]
    refine Prod.ext rfl ?_
    simp only [local_iff_owner L p]
    split
    · rfl
    · rw [hadd0]
  | true =>
    unfold matrixEvent
    simp only [if_true]
    have key : ∀ (l : List (Nat × Nat)), (∀ ij ∈ l, ij.1 < 3 ∧ ij.2 < 3) → ∀ s : DistData α × (Nat → α),
        foldOutcome (fun (ij : Nat × Nat) (s : DistData α × (Nat → α)) => do
          let iMat1 ← smatIndex true n e.bte1 ij.1
          let iMat2 ← smatIndex true n e.bte2 ij.2
          if L.global2Local p.1 p.2 iMat1 iMat2 ≠ -1 then
            .ok (if e.is1 ≠ e.is2Irr then L.addTo s.1 p.1 p.2 iMat1 iMat2 (e.rotInv ij.1 ij.2 * e.rateOff) else s.1,
              if ij.1 = 0 ∧ ij.2 = 0 then addAt s.2 e.bte1 e.rate else s.2)
          else .ok s) l s =
        .ok (((if e.is1 ≠ e.is2Irr then l.map fun ij =>
            (⟨p.1, p.2, e.bte1 * 3 + ij.1, e.bte2 * 3 + ij.2, e.rotInv ij.1 ij.2 * e.rateOff⟩ : Contribution α)
          else []).foldl (fun a o => L.addTo a o.pr o.pc o.row o.col o.v) s.1),
          addAt s.2 e.bte1 ((l.map fun ij => if ij.1 = 0 ∧ ij.2 = 0 then evRate true L p e else 0).sum)) := by
      intro l
      induction l with
      | nil =>
        intro _ s
        simp only [List.map_nil, List.sum_nil, hadd0, ite_self, List.foldl_nil]
        rfl
      | cons ij t ih =>
        intro hl s
        obtain ⟨hi, hj⟩ := hl ij (by simp)
        simp only [Outcome.bind_eq] at ih
        unfold foldOutcome
        rw [smatIndex_val true n e.bte1 ij.1 h1 hi hfit, smatIndex_val true n e.bte2 ij.2 h2 hj hfit]
        simp only [Outcome.bind_eq, Outcome.bind_ok, if_true]
        by_cases hloc : L.global2Local p.1 p.2 (e.bte1 * 3 + ij.1) (e.bte2 * 3 + ij.2) ≠ -1
        · rw [if_pos hloc]
          simp only [Outcome.bind_ok]
          rw [ih (fun x hx => hl x (by simp [hx]))]
          congr 1
          refine Prod.ext ?_ ?_
          · simp only
            by_cases hne : e.is1 ≠ e.is2Irr
            · rw [if_pos hne, if_pos hne, if_pos hne, List.map_cons, List.foldl_cons]
            · rw [if_neg hne, if_neg hne, if_neg hne]
          · simp only [List.map_cons, List.sum_cons]
            by_cases h00 : ij.1 = 0 ∧ ij.2 = 0
            · rw [if_pos h00, if_pos h00]
              have : evRate true L p e = e.rate := by
                unfold evRate matIndex
                simp only [if_true]
                rw [if_pos]
                rw [h00.1, h00.2] at hloc
                exact (local_iff_owner L p _ _).mp hloc
              rw [this]
              funext b
              rw [addAt_val, addAt_val, addAt_val]
              split
              · rw [add_assoc]
              · rfl
            · rw [if_neg h00, if_neg h00, zero_add]
        · rw [if_neg hloc]
          simp only [Outcome.bind_ok]
          rw [ih (fun x hx => hl x (by simp [hx]))]
          have hno : ¬ p = L.owner (e.bte1 * 3 + ij.1) (e.bte2 * 3 + ij.2) := fun h => hloc ((local_iff_owner L p _ _).mpr h)
          congr 1
          refine Prod.ext ?_ ?_
          · simp only
            by_cases hne : e.is1 ≠ e.is2Irr
            · rw [if_pos hne, if_pos hne, List.map_cons, List.foldl_cons, addTo_nonowner L _ _ hno]
            · rw [if_neg hne, if_neg hne]
          · simp only [List.map_cons, List.sum_cons]
            by_cases h00 : ij.1 = 0 ∧ ij.2 = 0
            · rw [if_pos h00]
              have : evRate true L p e = 0 := by
                unfold evRate matIndex
                simp only [if_true]
                rw [if_neg]
                rw [h00.1, h00.2] at hno
                exact hno
              rw [this, zero_add]
            · rw [if_neg h00, zero_add]
    rw [key cart9 (by decide) s]
    have : (cart9.map fun ij => if ij.1 = 0 ∧ ij.2 = 0 then evRate true L p e else 0).sum = evRate true L p e := by
      simp [cart9]
    rw [this]
    rfl

theorem matrixProcess_val {α : Type} [Semiring α] (sym : Bool) (n : Nat) (L : Layout) (p : Nat × Nat)
    (events : List (ScatEvent α)) (hev : ∀ e ∈ events, e.bte1 < n ∧ e.bte2 < n) (hfit : (n : Int) * 3 ≤ intMax)
    (m : DistData α) : ∃ lw, matrixProcess sym n L p events m =
      .ok ((events.flatMap (evOps sym p)).foldl (fun a o => L.addTo a o.pr o.pc o.row o.col o.v) m, lw) ∧
      ∀ b, lw b = ((events.filter fun e => e.bte1 = b).map fun e => evRate sym L p e).sum := by
  unfold matrixProcess
  rw [foldOutcome_ok _ (fun e (s : DistData α × (Nat → α)) =>
    ((evOps sym p e).foldl (fun a o => L.addTo a o.pr o.pc o.row o.col o.v) s.1, addAt s.2 e.bte1 (evRate sym L p e)))
    events _ (fun e he s => matrixEvent_val sym n L p e (hev e he).1 (hev e he).2 hfit s)]
  have key : ∀ (l : List (ScatEvent α)) (s : DistData α × (Nat → α)), ∃ lw,
      l.foldl (fun (s : DistData α × (Nat → α)) e =>
        ((evOps sym p e).foldl (fun a o => L.addTo a o.pr o.pc o.row o.col o.v) s.1,
          addAt s.2 e.bte1 (evRate sym L p e))) s =
      ((l.flatMap (evOps sym p)).foldl (fun a o => L.addTo a o.pr o.pc o.row o.col o.v) s.1, lw) ∧
      ∀ b, lw b = s.2 b + ((l.filter fun e => e.bte1 = b).map fun e => evRate sym L p e).sum := by
    intro l
    induction l with
    | nil => intro s; exact ⟨s.2, rfl, fun b => by simp⟩
    | cons e t ih =>
      intro s
      rw [List.foldl_cons, List.flatMap_cons, List.foldl_append]
      obtain ⟨lw, h1, h2⟩ := ih ((evOps sym p e).foldl (fun a o => L.addTo a o.pr o.pc o.row o.col o.v) s.1,
        addAt s.2 e.bte1 (evRate sym L p e))
      refine ⟨lw, h1, ?_⟩
      intro b
      rw [h2]
      simp only [addAt_val]
      by_cases hb : e.bte1 = b
      · rw [if_pos hb.symm, List.filter_cons_of_pos (by simpa using hb), List.map_cons, List.sum_cons, add_assoc]
      · rw [if_neg (fun h => hb h.symm), List.filter_cons_of_neg (by simpa using hb)]
  obtain ⟨lw, h1, h2⟩ := key events (m, fun _ => 0)
  exact ⟨lw, by rw [h1], fun b => by rw [h2]; simp⟩

theorem matrixLoops_val {α : Type} [Semiring α] (sym : Bool) (n : Nat) (L : Layout)
    (events : Nat × Nat → List (ScatEvent α)) (procs : List (Nat × Nat))
    (hev : ∀ p ∈ procs, ∀ e ∈ events p, e.bte1 < n ∧ e.bte2 < n) (hfit : (n : Int) * 3 ≤ intMax)
    (m : DistData α) : ∃ lws, matrixLoops sym n L events procs m =
      .ok ((procs.flatMap fun p => (events p).flatMap (evOps sym p)).foldl
        (fun a o => L.addTo a o.pr o.pc o.row o.col o.v) m, lws) ∧ lws.length = procs.length ∧
      ∀ b, (lws.map fun f => f b).sum =
        (procs.map fun p => (((events p).filter fun e => e.bte1 = b).map fun e => evRate sym L p e).sum).sum := by
  induction procs generalizing m with
  | nil => exact ⟨[], rfl, rfl, fun b => by simp⟩
  | cons p ps ih =>
    obtain ⟨lw, h1, h2⟩ := matrixProcess_val sym n L p (events p) (hev p (by simp)) hfit m
    obtain ⟨lws, h3, h4, h5⟩ := ih (fun q hq => hev q (by simp [hq]))
      (((events p).flatMap (evOps sym p)).foldl (fun a o => L.addTo a o.pr o.pc o.row o.col o.v) m)
    refine ⟨lw :: lws, ?_, by simp [h4], ?_⟩
    · unfold matrixLoops
      rw [h1]
      simp only [Outcome.bind_eq, Outcome.bind_ok]
      rw [h3]
      simp only [Outcome.bind_ok, List.flatMap_cons, List.foldl_append]
    · intro b
      rw [List.map_cons, List.sum_cons, h5, h2, List.map_cons, List.sum_cons]

/-- Value added to element `(i0, j0)` of the block of an event. -/
def evVal {α : Type} [Zero α] [Mul α] (sym : Bool) (e : ScatEvent α) (i0 j0 : Nat) : α :=
  if sym then (if e.is1 ≠ e.is2Irr then e.rotInv i0 j0 * e.rateOff else 0) else e.rateOff

theorem sum_ite_filter {α β : Type} [AddMonoid α] (l : List β) (P : β → Prop) [DecidablePred P] (f : β → α) :
    (l.map fun b => if P b then f b else 0).sum = ((l.filter fun b => P b).map f).sum := by
  induction l with
  | nil => rfl
  | cons b t ih =>
    by_cases h : P b
    · rw [List.map_cons, List.sum_cons, if_pos h, ih, List.filter_cons_of_pos (by simpa using h), List.map_cons, List.sum_cons]
    · rw [List.map_cons, List.sum_cons, if_neg h, ih, List.filter_cons_of_neg (by simpa using h), zero_add]

/-- The updates of an event seen at one element. -/
theorem evOps_sum {α : Type} [Semiring α] (sym : Bool) (L : Layout) (p : Nat × Nat) (e : ScatEvent α)
    (b1 b2 i0 j0 : Nat) (hi : i0 < 3) (hj : j0 < 3) :
    (((evOps sym p e).filter (fun o => o.row = matIndex sym b1 i0 ∧ o.col = matIndex sym b2 j0 ∧
      L.global2Local o.pr o.pc (matIndex sym b1 i0) (matIndex sym b2 j0) ≠ -1)).map (·.v)).sum =
    if p = L.owner (matIndex sym b1 i0) (matIndex sym b2 j0) then
      (if e.bte1 = b1 ∧ e.bte2 = b2 then evVal sym e i0 j0 else 0) else 0 := by
  have hrow : ∀ o ∈ evOps sym p e, o.pr = p.1 ∧ o.pc = p.2 := by
    intro o ho
    unfold evOps at ho
    split at ho
    · split at ho
      · obtain ⟨ij, _, rfl⟩ := List.mem_map.mp ho
        exact ⟨rfl, rfl⟩
      · simp at ho
    · simp only [List.mem_singleton] at ho
      subst ho; exact ⟨rfl, rfl⟩
  by_cases hp : p = L.owner (matIndex sym b1 i0) (matIndex sym b2 j0)
  · rw [if_pos hp]
    have hl := (local_iff_owner L p _ _).mpr hp
    have e1 : (evOps sym p e).filter (fun o => o.row = matIndex sym b1 i0 ∧ o.col = matIndex sym b2 j0 ∧
        L.global2Local o.pr o.pc (matIndex sym b1 i0) (matIndex sym b2 j0) ≠ -1) =
        (evOps sym p e).filter (fun o => o.row = matIndex sym b1 i0 ∧ o.col = matIndex sym b2 j0) := by
      apply List.filter_congr
      intro o ho
      obtain ⟨h1, h2⟩ := hrow o ho
      rw [h1, h2, decide_eq_decide]
      exact ⟨fun h => ⟨h.1, h.2.1⟩, fun h => ⟨h.1, h.2, hl⟩⟩
    rw [e1, ← sum_ite_filter]
    unfold evOps evVal
    cases sym with
    | false =>
      simp only [Bool.false_eq_true, if_false, matIndex, List.map_cons, List.map_nil, List.sum_cons, List.sum_nil, add_zero]
    | true =>
      simp only [if_true, matIndex]
      by_cases hne : e.is1 ≠ e.is2Irr
      · simp only [if_pos hne, List.map_map]
        have hf : ((fun o : Contribution α => if o.row = b1 * 3 + i0 ∧ o.col = b2 * 3 + j0 then o.v else 0) ∘
            fun ij : Nat × Nat => (⟨p.1, p.2, e.bte1 * 3 + ij.1, e.bte2 * 3 + ij.2, e.rotInv ij.1 ij.2 * e.rateOff⟩ :
              Contribution α)) = fun ij : Nat × Nat => if e.bte1 * 3 + ij.1 = b1 * 3 + i0 ∧ e.bte2 * 3 + ij.2 = b2 * 3 + j0 then
                e.rotInv ij.1 ij.2 * e.rateOff else 0 := rfl
        rw [hf]
        have hmem : (i0, j0) ∈ cart9 := by
          unfold cart9
          have a1 : i0 = 0 ∨ i0 = 1 ∨ i0 = 2 := by omega
          have a2 : j0 = 0 ∨ j0 = 1 ∨ j0 = 2 := by omega
          rcases a1 with rfl | rfl | rfl <;> rcases a2 with rfl | rfl | rfl <;> simp
        have hlt : ∀ ij ∈ cart9, ij.1 < 3 ∧ ij.2 < 3 := by decide
        by_cases hb : e.bte1 = b1 ∧ e.bte2 = b2
        · rw [if_pos hb, sum_single cart9 (by decide) (i0, j0) hmem]
          · simp only
            rw [if_pos ⟨by rw [hb.1], by rw [hb.2]⟩]
          · intro ij _ hne'
            rw [if_neg]
            rintro ⟨h1, h2⟩
            rw [hb.1] at h1; rw [hb.2] at h2
            exact hne' (Prod.ext (by omega) (by omega))
        · rw [if_neg hb]
          apply List.sum_eq_zero
          intro x hx
          obtain ⟨ij, hij, rfl⟩ := List.mem_map.mp hx
          obtain ⟨h3, h4⟩ := hlt ij hij
          rw [if_neg]
          rintro ⟨h1, h2⟩
          exact hb ⟨by omega, by omega⟩
      · simp only [if_neg hne, List.map_nil, List.sum_nil, ite_self]
  · rw [if_neg hp]
    have : (evOps sym p e).filter (fun o => o.row = matIndex sym b1 i0 ∧ o.col = matIndex sym b2 j0 ∧
        L.global2Local o.pr o.pc (matIndex sym b1 i0) (matIndex sym b2 j0) ≠ -1) = [] := by
      rw [List.filter_eq_nil_iff]
      intro o ho hc
      simp only [decide_eq_true_eq] at hc
      obtain ⟨h1, h2⟩ := hrow o ho
      rw [h1, h2] at hc
      exact hp ((local_iff_owner L p _ _).mp hc.2.2)
    rw [this]; rfl

/-- The matrix after the loops. -/
theorem loops_value {α : Type} [Semiring α] (sym : Bool) (n : Nat) (L : Layout) (hL : L.Good)
    (hr : L.numRows = matSize sym n) (hc : L.numCols = matSize sym n) (events : Nat × Nat → List (ScatEvent α))
    (hev : ∀ p ∈ L.procs, ∀ e ∈ events p, e.bte1 < n ∧ e.bte2 < n)
    (m : DistData α) (b1 b2 i0 j0 : Nat) (hb1 : b1 < n) (hb2 : b2 < n) (hi : i0 < 3) (hj : j0 < 3) :
    L.value ((L.procs.flatMap fun p => (events p).flatMap (evOps sym p)).foldl
        (fun a o => L.addTo a o.pr o.pc o.row o.col o.v) m) (matIndex sym b1 i0) (matIndex sym b2 j0) =
      L.value m (matIndex sym b1 i0) (matIndex sym b2 j0) +
        (((events (L.owner (matIndex sym b1 i0) (matIndex sym b2 j0))).filter
          fun e => e.bte1 = b1 ∧ e.bte2 = b2).map fun e => evVal sym e i0 j0).sum := by
  have hlt : ∀ b i, b < n → i < 3 → matIndex sym b i < matSize sym n := by
    intro b i hb hi
    unfold matIndex matSize
    cases sym <;> simp <;> omega
  rw [← gridSum_value L hL, C23_accumulate L hL _ _ m _ _ (by rw [hr]; exact hlt _ _ hb1 hi) (by rw [hc]; exact hlt _ _ hb2 hj),
    gridSum_value L hL]
  · congr 1
    have hsum : ∀ (l : List (ScatEvent α)) (p : Nat × Nat), (((l.flatMap (evOps sym p)).filter (fun o =>
        o.row = matIndex sym b1 i0 ∧ o.col = matIndex sym b2 j0 ∧
        L.global2Local o.pr o.pc (matIndex sym b1 i0) (matIndex sym b2 j0) ≠ -1)).map (·.v)).sum =
        (l.map fun e => if p = L.owner (matIndex sym b1 i0) (matIndex sym b2 j0) then
          (if e.bte1 = b1 ∧ e.bte2 = b2 then evVal sym e i0 j0 else 0) else 0).sum := by
      intro l p
      induction l with
      | nil => rfl
      | cons e t ih =>
        rw [List.flatMap_cons, List.filter_append, List.map_append, List.sum_append, ih, evOps_sum sym L p e b1 b2 i0 j0 hi hj,
          List.map_cons, List.sum_cons]
    have hall : ∀ ps : List (Nat × Nat), ((((ps.flatMap fun p => (events p).flatMap (evOps sym p))).filter (fun o =>
        o.row = matIndex sym b1 i0 ∧ o.col = matIndex sym b2 j0 ∧
        L.global2Local o.pr o.pc (matIndex sym b1 i0) (matIndex sym b2 j0) ≠ -1)).map (·.v)).sum =
        (ps.map fun p => ((events p).map fun e => if p = L.owner (matIndex sym b1 i0) (matIndex sym b2 j0) then
          (if e.bte1 = b1 ∧ e.bte2 = b2 then evVal sym e i0 j0 else 0) else 0).sum).sum := by
      intro ps
      induction ps with
      | nil => rfl
      | cons p t ih =>
        rw [List.flatMap_cons, List.filter_append, List.map_append, List.sum_append, ih, hsum, List.map_cons, List.sum_cons]
    rw [hall, sum_single L.procs (nodup_grid _ _) _ (owner_mem L hL (matIndex sym b1 i0) (matIndex sym b2 j0))]
    · simp only [if_true]
      rw [sum_ite_filter]
    · intro p _ hne
      apply List.sum_eq_zero
      intro x hx
      obtain ⟨e, _, rfl⟩ := List.mem_map.mp hx
      rw [if_neg hne]
  · intro o ho
    obtain ⟨p, hp, ho⟩ := List.mem_flatMap.mp ho
    obtain ⟨e, he, ho⟩ := List.mem_flatMap.mp ho
    obtain ⟨h1, h2⟩ := hev p hp e he
    rw [hr, hc]
    unfold evOps at ho
    cases sym with
    | false =>
      simp only [Bool.false_eq_true, if_false, List.mem_singleton] at ho
      subst ho
      exact ⟨h1, h2⟩
    | true =>
      simp only [if_true] at ho
      split at ho
      · obtain ⟨ij, hij, rfl⟩ := List.mem_map.mp ho
        have hlt : ∀ ij ∈ cart9, ij.1 < 3 ∧ ij.2 < 3 := by decide
        obtain ⟨h3, h4⟩ := hlt ij hij
        simp only [matSize, if_true]
        omega
      · simp at ho

/-! ## Diagonal -/

theorem matIndex_lt (sym : Bool) {n b i : Nat} (hb : b < n) (hi : i < 3) : matIndex sym b i < matSize sym n := by
  unfold matIndex matSize
  cases sym <;> simp <;> omega

/-- Pure form of `placeDiagonal`. -/
theorem placeDiagonal_val {α : Type} [AddMonoid α] (sym : Bool) (n : Nat) (L : Layout) (hL : L.Good)
    (hr : L.numRows = matSize sym n) (hc : L.numCols = matSize sym n) (hfit : (n : Int) * 3 ≤ intMax)
    (p : Nat × Nat) (diag : Nat → α) : ∃ g : DistData α → DistData α,
      (∀ m, placeDiagonal sym n L p.1 p.2 diag m = .ok (g m)) ∧
      ∀ m i j, i < matSize sym n → j < matSize sym n → L.value (g m) i j =
        if p = L.owner i j ∧ matState sym i = matState sym j then (if i = j then diag (matState sym i) else 0)
        else L.value m i j := by
  cases sym with
  | false =>
    refine ⟨fun m => (List.range n).foldl (fun m is => L.set m p.1 p.2 is is (diag is)) m, fun m => rfl, ?_⟩
    intro m i j hi hj
    have hi : i < n := hi
    have hj : j < n := hj
    rw [value_overwrite L (fun is m => L.set m p.1 p.2 is is (diag is))
      (fun is i j => p = L.owner i j ∧ i = is ∧ j = is) (fun i _ => diag i) i j (List.range n)]
    · simp only [matState, Bool.false_eq_true, if_false]
      by_cases h : p = L.owner i j ∧ i = j
      · obtain ⟨h1, rfl⟩ := h
        rw [if_pos ⟨i, by simpa using hi, h1, rfl, rfl⟩, if_pos ⟨h1, rfl⟩, if_pos rfl]
      · rw [if_neg h, if_neg]
        rintro ⟨is, _, h1, rfl, rfl⟩
        exact h ⟨h1, rfl⟩
    · intro is his m
      have his : is < n := by simpa using his
      have hm : matSize false n = n := rfl
      rw [value_set L hL m p _ (by rw [hr, hm]; exact his) (by rw [hc, hm]; exact his) (by rw [hr, hm]; exact hi) (by rw [hc, hm]; exact hj)]
      by_cases h : p = L.owner i j ∧ i = is ∧ j = is
      · rw [if_pos h, if_pos h, h.2.1]
      · rw [if_neg h, if_neg h]
  | true =>
    let rowG : Nat → Nat → DistData α → DistData α := fun b i m =>
      L.addTo (([0, 1, 2] : List Nat).foldl (fun m j => L.set m p.1 p.2 (b * 3 + i) (b * 3 + j) 0) m) p.1 p.2
        (b * 3 + i) (b * 3 + i) (diag b)
    let G : Nat → Nat → α := fun i j => if i = j then diag (i / 3) else 0
    have hm : matSize true n = n * 3 := rfl
    have hrow : ∀ b, b < n → ∀ i', i' < 3 → ∀ m i j, i < n * 3 → j < n * 3 → L.value (rowG b i' m) i j =
        if p = L.owner i j ∧ i = b * 3 + i' ∧ j / 3 = b then G i j else L.value m i j := by
      intro b hb i' hi' m i j hi hj
      show L.value (L.addTo _ p.1 p.2 _ _ _) i j = _
      rw [value_addTo' L hL _ p _ (by rw [hr, hm]; omega) (by rw [hc, hm]; omega) (by rw [hr, hm]; exact hi) (by rw [hc, hm]; exact hj)]
      rw [value_overwrite L (fun j' m => L.set m p.1 p.2 (b * 3 + i') (b * 3 + j') 0)
        (fun j' i j => p = L.owner i j ∧ i = b * 3 + i' ∧ j = b * 3 + j') (fun _ _ => 0) i j [0, 1, 2]]
      · by_cases h : p = L.owner i j ∧ i = b * 3 + i' ∧ j / 3 = b
        · obtain ⟨h1, h2, h3⟩ := h
          have hex : ∃ j' ∈ ([0, 1, 2] : List Nat), p = L.owner i j ∧ i = b * 3 + i' ∧ j = b * 3 + j' :=
            ⟨j % 3, by have : j % 3 < 3 := Nat.mod_lt _ (by omega); simp; omega, h1, h2, by omega⟩
          have hR : (if p = L.owner i j ∧ i = b * 3 + i' ∧ j / 3 = b then G i j else L.value m i j) =
              if i = j then diag (i / 3) else 0 := if_pos ⟨h1, h2, h3⟩
          rw [hR, if_pos hex, zero_add]
          by_cases hij : i = j
          · rw [if_pos ⟨h1, h2, by omega⟩, if_pos hij]
            congr 1; omega
          · rw [if_neg (fun h => hij (by omega)), if_neg hij]
        · rw [if_neg h, if_neg (fun hc => h ⟨hc.1, hc.2.1, by omega⟩), if_neg]
          rintro ⟨j', hj', h1, h2, h3⟩
          simp only [List.mem_cons, List.not_mem_nil, or_false] at hj'
          exact h ⟨h1, h2, by omega⟩
      · intro j' hj' m
        simp only [List.mem_cons, List.not_mem_nil, or_false] at hj'
        rw [value_set L hL m p _ (by rw [hr, hm]; omega) (by rw [hc, hm]; omega) (by rw [hr, hm]; exact hi) (by rw [hc, hm]; exact hj)]
    let bG : Nat → DistData α → DistData α := fun b m => ([0, 1, 2] : List Nat).foldl (fun m i => rowG b i m) m
    have hb : ∀ b, b < n → ∀ m i j, i < n * 3 → j < n * 3 → L.value (bG b m) i j =
        if p = L.owner i j ∧ i / 3 = b ∧ j / 3 = b then G i j else L.value m i j := by
      intro b hb m i j hi hj
      show L.value (([0, 1, 2] : List Nat).foldl (fun m i => rowG b i m) m) i j = _
      rw [value_overwrite L (rowG b) (fun i' i j => p = L.owner i j ∧ i = b * 3 + i' ∧ j / 3 = b) G i j [0, 1, 2]
        (fun i' hi' m => by
          simp only [List.mem_cons, List.not_mem_nil, or_false] at hi'
          exact hrow b hb i' (by omega) m i j hi hj)]
      by_cases h : p = L.owner i j ∧ i / 3 = b ∧ j / 3 = b
      · rw [if_pos h, if_pos ⟨i % 3, by have : i % 3 < 3 := Nat.mod_lt _ (by omega); simp; omega, h.1, by omega, h.2.2⟩]
      · rw [if_neg h, if_neg]
        rintro ⟨i', hi', h1, h2, h3⟩
        simp only [List.mem_cons, List.not_mem_nil, or_false] at hi'
        exact h ⟨h1, by omega, h3⟩
    refine ⟨fun m => (List.range n).foldl (fun m b => bG b m) m, ?_, ?_⟩
    · intro m
      unfold placeDiagonal
      simp only [if_true]
      apply foldOutcome_ok _ bG
      intro b hb' m
      have hb' : b < n := by simpa using hb'
      apply foldOutcome_ok _ (rowG b)
      intro i hi m
      simp only [List.mem_cons, List.not_mem_nil, or_false] at hi
      rw [smatIndex_val true n b i hb' (by omega) hfit]
      simp only [Outcome.bind_eq, Outcome.bind_ok, if_true]
      rw [foldOutcome_ok _ (fun j m => L.set m p.1 p.2 (b * 3 + i) (b * 3 + j) 0)]
      · rfl
      · intro j hj m
        simp only [List.mem_cons, List.not_mem_nil, or_false] at hj
        rw [smatIndex_val true n b j hb' (by omega) hfit]
        rfl
    · intro m i j hi hj
      rw [hm] at hi hj
      rw [value_overwrite L bG (fun b i j => p = L.owner i j ∧ i / 3 = b ∧ j / 3 = b) G i j (List.range n)
        (fun b hb' m => hb b (by simpa using hb') m i j hi hj)]
      simp only [matState, if_true]
      by_cases h : p = L.owner i j ∧ i / 3 = j / 3
      · rw [if_pos h, if_pos ⟨i / 3, by simp; omega, h.1, rfl, h.2.symm⟩]
      · rw [if_neg h, if_neg]
        rintro ⟨b, _, h1, h2, h3⟩
        exact h ⟨h1, by omega⟩

/-- `placeDiagonal` on all processes, all with the same diagonal. -/
theorem placeAll_val {α β : Type} [AddMonoid α] (sym : Bool) (n : Nat) (L : Layout) (hL : L.Good)
    (hr : L.numRows = matSize sym n) (hc : L.numCols = matSize sym n) (hfit : (n : Int) * 3 ≤ intMax)
    (dg : β → Nat → α) (D : Nat → α) (l : List ((Nat × Nat) × β)) (hl : ∀ x ∈ l, ∀ b, b < n → dg x.2 b = D b)
    (m : DistData α) : ∃ m', onProcesses (fun p (d : β) => placeDiagonal sym n L p.1 p.2 (dg d)) l m = .ok m' ∧
      ∀ i j, i < matSize sym n → j < matSize sym n → L.owner i j ∈ l.map (·.1) → L.value m' i j =
        if matState sym i = matState sym j then (if i = j then D (matState sym i) else 0) else L.value m i j := by
  let g : Nat × Nat → β → DistData α → DistData α := fun p d =>
    (placeDiagonal_val sym n L hL hr hc hfit p (dg d)).choose
  have hg : ∀ p d, (∀ m, placeDiagonal sym n L p.1 p.2 (dg d) m = .ok (g p d m)) ∧
      ∀ m i j, i < matSize sym n → j < matSize sym n → L.value (g p d m) i j =
        if p = L.owner i j ∧ matState sym i = matState sym j then (if i = j then dg d (matState sym i) else 0)
        else L.value m i j := fun p d => (placeDiagonal_val sym n L hL hr hc hfit p (dg d)).choose_spec
  refine ⟨_, onProcesses_ok _ g l m (fun x _ m => (hg x.1 x.2).1 m), ?_⟩
  intro i j hi hj hown
  have hst : ∀ k, k < matSize sym n → matState sym k < n := by
    intro k hk
    unfold matSize at hk; unfold matState
    cases sym <;> simp at hk ⊢ <;> omega
  rw [value_overwrite L (fun (x : (Nat × Nat) × β) m => g x.1 x.2 m)
    (fun x i j => x.1 = L.owner i j ∧ matState sym i = matState sym j)
    (fun i j => if i = j then D (matState sym i) else 0) i j l]
  · by_cases h : matState sym i = matState sym j
    · obtain ⟨x, hx, hx1⟩ := List.mem_map.mp hown
      rw [if_pos h, if_pos ⟨x, hx, hx1, h⟩]
    · rw [if_neg h, if_neg]
      rintro ⟨_, _, _, h2⟩
      exact h h2
  · intro x hx m
    rw [(hg x.1 x.2).2 m i j hi hj, hl x hx _ (hst i hi)]

/-- `zeroExcluded` on all processes. -/
theorem zeroAll_val {α β : Type} [Zero α] (sym : Bool) (n : Nat) (L : Layout) (hL : L.Good)
    (hr : L.numRows = matSize sym n) (hc : L.numCols = matSize sym n) (hfit : (n : Int) * 3 ≤ intMax)
    (ex : List Nat) (hex : ∀ b ∈ ex, b < n) (l : List ((Nat × Nat) × β)) (m : DistData α) :
    ∃ m', onProcesses (fun p (_ : β) => zeroExcluded sym n L p.1 p.2 ex) l m = .ok m' ∧
      ∀ i j, i < matSize sym n → j < matSize sym n → L.owner i j ∈ l.map (·.1) → L.value m' i j =
        if matState sym i ∈ ex ∧ matState sym j ∈ ex then 0 else L.value m i j := by
  have hone : ∀ p : Nat × Nat, ∃ g : DistData α → DistData α,
      (∀ m, zeroExcluded sym n L p.1 p.2 ex m = .ok (g m)) ∧
      ∀ m i j, i < matSize sym n → j < matSize sym n → L.value (g m) i j =
        if p = L.owner i j ∧ matState sym i ∈ ex ∧ matState sym j ∈ ex then 0 else L.value m i j := by
    intro p
    have hpairs : ∀ bb ∈ (ex.flatMap fun b1 => ex.map fun b2 => (b1, b2)), bb.1 ∈ ex ∧ bb.2 ∈ ex := by
      intro bb hbb
      obtain ⟨b1, h1, hbb⟩ := List.mem_flatMap.mp hbb
      obtain ⟨b2, h2, rfl⟩ := List.mem_map.mp hbb
      exact ⟨h1, h2⟩
    have hpairs' : ∀ b1 b2, b1 ∈ ex → b2 ∈ ex → (b1, b2) ∈ (ex.flatMap fun b1 => ex.map fun b2 => (b1, b2)) := by
      intro b1 b2 h1 h2
      exact List.mem_flatMap.mpr ⟨b1, h1, List.mem_map.mpr ⟨b2, h2, rfl⟩⟩
    cases sym with
    | false =>
      refine ⟨fun m => (ex.flatMap fun b1 => ex.map fun b2 => (b1, b2)).foldl
        (fun m bb => L.set m p.1 p.2 bb.1 bb.2 0) m, ?_, ?_⟩
      · intro m
        unfold zeroExcluded
        exact foldOutcome_ok _ (fun (bb : Nat × Nat) m => L.set m p.1 p.2 bb.1 bb.2 0) _ m (fun bb _ m => rfl)
      · intro m i j hi hj
        have hm : matSize false n = n := rfl
        rw [value_overwrite L (fun (bb : Nat × Nat) m => L.set m p.1 p.2 bb.1 bb.2 0)
          (fun (bb : Nat × Nat) i j => p = L.owner i j ∧ i = bb.1 ∧ j = bb.2) (fun _ _ => 0) i j _]
        · simp only [matState, Bool.false_eq_true, if_false]
          by_cases h : p = L.owner i j ∧ i ∈ ex ∧ j ∈ ex
          · rw [if_pos h, if_pos ⟨(i, j), hpairs' i j h.2.1 h.2.2, h.1, rfl, rfl⟩]
          · rw [if_neg h, if_neg]
            rintro ⟨bb, hbb, h1, h2, h3⟩
            obtain ⟨h4, h5⟩ := hpairs bb hbb
            exact h ⟨h1, h2 ▸ h4, h3 ▸ h5⟩
        · intro bb hbb m
          obtain ⟨h4, h5⟩ := hpairs bb hbb
          rw [value_set L hL m p _ (by rw [hr, hm]; exact hex _ h4) (by rw [hc, hm]; exact hex _ h5) (by rw [hr]; exact hi)
            (by rw [hc]; exact hj)]
    | true =>
      have hm : matSize true n = n * 3 := rfl
      have hlt : ∀ ij ∈ cart9, ij.1 < 3 ∧ ij.2 < 3 := by decide
      let gb : Nat × Nat → DistData α → DistData α := fun bb m =>
        cart9.foldl (fun m ij => L.set m p.1 p.2 (bb.1 * 3 + ij.1) (bb.2 * 3 + ij.2) 0) m
      refine ⟨fun m => (ex.flatMap fun b1 => ex.map fun b2 => (b1, b2)).foldl (fun m bb => gb bb m) m, ?_, ?_⟩
      · intro m
        unfold zeroExcluded
        apply foldOutcome_ok _ gb
        intro bb hbb m
        obtain ⟨h4, h5⟩ := hpairs bb hbb
        simp only [if_true]
        apply foldOutcome_ok
        intro ij hij m
        rw [smatIndex_val true n bb.1 ij.1 (hex _ h4) (hlt ij hij).1 hfit,
          smatIndex_val true n bb.2 ij.2 (hex _ h5) (hlt ij hij).2 hfit]
        rfl
      · intro m i j hi hj
        rw [value_overwrite L gb (fun (bb : Nat × Nat) i j => p = L.owner i j ∧ i / 3 = bb.1 ∧ j / 3 = bb.2) (fun _ _ => 0) i j _]
        · simp only [matState, if_true]
          by_cases h : p = L.owner i j ∧ i / 3 ∈ ex ∧ j / 3 ∈ ex
          · rw [if_pos h, if_pos ⟨(i / 3, j / 3), hpairs' _ _ h.2.1 h.2.2, h.1, rfl, rfl⟩]
          · rw [if_neg h, if_neg]
            rintro ⟨bb, hbb, h1, h2, h3⟩
            obtain ⟨h4, h5⟩ := hpairs bb hbb
            exact h ⟨h1, h2 ▸ h4, h3 ▸ h5⟩
        · intro bb hbb m
          obtain ⟨h4, h5⟩ := hpairs bb hbb
          have := hex _ h4
          have := hex _ h5
          rw [hm] at hi hj
          show L.value (cart9.foldl (fun m ij => L.set m p.1 p.2 (bb.1 * 3 + ij.1) (bb.2 * 3 + ij.2) 0) m) i j = _
          rw [value_overwrite L (fun (ij : Nat × Nat) m => L.set m p.1 p.2 (bb.1 * 3 + ij.1) (bb.2 * 3 + ij.2) 0)
            (fun ij i j => p = L.owner i j ∧ i = bb.1 * 3 + ij.1 ∧ j = bb.2 * 3 + ij.2) (fun _ _ => 0) i j cart9]
          · by_cases h : p = L.owner i j ∧ i / 3 = bb.1 ∧ j / 3 = bb.2
            · have hmem : (i % 3, j % 3) ∈ cart9 := by
                unfold cart9
                have a1 : i % 3 = 0 ∨ i % 3 = 1 ∨ i % 3 = 2 := by omega
                have a2 : j % 3 = 0 ∨ j % 3 = 1 ∨ j % 3 = 2 := by omega
                rcases a1 with h1 | h1 | h1 <;> rcases a2 with h2 | h2 | h2 <;> rw [h1, h2] <;> simp
              rw [if_pos h, if_pos ⟨(i % 3, j % 3), hmem, h.1, by simp only; omega, by simp only; omega⟩]
            · rw [if_neg h, if_neg]
              rintro ⟨ij, hij, h1, h2, h3⟩
              obtain ⟨h6, h7⟩ := hlt ij hij
              exact h ⟨h1, by omega, by omega⟩
          · intro ij hij m
            obtain ⟨h6, h7⟩ := hlt ij hij
            rw [value_set L hL m p _ (by rw [hr, hm]; omega) (by rw [hc, hm]; omega) (by rw [hr, hm]; exact hi) (by rw [hc, hm]; exact hj)]
  choose g hg using hone
  refine ⟨_, onProcesses_ok _ (fun p _ => g p) l m (fun x _ m => (hg x.1).1 m), ?_⟩
  intro i j hi hj hown
  rw [value_overwrite L (fun (x : (Nat × Nat) × β) m => g x.1 m)
    (fun x i j => x.1 = L.owner i j ∧ matState sym i ∈ ex ∧ matState sym j ∈ ex) (fun _ _ => 0) i j l
    (fun x _ m => (hg x.1).2 m i j hi hj)]
  by_cases h : matState sym i ∈ ex ∧ matState sym j ∈ ex
  · obtain ⟨x, hx, hx1⟩ := List.mem_map.mp hown
    rw [if_pos h, if_pos ⟨x, hx, hx1, h⟩]
  · rw [if_neg h, if_neg]
    rintro ⟨_, _, _, h2⟩
    exact h h2

/-! ## Closed forms -/

theorem list_sum_comm {α β γ : Type} [AddCommMonoid α] (l : List β) (k : List γ) (f : β → γ → α) :
    (l.map fun a => (k.map fun b => f a b).sum).sum = (k.map fun b => (l.map fun a => f a b).sum).sum := by
  induction l with
  | nil => simp
  | cons a t ih => simp only [List.map_cons, List.sum_cons, ih, List.sum_map_add]

/-- Each process that stores an element of block `(b1, b2)` has the events of that block. -/
def BlocksComplete {α : Type} (sym : Bool) (n : Nat) (L : Layout) (E : List (ScatEvent α))
    (events : Nat × Nat → List (ScatEvent α)) : Prop :=
  ∀ b1 b2 i j, b1 < n → b2 < n → i < 3 → j < 3 →
    ((events (L.owner (matIndex sym b1 i) (matIndex sym b2 j))).filter fun e => e.bte1 = b1 ∧ e.bte2 = b2).Perm
      (E.filter fun e => e.bte1 = b1 ∧ e.bte2 = b2)

/-- Linewidth of state `b` before the average over degenerate states. -/
def lineSum {α : Type} [AddMonoid α] (ex : List Nat) (boundary : Nat → α) (E : List (ScatEvent α)) (b : Nat) : α :=
  if b ∈ ex then 0 else ((E.filter fun e => e.bte1 = b).map fun e => e.rate).sum + boundary b

theorem buildMatrix_val {α : Type} [Semiring α] (sym : Bool) (n : Nat) (L : Layout) (hL : L.Good)
    (hr : L.numRows = matSize sym n) (hc : L.numCols = matSize sym n) (hfit : (n : Int) * 3 ≤ intMax)
    (ex : List Nat) (hex : ∀ b ∈ ex, b < n) (boundary : Nat → α) (E : List (ScatEvent α))
    (events : Nat × Nat → List (ScatEvent α)) (hE : ∀ e ∈ E, e.bte1 < n ∧ e.bte2 < n ∧ e.bte1 ∉ ex ∧ e.bte2 ∉ ex)
    (hev : ∀ p ∈ L.procs, ∀ e ∈ events p, e.bte1 < n ∧ e.bte2 < n) (hcomp : BlocksComplete sym n L E events)
    (m : DistData α) (hm : ∀ i j, i < matSize sym n → j < matSize sym n → L.value m i j = 0) :
    ∃ m' diags, buildMatrix sym n L ex boundary events L.procs m = .ok (m', diags) ∧
      diags.length = L.procs.length ∧ (∀ d ∈ diags, ∀ b, b < n → d b = lineSum ex boundary E b) ∧
      ∀ b1 b2 i j, b1 < n → b2 < n → i < 3 → j < 3 →
        L.value m' (matIndex sym b1 i) (matIndex sym b2 j) =
          if b1 = b2 then (if sym = true ∧ i ≠ j then 0 else lineSum ex boundary E b1)
          else ((E.filter fun e => e.bte1 = b1 ∧ e.bte2 = b2).map fun e => evVal sym e i j).sum := by
  obtain ⟨lws, h1, h2, h3⟩ := matrixLoops_val sym n L events L.procs hev hfit m
  have hlen : ((allReduceSum1 lws).map (finishLinewidth ex boundary)).length = L.procs.length := by
    rw [List.length_map, allReduceSum1_length, h2]
  have hfst : (L.procs.zip ((allReduceSum1 lws).map (finishLinewidth ex boundary))).map (·.1) = L.procs := by
    apply List.map_fst_zip
    rw [hlen]
  have hlw : ∀ b, b < n → ((L.procs.map fun p => (((events p).filter fun e => e.bte1 = b).map
      fun e => evRate sym L p e).sum).sum) = ((E.filter fun e => e.bte1 = b).map fun e => e.rate).sum := by
    intro b hb
    have e1 : (L.procs.map fun p => (((events p).filter fun e => e.bte1 = b).map fun e => evRate sym L p e).sum) =
        L.procs.map fun p => ((List.range n).map fun b2 =>
          if p = L.owner (matIndex sym b 0) (matIndex sym b2 0) then
            (((events p).filter fun e => e.bte1 = b ∧ e.bte2 = b2).map fun e => e.rate).sum else 0).sum := by
      apply List.map_congr_left
      intro p hp
      rw [sum_by_key _ (fun e => e.bte2) n (fun e he => (hev p hp e (List.mem_of_mem_filter he)).2)]
      congr 1
      apply List.map_congr_left
      intro b2 _
      rw [List.filter_filter]
      have ef : ((events p).filter fun e => decide (e.bte2 = b2) && decide (e.bte1 = b)) =
          (events p).filter fun e => decide (e.bte1 = b ∧ e.bte2 = b2) := by
        apply List.filter_congr
        intro e _
        by_cases x1 : e.bte1 = b <;> by_cases x2 : e.bte2 = b2 <;> simp [x1, x2]
      rw [ef]
      by_cases ho : p = L.owner (matIndex sym b 0) (matIndex sym b2 0)
      · rw [if_pos ho]
        congr 1
        apply List.map_congr_left
        intro e he
        have := List.of_mem_filter he
        simp only [decide_eq_true_eq] at this
        unfold evRate
        rw [this.1, this.2, if_pos ho]
      · rw [if_neg ho]
        apply List.sum_eq_zero
        intro x hx
        obtain ⟨e, he, rfl⟩ := List.mem_map.mp hx
        have := List.of_mem_filter he
        simp only [decide_eq_true_eq] at this
        unfold evRate
        rw [this.1, this.2, if_neg ho]
    rw [e1, list_sum_comm, sum_by_key (E.filter fun e => e.bte1 = b) (fun e => e.bte2) n
      (fun e he => (hE e (List.mem_of_mem_filter he)).2.1)]
    congr 1
    apply List.map_congr_left
    intro b2 hb2
    have hb2 : b2 < n := by simpa using hb2
    rw [sum_single L.procs (nodup_grid _ _) _ (owner_mem L hL (matIndex sym b 0) (matIndex sym b2 0))
      _ (fun p _ hne => if_neg hne), if_pos rfl, List.filter_filter]
    have ef : (E.filter fun e => decide (e.bte2 = b2) && decide (e.bte1 = b)) =
        E.filter fun e => decide (e.bte1 = b ∧ e.bte2 = b2) := by
      apply List.filter_congr
      intro e _
      by_cases x1 : e.bte1 = b <;> by_cases x2 : e.bte2 = b2 <;> simp [x1, x2]
    rw [ef]
    exact ((hcomp b b2 0 0 hb hb2 (by omega) (by omega)).map _).sum_eq
  have hd : ∀ d ∈ (allReduceSum1 lws).map (finishLinewidth ex boundary), ∀ b, b < n → d b = lineSum ex boundary E b := by
    intro d hd b hb
    obtain ⟨f, hf, rfl⟩ := List.mem_map.mp hd
    unfold finishLinewidth lineSum
    rw [mem_allReduceSum1 _ _ hf, h3, hlw b hb]
  obtain ⟨m1, h4, h5⟩ := zeroAll_val sym n L hL hr hc hfit ex hex
    (L.procs.zip ((allReduceSum1 lws).map (finishLinewidth ex boundary)))
    ((L.procs.flatMap fun p => (events p).flatMap (evOps sym p)).foldl
        (fun a o => L.addTo a o.pr o.pc o.row o.col o.v) m)
  obtain ⟨m2, h6, h7⟩ := placeAll_val sym n L hL hr hc hfit (fun d : Nat → α => d) (lineSum ex boundary E)
    (L.procs.zip ((allReduceSum1 lws).map (finishLinewidth ex boundary)))
    (fun x hx b hb => hd _ (List.of_mem_zip hx).2 b hb) m1
  refine ⟨m2, (allReduceSum1 lws).map (finishLinewidth ex boundary), ?_, hlen, hd, ?_⟩
  · unfold buildMatrix
    rw [h1]
    simp only [Outcome.bind_eq, Outcome.bind_ok]
    rw [h4]
    simp only [Outcome.bind_ok]
    rw [h6]
    rfl
  · intro b1 b2 i j hb1 hb2 hi hj
    have hs : ∀ b i, i < 3 → matState sym (matIndex sym b i) = b := by
      intro b i hi
      unfold matState matIndex
      cases sym <;> simp <;> omega
    have hlti := matIndex_lt sym hb1 hi
    have hltj := matIndex_lt sym hb2 hj
    have hown : L.owner (matIndex sym b1 i) (matIndex sym b2 j) ∈
        (L.procs.zip ((allReduceSum1 lws).map (finishLinewidth ex boundary))).map (·.1) := by
      rw [hfst]; exact owner_mem L hL _ _
    rw [h7 _ _ hlti hltj hown, h5 _ _ hlti hltj hown, hs b1 i hi, hs b2 j hj]
    by_cases hbb : b1 = b2
    · subst hbb
      rw [if_pos rfl, if_pos rfl]
      by_cases hij : sym = true ∧ i ≠ j
      · rw [if_pos hij, if_neg]
        unfold matIndex; rw [hij.1]; simp only [if_true]
        have := hij.2
        omega
      · rw [if_neg hij, if_pos]
        unfold matIndex
        cases sym with
        | false => rfl
        | true =>
          have : i = j := by
            by_contra hne; exact hij ⟨rfl, hne⟩
          rw [this]
    · rw [if_neg hbb, if_neg hbb, loops_value sym n L hL hr hc events hev m b1 b2 i j hb1 hb2 hi hj, hm _ _ hlti hltj,
        zero_add, ((hcomp b1 b2 i j hb1 hb2 hi hj).map _).sum_eq]
      by_cases hx : b1 ∈ ex ∧ b2 ∈ ex
      · rw [if_pos hx]
        symm
        apply List.sum_eq_zero
        intro x hxm
        obtain ⟨e, he, rfl⟩ := List.mem_map.mp hxm
        have h8 := List.of_mem_filter he
        simp only [decide_eq_true_eq] at h8
        exact absurd (h8.1 ▸ hx.1) (hE e (List.mem_of_mem_filter he)).2.2.1
      · rw [if_neg hx]

/-! ### Product with the stored matrix -/

theorem threadAdds_val {α : Type} [AddCommMonoid α] (adds : List (Nat × Nat × α)) (i b : Nat) :
    threadAdds adds i b = (adds.map fun a => if i = a.1 ∧ b = a.2.1 then a.2.2 else 0).sum := by
  unfold threadAdds
  have key : ∀ (l : List (Nat × Nat × α)) (f : Nat → Nat → α),
      l.foldl (fun priv a => fun i b => if i = a.1 ∧ b = a.2.1 then priv i b + a.2.2 else priv i b) f i b =
        f i b + (l.map fun a => if i = a.1 ∧ b = a.2.1 then a.2.2 else 0).sum := by
    intro l
    induction l with
    | nil => intro f; simp
    | cons a t ih =>
      intro f
      rw [List.foldl_cons, ih, List.map_cons, List.sum_cons]
      by_cases h : i = a.1 ∧ b = a.2.1
      · simp only [if_pos h]; rw [add_assoc]
      · simp only [if_neg h]; rw [zero_add]
  rw [key]; simp

/-- Contribution of element `t` to component `i` of state `b`. -/
def elemContrib {α : Type} [Zero α] [Mul α] (sym : Bool) (skip : Nat → Nat → Bool) (V : Nat → Nat → α)
    (inp : Nat → Nat → α) (i b : Nat) (t : Nat × Nat) : α :=
  if skip (matState sym t.1) (matState sym t.2) then 0
  else if t.1 = matIndex sym b i then V t.1 t.2 * inp (if sym then t.2 % 3 else i) (matState sym t.2) else 0

theorem processAdds_val {α : Type} [Semiring α] (sym : Bool) (n : Nat) (L : Layout) (m : DistData α)
    (p : Nat × Nat) (skip : Nat → Nat → Bool) (inp : Nat → Nat → α) (merge : List (List (Nat × Nat)))
    (hfit : ∀ t ∈ merge.flatten, (t.1 : Int) ≤ intMax ∧ (t.2 : Int) ≤ intMax) :
    ∃ f, processAdds sym n L m p skip inp merge = .ok f ∧ ∀ i b, i < 3 →
      f i b = (merge.flatten.map fun t => elemContrib sym skip (fun r c => L.get m p.1 p.2 r c) inp i b t).sum := by
  let adds : Nat × Nat → List (Nat × Nat × α) := fun t =>
    if skip (matState sym t.1) (matState sym t.2) then []
    else if sym then [(t.1 % 3, t.1 / 3, L.get m p.1 p.2 t.1 t.2 * inp (t.2 % 3) (t.2 / 3))]
    else [0, 1, 2].map fun i => (i, t.1, L.get m p.1 p.2 t.1 t.2 * inp i t.2)
  have h1 : ∀ t, (t.1 : Int) ≤ intMax ∧ (t.2 : Int) ≤ intMax → elementAdds sym n L m p skip inp t = .ok (adds t) := by
    intro t ht
    unfold elementAdds
    rw [smatIndexInv_val sym n t.1 ht.1, smatIndexInv_val sym n t.2 ht.2]
    simp only [Outcome.bind_eq, Outcome.bind_ok]
    cases sym with
    | false =>
      show (if skip t.1 t.2 = true then _ else _) = Outcome.ok (if skip t.1 t.2 = true then _ else _)
      by_cases hs : skip t.1 t.2 = true
      · rw [if_pos hs, if_pos hs]
      · rw [if_neg hs, if_neg hs]; rfl
    | true =>
      show (if skip (t.1 / 3) (t.2 / 3) = true then _ else _) = Outcome.ok (if skip (t.1 / 3) (t.2 / 3) = true then _ else _)
      by_cases hs : skip (t.1 / 3) (t.2 / 3) = true
      · rw [if_pos hs, if_pos hs]
      · rw [if_neg hs, if_neg hs]; rfl
  have h2 : mapOutcome (fun states => mapOutcome (elementAdds sym n L m p skip inp) states) merge =
      .ok (merge.map fun states => states.map adds) := by
    apply mapOutcome_ok
    intro states hs
    apply mapOutcome_ok
    intro t ht
    exact h1 t (hfit t (List.mem_flatten.mpr ⟨states, hs, ht⟩))
  refine ⟨_, by unfold processAdds; rw [h2]; rfl, ?_⟩
  intro i b hi
  have hcon : ∀ t, ((adds t).map fun a => if i = a.1 ∧ b = a.2.1 then a.2.2 else 0).sum =
      elemContrib sym skip (fun r c => L.get m p.1 p.2 r c) inp i b t := by
    intro t
    show (List.map _ (if skip (matState sym t.1) (matState sym t.2) = true then [] else _)).sum = _
    unfold elemContrib
    by_cases hs : skip (matState sym t.1) (matState sym t.2) = true
    · rw [if_pos hs, if_pos hs]; rfl
    · rw [if_neg hs, if_neg hs]
      cases sym with
      | false =>
        simp only [Bool.false_eq_true, if_false, matIndex, matState, List.map_cons, List.map_nil, List.sum_cons, List.sum_nil, add_zero]
        by_cases hb : b = t.1
        · have a1 : i = 0 ∨ i = 1 ∨ i = 2 := by omega
          rcases a1 with rfl | rfl | rfl <;> simp [hb]
        · have hb' : ¬ t.1 = b := fun h => hb h.symm
          simp [hb, hb']
      | true =>
        simp only [if_true, matIndex, matState, List.map_cons, List.map_nil, List.sum_cons, List.sum_nil, add_zero]
        by_cases hb : i = t.1 % 3 ∧ b = t.1 / 3
        · rw [if_pos hb, if_pos (by omega)]
        · rw [if_neg hb, if_neg (by omega)]
  have key : ∀ (l : List (List (Nat × Nat))) (f0 : Nat → Nat → α),
      (l.map fun states => states.map adds).foldl (fun acc adds => fun i b => acc i b + threadAdds adds.flatten i b) f0 i b =
        f0 i b + (l.flatten.map fun t => elemContrib sym skip (fun r c => L.get m p.1 p.2 r c) inp i b t).sum := by
    intro l
    induction l with
    | nil => intro f0; simp
    | cons st t ih =>
      intro f0
      rw [List.map_cons, List.foldl_cons, ih]
      rw [threadAdds_val, List.flatten_cons, List.map_append, List.sum_append, add_assoc]
      congr 2
      clear ih
      induction st with
      | nil => rfl
      | cons x s ih2 =>
        rw [List.map_cons, List.flatten_cons, List.map_append, List.sum_append, hcon x, ih2, List.map_cons, List.sum_cons]
  rw [key]; simp

theorem range_three {α : Type} [AddMonoid α] (n : Nat) (F : Nat → Nat → α) :
    ((List.range (n * 3)).map fun k => F (k / 3) (k % 3)).sum =
      ((List.range n).map fun b => F b 0 + F b 1 + F b 2).sum := by
  induction n with
  | zero => rfl
  | succ n ih =>
    have e : (n + 1) * 3 = n * 3 + 1 + 1 + 1 := by omega
    rw [e, List.range_succ, List.range_succ, List.range_succ, List.range_succ]
    simp only [List.map_append, List.sum_append, ih, List.map_cons, List.map_nil, List.sum_cons, List.sum_nil, add_zero]
    have a1 : n * 3 / 3 = n := by omega
    have a2 : n * 3 % 3 = 0 := by omega
    have a3 : (n * 3 + 1) / 3 = n := by omega
    have a4 : (n * 3 + 1) % 3 = 1 := by omega
    have a5 : (n * 3 + 1 + 1) / 3 = n := by omega
    have a6 : (n * 3 + 1 + 1) % 3 = 2 := by omega
    rw [a1, a2, a3, a4, a5, a6]
    simp only [add_assoc]

theorem storedProduct_val {α : Type} [Semiring α] (sym : Bool) (n : Nat) (L : Layout) (hL : L.Good)
    (hr : L.numRows = matSize sym n) (hc : L.numCols = matSize sym n) (hfit : (n : Int) * 3 ≤ intMax)
    (m : DistData α) (skip : Nat → Nat → Bool) (inp : Nat → Nat → α) (merge : Nat × Nat → List (List (Nat × Nat)))
    (hmerge : ∀ p, p.1 < L.numBlasRows → p.2 < L.numBlasCols →
      (merge p).flatten.Perm (L.getAllLocalStates p.1 p.2)) :
    ∃ res, storedProduct sym n L m skip inp L.procs merge = .ok res ∧ res.length = L.procs.length ∧
      ∀ f ∈ res, ∀ i b, i < 3 → b < n → f i b = ((List.range n).map fun b2 =>
        if skip b b2 then 0 else
          if sym then L.value m (matIndex sym b i) (matIndex sym b2 0) * inp 0 b2 +
            L.value m (matIndex sym b i) (matIndex sym b2 1) * inp 1 b2 +
            L.value m (matIndex sym b i) (matIndex sym b2 2) * inp 2 b2
          else L.value m (matIndex sym b i) (matIndex sym b2 0) * inp i b2).sum := by
  have hsz : matSize sym n ≤ n * 3 := by unfold matSize; cases sym <;> simp; omega
  have hpf : ∀ p, ∃ f, p ∈ L.procs → (processAdds sym n L m p skip inp (merge p) = .ok f ∧ ∀ i b, i < 3 → b < n →
      f i b = ((L.getAllLocalStates p.1 p.2).map fun t => elemContrib sym skip (fun r c => L.value m r c) inp i b t).sum) := by
    intro p
    by_cases hp : p ∈ L.procs
    · have hp' := (mem_grid p).mp hp
      obtain ⟨f, h1, h2⟩ := processAdds_val sym n L m p skip inp (merge p) (by
        intro t ht
        have := (hmerge p hp'.1 hp'.2).mem_iff.mp ht
        obtain ⟨t1, t2, _⟩ := (mem_localStates L hL hp'.1 hp'.2 t).mp this
        rw [hr] at t1; rw [hc] at t2
        constructor <;> omega)
      refine ⟨f, fun _ => ⟨h1, ?_⟩⟩
      intro i b hi hb
      rw [h2 i b hi, ((hmerge p hp'.1 hp'.2).map _).sum_eq]
      congr 1
      apply List.map_congr_left
      intro t ht
      obtain ⟨t1, t2, t3⟩ := (mem_localStates L hL hp'.1 hp'.2 t).mp ht
      have ho := (global2Local_ne L).mp t3
      unfold elemContrib Layout.value
      simp only
      rw [← ho.1, ← ho.2]
    · exact ⟨fun _ _ => 0, fun h => absurd h hp⟩
  choose f hf using hpf
  have hmap : mapOutcome (fun p => processAdds sym n L m p skip inp (merge p)) L.procs = .ok (L.procs.map f) :=
    mapOutcome_ok _ (fun p hp => (hf p hp).1)
  refine ⟨_, by unfold storedProduct; rw [hmap]; rfl, by simp [allReduceSum1_length], ?_⟩
  intro g hg i b hi hb
  obtain ⟨g', hg', rfl⟩ := List.mem_map.mp hg
  have h1 : (i * n + b) / n = i := by
    rw [mul_comm, Nat.mul_add_div (by omega), Nat.div_eq_of_lt hb, Nat.add_zero]
  have h2 : (i * n + b) % n = b := by
    rw [mul_comm, Nat.mul_add_mod, Nat.mod_eq_of_lt hb]
  show g' (i * n + b) = _
  rw [mem_allReduceSum1 _ _ hg', List.map_map, List.map_map]
  have hloc : L.procs.map (((fun x : Nat → α => x (i * n + b)) ∘ fun f => fun k : Nat => f (k / n) (k % n)) ∘ f) =
      L.procs.map fun p => ((L.getAllLocalStates p.1 p.2).map fun t =>
        elemContrib sym skip (fun r c => L.value m r c) inp i b t).sum := by
    apply List.map_congr_left
    intro p hp
    simp only [Function.comp, h1, h2]
    exact (hf p hp).2 i b hi hb
  rw [hloc, ← sum_flatMap, ← List.map_flatMap, ((states_perm L hL).map _).sum_eq]
  unfold Layout.elements
  rw [List.map_flatMap, sum_flatMap, hr, hc]
  have hrow := matIndex_lt sym hb hi
  rw [sum_single (List.range (matSize sym n)) List.nodup_range (matIndex sym b i) (by simpa using hrow)]
  · rw [List.map_map]
    have hs : matState sym (matIndex sym b i) = b := by
      unfold matState matIndex
      cases sym <;> simp <;> omega
    cases sym with
    | false =>
      show (List.map _ (List.range n)).sum = _
      congr 1
      apply List.map_congr_left
      intro b2 _
      simp only [Function.comp, elemContrib, matState, matIndex, Bool.false_eq_true, if_false, if_true]
    | true =>
      show (List.map _ (List.range (n * 3))).sum = _
      have e := range_three n (fun b2 j => if skip b b2 then 0 else L.value m (b * 3 + i) (b2 * 3 + j) * inp j b2)
      have e1 : ((List.range (n * 3)).map ((fun t => elemContrib true skip (fun r c => L.value m r c) inp i b t) ∘
          fun j => (matIndex true b i, j))) = (List.range (n * 3)).map fun k =>
            if skip b (k / 3) then 0 else L.value m (b * 3 + i) (k / 3 * 3 + k % 3) * inp (k % 3) (k / 3) := by
        apply List.map_congr_left
        intro k _
        have hk : k / 3 * 3 + k % 3 = k := by omega
        simp only [Function.comp, elemContrib, hk]
        rw [hs]
        simp only [matState, matIndex, if_true]
      rw [e1, e]
      congr 1
      apply List.map_congr_left
      intro b2 _
      simp only [matIndex, if_true]
      by_cases hsk : skip b b2 = true
      · simp only [if_pos hsk, add_zero]
      · simp only [if_neg hsk]
  · intro k _ hne
    rw [List.map_map]
    apply List.sum_eq_zero
    intro x hx
    obtain ⟨j, _, rfl⟩ := List.mem_map.mp hx
    simp only [Function.comp, elemContrib]
    rw [if_neg hne]
    exact ite_self _

/-! ### Product on the fly -/

theorem productEvents_val {α : Type} [Semiring α] (inp : Nat → Nat → α) (evs : List (ScatEvent α)) (i b : Nat) (hi : i < 3) :
    evs.foldl (productEvent inp) (fun _ _ => 0) i b =
      ((evs.filter fun e => e.bte1 = b).map fun e => (if e.is1 ≠ e.is2Irr then e.rateOff *
        (e.rotInv i 0 * inp 0 e.bte2 + e.rotInv i 1 * inp 1 e.bte2 + e.rotInv i 2 * inp 2 e.bte2) else 0) +
        e.rate * inp i b).sum := by
  have key : ∀ (l : List (ScatEvent α)) (f : Nat → Nat → α), l.foldl (productEvent inp) f i b = f i b +
      ((l.filter fun e => e.bte1 = b).map fun e => (if e.is1 ≠ e.is2Irr then e.rateOff *
        (e.rotInv i 0 * inp 0 e.bte2 + e.rotInv i 1 * inp 1 e.bte2 + e.rotInv i 2 * inp 2 e.bte2) else 0) +
        e.rate * inp i b).sum := by
    intro l
    induction l with
    | nil => intro f; simp
    | cons e t ih =>
      intro f
      rw [List.foldl_cons, ih]
      by_cases hb : e.bte1 = b
      · rw [List.filter_cons_of_pos (by simpa using hb), List.map_cons, List.sum_cons, ← add_assoc]
        congr 1
        unfold productEvent
        simp only
        rw [if_pos ⟨hb.symm, hi⟩]
        by_cases hne : e.is1 ≠ e.is2Irr
        · rw [if_pos hne, if_pos hne, zero_add, add_assoc]
        · rw [if_neg hne, if_neg hne, zero_add]
      · rw [List.filter_cons_of_neg (by simpa using hb)]
        congr 1
        unfold productEvent
        simp only
        rw [if_neg (fun h => hb h.1.symm)]
  rw [key]; simp

theorem buildProduct_val {α : Type} [Semiring α] (n : Nat) (ex : List Nat) (boundary : Nat → α)
    (E : List (ScatEvent α)) (events : List (List (ScatEvent α))) (hE : events.flatten.Perm E) (inp : Nat → Nat → α) :
    (buildProduct n ex boundary events inp).length = events.length ∧
    ∀ f ∈ buildProduct n ex boundary events inp, ∀ i b, i < 3 → b < n → f i b =
      if b ∈ ex then 0 else ((E.filter fun e => e.bte1 = b).map fun e => (if e.is1 ≠ e.is2Irr then e.rateOff *
        (e.rotInv i 0 * inp 0 e.bte2 + e.rotInv i 1 * inp 1 e.bte2 + e.rotInv i 2 * inp 2 e.bte2) else 0) +
        e.rate * inp i b).sum + boundary b * inp i b := by
  refine ⟨by unfold buildProduct; simp [allReduceSum1_length], ?_⟩
  intro f hf i b hi hb
  unfold buildProduct at hf
  obtain ⟨g, hg, rfl⟩ := List.mem_map.mp hf
  have h1 : (i * n + b) / n = i := by
    rw [mul_comm, Nat.mul_add_div (by omega), Nat.div_eq_of_lt hb, Nat.add_zero]
  have h2 : (i * n + b) % n = b := by
    rw [mul_comm, Nat.mul_add_mod, Nat.mod_eq_of_lt hb]
  simp only
  by_cases hx : b ∈ ex
  · rw [if_pos hx, if_pos hx]
  · rw [if_neg hx, if_neg hx, mem_allReduceSum1 _ _ hg, List.map_map]
    congr 1
    rw [← ((hE.filter (fun e => decide (e.bte1 = b))).map _).sum_eq]
    have : (events.map ((fun x : Nat → α => x (i * n + b)) ∘ fun evs => fun k : Nat =>
        evs.foldl (productEvent inp) (fun _ _ => 0) (k / n) (k % n))) = events.map fun evs =>
        ((evs.filter fun e => e.bte1 = b).map fun e => (if e.is1 ≠ e.is2Irr then e.rateOff *
        (e.rotInv i 0 * inp 0 e.bte2 + e.rotInv i 1 * inp 1 e.bte2 + e.rotInv i 2 * inp 2 e.bte2) else 0) +
        e.rate * inp i b).sum := by
      apply List.map_congr_left
      intro evs _
      simp only [Function.comp, h1, h2]
      exact productEvents_val inp evs i b hi
    rw [this]
    clear this hE hg hf
    induction events with
    | nil => rfl
    | cons evs t ih =>
      rw [List.map_cons, List.sum_cons, ih, List.flatten_cons, List.filter_append, List.map_append, List.sum_append]

/-! ## Symmetrised form -/

theorem a2OmegaProcess_val (sym : Bool) (n : Nat) (L : Layout) (hL : L.Good) (ex : List Nat) (term : Nat → ℝ)
    (p : Nat × Nat) (l : List (Nat × Nat)) (hnd : l.Nodup) (hl : ∀ t ∈ l, t.1 < L.numRows ∧ t.2 < L.numCols ∧
      p = L.owner t.1 t.2 ∧ (t.1 : Int) ≤ intMax ∧ (t.2 : Int) ≤ intMax) (s : DistData ℝ × (Nat → ℝ)) :
    ∃ s', foldOutcome (a2OmegaElement sym n L ex term p) l s = .ok s' ∧
      (∀ i j, i < L.numRows → j < L.numCols → L.value s'.1 i j =
        if (i, j) ∈ l ∧ matState sym i ∉ ex ∧ matState sym j ∉ ex then
          L.value s.1 i j / Real.sqrt (term (matState sym i) * term (matState sym j)) else L.value s.1 i j) ∧
      ∀ b, s'.2 b = if b ∈ ex then s.2 b else
        s.2 b / term b ^ (l.filter fun t => matState sym t.1 = b ∧ matState sym t.2 = b).length := by
  induction l generalizing s with
  | nil => exact ⟨s, rfl, fun i j _ _ => by simp, fun b => by simp⟩
  | cons t l ih =>
    obtain ⟨t1, t2, t3, t4, t5⟩ := hl t (by simp)
    have hnd' := List.nodup_cons.mp hnd
    have hst : ∀ k : Nat, ((if sym then (k / 3, k % 3) else (k, 0) : Nat × Nat)).1 = matState sym k := by
      intro k; unfold matState; cases sym <;> rfl
    by_cases hx : matState sym t.1 ∈ ex ∨ matState sym t.2 ∈ ex
    · have hstep : a2OmegaElement sym n L ex term p t s = .ok s := by
        unfold a2OmegaElement
        rw [smatIndexInv_val sym n t.1 t4, smatIndexInv_val sym n t.2 t5]
        simp only [Outcome.bind_eq, Outcome.bind_ok, hst]
        by_cases h1 : matState sym t.1 ∈ ex
        · rw [if_pos h1]
        · rw [if_neg h1, if_pos (hx.resolve_left h1)]
      obtain ⟨s', h1, h2, h3⟩ := ih hnd'.2 (fun t ht => hl t (by simp [ht])) s
      refine ⟨s', ?_, ?_, ?_⟩
      · unfold foldOutcome
        rw [hstep]
        simp only [Outcome.bind_eq, Outcome.bind_ok]
        exact h1
      · intro i j hi hj
        rw [h2 i j hi hj]
        by_cases hij : (i, j) = t
        · have e1 : ¬ (matState sym i ∉ ex ∧ matState sym j ∉ ex) := by
            rintro ⟨a, b⟩
            rw [← hij] at hx
            exact hx.elim a b
          rw [if_neg (fun h => e1 h.2), if_neg (fun h => e1 h.2)]
        · simp [List.mem_cons, hij]
      · intro b
        rw [h3 b]
        by_cases hb : b ∈ ex
        · rw [if_pos hb, if_pos hb]
        · rw [if_neg hb, if_neg hb, List.filter_cons_of_neg]
          simp only [decide_eq_true_eq]
          rintro ⟨h4, h5⟩
          rw [h4, h5] at hx
          exact hb (hx.elim id id)
    · have hx1 : matState sym t.1 ∉ ex := fun h => hx (Or.inl h)
      have hx2 : matState sym t.2 ∉ ex := fun h => hx (Or.inr h)
      obtain ⟨s', h1, h2, h3⟩ := ih hnd'.2 (fun t ht => hl t (by simp [ht]))
        (L.set s.1 p.1 p.2 t.1 t.2 (L.get s.1 p.1 p.2 t.1 t.2 / Real.sqrt (term (matState sym t.1) * term (matState sym t.2))),
          if matState sym t.1 = matState sym t.2 then
            fun b => if b = matState sym t.1 then s.2 b / term (matState sym t.1) else s.2 b else s.2)
      have hstep : a2OmegaElement sym n L ex term p t s = .ok
          (L.set s.1 p.1 p.2 t.1 t.2 (L.get s.1 p.1 p.2 t.1 t.2 / Real.sqrt (term (matState sym t.1) * term (matState sym t.2))),
          if matState sym t.1 = matState sym t.2 then
            fun b => if b = matState sym t.1 then s.2 b / term (matState sym t.1) else s.2 b else s.2) := by
        unfold a2OmegaElement
        rw [smatIndexInv_val sym n t.1 t4, smatIndexInv_val sym n t.2 t5]
        simp only [Outcome.bind_eq, Outcome.bind_ok, hst]
        rw [if_neg hx1, if_neg hx2]
      refine ⟨s', ?_, ?_, ?_⟩
      · unfold foldOutcome
        rw [hstep]
        simp only [Outcome.bind_eq, Outcome.bind_ok]
        exact h1
      · intro i j hi hj
        rw [h2 i j hi hj]
        simp only
        rw [value_set L hL s.1 p _ t1 t2 hi hj]
        have hget : L.get s.1 p.1 p.2 t.1 t.2 = L.value s.1 t.1 t.2 := by
          unfold Layout.value
          rw [t3]; rfl
        by_cases hij : i = t.1 ∧ j = t.2
        · obtain ⟨rfl, rfl⟩ := hij
          rw [if_neg (fun h => hnd'.1 h.1), if_pos ⟨t3, rfl, rfl⟩, if_pos ⟨by simp, hx1, hx2⟩, hget]
        · have hset : ¬ (p = L.owner i j ∧ i = t.1 ∧ j = t.2) := fun h => hij h.2
          simp only [if_neg hset]
          have hne : ¬ (i, j) = t := fun h => hij ⟨by rw [← h], by rw [← h]⟩
          simp [List.mem_cons, hne]
      · intro b
        rw [h3 b]
        by_cases hb : b ∈ ex
        · rw [if_pos hb, if_pos hb]
          simp only
          by_cases h12 : matState sym t.1 = matState sym t.2
          · rw [if_pos h12]
            have hbt : ¬ b = matState sym t.1 := fun h => hx1 (h ▸ hb)
            rw [if_neg hbt]
          · rw [if_neg h12]
        · rw [if_neg hb, if_neg hb]
          simp only
          by_cases h12 : matState sym t.1 = b ∧ matState sym t.2 = b
          · rw [List.filter_cons_of_pos (by simpa using h12), List.length_cons, if_pos (h12.1.trans h12.2.symm)]
            rw [if_pos h12.1.symm, h12.1, div_div, pow_succ, mul_comm]
          · rw [List.filter_cons_of_neg (by simpa using h12)]
            congr 1
            by_cases h3 : matState sym t.1 = matState sym t.2
            · rw [if_pos h3]
              have hbt : ¬ b = matState sym t.1 := fun h => h12 ⟨h.symm, h3 ▸ h.symm⟩
              rw [if_neg hbt]
            · rw [if_neg h3]

/-- Number of elements of the diagonal block of state `b` stored on process `p`. -/
def blockCount (sym : Bool) (L : Layout) (p : Nat × Nat) (b : Nat) : Nat :=
  ((L.getAllLocalStates p.1 p.2).filter fun t => matState sym t.1 = b ∧ matState sym t.2 = b).length

theorem a2OmegaLoops_val (sym : Bool) (n : Nat) (L : Layout) (hL : L.Good)
    (hr : (L.numRows : Int) ≤ intMax) (hc : (L.numCols : Int) ≤ intMax) (ex : List Nat) (term : Nat → ℝ)
    (order : Nat × Nat → List (Nat × Nat)) (l : List ((Nat × Nat) × (Nat → ℝ))) (hnd : (l.map (·.1)).Nodup)
    (hl : ∀ x ∈ l, x.1 ∈ L.procs) (horder : ∀ p ∈ L.procs, (order p).Perm (L.getAllLocalStates p.1 p.2))
    (hst : ∀ p ∈ L.procs, (L.getAllLocalStates p.1 p.2).Nodup) (m : DistData ℝ) :
    ∃ m' ds, a2OmegaLoops sym n L ex term order l m = .ok (m', ds) ∧ ds.length = l.length ∧
      (∀ i j, i < L.numRows → j < L.numCols → L.value m' i j =
        if L.owner i j ∈ l.map (·.1) ∧ matState sym i ∉ ex ∧ matState sym j ∉ ex then
          L.value m i j / Real.sqrt (term (matState sym i) * term (matState sym j)) else L.value m i j) ∧
      ∀ (k : Nat) (x : (Nat × Nat) × (Nat → ℝ)) (d : Nat → ℝ), l[k]? = some x → ds[k]? = some d → ∀ b,
        d b = if b ∈ ex then x.2 b else x.2 b / term b ^ blockCount sym L x.1 b := by
  induction l generalizing m with
  | nil =>
    refine ⟨m, [], rfl, rfl, fun i j _ _ => ?_, fun k x d h => by simp at h⟩
    rw [if_neg (by simp)]
  | cons y t ih =>
    obtain ⟨p, d0⟩ := y
    have hp : p ∈ L.procs := hl (p, d0) (by simp)
    have hp' := (mem_grid p).mp hp
    rw [List.map_cons] at hnd
    obtain ⟨hnd1, hnd2⟩ := List.nodup_cons.mp hnd
    have hmem : ∀ t, t ∈ order p ↔ t.1 < L.numRows ∧ t.2 < L.numCols ∧ p = L.owner t.1 t.2 := by
      intro t
      rw [(horder p hp).mem_iff, mem_localStates L hL hp'.1 hp'.2 t, local_iff_owner L p]
    obtain ⟨s', h1, h2, h3⟩ := a2OmegaProcess_val sym n L hL ex term p (order p)
      ((horder p hp).nodup_iff.mpr (hst p hp)) (fun t ht => by
        obtain ⟨a, b, c⟩ := (hmem t).mp ht
        exact ⟨a, b, c, by omega, by omega⟩) (m, d0)
    obtain ⟨m', ds, h4, h5, h6, h7⟩ := ih hnd2 (fun x hx => hl x (by simp [hx])) s'.1
    refine ⟨m', s'.2 :: ds, ?_, by simp [h5], ?_, ?_⟩
    · unfold a2OmegaLoops
      rw [h1]
      simp only [Outcome.bind_eq, Outcome.bind_ok]
      rw [h4]
      rfl
    · intro i j hi hj
      rw [h6 i j hi hj, h2 i j hi hj]
      by_cases hx : matState sym i ∉ ex ∧ matState sym j ∉ ex
      · by_cases ho : p = L.owner i j
        · rw [if_neg (fun h => hnd1 (ho ▸ h.1)), if_pos ⟨(hmem (i, j)).mpr ⟨hi, hj, ho⟩, hx⟩,
            if_pos ⟨by rw [List.map_cons, ← ho]; simp, hx⟩]
        · have hno : ¬ ((i, j) ∈ order p ∧ matState sym i ∉ ex ∧ matState sym j ∉ ex) :=
            fun h => ho ((hmem (i, j)).mp h.1).2.2
          rw [if_neg hno]
          by_cases hin : L.owner i j ∈ t.map (·.1)
          · rw [if_pos ⟨hin, hx⟩, if_pos ⟨by rw [List.map_cons]; simp [hin], hx⟩]
          · rw [if_neg (fun h => hin h.1), if_neg]
            rintro ⟨h, _⟩
            rw [List.map_cons] at h
            rcases List.mem_cons.mp h with h | h
            · exact ho h.symm
            · exact hin h
      · rw [if_neg (fun h => hx h.2), if_neg (fun h => hx h.2), if_neg (fun h => hx h.2)]
    · intro k x d hk hd b
      cases k with
      | zero =>
        simp only [List.getElem?_cons_zero, Option.some.injEq] at hk hd
        subst hk hd
        rw [h3 b]
        have e : ((order p).filter fun t => matState sym t.1 = b ∧ matState sym t.2 = b).length = blockCount sym L p b := by
          unfold blockCount
          exact ((horder p hp).filter _).length_eq
        rw [e]
      | succ k =>
        simp only [List.getElem?_cons_succ] at hk hd
        exact h7 k x d hk hd b

end Verif.Model
