import Verif.Model.LinewidthSplit
import Verif.Proofs.Degeneracy
import Verif.Proofs.ActiveBuild
import Mathlib.Tactic.Ring
import Mathlib.Tactic.Linarith

/-! Lemmas for C57 and C74. -/
namespace Verif.Model

variable {α : Type} [Field α] [LinearOrder α]

theorem linewidthTmp_add (p : DegPoint α) (f g : Nat → α) (ib : Nat) :
    linewidthTmp p (fun s => f s + g s) ib = linewidthTmp p f ib + linewidthTmp p g ib := by
  unfold linewidthTmp
  have key : ∀ (l : List Nat) (n : Nat) (a b : α),
      l.foldl (fun (s : Nat × α) ib2 =>
        if |p.en ib2 - p.en ib| < degTol then (s.1 + 1, s.2 + (f (p.bte ib2) + g (p.bte ib2))) else s) (n, a + b) =
      ((l.foldl (fun (s : Nat × α) ib2 =>
        if |p.en ib2 - p.en ib| < degTol then (s.1 + 1, s.2 + f (p.bte ib2)) else s) (n, a)).1,
       (l.foldl (fun (s : Nat × α) ib2 =>
        if |p.en ib2 - p.en ib| < degTol then (s.1 + 1, s.2 + f (p.bte ib2)) else s) (n, a)).2 +
       (l.foldl (fun (s : Nat × α) ib2 =>
        if |p.en ib2 - p.en ib| < degTol then (s.1 + 1, s.2 + g (p.bte ib2)) else s) (n, b)).2) ∧
      (l.foldl (fun (s : Nat × α) ib2 =>
        if |p.en ib2 - p.en ib| < degTol then (s.1 + 1, s.2 + g (p.bte ib2)) else s) (n, b)).1 =
      (l.foldl (fun (s : Nat × α) ib2 =>
        if |p.en ib2 - p.en ib| < degTol then (s.1 + 1, s.2 + f (p.bte ib2)) else s) (n, a)).1 := by
    intro l
    induction l with
    | nil => intro n a b; exact ⟨rfl, rfl⟩
    | cons x t ih =>
      intro n a b
      simp only [List.foldl_cons]
      by_cases h : |p.en x - p.en ib| < degTol
      · simp only [if_pos h]
        have := ih (n + 1) (a + f (p.bte x)) (b + g (p.bte x))
        rw [show a + f (p.bte x) + (b + g (p.bte x)) = a + b + (f (p.bte x) + g (p.bte x)) by ring] at this
        exact this
      · simp only [if_neg h]
        exact ih n a b
  obtain ⟨h1, h2⟩ := key (List.range p.nb) 0 0 0
  rw [add_zero] at h1
  simp only [h1, h2]
  rw [add_div]

theorem averagePoint_add (p : DegPoint α) (f g : Nat → α) :
    averagePoint p (fun s => f s + g s) = fun s => averagePoint p f s + averagePoint p g s := by
  unfold averagePoint
  have key : ∀ (l : List Nat) (f' g' : Nat → α),
      l.foldl (fun r ib1 => fun s => if s = p.bte ib1 then linewidthTmp p (fun s => f s + g s) ib1 else r s)
        (fun s => f' s + g' s) =
      fun s => l.foldl (fun r ib1 => fun s => if s = p.bte ib1 then linewidthTmp p f ib1 else r s) f' s +
        l.foldl (fun r ib1 => fun s => if s = p.bte ib1 then linewidthTmp p g ib1 else r s) g' s := by
    intro l
    induction l with
    | nil => intro f' g'; rfl
    | cons x t ih =>
      intro f' g'
      simp only [List.foldl_cons]
      rw [← ih]
      congr 1
      funext s
      by_cases h : s = p.bte x
      · simp only [if_pos h]; exact linewidthTmp_add p f g x
      · simp only [if_neg h]
  exact key _ f g

/-- The averages over degenerate states are additive. -/
theorem degeneracyAveraging_add (points : List (DegPoint α)) (f g : Nat → Nat → α) :
    degeneracyAveraging points (fun c s => f c s + g c s) =
      fun c s => degeneracyAveraging points f c s + degeneracyAveraging points g c s := by
  have key : ∀ (l : List (DegPoint α)) (f' g' : Nat → α),
      l.foldl (fun r p => averagePoint p r) (fun s => f' s + g' s) =
      fun s => l.foldl (fun r p => averagePoint p r) f' s + l.foldl (fun r p => averagePoint p r) g' s := by
    intro l
    induction l with
    | nil => intro f' g'; rfl
    | cons x t ih =>
      intro f' g'
      simp only [List.foldl_cons]
      rw [averagePoint_add, ih]
  unfold degeneracyAveraging
  simp only [key]
  funext c s
  by_cases h : c = 0 <;> simp [h]

/-- The part of `w` selected by the flag. -/
def Linewidths.part (w : Linewidths α) (umk : Bool) : Nat → Nat → α := if umk then w.umklapp else w.normal

theorem addPart_part (w : Linewidths α) (b b' : Bool) (i : Nat) (x : Nat → α) (c s : Nat) :
    (addPart w b i x).part b' c s = w.part b' c s + if b = b' ∧ s = i then x c else 0 := by
  cases b <;> cases b' <;> simp [addPart, Linewidths.part, addColumn] <;> split <;> simp

theorem addPart_total (w : Linewidths α) (b : Bool) (i : Nat) (x : Nat → α) :
    (addPart w b i x).total = w.total := by
  cases b <;> simp [addPart]

theorem part_total (w : Linewidths α) (t : Nat → Nat → α) (b : Bool) :
    ({ w with total := t } : Linewidths α).part b = w.part b := by
  cases b <;> rfl

theorem addColumn_val (d : Nat → Nat → α) (i : Nat) (x : Nat → α) (c s : Nat) :
    addColumn d i x c s = d c s + if s = i then x c else 0 := by
  unfold addColumn; split <;> simp

/-- Sum over MPI processes. -/
theorem reduceData_val (bufs : List (Nat → Nat → α)) (c rank s : Nat) (hr : rank < bufs.length) :
    ∃ g, (reduceData bufs c)[rank]? = some g ∧ g s = (bufs.map fun b => b c s).sum := by
  have hl : rank < (reduceData bufs c).length := by
    unfold reduceData allReduceSum1; split <;> simpa using hr
  refine ⟨_, List.getElem?_eq_getElem hl, ?_⟩
  unfold reduceData at hl ⊢
  refine allReduceSum1_get _ rank hl s _ ?_
  rw [List.map_map]; rfl

/-- A fold whose step adds `v` to an observation of the state gives the sum of the `v`. -/
theorem foldl_observe {σ β : Type} (step : σ → β → σ) (obs : σ → α) (v : β → α)
    (h : ∀ w p, obs (step w p) = obs w + v p) (l : List β) (w : σ) :
    obs (l.foldl step w) = obs w + (l.map v).sum := by
  induction l generalizing w with
  | nil => simp
  | cons x t ih =>
    simp only [List.foldl_cons, List.map_cons, List.sum_cons]
    rw [ih, h, add_assoc]

theorem mem_excludeIndices (cutoff : α) (en : List α) (i : Nat) :
    i ∈ excludeIndices cutoff en ↔ ∃ h : i < en.length, en[i] < cutoff := by
  unfold excludeIndices
  simp only [List.mem_filter, List.mem_range, decide_eq_true_eq]
  constructor
  · rintro ⟨h, h2⟩
    refine ⟨h, ?_⟩
    rwa [List.getD_eq_getElem?_getD, List.getElem?_eq_getElem h] at h2
  · rintro ⟨h, h2⟩
    refine ⟨h, ?_⟩
    rwa [List.getD_eq_getElem?_getD, List.getElem?_eq_getElem h]

end Verif.Model
