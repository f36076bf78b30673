import Verif.Proofs.Degeneracy
import Mathlib.Tactic.NormNum
import Mathlib.Algebra.Order.Ring.Rat

/-!
# C52, C53: averages over degenerate states

Specification.  Two bands are degenerate when their energies differ by less than `10⁻⁶`.  `CleanBands` says that the
bands are in ascending order and that degeneracy is transitive on them (there are separated multiplets).
`meanOver en n i f` is the mean of `f` over the bands degenerate with `i`.
-/
namespace Verif.Props
open Verif.Model

variable {α : Type} [Field α] [LinearOrder α] [IsStrictOrderedRing α]

/-- Bands degenerate with `i` among `n`. -/
def degenerateWith (en : Nat → α) (n i : Nat) : List Nat :=
  (List.range n).filter fun j => |en j - en i| < 1 / 1000000

/-- Mean of `f` over the bands degenerate with `i`. -/
def meanOver (en : Nat → α) (n i : Nat) (f : Nat → α) : α :=
  ((degenerateWith en n i).map f).sum / ((degenerateWith en n i).length : α)

/-- Degeneracy is transitive on the bands: they form separated multiplets. -/
def Multiplets (en : Nat → α) (n : Nat) : Prop :=
  ∀ i j k, i < n → j < n → k < n → |en i - en j| < 1 / 1000000 → |en j - en k| < 1 / 1000000 →
    |en i - en k| < 1 / 1000000

/-- Ascending energies. -/
def Ascending (en : Nat → α) (n : Nat) : Prop := ∀ i j, i ≤ j → j < n → en i ≤ en j

/-- Sum over all band triples. -/
def tensorSum (n1 n2 n3 : Nat) (c : Nat → Nat → Nat → α) : α :=
  ((List.range n1).map fun i => ((List.range n2).map fun j => ((List.range n3).map fun k => c i j k).sum).sum).sum

/-- **C52** (total): the averages keep the total coupling, for all energies, sizes and couplings. -/
theorem C52_total (n1 n2 n3 : Nat) (e1 e2 e3 : Nat → α) (c : Nat → Nat → Nat → α) :
    tensorSum n1 n2 n3 (symmetrizeCoupling n1 n2 n3 e1 e2 e3 c) = tensorSum n1 n2 n3 c := by
  have hswap : ∀ (l1 l2 : List Nat) (g : Nat → Nat → α),
      (l1.map fun i => (l2.map fun j => g i j).sum).sum = (l2.map fun j => (l1.map fun i => g i j).sum).sum := by
    intro l1 l2 g
    induction l1 with
    | nil => simp
    | cons x t ih =>
      simp only [List.map_cons, List.sum_cons]
      rw [ih, ← List.sum_map_add]
  unfold tensorSum symmetrizeCoupling
  simp only [averageLoop_sum]
  -- the second index
  have e2' : ∀ i, ((List.range n2).map fun j => ((List.range n3).map fun k =>
      averageLoop e2 n2 n2 0 (fun j (p : Nat × Nat) =>
        averageLoop e1 n1 n1 0 (fun i (p : Nat × Nat) => c i p.1 p.2) p.1 (j, p.2)) j (i, k)).sum).sum =
      ((List.range n2).map fun j => ((List.range n3).map fun k =>
        averageLoop e1 n1 n1 0 (fun i (p : Nat × Nat) => c i p.1 p.2) i (j, k)).sum).sum := by
    intro i
    rw [hswap]
    simp only [averageLoop_sum]
    rw [hswap]
  simp only [e2']
  rw [hswap]
  have e1' : ∀ j, ((List.range n1).map fun i => ((List.range n3).map fun k =>
      averageLoop e1 n1 n1 0 (fun i (p : Nat × Nat) => c i p.1 p.2) i (j, k)).sum).sum =
      ((List.range n1).map fun i => ((List.range n3).map fun k => c i j k).sum).sum := by
    intro j
    rw [hswap]
    simp only [averageLoop_sum]
    rw [hswap]
  simp only [e1']
  rw [hswap]

/-- Two degenerate bands: the total of the couplings `1` and `3` is kept while both become `2`. -/
example : symmetrizeCoupling (α := ℚ) 2 1 1 (fun _ => 0) (fun _ => 0) (fun _ => 0) (fun i _ _ => 2 * i + 1) 0 0 0 = 2 := by
  decide +kernel

/-- **C52** (non-degenerate bands): the coupling of three bands, each of which is not degenerate with any other band
of its wavevector, is not changed. -/
theorem C52_nondegenerate (n1 n2 n3 : Nat) (e1 e2 e3 : Nat → α) (c : Nat → Nat → Nat → α) (i j k : Nat)
    (hi : i < n1) (hj : j < n2) (hk : k < n3)
    (h1 : ∀ b, b < n1 → b ≠ i → ¬ |e1 i - e1 b| < 1 / 1000000)
    (h2 : ∀ b, b < n2 → b ≠ j → ¬ |e2 j - e2 b| < 1 / 1000000)
    (h3 : ∀ b, b < n3 → b ≠ k → ¬ |e3 k - e3 b| < 1 / 1000000) :
    symmetrizeCoupling n1 n2 n3 e1 e2 e3 c i j k = c i j k := by
  unfold symmetrizeCoupling
  rw [averageLoop_isolated e3 n3 k hk h3, averageLoop_isolated e2 n2 j hj h2, averageLoop_isolated e1 n1 i hi h1]

/-- The hypotheses hold for the third band of a doublet and a singlet. -/
example : ∀ b, b < 3 → b ≠ 2 → ¬ |(fun b : Nat => if b = 2 then (1 : ℚ) else 0) 2 -
    (fun b : Nat => if b = 2 then (1 : ℚ) else 0) b| < 1 / 1000000 := by
  intro b hb hne
  have : b = 0 ∨ b = 1 := by omega
  rcases this with rfl | rfl <;> norm_num

/-- **C52** (partial: the energies are ascending and form separated multiplets at each wavevector): each coupling
becomes its mean over the triples of degenerate bands. -/
theorem C52_mean_partial (n1 n2 n3 : Nat) (e1 e2 e3 : Nat → α) (c : Nat → Nat → Nat → α)
    (a1 : Ascending e1 n1) (a2 : Ascending e2 n2) (a3 : Ascending e3 n3)
    (m1 : Multiplets e1 n1) (m2 : Multiplets e2 n2) (m3 : Multiplets e3 n3)
    (i j k : Nat) (hi : i < n1) (hj : j < n2) (hk : k < n3) :
    symmetrizeCoupling n1 n2 n3 e1 e2 e3 c i j k =
      meanOver e3 n3 k fun k' => meanOver e2 n2 j fun j' => meanOver e1 n1 i fun i' => c i' j' k' := by
  unfold symmetrizeCoupling
  rw [averageLoop_val e3 n3 a3 m3 _ n3 0 _ (by omega) (fun _ _ h => by omega) k hk, if_pos (Nat.zero_le _)]
  unfold meanOver
  congr 2
  apply List.map_congr_left
  intro k' _
  rw [averageLoop_val e2 n2 a2 m2 _ n2 0 _ (by omega) (fun _ _ h => by omega) j hj, if_pos (Nat.zero_le _)]
  congr 2
  apply List.map_congr_left
  intro j' _
  rw [averageLoop_val e1 n1 a1 m1 _ n1 0 _ (by omega) (fun _ _ h => by omega) i hi, if_pos (Nat.zero_le _)]
  rfl

/-- With separated multiplets, degenerate bands have the same degenerate partners. -/
theorem degenerateWith_eq {en : Nat → α} {n : Nat} (m : Multiplets en n) {i i' : Nat} (hi : i < n) (hi' : i' < n)
    (h : |en i - en i'| < 1 / 1000000) : degenerateWith en n i = degenerateWith en n i' := by
  unfold degenerateWith
  apply List.filter_congr
  intro k hk
  have hk : k < n := by simpa using hk
  rw [decide_eq_decide]
  constructor
  · intro h'; exact m k i i' hk hi hi' h' h
  · intro h'; rw [abs_sub_comm] at h; exact m k i' i hk hi' hi h' h

/-- **C52** (partial, same hypotheses): triples of pairwise degenerate bands end with the same coupling. -/
theorem C52_equal_partial (n1 n2 n3 : Nat) (e1 e2 e3 : Nat → α) (c : Nat → Nat → Nat → α)
    (a1 : Ascending e1 n1) (a2 : Ascending e2 n2) (a3 : Ascending e3 n3)
    (m1 : Multiplets e1 n1) (m2 : Multiplets e2 n2) (m3 : Multiplets e3 n3)
    (i i' j j' k k' : Nat) (hi : i < n1) (hi' : i' < n1) (hj : j < n2) (hj' : j' < n2) (hk : k < n3) (hk' : k' < n3)
    (d1 : |e1 i - e1 i'| < 1 / 1000000) (d2 : |e2 j - e2 j'| < 1 / 1000000) (d3 : |e3 k - e3 k'| < 1 / 1000000) :
    symmetrizeCoupling n1 n2 n3 e1 e2 e3 c i j k = symmetrizeCoupling n1 n2 n3 e1 e2 e3 c i' j' k' := by
  rw [C52_mean_partial n1 n2 n3 e1 e2 e3 c a1 a2 a3 m1 m2 m3 i j k hi hj hk,
    C52_mean_partial n1 n2 n3 e1 e2 e3 c a1 a2 a3 m1 m2 m3 i' j' k' hi' hj' hk']
  simp only [meanOver, degenerateWith_eq m1 hi hi' d1, degenerateWith_eq m2 hj hj' d2, degenerateWith_eq m3 hk hk' d3]

/-- A doublet and a singlet are ascending separated multiplets. -/
example : Ascending (fun b : Nat => if b = 2 then (1 : ℚ) else 0) 3 ∧
    Multiplets (fun b : Nat => if b = 2 then (1 : ℚ) else 0) 3 := by
  constructor
  · intro i j hij hj
    show (if i = 2 then (1 : ℚ) else 0) ≤ if j = 2 then 1 else 0
    by_cases h : i = 2
    · rw [if_pos h, if_pos (by omega)]
    · rw [if_neg h]; split <;> norm_num
  · intro i j k hi hj hk
    by_cases h1 : i = 2 <;> by_cases h2 : j = 2 <;> by_cases h3 : k = 2 <;> simp [h1, h2, h3] <;> norm_num

/-- Energies `0`, `0.9·10⁻⁶`, `1.8·10⁻⁶`: bands 0-1 and 1-2 are degenerate. -/
def chainEnergies (b : Nat) : ℚ := 9 * b / 10000000

/-- **C52 is violated** for chains of nearly degenerate bands: the loop closes a multiplet at the tolerance from its
first band, so bands 1 and 2, which are degenerate, end with different couplings. -/
theorem C52_violated_chain : |chainEnergies 1 - chainEnergies 2| < 1 / 1000000 ∧
    symmetrizeCoupling 3 1 1 chainEnergies (fun _ => 0) (fun _ => 0) (fun i _ _ => (i : ℚ)) 1 0 0 ≠
      symmetrizeCoupling 3 1 1 chainEnergies (fun _ => 0) (fun _ => 0) (fun i _ _ => (i : ℚ)) 2 0 0 := by
  decide +kernel

/-! ## C53 -/

/-- **C53** (partial: the first calculation only): when each state has its own index, every linewidth of the first
temperature and chemical potential becomes the mean over the bands of the same wavevector degenerate with it. -/
theorem C53_mean_partial (points : List (DegPoint α)) (data : Nat → Nat → α)
    (hinj : ∀ p ∈ points, ∀ a b, a < p.nb → b < p.nb → p.bte a = p.bte b → a = b)
    (hdisj : points.Pairwise fun p q => ∀ a b, a < p.nb → b < q.nb → p.bte a ≠ q.bte b) :
    ∀ p ∈ points, ∀ ib, ib < p.nb →
      degeneracyAveraging points data 0 (p.bte ib) = meanOver p.en p.nb ib fun b => data 0 (p.bte b) := by
  intro p hp ib hib
  unfold degeneracyAveraging
  simp only [if_true]
  rw [(averagePoints_val points hinj hdisj (data 0)).1 p hp ib hib, linewidthTmp_val]
  rfl

/-- **C53** (partial: the first calculation only, separated multiplets): degenerate states at a wavevector end with
equal linewidths and the sum over the bands of the wavevector is preserved. -/
theorem C53_equal_sum_partial (points : List (DegPoint α)) (data : Nat → Nat → α)
    (hinj : ∀ p ∈ points, ∀ a b, a < p.nb → b < p.nb → p.bte a = p.bte b → a = b)
    (hdisj : points.Pairwise fun p q => ∀ a b, a < p.nb → b < q.nb → p.bte a ≠ q.bte b) :
    ∀ p ∈ points, Multiplets p.en p.nb →
      (∀ a b, a < p.nb → b < p.nb → |p.en a - p.en b| < 1 / 1000000 →
        degeneracyAveraging points data 0 (p.bte a) = degeneracyAveraging points data 0 (p.bte b)) ∧
      ((List.range p.nb).map fun b => degeneracyAveraging points data 0 (p.bte b)).sum =
        ((List.range p.nb).map fun b => data 0 (p.bte b)).sum := by
  intro p hp hm
  refine ⟨?_, ?_⟩
  · intro a b ha hb hab
    rw [C53_mean_partial points data hinj hdisj p hp a ha, C53_mean_partial points data hinj hdisj p hp b hb]
    simp only [meanOver, degenerateWith_eq hm ha hb hab]
  · have e : ((List.range p.nb).map fun b => degeneracyAveraging points data 0 (p.bte b)) =
        (List.range p.nb).map fun i => ((degSet p.en p.nb i).map fun b => data 0 (p.bte b)).sum /
          ((degSet p.en p.nb i).length : α) := by
      apply List.map_congr_left
      intro b hb
      have hb : b < p.nb := by simpa using hb
      rw [C53_mean_partial points data hinj hdisj p hp b hb]
      rfl
    rw [e, sum_means p.en p.nb hm]

/-- States that are not at any wavevector of the list, and all the other calculations, are not changed. -/
theorem C53_frame (points : List (DegPoint α)) (data : Nat → Nat → α)
    (hinj : ∀ p ∈ points, ∀ a b, a < p.nb → b < p.nb → p.bte a = p.bte b → a = b)
    (hdisj : points.Pairwise fun p q => ∀ a b, a < p.nb → b < q.nb → p.bte a ≠ q.bte b) (r s : Nat)
    (h : r ≠ 0 ∨ ∀ p ∈ points, ∀ ib, ib < p.nb → s ≠ p.bte ib) :
    degeneracyAveraging points data r s = data r s := by
  unfold degeneracyAveraging
  by_cases hr : r = 0
  · subst hr
    simp only [if_true]
    exact (averagePoints_val points hinj hdisj (data 0)).2 s (h.resolve_left (by simp))
  · simp only [if_neg hr]

/-- One wavevector with a doublet of states 0 and 1. -/
def doublet : DegPoint ℚ := { nb := 2, en := fun _ => 5, bte := fun b => b }

/-- Linewidths `1`, `3` at two temperatures. -/
def doubletData (_ s : Nat) : ℚ := 2 * s + 1

/-- The hypotheses hold for two wavevectors with two bands each. -/
example : (∀ p ∈ [doublet, { doublet with bte := fun b => b + 2 }], ∀ a b, a < p.nb → b < p.nb →
      p.bte a = p.bte b → a = b) ∧
    [doublet, { doublet with bte := fun b => b + 2 }].Pairwise fun p q => ∀ a b, a < p.nb → b < q.nb →
      p.bte a ≠ q.bte b := by
  constructor
  · intro p hp a b _ _ h
    simp only [List.mem_cons, List.not_mem_nil, or_false] at hp
    rcases hp with rfl | rfl
    · exact h
    · simpa using h
  · rw [List.pairwise_cons]
    refine ⟨?_, by simp⟩
    intro q hq a b ha hb
    simp only [List.mem_cons, List.not_mem_nil, or_false] at hq
    subst hq
    simp only [doublet] at ha hb ⊢
    omega

/-- **C53 is violated**: with two calculations the linewidths of the second are not averaged; the two degenerate
states keep the different linewidths `1` and `3`. -/
theorem C53_violated_second_calculation :
    degeneracyAveraging [doublet] doubletData 0 0 = degeneracyAveraging [doublet] doubletData 0 1 ∧
      degeneracyAveraging [doublet] doubletData 1 0 ≠ degeneracyAveraging [doublet] doubletData 1 1 := by
  decide +kernel

end Verif.Props
