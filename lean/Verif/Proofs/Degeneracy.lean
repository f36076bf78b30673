import Verif.Model.Degeneracy
import Mathlib.Algebra.BigOperators.Group.List.Basic
import Mathlib.Algebra.BigOperators.Ring.List
import Mathlib.Tactic.FieldSimp
import Mathlib.Tactic.Linarith
import Mathlib.Tactic.Ring
import Mathlib.Tactic.Positivity

namespace Verif.Model

variable {α : Type} [Field α] [LinearOrder α] [IsStrictOrderedRing α]

theorem degTol_pos : (0 : α) < degTol := by unfold degTol; positivity

theorem degCountFrom_spec (en : Nat → α) (e1 : α) (k i : Nat) :
    degCountFrom en e1 k i ≤ k ∧ (∀ j, i ≤ j → j < i + degCountFrom en e1 k i → |e1 - en j| < degTol) ∧
    (degCountFrom en e1 k i < k → ¬ |e1 - en (i + degCountFrom en e1 k i)| < degTol) := by
  induction k generalizing i with
  | zero => refine ⟨le_rfl, ?_, ?_⟩ <;> · simp only [degCountFrom]; omega
  | succ k ih =>
    unfold degCountFrom
    obtain ⟨h1, h2, h3⟩ := ih (i + 1)
    by_cases h : |e1 - en i| < degTol
    · rw [if_pos h]
      refine ⟨by omega, ?_, ?_⟩
      · intro j hj hj'
        rcases Nat.eq_or_lt_of_le hj with rfl | hlt
        · exact h
        · exact h2 j (by omega) (by omega)
      · intro hlt
        have := h3 (by omega)
        rw [show i + (degCountFrom en e1 k (i + 1) + 1) = i + 1 + degCountFrom en e1 k (i + 1) by omega]
        exact this
    · rw [if_neg h]
      exact ⟨by omega, fun j _ _ => by omega, fun _ => by simpa using h⟩

theorem degDegree_spec (en : Nat → α) (n ib : Nat) (h : ib < n) :
    0 < degDegree en n ib ∧ ib + degDegree en n ib ≤ n ∧
    (∀ j, ib ≤ j → j < ib + degDegree en n ib → |en ib - en j| < degTol) ∧
    (ib + degDegree en n ib < n → ¬ |en ib - en (ib + degDegree en n ib)| < degTol) := by
  have hs := degCountFrom_spec en (en ib) (n - ib) ib
  have hpos : 0 < degDegree en n ib := by
    unfold degDegree
    obtain ⟨k, hk⟩ : ∃ k, n - ib = k + 1 := ⟨n - ib - 1, by omega⟩
    rw [hk]
    unfold degCountFrom
    rw [if_pos (by simpa using degTol_pos)]
    omega
  obtain ⟨h1, h2, h3⟩ := hs
  unfold degDegree at hpos ⊢
  exact ⟨hpos, by omega, h2, fun hlt => h3 (by omega)⟩

/-- Mean of the block. -/
theorem averageBlock_val {β : Type} (ib d : Nat) (c : Nat → β → α) (i : Nat) (b : β) :
    averageBlock ib d c i b = if ib ≤ i ∧ i < ib + d then
      ((List.range d).map fun k => c (ib + k) b).sum / (d : α) else c i b := by
  unfold averageBlock
  have key : ∀ (l : List Nat) (s0 : α), l.foldl (fun s i => s + c (ib + i) b / (d : α)) s0 =
      s0 + (l.map fun k => c (ib + k) b).sum / (d : α) := by
    intro l
    induction l with
    | nil => intro s0; simp
    | cons x t ih =>
      intro s0
      rw [List.foldl_cons, ih, List.map_cons, List.sum_cons]
      ring
  simp only [key, zero_add]

/-- Sum over the bands from `a`, `m` of them. -/
theorem sum_split {γ : Type} [AddCommMonoid γ] (f : Nat → γ) (a b : Nat) :
    ((List.range (a + b)).map f).sum = ((List.range a).map f).sum + ((List.range b).map fun k => f (a + k)).sum := by
  rw [List.range_add, List.map_append, List.sum_append, List.map_map]; rfl

theorem averageBlock_sum {β : Type} (n ib d : Nat) (hd : 0 < d) (hn : ib + d ≤ n) (c : Nat → β → α) (b : β) :
    ((List.range n).map fun i => averageBlock ib d c i b).sum = ((List.range n).map fun i => c i b).sum := by
  obtain ⟨r, rfl⟩ := Nat.exists_eq_add_of_le hn
  rw [sum_split _ (ib + d) r, sum_split _ (ib + d) r, sum_split _ ib d, sum_split _ ib d]
  congr 1
  · congr 1
    · congr 1
      apply List.map_congr_left
      intro i hi
      have : i < ib := by simpa using hi
      rw [averageBlock_val, if_neg (by omega)]
    · have e : ((List.range d).map fun k => averageBlock ib d c (ib + k) b) =
          (List.range d).map fun _ => ((List.range d).map fun k => c (ib + k) b).sum / (d : α) := by
        apply List.map_congr_left
        intro k hk
        have : k < d := by simpa using hk
        rw [averageBlock_val, if_pos (by omega)]
      rw [e, List.map_const', List.sum_replicate, List.length_range, nsmul_eq_mul]
      have hd' : (d : α) ≠ 0 := by
        have : (0 : α) < d := by exact_mod_cast hd
        exact ne_of_gt this
      field_simp
  · congr 1
    apply List.map_congr_left
    intro i _
    rw [averageBlock_val, if_neg (by omega)]

theorem averageLoop_sum {β : Type} (en : Nat → α) (n : Nat) (b : β) : ∀ (fuel ib : Nat) (c : Nat → β → α),
    ((List.range n).map fun i => averageLoop en n fuel ib c i b).sum = ((List.range n).map fun i => c i b).sum := by
  intro fuel
  induction fuel with
  | zero => intro ib c; rfl
  | succ f ih =>
    intro ib c
    unfold averageLoop
    by_cases h : ib < n
    · rw [if_pos h]
      obtain ⟨h1, h2, _, _⟩ := degDegree_spec en n ib h

      rw [ih, averageBlock_sum n ib _ h1 h2]
    · rw [if_neg h]

/-- A band that is not within the tolerance of any other is not changed. -/
theorem averageLoop_isolated {β : Type} (en : Nat → α) (n : Nat) (i : Nat) (hi : i < n)
    (hiso : ∀ j, j < n → j ≠ i → ¬ |en i - en j| < degTol) (b : β) : ∀ (fuel ib : Nat) (c : Nat → β → α),
    averageLoop en n fuel ib c i b = c i b := by
  intro fuel
  induction fuel with
  | zero => intro ib c; rfl
  | succ f ih =>
    intro ib c
    unfold averageLoop
    by_cases h : ib < n
    · rw [if_pos h]
      obtain ⟨h1, h2, h3, _⟩ := degDegree_spec en n ib h

      rw [ih, averageBlock_val]
      by_cases hin : ib ≤ i ∧ i < ib + degDegree en n ib
      · rw [if_pos hin]
        have hib : ib = i := by
          by_contra hne
          have := h3 i hin.1 hin.2
          rw [abs_sub_comm] at this
          exact hiso ib h hne this
        subst hib
        have hd : degDegree en n ib = 1 := by
          by_contra hne
          exact hiso (ib + 1) (by omega) (by omega) (h3 (ib + 1) (by omega) (by omega))
        rw [hd]
        simp
      · rw [if_neg hin]
    · rw [if_neg h]

/-- Bands within the tolerance of band `i`. -/
def degSet (en : Nat → α) (n i : Nat) : List Nat := (List.range n).filter fun j => |en j - en i| < degTol

theorem filter_range_interval (n a d : Nat) (P : Nat → Bool) (hn : a + d ≤ n)
    (hP : ∀ j, j < n → (P j = true ↔ a ≤ j ∧ j < a + d)) :
    (List.range n).filter P = (List.range d).map fun k => a + k := by
  obtain ⟨r, rfl⟩ := Nat.exists_eq_add_of_le hn
  rw [List.range_add, List.range_add, List.filter_append, List.filter_append]
  have e1 : (List.range a).filter P = [] := by
    rw [List.filter_eq_nil_iff]
    intro j hj
    have : j < a := by simpa using hj
    rw [hP j (by omega)]; omega
  have e2 : ((List.range d).map fun k => a + k).filter P = (List.range d).map fun k => a + k := by
    rw [List.filter_eq_self]
    intro j hj
    obtain ⟨k, hk, rfl⟩ := List.mem_map.mp hj
    have : k < d := by simpa using hk
    rw [hP _ (by omega)]; omega
  have e3 : ((List.range r).map fun k => a + d + k).filter P = [] := by
    rw [List.filter_eq_nil_iff]
    intro j hj
    obtain ⟨k, hk, rfl⟩ := List.mem_map.mp hj
    have : k < r := by simpa using hk
    rw [hP _ (by omega)]; omega
  rw [e1, e2, e3]; simp

/-- With ascending energies and a transitive degeneracy, the loop gives every band the mean over the bands degenerate
with it. -/
theorem averageLoop_val {β : Type} (en : Nat → α) (n : Nat)
    (hsort : ∀ i j, i ≤ j → j < n → en i ≤ en j)
    (htrans : ∀ i j k, i < n → j < n → k < n → |en i - en j| < degTol → |en j - en k| < degTol →
      |en i - en k| < degTol) (b : β) : ∀ (fuel ib : Nat) (c : Nat → β → α), n ≤ ib + fuel →
    (∀ i j, i < ib → ib ≤ j → j < n → ¬ |en i - en j| < degTol) → ∀ i, i < n →
    averageLoop en n fuel ib c i b = if ib ≤ i then
      ((degSet en n i).map fun k => c k b).sum / ((degSet en n i).length : α) else c i b := by
  intro fuel
  induction fuel with
  | zero =>
    intro ib c hf _ i hi
    rw [if_neg (by omega)]; rfl
  | succ f ih =>
    intro ib c hf hb i hi
    unfold averageLoop
    by_cases h : ib < n
    · rw [if_pos h]
      obtain ⟨h1, h2, h3, h4⟩ := degDegree_spec en n ib h

      generalize degDegree en n ib = d at *
      have hib : ib + (d - 1) + 1 = ib + d := by omega
      -- energies beyond the block are not degenerate with `ib`
      have hbeyond : ∀ j, ib + d ≤ j → j < n → ¬ |en ib - en j| < degTol := by
        intro j hj hjn hlt
        have hq := h4 (by omega)
        have a1 := hsort ib (ib + d) (by omega) (by omega)
        have a2 := hsort (ib + d) j hj hjn
        rw [abs_lt] at hlt
        apply hq
        rw [abs_lt]
        constructor <;> linarith [hlt.1, hlt.2, (degTol_pos : (0 : α) < degTol)]
      have hbound : ∀ i j, i < ib + d → ib + d ≤ j → j < n → ¬ |en i - en j| < degTol := by
        intro i j hi' hj hjn hlt
        by_cases hiib : i < ib
        · exact hb i j hiib (by omega) hjn hlt
        · exact hbeyond j hj hjn (htrans ib i j h (by omega) hjn (h3 i (by omega) hi') hlt)
      rw [hib, ih (ib + d) _ (by omega) hbound i hi]
      by_cases c1 : ib + d ≤ i
      · rw [if_pos c1, if_pos (by omega)]
        congr 2
        apply List.map_congr_left
        intro k hk
        obtain ⟨hk1, hk2⟩ := List.mem_filter.mp hk
        have hk1 : k < n := by simpa using hk1
        have hk2 : |en k - en i| < degTol := by simpa using hk2
        rw [averageBlock_val, if_neg]
        rintro ⟨_, hk3⟩
        exact hbound k i hk3 c1 hi hk2
      · rw [if_neg c1, averageBlock_val]
        by_cases c2 : ib ≤ i
        · rw [if_pos ⟨c2, by omega⟩, if_pos c2]
          have hset : degSet en n i = (List.range d).map fun k => ib + k := by
            unfold degSet
            apply filter_range_interval n ib d _ h2
            intro j hj
            rw [decide_eq_true_iff]
            have hi0 := h3 i c2 (by omega)
            constructor
            · intro hlt
              by_contra hc
              have : j < ib ∨ ib + d ≤ j := by omega
              rcases this with hjlt | hjge
              · exact hb j i hjlt c2 hi hlt
              · rw [abs_sub_comm] at hlt
                exact hbound i j (by omega) hjge hj hlt
            · rintro ⟨hj1, hj2⟩
              have hj0 := h3 j hj1 hj2
              rw [abs_sub_comm] at hj0
              exact htrans j ib i hj h hi hj0 hi0
          rw [hset, List.map_map, List.length_map, List.length_range]; rfl
        · rw [if_neg (fun hc => c2 hc.1), if_neg c2]
    · rw [if_neg h, if_neg (by omega)]

/-! ## Linewidths -/

theorem linewidthTmp_val (p : DegPoint α) (row : Nat → α) (ib1 : Nat) :
    linewidthTmp p row ib1 = ((degSet p.en p.nb ib1).map fun b => row (p.bte b)).sum / ((degSet p.en p.nb ib1).length : α) := by
  unfold linewidthTmp degSet
  have key : ∀ (l : List Nat) (s0 : Nat × α), l.foldl (fun (s : Nat × α) ib2 =>
      if |p.en ib2 - p.en ib1| < degTol then (s.1 + 1, s.2 + row (p.bte ib2)) else s) s0 =
      (s0.1 + (l.filter fun j => |p.en j - p.en ib1| < degTol).length,
        s0.2 + ((l.filter fun j => |p.en j - p.en ib1| < degTol).map fun b => row (p.bte b)).sum) := by
    intro l
    induction l with
    | nil => intro s0; simp
    | cons x t ih =>
      intro s0
      rw [List.foldl_cons, ih]
      by_cases h : |p.en x - p.en ib1| < degTol
      · rw [if_pos h, List.filter_cons_of_pos (by simpa using h), List.map_cons, List.sum_cons, List.length_cons]
        ext
        · simp only; omega
        · simp only; ring
      · rw [if_neg h, List.filter_cons_of_neg (by simpa using h)]
  simp only [key, zero_add, Nat.zero_add]

theorem averagePoint_val (p : DegPoint α) (hinj : ∀ a b, a < p.nb → b < p.nb → p.bte a = p.bte b → a = b)
    (row : Nat → α) : (∀ ib, ib < p.nb → averagePoint p row (p.bte ib) = linewidthTmp p row ib) ∧
      ∀ s, (∀ ib, ib < p.nb → s ≠ p.bte ib) → averagePoint p row s = row s := by
  unfold averagePoint
  generalize hval : (fun ib => linewidthTmp p row ib) = val
  have hv : ∀ ib, linewidthTmp p row ib = val ib := fun ib => by rw [← hval]
  simp only [hv]
  have key : ∀ m, m ≤ p.nb → (∀ ib, ib < m →
      (List.range m).foldl (fun r ib1 => fun s => if s = p.bte ib1 then val ib1 else r s) row (p.bte ib) = val ib) ∧
      ∀ s, (∀ ib, ib < m → s ≠ p.bte ib) →
      (List.range m).foldl (fun r ib1 => fun s => if s = p.bte ib1 then val ib1 else r s) row s = row s := by
    intro m
    induction m with
    | zero => intro _; exact ⟨fun ib h => by omega, fun s _ => rfl⟩
    | succ m ih =>
      intro hm
      obtain ⟨h1, h2⟩ := ih (by omega)
      refine ⟨?_, ?_⟩
      · intro ib hib
        rw [List.range_succ, List.foldl_append]
        simp only [List.foldl_cons, List.foldl_nil]
        by_cases he : ib = m
        · subst he; rw [if_pos rfl]
        · rw [if_neg (fun h => he (hinj ib m (by omega) (by omega) h))]
          exact h1 ib (by omega)
      · intro s hs
        rw [List.range_succ, List.foldl_append]
        simp only [List.foldl_cons, List.foldl_nil]
        rw [if_neg (hs m (by omega))]
        exact h2 s (fun ib hib => hs ib (by omega))
  exact key p.nb le_rfl

/-- All wavevectors, with different BTE indices for all their states. -/
theorem averagePoints_val (points : List (DegPoint α))
    (hinj : ∀ p ∈ points, ∀ a b, a < p.nb → b < p.nb → p.bte a = p.bte b → a = b)
    (hdisj : points.Pairwise fun p q => ∀ a b, a < p.nb → b < q.nb → p.bte a ≠ q.bte b) (row : Nat → α) :
    (∀ p ∈ points, ∀ ib, ib < p.nb →
      points.foldl (fun r p => averagePoint p r) row (p.bte ib) = linewidthTmp p row ib) ∧
    ∀ s, (∀ p ∈ points, ∀ ib, ib < p.nb → s ≠ p.bte ib) →
      points.foldl (fun r p => averagePoint p r) row s = row s := by
  induction points generalizing row with
  | nil => exact ⟨fun p hp => by simp at hp, fun s _ => rfl⟩
  | cons q t ih =>
    rw [List.pairwise_cons] at hdisj
    obtain ⟨i1, i2⟩ := ih (fun p hp => hinj p (by simp [hp])) hdisj.2 (averagePoint q row)
    obtain ⟨a1, a2⟩ := averagePoint_val q (hinj q (by simp)) row
    refine ⟨?_, ?_⟩
    · intro p hp ib hib
      rw [List.foldl_cons]
      rcases List.mem_cons.mp hp with rfl | hp
      · rw [i2 _ (fun r hr ib' hib' => hdisj.1 r hr ib ib' hib hib')]
        exact a1 ib hib
      · rw [i1 p hp ib hib, linewidthTmp_val, linewidthTmp_val]
        congr 2
        apply List.map_congr_left
        intro b hb
        have hb : b < p.nb := by simpa using (List.mem_filter.mp hb).1
        exact a2 _ (fun ib' hib' => (hdisj.1 p hp ib' b hib' hb).symm)
    · intro s hs
      rw [List.foldl_cons, i2 s (fun p hp => hs p (by simp [hp]))]
      exact a2 s (fun ib hib => hs q (by simp) ib hib)

/-- Replacing values by their means over the classes of an equivalence keeps the sum. -/
theorem sum_means (en : Nat → α) (n : Nat)
    (htrans : ∀ i j k, i < n → j < n → k < n → |en i - en j| < degTol → |en j - en k| < degTol →
      |en i - en k| < degTol) (f : Nat → α) :
    ((List.range n).map fun i => ((degSet en n i).map f).sum / ((degSet en n i).length : α)).sum =
      ((List.range n).map f).sum := by
  have hsym : ∀ i j, |en i - en j| < degTol ↔ |en j - en i| < degTol := fun i j => by rw [abs_sub_comm]
  -- swap the two sums
  have hfilter : ∀ (l : List Nat) (P : Nat → Prop) [DecidablePred P] (g : Nat → α),
      ((l.filter fun j => P j).map g).sum = (l.map fun j => if P j then g j else 0).sum := by
    intro l P _ g
    induction l with
    | nil => simp
    | cons x t ih =>
      by_cases h : P x
      · rw [List.filter_cons_of_pos (by simpa using h), List.map_cons, List.sum_cons, ih, List.map_cons, List.sum_cons,
          if_pos h]
      · rw [List.filter_cons_of_neg (by simpa using h), ih, List.map_cons, List.sum_cons, if_neg h, zero_add]
  have hswap : ∀ (l1 l2 : List Nat) (g : Nat → Nat → α),
      (l1.map fun i => (l2.map fun j => g i j).sum).sum = (l2.map fun j => (l1.map fun i => g i j).sum).sum := by
    intro l1 l2 g
    induction l1 with
    | nil => simp
    | cons x t ih =>
      simp only [List.map_cons, List.sum_cons]
      rw [ih, ← List.sum_map_add]
  have e1 : ((List.range n).map fun i => ((degSet en n i).map f).sum / ((degSet en n i).length : α)) =
      (List.range n).map fun i => ((List.range n).map fun j =>
        if |en j - en i| < degTol then f j / ((degSet en n i).length : α) else 0).sum := by
    apply List.map_congr_left
    intro i _
    unfold degSet
    rw [hfilter, div_eq_mul_inv, ← List.sum_map_mul_right]
    congr 1
    apply List.map_congr_left
    intro j _
    by_cases h : |en j - en i| < degTol
    · rw [if_pos h, if_pos h, div_eq_mul_inv]
    · rw [if_neg h, if_neg h, zero_mul]
  rw [e1, hswap]
  congr 1
  apply List.map_congr_left
  intro j hj
  have hj : j < n := by simpa using hj
  have e2 : ((List.range n).map fun i => if |en j - en i| < degTol then f j / ((degSet en n i).length : α) else 0) =
      (List.range n).map fun i => if |en i - en j| < degTol then f j / ((degSet en n j).length : α) else 0 := by
    apply List.map_congr_left
    intro i hi
    have hi : i < n := by simpa using hi
    by_cases h : |en j - en i| < degTol
    · rw [if_pos h, if_pos ((hsym j i).mp h)]
      have : degSet en n i = degSet en n j := by
        unfold degSet
        apply List.filter_congr
        intro k hk
        have hk : k < n := by simpa using hk
        rw [decide_eq_decide]
        constructor
        · intro h'; exact htrans k i j hk hi hj h' ((hsym j i).mp h)
        · intro h'; exact htrans k j i hk hj hi h' h
      rw [this]
    · rw [if_neg h, if_neg (fun h' => h ((hsym i j).mp h'))]
  rw [e2, ← hfilter]
  have e3 : ((List.range n).filter fun i => decide (|en i - en j| < degTol)) = degSet en n j := rfl
  rw [e3, List.map_const', List.sum_replicate, nsmul_eq_mul]
  have hpos : 0 < (degSet en n j).length := by
    apply List.length_pos_of_mem (a := j)
    unfold degSet
    rw [List.mem_filter]
    refine ⟨by simpa using hj, ?_⟩
    simpa using (degTol_pos : (0 : α) < degTol)
  have hne : ((degSet en n j).length : α) ≠ 0 := by
    have : (0 : α) < ((degSet en n j).length : α) := by exact_mod_cast hpos
    exact ne_of_gt this
  field_simp

end Verif.Model
