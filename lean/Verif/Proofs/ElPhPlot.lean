import Verif.Model.ElPhPlot
import Verif.Spec.ElPhPlot
import Verif.Proofs.ElPhWrite
import Verif.Proofs.ElPhHeader
import Verif.Proofs.Sweep
import Verif.Proofs.Input

namespace Verif.Props
open Verif.Model Verif.Spec

variable {α : Type}

/-- Pairs in a bunch. -/
def bunchLen (perBV maxSize : Nat) : Nat := max 1 (maxSize / perBV)

theorem bunchLoop_len (p M n cur : Nat) (hp : 0 < p) (hc : cur < bunchLen p M) :
    bunchLoop p M n cur = List.replicate ((cur + n) / bunchLen p M) (bunchLen p M) ++ [(cur + n) % bunchLen p M] := by
  have hm : 0 < bunchLen p M := by unfold bunchLen; omega
  induction n generalizing cur with
  | zero =>
    rw [bunchLoop, Nat.add_zero, Nat.div_eq_of_lt hc, Nat.mod_eq_of_lt hc]
    rfl
  | succ n ih =>
    rw [bunchLoop]
    have hiff : M < (cur + 1 + 1) * p ↔ bunchLen p M ≤ cur + 1 := by
      rw [← Nat.div_lt_iff_lt_mul hp]
      unfold bunchLen
      omega
    by_cases h : M < (cur + 1 + 1) * p
    · have he : cur + 1 = bunchLen p M := by have := hiff.mp h; omega
      rw [if_pos h, ih 0 hm, show cur + (n + 1) = n + bunchLen p M by omega, Nat.add_div_right _ hm,
        Nat.add_mod_right, List.replicate_succ, he, Nat.zero_add]
      rfl
    · have he : cur + 1 < bunchLen p M := by
        by_contra hh
        exact h (hiff.mpr (by omega))
      rw [if_neg h, ih (cur + 1) he, show cur + 1 + n = cur + (n + 1) by omega]

theorem replicate_split_gen (k m c : Nat) (pre : List Nat) (b : Nat) (post : List Nat)
    (h : List.replicate k m ++ [c] = pre ++ b :: post) :
    (∃ i < k, pre = List.replicate i m ∧ b = m) ∨ (pre = List.replicate k m ∧ b = c) := by
  induction k generalizing pre with
  | zero =>
    cases pre with
    | nil => right; simp at h; exact ⟨rfl, h.1.symm⟩
    | cons a pre => simp at h
  | succ k ih =>
    rw [List.replicate_succ, List.cons_append] at h
    cases pre with
    | nil =>
      rw [List.nil_append, List.cons.injEq] at h
      left
      exact ⟨0, by omega, rfl, h.1.symm⟩
    | cons a pre =>
      rw [List.cons_append, List.cons.injEq] at h
      obtain ⟨rfl, h⟩ := h
      rcases ih pre h with ⟨i, hi, rfl, rfl⟩ | ⟨rfl, rfl⟩
      · left; exact ⟨i + 1, by omega, by rw [List.replicate_succ], rfl⟩
      · right; exact ⟨by rw [List.replicate_succ], rfl⟩

theorem elementsOf_congr (g g' : Nat → Nat → α) (p : Nat) (a b n : Nat) (h : ∀ i < n, g (a + i) = g' (b + i)) :
    elementsOf g p (List.range' a n) = elementsOf g' p (List.range' b n) := by
  induction n generalizing a b with
  | zero => rfl
  | succ n ih =>
    rw [List.range'_succ, List.range'_succ]
    unfold elementsOf at ih ⊢
    rw [List.flatMap_cons, List.flatMap_cons, ih (a + 1) (b + 1) fun i hi => by
      have := h (i + 1) (by omega)
      rwa [show a + 1 + i = a + (i + 1) by omega, show b + 1 + i = b + (i + 1) by omega]]
    have := h 0 (by omega)
    rw [Nat.add_zero, Nat.add_zero] at this
    rw [this]

/-- Prefix of what a process has computed. -/
theorem elementsOf_take (g : Nat → Nat → α) (p a n k : Nat) (h : k ≤ n) :
    (elementsOf g p (List.range' a n)).take (k * p) = elementsOf g p (List.range' a k) := by
  have e : List.range' a n = List.range' a k ++ List.range' (a + k) (n - k) := by
    rw [List.range'_append_1, Nat.add_sub_cancel' h]
  rw [e, elementsOf_append, List.take_left' (by rw [elementsOf_length, List.length_range'])]

/-- The bunches of one process, all written from the beginning of its memory. -/
theorem plotBunches_spec (G : Nat → Nat → α) (target : List α) (p M n s cnt : Nat) (hp : 0 < p) (hle : s + cnt ≤ n)
    (g' : Nat → Nat → α) (ht : target = elementsOf g' p (List.range n))
    (hg : ∀ i < cnt, g' (s + i) = G (s + i % bunchLen p M)) :
    ∃ ws, writeBunches (elementsOf G p (List.range' s cnt)) true (s * p) ((bunchLoop p M cnt 0).map fun k => k * p) 0 = .ok ws ∧
      (∀ w ∈ ws, w.1 + w.2.length ≤ target.length ∧ w.2 = (target.drop w.1).take w.2.length) ∧
      ∀ x, s * p ≤ x → x < (s + cnt) * p → ∃ w ∈ ws, w.1 ≤ x ∧ x < w.1 + w.2.length := by
  have hm : 0 < bunchLen p M := by unfold bunchLen; omega
  have hsum := bunchLoop_sum p M cnt 0
  obtain ⟨ws, e1, e2, e3⟩ := writeBunches_spec (elementsOf G p (List.range' s cnt)) target true (s * p)
    ((bunchLoop p M cnt 0).map fun k => k * p) 0 (by
      intro pre b post h
      obtain ⟨p1, q1, hq1, hq2, hq3⟩ := List.map_eq_append_iff.mp h
      obtain ⟨b1, q2, rfl, rfl, rfl⟩ := List.map_eq_cons_iff.mp hq3
      subst hq2
      rw [bunchLoop_len p M cnt 0 hp hm, Nat.zero_add] at hq1
      have key : ∃ i, p1.sum = i * bunchLen p M ∧ b1 ≤ bunchLen p M ∧ i * bunchLen p M + b1 ≤ cnt := by
        have hdm := Nat.div_add_mod' cnt (bunchLen p M)
        rcases replicate_split_gen _ _ _ _ _ _ hq1 with ⟨i, hi, rfl, rfl⟩ | ⟨rfl, rfl⟩
        · refine ⟨i, by simp, le_refl _, ?_⟩
          have : (i + 1) * bunchLen p M ≤ cnt / bunchLen p M * bunchLen p M := Nat.mul_le_mul_right _ hi
          rw [Nat.add_mul] at this
          omega
        · exact ⟨cnt / bunchLen p M, by simp, (Nat.mod_lt _ hm).le, by omega⟩
      obtain ⟨i, hi1, hi2, hi3⟩ := key
      simp only [if_true, sum_map_mul, Nat.zero_add, ← Nat.add_mul, Int.toNat_zero, List.drop_zero, hi1]
      refine ⟨le_refl _, ?_, ?_, ?_⟩
      · rw [elementsOf_length, List.length_range']
        have : b1 * p ≤ cnt * p := Nat.mul_le_mul_right _ (by omega)
        omega
      · rw [ht, elementsOf_block g' p _ b1 n (by omega), elementsOf_take G p s cnt b1 (by omega)]
        refine elementsOf_congr G g' p _ _ b1 fun j hj => ?_
        rw [Nat.add_assoc, hg _ (by omega), Nat.add_comm (i * _), Nat.add_mul_mod_self_right, Nat.mod_eq_of_lt (by omega)]
      · rw [ht, elementsOf_length, List.length_range]
        exact Nat.mul_le_mul_right _ (by omega))
  refine ⟨ws, e1, e2, fun x h1 h2 => e3 x (by omega) ?_⟩
  rw [sum_map_mul, hsum, Nat.add_zero, Nat.add_zero, ← Nat.add_mul]
  exact h2

theorem flatMap_range2 {β : Type} (a b : Nat) (F : Nat → Nat → β) :
    ((List.range a).flatMap fun i => (List.range b).map (F i)) = (List.range (a * b)).map fun x => F (x / b) (x % b) := by
  rw [← flatMap_index, List.map_flatMap]
  congr 1
  funext i
  rw [List.map_map]
  apply List.map_congr_left
  intro j hj
  have hj := List.mem_range.mp hj
  show F i j = F ((i * b + j) / b) ((i * b + j) % b)
  rw [Nat.add_comm, Nat.add_mul_div_right _ _ (by omega), Nat.div_eq_of_lt hj, Nat.zero_add, Nat.add_mul_mod_self_right,
    Nat.mod_eq_of_lt hj]

/-- Range of existing bands. -/
def InBands (n : Nat) (r : Int × Int) : Prop := 0 ≤ r.1 ∧ r.1 ≤ r.2 ∧ r.2 < n

theorem mem_rangeOf {r : Int × Int} {i : Int} : i ∈ rangeOf r ↔ r.1 ≤ i ∧ i ≤ r.2 := by
  unfold rangeOf
  simp only [List.mem_map, List.mem_range]
  constructor
  · rintro ⟨k, hk, rfl⟩; omega
  · intro h
    exact ⟨(i - r.1).toNat, by omega, by omega⟩

theorem plotValues_val (c : Nat → Nat → Nat → α) (nb nm : Nat) (r1 r2 r3 : Int × Int) (h1 : InBands nb r1)
    (h2 : InBands nb r2) (h3 : InBands nm r3) :
    plotValues c nb nm r1 r2 r3 =
      .ok ((List.range (widthOf r1 * (widthOf r2 * widthOf r3))).map (plotElement c r1 r2 r3)) := by
  obtain ⟨a1, b1, c1⟩ := h1
  obtain ⟨a2, b2, c2⟩ := h2
  obtain ⟨a3, b3, c3⟩ := h3
  unfold plotValues
  rw [mapOutcome_eq_map _ (fun t => c t.1.toNat t.2.1.toNat t.2.2.toNat)]
  · congr 1
    unfold rangeOf
    simp only [List.map_flatMap, List.flatMap_map, List.map_map]
    have e : ∀ i : Nat, ((List.range (r2.2 - r2.1 + 1).toNat).flatMap fun j : Nat =>
        (List.range (r3.2 - r3.1 + 1).toNat).map ((fun t : Int × Int × Int => c t.1.toNat t.2.1.toNat t.2.2.toNat) ∘
          (fun k => (r1.1 + (i : Int), r2.1 + (j : Int), k)) ∘ fun k : Nat => r3.1 + (k : Int))) =
        (List.range (widthOf r2 * widthOf r3)).map fun x => c (r1.1.toNat + i) (r2.1.toNat + x / widthOf r3)
          (r3.1.toNat + x % widthOf r3) := by
      intro i
      have := flatMap_range2 (widthOf r2) (widthOf r3) fun j k => c (r1.1.toNat + i) (r2.1.toNat + j) (r3.1.toNat + k)
      rw [← this]
      unfold widthOf
      congr 1
      funext j
      apply List.map_congr_left
      intro k _
      simp only [Function.comp_apply]
      rw [show (r1.1 + (i : Int)).toNat = r1.1.toNat + i by omega, show (r2.1 + (j : Int)).toNat = r2.1.toNat + j by omega,
        show (r3.1 + (k : Int)).toNat = r3.1.toNat + k by omega]
    simp only [e]
    exact flatMap_range2 (widthOf r1) (widthOf r2 * widthOf r3) fun i x => c (r1.1.toNat + i)
      (r2.1.toNat + x / widthOf r3) (r3.1.toNat + x % widthOf r3)
  · intro t ht
    simp only [List.mem_flatMap, List.mem_map, mem_rangeOf] at ht
    obtain ⟨i, hi, j, hj, k, hk, rfl⟩ := ht
    unfold couplingAt
    rw [if_pos (by simp only; omega)]

/-- What a process with consecutive pairs computes. -/
theorem plotShare_val {P : Type} [Add P] (g : P → P → P → Nat → Nat → Nat → α) (nb nm : Nat) (r1 r2 r3 : Int × Int)
    (h1 : InBands nb r1) (h2 : InBands nb r2) (h3 : InBands nm r3) (pairs : List (P × P)) (d : P × P) (s cnt : Nat)
    (hle : s + cnt ≤ pairs.length) :
    plotShare g nb nm r1 r2 r3 pairs (List.range' s cnt) = .ok (elementsOf (fun x => plotElement
      (g (pairs.getD x d).1 ((pairs.getD x d).1 + (pairs.getD x d).2) (pairs.getD x d).2) r1 r2 r3)
      (widthOf r1 * (widthOf r2 * widthOf r3)) (List.range' s cnt)) := by
  unfold plotShare
  rw [mapOutcome_eq_map _ (fun x => (List.range (widthOf r1 * (widthOf r2 * widthOf r3))).map (plotElement
      (g (pairs.getD x d).1 ((pairs.getD x d).1 + (pairs.getD x d).2) (pairs.getD x d).2) r1 r2 r3))]
  · show Outcome.ok _ = _
    rw [elementsOf, List.flatMap_def]
  · intro x hx
    rw [List.mem_range'_1] at hx
    have : readAt pairs x = .ok (pairs.getD x d) := by
      unfold readAt
      rw [List.getD_eq_getElem?_getD, List.getElem?_eq_getElem (by omega)]
      rfl
    rw [this]
    exact plotValues_val _ nb nm r1 r2 r3 h1 h2 h3

theorem plotRange_in {n : Nat} {r : Int × Int} (h : ¬ (plotRange n r).2 < (plotRange n r).1) :
    InBands n (plotRange n r) := by
  unfold InBands plotRange plotLower plotUpper at *
  simp only at *
  split_ifs at * <;> omega

/-- What `plotSetup` returns. -/
theorem plotSetup_val {P : Type} {inp : PlotInput P} {nb nm : Nat} {job : PlotJob P} (h : plotSetup inp nb nm = .ok job) :
    ∃ mesh pts, plotMesh inp = .ok mesh ∧ plotPoints inp mesh = .ok pts ∧ job.pairs = plotPairs inp pts ∧
      job.r1 = plotRange nb inp.el1 ∧ job.r2 = plotRange nb inp.el2 ∧ job.r3 = plotRange nm inp.ph ∧
      InBands nb job.r1 ∧ InBands nb job.r2 ∧ InBands nm job.r3 ∧
      job.bandProd = widthOf job.r1 * (widthOf job.r2 * widthOf job.r3) ∧
      (job.pairs.length < 2147483648 → job.numPairs = job.pairs.length) := by
  unfold plotSetup at h
  simp only [Outcome.bind_eq] at h
  obtain ⟨mesh, hm, h⟩ := (Outcome.bind_eq_ok_iff _ _ _).mp h
  obtain ⟨pts, hp, h⟩ := (Outcome.bind_eq_ok_iff _ _ _).mp h
  obtain ⟨rs, hr, h⟩ := (Outcome.bind_eq_ok_iff _ _ _).mp h
  obtain ⟨n, hn, h⟩ := (Outcome.bind_eq_ok_iff _ _ _).mp h
  obtain ⟨bp, hb, h⟩ := (Outcome.bind_eq_ok_iff _ _ _).mp h
  rw [Outcome.ok.injEq] at h
  subst h
  unfold plotRanges at hr
  simp only at hr
  split_ifs at hr with hc
  rw [Outcome.ok.injEq] at hr
  subst hr
  rw [not_or, not_or] at hc
  obtain ⟨i3, i1, i2⟩ := hc
  have i1 := plotRange_in i1
  have i2 := plotRange_in i2
  have i3 := plotRange_in i3
  refine ⟨mesh, pts, hm, hp, rfl, rfl, rfl, rfl, i1, i2, i3, ?_, ?_⟩
  · unfold plotBandProd at hb
    simp only at hb
    split_ifs at hb with hb2
    rw [Outcome.ok.injEq] at hb
    rw [← hb]
    obtain ⟨a1, b1, _⟩ := i1
    obtain ⟨a2, b2, _⟩ := i2
    obtain ⟨a3, b3, _⟩ := i3
    unfold widthOf
    rw [← Nat.mul_assoc, Int.toNat_mul (mul_nonneg (by omega) (by omega)) (by omega), Int.toNat_mul (by omega) (by omega)]
  · intro hl
    unfold plotNumPairs at hn
    simp only at hn hl
    have ht : toInt32 (plotPairs inp pts).length = ((plotPairs inp pts).length : Int) := by
      unfold toInt32
      simp only
      rw [Nat.mod_eq_of_lt (by omega), if_pos hl]
    rw [ht, if_neg (by omega), Outcome.ok.injEq, Int.toNat_natCast] at hn
    exact hn.symm

/-- The dataset: pair `x` of the share of process `r` has the values of the pair at the same place of the first bunch. -/
theorem plotParallel_val {P : Type} [Add P] (g : P → P → P → Nat → Nat → Nat → α) (nb nm : Nat) (job : PlotJob P) (size : Nat)
    (h1 : InBands nb job.r1) (h2 : InBands nb job.r2) (h3 : InBands nm job.r3)
    (hb : job.bandProd = widthOf job.r1 * (widthOf job.r2 * widthOf job.r3)) (hn : job.numPairs = job.pairs.length)
    (hl : job.pairs.length < 2147483648) (hs : 0 < size) (hsz : size ≤ job.pairs.length) (d : P × P)
    (g' : Nat → Nat → α) (hg : ∀ r < size, ∀ i < head job.pairs.length size (r + 1) - head job.pairs.length size r,
      ∀ x, x = head job.pairs.length size r + i % bunchLen job.bandProd (1000000000 / 8) →
        g' (head job.pairs.length size r + i) = plotElement
          (g (job.pairs.getD x d).1 ((job.pairs.getD x d).1 + (job.pairs.getD x d).2) (job.pairs.getD x d).2)
          job.r1 job.r2 job.r3) :
    ∃ ws, plotParallel g nb nm job size = .ok (job.pairs.length * job.bandProd % 4294967296, ws) ∧
      ∀ ws', ws'.Perm ws → ∀ file : List α, file.length = job.pairs.length * job.bandProd →
        applyWrites file ws' = .ok (elementsOf g' job.bandProd (List.range job.pairs.length)) := by
  set n := job.pairs.length with hnn
  set G : Nat → Nat → α := fun x => plotElement
      (g (job.pairs.getD x d).1 ((job.pairs.getD x d).1 + (job.pairs.getD x d).2) (job.pairs.getD x d).2)
      job.r1 job.r2 job.r3 with hG
  have hp0 : 0 < job.bandProd := by
    obtain ⟨_, b1, _⟩ := h1
    obtain ⟨_, b2, _⟩ := h2
    obtain ⟨_, b3, _⟩ := h3
    rw [hb]
    unfold widthOf
    exact Nat.mul_pos (by omega) (Nat.mul_pos (by omega) (by omega))
  have hfit : n * size < 18446744073709551616 := by
    have : n * size ≤ 2147483648 * 2147483648 := Nat.mul_le_mul (by omega) (by omega)
    omega
  have key : ∀ r, r < size → ∃ ws, plotWriteProcess g nb nm job size r = .ok ws ∧
      (∀ w ∈ ws, w.1 + w.2.length ≤ (elementsOf g' job.bandProd (List.range n)).length ∧
        w.2 = ((elementsOf g' job.bandProd (List.range n)).drop w.1).take w.2.length) ∧
      ∀ x, head n size r * job.bandProd ≤ x → x < head n size (r + 1) * job.bandProd →
        ∃ w ∈ ws, w.1 ≤ x ∧ x < w.1 + w.2.length := by
    intro r hr
    have hm : head n size r ≤ head n size (r + 1) := head_mono n size (Nat.le_succ r)
    have hle := head_le_total n size (r + 1) hs hr
    have hbl := (len_bounds n size r hs).1
    have h1' : 1 ≤ n / size := (Nat.one_le_div_iff hs).mpr hsz
    obtain ⟨ws, e1, e2, e3⟩ := plotBunches_spec G (elementsOf g' job.bandProd (List.range n)) job.bandProd (1000000000 / 8) n
      (head n size r) (head n size (r + 1) - head n size r) hp0 (by omega) g' rfl (fun i hi => hg r hr i hi _ rfl)
    refine ⟨ws, ?_, e2, fun x a b => e3 x a ?_⟩
    · unfold plotWriteProcess
      rw [hn, divideWorkIter_val hfit hr]
      simp only [Outcome.bind_eq, Outcome.bind_ok]
      rw [plotShare_val g nb nm _ _ _ h1 h2 h3 job.pairs d _ _ (by omega)]
      simp only [Outcome.bind_ok]
      rw [← e1]
      obtain ⟨c, hc⟩ : ∃ c, head n size (r + 1) - head n size r = c + 1 := ⟨head n size (r + 1) - head n size r - 1, by omega⟩
      have hh : (List.range' (head n size r) (head n size (r + 1) - head n size r)).head? = some (head n size r) := by
        rw [hc, List.range'_succ]; rfl
      have hla : (List.range' (head n size r) (head n size (r + 1) - head n size r)).getLast? =
          some (head n size (r + 1) - 1) := by
        rw [hc, List.getLast?_range', if_neg (by omega)]
        congr 1
        omega
      rw [hh, hla]
      simp only
      rw [← hb, show head n size (r + 1) - 1 + 1 - head n size r = head n size (r + 1) - head n size r by omega]
    · rwa [show head n size r + (head n size (r + 1) - head n size r) = head n size (r + 1) by omega]
  let W : Nat → List (Nat × List α) := fun r => if h : r < size then (key r h).choose else []
  have hW : ∀ r (h : r < size), W r = (key r h).choose := fun r h => dif_pos h
  refine ⟨((List.range size).map W).flatten, ?_, ?_⟩
  · unfold plotParallel
    rw [mapOutcome_eq_map _ W _ (fun r hr => by
      have hr' := List.mem_range.mp hr
      rw [hW r hr']
      exact (key r hr').choose_spec.1), hn]
    rfl
  · intro ws' hp file hf
    have ht : (elementsOf g' job.bandProd (List.range n)).length = n * job.bandProd := by
      rw [elementsOf_length, List.length_range]
    refine applyWrites_val _ ws' file (by rw [hf, ht]) ?_ ?_
    · intro w hw
      have := hp.mem_iff.mp hw
      simp only [List.mem_flatten, List.mem_map, List.mem_range] at this
      obtain ⟨l, ⟨r, hr, rfl⟩, hl⟩ := this
      rw [hW r hr] at hl
      exact (key r hr).choose_spec.2.1 w hl
    · intro x hx
      left
      have hx' : x / job.bandProd < n := by
        rw [Nat.div_lt_iff_lt_mul hp0, ← ht]; exact hx
      obtain ⟨r, hr, a, b⟩ := owner_exists n size _ hs hx'
      obtain ⟨w, hw, hw2⟩ := (key r hr).choose_spec.2.2 x ((Nat.le_div_iff_mul_le hp0).mp a)
        ((Nat.div_lt_iff_lt_mul hp0).mp b)
      refine ⟨w, hp.mem_iff.mpr ?_, hw2⟩
      simp only [List.mem_flatten, List.mem_map, List.mem_range]
      exact ⟨W r, ⟨r, hr, rfl⟩, by rw [hW r hr]; exact hw⟩

theorem flatMap_pairs_getElem? {β δ ε : Type} (l : List β) (l' : List δ) (f : β → δ → ε) (i j : Nat) (k : β) (q : δ)
    (hi : l[i]? = some k) (hj : l'[j]? = some q) :
    (l.flatMap fun p => l'.map (f p))[i * l'.length + j]? = some (f k q) := by
  have hjl : j < l'.length := (List.getElem?_eq_some_iff.mp hj).1
  induction l generalizing i with
  | nil => simp at hi
  | cons a l ih =>
    rw [List.flatMap_cons]
    cases i with
    | zero =>
      rw [List.getElem?_cons_zero, Option.some.injEq] at hi
      subst hi
      rw [Nat.zero_mul, Nat.zero_add, List.getElem?_append_left (by simpa using hjl), List.getElem?_map, hj]
      rfl
    | succ i =>
      rw [List.getElem?_cons_succ] at hi
      rw [List.getElem?_append_right (by rw [List.length_map, Nat.add_mul]; omega), List.length_map, ← ih i hi]
      congr 1
      rw [Nat.add_mul]
      omega

theorem foldl_max_spec (l : List Nat) (a : Nat) :
    a ≤ l.foldl Nat.max a ∧ (∀ x ∈ l, x ≤ l.foldl Nat.max a) ∧ (l.foldl Nat.max a = a ∨ l.foldl Nat.max a ∈ l) := by
  induction l generalizing a with
  | nil => simp
  | cons b l ih =>
    obtain ⟨h1, h2, h3⟩ := ih (Nat.max a b)
    rw [List.foldl_cons]
    have ha : a ≤ Nat.max a b := Nat.le_max_left a b
    have hb : b ≤ Nat.max a b := Nat.le_max_right a b
    refine ⟨by omega, ?_, ?_⟩
    · intro x hx
      rcases List.mem_cons.mp hx with rfl | hx
      · omega
      · exact h2 x hx
    · rcases h3 with h3 | h3
      · rw [h3]
        rcases Nat.le_total a b with h | h
        · right; rw [show Nat.max a b = b from Nat.max_eq_right h]; exact List.mem_cons_self
        · left; exact Nat.max_eq_left h
      · right; exact List.mem_cons_of_mem _ h3

theorem mapOutcome_cons_ub {β δ : Type} {f : β → Outcome δ} {a : β} {l : List β} (h : f a = .ub) :
    mapOutcome f (a :: l) = .ub := by
  show (f a >>= _) = _
  rw [h]
  rfl

theorem range_pos_cons {size : Nat} (hs : 0 < size) : ∃ l, List.range size = 0 :: l := by
  obtain ⟨m, rfl⟩ : ∃ m, size = m + 1 := ⟨size - 1, by omega⟩
  exact ⟨_, List.range_succ_eq_map⟩

end Verif.Props
