import Verif.Proofs.Path
import Verif.Proofs.Input

/-!
# C138, C139: paths of wavevectors and the labels of their ends
-/
namespace Verif.Props
open Verif.Model

/-- Segments that are long enough for the spacing, and not too long for the integers. -/
def GoodSegment (delta : ℝ) (s : Segment) : Prop :=
  delta ≤ vdist s.p1 s.p0 ∧ vdist s.p1 s.p0 / delta < 2147483648

/-- `pts` goes along segment `s` from index `k` to index `k'`: the start within the tolerance, equally spaced points with a
spacing of at least `delta` and less than two times `delta`, and the end. -/
def GoesAlong (delta : ℝ) (pts : List (V3 ℝ)) (s : Segment) (k k' : Nat) : Prop :=
  k < k' ∧
  delta ≤ vdist s.p1 s.p0 / ((k' - k : Nat) : ℝ) ∧ vdist s.p1 s.p0 / ((k' - k : Nat) : ℝ) < 2 * delta ∧
  (∃ q, pts[k]? = some q ∧ vdist s.p0 q ≤ 1e-8) ∧
  ∀ j, k < j → j ≤ k' → ∃ q, pts[j]? = some q ∧
    q.x = s.p0.x + (s.p1.x - s.p0.x) * (((j - k : Nat) : ℝ) / ((k' - k : Nat) : ℝ)) ∧
    q.y = s.p0.y + (s.p1.y - s.p0.y) * (((j - k : Nat) : ℝ) / ((k' - k : Nat) : ℝ)) ∧
    q.z = s.p0.z + (s.p1.z - s.p0.z) * (((j - k : Nat) : ℝ) / ((k' - k : Nat) : ℝ))

/-- The path from `last`, with `last` itself at index 0. -/
theorem pathTail_val (delta : ℝ) (hd : 0 < delta) (segs : List Segment) (hs : ∀ s ∈ segs, GoodSegment delta s) :
    ∀ last : V3 ℝ, ∃ (rest : List (V3 ℝ)) (first stop : Nat → Nat), pathTail delta last segs = .ok rest ∧
      (∀ i (hi : i < segs.length), GoesAlong delta (last :: rest) segs[i] (first i) (stop i)) ∧
      (∀ (hi : 0 < segs.length), first 0 = if vdist segs[0].p0 last ≤ 1e-8 then 0 else 1) ∧
      (∀ i (hi : i + 1 < segs.length), first (i + 1) =
        if vdist segs[i + 1].p0 segs[i].p1 ≤ 1e-8 then stop i else stop i + 1) ∧
      (last :: rest).length = (if segs.length = 0 then 1 else stop (segs.length - 1) + 1) := by
  induction segs with
  | nil =>
    intro last
    exact ⟨[], fun _ => 0, fun _ => 0, rfl, by simp, by simp, by simp, by simp⟩
  | cons s t ih =>
    intro last
    obtain ⟨hg1, hg2⟩ := hs s (by simp)
    obtain ⟨nk, c1, c2, c3, c4⟩ := segmentCount_val s delta hd hg1 hg2
    obtain ⟨rest, first, stop, r1, r2, r3, r4, r5⟩ := ih (fun s hs' => hs s (by simp [hs'])) s.p1
    set k : Nat := if vdist s.p0 last ≤ 1e-8 then 0 else 1 with hk
    have hnkpos : (0 : ℝ) < nk := Nat.cast_pos.mpr (Nat.pos_of_ne_zero c2)
    set start : List (V3 ℝ) := if vdist s.p0 last > 1e-8 then [s.p0] else [] with hstart
    have hslen : start.length = k := by
      rw [hstart, hk]
      by_cases h : vdist s.p0 last ≤ 1e-8
      · rw [if_pos h, if_neg (not_lt.mpr h)]; rfl
      · rw [if_neg h, if_pos (not_le.mp h)]; rfl
    have htail : pathTail delta last (s :: t) =
        .ok (start ++ (List.range' 1 nk).map (segmentPoint s nk) ++ rest) := by
      unfold pathTail
      simp only [c1, Outcome.bind_eq, Outcome.bind_ok, if_neg c2, segmentPoint_last s nk c2, segmentPoint_zero, r1]
      rfl
    -- the first part, up to the end of the segment, which is where the path from its end starts
    set pre : List (V3 ℝ) := last :: start ++ (List.range' 1 (nk - 1)).map (segmentPoint s nk) with hpre
    have hprelen : pre.length = k + nk := by
      rw [hpre]; simp [hslen]; omega
    have hfull : last :: (start ++ (List.range' 1 nk).map (segmentPoint s nk) ++ rest) = pre ++ (s.p1 :: rest) := by
      have : List.range' 1 nk = List.range' 1 (nk - 1) ++ [nk] := by
        obtain ⟨m, rfl⟩ := Nat.exists_eq_succ_of_ne_zero c2
        rw [List.range'_concat]
        simp [Nat.add_comm]
      rw [this, hpre]
      simp [segmentPoint_last s nk c2]
    have hget : ∀ j, (pre ++ (s.p1 :: rest))[k + nk + j]? = (s.p1 :: rest)[j]? := by
      intro j
      rw [List.getElem?_append_right (by omega), hprelen]
      congr 1
      omega
    refine ⟨_, fun i => if i = 0 then k else k + nk + first (i - 1), fun i => if i = 0 then k + nk else k + nk + stop (i - 1),
      htail, ?_, ?_, ?_, ?_⟩
    · intro i hi
      rw [hfull]
      cases i with
      | zero =>
        simp only [if_true, List.getElem_cons_zero]
        have e0 : k + nk - k = nk := by omega
        unfold GoesAlong
        rw [e0]
        refine ⟨by omega, ?_, ?_, ?_, ?_⟩
        · rw [le_div_iff₀ hnkpos]; linarith
        · rw [div_lt_iff₀ hnkpos]
          have : (1 : ℝ) ≤ nk := by exact_mod_cast Nat.one_le_iff_ne_zero.mpr c2
          nlinarith
        · rw [hk, hpre, hstart]
          by_cases h : vdist s.p0 last ≤ 1e-8
          · rw [if_pos h]
            exact ⟨last, by simp, h⟩
          · rw [if_neg h, if_pos (not_le.mp h)]
            exact ⟨s.p0, by simp, by rw [vdist_self]; norm_num⟩
        · intro j hj1 hj2
          obtain ⟨m, rfl⟩ := Nat.exists_eq_add_of_lt hj1
          have hm : m + 1 ≤ nk := by omega
          refine ⟨segmentPoint s nk (m + 1), ?_, ?_⟩
          · rw [← hfull]
            have e1 : k + m + 1 = (start.length + m) + 1 := by omega
            rw [e1, List.getElem?_cons_succ, List.append_assoc, List.getElem?_append_right (by omega)]
            have e2 : start.length + m - start.length = m := by omega
            rw [e2, List.getElem?_append_left (by simpa using hm)]
            rw [List.getElem?_map, List.getElem?_range' (by omega)]
            simp [Nat.add_comm]
          · have e3 : k + m + 1 - k = m + 1 := by omega
            rw [e3]
            unfold segmentPoint
            refine ⟨?_, ?_, ?_⟩ <;> ring
      | succ i =>
        have hi' : i < t.length := by simpa using hi
        simp only [Nat.succ_ne_zero, if_false, Nat.add_sub_cancel, List.getElem_cons_succ]
        obtain ⟨g1, g2, g3, ⟨q, g4, g5⟩, g6⟩ := r2 i hi'
        have e0 : k + nk + stop i - (k + nk + first i) = stop i - first i := by omega
        unfold GoesAlong
        rw [e0]
        refine ⟨by omega, g2, g3, ⟨q, ?_, g5⟩, ?_⟩
        · rw [hget]; exact g4
        · intro j hj1 hj2
          obtain ⟨m, rfl⟩ : ∃ m, j = k + nk + m := ⟨j - (k + nk), by omega⟩
          obtain ⟨q, a1, a2⟩ := g6 m (by omega) (by omega)
          refine ⟨q, ?_, ?_⟩
          · rw [hget]; exact a1
          · have e3 : k + nk + m - (k + nk + first i) = m - first i := by omega
            rw [e3]; exact a2
    · intro _
      simp only [if_true, List.getElem_cons_zero]
      rfl
    · intro i hi
      cases i with
      | zero =>
        have ht : 0 < t.length := by simpa using hi
        simp only [Nat.zero_add, Nat.succ_ne_zero, if_false, Nat.sub_self, if_true, List.getElem_cons_succ,
          List.getElem_cons_zero]
        rw [r3 ht]
        split <;> omega
      | succ i =>
        have ht : i + 1 < t.length := by simpa using hi
        simp only [Nat.succ_ne_zero, if_false, Nat.add_sub_cancel, List.getElem_cons_succ]
        have := r4 i ht
        rw [this]
        split <;> omega
    · rw [hfull, List.length_append, hprelen, r5]
      simp only [List.length_cons, Nat.succ_ne_zero, if_false, Nat.add_sub_cancel]
      by_cases h : t.length = 0
      · simp [h]
      · rw [if_neg h, if_neg h]
        omega

/-- Partial C138: for segments not shorter than the spacing, the path goes along every segment, in order and from end to
end, in equal steps of at least `delta` and less than twice `delta`; an end common to consecutive segments is a single
point, other ends are consecutive points, and there are no other points.  Missing: shorter segments, see
`C138_violated_short`. -/
theorem C138_path_partial (delta : ℝ) (hd : 0 < delta) (segs : List Segment) (hne : segs ≠ [])
    (hs : ∀ s ∈ segs, GoodSegment delta s) :
    ∃ (pts : List (V3 ℝ)) (first stop : Nat → Nat), pathPoints segs delta = .ok pts ∧ first 0 = 0 ∧
      (∀ i (hi : i < segs.length), GoesAlong delta pts segs[i] (first i) (stop i)) ∧
      (∀ i (hi : i + 1 < segs.length), first (i + 1) =
        if vdist segs[i + 1].p0 segs[i].p1 ≤ 1e-8 then stop i else stop i + 1) ∧
      pts.length = stop (segs.length - 1) + 1 := by
  cases segs with
  | nil => exact absurd rfl hne
  | cons s t =>
    obtain ⟨rest, first, stop, r1, r2, r3, r4, r5⟩ := pathTail_val delta hd (s :: t) hs s.p0
    refine ⟨s.p0 :: rest, first, stop, ?_, ?_, r2, r4, ?_⟩
    · unfold pathPoints
      simp only [r1, Outcome.bind_eq, Outcome.bind_ok]
    · rw [r3 (by simp)]
      simp only [List.getElem_cons_zero, vdist_self]
      norm_num
    · simpa using r5

/-- The full C138 is violated: a last segment shorter than the spacing is left out, with its end. -/
theorem C138_violated_short : ∃ s1 s2 : Segment, GoodSegment (1 / 10) s1 ∧ s2.p0 = s1.p1 ∧ s2.p1 ≠ s2.p0 ∧
    ∃ pts, pathPoints [s1, s2] (1 / 10) = .ok pts ∧ pathPoints [s1] (1 / 10) = .ok pts ∧
      ∀ q ∈ pts, q.x < s2.p1.x := by
  let s1 : Segment := ⟨⟨0, 0, 0⟩, ⟨1 / 10, 0, 0⟩, "G", "A"⟩
  let s2 : Segment := ⟨⟨1 / 10, 0, 0⟩, ⟨3 / 20, 0, 0⟩, "A", "B"⟩
  have d1 : vdist s1.p1 s1.p0 = 1 / 10 := by
    simp only [vdist, s1]
    rw [← Real.sqrt_sq (show (0 : ℝ) ≤ 1 / 10 by norm_num)]
    congr 1
    rw [Real.sqrt_sq (by norm_num)]
    norm_num
  have d2 : vdist s2.p1 s2.p0 = 1 / 20 := by
    simp only [vdist, s2]
    rw [← Real.sqrt_sq (show (0 : ℝ) ≤ 1 / 20 by norm_num)]
    norm_num
  have n1 : segmentCount s1 (1 / 10) = .ok 1 := by
    unfold segmentCount truncInt
    rw [d1]
    norm_num
    decide
  have n2 : segmentCount s2 (1 / 10) = .ok 0 := by
    unfold segmentCount truncInt
    rw [d2]
    norm_num
    decide
  have e2 : ∀ l, pathTail (1 / 10) l [s2] = .ok [] := by
    intro l
    simp only [pathTail, n2, Outcome.bind_eq, Outcome.bind_ok, if_true]
  have tail1 : ∀ t, pathTail (1 / 10) s1.p1 t = .ok [] → pathTail (1 / 10) s1.p0 (s1 :: t) = .ok [s1.p1] := by
    intro t ht
    simp only [pathTail, n1, Outcome.bind_eq, Outcome.bind_ok, one_ne_zero, if_false, segmentPoint_zero, vdist_self,
      segmentPoint_last s1 1 one_ne_zero, ht]
    rw [if_neg (by norm_num)]
    simp [segmentPoint_last s1 1 one_ne_zero]
  refine ⟨s1, s2, ⟨by rw [d1], by rw [d1]; norm_num⟩, rfl, ?_, [s1.p0, s1.p1], ?_, ?_, ?_⟩
  · simp only [s2, ne_eq, V3.mk.injEq]
    norm_num
  · unfold pathPoints
    simp only [tail1 [s2] (e2 _), Outcome.bind_eq, Outcome.bind_ok]
  · unfold pathPoints
    simp only [tail1 [] rfl, Outcome.bind_eq, Outcome.bind_ok]
  · intro q hq
    simp only [List.mem_cons, List.not_mem_nil, or_false] at hq
    rcases hq with rfl | rfl <;> simp only [s1, s2] <;> norm_num

/-! ## C139 -/

/-- Points that are all away from the next end leave the loop as it is. -/
theorem labelScan_skip (e : V3 ℝ) (l : String) (ends : List (V3 ℝ × String)) (pre : List (V3 ℝ))
    (h : ∀ p ∈ pre, ¬ closePoint p e) (ik : Nat) (ps : List (V3 ℝ)) :
    labelScan ((e, l) :: ends) ik (pre ++ ps) = labelScan ((e, l) :: ends) (ik + pre.length) ps := by
  induction pre generalizing ik with
  | nil => rfl
  | cons p t ih =>
    rw [List.cons_append]
    conv_lhs => unfold labelScan
    rw [if_neg (h p (by simp)), ih (fun q hq => h q (by simp [hq]))]
    rw [List.length_cons]
    congr 1
    omega

/-- Segments with different labels at their ends. -/
def GoodLabels (s : Segment) : Prop := s.l0 ≠ s.l1

/-- Consecutive segments: the second starts exactly at the end of the first, or away from it, or has the same label. -/
def GoodJoint (s s' : Segment) : Prop := s'.p0 = s.p1 ∨ 1e-8 < vdist s'.p0 s.p1 ∨ s'.l0 = s.l1

theorem labelScan_tail (delta : ℝ) (hd : 2e-8 ≤ delta) : ∀ (t : List Segment) (s : Segment),
    (∀ x ∈ s :: t, GoodSegment delta x) → (∀ x ∈ t, GoodLabels x) →
    (∀ i (hi : i < t.length), GoodJoint ((s :: t)[i]'(by simp; omega)) t[i]) →
    ∀ (nk : Nat) (rest pts : List (V3 ℝ)) (k : Nat), segmentCount s delta = .ok nk → pathTail delta s.p1 t = .ok rest →
    pts.drop (k + 1) = (List.range' 1 nk).map (segmentPoint s nk) ++ rest →
    ∃ idx, labelScan ((s.p1, s.l1) :: pathEnds t) (k + 1) (pts.drop (k + 1)) = .ok idx ∧ idx.length = 2 * t.length + 1 ∧
      (∃ b, idx[0]? = some b ∧ k < b ∧ pts[b]? = some s.p1) ∧
      ∀ i (hi : i < t.length), ∃ a b, idx[2 * i + 1]? = some a ∧ idx[2 * i + 2]? = some b ∧ k < a ∧ a < b ∧
        pts[b]? = some t[i].p1 ∧
        (pts[a]? = some t[i].p0 ∨
          (t[i].l0 = ((s :: t)[i]'(by simp; omega)).l1 ∧ pts[a]? = some ((s :: t)[i]'(by simp; omega)).p1)) := by
  have hd0 : 0 < delta := by linarith [show (0 : ℝ) < 2e-8 by norm_num]
  -- along one segment
  have along : ∀ (s : Segment) (nk : Nat) (rest pts : List (V3 ℝ)) (k : Nat) (ends : List (V3 ℝ × String)),
      GoodSegment delta s → segmentCount s delta = .ok nk →
      pts.drop (k + 1) = (List.range' 1 nk).map (segmentPoint s nk) ++ rest →
      0 < nk ∧ pts[k + nk]? = some s.p1 ∧ pts.drop (k + nk + 1) = rest ∧
      labelScan ((s.p1, s.l1) :: ends) (k + 1) (pts.drop (k + 1)) =
        labelScan ((s.p1, s.l1) :: ends) (k + nk) (s.p1 :: rest) := by
    intro s nk rest pts k ends hseg hc hpts
    obtain ⟨nk', c1, c2, c3, c4⟩ := segmentCount_val s delta hd0 hseg.1 hseg.2
    rw [hc] at c1; cases c1
    have hnk : (0 : ℝ) < nk := Nat.cast_pos.mpr (Nat.pos_of_ne_zero c2)
    have hsplit : (List.range' 1 nk).map (segmentPoint s nk) ++ rest =
        (List.range' 1 (nk - 1)).map (segmentPoint s nk) ++ s.p1 :: rest := by
      have : List.range' 1 nk = List.range' 1 (nk - 1) ++ [nk] := by
        obtain ⟨m, rfl⟩ := Nat.exists_eq_succ_of_ne_zero c2
        rw [List.range'_concat]
        simp [Nat.add_comm]
      rw [this]
      simp [segmentPoint_last s nk c2]
    rw [hsplit] at hpts
    have hskip : ∀ p ∈ (List.range' 1 (nk - 1)).map (segmentPoint s nk), ¬ closePoint p s.p1 := by
      intro p hp hcl
      obtain ⟨j, hj, rfl⟩ := List.mem_map.mp hp
      have hj' := List.mem_range'_1.mp hj
      have h1 := closePoint_dist hcl
      rw [segmentPoint_dist s nk j c2 (by omega)] at h1
      have h2 : 1 / (nk : ℝ) ≤ 1 - (j : ℝ) / nk := by
        rw [le_sub_iff_add_le, ← add_div, div_le_one hnk]
        have : 1 + j ≤ nk := by omega
        exact_mod_cast this
      have h3 : delta ≤ 1 / (nk : ℝ) * vdist s.p1 s.p0 := by
        rw [one_div_mul_eq_div, le_div_iff₀ hnk]; linarith
      have h4 := mul_le_mul_of_nonneg_right h2 (vdist_nonneg s.p1 s.p0)
      linarith
    have hlen : ((List.range' 1 (nk - 1)).map (segmentPoint s nk)).length = nk - 1 := by simp
    refine ⟨Nat.pos_of_ne_zero c2, ?_, ?_, ?_⟩
    · have e : k + nk = (k + 1) + (nk - 1) := by omega
      rw [e, ← List.getElem?_drop, hpts, List.getElem?_append_right (by omega), hlen]
      simp
    · have e : k + nk + 1 = (k + 1) + nk := by omega
      rw [e, ← List.drop_drop, hpts]
      have e2 : nk = ((List.range' 1 (nk - 1)).map (segmentPoint s nk)).length + 1 := by rw [hlen]; omega
      conv_lhs => rw [e2]
      rw [List.drop_append]
      simp
    · rw [hpts, labelScan_skip _ _ _ _ hskip, hlen]
      congr 1
      omega
  intro t
  induction t with
  | nil =>
    intro s hseg _ _ nk rest pts k hc hr hpts
    cases hr
    obtain ⟨h0, h1, h2, h3⟩ := along s nk [] pts k [] (hseg s (by simp)) hc hpts
    refine ⟨[k + nk], ?_, by simp, ⟨k + nk, by simp, by omega, h1⟩, by simp⟩
    have : pathEnds [] = [] := rfl
    rw [this, h3]
    unfold labelScan
    rw [if_pos (closePoint_self _)]
    simp [labelScan, Outcome.bind_eq]
  | cons s' t ih =>
    intro s hseg hlab hjoint nk rest pts k hc hr hpts
    have hseg' : GoodSegment delta s' := hseg s' (by simp)
    obtain ⟨nk', c1, c2, c3, c4⟩ := segmentCount_val s' delta hd0 hseg'.1 hseg'.2
    obtain ⟨rest', _, _, r1, _⟩ := pathTail_val delta hd0 t (fun x hx => hseg x (by simp [hx])) s'.p1
    have hrest : rest = (if vdist s'.p0 s.p1 > 1e-8 then [s'.p0] else []) ++
        (List.range' 1 nk').map (segmentPoint s' nk') ++ rest' := by
      unfold pathTail at hr
      simp only [c1, Outcome.bind_eq, Outcome.bind_ok, if_neg c2, segmentPoint_last s' nk' c2, segmentPoint_zero, r1] at hr
      exact (Outcome.ok.inj hr).symm
    obtain ⟨h0, h1, h2, h3⟩ := along s nk rest pts k (pathEnds (s' :: t)) (hseg s (by simp)) hc hpts
    have hends : pathEnds (s' :: t) = (s'.p0, s'.l0) :: (s'.p1, s'.l1) :: pathEnds t := rfl
    have hfar : ¬ closePoint s'.p0 s'.p1 := by
      intro hcl
      have := closePoint_dist hcl
      rw [vdist_comm] at this
      linarith [hseg'.1]
    have hnep : s'.p0 ≠ s'.p1 := fun h => hfar (h ▸ closePoint_self _)
    have key : ∃ a k', k + nk ≤ a ∧ a ≤ k' ∧ pts.drop (k' + 1) = (List.range' 1 nk').map (segmentPoint s' nk') ++ rest' ∧
        (∀ idx', labelScan ((s'.p1, s'.l1) :: pathEnds t) (k' + 1) (pts.drop (k' + 1)) = .ok idx' →
          labelScan ((s.p1, s.l1) :: pathEnds (s' :: t)) (k + nk) (s.p1 :: rest) = .ok ((k + nk) :: a :: idx')) ∧
        (pts[a]? = some s'.p0 ∨ (s'.l0 = s.l1 ∧ pts[a]? = some s.p1)) := by
      have hj : GoodJoint s s' := hjoint 0 (by simp)
      by_cases heq : s'.p0 = s.p1
      · have hr2 : rest = (List.range' 1 nk').map (segmentPoint s' nk') ++ rest' := by
          rw [hrest, heq, vdist_self, if_neg (by norm_num)]; rfl
        refine ⟨k + nk, k + nk, le_rfl, le_rfl, by rw [h2, hr2], ?_, Or.inl (by rw [heq]; exact h1)⟩
        intro idx' hidx
        rw [h2] at hidx
        rw [hends]
        unfold labelScan
        rw [if_pos (closePoint_self _)]
        simp only
        rw [if_pos (Or.inl heq.symm), hidx]
        rfl
      by_cases hgt : ¬ vdist s'.p0 s.p1 > 1e-8
      · have hl : s'.l0 = s.l1 := by
          rcases hj with h | h | h
          · exact absurd h heq
          · exact absurd h hgt
          · exact h
        have hr2 : rest = (List.range' 1 nk').map (segmentPoint s' nk') ++ rest' := by
          rw [hrest, if_neg hgt]; rfl
        refine ⟨k + nk, k + nk, le_rfl, le_rfl, by rw [h2, hr2], ?_, Or.inr ⟨hl, h1⟩⟩
        intro idx' hidx
        rw [h2] at hidx
        rw [hends]
        unfold labelScan
        rw [if_pos (closePoint_self _)]
        simp only
        rw [if_pos (Or.inr hl.symm), hidx]
        rfl
      · replace hgt := not_not.mp hgt
        have hr2 : rest = s'.p0 :: ((List.range' 1 nk').map (segmentPoint s' nk') ++ rest') := by
          rw [hrest, if_pos hgt]; rfl
        have hdrop : pts.drop (k + nk + 1 + 1) = (List.range' 1 nk').map (segmentPoint s' nk') ++ rest' := by
          rw [← List.drop_drop, h2, hr2]; rfl
        have hat : pts[k + nk + 1]? = some s'.p0 := by
          have : pts[k + nk + 1 + 0]? = some s'.p0 := by
            rw [← List.getElem?_drop, h2, hr2]; rfl
          exact this
        by_cases hl : s.l1 = s'.l0
        · refine ⟨k + nk, k + nk + 1, le_rfl, by omega, hdrop, ?_, Or.inr ⟨hl.symm, h1⟩⟩
          intro idx' hidx
          rw [hdrop] at hidx
          rw [hends, hr2]
          unfold labelScan
          rw [if_pos (closePoint_self _)]
          simp only
          rw [if_pos (Or.inr hl)]
          unfold labelScan
          rw [if_neg hfar, hidx]
          rfl
        · refine ⟨k + nk + 1, k + nk + 1, by omega, le_rfl, hdrop, ?_, Or.inl hat⟩
          intro idx' hidx
          rw [hdrop] at hidx
          rw [hends, hr2]
          unfold labelScan
          rw [if_pos (closePoint_self _)]
          simp only
          rw [if_neg (by rintro (h | h); exact heq h.symm; exact hl h)]
          unfold labelScan
          rw [if_pos (closePoint_self _)]
          simp only
          rw [if_neg (by rintro (h | h); exact hnep h; exact hlab s' (by simp) h), hidx]
          rfl
    obtain ⟨a, k', ha1, ha2, hdrop, hscan, hat⟩ := key
    obtain ⟨idx', i1, i2, ⟨b0, i3, i4, i5⟩, i6⟩ := ih s' (fun x hx => hseg x (by simp at hx ⊢; tauto))
      (fun x hx => hlab x (by simp [hx])) (fun i hi => by
        have := hjoint (i + 1) (by simpa using hi)
        simpa using this) nk' rest' pts k' c1 r1 hdrop
    refine ⟨(k + nk) :: a :: idx', ?_, ?_, ⟨k + nk, by simp, by omega, h1⟩, ?_⟩
    · rw [h3]; exact hscan idx' i1
    · simp [i2]; omega
    · intro i hi
      cases i with
      | zero =>
        refine ⟨a, b0, by simp, by simpa using i3, by omega, by omega, by simpa using i5, by simpa using hat⟩
      | succ i =>
        obtain ⟨a', b', j1, j2, j3, j4, j5, j6⟩ := i6 i (by simpa using hi)
        have e1 : 2 * (i + 1) + 1 = (2 * i + 1) + 1 + 1 := by ring
        have e2 : 2 * (i + 1) + 2 = (2 * i + 2) + 1 + 1 := by ring
        refine ⟨a', b', ?_, ?_, by omega, j4, by simpa using j5, by simpa using j6⟩
        · rw [e1, List.getElem?_cons_succ, List.getElem?_cons_succ]; exact j1
        · rw [e2, List.getElem?_cons_succ, List.getElem?_cons_succ]; exact j2

/-- Partial C139: each end of each segment has an index in the file, in order, and the point of the path at this index has
its coordinates; the start of a segment with the label of the end before it may share the index of that end.  Missing:
segments with the same label at the two ends (`C139_violated_same_label`), ends that are almost equal
(`C139_violated_rounding`), and segments shorter than the spacing (`C138_violated_short`). -/
theorem C139_labels_partial (delta : ℝ) (hd : 2e-8 ≤ delta) (segs : List Segment) (hne : segs ≠ [])
    (hs : ∀ s ∈ segs, GoodSegment delta s) (hlab : ∀ s ∈ segs, GoodLabels s)
    (hjoint : ∀ i (hi : i + 1 < segs.length), GoodJoint segs[i] segs[i + 1]) :
    ∃ pts idx, pathPoints segs delta = .ok pts ∧ highSymIndices segs pts = .ok idx ∧ idx.length = 2 * segs.length ∧
      ∀ i (hi : i < segs.length), ∃ a b, idx[2 * i]? = some a ∧ idx[2 * i + 1]? = some b ∧ a < b ∧
        pts[b]? = some segs[i].p1 ∧
        (pts[a]? = some segs[i].p0 ∨ ∃ j, ∃ hj : j < segs.length, i = j + 1 ∧ segs[i].l0 = segs[j].l1 ∧
          pts[a]? = some segs[j].p1) := by
  have hd0 : 0 < delta := by linarith [show (0 : ℝ) < 2e-8 by norm_num]
  cases segs with
  | nil => exact absurd rfl hne
  | cons s t =>
    have hseg := hs s (by simp)
    obtain ⟨nk, c1, c2, c3, c4⟩ := segmentCount_val s delta hd0 hseg.1 hseg.2
    obtain ⟨rest, _, _, r1, _⟩ := pathTail_val delta hd0 t (fun x hx => hs x (by simp [hx])) s.p1
    have hpath : pathPoints (s :: t) delta = .ok (s.p0 :: ((List.range' 1 nk).map (segmentPoint s nk) ++ rest)) := by
      unfold pathPoints pathTail
      simp only [c1, Outcome.bind_eq, Outcome.bind_ok, if_neg c2, segmentPoint_last s nk c2, segmentPoint_zero, r1,
        vdist_self]
      rw [if_neg (by norm_num)]
      rfl
    obtain ⟨idx, i1, i2, ⟨b0, i3, i4, i5⟩, i6⟩ := labelScan_tail delta hd t s hs (fun x hx => hlab x (by simp [hx]))
      (fun i hi => by
        have := hjoint i (by simpa using hi)
        simpa using this) nk rest (s.p0 :: ((List.range' 1 nk).map (segmentPoint s nk) ++ rest)) 0 c1 r1 rfl
    have hfar : ¬ closePoint s.p0 s.p1 := by
      intro hcl
      have := closePoint_dist hcl
      rw [vdist_comm] at this
      linarith [hseg.1]
    have hnep : s.p0 ≠ s.p1 := fun h => hfar (h ▸ closePoint_self _)
    refine ⟨_, 0 :: idx, hpath, ?_, by simp [i2]; omega, ?_⟩
    · unfold highSymIndices
      have hends : pathEnds (s :: t) = (s.p0, s.l0) :: (s.p1, s.l1) :: pathEnds t := rfl
      rw [hends]
      unfold labelScan
      rw [if_pos (closePoint_self _)]
      simp only
      rw [if_neg (by rintro (h | h); exact hnep h; exact hlab s (by simp) h)]
      have := i1
      simp only [Nat.zero_add, List.drop_succ_cons, List.drop_zero] at this
      rw [this]
      rfl
    · intro i hi
      cases i with
      | zero => exact ⟨0, b0, by simp, by simpa using i3, i4, i5, Or.inl (by simp)⟩
      | succ i =>
        obtain ⟨a, b, j1, j2, j3, j4, j5, j6⟩ := i6 i (by simpa using hi)
        have e1 : 2 * (i + 1) = (2 * i + 1) + 1 := by ring
        refine ⟨a, b, ?_, ?_, j4, j5, ?_⟩
        · rw [e1, List.getElem?_cons_succ]; exact j1
        · rw [e1, List.getElem?_cons_succ]; exact j2
        · rcases j6 with h | ⟨h, h'⟩
          · exact Or.inl h
          · exact Or.inr ⟨i, by simp at hi ⊢; omega, rfl, h, h'⟩

/-- The full C139 is violated: for a segment whose two ends have the same label (a line from one copy of a point to another)
the file of the bands is written with reads out of range. -/
theorem C139_violated_same_label (delta : ℝ) (hd : 2e-8 ≤ delta) (s : Segment) (hs : GoodSegment delta s) (hl : s.l0 = s.l1) :
    ∃ pts, pathPoints [s] delta = .ok pts ∧ highSymIndices [s] pts = .ub := by
  have hd0 : 0 < delta := by linarith [show (0 : ℝ) < 2e-8 by norm_num]
  obtain ⟨nk, c1, c2, c3, c4⟩ := segmentCount_val s delta hd0 hs.1 hs.2
  obtain ⟨m, rfl⟩ := Nat.exists_eq_succ_of_ne_zero c2
  refine ⟨s.p0 :: (List.range' 1 (m + 1)).map (segmentPoint s (m + 1)), ?_, ?_⟩
  · unfold pathPoints
    simp only [pathTail, c1, Outcome.bind_eq, Outcome.bind_ok, if_neg c2, segmentPoint_zero, vdist_self]
    rw [if_neg (by norm_num)]
    simp
  · unfold highSymIndices
    have : pathEnds [s] = [(s.p0, s.l0), (s.p1, s.l1)] := rfl
    rw [this]
    unfold labelScan
    rw [if_pos (closePoint_self _)]
    simp only
    rw [if_pos (Or.inr hl), List.range'_succ, List.map_cons]
    rfl

/-- The full C139 is violated: when a segment starts almost at the end of the one before, with another label, its two ends and
all those after are not in the list. -/
theorem C139_violated_rounding : ∃ s1 s2 : Segment, GoodSegment (1 / 10) s1 ∧ GoodSegment (1 / 10) s2 ∧ GoodLabels s1 ∧
    GoodLabels s2 ∧ ∃ pts, pathPoints [s1, s2] (1 / 10) = .ok pts ∧ highSymIndices [s1, s2] pts = .ok [0, 1] ∧ pts.length = 3 := by
  let s1 : Segment := ⟨⟨0, 0, 0⟩, ⟨1 / 10, 0, 0⟩, "G", "A"⟩
  let s2 : Segment := ⟨⟨1 / 10 + 1e-9, 0, 0⟩, ⟨27 / 100, 0, 0⟩, "B", "C"⟩
  have dist : ∀ (a b : ℝ), b ≤ a → vdist ⟨a, 0, 0⟩ ⟨b, 0, 0⟩ = a - b := by
    intro a b h
    unfold vdist
    rw [← Real.sqrt_sq (sub_nonneg.mpr h)]
    congr 1
    rw [Real.sqrt_sq (sub_nonneg.mpr h)]
    ring
  have d1 : vdist s1.p1 s1.p0 = 1 / 10 := by
    rw [dist _ _ (by norm_num)]; norm_num
  have d2 : vdist s2.p1 s2.p0 = 17 / 100 - 1e-9 := by
    rw [dist _ _ (by norm_num)]; norm_num
  have d12 : vdist s2.p0 s1.p1 = 1e-9 := by
    rw [dist _ _ (by norm_num)]; norm_num
  have n1 : segmentCount s1 (1 / 10) = .ok 1 := by
    unfold segmentCount truncInt
    rw [d1]
    norm_num
    decide
  have n2 : segmentCount s2 (1 / 10) = .ok 1 := by
    have hf : ⌊(17 / 100 - 1e-9 : ℝ) / (1 / 10)⌋ = 1 := by
      rw [Int.floor_eq_iff]; norm_num
    unfold segmentCount truncInt
    rw [d2, hf]
    norm_num
    decide
  refine ⟨s1, s2, ⟨by rw [d1], by rw [d1]; norm_num⟩, ⟨by rw [d2]; norm_num, by rw [d2]; norm_num⟩, by simp [GoodLabels, s1],
    by simp [GoodLabels, s2], [s1.p0, s1.p1, s2.p1], ?_, ?_, rfl⟩
  · unfold pathPoints
    simp only [pathTail, n1, n2, Outcome.bind_eq, Outcome.bind_ok, one_ne_zero, if_false, segmentPoint_zero, vdist_self,
      segmentPoint_last s1 1 one_ne_zero, segmentPoint_last s2 1 one_ne_zero, d12]
    rw [if_neg (by norm_num), if_neg (by norm_num)]
    simp [segmentPoint_last s1 1 one_ne_zero, segmentPoint_last s2 1 one_ne_zero]
  · unfold highSymIndices
    have : pathEnds [s1, s2] = [(s1.p0, "G"), (s1.p1, "A"), (s2.p0, "B"), (s2.p1, "C")] := rfl
    rw [this]
    have hne1 : s1.p0 ≠ s1.p1 := by
      intro h
      have := congrArg V3.x h
      simp only [s1] at this
      norm_num at this
    have hne2 : s1.p1 ≠ s2.p0 := by
      intro h
      have := congrArg V3.x h
      simp only [s1, s2] at this
      norm_num at this
    have hfar : ¬ closePoint s2.p1 s2.p0 := by
      intro h
      have := h.1
      simp only [s2] at this
      rw [abs_lt] at this
      norm_num at this
    unfold labelScan
    rw [if_pos (closePoint_self _)]
    simp only
    rw [if_neg (by rintro (h | h); exact hne1 h; exact absurd h (by decide))]
    unfold labelScan
    rw [if_pos (closePoint_self _)]
    simp only
    rw [if_neg (by rintro (h | h); exact hne2 h; exact absurd h (by decide))]
    unfold labelScan
    rw [if_neg hfar]
    simp [labelScan, Outcome.bind_eq]

/-- The path L - G - X | X' - K of the documentation meets the hypotheses of `C139_labels_partial`. -/
example : let segs : List Segment := [⟨⟨1 / 2, 1 / 2, 1 / 2⟩, ⟨0, 0, 0⟩, "L", "G"⟩, ⟨⟨0, 0, 0⟩, ⟨1 / 2, 0, 1 / 2⟩, "G", "X"⟩,
      ⟨⟨1 / 2, -1 / 2, 0⟩, ⟨3 / 8, -3 / 8, 0⟩, "X", "K"⟩]
    (2e-8 : ℝ) ≤ 1 / 100 ∧ (∀ s ∈ segs, GoodSegment (1 / 100) s) ∧ (∀ s ∈ segs, GoodLabels s) ∧
    ∀ i (hi : i + 1 < segs.length), GoodJoint segs[i] segs[i + 1] := by
  intro segs
  have far : ∀ p q : V3 ℝ, 1 / 100 ≤ |p.x - q.x| → |p.x - q.x| ≤ 1 → |p.y - q.y| ≤ 1 → |p.z - q.z| ≤ 1 →
      1 / 100 ≤ vdist p q ∧ vdist p q / (1 / 100) < 2147483648 := by
    intro p q h hx hy hz
    have k : ∀ x : ℝ, |x| ≤ 1 → x * x ≤ 1 := fun x hx => by
      rw [← abs_mul_abs_self]; nlinarith [abs_nonneg x]
    constructor
    · refine h.trans ?_
      unfold vdist
      rw [← Real.sqrt_sq_eq_abs]
      apply Real.sqrt_le_sqrt
      nlinarith [mul_self_nonneg (p.y - q.y), mul_self_nonneg (p.z - q.z)]
    · have : vdist p q ≤ 2 := by
        unfold vdist
        rw [show (2 : ℝ) = Real.sqrt (2 ^ 2) by rw [Real.sqrt_sq (by norm_num)]]
        apply Real.sqrt_le_sqrt
        have := k _ hx
        have := k _ hy
        have := k _ hz
        linarith
      rw [div_lt_iff₀ (by norm_num)]
      linarith
  refine ⟨by norm_num, ?_, ?_, ?_⟩
  · intro s hs
    simp only [segs, List.mem_cons, List.not_mem_nil, or_false] at hs
    rcases hs with rfl | rfl | rfl <;> apply far <;> norm_num [abs_le, le_abs]
  · intro s hs
    simp only [segs, List.mem_cons, List.not_mem_nil, or_false] at hs
    rcases hs with rfl | rfl | rfl <;> simp [GoodLabels]
  · intro i hi
    simp only [segs, List.length_cons, List.length_nil] at hi
    have : i = 0 ∨ i = 1 := by omega
    rcases this with rfl | rfl
    · exact Or.inl rfl
    · exact Or.inr (Or.inr rfl)

end Verif.Props
