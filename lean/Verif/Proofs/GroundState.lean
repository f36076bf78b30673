import Verif.Model.GroundState
import Verif.Spec.GroundState
import Verif.Props.Sweep

namespace Verif.Model
open Verif.Spec Verif.Props

theorem popSum_zero (states : List ℝ) (mu : ℝ) : popSum states 0 mu = statesUpTo states mu := by
  unfold popSum statesUpTo
  induction states with
  | nil => simp
  | cons e t ih =>
    rw [List.map_cons, List.sum_cons, ih, List.filter_cons]
    by_cases h : e ≤ mu
    · simp [h, getPopulation]; ring
    · simp [h, getPopulation]

theorem threadBelow_from (level : ℝ) (share : List ℝ) (a : ℝ) :
    share.foldl (fun acc e => if e < level then acc + 1 else acc) a = a + statesBelow share level := by
  unfold statesBelow
  induction share generalizing a with
  | nil => simp
  | cons e t ih =>
    simp only [List.foldl_cons, ih, List.filter_cons]
    by_cases h : e < level
    · simp [h]; ring
    · simp [h]

theorem threadBelow_eq (level : ℝ) (share : List ℝ) : threadBelow level share = statesBelow share level := by
  unfold threadBelow; rw [threadBelow_from]; simp

theorem statesBelow_append (l m : List ℝ) (x : ℝ) : statesBelow (l ++ m) x = statesBelow l x + statesBelow m x := by
  simp [statesBelow]

theorem statesBelow_perm {l m : List ℝ} (h : l.Perm m) (x : ℝ) : statesBelow l x = statesBelow m x :=
  (h.filter _).length_eq

theorem sumBelow_from (level : ℝ) (shares : List (List ℝ)) (a : ℝ) :
    shares.foldl (fun acc s => acc + threadBelow level s) a = a + statesBelow shares.flatten level := by
  induction shares generalizing a with
  | nil => simp [statesBelow]
  | cons s t ih =>
    rw [List.foldl_cons, ih, threadBelow_eq, List.flatten_cons, statesBelow_append, Nat.cast_add]; ring

theorem sumBelow_eq (level : ℝ) (shares : List (List ℝ)) :
    sumBelow level shares = statesBelow shares.flatten level := by
  unfold sumBelow; rw [sumBelow_from]; simp

/-- The counts grow with the energy. -/
theorem upTo_mono (states : List ℝ) {x y : ℝ} (h : x ≤ y) : statesUpTo states x ≤ statesUpTo states y := by
  unfold statesUpTo
  apply List.Sublist.length_le
  apply List.monotone_filter_right
  intro e he
  simp only [decide_eq_true_eq] at he ⊢
  linarith

theorem below_le_upTo (states : List ℝ) (x : ℝ) : statesBelow states x ≤ statesUpTo states x := by
  unfold statesUpTo statesBelow
  apply List.Sublist.length_le
  apply List.monotone_filter_right
  intro e he
  simp only [decide_eq_true_eq] at he ⊢
  linarith

theorem upTo_le_below (states : List ℝ) {x y : ℝ} (h : x < y) : statesUpTo states x ≤ statesBelow states y := by
  unfold statesUpTo statesBelow
  apply List.Sublist.length_le
  apply List.monotone_filter_right
  intro e he
  simp only [decide_eq_true_eq] at he ⊢
  linarith

/-- The states below `x` are those up to the highest one below `x`. -/
theorem below_eq_upTo (states : List ℝ) (x : ℝ) (h : statesBelow states x ≠ 0) :
    ∃ e ∈ states, e < x ∧ statesBelow states x = statesUpTo states e := by
  classical
  have hne : states.filter (fun e => decide (e < x)) ≠ [] := by
    intro h'
    apply h
    unfold statesBelow
    have : (states.filter fun e => decide (e < x)).length = 0 := by rw [h']; rfl
    convert this
  obtain ⟨y, t, hyt⟩ := List.exists_cons_of_ne_nil hne
  have hmem : ∀ e, e ∈ states ∧ e < x ↔ e ∈ y :: t := by
    intro e; rw [← hyt]; simp
  let s : Finset ℝ := (y :: t).toFinset
  have hs : s.Nonempty := ⟨y, by simp [s]⟩
  have hm := s.max'_mem hs
  obtain ⟨h1, h2⟩ := (hmem (s.max' hs)).mpr (by simpa [s] using hm)
  refine ⟨_, h1, h2, ?_⟩
  unfold statesBelow statesUpTo
  congr 1
  apply List.filter_congr
  intro e he
  have : e < x ↔ e ≤ s.max' hs := by
    constructor
    · intro hex
      exact Finset.le_max' s e (by simpa [s] using (hmem e).mp ⟨he, hex⟩)
    · intro hex; linarith
  simp [this]

/-- Between two energies where too few and enough states are filled there is a Fermi level. -/
theorem fermi_between (states : List ℝ) (n : ℝ) (a b : ℝ) (hn : 0 < n) (ha : (statesUpTo states a : ℝ) < n)
    (hb : n ≤ statesUpTo states b) :
    ∃ r, a < r ∧ r ≤ b ∧ (statesBelow states r : ℝ) ≤ n ∧ n ≤ statesUpTo states r := by
  classical
  let s : Finset ℝ := states.toFinset.filter fun e => n ≤ statesUpTo states e
  have up_of : ∀ x, n ≤ statesUpTo states x → ∃ e ∈ s, e ≤ x := by
    intro x hx
    -- the states up to `x` are those below a slightly larger energy: take the highest one up to `x`
    have hne : states.filter (fun e => decide (e ≤ x)) ≠ [] := by
      intro h'
      have : (states.filter fun e => decide (e ≤ x)).length = 0 := by rw [h']; rfl
      have h2 : statesUpTo states x = 0 := by unfold statesUpTo; convert this
      rw [h2] at hx
      simp only [Nat.cast_zero] at hx
      linarith
    obtain ⟨y, t, hyt⟩ := List.exists_cons_of_ne_nil hne
    have hmem : ∀ e, e ∈ states ∧ e ≤ x ↔ e ∈ y :: t := by intro e; rw [← hyt]; simp
    let u : Finset ℝ := (y :: t).toFinset
    have hu : u.Nonempty := ⟨y, by simp [u]⟩
    obtain ⟨h1, h2⟩ := (hmem (u.max' hu)).mpr (by simpa [u] using u.max'_mem hu)
    refine ⟨u.max' hu, ?_, h2⟩
    simp only [s, Finset.mem_filter, List.mem_toFinset]
    refine ⟨h1, ?_⟩
    have : statesUpTo states x = statesUpTo states (u.max' hu) := by
      unfold statesUpTo
      congr 1
      apply List.filter_congr
      intro e he
      have : e ≤ x ↔ e ≤ u.max' hu := by
        constructor
        · intro hex; exact Finset.le_max' u e (by simpa [u] using (hmem e).mp ⟨he, hex⟩)
        · intro hex; linarith
      simp [this]
    rw [← this]; exact hx
  obtain ⟨e, he, heb⟩ := up_of b hb
  have hs : s.Nonempty := ⟨e, he⟩
  have hmin := s.min'_mem hs
  set r := s.min' hs with hr
  have hrs : n ≤ statesUpTo states r := (Finset.mem_filter.mp hmin).2
  refine ⟨r, ?_, ?_, ?_, hrs⟩
  · by_contra h
    have := upTo_mono states (not_lt.mp h)
    have : (statesUpTo states r : ℝ) ≤ statesUpTo states a := by exact_mod_cast this
    linarith
  · exact (Finset.min'_le s e he).trans heb
  · by_contra h
    push Not at h
    have h0 : statesBelow states r ≠ 0 := by
      intro h0; rw [h0] at h; simp only [Nat.cast_zero] at h; linarith
    obtain ⟨e', h1, h2, h3⟩ := below_eq_upTo states r h0
    have : e' ∈ s := by
      simp only [s, Finset.mem_filter, List.mem_toFinset]
      exact ⟨h1, by rw [← h3]; exact h.le⟩
    have := Finset.min'_le s e' this
    linarith

/-- All states are above the start of the search and below its end. -/
theorem start_bounds (parts : List Proc) (e : ℝ) (he : e ∈ parts.flatMap (·.2)) :
    startA parts < e ∧ e < startB parts := by
  obtain ⟨p, hp, hep⟩ := List.mem_flatMap.mp he
  have hne : p.2 ≠ [] := by intro h; rw [h] at hep; simp at hep
  have h1 : startA parts ≤ if p.2 = [] then 0 else listMin p.2 - 1 :=
    reduce_min_le _ _ (List.mem_map.mpr ⟨p, hp, rfl⟩)
  have h2 : (if p.2 = [] then 0 else listMax p.2 + 1) ≤ startB parts :=
    le_reduce_max _ _ (List.mem_map.mpr ⟨p, hp, rfl⟩)
  rw [if_neg hne] at h1 h2
  have h3 : listMin p.2 ≤ e ∧ e ≤ listMax p.2 := by
    cases hl : p.2 with
    | nil => exact absurd hl hne
    | cons x t =>
      rw [hl] at hep
      simp only [listMin, listMax]
      rcases List.mem_cons.mp hep with rfl | h
      · exact ⟨(foldl_min_le t _).1, (le_foldl_max t _).1⟩
      · exact ⟨(foldl_min_le t _).2 e h, (le_foldl_max t _).2 e h⟩
  constructor <;> linarith [h3.1, h3.2]

theorem upTo_start (parts : List Proc) :
    statesUpTo (parts.flatMap (·.2)) (startA parts) = 0 ∧
      statesUpTo (parts.flatMap (·.2)) (startB parts) = (parts.flatMap (·.2)).length := by
  unfold statesUpTo
  constructor
  · rw [List.length_eq_zero_iff, List.filter_eq_nil_iff]
    intro e he
    have := (start_bounds parts e he).1
    simpa using this
  · congr 1
    rw [List.filter_eq_self]
    intro e he
    have := (start_bounds parts e he).2
    simpa using this.le

/-- The search at zero temperature and doping, when the bands are neither empty nor full. -/
theorem findMu_zero (c : SearchData) (parts : List Proc) (hne : parts ≠ []) (h1 : 0 < c.electrons 0)
    (h2 : c.electrons 0 < c.numBands) (fuel : Nat) :
    runAll (fuel + 4) (parts.map fun p => findMuProg true p.1 c p.2 0 0) =
      if sgn (missing c (c.electrons 0) (parts.flatMap (·.2)) 0 (startA parts)) =
          sgn (missing c (c.electrons 0) (parts.flatMap (·.2)) 0 (startB parts)) then
        runAll fuel (parts.map fun _ => .err)
      else runAll fuel (parts.map fun p => bisectProg true p.1 c (c.electrons 0) p.2 0
        (sgn (missing c (c.electrons 0) (parts.flatMap (·.2)) 0 (startA parts))) maxIter
        (startA parts) (startB parts)) := by
  have hprog : (parts.map fun p => findMuProg true p.1 c p.2 0 0) = parts.map fun p =>
      Prog.red .min (if p.2 = [] then 0 else listMin p.2 - 1) fun a =>
      Prog.red .max (if p.2 = [] then 0 else listMax p.2 + 1) fun b =>
      Prog.red .sum (popSum p.2 0 a) fun s =>
      Prog.red .sum (popSum p.2 0 b) fun s' =>
        if sgn (c.electrons 0 - s / c.numPoints) = sgn (c.electrons 0 - s' / c.numPoints) then .err
        else bisectProg true p.1 c (c.electrons 0) p.2 0 (sgn (c.electrons 0 - s / c.numPoints))
          maxIter a b := by
    apply List.map_congr_left
    intro p _
    unfold findMuProg
    simp only
    rw [if_neg (by linarith), if_neg (by linarith), if_neg (by rintro ⟨-, -, h⟩; linarith),
      if_neg (by rintro ⟨-, -, h⟩; linarith), if_pos trivial]
    simp [fPopProg]
  rw [hprog, runAll_red _ _ hne, runAll_red _ _ hne, runAll_red _ _ hne, runAll_red _ _ hne]
  have e1 : reduceOp .min (parts.map fun p : Proc => if p.2 = [] then 0 else listMin p.2 - 1) = startA parts := rfl
  have e2 : reduceOp .max (parts.map fun p : Proc => if p.2 = [] then 0 else listMax p.2 + 1) = startB parts := rfl
  rw [e1, e2, reduce_sum_parts, reduce_sum_parts]
  have m1 : c.electrons 0 - popSum (parts.flatMap (·.2)) 0 (startA parts) / c.numPoints =
    missing c (c.electrons 0) (parts.flatMap (·.2)) 0 (startA parts) := rfl
  have m2 : c.electrons 0 - popSum (parts.flatMap (·.2)) 0 (startB parts) / c.numPoints =
    missing c (c.electrons 0) (parts.flatMap (·.2)) 0 (startB parts) := rfl
  rw [m1, m2]
  split <;> rfl

/-- What the bisection finds at zero temperature. -/
theorem bisect_fermi (c : SearchData) (parts : List Proc) (nk nb : Nat) (hk : 0 < nk) (hck : c.numPoints = nk)
    (hcb : c.numBands = nb) (hlen : (parts.flatMap (·.2)).length = nb * nk)
    (hne : parts ≠ []) (h1 : 0 < c.electrons 0) (h2 : c.electrons 0 < c.numBands)
    (hw : startB parts - startA parts < 1.0e-8 * 2 ^ 98) :
    sgn (missing c (c.electrons 0) (parts.flatMap (·.2)) 0 (startA parts)) = 1 ∧
    sgn (missing c (c.electrons 0) (parts.flatMap (·.2)) 0 (startB parts)) = -1 ∧
    ∃ v, bisectPure (missing c (c.electrons 0) (parts.flatMap (·.2)) 0) 1 maxIter (startA parts) (startB parts) =
      some v ∧ ∃ r, |v - r| ≤ 1.0e-8 ∧ IsFermiLevel (parts.flatMap (·.2)) nk (c.electrons 0) r := by
  have hnk : (0 : ℝ) < nk := by exact_mod_cast hk
  have hA : sgn (missing c (c.electrons 0) (parts.flatMap (·.2)) 0 (startA parts)) = 1 := by
    rw [sgn_pos_iff]
    unfold missing
    rw [popSum_zero, (upTo_start parts).1]
    simpa using h1
  have hB : sgn (missing c (c.electrons 0) (parts.flatMap (·.2)) 0 (startB parts)) = -1 := by
    rw [sgn_neg_iff]
    unfold missing
    rw [popSum_zero, (upTo_start parts).2, hlen, hck]
    push_cast
    rw [mul_div_assoc, div_self hnk.ne', mul_one]
    rw [hcb] at h2
    linarith
  refine ⟨hA, hB, ?_⟩
  obtain ⟨v, hv⟩ := bisectPure_some (missing c (c.electrons 0) (parts.flatMap (·.2)) 0) 1 98 _ _
    (startA_le_startB parts hne) hw
  refine ⟨v, hv, ?_⟩
  obtain ⟨a', b', i1, i2, i3, i4, i5, i6, i7⟩ := bisectPure_spec _ _ _ _ _ _ (startA_le_startB parts hne) hA
    (by rw [hB]; decide) hv
  have hfill : 0 < c.electrons 0 * nk := mul_pos h1 hnk
  have up : ∀ x, statesUpTo (parts.flatMap (·.2)) x = (c.electrons 0 -
      missing c (c.electrons 0) (parts.flatMap (·.2)) 0 x) * nk := by
    intro x
    unfold missing
    rw [popSum_zero, hck]
    field_simp
    ring
  rcases i7 with i7 | i7
  · refine ⟨v, by norm_num, ?_, ?_⟩
    · have : (statesBelow (parts.flatMap (·.2)) v : ℝ) ≤ statesUpTo (parts.flatMap (·.2)) v := by
        exact_mod_cast below_le_upTo _ v
      rw [up, i7, sub_zero] at this
      exact this
    · rw [up, i7, sub_zero]
  · rw [sgn_pos_iff] at i5
    have i6' : missing c (c.electrons 0) (parts.flatMap (·.2)) 0 b' ≤ 0 := by
      by_contra h
      exact i6 (sgn_pos_iff.mpr (not_le.mp h))
    obtain ⟨r, r1, r2, r3, r4⟩ := fermi_between (parts.flatMap (·.2)) (c.electrons 0 * nk) a' b' hfill
      (by rw [up]; nlinarith) (by rw [up]; nlinarith)
    refine ⟨r, ?_, r3, r4⟩
    rw [abs_le]; constructor <;> linarith

/-- The bisection on one process that does not exchange anything. -/
theorem bisectProg_alone (head : Bool) (c : SearchData) (n : ℝ) (states : List ℝ) (sA : Int) (rem : Nat) (a b v : ℝ)
    (h : bisectPure (missing c n states 0) sA rem a b = some v) :
    bisectProg false head c n states 0 sA rem a b = .ret v := by
  induction rem generalizing a b with
  | zero => simp [bisectPure] at h
  | succ rem ih =>
    unfold bisectPure at h
    unfold bisectProg
    split at h
    · simp at h
    · rename_i hr
      rw [if_neg (by simp [hr])]
      simp only [fPopProg, Bool.false_eq_true, if_false] at h ⊢
      have hm : n - popSum states 0 ((a + b) / 2) / c.numPoints = missing c n states 0 ((a + b) / 2) := rfl
      rw [hm]
      split at h
      · rename_i h1; rw [if_pos h1]; injection h with h; rw [h]
      · rename_i h1
        rw [if_neg h1]
        split at h
        · rename_i h2; rw [if_pos h2]; exact ih _ _ h
        · rename_i h2; rw [if_neg h2]; exact ih _ _ h

theorem findMu_alone (head : Bool) (c : SearchData) (states : List ℝ) (hs : states ≠ []) (h1 : 0 < c.electrons 0)
    (h2 : c.electrons 0 < c.numBands) :
    findMuProg false head c states 0 0 =
      if sgn (missing c (c.electrons 0) states 0 (startA [(head, states)])) =
          sgn (missing c (c.electrons 0) states 0 (startB [(head, states)])) then .err
      else bisectProg false head c (c.electrons 0) states 0
        (sgn (missing c (c.electrons 0) states 0 (startA [(head, states)]))) maxIter
        (startA [(head, states)]) (startB [(head, states)]) := by
  unfold findMuProg
  simp only
  rw [if_neg (by linarith), if_neg (by linarith), if_neg (by rintro ⟨-, -, h⟩; linarith),
    if_neg (by rintro ⟨-, -, h⟩; linarith)]
  have e1 : startA [(head, states)] = listMin states - 1 := by simp [startA, reduceOp, hs]
  have e2 : startB [(head, states)] = listMax states + 1 := by simp [startB, reduceOp, hs]
  simp only [Bool.false_eq_true, if_false, fPopProg, if_neg hs, e1, e2]
  rfl

end Verif.Model
