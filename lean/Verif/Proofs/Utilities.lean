import Verif.Model.Utilities
import Verif.Spec.Text
import Mathlib.Algebra.Order.Ring.Rat
import Mathlib.Tactic.Ring
import Mathlib.Tactic.Linarith
/-! Helper lemmas for src/utilities. -/
namespace Verif.Model

theorem i32_ok {x : Int} (h1 : intMin ≤ x) (h2 : x ≤ intMax) : i32 x = .ok x := by
  simp [i32, h1, h2]

theorem cmul_ok {a b : Int} (h1 : intMin ≤ a * b) (h2 : a * b ≤ intMax) : cmul a b = .ok (a * b) :=
  i32_ok h1 h2
theorem cadd_ok {a b : Int} (h1 : intMin ≤ a + b) (h2 : a + b ≤ intMax) : cadd a b = .ok (a + b) :=
  i32_ok h1 h2
theorem csub_ok {a b : Int} (h1 : intMin ≤ a - b) (h2 : a - b ≤ intMax) : csub a b = .ok (a - b) :=
  i32_ok h1 h2

theorem cdiv_ok {a b : Int} (ha : 0 ≤ a) (ha2 : a ≤ intMax) (hb : 0 < b) : cdiv a b = .ok (a / b) := by
  have h0 : b ≠ 0 := by omega
  have e : a.tdiv b = a / b := Int.tdiv_eq_ediv_of_nonneg ha
  have h1 : 0 ≤ a / b := Int.ediv_nonneg ha (by omega)
  have h2 : a / b ≤ a := Int.ediv_le_self _ ha
  simp only [cdiv, h0, if_false, e]
  exact i32_ok (by unfold intMin; omega) (by omega)

theorem nonneg_mul_lt {i1 i2 s1 s2 : Int} (h1 : 0 ≤ i1) (h2 : i1 < s1) (h3 : 0 ≤ i2) (h4 : i2 < s2) :
    0 ≤ i1 * s2 + i2 ∧ i1 * s2 + i2 < s1 * s2 ∧ 0 ≤ i1 * s2 ∧ i1 * s2 ≤ i1 * s2 + i2 := by
  have a : 0 ≤ i1 * s2 := mul_nonneg h1 (by omega)
  have b : (i1 + 1) * s2 ≤ s1 * s2 := mul_le_mul_of_nonneg_right (by omega) (by omega)
  have c : (i1 + 1) * s2 = i1 * s2 + s2 := by ring
  refine ⟨by omega, by omega, a, by omega⟩

theorem add_mul_ediv_lt {i1 i2 s2 : Int} (h3 : 0 ≤ i2) (h4 : i2 < s2) : (i1 * s2 + i2) / s2 = i1 := by
  have hs : s2 ≠ 0 := by omega
  rw [add_comm, Int.add_mul_ediv_right _ _ hs, Int.ediv_eq_zero_of_lt h3 h4]; simp

theorem compress2_val {i1 i2 s1 s2 : Int} (h1 : 0 ≤ i1) (h2 : i1 < s1) (h3 : 0 ≤ i2) (h4 : i2 < s2)
    (hf : s1 * s2 ≤ intMax + 1) : compress2Indices i1 i2 s1 s2 = .ok (i1 * s2 + i2) := by
  obtain ⟨a, b, c, d⟩ := nonneg_mul_lt h1 h2 h3 h4
  have hm : intMin ≤ 0 := by decide
  unfold compress2Indices
  rw [cmul_ok (by omega) (by omega)]
  simp only [Outcome.bind_eq, Outcome.bind]
  exact cadd_ok (by omega) (by omega)

theorem decompress2_val {k s1 s2 : Int} (h1 : 0 ≤ k) (h3 : k ≤ intMax) (h2 : 0 < s2) :
    decompress2Indices k s1 s2 = .ok (k / s2, k % s2) := by
  have hm : intMin ≤ 0 := by decide
  have a : 0 ≤ k / s2 := Int.ediv_nonneg h1 (by omega)
  have b : k / s2 * s2 + k % s2 = k := by rw [mul_comm]; exact Int.mul_ediv_add_emod k s2
  have c : 0 ≤ k % s2 := Int.emod_nonneg _ (by omega)
  have d : 0 ≤ k / s2 * s2 := mul_nonneg a (by omega)
  unfold decompress2Indices
  rw [cdiv_ok h1 h3 h2]
  simp only [Outcome.bind_eq, Outcome.bind]
  rw [cmul_ok (by omega) (by omega)]
  simp only [Outcome.bind]
  rw [csub_ok (by omega) (by omega)]
  simp only [Outcome.bind, Outcome.pure_eq]
  have : k - k / s2 * s2 = k % s2 := by omega
  rw [this]

theorem compress3_val {s1 s2 s3 i1 i2 i3 : Int} (h1 : 0 ≤ i1) (h1' : i1 < s1) (h2 : 0 ≤ i2)
    (h2' : i2 < s2) (h3 : 0 ≤ i3) (h3' : i3 < s3) (hfit : s1 * s2 * s3 ≤ intMax) :
    compress3Indices i1 i2 i3 s1 s2 s3 = .ok (i1 * s2 * s3 + i2 * s3 + i3) := by
  obtain ⟨a, b, c, d⟩ := nonneg_mul_lt h1 h1' h2 h2'
  obtain ⟨a', b', c', d'⟩ := nonneg_mul_lt (i1 := i1 * s2 + i2) (s1 := s1 * s2) a b h3 h3'
  have hm : intMin ≤ 0 := by decide
  have q : (i1 * s2 + i2) * s3 = i1 * s2 * s3 + i2 * s3 := by ring
  have n1 : 0 ≤ i1 * s2 * s3 := mul_nonneg c (by omega)
  have n2 : 0 ≤ i2 * s3 := mul_nonneg h2 (by omega)
  have lt12 : i1 * s2 ≤ i1 * s2 * s3 := by
    have := mul_le_mul_of_nonneg_left (show 1 ≤ s3 by omega) c
    simpa using this
  unfold compress3Indices
  rw [cmul_ok (by omega) (by omega)]; simp only [Outcome.bind_eq, Outcome.bind]
  rw [cmul_ok (by omega) (by omega)]; simp only [Outcome.bind]
  rw [cmul_ok (by omega) (by omega)]; simp only [Outcome.bind]
  rw [cadd_ok (by omega) (by omega)]; simp only [Outcome.bind]
  exact cadd_ok (by omega) (by omega)

theorem triple_roundtrip {s1 s2 s3 i1 i2 i3 : Int} (h1 : 0 ≤ i1) (h1' : i1 < s1) (h2 : 0 ≤ i2)
    (h2' : i2 < s2) (h3 : 0 ≤ i3) (h3' : i3 < s3) (hfit : s1 * s2 * s3 ≤ intMax) :
    ∃ k, compress3Indices i1 i2 i3 s1 s2 s3 = .ok k ∧ 0 ≤ k ∧ k < s1 * s2 * s3 ∧
      decompress3Indices k s1 s2 s3 = .ok (i1, i2, i3) := by
  obtain ⟨a, b, c, d⟩ := nonneg_mul_lt h1 h1' h2 h2'
  obtain ⟨a', b', c', d'⟩ := nonneg_mul_lt (i1 := i1 * s2 + i2) (s1 := s1 * s2) a b h3 h3'
  have hm : intMin ≤ 0 := by decide
  have p23 : 0 < s2 * s3 := mul_pos (by omega) (by omega)
  have le1 : s2 * s3 ≤ s1 * s2 * s3 := by
    have : 1 * (s2 * s3) ≤ s1 * (s2 * s3) := mul_le_mul_of_nonneg_right (by omega) (by omega)
    linarith [mul_assoc s1 s2 s3]
  have q : (i1 * s2 + i2) * s3 = i1 * s2 * s3 + i2 * s3 := by ring
  have n1 : 0 ≤ i1 * s2 * s3 := mul_nonneg c (by omega)
  have n2 : 0 ≤ i2 * s3 := mul_nonneg h2 (by omega)
  have lt12 : i1 * s2 ≤ i1 * s2 * s3 := by
    have := mul_le_mul_of_nonneg_left (show 1 ≤ s3 by omega) c
    simpa using this
  obtain ⟨_, b2, _, _⟩ := nonneg_mul_lt h2 h2' h3 h3'
  have hr : i1 * s2 * s3 + i2 * s3 + i3 = i1 * (s2 * s3) + (i2 * s3 + i3) := by ring
  refine ⟨_, compress3_val h1 h1' h2 h2' h3 h3' hfit, by omega, by omega, ?_⟩
  have e1 : (i1 * s2 * s3 + i2 * s3 + i3) / (s2 * s3) = i1 := by
    rw [hr]; exact add_mul_ediv_lt (by omega) b2
  have e2 : (i2 * s3 + i3) / s3 = i2 := add_mul_ediv_lt h3 h3'
  unfold decompress3Indices
  rw [cmul_ok (by omega) (by omega)]; simp only [Outcome.bind_eq, Outcome.bind]
  rw [cdiv_ok (by omega) (by omega) p23, e1]; simp only [Outcome.bind]
  rw [cmul_ok (by omega) (by omega)]; simp only [Outcome.bind]
  rw [cmul_ok (by omega) (by omega)]; simp only [Outcome.bind]
  rw [csub_ok (by omega) (by omega)]; simp only [Outcome.bind]
  have e3 : i1 * s2 * s3 + i2 * s3 + i3 - i1 * s2 * s3 = i2 * s3 + i3 := by ring
  rw [e3, cdiv_ok (by omega) (by omega) (by omega), e2]; simp only [Outcome.bind]
  rw [cmul_ok (by omega) (by omega)]; simp only [Outcome.bind]
  rw [csub_ok (by omega) (by omega)]; simp only [Outcome.bind, Outcome.pure_eq]
  have e4 : i2 * s3 + i3 - i2 * s3 = i3 := by ring
  rw [e4]

theorem neg_lt_tmod (a : Int) {b : Int} (hb : 0 < b) : -b < a.tmod b := by
  rcases Int.le_total 0 a with h | h
  · have := Int.tmod_nonneg b h; omega
  · have h1 : (-a).tmod b < b := Int.tmod_lt_of_pos _ hb
    rw [Int.neg_tmod] at h1; omega

theorem tdiv_bounds {a b : Int} (ha : intMin ≤ a) (ha2 : a ≤ intMax) (hb : 0 < b) :
    intMin ≤ a.tdiv b ∧ a.tdiv b ≤ intMax := by
  have hm : intMin = -2147483648 := rfl
  have hM : intMax = 2147483647 := rfl
  rcases Int.le_total 0 a with h | h
  · rw [Int.tdiv_eq_ediv_of_nonneg h]
    have := Int.ediv_nonneg h (show 0 ≤ b by omega)
    have := Int.ediv_le_self b h
    omega
  · have e : (-a).tdiv b = -(a.tdiv b) := Int.neg_tdiv _ _
    rw [Int.tdiv_eq_ediv_of_nonneg (by omega)] at e
    have := Int.ediv_nonneg (show 0 ≤ -a by omega) (show 0 ≤ b by omega)
    have := Int.ediv_le_self b (show 0 ≤ -a by omega)
    omega

theorem crem_ok {x b : Int} (hx1 : intMin ≤ x) (hx2 : x ≤ intMax) (hb : 0 < b) (hb2 : b ≤ intMax) :
    crem x b = .ok (x.tmod b) := by
  have hm : intMin = -2147483648 := rfl
  have hM : intMax = 2147483647 := rfl
  have t1 : x.tmod b < b := Int.tmod_lt_of_pos x hb
  have t2 : -b < x.tmod b := neg_lt_tmod x hb
  have := tdiv_bounds hx1 hx2 hb
  unfold crem
  rw [if_neg (by omega), if_neg (by omega)]
  exact i32_ok (by omega) (by omega)

theorem splitVector_spec (v : List α) (c : Nat) (hc : 0 < c) :
    ∃ chunks, (∀ fuel, v.length < fuel → splitVector fuel v c = .ok chunks) ∧
      chunks.flatten = v ∧ (∀ ch ∈ chunks, ch ≠ [] ∧ ch.length ≤ c) ∧
      (∀ i, i + 1 < chunks.length → ∀ ch, chunks[i]? = some ch → ch.length = c) := by
  generalize hn : v.length = n
  induction n using Nat.strongRecOn generalizing v with
  | _ n ih =>
    cases v with
    | nil =>
      refine ⟨[], ?_, rfl, by simp, by simp⟩
      intro fuel hf
      cases fuel with
      | zero => omega
      | succ f => rfl
    | cons a t =>
      have hpos : 0 < min (a :: t).length c := by simp; omega
      have hlt : ((a :: t).drop (min (a :: t).length c)).length < n := by
        rw [List.length_drop, hn]; rw [hn] at hpos; omega
      obtain ⟨chunks, h1, h2, h3, h4⟩ := ih _ hlt _ rfl
      refine ⟨(a :: t).take (min (a :: t).length c) :: chunks, ?_, ?_, ?_, ?_⟩
      · intro fuel hf
        cases fuel with
        | zero => omega
        | succ f =>
          have := h1 f (by omega)
          unfold splitVector at this ⊢
          simp only [splitVectorLoop, this]
      · rw [List.flatten_cons, h2, List.take_append_drop]
      · intro ch hch
        rcases List.mem_cons.mp hch with rfl | hch
        · constructor
          · intro h0
            have := congrArg List.length h0
            rw [List.length_take] at this
            simp only [List.length_nil] at this
            omega
          · rw [List.length_take]; omega
        · exact h3 ch hch
      · intro i hi ch hch
        cases i with
        | zero =>
          simp only [List.getElem?_cons_zero, Option.some.injEq] at hch
          subst hch
          rw [List.length_take]
          simp only [List.length_cons] at hi ⊢
          -- there is a further chunk, so the vector is longer than `c`
          have hne : chunks ≠ [] := by intro h; simp [h] at hi
          have : chunks.flatten ≠ [] := by
            cases chunks with
            | nil => exact absurd rfl hne
            | cons x xs =>
              have := (h3 x (List.mem_cons_self ..)).1
              intro h0
              rw [List.flatten_cons] at h0
              exact this (List.append_eq_nil_iff.mp h0).1
          rw [h2] at this
          have : 0 < ((a :: t).drop (min (a :: t).length c)).length := List.length_pos_iff.mpr this
          rw [List.length_drop] at this
          simp only [List.length_cons] at this
          omega
        | succ j =>
          simp only [List.getElem?_cons_succ] at hch
          exact h4 j (by simp only [List.length_cons] at hi; omega) ch hch

theorem scanDiff_spec (diff : List Rat) (s : Rat) :
    scanDiff s diff ≤ s ∧ (∀ d ∈ diff, scanDiff s diff ≤ d) ∧ (scanDiff s diff = s ∨ scanDiff s diff ∈ diff) := by
  induction diff generalizing s with
  | nil => simp [scanDiff]
  | cons d t ih =>
    have e : scanDiff s (d :: t) = scanDiff (if d < s then d else s) t := rfl
    rw [e]
    obtain ⟨h1, h2, h3⟩ := ih (if d < s then d else s)
    by_cases hlt : d < s
    · simp only [if_pos hlt] at h1 h2 h3 ⊢
      refine ⟨le_trans h1 hlt.le, ?_, ?_⟩
      · intro x hx; rcases List.mem_cons.mp hx with rfl | hx
        · exact h1
        · exact h2 x hx
      · right; rcases h3 with h3 | h3
        · rw [h3]; exact List.mem_cons_self ..
        · exact List.mem_cons_of_mem _ h3
    · simp only [if_neg hlt] at h1 h2 h3 ⊢
      refine ⟨h1, ?_, ?_⟩
      · intro x hx; rcases List.mem_cons.mp hx with rfl | hx
        · exact le_trans h1 (not_lt.mp hlt)
        · exact h2 x hx
      · rcases h3 with h3 | h3
        · exact Or.inl h3
        · exact Or.inr (List.mem_cons_of_mem _ h3)

theorem isTokenSep_iff (c : Char) : isTokenSep c = true ↔ c ∈ Spec.tokenSeparators := by
  simp [isTokenSep, Spec.tokenSeparators, or_assoc]

theorem tokenize_cons_sep {c : Char} {s : List Char} (hc : isTokenSep c = true) :
    tokenize (c :: s) = (regexSplit s [] true).filter (fun t => !t.isEmpty) := by
  simp [tokenize, regexSplit, hc]

/-- The two scanner states differ only by an empty piece, which is erased. -/
theorem filter_regexSplit_inSep (s : List Char) :
    (regexSplit s [] true).filter (fun t => !t.isEmpty) = (regexSplit s [] false).filter (fun t => !t.isEmpty) := by
  cases s with
  | nil => rfl
  | cons c cs =>
    by_cases hc : isTokenSep c = true
    · simp [regexSplit, hc]
    · simp [regexSplit, hc]

theorem regexSplit_word (w rest cur : List Char) (hw : ∀ c ∈ w, isTokenSep c = false)
    (hwne : w ≠ []) (b : Bool) :
    regexSplit (w ++ rest) cur b = regexSplit rest (cur ++ w) false := by
  induction w generalizing cur b with
  | nil => exact absurd rfl hwne
  | cons c cs ih =>
    have hc : isTokenSep c = false := hw c (List.mem_cons_self ..)
    rw [List.cons_append, regexSplit]
    simp only [hc, Bool.false_eq_true, if_false]
    by_cases hcs : cs = []
    · subst hcs; simp
    · rw [ih (cur ++ [c]) (fun x hx => hw x (List.mem_cons_of_mem _ hx)) hcs false]
      simp

theorem tokens_unique (s : List Char) (ts : List (List Char)) (h : Spec.Tokens s ts) :
    ts = tokenize s := by
  induction h with
  | nil => rfl
  | sep c s ts hc _ ih =>
    rw [tokenize_cons_sep ((isTokenSep_iff c).mpr hc), filter_regexSplit_inSep]; exact ih
  | word w rest ts hne hw hrest _ ih =>
    have hw' : ∀ c ∈ w, isTokenSep c = false := by
      intro c hc
      have := hw c hc
      rw [← isTokenSep_iff] at this
      simpa using this
    unfold tokenize
    rw [regexSplit_word w rest [] hw' hne false]
    have hwe : (!w.isEmpty) = true := by cases w <;> simp_all
    cases rest with
    | nil =>
      simp only [List.nil_append, regexSplit]
      rw [ih]; simp [hwe, tokenize, regexSplit]
    | cons c cs =>
      have hc : isTokenSep c = true := (isTokenSep_iff c).mpr (hrest c rfl)
      rw [ih, tokenize_cons_sep hc]
      simp [regexSplit, hc, hwe]

theorem tokens_exist (s : List Char) : ∃ ts, Spec.Tokens s ts := by
  generalize hn : s.length = n
  induction n using Nat.strongRecOn generalizing s with
  | _ n ih =>
    cases s with
    | nil => exact ⟨[], .nil⟩
    | cons c cs =>
      by_cases hc : c ∈ Spec.tokenSeparators
      · obtain ⟨ts, h⟩ := ih cs.length (by rw [← hn]; simp) cs rfl
        exact ⟨ts, .sep c cs ts hc h⟩
      · let p : Char → Bool := fun c => !isTokenSep c
        have hp : p c = true := by simp only [p]; rw [← isTokenSep_iff] at hc; simpa using hc
        have hlen : ((c :: cs).dropWhile p).length < n := by
          rw [List.dropWhile_cons_of_pos hp, ← hn]
          have := (List.dropWhile_sublist (l := cs) p).length_le
          simp; omega
        obtain ⟨ts, h⟩ := ih _ hlen ((c :: cs).dropWhile p) rfl
        refine ⟨(c :: cs).takeWhile p :: ts, ?_⟩
        have := Spec.Tokens.word ((c :: cs).takeWhile p) ((c :: cs).dropWhile p) ts
          (by rw [List.takeWhile_cons_of_pos hp]; simp) ?_ ?_ h
        · rwa [List.takeWhile_append_dropWhile] at this
        · intro d hd
          have := List.all_takeWhile (l := c :: cs) (p := p)
          have := List.all_eq_true.mp this d hd
          rw [← isTokenSep_iff]; simpa [p] using this
        · intro d hd
          have := List.head?_dropWhile_not p (c :: cs)
          rw [hd] at this
          rw [← isTokenSep_iff]; simpa [p] using this

theorem tokenize_tokens (s : List Char) : Spec.Tokens s (tokenize s) := by
  obtain ⟨ts, h⟩ := tokens_exist s
  rw [← tokens_unique s ts h]; exact h

end Verif.Model
