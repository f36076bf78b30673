import Verif.Model.Window
import Mathlib.Data.List.Sort
import Mathlib.Analysis.SpecialFunctions.Arsinh

/-! Lemmas for windows. -/
namespace Verif.Model

theorem selectLoop_spec {α : Type} (keep : Nat → α → Bool) (es : List α) (ib : Nat) :
    (selectLoop keep ib es).2.Pairwise (· < ·) ∧
    (∀ b, b ∈ (selectLoop keep ib es).2 ↔ ib ≤ b ∧ ∃ e, es[b - ib]? = some e ∧ keep b e = true) ∧
    (selectLoop keep ib es).1 = (selectLoop keep ib es).2.filterMap (fun b => es[b - ib]?) := by
  induction es generalizing ib with
  | nil => simp [selectLoop]
  | cons e es ih =>
    obtain ⟨h1, h2, h3⟩ := ih (ib + 1)
    have hge : ∀ b ∈ (selectLoop keep (ib + 1) es).2, ib < b := fun b hb => ((h2 b).mp hb).1
    have hshift : ∀ b, ib < b → (e :: es)[b - ib]? = es[b - (ib + 1)]? := by
      intro b hb
      have : b - ib = (b - (ib + 1)) + 1 := by omega
      rw [this, List.getElem?_cons_succ]
    have hmem : ∀ b, ib < b → (b ∈ (selectLoop keep (ib + 1) es).2 ↔
        ib ≤ b ∧ ∃ x, (e :: es)[b - ib]? = some x ∧ keep b x = true) := by
      intro b hb
      rw [h2 b, hshift b hb]
      constructor
      · rintro ⟨_, h⟩; exact ⟨by omega, h⟩
      · rintro ⟨_, h⟩; exact ⟨hb, h⟩
    have hfm : (selectLoop keep (ib + 1) es).2.filterMap (fun b => (e :: es)[b - ib]?) =
        (selectLoop keep (ib + 1) es).1 := by
      rw [h3]
      exact List.filterMap_congr (fun b hb => hshift b (hge b hb))
    simp only [selectLoop]
    by_cases hk : keep ib e = true
    · rw [if_pos hk]
      refine ⟨List.pairwise_cons.mpr ⟨hge, h1⟩, ?_, ?_⟩
      · intro b
        rw [List.mem_cons]
        rcases Nat.lt_trichotomy b ib with h | h | h
        · constructor
          · rintro (h' | h')
            · omega
            · have := hge b h'; omega
          · rintro ⟨h', _⟩; omega
        · subst h
          constructor
          · intro _; exact ⟨le_rfl, e, by simp, hk⟩
          · intro _; exact Or.inl rfl
        · rw [← hmem b h]
          constructor
          · rintro (h' | h')
            · omega
            · exact h'
          · exact Or.inr
      · simp [hfm]
    · rw [if_neg hk]
      refine ⟨h1, ?_, hfm.symm⟩
      intro b
      rcases Nat.lt_trichotomy b ib with h | h | h
      · constructor
        · intro h'; have := hge b h'; omega
        · rintro ⟨h', _⟩; omega
      · subst h
        constructor
        · intro h'; have := hge b h'; omega
        · rintro ⟨_, x, h', h''⟩
          simp at h'; subst h'
          exact absurd h'' hk
      · exact hmem b h

theorem selectLoop_length {α : Type} (keep : Nat → α → Bool) (es : List α) (ib : Nat) :
    (selectLoop keep ib es).1.length = (selectLoop keep ib es).2.length := by
  induction es generalizing ib with
  | nil => rfl
  | cons e es ih =>
    simp only [selectLoop]
    split <;> simp [ih]

theorem selectLoop_filter {α : Type} (p : α → Bool) (es : List α) (ib : Nat) :
    (selectLoop (fun _ e => p e) ib es).1 = es.filter p := by
  induction es generalizing ib with
  | nil => rfl
  | cons e es ih =>
    simp only [selectLoop, List.filter_cons]
    split <;> simp [ih]

/-- When the kept indices form an interval, the kept bands are exactly those passing the test. -/
theorem mem_keptBands {α : Type} (keep : Nat → α → Bool) (es : List α)
    (hint : ∀ a b c, a ∈ (selectLoop keep 0 es).2 → c ∈ (selectLoop keep 0 es).2 → a ≤ b → b ≤ c →
      b ∈ (selectLoop keep 0 es).2) (b : Nat) :
    b ∈ keptBands ((selectLoop keep 0 es).1, bandExtrema (selectLoop keep 0 es).2) ↔
      ∃ e, es[b]? = some e ∧ keep b e = true := by
  obtain ⟨h1, h2, _⟩ := selectLoop_spec keep es 0
  have hl := selectLoop_length keep es 0
  have hiff : b ∈ (selectLoop keep 0 es).2 ↔ ∃ e, es[b]? = some e ∧ keep b e = true := by simpa using h2 b
  rw [← hiff]
  generalize selectLoop keep 0 es = r at *
  obtain ⟨fe, bi⟩ := r
  match fe, bi with
  | [], [] => simp [keptBands]
  | [], _ :: _ => simp at hl
  | _ :: _, [] => simp at hl
  | x :: xs, y :: ys =>
    simp only [bandExtrema, keptBands, List.mem_range'_1]
    simp only at h1 hint
    have hlast : (y :: ys).getLast (by simp) ∈ y :: ys := List.getLast_mem _
    have hmax : ∀ c ∈ y :: ys, y ≤ c ∧ c ≤ (y :: ys).getLast (by simp) := by
      intro c hc
      constructor
      · rcases List.mem_cons.mp hc with rfl | hc
        · exact le_rfl
        · exact le_of_lt ((List.pairwise_cons.mp h1).1 c hc)
      · obtain ⟨i, hi, rfl⟩ := List.getElem_of_mem hc
        rw [List.getLast_eq_getElem]
        rcases Nat.lt_or_ge i ((y :: ys).length - 1) with h | h
        · exact le_of_lt (List.pairwise_iff_getElem.mp h1 i _ hi (by simp at *) h)
        · have : i = (y :: ys).length - 1 := by omega
          simp only [this]; exact le_rfl
    constructor
    · rintro ⟨h3, h4⟩
      exact hint y b _ (by simp) hlast h3 (by omega)
    · intro h
      have := hmax b h
      omega

/-- All bands passing the test are kept (whatever the order of the energies). -/
theorem keptBands_superset {α : Type} (keep : Nat → α → Bool) (es : List α) (b : Nat) (e : α)
    (he : es[b]? = some e) (hk : keep b e = true) :
    b ∈ keptBands ((selectLoop keep 0 es).1, bandExtrema (selectLoop keep 0 es).2) := by
  obtain ⟨h1, h2, _⟩ := selectLoop_spec keep es 0
  have hl := selectLoop_length keep es 0
  have hb : b ∈ (selectLoop keep 0 es).2 := by
    rw [h2]; exact ⟨Nat.zero_le _, e, by simpa using he, hk⟩
  clear h2
  generalize selectLoop keep 0 es = r at *
  obtain ⟨fe, bi⟩ := r
  match fe, bi with
  | [], [] => simp at hb
  | [], _ :: _ => simp at hl
  | _ :: _, [] => simp at hl
  | x :: xs, y :: ys =>
    simp only [bandExtrema, keptBands, List.mem_range'_1]
    simp only at h1 hb
    have h3 : y ≤ b := by
      rcases List.mem_cons.mp hb with rfl | hc
      · exact le_rfl
      · exact le_of_lt ((List.pairwise_cons.mp h1).1 b hc)
    have h4 : b ≤ (y :: ys).getLast (by simp) := by
      obtain ⟨i, hi, rfl⟩ := List.getElem_of_mem hb
      rw [List.getLast_eq_getElem]
      rcases Nat.lt_or_ge i ((y :: ys).length - 1) with h | h
      · exact le_of_lt (List.pairwise_iff_getElem.mp h1 i _ hi (by simp at *) h)
      · have : i = (y :: ys).length - 1 := by omega
        simp only [this]; exact le_rfl
    omega

theorem popPopPm1_anti (s : Statistics) {e T mu T' mu' : ℝ} (hT : 0 < T) (hTT : T ≤ T') (hne : s = .bose → e ≠ mu')
    (hmu : |e - mu'| ≤ |e - mu|) : getPopPopPm1 s e T mu ≤ getPopPopPm1 s e T' mu' := by
  have hT' : 0 < T' := lt_of_lt_of_le hT hTT
  have harg : |(e - mu') / 2 / T'| ≤ |(e - mu) / 2 / T| := by
    rw [abs_div, abs_div, abs_div, abs_div, abs_of_pos hT, abs_of_pos hT']
    exact div_le_div₀ (by positivity) (by gcongr) hT hTT
  have key : ∀ x y : ℝ, 0 < |y| → |y| ≤ |x| → (0.25 : ℝ) / x / x ≤ 0.25 / y / y := by
    intro x y hy hxy
    rw [div_div, div_div, ← abs_mul_abs_self x, ← abs_mul_abs_self y]
    exact div_le_div_of_nonneg_left (by norm_num) (by positivity) (by nlinarith)
  unfold getPopPopPm1
  cases s with
  | bose =>
    have hpos : 0 < |e - mu'| := abs_pos.mpr (sub_ne_zero.mpr (hne rfl))
    have hargpos : 0 < |(e - mu') / 2 / T'| := by
      rw [abs_div, abs_div, abs_of_pos hT']; positivity
    simp only
    apply key
    · rw [Real.abs_sinh]; exact Real.sinh_pos_iff.mpr hargpos
    · rw [Real.abs_sinh, Real.abs_sinh]; exact Real.sinh_le_sinh.mpr harg
  | fermi =>
    simp only
    apply key
    · exact abs_pos.mpr (Real.cosh_pos _).ne'
    · rw [abs_of_pos (Real.cosh_pos _), abs_of_pos (Real.cosh_pos _)]
      exact Real.cosh_le_cosh.mpr harg

end Verif.Model
