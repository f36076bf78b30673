import Verif.Proofs.Points
/-! Correctness of the nested binary search of src/points.cpp. -/
namespace Verif.Model

theorem innermostSearch_spec (f : Int → Rat) (x : Rat) (fuel : Nat) (l r : Int) (hl : 0 ≤ l)
    (hf : (r - l + 1).toNat < fuel)
    (hgap : ∀ j, l ≤ j → j ≤ r → f j = x ∨ eps6 < |f j - x|)
    (hs : ∀ i j, l ≤ i → i ≤ j → j ≤ r → f i ≤ f j) :
    ∃ id, innermostSearch f x fuel l r = .ok id ∧
      ((id = -1 ∧ ∀ j, l ≤ j → j ≤ r → f j ≠ x) ∨ (l ≤ id ∧ id ≤ r ∧ f id = x)) := by
  induction fuel generalizing l r with
  | zero => omega
  | succ n ih =>
    unfold innermostSearch
    by_cases hlr : r ≥ l
    · rw [if_pos hlr]
      have htd : (r - l).tdiv 2 = (r - l) / 2 := Int.tdiv_eq_ediv_of_nonneg (by omega)
      simp only [htd]
      generalize hmid : l + (r - l) / 2 = mid
      have hm1 : l ≤ mid := by omega
      have hm2 : mid ≤ r := by omega
      rcases hgap mid hm1 hm2 with he | hne
      · refine ⟨mid, ?_, Or.inr ⟨hm1, hm2, he⟩⟩
        rw [if_pos]; rw [he]; simp [eps6]
      · rw [if_neg (not_lt.mpr hne.le)]
        by_cases hgt : f mid - x > eps6
        · rw [if_pos hgt]
          have e6 : (0 : Rat) < eps6 := by norm_num [eps6]
          obtain ⟨id, h1, h2⟩ := ih l (mid - 1) hl (by omega) (fun j a b => hgap j a (by omega))
            (fun i j a b c => hs i j a b (by omega))
          refine ⟨id, h1, ?_⟩
          rcases h2 with ⟨h2, h3⟩ | ⟨h2, h3, h4⟩
          · refine Or.inl ⟨h2, fun j a b => ?_⟩
            by_cases hj : j ≤ mid - 1
            · exact h3 j a hj
            · have := hs mid j hm1 (by omega) b
              intro h; rw [h] at this; linarith
          · exact Or.inr ⟨h2, by omega, h4⟩
        · rw [if_neg hgt]
          have hlt : f mid < x := by
            rcases lt_abs.mp hne with h | h
            · exact absurd h hgt
            · have e6 : (0 : Rat) < eps6 := by norm_num [eps6]
              linarith
          obtain ⟨id, h1, h2⟩ := ih (mid + 1) r (by omega) (by omega) (fun j a b => hgap j (by omega) b)
            (fun i j a b c => hs i j (by omega) b c)
          refine ⟨id, h1, ?_⟩
          rcases h2 with ⟨h2, h3⟩ | ⟨h2, h3, h4⟩
          · refine Or.inl ⟨h2, fun j a b => ?_⟩
            by_cases hj : mid + 1 ≤ j
            · exact h3 j hj b
            · have := hs j mid a (by omega) hm2
              intro h; rw [h] at this; linarith
          · exact Or.inr ⟨by omega, h3, h4⟩
    · rw [if_neg hlr]
      exact ⟨-1, rfl, Or.inl ⟨rfl, fun j a b => by omega⟩⟩

theorem expandDown_spec (m : Nat → Bool) (k : Nat) :
    expandDown m k ≤ k ∧ (∀ j, expandDown m k ≤ j → j < k → m j = true) ∧
    (∀ j, j + 1 = expandDown m k → m j = false) := by
  induction k with
  | zero => exact ⟨le_refl _, fun j h1 h2 => by omega, fun j h => by simp [expandDown] at h⟩
  | succ k ih =>
    obtain ⟨h1, h2, h3⟩ := ih
    unfold expandDown
    by_cases hm : m k = true
    · simp only [hm, if_true]
      refine ⟨by omega, fun j a b => ?_, h3⟩
      by_cases hj : j < k
      · exact h2 j a hj
      · have : j = k := by omega
        subst this; exact hm
    · simp only [hm, Bool.false_eq_true, if_false]
      refine ⟨le_refl _, fun j a b => by omega, fun j h => ?_⟩
      have : j = k := by omega
      subst this; simpa using hm

theorem expandUp_spec (m : Nat → Bool) (n fuel k : Nat) (hf : n ≤ fuel + k + 1) (hk : k < n) :
    k ≤ expandUp m n fuel k ∧ expandUp m n fuel k < n ∧
    (∀ j, k < j → j ≤ expandUp m n fuel k → m j = true) ∧
    (expandUp m n fuel k + 1 < n → m (expandUp m n fuel k + 1) = false) := by
  induction fuel generalizing k with
  | zero =>
    unfold expandUp
    exact ⟨le_refl _, hk, fun j a b => by omega, fun h => by omega⟩
  | succ fuel ih =>
    unfold expandUp
    by_cases h1 : k + 1 < n
    · rw [if_pos h1]
      by_cases hm : m (k + 1) = true
      · rw [if_pos hm]
        obtain ⟨a, b, c, d⟩ := ih (k + 1) (by omega) h1
        refine ⟨by omega, b, fun j hj1 hj2 => ?_, d⟩
        by_cases hj : j = k + 1
        · subst hj; exact hm
        · exact c j (by omega) hj2
      · rw [if_neg hm]
        exact ⟨le_refl _, hk, fun j a b => by omega, fun _ => by simpa using hm⟩
    · rw [if_neg h1]
      exact ⟨le_refl _, hk, fun j a b => by omega, fun h => absurd h h1⟩

/-- Lexicographic order: z first, then y, then x. -/
def lexLt (p q : V3 Rat) : Prop :=
  p.z < q.z ∨ (p.z = q.z ∧ (p.y < q.y ∨ (p.y = q.y ∧ p.x < q.x)))

/-- Strictly sorted list of points. -/
def LexSorted (pts : List (V3 Rat)) : Prop :=
  ∀ i j, i < j → j < pts.length → lexLt (coordAt pts i) (coordAt pts j)

/-- Each component of a stored point equals that of `x` or differs from it by more than `1e-3`. -/
def Separated (pts : List (V3 Rat)) (x : V3 Rat) : Prop :=
  ∀ j, j < pts.length →
    ((coordAt pts j).x = x.x ∨ 1 / 1000 < |(coordAt pts j).x - x.x|) ∧
    ((coordAt pts j).y = x.y ∨ 1 / 1000 < |(coordAt pts j).y - x.y|) ∧
    ((coordAt pts j).z = x.z ∨ 1 / 1000 < |(coordAt pts j).z - x.z|)

/-- Components `d..2` agree. -/
def tailEq (d : Nat) (p q : V3 Rat) : Prop :=
  (d ≤ 0 → p.x = q.x) ∧ (d ≤ 1 → p.y = q.y) ∧ p.z = q.z

theorem sq_small {a b : Rat} (h : a = b ∨ 1 / 1000 < |a - b|) :
    (a - b) * (a - b) < eps6 ↔ a = b := by
  constructor
  · intro hlt
    rcases h with h | h
    · exact h
    · exfalso
      have : (1 / 1000) * (1 / 1000) < |a - b| * |a - b| := by nlinarith [abs_nonneg (a - b)]
      rw [abs_mul_abs_self] at this
      norm_num [eps6] at hlt this
      linarith
  · rintro rfl; norm_num [eps6]

theorem tailDist2_small {p q : V3 Rat} (d : Nat)
    (hx : p.x = q.x ∨ 1 / 1000 < |p.x - q.x|) (hy : p.y = q.y ∨ 1 / 1000 < |p.y - q.y|)
    (hz : p.z = q.z ∨ 1 / 1000 < |p.z - q.z|) :
    |tailDist2 p q d| < eps6 ↔ tailEq d p q := by
  have sx := sq_small hx
  have sy := sq_small hy
  have sz := sq_small hz
  have nx := mul_self_nonneg (p.x - q.x)
  have ny := mul_self_nonneg (p.y - q.y)
  have nz := mul_self_nonneg (p.z - q.z)
  have hn : 0 ≤ tailDist2 p q d := by
    unfold tailDist2; split <;> split <;> linarith
  rw [abs_of_nonneg hn]
  unfold tailDist2 tailEq
  constructor
  · intro h
    refine ⟨fun h0 => ?_, fun h1 => ?_, ?_⟩
    · rw [if_pos h0, if_pos (by omega)] at h; exact sx.mp (by linarith)
    · rw [if_pos h1] at h; apply sy.mp; split at h <;> linarith
    · apply sz.mp; split at h <;> split at h <;> linarith
  · rintro ⟨h1, h2, h3⟩
    have e6 : (0 : Rat) < eps6 := by norm_num [eps6]
    rw [h3, sub_self, mul_zero, add_zero]
    split
    · rename_i h0; rw [h1 h0, sub_self, mul_zero, if_pos (by omega), h2 (by omega), sub_self, mul_zero]
      simpa using e6
    · split
      · rename_i h0; rw [h2 h0, sub_self, mul_zero]; simpa using e6
      · simpa using e6

/-- Points between two points that agree with `x` on components `d..2` also agree. -/
theorem tailEq_convex {pts : List (V3 Rat)} (hs : LexSorted pts) (x : V3 Rat) (d i j k : Nat)
    (hij : i ≤ j) (hjk : j ≤ k) (hk : k < pts.length)
    (hi : tailEq d (coordAt pts i) x) (hk' : tailEq d (coordAt pts k) x) :
    tailEq d (coordAt pts j) x := by
  rcases Nat.eq_or_lt_of_le hij with rfl | h1
  · exact hi
  rcases Nat.eq_or_lt_of_le hjk with rfl | h2
  · exact hk'
  have a := hs i j h1 (by omega)
  have b := hs j k h2 hk
  obtain ⟨i1, i2, i3⟩ := hi
  obtain ⟨k1, k2, k3⟩ := hk'
  have zeq : (coordAt pts j).z = x.z := by
    unfold lexLt at a b
    rcases a with a | ⟨a, _⟩ <;> rcases b with b | ⟨b, _⟩ <;> linarith
  refine ⟨fun h0 => ?_, fun h1' => ?_, zeq⟩
  · have y1 := i2 (by omega)
    have y2 := k2 (by omega)
    have x1 := i1 h0
    have x2 := k1 h0
    exfalso
    have c := hs i k (by omega) hk
    unfold lexLt at c
    rcases c with c | ⟨_, c | ⟨_, c⟩⟩ <;> linarith
  · have y1 := i2 h1'
    have y2 := k2 h1'
    unfold lexLt at a b
    rcases a with a | ⟨_, a | ⟨a, _⟩⟩ <;> rcases b with b | ⟨_, b | ⟨b, _⟩⟩ <;> linarith

/-- One level of the search: from the interval of points agreeing on components above `d` to the interval
of points agreeing on components `d..2`. -/
theorem internalSearch_spec {pts : List (V3 Rat)} {x : V3 Rat} (hs : LexSorted pts)
    (hsep : Separated pts x) (d : Nat) (hd : d ≤ 2) (lo hi : Int) (hlo : 0 ≤ lo) (hhi : hi < pts.length)
    (hlohi : lo ≤ hi + 1)
    (hint : ∀ j : Nat, j < pts.length → ((lo ≤ j ∧ (j : Int) ≤ hi) ↔
      (d = 2 ∨ tailEq (d + 1) (coordAt pts j) x))) :
    ∃ r, internalSearch pts lo hi x d = .ok r ∧
      match r with
      | none => ∀ j, j < pts.length → ¬ tailEq d (coordAt pts j) x
      | some (a, b) => a ≤ b ∧ b < pts.length ∧
          ∀ j, j < pts.length → ((a ≤ j ∧ j ≤ b) ↔ tailEq d (coordAt pts j) x) := by
  -- the component `d` is sorted on the interval
  have hcomp : ∀ j, j < pts.length → (coordAt pts j).get d = x.get d ∨
      1 / 1000 < |(coordAt pts j).get d - x.get d| := by
    intro j hj
    obtain ⟨s1, s2, s3⟩ := hsep j hj
    match d, hd with
    | 0, _ => exact s1
    | 1, _ => exact s2
    | 2, _ => exact s3
  have htail : ∀ j, j < pts.length → ((lo ≤ j ∧ (j : Int) ≤ hi) ∧ (coordAt pts j).get d = x.get d ↔
      tailEq d (coordAt pts j) x) := by
    intro j hj
    rw [hint j hj]
    match d, hd with
    | 0, _ => simp [tailEq, V3.get]; tauto
    | 1, _ => simp [tailEq, V3.get]; tauto
    | 2, _ => simp [tailEq, V3.get]
  have hsort : ∀ i j : Int, lo ≤ i → i ≤ j → j ≤ hi →
      (coordAt pts i.toNat).get d ≤ (coordAt pts j.toNat).get d := by
    intro i j h1 h2 h3
    rcases Int.lt_or_eq_of_le h2 with h | h
    swap
    · rw [h]
    have hj : j.toNat < pts.length := by omega
    have hi' : i.toNat < pts.length := by omega
    have hl := hs i.toNat j.toNat (by omega) hj
    have ti := (hint i.toNat hi').mp (by omega)
    have tj := (hint j.toNat hj).mp (by omega)
    unfold lexLt at hl
    match d, hd with
    | 0, _ =>
      obtain ⟨_, a2, a3⟩ := ti.resolve_left (by omega)
      obtain ⟨_, b2, b3⟩ := tj.resolve_left (by omega)
      have a2 := a2 (by omega); have b2 := b2 (by omega)
      simp only [V3.get]
      rcases hl with hl | ⟨_, hl | ⟨_, hl⟩⟩ <;> linarith
    | 1, _ =>
      obtain ⟨_, _, a3⟩ := ti.resolve_left (by omega)
      obtain ⟨_, _, b3⟩ := tj.resolve_left (by omega)
      simp only [V3.get]
      rcases hl with hl | ⟨_, hl | ⟨hl, _⟩⟩ <;> linarith
    | 2, _ =>
      simp only [V3.get]
      rcases hl with hl | ⟨hl, _⟩ <;> linarith
  obtain ⟨id, h1, h2⟩ := innermostSearch_spec (fun i => (coordAt pts i.toNat).get d) (x.get d)
    (pts.length + 1) lo hi hlo (by omega)
    (fun j a b => by
      rcases hcomp j.toNat (by omega) with h | h
      · exact Or.inl h
      · right
        have : eps6 < 1 / 1000 := by norm_num [eps6]
        linarith)
    hsort
  unfold internalSearch
  rw [h1]
  simp only
  rcases h2 with ⟨rfl, h2⟩ | ⟨h2, h3, h4⟩
  · refine ⟨none, by simp, fun j hj ht => ?_⟩
    obtain ⟨⟨a, b⟩, c⟩ := (htail j hj).mpr ht
    have := h2 j a b
    simp only [Int.toNat_natCast] at this
    exact this c
  · rw [if_neg (by omega)]
    have hidlt : id.toNat < pts.length := by omega
    have htid : tailEq d (coordAt pts id.toNat) x := (htail id.toNat hidlt).mp ⟨by omega, h4⟩
    have hm : ∀ j, j < pts.length →
        (decide (|tailDist2 (coordAt pts j) x d| < eps6) = true ↔ tailEq d (coordAt pts j) x) := by
      intro j hj
      obtain ⟨s1, s2, s3⟩ := hsep j hj
      rw [decide_eq_true_iff]
      exact tailDist2_small d s1 s2 s3
    generalize hmm : (fun j => decide (|tailDist2 (coordAt pts j) x d| < eps6)) = m
    have hm' : ∀ j, j < pts.length → (m j = true ↔ tailEq d (coordAt pts j) x) := by
      intro j hj; rw [← hmm]; exact hm j hj
    obtain ⟨d1, d2, d3⟩ := expandDown_spec m id.toNat
    obtain ⟨u1, u2, u3, u4⟩ := expandUp_spec m pts.length pts.length id.toNat (by omega) hidlt
    refine ⟨_, rfl, by omega, u2, fun j hj => ⟨fun ⟨ha, hb⟩ => ?_, fun ht => ?_⟩⟩
    · rcases Nat.lt_trichotomy j id.toNat with h | h | h
      · exact (hm' j hj).mp (d2 j ha h)
      · rw [h]; exact htid
      · exact (hm' j hj).mp (u3 j h hb)
    · constructor
      · by_contra hlt
        have hlt : j < expandDown m id.toNat := by omega
        obtain ⟨k, hk⟩ : ∃ k, k + 1 = expandDown m id.toNat := ⟨expandDown m id.toNat - 1, by omega⟩
        have hkf := d3 k hk
        have : tailEq d (coordAt pts k) x :=
          tailEq_convex hs x d j k id.toNat (by omega) (by omega) hidlt ht htid
        rw [← hm' k (by omega)] at this
        rw [hkf] at this; exact absurd this (by simp)
      · by_contra hgt
        have hgt : expandUp m pts.length pts.length id.toNat < j := by omega
        have hkf := u4 (by omega)
        have : tailEq d (coordAt pts (expandUp m pts.length pts.length id.toNat + 1)) x :=
          tailEq_convex hs x d id.toNat _ j (by omega) (by omega) hj htid ht
        rw [← hm' _ (by omega)] at this
        rw [hkf] at this; exact absurd this (by simp)

theorem tailEq_zero (p q : V3 Rat) : tailEq 0 p q ↔ p = q := by
  obtain ⟨a, b, c⟩ := p
  obtain ⟨a', b', c'⟩ := q
  simp [tailEq]

/-- The nested search finds a stored point, and only stored points. -/
theorem pointsBinarySearch_spec {pts : List (V3 Rat)} {x : V3 Rat} (hs : LexSorted pts)
    (hsep : Separated pts x) :
    (∀ j, j < pts.length → coordAt pts j = x → pointsBinarySearch pts x = .ok j) ∧
    ((∀ j, j < pts.length → coordAt pts j ≠ x) → pointsBinarySearch pts x = .ok (-1)) := by
  suffices h : ∃ r, pointsBinarySearch pts x = .ok r ∧
      ((r = -1 ∧ ∀ j, j < pts.length → coordAt pts j ≠ x) ∨
        (∃ j : Nat, r = j ∧ j < pts.length ∧ coordAt pts j = x)) by
    obtain ⟨r, h1, h2⟩ := h
    have uniq : ∀ i j, i < pts.length → j < pts.length → coordAt pts i = x → coordAt pts j = x → i = j := by
      have aux : ∀ i j, i < j → j < pts.length → coordAt pts i = x → coordAt pts j = x → False := by
        intro i j hij hj e1 e2
        have := hs i j hij hj
        rw [e1, e2] at this
        unfold lexLt at this
        rcases this with h | ⟨_, h | ⟨_, h⟩⟩ <;> exact lt_irrefl _ h
      intro i j hi hj e1 e2
      rcases Nat.lt_trichotomy i j with h | h | h
      · exact (aux i j h hj e1 e2).elim
      · exact h
      · exact (aux j i h hi e2 e1).elim
    refine ⟨fun j hj e => ?_, fun hno => ?_⟩
    · rcases h2 with ⟨_, h2⟩ | ⟨k, rfl, hk, ek⟩
      · exact absurd e (h2 j hj)
      · rw [h1, uniq k j hk hj ek e]
    · rcases h2 with ⟨rfl, _⟩ | ⟨k, _, hk, ek⟩
      · exact h1
      · exact absurd ek (hno k hk)
  unfold pointsBinarySearch
  obtain ⟨rz, ez, hz⟩ := internalSearch_spec hs hsep 2 (le_refl _) 0 ((pts.length : Int) - 1) (le_refl _)
    (by omega) (by omega) (fun j hj => ⟨fun _ => Or.inl rfl, fun _ => by omega⟩)
  simp only [Outcome.bind_eq, Outcome.pure_eq, ez, Outcome.bind]
  match rz, hz with
  | none, hz =>
    refine ⟨-1, rfl, Or.inl ⟨rfl, fun j hj e => hz j hj ?_⟩⟩
    rw [e]; simp [tailEq]
  | some (za, zb), ⟨hz1, hz2, hz3⟩ =>
    simp only
    obtain ⟨ry, ey, hy⟩ := internalSearch_spec hs hsep 1 (by omega) za zb (by omega) (by omega) (by omega)
      (fun j hj => by
        have := hz3 j hj
        constructor
        · intro h; exact Or.inr (this.mp (by omega))
        · intro h; have := this.mpr (h.resolve_left (by omega)); omega)
    simp only [ey]
    match ry, hy with
    | none, hy =>
      refine ⟨-1, rfl, Or.inl ⟨rfl, fun j hj e => hy j hj ?_⟩⟩
      rw [e]; simp [tailEq]
    | some (ya, yb), ⟨hy1, hy2, hy3⟩ =>
      simp only
      obtain ⟨rx, ex, hx⟩ := internalSearch_spec hs hsep 0 (by omega) ya yb (by omega) (by omega) (by omega)
        (fun j hj => by
          have := hy3 j hj
          constructor
          · intro h; exact Or.inr (this.mp (by omega))
          · intro h; have := this.mpr (h.resolve_left (by omega)); omega)
      simp only [ex]
      match rx, hx with
      | none, hx =>
        refine ⟨-1, rfl, Or.inl ⟨rfl, fun j hj e => hx j hj ?_⟩⟩
        rw [e]; simp [tailEq]
      | some (xa, xb), ⟨hx1, hx2, hx3⟩ =>
        simp only
        have ea := (tailEq_zero _ _).mp ((hx3 xa (by omega)).mp ⟨le_refl _, hx1⟩)
        have eb := (tailEq_zero _ _).mp ((hx3 xb hx2).mp ⟨hx1, le_refl _⟩)
        have hab : xa = xb := by
          rcases Nat.eq_or_lt_of_le hx1 with h | h
          · exact h
          · have := hs xa xb h hx2
            rw [ea, eb] at this
            unfold lexLt at this
            rcases this with h | ⟨_, h | ⟨_, h⟩⟩ <;> exact absurd h (lt_irrefl _)
        rw [if_neg (by simpa using hab)]
        exact ⟨_, rfl, Or.inr ⟨xa, rfl, by omega, ea⟩⟩

end Verif.Model

namespace Verif.Model

theorem sep_div {a a' m : Int} {o : Rat} (hm : 0 < m) (hm2 : m < 1000) :
    (a : Rat) / m + o = (a' : Rat) / m + o ∨ 1 / 1000 < |(a : Rat) / m + o - ((a' : Rat) / m + o)| := by
  have hmq : (0 : Rat) < m := by exact_mod_cast hm
  by_cases h : a = a'
  · left; rw [h]
  · right
    have e : (a : Rat) / m + o - ((a' : Rat) / m + o) = ((a - a' : Int) : Rat) / m := by
      push_cast; ring
    rw [e, abs_div, abs_of_pos hmq, lt_div_iff₀ hmq]
    have h1 : (1 : Rat) ≤ |((a - a' : Int) : Rat)| := by
      have : (1 : Int) ≤ |a - a'| := Int.one_le_abs (by omega)
      exact_mod_cast this
    have h2 : (m : Rat) < 1000 := by exact_mod_cast hm2
    linarith

theorem div_lt_shift {a a' m : Int} {o : Rat} (hm : 0 < m) (h : a < a') :
    (a : Rat) / m + o < (a' : Rat) / m + o := by
  have hmq : (0 : Rat) < m := by exact_mod_cast hm
  have : (a : Rat) < a' := by exact_mod_cast h
  have := div_lt_div_of_pos_right this hmq
  linarith

/-- Mesh indices are ordered by z, then y, then x. -/
theorem decode_lt {mesh : V3 Int} {i j a b c a' b' c' : Int} (d : Decode mesh i a b c)
    (d' : Decode mesh j a' b' c') (h : i < j) :
    c < c' ∨ (c = c' ∧ (b < b' ∨ (b = b' ∧ a < a'))) := by
  obtain ⟨q1, q2, q3, q4⟩ := nonneg_mul_lt d.hb.1 d.hb.2 d.ha.1 d.ha.2
  obtain ⟨r1, r2, r3, r4⟩ := nonneg_mul_lt d'.hb.1 d'.hb.2 d'.ha.1 d'.ha.2
  have hi := d.hi
  have hj := d'.hi
  have hx : 0 < mesh.x := by have := d.ha; omega
  have hy : 0 < mesh.y := by have := d.hb; omega
  rcases Int.lt_trichotomy c c' with hc | hc | hc
  · exact Or.inl hc
  · refine Or.inr ⟨hc, ?_⟩
    subst hc
    rcases Int.lt_trichotomy b b' with hb | hb | hb
    · exact Or.inl hb
    · exact Or.inr ⟨hb, by subst hb; omega⟩
    · exfalso
      have : (b' + 1) * mesh.x ≤ b * mesh.x := mul_le_mul_of_nonneg_right (by omega) (by omega)
      have e : (b' + 1) * mesh.x = b' * mesh.x + mesh.x := by ring
      have := d'.ha; have := d.ha
      omega
  · exfalso
    have : (c' + 1) * (mesh.y * mesh.x) ≤ c * (mesh.y * mesh.x) :=
      mul_le_mul_of_nonneg_right (by omega) (by positivity)
    have e : (c' + 1) * (mesh.y * mesh.x) = c' * mesh.x * mesh.y + mesh.y * mesh.x := by ring
    have e2 : c * (mesh.y * mesh.x) = c * mesh.x * mesh.y := by ring
    omega

theorem coords_lexLt {mesh : V3 Int} {offset : V3 Rat} {i j a b c a' b' c' : Int}
    (d : Decode mesh i a b c) (d' : Decode mesh j a' b' c') (h : i < j) :
    lexLt (meshCoordinates mesh offset i) (meshCoordinates mesh offset j) := by
  rw [meshCoordinates_decode d, meshCoordinates_decode d']
  have hx : 0 < mesh.x := by have := d.ha; omega
  have hy : 0 < mesh.y := by have := d.hb; omega
  have hz : 0 < mesh.z := by have := d.hc; omega
  unfold lexLt
  simp only
  rcases decode_lt d d' h with h | ⟨rfl, h | ⟨rfl, h⟩⟩
  · exact Or.inl (div_lt_shift hz h)
  · exact Or.inr ⟨rfl, Or.inl (div_lt_shift hy h)⟩
  · exact Or.inr ⟨rfl, Or.inr ⟨rfl, div_lt_shift hx h⟩⟩

theorem coordAt_map {f : Int → V3 Rat} {l : List Int} {k : Nat} (hk : k < l.length) :
    coordAt (l.map f) k = f l[k] := by
  unfold coordAt
  rw [List.getD_eq_getElem?_getD, List.getElem?_eq_getElem (by simpa using hk)]
  simp

/-- Folding the coordinates of a mesh point plus a lattice vector. -/
theorem fold1_mesh {a m g : Int} {o : Rat} (ha : 0 ≤ a) (ha2 : a < m) (ho : 0 ≤ o)
    (ho2 : o + eps8 < 1 / m) : fold1 ((a : Rat) / m + o + g) = (a : Rat) / m + o := by
  have hm : (0 : Rat) < m := by exact_mod_cast (by omega : (0 : Int) < m)
  have h0 : (0 : Rat) ≤ (a : Rat) / m := div_nonneg (by exact_mod_cast ha) hm.le
  have h1 : (a : Rat) / m ≤ 1 - 1 / m := by
    have : (a : Rat) ≤ m - 1 := by exact_mod_cast (by omega : a ≤ m - 1)
    rw [div_le_iff₀ hm]
    have : (1 - 1 / (m : Rat)) * m = m - 1 := by field_simp
    linarith
  have e8 : (0 : Rat) < eps8 := by norm_num [eps8]
  unfold fold1
  have : ⌊(a : Rat) / m + o + g + eps8⌋ = g := by
    rw [Int.floor_eq_iff]; constructor <;> linarith
  rw [this]; ring

/-- Folded difference of two mesh coordinates. -/
theorem fold1_diff {a a' m g : Int} {o : Rat} (ha : 0 ≤ a) (ha2 : a < m) (ha' : 0 ≤ a') (ha2' : a' < m)
    (hm316 : m ≤ 316) :
    (a = a' → fold1 ((a : Rat) / m + o - ((a' : Rat) / m + o + g)) = 0) ∧
    (a ≠ a' → eps5 ≤ fold1 ((a : Rat) / m + o - ((a' : Rat) / m + o + g)) *
      fold1 ((a : Rat) / m + o - ((a' : Rat) / m + o + g))) := by
  have hm : (0 : Rat) < m := by exact_mod_cast (by omega : (0 : Int) < m)
  have hmq : (m : Rat) ≤ 316 := by exact_mod_cast hm316
  have e8 : (0 : Rat) < eps8 := by norm_num [eps8]
  have hinv : (1 : Rat) / 316 ≤ 1 / m := one_div_le_one_div_of_le hm hmq
  have e8' : eps8 < 1 / 316 := by norm_num [eps8]
  have key : ∀ (r q : Int), a - a' = r + q * m → 0 ≤ r → r < m →
      fold1 ((a : Rat) / m + o - ((a' : Rat) / m + o + g)) = (r : Rat) / m := by
    intro r q hr h1 h2
    have e : (a : Rat) / m + o - ((a' : Rat) / m + o + g) = (r : Rat) / m + q - g := by
      have : (a : Rat) - a' = r + q * m := by exact_mod_cast hr
      field_simp
      linarith
    have h3 : (r : Rat) / m ≤ 1 - 1 / m := by
      have : (r : Rat) ≤ m - 1 := by exact_mod_cast (by omega : r ≤ m - 1)
      rw [div_le_iff₀ hm]
      have : (1 - 1 / (m : Rat)) * m = m - 1 := by field_simp
      linarith
    have h0 : (0 : Rat) ≤ (r : Rat) / m := div_nonneg (by exact_mod_cast h1) hm.le
    unfold fold1
    rw [e]
    have : ⌊(r : Rat) / m + q - g + eps8⌋ = q - g := by
      rw [Int.floor_eq_iff]; push_cast; constructor <;> linarith
    rw [this]; push_cast; ring
  constructor
  · intro h
    rw [key 0 0 (by omega) (le_refl _) (by omega)]; simp
  · intro h
    have pos : ∀ r : Int, 0 < r → eps5 ≤ (r : Rat) / m * ((r : Rat) / m) := by
      intro r hr
      have h1 : (1 : Rat) / 316 ≤ (r : Rat) / m := by
        have : (1 : Rat) ≤ r := by exact_mod_cast hr
        have := div_le_div_of_nonneg_right this hm.le
        linarith
      have : (1 : Rat) / 316 * (1 / 316) ≤ (r : Rat) / m * ((r : Rat) / m) :=
        mul_le_mul h1 h1 (by norm_num) (by linarith [show (0 : Rat) ≤ 1 / 316 by norm_num])
      have e5 : eps5 ≤ (1 : Rat) / 316 * (1 / 316) := by norm_num [eps5]
      linarith
    rcases Int.lt_or_gt_of_ne h with h' | h'
    · rw [key (a - a' + m) (-1) (by ring) (by omega) (by omega)]; exact pos _ (by omega)
    · rw [key (a - a') 0 (by ring) (by omega) (by omega)]; exact pos _ (by omega)

theorem foldl_last {P : Nat → Prop} [DecidablePred P] (n : Nat) :
    (∀ j, j < n → P j → (∀ k, k < n → P k → k = j) →
      (List.range n).foldl (fun ik t => if P t then (t : Int) else ik) (-1) = j) ∧
    ((∀ k, k < n → ¬ P k) → (List.range n).foldl (fun ik t => if P t then (t : Int) else ik) (-1) = -1) := by
  induction n with
  | zero => exact ⟨fun j h => by omega, fun _ => rfl⟩
  | succ n ih =>
    obtain ⟨ih1, ih2⟩ := ih
    simp only [List.range_succ, List.foldl_append, List.foldl_cons, List.foldl_nil]
    refine ⟨fun j hj hP hu => ?_, fun hno => ?_⟩
    · by_cases hn : P n
      · rw [if_pos hn, hu n (by omega) hn]
      · rw [if_neg hn]
        have hjn : j < n := by
          rcases Nat.lt_or_ge j n with h | h
          · exact h
          · have : j = n := by omega
            subst this; exact absurd hP hn
        exact ih1 j hjn hP (fun k hk => hu k (by omega))
    · rw [if_neg (hno n (by omega))]
      exact ih2 (fun k hk => hno k (by omega))

/-! Wigner-Seitz folding -/

theorem mulVec_add (B : M3) (a b : V3 Rat) : B.mulVec (a.add b) = (B.mulVec a).add (B.mulVec b) := by
  simp only [M3.mulVec, V3.add, V3.dot, V3.mk.injEq]
  exact ⟨by ring, by ring, by ring⟩

theorem wsLoop_spec (B : M3) (cart : V3 Rat) (gs : List (V3 Int)) (n0 : Rat) (b : V3 Int) :
    ∃ w, wsLoop B cart gs n0 b = w ∧ ∃ v,
      ((w = b ∧ v = n0) ∨ v = ((cart.add (B.mulVec w.cast)).add ⟨eps8, eps8, eps8⟩).norm2) ∧ v ≤ n0 ∧
      ∀ g ∈ gs, v ≤ ((cart.add (B.mulVec g.cast)).add ⟨eps8, eps8, eps8⟩).norm2 := by
  induction gs generalizing n0 b with
  | nil => exact ⟨b, rfl, n0, Or.inl ⟨rfl, rfl⟩, le_refl _, by simp⟩
  | cons g gs ih =>
    unfold wsLoop
    simp only
    by_cases h : ((cart.add (B.mulVec g.cast)).add ⟨eps8, eps8, eps8⟩).norm2 < n0
    · rw [if_pos h]
      obtain ⟨w, hw, v, h1, h2, h3⟩ := ih _ g
      refine ⟨w, hw, v, ?_, by linarith, ?_⟩
      · rcases h1 with ⟨e1, e2⟩ | e
        · right; rw [e1, e2]
        · right; exact e
      · intro g' hg'
        rcases List.mem_cons.mp hg' with rfl | hm
        · exact h2
        · exact h3 _ hm
    · rw [if_neg h]
      obtain ⟨w, hw, v, h1, h2, h3⟩ := ih n0 b
      refine ⟨w, hw, v, h1, h2, ?_⟩
      intro g' hg'
      rcases List.mem_cons.mp hg' with rfl | hm
      · linarith [not_lt.mp h]
      · exact h3 _ hm

theorem sum_abs_le (a : V3 Rat) (L : Rat) (hL : 0 ≤ L) (h : a.norm2 ≤ L ^ 2) :
    |a.x + a.y + a.z| ≤ 2 * L := by
  apply abs_le_of_sq_le_sq _ (by linarith)
  simp only [V3.norm2, V3.dot] at h
  nlinarith [sq_nonneg (a.x - a.y), sq_nonneg (a.y - a.z), sq_nonneg (a.x - a.z), sq_nonneg L]

theorem norm2_shift (a : V3 Rat) (L e : Rat) (hL : 0 ≤ L) (he : 0 ≤ e) (h : a.norm2 ≤ L ^ 2) :
    (a.add ⟨e, e, e⟩).norm2 ≤ (L + 2 * e) ^ 2 := by
  have h1 := (abs_le.mp (sum_abs_le a L hL h)).2
  simp only [V3.norm2, V3.dot, V3.add] at *
  nlinarith [mul_le_mul_of_nonneg_left h1 he, sq_nonneg e]

theorem norm2_shift_neg (a : V3 Rat) (L e : Rat) (hL : 0 ≤ L) (he : 0 ≤ e)
    (h : (a.add ⟨e, e, e⟩).norm2 ≤ L ^ 2) : a.norm2 ≤ (L + 2 * e) ^ 2 := by
  have h1 := (abs_le.mp (sum_abs_le _ L hL h)).1
  simp only [V3.norm2, V3.dot, V3.add] at *
  nlinarith [mul_le_mul_of_nonneg_left h1 he, sq_nonneg e]

/-- A list in lexicographic order is recognised as sorted. -/
theorem sortedFlag_lex : ∀ pts : List (V3 Rat), LexSorted pts → sortedFlag pts = true
  | [], _ => rfl
  | [_], _ => rfl
  | a :: b :: t, h => by
    have h01 : lexLt a b := h 0 1 (by omega) (by simp)
    have ht : LexSorted (b :: t) := fun i j hij hj => h (i + 1) (j + 1) (by omega) (by simpa using hj)
    unfold sortedFlag
    rw [sortedFlag_lex (b :: t) ht, Bool.and_true]
    unfold lexLt at h01
    unfold notIncreasing
    simp only [Bool.not_eq_true', Bool.and_eq_false_iff, decide_eq_false_iff_not, not_le]
    tauto

end Verif.Model
