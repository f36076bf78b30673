import Verif.Proofs.SumRule

/-!
C88, C89: acoustic sum rules on force constants and Born charges.
-/

namespace Verif.Props

open Verif.Model Verif.Spec

variable {A n1 n2 n3 : Nat}

/-- C88 (rule "simple", in any mixture of upper and lower case): the result is
translation invariant and neutral.  The only force constants that change are the
on-site ones, each by the total of its row, and the charges of all atoms are shifted
by the same amount. -/
theorem C88_simple [NeZero n1] [NeZero n2] [NeZero n3] (rule : String)
    (hr : rule.toList.map Char.toLower = "simple".toList) (z : ZVec A) (f : FcVec A n1 n2 n3) :
    ∃ z' f', setAcousticSumRule rule z f = .ok (z', f') ∧
      TranslationInvariant f' ∧ Neutral z' ∧
      (∀ i j na, f' (0, 0, 0, i, j, na, na) = f (0, 0, 0, i, j, na, na) - rowSum f i j na) ∧
      (∀ m1 m2 m3 i j na nb, ¬ (m1 = 0 ∧ m2 = 0 ∧ m3 = 0 ∧ na = nb) →
        f' (m1, m2, m3, i, j, na, nb) = f (m1, m2, m3, i, j, na, nb)) ∧
      (∀ na nb i j, z' na i j - z na i j = z' nb i j - z nb i j) := by
  refine ⟨simpleCharges z, simpleForces f, ?_, simpleForces_sum f, simpleCharges_neutral z,
    simpleForces_apply f, ?_, ?_⟩
  · simp [setAcousticSumRule, hr]
  · intro m1 m2 m3 i j na nb h
    exact fold_offsite _ f _ h
  · intro na nb i j
    simp only [simpleCharges]; ring

/-- The hypothesis on the name is met by names in any case. -/
example : "Simple".toList.map Char.toLower = "simple".toList := by decide

/-- C88 (charges): the rules "simple" and "crystal" give the same charges, which are
neutral. -/
theorem C88_charges [NeZero n1] [NeZero n2] [NeZero n3] (rule : String)
    (hr : rule.toList.map Char.toLower = "crystal".toList) (z : ZVec A) (f : FcVec A n1 n2 n3) :
    ∃ z' f', setAcousticSumRule rule z f = .ok (z', f') ∧ Neutral z' ∧
      ∃ f'', setAcousticSumRule "simple" z f = .ok (z', f'') := by
  refine ⟨crystalCharges z, crystalForces f, ?_, ?_, simpleForces f, ?_⟩
  · simp [setAcousticSumRule, hr]
  · rw [crystalCharges_eq]; exact simpleCharges_neutral z
  · rw [crystalCharges_eq]
    have : "simple".toList.map Char.toLower = "simple".toList := by decide
    simp [setAcousticSumRule]

example : "Crystal".toList.map Char.toLower = "crystal".toList := by decide

/-- C88 (names): without a rule nothing changes; an unknown rule stops the program. -/
theorem C88_names [NeZero n1] [NeZero n2] [NeZero n3] (z : ZVec A) (f : FcVec A n1 n2 n3) :
    setAcousticSumRule "" z f = .ok (z, f) ∧
    ∀ rule : String, rule ≠ "" → rule.toList.map Char.toLower ≠ "simple".toList →
      rule.toList.map Char.toLower ≠ "crystal".toList →
      setAcousticSumRule rule z f = .error := by
  constructor
  · simp [setAcousticSumRule]
  · intro rule h0 h1 h2
    have h0' : rule.toList.map Char.toLower ≠ [] := by
      intro h
      rw [List.map_eq_nil_iff] at h
      exact h0 (String.toList_eq_nil_iff.mp h)
    simp only [setAcousticSumRule]
    rw [if_neg h0', if_pos ⟨h1, h2⟩]

example : "none".toList.map Char.toLower ≠ "simple".toList ∧
    "none".toList.map Char.toLower ≠ "crystal".toList := by decide

/-- C88 (data that need no correction): with either rule, force constants that are
symmetric and translation invariant, and charges that are neutral, are returned
unchanged. -/
theorem C88_unchanged [NeZero n1] [NeZero n2] [NeZero n3] (rule : String)
    (hr : rule.toList.map Char.toLower = "simple".toList ∨
      rule.toList.map Char.toLower = "crystal".toList)
    (z : ZVec A) (f : FcVec A n1 n2 n3)
    (hs : Symmetric f) (ht : TranslationInvariant f) (hz : Neutral z) :
    setAcousticSumRule rule z f = .ok (z, f) := by
  have hz' : simpleCharges z = z := by
    funext na i j
    simp [simpleCharges, hz i j]
  rcases hr with hr | hr
  · have : simpleForces f = f := fold_fixed _ f ht
    simp [setAcousticSumRule, hr, hz', this]
  · simp [setAcousticSumRule, hr, crystalCharges_eq, hz', crystalForces_fixed f hs ht]

/-- The hypotheses are met by a non-trivial case: one atom, two cells along one
direction, a spring between neighbouring cells. -/
example : Symmetric (A := 1) (n1 := 2) (n2 := 1) (n3 := 1)
      (fun ix => if ix.2.2.2.1 = ix.2.2.2.2.1 then (if ix.1 = 0 then 1 else -1) else 0) ∧
    TranslationInvariant (A := 1) (n1 := 2) (n2 := 1) (n3 := 1)
      (fun ix => if ix.2.2.2.1 = ix.2.2.2.2.1 then (if ix.1 = 0 then 1 else -1) else 0) := by
  constructor
  · intro m1 m1' m2 m2' m3 m3' i j na nb h1 _ _
    have : m1' = m1 := by
      revert h1; revert m1 m1'; simp only [Opposite]; decide
    subst this
    by_cases h : i = j
    · simp [h]
    · have h' : ¬ j = i := fun e => h e.symm
      simp [h, h']
  · intro i j na
    simp only [rowSum, Fin.sum_univ_two, Finset.univ_unique, Finset.sum_singleton]
    by_cases h : i = j <;> simp [h]

/-- C88 (rule "crystal"), the part that holds: the charges become neutral, and
data that satisfy the rule already are kept.  Missing: translation invariance of the
force constants for every input, which is false (`C88_violated_crystal`). -/
theorem C88_crystal_partial [NeZero n1] [NeZero n2] [NeZero n3] (z : ZVec A)
    (f : FcVec A n1 n2 n3) :
    ∃ z' f', setAcousticSumRule "crystal" z f = .ok (z', f') ∧ Neutral z' ∧
      (Symmetric f → TranslationInvariant f → f' = f ∧ TranslationInvariant f') := by
  have hr : "crystal".toList.map Char.toLower = "crystal".toList := by decide
  refine ⟨crystalCharges z, crystalForces f, ?_, ?_, ?_⟩
  · simp [setAcousticSumRule, hr]
  · rw [crystalCharges_eq]; exact simpleCharges_neutral z
  · intro hs ht
    rw [crystalForces_fixed f hs ht]
    exact ⟨rfl, ht⟩

/-- C88 is violated by the rule "crystal": for every crystal with one atom, and every
grid, the rule changes the sign of the off-diagonal sums instead of making them zero.
The vectors to orthogonalize are numbered with the atom as the slowest index, but
the orthogonalization decodes their number as if the atom were the fastest one, so
linearly dependent vectors are kept and their component is subtracted twice. -/
theorem C88_violated_crystal [NeZero n1] [NeZero n2] [NeZero n3] (z : ZVec 1)
    (f : FcVec 1 n1 n2 n3) (hs : Symmetric f) (i j : Fin 3) (hij : i ≠ j) :
    ∃ z' f', setAcousticSumRule "crystal" z f = .ok (z', f') ∧
      rowSum f' i j 0 = - rowSum f i j 0 := by
  have hr : "crystal".toList.map Char.toLower = "crystal".toList := by decide
  refine ⟨crystalCharges z, crystalForces f, ?_, ?_⟩
  · simp [setAcousticSumRule, hr]
  · rw [crystal_one_row, if_neg hij]
    have : rowSum f j i 0 = rowSum f i j 0 := by
      rw [← rowSum_mirror_one]
      congr 1
      exact funext ((symmetric_iff f).mp hs)
    rw [this]; ring

/-- The violation is not vacuous: symmetric force constants of one atom whose
off-diagonal sum is one, so that it becomes minus one. -/
theorem C88_violated_crystal_witness :
    ∃ f : FcVec 1 1 1 1, Symmetric f ∧ rowSum f 0 1 0 = 1 ∧
      ∀ z : ZVec 1, ∃ z' f', setAcousticSumRule "crystal" z f = .ok (z', f') ∧
        ¬ TranslationInvariant f' := by
  refine ⟨fun ix => if (ix.2.2.2.1 = 0 ∧ ix.2.2.2.2.1 = 1) ∨
    (ix.2.2.2.1 = 1 ∧ ix.2.2.2.2.1 = 0) then 1 else 0, ?_, ?_, ?_⟩
  · intro m1 m1' m2 m2' m3 m3' i j na nb _ _ _
    dsimp only
    exact if_congr ⟨fun h => h.elim (fun h => Or.inr ⟨h.2, h.1⟩) (fun h => Or.inl ⟨h.2, h.1⟩),
      fun h => h.elim (fun h => Or.inr ⟨h.2, h.1⟩) (fun h => Or.inl ⟨h.2, h.1⟩)⟩ rfl rfl
  · simp [rowSum]
  · intro z
    obtain ⟨z', f', h1, h2⟩ := C88_violated_crystal (n1 := 1) (n2 := 1) (n3 := 1) z
      (fun ix => if (ix.2.2.2.1 = 0 ∧ ix.2.2.2.2.1 = 1) ∨
        (ix.2.2.2.1 = 1 ∧ ix.2.2.2.2.1 = 0) then 1 else 0) (by
          intro m1 m1' m2 m2' m3 m3' i j na nb _ _ _
          dsimp only
          exact if_congr ⟨fun h => h.elim (fun h => Or.inr ⟨h.2, h.1⟩)
            (fun h => Or.inl ⟨h.2, h.1⟩), fun h => h.elim (fun h => Or.inr ⟨h.2, h.1⟩)
            (fun h => Or.inl ⟨h.2, h.1⟩)⟩ rfl rfl) 0 1 (by decide)
    refine ⟨z', f', h1, fun ht => ?_⟩
    have h3 := ht 0 1 0
    rw [h2] at h3
    simp [rowSum] at h3

/-- C89 (rule "crystal"): for every input the force constants become symmetric. -/
theorem C89_crystal [NeZero n1] [NeZero n2] [NeZero n3] (rule : String)
    (hr : rule.toList.map Char.toLower = "crystal".toList) (z : ZVec A) (f : FcVec A n1 n2 n3) :
    ∃ z' f', setAcousticSumRule rule z f = .ok (z', f') ∧ Symmetric f' := by
  refine ⟨crystalCharges z, crystalForces f, ?_, crystalForces_symmetric f⟩
  simp [setAcousticSumRule, hr]

example : "CRYSTAL".toList.map Char.toLower = "crystal".toList := by decide

/-- C89 (rule "simple"), the part that holds: symmetric force constants stay
symmetric if the sums of their rows are symmetric in the two directions.  Missing:
the general case, which is false (`C89_violated_simple`). -/
theorem C89_simple_partial [NeZero n1] [NeZero n2] [NeZero n3] (z : ZVec A)
    (f : FcVec A n1 n2 n3) (hs : Symmetric f)
    (hrow : ∀ i j na, rowSum f i j na = rowSum f j i na) :
    ∃ z' f', setAcousticSumRule "simple" z f = .ok (z', f') ∧ Symmetric f' := by
  obtain ⟨z', f', h, _, _, hon, hoff, _⟩ := C88_simple (n1 := n1) (n2 := n2) (n3 := n3)
    "simple" (by decide) z f
  refine ⟨z', f', h, ?_⟩
  intro m1 m1' m2 m2' m3 m3' i j na nb h1 h2 h3
  have z0 : ∀ {n : Nat} [NeZero n] {x y : Fin n}, Opposite x y → x = 0 → y = 0 := by
    intro n _ x y hxy hx
    subst hx
    simp only [Opposite, Fin.val_zero, Nat.zero_add] at hxy
    rw [Nat.mod_eq_of_lt y.2] at hxy
    exact Fin.ext (by simpa using hxy)
  have sw : ∀ {n : Nat} {x y : Fin n}, Opposite x y → Opposite y x := by
    intro n x y hxy
    simp only [Opposite] at *
    rwa [Nat.add_comm]
  by_cases hd : m1 = 0 ∧ m2 = 0 ∧ m3 = 0 ∧ na = nb
  · obtain ⟨rfl, rfl, rfl, rfl⟩ := hd
    rw [z0 h1 rfl, z0 h2 rfl, z0 h3 rfl, hon, hon, hrow i j na]
    have := hs 0 m1' 0 m2' 0 m3' i j na na h1 h2 h3
    rw [z0 h1 rfl, z0 h2 rfl, z0 h3 rfl] at this
    rw [this]
  · have hd' : ¬ (m1' = 0 ∧ m2' = 0 ∧ m3' = 0 ∧ nb = na) := by
      rintro ⟨a, b, c, d⟩
      exact hd ⟨z0 (sw h1) a, z0 (sw h2) b, z0 (sw h3) c, d.symm⟩
    rw [hoff _ _ _ _ _ _ _ hd, hoff _ _ _ _ _ _ _ hd']
    exact hs _ _ _ _ _ _ _ _ _ _ h1 h2 h3

/-- The hypotheses are met: isotropic force constants of two atoms. -/
example : ∃ f : FcVec 2 1 1 1, Symmetric f ∧ f (0, 0, 0, 0, 0, 0, 1) = 1 ∧
    ∀ i j na, rowSum f i j na = rowSum f j i na := by
  refine ⟨fun ix => if ix.2.2.2.1 = ix.2.2.2.2.1 then 1 else 0, ?_, by simp, ?_⟩
  · intro m1 m1' m2 m2' m3 m3' i j na nb _ _ _
    exact if_congr eq_comm rfl rfl
  · intro i j na
    simp only [rowSum]
    have : (if i = j then (1 : ℝ) else 0) = if j = i then 1 else 0 := if_congr eq_comm rfl rfl
    simp only [this]

/-- C89 is violated by the rule "simple": two atoms coupled by a force constant that
is not symmetric in the two directions give, after the rule, an on-site matrix that is
not symmetric. -/
theorem C89_violated_simple :
    ∃ f : FcVec 2 1 1 1, Symmetric f ∧ ∀ z : ZVec 2, ∃ z' f',
      setAcousticSumRule "simple" z f = .ok (z', f') ∧ ¬ Symmetric f' := by
  refine ⟨fun ix => if (ix.2.2.2.1 = 0 ∧ ix.2.2.2.2.1 = 1 ∧ ix.2.2.2.2.2.1 = 0 ∧
      ix.2.2.2.2.2.2 = 1) ∨ (ix.2.2.2.1 = 1 ∧ ix.2.2.2.2.1 = 0 ∧ ix.2.2.2.2.2.1 = 1 ∧
      ix.2.2.2.2.2.2 = 0) then 1 else 0, ?_, ?_⟩
  · intro m1 m1' m2 m2' m3 m3' i j na nb _ _ _
    dsimp only
    exact if_congr ⟨fun h => h.elim (fun h => Or.inr ⟨h.2.1, h.1, h.2.2.2, h.2.2.1⟩)
      (fun h => Or.inl ⟨h.2.1, h.1, h.2.2.2, h.2.2.1⟩),
      fun h => h.elim (fun h => Or.inr ⟨h.2.1, h.1, h.2.2.2, h.2.2.1⟩)
      (fun h => Or.inl ⟨h.2.1, h.1, h.2.2.2, h.2.2.1⟩)⟩ rfl rfl
  · intro z
    obtain ⟨z', f', h, _, _, hon, _, _⟩ := C88_simple (n1 := 1) (n2 := 1) (n3 := 1)
      "simple" (by decide) z (fun ix => if (ix.2.2.2.1 = 0 ∧ ix.2.2.2.2.1 = 1 ∧
      ix.2.2.2.2.2.1 = 0 ∧ ix.2.2.2.2.2.2 = 1) ∨ (ix.2.2.2.1 = 1 ∧ ix.2.2.2.2.1 = 0 ∧
      ix.2.2.2.2.2.1 = 1 ∧ ix.2.2.2.2.2.2 = 0) then 1 else 0)
    refine ⟨z', f', h, fun hs => ?_⟩
    have e := hs 0 0 0 0 0 0 0 1 0 0 (by simp [Opposite]) (by simp [Opposite])
      (by simp [Opposite])
    rw [hon, hon] at e
    simp [rowSum, Fin.sum_univ_two] at e

end Verif.Props
