import Verif.Model.SumRule
import Verif.Spec.SumRule
import Mathlib.Tactic.Ring
import Mathlib.Tactic.FieldSimp
import Mathlib.Tactic.Linarith
import Mathlib.Tactic.IntervalCases
import Mathlib.Algebra.BigOperators.Field

namespace Verif.Model

open Verif.Spec

variable {A n1 n2 n3 : Nat}

/-! ### Rule "simple" -/

theorem simpleCharges_neutral (z : ZVec A) : Neutral (simpleCharges z) := by
  intro i j
  by_cases hA : A = 0
  · subst hA; simp
  · have : (A : ℝ) ≠ 0 := by exact_mod_cast hA
    simp only [simpleCharges, Finset.sum_sub_distrib, Finset.sum_const, Finset.card_univ,
      Fintype.card_fin, nsmul_eq_mul]
    field_simp
    ring

theorem rowSum_step [NeZero n1] [NeZero n2] [NeZero n3] (f : FcVec A n1 n2 n3)
    (r : Fin 3 × Fin 3 × Fin A) (i j : Fin 3) (na : Fin A) :
    rowSum (simpleForcesStep f r) i j na = if (i, j, na) = r then 0 else rowSum f i j na := by
  obtain ⟨ri, rj, ra⟩ := r
  have key : simpleForcesStep f (ri, rj, ra) =
      fun ix => f ix - if ix = (0, 0, 0, ri, rj, ra, ra) then rowSum f ri rj ra else 0 := by
    funext ix
    simp only [simpleForcesStep, Function.update_apply, rowSum]
    split_ifs with h
    · rw [h]
    · ring
  rw [key]
  by_cases h : (i, j, na) = (ri, rj, ra)
  · rw [if_pos h]
    simp only [Prod.mk.injEq] at h
    obtain ⟨rfl, rfl, rfl⟩ := h
    conv_lhs => unfold rowSum
    simp only [Prod.mk.injEq, Finset.sum_sub_distrib, true_and, ite_and]
    simp
  · rw [if_neg h]
    unfold rowSum
    refine Finset.sum_congr rfl fun nb _ => Finset.sum_congr rfl fun m1 _ =>
      Finset.sum_congr rfl fun m2 _ => Finset.sum_congr rfl fun m3 _ => ?_
    beta_reduce
    rw [if_neg, sub_zero]
    simp only [Prod.mk.injEq] at h ⊢
    tauto

theorem fcRows_mem (r : Fin 3 × Fin 3 × Fin A) : r ∈ fcRows A := by
  obtain ⟨i, j, na⟩ := r
  simp [fcRows]

theorem fold_rowSum [NeZero n1] [NeZero n2] [NeZero n3] (l : List (Fin 3 × Fin 3 × Fin A))
    (f : FcVec A n1 n2 n3) (i j : Fin 3) (na : Fin A) :
    rowSum (l.foldl simpleForcesStep f) i j na =
      if (i, j, na) ∈ l then 0 else rowSum f i j na := by
  induction l generalizing f with
  | nil => simp
  | cons r l ih =>
    rw [List.foldl_cons, ih, rowSum_step]
    by_cases h1 : (i, j, na) ∈ l <;> by_cases h2 : (i, j, na) = r <;> simp [h1, h2]

theorem simpleForces_sum [NeZero n1] [NeZero n2] [NeZero n3] (f : FcVec A n1 n2 n3) :
    TranslationInvariant (simpleForces f) := by
  intro i j na
  rw [simpleForces, fold_rowSum, if_pos (fcRows_mem _)]

/-- Elements that are not on site are never written. -/
theorem fold_offsite [NeZero n1] [NeZero n2] [NeZero n3] (l : List (Fin 3 × Fin 3 × Fin A))
    (f : FcVec A n1 n2 n3) (ix : FcIx A n1 n2 n3)
    (h : ¬ (ix.1 = 0 ∧ ix.2.1 = 0 ∧ ix.2.2.1 = 0 ∧ ix.2.2.2.2.2.1 = ix.2.2.2.2.2.2)) :
    l.foldl simpleForcesStep f ix = f ix := by
  induction l generalizing f with
  | nil => rfl
  | cons r l ih =>
    rw [List.foldl_cons, ih]
    simp only [simpleForcesStep]
    rw [Function.update_of_ne]
    rintro rfl
    exact h ⟨rfl, rfl, rfl, rfl⟩

theorem fold_fixed [NeZero n1] [NeZero n2] [NeZero n3] (l : List (Fin 3 × Fin 3 × Fin A))
    (f : FcVec A n1 n2 n3) (h : TranslationInvariant f) :
    l.foldl simpleForcesStep f = f := by
  induction l with
  | nil => rfl
  | cons r l ih =>
    have : simpleForcesStep f r = f := by
      have hr := h r.1 r.2.1 r.2.2
      unfold rowSum at hr
      simp only [simpleForcesStep]
      rw [hr, sub_zero, Function.update_eq_self]
    rw [List.foldl_cons, this, ih]

theorem simpleForces_apply [NeZero n1] [NeZero n2] [NeZero n3] (f : FcVec A n1 n2 n3)
    (i j : Fin 3) (na : Fin A) :
    simpleForces f (0, 0, 0, i, j, na, na) = f (0, 0, 0, i, j, na, na) - rowSum f i j na := by
  have h0 := simpleForces_sum f i j na
  have hoff := fun ix h => fold_offsite (fcRows A) f ix h
  obtain ⟨d, hd0⟩ : ∃ d, d = simpleForces f (0, 0, 0, i, j, na, na) -
    f (0, 0, 0, i, j, na, na) := ⟨_, rfl⟩
  have hd : rowSum (simpleForces f) i j na = rowSum f i j na + d := by
    have e : ∀ (nb : Fin A) (m1 : Fin n1) (m2 : Fin n2) (m3 : Fin n3),
        simpleForces f (m1, m2, m3, i, j, na, nb) = f (m1, m2, m3, i, j, na, nb) +
          if nb = na then (if m1 = 0 then (if m2 = 0 then (if m3 = 0 then d else 0)
              else 0) else 0) else 0 := by
      intro nb m1 m2 m3
      by_cases h : m1 = 0 ∧ m2 = 0 ∧ m3 = 0 ∧ na = nb
      · obtain ⟨rfl, rfl, rfl, rfl⟩ := h
        simp [hd0]
      · have := hoff (m1, m2, m3, i, j, na, nb) h
        have e2 : simpleForces f (m1, m2, m3, i, j, na, nb) = f (m1, m2, m3, i, j, na, nb) := this
        rw [e2]
        split_ifs with a b c d
        · exact absurd ⟨b, c, d, a.symm⟩ h
        all_goals rw [add_zero]
    conv_lhs => unfold rowSum
    simp only [e, Finset.sum_add_distrib]
    simp [rowSum]
  rw [h0] at hd
  linarith

/-! ### Rule "crystal": charges -/

/-- The nine vectors as a function of the two directions. -/
noncomputable def zeuE (A : Nat) (r : Fin 3 × Fin 3) : ZeuVec A :=
  fun ix => if ix.1 = r.1 ∧ ix.2.1 = r.2 then 1 else 0

/-- The two directions in the order of the loops. -/
def zeuLabels : List (Fin 3 × Fin 3) :=
  (List.finRange 3).flatMap fun i => (List.finRange 3).map fun j => (i, j)

theorem zeuU_eq (A : Nat) : zeuU A = zeuLabels.map (zeuE A) := by
  simp only [zeuU, zeuLabels, List.map_flatMap, List.map_map]
  rfl

theorem spZeu_E (r r' : Fin 3 × Fin 3) (c c' : ℝ) :
    spZeu (A := A) (fun ix => zeuE A r ix * c) (fun ix => zeuE A r' ix * c') =
      if r = r' then (A : ℝ) * (c * c') else 0 := by
  obtain ⟨a, b⟩ := r
  obtain ⟨a', b'⟩ := r'
  simp only [spZeu, zeuE, Fintype.sum_prod_type]
  by_cases h : (a, b) = (a', b')
  · rw [if_pos h]
    simp only [Prod.mk.injEq] at h
    obtain ⟨rfl, rfl⟩ := h
    rw [Finset.sum_eq_single a, Finset.sum_eq_single b]
    · simp
    · intro x _ hx; simp [hx]
    · simp
    · intro x _ hx; simp [hx]
    · simp
  · rw [if_neg h]
    refine Finset.sum_eq_zero fun x _ => Finset.sum_eq_zero fun y _ =>
      Finset.sum_eq_zero fun z _ => ?_
    by_cases h1 : x = a ∧ y = b
    · obtain ⟨rfl, rfl⟩ := h1
      simp only [Prod.mk.injEq] at h
      simp [h]
    · simp [h1]

/-- The normalized vector of a label. -/
noncomputable def zeuN (A : Nat) (r : Fin 3 × Fin 3) : ZeuVec A × Bool :=
  (fun ix => zeuE A r ix * (1 / Real.sqrt A), false)

theorem zeu_fold_aux (hA : 0 < A) : ∀ (l done : List (Fin 3 × Fin 3)), (done ++ l).Nodup →
    (l.map (zeuE A)).foldl zeuStep (done.map (zeuN A)) = (done ++ l).map (zeuN A) := by
  intro l
  induction l with
  | nil => intro done _; simp
  | cons r l ih =>
    intro done hnd
    have hstep : zeuStep (done.map (zeuN A)) (zeuE A r) = (done ++ [r]).map (zeuN A) := by
      have hr : r ∉ done := by
        rw [List.nodup_append] at hnd
        intro hr
        exact hnd.2.2 r hr r (by simp) rfl
      have hw : ∀ (l' : List (Fin 3 × Fin 3)) (w : ZeuVec A), (∀ q ∈ l', q ≠ r) →
          (l'.map (zeuN A)).foldl
            (fun w q => if q.2 then w else w - spZeu (zeuE A r) q.1 • q.1) w = w := by
        intro l'
        induction l' with
        | nil => intro w _; rfl
        | cons q l' ih' =>
          intro w hq
          have h0 : spZeu (zeuE A r) (zeuN A q).1 = 0 := by
            have := spZeu_E (A := A) r q 1 (1 / Real.sqrt A)
            simp only [mul_one, one_mul] at this
            rw [if_neg (fun h => hq q (by simp) h.symm)] at this
            exact this
          rw [List.map_cons, List.foldl_cons]
          have : (if (zeuN A q).2 then w else
              w - spZeu (zeuE A r) (zeuN A q).1 • (zeuN A q).1) = w := by
            rw [h0, zero_smul, sub_zero]; simp
          rw [this]
          exact ih' w (fun x hx => hq x (by simp [hx]))
      have htake : ((done.map (zeuN A)).take ((done.map (zeuN A)).length - 1)) =
          (done.take (done.length - 1)).map (zeuN A) := by
        rw [List.map_take, List.length_map]
      have hn : spZeu (zeuE A r) (zeuE A r) = A := by
        have := spZeu_E (A := A) r r 1 1
        simpa using this
      have hA1 : (1 : ℝ) ≤ A := by exact_mod_cast hA
      simp only [zeuStep]
      rw [htake, hw _ _ (fun q hq h => hr (h ▸ List.mem_of_mem_take hq)), hn,
        if_pos (by norm_num; linarith)]
      rw [List.map_append, List.map_singleton]
      refine congrArg _ (congrArg (fun x => [x]) ?_)
      simp only [zeuN, div_eq_mul_inv, one_mul]
    rw [List.map_cons, List.foldl_cons, hstep, ih (done ++ [r]) (by simpa using hnd)]
    simp

theorem zeuLabels_nodup : zeuLabels.Nodup := by decide

theorem zeuLabels_mem (r : Fin 3 × Fin 3) : r ∈ zeuLabels := by
  revert r; decide

theorem zeu_proj (z : ZeuVec A) (l : List (Fin 3 × Fin 3)) (hnd : l.Nodup) (w : ZeuVec A)
    (ix : Fin 3 × Fin 3 × Fin A) :
    (l.map (zeuN A)).foldl (fun w q => if q.2 then w else w + spZeu q.1 z • q.1) w ix =
      w ix + if (ix.1, ix.2.1) ∈ l then (∑ na, z (ix.1, ix.2.1, na)) / A else 0 := by
  induction l generalizing w with
  | nil => simp
  | cons r l ih =>
    rw [List.map_cons, List.foldl_cons, ih (List.nodup_cons.mp hnd).2]
    have hr := (List.nodup_cons.mp hnd).1
    have hsp : spZeu (zeuN A r).1 z = (∑ na, z (r.1, r.2, na)) * (1 / Real.sqrt A) := by
      simp only [spZeu, zeuN, zeuE, Fintype.sum_prod_type]
      rw [Finset.sum_eq_single r.1, Finset.sum_eq_single r.2]
      · simp only [and_self, if_true, one_mul, ← Finset.mul_sum]
        ring
      · intro x _ hx; simp [hx]
      · simp
      · intro x _ hx; simp [hx]
      · simp
    have hst : (if (zeuN A r).2 then w else w + spZeu (zeuN A r).1 z • (zeuN A r).1) ix =
        w ix + if (ix.1, ix.2.1) = r then (∑ na, z (ix.1, ix.2.1, na)) / A else 0 := by
      have e : (if (zeuN A r).2 then w else w + spZeu (zeuN A r).1 z • (zeuN A r).1) ix =
          w ix + spZeu (zeuN A r).1 z * (zeuE A r ix * (1 / Real.sqrt A)) := rfl
      rw [e, hsp]
      congr 1
      by_cases h : (ix.1, ix.2.1) = r
      · subst h
        have hs : (1 / Real.sqrt A) * (1 / Real.sqrt A) = 1 / (A : ℝ) := by
          rw [div_mul_div_comm, Real.mul_self_sqrt (by positivity), one_mul]
        simp only [zeuE, and_self, if_true, one_mul, mul_assoc, hs]
        ring
      · rw [if_neg h]
        have : ¬ (ix.1 = r.1 ∧ ix.2.1 = r.2) := fun h' => h (Prod.ext h'.1 h'.2)
        simp [zeuE, this]
    rw [hst]
    by_cases h1 : (ix.1, ix.2.1) = r
    · have h2 : (ix.1, ix.2.1) ∉ l := by rw [h1]; exact hr
      simp only [h1, if_true, List.mem_cons, true_or] at *
      rw [if_neg h2]; ring
    · simp [h1]

theorem crystalCharges_eq (z : ZVec A) : crystalCharges z = simpleCharges z := by
  by_cases hA : A = 0
  · subst hA; funext na; exact na.elim0
  funext na i j
  have hfold := zeu_fold_aux (Nat.pos_of_ne_zero hA) zeuLabels [] (by simpa using zeuLabels_nodup)
  simp only [List.map_nil, List.nil_append] at hfold
  simp only [crystalCharges, simpleCharges]
  rw [zeuU_eq, hfold, Pi.sub_apply, zeu_proj _ _ zeuLabels_nodup, if_pos (zeuLabels_mem _)]
  simp

/-! ### Rule "crystal": symmetry constraints -/

theorem oppositeCell_opposite {n : Nat} (x : Fin n) : Opposite x (oppositeCell x) := by
  simp only [Opposite, oppositeCell]
  rw [Nat.add_mod_mod]
  have : x.1 + (n - x.1) = n := by omega
  rw [this, Nat.mod_self]

theorem oppositeCell_unique {n : Nat} {x y : Fin n} (h : Opposite x y) : y = oppositeCell x := by
  apply Fin.ext
  simp only [Opposite] at h
  simp only [oppositeCell]
  obtain ⟨c, hc⟩ := Nat.dvd_of_mod_eq_zero h
  have hx := x.2
  have hy := y.2
  have hc2 : c < 2 := by
    by_contra h2
    have : n * 2 ≤ n * c := Nat.mul_le_mul_left _ (by omega)
    omega
  interval_cases c
  · have hx0 : x.1 = 0 := by omega
    have hy0 : y.1 = 0 := by omega
    rw [hx0, hy0, Nat.sub_zero, Nat.mod_self]
  · have : n - x.1 = y.1 := by omega
    rw [this, Nat.mod_eq_of_lt hy]

theorem oppositeCell_oppositeCell {n : Nat} (x : Fin n) : oppositeCell (oppositeCell x) = x := by
  have h := oppositeCell_opposite x
  have h' : Opposite (oppositeCell x) x := by
    simp only [Opposite] at *
    rwa [Nat.add_comm]
  exact (oppositeCell_unique h').symm

theorem mirror_mirror (ix : FcIx A n1 n2 n3) : mirror (mirror ix) = ix := by
  simp only [mirror, oppositeCell_oppositeCell]

theorem symmetric_iff (f : FcVec A n1 n2 n3) : Symmetric f ↔ ∀ ix, f (mirror ix) = f ix := by
  constructor
  · rintro h ⟨m1, m2, m3, i, j, na, nb⟩
    exact (h m1 _ m2 _ m3 _ i j na nb (oppositeCell_opposite _) (oppositeCell_opposite _)
      (oppositeCell_opposite _)).symm
  · intro h m1 m1' m2 m2' m3 m3' i j na nb h1 h2 h3
    rw [oppositeCell_unique h1, oppositeCell_unique h2, oppositeCell_unique h3]
    exact (h (m1, m2, m3, i, j, na, nb)).symm

theorem fcOrder_mem (ix : FcIx A n1 n2 n3) : ix ∈ fcOrder A n1 n2 n3 := by
  obtain ⟨m1, m2, m3, i, j, na, nb⟩ := ix
  simp [fcOrder]

/-- Both columns of the list of pairs. -/
def flat (l : List (FcIx A n1 n2 n3 × FcIx A n1 n2 n3)) : List (FcIx A n1 n2 n3) :=
  l.flatMap fun p => [p.1, p.2]

theorem self_mirror_iff (ix : FcIx A n1 n2 n3) :
    (ix.1 = oppositeCell ix.1 ∧ ix.2.1 = oppositeCell ix.2.1 ∧
      ix.2.2.1 = oppositeCell ix.2.2.1 ∧ ix.2.2.2.1 = ix.2.2.2.2.1 ∧
      ix.2.2.2.2.2.1 = ix.2.2.2.2.2.2) ↔ mirror ix = ix := by
  obtain ⟨m1, m2, m3, i, j, na, nb⟩ := ix
  simp only [mirror, Prod.mk.injEq]
  constructor
  · rintro ⟨h1, h2, h3, h4, h5⟩
    exact ⟨h1.symm, h2.symm, h3.symm, h4.symm, h4, h5.symm, h5⟩
  · rintro ⟨h1, h2, h3, h4, h5, h6, h7⟩
    exact ⟨h1.symm, h2.symm, h3.symm, h5, h7⟩

/-- Invariant of the construction of the pairs. -/
structure PairsInv (l : List (FcIx A n1 n2 n3 × FcIx A n1 n2 n3))
    (seen : List (FcIx A n1 n2 n3)) : Prop where
  snd : ∀ p ∈ l, p.2 = mirror p.1
  nodup : (flat l).Nodup
  cover : ∀ ix ∈ seen, mirror ix = ix ∨ ix ∈ flat l
  ne : ∀ ix ∈ flat l, mirror ix ≠ ix

theorem mem_flat {l : List (FcIx A n1 n2 n3 × FcIx A n1 n2 n3)} {ix : FcIx A n1 n2 n3} :
    ix ∈ flat l ↔ ∃ p ∈ l, p.1 = ix ∨ p.2 = ix := by
  simp only [flat, List.mem_flatMap, List.mem_cons, List.not_mem_nil, or_false]
  constructor <;> rintro ⟨p, hp, h⟩ <;> exact ⟨p, hp, h.imp Eq.symm Eq.symm⟩

theorem flat_append (l l' : List (FcIx A n1 n2 n3 × FcIx A n1 n2 n3)) :
    flat (l ++ l') = flat l ++ flat l' := by simp [flat]

theorem mirror_mem_flat {l : List (FcIx A n1 n2 n3 × FcIx A n1 n2 n3)}
    (h : ∀ p ∈ l, p.2 = mirror p.1) {ix : FcIx A n1 n2 n3} (hix : ix ∈ flat l) :
    mirror ix ∈ flat l := by
  rw [mem_flat] at hix ⊢
  obtain ⟨p, hp, h1 | h1⟩ := hix
  · exact ⟨p, hp, Or.inr (by rw [h p hp, h1])⟩
  · exact ⟨p, hp, Or.inl (by rw [← h1, h p hp, mirror_mirror])⟩

theorem symStep_inv {l : List (FcIx A n1 n2 n3 × FcIx A n1 n2 n3)}
    {seen : List (FcIx A n1 n2 n3)} (h : PairsInv l seen) (ix : FcIx A n1 n2 n3) :
    PairsInv (symStep l ix) (seen ++ [ix]) := by
  unfold symStep
  split_ifs with h1 h2
  · refine ⟨h.snd, h.nodup, ?_, h.ne⟩
    intro y hy
    rcases List.mem_append.mp hy with hy | hy
    · exact h.cover y hy
    · rw [List.mem_singleton] at hy
      subst hy
      refine Or.inr ?_
      rw [mem_flat]
      simpa [List.any_eq_true] using h1
  · refine ⟨h.snd, h.nodup, ?_, h.ne⟩
    intro y hy
    rcases List.mem_append.mp hy with hy | hy
    · exact h.cover y hy
    · rw [List.mem_singleton] at hy
      subst hy
      exact Or.inl ((self_mirror_iff y).mp h2)
  · have hne : mirror ix ≠ ix := fun e => h2 ((self_mirror_iff ix).mpr e)
    have hnot : ix ∉ flat l := by
      rw [mem_flat]
      simpa [List.any_eq_true] using h1
    have hnot' : mirror ix ∉ flat l := fun hm => hnot (by
      have := mirror_mem_flat h.snd hm
      rwa [mirror_mirror] at this)
    have hfl : flat (l ++ [(ix, mirror ix)]) = flat l ++ [ix, mirror ix] := by
      rw [flat_append]; rfl
    refine ⟨?_, ?_, ?_, ?_⟩
    · intro p hp
      rcases List.mem_append.mp hp with hp | hp
      · exact h.snd p hp
      · rw [List.mem_singleton] at hp; subst hp; rfl
    · rw [hfl, List.nodup_append]
      refine ⟨h.nodup, by simp [hne.symm], ?_⟩
      intro a ha b hb
      simp only [List.mem_cons, List.not_mem_nil, or_false] at hb
      rintro rfl
      rcases hb with rfl | rfl
      · exact hnot ha
      · exact hnot' ha
    · intro y hy
      rw [hfl]
      rcases List.mem_append.mp hy with hy | hy
      · exact (h.cover y hy).imp id fun h => by simp [h]
      · rw [List.mem_singleton] at hy
        subst hy
        exact Or.inr (by simp)
    · intro y hy
      rw [hfl] at hy
      rcases List.mem_append.mp hy with hy | hy
      · exact h.ne y hy
      · simp only [List.mem_cons, List.not_mem_nil, or_false] at hy
        rcases hy with rfl | rfl
        · exact hne
        · rw [mirror_mirror]; exact hne.symm

theorem symFold_inv (xs : List (FcIx A n1 n2 n3)) :
    ∀ {l : List (FcIx A n1 n2 n3 × FcIx A n1 n2 n3)} {seen : List (FcIx A n1 n2 n3)},
      PairsInv l seen → PairsInv (xs.foldl symStep l) (seen ++ xs) := by
  induction xs with
  | nil => intro l seen h; simpa using h
  | cons x xs ih =>
    intro l seen h
    have := ih (symStep_inv h x)
    simpa using this

theorem symPairs_inv : PairsInv (symPairs A n1 n2 n3) (fcOrder A n1 n2 n3) := by
  have := symFold_inv (fcOrder A n1 n2 n3)
    (l := ([] : List (FcIx A n1 n2 n3 × FcIx A n1 n2 n3))) (seen := [])
    ⟨by simp, by simp [flat], by simp, by simp [flat]⟩
  rwa [List.nil_append] at this

theorem inv_sqrt_two_sq : (1 / Real.sqrt 2) * (1 / Real.sqrt 2) = 1 / 2 := by
  rw [div_mul_div_comm, Real.mul_self_sqrt (by norm_num), one_mul]

theorem symProject_aux : ∀ (l : List (FcIx A n1 n2 n3 × FcIx A n1 n2 n3)),
    (∀ p ∈ l, p.2 = mirror p.1) → (flat l).Nodup → ∀ (w : FcVec A n1 n2 n3) ix,
    symProject l w ix = if ix ∈ flat l then (w ix + w (mirror ix)) / 2 else w ix := by
  intro l
  induction l with
  | nil => intro _ _ w ix; simp [symProject, flat]
  | cons p l ih =>
    intro hs hn w ix
    have hfl : flat (p :: l) = p.1 :: p.2 :: flat l := rfl
    rw [hfl] at hn
    have hn1 := (List.nodup_cons.mp hn).1
    have hn2 := (List.nodup_cons.mp (List.nodup_cons.mp hn).2).1
    have hn3 := (List.nodup_cons.mp (List.nodup_cons.mp hn).2).2
    have hs' : ∀ q ∈ l, q.2 = mirror q.1 := fun q hq => hs q (by simp [hq])
    have hp : p.2 = mirror p.1 := hs p (by simp)
    have hne : p.1 ≠ p.2 := fun e => hn1 (by simp [e])
    have e := inv_sqrt_two_sq
    have hstep : ∀ y, symSubtract w p (symScalar w p) y =
        if y = p.1 ∨ y = p.2 then (w p.1 + w p.2) / 2 else w y := by
      intro y
      simp only [symSubtract, symScalar]
      by_cases h2 : y = p.2
      · subst h2
        rw [Function.update_self, Function.update_of_ne hne.symm, if_pos (Or.inr rfl)]
        have : (w p.1 * (1 / Real.sqrt 2) + w p.2 * (-1 / Real.sqrt 2)) * (-1 / Real.sqrt 2) =
            (w p.2 - w p.1) * ((1 / Real.sqrt 2) * (1 / Real.sqrt 2)) := by ring
        rw [this, e]; ring
      · rw [Function.update_of_ne h2]
        by_cases h1 : y = p.1
        · subst h1
          rw [Function.update_self, if_pos (Or.inl rfl)]
          have : (w p.1 * (1 / Real.sqrt 2) + w p.2 * (-1 / Real.sqrt 2)) * (1 / Real.sqrt 2) =
              (w p.1 - w p.2) * ((1 / Real.sqrt 2) * (1 / Real.sqrt 2)) := by ring
          rw [this, e]; ring
        · rw [Function.update_of_ne h1, if_neg (by tauto)]
    have hunf : symProject (p :: l) w ix = symProject l (symSubtract w p (symScalar w p)) ix := rfl
    rw [hunf, ih hs' hn3, hfl]
    by_cases hl : ix ∈ flat l
    · have hm := mirror_mem_flat hs' hl
      have a1 : ix ≠ p.1 := fun h => hn1 (by simp [← h, hl])
      have a2 : ix ≠ p.2 := fun h => hn2 (by simp [← h, hl])
      have b1 : mirror ix ≠ p.1 := fun h => hn1 (by simp [← h, hm])
      have b2 : mirror ix ≠ p.2 := fun h => hn2 (by simp [← h, hm])
      rw [if_pos hl, if_pos (by simp [hl]), hstep, hstep, if_neg (by tauto), if_neg (by tauto)]
    · rw [if_neg hl, hstep]
      by_cases h1 : ix = p.1
      · subst h1
        rw [if_pos (Or.inl rfl), if_pos (by simp), ← hp]
      · by_cases h2 : ix = p.2
        · subst h2
          rw [if_pos (Or.inr rfl), if_pos (by simp)]
          have : mirror p.2 = p.1 := by rw [hp, mirror_mirror]
          rw [this]; ring
        · rw [if_neg (by tauto), if_neg (by simp [h1, h2, hl])]

theorem symProject_eq (w : FcVec A n1 n2 n3) :
    symProject (symPairs A n1 n2 n3) w = fun ix => (w ix + w (mirror ix)) / 2 := by
  funext ix
  have h := symPairs_inv (A := A) (n1 := n1) (n2 := n2) (n3 := n3)
  rw [symProject_aux _ h.snd h.nodup]
  split_ifs with hm
  · rfl
  · rcases h.cover ix (fcOrder_mem ix) with hc | hc
    · rw [hc]; ring
    · exact absurd hc hm

theorem symAdd_aux (f : FcVec A n1 n2 n3) : ∀ (l : List (FcIx A n1 n2 n3 × FcIx A n1 n2 n3)),
    (∀ p ∈ l, p.2 = mirror p.1) → (flat l).Nodup → ∀ (w : FcVec A n1 n2 n3) ix,
    l.foldl (fun w p => symSubtract w p (-(symScalar f p))) w ix =
      w ix + if ix ∈ flat l then (f ix - f (mirror ix)) / 2 else 0 := by
  intro l
  induction l with
  | nil => intro _ _ w ix; simp [flat]
  | cons p l ih =>
    intro hs hn w ix
    have hfl : flat (p :: l) = p.1 :: p.2 :: flat l := rfl
    rw [hfl] at hn
    have hn1 := (List.nodup_cons.mp hn).1
    have hn2 := (List.nodup_cons.mp (List.nodup_cons.mp hn).2).1
    have hn3 := (List.nodup_cons.mp (List.nodup_cons.mp hn).2).2
    have hs' : ∀ q ∈ l, q.2 = mirror q.1 := fun q hq => hs q (by simp [hq])
    have hp : p.2 = mirror p.1 := hs p (by simp)
    have hne : p.1 ≠ p.2 := fun e => hn1 (by simp [e])
    have e := inv_sqrt_two_sq
    have hm2 : mirror p.2 = p.1 := by rw [hp, mirror_mirror]
    have hstep : ∀ y, symSubtract w p (-(symScalar f p)) y =
        w y + if y = p.1 ∨ y = p.2 then (f y - f (mirror y)) / 2 else 0 := by
      intro y
      simp only [symSubtract, symScalar]
      by_cases h2 : y = p.2
      · subst h2
        rw [Function.update_self, Function.update_of_ne hne.symm, if_pos (Or.inr rfl), hm2]
        have : -(f p.1 * (1 / Real.sqrt 2) + f p.2 * (-1 / Real.sqrt 2)) * (-1 / Real.sqrt 2) =
            (f p.1 - f p.2) * ((1 / Real.sqrt 2) * (1 / Real.sqrt 2)) := by ring
        rw [this, e]; ring
      · rw [Function.update_of_ne h2]
        by_cases h1 : y = p.1
        · subst h1
          rw [Function.update_self, if_pos (Or.inl rfl), ← hp]
          have : -(f p.1 * (1 / Real.sqrt 2) + f p.2 * (-1 / Real.sqrt 2)) * (1 / Real.sqrt 2) =
              (f p.2 - f p.1) * ((1 / Real.sqrt 2) * (1 / Real.sqrt 2)) := by ring
          rw [this, e]; ring
        · rw [Function.update_of_ne h1, if_neg (by tauto), add_zero]
    rw [List.foldl_cons, ih hs' hn3, hfl, hstep]
    by_cases hl : ix ∈ flat l
    · have a1 : ix ≠ p.1 := fun h => hn1 (by simp [← h, hl])
      have a2 : ix ≠ p.2 := fun h => hn2 (by simp [← h, hl])
      rw [if_pos hl, if_neg (show ¬ (ix = p.1 ∨ ix = p.2) by tauto), add_zero,
        if_pos (by simp [hl])]
    · rw [if_neg hl, add_zero]
      by_cases h1 : ix = p.1 ∨ ix = p.2
      · rw [if_pos h1, if_pos (by rcases h1 with h | h <;> simp [h])]
      · rw [if_neg h1, if_neg]
        intro hc
        rcases List.mem_cons.mp hc with hc | hc
        · exact h1 (Or.inl hc)
        · rcases List.mem_cons.mp hc with hc | hc
          · exact h1 (Or.inr hc)
          · exact hl hc

theorem symAdd_eq (f : FcVec A n1 n2 n3) :
    (symPairs A n1 n2 n3).foldl (fun w p => symSubtract w p (-(symScalar f p))) 0 =
      fun ix => (f ix - f (mirror ix)) / 2 := by
  funext ix
  have h := symPairs_inv (A := A) (n1 := n1) (n2 := n2) (n3 := n3)
  rw [symAdd_aux f _ h.snd h.nodup, Pi.zero_apply, zero_add]
  split_ifs with hm
  · rfl
  · rcases h.cover ix (fcOrder_mem ix) with hc | hc
    · rw [hc]; ring
    · exact absurd hc hm

/-! ### Rule "crystal": translation vectors -/

theorem foldl_sub_pred {V : Type*} (P : V → Prop) (l : List V) (g : V → V → V)
    (hg : ∀ w u, u ∈ l → P w → P (g w u)) (w : V) (hw : P w) : P (l.foldl g w) := by
  induction l generalizing w with
  | nil => exact hw
  | cons u l ih =>
    exact ih (fun w u hu => hg w u (by simp [hu])) _ (hg w u (by simp) hw)

/-- Any property closed under linear combinations, which the symmetrized translation
vectors have, holds for the surviving vectors. -/
theorem fcBasis_pred (P : FcVec A n1 n2 n3 → Prop)
    (hx : ∀ r, P (fun ix => (transVec r ix + transVec r (mirror ix)) / 2))
    (hsub : ∀ w u (c : ℝ), P w → P u → P (w - c • u))
    (hdiv : ∀ w (c : ℝ), P w → P (fun ix => w ix / c)) :
    ∀ u ∈ fcBasis A n1 n2 n3, P u := by
  unfold fcBasis
  generalize (transLabels A).zipIdx 1 = ls
  suffices h : ∀ (ls : List ((Fin 3 × Fin 3 × Fin A) × Nat)) (kept : List (FcVec A n1 n2 n3)),
      (∀ u ∈ kept, P u) → ∀ u ∈ ls.foldl (fcStep (symPairs A n1 n2 n3)) kept, P u from
    h ls [] (by simp)
  intro ls
  induction ls with
  | nil => intro kept hk; exact hk
  | cons lk ls ih =>
    intro kept hk
    rw [List.foldl_cons]
    refine ih _ ?_
    have hw : P (kept.foldl (fun w u => w - rowScalar lk.2 (transVec lk.1) u • u)
        (symProject (symPairs A n1 n2 n3) (transVec lk.1))) := by
      refine foldl_sub_pred P kept _ (fun w u hu hw => hsub w u _ hw (hk u hu)) _ ?_
      rw [symProject_eq]
      exact hx lk.1
    simp only [fcStep]
    split_ifs
    · intro u hu
      rcases List.mem_append.mp hu with hu | hu
      · exact hk u hu
      · rw [List.mem_singleton] at hu
        subst hu
        exact hdiv _ _ hw
    · exact hk

theorem fcBasis_symmetric : ∀ u ∈ fcBasis A n1 n2 n3, ∀ ix, u (mirror ix) = u ix := by
  refine fcBasis_pred (fun u => ∀ ix, u (mirror ix) = u ix) ?_ ?_ ?_
  · intro r ix; beta_reduce; rw [mirror_mirror]; ring
  · intro w u c hw hu ix
    simp only [Pi.sub_apply, Pi.smul_apply, hw ix, hu ix]
  · intro w c hw ix
    simp only [hw ix]

theorem foldl_add_apply (l : List (FcVec A n1 n2 n3)) (c : FcVec A n1 n2 n3 → ℝ)
    (w : FcVec A n1 n2 n3) :
    l.foldl (fun w u => w + c u • u) w = w + (l.map fun u => c u • u).sum := by
  induction l generalizing w with
  | nil => simp
  | cons u l ih => rw [List.foldl_cons, ih, List.map_cons, List.sum_cons, add_assoc]

theorem crystalForces_eq (f : FcVec A n1 n2 n3) :
    crystalForces f = (fun ix => (f ix + f (mirror ix)) / 2) -
      ((fcBasis A n1 n2 n3).map fun u => (∑ ix, u ix * f ix) • u).sum := by
  simp only [crystalForces]
  rw [symAdd_eq, foldl_add_apply]
  funext ix
  simp only [Pi.sub_apply, Pi.add_apply]
  ring

theorem crystalForces_symmetric (f : FcVec A n1 n2 n3) : Symmetric (crystalForces f) := by
  rw [symmetric_iff]
  intro ix
  rw [crystalForces_eq, Pi.sub_apply, Pi.sub_apply]
  congr 1
  · simp only [mirror_mirror]; ring
  · have hb := fcBasis_symmetric (A := A) (n1 := n1) (n2 := n2) (n3 := n3)
    generalize fcBasis A n1 n2 n3 = l at hb
    induction l with
    | nil => rfl
    | cons u l ih =>
      rw [List.map_cons, List.sum_cons, Pi.add_apply, Pi.add_apply,
        ih (fun v hv => hb v (by simp [hv])), Pi.smul_apply, Pi.smul_apply, hb u (by simp) ix]

theorem sum_mirror (g : FcVec A n1 n2 n3) : ∑ ix, g (mirror ix) = ∑ ix, g ix :=
  Fintype.sum_bijective mirror
    (Function.Involutive.bijective (f := mirror (A := A) (n1 := n1) (n2 := n2) (n3 := n3))
      mirror_mirror) _ _ (fun _ => rfl)

theorem sum_trans (f : FcVec A n1 n2 n3) (r : Fin 3 × Fin 3 × Fin A) :
    ∑ ix, transVec r ix * f ix = rowSum f r.1 r.2.1 r.2.2 := by
  obtain ⟨i, j, na⟩ := r
  have e : ∀ ix : FcIx A n1 n2 n3, transVec (i, j, na) ix * f ix =
      if ix.2.2.2.1 = i then (if ix.2.2.2.2.1 = j then
        (if ix.2.2.2.2.2.1 = na then f ix else 0) else 0) else 0 := by
    intro ix
    simp only [transVec, ite_and]
    split_ifs <;> simp
  simp only [e, Fintype.sum_prod_type]
  have e2 : ∀ (m1 : Fin n1) (m2 : Fin n2) (m3 : Fin n3),
      (∑ x : Fin 3, ∑ y : Fin 3, ∑ z : Fin A, ∑ nb : Fin A,
        if x = i then (if y = j then (if z = na then f (m1, m2, m3, x, y, z, nb) else 0) else 0)
        else 0) = ∑ nb, f (m1, m2, m3, i, j, na, nb) := by
    intro m1 m2 m3
    rw [Finset.sum_eq_single i, Finset.sum_eq_single j, Finset.sum_eq_single na]
    · simp
    · intro z _ hz; simp [hz]
    · simp
    · intro z _ hz; simp [hz]
    · simp
    · intro z _ hz; simp [hz]
    · simp
  simp only [e2, rowSum]
  have s3 : ∀ (m1 : Fin n1) (m2 : Fin n2), (∑ m3, ∑ nb, f (m1, m2, m3, i, j, na, nb)) =
      ∑ nb, ∑ m3, f (m1, m2, m3, i, j, na, nb) := fun m1 m2 => Finset.sum_comm
  simp only [s3]
  have s2 : ∀ (m1 : Fin n1), (∑ m2, ∑ nb, ∑ m3, f (m1, m2, m3, i, j, na, nb)) =
      ∑ nb, ∑ m2, ∑ m3, f (m1, m2, m3, i, j, na, nb) := fun m1 => Finset.sum_comm
  simp only [s2]
  exact Finset.sum_comm

theorem sum_symTrans (f : FcVec A n1 n2 n3) (r : Fin 3 × Fin 3 × Fin A) :
    ∑ ix, ((transVec r ix + transVec r (mirror ix)) / 2) * f ix =
      (rowSum f r.1 r.2.1 r.2.2 + rowSum (fun ix => f (mirror ix)) r.1 r.2.1 r.2.2) / 2 := by
  rw [← sum_trans f r, ← sum_trans (fun ix => f (mirror ix)) r]
  have h := sum_mirror (fun ix => transVec r ix * f (mirror ix))
  simp only [mirror_mirror] at h
  rw [← h, ← Finset.sum_add_distrib, Finset.sum_div]
  refine Finset.sum_congr rfl fun ix _ => ?_
  ring

theorem crystalForces_fixed (f : FcVec A n1 n2 n3) (hs : Symmetric f)
    (ht : TranslationInvariant f) : crystalForces f = f := by
  rw [symmetric_iff] at hs
  have hb : ∀ u ∈ fcBasis A n1 n2 n3, ∑ ix, u ix * f ix = 0 := by
    refine fcBasis_pred (fun u => ∑ ix, u ix * f ix = 0) ?_ ?_ ?_
    · intro r
      rw [sum_symTrans]
      have : (fun ix => f (mirror ix)) = f := funext hs
      rw [this, ht r.1 r.2.1 r.2.2]; norm_num
    · intro w u c hw hu
      simp only [Pi.sub_apply, Pi.smul_apply, smul_eq_mul, sub_mul, Finset.sum_sub_distrib,
        mul_assoc, ← Finset.mul_sum, hw, hu, mul_zero, sub_zero]
    · intro w c hw
      simp only [div_mul_eq_mul_div, ← Finset.sum_div, hw, zero_div]
  rw [crystalForces_eq]
  have h0 : ((fcBasis A n1 n2 n3).map fun u => (∑ ix, u ix * f ix) • u).sum = 0 := by
    apply List.sum_eq_zero
    intro x hx
    obtain ⟨u, hu, rfl⟩ := List.mem_map.mp hx
    rw [hb u hu, zero_smul]
  rw [h0, sub_zero]
  funext ix
  rw [hs ix]; ring

/-! ### Rule "crystal" with a single atom -/

/-- Symmetrized translation vector of a one-atom crystal. -/
noncomputable def symT (n1 n2 n3 : Nat) (r : Fin 3 × Fin 3 × Fin 1) : FcVec 1 n1 n2 n3 :=
  fun ix => (transVec r ix + transVec r (mirror ix)) / 2

/-- Square of the norm of the symmetrized vector. -/
noncomputable def symN (n1 n2 n3 : Nat) (r : Fin 3 × Fin 3 × Fin 1) : ℝ :=
  ∑ ix, symT n1 n2 n3 r ix * symT n1 n2 n3 r ix

theorem rowSum_one (f : FcVec 1 n1 n2 n3) (i j : Fin 3) (na : Fin 1) :
    rowSum f i j na = ∑ m1, ∑ m2, ∑ m3, f (m1, m2, m3, i, j, 0, 0) := by
  have : na = 0 := Subsingleton.elim _ _
  subst this
  simp [rowSum]

theorem rowSum_symT (r : Fin 3 × Fin 3 × Fin 1) (i j : Fin 3) (na : Fin 1) :
    rowSum (symT n1 n2 n3 r) i j na = (n1 * n2 * n3 : ℝ) *
      (((if i = r.1 ∧ j = r.2.1 then 1 else 0) + (if j = r.1 ∧ i = r.2.1 then 1 else 0)) / 2) := by
  obtain ⟨a, b, c⟩ := r
  have : c = 0 := Subsingleton.elim _ _
  subst this
  simp only [rowSum_one, symT, transVec, mirror, and_true, Finset.sum_const, Finset.card_univ,
    Fintype.card_fin, nsmul_eq_mul]
  ring

theorem rowSum_mirror_one (f : FcVec 1 n1 n2 n3) (i j : Fin 3) (na : Fin 1) :
    rowSum (fun ix => f (mirror ix)) i j na = rowSum f j i na := by
  simp only [rowSum_one, mirror]
  have inv : ∀ n : Nat, Function.Bijective (oppositeCell (n := n)) := fun n =>
    Function.Involutive.bijective (f := oppositeCell (n := n)) oppositeCell_oppositeCell
  rw [Fintype.sum_bijective oppositeCell (inv n1) _ (fun m1 => ∑ m2, ∑ m3,
    f (m1, m2, m3, j, i, 0, 0))]
  intro m1
  rw [Fintype.sum_bijective oppositeCell (inv n2) _ (fun m2 => ∑ m3,
    f (oppositeCell m1, m2, m3, j, i, 0, 0))]
  intro m2
  rw [Fintype.sum_bijective oppositeCell (inv n3) _ (fun m3 =>
    f (oppositeCell m1, oppositeCell m2, m3, j, i, 0, 0))]
  intro m3
  rfl

theorem symN_eq (r : Fin 3 × Fin 3 × Fin 1) :
    symN n1 n2 n3 r = (n1 * n2 * n3 : ℝ) * (if r.1 = r.2.1 then 1 else 1 / 2) := by
  have h := sum_symTrans (symT n1 n2 n3 r) r
  have e : symN n1 n2 n3 r = ∑ ix, ((transVec r ix + transVec r (mirror ix)) / 2) *
      symT n1 n2 n3 r ix := rfl
  rw [e, h, rowSum_mirror_one, rowSum_symT, rowSum_symT]
  obtain ⟨a, b, c⟩ := r
  by_cases hab : a = b
  · subst hab; simp
  · have hba : ¬ b = a := fun h => hab h.symm
    simp [hab, hba]

theorem decode_one : ∀ lk ∈ (transLabels 1).zipIdx 1,
    decodeDir 1 lk.2 = lk.1.2.1.1 + 1 := by decide

theorem transLabels_one_nodup : (transLabels 1).Nodup := by decide

theorem rowScalar_one {lk : (Fin 3 × Fin 3 × Fin 1) × Nat}
    (hlk : lk ∈ (transLabels 1).zipIdx 1) {r : Fin 3 × Fin 3 × Fin 1} (hr : r ≠ lk.1) (c : ℝ) :
    rowScalar lk.2 (transVec lk.1) (fun ix => symT n1 n2 n3 r ix / c) = 0 := by
  have hd := decode_one lk hlk
  simp only [rowScalar]
  rw [hd]
  refine Finset.sum_eq_zero fun ix _ => ?_
  split_ifs with h
  · obtain ⟨m1, m2, m3, i, j, na, nb⟩ := ix
    obtain ⟨⟨a, b, u⟩, k⟩ := lk
    obtain ⟨a', b', u'⟩ := r
    have hu : u = 0 := Subsingleton.elim _ _
    have hu' : u' = 0 := Subsingleton.elim _ _
    have hna : na = 0 := Subsingleton.elim _ _
    have hnb : nb = 0 := Subsingleton.elim _ _
    subst hu; subst hu'; subst hna; subst hnb
    have hib : i = b := Fin.ext (by simpa using h.1)
    subst hib
    simp only [transVec, symT, mirror, and_true]
    by_cases h1 : i = a ∧ j = i
    · obtain ⟨rfl, rfl⟩ := h1
      have : ¬ (j = a' ∧ j = b') := by
        rintro ⟨rfl, rfl⟩
        exact hr rfl
      simp [this]
    · simp [h1]
  · rfl

theorem fcBasis_one [NeZero n1] [NeZero n2] [NeZero n3] :
    fcBasis 1 n1 n2 n3 = (transLabels 1).map fun r ix =>
      symT n1 n2 n3 r ix / Real.sqrt (symN n1 n2 n3 r) := by
  have key : ∀ (l done : List ((Fin 3 × Fin 3 × Fin 1) × Nat)),
      done ++ l = (transLabels 1).zipIdx 1 →
      l.foldl (fcStep (symPairs 1 n1 n2 n3))
        (done.map fun lk ix => symT n1 n2 n3 lk.1 ix / Real.sqrt (symN n1 n2 n3 lk.1)) =
      (done ++ l).map fun lk ix => symT n1 n2 n3 lk.1 ix / Real.sqrt (symN n1 n2 n3 lk.1) := by
    intro l
    induction l with
    | nil => intro done _; simp
    | cons lk l ih =>
      intro done hd
      have hmem : lk ∈ (transLabels 1).zipIdx 1 := by rw [← hd]; simp
      have hnd : ((done ++ lk :: l).map Prod.fst).Nodup := by
        rw [hd, List.zipIdx_map_fst]; exact transLabels_one_nodup
      have hne : ∀ q ∈ done, q.1 ≠ lk.1 := by
        intro q hq e
        rw [List.map_append, List.nodup_append] at hnd
        exact hnd.2.2 q.1 (List.mem_map_of_mem hq) lk.1 (by simp) e
      have hstep : fcStep (symPairs 1 n1 n2 n3)
          (done.map fun lk ix => symT n1 n2 n3 lk.1 ix / Real.sqrt (symN n1 n2 n3 lk.1)) lk =
          (done ++ [lk]).map fun lk ix =>
            symT n1 n2 n3 lk.1 ix / Real.sqrt (symN n1 n2 n3 lk.1) := by
        have hw : ∀ (d : List ((Fin 3 × Fin 3 × Fin 1) × Nat)) (w : FcVec 1 n1 n2 n3),
            (∀ q ∈ d, q.1 ≠ lk.1) →
            (d.map fun lk ix => symT n1 n2 n3 lk.1 ix / Real.sqrt (symN n1 n2 n3 lk.1)).foldl
              (fun w u => w - rowScalar lk.2 (transVec lk.1) u • u) w = w := by
          intro d
          induction d with
          | nil => intro w _; rfl
          | cons q d ihd =>
            intro w hq
            rw [List.map_cons, List.foldl_cons, rowScalar_one hmem (hq q (by simp)), zero_smul,
              sub_zero]
            exact ihd w (fun x hx => hq x (by simp [hx]))
        simp only [fcStep]
        rw [hw done _ hne, symProject_eq]
        have hN : (∑ ix : FcIx 1 n1 n2 n3, (transVec lk.1 ix + transVec lk.1 (mirror ix)) / 2 *
            ((transVec lk.1 ix + transVec lk.1 (mirror ix)) / 2)) = symN n1 n2 n3 lk.1 := rfl
        rw [hN, if_pos]
        · rw [List.map_append]; rfl
        · rw [symN_eq]
          have p1 : (1 : ℝ) ≤ n1 := by exact_mod_cast NeZero.one_le
          have p2 : (1 : ℝ) ≤ n2 := by exact_mod_cast NeZero.one_le
          have p3 : (1 : ℝ) ≤ n3 := by exact_mod_cast NeZero.one_le
          have p12 : (1 : ℝ) ≤ n1 * n2 := one_le_mul_of_one_le_of_one_le p1 p2
          have p123 : (1 : ℝ) ≤ n1 * n2 * n3 := one_le_mul_of_one_le_of_one_le p12 p3
          split_ifs <;> norm_num <;> linarith
      rw [List.foldl_cons, hstep, ih (done ++ [lk]) (by simpa using hd)]
      simp
  have h := key ((transLabels 1).zipIdx 1) [] rfl
  simp only [List.map_nil, List.nil_append] at h
  rw [fcBasis, h]
  conv_rhs => rw [← List.zipIdx_map_fst 1 (transLabels 1), List.map_map]
  rfl

theorem rowSum_sub (f g : FcVec A n1 n2 n3) (i j : Fin 3) (na : Fin A) :
    rowSum (f - g) i j na = rowSum f i j na - rowSum g i j na := by
  simp [rowSum, Finset.sum_sub_distrib]

theorem rowSum_add (f g : FcVec A n1 n2 n3) (i j : Fin 3) (na : Fin A) :
    rowSum (f + g) i j na = rowSum f i j na + rowSum g i j na := by
  simp [rowSum, Finset.sum_add_distrib]

theorem rowSum_smul (c : ℝ) (f : FcVec A n1 n2 n3) (i j : Fin 3) (na : Fin A) :
    rowSum (c • f) i j na = c * rowSum f i j na := by
  simp [rowSum, Finset.mul_sum]

theorem rowSum_zero (i j : Fin 3) (na : Fin A) : rowSum (0 : FcVec A n1 n2 n3) i j na = 0 := by
  simp [rowSum]

theorem rowSum_list (l : List (FcVec A n1 n2 n3)) (i j : Fin 3) (na : Fin A) :
    rowSum l.sum i j na = (l.map fun u => rowSum u i j na).sum := by
  induction l with
  | nil => simp [rowSum_zero]
  | cons u l ih => rw [List.sum_cons, rowSum_add, ih, List.map_cons, List.sum_cons]

theorem crystal_one_row [NeZero n1] [NeZero n2] [NeZero n3] (f : FcVec 1 n1 n2 n3)
    (i j : Fin 3) :
    rowSum (crystalForces f) i j 0 = if i = j then 0 else
      -((rowSum f i j 0 + rowSum f j i 0) / 2) := by
  rw [crystalForces_eq, rowSum_sub, rowSum_list, fcBasis_one, List.map_map, List.map_map]
  have hsym : rowSum (fun ix => (f ix + f (mirror ix)) / 2) i j 0 =
      (rowSum f i j 0 + rowSum f j i 0) / 2 := by
    have e : (fun ix => (f ix + f (mirror ix)) / 2) =
        (1 / 2 : ℝ) • (f + fun ix => f (mirror ix)) := by
      funext ix; simp only [Pi.smul_apply, Pi.add_apply, smul_eq_mul]; ring
    rw [e, rowSum_smul, rowSum_add, rowSum_mirror_one]; ring
  have hterm : ∀ r : Fin 3 × Fin 3 × Fin 1,
      rowSum ((∑ ix, symT n1 n2 n3 r ix / Real.sqrt (symN n1 n2 n3 r) * f ix) •
        (fun ix => symT n1 n2 n3 r ix / Real.sqrt (symN n1 n2 n3 r))) i j 0 =
      (rowSum f r.1 r.2.1 0 + rowSum f r.2.1 r.1 0) / 2 *
        (((if i = r.1 ∧ j = r.2.1 then 1 else 0) + (if j = r.1 ∧ i = r.2.1 then 1 else 0)) / 2) /
        (if r.1 = r.2.1 then 1 else 1 / 2) := by
    intro r
    have hN : (0 : ℝ) < n1 * n2 * n3 := by
      have p1 : (0 : ℝ) < n1 := by exact_mod_cast Nat.pos_of_ne_zero (NeZero.ne n1)
      have p2 : (0 : ℝ) < n2 := by exact_mod_cast Nat.pos_of_ne_zero (NeZero.ne n2)
      have p3 : (0 : ℝ) < n3 := by exact_mod_cast Nat.pos_of_ne_zero (NeZero.ne n3)
      positivity
    have hd : (0 : ℝ) < (if r.1 = r.2.1 then 1 else 1 / 2) := by split_ifs <;> norm_num
    have hpos : 0 < symN n1 n2 n3 r := by rw [symN_eq]; exact mul_pos hN hd
    have e1 : (fun ix => symT n1 n2 n3 r ix / Real.sqrt (symN n1 n2 n3 r)) =
        (Real.sqrt (symN n1 n2 n3 r))⁻¹ • symT n1 n2 n3 r := by
      funext ix; simp only [Pi.smul_apply, smul_eq_mul]; ring
    have e2 : (∑ ix, symT n1 n2 n3 r ix / Real.sqrt (symN n1 n2 n3 r) * f ix) =
        (rowSum f r.1 r.2.1 0 + rowSum f r.2.1 r.1 0) / 2 / Real.sqrt (symN n1 n2 n3 r) := by
      have h := sum_symTrans f r
      have hr : r.2.2 = 0 := Subsingleton.elim _ _
      rw [rowSum_mirror_one, hr] at h
      rw [← h, Finset.sum_div]
      refine Finset.sum_congr rfl fun ix _ => ?_
      simp only [symT]; ring
    rw [rowSum_smul, e1, e2, rowSum_smul, rowSum_symT]
    have hs : Real.sqrt (symN n1 n2 n3 r) * Real.sqrt (symN n1 n2 n3 r) = symN n1 n2 n3 r :=
      Real.mul_self_sqrt hpos.le
    have hs0 : Real.sqrt (symN n1 n2 n3 r) ≠ 0 := (Real.sqrt_pos.mpr hpos).ne'
    generalize ((if i = r.1 ∧ j = r.2.1 then (1 : ℝ) else 0) +
      (if j = r.1 ∧ i = r.2.1 then 1 else 0)) / 2 = g
    generalize (rowSum f r.1 r.2.1 0 + rowSum f r.2.1 r.1 0) / 2 = s
    have e3 : s / Real.sqrt (symN n1 n2 n3 r) * ((Real.sqrt (symN n1 n2 n3 r))⁻¹ *
        ((n1 * n2 * n3 : ℝ) * g)) = s * ((n1 * n2 * n3 : ℝ) * g) /
          (Real.sqrt (symN n1 n2 n3 r) * Real.sqrt (symN n1 n2 n3 r)) := by
      field_simp
    rw [e3, hs, symN_eq]
    generalize (n1 * n2 * n3 : ℝ) = N at hN
    field_simp
  have hmap : (List.map (((fun u => rowSum u i j 0) ∘ (fun u => (∑ ix, u ix * f ix) • u)) ∘
      fun r ix => symT n1 n2 n3 r ix / Real.sqrt (symN n1 n2 n3 r)) (transLabels 1)) =
      (transLabels 1).map fun r => (rowSum f r.1 r.2.1 0 + rowSum f r.2.1 r.1 0) / 2 *
        (((if i = r.1 ∧ j = r.2.1 then 1 else 0) + (if j = r.1 ∧ i = r.2.1 then 1 else 0)) / 2) /
        (if r.1 = r.2.1 then 1 else 1 / 2) :=
    List.map_congr_left fun r _ => hterm r
  rw [hmap, hsym]
  have hl : transLabels 1 = [(0, 0, 0), (1, 0, 0), (2, 0, 0), (0, 1, 0), (1, 1, 0), (2, 1, 0),
      (0, 2, 0), (1, 2, 0), (2, 2, 0)] := by decide
  rw [hl]
  fin_cases i <;> fin_cases j <;> simp <;> ring

end Verif.Model
