import Verif.Spec.MatrixCopy
import Verif.Proofs.Bands

/-! # Lemmas on the memory of matrices -/
namespace Verif.Props
open Verif.Model Verif.Spec

/-- The object owns address `p` as its `pmat` (`k = true`) or as its `mat`. -/
def Owns (o : MatObj) (k : Bool) (p : Nat) : Prop := (if k then o.pmat else o.mat) = some p

structure MatInv {D : Type} (s : MatState D) (v : Values D) : Prop where
  dom : ∀ i, v i = none → s.vars i = none
  val : ∀ i b d, v i = some (b, d) → ∃ o p, s.vars i = some o ∧ o.isDistributed = b ∧ o.active = some p ∧
    s.heap p = some d
  live : ∀ i o k p, s.vars i = some o → Owns o k p → s.heap p ≠ none
  inj : ∀ i j o o' k k' p, s.vars i = some o → s.vars j = some o' → Owns o k p → Owns o' k' p → i = j ∧ k = k'
  used : ∀ p, s.heap p ≠ none → ∃ i o k, s.vars i = some o ∧ Owns o k p
  fresh : ∀ p, s.next ≤ p → s.heap p = none

theorem active_owns {o : MatObj} {p : Nat} (h : o.active = some p) : Owns o o.isDistributed p := by
  unfold MatObj.active at h
  unfold Owns
  exact h

theorem start_inv (D : Type) : MatInv (matStart D) (fun _ => none) where
  dom := fun _ _ => rfl
  val := by intro i b d h; simp at h
  live := by intro i o k p h; simp [matStart] at h
  inj := by intro i j o o' k k' p h; simp [matStart] at h
  used := by intro p h; simp [matStart] at h
  fresh := fun _ _ => rfl

/-- A variable that owns a single new object. -/
theorem make_inv {D : Type} {s : MatState D} {v : Values D} (h : MatInv s v) (i : Nat) (hv : v i = none)
    (dist : Bool) (d : D) (o : MatObj)
    (ho : o = if dist then ⟨true, some s.next, none⟩ else ⟨false, none, some s.next⟩) :
    MatInv ⟨Function.update s.vars i (some o), Function.update s.heap s.next (some d), s.next + 1⟩
      (Function.update v i (some (dist, d))) := by
  have hown : ∀ k p, Owns o k p ↔ k = dist ∧ p = s.next := by
    intro k p
    subst ho
    cases dist <;> cases k <;> simp [Owns, eq_comm]
  have hi := h.dom i hv
  have hne : ∀ j o' k p, s.vars j = some o' → Owns o' k p → p ≠ s.next := by
    intro j o' k p h1 h2 h3
    exact h.live j o' k p h1 h2 (h3 ▸ h.fresh s.next (Nat.le_refl _))
  constructor
  · intro j hj
    by_cases hji : j = i
    · subst hji; simp at hj
    · simp only [Function.update_of_ne hji] at hj ⊢
      exact h.dom j hj
  · intro j b e hj
    by_cases hji : j = i
    · subst hji
      simp only [Function.update_self, Option.some.injEq, Prod.mk.injEq] at hj
      refine ⟨o, s.next, by simp, ?_, ?_, by simp [hj.2]⟩
      · subst ho; cases dist <;> simpa using hj.1
      · subst ho; cases dist <;> simp [MatObj.active]
    · simp only [Function.update_of_ne hji] at hj ⊢
      obtain ⟨o', p, h1, h2, h3, h4⟩ := h.val j b e hj
      refine ⟨o', p, h1, h2, h3, ?_⟩
      rw [Function.update_of_ne (hne j o' _ p h1 (active_owns h3))]
      exact h4
  · intro j o' k p hj hk
    by_cases hji : j = i
    · subst hji
      simp only [Function.update_self, Option.some.injEq] at hj
      subst hj
      simp [((hown k p).1 hk).2]
    · simp only [Function.update_of_ne hji] at hj ⊢
      rw [Function.update_of_ne (hne j o' k p hj hk)]
      exact h.live j o' k p hj hk
  · intro j l o1 o2 k k' p h1 h2 hk hk'
    by_cases hji : j = i <;> by_cases hli : l = i
    · subst hji; subst hli
      simp only [Function.update_self, Option.some.injEq] at h1 h2
      subst h1; subst h2
      exact ⟨rfl, ((hown k p).1 hk).1.trans ((hown k' p).1 hk').1.symm⟩
    · subst hji
      simp only [Function.update_self, Option.some.injEq, Function.update_of_ne hli] at h1 h2
      subst h1
      exact absurd ((hown k p).1 hk).2 (hne l o2 k' p h2 hk')
    · subst hli
      simp only [Function.update_self, Option.some.injEq, Function.update_of_ne hji] at h1 h2
      subst h2
      exact absurd ((hown k' p).1 hk').2 (hne j o1 k p h1 hk)
    · simp only [Function.update_of_ne hji, Function.update_of_ne hli] at h1 h2
      exact h.inj j l o1 o2 k k' p h1 h2 hk hk'
  · intro p hp
    by_cases hpn : p = s.next
    · exact ⟨i, o, dist, by simp, (hown dist p).2 ⟨rfl, hpn⟩⟩
    · simp only [Function.update_of_ne hpn] at hp
      obtain ⟨j, o', k, h1, h2⟩ := h.used p hp
      have hji : j ≠ i := by rintro rfl; rw [hi] at h1; cases h1
      exact ⟨j, o', k, by simp only [Function.update_of_ne hji]; exact h1, h2⟩
  · intro p hp
    simp only at hp ⊢
    rw [Function.update_of_ne (by omega)]
    exact h.fresh p (by omega)

theorem varAt_some {D : Type} {s : MatState D} {i : Nat} {o : MatObj} (h : s.vars i = some o) :
    varAt s i = .ok o := by
  simp [varAt, h]

theorem deref_some {D : Type} {hp : Nat → Option D} {p : Nat} {d : D} (h : hp p = some d) :
    deref hp (some p) = .ok d := by
  simp [deref, h]

/-- Writing through the pointer in use. -/
theorem modify_inv {D : Type} {s : MatState D} {v : Values D} (h : MatInv s v) (i : Nat) (b : Bool) (d e : D)
    (hv : v i = some (b, d)) :
    ∃ o p, s.vars i = some o ∧ o.isDistributed = b ∧ o.active = some p ∧ s.heap p = some d ∧
      MatInv { s with heap := Function.update s.heap p (some e) } (Function.update v i (some (b, e))) := by
  obtain ⟨o, p, h1, h2, h3, h4⟩ := h.val i b d hv
  refine ⟨o, p, h1, h2, h3, h4, ?_⟩
  constructor
  · intro j hj
    by_cases hji : j = i
    · subst hji; simp at hj
    · simp only [Function.update_of_ne hji] at hj
      exact h.dom j hj
  · intro j c f hj
    by_cases hji : j = i
    · subst hji
      simp only [Function.update_self, Option.some.injEq, Prod.mk.injEq] at hj
      exact ⟨o, p, h1, h2.trans hj.1, h3, by simp [hj.2]⟩
    · simp only [Function.update_of_ne hji] at hj
      obtain ⟨o', p', g1, g2, g3, g4⟩ := h.val j c f hj
      have : p' ≠ p := by
        rintro rfl
        exact hji (h.inj j i o' o _ _ p' g1 h1 (active_owns g3) (active_owns h3)).1
      exact ⟨o', p', g1, g2, g3, by simp only [Function.update_of_ne this]; exact g4⟩
  · intro j o' k q hj hk
    by_cases hq : q = p
    · simp [hq]
    · simp only [Function.update_of_ne hq]
      exact h.live j o' k q hj hk
  · exact h.inj
  · intro q hq
    by_cases hqp : q = p
    · exact ⟨i, o, o.isDistributed, h1, hqp ▸ active_owns h3⟩
    · simp only [Function.update_of_ne hqp] at hq
      exact h.used q hq
  · intro q hq
    have : q ≠ p := by
      rintro rfl
      rw [h.fresh q hq] at h4; cases h4
    simp only [Function.update_of_ne this]
    exact h.fresh q hq

theorem deletePtr_val {D : Type} (s : MatState D) (p : Option Nat) (h : ∀ a, p = some a → s.heap a ≠ none) :
    deletePtr s p = .ok { s with heap := fun q => if p = some q then none else s.heap q } := by
  cases p with
  | none => simp [deletePtr]
  | some a =>
    have := h a rfl
    simp only [deletePtr]
    cases hh : s.heap a with
    | none => exact absurd hh this
    | some d =>
      have e : Function.update s.heap a none = fun q => if some a = some q then none else s.heap q := by
        funext q
        by_cases hq : q = a
        · subst hq; simp
        · simp [Function.update_of_ne hq, Ne.symm hq]
      simp only [e]

/-- The end of the lifetime of a variable. -/
theorem destroy_inv {D : Type} {s : MatState D} {v : Values D} (h : MatInv s v) (i : Nat) (o : MatObj)
    (h1 : s.vars i = some o) :
    MatInv ⟨Function.update s.vars i none,
      fun q => if o.mat = some q then none else if o.pmat = some q then none else s.heap q, s.next⟩
      (Function.update v i none) := by
  have keep : ∀ j o' k q, j ≠ i → s.vars j = some o' → Owns o' k q →
      ¬ o.mat = some q ∧ ¬ o.pmat = some q := by
    intro j o' k q hji hj hk
    refine ⟨fun hm => hji ?_, fun hm => hji ?_⟩
    · exact (h.inj j i o' o k false q hj h1 hk (by simpa [Owns] using hm)).1
    · exact (h.inj j i o' o k true q hj h1 hk (by simpa [Owns] using hm)).1
  constructor
  · intro j hj
    by_cases hji : j = i
    · subst hji; simp
    · simp only [Function.update_of_ne hji] at hj ⊢
      exact h.dom j hj
  · intro j b d hj
    by_cases hji : j = i
    · subst hji; simp at hj
    · simp only [Function.update_of_ne hji] at hj ⊢
      obtain ⟨o', p', g1, g2, g3, g4⟩ := h.val j b d hj
      obtain ⟨k1, k2⟩ := keep j o' _ p' hji g1 (active_owns g3)
      exact ⟨o', p', g1, g2, g3, by simp only [if_neg k1, if_neg k2]; exact g4⟩
  · intro j o' k q hj hk
    by_cases hji : j = i
    · subst hji; simp at hj
    · simp only [Function.update_of_ne hji] at hj
      obtain ⟨k1, k2⟩ := keep j o' _ q hji hj hk
      simp only [if_neg k1, if_neg k2]
      exact h.live j o' k q hj hk
  · intro j l o1 o2 k k' q g1 g2 hk hk'
    by_cases hji : j = i
    · subst hji; simp at g1
    by_cases hli : l = i
    · subst hli; simp at g2
    simp only [Function.update_of_ne hji, Function.update_of_ne hli] at g1 g2
    exact h.inj j l o1 o2 k k' q g1 g2 hk hk'
  · intro q hq
    by_cases k1 : o.mat = some q
    · simp [k1] at hq
    by_cases k2 : o.pmat = some q
    · simp [k2] at hq
    simp only [if_neg k1, if_neg k2] at hq
    obtain ⟨j, o', k, g1, g2⟩ := h.used q hq
    have hji : j ≠ i := by
      rintro rfl
      rw [h1] at g1
      cases g1
      cases k
      · exact k1 (by simpa [Owns] using g2)
      · exact k2 (by simpa [Owns] using g2)
    exact ⟨j, o', k, by simp only [Function.update_of_ne hji]; exact g1, g2⟩
  · intro q hq
    simp only [h.fresh q hq, ite_self]

/-- Assignment: one pointer of variable `i` (`k`) is deleted and replaced by a new object. -/
theorem assign_inv {D : Type} {s : MatState D} {v : Values D} (h : MatInv s v) (i : Nat) (k : Bool) (d : D)
    (o o' : MatObj) (h1 : s.vars i = some o) (hdist : o'.isDistributed = k)
    (hnew : (if k then o'.pmat else o'.mat) = some s.next)
    (hold : (if k then o'.mat else o'.pmat) = (if k then o.mat else o.pmat)) :
    MatInv ⟨Function.update s.vars i (some o'),
      Function.update (fun q => if (if k then o.pmat else o.mat) = some q then none else s.heap q) s.next (some d),
      s.next + 1⟩ (Function.update v i (some (k, d))) := by
  have hne : ∀ j o' k p, s.vars j = some o' → Owns o' k p → p ≠ s.next := by
    intro j o' k p h1 h2 h3
    exact h.live j o' k p h1 h2 (h3 ▸ h.fresh s.next (Nat.le_refl _))
  have hown : ∀ k' p, Owns o' k' p → (k' = k ∧ p = s.next) ∨ (k' = !k ∧ Owns o (!k) p) := by
    intro k' p hp
    unfold Owns at hp ⊢
    cases k <;> cases k' <;>
      simp only [if_true, Bool.false_eq_true, if_false, Bool.not_true, Bool.not_false] at hp hnew hold ⊢
    · left; rw [hnew] at hp; exact ⟨by simp, (Option.some.inj hp).symm⟩
    · right; rw [hold] at hp; exact ⟨by simp, hp⟩
    · right; rw [hold] at hp; exact ⟨by simp, hp⟩
    · left; rw [hnew] at hp; exact ⟨by simp, (Option.some.inj hp).symm⟩
  have hown' : ∀ k' p, k' = !k → Owns o k' p → Owns o' k' p := by
    intro k' p e hp
    subst e
    unfold Owns at hp ⊢
    cases k <;>
      simp only [if_true, Bool.false_eq_true, if_false, Bool.not_true, Bool.not_false] at hp hold ⊢
    · rw [hold]; exact hp
    · rw [hold]; exact hp
  have keep : ∀ j o2 k2 q, s.vars j = some o2 → Owns o2 k2 q → (j ≠ i ∨ k2 = !k) →
      ¬ (if k then o.pmat else o.mat) = some q := by
    intro j o2 k2 q hj hk hor hm
    have := h.inj j i o2 o k2 k q hj h1 hk hm
    rcases hor with hor | hor
    · exact hor this.1
    · rw [this.2] at hor; cases k <;> simp at hor
  constructor
  · intro j hj
    by_cases hji : j = i
    · subst hji; simp at hj
    · simp only [Function.update_of_ne hji] at hj ⊢
      exact h.dom j hj
  · intro j b e hj
    by_cases hji : j = i
    · subst hji
      simp only [Function.update_self, Option.some.injEq, Prod.mk.injEq] at hj
      refine ⟨o', s.next, by simp, hdist.trans hj.1, ?_, by simp [hj.2]⟩
      unfold MatObj.active
      rw [hdist]; exact hnew
    · simp only [Function.update_of_ne hji] at hj ⊢
      obtain ⟨o2, p, g1, g2, g3, g4⟩ := h.val j b e hj
      refine ⟨o2, p, g1, g2, g3, ?_⟩
      rw [Function.update_of_ne (hne j o2 _ p g1 (active_owns g3))]
      rw [if_neg (keep j o2 _ p g1 (active_owns g3) (Or.inl hji))]
      exact g4
  · intro j o2 k2 p hj hk
    by_cases hji : j = i
    · subst hji
      simp only [Function.update_self, Option.some.injEq] at hj
      subst hj
      rcases hown k2 p hk with ⟨_, hp⟩ | ⟨hk2, hp⟩
      · simp [hp]
      · simp only
        rw [Function.update_of_ne (hne _ o _ p h1 hp), if_neg (keep _ o _ p h1 hp (Or.inr rfl))]
        exact h.live _ o _ p h1 hp
    · simp only [Function.update_of_ne hji] at hj ⊢
      rw [Function.update_of_ne (hne j o2 k2 p hj hk), if_neg (keep j o2 _ p hj hk (Or.inl hji))]
      exact h.live j o2 k2 p hj hk
  · intro j l o1 o2 k1 k2 p g1 g2 hk hk'
    by_cases hji : j = i <;> by_cases hli : l = i
    · subst hji; subst hli
      simp only [Function.update_self, Option.some.injEq] at g1 g2
      subst g1; subst g2
      refine ⟨rfl, ?_⟩
      rcases hown k1 p hk with ⟨e1, p1⟩ | ⟨e1, p1⟩ <;> rcases hown k2 p hk' with ⟨e2, p2⟩ | ⟨e2, p2⟩
      · rw [e1, e2]
      · exact absurd p1 (hne _ o _ p h1 p2)
      · exact absurd p2 (hne _ o _ p h1 p1)
      · rw [e1, e2]
    · subst hji
      simp only [Function.update_self, Option.some.injEq, Function.update_of_ne hli] at g1 g2
      subst g1
      rcases hown k1 p hk with ⟨e1, p1⟩ | ⟨e1, p1⟩
      · exact absurd p1 (hne l o2 k2 p g2 hk')
      · rw [e1]; exact h.inj _ l o o2 _ k2 p h1 g2 p1 hk'
    · subst hli
      simp only [Function.update_self, Option.some.injEq, Function.update_of_ne hji] at g1 g2
      subst g2
      rcases hown k2 p hk' with ⟨e1, p1⟩ | ⟨e1, p1⟩
      · exact absurd p1 (hne j o1 k1 p g1 hk)
      · rw [e1]; exact h.inj j _ o1 o k1 _ p g1 h1 hk p1
    · simp only [Function.update_of_ne hji, Function.update_of_ne hli] at g1 g2
      exact h.inj j l o1 o2 k1 k2 p g1 g2 hk hk'
  · intro p hp
    by_cases hpn : p = s.next
    · exact ⟨i, o', k, by simp, by unfold Owns; rw [hnew, hpn]⟩
    · simp only [Function.update_of_ne hpn] at hp
      by_cases hpo : (if k then o.pmat else o.mat) = some p
      · rw [if_pos hpo] at hp; exact absurd rfl hp
      · rw [if_neg hpo] at hp
        obtain ⟨j, o2, k2, g1, g2⟩ := h.used p hp
        by_cases hji : j = i
        · subst hji
          rw [h1] at g1; cases g1
          have hk2 : k2 = !k := by
            cases k <;> cases k2 <;> simp_all [Owns]
          exact ⟨j, o', k2, by simp, hown' k2 p hk2 g2⟩
        · exact ⟨j, o2, k2, by simp only [Function.update_of_ne hji]; exact g1, g2⟩
  · intro p hp
    simp only at hp ⊢
    rw [Function.update_of_ne (by omega), h.fresh p (by omega)]
    simp

theorem step_inv {D : Type} {s : MatState D} {v w : Values D} (h : MatInv s v) (op : MatOp D) (hn : NoCopy op)
    (hs : valueStep v op = some w) : ∃ t, matStep s op = .ok t ∧ MatInv t w := by
  cases op with
  | make i dist d =>
    simp only [valueStep] at hs
    split at hs
    · cases hs
    · rename_i hv
      cases hs
      exact ⟨_, rfl, make_inv h i (by simpa using hv) dist d _ rfl⟩
  | default i d =>
    simp only [valueStep] at hs
    split at hs
    · cases hs
    · rename_i hv
      cases hs
      exact ⟨_, rfl, make_inv h i (by simpa using hv) false d _ rfl⟩
  | assign i j =>
    simp only [valueStep] at hs
    split at hs
    · rename_i x y hx hy
      cases hs
      obtain ⟨b, d⟩ := y
      obtain ⟨bi, di⟩ := x
      obtain ⟨oi, pi, a1, a2, a3, a4⟩ := h.val i bi di hx
      obtain ⟨oj, pj, b1, b2, b3, b4⟩ := h.val j b d hy
      by_cases hij : i = j
      · subst hij
        refine ⟨s, ?_, ?_⟩
        · simp [matStep, Outcome.bind_eq, varAt_some a1, Outcome.bind_ok]
        · rw [← hy, Function.update_eq_self]; exact h
      · have hjp : ∀ k q, Owns oi k q → q ≠ pj := by
          rintro k q hk rfl
          exact hij (h.inj i j oi oj k _ q a1 b1 hk (active_owns b3)).1
        cases b with
        | true =>
          have hp : oj.pmat = some pj := by
            have := b3; unfold MatObj.active at this; rw [b2] at this; simpa using this
          have hd := deletePtr_val s oi.pmat (fun a ha => h.live i oi true a a1 (by simpa [Owns] using ha))
          have hr : deref (fun q => if oi.pmat = some q then none else s.heap q) oj.pmat = .ok d := by
            rw [hp]; apply deref_some
            have : ¬ oi.pmat = some pj := fun e => hjp true pj (by simpa [Owns] using e) rfl
            rw [if_neg this]; exact b4
          refine ⟨_, ?_, assign_inv h i true d oi ⟨true, some s.next, oi.mat⟩ a1 rfl rfl rfl⟩
          simp only [matStep, varAt_some a1, varAt_some b1, Outcome.bind_eq, Outcome.bind_ok, if_neg hij, b2, if_true,
            hd, hr, newObj]
        | false =>
          have hp : oj.mat = some pj := by
            have := b3; unfold MatObj.active at this; rw [b2] at this; simpa using this
          have hd := deletePtr_val s oi.mat (fun a ha => h.live i oi false a a1 (by simpa [Owns] using ha))
          have hr : deref (fun q => if oi.mat = some q then none else s.heap q) oj.mat = .ok d := by
            rw [hp]; apply deref_some
            have : ¬ oi.mat = some pj := fun e => hjp false pj (by simpa [Owns] using e) rfl
            rw [if_neg this]; exact b4
          refine ⟨_, ?_, assign_inv h i false d oi ⟨false, oi.pmat, some s.next⟩ a1 rfl rfl rfl⟩
          simp only [matStep, varAt_some a1, varAt_some b1, Outcome.bind_eq, Outcome.bind_ok, if_neg hij, b2,
            Bool.false_eq_true, if_false, hd, hr, newObj]
    · cases hs
  | modify i f =>
    simp only [valueStep] at hs
    split at hs
    · rename_i b d hv
      cases hs
      obtain ⟨o, p, h1, h2, h3, h4, h5⟩ := modify_inv h i b d (f d) hv
      refine ⟨_, ?_, h5⟩
      simp only [matStep, writePtr, varAt_some h1, h3, deref_some h4, Outcome.bind_eq, Outcome.bind_ok]
    · cases hs
  | destroy i =>
    simp only [valueStep] at hs
    split at hs
    · rename_i x hv
      cases hs
      obtain ⟨b, d⟩ := x
      obtain ⟨o, p, h1, -⟩ := h.val i b d hv
      refine ⟨_, ?_, destroy_inv h i o h1⟩
      have e1 := deletePtr_val s o.pmat (fun a ha => h.live i o true a h1 (by simpa [Owns] using ha))
      have e2 := deletePtr_val { s with heap := fun q => if o.pmat = some q then none else s.heap q } o.mat (by
        intro a ha
        have hne : ¬ o.pmat = some a := by
          intro hp
          have := (h.inj i i o o false true a h1 h1 (by simpa [Owns] using ha) (by simpa [Owns] using hp)).2
          cases this
        simp only [if_neg hne]
        exact h.live i o false a h1 (by simpa [Owns] using ha))
      simp only [matStep, varAt_some h1, e1, e2, Outcome.bind_eq, Outcome.bind_ok]
    · cases hs
  | copy i j => exact absurd hn (by simp [NoCopy])
  | addTo i j op => exact absurd hn (by simp [NoCopy])
  | scale i f => exact absurd hn (by simp [NoCopy])
  | product i j k op => exact absurd hn (by simp [NoCopy])

theorem run_inv {D : Type} (ops : List (MatOp D)) : ∀ (s : MatState D) (v w : Values D), MatInv s v →
    (∀ o ∈ ops, NoCopy o) → valueRun ops v = some w → ∃ t, matRun ops s = .ok t ∧ MatInv t w := by
  induction ops with
  | nil =>
    intro s v w h _ hr
    cases hr
    exact ⟨s, rfl, h⟩
  | cons o os ih =>
    intro s v w h hn hr
    unfold valueRun at hr
    cases hs : valueStep v o with
    | none => rw [hs] at hr; cases hr
    | some v' =>
      rw [hs] at hr
      obtain ⟨t, ht, hi⟩ := step_inv h o (hn o (by simp)) hs
      obtain ⟨t', ht', hi'⟩ := ih t v' w hi (fun x hx => hn x (by simp [hx])) hr
      refine ⟨t', ?_, hi'⟩
      simp only [matRun, ht, Outcome.bind_eq, Outcome.bind_ok]
      exact ht'

theorem read_inv {D : Type} {s : MatState D} {v : Values D} (h : MatInv s v) (i : Nat) (x : Bool × D)
    (hv : v i = some x) : matRead s i = .ok x := by
  obtain ⟨b, d⟩ := x
  obtain ⟨o, p, h1, h2, h3, h4⟩ := h.val i b d hv
  simp only [matRead, varAt_some h1, h3, deref_some h4, h2, Outcome.bind_eq, Outcome.bind_ok]

/-- The copy constructor always dereferences a null pointer. -/
theorem copyConstruct_ub {D : Type} (s : MatState D) (o : MatObj) : copyConstruct s o = .ub := by
  unfold copyConstruct
  have h : ∀ d, writePtr s (MatObj.active ⟨o.isDistributed, none, none⟩) d = .ub := by
    intro d
    have : MatObj.active ⟨o.isDistributed, none, none⟩ = none := by simp [MatObj.active]
    rw [this]; rfl
  cases ha : o.active with
  | none => rfl
  | some p =>
    cases hh : s.heap p with
    | none => simp [deref, hh, Outcome.bind_eq, Outcome.bind]
    | some d =>
      simp only [deref_some hh, Outcome.bind_eq, Outcome.bind_ok, h]
      rfl

theorem valueRun_append {D : Type} (a b : List (MatOp D)) : ∀ (u : Values D),
    valueRun (a ++ b) u = (valueRun a u).bind (valueRun b) := by
  induction a with
  | nil => intro u; rfl
  | cons o os ih =>
    intro u
    simp only [List.cons_append, valueRun]
    cases valueStep u o with
    | none => rfl
    | some u' => exact ih u'

theorem matRun_append {D : Type} (a b : List (MatOp D)) : ∀ (s : MatState D),
    matRun (a ++ b) s = (matRun a s).bind (matRun b) := by
  induction a with
  | nil => intro u; rfl
  | cons o os ih =>
    intro u
    simp only [List.cons_append, matRun, Outcome.bind_eq]
    cases matStep u o with
    | ok u' => exact ih u'
    | _ => rfl

theorem copies_ub {D : Type} (s : MatState D) (v : Values D) (h : MatInv s v) (i j k : Nat)
    (x y : Bool × D) (hi : v i = some x) (hj : v j = some y) (hxy : x.1 = y.1) (f : D → D) (g : D → D → D) :
    matStep s (.copy k j) = .ub ∧ matStep s (.addTo i j g) = .ub ∧ matStep s (.scale i f) = .ub ∧
      matStep s (.product k i j g) = .ub := by
  obtain ⟨bi, di⟩ := x
  obtain ⟨bj, dj⟩ := y
  obtain ⟨oi, pi, a1, a2, a3, a4⟩ := h.val i bi di hi
  obtain ⟨oj, pj, b1, b2, b3, b4⟩ := h.val j bj dj hj
  have hact : (if oi.isDistributed then oj.pmat else oj.mat) = some pj := by
    have e : oi.isDistributed = oj.isDistributed := by rw [a2, b2]; exact hxy
    rw [e]; exact b3
  refine ⟨?_, ?_, ?_, ?_⟩
  · simp only [matStep, varAt_some b1, Outcome.bind_eq, Outcome.bind_ok, copyConstruct_ub]
    rfl
  · simp only [matStep, varAt_some a1, varAt_some b1, Outcome.bind_eq, Outcome.bind_ok, a3, hact, deref_some a4,
      deref_some b4, writePtr, copyConstruct_ub]
    rfl
  · simp only [matStep, varAt_some a1, Outcome.bind_eq, Outcome.bind_ok, a3, deref_some a4, writePtr,
      copyConstruct_ub]
    rfl
  · simp only [matStep, varAt_some a1, varAt_some b1, Outcome.bind_eq, Outcome.bind_ok, copyConstruct_ub]
    rfl

end Verif.Props
