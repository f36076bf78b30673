import Verif.Model.IrrPoints
import Verif.Spec.Symmetry
import Verif.Proofs.Points
import Verif.Proofs.PointSearch
import Verif.Props.Mpi
import Mathlib.Algebra.BigOperators.Group.Finset.Basic
import Mathlib.Tactic.Abel

/-! Helper lemmas for the irreducible points. -/
namespace Verif.Model
open Verif.Props

theorem mem_setInsert (x y : Nat) (l : List Nat) : y ∈ setInsert x l ↔ y = x ∨ y ∈ l := by
  induction l with
  | nil => simp [setInsert]
  | cons a t ih =>
    unfold setInsert
    by_cases h1 : x < a
    · rw [if_pos h1]; simp
    · rw [if_neg h1]
      by_cases h2 : x = a
      · rw [if_pos h2]; subst h2; simp
      · rw [if_neg h2, List.mem_cons, ih, List.mem_cons]; tauto

theorem sorted_setInsert (x : Nat) (l : List Nat) (h : l.Pairwise (· < ·)) :
    (setInsert x l).Pairwise (· < ·) := by
  induction l with
  | nil => simp [setInsert]
  | cons a t ih =>
    unfold setInsert
    rw [List.pairwise_cons] at h
    by_cases h1 : x < a
    · rw [if_pos h1, List.pairwise_cons]
      refine ⟨?_, List.pairwise_cons.mpr h⟩
      intro b hb
      rcases List.mem_cons.mp hb with rfl | hb
      · exact h1
      · have := h.1 b hb; omega
    · rw [if_neg h1]
      by_cases h2 : x = a
      · rw [if_pos h2]; exact List.pairwise_cons.mpr h
      · rw [if_neg h2, List.pairwise_cons]
        refine ⟨?_, ih h.2⟩
        intro b hb
        rcases (mem_setInsert x b t).mp hb with rfl | hb
        · omega
        · exact h.1 b hb

theorem mapOutcome_ok {α β : Type} {f : α → Outcome β} {g : α → β} (l : List α)
    (h : ∀ a ∈ l, f a = .ok (g a)) : mapOutcome f l = .ok (l.map g) := by
  induction l with
  | nil => rfl
  | cons a t ih =>
    unfold mapOutcome
    rw [h a (by simp), ih (fun b hb => h b (by simp [hb]))]
    rfl

/-! Equivalence of points. -/

theorem equivalent_refl (p : V3 Rat) : Equivalent p p := ⟨⟨0, 0, 0⟩, by simp [translate]⟩

theorem equivalent_symm {p q : V3 Rat} (h : Equivalent p q) : Equivalent q p := by
  obtain ⟨g, rfl⟩ := h
  exact ⟨⟨-g.x, -g.y, -g.z⟩, by simp [translate]⟩

theorem equivalent_trans {p q r : V3 Rat} (h : Equivalent p q) (h' : Equivalent q r) : Equivalent p r := by
  obtain ⟨g, rfl⟩ := h
  obtain ⟨g', rfl⟩ := h'
  refine ⟨⟨g.x + g'.x, g.y + g'.y, g.z + g'.z⟩, ?_⟩
  simp only [translate, V3.mk.injEq]
  push_cast
  exact ⟨by ring, by ring, by ring⟩

theorem equivalent_mulVec {R : M3} (hR : ∀ g : V3 Int, ∃ h : V3 Int, R.mulVec g.cast = h.cast)
    {p q : V3 Rat} (h : Equivalent p q) : Equivalent (R.mulVec p) (R.mulVec q) := by
  obtain ⟨g, rfl⟩ := h
  obtain ⟨h, hh⟩ := hR g
  refine ⟨h, ?_⟩
  have : translate q g = q.add g.cast := rfl
  rw [this, mulVec_add, hh]; rfl

theorem one_mulVec (v : V3 Rat) : Verif.Props.M3.one.mulVec v = v := by
  simp [Verif.Props.M3.one, M3.mulVec, V3.dot]

theorem one_mem {rots : List M3} (h : IsPointGroup rots) : Verif.Props.M3.one ∈ rots :=
  List.mem_of_mem_head? h.id_first

theorem symRel_refl {rots : List M3} (h : IsPointGroup rots) (coords : Nat → V3 Rat) (i : Nat) :
    SymRelated rots coords i i := ⟨_, one_mem h, by rw [one_mulVec]; exact equivalent_refl _⟩

theorem symRel_symm {rots : List M3} (h : IsPointGroup rots) {coords : Nat → V3 Rat} {i j : Nat}
    (hr : SymRelated rots coords i j) : SymRelated rots coords j i := by
  obtain ⟨R, hR, he⟩ := hr
  obtain ⟨S, hS, hi⟩ := h.inverse R hR
  refine ⟨S, hS, ?_⟩
  have := equivalent_mulVec (h.integral S hS) he
  rw [hi] at this
  exact equivalent_symm this

theorem symRel_trans {rots : List M3} (h : IsPointGroup rots) {coords : Nat → V3 Rat} {i j k : Nat}
    (h1 : SymRelated rots coords i j) (h2 : SymRelated rots coords j k) : SymRelated rots coords i k := by
  obtain ⟨R, hR, he⟩ := h1
  obtain ⟨S, hS, he'⟩ := h2
  obtain ⟨T, hT, hc⟩ := h.closed R hR S hS
  refine ⟨T, hT, ?_⟩
  rw [hc]
  exact equivalent_trans (equivalent_mulVec (h.integral S hS) he) he'

section
variable {n : Nat} {coords : Nat → V3 Rat} {lookup : V3 Rat → Outcome Int}

theorem lookup_cases {p : V3 Rat} (h : LookupCorrect n coords lookup p) :
    (∃ j, j < n ∧ Equivalent p (coords j) ∧ lookup p = .ok (j : Int)) ∨
    ((∀ j, j < n → ¬ Equivalent p (coords j)) ∧ lookup p = .ok (-1)) := by
  by_cases he : ∃ j, j < n ∧ Equivalent p (coords j)
  · obtain ⟨j, hj, hp⟩ := he
    exact Or.inl ⟨j, hj, hp, h.1 j hj hp⟩
  · have hno : ∀ j, j < n → ¬ Equivalent p (coords j) := fun j hj hp => he ⟨j, hj, hp⟩
    exact Or.inr ⟨hno, h.2 hno⟩

theorem lookup_unique {p : V3 Rat} (h : LookupCorrect n coords lookup p) {i j : Nat} (hi : i < n) (hj : j < n)
    (ei : Equivalent p (coords i)) (ej : Equivalent p (coords j)) : i = j := by
  have := (h.1 i hi ei).symm.trans (h.1 j hj ej)
  injection this with this
  exact_mod_cast this

/-- Star of point `ik`: the loop over symmetries. -/
theorem starLoop_spec (ik : Nat) (equiv : Nat → Nat) (rs : List M3)
    (hlook : ∀ R ∈ rs, LookupCorrect n coords lookup (R.mulVec (coords ik)))
    (horb : ∀ R ∈ rs, ∀ j, j < n → Equivalent (R.mulVec (coords ik)) (coords j) → equiv j = j ∧ ik ≤ j)
    (st : StarState) (hst : st.equiv = fun i => if i ∈ st.star then ik else equiv i)
    (hs : st.star.Pairwise (· < ·)) :
    ∃ st', starLoop n coords lookup ik rs st = .ok st' ∧
      st'.equiv = (fun i => if i ∈ st'.star then ik else equiv i) ∧ st'.star.Pairwise (· < ·) ∧
      ∀ j, j ∈ st'.star ↔ (j ∈ st.star ∨ (j < n ∧ ∃ R ∈ rs, Equivalent (R.mulVec (coords ik)) (coords j))) := by
  induction rs generalizing st with
  | nil => exact ⟨st, rfl, hst, hs, by simp⟩
  | cons R rs ih =>
    have hlk := hlook R (by simp)
    have key : ∃ st1, starStep n coords lookup ik R st = .ok st1 ∧
        st1.equiv = (fun i => if i ∈ st1.star then ik else equiv i) ∧ st1.star.Pairwise (· < ·) ∧
        ∀ j, j ∈ st1.star ↔ (j ∈ st.star ∨ (j < n ∧ Equivalent (R.mulVec (coords ik)) (coords j))) := by
      rcases lookup_cases hlk with ⟨j, hj, he, hl⟩ | ⟨hno, hl⟩
      · obtain ⟨ho1, ho2⟩ := horb R (by simp) j hj he
        unfold starStep
        rw [hl]
        simp only [Outcome.bind_eq, Outcome.bind]
        rw [if_pos (by omega), if_neg (by omega), Int.toNat_natCast]
        by_cases hq : st.equiv j = j
        · rw [if_pos hq, if_pos ho2]
          refine ⟨_, rfl, ?_, sorted_setInsert _ _ hs, ?_⟩
          · funext i
            simp only [mem_setInsert, hst]
            by_cases hij : i = j <;> simp [hij]
          · intro i
            simp only [mem_setInsert]
            constructor
            · rintro (rfl | h)
              · exact Or.inr ⟨hj, he⟩
              · exact Or.inl h
            · rintro (h | ⟨hi, hei⟩)
              · exact Or.inr h
              · exact Or.inl (lookup_unique hlk hi hj hei he)
        · rw [if_neg hq]
          have hmem : j ∈ st.star := by
            by_contra hc
            apply hq
            rw [hst]; simp only [hc, if_false]; exact ho1
          refine ⟨st, rfl, hst, hs, ?_⟩
          intro i
          constructor
          · exact Or.inl
          · rintro (h | ⟨hi, hei⟩)
            · exact h
            · rw [lookup_unique hlk hi hj hei he]; exact hmem
      · unfold starStep
        rw [hl]
        simp only [Outcome.bind_eq, Outcome.bind]
        rw [if_neg (by omega)]
        refine ⟨st, rfl, hst, hs, ?_⟩
        intro i
        constructor
        · exact Or.inl
        · rintro (h | ⟨hi, hei⟩)
          · exact h
          · exact absurd hei (hno i hi)
    obtain ⟨st1, h1, h2, h3, h4⟩ := key
    obtain ⟨st', a1, a2, a3, a4⟩ := ih (fun S hS => hlook S (by simp [hS]))
      (fun S hS => horb S (by simp [hS])) st1 h2 h3
    refine ⟨st', ?_, a2, a3, ?_⟩
    · unfold starLoop; rw [h1]; simpa [Outcome.bind_eq, Outcome.bind] using a1
    · intro j
      rw [a4, h4]
      constructor
      · rintro ((h | ⟨hj, he⟩) | ⟨hj, S, hS, he⟩)
        · exact Or.inl h
        · exact Or.inr ⟨hj, R, by simp, he⟩
        · exact Or.inr ⟨hj, S, by simp [hS], he⟩
      · rintro (h | ⟨hj, S, hS, he⟩)
        · exact Or.inl (Or.inl h)
        · rcases List.mem_cons.mp hS with rfl | hS
          · exact Or.inl (Or.inr ⟨hj, he⟩)
          · exact Or.inr ⟨hj, S, hS, he⟩

/-- Invariant of the loop over points. -/
structure IrrInv (rots : List M3) (n : Nat) (coords : Nat → V3 Rat) (m : Nat) (equiv : Nat → Nat) : Prop where
  fresh : ∀ j, j < n → (∀ i, i < m → ¬ SymRelated rots coords i j) → equiv j = j
  least : ∀ j, j < n → ∀ i, i < m → SymRelated rots coords i j → equiv j ≤ i
  rel : ∀ j, j < n → SymRelated rots coords (equiv j) j
  lt : ∀ j, j < n → equiv j = j ∨ equiv j < m

theorem irrLoop_spec {rots : List M3} (hg : IsPointGroup rots)
    (hlook : ∀ R ∈ rots, ∀ i, i < n → LookupCorrect n coords lookup (R.mulVec (coords i)))
    (fuel m : Nat) (hm : m + fuel = n) (equiv : Nat → Nat) (hinv : IrrInv rots n coords m equiv)
    (stars : List (List Nat)) :
    ∃ equiv' new, irrLoop n coords lookup rots fuel m equiv stars = .ok (equiv', stars ++ new) ∧
      IrrInv rots n coords n equiv' ∧ (∀ j, j < m → equiv' j = equiv j) ∧
      new.length = ((List.range' m fuel).filter (fun i => equiv' i = i)).length ∧
      ∀ k (hk : k < new.length) (hk' : k < ((List.range' m fuel).filter (fun i => equiv' i = i)).length),
        new[k].Pairwise (· < ·) ∧ ∀ j, j ∈ new[k] ↔
          (j < n ∧ SymRelated rots coords (((List.range' m fuel).filter (fun i => equiv' i = i))[k]) j) := by
  induction fuel generalizing m equiv stars with
  | zero =>
    have : m = n := by omega
    subst this
    refine ⟨equiv, [], by simp [irrLoop], hinv, fun _ _ => rfl, by simp, ?_⟩
    intro k hk
    simp at hk
  | succ fuel ih =>
    have hmn : m < n := by omega
    unfold irrLoop
    by_cases hq : equiv m = m
    · rw [if_pos hq]
      -- no earlier point is related to m
      have hnone : ∀ i, i < m → ¬ SymRelated rots coords i m := by
        intro i hi hr
        have := hinv.least m hmn i hi hr
        omega
      have horbit : ∀ j, j < n → SymRelated rots coords m j → equiv j = j ∧ m ≤ j := by
        intro j hj hr
        refine ⟨hinv.fresh j hj (fun i hi hri => hnone i hi (symRel_trans hg hri (symRel_symm hg hr))), ?_⟩
        by_contra hlt
        exact hnone j (by omega) (symRel_symm hg hr)
      obtain ⟨st', h1, h2, h3, h4⟩ := starLoop_spec (lookup := lookup) m equiv rots
        (fun R hR => hlook R hR m hmn) (fun R hR j hj he => horbit j hj ⟨R, hR, he⟩)
        ⟨equiv, []⟩ (by simp) (by simp)
      have hmem : ∀ j, j ∈ st'.star ↔ (j < n ∧ SymRelated rots coords m j) := by
        intro j; rw [h4]; simp [SymRelated]
      have hinv' : IrrInv rots n coords (m + 1) st'.equiv := by
        rw [h2]
        refine ⟨?_, ?_, ?_, ?_⟩
        · intro j hj hn
          have : ¬ j ∈ st'.star := fun h => hn m (by omega) ((hmem j).mp h).2
          simp only [this, if_false]
          exact hinv.fresh j hj (fun i hi => hn i (by omega))
        · intro j hj i hi hr
          by_cases hjs : j ∈ st'.star
          · simp only [hjs, if_true]
            by_contra hlt
            exact hnone i (by omega)
              (symRel_trans hg hr (symRel_symm hg ((hmem j).mp hjs).2))
          · simp only [hjs, if_false]
            have him : i ≠ m := by
              rintro rfl
              exact hjs ((hmem j).mpr ⟨hj, hr⟩)
            exact hinv.least j hj i (by omega) hr
        · intro j hj
          by_cases hjs : j ∈ st'.star
          · simp only [hjs, if_true]; exact ((hmem j).mp hjs).2
          · simp only [hjs, if_false]; exact hinv.rel j hj
        · intro j hj
          by_cases hjs : j ∈ st'.star
          · simp only [hjs, if_true]; right; omega
          · simp only [hjs, if_false]
            rcases hinv.lt j hj with h | h
            · exact Or.inl h
            · right; omega
      obtain ⟨equiv', new, b1, b2, b3, b4, b5⟩ := ih (m + 1) (by omega) st'.equiv hinv' (stars ++ [st'.star])
      have hem : equiv' m = m := by
        rw [b3 m (by omega), h2]
        have : m ∈ st'.star := (hmem m).mpr ⟨hmn, symRel_refl hg _ _⟩
        simp [this]
      have hfil : (List.range' m (fuel + 1)).filter (fun i => equiv' i = i) =
          m :: (List.range' (m + 1) fuel).filter (fun i => equiv' i = i) := by
        rw [List.range'_succ, List.filter_cons_of_pos (by simpa using hem)]
      refine ⟨equiv', st'.star :: new, ?_, b2, ?_, ?_, ?_⟩
      · rw [h1]; simp only [Outcome.bind_eq, Outcome.bind]; rw [b1]; simp
      · intro j hj
        rw [b3 j (by omega), h2]
        have : ¬ j ∈ st'.star := fun h => by
          have := (horbit j (by omega) ((hmem j).mp h).2).2; omega
        simp [this]
      · rw [hfil, List.length_cons, List.length_cons, b4]
      · intro k hk hk'
        cases k with
        | zero =>
          simp only [hfil, List.getElem_cons_zero]
          exact ⟨h3, hmem⟩
        | succ k =>
          simp only [hfil, List.getElem_cons_succ]
          exact b5 k (by simpa using hk) (by rw [hfil] at hk'; simpa using hk')
    · rw [if_neg hq]
      have hlt : equiv m < m := by
        rcases hinv.lt m hmn with h | h
        · exact absurd h hq
        · exact h
      have hinv' : IrrInv rots n coords (m + 1) equiv := by
        refine ⟨fun j hj hn => hinv.fresh j hj (fun i hi => hn i (by omega)), ?_, hinv.rel, ?_⟩
        · intro j hj i hi hr
          by_cases him : i = m
          · subst him
            have := hinv.least j hj (equiv i) hlt (symRel_trans hg (hinv.rel i hmn) hr)
            omega
          · exact hinv.least j hj i (by omega) hr
        · intro j hj
          rcases hinv.lt j hj with h | h
          · exact Or.inl h
          · right; omega
      obtain ⟨equiv', new, b1, b2, b3, b4, b5⟩ := ih (m + 1) (by omega) equiv hinv' stars
      have hem : equiv' m ≠ m := by rw [b3 m (by omega)]; exact hq
      have hfil : (List.range' m (fuel + 1)).filter (fun i => equiv' i = i) =
          (List.range' (m + 1) fuel).filter (fun i => equiv' i = i) := by
        rw [List.range'_succ, List.filter_cons_of_neg (by simpa using hem)]
      refine ⟨equiv', new, b1, b2, fun j hj => b3 j (by omega), by rw [hfil, b4], ?_⟩
      intro k hk hk'
      simp only [hfil]
      exact b5 k hk (by rw [hfil] at hk'; exact hk')

theorem firstRotation_spec (kIrr : V3 Rat) (ikRed : Nat) (hr : ikRed < n) (rs : List M3) (is : Nat)
    (hlook : ∀ R ∈ rs, LookupCorrect n coords lookup (R.mulVec kIrr))
    (hex : ∃ R ∈ rs, Equivalent (R.mulVec kIrr) (coords ikRed)) :
    ∃ k, ∃ hk : k < rs.length, firstRotation lookup kIrr ikRed rs is = .ok ((is + k : Nat) : Int) ∧
      Equivalent (rs[k].mulVec kIrr) (coords ikRed) := by
  induction rs generalizing is with
  | nil => simp at hex
  | cons R rs ih =>
    unfold firstRotation
    have hlk := hlook R (by simp)
    by_cases he : Equivalent (R.mulVec kIrr) (coords ikRed)
    · rw [hlk.1 ikRed hr he]
      refine ⟨0, by simp, by simp [Outcome.bind_eq, Outcome.bind], he⟩
    · have hne : ∃ v, lookup (R.mulVec kIrr) = .ok v ∧ v ≠ (ikRed : Int) := by
        rcases lookup_cases hlk with ⟨j, hj, hej, hl⟩ | ⟨_, hl⟩
        · refine ⟨_, hl, ?_⟩
          intro hc
          have : j = ikRed := by exact_mod_cast hc
          subst this; exact he hej
        · exact ⟨_, hl, by omega⟩
      obtain ⟨v, hv, hvn⟩ := hne
      rw [hv]
      simp only [Outcome.bind_eq, Outcome.bind]
      rw [if_neg hvn]
      obtain ⟨k, hk, h1, h2⟩ := ih (is + 1) (fun S hS => hlook S (by simp [hS])) (by
        obtain ⟨S, hS, hes⟩ := hex
        rcases List.mem_cons.mp hS with rfl | hS
        · exact absurd hes he
        · exact ⟨S, hS, hes⟩)
      refine ⟨k + 1, by simpa using hk, ?_, by simpa using h2⟩
      rw [h1]; congr 2; omega

theorem rotationCandidates_spec (kIrr : V3 Rat) (ikRed : Nat) (hr : ikRed < n) (diff : Nat → Rat)
    (rs : List M3) (is : Nat)
    (hlook : ∀ R ∈ rs, LookupCorrect n coords lookup (R.mulVec kIrr)) :
    ∃ c, rotationCandidates lookup kIrr ikRed diff rs is = .ok c ∧
      ∀ a, a ∈ c ↔ ∃ k, ∃ hk : k < rs.length, a = (is + k, diff (is + k)) ∧
        Equivalent (rs[k].mulVec kIrr) (coords ikRed) := by
  induction rs generalizing is with
  | nil => exact ⟨[], rfl, by simp⟩
  | cons R rs ih =>
    obtain ⟨c, h1, h2⟩ := ih (is + 1) (fun S hS => hlook S (by simp [hS]))
    have hlk := hlook R (by simp)
    unfold rotationCandidates
    have shift : ∀ a, (∃ k, ∃ hk : k < rs.length, a = (is + 1 + k, diff (is + 1 + k)) ∧
        Equivalent (rs[k].mulVec kIrr) (coords ikRed)) ↔
        (∃ k, ∃ hk : k + 1 < (R :: rs).length, a = (is + (k + 1), diff (is + (k + 1))) ∧
        Equivalent ((R :: rs)[k + 1].mulVec kIrr) (coords ikRed)) := by
      intro a
      constructor
      · rintro ⟨k, hk, e, h⟩
        exact ⟨k, by simpa using hk, by rw [e, show is + 1 + k = is + (k + 1) by omega], by simpa using h⟩
      · rintro ⟨k, hk, e, h⟩
        exact ⟨k, by simpa using hk, by rw [e, show is + 1 + k = is + (k + 1) by omega], by simpa using h⟩
    by_cases he : Equivalent (R.mulVec kIrr) (coords ikRed)
    · rw [hlk.1 ikRed hr he, h1]
      refine ⟨(is, diff is) :: c, by simp [Outcome.bind_eq, Outcome.bind], ?_⟩
      intro a
      rw [List.mem_cons, h2, shift]
      constructor
      · rintro (rfl | ⟨k, hk, h⟩)
        · exact ⟨0, by simp, by simp, he⟩
        · exact ⟨k + 1, hk, h⟩
      · rintro ⟨k, hk, e, h⟩
        cases k with
        | zero => left; simpa using e
        | succ k => right; exact ⟨k, hk, e, h⟩
    · have hne : ∃ v, lookup (R.mulVec kIrr) = .ok v ∧ v ≠ (ikRed : Int) := by
        rcases lookup_cases hlk with ⟨j, hj, hej, hl⟩ | ⟨_, hl⟩
        · refine ⟨_, hl, ?_⟩
          intro hc
          have : j = ikRed := by exact_mod_cast hc
          subst this; exact he hej
        · exact ⟨_, hl, by omega⟩
      obtain ⟨v, hv, hvn⟩ := hne
      rw [hv, h1]
      simp only [Outcome.bind_eq, Outcome.bind]
      rw [if_pos hvn]
      refine ⟨c, rfl, ?_⟩
      intro a
      rw [h2, shift]
      constructor
      · rintro ⟨k, hk, h⟩; exact ⟨k + 1, hk, h⟩
      · rintro ⟨k, hk, e, h⟩
        cases k with
        | zero => exact absurd h he
        | succ k => exact ⟨k, hk, e, h⟩

theorem minCandidate_spec (c : List (Nat × Rat)) (hc : c ≠ []) :
    ∃ b, minCandidate c = some b ∧ b ∈ c ∧ ∀ a ∈ c, b.2 ≤ a.2 := by
  induction c with
  | nil => exact absurd rfl hc
  | cons a t ih =>
    unfold minCandidate
    by_cases ht : t = []
    · subst ht
      exact ⟨a, rfl, by simp, by simp⟩
    · obtain ⟨b, h1, h2, h3⟩ := ih ht
      rw [h1]
      simp only
      by_cases hlt : b.2 < a.2
      · rw [if_pos hlt]
        refine ⟨b, rfl, by simp [h2], ?_⟩
        intro x hx
        rcases List.mem_cons.mp hx with rfl | hx
        · exact le_of_lt hlt
        · exact h3 x hx
      · rw [if_neg hlt]
        refine ⟨a, rfl, by simp, ?_⟩
        intro x hx
        rcases List.mem_cons.mp hx with rfl | hx
        · exact le_refl _
        · exact le_trans (not_lt.mp hlt) (h3 x hx)

theorem rotationIndex_spec {rots : List M3} (hg : IsPointGroup rots)
    (hlook : ∀ R ∈ rots, ∀ i, i < n → LookupCorrect n coords lookup (R.mulVec (coords i)))
    (vel : Option (Nat → Nat → Rat)) (equiv : Nat → Nat) (j : Nat) (hj : j < n) (hej : equiv j < n)
    (hrel : SymRelated rots coords (equiv j) j) :
    ∃ k, ∃ hk : k < rots.length, rotationIndex coords lookup rots vel equiv j = .ok ((k : Nat) : Int) ∧
      Equivalent (rots[k].mulVec (coords (equiv j))) (coords j) := by
  unfold rotationIndex
  by_cases he : equiv j = j
  · rw [if_pos he]
    have h0 := hg.id_first
    have hlen : 0 < rots.length := by
      cases rots with
      | nil => simp at h0
      | cons a t => simp
    refine ⟨0, hlen, rfl, ?_⟩
    have : rots[0] = Verif.Props.M3.one := by
      cases rots with
      | nil => simp at h0
      | cons a t => simpa using h0
    rw [this, one_mulVec, he]; exact equivalent_refl _
  · rw [if_neg he]
    obtain ⟨R, hR, hre⟩ := hrel
    cases vel with
    | none =>
      simp only
      obtain ⟨k, hk, h1, h2⟩ := firstRotation_spec (n := n) (coords := coords) (lookup := lookup)
        (coords (equiv j)) j hj rots 0 (fun S hS => hlook S hS _ hej) ⟨R, hR, hre⟩
      exact ⟨k, hk, by rw [h1, Nat.zero_add], h2⟩
    | some diff =>
      simp only
      obtain ⟨c, h1, h2⟩ := rotationCandidates_spec (n := n) (coords := coords) (lookup := lookup)
        (coords (equiv j)) j hj (diff j) rots 0 (fun S hS => hlook S hS _ hej)
      obtain ⟨k, hk, hkR⟩ := List.getElem_of_mem hR
      have hmem : (0 + k, diff j (0 + k)) ∈ c := (h2 _).mpr ⟨k, hk, rfl, by rw [hkR]; exact hre⟩
      obtain ⟨b, b1, b2, _⟩ := minCandidate_spec c (List.ne_nil_of_mem hmem)
      obtain ⟨k', hk', e, h⟩ := (h2 b).mp b2
      rw [h1]
      simp only [Outcome.bind_eq, Outcome.bind, b1]
      refine ⟨k', hk', ?_, h⟩
      rw [e]; simp

/-- `lower_bound` of an element of an ascending list is its position. -/
theorem lowerBound_getElem (l : List Nat) (h : l.Pairwise (· < ·)) (k : Nat) (hk : k < l.length) :
    lowerBound l[k] l = k := by
  induction l generalizing k with
  | nil => simp at hk
  | cons a t ih =>
    rw [List.pairwise_cons] at h
    unfold lowerBound
    cases k with
    | zero => simp
    | succ k =>
      have hk' : k < t.length := by simpa using hk
      have ha : a < t[k] := h.1 _ (List.getElem_mem hk')
      simp only [List.getElem_cons_succ]
      rw [List.takeWhile_cons_of_pos (by simpa using ha), List.length_cons]
      have := ih h.2 k hk'
      unfold lowerBound at this
      rw [this]

end

/-- Everything `setIrreduciblePoints` computes. -/
theorem setIrr_spec {nProc rank n : Nat} {coords : Nat → V3 Rat} {lookup : V3 Rat → Outcome Int}
    {rots : List M3} (hg : IsPointGroup rots)
    (hlook : ∀ R ∈ rots, ∀ i, i < n → LookupCorrect n coords lookup (R.mulVec (coords i)))
    (hrank : rank < nProc) (hfit : n * nProc < sizeTMod) (vel : Option (Nat → Nat → Rat))
    (stars0 : List (List Nat)) :
    ∃ s new, setIrreduciblePoints nProc rank n coords lookup rots vel stars0 = .ok s ∧
      IrrInv rots n coords n s.equiv ∧
      s.irrToRed = (List.range n).filter (fun i => s.equiv i = i) ∧
      s.redToIrr = (List.range n).map (fun i => lowerBound (s.equiv i) s.irrToRed) ∧
      s.irreducibleStars = stars0 ++ new ∧ new.length = s.irrToRed.length ∧
      (∀ k (hk : k < new.length) (hk' : k < s.irrToRed.length), new[k].Pairwise (· < ·) ∧
        ∀ j, j ∈ new[k] ↔ (j < n ∧ SymRelated rots coords (s.irrToRed[k]) j)) ∧
      s.rotIndex.length = n ∧
      ∀ j (hj : j < s.rotIndex.length), ∃ k, ∃ hk : k < rots.length, s.rotIndex[j] = ((k : Nat) : Int) ∧
        Equivalent (rots[k].mulVec (coords (s.equiv j))) (coords j) := by
  have hid := hg.id_first
  obtain ⟨equiv, new, h1, h2, h3, h4, h5⟩ := irrLoop_spec hg hlook n 0 (by omega) (fun i => i)
    ⟨fun j _ _ => rfl, fun j _ i hi => absurd hi (by omega), fun j _ => symRel_refl hg _ _,
      fun j _ => Or.inl rfl⟩ stars0
  rw [← List.range_eq_range'] at h4 h5
  have hlt : ∀ j, j < n → equiv j < n := by
    intro j hj
    rcases h2.lt j hj with h | h
    · rw [h]; exact hj
    · exact h
  have hrot : ∀ j, ∃ k : Nat, j < n → ∃ hk : k < rots.length,
      rotationIndex coords lookup rots vel equiv j = .ok (k : Int) ∧
      Equivalent (rots[k].mulVec (coords (equiv j))) (coords j) := by
    intro j
    by_cases hj : j < n
    · obtain ⟨k, hk, a⟩ := rotationIndex_spec hg hlook vel equiv j hj (hlt j hj) (h2.rel j hj)
      exact ⟨k, fun _ => ⟨hk, a⟩⟩
    · exact ⟨0, fun h => absurd h hj⟩
  choose rk hrk using hrot
  have hmap : mapOutcome (rotationIndex coords lookup rots vel equiv) (List.range n) =
      .ok ((List.range n).map (fun j => (rk j : Int))) := by
    apply mapOutcome_ok
    intro j hj
    exact (hrk j (by simpa using hj)).2.1
  set irrToRed := (List.range n).filter (fun i => equiv i = i) with hirr
  set f : Nat → Nat := fun ik => lowerBound (equiv ik) irrToRed with hf
  have hbufs : mapOutcome (fun r => do
      let w ← divideWorkIter n r nProc
      .ok (fun ik : Nat => if ik ∈ w then lowerBound (equiv ik) irrToRed else 0)) (List.range nProc) =
      .ok ((List.range nProc).map (fun r => fun ik : Nat =>
        if ik ∈ List.range' (head n nProc r) (head n nProc (r + 1) - head n nProc r) then f ik else 0)) := by
    apply mapOutcome_ok
    intro r hr
    rw [divideWorkIter_val hfit (by simpa using hr)]
    rfl
  set bufs := (List.range nProc).map (fun r => fun ik : Nat =>
        if ik ∈ List.range' (head n nProc r) (head n nProc (r + 1) - head n nProc r) then f ik else 0) with hb
  have hred : ∃ o, (allReduceSum1 bufs)[rank]? = some o ∧ ∀ i, i < n → o i = f i := by
    have key := fun i hi => C11_fill_reduce n nProc (by omega) hfit f bufs (by simp [hb]) (by
      intro r hr
      have hr' : r < nProc := by simpa [hb] using hr
      refine ⟨_, divideWorkIter_val hfit hr', ?_⟩
      intro i
      simp only [bufs, List.getElem_map, List.getElem_range]) rank hrank i hi
    by_cases hn : 0 < n
    · obtain ⟨o, ho, _⟩ := key 0 hn
      refine ⟨o, ho, ?_⟩
      intro i hi
      obtain ⟨o', ho', he⟩ := key i hi
      rw [ho] at ho'; cases ho'; exact he
    · have hlen : (allReduceSum1 bufs).length = nProc := by
        unfold allReduceSum1; split <;> simp [hb]
      exact ⟨_, List.getElem?_eq_getElem (by omega), fun i hi => absurd hi (by omega)⟩
  obtain ⟨o, ho1, ho2⟩ := hred
  refine ⟨⟨equiv, stars0 ++ new, (List.range n).map (fun j => (rk j : Int)), irrToRed,
    (List.range n).map o⟩, new, ?_, h2, rfl, ?_, rfl, h4, h5, by simp, ?_⟩
  · unfold setIrreduciblePoints
    rw [if_neg (by simp [hid]), if_neg (by rw [hid]; simp [Verif.Props.M3.one]), h1]
    simp only [Outcome.bind_eq, Outcome.bind] at hbufs ⊢
    rw [hmap]
    simp only [Outcome.bind]
    rw [hbufs]
    simp only [Outcome.bind]
    rw [ho1]
  · simp only
    apply List.map_congr_left
    intro i hi
    exact ho2 i (by simpa using hi)
  · intro j hj
    have hj' : j < n := by simpa using hj
    obtain ⟨hk, _, he⟩ := hrk j hj'
    exact ⟨rk j, hk, by simp, he⟩

end Verif.Model
