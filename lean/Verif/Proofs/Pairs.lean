import Verif.Model.Pairs
import Verif.Proofs.VectorBte
import Verif.Proofs.IrrPoints

namespace Verif.Model

theorem smatIndexInv_val (sym : Bool) (numStates iMat : Nat) (h : (iMat : Int) ≤ intMax) :
    smatIndexInv sym numStates iMat = .ok (if sym then (iMat / 3, iMat % 3) else (iMat, 0)) := by
  unfold smatIndexInv
  cases sym with
  | false => rfl
  | true =>
    simp only [if_true, Outcome.bind_eq]
    rw [decompress2_val (Int.natCast_nonneg _) h (by norm_num)]
    simp only [Outcome.bind_ok, Outcome.ok.injEq, Prod.mk.injEq]
    constructor <;> omega

theorem smatIndex_val (sym : Bool) (numStates b i : Nat) (hb : b < numStates) (hi : i < 3)
    (h : (numStates : Int) * 3 ≤ intMax) :
    smatIndex sym numStates b i = .ok (if sym then b * 3 + i else b) := by
  unfold smatIndex
  cases sym with
  | false => rfl
  | true =>
    simp only [if_true, Outcome.bind_eq]
    rw [compress2_val (Int.natCast_nonneg _) (by exact_mod_cast hb) (Int.natCast_nonneg _) (by exact_mod_cast hi)
      (by omega)]
    simp only [Outcome.bind_ok, Outcome.ok.injEq]
    omega

/-! ## Ordered sets of pairs -/

theorem pairLt_iff (a b : Nat × Nat) : pairLt a b = true ↔ a.1 < b.1 ∨ (a.1 = b.1 ∧ a.2 < b.2) := by
  simp [pairLt]

theorem mem_pairInsert (x y : Nat × Nat) (l : List (Nat × Nat)) : y ∈ pairInsert x l ↔ y = x ∨ y ∈ l := by
  induction l with
  | nil => simp [pairInsert]
  | cons a t ih =>
    unfold pairInsert
    by_cases h1 : pairLt x a = true
    · rw [if_pos h1]; simp
    · rw [if_neg h1]
      by_cases h2 : x = a
      · rw [if_pos h2]; subst h2; simp
      · rw [if_neg h2]
        simp only [List.mem_cons, ih]
        tauto

theorem sorted_pairInsert (x : Nat × Nat) (l : List (Nat × Nat)) (h : l.Pairwise fun a b => pairLt a b = true) :
    (pairInsert x l).Pairwise fun a b => pairLt a b = true := by
  induction l with
  | nil => simp [pairInsert]
  | cons a t ih =>
    rw [List.pairwise_cons] at h
    unfold pairInsert
    by_cases h1 : pairLt x a = true
    · rw [if_pos h1, List.pairwise_cons]
      refine ⟨?_, List.pairwise_cons.mpr h⟩
      intro b hb
      rcases List.mem_cons.mp hb with rfl | hb
      · exact h1
      · have h2 := h.1 b hb
        rw [pairLt_iff] at h1 h2 ⊢
        omega
    · rw [if_neg h1]
      by_cases h2 : x = a
      · rw [if_pos h2]; exact List.pairwise_cons.mpr h
      · rw [if_neg h2, List.pairwise_cons]
        refine ⟨?_, ih h.2⟩
        intro b hb
        rcases (mem_pairInsert x b t).mp hb with rfl | hb
        · have : ¬ (b.1 = a.1 ∧ b.2 = a.2) := fun e => h2 (Prod.ext e.1 e.2)
          rw [pairLt_iff] at h1 ⊢
          omega
        · exact h.1 b hb

theorem pairSet (l : List (Nat × Nat)) :
    (∀ y, y ∈ l.foldl (fun s x => pairInsert x s) [] ↔ y ∈ l) ∧ (l.foldl (fun s x => pairInsert x s) []).Nodup := by
  have key : ∀ (l s : List (Nat × Nat)), s.Pairwise (fun a b => pairLt a b = true) →
      (∀ y, y ∈ l.foldl (fun s x => pairInsert x s) s ↔ y ∈ s ∨ y ∈ l) ∧
      (l.foldl (fun s x => pairInsert x s) s).Pairwise fun a b => pairLt a b = true := by
    intro l
    induction l with
    | nil => intro s hs; simpa using hs
    | cons x t ih =>
      intro s hs
      obtain ⟨h1, h2⟩ := ih (pairInsert x s) (sorted_pairInsert x s hs)
      refine ⟨?_, h2⟩
      intro y
      rw [List.foldl_cons, h1, mem_pairInsert, List.mem_cons]
      tauto
  obtain ⟨h1, h2⟩ := key l [] List.Pairwise.nil
  refine ⟨fun y => by rw [h1]; simp, ?_⟩
  refine h2.imp ?_
  intro a b h he
  subst he
  rw [pairLt_iff] at h
  omega

/-! ## Grouping -/

theorem mem_keys (key : Nat × Nat → Nat) (l : List (Nat × Nat)) :
    (∀ q, q ∈ l.foldl (fun s p => setInsert (key p) s) [] ↔ ∃ p ∈ l, key p = q) ∧
    (l.foldl (fun s p => setInsert (key p) s) []).Nodup := by
  have hk : ∀ (x y : Nat) (s : List Nat), y ∈ setInsert x s ↔ y = x ∨ y ∈ s := by
    intro x y s
    induction s with
    | nil => simp [setInsert]
    | cons a t ih =>
      unfold setInsert
      by_cases h1 : x < a
      · rw [if_pos h1]; simp
      · rw [if_neg h1]
        by_cases h2 : x = a
        · rw [if_pos h2]; subst h2; simp
        · rw [if_neg h2]
          simp only [List.mem_cons, ih]
          tauto
  have hs : ∀ (x : Nat) (s : List Nat), s.Pairwise (· < ·) → (setInsert x s).Pairwise (· < ·) := by
    intro x s h
    induction s with
    | nil => simp [setInsert]
    | cons a t ih =>
      rw [List.pairwise_cons] at h
      unfold setInsert
      by_cases h1 : x < a
      · rw [if_pos h1, List.pairwise_cons]
        refine ⟨?_, List.pairwise_cons.mpr h⟩
        intro b hb
        rcases List.mem_cons.mp hb with rfl | hb
        · exact h1
        · exact lt_trans h1 (h.1 b hb)
      · rw [if_neg h1]
        by_cases h2 : x = a
        · rw [if_pos h2]; exact List.pairwise_cons.mpr h
        · rw [if_neg h2, List.pairwise_cons]
          refine ⟨?_, ih h.2⟩
          intro b hb
          rcases (hk x b t).mp hb with rfl | hb
          · omega
          · exact h.1 b hb
  have key' : ∀ (l : List (Nat × Nat)) (s : List Nat), s.Pairwise (· < ·) →
      (∀ q, q ∈ l.foldl (fun s p => setInsert (key p) s) s ↔ q ∈ s ∨ ∃ p ∈ l, key p = q) ∧
      (l.foldl (fun s p => setInsert (key p) s) s).Pairwise (· < ·) := by
    intro l
    induction l with
    | nil => intro s h; simpa using h
    | cons x t ih =>
      intro s h
      obtain ⟨h1, h2⟩ := ih (setInsert (key x) s) (hs _ s h)
      refine ⟨?_, h2⟩
      intro q
      rw [List.foldl_cons, h1, hk]
      simp only [List.mem_cons, exists_eq_or_imp]
      constructor
      · rintro ((h | h) | h)
        · exact .inr (.inl h.symm)
        · exact .inl h
        · exact .inr (.inr h)
      · rintro (h | h | h)
        · exact .inl (.inr h)
        · exact .inl (.inl h.symm)
        · exact .inr h
  obtain ⟨h1, h2⟩ := key' l [] List.Pairwise.nil
  exact ⟨fun q => by rw [h1]; simp, h2.imp (fun h => by omega)⟩

theorem groupLoop_val (keys : List Nat) (hk : keys.Nodup) (key other : Nat × Nat → Nat) (ps : List (Nat × Nat))
    (hp : ∀ p ∈ ps, key p ∈ keys) : ∀ (g : Nat → List Int),
    groupLoop keys key other ps (keys.map fun (q : Nat) => (g q, (q : Int))) =
      .ok (keys.map fun (q : Nat) => (g q ++ (ps.filter fun p => key p = q).map fun p => (other p : Int), (q : Int))) := by
  induction ps with
  | nil => intro g; simp [groupLoop]
  | cons p ps ih =>
    intro g
    have hp0 := hp p (by simp)
    have hstep : groupStep keys key other (keys.map fun (q : Nat) => (g q, (q : Int))) p =
        .ok (keys.map fun (q : Nat) => ((fun q => if key p = q then g q ++ [(other p : Int)] else g q) q, (q : Int))) := by
      unfold groupStep
      obtain ⟨i, hi⟩ : ∃ i, keys.findIdx? (fun x => x == key p) = some i := by
        rw [← Option.isSome_iff_exists, List.findIdx?_isSome]
        exact List.any_eq_true.mpr ⟨key p, hp0, by simp⟩
      rw [hi]
      obtain ⟨hlt, hget, _⟩ := List.findIdx?_eq_some_iff_getElem.mp hi
      have hget : keys[i] = key p := by simpa using hget
      simp only [Outcome.ok.injEq]
      apply List.ext_getElem
      · simp
      · intro j h1 h2
        have hj : j < keys.length := by simpa using h2
        rw [List.getElem_modify]
        simp only [List.getElem_map]
        by_cases hij : i = j
        · subst hij
          rw [if_pos rfl, if_pos hget.symm]
        · rw [if_neg hij, if_neg]
          intro hc
          exact hij ((List.Nodup.getElem_inj_iff hk).mp (hget.trans hc))
    unfold groupLoop
    rw [hstep]
    simp only [Outcome.bind_eq, Outcome.bind_ok]
    rw [ih (fun p hp' => hp p (by simp [hp']))]
    congr 1
    apply List.map_congr_left
    intro q _
    by_cases h : key p = q
    · simp [h]
    · simp [h]

theorem groupPairs_val (key other : Nat × Nat → Nat) (ps : List (Nat × Nat)) :
    ∃ keys : List Nat, keys.Nodup ∧ (∀ q, q ∈ keys ↔ ∃ p ∈ ps, key p = q) ∧
      groupPairs key other ps =
        .ok (keys.map fun (q : Nat) => ((ps.filter fun p => key p = q).map fun p => (other p : Int), (q : Int))) := by
  obtain ⟨h1, h2⟩ := mem_keys key ps
  refine ⟨_, h2, h1, ?_⟩
  unfold groupPairs
  simp only
  rw [groupLoop_val _ h2 key other ps (fun p hp => (h1 _).mpr ⟨p, hp, rfl⟩) (fun _ => [])]
  simp

/-- Grouping keeps the pairs: with `unpack` giving back a pair from its key and the other component. -/
theorem group_perm (key other : Nat × Nat → Nat) (unpack : Nat → Nat → Nat × Nat)
    (hu : ∀ p, unpack (key p) (other p) = p) (ps : List (Nat × Nat)) (keys : List Nat) (hk : keys.Nodup)
    (hm : ∀ q, q ∈ keys ↔ ∃ p ∈ ps, key p = q) :
    (keys.flatMap fun q => ((ps.filter fun p => key p = q).map fun p => unpack q (other p))).Perm ps := by
  have e : (keys.flatMap fun q => ((ps.filter fun p => key p = q).map fun p => unpack q (other p))) =
      keys.flatMap fun q => ps.filter fun p => key p = q := by
    congr 1
    funext q
    conv_rhs => rw [← List.map_id (ps.filter fun p => key p = q)]
    apply List.map_congr_left
    intro p hp
    have : key p = q := by simpa using (List.mem_filter.mp hp).2
    subst this
    exact hu p
  rw [e]
  have hall : ∀ p ∈ ps, key p ∈ keys := fun p hp => (hm _).mpr ⟨p, hp, rfl⟩
  clear hm e
  induction ps with
  | nil => simp
  | cons p ps ih =>
    have ih := ih (fun a ha => hall a (by simp [ha]))
    have hp := hall p (by simp)
    obtain ⟨l1, l2, rfl⟩ := List.append_of_mem hp
    have hn1 : ∀ q ∈ l1, ¬ key p = q := by
      intro q hq he
      rw [List.nodup_append] at hk
      exact hk.2.2 q hq (key p) (by simp) he.symm
    have hn2 : ∀ q ∈ l2, ¬ key p = q := by
      intro q hq he
      have := (List.nodup_append.mp hk).2.1
      rw [List.nodup_cons] at this
      exact this.1 (he ▸ hq)
    have f1 : ∀ l : List Nat, (∀ q ∈ l, ¬ key p = q) → (l.flatMap fun q => (p :: ps).filter fun p => key p = q) =
        l.flatMap fun q => ps.filter fun p => key p = q := by
      intro l hl
      induction l with
      | nil => rfl
      | cons a t iht =>
        rw [List.flatMap_cons, List.flatMap_cons, iht (fun q hq => hl q (by simp [hq])),
          List.filter_cons_of_neg (by simpa using hl a (by simp))]
    rw [List.flatMap_append, List.flatMap_cons, f1 l1 hn1, f1 l2 hn2, List.filter_cons_of_pos (by simp)]
    rw [List.flatMap_append, List.flatMap_cons] at ih
    rw [List.cons_append]
    refine List.perm_middle.trans (List.Perm.cons p ih)

theorem localPairs_val (sym : Bool) (numStates : Nat) (bteToPoint : Nat → Nat) (star : Nat → List Nat)
    (states : List (Nat × Nat)) (hfit : ∀ t ∈ states, (t.1 : Int) ≤ intMax ∧ (t.2 : Int) ≤ intMax) :
    ∃ ps, localPairs sym numStates bteToPoint star states = .ok ps ∧ ps.Nodup ∧
      ∀ y, y ∈ ps ↔ ∃ t ∈ states, y.1 = bteToPoint (if sym then t.1 / 3 else t.1) ∧
        y.2 ∈ star (bteToPoint (if sym then t.2 / 3 else t.2)) := by
  have hmap : mapOutcome (pairsOfElement sym numStates bteToPoint star) states =
      .ok (states.map fun t => (star (bteToPoint (if sym then t.2 / 3 else t.2))).map fun ik2 =>
        (bteToPoint (if sym then t.1 / 3 else t.1), ik2)) := by
    apply mapOutcome_ok
    intro t ht
    unfold pairsOfElement
    rw [smatIndexInv_val _ _ _ (hfit t ht).1, smatIndexInv_val _ _ _ (hfit t ht).2]
    simp only [Outcome.bind_eq, Outcome.bind_ok]
    cases sym <;> rfl
  unfold localPairs
  rw [hmap]
  simp only [Outcome.bind_eq, Outcome.bind_ok]
  refine ⟨_, rfl, (pairSet _).2, ?_⟩
  intro y
  rw [(pairSet _).1]
  simp only [List.mem_flatten, List.mem_map]
  constructor
  · rintro ⟨l, ⟨t, ht, rfl⟩, hy⟩
    obtain ⟨k, hk, rfl⟩ := List.mem_map.mp hy
    exact ⟨t, ht, rfl, hk⟩
  · rintro ⟨t, ht, h1, h2⟩
    exact ⟨_, ⟨t, ht, rfl⟩, List.mem_map.mpr ⟨y.2, h2, Prod.ext h1.symm rfl⟩⟩

theorem foldl_max_bounds (l : List Nat) (a : Nat) : a ≤ l.foldl max a ∧ ∀ x ∈ l, x ≤ l.foldl max a := by
  induction l generalizing a with
  | nil => simp
  | cons x t ih =>
    rw [List.foldl_cons]
    obtain ⟨h1, h2⟩ := ih (max a x)
    refine ⟨le_trans (le_max_left _ _) h1, ?_⟩
    intro y hy
    rcases List.mem_cons.mp hy with rfl | hy
    · exact le_trans (le_max_right _ _) h1
    · exact h2 y hy

end Verif.Model
