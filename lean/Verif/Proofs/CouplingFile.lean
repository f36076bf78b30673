import Verif.Spec.CouplingFile
import Verif.Proofs.Atoms

/-! Lemmas for C186. -/
namespace Verif.Proofs
open Verif.Model Verif.Spec Verif.Props

theorem readVectors_val (l : List (V3 ℝ)) (rest : List ℝ) :
    readVectors l.length ((l.flatMap fun v => [v.x, v.y, v.z]) ++ rest) = .ok (l, rest) := by
  induction l with
  | nil => rfl
  | cons v t ih =>
    simp only [List.length_cons, List.flatMap_cons, List.cons_append, List.nil_append, readVectors, nextNumber, Outcome.bind_eq,
      Outcome.bind_ok, ih]

theorem readNumbers_val (l : List ℝ) (rest : List ℝ) : readNumbers l.length (l ++ rest) = .ok (l, rest) := by
  induction l with
  | nil => rfl
  | cons v t ih =>
    simp only [List.length_cons, List.cons_append, readNumbers, nextNumber, Outcome.bind_eq, Outcome.bind_ok, ih]

variable {κ : Type} [DecidableEq κ]

/-- The array after the assignments `pairs`. -/
def assigned (pairs : List (κ × ℂ)) (f : κ → ℂ) : κ → ℂ := pairs.foldl (fun f p k => if k = p.1 then p.2 else f k) f

theorem readElements_val (pairs : List (κ × ℂ)) (rest : List ℝ) (f : κ → ℂ) :
    foldOutcome readElement (pairs.map Prod.fst) ((pairs.flatMap fun p => complexNumbers p.2) ++ rest, f) =
      .ok (rest, assigned pairs f) := by
  induction pairs generalizing f with
  | nil => rfl
  | cons p t ih =>
    simp only [List.map_cons, foldOutcome, List.flatMap_cons, complexNumbers, List.cons_append, List.nil_append, readElement, nextNumber,
      Outcome.bind_eq, Outcome.bind_ok]
    exact ih _

theorem assigned_val (pairs : List (κ × ℂ)) (f : κ → ℂ) (k : κ) (v : ℂ) (h : ∀ p ∈ pairs, p.1 = k → p.2 = v)
    (h' : (∃ p ∈ pairs, p.1 = k) ∨ f k = v) : assigned pairs f k = v := by
  induction pairs generalizing f with
  | nil =>
    rcases h' with ⟨p, hp, _⟩ | h'
    · cases hp
    · exact h'
  | cons p t ih =>
    refine ih (fun j => if j = p.1 then p.2 else f j) (fun q hq => h q (by simp [hq])) ?_
    by_cases hp : p.1 = k
    · right
      rw [if_pos hp.symm]
      exact h p (by simp) hp
    · rcases h' with ⟨q, hq, hk⟩ | h'
      · rcases List.mem_cons.mp hq with rfl | hq
        · exact absurd hk hp
        · exact Or.inl ⟨q, hq, hk⟩
      · right
        rw [if_neg (fun e => hp e.symm)]
        exact h'

/-- Indices and values of the eigenvectors. -/
def evPairs (numModes : Nat) (c : StarContent) : List ((Nat × Nat × Nat) × ℂ) :=
  (List.range c.crystal.length).flatMap fun iq => (List.range numModes).flatMap fun j => (List.range numModes).map fun i =>
    ((i, j, iq), c.eigenvector iq j i)

theorem evPairs_fst (numModes : Nat) (c : StarContent) : (evPairs numModes c).map Prod.fst = eigenvectorLoop c.crystal.length numModes := by
  simp only [evPairs, eigenvectorLoop, List.map_flatMap, List.map_map]
  rfl

theorem evPairs_numbers (numModes : Nat) (c : StarContent) : ((evPairs numModes c).flatMap fun p => complexNumbers p.2) =
    (List.range c.crystal.length).flatMap fun iq => (List.range numModes).flatMap fun j => (List.range numModes).flatMap fun i =>
      complexNumbers (c.eigenvector iq j i) := by
  simp only [evPairs, List.flatMap_assoc, List.flatMap_map]

theorem mem_evPairs (numModes : Nat) (c : StarContent) (p : (Nat × Nat × Nat) × ℂ) : p ∈ evPairs numModes c ↔
    ∃ iq < c.crystal.length, ∃ j < numModes, ∃ i < numModes, p = ((i, j, iq), c.eigenvector iq j i) := by
  simp only [evPairs, List.mem_flatMap, List.mem_map, List.mem_range, eq_comm]

/-- Indices and values of the coupling. -/
def gPairs (numModes numK numBands : Nat) (ikMap : Nat → Nat) (c : StarContent) : List ((Nat × Nat × Nat × Nat × Nat) × ℂ) :=
  (List.range c.crystal.length).flatMap fun iq => (List.range numModes).flatMap fun nu => (List.range numK).flatMap fun ik =>
    (List.range numBands).flatMap fun ib2 => (List.range numBands).map fun ib1 =>
      ((ib1, ib2, nu, ikMap ik, iq), c.coupling iq nu ik ib2 ib1)

theorem gPairs_fst (numModes numK numBands : Nat) (ikMap : Nat → Nat) (c : StarContent) :
    (gPairs numModes numK numBands ikMap c).map Prod.fst = couplingLoop c.crystal.length numModes numK numBands ikMap := by
  simp only [gPairs, couplingLoop, List.map_flatMap, List.map_map]
  rfl

theorem gPairs_numbers (numModes numK numBands : Nat) (ikMap : Nat → Nat) (c : StarContent) :
    ((gPairs numModes numK numBands ikMap c).flatMap fun p => complexNumbers p.2) =
    (List.range c.crystal.length).flatMap fun iq => (List.range numModes).flatMap fun nu => (List.range numK).flatMap fun ik =>
      (List.range numBands).flatMap fun ib2 => (List.range numBands).flatMap fun ib1 => complexNumbers (c.coupling iq nu ik ib2 ib1) := by
  simp only [gPairs, List.flatMap_assoc, List.flatMap_map]

theorem mem_gPairs (numModes numK numBands : Nat) (ikMap : Nat → Nat) (c : StarContent) (p : (Nat × Nat × Nat × Nat × Nat) × ℂ) :
    p ∈ gPairs numModes numK numBands ikMap c ↔ ∃ iq < c.crystal.length, ∃ nu < numModes, ∃ ik < numK, ∃ ib2 < numBands,
      ∃ ib1 < numBands, p = ((ib1, ib2, nu, ikMap ik, iq), c.coupling iq nu ik ib2 ib1) := by
  simp only [gPairs, List.mem_flatMap, List.mem_map, List.mem_range, eq_comm]

theorem numbers_eq (numModes numK numBands : Nat) (ikMap : Nat → Nat) (c : StarContent) : c.numbers numModes numK numBands =
    (c.crystal.flatMap fun v => [v.x, v.y, v.z]) ++ ((c.cartesian.flatMap fun v => [v.x, v.y, v.z]) ++ (c.energies ++
      (((evPairs numModes c).flatMap fun p => complexNumbers p.2) ++
        (((gPairs numModes numK numBands ikMap c).flatMap fun p => complexNumbers p.2) ++ [])))) := by
  rw [evPairs_numbers, gPairs_numbers]
  simp only [StarContent.numbers, List.append_assoc, List.append_nil]

theorem readChunk_val (numModes numK numBands : Nat) (ikMap : Nat → Nat) (c : StarContent) (hc : c.Good numModes) :
    readChunk numModes numBands numK ikMap (c.file numModes numK numBands) =
      .ok ⟨c.crystal, c.energies, assigned (evPairs numModes c) fun _ => 0, assigned (gPairs numModes numK numBands ikMap c) fun _ => 0⟩ := by
  have h1 := fun rest => readVectors_val c.cartesian rest
  rw [hc.1] at h1
  have h2 := fun rest => readNumbers_val c.energies rest
  rw [hc.2] at h2
  unfold StarContent.file readChunk
  rw [numbers_eq numModes numK numBands ikMap c]
  simp only [Outcome.bind_eq]
  rw [readVectors_val, Outcome.bind_ok]
  simp only
  rw [h1, Outcome.bind_ok]
  simp only
  rw [h2, Outcome.bind_ok]
  simp only
  rw [← evPairs_fst, readElements_val, Outcome.bind_ok]
  simp only
  rw [← gPairs_fst, readElements_val, Outcome.bind_ok]

/-! ### Files that end early -/

theorem nextNumber_cases (s : List ℝ) : (s = [] ∧ nextNumber s = .ub) ∨ ∃ x t, s = x :: t ∧ nextNumber s = .ok (x, t) := by
  cases s with
  | nil => exact Or.inl ⟨rfl, rfl⟩
  | cons x t => exact Or.inr ⟨x, t, rfl, rfl⟩

theorem readVectors_cases (n : Nat) (s : List ℝ) : (s.length < 3 * n ∧ readVectors n s = .ub) ∨
    ∃ l t, s.length = 3 * n + t.length ∧ readVectors n s = .ok (l, t) := by
  induction n generalizing s with
  | zero => exact Or.inr ⟨[], s, by simp, rfl⟩
  | succ n ih =>
    match s with
    | [] => exact Or.inl ⟨by simp, rfl⟩
    | [a] => exact Or.inl ⟨by simp; omega, rfl⟩
    | [a, b] => exact Or.inl ⟨by simp; omega, rfl⟩
    | a :: b :: d :: s' =>
      rcases ih s' with ⟨h1, h2⟩ | ⟨l, t, h1, h2⟩
      · refine Or.inl ⟨by simp; omega, ?_⟩
        simp only [readVectors, nextNumber, Outcome.bind_eq, Outcome.bind_ok, h2]
        rfl
      · refine Or.inr ⟨⟨a, b, d⟩ :: l, t, by simp; omega, ?_⟩
        simp only [readVectors, nextNumber, Outcome.bind_eq, Outcome.bind_ok, h2]

theorem readNumbers_cases (n : Nat) (s : List ℝ) : (s.length < n ∧ readNumbers n s = .ub) ∨
    ∃ l t, s.length = n + t.length ∧ readNumbers n s = .ok (l, t) := by
  induction n generalizing s with
  | zero => exact Or.inr ⟨[], s, by simp, rfl⟩
  | succ n ih =>
    match s with
    | [] => exact Or.inl ⟨by simp, rfl⟩
    | a :: s' =>
      rcases ih s' with ⟨h1, h2⟩ | ⟨l, t, h1, h2⟩
      · refine Or.inl ⟨by simp; omega, ?_⟩
        simp only [readNumbers, nextNumber, Outcome.bind_eq, Outcome.bind_ok, h2]
        rfl
      · refine Or.inr ⟨a :: l, t, by simp; omega, ?_⟩
        simp only [readNumbers, nextNumber, Outcome.bind_eq, Outcome.bind_ok, h2]

theorem readElements_cases (keys : List κ) (s : List ℝ) (f : κ → ℂ) :
    (s.length < 2 * keys.length ∧ foldOutcome readElement keys (s, f) = .ub) ∨
    ∃ t g, s.length = 2 * keys.length + t.length ∧ foldOutcome readElement keys (s, f) = .ok (t, g) := by
  induction keys generalizing s f with
  | nil => exact Or.inr ⟨s, f, by simp, rfl⟩
  | cons k ks ih =>
    match s with
    | [] => exact Or.inl ⟨by simp, rfl⟩
    | [a] => exact Or.inl ⟨by simp; omega, rfl⟩
    | a :: b :: s' =>
      rcases ih s' (fun j => if j = k then ⟨a, b⟩ else f j) with ⟨h1, h2⟩ | ⟨t, g, h1, h2⟩
      · refine Or.inl ⟨by simp; omega, ?_⟩
        simp only [foldOutcome, readElement, nextNumber, Outcome.bind_eq, Outcome.bind_ok, h2]
      · refine Or.inr ⟨t, g, by simp; omega, ?_⟩
        simp only [foldOutcome, readElement, nextNumber, Outcome.bind_eq, Outcome.bind_ok, h2]

theorem length_vectors (l : List (V3 ℝ)) : (l.flatMap fun v => [v.x, v.y, v.z]).length = 3 * l.length := by
  induction l with
  | nil => rfl
  | cons v t ih => rw [List.flatMap_cons, List.length_append, ih]; simp; omega

theorem length_pairs {κ : Type} (l : List (κ × ℂ)) : (l.flatMap fun p => complexNumbers p.2).length = 2 * (l.map Prod.fst).length := by
  induction l with
  | nil => rfl
  | cons v t ih => rw [List.flatMap_cons, List.length_append, ih]; simp [complexNumbers]; omega

theorem readChunk_short (numModes numK numBands : Nat) (ikMap : Nat → Nat) (c : StarContent) (hc : c.Good numModes) (s : List ℝ)
    (hs : s.length < (c.numbers numModes numK numBands).length) :
    readChunk numModes numBands numK ikMap (some (c.crystal.length, s)) = .ub := by
  rw [numbers_eq numModes numK numBands ikMap c] at hs
  simp only [List.length_append, length_vectors, length_pairs, evPairs_fst, gPairs_fst, hc.1, hc.2, List.length_nil] at hs
  unfold readChunk
  simp only [Outcome.bind_eq]
  rcases readVectors_cases c.crystal.length s with ⟨_, h⟩ | ⟨l1, t1, e1, h⟩ <;> rw [h]
  · rfl
  rw [Outcome.bind_ok]
  rcases readVectors_cases c.crystal.length t1 with ⟨_, h⟩ | ⟨l2, t2, e2, h⟩ <;> simp only <;> rw [h]
  · rfl
  rw [Outcome.bind_ok]
  rcases readNumbers_cases numModes t2 with ⟨_, h⟩ | ⟨l3, t3, e3, h⟩ <;> simp only <;> rw [h]
  · rfl
  rw [Outcome.bind_ok]
  rcases readElements_cases (eigenvectorLoop c.crystal.length numModes) t3 (fun _ => 0) with ⟨_, h⟩ | ⟨t4, f4, e4, h⟩ <;> simp only <;> rw [h]
  · rfl
  rw [Outcome.bind_ok]
  rcases readElements_cases (couplingLoop c.crystal.length numModes numK numBands ikMap) t4 (fun _ => 0) with ⟨_, h⟩ | ⟨t5, f5, e5, h⟩ <;> simp only <;> rw [h]
  · rfl
  omega

/-! ### The arrays after all the assignments -/

theorem fold_g (l : List FullWrite) (a : FullArrays) (k : Nat × Nat × Nat × Nat × Nat) (v : ℂ)
    (h : ∀ ib1 ib2 nu ik iq x, FullWrite.g ib1 ib2 nu ik iq x ∈ l → (ib1, ib2, nu, ik, iq) = k → x = v)
    (h' : (∃ ib1 ib2 nu ik iq x, FullWrite.g ib1 ib2 nu ik iq x ∈ l ∧ (ib1, ib2, nu, ik, iq) = k) ∨ a.g k = v) :
    (l.foldl FullArrays.write a).g k = v := by
  induction l generalizing a with
  | nil =>
    rcases h' with ⟨_, _, _, _, _, _, hm, _⟩ | h'
    · cases hm
    · exact h'
  | cons w t ih =>
    refine ih (a.write w) (fun ib1 ib2 nu ik iq x hm => h ib1 ib2 nu ik iq x (by simp [hm])) ?_
    by_cases hw : ∃ ib1 ib2 nu ik iq x, w = .g ib1 ib2 nu ik iq x ∧ (ib1, ib2, nu, ik, iq) = k
    · obtain ⟨ib1, ib2, nu, ik, iq, x, rfl, hk⟩ := hw
      right
      simp only [FullArrays.write]
      rw [if_pos hk.symm]
      exact h _ _ _ _ _ _ (by simp) hk
    · rcases h' with ⟨ib1, ib2, nu, ik, iq, x, hm, hk⟩ | h'
      · rcases List.mem_cons.mp hm with e | hm
        · exact absurd ⟨ib1, ib2, nu, ik, iq, x, e.symm, hk⟩ hw
        · exact Or.inl ⟨ib1, ib2, nu, ik, iq, x, hm, hk⟩
      · right
        cases w with
        | g ib1 ib2 nu ik iq x =>
          simp only [FullArrays.write]
          rw [if_neg fun e => hw ⟨ib1, ib2, nu, ik, iq, x, rfl, e.symm⟩]
          exact h'
        | ev => exact h'
        | en => exact h'

theorem fold_ev (l : List FullWrite) (a : FullArrays) (k : Nat × Nat × Nat) (v : ℂ)
    (h : ∀ i j iq x, FullWrite.ev i j iq x ∈ l → (i, j, iq) = k → x = v)
    (h' : (∃ i j iq x, FullWrite.ev i j iq x ∈ l ∧ (i, j, iq) = k) ∨ a.ev k = v) :
    (l.foldl FullArrays.write a).ev k = v := by
  induction l generalizing a with
  | nil =>
    rcases h' with ⟨_, _, _, _, hm, _⟩ | h'
    · cases hm
    · exact h'
  | cons w t ih =>
    refine ih (a.write w) (fun i j iq x hm => h i j iq x (by simp [hm])) ?_
    by_cases hw : ∃ i j iq x, w = .ev i j iq x ∧ (i, j, iq) = k
    · obtain ⟨i, j, iq, x, rfl, hk⟩ := hw
      right
      simp only [FullArrays.write]
      rw [if_pos hk.symm]
      exact h _ _ _ _ (by simp) hk
    · rcases h' with ⟨i, j, iq, x, hm, hk⟩ | h'
      · rcases List.mem_cons.mp hm with e | hm
        · exact absurd ⟨i, j, iq, x, e.symm, hk⟩ hw
        · exact Or.inl ⟨i, j, iq, x, hm, hk⟩
      · right
        cases w with
        | ev i j iq x =>
          simp only [FullArrays.write]
          rw [if_neg fun e => hw ⟨i, j, iq, x, rfl, e.symm⟩]
          exact h'
        | g => exact h'
        | en => exact h'

theorem fold_en (l : List FullWrite) (a : FullArrays) (k : Nat × Nat) (v : ℝ)
    (h : ∀ i iq x, FullWrite.en i iq x ∈ l → (i, iq) = k → x = v)
    (h' : (∃ i iq x, FullWrite.en i iq x ∈ l ∧ (i, iq) = k) ∨ a.en k = v) :
    (l.foldl FullArrays.write a).en k = v := by
  induction l generalizing a with
  | nil =>
    rcases h' with ⟨_, _, _, hm, _⟩ | h'
    · cases hm
    · exact h'
  | cons w t ih =>
    refine ih (a.write w) (fun i iq x hm => h i iq x (by simp [hm])) ?_
    by_cases hw : ∃ i iq x, w = .en i iq x ∧ (i, iq) = k
    · obtain ⟨i, iq, x, rfl, hk⟩ := hw
      right
      simp only [FullArrays.write]
      rw [if_pos hk.symm]
      exact h _ _ _ (by simp) hk
    · rcases h' with ⟨i, iq, x, hm, hk⟩ | h'
      · rcases List.mem_cons.mp hm with e | hm
        · exact absurd ⟨i, iq, x, e.symm, hk⟩ hw
        · exact Or.inl ⟨i, iq, x, hm, hk⟩
      · right
        cases w with
        | en i iq x =>
          simp only [FullArrays.write]
          rw [if_neg fun e => hw ⟨i, iq, x, rfl, e.symm⟩]
          exact h'
        | g => exact h'
        | ev => exact h'

end Verif.Proofs
