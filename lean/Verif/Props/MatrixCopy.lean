import Verif.Proofs.MatrixCopy

/-! # C156: matrices are values -/
namespace Verif.Props
open Verif.Model Verif.Spec

/-- Every history of constructions, assignments, changes and destructions of matrices, serial and distributed in any
mixture, runs without an invalid access; every matrix then reads as the value last given to it, so that changing a
copy never changes the original.  The operations that copy-construct a `Matrix` are missing. -/
theorem C156_values_partial {D : Type} (ops : List (MatOp D)) (w : Values D) (hn : ∀ o ∈ ops, NoCopy o)
    (hr : valueRun ops (fun _ => none) = some w) :
    ∃ s, matRun ops (matStart D) = .ok s ∧ ∀ i x, w i = some x → matRead s i = .ok x := by
  obtain ⟨s, hs, hi⟩ := run_inv ops (matStart D) _ w (start_inv D) hn hr
  exact ⟨s, hs, fun i x hx => read_inv hi i x hx⟩

/-- Nothing is left in memory once every matrix is out of scope, and with `n` matrices in scope at most `2 n` objects
are: every object in memory belongs to a matrix in scope. -/
theorem C156_no_leak_partial {D : Type} (ops : List (MatOp D)) (w : Values D) (hn : ∀ o ∈ ops, NoCopy o)
    (hr : valueRun ops (fun _ => none) = some w) :
    ∃ s, matRun ops (matStart D) = .ok s ∧
      (∀ p, s.heap p ≠ none → ∃ i o, (w i).isSome ∧ s.vars i = some o ∧ (o.pmat = some p ∨ o.mat = some p)) ∧
      ((∀ i, w i = none) → ∀ p, s.heap p = none) := by
  obtain ⟨s, hs, hi⟩ := run_inv ops (matStart D) _ w (start_inv D) hn hr
  have key : ∀ p, s.heap p ≠ none → ∃ i o, (w i).isSome ∧ s.vars i = some o ∧ (o.pmat = some p ∨ o.mat = some p) := by
    intro p hp
    obtain ⟨i, o, k, h1, h2⟩ := hi.used p hp
    refine ⟨i, o, ?_, h1, ?_⟩
    · cases hw : w i with
      | none => rw [hi.dom i hw] at h1; cases h1
      | some x => rfl
    · cases k
      · right; simpa [Owns] using h2
      · left; simpa [Owns] using h2
  refine ⟨s, hs, key, fun hall p => ?_⟩
  by_contra hp
  obtain ⟨i, o, h1, -⟩ := key p hp
  rw [hall i] at h1
  cases h1

theorem valueStep_default {D : Type} (v : Values D) (i : Nat) (d : D) (h : v i = none) :
    valueStep v (.default i d) = some (Function.update v i (some (false, d))) := by
  simp [valueStep, h]

theorem valueStep_assign {D : Type} (v : Values D) (i j : Nat) (x y : Bool × D) (hi : v i = some x)
    (hj : v j = some y) : valueStep v (.assign i j) = some (Function.update v i (some y)) := by
  simp [valueStep, hi, hj]

/-- Copying a full band structure after any history: the three matrices of the copy read as those of the original, and
changes made later to either leave the other as it was. -/
theorem C156_band_structure {D : Type} (ops : List (MatOp D)) (v : Values D) (hn : ∀ o ∈ ops, NoCopy o)
    (hr : valueRun ops (fun _ => none) = some v) (i j : Nat) (d : D) (f : D → D) (m : Nat)
    (hi : ∀ k, k < 3 → v (i + k) = none) (x : Nat → Bool × D) (hj : ∀ k, k < 3 → v (j + k) = some (x k))
    (hm : m < 3) :
    ∃ s, matRun (ops ++ bandCopy i j d ++ [.modify (i + m) f]) (matStart D) = .ok s ∧
      ∀ k, k < 3 → matRead s (j + k) = .ok (x k) ∧
        matRead s (i + k) = .ok (if k = m then ((x k).1, f (x k).2) else x k) := by
  have hsep : ∀ k l, k < 3 → l < 3 → i + k ≠ j + l := by
    intro k l hk hl e
    have h1 := hi k hk
    rw [e, hj l hl] at h1
    cases h1
  have h0 := hi 0 (by omega)
  have h1 := hi 1 (by omega)
  have h2 := hi 2 (by omega)
  have j0 := hj 0 (by omega)
  have j1 := hj 1 (by omega)
  have j2 := hj 2 (by omega)
  have s00 := hsep 0 0 (by omega) (by omega)
  have s01 := hsep 0 1 (by omega) (by omega)
  have s02 := hsep 0 2 (by omega) (by omega)
  have s10 := hsep 1 0 (by omega) (by omega)
  have s11 := hsep 1 1 (by omega) (by omega)
  have s12 := hsep 1 2 (by omega) (by omega)
  have s20 := hsep 2 0 (by omega) (by omega)
  have s21 := hsep 2 1 (by omega) (by omega)
  have s22 := hsep 2 2 (by omega) (by omega)
  simp only [Nat.add_zero] at h0 j0 s00 s01 s02 s10 s20
  have hcopy : ∃ u, valueRun (bandCopy i j d) v = some u ∧ (∀ k, k < 3 → u (i + k) = some (x k)) ∧
      ∀ k, k < 3 → u (j + k) = some (x k) := by
    have e0 := valueStep_default v i d h0
    have e1 := valueStep_default (Function.update v i (some (false, d))) (i + 1) d (by
      rw [Function.update_of_ne (by omega)]; exact h1)
    have e2 := valueStep_default (Function.update (Function.update v i (some (false, d))) (i + 1) (some (false, d)))
      (i + 2) d (by rw [Function.update_of_ne (by omega), Function.update_of_ne (by omega)]; exact h2)
    obtain ⟨u3, hu3⟩ : ∃ u3, u3 = Function.update (Function.update (Function.update v i (some (false, d))) (i + 1)
      (some (false, d))) (i + 2) (some (false, d)) := ⟨_, rfl⟩
    have a0 : u3 i = some (false, d) := by
      rw [hu3, Function.update_of_ne (by omega), Function.update_of_ne (by omega), Function.update_self]
    have a1 : u3 (i + 1) = some (false, d) := by rw [hu3, Function.update_of_ne (by omega), Function.update_self]
    have a2 : u3 (i + 2) = some (false, d) := by rw [hu3, Function.update_self]
    have b0 : u3 j = some (x 0) := by
      rw [hu3, Function.update_of_ne s20.symm, Function.update_of_ne s10.symm, Function.update_of_ne s00.symm]
      exact j0
    have b1 : u3 (j + 1) = some (x 1) := by
      rw [hu3, Function.update_of_ne s21.symm, Function.update_of_ne s11.symm, Function.update_of_ne s01.symm]
      exact j1
    have b2 : u3 (j + 2) = some (x 2) := by
      rw [hu3, Function.update_of_ne s22.symm, Function.update_of_ne s12.symm, Function.update_of_ne s02.symm]
      exact j2
    have f0 := valueStep_assign u3 i j _ _ a0 b0
    have f1 := valueStep_assign (Function.update u3 i (some (x 0))) (i + 1) (j + 1) (false, d) (x 1)
      (by rw [Function.update_of_ne (by omega)]; exact a1) (by rw [Function.update_of_ne s01.symm]; exact b1)
    have f2 := valueStep_assign (Function.update (Function.update u3 i (some (x 0))) (i + 1) (some (x 1)))
      (i + 2) (j + 2) (false, d) (x 2)
      (by rw [Function.update_of_ne (by omega), Function.update_of_ne (by omega)]; exact a2)
      (by rw [Function.update_of_ne s12.symm, Function.update_of_ne s02.symm]; exact b2)
    refine ⟨Function.update (Function.update (Function.update u3 i (some (x 0))) (i + 1) (some (x 1))) (i + 2)
      (some (x 2)), ?_, ?_, ?_⟩
    · simp only [bandCopy, valueRun, e0, e1, e2, Option.bind_some]
      rw [← hu3]
      simp only [f0, f1, f2, Option.bind_some]
    · intro k hk
      obtain rfl | rfl | rfl : k = 0 ∨ k = 1 ∨ k = 2 := by omega
      · show Function.update _ _ _ i = _
        rw [Function.update_of_ne (by omega), Function.update_of_ne (by omega), Function.update_self]
      · rw [Function.update_of_ne (by omega), Function.update_self]
      · rw [Function.update_self]
    · intro k hk
      obtain rfl | rfl | rfl : k = 0 ∨ k = 1 ∨ k = 2 := by omega
      · show Function.update _ _ _ j = _
        rw [Function.update_of_ne s20.symm, Function.update_of_ne s10.symm, Function.update_of_ne s00.symm]
        exact b0
      · rw [Function.update_of_ne s21.symm, Function.update_of_ne s11.symm, Function.update_of_ne s01.symm]
        exact b1
      · rw [Function.update_of_ne s22.symm, Function.update_of_ne s12.symm, Function.update_of_ne s02.symm]
        exact b2
  obtain ⟨u, hu, hui, huj⟩ := hcopy
  have hall : valueRun (ops ++ bandCopy i j d ++ [.modify (i + m) f]) (fun _ => none) =
      some (Function.update u (i + m) (some ((x m).1, f (x m).2))) := by
    rw [valueRun_append, valueRun_append, hr]
    show (valueRun (bandCopy i j d) v).bind _ = _
    rw [hu]
    simp only [Option.bind, valueRun, valueStep, hui m hm]
  obtain ⟨s, hs, hread⟩ := C156_values_partial _ _ (by
    intro o ho
    simp only [List.append_assoc, List.mem_append, List.mem_singleton] at ho
    rcases ho with ho | ho | ho
    · exact hn o ho
    · simp only [bandCopy, List.mem_cons, List.not_mem_nil, or_false] at ho
      rcases ho with rfl | rfl | rfl | rfl | rfl | rfl <;> trivial
    · subst ho; trivial) hall
  refine ⟨s, hs, fun k hk => ⟨?_, ?_⟩⟩
  · apply hread
    rw [Function.update_of_ne (hsep m k hm hk).symm]
    exact huj k hk
  · apply hread
    by_cases hkm : k = m
    · subst hkm; simp
    · rw [if_neg hkm, Function.update_of_ne (by omega)]
      exact hui k hk

/-- After any such history, copy construction follows a null pointer, whatever the matrix; so do `+=`, `-=`, `*=`,
`/=`, which return the matrix by value, and `prod`, which begins with a copy.  All four programs have a meaning in terms
of values. -/
theorem C156_violated_copy {D : Type} (ops : List (MatOp D)) (v : Values D) (hn : ∀ o ∈ ops, NoCopy o)
    (hr : valueRun ops (fun _ => none) = some v) (i j k : Nat) (x y : Bool × D) (hi : v i = some x)
    (hj : v j = some y) (hk : v k = none) (hxy : x.1 = y.1) (f : D → D) (g : D → D → D) :
    ∀ op ∈ [MatOp.copy k j, MatOp.addTo i j g, MatOp.scale i f, MatOp.product k i j g],
      (valueRun (ops ++ [op]) (fun _ => none)).isSome ∧ matRun (ops ++ [op]) (matStart D) = .ub := by
  obtain ⟨s, hs, hinv⟩ := run_inv ops (matStart D) _ v (start_inv D) hn hr
  intro op hop
  constructor
  · rw [valueRun_append, hr]
    simp only [Option.bind_some, valueRun]
    obtain ⟨bi, di⟩ := x
    obtain ⟨bj, dj⟩ := y
    simp only at hxy
    subst hxy
    simp only [List.mem_cons, List.not_mem_nil, or_false] at hop
    rcases hop with rfl | rfl | rfl | rfl <;> simp [valueStep, hi, hj, hk]
  · rw [matRun_append, hs]
    simp only [Outcome.bind_eq, Outcome.bind_ok, matRun]
    obtain ⟨h1, h2, h3, h4⟩ := copies_ub s v hinv i j k x y hi hj hxy f g
    simp only [List.mem_cons, List.not_mem_nil, or_false] at hop
    rcases hop with rfl | rfl | rfl | rfl
    · rw [h1]; rfl
    · rw [h2]; rfl
    · rw [h3]; rfl
    · rw [h4]; rfl

/-- The same as a complete program: a matrix is declared and copied. -/
example : matRun [.make 0 false [1, 2], .copy 1 0] (matStart (List Nat)) = .ub := by
  rfl

/-- A distributed matrix replaces a serial one, is changed, and all are destroyed. -/
example : ∃ s, matRun [.make 0 true [1, 2], .default 1 [], .assign 1 0, .modify 1 (List.map (· + 1)), .assign 0 0,
    .make 2 false [7], .assign 0 2] (matStart (List Nat)) = .ok s ∧ matRead s 1 = .ok (true, [2, 3]) ∧
    matRead s 0 = .ok (false, [7]) := by
  obtain ⟨s, hs, hr⟩ := C156_values_partial (D := List Nat) [.make 0 true [1, 2], .default 1 [], .assign 1 0,
    .modify 1 (List.map (· + 1)), .assign 0 0, .make 2 false [7], .assign 0 2] _
    (by intro o ho; simp at ho; rcases ho with rfl | rfl | rfl | rfl | rfl | rfl | rfl <;> trivial) rfl
  exact ⟨s, hs, hr 1 _ rfl, hr 0 _ rfl⟩

end Verif.Props
