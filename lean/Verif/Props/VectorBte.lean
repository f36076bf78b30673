import Verif.Proofs.VectorBte
import Verif.Props.Matrix
import Verif.Props.IrrPoints

/-! # C47-C49: BTE vectors -/
namespace Verif.Props
open Verif.Model

/-! ## C47 elementwise operations -/

/-- Two vectors with the same number of components: every element of the result is the operation on the two elements
of the same calculation, component and state; excluded states are zero.  `op` is any operation, so this holds for
floating-point arithmetic as well. -/
theorem C47_same_dimension {α : Type} [Zero α] (op : α → α → α) (v w : VBte α) (hs : v.numStates = w.numStates)
    (hc : v.numCalc = w.numCalc) (hd : v.dim = w.dim) :
    ∃ r, v.baseOperator op w = .ok r ∧ r.dim = v.dim ∧ r.numStates = v.numStates ∧ r.numCalc = v.numCalc ∧
      r.exclude = v.exclude ∧
      ∀ iCalc iDim s, r.get iCalc iDim s =
        if s ∈ v.exclude then 0 else op (v.get iCalc iDim s) (w.get iCalc iDim s) := by
  unfold VBte.baseOperator
  rw [if_neg (by simpa using hs), if_neg (by simpa using hc), if_pos hd]
  refine ⟨_, rfl, rfl, rfl, rfl, rfl, ?_⟩
  intro iCalc iDim s
  simp only [VBte.get, hd]

/-- An operand with a single component (of the same calculations) is applied to every component. -/
theorem C47_one_component {α : Type} [Zero α] (op : α → α → α) (v w : VBte α) (hs : v.numStates = w.numStates)
    (hmu : w.numChemPots = v.numChemPots) (ht : w.numTemps = v.numTemps) (hw : w.dim = 1)
    (hsz : (v.numRows : Int) ≤ intMax) :
    ∃ r, v.baseOperator op w = .ok r ∧ r.dim = v.dim ∧ r.numStates = v.numStates ∧ r.numCalc = v.numCalc ∧
      ∀ iCalc iDim s, iCalc < v.numCalc → iDim < v.dim → r.get iCalc iDim s =
        if s ∈ v.exclude then 0 else op (v.get iCalc iDim s) (w.get iCalc 0 s) := by
  have hc : v.numCalc = w.numCalc := by unfold VBte.numCalc; rw [hmu, ht]
  by_cases hd : v.dim = w.dim
  · obtain ⟨r, h1, h2, h3, h4, _, h6⟩ := C47_same_dimension op v w hs hc hd
    refine ⟨r, h1, h2, h3, h4, ?_⟩
    intro iCalc iDim s _ hdim
    have : iDim = 0 := by omega
    subst this
    exact h6 iCalc 0 s
  · unfold VBte.baseOperator
    rw [if_neg (by simpa using hs), if_neg (by simpa using hc), if_neg hd, if_pos hw]
    have hrows : mapOutcome (v.partnerRow w) (List.range v.numRows) =
        .ok ((List.range v.numRows).map fun r => r / v.dim) := by
      apply mapOutcome_ok
      intro r hr
      have hr : r < v.numRows := by simpa using hr
      have hdp : 0 < v.dim := by
        rcases Nat.eq_zero_or_pos v.dim with h | h
        · unfold VBte.numRows at hr; rw [h] at hr; omega
        · exact h
      have e : r = r / v.dim * v.dim + r % v.dim := (Nat.div_add_mod' _ _).symm
      conv_lhs => rw [e]
      exact partnerRow_val v w _ _ (Nat.div_lt_of_lt_mul (by rw [mul_comm]; exact hr)) (Nat.mod_lt _ hdp) hmu ht hw hsz
    rw [hrows]
    refine ⟨_, rfl, rfl, rfl, rfl, ?_⟩
    intro iCalc iDim s hic hid
    simp only [VBte.get, hw]
    have hlt : iCalc * v.dim + iDim < v.numRows := by
      unfold VBte.numRows
      calc iCalc * v.dim + iDim < iCalc * v.dim + v.dim := by omega
        _ = (iCalc + 1) * v.dim := by ring
        _ ≤ v.numCalc * v.dim := Nat.mul_le_mul_right _ hic
    have hdiv : (iCalc * v.dim + iDim) / v.dim = iCalc := by
      rw [mul_comm, Nat.mul_add_div (by omega), Nat.div_eq_of_lt hid, Nat.add_zero]
    have hget : ((List.range v.numRows).map fun r => r / v.dim).getD (iCalc * v.dim + iDim) 0 = iCalc := by
      simp [List.getD, hlt, hdiv]
    rw [hget]
    simp

/-- Vectors that do not match are refused. -/
theorem C47_refused {α : Type} [Zero α] (op : α → α → α) (v w : VBte α)
    (h : v.numStates ≠ w.numStates ∨ v.numCalc ≠ w.numCalc ∨ (v.dim ≠ w.dim ∧ w.dim ≠ 1)) :
    v.baseOperator op w = .error := by
  unfold VBte.baseOperator
  by_cases h1 : v.numStates ≠ w.numStates
  · rw [if_pos h1]
  · rw [if_neg h1]
    by_cases h2 : v.numCalc ≠ w.numCalc
    · rw [if_pos h2]
    · rw [if_neg h2]
      obtain ⟨h3, h4⟩ : v.dim ≠ w.dim ∧ w.dim ≠ 1 := by tauto
      rw [if_neg h3, if_neg h4]
      rfl

/-- Partial C47 for the other operations (product with a number, opposite, square root, product with a matrix of
numbers per calculation and component, reciprocal): they act element by element, and an excluded state that is zero in
the operand is zero in the result.  Missing: excluded states that are not zero in the operand (`C47_violated`). -/
theorem C47_elementwise_partial {α : Type} [MulZeroClass α] [DecidableEq α] (v : VBte α) (f inv : α → α)
    (m : Nat → Nat → α) (iCalc iDim s : Nat) (hd : iDim < v.dim) :
    (v.mapData f).get iCalc iDim s = f (v.get iCalc iDim s) ∧
    (v.scaleCalc m).get iCalc iDim s = v.get iCalc iDim s * m iCalc iDim ∧
    (v.reciprocal inv).get iCalc iDim s = (if v.get iCalc iDim s = 0 then 0 else inv (v.get iCalc iDim s)) ∧
    (v.get iCalc iDim s = 0 → f 0 = 0 → (v.mapData f).get iCalc iDim s = 0 ∧ (v.scaleCalc m).get iCalc iDim s = 0 ∧
      (v.reciprocal inv).get iCalc iDim s = 0) := by
  have hdiv : (iCalc * v.dim + iDim) / v.dim = iCalc := by
    rw [mul_comm, Nat.mul_add_div (by omega), Nat.div_eq_of_lt hd, Nat.add_zero]
  have hmod : (iCalc * v.dim + iDim) % v.dim = iDim := by
    rw [mul_comm, Nat.mul_add_mod, Nat.mod_eq_of_lt hd]
  have e1 : (v.mapData f).get iCalc iDim s = f (v.get iCalc iDim s) := rfl
  have e2 : (v.scaleCalc m).get iCalc iDim s = v.get iCalc iDim s * m iCalc iDim := by
    simp only [VBte.scaleCalc, VBte.get, hdiv, hmod]
  have e3 : (v.reciprocal inv).get iCalc iDim s = (if v.get iCalc iDim s = 0 then 0 else inv (v.get iCalc iDim s)) := by
    have e : (v.reciprocal inv).get iCalc iDim s = if v.get iCalc iDim s ≠ 0 then inv (v.get iCalc iDim s) else 0 := rfl
    rw [e]
    by_cases h : v.get iCalc iDim s = 0
    · rw [if_pos h, if_neg (by simpa using h)]
    · rw [if_neg h, if_pos (by simpa using h)]
  refine ⟨e1, e2, e3, ?_⟩
  intro h0 hf
  rw [e1, e2, e3, h0]
  exact ⟨hf, zero_mul _, if_pos rfl⟩

/-- The full C47 is violated: twice a vector that is one everywhere is two on the excluded state 0. -/
theorem C47_violated : ∃ v : VBte Int, VBte.mk' (α := Int) 1 1 3 true (1 : Int) [0, 5, 7] = .ok { v with data := fun _ _ => 0 } ∧
    0 ∈ v.exclude ∧ (v.mapData (· * 2)).get 0 0 0 = 2 :=
  ⟨⟨1, 1, 3, 3, fun _ _ => 1, [0]⟩, by simp [VBte.mk', List.range, List.range.loop], by decide, by decide⟩

example : ∃ v w : VBte Int, v.numStates = w.numStates ∧ w.numChemPots = v.numChemPots ∧ w.numTemps = v.numTemps ∧
    w.dim = 1 ∧ v.dim = 3 ∧ (v.numRows : Int) ≤ intMax :=
  ⟨⟨2, 5, 3, 10, fun r s => r + s, [0, 1]⟩, ⟨2, 5, 1, 10, fun r s => r - s, []⟩, rfl, rfl, rfl, rfl, rfl, by decide⟩

/-! ## C48 scalar product -/

/-- Partial C48: if an irreducible state is in the exclusion list under its state index exactly when it is under its BTE
index (in particular when the two indices are equal, as without symmetries), the scalar product is, on every process
and for any number of processes, the sum over the states that are not excluded and the rotations of their stars.
Missing: other reductions by symmetry (`C48_violated`). -/
theorem C48_dot_partial {α : Type} [CommSemiring α] (x y : VBte α) (irrStates : List Nat) (toBte : Nat → Nat)
    (rots : Nat → List (Nat → Nat → α)) (size : Nat) (hsz : 0 < size)
    (hfit : irrStates.length * size < 18446744073709551616)
    (hrows : x.numRows = y.numRows) (hst : x.numStates = y.numStates) (hd : y.dim = 3)
    (hex : ∀ is ∈ irrStates, is ∈ x.exclude ↔ toBte is ∈ x.exclude) :
    ∃ res, x.dot y irrStates toBte rots size = .ok res ∧ res.length = size ∧
      ∀ f ∈ res, ∀ iCalc i, i < 3 → f iCalc i =
        (((irrStates.filter fun is => toBte is ∉ x.exclude).flatMap fun is => (rots is).map fun R =>
          (R i 0 * x.get iCalc 0 (toBte is) + R i 1 * x.get iCalc 1 (toBte is) + R i 2 * x.get iCalc 2 (toBte is)) *
          (R i 0 * y.get iCalc 0 (toBte is) + R i 1 * y.get iCalc 1 (toBte is) + R i 2 * y.get iCalc 2 (toBte is)))).sum := by
  unfold VBte.dot
  rw [if_neg (by tauto), if_neg (by simpa using hd)]
  refine ⟨_, rfl, by simp [allReduceSum1_length], ?_⟩
  intro f hf iCalc i hi
  obtain ⟨g, hg, rfl⟩ := List.mem_map.mp hf
  simp only
  rw [mem_allReduceSum1 _ _ hg, List.map_map]
  have h1 : (iCalc * 3 + i) / 3 = iCalc := by omega
  have h2 : (iCalc * 3 + i) % 3 = i := by omega
  have hcongr : ((fun b : Nat → α => b (iCalc * 3 + i)) ∘ fun r => fun k : Nat =>
      ((sliceOf irrStates r size).map fun is => dotTerm x y toBte rots (k / 3) (k % 3) is).foldr (· + ·) 0) =
      fun r => ((sliceOf irrStates r size).map fun is => dotTerm x y toBte rots iCalc i is).sum := by
    funext r
    simp only [Function.comp, h1, h2]
    exact foldr_add_eq_sum _
  rw [hcongr, ← sum_flatMap, ← List.map_flatMap, slices_flatten irrStates size hsz hfit, sum_flatMap]
  clear hf hg hcongr hfit
  induction irrStates with
  | nil => simp
  | cons is t ih =>
    have ih := ih (fun a ha => hex a (by simp [ha]))
    have he := hex is (by simp)
    rw [List.map_cons, List.sum_cons, ih]
    by_cases h : toBte is ∈ x.exclude
    · rw [List.filter_cons_of_neg (by simpa using h)]
      unfold dotTerm
      rw [if_pos (he.mpr h), zero_add]
    · rw [List.filter_cons_of_pos (by simpa using h), List.map_cons, List.sum_cons]
      congr 1
      unfold dotTerm
      rw [if_neg (fun h' => h (he.mp h'))]
      rfl

/-- The full C48 is violated with symmetries: on the 2x2x1 mesh reduced by the exchange of two axes, the irreducible
states of the single band are 0, 1, 3, with BTE indices 0, 1, 2; with BTE state 2 excluded, the product of the vector
that is one everywhere with itself should be 1 + 1 = 2 (up to the stars) but counts state 3 as well. -/
theorem C48_violated : ∃ s, setIrreduciblePoints 1 0 4 (fun k => meshCoordinates ⟨2, 2, 1⟩ ⟨0, 0, 0⟩ k)
      (fun p => .ok (isPointStoredMesh ⟨2, 2, 1⟩ ⟨0, 0, 0⟩ p)) exampleGroup none [] = .ok s ∧
    fullIrrStateIterator 1 4 s = [0, 1, 3] ∧ fullStateToBte 1 s 3 = .ok 2 ∧
    ∃ f, (⟨1, 1, 3, 3, fun _ _ => 1, [2]⟩ : VBte Int).dot ⟨1, 1, 3, 3, fun _ _ => 1, [2]⟩ [0, 1, 3]
      (fun is => if is = 3 then 2 else is) (fun _ => [fun i j => if i = j then 1 else 0]) 1 = .ok [f] ∧ f 0 0 = 3 := by
  have hs : ∃ s, setIrreduciblePoints 1 0 4 (fun k => meshCoordinates ⟨2, 2, 1⟩ ⟨0, 0, 0⟩ k)
      (fun p => .ok (isPointStoredMesh ⟨2, 2, 1⟩ ⟨0, 0, 0⟩ p)) exampleGroup none [] = .ok s ∧
      s.redToIrr = [0, 1, 1, 2] ∧ (List.range 4).map s.equiv = [0, 1, 1, 3] := by
    have h : ((setIrreduciblePoints 1 0 4 (fun k => meshCoordinates ⟨2, 2, 1⟩ ⟨0, 0, 0⟩ k)
      (fun p => .ok (isPointStoredMesh ⟨2, 2, 1⟩ ⟨0, 0, 0⟩ p)) exampleGroup none []).toOption.map
        fun s => (s.redToIrr, (List.range 4).map s.equiv)) = some ([0, 1, 1, 2], [0, 1, 1, 3]) := by decide +kernel
    cases hr : setIrreduciblePoints 1 0 4 (fun k => meshCoordinates ⟨2, 2, 1⟩ ⟨0, 0, 0⟩ k)
      (fun p => .ok (isPointStoredMesh ⟨2, 2, 1⟩ ⟨0, 0, 0⟩ p)) exampleGroup none [] with
    | ok s =>
      rw [hr] at h
      simp only [Outcome.toOption, Option.map_some, Option.some.injEq, Prod.mk.injEq] at h
      exact ⟨s, rfl, h.1, h.2⟩
    | error => rw [hr] at h; simp [Outcome.toOption] at h
    | ub => rw [hr] at h; simp [Outcome.toOption] at h
    | diverge => rw [hr] at h; simp [Outcome.toOption] at h
  obtain ⟨s, h1, h2, h3⟩ := hs
  refine ⟨s, h1, ?_, ?_, ?_⟩
  · have e : s.equiv 0 = 0 ∧ s.equiv 1 = 1 ∧ s.equiv 2 = 1 ∧ s.equiv 3 = 3 := by
      simp only [List.range, List.range.loop, List.map_cons, List.map_nil, List.cons.injEq, and_true] at h3
      exact h3
    obtain ⟨e0, e1, e2, e3⟩ := e
    simp [fullIrrStateIterator, IrrPoints.irrPointsIterator, List.range, List.range.loop, e0, e1, e2, e3]
  · simp [fullStateToBte, IrrPoints.asIrreducibleIndex, h2, Outcome.bind_eq]
  · generalize hd : (⟨1, 1, 3, 3, fun _ _ => 1, [2]⟩ : VBte Int).dot ⟨1, 1, 3, 3, fun _ _ => 1, [2]⟩ [0, 1, 3]
      (fun is => if is = 3 then 2 else is) (fun _ => [fun i j => if i = j then 1 else 0]) 1 = o
    have h : (o.toOption.map fun l => l.map fun f => f 0 0) = some [3] := by
      rw [← hd]; decide +kernel
    cases o with
    | ok l =>
      simp only [Outcome.toOption, Option.map_some, Option.some.injEq] at h
      match l, h with
      | [f], h => exact ⟨f, rfl, by simpa using h⟩
    | error => simp [Outcome.toOption] at h
    | ub => simp [Outcome.toOption] at h
    | diverge => simp [Outcome.toOption] at h

example : ∃ x : VBte Int, ∀ is ∈ [0, 1, 2, 3, 4, 5], is ∈ x.exclude ↔ (fun is : Nat => is) is ∈ x.exclude :=
  ⟨⟨1, 1, 3, 6, fun _ _ => 1, [0, 1]⟩, by simp⟩

/-! ## C49 product with the distributed matrix -/

/-- For every layout, every distribution of the local elements over threads, and every order in which the threads
finish: on every process, the result is the product of the vector with the global matrix. -/
theorem C49_product {α : Type} [CommSemiring α] (v : VBte α) (L : Layout) (hL : L.Good) (m : DistData α)
    (merge : Nat × Nat → List (List (Nat × Nat)))
    (hmerge : ∀ p, p.1 < L.numBlasRows → p.2 < L.numBlasCols →
      (merge p).flatten.Perm (L.getAllLocalStates p.1 p.2))
    (hc : v.numCalc = 1) (hr : L.numRows = v.numStates) (hcol : L.numCols = v.numStates) :
    ∃ res, v.timesMatrix L m ((List.range L.numBlasRows).flatMap fun pr =>
          (List.range L.numBlasCols).map fun pc => (pr, pc)) merge = .ok res ∧
      res.length = L.numBlasRows * L.numBlasCols ∧
      ∀ f ∈ res, ∀ c j, j < v.numStates →
        f c j = ((List.range v.numStates).map fun i => v.data c i * gridSum L m i j).sum := by
  unfold VBte.timesMatrix
  rw [if_neg (by unfold VBte.numRows; rw [hc]; simp), if_neg (by simpa using hr)]
  refine ⟨_, rfl, by simp [allReduceSum1_length, List.length_flatMap], ?_⟩
  intro f hf c j hj
  obtain ⟨g, hg, rfl⟩ := List.mem_map.mp hf
  simp only
  rw [mem_allReduceSum1 _ _ hg, List.map_map]
  have h1 : (c * v.numStates + j) / v.numStates = c := by
    rw [mul_comm, Nat.mul_add_div (by omega), Nat.div_eq_of_lt hj, Nat.add_zero]
  have h2 : (c * v.numStates + j) % v.numStates = j := by
    rw [mul_comm, Nat.mul_add_mod, Nat.mod_eq_of_lt hj]
  have hpr : ((List.range L.numBlasRows).flatMap fun pr => (List.range L.numBlasCols).map fun pc => (pr, pc))
      = L.procs := rfl
  rw [hpr]
  have hloc : (L.procs.map ((fun b : Nat → α => b (c * v.numStates + j)) ∘ fun p => fun k : Nat =>
      processProduct v.data (fun i j => L.get m p.1 p.2 i j) (merge p) (k / v.numStates) (k % v.numStates))) =
      L.procs.map fun p => ((L.getAllLocalStates p.1 p.2).map fun t =>
        if j = t.2 then v.data c t.1 * gridSum L m t.1 t.2 else 0).sum := by
    apply List.map_congr_left
    intro p hp
    have hp := (mem_grid p).mp hp
    simp only [Function.comp, h1, h2]
    rw [processProduct_val, ((hmerge p hp.1 hp.2).map _).sum_eq]
    congr 1
    apply List.map_congr_left
    intro t ht
    obtain ⟨t1, t2, t3⟩ := (mem_localStates L hL hp.1 hp.2 t).mp ht
    have ho := (global2Local_ne L).mp t3
    have e : gridSum L m t.1 t.2 = L.value m t.1 t.2 := sum_get L hL m _ _
    rw [e]
    unfold Layout.value
    rw [← ho.1, ← ho.2]
  rw [hloc, ← sum_flatMap, ← List.map_flatMap, ((states_perm L hL).map _).sum_eq]
  unfold Layout.elements
  rw [List.map_flatMap, sum_flatMap, hr, hcol]
  congr 1
  apply List.map_congr_left
  intro i _
  rw [List.map_map]
  have hone : ∀ n, j < n → ((List.range n).map ((fun t : Nat × Nat =>
      if j = t.2 then v.data c t.1 * gridSum L m t.1 t.2 else 0) ∘ fun j => (i, j))).sum = v.data c i * gridSum L m i j := by
    intro n
    induction n with
    | zero => intro h; omega
    | succ n ih =>
      intro hn
      rw [List.range_succ, List.map_append, List.sum_append]
      simp only [List.map_cons, List.map_nil, List.sum_cons, List.sum_nil, Function.comp, add_zero]
      by_cases h : j = n
      · rw [if_pos h, ← h]
        have hz : ((List.range j).map ((fun t : Nat × Nat =>
            if j = t.2 then v.data c t.1 * gridSum L m t.1 t.2 else 0) ∘ fun j => (i, j))).sum = 0 := by
          apply List.sum_eq_zero
          intro x hx
          obtain ⟨k, hk, rfl⟩ := List.mem_map.mp hx
          have : k < j := by simpa using hk
          simp only [Function.comp]
          rw [if_neg (by omega)]
        rw [hz, zero_add]
      · rw [if_neg h, add_zero]
        exact ih (by omega)
  exact hone v.numStates hj

/-- A 3x3 matrix on a 2x2 grid, each process with two threads finishing in reverse order. -/
example : (⟨3, 3, 2, 2, 2, 2⟩ : Layout).Good ∧
    ([[(1, 0), (0, 1), (1, 1)], [(0, 0)]] : List (List (Nat × Nat))).flatten.Perm
      ((⟨3, 3, 2, 2, 2, 2⟩ : Layout).getAllLocalStates 0 0) :=
  ⟨⟨by decide, by decide, by decide, by decide⟩, by decide⟩

end Verif.Props
