import Verif.Model.VectorEpa
import Verif.Props.VectorBte
import Verif.Proofs.Atoms

/-!
# C184: arithmetic of the vectors of the electron-phonon averaged approximation
-/
namespace Verif.Props
open Verif.Model Verif.Spec

theorem mapOutcome_ub {α β : Type} (f : α → Outcome β) (l : List α) (h : ∀ a ∈ l, (∃ y, f a = .ok y) ∨ f a = .ub)
    (hu : ∃ a ∈ l, f a = .ub) : mapOutcome f l = .ub := by
  induction l with
  | nil => obtain ⟨a, ha, _⟩ := hu; cases ha
  | cons a t ih =>
    unfold mapOutcome
    rcases h a (by simp) with ⟨y, hy⟩ | hub
    · rw [hy]
      simp only [Outcome.bind_eq, Outcome.bind_ok]
      rw [ih (fun b hb => h b (by simp [hb])) (by
        obtain ⟨b, hb, hbu⟩ := hu
        rcases List.mem_cons.mp hb with rfl | hb
        · rw [hy] at hbu; cases hbu
        · exact ⟨b, hb, hbu⟩)]
      rfl
    · rw [hub]; rfl

/-- A new vector has one element per calculation, component and bin, all zero; sizes that are not positive are refused. -/
theorem C184_make {α : Type} [Zero α] (nmu nt : Nat) (ns dim : Int) :
    (0 < ns → 0 < dim → ∃ v : VBte α, VBte.epaMake nmu nt ns dim = .ok v ∧ v.numCalc = nmu * nt ∧ (v.dim : Int) = dim ∧
      (v.numStates : Int) = ns ∧ v.exclude = [] ∧ ∀ c i s, v.get c i s = 0) ∧
    (ns ≤ 0 ∨ dim ≤ 0 → VBte.epaMake (α := α) nmu nt ns dim = .error) := by
  unfold VBte.epaMake
  refine ⟨fun h1 h2 => ?_, fun h => ?_⟩
  · rw [if_neg (by omega), if_neg (by omega)]
    exact ⟨_, rfl, rfl, by simp; omega, by simp; omega, rfl, fun _ _ _ => rfl⟩
  · by_cases h2 : dim ≤ 0
    · rw [if_pos h2]
    · rw [if_neg h2, if_pos (by omega)]

/-- Sum, difference, product and quotient of vectors of the same size are those of the elements. -/
theorem C184_same_dimension {α : Type} [Zero α] (op : α → α → α) (v w : VBte α) (hs : v.numStates = w.numStates)
    (hc : v.numCalc = w.numCalc) (hd : v.dim = w.dim) :
    ∃ r, v.epaBase op w = .ok r ∧ r.dim = v.dim ∧ r.numStates = v.numStates ∧ r.numCalc = v.numCalc ∧
      r.exclude = v.exclude ∧
      ∀ iCalc iDim s, r.get iCalc iDim s =
        if s ∈ v.exclude then 0 else op (v.get iCalc iDim s) (w.get iCalc iDim s) := by
  unfold VBte.epaBase
  rw [if_pos hd, if_pos ⟨by unfold VBte.numRows; rw [hc, hd], hs⟩]
  refine ⟨_, rfl, rfl, rfl, rfl, rfl, ?_⟩
  intro iCalc iDim s
  simp only [VBte.get, hd]

/-- With a vector of one component, its element is used for all the components. -/
theorem C184_one_component {α : Type} [Zero α] (op : α → α → α) (v w : VBte α) (hs : v.numStates = w.numStates)
    (hmu : w.numChemPots = v.numChemPots) (ht : w.numTemps = v.numTemps) (hw : w.dim = 1)
    (hsz : (v.numRows : Int) ≤ intMax) :
    ∃ r, v.epaBase op w = .ok r ∧ r.dim = v.dim ∧ r.numStates = v.numStates ∧ r.numCalc = v.numCalc ∧
      ∀ iCalc iDim s, iCalc < v.numCalc → iDim < v.dim → r.get iCalc iDim s =
        if s ∈ v.exclude then 0 else op (v.get iCalc iDim s) (w.get iCalc 0 s) := by
  have hc : v.numCalc = w.numCalc := by unfold VBte.numCalc; rw [hmu, ht]
  by_cases hd : v.dim = w.dim
  · obtain ⟨r, h1, h2, h3, h4, _, h6⟩ := C184_same_dimension op v w hs hc hd
    refine ⟨r, h1, h2, h3, h4, ?_⟩
    intro iCalc iDim s _ hdim
    have : iDim = 0 := by omega
    subst this
    exact h6 iCalc 0 s
  · unfold VBte.epaBase
    rw [if_neg hd, if_pos hw]
    have hrows : mapOutcome (fun r : Nat => do
        let i ← v.partnerRow w r
        if i < w.numRows ∧ v.numStates = w.numStates then Outcome.ok i else .ub) (List.range v.numRows) =
        .ok ((List.range v.numRows).map fun r => r / v.dim) := by
      apply mapOutcome_ok
      intro r hr
      have hr : r < v.numRows := by simpa using hr
      have hdp : 0 < v.dim := by
        rcases Nat.eq_zero_or_pos v.dim with h | h
        · unfold VBte.numRows at hr; rw [h] at hr; omega
        · exact h
      have e : r = r / v.dim * v.dim + r % v.dim := (Nat.div_add_mod' _ _).symm
      have hlt : r / v.dim < v.numCalc := Nat.div_lt_of_lt_mul (by rw [mul_comm]; exact hr)
      have hp : v.partnerRow w r = .ok (r / v.dim) := by
        conv_lhs => rw [e]
        exact partnerRow_val v w _ _ hlt (Nat.mod_lt _ hdp) hmu ht hw hsz
      rw [hp]
      simp only [Outcome.bind_eq, Outcome.bind_ok]
      rw [if_pos ⟨by unfold VBte.numRows; rw [hw, mul_one, ← hc]; exact hlt, hs⟩]
    rw [hrows]
    refine ⟨_, rfl, rfl, rfl, rfl, ?_⟩
    intro iCalc iDim s hic hid
    simp only [VBte.get, hw]
    have hlt : iCalc * v.dim + iDim < v.numRows := by
      unfold VBte.numRows
      calc iCalc * v.dim + iDim < iCalc * v.dim + v.dim := by omega
        _ = (iCalc + 1) * v.dim := by ring
        _ ≤ v.numCalc * v.dim := Nat.mul_le_mul_right _ hic
    have hdiv : (iCalc * v.dim + iDim) / v.dim = iCalc := by
      rw [mul_comm, Nat.mul_add_div (by omega), Nat.div_eq_of_lt hid, Nat.add_zero]
    have hget : ((List.range v.numRows).map fun r => r / v.dim).getD (iCalc * v.dim + iDim) 0 = iCalc := by
      simp [List.getD, hlt, hdiv]
    rw [hget]
    simp

/-- Vectors with different numbers of components are refused when the second has more than one; a matrix of another size is refused,
and so are more than one calculation in a product with a matrix. -/
theorem C184_refused {α : Type} [CommSemiring α] (op : α → α → α) (v w : VBte α) (L : Layout) (m : DistData α)
    (procs : List (Nat × Nat)) :
    (v.dim ≠ w.dim → w.dim ≠ 1 → v.epaBase op w = .error) ∧
    (L.numRows ≠ v.numStates ∨ v.numRows ≠ v.dim → v.epaTimesMatrix L m procs = .error) := by
  refine ⟨fun h1 h2 => ?_, fun h => ?_⟩
  · unfold VBte.epaBase
    rw [if_neg h1, if_neg h2]; rfl
  · unfold VBte.epaTimesMatrix
    by_cases h2 : v.numRows ≠ v.dim
    · rw [if_pos h2]
    · rw [if_neg h2, if_pos (h.resolve_right h2)]

/-- The product with a number multiplies every element. -/
theorem C184_scalar {α : Type} [Mul α] (v : VBte α) (k : α) (iCalc iDim s : Nat) (hc : iCalc < v.numCalc) (hd : iDim < v.dim) :
    (v.epaTimes k).get iCalc iDim s = v.get iCalc iDim s * k ∧ (v.epaTimes k).numCalc = v.numCalc := by
  have hlt : iCalc * v.dim + iDim < v.numRows := by
    unfold VBte.numRows
    calc iCalc * v.dim + iDim < iCalc * v.dim + v.dim := by omega
      _ = (iCalc + 1) * v.dim := by ring
      _ ≤ v.numCalc * v.dim := Nat.mul_le_mul_right _ hc
  refine ⟨?_, rfl⟩
  have h : ∀ n r, (List.range n).foldl (fun d i => fun r s => if r = i then v.data i s * k else d r s) v.data r s =
      if r < n then v.data r s * k else v.data r s := by
    intro n r
    induction n with
    | zero => simp
    | succ n ih =>
      rw [List.range_succ, List.foldl_append]
      simp only [List.foldl_cons, List.foldl_nil]
      by_cases hr : r = n
      · subst hr; simp
      · rw [if_neg hr, ih]
        by_cases h2 : r < n
        · rw [if_pos h2, if_pos (by omega)]
        · rw [if_neg h2, if_neg (by omega)]
  show (List.range v.numRows).foldl _ v.data (iCalc * v.dim + iDim) s = _
  rw [h, if_pos hlt]
  rfl

/-- The product with a list of numbers, one for each calculation, multiplies the elements of a calculation by its number. Partial:
for vectors with one component. -/
theorem C184_calculations_partial {α : Type} [Mul α] (v : VBte α) (x : List α) (hx : x.length = v.numCalc) (hd : v.dim = 1) :
    ∃ r, v.epaScale x = .ok r ∧ r.numCalc = v.numCalc ∧ r.dim = v.dim ∧ r.numStates = v.numStates ∧
      ∀ iCalc (hc : iCalc < x.length) s, r.get iCalc 0 s = v.get iCalc 0 s * x[iCalc] := by
  have hrows : v.numRows = x.length := by unfold VBte.numRows; rw [hd, mul_one, hx]
  unfold VBte.epaScale
  have hm : mapOutcome (fun r => do
      let f ← readAt x r
      Outcome.ok fun s => v.data r s * f) (List.range v.numRows) = .ok ((List.range v.numRows).map fun r => fun s =>
        match x[r]? with | some f => v.data r s * f | none => v.data r s) := by
    apply mapOutcome_ok
    intro r hr
    have hr : r < x.length := by rw [← hrows]; simpa using hr
    rw [readAt_ok hr]
    simp only [Outcome.bind_eq, Outcome.bind_ok, List.getElem?_eq_getElem hr]
  rw [hm]
  refine ⟨_, rfl, rfl, rfl, rfl, ?_⟩
  intro iCalc hc s
  simp only [VBte.get, hd, mul_one, add_zero, List.getElem?_map, List.getElem?_range (hrows ▸ hc), Option.map_some,
    List.getElem?_eq_getElem hc]

/-- The full statement is violated: with three components the elements of the list are taken in the order of the rows, and the list
is read past its end. -/
theorem C184_violated_calculations {α : Type} [Mul α] (v : VBte α) (x : List α) (hx : x.length = v.numCalc) (hc : 0 < v.numCalc)
    (hd : v.dim = 3) : v.epaScale x = .ub := by
  unfold VBte.epaScale
  have hrows : v.numRows = v.numCalc * 3 := by unfold VBte.numRows; rw [hd]
  rw [mapOutcome_ub (fun r => do
      let f ← readAt x r
      Outcome.ok fun s => v.data r s * f) (List.range v.numRows)]
  · rfl
  · intro r _
    by_cases hr : r < x.length
    · left
      rw [readAt_ok hr]
      exact ⟨_, rfl⟩
    · right
      have : readAt x r = .ub := by simp [readAt, List.getElem?_eq_none (not_lt.mp hr)]
      rw [this]
      rfl
  · refine ⟨x.length, by simp; omega, ?_⟩
    have : readAt x x.length = .ub := by simp [readAt]
    rw [this]
    rfl

/-- The product with a matrix, for one calculation. Partial: for symmetric matrices of which no process has two elements of the
same row. -/
theorem C184_product_partial {α : Type} [CommSemiring α] (v : VBte α) (L : Layout) (hL : L.Good) (m : DistData α)
    (hone : ∀ p : Nat × Nat, p.1 < L.numBlasRows → p.2 < L.numBlasCols → ((L.getAllLocalStates p.1 p.2).map Prod.fst).Nodup)
    (hsym : ∀ i j, gridSum L m i j = gridSum L m j i)
    (hc : v.numCalc = 1) (hr : L.numRows = v.numStates) (hcol : L.numCols = v.numStates) :
    ∃ res, v.epaTimesMatrix L m ((List.range L.numBlasRows).flatMap fun pr =>
          (List.range L.numBlasCols).map fun pc => (pr, pc)) = .ok res ∧
      res.length = L.numBlasRows * L.numBlasCols ∧
      ∀ f ∈ res, ∀ c j, j < v.numStates →
        f c j = ((List.range v.numStates).map fun i => v.data c i * gridSum L m i j).sum := by
  have hval : ∀ (elem : Nat → Nat → α) (states : List (Nat × Nat)), (states.map Prod.fst).Nodup → ∀ c j,
      epaProcess v.data elem states c j = (states.map fun t => if j = t.1 then elem t.1 t.2 * v.data c t.2 else 0).sum := by
    intro elem states
    induction states using List.reverseRecOn with
    | nil => intro _ c j; rfl
    | append_singleton l t ih =>
      intro hn c j
      rw [List.map_append, List.nodup_append] at hn
      unfold epaProcess
      rw [List.foldl_append, List.map_append, List.sum_append]
      simp only [List.foldl_cons, List.foldl_nil, List.map_cons, List.map_nil, List.sum_cons, List.sum_nil, add_zero]
      by_cases hj : j = t.1
      · rw [if_pos hj, if_pos hj]
        have hz : (l.map fun t => if j = t.1 then elem t.1 t.2 * v.data c t.2 else 0).sum = 0 := by
          apply List.sum_eq_zero
          intro x hx
          obtain ⟨k, hk, rfl⟩ := List.mem_map.mp hx
          rw [if_neg]
          intro hjk
          exact hn.2.2 k.1 (List.mem_map_of_mem hk) t.1 (by simp) (hjk.symm.trans hj)
        rw [hz, zero_add]
      · rw [if_neg hj, if_neg hj, add_zero]
        exact ih hn.1 c j
  unfold VBte.epaTimesMatrix
  rw [if_neg (by unfold VBte.numRows; rw [hc]; simp), if_neg (by simpa using hr)]
  refine ⟨_, rfl, by simp [allReduceSum1_length, List.length_flatMap], ?_⟩
  intro f hf c j hj
  obtain ⟨g, hg, rfl⟩ := List.mem_map.mp hf
  simp only
  rw [mem_allReduceSum1 _ _ hg, List.map_map]
  have h1 : (c * v.numStates + j) / v.numStates = c := by
    rw [mul_comm, Nat.mul_add_div (by omega), Nat.div_eq_of_lt hj, Nat.add_zero]
  have h2 : (c * v.numStates + j) % v.numStates = j := by
    rw [mul_comm, Nat.mul_add_mod, Nat.mod_eq_of_lt hj]
  have hpr : ((List.range L.numBlasRows).flatMap fun pr => (List.range L.numBlasCols).map fun pc => (pr, pc))
      = L.procs := rfl
  rw [hpr]
  have hloc : (L.procs.map ((fun b : Nat → α => b (c * v.numStates + j)) ∘ fun p => fun k : Nat =>
      epaProcess v.data (fun i j => L.get m p.1 p.2 i j) (L.getAllLocalStates p.1 p.2) (k / v.numStates) (k % v.numStates))) =
      L.procs.map fun p => ((L.getAllLocalStates p.1 p.2).map fun t =>
        if j = t.1 then gridSum L m t.1 t.2 * v.data c t.2 else 0).sum := by
    apply List.map_congr_left
    intro p hp
    have hp := (mem_grid p).mp hp
    simp only [Function.comp, h1, h2]
    rw [hval _ _ (hone p hp.1 hp.2)]
    congr 1
    apply List.map_congr_left
    intro t ht
    obtain ⟨t1, t2, t3⟩ := (mem_localStates L hL hp.1 hp.2 t).mp ht
    have ho := (global2Local_ne L).mp t3
    have e : gridSum L m t.1 t.2 = L.value m t.1 t.2 := sum_get L hL m _ _
    rw [e]
    unfold Layout.value
    rw [← ho.1, ← ho.2]
  rw [hloc, ← sum_flatMap, ← List.map_flatMap, ((states_perm L hL).map _).sum_eq]
  unfold Layout.elements
  rw [List.map_flatMap, sum_flatMap, hr, hcol]
  have hrow : ∀ i, (((List.range v.numStates).map fun j => (i, j)).map fun t : Nat × Nat =>
      if j = t.1 then gridSum L m t.1 t.2 * v.data c t.2 else 0).sum =
      if j = i then ((List.range v.numStates).map fun k => v.data c k * gridSum L m k j).sum else 0 := by
    intro i
    rw [List.map_map]
    by_cases hi : j = i
    · subst hi
      rw [if_pos rfl]
      congr 1
      apply List.map_congr_left
      intro k _
      simp only [Function.comp, if_true]
      rw [hsym, mul_comm]
    · rw [if_neg hi]
      apply List.sum_eq_zero
      intro x hx
      obtain ⟨k, _, rfl⟩ := List.mem_map.mp hx
      simp only [Function.comp, if_neg hi]
  simp only [hrow]
  have hfin : ∀ (a : α) n, j < n → ((List.range n).map fun i => if j = i then a else 0).sum = a := by
    intro a n
    induction n with
    | zero => intro h; omega
    | succ n ih =>
      intro hn
      rw [List.range_succ, List.map_append, List.sum_append]
      simp only [List.map_cons, List.map_nil, List.sum_cons, List.sum_nil, add_zero]
      by_cases h : j = n
      · subst h
        have hz : ((List.range j).map fun i => if j = i then a else 0).sum = 0 := by
          apply List.sum_eq_zero
          intro x hx
          obtain ⟨k, hk, rfl⟩ := List.mem_map.mp hx
          rw [if_neg (by have := List.mem_range.mp hk; omega)]
        rw [hz, if_pos rfl, zero_add]
      · rw [if_neg h, add_zero, ih (by omega)]
  exact hfin _ _ hj

/-- A 2x2 matrix on a grid with two columns of processes: each has one element of each row. -/
example : (⟨2, 2, 1, 1, 1, 2⟩ : Layout).Good ∧ ∀ p : Nat × Nat, p.1 < 1 → p.2 < 2 →
    (((⟨2, 2, 1, 1, 1, 2⟩ : Layout).getAllLocalStates p.1 p.2).map Prod.fst).Nodup := by
  refine ⟨⟨by decide, by decide, by decide, by decide⟩, ?_⟩
  rintro ⟨a, b⟩ ha hb
  simp only at ha hb
  have ha : a = 0 := by omega
  have hb : b = 0 ∨ b = 1 := by omega
  subst ha
  rcases hb with rfl | rfl <;> decide

/-- The full statement is violated: of the terms of an element that a process has, only the last one is kept. On one process, the
product of the vector `(1, 1)` with the matrix of ones is `(1, 1)`, and not `(2, 2)`. -/
theorem C184_violated_product : ∃ (v : VBte Int) (L : Layout) (m : DistData Int) (f : Nat → Nat → Int), L.Good ∧
    v.numCalc = 1 ∧ L.numRows = v.numStates ∧ L.numCols = v.numStates ∧ (∀ i < 2, ∀ j < 2, gridSum L m i j = 1) ∧
    v.epaTimesMatrix L m [(0, 0)] = .ok [f] ∧ (∀ s < 2, v.data 0 s = 1) ∧ ∀ s < 2, f 0 s = 1 := by
  refine ⟨⟨1, 1, 1, 2, fun _ _ => 1, []⟩, ⟨2, 2, 2, 2, 1, 1⟩, fun _ _ _ => 1, _, ⟨by decide, by decide, by decide, by decide⟩, rfl, rfl,
    rfl, by decide, rfl, fun _ _ => rfl, by decide⟩

/-- The scalar product is violated: the result is made as a vector with one column, its second and third columns are never set to zero,
and the sum over the states reads them. -/
theorem C184_violated_dot {α : Type} [Zero α] [Add α] [Mul α] (x y : VBte α) (hrows : y.numRows = x.numRows)
    (hs : y.numStates = x.numStates) (hd : y.dim = 3) (hx : x.dim = 3) (hc : 0 < x.numCalc) (s : Nat) (states : List Nat) :
    x.epaDot y (s :: states) = .ub := by
  unfold VBte.epaDot
  rw [if_neg (by simp [hrows, hs]), if_neg (by simp [hd])]
  have hpos : 0 < x.numRows := by unfold VBte.numRows; rw [hx]; omega
  obtain ⟨n, hn⟩ := Nat.exists_eq_succ_of_ne_zero hc.ne'
  have h3 : List.range 3 = [0, 1, 2] := rfl
  rw [hn, h3, List.flatMap_cons, List.range_succ_eq_map, List.flatMap_cons]
  simp only [ List.map_cons, List.cons_append, foldOutcome]
  have h0 : epaDotStep x y (s, 0, 0) (List.replicate x.numRows 0) =
      .ok ((List.replicate x.numRows 0).set 0 (0 + x.get 0 0 s * y.get 0 0 s)) := by
    unfold epaDotStep
    simp only [zero_mul, add_zero]
    rw [readAt_ok (by simpa using hpos)]
    simp [Outcome.bind_eq]
  rw [h0]
  simp only [Outcome.bind_eq, Outcome.bind_ok]
  have h1 : epaDotStep x y (s, 0, 1) ((List.replicate x.numRows 0).set 0 (0 + x.get 0 0 s * y.get 0 0 s)) = .ub := by
    unfold epaDotStep
    have : readAt ((List.replicate x.numRows 0).set 0 (0 + x.get 0 0 s * y.get 0 0 s)) (0 + 1 * x.numRows) = .ub := by
      simp [readAt]
    simp only [this]
    rfl
  rw [h1]
  rfl

/-- The assignment of a vector changes the table of conditions of the vectors that share that of the left-hand side. -/
theorem C184_violated_assign : ∃ (h : Nat → Nat × Nat) (a b c : EpaObject Int), c.table = a.table ∧
    h c.table = (c.vector.numChemPots, c.vector.numTemps) ∧ h b.table = (b.vector.numChemPots, b.vector.numTemps) ∧
    (a.assign h b).1 c.table ≠ (c.vector.numChemPots, c.vector.numTemps) :=
  ⟨fun i => if i = 0 then (1, 2) else (1, 3), ⟨0, ⟨1, 2, 1, 1, fun _ _ => 0, []⟩⟩, ⟨1, ⟨1, 3, 1, 1, fun _ _ => 0, []⟩⟩,
    ⟨0, ⟨1, 2, 1, 1, fun _ _ => 0, []⟩⟩, rfl, rfl, rfl, by decide⟩

/-- The assignment of a vector with the same table gives a vector with the same values and changes no table. -/
theorem C184_assign_partial {α : Type} (h : Nat → Nat × Nat) (a b : EpaObject α) (hab : h a.table = h b.table) :
    (a.assign h b).2.vector = b.vector ∧ (a.assign h b).1 = h ∧ h (a.assign h b).2.table = h b.table := by
  refine ⟨rfl, ?_, hab⟩
  funext i
  simp only [EpaObject.assign]
  split
  · subst_vars; exact hab.symm
  · rfl

/-- The hypotheses of `C184_one_component` and `C184_calculations_partial` are met. -/
example : ∃ (v w : VBte Int) (x : List Int), v.numStates = w.numStates ∧ w.numChemPots = v.numChemPots ∧ w.numTemps = v.numTemps ∧
    w.dim = 1 ∧ v.dim = 3 ∧ (v.numRows : Int) ≤ intMax ∧ x.length = w.numCalc ∧ w.get 1 0 0 = 1 ∧ v.get 1 2 1 = 6 :=
  ⟨⟨1, 2, 3, 2, fun r s => r + s, []⟩, ⟨1, 2, 1, 2, fun r s => r + s, []⟩, [4, 5], rfl, rfl, rfl, rfl, rfl, by decide, rfl, rfl, rfl⟩

end Verif.Props
