import Verif.Spec.Sheng
import Verif.Proofs.Input
import Verif.Proofs.Utilities
import Mathlib.Tactic.FinCases
import Mathlib.Algebra.BigOperators.Ring.Finset

/-! Lemmas on the force constants from ShengBTE. -/
namespace Verif.Props
open Verif.Model Verif.Spec

/-! Reading the file. -/

/-- The elements of the block of a triplet, in the order of the file. -/
def shengTriples : List (Fin 3 × Fin 3 × Fin 3) :=
  (List.finRange 3).flatMap fun i => (List.finRange 3).flatMap fun j => (List.finRange 3).map fun k => (i, j, k)

theorem shengTriples_length : shengTriples.length = 27 := by decide

theorem shengTriples_get (i j k : Fin 3) : shengTriples[9 * i.val + 3 * j.val + k.val]? = some (i, j, k) := by
  revert i j k; decide

theorem lines_eq {A : Nat} (t : Triplet A) (number : Int) : t.lines number =
    [[], [.int number], [.num (t.cell2 0), .num (t.cell2 1), .num (t.cell2 2)],
    [.num (t.cell3 0), .num (t.cell3 1), .num (t.cell3 2)],
    [.int ((t.atom1 : Nat) + 1), .int ((t.atom2 : Nat) + 1), .int ((t.atom3 : Nat) + 1)]] ++
  shengTriples.map fun p => [.int ((p.1 : Nat) + 1), .int ((p.2.1 : Nat) + 1), .int ((p.2.2 : Nat) + 1), .num (t.phi p.1 p.2.1 p.2.2)] := by
  simp only [Triplet.lines, shengTriples, List.map_flatMap, List.map_map, Function.comp_def]

theorem shengEntries_val {α : Type} (newline : Bool) (conv : ℝ) (f : α → Int × Int × Int × ℝ) (rest : List (List FcToken)) :
    ∀ (es : List α) (l : List FcToken), ∃ l', shengEntries newline conv es.length
      ⟨es.map (fun p => [.int (f p).1, .int (f p).2.1, .int (f p).2.2.1, .num (f p).2.2.2]) ++ rest, l⟩ =
      (es.map fun p => (f p).2.2.2 * conv, ⟨rest, l'⟩) := by
  intro es
  induction es with
  | nil => exact fun l => ⟨l, rfl⟩
  | cons e es ih =>
    intro l
    obtain ⟨l', h⟩ := ih [.int (f e).1, .int (f e).2.1, .int (f e).2.2.1, .num (f e).2.2.2]
    refine ⟨l', ?_⟩
    simp only [List.length_cons, shengEntries, FcStream.next, List.map_cons, List.cons_append, shengEntry, FcToken.value]
    rw [h]

/-- What is stored for a triplet of the file. -/
noncomputable def toSheng {A : Nat} (bohr ryd : ℝ) (t : Triplet A) : ShengTriplet :=
  ⟨fun i => t.cell2 i / bohr, fun i => t.cell3 i / bohr,
    fun j => match ([((t.atom1 : Nat) : Int) + 1, ((t.atom2 : Nat) : Int) + 1, ((t.atom3 : Nat) : Int) + 1] : List Int)[j]? with
      | some n => n - 1
      | none => 0,
    fun k => (shengTriples.map fun p => t.phi p.1 p.2.1 p.2.2 * (bohr ^ 3 / ryd)).getD k 0⟩

theorem readTriplet_val {A : Nat} (newline : Bool) (bohr ryd : ℝ) (t : Triplet A) (number : Int)
    (rest : List (List FcToken)) (l : List FcToken) : ∃ l', readTriplet newline bohr ryd ⟨t.lines number ++ rest, l⟩ =
      .ok (toSheng bohr ryd t, ⟨rest, l'⟩) := by
  rw [lines_eq]
  obtain ⟨l', h⟩ := shengEntries_val newline (bohr ^ 3 / ryd)
    (fun p : Fin 3 × Fin 3 × Fin 3 => (((p.1 : Nat) : Int) + 1, ((p.2.1 : Nat) : Int) + 1, ((p.2.2 : Nat) : Int) + 1, t.phi p.1 p.2.1 p.2.2))
    rest shengTriples [.int ((t.atom1 : Nat) + 1), .int ((t.atom2 : Nat) + 1), .int ((t.atom3 : Nat) + 1)]
  rw [shengTriples_length] at h
  refine ⟨l', ?_⟩
  have hp (v : Fin 3 → ℝ) : shengPosition bohr [.num (v 0), .num (v 1), .num (v 2)] = .ok fun i => v i / bohr := by
    unfold shengPosition
    rw [if_neg (by simp)]
    congr 1
    funext j
    fin_cases j <;> simp [FcToken.value]
  have ha : shengAtoms [.int ((t.atom1 : Nat) + 1), .int ((t.atom2 : Nat) + 1), .int ((t.atom3 : Nat) + 1)] =
      .ok (toSheng bohr ryd t).atoms := by
    unfold shengAtoms
    exact if_neg (by simp [leadingInts])
  unfold readTriplet
  simp only [FcStream.next, List.cons_append, List.nil_append]
  rw [hp t.cell2, hp t.cell3, ha]
  simp only [Outcome.bind_eq, Outcome.bind_ok]
  rw [h]
  rfl

theorem readTriplets_val {A : Nat} (newline : Bool) (bohr ryd : ℝ) (rest : List (List FcToken)) :
    ∀ (ts : List (Triplet A)) (k : Nat) (l : List FcToken),
      readTriplets newline bohr ryd ts.length ⟨((ts.zipIdx k).flatMap fun p => p.1.lines (p.2 + 1)) ++ rest, l⟩ =
        .ok (ts.map (toSheng bohr ryd)) := by
  intro ts
  induction ts with
  | nil => exact fun _ _ => rfl
  | cons t ts ih =>
    intro k l
    simp only [List.zipIdx_cons, List.flatMap_cons, List.length_cons, List.append_assoc, readTriplets, List.map_cons]
    obtain ⟨l', h⟩ := readTriplet_val newline bohr ryd t (k + 1)
      (((ts.zipIdx (k + 1)).flatMap fun p => p.1.lines (p.2 + 1)) ++ rest) l
    rw [h]
    simp only [Outcome.bind_eq, Outcome.bind_ok]
    rw [ih (k + 1) l']
    rfl

/-! The same for numbers written in another way. -/

theorem linesBy_eq {A : Nat} (wr : ℝ → FcToken) (t : Triplet A) (number : Int) : t.linesBy wr number =
    [[], [.int number], [wr (t.cell2 0), wr (t.cell2 1), wr (t.cell2 2)],
    [wr (t.cell3 0), wr (t.cell3 1), wr (t.cell3 2)],
    [.int ((t.atom1 : Nat) + 1), .int ((t.atom2 : Nat) + 1), .int ((t.atom3 : Nat) + 1)]] ++
  shengTriples.map fun p => [.int ((p.1 : Nat) + 1), .int ((p.2.1 : Nat) + 1), .int ((p.2.2 : Nat) + 1), wr (t.phi p.1 p.2.1 p.2.2)] := by
  simp only [Triplet.linesBy, shengTriples, List.map_flatMap, List.map_map, Function.comp_def]

theorem shengEntriesBy_val {α : Type} (wr : ℝ → FcToken) (hwr : ∀ x, (wr x).value = x) (newline : Bool) (conv : ℝ) (f : α → Int × Int × Int × ℝ) (rest : List (List FcToken)) :
    ∀ (es : List α) (l : List FcToken), ∃ l', shengEntries newline conv es.length
      ⟨es.map (fun p => [.int (f p).1, .int (f p).2.1, .int (f p).2.2.1, wr (f p).2.2.2]) ++ rest, l⟩ =
      (es.map fun p => (f p).2.2.2 * conv, ⟨rest, l'⟩) := by
  intro es
  induction es with
  | nil => exact fun l => ⟨l, rfl⟩
  | cons e es ih =>
    intro l
    obtain ⟨l', h⟩ := ih [.int (f e).1, .int (f e).2.1, .int (f e).2.2.1, wr (f e).2.2.2]
    refine ⟨l', ?_⟩
    simp only [List.length_cons, shengEntries, FcStream.next, List.map_cons, List.cons_append, shengEntry, hwr]
    rw [h]

theorem readTripletBy_val {A : Nat} (wr : ℝ → FcToken) (hwr : ∀ x, (wr x).value = x) (newline : Bool) (bohr ryd : ℝ) (t : Triplet A) (number : Int)
    (rest : List (List FcToken)) (l : List FcToken) : ∃ l', readTriplet newline bohr ryd ⟨t.linesBy wr number ++ rest, l⟩ =
      .ok (toSheng bohr ryd t, ⟨rest, l'⟩) := by
  rw [linesBy_eq]
  obtain ⟨l', h⟩ := shengEntriesBy_val wr hwr newline (bohr ^ 3 / ryd)
    (fun p : Fin 3 × Fin 3 × Fin 3 => (((p.1 : Nat) : Int) + 1, ((p.2.1 : Nat) : Int) + 1, ((p.2.2 : Nat) : Int) + 1, t.phi p.1 p.2.1 p.2.2))
    rest shengTriples [.int ((t.atom1 : Nat) + 1), .int ((t.atom2 : Nat) + 1), .int ((t.atom3 : Nat) + 1)]
  rw [shengTriples_length] at h
  refine ⟨l', ?_⟩
  have hp (v : Fin 3 → ℝ) : shengPosition bohr [wr (v 0), wr (v 1), wr (v 2)] = .ok fun i => v i / bohr := by
    unfold shengPosition
    rw [if_neg (by simp)]
    congr 1
    funext j
    fin_cases j <;> simp [hwr]
  have ha : shengAtoms [.int ((t.atom1 : Nat) + 1), .int ((t.atom2 : Nat) + 1), .int ((t.atom3 : Nat) + 1)] =
      .ok (toSheng bohr ryd t).atoms := by
    unfold shengAtoms
    exact if_neg (by simp [leadingInts])
  unfold readTriplet
  simp only [FcStream.next, List.cons_append, List.nil_append]
  rw [hp t.cell2, hp t.cell3, ha]
  simp only [Outcome.bind_eq, Outcome.bind_ok]
  rw [h]
  rfl

theorem readTripletsBy_val {A : Nat} (wr : ℝ → FcToken) (hwr : ∀ x, (wr x).value = x) (newline : Bool) (bohr ryd : ℝ) (rest : List (List FcToken)) :
    ∀ (ts : List (Triplet A)) (k : Nat) (l : List FcToken),
      readTriplets newline bohr ryd ts.length ⟨((ts.zipIdx k).flatMap fun p => p.1.linesBy wr (p.2 + 1)) ++ rest, l⟩ =
        .ok (ts.map (toSheng bohr ryd)) := by
  intro ts
  induction ts with
  | nil => exact fun _ _ => rfl
  | cons t ts ih =>
    intro k l
    simp only [List.zipIdx_cons, List.flatMap_cons, List.length_cons, List.append_assoc, readTriplets, List.map_cons]
    obtain ⟨l', h⟩ := readTripletBy_val wr hwr newline bohr ryd t (k + 1)
      (((ts.zipIdx (k + 1)).flatMap fun p => p.1.linesBy wr (p.2 + 1)) ++ rest) l
    rw [h]
    simp only [Outcome.bind_eq, Outcome.bind_ok]
    rw [ih (k + 1) l']
    rfl

/-! Lists of cells. -/

theorem mem_distinctCells_aux (ps : List (Fin 3 → ℝ)) : ∀ l : List (Fin 3 → ℝ), l.Nodup →
    (∀ p, p ∈ (ps.foldl (fun l p => open Classical in if p ∈ l then l else l ++ [p]) l) ↔ p ∈ l ∨ p ∈ ps) ∧
      (ps.foldl (fun l p => open Classical in if p ∈ l then l else l ++ [p]) l).Nodup := by
  classical
  induction ps with
  | nil => intro l h; simpa using h
  | cons a ps ih =>
    intro l h
    rw [List.foldl_cons]
    by_cases ha : a ∈ l
    · rw [if_pos ha]
      obtain ⟨h1, h2⟩ := ih l h
      refine ⟨fun p => ?_, h2⟩
      rw [h1]
      simp only [List.mem_cons]
      constructor
      · tauto
      · rintro (hp | rfl | hp)
        · exact Or.inl hp
        · exact Or.inl ha
        · exact Or.inr hp
    · rw [if_neg ha]
      obtain ⟨h1, h2⟩ := ih (l ++ [a]) (by
        rw [List.nodup_append]
        refine ⟨h, by simp, fun x hx y hy => ?_⟩
        rw [List.mem_singleton] at hy
        rintro rfl
        exact ha (hy ▸ hx))
      refine ⟨fun p => ?_, h2⟩
      rw [h1]
      simp only [List.mem_append, List.mem_cons, or_assoc, List.not_mem_nil, false_or]

theorem mem_distinctCells (ps : List (Fin 3 → ℝ)) (p : Fin 3 → ℝ) : p ∈ distinctCells ps ↔ p ∈ ps := by
  have := (mem_distinctCells_aux ps [] List.nodup_nil).1 p
  simpa [distinctCells] using this

theorem nodup_distinctCells (ps : List (Fin 3 → ℝ)) : (distinctCells ps).Nodup :=
  (mem_distinctCells_aux ps [] List.nodup_nil).2

theorem norm3_zero : norm3 (fun _ => 0) = 0 := by simp [norm3]

theorem findIndexRow_val (cells : List (Fin 3 → ℝ)) (p : Fin 3 → ℝ) (hp : p ∈ cells)
    (hap : ∀ c ∈ cells, p = c ∨ 1.0e-12 ≤ norm3 (fun i => p i - c i)) :
    ∃ i, findIndexRow cells p = .ok i ∧ cells[i]? = some p := by
  classical
  cases hf : cells.findIdx? fun c => decide (norm3 (fun i => p i - c i) < 1.0e-12) with
  | none =>
    rw [List.findIdx?_eq_none_iff] at hf
    have := hf p hp
    simp only [sub_self, norm3_zero, decide_eq_false_iff_not] at this
    norm_num at this
  | some i =>
    have hf' := hf
    rw [List.findIdx?_eq_some_iff_getElem] at hf
    obtain ⟨hi, h1, -⟩ := hf
    simp only [decide_eq_true_eq] at h1
    refine ⟨i, ?_, ?_⟩
    · unfold findIndexRow
      rw [hf']
    · rw [List.getElem?_eq_getElem hi]
      rcases hap _ (List.getElem_mem hi) with h | h
      · rw [h]
      · exact absurd h1 (not_lt.mpr h)

/-! Writing the tensor. -/

/-- The memory after a list of writes. -/
def applyUpdates (l : List (Int × ℝ)) (mem : Int → ℝ) : Int → ℝ := l.foldl (fun m w => Function.update m w.1 w.2) mem

theorem applyUpdates_val (l : List (Int × ℝ)) : ∀ (mem : Int → ℝ) (k : Int),
    ((∀ w ∈ l, w.1 ≠ k) → applyUpdates l mem k = mem k) ∧
      ∀ v, (k, v) ∈ l → (∀ w ∈ l, w.1 = k → w.2 = v) → applyUpdates l mem k = v := by
  induction l with
  | nil => intro mem k; simp [applyUpdates]
  | cons w l ih =>
    intro mem k
    obtain ⟨h1, h2⟩ := ih (Function.update mem w.1 w.2) k
    refine ⟨fun h => ?_, fun v hv h => ?_⟩
    · have := h1 fun w' hw' => h w' (List.mem_cons_of_mem _ hw')
      show applyUpdates l _ k = _
      rw [this, Function.update_of_ne (h w List.mem_cons_self).symm]
    · show applyUpdates l _ k = _
      by_cases hl : ∃ w' ∈ l, w'.1 = k
      · obtain ⟨w', hw', rfl⟩ := hl
        have e := h w' (List.mem_cons_of_mem _ hw') rfl
        exact h2 v (e ▸ hw') fun w'' hw'' he => h w'' (List.mem_cons_of_mem _ hw'') he
      · push Not at hl
        rw [h1 hl]
        rcases List.mem_cons.mp hv with rfl | hv
        · simp
        · exact absurd rfl (hl _ hv)

theorem directions_range : ∀ c ∈ directions, 0 ≤ c.1 ∧ c.1 < 3 ∧ 0 ≤ c.2.1 ∧ c.2.1 < 3 ∧ 0 ≤ c.2.2 ∧ c.2.2 < 3 := by decide

theorem mem_directions (i j k : Fin 3) : (((i.val : Nat) : Int), ((j.val : Nat) : Int), ((k.val : Nat) : Int)) ∈ directions := by
  revert i j k; decide

/-- The writes of a triplet of the file. -/
noncomputable def tripletWrites {A : Nat} (bohr ryd : ℝ) (nb nr : Nat) (t : Triplet A) (i2 i3 : Nat) (l : List (Int × Int × Int)) :
    List (Int × ℝ) :=
  l.map fun c => (fc3Address nb nr ((t.atom1 : Nat) * 3 + c.1) ((t.atom2 : Nat) * 3 + c.2.1) ((t.atom3 : Nat) * 3 + c.2.2) i3 i2,
    (toSheng bohr ryd t).fc (9 * c.1 + 3 * c.2.1 + c.2.2).toNat)

theorem fc3Address_bound (nb nr2 nr3 : Nat) (n1 n2 n3 r3 r2 : Nat) (h1 : n1 < nb) (h2 : n2 < nb) (h3 : n3 < nb) (h4 : r3 < nr2)
    (h5 : r2 < nr3) : 0 ≤ fc3Address nb nr2 n1 n2 n3 r3 r2 ∧
      fc3Address nb nr2 n1 n2 n3 r3 r2 < ((nb * nb * nb * nr2 * nr3 : Nat) : Int) := by
  have e : fc3Address nb nr2 n1 n2 n3 r3 r2 = ((n1 + nb * (n2 + nb * (n3 + nb * (r3 + nr2 * r2))) : Nat) : Int) := by
    unfold fc3Address; push_cast; ring
  rw [e]
  refine ⟨Int.natCast_nonneg _, ?_⟩
  have step (n i x m : Nat) (hi : i < n) (hx : x < m) : i + n * x < n * m := by
    calc i + n * x < n + n * x := by omega
      _ = n * (x + 1) := by ring
      _ ≤ n * m := Nat.mul_le_mul_left _ hx
  have := step nb n1 _ _ h1 (step nb n2 _ _ h2 (step nb n3 _ _ h3 (step nr2 r3 _ _ h4 h5)))
  have e2 : nb * (nb * (nb * (nr2 * nr3))) = nb * nb * nb * nr2 * nr3 := by ring
  rw [e2] at this
  exact_mod_cast this

theorem fc3Address_inj (nb nr2 : Nat) (n1 n2 n3 r3 r2 n1' n2' n3' r3' r2' : Nat) (h1 : n1 < nb) (h2 : n2 < nb) (h3 : n3 < nb)
    (h4 : r3 < nr2) (h1' : n1' < nb) (h2' : n2' < nb) (h3' : n3' < nb) (h4' : r3' < nr2)
    (h : fc3Address nb nr2 n1 n2 n3 r3 r2 = fc3Address nb nr2 n1' n2' n3' r3' r2') :
    n1 = n1' ∧ n2 = n2' ∧ n3 = n3' ∧ r3 = r3' ∧ r2 = r2' := by
  have e (n1 n2 n3 r3 r2 : Nat) : fc3Address nb nr2 n1 n2 n3 r3 r2 = ((n1 + nb * (n2 + nb * (n3 + nb * (r3 + nr2 * r2))) : Nat) : Int) := by
    unfold fc3Address; push_cast; ring
  rw [e, e] at h
  have step (n i x j y : Nat) (hi : i < n) (hj : j < n) (h : i + n * x = j + n * y) : i = j ∧ x = y := by
    have a := congrArg (· % n) h
    have b := congrArg (· / n) h
    simp only [Nat.add_mul_mod_self_left, Nat.mod_eq_of_lt hi, Nat.mod_eq_of_lt hj,
      Nat.add_mul_div_left _ _ (by omega : 0 < n), Nat.div_eq_of_lt hi, Nat.div_eq_of_lt hj, zero_add] at a b
    exact ⟨a, b⟩
  have h' : n1 + nb * (n2 + nb * (n3 + nb * (r3 + nr2 * r2))) = n1' + nb * (n2' + nb * (n3' + nb * (r3' + nr2 * r2'))) := by
    exact_mod_cast h
  obtain ⟨a1, b1⟩ := step _ _ _ _ _ h1 h1' h'
  obtain ⟨a2, b2⟩ := step _ _ _ _ _ h2 h2' b1
  obtain ⟨a3, b3⟩ := step _ _ _ _ _ h3 h3' b2
  obtain ⟨a4, b4⟩ := step _ _ _ _ _ h4 h4' b3
  exact ⟨a1, a2, a3, a4, b4⟩

theorem atom_coord {A : Nat} (a : Fin A) (c : Int) (h0 : 0 ≤ c) (h3 : c < 3) :
    ∃ n : Nat, n < A * 3 ∧ ((a : Nat) : Int) * 3 + c = n ∧ n / 3 = a ∧ ((n % 3 : Nat) : Int) = c := by
  have := a.isLt
  exact ⟨(a : Nat) * 3 + c.toNat, by omega, by omega, by omega, by omega⟩

theorem writeTriplet_val {A : Nat} (bohr ryd : ℝ) (nr2 nr3 : Nat) (hA : (A : Int) * 3 ≤ intMax + 1) (t : Triplet A) (i2 i3 : Nat)
    (h2 : i2 < nr3) (h3 : i3 < nr2) : ∀ (l : List (Int × Int × Int)),
    (∀ c ∈ l, 0 ≤ c.1 ∧ c.1 < 3 ∧ 0 ≤ c.2.1 ∧ c.2.1 < 3 ∧ 0 ≤ c.2.2 ∧ c.2.2 < 3) → ∀ mem,
    writeTriplet (A * 3) nr2 (A * 3 * (A * 3) * (A * 3) * nr2 * nr3) A (toSheng bohr ryd t).atoms (toSheng bohr ryd t).fc i2 i3 l mem =
      .ok (applyUpdates (tripletWrites bohr ryd (A * 3) nr2 t i2 i3 l) mem) := by
  intro l
  induction l with
  | nil => exact fun _ _ => rfl
  | cons c l ih =>
    intro h mem
    obtain ⟨c1, c2, c3⟩ := c
    obtain ⟨p1, p2, p3, p4, p5, p6⟩ := h (c1, c2, c3) List.mem_cons_self
    have a0 : (toSheng bohr ryd t).atoms 0 = (t.atom1 : Nat) := by simp [toSheng]
    have a1 : (toSheng bohr ryd t).atoms 1 = (t.atom2 : Nat) := by simp [toSheng]
    have a2 : (toSheng bohr ryd t).atoms 2 = (t.atom3 : Nat) := by simp [toSheng]
    have hc (a : Fin A) (c : Int) (h0 : 0 ≤ c) (hc3 : c < 3) : compress2Indices ((a : Nat) : Int) c A 3 = .ok (((a : Nat) : Int) * 3 + c) :=
      compress2_val (by omega) (by have := a.isLt; omega) h0 hc3 hA
    simp only [writeTriplet]
    rw [a0, a1, a2, hc _ _ p1 p2, hc _ _ p3 p4, hc _ _ p5 p6]
    simp only [Outcome.bind_eq, Outcome.bind_ok]
    obtain ⟨n1, b1, e1, -⟩ := atom_coord t.atom1 c1 p1 p2
    obtain ⟨n2, b2, e2, -⟩ := atom_coord t.atom2 c2 p3 p4
    obtain ⟨n3, b3, e3, -⟩ := atom_coord t.atom3 c3 p5 p6
    have hb := fc3Address_bound (A * 3) nr2 nr3 n1 n2 n3 i3 i2 b1 b2 b3 h3 h2
    rw [if_neg (by rw [e1, e2, e3]; push Not; exact hb)]
    rw [ih (fun c hc => h c (List.mem_cons_of_mem _ hc))]
    rfl

theorem applyUpdates_append (l l' : List (Int × ℝ)) (mem : Int → ℝ) : applyUpdates (l ++ l') mem = applyUpdates l' (applyUpdates l mem) := by
  unfold applyUpdates; rw [List.foldl_append]

theorem fillFc3_val {A : Nat} (bohr ryd : ℝ) (nr2 nr3 : Nat) (hA : (A : Int) * 3 ≤ intMax + 1) (cells2 cells3 : List (Fin 3 → ℝ))
    (i2 i3 : Triplet A → Nat) : ∀ (ts : List (Triplet A)),
    (∀ t ∈ ts, findIndexRow cells2 (toSheng bohr ryd t).pos2 = .ok (i2 t) ∧ i2 t < nr3) →
    (∀ t ∈ ts, findIndexRow cells3 (toSheng bohr ryd t).pos3 = .ok (i3 t) ∧ i3 t < nr2) → ∀ mem,
    fillFc3 (A * 3) nr2 (A * 3 * (A * 3) * (A * 3) * nr2 * nr3) A cells2 cells3 (ts.map (toSheng bohr ryd)) mem =
      .ok (applyUpdates (ts.flatMap fun t => tripletWrites bohr ryd (A * 3) nr2 t (i2 t) (i3 t) directions) mem) := by
  intro ts
  induction ts with
  | nil => exact fun _ _ _ => rfl
  | cons t ts ih =>
    intro h2 h3 mem
    obtain ⟨g2, l2⟩ := h2 t List.mem_cons_self
    obtain ⟨g3, l3⟩ := h3 t List.mem_cons_self
    simp only [List.map_cons, fillFc3]
    rw [g2, g3]
    simp only [Outcome.bind_eq, Outcome.bind_ok]
    rw [writeTriplet_val bohr ryd nr2 nr3 hA t (i2 t) (i3 t) l2 l3 directions directions_range, Outcome.bind_ok,
      ih (fun t ht => h2 t (List.mem_cons_of_mem _ ht)) (fun t ht => h3 t (List.mem_cons_of_mem _ ht)), List.flatMap_cons,
      applyUpdates_append]

/-! The sum over the triplets. -/

theorem sum_block {M : Type} [AddCommMonoid M] (A a : Nat) (ha : a < A) (g : Nat → M) :
    (∑ n ∈ Finset.range (A * 3), if n / 3 = a then g n else 0) = ∑ c : Fin 3, g (3 * a + c) := by
  rw [← Finset.sum_filter, Fin.sum_univ_eq_sum_range (fun c => g (3 * a + c)) 3]
  refine (Finset.sum_nbij' (fun c => 3 * a + c) (fun n => n - 3 * a) ?_ ?_ ?_ ?_ ?_).symm
  · intro c hc
    simp only [Finset.mem_range, Finset.mem_filter] at hc ⊢
    omega
  · intro n hn
    simp only [Finset.mem_range, Finset.mem_filter] at hn ⊢
    omega
  · intro c hc
    simp
  · intro n hn
    simp only [Finset.mem_range, Finset.mem_filter] at hn
    omega
  · intro c hc
    rfl

theorem list_sum_single {α : Type} {M : Type} [AddCommMonoid M] (P : α → Prop) [DecidablePred P] (f : α → M) (l : List α)
    (hp : l.Pairwise fun a b => ¬ (P a ∧ P b)) (a : α) (ha : a ∈ l) (hP : P a) :
    (l.map fun t => if P t then f t else 0).sum = f a := by
  induction l with
  | nil => simp at ha
  | cons b l ih =>
    rw [List.pairwise_cons] at hp
    rw [List.map_cons, List.sum_cons]
    rcases List.mem_cons.mp ha with rfl | ha
    · rw [if_pos hP]
      have : (l.map fun t => if P t then f t else 0).sum = 0 := by
        apply List.sum_eq_zero
        intro x hx
        obtain ⟨t, ht, rfl⟩ := List.mem_map.mp hx
        rw [if_neg fun h => hp.1 t ht ⟨hP, h⟩]
      rw [this, add_zero]
    · rw [if_neg fun h => hp.1 a ha ⟨h, hP⟩, zero_add]
      exact ih hp.2 ha

theorem list_sum_none {α : Type} {M : Type} [AddCommMonoid M] (P : α → Prop) [DecidablePred P] (f : α → M) (l : List α)
    (hn : ∀ a ∈ l, ¬ P a) : (l.map fun t => if P t then f t else 0).sum = 0 := by
  apply List.sum_eq_zero
  intro x hx
  obtain ⟨t, ht, rfl⟩ := List.mem_map.mp hx
  rw [if_neg (hn t ht)]

theorem coupling_congr (n nr2 nr3 : Nat) (R2 R3 : Nat → Fin 3 → ℝ) (w2 w3 : Nat → Nat → Nat → ℝ) (D D' : Nat → Nat → Nat → Nat → Nat → ℝ)
    (h : ∀ a1 < n, ∀ a2 < n, ∀ a3 < n, ∀ r3 < nr3, ∀ r2 < nr2, D a1 a2 a3 r3 r2 = D' a1 a2 a3 r3 r2)
    (s : ℝ) (q2 q3 : Fin 3 → ℝ) (e1 e2 e3 : Nat → ℂ) :
    Spec.coupling n nr2 nr3 R2 R3 w2 w3 D s q2 q3 e1 e2 e3 = Spec.coupling n nr2 nr3 R2 R3 w2 w3 D' s q2 q3 e1 e2 e3 := by
  unfold Spec.coupling
  refine Finset.sum_congr rfl fun a1 h1 => Finset.sum_congr rfl fun a2 h2 => Finset.sum_congr rfl fun a3 h3 => ?_
  congr 1
  refine Finset.sum_congr rfl fun r2 h4 => Finset.sum_congr rfl fun r3 h5 => ?_
  rw [h a1 (Finset.mem_range.mp h1) a2 (Finset.mem_range.mp h2) a3 (Finset.mem_range.mp h3) r3 (Finset.mem_range.mp h5) r2
    (Finset.mem_range.mp h4)]

theorem coupling_add (n nr2 nr3 : Nat) (R2 R3 : Nat → Fin 3 → ℝ) (w2 w3 : Nat → Nat → Nat → ℝ) (D D' : Nat → Nat → Nat → Nat → Nat → ℝ)
    (s : ℝ) (q2 q3 : Fin 3 → ℝ) (e1 e2 e3 : Nat → ℂ) :
    Spec.coupling n nr2 nr3 R2 R3 w2 w3 (fun a b c d e => D a b c d e + D' a b c d e) s q2 q3 e1 e2 e3 =
    Spec.coupling n nr2 nr3 R2 R3 w2 w3 D s q2 q3 e1 e2 e3 + Spec.coupling n nr2 nr3 R2 R3 w2 w3 D' s q2 q3 e1 e2 e3 := by
  unfold Spec.coupling
  simp only [← Finset.sum_add_distrib]
  refine Finset.sum_congr rfl fun a1 _ => Finset.sum_congr rfl fun a2 _ => Finset.sum_congr rfl fun a3 _ => ?_
  rw [← mul_add]
  simp only [← Finset.sum_add_distrib]
  congr 1
  refine Finset.sum_congr rfl fun r2 _ => Finset.sum_congr rfl fun r3 _ => ?_
  push_cast
  ring

theorem coupling_list {α : Type} (n nr2 nr3 : Nat) (R2 R3 : Nat → Fin 3 → ℝ) (w2 w3 : Nat → Nat → Nat → ℝ)
    (D : α → Nat → Nat → Nat → Nat → Nat → ℝ) (s : ℝ) (q2 q3 : Fin 3 → ℝ) (e1 e2 e3 : Nat → ℂ) (l : List α) :
    Spec.coupling n nr2 nr3 R2 R3 w2 w3 (fun a b c d e => (l.map fun t => D t a b c d e).sum) s q2 q3 e1 e2 e3 =
    (l.map fun t => Spec.coupling n nr2 nr3 R2 R3 w2 w3 (D t) s q2 q3 e1 e2 e3).sum := by
  induction l with
  | nil => simp [Spec.coupling]
  | cons t l ih =>
    simp only [List.map_cons, List.sum_cons]
    rw [coupling_add, ih]

theorem sum_ite_out {ι : Type} {M : Type} [AddCommMonoid M] (s : Finset ι) (p : Prop) [Decidable p] (f : ι → M) :
    (∑ i ∈ s, if p then f i else 0) = if p then ∑ i ∈ s, f i else 0 := by
  split_ifs <;> simp

theorem coupling_single (A nr2 nr3 : Nat) (R2 R3 : Nat → Fin 3 → ℝ) (a1 a2 a3 i2 i3 : Nat) (h1 : a1 < A) (h2 : a2 < A) (h3 : a3 < A)
    (h4 : i2 < nr2) (h5 : i3 < nr3) (v : Nat → Nat → Nat → ℝ) (s : ℝ) (q2 q3 : Fin 3 → ℝ) (e1 e2 e3 : Nat → ℂ) :
    Spec.coupling (A * 3) nr2 nr3 R2 R3 (fun _ _ _ => 1) (fun _ _ _ => 1)
      (fun n1 n2 n3 r3 r2 => if n1 / 3 = a1 ∧ n2 / 3 = a2 ∧ n3 / 3 = a3 ∧ r3 = i3 ∧ r2 = i2 then v n1 n2 n3 else 0)
      s q2 q3 e1 e2 e3 =
    ∑ i : Fin 3, ∑ j : Fin 3, ∑ k : Fin 3, e1 (3 * a1 + i) * e2 (3 * a2 + j) * (starRingEnd ℂ) (e3 (3 * a3 + k)) *
      (v (3 * a1 + i) (3 * a2 + j) (3 * a3 + k) : ℂ) *
      Complex.exp (Complex.I * ((s * scal q2 (R2 i2) - scal q3 (R3 i3) : ℝ) : ℂ)) := by
  have inner (n1 n2 n3 : Nat) : (∑ r2 ∈ Finset.range nr2, ∑ r3 ∈ Finset.range nr3,
      (((1 : ℝ) * 1 * (if n1 / 3 = a1 ∧ n2 / 3 = a2 ∧ n3 / 3 = a3 ∧ r3 = i3 ∧ r2 = i2 then v n1 n2 n3 else 0) : ℝ) : ℂ) *
        Complex.exp (Complex.I * ((s * scal q2 (R2 r2) - scal q3 (R3 r3) : ℝ) : ℂ))) =
      if n1 / 3 = a1 then if n2 / 3 = a2 then if n3 / 3 = a3 then (v n1 n2 n3 : ℂ) *
        Complex.exp (Complex.I * ((s * scal q2 (R2 i2) - scal q3 (R3 i3) : ℝ) : ℂ)) else 0 else 0 else 0 := by
    by_cases p : n1 / 3 = a1 ∧ n2 / 3 = a2 ∧ n3 / 3 = a3
    · obtain ⟨p1, p2, p3⟩ := p
      simp only [p1, p2, p3, true_and, if_true]
      rw [Finset.sum_eq_single i2, Finset.sum_eq_single i3]
      · simp
      · intro r _ hr; simp [hr]
      · intro h; exact absurd (Finset.mem_range.mpr h5) h
      · intro r _ hr; simp [hr]
      · intro h; exact absurd (Finset.mem_range.mpr h4) h
    · have hz (r2 r3 : Nat) : ¬ (n1 / 3 = a1 ∧ n2 / 3 = a2 ∧ n3 / 3 = a3 ∧ r3 = i3 ∧ r2 = i2) := by tauto
      simp only [if_neg (hz _ _), mul_zero, Complex.ofReal_zero, zero_mul, Finset.sum_const_zero]
      split_ifs <;> simp_all
  unfold Spec.coupling
  simp only [inner]
  simp only [mul_ite, mul_zero, sum_ite_out]
  rw [sum_block A a1 h1]
  refine Finset.sum_congr rfl fun i _ => ?_
  rw [sum_block A a2 h2]
  refine Finset.sum_congr rfl fun j _ => ?_
  rw [sum_block A a3 h3]
  refine Finset.sum_congr rfl fun k _ => ?_
  ring

end Verif.Props
