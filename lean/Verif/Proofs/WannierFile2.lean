import Verif.Proofs.WannierFile

namespace Verif.Model

open Verif.Spec

variable {W R : Nat}

theorem wsShiftLines_file (pr : Printer) (cell : Mat3) (a b : Fin W) (r : Fin R) (sh : Nat → V3 Int) :
    ∀ (n i0 : Nat) (s : WannierShifts W R) (rest : List TextLine), i0 + n ≤ 8 →
    wsShiftLines cell a b r n i0 ((List.range' i0 n).map (fun j => vectorLine pr (sh j)) ++ rest) s =
      .ok (⟨s.degeneracy, fun j => if i0 ≤ j.1 ∧ j.1 < i0 + n then
        setShift (s.vectors j) a b r (matVec cell (toVec (sh j))) else s.vectors j⟩, rest) := by
  intro n
  induction n with
  | zero =>
    intro i0 s rest _
    have : ∀ j : Fin 8, ¬ (i0 ≤ j.1 ∧ j.1 < i0 + 0) := fun j => by omega
    simp only [wsShiftLines, List.range'_zero, List.map_nil, List.nil_append, this, if_false]
  | succ n ih =>
    intro i0 s rest h
    rw [List.range'_succ, List.map_cons, List.cons_append, wsShiftLines]
    simp only [getLine, vectorLine]
    rw [tokInt_int pr _ 0 _ rfl, tokInt_int pr _ 1 _ rfl, tokInt_int pr _ 2 _ rfl]
    simp only [Outcome.bind_eq, Outcome.bind]
    rw [if_pos (by omega)]
    have := ih (i0 + 1) ⟨s.degeneracy, fun j => if j.1 = i0 then setShift (s.vectors j) a b r (matVec cell (toVec (sh i0)))
      else s.vectors j⟩ rest (by omega)
    simp only [vectorLine] at this
    rw [this]
    refine congrArg (fun x => Outcome.ok (x, rest)) ?_
    congr 1
    funext j
    by_cases h1 : j.1 = i0
    · rw [if_neg (by omega), if_pos h1, if_pos (by omega), h1]
    · rw [if_neg h1]
      by_cases h2 : i0 + 1 ≤ j.1 ∧ j.1 < i0 + 1 + n
      · rw [if_pos h2, if_pos (by omega)]
      · rw [if_neg h2, if_neg (by omega)]

/-- The arrays after an entry of the file. -/
noncomputable def wsUpdate (cell : Mat3) (c : ShiftContents W R) (s : WannierShifts W R) (e : Fin R × Fin W × Fin W) :
    WannierShifts W R :=
  ⟨setShift s.degeneracy e.2.1 e.2.2 e.1 (c.count e.2.1 e.2.2 e.1), fun j =>
    if j.1 < c.count e.2.1 e.2.2 e.1 then
      setShift (s.vectors j) e.2.1 e.2.2 e.1 (matVec cell (toVec (c.shift e.2.1 e.2.2 e.1 j))) else s.vectors j⟩

/-- The index of the program follows the index of the entries. -/
def Follows (v : Fin R → V3 Int) : Int → V3 Int → List (Fin R × Fin W × Fin W) → Prop
  | _, _, [] => True
  | iR, old, e :: es => (if v e.1 ≠ old then iR + 1 else iR) = (e.1.1 : Int) ∧ Follows v e.1.1 (v e.1) es

theorem wsVecLoop_file (pr : Printer) (cell : Mat3) (t : TbContents W R) (c : ShiftContents W R)
    (h8 : ∀ m n r, c.count m n r ≤ 8) : ∀ (es : List (Fin R × Fin W × Fin W)) (fuel : Nat) (old : V3 Int) (iR : Int)
    (s : WannierShifts W R), es.length ≤ fuel → Follows t.vector iR old es →
    wsVecLoop cell fuel (es.flatMap fun e => wsVecEntry pr t c e.1 e.2.1 e.2.2) old iR s =
      .ok (es.foldl (wsUpdate cell c) s) := by
  intro es
  induction es with
  | nil =>
    intro fuel old iR s _ _
    cases fuel <;> rfl
  | cons e es ih =>
    intro fuel old iR s hf hF
    obtain ⟨fuel, rfl⟩ : ∃ k, fuel = k + 1 := ⟨fuel - 1, by simp at hf; omega⟩
    rw [List.flatMap_cons, wsVecEntry, List.cons_append, List.cons_append, wsVecLoop]
    rw [tokInt_int pr _ 0 _ rfl, tokInt_int pr _ 1 _ rfl, tokInt_int pr _ 2 _ rfl, tokInt_int pr _ 3 _ rfl,
      tokInt_int pr _ 4 _ rfl]
    simp only [getLine, lineInt, intOf, pr.int_toInt, Outcome.bind_eq, Outcome.bind]
    have hv : (⟨(t.vector e.1).x, (t.vector e.1).y, (t.vector e.1).z⟩ : V3 Int) = t.vector e.1 := rfl
    rw [hv]
    obtain ⟨hi, hr⟩ := hF
    have hidx : wsIndex W R (((e.2.1.1 : Int) + 1) - 1) (((e.2.2.1 : Int) + 1) - 1)
        (if t.vector e.1 ≠ old then iR + 1 else iR) = some (e.2.1, e.2.2, e.1) := by
      rw [hi]
      have h1 := e.2.1.2
      have h2 := e.2.2.2
      have h3 := e.1.2
      rw [wsIndex, dif_pos (by omega)]
      simp
    rw [hidx]
    dsimp only
    rw [Int.toNat_natCast]
    have := wsShiftLines_file pr cell e.2.1 e.2.2 e.1 (c.shift e.2.1 e.2.2 e.1) (c.count e.2.1 e.2.2 e.1) 0
      { s with degeneracy := setShift s.degeneracy e.2.1 e.2.2 e.1 (c.count e.2.1 e.2.2 e.1) }
      (es.flatMap fun e => wsVecEntry pr t c e.1 e.2.1 e.2.2) (by have := h8 e.2.1 e.2.2 e.1; omega)
    rw [← List.range_eq_range'] at this
    rw [this]
    dsimp only [Outcome.bind]
    rw [hi, ih fuel _ _ _ (by simp at hf; omega) hr, List.foldl_cons]
    congr 2
    unfold wsUpdate
    congr 1
    funext j
    simp

theorem foldl_degeneracy (cell : Mat3) (c : ShiftContents W R) (es : List (Fin R × Fin W × Fin W)) :
    ∀ (s : WannierShifts W R) (a b : Fin W) (r : Fin R), (es.foldl (wsUpdate cell c) s).degeneracy a b r =
      if (r, a, b) ∈ es then c.count a b r else s.degeneracy a b r := by
  induction es with
  | nil => intro s a b r; simp
  | cons e es ih =>
    intro s a b r
    rw [List.foldl_cons, ih]
    by_cases h : (r, a, b) ∈ es
    · rw [if_pos h, if_pos (by simp [h])]
    · rw [if_neg h]
      by_cases he : (r, a, b) = e
      · subst he
        simp [wsUpdate, setShift]
      · rw [if_neg (by simp [h, he])]
        have : ¬ (a = e.2.1 ∧ b = e.2.2 ∧ r = e.1) := fun ⟨h1, h2, h3⟩ => he (by rw [h1, h2, h3])
        simp only [wsUpdate, setShift]
        rw [if_neg this]

theorem foldl_vectors (cell : Mat3) (c : ShiftContents W R) (es : List (Fin R × Fin W × Fin W)) :
    ∀ (s : WannierShifts W R) (j : Fin 8) (a b : Fin W) (r : Fin R), (es.foldl (wsUpdate cell c) s).vectors j a b r =
      if (r, a, b) ∈ es ∧ j.1 < c.count a b r then matVec cell (toVec (c.shift a b r j)) else s.vectors j a b r := by
  induction es with
  | nil => intro s j a b r; simp
  | cons e es ih =>
    intro s j a b r
    rw [List.foldl_cons, ih]
    by_cases h : (r, a, b) ∈ es ∧ j.1 < c.count a b r
    · rw [if_pos h, if_pos (by simp [h])]
    · rw [if_neg h]
      by_cases he : (r, a, b) = e
      · subst he
        by_cases hj : j.1 < c.count a b r
        · simp [wsUpdate, setShift, hj]
        · simp [wsUpdate, hj]
      · have : ¬ (a = e.2.1 ∧ b = e.2.2 ∧ r = e.1) := fun ⟨h1, h2, h3⟩ => he (by rw [h1, h2, h3])
        rw [if_neg (by simp only [List.mem_cons]; tauto)]
        simp only [wsUpdate]
        split
        · simp only [setShift]
          rw [if_neg this]
        · rfl

theorem follows_block (v : Fin R → V3 Int) (r : Fin R) (ps : List (Fin W × Fin W)) (tail : List (Fin R × Fin W × Fin W))
    (h : Follows v r.1 (v r) tail) : Follows v r.1 (v r) (ps.map (fun p => (r, p)) ++ tail) := by
  induction ps with
  | nil => exact h
  | cons p ps ih => exact ⟨by simp, ih⟩

theorem follows_all (v : Fin R → V3 Int) (ps : List (Fin W × Fin W)) (hps : ps ≠ []) :
    ∀ (rs : List (Fin R)) (iR : Int) (old : V3 Int),
    (∀ r ∈ rs.head?, (r.1 : Int) = iR + 1 ∧ v r ≠ old) →
    rs.IsChain (fun r r' => r'.1 = r.1 + 1 ∧ v r' ≠ v r) → Follows v iR old (rs.flatMap fun r => ps.map fun p => (r, p)) := by
  intro rs
  induction rs with
  | nil => intros; trivial
  | cons r rs ih =>
    intro iR old h1 h2
    obtain ⟨p, ps', rfl⟩ := List.exists_cons_of_ne_nil hps
    rw [List.flatMap_cons, List.map_cons, List.cons_append]
    have hr := h1 r (by simp)
    refine ⟨by rw [if_pos hr.2]; exact hr.1.symm, follows_block v r ps' _ (ih _ _ ?_ h2.tail)⟩
    intro r' hr'
    cases rs with
    | nil => simp at hr'
    | cons r'' rs =>
      simp only [List.head?_cons, Option.mem_def, Option.some.injEq] at hr'
      subst hr'
      have := (List.isChain_cons_cons.mp h2).1
      exact ⟨by rw [this.1]; push_cast; ring, this.2⟩

theorem finRange_chain (P : Fin R → Fin R → Prop) (h : ∀ r r' : Fin R, r'.1 = r.1 + 1 → P r r') :
    (List.finRange R).IsChain P := by
  rw [List.isChain_iff_getElem]
  intro i hi
  apply h
  simp

/-- The order of the entries in the file. -/
def wsEntries (W R : Nat) : List (Fin R × Fin W × Fin W) :=
  (List.finRange R).flatMap fun r => ((List.finRange W).flatMap fun m => (List.finRange W).map fun n => (m, n)).map
    fun p => (r, p)

theorem mem_wsEntries (r : Fin R) (a b : Fin W) : (r, a, b) ∈ wsEntries W R := by
  simp [wsEntries]

theorem wsVecFile_eq (pr : Printer) (title : TextLine) (t : TbContents W R) (c : ShiftContents W R) :
    wsVecFile pr title t c = title :: (wsEntries W R).flatMap fun e => wsVecEntry pr t c e.1 e.2.1 e.2.2 := by
  unfold wsVecFile wsEntries
  congr 1
  simp only [List.flatMap_assoc, List.flatMap_map, List.map_flatMap, List.map_map]
  rfl

theorem entries_length (pr : Printer) (t : TbContents W R) (c : ShiftContents W R) (es : List (Fin R × Fin W × Fin W)) :
    es.length ≤ (es.flatMap fun e => wsVecEntry pr t c e.1 e.2.1 e.2.2).length := by
  induction es with
  | nil => simp
  | cons e es ih =>
    rw [List.flatMap_cons, List.length_append, List.length_cons]
    have : 1 ≤ (wsVecEntry pr t c e.1 e.2.1 e.2.2).length := by simp [wsVecEntry]
    omega

theorem parseWsVec_file (pr : Printer) (title : TextLine) (cell : Mat3) (t : TbContents W R) (c : ShiftContents W R)
    (h8 : ∀ m n r, c.count m n r ≤ 8) (hv : ∀ r r' : Fin R, r'.1 = r.1 + 1 → t.vector r' ≠ t.vector r)
    (h0 : ∀ r : Fin R, r.1 = 0 → t.vector r ≠ ⟨0, 0, 0⟩) :
    parseWsVec W R cell true (wsVecFile pr title t c) = .ok
      ⟨c.count, fun j a b r => if j.1 < c.count a b r then matVec cell (toVec (c.shift a b r j)) else 0⟩ := by
  have hF : Follows t.vector (-1) ⟨0, 0, 0⟩ (wsEntries W R) := by
    rcases Nat.eq_zero_or_pos W with rfl | hW
    · have : wsEntries 0 R = [] := by simp [wsEntries]
      rw [this]; trivial
    · refine follows_all t.vector _ ?_ _ _ _ ?_ (finRange_chain _ fun r r' h => ⟨h, hv r r' h⟩)
      · intro h
        have hm : ((⟨0, hW⟩ : Fin W), (⟨0, hW⟩ : Fin W)) ∈
            (List.finRange W).flatMap fun m => (List.finRange W).map fun n => (m, n) := by simp
        rw [h] at hm
        simp at hm
      · intro r hr
        have : r.1 = 0 := by
          cases R with
          | zero => exact r.elim0
          | succ R =>
            rw [List.finRange_succ] at hr
            simp at hr
            rw [← hr]; rfl
        exact ⟨by rw [this]; norm_num, h0 r this⟩
  rw [wsVecFile_eq, parseWsVec, if_pos rfl]
  simp only [getLine]
  rw [wsVecLoop_file pr cell t c h8 _ _ _ _ _ (by
    have := entries_length pr t c (wsEntries W R)
    rw [List.length_cons]; omega) hF]
  refine congrArg Outcome.ok ?_
  have e1 : (List.foldl (wsUpdate cell c) ⟨fun _ _ _ => 0, fun _ _ _ _ => 0⟩ (wsEntries W R)).degeneracy = c.count := by
    funext a b r
    rw [foldl_degeneracy, if_pos (mem_wsEntries r a b)]
  have e2 : (List.foldl (wsUpdate cell c) ⟨fun _ _ _ => 0, fun _ _ _ _ => 0⟩ (wsEntries W R)).vectors =
      fun (j : Fin 8) a b r => if j.1 < c.count a b r then matVec cell (toVec (c.shift a b r j)) else 0 := by
    funext j a b r
    rw [foldl_vectors]
    simp only [mem_wsEntries, true_and]
  rw [← e2, ← e1]

theorem parseWsVec_origin (pr : Printer) (title : TextLine) (cell : Mat3) (t : TbContents W R) (c : ShiftContents W R)
    (hW : 0 < W) (hR : 0 < R) (h0 : t.vector ⟨0, hR⟩ = ⟨0, 0, 0⟩) :
    parseWsVec W R cell true (wsVecFile pr title t c) = .ub := by
  obtain ⟨W, rfl⟩ : ∃ k, W = k + 1 := ⟨W - 1, by omega⟩
  obtain ⟨R, rfl⟩ : ∃ k, R = k + 1 := ⟨R - 1, by omega⟩
  have e : wsEntries (W + 1) (R + 1) = (0, 0, 0) :: (wsEntries (W + 1) (R + 1)).tail := by
    simp [wsEntries, List.finRange_succ]
  rw [wsVecFile_eq, parseWsVec, if_pos rfl, e]
  simp only [getLine]
  rw [List.length_cons, List.flatMap_cons, wsVecEntry, List.cons_append, List.cons_append, wsVecLoop]
  rw [tokInt_int pr _ 0 _ rfl, tokInt_int pr _ 1 _ rfl, tokInt_int pr _ 2 _ rfl, tokInt_int pr _ 3 _ rfl,
    tokInt_int pr _ 4 _ rfl]
  simp only [getLine, lineInt, intOf, pr.int_toInt, Outcome.bind_eq, Outcome.bind]
  have h0' : t.vector 0 = ⟨0, 0, 0⟩ := h0
  have hidx : ∀ (x y : Int), wsIndex (W + 1) (R + 1) x y (-1) = none := by
    intro x y
    rw [wsIndex, dif_neg (by omega)]
  rw [h0', if_neg (by simp), hidx]

end Verif.Model
