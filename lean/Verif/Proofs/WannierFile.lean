import Verif.Spec.WannierFile
import Verif.Proofs.ElWannier
import Verif.Proofs.IrrPoints

namespace Verif.Model

open Verif.Spec

variable {W R : Nat}

theorem readMany_flatMap {ι β : Type} (p : List TextLine → Outcome (β × List TextLine)) (lines : ι → List TextLine)
    (val : ι → β) (l : List ι) (h : ∀ i ∈ l, ∀ rest, p (lines i ++ rest) = .ok (val i, rest)) (rest : List TextLine) :
    readMany p l.length (l.flatMap lines ++ rest) = .ok (l.map val, rest) := by
  induction l with
  | nil => simp [readMany]
  | cons a t ih =>
    rw [List.flatMap_cons, List.append_assoc, List.length_cons, readMany]
    rw [h a (by simp), Outcome.bind_eq, Outcome.bind]
    simp only []
    rw [ih fun i hi => h i (by simp [hi])]
    rfl

theorem readMany_map {ι β : Type} (p : List TextLine → Outcome (β × List TextLine)) (line : ι → TextLine)
    (val : ι → β) (l : List ι) (h : ∀ i ∈ l, ∀ rest, p (line i :: rest) = .ok (val i, rest)) (rest : List TextLine) :
    readMany p l.length (l.map line ++ rest) = .ok (l.map val, rest) := by
  have e : l.map line = l.flatMap fun i => [line i] := by
    induction l with
    | nil => rfl
    | cons a t ih => rw [List.map_cons, List.flatMap_cons, ih fun i hi => h i (by simp [hi])]; rfl
  rw [e]
  exact readMany_flatMap p _ val l (fun i hi r => h i hi r) rest

theorem tbMatrix_block {β : Type} (p : List TextLine → Outcome (β × List TextLine)) (line : Fin W → Fin W → TextLine)
    (val : Fin W → Fin W → β) (h : ∀ m n rest, p (line m n :: rest) = .ok (val m n, rest)) (rest : List TextLine) :
    tbMatrix p W (((List.finRange W).flatMap fun n => (List.finRange W).map fun m => line m n) ++ rest) =
      .ok ((List.finRange W).map fun n => (List.finRange W).map fun m => val m n, rest) := by
  unfold tbMatrix
  have := readMany_flatMap (readMany p W) (fun n => (List.finRange W).map fun m => line m n)
    (fun n => (List.finRange W).map fun m => val m n) (List.finRange W) (fun n _ r => by
      have := readMany_map p (fun m => line m n) (fun m => val m n) (List.finRange W) (fun m _ r => h m n r) r
      rwa [List.length_finRange] at this) rest
  rwa [List.length_finRange] at this

theorem rowAt_map {β : Type} (z : β) (val : Fin W → Fin W → β) (i j : Fin W) :
    rowAt z ((List.finRange W).map fun n => (List.finRange W).map fun m => val m n) i j = val j i := by
  simp [rowAt]

theorem tokDouble_real (pr : Printer) (l : TextLine) (i : Nat) (x : ℝ) (h : l[i]? = some (pr.real x)) :
    tokDouble l i = .ok x := by
  simp [tokDouble, readAt, h, doubleOf, pr.real_toDouble]

theorem tokDouble_int (pr : Printer) (l : TextLine) (i : Nat) (x : Int) (h : l[i]? = some (pr.int x)) :
    tokDouble l i = .ok (x : ℝ) := by
  simp [tokDouble, readAt, h, doubleOf, pr.int_toDouble]

theorem tokInt_int (pr : Printer) (l : TextLine) (i : Nat) (x : Int) (h : l[i]? = some (pr.int x)) :
    tokInt l i = .ok x := by
  simp [tokInt, readAt, h, intOf, pr.int_toInt]

theorem tbElement_hamLine (pr : Printer) (ryToEv : ℝ) (c : TbContents W R) (r : Fin R) (m n : Fin W) (rest) :
    tbElement ryToEv (hamLine pr c r m n :: rest) = .ok (c.ham r m n / (ryToEv : ℂ), rest) := by
  simp only [tbElement, getLine, hamLine]
  rw [tokDouble_real pr _ 2 _ rfl, tokDouble_real pr _ 3 _ rfl]
  simp only [Outcome.bind_eq, Outcome.bind, Outcome.ok.injEq, Prod.mk.injEq, and_true]
  apply Complex.ext <;> simp

theorem tbPosition_posLine (pr : Printer) (bohrToAng : ℝ) (c : TbContents W R) (r : Fin R) (m n : Fin W) (rest) :
    tbPosition bohrToAng (posLine pr c r m n :: rest) = .ok (fun a => c.pos a r m n / (bohrToAng : ℂ), rest) := by
  simp only [tbPosition, getLine, posLine]
  rw [tokDouble_real pr _ 2 _ rfl, tokDouble_real pr _ 3 _ rfl, tokDouble_real pr _ 4 _ rfl,
    tokDouble_real pr _ 5 _ rfl, tokDouble_real pr _ 6 _ rfl, tokDouble_real pr _ 7 _ rfl]
  simp only [Outcome.bind_eq, Outcome.bind, Outcome.ok.injEq, Prod.mk.injEq, and_true]
  funext a
  fin_cases a <;> (apply Complex.ext <;> simp)

theorem tbHam_block (pr : Printer) (ryToEv : ℝ) (c : TbContents W R) (r : Fin R) (rest) :
    tbHam ryToEv W (tbBlock pr c (hamLine pr c) r ++ rest) = .ok ((toVec (c.vector r),
      (List.finRange W).map fun n => (List.finRange W).map fun m => c.ham r m n / (ryToEv : ℂ)), rest) := by
  simp only [tbHam, tbBlock, List.cons_append, getLine, vectorLine]
  rw [tokDouble_int pr _ 0 _ rfl, tokDouble_int pr _ 1 _ rfl, tokDouble_int pr _ 2 _ rfl]
  rw [tbMatrix_block (tbElement ryToEv) (fun m n => hamLine pr c r m n) (fun m n => c.ham r m n / (ryToEv : ℂ))
    (fun m n rest => tbElement_hamLine pr ryToEv c r m n rest)]
  simp [toVec]

theorem tbPos_block (pr : Printer) (bohrToAng : ℝ) (c : TbContents W R) (r : Fin R) (rest) :
    tbPos bohrToAng W (tbBlock pr c (posLine pr c) r ++ rest) = .ok (
      (List.finRange W).map fun n => (List.finRange W).map fun m => fun a => c.pos a r m n / (bohrToAng : ℂ), rest) := by
  simp only [tbPos, tbBlock, List.cons_append, getLine]
  exact tbMatrix_block (tbPosition bohrToAng) (fun m n => posLine pr c r m n)
    (fun m n => fun a => c.pos a r m n / (bohrToAng : ℂ)) (fun m n rest => tbPosition_posLine pr bohrToAng c r m n rest) rest

theorem tbCell_lines (pr : Printer) (bohrToAng : ℝ) (c : TbContents W R) (rest) :
    readMany (tbCellLine bohrToAng) 3
      (((List.finRange 3).map fun i => [pr.real (c.cell i 0), pr.real (c.cell i 1), pr.real (c.cell i 2)]) ++ rest) =
      .ok ((List.finRange 3).map fun i => fun j => c.cell i j / bohrToAng, rest) := by
  have := readMany_map (tbCellLine bohrToAng)
    (fun i : Fin 3 => [pr.real (c.cell i 0), pr.real (c.cell i 1), pr.real (c.cell i 2)])
    (fun i => fun j => c.cell i j / bohrToAng) (List.finRange 3) (fun i _ rest => by
      simp only [tbCellLine, getLine]
      rw [tokDouble_real pr _ 0 _ rfl, tokDouble_real pr _ 1 _ rfl, tokDouble_real pr _ 2 _ rfl]
      simp only [Outcome.bind_eq, Outcome.bind, Outcome.ok.injEq, Prod.mk.injEq, and_true]
      funext j
      fin_cases j <;> rfl) rest
  rwa [List.length_finRange] at this

theorem chunks_flatten {β : Type} (l : List β) : ∀ (n : Nat), l.length ≤ 15 * n →
    ((List.range n).map fun i => (l.drop (15 * i)).take 15).flatten = l := by
  intro n
  induction n generalizing l with
  | zero => intro h; simp at h; simp [h]
  | succ n ih =>
    intro h
    rw [List.range_succ_eq_map, List.map_cons, List.flatten_cons, List.map_map]
    have := ih (l.drop 15) (by rw [List.length_drop]; omega)
    have e : ((fun i => (l.drop (15 * i)).take 15) ∘ Nat.succ) = fun i => ((l.drop 15).drop (15 * i)).take 15 := by
      funext i
      simp only [Function.comp, List.drop_drop]
      congr 2
      rw [Nat.succ_eq_add_one]; ring
    rw [e, this]
    simp

theorem tbNumLines_eq (n : Nat) : tbNumLines n = (n + 14) / 15 := by
  unfold tbNumLines
  split <;> omega

theorem tbDeg_lines (pr : Printer) (c : TbContents W R) (rest) :
    ∃ ds, readMany tbDegLine (tbNumLines R) (degeneracyLines pr c ++ rest) = .ok (ds, rest) ∧
      ds.flatten = (List.finRange R).map fun r => (c.degeneracy r : Int) := by
  let D := (List.finRange R).map fun r => (c.degeneracy r : Int)
  refine ⟨(List.range ((R + 14) / 15)).map fun i => (D.drop (15 * i)).take 15, ?_, ?_⟩
  · have := readMany_map tbDegLine
      (fun i => (((List.finRange R).map fun r => pr.int (c.degeneracy r)).drop (15 * i)).take 15)
      (fun i => (D.drop (15 * i)).take 15) (List.range ((R + 14) / 15)) (fun i _ rest => by
        simp only [tbDegLine, getLine]
        have e : (((List.finRange R).map fun r => pr.int (c.degeneracy r)).drop (15 * i)).take 15 =
            (((List.finRange R).drop (15 * i)).take 15).map fun r => pr.int (c.degeneracy r) := by
          rw [List.map_take, List.map_drop]
        have e' : (D.drop (15 * i)).take 15 =
            (((List.finRange R).drop (15 * i)).take 15).map fun r => (c.degeneracy r : Int) := by
          rw [List.map_take, List.map_drop]
        rw [e, e']
        have : ∀ l : List (Fin R), mapOutcome intOf (l.map fun r => pr.int (c.degeneracy r)) =
            .ok (l.map fun r => (c.degeneracy r : Int)) := by
          intro l
          induction l with
          | nil => rfl
          | cons a t ih =>
            rw [List.map_cons, mapOutcome, ih]
            simp [intOf, pr.int_toInt]
        rw [this]
        rfl) rest
    rw [tbNumLines_eq]
    rwa [List.length_range] at this
  · exact chunks_flatten D _ (by simp [D]; omega)

/-- The data of the program for the content of the file. -/
noncomputable def tbData (ryToEv bohrToAng : ℝ) (cell : Mat3) (c : TbContents W R) : WannierData W R where
  bravais r := matVec cell (toVec (c.vector r))
  degeneracy r := c.degeneracy r
  h0R r i j := c.ham r j i / (ryToEv : ℂ)
  rMatrix a r i j := c.pos a r j i / (bohrToAng : ℂ)
  shifts := none

theorem parseTb_file (pr : Printer) (title : TextLine) (ryToEv bohrToAng : ℝ) (inCell : Option Mat3)
    (c : TbContents W R) :
    parseTb ryToEv bohrToAng inCell (tbFile pr title c) = .ok
      { numWannier := W, numVectors := R, cell := inCell.getD fun j i => c.cell i j / bohrToAng,
        data := tbData ryToEv bohrToAng (inCell.getD fun j i => c.cell i j / bohrToAng) c } := by
  obtain ⟨ds, hd, hf⟩ := tbDeg_lines pr c ((List.finRange R).flatMap (tbBlock pr c (hamLine pr c)) ++
    (List.finRange R).flatMap (tbBlock pr c (posLine pr c)))
  have hh := readMany_flatMap (tbHam ryToEv W) (tbBlock pr c (hamLine pr c)) (fun r => (toVec (c.vector r),
      (List.finRange W).map fun n => (List.finRange W).map fun m => c.ham r m n / (ryToEv : ℂ))) (List.finRange R)
      (fun r _ rest => tbHam_block pr ryToEv c r rest) ((List.finRange R).flatMap (tbBlock pr c (posLine pr c)))
  have hp := readMany_flatMap (tbPos bohrToAng W) (tbBlock pr c (posLine pr c)) (fun r =>
      (List.finRange W).map fun n => (List.finRange W).map fun m => fun a => c.pos a r m n / (bohrToAng : ℂ)) (List.finRange R)
      (fun r _ rest => tbPos_block pr bohrToAng c r rest) []
  rw [List.length_finRange] at hh hp
  rw [List.append_nil] at hp
  unfold parseTb tbFile
  simp only [List.cons_append, List.append_assoc, getLine]
  rw [tbCell_lines pr bohrToAng c]
  simp only [Outcome.bind_eq, Outcome.bind, lineInt, intOf, pr.int_toInt]
  rw [if_neg (by omega)]
  simp only [Int.toNat_natCast]
  rw [hd]
  simp only [Outcome.bind]
  rw [hf, if_neg (by simp)]
  rw [hh]
  dsimp only [Outcome.bind]
  rw [hp]
  dsimp only [Outcome.bind]
  refine congrArg Outcome.ok ?_
  have ecell : (fun (j i : Fin 3) => ((((List.finRange 3).map fun i => fun j => c.cell i j / bohrToAng)[i.1]?).getD 0) j) =
      (fun (j i : Fin 3) => c.cell i j / bohrToAng) := by
    funext j i
    simp
  rw [ecell]
  congr 1
  unfold tbData
  congr 1
  · funext r; simp
  · funext r; simp
  · funext r i j
    have := rowAt_map 0 (fun m n => c.ham r m n / (ryToEv : ℂ)) i j
    simpa using this
  · funext a r i j
    have := rowAt_map 0 (fun m n => fun a => c.pos a r m n / (bohrToAng : ℂ)) i j
    simpa using congrFun this a

end Verif.Model
