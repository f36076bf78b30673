import Verif.Spec.QeForce
import Verif.Proofs.WannierFile
import Mathlib.Tactic.FinCases

namespace Verif.Proofs
open Verif.Model Verif.Spec

variable {S N n1 n2 n3 : ℕ}

/-! ## Loops -/

theorem loopRead_flatMap {ι β : Type} (p : List FcLine → Outcome (β × List FcLine)) (lines : ι → List FcLine) (val : ι → β) (l : List ι)
    (h : ∀ i ∈ l, ∀ rest, p (lines i ++ rest) = .ok (val i, rest)) (rest : List FcLine) :
    loopRead p l.length (l.flatMap lines ++ rest) = .ok (l.map val, rest) := by
  induction l with
  | nil => simp [loopRead]
  | cons a t ih =>
    rw [List.flatMap_cons, List.append_assoc, List.length_cons, loopRead]
    rw [h a (by simp), Outcome.bind_eq, Outcome.bind]
    simp only []
    rw [ih fun i hi => h i (by simp [hi])]
    rfl

theorem loopRead_map {ι β : Type} (p : List FcLine → Outcome (β × List FcLine)) (lin : ι → FcLine) (val : ι → β) (l : List ι)
    (h : ∀ i ∈ l, ∀ rest, p (lin i :: rest) = .ok (val i, rest)) (rest : List FcLine) :
    loopRead p l.length (l.map lin ++ rest) = .ok (l.map val, rest) := by
  rw [List.map_eq_flatMap]
  exact loopRead_flatMap p _ val l h rest

theorem loopRead_fin {n : Nat} {β : Type} (p : List FcLine → Outcome (β × List FcLine)) (lines : Fin n → List FcLine) (val : Fin n → β)
    (h : ∀ i rest, p (lines i ++ rest) = .ok (val i, rest)) (rest : List FcLine) :
    loopRead p n ((List.finRange n).flatMap lines ++ rest) = .ok ((List.finRange n).map val, rest) := by
  have := loopRead_flatMap p lines val (List.finRange n) (fun i _ => h i) rest
  rwa [List.length_finRange] at this

theorem loopRead_fin_map {n : Nat} {β : Type} (p : List FcLine → Outcome (β × List FcLine)) (lin : Fin n → FcLine) (val : Fin n → β)
    (h : ∀ i rest, p (lin i :: rest) = .ok (val i, rest)) (rest : List FcLine) :
    loopRead p n ((List.finRange n).map lin ++ rest) = .ok ((List.finRange n).map val, rest) := by
  have := loopRead_map p lin val (List.finRange n) (fun i _ => h i) rest
  rwa [List.length_finRange] at this

/-- Loops that also carry the variable `x`. -/
theorem loopRead_state {n : Nat} {β : Type} (p : List FcLine × Option ℝ → Outcome (β × (List FcLine × Option ℝ))) (lines : Fin n → List FcLine)
    (val : Fin n → β) (h : ∀ i rest x, ∃ y, p (lines i ++ rest, x) = .ok (val i, (rest, y))) (rest : List FcLine) (x : Option ℝ) :
    ∃ y, loopRead p n ((List.finRange n).flatMap lines ++ rest, x) = .ok ((List.finRange n).map val, (rest, y)) := by
  have key : ∀ (l : List (Fin n)) (x : Option ℝ), ∃ y, loopRead p l.length (l.flatMap lines ++ rest, x) = .ok (l.map val, (rest, y)) := by
    intro l
    induction l with
    | nil => intro x; exact ⟨x, by simp [loopRead]⟩
    | cons a t ih =>
      intro x
      obtain ⟨y, hy⟩ := h a (t.flatMap lines ++ rest) x
      obtain ⟨z, hz⟩ := ih y
      refine ⟨z, ?_⟩
      rw [List.flatMap_cons, List.append_assoc, List.length_cons, loopRead, hy, Outcome.bind_eq, Outcome.bind]
      simp only []
      rw [hz]
      rfl
  have := key (List.finRange n) x
  rwa [List.length_finRange] at this

/-! ## The parts of the file -/

theorem fcThree_line (pr : Printer) (l : TextLine) (k : Nat) (v : Fin 3 → ℝ) (h0 : l[k]? = some (pr.real (v 0)))
    (h1 : l[k + 1]? = some (pr.real (v 1))) (h2 : l[k + 2]? = some (pr.real (v 2))) : fcThree k l = .ok v := by
  unfold fcThree
  rw [tokDouble_real pr l k _ h0, tokDouble_real pr l _ _ h1, tokDouble_real pr l _ _ h2]
  simp only [Outcome.bind_eq, Outcome.bind, Outcome.ok.injEq]
  ext i
  fin_cases i <;> rfl

theorem fcRow_line (pr : Printer) (v : Fin 3 → ℝ) (rest : List FcLine) : fcRow (threeLine pr v :: rest) = .ok (v, rest) := by
  unfold fcRow
  simp only [fcGetLine, threeLine, plainLine]
  rw [fcThree_line pr _ 0 v rfl rfl rfl]
  rfl

theorem fcSpecies_line (pr : Printer) (other : Token) (c : FcContents S N n1 n2 n3) (s : Fin S) (rest : List FcLine) :
    fcSpecies (speciesLine pr other c s :: rest) = .ok ((c.name s, c.mass s), rest) := by
  simp [fcSpecies, fcGetLine, speciesLine, readAt, doubleOf, pr.real_toDouble]

theorem fcAtom_line (pr : Printer) (alat : ℝ) (c : FcContents S N n1 n2 n3) (hS : S < 2147483647) (i : Fin N) (rest : List FcLine) :
    fcAtom alat (atomLine pr c i :: rest) = .ok (((c.kind i : Nat) , fun a => alat * c.position i a), rest) := by
  unfold fcAtom
  simp only [fcGetLine, atomLine, plainLine]
  rw [tokInt_int pr _ 1 _ rfl, fcThree_line pr _ 2 (c.position i) rfl rfl rfl]
  have hk := (c.kind i).isLt
  have e : csub ((c.kind i : Nat) + 1 : Int) 1 = .ok ((c.kind i : Nat) : Int) := by
    unfold csub i32
    rw [if_pos]
    · congr 1; omega
    · unfold intMin intMax; omega
  simp only [Outcome.bind_eq, Outcome.bind, e]

theorem fcBorn_lines (pr : Printer) (z : Fin N → Fin 3 → Fin 3 → ℝ) (i : Fin N) (rest : List FcLine) :
    fcBorn ((plainLine [pr.int (i + 1)] :: (List.finRange 3).map fun a => threeLine pr (z i a)) ++ rest) =
      .ok ((List.finRange 3).map (z i), rest) := by
  unfold fcBorn
  simp only [List.cons_append, fcGetLine]
  exact loopRead_fin_map fcRow _ (z i) (fun a r => fcRow_line pr (z i a) r) rest

theorem fcValue_line (pr : Printer) (c : FcContents S N n1 n2 n3) (a b : Fin 3) (i j : Fin N) (r1 : Fin n1) (r2 : Fin n2) (r3 : Fin n3)
    (rest : List FcLine) (x : Option ℝ) :
    fcValue (forceLine pr c a b i j r1 r2 r3 :: rest, x) = .ok (c.force a b i j r1 r2 r3, (rest, some (c.force a b i j r1 r2 r3))) := by
  simp [fcValue, fcGetLine, forceLine, plainLine, fcExtract, pr.int_toInt, pr.real_toDouble]

theorem fcBlock_lines (pr : Printer) (c : FcContents S N n1 n2 n3) (a b : Fin 3) (i j : Fin N) (rest : List FcLine) (x : Option ℝ) :
    ∃ y, fcBlock n1 n2 n3 (forceBlock pr c a b i j ++ rest, x) = .ok ((List.finRange n3).map fun r3 => (List.finRange n2).map fun r2 =>
      (List.finRange n1).map fun r1 => c.force a b i j r1 r2 r3, (rest, y)) := by
  unfold fcBlock forceBlock
  simp only [List.cons_append, fcGetLine]
  refine loopRead_state _ _ _ (fun r3 rest x => ?_) rest x
  refine loopRead_state _ _ _ (fun r2 rest x => ?_) rest x
  rw [List.map_eq_flatMap]
  refine loopRead_state _ _ _ (fun r1 rest x => ?_) rest x
  exact ⟨_, fcValue_line pr c a b i j r1 r2 r3 rest x⟩

theorem fcDirection_lines (pr : Printer) (c : FcContents S N n1 n2 n3) (a : Fin 3) (rest : List FcLine) :
    fcDirection N n1 n2 n3 (forceLines pr c a ++ rest) = .ok ((List.finRange 3).map fun b => (List.finRange N).map fun i =>
      (List.finRange N).map fun j => (List.finRange n3).map fun r3 => (List.finRange n2).map fun r2 =>
      (List.finRange n1).map fun r1 => c.force a b i j r1 r2 r3, rest) := by
  unfold fcDirection forceLines
  obtain ⟨y, hy⟩ := loopRead_state (loopRead (loopRead (fcBlock n1 n2 n3) N) N)
    (fun b => (List.finRange N).flatMap fun i => (List.finRange N).flatMap fun j => forceBlock pr c a b i j) _ (fun b rest x =>
    loopRead_state _ _ _ (fun i rest x => loopRead_state _ _ _ (fun j rest x => fcBlock_lines pr c a b i j rest x) rest x) rest x) rest none
  rw [hy]
  rfl

/-- What is read of the dielectric properties. -/
def dielectricOf (c : FcContents S N n1 n2 n3) : (Fin 3 → Fin 3 → ℝ) × (Fin N → Fin 3 → Fin 3 → ℝ) :=
  c.dielectric.getD (0, 0)

theorem replicate_finRange {β : Type} (n : Nat) (x : β) : List.replicate n x = (List.finRange n).map fun _ => x := by
  simp

theorem fcDielectric_lines (pr : Printer) (other : Token) (c : FcContents S N n1 n2 n3) (rest : List FcLine) :
    fcDielectric N (dielectricLines pr other c ++ rest) =
      .ok (((List.finRange 3).map (dielectricOf c).1, (List.finRange N).map fun i => (List.finRange 3).map ((dielectricOf c).2 i)), rest) := by
  unfold fcDielectric dielectricLines dielectricOf
  rcases hd : c.dielectric with _ | ⟨e, z⟩
  · simp only [List.cons_append, List.nil_append, fcGetLine, flagLine, Bool.false_eq_true, if_false, Option.getD_none]
    rw [replicate_finRange, replicate_finRange N]
    rfl
  · simp only [List.cons_append, fcGetLine, flagLine, if_true, Option.getD_some, List.append_assoc]
    rw [loopRead_fin_map fcRow _ e (fun a r => fcRow_line pr (e a) r)]
    simp only [Outcome.bind_eq, Outcome.bind]
    rw [loopRead_fin fcBorn _ (fun i => (List.finRange 3).map (z i)) (fun i r => fcBorn_lines pr z i r)]

theorem fcAxes_lines (pr : Printer) (c : FcContents S N n1 n2 n3) (rest : List FcLine) :
    fcAxes c.index ((if c.index = 0 then (List.finRange 3).map fun a => threeLine pr (c.cell a) else []) ++ rest) =
      .ok (if c.index = 0 then (c.cell 0, c.cell 1, c.cell 2) else (0, 0, 0), rest) := by
  unfold fcAxes
  by_cases h : c.index = 0
  · simp only [h, if_true]
    rw [loopRead_fin_map fcRow _ c.cell (fun a r => fcRow_line pr (c.cell a) r)]
    rfl
  · simp [h]

theorem fcHeader_line (pr : Printer) (c : FcContents S N n1 n2 n3) : fcHeader (headerLine pr c).words = .ok (S, N, c.index, c.celldm) := by
  unfold fcHeader headerLine plainLine
  simp only []
  rw [tokInt_int pr _ 0 _ rfl, tokInt_int pr _ 1 _ rfl, tokInt_int pr _ 2 _ rfl, tokDouble_real pr _ 3 _ rfl, tokDouble_real pr _ 4 _ rfl,
    tokDouble_real pr _ 5 _ rfl, tokDouble_real pr _ 6 _ rfl, tokDouble_real pr _ 7 _ rfl, tokDouble_real pr _ 8 _ rfl]
  simp only [Outcome.bind_eq, Outcome.bind, Outcome.ok.injEq, Prod.mk.injEq, true_and]
  ext i
  fin_cases i <;> rfl

/-! ## The file -/

/-- Everything before the force constants. -/
theorem parse_top (pr : Printer) (other : Token) (c : FcContents S N n1 n2 n3) (hS : S < 2147483647) (alat : ℝ) (v : Axes)
    (hl : getQELattice c.index c.celldm (if c.index = 0 then (c.cell 0, c.cell 1, c.cell 2) else (0, 0, 0)) = .ok (alat, v))
    (rest : List FcLine) :
    parsePhHarmonic (fcTop pr other c ++ rest) = (loopRead (fcDirection N n1 n2 n3) 3 rest).bind fun fc =>
      if (n1 : Int) ≤ 0 ∨ (n2 : Int) ≤ 0 ∨ (n3 : Int) ≤ 0 then .error
      else .ok ⟨v, (List.finRange S).map fun s => (c.name s, c.mass s), (List.finRange N).map fun i => (((c.kind i : Nat) : Int), fun a => alat * c.position i a),
        (List.finRange 3).map (dielectricOf c).1, (List.finRange N).map fun i => (List.finRange 3).map ((dielectricOf c).2 i), (n1, n2, n3), fc.1⟩ := by
  unfold parsePhHarmonic fcTop
  simp only [List.append_assoc, List.cons_append, List.nil_append, fcGetLine]
  rw [fcHeader_line, Outcome.bind_eq, Outcome.bind]
  simp only []
  rw [fcAxes_lines, Outcome.bind_eq, Outcome.bind]
  simp only []
  rw [hl, Outcome.bind_eq, Outcome.bind]
  simp only []
  rw [if_neg (by omega)]
  simp only [Int.toNat_natCast]
  rw [loopRead_fin_map fcSpecies _ _ (fun s r => fcSpecies_line pr other c s r), Outcome.bind_eq, Outcome.bind]
  simp only []
  rw [loopRead_fin_map (fcAtom alat) _ _ (fun i r => fcAtom_line pr alat c hS i r), Outcome.bind_eq, Outcome.bind]
  simp only []
  rw [fcDielectric_lines, Outcome.bind_eq, Outcome.bind]
  simp only [fcGetLine, plainLine]
  rw [tokInt_int pr _ 0 _ rfl, tokInt_int pr _ 1 _ rfl, tokInt_int pr _ 2 _ rfl]
  simp only [Outcome.bind_eq, Outcome.bind, Int.toNat_natCast]
  rw [if_neg (by omega)]

end Verif.Proofs
