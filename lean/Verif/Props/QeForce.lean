import Verif.Proofs.QeForce

/-!
# C152: force constants from Quantum ESPRESSO
-/
namespace Verif.Props
open Verif.Model Verif.Spec Verif.Proofs

/-- The full statement is that the program reads what the file says, and refuses files that are not complete; the second part is false, see
`C152_violated_truncated`.  Here: from every complete file the crystal, the dielectric properties and every force constant are read. -/
theorem C152_read_partial {S N n1 n2 n3 : ℕ} (pr : Printer) (other : Token) (c : FcContents S N n1 n2 n3) (hS : S < 2147483647)
    (h1 : 0 < n1) (h2 : 0 < n2) (h3 : 0 < n3) (alat : ℝ) (v : Axes)
    (hl : getQELattice c.index c.celldm (if c.index = 0 then (c.cell 0, c.cell 1, c.cell 2) else (0, 0, 0)) = .ok (alat, v)) :
    ∃ f, parsePhHarmonic (fcFile pr other c) = .ok f ∧ f.cell = v ∧ f.species.length = S ∧ f.atoms.length = N ∧
      (∀ s : Fin S, f.species[s.val]? = some (c.name s, c.mass s)) ∧
      (∀ i : Fin N, f.atoms[i.val]? = some (((c.kind i).val : Int), fun a => alat * c.position i a)) ∧
      (∀ a : Fin 3, f.dielectric[a.val]? = some (match c.dielectric with | none => 0 | some e => e.1 a)) ∧
      (∀ (i : Fin N) (a : Fin 3), f.born[i.val]?.bind (fun z => z[a.val]?) = some (match c.dielectric with | none => 0 | some e => e.2 i a)) ∧
      f.grid = ((n1 : Int), (n2 : Int), (n3 : Int)) ∧
      ∀ (a b : Fin 3) (i j : Fin N) (r1 : Fin n1) (r2 : Fin n2) (r3 : Fin n3), f.elem a b r1 r2 r3 i j = c.force a b i j r1 r2 r3 := by
  have h := parse_top pr other c hS alat v hl ((List.finRange 3).flatMap (forceLines pr c))
  have e := loopRead_fin (fcDirection N n1 n2 n3) (forceLines pr c) _ (fun a r => fcDirection_lines pr c a r) []
  rw [List.append_nil] at e
  rw [e, Outcome.bind, if_neg (by omega)] at h
  refine ⟨_, h, rfl, by simp, by simp, ?_, ?_, ?_, ?_, rfl, ?_⟩
  · intro s; simp
  · intro i; simp
  · intro a
    rcases hd : c.dielectric with _ | ⟨e, z⟩ <;> simp [dielectricOf, hd, List.finRange_succ] <;> fin_cases a <;> rfl
  · intro i a
    rcases hd : c.dielectric with _ | ⟨e, z⟩ <;> simp [dielectricOf, hd, List.finRange_succ] <;> fin_cases a <;> rfl
  · intro a b i j r1 r2 r3
    simp [FcParsed.elem]

/-- A printer. -/
noncomputable def samplePrinter : Printer where
  int n := ⟨some n, some n⟩
  real x := ⟨none, some x⟩
  int_toInt _ := rfl
  int_toDouble _ := rfl
  real_toDouble _ := rfl

/-- One atom in a cubic cell, a grid of one cell, force constants that are all different. -/
noncomputable def sampleForces : FcContents 1 1 1 1 1 where
  index := 1
  celldm := ![2, 0, 0, 0, 0, 0]
  cell := 0
  name _ := "Si"
  mass _ := 3
  kind _ := 0
  position _ := 0
  dielectric := none
  force a b _ _ _ _ _ := (3 * a.val + b.val : ℕ)

theorem sample_lattice : getQELattice sampleForces.index sampleForces.celldm
    (if sampleForces.index = 0 then (sampleForces.cell 0, sampleForces.cell 1, sampleForces.cell 2) else (0, 0, 0)) =
    .ok (2, ![2, 0, 0], ![0, 2, 0], ![0, 0, 2]) := by
  simp [getQELattice, indexLattice, sampleForces]

example : ∃ f, parsePhHarmonic (fcFile samplePrinter ⟨none, none⟩ sampleForces) = .ok f ∧ f.elem 1 2 0 0 0 0 0 = 5 := by
  obtain ⟨f, h, -, -, -, -, -, -, -, -, hf⟩ := C152_read_partial samplePrinter ⟨none, none⟩ sampleForces (by norm_num) (by norm_num) (by norm_num)
    (by norm_num) 2 _ sample_lattice
  refine ⟨f, h, ?_⟩
  have := hf 1 2 0 0 0 0 0
  simp [sampleForces] at this
  norm_num at this
  exact this

/-- The file of the sample without its last two lines, and without its last six lines. -/
theorem sample_lines (k : Nat) : (fcFile samplePrinter ⟨none, none⟩ sampleForces).take ((fcTop samplePrinter ⟨none, none⟩ sampleForces).length + k) =
    fcTop samplePrinter ⟨none, none⟩ sampleForces ++ ((List.finRange 3).flatMap (forceLines samplePrinter sampleForces)).take k := by
  unfold fcFile
  rw [List.take_append]
  simp

/-- Violation: a file that lacks its last two lines (those of the last force constant) is accepted; the missing force constant is the one read before. -/
theorem C152_violated_truncated : ∃ (k : Nat) (f : FcParsed), k < (fcFile samplePrinter ⟨none, none⟩ sampleForces).length ∧
    parsePhHarmonic ((fcFile samplePrinter ⟨none, none⟩ sampleForces).take k) = .ok f ∧
    f.elem 2 2 0 0 0 0 0 = sampleForces.force 2 1 0 0 0 0 0 ∧ f.elem 2 2 0 0 0 0 0 ≠ sampleForces.force 2 2 0 0 0 0 0 := by
  refine ⟨(fcTop samplePrinter ⟨none, none⟩ sampleForces).length + 16, ?_⟩
  have h := parse_top samplePrinter ⟨none, none⟩ sampleForces (by norm_num) 2 _ sample_lattice
    (((List.finRange 3).flatMap (forceLines samplePrinter sampleForces)).take 16)
  rw [sample_lines, h]
  simp [fcFile, List.finRange_succ, forceLines, forceBlock, forceLine, plainLine, fcDirection, fcBlock, fcValue, loopRead, fcGetLine, fcExtract,
    samplePrinter, sampleForces, FcParsed.elem]

/-- Violation: of a file that lacks the last third of the force constants, these are used without having been set. -/
theorem C152_violated_uninitialised : ∃ k : Nat, k < (fcFile samplePrinter ⟨none, none⟩ sampleForces).length ∧
    parsePhHarmonic ((fcFile samplePrinter ⟨none, none⟩ sampleForces).take k) = .ub := by
  refine ⟨(fcTop samplePrinter ⟨none, none⟩ sampleForces).length + 12, ?_⟩
  have h := parse_top samplePrinter ⟨none, none⟩ sampleForces (by norm_num) 2 _ sample_lattice
    (((List.finRange 3).flatMap (forceLines samplePrinter sampleForces)).take 12)
  rw [sample_lines, h]
  simp [fcFile, List.finRange_succ, forceLines, forceBlock, forceLine, plainLine, fcDirection, fcBlock, fcValue, loopRead, fcGetLine, fcExtract,
    samplePrinter, sampleForces]

end Verif.Props
