import Verif.Proofs.WannierFile3

/-!
C107 and C108: files of Wannier90.
-/

namespace Verif.Props

open Verif.Model Verif.Spec

variable {W R : Nat}

/-- A way to print numbers. -/
noncomputable def plainPrinter : Printer where
  int n := ⟨some n, some n⟩
  real x := ⟨some ⌊x⌋, some x⟩
  int_toInt _ := rfl
  int_toDouble _ := rfl
  real_toDouble _ := rfl

/-! ### C107: the Hamiltonian of the files -/

/-- C107 (what is read): the program reads every file with the format of Wannier90, and gets the unit cell, the vectors
and their degeneracies; the matrices it stores are the transposes of those of the file.  Missing: the matrices themselves
(see `C107_violated_elements`). -/
theorem C107_read_partial (pr : Printer) (title : TextLine) (ryToEv bohrToAng : ℝ) (inCell : Option Mat3)
    (c : TbContents W R) :
    ∃ (cell : Mat3) (d : WannierData W R),
      parseWannier ryToEv bohrToAng inCell (tbFile pr title c) none = .ok ⟨W, R, cell, d⟩ ∧
      (∀ a, inCell = some a → cell = a) ∧ (inCell = none → ∀ i j, cell j i = c.cell i j / bohrToAng) ∧
      (∀ r i, d.bravais r i = (c.vector r).x * cell i 0 + (c.vector r).y * cell i 1 + (c.vector r).z * cell i 2) ∧
      (∀ r, d.degeneracy r = c.degeneracy r) ∧
      (∀ r m n, d.h0R r n m = c.ham r m n / (ryToEv : ℂ)) ∧
      (∀ a r m n, d.rMatrix a r n m = c.pos a r m n / (bohrToAng : ℂ)) ∧ d.shifts = none := by
  refine ⟨_, _, parseWannier_none pr title ryToEv bohrToAng _ c, ?_, ?_, ?_, ?_, ?_, ?_, ?_⟩
  · rintro a rfl; rfl
  · rintro rfl i j; rfl
  · intro r i
    simp only [tbData, matVec, vdot, toVec]
    simp
    ring
  · intro r; rfl
  · intro r m n; rfl
  · intro a r m n; rfl
  · rfl

/-- C107 (bands): without the file of the shifts, the Hamiltonian at every wavevector is the transpose of the one of the
files, and has the same energies; the complex conjugates of its eigenvectors are eigenvectors of the one of the files.
Missing: the Hamiltonian and its eigenvectors (see `C107_violated_elements`), and the shifts (see
`C107_violated_bands`). -/
theorem C107_bands_partial (pr : Printer) (title : TextLine) (ryToEv bohrToAng : ℝ) (c : TbContents W R) :
    ∃ (cell : Mat3) (d : WannierData W R),
      parseWannier ryToEv bohrToAng none (tbFile pr title c) none = .ok ⟨W, R, cell, d⟩ ∧
      ∀ k, blochH d k = (wannierH ryToEv bohrToAng c k).transpose ∧
        (blochH d k).charpoly = (wannierH ryToEv bohrToAng c k).charpoly ∧
        ∀ (e : Fin W → ℝ) (u : Matrix (Fin W) (Fin W) ℂ), (wannierH ryToEv bohrToAng c k).IsHermitian →
          IsEigenDecomposition (blochH d k) e u →
          IsEigenDecomposition (wannierH ryToEv bohrToAng c k) e (u.map (starRingEnd ℂ)) := by
  refine ⟨_, _, parseWannier_none pr title ryToEv bohrToAng _ c, fun k => ?_⟩
  have hb : blochH (tbData ryToEv bohrToAng ((none : Option Mat3).getD (fileCell bohrToAng c)) c) k =
      (wannierH ryToEv bohrToAng c k).transpose := blochH_file ryToEv bohrToAng c k
  refine ⟨hb, by rw [hb]; exact Matrix.charpoly_transpose _, fun e u hh hu => ?_⟩
  rw [hb] at hu
  have hconj : (wannierH ryToEv bohrToAng c k).transpose = (wannierH ryToEv bohrToAng c k).map (starRingEnd ℂ) := by
    funext a b
    have := congrFun (congrFun hh a) b
    rw [Matrix.conjTranspose_apply] at this
    rw [Matrix.transpose_apply, Matrix.map_apply, ← this]
    simp
  have hmap : ∀ A B : Matrix (Fin W) (Fin W) ℂ, (A * B).map (starRingEnd ℂ) =
      A.map (starRingEnd ℂ) * B.map (starRingEnd ℂ) := fun A B => Matrix.map_mul
  have hct : ∀ A : Matrix (Fin W) (Fin W) ℂ, (A.map (starRingEnd ℂ)).conjTranspose =
      A.conjTranspose.map (starRingEnd ℂ) := fun A => by funext a b; simp
  have hone : (1 : Matrix (Fin W) (Fin W) ℂ).map (starRingEnd ℂ) = 1 := Matrix.map_one _ (map_zero _) (map_one _)
  refine ⟨hu.sorted, ?_, ?_, ?_⟩
  · rw [hct, ← hmap, hu.left, hone]
  · rw [hct, ← hmap, hu.right, hone]
  · have h := congrArg (fun A => A.map (starRingEnd ℂ)) hu.eigen
    simp only [hmap] at h
    rw [hconj, Matrix.map_map] at h
    have e1 : (wannierH ryToEv bohrToAng c k).map (⇑(starRingEnd ℂ) ∘ ⇑(starRingEnd ℂ)) =
        wannierH ryToEv bohrToAng c k := by
      funext a b; simp
    have e2 : (Matrix.diagonal fun b => (e b : ℂ)).map (starRingEnd ℂ) = Matrix.diagonal fun b => (e b : ℂ) := by
      rw [Matrix.diagonal_map (map_zero _)]
      congr 1
      funext b
      simp
    rw [e1, e2] at h
    exact h

/-- C107 (bands, with the shifts): if the images of a pair of functions do not depend on the order of the pair, the
Hamiltonian with the shifts is the transpose of the one of the files.  Missing: other shifts (see
`C107_violated_bands`). -/
theorem C107_shifts_partial (pr : Printer) (title title' : TextLine) (ryToEv bohrToAng : ℝ) (c : TbContents W R)
    (s : ShiftContents W R) (h8 : ∀ m n r, s.count m n r ≤ 8) (hv : Function.Injective c.vector)
    (h0 : ∀ r : Fin R, r.1 = 0 → c.vector r ≠ ⟨0, 0, 0⟩) (hcount : ∀ m n r, s.count m n r = s.count n m r)
    (hshift : ∀ m n r j, s.shift m n r j = s.shift n m r j) :
    ∃ (cell : Mat3) (d : WannierData W R),
      parseWannier ryToEv bohrToAng none (tbFile pr title c) (some (true, wsVecFile pr title' c s)) = .ok ⟨W, R, cell, d⟩ ∧
      ∀ k, blochH d k = (wannierHShifted ryToEv bohrToAng c s k).transpose := by
  obtain ⟨d, hd⟩ := addShifts_ok (tbData ryToEv bohrToAng (fileCell bohrToAng c) c) (fileCell bohrToAng c) s h8
  refine ⟨fileCell bohrToAng c, d, parseWannier_some pr title title' ryToEv bohrToAng none c s h8 hv h0 d hd, fun k => ?_⟩
  · rw [blochH_shifted ryToEv bohrToAng c s h8 d hd]
    funext a b
    rw [Matrix.transpose_apply]
    unfold wannierHShifted
    refine Finset.sum_congr rfl fun r _ => ?_
    rw [hcount a b r]
    refine Finset.sum_congr rfl fun j _ => ?_
    rw [hshift a b r j]
    rfl

/-- The lattice vectors of the example are different, and the first is not zero. -/
theorem lineVectors (ryToEv bohrToAng : ℝ) : Function.Injective (lineContents ryToEv bohrToAng).vector ∧
    ∀ r : Fin 5, r.1 = 0 → (lineContents ryToEv bohrToAng).vector r ≠ ⟨0, 0, 0⟩ := by
  constructor
  · intro r r' h
    revert h
    fin_cases r <;> fin_cases r' <;> simp [lineContents]
  · intro r hr
    have : r = 0 := by ext; exact hr
    subst this
    simp [lineContents]

/-- A case that meets the hypotheses of `C107_shifts_partial`: the lattice vectors of the example, with the shift of the
second image to the first. -/
example : ∃ s : ShiftContents 2 5, (∀ m n r, s.count m n r ≤ 8) ∧ (∀ m n r, s.count m n r = s.count n m r) ∧
    (∀ m n r j, s.shift m n r j = s.shift n m r j) ∧ s.shift 0 1 4 0 ≠ ⟨0, 0, 0⟩ :=
  ⟨⟨fun _ _ _ => 1, fun _ _ r _ => if r = 4 then ⟨-4, 0, 0⟩ else ⟨0, 0, 0⟩⟩, fun _ _ _ => by norm_num, fun _ _ _ => rfl,
    fun _ _ _ _ => rfl, by simp⟩

/-- C107 is violated: there are files for which the elements that the program stores are not those of the file, and the
Hamiltonian it computes is not the one of the file. -/
theorem C107_violated_elements (pr : Printer) (title : TextLine) (ryToEv bohrToAng : ℝ) (hr : ryToEv ≠ 0)
    (hb : bohrToAng ≠ 0) :
    ∃ (c : TbContents 2 1) (d : WannierData 2 1) (cell : Mat3) (k : Vec3),
      (wannierH ryToEv bohrToAng c k).IsHermitian ∧
      parseWannier ryToEv bohrToAng none (tbFile pr title c) none = .ok ⟨2, 1, cell, d⟩ ∧
      d.h0R 0 0 1 ≠ c.ham 0 0 1 / (ryToEv : ℂ) ∧ blochH d k ≠ wannierH ryToEv bohrToAng c k := by
  have hr' : (ryToEv : ℂ) ≠ 0 := by exact_mod_cast hr
  let c : TbContents 2 1 := ⟨fun i j => if i = j then bohrToAng else 0, fun _ => 1, fun _ => ⟨0, 0, 0⟩,
    fun _ m n => if m = 0 ∧ n = 1 then ryToEv * Complex.I else if m = 1 ∧ n = 0 then -(ryToEv * Complex.I) else 0,
    fun _ _ _ _ => 0⟩
  have hH : ∀ k m n, wannierH ryToEv bohrToAng c k m n =
      if m = 0 ∧ n = 1 then Complex.I else if m = 1 ∧ n = 0 then -Complex.I else 0 := by
    intro k m n
    unfold wannierH
    rw [Fin.sum_univ_one]
    have : phase k (latticeVector bohrToAng c.cell (c.vector 0)) = 1 := by
      simp [phase, latticeVector, c]
    rw [this]
    simp only [c]
    split
    · field_simp; simp
    · split
      · field_simp; simp
      · simp
  refine ⟨c, tbData ryToEv bohrToAng (fileCell bohrToAng c) c, fileCell bohrToAng c, 0, ?_,
    parseWannier_none pr title ryToEv bohrToAng none c, ?_, ?_⟩
  · funext m n
    rw [Matrix.conjTranspose_apply, hH, hH]
    fin_cases m <;> fin_cases n <;> simp
  · show c.ham 0 1 0 / (ryToEv : ℂ) ≠ c.ham 0 0 1 / (ryToEv : ℂ)
    simp only [c]
    intro h
    simp at h
    field_simp at h
    norm_num at h
  · rw [blochH_file, wannierH_transposed]
    intro h
    have := congrFun (congrFun h 0) 1
    rw [Matrix.transpose_apply, hH, hH] at this
    simp at this
    have := congrArg Complex.im this
    norm_num at this

/-- C107 is violated: with the file of the shifts there are files for which the energies at a wavevector are not those of
the Hamiltonian of the files: the elements of a pair of functions are multiplied by the phases of the exchanged pair.  In
the example, a chain with two functions on a grid of four wavevectors, the energies at a third of the zone should be
`±√3` and the program finds two zeros. -/
theorem C107_violated_bands (pr : Printer) (title title' : TextLine) (ryToEv bohrToAng : ℝ) (hr : ryToEv ≠ 0)
    (hb : bohrToAng ≠ 0) :
    ∃ (c : TbContents 2 5) (s : ShiftContents 2 5) (cell : Mat3) (d : WannierData 2 5) (k : Vec3),
      (wannierHShifted ryToEv bohrToAng c s k).IsHermitian ∧
      parseWannier ryToEv bohrToAng none (tbFile pr title c) (some (true, wsVecFile pr title' c s)) = .ok ⟨2, 5, cell, d⟩ ∧
      (blochH d k).charpoly ≠ (wannierHShifted ryToEv bohrToAng c s k).charpoly := by
  let c := lineContents ryToEv bohrToAng
  have h8 : ∀ m n r, lineShifts.count m n r ≤ 8 := fun m n r => by simp [lineShifts]
  obtain ⟨d, hd⟩ := addShifts_ok (tbData ryToEv bohrToAng (fileCell bohrToAng c) c) (fileCell bohrToAng c) lineShifts h8
  obtain ⟨hv, h0⟩ := lineVectors ryToEv bohrToAng
  refine ⟨c, lineShifts, fileCell bohrToAng c, d, lineK, line_hermitian ryToEv bohrToAng hr hb,
    parseWannier_some pr title title' ryToEv bohrToAng none c lineShifts h8 hv h0 d hd, ?_⟩
  · rw [blochH_shifted ryToEv bohrToAng c lineShifts h8 d hd]
    intro h
    obtain ⟨h1, h2⟩ := line_det ryToEv bohrToAng hr hb
    have e := congrArg (fun p => (-1 : ℂ) ^ Fintype.card (Fin 2) * p.coeff 0) h
    simp only [← Matrix.det_eq_sign_charpoly_coeff] at e
    rw [h1, h2] at e
    norm_num at e

/-- C107 is violated: a file that states fewer vectors than it has degeneracies, on as many lines, is not rejected; the
program writes outside of its memory. -/
theorem C107_violated_count (pr : Printer) (title : TextLine) (ryToEv bohrToAng : ℝ) (inCell : Option Mat3)
    (c : TbContents W R) (stated : Nat) (hlt : stated < R) (hl : (stated + 14) / 15 = (R + 14) / 15) (rest : List TextLine) :
    parseWannier ryToEv bohrToAng inCell
      (title :: ((List.finRange 3).map fun i => [pr.real (c.cell i 0), pr.real (c.cell i 1), pr.real (c.cell i 2)]) ++
        [pr.int W] :: [pr.int stated] :: degeneracyLines pr c ++ rest) none = .ub := by
  obtain ⟨ds, hd, hf⟩ := tbDeg_lines pr c rest
  have hn : tbNumLines stated = tbNumLines R := by
    unfold tbNumLines
    split_ifs <;> omega
  have hub : parseTb ryToEv bohrToAng inCell
      (title :: ((List.finRange 3).map fun i => [pr.real (c.cell i 0), pr.real (c.cell i 1), pr.real (c.cell i 2)]) ++
        [pr.int W] :: [pr.int stated] :: degeneracyLines pr c ++ rest) = .ub := by
    unfold parseTb
    simp only [List.cons_append, List.append_assoc, getLine]
    rw [tbCell_lines pr bohrToAng c]
    simp only [Outcome.bind_eq, Outcome.bind, lineInt, intOf, pr.int_toInt]
    rw [if_neg (by omega)]
    simp only [Int.toNat_natCast]
    rw [hn, hd]
    simp only [Outcome.bind]
    rw [hf, if_pos (by simpa using hlt)]
  unfold parseWannier
  rw [hub]
  rfl

/-- A case that meets the hypotheses of `C107_violated_count`. -/
example : (4 : Nat) < 5 ∧ (4 + 14) / 15 = (5 + 14) / 15 := by decide

/-! ### C108: the file of the shifts -/

/-- C108: every file of shifts with the format of Wannier90 is read exactly, when no pair has more than eight images, the
lattice vectors are different and the first is not zero.  Missing: files whose first vector is zero (see
`C108_violated`). -/
theorem C108_read_partial (pr : Printer) (title : TextLine) (cell : Mat3) (c : TbContents W R) (s : ShiftContents W R)
    (h8 : ∀ m n r, s.count m n r ≤ 8) (hv : Function.Injective c.vector)
    (h0 : ∀ r : Fin R, r.1 = 0 → c.vector r ≠ ⟨0, 0, 0⟩) :
    ∃ d : WannierShifts W R, parseWsVec W R cell true (wsVecFile pr title c s) = .ok d ∧
      (∀ m n r, d.degeneracy m n r = s.count m n r) ∧
      ∀ (j : Fin 8) m n r, j.1 < s.count m n r → ∀ i, d.vectors j m n r i =
        (s.shift m n r j).x * cell i 0 + (s.shift m n r j).y * cell i 1 + (s.shift m n r j).z * cell i 2 := by
  refine ⟨_, parseWsVec_file pr title cell c s h8 (fun r r' h e => by have := hv e; omega) h0, fun _ _ _ => rfl, ?_⟩
  intro j m n r hj i
  simp only [if_pos hj, matVec, vdot, toVec]
  simp
  ring

/-- A case that meets the hypotheses. -/
example : (∀ m n r, lineShifts.count m n r ≤ 8) ∧ Function.Injective (lineContents 1 1).vector ∧
    ∀ r : Fin 5, r.1 = 0 → (lineContents 1 1).vector r ≠ ⟨0, 0, 0⟩ :=
  ⟨fun m n r => by simp [lineShifts], (lineVectors 1 1).1, (lineVectors 1 1).2⟩

/-- C108: a file written without shifts is refused. -/
theorem C108_refused (cell : Mat3) (file : List TextLine) :
    parseWsVec W R cell false file = .error := rfl

/-- C108 is violated: if the first lattice vector of the file is zero (always so for a grid of one wavevector, where zero
is the only lattice vector), the program writes outside of the array. -/
theorem C108_violated (pr : Printer) (title : TextLine) (cell : Mat3) (c : TbContents W R) (s : ShiftContents W R)
    (hW : 0 < W) (hR : 0 < R) (h0 : c.vector ⟨0, hR⟩ = ⟨0, 0, 0⟩) :
    parseWsVec W R cell true (wsVecFile pr title c s) = .ub :=
  parseWsVec_origin pr title cell c s hW hR h0

/-- A case that meets the hypotheses. -/
example : parseWsVec 1 1 (fun i j => if i = j then 1 else 0) true (wsVecFile plainPrinter []
    (⟨fun i j => if i = j then 1 else 0, fun _ => 1, fun _ => ⟨0, 0, 0⟩, fun _ _ _ => 1, fun _ _ _ _ => 0⟩ : TbContents 1 1)
    (⟨fun _ _ _ => 1, fun _ _ _ _ => ⟨0, 0, 0⟩⟩ : ShiftContents 1 1)) = .ub :=
  C108_violated plainPrinter [] _ _ _ (by norm_num) (by norm_num) rfl

end Verif.Props
