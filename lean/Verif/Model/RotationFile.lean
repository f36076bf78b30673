import Verif.Model.Points
import Verif.Model.Matrix
import Mathlib.Data.Complex.Basic

/-!
# The rotation matrices of Wannier90: src/apps/qe_to_phoebe_wannier.cpp L795-920
-/
namespace Verif.Model

/-- A word of a text file: an integer, or another decimal number. -/
inductive FileWord where
  | int (n : Int)
  | num (q : Rat)

/-- A text file that is read with `>>` and `std::getline`: what is left of the current line, and the other lines.  Simplification:
words are separated already. -/
abbrev TextStream := List (List FileWord)

/-- The next word, over the ends of lines; `none` at the end of the file. -/
def nextWord : TextStream → Option (FileWord × TextStream)
  | [] => none
  | [] :: ls => nextWord ls
  | (w :: ws) :: ls => some (w, ws :: ls)

/-- `std::getline`: the rest of the current line. -/
def dropLine : TextStream → TextStream
  | [] => []
  | _ :: ls => ls

/-- `>>` into a `double` without a value: at the end of the file the variable has no value, and it is used in what follows. -/
def readWordDouble (s : TextStream) : Outcome (Rat × TextStream) :=
  match nextWord s with
  | none => .ub
  | some (.int n, r) => .ok (n, r)
  | some (.num q, r) => .ok (q, r)

/-- `>>` into an `int` without a value.  Simplification: a decimal number in the place of an integer (which would be read up to
the point) is undefined. -/
def readWordInt (s : TextStream) : Outcome (Int × TextStream) :=
  match nextWord s with
  | some (.int n, r) => .ok (n, r)
  | _ => .ub

/-- `Eigen::Tensor<std::complex<double>, 3>`: dimensions and elements. -/
structure RotTensor where
  rows : Nat
  cols : Nat
  depth : Nat
  entry : Nat → Nat → Nat → ℂ

/-- Assignment of an element; outside of the tensor it is undefined (the checks of Eigen are compiled out). -/
def RotTensor.set (t : RotTensor) (i j : Nat) (k : Int) (v : ℂ) : Outcome RotTensor :=
  if i < t.rows ∧ j < t.cols ∧ 0 ≤ k ∧ k < t.depth then
    .ok { t with entry := fun a b c => if a = i ∧ b = j ∧ (c : Int) = k then v else t.entry a b c }
  else .ub

/-- An element. -/
def RotTensor.get (t : RotTensor) (i j k : Nat) : Outcome ℂ :=
  if i < t.rows ∧ j < t.cols ∧ k < t.depth then .ok (t.entry i j k) else .ub

/-- One element of the file, src/apps/qe_to_phoebe_wannier.cpp L832-833 (L884-885). -/
noncomputable def readRotationEntry (ikk : Int) (ij : Nat × Nat) (st : TextStream × RotTensor) : Outcome (TextStream × RotTensor) := do
  let re ← readWordDouble st.1
  let im ← readWordDouble re.2
  let t ← st.2.set ij.1 ij.2 ikk ⟨(re.1 : ℝ), (im.1 : ℝ)⟩
  .ok (im.2, t)

/-- The loops over the elements of one wavevector, src/apps/qe_to_phoebe_wannier.cpp L830-831 (L882-883). -/
def rotationPairs (rows cols : Nat) : List (Nat × Nat) :=
  (List.range cols).flatMap fun j => (List.range rows).map fun i => (i, j)

/-- One wavevector, src/apps/qe_to_phoebe_wannier.cpp L820-836 (L870-888): the rest of the line, the coordinates, the elements. -/
noncomputable def readRotationPoint (points : Points) (_ik : Nat) (st : TextStream × RotTensor) : Outcome (TextStream × RotTensor) := do
  let x ← readWordDouble (dropLine st.1)
  let y ← readWordDouble x.2
  let z ← readWordDouble y.2
  let ikk ← points.getIndex ⟨x.1, y.1, z.1⟩
  foldOutcome (readRotationEntry ikk) (rotationPairs st.2.rows st.2.cols) (z.2, st.2)

/-- The numbers at the head of a file, src/apps/qe_to_phoebe_wannier.cpp L809-813 (L854-858). -/
def readRotationHeader (file : TextStream) : Outcome (Int × Int × Int × TextStream) := do
  let a ← readWordInt (dropLine file)
  let b ← readWordInt a.2
  let c ← readWordInt b.2
  .ok (a.1, b.1, c.1, c.2)

/-- A file, from its numbers: the tensor of zeros and the loop over the wavevectors, src/apps/qe_to_phoebe_wannier.cpp L817-838
(L863-890).  A negative dimension is undefined. -/
noncomputable def readRotationBody (points : Points) (rows cols depth : Int) (s : TextStream) : Outcome RotTensor :=
  if rows < 0 ∨ cols < 0 ∨ depth < 0 then .ub
  else do
    let st ← foldOutcome (readRotationPoint points) (List.range depth.toNat) (s, ⟨rows.toNat, cols.toNat, depth.toNat, fun _ _ _ => 0⟩)
    .ok st.2

/-- One term of the product, src/apps/qe_to_phoebe_wannier.cpp L913-915. -/
noncomputable def rotationTerm (dis uMat : RotTensor) (i j k : Nat) (l : Nat) (acc : ℂ) : Outcome ℂ := do
  let a ← dis.get i l k
  let b ← uMat.get l j k
  .ok (acc + b * a)

/-- One element of the product, src/apps/qe_to_phoebe_wannier.cpp L913-915: the sum starts at the zero of L896. -/
noncomputable def rotationElement (dis uMat : RotTensor) (ijk : Nat × Nat × Nat) (u : RotTensor) : Outcome RotTensor := do
  let v ← foldOutcome (rotationTerm dis uMat ijk.1 ijk.2.1 ijk.2.2) (List.range dis.cols) 0
  u.set ijk.1 ijk.2.1 ijk.2.2 v

/-- The product of the two tensors, src/apps/qe_to_phoebe_wannier.cpp L894-919: `numBands` and `numPoints` are those of the second
file, `numWannier` that of the first one (the columns of both tensors).  Simplification: the copies `a` and `b` are left out. -/
noncomputable def rotationTensorProduct (dis uMat : RotTensor) : Outcome RotTensor :=
  foldOutcome (rotationElement dis uMat)
    ((List.range dis.depth).flatMap fun k => (List.range dis.rows).flatMap fun i => (List.range dis.cols).map fun j => (i, j, k))
    ⟨dis.rows, dis.cols, dis.depth, fun _ _ _ => 0⟩

/-- `setupRotationMatrices`, src/apps/qe_to_phoebe_wannier.cpp L795-920: `uFile` and `disFile` are the files
`<prefix>_u.mat` and `<prefix>_u_dis.mat`, `none` if they cannot be opened.  The assertions L815, L860 and L861 are compiled out. -/
noncomputable def setupRotationMatrices (wannierPrefix : String) (uFile disFile : Option TextStream) (points : Points) : Outcome RotTensor :=
  if wannierPrefix = "" then .error
  else match uFile with
    | none => .error
    | some f => do
      let h ← readRotationHeader f
      let uMat ← readRotationBody points h.2.1 h.2.1 h.1 h.2.2.2
      match disFile with
      | none => .ok uMat
      | some g => do
        let h2 ← readRotationHeader g
        let dis ← readRotationBody points h2.2.2.1 h.2.1 h2.1 h2.2.2.2
        rotationTensorProduct dis uMat

end Verif.Model
