import Verif.Model.Sheng
import Verif.Model.DynMat
import Verif.Model.IrrPoints
import Mathlib.Order.PiLex
import Mathlib.Data.Finset.Sort

/-!
# src/parser/ifc3_parser.cpp: third-order force constants from phono3py

Numbers are reals (no rounding).  Two lattice vectors that are computed from different integers are equal if they are equal in
exact arithmetic.
-/
namespace Verif.Model

/-! ## The file of the displacements -/

/-- A word of a line. -/
inductive YamlWord where
  | int (n : Int)
  | num (x : ℝ)
  | word

/-- A line of the file: which strings `line.find` finds in it, and what `tokenize` makes of it. -/
structure YamlLine where
  has : String → Bool
  tok : List YamlWord

/-- `std::stoi(tok[k])`; simplification: words that are not integers throw. -/
def YamlLine.int (l : YamlLine) (k : Nat) : Outcome Int :=
  match l.tok[k]? with
  | none => .ub
  | some (.int n) => .ok n
  | some _ => .error

/-- `std::stod(tok[k])`. -/
noncomputable def YamlLine.num (l : YamlLine) (k : Nat) : Outcome ℝ :=
  match l.tok[k]? with
  | none => .ub
  | some (.int n) => .ok n
  | some (.num x) => .ok x
  | some .word => .error

/-- The variable `line` after the end of the file: empty if the file ends with an end of line, otherwise the last line. -/
def endLine (newline : Bool) (lines : List YamlLine) : YamlLine :=
  if newline then ⟨fun _ => false, []⟩ else lines.getLastD ⟨fun _ => false, []⟩

/-- One row of the supercell matrix, src/parser/ifc3_parser.cpp L431-442. -/
def gridRow (l : YamlLine) (i : Nat) : Outcome Int := do
  let q ← l.int (2 + i)
  let a ← l.int 2
  if 0 ≠ i ∧ a ≠ 0 then .error
  else do
    let b ← l.int 3
    if 1 ≠ i ∧ b ≠ 0 then .error
    else do
      let c ← l.int 4
      if 2 ≠ i ∧ c ≠ 0 then .error else .ok q

/-- The dimensions of the supercell, src/parser/ifc3_parser.cpp L424-446: `none` if they are not in the file (the variable is then not
initialised).  Simplification: the word of the direction itself is read once more, as an integer. -/
def readGrid (last : YamlLine) : List YamlLine → Outcome (Option (V3 Int))
  | [] => .ok none
  | l :: rest =>
    if l.has "supercell_matrix:" then do
      let x ← gridRow (rest.getD 0 last) 0
      let y ← gridRow (rest.getD 1 last) 1
      let z ← gridRow (rest.getD 2 last) 2
      .ok (some ⟨x, y, z⟩)
    else readGrid last rest

/-- `distanceConversion`, src/parser/ifc3_parser.cpp L454-463. -/
noncomputable def distanceUnit (bohr : ℝ) : List YamlLine → ℝ
  | [] => 1 / bohr
  | l :: rest => if l.has "length" then (if l.has "au" then 1 else 1 / bohr) else distanceUnit bohr rest

/-- The variables of the loop at src/parser/ifc3_parser.cpp L468-506. -/
structure SupState where
  positions : List (Fin 3 → ℝ)
  lattice : Nat → Fin 3 → ℝ
  ilatt : Nat
  read : Bool

/-- `tok[2]`, `tok[3]`, `tok[4]`. -/
noncomputable def YamlLine.vec (l : YamlLine) : Outcome (Fin 3 → ℝ) := do
  let x ← l.num 2
  let y ← l.num 3
  let z ← l.num 4
  .ok ![x, y, z]

/-- The supercell, src/parser/ifc3_parser.cpp L472-506. -/
noncomputable def readSup : List YamlLine → SupState → Outcome SupState
  | [], s => .ok s
  | l :: rest, s =>
    if l.has "phonon" then .ok s
    else do
      let s1 : SupState := if l.has "supercell:" then { s with read := true } else s
      let s2 ← (if l.has "coordinates:" ∧ s1.read then do
          let p ← l.vec
          .ok { s1 with positions := s1.positions ++ [p] }
        else .ok s1 : Outcome SupState)
      let s3 ← (if s2.ilatt < 3 ∧ s2.read then do
          let p ← l.vec
          .ok { s2 with lattice := Function.update s2.lattice s2.ilatt p, ilatt := s2.ilatt + 1 }
        else .ok s2 : Outcome SupState)
      let s4 : SupState := if l.has "lattice:" ∧ s3.read then { s3 with ilatt := 0 } else s3
      readSup rest s4

/-! ## Lattice vectors and weights -/

/-- The values of one of the loops, src/parser/ifc3_parser.cpp L125-127, L145. -/
def p3Range (n : Int) : List Int := (List.range (4 * n).toNat).map fun k : Nat => (k : Int) - 2 * n

/-- The cells of the loops, src/parser/ifc3_parser.cpp L230-232, L271-273 (and, in another order, L145-147). -/
def p3Box (N : V3 Int) : List (V3 Int) :=
  (p3Range N.z).flatMap fun z => (p3Range N.y).flatMap fun y => (p3Range N.x).map fun x => ⟨x, y, z⟩

/-- `unitCell`, src/parser/ifc3_parser.cpp L47-50. -/
noncomputable def p3Super (d : Mat3) (N : V3 Int) : Mat3 := fun i j =>
  d i j * (if j = 0 then (N.x : ℝ) else if j = 1 then (N.y : ℝ) else (N.z : ℝ))

/-- `IFC3Parser::wsInit`, src/parser/ifc3_parser.cpp L40-77. -/
noncomputable def p3Rws (d : Mat3) (N : V3 Int) : List Vec3 := rwsList (p3Super d N)

/-- The loop of `wsWeight`, src/parser/ifc3_parser.cpp L82-94. -/
noncomputable def p3WeightLoop (r : Vec3) : List Vec3 → Nat → ℝ
  | [], nreq => 1 / (nreq : ℝ)
  | g :: rws, nreq =>
    let ck := vdot r g - vdot g g / 2
    if ck > 1.0e-6 then 0
    else p3WeightLoop r rws (if |ck| < 1.0e-6 then nreq + 1 else nreq)

/-- The weight of the vector `R` for two atoms, src/parser/ifc3_parser.cpp L81-95, L150-156, L317-322, L329-334. -/
noncomputable def p3Weight {A : Nat} (d : Mat3) (pos : Fin A → Vec3) (N : V3 Int) (R : Vec3) (na nb : Fin A) : ℝ :=
  p3WeightLoop (fun i => R i - pos na i + pos nb i) (p3Rws d N) 1

open Classical in
/-- The vectors that are inserted in the set, src/parser/ifc3_parser.cpp L138-167. -/
noncomputable def p3Inserted {A : Nat} (d : Mat3) (pos : Fin A → Vec3) (N : V3 Int) : List Vec3 :=
  (List.finRange A).flatMap fun na => (List.finRange A).flatMap fun nb =>
    ((p3Box N).map (latVec d)).filter fun R => decide (0 < p3Weight d pos N R na nb)

open Classical in
/-- `listBravaisVectors`, src/parser/ifc3_parser.cpp L169-177: the elements of the set in their (lexicographic) order. -/
noncomputable def p3Vectors {A : Nat} (d : Mat3) (pos : Fin A → Vec3) (N : V3 Int) : List Vec3 :=
  (((p3Inserted d pos N).map fun v => (toLex v : Lex (Fin 3 → ℝ))).toFinset.sort (· ≤ ·)).map ofLex

/-! ## The tensor -/

/-- The tensor of the file and the map from atoms of the cell to atoms of the supercell (`p2s_map`). -/
structure Fc3File where
  d0 : Nat
  d1 : Nat
  d2 : Nat
  val : Nat → Nat → Nat → Fin 3 → Fin 3 → Fin 3 → ℝ
  cellMap : List Int

/-- `m1`, src/parser/ifc3_parser.cpp L246-260, L288-302; `mod` is src/utilities.cpp L9. -/
def p3Fold (n x : Int) : Int :=
  let m := Int.tmod (Int.tmod (x + 1) n + n) n
  let m := if m ≤ 0 then m + n else m
  m + -1

/-- `rp2` and `rp3`, src/parser/ifc3_parser.cpp L263-266, L305-308. -/
noncomputable def p3Folded (d : Mat3) (N : V3 Int) (n : V3 Int) : Vec3 :=
  latVec d ⟨p3Fold N.x n.x, p3Fold N.y n.y, p3Fold N.z n.z⟩

/-- One block of nine by three additions to the tensor. -/
structure P3Entry where
  na : Nat
  nb : Nat
  nc : Nat
  iR3 : Nat
  iR2 : Nat
  val : Fin 3 → Fin 3 → Fin 3 → ℝ

/-- `f` on all elements, results one after the other. -/
def collect {α β : Type} (f : α → Outcome (List β)) : List α → Outcome (List β)
  | [] => .ok []
  | a :: l => do
    let x ← f a
    let y ← collect f l
    .ok (x ++ y)

/-- `cellMap[a] + shift`. -/
def superAtom (f : Fc3File) (a shift : Nat) : Outcome Int :=
  match f.cellMap[a]? with
  | none => .ub
  | some c => cadd c shift

/-- An element of the file; outside of its extents it is undefined behaviour. -/
def Fc3File.at3 (f : Fc3File) (s1 s2 s3 : Int) : Outcome (Fin 3 → Fin 3 → Fin 3 → ℝ) :=
  if 0 ≤ s1 ∧ s1 < f.d0 ∧ 0 ≤ s2 ∧ s2 < f.d1 ∧ 0 ≤ s3 ∧ s3 < f.d2 then .ok (f.val s1.toNat s2.toNat s3.toNat) else .ub

open Classical in
/-- The additions for one pair of vectors, src/parser/ifc3_parser.cpp L312-367. -/
noncomputable def p3Atoms {A : Nat} (d : Mat3) (pos : Fin A → Vec3) (N : V3 Int) (f : Fc3File) (conversion : ℝ) (R2 R3 : Vec3)
    (iR2 iR3 ir2 ir3 : Nat) : Outcome (List P3Entry) :=
  collect (fun na : Fin A => collect (fun nb : Fin A =>
    if p3Weight d pos N R2 na nb = 0 then .ok []
    else collect (fun nc : Fin A =>
      if p3Weight d pos N R3 na nc = 0 then .ok []
      else do
        let sat1 ← superAtom f na 0
        let sat2 ← superAtom f nb ir2
        let sat3 ← superAtom f nc ir3
        let v ← f.at3 sat1 sat2 sat3
        .ok [⟨na, nb, nc, iR3, iR2, fun i j k => v i j k * conversion⟩]) (List.finRange A)) (List.finRange A)) (List.finRange A)

open Classical in
/-- The loops over the vectors, src/parser/ifc3_parser.cpp L229-373. -/
noncomputable def p3Entries {A : Nat} (d : Mat3) (pos : Fin A → Vec3) (N : V3 Int) (cells : List Vec3) (f : Fc3File)
    (conversion : ℝ) : Outcome (List P3Entry) :=
  collect (fun n : V3 Int =>
    match (p3Vectors d pos N).findIdx? fun v => decide (v = latVec d n) with
    | none => .ok []
    | some iR2 => do
      let ir2 ← findIndexRow cells (p3Folded d N n)
      collect (fun m : V3 Int =>
        match (p3Vectors d pos N).findIdx? fun v => decide (v = latVec d m) with
        | none => .ok []
        | some iR3 => do
          let ir3 ← findIndexRow cells (p3Folded d N m)
          p3Atoms d pos N f conversion (latVec d n) (latVec d m) iR2 iR3 ir2 ir3) (p3Box N)) (p3Box N)

/-- `mat3R`, src/parser/ifc3_parser.cpp L220-221, L358-359: the sum of the additions to each element. -/
noncomputable def p3Tensor (es : List P3Entry) (i1 i2 i3 r3 r2 : Nat) : ℝ :=
  (es.map fun e => if i1 / 3 = e.na ∧ i2 / 3 = e.nb ∧ i3 / 3 = e.nc ∧ r3 = e.iR3 ∧ r2 = e.iR2 then
    e.val ⟨i1 % 3, Nat.mod_lt _ (by norm_num)⟩ ⟨i2 % 3, Nat.mod_lt _ (by norm_num)⟩ ⟨i3 % 3, Nat.mod_lt _ (by norm_num)⟩ else 0).sum

/-- `weights`, src/parser/ifc3_parser.cpp L179-213.  The weight depends on the integers only through the vector, and zeros are not
written over the initial zero. -/
noncomputable def p3Weights {A : Nat} (d : Mat3) (pos : Fin A → Vec3) (N : V3 Int) (ir na nb : Nat) : ℝ :=
  if h : na < A ∧ nb < A then
    match (p3Vectors d pos N)[ir]? with
    | some R => if 0 < p3Weight d pos N R ⟨na, h.1⟩ ⟨nb, h.2⟩ then p3Weight d pos N R ⟨na, h.1⟩ ⟨nb, h.2⟩ else 0
    | none => 0
  else 0

/-- `reorderDynamicalMatrix` and the constructor, src/parser/ifc3_parser.cpp L112-377, L622-640. -/
noncomputable def p3Make {A : Nat} (d : Mat3) (pos : Fin A → Vec3) (N : V3 Int) (cells : List Vec3) (f : Fc3File)
    (conversion : ℝ) : Outcome Coupling3Ph := do
  let es ← p3Entries d pos N cells f conversion
  let vs := p3Vectors d pos N
  Coupling3Ph.make A vs.length vs.length (p3Tensor es) (fun i r => vs.getD r (fun _ => 0) i)
    (fun i r => vs.getD r (fun _ => 0) i) (p3Weights d pos N) (p3Weights d pos N)

/-- `IFC3Parser::parseFromPhono3py`, src/parser/ifc3_parser.cpp L379-646, from the lines of the file of displacements and the
content of the file of force constants.  `bohr` is `distanceBohrToAng` and `ryd` is `energyRyToEv`. -/
noncomputable def parsePhono3py {A : Nat} (d : Mat3) (pos : Fin A → Vec3) (bohr ryd : ℝ) (newline : Bool)
    (lines : List YamlLine) (f : Fc3File) : Outcome Coupling3Ph := do
  let last := endLine newline lines
  let grid ← readGrid last (lines ++ [last])
  let unit := distanceUnit bohr (lines ++ [last])
  let s ← readSup (lines ++ [last]) ⟨[], fun _ _ => 0, 3, false⟩
  let numSup := s.positions.length
  if A = 0 then .ub
  else do
    let nr := numSup / A
    match grid with
    | none => .ub
    | some N => do
      let p ← cmul N.x N.y
      let p ← cmul p N.z
      let check ← cdiv numSup p
      if check ≠ (A : Int) then .error
      else
        let cart : List Vec3 := s.positions.map fun x i => (s.lattice 0 i * unit) * x 0 + (s.lattice 1 i * unit) * x 1 + (s.lattice 2 i * unit) * x 2
        let cells : List Vec3 := (cart.take nr).map fun x i => x i - cart.getD 0 (fun _ => 0) i
        p3Make d pos N cells f (bohr ^ 3 / ryd)

end Verif.Model
