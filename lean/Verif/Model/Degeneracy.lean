import Mathlib.Algebra.Order.Field.Basic
import Mathlib.Algebra.Order.AbsoluteValue.Basic

/-!
# src/bte/scattering.cpp: averages over degenerate states

Couplings and energies are in an ordered field (exact arithmetic; no NaN: with a NaN energy the loop of
`symmetrizeCoupling` would not advance).
-/
namespace Verif.Model

variable {α : Type} [Field α] [LinearOrder α]

/-- The tolerance `1.0e-6` (Rydberg) of src/bte/scattering.cpp L1190, L1223, L1257, L1291. -/
def degTol : α := 1 / 1000000

/-- Loop counting the degenerate bands from `i` on, src/bte/scattering.cpp L1220-1228 (`k` bands are left). -/
def degCountFrom (en : Nat → α) (e1 : α) : Nat → Nat → Nat
  | 0, _ => 0
  | k + 1, i => if |e1 - en i| < degTol then degCountFrom en e1 k (i + 1) + 1 else 0

/-- `degDegree`, src/bte/scattering.cpp L1218-1228, L1252-1262, L1286-1296. -/
def degDegree (en : Nat → α) (n ib : Nat) : Nat := degCountFrom en (en ib) (n - ib) ib

/-- Average and substitution over the block of `d` bands from `ib` on, src/bte/scattering.cpp L1229-1246.  The other
two band indices are the argument of type `β`; entries with the other indices outside of the tensor are not observed. -/
def averageBlock {β : Type} (ib d : Nat) (c : Nat → β → α) : Nat → β → α :=
  let tmp : β → α := fun b => (List.range d).foldl (fun s i => s + c (ib + i) b / (d : α)) 0
  fun i b => if ib ≤ i ∧ i < ib + d then tmp b else c i b

/-- Loop over one band index, src/bte/scattering.cpp L1217-1249 (and L1251-1283, L1285-1317); `fuel` bounds the
iterations (each advances by at least one). -/
def averageLoop {β : Type} (en : Nat → α) (n : Nat) : Nat → Nat → (Nat → β → α) → (Nat → β → α)
  | 0, _, c => c
  | fuel + 1, ib, c =>
    if ib < n then
      let d := degDegree en n ib
      averageLoop en n fuel (ib + (d - 1) + 1) (averageBlock ib d c)
    else c

/-- `symmetrizeCoupling`, src/bte/scattering.cpp L1209-1318. -/
def symmetrizeCoupling (n1 n2 n3 : Nat) (e1 e2 e3 : Nat → α) (c : Nat → Nat → Nat → α) : Nat → Nat → Nat → α :=
  let c1 := averageLoop e1 n1 n1 0 (fun i (p : Nat × Nat) => c i p.1 p.2)
  let c2 := averageLoop e2 n2 n2 0 (fun j (p : Nat × Nat) => c1 p.1 (j, p.2))
  let c3 := averageLoop e3 n3 n3 0 (fun k (p : Nat × Nat) => c2 p.2 (p.1, k))
  fun i j k => c3 k (i, j)

/-! ## Linewidths -/

/-- A wavevector of `degeneracyAveragingLinewidths`: number of bands, energies and BTE index of each band. -/
structure DegPoint (α : Type) where
  nb : Nat
  en : Nat → α
  bte : Nat → Nat

/-- `linewidthTmp(ib1)`, src/bte/scattering.cpp L1178-1195. -/
def linewidthTmp (p : DegPoint α) (row : Nat → α) (ib1 : Nat) : α :=
  let acc := (List.range p.nb).foldl (fun (s : Nat × α) ib2 =>
    if |p.en ib2 - p.en ib1| < degTol then (s.1 + 1, s.2 + row (p.bte ib2)) else s) (0, 0)
  acc.2 / (acc.1 : α)

/-- The averages at one wavevector, src/bte/scattering.cpp L1169-1206: row 0 of the data. -/
def averagePoint (p : DegPoint α) (row : Nat → α) : Nat → α :=
  (List.range p.nb).foldl (fun r ib1 => fun s => if s = p.bte ib1 then linewidthTmp p row ib1 else r s) row

/-- `degeneracyAveragingLinewidths`, src/bte/scattering.cpp L1168-1207: only row 0 of `data` (the first calculation) is
read and written. -/
def degeneracyAveraging (points : List (DegPoint α)) (data : Nat → Nat → α) : Nat → Nat → α :=
  let row0 := points.foldl (fun r p => averagePoint p r) (data 0)
  fun r s => if r = 0 then row0 s else data r s

end Verif.Model
