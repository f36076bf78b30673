import Verif.Model.VectorBte
import Verif.Proofs.Mpi
import Verif.Proofs.Matrix
import Verif.Proofs.Bands
import Verif.Proofs.Utilities
import Mathlib.Algebra.BigOperators.Group.List.Basic
import Mathlib.Tactic.Ring

namespace Verif.Model

/-- The slices of the processes, in rank order, are the whole list. -/
theorem slices_flatten (v : List Nat) (size : Nat) (hs : 0 < size) (hfit : v.length * size < 18446744073709551616) :
    (List.range size).flatMap (fun r => sliceOf v r size) = v := by
  have key : ∀ k, k ≤ size → (List.range k).flatMap (fun r => sliceOf v r size) = v.take (head v.length size k) := by
    intro k
    induction k with
    | zero => intro _; simp [head]
    | succ k ih =>
      intro hk
      rw [List.range_succ, List.flatMap_append, ih (by omega)]
      simp only [List.flatMap_cons, List.flatMap_nil, List.append_nil]
      unfold sliceOf
      rw [divideWork_val hfit (by omega)]
      have hm := head_mono v.length size (Nat.le_succ k)
      have e : head v.length size (k + 1) = head v.length size k + (head v.length size (k + 1) - head v.length size k) := by
        have : head v.length size k ≤ head v.length size (k + 1) := hm
        omega
      conv_rhs => rw [e, List.take_add]
  rw [key size le_rfl, head_last _ _ hs, List.take_length]

theorem mem_allReduceSum1 {α : Type} [AddMonoid α] (bufs : List (Nat → α)) (f : Nat → α) (h : f ∈ allReduceSum1 bufs)
    (i : Nat) : f i = (bufs.map fun b => b i).sum := by
  unfold allReduceSum1 at h
  split at h
  · rename_i h1
    obtain ⟨b, rfl⟩ := List.length_eq_one_iff.mp h1
    simp only [List.mem_singleton] at h
    subst h; simp
  · obtain ⟨_, _, rfl⟩ := List.mem_map.mp h
    exact mpiSum_eq bufs i

theorem allReduceSum1_length {α : Type} [AddMonoid α] (bufs : List (Nat → α)) :
    (allReduceSum1 bufs).length = bufs.length := by
  unfold allReduceSum1; split <;> simp

/-- Sum of a list by `foldr`. -/
theorem foldr_add_eq_sum {α : Type} [AddMonoid α] (l : List α) : l.foldr (· + ·) 0 = l.sum := rfl

theorem sum_flatMap {α β : Type} [AddMonoid α] (l : List β) (g : β → List α) :
    (l.flatMap g).sum = (l.map fun b => (g b).sum).sum := by
  induction l with
  | nil => rfl
  | cons b t ih => simp [List.flatMap_cons, List.sum_append, ih]

theorem partnerRow_val {α : Type} (v w : VBte α) (iCalc iDim : Nat) (hc : iCalc < v.numCalc) (hd : iDim < v.dim)
    (hmu : w.numChemPots = v.numChemPots) (ht : w.numTemps = v.numTemps) (hw : w.dim = 1)
    (hsz : (v.numRows : Int) ≤ intMax) : v.partnerRow w (iCalc * v.dim + iDim) = .ok iCalc := by
  unfold VBte.numCalc at hc
  have hT : 0 < v.numTemps := by
    rcases Nat.eq_zero_or_pos v.numTemps with h | h
    · rw [h] at hc; omega
    · exact h
  have e1 : iCalc = iCalc / v.numTemps * v.numTemps + iCalc % v.numTemps := (Nat.div_add_mod' _ _).symm
  have h1 : iCalc / v.numTemps < v.numChemPots := Nat.div_lt_of_lt_mul (by rw [mul_comm]; exact hc)
  have h2 : iCalc % v.numTemps < v.numTemps := Nat.mod_lt _ hT
  have hfit : (v.numChemPots : Int) * v.numTemps * v.dim ≤ intMax := by
    have : v.numRows = v.numChemPots * v.numTemps * v.dim := rfl
    rw [this] at hsz; push_cast at hsz; exact hsz
  obtain ⟨k, hk, _, _, hk2⟩ := triple_roundtrip (s1 := v.numChemPots) (s2 := v.numTemps) (s3 := v.dim)
    (i1 := (iCalc / v.numTemps : Nat)) (i2 := (iCalc % v.numTemps : Nat)) (i3 := iDim)
    (Int.natCast_nonneg _) (by exact_mod_cast h1) (Int.natCast_nonneg _) (by exact_mod_cast h2) (Int.natCast_nonneg _) (by exact_mod_cast hd) hfit
  rw [compress3_val (Int.natCast_nonneg _) (by exact_mod_cast h1) (Int.natCast_nonneg _) (by exact_mod_cast h2) (by omega)
    (by exact_mod_cast hd) hfit] at hk
  simp only [Outcome.ok.injEq] at hk
  have hrow : ((iCalc * v.dim + iDim : Nat) : Int) = k := by
    rw [← hk]; conv_lhs => rw [e1]
    push_cast; ring
  unfold VBte.partnerRow VBte.loc2Glob VBte.glob2Loc
  rw [hrow, hk2]
  simp only [Outcome.bind_eq, Outcome.bind_ok]
  rw [hmu, ht, hw]
  have hfit1 : (v.numChemPots : Int) * v.numTemps * ((1 : Nat) : Int) ≤ intMax := by
    have hd1 : (1 : Int) ≤ v.dim := by omega
    have : (v.numChemPots : Int) * v.numTemps * 1 ≤ v.numChemPots * v.numTemps * v.dim :=
      mul_le_mul_of_nonneg_left hd1 (by positivity)
    push_cast; omega
  rw [compress3_val (Int.natCast_nonneg _) (by exact_mod_cast h1) (Int.natCast_nonneg _) (by exact_mod_cast h2) (by omega) (by norm_num) hfit1]
  simp only [Outcome.bind_ok, Outcome.ok.injEq]
  have : (((iCalc / v.numTemps : Nat) : Int) * v.numTemps * ((1 : Nat) : Int) + ((iCalc % v.numTemps : Nat) : Int) * ((1 : Nat) : Int) + 0) =
      (iCalc : Int) := by
    push_cast
    have : ((iCalc : Int)) = ((iCalc / v.numTemps * v.numTemps + iCalc % v.numTemps : Nat) : Int) := by rw [← e1]
    conv_rhs => rw [this]
    push_cast; ring
  rw [this, Int.toNat_natCast]

/-- What a thread adds to element `(c, j)`. -/
theorem threadProduct_val {α : Type} [CommSemiring α] (data elem : Nat → Nat → α) (states : List (Nat × Nat))
    (c j : Nat) : threadProduct data elem states c j =
      (states.map fun t => if j = t.2 then data c t.1 * elem t.1 t.2 else 0).sum := by
  unfold threadProduct
  have key : ∀ (l : List (Nat × Nat)) (p0 : Nat → Nat → α),
      l.foldl (fun priv t => fun c j => if j = t.2 then priv c j + data c t.1 * elem t.1 t.2 else priv c j) p0 c j =
        p0 c j + (l.map fun t => if j = t.2 then data c t.1 * elem t.1 t.2 else 0).sum := by
    intro l
    induction l with
    | nil => intro p0; simp
    | cons t l ih =>
      intro p0
      rw [List.foldl_cons, ih, List.map_cons, List.sum_cons]
      by_cases h : j = t.2
      · simp only [if_pos h]; rw [add_assoc]
      · simp only [if_neg h]; rw [zero_add]
  rw [key]; simp

theorem processProduct_val {α : Type} [CommSemiring α] (data elem : Nat → Nat → α) (merge : List (List (Nat × Nat)))
    (c j : Nat) : processProduct data elem merge c j =
      (merge.flatten.map fun t => if j = t.2 then data c t.1 * elem t.1 t.2 else 0).sum := by
  unfold processProduct
  have key : ∀ (l : List (List (Nat × Nat))) (p0 : Nat → Nat → α),
      l.foldl (fun acc states => fun c j => acc c j + threadProduct data elem states c j) p0 c j =
        p0 c j + (l.flatten.map fun t => if j = t.2 then data c t.1 * elem t.1 t.2 else 0).sum := by
    intro l
    induction l with
    | nil => intro p0; simp
    | cons t l ih =>
      intro p0
      rw [List.foldl_cons, ih, List.flatten_cons, List.map_append, List.sum_append, threadProduct_val, add_assoc]
  rw [key]; simp

end Verif.Model
