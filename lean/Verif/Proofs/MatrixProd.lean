import Verif.Spec.MatrixProd
import Verif.Proofs.Bands
import Verif.Proofs.Matrix
import Verif.Proofs.Input

/-! # Lemmas on products of matrices -/
namespace Verif.Props
open Verif.Model Verif.Spec

theorem get_readAt {α : Type} {a : SMat α} {r c : Nat} {f : Nat → Nat → α} (h : IsMatrix a r c f) {i j : Nat}
    (hi : i < r) (hj : j < c) : readAt a.mat (i + j * r) = .ok (f i j) := by
  obtain ⟨h1, h2, h3⟩ := h
  have := h3 i j hi hj
  unfold SMat.get at this
  rw [if_neg (by omega)] at this
  have e : (a.global2Local i j).toNat = i + j * r := by
    unfold SMat.global2Local
    rw [h1]
    have : ((r : Int) * (j : Int) + (i : Int)) = ((i + j * r : Nat) : Int) := by push_cast; ring
    rw [this, Int.toNat_natCast]
  rw [e] at this
  unfold readAt
  exact this

theorem readAt_get {α : Type} {r c : Nat} {f : Nat → Nat → α} (m : List α)
    (h : ∀ i j : Nat, i < r → j < c → readAt m (i + j * r) = .ok (f i j)) : IsMatrix ⟨r, c, m⟩ r c f := by
  refine ⟨rfl, rfl, fun i j hi hj => ?_⟩
  have := h i j hi hj
  unfold SMat.get
  rw [if_neg (by simp only; omega)]
  have e : (SMat.global2Local ⟨r, c, m⟩ i j).toNat = i + j * r := by
    unfold SMat.global2Local
    have : ((r : Int) * (j : Int) + (i : Int)) = ((i + j * r : Nat) : Int) := by push_cast; ring
    simp only [this, Int.toNat_natCast]
  rw [e]
  exact this

theorem sum_range_list {α : Type} [AddCommMonoid α] (k : Nat) (f : Nat → α) :
    ((List.range k).map f).sum = ∑ l ∈ Finset.range k, f l := by
  induction k with
  | zero => simp
  | succ k ih => rw [List.range_succ, List.map_append, List.sum_append, ih, Finset.sum_range_succ]; simp

/-- `gemm` on arrays whose elements are known. -/
theorem gemm_spec {α : Type} [Semiring α] [StarRing α] (ta tb : Tr) (m n k : Nat) (a : List α) (lda : Nat) (b : List α)
    (ldb : Nat) (c : List α) (hm : 0 < m) (hc : c.length = m * n) (F G : Nat → Nat → α)
    (hla : max 1 (if ta = .N then m else k) ≤ lda) (hlb : max 1 (if tb = .N then k else n) ≤ ldb)
    (hF : ∀ i l : Nat, i < m → l < k → opEntry ta a lda i l = .ok (F i l))
    (hG : ∀ l j : Nat, l < k → j < n → opEntry tb b ldb l j = .ok (G l j)) :
    ∃ c', gemm ta tb m n k a lda b ldb c m = .ok c' ∧
      ∀ i j : Nat, i < m → j < n → readAt c' (i + j * m) = .ok (productOf k F G i j) := by
  unfold gemm
  rw [if_neg (by omega)]
  have hentry : ∀ i j : Nat, i < m → j < n → gemmEntry ta tb k a lda b ldb i j = .ok (productOf k F G i j) := by
    intro i j hi hj
    unfold gemmEntry
    have e := mapOutcome_eq_map (fun l => do
        let x ← opEntry ta a lda i l
        let y ← opEntry tb b ldb l j
        Outcome.ok (x * y)) (fun l => F i l * G l j) (List.range k) (by
      intro l hl
      rw [List.mem_range] at hl
      simp only [hF i l hi hl, hG l j hl hj, Outcome.bind_eq, Outcome.bind_ok])
    rw [e]
    simp only [Outcome.bind_eq, Outcome.bind_ok, productOf, sum_range_list]
  have hmap := mapOutcome_eq_map (fun (p : Nat × Nat) => do
      let x ← gemmEntry ta tb k a lda b ldb p.1 p.2
      Outcome.ok (p.1 + p.2 * m, x)) (fun p => (p.1 + p.2 * m, productOf k F G p.1 p.2))
      ((List.range n).flatMap fun j => (List.range m).map fun i => (i, j)) (by
    intro p hp
    simp only [List.mem_flatMap, List.mem_map, List.mem_range] at hp
    obtain ⟨j, hj, i, hi, rfl⟩ := hp
    simp only [hentry i j hi hj, Outcome.bind_eq, Outcome.bind_ok])
  rw [hmap]
  simp only [Outcome.bind_eq, Outcome.bind_ok]
  have hlt : ∀ i j : Nat, i < m → j < n → i + j * m < m * n := by
    intro i j hi hj
    calc i + j * m < m + j * m := by omega
      _ = (j + 1) * m := by ring
      _ ≤ n * m := Nat.mul_le_mul_right _ hj
      _ = m * n := Nat.mul_comm _ _
  obtain ⟨c', e1, e2, e3, -⟩ := writeAll_spec
    (((List.range n).flatMap fun j => (List.range m).map fun i => (i, j)).map
      fun p => (p.1 + p.2 * m, productOf k F G p.1 p.2)) c (by
    intro w hw
    simp only [List.mem_map, List.mem_flatMap, List.mem_range] at hw
    obtain ⟨p, ⟨j, hj, i, hi, rfl⟩, rfl⟩ := hw
    rw [hc]; exact hlt i j hi hj) (by
    rw [List.map_map]
    have hnd : ((List.range n).flatMap fun j => (List.range m).map fun i => (i, j)).Nodup := by
      rw [List.nodup_flatMap]
      refine ⟨fun j _ => (List.nodup_range).map (fun x y e => by simpa using e), ?_⟩
      apply List.Nodup.pairwise_of_forall_ne List.nodup_range
      intro j _ l _ hjl x hx hy
      simp only [List.mem_map, List.mem_range] at hx hy
      obtain ⟨i, _, rfl⟩ := hx
      obtain ⟨i', _, e⟩ := hy
      exact hjl (by have := congrArg Prod.snd e; simpa using this.symm)
    refine List.Nodup.map_on ?_ hnd
    intro p hp q hq e
    simp only [List.mem_map, List.mem_flatMap, List.mem_range] at hp hq
    obtain ⟨j, hj, i, hi, rfl⟩ := hp
    obtain ⟨j', hj', i', hi', rfl⟩ := hq
    simp only [Function.comp] at e
    have h1 := congrArg (· % m) e
    have h2 := congrArg (· / m) e
    simp only [Nat.add_mul_mod_self_right, Nat.mod_eq_of_lt hi, Nat.mod_eq_of_lt hi',
      Nat.add_mul_div_right _ _ hm, Nat.div_eq_of_lt hi, Nat.div_eq_of_lt hi', Nat.zero_add] at h1 h2
    rw [h1, h2])
  refine ⟨c', e1, fun i j hi hj => ?_⟩
  have := e3 (i + j * m, productOf k F G i j) (by
    simp only [List.mem_map, List.mem_flatMap, List.mem_range]
    exact ⟨(i, j), ⟨j, hj, i, hi, rfl⟩, rfl⟩)
  unfold readAt
  simp only at this
  rw [this]

end Verif.Props
