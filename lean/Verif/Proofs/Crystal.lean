import Verif.Model.Crystal
import Verif.Proofs.Bands
import Verif.Proofs.IrrPoints
import Mathlib.LinearAlgebra.Matrix.Determinant.Basic
import Mathlib.LinearAlgebra.Matrix.NonsingularInverse
import Mathlib.Tactic.Linarith
import Mathlib.Tactic.Ring
import Mathlib.Tactic.FieldSimp
import Mathlib.Tactic.FinCases
import Mathlib.Tactic.NormNum
import Mathlib.Tactic.Positivity

/-! Lemmas on the cell and the Wigner-Seitz vectors. -/
namespace Verif.Model

/-! ## Cell -/

theorem matVec_eq (m : Mat3) (v : Vec3) : matVec m v = m.mulVec v := by
  funext i
  simp [matVec, vdot, Matrix.mulVec, dotProduct, Fin.sum_univ_three]

theorem calcVolume_eq (d : Mat3) : calcVolume d = |d.det| := by
  unfold calcVolume vdot vcross
  rw [Matrix.det_fin_three]
  simp only [Matrix.cons_val_zero, Matrix.cons_val_one, Matrix.cons_val_two, Matrix.head_cons, Matrix.tail_cons,
    Matrix.cons_val]
  have e1 : d 0 0 * (d 1 1 * d 2 2 - d 1 2 * d 2 1) + d 0 1 * (d 1 2 * d 2 0 - d 1 0 * d 2 2) +
      d 0 2 * (d 1 0 * d 2 1 - d 1 1 * d 2 0) = d 0 0 * d 1 1 * d 2 2 - d 0 0 * d 1 2 * d 2 1 - d 0 1 * d 1 0 * d 2 2 +
      d 0 1 * d 1 2 * d 2 0 + d 0 2 * d 1 0 * d 2 1 - d 0 2 * d 1 1 * d 2 0 := by ring
  have e2 : d 1 0 * (d 2 1 * d 0 2 - d 2 2 * d 0 1) + d 1 1 * (d 2 2 * d 0 0 - d 2 0 * d 0 2) +
      d 1 2 * (d 2 0 * d 0 1 - d 2 1 * d 0 0) = d 0 0 * d 1 1 * d 2 2 - d 0 0 * d 1 2 * d 2 1 - d 0 1 * d 1 0 * d 2 2 +
      d 0 1 * d 1 2 * d 2 0 + d 0 2 * d 1 0 * d 2 1 - d 0 2 * d 1 1 * d 2 0 := by ring
  have e3 : d 2 0 * (d 0 1 * d 1 2 - d 0 2 * d 1 1) + d 2 1 * (d 0 2 * d 1 0 - d 0 0 * d 1 2) +
      d 2 2 * (d 0 0 * d 1 1 - d 0 1 * d 1 0) = d 0 0 * d 1 1 * d 2 2 - d 0 0 * d 1 2 * d 2 1 - d 0 1 * d 1 0 * d 2 2 +
      d 0 1 * d 1 2 * d 2 0 + d 0 2 * d 1 0 * d 2 1 - d 0 2 * d 1 1 * d 2 0 := by ring
  rw [e1, e2, e3]
  ring

theorem inverse3_eq (m : Mat3) (h : m.det ≠ 0) : inverse3 m = m⁻¹ := by
  symm
  apply Matrix.inv_eq_right_inv
  rw [Matrix.det_fin_three] at h
  have hd : m 0 0 * (m 1 1 * m 2 2 - m 1 2 * m 2 1) + m 0 1 * (m 1 2 * m 2 0 - m 1 0 * m 2 2) +
      m 0 2 * (m 1 0 * m 2 1 - m 1 1 * m 2 0) ≠ 0 := by
    intro h'; apply h; rw [← h']; ring
  have f : ∀ i j : Fin 3, inverse3 m i j =
      (m (j + 1) (i + 1) * m (j + 2) (i + 2) - m (j + 1) (i + 2) * m (j + 2) (i + 1)) /
      (m 0 0 * (m 1 1 * m 2 2 - m 1 2 * m 2 1) + m 0 1 * (m 1 2 * m 2 0 - m 1 0 * m 2 2) +
      m 0 2 * (m 1 0 * m 2 1 - m 1 1 * m 2 0)) := by
    intro i j
    rfl
  ext i j
  rw [Matrix.mul_apply, Fin.sum_univ_three, f, f, f, ← mul_div_assoc, ← mul_div_assoc, ← mul_div_assoc, ← add_div,
    ← add_div, div_eq_iff hd]
  fin_cases i <;> fin_cases j <;>
    simp only [Fin.zero_eta, Fin.mk_one, Fin.reduceFinMk, Fin.isValue, Fin.reduceAdd, zero_add, Matrix.one_apply,
      Fin.reduceEq, if_true, if_false, one_mul, zero_mul, reduceIte] <;>
    ring

/-! ## Loops -/

theorem mem_zRange (n a : Int) : a ∈ zRange n ↔ -n ≤ a ∧ a ≤ n := by
  unfold zRange
  simp only [List.mem_map, List.mem_range]
  constructor
  · rintro ⟨k, hk, rfl⟩; omega
  · intro h
    exact ⟨(a + n).toNat, by omega, by omega⟩

theorem length_zRange (n : Int) : (zRange n).length = (2 * n + 1).toNat := by simp [zRange]

theorem nodup_zRange (n : Int) : (zRange n).Nodup := by
  unfold zRange
  apply List.Nodup.map _ List.nodup_range
  intro a b h
  simp only at h
  omega

theorem reverse_zRange (n : Int) : (zRange n).reverse = (zRange n).map fun a => -a := by
  apply List.ext_getElem
  · simp
  · intro i h1 h2
    simp only [List.length_reverse, length_zRange] at h1
    simp only [zRange, List.getElem_reverse, List.getElem_map, List.getElem_range, List.length_map, List.length_range]
    omega

def negV (v : V3 Int) : V3 Int := ⟨-v.x, -v.y, -v.z⟩

theorem mem_zBox (n v : V3 Int) : v ∈ zBox n ↔
    (-n.x ≤ v.x ∧ v.x ≤ n.x) ∧ (-n.y ≤ v.y ∧ v.y ≤ n.y) ∧ (-n.z ≤ v.z ∧ v.z ≤ n.z) := by
  unfold zBox
  simp only [List.mem_flatMap, List.mem_map, mem_zRange]
  constructor
  · rintro ⟨a, ha, b, hb, c, hc, rfl⟩; exact ⟨ha, hb, hc⟩
  · rintro ⟨ha, hb, hc⟩; exact ⟨v.x, ha, v.y, hb, v.z, hc, rfl⟩

theorem length_flatMap_const {α β : Type} (l : List α) (f : α → List β) (k : Nat) (h : ∀ a ∈ l, (f a).length = k) :
    (l.flatMap f).length = l.length * k := by
  induction l with
  | nil => simp
  | cons a l ih =>
    rw [List.flatMap_cons, List.length_append, h a (by simp), ih (fun b hb => h b (by simp [hb])), List.length_cons]
    ring

theorem length_zBox (n : V3 Int) : (zBox n).length = (zRange n.x).length * ((zRange n.y).length * (zRange n.z).length) := by
  unfold zBox
  rw [length_flatMap_const _ _ ((zRange n.y).length * (zRange n.z).length)]
  intro a _
  rw [length_flatMap_const _ _ (zRange n.z).length]
  intro b _
  simp

theorem nodup_zBox (n : V3 Int) : (zBox n).Nodup := by
  unfold zBox
  rw [List.nodup_flatMap]
  refine ⟨fun a _ => ?_, ?_⟩
  · rw [List.nodup_flatMap]
    refine ⟨fun b _ => ?_, ?_⟩
    · exact List.Nodup.map (fun c c' h => by cases h; rfl) (nodup_zRange _)
    · refine (nodup_zRange _).imp ?_
      intro b b' hne
      simp only [Function.onFun, List.disjoint_left, List.mem_map]
      rintro v ⟨c, _, rfl⟩ ⟨c', _, h⟩
      cases h; exact hne rfl
  · refine (nodup_zRange _).imp ?_
    intro a a' hne
    simp only [Function.onFun, List.disjoint_left, List.mem_flatMap, List.mem_map]
    rintro v ⟨b, _, c, _, rfl⟩ ⟨b', _, c', _, h⟩
    cases h; exact hne rfl

theorem reverse_flatMap' {α β : Type} (l : List α) (f : α → List β) :
    (l.flatMap f).reverse = l.reverse.flatMap fun a => (f a).reverse := by
  induction l with
  | nil => rfl
  | cons a l ih => simp [ih]

theorem reverse_zBox (n : V3 Int) : (zBox n).reverse = (zBox n).map negV := by
  unfold zBox
  rw [reverse_flatMap', reverse_zRange, List.flatMap_map, List.map_flatMap]
  congr 1
  funext a
  rw [reverse_flatMap', reverse_zRange, List.flatMap_map, List.map_flatMap]
  congr 1
  funext b
  rw [← List.map_reverse, reverse_zRange, List.map_map, List.map_map]
  rfl

/-! ## Distances -/

theorem distMin_spec (l : List ℝ) (hl : l ≠ []) : distMin l ∈ l ∧ ∀ x ∈ l, distMin l ≤ x := by
  have key : ∀ (l : List ℝ) (m : ℝ), ((l.foldl (fun m x => if x < m then x else m) m) = m ∨
      (l.foldl (fun m x => if x < m then x else m) m) ∈ l) ∧
      (l.foldl (fun m x => if x < m then x else m) m) ≤ m ∧
      ∀ x ∈ l, (l.foldl (fun m x => if x < m then x else m) m) ≤ x := by
    intro l
    induction l with
    | nil => intro m; simp
    | cons a l ih =>
      intro m
      simp only [List.foldl_cons]
      obtain ⟨h1, h2, h3⟩ := ih (if a < m then a else m)
      have hle : (if a < m then a else m) ≤ m ∧ (if a < m then a else m) ≤ a := by
        split
        · next h => exact ⟨h.le, le_rfl⟩
        · next h => exact ⟨le_rfl, not_lt.mp h⟩
      refine ⟨?_, h2.trans hle.1, ?_⟩
      · rcases h1 with h1 | h1
        · by_cases h : a < m
          · right; rw [h1, if_pos h]; simp
          · left; rw [h1, if_neg h]
        · right; exact List.mem_cons_of_mem _ h1
      · intro x hx
        rcases List.mem_cons.mp hx with rfl | hx
        · exact h2.trans hle.2
        · exact h3 x hx
  cases l with
  | nil => exact absurd rfl hl
  | cons a l =>
    obtain ⟨h1, h2, h3⟩ := key (a :: l) a
    have : distMin (a :: l) = (a :: l).foldl (fun m x => if x < m then x else m) a := by
      unfold distMin; rfl
    rw [this]
    refine ⟨?_, h3⟩
    rcases h1 with h1 | h1
    · rw [h1]; simp
    · exact h1

theorem distMin_reverse (l : List ℝ) : distMin l.reverse = distMin l := by
  by_cases hl : l = []
  · subst hl; rfl
  · have hr : l.reverse ≠ [] := by simpa using hl
    obtain ⟨a1, a2⟩ := distMin_spec l hl
    obtain ⟨b1, b2⟩ := distMin_spec l.reverse hr
    exact le_antisymm (b2 _ (by simpa using a1)) (a2 _ (by simpa using b1))

theorem vnorm_neg (v : Vec3) : vnorm (-v) = vnorm v := by
  unfold vnorm vdot; simp

theorem matVec_neg (m : Mat3) (v : Vec3) : matVec m (-v) = -matVec m v := by
  rw [matVec_eq, matVec_eq, Matrix.mulVec_neg]

theorem toVec_neg (v : V3 Int) : toVec (negV v) = -toVec v := by
  funext i; fin_cases i <;> simp [toVec, negV]

theorem offsetBy_neg (grid i j : V3 Int) : offsetBy grid (negV i) (negV j) = negV (offsetBy grid i j) := by
  simp only [offsetBy, negV, V3.mk.injEq]
  refine ⟨?_, ?_, ?_⟩ <;> ring

theorem wsDistances_neg (d : Mat3) (grid : V3 Int) (nx : Int) (i : V3 Int) :
    wsDistances d grid nx 0 (negV i) = (wsDistances d grid nx 0 i).reverse := by
  unfold wsDistances
  rw [← List.map_reverse, reverse_zBox, List.map_map]
  apply List.map_congr_left
  intro j _
  simp only [Function.comp, add_zero]
  have : offsetBy grid i (negV j) = negV (offsetBy grid (negV i) j) := by
    simp only [offsetBy, negV, V3.mk.injEq]
    refine ⟨?_, ?_, ?_⟩ <;> ring
  rw [this, toVec_neg, matVec_neg, vnorm_neg]

/-- The index of the middle. -/
def midOf (nx : Int) : Nat := ((2 * (nx + 1) + 1) ^ 3).toNat / 2

theorem length_searchBox (nx : Int) (h : 0 ≤ nx) : (zBox ⟨nx + 1, nx + 1, nx + 1⟩).length = 2 * midOf nx + 1 := by
  rw [length_zBox, length_zRange]
  obtain ⟨n, rfl⟩ := Int.eq_ofNat_of_zero_le h
  have e1 : (2 * ((n : Int) + 1) + 1).toNat = 2 * n + 3 := by omega
  have e2 : ((2 * ((n : Int) + 1) + 1) ^ 3).toNat = (2 * n + 3) ^ 3 := by
    have : (2 * ((n : Int) + 1) + 1) ^ 3 = (((2 * n + 3) ^ 3 : Nat) : Int) := by push_cast; ring
    rw [this]; exact Int.toNat_natCast _
  unfold midOf
  simp only [Int.ofNat_eq_natCast] at *
  rw [e1, e2]
  have : (2 * n + 3) ^ 3 = 2 * (4 * n ^ 3 + 18 * n ^ 2 + 27 * n + 13) + 1 := by ring
  have h3 : (2 * n + 3) * ((2 * n + 3) * (2 * n + 3)) = (2 * n + 3) ^ 3 := by ring
  rw [h3, this]
  omega

theorem wsDegeneracy_reverse (nx : Int) (h : 0 ≤ nx) (l : List ℝ) (hl : l.length = 2 * midOf nx + 1) :
    wsDegeneracy (midOf nx) l.reverse = wsDegeneracy (midOf nx) l := by
  unfold wsDegeneracy
  have : readAt l.reverse (midOf nx) = readAt l (midOf nx) := by
    unfold readAt
    rw [List.getElem?_reverse (by omega)]
    have : l.length - 1 - midOf nx = midOf nx := by omega
    rw [this]
  rw [this, distMin_reverse, List.filter_reverse, List.length_reverse]

theorem length_wsDistances (d : Mat3) (grid : V3 Int) (nx : Int) (s : Vec3) (i : V3 Int) (h : 0 ≤ nx) :
    (wsDistances d grid nx s i).length = 2 * midOf nx + 1 := by
  unfold wsDistances; rw [List.length_map, length_searchBox nx h]

/-- The middle of the search box is the origin. -/
theorem searchBox_mid (nx : Int) (h : 0 ≤ nx) : (zBox ⟨nx + 1, nx + 1, nx + 1⟩)[midOf nx]? = some ⟨0, 0, 0⟩ := by
  have hlen := length_searchBox nx h
  have hlt : midOf nx < (zBox ⟨nx + 1, nx + 1, nx + 1⟩).length := by omega
  rw [List.getElem?_eq_getElem hlt]
  have hrev := reverse_zBox ⟨nx + 1, nx + 1, nx + 1⟩
  have h1 : (zBox ⟨nx + 1, nx + 1, nx + 1⟩).reverse[midOf nx]? =
      ((zBox ⟨nx + 1, nx + 1, nx + 1⟩).map negV)[midOf nx]? := by rw [hrev]
  rw [List.getElem?_reverse hlt, List.getElem?_map] at h1
  have e : (zBox ⟨nx + 1, nx + 1, nx + 1⟩).length - 1 - midOf nx = midOf nx := by omega
  rw [e, List.getElem?_eq_getElem hlt, Option.map_some, Option.some.injEq] at h1
  generalize (zBox ⟨nx + 1, nx + 1, nx + 1⟩)[midOf nx] = v at h1
  cases v
  simp only [negV, V3.mk.injEq] at h1
  congr 1
  simp only [V3.mk.injEq]
  omega

/-- The distance tested is that of the vector itself. -/
theorem wsDistances_mid (d : Mat3) (grid : V3 Int) (nx : Int) (s : Vec3) (i : V3 Int) (h : 0 ≤ nx) :
    (wsDistances d grid nx s i)[midOf nx]? = some (vnorm (matVec d (toVec i) + s)) := by
  unfold wsDistances
  rw [List.getElem?_map, searchBox_mid nx h, Option.map_some]
  have : offsetBy grid i ⟨0, 0, 0⟩ = i := by cases i; simp [offsetBy]
  rw [this]

/-- The degeneracy in terms of the distances. -/
theorem wsDegeneracy_val (d : Mat3) (grid : V3 Int) (nx : Int) (s : Vec3) (i : V3 Int) (h : 0 ≤ nx) :
    wsDegeneracy (midOf nx) (wsDistances d grid nx s i) =
      .ok (if |vnorm (matVec d (toVec i) + s) - distMin (wsDistances d grid nx s i)| < 1 / 1000000 then
        some ((wsDistances d grid nx s i).filter fun x =>
          decide (|x - distMin (wsDistances d grid nx s i)| < 1 / 1000000)).length else none) := by
  unfold wsDegeneracy readAt
  rw [wsDistances_mid d grid nx s i h]
  simp only [Outcome.bind_eq, Outcome.bind_ok]
  split <;> rfl

/-- What `wsCollect` computes. -/
theorem wsCollect_val (d : Mat3) (grid : V3 Int) (nx : Int) (s : Vec3) (h : 0 ≤ nx) (box : List (V3 Int)) :
    ∃ l, wsCollect d grid nx s (midOf nx) box = .ok l ∧ (l.map Prod.fst).Sublist box ∧
      ∀ i deg, (i, deg) ∈ l ↔ i ∈ box ∧ wsDegeneracy (midOf nx) (wsDistances d grid nx s i) = .ok (some deg) := by
  induction box with
  | nil => exact ⟨[], rfl, List.Sublist.refl _, by simp⟩
  | cons a box ih =>
    obtain ⟨l, hl, hsub, hmem⟩ := ih
    have hv := wsDegeneracy_val d grid nx s a h
    generalize ho : (if |vnorm (matVec d (toVec a) + s) - distMin (wsDistances d grid nx s a)| < 1 / 1000000 then
        some ((wsDistances d grid nx s a).filter fun x =>
          decide (|x - distMin (wsDistances d grid nx s a)| < 1 / 1000000)).length else none) = o at hv
    cases o with
    | none =>
      refine ⟨l, ?_, hsub.cons a, ?_⟩
      · simp only [wsCollect, Outcome.bind_eq]
        rw [hv, Outcome.bind_ok, hl, Outcome.bind_ok]
      · intro i deg
        rw [hmem, List.mem_cons]
        constructor
        · rintro ⟨h1, h2⟩; exact ⟨Or.inr h1, h2⟩
        · rintro ⟨rfl | h1, h2⟩
          · rw [hv] at h2; simp at h2
          · exact ⟨h1, h2⟩
    | some g =>
      refine ⟨(a, g) :: l, ?_, ?_, ?_⟩
      · simp only [wsCollect, Outcome.bind_eq]
        rw [hv, Outcome.bind_ok, hl, Outcome.bind_ok]
      · rw [List.map_cons]; exact hsub.cons_cons a
      · intro i deg
        rw [List.mem_cons, hmem, List.mem_cons]
        constructor
        · rintro (h1 | ⟨h1, h2⟩)
          · cases h1; exact ⟨Or.inl rfl, hv⟩
          · exact ⟨Or.inr h1, h2⟩
        · rintro ⟨rfl | h1, h2⟩
          · rw [hv] at h2; simp at h2; left; rw [h2]
          · exact Or.inr ⟨h1, h2⟩

/-! ## Origin -/

theorem vnorm_toVec_small (v : V3 Int) : vnorm (toVec v) < 1 / 1000000 ↔ v = ⟨0, 0, 0⟩ := by
  constructor
  · intro h
    by_contra hne
    have h1 : 1 ≤ v.x * v.x + v.y * v.y + v.z * v.z := by
      have hx := mul_self_nonneg v.x
      have hy := mul_self_nonneg v.y
      have hz := mul_self_nonneg v.z
      by_contra hlt
      have e1 : v.x * v.x = 0 := by omega
      have e2 : v.y * v.y = 0 := by omega
      have e3 : v.z * v.z = 0 := by omega
      apply hne
      cases v
      simp only [V3.mk.injEq]
      exact ⟨mul_self_eq_zero.mp e1, mul_self_eq_zero.mp e2, mul_self_eq_zero.mp e3⟩
    have h2 : (1 : ℝ) ≤ vdot (toVec v) (toVec v) := by
      unfold vdot toVec
      simp only [Matrix.cons_val_zero, Matrix.cons_val_one, Matrix.cons_val_two, Matrix.head_cons, Matrix.tail_cons,
        Matrix.cons_val]
      exact_mod_cast h1
    have h3 : 1 ≤ vnorm (toVec v) := by
      unfold vnorm
      rw [Real.one_le_sqrt]; exact h2
    linarith
  · rintro rfl
    unfold vnorm vdot toVec
    simp

theorem originIndex_spec (l : List (V3 Int)) :
    (∀ k, originIndex l = some k → l[k]? = some ⟨0, 0, 0⟩) ∧ (⟨0, 0, 0⟩ ∈ l → originIndex l ≠ none) := by
  have key : ∀ n, n ≤ l.length → ∀ o, o = (List.range n).foldl (fun o iR =>
      if vnorm (toVec (l.getD iR ⟨0, 0, 0⟩)) < 1 / 1000000 then some iR else o) none →
      (∀ k, o = some k → l[k]? = some ⟨0, 0, 0⟩) ∧ (o = none → ∀ k, k < n → l[k]? ≠ some ⟨0, 0, 0⟩) := by
    intro n
    induction n with
    | zero => intro _ o ho; subst ho; simp
    | succ n ih =>
      intro hn o ho
      rw [List.range_succ, List.foldl_append, List.foldl_cons, List.foldl_nil] at ho
      obtain ⟨i1, i2⟩ := ih (by omega) _ rfl
      have hget : l[n]? = some (l.getD n ⟨0, 0, 0⟩) := by
        rw [List.getD_eq_getElem?_getD, List.getElem?_eq_getElem (by omega), Option.getD_some]
      split at ho
      · next hs =>
        subst ho
        refine ⟨?_, by simp⟩
        intro k hk
        cases hk
        rw [hget, (vnorm_toVec_small _).mp hs]
      · next hs =>
        subst ho
        refine ⟨i1, ?_⟩
        intro hnone k hk
        rcases Nat.lt_succ_iff_lt_or_eq.mp hk with hk | rfl
        · exact i2 hnone k hk
        · intro h
          apply hs
          rw [hget, Option.some.injEq] at h
          rw [h]; exact (vnorm_toVec_small _).mpr rfl
  obtain ⟨h1, h2⟩ := key l.length le_rfl (originIndex l) rfl
  refine ⟨h1, ?_⟩
  intro hm hnone
  obtain ⟨k, hk, he⟩ := List.getElem_of_mem hm
  exact h2 hnone k hk (by rw [List.getElem?_eq_getElem hk, he])

/-! ## Exchange -/

theorem swapFirst_val {α : Type} (l : List α) (k : Nat) (hk : k < l.length) :
    ∃ l', swapFirst l k = .ok l' ∧ l'.length = l.length ∧ l'[0]? = l[k]? ∧ l'[k]? = l[0]? ∧
      ∀ n, n ≠ 0 → n ≠ k → l'[n]? = l[n]? := by
  have h0 : 0 < l.length := by omega
  refine ⟨(l.set 0 l[k]).set k l[0], ?_, by simp, ?_, ?_, ?_⟩
  · unfold swapFirst readAt
    rw [List.getElem?_eq_getElem hk, List.getElem?_eq_getElem h0]
    rfl
  · by_cases h : k = 0
    · subst h; simp [h0]
    · rw [List.getElem?_set_ne h, List.getElem?_set_self h0, List.getElem?_eq_getElem hk]
  · rw [List.getElem?_set_self (by simpa using hk), List.getElem?_eq_getElem h0]
  · intro n h1 h2
    rw [List.getElem?_set_ne (Ne.symm h2), List.getElem?_set_ne (Ne.symm h1)]

/-! ## Shifted vectors -/

theorem nearVec_iff (x y : V3 Int) : nearVec x y ↔ x = y := by
  unfold nearVec
  have e : vdot (toVec x - toVec y) (toVec x - toVec y) =
      (((x.x - y.x) * (x.x - y.x) + (x.y - y.y) * (x.y - y.y) + (x.z - y.z) * (x.z - y.z) : Int) : ℝ) := by
    unfold vdot toVec
    simp only [Pi.sub_apply, Matrix.cons_val_zero, Matrix.cons_val_one, Matrix.cons_val_two, Matrix.head_cons,
      Matrix.tail_cons, Matrix.cons_val]
    push_cast; ring
  rw [e]
  have hx := mul_self_nonneg (x.x - y.x)
  have hy := mul_self_nonneg (x.y - y.y)
  have hz := mul_self_nonneg (x.z - y.z)
  constructor
  · intro h
    have h1 : (x.x - y.x) * (x.x - y.x) + (x.y - y.y) * (x.y - y.y) + (x.z - y.z) * (x.z - y.z) < 1 := by
      have : (((x.x - y.x) * (x.x - y.x) + (x.y - y.y) * (x.y - y.y) + (x.z - y.z) * (x.z - y.z) : Int) : ℝ)
          < ((1 : Int) : ℝ) := by push_cast at h ⊢; linarith
      exact_mod_cast this
    have e1 := mul_self_eq_zero.mp (show (x.x - y.x) * (x.x - y.x) = 0 by omega)
    have e2 := mul_self_eq_zero.mp (show (x.y - y.y) * (x.y - y.y) = 0 by omega)
    have e3 := mul_self_eq_zero.mp (show (x.z - y.z) * (x.z - y.z) = 0 by omega)
    cases x; cases y
    simp only [V3.mk.injEq] at *
    omega
  · rintro rfl; simp

open scoped Classical in
theorem shiftUnique_copies (l : List (V3 Int)) (a : V3 Int) (n : Nat) :
    ∃ m, l.foldl shiftUnique (List.replicate (n + 1) a) = List.replicate (m + 1) a := by
  induction l generalizing n with
  | nil => exact ⟨n, rfl⟩
  | cons x l ih =>
    rw [List.foldl_cons]
    by_cases hx : x = a
    · have : shiftUnique (List.replicate (n + 1) a) x = List.replicate (n + 1 + 1) a := by
        unfold shiftUnique
        simp only [nearVec_iff]
        rw [if_pos (by simp [hx]), hx, ← List.replicate_succ']
      rw [this]; exact ih (n + 1)
    · have : shiftUnique (List.replicate (n + 1) a) x = List.replicate (n + 1) a := by
        unfold shiftUnique
        simp only [nearVec_iff]
        rw [if_neg (by simp [hx])]
      rw [this]; exact ih n

open scoped Classical in
/-- Only the first element of a row of degeneracies can be different from zero. -/
theorem shiftDegeneracies_copies (a : V3 Int) (m : Nat) (l : List (V3 Int × Nat)) :
    ∃ g, shiftDegeneracies (List.replicate (m + 1) a) l = g :: List.replicate m 0 := by
  unfold shiftDegeneracies
  have key : ∀ (l : List (V3 Int × Nat)) (g : Nat), ∃ g',
      (l.foldl (fun degs p =>
        match (List.replicate (m + 1) a).findIdx? fun y => decide (nearVec p.1 y) with
        | some k => degs.set k p.2
        | none => degs) (g :: List.replicate m 0)) = g' :: List.replicate m 0 := by
    intro l
    induction l with
    | nil => intro g; exact ⟨g, rfl⟩
    | cons p l ih =>
      intro g
      rw [List.foldl_cons]
      by_cases hp : p.1 = a
      · have : (List.replicate (m + 1) a).findIdx? (fun y => decide (nearVec p.1 y)) = some 0 := by
          rw [List.replicate_succ, List.findIdx?_cons]
          simp [nearVec_iff, hp]
        rw [this]
        simp only [List.set_cons_zero]
        exact ih p.2
      · have : (List.replicate (m + 1) a).findIdx? (fun y => decide (nearVec p.1 y)) = none := by
          rw [List.findIdx?_eq_none_iff]
          intro y hy
          rw [List.eq_of_mem_replicate hy]
          simp [nearVec_iff, hp]
        rw [this]
        exact ih g
  have h0 : List.replicate (List.replicate (m + 1) a).length 0 = 0 :: List.replicate m 0 := by
    rw [List.length_replicate, List.replicate_succ]
  rw [h0]
  exact key l 0

/-! ## Natural squared distances, for examples -/

theorem sqrt_near_iff (a b : Nat) (ha : a ≤ 10000) (hb : b ≤ 10000) :
    |Real.sqrt a - Real.sqrt b| < 1 / 1000000 ↔ a = b := by
  constructor
  · intro h
    have sa : Real.sqrt a ≤ 100 := by
      rw [Real.sqrt_le_left (by norm_num)]
      have : (a : ℝ) ≤ ((10000 : Nat) : ℝ) := by exact_mod_cast ha
      push_cast at this; linarith
    have sb : Real.sqrt b ≤ 100 := by
      rw [Real.sqrt_le_left (by norm_num)]
      have : (b : ℝ) ≤ ((10000 : Nat) : ℝ) := by exact_mod_cast hb
      push_cast at this; linarith
    have na := Real.sqrt_nonneg (a : ℝ)
    have nb := Real.sqrt_nonneg (b : ℝ)
    have qa := Real.mul_self_sqrt (Nat.cast_nonneg (α := ℝ) a)
    have qb := Real.mul_self_sqrt (Nat.cast_nonneg (α := ℝ) b)
    have hd : |((a : ℤ) - (b : ℤ) : ℤ)| < 1 := by
      have : |((a : ℝ) - b)| < 1 := by
        have e : (a : ℝ) - b = (Real.sqrt a - Real.sqrt b) * (Real.sqrt a + Real.sqrt b) := by linarith
        rw [e, abs_mul, abs_of_nonneg (by linarith : 0 ≤ Real.sqrt a + Real.sqrt b)]
        calc |Real.sqrt a - Real.sqrt b| * (Real.sqrt a + Real.sqrt b)
            ≤ (1 / 1000000) * 200 := by
              apply mul_le_mul h.le (by linarith) (by linarith) (by norm_num)
          _ < 1 := by norm_num
      exact_mod_cast this
    have := abs_lt.mp hd
    omega
  · rintro rfl; simp

/-- The minimum of natural numbers. -/
def natMin (l : List Nat) : Nat := l.foldl (fun m x => if x < m then x else m) (l.getD 0 0)

theorem distMin_sqrt (l : List Nat) : distMin (l.map fun n : Nat => Real.sqrt n) = Real.sqrt (natMin l) := by
  unfold distMin natMin
  have h0 : (l.map fun n : Nat => Real.sqrt n).getD 0 0 = Real.sqrt ((l.getD 0 0 : Nat) : ℝ) := by
    cases l <;> simp
  rw [h0, List.foldl_map]
  clear h0
  generalize l.getD 0 0 = m
  induction l generalizing m with
  | nil => rfl
  | cons a l ih =>
    rw [List.foldl_cons, List.foldl_cons]
    have : (if Real.sqrt (a : ℝ) < Real.sqrt (m : ℝ) then Real.sqrt (a : ℝ) else Real.sqrt (m : ℝ)) =
        Real.sqrt (((if a < m then a else m : Nat)) : ℝ) := by
      have : Real.sqrt (a : ℝ) < Real.sqrt (m : ℝ) ↔ a < m := by
        rw [Real.sqrt_lt_sqrt_iff (Nat.cast_nonneg a)]; exact Nat.cast_lt
      by_cases h : a < m
      · rw [if_pos h, if_pos (this.mpr h)]
      · rw [if_neg h, if_neg (fun hh => h (this.mp hh))]
    rw [this]; exact ih _

/-- Squared distances for the cubic cell with unit side. -/
def natDistances (grid : V3 Int) (nx : Int) (i : V3 Int) : List Nat :=
  (zBox ⟨nx + 1, nx + 1, nx + 1⟩).map fun j =>
    let o := offsetBy grid i j
    (o.x * o.x + o.y * o.y + o.z * o.z).toNat

theorem wsDistances_one (grid : V3 Int) (nx : Int) (i : V3 Int) :
    wsDistances 1 grid nx 0 i = (natDistances grid nx i).map fun n : Nat => Real.sqrt n := by
  unfold wsDistances natDistances
  rw [List.map_map]
  apply List.map_congr_left
  intro j _
  simp only [Function.comp, add_zero]
  rw [matVec_eq, Matrix.one_mulVec]
  unfold vnorm
  congr 1
  generalize offsetBy grid i j = o
  have hn : 0 ≤ o.x * o.x + o.y * o.y + o.z * o.z := by
    have := mul_self_nonneg o.x
    have := mul_self_nonneg o.y
    have := mul_self_nonneg o.z
    omega
  have : (((o.x * o.x + o.y * o.y + o.z * o.z).toNat : Nat) : ℝ) =
      ((o.x * o.x + o.y * o.y + o.z * o.z : Int) : ℝ) := by
    rw [← Int.cast_natCast, Int.toNat_of_nonneg hn]
  rw [this]
  unfold vdot toVec
  simp only [Matrix.cons_val_zero, Matrix.cons_val_one, Matrix.cons_val_two, Matrix.head_cons, Matrix.tail_cons,
    Matrix.cons_val]
  push_cast; ring

def natDegeneracy (mid : Nat) (l : List Nat) : Option Nat :=
  if l.getD mid 0 = natMin l then some (l.filter fun x => decide (x = natMin l)).length else none

theorem natMin_le (l : List Nat) (B : Nat) (h : ∀ x ∈ l, x ≤ B) : natMin l ≤ B := by
  unfold natMin
  have h0 : l.getD 0 0 ≤ B := by cases l <;> simp_all
  generalize l.getD 0 0 = m at h0
  induction l generalizing m with
  | nil => exact h0
  | cons a l ih =>
    rw [List.foldl_cons]
    apply ih (fun x hx => h x (by simp [hx]))
    split
    · exact h a (by simp)
    · exact h0

theorem wsDegeneracy_nat (mid : Nat) (l : List Nat) (hm : mid < l.length) (h : ∀ x ∈ l, x ≤ 10000) :
    wsDegeneracy mid (l.map fun n : Nat => Real.sqrt n) = .ok (natDegeneracy mid l) := by
  have hmin := natMin_le l 10000 h
  unfold wsDegeneracy readAt natDegeneracy
  rw [List.getElem?_map, List.getElem?_eq_getElem hm, Option.map_some, distMin_sqrt]
  simp only [Outcome.bind_eq, Outcome.bind_ok]
  have hg : l.getD mid 0 = l[mid] := by
    rw [List.getD_eq_getElem?_getD, List.getElem?_eq_getElem hm, Option.getD_some]
  rw [hg]
  have h1 := sqrt_near_iff l[mid] (natMin l) (h _ (List.getElem_mem hm)) hmin
  have h2 : ((l.map fun n : Nat => Real.sqrt n).filter fun x =>
      decide (|x - Real.sqrt (natMin l)| < 1 / 1000000)).length = (l.filter fun x => decide (x = natMin l)).length := by
    rw [List.filter_map, List.length_map]
    congr 1
    apply List.filter_congr
    intro x hx
    simp only [Function.comp]
    rw [decide_eq_decide]
    exact sqrt_near_iff x (natMin l) (h x hx) hmin
  rw [h2]
  by_cases hc : l[mid] = natMin l
  · rw [if_pos (h1.mpr hc), if_pos hc]
  · rw [if_neg (fun hh => hc (h1.mp hh)), if_neg hc]

def natCollect (grid : V3 Int) (nx : Int) (mid : Nat) (box : List (V3 Int)) : List (V3 Int × Nat) :=
  box.filterMap fun i => (natDegeneracy mid (natDistances grid nx i)).map fun g => (i, g)

theorem wsCollect_nat (grid : V3 Int) (nx : Int) (mid : Nat) (box : List (V3 Int))
    (h : ∀ i ∈ box, mid < (natDistances grid nx i).length ∧ ∀ x ∈ natDistances grid nx i, x ≤ 10000) :
    wsCollect 1 grid nx 0 mid box = .ok (natCollect grid nx mid box) := by
  induction box with
  | nil => rfl
  | cons a box ih =>
    have ih' := ih (fun i hi => h i (by simp [hi]))
    obtain ⟨h1, h2⟩ := h a (by simp)
    simp only [wsCollect, Outcome.bind_eq]
    rw [wsDistances_one, wsDegeneracy_nat _ _ h1 h2, Outcome.bind_ok, ih', Outcome.bind_ok]
    unfold natCollect
    rw [List.filterMap_cons]
    cases natDegeneracy mid (natDistances grid nx a) <;> rfl

end Verif.Model
