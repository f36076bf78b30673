import Verif.Model.XmlBands
import Verif.Spec.XmlBands
import Verif.Proofs.Points
import Verif.Proofs.Input
import Mathlib.Tactic.Linarith
import Mathlib.Tactic.LinearCombination
import Mathlib.Tactic.FieldSimp
import Mathlib.Tactic.NormNum
import Mathlib.Data.Fintype.EquivFin
import Mathlib.Data.Fintype.Prod
import Mathlib.Data.Int.ModEq

namespace Verif.Proofs
open Verif.Model Verif.Spec

/-- `v` is near the multiple `j` of the spacing. -/
def On (ε : Rat) (n : Nat) (o v : Rat) (j : Int) : Prop := |v - o - j / n| ≤ ε

theorem n_bounds {n : Nat} (h1 : 1 ≤ n) (h2 : n ≤ 1000) : (1 : Rat) ≤ n ∧ (n : Rat) ≤ 1000 := by
  constructor
  · exact_mod_cast h1
  · exact_mod_cast h2

/-- Differences of values that are near multiples. -/
theorem on_diff {ε : Rat} (hε : ε ≤ 1 / 10000000000) {n : Nat} (h1 : 1 ≤ n) (h2 : n ≤ 1000) {o v w : Rat} {i j : Int} (hv : On ε n o v i) (hw : On ε n o w j) :
    |(w - v) * n - ((j - i : Int) : Rat)| ≤ 1 / 5000000 := by
  obtain ⟨b1, b2⟩ := n_bounds h1 h2
  unfold On at hv hw
  rw [abs_le] at hv hw
  have hn : (n : Rat) ≠ 0 := by linarith
  have e1 : (i : Rat) / n * n = i := div_mul_cancel₀ _ hn
  have e2 : (j : Rat) / n * n = j := div_mul_cancel₀ _ hn
  have key : (w - v) * n - ((j - i : Int) : Rat) = ((w - o - j / n) - (v - o - i / n)) * n := by
    push_cast
    linear_combination e2 - e1
  have hpos : (0 : Rat) < n := by linarith
  rw [key, abs_mul, abs_of_pos hpos]
  have hd : |(w - o - j / n) - (v - o - i / n)| ≤ 2 / 10000000000 := by
    rw [abs_le]; constructor <;> linarith [hv.1, hv.2, hw.1, hw.2, hε]
  calc |(w - o - j / n) - (v - o - i / n)| * n ≤ 2 / 10000000000 * 1000 :=
        mul_le_mul hd b2 hpos.le (by norm_num)
    _ = 1 / 5000000 := by norm_num

theorem on_fract {ε : Rat} {n : Nat} (h1 : 1 ≤ n) {o v : Rat} {j : Int} (hv : On ε n o v j) : On ε n o (v - (⌊v⌋ : Int)) (j - ⌊v⌋ * n) := by
  unfold On at *
  have hn : (n : Rat) ≠ 0 := by
    have : (0 : Rat) < n := by exact_mod_cast h1
    linarith
  have e : v - (⌊v⌋ : Int) - o - ((j - ⌊v⌋ * n : Int) : Rat) / n = v - o - j / n := by
    push_cast
    field_simp
    ring
  rw [e]
  exact hv

/-- What a value of the set is. -/
theorem mem_meshSet {vals : List Rat} {w : Rat} : w ∈ meshSet vals ↔ ∃ v ∈ vals, w = v - (⌊v⌋ : Int) := by
  unfold meshSet
  rw [Finset.mem_sort, List.mem_toFinset, List.mem_map]
  constructor
  · rintro ⟨v, h, rfl⟩; exact ⟨v, h, rfl⟩
  · rintro ⟨v, h, rfl⟩; exact ⟨v, h, rfl⟩

theorem meshSet_unit {vals : List Rat} {w : Rat} (h : w ∈ meshSet vals) : 0 ≤ w ∧ w < 1 := by
  obtain ⟨v, -, rfl⟩ := mem_meshSet.mp h
  have a := Int.floor_le v
  have b := Int.lt_floor_add_one v
  constructor <;> linarith

theorem meshSet_sorted (vals : List Rat) : (meshSet vals).Pairwise (· ≤ ·) := (vals.map _).toFinset.pairwise_sort (· ≤ ·)

theorem find_min {l : List Rat} (hs : l.Pairwise (· ≤ ·)) {p : Rat → Bool} {w w' : Rat} (hf : l.find? p = some w) (hw : w' ∈ l) (hp : p w' = true) :
    w ≤ w' := by
  induction l with
  | nil => simp at hf
  | cons a t ih =>
    rw [List.pairwise_cons] at hs
    rw [List.find?_cons] at hf
    by_cases ha : p a = true
    · rw [ha] at hf
      simp only [Option.some.injEq] at hf
      subst hf
      rcases List.mem_cons.mp hw with rfl | h
      · exact le_refl _
      · exact hs.1 _ h
    · simp only [ha] at hf
      rcases List.mem_cons.mp hw with rfl | h
      · exact absurd hp ha
      · exact ih hs.2 hf h

theorem cround_near {x : Rat} {n : Nat} (h0 : 0 ≤ x) (h1 : (n : Rat) - 1 / 2 ≤ x) (h2 : x < (n : Rat) + 1 / 2) : cround x = n := by
  unfold cround
  rw [if_pos h0, Int.floor_eq_iff]
  push_cast
  constructor <;> linarith

/-- One direction. -/
theorem findMesh1_on {ε : Rat} (hε : ε ≤ 1 / 10000000000) {n : Nat} (h1 : 1 ≤ n) (h2 : n ≤ 1000) {o : Rat} {vals : List Rat} (hon : ∀ v ∈ vals, ∃ j, On ε n o v j)
    (hcov : ∀ k < n, ∃ v ∈ vals, ∃ m : Int, On ε n o v (k + m * n)) :
    ∃ b, findMesh1 vals = .ok ((n : Int), b) ∧ 0 ≤ b ∧ b < 1 ∧ ∃ j, On ε n o b j := by
  obtain ⟨c1, c2⟩ := n_bounds h1 h2
  have hpos : (0 : Rat) < n := by linarith
  have onset : ∀ w ∈ meshSet vals, ∃ j, On ε n o w j := by
    intro w hw
    obtain ⟨v, hv, rfl⟩ := mem_meshSet.mp hw
    obtain ⟨j, hj⟩ := hon v hv
    exact ⟨_, on_fract h1 hj⟩
  obtain ⟨v0, hv0, -⟩ := hcov 0 h1
  have hmem0 : v0 - (⌊v0⌋ : Int) ∈ meshSet vals := mem_meshSet.mpr ⟨v0, hv0, rfl⟩
  have hsort := meshSet_sorted vals
  unfold findMesh1
  rcases hs : meshSet vals with _ | ⟨b, t⟩
  · rw [hs] at hmem0; simp at hmem0
  · rw [hs] at hsort
    have hb : b ∈ meshSet vals := by rw [hs]; simp
    obtain ⟨b0, b1⟩ := meshSet_unit hb
    obtain ⟨jb, hjb⟩ := onset b hb
    have hle : ∀ w ∈ meshSet vals, b ≤ w := by
      intro w hw
      rw [hs] at hw
      rcases List.mem_cons.mp hw with rfl | h
      · exact le_refl _
      · exact (List.pairwise_cons.mp hsort).1 _ h
    -- the multiple of the spacing by which a value differs from the first
    have hj : ∀ w ∈ meshSet vals, ∀ j, On ε n o w j → 0 ≤ j - jb ∧ j - jb ≤ n := by
      intro w hw j hjw
      have hd := abs_le.mp (on_diff hε h1 h2 hjb hjw)
      have w1 := meshSet_unit hw
      have w2 := hle w hw
      have u1 : 0 ≤ (w - b) * n := mul_nonneg (by linarith) hpos.le
      have u2 : (w - b) * n ≤ n := by nlinarith
      constructor
      · have : (-1 : Rat) < ((j - jb : Int) : Rat) := by linarith [hd.2]
        have : (-1 : Int) < j - jb := by exact_mod_cast this
        omega
      · have : ((j - jb : Int) : Rat) < n + 1 := by linarith [hd.1]
        have : j - jb < n + 1 := by exact_mod_cast this
        omega
    dsimp only
    rcases Nat.lt_or_ge 1 n with hn | hn
    · -- at least two points
      have c3 : (2 : Rat) ≤ n := by exact_mod_cast hn
      obtain ⟨w', hw', hjw'⟩ : ∃ w' ∈ meshSet vals, On ε n o w' (jb + 1) := by
        obtain ⟨v, hv, m, hm⟩ := hcov ((jb + 1) % n).toNat (by
          have := Int.emod_lt_of_pos (jb + 1) (show (0 : Int) < n by omega)
          have := Int.emod_nonneg (jb + 1) (show (n : Int) ≠ 0 by omega)
          omega)
        have hk : ((((jb + 1) % n).toNat : Nat) : Int) = (jb + 1) % n := Int.toNat_of_nonneg (Int.emod_nonneg _ (by omega))
        rw [hk] at hm
        have hw : v - (⌊v⌋ : Int) ∈ meshSet vals := mem_meshSet.mpr ⟨v, hv, rfl⟩
        have hf := on_fract h1 hm
        have hr := hj _ hw _ hf
        have hdm := Int.mul_ediv_add_emod (jb + 1) n
        have e : (jb + 1) % n + m * n - ⌊v⌋ * n - jb = 1 + n * (m - ⌊v⌋ - (jb + 1) / n) := by
          linear_combination hdm
        set q := m - ⌊v⌋ - (jb + 1) / n with hq
        rw [e] at hr
        have hq0 : q = 0 := by
          rcases lt_trichotomy q 0 with hlt | h | hgt
          · have : (n : Int) * q ≤ n * (-1) := Int.mul_le_mul_of_nonneg_left (by omega) (by omega)
            omega
          · exact h
          · have : (n : Int) * 1 ≤ n * q := Int.mul_le_mul_of_nonneg_left (by omega) (by omega)
            omega
        rw [hq0] at e
        refine ⟨_, hw, ?_⟩
        have e2 : (jb + 1) % n + m * n - ⌊v⌋ * n = jb + 1 := by linarith
        rw [e2] at hf
        exact hf
      have hd' := abs_le.mp (on_diff hε h1 h2 hjb hjw')
      rw [show jb + 1 - jb = 1 by ring, Int.cast_one] at hd'
      have p1 : eps6 < w' - b := by
        unfold eps6
        by_contra hc
        have : (w' - b) * n ≤ 1 / 1000000 * 1000 := mul_le_mul (not_lt.mp hc) c2 hpos.le (by norm_num)
        linarith [hd'.1]
      have p2 : eps6 < 1 - w' + b := by
        unfold eps6
        by_contra hc
        have h3 : 1 - 1 / 1000000 ≤ w' - b := by linarith [not_lt.mp hc]
        have : (1 - 1 / 1000000) * 2 ≤ (w' - b) * n := mul_le_mul h3 c3 (by norm_num) (by linarith)
        linarith [hd'.2]
      have hns : meshSingle b (b :: t) = false := by
        unfold meshSingle
        rw [List.all_eq_false]
        exact ⟨w', by rw [← hs]; exact hw', by simp [p1, p2]⟩
      rw [hns]
      simp only [Bool.false_eq_true, if_false]
      refine ⟨b, ?_, b0, b1, jb, hjb⟩
      -- the spacing
      obtain ⟨w, hfind⟩ : ∃ w, (b :: t).find? (fun w => decide (w - b > eps6)) = some w := by
        rw [← Option.isSome_iff_exists, List.find?_isSome]
        exact ⟨w', by rw [← hs]; exact hw', by simpa using p1⟩
      have hwm : w ∈ meshSet vals := by rw [hs]; exact List.mem_of_find?_eq_some hfind
      have hwp : eps6 < w - b := by
        have := List.find?_some hfind
        simpa using this
      have hwle : w ≤ w' := find_min hsort hfind (by rw [← hs]; exact hw') (by simpa using p1)
      obtain ⟨j, hjw⟩ := onset w hwm
      have hr := hj w hwm j hjw
      have hd := abs_le.mp (on_diff hε h1 h2 hjb hjw)
      have hwle' : (w - b) * n ≤ (w' - b) * n := mul_le_mul_of_nonneg_right (by linarith) hpos.le
      have hj1 : j - jb = 1 := by
        have u1 : ((j - jb : Int) : Rat) < 2 := by linarith [hd.1, hd'.2]
        have u2 : j - jb < 2 := by exact_mod_cast u1
        have u3 : j - jb ≠ 0 := by
          intro h0
          rw [h0] at hd
          have : eps6 * 1 ≤ (w - b) * n := mul_le_mul hwp.le c1 (by norm_num) (by unfold eps6 at hwp; linarith)
          unfold eps6 at this
          simp only [Int.cast_zero, sub_zero] at hd
          linarith [hd.2]
        omega
      rw [hj1] at hd
      simp only [Int.cast_one] at hd
      have hdelta : meshDelta b (b :: t) = w - b := by
        unfold meshDelta
        rw [hfind]
      rw [hdelta]
      have hdp : 0 < w - b := by unfold eps6 at hwp; linarith
      have key : cround (1 / (w - b) + 1 / 10) = n := by
        have hx : 1 / (w - b) = n / ((w - b) * n) := by field_simp
        have hy1 : (1 : Rat) - 1 / 5000000 ≤ (w - b) * n := by linarith [hd.1]
        have hy2 : (w - b) * n ≤ 1 + 1 / 5000000 := by linarith [hd.2]
        have hyp : 0 < (w - b) * n := by linarith
        apply cround_near
        · positivity
        · rw [hx]
          have : (n : Rat) - 3 / 5 ≤ n / ((w - b) * n) := by
            rw [le_div_iff₀ hyp]
            nlinarith
          linarith
        · rw [hx]
          have : (n : Rat) / ((w - b) * n) < n + 2 / 5 := by
            rw [div_lt_iff₀ hyp]
            nlinarith
          linarith
      rw [key]
    · -- one point
      have hn1 : n = 1 := by omega
      have hsing : meshSingle b (b :: t) = true := by
        unfold meshSingle
        rw [List.all_eq_true]
        intro w hw
        rw [← hs] at hw
        obtain ⟨j, hjw⟩ := onset w hw
        have hr := hj w hw j hjw
        have hd := abs_le.mp (on_diff hε h1 h2 hjb hjw)
        have hnr : (n : Rat) = 1 := by rw [hn1]; norm_num
        rw [hnr, mul_one] at hd
        have hcase : j - jb = 0 ∨ j - jb = 1 := by omega
        simp only [Bool.not_eq_true', Bool.and_eq_false_iff, decide_eq_false_iff_not, not_lt]
        unfold eps6
        rcases hcase with h | h <;> rw [h] at hd
        · left
          simp only [Int.cast_zero, sub_zero] at hd
          linarith [hd.2]
        · right
          simp only [Int.cast_one] at hd
          linarith [hd.1]
      rw [hsing]
      simp only [if_true]
      exact ⟨b, by rw [hn1]; rfl, b0, b1, jb, hjb⟩


theorem on_of_near {ε : Rat} {n : Nat} (h1 : 1 ≤ n) {o v : Rat} {a : Nat} (h : NearMod ε v (o + a / n)) : ∃ m : Int, On ε n o v (a + m * n) := by
  obtain ⟨m, hm⟩ := h
  refine ⟨m, ?_⟩
  unfold On
  have hn : (n : Rat) ≠ 0 := by
    have : (0 : Rat) < n := by exact_mod_cast h1
    linarith
  have e : v - o - ((a + m * n : Int) : Rat) / n = v - (o + a / n) - m := by
    push_cast
    field_simp
    ring
  rw [e]
  exact hm

/-- Two values that are the same point have the same integer. -/
theorem on_unique {ε : Rat} (hε : ε ≤ 1 / 10000000000) {n : Nat} (h1 : 1 ≤ n) (h2 : n ≤ 1000) {o v : Rat} {i j : Int}
    (hi : On ε n o v i) (hj : On ε n o v j) : i = j := by
  have h := abs_le.mp (on_diff hε h1 h2 hi hj)
  have u1 : ((j - i : Int) : Rat) < 1 := by linarith [h.1]
  have u2 : (-1 : Rat) < ((j - i : Int) : Rat) := by linarith [h.2]
  have u3 : j - i < 1 := by exact_mod_cast u1
  have u4 : -1 < j - i := by exact_mod_cast u2
  omega

theorem near_unique {ε : Rat} (hε : ε ≤ 1 / 10000000000) {n : Nat} (h1 : 1 ≤ n) (h2 : n ≤ 1000) {o v : Rat} {a b : Nat} (ha : a < n) (hb : b < n)
    (hi : NearMod ε v (o + a / n)) (hj : NearMod ε v (o + b / n)) : a = b := by
  obtain ⟨m, hm⟩ := on_of_near h1 hi
  obtain ⟨k, hk⟩ := on_of_near h1 hj
  have h := on_unique hε h1 h2 hm hk
  have h3 : ((a : Int) + m * n) % n = ((b : Int) + k * n) % n := by rw [h]
  rw [Int.add_mul_emod_self_right, Int.add_mul_emod_self_right, Int.emod_eq_of_lt (by omega) (by omega),
    Int.emod_eq_of_lt (by omega) (by omega)] at h3
  omega

/-- The triples of the mesh. -/
abbrev Triples (n : V3 Nat) := Fin n.x × Fin n.y × Fin n.z

/-- The sizes of a mesh. -/
structure Sizes (n : V3 Nat) : Prop where
  x : 1 ≤ n.x ∧ n.x ≤ 1000
  y : 1 ≤ n.y ∧ n.y ≤ 1000
  z : 1 ≤ n.z ∧ n.z ≤ 1000

/-- The positions of the list are the triples of the mesh. -/
theorem mesh_positions {ε : Rat} (hε : ε ≤ 1 / 10000000000) {n : V3 Nat} (hn : Sizes n) {o : V3 Rat} {pts : List (V3 Rat)} (h : IsMesh ε n o pts) :
    ∃ f : Triples n → Fin pts.length, Function.Bijective f ∧
      ∀ g, SamePoint ε (pts.get (f g)) (gridPoint n o g.1 g.2.1 g.2.2) := by
  have hex : ∀ g : Triples n, ∃ i : Fin pts.length, SamePoint ε (pts.get i) (gridPoint n o g.1 g.2.1 g.2.2) := by
    intro g
    obtain ⟨p, hp, hs⟩ := h.covers g.1 g.2.1 g.2.2 g.1.isLt g.2.1.isLt g.2.2.isLt
    obtain ⟨i, hi, rfl⟩ := List.mem_iff_getElem.mp hp
    exact ⟨⟨i, hi⟩, hs⟩
  choose f hf using hex
  refine ⟨f, ?_, hf⟩
  have hinj : Function.Injective f := by
    rintro ⟨a, b, c⟩ ⟨a', b', c'⟩ hg
    have s1 := hf (a, b, c)
    have s2 := hf (a', b', c')
    rw [hg] at s1
    obtain ⟨x1, y1, z1⟩ := s1
    obtain ⟨x2, y2, z2⟩ := s2
    have ea := near_unique hε hn.x.1 hn.x.2 a.isLt a'.isLt x1 x2
    have eb := near_unique hε hn.y.1 hn.y.2 b.isLt b'.isLt y1 y2
    have ec := near_unique hε hn.z.1 hn.z.2 c.isLt c'.isLt z1 z2
    rw [Prod.mk.injEq, Prod.mk.injEq]
    exact ⟨Fin.ext ea, Fin.ext eb, Fin.ext ec⟩
  rw [Fintype.bijective_iff_injective_and_card]
  refine ⟨hinj, ?_⟩
  simp only [Fintype.card_prod, Fintype.card_fin]
  rw [h.length, mul_assoc]

/-- An offset that describes the same mesh. -/
structure SameMesh (ε : Rat) (n : V3 Nat) (o b : V3 Rat) : Prop where
  x : 0 ≤ b.x ∧ b.x < 1 ∧ ∃ j, On ε n.x o.x b.x j
  y : 0 ≤ b.y ∧ b.y < 1 ∧ ∃ j, On ε n.y o.y b.y j
  z : 0 ≤ b.z ∧ b.z < 1 ∧ ∃ j, On ε n.z o.z b.z j

theorem findMesh_on {ε : Rat} (hε : ε ≤ 1 / 10000000000) {n : V3 Nat} (hn : Sizes n) {o : V3 Rat} {pts : List (V3 Rat)} (h : IsMesh ε n o pts) :
    ∃ b, findMesh pts = .ok (⟨n.x, n.y, n.z⟩, b) ∧ SameMesh ε n o b := by
  obtain ⟨f, hf, hs⟩ := mesh_positions hε hn h
  have hall : ∀ p ∈ pts, ∃ g : Triples n, SamePoint ε p (gridPoint n o g.1 g.2.1 g.2.2) := by
    intro p hp
    obtain ⟨i, hi, rfl⟩ := List.mem_iff_getElem.mp hp
    obtain ⟨g, hg⟩ := hf.2 ⟨i, hi⟩
    refine ⟨g, ?_⟩
    have := hs g
    rw [hg] at this
    exact this
  obtain ⟨bx, ex, x0, x1, x2⟩ := findMesh1_on (vals := pts.map V3.x) hε hn.x.1 hn.x.2 (o := o.x) (by
      intro v hv
      obtain ⟨p, hp, rfl⟩ := List.mem_map.mp hv
      obtain ⟨g, hg⟩ := hall p hp
      obtain ⟨m, hm⟩ := on_of_near hn.x.1 hg.1
      exact ⟨_, hm⟩) (by
      intro k hk
      obtain ⟨p, hp, hg⟩ := h.covers k 0 0 hk hn.y.1 hn.z.1
      obtain ⟨m, hm⟩ := on_of_near hn.x.1 hg.1
      exact ⟨_, List.mem_map_of_mem hp, m, hm⟩)
  obtain ⟨bY, ey, y0, y1, y2⟩ := findMesh1_on (vals := pts.map V3.y) hε hn.y.1 hn.y.2 (o := o.y) (by
      intro v hv
      obtain ⟨p, hp, rfl⟩ := List.mem_map.mp hv
      obtain ⟨g, hg⟩ := hall p hp
      obtain ⟨m, hm⟩ := on_of_near hn.y.1 hg.2.1
      exact ⟨_, hm⟩) (by
      intro k hk
      obtain ⟨p, hp, hg⟩ := h.covers 0 k 0 hn.x.1 hk hn.z.1
      obtain ⟨m, hm⟩ := on_of_near hn.y.1 hg.2.1
      exact ⟨_, List.mem_map_of_mem hp, m, hm⟩)
  obtain ⟨bz, ez, z0, z1, z2⟩ := findMesh1_on (vals := pts.map V3.z) hε hn.z.1 hn.z.2 (o := o.z) (by
      intro v hv
      obtain ⟨p, hp, rfl⟩ := List.mem_map.mp hv
      obtain ⟨g, hg⟩ := hall p hp
      obtain ⟨m, hm⟩ := on_of_near hn.z.1 hg.2.2
      exact ⟨_, hm⟩) (by
      intro k hk
      obtain ⟨p, hp, hg⟩ := h.covers 0 0 k hn.x.1 hn.y.1 hk
      obtain ⟨m, hm⟩ := on_of_near hn.z.1 hg.2.2
      exact ⟨_, List.mem_map_of_mem hp, m, hm⟩)
  refine ⟨⟨bx, bY, bz⟩, ?_, ⟨⟨x0, x1, x2⟩, ⟨y0, y1, y2⟩, ⟨z0, z1, z2⟩⟩⟩
  unfold findMesh
  rw [ex, ey, ez]
  show (if _ then _ else _) = _
  rw [if_neg]
  rw [h.length]
  push_cast
  simp

/-- The index of one direction. -/
theorem cround_on {ε : Rat} (hε : ε ≤ 1 / 10000000000) {n : Nat} (h1 : 1 ≤ n) (h2 : n ≤ 1000) {o b v : Rat} {i j : Int}
    (hb : On ε n o b i) (hv : On ε n o v j) :
    cround ((v - b) * ((n : Int) : Rat)) = j - i ∧ |(((j - i : Int) : Rat)) - (v - b) * ((n : Int) : Rat)| ≤ 1 / 5000000 ∧
      NearMod (2 * ε) ((((j - i) % (n : Int) : Int) : Rat) / ((n : Int) : Rat) + b) v := by
  have hd := on_diff hε h1 h2 hb hv
  have ha := abs_le.mp hd
  have hn : (n : Rat) ≠ 0 := by
    have : (0 : Rat) < n := by exact_mod_cast h1
    linarith
  rw [Int.cast_natCast]
  refine ⟨?_, by rw [abs_sub_comm]; exact hd, ?_⟩
  · unfold cround
    split
    · rw [Int.floor_eq_iff]; constructor <;> linarith [ha.1, ha.2]
    · rw [Int.ceil_eq_iff]; constructor <;> linarith [ha.1, ha.2]
  · refine ⟨-((j - i) / (n : Int)), ?_⟩
    unfold On at hb hv
    have hdm : ((n : Int) : Rat) * (((j - i) / (n : Int) : Int) : Rat) + (((j - i) % (n : Int) : Int) : Rat) = ((j - i : Int) : Rat) := by
      exact_mod_cast Int.mul_ediv_add_emod (j - i) n
    rw [Int.cast_natCast] at hdm
    have e : (((j - i) % (n : Int) : Int) : Rat) / n + b - v - ((-((j - i) / (n : Int)) : Int) : Rat)
        = (b - o - i / n) - (v - o - j / n) := by
      rw [Int.cast_sub] at hdm
      rw [Int.cast_neg]
      field_simp
      linear_combination hdm
    rw [e, abs_le]
    rw [abs_le] at hb hv
    constructor <;> linarith [hb.1, hb.2, hv.1, hv.2]

/-- The mesh with integers. -/
def meshInt (n : V3 Nat) : V3 Int := ⟨n.x, n.y, n.z⟩

theorem stored_on {ε : Rat} (hε : ε ≤ 1 / 10000000000) {n : V3 Nat} (hn : Sizes n) {o b p : V3 Rat} {ix iy iz jx jy jz : Int}
    (bx : On ε n.x o.x b.x ix) (bY : On ε n.y o.y b.y iy) (bz : On ε n.z o.z b.z iz)
    (px : On ε n.x o.x p.x jx) (py : On ε n.y o.y p.y jy) (pz : On ε n.z o.z p.z jz) :
    Decode (meshInt n) (isPointStoredMesh (meshInt n) b p) ((jx - ix) % (n.x : Int)) ((jy - iy) % (n.y : Int)) ((jz - iz) % (n.z : Int)) := by
  obtain ⟨x1, x2, -⟩ := cround_on hε hn.x.1 hn.x.2 bx px
  obtain ⟨y1, y2, -⟩ := cround_on hε hn.y.1 hn.y.2 bY py
  obtain ⟨z1, z2, -⟩ := cround_on hε hn.z.1 hn.z.2 bz pz
  have px : (0 : Int) < n.x := by have := hn.x.1; omega
  have py : (0 : Int) < n.y := by have := hn.y.1; omega
  have pz : (0 : Int) < n.z := by have := hn.z.1; omega
  refine ⟨⟨Int.emod_nonneg _ (by omega), Int.emod_lt_of_pos _ px⟩, ⟨Int.emod_nonneg _ (by omega), Int.emod_lt_of_pos _ py⟩,
    ⟨Int.emod_nonneg _ (by omega), Int.emod_lt_of_pos _ pz⟩, ?_⟩
  unfold isPointStoredMesh meshInt
  simp only [x1, y1, z1, imod_eq _ px, imod_eq _ py, imod_eq _ pz]
  rw [if_neg]
  unfold eps6
  have u := (abs_le.mp x2).2
  have v := (abs_le.mp y2).2
  have w := (abs_le.mp z2).2
  push_cast at u v w ⊢
  linarith

theorem decode_unique {mesh : V3 Int} {i a b c a' b' c' : Int} (h1 : 0 < mesh.x) (h2 : 0 < mesh.y) (h3 : 0 < mesh.z)
    (d : Decode mesh i a b c) (d' : Decode mesh i a' b' c') : a = a' ∧ b = b' ∧ c = c' := by
  have e := (meshCoordinates_decode (offset := ⟨0, 0, 0⟩) d).symm.trans (meshCoordinates_decode d')
  simp only [V3.mk.injEq, add_zero] at e
  have n1 : (mesh.x : Rat) ≠ 0 := by exact_mod_cast h1.ne'
  have n2 : (mesh.y : Rat) ≠ 0 := by exact_mod_cast h2.ne'
  have n3 : (mesh.z : Rat) ≠ 0 := by exact_mod_cast h3.ne'
  obtain ⟨e1, e2, e3⟩ := e
  rw [div_left_inj' n1] at e1
  rw [div_left_inj' n2] at e2
  rw [div_left_inj' n3] at e3
  exact ⟨by exact_mod_cast e1, by exact_mod_cast e2, by exact_mod_cast e3⟩

/-- The index of a point of the list. -/
theorem point_index {ε : Rat} (hε : ε ≤ 1 / 10000000000) {n : V3 Nat} (hn : Sizes n) {o b : V3 Rat} (hb : SameMesh ε n o b) {p : V3 Rat} {g : Triples n}
    (hp : SamePoint ε p (gridPoint n o g.1 g.2.1 g.2.2)) :
    0 ≤ isPointStoredMesh (meshInt n) b p ∧ isPointStoredMesh (meshInt n) b p < (n.x : Int) * n.y * n.z ∧
      SamePoint (2 * ε) (meshCoordinates (meshInt n) b (isPointStoredMesh (meshInt n) b p)) p := by
  obtain ⟨-, -, ix, bx⟩ := hb.x
  obtain ⟨-, -, iy, bY⟩ := hb.y
  obtain ⟨-, -, iz, bz⟩ := hb.z
  obtain ⟨mx, px⟩ := on_of_near hn.x.1 hp.1
  obtain ⟨my, py⟩ := on_of_near hn.y.1 hp.2.1
  obtain ⟨mz, pz⟩ := on_of_near hn.z.1 hp.2.2
  have d := stored_on hε hn bx bY bz px py pz
  refine ⟨d.bounds.1, d.bounds.2, ?_⟩
  rw [meshCoordinates_decode d]
  exact ⟨(cround_on hε hn.x.1 hn.x.2 bx px).2.2, (cround_on hε hn.y.1 hn.y.2 bY py).2.2, (cround_on hε hn.z.1 hn.z.2 bz pz).2.2⟩

theorem resid_inj {n : Nat} {a a' : Nat} {m m' i : Int} (ha : a < n) (ha' : a' < n)
    (h : ((a : Int) + m * n - i) % (n : Int) = ((a' : Int) + m' * n - i) % (n : Int)) : a = a' := by
  have e1 : ∀ (x y : Int), (x + y * n - i) = (x - i) + y * n := by intros; ring
  rw [e1, e1, Int.add_mul_emod_self_right, Int.add_mul_emod_self_right] at h
  have h2 : (n : Int) ∣ ((a : Int) - i) - (a' - i) := Int.ModEq.dvd (show ((a' : Int) - i) % n = ((a : Int) - i) % n from h.symm)
  obtain ⟨q, hq⟩ := h2
  have hq' : (a : Int) - a' = n * q := by linarith
  have hq0 : q = 0 := by
    rcases lt_trichotomy q 0 with hlt | h | hgt
    · have : (n : Int) * q ≤ n * (-1) := Int.mul_le_mul_of_nonneg_left (by omega) (by omega)
      omega
    · exact h
    · have : (n : Int) * 1 ≤ n * q := Int.mul_le_mul_of_nonneg_left (by omega) (by omega)
      omega
  rw [hq0] at hq'
  omega

theorem point_index_inj {ε : Rat} (hε : ε ≤ 1 / 10000000000) {n : V3 Nat} (hn : Sizes n) {o b : V3 Rat} (hb : SameMesh ε n o b) {p p' : V3 Rat}
    {g g' : Triples n} (hp : SamePoint ε p (gridPoint n o g.1 g.2.1 g.2.2)) (hp' : SamePoint ε p' (gridPoint n o g'.1 g'.2.1 g'.2.2))
    (h : isPointStoredMesh (meshInt n) b p = isPointStoredMesh (meshInt n) b p') : g = g' := by
  obtain ⟨-, -, ix, bx⟩ := hb.x
  obtain ⟨-, -, iy, bY⟩ := hb.y
  obtain ⟨-, -, iz, bz⟩ := hb.z
  obtain ⟨mx, px⟩ := on_of_near hn.x.1 hp.1
  obtain ⟨my, py⟩ := on_of_near hn.y.1 hp.2.1
  obtain ⟨mz, pz⟩ := on_of_near hn.z.1 hp.2.2
  obtain ⟨mx', px'⟩ := on_of_near hn.x.1 hp'.1
  obtain ⟨my', py'⟩ := on_of_near hn.y.1 hp'.2.1
  obtain ⟨mz', pz'⟩ := on_of_near hn.z.1 hp'.2.2
  have d := stored_on hε hn bx bY bz px py pz
  have d' := stored_on hε hn bx bY bz px' py' pz'
  rw [← h] at d'
  have q1 : (0 : Int) < (meshInt n).x := by have := hn.x.1; unfold meshInt; simp only; omega
  have q2 : (0 : Int) < (meshInt n).y := by have := hn.y.1; unfold meshInt; simp only; omega
  have q3 : (0 : Int) < (meshInt n).z := by have := hn.z.1; unfold meshInt; simp only; omega
  obtain ⟨e1, e2, e3⟩ := decode_unique q1 q2 q3 d d'
  obtain ⟨a, b', c⟩ := g
  obtain ⟨a', b'', c'⟩ := g'
  rw [Prod.mk.injEq, Prod.mk.injEq]
  exact ⟨Fin.ext (resid_inj a.isLt a'.isLt e1), Fin.ext (resid_inj b'.isLt b''.isLt e2), Fin.ext (resid_inj c.isLt c'.isLt e3)⟩

/-- Filling the energies with different indices. -/
theorem xmlFill_spec {s : Points} {ix : V3 Rat → Int} {rows : List (V3 Rat × List Rat)} (hix : ∀ r ∈ rows, s.getIndex r.1 = .ok (ix r.1))
    (hd : rows.Pairwise fun r t => ix r.1 ≠ ix t.1) (en0 : Int → Option (List Rat)) :
    ∃ en, xmlFill s rows en0 = .ok en ∧ (∀ r ∈ rows, en (ix r.1) = some r.2) ∧ ∀ j, (∀ r ∈ rows, ix r.1 ≠ j) → en j = en0 j := by
  induction rows generalizing en0 with
  | nil => exact ⟨en0, rfl, by simp, by simp⟩
  | cons r t ih =>
    rw [List.pairwise_cons] at hd
    obtain ⟨en, h1, h2, h3⟩ := ih (fun x hx => hix x (List.mem_cons_of_mem _ hx)) hd.2 (fun j => if j = ix r.1 then some r.2 else en0 j)
    refine ⟨en, ?_, ?_, ?_⟩
    · simp only [xmlFill]
      rw [hix r List.mem_cons_self]
      exact h1
    · intro x hx
      rcases List.mem_cons.mp hx with rfl | hx
      · rw [h3 _ (fun y hy => (hd.1 y hy).symm)]
        simp
      · exact h2 x hx
    · intro j hj
      rw [h3 j (fun y hy => hj y (List.mem_cons_of_mem _ hy)), if_neg]
      exact fun e => hj r List.mem_cons_self e.symm

theorem setMesh_ok {n : V3 Nat} (hn : Sizes n) {ε : Rat} {o b : V3 Rat} (hb : SameMesh ε n o b) :
    ∃ s : Points, setMesh (meshInt n) b = .ok s ∧ s.mesh = meshInt n ∧ s.offset = b ∧ s.explicitlyStored = false ∧ s.numPoints = n.x * n.y * n.z := by
  have q1 : ¬ (meshInt n).x ≤ 0 := by have := hn.x.1; unfold meshInt; simp only; omega
  have q2 : ¬ (meshInt n).y ≤ 0 := by have := hn.y.1; unfold meshInt; simp only; omega
  have q3 : ¬ (meshInt n).z ≤ 0 := by have := hn.z.1; unfold meshInt; simp only; omega
  unfold setMesh
  rw [if_neg q1, if_neg q2, if_neg q3, if_neg (fun h => absurd h.1 (not_lt.mpr hb.x.1)), if_neg (fun h => absurd h.1 (not_lt.mpr hb.y.1)),
    if_neg (fun h => absurd h.1 (not_lt.mpr hb.z.1))]
  refine ⟨_, rfl, rfl, rfl, rfl, ?_⟩
  unfold meshInt
  simp only
  have : ((n.x : Int) * n.y * n.z) = ((n.x * n.y * n.z : Nat) : Int) := by push_cast; ring
  rw [this, Int.toNat_natCast]

/-- The energies of the points of a mesh. -/
theorem fill_mesh {ε : Rat} (hε : ε ≤ 1 / 10000000000) {n : V3 Nat} (hn : Sizes n) {o : V3 Rat} {rows : List (V3 Rat × List Rat)}
    (h : IsMesh ε n o (rows.map Prod.fst)) :
    ∃ b s en, findMesh (rows.map Prod.fst) = .ok (meshInt n, b) ∧ SameMesh ε n o b ∧ setMesh (meshInt n) b = .ok s ∧ s.mesh = meshInt n ∧ s.offset = b ∧
      s.explicitlyStored = false ∧ s.numPoints = n.x * n.y * n.z ∧
      xmlFill s rows (fun _ => none) = .ok en ∧
      (∀ r ∈ rows, ∃ ik, 0 ≤ ik ∧ ik < (n.x : Int) * n.y * n.z ∧ en ik = some r.2 ∧ SamePoint (2 * ε) (meshCoordinates (meshInt n) b ik) r.1) ∧
      (∀ ik, 0 ≤ ik → ik < (n.x : Int) * n.y * n.z → ∃ r ∈ rows, en ik = some r.2 ∧ SamePoint (2 * ε) (meshCoordinates (meshInt n) b ik) r.1) := by
  obtain ⟨b, hm, hb⟩ := findMesh_on hε hn h
  obtain ⟨s, hs, s1, s2, s3, s4⟩ := setMesh_ok hn hb
  obtain ⟨f, hf, hpt⟩ := mesh_positions hε hn h
  have hlen : (rows.map Prod.fst).length = rows.length := List.length_map _
  have hg : ∀ i : Nat, ∀ hi : i < rows.length, ∃ g : Triples n, (f g).val = i ∧ SamePoint ε (rows[i].1) (gridPoint n o g.1 g.2.1 g.2.2) := by
    intro i hi
    obtain ⟨g, hg⟩ := hf.2 ⟨i, by rw [hlen]; exact hi⟩
    refine ⟨g, by rw [hg], ?_⟩
    have h1 := hpt g
    rw [hg] at h1
    simpa using h1
  have hidx : ∀ r ∈ rows, 0 ≤ isPointStoredMesh (meshInt n) b r.1 ∧ isPointStoredMesh (meshInt n) b r.1 < (n.x : Int) * n.y * n.z ∧
      SamePoint (2 * ε) (meshCoordinates (meshInt n) b (isPointStoredMesh (meshInt n) b r.1)) r.1 := by
    intro r hr
    obtain ⟨i, hi, rfl⟩ := List.mem_iff_getElem.mp hr
    obtain ⟨g, -, hp⟩ := hg i hi
    exact point_index hε hn hb hp
  have hget : ∀ r ∈ rows, s.getIndex r.1 = .ok (isPointStoredMesh (meshInt n) b r.1) := by
    intro r hr
    unfold Points.getIndex Points.isPointStored
    rw [s3, s1, s2]
    simp only [Bool.false_eq_true, if_false]
    rw [if_neg]
    have := (hidx r hr).1
    omega
  have hinj : ∀ i j : Nat, ∀ hi : i < rows.length, ∀ hj : j < rows.length,
      isPointStoredMesh (meshInt n) b rows[i].1 = isPointStoredMesh (meshInt n) b rows[j].1 → i = j := by
    intro i j hi hj he
    obtain ⟨g, h1, hp⟩ := hg i hi
    obtain ⟨g', h1', hp'⟩ := hg j hj
    have := point_index_inj hε hn hb hp hp' he
    rw [← h1, ← h1', this]
  have hd : rows.Pairwise fun r t => isPointStoredMesh (meshInt n) b r.1 ≠ isPointStoredMesh (meshInt n) b t.1 := by
    rw [List.pairwise_iff_getElem]
    intro i j hi hj hij he
    have := hinj i j hi hj he
    omega
  obtain ⟨en, e1, e2, -⟩ := xmlFill_spec hget hd (fun _ => none)
  refine ⟨b, s, en, hm, hb, hs, s1, s2, s3, s4, e1, ?_, ?_⟩
  · intro r hr
    obtain ⟨h1, h2, h3⟩ := hidx r hr
    exact ⟨_, h1, h2, e2 r hr, h3⟩
  · intro ik h0 h1
    have hN : (n.x : Int) * n.y * n.z = (rows.length : Int) := by
      rw [← hlen, h.length]
      push_cast
      ring
    let F : Fin rows.length → Fin rows.length := fun i => ⟨(isPointStoredMesh (meshInt n) b (rows[i.val]).1).toNat, by
      obtain ⟨h1, h2, -⟩ := hidx (rows[i.val]) (List.getElem_mem _)
      omega⟩
    have hF : Function.Injective F := by
      intro i j he
      have he' := congrArg Fin.val he
      simp only [F] at he'
      obtain ⟨h1, -, -⟩ := hidx (rows[i.val]) (List.getElem_mem _)
      obtain ⟨h2, -, -⟩ := hidx (rows[j.val]) (List.getElem_mem _)
      exact Fin.ext (hinj _ _ i.isLt j.isLt (by omega))
    obtain ⟨i, hi⟩ := (Finite.injective_iff_surjective.mp hF) ⟨ik.toNat, by omega⟩
    have hi' := congrArg Fin.val hi
    simp only [F] at hi'
    obtain ⟨h2, -, h3⟩ := hidx (rows[i.val]) (List.getElem_mem _)
    have he : isPointStoredMesh (meshInt n) b (rows[i.val]).1 = ik := by omega
    exact ⟨rows[i.val], List.getElem_mem _, he ▸ e2 _ (List.getElem_mem _), he ▸ h3⟩

theorem xmlRows_ok {inverse : M3 → M3} {f : XmlBands} {l : List KsEnergies} (h : ∀ e ∈ l, e.eigenvalues.length = f.nbnd) :
    xmlRows inverse f l = .ok (l.map fun e => ((inverse f.recCell).mulVec e.k, e.eigenvalues.map fun x => x * 2)) := by
  induction l with
  | nil => rfl
  | cons e t ih =>
    simp only [xmlRows, xmlRow]
    rw [if_neg (by rw [h e List.mem_cons_self]; omega), ih (fun x hx => h x (List.mem_cons_of_mem _ hx))]
    have : e.eigenvalues.take f.nbnd = e.eigenvalues := by rw [← h e List.mem_cons_self]; exact List.take_length
    rw [this]
    rfl

end Verif.Proofs
