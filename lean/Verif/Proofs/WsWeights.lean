import Verif.Proofs.DynMat2
import Mathlib.Tactic.FieldSimp
import Mathlib.Algebra.BigOperators.Field
import Mathlib.Algebra.Order.BigOperators.Group.Finset

namespace Verif.Model

open Verif.Spec

variable {A n1 n2 n3 : Nat}

theorem foldCell_eq (n : Nat) [NeZero n] (x : Int) : foldCell n x = x % n := by
  have hn : 0 < (n : Int) := by exact_mod_cast Nat.pos_of_ne_zero (NeZero.ne n)
  have h1 := Int.tmod_lt_of_pos (x + 1) hn
  have h2 : -(n : Int) < Int.tmod (x + 1) n := by
    have := Int.tmod_lt_of_pos (-(x + 1)) hn
    rw [Int.neg_tmod] at this
    omega
  have e1 : Int.tmod (Int.tmod (x + 1) n + n) n = (x + 1) % n := by
    rw [Int.tmod_eq_emod_of_nonneg (by omega), Int.add_emod_right]
    have : Int.tmod (x + 1) n = (x + 1) - n * Int.tdiv (x + 1) n := by
      have := Int.mul_tdiv_add_tmod (x + 1) n
      omega
    rw [this, Int.sub_mul_emod_self_left]
  have h3 := Int.emod_nonneg (x + 1) hn.ne'
  have h4 := Int.emod_lt_of_pos (x + 1) hn
  have h5 := Int.emod_nonneg x hn.ne'
  have h6 := Int.emod_lt_of_pos x hn
  unfold foldCell
  dsimp only
  rw [e1]
  have e3 : (x + 1) % n = (x % n + 1) % n := by rw [Int.emod_add_emod]
  by_cases hx : x % n + 1 = n
  · rw [hx, Int.emod_self] at e3
    rw [e3]; simp; omega
  · have e4 : (x % n + 1) % n = x % n + 1 := Int.emod_eq_of_lt (by omega) (by omega)
    rw [e3, e4]
    split_ifs <;> omega

theorem foldFin_eq_iff (n : Nat) [NeZero n] (x y : Int) :
    foldFin n x = foldFin n y ↔ (n : Int) ∣ x - y := by
  have hx := foldCell_range n x
  have hy := foldCell_range n y
  rw [Fin.ext_iff]
  simp only [foldFin]
  have : (foldCell n x).toNat = (foldCell n y).toNat ↔ foldCell n x = foldCell n y := by omega
  rw [this, foldCell_eq, foldCell_eq, Int.emod_eq_emod_iff_emod_sub_eq_zero, Int.dvd_iff_emod_eq_zero]

/-! ### The loop over the neighbours -/

/-- The comparison of one neighbour. -/
noncomputable def wsCk (r g : Vec3) : ℝ := vdot r g - vdot g g / 2

theorem wsWeightLoop_eq (r : Vec3) (l : List Vec3) : ∀ k : Nat,
    ((∃ g ∈ l, 1.0e-5 < wsCk r g) → wsWeightLoop r l k = 0) ∧
    ((∀ g ∈ l, wsCk r g ≤ 1.0e-5) → wsWeightLoop r l k =
      1 / ((k + (open scoped Classical in l.countP fun g => |wsCk r g| ≤ 1.0e-5) : Nat) : ℝ)) := by
  induction l with
  | nil => intro k; simp [wsWeightLoop]
  | cons x l ih =>
    intro k
    simp only [wsWeightLoop]
    by_cases hx : wsCk r x > 1.0e-5
    · have hx' : vdot r x - vdot x x / 2 > 1.0e-5 := hx
      rw [if_pos hx']
      refine ⟨fun _ => rfl, fun h => ?_⟩
      have := h x (by simp)
      linarith
    · have hx' : ¬ (vdot r x - vdot x x / 2 > 1.0e-5) := hx
      rw [if_neg hx']
      constructor
      · rintro ⟨g, hg, hgt⟩
        rcases List.mem_cons.mp hg with rfl | hg
        · exact absurd hgt hx
        · exact (ih _).1 ⟨g, hg, hgt⟩
      · intro h
        rw [(ih _).2 fun g hg => h g (List.mem_cons_of_mem _ hg)]
        congr 2
        by_cases hc : |wsCk r x| ≤ 1.0e-5
        · have hc' : |vdot r x - vdot x x / 2| ≤ 1.0e-5 := hc
          rw [if_pos hc', List.countP_cons_of_pos (by simpa using hc)]
          omega
        · have hc' : ¬ |vdot r x - vdot x x / 2| ≤ 1.0e-5 := hc
          rw [if_neg hc', List.countP_cons_of_neg (by simpa using hc)]

/-! ### Vocabulary of the specification -/

/-- A triple as a function. -/
def v3f (n : V3 Int) : Fin 3 → ℤ := ![n.x, n.y, n.z]

/-- The lattice vectors are the columns of the cell. -/
def colsOf (d : Mat3) : Fin 3 → Fin 3 → ℝ := fun k i => d i k

/-- The position difference of two atoms. -/
def PhCrystal.offset (c : PhCrystal A) (na nb : Fin A) : Fin 3 → ℝ := fun i => c.pos na i - c.pos nb i

theorem image_eq (d : Mat3) (t : Vec3) (n : V3 Int) :
    image (colsOf d) t (v3f n) = fun i => latVec d n i + t i := by
  funext i
  simp [image, colsOf, v3f, latVec, Fin.sum_univ_three]

theorem dist2_eq (d : Mat3) (t : Vec3) (n : V3 Int) :
    dist2 (colsOf d) t (v3f n) =
      vdot (fun i => latVec d n i + t i) (fun i => latVec d n i + t i) := by
  simp only [dist2, image_eq, Fin.sum_univ_three, vdot]; ring

/-- Shift by a vector of the supercell. -/
def shiftBy (n1 n2 n3 : Nat) (n g : V3 Int) : V3 Int :=
  ⟨n.x - n1 * g.x, n.y - n2 * g.y, n.z - n3 * g.z⟩

theorem v3f_shift (n g : V3 Int) : v3f (shiftBy n1 n2 n3 n g) =
    fun k => v3f n k - (![n1, n2, n3] k : Nat) * v3f g k := by
  funext k
  fin_cases k <;> simp [v3f, shiftBy]

theorem latVec_super (d : Mat3) (g : V3 Int) :
    latVec (superCell d n1 n2 n3) g = latVec d ⟨n1 * g.x, n2 * g.y, n3 * g.z⟩ := by
  funext i
  simp [latVec, superCell]; ring

/-- The comparison of a neighbour is half the difference of the squared distances. -/
theorem wsCk_eq (d : Mat3) (t : Vec3) (n g : V3 Int) :
    wsCk (fun i => latVec d n i + t i) (latVec (superCell d n1 n2 n3) g) =
      (dist2 (colsOf d) t (v3f n) - dist2 (colsOf d) t (v3f (shiftBy n1 n2 n3 n g))) / 2 := by
  rw [latVec_super, dist2_eq, dist2_eq]
  simp only [wsCk, vdot, latVec, shiftBy]
  push_cast
  ring

theorem mem_rws (d : Mat3) (x : Vec3) : x ∈ rwsList d ↔
    ∃ g : V3 Int, (-2 ≤ g.x ∧ g.x ≤ 2) ∧ (-2 ≤ g.y ∧ g.y ≤ 2) ∧ (-2 ≤ g.z ∧ g.z ≤ 2) ∧
      latVec d g = x ∧ vdot x x > 1.0e-6 := by
  simp only [rwsList, List.mem_filter, List.mem_map, mem_zBox, decide_eq_true_eq]
  constructor
  · rintro ⟨⟨g, ⟨h1, h2, h3⟩, rfl⟩, h4⟩
    exact ⟨g, h1, h2, h3, rfl, h4⟩
  · rintro ⟨g, h1, h2, h3, rfl, h4⟩
    exact ⟨⟨g, ⟨h1, h2, h3⟩, rfl⟩, h4⟩

theorem length_rws (d : Mat3) : (rwsList d).length ≤ 125 := by
  refine (List.length_filter_le _ _).trans ?_
  rw [List.length_map, length_zBox, length_zRange]
  decide

theorem dist2_super (d : Mat3) (g : V3 Int) :
    vdot (latVec (superCell d n1 n2 n3) g) (latVec (superCell d n1 n2 n3) g) =
      dist2 (colsOf d) 0 fun k => (![n1, n2, n3] k : Nat) * v3f g k := by
  have e : (fun k => ((![n1, n2, n3] k : Nat) : Int) * v3f g k) =
      v3f ⟨n1 * g.x, n2 * g.y, n3 * g.z⟩ := by
    funext k; fin_cases k <;> simp [v3f]
  rw [e, latVec_super, show (0 : Fin 3 → ℝ) = fun _ => 0 from rfl, dist2_eq]
  simp

theorem v3f_inj {a b : V3 Int} (h : v3f a = v3f b) : a = b := by
  have h0 := congrFun h 0
  have h1 := congrFun h 1
  have h2 := congrFun h 2
  simp only [v3f, Matrix.cons_val_zero, Matrix.cons_val_one, Matrix.cons_val] at h0 h1 h2
  cases a; cases b
  simp_all

/-- A neighbour of a compact supercell is in the list. -/
theorem neighbour_mem (c : PhCrystal A) (na nb : Fin A)
    (hc : CompactCell (colsOf c.cell) (c.offset na nb) ![n1, n2, n3]) (g : V3 Int)
    (hg : ∀ k, |v3f g k| ≤ 2) (h0 : v3f g ≠ 0) :
    latVec (superCell c.cell n1 n2 n3) g ∈ rwsList (superCell c.cell n1 n2 n3) := by
  refine (mem_rws _ _).mpr ⟨g, abs_le.mp (hg 0), abs_le.mp (hg 1), abs_le.mp (hg 2), rfl, ?_⟩
  rw [dist2_super]
  exact hc.apart _ h0

/-- A positive weight means a near image. -/
theorem near_of_pos (c : PhCrystal A) (n : V3 Int) (na nb : Fin A)
    (hc : CompactCell (colsOf c.cell) (c.offset na nb) ![n1, n2, n3])
    (h : wsCacheAt c n1 n2 n3 n na nb ≠ 0) :
    NearImage (colsOf c.cell) (c.offset na nb) ![n1, n2, n3] (v3f n) := by
  intro g hg
  by_contra hlt
  push Not at hlt
  refine h ?_
  have hg' : v3f ⟨g 0, g 1, g 2⟩ = g := by funext k; fin_cases k <;> rfl
  have e : (fun k => v3f n k - (![n1, n2, n3] k : Nat) * g k) =
      v3f (shiftBy n1 n2 n3 n ⟨g 0, g 1, g 2⟩) := by rw [v3f_shift, hg']
  have h0 : g ≠ 0 := by
    rintro rfl
    simp at hlt
    norm_num at hlt
  rw [e] at hlt
  have hck : 1.0e-5 < wsCk (fun i => latVec c.cell n i + c.offset na nb i)
      (latVec (superCell c.cell n1 n2 n3) ⟨g 0, g 1, g 2⟩) := by
    rw [wsCk_eq]
    norm_num at hlt ⊢
    linarith
  exact (wsWeightLoop_eq _ _ 1).1 ⟨_, neighbour_mem c na nb hc ⟨g 0, g 1, g 2⟩ (by rw [hg']; exact hg)
    (by rw [hg']; exact h0), hck⟩

/-- The neighbours at the same distance. -/
noncomputable def wsCount (c : PhCrystal A) (n1 n2 n3 : Nat) (n : V3 Int) (na nb : Fin A) : Nat :=
  open scoped Classical in
  (rwsList (superCell c.cell n1 n2 n3)).countP fun g =>
    |wsCk (fun i => latVec c.cell n i + c.offset na nb i) g| ≤ 1.0e-5

theorem weight_of_pos (c : PhCrystal A) (n : V3 Int) (na nb : Fin A)
    (h : wsCacheAt c n1 n2 n3 n na nb ≠ 0) :
    wsCacheAt c n1 n2 n3 n na nb = 1 / ((1 + wsCount c n1 n2 n3 n na nb : Nat) : ℝ) ∧
    ∀ g ∈ rwsList (superCell c.cell n1 n2 n3),
      wsCk (fun i => latVec c.cell n i + c.offset na nb i) g ≤ 1.0e-5 := by
  by_cases hex : ∃ g ∈ rwsList (superCell c.cell n1 n2 n3),
      1.0e-5 < wsCk (fun i => latVec c.cell n i + c.offset na nb i) g
  · exact absurd ((wsWeightLoop_eq _ _ 1).1 hex) h
  · push Not at hex
    exact ⟨(wsWeightLoop_eq _ _ 1).2 hex, hex⟩

theorem wsCount_le (c : PhCrystal A) (n : V3 Int) (na nb : Fin A) :
    wsCount c n1 n2 n3 n na nb ≤ 125 :=
  List.countP_le_length.trans (length_rws _)

/-- Equivalent cells with a positive weight are among the neighbours that are counted. -/
theorem count_ge (c : PhCrystal A) (na nb : Fin A)
    (hc : CompactCell (colsOf c.cell) (c.offset na nb) ![n1, n2, n3])
    (s : Finset (V3 Int))
    (hs : ∀ n ∈ s, wsCacheAt c n1 n2 n3 n na nb ≠ 0)
    (heq : ∀ n ∈ s, ∀ n' ∈ s, ∃ g, n' = shiftBy n1 n2 n3 n g)
    (n : V3 Int) (hn : n ∈ s) : s.card ≤ 1 + wsCount c n1 n2 n3 n na nb := by
  classical
  choose! g hg using fun n' hn' => heq n hn n' hn'
  have hbound : ∀ n' ∈ s, ∀ k, |v3f (g n') k| ≤ 2 := by
    intro n' hn'
    refine hc.near (v3f n) (v3f n') (v3f (g n')) ?_ (near_of_pos c n na nb hc (hs n hn))
      (near_of_pos c n' na nb hc (hs n' hn'))
    intro k
    conv_lhs => rw [hg n' hn', v3f_shift]
    ring
  have hne : ∀ n' ∈ s.erase n, v3f (g n') ≠ 0 := by
    intro n' hn' h0
    have hn2 := Finset.mem_erase.mp hn'
    refine hn2.1 (v3f_inj ?_)
    conv_lhs => rw [hg n' hn2.2, v3f_shift, h0]
    simp
  have hmem : ∀ n' ∈ s.erase n, latVec (superCell c.cell n1 n2 n3) (g n') ∈
      ((rwsList (superCell c.cell n1 n2 n3)).filter fun x =>
        |wsCk (fun i => latVec c.cell n i + c.offset na nb i) x| ≤ 1.0e-5).toFinset := by
    intro n' hn'
    have hn2 := Finset.mem_erase.mp hn'
    rw [List.mem_toFinset, List.mem_filter, decide_eq_true_eq]
    refine ⟨neighbour_mem c na nb hc _ (hbound n' hn2.2) (hne n' hn'), ?_⟩
    have h1 := near_of_pos c n na nb hc (hs n hn) (v3f (g n')) (hbound n' hn2.2)
    have h2 := near_of_pos c n' na nb hc (hs n' hn2.2) (fun k => - v3f (g n') k) (by
      intro k; rw [abs_neg]; exact hbound n' hn2.2 k)
    rw [wsCk_eq, ← hg n' hn2.2]
    rw [← v3f_shift, ← hg n' hn2.2] at h1
    have e : (fun k => v3f n' k - (![n1, n2, n3] k : Nat) * - v3f (g n') k) = v3f n := by
      have e3 : v3f n' = fun k => v3f n k - (![n1, n2, n3] k : Nat) * v3f (g n') k := by
        rw [← v3f_shift, ← hg n' hn2.2]
      funext k
      rw [congrFun e3 k]
      ring
    rw [e] at h2
    norm_num at h1 h2 ⊢
    rw [abs_le]
    constructor <;> linarith
  have hinj : Set.InjOn (fun n' => latVec (superCell c.cell n1 n2 n3) (g n')) (s.erase n) := by
    intro a ha b hb hab
    have ha2 := Finset.mem_erase.mp ha
    have hb2 := Finset.mem_erase.mp hb
    by_contra hne2
    have hd : (fun k => v3f (g a) k - v3f (g b) k) ≠ 0 := by
      intro h0
      refine hne2 (v3f_inj ?_)
      conv_lhs => rw [hg a ha2.2, v3f_shift]
      conv_rhs => rw [hg b hb2.2, v3f_shift]
      funext k
      have := congrFun h0 k
      simp only [Pi.zero_apply] at this
      have e : v3f (g a) k = v3f (g b) k := by linarith
      rw [e]
    have h3 := hc.apart _ hd
    have e : v3f ⟨(g a).x - (g b).x, (g a).y - (g b).y, (g a).z - (g b).z⟩ =
        fun k => v3f (g a) k - v3f (g b) k := by
      funext k; fin_cases k <;> simp [v3f]
    have h3 : (1.0e-6 : ℝ) < dist2 (colsOf c.cell) 0 fun k => (![n1, n2, n3] k : Nat) *
      v3f ⟨(g a).x - (g b).x, (g a).y - (g b).y, (g a).z - (g b).z⟩ k := by rw [e]; exact h3
    rw [← dist2_super] at h3
    have hz : latVec (superCell c.cell n1 n2 n3)
        ⟨(g a).x - (g b).x, (g a).y - (g b).y, (g a).z - (g b).z⟩ = 0 := by
      funext i
      have := congrFun hab i
      simp only [latVec] at this ⊢
      push_cast
      simp only [Pi.zero_apply]
      linarith
    rw [hz] at h3
    simp [vdot] at h3
    norm_num at h3
  have hcard := Finset.card_le_card_of_injOn _ hmem hinj
  rw [Finset.card_erase_of_mem hn] at hcard
  have h4 := hcard.trans (List.toFinset_card_le _)
  rw [← List.countP_eq_length_filter] at h4
  have h5 : (List.countP (fun x => decide (|wsCk (fun i => latVec c.cell n i + c.offset na nb i) x| ≤ 1.0e-5))
      (rwsList (superCell c.cell n1 n2 n3))) = wsCount c n1 n2 n3 n na nb := by
    unfold wsCount
    congr
  omega

/-- Sums of reciprocals of integers not less than the number of terms. -/
theorem reciprocal_sum {α : Type} (s : Finset α) (k : α → Nat) (hk : ∀ x ∈ s, s.card ≤ 1 + k x)
    (hb : ∀ x ∈ s, k x ≤ 125) :
    (∑ x ∈ s, 1 / ((1 + k x : Nat) : ℝ) = 1) ∨
      (∑ x ∈ s, 1 / ((1 + k x : Nat) : ℝ) ≤ 1 - 1.0e-5) := by
  classical
  rcases s.eq_empty_or_nonempty with rfl | hne
  · right; norm_num
  · have hpos : (0 : ℝ) < s.card := by exact_mod_cast hne.card_pos
    have hle : ∀ x ∈ s, 1 / ((1 + k x : Nat) : ℝ) ≤ 1 / (s.card : ℝ) := by
      intro x hx
      exact one_div_le_one_div_of_le hpos (by exact_mod_cast hk x hx)
    by_cases hall : ∀ x ∈ s, 1 + k x = s.card
    · left
      rw [Finset.sum_congr rfl fun x hx => by rw [hall x hx], Finset.sum_const, nsmul_eq_mul]
      field_simp
    · right
      push Not at hall
      obtain ⟨x, hx, hxne⟩ := hall
      have hx1 : s.card + 1 ≤ 1 + k x := by have := hk x hx; omega
      have h1 : 1 / ((1 + k x : Nat) : ℝ) ≤ 1 / ((s.card : ℝ) + 1) :=
        one_div_le_one_div_of_le (by linarith) (by exact_mod_cast hx1)
      rw [← Finset.add_sum_erase s _ hx]
      have h2 : ∑ y ∈ s.erase x, 1 / ((1 + k y : Nat) : ℝ) ≤
          ∑ _y ∈ s.erase x, 1 / (s.card : ℝ) :=
        Finset.sum_le_sum fun y hy => hle y (Finset.mem_of_mem_erase hy)
      rw [Finset.sum_const, nsmul_eq_mul, Finset.card_erase_of_mem hx,
        Nat.cast_sub hne.card_pos] at h2
      have hcard : (s.card : ℝ) ≤ 125 := by
        have := hb x hx
        exact_mod_cast (by omega : s.card ≤ 125)
      have h3 : 1 / ((s.card : ℝ) + 1) + ((s.card : ℝ) - (1 : Nat)) * (1 / s.card) =
          1 - 1 / (s.card * (s.card + 1)) := by
        push_cast
        field_simp
        ring
      have h4 : (1.0e-5 : ℝ) ≤ 1 / (s.card * (s.card + 1)) := by
        rw [le_div_iff₀ (by positivity)]
        norm_num
        nlinarith
      linarith

/-- The cells of the loops that are equivalent to a cell of the grid. -/
def classCells (n1 n2 n3 : Nat) [NeZero n1] [NeZero n2] [NeZero n3] (m1 : Fin n1) (m2 : Fin n2)
    (m3 : Fin n3) : List (V3 Int) :=
  (wsCells n1 n2 n3).filter fun n =>
    foldFin n1 n.x = m1 ∧ foldFin n2 n.y = m2 ∧ foldFin n3 n.z = m3

theorem class_sum [NeZero n1] [NeZero n2] [NeZero n3] (c : PhCrystal A) (na nb : Fin A)
    (hc : CompactCell (colsOf c.cell) (c.offset na nb) ![n1, n2, n3])
    (m1 : Fin n1) (m2 : Fin n2) (m3 : Fin n3) :
    (((classCells n1 n2 n3 m1 m2 m3).map fun n => wsCacheAt c n1 n2 n3 n na nb).sum = 1) ∨
    (((classCells n1 n2 n3 m1 m2 m3).map fun n => wsCacheAt c n1 n2 n3 n na nb).sum ≤ 1 - 1.0e-5) := by
  classical
  have hnd : (classCells n1 n2 n3 m1 m2 m3).Nodup := (nodup_zBox _).filter _
  rw [← List.sum_toFinset _ hnd]
  obtain ⟨s, hs⟩ : ∃ s, s = (classCells n1 n2 n3 m1 m2 m3).toFinset.filter
    fun n => wsCacheAt c n1 n2 n3 n na nb ≠ 0 := ⟨_, rfl⟩
  have e : ∑ n ∈ (classCells n1 n2 n3 m1 m2 m3).toFinset, wsCacheAt c n1 n2 n3 n na nb =
      ∑ n ∈ s, 1 / ((1 + wsCount c n1 n2 n3 n na nb : Nat) : ℝ) := by
    rw [hs, ← Finset.sum_filter_ne_zero]
    refine Finset.sum_congr rfl fun n hn => ?_
    exact (weight_of_pos c n na nb (Finset.mem_filter.mp hn).2).1
  rw [e]
  refine reciprocal_sum s _ (count_ge c na nb hc s ?_ ?_) fun n _ => wsCount_le c n na nb
  · intro n hn
    rw [hs] at hn
    exact (Finset.mem_filter.mp hn).2
  · intro n hn n' hn'
    rw [hs, Finset.mem_filter, List.mem_toFinset, classCells, List.mem_filter,
      decide_eq_true_eq] at hn hn'
    obtain ⟨⟨_, h1, h2, h3⟩, _⟩ := hn
    obtain ⟨⟨_, h1', h2', h3'⟩, _⟩ := hn'
    obtain ⟨gx, hx⟩ := (foldFin_eq_iff n1 n.x n'.x).mp (h1.trans h1'.symm)
    obtain ⟨gy, hy⟩ := (foldFin_eq_iff n2 n.y n'.y).mp (h2.trans h2'.symm)
    obtain ⟨gz, hz⟩ := (foldFin_eq_iff n3 n.z n'.z).mp (h3.trans h3'.symm)
    refine ⟨⟨gx, gy, gz⟩, ?_⟩
    cases n'
    simp only [shiftBy, V3.mk.injEq] at *
    refine ⟨?_, ?_, ?_⟩ <;> linarith

/-- If the check at the end of the initialization passes, the weights of equivalent cells sum to one. -/
theorem partition_of_check [NeZero n1] [NeZero n2] [NeZero n3] (c : PhCrystal A)
    (hc : ∀ na nb, CompactCell (colsOf c.cell) (c.offset na nb) ![n1, n2, n3])
    (h : wsCheck c n1 n2 n3) : Partition c n1 n2 n3 := by
  intro na nb m1 m2 m3
  have hcl := class_sum (n1 := n1) (n2 := n2) (n3 := n3) c na nb (hc na nb)
  rcases hcl m1 m2 m3 with h1 | h1
  · exact h1
  exfalso
  obtain ⟨w, hw⟩ : ∃ w : Fin n1 × Fin n2 × Fin n3 → ℝ, w = fun m =>
    ((classCells n1 n2 n3 m.1 m.2.1 m.2.2).map fun n => wsCacheAt c n1 n2 n3 n na nb).sum := ⟨_, rfl⟩
  have htot : ((wsCells n1 n2 n3).map fun n => wsCacheAt c n1 n2 n3 n na nb).sum = ∑ m, w m := by
    rw [hw]
    simp only [classCells, sum_filter_map, decide_eq_true_eq]
    rw [← sum_list_finset]
    refine congrArg _ (List.map_congr_left fun n _ => ?_)
    rw [Finset.sum_eq_single (foldFin n1 n.x, foldFin n2 n.y, foldFin n3 n.z)]
    · simp
    · intro m _ hm
      rw [if_neg]
      rintro ⟨a, b, d⟩
      exact hm (Prod.ext a.symm (Prod.ext b.symm d.symm))
    · simp
  have hle : ∀ m, w m ≤ 1 := by
    intro m
    rw [hw]
    rcases hcl m.1 m.2.1 m.2.2 with h2 | h2
    · exact le_of_eq h2
    · exact h2.trans (by norm_num)
  have hcard : (Fintype.card (Fin n1 × Fin n2 × Fin n3) : ℝ) = (n1 : ℝ) * n2 * n3 := by
    simp [Fintype.card_prod, mul_assoc]
  have hsum : ∑ m, w m ≤ (n1 : ℝ) * n2 * n3 - 1.0e-5 := by
    rw [← hcard, ← Finset.card_univ]
    have e := Finset.add_sum_erase Finset.univ w (Finset.mem_univ (m1, m2, m3))
    have h3 : ∑ m ∈ Finset.univ.erase (m1, m2, m3), w m ≤
        ∑ _m ∈ Finset.univ.erase (m1, m2, m3), (1 : ℝ) := Finset.sum_le_sum fun m _ => hle m
    rw [Finset.sum_const, nsmul_eq_mul, mul_one, Finset.card_erase_of_mem (Finset.mem_univ _),
      Nat.cast_sub (Finset.card_pos.mpr ⟨(m1, m2, m3), Finset.mem_univ _⟩)] at h3
    have h4 : w (m1, m2, m3) ≤ 1 - 1.0e-5 := by rw [hw]; exact h1
    push_cast at h3
    linarith
  refine h na nb ?_
  rw [htot, gt_iff_lt, lt_abs]
  right
  norm_num at hsum ⊢
  linarith

end Verif.Model
