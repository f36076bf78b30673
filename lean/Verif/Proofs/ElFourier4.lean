import Verif.Proofs.ElFourier3
import Verif.Props.Points

/-!
# Fourier interpolation: completeness of the lattice vectors
-/
namespace Verif.Model

/-- The lattice vectors contain one of each class of the lattice modulo the supercell. -/
def LatticeComplete (d : Mat3) (grid : V3 Int) (vecs : List RVec) : Prop :=
  ∀ n : V3 Int, ∃ j : V3 Int, ∃ p ∈ vecs,
    p.1 = matVec d (toVec ⟨n.x + j.x * grid.x, n.y + j.y * grid.y, n.z + j.z * grid.z⟩)

/-- Direct and reciprocal vectors. -/
def DualCells (d b : Mat3) : Prop := ∀ i j, (∑ k, d k i * b k j) = if i = j then 2 * Real.pi else 0

theorem dual_dot {d b : Mat3} (h : DualCells d b) (kappa r : Vec3) :
    vdot (matVec b kappa) (matVec d r) = 2 * Real.pi * ∑ a, kappa a * r a := by
  have h' : ∀ i j, d 0 i * b 0 j + d 1 i * b 1 j + d 2 i * b 2 j = if i = j then 2 * Real.pi else 0 := by
    intro i j; rw [← h i j, Fin.sum_univ_three]
  have h00 := h' 0 0; have h01 := h' 0 1; have h02 := h' 0 2
  have h10 := h' 1 0; have h11 := h' 1 1; have h12 := h' 1 2
  have h20 := h' 2 0; have h21 := h' 2 1; have h22 := h' 2 2
  simp only [if_true, Fin.reduceEq, if_false] at h00 h01 h02 h10 h11 h12 h20 h21 h22
  simp only [vdot, matVec, Fin.sum_univ_three]
  linear_combination (kappa 0 * r 0) * h00 + (kappa 1 * r 0) * h01 + (kappa 2 * r 0) * h02 +
    (kappa 0 * r 1) * h10 + (kappa 1 * r 1) * h11 + (kappa 2 * r 1) * h12 +
    (kappa 0 * r 2) * h20 + (kappa 1 * r 2) * h21 + (kappa 2 * r 2) * h22

theorem star_unitWave {d b : Mat3} (h : DualCells d b) (kappa r : Vec3) (g : Nat) :
    starFunction (matVec b kappa) (matVec d r, g) = unitWave (∑ a, kappa a * r a) / (g : ℂ) := by
  unfold starFunction unitWave
  rw [dual_dot h]
  push_cast
  ring_nf

section
open Verif.Props

theorem stars_independent {d b : Mat3} (h : DualCells d b) (grid : V3 Int) (hm : PosMesh grid) (offset : V3 Rat)
    {n : Nat} (hn : ((n + 1 : Nat) : Int) = grid.x * grid.y * grid.z) (vecs : List RVec)
    (hdeg : ∀ p ∈ vecs, 1 ≤ p.2) (hc : LatticeComplete d grid vecs) (x : Fin n → ℂ)
    (hx : ∀ p ∈ vecs, ∑ i, x i * starDiff (fun i : Fin (n + 1) => matVec b (realCoords (meshCoordinates grid offset i.1))) p i = 0) :
    x = 0 := by
  obtain ⟨y, hy⟩ : ∃ y : Fin (n + 1) → ℂ, y = Fin.cons (-∑ i, x i) x := ⟨_, rfl⟩
  obtain ⟨kap, hkap⟩ : ∃ kap : Fin (n + 1) → Vec3, kap = fun i => realCoords (meshCoordinates grid offset i.1) := ⟨_, rfl⟩
  have hb : ∀ i : Fin (n + 1), (0 : Int) ≤ i.1 ∧ (i.1 : Int) < grid.x * grid.y * grid.z := by
    intro i
    rw [← hn]
    have := i.2
    omega
  have hcoord : ∀ i, ∃ a : Fin 3 → ℤ, ∀ c, kap i c * ![(grid.x : ℝ), grid.y, grid.z] c =
      a c + realCoords offset c * ![(grid.x : ℝ), grid.y, grid.z] c := by
    intro i
    obtain ⟨a, b, c, dd⟩ := exists_decode hm.1 hm.2.1 hm.2.2 (hb i).1 (hb i).2
    have e := meshCoordinates_decode (offset := offset) dd
    have gx : (grid.x : ℝ) ≠ 0 := by exact_mod_cast hm.1.ne'
    have gy : (grid.y : ℝ) ≠ 0 := by exact_mod_cast hm.2.1.ne'
    have gz : (grid.z : ℝ) ≠ 0 := by exact_mod_cast hm.2.2.ne'
    refine ⟨![a, b, c], fun q => ?_⟩
    rw [hkap]
    simp only [e, realCoords]
    fin_cases q
    · simp; field_simp
    · simp; field_simp
    · simp; field_simp
  have hy0 : y = 0 := by
    refine waves_independent kap ?_ y ?_
    · intro i j hij
      obtain ⟨n0, h0⟩ := hij 0
      obtain ⟨n1, h1⟩ := hij 1
      obtain ⟨n2, h2⟩ := hij 2
      rw [hkap] at h0 h1 h2
      simp only [realCoords, Matrix.cons_val_zero, Matrix.cons_val_one, Matrix.cons_val] at h0 h1 h2
      have := C12_injective grid offset hm i.1 j.1 (hb i) (hb j) ⟨⟨n0, n1, n2⟩, by
        have e0 : (meshCoordinates grid offset i.1).x = (meshCoordinates grid offset j.1).x + n0 := by exact_mod_cast h0
        have e1 : (meshCoordinates grid offset i.1).y = (meshCoordinates grid offset j.1).y + n1 := by exact_mod_cast h1
        have e2 : (meshCoordinates grid offset i.1).z = (meshCoordinates grid offset j.1).z + n2 := by exact_mod_cast h2
        cases hmi : meshCoordinates grid offset i.1
        rw [hmi] at e0 e1 e2
        simp only at e0 e1 e2
        simp only [translate, e0, e1, e2]⟩
      exact Fin.ext (by exact_mod_cast this)
    · intro m
      obtain ⟨j, p, hp, hpe⟩ := hc ⟨m 0, m 1, m 2⟩
      have hg : (p.2 : ℂ) ≠ 0 := by
        have := hdeg p hp
        exact_mod_cast (show p.2 ≠ 0 by omega)
      obtain ⟨r, hr⟩ : ∃ r : Vec3, r = toVec ⟨m 0 + j.x * grid.x, m 1 + j.y * grid.y, m 2 + j.z * grid.z⟩ := ⟨_, rfl⟩
      have hp' : p = (matVec d r, p.2) := by rw [hr, ← hpe]
      have hs : ∀ i, starFunction (matVec b (kap i)) p = unitWave (∑ a, kap i a * r a) / (p.2 : ℂ) := by
        intro i
        rw [hp']
        exact star_unitWave h (kap i) r p.2
      have hw : ∀ i, unitWave (∑ a, kap i a * r a) = unitWave (∑ a, kap i a * (m a : ℝ)) *
          unitWave (∑ a, realCoords offset a * ![(grid.x : ℝ), grid.y, grid.z] a * ![(j.x : ℝ), j.y, j.z] a) := by
        intro i
        obtain ⟨a, ha⟩ := hcoord i
        have a0 := ha 0; have a1 := ha 1; have a2 := ha 2
        have : ∑ c, kap i c * r c = (∑ c, kap i c * (m c : ℝ)) +
            ((∑ c, realCoords offset c * ![(grid.x : ℝ), grid.y, grid.z] c * ![(j.x : ℝ), j.y, j.z] c) +
            ((a 0 * j.x + a 1 * j.y + a 2 * j.z : ℤ) : ℝ)) := by
          rw [hr]
          simp only [Fin.sum_univ_three, toVec, Matrix.cons_val_zero, Matrix.cons_val_one, Matrix.cons_val] at a0 a1 a2 ⊢
          push_cast
          linear_combination (j.x : ℝ) * a0 + (j.y : ℝ) * a1 + (j.z : ℝ) * a2
        rw [this, unitWave_add, unitWave_add, unitWave_int, mul_one]
      have h1 := hx p hp
      have h2 : ∑ i, y i * starFunction (matVec b (kap i)) p = 0 := by
        rw [Fin.sum_univ_succ, hy]
        simp only [Fin.cons_zero, Fin.cons_succ]
        rw [← h1]
        unfold starDiff
        rw [hkap]
        simp only [mul_sub, Finset.sum_sub_distrib, ← Finset.sum_mul]
        ring
      simp only [hs, hw] at h2
      obtain ⟨w, hw'⟩ : ∃ w, w = unitWave (∑ a, realCoords offset a * ![(grid.x : ℝ), grid.y, grid.z] a *
        ![(j.x : ℝ), j.y, j.z] a) := ⟨_, rfl⟩
      rw [← hw'] at h2
      have hw0 : w ≠ 0 := by rw [hw']; unfold unitWave; exact Complex.exp_ne_zero _
      have h3 : (∑ i, y i * unitWave (∑ a, kap i a * (m a : ℝ))) * (w / (p.2 : ℂ)) = 0 := by
        rw [← h2, Finset.sum_mul]
        refine Finset.sum_congr rfl fun i _ => ?_
        ring
      exact (mul_eq_zero.mp h3).resolve_right (div_ne_zero hw0 hg)
  funext i
  have := congrFun hy0 i.succ
  rw [hy, Fin.cons_succ] at this
  exact this

end

/-! ## Orthogonal cells -/

theorem vnorm_sq (v : Vec3) : vnorm v ^ 2 = v 0 ^ 2 + v 1 ^ 2 + v 2 ^ 2 := by
  unfold vnorm
  rw [Real.sq_sqrt]
  · simp only [vdot]; ring
  · simp only [vdot]; nlinarith [sq_nonneg (v 0), sq_nonneg (v 1), sq_nonneg (v 2)]

theorem vnorm_le {v w : Vec3} (h : v 0 ^ 2 + v 1 ^ 2 + v 2 ^ 2 ≤ w 0 ^ 2 + w 1 ^ 2 + w 2 ^ 2) : vnorm v ≤ vnorm w := by
  rw [← vnorm_sq, ← vnorm_sq] at h
  exact (sq_le_sq₀ (vnorm_nonneg _) (vnorm_nonneg _)).mp h

theorem centred (g : Int) (hg : 0 < g) (n : Int) : ∃ v j : Int, v = n + j * g ∧ 2 * |v| ≤ g := by
  have h1 := Int.emod_nonneg n hg.ne'
  have h2 := Int.emod_lt_of_pos n hg
  have h3 := Int.emod_add_mul_ediv n g
  by_cases h : 2 * (n % g) ≤ g
  · refine ⟨n % g, -(n / g), ?_, ?_⟩
    · linarith [mul_comm g (n / g)]
    · rw [abs_of_nonneg h1]; exact h
  · refine ⟨n % g - g, -(n / g) - 1, ?_, ?_⟩
    · linarith [mul_comm g (n / g)]
    · rw [abs_of_nonpos (by omega)]; omega

theorem centred_min (g v j : Int) (hv : 2 * |v| ≤ g) : v ^ 2 ≤ (v - j * g) ^ 2 := by
  rw [sq_le_sq]
  by_cases hj : j = 0
  · subst hj; simp
  · have h1 : |j * g| ≥ g := by
      rw [abs_mul]
      have : 1 ≤ |j| := Int.one_le_abs hj
      have hg : 0 ≤ |g| := abs_nonneg g
      have := le_abs_self g
      nlinarith
    have h2 : |j * g| ≤ |v - j * g| + |v| := by
      have := abs_sub_abs_le_abs_sub (j * g) v
      rw [abs_sub_comm (j * g) v] at this
      linarith
    linarith

/-- A cell with orthogonal lattice vectors. -/
def Orthogonal (d : Mat3) : Prop := ∀ a b, a ≠ b → ∑ k, d k a * d k b = 0

theorem orthogonal_norm {d : Mat3} (h : Orthogonal d) (v : Vec3) :
    (matVec d v 0) ^ 2 + (matVec d v 1) ^ 2 + (matVec d v 2) ^ 2 =
      (∑ k, d k 0 ^ 2) * v 0 ^ 2 + (∑ k, d k 1 ^ 2) * v 1 ^ 2 + (∑ k, d k 2 ^ 2) * v 2 ^ 2 := by
  have h01 := h 0 1 (by decide)
  have h02 := h 0 2 (by decide)
  have h12 := h 1 2 (by decide)
  simp only [Fin.sum_univ_three] at h01 h02 h12 ⊢
  simp only [matVec, vdot]
  linear_combination (2 * v 0 * v 1) * h01 + (2 * v 0 * v 2) * h02 + (2 * v 1 * v 2) * h12

theorem orthogonal_complete {d : Mat3} (h : Orthogonal d) (grid : V3 Int) (hx : 0 < grid.x) (hy : 0 < grid.y)
    (hz : 0 < grid.z) (cutoff : ℝ) (h1 : 1 ≤ cutoff) (h2 : cutoff < 2147483648) (v : FourierVectors)
    (hv : setPositionVectors d grid cutoff = .ok v) : LatticeComplete d grid v.vecs := by
  obtain ⟨v', hv', _, hmem⟩ := setPositionVectors_spec d grid hx hy hz cutoff h1 h2
  rw [hv] at hv'
  cases hv'
  intro n
  have hnx : 1 ≤ ⌊cutoff⌋ := Int.le_floor.mpr (by exact_mod_cast h1)
  obtain ⟨a, ja, ha, ha2⟩ := centred grid.x hx n.x
  obtain ⟨b, jb, hb, hb2⟩ := centred grid.y hy n.y
  obtain ⟨c, jc, hc, hc2⟩ := centred grid.z hz n.z
  obtain ⟨g, _, hg⟩ := kept_of_min d grid ⌊cutoff⌋ (by omega) ⟨a, b, c⟩ (by
    intro j
    refine vnorm_le ?_
    rw [orthogonal_norm h, orthogonal_norm h]
    have key : ∀ (g v j : Int), 2 * |v| ≤ g → (v : ℝ) ^ 2 ≤ ((v - j * g : Int) : ℝ) ^ 2 := by
      intro g v j hv
      exact_mod_cast centred_min g v j hv
    have e0 : (0 : ℝ) ≤ ∑ k, d k 0 ^ 2 := Finset.sum_nonneg fun k _ => sq_nonneg _
    have e1 : (0 : ℝ) ≤ ∑ k, d k 1 ^ 2 := Finset.sum_nonneg fun k _ => sq_nonneg _
    have e2 : (0 : ℝ) ≤ ∑ k, d k 2 ^ 2 := Finset.sum_nonneg fun k _ => sq_nonneg _
    exact add_le_add (add_le_add (mul_le_mul_of_nonneg_left (key _ _ _ ha2) e0)
      (mul_le_mul_of_nonneg_left (key _ _ _ hb2) e1)) (mul_le_mul_of_nonneg_left (key _ _ _ hc2) e2))
  refine ⟨⟨ja, jb, jc⟩, (matVec d (toVec ⟨a, b, c⟩), g), (hmem _).mpr ⟨⟨a, b, c⟩, ?_, rfl, hg⟩, ?_⟩
  · unfold wsBox
    rw [mem_zBox]
    have key : ∀ (g v : Int), 0 < g → 2 * |v| ≤ g → -(⌊cutoff⌋ * g) ≤ v ∧ v ≤ ⌊cutoff⌋ * g := by
      intro g v hg hv
      have : g ≤ ⌊cutoff⌋ * g := by nlinarith
      have h3 := abs_nonneg v
      exact abs_le.mp (by linarith)
    exact ⟨key _ _ hx ha2, key _ _ hy hb2, key _ _ hz hc2⟩
  · rw [← ha, ← hb, ← hc]

/-! ## Large cutoffs -/

theorem component_le (v : Vec3) (a : Fin 3) : |v a| ≤ vnorm v := by
  refine abs_le_of_sq_le_sq ?_ (vnorm_nonneg v)
  rw [vnorm_sq]
  fin_cases a
  · simp only [Fin.zero_eta, Fin.isValue]; nlinarith [sq_nonneg (v 1), sq_nonneg (v 2)]
  · simp only [Fin.mk_one, Fin.isValue]; nlinarith [sq_nonneg (v 0), sq_nonneg (v 2)]
  · simp only [Fin.reduceFinMk, Fin.isValue]; nlinarith [sq_nonneg (v 0), sq_nonneg (v 1)]

/-- The components of a lattice vector are bounded by its length. -/
theorem bounded_components {d : Mat3} (hd : d.det ≠ 0) : ∃ C : ℝ, 0 ≤ C ∧ ∀ v a, |v a| ≤ C * vnorm (matVec d v) := by
  refine ⟨∑ a, ∑ b, |d⁻¹ a b|, Finset.sum_nonneg fun a _ => Finset.sum_nonneg fun b _ => abs_nonneg _, fun v a => ?_⟩
  have hu : IsUnit d.det := isUnit_iff_ne_zero.mpr hd
  have e : v = d⁻¹.mulVec (matVec d v) := by
    rw [matVec_eq, Matrix.mulVec_mulVec, Matrix.nonsing_inv_mul d hu, Matrix.one_mulVec]
  calc |v a| = |∑ b, d⁻¹ a b * matVec d v b| := congrArg abs (congrFun e a)
    _ ≤ ∑ b, |d⁻¹ a b * matVec d v b| := Finset.abs_sum_le_sum_abs _ _
    _ ≤ ∑ b, |d⁻¹ a b| * vnorm (matVec d v) := Finset.sum_le_sum fun b _ => by
        rw [abs_mul]; exact mul_le_mul_of_nonneg_left (component_le _ _) (abs_nonneg _)
    _ = (∑ b, |d⁻¹ a b|) * vnorm (matVec d v) := by rw [Finset.sum_mul]
    _ ≤ (∑ a, ∑ b, |d⁻¹ a b|) * vnorm (matVec d v) := by
        refine mul_le_mul_of_nonneg_right ?_ (vnorm_nonneg _)
        exact Finset.single_le_sum (f := fun a => ∑ b, |d⁻¹ a b|)
          (fun a _ => Finset.sum_nonneg fun b _ => abs_nonneg _) (Finset.mem_univ a)

/-- Every class has a shortest vector. -/
theorem shortest_exists {d : Mat3} (hd : d.det ≠ 0) (grid n : V3 Int) (hx : 0 < grid.x) (hy : 0 < grid.y)
    (hz : 0 < grid.z) : ∃ j0 : V3 Int, ∀ j : V3 Int,
      vnorm (matVec d (toVec (offsetBy grid n j0))) ≤ vnorm (matVec d (toVec (offsetBy grid n j))) := by
  obtain ⟨C, hC, hb⟩ := bounded_components hd
  obtain ⟨B, hB⟩ : ∃ B : ℝ, B = C * vnorm (matVec d (toVec n)) := ⟨_, rfl⟩
  obtain ⟨M, hM⟩ : ∃ M : Int, M = |n.x| + |n.y| + |n.z| + ⌈B⌉ := ⟨_, rfl⟩
  have hfin : ({j : V3 Int | vnorm (matVec d (toVec (offsetBy grid n j))) ≤ vnorm (matVec d (toVec n))}).Finite := by
    refine Set.Finite.subset (List.finite_toSet (zBox ⟨M, M, M⟩)) fun j hj => ?_
    have hj : vnorm (matVec d (toVec (offsetBy grid n j))) ≤ vnorm (matVec d (toVec n)) := hj
    have hbd : ∀ a, |toVec (offsetBy grid n j) a| ≤ B := fun a =>
      (hb _ a).trans (by rw [hB]; exact mul_le_mul_of_nonneg_left hj hC)
    have key : ∀ (m g j : Int), 0 < g → |((m - j * g : Int) : ℝ)| ≤ B → |j| ≤ |m| + ⌈B⌉ := by
      intro m g j hg h
      have h1 : |m - j * g| ≤ ⌈B⌉ := by
        have : ((|m - j * g| : Int) : ℝ) ≤ B := by rw [Int.cast_abs]; exact h
        exact_mod_cast this.trans (Int.le_ceil B)
      have h2 : |j * g| ≤ |m| + |m - j * g| := by
        have := abs_sub_abs_le_abs_sub (j * g) m
        rw [abs_sub_comm (j * g) m] at this
        linarith
      have h3 : |j| ≤ |j * g| := by
        rw [abs_mul, abs_of_pos hg]
        nlinarith [abs_nonneg j]
      linarith
    have k0 := key n.x grid.x j.x hx (hbd 0)
    have k1 := key n.y grid.y j.y hy (hbd 1)
    have k2 := key n.z grid.z j.z hz (hbd 2)
    have p0 := abs_nonneg n.x
    have p1 := abs_nonneg n.y
    have p2 := abs_nonneg n.z
    show j ∈ zBox ⟨M, M, M⟩
    rw [mem_zBox]
    exact ⟨abs_le.mp (by simp only; omega), abs_le.mp (by simp only; omega), abs_le.mp (by simp only; omega)⟩
  have hne : ({j : V3 Int | vnorm (matVec d (toVec (offsetBy grid n j))) ≤ vnorm (matVec d (toVec n))}).Nonempty :=
    ⟨⟨0, 0, 0⟩, by
      show vnorm (matVec d (toVec (offsetBy grid n ⟨0, 0, 0⟩))) ≤ _
      have : offsetBy grid n ⟨0, 0, 0⟩ = n := by cases n; simp [offsetBy]
      rw [this]⟩
  obtain ⟨j0, h0, hmin⟩ := Set.exists_min_image _ (fun j => vnorm (matVec d (toVec (offsetBy grid n j)))) hfin hne
  refine ⟨j0, fun j => ?_⟩
  by_cases hj : vnorm (matVec d (toVec (offsetBy grid n j))) ≤ vnorm (matVec d (toVec n))
  · exact hmin j hj
  · exact (show vnorm (matVec d (toVec (offsetBy grid n j0))) ≤ vnorm (matVec d (toVec n)) from h0).trans (not_le.mp hj).le

/-- For every cell and grid all large enough cutoffs give a complete set of lattice vectors. -/
theorem large_complete {d : Mat3} (hd : d.det ≠ 0) (grid : V3 Int) (hx : 0 < grid.x) (hy : 0 < grid.y)
    (hz : 0 < grid.z) : ∃ N : ℝ, ∀ cutoff, N ≤ cutoff → 1 ≤ cutoff → cutoff < 2147483648 → ∀ v,
      setPositionVectors d grid cutoff = .ok v → LatticeComplete d grid v.vecs := by
  choose j0 hj0 using fun n : V3 Int => shortest_exists hd grid n hx hy hz
  obtain ⟨M, hM⟩ : ∃ M : Int, ∀ n ∈ zBox grid, |(offsetBy grid n (j0 n)).x| ≤ M ∧ |(offsetBy grid n (j0 n)).y| ≤ M ∧
      |(offsetBy grid n (j0 n)).z| ≤ M := by
    generalize zBox grid = l
    induction l with
    | nil => exact ⟨0, by simp⟩
    | cons a l ih =>
      obtain ⟨M, hM⟩ := ih
      obtain ⟨w, hw⟩ : ∃ w, w = offsetBy grid a (j0 a) := ⟨_, rfl⟩
      refine ⟨max M (|w.x| + |w.y| + |w.z|), fun n hn => ?_⟩
      have p0 := abs_nonneg w.x
      have p1 := abs_nonneg w.y
      have p2 := abs_nonneg w.z
      rcases List.mem_cons.mp hn with rfl | hn
      · rw [← hw]
        have := le_max_right M (|w.x| + |w.y| + |w.z|)
        omega
      · have := hM n hn
        have := le_max_left M (|w.x| + |w.y| + |w.z|)
        omega
  refine ⟨M, fun cutoff hN h1 h2 v hv => ?_⟩
  obtain ⟨v', hv', _, hmem⟩ := setPositionVectors_spec d grid hx hy hz cutoff h1 h2
  rw [hv] at hv'
  cases hv'
  intro n
  have hnx : 1 ≤ ⌊cutoff⌋ := Int.le_floor.mpr (by exact_mod_cast h1)
  have hMx : M ≤ ⌊cutoff⌋ := Int.le_floor.mpr hN
  obtain ⟨m, hm⟩ : ∃ m : V3 Int, m = ⟨n.x % grid.x, n.y % grid.y, n.z % grid.z⟩ := ⟨_, rfl⟩
  have hmb : m ∈ zBox grid := by
    rw [mem_zBox, hm]
    have a1 := Int.emod_nonneg n.x hx.ne'
    have a2 := Int.emod_lt_of_pos n.x hx
    have a3 := Int.emod_nonneg n.y hy.ne'
    have a4 := Int.emod_lt_of_pos n.y hy
    have a5 := Int.emod_nonneg n.z hz.ne'
    have a6 := Int.emod_lt_of_pos n.z hz
    simp only
    omega
  obtain ⟨w, hw⟩ : ∃ w, w = offsetBy grid m (j0 m) := ⟨_, rfl⟩
  have hwb := hM m hmb
  rw [← hw] at hwb
  obtain ⟨g, _, hg⟩ := kept_of_min d grid ⌊cutoff⌋ (by omega) w (by
    intro j
    have := hj0 m ⟨(j0 m).x + j.x, (j0 m).y + j.y, (j0 m).z + j.z⟩
    rw [← hw] at this
    have e : offsetBy grid m ⟨(j0 m).x + j.x, (j0 m).y + j.y, (j0 m).z + j.z⟩ = offsetBy grid w j := by
      rw [hw]
      simp only [offsetBy, V3.mk.injEq]
      exact ⟨by ring, by ring, by ring⟩
    rwa [e] at this)
  refine ⟨⟨-(n.x / grid.x) - (j0 m).x, -(n.y / grid.y) - (j0 m).y, -(n.z / grid.z) - (j0 m).z⟩, (matVec d (toVec w), g),
    (hmem _).mpr ⟨w, ?_, rfl, hg⟩, ?_⟩
  · unfold wsBox
    rw [mem_zBox]
    have key : ∀ (g v : Int), 0 < g → |v| ≤ M → -(⌊cutoff⌋ * g) ≤ v ∧ v ≤ ⌊cutoff⌋ * g := by
      intro g v hg hv
      have h3 : ⌊cutoff⌋ ≤ ⌊cutoff⌋ * g := by nlinarith
      exact abs_le.mp (by linarith)
    exact ⟨key _ _ hx hwb.1, key _ _ hy hwb.2.1, key _ _ hz hwb.2.2⟩
  · have e : w = ⟨n.x + (-(n.x / grid.x) - (j0 m).x) * grid.x, n.y + (-(n.y / grid.y) - (j0 m).y) * grid.y,
        n.z + (-(n.z / grid.z) - (j0 m).z) * grid.z⟩ := by
      rw [hw]
      have b1 := Int.emod_add_mul_ediv n.x grid.x
      have b2 := Int.emod_add_mul_ediv n.y grid.y
      have b3 := Int.emod_add_mul_ediv n.z grid.z
      simp only [offsetBy, V3.mk.injEq]
      rw [show m.x = n.x % grid.x by rw [hm], show m.y = n.y % grid.y by rw [hm], show m.z = n.z % grid.z by rw [hm]]
      refine ⟨?_, ?_, ?_⟩
      · linear_combination b1
      · linear_combination b2
      · linear_combination b3
    rw [← e]

end Verif.Model
