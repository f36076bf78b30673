import Verif.Model.ElWannier
import Verif.Proofs.PhVelocity2
import Verif.Proofs.ElFourier5
import Mathlib.Analysis.SpecialFunctions.Trigonometric.Bounds

/-!
# Wannier interpolation: Hamiltonians
-/
namespace Verif.Model

variable {W R : Nat}

/-- `e^{ix}`. -/
noncomputable def cis (x : ℝ) : ℂ := Complex.exp (Complex.I * (x : ℂ))

theorem hostPhase_eq (x : ℝ) : hostPhase x = cis x := by
  unfold hostPhase cis
  rw [mul_comm, Complex.exp_mul_I]
  apply Complex.ext
  · simp [Complex.cos_ofReal_re, Complex.cos_ofReal_im, Complex.sin_ofReal_re, Complex.sin_ofReal_im]
  · simp [Complex.cos_ofReal_re, Complex.cos_ofReal_im, Complex.sin_ofReal_re, Complex.sin_ofReal_im]

theorem cis_add (x y : ℝ) : cis (x + y) = cis x * cis y := by
  unfold cis; rw [← Complex.exp_add]; push_cast; ring_nf

theorem cis_zero : cis 0 = 1 := by simp [cis]

theorem cis_int (z : ℤ) : cis (z * (2 * Real.pi)) = 1 := by
  have := exp_periodic 0 z
  rw [zero_add] at this
  unfold cis
  rw [this]; simp

theorem cis_periodic (x : ℝ) (z : ℤ) : cis (x + z * (2 * Real.pi)) = cis x := exp_periodic x z

theorem cis_conj (x : ℝ) : (starRingEnd ℂ) (cis x) = cis (-x) := by
  unfold cis
  rw [← Complex.exp_conj]
  simp

theorem cis_norm (x : ℝ) : ‖cis x‖ = 1 := by
  unfold cis
  rw [mul_comm, Complex.norm_exp_ofReal_mul_I]

/-- The vectors in the sums: the lattice vector or its shifted copies. -/
def WannierData.images (w : WannierData W R) (a b : Fin W) (r : Fin R) : List Vec3 :=
  match w.shifts with
  | none => [w.bravais r]
  | some s => (List.range (s.degeneracy a b r)).map fun j => s.at j a b r

theorem list_sum_finRange {n : Nat} (f : Fin n → ℂ) : ((List.finRange n).map f).sum = ∑ i, f i := by
  rw [← List.ofFn_eq_map, List.sum_ofFn]

theorem blochH_apply (w : WannierData W R) (k : Vec3) (a b : Fin W) :
    blochH w k a b = ∑ r, ((w.images a b r).map fun v => cis (vdot k v)).sum /
      ((w.degeneracy r : ℂ) * ((w.images a b r).length : ℂ)) * w.h0R r a b := by
  unfold blochH WannierData.images
  rcases w.shifts with _ | s
  · simp only [foldl_add_list, zero_add, hostPhase_eq]
    rw [list_sum_finRange]
    simp
  · simp only [foldl_add_list, zero_add, hostPhase_eq]
    rw [list_sum_finRange]
    refine Finset.sum_congr rfl fun r _ => ?_
    rw [List.sum_map_mul_right, List.map_map, List.length_map, List.length_range]
    simp only [div_eq_mul_inv]
    rw [List.sum_map_mul_right]
    push_cast
    rfl

theorem blochH_hermitian (w : WannierData W R) (sg : Fin R ≃ Fin R)
    (hd : ∀ r, w.degeneracy (sg r) = w.degeneracy r)
    (hh : ∀ r a b, w.h0R (sg r) b a = (starRingEnd ℂ) (w.h0R r a b))
    (hi : ∀ a b r, ((w.images a b r).map fun v => -v).Perm (w.images b a (sg r))) (k : Vec3) :
    (blochH w k).IsHermitian := by
  funext a b
  show (starRingEnd ℂ) (blochH w k b a) = blochH w k a b
  rw [blochH_apply, blochH_apply, map_sum]
  symm
  rw [← Equiv.sum_comp sg]
  refine Finset.sum_congr rfl fun r _ => ?_
  have hl : (w.images a b (sg r)).length = (w.images b a r).length := by
    rw [← (hi b a r).length_eq, List.length_map]
  rw [map_mul, map_div₀, map_mul, Complex.conj_ofReal, hd, hh, map_list_sum, hl, Complex.conj_natCast,
    ((hi b a r).symm.map fun v => cis (vdot k v)).sum_eq, List.map_map, List.map_map]
  refine congrArg (· / _ * _) (congrArg _ (List.map_congr_left fun v _ => ?_))
  simp only [Function.comp, cis_conj]
  congr 1
  simp [vdot]
  ring

theorem blochH_congr (w w' : WannierData W R) (hd : ∀ r, w'.degeneracy r = w.degeneracy r) (hh : ∀ r, w'.h0R r = w.h0R r)
    (k k' : Vec3)
    (h : ∀ a b r, ((w'.images a b r).map fun v => cis (vdot k' v)).sum / ((w'.images a b r).length : ℂ) =
      ((w.images a b r).map fun v => cis (vdot k v)).sum / ((w.images a b r).length : ℂ)) :
    blochH w' k' = blochH w k := by
  funext a b
  rw [blochH_apply, blochH_apply]
  refine Finset.sum_congr rfl fun r _ => ?_
  rw [hd, hh, mul_comm (w.degeneracy r : ℂ), mul_comm (w.degeneracy r : ℂ), ← div_div, ← div_div, h]

theorem blochH_conj (w : WannierData W R) (hreal : ∀ r a b, (starRingEnd ℂ) (w.h0R r a b) = w.h0R r a b) (k : Vec3) :
    blochH w (-k) = (blochH w k).map (starRingEnd ℂ) := by
  funext a b
  show _ = (starRingEnd ℂ) (blochH w k a b)
  rw [blochH_apply, blochH_apply, map_sum]
  refine Finset.sum_congr rfl fun r _ => ?_
  rw [map_mul, map_div₀, map_mul, Complex.conj_ofReal, hreal, map_list_sum, Complex.conj_natCast, List.map_map]
  refine congrArg (· / _ * _) (congrArg _ (List.map_congr_left fun v _ => ?_))
  simp only [Function.comp, cis_conj]
  congr 1
  simp [vdot]
  ring

/-! ### Orthogonality of the waves of a grid -/

theorem wave_sum (n : Nat) (hn : 0 < n) (z : ℤ) :
    ∑ p : Fin n, cis (2 * Real.pi * (z * (p.1 : ℝ) / n)) = if (n : ℤ) ∣ z then (n : ℂ) else 0 := by
  have hn' : (n : ℝ) ≠ 0 := by positivity
  obtain ⟨x, hx⟩ : ∃ x, x = cis (2 * Real.pi * (z / n)) := ⟨_, rfl⟩
  have hpow : ∀ m : ℕ, x ^ m = cis (2 * Real.pi * (z * (m : ℝ) / n)) := by
    intro m
    induction m with
    | zero => simp [cis_zero]
    | succ m ih => rw [pow_succ, ih, hx, ← cis_add]; congr 1; push_cast; ring
  have hxn : x ^ n = 1 := by
    rw [hpow, ← cis_int z]; congr 1; field_simp
  have hs : ∑ p : Fin n, cis (2 * Real.pi * (z * (p.1 : ℝ) / n)) = ∑ p ∈ Finset.range n, x ^ p := by
    rw [← Fin.sum_univ_eq_sum_range]
    exact Finset.sum_congr rfl fun p _ => (hpow p.1).symm
  rw [hs]
  split_ifs with hdiv
  · obtain ⟨y, rfl⟩ := hdiv
    have : x = 1 := by
      rw [hx, ← cis_int y]; congr 1; push_cast; field_simp
    simp [this]
  · have hx1 : x ≠ 1 := by
      intro h1
      rw [hx] at h1
      unfold cis at h1
      rw [Complex.exp_eq_one_iff] at h1
      obtain ⟨y, hy⟩ := h1
      have hy' : (2 * Real.pi * (z / n) : ℝ) = y * (2 * Real.pi) := by
        have : Complex.I * ((2 * Real.pi * (z / n) : ℝ) : ℂ) = Complex.I * ((y * (2 * Real.pi) : ℝ) : ℂ) := by
          rw [hy]; push_cast; ring
        exact_mod_cast mul_left_cancel₀ Complex.I_ne_zero this
      have hpi := Real.pi_pos
      have : (z : ℝ) = n * y := by
        field_simp at hy'
        linarith
      exact hdiv ⟨y, by exact_mod_cast this⟩
    have := geom_sum_mul x n
    rw [hxn, sub_self] at this
    exact (mul_eq_zero.mp this).resolve_right (sub_ne_zero.mpr hx1)

/-- The wavevectors of a grid, in units of its spacings. -/
abbrev KGrid (n : Fin 3 → Nat) := (i : Fin 3) → Fin (n i)

theorem wave_orthogonal (n : Fin 3 → Nat) (hn : ∀ i, 0 < n i) (q q' : KGrid n) :
    ∑ p : KGrid n, cis (2 * Real.pi * ∑ i, (((q i : ℕ) : ℝ) - ((q' i : ℕ) : ℝ)) / n i * ((p i : ℕ) : ℝ)) =
      if q = q' then ((∏ i, n i : ℕ) : ℂ) else 0 := by
  have h1 : ∀ p : KGrid n, cis (2 * Real.pi * ∑ i, (((q i : ℕ) : ℝ) - ((q' i : ℕ) : ℝ)) / n i * ((p i : ℕ) : ℝ)) =
      ∏ i, cis (2 * Real.pi * (((((q i : ℕ) : ℤ) - ((q' i : ℕ) : ℤ) : ℤ) : ℝ) * ((p i : ℕ) : ℝ) / n i)) := by
    intro p
    rw [Fin.sum_univ_three, Fin.prod_univ_three, ← cis_add, ← cis_add]
    congr 1
    push_cast
    ring
  simp only [h1]
  have h2 := Finset.prod_univ_sum (fun i : Fin 3 => (Finset.univ : Finset (Fin (n i))))
    (fun i p => cis (2 * Real.pi * (((((q i : ℕ) : ℤ) - ((q' i : ℕ) : ℤ) : ℤ) : ℝ) * ((p : ℕ) : ℝ) / n i)))
  rw [Fintype.piFinset_univ] at h2
  rw [← h2]
  simp only [wave_sum _ (hn _)]
  split_ifs with hq
  · subst hq
    simp
  · obtain ⟨i, hi⟩ := Function.ne_iff.mp hq
    refine Finset.prod_eq_zero (Finset.mem_univ i) (if_neg ?_)
    intro hd
    refine hi (Fin.ext ?_)
    have a1 := (q i).2
    have a2 := (q' i).2
    have := Int.eq_zero_of_abs_lt_dvd hd (by rw [abs_lt]; omega)
    omega

/-- The cell of the supercell in which a lattice vector falls. -/
def foldGrid {n : Fin 3 → Nat} (hn : ∀ i, 0 < n i) (m : Fin 3 → ℤ) : KGrid n := fun i =>
  ⟨(m i % n i).toNat, by
    have := Int.emod_lt_of_pos (m i) (show (0 : ℤ) < n i by exact_mod_cast hn i)
    have := Int.emod_nonneg (m i) (show (n i : ℤ) ≠ 0 by have := hn i; omega)
    omega⟩

theorem foldGrid_val {n : Fin 3 → Nat} (hn : ∀ i, 0 < n i) (m : Fin 3 → ℤ) (i : Fin 3) :
    ((foldGrid hn m i : ℕ) : ℤ) = m i % n i := by
  have := Int.emod_nonneg (m i) (show (n i : ℤ) ≠ 0 by have := hn i; omega)
  simp only [foldGrid]
  omega

theorem foldGrid_iff {n : Fin 3 → Nat} (hn : ∀ i, 0 < n i) (m : Fin 3 → ℤ) (p : KGrid n) :
    foldGrid hn m = p ↔ ∀ i, (n i : ℤ) ∣ m i - (p i : ℕ) := by
  constructor
  · rintro rfl i
    rw [foldGrid_val]
    exact Int.dvd_self_sub_emod
  · intro h
    funext i
    apply Fin.ext
    have h1 := foldGrid_val hn m i
    have h3 : m i % n i = ((p i : ℕ) : ℤ) % n i :=
      Int.emod_eq_emod_iff_emod_sub_eq_zero.mpr (Int.emod_eq_zero_of_dvd (h i))
    have h4 : ((p i : ℕ) : ℤ) % n i = (p i : ℕ) := Int.emod_eq_of_lt (by omega) (by have := (p i).2; omega)
    omega

theorem cis_fold (n : Fin 3 → Nat) (hn : ∀ i, 0 < n i) (q q' : KGrid n) (m : Fin 3 → ℤ) :
    cis (2 * Real.pi * ∑ i, (((q i : ℕ) : ℝ) - ((q' i : ℕ) : ℝ)) / n i * (m i : ℝ)) =
      cis (2 * Real.pi * ∑ i, (((q i : ℕ) : ℝ) - ((q' i : ℕ) : ℝ)) / n i * ((foldGrid hn m i : ℕ) : ℝ)) := by
  have key : ∀ i, ∃ z : ℤ, (m i : ℝ) = ((foldGrid hn m i : ℕ) : ℝ) + n i * z := by
    intro i
    refine ⟨m i / n i, ?_⟩
    have h1 := foldGrid_val hn m i
    have h2 := Int.emod_add_mul_ediv (m i) (n i)
    rw [← h1] at h2
    exact_mod_cast h2.symm
  choose z hz using key
  refine Eq.trans ?_ (cis_periodic _ (∑ i, (((q i : ℕ) : ℤ) - ((q' i : ℕ) : ℤ)) * z i))
  congr 1
  have hz0 := hz 0; have hz1 := hz 1; have hz2 := hz 2
  have h0 : (n 0 : ℝ) ≠ 0 := by have := hn 0; positivity
  have h1 : (n 1 : ℝ) ≠ 0 := by have := hn 1; positivity
  have h2 : (n 2 : ℝ) ≠ 0 := by have := hn 2; positivity
  simp only [Fin.sum_univ_three]
  push_cast
  rw [hz0, hz1, hz2]
  field_simp
  ring

theorem grid_class_sum (n : Fin 3 → Nat) (hn : ∀ i, 0 < n i) (m : Fin R → Fin 3 → ℤ) (g : Fin R → ℝ)
    (hg : ∀ p : KGrid n, ∑ r with ∀ i, (n i : ℤ) ∣ m r i - (p i : ℕ), g r = 1) (q q' : KGrid n) :
    ∑ r, (g r : ℂ) * cis (2 * Real.pi * ∑ i, (((q i : ℕ) : ℝ) - ((q' i : ℕ) : ℝ)) / n i * (m r i : ℝ)) =
      if q = q' then ((∏ i, n i : ℕ) : ℂ) else 0 := by
  rw [← wave_orthogonal n hn q q']
  rw [← Finset.sum_fiberwise (s := Finset.univ) (g := fun r => foldGrid hn (m r))]
  refine Finset.sum_congr rfl fun p _ => ?_
  have h1 := hg p
  simp only [← foldGrid_iff hn] at h1
  have h2 : ∑ r with foldGrid hn (m r) = p, (g r : ℂ) = 1 := by exact_mod_cast h1
  calc _ = ∑ r with foldGrid hn (m r) = p, (g r : ℂ) *
        cis (2 * Real.pi * ∑ i, (((q i : ℕ) : ℝ) - ((q' i : ℕ) : ℝ)) / n i * ((p i : ℕ) : ℝ)) := by
        refine Finset.sum_congr rfl fun r hr => ?_
        rw [cis_fold n hn q q', (Finset.mem_filter.mp hr).2]
    _ = _ := by rw [← Finset.sum_mul, h2, one_mul]

end Verif.Model
