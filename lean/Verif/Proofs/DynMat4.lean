import Verif.Proofs.DynMat3
import Mathlib.Tactic.FunProp
import Mathlib.Analysis.Matrix.Spectrum
import Mathlib.Data.Fin.Tuple.Sort
import Mathlib.Analysis.Real.Pi.Bounds
import Mathlib.Topology.Algebra.Order.Group

namespace Verif.Model

open Verif.Spec Filter Topology

variable {A n1 n2 n3 : Nat}

/-! ### A cubic cell -/

/-- A cubic cell with edge `2 pi`, so that the reciprocal vectors have length one, with two atoms of mass one at
the origin and at `(1, 0, 0)`. -/
noncomputable def cubic (eps : Mat3) (born : ZVec 2) : PhCrystal 2 where
  cell := fun i j => if i = j then 2 * Real.pi else 0
  recip := fun i j => if i = j then 1 else 0
  volume := (2 * Real.pi) ^ 3
  pos := fun na i => if na = 1 ∧ i = 0 then 1 else 0
  mass := fun _ => 1
  eps := eps
  born := born

theorem cubic_dual (eps : Mat3) (born : ZVec 2) : (cubic eps born).Dual := by
  intro i j
  simp only [cubic, Fin.sum_univ_three]
  fin_cases i <;> fin_cases j <;> simp

theorem cubic_cols (eps : Mat3) (born : ZVec 2) :
    colsOf (cubic eps born).cell = fun k i => if k = i then 2 * Real.pi else 0 := by
  funext k i
  simp only [colsOf, cubic]
  exact if_congr eq_comm rfl rfl

theorem cubic_compact (eps : Mat3) (born : ZVec 2) (na nb : Fin 2) :
    CompactCell (colsOf (cubic eps born).cell) ((cubic eps born).offset na nb) ![1, 1, 1] := by
  rw [cubic_cols]
  refine rect_compact (fun _ => 2 * Real.pi) _ _ ?_
  intro k
  have h3 := Real.pi_gt_three
  have : ((![1, 1, 1] k : Nat) : ℝ) = 1 := by fin_cases k <;> simp
  rw [this]
  norm_num
  nlinarith

theorem cubic_offset (eps : Mat3) (born : ZVec 2) (na nb : Fin 2) (i : Fin 3) :
    |(cubic eps born).offset na nb i| ≤ 1 := by
  simp only [PhCrystal.offset, cubic]
  split_ifs <;> norm_num

theorem cubic_ck (t : Vec3) (ht : ∀ i, |t i| ≤ 1) (g : V3 Int) (hg : g ≠ ⟨0, 0, 0⟩) :
    (2 * Real.pi) * (t 0 * g.x + t 1 * g.y + t 2 * g.z) + 1 <
      2 * Real.pi ^ 2 * ((g.x : ℝ) ^ 2 + (g.y : ℝ) ^ 2 + (g.z : ℝ) ^ 2) := by
  have h3 := Real.pi_gt_three
  have key : ∀ (s : ℝ) (x : Int), |s| ≤ 1 → s * x ≤ (x : ℝ) ^ 2 := by
    intro s x hs
    have hx : |(x : ℝ)| ≤ (x : ℝ) ^ 2 := by
      have h : |x| ≤ x ^ 2 := by
        rcases eq_or_ne x 0 with rfl | hx
        · simp
        · have := Int.one_le_abs hx
          nlinarith [abs_mul_abs_self x]
      exact_mod_cast h
    calc s * (x : ℝ) ≤ |s * x| := le_abs_self _
      _ = |s| * |(x : ℝ)| := abs_mul _ _
      _ ≤ 1 * |(x : ℝ)| := by gcongr
      _ ≤ (x : ℝ) ^ 2 := by linarith
  have h0 := key (t 0) g.x (ht 0)
  have h1 := key (t 1) g.y (ht 1)
  have h2 := key (t 2) g.z (ht 2)
  have hpos : (1 : ℝ) ≤ (g.x : ℝ) ^ 2 + (g.y : ℝ) ^ 2 + (g.z : ℝ) ^ 2 := by
    have : 1 ≤ g.x ^ 2 + g.y ^ 2 + g.z ^ 2 := by
      by_contra hlt
      have hx := sq_nonneg g.x
      have hy := sq_nonneg g.y
      have hz := sq_nonneg g.z
      have ex : g.x = 0 := pow_eq_zero_iff (n := 2) (by norm_num) |>.mp (by omega)
      have ey : g.y = 0 := pow_eq_zero_iff (n := 2) (by norm_num) |>.mp (by omega)
      have ez : g.z = 0 := pow_eq_zero_iff (n := 2) (by norm_num) |>.mp (by omega)
      apply hg
      cases g
      simp_all
    exact_mod_cast this
  obtain ⟨S, hS⟩ : ∃ S, S = (g.x : ℝ) ^ 2 + (g.y : ℝ) ^ 2 + (g.z : ℝ) ^ 2 := ⟨_, rfl⟩
  rw [← hS] at hpos ⊢
  have hT : t 0 * g.x + t 1 * g.y + t 2 * g.z ≤ S := by rw [hS]; linarith
  have h5 : 2 * Real.pi * (t 0 * g.x + t 1 * g.y + t 2 * g.z) ≤ 2 * Real.pi * S :=
    mul_le_mul_of_nonneg_left hT (by linarith)
  have h6 : 2 * Real.pi * S + 1 < 2 * Real.pi ^ 2 * S := by
    have : 0 ≤ (S - 1) * Real.pi := mul_nonneg (by linarith) (by linarith)
    nlinarith
  linarith

theorem cubic_latVec (eps : Mat3) (born : ZVec 2) (n : V3 Int) :
    latVec (cubic eps born).cell n = ![2 * Real.pi * n.x, 2 * Real.pi * n.y, 2 * Real.pi * n.z] := by
  funext i
  simp only [latVec, cubic]
  fin_cases i <;> simp <;> ring

theorem cubic_super (eps : Mat3) (born : ZVec 2) :
    superCell (cubic eps born).cell 1 1 1 = (cubic eps born).cell := by
  funext i j
  simp [superCell]

theorem cubic_weight_zero (eps : Mat3) (born : ZVec 2) (na nb : Fin 2) :
    wsCacheAt (cubic eps born) 1 1 1 ⟨0, 0, 0⟩ na nb = 1 := by
  have hck : ∀ g ∈ rwsList (superCell (cubic eps born).cell 1 1 1),
      wsCk (fun i => latVec (cubic eps born).cell ⟨0, 0, 0⟩ i + (cubic eps born).offset na nb i) g < -1 := by
    intro x hx
    obtain ⟨g, _, _, _, rfl, hpos⟩ := (mem_rws _ _).mp hx
    have hg : g ≠ ⟨0, 0, 0⟩ := by
      rintro rfl
      simp [vdot, latVec] at hpos
      norm_num at hpos
    have h := cubic_ck ((cubic eps born).offset na nb) (cubic_offset eps born na nb) g hg
    rw [cubic_super, cubic_latVec, cubic_latVec]
    simp only [wsCk, vdot, Matrix.cons_val_zero, Matrix.cons_val_one, Matrix.cons_val]
    simp only [Int.cast_zero, mul_zero, zero_add]
    linarith
  have := (wsWeightLoop_eq _ _ 1).2 fun g hg => (hck g hg).le.trans (by norm_num)
  refine this.trans ?_
  rw [List.countP_eq_zero.mpr]
  · simp
  · intro g hg
    rw [decide_eq_true_eq, not_le]
    have := hck g hg
    rw [lt_abs]
    right
    norm_num
    linarith

theorem cubic_weight_ne (eps : Mat3) (born : ZVec 2) (na nb : Fin 2) (n : V3 Int)
    (hn : n ∈ wsCells 1 1 1) (h0 : n ≠ ⟨0, 0, 0⟩) : wsCacheAt (cubic eps born) 1 1 1 n na nb = 0 := by
  refine (wsWeightLoop_eq _ _ 1).1 ⟨latVec (superCell (cubic eps born).cell 1 1 1) n, ?_, ?_⟩
  · refine neighbour_mem (cubic eps born) na nb (cubic_compact eps born na nb) n ?_ ?_
    · have := (mem_zBox _ _).mp hn
      intro k
      rw [abs_le]
      fin_cases k <;> simp [v3f] at this ⊢ <;> omega
    · intro h
      exact h0 (v3f_inj (h.trans (by funext k; fin_cases k <;> rfl)))
  · have h := cubic_ck (fun i => - (cubic eps born).offset na nb i)
      (fun i => by rw [abs_neg]; exact cubic_offset eps born na nb i) n h0
    rw [cubic_super, cubic_latVec]
    simp only [wsCk, vdot, Matrix.cons_val_zero, Matrix.cons_val_one, Matrix.cons_val]
    simp only [PhCrystal.offset] at h
    norm_num
    linarith

theorem cubic_check (eps : Mat3) (born : ZVec 2) : wsCheck (cubic eps born) 1 1 1 := by
  intro na nb
  have : ((wsCells 1 1 1).map fun n => wsCacheAt (cubic eps born) 1 1 1 n na nb).sum = 1 := by
    rw [← List.sum_toFinset _ (show (wsCells 1 1 1).Nodup from nodup_zBox _),
      Finset.sum_eq_single ⟨0, 0, 0⟩]
    · exact cubic_weight_zero eps born na nb
    · intro n hn h0
      exact cubic_weight_ne eps born na nb n (List.mem_toFinset.mp hn) h0
    · intro h
      exact absurd (List.mem_toFinset.mpr ((mem_zBox _ _).mpr (by decide))) h
  rw [this]
  norm_num

theorem cubic_partition (eps : Mat3) (born : ZVec 2) : Partition (cubic eps born) 1 1 1 :=
  partition_of_check _ (cubic_compact eps born) (cubic_check eps born)

/-! ### Limit at the zone centre -/

theorem continuous_geg (c : PhCrystal A) : Continuous c.geg := by
  unfold PhCrystal.geg vdot matVec vdot
  fun_prop

theorem continuous_gZ (c : PhCrystal A) (i : Fin 3) (na : Fin A) : Continuous fun g => c.gZ g i na := by
  unfold PhCrystal.gZ
  fun_prop

theorem continuous_arg (c : PhCrystal A) (na nb : Fin A) : Continuous fun g => c.arg na nb g := by
  unfold PhCrystal.arg vdot
  fun_prop

theorem lrTerm_continuousAt (c : PhCrystal A) (a b : Fin A × Fin 3) (v : Vec3) (h0 : c.geg v ≠ 0)
    (h1 : c.geg v ≠ 4 * constGMax) : ContinuousAt (fun g => c.lrTerm g a b) v := by
  have hc := continuous_geg c
  by_cases hin : inCutoff (c.geg v)
  · have hev : (fun g => (c.normG (c.geg g) : ℂ) * ((Real.cos (c.arg a.1 b.1 g) : ℂ) +
        (Real.sin (c.arg a.1 b.1 g) : ℂ) * Complex.I) *
        ((c.gZ g a.2 a.1 * c.gZ g b.2 b.1 : ℝ) : ℂ)) =ᶠ[𝓝 v] fun g => c.lrTerm g a b := by
      have h2 := (hc.tendsto v).eventually (lt_mem_nhds hin.1)
      have h3 := (hc.tendsto v).eventually (gt_mem_nhds hin.2)
      filter_upwards [h2, h3] with g hg2 hg3
      exact (if_pos ⟨hg2, hg3⟩).symm
    refine ContinuousAt.congr ?_ hev
    have hn : ContinuousAt (fun g => c.normG (c.geg g)) v := by
      unfold PhCrystal.normG
      refine ContinuousAt.div ?_ hc.continuousAt h0
      refine (continuous_const.mul ?_).continuousAt
      exact Real.continuous_exp.comp ((hc.neg).mul continuous_const)
    have hz := continuous_gZ c
    have ha := continuous_arg c
    refine ContinuousAt.mul (ContinuousAt.mul ?_ ?_) ?_
    · exact Complex.continuous_ofReal.continuousAt.comp hn
    · refine Continuous.continuousAt ?_
      have hcos := Complex.continuous_ofReal.comp (Real.continuous_cos.comp (ha a.1 b.1))
      have hsin := Complex.continuous_ofReal.comp (Real.continuous_sin.comp (ha a.1 b.1))
      exact hcos.add (hsin.mul continuous_const)
    · exact (Complex.continuous_ofReal.comp ((hz a.2 a.1).mul (hz b.2 b.1))).continuousAt
  · have hev : (fun _ => (0 : ℂ)) =ᶠ[𝓝 v] fun g => c.lrTerm g a b := by
      rcases lt_or_gt_of_ne h0 with hlt | hgt
      · filter_upwards [(hc.tendsto v).eventually (gt_mem_nhds hlt)] with g hg
        exact (if_neg fun h : inCutoff (c.geg g) => by have := h.1; linarith).symm
      · have hgt2 : 4 * constGMax < c.geg v := by
          rcases lt_or_gt_of_ne h1 with h | h
          · exact absurd ⟨hgt, h⟩ hin
          · exact h
        filter_upwards [(hc.tendsto v).eventually (lt_mem_nhds hgt2)] with g hg
        exact (if_neg fun h : inCutoff (c.geg g) => by have := h.2; linarith).symm
    exact continuousAt_const.congr hev

theorem lrTerm_direction (c : PhCrystal A) (a b : Fin A × Fin 3) (q : Vec3) (hq : 0 < c.geg q) :
    Tendsto (fun t : ℝ => c.lrTerm (t • q) a b) (𝓝[>] 0)
      (𝓝 ((constE2 * constFourPi / c.volume * (c.gZ q a.2 a.1 * c.gZ q b.2 b.1 / c.geg q) : ℝ) : ℂ)) := by
  have e1 : ∀ t : ℝ, c.geg (t • q) = t ^ 2 * c.geg q := by
    intro t; simp only [PhCrystal.geg, vdot, matVec, Pi.smul_apply, smul_eq_mul]; ring
  have e2 : ∀ (t : ℝ) i na, c.gZ (t • q) i na = t * c.gZ q i na := by
    intro t i na; simp only [PhCrystal.gZ, Pi.smul_apply, smul_eq_mul]; ring
  have e3 : ∀ (t : ℝ) na nb, c.arg na nb (t • q) = t * c.arg na nb q := by
    intro t na nb; simp only [PhCrystal.arg, vdot, Pi.smul_apply, smul_eq_mul]; ring
  have hsmall : ∀ᶠ t : ℝ in 𝓝[>] 0, t ^ 2 * c.geg q < 4 * constGMax := by
    have : Continuous fun t : ℝ => t ^ 2 * c.geg q := by fun_prop
    refine ((this.tendsto 0).mono_left nhdsWithin_le_nhds).eventually (gt_mem_nhds ?_)
    simp [constGMax]
  have hev : (fun t : ℝ => ((constE2 * constFourPi / c.volume *
      Real.exp (-(t ^ 2 * c.geg q) * 0.25) * (c.gZ q a.2 a.1 * c.gZ q b.2 b.1 / c.geg q) : ℝ) : ℂ) *
      ((Real.cos (t * c.arg a.1 b.1 q) : ℂ) + (Real.sin (t * c.arg a.1 b.1 q) : ℂ) * Complex.I))
      =ᶠ[𝓝[>] 0] fun t => c.lrTerm (t • q) a b := by
    filter_upwards [hsmall, self_mem_nhdsWithin] with t ht ht0
    have ht0' : 0 < t := ht0
    unfold PhCrystal.lrTerm
    have hin : inCutoff (c.geg (t • q)) := by
      rw [e1]; exact ⟨by positivity, ht⟩
    rw [if_pos hin]
    simp only [e1, e2, e3, PhCrystal.normG]
    have : constE2 * constFourPi / c.volume * Real.exp (-(t ^ 2 * c.geg q) * 0.25) *
        (c.gZ q a.2 a.1 * c.gZ q b.2 b.1 / c.geg q) =
        constE2 * constFourPi / c.volume * Real.exp (-(t ^ 2 * c.geg q) * 0.25) / (t ^ 2 * c.geg q) *
        (t * c.gZ q a.2 a.1 * (t * c.gZ q b.2 b.1)) := by
      field_simp
    rw [this, Complex.ofReal_mul]
    ring
  refine Tendsto.congr' hev ?_
  have hcont : Continuous fun t : ℝ => ((constE2 * constFourPi / c.volume *
      Real.exp (-(t ^ 2 * c.geg q) * 0.25) * (c.gZ q a.2 a.1 * c.gZ q b.2 b.1 / c.geg q) : ℝ) : ℂ) *
      ((Real.cos (t * c.arg a.1 b.1 q) : ℂ) + (Real.sin (t * c.arg a.1 b.1 q) : ℂ) * Complex.I) := by
    fun_prop
  have := (hcont.tendsto 0).mono_left (nhdsWithin_le_nhds (s := Set.Ioi 0))
  simpa using this

theorem shortRange_continuous (bs : List (Bravais A)) (a b : Fin A × Fin 3) :
    Continuous fun q => shortRange bs q a b := by
  unfold shortRange
  refine continuous_list_sum _ fun e _ => ?_
  unfold phaseOf vdot
  fun_prop

theorem zero_mem_gBox (recip : Mat3) (m1 m2 m3 : Nat) :
    (⟨0, 0, 0⟩ : V3 Int) ∈ zBox ⟨gLimit recip 0 m1, gLimit recip 1 m2, gLimit recip 2 m3⟩ := by
  have h : ∀ j n, 0 ≤ gLimit recip j n := by
    intro j n
    unfold gLimit
    split_ifs
    · have : 0 ≤ ⌊Real.sqrt (constGMax * 4) / vnorm (fun i => recip i j)⌋ :=
        Int.floor_nonneg.mpr (div_nonneg (Real.sqrt_nonneg _) (Real.sqrt_nonneg _))
      omega
    · exact le_refl _
  rw [mem_zBox]
  have := h 0 m1
  have := h 1 m2
  have := h 2 m3
  dsimp only
  omega

theorem latVec_ne_zero (c : PhCrystal A) (h : c.Dual) (g : V3 Int) (hg : g ≠ ⟨0, 0, 0⟩) :
    latVec c.recip g ≠ 0 := by
  intro h0
  have hpi := Real.pi_pos
  have key : ∀ n : V3 Int, g.x * n.x + g.y * n.y + g.z * n.z = 0 := by
    intro n
    have h1 := vdot_recip c h g n
    rw [h0] at h1
    have : ((g.x * n.x + g.y * n.y + g.z * n.z : Int) : ℝ) = 0 := by
      have h2 : vdot 0 (latVec c.cell n) = 0 := by simp [vdot]
      rw [h2] at h1
      rcases mul_eq_zero.mp h1.symm with h | h
      · exact h
      · linarith
    exact_mod_cast this
  have k1 := key ⟨1, 0, 0⟩
  have k2 := key ⟨0, 1, 0⟩
  have k3 := key ⟨0, 0, 1⟩
  apply hg
  cases g
  simp_all

theorem dynMatrix_jump [NeZero n1] [NeZero n2] [NeZero n3] (c : PhCrystal A) (hd : c.Dual)
    (f : FcVec A n1 n2 n3) (hdi : c.hasDielectric) (heps : ∀ v : Vec3, v ≠ 0 → 0 < c.geg v)
    (hcut : ∀ g ∈ c.gVectors n1 n2 n3, c.geg g ≠ 4 * constGMax)
    (q : Vec3) (hq : q ≠ 0) (a b : Fin A × Fin 3) :
    Tendsto (fun t : ℝ => dynMatrix c f (t • q) a b - dynMatrix c f 0 a b) (𝓝[>] 0)
      (𝓝 ((constE2 * constFourPi / c.volume * (c.gZ q a.2 a.1 * c.gZ q b.2 b.1 / c.geg q) : ℝ) : ℂ)) := by
  obtain ⟨lim, hlim⟩ : ∃ lim : ℂ, lim = ((constE2 * constFourPi / c.volume *
    (c.gZ q a.2 a.1 * c.gZ q b.2 b.1 / c.geg q) : ℝ) : ℂ) := ⟨_, rfl⟩
  rw [← hlim]
  have hline : Continuous fun t : ℝ => t • q := by fun_prop
  have h0q : (0 : ℝ) • q = 0 := zero_smul _ _
  -- short range
  have hsr : Tendsto (fun t : ℝ => shortRange (reorder c f) (t • q) a b -
      shortRange (reorder c f) 0 a b) (𝓝[>] 0) (𝓝 0) := by
    have := (((shortRange_continuous (reorder c f) a b).comp hline).tendsto 0).mono_left
      (nhdsWithin_le_nhds (s := Set.Ioi 0))
    have := this.sub_const (shortRange (reorder c f) 0 a b)
    simpa [Function.comp_def, h0q] using this
  -- one reciprocal vector
  have hterm : ∀ g ∈ zBox ⟨gLimit c.recip 0 n1, gLimit c.recip 1 n2, gLimit c.recip 2 n3⟩,
      Tendsto (fun t : ℝ => c.lrTerm (latVec c.recip g + t • q) a b -
        c.lrTerm (latVec c.recip g + 0) a b) (𝓝[>] 0) (𝓝 (if g = ⟨0, 0, 0⟩ then lim else 0)) := by
    intro g hg
    by_cases hg0 : g = ⟨0, 0, 0⟩
    · have hz : latVec c.recip g = 0 := by
        subst hg0; funext i; simp [latVec]
      have hz2 : c.lrTerm 0 a b = 0 := by
        unfold PhCrystal.lrTerm
        refine if_neg fun h : inCutoff (c.geg 0) => ?_
        have h1 := h.1
        simp [PhCrystal.geg, vdot] at h1
      rw [if_pos hg0, hz]
      simp only [zero_add, hz2, sub_zero, hlim]
      exact lrTerm_direction c a b q (heps q hq)
    · rw [if_neg hg0, add_zero]
      have hv := latVec_ne_zero c hd g hg0
      have hcont := lrTerm_continuousAt c a b (latVec c.recip g) (heps _ hv).ne'
        (hcut _ (List.mem_map.mpr ⟨g, hg, rfl⟩))
      have hl2 : Tendsto (fun t : ℝ => latVec c.recip g + t • q) (𝓝[>] 0) (𝓝 (latVec c.recip g)) := by
        have : Continuous fun t : ℝ => latVec c.recip g + t • q := by fun_prop
        have := (this.tendsto 0).mono_left (nhdsWithin_le_nhds (s := Set.Ioi 0))
        simpa [h0q] using this
      have := (hcont.tendsto.comp hl2).sub_const (c.lrTerm (latVec c.recip g) a b)
      simpa using this
  have hlr : Tendsto (fun t : ℝ => c.longRange n1 n2 n3 (t • q) a b -
      c.longRange n1 n2 n3 0 a b) (𝓝[>] 0) (𝓝 lim) := by
    have h1 := tendsto_list_sum _ hterm
    have e1 : ((zBox ⟨gLimit c.recip 0 n1, gLimit c.recip 1 n2, gLimit c.recip 2 n3⟩).map fun g =>
        if g = ⟨0, 0, 0⟩ then lim else 0).sum = lim := by
      rw [← List.sum_toFinset _ (nodup_zBox _), Finset.sum_ite_eq', if_pos]
      rw [List.mem_toFinset]
      exact zero_mem_gBox _ _ _ _
    rw [e1] at h1
    refine h1.congr fun t => ?_
    rw [longRange_apply, longRange_apply, PhCrystal.gVectors, List.map_map, List.map_map]
    rw [add_sub_add_left_eq_sub]
    have : ∀ (l : List (V3 Int)) (u v : V3 Int → ℂ),
        (l.map fun g => u g - v g).sum = (l.map u).sum - (l.map v).sum := by
      intro l u v
      induction l with
      | nil => simp
      | cons x l ih => simp only [List.map_cons, List.sum_cons, ih]; ring
    exact this _ _ _
  have h2 := hsr.add hlr
  rw [zero_add] at h2
  refine h2.congr fun t => ?_
  unfold dynMatrix
  simp only [if_pos hdi, Matrix.add_apply]
  ring

/-! ### Solvers -/

theorem exists_decomposition (d : DynM A) (h : d.IsHermitian) :
    ∃ (e : Fin (A * 3) → ℝ) (u : Matrix (Fin A × Fin 3) (Fin (A * 3)) ℂ), IsEigenDecomposition d e u := by
  classical
  obtain ⟨r⟩ : Nonempty (Fin (A * 3) ≃ Fin A × Fin 3) :=
    ⟨(Fintype.equivFinOfCardEq (by simp)).symm⟩
  obtain ⟨σ, hσ⟩ : ∃ σ : Fin (A * 3) ≃ Fin A × Fin 3, Monotone fun b => h.eigenvalues (σ b) :=
    ⟨(Tuple.sort fun b => h.eigenvalues (r b)).trans r, Tuple.monotone_sort fun b => h.eigenvalues (r b)⟩
  obtain ⟨w, hw⟩ : ∃ w : DynM A, w = (h.eigenvectorUnitary : DynM A) := ⟨_, rfl⟩
  have hl : w.conjTranspose * w = 1 := by
    rw [hw]; exact Unitary.coe_star_mul_self h.eigenvectorUnitary
  have hr : w * w.conjTranspose = 1 := by
    rw [hw]; exact Unitary.coe_mul_star_self h.eigenvectorUnitary
  have hd : d * w = w * Matrix.diagonal fun a => (h.eigenvalues a : ℂ) := by
    have h1 : d = w * Matrix.diagonal (fun a => (h.eigenvalues a : ℂ)) * w.conjTranspose := by
      rw [hw]
      exact h.spectral_theorem
    conv_lhs => rw [h1]
    rw [Matrix.mul_assoc, hl, Matrix.mul_one]
  refine ⟨fun b => h.eigenvalues (σ b), w.submatrix id σ, hσ, ?_, ?_, ?_⟩
  · rw [Matrix.conjTranspose_submatrix, ← Matrix.submatrix_mul _ _ _ _ _ Function.bijective_id, hl,
      Matrix.submatrix_one_equiv]
  · rw [Matrix.conjTranspose_submatrix, Matrix.submatrix_mul_equiv, hr, Matrix.submatrix_id_id]
  · ext a b
    have := congrFun (congrFun hd a) (σ b)
    rw [Matrix.mul_diagonal] at this
    rw [Matrix.mul_diagonal]
    exact this

theorem exists_solver (A : Nat) : ∃ eig : EigenSolver A, ∀ d : DynM A, d.IsHermitian →
    IsEigenDecomposition d (eig d).1 (eig d).2 := by
  classical
  refine ⟨fun d => if h : d.IsHermitian then ((exists_decomposition d h).choose,
    (exists_decomposition d h).choose_spec.choose) else (0, 0), fun d h => ?_⟩
  beta_reduce
  rw [dif_pos h]
  exact (exists_decomposition d h).choose_spec.choose_spec

theorem trace_eq {N : Type} [Fintype N] [DecidableEq N] {k : Nat}
    {d : Matrix N N ℂ} {e : Fin k → ℝ} {u : Matrix N (Fin k) ℂ} (h : IsEigenDecomposition d e u) :
    d.trace = ∑ b, (e b : ℂ) := by
  have hd : d = (u * Matrix.diagonal fun b => (e b : ℂ)) * u.conjTranspose := by
    rw [← h.eigen, Matrix.mul_assoc, h.right, Matrix.mul_one]
  rw [hd, Matrix.trace_mul_comm, ← Matrix.mul_assoc, h.left, Matrix.one_mul, Matrix.trace_diagonal]

theorem make_unruled [NeZero n1] [NeZero n2] [NeZero n3] (c : PhCrystal A) (f : FcVec A n1 n2 n3)
    (h : wsCheck c n1 n2 n3) : makePhononH0 "" c f = .ok (c, f) := by
  unfold makePhononH0
  have : setAcousticSumRule "" c.born f = .ok (c.born, f) := by simp [setAcousticSumRule]
  rw [this]
  exact if_pos h

theorem make_forces [NeZero n1] [NeZero n2] [NeZero n3] (rule : String) (c c' : PhCrystal A)
    (f f' : FcVec A n1 n2 n3) (h : makePhononH0 rule c f = .ok (c', f')) :
    setAcousticSumRule rule c.born f = .ok (c'.born, f') := by
  unfold makePhononH0 at h
  split at h
  · rename_i z g e
    dsimp only at h
    split_ifs at h
    simp only [Outcome.ok.injEq, Prod.mk.injEq] at h
    rw [e, ← h.1, h.2]
  all_goals exact absurd h (by simp)

theorem make_data [NeZero n1] [NeZero n2] [NeZero n3] (rule : String) (c c' : PhCrystal A)
    (f f' : FcVec A n1 n2 n3) (h : makePhononH0 rule c f = .ok (c', f')) :
    c'.cell = c.cell ∧ c'.eps = c.eps ∧ c'.mass = c.mass := by
  unfold makePhononH0 at h
  split at h
  · dsimp only at h
    split_ifs at h
    simp only [Outcome.ok.injEq, Prod.mk.injEq] at h
    rw [← h.1]
    exact ⟨rfl, rfl, rfl⟩
  all_goals exact absurd h (by simp)

theorem partition_of_make [NeZero n1] [NeZero n2] [NeZero n3] (rule : String) (c c' : PhCrystal A)
    (f f' : FcVec A n1 n2 n3) (h : makePhononH0 rule c f = .ok (c', f'))
    (hc : ∀ na nb, CompactCell (fun k i => c.cell i k) (fun i => c.pos na i - c.pos nb i) ![n1, n2, n3]) :
    Partition c' n1 n2 n3 := by
  unfold makePhononH0 at h
  split at h
  · dsimp only at h
    split_ifs at h with hck
    simp only [Outcome.ok.injEq, Prod.mk.injEq] at h
    rw [← h.1]
    refine partition_of_check _ ?_ hck
    exact hc
  all_goals exact absurd h (by simp)

/-- Two opposite charges. -/
def dipole : ZVec 2 := fun na i j => if i = j then (if na = 0 then 1 else -1) else 0

theorem cubic_gVectors (eps : Mat3) (born : ZVec 2) : (cubic eps born).gVectors 1 1 1 = [0] := by
  have h : zBox ⟨0, 0, 0⟩ = [⟨0, 0, 0⟩] := by decide
  have : latVec (cubic eps born).recip ⟨0, 0, 0⟩ = 0 := by funext i; simp [latVec]
  simp [PhCrystal.gVectors, gLimit, h, this]

theorem cubic_diagonal (f : FcVec 2 1 1 1) (na : Fin 2) (i : Fin 3) :
    dynMatrix (cubic 1 dipole) f (latVec (cubic 1 dipole).recip ⟨1, 0, 0⟩) (na, i) (na, i) =
      dynMatrix (cubic 1 dipole) f 0 (na, i) (na, i) +
        if i = 0 then ((cubic 1 dipole).normG 1 : ℂ) else 0 := by
  obtain ⟨c, hc⟩ : ∃ c, c = cubic 1 dipole := ⟨_, rfl⟩
  have hd : c.hasDielectric := by
    rw [hc]
    simp [PhCrystal.hasDielectric, cubic, Matrix.one_apply]
  have hb : latVec c.recip ⟨1, 0, 0⟩ = ![1, 0, 0] := by
    rw [hc]
    funext i
    fin_cases i <;> simp [latVec, cubic]
  have hs := shortRange_periodic c (by rw [hc]; exact cubic_dual _ _) f 0 ⟨1, 0, 0⟩
  rw [zero_add] at hs
  have hg : c.gVectors 1 1 1 = [0] := by rw [hc]; exact cubic_gVectors _ _
  rw [← hc]
  unfold dynMatrix
  rw [if_pos hd, if_pos hd]
  simp only [Matrix.add_apply, hs, longRange_apply, hg, List.map_cons, List.map_nil, List.sum_cons,
    List.sum_nil, add_zero, zero_add]
  have h0 : c.lrTerm 0 (na, i) (na, i) = 0 := by
    unfold PhCrystal.lrTerm
    refine if_neg fun h : inCutoff (c.geg 0) => ?_
    have h1 := h.1
    simp [PhCrystal.geg, vdot] at h1
  have e1 : c.geg (![1, 0, 0] : Vec3) = 1 := by
    rw [hc]
    simp [PhCrystal.geg, vdot, matVec, cubic]
  have hin : inCutoff (c.geg (![1, 0, 0] : Vec3)) := by
    rw [e1]; constructor <;> norm_num [constGMax]
  have h1 : c.lrTerm (![1, 0, 0] : Vec3) (na, i) (na, i) = if i = 0 then (c.normG 1 : ℂ) else 0 := by
    unfold PhCrystal.lrTerm
    rw [if_pos hin, e1]
    have ea : c.arg na na (![1, 0, 0] : Vec3) = 0 := by simp [PhCrystal.arg, vdot]
    have ez : c.gZ (![1, 0, 0] : Vec3) i na * c.gZ (![1, 0, 0] : Vec3) i na = if i = 0 then 1 else 0 := by
      rw [hc]
      simp only [PhCrystal.gZ, cubic, dipole]
      by_cases hi : i = 0
      · subst hi
        fin_cases na <;> simp
      · have : ¬ (0 = i) := fun h => hi h.symm
        simp [hi, this]
    simp only [ea, ez]
    split_ifs <;> simp
  rw [h0, hb, h1]
  ring

theorem cubic_trace (f : FcVec 2 1 1 1) :
    (massScaled (cubic 1 dipole) (dynMatrix (cubic 1 dipole) f 0)).trace.re <
    (massScaled (cubic 1 dipole) (dynMatrix (cubic 1 dipole) f
      (latVec (cubic 1 dipole).recip ⟨1, 0, 0⟩))).trace.re := by
  have key : ∀ d : DynM 2, (massScaled (cubic 1 dipole) d).trace.re = ∑ na, ∑ i, (d (na, i) (na, i)).re := by
    intro d
    have hm : ∀ x : Fin 2, (cubic 1 dipole).mass x = 1 := fun _ => rfl
    simp only [Matrix.trace, Matrix.diag, massScaled, Fintype.sum_prod_type, Complex.re_sum, hm]
    refine Finset.sum_congr rfl fun na _ => Finset.sum_congr rfl fun i _ => ?_
    simp only [Matrix.add_apply, Matrix.conjTranspose_apply, Complex.star_def, Complex.add_conj]
    have : (0.5 : ℂ) = ((0.5 : ℝ) : ℂ) := by norm_num
    rw [this, mul_one, Real.sqrt_one, Complex.ofReal_one, div_one, ← Complex.ofReal_mul, Complex.ofReal_re]
    ring
  rw [key, key]
  simp only [cubic_diagonal, Fin.sum_univ_two, Fin.sum_univ_three]
  have hpos : 0 < (cubic 1 dipole).normG 1 := by
    have := Real.pi_pos
    unfold PhCrystal.normG constE2 constFourPi cubic
    positivity
  simp
  linarith

/-! ### A coupling that is not symmetric in the two directions -/

/-- The force constants between the two atoms. -/
def skew (i j : Fin 3) : ℝ := if i = j then -1 else if i = 0 ∧ j = 1 then 2 else 0

/-- Two atoms coupled by `skew`. -/
def skewForces : FcVec 2 1 1 1 := fun ix =>
  if ix.2.2.2.2.2.1 = ix.2.2.2.2.2.2 then 0
  else if ix.2.2.2.2.2.1 = 0 then skew ix.2.2.2.1 ix.2.2.2.2.1 else skew ix.2.2.2.2.1 ix.2.2.2.1

theorem skewForces_symmetric : Symmetric skewForces := by
  intro m1 m1' m2 m2' m3 m3' i j na nb _ _ _
  fin_cases na <;> fin_cases nb <;> simp [skewForces]

/-- The kernel of the matrix at the zone centre. -/
theorem skew_kernel (d : DynM 2) (v : Fin 2 × Fin 3 → ℂ)
    (hd : ∀ na nb i j, d (na, i) (nb, j) =
      ((if na = nb then -((skew i j + skew j i) / 2) else if na = 0 then skew i j else skew j i : ℝ) : ℂ))
    (hv : d.mulVec v = 0) :
    v (0, 0) = 0 ∧ v (0, 1) = 0 ∧ v (1, 0) = 0 ∧ v (1, 1) = 0 ∧ v (0, 2) = v (1, 2) := by
  have e : ∀ na i, ∑ nb, ∑ j, d (na, i) (nb, j) * v (nb, j) = 0 := by
    intro na i
    have := congrFun hv (na, i)
    simpa [Matrix.mulVec, dotProduct, Fintype.sum_prod_type] using this
  simp only [hd, Fin.sum_univ_two, Fin.sum_univ_three] at e
  have e00 := e 0 0
  have e01 := e 0 1
  have e02 := e 0 2
  have e10 := e 1 0
  have e11 := e 1 1
  simp [skew] at e00 e01 e02 e10 e11
  norm_num at e00 e01 e02 e10 e11
  have h1 : v (1, 0) = v (1, 1) := by linear_combination -e00 - e01
  have h2 : v (0, 0) = 0 := by linear_combination -e10 + h1
  have h3 : v (1, 1) = 0 := by linear_combination -e11 - e01 + h2 - h1
  refine ⟨h2, ?_, h1.trans h3, h3, by linear_combination e02⟩
  linear_combination e01 + h2 + h3

theorem skew_zero_count (d : DynM 2) (e : Fin (2 * 3) → ℝ) (u : Matrix (Fin 2 × Fin 3) (Fin (2 * 3)) ℂ)
    (hd : ∀ na nb i j, d (na, i) (nb, j) =
      ((if na = nb then -((skew i j + skew j i) / 2) else if na = 0 then skew i j else skew j i : ℝ) : ℂ))
    (h : IsEigenDecomposition d e u) : (Finset.univ.filter fun b => e b = 0).card ≤ 1 := by
  rw [Finset.card_le_one]
  have key : ∀ b, e b = 0 → d.mulVec (fun a => u a b) = 0 := by
    intro b hb
    funext a
    have := congrFun (congrFun h.eigen a) b
    rw [Matrix.mul_diagonal, hb] at this
    simpa [Matrix.mul_apply, Matrix.mulVec, dotProduct] using this
  intro b hb b' hb'
  have k1 := skew_kernel d _ hd (key b (Finset.mem_filter.mp hb).2)
  have k2 := skew_kernel d _ hd (key b' (Finset.mem_filter.mp hb').2)
  by_contra hne
  have o1 := congrFun (congrFun h.left b) b
  have o2 := congrFun (congrFun h.left b) b'
  rw [Matrix.one_apply_eq] at o1
  rw [Matrix.one_apply_ne hne] at o2
  simp only [Matrix.mul_apply, Matrix.conjTranspose_apply, Fintype.sum_prod_type, Fin.sum_univ_two,
    Fin.sum_univ_three, k1.1, k1.2.1, k1.2.2.1, k1.2.2.2.1, k1.2.2.2.2, k2.2.2.2.2, star_zero, zero_mul, zero_add] at o1 o2
  have o3 := congrFun (congrFun h.left b') b'
  rw [Matrix.one_apply_eq] at o3
  simp only [Matrix.mul_apply, Matrix.conjTranspose_apply, Fintype.sum_prod_type, Fin.sum_univ_two,
    Fin.sum_univ_three, k2.1, k2.2.1, k2.2.2.1, k2.2.2.2.1, k2.2.2.2.2, star_zero, zero_mul, zero_add] at o3
  have o4 : star (u (1, 2) b) * u (1, 2) b' = 0 := by linear_combination o2 / 2
  rcases mul_eq_zero.mp o4 with o5 | o5
  · rw [o5] at o1; simp at o1
  · rw [o5] at o3; simp at o3

end Verif.Model
