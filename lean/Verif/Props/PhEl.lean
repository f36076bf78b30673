import Verif.Model.PhEl
import Verif.Props.ElRates
import Verif.Proofs.VectorBte
import Verif.Props.Pairs
import Verif.Proofs.DynMat

/-! # C120: phonon linewidths due to electrons -/
namespace Verif.Props
open Verif.Model Verif.Spec

/-- Golden rule for one transition of an electron from state 1 to state 2 by absorption of the phonon: the populations
of the two states are subtracted. -/
noncomputable def goldenRule (p : ElSetup) (coupling : ℝ) (s1 s2 : ElState) (e3 : ℝ) : ℝ :=
  coupling * (fermiDirac s1.energy p.temperature p.mu - fermiDirac s2.energy p.temperature p.mu) *
    phelSmearing p s1 s2 e3 * p.norm / e3 * Real.pi

/-- The linewidth of the mode with BTE index `b` from the electrons at the wavevectors `ks`, each counted once. -/
noncomputable def electronsAt (p : ElSetup) (d : PhElData) (ks : List Nat) (b : Nat) : ℝ :=
  (ks.map fun k => (d.irrQ.map fun q => (((d.modes q).filter fun m => m.1 = b).map fun m =>
    ((d.pairs k q m.1).map fun t => phelRate p t.2.2 1 t.1 t.2.1 m.2).sum).sum).sum).sum

theorem fermi_difference {e1 e3 T mu : ℝ} (hT : 0 < T) :
    fermiDirac e1 T mu - fermiDirac (e1 + e3) T mu =
      Real.sinh (e3 / (2 * T)) / (2 * Real.cosh ((e1 - mu) / 2 / T) * Real.cosh ((e1 + e3 - mu) / 2 / T)) := by
  unfold fermiDirac
  rw [show (e1 - mu) / 2 / T = (e1 - mu) / T / 2 by ring, show (e1 + e3 - mu) / 2 / T = (e1 + e3 - mu) / T / 2 by ring,
    show e3 / (2 * T) = (e1 + e3 - mu) / T / 2 - (e1 - mu) / T / 2 by field_simp; ring]
  generalize (e1 - mu) / T = x
  generalize (e1 + e3 - mu) / T = y
  have ex : Real.exp x = Real.exp (x / 2) * Real.exp (x / 2) := by rw [← Real.exp_add]; congr 1; ring
  have ey : Real.exp y = Real.exp (y / 2) * Real.exp (y / 2) := by rw [← Real.exp_add]; congr 1; ring
  rw [Real.sinh_eq, Real.cosh_eq, Real.cosh_eq, Real.exp_neg, Real.exp_neg, Real.exp_neg, Real.exp_sub, ex, ey]
  have h1 := Real.exp_pos (x / 2)
  have h2 := Real.exp_pos (y / 2)
  generalize Real.exp (x / 2) = a at *
  generalize Real.exp (y / 2) = b at *
  field_simp
  ring

theorem sinh_div_bounds {x : ℝ} (hx : 0 < x) : 1 ≤ Real.sinh x / x ∧ Real.sinh x / x ≤ Real.cosh x := by
  constructor
  · rw [le_div_iff₀ hx, one_mul]
    exact Real.self_le_sinh_iff.mpr hx.le
  · rw [div_le_iff₀ hx]
    have h0 : ∀ y : ℝ, HasDerivAt (fun z => Real.cosh z * z - Real.sinh z) (Real.sinh y * y) y := by
      intro y
      have := ((Real.hasDerivAt_cosh y).mul (hasDerivAt_id y)).sub (Real.hasDerivAt_sinh y)
      have h2 := this.congr_deriv (g' := Real.sinh y * y) (by simp)
      exact h2
    have hmono : MonotoneOn (fun z : ℝ => Real.cosh z * z - Real.sinh z) (Set.Ici 0) := by
      apply monotoneOn_of_deriv_nonneg (convex_Ici 0)
      · exact fun y _ => (h0 y).continuousAt.continuousWithinAt
      · exact fun y _ => (h0 y).differentiableAt.differentiableWithinAt
      · intro y hy
        rw [interior_Ici, Set.mem_Ioi] at hy
        rw [(h0 y).deriv]
        exact mul_nonneg (Real.sinh_nonneg_iff.mpr hy.le) hy.le
    have := hmono (Set.mem_Ici.mpr le_rfl) (Set.mem_Ici.mpr hx.le) hx.le
    simp only [mul_zero, Real.sinh_zero, sub_zero] at this
    linarith

/-- **C120** (rates): for a transition that conserves energy, the rate is the golden rule up to a factor between
`exp (-e3/kT)` and `exp (e3/2kT)`: phonon energies much smaller than the temperature give the golden rule. -/
theorem C120_rate (p : ElSetup) (hp : GoodElSetup p) (coupling : ℝ) (hc : 0 ≤ coupling) (s1 s2 : ElState) (e3 : ℝ)
    (he : s1.energy + e3 = s2.energy) :
    Real.exp (-(e3 / p.temperature)) * goldenRule p coupling s1 s2 e3 ≤ phelRate p coupling 1 s1 s2 e3 ∧
    phelRate p coupling 1 s1 s2 e3 ≤ Real.exp (e3 / (2 * p.temperature)) * goldenRule p coupling s1 s2 e3 := by
  have hT := hp.temperature
  have hn := hp.norm
  have hpi := Real.pi_pos
  by_cases hcut : e3 < p.phononCutoff
  · have : phelSmearing p s1 s2 e3 = 0 := by unfold phelSmearing; rw [if_pos hcut]
    unfold phelRate goldenRule
    rw [this]
    simp
  · have h3 : 0 < e3 := lt_of_lt_of_le hp.cutoff (not_lt.mp hcut)
    have hsm : 0 ≤ phelSmearing p s1 s2 e3 := by
      unfold phelSmearing
      rw [if_neg hcut]; exact le_max_right _ _
    unfold phelRate goldenRule
    rw [← he, fermi_difference hT]
    have hpp : getPopPopPm1 .fermi s1.energy p.temperature p.mu =
        1 / (2 * Real.cosh ((s1.energy - p.mu) / 2 / p.temperature)) ^ 2 := by
      have hc := Real.cosh_pos ((s1.energy - p.mu) / 2 / p.temperature)
      unfold getPopPopPm1
      simp only
      field_simp
      norm_num
    rw [hpp]
    set x := (s1.energy - p.mu) / 2 / p.temperature with hx
    set y := e3 / (2 * p.temperature) with hy
    have hypos : 0 < y := by positivity
    have hxy : (s1.energy + e3 - p.mu) / 2 / p.temperature = x + y := by rw [hx, hy]; field_simp; ring
    have he3 : e3 = y * (2 * p.temperature) := by rw [hy]; field_simp
    have hexp : -(e3 / p.temperature) = -(2 * y) := by rw [hy]; field_simp
    rw [hxy, hexp]
    obtain ⟨r1, r2⟩ := sinh_div_bounds hypos
    have cx := Real.cosh_pos x
    have cxy := Real.cosh_pos (x + y)
    -- bounds on the ratio of hyperbolic cosines
    have key : ∀ a d : ℝ, 0 ≤ d → Real.cosh (a + d) ≤ Real.exp d * Real.cosh a ∧
        Real.cosh a ≤ Real.exp d * Real.cosh (a + d) := by
      intro a d hd
      have q : ∀ a d : ℝ, Real.cosh (a + d) ≤ Real.exp |d| * Real.cosh a := by
        intro a d
        have := (abs_le.mp (cosh_ratio a d)).2
        have hc := Real.cosh_pos a
        rw [sub_le_sub_iff_right, div_le_iff₀ hc] at this
        exact this
      have q1 := q a d
      have q2 := q (a + d) (-d)
      rw [abs_of_nonneg hd] at q1
      rw [abs_neg, abs_of_nonneg hd, add_neg_cancel_right] at q2
      exact ⟨q1, q2⟩
    obtain ⟨k1, k2⟩ := key x y hypos.le
    have hcosh : Real.cosh y ≤ Real.exp y := by
      rw [Real.cosh_eq]
      have := Real.exp_le_exp.mpr (show -y ≤ y by linarith)
      linarith
    -- both sides have the common factor `A`
    set A := coupling * phelSmearing p s1 s2 e3 * p.norm / p.temperature * Real.pi / (4 * Real.cosh x) with hA
    have hA0 : 0 ≤ A := by positivity
    have eL : coupling * (1 / (2 * Real.cosh x) ^ 2) * phelSmearing p s1 s2 e3 * p.norm / p.temperature * Real.pi * 1 =
        A * (1 / Real.cosh x) := by rw [hA]; field_simp; ring
    have eG : coupling * (Real.sinh y / (2 * Real.cosh x * Real.cosh (x + y))) * phelSmearing p s1 s2 e3 * p.norm / e3 *
        Real.pi = A * (Real.sinh y / y / Real.cosh (x + y)) := by
      rw [hA]
      rw [he3] at *
      generalize phelSmearing p s1 s2 (y * (2 * p.temperature)) = S
      field_simp
      ring
    rw [eL, eG]
    have e2 : Real.exp (-(2 * y)) * (Real.exp y * Real.exp y) = 1 := by
      rw [← Real.exp_add, ← Real.exp_add, show -(2 * y) + (y + y) = 0 by ring, Real.exp_zero]
    have hexpy := Real.exp_pos y
    constructor
    · rw [show Real.exp (-(2 * y)) * (A * (Real.sinh y / y / Real.cosh (x + y))) =
        A * (Real.exp (-(2 * y)) * (Real.sinh y / y / Real.cosh (x + y))) by ring]
      refine mul_le_mul_of_nonneg_left ?_ hA0
      rw [← mul_div_assoc, div_le_div_iff₀ cxy cx, one_mul]
      have h1 : Real.sinh y / y ≤ Real.exp y := r2.trans hcosh
      have h4 : Real.sinh y / y * Real.cosh x ≤ Real.exp y * (Real.exp y * Real.cosh (x + y)) :=
        mul_le_mul h1 k2 cx.le hexpy.le
      calc Real.exp (-(2 * y)) * (Real.sinh y / y) * Real.cosh x
          = Real.exp (-(2 * y)) * (Real.sinh y / y * Real.cosh x) := by ring
        _ ≤ Real.exp (-(2 * y)) * (Real.exp y * (Real.exp y * Real.cosh (x + y))) :=
            mul_le_mul_of_nonneg_left h4 (Real.exp_pos _).le
        _ = (Real.exp (-(2 * y)) * (Real.exp y * Real.exp y)) * Real.cosh (x + y) := by ring
        _ = Real.cosh (x + y) := by rw [e2, one_mul]
    · rw [show Real.exp y * (A * (Real.sinh y / y / Real.cosh (x + y))) =
        A * (Real.exp y * (Real.sinh y / y / Real.cosh (x + y))) by ring]
      refine mul_le_mul_of_nonneg_left ?_ hA0
      rw [← mul_div_assoc, div_le_div_iff₀ cx cxy, one_mul]
      calc Real.cosh (x + y) ≤ Real.exp y * Real.cosh x := k1
        _ ≤ Real.exp y * (Real.sinh y / y) * Real.cosh x := by
            refine mul_le_mul_of_nonneg_right ?_ cx.le
            exact le_mul_of_one_le_right hexpy.le r1

/-- A set-up and a transition at which `C120_rate` applies: absorption of a phonon above the cutoff. -/
example : ∃ (p : ElSetup) (s1 s2 : ElState) (e3 : ℝ), GoodElSetup p ∧ s1.energy + e3 = s2.energy ∧ p.phononCutoff < e3 ∧
    e3 < p.temperature :=
  ⟨⟨1, 0.001, .gaussian 1, 1, 0⟩, ⟨0.2, fun _ => 0⟩, ⟨0.3, fun _ => 0⟩, 0.1,
    ⟨by show (0 : ℝ) < 1; norm_num, by norm_num, by norm_num, by norm_num⟩, by norm_num, by norm_num, by norm_num⟩

theorem phelRate_weight (p : ElSetup) (c w : ℝ) (s1 s2 : ElState) (e3 : ℝ) :
    phelRate p c w s1 s2 e3 = w * phelRate p c 1 s1 s2 e3 := by unfold phelRate; ring

/-- The linewidths as computed: irreducible wavevectors of the electrons, each with the weight of its star. -/
theorem phelLinewidths_val (p : ElSetup) (hs : ElSmearing p.smearing) (d : PhElData) (irrK : List Nat) (size : Nat)
    (hsize : 0 < size) (hfit : irrK.length * size < 18446744073709551616) :
    ∃ res, phelLinewidths p d irrK size [] = .ok res ∧ res.length = size ∧ ∀ f ∈ res, ∀ b,
      f b = (irrK.map fun k => ((d.star k).length : ℝ) * electronsAt p d [k] b).sum := by
  refine ⟨_, by unfold phelLinewidths; cases h : p.smearing with
    | gaussian w => rfl
    | adaptive c q => rfl
    | tetra f => rw [h] at hs; exact absurd hs id, by simp [allReduceSum1_length], ?_⟩
  intro f hf b
  obtain ⟨lw, hlw, rfl⟩ := List.mem_map.mp hf
  show lw b = _
  rw [mem_allReduceSum1 _ _ hlw, List.map_map]
  have key : ∀ (l : List (Nat × ℝ)) (acc : Nat → ℝ), l.foldl (fun lw a => addAt lw a.1 a.2) acc b =
      acc b + (l.map fun a => if a.1 = b then a.2 else 0).sum := by
    intro l
    induction l with
    | nil => intro acc; simp
    | cons e t ih =>
      intro acc
      rw [List.foldl_cons, ih, addAt_val, List.map_cons, List.sum_cons]
      by_cases hb : e.1 = b
      · simp [hb, add_assoc]
      · simp [hb, Ne.symm hb]
  have hone : ∀ k, ((phelAdds p d k).map fun a => if a.1 = b then a.2 else 0).sum =
      ((d.star k).length : ℝ) * electronsAt p d [k] b := by
    intro k
    unfold phelAdds electronsAt
    rw [List.map_cons, List.map_nil, List.sum_cons, List.sum_nil, add_zero, sum_flatMap_map, ← List.sum_map_mul_left]
    congr 1
    apply List.map_congr_left
    intro q _
    rw [sum_flatMap_map, ← List.sum_map_mul_left, sum_filter_map]
    congr 1
    apply List.map_congr_left
    intro m _
    rw [List.map_map]
    by_cases hm : m.1 = b
    · rw [if_pos (by simpa using hm), ← List.sum_map_mul_left]
      congr 1
      apply List.map_congr_left
      intro t _
      simp only [Function.comp, hm, if_true]
      exact phelRate_weight _ _ _ _ _ _
    · rw [if_neg (by simpa using hm)]
      apply List.sum_eq_zero
      intro x hx
      obtain ⟨t, _, rfl⟩ := List.mem_map.mp hx
      simp [hm]
  have hproc : ∀ r, (((fun x : Nat → ℝ => x b) ∘ fun r => phelProcess p d (sliceOf irrK r size)) r) =
      ((sliceOf irrK r size).map fun k => ((d.star k).length : ℝ) * electronsAt p d [k] b).sum := by
    intro r
    simp only [Function.comp, phelProcess]
    rw [key, zero_add, sum_flatMap_map]
    congr 1
    apply List.map_congr_left
    intro k _
    exact hone k
  rw [List.map_congr_left (fun r _ => hproc r), ← sum_flatMap_map, slices_flatten irrK size hsize hfit]

/-- Partial C120: when all electron wavevectors of a star scatter the phonon equally (for instance without symmetries,
or for a phonon whose wavevector is left unchanged by the symmetries), the linewidths are those of the full electron
mesh, for any number of processes.  Missing: phonons moved by the symmetries, see `C120_violated`. -/
theorem C120_full_mesh_partial (p : ElSetup) (hs : ElSmearing p.smearing) (d : PhElData) (irrK mesh : List Nat)
    (size : Nat) (hsize : 0 < size) (hfit : irrK.length * size < 18446744073709551616)
    (hstars : (irrK.flatMap d.star).Perm mesh) (b : Nat)
    (hinv : ∀ k ∈ irrK, ∀ k' ∈ d.star k, electronsAt p d [k'] b = electronsAt p d [k] b) :
    ∃ res, phelLinewidths p d irrK size [] = .ok res ∧ res.length = size ∧
      ∀ f ∈ res, f b = electronsAt p d mesh b := by
  obtain ⟨res, h1, h2, h3⟩ := phelLinewidths_val p hs d irrK size hsize hfit
  refine ⟨res, h1, h2, fun f hf => ?_⟩
  have hsum : ∀ ks, electronsAt p d ks b = (ks.map fun k => electronsAt p d [k] b).sum := by
    intro ks
    unfold electronsAt
    simp only [List.map_cons, List.map_nil, List.sum_cons, List.sum_nil, add_zero]
  rw [h3 f hf b, hsum mesh, ← (hstars.map _).sum_eq, sum_flatMap_map]
  congr 1
  apply List.map_congr_left
  intro k hk
  rw [List.map_congr_left (fun k' hk' => hinv k hk k' hk'), List.map_const', List.sum_replicate, nsmul_eq_mul]

/-- Without symmetries the linewidths are those of the full mesh. -/
theorem C120_no_symmetries (p : ElSetup) (hs : ElSmearing p.smearing) (d : PhElData) (mesh : List Nat)
    (size : Nat) (hsize : 0 < size) (hfit : mesh.length * size < 18446744073709551616)
    (hstar : ∀ k, d.star k = [k]) :
    ∃ res, phelLinewidths p d mesh size [] = .ok res ∧ res.length = size ∧
      ∀ f ∈ res, ∀ b, f b = electronsAt p d mesh b := by
  obtain ⟨res, h1, h2, _⟩ := phelLinewidths_val p hs d mesh size hsize hfit
  refine ⟨res, h1, h2, fun f hf b => ?_⟩
  have hfm : mesh.flatMap d.star = mesh := by
    rw [show d.star = fun k => [k] from funext hstar, List.flatMap_singleton']
  obtain ⟨res', h1', _, h3'⟩ := C120_full_mesh_partial p hs d mesh mesh size hsize hfit (by rw [hfm]) b (by
    intro k _ k' hk'
    rw [hstar k, List.mem_singleton] at hk'
    rw [hk'])
  rw [h1] at h1'
  obtain rfl := Outcome.ok.inj h1'
  exact h3' f hf

/-- The tetrahedron scheme is refused. -/
theorem C120_tetrahedra_refused (p : ElSetup) (f : ℝ → ℝ) (hs : p.smearing = .tetra f) (d : PhElData)
    (irrK : List Nat) (size : Nat) (points : List (DegPoint ℝ)) : phelLinewidths p d irrK size points = .error := by
  unfold phelLinewidths
  rw [hs]

/-- A setup with tetrahedra. -/
example (d : PhElData) : phelLinewidths ⟨1, 0.001, .tetra fun _ => 1, 1, 0⟩ d [0, 1] 2 [] = .error :=
  C120_tetrahedra_refused _ _ rfl _ _ _ _

/-- The linewidths are not negative. -/
theorem C120_nonneg (p : ElSetup) (hp : GoodElSetup p) (d : PhElData) (irrK : List Nat) (size : Nat)
    (hsize : 0 < size) (hfit : irrK.length * size < 18446744073709551616)
    (hc : ∀ k q b, ∀ t ∈ d.pairs k q b, 0 ≤ t.2.2) :
    ∃ res, phelLinewidths p d irrK size [] = .ok res ∧ ∀ f ∈ res, ∀ b, 0 ≤ f b := by
  obtain ⟨res, h1, _, h3⟩ := phelLinewidths_val p hp.smearing d irrK size hsize hfit
  refine ⟨res, h1, fun f hf b => ?_⟩
  rw [h3 f hf b]
  have hT := hp.temperature
  have hn := hp.norm
  have hpi := Real.pi_pos
  apply List.sum_nonneg
  intro x hx
  obtain ⟨k, _, rfl⟩ := List.mem_map.mp hx
  refine mul_nonneg (Nat.cast_nonneg _) ?_
  unfold electronsAt
  rw [List.map_cons, List.map_nil, List.sum_cons, List.sum_nil, add_zero]
  apply List.sum_nonneg
  intro x hx
  obtain ⟨q, _, rfl⟩ := List.mem_map.mp hx
  apply List.sum_nonneg
  intro x hx
  obtain ⟨m, _, rfl⟩ := List.mem_map.mp hx
  apply List.sum_nonneg
  intro x hx
  obtain ⟨t, ht, rfl⟩ := List.mem_map.mp hx
  have h4 := hc k q m.1 t ht
  have h5 : 0 ≤ phelSmearing p t.1 t.2.1 m.2 := by
    unfold phelSmearing
    split
    · exact le_rfl
    · exact le_max_right _ _
  have h6 : 0 ≤ getPopPopPm1 .fermi t.1.energy p.temperature p.mu := by
    unfold getPopPopPm1
    have := Real.cosh_pos ((t.1.energy - p.mu) / 2 / p.temperature)
    simp only
    positivity
  unfold phelRate
  positivity

/-- Electrons of a chain with inversion: wavevectors 0, 1, 2, 3 of a mesh of four points; the coupling is the same when
both wavevectors are inverted, and is not zero for `k = q = 1` and `k = q = -1`. -/
noncomputable def exPhEl : PhElData where
  irrQ := [1]
  modes := fun q => [(q, 0.01)]
  pairs := fun k q _ => [(⟨0, fun _ => 0⟩, ⟨0.01, fun _ => 0⟩, if k = q ∧ (k = 1 ∨ k = 3) then 1 else 0)]
  star := fun k => if k = 1 then [1, 3] else [k]

/-- The full C120 is violated: with inversion symmetry the irreducible electron wavevector stands for its whole star,
although the phonon wavevector is not inverted with it.  Here the linewidth is twice that of the full mesh. -/
theorem C120_violated : ∃ (p : ElSetup) (res : List (Nat → ℝ)), GoodElSetup p ∧
    (∀ k < 4, ∀ q < 4, ∀ b, exPhEl.pairs ((4 - k) % 4) ((4 - q) % 4) b = exPhEl.pairs k q b) ∧
    ([0, 1, 2].flatMap exPhEl.star).Perm [0, 1, 2, 3] ∧
    phelLinewidths p exPhEl [0, 1, 2] 1 [] = .ok res ∧ res ≠ [] ∧
    ∀ f ∈ res, f 1 = 2 * electronsAt p exPhEl [0, 1, 2, 3] 1 ∧ f 1 ≠ electronsAt p exPhEl [0, 1, 2, 3] 1 := by
  let p : ElSetup := ⟨1, 0.001, .gaussian 1, 1, 0⟩
  have hp : GoodElSetup p := ⟨by show (0 : ℝ) < 1; norm_num, by norm_num [p], by norm_num [p], by norm_num [p]⟩
  obtain ⟨res, h1, h2, h3⟩ := phelLinewidths_val p hp.smearing exPhEl [0, 1, 2] 1 one_pos (by norm_num)
  have hE : ∀ k, electronsAt p exPhEl [k] 1 = if k = 1 then phelRate p 1 1 ⟨0, fun _ => 0⟩ ⟨0.01, fun _ => 0⟩ 0.01 else 0 := by
    intro k
    unfold electronsAt exPhEl
    by_cases hk : k = 1
    · simp [hk]
    · simp [hk, phelRate]
  have hpos : 0 < phelRate p 1 1 ⟨0, fun _ => 0⟩ ⟨0.01, fun _ => 0⟩ 0.01 := by
    have hsm : 0 < phelSmearing p ⟨0, fun _ => 0⟩ ⟨0.01, fun _ => 0⟩ 0.01 := by
      unfold phelSmearing
      rw [if_neg (by norm_num [p])]
      apply lt_max_of_lt_left
      show 0 < gaussianSmearing 1 ((0 : ℝ) - 0.01 + 0.01)
      have hpre := gaussian_prefactor_pos (w := 1) (by norm_num)
      unfold gaussianSmearing
      simp only
      rw [if_neg (by norm_num)]
      positivity
    have hpp : 0 < getPopPopPm1 .fermi (0 : ℝ) p.temperature p.mu := by
      unfold getPopPopPm1
      have := Real.cosh_pos ((0 - p.mu) / 2 / p.temperature)
      simp only
      positivity
    have hpi := Real.pi_pos
    have hT : 0 < p.temperature := by norm_num [p]
    have hn : 0 < p.norm := by norm_num [p]
    unfold phelRate
    positivity
  refine ⟨p, res, hp, ?_, by decide, h1, by intro h; rw [h] at h2; simp at h2, ?_⟩
  · intro k hk q hq b
    simp only [exPhEl]
    congr 3
    have : ((4 - k) % 4 = (4 - q) % 4 ∧ ((4 - k) % 4 = 1 ∨ (4 - k) % 4 = 3)) ↔ (k = q ∧ (k = 1 ∨ k = 3)) := by omega
    simp only [this]
  · intro f hf
    have hmesh : electronsAt p exPhEl [0, 1, 2, 3] 1 = phelRate p 1 1 ⟨0, fun _ => 0⟩ ⟨0.01, fun _ => 0⟩ 0.01 := by
      have : electronsAt p exPhEl [0, 1, 2, 3] 1 = ([0, 1, 2, 3].map fun k => electronsAt p exPhEl [k] 1).sum := by
        unfold electronsAt
        simp only [List.map_cons, List.map_nil, List.sum_cons, List.sum_nil, add_zero]
      rw [this]
      simp [hE]
    have hf1 : f 1 = 2 * phelRate p 1 1 ⟨0, fun _ => 0⟩ ⟨0.01, fun _ => 0⟩ 0.01 := by
      rw [h3 f hf 1]
      simp only [List.map_cons, List.map_nil, List.sum_cons, List.sum_nil, hE]
      norm_num [exPhEl]
    rw [hmesh, hf1]
    exact ⟨rfl, by linarith⟩

/-- A case of `C120_full_mesh_partial` with a star of two points: a phonon left unchanged by the inversion. -/
example : ∃ (p : ElSetup) (d : PhElData), ElSmearing p.smearing ∧ ([0, 1, 2].flatMap d.star).Perm [0, 1, 2, 3] ∧
    (∀ k ∈ [0, 1, 2], ∀ k' ∈ d.star k, electronsAt p d [k'] 0 = electronsAt p d [k] 0) ∧ (d.star 1).length = 2 ∧
    d.pairs 1 0 0 ≠ [] := by
  refine ⟨⟨1, 0.001, .gaussian 1, 1, 0⟩, { exPhEl with irrQ := [0], pairs := fun _ _ _ => [(⟨0, fun _ => 0⟩, ⟨0.01, fun _ => 0⟩, 1)] },
    one_pos, by decide, ?_, by decide, by simp⟩
  intro k _ k' _
  simp [electronsAt]

/-- Calls of the collective `cacheElPh` by a process. -/
def phelCalls (irrK irrQ : List Nat) (rank size : Nat) : Nat :=
  (elLoop (phelPairs irrK irrQ rank size)).count .cacheElPh

theorem phelCalls_eq (irrK irrQ : List Nat) (rank size : Nat) :
    phelCalls irrK irrQ rank size = (sliceOf irrK rank size).length := by
  unfold phelCalls phelPairs
  induction sliceOf irrK rank size with
  | nil => rfl
  | cons k l ih =>
    unfold elLoop at ih ⊢
    rw [List.map_cons, List.flatMap_cons, List.count_append, ih, List.length_cons]
    unfold elIteration
    rw [if_neg (show ¬ Int.ofNat k = -1 by simp)]
    rw [List.count_cons_self, List.count_cons_of_ne (by simp)]
    simp; omega

/-- Partial C120 (pools): when the number of processes divides the number of irreducible wavevectors, all processes make
the same number of collective calls.  Missing: other numbers, see `C120_violated_pool`. -/
theorem C120_pool_partial (irrK irrQ : List Nat) (size c : Nat) (hlen : irrK.length = c * size) (r r' : Nat)
    (hr : r < size) (hr' : r' < size) (hfit : irrK.length * size < 18446744073709551616) :
    phelCalls irrK irrQ r size = phelCalls irrK irrQ r' size := by
  rw [phelCalls_eq, phelCalls_eq]
  have key : ∀ s, s < size → (sliceOf irrK s size).length = c := by
    intro s hs
    unfold sliceOf
    rw [divideWork_val hfit hs]
    have hpos : 0 < size := by omega
    have e : ∀ t, head irrK.length size t = c * t := by
      intro t
      unfold head
      rw [hlen, show c * size * t = c * t * size by ring, Nat.mul_div_cancel _ hpos]
    rw [List.length_take, List.length_drop, e, e, hlen]
    have : c * (s + 1) ≤ c * size := Nat.mul_le_mul_left c hs
    rw [Nat.mul_add, Nat.mul_one] at this ⊢
    omega
  rw [key r hr, key r' hr']

/-- Four irreducible wavevectors on two processes: two collective calls each. -/
example : phelCalls [0, 1, 2, 3] [0, 5] 0 2 = 2 ∧ phelCalls [0, 1, 2, 3] [0, 5] 1 2 = 2 := by
  rw [phelCalls_eq, phelCalls_eq]; decide

/-- The full C120 is violated with pools: two processes of a pool with three irreducible wavevectors make one and two
collective calls, so the calculation never ends. -/
theorem C120_violated_pool : phelCalls [0, 1, 2] [0] 0 2 ≠ phelCalls [0, 1, 2] [0] 1 2 := by
  rw [phelCalls_eq, phelCalls_eq]; decide

end Verif.Props
