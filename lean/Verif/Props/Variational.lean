import Verif.Proofs.Variational
import Verif.Props.Omini

/-!
# C116: the variational solver of the Boltzmann equation
-/
namespace Verif.Props
open Verif.Model Verif.Spec Matrix

/-- The coefficient of the solution `x` (component, state) of the equation with the right hand side `b`. -/
noncomputable def solutionCoefficient (norm : Nat → ℝ) (S : Finset Nat) (c : Nat) (x : Nat → Nat → ℝ) (b : VBte ℝ)
    (i j : Fin 3) : ℝ := norm c * ∑ s ∈ S, x i s * b.get c j s

/-- Electrons, without symmetries, scattering matrix symmetric and positive definite: the diagonal coefficients printed
during the iterations never exceed those of the solution and never decrease; from as many iterations as there are states on,
all the coefficients printed, and the populations returned, are those of the solution.  At least four iterations are made. -/
theorem C116_electrons {mu temps n : Nat} {ex : List Nat} {mul : VBte ℝ → VBte ℝ} {a : Nat → Nat → Nat → ℝ}
    (hmul : MulActs mu temps n ex mul a) {B : BandView} {size : Nat} {sched : Nat → List (List Nat)}
    (hB : PlainRun B n size sched) {bE bT : VBte ℝ} (hE : Shape mu temps n ex bE) (hT : Shape mu temps n ex bT)
    (normE normT : Nat → ℝ) (threshold : ℝ) (maxIter : Nat) (hmax : 0 < maxIter)
    (printed : List ((Nat → Mat3) × (Nat → Mat3))) (zE zT : VBte ℝ)
    (hrun : elVariational mul B size sched normE normT bE bT threshold maxIter = .ok (printed, zE, zT))
    (c : Nat) (hc : c < mu * temps) (hA : PosDef (freeStates n ex) (a c)) (hnE : 0 ≤ normE c) (hnT : 0 ≤ normT c)
    (xE xT : Nat → Nat → ℝ) (hxE : ∀ i < 3, Solves (freeStates n ex) (a c) (fun s => bE.get c i s) (xE i))
    (hxT : ∀ i < 3, Solves (freeStates n ex) (a c) (fun s => bT.get c i s) (xT i)) :
    4 ≤ printed.length ∧ printed.length ≤ maxIter ∧
    (∀ k (hk : k < printed.length) (i : Fin 3),
      (printed[k]).1 c i i ≤ solutionCoefficient normE (freeStates n ex) c xE bE i i ∧
      (printed[k]).2 c i i ≤ solutionCoefficient normT (freeStates n ex) c xT bT i i) ∧
    (∀ k (hk : k + 1 < printed.length) (i : Fin 3),
      (printed[k]).1 c i i ≤ (printed[k + 1]).1 c i i ∧ (printed[k]).2 c i i ≤ (printed[k + 1]).2 c i i) ∧
    (∀ k (hk : k < printed.length), (freeStates n ex).card ≤ k + 1 → ∀ i j : Fin 3,
      (printed[k]).1 c i j = solutionCoefficient normE (freeStates n ex) c xE bE i j ∧
      (printed[k]).2 c i j = solutionCoefficient normT (freeStates n ex) c xT bT i j) ∧
    ((freeStates n ex).card ≤ printed.length → ∀ i < 3, ∀ s ∈ freeStates n ex,
      zE.get c i s = xE i s ∧ zT.get c i s = xT i s) := by
  obtain ⟨sE, e1, e2, _⟩ := cgStart_val hmul hE hE
  obtain ⟨sT, t1, t2, _⟩ := cgStart_val hmul hT hT
  unfold elVariational at hrun
  simp only [e1, t1, Outcome.bind_eq, Outcome.bind_ok] at hrun
  obtain ⟨m, m1, m2, m3, m4, m5⟩ := elCgLoop_val hmul hB e2 t2 _ _ bE bT _ threshold maxIter 0 _ [] _ hrun
  have m2' := m2 hmax
  simp only [List.nil_append, Nat.zero_add] at m3 m4 m5
  have hlen : printed.length = m := by rw [m3]; simp
  have fE := fun k => cg_functional hmul hB hE hE e1 e2 hc hA hnE xE hxE (k + 1)
  have fT := fun k => cg_functional hmul hB hT hT t1 t2 hc hA hnT xT hxT (k + 1)
  subst m3
  refine ⟨by omega, by omega, ?_, ?_, ?_, ?_⟩
  · intro k hk i
    simp only [List.getElem_map, List.getElem_range]
    exact ⟨(fE k).1 i, (fT k).1 i⟩
  · intro k hk i
    simp only [List.getElem_map, List.getElem_range]
    exact ⟨(fE k).2.1 i, (fT k).2.1 i⟩
  · intro k hk hcard i j
    simp only [List.getElem_map, List.getElem_range]
    exact ⟨(fE k).2.2 hcard i j, (fT k).2.2 hcard i j⟩
  · intro hcard i hi s hs
    rw [m4, m5]
    have h1 := cg_exact hmul hB hE hE e1 hc hA (k := m) (by omega) hi (hxE i hi)
    have h2 := cg_exact hmul hB hT hT t1 hc hA (k := m) (by omega) hi (hxT i hi)
    exact ⟨congrFun h1 ⟨s, hs⟩, congrFun h2 ⟨s, hs⟩⟩

/-- Phonons: the conductivity printed is that of the solution once there have been more iterations than states.  Missing: that
before, it is a lower bound that improves, and that the run only ends near the solution (`C116_violated`). -/
theorem C116_phonons_partial {mu temps n : Nat} {ex : List Nat} {mul : VBte ℝ → VBte ℝ} {a : Nat → Nat → Nat → ℝ}
    (hmul : MulActs mu temps n ex mul a) {B : BandView} {size : Nat} {sched : Nat → List (List Nat)}
    (hB : PlainRun B n size sched) {b f0 : VBte ℝ} (hb : Shape mu temps n ex b) (hf0 : Shape mu temps n ex f0)
    (norm : Nat → ℝ) (condRTA : Nat → Mat3) (threshold : ℝ) (maxIter : Nat) (hmax : 0 < maxIter)
    (printed : List (Nat → Mat3))
    (hrun : phVariational mul B size sched norm b f0 condRTA threshold maxIter = .ok printed)
    (c : Nat) (hc : c < mu * temps) (hA : PosDef (freeStates n ex) (a c))
    (x : Nat → Nat → ℝ) (hx : ∀ i < 3, Solves (freeStates n ex) (a c) (fun s => b.get c i s) (x i)) :
    1 ≤ printed.length ∧ printed.length ≤ maxIter ∧
    ∀ k (hk : k < printed.length), (freeStates n ex).card ≤ k → ∀ i j : Fin 3,
      printed[k] c i j = solutionCoefficient norm (freeStates n ex) c x b i j := by
  obtain ⟨s0, e1, e2, _⟩ := cgStart_val hmul hb hf0
  unfold phVariational at hrun
  simp only [e1, Outcome.bind_eq, Outcome.bind_ok] at hrun
  obtain ⟨m, m1, m2, m3⟩ := phCgLoop_val hmul hB e2 _ b _ threshold maxIter 0 _ [] _ hrun
  have m2' := m2 hmax
  simp only [List.nil_append, Nat.zero_add] at m3
  subst m3
  refine ⟨by simp; omega, by simp; omega, ?_⟩
  intro k hk hcard i j
  simp only [List.getElem_map, List.getElem_range]
  exact cg_stale_exact hmul hB hb hf0 e1 e2 hc hA norm x hx hcard i j

/-! ### An example: two states that exchange heat -/

/-- The matrix with `w` on the diagonal and `w * q` beside it. -/
noncomputable def twoMul (w q : ℝ) (x : VBte ℝ) : VBte ℝ :=
  ⟨x.numChemPots, x.numTemps, x.dim, x.numStates, fun row s => w * (x.data row s + q * x.data row (1 - s)), x.exclude⟩

/-- Its elements. -/
noncomputable def twoMat (w q : ℝ) (s t : Nat) : ℝ := if s = t then w else w * q

theorem twoMul_acts (w q : ℝ) : MulActs 1 1 2 [] (twoMul w q) (fun _ => twoMat w q) where
  shape x hx := ⟨hx.mu, hx.temps, hx.dim, hx.states, hx.ex⟩
  val x _ c _ i _ s hs := by
    rw [freeStates_two] at hs ⊢
    rw [Finset.sum_pair (by decide)]
    rw [Finset.mem_insert, Finset.mem_singleton] at hs
    show w * (x.get c i s + q * x.get c i (1 - s)) = _
    obtain rfl | rfl := hs
    · unfold twoMat; simp; ring
    · unfold twoMat; simp; ring

theorem twoMat_posDef (w q : ℝ) (hw : 0 < w) (hq : |q| < 1) : PosDef (freeStates 2 []) (twoMat w q) where
  symm u _ v _ := by unfold twoMat; simp only [eq_comm]
  pos x hx := by
    obtain ⟨u, hu, hx⟩ := hx
    rw [freeStates_two] at hu ⊢
    have e : ∑ s ∈ ({0, 1} : Finset Nat), ∑ t ∈ ({0, 1} : Finset Nat), x s * twoMat w q s t * x t =
        w * (x 0 * x 0 + 2 * q * (x 0 * x 1) + x 1 * x 1) := by
      rw [Finset.sum_pair (by decide), Finset.sum_pair (by decide), Finset.sum_pair (by decide)]
      unfold twoMat
      simp
      ring
    rw [e]
    apply mul_pos hw
    obtain ⟨h1, h2⟩ := abs_lt.mp hq
    rw [Finset.mem_insert, Finset.mem_singleton] at hu
    have h3 : 0 < x 0 * x 0 + x 1 * x 1 := by
      obtain rfl | rfl := hu
      · have := mul_self_pos.mpr hx; nlinarith [mul_self_nonneg (x 1)]
      · have := mul_self_pos.mpr hx; nlinarith [mul_self_nonneg (x 0)]
    by_cases hs : 0 ≤ x 0 * x 1
    · nlinarith [mul_self_nonneg (x 0 - x 1)]
    · nlinarith [mul_self_nonneg (x 0 + x 1), not_le.mp hs]

theorem twoMat_solves (w q v : ℝ) (hw : 0 < w) (hq : |q| < 1) (i : Nat) : Solves (freeStates 2 []) (twoMat w q)
    (fun s => (twoVec (w * v)).get 0 i s) (fun _ => if i = 0 then v / (1 + q) else 0) := by
  intro s hs
  have hq1 : 1 + q ≠ 0 := by have := (abs_lt.mp hq).1; intro h; linarith
  rw [freeStates_two] at hs ⊢
  rw [Finset.sum_pair (by decide)]
  simp only [twoVec_get]
  rw [Finset.mem_insert, Finset.mem_singleton] at hs
  by_cases hi : i = 0
  · simp only [if_pos hi]
    obtain rfl | rfl := hs <;> · unfold twoMat; simp; field_simp; try ring
  · simp only [if_neg hi, mul_zero, add_zero]

theorem two_dot_const (y z : ℝ) : (fun _ : freeStates 2 [] => y) ⬝ᵥ (fun _ => z) = 2 * y * z := by
  rw [dot_vec (freeStates 2 []) (fun _ => y) (fun _ => z), freeStates_two, Finset.sum_pair (by decide)]
  ring

theorem two_mul_const (w q y : ℝ) : matOf 2 [] (twoMat w q) *ᵥ (fun _ : freeStates 2 [] => y) = fun _ => w * (1 + q) * y := by
  rw [mulVec_vec 2 [] (twoMat w q) (fun _ => y)]
  funext ⟨s, hs⟩
  show ∑ t ∈ freeStates 2 [], twoMat w q s t * y = w * (1 + q) * y
  rw [freeStates_two, Finset.mem_insert, Finset.mem_singleton] at hs
  rw [freeStates_two, Finset.sum_pair (by decide)]
  obtain h | h := hs <;> · simp only [h]; unfold twoMat; simp; ring

theorem two_vec (v : ℝ) (i : Nat) : vecOf 2 [] (twoVec v) 0 i = fun _ => if i = 0 then v else 0 := by
  funext s
  exact twoVec_get v i s.1

/-- On the two states the first step reaches the solution. -/
theorem two_first_step (w q v : ℝ) (hw : 0 < w) (hq : |q| < 1) : ∃ s0, cgStart (twoMul w q) (twoVec w) (twoVec v) = .ok s0 ∧
    CgShape 1 1 2 [] s0 ∧ s0.f = twoVec v ∧ ∀ k, ∀ i < 3,
      vecOf 2 [] (twoMul w q (cgIter (twoMul w q) (bteDot twoStates 1) s0 (k + 1)).f) 0 i = vecOf 2 [] (twoVec w) 0 i ∧
      vecOf 2 [] (cgIter (twoMul w q) (bteDot twoStates 1) s0 (k + 1)).f 0 i = fun _ => if i = 0 then 1 / (1 + q) else 0 := by
  have hq1 : 0 < 1 + q := by have := (abs_lt.mp hq).1; linarith
  have hmul := twoMul_acts w q
  have hB := twoStates_run
  obtain ⟨s0, e1, e2, e3, e4, e5⟩ := cgStart_val hmul (twoVec_shape w) (twoVec_shape v)
  refine ⟨s0, e1, e2, e3, ?_⟩
  intro k i hi
  have hseq := cgIter_seq hmul hB (twoVec_shape w) (twoVec_shape v) e1 (c := 0) (by norm_num) hi
  have hr0 : vecOf 2 [] s0.r 0 i = fun _ => (if i = 0 then w else 0) - w * (1 + q) * (if i = 0 then v else 0) := by
    rw [e5 0 (by norm_num) i hi, two_vec, two_vec, two_mul_const]
    rfl
  have hr1 : vecOf 2 [] (cgIter (twoMul w q) (bteDot twoStates 1) s0 1).r 0 i = 0 := by
    have h1 := hseq.rs 0
    rw [hseq.d0] at h1
    simp only [show cgIter (twoMul w q) (bteDot twoStates 1) s0 0 = s0 from rfl] at h1
    rw [hr0, two_mul_const, two_dot_const, two_dot_const] at h1
    rw [show cgIter (twoMul w q) (bteDot twoStates 1) s0 1 = cgIter (twoMul w q) (bteDot twoStates 1) s0 (0 + 1) from rfl, h1]
    funext t
    simp only [Pi.sub_apply, Pi.smul_apply, Pi.zero_apply, smul_eq_mul]
    have hW : w * (1 + q) ≠ 0 := mul_ne_zero hw.ne' hq1.ne'
    generalize w * (1 + q) = W at hW ⊢
    generalize ((if i = 0 then w else 0) - W * if i = 0 then v else 0) = y
    by_cases hy : y = 0
    · subst hy; simp
    · rw [if_pos (mul_ne_zero (mul_ne_zero two_ne_zero hy) (mul_ne_zero hW hy))]
      field_simp
      ring
  have hrk := hseq.stays (k := 1) hr1 (k + 1) (by omega)
  have hres := hseq.residual (k + 1)
  simp only [hrk] at hres
  have hAf := sub_eq_zero.mp hres.symm
  have hsh := (cgIter_step hmul hB e2 (k + 1)).1.f
  refine ⟨?_, ?_⟩
  · rw [hmul.vec hsh (by norm_num) hi]
    exact hAf.symm
  · apply solves_unique (twoMat_posDef w q hw hq)
    rw [← hAf, two_mul_const, two_vec]
    funext _
    by_cases h : i = 0
    · simp only [if_pos h]; field_simp
    · simp [h]

/-- Phonons: for every coupling `q` between two states (`0 < |q| < 1`) and every threshold, the variational solver ends at the
first iteration and reports the conductivity of the relaxation time approximation, `1 + q` times that of the solution: above
it if `q > 0`.  (The functional is evaluated with the population of the previous step and the product of the new one.) -/
theorem C116_violated (q t : ℝ) (hq : |q| < 1) (ht : 0 < t) (maxIter : Nat) (hmax : 0 < maxIter) (condRTA : Nat → Mat3)
    (hRTA : ∀ i j, condRTA 0 i j =
      heatConductivity twoStates 2 1 1 [] twoStat 0 (fun u => (twoVec 1).get 0 u.1 u.2) i j) :
    let p := bosePop twoStat 0 1
    let x := fun (i : Nat) (_ : Nat) => if i = 0 then 1 / (1 + q) else 0
    PosDef (freeStates 2 []) (twoMat p q) ∧
    (∀ i < 3, Solves (freeStates 2 []) (twoMat p q) (fun s => (twoVec p).get 0 i s) (x i)) ∧
    ∃ cond, phVariational (twoMul p q) twoStates 1 (fun _ => [[1], [0]]) (fun _ => 1) (twoVec p) (twoVec 1) condRTA t
        maxIter = .ok [cond] ∧
      cond 0 0 0 = condRTA 0 0 0 ∧
      cond 0 0 0 = (1 + q) * heatConductivity twoStates 2 1 1 [] twoStat 0 (fun u => x u.1 u.2) 0 0 ∧
      heatConductivity twoStates 2 1 1 [] twoStat 0 (fun u => x u.1 u.2) 0 0 =
        solutionCoefficient (fun _ => 1) (freeStates 2 []) 0 x (twoVec p) 0 0 ∧
      0 < heatConductivity twoStates 2 1 1 [] twoStat 0 (fun u => x u.1 u.2) 0 0 := by
  intro p x
  have hq1 : 0 < 1 + q := by have := (abs_lt.mp hq).1; linarith
  have hp : 0 < p := twoBose_pos 0 0
  refine ⟨twoMat_posDef p q hp hq, ?_, ?_⟩
  · intro i _
    have := twoMat_solves p q 1 hp hq i
    rw [mul_one] at this
    exact this
  · obtain ⟨s0, e1, e2, e3, e4⟩ := two_first_step p q 1 hp hq
    have hmul := twoMul_acts p q
    have hB := twoStates_run
    have hstep := (cgIter_step hmul hB e2 0).2
    set s1 := cgIter (twoMul p q) (bteDot twoStates 1) s0 (0 + 1) with hs1
    have hR : ∀ i j, condRTA 0 i j = if i = 0 ∧ j = 0 then 2 * bosePop twoStat 0 1 * 1 else 0 := by
      intro i j
      rw [hRTA]
      exact two_heat _ 1 (fun u _ => twoVec_get 1 u.1 u.2) i j
    have hX : ∀ i j, heatConductivity twoStates 2 1 1 [] twoStat 0 (fun u => x u.1 u.2) i j =
        if i = 0 ∧ j = 0 then 2 * bosePop twoStat 0 1 * (1 / (1 + q)) else 0 :=
      fun i j => two_heat _ _ (fun u _ => rfl) i j
    have hC : ∀ i j : Fin 3, calcVariational twoStates (fun _ => 1) 1 (fun _ => [[1], [0]]) (twoMul p q s1.f) s0.f (twoVec p) 0
        i j = if i = 0 ∧ j = 0 then 2 * bosePop twoStat 0 1 * 1 else 0 := by
      intro i j
      rw [calcVariational_val hB e2.f, (e4 0 j j.isLt).1, e3, two_vec, two_vec, two_dot_const]
      have h1 : ∀ k : Fin 3, ((k : Nat) = 0) ↔ k = 0 := fun k => by rw [Fin.ext_iff]; rfl
      by_cases hi : i = 0
      · by_cases hj : j = 0
        · simp only [h1, hi, hj, if_true, and_self]; ring
        · simp [h1, hj]
      · simp [h1, hi]
    refine ⟨calcVariational twoStates (fun _ => 1) 1 (fun _ => [[1], [0]]) (twoMul p q s1.f) s0.f (twoVec p), ?_, ?_, ?_, ?_, ?_⟩
    · unfold phVariational
      simp only [e1, Outcome.bind_eq, Outcome.bind_ok]
      obtain ⟨m, rfl⟩ : ∃ m, maxIter = m + 1 := ⟨maxIter - 1, by omega⟩
      unfold phCgLoop
      have hstep' : cgStep (twoMul p q) (bteDot twoStates 1) s0 = .ok s1 := hstep
      have hch := two_change _ condRTA 1 1 (by norm_num) (by norm_num) hC hR
      simp only [sub_self, zero_div, abs_zero] at hch
      have hnc : (twoVec p).numCalc = 1 := rfl
      simp only [hstep', Outcome.bind_eq, Outcome.bind_ok, hnc, hch, if_pos ht, List.nil_append]
    · rw [hC, hR]
    · rw [hC, hX]
      simp only [and_self, if_true]
      field_simp
    · rw [hX]
      unfold solutionCoefficient
      rw [freeStates_two, Finset.sum_pair (by decide), twoVec_get, twoVec_get]
      simp [x, p]
      ring
    · rw [hX, if_pos ⟨rfl, rfl⟩]
      have : 0 < bosePop twoStat 0 1 := hp
      positivity

/-- The example meets the hypotheses of `C116_electrons`: the run ends after four iterations. -/
theorem two_electron_run (q t : ℝ) (hq : |q| < 1) (ht : 0 < t) : ∃ out,
    elVariational (twoMul (bosePop twoStat 0 1) q) twoStates 1 (fun _ => [[1], [0]]) (fun _ => 1) (fun _ => 1)
      (twoVec (bosePop twoStat 0 1)) (twoVec (bosePop twoStat 0 1)) t 4 = .ok out := by
  have hp : 0 < bosePop twoStat 0 1 := twoBose_pos 0 0
  have hq1 : 0 < 1 + q := by have := (abs_lt.mp hq).1; linarith
  set p := bosePop twoStat 0 1 with hpdef
  obtain ⟨s0, e1, e2, e3, e4⟩ := two_first_step p q p hp hq
  have hmul := twoMul_acts p q
  have hB := twoStates_run
  set it := cgIter (twoMul p q) (bteDot twoStates 1) s0 with hit
  have hstep : ∀ k, cgStep (twoMul p q) (bteDot twoStates 1) (it k) = .ok (it (k + 1)) :=
    fun k => (cgIter_step hmul hB e2 k).2
  have hC : ∀ k (i j : Fin 3), calcVariational twoStates (fun _ => 1) 1 (fun _ => [[1], [0]]) (twoMul p q (it (k + 1)).f)
      (it (k + 1)).f (twoVec p) 0 i j = if i = 0 ∧ j = 0 then 2 * bosePop twoStat 0 1 * (1 / (1 + q)) else 0 := by
    intro k i j
    rw [calcVariational_val hB (cgIter_step hmul hB e2 (k + 1)).1.f, (e4 k j j.isLt).1, (e4 k i i.isLt).2, two_vec,
      two_dot_const]
    have h1 : ∀ k : Fin 3, ((k : Nat) = 0) ↔ k = 0 := fun k => by rw [Fin.ext_iff]; rfl
    by_cases hi : i = 0
    · by_cases hj : j = 0
      · simp only [h1, hi, hj, if_true, and_self]; ring
      · simp [h1, hj]
    · simp [h1, hi]
  have hch : ∀ k, relativeChange 1
      (calcVariational twoStates (fun _ => 1) 1 (fun _ => [[1], [0]]) (twoMul p q (it (k + 1 + 1)).f) (it (k + 1 + 1)).f (twoVec p))
      (calcVariational twoStates (fun _ => 1) 1 (fun _ => [[1], [0]]) (twoMul p q (it (k + 1)).f) (it (k + 1)).f (twoVec p)) =
      .ok 0 := by
    intro k
    have := two_change _ _ (1 / (1 + q)) (1 / (1 + q)) (by positivity) (by norm_num) (hC (k + 1)) (hC k)
    simpa using this
  obtain ⟨d, hd, _⟩ : ∃ d, relativeChange 1
      (calcVariational twoStates (fun _ => 1) 1 (fun _ => [[1], [0]]) (twoMul p q (it (0 + 1)).f) (it (0 + 1)).f (twoVec p))
      (fun _ _ _ => 1) = .ok d ∧ True := by
    have hmem : (1 : ℝ) ∈ relativeEntries 1 (calcVariational twoStates (fun _ => 1) 1 (fun _ => [[1], [0]])
        (twoMul p q (it (0 + 1)).f) (it (0 + 1)).f (twoVec p)) (fun _ _ _ => 1) := by
      refine mem_relativeEntries.mpr ⟨0, by norm_num, 0, 1, by norm_num, ?_⟩
      rw [hC]
      norm_num
    obtain ⟨d, hd, _⟩ := relativeChange_small hmem (by norm_num)
    exact ⟨d, hd, trivial⟩
  have hnc : (twoVec p).numCalc = 1 := rfl
  unfold elVariational
  simp only [e1, Outcome.bind_eq, Outcome.bind_ok, hnc]
  rw [show s0 = it 0 from rfl]
  have step : ∀ k, k < 4 → ∀ left, left = 4 - k → ∀ printed old,
      (∃ d, relativeChange 1 (calcVariational twoStates (fun _ => 1) 1 (fun _ => [[1], [0]]) (twoMul p q (it (k + 1)).f)
        (it (k + 1)).f (twoVec p)) old = .ok d ∧ (k = 3 → d < t)) →
      ∃ out, elCgLoop (twoMul p q) (bteDot twoStates 1) (calcVariational twoStates (fun _ => 1) 1 (fun _ => [[1], [0]]))
        (calcVariational twoStates (fun _ => 1) 1 (fun _ => [[1], [0]])) (twoVec p) (twoVec p) 1 t left k (it k, it k)
        (old, old) printed = .ok out := by
    intro k hk left
    induction left generalizing k with
    | zero => intro h; omega
    | succ left ih =>
      intro hl printed old ⟨d, hd, hd2⟩
      unfold elCgLoop
      simp only [hstep, Outcome.bind_eq, Outcome.bind_ok, hd]
      by_cases h3 : k = 3
      · rw [if_pos ⟨hd2 h3, hd2 h3, by omega⟩]
        exact ⟨_, rfl⟩
      · rw [if_neg (by omega), if_neg (by omega)]
        exact ih (k + 1) (by omega) (by omega) _ _ ⟨0, hch k, fun _ => ht⟩
  exact step 0 (by norm_num) 4 rfl [] _ ⟨d, hd, by omega⟩

/-- A coupled pair of states meets the hypotheses of `C116_electrons`. -/
example : ∃ printed zE zT, elVariational (twoMul (bosePop twoStat 0 1) (1 / 2)) twoStates 1 (fun _ => [[1], [0]]) (fun _ => 1)
      (fun _ => 1) (twoVec (bosePop twoStat 0 1)) (twoVec (bosePop twoStat 0 1)) (1 / 100) 4 = .ok (printed, zE, zT) ∧
    4 ≤ printed.length ∧ zE.get 0 0 1 = 2 / 3 := by
  have hp : 0 < bosePop twoStat 0 1 := twoBose_pos 0 0
  have hq : |(1 / 2 : ℝ)| < 1 := by rw [abs_of_pos (by norm_num)]; norm_num
  obtain ⟨⟨printed, zE, zT⟩, h⟩ := two_electron_run (1 / 2) (1 / 100) hq (by norm_num)
  have hx : ∀ i < 3, Solves (freeStates 2 []) (twoMat (bosePop twoStat 0 1) (1 / 2))
      (fun s => (twoVec (bosePop twoStat 0 1)).get 0 i s) (fun _ => if i = 0 then 1 / (1 + 1 / 2) else 0) := by
    intro i _
    have := twoMat_solves (bosePop twoStat 0 1) (1 / 2) 1 hp hq i
    rw [mul_one] at this
    exact this
  obtain ⟨h1, _, _, _, _, h6⟩ := C116_electrons (twoMul_acts _ _) twoStates_run (twoVec_shape _) (twoVec_shape _) (fun _ => 1)
    (fun _ => 1) (1 / 100) 4 (by norm_num) printed zE zT h 0 (by norm_num) (twoMat_posDef _ _ hp hq) zero_le_one zero_le_one
    (fun i _ => if i = 0 then 1 / (1 + 1 / 2) else 0) (fun i _ => if i = 0 then 1 / (1 + 1 / 2) else 0) hx hx
  refine ⟨printed, zE, zT, h, h1, ?_⟩
  have hcard : (freeStates 2 []).card ≤ printed.length := by rw [freeStates_two]; simp; omega
  rw [(h6 hcard 0 (by norm_num) 1 (by rw [freeStates_two]; simp)).1]
  norm_num

theorem phCgLoop_step {mul : VBte ℝ → VBte ℝ} {dotp : VBte ℝ → VBte ℝ → Outcome (Nat → Nat → ℝ)}
    {cond : VBte ℝ → VBte ℝ → VBte ℝ → Nat → Mat3} {b : VBte ℝ} {numCalc : Nat} {threshold : ℝ} {left : Nat} {s new : CgState}
    {condOld : Nat → Mat3} {printed : List (Nat → Mat3)} {d : ℝ} (h1 : cgStep mul dotp s = .ok new)
    (h2 : relativeChange numCalc (cond (mul new.f) s.f b) condOld = .ok d) :
    phCgLoop mul dotp cond b numCalc threshold (left + 1) s condOld printed =
      if d < threshold then .ok (printed ++ [cond (mul new.f) s.f b])
      else if left = 0 then .error
      else phCgLoop mul dotp cond b numCalc threshold left new (cond (mul new.f) s.f b) (printed ++ [cond (mul new.f) s.f b]) := by
  rw [phCgLoop]
  simp only [h1, h2, Outcome.bind_eq, Outcome.bind_ok]

/-- A run of `C116_phonons_partial` that goes on until the conductivity is exact (here the conductivity to start with is twice
that of the first guess). -/
example : ∃ printed : List (Nat → Mat3), ∃ h : 2 < printed.length,
    phVariational (twoMul (bosePop twoStat 0 1) (1 / 2)) twoStates 1 (fun _ => [[1], [0]]) (fun _ => 1)
      (twoVec (bosePop twoStat 0 1)) (twoVec 1) (fun _ i j => if i = 0 ∧ j = 0 then 2 * bosePop twoStat 0 1 * 2 else 0) (1 / 100)
      3 = .ok printed ∧
    printed[2] 0 0 0 = 2 * bosePop twoStat 0 1 / (1 + 1 / 2) := by
  have hp : 0 < bosePop twoStat 0 1 := twoBose_pos 0 0
  have hq : |(1 / 2 : ℝ)| < 1 := by rw [abs_of_pos (by norm_num)]; norm_num
  have hmul := twoMul_acts (bosePop twoStat 0 1) (1 / 2)
  have hB := twoStates_run
  obtain ⟨s0, e1, e2, e3, e4⟩ := two_first_step (bosePop twoStat 0 1) (1 / 2) 1 hp hq
  obtain ⟨it, hit⟩ : ∃ it, it = cgIter (twoMul (bosePop twoStat 0 1) (1 / 2)) (bteDot twoStates 1) s0 := ⟨_, rfl⟩
  rw [← hit] at e4
  have hstep : ∀ k, CgShape 1 1 2 [] (it k) ∧
      cgStep (twoMul (bosePop twoStat 0 1) (1 / 2)) (bteDot twoStates 1) (it k) = .ok (it (k + 1)) := by
    intro k; rw [hit]; exact cgIter_step hmul hB e2 k
  have h00 : s0 = it 0 := by rw [hit]; rfl
  let cond := calcVariational twoStates (fun _ => 1) 1 (fun _ => [[1], [0]])
  have h1 : ∀ k : Fin 3, ((k : Nat) = 0) ↔ k = 0 := fun k => by rw [Fin.ext_iff]; rfl
  have hC : ∀ (k : Nat) (y : ℝ), (∀ i < 3, vecOf 2 [] (it k).f 0 i = fun _ => if i = 0 then y else 0) → ∀ i j : Fin 3,
      cond (twoMul (bosePop twoStat 0 1) (1 / 2) (it (k + 1)).f) (it k).f (twoVec (bosePop twoStat 0 1)) 0 i j =
        if i = 0 ∧ j = 0 then 2 * bosePop twoStat 0 1 * y else 0 := by
    intro k y hy i j
    show calcVariational _ _ _ _ _ _ _ _ _ _ = _
    rw [calcVariational_val hB (hstep k).1.f, (e4 k j j.isLt).1, hy i i.isLt, two_vec, two_dot_const]
    by_cases hi : i = 0
    · by_cases hj : j = 0
      · simp only [h1, hi, hj, if_true, and_self]; ring
      · simp [h1, hj]
    · simp [h1, hi]
  have hC0 := hC 0 1 (by intro i hi; rw [← h00, e3, two_vec])
  have hC1 := hC 1 (1 / (1 + 1 / 2)) (fun i hi => (e4 0 i hi).2)
  have hC2 := hC 2 (1 / (1 + 1 / 2)) (fun i hi => (e4 1 i hi).2)
  have d0 := two_change _ (fun _ i j => if i = 0 ∧ j = 0 then 2 * bosePop twoStat 0 1 * 2 else 0) 1 2 (by norm_num)
    (by rw [abs_lt]; norm_num) hC0 (fun i j => rfl)
  have d1 := two_change _ _ (1 / (1 + 1 / 2)) 1 (by norm_num) (by rw [abs_lt]; norm_num) hC1 hC0
  have d2 := two_change _ _ (1 / (1 + 1 / 2)) (1 / (1 + 1 / 2)) (by norm_num) (by norm_num) hC2 hC1
  have n0 : ¬ |((1 : ℝ) - 2) / 2| < 1 / 100 := by rw [abs_lt]; norm_num
  have n1 : ¬ |((1 : ℝ) / (1 + 1 / 2) - 1) / 1| < 1 / 100 := by rw [abs_lt]; norm_num
  have n2 : |((1 : ℝ) / (1 + 1 / 2) - 1 / (1 + 1 / 2)) / (1 / (1 + 1 / 2))| < 1 / 100 := by norm_num
  refine ⟨[cond (twoMul (bosePop twoStat 0 1) (1 / 2) (it (0 + 1)).f) (it 0).f (twoVec (bosePop twoStat 0 1)),
    cond (twoMul (bosePop twoStat 0 1) (1 / 2) (it (1 + 1)).f) (it 1).f (twoVec (bosePop twoStat 0 1)),
    cond (twoMul (bosePop twoStat 0 1) (1 / 2) (it (2 + 1)).f) (it 2).f (twoVec (bosePop twoStat 0 1))], by simp, ?_, ?_⟩
  · unfold phVariational
    have hnc : (twoVec (bosePop twoStat 0 1)).numCalc = 1 := rfl
    simp only [e1, Outcome.bind_eq, Outcome.bind_ok, h00, hnc]
    refine (phCgLoop_step (hstep 0).2 d0).trans ?_
    rw [if_neg n0, if_neg (by norm_num)]
    refine (phCgLoop_step (hstep 1).2 d1).trans ?_
    rw [if_neg n1, if_neg (by norm_num)]
    refine (phCgLoop_step (hstep 2).2 d2).trans ?_
    rw [if_pos n2]
    rfl
  · show cond _ _ _ 0 0 0 = _
    rw [hC2]
    simp only [and_self, if_true]
    ring

end Verif.Props
