import Verif.Model.Wigner
import Verif.Spec.Wigner
import Verif.Proofs.Transport
import Mathlib.Algebra.Star.BigOperators
import Mathlib.Data.Complex.BigOperators
import Mathlib.Tactic.Positivity

namespace Verif.Model
open Verif.Spec Matrix

theorem withTop_sum {β : Type} (l : List β) (F : β → WithTop ℝ) (f : β → ℝ) (h : ∀ b ∈ l, F b = (f b : WithTop ℝ)) :
    (l.map F).sum = (((l.map f).sum : ℝ) : WithTop ℝ) := by
  induction l with
  | nil => simp
  | cons a t ih =>
    rw [List.map_cons, List.sum_cons, ih (fun b hb => h b (List.mem_cons_of_mem _ hb)), h a List.mem_cons_self,
      List.map_cons, List.sum_cons, WithTop.coe_add]

theorem withTop_sum_top {β : Type} (l : List β) (F : β → WithTop ℝ) (b : β) (hb : b ∈ l) (h : F b = ⊤) :
    (l.map F).sum = ⊤ := by
  induction l with
  | nil => simp at hb
  | cons a t ih =>
    rw [List.map_cons, List.sum_cons]
    rcases List.mem_cons.mp hb with rfl | h'
    · rw [h, WithTop.top_add]
    · rw [ih h', WithTop.add_top]

theorem list_range_sum (n : Nat) (f : Nat → ℝ) : ((List.range n).map f).sum = ∑ k ∈ Finset.range n, f k := rfl

theorem pi_sum_apply {β : Type} (l : List β) (F : β → Fin 3 → Fin 3 → WithTop ℝ) (i j : Fin 3) :
    (l.map F).sum i j = (l.map fun b => F b i j).sum := by
  induction l with
  | nil => rfl
  | cons a t ih => simp only [List.map_cons, List.sum_cons, Pi.add_apply, ih]

theorem recipTime_pos {t : ℝ} (ht : 0 < t) : recipTime (t : WithTop ℝ) = ((1 / t : ℝ) : WithTop ℝ) := by
  show (if t = 0 then _ else _) = _
  rw [if_neg ht.ne']

theorem recipTime_sum {t t' : ℝ} (ht : 0 < t) (ht' : 0 < t') :
    recipTime (t : WithTop ℝ) + recipTime (t' : WithTop ℝ) = ((1 / t + 1 / t' : ℝ) : WithTop ℝ) := by
  rw [recipTime_pos ht, recipTime_pos ht', WithTop.coe_add]

theorem wignerPhPair_val (e1 e2 n1 n2 vel temp norm : ℝ) {t t' : ℝ} (ht : 0 < t) (ht' : 0 < t') :
    wignerPhPair e1 e2 n1 n2 vel (norm / temp / temp / 2) (t : WithTop ℝ) (t' : WithTop ℝ) =
      ((phononWeight temp e1 e2 n1 n2 (1 / t) (1 / t') * vel * norm : ℝ) : WithTop ℝ) := by
  unfold wignerPhPair
  rw [recipTime_sum ht ht']
  show (if 4 * (e1 - e2) ^ 2 + (1 / t + 1 / t') ^ 2 = 0 then _ else _) = _
  have hg : 0 < 1 / t + 1 / t' := by positivity
  have hden : 0 < 4 * (e1 - e2) ^ 2 + (1 / t + 1 / t') ^ 2 := by positivity
  rw [if_neg hden.ne']
  congr 1
  unfold phononWeight
  ring

theorem rotateComplex_eq (R : Mat3) (v : Fin 3 → ℂ) (i : Fin 3) :
    rotateComplex R v i = ∑ j, ((R i j : ℝ) : ℂ) * v j := by
  rw [Fin.sum_univ_three]; rfl

theorem phase_cancel (a : ℝ) (b : ℝ) (x y : ℂ) :
    (Complex.exp (((a - b : ℝ) : ℂ) * Complex.I) * x) * (Complex.exp (((b - a : ℝ) : ℂ) * Complex.I) * y) = x * y := by
  have : Complex.exp (((a - b : ℝ) : ℂ) * Complex.I) * Complex.exp (((b - a : ℝ) : ℂ) * Complex.I) = 1 := by
    rw [← Complex.exp_add, ← add_mul, ← Complex.ofReal_add]
    simp
  linear_combination x * y * this

/-- The sum over the irreducible wavevectors and their rotations of the pairs of bands is the sum over the mesh. -/
theorem wignerPhonon_val (P : PointView) (cutoff volume : ℝ) (numPoints : Nat) (stat : Nat → CalcStat)
    (tau : Nat → Nat → WithTop ℝ) (size : Nat) (hs : 0 < size) (hfit : P.irr.length * size < 18446744073709551616)
    {star : Nat → List Nat} {numQ : Nat} (hU : Unfolding P.irr P.rots star numQ)
    (hB : Invariant P.irr star P.numBands) (hE : Invariant P.irr star P.energy)
    (hV : CovariantVel P.irr P.rots star P.vel)
    (iCalc : Nat) (rate : Nat → Nat → ℝ) (hR : Invariant P.irr star rate)
    (hpos : ∀ iq ∈ P.irr, ∀ b < P.numBands iq, 0 < rate iq b)
    (htau : ∀ iq ∈ P.irr, ∀ b < P.numBands iq, tau iCalc (P.toBte iq b) = ((1 / rate iq b : ℝ) : WithTop ℝ)) :
    (wignerPhonon P cutoff volume numPoints stat tau size).length = size ∧
    ∀ f ∈ wignerPhonon P cutoff volume numPoints stat tau size, ∀ i j, f iCalc i j =
      ((pairSum numQ numPoints P.numBands volume P.vel (fun s b b' => phononWeight (stat iCalc).temp (P.energy s b)
        (P.energy s b') (wignerBose cutoff (stat iCalc).temp (P.energy s b))
        (wignerBose cutoff (stat iCalc).temp (P.energy s b')) (rate s b) (rate s b')) (fun b b' => b ≠ b') i j : ℝ) :
          WithTop ℝ) := by
  obtain ⟨h1, h2⟩ := stateSum_val P.irr size hs hfit (fun r => [sliceOf P.irr r size]) (by intro r _; simp)
    (wignerPhTerm P cutoff volume numPoints stat tau)
  refine ⟨h1, ?_⟩
  intro f hf i j
  rw [h2 f hf iCalc, pi_sum_apply]
  set T := (stat iCalc).temp with hT
  set W : Nat → Nat → Nat → ℝ := fun s b b' => phononWeight T (P.energy s b)
        (P.energy s b') (wignerBose cutoff T (P.energy s b))
        (wignerBose cutoff T (P.energy s b')) (rate s b) (rate s b') with hW
  set F : Nat → Mat3 → ℝ := fun iq rot => ((List.range (P.numBands iq)).map fun ib1 =>
    ((List.range (P.numBands iq)).map fun ib2 => if ib1 = ib2 then 0 else
      W iq ib1 ib2 * (rotateComplex rot (P.vel iq ib1 ib2) i * rotateComplex rot (P.vel iq ib2 ib1) j).re *
        (1 / numPoints / volume)).sum).sum with hF
  rw [withTop_sum P.irr _ (fun iq => ((P.rots iq).map (F iq)).sum)]
  · congr 1
    rw [unfold_sum hU F (fun s => (∑ b ∈ Finset.range (P.numBands s), ∑ b' ∈ Finset.range (P.numBands s),
      if b ≠ b' then W s b b' * (P.vel s b b' i * P.vel s b' b j).re else 0) * (1 / numPoints / volume))]
    · unfold pairSum
      rw [← Finset.sum_mul, div_div, mul_one_div]
    · intro iq hiq p hp
      have hs2 := zip_mem_snd hp
      obtain ⟨θ, hθ⟩ := hV iq hiq p hp
      rw [hB iq hiq p.2 hs2]
      simp only [hF, list_range_sum]
      rw [Finset.sum_mul]
      apply Finset.sum_congr rfl
      intro b _
      rw [Finset.sum_mul]
      apply Finset.sum_congr rfl
      intro b' _
      by_cases hbb : b = b'
      · simp [hbb]
      · rw [if_neg hbb, if_pos hbb]
        have hv : P.vel p.2 b b' i * P.vel p.2 b' b j =
            rotateComplex p.1 (P.vel iq b b') i * rotateComplex p.1 (P.vel iq b' b) j := by
          rw [hθ b b' i, hθ b' b j, phase_cancel, rotateComplex_eq, rotateComplex_eq]
        rw [hv, show W p.2 b b' = W iq b b' by simp only [hW]; rw [hE iq hiq p.2 hs2, hR iq hiq p.2 hs2]]
  · intro iq hiq
    unfold wignerPhTerm
    dsimp only
    apply withTop_sum
    intro R _
    simp only [hF]
    apply withTop_sum
    intro b hb
    apply withTop_sum
    intro b' hb'
    rw [List.mem_range] at hb hb'
    by_cases hbb : b = b'
    · simp [hbb]
    · rw [if_neg hbb, if_neg hbb, htau iq hiq b hb, htau iq hiq b' hb',
        wignerPhPair_val _ _ _ _ _ _ (1 / numPoints / volume) (one_div_pos.mpr (hpos iq hiq b hb))
          (one_div_pos.mpr (hpos iq hiq b' hb')), one_div_one_div, one_div_one_div]

/-! ## Positive tensors -/

/-- A combination with weights that are not negative of `Re (v_bb' v_b'b)` is a conductivity, if `v` is Hermitian. -/
theorem pairSum_isConductivity (numQ numPoints : Nat) (numBands : Nat → Nat) (volume : ℝ) (hN : 0 < numPoints)
    (hvol : 0 < volume) (v : Nat → Nat → Nat → Fin 3 → ℂ) (hv : HermitianVel v) (weight : Nat → Nat → Nat → ℝ)
    (keep : Nat → Nat → Prop) [∀ b b', Decidable (keep b b')]
    (hw : ∀ s < numQ, ∀ b < numBands s, ∀ b' < numBands s, 0 ≤ weight s b b') :
    IsConductivity (fun i j => pairSum numQ numPoints numBands volume v weight keep i j : Matrix (Fin 3) (Fin 3) ℝ) := by
  have hNV : (0 : ℝ) < numPoints * volume := mul_pos (by exact_mod_cast hN) hvol
  constructor
  · intro i j
    show pairSum numQ numPoints numBands volume v weight keep i j = pairSum numQ numPoints numBands volume v weight keep j i
    unfold pairSum
    congr 1
    apply Finset.sum_congr rfl
    intro s _
    apply Finset.sum_congr rfl
    intro b _
    apply Finset.sum_congr rfl
    intro b' _
    split
    · congr 1
      rw [hv s b b' j, hv s b b' i]
      simp only [Complex.mul_re, Complex.conj_re, Complex.conj_im]
      ring
    · rfl
  · intro x
    have e : ∑ i, ∑ j, x i * pairSum numQ numPoints numBands volume v weight keep i j * x j =
        (∑ s ∈ Finset.range numQ, ∑ b ∈ Finset.range (numBands s), ∑ b' ∈ Finset.range (numBands s),
          if keep b b' then weight s b b' * Complex.normSq (∑ i, (x i : ℂ) * v s b b' i) else 0) / (numPoints * volume) := by
      unfold pairSum
      have : ∀ i j, x i * ((∑ s ∈ Finset.range numQ, ∑ b ∈ Finset.range (numBands s), ∑ b' ∈ Finset.range (numBands s),
          if keep b b' then weight s b b' * (v s b b' i * v s b' b j).re else 0) / (numPoints * volume)) * x j =
          (∑ s ∈ Finset.range numQ, ∑ b ∈ Finset.range (numBands s), ∑ b' ∈ Finset.range (numBands s),
          if keep b b' then weight s b b' * (x i * (v s b b' i * v s b' b j).re * x j) else 0) / (numPoints * volume) := by
        intro i j
        rw [mul_div_assoc', div_mul_eq_mul_div, Finset.mul_sum, Finset.sum_mul]
        congr 1
        apply Finset.sum_congr rfl
        intro s _
        rw [Finset.mul_sum, Finset.sum_mul]
        apply Finset.sum_congr rfl
        intro b _
        rw [Finset.mul_sum, Finset.sum_mul]
        apply Finset.sum_congr rfl
        intro b' _
        split
        · ring
        · ring
      simp only [this]
      simp only [← Finset.sum_div]
      congr 1
      rw [Finset.sum_congr rfl fun i _ => Finset.sum_comm, Finset.sum_comm]
      apply Finset.sum_congr rfl
      intro s _
      rw [Finset.sum_congr rfl fun i _ => Finset.sum_comm, Finset.sum_comm]
      apply Finset.sum_congr rfl
      intro b _
      rw [Finset.sum_congr rfl fun i _ => Finset.sum_comm, Finset.sum_comm]
      apply Finset.sum_congr rfl
      intro b' _
      split
      · simp only [← Finset.mul_sum]
        congr 1
        simp only [hv s b b', Fin.sum_univ_three]
        simp only [Complex.normSq_apply, Complex.add_re, Complex.add_im, Complex.mul_re, Complex.mul_im, Complex.conj_re,
          Complex.conj_im, Complex.ofReal_re, Complex.ofReal_im]
        ring
      · simp
    show 0 ≤ ∑ i, ∑ j, x i * pairSum numQ numPoints numBands volume v weight keep i j * x j
    rw [e]
    apply div_nonneg _ hNV.le
    apply Finset.sum_nonneg
    intro s hs
    apply Finset.sum_nonneg
    intro b hb
    apply Finset.sum_nonneg
    intro b' hb'
    split
    · exact mul_nonneg (hw s (Finset.mem_range.mp hs) b (Finset.mem_range.mp hb) b' (Finset.mem_range.mp hb'))
        (Complex.normSq_nonneg _)
    · exact le_rfl

theorem phononWeight_nonneg {temp e e' n n' g g' : ℝ} (he : 0 ≤ e) (he' : 0 ≤ e') (hn : 0 ≤ n) (hn' : 0 ≤ n')
    (hg : 0 < g) (hg' : 0 < g') : 0 ≤ phononWeight temp e e' n n' g g' := by
  unfold phononWeight
  positivity

theorem wignerBose_nonneg (cutoff temp energy : ℝ) : 0 ≤ wignerBose cutoff temp energy := by
  unfold wignerBose getPopulation
  split
  · exact le_rfl
  · split
    · split <;> norm_num
    · dsimp only
      split
      · exact le_rfl
      · linarith

/-! ## Choice of the eigenvectors -/

theorem pairs_invariant {n : Nat} (U : Matrix (Fin n) (Fin n) ℂ) (hU : U ∈ Matrix.unitaryGroup (Fin n) ℂ)
    (W : Fin n → Fin n → ℝ) (hW : ∀ b c b' c', U c b ≠ 0 → U c' b' ≠ 0 → W b b' = W c c')
    (A B A' B' : Matrix (Fin n) (Fin n) ℂ) (hA : A' = Uᴴ * A * U) (hB : B' = Uᴴ * B * U) :
    ∑ b, ∑ b', (W b b' : ℂ) * (A' b b' * B' b' b) = ∑ b, ∑ b', (W b b' : ℂ) * (A b b' * B b' b) := by
  have hUU : U * Uᴴ = 1 := Matrix.mem_unitaryGroup_iff.mp hU
  have key : (Matrix.of fun b b' => (W b b' : ℂ) * A' b b') = Uᴴ * (Matrix.of fun b b' => (W b b' : ℂ) * A b b') * U := by
    ext b b'
    rw [hA]
    simp only [Matrix.of_apply, Matrix.mul_apply, Matrix.conjTranspose_apply, Finset.sum_mul, Finset.mul_sum]
    apply Finset.sum_congr rfl
    intro c' _
    apply Finset.sum_congr rfl
    intro c _
    by_cases h1 : U c b = 0
    · simp [h1]
    · by_cases h2 : U c' b' = 0
      · simp [h2]
      · rw [hW b c b' c' h1 h2]; ring
  have tr : ∀ X Y : Matrix (Fin n) (Fin n) ℂ,
      ∑ b, ∑ b', (W b b' : ℂ) * (X b b' * Y b' b) = ((Matrix.of fun b b' => (W b b' : ℂ) * X b b') * Y).trace := by
    intro X Y
    unfold Matrix.trace
    apply Finset.sum_congr rfl
    intro b _
    rw [Matrix.diag_apply, Matrix.mul_apply]
    apply Finset.sum_congr rfl
    intro b' _
    simp only [Matrix.of_apply]
    ring
  rw [tr, tr, key, hB]
  set C := (Matrix.of fun b b' => (W b b' : ℂ) * A b b')
  have : Uᴴ * C * U * (Uᴴ * B * U) = Uᴴ * (C * B) * U := by
    calc Uᴴ * C * U * (Uᴴ * B * U) = Uᴴ * C * (U * Uᴴ) * B * U := by simp only [Matrix.mul_assoc]
      _ = _ := by rw [hUU, Matrix.mul_one]; simp only [Matrix.mul_assoc]
  rw [this, Matrix.mul_assoc, Matrix.trace_mul_comm, Matrix.mul_assoc, hUU, Matrix.mul_one]

theorem pairSum_all_invariant (numQ numPoints : Nat) (numBands : Nat → Nat) (volume temp : ℝ) (energy rate : Nat → Nat → ℝ)
    (occ : ℝ → ℝ) (v v' : Nat → Nat → Nat → Fin 3 → ℂ) (h : OtherEigenvectors numQ numBands energy rate v v') (i j : Fin 3) :
    pairSum numQ numPoints numBands volume v' (fun s b b' => phononWeight temp (energy s b) (energy s b')
      (occ (energy s b)) (occ (energy s b')) (rate s b) (rate s b')) (fun _ _ => True) i j =
    pairSum numQ numPoints numBands volume v (fun s b b' => phononWeight temp (energy s b) (energy s b')
      (occ (energy s b)) (occ (energy s b')) (rate s b) (rate s b')) (fun _ _ => True) i j := by
  unfold pairSum
  congr 1
  apply Finset.sum_congr rfl
  intro s hs
  obtain ⟨U, hU, hcl, hv⟩ := h s (Finset.mem_range.mp hs)
  set W : Nat → Nat → ℝ := fun b b' => phononWeight temp (energy s b) (energy s b')
      (occ (energy s b)) (occ (energy s b')) (rate s b) (rate s b') with hWd
  have key := pairs_invariant U hU (fun b b' => W b b') (by
    intro b c b' c' h1 h2
    obtain ⟨a1, a2⟩ := hcl c b h1
    obtain ⟨a3, a4⟩ := hcl c' b' h2
    simp only [hWd, a1, a2, a3, a4]) (Matrix.of fun b c : Fin (numBands s) => v s b c i) (Matrix.of fun b c : Fin (numBands s) => v s b c j)
    (Matrix.of fun b c : Fin (numBands s) => v' s b c i) (Matrix.of fun b c : Fin (numBands s) => v' s b c j) (hv i) (hv j)
  have conv : ∀ x : Nat → Nat → Nat → Fin 3 → ℂ,
      (∑ b ∈ Finset.range (numBands s), ∑ b' ∈ Finset.range (numBands s),
        if True then W b b' * (x s b b' i * x s b' b j).re else 0) =
      (∑ b : Fin (numBands s), ∑ b' : Fin (numBands s), ((W b b' : ℝ) : ℂ) *
        ((Matrix.of fun b c : Fin (numBands s) => x s b c i) b b' * (Matrix.of fun b c : Fin (numBands s) => x s b c j) b' b)).re := by
    intro x
    simp only [if_true, Complex.re_sum, Matrix.of_apply, Complex.re_ofReal_mul]
    rw [Finset.sum_range]
    apply Finset.sum_congr rfl
    intro b _
    rw [Finset.sum_range]
  rw [conv v', conv v, key]

theorem pairSum_split (numQ numPoints : Nat) (numBands : Nat → Nat) (volume temp : ℝ) (energy n rate : Nat → Nat → ℝ)
    (hpos : ∀ s < numQ, ∀ b < numBands s, 0 < rate s b)
    (v : Nat → Nat → Nat → Fin 3 → ℂ) (hv : HermitianVel v) (i j : Fin 3) :
    pairSum numQ numPoints numBands volume v (fun s b b' => phononWeight temp (energy s b) (energy s b')
      (n s b) (n s b') (rate s b) (rate s b')) (fun _ _ => True) i j =
    pairSum numQ numPoints numBands volume v (fun s b b' => phononWeight temp (energy s b) (energy s b')
      (n s b) (n s b') (rate s b) (rate s b')) (fun b b' => b ≠ b') i j +
    rtaConductivity numQ numPoints numBands volume temp energy n rate v i j := by
  unfold pairSum rtaConductivity
  rw [← add_div, ← Finset.sum_add_distrib]
  congr 1
  apply Finset.sum_congr rfl
  intro s hs
  rw [← Finset.sum_add_distrib]
  apply Finset.sum_congr rfl
  intro b hb
  have hd : energy s b ^ 2 * n s b * (n s b + 1) / temp ^ 2 * (v s b b i).re * (v s b b j).re / rate s b =
      ∑ b' ∈ Finset.range (numBands s), if b = b' then energy s b ^ 2 * n s b * (n s b + 1) / temp ^ 2 * (v s b b i).re *
        (v s b b j).re / rate s b else 0 := by
    rw [Finset.sum_ite_eq, if_pos hb]
  rw [hd, ← Finset.sum_add_distrib]
  apply Finset.sum_congr rfl
  intro b' _
  by_cases h : b = b'
  · subst h
    simp only [if_true, ne_eq, not_true, if_false, zero_add]
    have him : ∀ k, (v s b b k).im = 0 := by
      intro k
      have := congrArg Complex.im (hv s b b k)
      simp only [Complex.conj_im] at this
      linarith
    rw [Complex.mul_re, him i, him j]
    have hr := hpos s (Finset.mem_range.mp hs) b (Finset.mem_range.mp hb)
    unfold phononWeight
    have : (rate s b + rate s b) / (4 * (energy s b - energy s b) ^ 2 + (rate s b + rate s b) ^ 2) = 1 / (2 * rate s b) := by
      rw [sub_self, div_eq_div_iff (by positivity) (by positivity)]
      ring
    rw [this]
    ring
  · simp [h]

end Verif.Model
