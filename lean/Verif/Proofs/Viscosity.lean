import Verif.Model.Viscosity
import Verif.Spec.Viscosity
import Verif.Proofs.Transport
import Verif.Props.Particle
import Mathlib.Tactic.Positivity
import Mathlib.Algebra.BigOperators.Field

namespace Verif.Model
open Verif.Spec Verif.Props

theorem tensor4_sum_apply {β : Type} (l : List β) (F : β → Tensor4) (i j k m : Fin 3) :
    (l.map F).sum i j k m = (l.map fun b => F b i j k m).sum := by
  induction l with
  | nil => rfl
  | cons a t ih => simp only [List.map_cons, List.sum_cons, Pi.add_apply, ih]

/-- The full-mesh value of a sum of contributions of stars. -/
theorem visc_val (B : BandView) (Q : WaveView) (st : Statistics) (temp mu spin volume : ℝ) (numPoints : Nat)
    (skip : Nat → Prop) [DecidablePred skip] (tau : Nat → ℝ)
    (size : Nat) (sched : Nat → List (List Nat)) (hs : 0 < size) (hfit : B.irr.length * size < 18446744073709551616)
    (hsched : ∀ r < size, (sched r).flatten.Perm (sliceOf B.irr r size))
    {star : Nat → List Nat} {numStates : Nat} (hU : Unfolding B.irr B.rots star numStates)
    (hE : Invariant B.irr star B.energy) (hV : Covariant B.irr B.rots star B.vel)
    (hQ : ∀ is ∈ B.irr, ∀ p ∈ (B.rots is).zip (star is), Q.fold (matVec p.1 (Q.wave is)) = Q.fold (Q.wave p.2))
    (t : Nat → ℝ) (ht : Invariant B.irr star t) (ht' : ∀ is ∈ B.irr, tau is = t is)
    (sk : Nat → Prop) [DecidablePred sk] (hsk : ∀ is ∈ B.irr, ∀ s ∈ star is, sk s ↔ skip is)
    (term : Nat → Nat → Tensor4) (iCalc : Nat) (norm : ℝ) (hnorm : norm = spin / numPoints / volume)
    (hterm : ∀ is ∈ B.irr, term iCalc is = if skip is then 0 else viscStar B Q st temp mu norm (tau is) is) :
    (stateSum size sched term).length = size ∧
    ∀ f ∈ stateSum size sched term, ∀ i j k l, f iCalc i j k l =
      meshViscosity numStates numPoints volume spin temp (fun s => Q.fold (Q.wave s)) B.vel
        (fun s => if sk s then 0 else getPopPopPm1 st (B.energy s) temp mu) t i j k l := by
  obtain ⟨h1, h2⟩ := stateSum_val B.irr size hs hfit sched hsched term
  refine ⟨h1, ?_⟩
  intro f hf i j k l
  rw [h2 f hf iCalc, tensor4_sum_apply]
  have e : (B.irr.map fun is => term iCalc is i j k l) =
      B.irr.map fun is => ((B.rots is).map fun R => if skip is then 0 else
        Q.fold (matVec R (Q.wave is)) i * matVec R (B.vel is) j * Q.fold (matVec R (Q.wave is)) k * matVec R (B.vel is) l *
          getPopPopPm1 st (B.energy is) temp mu * tau is / temp * norm).sum := by
    apply List.map_congr_left
    intro is his
    rw [hterm is his]
    by_cases hb : skip is
    · simp [hb]
    · simp only [if_neg hb]
      unfold viscStar
      rw [tensor4_sum_apply]
  rw [e, unfold_sum hU (fun is R => if skip is then 0 else
        Q.fold (matVec R (Q.wave is)) i * matVec R (B.vel is) j * Q.fold (matVec R (Q.wave is)) k * matVec R (B.vel is) l *
          getPopPopPm1 st (B.energy is) temp mu * tau is / temp * norm)
      (fun s => (if sk s then 0 else getPopPopPm1 st (B.energy s) temp mu) * t s * Q.fold (Q.wave s) i * B.vel s j *
        Q.fold (Q.wave s) k * B.vel s l * (norm / temp))]
  · unfold meshViscosity
    rw [← Finset.sum_mul, hnorm]
    simp only [div_eq_mul_inv, mul_inv]
    ring
  · intro is his p hp
    have hs2 := zip_mem_snd hp
    by_cases hb : skip is
    · simp only [if_pos hb, if_pos ((hsk is his p.2 hs2).mpr hb)]; ring
    · simp only [if_neg hb, if_neg (fun h => hb ((hsk is his p.2 hs2).mp h))]
      rw [hQ is his p hp, hV is his p hp, hE is his p.2 hs2, ht is his p.2 hs2, ht' is his]
      ring

theorem quad4 (q v : Vec3) (x : Fin 3 → Fin 3 → ℝ) (w : ℝ) :
    ∑ i, ∑ j, ∑ k, ∑ l, x i j * (w * q i * v j * q k * v l) * x k l = w * (∑ i, ∑ j, x i j * q i * v j) ^ 2 := by
  simp only [Fin.sum_univ_three]
  ring

theorem meshViscosity_isViscosity (numStates numPoints : Nat) (volume spin temp : ℝ) (q v : Nat → Vec3) (pop tau : Nat → ℝ)
    (hvol : 0 < volume) (hspin : 0 ≤ spin) (ht : 0 < temp) (hpop : ∀ s < numStates, 0 ≤ pop s)
    (htau : ∀ s < numStates, 0 ≤ tau s) :
    IsViscosity (meshViscosity numStates numPoints volume spin temp q v pop tau) where
  momenta := by
    intro i j k l
    unfold meshViscosity
    congr 2
    exact Finset.sum_congr rfl fun s _ => by ring
  velocities := by
    intro i j k l
    unfold meshViscosity
    congr 2
    exact Finset.sum_congr rfl fun s _ => by ring
  positive := by
    intro x
    have key : ∑ i, ∑ j, ∑ k, ∑ l, x i j * meshViscosity numStates numPoints volume spin temp q v pop tau i j k l * x k l =
        spin / (temp * numPoints * volume) * ∑ s ∈ Finset.range numStates,
          pop s * tau s * (∑ i, ∑ j, x i j * q s i * v s j) ^ 2 := by
      rw [Finset.mul_sum]
      simp only [← quad4]
      have : ∀ i j k l, x i j * meshViscosity numStates numPoints volume spin temp q v pop tau i j k l * x k l =
          ∑ s ∈ Finset.range numStates, spin / (temp * numPoints * volume) *
            (x i j * (pop s * tau s * q s i * v s j * q s k * v s l) * x k l) := by
        intro i j k l
        unfold meshViscosity
        rw [Finset.mul_sum, Finset.sum_div, Finset.mul_sum, Finset.sum_mul]
        exact Finset.sum_congr rfl fun s _ => by ring
      simp only [this, Finset.mul_sum, ← Finset.sum_mul]
      simp only [Fin.sum_univ_three, ← Finset.sum_add_distrib]
    rw [key]
    apply mul_nonneg
    · positivity
    · apply Finset.sum_nonneg
      intro s hs
      have hs' := Finset.mem_range.mp hs
      exact mul_nonneg (mul_nonneg (hpop s hs') (htau s hs')) (sq_nonneg _)

/-! ## Sums over the processes -/

theorem specialSum_val (B : BandView) (st : Statistics) (cutoff : ℝ) (numStates size : Nat) (hs : 0 < size)
    (hfit : numStates * size < 18446744073709551616) (term : Nat → ℝ) :
    specialSum B st cutoff numStates size term =
      ∑ s ∈ Finset.range numStates, if specialSkip B st cutoff s then 0 else term s := by
  unfold specialSum
  rw [← sum_flatMap (β := Nat) (List.range size)
    (fun r => (sliceOf (List.range numStates) r size).map fun is => if specialSkip B st cutoff is then (0 : ℝ) else term is)]
  rw [← List.map_flatMap, slices_flatten _ _ hs (by simpa using hfit)]
  rfl

/-- A sum over the pairs owned by the processes, restricted to a condition, is the sum over the matrix. -/
theorem localSum_val (locals : LocalPairs) (size numStates numColumns : Nat)
    (hd : PairsDistributed locals size numStates numColumns) (P : Nat × Nat → Bool) (g : Nat × Nat → ℝ) :
    ((List.range size).map fun r => (((locals r).filter P).map g).sum).sum =
      ∑ s ∈ Finset.range numStates, ∑ a ∈ Finset.range numColumns, if P (s, a) then g (s, a) else 0 := by
  have h0 : ∀ l : List (Nat × Nat), ((l.filter P).map g).sum = (l.map fun p => if P p then g p else 0).sum := by
    intro l
    induction l with
    | nil => rfl
    | cons a t ih =>
      by_cases h : P a
      · rw [List.filter_cons_of_pos h, List.map_cons, List.sum_cons, List.map_cons, List.sum_cons, if_pos h, ih]
      · rw [List.filter_cons_of_neg h, List.map_cons, List.sum_cons, if_neg h, zero_add, ih]
  simp only [h0]
  rw [← sum_flatMap (List.range size) (fun r => (locals r).map fun p => if P p then g p else 0), ← List.map_flatMap,
    (hd.map _).sum_eq, List.map_flatMap, sum_flatMap]
  simp only [List.map_map]
  rfl

theorem distributed_mem {locals : LocalPairs} {size numStates numColumns : Nat}
    (hd : PairsDistributed locals size numStates numColumns) :
    ∀ r ∈ List.range size, ∀ p ∈ locals r, p.2 < numColumns := by
  intro r hr p hp
  have : p ∈ (List.range size).flatMap locals := List.mem_flatMap.mpr ⟨r, hr, hp⟩
  rw [hd.mem_iff] at this
  obtain ⟨s, _, h⟩ := List.mem_flatMap.mp this
  obtain ⟨a, ha, rfl⟩ := List.mem_map.mp h
  exact List.mem_range.mp ha

theorem distributed_exists {locals : LocalPairs} {size numStates numColumns : Nat}
    (hd : PairsDistributed locals size numStates numColumns) {s a : Nat} (hs : s < numStates) (ha : a < numColumns) :
    ∃ r ∈ List.range size, (s, a) ∈ locals r := by
  have : (s, a) ∈ (List.range size).flatMap locals := by
    rw [hd.mem_iff]
    exact List.mem_flatMap.mpr ⟨s, List.mem_range.mpr hs, List.mem_map.mpr ⟨a, List.mem_range.mpr ha, rfl⟩⟩
  exact List.mem_flatMap.mp this

/-! ## Special eigenvectors -/

theorem rescale_pos {norm : ℝ} (h : norm ≠ 0) (x : ℝ) : rescale norm x = ((x * (1 / Real.sqrt norm) : ℝ) : WithTop ℝ) := by
  unfold rescale; rw [if_neg h]

theorem rescaled_norm (numStates : Nat) (x : Nat → ℝ) (norm : ℝ) (hn : 0 < norm)
    (h : ∑ s ∈ Finset.range numStates, x s ^ 2 = norm) :
    ∑ s ∈ Finset.range numStates, (x s * (1 / Real.sqrt norm)) ^ 2 = 1 := by
  simp only [mul_pow, one_div, inv_pow, Real.sq_sqrt hn.le]
  rw [← Finset.sum_mul, h, mul_inv_cancel₀ hn.ne']

/-! ## Relaxons -/

theorem argMax_spec (n : Nat) (y : Nat → ℝ) (h : 0 < n) : argMax n y < n ∧ ∀ k < n, y k ≤ y (argMax n y) := by
  have key : ∀ m, m ≤ n → argMax m y < n ∧ ∀ k < m, y k ≤ y (argMax m y) := by
    intro m
    induction m with
    | zero => intro _; exact ⟨by simpa [argMax] using h, fun k hk => absurd hk (by omega)⟩
    | succ m ih =>
      intro hm
      obtain ⟨h1, h2⟩ := ih (by omega)
      have e : argMax (m + 1) y = if y (argMax m y) < y m then m else argMax m y := by
        unfold argMax; rw [List.range_succ, List.foldl_append]; rfl
      rw [e]
      split
      · rename_i hlt
        refine ⟨by omega, fun k hk => ?_⟩
        rcases Nat.lt_succ_iff_lt_or_eq.mp hk with h | rfl
        · exact (h2 k h).trans hlt.le
        · exact le_rfl
      · rename_i hlt
        refine ⟨h1, fun k hk => ?_⟩
        rcases Nat.lt_succ_iff_lt_or_eq.mp hk with h | rfl
        · exact h2 k h
        · exact not_lt.mp hlt
  exact key n le_rfl

theorem overlaps_val (n size numStates : Nat) (locals : LocalPairs) (hd : PairsDistributed locals size numStates n)
    (theta : Nat → Nat → ℝ) (x : Nat → ℝ) :
    ∃ prod, overlaps n size locals theta x = .ok prod ∧
      ∀ g < n, prod g = ∑ s ∈ Finset.range numStates, theta s g * x s := by
  unfold overlaps
  rw [if_neg]
  · refine ⟨_, rfl, fun g hg => ?_⟩
    rw [localSum_val locals size numStates n hd]
    apply Finset.sum_congr rfl
    intro s _
    simp only [decide_eq_true_eq]
    rw [Finset.sum_ite_eq' (Finset.range n) g, if_pos (Finset.mem_range.mpr hg)]
  · rintro ⟨r, hr, p, hp, h⟩
    have := distributed_mem hd r hr p hp
    omega

/-- Two orthonormal vectors cannot both have an overlap of three quarters with a vector of norm one. -/
theorem overlap_unique (n numStates : Nat) (theta : Nat → Nat → ℝ) (x : Nat → ℝ) (ho : OrthonormalRelaxons numStates n theta)
    (hx : ∑ s ∈ Finset.range numStates, x s ^ 2 = 1) (a b : Nat) (ha : a < n) (hb : b < n) (hab : a ≠ b)
    (h1 : 0.75 ≤ |∑ s ∈ Finset.range numStates, theta s a * x s|)
    (h2 : 0.75 ≤ |∑ s ∈ Finset.range numStates, theta s b * x s|) : False := by
  set p := ∑ s ∈ Finset.range numStates, theta s a * x s with hp
  set q := ∑ s ∈ Finset.range numStates, theta s b * x s with hq
  have hsum : ∑ s ∈ Finset.range numStates, (x s - p * theta s a - q * theta s b) ^ 2 = 1 - p ^ 2 - q ^ 2 := by
    have e : ∀ s, (x s - p * theta s a - q * theta s b) ^ 2 = x s ^ 2 - 2 * p * (theta s a * x s) - 2 * q * (theta s b * x s) +
        p ^ 2 * (theta s a * theta s a) + q ^ 2 * (theta s b * theta s b) + 2 * p * q * (theta s a * theta s b) := by
      intro s; ring
    simp only [e, Finset.sum_add_distrib, Finset.sum_sub_distrib, ← Finset.mul_sum]
    rw [hx, ← hp, ← hq, ho a ha a ha, ho b hb b hb, ho a ha b hb, if_pos rfl, if_pos rfl, if_neg hab]
    ring
  have hnn : 0 ≤ ∑ s ∈ Finset.range numStates, (x s - p * theta s a - q * theta s b) ^ 2 :=
    Finset.sum_nonneg fun s _ => sq_nonneg _
  have hp2 : (0.75 : ℝ) ^ 2 ≤ p ^ 2 := by rw [← sq_abs p]; exact pow_le_pow_left₀ (by norm_num) h1 2
  have hq2 : (0.75 : ℝ) ^ 2 ≤ q ^ 2 := by rw [← sq_abs q]; exact pow_le_pow_left₀ (by norm_num) h2 2
  rw [hsum] at hnn
  norm_num at hp2 hq2
  linarith

end Verif.Model
