import Verif.Spec.ThirdOrder
import Verif.Props.Sheng
import Verif.Props.Phono3py
import Mathlib.Analysis.SpecialFunctions.Trigonometric.Basic
import Mathlib.Tactic.LinearCombination

/-! # Lemmas on the couplings of a supercell -/
namespace Verif.Proofs
open Verif.Model Verif.Spec Verif.Props

theorem scal_latVec (d : Mat3) (q : Fin 3 → ℝ) (n : V3 Int) :
    scal q (latVec d n) = n.x * scal q (fun i => d i 0) + n.y * scal q (fun i => d i 1) + n.z * scal q (fun i => d i 2) := by
  simp only [scal, latVec, Fin.sum_univ_three]
  ring

/-- Images have the same phase. -/
theorem phase_image {N : V3 Int} {d : Mat3} {q : Fin 3 → ℝ} (hq : FitsSupercell N d q) {n n' : V3 Int} (h : SameImage N n n') (s : ℤ) :
    Complex.exp (Complex.I * ((s * scal q (latVec d n) : ℝ) : ℂ)) = Complex.exp (Complex.I * ((s * scal q (latVec d n') : ℝ) : ℂ)) := by
  obtain ⟨⟨a, ha⟩, ⟨b, hb⟩, ⟨c, hc⟩⟩ := h
  obtain ⟨z0, h0⟩ := hq 0
  obtain ⟨z1, h1⟩ := hq 1
  obtain ⟨z2, h2⟩ := hq 2
  simp only [asFun, Matrix.cons_val_zero, Matrix.cons_val_one, Matrix.cons_val] at h0 h1 h2
  have ex : (n.x : ℝ) = n'.x + N.x * a := by exact_mod_cast (by omega : n.x = n'.x + N.x * a)
  have ey : (n.y : ℝ) = n'.y + N.y * b := by exact_mod_cast (by omega : n.y = n'.y + N.y * b)
  have ez : (n.z : ℝ) = n'.z + N.z * c := by exact_mod_cast (by omega : n.z = n'.z + N.z * c)
  have e : (s * scal q (latVec d n) : ℝ) = s * scal q (latVec d n') + ((s * (a * z0 + b * z1 + c * z2) : ℤ) : ℝ) * (2 * Real.pi) := by
    rw [scal_latVec, scal_latVec, ex, ey, ez]
    push_cast
    linear_combination (s : ℝ) * a * h0 + s * b * h1 + s * c * h2
  rw [e, Complex.ofReal_add, mul_add, Complex.exp_add]
  have : Complex.exp (Complex.I * (((((s * (a * z0 + b * z1 + c * z2) : ℤ) : ℝ) * (2 * Real.pi) : ℝ)) : ℂ)) = 1 := by
    rw [← Complex.exp_int_mul_two_pi_mul_I (s * (a * z0 + b * z1 + c * z2))]
    congr 1
    push_cast
    ring
  rw [this, mul_one]

theorem phase_split (s : ℤ) (q2 q3 r2 r3 : Fin 3 → ℝ) :
    Complex.exp (Complex.I * (((s : ℝ) * scal q2 r2 - scal q3 r3 : ℝ) : ℂ)) =
      Complex.exp (Complex.I * (((s : ℝ) * scal q2 r2 : ℝ) : ℂ)) * Complex.exp (Complex.I * ((((-1 : ℤ) : ℝ) * scal q3 r3 : ℝ) : ℂ)) := by
  rw [← Complex.exp_add]
  congr 1
  push_cast
  ring

/-- The cell of the supercell of which a cell is an image. -/
def foldCell (N : V3 Int) (n : Int × Int × Int) : Int × Int × Int := (n.1 % N.x, n.2.1 % N.y, n.2.2 % N.z)

theorem foldCell_mem {N : V3 Int} (hN : 0 < N.x ∧ 0 < N.y ∧ 0 < N.z) (n : Int × Int × Int) : foldCell N n ∈ superCells N := by
  simp only [superCells, foldCell, Finset.mem_product, Finset.mem_Ico]
  exact ⟨⟨Int.emod_nonneg _ hN.1.ne', Int.emod_lt_of_pos _ hN.1⟩, ⟨Int.emod_nonneg _ hN.2.1.ne', Int.emod_lt_of_pos _ hN.2.1⟩,
    Int.emod_nonneg _ hN.2.2.ne', Int.emod_lt_of_pos _ hN.2.2⟩

theorem foldCell_eq {N : V3 Int} {c : Int × Int × Int} (hc : c ∈ superCells N) (n : Int × Int × Int) :
    foldCell N n = c ↔ SameImage N ⟨n.1, n.2.1, n.2.2⟩ ⟨c.1, c.2.1, c.2.2⟩ := by
  obtain ⟨c1, c2, c3⟩ := c
  simp only [superCells, Finset.mem_product, Finset.mem_Ico] at hc
  have h1 : c1 % N.x = c1 := Int.emod_eq_of_lt hc.1.1 hc.1.2
  have h2 : c2 % N.y = c2 := Int.emod_eq_of_lt hc.2.1.1 hc.2.1.2
  have h3 : c3 % N.z = c3 := Int.emod_eq_of_lt hc.2.2.1 hc.2.2.2
  simp only [foldCell, SameImage, Prod.mk.injEq]
  constructor
  · rintro ⟨a1, a2, a3⟩
    exact ⟨Int.ModEq.dvd (show c1 % N.x = n.1 % N.x by rw [h1, a1]), Int.ModEq.dvd (show c2 % N.y = n.2.1 % N.y by rw [h2, a2]),
      Int.ModEq.dvd (show c3 % N.z = n.2.2 % N.z by rw [h3, a3])⟩
  · rintro ⟨a1, a2, a3⟩
    have e1 : c1 % N.x = n.1 % N.x := Int.modEq_iff_dvd.mpr a1
    have e2 : c2 % N.y = n.2.1 % N.y := Int.modEq_iff_dvd.mpr a2
    have e3 : c3 % N.z = n.2.2 % N.z := Int.modEq_iff_dvd.mpr a3
    exact ⟨by rw [← e1, h1], by rw [← e2, h2], by rw [← e3, h3]⟩

/-- A weighted sum over the cells is a sum over the supercell, if the weights of the images add up to one. -/
theorem sum_images {N : V3 Int} (hN : 0 < N.x ∧ 0 < N.y ∧ 0 < N.z) (w : V3 Int → ℝ) (f : V3 Int → ℂ)
    (hf : ∀ n n', SameImage N n n' → f n = f n')
    (hw : ∀ c ∈ superCells N, ∑ n ∈ (cellBox N).filter (fun n => foldCell N n = c), w ⟨n.1, n.2.1, n.2.2⟩ = 1) :
    ∑ n ∈ cellBox N, (w ⟨n.1, n.2.1, n.2.2⟩ : ℂ) * f ⟨n.1, n.2.1, n.2.2⟩ = ∑ c ∈ superCells N, f ⟨c.1, c.2.1, c.2.2⟩ := by
  rw [← Finset.sum_fiberwise_of_maps_to (t := superCells N) (g := foldCell N) (fun n _ => foldCell_mem hN n)]
  apply Finset.sum_congr rfl
  intro c hc
  have : ∀ n ∈ (cellBox N).filter (fun n => foldCell N n = c), (w ⟨n.1, n.2.1, n.2.2⟩ : ℂ) * f ⟨n.1, n.2.1, n.2.2⟩ =
      (w ⟨n.1, n.2.1, n.2.2⟩ : ℂ) * f ⟨c.1, c.2.1, c.2.2⟩ := by
    intro n hn
    rw [hf _ _ ((foldCell_eq hc n).mp (Finset.mem_filter.mp hn).2)]
  rw [Finset.sum_congr rfl this, ← Finset.sum_mul, ← Complex.ofReal_sum, hw c hc, Complex.ofReal_one, one_mul]

/-- The weights of the cells, if each has an image strictly nearer than the others. -/
theorem imageWeight_nearest {a : Fin 3 → Fin 3 → ℝ} {t : Fin 3 → ℝ} {N : V3 Int} (hN : 0 < N.x ∧ 0 < N.y ∧ 0 < N.z) (h : NearestInside a t N)
    (c : V3 Int) : ∃ n0 : V3 Int, SameImage N n0 c ∧ (n0.x, n0.y, n0.z) ∈ cellBox N ∧ imageWeight a t (asFun N) (asFun n0) = 1 ∧
      ∀ n : V3 Int, SameImage N n c → (n.x, n.y, n.z) ∈ cellBox N → n ≠ n0 → imageWeight a t (asFun N) (asFun n) = 0 := by
  classical
  obtain ⟨n0, hs, hx, hy, hz, hlt⟩ := h c
  refine ⟨n0, hs, ?_, ?_, ?_⟩
  · simp only [cellBox, Finset.mem_product, Finset.mem_Ico]
    omega
  · unfold imageWeight
    rw [if_neg]
    · have : equalCopies a t (asFun N) (asFun n0) = {0} := by
        ext g
        simp only [equalCopies, Finset.mem_filter, Fintype.mem_piFinset, Finset.mem_Icc, Finset.mem_singleton]
        constructor
        · rintro ⟨_, hg⟩
          by_contra hne
          exact absurd hg (hlt g hne).ne'
        · rintro rfl
          refine ⟨fun k => by simp, by simp⟩
      rw [this]
      simp
    · rintro ⟨g, _, hg⟩
      by_cases h0 : g = 0
      · subst h0
        simp at hg
      · exact absurd hg (not_lt.mpr (hlt g h0).le)
  · intro n hn hm hne
    obtain ⟨⟨a1, ha1⟩, ⟨a2, ha2⟩, ⟨a3, ha3⟩⟩ := hs
    obtain ⟨⟨b1, hb1⟩, ⟨b2, hb2⟩, ⟨b3, hb3⟩⟩ := hn
    simp only [cellBox, Finset.mem_product, Finset.mem_Ico] at hm
    have e1 : n.x = n0.x + N.x * (b1 - a1) := by rw [mul_sub]; omega
    have e2 : n.y = n0.y + N.y * (b2 - a2) := by rw [mul_sub]; omega
    have e3 : n.z = n0.z + N.z * (b3 - a3) := by rw [mul_sub]; omega
    have bound {M x x0 g : ℤ} (hM : 0 < M) (h1 : -2 * M ≤ x ∧ x < 2 * M) (h2 : -M ≤ x0 ∧ x0 < M) (h3 : x = x0 + M * g) : |g| ≤ 2 := by
      rw [abs_le]
      constructor
      · by_contra hc
        have : M * g ≤ M * (-3) := mul_le_mul_of_nonneg_left (by omega) hM.le
        omega
      · by_contra hc
        have : M * 3 ≤ M * g := mul_le_mul_of_nonneg_left (by omega) hM.le
        omega
    have l1 := bound hN.1 hm.1 hx e1
    have l2 := bound hN.2.1 hm.2.1 hy e2
    have l3 := bound hN.2.2 hm.2.2 hz e3
    unfold imageWeight
    rw [if_pos]
    refine ⟨![b1 - a1, b2 - a2, b3 - a3], ?_, ?_⟩
    · intro k
      fin_cases k
      · exact l1
      · exact l2
      · exact l3
    · have hn0 : (fun k => asFun n k - asFun N k * (![b1 - a1, b2 - a2, b3 - a3] : Fin 3 → ℤ) k) = asFun n0 := by
        funext k
        fin_cases k
        · simp [asFun, e1]
        · simp [asFun, e2]
        · simp [asFun, e3]
      have hnn : asFun n = fun k => asFun n0 k - asFun N k * (fun k => -(![b1 - a1, b2 - a2, b3 - a3] : Fin 3 → ℤ) k) k := by
        rw [← hn0]
        funext k
        ring
      rw [hn0, hnn]
      apply hlt
      intro h0
      apply hne
      have g0 := congrFun h0 0
      have g1 := congrFun h0 1
      have g2 := congrFun h0 2
      simp only [Matrix.cons_val_zero, Matrix.cons_val_one, Matrix.cons_val, Pi.zero_apply, neg_eq_zero] at g0 g1 g2
      rw [g0, mul_zero, add_zero] at e1
      rw [g1, mul_zero, add_zero] at e2
      rw [g2, mul_zero, add_zero] at e3
      cases n
      cases n0
      simp_all

theorem weights_one {A : Nat} {d : Mat3} {pos : Fin A → Fin 3 → ℝ} {N : V3 Int} (hN : 0 < N.x ∧ 0 < N.y ∧ 0 < N.z) (b b' : Fin A)
    (h : NearestInside (fun k i => d i k) (fun i => pos b' i - pos b i) N) (c : Int × Int × Int) (hc : c ∈ superCells N) (p : ℕ) (hp : p ≠ 0) :
    ∑ n ∈ (cellBox N).filter (fun n => foldCell N n = c), pairWeight d pos N ⟨n.1, n.2.1, n.2.2⟩ b b' ^ p = 1 := by
  classical
  obtain ⟨n0, hs, hm, h1, h2⟩ := imageWeight_nearest hN h ⟨c.1, c.2.1, c.2.2⟩
  rw [Finset.sum_eq_single (n0.x, n0.y, n0.z)]
  · unfold pairWeight
    rw [h1, one_pow]
  · intro n hn hne
    obtain ⟨hn1, hn2⟩ := Finset.mem_filter.mp hn
    unfold pairWeight
    rw [h2 ⟨n.1, n.2.1, n.2.2⟩ ((foldCell_eq hc n).mp hn2) hn1 (by rintro rfl; exact hne rfl), zero_pow hp]
  · intro hn
    exact absurd (Finset.mem_filter.mpr ⟨hm, (foldCell_eq hc _).mpr hs⟩) hn

/-- The coupling with weights is that of the supercell. -/
theorem weightedCoupling_super {A : Nat} {d : Mat3} {pos : Fin A → Fin 3 → ℝ} {N : V3 Int} (hN : 0 < N.x ∧ 0 < N.y ∧ 0 < N.z)
    (h : ∀ b b', NearestInside (fun k i => d i k) (fun i => pos b' i - pos b i) N) (conv : ℝ) (Phi : ForceConstants A) (hP : PeriodicFc N Phi)
    (s : ℤ) {q2 q3 : Fin 3 → ℝ} (h2 : FitsSupercell N d q2) (h3 : FitsSupercell N d q3) (e1 e2 e3 : Nat → ℂ) (p : ℕ) (hp : p ≠ 0) :
    weightedCoupling N (latVec d) (pairWeight d pos N) (fun n b b' => pairWeight d pos N n b b' ^ p) conv Phi s q2 q3 e1 e2 e3 =
      superCoupling N d conv Phi s q2 q3 e1 e2 e3 := by
  unfold weightedCoupling superCoupling
  refine Finset.sum_congr rfl fun b1 _ => Finset.sum_congr rfl fun i _ => Finset.sum_congr rfl fun b2 _ => Finset.sum_congr rfl fun j _ =>
    Finset.sum_congr rfl fun b3 _ => Finset.sum_congr rfl fun k _ => ?_
  congr 1
  simp only [phase_split]
  have inner (n : V3 Int) : ∑ m ∈ cellBox N, ((pairWeight d pos N n b1 b2 * pairWeight d pos N ⟨m.1, m.2.1, m.2.2⟩ b1 b3 ^ p *
        (Phi b1 b2 n b3 ⟨m.1, m.2.1, m.2.2⟩ i j k * conv) : ℝ) : ℂ) *
        (Complex.exp (Complex.I * (((s : ℝ) * scal q2 (latVec d n) : ℝ) : ℂ)) *
          Complex.exp (Complex.I * ((((-1 : ℤ) : ℝ) * scal q3 (latVec d ⟨m.1, m.2.1, m.2.2⟩) : ℝ) : ℂ))) =
      (pairWeight d pos N n b1 b2 : ℂ) * ∑ m ∈ superCells N, ((Phi b1 b2 n b3 ⟨m.1, m.2.1, m.2.2⟩ i j k * conv : ℝ) : ℂ) *
        (Complex.exp (Complex.I * (((s : ℝ) * scal q2 (latVec d n) : ℝ) : ℂ)) *
          Complex.exp (Complex.I * ((((-1 : ℤ) : ℝ) * scal q3 (latVec d ⟨m.1, m.2.1, m.2.2⟩) : ℝ) : ℂ))) := by
    rw [← sum_images hN (fun m => pairWeight d pos N m b1 b3 ^ p) (fun m => ((Phi b1 b2 n b3 m i j k * conv : ℝ) : ℂ) *
        (Complex.exp (Complex.I * (((s : ℝ) * scal q2 (latVec d n) : ℝ) : ℂ)) *
          Complex.exp (Complex.I * ((((-1 : ℤ) : ℝ) * scal q3 (latVec d m) : ℝ) : ℂ)))) ?_ (fun c hc => weights_one hN b1 b3 (h b1 b3) c hc p hp),
      Finset.mul_sum]
    · refine Finset.sum_congr rfl fun m _ => ?_
      push_cast
      ring
    · intro m m' hm
      rw [hP b1 b2 b3 n n m m' (by simp) (by simp) (by simp) hm.1 hm.2.1 hm.2.2, phase_image h3 hm (-1)]
  rw [Finset.sum_congr rfl fun n _ => inner ⟨n.1, n.2.1, n.2.2⟩]
  exact sum_images hN (fun n => pairWeight d pos N n b1 b2) (fun n => ∑ m ∈ superCells N, ((Phi b1 b2 n b3 ⟨m.1, m.2.1, m.2.2⟩ i j k * conv : ℝ) : ℂ) *
        (Complex.exp (Complex.I * (((s : ℝ) * scal q2 (latVec d n) : ℝ) : ℂ)) *
          Complex.exp (Complex.I * ((((-1 : ℤ) : ℝ) * scal q3 (latVec d ⟨m.1, m.2.1, m.2.2⟩) : ℝ) : ℂ))))
    (by
      intro n n' hn
      refine Finset.sum_congr rfl fun m _ => ?_
      rw [hP b1 b2 b3 n n' ⟨m.1, m.2.1, m.2.2⟩ ⟨m.1, m.2.1, m.2.2⟩ hn.1 hn.2.1 hn.2.2 (by simp) (by simp) (by simp), phase_image h2 hn s])
    (fun c hc => by
      have := weights_one hN b1 b2 (h b1 b2) c hc 1 one_ne_zero
      simpa only [pow_one] using this)

/-- The force constants of one element of the list. -/
noncomputable def oneTriplet {A : Nat} (N : V3 Int) (l : LatticeTriplet A) : ForceConstants A := fun b1 b2 n b3 m i j k =>
  if l.atom1 = b1 ∧ l.atom2 = b2 ∧ l.atom3 = b3 ∧ SameImage N l.cell2 n ∧ SameImage N l.cell3 m then l.phi i j k else 0

theorem superCoupling_add {A : Nat} (N : V3 Int) (d : Mat3) (conv : ℝ) (Phi Psi : ForceConstants A) (s : ℝ) (q2 q3 : Fin 3 → ℝ) (e1 e2 e3 : Nat → ℂ) :
    superCoupling N d conv (fun b1 b2 n b3 m i j k => Phi b1 b2 n b3 m i j k + Psi b1 b2 n b3 m i j k) s q2 q3 e1 e2 e3 =
      superCoupling N d conv Phi s q2 q3 e1 e2 e3 + superCoupling N d conv Psi s q2 q3 e1 e2 e3 := by
  unfold superCoupling
  simp only [← Finset.sum_add_distrib, ← mul_add]
  refine Finset.sum_congr rfl fun b1 _ => Finset.sum_congr rfl fun i _ => Finset.sum_congr rfl fun b2 _ => Finset.sum_congr rfl fun j _ =>
    Finset.sum_congr rfl fun b3 _ => Finset.sum_congr rfl fun k _ => ?_
  congr 1
  refine Finset.sum_congr rfl fun n _ => Finset.sum_congr rfl fun m _ => ?_
  push_cast
  ring

theorem superCoupling_zero {A : Nat} (N : V3 Int) (d : Mat3) (conv : ℝ) (s : ℝ) (q2 q3 : Fin 3 → ℝ) (e1 e2 e3 : Nat → ℂ) :
    superCoupling N d conv (fun (_ : Fin A) _ _ _ _ _ _ _ => 0) s q2 q3 e1 e2 e3 = 0 := by
  unfold superCoupling
  simp

/-- The sum over the supercell of a term that is there for one cell only. -/
theorem sum_oneCell {N : V3 Int} (hN : 0 < N.x ∧ 0 < N.y ∧ 0 < N.z) (l : V3 Int) (f : V3 Int → ℂ) (hf : ∀ n n', SameImage N n n' → f n = f n') :
    (∑ n ∈ superCells N, if SameImage N l ⟨n.1, n.2.1, n.2.2⟩ then f ⟨n.1, n.2.1, n.2.2⟩ else 0) = f l := by
  rw [Finset.sum_eq_single (foldCell N (l.x, l.y, l.z))]
  · have := (foldCell_eq (foldCell_mem hN (l.x, l.y, l.z)) (l.x, l.y, l.z)).mp rfl
    rw [if_pos this]
    exact (hf _ _ this).symm
  · intro n hn hne
    rw [if_neg]
    intro h
    exact hne ((foldCell_eq hn (l.x, l.y, l.z)).mpr h).symm
  · intro hn
    exact absurd (foldCell_mem hN _) hn

theorem superCoupling_one {A : Nat} {N : V3 Int} (hN : 0 < N.x ∧ 0 < N.y ∧ 0 < N.z) (d : Mat3) (bohr ryd : ℝ) (hb : bohr ≠ 0) (l : LatticeTriplet A) (s : ℤ)
    {q2 q3 : Fin 3 → ℝ} (h2 : FitsSupercell N d q2) (h3 : FitsSupercell N d q3) (e1 e2 e3 : Nat → ℂ) :
    superCoupling N d (bohr ^ 3 / ryd) (oneTriplet N l) s q2 q3 e1 e2 e3 = tripletCoupling bohr ryd [l.inAngstrom d bohr] s q2 q3 e1 e2 e3 := by
  unfold superCoupling tripletCoupling
  simp only [List.map_cons, List.map_nil, List.sum_cons, List.sum_nil, add_zero, LatticeTriplet.inAngstrom, mul_div_cancel_right₀ _ hb]
  have key (b1 b2 b3 : Fin A) (i j k : Fin 3) : (∑ n ∈ superCells N, ∑ m ∈ superCells N,
      ((oneTriplet N l b1 b2 ⟨n.1, n.2.1, n.2.2⟩ b3 ⟨m.1, m.2.1, m.2.2⟩ i j k * (bohr ^ 3 / ryd) : ℝ) : ℂ) *
        Complex.exp (Complex.I * (((s : ℝ) * scal q2 (latVec d ⟨n.1, n.2.1, n.2.2⟩) - scal q3 (latVec d ⟨m.1, m.2.1, m.2.2⟩) : ℝ) : ℂ))) =
      if b1 = l.atom1 then (if b2 = l.atom2 then (if b3 = l.atom3 then ((l.phi i j k * (bohr ^ 3 / ryd) : ℝ) : ℂ) *
        Complex.exp (Complex.I * (((s : ℝ) * scal q2 (latVec d l.cell2) - scal q3 (latVec d l.cell3) : ℝ) : ℂ)) else 0) else 0) else 0 := by
    by_cases hat : l.atom1 = b1 ∧ l.atom2 = b2 ∧ l.atom3 = b3
    · obtain ⟨rfl, rfl, rfl⟩ := hat
      rw [if_pos rfl, if_pos rfl, if_pos rfl]
      simp only [oneTriplet, true_and, phase_split]
      have e (n m : V3 Int) : (((if SameImage N l.cell2 n ∧ SameImage N l.cell3 m then l.phi i j k else 0) * (bohr ^ 3 / ryd) : ℝ) : ℂ) *
          (Complex.exp (Complex.I * (((s : ℝ) * scal q2 (latVec d n) : ℝ) : ℂ)) * Complex.exp (Complex.I * ((((-1 : ℤ) : ℝ) * scal q3 (latVec d m) : ℝ) : ℂ))) =
          if SameImage N l.cell3 m then (if SameImage N l.cell2 n then ((l.phi i j k * (bohr ^ 3 / ryd) : ℝ) : ℂ) *
            (Complex.exp (Complex.I * (((s : ℝ) * scal q2 (latVec d n) : ℝ) : ℂ)) * Complex.exp (Complex.I * ((((-1 : ℤ) : ℝ) * scal q3 (latVec d m) : ℝ) : ℂ))) else 0) else 0 := by
        by_cases hn : SameImage N l.cell2 n <;> by_cases hm : SameImage N l.cell3 m <;> simp [hn, hm]
      simp only [e]
      have e' (n : V3 Int) := sum_oneCell hN l.cell3 (fun m => if SameImage N l.cell2 n then ((l.phi i j k * (bohr ^ 3 / ryd) : ℝ) : ℂ) *
            (Complex.exp (Complex.I * (((s : ℝ) * scal q2 (latVec d n) : ℝ) : ℂ)) * Complex.exp (Complex.I * ((((-1 : ℤ) : ℝ) * scal q3 (latVec d m) : ℝ) : ℂ))) else 0)
        (fun m m' hm => by beta_reduce; rw [phase_image h3 hm (-1)])
      rw [Finset.sum_congr rfl fun n _ => e' ⟨n.1, n.2.1, n.2.2⟩]
      exact sum_oneCell hN l.cell2 (fun n => ((l.phi i j k * (bohr ^ 3 / ryd) : ℝ) : ℂ) *
            (Complex.exp (Complex.I * (((s : ℝ) * scal q2 (latVec d n) : ℝ) : ℂ)) * Complex.exp (Complex.I * ((((-1 : ℤ) : ℝ) * scal q3 (latVec d l.cell3) : ℝ) : ℂ))))
        (fun n n' hn => by beta_reduce; rw [phase_image h2 hn s])
    · have hz : ∀ n m, oneTriplet N l b1 b2 n b3 m i j k = 0 := by
        intro n m
        unfold oneTriplet
        rw [if_neg]
        rintro ⟨x1, x2, x3, _⟩
        exact hat ⟨x1, x2, x3⟩
      simp only [hz]
      by_cases x1 : b1 = l.atom1
      · by_cases x2 : b2 = l.atom2
        · rw [if_pos x1, if_pos x2, if_neg (fun x3 => hat ⟨x1.symm, x2.symm, x3.symm⟩)]
          simp
        · rw [if_pos x1, if_neg x2]
          simp
      · rw [if_neg x1]
        simp
  simp only [key]
  have hx : ∀ (b1 : Fin A) (i : Fin 3), (∑ b2 : Fin A, ∑ j : Fin 3, ∑ b3 : Fin A, ∑ k : Fin 3,
      e1 (3 * b1 + i) * e2 (3 * b2 + j) * (starRingEnd ℂ) (e3 (3 * b3 + k)) *
      (if b1 = l.atom1 then (if b2 = l.atom2 then (if b3 = l.atom3 then ((l.phi i j k * (bohr ^ 3 / ryd) : ℝ) : ℂ) *
        Complex.exp (Complex.I * (((s : ℝ) * scal q2 (latVec d l.cell2) - scal q3 (latVec d l.cell3) : ℝ) : ℂ)) else 0) else 0) else 0)) =
      if b1 = l.atom1 then ∑ b2 : Fin A, if b2 = l.atom2 then ∑ j : Fin 3, ∑ b3 : Fin A, if b3 = l.atom3 then ∑ k : Fin 3,
        e1 (3 * b1 + i) * e2 (3 * b2 + j) * (starRingEnd ℂ) (e3 (3 * b3 + k)) * (((l.phi i j k * (bohr ^ 3 / ryd) : ℝ) : ℂ) *
        Complex.exp (Complex.I * (((s : ℝ) * scal q2 (latVec d l.cell2) - scal q3 (latVec d l.cell3) : ℝ) : ℂ))) else 0 else 0 else 0 := by
    intro b1 i
    by_cases x1 : b1 = l.atom1
    · simp only [if_pos x1]
      refine Finset.sum_congr rfl fun b2 _ => ?_
      by_cases x2 : b2 = l.atom2
      · simp only [if_pos x2]
        refine Finset.sum_congr rfl fun j _ => Finset.sum_congr rfl fun b3 _ => ?_
        by_cases x3 : b3 = l.atom3
        · simp only [if_pos x3]
        · simp only [if_neg x3, mul_zero, Finset.sum_const_zero]
      · simp only [if_neg x2, mul_zero, Finset.sum_const_zero]
    · simp only [if_neg x1, mul_zero, Finset.sum_const_zero]
  simp only [hx]
  rw [Finset.sum_comm]
  refine Finset.sum_congr rfl fun i _ => ?_
  rw [Finset.sum_ite_eq' Finset.univ l.atom1, if_pos (Finset.mem_univ _), Finset.sum_ite_eq' Finset.univ l.atom2, if_pos (Finset.mem_univ _)]
  refine Finset.sum_congr rfl fun j _ => ?_
  rw [Finset.sum_ite_eq' Finset.univ l.atom3, if_pos (Finset.mem_univ _)]
  refine Finset.sum_congr rfl fun k _ => ?_
  ring

/-- The coupling of the list of triplets is that of the supercell. -/
theorem tripletCoupling_super {A : Nat} {N : V3 Int} (hN : 0 < N.x ∧ 0 < N.y ∧ 0 < N.z) (d : Mat3) (bohr ryd : ℝ) (hb : bohr ≠ 0)
    (ls : List (LatticeTriplet A)) (Phi : ForceConstants A) (hs : SharedAmong N Phi ls) (s : ℤ)
    {q2 q3 : Fin 3 → ℝ} (h2 : FitsSupercell N d q2) (h3 : FitsSupercell N d q3) (e1 e2 e3 : Nat → ℂ) :
    tripletCoupling bohr ryd (ls.map (LatticeTriplet.inAngstrom d bohr)) s q2 q3 e1 e2 e3 = superCoupling N d (bohr ^ 3 / ryd) Phi s q2 q3 e1 e2 e3 := by
  induction ls generalizing Phi with
  | nil =>
    have : Phi = fun _ _ _ _ _ _ _ _ => 0 := by
      funext b1 b2 n b3 m i j k
      have := hs b1 b2 b3 n m i j k
      simpa using this.symm
    rw [this, superCoupling_zero]
    rfl
  | cons l ls ih =>
    have hP : Phi = fun b1 b2 n b3 m i j k => oneTriplet N l b1 b2 n b3 m i j k +
        ((ls.filter fun l => l.atom1 = b1 ∧ l.atom2 = b2 ∧ l.atom3 = b3 ∧ SameImage N l.cell2 n ∧ SameImage N l.cell3 m).map fun l => l.phi i j k).sum := by
      funext b1 b2 n b3 m i j k
      rw [← hs b1 b2 b3 n m i j k, List.filter_cons]
      unfold oneTriplet
      by_cases h : l.atom1 = b1 ∧ l.atom2 = b2 ∧ l.atom3 = b3 ∧ SameImage N l.cell2 n ∧ SameImage N l.cell3 m
      · rw [if_pos (by simpa using h), if_pos h, List.map_cons, List.sum_cons]
      · rw [if_neg (by simpa using h), if_neg h, zero_add]
    have hi := ih (fun b1 b2 n b3 m i j k =>
        ((ls.filter fun l => l.atom1 = b1 ∧ l.atom2 = b2 ∧ l.atom3 = b3 ∧ SameImage N l.cell2 n ∧ SameImage N l.cell3 m).map fun l => l.phi i j k).sum)
      (fun _ _ _ _ _ _ _ _ => rfl)
    rw [hP, superCoupling_add, superCoupling_one hN d bohr ryd hb l s h2 h3, ← hi]
    simp only [tripletCoupling, List.map_cons, List.map_nil, List.sum_cons, List.sum_nil, add_zero]

theorem fits_add {N : V3 Int} {d : Mat3} {q q' : Fin 3 → ℝ} (h : FitsSupercell N d q) (h' : FitsSupercell N d q') : FitsSupercell N d (fun i => q i + q' i) := by
  intro k
  obtain ⟨z, hz⟩ := h k
  obtain ⟨z', hz'⟩ := h' k
  refine ⟨z + z', ?_⟩
  simp only [scal, Fin.sum_univ_three] at hz hz' ⊢
  push_cast
  linear_combination hz + hz'

theorem fits_sub {N : V3 Int} {d : Mat3} {q q' : Fin 3 → ℝ} (h : FitsSupercell N d q) (h' : FitsSupercell N d q') : FitsSupercell N d (fun i => q i - q' i) := by
  intro k
  obtain ⟨z, hz⟩ := h k
  obtain ⟨z', hz'⟩ := h' k
  refine ⟨z - z', ?_⟩
  simp only [scal, Fin.sum_univ_three] at hz hz' ⊢
  push_cast
  linear_combination hz - hz'

theorem apart_div {d : Mat3} (hap : LatticeApart d) {bohr : ℝ} (hb : bohr ≠ 0) (n n' : V3 Int) :
    n = n' ∨ 1.0e-12 ≤ norm3 (fun i => latVec d n i * bohr / bohr - latVec d n' i * bohr / bohr) := by
  by_cases h : n = n'
  · exact Or.inl h
  · right
    simp only [mul_div_cancel_right₀ _ hb]
    exact hap n n' h

theorem cells_apart {A : Nat} {d : Mat3} (hap : LatticeApart d) {bohr : ℝ} (hb : bohr ≠ 0) (ls : List (LatticeTriplet A)) :
    CellsApart bohr ((ls.map (LatticeTriplet.inAngstrom d bohr)).map Triplet.cell2) ∧
    CellsApart bohr ((ls.map (LatticeTriplet.inAngstrom d bohr)).map Triplet.cell3) := by
  constructor
  all_goals
    intro c hc c' hc'
    simp only [List.map_map, List.mem_map, Function.comp_apply, LatticeTriplet.inAngstrom] at hc hc'
    obtain ⟨l, _, rfl⟩ := hc
    obtain ⟨l', _, rfl⟩ := hc'
  · rcases apart_div hap hb l.cell2 l'.cell2 with h | h
    · left; rw [h]
    · exact Or.inr h
  · rcases apart_div hap hb l.cell3 l'.cell3 with h | h
    · left; rw [h]
    · exact Or.inr h

theorem cellVec_inj {d : Mat3} (hap : LatticeApart d) {bohr : ℝ} (hb : bohr ≠ 0) {n n' : V3 Int}
    (h : (fun i => latVec d n i * bohr) = fun i => latVec d n' i * bohr) : n = n' := by
  by_contra hne
  have e : (fun i => latVec d n i - latVec d n' i) = fun _ => 0 := by
    funext i
    have := mul_right_cancel₀ hb (congrFun h i)
    rw [this, sub_self]
  have := hap n n' hne
  rw [e, norm3_zero] at this
  norm_num at this

theorem not_same {A : Nat} {d : Mat3} (hap : LatticeApart d) {bohr : ℝ} (hb : bohr ≠ 0) {ls : List (LatticeTriplet A)} (h : ListedOnce ls) :
    (ls.map (LatticeTriplet.inAngstrom d bohr)).Pairwise fun t t' => ¬ t.same t' := by
  rw [List.pairwise_map]
  refine h.imp ?_
  rintro l l' hn ⟨h2, h3, a1, a2, a3⟩
  exact hn ⟨cellVec_inj hap hb h2, cellVec_inj hap hb h3, a1, a2, a3⟩

end Verif.Proofs
