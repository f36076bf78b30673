import Verif.Proofs.DynMat
import Mathlib.LinearAlgebra.Dimension.Constructions
import Mathlib.LinearAlgebra.FiniteDimensional.Lemmas
import Mathlib.LinearAlgebra.Matrix.ToLin

namespace Verif.Model

open Verif.Spec

variable {A n1 n2 n3 : Nat}

/-! ### Periodicity of the short range part -/

/-- Direct and reciprocal lattice vectors are dual. -/
def PhCrystal.Dual (c : PhCrystal A) : Prop :=
  ∀ i j, (∑ k, c.cell k i * c.recip k j) = if i = j then 2 * Real.pi else 0

theorem vdot_recip (c : PhCrystal A) (h : c.Dual) (g n : V3 Int) :
    vdot (latVec c.recip g) (latVec c.cell n) =
      ((g.x * n.x + g.y * n.y + g.z * n.z : Int) : ℝ) * (2 * Real.pi) := by
  have e : ∀ i j, c.cell 0 i * c.recip 0 j + c.cell 1 i * c.recip 1 j + c.cell 2 i * c.recip 2 j =
      if i = j then 2 * Real.pi else 0 := fun i j => by rw [← h i j, Fin.sum_univ_three]
  have h00 := e 0 0
  have h01 := e 0 1
  have h02 := e 0 2
  have h10 := e 1 0
  have h11 := e 1 1
  have h12 := e 1 2
  have h20 := e 2 0
  have h21 := e 2 1
  have h22 := e 2 2
  simp only [Fin.isValue, if_true, Fin.reduceEq, if_false] at h00 h01 h02 h10 h11 h12 h20 h21 h22
  simp only [vdot, latVec]
  push_cast
  linear_combination (g.x * n.x : ℝ) * h00 + (g.x * n.y : ℝ) * h10 + (g.x * n.z : ℝ) * h20 +
    (g.y * n.x : ℝ) * h01 + (g.y * n.y : ℝ) * h11 + (g.y * n.z : ℝ) * h21 +
    (g.z * n.x : ℝ) * h02 + (g.z * n.y : ℝ) * h12 + (g.z * n.z : ℝ) * h22

theorem phaseOf_add_recip (c : PhCrystal A) (h : c.Dual) (q : Vec3) (g n : V3 Int) :
    phaseOf (q + latVec c.recip g) (latVec c.cell n) = phaseOf q (latVec c.cell n) := by
  have e : vdot (q + latVec c.recip g) (latVec c.cell n) = vdot q (latVec c.cell n) +
      ((g.x * n.x + g.y * n.y + g.z * n.z : Int) : ℝ) * (2 * Real.pi) := by
    rw [← vdot_recip c h]
    simp only [vdot, Pi.add_apply]; ring
  simp only [phaseOf]
  rw [e]
  have := Complex.exp_int_mul_two_pi_mul_I (-(g.x * n.x + g.y * n.y + g.z * n.z))
  have e2 : -Complex.I * ((vdot q (latVec c.cell n) +
      ((g.x * n.x + g.y * n.y + g.z * n.z : Int) : ℝ) * (2 * Real.pi) : ℝ) : ℂ) =
      -Complex.I * (vdot q (latVec c.cell n) : ℝ) +
      ((-(g.x * n.x + g.y * n.y + g.z * n.z) : Int) : ℂ) * (2 * Real.pi * Complex.I) := by
    push_cast; ring
  rw [e2, Complex.exp_add, this, mul_one]

theorem shortRange_periodic [NeZero n1] [NeZero n2] [NeZero n3] (c : PhCrystal A) (h : c.Dual)
    (f : FcVec A n1 n2 n3) (q : Vec3) (g : V3 Int) :
    shortRange (reorder c f) (q + latVec c.recip g) = shortRange (reorder c f) q := by
  ext a b
  rw [shortRange_reorder, shortRange_reorder]
  simp only [phaseOf_add_recip c h]

/-! ### Device -/

theorem foldl_add_map {α M : Type} [AddCommMonoid M] (l : List α) (h : α → M) :
    ∀ t, l.foldl (fun t x => t + h x) t = t + (l.map h).sum := by
  induction l with
  | nil => intro t; simp
  | cons x l ih => intro t; simp only [List.foldl_cons, ih, List.map_cons, List.sum_cons, add_assoc]

theorem devShort_eq (bs : List (Bravais A)) (q : Vec3) : devShort bs q = shortRange bs q := by
  ext a b
  simp only [devShort, shortRange]
  rw [foldl_add_map, zero_add]
  refine congrArg _ (List.map_congr_left fun e _ => ?_)
  simp only [devPhase, phaseOf, vdot, zero_add]
  ring

theorem devGeg_eq (c : PhCrystal A) (g : Vec3) : c.devGeg g = c.geg g := by
  simp only [PhCrystal.devGeg, PhCrystal.geg, vdot, matVec, Fin.sum_univ_succ, Fin.sum_univ_zero]
  simp only [Fin.val_zero, Fin.val_succ, Nat.zero_div, Nat.zero_mod, Nat.reduceAdd, Nat.reduceDiv,
    Nat.reduceMod, Fin.mk_zero, Fin.mk_one, Fin.reduceFinMk]
  ring

theorem devGQZ_eq (c : PhCrystal A) (g : Vec3) (i : Fin 3) (na : Fin A) :
    c.devGQZ g na i = c.gZ g i na := by
  simp only [PhCrystal.devGQZ, PhCrystal.gZ, PhCrystal.devBorn, zero_add]

theorem devTerm_eq (c : PhCrystal A) (g : Vec3) (h : inCutoff (c.geg g)) (a b : Fin A × Fin 3) :
    c.devTerm g a b = c.lrTerm g a b := by
  unfold PhCrystal.devTerm PhCrystal.lrTerm
  rw [if_pos h]
  simp only [devGQZ_eq, devGeg_eq, PhCrystal.normG, PhCrystal.arg, vdot, zero_add]
  rw [mul_comm Complex.I, Complex.exp_mul_I, ← Complex.ofReal_cos, ← Complex.ofReal_sin]
  push_cast
  ring

theorem devLong_eq (c : PhCrystal A) (order : List Vec3) (ho : order.Perm (c.gVectors n1 n2 n3))
    (q : Vec3) (d : DynM A) : c.devLong n1 n2 n3 order q d = d + c.longRange n1 n2 n3 q := by
  have step : ∀ (l : List Vec3) (d : DynM A) (a b : Fin A × Fin 3),
      (open scoped Classical in l.foldl (fun (d : DynM A) g =>
        let gq : Vec3 := fun i => g i + q i
        if 0 < c.devGeg gq ∧ c.devGeg gq < 4 * constGMax then
          fun a b => d a b + c.devTerm gq a b
        else d) d) a b = d a b + (l.map fun g => c.lrTerm (g + q) a b).sum := by
    intro l
    induction l with
    | nil => intro d a b; simp
    | cons g l ih =>
      intro d a b
      rw [List.foldl_cons, ih, List.map_cons, List.sum_cons, ← add_assoc]
      congr 1
      by_cases hc : inCutoff (c.geg (g + q))
      · have hc' : 0 < c.devGeg (fun i => g i + q i) ∧
            c.devGeg (fun i => g i + q i) < 4 * constGMax := by
          rw [devGeg_eq]; exact hc
        refine (congrFun (congrFun (if_pos hc') a) b).trans ?_
        exact congrArg _ (devTerm_eq c (g + q) hc a b)
      · have hc' : ¬ (0 < c.devGeg (fun i => g i + q i) ∧
            c.devGeg (fun i => g i + q i) < 4 * constGMax) := by
          rw [devGeg_eq]; exact hc
        refine (congrFun (congrFun (if_neg hc') a) b).trans ?_
        unfold PhCrystal.lrTerm
        rw [if_neg hc, add_zero]
  ext a b
  refine (step order _ a b).trans ?_
  rw [Matrix.add_apply, longRange_apply, (ho.map _).sum_eq, ← add_assoc]
  congr 1
  split_ifs
  · rfl
  · rw [add_zero]

theorem devHamiltonian_eq [NeZero n1] [NeZero n2] [NeZero n3] (c : PhCrystal A)
    (f : FcVec A n1 n2 n3) (order : List Vec3) (ho : order.Perm (c.gVectors n1 n2 n3)) (q : Vec3) :
    devHamiltonian c f order q = massScaled c (dynMatrix c f q) := by
  ext a b
  unfold devHamiltonian massScaled dynMatrix
  simp only [devShort_eq, devLong_eq c order ho, Matrix.add_apply, Matrix.conjTranspose_apply,
    Complex.star_def]
  split_ifs <;> simp [Matrix.add_apply]

theorem devFrequency_eq (w : ℝ) : devFrequency w = frequency w := by
  unfold devFrequency frequency
  rcases lt_trichotomy w 0 with h | h | h
  · rw [if_neg (by linarith), if_pos h]
  · subst h; simp
  · rw [if_pos h, if_neg (by linarith)]

/-! ### Vectors of the kernel -/

theorem zero_count {N : Type} [Fintype N] [DecidableEq N] {k m : Nat}
    {d : Matrix N N ℂ} {e : Fin k → ℝ} {u : Matrix N (Fin k) ℂ}
    (h : IsEigenDecomposition d e u) (v : Fin m → N → ℂ) (hv : LinearIndependent ℂ v)
    (h0 : ∀ j, d.mulVec (v j) = 0) :
    m ≤ (Finset.univ.filter fun b => e b = 0).card := by
  have hd : u.conjTranspose * d = (Matrix.diagonal fun b => (e b : ℂ)) * u.conjTranspose := by
    have : d = (u * Matrix.diagonal fun b => (e b : ℂ)) * u.conjTranspose := by
      rw [← h.eigen, Matrix.mul_assoc, h.right, Matrix.mul_one]
    rw [this, ← Matrix.mul_assoc, ← Matrix.mul_assoc, h.left, Matrix.one_mul]
  have hz : ∀ j b, e b ≠ 0 → u.conjTranspose.mulVec (v j) b = 0 := by
    intro j b hb
    have h1 : (Matrix.diagonal fun b => (e b : ℂ)).mulVec (u.conjTranspose.mulVec (v j)) = 0 := by
      rw [Matrix.mulVec_mulVec, ← hd, ← Matrix.mulVec_mulVec, h0, Matrix.mulVec_zero]
    have h2 := congrFun h1 b
    rw [Matrix.mulVec_diagonal] at h2
    have hb' : (e b : ℂ) ≠ 0 := by exact_mod_cast hb
    simpa [hb'] using h2
  have hw : LinearIndependent ℂ fun j => fun b : {b // e b = 0} =>
      u.conjTranspose.mulVec (v j) b.1 := by
    rw [Fintype.linearIndependent_iff] at hv ⊢
    intro g hg
    refine hv g ?_
    have h3 : u.conjTranspose.mulVec (∑ j, g j • v j) = 0 := by
      funext b
      rw [Matrix.mulVec_sum]
      simp only [Matrix.mulVec_smul, Finset.sum_apply, Pi.smul_apply, Pi.zero_apply, smul_eq_mul]
      by_cases hb : e b = 0
      · have := congrFun hg ⟨b, hb⟩
        simpa [Finset.sum_apply] using this
      · exact Finset.sum_eq_zero fun j _ => by rw [hz j b hb, mul_zero]
    have h4 : u.mulVec (u.conjTranspose.mulVec (∑ j, g j • v j)) = 0 := by
      rw [h3, Matrix.mulVec_zero]
    rwa [Matrix.mulVec_mulVec, h.right, Matrix.one_mulVec] at h4
  have := hw.fintype_card_le_finrank
  rw [Fintype.card_fin, Module.finrank_fintype_fun_eq_card, Fintype.card_subtype] at this
  exact this

/-! ### Sums of rows at the zone centre -/

theorem longRange_row_aux (c : PhCrystal A) (i j : Fin 3) (na : Fin A) :
    (∑ nb, ((c.gVectors n1 n2 n3).map fun g => c.lrTerm g (na, i) (nb, j)).sum) =
      -(c.longRange1 n1 n2 n3 i j na : ℂ) := by
  rw [← sum_list_finset]
  obtain ⟨s, hs⟩ : ∃ s, s = ((c.gVectors n1 n2 n3).map fun g =>
    ∑ nb, c.lrTerm g (na, i) (nb, j)).sum := ⟨_, rfl⟩
  rw [← hs]
  have hreal : (starRingEnd ℂ) s = s := by
    conv_rhs => rw [hs, gVectors_neg]
    rw [hs, conj_list_sum, List.map_map]
    refine congrArg _ (List.map_congr_left fun g _ => ?_)
    simp only [Function.comp_apply, map_sum, lrTerm_neg]
  have hre : s = (s.re : ℂ) := (Complex.conj_eq_iff_re.mp hreal).symm
  rw [hre, ← Complex.ofReal_neg]
  congr 1
  have : s.re = ((c.gVectors n1 n2 n3).map fun g => (∑ nb, c.lrTerm g (na, i) (nb, j)).re).sum := by
    rw [hs]
    have := map_list_sum Complex.reLm ((c.gVectors n1 n2 n3).map fun g =>
      ∑ nb, c.lrTerm g (na, i) (nb, j))
    rw [List.map_map] at this
    exact this
  rw [this, PhCrystal.longRange1, List.sum_neg, List.map_map]
  refine congrArg _ (List.map_congr_left fun g _ => ?_)
  simp only [Function.comp_apply, Complex.re_sum, PhCrystal.lrTerm]
  by_cases hc : inCutoff (c.geg g)
  · simp only [if_pos hc]
    rw [neg_mul, neg_mul, neg_neg, Finset.mul_sum]
    refine Finset.sum_congr rfl fun nb _ => ?_
    simp only [Complex.mul_re, Complex.mul_im, Complex.add_re, Complex.add_im, Complex.ofReal_re,
      Complex.ofReal_im, Complex.I_re, Complex.I_im]
    ring
  · simp [if_neg hc]

theorem longRange_row (c : PhCrystal A) (i j : Fin 3) (na : Fin A) :
    ∑ nb, c.longRange n1 n2 n3 0 (na, i) (nb, j) = 0 := by
  simp only [longRange_apply, add_zero, Finset.sum_add_distrib, longRange_row_aux]
  rw [Finset.sum_ite_eq Finset.univ na, if_pos (Finset.mem_univ _), add_neg_cancel]

theorem longRange_col (c : PhCrystal A) (i j : Fin 3) (nb : Fin A) :
    ∑ na, c.longRange n1 n2 n3 0 (na, i) (nb, j) =
      ((c.longRange1 n1 n2 n3 i j nb - c.longRange1 n1 n2 n3 j i nb : ℝ) : ℂ) := by
  simp only [longRange_apply, add_zero, Finset.sum_add_distrib]
  rw [Finset.sum_eq_single nb (fun x _ hx => by rw [if_neg hx]) (by simp), if_pos rfl]
  have : (∑ na, ((c.gVectors n1 n2 n3).map fun g => c.lrTerm g (na, i) (nb, j)).sum) =
      (starRingEnd ℂ) (∑ na, ((c.gVectors n1 n2 n3).map fun g => c.lrTerm g (nb, j) (na, i)).sum) := by
    rw [map_sum]
    refine Finset.sum_congr rfl fun na _ => ?_
    rw [conj_list_sum, List.map_map]
    refine congrArg _ (List.map_congr_left fun g _ => ?_)
    rw [Function.comp_apply, lrTerm_swap c g (nb, j) (na, i)]
  rw [this, longRange_row_aux]
  simp
  ring

/-- The sum over the images of a cell replaced by a sum over the cells of the grid. -/
def Partition (c : PhCrystal A) (n1 n2 n3 : Nat) [NeZero n1] [NeZero n2] [NeZero n3] : Prop :=
  ∀ (na nb : Fin A) (m1 : Fin n1) (m2 : Fin n2) (m3 : Fin n3),
    (((wsCells n1 n2 n3).filter fun n =>
      foldFin n1 n.x = m1 ∧ foldFin n2 n.y = m2 ∧ foldFin n3 n.z = m3).map fun n =>
        wsCacheAt c n1 n2 n3 n na nb).sum = 1

theorem partition_sum [NeZero n1] [NeZero n2] [NeZero n3] (c : PhCrystal A)
    (hp : Partition c n1 n2 n3) (na nb : Fin A) (h : Fin n1 → Fin n2 → Fin n3 → ℂ) :
    ((wsCells n1 n2 n3).map fun n => h (foldFin n1 n.x) (foldFin n2 n.y) (foldFin n3 n.z) *
      (wsCacheAt c n1 n2 n3 n na nb : ℂ)).sum = ∑ m1, ∑ m2, ∑ m3, h m1 m2 m3 := by
  have e1 : ∀ m1 m2 m3, h m1 m2 m3 = ((wsCells n1 n2 n3).map fun n =>
      if foldFin n1 n.x = m1 ∧ foldFin n2 n.y = m2 ∧ foldFin n3 n.z = m3 then
        h m1 m2 m3 * (wsCacheAt c n1 n2 n3 n na nb : ℂ) else 0).sum := by
    intro m1 m2 m3
    have h1 := congrArg (fun x : ℝ => h m1 m2 m3 * (x : ℂ)) (hp na nb m1 m2 m3)
    simp only [sum_filter_map, decide_eq_true_eq, Complex.ofReal_one, mul_one] at h1
    conv_lhs => rw [← h1]
    rw [show ∀ l : List ℝ, ((l.sum : ℝ) : ℂ) = (l.map fun x : ℝ => (x : ℂ)).sum from
      fun l => map_list_sum Complex.ofRealHom l, List.map_map, ← List.sum_map_mul_left]
    refine congrArg _ (List.map_congr_left fun n _ => ?_)
    simp only [Function.comp_apply]
    split_ifs <;> simp
  conv_rhs =>
    enter [2, m1, 2, m2, 2, m3]
    rw [e1 m1 m2 m3]
  simp only [← sum_list_finset]
  refine congrArg _ (List.map_congr_left fun n _ => ?_)
  rw [Finset.sum_eq_single (foldFin n1 n.x), Finset.sum_eq_single (foldFin n2 n.y),
    Finset.sum_eq_single (foldFin n3 n.z)]
  · simp
  · intro x _ hx
    rw [if_neg (fun h => hx h.2.2.symm)]
  · simp
  · intro x _ hx
    exact Finset.sum_eq_zero fun y _ => by rw [if_neg (fun h => hx h.2.1.symm)]
  · simp
  · intro x _ hx
    exact Finset.sum_eq_zero fun y _ => Finset.sum_eq_zero fun z _ => by
      rw [if_neg (fun h => hx h.1.symm)]
  · simp

theorem shortRange_zero [NeZero n1] [NeZero n2] [NeZero n3] (c : PhCrystal A)
    (hp : Partition c n1 n2 n3) (f : FcVec A n1 n2 n3) (a b : Fin A × Fin 3) :
    shortRange (reorder c f) 0 a b =
      ((∑ m1, ∑ m2, ∑ m3, f (m1, m2, m3, a.2, b.2, a.1, b.1) : ℝ) : ℂ) := by
  rw [shortRange_reorder]
  have : ∀ r, phaseOf 0 r = 1 := by intro r; simp [phaseOf, vdot]
  simp only [this, mul_one]
  rw [partition_sum c hp a.1 b.1 fun m1 m2 m3 => (f (m1, m2, m3, a.2, b.2, a.1, b.1) : ℂ)]
  push_cast
  rfl

theorem shortRange_row [NeZero n1] [NeZero n2] [NeZero n3] (c : PhCrystal A)
    (hp : Partition c n1 n2 n3) (f : FcVec A n1 n2 n3) (i j : Fin 3) (na : Fin A) :
    ∑ nb, shortRange (reorder c f) 0 (na, i) (nb, j) = (rowSum f i j na : ℂ) := by
  simp only [shortRange_zero c hp, rowSum]
  push_cast
  rfl

end Verif.Model
