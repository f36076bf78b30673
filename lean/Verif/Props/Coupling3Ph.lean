import Verif.Proofs.Coupling3Ph

/-!
# C62, C85, C86: three-phonon couplings
-/
namespace Verif.Props
open Verif.Model

/-- `t` holds, for all bands, the squared modulus of the double lattice sum. -/
def IsCoupling (t : Tensor3) (nb1 nb2 nb3 n nr2 nr3 : Nat) (R2 R3 : Nat → Fin 3 → ℝ) (w2 w3 : Nat → Nat → Nat → ℝ)
    (D : Nat → Nat → Nat → Nat → Nat → ℝ) (s : ℝ) (q2 q3 : Fin 3 → ℝ) (e1 e2 e3 : Nat → Nat → ℂ) : Prop :=
  t.d0 = nb1 ∧ t.d1 = nb2 ∧ t.d2 = nb3 ∧ ∀ b1 < nb1, ∀ b2 < nb2, ∀ b3 < nb3,
    t.val b1 b2 b3 = Complex.normSq (Spec.coupling n nr2 nr3 R2 R3 w2 w3 D s q2 q3 (fun a => e1 a b1) (fun a => e2 a b2)
      (fun a => e3 a b3))

/-- **What the code computes**: the double lattice sum with the third weight squared. -/
theorem C62_squared_weight (na nr2 nr3 : Nat) (D : Nat → Nat → Nat → Nat → Nat → ℝ) (P2 P3 : Fin 3 → Nat → ℝ)
    (w2 w3 : Nat → Nat → Nat → ℝ) (o : Coupling3Ph) (ho : Coupling3Ph.make na nr2 nr3 D P2 P3 w2 w3 = .ok o)
    (batch : List CouplingInput) (q2 : Fin 3 → ℝ) (ev2 : Nat → Nat → ℂ) (nb2 : Nat) (res : List (Tensor3 × Tensor3))
    (h : getCouplingsSquared (o.cacheD3 q2) batch q2 ev2 nb2 = .ok res) :
    res.length = batch.length ∧ ∀ (k : Nat) (x : CouplingInput) (t : Tensor3 × Tensor3),
      batch[k]? = some x → res[k]? = some t →
      IsCoupling t.1 x.nb1 nb2 x.nb3Plus (na * 3) nr2 nr3 (fun r i => P2 i r) (fun r i => P3 i r) w2
        (fun r a b => w3 r a b * w3 r a b) D 1 q2 (fun i => x.q1 i + q2 i) x.ev1 ev2 x.ev3Plus ∧
      IsCoupling t.2 x.nb1 nb2 x.nb3Mins (na * 3) nr2 nr3 (fun r i => P2 i r) (fun r i => P3 i r) w2
        (fun r a b => w3 r a b * w3 r a b) D (-1) q2 (fun i => x.q1 i - q2 i) x.ev1
        (fun a b => (starRingEnd ℂ) (ev2 a b)) x.ev3Mins := by
  have hb : Coupling3Ph.make na nr2 nr3 D P2 P3 w2 w3 = .ok ⟨na, nr2, nr3, fun i j => P2 j i, fun i j => P3 j i, w2, w3, D,
      fun _ _ _ _ => 0, fun _ _ _ _ => 0⟩ := by
    unfold Coupling3Ph.make at ho ⊢
    split at ho
    · simp at ho
    · next hc => rw [if_neg hc]
  rw [hb] at ho
  simp only [Outcome.ok.injEq] at ho
  unfold getCouplingsSquared at h
  split at h
  · simp at h
  · simp only [Outcome.ok.injEq] at h
    subst h
    refine ⟨List.length_map _, fun k x t hx ht => ?_⟩
    rw [List.getElem?_map, hx, Option.map_some, Option.some.injEq] at ht
    subst ht
    subst ho
    exact ⟨⟨rfl, rfl, rfl, fun b1 h1 b2 h2 b3 h3 => (amplitudes _ q2 ev2 nb2 x b1 b2 h1 h2).1 b3 h3⟩,
      ⟨rfl, rfl, rfl, fun b1 h1 b2 h2 b3 h3 => (amplitudes _ q2 ev2 nb2 x b1 b2 h1 h2).2 b3 h3⟩⟩

/-- **C62** (missing: third weights other than 0 and 1, see `C62_violated_weight`; more third vectors than second ones,
see `C62_violated_size`).  The couplings are the squared moduli of the direct double lattice sum with each weight
applied once, for the process with the third phonon at `q1 + q2` and for the one with the third phonon at `q1 - q2`. -/
theorem C62_lattice_sum_partial (na nr2 nr3 : Nat) (D : Nat → Nat → Nat → Nat → Nat → ℝ) (P2 P3 : Fin 3 → Nat → ℝ)
    (w2 w3 : Nat → Nat → Nat → ℝ) (hw : ∀ r a b, w3 r a b = 0 ∨ w3 r a b = 1) (hsize : nr3 ≤ nr2)
    (batch : List CouplingInput) (hne : batch ≠ []) (q2 : Fin 3 → ℝ) (ev2 : Nat → Nat → ℂ) (nb2 : Nat) :
    ∃ o res, Coupling3Ph.make na nr2 nr3 D P2 P3 w2 w3 = .ok o ∧
      getCouplingsSquared (o.cacheD3 q2) batch q2 ev2 nb2 = .ok res ∧
      res.length = batch.length ∧ ∀ (k : Nat) (x : CouplingInput) (t : Tensor3 × Tensor3),
      batch[k]? = some x → res[k]? = some t →
      IsCoupling t.1 x.nb1 nb2 x.nb3Plus (na * 3) nr2 nr3 (fun r i => P2 i r) (fun r i => P3 i r) w2 w3 D
        1 q2 (fun i => x.q1 i + q2 i) x.ev1 ev2 x.ev3Plus ∧
      IsCoupling t.2 x.nb1 nb2 x.nb3Mins (na * 3) nr2 nr3 (fun r i => P2 i r) (fun r i => P3 i r) w2 w3 D
        (-1) q2 (fun i => x.q1 i - q2 i) x.ev1 (fun a b => (starRingEnd ℂ) (ev2 a b)) x.ev3Mins := by
  have e : (fun r a b => w3 r a b * w3 r a b) = w3 := by
    funext r a b
    rcases hw r a b with h | h <;> rw [h] <;> ring
  have hm : ∃ o, Coupling3Ph.make na nr2 nr3 D P2 P3 w2 w3 = .ok o := by
    unfold Coupling3Ph.make
    rw [if_neg (by omega)]
    exact ⟨_, rfl⟩
  obtain ⟨o, ho⟩ := hm
  have hg : ∃ res, getCouplingsSquared (o.cacheD3 q2) batch q2 ev2 nb2 = .ok res := by
    unfold getCouplingsSquared
    rw [if_neg hne]
    exact ⟨_, rfl⟩
  obtain ⟨res, hr⟩ := hg
  refine ⟨o, res, ho, hr, ?_⟩
  have := C62_squared_weight na nr2 nr3 D P2 P3 w2 w3 o ho batch q2 ev2 nb2 res hr
  rw [e] at this
  exact this

/-- A case with a coupling different from zero: one atom, one cell, unit weights, couplings of the first coordinate only;
the sum is 1. -/
example : Spec.coupling 3 1 1 (fun _ _ => 0) (fun _ _ => 0) (fun _ _ _ => 1) (fun _ _ _ => 1)
    (fun a b c _ _ => if a = 0 ∧ b = 0 ∧ c = 0 then 1 else 0) 1 (fun _ => 0) (fun _ => 0) (fun a => if a = 0 then 1 else 0)
    (fun a => if a = 0 then 1 else 0) (fun a => if a = 0 then 1 else 0) = 1 := by
  unfold Spec.coupling Spec.scal
  simp [Finset.sum_range_succ]

/-- **C62 is violated** by third weights that are not 0 or 1, as those of vectors on the border of the Wigner-Seitz cell
(src/parser/ifc3_parser.cpp L81-95): with the weight 1/2 the coupling is a sixteenth of the force constant squared
instead of a fourth. -/
theorem C62_violated_weight : ∃ (o : Coupling3Ph) (x : CouplingInput) (t : Tensor3 × Tensor3),
    Coupling3Ph.make 1 1 1 (fun a b c _ _ => if a = 0 ∧ b = 0 ∧ c = 0 then 1 else 0) (fun _ _ => 0) (fun _ _ => 0)
      (fun _ _ _ => 1) (fun _ _ _ => 1 / 2) = .ok o ∧
    getCouplingsSquared (o.cacheD3 fun _ => 0) [x] (fun _ => 0) (fun a _ => if a = 0 then 1 else 0) 1 = .ok [t] ∧
    t.1.val 0 0 0 = 1 / 16 ∧
    Complex.normSq (Spec.coupling 3 1 1 (fun _ _ => 0) (fun _ _ => 0) (fun _ _ _ => 1) (fun _ _ _ => 1 / 2)
      (fun a b c _ _ => if a = 0 ∧ b = 0 ∧ c = 0 then 1 else 0) 1 (fun _ => 0) (fun i => x.q1 i + 0) (fun a => x.ev1 a 0)
      (fun a => if a = 0 then 1 else 0) (fun a => x.ev3Plus a 0)) = 1 / 4 := by
  have hm : ∃ o, Coupling3Ph.make 1 1 1 (fun a b c _ _ => if a = 0 ∧ b = 0 ∧ c = 0 then 1 else 0) (fun _ _ => 0)
      (fun _ _ => 0) (fun _ _ _ => 1) (fun _ _ _ => 1 / 2) = .ok o := by
    unfold Coupling3Ph.make
    rw [if_neg (by omega)]
    exact ⟨_, rfl⟩
  obtain ⟨o, ho⟩ := hm
  let x : CouplingInput := ⟨fun _ => 0, fun a _ => if a = 0 then 1 else 0, fun a _ => if a = 0 then 1 else 0,
    fun a _ => if a = 0 then 1 else 0, 1, 1, 1⟩
  refine ⟨o, x, _, ho, rfl, ?_, ?_⟩
  · have := C62_squared_weight 1 1 1 _ _ _ _ _ o ho [x] (fun _ => 0) (fun a _ => if a = 0 then 1 else 0) 1 _ rfl
    have h2 := (this.2 0 x _ rfl rfl).1.2.2.2 0 (by decide) 0 (by decide) 0 (by decide)
    rw [h2]
    unfold Spec.coupling Spec.scal
    simp [Finset.sum_range_succ, x, Complex.normSq_apply]
    norm_num
  · unfold Spec.coupling Spec.scal
    simp [Finset.sum_range_succ, x, Complex.normSq_apply]
    norm_num

/-- **C62 is violated** when there are more third vectors than second ones: the array of the third weights is allocated
with the number of the second vectors. -/
theorem C62_violated_size (na nr2 nr3 : Nat) (hna : 0 < na) (h : nr2 < nr3) (D : Nat → Nat → Nat → Nat → Nat → ℝ)
    (P2 P3 : Fin 3 → Nat → ℝ) (w2 w3 : Nat → Nat → Nat → ℝ) : Coupling3Ph.make na nr2 nr3 D P2 P3 w2 w3 = .ub := by
  unfold Coupling3Ph.make
  rw [if_pos ⟨hna, h⟩]

/-! ## C85 -/

/-- **C85** (batches).  The couplings of a wavevector do not depend on which other wavevectors are in its batch. -/
theorem C85_batch (o : Coupling3Ph) (pre post : List CouplingInput) (x : CouplingInput) (q2 : Fin 3 → ℝ)
    (ev2 : Nat → Nat → ℂ) (nb2 : Nat) :
    ∃ res t, getCouplingsSquared o (pre ++ x :: post) q2 ev2 nb2 = .ok res ∧
      getCouplingsSquared o [x] q2 ev2 nb2 = .ok [t] ∧ res[pre.length]? = some t := by
  refine ⟨_, _, by unfold getCouplingsSquared; rw [if_neg (by simp)], by unfold getCouplingsSquared; rw [if_neg (by simp)]; rfl, ?_⟩
  simp

theorem coupling_gauge (n nr2 nr3 : Nat) (R2 R3 : Nat → Fin 3 → ℝ) (w2 w3 : Nat → Nat → Nat → ℝ)
    (D : Nat → Nat → Nat → Nat → Nat → ℝ) (s : ℝ) (q2 q3 : Fin 3 → ℝ) (e1 e2 e3 : Nat → ℂ) (c1 c2 c3 : ℂ) :
    Spec.coupling n nr2 nr3 R2 R3 w2 w3 D s q2 q3 (fun a => c1 * e1 a) (fun a => c2 * e2 a) (fun a => c3 * e3 a) =
      c1 * c2 * (starRingEnd ℂ) c3 * Spec.coupling n nr2 nr3 R2 R3 w2 w3 D s q2 q3 e1 e2 e3 := by
  unfold Spec.coupling
  rw [Finset.mul_sum]
  refine Finset.sum_congr rfl fun a1 _ => ?_
  rw [Finset.mul_sum]
  refine Finset.sum_congr rfl fun a2 _ => ?_
  rw [Finset.mul_sum]
  refine Finset.sum_congr rfl fun a3 _ => ?_
  rw [map_mul]
  ring

/-- **C85** (phases).  Multiplying each eigenvector by a number of modulus one does not change the couplings. -/
theorem C85_phases (o : Coupling3Ph) (x : CouplingInput) (q2 : Fin 3 → ℝ) (ev2 : Nat → Nat → ℂ) (nb2 : Nat)
    (c1 c2 c3 c4 : Nat → ℂ) (h1 : ∀ b, ‖c1 b‖ = 1) (h2 : ∀ b, ‖c2 b‖ = 1) (h3 : ∀ b, ‖c3 b‖ = 1) (h4 : ∀ b, ‖c4 b‖ = 1)
    (b1 b2 b3 : Nat) (hb1 : b1 < x.nb1) (hb2 : b2 < nb2) :
    ∃ t t', getCouplingsSquared (o.cacheD3 q2) [x] q2 ev2 nb2 = .ok [t] ∧
      getCouplingsSquared (o.cacheD3 q2) [{ x with
          ev1 := fun a b => c1 b * x.ev1 a b
          ev3Plus := fun a b => c3 b * x.ev3Plus a b
          ev3Mins := fun a b => c4 b * x.ev3Mins a b }] q2 (fun a b => c2 b * ev2 a b) nb2 = .ok [t'] ∧
      (b3 < x.nb3Plus → t.1.val b1 b2 b3 = t'.1.val b1 b2 b3) ∧
      (b3 < x.nb3Mins → t.2.val b1 b2 b3 = t'.2.val b1 b2 b3) := by
  have hn : ∀ c : ℂ, ‖c‖ = 1 → Complex.normSq c = 1 := fun c hc => by rw [Complex.normSq_eq_norm_sq, hc]; norm_num
  refine ⟨_, _, rfl, rfl, fun hb3 => ?_, fun hb3 => ?_⟩
  · rw [(amplitudes o q2 ev2 nb2 x b1 b2 hb1 hb2).1 b3 hb3, (amplitudes o q2 _ nb2 { x with
          ev1 := fun a b => c1 b * x.ev1 a b
          ev3Plus := fun a b => c3 b * x.ev3Plus a b
          ev3Mins := fun a b => c4 b * x.ev3Mins a b } b1 b2 hb1 hb2).1 b3 hb3]
    rw [coupling_gauge]
    simp only [map_mul, Complex.normSq_conj, hn _ (h1 b1), hn _ (h2 b2), hn _ (h3 b3), one_mul]
  · rw [(amplitudes o q2 ev2 nb2 x b1 b2 hb1 hb2).2 b3 hb3, (amplitudes o q2 _ nb2 { x with
          ev1 := fun a b => c1 b * x.ev1 a b
          ev3Plus := fun a b => c3 b * x.ev3Plus a b
          ev3Mins := fun a b => c4 b * x.ev3Mins a b } b1 b2 hb1 hb2).2 b3 hb3]
    simp only [map_mul]
    rw [coupling_gauge]
    simp only [map_mul, Complex.normSq_conj, hn _ (h1 b1), hn _ (h2 b2), hn _ (h4 b3), one_mul]

theorem coupling_shift (n nr2 nr3 : Nat) (R2 R3 : Nat → Fin 3 → ℝ) (w2 w3 : Nat → Nat → Nat → ℝ)
    (D : Nat → Nat → Nat → Nat → Nat → ℝ) (s : ℝ) (q2 q3 q2' q3' : Fin 3 → ℝ) (e1 e2 e3 : Nat → ℂ)
    (h : ∀ r2 r3, ∃ k : ℤ, s * Spec.scal q2' (R2 r2) - Spec.scal q3' (R3 r3) =
      s * Spec.scal q2 (R2 r2) - Spec.scal q3 (R3 r3) + 2 * Real.pi * k) :
    Spec.coupling n nr2 nr3 R2 R3 w2 w3 D s q2 q3 e1 e2 e3 = Spec.coupling n nr2 nr3 R2 R3 w2 w3 D s q2' q3' e1 e2 e3 := by
  have key : ∀ (a : ℝ) (k : ℤ), Complex.exp (Complex.I * ((a + 2 * Real.pi * k : ℝ) : ℂ)) = Complex.exp (Complex.I * (a : ℂ)) := by
    intro a k
    have : Complex.I * ((a + 2 * Real.pi * k : ℝ) : ℂ) = Complex.I * (a : ℂ) + k * (2 * Real.pi * Complex.I) := by
      push_cast; ring
    rw [this]
    exact Complex.exp_periodic.int_mul k _
  unfold Spec.coupling
  refine Finset.sum_congr rfl fun a1 _ => Finset.sum_congr rfl fun a2 _ => Finset.sum_congr rfl fun a3 _ => ?_
  refine congrArg _ (Finset.sum_congr rfl fun r2 _ => Finset.sum_congr rfl fun r3 _ => ?_)
  obtain ⟨k, hk⟩ := h r2 r3
  rw [hk, key]

/-- **C85** (equivalent wavevectors).  If `q1` and `q1'` differ by a vector of the reciprocal lattice, that is, one whose
scalar product with every lattice vector is a multiple of two pi, and the eigenvectors are the same, the couplings are
the same; likewise for `q2`. -/
theorem C85_equivalent (o : Coupling3Ph) (x : CouplingInput) (q2 G1 G2 : Fin 3 → ℝ) (ev2 : Nat → Nat → ℂ) (nb2 : Nat)
    (hG1 : ∀ r, ∃ k : ℤ, Spec.scal G1 (o.cellPositions3 r) = 2 * Real.pi * k)
    (hG2 : ∀ r, (∃ k : ℤ, Spec.scal G2 (o.cellPositions3 r) = 2 * Real.pi * k) ∧
      ∃ k : ℤ, Spec.scal G2 (o.cellPositions2 r) = 2 * Real.pi * k)
    (b1 b2 b3 : Nat) (hb1 : b1 < x.nb1) (hb2 : b2 < nb2) :
    ∃ t t', getCouplingsSquared (o.cacheD3 q2) [x] q2 ev2 nb2 = .ok [t] ∧
      getCouplingsSquared (o.cacheD3 fun i => q2 i + G2 i) [{ x with q1 := fun i => x.q1 i + G1 i }]
        (fun i => q2 i + G2 i) ev2 nb2 = .ok [t'] ∧
      (b3 < x.nb3Plus → t.1.val b1 b2 b3 = t'.1.val b1 b2 b3) ∧
      (b3 < x.nb3Mins → t.2.val b1 b2 b3 = t'.2.val b1 b2 b3) := by
  have key : ∀ r3, ∃ k1 k4 : ℤ, Spec.scal G1 (o.cellPositions3 r3) = 2 * Real.pi * k1 ∧
      Spec.scal G2 (o.cellPositions3 r3) = 2 * Real.pi * k4 := by
    intro r3
    obtain ⟨k1, e1⟩ := hG1 r3
    obtain ⟨⟨k4, e4⟩, _⟩ := hG2 r3
    exact ⟨k1, k4, e1, e4⟩
  refine ⟨_, _, rfl, rfl, fun hb3 => ?_, fun hb3 => ?_⟩
  · rw [(amplitudes o q2 ev2 nb2 x b1 b2 hb1 hb2).1 b3 hb3,
      (amplitudes o (fun i => q2 i + G2 i) ev2 nb2 { x with q1 := fun i => x.q1 i + G1 i } b1 b2 hb1 hb2).1 b3 hb3]
    refine congrArg _ (coupling_shift _ _ _ _ _ _ _ _ _ _ _ _ _ _ _ _ fun r2 r3 => ?_)
    obtain ⟨k1, k4, e1, e4⟩ := key r3
    obtain ⟨_, k3, e3⟩ := hG2 r2
    refine ⟨k3 - k1 - k4, ?_⟩
    simp only [scal_add, e1, e3, e4]
    push_cast
    ring
  · rw [(amplitudes o q2 ev2 nb2 x b1 b2 hb1 hb2).2 b3 hb3,
      (amplitudes o (fun i => q2 i + G2 i) ev2 nb2 { x with q1 := fun i => x.q1 i + G1 i } b1 b2 hb1 hb2).2 b3 hb3]
    refine congrArg _ (coupling_shift _ _ _ _ _ _ _ _ _ _ _ _ _ _ _ _ fun r2 r3 => ?_)
    obtain ⟨k1, k4, e1, e4⟩ := key r3
    obtain ⟨_, k3, e3⟩ := hG2 r2
    refine ⟨- k3 - k1 + k4, ?_⟩
    simp only [scal_add, scal_sub, e1, e3, e4]
    push_cast
    ring

/-- Lattice vectors along the axes of a cubic lattice of parameter 1 and a reciprocal vector meet the hypotheses. -/
example : ∀ r : Nat, ∃ k : ℤ, Spec.scal (fun i => if i = 0 then 2 * Real.pi else 0) (fun i => if i = 0 then (r : ℝ) else 0) =
    2 * Real.pi * k := by
  intro r
  refine ⟨r, ?_⟩
  unfold Spec.scal
  simp

/-- **C85** (no bands beyond those asked for).  The couplings are not negative. -/
theorem C85_nonneg (o : Coupling3Ph) (x : CouplingInput) (q2 : Fin 3 → ℝ) (ev2 : Nat → Nat → ℂ) (nb2 : Nat)
    (b1 b2 b3 : Nat) : ∃ t, getCouplingsSquared o [x] q2 ev2 nb2 = .ok [t] ∧ 0 ≤ t.1.val b1 b2 b3 ∧ 0 ≤ t.2.val b1 b2 b3 := by
  refine ⟨_, rfl, ?_, ?_⟩ <;>
  · unfold couplingsOne
    simp only
    rw [normView_eq]
    exact Complex.normSq_nonneg _

/-! ## C86 -/

/-- The calls of `cacheD3` one after another. -/
noncomputable def cacheAll (o : Coupling3Ph) (qs : List (Fin 3 → ℝ)) : Coupling3Ph := qs.foldl Coupling3Ph.cacheD3 o

theorem cacheD3_twice (o : Coupling3Ph) (a b : Fin 3 → ℝ) : (o.cacheD3 a).cacheD3 b = o.cacheD3 b := rfl

/-- **C86** (missing: a call with another wavevector than the last one cached, see `C86_violated_stale`).  After any
history of calls of `cacheD3` ending with the wavevector of the request, the couplings are those of an object on which
only the last call was made. -/
theorem C86_history_partial (o : Coupling3Ph) (qs : List (Fin 3 → ℝ)) (q2 : Fin 3 → ℝ) (batch : List CouplingInput)
    (ev2 : Nat → Nat → ℂ) (nb2 : Nat) :
    getCouplingsSquared (cacheAll o (qs ++ [q2])) batch q2 ev2 nb2 = getCouplingsSquared (o.cacheD3 q2) batch q2 ev2 nb2 := by
  have : ∀ (qs : List (Fin 3 → ℝ)) (o : Coupling3Ph), cacheAll o (qs ++ [q2]) = o.cacheD3 q2 := by
    intro qs
    induction qs with
    | nil => intro o; rfl
    | cons a qs ih =>
      intro o
      have := ih (o.cacheD3 a)
      unfold cacheAll at this ⊢
      rw [List.cons_append, List.foldl_cons, this, cacheD3_twice]
  rw [this]

/-- **C86 is violated**: the wavevector handed over with the request is ignored.  A request made without a matching call
of `cacheD3` silently gives the couplings of the wavevector cached last: here those at `q2 = 0` (four) instead of those
at the border of the zone (zero). -/
theorem C86_violated_stale : ∃ (o : Coupling3Ph) (x : CouplingInput) (t t' : Tensor3 × Tensor3),
    Coupling3Ph.make 1 2 1 (fun a b c _ _ => if a = 0 ∧ b = 0 ∧ c = 0 then 1 else 0)
      (fun i r => if i = 0 ∧ r = 1 then 1 else 0) (fun _ _ => 0) (fun _ _ _ => 1) (fun _ _ _ => 1) = .ok o ∧
    getCouplingsSquared (o.cacheD3 fun _ => 0) [x] (fun i => if i = 0 then Real.pi else 0)
      (fun a _ => if a = 0 then 1 else 0) 1 = .ok [t] ∧ t.1.val 0 0 0 = 4 ∧
    getCouplingsSquared (o.cacheD3 fun i => if i = 0 then Real.pi else 0) [x] (fun i => if i = 0 then Real.pi else 0)
      (fun a _ => if a = 0 then 1 else 0) 1 = .ok [t'] ∧ t'.1.val 0 0 0 = 0 := by
  have hm : ∃ o, Coupling3Ph.make 1 2 1 (fun a b c _ _ => if a = 0 ∧ b = 0 ∧ c = 0 then 1 else 0)
      (fun i r => if i = 0 ∧ r = 1 then 1 else 0) (fun _ _ => 0) (fun _ _ _ => 1) (fun _ _ _ => 1) = .ok o := by
    unfold Coupling3Ph.make
    rw [if_neg (by omega)]
    exact ⟨_, rfl⟩
  obtain ⟨o, ho⟩ := hm
  let x : CouplingInput := ⟨fun _ => 0, fun a _ => if a = 0 then 1 else 0, fun a _ => if a = 0 then 1 else 0,
    fun a _ => if a = 0 then 1 else 0, 1, 1, 1⟩
  refine ⟨o, x, _, _, ho, rfl, ?_, rfl, ?_⟩
  · have := C62_squared_weight 1 2 1 _ _ _ _ _ o ho [x] (fun _ => 0) (fun a _ => if a = 0 then 1 else 0) 1 _ rfl
    have h2 := (this.2 0 x _ rfl rfl).1.2.2.2 0 (by decide) 0 (by decide) 0 (by decide)
    rw [h2]
    unfold Spec.coupling Spec.scal
    simp [Finset.sum_range_succ, x, Complex.normSq_apply]
    norm_num
  · have := C62_squared_weight 1 2 1 _ _ _ _ _ o ho [x] (fun i => if i = 0 then Real.pi else 0)
      (fun a _ => if a = 0 then 1 else 0) 1 _ rfl
    have h2 := (this.2 0 x _ rfl rfl).1.2.2.2 0 (by decide) 0 (by decide) 0 (by decide)
    rw [h2]
    have e : Complex.exp (Complex.I * (Real.pi : ℂ)) = -1 := by rw [mul_comm]; exact Complex.exp_pi_mul_I
    unfold Spec.coupling Spec.scal
    simp [Finset.sum_range_succ, x, Fin.sum_univ_three, e]

end Verif.Props
