import Verif.Proofs.BlochWannier3
import Verif.Props.ElPhCoupling
import Mathlib.Tactic.FinCases
import Mathlib.Tactic.IntervalCases

/-! # C140 to C145: the coupling from Bloch states of coarse meshes to Wannier functions -/
namespace Verif.Props
open Verif.Model Verif.Spec
open scoped Matrix

variable {E P M W B : Nat} {K Q : Type}

/-! ## C140 rotation to the Wannier gauge -/

/-- C140 (partial): if the threads share both loops so that each partial product is read by the thread that computed it,
the matrix elements in the Wannier gauge are `sum U_{k+q}(l, i) g(l, m) conj(U_k(m, j))`, whatever the threads do.
Missing: the code does not ask for such a schedule (`C140_violated_threads`). -/
theorem C140_gauge_partial (threads : List (GaugeThread M W B)) (hw : Worksharing threads) (ha : Aligned threads)
    (uKq uK : Fin B → Fin W → ℂ) (g : Fin B → Fin B → Fin M → ℂ) (i j : Fin W) (nu : Fin M) :
    gaugeRotate threads uKq uK g i j nu = ∑ l, ∑ m, uKq l i * g l m nu * (starRingEnd ℂ) (uK m j) :=
  gaugeRotate_val threads hw ha uKq uK g i j nu

/-- C140 (partial): with the schedule `static` and a number of threads that divides the number of modes times the number
of Wannier functions (one thread in particular), the matrix elements are right. -/
theorem C140_static_partial (T : Nat) (h0 : 0 < T) (hT : T ∣ M * W) (uKq uK : Fin B → Fin W → ℂ)
    (g : Fin B → Fin B → Fin M → ℂ) (i j : Fin W) (nu : Fin M) :
    gaugeRotate (staticThreads M W B T) uKq uK g i j nu = ∑ l, ∑ m, uKq l i * g l m nu * (starRingEnd ℂ) (uK m j) :=
  gaugeRotate_val _ (staticThreads_worksharing T h0) (staticThreads_aligned T hT h0) uKq uK g i j nu

/-- A case that meets the hypotheses, and is not trivial: three modes, two functions, six threads. -/
example : (6 ∣ 3 * 2) ∧ gaugeRotate (staticThreads 3 2 2 6) (fun _ _ => 1) (fun _ _ => 1) (fun _ _ _ => 1) 0 0 0 = 4 := by
  refine ⟨by norm_num, ?_⟩
  rw [C140_static_partial 6 (by norm_num) (by norm_num)]
  simp
  norm_num

/-- C140 is violated: with three threads and the schedule `static`, one mode, two bands and two Wannier functions, each
of which is one of the bands, the matrix element between the two becomes zero instead of one. -/
theorem C140_violated_threads :
    let u : Fin 2 → Fin 2 → ℂ := fun l i => if l = i then 1 else 0
    Worksharing (staticThreads 1 2 2 3) ∧
    gaugeRotate (staticThreads 1 2 2 3) u u (fun l m _ => if l = 0 ∧ m = 1 then 1 else 0) 0 1 0 = 0 ∧
    gaugeRotate (staticThreads 1 2 2 1) u u (fun l m _ => if l = 0 ∧ m = 1 then 1 else 0) 0 1 0 = 1 := by
  intro u
  refine ⟨staticThreads_worksharing 3 (by norm_num), ?_, ?_⟩
  · have e : staticThreads 1 2 2 3 = [
        ⟨[(0, 0, 0, 0), (0, 0, 0, 1), (0, 0, 1, 0)], [(0, 0, 0, 0), (0, 0, 0, 1), (0, 0, 1, 0)]⟩,
        ⟨[(0, 0, 1, 1), (0, 1, 0, 0), (0, 1, 0, 1)], [(0, 0, 1, 1), (0, 1, 0, 0), (0, 1, 0, 1)]⟩,
        ⟨[(0, 1, 1, 0), (0, 1, 1, 1)], [(0, 1, 1, 0), (0, 1, 1, 1)]⟩] := by
      rfl
    rw [e]
    simp [gaugeRotate, gaugeTmp2, gaugeTmp, u]
  · rw [C140_static_partial 1 (by norm_num) (by norm_num)]
    simp [u]

/-! ## C141 round trip -/

/-- C141 (partial): the coupling of the file, interpolated at wavevectors of the coarse meshes with the rotation matrices
as eigenvectors of the electrons and the same eigenvectors of the phonons, is the one of the first-principles code:
the squared matrix elements computed by the program are `|g(b2, b1, nu, k, q)|^2`.  The lattice vectors carry Wigner-Seitz
weights, and the rotation matrices conserve the bands (no disentanglement).
Missing: more bands than Wannier functions (`C141_states_partial`, `C141_violated_disentangled`), threads that share the rotation otherwise (C140), and
the polar correction (C142). -/
theorem C141_roundtrip_partial (d b : Mat3) (hdb : DualCells d b) (nk nq : Fin 3 → Nat) (hnk : ∀ i, 0 < nk i)
    (hnq : ∀ i, 0 < nq i) (c : CoarseData (KGrid nk) (KGrid nq) E P M W B) (hks : EachOnce c.ks) (hqs : EachOnce c.qs)
    (hkc : ∀ k, c.kCart k = gridPoint b k) (hqc : ∀ q, c.qCart q = gridPoint b q)
    (mE : Fin E → Fin 3 → ℤ) (hmE : ∀ r, c.elVectors r = matVec d fun i => (mE r i : ℝ))
    (mP : Fin P → Fin 3 → ℤ) (hmP : ∀ r, c.phVectors r = matVec d fun i => (mP r i : ℝ))
    (dE : Fin E → ℝ) (hdE : CellWeights nk mE dE) (dP : Fin P → ℝ) (hdP : CellWeights nq mP dP)
    (hu : ∀ k l l', ∑ w, c.u k l w * (starRingEnd ℂ) (c.u k l' w) = if l = l' then 1 else 0)
    (he : ∀ q, IsUnit (c.phEig q).det)
    -- how the work of the transform is shared
    (threads : KGrid nk → KGrid nq → List (GaugeThread M W B))
    (hw : ∀ k q, Worksharing (threads k q)) (ha : ∀ k q, Aligned (threads k q))
    (kShares : List (List (KGrid nk))) (qShares : List (List (KGrid nq))) (eShares : List (List (Fin E)))
    (hksh : kShares.flatten.Perm c.ks) (hqsh : qShares.flatten.Perm c.qs) (hesh : eShares.flatten.Perm (List.finRange E))
    -- what is asked from the interpolation
    (shares : List (List (Fin E))) (hs : shares.flatten.Perm (List.finRange E)) (asked : Nat → Vec3 × (Fin W → Nat → ℂ))
    (own : Nat) (garbage : Nat → ℂ) (k : KGrid nk) (q : KGrid nq) (item : CouplingItem M W)
    (h1 : (asked own).1 = c.kCart k) (h2 : ∀ w (b1 : Fin B), (asked own).2 w b1 = c.u k b1 w)
    (h3 : item.q = c.qCart q) (h4 : item.nb2 = B) (h5 : ∀ w (b2 : Fin B), item.ev2 w b2 = c.u (c.kPlusQ k q) b2 w)
    (h6 : ∀ mu nu, item.ev3 mu nu = c.phEig q mu nu) (b1 b2 : Fin B) (nu : Fin M) :
    let file := coarseElPhData c dE dP (blochToWannier c threads kShares qShares eShares)
    (calcCouplingSquared file false (cacheElPh file shares asked own) (asked own).2 garbage [item])[0]?.map
      (fun g => g b1 b2 nu) = some (Complex.normSq (c.g b2 b1 nu k q)) := by
  intro file
  have hfile : file = coarseElPhData c dE dP (wannierCoupling c) := by
    show coarseElPhData c dE dP _ = _
    congr 1
    funext i j mu irP irE
    exact blochToWannier_val c hks.1 hqs.1 threads hw ha kShares qShares eShares hksh hqsh hesh i j mu irP irE
  obtain ⟨hl, hv⟩ := C122_value file false shares hs asked own garbage [item]
  have := hv 0 (by simp) (by rw [hl]; simp) b1 b2 nu (by simp [h4])
  rw [List.getElem?_eq_getElem (by rw [hl]; simp), Option.map_some, this]
  congr 2
  simp only [List.getElem_cons_zero, matrixElement, longRangeUsed, Bool.false_and, Bool.false_eq_true, if_false, add_zero,
    h1, h2, h3, h5, h6, hfile]
  exact roundTrip d b hdb nk nq hnk hnq c hks hqs hkc hqc mE hmE mP hmP dE hdE dP hdP hu he k q b1 b2 nu

/-- C141 (partial): the coupling of the file, interpolated at wavevectors of the coarse meshes, with any eigenvectors of the
electrons and any displacement of the atoms: the squared matrix element, computed by the program, of the first-principles
coupling between the states that the eigenvectors stand for.  The rotation matrices are arbitrary: disentanglement is
included.
Missing: threads that share the rotation otherwise (C140), and the polar correction (C142). -/
theorem C141_states_partial (d b : Mat3) (hdb : DualCells d b) (nk nq : Fin 3 → Nat) (hnk : ∀ i, 0 < nk i)
    (hnq : ∀ i, 0 < nq i) (c : CoarseData (KGrid nk) (KGrid nq) E P M W B) (hks : EachOnce c.ks) (hqs : EachOnce c.qs)
    (hkc : ∀ k, c.kCart k = gridPoint b k) (hqc : ∀ q, c.qCart q = gridPoint b q)
    (mE : Fin E → Fin 3 → ℤ) (hmE : ∀ r, c.elVectors r = matVec d fun i => (mE r i : ℝ))
    (mP : Fin P → Fin 3 → ℤ) (hmP : ∀ r, c.phVectors r = matVec d fun i => (mP r i : ℝ))
    (dE : Fin E → ℝ) (hdE : CellWeights nk mE dE) (dP : Fin P → ℝ) (hdP : CellWeights nq mP dP)
    -- how the work of the transform is shared
    (threads : KGrid nk → KGrid nq → List (GaugeThread M W B))
    (hw : ∀ k q, Worksharing (threads k q)) (ha : ∀ k q, Aligned (threads k q))
    (kShares : List (List (KGrid nk))) (qShares : List (List (KGrid nq))) (eShares : List (List (Fin E)))
    (hksh : kShares.flatten.Perm c.ks) (hqsh : qShares.flatten.Perm c.qs) (hesh : eShares.flatten.Perm (List.finRange E))
    -- what is asked from the interpolation
    (shares : List (List (Fin E))) (hs : shares.flatten.Perm (List.finRange E)) (asked : Nat → Vec3 × (Fin W → Nat → ℂ))
    (own : Nat) (garbage : Nat → ℂ) (k : KGrid nk) (q : KGrid nq) (item : CouplingItem M W)
    (h1 : (asked own).1 = c.kCart k) (h3 : item.q = c.qCart q) (b1 b2 : Nat) (hb2 : b2 < item.nb2) (nu : Fin M) :
    let file := coarseElPhData c dE dP (blochToWannier c threads kShares qShares eShares)
    (calcCouplingSquared file false (cacheElPh file shares asked own) (asked own).2 garbage [item])[0]?.map
      (fun g => g b1 b2 nu) = some (Complex.normSq (∑ l, ∑ m, ∑ nu',
        (starRingEnd ℂ) (stateOf (c.u (c.kPlusQ k q)) (fun w => item.ev2 w b2) l) * c.g l m nu' k q *
        stateOf (c.u k) (fun w => (asked own).2 w b1) m * ((c.phEig q)⁻¹ *ᵥ fun mu => item.ev3 mu nu) nu')) := by
  intro file
  have hfile : file = coarseElPhData c dE dP (wannierCoupling c) := by
    show coarseElPhData c dE dP _ = _
    congr 1
    funext i j mu irP irE
    exact blochToWannier_val c hks.1 hqs.1 threads hw ha kShares qShares eShares hksh hqsh hesh i j mu irP irE
  obtain ⟨hl, hv⟩ := C122_value file false shares hs asked own garbage [item]
  have := hv 0 (by simp) (by rw [hl]; simp) b1 b2 nu (by simpa using hb2)
  rw [List.getElem?_eq_getElem (by rw [hl]; simp), Option.map_some, this]
  congr 2
  simp only [List.getElem_cons_zero, matrixElement, longRangeUsed, Bool.false_and, Bool.false_eq_true, if_false, add_zero,
    h1, h3, hfile]
  exact roundTripStates d b hdb nk nq hnk hnq c hks hqs hkc hqc mE hmE mP hmP dE hdE dP hdP k q _ _ _

/-- An eigenvector of the Hamiltonian between Wannier functions with the energy of a nondegenerate band stands for the state of that
band, up to a phase. -/
theorem eigenstate_band (u : Fin W → Fin W → ℂ) (energy : Fin W → ℝ)
    (hu : ∀ l l', ∑ w, u l w * (starRingEnd ℂ) (u l' w) = if l = l' then 1 else 0) (v : Fin W → ℂ) (b1 : Fin W)
    (hn : ∀ l, l ≠ b1 → energy l ≠ energy b1) (hv : IsEigenstate u energy v (energy b1)) :
    (∀ l, l ≠ b1 → stateOf u v l = 0) ∧ Complex.normSq (stateOf u v b1) = 1 := by
  have hH : ∀ i, ∑ j, gaugeHamiltonian u energy i j * v j = ∑ l, u l i * (energy l : ℂ) * stateOf u v l := by
    intro i
    unfold gaugeHamiltonian stateOf
    simp only [Finset.sum_mul, Finset.mul_sum]
    rw [Finset.sum_comm]
    exact Finset.sum_congr rfl fun l _ => Finset.sum_congr rfl fun w _ => by ring
  have hproj : ∀ l, (energy l : ℂ) * stateOf u v l = (energy b1 : ℂ) * stateOf u v l := by
    intro l
    have h : ∑ i, (starRingEnd ℂ) (u l i) * ∑ j, gaugeHamiltonian u energy i j * v j =
        ∑ i, (starRingEnd ℂ) (u l i) * ((energy b1 : ℂ) * v i) := Finset.sum_congr rfl fun i _ => by rw [hv.1 i]
    have r : ∑ i, (starRingEnd ℂ) (u l i) * ((energy b1 : ℂ) * v i) = (energy b1 : ℂ) * stateOf u v l := by
      unfold stateOf
      rw [Finset.mul_sum]
      exact Finset.sum_congr rfl fun i _ => by ring
    have e : ∑ i, (starRingEnd ℂ) (u l i) * ∑ j, gaugeHamiltonian u energy i j * v j = (energy l : ℂ) * stateOf u v l := by
      simp only [hH, Finset.mul_sum]
      rw [Finset.sum_comm]
      have : ∀ l', ∑ i, (starRingEnd ℂ) (u l i) * (u l' i * (energy l' : ℂ) * stateOf u v l') =
          (if l' = l then 1 else 0) * ((energy l' : ℂ) * stateOf u v l') := by
        intro l'
        rw [← hu l' l, Finset.sum_mul]
        exact Finset.sum_congr rfl fun i _ => by ring
      simp only [this, ite_mul, one_mul, zero_mul]
      simp
    rw [← e, h, r]
  have hzero : ∀ l, l ≠ b1 → stateOf u v l = 0 := by
    intro l hl
    have h := hproj l
    have : ((energy l : ℂ) - (energy b1 : ℂ)) * stateOf u v l = 0 := by rw [sub_mul, h, sub_self]
    rcases mul_eq_zero.mp this with h0 | h0
    · exact absurd (by exact_mod_cast sub_eq_zero.mp h0) (hn l hl)
    · exact h0
  refine ⟨hzero, ?_⟩
  -- the rotation matrix is square: its columns are orthonormal as well
  have hcol : ∀ i j, ∑ l, u l i * (starRingEnd ℂ) (u l j) = if i = j then 1 else 0 := by
    have hm : (Matrix.of u) * (Matrix.of u).conjTranspose = 1 := by
      ext l l'
      rw [Matrix.mul_apply, Matrix.one_apply, ← hu l l']
      rfl
    have hm2 := mul_eq_one_comm.mp hm
    intro i j
    have := congrFun (congrFun hm2 j) i
    rw [Matrix.mul_apply, Matrix.one_apply] at this
    rw [show (∑ l, u l i * (starRingEnd ℂ) (u l j)) = ∑ l, (Matrix.of u).conjTranspose j l * (Matrix.of u) l i from
      Finset.sum_congr rfl fun l _ => by rw [mul_comm]; rfl, this]
    simp only [eq_comm]
  have hnorm : ∑ l, stateOf u v l * (starRingEnd ℂ) (stateOf u v l) = ∑ i, v i * (starRingEnd ℂ) (v i) := by
    have ex : ∀ l, stateOf u v l * (starRingEnd ℂ) (stateOf u v l) =
        ∑ i, ∑ j, (u l j * (starRingEnd ℂ) (u l i)) * (v i * (starRingEnd ℂ) (v j)) := by
      intro l
      unfold stateOf
      rw [map_sum, Finset.sum_mul_sum]
      refine Finset.sum_congr rfl fun i _ => Finset.sum_congr rfl fun j _ => ?_
      rw [map_mul, Complex.conj_conj]
      ring
    simp only [ex]
    rw [Finset.sum_comm]
    refine Finset.sum_congr rfl fun i _ => ?_
    rw [Finset.sum_comm]
    simp only [← Finset.sum_mul, hcol, ite_mul, one_mul, zero_mul]
    simp
  have hone : (∑ i, v i * (starRingEnd ℂ) (v i)) = 1 := by
    simp only [Complex.mul_conj]
    rw [← Complex.ofReal_sum, hv.2, Complex.ofReal_one]
  rw [hone, Finset.sum_eq_single b1 (fun l _ hl => by rw [hzero l hl, zero_mul]) (by simp), Complex.mul_conj] at hnorm
  exact_mod_cast hnorm

/-- C141 (partial): with the eigenvectors found by diagonalizing the interpolated Hamiltonian, whatever their phases, the squared
matrix elements at wavevectors of the coarse meshes are those of the first-principles code: `|g(b2, b1, nu, k, q)|^2`, for bands
that are not degenerate.  The displacements of the atoms are those of the first-principles code, up to a phase.
Missing: as for `C141_states_partial`; more bands than Wannier functions (`C141_violated_disentangled`). -/
theorem C141_eigenvectors_partial (d b : Mat3) (hdb : DualCells d b) (nk nq : Fin 3 → Nat) (hnk : ∀ i, 0 < nk i)
    (hnq : ∀ i, 0 < nq i) (c : CoarseData (KGrid nk) (KGrid nq) E P M W W) (hks : EachOnce c.ks) (hqs : EachOnce c.qs)
    (hkc : ∀ k, c.kCart k = gridPoint b k) (hqc : ∀ q, c.qCart q = gridPoint b q)
    (mE : Fin E → Fin 3 → ℤ) (hmE : ∀ r, c.elVectors r = matVec d fun i => (mE r i : ℝ))
    (mP : Fin P → Fin 3 → ℤ) (hmP : ∀ r, c.phVectors r = matVec d fun i => (mP r i : ℝ))
    (dE : Fin E → ℝ) (hdE : CellWeights nk mE dE) (dP : Fin P → ℝ) (hdP : CellWeights nq mP dP)
    (hu : ∀ k l l', ∑ w, c.u k l w * (starRingEnd ℂ) (c.u k l' w) = if l = l' then 1 else 0)
    (he : ∀ q, IsUnit (c.phEig q).det) (energy : KGrid nk → Fin W → ℝ)
    -- how the work of the transform is shared
    (threads : KGrid nk → KGrid nq → List (GaugeThread M W W))
    (hw : ∀ k q, Worksharing (threads k q)) (ha : ∀ k q, Aligned (threads k q))
    (kShares : List (List (KGrid nk))) (qShares : List (List (KGrid nq))) (eShares : List (List (Fin E)))
    (hksh : kShares.flatten.Perm c.ks) (hqsh : qShares.flatten.Perm c.qs) (hesh : eShares.flatten.Perm (List.finRange E))
    -- what is asked from the interpolation
    (shares : List (List (Fin E))) (hs : shares.flatten.Perm (List.finRange E)) (asked : Nat → Vec3 × (Fin W → Nat → ℂ))
    (own : Nat) (garbage : Nat → ℂ) (k : KGrid nk) (q : KGrid nq) (item : CouplingItem M W)
    (b1 b2 : Fin W) (nu : Fin M) (phase : ℂ) (hphase : Complex.normSq phase = 1)
    (h1 : (asked own).1 = c.kCart k) (h2 : IsEigenstate (c.u k) (energy k) (fun w => (asked own).2 w b1) (energy k b1))
    (hn1 : ∀ l, l ≠ b1 → energy k l ≠ energy k b1)
    (h3 : item.q = c.qCart q) (h4 : item.nb2 = W)
    (h5 : IsEigenstate (c.u (c.kPlusQ k q)) (energy (c.kPlusQ k q)) (fun w => item.ev2 w b2) (energy (c.kPlusQ k q) b2))
    (hn2 : ∀ l, l ≠ b2 → energy (c.kPlusQ k q) l ≠ energy (c.kPlusQ k q) b2)
    (h6 : ∀ mu, item.ev3 mu nu = phase * c.phEig q mu nu) :
    let file := coarseElPhData c dE dP (blochToWannier c threads kShares qShares eShares)
    (calcCouplingSquared file false (cacheElPh file shares asked own) (asked own).2 garbage [item])[0]?.map
      (fun g => g b1 b2 nu) = some (Complex.normSq (c.g b2 b1 nu k q)) := by
  intro file
  rw [C141_states_partial d b hdb nk nq hnk hnq c hks hqs hkc hqc mE hmE mP hmP dE hdE dP hdP threads hw ha kShares qShares eShares
    hksh hqsh hesh shares hs asked own garbage k q item h1 h3 b1 b2 (by rw [h4]; exact b2.2) nu]
  congr 1
  obtain ⟨z1, n1⟩ := eigenstate_band _ _ (hu k) _ b1 hn1 h2
  obtain ⟨z2, n2⟩ := eigenstate_band _ _ (hu _) _ b2 hn2 h5
  have s3 : ∀ nu', ((c.phEig q)⁻¹ *ᵥ fun mu => item.ev3 mu nu) nu' = if nu' = nu then phase else 0 := by
    intro nu'
    have : ((c.phEig q)⁻¹ *ᵥ fun mu => item.ev3 mu nu) nu' = phase * ((c.phEig q)⁻¹ * c.phEig q) nu' nu := by
      rw [Matrix.mul_apply, Finset.mul_sum, Matrix.mulVec, dotProduct]
      refine Finset.sum_congr rfl fun mu _ => ?_
      rw [h6]
      ring
    rw [this, Matrix.nonsing_inv_mul _ (he q), Matrix.one_apply]
    split <;> simp
  rw [Finset.sum_eq_single b2 (fun l _ hl => by simp [z2 l hl]) (by simp),
    Finset.sum_eq_single b1 (fun m _ hm => by simp [z1 m hm]) (by simp),
    Finset.sum_eq_single nu (fun nu' _ hnu => by simp [s3, hnu]) (by simp), s3, if_pos rfl]
  simp only [map_mul, Complex.normSq_conj, n1, n2, hphase, one_mul, mul_one]

/-- Two wavevectors along the first axis of a cubic cell, with rotation matrices `u0` and `u1`. -/
noncomputable def pairCoarse (u0 u1 : Fin B → Fin B → ℂ) : CoarseData (KGrid ![2, 1, 1]) (KGrid ![2, 1, 1]) 2 2 1 B B where
  ks := Finset.univ.toList
  qs := Finset.univ.toList
  kCart := gridPoint fun i j => if i = j then 2 * Real.pi else 0
  qCart := gridPoint fun i j => if i = j then 2 * Real.pi else 0
  kPlusQ k q := k + q
  elVectors r := matVec (fun i j => if i = j then 1 else 0) fun i => ((if i = 0 then (r : ℕ) else 0 : ℤ) : ℝ)
  phVectors r := matVec (fun i j => if i = j then 1 else 0) fun i => ((if i = 0 then (r : ℕ) else 0 : ℤ) : ℝ)
  u k := if (k 0 : ℕ) = 0 then u0 else u1
  phEig _ := 1
  g _ _ _ k q := if (k 0 : ℕ) = 0 then 2 else if (q 0 : ℕ) = 0 then 5 else 3

theorem pairCoarse_weights : CellWeights ![2, 1, 1] (fun (r : Fin 2) i => (if i = 0 then (r : ℕ) else 0 : ℤ)) fun _ => 1 := by
  intro p
  have h0 : (p 0 : ℕ) < 2 := (p 0).2
  have h1 : (p 1 : ℕ) = 0 := by have := (p 1).2; simp at this; omega
  have h2 : (p 2 : ℕ) = 0 := by have := (p 2).2; simp at this; omega
  rw [Finset.sum_filter, Fin.sum_univ_two]
  simp only [Fin.forall_fin_succ, h1, h2]
  rcases (show (p 0 : ℕ) = 0 ∨ (p 0 : ℕ) = 1 by omega) with h | h
  · simp [h]
  · simp [h]

theorem pairCoarse_once : EachOnce (Finset.univ.toList : List (KGrid ![2, 1, 1])) :=
  ⟨Finset.nodup_toList _, fun x => by simp⟩

theorem pairCoarse_dual : DualCells (fun i j => if i = j then 1 else 0) (fun i j => if i = j then 2 * Real.pi else 0) := by
  intro i j
  simp only [ite_mul, one_mul, zero_mul]
  rw [Finset.sum_ite_eq' Finset.univ i]
  simp

theorem pairCoarse_positive : ∀ i, 0 < (![2, 1, 1] : Fin 3 → Nat) i := by decide

/-- A case that meets the hypotheses: two wavevectors, rotation matrices `1` and `i`, two processes, one thread; the
matrix element between the states of the second wavevector is `5`. -/
example : let c := pairCoarse (B := 1) (fun _ _ => 1) fun _ _ => Complex.I
    let file := coarseElPhData c (fun _ => 1) (fun _ => 1)
      (blochToWannier c (fun _ _ => staticThreads 1 1 1 1) [[], c.ks] [c.qs, []] [[1], [0]])
    let asked : Nat → Vec3 × (Fin 1 → Nat → ℂ) := fun _ => (c.kCart fun i => ⟨if i = 0 then 1 else 0, by fin_cases i <;> simp⟩, fun _ _ => Complex.I)
    (calcCouplingSquared file false (cacheElPh file [[0], [1]] asked 0) (asked 0).2 (fun _ => 0)
      [⟨c.qCart fun i => ⟨0, pairCoarse_positive i⟩, 1, fun _ _ => Complex.I, fun _ _ => 1, fun _ => 0⟩])[0]?.map
      (fun g => g 0 0 0) = some 25 := by
  intro c file asked
  have := C141_roundtrip_partial _ _ pairCoarse_dual ![2, 1, 1] ![2, 1, 1] pairCoarse_positive pairCoarse_positive c
    pairCoarse_once pairCoarse_once (fun _ => rfl) (fun _ => rfl) _ (fun _ => rfl) _ (fun _ => rfl) (fun _ => 1)
    pairCoarse_weights (fun _ => 1) pairCoarse_weights
    (by
      intro k l l'
      have : l = l' := Subsingleton.elim _ _
      simp only [c, pairCoarse, this]
      split <;> simp)
    (by intro q; simp [c, pairCoarse]) (fun _ _ => staticThreads 1 1 1 1)
    (fun _ _ => staticThreads_worksharing 1 (by norm_num)) (fun _ _ => staticThreads_aligned 1 (by norm_num) (by norm_num))
    [[], c.ks] [c.qs, []] [[1], [0]] (by simp) (by simp) (by decide) [[0], [1]] (by decide) asked 0 (fun _ => 0)
    (fun i => ⟨if i = 0 then 1 else 0, by fin_cases i <;> simp⟩) (fun i => ⟨0, pairCoarse_positive i⟩)
    ⟨c.qCart fun i => ⟨0, pairCoarse_positive i⟩, 1, fun _ _ => Complex.I, fun _ _ => 1, fun _ => 0⟩ rfl
    (by intro w b1; simp [asked, c, pairCoarse]) rfl rfl (by intro w b2; simp [c, pairCoarse, Fin.add_def])
    (by intro mu nu; have : mu = nu := Subsingleton.elim _ _; simp [c, pairCoarse, this]) 0 0 0
  refine Eq.trans this ?_
  simp [c, pairCoarse, Complex.normSq]
  norm_num

/-- A case that meets the hypotheses of `C141_eigenvectors_partial`: the eigenvectors are `1` and `-i`, not the rotation
matrices. -/
example : let c := pairCoarse (B := 1) (fun _ _ => 1) fun _ _ => Complex.I
    let file := coarseElPhData c (fun _ => 1) (fun _ => 1)
      (blochToWannier c (fun _ _ => staticThreads 1 1 1 1) [[], c.ks] [c.qs, []] [[1], [0]])
    let asked : Nat → Vec3 × (Fin 1 → Nat → ℂ) := fun _ => (c.kCart fun i => ⟨if i = 0 then 1 else 0, by fin_cases i <;> simp⟩, fun _ _ => 1)
    (calcCouplingSquared file false (cacheElPh file [[0], [1]] asked 0) (asked 0).2 (fun _ => 0)
      [⟨c.qCart fun i => ⟨0, pairCoarse_positive i⟩, 1, fun _ _ => -Complex.I, fun _ _ => -1, fun _ => 0⟩])[0]?.map
      (fun g => g 0 0 0) = some 25 := by
  intro c file asked
  have hstate : ∀ (k : KGrid ![2, 1, 1]) (v : Fin 1 → ℂ), Complex.normSq (v 0) = 1 → IsEigenstate (c.u k) (fun _ => 2) v 2 := by
    intro k v hv
    refine ⟨fun i => ?_, by simpa using hv⟩
    have hi : i = 0 := Subsingleton.elim _ _
    subst hi
    simp only [gaugeHamiltonian, c, pairCoarse, Finset.univ_unique, Fin.default_eq_zero, Finset.sum_singleton]
    split
    · simp
    · rw [Complex.conj_I]
      push_cast
      linear_combination (-2 * v 0) * Complex.I_mul_I
  have := C141_eigenvectors_partial _ _ pairCoarse_dual ![2, 1, 1] ![2, 1, 1] pairCoarse_positive pairCoarse_positive c
    pairCoarse_once pairCoarse_once (fun _ => rfl) (fun _ => rfl) _ (fun _ => rfl) _ (fun _ => rfl) (fun _ => 1)
    pairCoarse_weights (fun _ => 1) pairCoarse_weights
    (by
      intro k l l'
      have : l = l' := Subsingleton.elim _ _
      simp only [c, pairCoarse, this]
      split <;> simp)
    (by intro q; simp [c, pairCoarse]) (fun _ _ => 2) (fun _ _ => staticThreads 1 1 1 1)
    (fun _ _ => staticThreads_worksharing 1 (by norm_num)) (fun _ _ => staticThreads_aligned 1 (by norm_num) (by norm_num))
    [[], c.ks] [c.qs, []] [[1], [0]] (by simp) (by simp) (by decide) [[0], [1]] (by decide) asked 0 (fun _ => 0)
    (fun i => ⟨if i = 0 then 1 else 0, by fin_cases i <;> simp⟩) (fun i => ⟨0, pairCoarse_positive i⟩)
    ⟨c.qCart fun i => ⟨0, pairCoarse_positive i⟩, 1, fun _ _ => -Complex.I, fun _ _ => -1, fun _ => 0⟩ 0 0 0 (-1) (by simp)
    rfl (hstate _ _ (by simp [asked])) (fun l hl => absurd (Subsingleton.elim _ _) hl) rfl rfl (hstate _ _ (by simp))
    (fun l hl => absurd (Subsingleton.elim _ _) hl)
    (by intro mu; have : mu = 0 := Subsingleton.elim _ _; simp [c, pairCoarse, this])
  refine Eq.trans this ?_
  simp [c, pairCoarse, Complex.normSq]
  norm_num

/-- The only wavevector of a mesh of one. -/
def onlyPoint : KGrid ![1, 1, 1] := fun i => ⟨0, by fin_cases i <;> simp⟩

/-- One wavevector, two bands and one Wannier function, equal to the second band; all the matrix elements of the first-principles
code are one. -/
noncomputable def disentangledCoarse : CoarseData (KGrid ![1, 1, 1]) (KGrid ![1, 1, 1]) 1 1 1 1 2 where
  ks := Finset.univ.toList
  qs := Finset.univ.toList
  kCart := gridPoint fun i j => if i = j then 2 * Real.pi else 0
  qCart := gridPoint fun i j => if i = j then 2 * Real.pi else 0
  kPlusQ k q := k + q
  elVectors _ := matVec (fun i j => if i = j then 1 else 0) fun _ => ((0 : ℤ) : ℝ)
  phVectors _ := matVec (fun i j => if i = j then 1 else 0) fun _ => ((0 : ℤ) : ℝ)
  u _ l _ := if l = 1 then 1 else 0
  phEig _ := 1
  g l m nu _ _ := keepBands 1 2 0 (fun _ _ _ => 1) l m nu

/-- C141 is violated: the rotation matrix conserves the second band and the interpolation is asked for that band, whose matrix element
is one.  The result is zero: the conversion leaves out the matrix elements of the bands beyond the number of Wannier functions. -/
theorem C141_violated_disentangled (garbage : Nat → ℂ) :
    let c := disentangledCoarse
    let file := coarseElPhData c (fun _ => 1) (fun _ => 1)
      (blochToWannier c (fun _ _ => staticThreads 1 1 2 1) [c.ks] [c.qs] [[0]])
    let asked : Nat → Vec3 × (Fin 1 → Nat → ℂ) := fun _ => (c.kCart onlyPoint, fun w _ => c.u onlyPoint 1 w)
    (∀ l, stateOf (c.u onlyPoint) (fun w => c.u onlyPoint 1 w) l = if l = 1 then 1 else 0) ∧
    (calcCouplingSquared file false (cacheElPh file [[0]] asked 0) (asked 0).2 garbage
      [⟨c.qCart onlyPoint, 2, fun w _ => c.u onlyPoint 1 w, fun _ _ => 1, fun _ => 0⟩])[0]?.map (fun g => g 1 1 0) = some 0 := by
  intro c file asked
  have hpos : ∀ i, 0 < (![1, 1, 1] : Fin 3 → Nat) i := by decide
  have honce : EachOnce (Finset.univ.toList : List (KGrid ![1, 1, 1])) := ⟨Finset.nodup_toList _, fun x => by simp⟩
  have hwts : CellWeights ![1, 1, 1] (fun (_ : Fin 1) (_ : Fin 3) => (0 : ℤ)) fun _ => 1 := by
    intro p
    have : ∀ i, (p i : ℕ) = 0 := by
      intro i
      have := (p i).2
      fin_cases i <;> simpa using this
    simp [this]
  refine ⟨fun l => ?_, ?_⟩
  · fin_cases l <;> simp [stateOf, c, disentangledCoarse]
  · have := C141_states_partial _ _ pairCoarse_dual ![1, 1, 1] ![1, 1, 1] hpos hpos c honce honce (fun _ => rfl) (fun _ => rfl) _
      (fun _ => rfl) _ (fun _ => rfl) (fun _ => 1) hwts (fun _ => 1) hwts (fun _ _ => staticThreads 1 1 2 1)
      (fun _ _ => staticThreads_worksharing 1 (by norm_num)) (fun _ _ => staticThreads_aligned 1 (by norm_num) (by norm_num))
      [c.ks] [c.qs] [[0]] (by simp) (by simp) (by decide) [[0]] (by decide) asked 0 garbage onlyPoint onlyPoint
      ⟨c.qCart onlyPoint, 2, fun w _ => c.u onlyPoint 1 w, fun _ _ => 1, fun _ => 0⟩ rfl rfl 1 1 (by norm_num) 0
    refine Eq.trans this ?_
    simp [stateOf, c, disentangledCoarse, asked, keepBands]

/-! ## C142 polar correction -/

/-- The overlap of the first-principles states in the Wannier gauge. -/
noncomputable def stateOverlap (c : CoarseData K Q E P M W B) (k : K) (q : Q) (b2 b1 : Fin B) : ℂ :=
  ∑ w, c.u (c.kPlusQ k q) b2 w * (starRingEnd ℂ) (c.u k b1 w)

/-- C142: what the interpolation gives at the wavevectors of the coarse meshes after the long-range part `x` has been
subtracted and added back, when each process reads some of the files: the overlap that is subtracted is the conjugate of
the one that is added. -/
theorem C142_distributed_partial (d b : Mat3) (hdb : DualCells d b) (nk nq : Fin 3 → Nat) (hnk : ∀ i, 0 < nk i)
    (hnq : ∀ i, 0 < nq i) (c : CoarseData (KGrid nk) (KGrid nq) E P M W B) (hks : EachOnce c.ks) (hqs : EachOnce c.qs)
    (hkc : ∀ k, c.kCart k = gridPoint b k) (hqc : ∀ q, c.qCart q = gridPoint b q)
    (mE : Fin E → Fin 3 → ℤ) (hmE : ∀ r, c.elVectors r = matVec d fun i => (mE r i : ℝ))
    (mP : Fin P → Fin 3 → ℤ) (hmP : ∀ r, c.phVectors r = matVec d fun i => (mP r i : ℝ))
    (dE : Fin E → ℝ) (hdE : CellWeights nk mE dE) (dP : Fin P → ℝ) (hdP : CellWeights nq mP dP)
    (hu : ∀ k l l', ∑ w, c.u k l w * (starRingEnd ℂ) (c.u k l' w) = if l = l' then 1 else 0)
    (he : ∀ q, IsUnit (c.phEig q).det) (x : KGrid nq → Fin M → ℂ) (k : KGrid nk) (q : KGrid nq) (b1 b2 : Fin B) (nu : Fin M) :
    let c' := polarSubtractEfficient c x
    let found := matrixElement (coarseElPhData c' dE dP (wannierCoupling c')) (longRangeUsed true (c.qCart q)) (c.kCart k)
      (c.qCart q) (fun w => c.u k b1 w) (fun w => c.u (c.kPlusQ k q) b2 w) (fun mu => c.phEig q mu nu) (x q nu)
    (found = c.g b2 b1 nu k q + if longRangeUsed true (c.qCart q) then
      x q nu * ((starRingEnd ℂ) (stateOverlap c k q b2 b1) - stateOverlap c k q b2 b1) else 0) ∧
    ((stateOverlap c k q b2 b1).im = 0 → found = c.g b2 b1 nu k q) := by
  intro c' found
  have key : found = c.g b2 b1 nu k q + if longRangeUsed true (c.qCart q) then
      x q nu * ((starRingEnd ℂ) (stateOverlap c k q b2 b1) - stateOverlap c k q b2 b1) else 0 := by
    have rt := roundTrip d b hdb nk nq hnk hnq c' hks hqs hkc hqc mE hmE mP hmP dE hdE dP hdP hu he k q b1 b2 nu
    have ho : overlap (fun w => c.u (c.kPlusQ k q) b2 w) (fun w => c.u k b1 w) =
        (starRingEnd ℂ) (stateOverlap c k q b2 b1) := by
      unfold overlap stateOverlap
      rw [map_sum]
      refine Finset.sum_congr rfl fun w _ => ?_
      rw [map_mul, Complex.conj_conj]
    have hf : found = c'.g b2 b1 nu k q + if longRangeUsed true (c.qCart q) then
        x q nu * overlap (fun w => c.u (c.kPlusQ k q) b2 w) (fun w => c.u k b1 w) else 0 := by
      rw [← rt]; rfl
    rw [hf, ho]
    have hg : c'.g b2 b1 nu k q = if longRangeUsed true (c.qCart q) then
        c.g b2 b1 nu k q - x q nu * stateOverlap c k q b2 b1 else c.g b2 b1 nu k q := by
      simp only [c', polarSubtractEfficient, longRangeUsed, Bool.true_and, decide_eq_true_eq, coarsePolar, stateOverlap,
        Complex.conj_conj]
    rw [hg]
    split <;> ring
  refine ⟨key, fun him => ?_⟩
  rw [key]
  have : (starRingEnd ℂ) (stateOverlap c k q b2 b1) = stateOverlap c k q b2 b1 := by
    rw [Complex.conj_eq_iff_im]; exact him
  rw [this]
  simp

/-- C142: the same when all processes hold all the matrix elements: there the indices of the bands are exchanged as well. -/
theorem C142_plain_partial (d b : Mat3) (hdb : DualCells d b) (nk nq : Fin 3 → Nat) (hnk : ∀ i, 0 < nk i)
    (hnq : ∀ i, 0 < nq i) (c c' : CoarseData (KGrid nk) (KGrid nq) E P M W B) (hks : EachOnce c.ks) (hqs : EachOnce c.qs)
    (hkc : ∀ k, c.kCart k = gridPoint b k) (hqc : ∀ q, c.qCart q = gridPoint b q)
    (mE : Fin E → Fin 3 → ℤ) (hmE : ∀ r, c.elVectors r = matVec d fun i => (mE r i : ℝ))
    (mP : Fin P → Fin 3 → ℤ) (hmP : ∀ r, c.phVectors r = matVec d fun i => (mP r i : ℝ))
    (dE : Fin E → ℝ) (hdE : CellWeights nk mE dE) (dP : Fin P → ℝ) (hdP : CellWeights nq mP dP)
    (hu : ∀ k l l', ∑ w, c.u k l w * (starRingEnd ℂ) (c.u k l' w) = if l = l' then 1 else 0)
    (he : ∀ q, IsUnit (c.phEig q).det) (x : KGrid nq → Fin M → ℂ) (hc : polarSubtractPlain c x = .ok c')
    (k : KGrid nk) (q : KGrid nq) (b1 b2 : Fin B) (nu : Fin M) :
    let found := matrixElement (coarseElPhData c' dE dP (wannierCoupling c')) (longRangeUsed true (c.qCart q)) (c.kCart k)
      (c.qCart q) (fun w => c.u k b1 w) (fun w => c.u (c.kPlusQ k q) b2 w) (fun mu => c.phEig q mu nu) (x q nu)
    found = c.g b2 b1 nu k q + if longRangeUsed true (c.qCart q) then
      x q nu * ((starRingEnd ℂ) (stateOverlap c k q b2 b1) - stateOverlap c k q b1 b2) else 0 := by
  intro found
  unfold polarSubtractPlain at hc
  split at hc
  · cases hc
  injection hc with hc
  have hfields : c'.ks = c.ks ∧ c'.qs = c.qs ∧ c'.kCart = c.kCart ∧ c'.qCart = c.qCart ∧ c'.kPlusQ = c.kPlusQ ∧
      c'.elVectors = c.elVectors ∧ c'.phVectors = c.phVectors ∧ c'.u = c.u ∧ c'.phEig = c.phEig := by
    rw [← hc]; exact ⟨rfl, rfl, rfl, rfl, rfl, rfl, rfl, rfl, rfl⟩
  obtain ⟨f1, f2, f3, f4, f5, f6, f7, f8, f9⟩ := hfields
  have rt := roundTrip d b hdb nk nq hnk hnq c' (by rwa [f1]) (by rwa [f2]) (by rwa [f3]) (by rwa [f4]) mE (by rwa [f6])
    mP (by rwa [f7]) dE hdE dP hdP (by rwa [f8]) (by rwa [f9]) k q b1 b2 nu
  rw [f3, f4, f5, f8, f9] at rt
  have ho : overlap (fun w => c.u (c.kPlusQ k q) b2 w) (fun w => c.u k b1 w) =
      (starRingEnd ℂ) (stateOverlap c k q b2 b1) := by
    unfold overlap stateOverlap
    rw [map_sum]
    refine Finset.sum_congr rfl fun w _ => ?_
    rw [map_mul, Complex.conj_conj]
  have hf : found = c'.g b2 b1 nu k q + if longRangeUsed true (c.qCart q) then
      x q nu * overlap (fun w => c.u (c.kPlusQ k q) b2 w) (fun w => c.u k b1 w) else 0 := by
    rw [← rt]; rfl
  rw [hf, ho]
  have hg : c'.g b2 b1 nu k q = if longRangeUsed true (c.qCart q) then
      c.g b2 b1 nu k q - x q nu * stateOverlap c k q b1 b2 else c.g b2 b1 nu k q := by
    rw [← hc]
    simp only [longRangeUsed, Bool.true_and, decide_eq_true_eq, coarsePolar, stateOverlap, Complex.conj_conj]
  rw [hg]
  split <;> ring

/-- The second wavevector of the pair. -/
def pairSecond : KGrid ![2, 1, 1] := fun i => ⟨if i = 0 then 1 else 0, by fin_cases i <;> simp⟩

/-- The first wavevector of the pair. -/
def pairFirst : KGrid ![2, 1, 1] := fun i => ⟨0, pairCoarse_positive i⟩

theorem pairCoarse_unitary (u0 u1 : Fin B → Fin B → ℂ)
    (h0 : ∀ l l', ∑ w, u0 l w * (starRingEnd ℂ) (u0 l' w) = if l = l' then 1 else 0)
    (h1 : ∀ l l', ∑ w, u1 l w * (starRingEnd ℂ) (u1 l' w) = if l = l' then 1 else 0) (k : KGrid ![2, 1, 1]) (l l' : Fin B) :
    ∑ w, (pairCoarse u0 u1).u k l w * (starRingEnd ℂ) ((pairCoarse u0 u1).u k l' w) = if l = l' then 1 else 0 := by
  by_cases hk : (k 0 : ℕ) = 0
  · simp only [pairCoarse, hk, if_true]; exact h0 l l'
  · simp only [pairCoarse, hk, if_false]; exact h1 l l'

theorem pairCoarse_far (u0 u1 : Fin B → Fin B → ℂ) : longRangeUsed true ((pairCoarse u0 u1).qCart pairSecond) = true := by
  have e : vdot ((pairCoarse u0 u1).qCart pairSecond) ((pairCoarse u0 u1).qCart pairSecond) = Real.pi ^ 2 := by
    simp [pairCoarse, gridPoint, vdot, matVec, pairSecond]
    ring
  unfold longRangeUsed
  rw [e, Real.sqrt_sq Real.pi_pos.le, Bool.true_and, decide_eq_true_eq]
  have := Real.pi_gt_three
  norm_num
  linarith

/-- C142 is violated: one band whose rotation matrix is `1` at the first wavevector and `i` at the second, matrix element
`2` and long-range part `1`: the squared matrix element becomes 8 instead of 4. -/
theorem C142_violated_phase :
    let c := pairCoarse (B := 1) (fun _ _ => 1) fun _ _ => Complex.I
    let c' := polarSubtractEfficient c fun _ _ => 1
    Complex.normSq (c.g 0 0 0 pairFirst pairSecond) = 4 ∧
    Complex.normSq (matrixElement (coarseElPhData c' (fun _ => 1) (fun _ => 1) (wannierCoupling c'))
      (longRangeUsed true (c.qCart pairSecond)) (c.kCart pairFirst) (c.qCart pairSecond) (fun w => c.u pairFirst 0 w)
      (fun w => c.u (c.kPlusQ pairFirst pairSecond) 0 w) (fun mu => c.phEig pairSecond mu 0) 1) = 8 := by
  intro c c'
  refine ⟨by simp [c, pairCoarse, pairFirst, Complex.normSq]; norm_num, ?_⟩
  have h := (C142_distributed_partial _ _ pairCoarse_dual ![2, 1, 1] ![2, 1, 1] pairCoarse_positive pairCoarse_positive c
    pairCoarse_once pairCoarse_once (fun _ => rfl) (fun _ => rfl) _ (fun _ => rfl) _ (fun _ => rfl) (fun _ => 1)
    pairCoarse_weights (fun _ => 1) pairCoarse_weights
    (pairCoarse_unitary _ _ (by intro l l'; simp [Subsingleton.elim l l']) (by intro l l'; simp [Subsingleton.elim l l']))
    (by intro q; simp [c, pairCoarse]) (fun _ _ => 1) pairFirst pairSecond 0 0 0).1
  refine Eq.trans (congrArg Complex.normSq h) ?_
  rw [if_pos (pairCoarse_far _ _)]
  simp [c, pairCoarse, pairFirst, pairSecond, stateOverlap, Complex.normSq, Fin.add_def]
  norm_num

/-- C142 is violated with real rotation matrices when all processes hold all the matrix elements: two bands that turn into
each other, and the squared matrix element between the first at k and the second at k+q becomes 16 instead of 4. -/
theorem C142_violated_transposed :
    let c := pairCoarse (B := 2) (fun l w => if l = w then 1 else 0)
      fun l w => if l = 0 ∧ w = 1 then -1 else if l = 1 ∧ w = 0 then 1 else 0
    ∃ c', polarSubtractPlain c (fun _ _ => 1) = .ok c' ∧
    Complex.normSq (c.g 1 0 0 pairFirst pairSecond) = 4 ∧
    Complex.normSq (matrixElement (coarseElPhData c' (fun _ => 1) (fun _ => 1) (wannierCoupling c'))
      (longRangeUsed true (c.qCart pairSecond)) (c.kCart pairFirst) (c.qCart pairSecond) (fun w => c.u pairFirst 0 w)
      (fun w => c.u (c.kPlusQ pairFirst pairSecond) 1 w) (fun mu => c.phEig pairSecond mu 0) 1) = 16 := by
  intro c
  obtain ⟨c', hc'⟩ : ∃ c', polarSubtractPlain c (fun _ _ => 1) = .ok c' := by
    unfold polarSubtractPlain
    rw [if_neg (by norm_num)]
    exact ⟨_, rfl⟩
  refine ⟨c', hc', by simp [c, pairCoarse, pairFirst, Complex.normSq]; norm_num, ?_⟩
  have h := C142_plain_partial _ _ pairCoarse_dual ![2, 1, 1] ![2, 1, 1] pairCoarse_positive pairCoarse_positive c c'
    pairCoarse_once pairCoarse_once (fun _ => rfl) (fun _ => rfl) _ (fun _ => rfl) _ (fun _ => rfl) (fun _ => 1)
    pairCoarse_weights (fun _ => 1) pairCoarse_weights
    (pairCoarse_unitary _ _ (by intro l l'; fin_cases l <;> fin_cases l' <;> simp)
      (by intro l l'; fin_cases l <;> fin_cases l' <;> simp))
    (by intro q; simp [c, pairCoarse]) (fun _ _ => 1) hc' pairFirst pairSecond 0 1 0
  refine Eq.trans (congrArg Complex.normSq h) ?_
  rw [if_pos (pairCoarse_far _ _)]
  simp [c, pairCoarse, pairFirst, pairSecond, stateOverlap, Complex.normSq, Fin.add_def]
  norm_num

/-- C142 is violated: with more bands than Wannier functions, the subtraction when all processes hold all the matrix
elements writes beyond the ends of its matrices. -/
theorem C142_violated_bounds (c : CoarseData K Q E P M W B) (h : W < B) (x : Q → Fin M → ℂ) :
    polarSubtractPlain c x = .ub := by
  unfold polarSubtractPlain
  rw [if_pos h]

/-- Such data exist: two bands, one Wannier function. -/
example : ∃ c : CoarseData Unit Unit 1 1 1 1 2, polarSubtractPlain c (fun _ _ => 1) = .ub :=
  ⟨⟨[()], [()], fun _ => 0, fun _ => 0, fun _ _ => (), fun _ => 0, fun _ => 0, fun _ _ _ => 1, fun _ => 1, fun _ _ _ _ _ => 1⟩,
    C142_violated_bounds _ (by norm_num) _⟩

/-! ## C143 offset of the bands -/

/-- C143 (partial): if Wannier90 was given all the bands, the offset is zero; if it was given more bands than there are,
the program stops. -/
theorem C143_equal_partial (full wannier : List ℝ) :
    (full.length = wannier.length → computeOffset full wannier = .ok 0) ∧
    (full.length < wannier.length → computeOffset full wannier = .error) := by
  unfold computeOffset
  refine ⟨fun h => ?_, fun h => if_pos h⟩
  rw [if_neg (by omega)]
  simp [h]

/-- C143 is violated whenever Wannier90 was given some of the bands, those from `first` on, and not the last ones: the
offset found is one too large.  (No other first band fits as well.) -/
theorem C143_violated_offset (full wannier : List ℝ) (first : Nat) (hlen : first + wannier.length < full.length)
    (hmatch : ∀ ib, ib < wannier.length → wannier.getD ib 0 = full.getD (first + ib) 0)
    (honly : ∀ i, i + wannier.length ≤ full.length → i ≠ first →
      ∃ ib, ib < wannier.length ∧ wannier.getD ib 0 ≠ full.getD (i + ib) 0) :
    computeOffset full wannier = .ok (first + 1) := by
  have hzero : offsetDifference full wannier first = 0 := by
    unfold offsetDifference
    apply List.sum_eq_zero
    intro y hy
    obtain ⟨ib, hib, rfl⟩ := List.mem_map.mp hy
    rw [hmatch ib (List.mem_range.mp hib), Nat.add_comm, sub_self]
    norm_num
  have hnonneg : ∀ i, ∀ y ∈ (List.range wannier.length).map fun ib => (full.getD (ib + i) 0 - wannier.getD ib 0) ^ 2, 0 ≤ y := by
    intro i y hy
    obtain ⟨ib, _, rfl⟩ := List.mem_map.mp hy
    exact sq_nonneg _
  have hpos : ∀ i, i < full.length - wannier.length → i ≠ first → 0 < offsetDifference full wannier i := by
    intro i hi hne
    obtain ⟨ib, hib, hdiff⟩ := honly i (by omega) hne
    refine lt_of_lt_of_le ?_ (List.single_le_sum (hnonneg i) _
      (List.mem_map.mpr ⟨ib, List.mem_range.mpr hib, rfl⟩))
    rw [Nat.add_comm]
    exact sq_pos_of_ne_zero (sub_ne_zero.mpr (Ne.symm hdiff))
  have hn : ∀ i, 0 ≤ offsetDifference full wannier i := fun i => List.sum_nonneg (hnonneg i)
  unfold computeOffset
  rw [if_neg (by omega)]
  simp only
  rw [if_neg (by omega)]
  have hfind : (List.range (full.length - wannier.length)).find? (fun i =>
      open Classical in decide (∀ i' < full.length - wannier.length,
        offsetDifference full wannier i ≤ offsetDifference full wannier i')) = some first := by
    rw [List.find?_range_eq_some]
    refine ⟨?_, ?_, ?_⟩
    · simp only [decide_eq_true_eq]
      intro i' _
      rw [hzero]; exact hn i'
    · exact List.mem_range.mpr (by omega)
    · intro j hj
      simp only [Bool.not_eq_true', decide_eq_false_iff_not, not_forall]
      refine ⟨first, by omega, ?_⟩
      rw [hzero, not_le]
      exact hpos j (by omega) (by omega)
  rw [hfind]

/-- A case that meets the hypotheses: three bands, of which the first two were given to Wannier90: offset 1 instead of
0. -/
example : computeOffset [0, 1, 2] [0, 1] = .ok 1 := by
  refine C143_violated_offset [0, 1, 2] [0, 1] 0 (by simp) ?_ ?_
  · intro ib hib
    simp at hib
    interval_cases ib <;> simp
  · intro i hi hne
    simp at hi
    refine ⟨0, by simp, ?_⟩
    interval_cases i
    · exact absurd rfl hne
    · simp

/-! ## C144 both ways of distributing the work -/

/-- C144 (partial): when each process reads some of the files, it gets for its lattice vectors what the program gets when
all processes hold all the matrix elements, if there are at least as many files and lattice vectors as processes.
Missing: fewer lattice vectors than processes (`C144_violated_empty`). -/
theorem C144_same_partial [DecidableEq K] [DecidableEq Q] (c : CoarseData K Q E P M W B) (hk : c.ks.Nodup) (hq : c.qs.Nodup)
    (threads threads' : K → Q → List (GaugeThread M W B))
    (hw : ∀ k q, Worksharing (threads k q)) (ha : ∀ k q, Aligned (threads k q))
    (hw' : ∀ k q, Worksharing (threads' k q)) (ha' : ∀ k q, Aligned (threads' k q))
    (kShares : List (List K)) (qShares : List (List Q)) (eShares : List (List (Fin E)))
    (hks : kShares.flatten.Perm c.ks) (hqs : qShares.flatten.Perm c.qs) (hes : eShares.flatten.Perm (List.finRange E))
    (stars : List (List Q)) (hstars : stars.flatten.Perm c.qs) (size rank fuel : Nat) (hr : rank < size)
    (hfiles : size ≤ stars.length) (hE : size ≤ E) (hfit1 : E * size < 18446744073709551616)
    (hfit2 : stars.length * size < 18446744073709551616) (hfuel : E < fuel) :
    ∃ result, blochToWannierEfficient c threads' stars size rank fuel = .ok result ∧
      ∃ work offset, divideWorkIter E rank size = .ok work ∧ work.head? = some offset ∧
        ∀ irE : Fin E, (irE : Nat) ∈ work → ∀ i j mu irP, result i j mu irP (irE - offset) =
          blochToWannier c threads kShares qShares eShares i j mu irP irE := by
  obtain ⟨result, h1, h2⟩ := blochToWannierEfficient_val c threads' hw' ha' stars hstars size rank fuel hr hfiles hE hfit1
    hfit2 hfuel
  have hlt : head E size rank < head E size (rank + 1) := by
    have := len_bounds E size rank (by omega)
    have h1 : 1 ≤ E / size := (Nat.one_le_div_iff (by omega)).mpr hE
    omega
  refine ⟨result, h1, _, head E size rank, divideWorkIter_val hfit1 hr, ?_, ?_⟩
  · rw [List.head?_range', if_neg (by omega)]
  · intro irE hm i j mu irP
    rw [List.mem_range'_1] at hm
    rw [h2 irE hm.1 (by omega), blochToWannier_val c hk hq threads hw ha kShares qShares eShares hks hqs hes]

/-- C144: more processes than files are refused. -/
theorem C144_files (c : CoarseData K Q E P M W B) (threads : K → Q → List (GaugeThread M W B)) (stars : List (List Q))
    (size rank fuel : Nat) (h : stars.length < size) :
    blochToWannierEfficient c threads stars size rank fuel = .error := by
  unfold blochToWannierEfficient
  rw [if_pos h]

/-- C144 is violated: with more processes than lattice vectors, process 0 reads the first element of an empty list. -/
theorem C144_violated_empty (c : CoarseData K Q E P M W B) (threads : K → Q → List (GaugeThread M W B))
    (stars : List (List Q)) (size fuel : Nat) (hfiles : size ≤ stars.length) (hE : E < size)
    (hfit : E * size < 18446744073709551616) :
    blochToWannierEfficient c threads stars size 0 fuel = .ub := by
  have h0 : head E size 0 = 0 := by simp [head]
  have h1 : head E size 1 = 0 := by
    unfold head
    rw [Nat.mul_one]; exact Nat.div_eq_of_lt hE
  unfold blochToWannierEfficient
  rw [if_neg (by omega), divideWorkIter_val hfit (by omega)]
  simp [Outcome.bind_eq, h0, h1]

/-- Cases that meet the hypotheses: the pair of wavevectors in two files, with two processes; one lattice vector, two
processes. -/
example : (∃ result, blochToWannierEfficient (pairCoarse (B := 1) (fun _ _ => 1) fun _ _ => Complex.I)
      (fun _ _ => staticThreads 1 1 1 1) [[pairSecond], [pairFirst]] 2 1 3 = .ok result) ∧
    ∃ c : CoarseData Unit Unit 1 1 1 1 2, blochToWannierEfficient c (fun _ _ => []) [[()], [()]] 2 0 5 = .ub := by
  constructor
  · obtain ⟨r, h, _⟩ := blochToWannierEfficient_val (pairCoarse (B := 1) (fun _ _ => 1) fun _ _ => Complex.I)
      (fun _ _ => staticThreads 1 1 1 1) (fun _ _ => staticThreads_worksharing 1 (by norm_num))
      (fun _ _ => staticThreads_aligned 1 (by norm_num) (by norm_num)) [[pairSecond], [pairFirst]]
      (by
        refine (List.perm_ext_iff_of_nodup ?_ (Finset.nodup_toList _)).mpr ?_
        · simp only [List.flatten_cons, List.flatten_nil, List.append_nil, List.singleton_append, List.nodup_cons,
            List.mem_singleton, List.not_mem_nil, not_false_eq_true, List.nodup_nil, and_true]
          decide
        · intro x
          simp only [pairCoarse, Finset.mem_toList, Finset.mem_univ, iff_true]
          revert x
          decide) 2 1 3 (by norm_num) (by simp) (by norm_num) (by norm_num) (by norm_num) (by norm_num)
    exact ⟨r, h⟩
  · exact ⟨⟨[()], [()], fun _ => 0, fun _ => 0, fun _ _ => (), fun _ => 0, fun _ => 0, fun _ _ _ => 1, fun _ => 1,
      fun _ _ _ _ _ => 1⟩, C144_violated_empty _ _ _ 2 5 (by simp) (by norm_num) (by norm_num)⟩

/-! ## C145 rotation matrices and entangled bands -/

/-- C145: if the columns of both matrices of Wannier90 are orthonormal, so are the columns of the rotation matrix. -/
theorem C145_orthonormal (a : Fin B → Fin W → ℂ) (b : Fin W → Fin W → ℂ)
    (ha : ∀ j j', ∑ i, (starRingEnd ℂ) (a i j) * a i j' = if j = j' then 1 else 0)
    (hb : ∀ j j', ∑ i, (starRingEnd ℂ) (b i j) * b i j' = if j = j' then 1 else 0) (j j' : Fin W) :
    ∑ i, (starRingEnd ℂ) (rotationProduct a b i j) * rotationProduct a b i j' = if j = j' then 1 else 0 := by
  unfold rotationProduct
  simp only [finRange_sum, map_sum, map_mul]
  rw [← hb j j']
  have e : ∀ i, (∑ k, (starRingEnd ℂ) (b k j) * (starRingEnd ℂ) (a i k)) * (∑ k', b k' j' * a i k') =
      ∑ k, ∑ k', (starRingEnd ℂ) (b k j) * b k' j' * ((starRingEnd ℂ) (a i k) * a i k') := by
    intro i
    rw [Finset.sum_mul_sum]
    refine Finset.sum_congr rfl fun k _ => Finset.sum_congr rfl fun k' _ => ?_
    ring
  simp only [e]
  rw [Finset.sum_comm]
  refine Finset.sum_congr rfl fun k _ => ?_
  rw [Finset.sum_comm]
  simp only [← Finset.mul_sum, ha]
  simp

/-- C145 (partial): if there are as many bands as Wannier functions, the matrix elements between the bands from the offset
on are those of the file. -/
theorem C145_bands_partial (offset : Nat) (gStar : Nat → Nat → Fin M → ℂ) (ib1 ib2 : Fin W) (nu : Fin M) :
    keepBands W W offset gStar ib1 ib2 nu = gStar (offset + ib1) (offset + ib2) nu := by
  unfold keepBands
  rw [if_pos ⟨ib1.2, ib2.2⟩]

/-- C145 is violated: with two bands and one Wannier function, equal to the second band, whose matrix element is one, the
matrix element between Wannier functions is zero instead of one: matrix elements of the bands beyond the number of
Wannier functions are left out. -/
theorem C145_violated_bands :
    let u : Fin 2 → Fin 1 → ℂ := fun l _ => if l = 1 then 1 else 0
    let gStar : Nat → Nat → Fin 1 → ℂ := fun _ _ _ => 1
    (∀ j j', ∑ i, (starRingEnd ℂ) (u i j) * u i j' = if j = j' then 1 else 0) ∧
    wannierGauge u u (fun l m nu => gStar l m nu) 0 0 0 = 1 ∧
    wannierGauge u u (keepBands 1 2 0 gStar) 0 0 0 = 0 := by
  intro u gStar
  refine ⟨?_, ?_, ?_⟩
  · intro j j'
    simp [u, Subsingleton.elim j j']
  · simp [wannierGauge, u, gStar]
  · simp [wannierGauge, u, gStar, keepBands]

/-- Matrices that meet the hypotheses of `C145_orthonormal`: three bands, two Wannier functions. -/
example : let a : Fin 3 → Fin 2 → ℂ := fun i j => if (i : Nat) = j then Complex.I else 0
    let b : Fin 2 → Fin 2 → ℂ := fun i j => if i = j then 0 else 1
    (∀ j j', ∑ i, (starRingEnd ℂ) (a i j) * a i j' = if j = j' then 1 else 0) ∧
    (∀ j j', ∑ i, (starRingEnd ℂ) (b i j) * b i j' = if j = j' then 1 else 0) ∧ rotationProduct a b 0 1 = Complex.I := by
  intro a b
  refine ⟨?_, ?_, ?_⟩
  · intro j j'
    fin_cases j <;> fin_cases j' <;> simp [a, Fin.sum_univ_three]
  · intro j j'
    fin_cases j <;> fin_cases j' <;> simp [b]
  · rw [rotationProduct, finRange_sum]
    simp [a, b]

end Verif.Props
