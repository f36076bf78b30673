import Verif.Proofs.PhVelocity3
import Verif.Props.DynMat
import Verif.Props.DegVelocity

/-!
C97, C98: phonon velocities.
-/

namespace Verif.Props

open Verif.Model Verif.Spec

variable {A n1 n2 n3 : Nat} [NeZero n1] [NeZero n2] [NeZero n3]

/-- The frequencies at a wavevector, numbered from zero. -/
noncomputable def freqs (eig : EigenSolver A) (c : PhCrystal A) (f : FcVec A n1 n2 n3) (q : Vec3) : Nat → ℝ := fun b =>
  if h : b < A * 3 then (diagonalizeFromCoordinates eig c f q false).1 ⟨b, h⟩ else 0

/-- A crystal has such blocks, whatever the library. -/
example (eig : EigenSolver A) (c : PhCrystal A) (f : FcVec A n1 n2 n3) (q : Vec3) (t : ℝ) :
    ∃ l, Blocks (freqs eig c f q) t (A * 3) l := by
  obtain ⟨l, h, _⟩ := C73_partition (freqs eig c f q) t (A * 3)
  exact ⟨l, h⟩

/-! ### C97: velocities on the host -/

theorem host_block (eig : EigenSolver A)
    (solver : (d : Nat) → Matrix (Fin d) (Fin d) ℂ → Matrix (Fin d) (Fin d) ℂ) (t : ℝ)
    (c : PhCrystal A) (f : FcVec A n1 n2 n3) (q : Vec3) (hq : 1.0e-6 ≤ vnorm q) (l : List (Nat × Nat))
    (hl : Blocks (freqs eig c f q) t (A * 3) l) :
    (∀ s d, (s, d) ∈ l → 2 ≤ d → ∀ k < 3, ∀ i j : Fin d, hostVelocity eig solver t c f q (s + i) (s + j) k =
      ((solver d (hostSub (bandVel fun i => rawVelocity eig c f q i) s k d)).conjTranspose *
        hostSub (bandVel fun i => rawVelocity eig c f q i) s k d *
        solver d (hostSub (bandVel fun i => rawVelocity eig c f q i) s k d) : Matrix (Fin d) (Fin d) ℂ) i j) ∧
    ∀ a b k, (∀ s d, (s, d) ∈ l → 2 ≤ d → ¬ ((s ≤ a ∧ a < s + d) ∧ s ≤ b ∧ b < s + d)) →
      hostVelocity eig solver t c f q a b k = bandVel (fun i => rawVelocity eig c f q i) a b k := by
  have hb : l = blocksLoop (bandFn (diagonalizeFromCoordinates eig c f q false).1) t (A * 3) (A * 3) 0 :=
    blocksFrom_unique _ t _ _ _ 0 hl (blocksLoop_spec _ _ _ _ _ (by omega) (by omega))
  obtain ⟨h1, h2⟩ := hostDegLoop_val solver (bandFn (diagonalizeFromCoordinates eig c f q false).1) t (A * 3) (A * 3) 0
    (bandVel fun i => rawVelocity eig c f q i) (by omega) (by omega)
  have hv : hostVelocity eig solver t c f q = hostDegLoop solver (bandFn (diagonalizeFromCoordinates eig c f q false).1) t
      (A * 3) (A * 3) 0 (bandVel fun i => rawVelocity eig c f q i) := if_neg (not_lt.mpr hq)
  rw [hv]
  refine ⟨fun s d hm hd k hk i j => ?_, fun a b k hn => h2 a b k fun s d hm hd hin => ?_⟩
  · rw [h1 s d (hb ▸ hm) hd k hk i j, hostRotate_eq solver _ (hostSub_hermitian _ _ _ _)]
  · exact hn s d (hb ▸ hm) hd ⟨hin.1, hin.2.1⟩

/-- C97: the velocities at a wavevector shorter than `1e-6` are zero. -/
theorem C97_gamma (eig : EigenSolver A)
    (solver : (d : Nat) → Matrix (Fin d) (Fin d) ℂ → Matrix (Fin d) (Fin d) ℂ) (t : ℝ)
    (c : PhCrystal A) (f : FcVec A n1 n2 n3) (q : Vec3) (hq : vnorm q < 1.0e-6) (a b k : Nat) :
    hostVelocity eig solver t c f q a b k = 0 := by
  have : hostVelocity eig solver t c f q = 0 := if_pos hq
  rw [this]; rfl

/-- C97: the velocity operator is Hermitian, for every crystal and wavevector and whatever the libraries return: the
diagonal elements, the group velocities, are real. -/
theorem C97_hermitian (eig : EigenSolver A)
    (solver : (d : Nat) → Matrix (Fin d) (Fin d) ℂ → Matrix (Fin d) (Fin d) ℂ) (t : ℝ)
    (c : PhCrystal A) (f : FcVec A n1 n2 n3) (q : Vec3) (a b k : Nat) :
    hostVelocity eig solver t c f q b a k = (starRingEnd ℂ) (hostVelocity eig solver t c f q a b k) := by
  by_cases hq : vnorm q < 1.0e-6
  · rw [C97_gamma eig solver t c f q hq, C97_gamma eig solver t c f q hq, map_zero]
  obtain ⟨l, hl, _⟩ := C73_partition (freqs eig c f q) t (A * 3)
  obtain ⟨h1, h2⟩ := host_block eig solver t c f q (not_lt.mp hq) l hl
  have hraw : bandVel (fun i => rawVelocity eig c f q i) b a k =
      (starRingEnd ℂ) (bandVel (fun i => rawVelocity eig c f q i) a b k) := by
    unfold bandVel
    by_cases h : a < A * 3 ∧ b < A * 3 ∧ k < 3
    · rw [dif_pos h, dif_pos ⟨h.2.1, h.1, h.2.2⟩]
      exact (congrFun (congrFun (rawVelocity_hermitian eig c f q ⟨k, h.2.2⟩) ⟨b, h.2.1⟩) ⟨a, h.1⟩).symm
    · rw [dif_neg h, dif_neg fun h' => h ⟨h'.2.1, h'.1, h'.2.2⟩, map_zero]
  by_cases hex : ∃ s d, (s, d) ∈ l ∧ 2 ≤ d ∧ (s ≤ a ∧ a < s + d) ∧ s ≤ b ∧ b < s + d
  · obtain ⟨s, d, hm, hd, ⟨ha1, ha2⟩, hb1, hb2⟩ := hex
    by_cases hk : k < 3
    · have e : ∀ i j : Fin d, hostVelocity eig solver t c f q (s + i) (s + j) k =
          (starRingEnd ℂ) (hostVelocity eig solver t c f q (s + j) (s + i) k) := by
        intro i j
        rw [h1 s d hm hd k hk, h1 s d hm hd k hk]
        obtain ⟨H, hH⟩ : ∃ H, H = hostSub (bandVel fun i => rawVelocity eig c f q i) s k d := ⟨_, rfl⟩
        rw [← hH]
        have hh : ((solver d H).conjTranspose * H * solver d H).conjTranspose =
            (solver d H).conjTranspose * H * solver d H := by
          have : H.conjTranspose = H := by rw [hH]; exact hostSub_hermitian _ _ _ _
          rw [Matrix.conjTranspose_mul, Matrix.conjTranspose_mul, Matrix.conjTranspose_conjTranspose, this,
            Matrix.mul_assoc]
        conv_lhs => rw [← hh]
        rfl
      have := e ⟨b - s, by omega⟩ ⟨a - s, by omega⟩
      rwa [show s + (b - s) = b by omega, show s + (a - s) = a by omega] at this
    · obtain ⟨g1, g2⟩ := hostDegLoop_val solver (bandFn (diagonalizeFromCoordinates eig c f q false).1) t (A * 3) (A * 3) 0
        (bandVel fun i => rawVelocity eig c f q i) (by omega) (by omega)
      have hv : hostVelocity eig solver t c f q = hostDegLoop solver
          (bandFn (diagonalizeFromCoordinates eig c f q false).1) t
          (A * 3) (A * 3) 0 (bandVel fun i => rawVelocity eig c f q i) := if_neg hq
      rw [hv, g2 b a k fun _ _ _ _ h => hk h.2.2, g2 a b k fun _ _ _ _ h => hk h.2.2, hraw]
  · have hn : ∀ s d, (s, d) ∈ l → 2 ≤ d → ¬ ((s ≤ a ∧ a < s + d) ∧ s ≤ b ∧ b < s + d) :=
      fun s d hm hd h => hex ⟨s, d, hm, hd, h⟩
    have hn' : ∀ s d, (s, d) ∈ l → 2 ≤ d → ¬ ((s ≤ b ∧ b < s + d) ∧ s ≤ a ∧ a < s + d) :=
      fun s d hm hd h => hex ⟨s, d, hm, hd, ⟨h.2, h.1⟩⟩
    rw [h2 a b k hn, h2 b a k hn', hraw]

/-- `S` is the square root of the mass-scaled dynamical matrix at `q`: it has the same eigenvectors, and the
frequencies as eigenvalues (negative ones for imaginary frequencies). -/
def IsRoot (eig : EigenSolver A) (c : PhCrystal A) (f : FcVec A n1 n2 n3) (q : Vec3) (S : DynM A) : Prop :=
  S * (diagonalizeFromCoordinates eig c f q false).2 =
    (diagonalizeFromCoordinates eig c f q false).2 *
      Matrix.diagonal fun b => (((diagonalizeFromCoordinates eig c f q false).1 b : ℝ) : ℂ)

theorem root_eq (eig : EigenSolver A) (he : GoodSolver eig) (c : PhCrystal A) (f : FcVec A n1 n2 n3) (q : Vec3)
    (S : DynM A) (h : IsRoot eig c f q S) : S = sqrtD eig c f q := by
  obtain ⟨_, _, hr, _⟩ := C93_plain eig he c f q
  unfold IsRoot at h
  unfold sqrtD
  simp only
  rw [← h, Matrix.mul_assoc, hr, Matrix.mul_one]

theorem sqrtD_hermitian (eig : EigenSolver A) (c : PhCrystal A) (f : FcVec A n1 n2 n3) (q : Vec3) :
    (sqrtD eig c f q).conjTranspose = sqrtD eig c f q := by
  unfold sqrtD
  simp only [Matrix.conjTranspose_mul, Matrix.conjTranspose_conjTranspose, Matrix.diagonal_conjTranspose]
  rw [Matrix.mul_assoc]
  refine congrArg (_ * ·) (congrArg (· * _) (congrArg _ ?_))
  funext b
  simp

/-- C97 (what is computed): between the bands of different blocks, and for a band that is not degenerate, the velocity
operator is the central difference, with step `1e-8`, of the square root of the dynamical matrix, between the
eigenvectors at the wavevector. -/
theorem C97_value (eig : EigenSolver A) (he : GoodSolver eig)
    (solver : (d : Nat) → Matrix (Fin d) (Fin d) ℂ → Matrix (Fin d) (Fin d) ℂ) (t : ℝ)
    (c : PhCrystal A) (f : FcVec A n1 n2 n3) (q : Vec3) (hq : 1.0e-6 ≤ vnorm q) (l : List (Nat × Nat))
    (hl : Blocks (freqs eig c f q) t (A * 3) l) (i : Fin 3) (S S' : DynM A)
    (hS : IsRoot eig c f (q + Pi.single i 1.0e-8) S) (hS' : IsRoot eig c f (q - Pi.single i 1.0e-8) S')
    (a b : Fin (A * 3))
    (hab : ∀ s d, (s, d) ∈ l → 2 ≤ d → ¬ ((s ≤ a.1 ∧ a.1 < s + d) ∧ s ≤ b.1 ∧ b.1 < s + d)) :
    hostVelocity eig solver t c f q a b i =
      ∑ m, ∑ n, (starRingEnd ℂ) ((diagonalizeFromCoordinates eig c f q false).2 m a) *
        ((S m n - S' m n) / ((2 * 1.0e-8 : ℝ) : ℂ)) * (diagonalizeFromCoordinates eig c f q false).2 n b := by
  have hp : shiftQ q i constDeltaQ = q + Pi.single i 1.0e-8 := by
    funext k
    by_cases hk : k = i
    · subst hk; simp [shiftQ, constDeltaQ]
    · simp [shiftQ, hk]
  have hm : shiftQ q i (-constDeltaQ) = q - Pi.single i 1.0e-8 := by
    funext k
    by_cases hk : k = i
    · subst hk; simp [shiftQ, constDeltaQ, sub_eq_add_neg]
    · simp [shiftQ, hk]
  have e1 := root_eq eig he c f _ S hS
  have e2 := root_eq eig he c f _ S' hS'
  rw [← hp] at e1
  rw [← hm] at e2
  have hder : ∀ m n, velDer eig c f q i m n = (S m n - S' m n) / ((2 * 1.0e-8 : ℝ) : ℂ) := by
    intro m n
    have c1 : ∀ m n, (starRingEnd ℂ) (S n m) = S m n := by
      intro m n
      have := congrFun (congrFun (sqrtD_hermitian eig c f (shiftQ q i constDeltaQ)) m) n
      rw [← e1] at this
      exact this
    have c2 : ∀ m n, (starRingEnd ℂ) (S' n m) = S' m n := by
      intro m n
      have := congrFun (congrFun (sqrtD_hermitian eig c f (shiftQ q i (-constDeltaQ))) m) n
      rw [← e2] at this
      exact this
    unfold velDer
    simp only [← e1, ← e2, map_div₀, map_sub, c1, c2, Complex.conj_ofReal]
    rw [show (0.5 : ℂ) = 1 / 2 by norm_num, show constDeltaQ = 1.0e-8 from rfl]
    ring
  rw [(host_block eig solver t c f q hq l hl).2 a b i hab]
  unfold bandVel
  rw [dif_pos ⟨a.2, b.2, i.2⟩]
  show rawVelocity eig c f q i a b = _
  unfold rawVelocity
  simp only [Matrix.mul_apply, Finset.sum_mul, Matrix.conjTranspose_apply, hder]
  rw [Finset.sum_comm]
  rfl

/-- There is such a square root. -/
example (eig : EigenSolver A) (he : GoodSolver eig) (c : PhCrystal A) (f : FcVec A n1 n2 n3) (q : Vec3) :
    ∃ S, IsRoot eig c f q S := by
  obtain ⟨_, h, _⟩ := C93_plain eig he c f q
  refine ⟨sqrtD eig c f q, ?_⟩
  unfold IsRoot sqrtD
  simp only
  rw [Matrix.mul_assoc, h, Matrix.mul_one]

theorem block_bound {en : Nat → ℝ} {t : ℝ} {n : Nat} {l : List (Nat × Nat)} (hl : Blocks en t n l) {s d : Nat}
    (hm : (s, d) ∈ l) : s + d ≤ n := (blocksFrom_ge en t n _ _ hl s d hm).2.2

theorem host_multiset (eig : EigenSolver A)
    (solver : (d : Nat) → Matrix (Fin d) (Fin d) ℂ → Matrix (Fin d) (Fin d) ℂ) (hz : IsEigensolver solver)
    (t : ℝ) (c : PhCrystal A) (f : FcVec A n1 n2 n3) (q : Vec3) (hq : 1.0e-6 ≤ vnorm q)
    (l : List (Nat × Nat)) (hl : Blocks (freqs eig c f q) t (A * 3) l) (s d : Nat) (hm : (s, d) ∈ l) (k : Fin 3) :
    (Finset.univ.val.map fun i : Fin d => hostVelocity eig solver t c f q (s + i) (s + i) k) =
      ((rawVelocity eig c f q k).submatrix (blockIx (block_bound hl hm)) (blockIx (block_bound hl hm))).charpoly.roots := by
  have hv : hostVelocity eig solver t c f q = hostDegLoop solver (bandFn (diagonalizeFromCoordinates eig c f q false).1) t
      (A * 3) (A * 3) 0 (bandVel fun i => rawVelocity eig c f q i) := if_neg (not_lt.mpr hq)
  rw [hv]
  exact (host_roots solver hz _ t _ (fun i => rawVelocity_hermitian eig c f q i) l hl hm (block_bound hl hm) k).symm

/-- C97: within a block of degenerate bands the velocity operator is diagonal, and the velocities of the block in each
direction, as a multiset, do not depend on the choice of the eigenvectors: any two libraries that keep their promise
give the same ones. -/
theorem C97_gauge (eig eig' : EigenSolver A) (he : GoodSolver eig) (he' : GoodSolver eig')
    (solver solver' : (d : Nat) → Matrix (Fin d) (Fin d) ℂ → Matrix (Fin d) (Fin d) ℂ) (hz : IsEigensolver solver)
    (hz' : IsEigensolver solver') (t : ℝ) (ht : 0 ≤ t)
    (c : PhCrystal A) (f : FcVec A n1 n2 n3) (q : Vec3)
    (l : List (Nat × Nat)) (hl : Blocks (freqs eig c f q) t (A * 3) l) (s d : Nat) (hm : (s, d) ∈ l) (k : Fin 3) :
    (∀ i j : Fin d, i ≠ j → hostVelocity eig solver t c f q (s + i) (s + j) k = 0) ∧
    (Finset.univ.val.map fun i : Fin d => hostVelocity eig solver t c f q (s + i) (s + i) k) =
      Finset.univ.val.map fun i : Fin d => hostVelocity eig' solver' t c f q (s + i) (s + i) k := by
  by_cases hq : vnorm q < 1.0e-6
  · simp [C97_gamma _ _ t c f q hq]
  have hq := not_lt.mp hq
  have hl' : Blocks (freqs eig' c f q) t (A * 3) l := by
    have : freqs eig' c f q = freqs eig c f q := by
      unfold freqs
      rw [energies_unique eig' eig he' he c f q false false]
    rw [this]; exact hl
  constructor
  · intro i j hij
    have hd : 2 ≤ d := by
      have := i.2
      have := j.2
      have : i.1 ≠ j.1 := fun h => hij (Fin.ext h)
      omega
    rw [(host_block eig solver t c f q hq l hl).1 s d hm hd k k.2 i j]
    exact (hz d _ (hostSub_hermitian _ _ _ _)).2 i j hij
  · rw [host_multiset eig solver hz t c f q hq l hl s d hm k, host_multiset eig' solver' hz' t c f q hq l hl' s d hm k]
    exact block_roots_unique eig eig' he he' t ht c f q l hl hm _ k

/-- C97: the velocities at opposite wavevectors are opposite: the frequencies are the same (C90), so the blocks of
degenerate bands are, and in each block the velocities at `-q` are those at `q` with the sign changed. -/
theorem C97_odd (eig eig' : EigenSolver A) (he : GoodSolver eig) (he' : GoodSolver eig')
    (solver solver' : (d : Nat) → Matrix (Fin d) (Fin d) ℂ → Matrix (Fin d) (Fin d) ℂ) (hz : IsEigensolver solver)
    (hz' : IsEigensolver solver') (t : ℝ) (ht : 0 ≤ t)
    (c : PhCrystal A) (f : FcVec A n1 n2 n3) (q : Vec3)
    (l : List (Nat × Nat)) (hl : Blocks (freqs eig c f q) t (A * 3) l) :
    Blocks (freqs eig' c f (-q)) t (A * 3) l ∧ ∀ s d, (s, d) ∈ l → ∀ k : Fin 3,
    (Finset.univ.val.map fun i : Fin d => hostVelocity eig' solver' t c f (-q) (s + i) (s + i) k) =
      Finset.univ.val.map fun i : Fin d => -hostVelocity eig solver t c f q (s + i) (s + i) k := by
  have hl' : Blocks (freqs eig' c f (-q)) t (A * 3) l := by
    have : freqs eig' c f (-q) = freqs eig c f q := by
      unfold freqs
      rw [C90_frequencies eig' he' c f q false false, energies_unique eig' eig he' he c f q false false]
    rw [this]; exact hl
  refine ⟨hl', fun s d hm k => ?_⟩
  have hn : vnorm (-q) = vnorm q := by simp [vnorm, vdot]
  by_cases hq : vnorm q < 1.0e-6
  · simp only [C97_gamma _ _ t c f q hq, C97_gamma _ _ t c f (-q) (hn ▸ hq), neg_zero]
  have hq := not_lt.mp hq
  rw [host_multiset eig' solver' hz' t c f (-q) (hn ▸ hq) l hl' s d hm k, rawVelocity_neg]
  have hc := conjSolver_solves eig' he'
  have hlc : Blocks (freqs (conjSolver eig') c f q) t (A * 3) l := by
    have : freqs (conjSolver eig') c f q = freqs eig c f q := by
      unfold freqs
      rw [energies_unique (conjSolver eig') eig hc he c f q false false]
    rw [this]; exact hl
  have e := block_roots_unique (conjSolver eig') eig hc he t ht c f q l hlc hm (block_bound hl hm) k
  rw [← host_multiset eig solver hz t c f q hq l hl s d hm k] at e
  have hs : (-((rawVelocity (conjSolver eig') c f q k).map (starRingEnd ℂ))).submatrix
      (blockIx (block_bound hl' hm)) (blockIx (block_bound hl' hm)) =
      -(((rawVelocity (conjSolver eig') c f q k).submatrix (blockIx (block_bound hl hm))
        (blockIx (block_bound hl hm))).map (starRingEnd ℂ)) := rfl
  rw [hs, roots_neg_conj, e, Multiset.map_map]
  · rfl
  · rw [Matrix.conjTranspose_submatrix, rawVelocity_hermitian]

/-! ### C98: velocities on the device -/

/-- C98 (partial).  Whatever the orders of the parallel loops, the velocities of a batch on the device are those of the
host, for every crystal and every wavevector of the batch with `|q|^2 > 1e-6` or `|q| < 1e-6`.
Missing: wavevectors in between (`C98_violated`). -/
theorem C98_host_partial (eig : EigenSolver A)
    (solver : (d : Nat) → Matrix (Fin d) (Fin d) ℂ → Matrix (Fin d) (Fin d) ℂ)
    (t : ℝ) (c : PhCrystal A) (f : FcVec A n1 n2 n3)
    (order : Nat → List Vec3) (ho : ∀ j, (order j).Perm (c.gVectors n1 n2 n3)) (numK : Nat) (qs : Nat → Vec3)
    (order1 : Nat → List (Nat × Nat))
    (h1 : ∀ d, (order1 d).Perm ((List.range numK).flatMap fun ik => (List.range (A * 3)).map fun ib => (ik, ib)))
    (order2 : (d : Nat) → List (Nat × Fin d × Fin d))
    (h2 : ∀ d, (order2 d).Perm ((List.range (3 * numMatrices (degCountView (fun ik => freqs eig c f (qs ik)) t (A * 3))
      numK (A * 3) d)).flatMap fun x => (List.finRange d).flatMap fun i => (List.finRange d).map fun j => (x, i, j))) :
    ∃ w, devVelocities eig solver t c f order order1 order2 numK qs = .ok w ∧
      (∀ ik < numK, vdot (qs ik) (qs ik) > 1.0e-6 ∨ vnorm (qs ik) < 1.0e-6 → ∀ a < A * 3, ∀ b < A * 3, ∀ k < 3,
        w ik a b k = hostVelocity eig solver t c f (qs ik) a b k) ∧
      ∀ ik < numK, vdot (qs ik) (qs ik) ≤ 1.0e-6 → ∀ a < A * 3, ∀ b < A * 3, ∀ k < 3, w ik a b k = 0 := by
  have hen : (fun iK => bandFn (devAll eig c f order qs (iK * 7)).1) = fun ik => freqs eig c f (qs ik) := by
    funext ik
    rw [devAll_eq eig c f order ho, devAllVectors_zero]
    rfl
  have hblocks : ∀ ik, Blocks (freqs eig c f (qs ik)) t (A * 3) (blocksLoop (freqs eig c f (qs ik)) t (A * 3) (A * 3) 0) :=
    fun ik => blocksLoop_spec _ _ _ _ _ (by omega) (by omega)
  obtain ⟨w, e1, e2, e3⟩ := C87_schedule solver (fun ik => freqs eig c f (qs ik)) t numK (A * 3) _ hblocks order1 h1 order2 h2
    (fun iK => bandVel fun i => devRaw eig c f order qs iK i)
  have hzero : ∀ ik < numK, vdot (qs ik) (qs ik) ≤ 1.0e-6 → ∀ a < A * 3, ∀ b < A * 3, ∀ k < 3, w ik a b k = 0 := by
    intro ik hik hq a ha b hb k hk
    have hr : (bandVel fun i => devRaw eig c f order qs ik i) = 0 := by
      funext a b k
      unfold bandVel
      split_ifs with h
      · show devRaw eig c f order qs ik ⟨k, h.2.2⟩ ⟨a, h.1⟩ ⟨b, h.2.1⟩ = 0
        rw [devRaw_eq eig c f order ho]
        have : (if vdot (qs ik) (qs ik) > 1.0e-6 then rawVelocity eig c f (qs ik) ⟨k, h.2.2⟩ else 0) = 0 :=
          if_neg (not_lt.mpr hq)
        rw [this]; rfl
      · rfl
    by_cases hex : ∃ s d, (s, d) ∈ blocksLoop (freqs eig c f (qs ik)) t (A * 3) (A * 3) 0 ∧ 2 ≤ d ∧
        (s ≤ a ∧ a < s + d) ∧ s ≤ b ∧ b < s + d
    · obtain ⟨s, d, hm, hd, ⟨ha1, ha2⟩, hb1, hb2⟩ := hex
      have := e2 ik hik s d hm hd k hk ⟨a - s, by omega⟩ ⟨b - s, by omega⟩
      rw [show s + (a - s) = a by omega, show s + (b - s) = b by omega] at this
      rw [this]
      have h0 : hermitianBlock (fun iK => bandVel fun i => devRaw eig c f order qs iK i) ik s k d = 0 := by
        funext i j
        simp only [hermitianBlock, hr]
        simp
      rw [h0]
      simp
    · rw [e3 ik hik a b k fun s d hm hd h => hex ⟨s, d, hm, hd, h⟩, hr]
      rfl
  refine ⟨w, by unfold devVelocities; rw [hen]; exact e1, ?_, hzero⟩
  intro ik hik hq a ha b hb k hk
  rcases hq with hq | hq
  · have hr : (bandVel fun i => devRaw eig c f order qs ik i) = bandVel fun i => rawVelocity eig c f (qs ik) i := by
      refine congrArg bandVel ?_
      funext i
      rw [devRaw_eq eig c f order ho]
      exact if_pos hq
    have hq' : 1.0e-6 ≤ vnorm (qs ik) := by
      unfold vnorm
      refine Real.le_sqrt_of_sq_le ?_
      refine le_trans ?_ hq.le
      norm_num
    obtain ⟨g1, g2⟩ := host_block eig solver t c f (qs ik) hq' _ (hblocks ik)
    by_cases hex : ∃ s d, (s, d) ∈ blocksLoop (freqs eig c f (qs ik)) t (A * 3) (A * 3) 0 ∧ 2 ≤ d ∧
        (s ≤ a ∧ a < s + d) ∧ s ≤ b ∧ b < s + d
    · obtain ⟨s, d, hm, hd, ⟨ha1, ha2⟩, hb1, hb2⟩ := hex
      have p1 := e2 ik hik s d hm hd k hk ⟨a - s, by omega⟩ ⟨b - s, by omega⟩
      have p2 := g1 s d hm hd k hk ⟨a - s, by omega⟩ ⟨b - s, by omega⟩
      rw [show s + (a - s) = a by omega, show s + (b - s) = b by omega] at p1 p2
      rw [p1, p2, ← hr]
      have : hermitianBlock (fun iK => bandVel fun i => devRaw eig c f order qs iK i) ik s k d =
          hostSub (bandVel fun i => devRaw eig c f order qs ik i) s k d := by
        funext i j
        unfold hermitianBlock hostSub
        rw [show (0.5 : ℂ) = 1 / 2 by norm_num]
        ring
      rw [this]
    · rw [e3 ik hik a b k fun s d hm hd h => hex ⟨s, d, hm, hd, h⟩, g2 a b k fun s d hm hd h => hex ⟨s, d, hm, hd, h⟩, ← hr]
  · rw [C97_gamma eig solver t c f (qs ik) hq]
    refine hzero ik hik ?_ a ha b hb k hk
    have h0 : 0 ≤ vdot (qs ik) (qs ik) := by
      simp only [vdot]; nlinarith [sq_nonneg (qs ik 0), sq_nonneg (qs ik 1), sq_nonneg (qs ik 2)]
    have : vdot (qs ik) (qs ik) = vnorm (qs ik) ^ 2 := (Real.sq_sqrt h0).symm
    rw [this]
    have hnn : 0 ≤ vnorm (qs ik) := Real.sqrt_nonneg _
    norm_num at hq ⊢
    nlinarith

/-- C98 is violated: a cubic crystal with two opposite charges, without force constants, has a velocity along the first
axis at `q = (1e-4, 0, 0)` on the host, and zero velocities on the device: the host drops the velocities for
`|q| < 1e-6`, the device for `|q|^2 <= 1e-6`, so for wavevectors up to a thousand times longer. -/
theorem C98_violated (eig : EigenSolver 2) (he : GoodSolver eig)
    (solver : (d : Nat) → Matrix (Fin d) (Fin d) ℂ → Matrix (Fin d) (Fin d) ℂ) (hz : IsEigensolver solver) (t : ℝ)
    (order : Nat → List Vec3) (ho : ∀ j, (order j).Perm ((cubic 1 dipole).gVectors 1 1 1))
    (order1 : Nat → List (Nat × Nat))
    (h1 : ∀ d, (order1 d).Perm ((List.range 1).flatMap fun ik => (List.range (2 * 3)).map fun ib => (ik, ib)))
    (order2 : (d : Nat) → List (Nat × Fin d × Fin d))
    (h2 : ∀ d, (order2 d).Perm ((List.range (3 * numMatrices (degCountView
      (fun _ => freqs eig (cubic 1 dipole) (0 : FcVec 2 1 1 1) ![1.0e-4, 0, 0]) t (2 * 3))
      1 (2 * 3) d)).flatMap fun x => (List.finRange d).flatMap fun i => (List.finRange d).map fun j => (x, i, j))) :
    (∃ a < 2 * 3, hostVelocity eig solver t (cubic 1 dipole) (0 : FcVec 2 1 1 1) ![1.0e-4, 0, 0] a a 0 ≠ 0) ∧
    ∃ w, devVelocities eig solver t (cubic 1 dipole) (0 : FcVec 2 1 1 1) order order1 order2 1 (fun _ => ![1.0e-4, 0, 0]) =
      .ok w ∧ ∀ a < 2 * 3, w 0 a a 0 = 0 := by
  constructor
  · by_contra hcon
    have hcon : ∀ a < 2 * 3, hostVelocity eig solver t (cubic 1 dipole) (0 : FcVec 2 1 1 1) ![1.0e-4, 0, 0] a a 0 = 0 := by
      intro a ha
      by_contra hne
      exact hcon ⟨a, ha, hne⟩
    have hq : (1.0e-6 : ℝ) ≤ vnorm ![1.0e-4, 0, 0] := by
      unfold vnorm
      refine Real.le_sqrt_of_sq_le ?_
      simp [vdot]
      norm_num
    refine cubic_raw_trace eig he 1.0e-4 (by norm_num) (by norm_num) ?_
    refine Finset.sum_eq_zero fun b _ => ?_
    obtain ⟨l, hl, _, hcov⟩ := C73_partition (freqs eig (cubic 1 dipole) (0 : FcVec 2 1 1 1) ![1.0e-4, 0, 0]) t (2 * 3)
    obtain ⟨s, d, ⟨hm, hs, hd⟩, huniq⟩ := hcov b b.2
    obtain ⟨g1, g2⟩ := host_block eig solver t (cubic 1 dipole) (0 : FcVec 2 1 1 1) ![1.0e-4, 0, 0] hq l hl
    by_cases hd2 : 2 ≤ d
    · have hsub := hostSub_bandVel (fun i => rawVelocity eig (cubic 1 dipole) (0 : FcVec 2 1 1 1) ![1.0e-4, 0, 0] i)
        (fun i => rawVelocity_hermitian eig _ _ _ i) (block_bound hl hm) 0
      have hg := g1 s d hm hd2 0 (by omega)
      obtain ⟨H, hH⟩ : ∃ H, H = hostSub (bandVel fun i => rawVelocity eig (cubic 1 dipole) (0 : FcVec 2 1 1 1)
        ![1.0e-4, 0, 0] i) s 0 d := ⟨_, rfl⟩
      rw [← hH] at hg
      have hH' : H = _ := hH.trans hsub
      have hherm : H.conjTranspose = H := by rw [hH]; exact hostSub_hermitian _ _ _ _
      obtain ⟨hu, hoff⟩ := hz d H hherm
      have h0 : (solver d H).conjTranspose * H * solver d H = 0 := by
        funext i j
        by_cases hij : i = j
        · subst hij
          rw [← hg i i]
          exact hcon _ (by have := block_bound hl hm; omega)
        · exact hoff i j hij
      have hu' : solver d H * (solver d H).conjTranspose = 1 := mul_eq_one_comm.mp hu
      have hH0 : H = 0 := by
        calc H = (solver d H * (solver d H).conjTranspose) * H * (solver d H * (solver d H).conjTranspose) := by
              rw [hu', Matrix.one_mul, Matrix.mul_one]
          _ = solver d H * ((solver d H).conjTranspose * H * solver d H) * (solver d H).conjTranspose := by
              simp only [Matrix.mul_assoc]
          _ = 0 := by rw [h0]; simp
      have e := congrFun (congrFun (hH'.symm.trans hH0) ⟨b - s, by omega⟩) ⟨b - s, by omega⟩
      have hb : blockIx (block_bound hl hm) ⟨b - s, by omega⟩ = b := Fin.ext (by simp only [blockIx]; omega)
      rw [Matrix.submatrix_apply, hb] at e
      exact e
    · have hg := g2 b b 0 (by
        intro s' d' hm' hd' h
        have := huniq s' d' hm' h.1.1 h.1.2
        omega)
      rw [hcon b b.2] at hg
      unfold bandVel at hg
      rw [dif_pos ⟨b.2, b.2, by omega⟩] at hg
      exact hg.symm
  · obtain ⟨w, e1, _, e3⟩ := C98_host_partial eig solver t (cubic 1 dipole) (0 : FcVec 2 1 1 1) order ho 1
      (fun _ => ![1.0e-4, 0, 0]) order1 h1 order2 h2
    refine ⟨w, e1, fun a ha => e3 0 (by omega) ?_ a ha a ha 0 (by omega)⟩
    simp [vdot]
    norm_num

/-- The hypotheses of `C98_violated` can be met. -/
example : ∃ eig : EigenSolver 2, GoodSolver eig := exists_solver 2

end Verif.Props
