import Verif.Props.ElWannier

/-!
C104, C105, C106: electron bands on the device, the Berry connection and the batches.
-/
namespace Verif.Props
open Verif.Model Verif.Spec

variable {W R : Nat}

/-! ### C104: the device -/

theorem devBloch_none (w : WannierData W R) (hw : w.shifts = none) (k : Vec3) : devBloch w k = .ok (blochH w k) := by
  unfold devBloch blochH
  rw [hw]
  refine congrArg Outcome.ok ?_
  funext m n
  simp only [hostPhase_eq]
  rfl

theorem devElRaw_eq (eig : ElSolver W) (w : WannierData W R) (hs : Nat → Matrix (Fin W) (Fin W) ℂ) (qs : Nat → Vec3)
    (numK : Nat) (hh : ∀ j < numK * 7, hs j = blochH w (devAllVectors qs j)) (iK : Nat) (hK : iK < numK) (i : Fin 3) :
    devElRaw eig hs qs iK i = if vdot (qs iK) (qs iK) > 1.0e-6 then elRaw eig w (qs iK) i else 0 := by
  have hn : 0 + qs iK 0 * qs iK 0 + qs iK 1 * qs iK 1 + qs iK 2 * qs iK 2 = vdot (qs iK) (qs iK) := by
    simp only [vdot]; ring
  have hi := i.2
  have h0 : hs (iK * 7) = blochH w (qs iK) := by rw [hh _ (by omega), devAllVectors_zero]
  have h1 : hs (iK * 7 + i * 2 + 1) = blochH w (shiftQ (qs iK) i constDeltaQ) := by
    rw [hh _ (by omega), devAllVectors_plus]
  have h2 : hs (iK * 7 + i * 2 + 2) = blochH w (shiftQ (qs iK) i (-constDeltaQ)) := by
    rw [hh _ (by omega), devAllVectors_minus]
  have hd : (constDeltaQ : ℂ) ≠ 0 := by
    have : constDeltaQ ≠ 0 := by unfold constDeltaQ; norm_num
    exact_mod_cast this
  funext m n
  unfold devElRaw
  simp only [hn, h0, h1, h2]
  by_cases h : vdot (qs iK) (qs iK) > 1.0e-6
  · have e : (if vdot (qs iK) (qs iK) > 1.0e-6 then elRaw eig w (qs iK) i else 0) = elRaw eig w (qs iK) i := if_pos h
    rw [if_pos h, e]
    unfold elRaw
    rw [Matrix.mul_apply]
    refine Finset.sum_congr rfl fun l _ => ?_
    refine congrArg (· * _) ?_
    rw [Matrix.mul_apply]
    refine Finset.sum_congr rfl fun k _ => ?_
    rw [Matrix.conjTranspose_apply]
    refine congrArg (fun z : ℂ => (starRingEnd ℂ) ((elDiagonalize eig w (qs iK)).2 k m) * z) ?_
    unfold elDer
    simp only [map_div₀, map_sub, Complex.conj_ofReal]
    rw [show (0.5 : ℂ) = 1 / 2 by norm_num]
    push_cast
    rw [show (0.25 : ℂ) = 1 / 4 by norm_num]
    field_simp
    ring
  · have e : (if vdot (qs iK) (qs iK) > 1.0e-6 then elRaw eig w (qs iK) i else 0) = 0 := if_neg h
    rw [if_neg h, e]
    rfl

/-- C104 (partial).  Without shifted vectors the Hamiltonian of the device is that of the host.  Whatever the orders of
the parallel loops, the velocities of a batch on the device are those of the host for every wavevector with `|k|^2 > 1e-6`
or `|k| < 1e-6`, and zero for every wavevector with `|k|^2 <= 1e-6`.
Missing: wavevectors in between (`C104_violated_centre`), and shifted vectors (`C104_violated_shifts`). -/
theorem C104_host_partial (eig : ElSolver W)
    (solver : (d : Nat) → Matrix (Fin d) (Fin d) ℂ → Matrix (Fin d) (Fin d) ℂ)
    (t : ℝ) (w : WannierData W R) (hw : w.shifts = none) (numK : Nat) (qs : Nat → Vec3)
    (order1 : Nat → List (Nat × Nat))
    (h1 : ∀ d, (order1 d).Perm ((List.range numK).flatMap fun ik => (List.range W).map fun ib => (ik, ib)))
    (order2 : (d : Nat) → List (Nat × Fin d × Fin d))
    (h2 : ∀ d, (order2 d).Perm ((List.range (3 * numMatrices (degCountView
      (fun ik => if ik < numK then elEnergies eig w (qs ik) else bandFn (eig 0).1) t W)
      numK W d)).flatMap fun x => (List.finRange d).flatMap fun i => (List.finRange d).map fun j => (x, i, j))) :
    (∀ k, devBloch w k = .ok (blochH w k)) ∧
    ∃ v, devElVelocities eig solver t w order1 order2 numK qs = .ok v ∧
      (∀ ik < numK, vdot (qs ik) (qs ik) > 1.0e-6 ∨ vnorm (qs ik) < 1.0e-6 → ∀ a < W, ∀ b < W, ∀ c < 3,
        v ik a b c = elVelocity eig solver t w (qs ik) a b c) ∧
      ∀ ik < numK, vdot (qs ik) (qs ik) ≤ 1.0e-6 → ∀ a < W, ∀ b < W, ∀ c < 3, v ik a b c = 0 := by
  refine ⟨devBloch_none w hw, ?_⟩
  obtain ⟨hs, hsd⟩ : ∃ hs : Nat → Matrix (Fin W) (Fin W) ℂ, hs = fun j =>
    ((((List.range (numK * 7)).map fun j => blochH w (devAllVectors qs j)))[j]?).getD 0 := ⟨_, rfl⟩
  have hh : ∀ j < numK * 7, hs j = blochH w (devAllVectors qs j) := by
    intro j hj
    rw [hsd]
    simp [hj]
  have hh' : ∀ j, numK * 7 ≤ j → hs j = 0 := by
    intro j hj
    rw [hsd]
    simp [hj]
  have hrun : devElVelocities eig solver t w order1 order2 numK qs =
      treatDegenerateVelocities solver (fun iK => bandFn (eig (hs (iK * 7))).1) t numK W
        order1 order2 (fun iK => bandVel fun i => devElRaw eig hs qs iK i) := by
    unfold devElVelocities
    rw [mapOutcome_ok (g := fun j => blochH w (devAllVectors qs j)) _ fun j _ => devBloch_none w hw _, hsd]
    rfl
  obtain ⟨en, hend⟩ : ∃ en : Nat → Nat → ℝ, en = fun ik => if ik < numK then elEnergies eig w (qs ik) else bandFn (eig 0).1 :=
    ⟨_, rfl⟩
  rw [← hend] at h2
  have hen : (fun iK => bandFn (eig (hs (iK * 7))).1) = en := by
    funext ik
    rw [hend]
    by_cases hik : ik < numK
    · simp only [if_pos hik]
      rw [hh _ (by omega), devAllVectors_zero]
      rfl
    · simp only [if_neg hik]
      rw [hh' _ (by omega)]
  have hen' : ∀ ik < numK, en ik = elEnergies eig w (qs ik) := by
    intro ik hik
    rw [hend]
    exact if_pos hik
  have hblocks : ∀ ik, Blocks (en ik) t W (blocksLoop (en ik) t W W 0) :=
    fun ik => blocksLoop_spec _ _ _ _ _ (by omega) (by omega)
  obtain ⟨v, e1, e2, e3⟩ := C87_schedule solver en t numK W _ hblocks order1 h1 order2 h2
    (fun iK => bandVel fun i => devElRaw eig hs qs iK i)
  have hzero : ∀ ik < numK, vdot (qs ik) (qs ik) ≤ 1.0e-6 → ∀ a < W, ∀ b < W, ∀ k < 3, v ik a b k = 0 := by
    intro ik hik hq a ha b hb k hk
    have hr : (bandVel fun i => devElRaw eig hs qs ik i) = 0 := by
      funext a b k
      unfold bandVel
      split_ifs with h
      · show devElRaw eig hs qs ik ⟨k, h.2.2⟩ ⟨a, h.1⟩ ⟨b, h.2.1⟩ = 0
        rw [devElRaw_eq eig w hs qs numK hh ik hik]
        have : (if vdot (qs ik) (qs ik) > 1.0e-6 then elRaw eig w (qs ik) ⟨k, h.2.2⟩ else 0) = 0 :=
          if_neg (not_lt.mpr hq)
        rw [this]; rfl
      · rfl
    by_cases hex : ∃ s d, (s, d) ∈ blocksLoop (en ik) t W W 0 ∧ 2 ≤ d ∧ (s ≤ a ∧ a < s + d) ∧ s ≤ b ∧ b < s + d
    · obtain ⟨s, d, hm, hd, ⟨ha1, ha2⟩, hb1, hb2⟩ := hex
      have := e2 ik hik s d hm hd k hk ⟨a - s, by omega⟩ ⟨b - s, by omega⟩
      rw [show s + (a - s) = a by omega, show s + (b - s) = b by omega] at this
      rw [this]
      have h0 : hermitianBlock (fun iK => bandVel fun i => devElRaw eig hs qs iK i) ik s k d = 0 := by
        funext i j
        simp only [hermitianBlock, hr]
        simp
      rw [h0]
      simp
    · rw [e3 ik hik a b k fun s d hm hd h => hex ⟨s, d, hm, hd, h⟩, hr]
      rfl
  refine ⟨v, by rw [hrun, hen]; exact e1, ?_, hzero⟩
  intro ik hik hq a ha b hb k hk
  rcases hq with hq | hq
  · have hr : (bandVel fun i => devElRaw eig hs qs ik i) = bandVel fun i => elRaw eig w (qs ik) i := by
      refine congrArg bandVel ?_
      funext i
      rw [devElRaw_eq eig w hs qs numK hh ik hik]
      exact if_pos hq
    have hq' : 1.0e-6 ≤ vnorm (qs ik) := by
      unfold vnorm
      refine Real.le_sqrt_of_sq_le ?_
      refine le_trans ?_ hq.le
      norm_num
    obtain ⟨g1, g2⟩ := degLoop_block solver (en ik) t (fun i => elRaw eig w (qs ik) i) _ (hblocks ik)
    rw [elVelocity_eq eig solver t w (qs ik) hq', ← hen' ik hik]
    by_cases hex : ∃ s d, (s, d) ∈ blocksLoop (en ik) t W W 0 ∧ 2 ≤ d ∧ (s ≤ a ∧ a < s + d) ∧ s ≤ b ∧ b < s + d
    · obtain ⟨s, d, hm, hd, ⟨ha1, ha2⟩, hb1, hb2⟩ := hex
      have p1 := e2 ik hik s d hm hd k hk ⟨a - s, by omega⟩ ⟨b - s, by omega⟩
      have p2 := g1 s d hm hd k hk ⟨a - s, by omega⟩ ⟨b - s, by omega⟩
      rw [show s + (a - s) = a by omega, show s + (b - s) = b by omega] at p1 p2
      rw [p1, p2, ← hr]
      have : hermitianBlock (fun iK => bandVel fun i => devElRaw eig hs qs iK i) ik s k d =
          hostSub (bandVel fun i => devElRaw eig hs qs ik i) s k d := by
        funext i j
        unfold hermitianBlock hostSub
        rw [show (0.5 : ℂ) = 1 / 2 by norm_num]
        ring
      rw [this]
    · rw [e3 ik hik a b k fun s d hm hd h => hex ⟨s, d, hm, hd, h⟩, g2 a b k fun s d hm hd h => hex ⟨s, d, hm, hd, h⟩, ← hr]
  · rw [C103_centre eig solver t w (qs ik) hq]
    refine hzero ik hik ?_ a ha b hb k hk
    have h0 : 0 ≤ vdot (qs ik) (qs ik) := by
      simp only [vdot]; nlinarith [sq_nonneg (qs ik 0), sq_nonneg (qs ik 1), sq_nonneg (qs ik 2)]
    have : vdot (qs ik) (qs ik) = vnorm (qs ik) ^ 2 := (Real.sq_sqrt h0).symm
    rw [this]
    have hnn : 0 ≤ vnorm (qs ik) := Real.sqrt_nonneg _
    norm_num at hq ⊢
    nlinarith

/-- The hypotheses of `C104_host_partial` can be met: the sequential orders of the loops. -/
example (eig : ElSolver 1) (t : ℝ) (numK : Nat) (qs : Nat → Vec3) : (chain 1).shifts = none ∧
    ∃ (order1 : Nat → List (Nat × Nat)) (order2 : (d : Nat) → List (Nat × Fin d × Fin d)),
    (∀ d, (order1 d).Perm ((List.range numK).flatMap fun ik => (List.range 1).map fun ib => (ik, ib))) ∧
    ∀ d, (order2 d).Perm ((List.range (3 * numMatrices (degCountView
      (fun ik => if ik < numK then elEnergies eig (chain 1) (qs ik) else bandFn (eig 0).1) t 1)
      numK 1 d)).flatMap fun x => (List.finRange d).flatMap fun i => (List.finRange d).map fun j => (x, i, j)) :=
  ⟨rfl, _, _, fun _ => List.Perm.refl _, fun _ => List.Perm.refl _⟩

/-- C104 is violated near the zone centre: a chain has a velocity at `k = (1e-4, 0, 0)` on the host, and none on the
device. -/
theorem C104_violated_centre (eig : ElSolver 1) (he : ElSolves eig)
    (solver : (d : Nat) → Matrix (Fin d) (Fin d) ℂ → Matrix (Fin d) (Fin d) ℂ) (t : ℝ)
    (order1 : Nat → List (Nat × Nat))
    (h1 : ∀ d, (order1 d).Perm ((List.range 1).flatMap fun ik => (List.range 1).map fun ib => (ik, ib)))
    (order2 : (d : Nat) → List (Nat × Fin d × Fin d))
    (h2 : ∀ d, (order2 d).Perm ((List.range (3 * numMatrices (degCountView
      (fun ik => if ik < 1 then elEnergies eig (chain 1) ![1.0e-4, 0, 0] else bandFn (eig 0).1) t 1)
      1 1 d)).flatMap fun x => (List.finRange d).flatMap fun i => (List.finRange d).map fun j => (x, i, j))) :
    elVelocity eig solver t (chain 1) ![1.0e-4, 0, 0] 0 0 0 ≠ 0 ∧
    ∃ v, devElVelocities eig solver t (chain 1) order1 order2 1 (fun _ => ![1.0e-4, 0, 0]) = .ok v ∧ v 0 0 0 0 = 0 := by
  constructor
  · rw [chain_velocity 1 eig he solver t _ (by norm_num), one_mul]
    have h := sinc_pos
    have hs : 0 < Real.sin 1.0e-4 := by
      have := Real.pi_gt_three
      exact Real.sin_pos_of_pos_of_lt_pi (by norm_num) (by norm_num; linarith)
    have he : (Complex.exp (Complex.I * ((1.0e-4 : ℝ) : ℂ))).im = Real.sin 1.0e-4 := by
      rw [mul_comm, Complex.exp_ofReal_mul_I_im]
    rw [he]
    have h2 : (Real.sin 1.0e-4 * (-2) * (Real.sin constDeltaQ / constDeltaQ) : ℝ) ≠ 0 := by
      have := mul_pos hs h
      intro h0
      nlinarith
    exact_mod_cast h2
  · obtain ⟨v, e1, _, e3⟩ := (C104_host_partial eig solver t (chain 1) rfl 1 (fun _ => ![1.0e-4, 0, 0])
      order1 h1 order2 h2).2
    refine ⟨v, e1, e3 0 (by omega) ?_ 0 (by omega) 0 (by omega) 0 (by omega)⟩
    simp [vdot]
    norm_num

/-- One function, one vector and two images of it (both at the origin), with a matrix element of one. -/
noncomputable def twoImages : WannierShifts 1 1 := ⟨fun _ _ _ => 2, fun _ _ _ _ => 0⟩

noncomputable def oneVector : WannierData 1 1 := ⟨fun _ => 0, fun _ => 1, fun _ _ _ => 1, fun _ _ _ _ => 0, none⟩

/-- C104 is violated with shifted vectors: on the device the images are multiplied, not divided, by their number.  The
Hamiltonian is one on the host, and four on the device. -/
theorem C104_violated_shifts : ∃ w', build oneVector (some twoImages) = .ok w' ∧
    (∀ k, blochH w' k 0 0 = 1) ∧ ∀ k, ∃ h, devBloch w' k = .ok h ∧ h 0 0 = 4 := by
  have hadd : addShiftedVectors oneVector twoImages = .ok { oneVector with shifts := some twoImages } := by
    unfold addShiftedVectors
    rw [if_neg (by rintro ⟨a, b, r, h⟩; simp [twoImages] at h)]
    simp [twoImages, oneVector]
  refine ⟨_, hadd, ?_, ?_⟩
  · intro k
    simp [blochH, twoImages, oneVector, hostPhase_eq, WannierShifts.at, List.finRange_succ, List.range_succ, vdot, cis_zero]
    norm_num
  · intro k
    refine ⟨_, by
      unfold devBloch
      rw [show ({ oneVector with shifts := some twoImages } : WannierData 1 1).shifts = some twoImages from rfl]
      exact if_neg (by rintro ⟨a, b, r, _, h⟩; omega), ?_⟩
    · simp [twoImages, oneVector, WannierShifts.at, List.finRange_succ, List.range_succ, vdot]
      norm_num

/-- C104 is violated with shifted vectors: unless there are as many vectors as functions, the device reads beyond the
bounds of the array of matrix elements. -/
theorem C104_violated_bounds (w : WannierData W R) (s : WannierShifts W R) (hs : ∀ a b r, 1 ≤ s.degeneracy a b r)
    (hW : 0 < W) (hR : 0 < R) (hne : W ≠ R) (w' : WannierData W R) (h : build w (some s) = .ok w') (k : Vec3) :
    devBloch w' k = .ub := by
  change addShiftedVectors w s = .ok w' at h
  unfold addShiftedVectors at h
  by_cases hc : ∃ a b r, 8 < s.degeneracy a b r
  · rw [if_pos hc] at h
    exact absurd h (by simp)
  rw [if_neg hc] at h
  rw [← Outcome.ok.inj h]
  unfold devBloch
  refine if_pos ?_
  rcases Nat.lt_or_gt_of_ne hne with hlt | hlt
  · exact ⟨⟨0, hW⟩, ⟨0, hW⟩, ⟨W, hlt⟩, hs _ _ _, by simp⟩
  · exact ⟨⟨0, hW⟩, ⟨R, hlt⟩, ⟨0, hR⟩, hs _ _ _, by simp⟩

/-- Such data are accepted: one function and two vectors with one image each. -/
example : ∃ w', build (chain 1) (some ⟨fun _ _ _ => 1, fun _ _ _ _ => 0⟩) = .ok w' := by
  refine ⟨_, by
    unfold build addShiftedVectors
    exact if_neg (by rintro ⟨a, b, r, h⟩; simp at h)⟩

/-! ### C105: the Berry connection -/

/-- C105: the Berry connection is asked to be `U^dagger A(k) U` with `A(k)` the sum over vectors of the matrix elements of
the position with a phase. -/
noncomputable def berrySpec (w : WannierData W R) (u : Matrix (Fin W) (Fin W) ℂ) (k : Vec3) (i : Fin 3) :
    Matrix (Fin W) (Fin W) ℂ :=
  u.conjTranspose * (∑ r, (Complex.exp (Complex.I * (vdot k (w.bravais r) : ℝ)) / (w.degeneracy r : ℂ)) • w.rMatrix i r) * u

/-- C105 is violated: unless there are three functions and three vectors the Berry connection reads beyond the bounds of
the array of positions, for all data, wavevectors and libraries. -/
theorem C105_violated_bounds (eig : ElSolver W) (w : WannierData W R) (k : Vec3) (hW : 0 < W) (hR : 0 < R)
    (h : ¬ (W = 3 ∧ R = 3)) : berryConnection eig w k = .ub := by
  unfold berryConnection
  exact if_pos ⟨hR, hW, by omega⟩

/-- Three functions and three vectors, with one matrix element of the position: the third function of the cell at the
origin is centred at one along the first axis. -/
noncomputable def threeThree : WannierData 3 3 :=
  ⟨fun r => ![(r.1 : ℝ), 0, 0], fun _ => 1, fun _ => 0,
    fun i r => if i = 0 ∧ r = 0 then Matrix.single 2 2 1 else 0, none⟩

/-- C105 is violated with three functions and three vectors: the indices of the array of positions are permuted.  The
component along the first axis is not zero, and the program returns zero. -/
theorem C105_violated_value (eig : ElSolver 3) (he : ElSolves eig) (k : Vec3) :
    ∃ a, berryConnection eig threeThree k = .ok a ∧ a 0 = 0 ∧
      berrySpec threeThree (elDiagonalize eig threeThree k).2 k 0 ≠ 0 := by
  refine ⟨_, by unfold berryConnection; exact if_neg (by omega), ?_, ?_⟩
  · obtain ⟨bw, hbw⟩ : ∃ bw : Matrix (Fin 3) (Fin 3) ℂ, bw = fun m n => (List.finRange 3).foldl (fun x iR =>
      x + hostPhase (vdot k (threeThree.bravais iR)) / (threeThree.degeneracy iR : ℂ) *
        (if h : 3 ≤ 3 ∧ 3 ≤ 3 ∧ 3 ≤ 3 then
          threeThree.rMatrix ⟨iR.1, by omega⟩ ⟨m.1, by omega⟩ n ⟨(0 : Fin 3).1, by omega⟩ else 0)) 0 := ⟨_, rfl⟩
    have h0 : bw = 0 := by
      rw [hbw]
      funext m n
      have : ∀ (x : Fin 3) (y : Fin 3), threeThree.rMatrix x y n 0 = 0 := by
        intro x y
        simp only [threeThree]
        split_ifs
        · exact Matrix.single_apply_of_ne _ _ _ _ _ (by rintro ⟨_, h⟩; exact absurd h (by decide))
        · rfl
      have hr : ∀ iR : Fin 3, (if h : 3 ≤ 3 ∧ 3 ≤ 3 ∧ 3 ≤ 3 then
          threeThree.rMatrix ⟨iR.1, by omega⟩ ⟨m.1, by omega⟩ n ⟨(0 : Fin 3).1, by omega⟩ else 0) = 0 := by
        intro iR
        rw [dif_pos (by omega)]
        exact this _ _
      simp only [hr, mul_zero, add_zero]
      simp [List.finRange_succ]
    show (elDiagonalize eig threeThree k).2.conjTranspose * _ * (elDiagonalize eig threeThree k).2 = 0
    rw [← hbw, h0, Matrix.mul_zero, Matrix.zero_mul]
  · have hz : blochH threeThree k = 0 := by
      unfold blochH
      funext a b
      simp [threeThree, List.finRange_succ]
    have hu := (he (0 : Matrix (Fin 3) (Fin 3) ℂ) (by simp)).left
    obtain ⟨u, hud⟩ : ∃ u, u = (elDiagonalize eig threeThree k).2 := ⟨_, rfl⟩
    rw [← hud]
    have hu : u.conjTranspose * u = 1 := by rw [hud, elDiagonalize, hz]; exact hu
    have hu' : u * u.conjTranspose = 1 := mul_eq_one_comm.mp hu
    have hb : ∑ r, (Complex.exp (Complex.I * (vdot k (threeThree.bravais r) : ℝ)) / (threeThree.degeneracy r : ℂ)) •
        threeThree.rMatrix 0 r = Matrix.single 2 2 1 := by
      rw [Fin.sum_univ_three]
      simp [threeThree, vdot]
    unfold berrySpec
    rw [hb]
    intro h0
    have h1 : u * (u.conjTranspose * Matrix.single 2 2 1 * u) * u.conjTranspose = Matrix.single 2 2 1 := by
      calc _ = (u * u.conjTranspose) * Matrix.single 2 2 1 * (u * u.conjTranspose) := by simp only [Matrix.mul_assoc]
        _ = _ := by rw [hu', Matrix.one_mul, Matrix.mul_one]
    rw [h0, Matrix.mul_zero, Matrix.zero_mul] at h1
    have := congrFun (congrFun h1 2) 2
    simp at this

/-! ### C106: batches -/

theorem store_all {β : Type} (rs : List β) (n : Nat) (done : List β) (rest : List (Option β)) (hr : rest.length ≥ n)
    (m : Nat) (hm : n + m = rs.length) :
    (List.range' m n).foldlM (fun (all : List (Option β)) iik => do
      let r ← readAt rs iik
      if iik + done.length < all.length then .ok (all.set (iik + done.length) (some r)) else .ub)
      ((done ++ rs.take m).map some ++ rest) = Outcome.ok ((done ++ rs).map some ++ rest.drop n) := by
  induction n generalizing m rest with
  | zero =>
    have : rs.take m = rs := List.take_of_length_le (by omega)
    rw [this]
    rfl
  | succ n ih =>
    obtain ⟨x, rest', hx⟩ : ∃ x rest', rest = x :: rest' := by
      cases rest with
      | nil => simp at hr
      | cons x r => exact ⟨x, r, rfl⟩
    subst hx
    have hlt : m < rs.length := by omega
    rw [List.range'_succ, List.foldlM_cons]
    have h1 : readAt rs m = .ok rs[m] := by
      unfold readAt
      rw [List.getElem?_eq_getElem hlt]
    have hlen : ((done ++ rs.take m).map some).length = m + done.length := by
      simp only [List.length_map, List.length_append, List.length_take]
      omega
    rw [h1]
    simp only [Outcome.bind_eq, Outcome.bind_ok]
    rw [if_pos (by rw [List.length_append, hlen, List.length_cons]; omega), Outcome.bind_ok,
      List.set_append_right _ _ (by omega), hlen, Nat.sub_self, List.set_cons_zero]
    have := ih rest' (by simpa using hr) (m + 1) (by omega)
    rw [List.drop_succ_cons, ← this]
    have hlist : (done ++ rs.take m).map some ++ some rs[m] :: rest' = (done ++ rs.take (m + 1)).map some ++ rest' := by
      rw [List.take_add_one, List.getElem?_eq_getElem hlt]
      simp only [List.map_append, Option.toList_some, List.map_cons, List.map_nil, List.append_assoc, List.cons_append,
        List.nil_append]
    rw [hlist]
    rfl

theorem elPopulate_loop {β : Type} (f : Vec3 → β) (kernel : List Vec3 → Outcome (List β))
    (hk : ∀ ks, kernel ks = .ok (ks.map f)) (coordinates : List Vec3) (bs : List (List Int)) (done : Nat)
    (h : done + bs.flatten.length = coordinates.length) :
    elPopulateLoop kernel coordinates bs done (((coordinates.take done).map f).map some ++
      List.replicate (coordinates.length - done) none) = .ok ((coordinates.map f).map some) := by
  induction bs generalizing done with
  | nil =>
    have : done = coordinates.length := by simpa using h
    subst this
    simp [elPopulateLoop]
  | cons b bs ih =>
    rw [List.flatten_cons, List.length_append] at h
    have hs := mapOutcome_slice coordinates done b.length (by omega)
    have hd : ((coordinates.take done).map f).length = done := by simp; omega
    have hst := store_all (((coordinates.drop done).take b.length).map f) b.length ((coordinates.take done).map f)
      (List.replicate (coordinates.length - done) none) (by simp; omega) 0 (by simp; omega)
    rw [hd] at hst
    unfold elPopulateLoop
    simp only [Nat.add_comm _ done, hs, hk, Outcome.bind_eq, Outcome.bind_ok] at hst ⊢
    rw [List.range_eq_range']
    rw [List.take_zero, List.append_nil] at hst
    rw [hst, Outcome.bind_ok]
    have := ih (done + b.length) (by omega)
    rw [← this]
    refine congrArg _ ?_
    rw [List.take_add, List.map_append, List.drop_replicate,
      show coordinates.length - done - b.length = coordinates.length - (done + b.length) by omega,
      List.map_append, List.map_append]

/-- C106 (partial): for every size of the batches, the results of the points on the device are, point by point and in their
order, those of the kernel (`f`), however many batches there are and whatever the indices of the points.
Missing: an empty list of points (`C106_violated`), and lists longer than `2^30`. -/
theorem C106_points_partial {β : Type} (f : Vec3 → β) (kernel : List Vec3 → Outcome (List β))
    (hk : ∀ ks, kernel ks = .ok (ks.map f)) (coordinates : List Vec3) (iks : List Int) (batchSize : Int)
    (hl : iks.length = coordinates.length) (hne : coordinates ≠ []) (hb : 0 < batchSize)
    (hbig : coordinates.length ≤ 1073741823) :
    elKokkosPopulate kernel coordinates iks batchSize = .ok (coordinates.map fun k => some (f k)) := by
  have hne' : iks ≠ [] := by
    intro h
    rw [h] at hl
    exact hne (List.length_eq_zero_iff.mp hl.symm)
  obtain ⟨bs, e1, e2, _⟩ := C82_pieces_partial iks batchSize hne' hb (by omega)
  have h := elPopulate_loop f kernel hk coordinates bs 0 (by rw [e2]; omega)
  unfold elKokkosPopulate
  rw [e1]
  simp only [Outcome.bind_eq, Outcome.bind_ok]
  simp only [List.take_zero, List.map_nil, List.nil_append, Nat.sub_zero] at h
  rw [h, List.map_map]
  rfl

/-- The hypotheses of `C106_points_partial` can be met: seven points in batches of three. -/
example (f : Vec3 → ℝ) : elKokkosPopulate (fun ks => .ok (ks.map f)) ((List.range 7).map fun i => ![(i : ℝ), 0, 0])
    [10, 11, 12, 13, 14, 15, 16] 3 = .ok ((List.range 7).map fun i => some (f ![(i : ℝ), 0, 0])) := by
  rw [C106_points_partial f _ (fun _ => rfl) _ _ 3 (by simp) (by simp [List.range_succ]) (by omega) (by simp)]
  simp

/-- C106 is violated: a process without points divides by zero. -/
theorem C106_violated {β : Type} (kernel : List Vec3 → Outcome (List β)) (batchSize : Int) (hb : 0 ≤ batchSize) :
    elKokkosPopulate kernel [] [] batchSize = .ub := by
  unfold elKokkosPopulate splitToBatches
  have : min batchSize (([] : List Int).length : Int) = 0 := by simp; omega
  simp only [this, Outcome.bind_eq]
  rfl

end Verif.Props
