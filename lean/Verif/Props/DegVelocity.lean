import Verif.Proofs.DegVelocity
import Mathlib.LinearAlgebra.UnitaryGroup
import Mathlib.LinearAlgebra.Matrix.Trace
import Mathlib.Analysis.Matrix.Spectrum

/-!
# C73, C87: blocks of degenerate bands on the device
-/
namespace Verif.Props
open Verif.Model Verif.Spec

variable {α : Type} [Field α] [LinearOrder α]

/-- **C73** (the bands of every wavevector form blocks in exactly one way; the blocks cover all bands and are
disjoint). -/
theorem C73_partition (en : Nat → α) (threshold : α) (n : Nat) :
    ∃ l, Blocks en threshold n l ∧ (∀ l', Blocks en threshold n l' → l' = l) ∧
      ∀ j < n, ∃ s d, ((s, d) ∈ l ∧ s ≤ j ∧ j < s + d) ∧ ∀ s' d', (s', d') ∈ l → s' ≤ j → j < s' + d' → s' = s ∧ d' = d := by
  have h := blocksLoop_spec en threshold n n 0 (by omega) (by omega)
  refine ⟨_, h, fun l' h' => blocksFrom_unique en threshold n _ _ 0 h' h, fun j hj => ?_⟩
  obtain ⟨s, d, hm, h1, h2⟩ := blocksFrom_cover en threshold n _ 0 h j (by omega) hj
  exact ⟨s, d, ⟨hm, h1, h2⟩, fun s' d' hm' h1' h2' => blocksFrom_disjoint en threshold n _ 0 h s' d' s d hm' hm j ⟨h1', h2'⟩ ⟨h1, h2⟩⟩

/-- **C73.**  For every size of two bands or more, and whatever the order in which the parallel loop runs, the
compaction lists exactly the first bands of the blocks of this size, each once, sorted by wavevector and band; blocks
of every size up to the largest one are treated. -/
theorem C73_enumeration (en : Nat → Nat → α) (threshold : α) (numK n : Nat) (blocks : Nat → List (Nat × Nat))
    (hblocks : ∀ ik, Blocks (en ik) threshold n (blocks ik)) (d : Nat) (hd : 2 ≤ d) (order : List (Nat × Nat))
    (horder : order.Perm ((List.range numK).flatMap fun ik => (List.range n).map fun ib => (ik, ib))) :
    ∃ l, funcKB (degCountView en threshold n) numK n d order = .ok l ∧ l.Nodup ∧
      l.Pairwise (fun p q => p.1 < q.1 ∨ p.1 = q.1 ∧ p.2 < q.2) ∧
      (∀ ik s, (ik, s) ∈ l ↔ ik < numK ∧ (s, d) ∈ blocks ik) ∧
      ∀ ik s, ik < numK → (s, d) ∈ blocks ik → d ≤ maxDegeneracy en threshold numK n := by
  have hb : ∀ ik, blocks ik = blocksAt en threshold n ik := fun ik =>
    blocksFrom_unique _ _ _ _ _ 0 (hblocks ik) (blocksAt_spec en threshold n ik)
  refine ⟨_, funcKB_val _ _ _ _ _ horder, (allStates_nodup numK n).filter _, ?_, ?_, ?_⟩
  · refine List.Pairwise.filter _ ?_
    clear horder
    induction numK with
    | zero => exact List.Pairwise.nil
    | succ k ih =>
      rw [allStates_succ, List.pairwise_append]
      refine ⟨?_, ?_, ?_⟩
      · exact ih
      · rw [List.pairwise_map]
        exact List.pairwise_lt_range.imp fun h => Or.inr ⟨rfl, h⟩
      · intro p hp q hq
        rw [mem_allStates] at hp
        obtain ⟨b, _, rfl⟩ := List.mem_map.mp hq
        exact Or.inl hp.1
  · intro ik s
    rw [hb]
    exact mem_startsOf en threshold numK n d ik s hd
  · intro ik s hk hm
    rw [hb] at hm
    exact block_le_max en threshold numK n ik s d hk hm

/-- Five bands at two wavevectors: blocks of two bands at band 1 of the first and bands 0 and 3 of the second. -/
def exampleEnergies : Nat → Nat → Rat := fun ik ib =>
  (([[1, 2, 2, 3, 4], [1, 1, 2, 3, 3]] : List (List Rat)).getD ik []).getD ib 0

example : funcKB (degCountView exampleEnergies (1 / 1000 : Rat) 5) 2 5 2
    ((List.range 2).flatMap fun ik => (List.range 5).map fun ib => (ik, ib)).reverse = .ok [(0, 1), (1, 0), (1, 3)] := by
  decide +kernel

/-! ## C87 -/

/-- Hermitian part of the block of `d` bands from `s` on. -/
noncomputable def hermitianBlock (v : VelView) (ik s c d : Nat) : Matrix (Fin d) (Fin d) ℂ := fun i j =>
  (v ik (s + i) (s + j) c + (starRingEnd ℂ) (v ik (s + j) (s + i) c)) / 2

theorem subVelocity_eq (v : VelView) (ik s c d : Nat) : subVelocity v ik s c d = hermitianBlock v ik s c d := by
  funext i j
  unfold subVelocity hermitianBlock
  rw [show (0.5 : ℂ) = 1 / 2 by norm_num]
  ring

/-- **C87** (the result does not depend on the schedule).  Whatever the orders of the parallel loops, each block of two
or more bands is replaced by its Hermitian part in the basis given by the eigensolver for this Hermitian part, and all
other elements keep their values: those between bands of different blocks, and those of bands that are not
degenerate. -/
theorem C87_schedule (zheev : (d : Nat) → Matrix (Fin d) (Fin d) ℂ → Matrix (Fin d) (Fin d) ℂ)
    (en : Nat → Nat → α) (threshold : α) (numK n : Nat) (blocks : Nat → List (Nat × Nat))
    (hblocks : ∀ ik, Blocks (en ik) threshold n (blocks ik))
    (order1 : Nat → List (Nat × Nat))
    (h1 : ∀ d, (order1 d).Perm ((List.range numK).flatMap fun ik => (List.range n).map fun ib => (ik, ib)))
    (order2 : (d : Nat) → List (Nat × Fin d × Fin d))
    (h2 : ∀ d, (order2 d).Perm ((List.range (3 * numMatrices (degCountView en threshold n) numK n d)).flatMap fun x =>
      (List.finRange d).flatMap fun i => (List.finRange d).map fun j => (x, i, j))) (v : VelView) :
    ∃ w, treatDegenerateVelocities zheev en threshold numK n order1 order2 v = .ok w ∧
      (∀ ik < numK, ∀ s d, (s, d) ∈ blocks ik → 2 ≤ d → ∀ c < 3, ∀ i j : Fin d, w ik (s + i) (s + j) c =
        (((zheev d (hermitianBlock v ik s c d)).conjTranspose * hermitianBlock v ik s c d *
          zheev d (hermitianBlock v ik s c d) : Matrix (Fin d) (Fin d) ℂ) i j)) ∧
      ∀ ik < numK, ∀ a b c, (∀ s d, (s, d) ∈ blocks ik → 2 ≤ d → ¬ ((s ≤ a ∧ a < s + d) ∧ s ≤ b ∧ b < s + d)) →
        w ik a b c = v ik a b c := by
  have hb : ∀ ik, blocks ik = blocksAt en threshold n ik := fun ik =>
    blocksFrom_unique _ _ _ _ _ 0 (hblocks ik) (blocksAt_spec en threshold n ik)
  obtain ⟨w, e1, e2, e3⟩ := treatAll_val zheev en threshold numK n order1 h1 order2 h2 v (maxDegeneracy en threshold numK n - 1)
  refine ⟨w, e1, ?_, ?_⟩
  · intro ik hk s d hm hd c hc i j
    rw [hb] at hm
    have := block_le_max en threshold numK n ik s d hk hm
    rw [e2 ik s c d hk hd (by omega) hm hc i j, subVelocity_eq, rotateBlock_eq]
  · intro ik hk a b c hnot
    apply e3
    rintro d hd _ ⟨s, hs, _, _, ha, hb'⟩
    rw [← hb] at hs
    exact hnot s d hs hd ⟨ha, hb'⟩

/-- What the eigensolver promises: for a Hermitian matrix, a unitary matrix that makes it diagonal. -/
def IsEigensolver (zheev : (d : Nat) → Matrix (Fin d) (Fin d) ℂ → Matrix (Fin d) (Fin d) ℂ) : Prop :=
  ∀ d (h : Matrix (Fin d) (Fin d) ℂ), h.conjTranspose = h →
    (zheev d h).conjTranspose * zheev d h = 1 ∧ ∀ i j, i ≠ j → ((zheev d h).conjTranspose * h * zheev d h) i j = 0

/-- Such eigensolvers exist. -/
example : ∃ zheev, IsEigensolver zheev := by
  classical
  refine ⟨fun d h => if hh : h.IsHermitian then (hh.eigenvectorUnitary : Matrix (Fin d) (Fin d) ℂ) else 1, ?_⟩
  intro d h hh
  have hh' : h.IsHermitian := hh
  simp only [dif_pos hh']
  refine ⟨Unitary.coe_star_mul_self hh'.eigenvectorUnitary, fun i j hij => ?_⟩
  have := hh'.conjStarAlgAut_star_eigenvectorUnitary
  rw [Unitary.conjStarAlgAut_apply] at this
  have h2 := congrFun (congrFun this i) j
  rw [Matrix.diagonal_apply_ne _ hij] at h2
  simp only [Unitary.coe_star, star_star] at h2
  exact h2

/-- **C87** (physics).  With an eigensolver that keeps its promise, after the treatment the velocity operator is
diagonal and real within each block of degenerate bands, and the sum of the velocities of the block is the same as
before. -/
theorem C87_diagonal (zheev : (d : Nat) → Matrix (Fin d) (Fin d) ℂ → Matrix (Fin d) (Fin d) ℂ) (hz : IsEigensolver zheev)
    (en : Nat → Nat → α) (threshold : α) (numK n : Nat) (blocks : Nat → List (Nat × Nat))
    (hblocks : ∀ ik, Blocks (en ik) threshold n (blocks ik))
    (order1 : Nat → List (Nat × Nat))
    (h1 : ∀ d, (order1 d).Perm ((List.range numK).flatMap fun ik => (List.range n).map fun ib => (ik, ib)))
    (order2 : (d : Nat) → List (Nat × Fin d × Fin d))
    (h2 : ∀ d, (order2 d).Perm ((List.range (3 * numMatrices (degCountView en threshold n) numK n d)).flatMap fun x =>
      (List.finRange d).flatMap fun i => (List.finRange d).map fun j => (x, i, j))) (v : VelView) :
    ∃ w, treatDegenerateVelocities zheev en threshold numK n order1 order2 v = .ok w ∧
      ∀ ik < numK, ∀ s d, (s, d) ∈ blocks ik → 2 ≤ d → ∀ c < 3,
        (∀ i j : Fin d, i ≠ j → w ik (s + i) (s + j) c = 0) ∧ (∀ i : Fin d, (w ik (s + i) (s + i) c).im = 0) ∧
        ∑ i : Fin d, (w ik (s + i) (s + i) c).re = ∑ i : Fin d, (v ik (s + i) (s + i) c).re := by
  obtain ⟨w, e1, e2, _⟩ := C87_schedule zheev en threshold numK n blocks hblocks order1 h1 order2 h2 v
  refine ⟨w, e1, fun ik hk s d hm hd c hc => ?_⟩
  have e := e2 ik hk s d hm hd c hc
  obtain ⟨H, hH⟩ : ∃ H, H = hermitianBlock v ik s c d := ⟨_, rfl⟩
  rw [← hH] at e
  have hherm : H.conjTranspose = H := by
    funext i j
    rw [hH, Matrix.conjTranspose_apply]
    unfold hermitianBlock
    simp only [RCLike.star_def, map_div₀, map_add, Complex.conj_conj, map_ofNat]
    ring
  obtain ⟨z1, z2⟩ := hz d H hherm
  generalize zheev d H = U at *
  refine ⟨fun i j hij => by rw [e]; exact z2 i j hij, fun i => ?_, ?_⟩
  · rw [e]
    have h3 : (U.conjTranspose * H * U).conjTranspose = U.conjTranspose * H * U := by
      rw [Matrix.conjTranspose_mul, Matrix.conjTranspose_mul, Matrix.conjTranspose_conjTranspose, hherm, Matrix.mul_assoc]
    have h4 : (starRingEnd ℂ) ((U.conjTranspose * H * U) i i) = (U.conjTranspose * H * U) i i := by
      conv_rhs => rw [← h3]
      rfl
    exact Complex.conj_eq_iff_im.mp h4
  · have ht : Matrix.trace (U.conjTranspose * H * U) = Matrix.trace H := by
      rw [Matrix.trace_mul_comm, ← Matrix.mul_assoc, mul_eq_one_comm.mp z1, Matrix.one_mul]
    have := congrArg Complex.re ht
    unfold Matrix.trace at this
    rw [Complex.re_sum, Complex.re_sum] at this
    simp only [Matrix.diag_apply] at this
    rw [Finset.sum_congr rfl fun i _ => by rw [e], this]
    refine Finset.sum_congr rfl fun i _ => ?_
    rw [hH]
    unfold hermitianBlock
    rw [Complex.add_conj]
    simp

end Verif.Props
