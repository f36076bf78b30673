import Verif.Proofs.ElFourier5
import Verif.Props.Crystal

/-!
# C99 to C101: the Fourier interpolation of electron bands
-/
namespace Verif.Props
open Verif.Model

/-! ## C99: the interpolated bands go through the bands of the coarse grid -/

/-- What the library promises: it solves the linear systems whose matrix is Hermitian and positive. -/
def SolvesPositive (solve : LinearSolver) : Prop := ∀ (n : Nat) (h : Matrix (Fin n) (Fin n) ℂ) (b : Fin n → ℂ), h.IsHermitian →
  (∀ x, x ≠ 0 → 0 < (star x ⬝ᵥ h.mulVec x).re) → h.mulVec (solve n h b) = b

open Classical in
/-- Such a library exists. -/
example : ∃ solve, SolvesPositive solve := by
  refine ⟨fun n h b => if hx : ∃ x, h.mulVec x = b then hx.choose else 0, fun n h b _ hp => ?_⟩
  have hinj : Function.Injective h.mulVecLin := by
    rw [injective_iff_map_eq_zero]
    intro x hx
    by_contra hne
    have := hp x hne
    rw [Matrix.mulVecLin_apply] at hx
    rw [hx] at this
    simp at this
  have hx : ∃ x, h.mulVec x = b := (LinearMap.injective_iff_surjective.mp hinj) b
  simp only [dif_pos hx]
  exact hx.choose_spec

/-- The interpolation succeeds and at every point of the coarse grid every band has its input energy. -/
def GoesThrough (solve : LinearSolver) (c : Cell) (grid : V3 Int) (offset : V3 Rat) (cutoff : ℝ) : Prop :=
  ∀ (B n : Nat) (energies : Fin B → Fin (n + 1) → ℝ), ((n + 1 : Nat) : Int) = grid.x * grid.y * grid.z →
    ∃ v coefficients, fourierSetup solve c grid offset cutoff energies = .ok (v, coefficients) ∧
      ∀ b (i : Fin (n + 1)),
        (fourierDiagonalize v.vecs coefficients (coarseWavevector c grid offset i.1)).1 b = energies b i

/-- When the lattice vectors found by the search represent all the classes of the lattice modulo the supercell. -/
theorem C99_interpolation_partial (solve : LinearSolver) (hs : SolvesPositive solve) (d : Mat3) (c : Cell)
    (hc : makeCell d = .ok c) (hd : NoShortVectors d) (grid : V3 Int) (hm : PosMesh grid) (offset : V3 Rat)
    (cutoff : ℝ) (h1 : 1 ≤ cutoff) (h2 : cutoff < 2147483648)
    (hcomp : ∀ v, setPositionVectors d grid cutoff = .ok v → LatticeComplete d grid v.vecs) :
    GoesThrough solve c grid offset cutoff := by
  intro B n energies hn
  have hdir : c.direct = d := by
    unfold makeCell at hc
    split at hc
    · cases hc
    · cases hc; rfl
  have hdual : DualCells d c.reciprocal := by
    have := (C69_reciprocal d c hc).1
    rw [hdir] at this
    exact this
  obtain ⟨v, hv, ⟨g, rest, hvecs, hg⟩, hmem⟩ := setPositionVectors_spec d grid hm.1 hm.2.1 hm.2.2 cutoff h1 h2
  have hnx : 1 ≤ ⌊cutoff⌋ := Int.le_floor.mpr (by exact_mod_cast h1)
  have hg1 : g = 1 := by
    rw [origin_degeneracy d hd grid hm.1 hm.2.1 hm.2.2 ⌊cutoff⌋ (by omega)] at hg
    cases hg; rfl
  subst hg1
  have hdeg : ∀ p ∈ v.vecs, 1 ≤ p.2 := by
    intro p hp
    obtain ⟨i, _, _, h⟩ := (hmem p).mp hp
    exact deg_pos d grid ⌊cutoff⌋ (by omega) i p.2 h
  have hpos := fourierH_posDef v.minDistance v.vecs (fun i : Fin (n + 1) => coarseWavevector c grid offset i.1)
    (fun x hx => stars_independent hdual grid hm offset hn v.vecs hdeg (hcomp v hv) x hx)
  have hin : ∀ b, ∃ cf, getCoefficients solve v (fun i : Fin (n + 1) => coarseWavevector c grid offset i.1) (energies b) = .ok cf ∧
      ∀ i : Fin (n + 1), fourierEnergy v.vecs cf (coarseWavevector c grid offset i.1) = energies b i := by
    intro b
    exact interpolates solve v (fun i : Fin (n + 1) => coarseWavevector c grid offset i.1) (energies b) rest hvecs
      (hs n _ _ hpos.1 hpos.2)
  choose cf hcf hcf2 using hin
  refine ⟨v, cf, ?_, fun b i => hcf2 b i⟩
  unfold fourierSetup
  rw [hdir, hv]
  simp only [Outcome.bind_eq, Outcome.bind_ok]
  rw [mapOutcome_ok (g := cf) _ (fun b _ => hcf b)]
  simp only [Outcome.bind_ok, Outcome.ok.injEq, Prod.mk.injEq, true_and]
  funext b
  simp

/-- Orthogonal lattice vectors: the interpolation is exact for every accepted cutoff. -/
theorem C99_orthogonal (solve : LinearSolver) (hs : SolvesPositive solve) (d : Mat3) (c : Cell)
    (hc : makeCell d = .ok c) (hd : NoShortVectors d) (ho : ∀ a b, a ≠ b → ∑ k, d k a * d k b = 0)
    (grid : V3 Int) (hm : PosMesh grid) (offset : V3 Rat) (cutoff : ℝ) (h1 : 1 ≤ cutoff) (h2 : cutoff < 2147483648) :
    GoesThrough solve c grid offset cutoff :=
  C99_interpolation_partial solve hs d c hc hd grid hm offset cutoff h1 h2
    (fun v hv => orthogonal_complete ho grid hm.1 hm.2.1 hm.2.2 cutoff h1 h2 v hv)

/-- A cubic cell with lattice constant two meets the hypotheses of `C99_interpolation_partial` and `C99_orthogonal`. -/
example : ∃ (d : Mat3) (c : Cell), makeCell d = .ok c ∧ NoShortVectors d ∧ (∀ a b, a ≠ b → ∑ k, d k a * d k b = 0) ∧
    d.det ≠ 0 ∧
    ∀ v, setPositionVectors d ⟨2, 2, 3⟩ 1 = .ok v → LatticeComplete d ⟨2, 2, 3⟩ v.vecs := by
  have ho : ∀ a b : Fin 3, a ≠ b → ∑ k, (Matrix.diagonal fun _ => 2 : Mat3) k a * (Matrix.diagonal fun _ => 2 : Mat3) k b = 0 := by
    intro a b hab
    fin_cases a <;> fin_cases b <;> simp_all [Fin.sum_univ_three]
  refine ⟨Matrix.diagonal fun _ => 2, ⟨_, _, _⟩, if_neg ?_, ?_, ho, ?_,
    fun v hv => orthogonal_complete ho ⟨2, 2, 3⟩ (by decide) (by decide) (by decide) 1 le_rfl (by norm_num) v hv⟩
  · simp [calcVolume, vcross, vdot]
    norm_num
  · intro i hi
    have h1 : (1 : ℝ) ≤ vnorm (matVec (Matrix.diagonal fun _ => 2 : Mat3) (toVec i)) ^ 2 := by
      rw [vnorm_sq, orthogonal_norm ho]
      have : 1 ≤ i.x ^ 2 + i.y ^ 2 + i.z ^ 2 := by
        by_contra hlt
        have ex : i.x = 0 := by
          by_contra h; have : 0 < i.x ^ 2 := by positivity
          nlinarith [sq_nonneg i.y, sq_nonneg i.z]
        have ey : i.y = 0 := by
          by_contra h; have : 0 < i.y ^ 2 := by positivity
          nlinarith [sq_nonneg i.x, sq_nonneg i.z]
        have ez : i.z = 0 := by
          by_contra h; have : 0 < i.z ^ 2 := by positivity
          nlinarith [sq_nonneg i.x, sq_nonneg i.y]
        apply hi
        cases i
        simp only at ex ey ez
        rw [ex, ey, ez]
      have h' : (1 : ℝ) ≤ (i.x : ℝ) ^ 2 + (i.y : ℝ) ^ 2 + (i.z : ℝ) ^ 2 := by exact_mod_cast this
      simp [Fin.sum_univ_three, toVec]
      nlinarith
    nlinarith [vnorm_nonneg (matVec (Matrix.diagonal fun _ => 2 : Mat3) (toVec i))]
  · rw [Matrix.det_diagonal]
    simp

/-- Every cell and every grid: the interpolation is exact for all large enough cutoffs. -/
theorem C99_large_cutoff (solve : LinearSolver) (hs : SolvesPositive solve) (d : Mat3) (c : Cell)
    (hc : makeCell d = .ok c) (hdet : d.det ≠ 0) (hd : NoShortVectors d) (grid : V3 Int) (hm : PosMesh grid) :
    ∃ N : ℝ, ∀ (offset : V3 Rat) (cutoff : ℝ), N ≤ cutoff → 1 ≤ cutoff → cutoff < 2147483648 →
      GoesThrough solve c grid offset cutoff := by
  obtain ⟨N, hN⟩ := large_complete hdet grid hm.1 hm.2.1 hm.2.2
  exact ⟨N, fun offset cutoff h0 h1 h2 =>
    C99_interpolation_partial solve hs d c hc hd grid hm offset cutoff h1 h2 (hN cutoff h0 h1 h2)⟩

/-- The distance that scales the roughness of the interpolation is the length of the first lattice vector or of the shortest
of the lattice vectors other than the first one of the list (the zero vector), whichever is smaller. -/
theorem C99_distance (d : Mat3) (grid : V3 Int) (cutoff : ℝ) (v : FourierVectors)
    (h : setPositionVectors d grid cutoff = .ok v) :
    IsLeast {x | x = vnorm (fun i => d i 0) ∨ ∃ p ∈ v.vecs.drop 1, x = vnorm p.1} v.minDistance := by
  have key : ∀ (l : List RVec) (m : ℝ), IsLeast {x | x = m ∨ ∃ p ∈ l, x = vnorm p.1}
      (l.foldl (fun m p => if vnorm p.1 < m then vnorm p.1 else m) m) := by
    intro l
    induction l with
    | nil => intro m; exact ⟨Or.inl rfl, by rintro x (rfl | ⟨p, hp, _⟩); exacts [le_rfl, absurd hp (by simp)]⟩
    | cons a t ih =>
      intro m
      rw [List.foldl_cons]
      obtain ⟨h1, h2⟩ := ih (if vnorm a.1 < m then vnorm a.1 else m)
      have hmin : (if vnorm a.1 < m then vnorm a.1 else m) = min (vnorm a.1) m := by
        split
        · rw [min_eq_left (by linarith)]
        · rw [min_eq_right (by linarith)]
      rw [hmin] at h1 h2 ⊢
      constructor
      · rcases h1 with h | ⟨p, hp, h⟩
        · rcases min_choice (vnorm a.1) m with h' | h'
          · exact Or.inr ⟨a, List.mem_cons_self, h.trans h'⟩
          · exact Or.inl (h.trans h')
        · exact Or.inr ⟨p, List.mem_cons_of_mem _ hp, h⟩
      · have hle := h2 (Or.inl rfl)
        rintro x (rfl | ⟨p, hp, rfl⟩)
        · exact hle.trans (min_le_right _ _)
        · rcases List.mem_cons.mp hp with rfl | hp'
          · exact hle.trans (min_le_left _ _)
          · exact h2 (Or.inr ⟨p, hp', rfl⟩)
  unfold setPositionVectors at h
  split at h
  · cases h
  split at h
  · cases h
  · rw [Outcome.bind_eq_ok_iff] at h
    obtain ⟨l, _, h⟩ := h
    rw [Outcome.bind_eq_ok_iff] at h
    obtain ⟨vecs, _, h⟩ := h
    cases h
    exact key (vecs.drop 1) _

/-- A cutoff below one is refused. -/
theorem C99_refused (solve : LinearSolver) (c : Cell) (grid : V3 Int) (offset : V3 Rat) (cutoff : ℝ) (h : cutoff < 1)
    {B n : Nat} (energies : Fin B → Fin (n + 1) → ℝ) : fourierSetup solve c grid offset cutoff energies = .error := by
  unfold fourierSetup setPositionVectors
  rw [if_neg (by linarith), if_pos h]
  rfl

/-- A skewed cell, `a1 = (1, 0, 0)`, `a2 = (10, 1, 0)`, `a3 = (0, 0, 1)`, a grid of `1 x 2 x 1` points and a cutoff of one:
whatever the library answers, the bands that come out have the energy of the first point at the second one too, so that
they do not go through the data unless the data are flat. -/
theorem C99_violated (solve : LinearSolver) (B : Nat) (energies : Fin B → Fin 2 → ℝ) :
    ∃ c v coefficients, makeCell skewCell = .ok c ∧
      fourierSetup solve c ⟨1, 2, 1⟩ ⟨0, 0, 0⟩ 1 energies = .ok (v, coefficients) ∧
      ∀ b (i : Fin 2), (fourierDiagonalize v.vecs coefficients (coarseWavevector c ⟨1, 2, 1⟩ ⟨0, 0, 0⟩ i.1)).1 b =
        energies b 0 := by
  obtain ⟨c, hc, hdir⟩ := skew_makeCell
  have hdual : DualCells skewCell c.reciprocal := by
    have := (C69_reciprocal skewCell c hc).1
    rw [hdir] at this
    exact this
  obtain ⟨v, hv, ⟨g, rest, hvecs, hg⟩, hmem⟩ := setPositionVectors_spec skewCell ⟨1, 2, 1⟩ (by decide) (by decide) (by decide)
    1 le_rfl (by norm_num)
  have hfl : ⌊(1 : ℝ)⌋ = 1 := by norm_num
  rw [hfl] at hg hmem
  have hg1 : g = 1 := by
    rw [origin_degeneracy skewCell skew_noShort ⟨1, 2, 1⟩ (by decide) (by decide) (by decide) 1 (by decide)] at hg
    cases hg; rfl
  subst hg1
  obtain ⟨kk, hkk⟩ : ∃ kk : Fin 2 → Vec3, kk = fun i => coarseWavevector c ⟨1, 2, 1⟩ ⟨0, 0, 0⟩ i.1 := ⟨_, rfl⟩
  have hstar : ∀ p ∈ v.vecs, ∀ i, starFunction (kk i) p = starFunction (kk 0) p := by
    intro p hp i
    obtain ⟨m, hm, hpe, hdeg⟩ := (hmem p).mp hp
    have hodd := skew_even m hm p.2 hdeg
    unfold wsBox at hm
    rw [mem_zBox] at hm
    simp only at hm
    rw [hkk]
    exact skew_star hdual p m hpe (by omega) i
  have hin : ∀ b, ∃ cf, getCoefficients solve v kk (energies b) = .ok cf ∧
      ∀ i, fourierEnergy v.vecs cf (kk i) = energies b 0 := fun b =>
    flat_energy solve v kk (energies b) rest hvecs hstar
  choose cf hcf hcf2 using hin
  refine ⟨c, v, cf, hc, ?_, fun b i => by have := hcf2 b i; rw [hkk] at this; exact this⟩
  unfold fourierSetup
  rw [hdir, hv]
  simp only [Outcome.bind_eq, Outcome.bind_ok]
  rw [hkk] at hcf
  rw [mapOutcome_ok (g := cf) _ (fun b _ => hcf b)]
  simp only [Outcome.bind_ok, Outcome.ok.injEq, Prod.mk.injEq, true_and]
  funext b
  simp

/-! ## C100: group velocities and periodicity -/

/-- The group velocity is the gradient of the interpolated energy, the velocity operator is diagonal with the group
velocities on its diagonal. -/
theorem C100_gradient {B : Nat} (vecs : List RVec) (coefficients : Fin B → List ℂ) (k : Vec3) (b : Fin B) (i : Fin 3) :
    HasDerivAt (fun t : ℝ => (fourierDiagonalize vecs coefficients (Function.update k i t)).1 b)
      ((fourierDiagonalize vecs coefficients k).2 b b i).re (k i) ∧
    ((fourierDiagonalize vecs coefficients k).2 b b i).im = 0 ∧
    ∀ b', b' ≠ b → (fourierDiagonalize vecs coefficients k).2 b b' i = 0 := by
  refine ⟨?_, ?_, ?_⟩
  · have := energy_hasDeriv vecs (coefficients b) k i (k i)
    rw [Function.update_eq_self] at this
    simp only [fourierDiagonalize, if_true, Complex.ofReal_re]
    exact this
  · simp [fourierDiagonalize]
  · intro b' hb'
    simp only [fourierDiagonalize]
    rw [if_neg hb'.symm]

/-- Energies and velocities are periodic in reciprocal space. -/
theorem C100_periodic (solve : LinearSolver) (d : Mat3) (c : Cell) (hc : makeCell d = .ok c) (grid : V3 Int)
    (hm : PosMesh grid) (offset : V3 Rat) (cutoff : ℝ) {B n : Nat} (energies : Fin B → Fin (n + 1) → ℝ)
    (v : FourierVectors) (coefficients : Fin B → List ℂ)
    (h : fourierSetup solve c grid offset cutoff energies = .ok (v, coefficients)) (k : Vec3) (m : V3 Int) :
    fourierDiagonalize v.vecs coefficients (k + c.crystalToCartesian (toVec m)) = fourierDiagonalize v.vecs coefficients k := by
  have hdir : c.direct = d := by
    unfold makeCell at hc
    split at hc
    · cases hc
    · cases hc; rfl
  have hdual : DualCells c.direct c.reciprocal := (C69_reciprocal d c hc).1
  unfold fourierSetup at h
  rw [Outcome.bind_eq_ok_iff] at h
  obtain ⟨v', hv', h⟩ := h
  rw [Outcome.bind_eq_ok_iff] at h
  obtain ⟨rows, hrows, h⟩ := h
  simp only [Outcome.ok.injEq, Prod.mk.injEq] at h
  obtain ⟨rfl, _⟩ := h
  have h1 : 1 ≤ cutoff := by
    by_contra hlt
    unfold setPositionVectors at hv'
    rw [if_neg (by linarith), if_pos (by linarith)] at hv'
    cases hv'
  have h2 : cutoff < 2147483648 := by
    by_contra hlt
    unfold setPositionVectors at hv'
    rw [if_pos (not_lt.mp hlt)] at hv'
    cases hv'
  obtain ⟨v'', hv'', _, hmem⟩ := setPositionVectors_spec c.direct grid hm.1 hm.2.1 hm.2.2 cutoff h1 h2
  rw [hv'] at hv''
  cases hv''
  have hp := fun b => energy_periodic hdual v'.vecs (coefficients b) k m (fun p hp => by
    obtain ⟨i, _, hi, _⟩ := (hmem p).mp hp
    exact ⟨i, hi⟩)
  unfold fourierDiagonalize Cell.crystalToCartesian
  simp only [(hp _).1, (hp _).2]

/-! ## C101: bands in a window of energies -/

/-- The bands that are kept are those with an energy in the window, in their order. -/
theorem C101_kept {α β : Type} [Field α] [LinearOrder α] (lo hi : α) (so : Bool) (bands : List (List α × β)) (n n' : α)
    (rows : List β) (h : trimBands lo hi so bands n = .ok (rows, n')) :
    rows = (bands.filter fun b => decide (∃ x ∈ b.1, lo ≤ x ∧ x ≤ hi)).map Prod.snd := by
  rw [trimBands_val] at h
  have e : (fun b : List α × β => keepBand lo hi b.1) = fun b => decide (∃ x ∈ b.1, lo ≤ x ∧ x ≤ hi) := by
    funext b
    rw [Bool.eq_iff_iff, keepBand_iff, decide_eq_true_iff]
  split at h
  · cases h
  · cases h; rw [e]

/-- The electrons that the new number of occupied states counts are those of the bands that are kept, for every
occupation that is one below the window and zero above it: the chemical potential does not move.  What is missing:
bands that jump across the window between two points (`C101_violated_jump`) and windows without bands
(`C101_violated_empty`). -/
theorem C101_electrons_partial {α β : Type} [Field α] [LinearOrder α] [IsStrictOrderedRing α] (lo hi : α) (so : Bool)
    (bands : List (List α × β)) (occ : α → α) (hlow : ∀ x, x < lo → occ x = 1) (hhigh : ∀ x, hi < x → occ x = 0)
    (K : Nat) (hlen : ∀ b ∈ bands, b.1.length = K)
    (hsort : bands.Pairwise fun b b' => ∀ (k : Nat) x y, b.1[k]? = some x → b'.1[k]? = some y → x ≤ y)
    (hjump : ∀ b ∈ bands, (∃ x ∈ b.1, lo ≤ x ∧ x ≤ hi) ∨ (∀ x ∈ b.1, x < lo) ∨ (∀ x ∈ b.1, hi < x))
    (hsome : ∃ b ∈ bands, ∃ x ∈ b.1, lo ≤ x ∧ x ≤ hi) :
    ∃ rows n', trimBands lo hi so bands (bandFilling occ (if so then 1 else 2) bands) = .ok (rows, n') ∧
      n' = bandFilling occ (if so then 1 else 2) (bands.filter fun b => decide (∃ x ∈ b.1, lo ≤ x ∧ x ≤ hi)) := by
  have e : (fun b : List α × β => keepBand lo hi b.1) = fun b => decide (∃ x ∈ b.1, lo ≤ x ∧ x ≤ hi) := by
    funext b
    rw [Bool.eq_iff_iff, keepBand_iff, decide_eq_true_iff]
  rw [trimBands_val]
  cases hf : (List.range bands.length).find? (fun ib => keepBand lo hi ((bands[ib]?.map Prod.fst).getD [])) with
  | none =>
    exfalso
    obtain ⟨b, hb, hx⟩ := hsome
    obtain ⟨i, hi', rfl⟩ := List.getElem_of_mem hb
    have := List.find?_eq_none.mp hf i (List.mem_range.mpr hi')
    rw [List.getElem?_eq_getElem hi', Option.map_some, Option.getD_some, keepBand_iff] at this
    exact this hx
  | some f =>
    refine ⟨_, _, rfl, ?_⟩
    rw [trim_filling lo hi occ _ hlow hhigh bands K hlen hsort hjump f hf, e]
    ring

/-- Bands that meet the hypotheses: one below, one in and one above the window. -/
example : let bands : List (List ℚ × Nat) := [([1, 2], 0), ([5, 3], 1), ([9, 8], 2)]
    (∀ b ∈ bands, b.1.length = 2) ∧
    (bands.Pairwise fun b b' => ∀ (k : Nat) x y, b.1[k]? = some x → b'.1[k]? = some y → x ≤ y) ∧
    (∀ b ∈ bands, (∃ x ∈ b.1, 4 ≤ x ∧ x ≤ 6) ∨ (∀ x ∈ b.1, x < 4) ∨ (∀ x ∈ b.1, 6 < x)) ∧
    ∃ b ∈ bands, ∃ x ∈ b.1, 4 ≤ x ∧ x ≤ 6 := by
  refine ⟨by decide +kernel, ?_, by norm_num, by norm_num⟩
  simp only [List.pairwise_cons, List.mem_cons, List.not_mem_nil, or_false, forall_eq_or_imp, forall_eq]
  refine ⟨⟨?_, ?_⟩, ?_, ?_, List.Pairwise.nil⟩
  all_goals first
    | (intro k x y h1 h2
       rcases k with _ | _ | k
       · simp at h1 h2; subst h1 h2; norm_num
       · simp at h1 h2; subst h1 h2; norm_num
       · simp at h1)
    | simp

/-- No band in the window: the first element of an empty vector is read. -/
theorem C101_violated_empty {α β : Type} [Field α] [LinearOrder α] (lo hi : α) (so : Bool) (bands : List (List α × β)) (n : α)
    (h : ∀ b ∈ bands, ∀ x ∈ b.1, ¬ (lo ≤ x ∧ x ≤ hi)) : trimBands lo hi so bands n = .ub := by
  rw [trimBands_val]
  have : (List.range bands.length).find? (fun ib => keepBand lo hi ((bands[ib]?.map Prod.fst).getD [])) = none := by
    rw [List.find?_eq_none]
    intro i hi'
    rw [List.getElem?_eq_getElem (List.mem_range.mp hi'), Option.map_some, Option.getD_some, keepBand_iff]
    rintro ⟨x, hx, hx2⟩
    exact h _ (List.getElem_mem _) x hx hx2
  rw [this]

/-- Two points, two bands: `5, 0` and `10, 1`, window from four to six, states below `11/2` occupied: the two bands hold
three electrons.  The second band is removed and its electron stays in the count. -/
theorem C101_violated_jump :
    let occ : ℚ → ℚ := fun x => if x < 11 / 2 then 1 else 0
    let bands : List (List ℚ × Nat) := [([5, 0], 0), ([10, 1], 1)]
    bandFilling occ 2 bands = 3 ∧ trimBands 4 6 false bands 3 = .ok ([0], 3) ∧
    bandFilling occ 2 [(([5, 0] : List ℚ), 0)] = 2 := by
  refine ⟨?_, ?_, ?_⟩
  · norm_num [bandFilling]
  · rw [trimBands_val]
    have : (List.range ([([5, 0], 0), ([10, 1], 1)] : List (List ℚ × Nat)).length).find? (fun ib => keepBand 4 6
        ((([([5, 0], 0), ([10, 1], 1)] : List (List ℚ × Nat))[ib]?.map Prod.fst).getD [])) = some 0 := by decide +kernel
    rw [this]
    have e : ([([5, 0], 0), ([10, 1], 1)] : List (List ℚ × Nat)).filter (fun b => keepBand 4 6 b.1) = [([5, 0], 0)] := by
      decide +kernel
    simp [e]
  · norm_num [bandFilling]

end Verif.Props
