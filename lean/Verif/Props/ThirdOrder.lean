import Verif.Proofs.ThirdOrder
import Mathlib.Tactic.IntervalCases

/-! # C193: the three-phonon couplings do not depend on the program that computed the third-order force constants -/
namespace Verif.Props
open Verif.Model Verif.Spec Verif.Proofs

/-- **C193, ShengBTE.** From a file whose triplets share the force constants of the supercell among any of their images, the couplings at wavevectors that fit
the supercell are the squared moduli of the sum over the supercell.  Missing: files with different numbers of second and third cells
(`C193_violated_cells`). -/
theorem C193_sheng_partial {A : Nat} (hA : (A : Int) * 3 ≤ intMax + 1) (d : Mat3) (hap : LatticeApart d) (N : V3 Int) (hN : 0 < N.x ∧ 0 < N.y ∧ 0 < N.z)
    (Phi : ForceConstants A) (bohr ryd : ℝ) (hb : bohr ≠ 0) (newline : Bool)
    (ls : List (LatticeTriplet A)) (hshare : SharedAmong N Phi ls) (honce : ListedOnce ls) (hlen : 27 * (ls.length : Int) ≤ intMax)
    (hsame : numCells ((ls.map (LatticeTriplet.inAngstrom d bohr)).map Triplet.cell2) = numCells ((ls.map (LatticeTriplet.inAngstrom d bohr)).map Triplet.cell3))
    (batch : List CouplingInput) (hne : batch ≠ []) (q2 : Fin 3 → ℝ) (h2 : FitsSupercell N d q2) (h1 : ∀ x ∈ batch, FitsSupercell N d x.q1)
    (ev2 : Nat → Nat → ℂ) (nb2 : Nat) :
    ∃ o res, parseSheng A bohr ryd newline (shengFile (ls.map (LatticeTriplet.inAngstrom d bohr))) = .ok o ∧
      getCouplingsSquared (o.cacheD3 q2) batch q2 ev2 nb2 = .ok res ∧
      res.length = batch.length ∧ ∀ (k : Nat) (x : CouplingInput) (t : Tensor3 × Tensor3), batch[k]? = some x → res[k]? = some t →
      IsSuperCoupling t.1 x.nb1 nb2 x.nb3Plus N d (bohr ^ 3 / ryd) Phi 1 q2 (fun i => x.q1 i + q2 i) x.ev1 ev2 x.ev3Plus ∧
      IsSuperCoupling t.2 x.nb1 nb2 x.nb3Mins N d (bohr ^ 3 / ryd) Phi (-1) q2 (fun i => x.q1 i - q2 i) x.ev1
        (fun a b => (starRingEnd ℂ) (ev2 a b)) x.ev3Mins := by
  obtain ⟨o, res, r1, r2, r3, r4⟩ := C149_couplings_partial hA bohr ryd hb newline (ls.map (LatticeTriplet.inAngstrom d bohr)) (by simpa using hlen)
    (not_same hap hb honce) (cells_apart hap hb ls).1 (cells_apart hap hb ls).2 hsame batch hne q2 ev2 nb2
  refine ⟨o, res, r1, r2, r3, fun k x t hx ht => ?_⟩
  have hq1 := h1 x (List.mem_of_getElem? hx)
  obtain ⟨⟨a1, a2, a3, a4⟩, ⟨b1, b2, b3, b4⟩⟩ := r4 k x t hx ht
  refine ⟨⟨a1, a2, a3, fun n1 m1 n2 m2 n3 m3 => ?_⟩, ⟨b1, b2, b3, fun n1 m1 n2 m2 n3 m3 => ?_⟩⟩
  · rw [a4 n1 m1 n2 m2 n3 m3]
    have := tripletCoupling_super hN d bohr ryd hb ls Phi hshare 1 h2 (fits_add hq1 h2) (fun a => x.ev1 a n1) (fun a => ev2 a n2) (fun a => x.ev3Plus a n3)
    simp only [Int.cast_one] at this
    rw [this]
  · rw [b4 n1 m1 n2 m2 n3 m3]
    have := tripletCoupling_super hN d bohr ryd hb ls Phi hshare (-1) h2 (fits_sub hq1 h2) (fun a => x.ev1 a n1) (fun a => (starRingEnd ℂ) (ev2 a n2))
      (fun a => x.ev3Mins a n3)
    simp only [Int.cast_neg, Int.cast_one] at this
    rw [this]

/-- **C193, phono3py.** From the files of phono3py, the couplings at wavevectors that fit the supercell are the squared moduli of the sum over the supercell.
Missing: supercells with images on the border of the Wigner-Seitz cell (`C193_violated_ties`). -/
theorem C193_phono3py_partial {A : Nat} (hA : 0 < A) (d : Mat3) (hap : LatticeApart d) (pos : Fin A → Fin 3 → ℝ) (N : V3 Int)
    (order : List (V3 Int)) (ho : IsOrder N order) (hint : ((A * order.length : Nat) : Int) ≤ intMax)
    (hclear : ∀ b b', ClearDistances (fun k i => d i k) (fun i => pos b' i - pos b i) (asFun N))
    (hnear : ∀ b b', NearestInside (fun k i => d i k) (fun i => pos b' i - pos b i) N)
    (frac : Fin A → Fin 3 → ℝ) (bohr ryd : ℝ) (f : DispFile) (hdisp : f.Describes N d frac order bohr) (newline : Bool) (hn : newline = true ∨ f.post ≠ [])
    (Phi : ForceConstants A) (hP : PeriodicFc N Phi) (fc : Fc3File) (hf : IsFc3File order Phi fc)
    (batch : List CouplingInput) (hne : batch ≠ []) (q2 : Fin 3 → ℝ) (h2 : FitsSupercell N d q2) (h1 : ∀ x ∈ batch, FitsSupercell N d x.q1)
    (ev2 : Nat → Nat → ℂ) (nb2 : Nat) :
    ∃ o res, parsePhono3py d pos bohr ryd newline f.lines fc = .ok o ∧
      getCouplingsSquared (o.cacheD3 q2) batch q2 ev2 nb2 = .ok res ∧
      res.length = batch.length ∧ ∀ (k : Nat) (x : CouplingInput) (t : Tensor3 × Tensor3), batch[k]? = some x → res[k]? = some t →
      IsSuperCoupling t.1 x.nb1 nb2 x.nb3Plus N d (bohr ^ 3 / ryd) Phi 1 q2 (fun i => x.q1 i + q2 i) x.ev1 ev2 x.ev3Plus ∧
      IsSuperCoupling t.2 x.nb1 nb2 x.nb3Mins N d (bohr ^ 3 / ryd) Phi (-1) q2 (fun i => x.q1 i - q2 i) x.ev1
        (fun a b => (starRingEnd ℂ) (ev2 a b)) x.ev3Mins := by
  have hN := (order_length ho).1
  obtain ⟨o, r1, r2⟩ := C150_squared_weight hA d hap pos N order ho hint hclear frac bohr ryd f hdisp newline hn Phi hP fc hf
  have hg : ∃ res, getCouplingsSquared (o.cacheD3 q2) batch q2 ev2 nb2 = .ok res := by
    unfold getCouplingsSquared
    rw [if_neg hne]
    exact ⟨_, rfl⟩
  obtain ⟨res, hr⟩ := hg
  obtain ⟨r3, r4⟩ := r2 batch q2 ev2 nb2 res hr
  refine ⟨o, res, r1, hr, r3, fun k x t hx ht => ?_⟩
  have hq1 := h1 x (List.mem_of_getElem? hx)
  obtain ⟨⟨a1, a2, a3, a4⟩, ⟨b1, b2, b3, b4⟩⟩ := r4 k x t hx ht
  refine ⟨⟨a1, a2, a3, fun n1 m1 n2 m2 n3 m3 => ?_⟩, ⟨b1, b2, b3, fun n1 m1 n2 m2 n3 m3 => ?_⟩⟩
  · rw [a4 n1 m1 n2 m2 n3 m3]
    have := weightedCoupling_super hN hnear (bohr ^ 3 / ryd) Phi hP 1 h2 (fits_add hq1 h2) (fun a => x.ev1 a n1) (fun a => ev2 a n2) (fun a => x.ev3Plus a n3)
      2 two_ne_zero
    simp only [Int.cast_one] at this
    rw [this]
  · rw [b4 n1 m1 n2 m2 n3 m3]
    have := weightedCoupling_super hN hnear (bohr ^ 3 / ryd) Phi hP (-1) h2 (fits_sub hq1 h2) (fun a => x.ev1 a n1) (fun a => (starRingEnd ℂ) (ev2 a n2))
      (fun a => x.ev3Mins a n3) 2 two_ne_zero
    simp only [Int.cast_neg, Int.cast_one] at this
    rw [this]

/-- **C193, same couplings.** If a file of ShengBTE and the files of phono3py describe the same crystal, the couplings of all the bands at wavevectors that fit the
supercell are the same. -/
theorem C193_same_partial {A : Nat} (hA : 0 < A) (hA' : (A : Int) * 3 ≤ intMax + 1) (d : Mat3) (hap : LatticeApart d) (pos : Fin A → Fin 3 → ℝ) (N : V3 Int)
    (order : List (V3 Int)) (ho : IsOrder N order) (hint : ((A * order.length : Nat) : Int) ≤ intMax)
    (hclear : ∀ b b', ClearDistances (fun k i => d i k) (fun i => pos b' i - pos b i) (asFun N))
    (hnear : ∀ b b', NearestInside (fun k i => d i k) (fun i => pos b' i - pos b i) N)
    (frac : Fin A → Fin 3 → ℝ) (bohr ryd : ℝ) (hb : bohr ≠ 0) (f : DispFile) (hdisp : f.Describes N d frac order bohr) (newline newline' : Bool)
    (hn : newline = true ∨ f.post ≠ [])
    (Phi : ForceConstants A) (hP : PeriodicFc N Phi) (fc : Fc3File) (hf : IsFc3File order Phi fc)
    (ls : List (LatticeTriplet A)) (hshare : SharedAmong N Phi ls) (honce : ListedOnce ls) (hlen : 27 * (ls.length : Int) ≤ intMax)
    (hsame : numCells ((ls.map (LatticeTriplet.inAngstrom d bohr)).map Triplet.cell2) = numCells ((ls.map (LatticeTriplet.inAngstrom d bohr)).map Triplet.cell3))
    (batch : List CouplingInput) (hne : batch ≠ []) (q2 : Fin 3 → ℝ) (h2 : FitsSupercell N d q2) (h1 : ∀ x ∈ batch, FitsSupercell N d x.q1)
    (ev2 : Nat → Nat → ℂ) (nb2 : Nat) :
    ∃ o o' res res', parsePhono3py d pos bohr ryd newline f.lines fc = .ok o ∧
      parseSheng A bohr ryd newline' (shengFile (ls.map (LatticeTriplet.inAngstrom d bohr))) = .ok o' ∧
      getCouplingsSquared (o.cacheD3 q2) batch q2 ev2 nb2 = .ok res ∧ getCouplingsSquared (o'.cacheD3 q2) batch q2 ev2 nb2 = .ok res' ∧
      res.length = batch.length ∧ res'.length = batch.length ∧
      ∀ (k : Nat) (x : CouplingInput) (t t' : Tensor3 × Tensor3), batch[k]? = some x → res[k]? = some t → res'[k]? = some t' →
        (∀ b1 < x.nb1, ∀ b2 < nb2, ∀ b3 < x.nb3Plus, t.1.val b1 b2 b3 = t'.1.val b1 b2 b3) ∧
        (∀ b1 < x.nb1, ∀ b2 < nb2, ∀ b3 < x.nb3Mins, t.2.val b1 b2 b3 = t'.2.val b1 b2 b3) := by
  obtain ⟨o, res, r1, r2, r3, r4⟩ := C193_phono3py_partial hA d hap pos N order ho hint hclear hnear frac bohr ryd f hdisp newline hn Phi hP fc hf batch hne q2 h2 h1
    ev2 nb2
  obtain ⟨o', res', s1, s2, s3, s4⟩ := C193_sheng_partial hA' d hap N (order_length ho).1 Phi bohr ryd hb newline' ls hshare honce hlen hsame batch hne q2 h2 h1
    ev2 nb2
  refine ⟨o, o', res, res', r1, s1, r2, s2, r3, s3, fun k x t t' hx ht ht' => ⟨?_, ?_⟩⟩
  · intro b1 c1 b2 c2 b3 c3
    rw [(r4 k x t hx ht).1.2.2.2 b1 c1 b2 c2 b3 c3, (s4 k x t' hx ht').1.2.2.2 b1 c1 b2 c2 b3 c3]
  · intro b1 c1 b2 c2 b3 c3
    rw [(r4 k x t hx ht).2.2.2.2 b1 c1 b2 c2 b3 c3, (s4 k x t' hx ht').2.2.2.2 b1 c1 b2 c2 b3 c3]

/-! ## An example: one atom, three cells of a cubic lattice -/

theorem nearest_three : NearestInside (fun k i => unitCubic i k) 0 ⟨3, 1, 1⟩ := by
  intro n
  have hc : ∃ x : ℤ, (x = 0 ∨ x = 1 ∨ x = -1) ∧ (3 : ℤ) ∣ x - n.x := by
    have := Int.emod_emod_of_dvd n.x (by norm_num : (3 : ℤ) ∣ 3)
    rcases (by omega : n.x % 3 = 0 ∨ n.x % 3 = 1 ∨ n.x % 3 = 2) with h | h | h
    · exact ⟨0, by simp, by omega⟩
    · exact ⟨1, by simp, by omega⟩
    · exact ⟨-1, by simp, by omega⟩
  obtain ⟨x, hx, hd⟩ := hc
  refine ⟨⟨x, 0, 0⟩, ⟨hd, one_dvd _, one_dvd _⟩, ⟨by simp only; omega, by simp only; omega⟩, by simp, by simp, fun g hg => ?_⟩
  rw [cubic_dist2, cubic_dist2]
  have h : (x ^ 2 + 0 ^ 2 + 0 ^ 2 : ℤ) < (x - 3 * g 0) ^ 2 + (0 - 1 * g 1) ^ 2 + (0 - 1 * g 2) ^ 2 := by
    by_cases h0 : g 0 = 0
    · rw [h0]
      have : g 1 ≠ 0 ∨ g 2 ≠ 0 := by
        by_contra hc
        push Not at hc
        exact hg (by funext k; fin_cases k; exacts [h0, hc.1, hc.2])
      rcases this with h1 | h1
      · nlinarith [sq_nonneg (g 2), sq_pos_of_ne_zero h1]
      · nlinarith [sq_nonneg (g 1), sq_pos_of_ne_zero h1]
    · nlinarith [fold_three x (g 0) hx h0, sq_nonneg (g 1), sq_nonneg (g 2)]
  simpa [asFun] using (Int.cast_lt (R := ℝ)).mpr h

/-- A force constant among three images of the atom in the same cell, in two of the three cells. -/
noncomputable def thirdFc : ForceConstants 1 := fun _ _ n _ m _ _ _ => if n.x % 3 = m.x % 3 ∧ n.x % 3 ≠ 2 then 1 else 0

/-- It is the whole force constant of the home cell, and is shared by two images of the next cell. -/
noncomputable def thirdTriplets : List (LatticeTriplet 1) :=
  [⟨⟨0, 0, 0⟩, ⟨0, 0, 0⟩, 0, 0, 0, fun _ _ _ => 1⟩, ⟨⟨1, 0, 0⟩, ⟨1, 0, 0⟩, 0, 0, 0, fun _ _ _ => 1 / 2⟩,
    ⟨⟨-2, 0, 0⟩, ⟨-2, 0, 0⟩, 0, 0, 0, fun _ _ _ => 1 / 2⟩]

theorem third_shared : SharedAmong ⟨3, 1, 1⟩ thirdFc thirdTriplets := by
  intro b1 b2 b3 n m i j k
  obtain rfl : b1 = 0 := Subsingleton.elim _ _
  obtain rfl : b2 = 0 := Subsingleton.elim _ _
  obtain rfl : b3 = 0 := Subsingleton.elim _ _
  have e0 (x : ℤ) : (3 : ℤ) ∣ 0 - x ↔ x % 3 = 0 := by omega
  have e1 (x : ℤ) : (3 : ℤ) ∣ 1 - x ↔ x % 3 = 1 := by omega
  have e2 (x : ℤ) : (3 : ℤ) ∣ -2 - x ↔ x % 3 = 1 := by omega
  simp only [thirdTriplets, thirdFc, List.filter_cons, List.filter_nil, SameImage, isUnit_one, IsUnit.dvd, and_true, true_and, decide_eq_true_eq, e0, e1, e2]
  rcases (by omega : n.x % 3 = 0 ∨ n.x % 3 = 1 ∨ n.x % 3 = 2) with h | h | h <;>
  rcases (by omega : m.x % 3 = 0 ∨ m.x % 3 = 1 ∨ m.x % 3 = 2) with h' | h' | h' <;>
    norm_num [h, h']

theorem third_once : ListedOnce thirdTriplets := by
  unfold ListedOnce thirdTriplets
  simp

example : ∃ (order : List (V3 Int)) (fc : Fc3File) (f : DispFile) (q : Fin 3 → ℝ), LatticeApart unitCubic ∧ IsOrder ⟨3, 1, 1⟩ order ∧
    (∀ b b' : Fin 1, ClearDistances (fun k i => unitCubic i k) (fun i => (fun (_ : Fin 1) (_ : Fin 3) => (0 : ℝ)) b' i - (fun (_ : Fin 1) (_ : Fin 3) => (0 : ℝ)) b i) (asFun ⟨3, 1, 1⟩)) ∧
    (∀ b b' : Fin 1, NearestInside (fun k i => unitCubic i k) (fun i => (fun (_ : Fin 1) (_ : Fin 3) => (0 : ℝ)) b' i - (fun (_ : Fin 1) (_ : Fin 3) => (0 : ℝ)) b i) ⟨3, 1, 1⟩) ∧
    f.Describes ⟨3, 1, 1⟩ unitCubic (fun (_ : Fin 1) _ => 0) order 1 ∧ PeriodicFc ⟨3, 1, 1⟩ thirdFc ∧ IsFc3File order thirdFc fc ∧
    SharedAmong ⟨3, 1, 1⟩ thirdFc thirdTriplets ∧ ListedOnce thirdTriplets ∧
    numCells ((thirdTriplets.map (LatticeTriplet.inAngstrom unitCubic 1)).map Triplet.cell2) =
      numCells ((thirdTriplets.map (LatticeTriplet.inAngstrom unitCubic 1)).map Triplet.cell3) ∧
    FitsSupercell ⟨3, 1, 1⟩ unitCubic q ∧ q 0 = 2 * Real.pi / 3 := by
  refine ⟨[⟨0, 0, 0⟩, ⟨1, 0, 0⟩, ⟨2, 0, 0⟩], ⟨3, 3, 3, fun _ s2 s3 _ _ _ => if s2 = s3 ∧ s2 ≠ 2 then 1 else 0, [0]⟩, _, ![2 * Real.pi / 3, 0, 0], cubic_apart,
    ⟨by decide, rfl, ?_⟩, fun b b' => cubic_clear _ (by decide) _ (by funext i; simp), fun b b' => ?_, sample_describes _ _ _ _ _ one_ne_zero, ?_,
    ⟨rfl, rfl, rfl, rfl, ?_⟩, third_shared, third_once, rfl, ?_, by simp⟩
  · rintro ⟨x, y, z⟩
    simp only [List.mem_cons, V3.mk.injEq, List.not_mem_nil, or_false]
    omega
  · have : (fun (_ : Fin 3) => (0 : ℝ) - 0) = 0 := by funext i; simp
    simp only [this]
    exact nearest_three
  · intro b1 b2 b3 n n' m m' hx _ _ hx' _ _
    simp only at hx hx'
    have h1 : n.x % 3 = n'.x % 3 := by omega
    have h2 : m.x % 3 = m'.x % 3 := by omega
    funext i j k
    simp only [thirdFc, h1, h2]
  · intro b1 b2 b3 s2 s3 c2 c3 h2 h3
    rw [Subsingleton.elim b2 0, Subsingleton.elim b3 0]
    have l2 := (List.getElem?_eq_some_iff.mp h2).1
    have l3 := (List.getElem?_eq_some_iff.mp h3).1
    simp only [List.length_cons, List.length_nil] at l2 l3
    interval_cases s2 <;> interval_cases s3 <;>
      simp only [List.getElem?_cons_zero, List.getElem?_cons_succ, Option.some.injEq] at h2 h3 <;> subst h2 <;> subst h3 <;>
      (funext i j k; norm_num [thirdFc])
  · intro k
    fin_cases k
    · exact ⟨1, by simp [asFun, scal, unitCubic]; ring⟩
    · exact ⟨0, by simp [asFun, scal, unitCubic]⟩
    · exact ⟨0, by simp [asFun, scal, unitCubic]⟩

/-! ## Violations -/

/-- The force constants of `sampleFc` in four triplets. -/
noncomputable def tiedTriplets : List (LatticeTriplet 1) :=
  [⟨⟨0, 0, 0⟩, ⟨1, 0, 0⟩, 0, 0, 0, fun i j k => if i = 0 ∧ j = 0 ∧ k = 0 then 1 else 0⟩, ⟨⟨1, 0, 0⟩, ⟨1, 0, 0⟩, 0, 0, 0, fun i j k => if i = 0 ∧ j = 0 ∧ k = 0 then 1 else 0⟩,
    ⟨⟨0, 0, 0⟩, ⟨0, 0, 0⟩, 0, 0, 0, fun _ _ _ => 0⟩, ⟨⟨1, 0, 0⟩, ⟨0, 0, 0⟩, 0, 0, 0, fun _ _ _ => 0⟩]

theorem tied_shared : SharedAmong ⟨2, 1, 1⟩ sampleFc tiedTriplets := by
  intro b1 b2 b3 n m i j k
  obtain rfl : b1 = 0 := Subsingleton.elim _ _
  obtain rfl : b2 = 0 := Subsingleton.elim _ _
  obtain rfl : b3 = 0 := Subsingleton.elim _ _
  have e0 (x : ℤ) : (2 : ℤ) ∣ 0 - x ↔ x % 2 = 0 := by omega
  have e1 (x : ℤ) : (2 : ℤ) ∣ 1 - x ↔ x % 2 = 1 := by omega
  simp only [tiedTriplets, sampleFc, List.filter_cons, List.filter_nil, SameImage, isUnit_one, IsUnit.dvd, and_true, true_and, decide_eq_true_eq, e0, e1]
  rcases (by omega : n.x % 2 = 0 ∨ n.x % 2 = 1) with h | h <;>
  rcases (by omega : m.x % 2 = 0 ∨ m.x % 2 = 1) with h' | h' <;>
    simp [h, h']

theorem two_triplets_shared : SharedAmong ⟨2, 1, 1⟩ sampleFc (tiedTriplets.take 2) := by
  intro b1 b2 b3 n m i j k
  obtain rfl : b1 = 0 := Subsingleton.elim _ _
  obtain rfl : b2 = 0 := Subsingleton.elim _ _
  obtain rfl : b3 = 0 := Subsingleton.elim _ _
  have e0 (x : ℤ) : (2 : ℤ) ∣ 0 - x ↔ x % 2 = 0 := by omega
  have e1 (x : ℤ) : (2 : ℤ) ∣ 1 - x ↔ x % 2 = 1 := by omega
  simp only [tiedTriplets, List.take_succ_cons, List.take_zero, sampleFc, List.filter_cons, List.filter_nil, SameImage, isUnit_one, IsUnit.dvd, and_true, true_and, decide_eq_true_eq, e0, e1]
  rcases (by omega : n.x % 2 = 0 ∨ n.x % 2 = 1) with h | h <;>
  rcases (by omega : m.x % 2 = 0 ∨ m.x % 2 = 1) with h' | h' <;>
    simp [h, h']

theorem numCells_two : numCells ((tiedTriplets.map (LatticeTriplet.inAngstrom unitCubic 1)).map Triplet.cell2) =
    numCells ((tiedTriplets.map (LatticeTriplet.inAngstrom unitCubic 1)).map Triplet.cell3) := by
  unfold numCells
  congr 1
  ext c
  simp only [tiedTriplets, List.map_cons, List.map_nil, LatticeTriplet.inAngstrom, List.mem_cons, List.not_mem_nil, or_false, Set.mem_setOf_eq]
  tauto

/-- **C193 is violated** by supercells with images on the border of the Wigner-Seitz cell: the same crystal has the coupling 4 with the file of ShengBTE and 1
with the files of phono3py. -/
theorem C193_violated_ties : SharedAmong ⟨2, 1, 1⟩ sampleFc tiedTriplets ∧ IsFc3File [⟨0, 0, 0⟩, ⟨1, 0, 0⟩] sampleFc sampleFile ∧
    ∃ (o o' : Coupling3Ph) (t t' : Tensor3 × Tensor3),
    parseSheng 1 1 1 true (shengFile (tiedTriplets.map (LatticeTriplet.inAngstrom unitCubic 1))) = .ok o ∧
    parsePhono3py unitCubic (fun (_ : Fin 1) _ => 0) 1 1 true (sampleDisp ⟨2, 1, 1⟩ unitCubic (fun (_ : Fin 1) _ => 0) [⟨0, 0, 0⟩, ⟨1, 0, 0⟩] 1).lines
      sampleFile = .ok o' ∧
    getCouplingsSquared (o.cacheD3 fun _ => 0) [sampleInput] (fun _ => 0) (fun a _ => if a = 0 then 1 else 0) 1 = .ok [t] ∧
    getCouplingsSquared (o'.cacheD3 fun _ => 0) [sampleInput] (fun _ => 0) (fun a _ => if a = 0 then 1 else 0) 1 = .ok [t'] ∧
    t.1.val 0 0 0 = 4 ∧ t'.1.val 0 0 0 = 1 := by
  refine ⟨tied_shared, sample_file, ?_⟩
  obtain ⟨o', t', p1, p2, p3, _⟩ := C150_violated_weight
  have hfit : FitsSupercell ⟨2, 1, 1⟩ unitCubic (fun _ => 0) := fun k => ⟨0, by simp [scal]⟩
  obtain ⟨o, res, s1, s2, s3, s4⟩ := C193_sheng_partial (A := 1) (by decide) unitCubic cubic_apart ⟨2, 1, 1⟩ (by decide) sampleFc 1 1 one_ne_zero true tiedTriplets
    tied_shared (by unfold ListedOnce tiedTriplets; simp) (by simp [tiedTriplets, intMax]) numCells_two [sampleInput] (by simp) (fun _ => 0) hfit
    (by simp [sampleInput, hfit]) (fun a _ => if a = 0 then 1 else 0) 1
  obtain ⟨t, rfl⟩ := List.length_eq_one_iff.mp s3
  refine ⟨o, o', t, t', s1, p1, s2, p2, ?_, p3⟩
  rw [(s4 0 sampleInput t rfl rfl).1.2.2.2 0 (by decide) 0 (by decide) 0 (by decide)]
  have : superCoupling ⟨2, 1, 1⟩ unitCubic (1 ^ 3 / 1) sampleFc 1 (fun _ => 0) (fun i => sampleInput.q1 i + 0) (fun a => sampleInput.ev1 a 0)
      (fun a => if a = 0 then 1 else 0) (fun a => sampleInput.ev3Plus a 0) = 2 := by
    have hs : superCells ⟨2, 1, 1⟩ = {(0, 0, 0), (1, 0, 0)} := by decide
    unfold superCoupling scal
    simp only [hs, Finset.univ_unique, Finset.sum_singleton, Fin.sum_univ_three]
    simp [sampleInput, sampleFc]
  rw [this]
  norm_num [Complex.normSq_apply]

/-- **C193 is violated** by files of ShengBTE with different numbers of second and third cells: with the first two of these triplets, which share the same
force constants, the tensor is accessed outside of its memory. -/
theorem C193_violated_cells : SharedAmong ⟨2, 1, 1⟩ sampleFc (tiedTriplets.take 2) ∧ ListedOnce (tiedTriplets.take 2) ∧
    parseSheng 1 1 1 true (shengFile ((tiedTriplets.take 2).map (LatticeTriplet.inAngstrom unitCubic 1))) = .ub := by
  refine ⟨two_triplets_shared, by unfold ListedOnce tiedTriplets; simp, C149_violated_cells one_pos 1 1 one_ne_zero true _ (by simp [tiedTriplets, intMax]) ?_⟩
  · have h : (fun i => latVec unitCubic ⟨0, 0, 0⟩ i * 1 : Fin 3 → ℝ) ≠ fun i => latVec unitCubic ⟨1, 0, 0⟩ i * 1 := by
      intro h
      have := cellVec_inj cubic_apart one_ne_zero h
      simp at this
    simp only [numCells, tiedTriplets, List.take_succ_cons, List.take_zero, List.map_cons, List.map_nil, LatticeTriplet.inAngstrom]
    have e2 : {c | c ∈ [(fun i => latVec unitCubic ⟨0, 0, 0⟩ i * 1 : Fin 3 → ℝ), fun i => latVec unitCubic ⟨1, 0, 0⟩ i * 1]} =
        {(fun i => latVec unitCubic ⟨0, 0, 0⟩ i * 1), fun i => latVec unitCubic ⟨1, 0, 0⟩ i * 1} := by ext c; simp
    have e3 : {c | c ∈ [(fun i => latVec unitCubic ⟨1, 0, 0⟩ i * 1 : Fin 3 → ℝ), fun i => latVec unitCubic ⟨1, 0, 0⟩ i * 1]} =
        {(fun i => latVec unitCubic ⟨1, 0, 0⟩ i * 1 : Fin 3 → ℝ)} := by ext c; simp
    rw [e2, e3, Set.ncard_pair h, Set.ncard_singleton]
    norm_num

end Verif.Props
