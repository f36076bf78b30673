import Verif.Spec.BandsFile
import Verif.Props.DynMat
import Verif.Props.FullStore
import Verif.Props.Path
import Verif.Model.BandsFile

/-! # Lemmas on the files of the band structure -/
namespace Verif.Proofs
open Verif.Model Verif.Spec Verif.Props

theorem ofFn_eq_range {β : Type} (n : Nat) (g : Nat → β) : (List.range n).map g = List.ofFn fun i : Fin n => g i := by
  apply List.ext_getElem
  · simp
  · intro i h1 h2; simp

theorem readAt_map_range {β : Type} (n : Nat) (g : Nat → β) (i : Nat) (h : i < n) :
    readAt ((List.range n).map g) i = .ok (g i) := by
  unfold readAt
  rw [List.getElem?_eq_getElem (by simpa using h)]
  simp

theorem energiesAt_val {H : HamView Vec3 ℝ ℂ} {F : FullBands ℝ ℂ} {k : Vec3} {rank ik : Nat} (conv : ℝ)
    (h : EnergiesAt F H k rank ik) :
    energiesAt F conv rank ik = .ok ((List.range F.numBands).map fun ib => H.energy k ib * conv) := by
  unfold energiesAt
  rw [h.2.2]
  simp only [Outcome.bind_eq, Outcome.bind_ok]
  apply mapOutcome_eq_map
  intro ib hib
  rw [readAt_map_range _ _ _ (List.mem_range.mp hib)]
  rfl

theorem displacementsAt_val {H : HamView Vec3 ℝ ℂ} {F : FullBands ℝ ℂ} {k : Vec3} {rank ik : Nat} (ang : ℝ)
    (h : VectorsAt F H k rank ik) :
    displacementsAt F ang rank ik = .ok ((List.range F.numBands).map fun ib => (List.range (F.numBands / 3)).map fun ia =>
      (List.range 3).map fun ic => H.vector k (3 * ia + ic) ib * (ang : ℂ)) := by
  unfold displacementsAt
  rw [h.2]
  simp only [Outcome.bind_eq, Outcome.bind_ok]
  apply mapOutcome_eq_map
  intro ib hib
  apply mapOutcome_eq_map
  intro ia hia
  apply mapOutcome_eq_map
  intro ic hic
  rw [readAt_map_range _ _ _ (List.mem_range.mp hic), Outcome.bind_ok, readAt_map_range _ _ _ (List.mem_range.mp hia),
    Outcome.bind_ok, readAt_map_range _ _ _ (List.mem_range.mp hib)]
  rfl

/-- The file of the modes. -/
noncomputable def modesOf (H : HamView Vec3 ℝ ℂ) (nb np : Nat) (coords : Nat → Vec3) (ang : ℝ) (c : AtomsView) :
    ModesPart :=
  ⟨(List.range np).map fun ik => (List.range nb).map fun ib => (List.range (nb / 3)).map fun ia =>
      (List.range 3).map fun ic => H.vector (coords ik) (3 * ia + ic) ib * (ang : ℂ),
    List.ofFn fun i => List.ofFn fun j => c.cell i j * ang,
    c.positions.map fun p => (List.ofFn p).map (· * ang), c.names⟩

theorem modesPart_val {H : HamView Vec3 ℝ ℂ} {F : FullBands ℝ ℂ} {coords : Nat → Vec3} {rank np : Nat} (ang : ℝ)
    (c : AtomsView) (h : ∀ ik < np, VectorsAt F H (coords ik) rank ik) (hc : c.positions.length = F.numBands / 3) :
    modesPart F ang c rank np = .ok (modesOf H F.numBands np coords ang c) := by
  have h1 := mapOutcome_eq_map (displacementsAt F ang rank)
    (fun ik => (List.range F.numBands).map fun ib => (List.range (F.numBands / 3)).map fun ia =>
      (List.range 3).map fun ic => H.vector (coords ik) (3 * ia + ic) ib * (ang : ℂ)) (List.range np)
    (fun ik hik => displacementsAt_val ang (h ik (List.mem_range.mp hik)))
  have h2 := mapOutcome_eq_map (fun ia => do
      let p ← readAt c.positions ia
      Outcome.ok ((List.ofFn p).map (· * ang)))
    (fun ia => (List.ofFn (c.positions.getD ia 0)).map (· * ang)) (List.range (F.numBands / 3)) (by
      intro ia hia
      have : ia < c.positions.length := by rw [hc]; exact List.mem_range.mp hia
      unfold readAt
      rw [List.getElem?_eq_getElem this]
      simp [this, Outcome.bind_eq])
  have h3 : (List.range (F.numBands / 3)).map (fun ia => (List.ofFn (c.positions.getD ia 0)).map (· * ang)) =
      c.positions.map fun p => (List.ofFn p).map (· * ang) := by
    apply List.ext_getElem
    · simp [hc]
    · intro i g1 g2
      simp at g2
      simp [g2]
  unfold modesPart
  rw [h1]
  simp only [Outcome.bind_eq, Outcome.bind_ok] at h2 ⊢
  rw [h2, h3]
  rfl

/-- The file of the bands. -/
noncomputable def fileOf (H : HamView Vec3 ℝ ℂ) (nb : Nat) (coords : Nat → Vec3) (ry ang : ℝ) (phonon want : Bool)
    (c : AtomsView) (segs : List Segment) (pts : List (V3 ℝ)) (idx : List Nat) : BandsFile :=
  ⟨List.range pts.length, pts.map V3.toList, (pathEnds segs).map (·.2), idx, (pathEnds segs).map (fun e => e.1.toList), nb,
    (List.range pts.length).map (fun ik => (List.range nb).map fun ib =>
      H.energy (coords ik) ib * (if phonon then 1000 * ry else ry)),
    if phonon then "phonon" else "electron", if phonon then "meV" else "eV",
    if want && phonon then some (modesOf H nb pts.length coords ang c) else none⟩

theorem output_val {H : HamView Vec3 ℝ ℂ} {F : FullBands ℝ ℂ} {coords : Nat → Vec3} (ry ang : ℝ) (phonon want : Bool)
    (c : AtomsView) (segs : List Segment) (pts : List (V3 ℝ)) (idx : List Nat)
    (hi : highSymIndices segs pts = .ok idx)
    (he : ∀ ik < pts.length, EnergiesAt F H (coords ik) 0 ik)
    (hv : (want && phonon) = true → ∀ ik < pts.length, VectorsAt F H (coords ik) 0 ik)
    (hc : (want && phonon) = true → c.positions.length = F.numBands / 3) :
    outputBandsToJSON ry ang phonon want c segs pts F 0 =
      .ok (some (fileOf H F.numBands coords ry ang phonon want c segs pts idx)) := by
  have h1 := mapOutcome_eq_map (energiesAt F (if phonon then 1000 * ry else ry) 0)
    (fun ik => (List.range F.numBands).map fun ib => H.energy (coords ik) ib * (if phonon then 1000 * ry else ry))
    (List.range pts.length) (fun ik hik => energiesAt_val _ (he ik (List.mem_range.mp hik)))
  have h2 : modesIf (want && phonon) F ang c 0 pts.length =
      .ok (if want && phonon then some (modesOf H F.numBands pts.length coords ang c) else none) := by
    unfold modesIf
    cases hw : want && phonon
    · rfl
    · rw [if_pos rfl, modesPart_val ang c (hv hw) (hc hw)]
      rfl
  unfold outputBandsToJSON
  rw [if_neg (by simp), hi]
  simp only [Outcome.bind_eq, Outcome.bind_ok]
  rw [h1, Outcome.bind_ok, h2]
  rfl

theorem forall2_map {β γ : Type} (g : β → γ) (R : β → γ → Prop) (h : ∀ b, R b (g b)) (l : List β) :
    List.Forall₂ R l (l.map g) := by
  induction l with
  | nil => exact .nil
  | cons b t ih => exact .cons (h b) ih

theorem phonon_run (ry ang : ℝ) (want : Bool) (nb : Nat) (H : HamView Vec3 ℝ ℂ) (cell : Cell) (wrap : Vec3 → Vec3)
    (c : AtomsView) (segs : List Segment) (delta : ℝ) (batchSize : Int)
    (sched : List FullStore × List FullStore → List FullStore) (size rank : Nat) (pts : List (V3 ℝ))
    (hp : pathPoints segs delta = .ok pts) (hle : size ≤ pts.length) (hr : rank < size) (hb : 0 < nb) (h3 : 3 ∣ nb)
    (hfit : ((pts.length * nb : Nat) : Int) ≤ intMax) (hfit' : ((nb * nb * 3 : Nat) : Int) ≤ intMax)
    (hbatch : 0 < batchSize) (hs : GoodSched sched) :
    ∃ F : FullBands ℝ ℂ, F.numBands = nb ∧ (∀ ik < pts.length, EnergiesAt F H (pathWave cell wrap pts ik) rank ik) ∧
      (want = true → ∀ ik < pts.length, VectorsAt F H (pathWave cell wrap pts ik) rank ik) ∧
      phononBandsApp ry ang want nb H cell wrap c segs delta batchSize sched size rank =
        outputBandsToJSON ry ang true want c segs pts F rank := by
  obtain ⟨F, iks, e1, e2, e3⟩ := C165_values size rank nb pts.length hb hle hr hfit hfit' true false want false
    (fun _ => h3) H (pathWave cell wrap pts) Complex.re
  obtain ⟨F0, iks0, g1, g2, _, g4⟩ := C165_wavevectors (α := ℝ) (γ := ℂ) size nb pts.length (by omega) hb hle true false want
    false (fun _ => h3)
  rw [e1, Outcome.ok.injEq] at g1
  subst g1
  have hiks : iks = List.range pts.length := by
    have h := g2 rank hr
    rw [e2, Outcome.ok.injEq] at h
    rw [h, g4 rfl rank hr]
  have hne : iks ≠ [] := by
    rw [hiks]
    intro h
    have := congrArg List.length h
    simp at this
    rw [this] at hle
    simp at hle
    omega
  have hbig : iks.length ≤ 1073741823 := by
    rw [hiks, List.length_range]
    obtain ⟨m, rfl⟩ := h3
    have hm : 1 ≤ m := by omega
    have : pts.length * 3 ≤ pts.length * (3 * m) := Nat.mul_le_mul_left _ (by omega)
    have h4 : ((pts.length * (3 * m) : Nat) : Int) ≤ 2147483647 := hfit
    omega
  obtain ⟨bs, b1, b2⟩ := C165_phonon_partial false want batchSize iks hne hbatch hbig
  obtain ⟨F', r1, r2, _, _, _, r6, _⟩ := e3 _ (b2 (bs.map sched) (forall2_map sched _ (fun b => hs b) bs))
  have hmem : ∀ ik < pts.length, ik ∈ iks := fun ik h => by rw [hiks]; exact List.mem_range.mpr h
  refine ⟨F', r2, fun ik h => (r6 ik (hmem ik h)).1, fun hw ik h => (r6 ik (hmem ik h)).2.2 hw, ?_⟩
  unfold phononBandsApp
  rw [hp]
  simp only [Outcome.bind_eq, Outcome.bind_ok]
  rw [e1, Outcome.bind_ok, e2, Outcome.bind_ok, b1, Outcome.bind_ok, r1, Outcome.bind_ok]

theorem electron_run (ry ang : ℝ) (fourier want : Bool) (nb : Nat) (H : HamView Vec3 ℝ ℂ) (cell : Cell)
    (wrap : Vec3 → Vec3) (c : AtomsView) (segs : List Segment) (delta : ℝ)
    (sched : List FullStore → List FullStore) (size rank : Nat) (pts : List (V3 ℝ))
    (hp : pathPoints segs delta = .ok pts) (hle : size ≤ pts.length) (hr : rank < size) (hb : 0 < nb)
    (hfit : ((pts.length * nb : Nat) : Int) ≤ intMax) (hfit' : ((nb * nb * 3 : Nat) : Int) ≤ intMax)
    (hs : ∀ l, (sched l).Perm l) :
    ∃ F : FullBands ℝ ℂ, F.numBands = nb ∧ (∀ ik < pts.length, EnergiesAt F H (pathWave cell wrap pts ik) rank ik) ∧
      electronBandsApp ry ang fourier want nb H cell wrap c segs delta sched size rank =
        outputBandsToJSON ry ang false want c segs pts F rank := by
  obtain ⟨F, iks, e1, e2, e3⟩ := C165_values size rank nb pts.length hb hle hr hfit hfit' false false false false
    (by simp) H (pathWave cell wrap pts) Complex.re
  obtain ⟨F0, iks0, g1, g2, _, g4⟩ := C165_wavevectors (α := ℝ) (γ := ℂ) size nb pts.length (by omega) hb hle false false
    false false (by simp)
  rw [e1, Outcome.ok.injEq] at g1
  subst g1
  have hiks : iks = List.range pts.length := by
    have h := g2 rank hr
    rw [e2, Outcome.ok.injEq] at h
    rw [h, g4 rfl rank hr]
  have hcov : CoversPoints false false iks
      (if fourier then fourierStores false iks else sched (wannierStores false false iks)) := by
    cases fourier
    · exact C165_wannier false false iks _ (hs _)
    · exact C165_fourier_partial false iks
  obtain ⟨F', r1, r2, _, _, _, r6, _⟩ := e3 _ hcov
  have hmem : ∀ ik < pts.length, ik ∈ iks := fun ik h => by rw [hiks]; exact List.mem_range.mpr h
  refine ⟨F', r2, fun ik h => (r6 ik (hmem ik h)).1, ?_⟩
  unfold electronBandsApp
  rw [hp]
  simp only [Outcome.bind_eq, Outcome.bind_ok]
  rw [e1, Outcome.bind_ok, e2, Outcome.bind_ok, r1, Outcome.bind_ok]

/-! ### Modes of the phonons -/

variable {A n1 n2 n3 : Nat}

/-- The frequencies and the displacements of the device. -/
noncomputable def freqOf [NeZero n1] [NeZero n2] [NeZero n3] (eig : EigenSolver A) (c : PhCrystal A)
    (f : FcVec A n1 n2 n3) (k : Vec3) (s : Fin (A * 3)) : ℝ := (diagonalizeFromCoordinates eig c f k true).1 s

noncomputable def dispOf [NeZero n1] [NeZero n2] [NeZero n3] (eig : EigenSolver A) (c : PhCrystal A)
    (f : FcVec A n1 n2 n3) (k : Vec3) (s : Fin (A * 3)) (a : Fin A) (i : Fin 3) : ℂ :=
  (diagonalizeFromCoordinates eig c f k true).2 (a, i) s

theorem modes_of_device [NeZero n1] [NeZero n2] [NeZero n3] (eig : EigenSolver A) (he : GoodSolver eig) (c : PhCrystal A)
    (hm : ∀ a, 0 < c.mass a) (f : FcVec A n1 n2 n3) (k : Vec3) :
    IsModes (dynMatrix c f k) c.mass (freqOf eig c f k) (dispOf eig c f k) := by
  obtain ⟨h1, h2⟩ := C93_scaled eig he c hm f k
  constructor
  · exact (C93_plain eig he c f k).1
  · intro s a i
    have h := congrFun (congrFun h2 (a, i)) s
    rw [Matrix.mul_diagonal, Matrix.diagonal_mul, Matrix.mul_apply, Fintype.sum_prod_type] at h
    unfold freqOf dispOf
    rw [mul_right_comm, ← h]
    rfl
  · intro s t
    have h := congrFun (congrFun h1 s) t
    rw [Matrix.mul_apply, Fintype.sum_prod_type, Matrix.one_apply] at h
    rw [← h]
    refine Finset.sum_congr rfl fun a _ => Finset.sum_congr rfl fun i _ => ?_
    rw [Matrix.mul_diagonal, Matrix.conjTranspose_apply]
    rfl

theorem dynMatrix_same [NeZero n1] [NeZero n2] [NeZero n3] (c : PhCrystal A) (hdual : c.Dual) (hd : ¬ c.hasDielectric)
    (f : FcVec A n1 n2 n3) (k q : Vec3) (h : SameModLattice c.recip k q) : dynMatrix c f k = dynMatrix c f q := by
  obtain ⟨n, hn⟩ := h
  have e := shortRange_periodic c hdual f q ⟨n 0, n 1, n 2⟩
  have hk : k = fun i => q i + latVec c.recip ⟨n 0, n 1, n 2⟩ i := by
    funext i
    rw [hn i, Fin.sum_univ_three]
    rfl
  unfold dynMatrix
  rw [if_neg hd, if_neg hd, add_zero, add_zero, ← e, hk]
  rfl

theorem view_energy [NeZero n1] [NeZero n2] [NeZero n3] (eig : EigenSolver A) (c : PhCrystal A)
    (f : FcVec A n1 n2 n3) (order : List Vec3) (ho : order.Perm (c.gVectors n1 n2 n3)) (k : Vec3) (s : Fin (A * 3)) :
    (phononView eig c f order).energy k s = freqOf eig c f k s := by
  unfold phononView freqOf
  simp only [s.2, dif_pos]
  rw [C94_device eig c f order ho k true]

theorem view_vector [NeZero n1] [NeZero n2] [NeZero n3] (eig : EigenSolver A) (c : PhCrystal A)
    (f : FcVec A n1 n2 n3) (order : List Vec3) (ho : order.Perm (c.gVectors n1 n2 n3)) (k : Vec3) (s : Fin (A * 3))
    (a : Fin A) (i : Fin 3) : (phononView eig c f order).vector k (3 * a + i) s = dispOf eig c f k s a i := by
  have h : 3 * (a : Nat) + i < A * 3 := by omega
  unfold phononView dispOf
  simp only [s.2, h, and_self, dif_pos]
  rw [C94_device eig c f order ho k true]
  refine congrArg₂ (fun (x : Fin A) (y : Fin 3) => (diagonalizeFromCoordinates eig c f k true).2 (x, y) s)
    (Fin.ext ?_) (Fin.ext ?_)
  · show (3 * (a : Nat) + i) / 3 = a
    omega
  · show (3 * (a : Nat) + i) % 3 = i
    omega

end Verif.Proofs
