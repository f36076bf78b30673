import Verif.Proofs.DosApp
import Verif.Props.BandsFile

/-! # C178: the files of the density of states -/
namespace Verif.Props
open Verif.Model Verif.Spec Verif.Proofs

/-- The sizes fit the integers of the program, and there are at least as many points as processes. -/
structure DosFits (mesh : V3 Int) (nb : Nat) (minEnergy maxEnergy delta : ℝ) (size : Nat) : Prop where
  some : 0 < size
  points : size ≤ (mesh.x * mesh.y * mesh.z).toNat
  states : (((mesh.x * mesh.y * mesh.z).toNat * nb : Nat) : Int) ≤ intMax
  bands : ((nb * nb * 3 : Nat) : Int) ≤ intMax
  work : (mesh.x * mesh.y * mesh.z).toNat * size < sizeTMod
  energies : (maxEnergy - minEnergy) / delta < intMax
  energyWork : (⌊(maxEnergy - minEnergy) / delta⌋.toNat + 1) * size < sizeTMod

/-- Without rotations a point is related to itself only. -/
theorem related_one {mesh : V3 Int} (hm : PosMesh mesh) {i j : Nat} (hi : i < meshSize mesh) (hj : j < meshSize mesh)
    (h : SymRelated [M3.one] (fun k => meshCoordinates mesh ⟨0, 0, 0⟩ ((k : Nat) : Int)) i j) : i = j := by
  obtain ⟨R, hR, g, hg⟩ := h
  obtain rfl := List.mem_singleton.mp hR
  rw [one_mulVec] at hg
  have hz := (meshSize_pos hm).2.1
  have h1 := C12_lookup mesh ⟨0, 0, 0⟩ hm j ⟨by omega, by omega⟩ g
  have h2 := C12_lookup mesh ⟨0, 0, 0⟩ hm i ⟨by omega, by omega⟩ ⟨0, 0, 0⟩
  have h3 : translate (meshCoordinates mesh ⟨0, 0, 0⟩ (i : Int)) ⟨0, 0, 0⟩ = meshCoordinates mesh ⟨0, 0, 0⟩ (i : Int) := by
    simp [translate]
  rw [h3] at h2
  simp only at hg
  rw [hg, h1] at h2
  omega

theorem one_group : IsPointGroup [M3.one] := by
  refine ⟨rfl, ?_, ?_, ?_⟩
  · intro R hR g
    obtain rfl := List.mem_singleton.mp hR
    exact ⟨g, one_mulVec _⟩
  · intro R hR S hS
    obtain rfl := List.mem_singleton.mp hR
    obtain rfl := List.mem_singleton.mp hS
    exact ⟨M3.one, by simp, fun v => by rw [one_mulVec, one_mulVec]⟩
  · intro R hR
    obtain rfl := List.mem_singleton.mp hR
    exact ⟨M3.one, by simp, fun v => by rw [one_mulVec, one_mulVec]⟩

theorem one_meshSym (mesh : V3 Int) : MeshSym [M3.one] mesh := by
  intro R hR i hi
  obtain rfl := List.mem_singleton.mp hR
  exact ⟨i, hi, by rw [one_mulVec]; exact equivalent_refl _⟩

/-- **C178 without symmetries.** For every Hamiltonian periodic in the reciprocal lattice, every mesh, every number of
processes and every order of the threads, the run ends with a file that lists the energies from the smallest to the largest
in equal steps, and at each the density of states of the tetrahedra that fill the Brillouin zone, in the units it names. -/
theorem C178_value_partial (k : TimeConstants) (hk : GoodConstants k) (h : Filler) (nb : Nat) (hb : 0 < nb)
    (hgood : GoodFiller nb h) (H : HamView Vec3 ℝ ℂ) (cell : Cell) (wrap : Vec3 → Vec3)
    (hw : ∀ q, SameModLattice cell.reciprocal (wrap q) q)
    (hH : ∀ k q, SameModLattice cell.reciprocal k q → H.energy k = H.energy q) (mesh : V3 Int) (hm : PosMesh mesh)
    (minEnergy maxEnergy delta : ℝ) (hdel : 0 < delta) (hle : minEnergy ≤ maxEnergy) (size : Nat)
    (hfit : DosFits mesh nb minEnergy maxEnergy delta size) :
    ∃ (file : DosFile) (n : Nat),
      dosApp k h nb H cell wrap [M3.one] mesh minEnergy maxEnergy delta size = .ok file ∧
      (∀ i : Nat, i < n ↔ minEnergy + i * delta ≤ maxEnergy) ∧
      file.energies = (List.range n).map (fun i : Nat => (minEnergy + i * delta) * rydbergIn k h.isPhonon) ∧
      file.dos = (List.range n).map
        (fun i : Nat => meshDos mesh nb (bandsOf cell H) (minEnergy + i * delta) / rydbergIn k h.isPhonon) ∧
      file.particle = (if h.isPhonon then "phonon" else "electron") ∧
      file.energyUnit = (if h.isPhonon then "meV" else "eV") ∧ file.dosUnit = (if h.isPhonon then "1/meV" else "1/eV") := by
  obtain ⟨s, mult, s1, s2, s3, s4⟩ := dos_run k hk h nb hb hgood H cell wrap hw hH [M3.one] one_group mesh hm
    (one_meshSym mesh) minEnergy maxEnergy delta hdel hle size hfit.some hfit.points hfit.states hfit.bands hfit.work
    hfit.energies hfit.energyWork
  have hd : ∀ e, tetraDos mesh nb (fun ik b => H.energy (meshWave cell wrap mesh ik) b)
      (s.irrPointsIterator (meshSize mesh)) mult e = .ok (meshDos mesh nb (bandsOf cell H) e) := by
    intro e
    rw [tetraDos_val s3]
    congr 1
    unfold meshDos
    rw [← (meshSize_pos hm).2.1, Int.cast_natCast]
    congr 1
    obtain ⟨ml, m1, m2⟩ := C20_weighted_sum (dosSetup one_group hm (one_meshSym mesh) hfit.some hfit.work) none s s1
      (fun ik => ∑ b ∈ Finset.range nb, tetraSmearing (cellEnergies mesh (bandsOf cell H) ik b) e)
      (fun i j hi hj hij => by rw [related_one hm hi hj hij])
    show _ = ∑ ik ∈ Finset.range (meshSize mesh), ∑ b ∈ Finset.range nb,
      tetraSmearing (cellEnergies mesh (bandsOf cell H) ik b) e
    rw [← List.toFinset_range (meshSize mesh), List.sum_toFinset _ List.nodup_range, ← m2]
    congr 1
    apply List.map_congr_left
    intro ik hik
    obtain ⟨l, l1, l2⟩ := s2 ik hik
    rw [m1 ik hik, Outcome.ok.injEq] at l1
    rw [← l2, ← l1, nsmul_eq_mul, Finset.mul_sum]
    exact Finset.sum_congr rfl fun b _ => mul_comm _ _
  obtain ⟨n, n1, n2⟩ := s4 _ hd
  exact ⟨_, n, n2, n1, rfl, rfl, rfl, rfl, rfl⟩

section
variable {A n1 n2 n3 : Nat} [NeZero n1] [NeZero n2] [NeZero n3]

/-- **C178, phonons without symmetries of a crystal that is not polar.** The bands in the density of states are the
frequencies of all the normal modes of the crystal. -/
theorem C178_phonons_partial (k : TimeConstants) (hk : GoodConstants k) (eig : EigenSolver A) (he : GoodSolver eig)
    (c : PhCrystal A) (hA : 0 < A) (hmass : ∀ a, 0 < c.mass a) (hd : ¬ c.hasDielectric) (f : FcVec A n1 n2 n3)
    (order : List Vec3) (ho : order.Perm (c.gVectors n1 n2 n3))
    (cell : Cell) (hcell : makeCell c.cell = .ok cell) (hrec : c.recip = cell.reciprocal)
    (wrap : Vec3 → Vec3) (hw : ∀ q, SameModLattice cell.reciprocal (wrap q) q) (batchSize : Int) (hbatch : 0 < batchSize)
    (sched : Nat → List FullStore × List FullStore → List FullStore) (hs : ∀ rank, GoodSched (sched rank))
    (mesh : V3 Int) (hm : PosMesh mesh) (minEnergy maxEnergy delta : ℝ) (hdel : 0 < delta) (hle : minEnergy ≤ maxEnergy)
    (size : Nat) (hfit : DosFits mesh (A * 3) minEnergy maxEnergy delta size) :
    ∃ (file : DosFile) (n : Nat) (w : V3 Rat → Nat → ℝ),
      dosApp k (.phonon batchSize sched) (A * 3) (phononView eig c f order) cell wrap [M3.one] mesh minEnergy maxEnergy delta
        size = .ok file ∧
      (∀ p, ∃ u, IsModes (dynMatrix c f (cartesianOf c.recip ⟨p.x, p.y, p.z⟩)) c.mass (fun s : Fin (A * 3) => w p s) u) ∧
      (∀ i : Nat, i < n ↔ minEnergy + i * delta ≤ maxEnergy) ∧ file.energyUnit = "meV" ∧ file.dosUnit = "1/meV" ∧
      file.energies = (List.range n).map (fun i : Nat => (minEnergy + i * delta) * rydbergIn k true) ∧
      file.dos = (List.range n).map (fun i : Nat => meshDos mesh (A * 3) w (minEnergy + i * delta) / rydbergIn k true) := by
  have hdual : c.Dual := by
    intro i j
    have hdir : c.cell = cell.direct := by
      unfold makeCell at hcell
      split at hcell
      · cases hcell
      · rw [← Outcome.ok.inj hcell]
    rw [hrec, hdir]
    exact (C69_reciprocal c.cell cell hcell).1 i j
  have hH : ∀ k q, SameModLattice cell.reciprocal k q → (phononView eig c f order).energy k =
      (phononView eig c f order).energy q := by
    intro k q hkq
    have hdyn := dynMatrix_same c hdual hd f k q (by rw [hrec]; exact hkq)
    funext b
    by_cases hb : b < A * 3
    · have h1 := view_energy eig c f order ho k ⟨b, hb⟩
      have h2 := view_energy eig c f order ho q ⟨b, hb⟩
      simp only at h1 h2
      rw [h1, h2]
      unfold freqOf diagonalizeFromCoordinates
      rw [hdyn]
    · unfold phononView
      simp only [hb, dif_neg, not_false_eq_true]
  obtain ⟨file, n, f1, f2, f3, f4, _, f6, f7⟩ := C178_value_partial k hk (.phonon batchSize sched) (A * 3) (by omega)
    ⟨hbatch, hs, ⟨A, by omega⟩⟩ (phononView eig c f order) cell wrap hw hH mesh hm minEnergy maxEnergy delta hdel hle size hfit
  refine ⟨file, n, bandsOf cell (phononView eig c f order), f1, fun p => ?_, f2, f6, f7, f3, f4⟩
  refine ⟨dispOf eig c f (cartesianOf c.recip ⟨p.x, p.y, p.z⟩), ?_⟩
  have e : (fun s : Fin (A * 3) => bandsOf cell (phononView eig c f order) p s) =
      freqOf eig c f (cartesianOf c.recip ⟨p.x, p.y, p.z⟩) := by
    funext s
    unfold bandsOf
    rw [view_energy eig c f order ho, hrec]
  rw [e]
  exact modes_of_device eig he c hmass f _
end

/-- **C178, with any symmetries.** The run ends with a file that lists the same energies; the density of states is never
negative, and it is zero above and below all the bands. -/
theorem C178_range (k : TimeConstants) (hk : GoodConstants k) (h : Filler) (nb : Nat) (hb : 0 < nb)
    (hgood : GoodFiller nb h) (H : HamView Vec3 ℝ ℂ) (cell : Cell) (wrap : Vec3 → Vec3)
    (hw : ∀ q, SameModLattice cell.reciprocal (wrap q) q)
    (hH : ∀ k q, SameModLattice cell.reciprocal k q → H.energy k = H.energy q) (rots : List M3) (hg : IsPointGroup rots)
    (mesh : V3 Int) (hm : PosMesh mesh) (hsym : MeshSym rots mesh)
    (minEnergy maxEnergy delta : ℝ) (hdel : 0 < delta) (hle : minEnergy ≤ maxEnergy) (size : Nat)
    (hfit : DosFits mesh nb minEnergy maxEnergy delta size) :
    ∃ (file : DosFile) (n : Nat) (d : ℝ → ℝ),
      dosApp k h nb H cell wrap rots mesh minEnergy maxEnergy delta size = .ok file ∧
      (∀ i : Nat, i < n ↔ minEnergy + i * delta ≤ maxEnergy) ∧
      file.energies = (List.range n).map (fun i : Nat => (minEnergy + i * delta) * rydbergIn k h.isPhonon) ∧
      file.dos = (List.range n).map (fun i : Nat => d (minEnergy + i * delta) / rydbergIn k h.isPhonon) ∧
      (∀ e, 0 ≤ d e) ∧
      ∀ e, ((∀ p, ∀ b < nb, bandsOf cell H p b < e) ∨ ∀ p, ∀ b < nb, e < bandsOf cell H p b) → d e = 0 := by
  obtain ⟨s, mult, s1, s2, s3, s4⟩ := dos_run k hk h nb hb hgood H cell wrap hw hH rots hg mesh hm hsym minEnergy maxEnergy
    delta hdel hle size hfit.some hfit.points hfit.states hfit.bands hfit.work hfit.energies hfit.energyWork
  choose d d1 d2 d3 using C137_range s3 nb
  obtain ⟨n, n1, n2⟩ := s4 d d1
  exact ⟨_, n, d, n2, n1, rfl, rfl, d2, d3⟩

/-- More processes than points of the mesh are refused. -/
theorem C178_refused (k : TimeConstants) (h : Filler) (nb : Nat) (H : HamView Vec3 ℝ ℂ) (cell : Cell) (wrap : Vec3 → Vec3)
    (rots : List M3) (hg : IsPointGroup rots) (mesh : V3 Int) (hm : PosMesh mesh) (hsym : MeshSym rots mesh)
    (minEnergy maxEnergy delta : ℝ) (size : Nat) (hs : (mesh.x * mesh.y * mesh.z).toNat < size)
    (hfit : (mesh.x * mesh.y * mesh.z).toNat * size < sizeTMod) :
    dosApp k h nb H cell wrap rots mesh minEnergy maxEnergy delta size = .error := by
  obtain ⟨s, hs0, _⟩ := C18_stars (dosSetup hg hm hsym (show 0 < size by omega) hfit) none
  have hs0' : dosPoints rots mesh size 0 = .ok s := hs0
  obtain ⟨m, rfl⟩ : ∃ m, size = m + 1 := ⟨size - 1, by omega⟩
  unfold dosApp
  rw [List.range_succ_eq_map]
  unfold mapOutcome
  rw [hs0']
  have : dosBands h nb H cell wrap mesh (m + 1) 0 = .error := by
    unfold dosBands
    rw [C165_too_many (α := ℝ) (γ := ℂ) (m + 1) nb _ h.isPhonon false false false hs]
    rfl
  simp only [Outcome.bind_eq, Outcome.bind_ok]
  rw [this]
  rfl

/-! ### Violations -/

/-- A band of nearest neighbours along a line in a cubic cell. -/
noncomputable def lineBand : HamView Vec3 ℝ ℂ := ⟨fun q _ => 1 - Real.cos (q 0), fun _ _ _ => 0, fun _ _ _ _ => 0⟩

/-- The cubic cell with side one. -/
noncomputable def unitCell : Cell := ⟨1, calcReciprocalCell 1, 1⟩

theorem unitCell_reciprocal (i j : Fin 3) : unitCell.reciprocal i j = if i = j then 2 * Real.pi else 0 := by
  show calcReciprocalCell 1 i j = _
  unfold calcReciprocalCell inverse3
  fin_cases i <;> fin_cases j <;> norm_num [Matrix.one_apply] <;> first | rfl | (simp [Fin.ext_iff])

theorem unitCell_bands (p : V3 Rat) (b : Nat) : bandsOf unitCell lineBand p b = cosBand p b := by
  unfold bandsOf lineBand cosBand cartesianOf
  simp only [unitCell_reciprocal]
  simp

theorem lineBand_periodic (q r : Vec3) (h : SameModLattice unitCell.reciprocal q r) :
    lineBand.energy q = lineBand.energy r := by
  obtain ⟨n, hn⟩ := h
  funext b
  unfold lineBand
  simp only
  rw [hn 0, Fin.sum_univ_three]
  simp only [unitCell_reciprocal]
  simp [Real.cos_add_int_mul_two_pi]

/-- The inversion. -/
def inversion : M3 := ⟨⟨-1, 0, 0⟩, ⟨0, -1, 0⟩, ⟨0, 0, -1⟩⟩

theorem inversion_mul (v : V3 Rat) : inversion.mulVec v = ⟨-v.x, -v.y, -v.z⟩ := by
  simp [inversion, M3.mulVec, V3.dot]

theorem inversion_group : IsPointGroup [M3.one, inversion] := by
  have hmem : ∀ R ∈ [M3.one, inversion], R = M3.one ∨ R = inversion := by simp
  refine ⟨rfl, ?_, ?_, ?_⟩
  · intro R hR g
    rcases hmem R hR with rfl | rfl
    · exact ⟨g, one_mulVec _⟩
    · exact ⟨⟨-g.x, -g.y, -g.z⟩, by rw [inversion_mul]; simp [V3.cast]⟩
  · intro R hR S hS
    rcases hmem R hR with rfl | rfl <;> rcases hmem S hS with rfl | rfl
    · exact ⟨M3.one, by simp, fun v => by simp only [one_mulVec]⟩
    · exact ⟨inversion, by simp, fun v => by simp only [one_mulVec]⟩
    · exact ⟨inversion, by simp, fun v => by simp only [one_mulVec]⟩
    · exact ⟨M3.one, by simp, fun v => by simp only [one_mulVec, inversion_mul, neg_neg]⟩
  · intro R hR
    rcases hmem R hR with rfl | rfl
    · exact ⟨M3.one, by simp, fun v => by simp only [one_mulVec]⟩
    · exact ⟨inversion, by simp, fun v => by simp only [inversion_mul, neg_neg]⟩

theorem inversion_mesh : MeshSym [M3.one, inversion] ⟨4, 1, 1⟩ := by
  intro R hR i hi
  have hi' : i < 4 := hi
  have h : R = M3.one ∨ R = inversion := by simpa using hR
  rcases h with rfl | rfl
  · exact ⟨i, hi, by rw [one_mulVec]; exact equivalent_refl _⟩
  · have : i = 0 ∨ i = 1 ∨ i = 2 ∨ i = 3 := by omega
    rcases this with rfl | rfl | rfl | rfl
    · exact ⟨0, by decide, ⟨0, 0, 0⟩, by decide +kernel⟩
    · exact ⟨3, by decide, ⟨-1, 0, 0⟩, by decide +kernel⟩
    · exact ⟨2, by decide, ⟨-1, 0, 0⟩, by decide +kernel⟩
    · exact ⟨1, by decide, ⟨-1, 0, 0⟩, by decide +kernel⟩

theorem line_fits : DosFits ⟨4, 1, 1⟩ 1 (1 / 2) (1 / 2) 1 1 := by
  refine ⟨by decide, by decide, by decide, by decide, by decide, by norm_num [intMax], ?_⟩
  norm_num

theorem line_number (n : Nat) (h : ∀ i : Nat, i < n ↔ (1 / 2 : ℝ) + i * 1 ≤ 1 / 2) : n = 1 := by
  have h0 : 0 < n := (h 0).mpr (by norm_num)
  have h1 : ¬ 1 < n := fun h' => by
    have := (h 1).mp h'
    norm_num at this
  omega

/-- **C178 violated with symmetries**, which the application always uses: for a band with the inversion symmetry of its
crystal the density in the file is half of the one without the symmetry. -/
theorem C178_violated_symmetry (k : TimeConstants) (hk : GoodConstants k) :
    (∀ (q : Vec3) b, lineBand.energy (fun i => -q i) b = lineBand.energy q b) ∧
    (∃ file, dosApp k .fourier 1 lineBand unitCell id [M3.one, inversion] ⟨4, 1, 1⟩ (1 / 2) (1 / 2) 1 1 = .ok file ∧
      file.dos = [1 / 4 / rydbergIn k false]) ∧
    ∃ file, dosApp k .fourier 1 lineBand unitCell id [M3.one] ⟨4, 1, 1⟩ (1 / 2) (1 / 2) 1 1 = .ok file ∧
      file.dos = [1 / 2 / rydbergIn k false] := by
  have hw : ∀ q, SameModLattice unitCell.reciprocal (id q) q := fun q => ⟨0, by simp⟩
  have hm : PosMesh ⟨4, 1, 1⟩ := by simp [PosMesh]
  have hbands : bandsOf unitCell lineBand = cosBand := by
    funext p b
    exact unitCell_bands p b
  have hfit := line_fits
  refine ⟨?_, ?_, ?_⟩
  · intro q b
    simp [lineBand]
  · obtain ⟨s, mult, s1, s2, s3, s4⟩ := dos_run k hk .fourier 1 (by norm_num) trivial lineBand unitCell id hw lineBand_periodic
      [M3.one, inversion] inversion_group ⟨4, 1, 1⟩ hm inversion_mesh (1 / 2) (1 / 2) 1 (by norm_num) le_rfl 1 hfit.some
      hfit.points hfit.states hfit.bands hfit.work hfit.energies hfit.energyWork
    have hcomp : (dosPoints [M3.one, inversion] ⟨4, 1, 1⟩ 1 0).toOption.map
        (fun s => (s.irrPointsIterator 4, s.getRotationsStar 0, s.getRotationsStar 1, s.getRotationsStar 2)) =
        some ([0, 1, 2], .ok [0], .ok [0, 1], .ok [0]) := by decide +kernel
    rw [s1] at hcomp
    have h4 : meshSize ⟨4, 1, 1⟩ = 4 := rfl
    rw [h4] at s2 s3 s4
    simp only [Outcome.toOption, Option.map_some, Option.some.injEq, Prod.mk.injEq] at hcomp
    obtain ⟨c0, c1, c2, c3⟩ := hcomp
    rw [c0] at s2 s3 s4
    obtain ⟨l0, a0, b0⟩ := s2 0 (by simp)
    obtain ⟨l1, a1, b1⟩ := s2 1 (by simp)
    obtain ⟨l2, a2, b2⟩ := s2 2 (by simp)
    rw [c1, Outcome.ok.injEq] at a0
    rw [c2, Outcome.ok.injEq] at a1
    rw [c3, Outcome.ok.injEq] at a2
    subst a0 a1 a2
    choose d d1 _ _ using C137_range s3 1
    obtain ⟨n, n1, n2⟩ := s4 d d1
    obtain rfl := line_number n n1
    refine ⟨_, n2, ?_⟩
    have hd : d (1 / 2) = 1 / 4 := by
      have hv := C137_violated_symmetry.2.2.1
      have e1 := tetraDos_val s3 1 (1 / 2)
      have e2 := tetraDos_val C137_violated_symmetry.1 1 (1 / 2)
      rw [hv, Outcome.ok.injEq] at e2
      rw [d1, Outcome.ok.injEq] at e1
      rw [e1, e2, hbands]
      congr 1
      simp [← b0, ← b1, ← b2]
    simp only [one_div] at hd
    simp [hd, Filler.isPhonon]
  · obtain ⟨file, n, f1, f2, _, f4, _⟩ := C178_value_partial k hk .fourier 1 (by norm_num) trivial lineBand unitCell id hw
      lineBand_periodic ⟨4, 1, 1⟩ hm (1 / 2) (1 / 2) 1 (by norm_num) le_rfl 1 hfit
    obtain rfl := line_number n f2
    refine ⟨file, f1, ?_⟩
    rw [f4, hbands]
    have := C137_violated_symmetry.2.2.2
    simp only [one_div] at this ⊢
    simp [this, Filler.isPhonon]

/-- The hypotheses of `C178_phonons_partial` are met by one atom in a cubic cell, on two processes. -/
example (f : FcVec 1 1 1 1) : ∃ (eig : EigenSolver 1) (cell : Cell), GoodSolver eig ∧
    makeCell exAtom.cell = .ok cell ∧ exAtom.recip = cell.reciprocal ∧ ¬ exAtom.hasDielectric ∧
    (∀ a, 0 < exAtom.mass a) ∧ (∀ q, SameModLattice cell.reciprocal (id q) q) ∧
    GoodFiller (1 * 3) (.phonon 1 fun _ b => b.1 ++ b.2) ∧ PosMesh ⟨2, 1, 1⟩ ∧ DosFits ⟨2, 1, 1⟩ (1 * 3) 0 1 1 2 := by
  obtain ⟨eig, he⟩ := exists_solver 1
  obtain ⟨cell, hcell, _⟩ := (C69_volume (1 : Mat3)).1 (by simp)
  have hrec : exAtom.recip = cell.reciprocal := by
    have h := hcell
    unfold makeCell at h
    split at h
    · cases h
    · rw [← Outcome.ok.inj h]; rfl
  refine ⟨eig, cell, he, hcell, hrec, ?_, fun _ => by norm_num [exAtom], fun q => ⟨0, by simp⟩,
    ⟨by norm_num, fun _ b => ⟨b.1, List.Perm.refl _, rfl⟩, by norm_num⟩, by simp [PosMesh],
    ⟨by decide, by decide, by decide, by decide, by decide, by norm_num [intMax], ?_⟩⟩
  · simp [PhCrystal.hasDielectric, exAtom]
  · norm_num [sizeTMod]

end Verif.Props
