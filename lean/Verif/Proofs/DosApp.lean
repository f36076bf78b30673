import Verif.Spec.DosApp
import Verif.Props.Dos
import Verif.Props.IrrPoints
import Verif.Proofs.BandsFile

/-! # Lemmas for C178 -/
namespace Verif.Proofs
open Verif.Model Verif.Spec Verif.Props

theorem mapOutcome_len {α β : Type} {f : α → Outcome β} {l : List α} {l' : List β} (h : mapOutcome f l = .ok l') :
    l'.length = l.length := by
  induction l generalizing l' with
  | nil => cases h; rfl
  | cons a t ih =>
    obtain ⟨b, _, h⟩ := (Outcome.bind_eq_ok_iff _ _ _).mp h
    obtain ⟨bs, hb, h⟩ := (Outcome.bind_eq_ok_iff _ _ _).mp h
    cases h
    simp [ih hb]

theorem mapOutcome_congr' {α β : Type} {f g : α → Outcome β} {l : List α} (h : ∀ a ∈ l, f a = g a) :
    mapOutcome f l = mapOutcome g l := by
  induction l with
  | nil => rfl
  | cons a t ih =>
    unfold mapOutcome
    rw [h a (by simp), ih fun b hb => h b (by simp [hb])]

/-- Every process gets the same irreducible points. -/
theorem dosPoints_same {rots : List M3} {mesh : V3 Int} {size r r' : Nat} {s : IrrPoints} (hr : r < size) (hr' : r' < size)
    (h : dosPoints rots mesh size r = .ok s) : dosPoints rots mesh size r' = .ok s := by
  unfold dosPoints setIrreduciblePoints at h ⊢
  split at h
  · cases h
  · rename_i h1
    rw [if_neg h1]
    split at h
    · cases h
    · rename_i h2
      rw [if_neg h2]
      obtain ⟨es, e1, h⟩ := (Outcome.bind_eq_ok_iff _ _ _).mp h
      obtain ⟨ri, e2, h⟩ := (Outcome.bind_eq_ok_iff _ _ _).mp h
      obtain ⟨bufs, e3, h⟩ := (Outcome.bind_eq_ok_iff _ _ _).mp h
      refine (Outcome.bind_eq_ok_iff _ _ _).mpr ⟨es, e1, (Outcome.bind_eq_ok_iff _ _ _).mpr ⟨ri, e2,
        (Outcome.bind_eq_ok_iff _ _ _).mpr ⟨bufs, e3, ?_⟩⟩⟩
      have hlen : bufs.length = size := by
        have := mapOutcome_len e3
        simpa using this
      have hsame : (allReduceSum1 bufs)[r']? = (allReduceSum1 bufs)[r]? := by
        unfold allReduceSum1
        split
        · obtain rfl : r' = r := by omega
          rfl
        · rw [List.getElem?_map, List.getElem?_map, List.getElem?_eq_getElem (by omega), List.getElem?_eq_getElem (by omega)]
          rfl
      rw [hsame]
      exact h

theorem dosSetup {rots : List M3} (hg : IsPointGroup rots) {mesh : V3 Int} (hm : PosMesh mesh) (hsym : MeshSym rots mesh)
    {size r : Nat} (hr : r < size) (hfit : meshSize mesh * size < sizeTMod) :
    IrrSetup size r (meshSize mesh) (fun k => meshCoordinates mesh ⟨0, 0, 0⟩ (k : Int))
      (fun p => .ok (isPointStoredMesh mesh ⟨0, 0, 0⟩ p)) rots := by
  refine ⟨hg, ?_, hr, hfit⟩
  intro R hR i hi
  obtain ⟨j, hj, he⟩ := hsym R hR i hi
  refine C18_mesh_lookup mesh ⟨0, 0, 0⟩ hm R i ⟨j, ?_, he⟩
  rw [← (meshSize_pos hm).2.1]
  exact_mod_cast hj

theorem dosBands_val (h : Filler) (nb : Nat) (hb : 0 < nb) (H : HamView Vec3 ℝ ℂ) (cell : Cell) (wrap : Vec3 → Vec3)
    (mesh : V3 Int) (size rank : Nat) (hr : rank < size) (hle : size ≤ meshSize mesh)
    (hfit : ((meshSize mesh * nb : Nat) : Int) ≤ intMax) (hfit' : ((nb * nb * 3 : Nat) : Int) ≤ intMax)
    (hgood : GoodFiller nb h) :
    ∃ F : FullBands ℝ ℂ, dosBands h nb H cell wrap mesh size rank = .ok F ∧ F.numBands = nb ∧
      ∀ ik < meshSize mesh, EnergiesAt F H (meshWave cell wrap mesh ik) rank ik := by
  have hph : h.isPhonon = true → 3 ∣ nb := by
    cases h <;> simp [Filler.isPhonon]
    exact hgood.2.2
  obtain ⟨F, iks, e1, e2, e3⟩ := C165_values size rank nb (meshSize mesh) hb hle hr hfit hfit' h.isPhonon false false false
    hph H (meshWave cell wrap mesh) Complex.re
  obtain ⟨F0, iks0, g1, g2, _, g4⟩ := C165_wavevectors (α := ℝ) (γ := ℂ) size nb (meshSize mesh) (by omega) hb hle
    h.isPhonon false false false hph
  rw [e1, Outcome.ok.injEq] at g1
  subst g1
  have hiks : iks = List.range (meshSize mesh) := by
    have h := g2 rank hr
    rw [e2, Outcome.ok.injEq] at h
    rw [h, g4 rfl rank hr]
  have hst : ∃ ss, h.stores rank iks = .ok ss ∧ CoversPoints false false iks ss := by
    cases h with
    | phonon batchSize sched =>
      obtain ⟨hb0, hs, h3⟩ := hgood
      have hne : iks ≠ [] := by
        rw [hiks]
        intro h
        have := congrArg List.length h
        simp at this
        omega
      have hbig : iks.length ≤ 1073741823 := by
        rw [hiks, List.length_range]
        obtain ⟨m, rfl⟩ := h3
        have hm : 1 ≤ m := by omega
        have : meshSize mesh * 3 ≤ meshSize mesh * (3 * m) := Nat.mul_le_mul_left _ (by omega)
        have h4 : ((meshSize mesh * (3 * m) : Nat) : Int) ≤ 2147483647 := hfit
        omega
      obtain ⟨bs, b1, b2⟩ := C165_phonon_partial false false batchSize iks hne hb0 hbig
      refine ⟨_, ?_, b2 (bs.map (sched rank)) (forall2_map (sched rank) _ (fun b => hs rank b) bs)⟩
      show (phononStores false false batchSize iks >>= _) = _
      rw [b1]
      rfl
    | wannier sched => exact ⟨_, rfl, C165_wannier false false iks _ (hgood rank _)⟩
    | fourier => exact ⟨_, rfl, C165_fourier_partial false iks⟩
  obtain ⟨ss, hss, hcov⟩ := hst
  obtain ⟨F', r1, r2, _, _, _, r6, _⟩ := e3 ss hcov
  refine ⟨F', ?_, r2, fun ik hik => (r6 ik (by rw [hiks]; exact List.mem_range.mpr hik)).1⟩
  unfold dosBands
  show (FullBands.make size nb (meshSize mesh) h.isPhonon false false false >>= _) = _
  rw [e1]
  simp only [Outcome.bind_eq, Outcome.bind_ok]
  rw [e2, Outcome.bind_ok, hss, Outcome.bind_ok, r1]

/-- The density of states depends on what can be read only. -/
theorem tetraDosFrom_eq {mesh : V3 Int} (hm : PosMesh mesh) (nb : Nat) (f : Nat → Nat → Outcome ℝ) (energy : Nat → Nat → ℝ)
    (irr : List Nat) (hirr : ∀ k ∈ irr, k < meshSize mesh)
    (hf : ∀ k < meshSize mesh, ∀ b < nb, f k b = .ok (energy k b)) (m : Nat → Outcome Nat) (mult : Nat → Nat)
    (hmult : ∀ k ∈ irr, m k = .ok (mult k)) (e : ℝ) :
    tetraDosFrom mesh nb f irr m e = tetraDos mesh nb energy irr mult e := by
  unfold tetraDos tetraDosFrom
  congr 1
  apply mapOutcome_congr'
  rintro ⟨k, b⟩ hs
  obtain ⟨k', hk, hs⟩ := List.mem_flatMap.mp hs
  obtain ⟨b', hb, hs⟩ := List.mem_map.mp hs
  obtain ⟨rfl, rfl⟩ := Prod.mk.inj hs
  have hsm : tetraStateSmearing mesh f k' b' e = tetraStateSmearing mesh (fun k b => .ok (energy k b)) k' b' e := by
    unfold tetraStateSmearing
    congr 1
    apply mapOutcome_congr'
    intro c hc
    obtain ⟨i, h1, h2, _⟩ := tetraCorner_val hm (hirr k' hk) (List.mem_range.mp hc)
    rw [h1]
    simp only [Outcome.bind_eq, Outcome.bind_ok]
    exact hf i h2 b' (List.mem_range.mp hb)
  simp only [hmult k' hk, hsm, Outcome.bind_eq, Outcome.bind_ok]

/-- The energies of the mesh belong to a periodic band structure. -/
theorem meshWave_energy {H : HamView Vec3 ℝ ℂ} {cell : Cell} {wrap : Vec3 → Vec3}
    (hw : ∀ q, SameModLattice cell.reciprocal (wrap q) q)
    (hH : ∀ k q, SameModLattice cell.reciprocal k q → H.energy k = H.energy q) (mesh : V3 Int) (ik b : Nat) :
    H.energy (meshWave cell wrap mesh ik) b = bandsOf cell H (meshCoordinates mesh ⟨0, 0, 0⟩ (ik : Int)) b := by
  unfold meshWave bandsOf
  simp only
  rw [hH _ _ (hw _)]
  unfold Cell.crystalToCartesian cartesianOf
  rfl

theorem bandsOf_periodic {H : HamView Vec3 ℝ ℂ} {cell : Cell}
    (hH : ∀ k q, SameModLattice cell.reciprocal k q → H.energy k = H.energy q) : PeriodicBands (bandsOf cell H) := by
  intro p g b
  unfold bandsOf
  rw [hH (cartesianOf cell.reciprocal _) (cartesianOf cell.reciprocal ⟨p.x, p.y, p.z⟩)]
  refine ⟨![g.x, g.y, g.z], fun i => ?_⟩
  simp only [cartesianOf, Fin.sum_univ_three]
  simp
  ring

/-- The run. -/
theorem dos_run (k : TimeConstants) (hk : GoodConstants k) (h : Filler) (nb : Nat) (hb : 0 < nb) (hgood : GoodFiller nb h)
    (H : HamView Vec3 ℝ ℂ) (cell : Cell) (wrap : Vec3 → Vec3) (hw : ∀ q, SameModLattice cell.reciprocal (wrap q) q)
    (hH : ∀ k q, SameModLattice cell.reciprocal k q → H.energy k = H.energy q)
    (rots : List M3) (hg : IsPointGroup rots) (mesh : V3 Int) (hm : PosMesh mesh) (hsym : MeshSym rots mesh)
    (minEnergy maxEnergy delta : ℝ) (hdel : 0 < delta) (hle : minEnergy ≤ maxEnergy) (size : Nat) (hs : 0 < size)
    (hsize : size ≤ meshSize mesh) (hfit : ((meshSize mesh * nb : Nat) : Int) ≤ intMax)
    (hfit' : ((nb * nb * 3 : Nat) : Int) ≤ intMax) (hfit2 : meshSize mesh * size < sizeTMod)
    (hfit3 : (maxEnergy - minEnergy) / delta < intMax)
    (hfit4 : (⌊(maxEnergy - minEnergy) / delta⌋.toNat + 1) * size < sizeTMod) :
    ∃ (s : IrrPoints) (mult : Nat → Nat), dosPoints rots mesh size 0 = .ok s ∧
      (∀ ik ∈ s.irrPointsIterator (meshSize mesh), ∃ l, s.getRotationsStar ik = .ok l ∧ l.length = mult ik) ∧
      DosRun mesh (bandsOf cell H) (fun ik b => H.energy (meshWave cell wrap mesh ik) b)
        (s.irrPointsIterator (meshSize mesh)) mult ∧
      ∀ d : ℝ → ℝ, (∀ e, tetraDos mesh nb (fun ik b => H.energy (meshWave cell wrap mesh ik) b)
          (s.irrPointsIterator (meshSize mesh)) mult e = .ok (d e)) →
        ∃ n : Nat, (∀ i : Nat, i < n ↔ minEnergy + i * delta ≤ maxEnergy) ∧
          dosApp k h nb H cell wrap rots mesh minEnergy maxEnergy delta size = .ok
            ⟨(List.range n).map (fun i : Nat => (minEnergy + i * delta) * rydbergIn k h.isPhonon),
              (List.range n).map (fun i : Nat => d (minEnergy + i * delta) / rydbergIn k h.isPhonon),
              if h.isPhonon then "phonon" else "electron", if h.isPhonon then "meV" else "eV",
              if h.isPhonon then "1/meV" else "1/eV"⟩ := by
  have hset := fun r (hr : r < size) => dosSetup hg hm hsym hr hfit2
  obtain ⟨s, hs0, _⟩ := C18_stars (hset 0 hs) none
  have hs0' : dosPoints rots mesh size 0 = .ok s := hs0
  have hall : ∀ r < size, dosPoints rots mesh size r = .ok s := fun r hr => dosPoints_same hs hr hs0'
  obtain ⟨ml, m1, m2⟩ := C20_weighted_sum (hset 0 hs) none s hs0 (fun _ => (1 : Nat)) (fun _ _ _ _ _ => rfl)
  have hirr : ∀ ik ∈ s.irrPointsIterator (meshSize mesh), ik < meshSize mesh := fun ik hik =>
    List.mem_range.mp (List.mem_of_mem_filter hik)
  refine ⟨s, fun ik => (ml ik).length, hs0', fun ik hik => ⟨_, m1 ik hik, rfl⟩, ?_, ?_⟩
  · refine ⟨hm, bandsOf_periodic hH, fun ik _ b => meshWave_energy hw hH mesh ik b, hirr, ?_⟩
    simpa using m2
  · intro d hd
    have hbands := fun r (hr : r < size) => dosBands_val h nb hb H cell wrap mesh size r hr hsize hfit hfit' hgood
    have hF : ∃ F : Nat → FullBands ℝ ℂ, ∀ r < size, dosBands h nb H cell wrap mesh size r = .ok (F r) ∧ (F r).numBands = nb ∧
        ∀ ik < meshSize mesh, EnergiesAt (F r) H (meshWave cell wrap mesh ik) r ik := by
      refine ⟨fun r => if hr : r < size then (hbands r hr).choose else (hbands 0 hs).choose, fun r hr => ?_⟩
      simp only [hr, dif_pos]
      exact (hbands r hr).choose_spec
    obtain ⟨F, hF⟩ := hF
    have hsf := mapOutcome_eq_map (fun rank => do
        let s ← dosPoints rots mesh size rank
        let F ← dosBands h nb H cell wrap mesh size rank
        .ok (s, F)) (fun r => (s, F r)) (List.range size) (fun r hr => by
      have hr' := List.mem_range.mp hr
      simp only [hall r hr', (hF r hr').1, Outcome.bind_eq, Outcome.bind_ok])
    have hdos : ∀ r < size, ∀ e, (do
        let p ← readAt ((List.range size).map fun r => (s, F r)) r
        processDos mesh p.1 p.2 r e) = .ok (d e) := by
      intro r hr e
      have hread : readAt ((List.range size).map fun r => (s, F r)) r = .ok (s, F r) := by
        unfold readAt
        simp [hr]
      rw [hread]
      simp only [Outcome.bind_eq, Outcome.bind_ok]
      unfold processDos
      rw [(hF r hr).2.1, ← hd e]
      refine tetraDosFrom_eq hm nb _ _ _ hirr (fun ik hik b hb' => ?_) _ _ (fun ik hik => ?_) e
      · have := (hF r hr).2.2 ik hik
        have h2 := this.2.1 b (by rw [(hF r hr).2.1]; exact hb')
        rw [(hF r hr).2.1] at h2
        exact h2
      · rw [m1 ik hik]
        rfl
    obtain ⟨n, t, t1, t2, t3, t4, _, _⟩ := C137_file k hk h.isPhonon _ d size hdos minEnergy maxEnergy delta hdel hle hs hfit3
      hfit4
    refine ⟨n, t1, ?_⟩
    unfold dosApp
    rw [hsf]
    simp only [Outcome.bind_eq, Outcome.bind_ok] at t2 ⊢
    rw [t2]
    simp only [Outcome.bind_ok]
    have hry : (if h.isPhonon then energyRyToEvOf k * 1000 else energyRyToEvOf k) = rydbergIn k h.isPhonon := by
      have := hk.electronVolt.ne'
      unfold rydbergIn energyRyToEvOf
      cases h.isPhonon
      · simp
      · simp only [if_true]
        field_simp
    unfold dosFile dosOutput
    simp only [hry, t3, t4, List.map_map]
    congr 2
    · apply List.map_congr_left
      intro i _
      simp only [Function.comp]
      ring
    · apply List.map_congr_left
      intro i _
      simp only [Function.comp]
      rw [add_comm]

end Verif.Proofs
