import Verif.Spec.PathTimes
import Verif.Proofs.BandsFile
import Verif.Props.PhEl
import Verif.Props.Degeneracy
import Verif.Props.Bands
import Verif.Props.Isotope
import Verif.Props.TimesFile
import Verif.Props.BandsFile
import Verif.Proofs.Wigner
import Verif.Proofs.Atoms

/-! Lemmas on the lifetimes along a path. -/
namespace Verif.Proofs
open Verif.Model Verif.Spec Verif.Props

theorem pathIndices_val {np nb ik ib : Nat} (hk : ik < np) (hb : ib < nb) (hfit : ((np * nb : Nat) : Int) ≤ intMax) :
    pathIndices nb ik ib = .ok (((ik * nb + ib : Nat) : Int), ik * nb + ib) := by
  have h1 : fullGetIndex (nb : Int) ik ib = .ok ((ik * nb + ib : Nat) : Int) := by
    have := compress2_val (i1 := (ik : Int)) (i2 := (ib : Int)) (s1 := (np : Int)) (s2 := (nb : Int)) (by omega) (by omega)
      (by omega) (by omega) (by push_cast at hfit; omega)
    push_cast
    exact this
  obtain ⟨is, e1, _, _, e2, _⟩ := C27_roundtrip (np : Int) (nb : Int) (ik : Int) (ib : Int) ⟨by omega, by omega⟩
    ⟨by omega, by omega⟩ (by push_cast at hfit; exact hfit)
  rw [h1, Outcome.ok.injEq] at e1
  subst e1
  unfold pathIndices
  rw [h1]
  simp only [Outcome.bind_eq, Outcome.bind_ok]
  rw [e2]
  simp only [Outcome.bind_ok]
  rw [h1]
  simp only [Outcome.bind_ok, Int.toNat_natCast]

/-- The state of a band at a wavevector. -/
noncomputable def stateAt (H : HamView Vec3 ℝ ℂ) (k : Vec3) (b : Nat) : ElState :=
  ⟨H.energy k b, fun i => (H.velocity k b b i.val).re⟩

/-- A band structure that gives energies and velocities of the Hamiltonian at the wavevectors. -/
structure Holds (F : FullBands ℝ ℂ) (H : HamView Vec3 ℝ ℂ) (wave : Nat → Vec3) (np nb rank : Nat) : Prop where
  bands : F.numBands = nb
  energies : ∀ ik < np, EnergiesAt F H (wave ik) rank ik
  velocities : ∀ ik < np, VelocitiesAt F H Complex.re (wave ik) rank ik

theorem populate_val (A : PathElApp) (pts : List (V3 ℝ)) (sched : List FullStore → List FullStore) (size rank : Nat)
    (hle : size ≤ pts.length) (hr : rank < size) (hb : 0 < A.bands)
    (hfit : ((pts.length * A.bands : Nat) : Int) ≤ intMax) (hfit' : ((A.bands * A.bands * 3 : Nat) : Int) ≤ intMax)
    (hs : ∀ l, (sched l).Perm l) :
    ∃ F, A.populate pts sched size rank = .ok F ∧
      Holds F A.H (pathWave A.cell A.wrap pts) pts.length A.bands rank := by
  obtain ⟨F, iks, e1, e2, e3⟩ := C165_values size rank A.bands pts.length hb hle hr hfit hfit' false true true false
    (by simp) A.H (pathWave A.cell A.wrap pts) Complex.re
  obtain ⟨F0, iks0, g1, g2, _, g4⟩ := C165_wavevectors (α := ℝ) (γ := ℂ) size A.bands pts.length (by omega) hb hle false true
    true false (by simp)
  rw [e1, Outcome.ok.injEq] at g1
  subst g1
  have hiks : iks = List.range pts.length := by
    have h := g2 rank hr
    rw [e2, Outcome.ok.injEq] at h
    rw [h, g4 rfl rank hr]
  obtain ⟨F', r1, r2, _, _, _, r6, _⟩ := e3 _ (C165_wannier true true iks _ (hs _))
  have hmem : ∀ ik < pts.length, ik ∈ iks := fun ik h => by rw [hiks]; exact List.mem_range.mpr h
  refine ⟨F', ?_, r2, fun ik h => (r6 ik (hmem ik h)).1, fun ik h => (r6 ik (hmem ik h)).2.1 rfl⟩
  unfold PathElApp.populate
  rw [e1]
  simp only [Outcome.bind_eq, Outcome.bind_ok]
  rw [e2, Outcome.bind_ok, r1]

section
variable {F : FullBands ℝ ℂ} {H : HamView Vec3 ℝ ℂ} {wave : Nat → Vec3} {np nb rank : Nat}

theorem elStates_val (h : Holds F H wave np nb rank) {ik : Nat} (hk : ik < np) :
    F.elStates rank ik = .ok ((List.range nb).map (stateAt H (wave ik))) := by
  unfold FullBands.elStates
  rw [(h.energies ik hk).2.2, (h.velocities ik hk).2.1]
  simp only [Outcome.bind_eq, Outcome.bind_ok]
  rw [h.bands]
  refine mapOutcome_ok _ fun ib hib => ?_
  rw [List.mem_range] at hib
  simp only [Outcome.bind_eq, Outcome.bind_ok, readAt_map_range _ _ _ hib,
    readAt_map_range _ _ _ (by decide : 0 < 3), readAt_map_range _ _ _ (by decide : 1 < 3),
    readAt_map_range _ _ _ (by decide : 2 < 3)]
  unfold stateAt
  congr 2
  funext i
  fin_cases i <;> rfl

theorem foldl_addAt (l : List (Nat × ℝ)) (acc : Nat → ℝ) (b : Nat) : l.foldl (fun lw a => addAt lw a.1 a.2) acc b =
    acc b + (l.map fun a => if a.1 = b then a.2 else 0).sum := by
  induction l generalizing acc with
  | nil => simp
  | cons e t ih =>
    rw [List.foldl_cons, ih, addAt_val, List.map_cons, List.sum_cons]
    by_cases hb : e.1 = b
    · simp [hb, add_assoc]
    · simp [hb, Ne.symm hb]

theorem index_inj {nb ik ik' ib ib' : Nat} (hb : ib < nb) (hb' : ib' < nb) (h : ik * nb + ib = ik' * nb + ib') :
    ik = ik' ∧ ib = ib' := by
  have h1 : (ik * nb + ib) / nb = ik := by
    rw [mul_comm, Nat.mul_add_div (by omega), Nat.div_eq_of_lt hb, add_zero]
  have h2 : (ik' * nb + ib') / nb = ik' := by
    rw [mul_comm, Nat.mul_add_div (by omega), Nat.div_eq_of_lt hb', add_zero]
  rw [h, h2] at h1
  subst h1
  exact ⟨rfl, by omega⟩

/-- What a pair of wavevectors gives to band `b`. -/
noncomputable def pairSum (A : PathElApp) (row : CalcRow) (k1 k2 : Vec3) (b : Nat) : ℝ :=
  ∑ b2 ∈ Finset.range A.bands, ∑ nu ∈ Finset.range A.modes,
    elRate (A.setup row) (A.coupling k1 k2 b b2 nu) (stateAt A.H k1 b) (stateAt A.H k2 b2) (A.phonon (fun i => k2 i - k1 i) nu)

theorem sum_single (n b : Nat) (hb : b < n) (f : Nat → ℝ) :
    ((List.range n).map fun i => if i = b then f i else 0).sum = f b := by
  rw [list_range_sum, Finset.sum_ite_eq' (Finset.range n) b f, if_pos (Finset.mem_range.mpr hb)]

/-- The list of the updates of a pair. -/
noncomputable def pairList (A : PathElApp) (row : CalcRow) (ik1 : Nat) (k1 k2 : Vec3) : List (List (List (Nat × ℝ))) :=
  (List.range A.bands).map fun ib2 => (List.range A.bands).map fun ib1 => (List.range A.modes).map fun ib3 =>
    (ik1 * A.bands + ib1, elRate (A.setup row) (A.coupling k1 k2 ib1 ib2 ib3) (stateAt A.H k1 ib1) (stateAt A.H k2 ib2)
      (A.phonon (fun i => k2 i - k1 i) ib3))

theorem pairList_sum (A : PathElApp) (row : CalcRow) (ik1 : Nat) (k1 k2 : Vec3) (ik ib : Nat) (hib : ib < A.bands) :
    ((pairList A row ik1 k1 k2).flatten.flatten.map fun a => if a.1 = ik * A.bands + ib then a.2 else 0).sum =
      if ik1 = ik then pairSum A row k1 k2 ib else 0 := by
  unfold pairList pairSum
  rw [← List.flatMap_def, ← List.flatMap_id, List.flatMap_assoc, sum_flatMap_map, list_range_sum]
  have h : ∀ b2, ((((List.range A.bands).map fun ib1 => (List.range A.modes).map fun ib3 =>
      (ik1 * A.bands + ib1, elRate (A.setup row) (A.coupling k1 k2 ib1 b2 ib3) (stateAt A.H k1 ib1) (stateAt A.H k2 b2)
        (A.phonon (fun i => k2 i - k1 i) ib3))).flatMap id).map
          fun a => if a.1 = ik * A.bands + ib then a.2 else 0).sum =
      if ik1 = ik then ∑ nu ∈ Finset.range A.modes, elRate (A.setup row) (A.coupling k1 k2 ib b2 nu) (stateAt A.H k1 ib)
        (stateAt A.H k2 b2) (A.phonon (fun i => k2 i - k1 i) nu) else 0 := by
    intro b2
    rw [sum_flatMap_map, List.map_map]
    by_cases hk : ik1 = ik
    · subst hk
      rw [if_pos rfl]
      refine Eq.trans ?_ (sum_single A.bands ib hib fun ib => ∑ nu ∈ Finset.range A.modes, elRate (A.setup row)
        (A.coupling k1 k2 ib b2 nu) (stateAt A.H k1 ib) (stateAt A.H k2 b2) (A.phonon (fun i => k2 i - k1 i) nu))
      congr 1
      apply List.map_congr_left
      intro ib1 h1
      rw [List.mem_range] at h1
      simp only [Function.comp, id, List.map_map]
      by_cases hb : ib1 = ib
      · subst hb
        simp [Function.comp_def, list_range_sum]
      · have : ¬ (ik1 * A.bands + ib1 = ik1 * A.bands + ib) := by omega
        simp [Function.comp_def, hb]
    · rw [if_neg hk]
      apply List.sum_eq_zero
      intro x hx
      obtain ⟨ib1, h1, rfl⟩ := List.mem_map.mp hx
      rw [List.mem_range] at h1
      have : ¬ (ik1 * A.bands + ib1 = ik * A.bands + ib) := fun h => hk (index_inj h1 hib h).1
      simp [Function.comp_def, this]
  rw [Finset.sum_congr rfl fun b2 _ => h b2]
  by_cases hk : ik1 = ik
  · simp [hk]
  · simp [hk]

theorem pairRates_val (A : PathElApp) (pts : List (V3 ℝ)) {inner outer : FullBands ℝ ℂ} (row : CalcRow)
    (hin : Holds inner A.H (pathWave A.cell A.wrap A.mesh) A.mesh.length A.bands rank)
    (hout : Holds outer A.H (pathWave A.cell A.wrap pts) pts.length A.bands rank)
    (hfit : ((pts.length * A.bands : Nat) : Int) ≤ intMax) {ik1 ik2 : Nat} (h1 : ik1 < pts.length)
    (h2 : ik2 < A.mesh.length) :
    A.pairRates pts inner outer rank row ik1 ik2 = .ok (pairList A row ik1 (pathWave A.cell A.wrap pts ik1)
      (pathWave A.cell A.wrap A.mesh ik2)).flatten.flatten := by
  unfold PathElApp.pairRates
  rw [elStates_val hout h1, elStates_val hin h2]
  simp only [Outcome.bind_eq, Outcome.bind_ok, List.length_map, List.length_range]
  refine (congrArg (fun o => Outcome.bind o fun l => Outcome.ok l.flatten.flatten)
    (mapOutcome_ok (List.range A.bands) (fun ib2 hb2 => mapOutcome_ok (List.range A.bands) fun ib1 hb1 => ?_))).trans
    (Outcome.bind_ok _ _)
  · rw [List.mem_range] at hb1 hb2
    simp only [hout.bands, pathIndices_val h1 hb1 hfit, readAt_map_range _ _ _ hb1, readAt_map_range _ _ _ hb2,
      Outcome.bind_eq, Outcome.bind_ok]

private theorem mapOutcome_comp {α β γ : Type} (f : β → Outcome γ) (g : α → β) (l : List α) :
    mapOutcome f (l.map g) = mapOutcome (fun a => f (g a)) l := by
  induction l with
  | nil => rfl
  | cons a t ih => simp only [List.map_cons, mapOutcome, ih]

/-- Value of the linewidths of one process. -/
theorem processRates_val (A : PathElApp) (pts : List (V3 ℝ)) {inner outer : FullBands ℝ ℂ} (row : CalcRow)
    (hin : Holds inner A.H (pathWave A.cell A.wrap A.mesh) A.mesh.length A.bands rank)
    (hout : Holds outer A.H (pathWave A.cell A.wrap pts) pts.length A.bands rank)
    (hfit : ((pts.length * A.bands : Nat) : Int) ≤ intMax) (ks : List Nat) (hks : ∀ k ∈ ks, k < pts.length) :
    ∃ lw, A.processRates pts inner outer rank row (ks.map fun (ik1 : Nat) =>
        ((List.range A.mesh.length).map fun (k : Nat) => (k : Int), (ik1 : Int))) = .ok lw ∧
      ∀ ik ib, ib < A.bands → lw (ik * A.bands + ib) = (ks.map fun ik1 => if ik1 = ik then
        ∑ ik2 ∈ Finset.range A.mesh.length, pairSum A row (pathWave A.cell A.wrap pts ik1)
          (pathWave A.cell A.wrap A.mesh ik2) ib else 0).sum := by
  refine ⟨(((ks.map fun ik1 => (List.range A.mesh.length).map fun ik2 => (pairList A row ik1 (pathWave A.cell A.wrap pts ik1)
      (pathWave A.cell A.wrap A.mesh ik2)).flatten.flatten)).flatten.flatten).foldl (fun lw a => addAt lw a.1 a.2) fun _ => 0,
      ?_, ?_⟩
  · unfold PathElApp.processRates
    rw [mapOutcome_comp]
    refine (congrArg (fun o : Outcome (List (List (List (Nat × ℝ)))) => Outcome.bind o fun l =>
      Outcome.ok (l.flatten.flatten.foldl (fun lw a => addAt lw a.1 a.2) fun _ => 0)) (mapOutcome_ok ks fun ik1 h1 => ?_)).trans (Outcome.bind_ok _ _)
    rw [mapOutcome_comp]
    refine mapOutcome_ok _ fun ik2 h2 => ?_
    simp only [Int.toNat_natCast]
    exact pairRates_val A pts row hin hout hfit (hks _ h1) (List.mem_range.mp h2)
  · intro ik ib hib
    rw [foldl_addAt, zero_add, ← List.flatMap_def, ← List.flatMap_id, List.flatMap_assoc, sum_flatMap_map]
    congr 1
    apply List.map_congr_left
    intro ik1 _
    rw [sum_flatMap_map, List.map_map]
    simp only [Function.comp_def, id, pairList_sum A row ik1 _ _ ik ib hib]
    by_cases hk : ik1 = ik
    · simp only [hk, if_true]; rfl
    · simp [hk]

/-- The sum over the processes. -/
theorem summedRates_val (A : PathElApp) (pts : List (V3 ℝ)) (bands : List (FullBands ℝ ℂ × FullBands ℝ ℂ)) (size : Nat)
    (hsize : 0 < size) (row : CalcRow)
    (hbands : ∀ r < size, ∃ b, readAt bands r = .ok b ∧
      Holds b.1 A.H (pathWave A.cell A.wrap A.mesh) A.mesh.length A.bands r ∧
      Holds b.2 A.H (pathWave A.cell A.wrap pts) pts.length A.bands r)
    (hfit : ((pts.length * A.bands : Nat) : Int) ≤ intMax) (hfit2 : pts.length * size < 18446744073709551616) :
    ∃ lw, A.summedRates pts bands size row = .ok lw ∧ ∀ ik ib, ik < pts.length → ib < A.bands →
      lw (ik * A.bands + ib) = ∑ ik2 ∈ Finset.range A.mesh.length, pairSum A row (pathWave A.cell A.wrap pts ik)
        (pathWave A.cell A.wrap A.mesh ik2) ib := by
  have hpart : ∀ r, ∃ lw : Nat → ℝ, r < size → (do
      let b ← readAt bands r
      let items ← elPairs false false 0 id (fun k => [k]) (List.range pts.length) A.mesh.length [] r size
      A.processRates pts b.1 b.2 r row items) = .ok lw ∧ ∀ ik ib, ib < A.bands → lw (ik * A.bands + ib) =
        ((sliceOf (List.range pts.length) r size).map fun ik1 => if ik1 = ik then
        ∑ ik2 ∈ Finset.range A.mesh.length, pairSum A row (pathWave A.cell A.wrap pts ik1)
          (pathWave A.cell A.wrap A.mesh ik2) ib else 0).sum := by
    intro r
    by_cases hr : r < size
    · obtain ⟨b, h1, h2, h3⟩ := hbands r hr
      obtain ⟨lw, h4, h5⟩ := processRates_val A pts row h2 h3 hfit (sliceOf (List.range pts.length) r size) (by
        intro k hk
        have : k ∈ (List.range size).flatMap fun r => sliceOf (List.range pts.length) r size :=
          List.mem_flatMap.mpr ⟨r, List.mem_range.mpr hr, hk⟩
        rw [slices_flatten _ size hsize (by simpa using hfit2)] at this
        exact List.mem_range.mp this)
      refine ⟨lw, fun _ => ⟨?_, h5⟩⟩
      rw [h1]
      exact h4
    · exact ⟨fun _ => 0, fun h => absurd h hr⟩
  choose L hL using hpart
  have hmap := mapOutcome_ok (List.range size) fun r hr => (hL r (List.mem_range.mp hr)).1
  obtain ⟨lw, hlw⟩ : ∃ lw, readAt (allReduceSum1 ((List.range size).map L)) 0 = .ok lw := by
    refine ⟨_, readAt_ok ?_⟩
    rw [allReduceSum1_length]
    simpa using hsize
  refine ⟨lw, ?_, ?_⟩
  · unfold PathElApp.summedRates
    rw [hmap]
    exact hlw
  · intro ik ib hik hib
    have hmem : lw ∈ allReduceSum1 ((List.range size).map L) := by
      unfold readAt at hlw
      split at hlw
      · rename_i x hx
        cases hlw
        exact List.mem_of_getElem? hx
      · cases hlw
    rw [mem_allReduceSum1 _ _ hmem, List.map_map]
    have e : ((List.range size).map ((fun b : Nat → ℝ => b (ik * A.bands + ib)) ∘ L)).sum =
        ((List.range size).map fun r => ((sliceOf (List.range pts.length) r size).map fun ik1 => if ik1 = ik then
        ∑ ik2 ∈ Finset.range A.mesh.length, pairSum A row (pathWave A.cell A.wrap pts ik1)
          (pathWave A.cell A.wrap A.mesh ik2) ib else 0).sum).sum := by
      congr 1
      apply List.map_congr_left
      intro r hr
      exact (hL r (List.mem_range.mp hr)).2 ik ib hib
    rw [e, ← sum_flatMap_map, slices_flatten _ size hsize (by simpa using hfit2)]
    exact sum_single pts.length ik hik fun ik1 => ∑ ik2 ∈ Finset.range A.mesh.length,
      pairSum A row (pathWave A.cell A.wrap pts ik1) (pathWave A.cell A.wrap A.mesh ik2) ib

/-- The wavevectors of the average over degenerate bands. -/
noncomputable def degOf (H : HamView Vec3 ℝ ℂ) (wave : Nat → Vec3) (nb ik : Nat) : DegPoint ℝ :=
  ⟨nb, fun ib => ((List.range nb).map (H.energy (wave ik))).getD ib 0,
    fun ib => ((List.range nb).map fun ib => ik * nb + ib).getD ib 0⟩

theorem degPoint_val (h : Holds F H wave np nb rank) (hfit : ((np * nb : Nat) : Int) ≤ intMax) {ik : Nat} (hk : ik < np) :
    F.degPoint rank ik = .ok (degOf H wave nb ik) := by
  unfold FullBands.degPoint
  rw [(h.energies ik hk).2.2, h.bands]
  simp only [Outcome.bind_eq, Outcome.bind_ok]
  rw [mapOutcome_ok (g := fun ib => ik * nb + ib) (List.range nb) (fun ib hib => by
    rw [pathIndices_val hk (List.mem_range.mp hib) hfit]; rfl)]
  rfl

theorem degOf_bte (H : HamView Vec3 ℝ ℂ) (wave : Nat → Vec3) (nb ik ib : Nat) (hb : ib < nb) :
    (degOf H wave nb ik).bte ib = ik * nb + ib := by
  unfold degOf
  simp [hb]

theorem degOf_en (H : HamView Vec3 ℝ ℂ) (wave : Nat → Vec3) (nb ik ib : Nat) (hb : ib < nb) :
    (degOf H wave nb ik).en ib = H.energy (wave ik) ib := by
  unfold degOf
  simp [hb]

/-- The average over degenerate bands: in the first calculation only. -/
theorem average_val (A : PathElApp) (wave : Nat → Vec3) (np : Nat) (data : Nat → Nat → ℝ) (c ik ib : Nat)
    (hk : ik < np) (hb : ib < A.bands) :
    degeneracyAveraging ((List.range np).map (degOf A.H wave A.bands)) data c (ik * A.bands + ib) =
      if c = 0 then bandMean A (wave ik) (fun b => data c (ik * A.bands + b)) ib else data c (ik * A.bands + ib) := by
  have hinj : ∀ p ∈ (List.range np).map (degOf A.H wave A.bands), ∀ a b, a < p.nb → b < p.nb → p.bte a = p.bte b → a = b := by
    intro p hp a b ha hb h
    obtain ⟨k, _, rfl⟩ := List.mem_map.mp hp
    change a < A.bands at ha
    change b < A.bands at hb
    rw [degOf_bte _ _ _ _ _ ha, degOf_bte _ _ _ _ _ hb] at h
    omega
  have hdisj : ((List.range np).map (degOf A.H wave A.bands)).Pairwise fun p q =>
      ∀ a b, a < p.nb → b < q.nb → p.bte a ≠ q.bte b := by
    rw [List.pairwise_map]
    refine List.pairwise_lt_range.imp ?_
    intro k k' hlt a b ha hb h
    change a < A.bands at ha
    change b < A.bands at hb
    rw [degOf_bte _ _ _ _ _ ha, degOf_bte _ _ _ _ _ hb] at h
    have := (index_inj ha hb h).1
    omega
  have hset : degenerateWith (degOf A.H wave A.bands ik).en A.bands ib =
      (List.range A.bands).filter fun b => |A.H.energy (wave ik) b - A.H.energy (wave ik) ib| < 1 / 1000000 := by
    unfold degenerateWith
    apply List.filter_congr
    intro b hb'
    rw [degOf_en _ _ _ _ _ hb, degOf_en _ _ _ _ _ (List.mem_range.mp hb')]
  have hmean : meanOver (degOf A.H wave A.bands ik).en A.bands ib (fun b => data c (ik * A.bands + b)) =
      bandMean A (wave ik) (fun b => data c (ik * A.bands + b)) ib := by
    unfold meanOver bandMean
    rw [hset]
    simp only [Finset.sum_filter]
    congr 1
    rw [sum_filter_map, list_range_sum]
    simp
  by_cases h0 : c = 0
  · subst h0
    have := C53_mean_partial _ data hinj hdisj (degOf A.H wave A.bands ik)
      (List.mem_map.mpr ⟨ik, List.mem_range.mpr hk, rfl⟩) ib hb
    rw [degOf_bte _ _ _ _ _ hb] at this
    rw [this, if_pos rfl, ← hmean]
    change meanOver (degOf A.H wave A.bands ik).en A.bands ib _ = _
    unfold meanOver
    congr 2
    apply List.map_congr_left
    intro b hb'
    rw [degOf_bte]
    exact List.mem_range.mp (List.mem_of_mem_filter hb')
  · rw [C53_frame _ data hinj hdisj c _ (.inl h0), if_neg h0]

end

/-- Without degenerate bands there is nothing to average. -/
theorem bandMean_alone (A : PathElApp) (k : Vec3) (f : Nat → ℝ) (ib : Nat) (hb : ib < A.bands)
    (h : ∀ b < A.bands, b ≠ ib → 1 / 1000000 ≤ |A.H.energy k b - A.H.energy k ib|) : bandMean A k f ib = f ib := by
  have hs : (Finset.range A.bands).filter (fun b => |A.H.energy k b - A.H.energy k ib| < 1 / 1000000) = {ib} := by
    ext b
    rw [Finset.mem_filter, Finset.mem_range, Finset.mem_singleton]
    constructor
    · rintro ⟨h1, h2⟩
      by_contra hne
      have := h b h1 hne
      linarith
    · rintro rfl
      refine ⟨hb, ?_⟩
      rw [sub_self, abs_zero]
      norm_num
  unfold bandMean
  simp only [hs]
  simp

theorem rate_transition (A : PathElApp) (hsm : ElSmearing A.smearing) (hcut : 0 < A.cutoff) (row : CalcRow)
    (hT : 0 < row.temperature) (k k2 : Vec3) (b b2 nu : Nat) :
    elRate (A.setup row) (A.coupling k k2 b b2 nu) (stateAt A.H k b) (stateAt A.H k2 b2) (A.phonon (fun i => k2 i - k i) nu) =
      Real.pi / A.mesh.length * phononTransition A row.temperature row.chemicalPotential k b k2 b2 nu := by
  set omega := A.phonon (fun i => k2 i - k i) nu with ho
  set d1 := elDelta1 A.smearing (stateAt A.H k b) (stateAt A.H k2 b2) omega with hd1
  set d2 := elDelta2 A.smearing (stateAt A.H k b) (stateAt A.H k2 b2) omega with hd2
  have e1 : deltaValue A.smearing (A.H.energy k b - A.H.energy k2 b2 + omega)
      (fun i => (A.H.velocity k b b i.val).re - (A.H.velocity k2 b2 b2 i.val).re) = d1 := by
    rw [hd1]
    cases h : A.smearing with
    | gaussian w => rfl
    | adaptive c q => rfl
    | tetra f => rw [h] at hsm; exact absurd hsm id
  have e2 : deltaValue A.smearing (A.H.energy k b - A.H.energy k2 b2 - omega)
      (fun i => (A.H.velocity k b b i.val).re - (A.H.velocity k2 b2 b2 i.val).re) = d2 := by
    rw [hd2]
    cases h : A.smearing with
    | gaussian w => rfl
    | adaptive c q => rfl
    | tetra f => rw [h] at hsm; exact absurd hsm id
  obtain ⟨n1, n2⟩ := elDelta_nonneg hsm (stateAt A.H k b) (stateAt A.H k2 b2) omega
  rw [← hd1] at n1
  rw [← hd2] at n2
  have hspec : phononTransition A row.temperature row.chemicalPotential k b k2 b2 nu =
      if omega < A.cutoff then 0 else A.coupling k k2 b b2 nu / omega *
        ((fermiDirac (A.H.energy k2 b2) row.temperature row.chemicalPotential + boseOccupation omega row.temperature) * d1 +
          (1 - fermiDirac (A.H.energy k2 b2) row.temperature row.chemicalPotential +
            boseOccupation omega row.temperature) * d2) := by
    unfold phononTransition
    simp only
    rw [e1, e2]
  have hmodel : elRate (A.setup row) (A.coupling k k2 b b2 nu) (stateAt A.H k b) (stateAt A.H k2 b2) omega =
      if elSkipped (A.setup row) (stateAt A.H k b) (stateAt A.H k2 b2) omega then 0 else
        A.coupling k k2 b b2 nu * ((getPopulation .fermi (A.H.energy k2 b2) row.temperature row.chemicalPotential +
          getPopulation .bose omega row.temperature 0) * d1 +
          (1 - getPopulation .fermi (A.H.energy k2 b2) row.temperature row.chemicalPotential +
          getPopulation .bose omega row.temperature 0) * d2) * (1 / (A.mesh.length : ℝ)) / omega * Real.pi := rfl
  rw [hspec, hmodel]
  by_cases hlt : omega < A.cutoff
  · have hsk : elSkipped (A.setup row) (stateAt A.H k b) (stateAt A.H k2 b2) omega = true := by
      unfold elSkipped
      exact if_pos hlt
    rw [hsk, if_pos rfl, if_pos hlt, mul_zero]
  · rw [if_neg hlt]
    have hpos : 0 < omega := by linarith
    rw [getPopulation_fermi hT, getPopulation_bose hT hpos, sub_zero]
    by_cases hz : d1 ≤ 0 ∧ d2 ≤ 0
    · have z1 : d1 = 0 := le_antisymm hz.1 n1
      have z2 : d2 = 0 := le_antisymm hz.2 n2
      rw [z1, z2]
      simp
    · have hsk : elSkipped (A.setup row) (stateAt A.H k b) (stateAt A.H k2 b2) omega = false := by
        unfold elSkipped
        rw [if_neg (show ¬ omega < (A.setup row).phononCutoff from hlt)]
        exact decide_eq_false hz
      rw [hsk]
      unfold fermiDirac boseOccupation
      simp only [Bool.false_eq_true, if_false]
      ring

theorem same_sub {recip : Mat3} {k k' q q' : Vec3} (h : SameModLattice recip k q) (h' : SameModLattice recip k' q') :
    SameModLattice recip (fun i => k i - k' i) (fun i => q i - q' i) := by
  obtain ⟨n, hn⟩ := h
  obtain ⟨m, hm⟩ := h'
  refine ⟨fun j => n j - m j, fun i => ?_⟩
  beta_reduce
  rw [hn, hm]
  have : ∑ j, (((n j - m j : ℤ)) : ℝ) * recip i j = ∑ j, (n j : ℝ) * recip i j - ∑ j, (m j : ℝ) * recip i j := by
    rw [← Finset.sum_sub_distrib]
    apply Finset.sum_congr rfl
    intro j _
    push_cast
    ring
  rw [this]
  ring

theorem transition_same (A : PathElApp) (hA : PeriodicApp A) (T mu : ℝ) {k k' q q' : Vec3}
    (h : SameModLattice A.cell.reciprocal k q) (h' : SameModLattice A.cell.reciprocal k' q') (b b2 nu : Nat) :
    phononTransition A T mu k b k' b2 nu = phononTransition A T mu q b q' b2 nu := by
  unfold phononTransition
  simp only [hA.energy k q h, hA.energy k' q' h', hA.velocity k q h, hA.velocity k' q' h', hA.coupling k q k' q' h h',
    hA.phonon _ _ (same_sub h' h)]

theorem sum_map_range (l : List (V3 ℝ)) (f : V3 ℝ → ℝ) :
    (l.map f).sum = ∑ i ∈ Finset.range l.length, f (l.getD i ⟨0, 0, 0⟩) := by
  rw [← list_range_sum]
  congr 1
  apply List.ext_getElem
  · simp
  · intro i h1 h2
    have : i < l.length := by simpa using h1
    simp [this]

theorem width_eq (A : PathElApp) (hA : PeriodicApp A) (hw : ∀ q, SameModLattice A.cell.reciprocal (A.wrap q) q)
    (hsm : ElSmearing A.smearing) (hcut : 0 < A.cutoff) (row : CalcRow) (hT : 0 < row.temperature) (pts : List (V3 ℝ))
    {ik : Nat} (hk : ik < pts.length) (b : Nat) :
    ∑ ik2 ∈ Finset.range A.mesh.length, pairSum A row (pathWave A.cell A.wrap pts ik) (pathWave A.cell A.wrap A.mesh ik2) b =
      electronWidth A row.temperature row.chemicalPotential (cartesianOf A.cell.reciprocal pts[ik]) b := by
  unfold electronWidth
  rw [sum_map_range, Finset.mul_sum]
  apply Finset.sum_congr rfl
  intro ik2 h2
  rw [Finset.mem_range] at h2
  unfold pairSum
  rw [Finset.mul_sum]
  apply Finset.sum_congr rfl
  intro b2 _
  rw [Finset.mul_sum]
  apply Finset.sum_congr rfl
  intro nu _
  have hg : A.mesh.getD ik2 ⟨0, 0, 0⟩ = A.mesh[ik2] := by simp [h2]
  rw [rate_transition A hsm hcut row hT, pathWave_eq _ _ _ _ hk, pathWave_eq _ _ _ _ h2, hg,
    transition_same A hA _ _ (hw _) (hw _)]

/-- The updates of boundary scattering. -/
theorem boundaryRates_val (A : PathElApp) {F : FullBands ℝ ℂ} {wave : Nat → Vec3} {np : Nat}
    (h : Holds F A.H wave np A.bands 0) (hfit : ((np * A.bands : Nat) : Int) ≤ intMax) :
    ∃ l, F.boundaryRates A.boundaryLength 0 np = .ok l ∧ ∀ ik ib, ik < np → ib < A.bands →
      (l.map fun a => if a.1 = ik * A.bands + ib then a.2 else 0).sum = boundaryWidth A (wave ik) ib := by
  have hval : ∀ k b, boundaryRate A.boundaryLength
      ![(A.H.velocity k b b 0).re, (A.H.velocity k b b 1).re, (A.H.velocity k b b 2).re] 1 = boundaryWidth A k b := by
    intro k b
    unfold boundaryRate boundaryWidth boundarySetup
    cases hL : A.boundaryLength with
    | none => rfl
    | some L =>
      simp only
      by_cases hp : 0 < L
      · rw [if_pos hp, if_pos hp]
        simp only [mul_one]
        congr 2
        simp [vdot, Fin.sum_univ_three, pow_two]
      · rw [if_neg hp, if_neg hp]
  refine ⟨((List.range np).map fun ik => (List.range A.bands).map fun ib =>
    (ik * A.bands + ib, boundaryWidth A (wave ik) ib)).flatten, ?_, ?_⟩
  · unfold FullBands.boundaryRates
    refine (congrArg (fun o : Outcome (List (List (Nat × ℝ))) => Outcome.bind o fun l => Outcome.ok l.flatten)
      (mapOutcome_ok (List.range np) (fun ik hk => ?_))).trans (Outcome.bind_ok _ _)
    rw [h.bands]
    refine mapOutcome_ok _ fun ib hib => ?_
    rw [List.mem_range] at hk hib
    have hv := (h.velocities ik hk).1 ib (by rw [h.bands]; exact hib)
    rw [h.bands] at hv
    simp only [pathIndices_val hk hib hfit, Outcome.bind_eq, Outcome.bind_ok, hv,
      readAt_map_range _ _ _ (by decide : 0 < 3), readAt_map_range _ _ _ (by decide : 1 < 3),
      readAt_map_range _ _ _ (by decide : 2 < 3), hval]
  · intro ik ib hk hib
    rw [← List.flatMap_def, sum_flatMap_map]
    refine Eq.trans ?_ (sum_single np ik hk fun ik => boundaryWidth A (wave ik) ib)
    congr 1
    apply List.map_congr_left
    intro ik1 h1
    rw [List.map_map]
    by_cases hk1 : ik1 = ik
    · subst hk1
      rw [if_pos rfl]
      refine Eq.trans ?_ (sum_single A.bands ib hib fun ib => boundaryWidth A (wave ik1) ib)
      congr 1
      apply List.map_congr_left
      intro ib1 _
      simp
    · rw [if_neg hk1]
      apply List.sum_eq_zero
      intro x hx
      obtain ⟨ib1, h1, rfl⟩ := List.mem_map.mp hx
      have : ¬ (ik1 * A.bands + ib1 = ik * A.bands + ib) := fun h => hk1 (index_inj (List.mem_range.mp h1) hib h).1
      simp [this]

/-- The linewidth of a state. -/
noncomputable def fullWidth (A : PathElApp) (c : Nat) (row : CalcRow) (k : Vec3) (b : Nat) : ℝ :=
  (if c = 0 then bandMean A k (electronWidth A row.temperature row.chemicalPotential k) b
    else electronWidth A row.temperature row.chemicalPotential k b) + boundaryWidth A k b

theorem diagonal_val (A : PathElApp) (hA : PeriodicApp A) (hw : ∀ q, SameModLattice A.cell.reciprocal (A.wrap q) q)
    (hsm : ElSmearing A.smearing) (hcut : 0 < A.cutoff) (pts : List (V3 ℝ))
    (bands : List (FullBands ℝ ℂ × FullBands ℝ ℂ)) (size : Nat) (hsize : 0 < size) (sweep : Sweep)
    (hT : ∀ row ∈ sweep.table, 0 < row.temperature)
    (hbands : ∀ r < size, ∃ b, readAt bands r = .ok b ∧
      Holds b.1 A.H (pathWave A.cell A.wrap A.mesh) A.mesh.length A.bands r ∧
      Holds b.2 A.H (pathWave A.cell A.wrap pts) pts.length A.bands r)
    (hfit : ((pts.length * A.bands : Nat) : Int) ≤ intMax) (hfit2 : pts.length * size < 18446744073709551616) :
    ∃ diag, A.diagonal pts bands size sweep = .ok diag ∧ ∀ c row ik ib (hk : ik < pts.length), sweep.table[c]? = some row →
      ib < A.bands → diag c (ik * A.bands + ib) = fullWidth A c row (cartesianOf A.cell.reciprocal pts[ik]) ib := by
  choose L hL using fun row => summedRates_val A pts bands size hsize row hbands hfit hfit2
  have hmap := mapOutcome_ok sweep.table fun row _ => (hL row).1
  obtain ⟨b, hb, _, hb2⟩ := hbands 0 hsize
  have hpts := mapOutcome_ok (List.range pts.length) fun ik hk => degPoint_val hb2 hfit (List.mem_range.mp hk)
  obtain ⟨l, hl, hl2⟩ := boundaryRates_val A hb2 hfit
  refine ⟨fun c => l.foldl (fun lw a => addAt lw a.1 a.2) (degeneracyAveraging
    ((List.range pts.length).map (degOf A.H (pathWave A.cell A.wrap pts) A.bands))
    (fun c => (sweep.table.map L).getD c fun _ => 0) c), ?_, ?_⟩
  · unfold PathElApp.diagonal
    rw [hmap]
    simp only [Outcome.bind_eq, Outcome.bind_ok]
    rw [hb]
    simp only [Outcome.bind_ok]
    rw [hpts]
    simp only [Outcome.bind_ok]
    rw [hl]
    simp only [Outcome.bind_ok]
  · intro c row ik ib hk hrow hib
    have hkk : pathWave A.cell A.wrap pts ik = A.wrap (cartesianOf A.cell.reciprocal pts[ik]) := pathWave_eq _ _ _ _ hk
    have hE : A.H.energy (pathWave A.cell A.wrap pts ik) = A.H.energy (cartesianOf A.cell.reciprocal pts[ik]) := by
      rw [hkk]; exact hA.energy _ _ (hw _)
    have hV : ∀ b i, A.H.velocity (pathWave A.cell A.wrap pts ik) b b i =
        A.H.velocity (cartesianOf A.cell.reciprocal pts[ik]) b b i := by
      rw [hkk]; exact hA.velocity _ _ (hw _)
    beta_reduce
    rw [foldl_addAt, hl2 ik ib hk hib, average_val A (pathWave A.cell A.wrap pts) pts.length _ c ik ib hk hib]
    have hmem : row ∈ sweep.table := List.mem_of_getElem? hrow
    have hval : ∀ b' < A.bands, (sweep.table.map L).getD c (fun _ => 0) (ik * A.bands + b') =
        electronWidth A row.temperature row.chemicalPotential (cartesianOf A.cell.reciprocal pts[ik]) b' := by
      intro b' hb'
      simp only [List.getD_eq_getElem?_getD, List.getElem?_map, hrow, Option.map_some, Option.getD_some]
      rw [(hL row).2 ik b' hk hb', width_eq A hA hw hsm hcut row (hT row hmem) pts hk]
    unfold fullWidth
    congr 1
    · by_cases h0 : c = 0
      · rw [if_pos h0, if_pos h0]
        unfold bandMean
        simp only [hE]
        congr 1
        apply Finset.sum_congr rfl
        intro b' hb'
        rw [Finset.mem_filter, Finset.mem_range] at hb'
        exact hval b' hb'.1
      · rw [if_neg h0, if_neg h0, hval ib hib]
    · unfold boundaryWidth
      simp only [hV]

theorem pathLists_val {β : Type} (nb np nCalc : Nat) (f : Nat → Int → Nat → Outcome β) (g : Nat → Nat → Nat → β)
    (hfit : ((np * nb : Nat) : Int) ≤ intMax)
    (h : ∀ c < nCalc, ∀ ik < np, ∀ ib < nb, f c ((ik * nb + ib : Nat) : Int) (ik * nb + ib) = .ok (g c ik ib)) :
    pathLists nb np nCalc f = .ok ((List.range nCalc).map fun c => (List.range np).map fun ik => (List.range nb).map (g c ik)) := by
  unfold pathLists
  refine mapOutcome_ok _ fun c hc => mapOutcome_ok _ fun ik hk => mapOutcome_ok _ fun ib hib => ?_
  rw [List.mem_range] at hc hk hib
  rw [pathIndices_val hk hib hfit]
  exact h c hc ik hk ib hib

theorem entryOf_map {β : Type} (nb np nCalc : Nat) (g : Nat → Nat → Nat → β) {c ik ib : Nat} (hc : c < nCalc) (hk : ik < np)
    (hb : ib < nb) :
    entryOf ((List.range nCalc).map fun c => (List.range np).map fun ik => (List.range nb).map (g c ik)) c ik ib =
      some (g c ik ib) := by
  unfold entryOf
  simp [hc, hk, hb]

/-- The file of times for a band structure along a path. -/
theorem pathTimesFile_val (u : FileUnits) (isElectron : Bool) (cell : Cell) {F : FullBands ℝ ℂ} {H : HamView Vec3 ℝ ℂ}
    {wave : Nat → Vec3} {np nb : Nat} (h : Holds F H wave np nb 0) (calcs : List (ℝ × ℝ × ℝ)) (times lw : Nat → Nat → ℝ)
    (hfit : ((np * nb : Nat) : Int) ≤ intMax) :
    pathTimesFile u isElectron cell wave np F calcs (fun c => (List.range (np * nb)).map (times c))
        (fun c => (List.range (np * nb)).map (lw c)) = .ok
      { temperatures := calcs.map fun x => x.1 * u.temperatureAuToSi
        chemicalPotentials := calcs.map fun x => if isElectron then x.2.1 * energyRyToEvOf u.time else 0
        dopings := if isElectron then some (calcs.map fun x => x.2.2) else none
        linewidths := (List.range calcs.length).map fun c => (List.range np).map fun ik => (List.range nb).map fun ib =>
          printedLinewidth u.time isElectron (lw c (ik * nb + ib))
        relaxationTimes := (List.range calcs.length).map fun c => (List.range np).map fun ik => (List.range nb).map fun ib =>
          printedTime u.time isElectron (times c (ik * nb + ib))
        normalUmklapp := none
        velocities := (List.range calcs.length).map fun _ => (List.range np).map fun ik => (List.range nb).map fun ib =>
          [(H.velocity (wave ik) ib ib 0).re * u.velocityRyToSi, (H.velocity (wave ik) ib ib 1).re * u.velocityRyToSi,
            (H.velocity (wave ik) ib ib 2).re * u.velocityRyToSi]
        energies := (List.range calcs.length).map fun _ => (List.range np).map fun ik => (List.range nb).map fun ib =>
          printedLinewidth u.time isElectron (H.energy (wave ik) ib)
        wavevectors := (List.range np).map fun ik => cell.cartesianToCrystal (wave ik) } := by
  have hlt : ∀ ik < np, ∀ ib < nb, ik * nb + ib < np * nb := by
    intro ik hk ib hb
    calc ik * nb + ib < (ik + 1) * nb := by rw [Nat.add_mul]; omega
      _ ≤ np * nb := Nat.mul_le_mul_right _ hk
  unfold pathTimesFile
  rw [h.bands]
  rw [pathLists_val nb np calcs.length _ (fun c ik ib => printedTime u.time isElectron (times c (ik * nb + ib))) hfit
    (fun c _ ik hk ib hb => by
      unfold readScaled
      rw [readAt_map_range _ _ _ (hlt ik hk ib hb)]; rfl)]
  simp only [Outcome.bind_eq, Outcome.bind_ok]
  rw [pathLists_val nb np calcs.length _ (fun c ik ib => printedLinewidth u.time isElectron (lw c (ik * nb + ib))) hfit
    (fun c _ ik hk ib hb => by
      unfold readScaled
      rw [readAt_map_range _ _ _ (hlt ik hk ib hb)]; rfl)]
  simp only [Outcome.bind_ok]
  rw [pathLists_val nb np calcs.length _ (fun c ik ib =>
      [(H.velocity (wave ik) ib ib 0).re * u.velocityRyToSi, (H.velocity (wave ik) ib ib 1).re * u.velocityRyToSi,
            (H.velocity (wave ik) ib ib 2).re * u.velocityRyToSi]) hfit
    (fun c _ ik hk ib hb => by
      have hv := (h.velocities ik hk).1 ib (by rw [h.bands]; exact hb)
      rw [h.bands] at hv
      rw [hv]
      rfl)]
  simp only [Outcome.bind_ok]
  rw [pathLists_val nb np calcs.length _ (fun c ik ib => printedLinewidth u.time isElectron (H.energy (wave ik) ib)) hfit
    (fun c _ ik hk ib hb => by
      have hv := (h.energies ik hk).2.1 ib (by rw [h.bands]; exact hb)
      rw [h.bands] at hv
      rw [hv]
      rfl)]
  rfl

/-- Crystal coordinates of the wavevectors. -/
theorem wave_coordinates {d : Mat3} {cell : Cell} (hcell : makeCell d = .ok cell) {wrap : Vec3 → Vec3}
    (hw : ∀ q, SameModLattice cell.reciprocal (wrap q) q) (pts : List (V3 ℝ)) {ik : Nat} (hk : ik < pts.length) :
    ∃ n1 n2 n3 : ℤ, cell.cartesianToCrystal (pathWave cell wrap pts ik) = ![pts[ik].x + n1, pts[ik].y + n2, pts[ik].z + n3] := by
  obtain ⟨n, hn⟩ := hw (cartesianOf cell.reciprocal pts[ik])
  refine ⟨n 0, n 1, n 2, ?_⟩
  have h := (C69_conversions d cell hcell ![pts[ik].x + n 0, pts[ik].y + n 1, pts[ik].z + n 2])
  rw [pathWave_eq _ _ _ _ hk, ← h.1]
  congr 1
  funext i
  rw [h.2.2 i, hn i]
  unfold cartesianOf
  simp [Fin.sum_univ_three]
  ring

/-- All of the run. -/
theorem run_val (A : PathElApp) (hA : PeriodicApp A) (hw : ∀ q, SameModLattice A.cell.reciprocal (A.wrap q) q)
    (hsm : ElSmearing A.smearing) (hcut : 0 < A.cutoff) (hb : 0 < A.bands) (u : FileUnits) (ang : ℝ) (c : AtomsView)
    (segs : List Segment) (delta : ℝ) (pts : List (V3 ℝ)) (hp : pathPoints segs delta = .ok pts) (idx : List Nat)
    (hi : highSymIndices segs pts = .ok idx) (sched : Nat → List FullStore → List FullStore)
    (hs : ∀ r l, (sched r l).Perm l) (sweep : Sweep) (hT : ∀ row ∈ sweep.table, 0 < row.temperature) (size : Nat)
    (hsize : 0 < size) (hle : size ≤ pts.length) (hle' : size ≤ A.mesh.length)
    (hfit : ((pts.length * A.bands : Nat) : Int) ≤ intMax) (hfitm : ((A.mesh.length * A.bands : Nat) : Int) ≤ intMax)
    (hfit' : ((A.bands * A.bands * 3 : Nat) : Int) ≤ intMax) (hfit2 : pts.length * size < 18446744073709551616) :
    ∃ (t : TimesOutput) (diag : Nat → Nat → ℝ), A.run u ang c segs delta sched sweep size =
        .ok (t, some (fileOf A.H A.bands (pathWave A.cell A.wrap pts) (energyRyToEvOf u.time) ang false false c segs pts idx)) ∧
      t = { temperatures := sweep.table.map fun x => x.temperature * u.temperatureAuToSi
            chemicalPotentials := sweep.table.map fun x => x.chemicalPotential * energyRyToEvOf u.time
            dopings := some (sweep.table.map fun x => x.doping)
            linewidths := (List.range sweep.table.length).map fun c => (List.range pts.length).map fun ik =>
              (List.range A.bands).map fun ib => printedLinewidth u.time true (diag c (ik * A.bands + ib))
            relaxationTimes := (List.range sweep.table.length).map fun c => (List.range pts.length).map fun ik =>
              (List.range A.bands).map fun ib => printedTime u.time true (1 / diag c (ik * A.bands + ib))
            normalUmklapp := none
            velocities := (List.range sweep.table.length).map fun _ => (List.range pts.length).map fun ik =>
              (List.range A.bands).map fun ib =>
              [(A.H.velocity (pathWave A.cell A.wrap pts ik) ib ib 0).re * u.velocityRyToSi,
                (A.H.velocity (pathWave A.cell A.wrap pts ik) ib ib 1).re * u.velocityRyToSi,
                (A.H.velocity (pathWave A.cell A.wrap pts ik) ib ib 2).re * u.velocityRyToSi]
            energies := (List.range sweep.table.length).map fun _ => (List.range pts.length).map fun ik =>
              (List.range A.bands).map fun ib => printedLinewidth u.time true (A.H.energy (pathWave A.cell A.wrap pts ik) ib)
            wavevectors := (List.range pts.length).map fun ik => A.cell.cartesianToCrystal (pathWave A.cell A.wrap pts ik) } ∧
      ∀ c row ik ib (hk : ik < pts.length), sweep.table[c]? = some row →
        ib < A.bands → diag c (ik * A.bands + ib) = fullWidth A c row (cartesianOf A.cell.reciprocal pts[ik]) ib := by
  have hpop : ∀ r, ∃ b : FullBands ℝ ℂ × FullBands ℝ ℂ, r < size → (do
      let inner ← A.populate A.mesh (sched r) size r
      let outer ← A.populate pts (sched r) size r
      .ok (inner, outer)) = .ok b ∧
      Holds b.1 A.H (pathWave A.cell A.wrap A.mesh) A.mesh.length A.bands r ∧
      Holds b.2 A.H (pathWave A.cell A.wrap pts) pts.length A.bands r := by
    intro r
    by_cases hr : r < size
    · obtain ⟨F1, h1, h2⟩ := populate_val A A.mesh (sched r) size r hle' hr hb hfitm hfit' (hs r)
      obtain ⟨F2, h3, h4⟩ := populate_val A pts (sched r) size r hle hr hb hfit hfit' (hs r)
      refine ⟨(F1, F2), fun _ => ⟨?_, h2, h4⟩⟩
      rw [h1, h3]
      rfl
    · exact ⟨(⟨0, 0, false, false, .empty, .empty, .empty⟩, ⟨0, 0, false, false, .empty, .empty, .empty⟩), fun h => absurd h hr⟩
  choose B hB using hpop
  have hmap := mapOutcome_ok (List.range size) fun r hr => (hB r (List.mem_range.mp hr)).1
  have hread : ∀ r < size, readAt ((List.range size).map B) r = .ok (B r) := fun r hr => readAt_map_range _ _ _ hr
  obtain ⟨diag, d1, d2⟩ := diagonal_val A hA hw hsm hcut pts ((List.range size).map B) size hsize sweep hT
    (fun r hr => ⟨B r, hread r hr, (hB r hr).2⟩) hfit hfit2
  have hlw : linewidthsOf none true true (fun _ _ => 0) diag = .ok diag := rfl
  have htet : refusesTetra A.smearing = false := by
    cases h : A.smearing with
    | gaussian w => rfl
    | adaptive c q => rfl
    | tetra f => rw [h] at hsm; exact absurd hsm id
  have hF := (hB 0 hsize).2.2
  have hfile := pathTimesFile_val u true A.cell hF (sweep.table.map fun r => (r.temperature, r.chemicalPotential, r.doping))
    (timesOf none true (fun _ _ => 0) diag) diag hfit
  have hout := output_val (H := A.H) (F := (B 0).2) (coords := pathWave A.cell A.wrap pts) (energyRyToEvOf u.time) ang false false
    c segs pts idx hi hF.energies (by simp) (by simp)
  rw [hF.bands] at hout
  refine ⟨_, diag, ?_, rfl, d2⟩
  unfold PathElApp.run
  rw [hp]
  simp only [Outcome.bind_eq, Outcome.bind_ok] at hmap ⊢
  rw [hmap]
  simp only [Outcome.bind_ok]
  rw [htet, if_neg (by simp), d1]
  simp only [Outcome.bind_ok]
  rw [hlw]
  simp only [Outcome.bind_ok]
  rw [hread 0 hsize]
  simp only [Outcome.bind_ok]
  rw [hfile]
  simp only [Outcome.bind_ok]
  rw [hout]
  simp only [Outcome.bind_ok, List.map_map, List.length_map, Function.comp_def, if_true]
  rfl

end Verif.Proofs
