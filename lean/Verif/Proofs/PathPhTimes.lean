import Verif.Spec.PathPhTimes
import Verif.Proofs.PathTimes

/-!
# Lemmas for the phonon lifetimes along a path
-/
namespace Verif.Proofs
open Verif.Model Verif.Spec Verif.Props

/-- The same crystal for the lemmas about electrons that do not depend on the couplings. -/
noncomputable def shim (A : PathPhApp) : PathElApp :=
  ⟨A.bands, 0, A.H, A.cell, A.wrap, A.mesh, fun _ _ => 0, fun _ _ _ _ _ => 0, A.smearing, A.cutoff, A.boundaryLength⟩

theorem ph_populate_val (A : PathPhApp) (pts : List (V3 ℝ)) (batchSize : Int)
    (sched : List FullStore × List FullStore → List FullStore) (size rank : Nat)
    (hle : size ≤ pts.length) (hr : rank < size) (hb : 0 < A.bands) (h3 : 3 ∣ A.bands)
    (hfit : ((pts.length * A.bands : Nat) : Int) ≤ intMax) (hfit' : ((A.bands * A.bands * 3 : Nat) : Int) ≤ intMax)
    (hbatch : 0 < batchSize) (hs : GoodSched sched) :
    ∃ F, A.populate pts batchSize sched size rank = .ok F ∧
      Holds F A.H (pathWave A.cell A.wrap pts) pts.length A.bands rank := by
  obtain ⟨F, iks, e1, e2, e3⟩ := C165_values size rank A.bands pts.length hb hle hr hfit hfit' true true true false
    (fun _ => h3) A.H (pathWave A.cell A.wrap pts) Complex.re
  obtain ⟨F0, iks0, g1, g2, _, g4⟩ := C165_wavevectors (α := ℝ) (γ := ℂ) size A.bands pts.length (by omega) hb hle true true
    true false (fun _ => h3)
  rw [e1, Outcome.ok.injEq] at g1
  subst g1
  have hiks : iks = List.range pts.length := by
    have h := g2 rank hr
    rw [e2, Outcome.ok.injEq] at h
    rw [h, g4 rfl rank hr]
  have hne : iks ≠ [] := by
    rw [hiks]
    intro h
    have := congrArg List.length h
    simp at this
    rw [this] at hle
    simp at hle
    omega
  have hbig : iks.length ≤ 1073741823 := by
    rw [hiks, List.length_range]
    obtain ⟨m, hm⟩ := h3
    rw [hm] at hfit hb
    have hm : 1 ≤ m := by omega
    have : pts.length * 3 ≤ pts.length * (3 * m) := Nat.mul_le_mul_left _ (by omega)
    have h4 : ((pts.length * (3 * m) : Nat) : Int) ≤ 2147483647 := hfit
    omega
  obtain ⟨bs, b1, b2⟩ := C165_phonon_partial true true batchSize iks hne hbatch hbig
  obtain ⟨F', r1, r2, _, _, _, r6, _⟩ := e3 _ (b2 (bs.map sched) (forall2_map sched _ (fun b => hs b) bs))
  have hmem : ∀ ik < pts.length, ik ∈ iks := fun ik h => by rw [hiks]; exact List.mem_range.mpr h
  refine ⟨F', ?_, ⟨r2, fun ik h => (r6 ik (hmem ik h)).1, fun ik h => (r6 ik (hmem ik h)).2.1 rfl⟩⟩
  unfold PathPhApp.populate
  simp only [Outcome.bind_eq]
  rw [e1, Outcome.bind_ok, e2, Outcome.bind_ok, b1, Outcome.bind_ok, r1]

/-! ### The excluded states -/

theorem bteEnergies_val {F : FullBands ℝ ℂ} {H : HamView Vec3 ℝ ℂ} {wave : Nat → Vec3} {np nb rank : Nat}
    (h : Holds F H wave np nb rank) :
    F.bteEnergies rank np = .ok ((List.range (np * nb)).map fun s => H.energy (wave (s / nb)) (s % nb)) := by
  unfold FullBands.bteEnergies
  rw [h.bands]
  refine mapOutcome_ok _ fun s hs => ?_
  rw [List.mem_range] at hs
  have hpos : 0 < nb := by
    by_contra h0
    have : nb = 0 := by omega
    subst this
    simp at hs
  have hk : s / nb < np := (Nat.div_lt_iff_lt_mul hpos).mpr hs
  have := (h.energies _ hk).2.1 (s % nb) (by rw [h.bands]; exact Nat.mod_lt _ hpos)
  rw [h.bands, Nat.div_add_mod'] at this
  exact this

/-- The indices that the program excludes. -/
noncomputable def exclOf (A : PathPhApp) (wave : Nat → Vec3) (np : Nat) : List Nat :=
  excludeIndices A.exclude ((List.range (np * A.bands)).map fun s => A.H.energy (wave (s / A.bands)) (s % A.bands))

theorem mem_exclOf (A : PathPhApp) (wave : Nat → Vec3) (np ik ib : Nat) (hb : ib < A.bands) :
    ik * A.bands + ib ∈ exclOf A wave np ↔ ik < np ∧ A.H.energy (wave ik) ib < A.exclude := by
  have hpos : 0 < A.bands := by omega
  have h1 : (ik * A.bands + ib) / A.bands = ik := by
    rw [mul_comm, Nat.mul_add_div hpos, Nat.div_eq_of_lt hb, add_zero]
  have h2 : (ik * A.bands + ib) % A.bands = ib := by
    rw [mul_comm, Nat.mul_add_mod, Nat.mod_eq_of_lt hb]
  have h3 : ik * A.bands + ib < np * A.bands ↔ ik < np := by
    rw [← Nat.div_lt_iff_lt_mul hpos, h1]
  unfold exclOf excludeIndices
  rw [List.mem_filter, List.mem_range, List.length_map, List.length_range, h3]
  constructor
  · rintro ⟨ha, hb⟩
    refine ⟨ha, ?_⟩
    have hlt := h3.mpr ha
    simpa [hlt, h1, h2] using hb
  · rintro ⟨ha, hb⟩
    refine ⟨ha, ?_⟩
    have hlt := h3.mpr ha
    simpa [hlt, h1, h2] using hb

/-! ### One pair of wavevectors -/

/-- The phonon of a wavevector. -/
noncomputable def phAt (A : PathPhApp) (row : CalcRow) (k : Vec3) (b : Nat) : PhState := withBose row (stateAt A.H k b)

/-- The updates of two states. -/
noncomputable def updateList (A : PathPhApp) (row : CalcRow) (k1 k2 qp qm : Vec3) (b1 b2 : Nat) : List ℝ :=
  ((List.range A.bands).map fun b3 => 0.5 * ratePlus A.setup (A.plus k1 k2 b1 b2 b3) (phAt A row k1 b1) (phAt A row k2 b2)
      (phAt A row qp b3)) ++
    ((List.range A.bands).map fun b3 => 0.5 * (rateMinus1 A.setup (A.minus k1 k2 b1 b2 b3) (phAt A row k1 b1)
      (phAt A row k2 b2) (phAt A row qm b3) + rateMinus2 A.setup (A.minus k1 k2 b1 b2 b3) (phAt A row k1 b1)
      (phAt A row k2 b2) (phAt A row qm b3))) ++
    match A.overlap with
    | none => []
    | some o => [rateIso A.setup (o k1 k2 b1 b2) (phAt A row k1 b1) (phAt A row k2 b2)]

theorem updates_val (A : PathPhApp) (row : CalcRow) (k1 k2 qp qm : Vec3) (b1 b2 : Nat) :
    A.updates k1 k2 (A.third row qp) (A.third row qm) b1 b2 (phAt A row k1 b1) (phAt A row k2 b2) =
      .ok (updateList A row k1 k2 qp qm b1 b2) := by
  unfold PathPhApp.updates
  have hlen : ∀ q, (A.third row q).length = A.bands := fun q => by simp [PathPhApp.third]
  have hread : ∀ q b, b < A.bands → readAt (A.third row q) b = .ok (phAt A row q b) := fun q b hb =>
    readAt_map_range _ _ _ hb
  rw [hlen, hlen]
  rw [mapOutcome_ok (List.range A.bands) (fun b3 hb3 => by
      rw [hread _ _ (List.mem_range.mp hb3)]; exact Outcome.bind_ok _ _),
    mapOutcome_ok (List.range A.bands) (fun b3 hb3 => by
      rw [hread _ _ (List.mem_range.mp hb3)]; exact Outcome.bind_ok _ _)]
  rfl

/-- What a wavevector of the mesh adds to the linewidth of a state. -/
noncomputable def meshSum (A : PathPhApp) (row : CalcRow) (excl : List Nat) (k1 k2 qp qm : Vec3) (ik1 ik2 b : Nat) : ℝ :=
  ∑ b2 ∈ Finset.range A.bands, if ik1 * A.bands + b ∈ excl ∨ ik2 * A.bands + b2 ∈ excl then 0
    else (updateList A row k1 k2 qp qm b b2).sum

/-- The list of the updates of a pair. -/
noncomputable def pairUpdates (A : PathPhApp) (row : CalcRow) (excl : List Nat) (k1 k2 qp qm : Vec3) (ik1 ik2 : Nat) :
    List (List (List (Nat × ℝ))) :=
  (List.range A.bands).map fun b1 => (List.range A.bands).map fun b2 =>
    if ik1 * A.bands + b1 ∈ excl ∨ ik2 * A.bands + b2 ∈ excl then []
    else (updateList A row k1 k2 qp qm b1 b2).map fun x => (ik1 * A.bands + b1, x)

theorem sum_same (l : List ℝ) (i j : Nat) :
    ((l.map fun x => (i, x)).map fun a : Nat × ℝ => if a.1 = j then a.2 else 0).sum = if i = j then l.sum else 0 := by
  rw [List.map_map]
  by_cases h : i = j
  · simp [Function.comp_def, h]
  · simp [Function.comp_def, h]

theorem pairUpdates_sum (A : PathPhApp) (row : CalcRow) (excl : List Nat) (k1 k2 qp qm : Vec3) (ik1 ik2 ik ib : Nat)
    (hib : ib < A.bands) :
    ((pairUpdates A row excl k1 k2 qp qm ik1 ik2).flatten.flatten.map fun a => if a.1 = ik * A.bands + ib then a.2 else 0).sum =
      if ik1 = ik then meshSum A row excl k1 k2 qp qm ik1 ik2 ib else 0 := by
  unfold pairUpdates
  rw [← List.flatMap_def, ← List.flatMap_id, List.flatMap_assoc, sum_flatMap_map]
  have h : ∀ b1 ∈ List.range A.bands, ((((List.range A.bands).map fun b2 =>
      if ik1 * A.bands + b1 ∈ excl ∨ ik2 * A.bands + b2 ∈ excl then []
      else (updateList A row k1 k2 qp qm b1 b2).map fun x => (ik1 * A.bands + b1, x)).flatMap id).map
        fun a : Nat × ℝ => if a.1 = ik * A.bands + ib then a.2 else 0).sum =
      if b1 = ib then (if ik1 = ik then meshSum A row excl k1 k2 qp qm ik1 ik2 b1 else 0) else 0 := by
    intro b1 hb1
    rw [List.mem_range] at hb1
    rw [sum_flatMap_map, List.map_map]
    have hone : ∀ b2, (((if ik1 * A.bands + b1 ∈ excl ∨ ik2 * A.bands + b2 ∈ excl then []
        else (updateList A row k1 k2 qp qm b1 b2).map fun x => (ik1 * A.bands + b1, x)) : List (Nat × ℝ)).map
        fun a => if a.1 = ik * A.bands + ib then a.2 else 0).sum =
        if ik1 * A.bands + b1 = ik * A.bands + ib then (if ik1 * A.bands + b1 ∈ excl ∨ ik2 * A.bands + b2 ∈ excl then 0
          else (updateList A row k1 k2 qp qm b1 b2).sum) else 0 := by
      intro b2
      by_cases he : ik1 * A.bands + b1 ∈ excl ∨ ik2 * A.bands + b2 ∈ excl
      · rw [if_pos he, if_pos he]; simp
      · rw [if_neg he, if_neg he, sum_same]
    simp only [Function.comp_def, id, hone]
    rw [list_range_sum]
    by_cases hk : ik1 = ik
    · by_cases hb : b1 = ib
      · subst hk; subst hb
        simp [meshSum]
      · have : ¬ (ik1 * A.bands + b1 = ik * A.bands + ib) := fun h => hb (index_inj hb1 hib h).2
        simp [this, hb]
    · have : ¬ (ik1 * A.bands + b1 = ik * A.bands + ib) := fun h => hk (index_inj hb1 hib h).1
      simp [this, hk]
  rw [List.map_congr_left h]
  exact sum_single A.bands ib hib fun b => if ik1 = ik then meshSum A row excl k1 k2 qp qm ik1 ik2 b else 0

section
variable {rank : Nat} (A : PathPhApp) (pts : List (V3 ℝ)) (row : CalcRow) (excl : List Nat)

/-- The update list of points `ik1` of the path and `ik2` of the mesh. -/
noncomputable def pointUpdates (ik1 ik2 : Nat) : List (List (List (Nat × ℝ))) :=
  pairUpdates A row excl (pathWave A.cell A.wrap pts ik1) (pathWave A.cell A.wrap A.mesh ik2)
    (fun i => plainWave A.cell pts ik1 i + plainWave A.cell A.mesh ik2 i)
    (fun i => plainWave A.cell pts ik1 i - plainWave A.cell A.mesh ik2 i) ik1 ik2

/-- What point `ik2` of the mesh adds to a state of point `ik1` of the path. -/
noncomputable def pointSum (ik1 ik2 b : Nat) : ℝ :=
  meshSum A row excl (pathWave A.cell A.wrap pts ik1) (pathWave A.cell A.wrap A.mesh ik2)
    (fun i => plainWave A.cell pts ik1 i + plainWave A.cell A.mesh ik2 i)
    (fun i => plainWave A.cell pts ik1 i - plainWave A.cell A.mesh ik2 i) ik1 ik2 b

theorem ph_pairRates_val {inner outer : FullBands ℝ ℂ}
    (hin : Holds inner A.H (pathWave A.cell A.wrap A.mesh) A.mesh.length A.bands rank)
    (hout : Holds outer A.H (pathWave A.cell A.wrap pts) pts.length A.bands rank)
    (hfit : ((pts.length * A.bands : Nat) : Int) ≤ intMax) (hfitm : ((A.mesh.length * A.bands : Nat) : Int) ≤ intMax)
    {ik1 ik2 : Nat} (h1 : ik1 < pts.length) (h2 : ik2 < A.mesh.length) :
    A.pairRates pts inner outer excl rank row ik1 ik2 = .ok (pointUpdates A pts row excl ik1 ik2).flatten.flatten := by
  unfold PathPhApp.pairRates pointUpdates pairUpdates
  rw [elStates_val hout h1, elStates_val hin h2]
  simp only [Outcome.bind_eq, Outcome.bind_ok, List.length_map, List.length_range]
  refine (congrArg (fun o : Outcome (List (List (List (Nat × ℝ)))) => Outcome.bind o fun l => Outcome.ok l.flatten.flatten)
    (mapOutcome_ok (List.range A.bands) (fun ib1 hb1 => mapOutcome_ok (List.range A.bands) fun ib2 hb2 => ?_))).trans
    (Outcome.bind_ok _ _)
  rw [List.mem_range] at hb1 hb2
  beta_reduce
  rw [readAt_map_range _ _ _ hb1]
  simp only [Outcome.bind_ok]
  rw [readAt_map_range _ _ _ hb2]
  simp only [Outcome.bind_ok]
  have := updates_val A row (pathWave A.cell A.wrap pts ik1) (pathWave A.cell A.wrap A.mesh ik2)
    (fun i => plainWave A.cell pts ik1 i + plainWave A.cell A.mesh ik2 i)
    (fun i => plainWave A.cell pts ik1 i - plainWave A.cell A.mesh ik2 i) ib1 ib2
  unfold phAt at this
  rw [this]
  simp only [Outcome.bind_ok]
  unfold keepUpdates
  rw [hout.bands, hin.bands, pathIndices_val h1 hb1 hfit, pathIndices_val h2 hb2 hfitm]
  simp only [Outcome.bind_eq, Outcome.bind_ok]

private theorem mapOutcome_after {α β γ : Type} (f : β → Outcome γ) (g : α → β) (l : List α) :
    mapOutcome f (l.map g) = mapOutcome (fun a => f (g a)) l := by
  induction l with
  | nil => rfl
  | cons a t ih => simp only [List.map_cons, mapOutcome, ih]

/-- Value of the linewidths of one process. -/
theorem ph_processRates_val {inner outer : FullBands ℝ ℂ}
    (hin : Holds inner A.H (pathWave A.cell A.wrap A.mesh) A.mesh.length A.bands rank)
    (hout : Holds outer A.H (pathWave A.cell A.wrap pts) pts.length A.bands rank)
    (hfit : ((pts.length * A.bands : Nat) : Int) ≤ intMax) (hfitm : ((A.mesh.length * A.bands : Nat) : Int) ≤ intMax)
    (ks : List Nat) (hks : ∀ k ∈ ks, k < A.mesh.length) :
    ∃ lw, A.processRates pts inner outer excl rank row (ks.map fun (iq2 : Nat) =>
        ((List.range pts.length).map fun (k : Nat) => (k : Int), (iq2 : Int))) = .ok lw ∧
      ∀ ik ib, ik < pts.length → ib < A.bands →
        lw (ik * A.bands + ib) = (ks.map fun ik2 => pointSum A pts row excl ik ik2 ib).sum := by
  refine ⟨(((ks.map fun ik2 => (List.range pts.length).map fun ik1 =>
      (pointUpdates A pts row excl ik1 ik2).flatten.flatten)).flatten.flatten).foldl (fun lw a => addAt lw a.1 a.2) fun _ => 0,
      ?_, ?_⟩
  · unfold PathPhApp.processRates
    rw [mapOutcome_after]
    refine (congrArg (fun o : Outcome (List (List (List (Nat × ℝ)))) => Outcome.bind o fun l =>
      Outcome.ok (l.flatten.flatten.foldl (fun lw a => addAt lw a.1 a.2) fun _ => 0)) (mapOutcome_ok ks fun ik2 h2 => ?_)).trans (Outcome.bind_ok _ _)
    rw [mapOutcome_after]
    refine mapOutcome_ok _ fun ik1 h1 => ?_
    simp only [Int.toNat_natCast]
    exact ph_pairRates_val A pts row excl hin hout hfit hfitm (List.mem_range.mp h1) (hks _ h2)
  · intro ik ib hik hib
    rw [foldl_addAt, zero_add, ← List.flatMap_def, ← List.flatMap_id, List.flatMap_assoc, sum_flatMap_map]
    congr 1
    apply List.map_congr_left
    intro ik2 _
    rw [sum_flatMap_map, List.map_map]
    simp only [Function.comp_def, id, pointUpdates, pairUpdates_sum A row excl _ _ _ _ _ _ ik ib hib]
    exact sum_single pts.length ik hik fun ik1 => pointSum A pts row excl ik1 ik2 ib

end

theorem iter_slice {n size r : Nat} (hn : n * size < 18446744073709551616) (hr : r < size) :
    divideWorkIter n r size = .ok (sliceOf (List.range n) r size) := by
  rw [divideWorkIter_val hn hr]
  unfold sliceOf
  rw [List.length_range, divideWork_val hn hr]
  have hle : head n size (r + 1) ≤ n := by
    unfold head
    exact (Nat.div_le_iff_le_mul_add_pred (by omega)).mpr (by nlinarith)
  congr 1
  simp only
  apply List.ext_getElem
  · simp only [List.length_range', List.length_take, List.length_drop, List.length_range]
    omega
  · intro i h1 h2
    simp

/-- The sum over the processes. -/
theorem ph_summedRates_val (A : PathPhApp) (pts : List (V3 ℝ)) (bands : List (FullBands ℝ ℂ × FullBands ℝ ℂ)) (size : Nat)
    (hsize : 0 < size) (row : CalcRow)
    (hbands : ∀ r < size, ∃ b, readAt bands r = .ok b ∧
      Holds b.1 A.H (pathWave A.cell A.wrap A.mesh) A.mesh.length A.bands r ∧
      Holds b.2 A.H (pathWave A.cell A.wrap pts) pts.length A.bands r)
    (hfit : ((pts.length * A.bands : Nat) : Int) ≤ intMax) (hfitm : ((A.mesh.length * A.bands : Nat) : Int) ≤ intMax)
    (hfit2 : A.mesh.length * size < 18446744073709551616) :
    ∃ lw, A.summedRates pts bands size row = .ok lw ∧ ∀ ik ib, ik < pts.length → ib < A.bands →
      lw (ik * A.bands + ib) = ∑ ik2 ∈ Finset.range A.mesh.length,
        pointSum A pts row (exclOf A (pathWave A.cell A.wrap pts) pts.length) ik ik2 ib := by
  set excl := exclOf A (pathWave A.cell A.wrap pts) pts.length with hexcl
  have hpart : ∀ r, ∃ lw : Nat → ℝ, r < size → (do
      let b ← readAt bands r
      let e ← b.2.bteEnergies r pts.length
      let items ← phPairs false false 0 id (fun k => [k]) (List.range pts.length) A.mesh.length [] r size
      A.processRates pts b.1 b.2 (excludeIndices A.exclude e) r row items) = .ok lw ∧
        ∀ ik ib, ik < pts.length → ib < A.bands → lw (ik * A.bands + ib) =
        ((sliceOf (List.range A.mesh.length) r size).map fun ik2 => pointSum A pts row excl ik ik2 ib).sum := by
    intro r
    by_cases hr : r < size
    · obtain ⟨b, h1, h2, h3⟩ := hbands r hr
      obtain ⟨lw, h4, h5⟩ := ph_processRates_val A pts row excl h2 h3 hfit hfitm (sliceOf (List.range A.mesh.length) r size) (by
        intro k hk
        have : k ∈ (List.range size).flatMap fun r => sliceOf (List.range A.mesh.length) r size :=
          List.mem_flatMap.mpr ⟨r, List.mem_range.mpr hr, hk⟩
        rw [slices_flatten _ size hsize (by simpa using hfit2)] at this
        exact List.mem_range.mp this)
      refine ⟨lw, fun _ => ⟨?_, h5⟩⟩
      rw [h1]
      simp only [Outcome.bind_eq, Outcome.bind_ok]
      rw [bteEnergies_val h3]
      simp only [Outcome.bind_ok]
      have hitems : phPairs false false 0 id (fun k => [k]) (List.range pts.length) A.mesh.length [] r size =
          .ok ((sliceOf (List.range A.mesh.length) r size).map fun (iq2 : Nat) =>
            ((List.range pts.length).map fun (k : Nat) => (k : Int), (iq2 : Int))) := by
        unfold phPairs
        rw [if_neg (by simp), iter_slice hfit2 hr]
        rfl
      rw [hitems]
      exact h4
    · exact ⟨fun _ => 0, fun h => absurd h hr⟩
  choose L hL using hpart
  have hmap := mapOutcome_ok (List.range size) fun r hr => (hL r (List.mem_range.mp hr)).1
  obtain ⟨lw, hlw⟩ : ∃ lw, readAt (allReduceSum1 ((List.range size).map L)) 0 = .ok lw := by
    refine ⟨_, readAt_ok ?_⟩
    rw [allReduceSum1_length]
    simpa using hsize
  refine ⟨lw, ?_, ?_⟩
  · unfold PathPhApp.summedRates
    rw [hmap]
    exact hlw
  · intro ik ib hik hib
    have hmem : lw ∈ allReduceSum1 ((List.range size).map L) := by
      unfold readAt at hlw
      split at hlw
      · rename_i x hx
        cases hlw
        exact List.mem_of_getElem? hx
      · cases hlw
    rw [mem_allReduceSum1 _ _ hmem, List.map_map]
    have e : ((List.range size).map ((fun b : Nat → ℝ => b (ik * A.bands + ib)) ∘ L)).sum =
        ((List.range size).map fun r => ((sliceOf (List.range A.mesh.length) r size).map fun ik2 =>
          pointSum A pts row excl ik ik2 ib).sum).sum := by
      congr 1
      apply List.map_congr_left
      intro r hr
      exact (hL r (List.mem_range.mp hr)).2 ik ib hik hib
    rw [e, ← sum_flatMap_map, slices_flatten _ size hsize (by simpa using hfit2), list_range_sum]

/-! ### The rates -/

theorem plainWave_eq (cell : Cell) (pts : List (V3 ℝ)) {ik : Nat} (h : ik < pts.length) :
    plainWave cell pts ik = cartesianOf cell.reciprocal pts[ik] := pathWave_eq cell id pts ik h

theorem phAt_same (A : PathPhApp) (hA : PeriodicPhonons A) (row : CalcRow) {k q : Vec3}
    (h : SameModLattice A.cell.reciprocal k q) (b : Nat) : phAt A row k b = phAt A row q b := by
  unfold phAt stateAt
  simp only [hA.energy k q h, hA.velocity k q h]

theorem updateList_same (A : PathPhApp) (hA : PeriodicPhonons A) (row : CalcRow) {k q k' q' : Vec3} (qp qm : Vec3)
    (h : SameModLattice A.cell.reciprocal k q) (h' : SameModLattice A.cell.reciprocal k' q') (b b2 : Nat) :
    updateList A row k k' qp qm b b2 = updateList A row q q' qp qm b b2 := by
  unfold updateList
  rw [hA.plus k q k' q' h h', hA.minus k q k' q' h h', phAt_same A hA row h, phAt_same A hA row h']
  congr 1
  cases ho : A.overlap with
  | none => rfl
  | some o => simp only [hA.overlap o ho k q k' q' h h']

theorem deltaValue_nonneg {sm : Smearing} (h : ElSmearing sm) (x : ℝ) (v : Vec3) : 0 ≤ deltaValue sm x v := by
  cases sm with
  | gaussian w => exact (C41_bounds w _ h).1
  | adaptive c q => exact C42_nonneg c h q _ _
  | tetra f => exact absurd h id

/-- Phonons with positive energies have the Bose-Einstein population. -/
theorem phAt_bose (A : PathPhApp) (row : CalcRow) (hT : 0 < row.temperature) (hmu : row.chemicalPotential = 0) (k : Vec3) (b : Nat)
    (he : 0 < A.H.energy k b) : (phAt A row k b).bose = boseOccupation (A.H.energy k b) row.temperature := by
  show getPopulation .bose (A.H.energy k b) row.temperature row.chemicalPotential = _
  rw [hmu, getPopulation_bose hT he, sub_zero]
  rfl

section
variable (A : PathPhApp) (hsm : ElSmearing A.smearing) (row : CalcRow) (hT : 0 < row.temperature)
  (hmu : row.chemicalPotential = 0) (k k2 : Vec3) (b b2 b3 : Nat)
include hsm hT hmu

theorem plus_term (qp : Vec3) (hqp : qp = fun i => k i + k2 i) (h1 : 0 < A.H.energy k b) (h2 : 0 < A.H.energy k2 b2)
    (hcut : 0 < A.cutoff)
    (hprod : A.H.energy k b * A.H.energy k2 b2 * A.H.energy qp b3 < A.cutoff ↔ A.H.energy qp b3 < A.cutoff) :
    ratePlus A.setup (A.plus k k2 b b2 b3) (phAt A row k b) (phAt A row k2 b2) (phAt A row qp b3) =
      Real.pi / 4 * coalescence A row.temperature k b k2 b2 b3 / A.mesh.length := by
  subst hqp
  set qp : Vec3 := fun i => k i + k2 i with hqp
  unfold ratePlus coalescence
  simp only [← hqp]
  have hen : ∀ q b, (phAt A row q b).energy = A.H.energy q b := fun _ _ => rfl
  have hcutv : cutOff A.setup.outerEqualInnerMesh A.setup.energyCutoff (phAt A row k b).energy (phAt A row k2 b2).energy
      (phAt A row qp b3).energy = decide (A.H.energy qp b3 < A.cutoff) := by
    unfold cutOff
    rw [if_neg (by simp [PathPhApp.setup])]
    exact decide_eq_decide.mpr hprod
  rw [hcutv]
  by_cases h3 : A.H.energy qp b3 < A.cutoff
  · rw [if_pos (by simpa using h3), if_pos h3]; simp
  · rw [if_neg (by simpa using h3), if_neg h3]
    have h3' : 0 < A.H.energy qp b3 := by linarith
    have hd : deltaPlus A.setup.smearing (phAt A row k b) (phAt A row k2 b2) (phAt A row qp b3) =
        phononDelta A (A.H.energy k b + A.H.energy k2 b2 - A.H.energy qp b3) k2 b2 qp b3 := by
      unfold deltaPlus phononDelta deltaValue
      show (match A.smearing with | .gaussian w => _ | .adaptive c q => _ | .tetra f => _) = _
      cases hs : A.smearing with
      | gaussian w => rfl
      | adaptive c q => rfl
      | tetra f => rw [hs] at hsm; exact absurd hsm id
    have hnn : 0 ≤ phononDelta A (A.H.energy k b + A.H.energy k2 b2 - A.H.energy qp b3) k2 b2 qp b3 :=
      deltaValue_nonneg hsm _ _
    rw [hd, hen, hen, hen, phAt_bose A row hT hmu k b h1, phAt_bose A row hT hmu k2 b2 h2, phAt_bose A row hT hmu qp b3 h3']
    have hnorm : A.setup.norm = 1 / (A.mesh.length : ℝ) := rfl
    by_cases h0 : phononDelta A (A.H.energy k b + A.H.energy k2 b2 - A.H.energy qp b3) k2 b2 qp b3 ≤ 0
    · rw [if_pos h0, le_antisymm h0 hnn]; simp
    · rw [if_neg h0, hnorm]
      ring

theorem minus_term (qm : Vec3) (hqm : qm = fun i => k i - k2 i) (h1 : 0 < A.H.energy k b) (h2 : 0 < A.H.energy k2 b2)
    (hcut : 0 < A.cutoff)
    (hprod : A.H.energy k b * A.H.energy k2 b2 * A.H.energy qm b3 < A.cutoff ↔ A.H.energy qm b3 < A.cutoff) :
    rateMinus1 A.setup (A.minus k k2 b b2 b3) (phAt A row k b) (phAt A row k2 b2) (phAt A row qm b3) +
        rateMinus2 A.setup (A.minus k k2 b b2 b3) (phAt A row k b) (phAt A row k2 b2) (phAt A row qm b3) =
      Real.pi / 4 * decay A row.temperature k b k2 b2 b3 / A.mesh.length := by
  subst hqm
  set qm : Vec3 := fun i => k i - k2 i with hqm
  unfold rateMinus1 rateMinus2 decay
  simp only [← hqm]
  have hen : ∀ q b, (phAt A row q b).energy = A.H.energy q b := fun _ _ => rfl
  have hcutv : cutOff A.setup.outerEqualInnerMesh A.setup.energyCutoff (phAt A row k b).energy (phAt A row k2 b2).energy
      (phAt A row qm b3).energy = decide (A.H.energy qm b3 < A.cutoff) := by
    unfold cutOff
    rw [if_neg (by simp [PathPhApp.setup])]
    exact decide_eq_decide.mpr hprod
  rw [hcutv]
  by_cases h3 : A.H.energy qm b3 < A.cutoff
  · simp [h3]
  · have hf : (decide (A.H.energy qm b3 < A.cutoff)) = false := by simpa using h3
    rw [hf, if_neg (by simp), if_neg (by simp), if_neg h3]
    have h3' : 0 < A.H.energy qm b3 := by linarith
    have hd1 : deltaMinus1 A.setup.smearing (phAt A row k b) (phAt A row k2 b2) (phAt A row qm b3) =
        phononDelta A (A.H.energy k b + A.H.energy qm b3 - A.H.energy k2 b2) k2 b2 qm b3 := by
      have hnn : 0 ≤ phononDelta A (A.H.energy k b + A.H.energy qm b3 - A.H.energy k2 b2) k2 b2 qm b3 :=
        deltaValue_nonneg hsm _ _
      rw [show phononDelta A (A.H.energy k b + A.H.energy qm b3 - A.H.energy k2 b2) k2 b2 qm b3 =
        if phononDelta A (A.H.energy k b + A.H.energy qm b3 - A.H.energy k2 b2) k2 b2 qm b3 < 0 then 0 else
          phononDelta A (A.H.energy k b + A.H.energy qm b3 - A.H.energy k2 b2) k2 b2 qm b3 from (if_neg (not_lt.mpr hnn)).symm]
      unfold deltaMinus1 phononDelta deltaValue
      have : A.setup.smearing = A.smearing := rfl
      rw [this]
      cases hs : A.smearing with
      | gaussian w => rfl
      | adaptive c q => rfl
      | tetra f => rw [hs] at hsm; exact absurd hsm id
    have hd2 : deltaMinus2 A.setup.smearing (phAt A row k b) (phAt A row k2 b2) (phAt A row qm b3) =
        phononDelta A (A.H.energy k2 b2 + A.H.energy qm b3 - A.H.energy k b) k2 b2 qm b3 := by
      have hnn : 0 ≤ phononDelta A (A.H.energy k2 b2 + A.H.energy qm b3 - A.H.energy k b) k2 b2 qm b3 :=
        deltaValue_nonneg hsm _ _
      rw [show phononDelta A (A.H.energy k2 b2 + A.H.energy qm b3 - A.H.energy k b) k2 b2 qm b3 =
        if phononDelta A (A.H.energy k2 b2 + A.H.energy qm b3 - A.H.energy k b) k2 b2 qm b3 < 0 then 0 else
          phononDelta A (A.H.energy k2 b2 + A.H.energy qm b3 - A.H.energy k b) k2 b2 qm b3 from (if_neg (not_lt.mpr hnn)).symm]
      unfold deltaMinus2 phononDelta deltaValue
      have : A.setup.smearing = A.smearing := rfl
      rw [this]
      cases hs : A.smearing with
      | gaussian w => rfl
      | adaptive c q => rfl
      | tetra f => rw [hs] at hsm; exact absurd hsm id
    rw [hd1, hd2, hen, hen, hen, phAt_bose A row hT hmu k b h1, phAt_bose A row hT hmu k2 b2 h2, phAt_bose A row hT hmu qm b3 h3']
    have hnorm : A.setup.norm = 1 / (A.mesh.length : ℝ) := rfl
    rw [hnorm]
    ring

omit hsm in
theorem iso_term (hiso : GoodIsotopes A) (o : Vec3 → Vec3 → Nat → Nat → ℝ) (ho : A.overlap = some o) (hcut : 0 < A.cutoff)
    (h1 : A.cutoff ≤ A.H.energy k b) (h2 : A.cutoff ≤ A.H.energy k2 b2) :
    rateIso A.setup (o k k2 b b2) (phAt A row k b) (phAt A row k2 b2) =
      Real.pi / 2 * isotopes A row.temperature k b k2 b2 / A.mesh.length := by
  obtain ⟨w, hw⟩ := hiso.resolve_left (by rw [ho]; simp)
  unfold rateIso isotopes
  have hen : ∀ q b, (phAt A row q b).energy = A.H.energy q b := fun _ _ => rfl
  have hno : ¬ ((phAt A row k b).energy < A.setup.energyCutoff ∨ (phAt A row k2 b2).energy < A.setup.energyCutoff) := by
    show ¬ (A.H.energy k b < A.cutoff ∨ A.H.energy k2 b2 < A.cutoff)
    rintro (h | h) <;> linarith
  rw [if_neg hno, ho]
  have hd : deltaIso A.setup.smearing (phAt A row k b) (phAt A row k2 b2) =
      gaussianSmearing w (A.H.energy k b - A.H.energy k2 b2) := by
    have : A.setup.smearing = A.smearing := rfl
    rw [this, hw]
    rfl
  have hv : ∀ x v, deltaValue A.smearing x v = gaussianSmearing w x := fun x v => by rw [hw]; rfl
  have hnorm : A.setup.norm = 1 / (A.mesh.length : ℝ) := rfl
  simp only [hd, hv, hen, hnorm, phAt_bose A row hT hmu k b (by linarith), phAt_bose A row hT hmu k2 b2 (by linarith)]
  ring

end

theorem updateList_sum (A : PathPhApp) (row : CalcRow) (k1 k2 qp qm : Vec3) (b1 b2 : Nat) :
    (updateList A row k1 k2 qp qm b1 b2).sum =
      ∑ b3 ∈ Finset.range A.bands, (0.5 * ratePlus A.setup (A.plus k1 k2 b1 b2 b3) (phAt A row k1 b1) (phAt A row k2 b2)
          (phAt A row qp b3) +
        0.5 * (rateMinus1 A.setup (A.minus k1 k2 b1 b2 b3) (phAt A row k1 b1) (phAt A row k2 b2) (phAt A row qm b3) +
          rateMinus2 A.setup (A.minus k1 k2 b1 b2 b3) (phAt A row k1 b1) (phAt A row k2 b2) (phAt A row qm b3))) +
      (match A.overlap with
        | none => 0
        | some o => rateIso A.setup (o k1 k2 b1 b2) (phAt A row k1 b1) (phAt A row k2 b2)) := by
  unfold updateList
  rw [List.sum_append, List.sum_append, list_range_sum, list_range_sum, Finset.sum_add_distrib]
  congr 1
  cases A.overlap <;> simp

/-- The specification of what one mesh state adds to a state. -/
noncomputable def stateTerm (A : PathPhApp) (T : ℝ) (q : Vec3) (b : Nat) (q2 : Vec3) (b2 : Nat) : ℝ :=
  if A.H.energy q2 b2 < A.exclude then 0 else
    Real.pi / 8 * (∑ b3 ∈ Finset.range A.bands, (coalescence A T q b q2 b2 b3 + decay A T q b q2 b2 b3)) +
      Real.pi / 2 * isotopes A T q b q2 b2

section
variable (A : PathPhApp) (hsm : ElSmearing A.smearing) (hiso : GoodIsotopes A) (hcut : 0 < A.cutoff)
  (hle : A.cutoff ≤ A.exclude) (pts : List (V3 ℝ)) (hproc : SameProcesses A pts) (row : CalcRow) (hT : 0 < row.temperature)
  (hmu : row.chemicalPotential = 0)
include hsm hiso hcut hle hproc hT hmu

/-- The updates of two states are the terms of the specification. -/
theorem update_term {p p2 : V3 ℝ} (hp : p ∈ pts) (hp2 : p2 ∈ A.mesh) {b b2 : Nat} (hb : b < A.bands) (hb2 : b2 < A.bands)
    (he : A.exclude ≤ A.H.energy (cartesianOf A.cell.reciprocal p) b) :
    (updateList A row (cartesianOf A.cell.reciprocal p) (cartesianOf A.cell.reciprocal p2)
      (fun i => cartesianOf A.cell.reciprocal p i + cartesianOf A.cell.reciprocal p2 i)
      (fun i => cartesianOf A.cell.reciprocal p i - cartesianOf A.cell.reciprocal p2 i) b b2).sum =
      stateTerm A row.temperature (cartesianOf A.cell.reciprocal p) b (cartesianOf A.cell.reciprocal p2) b2 / A.mesh.length := by
  set k := cartesianOf A.cell.reciprocal p with hk
  set k2 := cartesianOf A.cell.reciprocal p2 with hk2
  have h1 : 0 < A.H.energy k b := by linarith
  have hplus : ∀ b3 < A.bands, (A.H.energy k b * A.H.energy k2 b2 * A.H.energy (fun i => k i + k2 i) b3 < A.cutoff ↔
      A.H.energy k2 b2 < A.exclude ∨ A.H.energy (fun i => k i + k2 i) b3 < A.cutoff) := by
    intro b3 hb3
    have := hproc.product p hp p2 hp2 b hb b2 hb2 b3 hb3 1 (.inl rfl) he
    simpa only [one_mul] using this
  have hminus : ∀ b3 < A.bands, (A.H.energy k b * A.H.energy k2 b2 * A.H.energy (fun i => k i - k2 i) b3 < A.cutoff ↔
      A.H.energy k2 b2 < A.exclude ∨ A.H.energy (fun i => k i - k2 i) b3 < A.cutoff) := by
    intro b3 hb3
    have := hproc.product p hp p2 hp2 b hb b2 hb2 b3 hb3 (-1) (.inr rfl) he
    simpa only [neg_one_mul, ← sub_eq_add_neg] using this
  rw [updateList_sum]
  unfold stateTerm
  by_cases he2 : A.H.energy k2 b2 < A.exclude
  · rw [if_pos he2, zero_div]
    have hskip : ∀ q b3, A.H.energy k b * A.H.energy k2 b2 * A.H.energy q b3 < A.cutoff →
        cutOff A.setup.outerEqualInnerMesh A.setup.energyCutoff (phAt A row k b).energy (phAt A row k2 b2).energy
          (phAt A row q b3).energy = true := by
      intro q b3 h
      unfold cutOff
      rw [if_neg (by simp [PathPhApp.setup])]
      exact decide_eq_true h
    have hz : ∑ b3 ∈ Finset.range A.bands, (0.5 * ratePlus A.setup (A.plus k k2 b b2 b3) (phAt A row k b) (phAt A row k2 b2)
          (phAt A row (fun i => k i + k2 i) b3) +
        0.5 * (rateMinus1 A.setup (A.minus k k2 b b2 b3) (phAt A row k b) (phAt A row k2 b2)
            (phAt A row (fun i => k i - k2 i) b3) +
          rateMinus2 A.setup (A.minus k k2 b b2 b3) (phAt A row k b) (phAt A row k2 b2)
            (phAt A row (fun i => k i - k2 i) b3))) = 0 := by
      apply Finset.sum_eq_zero
      intro b3 hb3
      rw [Finset.mem_range] at hb3
      have c1 := hskip _ b3 ((hplus b3 hb3).mpr (.inl he2))
      have c2 := hskip _ b3 ((hminus b3 hb3).mpr (.inl he2))
      unfold ratePlus rateMinus1 rateMinus2
      simp only [c1, c2, if_true]
      norm_num
    rw [hz, zero_add]
    cases ho : A.overlap with
    | none => rfl
    | some o =>
      have := hproc.between p2 hp2 b2 hb2 he2
      unfold rateIso
      exact if_pos (.inr this)
  · rw [if_neg he2]
    have h2 : 0 < A.H.energy k2 b2 := by linarith
    have hs : ∑ b3 ∈ Finset.range A.bands, (0.5 * ratePlus A.setup (A.plus k k2 b b2 b3) (phAt A row k b) (phAt A row k2 b2)
          (phAt A row (fun i => k i + k2 i) b3) +
        0.5 * (rateMinus1 A.setup (A.minus k k2 b b2 b3) (phAt A row k b) (phAt A row k2 b2)
            (phAt A row (fun i => k i - k2 i) b3) +
          rateMinus2 A.setup (A.minus k k2 b b2 b3) (phAt A row k b) (phAt A row k2 b2)
            (phAt A row (fun i => k i - k2 i) b3))) =
        Real.pi / 8 * (∑ b3 ∈ Finset.range A.bands, (coalescence A row.temperature k b k2 b2 b3 +
          decay A row.temperature k b k2 b2 b3)) / A.mesh.length := by
      rw [Finset.mul_sum, Finset.sum_div]
      apply Finset.sum_congr rfl
      intro b3 hb3
      rw [Finset.mem_range] at hb3
      rw [plus_term A hsm row hT hmu k k2 b b2 b3 _ rfl h1 h2 hcut (by rw [hplus b3 hb3]; simp [he2]),
        minus_term A hsm row hT hmu k k2 b b2 b3 _ rfl h1 h2 hcut (by rw [hminus b3 hb3]; simp [he2])]
      ring
    rw [hs, add_div]
    congr 1
    cases ho : A.overlap with
    | none =>
      unfold isotopes
      rw [ho]
      simp
    | some o => exact iso_term A row hT hmu k k2 b b2 hiso o ho hcut (by linarith) (by linarith)

/-- The sum over the mesh is the rate of the specification. -/
theorem rate_eq (hA : PeriodicPhonons A) (hw : ∀ q, SameModLattice A.cell.reciprocal (A.wrap q) q) {ik : Nat}
    (hk : ik < pts.length) {b : Nat} (hb : b < A.bands) :
    ∑ ik2 ∈ Finset.range A.mesh.length, pointSum A pts row (exclOf A (pathWave A.cell A.wrap pts) pts.length) ik ik2 b =
      phononRate A row.temperature (cartesianOf A.cell.reciprocal pts[ik]) b := by
  have hE : ∀ i (hi : i < pts.length), A.H.energy (pathWave A.cell A.wrap pts i) =
      A.H.energy (cartesianOf A.cell.reciprocal pts[i]) := by
    intro i hi
    rw [pathWave_eq _ _ _ _ hi]
    exact hA.energy _ _ (hw _)
  set excl := exclOf A (pathWave A.cell A.wrap pts) pts.length with hexcl
  unfold phononRate
  by_cases he : A.H.energy (cartesianOf A.cell.reciprocal pts[ik]) b < A.exclude
  · rw [if_pos he]
    apply Finset.sum_eq_zero
    intro ik2 _
    have hin : ik * A.bands + b ∈ excl := (mem_exclOf A _ _ _ _ hb).mpr ⟨hk, by rw [hE ik hk]; exact he⟩
    unfold pointSum meshSum
    apply Finset.sum_eq_zero
    intro b2 _
    rw [if_pos (.inl hin)]
  · rw [if_neg he, sum_map_range, Finset.sum_div]
    apply Finset.sum_congr rfl
    intro ik2 h2
    rw [Finset.mem_range] at h2
    have hg : A.mesh.getD ik2 ⟨0, 0, 0⟩ = A.mesh[ik2] := by simp [h2]
    rw [hg, Finset.sum_div]
    unfold pointSum meshSum
    apply Finset.sum_congr rfl
    intro b2 hb2
    rw [Finset.mem_range] at hb2
    have hnot : ik * A.bands + b ∉ excl := by
      rw [mem_exclOf A _ _ _ _ hb]
      rintro ⟨_, h⟩
      rw [hE ik hk] at h
      exact he h
    have hterm := update_term A hsm hiso hcut hle pts hproc row hT hmu (List.getElem_mem hk) (List.getElem_mem h2) hb hb2
      (not_lt.mp he)
    by_cases h22 : ik2 * A.bands + b2 ∈ excl
    · rw [if_pos (.inr h22)]
      obtain ⟨hp, hlt⟩ := (mem_exclOf A _ _ _ _ hb2).mp h22
      rw [hE ik2 hp] at hlt
      have := hproc.place ik2 hp h2 b2 hb2 hlt
      simp only [if_pos this]
      simp
    · rw [if_neg (by rintro (h | h); exacts [hnot h, h22 h])]
      rw [plainWave_eq A.cell pts hk, plainWave_eq A.cell A.mesh h2, pathWave_eq _ _ _ _ hk, pathWave_eq _ _ _ _ h2,
        updateList_same A hA row _ _ (hw _) (hw _), hterm]
      rfl

end

/-! ### The vector of the BTE and the files -/

/-- The updates of boundary scattering. -/
theorem ph_boundaryRates_val (A : PathPhApp) {F : FullBands ℝ ℂ} {wave : Nat → Vec3} {np : Nat}
    (h : Holds F A.H wave np A.bands 0) (hfit : ((np * A.bands : Nat) : Int) ≤ intMax) (row : CalcRow) :
    ∃ l, F.phBoundaryRates A.boundaryLength (exclOf A wave np) 0 np row = .ok l ∧ ∀ ik ib, ik < np → ib < A.bands →
      (l.map fun a => if a.1 = ik * A.bands + ib then a.2 else 0).sum = if ik * A.bands + ib ∈ exclOf A wave np then 0 else
        edgeWidth A (wave ik) ib * getPopPopPm1 .bose (A.H.energy (wave ik) ib) row.temperature 0 := by
  set excl := exclOf A wave np with hexcl
  have hval : ∀ k b pop, boundaryRate A.boundaryLength
      ![(A.H.velocity k b b 0).re, (A.H.velocity k b b 1).re, (A.H.velocity k b b 2).re] pop = edgeWidth A k b * pop := by
    intro k b pop
    unfold boundaryRate edgeWidth boundarySetup
    cases hL : A.boundaryLength with
    | none => simp
    | some L =>
      simp only
      by_cases hp : 0 < L
      · rw [if_pos hp, if_pos hp]
        simp only
        congr 3
        simp [vdot, Fin.sum_univ_three, pow_two, phononVelocity]
      · rw [if_neg hp, if_neg hp, zero_mul]
  refine ⟨((List.range np).map fun ik => (List.range A.bands).map fun ib =>
    if ik * A.bands + ib ∈ excl then [] else [(ik * A.bands + ib, edgeWidth A (wave ik) ib *
      getPopPopPm1 .bose (A.H.energy (wave ik) ib) row.temperature 0)]).flatten.flatten, ?_, ?_⟩
  · unfold FullBands.phBoundaryRates
    refine (congrArg (fun o : Outcome (List (List (List (Nat × ℝ)))) => Outcome.bind o fun l => Outcome.ok l.flatten.flatten)
      (mapOutcome_ok (List.range np) (fun ik hk => ?_))).trans (Outcome.bind_ok _ _)
    rw [h.bands]
    refine mapOutcome_ok _ fun ib hib => ?_
    rw [List.mem_range] at hk hib
    have hv := (h.velocities ik hk).1 ib (by rw [h.bands]; exact hib)
    have he := (h.energies ik hk).2.1 ib (by rw [h.bands]; exact hib)
    rw [h.bands] at hv he
    simp only [pathIndices_val hk hib hfit, Outcome.bind_eq, Outcome.bind_ok, hv, he,
      readAt_map_range _ _ _ (by decide : 0 < 3), readAt_map_range _ _ _ (by decide : 1 < 3),
      readAt_map_range _ _ _ (by decide : 2 < 3), hval]
  · intro ik ib hk hib
    rw [← List.flatMap_def, ← List.flatMap_id, List.flatMap_assoc, sum_flatMap_map]
    refine Eq.trans ?_ (sum_single np ik hk fun ik => if ik * A.bands + ib ∈ excl then 0 else
        edgeWidth A (wave ik) ib * getPopPopPm1 .bose (A.H.energy (wave ik) ib) row.temperature 0)
    congr 1
    apply List.map_congr_left
    intro ik1 h1
    rw [sum_flatMap_map, List.map_map]
    have hone : ∀ ib1 ∈ List.range A.bands, ((fun x : List (Nat × ℝ) =>
        ((id x).map fun a => if a.1 = ik * A.bands + ib then a.2 else 0).sum) ∘ fun ib =>
        if ik1 * A.bands + ib ∈ excl then [] else [(ik1 * A.bands + ib, edgeWidth A (wave ik1) ib *
          getPopPopPm1 .bose (A.H.energy (wave ik1) ib) row.temperature 0)]) ib1 =
        if ib1 = ib then (if ik1 = ik then (if ik1 * A.bands + ib1 ∈ excl then 0 else edgeWidth A (wave ik1) ib1 *
          getPopPopPm1 .bose (A.H.energy (wave ik1) ib1) row.temperature 0) else 0) else 0 := by
      intro ib1 hb1
      rw [List.mem_range] at hb1
      simp only [Function.comp, id]
      by_cases hx : ik1 * A.bands + ib1 ∈ excl
      · simp [hx]
      · rw [if_neg hx, if_neg hx]
        simp only [List.map_cons, List.map_nil, List.sum_cons, List.sum_nil, add_zero]
        by_cases hb : ib1 = ib
        · by_cases hk1 : ik1 = ik
          · simp [hb, hk1]
          · have : ¬ (ik1 * A.bands + ib1 = ik * A.bands + ib) := fun h => hk1 (index_inj hb1 hib h).1
            simp [this, hk1]
        · have : ¬ (ik1 * A.bands + ib1 = ik * A.bands + ib) := fun h => hb (index_inj hb1 hib h).2
          simp [this, hb]
    rw [List.map_congr_left hone]
    exact sum_single A.bands ib hib fun ib1 => if ik1 = ik then (if ik1 * A.bands + ib1 ∈ excl then 0 else
      edgeWidth A (wave ik1) ib1 * getPopPopPm1 .bose (A.H.energy (wave ik1) ib1) row.temperature 0) else 0

/-- The sum over the mesh that the program makes for a state of the path. -/
noncomputable def rawRate (A : PathPhApp) (pts : List (V3 ℝ)) (row : CalcRow) (ik b : Nat) : ℝ :=
  ∑ ik2 ∈ Finset.range A.mesh.length, pointSum A pts row (exclOf A (pathWave A.cell A.wrap pts) pts.length) ik ik2 b

/-- The entry of the vector of the BTE. -/
noncomputable def rawDiagonal (A : PathPhApp) (pts : List (V3 ℝ)) (c : Nat) (row : CalcRow) (k : Vec3) (ik b : Nat) : ℝ :=
  if A.H.energy k b < A.exclude then 0 else
    (if c = 0 then modeMean A k (rawRate A pts row ik) b else rawRate A pts row ik b) +
      edgeWidth A k b * getPopPopPm1 .bose (A.H.energy k b) row.temperature 0

theorem ph_diagonal_val (A : PathPhApp) (hA : PeriodicPhonons A) (hw : ∀ q, SameModLattice A.cell.reciprocal (A.wrap q) q)
    (pts : List (V3 ℝ)) (bands : List (FullBands ℝ ℂ × FullBands ℝ ℂ)) (size : Nat) (hsize : 0 < size) (sweep : Sweep)
    (hbands : ∀ r < size, ∃ b, readAt bands r = .ok b ∧
      Holds b.1 A.H (pathWave A.cell A.wrap A.mesh) A.mesh.length A.bands r ∧
      Holds b.2 A.H (pathWave A.cell A.wrap pts) pts.length A.bands r)
    (hfit : ((pts.length * A.bands : Nat) : Int) ≤ intMax) (hfitm : ((A.mesh.length * A.bands : Nat) : Int) ≤ intMax)
    (hfit2 : A.mesh.length * size < 18446744073709551616) :
    ∃ diag, A.diagonal pts bands size sweep = .ok diag ∧ ∀ c row ik ib (hk : ik < pts.length), sweep.table[c]? = some row →
      ib < A.bands → diag c (ik * A.bands + ib) =
        rawDiagonal A pts c row (cartesianOf A.cell.reciprocal pts[ik]) ik ib := by
  choose L hL using fun row => ph_summedRates_val A pts bands size hsize row hbands hfit hfitm hfit2
  have hmap := mapOutcome_ok sweep.table fun row _ => (hL row).1
  obtain ⟨b, hb, _, hb2⟩ := hbands 0 hsize
  have hpts := mapOutcome_ok (List.range pts.length) fun ik hk => degPoint_val hb2 hfit (List.mem_range.mp hk)
  choose E hE1 using fun row => ph_boundaryRates_val A hb2 hfit row
  have hmap2 := mapOutcome_ok sweep.table fun row _ => (hE1 row).1
  refine ⟨fun c s => if s ∈ exclOf A (pathWave A.cell A.wrap pts) pts.length then 0 else
    ((sweep.table.map E).getD c []).foldl (fun lw a => addAt lw a.1 a.2) (degeneracyAveraging
    ((List.range pts.length).map (degOf A.H (pathWave A.cell A.wrap pts) A.bands))
    (fun c => (sweep.table.map L).getD c fun _ => 0) c) s, ?_, ?_⟩
  · unfold PathPhApp.diagonal
    rw [hmap]
    simp only [Outcome.bind_eq, Outcome.bind_ok]
    rw [hb]
    simp only [Outcome.bind_ok]
    rw [bteEnergies_val hb2]
    simp only [Outcome.bind_ok]
    rw [hpts]
    simp only [Outcome.bind_ok]
    unfold exclOf at hmap2
    rw [hmap2]
    simp only [Outcome.bind_ok]
    rfl
  · intro c row ik ib hk hrow hib
    have hkk : pathWave A.cell A.wrap pts ik = A.wrap (cartesianOf A.cell.reciprocal pts[ik]) := pathWave_eq _ _ _ _ hk
    have hE : A.H.energy (pathWave A.cell A.wrap pts ik) = A.H.energy (cartesianOf A.cell.reciprocal pts[ik]) := by
      rw [hkk]; exact hA.energy _ _ (hw _)
    have hV : ∀ b i, A.H.velocity (pathWave A.cell A.wrap pts ik) b b i =
        A.H.velocity (cartesianOf A.cell.reciprocal pts[ik]) b b i := by
      rw [hkk]; exact hA.velocity _ _ (hw _)
    have hmemx : ik * A.bands + ib ∈ exclOf A (pathWave A.cell A.wrap pts) pts.length ↔
        A.H.energy (cartesianOf A.cell.reciprocal pts[ik]) ib < A.exclude := by
      rw [mem_exclOf A _ _ _ _ hib, hE]
      exact ⟨fun h => h.2, fun h => ⟨hk, h⟩⟩
    have hav : degeneracyAveraging ((List.range pts.length).map (degOf A.H (pathWave A.cell A.wrap pts) A.bands))
        (fun c => (sweep.table.map L).getD c fun _ => 0) c (ik * A.bands + ib) = _ :=
      average_val (shim A) (pathWave A.cell A.wrap pts) pts.length _ c ik ib hk hib
    beta_reduce
    unfold rawDiagonal
    by_cases hx : A.H.energy (cartesianOf A.cell.reciprocal pts[ik]) ib < A.exclude
    · rw [if_pos hx, if_pos (hmemx.mpr hx)]
    · have hx' : ¬ ik * A.bands + ib ∈ exclOf A (pathWave A.cell A.wrap pts) pts.length := fun h => hx (hmemx.mp h)
      rw [if_neg hx, if_neg hx', foldl_addAt, List.getD_eq_getElem?_getD, List.getElem?_map, hrow, Option.map_some,
        Option.getD_some, (hE1 row).2 ik ib hk hib, if_neg hx', hav]
      have hval : ∀ b' < A.bands, (sweep.table.map L).getD c (fun _ => 0) (ik * A.bands + b') = rawRate A pts row ik b' := by
        intro b' hb'
        simp only [List.getD_eq_getElem?_getD, List.getElem?_map, hrow, Option.map_some, Option.getD_some]
        exact (hL row).2 ik b' hk hb'
      congr 1
      · by_cases h0 : c = 0
        · rw [if_pos h0, if_pos h0]
          unfold bandMean modeMean shim
          simp only [hE]
          congr 1
          apply Finset.sum_congr rfl
          intro b' hb'
          rw [Finset.mem_filter, Finset.mem_range] at hb'
          exact hval b' hb'.1
        · rw [if_neg h0, if_neg h0]
          exact hval ib hib
      · rw [hE]
        congr 1
        unfold edgeWidth phononVelocity
        simp only [hV]

theorem ph_run_val (A : PathPhApp) (hA : PeriodicPhonons A) (hw : ∀ q, SameModLattice A.cell.reciprocal (A.wrap q) q)
    (hb : 0 < A.bands) (h3 : 3 ∣ A.bands) (u : FileUnits) (ang : ℝ) (c : AtomsView)
    (segs : List Segment) (delta : ℝ) (pts : List (V3 ℝ)) (hp : pathPoints segs delta = .ok pts) (idx : List Nat)
    (hi : highSymIndices segs pts = .ok idx) (batch : Nat → Int) (hbatch : ∀ r, 0 < batch r)
    (sched : Nat → List FullStore × List FullStore → List FullStore) (hs : ∀ r, GoodSched (sched r)) (sweep : Sweep)
    (size : Nat) (hsize : 0 < size) (hle : size ≤ pts.length) (hle' : size ≤ A.mesh.length)
    (hfit : ((pts.length * A.bands : Nat) : Int) ≤ intMax) (hfitm : ((A.mesh.length * A.bands : Nat) : Int) ≤ intMax)
    (hfit' : ((A.bands * A.bands * 3 : Nat) : Int) ≤ intMax) :
    ∃ (t : TimesOutput) (diag pop : Nat → Nat → ℝ), A.run u ang c segs delta batch sched sweep size =
        .ok (t, some (fileOf A.H A.bands (pathWave A.cell A.wrap pts) (energyRyToEvOf u.time) ang true false c segs pts idx)) ∧
      t = { temperatures := sweep.table.map fun x => x.temperature * u.temperatureAuToSi
            chemicalPotentials := sweep.table.map fun _ => 0
            dopings := none
            linewidths := (List.range sweep.table.length).map fun c => (List.range pts.length).map fun ik =>
              (List.range A.bands).map fun ib => printedLinewidth u.time false (diag c (ik * A.bands + ib) / pop c (ik * A.bands + ib))
            relaxationTimes := (List.range sweep.table.length).map fun c => (List.range pts.length).map fun ik =>
              (List.range A.bands).map fun ib => printedTime u.time false (pop c (ik * A.bands + ib) / diag c (ik * A.bands + ib))
            normalUmklapp := none
            velocities := (List.range sweep.table.length).map fun _ => (List.range pts.length).map fun ik =>
              (List.range A.bands).map fun ib =>
              [(A.H.velocity (pathWave A.cell A.wrap pts ik) ib ib 0).re * u.velocityRyToSi,
                (A.H.velocity (pathWave A.cell A.wrap pts ik) ib ib 1).re * u.velocityRyToSi,
                (A.H.velocity (pathWave A.cell A.wrap pts ik) ib ib 2).re * u.velocityRyToSi]
            energies := (List.range sweep.table.length).map fun _ => (List.range pts.length).map fun ik =>
              (List.range A.bands).map fun ib => printedLinewidth u.time false (A.H.energy (pathWave A.cell A.wrap pts ik) ib)
            wavevectors := (List.range pts.length).map fun ik => A.cell.cartesianToCrystal (pathWave A.cell A.wrap pts ik) } ∧
      ∀ c row ik ib (hk : ik < pts.length), sweep.table[c]? = some row → ib < A.bands →
        diag c (ik * A.bands + ib) = rawDiagonal A pts c row (cartesianOf A.cell.reciprocal pts[ik]) ik ib ∧
        pop c (ik * A.bands + ib) = getPopPopPm1 .bose (A.H.energy (cartesianOf A.cell.reciprocal pts[ik]) ib)
          row.temperature row.chemicalPotential := by
  have hfit2 : A.mesh.length * size < 18446744073709551616 := by
    have h1 : A.mesh.length ≤ A.mesh.length * A.bands := Nat.le_mul_of_pos_right _ hb
    have h2 : ((A.mesh.length * A.bands : Nat) : Int) ≤ 2147483647 := hfitm
    have h3 : A.mesh.length ≤ 2147483647 := by omega
    calc A.mesh.length * size ≤ 2147483647 * 2147483647 := Nat.mul_le_mul h3 (by omega)
      _ < 18446744073709551616 := by norm_num
  have hpop : ∀ r, ∃ b : FullBands ℝ ℂ × FullBands ℝ ℂ, r < size → (do
      let inner ← A.populate A.mesh (batch r) (sched r) size r
      let outer ← A.populate pts (batch r) (sched r) size r
      .ok (inner, outer)) = .ok b ∧
      Holds b.1 A.H (pathWave A.cell A.wrap A.mesh) A.mesh.length A.bands r ∧
      Holds b.2 A.H (pathWave A.cell A.wrap pts) pts.length A.bands r := by
    intro r
    by_cases hr : r < size
    · obtain ⟨F1, h1, h2⟩ := ph_populate_val A A.mesh (batch r) (sched r) size r hle' hr hb h3 hfitm hfit' (hbatch r) (hs r)
      obtain ⟨F2, h3, h4⟩ := ph_populate_val A pts (batch r) (sched r) size r hle hr hb h3 hfit hfit' (hbatch r) (hs r)
      refine ⟨(F1, F2), fun _ => ⟨?_, h2, h4⟩⟩
      rw [h1, h3]
      rfl
    · exact ⟨(⟨0, 0, false, false, .empty, .empty, .empty⟩, ⟨0, 0, false, false, .empty, .empty, .empty⟩), fun h => absurd h hr⟩
  choose B hB using hpop
  have hmap := mapOutcome_ok (List.range size) fun r hr => (hB r (List.mem_range.mp hr)).1
  have hread : ∀ r < size, readAt ((List.range size).map B) r = .ok (B r) := fun r hr => readAt_map_range _ _ _ hr
  obtain ⟨diag, d1, d2⟩ := ph_diagonal_val A hA hw pts ((List.range size).map B) size hsize sweep
    (fun r hr => ⟨B r, hread r hr, (hB r hr).2⟩) hfit hfitm hfit2
  have hF := (hB 0 hsize).2.2
  set e := (List.range (pts.length * A.bands)).map fun s => A.H.energy (pathWave A.cell A.wrap pts (s / A.bands)) (s % A.bands)
    with he
  set pop : Nat → Nat → ℝ := popFactors sweep e with hpopdef
  have hlw : linewidthsOf none false false pop diag = .ok fun c b => diag c b / pop c b := rfl
  have hfile := pathTimesFile_val u false A.cell hF (sweep.table.map fun r => (r.temperature, r.chemicalPotential, r.doping))
    (timesOf none false pop diag) (fun c b => diag c b / pop c b) hfit
  have hout := output_val (H := A.H) (F := (B 0).2) (coords := pathWave A.cell A.wrap pts) (energyRyToEvOf u.time) ang true false
    c segs pts idx hi hF.energies (by simp) (by simp)
  rw [hF.bands] at hout
  refine ⟨_, diag, pop, ?_, rfl, ?_⟩
  · unfold PathPhApp.run
    rw [hp]
    simp only [Outcome.bind_eq, Outcome.bind_ok] at hmap ⊢
    rw [hmap]
    simp only [Outcome.bind_ok]
    rw [d1]
    simp only [Outcome.bind_ok]
    rw [hread 0 hsize]
    simp only [Outcome.bind_ok]
    rw [bteEnergies_val hF, ← he]
    simp only [Outcome.bind_ok]
    rw [← hpopdef, hlw]
    simp only [Outcome.bind_ok]
    rw [hfile]
    simp only [Outcome.bind_ok]
    rw [hout]
    simp only [Outcome.bind_ok, List.map_map, List.length_map, Function.comp_def]
    rfl
  · intro c row ik ib hk hrow hib
    refine ⟨d2 c row ik ib hk hrow hib, ?_⟩
    have hlt : ik * A.bands + ib < pts.length * A.bands := by
      calc ik * A.bands + ib < ik * A.bands + A.bands := by omega
        _ = (ik + 1) * A.bands := by ring
        _ ≤ pts.length * A.bands := Nat.mul_le_mul_right _ (by omega)
    have h1 : (ik * A.bands + ib) / A.bands = ik := by
      rw [mul_comm, Nat.mul_add_div hb, Nat.div_eq_of_lt hib, add_zero]
    have h2 : (ik * A.bands + ib) % A.bands = ib := by
      rw [mul_comm, Nat.mul_add_mod, Nat.mod_eq_of_lt hib]
    have hE : A.H.energy (pathWave A.cell A.wrap pts ik) = A.H.energy (cartesianOf A.cell.reciprocal pts[ik]) := by
      rw [pathWave_eq _ _ _ _ hk]; exact hA.energy _ _ (hw _)
    have hv : e.getD (ik * A.bands + ib) 0 = A.H.energy (cartesianOf A.cell.reciprocal pts[ik]) ib := by
      rw [he]
      simp [hlt, h1, h2, hE]
    rw [hpopdef]
    unfold popFactors
    simp only [hrow, hv]

end Verif.Proofs
