import Verif.Proofs.Gather
import Verif.Props.Bands

/-! # C34: the active states do not depend on the parallel layout -/
namespace Verif.Props
open Verif.Model

/-- Threads: every complete execution of the parallel region, for every number of threads, division of the
points in consecutive chunks, and interleaving, yields the results of the serial scan of the points of the
process. -/
theorem C34_threads {β : Type} (sel : Nat → Option β) (pts : List Nat) (chunks : List (List Nat))
    (hc : chunks.flatten = pts) (merged : List (Nat × β)) (h : ScanRun sel chunks merged) :
    merged = pts.filterMap fun ik => (sel ik).map fun b => (ik, b) := by
  rw [scanRun_eq sel chunks merged h, hc]; rfl

/-- The region cannot get stuck: from every reachable state the end can be reached. -/
theorem C34_no_deadlock {β : Type} (sel : Nat → Option β) (chunks : List (List Nat)) (s : ScanState β)
    (h : Relation.ReflTransGen (ScanStep sel) (scanStart chunks) s) :
    ∃ s', Relation.ReflTransGen (ScanStep sel) s s' ∧ s'.next = s'.threads.length := by
  have hinv : ∀ s, Relation.ReflTransGen (ScanStep sel) (scanStart (β := β) chunks) s → s.next ≤ s.threads.length := by
    intro s hs
    induction hs with
    | refl => simp [scanStart]
    | tail _ hstep ih =>
      cases hstep with
      | scan i ik rest found hi => simpa using ih
      | merge found hf =>
        obtain ⟨hl, _⟩ := List.getElem?_eq_some_iff.mp hf
        exact hl
  -- measure: points to scan plus merges to do
  obtain ⟨m, hm⟩ : ∃ m, m = (s.threads.map fun t => t.todo.length).sum + (s.threads.length - s.next) := ⟨_, rfl⟩
  induction m using Nat.strong_induction_on generalizing s with
  | _ m ih =>
    have hle := hinv s h
    rcases Nat.lt_or_ge s.next s.threads.length with hlt | hge
    · obtain ⟨⟨todo, found⟩, ht⟩ : ∃ t, s.threads[s.next]? = some t := ⟨_, List.getElem?_eq_getElem hlt⟩
      cases todo with
      | nil =>
        have hstep := ScanStep.merge (sel := sel) s found ht
        obtain ⟨s', h1, h2⟩ := ih _ (by rw [hm]; simp only; omega) _ (h.tail hstep) rfl
        exact ⟨s', Relation.ReflTransGen.head hstep h1, h2⟩
      | cons ik rest =>
        have hstep := ScanStep.scan (sel := sel) s s.next ik rest found ht
        have hsum : ((s.threads.set s.next ⟨rest, scanOne sel found ik⟩).map fun t => t.todo.length).sum + 1 =
            (s.threads.map fun t => t.todo.length).sum := by
          rw [List.map_set]
          have hl : s.next < (s.threads.map fun t => t.todo.length).length := by simpa using hlt
          have he : (s.threads.map fun t => t.todo.length)[s.next] = rest.length + 1 := by
            have := (List.getElem?_eq_some_iff.mp ht).2
            simp [this]
          have e1 := List.set_eq_take_append_cons_drop (l := s.threads.map fun t => t.todo.length) (i := s.next)
            (a := rest.length)
          rw [if_pos hl] at e1
          have e2 : (s.threads.map fun t => t.todo.length) = (s.threads.map fun t => t.todo.length).take s.next ++
              (rest.length + 1) :: (s.threads.map fun t => t.todo.length).drop (s.next + 1) := by
            rw [← he, List.getElem_cons_drop, List.take_append_drop]
          rw [e1]
          conv_rhs => rw [e2]
          simp only [List.sum_append, List.sum_cons]; omega
        obtain ⟨s', h1, h2⟩ := ih _ (by rw [hm]; simp only [List.length_set]; omega) _ (h.tail hstep) rfl
        exact ⟨s', Relation.ReflTransGen.head hstep h1, h2⟩
    · exact ⟨s, Relation.ReflTransGen.refl, by omega⟩

/-- Processes and threads: for every division of the points of the mesh in consecutive lists, one per process,
every number of threads per process and every interleaving, all processes end up with the list of active
points, first bands and last bands of the serial scan of the mesh. -/
theorem C34_active (n size : Nat) (hs : 0 < size) (hfit : size * size < sizeTMod) (hint : (size : Int) ≤ intMax)
    (sel : Nat → Option (Nat × Nat)) (pts : Nat → List Nat)
    (hpts : (List.range size).flatMap pts = List.range n) (chunks : Nat → List (List Nat))
    (hchunks : ∀ r, r < size → (chunks r).flatten = pts r) (mine : List (List (Nat × (Nat × Nat))))
    (hlen : mine.length = size) (hrun : ∀ r (hr : r < mine.length), ScanRun sel (chunks r) mine[r]) :
    ∃ out, collectActive mine = .ok out ∧ out.length = size ∧ ∀ r (hr : r < out.length),
      let serial := (List.range n).filterMap fun ik => (sel ik).map fun b => (ik, b)
      out[r] = (serial.map (·.1), serial.map (·.2.1), serial.map (·.2.2)) := by
  have hmine : mine = (List.range size).map (fun r => serialScan sel (pts r)) := by
    apply List.ext_getElem
    · simp [hlen]
    · intro r h1 h2
      rw [scanRun_eq sel (chunks r) _ (hrun r h1), hchunks r (by omega)]
      simp
  have hflat : mine.flatten = serialScan sel (List.range n) := by
    rw [← hpts, hmine, ← List.flatMap_def]
    unfold serialScan
    exact (List.filterMap_flatMap ..).symm
  have hcol : ∀ f : Nat × (Nat × Nat) → Nat, collectArray (mine.map fun l => l.map f) =
      .ok (List.replicate size ((serialScan sel (List.range n)).map f)) := by
    intro f
    rw [collectArray_val _ (by simp; omega) (by simpa [hlen] using hfit) (by simpa [hlen] using hint)]
    rw [← List.map_flatten, hflat, List.length_map, hlen]
  refine ⟨List.replicate size ((serialScan sel (List.range n)).map (·.1),
    (serialScan sel (List.range n)).map (·.2.1), (serialScan sel (List.range n)).map (·.2.2)), ?_, by simp, ?_⟩
  · unfold collectActive
    simp only [Outcome.bind_eq, hcol, Outcome.bind_ok]
    congr 1
    apply List.ext_getElem <;> simp
  · intro r hr
    simp [serialScan]

/-- On the fly: the points are divided over the processes with `divideWorkIter`. -/
theorem C34_on_the_fly (n size : Nat) (hs : 0 < size) (hfit : size * size < sizeTMod) (hfit' : n * size < sizeTMod)
    (hint : (size : Int) ≤ intMax) (sel : Nat → Option (Nat × Nat)) (chunks : Nat → List (List Nat))
    (hchunks : ∀ r, r < size → divideWorkIter n r size = .ok (chunks r).flatten)
    (mine : List (List (Nat × (Nat × Nat)))) (hlen : mine.length = size)
    (hrun : ∀ r (hr : r < mine.length), ScanRun sel (chunks r) mine[r]) :
    ∃ out, collectActive mine = .ok out ∧ out.length = size ∧ ∀ r (hr : r < out.length),
      let serial := (List.range n).filterMap fun ik => (sel ik).map fun b => (ik, b)
      out[r] = (serial.map (·.1), serial.map (·.2.1), serial.map (·.2.2)) := by
  obtain ⟨w, h1, h2⟩ := C06_partition n size hs hfit'
  refine C34_active n size hs hfit hint sel w h2 chunks ?_ mine hlen hrun
  intro r hr
  have := hchunks r hr
  rw [h1 r hr] at this
  injection this with this
  exact this.symm

/-- As postprocessing: the points of a process are those it holds in the distributed band structure. -/
theorem C34_postprocessing (n size numBands : Nat) (hs : 0 < size) (hb : 0 < numBands) (hle : size ≤ n)
    (hfit : size * size < sizeTMod) (hint : (size : Int) ≤ intMax) (L : Layout)
    (hL : fullLayout size numBands n = .ok L) (sel : Nat → Option (Nat × Nat)) (chunks : Nat → List (List Nat))
    (hchunks : ∀ r, r < size → (chunks r).flatten = fullWavevectorIndices L r)
    (mine : List (List (Nat × (Nat × Nat)))) (hlen : mine.length = size)
    (hrun : ∀ r (hr : r < mine.length), ScanRun sel (chunks r) mine[r]) :
    ∃ out, collectActive mine = .ok out ∧ out.length = size ∧ ∀ r (hr : r < out.length),
      let serial := (List.range n).filterMap fun ik => (sel ik).map fun b => (ik, b)
      out[r] = (serial.map (·.1), serial.map (·.2.1), serial.map (·.2.2)) :=
  C34_active n size hs hfit hint sel _ (C35_points size numBands n hs hb hle L hL) chunks hchunks mine hlen hrun

/-- The stored energies: for every division of the active points in consecutive ranges, one per process, and
every order of the element assignments made by the threads of a process, after the reduction all processes
hold, at the index of every state, the energy of its band. -/
theorem C34_energies {α : Type} [AddMonoid α] (B : ActiveLayout) (first : Nat → Nat) (en : Nat → Nat → α) (size : Nat)
    (h : Nat → Nat) (h0 : h 0 = 0) (hm : ∀ r, h r ≤ h (r + 1)) (hN : h size = B.numPoints)
    (ws : Nat → List (Nat × α))
    (hws : ∀ r, r < size → (ws r).Perm (energyWrites B first en (List.range' (h r) (h (r + 1) - h r)))) :
    ∃ bufs : Nat → List α, (∀ r, r < size → writeAll (ws r) (List.replicate B.numStates 0) = .ok (bufs r)) ∧
      ∀ r (hr : r < (allReduceSum1 ((List.range size).map fun q => fun i => (bufs q).getD i 0)).length),
        ∀ ik ib, ik < B.numPoints → ib < B.numBands ik →
        (allReduceSum1 ((List.range size).map fun q => fun i => (bufs q).getD i 0))[r] (B.bloch2Comb ik ib) =
          en ik (first ik + ib) := by
  have hle : ∀ r, r < size → h (r + 1) ≤ B.numPoints := by
    intro r hr
    rw [← hN]
    exact monotone_nat_of_le_succ hm hr
  have hmemw : ∀ r, r < size → ∀ w, w ∈ ws r ↔ ∃ ik ib, (h r ≤ ik ∧ ik < h (r + 1)) ∧ ib < B.numBands ik ∧
      w = (B.bloch2Comb ik ib, en ik (first ik + ib)) := by
    intro r hr w
    rw [(hws r hr).mem_iff]
    unfold energyWrites
    have := hm r
    simp only [List.mem_flatMap, List.mem_map, List.mem_range'_1, List.mem_range]
    constructor
    · rintro ⟨ik, h1, ib, h2, rfl⟩; exact ⟨ik, ib, by omega, h2, rfl⟩
    · rintro ⟨ik, ib, h1, h2, rfl⟩; exact ⟨ik, by omega, ib, h2, rfl⟩
  have hinj : ∀ ik ib ik' ib', ib < B.numBands ik → ib' < B.numBands ik' →
      B.bloch2Comb ik ib = B.bloch2Comb ik' ib' → ik = ik' ∧ ib = ib' := by
    intro ik ib ik' ib' hb hb' e
    unfold ActiveLayout.bloch2Comb at e
    rw [kbOffset_eq, kbOffset_eq] at e
    exact offs_unique _ hb hb' e
  have hbuf : ∀ r, r < size → ∃ b, writeAll (ws r) (List.replicate B.numStates 0) = .ok b ∧
      ∀ ik ib, ik < B.numPoints → ib < B.numBands ik → b.getD (B.bloch2Comb ik ib) 0 =
        if ik ∈ List.range' (h r) (h (r + 1) - h r) then en ik (first ik + ib) else 0 := by
    intro r hr
    obtain ⟨b, h1, h2, h3, h4⟩ := writeAll_spec (ws r) (List.replicate B.numStates (0 : α)) (by
        intro w hw
        obtain ⟨ik, ib, e1, e2, rfl⟩ := (hmemw r hr w).mp hw
        rw [List.length_replicate]
        exact (C28_roundtrip B ik ib (by have := hle r hr; omega) e2).1) (by
        rw [((hws r hr).map (·.1)).nodup_iff]
        unfold energyWrites
        rw [List.map_flatMap, List.nodup_flatMap]
        refine ⟨fun ik _ => ?_, (List.nodup_range').imp ?_⟩
        · rw [List.map_map]
          exact List.Nodup.map (fun a b e => by
            simp only [Function.comp_apply, ActiveLayout.bloch2Comb] at e; omega) List.nodup_range
        · intro ik ik' hne x hx hx'
          simp only [List.map_map, List.mem_map, List.mem_range, Function.comp_apply] at hx hx'
          obtain ⟨ib, e1, rfl⟩ := hx
          obtain ⟨ib', e1', e2⟩ := hx'
          exact hne (hinj _ _ _ _ e1' e1 e2).1.symm)
    refine ⟨b, h1, fun ik ib hik hib => ?_⟩
    have hmr := hm r
    by_cases hin : ik ∈ List.range' (h r) (h (r + 1) - h r)
    · rw [if_pos hin]
      rw [List.mem_range'_1] at hin
      have := h3 (B.bloch2Comb ik ib, en ik (first ik + ib)) ((hmemw r hr _).mpr ⟨ik, ib, by omega, hib, rfl⟩)
      rw [List.getD_eq_getElem?_getD, this]; rfl
    · rw [if_neg hin, List.getD_eq_getElem?_getD, h4]
      · have := (C28_roundtrip B ik ib hik hib).1
        simp [this]
      · intro hmem
        obtain ⟨w, hw, e⟩ := List.mem_map.mp hmem
        obtain ⟨ik', ib', e1, e2, rfl⟩ := (hmemw r hr w).mp hw
        obtain ⟨rfl, _⟩ := hinj _ _ _ _ e2 hib e
        apply hin
        rw [List.mem_range'_1]; omega
  choose! bufs hb1 hb2 using hbuf
  refine ⟨bufs, hb1, ?_⟩
  intro r hr ik ib hik hib
  apply allReduceSum1_get
  rw [List.map_map]
  have := sum_slices h h0 hm (fun ik => en ik (first ik + ib)) ik size
  rw [hN, if_pos hik] at this
  rw [← this]
  congr 1
  apply List.map_congr_left
  intro q hq
  exact hb2 q (by simpa using hq) ik ib hik hib

example : ∃ out, collectActive [[(0, (0, 1)), (2, (1, 1))], [], [(5, (0, 0))]] = .ok out ∧
    out[1]? = some ([0, 2, 5], [0, 1, 0], [1, 1, 0]) := ⟨_, rfl, by decide⟩

/-- A run with two threads in which the second finishes scanning first. -/
example : ScanRun (fun ik => if ik = 1 then none else some ik) [[0, 1], [2]] [(0, 0), (2, 2)] := by
  refine ⟨⟨[⟨[], [(0, 0)]⟩, ⟨[], [(2, 2)]⟩], 2, [(0, 0), (2, 2)]⟩, ?_, rfl, rfl⟩
  refine Relation.ReflTransGen.head (ScanStep.scan _ 1 2 [] [] rfl) ?_
  refine Relation.ReflTransGen.head (ScanStep.scan _ 0 0 [1] [] rfl) ?_
  refine Relation.ReflTransGen.head (ScanStep.scan _ 0 1 [] [(0, 0)] rfl) ?_
  refine Relation.ReflTransGen.head (ScanStep.merge _ [(0, 0)] rfl) ?_
  refine Relation.ReflTransGen.head (ScanStep.merge _ [(2, 2)] rfl) ?_
  exact Relation.ReflTransGen.refl

end Verif.Props
