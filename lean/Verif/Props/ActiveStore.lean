import Verif.Proofs.ActiveStore

/-!
# C155: an active band structure returns the energies, eigenvectors and velocities of the Hamiltonian

Spec: `Verif/Spec/ActiveStore.lean`.
-/
namespace Verif.Props
open Verif.Model Verif.Spec

/-- The constructor that keeps all bands and diagonalises batches of points: for every number of processes,
batch sizes (one for the energies, another for the velocities) and order in which the threads of a process
perform the assignments, all processes end up with the energies, eigenvectors and velocities of the
Hamiltonian. -/
theorem C155_constructor {κ α γ : Type} [AddMonoid α] [AddMonoid γ] (numPoints numFullBands size : Nat) (hs : 0 < size)
    (hfit : numPoints * size < sizeTMod) (H : HamView κ α γ) (re : γ → α) (coords : Nat → κ)
    (batch batchVel : Nat) (hb : 0 < batch) (hbv : 0 < batchVel) (withVec withVel : Bool)
    (we : Nat → List (Nat × α)) (wu wv : Nat → List (Nat × γ)) :
    let B : ActiveLayout := ⟨numPoints, fun _ => numFullBands, numFullBands⟩
    (∀ r, r < size → ∃ iks le lu lv, divideWorkIter numPoints r size = .ok iks ∧
      batchedStore batch coords (fun ik q => B.energyAt ik (H.energy q)) iks = .ok le ∧
      batchedStore batch coords (fun ik q => B.vectorAt ik (H.vector q)) iks = .ok lu ∧
      batchedStore batchVel coords (fun ik q => B.velocityAt ik (H.velocity q)) iks = .ok lv ∧
      (we r).Perm le ∧ (wu r).Perm lu ∧ (wv r).Perm lv) →
    ∃ out, activeArrays B re size false withVec withVel we wu wv = .ok out ∧ out.length = size ∧ ∀ A ∈ out,
      EnergiesOf B H coords (fun _ => 0) A ∧ (withVec = true → VectorsOf B H coords (fun _ => 0) A) ∧
      (withVel = true → VelocitiesOf B H re coords (fun _ => 0) A) := by
  intro B hw
  have key : ∀ r, r < size →
      (we r).Perm ((List.range' (head numPoints size r) (head numPoints size (r + 1) - head numPoints size r)).flatMap
        fun ik => B.energyAt ik (H.energy (coords ik))) ∧
      (wu r).Perm ((List.range' (head numPoints size r) (head numPoints size (r + 1) - head numPoints size r)).flatMap
        fun ik => B.vectorAt ik (H.vector (coords ik))) ∧
      (wv r).Perm ((List.range' (head numPoints size r) (head numPoints size (r + 1) - head numPoints size r)).flatMap
        fun ik => B.velocityAt ik (H.velocity (coords ik))) := by
    intro r hr
    obtain ⟨iks, le, lu, lv, g0, g1, g2, g3, p1, p2, p3⟩ := hw r hr
    rw [divideWorkIter_val hfit hr] at g0
    injection g0 with g0
    subst g0
    rw [batchedStore_val batch hb] at g1 g2
    rw [batchedStore_val batchVel hbv] at g3
    injection g1 with g1
    injection g2 with g2
    injection g3 with g3
    subst g1 g2 g3
    exact ⟨p1, p2, p3⟩
  refine stored_values B H re coords (fun _ => 0) size (head numPoints size) (head_zero _ _)
    (fun r => head_mono _ _ (Nat.le_succ r)) (head_last _ _ hs) false withVec withVel (by simp) we wu wv ?_ ?_ ?_
  · intro r hr; simpa using (key r hr).1
  · intro _ r hr; simpa using (key r hr).2.1
  · intro _ r hr; simpa using (key r hr).2.2

/-- The lists built by the scan, all processes: the active points in the order of the mesh and, for each, the
first and last band that pass the window. -/
theorem activeLists (n size : Nat) (hs : 0 < size) (hfit : size * size < sizeTMod)
    (hint : (size : Int) ≤ intMax) (sel : Nat → Option (Nat × Nat)) (pts : Nat → List Nat)
    (hpts : (List.range size).flatMap pts = List.range n) (chunks : Nat → List (List Nat))
    (hchunks : ∀ r, r < size → (chunks r).flatten = pts r) (mine : List (List (Nat × (Nat × Nat))))
    (hlen : mine.length = size) (hrun : ∀ r (hr : r < mine.length), ScanRun sel (chunks r) mine[r]) :
    let serial := (List.range n).filterMap fun ik => (sel ik).map fun b => (ik, b)
    mine.flatten = serial ∧
    collectActive mine = .ok (List.replicate size (serial.map (·.1), serial.map (·.2.1), serial.map (·.2.2))) := by
  intro serial
  constructor
  · have hmine : mine = (List.range size).map (fun r => serialScan sel (pts r)) := by
      apply List.ext_getElem
      · simp [hlen]
      · intro r h1 h2
        rw [scanRun_eq sel (chunks r) _ (hrun r h1), hchunks r (by omega)]
        simp
    show mine.flatten = serialScan sel (List.range n)
    rw [← hpts, hmine, ← List.flatMap_def]
    unfold serialScan
    exact (List.filterMap_flatMap ..).symm
  · obtain ⟨out, h1, h2, h3⟩ := C34_active n size hs hfit hint sel pts hpts chunks hchunks mine hlen hrun
    rw [h1]
    congr 1
    apply List.ext_getElem
    · simpa using h2
    · intro i g1 g2
      rw [h3 i g1]; simp [serial]

theorem bandCount (S : List (Nat × (Nat × Nat))) (h : ∀ x ∈ S, x.2.1 ≤ x.2.2) (ik : Nat) (hik : ik < S.length) :
    (S.map (·.2.1)).getD ik 0 + ((S.map (·.2.2)).getD ik 0 - (S.map (·.2.1)).getD ik 0 + 1) =
      (S.map (·.2.2)).getD ik 0 + 1 := by
  have := h S[ik] (List.getElem_mem hik)
  simp only [List.getD_eq_getElem?_getD, List.getElem?_map, List.getElem?_eq_getElem hik, Option.map_some,
    Option.getD_some]
  omega

/-- Phonons, on the fly: for every number of processes and threads, interleaving of the scan and order of the
assignments, the band structure has exactly the states that pass the window, and all processes hold for each
of them the energy, eigenvector and velocity of the Hamiltonian at the wavevector of the state, for its band.
The velocities must be asked for (see `C155_violated_no_velocities`). -/
theorem C155_on_the_fly_partial {κ α γ : Type} [AddMonoid α] [AddMonoid γ] (n size numFullBands : Nat) (hs : 0 < size)
    (hfit : size * size < sizeTMod) (hfit' : n * size < sizeTMod) (hint : (size : Int) ≤ intMax)
    (sel : Nat → Option (Nat × Nat)) (hsel : ∀ ik b, sel ik = some b → b.1 ≤ b.2) (pts : Nat → List Nat)
    (hpts : (List.range size).flatMap pts = List.range n) (chunks : Nat → List (List Nat))
    (hchunks : ∀ r, r < size → (chunks r).flatten = pts r) (mine : List (List (Nat × (Nat × Nat))))
    (hlen : mine.length = size) (hrun : ∀ r (hr : r < mine.length), ScanRun sel (chunks r) mine[r])
    (H : HamView κ α γ) (re : γ → α) (coords : Nat → κ) (withVec : Bool) :
    let serial := (List.range n).filterMap fun ik => (sel ik).map fun b => (ik, b)
    ∃ f, collectActive mine = .ok (List.replicate size f) ∧
      f = (serial.map (·.1), serial.map (·.2.1), serial.map (·.2.2)) ∧
      let B := activeLayoutOf numFullBands f
      let k := fun ik => coords (f.1.getD ik 0)
      let first := fun ik => f.2.1.getD ik 0
      (∀ ik, ik < B.numPoints → first ik + B.numBands ik = f.2.2.getD ik 0 + 1) ∧
      ∀ (we : Nat → List (Nat × α)) (wu wv : Nat → List (Nat × γ)),
        (∀ r, r < size → ∃ iks, divideWorkIter B.numPoints r size = .ok iks ∧
          (we r).Perm (iks.flatMap fun ik => B.energyAt ik fun ib => H.energy (k ik) (first ik + ib)) ∧
          (wu r).Perm (iks.flatMap fun ik => B.vectorAt ik fun i ib => H.vector (k ik) i (first ik + ib)) ∧
          (wv r).Perm (iks.flatMap fun ik => B.velocityAt ik fun ib1 ib2 c =>
            H.velocity (k ik) (first ik + ib1) (first ik + ib2) c)) →
        ∃ out, activeArrays B re size true withVec true we wu wv = .ok out ∧ out.length = size ∧ ∀ A ∈ out,
          EnergiesOf B H k first A ∧ (withVec = true → VectorsOf B H k first A) ∧ VelocitiesOf B H re k first A := by
  intro serial
  obtain ⟨_, hcol⟩ := activeLists n size hs hfit hint sel pts hpts chunks hchunks mine hlen hrun
  refine ⟨_, hcol, rfl, ?_⟩
  intro B k first
  have hnp : B.numPoints = serial.length := by simp [B, activeLayoutOf, serial]
  have hle : serial.length ≤ n := by
    have := List.length_filterMap_le (fun ik => (sel ik).map fun b => (ik, b)) (List.range n)
    simpa using this
  refine ⟨?_, ?_⟩
  · intro ik hik
    rw [hnp] at hik
    exact bandCount serial (fun x hx => by
      obtain ⟨q, _, hq⟩ := List.mem_filterMap.mp hx
      rw [Option.map_eq_some_iff] at hq
      obtain ⟨b, hb, rfl⟩ := hq
      exact hsel q b hb) ik hik
  · intro we wu wv hw
    have hfitB : B.numPoints * size < sizeTMod := lt_of_le_of_lt (Nat.mul_le_mul_right _ (by omega)) hfit'
    have key : ∀ r, r < size → ∃ iks, iks = List.range' (head B.numPoints size r)
        (head B.numPoints size (r + 1) - head B.numPoints size r) ∧
          (we r).Perm (iks.flatMap fun ik => B.energyAt ik fun ib => H.energy (k ik) (first ik + ib)) ∧
          (wu r).Perm (iks.flatMap fun ik => B.vectorAt ik fun i ib => H.vector (k ik) i (first ik + ib)) ∧
          (wv r).Perm (iks.flatMap fun ik => B.velocityAt ik fun ib1 ib2 c =>
            H.velocity (k ik) (first ik + ib1) (first ik + ib2) c) := by
      intro r hr
      obtain ⟨iks, g, p⟩ := hw r hr
      rw [divideWorkIter_val hfitB hr] at g
      injection g with g
      exact ⟨iks, g.symm, p⟩
    obtain ⟨out, o1, o2, o3⟩ := stored_values B H re k first size (head B.numPoints size) (head_zero _ _)
      (fun r => head_mono _ _ (Nat.le_succ r)) (head_last _ _ hs) true withVec true (by simp) we wu wv
      (fun r hr => by obtain ⟨_, rfl, p, _, _⟩ := key r hr; exact p)
      (fun _ r hr => by obtain ⟨_, rfl, _, p, _⟩ := key r hr; exact p)
      (fun _ r hr => by obtain ⟨_, rfl, _, _, p⟩ := key r hr; exact p)
    exact ⟨out, o1, o2, fun A hA => ⟨(o3 A hA).1, (o3 A hA).2.1, (o3 A hA).2.2 rfl⟩⟩

/-- Electrons (or phonons on request), as postprocessing of the full band structure: likewise.  `H` at the
coordinates of point `ik` of the mesh is what the full band structure holds for that point. -/
theorem C155_postprocessing_partial {κ α γ : Type} [AddMonoid α] [AddMonoid γ] (n size numFullBands : Nat) (hs : 0 < size)
    (hfit : size * size < sizeTMod) (hint : (size : Int) ≤ intMax)
    (sel : Nat → Option (Nat × Nat)) (hsel : ∀ ik b, sel ik = some b → b.1 ≤ b.2) (pts : Nat → List Nat)
    (hpts : (List.range size).flatMap pts = List.range n) (chunks : Nat → List (List Nat))
    (hchunks : ∀ r, r < size → (chunks r).flatten = pts r) (mine : List (List (Nat × (Nat × Nat))))
    (hlen : mine.length = size) (hrun : ∀ r (hr : r < mine.length), ScanRun sel (chunks r) mine[r])
    (H : HamView κ α γ) (re : γ → α) (coords : Nat → κ) (withVec : Bool) :
    let serial := (List.range n).filterMap fun ik => (sel ik).map fun b => (ik, b)
    ∃ f, collectActive mine = .ok (List.replicate size f) ∧
      f = (serial.map (·.1), serial.map (·.2.1), serial.map (·.2.2)) ∧
      let B := activeLayoutOf numFullBands f
      let k := fun ik => coords (f.1.getD ik 0)
      let first := fun ik => f.2.1.getD ik 0
      (∀ ik, ik < B.numPoints → first ik + B.numBands ik = f.2.2.getD ik 0 + 1) ∧
      ∀ (we : Nat → List (Nat × α)) (wu wv : Nat → List (Nat × γ)),
        (∀ r, r < size →
          let disp := displacement (mine.map List.length) r
          let points := (mine.getD r []).map (·.1)
          (we r).Perm (postStore disp points fun ika ik =>
            B.energyAt ika fun ib => H.energy (coords ik) (first ika + ib)) ∧
          (wu r).Perm (postStore disp points fun ika ik =>
            B.vectorAt ika fun i ib => H.vector (coords ik) i (first ika + ib)) ∧
          (wv r).Perm (postStore disp points fun ika _ => B.velocityAt ika fun ib1 ib2 c =>
            H.velocity (k ika) (first ika + ib1) (first ika + ib2) c)) →
        ∃ out, activeArrays B re size true withVec true we wu wv = .ok out ∧ out.length = size ∧ ∀ A ∈ out,
          EnergiesOf B H k first A ∧ (withVec = true → VectorsOf B H k first A) ∧ VelocitiesOf B H re k first A := by
  intro serial
  obtain ⟨hflat, hcol⟩ := activeLists n size hs hfit hint sel pts hpts chunks hchunks mine hlen hrun
  refine ⟨_, hcol, rfl, ?_⟩
  intro B k first
  have hnp : B.numPoints = serial.length := by simp [B, activeLayoutOf, serial]
  refine ⟨?_, ?_⟩
  · intro ik hik
    rw [hnp] at hik
    exact bandCount serial (fun x hx => by
      obtain ⟨q, _, hq⟩ := List.mem_filterMap.mp hx
      rw [Option.map_eq_some_iff] at hq
      obtain ⟨b, hb, rfl⟩ := hq
      exact hsel q b hb) ik hik
  · intro we wu wv hw
    have hml : (mine.map fun l => l.map (·.1)).map List.length = mine.map List.length := by
      rw [List.map_map]; apply List.map_congr_left; intro l _; simp
    have hpost : ∀ (δ : Type) (r : Nat), r < size → ∀ store : Nat → Nat → List (Nat × δ),
        postStore (displacement (mine.map List.length) r) ((mine.getD r []).map (·.1)) store =
        (List.range' (displacement (mine.map List.length) r) (displacement (mine.map List.length) (r + 1) -
          displacement (mine.map List.length) r)).flatMap
          fun ika => store ika ((serial.map (·.1)).getD ika 0) := by
      intro δ r hr store
      have := postStore_eq (mine.map fun l => l.map (·.1)) r (by simpa [hlen] using hr) store
      rw [hml, ← List.map_flatten, hflat] at this
      rw [← this]
      congr 1
      rw [List.getD_eq_getElem?_getD, List.getD_eq_getElem?_getD, List.getElem?_map]
      cases mine[r]? <;> rfl
    have htot : displacement (mine.map List.length) size = B.numPoints := by
      rw [← hlen, displacement_total, hflat, hnp]
    obtain ⟨out, o1, o2, o3⟩ := stored_values B H re k first size (displacement (mine.map List.length)) rfl
      (fun r => Nat.le_add_right _ _) htot true withVec true (by simp) we wu wv
      (fun r hr => by have := (hw r hr).1; rw [hpost _ r hr] at this; exact this)
      (fun _ r hr => by have := (hw r hr).2.1; rw [hpost _ r hr] at this; exact this)
      (fun _ r hr => by have := (hw r hr).2.2; rw [hpost _ r hr] at this; exact this)
    exact ⟨out, o1, o2, fun A hA => ⟨(o3 A hA).1, (o3 A hA).2.1, (o3 A hA).2.2 rfl⟩⟩

theorem mapOutcome_ub_head {β δ : Type} (f : β → Outcome δ) (a : β) (l : List β) (h : f a = .ub) :
    mapOutcome f (a :: l) = .ub := by
  unfold mapOutcome; rw [h]; rfl

theorem mapOutcome_ub_mem {β δ : Type} (f : β → Outcome δ) (l : List β) (h : ∀ b ∈ l, (∃ y, f b = .ok y) ∨ f b = .ub)
    (a : β) (ha : a ∈ l) (hf : f a = .ub) : mapOutcome f l = .ub := by
  induction l with
  | nil => simp at ha
  | cons b t ih =>
    rcases h b (by simp) with ⟨y, hy⟩ | hy
    · have hne : a ≠ b := by rintro rfl; rw [hf] at hy; cases hy
      have := ih (fun c hc => h c (by simp [hc])) (by simpa [hne] using ha)
      unfold mapOutcome
      rw [hy, this]; rfl
    · exact mapOutcome_ub_head f b t hy

/-- VIOLATED: a user of the library can ask for a band structure without velocities
(`builder(context, h0, points, withEigenvectors, false)`), but the building functions then read the empty array of
velocities, whatever the Hamiltonian, as soon as there is an active state. -/
theorem C155_violated_no_velocities {α γ : Type} [AddMonoid α] [AddMonoid γ] (B : ActiveLayout) (re : γ → α)
    (size : Nat) (hs : 0 < size) (hB : 0 < B.numStates) (withVec : Bool) (we : Nat → List (Nat × α))
    (wu wv : Nat → List (Nat × γ)) (e : List (List α)) (u : List (List γ))
    (he : reduceStore size B.numStates we = .ok e)
    (hu : reduceStore size (if withVec then B.numEigStates else 0) (fun r => if withVec then wu r else []) = .ok u) :
    activeArrays B re size true withVec false we wu wv = .ub := by
  obtain ⟨ik, ib, _, hik, hib, _⟩ := C28_surjective B 0 hB
  obtain ⟨v, v1, v2, v3⟩ := reduceStore_spec (α := γ) (ι := Empty) size 0 0 (fun _ => []) (fun _ _ => 0)
    (fun _ _ => 0) (by simp) (by simp) (by simp) (fun _ => 0) rfl (by simp) rfl (fun _ => []) (by simp)
  have hg : ∀ j, (∃ y, B.getGroupVelocities re (v.getD 0 []) j = .ok y) ∨
      B.getGroupVelocities re (v.getD 0 []) j = .ub := by
    intro j
    have h0 : v.getD 0 [] = [] := List.eq_nil_of_length_eq_zero (v3 0 hs).1
    unfold ActiveLayout.getGroupVelocities
    rw [h0]
    cases hn : B.numBands j with
    | zero => exact .inl ⟨[], rfl⟩
    | succ m => right; rw [List.range_succ_eq_map (n := m)]; rfl
  have hgi : B.getGroupVelocities re (v.getD 0 []) ik = .ub := by
    have h0 : v.getD 0 [] = [] := List.eq_nil_of_length_eq_zero (v3 0 hs).1
    unfold ActiveLayout.getGroupVelocities
    rw [h0]
    cases hn : B.numBands ik with
    | zero => omega
    | succ m => rw [List.range_succ_eq_map (n := m)]; rfl
  have hall : mapOutcome (fun r => B.allGroupVelocities re (v.getD r [])) (List.range size) = .ub := by
    obtain ⟨m, rfl⟩ := Nat.exists_eq_succ_of_ne_zero (by omega : size ≠ 0)
    rw [List.range_succ_eq_map]
    apply mapOutcome_ub_head
    exact mapOutcome_ub_mem _ _ (fun j _ => hg j) ik (by simpa using hik) hgi
  unfold activeArrays
  simp only [Outcome.bind_eq, he, Outcome.bind_ok, hu, Bool.false_eq_true, if_false, v1, if_true, hall]
  rfl

/-! ## The hypotheses are met -/

/-- Two bands, two wavevectors; energies are integers and velocities are pairs (real part, imaginary part). -/
def sampleHam : HamView Nat Int (Int × Int) where
  energy q b := 10 * q + b
  vector q i b := (100 * q + 10 * i + b, 1)
  velocity q b b' c := (1000 * q + 100 * b + 10 * b' + c, 2)

/-- Constructor, two processes, three points, batches of two and one. -/
example : ∃ iks le, divideWorkIter 3 1 2 = .ok iks ∧ batchedStore 2 id (fun ik q =>
    (⟨3, fun _ => 2, 2⟩ : ActiveLayout).energyAt ik (sampleHam.energy q)) iks = .ok le ∧
    le = [(2, 10), (3, 11), (4, 20), (5, 21)] :=
  ⟨_, _, rfl, batchedStore_val 2 (by decide) _ _ _, by decide⟩

/-- Building on one process: the point 1 is dropped by the window and only the upper band of point 2 is kept. -/
example : ∃ out, activeArrays (activeLayoutOf 2 ([0, 2], [0, 1], [1, 1]))
    (Prod.fst : Int × Int → Int) 1 true false true
    (fun _ => (⟨2, fun i => if i = 0 then 2 else 1, 2⟩ : ActiveLayout).energyAt 0 (fun ib => sampleHam.energy 0 ib) ++
      (⟨2, fun i => if i = 0 then 2 else 1, 2⟩ : ActiveLayout).energyAt 1 (fun ib => sampleHam.energy 2 (1 + ib)))
    (fun _ => []) (fun _ => [(0, (7, 8))]) = .ok out ∧ out.map (·.energies) = [[0, 1, 21]] := ⟨_, rfl, by decide⟩

example : ScanRun (fun ik => if ik = 1 then none else some (if ik = 0 then (0, 1) else (1, 1))) [[0, 1, 2]]
    [(0, (0, 1)), (2, (1, 1))] := by
  refine ⟨⟨[⟨[], [(0, (0, 1)), (2, (1, 1))]⟩], 1, [(0, (0, 1)), (2, (1, 1))]⟩, ?_, rfl, rfl⟩
  refine Relation.ReflTransGen.head (ScanStep.scan _ 0 0 [1, 2] [] rfl) ?_
  refine Relation.ReflTransGen.head (ScanStep.scan _ 0 1 [2] [(0, (0, 1))] rfl) ?_
  refine Relation.ReflTransGen.head (ScanStep.scan _ 0 2 [] [(0, (0, 1))] rfl) ?_
  refine Relation.ReflTransGen.head (ScanStep.merge _ [(0, (0, 1)), (2, (1, 1))] rfl) ?_
  exact Relation.ReflTransGen.refl

/-- Without velocities. -/
example : activeArrays (α := Int) (γ := Int) ⟨1, fun _ => 1, 1⟩ id 1 true false false (fun _ => [(0, 5)]) (fun _ => [])
    (fun _ => []) = .ub := rfl

end Verif.Props
