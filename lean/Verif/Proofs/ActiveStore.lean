import Verif.Spec.ActiveStore
import Verif.Props.ActiveBuild
import Verif.Proofs.Utilities

/-! # Lemmas on the values stored in an active band structure -/
namespace Verif.Model

theorem allReduceSum1_len {α : Type} [Add α] [Zero α] (l : List (Nat → α)) : (allReduceSum1 l).length = l.length := by
  unfold allReduceSum1; split <;> simp

/-- Assignments to disjoint regions, one per point, divided over the processes and summed. -/
theorem reduceStore_spec {α ι : Type} [AddMonoid α] (size N n : Nat) (locs : Nat → List ι) (idx : Nat → ι → Nat)
    (val : Nat → ι → α) (hnd : ∀ k, k < N → (locs k).Nodup)
    (hinj : ∀ k k' l l', k < N → k' < N → l ∈ locs k → l' ∈ locs k' → idx k l = idx k' l' → k = k' ∧ l = l')
    (hb : ∀ k l, k < N → l ∈ locs k → idx k l < n)
    (h : Nat → Nat) (h0 : h 0 = 0) (hm : ∀ r, h r ≤ h (r + 1)) (hN : h size = N) (ws : Nat → List (Nat × α))
    (hws : ∀ r, r < size → (ws r).Perm ((List.range' (h r) (h (r + 1) - h r)).flatMap fun k =>
      (locs k).map fun l => (idx k l, val k l))) :
    ∃ out, reduceStore size n ws = .ok out ∧ out.length = size ∧ ∀ r, r < size → (out.getD r []).length = n ∧
      ∀ k l, k < N → l ∈ locs k → readAt (out.getD r []) (idx k l) = .ok (val k l) := by
  have hle : ∀ r, r < size → h (r + 1) ≤ N := by
    intro r hr
    rw [← hN]
    exact monotone_nat_of_le_succ hm hr
  have hmemw : ∀ r, r < size → ∀ w, w ∈ ws r ↔ ∃ k l, (h r ≤ k ∧ k < h (r + 1)) ∧ l ∈ locs k ∧
      w = (idx k l, val k l) := by
    intro r hr w
    rw [(hws r hr).mem_iff]
    have := hm r
    simp only [List.mem_flatMap, List.mem_map, List.mem_range'_1]
    constructor
    · rintro ⟨k, h1, l, h2, rfl⟩; exact ⟨k, l, by omega, h2, rfl⟩
    · rintro ⟨k, l, h1, h2, rfl⟩; exact ⟨k, by omega, l, h2, rfl⟩
  have hbuf : ∀ r, r < size → ∃ b, writeAll (ws r) (List.replicate n 0) = .ok b ∧
      ∀ k l, k < N → l ∈ locs k → b.getD (idx k l) 0 =
        if k ∈ List.range' (h r) (h (r + 1) - h r) then val k l else 0 := by
    intro r hr
    have hmr := hm r
    have hler := hle r hr
    obtain ⟨b, h1, h2, h3, h4⟩ := writeAll_spec (ws r) (List.replicate n (0 : α)) (by
        intro w hw
        obtain ⟨k, l, e1, e2, rfl⟩ := (hmemw r hr w).mp hw
        rw [List.length_replicate]
        exact hb k l (by omega) e2) (by
        rw [((hws r hr).map (·.1)).nodup_iff]
        rw [List.map_flatMap, List.nodup_flatMap]
        refine ⟨fun k hk => ?_, (List.nodup_range').imp_of_mem ?_⟩
        · rw [List.mem_range'_1] at hk
          rw [List.map_map]
          exact (hnd k (by omega)).map_on (fun a ha b hb' e => (hinj k k a b (by omega) (by omega) ha hb' e).2)
        · intro k k' hk hk' hne x hx hx'
          rw [List.mem_range'_1] at hk hk'
          simp only [List.map_map, List.mem_map, Function.comp_apply] at hx hx'
          obtain ⟨l, e1, rfl⟩ := hx
          obtain ⟨l', e1', e2⟩ := hx'
          exact hne (hinj _ _ _ _ (by omega) (by omega) e1' e1 e2).1.symm)
    refine ⟨b, h1, fun k l hk hl => ?_⟩
    by_cases hin : k ∈ List.range' (h r) (h (r + 1) - h r)
    · rw [if_pos hin]
      rw [List.mem_range'_1] at hin
      have := h3 (idx k l, val k l) ((hmemw r hr _).mpr ⟨k, l, by omega, hl, rfl⟩)
      rw [List.getD_eq_getElem?_getD, this]; rfl
    · rw [if_neg hin, List.getD_eq_getElem?_getD, h4]
      · simp [hb k l hk hl]
      · intro hmem
        obtain ⟨w, hw, e⟩ := List.mem_map.mp hmem
        obtain ⟨k', l', e1, e2, rfl⟩ := (hmemw r hr w).mp hw
        obtain ⟨rfl, _⟩ := hinj _ _ _ _ (by omega) hk e2 hl e
        apply hin
        rw [List.mem_range'_1]; omega
  choose! bufs hb1 hb2 using hbuf
  have hmap : mapOutcome (fun r => writeAll (ws r) (List.replicate n 0)) (List.range size) =
      .ok ((List.range size).map bufs) := mapOutcome_ok _ (fun r hr => hb1 r (by simpa using hr))
  refine ⟨(allReduceSum1 (((List.range size).map bufs).map fun b => fun i => b.getD i 0)).map
    fun o => (List.range n).map o, ?_, by simp [allReduceSum1_len], ?_⟩
  · unfold reduceStore
    rw [hmap]; rfl
  intro r hr
  have hlen : r < (allReduceSum1 (((List.range size).map bufs).map fun b => fun i => b.getD i 0)).length := by
    rw [allReduceSum1_len]; simpa using hr
  have hget : ((allReduceSum1 (((List.range size).map bufs).map fun b => fun i => b.getD i 0)).map
      fun o => (List.range n).map o).getD r [] = (List.range n).map
      (allReduceSum1 (((List.range size).map bufs).map fun b => fun i => b.getD i 0))[r] := by
    rw [List.getD_eq_getElem?_getD, List.getElem?_map, List.getElem?_eq_getElem hlen]; rfl
  rw [hget]
  refine ⟨by simp, fun k l hk hl => ?_⟩
  unfold readAt
  rw [List.getElem?_map, List.getElem?_range (hb k l hk hl)]
  simp only [Option.map_some]
  congr 1
  apply allReduceSum1_get
  rw [List.map_map, List.map_map]
  have := sum_slices h h0 hm (fun k => val k l) k size
  rw [hN, if_pos hk] at this
  rw [← this]
  congr 1
  apply List.map_congr_left
  intro q hq
  exact hb2 q (by simpa using hq) k l hk hl

/-! ## The regions of the arrays -/

theorem energy_inj (B : ActiveLayout) {ik ib ik' ib' : Nat} (hb : ib < B.numBands ik) (hb' : ib' < B.numBands ik')
    (e : B.bloch2Comb ik ib = B.bloch2Comb ik' ib') : ik = ik' ∧ ib = ib' := by
  unfold ActiveLayout.bloch2Comb at e
  rw [kbOffset_eq, kbOffset_eq] at e
  exact offs_unique _ hb hb' e

theorem energy_bound (B : ActiveLayout) {ik ib : Nat} (hk : ik < B.numPoints) (hb : ib < B.numBands ik) :
    B.bloch2Comb ik ib < B.numStates := by
  unfold ActiveLayout.bloch2Comb
  rw [kbOffset_eq, numStates_eq]
  exact offs_block_lt _ hk hb

theorem vector_lt (B : ActiveLayout) {k i j : Nat} (hi : i < B.numFullBands) (hj : j < B.numBands k) :
    i * B.numBands k + j < B.numBands k * B.numFullBands := by
  have : (i + 1) * B.numBands k ≤ B.numFullBands * B.numBands k := Nat.mul_le_mul_right _ hi
  rw [Nat.add_mul] at this
  rw [Nat.mul_comm (B.numBands k)]; omega

theorem vector_inj (B : ActiveLayout) {k k' i j i' j' : Nat} (hi : i < B.numFullBands) (hj : j < B.numBands k)
    (hi' : i' < B.numFullBands) (hj' : j' < B.numBands k')
    (h : B.eigBloch2Comb k i j = B.eigBloch2Comb k' i' j') : k = k' ∧ i = i' ∧ j = j' := by
  unfold ActiveLayout.eigBloch2Comb at h
  rw [kbOffset_mul_eq, kbOffset_mul_eq, Nat.add_assoc, Nat.add_assoc] at h
  obtain ⟨rfl, h'⟩ := offs_unique (fun i => B.numBands i * B.numFullBands) (vector_lt B hi hj) (vector_lt B hi' hj') h
  have hpos : 0 < B.numBands k := by omega
  refine ⟨rfl, ?_, ?_⟩
  · have := congrArg (· / B.numBands k) h'
    simpa [Nat.mul_comm _ (B.numBands k), Nat.mul_add_div hpos, Nat.div_eq_of_lt hj,
      Nat.div_eq_of_lt hj'] using this
  · have := congrArg (· % B.numBands k) h'
    simpa [Nat.mul_add_mod', Nat.mod_eq_of_lt hj, Nat.mod_eq_of_lt hj'] using this

theorem vector_bound (B : ActiveLayout) {k i j : Nat} (hk : k < B.numPoints) (hi : i < B.numFullBands)
    (hj : j < B.numBands k) : B.eigBloch2Comb k i j < B.numEigStates := by
  unfold ActiveLayout.eigBloch2Comb ActiveLayout.numEigStates
  rw [foldl_offs, kbOffset_mul_eq, Nat.add_assoc]
  exact offs_block_lt _ hk (vector_lt B hi hj)

theorem velocity_lt (B : ActiveLayout) {k i j c : Nat} (hi : i < B.numBands k) (hj : j < B.numBands k) (hc : c < 3) :
    i * B.numBands k * 3 + (j * 3 + c) < 3 * B.numBands k * B.numBands k := by
  have h1 : (i + 1) * B.numBands k ≤ B.numBands k * B.numBands k := Nat.mul_le_mul_right _ hi
  rw [Nat.add_mul] at h1
  rw [Nat.mul_assoc 3]; omega

theorem velocity_inj (B : ActiveLayout) {k k' i j c i' j' c' : Nat} (hi : i < B.numBands k) (hj : j < B.numBands k)
    (hc : c < 3) (hi' : i' < B.numBands k') (hj' : j' < B.numBands k') (hc' : c' < 3)
    (h : B.velBloch2Comb k i j c = B.velBloch2Comb k' i' j' c') : k = k' ∧ i = i' ∧ j = j' ∧ c = c' := by
  unfold ActiveLayout.velBloch2Comb at h
  rw [kbbOffset_eq, kbbOffset_eq, Nat.add_assoc, Nat.add_assoc, Nat.add_assoc, Nat.add_assoc] at h
  obtain ⟨rfl, h'⟩ := offs_unique (fun i => 3 * B.numBands i * B.numBands i) (velocity_lt B hi hj hc)
    (velocity_lt B hi' hj' hc') h
  have hpos : 0 < B.numBands k := by omega
  have hcc : c = c' := by omega
  have hij : i * B.numBands k + j = i' * B.numBands k + j' := by omega
  refine ⟨rfl, ?_, ?_, hcc⟩
  · have := congrArg (· / B.numBands k) hij
    simpa [Nat.mul_comm _ (B.numBands k), Nat.mul_add_div hpos, Nat.div_eq_of_lt hj,
      Nat.div_eq_of_lt hj'] using this
  · have := congrArg (· % B.numBands k) hij
    simpa [Nat.mul_add_mod', Nat.mod_eq_of_lt hj, Nat.mod_eq_of_lt hj'] using this

theorem velocity_bound (B : ActiveLayout) {k i j c : Nat} (hk : k < B.numPoints) (hi : i < B.numBands k)
    (hj : j < B.numBands k) (hc : c < 3) : B.velBloch2Comb k i j c < B.numVelStates := by
  unfold ActiveLayout.velBloch2Comb ActiveLayout.numVelStates
  rw [foldl_offs, kbbOffset_eq, Nat.add_assoc, Nat.add_assoc]
  exact offs_block_lt _ hk (velocity_lt B hi hj hc)

/-- The triples of a velocity tensor. -/
def velLocs (n : Nat) : List (Nat × Nat × Nat) :=
  (List.range n).flatMap fun i => (List.range n).flatMap fun j => (List.range 3).map fun c => (i, j, c)

theorem mem_velLocs {n : Nat} (l : Nat × Nat × Nat) : l ∈ velLocs n ↔ l.1 < n ∧ l.2.1 < n ∧ l.2.2 < 3 := by
  obtain ⟨x, y, z⟩ := l
  simp [velLocs, List.mem_flatMap]

theorem nodup_velLocs (n : Nat) : (velLocs n).Nodup := by
  unfold velLocs
  rw [List.nodup_flatMap]
  refine ⟨fun i _ => ?_, List.nodup_range.imp ?_⟩
  · have := (nodup_grid n 3).map (f := fun p => (i, p.1, p.2)) (by
      rintro ⟨a, b⟩ ⟨c, d⟩ h; simpa using h)
    rw [List.map_flatMap] at this
    simpa [Function.comp_def] using this
  · intro i i' hii' l hl hl'
    simp only [List.mem_flatMap, List.mem_map] at hl hl'
    obtain ⟨_, _, _, _, rfl⟩ := hl
    obtain ⟨_, _, _, _, h⟩ := hl'
    injection h with h _
    exact hii' h.symm

/-! ## Batches -/

theorem batchBounds_zero (n start : Nat) (h : start < n) : batchBounds n 0 start = .diverge := by
  unfold batchBounds; simp [h]

theorem batchedStore_aux {κ δ : Type} (size : Nat) (hs : 0 < size) (coords : Nat → κ)
    (store : Nat → κ → List (Nat × δ)) (iks : List Nat) (m start : Nat) (hm : iks.length - start ≤ m) :
    ∃ bs l, batchBounds iks.length size start = .ok bs ∧ mapOutcome (batchStore coords store iks) bs = .ok l ∧
      l.flatten = (iks.drop start).flatMap fun ik => store ik (coords ik) := by
  induction m generalizing start with
  | zero =>
    refine ⟨[], [], ?_, rfl, ?_⟩
    · unfold batchBounds; rw [dif_neg (by omega)]
    · rw [List.drop_eq_nil_of_le (by omega)]; rfl
  | succ m ih =>
    by_cases hlt : start < iks.length
    · obtain ⟨bs, l, h1, h2, h3⟩ := ih (start + size) (by omega)
      have hbatch : batchStore coords store iks (start, min iks.length (start + size)) =
          .ok (((iks.drop start).take size).flatMap fun ik => store ik (coords ik)) := by
        unfold batchStore
        have hrow : mapOutcome (fun iik => (readAt iks (start + iik)).bind fun ik =>
            (readAt (((iks.map coords).drop start).take (min iks.length (start + size) - start)) iik).bind fun q =>
              .ok (store ik q)) (List.range (min iks.length (start + size) - start)) =
            .ok ((List.range (min iks.length (start + size) - start)).map fun iik =>
              store (iks.getD (start + iik) 0) (coords (iks.getD (start + iik) 0))) := by
          apply mapOutcome_ok
          intro iik hi
          rw [List.mem_range] at hi
          have hlt' : start + iik < iks.length := by omega
          have e1 : readAt iks (start + iik) = .ok (iks.getD (start + iik) 0) := by
            unfold readAt; rw [List.getElem?_eq_getElem hlt']; simp [List.getElem?_eq_getElem hlt']
          have e2 : readAt (((iks.map coords).drop start).take (min iks.length (start + size) - start)) iik =
              .ok (coords (iks.getD (start + iik) 0)) := by
            unfold readAt
            rw [List.getElem?_take_of_lt hi, List.getElem?_drop, List.getElem?_map,
              List.getElem?_eq_getElem hlt']
            simp [List.getElem?_eq_getElem hlt']
          simp only [e1, e2, Outcome.bind_ok]
        simp only [Outcome.bind_eq]
        rw [hrow]
        simp only [Outcome.bind_ok]
        congr 1
        rw [← List.flatMap_def]
        have e : (iks.drop start).take size = (List.range (min iks.length (start + size) - start)).map
            fun iik => iks.getD (start + iik) 0 := by
          apply List.ext_getElem?
          intro i
          rw [List.getElem?_map]
          by_cases hi : i < min iks.length (start + size) - start
          · have hlt' : start + i < iks.length := by omega
            rw [List.getElem?_take_of_lt (by omega), List.getElem?_drop, List.getElem?_range hi,
              List.getElem?_eq_getElem hlt']
            simp [List.getElem?_eq_getElem hlt']
          · rw [List.getElem?_eq_none (by simp; omega), List.getElem?_eq_none (by simp; omega)]
            rfl
        rw [e, List.flatMap_map]
      refine ⟨(start, min iks.length (start + size)) :: bs,
        (((iks.drop start).take size).flatMap fun ik => store ik (coords ik)) :: l, ?_, ?_, ?_⟩
      · unfold batchBounds
        rw [dif_pos hlt, dif_neg (by omega), h1]; rfl
      · unfold mapOutcome
        rw [hbatch, h2]; rfl
      · rw [List.flatten_cons, h3, ← List.flatMap_append, ← List.drop_drop, List.take_append_drop]
    · refine ⟨[], [], ?_, rfl, ?_⟩
      · unfold batchBounds; rw [dif_neg hlt]
      · rw [List.drop_eq_nil_of_le (by omega)]; rfl

theorem batchedStore_val {κ δ : Type} (size : Nat) (hs : 0 < size) (coords : Nat → κ)
    (store : Nat → κ → List (Nat × δ)) (iks : List Nat) :
    batchedStore size coords store iks = .ok (iks.flatMap fun ik => store ik (coords ik)) := by
  obtain ⟨bs, l, h1, h2, h3⟩ := batchedStore_aux size hs coords store iks iks.length 0 (by omega)
  unfold batchedStore
  simp only [Outcome.bind_eq, h1, Outcome.bind_ok, h2, h3, List.drop_zero]

/-! ## Reading -/

theorem phRow_val (i numAtoms : Nat) (h : (3 * numAtoms : Int) ≤ intMax) (hi : i < 3 * numAtoms) :
    decompress2Indices (i : Int) (numAtoms : Int) 3 = .ok (((i / 3 : Nat) : Int), ((i % 3 : Nat) : Int)) := by
  have hdiv : (i : Int).tdiv 3 = ((i / 3 : Nat) : Int) := by
    rw [Int.tdiv_eq_ediv_of_nonneg (by omega)]; rfl
  have hmax : intMax = 2147483647 := rfl
  have hmin : intMin = -2147483648 := rfl
  unfold decompress2Indices cdiv cmul csub i32
  simp only [Outcome.bind_eq, hdiv]
  rw [if_neg (by omega), if_pos (by omega)]
  simp only [Outcome.bind_ok]
  rw [if_pos (by omega)]
  simp only [Outcome.bind_ok]
  rw [if_pos (by omega)]
  simp only [Outcome.bind_ok, pure]
  congr 2
  omega

theorem getPh_val {α γ : Type} (B : ActiveLayout) (A : ActiveArrays α γ) (u : Nat → Nat → γ) (ik ib numAtoms : Nat)
    (hB : B.numFullBands = 3 * numAtoms) (hmax : (3 * numAtoms : Int) ≤ intMax)
    (hu : ∀ i, i < B.numFullBands → B.getEigenvector A.eigenvectors ik i ib = .ok (u i ib)) (iat ic : Nat)
    (hat : iat < numAtoms) (hc : ic < 3) : A.getPhEigenvector B ik ic iat ib = .ok (some (u (3 * iat + ic) ib)) := by
  have hrow : mapOutcome (fun i : Nat => (decompress2Indices (i : Int) ((B.numFullBands / 3 : Nat) : Int) 3).bind
      fun t => (B.getEigenvector A.eigenvectors ik i ib).bind fun v => .ok (t, v)) (List.range B.numFullBands) =
      .ok ((List.range B.numFullBands).map fun i : Nat => ((((i / 3 : Nat) : Int), ((i % 3 : Nat) : Int)), u i ib)) := by
    apply mapOutcome_ok
    intro i hi
    rw [List.mem_range] at hi
    have e : B.numFullBands / 3 = numAtoms := by omega
    rw [e, phRow_val i numAtoms hmax (by omega), hu i hi]; rfl
  unfold ActiveArrays.getPhEigenvector
  simp only [Outcome.bind_eq]
  rw [hrow]
  simp only [Outcome.bind_ok]
  congr 1
  rw [← List.map_reverse, List.find?_map, Option.map_map]
  have hfind : ((List.range B.numFullBands).reverse.find? ((fun x : (Int × Int) × γ => decide (x.1 = ((iat : Int), (ic : Int)))) ∘
      fun i : Nat => ((((i / 3 : Nat) : Int), ((i % 3 : Nat) : Int)), u i ib))) = some (3 * iat + ic) := by
    cases hf : ((List.range B.numFullBands).reverse.find? ((fun x : (Int × Int) × γ => decide (x.1 = ((iat : Int), (ic : Int)))) ∘
        fun i : Nat => ((((i / 3 : Nat) : Int), ((i % 3 : Nat) : Int)), u i ib))) with
    | none =>
      have := List.find?_eq_none.mp hf (3 * iat + ic) (by simp; omega)
      exfalso
      apply this
      simp only [Function.comp_apply, decide_eq_true_eq]
      have e1 : (3 * iat + ic) / 3 = iat := by omega
      have e2 : (3 * iat + ic) % 3 = ic := by omega
      rw [e1, e2]
    | some j =>
      have := List.find?_some hf
      simp only [Function.comp_apply, decide_eq_true_eq, Prod.mk.injEq] at this
      congr 1
      omega
  rw [hfind]; rfl

/-! ## As postprocessing -/

theorem flatten_getD {δ : Type} (mine : List (List δ)) (r i : Nat) (hr : r < mine.length) (d : δ)
    (hi : i < (mine.getD r []).length) :
    mine.flatten.getD (displacement (mine.map List.length) r + i) d = (mine.getD r []).getD i d := by
  have e : mine.flatten = (List.range mine.length).flatMap fun q => mine.getD q [] := by
    rw [List.flatMap_def]
    congr 1
    apply List.ext_getElem
    · simp
    · intro j h1 h2; simp [h1]
  have hd : displacement (mine.map List.length) r = offs (fun q => (mine.getD q []).length) r := by
    rw [displacement_eq]
    apply offs_congr
    intro q hq
    simp [List.getElem?_map]
    cases mine[q]? <;> rfl
  rw [e, hd, List.getD_eq_getElem?_getD, flatMap_offs_getElem? (fun q => mine.getD q []) hr hi,
    ← List.getD_eq_getElem?_getD]

theorem displacement_total {δ : Type} (mine : List (List δ)) :
    displacement (mine.map List.length) mine.length = mine.flatten.length := by
  have e : mine.flatten = (List.range mine.length).flatMap fun q => mine.getD q [] := by
    rw [List.flatMap_def]
    congr 1
    apply List.ext_getElem
    · simp
    · intro j h1 h2; simp [h1]
  rw [displacement_eq, e, flatMap_offs_length]
  apply offs_congr
  intro q hq
  simp [List.getElem?_map]
  cases mine[q]? <;> rfl

theorem postStore_eq {δ : Type} (mine : List (List Nat)) (r : Nat) (hr : r < mine.length)
    (store : Nat → Nat → List (Nat × δ)) :
    postStore (displacement (mine.map List.length) r) (mine.getD r []) store =
      (List.range' (displacement (mine.map List.length) r)
        (displacement (mine.map List.length) (r + 1) - displacement (mine.map List.length) r)).flatMap
        fun ika => store ika (mine.flatten.getD ika 0) := by
  have hlen : displacement (mine.map List.length) (r + 1) - displacement (mine.map List.length) r =
      (mine.getD r []).length := by
    show displacement _ r + _ - displacement _ r = _
    simp [List.getElem?_map, List.getElem?_eq_getElem hr]
  rw [hlen]
  unfold postStore
  rw [List.range'_eq_map_range, List.flatMap_map]
  apply List.flatMap_congr
  intro i hi
  rw [List.mem_range] at hi
  rw [flatten_getD mine r i hr 0 hi, Nat.add_comm]

open Verif.Spec in
/-- The arrays at the end, for every division of the active points in consecutive ranges, one per process, and
every order of the assignments of a process. -/
theorem stored_values {κ α γ : Type} [AddMonoid α] [AddMonoid γ] (B : ActiveLayout) (H : HamView κ α γ) (re : γ → α)
    (k : Nat → κ) (first : Nat → Nat) (size : Nat) (h : Nat → Nat) (h0 : h 0 = 0) (hm : ∀ r, h r ≤ h (r + 1))
    (hN : h size = B.numPoints) (sym withVec withVel : Bool) (hsym : sym = true → withVel = true)
    (we : Nat → List (Nat × α)) (wu wv : Nat → List (Nat × γ))
    (hwe : ∀ r, r < size → (we r).Perm ((List.range' (h r) (h (r + 1) - h r)).flatMap fun ik =>
      B.energyAt ik fun ib => H.energy (k ik) (first ik + ib)))
    (hwu : withVec = true → ∀ r, r < size → (wu r).Perm ((List.range' (h r) (h (r + 1) - h r)).flatMap fun ik =>
      B.vectorAt ik fun i ib => H.vector (k ik) i (first ik + ib)))
    (hwv : withVel = true → ∀ r, r < size → (wv r).Perm ((List.range' (h r) (h (r + 1) - h r)).flatMap fun ik =>
      B.velocityAt ik fun ib1 ib2 c => H.velocity (k ik) (first ik + ib1) (first ik + ib2) c)) :
    ∃ out, activeArrays B re size sym withVec withVel we wu wv = .ok out ∧ out.length = size ∧ ∀ A ∈ out,
      EnergiesOf B H k first A ∧ (withVec = true → VectorsOf B H k first A) ∧
      (withVel = true → VelocitiesOf B H re k first A) := by
  obtain ⟨oe, e1, e2, e3⟩ := reduceStore_spec size B.numPoints B.numStates (fun ik => List.range (B.numBands ik))
    (fun ik ib => B.bloch2Comb ik ib) (fun ik ib => H.energy (k ik) (first ik + ib)) (fun _ _ => List.nodup_range)
    (by
      intro a b l l' _ _ hl hl' e
      rw [List.mem_range] at hl hl'
      exact energy_inj B hl hl' e)
    (by intro a l ha hl; rw [List.mem_range] at hl; exact energy_bound B ha hl)
    h h0 hm hN we hwe
  have hu : ∃ ou, reduceStore size (if withVec then B.numEigStates else 0) (fun r => if withVec then wu r else []) =
      .ok ou ∧ (withVec = true → ∀ r, r < size → ∀ ik i ib, ik < B.numPoints → i < B.numFullBands →
        ib < B.numBands ik → readAt (ou.getD r []) (B.eigBloch2Comb ik i ib) = .ok (H.vector (k ik) i (first ik + ib))) := by
    cases withVec with
    | false =>
      obtain ⟨o, o1, _, _⟩ := reduceStore_spec (α := γ) (ι := Empty) size 0 0 (fun _ => []) (fun _ _ => 0) (fun _ _ => 0)
        (by simp) (by simp) (by simp) (fun _ => 0) rfl (by simp) rfl (fun _ => []) (by simp)
      exact ⟨o, o1, by simp⟩
    | true =>
      obtain ⟨o, o1, _, o3⟩ := reduceStore_spec size B.numPoints B.numEigStates
        (fun ik => (List.range B.numFullBands).flatMap fun i => (List.range (B.numBands ik)).map fun j => (i, j))
        (fun ik (l : Nat × Nat) => B.eigBloch2Comb ik l.1 l.2) (fun ik l => H.vector (k ik) l.1 (first ik + l.2))
        (fun _ _ => nodup_grid _ _)
        (by
          intro a b l l' _ _ hl hl' e
          have hl := (mem_grid l).mp hl
          have hl' := (mem_grid l').mp hl'
          obtain ⟨f1, f2, f3⟩ := vector_inj B hl.1 hl.2 hl'.1 hl'.2 e
          exact ⟨f1, Prod.ext f2 f3⟩)
        (by intro a l ha hl; have hl := (mem_grid l).mp hl; exact vector_bound B ha hl.1 hl.2)
        h h0 hm hN wu (by
          intro r hr
          refine (hwu rfl r hr).trans (List.Perm.of_eq ?_)
          apply List.flatMap_congr
          intro ik _
          unfold ActiveLayout.vectorAt
          rw [List.map_flatMap]
          simp only [List.map_map, Function.comp_def])
      refine ⟨o, by simpa using o1, fun _ r hr ik i ib hik hi hib => ?_⟩
      exact (o3 r hr).2 ik (i, ib) hik ((mem_grid _).mpr ⟨hi, hib⟩)
  have hv : ∃ ov, reduceStore size (if withVel then B.numVelStates else 0) (fun r => if withVel then wv r else []) =
      .ok ov ∧ (withVel = true → ∀ r, r < size → ∀ ik i j c, ik < B.numPoints → i < B.numBands ik →
        j < B.numBands ik → c < 3 → readAt (ov.getD r []) (B.velBloch2Comb ik i j c) =
          .ok (H.velocity (k ik) (first ik + i) (first ik + j) c)) := by
    cases withVel with
    | false =>
      obtain ⟨o, o1, _, _⟩ := reduceStore_spec (α := γ) (ι := Empty) size 0 0 (fun _ => []) (fun _ _ => 0) (fun _ _ => 0)
        (by simp) (by simp) (by simp) (fun _ => 0) rfl (by simp) rfl (fun _ => []) (by simp)
      exact ⟨o, o1, by simp⟩
    | true =>
      obtain ⟨o, o1, _, o3⟩ := reduceStore_spec size B.numPoints B.numVelStates
        (fun ik => velLocs (B.numBands ik))
        (fun ik (l : Nat × Nat × Nat) => B.velBloch2Comb ik l.1 l.2.1 l.2.2)
        (fun ik l => H.velocity (k ik) (first ik + l.1) (first ik + l.2.1) l.2.2)
        (fun _ _ => nodup_velLocs _)
        (by
          intro a b l l' _ _ hl hl' e
          have hl := (mem_velLocs l).mp hl
          have hl' := (mem_velLocs l').mp hl'
          obtain ⟨f1, f2, f3, f4⟩ := velocity_inj B hl.1 hl.2.1 hl.2.2 hl'.1 hl'.2.1 hl'.2.2 e
          exact ⟨f1, Prod.ext f2 (Prod.ext f3 f4)⟩)
        (by intro a l ha hl; have hl := (mem_velLocs l).mp hl; exact velocity_bound B ha hl.1 hl.2.1 hl.2.2)
        h h0 hm hN wv (by
          intro r hr
          refine (hwv rfl r hr).trans (List.Perm.of_eq ?_)
          apply List.flatMap_congr
          intro ik _
          unfold ActiveLayout.velocityAt velLocs
          simp only [List.map_flatMap, List.map_map, Function.comp_def])
      refine ⟨o, by simpa using o1, fun _ r hr ik i j c hik hi hj hc => ?_⟩
      exact (o3 r hr).2 ik (i, j, c) hik ((mem_velLocs _).mpr ⟨hi, hj, hc⟩)
  obtain ⟨ou, u1, u2⟩ := hu
  obtain ⟨ov, v1, v2⟩ := hv
  have hs : ∃ x, (if sym then mapOutcome (fun r => B.allGroupVelocities re (ov.getD r [])) (List.range size) else
      .ok []) = .ok x := by
    cases sym with
    | false => exact ⟨_, rfl⟩
    | true =>
      refine ⟨_, mapOutcome_ok (g := fun _ => (List.range B.numPoints).map fun ik => (List.range (B.numBands ik)).map
        fun ib => (List.range 3).map fun c => re (H.velocity (k ik) (first ik + ib) (first ik + ib) c)) _ ?_⟩
      intro r hr
      apply mapOutcome_ok
      intro ik hik
      apply mapOutcome_ok
      intro ib hib
      apply mapOutcome_ok
      intro c hc
      rw [List.mem_range] at hr hik hib hc
      rw [v2 (hsym rfl) r hr ik ib ib c hik hib hib hc]; rfl
  obtain ⟨x, hx⟩ := hs
  refine ⟨(List.range size).map fun r => ⟨oe.getD r [], ov.getD r [], ou.getD r []⟩, ?_, by simp, ?_⟩
  · unfold activeArrays
    simp only [Outcome.bind_eq, e1, v1, u1, hx, Outcome.bind_ok]
  intro A hA
  rw [List.mem_map] at hA
  obtain ⟨r, hr, rfl⟩ := hA
  rw [List.mem_range] at hr
  refine ⟨?_, ?_, ?_⟩
  · intro ik ib hik hib
    have := (e3 r hr).2 ik ib hik (by simpa using hib)
    unfold ActiveArrays.getEnergy
    simp only
    rw [if_neg, this]
    have hlen := (e3 r hr).1
    have hb := energy_bound B hik hib
    rw [List.isEmpty_iff]
    intro hnil
    rw [hnil] at hlen
    simp at hlen
    omega
  · intro hvec
    refine ⟨fun ik i ib hik hi hib => u2 hvec r hr ik i ib hik hi hib, ?_⟩
    intro numAtoms hB hmax ik ib iat ic hik hib hat hc
    exact getPh_val B ⟨oe.getD r [], ov.getD r [], ou.getD r []⟩ (fun i ib => H.vector (k ik) i (first ik + ib)) ik ib
      numAtoms hB hmax
      (fun i hi => u2 hvec r hr ik i ib hik hi hib) iat ic hat hc
  · intro hvel
    refine ⟨fun ik i j c hik hi hj hc => v2 hvel r hr ik i j c hik hi hj hc, ?_⟩
    intro ik ib hik hib
    unfold ActiveArrays.getGroupVelocity
    simp only
    rw [if_neg]
    · rw [(Props.C28_roundtrip B ik ib hik hib).2]
      simp only [Outcome.bind_eq, Outcome.bind_ok]
      apply mapOutcome_ok
      intro c hc
      rw [List.mem_range] at hc
      rw [v2 hvel r hr ik ib ib c hik hib hib hc]; rfl
    · have := v2 hvel r hr ik ib ib 0 hik hib hib (by omega)
      rw [List.isEmpty_iff]
      intro hnil
      rw [hnil] at this
      simp [readAt] at this

end Verif.Model
