import Verif.Proofs.RunCoupling
import Verif.Spec.RunCoupling
import Verif.Props.ElPhWrite
import Verif.Props.ElPhHeader
import Verif.Props.ElPhCoupling
import Verif.Props.Conversion

/-!
# C191: the coupling of a transport run is the one of the conversion
-/
namespace Verif.Props
open Verif.Model Verif.Spec
open scoped Matrix

variable {E P M W : Nat}

theorem read_val (d : ElPhData E P M W) (hM : 0 < M) (hP : 0 < P) (hW : 0 < W) (hcount : W * W * M * P < 2147483648) (ne ns : Int)
    (hns : ns ≠ 2) (size ps rank : Nat) (hps : 0 < ps) (hd : ps ∣ size) (hr : rank < size) (hfit : E * size < 18446744073709551616)
    (hpool : ps ≤ E) (halone : ps = 1 → size ≤ E) (hone : size = 1 → E * (W * W * M * P) < 4294967296) :
    readCoupling (headerOf d ne ns) (elementsOf (tensorMemory d) (W * W * M * P) (List.range E)) size ps rank =
      .ok ⟨blockOf (List.ofFn d.elVectors) ps (rank % ps), blockOf (List.ofFn d.elDegeneracies) ps (rank % ps), List.ofFn d.phVectors,
        List.ofFn d.phDegeneracies, elementsOf (tensorMemory d) (W * W * M * P)
          (List.range' (head E ps (rank % ps)) (head E ps (rank % ps + 1) - head E ps (rank % ps)))⟩ := by
  have hle : ps ≤ size := Nat.le_of_dvd (by omega) hd
  have hfit' : E * ps < 18446744073709551616 := lt_of_le_of_lt (Nat.mul_le_mul_left _ hle) hfit
  have hmod : rank % ps < ps := Nat.mod_lt _ hps
  obtain ⟨w, _, hh⟩ := elphHeader_val (headerOf d ne ns) size ps rank hps hd hr
    ⟨by simp [headerOf], by simp [headerOf], hns, by simpa [headerOf] using hfit'⟩
  unfold readCoupling
  simp only [Outcome.bind_eq]
  rw [hh, Outcome.bind_ok]
  simp only [headerOf, List.length_ofFn]
  rw [C121_count_partial W M P hP hM hcount, Outcome.bind_ok]
  by_cases h1 : ps = 1
  · subst h1
    rw [if_pos rfl, C121_format1_partial (tensorMemory d) E (W * W * M * P) size (by positivity) (by omega) hfit (halone rfl) hone, Outcome.bind_ok]
    simp [head, Nat.mod_one, List.range_eq_range']
  · rw [if_neg h1]
    obtain ⟨w', hw', ht⟩ := C121_format1_pools_partial (tensorMemory d) E (W * W * M * P) (rank % ps) ps hmod hfit' hpool
    rw [divideWorkIter_val hfit' hmod, Outcome.ok.injEq] at hw'
    subst hw'
    rw [ht, Outcome.bind_ok]

/-- What process `r` of a pool has read. -/
noncomputable def shareOf (d : ElPhData E P M W) (ps r : Nat) : ProcessCoupling :=
  ⟨blockOf (List.ofFn d.elVectors) ps r, blockOf (List.ofFn d.elDegeneracies) ps r, List.ofFn d.phVectors,
    List.ofFn d.phDegeneracies, elementsOf (tensorMemory d) (W * W * M * P) (List.range' (head E ps r) (head E ps (r + 1) - head E ps r))⟩

/-- What a process of a pool computes is what it would compute with all of the tensor. -/
theorem pool_same (d : ElPhData E P M W) (ps : Nat) (hps : 0 < ps) (own : Nat) (ho : own < ((List.range ps).map (shareOf d ps)).length)
    (asked : Nat → Vec3 × (Fin W → Nat → ℂ)) (usePolar : Bool) (garbage : Nat → ℂ) (items : List (CouplingItem M W)) :
    calcCouplingSquared (deviceData P M W ((List.range ps).map (shareOf d ps))[own]) usePolar
      (poolCache P M W ((List.range ps).map (shareOf d ps)) asked own) (asked own).2 garbage items =
      calcCouplingSquared d usePolar (cacheElPh d [List.finRange E] asked own) (asked own).2 garbage items := by
  have ho' : own < ps := by simpa using ho
  have hcache : poolCache P M W ((List.range ps).map (shareOf d ps)) asked own = cacheElPh d [List.finRange E] asked own := by
    have h1 : poolCache P M W ((List.range ps).map (shareOf d ps)) asked own = cacheElPh d ((List.range ps).map (blockOf (List.finRange E) ps)) asked own := by
      rw [poolCache_sum, cacheElPh_sum]
      funext irP nu ib1 iw2
      rw [List.map_map, List.map_map]
      congr 1
      apply List.map_congr_left
      intro r hr
      have := rotate_block d ps r (List.mem_range.mp hr) (shareOf d ps r) rfl rfl rfl (asked own).1 (asked own).2
      exact congrFun (congrFun (congrFun (congrFun this irP) nu) ib1) iw2
    rw [h1]
    funext irP nu ib1 iw2
    have hall : ((List.range ps).map (blockOf (List.finRange E) ps)).flatten = List.finRange E := by
      rw [← List.flatMap_def]
      exact blocks_all _ _ hps
    rw [cacheElPh_val d _ (by rw [hall]), cacheElPh_val d _ (by simp)]
  rw [hcache]
  have hphV : (deviceData P M W ((List.range ps).map (shareOf d ps))[own]).phVectors = d.phVectors := by
    funext irP
    simp [deviceData, shareOf, List.getD_eq_getElem?_getD, List.getElem?_ofFn]
  have hphD : (deviceData P M W ((List.range ps).map (shareOf d ps))[own]).phDegeneracies = d.phDegeneracies := by
    funext irP
    simp [deviceData, shareOf, List.getD_eq_getElem?_getD, List.getElem?_ofFn]
  unfold calcCouplingSquared couplingSquared
  rw [hphV, hphD]

/-- What a process of the run computes is what it would compute with all of the tensor. -/
theorem run_same (d : ElPhData E P M W) (hM : 0 < M) (hP : 0 < P) (hW : 0 < W) (hcount : W * W * M * P < 2147483648) (ne ns : Int)
    (hns : ns ≠ 2) (sizeW : Nat) (hsW : sizeW ≤ E) (hfW : E * sizeW < 18446744073709551616) (mems : Nat → Nat × List ℂ)
    (hm : HeldByWriters d sizeW mems) :
    ∃ ws, v1Writes mems E (W * W * M * P) sizeW = .ok ws ∧ ∀ ws', ws'.Perm ws →
      ∃ data, applyWrites (List.replicate (E * (W * W * M * P)) 0) ws' = .ok data ∧
        ∀ (size ps pool : Nat), 0 < ps → ps ∣ size → pool < size / ps → E * size < 18446744073709551616 → ps ≤ E → (ps = 1 → size ≤ E) →
          (size = 1 → E * (W * W * M * P) < 4294967296) →
          ∃ procs, readPoolCoupling (headerOf d ne ns) data size ps pool = .ok procs ∧ procs.length = ps ∧
            ∀ (own : Nat) (ho : own < procs.length) (asked : Nat → Vec3 × (Fin W → Nat → ℂ)) (usePolar : Bool) (garbage : Nat → ℂ)
              (items : List (CouplingItem M W)),
              calcCouplingSquared (deviceData P M W procs[own]) usePolar (poolCache P M W procs asked own) (asked own).2 garbage items =
                calcCouplingSquared d usePolar (cacheElPh d [List.finRange E] asked own) (asked own).2 garbage items := by
  have hwr : ∃ ws, v1Writes mems E (W * W * M * P) sizeW = .ok ws ∧ ∀ ws', ws'.Perm ws → ∀ file : List ℂ,
      file.length = E * (W * W * M * P) → applyWrites file ws' = .ok (elementsOf (tensorMemory d) (W * W * M * P) (List.range E)) := by
    rcases hm with ⟨h2, h3, h4⟩ | ⟨h2, h3, h4⟩
    · exact C148_format1_partial _ _ _ _ h2 hsW hfW mems h3 h4
    · exact C148_format1_replicated_partial _ _ _ _ h2 hsW hfW mems h3 h4
  obtain ⟨ws, hws, hfile⟩ := hwr
  refine ⟨ws, hws, fun ws' hp => ⟨_, hfile ws' hp _ List.length_replicate, ?_⟩⟩
  intro size ps pool hps hd hpool hfit hpE halone hone
  have hread : readPoolCoupling (headerOf d ne ns) (elementsOf (tensorMemory d) (W * W * M * P) (List.range E)) size ps pool =
      .ok ((List.range ps).map (shareOf d ps)) := by
    unfold readPoolCoupling
    apply mapOutcome_eq_map
    intro r hr
    have hr := List.mem_range.mp hr
    have hlt : pool * ps + r < size := by
      obtain ⟨m, rfl⟩ := hd
      rw [Nat.mul_div_cancel_left _ hps] at hpool
      rw [Nat.mul_comm ps m]
      exact mixed_lt hpool hr
    rw [read_val d hM hP hW hcount ne ns hns size ps _ hps hd hlt hfit hpE halone hone, mixed_mod hr]
    rfl
  exact ⟨_, hread, by simp, pool_same d ps hps⟩

/-- C191 (partial): a tensor written by the processes of the conversion, in whatever order they write, and read by the processes of a run
in pools of any size, gives the coupling of the tensor: what a process of any pool computes is the square of the matrix element
(`matrixElement`, the specification of C122) of the tensor of the conversion.
Missing: parts larger than 10^9 bytes (C148), more processes than lattice vectors (`C191_violated_processes`), 2^31 elements for
a lattice vector or more (C121). -/
theorem C191_run_partial (d : ElPhData E P M W) (hM : 0 < M) (hP : 0 < P) (hW : 0 < W) (hcount : W * W * M * P < 2147483648) (ne ns : Int)
    (hns : ns ≠ 2) (sizeW : Nat) (hsW : sizeW ≤ E) (hfW : E * sizeW < 18446744073709551616) (mems : Nat → Nat × List ℂ)
    (hm : HeldByWriters d sizeW mems) :
    ∃ ws, v1Writes mems E (W * W * M * P) sizeW = .ok ws ∧ ∀ ws', ws'.Perm ws →
      ∃ data, applyWrites (List.replicate (E * (W * W * M * P)) 0) ws' = .ok data ∧
        ∀ (size ps pool : Nat), 0 < ps → ps ∣ size → pool < size / ps → E * size < 18446744073709551616 → ps ≤ E → (ps = 1 → size ≤ E) →
          (size = 1 → E * (W * W * M * P) < 4294967296) →
          ∃ procs, readPoolCoupling (headerOf d ne ns) data size ps pool = .ok procs ∧ procs.length = ps ∧
            ∀ (own : Nat) (ho : own < procs.length) (asked : Nat → Vec3 × (Fin W → Nat → ℂ)) (usePolar : Bool) (garbage : Nat → ℂ)
              (items : List (CouplingItem M W)),
              let result := calcCouplingSquared (deviceData P M W procs[own]) usePolar (poolCache P M W procs asked own) (asked own).2
                garbage items
              result.length = items.length ∧
              ∀ (i : Nat) (hi : i < items.length) (hr : i < result.length) (ib1 ib2 : Nat) (nu : Fin M), ib2 < items[i].nb2 →
                result[i] ib1 ib2 nu = Complex.normSq (matrixElement d (longRangeUsed usePolar items[i].q) (asked own).1 items[i].q
                  (fun w => (asked own).2 w ib1) (fun w => items[i].ev2 w ib2) (fun mu => items[i].ev3 mu nu) (items[i].polar nu)) := by
  obtain ⟨ws, hws, h⟩ := run_same d hM hP hW hcount ne ns hns sizeW hsW hfW mems hm
  refine ⟨ws, hws, fun ws' hp => ?_⟩
  obtain ⟨data, hdata, h⟩ := h ws' hp
  refine ⟨data, hdata, fun size ps pool h1 h2 h3 h4 h5 h6 h7 => ?_⟩
  obtain ⟨procs, hprocs, hl, h⟩ := h size ps pool h1 h2 h3 h4 h5 h6 h7
  refine ⟨procs, hprocs, hl, fun own ho asked usePolar garbage items => ?_⟩
  rw [h own ho asked usePolar garbage items]
  exact C122_value d usePolar [List.finRange E] (by simp) asked own garbage items

theorem read2_val (d : ElPhData E P M W) (hM : 0 < M) (hP : 0 < P) (hcount : W * W * M * P < 2147483648) (ne ns : Int)
    (hns : ns ≠ 2) (size ps rank : Nat) (hps : 0 < ps) (hd : ps ∣ size) (hr : rank < size) (hfit : E * size < 18446744073709551616)
    (halone : ps = 1 → size = 1) :
    readCoupling2 (headerOf d ne ns) (fun irE => (List.range (W * W * M * P)).map (tensorMemory d irE)) size ps rank =
      .ok (shareOf d ps (rank % ps)) := by
  have hle : ps ≤ size := Nat.le_of_dvd (by omega) hd
  have hfit' : E * ps < 18446744073709551616 := lt_of_le_of_lt (Nat.mul_le_mul_left _ hle) hfit
  have hmod : rank % ps < ps := Nat.mod_lt _ hps
  obtain ⟨w, _, hh⟩ := elphHeader_val (headerOf d ne ns) size ps rank hps hd hr
    ⟨by simp [headerOf], by simp [headerOf], hns, by simpa [headerOf] using hfit'⟩
  unfold readCoupling2
  simp only [Outcome.bind_eq]
  rw [hh, Outcome.bind_ok]
  simp only [headerOf, List.length_ofFn]
  rw [C121_count_partial W M P hP hM hcount, Outcome.bind_ok]
  by_cases h1 : ps = 1
  · obtain rfl := halone h1
    subst h1
    rw [if_pos rfl, C121_format2_one_process_partial (tensorMemory d) E (W * W * M * P) (by omega), Outcome.bind_ok]
    simp [shareOf, head, Nat.mod_one, List.range_eq_range']
  · rw [if_neg h1]
    obtain ⟨w', hw', ht⟩ := C121_format2_pools (tensorMemory d) E (W * W * M * P) (rank % ps) ps hmod hfit'
    rw [divideWorkIter_val hfit' hmod, Outcome.ok.injEq] at hw'
    subst hw'
    rw [ht, Outcome.bind_ok]
    rfl

/-- C191 (partial), with the second format: a tensor written by one process, and read by the processes of a run in pools of two or more
processes, or by one process.
Missing: several processes that write (C148), several processes that read without pools (`C191_violated_second_format`). -/
theorem C191_second_format_partial (d : ElPhData E P M W) (hM : 0 < M) (hP : 0 < P) (hcount : W * W * M * P < 2147483648) (ne ns : Int)
    (hns : ns ≠ 2) (hfW : E < 18446744073709551616) (mems : Nat → Nat × List ℂ)
    (hm : Replicated (tensorMemory d) E (W * W * M * P) 1 mems) (events : List (V2Event ℂ))
    (he : Interleaving mems E (W * W * M * P) 1 events) (locking : Bool) :
    ∃ s, v2Run locking ⟨[], []⟩ events = .ok s ∧ ∃ slices, (∀ irE < E, s.dataset irE = some (slices irE)) ∧
      ∀ (size ps pool : Nat), 0 < ps → ps ∣ size → pool < size / ps → E * size < 18446744073709551616 → (ps = 1 → size = 1) →
        ∃ procs, readPoolCoupling2 (headerOf d ne ns) slices size ps pool = .ok procs ∧ procs.length = ps ∧
          ∀ (own : Nat) (ho : own < procs.length) (asked : Nat → Vec3 × (Fin W → Nat → ℂ)) (usePolar : Bool) (garbage : Nat → ℂ)
            (items : List (CouplingItem M W)),
            let result := calcCouplingSquared (deviceData P M W procs[own]) usePolar (poolCache P M W procs asked own) (asked own).2
              garbage items
            result.length = items.length ∧
            ∀ (i : Nat) (hi : i < items.length) (hr : i < result.length) (ib1 ib2 : Nat) (nu : Fin M), ib2 < items[i].nb2 →
              result[i] ib1 ib2 nu = Complex.normSq (matrixElement d (longRangeUsed usePolar items[i].q) (asked own).1 items[i].q
                (fun w => (asked own).2 w ib1) (fun w => items[i].ev2 w ib2) (fun mu => items[i].ev3 mu nu) (items[i].polar nu)) := by
  obtain ⟨s, hs, hset, _⟩ := C148_format2_partial (tensorMemory d) E (W * W * M * P) hfW mems hm events he locking
  refine ⟨s, hs, _, hset, ?_⟩
  intro size ps pool hps hd hpool hfit halone
  have hread : readPoolCoupling2 (headerOf d ne ns) (fun irE => (List.range (W * W * M * P)).map (tensorMemory d irE)) size ps pool =
      .ok ((List.range ps).map (shareOf d ps)) := by
    unfold readPoolCoupling2
    apply mapOutcome_eq_map
    intro r hr
    have hr := List.mem_range.mp hr
    have hlt : pool * ps + r < size := by
      obtain ⟨m, rfl⟩ := hd
      rw [Nat.mul_div_cancel_left _ hps] at hpool
      rw [Nat.mul_comm ps m]
      exact mixed_lt hpool hr
    rw [read2_val d hM hP hcount ne ns hns size ps _ hps hd hlt hfit halone, mixed_mod hr]
  refine ⟨_, hread, by simp, fun own ho asked usePolar garbage items => ?_⟩
  rw [pool_same d ps hps own ho asked usePolar garbage items]
  exact C122_value d usePolar [List.finRange E] (by simp) asked own garbage items

/-- C191 is violated: with the second format, and without pools, each of several processes has zeros in place of the coupling of all the
lattice vectors but the first ones, whatever the coupling in the file. -/
theorem C191_violated_second_format (d : ElPhData E P M W) (hM : 0 < M) (hP : 0 < P) (hcount : W * W * M * P < 2147483648) (ne ns : Int)
    (hns : ns ≠ 2) (size rank : Nat) (hr : rank < size) (hfit : E * size < 18446744073709551616) :
    ∃ p, readCoupling2 (headerOf d ne ns) (fun irE => (List.range (W * W * M * P)).map (tensorMemory d irE)) size 1 rank = .ok p ∧
      ∀ irE : Fin p.elVectors.length, E / size ≤ irE → ∀ irP nu iw1 iw2, (deviceData P M W p).coupling irE irP nu iw1 iw2 = 0 := by
  have hfit' : E * 1 < 18446744073709551616 := lt_of_le_of_lt (Nat.mul_le_mul_left _ (by omega)) hfit
  obtain ⟨w, _, hh⟩ := elphHeader_val (headerOf d ne ns) size 1 rank (by norm_num) (Nat.one_dvd _) hr
    ⟨by simp [headerOf], by simp [headerOf], hns, by simpa [headerOf] using hfit'⟩
  unfold readCoupling2
  simp only [Outcome.bind_eq]
  rw [hh, Outcome.bind_ok]
  simp only [headerOf, List.length_ofFn]
  rw [C121_count_partial W M P hP hM hcount, Outcome.bind_ok, if_pos trivial, C121_violated_format2 _ E _ size (by omega) hfit,
    Outcome.bind_ok]
  refine ⟨_, rfl, fun irE hirE irP nu iw1 iw2 => ?_⟩
  simp only [deviceData]
  have e : ((((irE : ℕ) * P + irP) * M + nu) * W + iw1) * W + iw2 = irE * (W * W * M * P) + ((((irP : ℕ) * M + nu) * W + iw1) * W + iw2) := by
    ring
  have hle : E / size * (W * W * M * P) ≤ irE * (W * W * M * P) := Nat.mul_le_mul_right _ hirE
  have hlen : (elementsOf (tensorMemory d) (W * W * M * P) (List.range (E / size))).length = E / size * (W * W * M * P) := by
    rw [elementsOf_length, List.length_range]
  rw [List.getD_eq_getElem?_getD, List.getElem?_append_right (by rw [hlen, e]; omega)]
  rw [List.getElem?_replicate]
  split <;> rfl

/-- C191 (partial), from the files of Quantum ESPRESSO to the run: with the hypotheses of C190 on the files and those of `C191_run_partial` on
the processes, each process of the run gets, at wavevectors `k` and `q` of the meshes, the squared matrix element of the coupling in the
files of Quantum ESPRESSO. -/
theorem C191_from_espresso_partial (x : ConversionInput) (hk : ∀ i, 0 < x.nk i) (hq : ∀ i, 0 < x.nq i) (s : ConversionShares x.nk x.nq)
    (hdb : DualCells x.d x.b) (hck : CompactGrid x.d (meshVector x.nk)) (hcq : CompactGrid x.d (meshVector x.nq))
    (hsk : ∀ i, x.nk i ≤ 1000) (hsq : ∀ i, x.nq i ≤ 1000) (hsub : ∀ i, x.nq i ∣ x.nk i)
    -- how the work is shared
    (horder : ∀ l, (s.order l).Perm l) (B : Nat) (hw : ∀ k q, Worksharing (s.threads x.numModes B B k q))
    (ha : ∀ k q, Aligned (s.threads x.numModes B B k q))
    (hksh : s.kShares.flatten.Perm (gridList x.nk hk)) (hqsh : s.qShares.flatten.Perm (gridList x.nq hq))
    (hesh : ∀ E, (s.eShares E).flatten.Perm (List.finRange E))
    -- the files of Wannier90
    (hpre : x.wannierPrefix ≠ "") (title : List FileWord) (ks : List (V3 Rat)) (posU : Nat → KGrid x.nk)
    (hposU : ListsGrid x.nk ks posU) (u : KGrid x.nk → Nat → Nat → Rat × Rat)
    (huf : x.uFile = some (rotationFile title B B ks fun w => u (posU w))) (hdf : x.disFile = none) (hnw : x.numWannier = B)
    -- the files of Quantum ESPRESSO
    (hnb : x.numQEBands = B) (hen : x.energies.length = x.wannierEnergies.length) (posK : Nat → KGrid x.nk)
    (hposK : ListsGrid x.nk x.kGridFull posK) (stars : List StarContent) (hgood : ∀ c ∈ stars, c.Good x.numModes)
    (hst : x.starFiles = stars.map fun c => c.file x.numModes (x.nk 0 * x.nk 1 * x.nk 2) B) (posQ : Nat → Nat → KGrid x.nq)
    (hposQ : StarsGrid x.nq stars posQ) :
    ∃ (E P : Nat) (data : ElPhData E P x.numModes B), convertCoupling x hk hq s = .ok ⟨E, P, B, data⟩ ∧
      -- the sizes, and the processes that write
      (0 < x.numModes → 0 < B → B * B * x.numModes * P < 2147483648 → ∀ (ne ns : Int), ns ≠ 2 → ∀ sizeW ≤ E,
      E * sizeW < 18446744073709551616 → ∀ mems, HeldByWriters data sizeW mems →
      ∃ ws, v1Writes mems E (B * B * x.numModes * P) sizeW = .ok ws ∧ ∀ ws', ws'.Perm ws →
      ∃ file, applyWrites (List.replicate (E * (B * B * x.numModes * P)) 0) ws' = .ok file ∧
      -- the processes that read
      ∀ (size ps pool : Nat), 0 < ps → ps ∣ size → pool < size / ps → E * size < 18446744073709551616 → ps ≤ E → (ps = 1 → size ≤ E) →
      (size = 1 → E * (B * B * x.numModes * P) < 4294967296) →
      ∃ procs, readPoolCoupling (headerOf data ne ns) file size ps pool = .ok procs ∧ procs.length = ps ∧
      -- the interpolation
      ∀ (own : Nat) (ho : own < procs.length) (asked : Nat → Vec3 × (Fin B → Nat → ℂ)) (garbage : Nat → ℂ) (ik : Nat)
        (_ : ik < x.kGridFull.length) (a : Nat) (ha : a < stars.length) (iq : Nat) (_ : iq < stars[a].crystal.length) (k' : KGrid x.nk)
        (_ : IsPoint x.nk (sumOfPoints x.nk x.nq (posK ik) (posQ a iq)) k') (item : CouplingItem x.numModes B)
        (_ : (asked own).1 = matVec x.b fun i => ((posK ik i : ℕ) : ℝ) / x.nk i)
        (_ : item.q = matVec x.b fun i => ((posQ a iq i : ℕ) : ℝ) / x.nq i) (b1 b2 : Nat) (_ : b2 < item.nb2) (nu : Fin x.numModes),
        (calcCouplingSquared (deviceData P x.numModes B procs[own]) false (poolCache P x.numModes B procs asked own) (asked own).2 garbage
          [item])[0]?.map (fun g => g b1 b2 nu) =
          some (Complex.normSq (∑ l : Fin B, ∑ m : Fin B, ∑ nu' : Fin x.numModes,
            (starRingEnd ℂ) (stateOf (fun (l w : Fin B) => complexOf (u k' l w)) (fun w => item.ev2 w b2) l) *
            stars[a].coupling iq nu' ik m l *
            stateOf (fun (l w : Fin B) => complexOf (u (posK ik) l w)) (fun w => (asked own).2 w b1) m *
            ((Matrix.of fun mu nu : Fin x.numModes => stars[a].eigenvector iq nu mu)⁻¹ *ᵥ fun mu => item.ev3 mu nu) nu'))) := by
  obtain ⟨E, P, data, hc, h⟩ := C190_conversion_partial x hk hq s hdb hck hcq hsk hsq hsub horder B hw ha hksh hqsh hesh hpre title ks posU
    hposU u huf hdf hnw hnb hen posK hposK stars hgood hst posQ hposQ
  have hP : 0 < P := lt_of_lt_of_le (Nat.mul_pos (Nat.mul_pos (hq 0) (hq 1)) (hq 2)) (convertCoupling_sizes x hk hq s _ hc).2.1
  refine ⟨E, P, data, hc, fun hM hB hcount ne ns hns sizeW hsW hfW mems hm => ?_⟩
  obtain ⟨ws, hws, hr⟩ := run_same data hM hP hB hcount ne ns hns sizeW hsW hfW mems hm
  refine ⟨ws, hws, fun ws' hp => ?_⟩
  obtain ⟨file, hfile, hr⟩ := hr ws' hp
  refine ⟨file, hfile, fun size ps pool h1 h2 h3 h4 h5 h6 h7 => ?_⟩
  obtain ⟨procs, hprocs, hl, hr⟩ := hr size ps pool h1 h2 h3 h4 h5 h6 h7
  refine ⟨procs, hprocs, hl, ?_⟩
  intro own ho asked garbage ik hik a ha iq hiq k' hk' item e1 e2 b1 b2 hb2 nu
  rw [hr own ho asked false garbage [item]]
  exact h [List.finRange E] (by simp) asked own garbage ik hik a ha iq hiq k' hk' item e1 e2 b1 b2 hb2 nu

/-- C191 is violated: without pools, and with more processes than lattice vectors, all the processes read the first element of an empty
list. -/
theorem C191_violated_processes (d : ElPhData E P M W) (hM : 0 < M) (hP : 0 < P) (hcount : W * W * M * P < 2147483648) (ne ns : Int)
    (hns : ns ≠ 2) (data : List ℂ) (size rank : Nat) (hr : rank < size) (hfit : E * size < 18446744073709551616) (hmany : E < size) :
    readCoupling (headerOf d ne ns) data size 1 rank = .ub := by
  have hfit' : E * 1 < 18446744073709551616 := lt_of_le_of_lt (Nat.mul_le_mul_left _ (by omega)) hfit
  obtain ⟨w, _, hh⟩ := elphHeader_val (headerOf d ne ns) size 1 rank (by norm_num) (Nat.one_dvd _) hr
    ⟨by simp [headerOf], by simp [headerOf], hns, by simpa [headerOf] using hfit'⟩
  unfold readCoupling
  simp only [Outcome.bind_eq]
  rw [hh, Outcome.bind_ok]
  simp only [headerOf, List.length_ofFn]
  rw [C121_count_partial W M P hP hM hcount, Outcome.bind_ok, if_pos trivial, C121_violated_many_processes data E _ size hfit hmany]
  rfl

/-- A case that meets the hypotheses, and the value there: the coupling of a chain with two lattice vectors, written by two processes in
the opposite order of their ranks and read by four in two pools. -/
example : ∃ ws data procs, v1Writes (fun r => (1, elementsOf (tensorMemory chainElPh) 1 [r])) 2 1 2 = .ok ws ∧
    applyWrites (List.replicate 2 0) ws.reverse = .ok data ∧
    readPoolCoupling (headerOf chainElPh 1 1) data 4 2 1 = .ok procs ∧ ∃ ho : 1 < procs.length,
    (calcCouplingSquared (deviceData 1 1 1 procs[1]) false
      (poolCache 1 1 1 procs (fun _ => (![Real.pi, 0, 0], fun _ _ => 1)) 1) (fun _ _ => 1) (fun _ => 7)
      [⟨![0, 0, 0], 1, fun _ _ => 1, fun _ _ => 1, fun _ => 5⟩])[0]?.map (fun g => g 0 0 0) = some 1 := by
  have hm : HeldByWriters chainElPh 2 (fun r => (1, elementsOf (tensorMemory chainElPh) 1 [r])) := by
    refine Or.inl ⟨le_rfl, fun r hr => ?_, fun r hr w hw => ?_⟩
    · have : r = 0 ∨ r = 1 := by omega
      rcases this with rfl | rfl
      · exact ⟨[0], by decide, rfl⟩
      · exact ⟨[1], by decide, rfl⟩
    · have : r = 0 ∨ r = 1 := by omega
      rcases this with rfl | rfl
      · have e : w = [0] := Outcome.ok.inj (hw.symm.trans (by decide))
        subst e; decide
      · have e : w = [1] := Outcome.ok.inj (hw.symm.trans (by decide))
        subst e; decide
  obtain ⟨ws, hws, h⟩ := C191_run_partial chainElPh (by norm_num) (by norm_num) (by norm_num) (by norm_num) 1 1 (by norm_num) 2 le_rfl
    (by norm_num) _ hm
  obtain ⟨data, hdata, h⟩ := h ws.reverse ws.reverse_perm
  obtain ⟨procs, hprocs, hl, h⟩ := h 4 2 1 (by norm_num) (by norm_num) (by norm_num) (by norm_num) le_rfl (by norm_num) (by norm_num)
  have ho : 1 < procs.length := by rw [hl]; norm_num
  refine ⟨ws, data, procs, hws, hdata, hprocs, ho, ?_⟩
  obtain ⟨hlen, hv⟩ := h 1 ho (fun _ => (![Real.pi, 0, 0], fun _ _ => 1)) false (fun _ => 7)
    [⟨![0, 0, 0], 1, fun _ _ => 1, fun _ _ => 1, fun _ => 5⟩]
  have := hv 0 (by simp) (by rw [hlen]; simp) 0 0 0 (by simp)
  rw [List.getElem?_eq_getElem (by rw [hlen]; simp), Option.map_some, this]
  have e : Complex.exp (Complex.I * (Real.pi : ℂ)) = -1 := by rw [mul_comm]; exact Complex.exp_pi_mul_I
  simp [matrixElement, longRangeUsed, elphShortRange, chainElPh, vdot, Fin.sum_univ_two, Fin.sum_univ_three, e]
  norm_num

/-- The small conversion of C190, written by two processes and read by four in two pools: the matrix element is `3 + 4i`. -/
example : ∃ (E P : Nat) (data : ElPhData E P 1 1), convertCoupling smallInput pairCoarse_positive pairCoarse_positive smallShares =
      .ok ⟨E, P, 1, data⟩ ∧ ∃ ws file procs,
    v1Writes (fun _ => (E, elementsOf (tensorMemory data) (1 * 1 * 1 * P) (List.range E))) E (1 * 1 * 1 * P) 2 = .ok ws ∧
    applyWrites (List.replicate (E * (1 * 1 * 1 * P)) 0) ws.reverse = .ok file ∧
    readPoolCoupling (headerOf data 1 1) file 4 2 1 = .ok procs ∧ ∃ ho : 1 < procs.length,
    let asked : Nat → Vec3 × (Fin 1 → Nat → ℂ) := fun _ => (matVec smallInput.b fun i => ((pairSecond i : ℕ) : ℝ) / smallInput.nk i, fun _ _ => 1)
    (calcCouplingSquared (deviceData P 1 1 procs[1]) false (poolCache P 1 1 procs asked 1) (asked 1).2 (fun _ => 0)
      [⟨matVec smallInput.b fun i => ((pairSecond i : ℕ) : ℝ) / smallInput.nq i, 1, fun _ _ => 1, fun _ _ => 1, fun _ => 0⟩])[0]?.map
      (fun g => g 0 0 0) = some 25 := by
  have hsize : ∀ i, (![2, 1, 1] : Fin 3 → Nat) i ≤ 1000 := by decide
  obtain ⟨E, P, data, h, hrun⟩ := C191_from_espresso_partial smallInput pairCoarse_positive pairCoarse_positive smallShares pairCoarse_dual
    (by simpa [meshVector, smallInput] using compact_unit) (by simpa [meshVector, smallInput] using compact_unit) hsize hsize (fun _ => dvd_rfl)
    (fun l => List.Perm.refl l) 1 (fun _ _ => staticThreads_worksharing 1 (by norm_num))
    (fun _ _ => staticThreads_aligned 1 (by simp [smallInput]) (by norm_num)) (by simp [smallShares]) (by simp [smallShares])
    (fun E => by simp [smallShares]) (by simp [smallInput]) [] [⟨1 / 2, 0, 0⟩, ⟨0, 0, 0⟩] (fun w => if w = 0 then pairSecond else pairFirst) small_wannier
    (fun k _ _ => if (k 0 : ℕ) = 0 then (1, 0) else (0, 1))
    (by
      simp only [smallInput]
      congr 2
      funext w
      by_cases hw : w = 0 <;> simp [hw, pairFirst, pairSecond])
    rfl rfl rfl rfl (fun w => if w = 0 then pairFirst else pairSecond) small_espresso
    [smallStar (-1 / 2) (fun b => if b = 0 then 3 + 4 * Complex.I else 1), smallStar 0 fun _ => 1]
    (by
      intro c hc
      simp only [List.mem_cons, List.not_mem_nil, or_false] at hc
      rcases hc with rfl | rfl <;> exact ⟨rfl, rfl⟩)
    (by simp [smallInput]) (fun a _ => if a = 0 then pairSecond else pairFirst) (small_stars _ _)
  have hbox : (wsBox ⟨((2 : ℕ) : Int), ((1 : ℕ) : Int), ((1 : ℕ) : Int)⟩ 2).length = 225 := by decide +kernel
  obtain ⟨⟨hE1, hE2⟩, ⟨_, hP2⟩⟩ := convertCoupling_sizes _ _ _ _ _ h
  have hE1 : 2 ≤ E := hE1
  have hE2 : E ≤ 225 := le_of_le_of_eq hE2 hbox
  have hP2 : P ≤ 225 := le_of_le_of_eq hP2 hbox
  have hEP : E * P ≤ 225 * 225 := Nat.mul_le_mul hE2 hP2
  have hone : 1 * 1 * 1 * P = P := by omega
  have hcount : 1 * 1 * 1 * P < 2147483648 := by omega
  obtain ⟨ws, hws, hrun⟩ := hrun Nat.one_pos Nat.one_pos hcount 1 1 (by norm_num) 2 hE1 (by omega)
    (fun _ => (E, elementsOf (tensorMemory data) (1 * 1 * 1 * P) (List.range E)))
    (Or.inr ⟨by norm_num, fun r _ => rfl, by
      show E * (1 * 1 * 1 * P) ≤ 2147483647
      rw [hone]; omega⟩)
  obtain ⟨file, hfile, hrun⟩ := hrun ws.reverse ws.reverse_perm
  obtain ⟨procs, hprocs, hl, hrun⟩ := hrun 4 2 1 (by norm_num) (by norm_num) (by norm_num) (by omega) hE1 (by norm_num) (by norm_num)
  have ho : 1 < procs.length := by rw [hl]; norm_num
  refine ⟨E, P, data, h, ws, file, procs, hws, hfile, hprocs, ho, ?_⟩
  intro asked
  have := hrun 1 ho asked (fun _ => 0) 1 (by simp [smallInput]) 0 (by simp) 0 (by simp [smallStar]) pairFirst
    (by
      refine ⟨small_near _ _ 1 ?_, small_near _ _ 0 ?_, small_near _ _ 0 ?_⟩ <;>
        simp [sumOfPoints, gridCoordinates, first_zero, second_one, smallInput] <;> norm_num)
    ⟨matVec smallInput.b fun i => ((pairSecond i : ℕ) : ℝ) / smallInput.nq i, 1, fun _ _ => 1, fun _ _ => 1, fun _ => 0⟩ rfl rfl 0 0 (by simp)
    (0 : Fin 1)
  refine this.trans ?_
  have hinv : (Matrix.of fun _ _ : Fin 1 => (1 : ℂ))⁻¹ = 1 := by
    have : (Matrix.of fun _ _ : Fin 1 => (1 : ℂ)) = 1 := by
      ext i j
      obtain rfl : i = j := Subsingleton.elim _ _
      rw [Matrix.one_apply_eq]
      rfl
    rw [this, inv_one]
  have hm : (Matrix.of fun _ _ : Fin smallInput.numModes => (1 : ℂ))⁻¹ = 1 := hinv
  simp [smallStar, hm]
  simp [smallInput, stateOf, pairFirst, pairSecond, complexOf, asked, Complex.normSq]
  norm_num

/-- A case that meets the hypotheses with the second format: the same chain, one process that writes. -/
example : ∃ mems events, Replicated (tensorMemory chainElPh) 2 1 1 mems ∧ Interleaving mems 2 1 1 events ∧ events.length = 4 := by
  refine ⟨fun _ => (2, elementsOf (tensorMemory chainElPh) 1 (List.range 2)),
    [.openFile 0, .write 0 0 [tensorMemory chainElPh 0 0], .write 0 1 [tensorMemory chainElPh 1 0], .close 0], fun _ _ => rfl, ⟨?_, ?_⟩, rfl⟩
  · intro e he
    simp only [List.mem_cons, List.not_mem_nil, or_false] at he
    rcases he with rfl | rfl | rfl | rfl <;> simp [V2Event.rank]
  · intro r hr
    obtain rfl : r = 0 := by omega
    rfl

/-- A case of the violation that matters: two processes have zero in place of the coupling of the second lattice vector, one. -/
example : chainElPh.coupling 1 0 0 0 0 = 1 ∧
    ∃ p, readCoupling2 (headerOf chainElPh 1 1) (fun irE => (List.range (1 * 1 * 1 * 1)).map (tensorMemory chainElPh irE)) 2 1 0 = .ok p ∧
      ∀ irE : Fin p.elVectors.length, 2 / 2 ≤ (irE : ℕ) → ∀ irP nu iw1 iw2, (deviceData 1 1 1 p).coupling irE irP nu iw1 iw2 = 0 :=
  ⟨by simp [chainElPh], C191_violated_second_format chainElPh (by norm_num) (by norm_num) (by norm_num) 1 1 (by norm_num) 2 0 (by norm_num) (by norm_num)⟩

/-- A case that meets the hypotheses of the violation: two lattice vectors and three processes. -/
example : readCoupling (headerOf chainElPh 1 1) [2, 1] 3 1 0 = .ub :=
  C191_violated_processes chainElPh (by norm_num) (by norm_num) (by norm_num) 1 1 (by norm_num) _ 3 0 (by norm_num) (by norm_num)
    (by norm_num)

end Verif.Props
