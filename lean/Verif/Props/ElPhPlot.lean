import Verif.Proofs.ElPhPlot
import Verif.Props.Crystal

/-!
C170: the file of squared electron-phonon couplings.
-/
namespace Verif.Props
open Verif.Model Verif.Spec

variable {α P : Type}

/-- The wavevectors of the pairs: electrons at the points and the fixed phonon, the fixed electron and phonons at the
points, or all electrons with all phonons. -/
theorem C170_pairs (inp : PlotInput P) (pts : List P) :
    (inp.style = "qFixed" → plotPairs inp pts = pts.map fun p => (p, inp.fixed)) ∧
    (inp.style = "kFixed" → plotPairs inp pts = pts.map fun p => (inp.fixed, p)) ∧
    (inp.style = "allToAll" → ∀ i j k q, pts[i]? = some k → pts[j]? = some q →
      (plotPairs inp pts)[i * pts.length + j]? = some (k, q)) := by
  refine ⟨fun h => ?_, fun h => ?_, fun h => ?_⟩
  · unfold plotPairs
    simp only [h, if_true]
    rw [List.map_eq_flatMap]
  · unfold plotPairs
    simp only [h, String.reduceEq, if_false, if_true]
    rw [List.map_eq_flatMap]
  · intro i j k q hi hj
    unfold plotPairs
    simp only [h, String.reduceEq, if_false]
    exact flatMap_pairs_getElem? pts pts Prod.mk i j k q hi hj

/-- Ranges of bands: what is accepted are existing bands; a range of existing bands whose last band is not the first of all
is used as given; by default all bands are used. -/
theorem C170_ranges_partial (n : Nat) (hn : 0 < n) :
    (∀ a b : Nat, a ≤ b → 0 < b → b < n → plotRange n ((a : Int), (b : Int)) = ((a : Int), (b : Int))) ∧ plotRange n (0, -1) = (0, (n : Int) - 1) ∧
    (∀ a b : Int, a < 0 → (plotRange n (a, b)).1 = 0) ∧ (∀ a b : Int, n ≤ b → (plotRange n (a, b)).2 = (n : Int) - 1) := by
  unfold plotRange plotLower plotUpper
  refine ⟨fun a b h1 h2 h3 => ?_, ?_, fun a b h => ?_, fun a b h => ?_⟩
  · simp only
    rw [if_neg (by omega), if_neg (by omega)]
  · simp
  · simp [h]
  · simp [h]

/-- The file with parallel HDF5: in whatever order the processes write, the dataset has for each pair, in the order of the
pairs, the squared coupling between the bands of the ranges of the electrons at `k` and `k + q` and the phonon at `q`.
Missing with respect to C170: shares larger than 10^9 bytes (`C170_violated_bunches`), more processes than pairs
(`C170_violated_idle`), HDF5 without MPI (`C170_violated_serial`), and more than 2^31 pairs or 2^32 elements. -/
theorem C170_file_partial [Add P] (g : P → P → P → Nat → Nat → Nat → α) (inp : PlotInput P) (nb nm size : Nat)
    (job : PlotJob P) (h : plotSetup inp nb nm = .ok job) (hl : job.pairs.length < 2147483648) (hs : 0 < size)
    (hsz : size ≤ job.pairs.length) (hel : job.pairs.length * job.bandProd < 4294967296)
    (hsm : ∀ r < size, ∀ w, divideWorkIter job.pairs.length r size = .ok w → w.length * job.bandProd * 8 ≤ 1000000000) :
    ∃ ws, plotParallel g nb nm job size = .ok (job.pairs.length * job.bandProd, ws) ∧
      ∀ ws', ws'.Perm ws → ∀ file0 : List α, file0.length = job.pairs.length * job.bandProd →
        ∃ file, applyWrites file0 ws' = .ok file ∧ file.length = file0.length ∧
          ∀ p k q, job.pairs[p]? = some (k, q) → ∀ b1 b2 b3 : Nat, job.r1.1 ≤ b1 → (b1 : Int) ≤ job.r1.2 →
            job.r2.1 ≤ b2 → (b2 : Int) ≤ job.r2.2 → job.r3.1 ≤ b3 → (b3 : Int) ≤ job.r3.2 →
            file[((p * (job.r1.2 - job.r1.1 + 1).toNat + (b1 - job.r1.1.toNat)) * (job.r2.2 - job.r2.1 + 1).toNat +
              (b2 - job.r2.1.toNat)) * (job.r3.2 - job.r3.1 + 1).toNat + (b3 - job.r3.1.toNat)]? =
              some (g k (k + q) q b1 b2 b3) := by
  obtain ⟨mesh, pts, _, _, _, _, _, _, i1, i2, i3, hb, hn⟩ := plotSetup_val h
  have hfit : job.pairs.length * size < 18446744073709551616 := by
    have : job.pairs.length * size ≤ 2147483648 * 2147483648 := Nat.mul_le_mul (by omega) (by omega)
    omega
  obtain ⟨d, hd⟩ : ∃ d, d ∈ job.pairs := List.exists_mem_of_length_pos (by omega)
  have hp0 : 0 < job.bandProd := by
    obtain ⟨_, b1, _⟩ := i1
    obtain ⟨_, b2, _⟩ := i2
    obtain ⟨_, b3, _⟩ := i3
    rw [hb]
    unfold widthOf
    exact Nat.mul_pos (by omega) (Nat.mul_pos (by omega) (by omega))
  obtain ⟨ws, e1, e2⟩ := plotParallel_val g nb nm job size i1 i2 i3 hb (hn hl) hl hs hsz d (fun x => plotElement
      (g (job.pairs.getD x d).1 ((job.pairs.getD x d).1 + (job.pairs.getD x d).2) (job.pairs.getD x d).2)
      job.r1 job.r2 job.r3) (by
    intro r hr i hi x hx
    have hw := hsm r hr _ (divideWorkIter_val hfit hr)
    rw [List.length_range'] at hw
    have hlt : i < bunchLen job.bandProd (1000000000 / 8) := by
      unfold bunchLen
      have : head job.pairs.length size (r + 1) - head job.pairs.length size r ≤ 1000000000 / 8 / job.bandProd := by
        rw [Nat.le_div_iff_mul_le hp0]
        omega
      omega
    rw [Nat.mod_eq_of_lt hlt] at hx
    subst hx
    rfl)
  rw [Nat.mod_eq_of_lt hel] at e1
  refine ⟨ws, e1, fun ws' hp file0 hf => ⟨_, e2 ws' hp file0 hf, by rw [elementsOf_length, List.length_range, hf], ?_⟩⟩
  intro p k q hpq b1 b2 b3 l1 u1 l2 u2 l3 u3
  have hpl : p < job.pairs.length := (List.getElem?_eq_some_iff.mp hpq).1
  obtain ⟨c1, _⟩ := i1
  obtain ⟨c2, _⟩ := i2
  obtain ⟨c3, _⟩ := i3
  have x1 : b1 - job.r1.1.toNat < widthOf job.r1 := by unfold widthOf; omega
  have x2 : b2 - job.r2.1.toNat < widthOf job.r2 := by unfold widthOf; omega
  have x3 : b3 - job.r3.1.toNat < widthOf job.r3 := by unfold widthOf; omega
  have x23 : (b2 - job.r2.1.toNat) * widthOf job.r3 + (b3 - job.r3.1.toNat) < widthOf job.r2 * widthOf job.r3 := by
    have : (b2 - job.r2.1.toNat + 1) * widthOf job.r3 ≤ widthOf job.r2 * widthOf job.r3 := Nat.mul_le_mul_right _ (by omega)
    rw [Nat.add_mul] at this
    omega
  have x123 : (b1 - job.r1.1.toNat) * (widthOf job.r2 * widthOf job.r3) + ((b2 - job.r2.1.toNat) * widthOf job.r3 +
      (b3 - job.r3.1.toNat)) < job.bandProd := by
    have : (b1 - job.r1.1.toNat + 1) * (widthOf job.r2 * widthOf job.r3) ≤ widthOf job.r1 * (widthOf job.r2 * widthOf job.r3) :=
      Nat.mul_le_mul_right _ (by omega)
    rw [Nat.add_mul] at this
    omega
  have hix : ((p * (job.r1.2 - job.r1.1 + 1).toNat + (b1 - job.r1.1.toNat)) * (job.r2.2 - job.r2.1 + 1).toNat +
      (b2 - job.r2.1.toNat)) * (job.r3.2 - job.r3.1 + 1).toNat + (b3 - job.r3.1.toNat) =
      p * job.bandProd + ((b1 - job.r1.1.toNat) * (widthOf job.r2 * widthOf job.r3) +
        ((b2 - job.r2.1.toNat) * widthOf job.r3 + (b3 - job.r3.1.toNat))) := by
    rw [hb]
    unfold widthOf
    ring
  rw [hix, elementsOf_getElem? _ _ _ p _ hpl x123]
  congr 1
  have hg : job.pairs.getD p d = (k, q) := by rw [List.getD_eq_getElem?_getD, hpq]; rfl
  rw [hg]
  have w3 : 0 < widthOf job.r3 := by omega
  have w23 : 0 < widthOf job.r2 * widthOf job.r3 := by omega
  unfold plotElement
  have y : ∀ a m b : Nat, 0 < m → b < m → (a * m + b) / m = a ∧ (a * m + b) % m = b := by
    intro a m b hm hb
    rw [Nat.add_comm, Nat.add_mul_div_right _ _ hm, Nat.div_eq_of_lt hb, Nat.add_mul_mod_self_right, Nat.mod_eq_of_lt hb]
    omega
  rw [(y _ _ _ w23 x23).1, (y _ _ _ w23 x23).2, (y _ _ _ w3 x3).1, (y _ _ _ w3 x3).2]
  congr 1 <;> omega

/-- All processes take part in the same number of collective evaluations. -/
theorem C170_collective (numPairs size : Nat) (hs : 0 < size) (hfit : numPairs * size < 18446744073709551616) :
    ∃ c, ∀ rank < size, plotCacheCalls numPairs size rank = .ok c := by
  set L := fun r => head numPairs size (r + 1) - head numPairs size r with hL
  have hsh : mapOutcome (fun r => divideWorkIter numPairs r size) (List.range size) =
      .ok ((List.range size).map fun r => List.range' (head numPairs size r) (L r)) :=
    mapOutcome_eq_map _ _ _ fun r hr => divideWorkIter_val hfit (List.mem_range.mp hr)
  have hlens : ((List.range size).map fun r => List.range' (head numPairs size r) (L r)).map List.length =
      (List.range size).map L := by
    rw [List.map_map]
    apply List.map_congr_left
    intro r _
    simp
  obtain ⟨h1, h2, h3⟩ := foldl_max_spec ((List.range size).map L) 0
  refine ⟨((List.range size).map L).foldl Nat.max 0, fun rank hr => ?_⟩
  unfold plotCacheCalls
  rw [hsh]
  simp only [Outcome.bind_eq, Outcome.bind_ok]
  have hrd : readAt ((List.range size).map fun r => List.range' (head numPairs size r) (L r)) rank =
      .ok (List.range' (head numPairs size rank) (L rank)) := by
    unfold readAt
    rw [List.getElem?_map, List.getElem?_range hr]
    rfl
  rw [hrd]
  simp only [Outcome.bind_ok, hlens, List.length_range']
  congr 1
  have hle := h2 (L rank) (List.mem_map.mpr ⟨rank, List.mem_range.mpr hr, rfl⟩)
  have hb := len_bounds numPairs size rank hs
  have hmax : ((List.range size).map L).foldl Nat.max 0 ≤ numPairs / size + 1 := by
    rcases h3 with h3 | h3
    · omega
    · obtain ⟨r', _, hr'⟩ := List.mem_map.mp h3
      rw [← hr']
      exact (len_bounds numPairs size r' hs).2
  have hbr : numPairs / size ≤ L rank := hb.1
  split <;> omega

/-- C170 is violated for the first band alone: all bands are used. -/
theorem C170_violated_first (n : Nat) : plotRange n (0, 0) = (0, (n : Int) - 1) := by
  simp [plotRange, plotLower, plotUpper]

/-- C170 is violated when HDF5 has no MPI: on one process the file has only zeros, whatever the coupling. -/
theorem C170_violated_serial [Zero α] [Add P] (g : P → P → P → Nat → Nat → Nat → α) (inp : PlotInput P) (nb nm : Nat)
    (job : PlotJob P) (h : plotSetup inp nb nm = .ok job) (hl : job.pairs.length < 2147483648)
    (hel : job.pairs.length * job.bandProd ≤ 125000000) :
    plotSerial g nb nm job 1 = .ok (List.replicate (job.pairs.length * job.bandProd) 0) := by
  obtain ⟨mesh, pts, _, _, _, _, _, _, i1, i2, i3, hb, hn⟩ := plotSetup_val h
  have hn := hn hl
  have hshare : ∃ v, plotShare g nb nm job.r1 job.r2 job.r3 job.pairs (List.range' 0 job.pairs.length) = .ok v ∧
      v.length = job.pairs.length * job.bandProd := by
    rcases Nat.eq_zero_or_pos job.pairs.length with h0 | h0
    · rw [h0]
      exact ⟨[], rfl, by simp⟩
    · obtain ⟨d, hd⟩ : ∃ d, d ∈ job.pairs := List.exists_mem_of_length_pos h0
      exact ⟨_, plotShare_val g nb nm _ _ _ i1 i2 i3 job.pairs d 0 job.pairs.length (by omega), by
        rw [elementsOf_length, List.length_range', hb]⟩
  obtain ⟨v, hv, hvl⟩ := hshare
  unfold plotSerial
  rw [hn]
  have hd : divideWorkIter job.pairs.length 0 1 = .ok (List.range' 0 job.pairs.length) := by
    rw [divideWorkIter_val (by omega) (by omega)]
    simp [head]
  simp only [List.range_one, mapOutcome, Outcome.bind_eq, hd, Outcome.bind_ok, hv]
  rw [Nat.mod_eq_of_lt (by omega), if_neg (by omega)]
  have hg : allGatherv (List.replicate (job.pairs.length * job.bandProd) (0 : α) :: List.replicate (1 - 1) []) v =
      .ok (List.replicate (job.pairs.length * job.bandProd) 0) := by
    unfold allGatherv workDivHelper
    have ht : toInt32 (job.pairs.length * job.bandProd) = ((job.pairs.length * job.bandProd : Nat) : Int) := by
      unfold toInt32
      simp only
      rw [Nat.mod_eq_of_lt (by omega), if_pos (by omega)]
    have ht0 : toInt32 0 = 0 := rfl
    have hu : u64 (job.pairs.length * job.bandProd) = job.pairs.length * job.bandProd := Nat.mod_eq_of_lt (by omega)
    have hu0 : u64 0 = 0 := rfl
    simp only [Nat.sub_self, List.replicate_zero, List.length_singleton, List.range_one, List.map_cons, List.map_nil, hvl,
      Nat.mul_zero, Nat.zero_add, Nat.mul_one, Nat.div_one, hu, hu0, ht, ht0, List.zipWith_cons_cons, List.zipWith_nil_left,
      sub_zero]
    simp [mpiGatherv, blit, hvl]
  rw [hg]
  rfl

/-- ... and on several processes the call is erroneous. -/
theorem C170_violated_serial_many [Zero α] [Add P] (g : P → P → P → Nat → Nat → Nat → α) (inp : PlotInput P)
    (nb nm size : Nat) (job : PlotJob P) (h : plotSetup inp nb nm = .ok job) (hl : job.pairs.length < 2147483648)
    (hs : 1 < size) (hsz : size < 2147483648) (h0 : 0 < job.pairs.length)
    (hel : job.pairs.length * job.bandProd ≤ 125000000) :
    plotSerial g nb nm job size = .ub := by
  obtain ⟨mesh, pts, _, _, _, _, _, _, i1, i2, i3, hb, hn⟩ := plotSetup_val h
  have hn := hn hl
  have hfit : job.pairs.length * size < 18446744073709551616 := by
    have : job.pairs.length * size ≤ 2147483648 * 2147483648 := Nat.mul_le_mul (by omega) (by omega)
    omega
  have hp0 : 0 < job.bandProd := by
    obtain ⟨_, b1, _⟩ := i1
    obtain ⟨_, b2, _⟩ := i2
    obtain ⟨_, b3, _⟩ := i3
    rw [hb]
    unfold widthOf
    exact Nat.mul_pos (by omega) (Nat.mul_pos (by omega) (by omega))
  obtain ⟨d, hd⟩ : ∃ d, d ∈ job.pairs := List.exists_mem_of_length_pos h0
  unfold plotSerial
  rw [hn, mapOutcome_eq_map _ _ _ fun r hr => by
    have hr := List.mem_range.mp hr
    have hle := head_le_total job.pairs.length size (r + 1) (by omega) hr
    have hm : head job.pairs.length size r ≤ head job.pairs.length size (r + 1) := head_mono _ size (Nat.le_succ r)
    rw [divideWorkIter_val hfit hr]
    exact plotShare_val g nb nm _ _ _ i1 i2 i3 job.pairs d _ _ (by omega)]
  simp only [Outcome.bind_eq, Outcome.bind_ok]
  rw [Nat.mod_eq_of_lt (by omega), if_neg (by omega)]
  obtain ⟨l, hlr⟩ := range_pos_cons (size := size) (by omega)
  rw [hlr, List.map_cons, mapOutcome_cons_ub]
  · rfl
  · set v := elementsOf (fun x => plotElement (g (job.pairs.getD x d).1 ((job.pairs.getD x d).1 + (job.pairs.getD x d).2)
      (job.pairs.getD x d).2) job.r1 job.r2 job.r3) (widthOf job.r1 * (widthOf job.r2 * widthOf job.r3))
      (List.range' (head job.pairs.length size 0) (head job.pairs.length size (0 + 1) - head job.pairs.length size 0)) with hv
    have hvl : v.length ≤ job.pairs.length * job.bandProd := by
      rw [hv, elementsOf_length, List.length_range', hb]
      have := head_le_total job.pairs.length size (0 + 1) (by omega) (by omega)
      exact Nat.mul_le_mul_right _ (by omega)
    have hpos : 0 < job.pairs.length * job.bandProd := Nat.mul_pos h0 hp0
    have hq : v.length / size < job.pairs.length * job.bandProd := by
      rcases Nat.eq_zero_or_pos v.length with hz | hz
      · rw [hz, Nat.zero_div]; exact hpos
      · exact lt_of_lt_of_le (Nat.div_lt_self hz hs) hvl
    have hsz1 : size - 1 + 1 = size := by omega
    unfold allGatherv workDivHelper
    simp only [List.length_cons, List.length_replicate, hsz1, hlr, List.map_cons, List.zipWith_cons_cons]
    unfold mpiGatherv
    rw [if_neg]
    rintro ⟨hc, _⟩
    have t1 : u64 (v.length * (0 + 1)) / size = v.length / size := by
      rw [Nat.zero_add, Nat.mul_one]
      unfold u64
      rw [Nat.mod_eq_of_lt (by omega)]
    have t0 : u64 (v.length * 0) / size = 0 := by
      rw [Nat.mul_zero]
      unfold u64
      rw [Nat.zero_mod, Nat.zero_div]
    have ht : toInt32 (v.length / size) = ((v.length / size : Nat) : Int) := by
      unfold toInt32
      simp only
      rw [Nat.mod_eq_of_lt (by omega), if_pos (by omega)]
    rw [t1, t0, ht, show toInt32 0 = 0 from rfl, sub_zero, List.length_replicate] at hc
    omega

/-- C170 is violated when a process has more than 10^9 bytes: beyond the first bunch of `m` pairs of the process, the values
of the first bunch are repeated. -/
theorem C170_violated_bunches [Add P] (g : P → P → P → Nat → Nat → Nat → α) (inp : PlotInput P) (nb nm size : Nat)
    (job : PlotJob P) (h : plotSetup inp nb nm = .ok job) (hl : job.pairs.length < 2147483648) (hs : 0 < size)
    (hsz : size ≤ job.pairs.length) (m : Nat) (hm : m = 125000000 / job.bandProd) (hm0 : 0 < m) :
    ∃ n ws, plotParallel g nb nm job size = .ok (n, ws) ∧
      ∀ ws', ws'.Perm ws → ∀ file0 : List α, file0.length = job.pairs.length * job.bandProd →
        ∃ file, applyWrites file0 ws' = .ok file ∧
          ∀ r < size, ∀ i, head job.pairs.length size r + i < head job.pairs.length size (r + 1) →
            ∀ k q, job.pairs[head job.pairs.length size r + i % m]? = some (k, q) → ∀ x < job.bandProd,
              file[(head job.pairs.length size r + i) * job.bandProd + x]? =
                some (plotElement (g k (k + q) q) job.r1 job.r2 job.r3 x) := by
  classical
  obtain ⟨mesh, pts, _, _, _, _, _, _, i1, i2, i3, hb, hn⟩ := plotSetup_val h
  obtain ⟨d, hd⟩ : ∃ d, d ∈ job.pairs := List.exists_mem_of_length_pos (by omega)
  have hbl : bunchLen job.bandProd (1000000000 / 8) = m := by
    unfold bunchLen
    rw [hm] at hm0 ⊢
    exact Nat.max_eq_right hm0
  let N := job.pairs.length
  let G : Nat → Nat → α := fun x => plotElement
      (g (job.pairs.getD x d).1 ((job.pairs.getD x d).1 + (job.pairs.getD x d).2) (job.pairs.getD x d).2)
      job.r1 job.r2 job.r3
  let g' : Nat → Nat → α := fun x =>
    if h : ∃ r, head N size r ≤ x ∧ x < head N size (r + 1) then G (head N size h.choose + (x - head N size h.choose) % m)
    else G x
  have hg' : ∀ r i, head N size r + i < head N size (r + 1) → g' (head N size r + i) = G (head N size r + i % m) := by
    intro r i h2
    have h : ∃ r', head N size r' ≤ head N size r + i ∧ head N size r + i < head N size (r' + 1) := ⟨r, by omega, h2⟩
    simp only [g', dif_pos h]
    rw [owner_unique N size (head N size r + i) _ r h.choose_spec.1 h.choose_spec.2 (by omega) h2, Nat.add_sub_cancel_left]
  obtain ⟨ws, e1, e2⟩ := plotParallel_val g nb nm job size i1 i2 i3 hb (hn hl) hl hs hsz d g' (by
    intro r hr i hi x hx
    rw [hbl] at hx
    subst hx
    refine hg' r i ?_
    show head job.pairs.length size r + i < head job.pairs.length size (r + 1)
    omega)
  refine ⟨_, ws, e1, fun ws' hp file0 hf => ⟨_, e2 ws' hp file0 hf, ?_⟩⟩
  intro r hr i hi k q hkq x hx
  have hle := head_le_total job.pairs.length size (r + 1) hs hr
  rw [elementsOf_getElem? _ _ _ _ _ (by omega) hx, hg' r i hi]
  have hgd : job.pairs.getD (head N size r + i % m) d = (k, q) := by
    rw [List.getD_eq_getElem?_getD, hkq]; rfl
  simp only [G]
  rw [hgd]

/-- C170 is violated with more processes than pairs: the first pair of an empty share is read. -/
theorem C170_violated_idle [Add P] (g : P → P → P → Nat → Nat → Nat → α) (inp : PlotInput P) (nb nm size : Nat)
    (job : PlotJob P) (h : plotSetup inp nb nm = .ok job) (hs : size < 2147483648) (hsz : job.pairs.length < size) :
    plotParallel g nb nm job size = .ub := by
  obtain ⟨mesh, pts, _, _, _, _, _, _, i1, i2, i3, hb, hn⟩ := plotSetup_val h
  have hfit : job.pairs.length * size < 18446744073709551616 := by
    have : job.pairs.length * size ≤ 2147483648 * 2147483648 := Nat.mul_le_mul (by omega) (by omega)
    omega
  obtain ⟨l, hlr⟩ := range_pos_cons (size := size) (by omega)
  unfold plotParallel
  rw [hlr, mapOutcome_cons_ub]
  · rfl
  · unfold plotWriteProcess
    rw [hn (by omega), divideWorkIter_val hfit (by omega)]
    have : head job.pairs.length size (0 + 1) - head job.pairs.length size 0 = 0 := by
      unfold head
      rw [Nat.zero_add, Nat.mul_one, Nat.div_eq_of_lt hsz, Nat.zero_sub]
    rw [this]
    rfl

/-- C170 is violated by the test of the input: the coupling along a path is refused if there is no mesh of electrons, which is
not used. -/
theorem C170_violated_mesh (inp : PlotInput P) (s : PlotSet) (h1 : inp.meshStyle = "pointsPath")
    (h2 : inp.style = "qFixed") (h3 : s.kMesh = false) :
    plotCheck inp s = .error ∧ ∀ nb nm mesh', plotSetup { inp with kMesh := mesh' } nb nm = plotSetup inp nb nm := by
  constructor
  · unfold plotCheck
    simp only [h2, String.reduceEq, if_false, h3, if_true]
    split <;> rfl
  · intro nb nm mesh'
    unfold plotSetup plotMesh plotPoints plotRanges plotPairs
    simp only [h1, h2, if_true]
    rfl

/-- All points with all points is refused when the two meshes differ, and so is any style other than the three. -/
theorem C170_refused {P : Type} (inp : PlotInput P) (nb nm : Nat)
    (h : (inp.style = "allToAll" ∧ inp.kMesh ≠ inp.qMesh) ∨
      (inp.style ≠ "qFixed" ∧ inp.style ≠ "kFixed" ∧ inp.style ≠ "allToAll")) : plotSetup inp nb nm = .error := by
  have key : plotMesh inp = .error := by
    unfold plotMesh
    rcases h with ⟨h1, h2⟩ | ⟨h1, h2, h3⟩
    · simp only [h1, String.reduceEq, if_false, if_true]
      rw [if_pos h2]
    · rw [if_neg h1, if_neg h2, if_neg h3]
  unfold plotSetup
  rw [key]
  rfl

/-- Points 10, 20 with the phonon 1: bands 1 to 2 of three, band 1 of three, modes 0 and 1 of two. -/
def plotExample : PlotInput Int :=
  ⟨"qFixed", "pointsMesh", (2, 1, 1), (0, 0, 0), fun _ => .ok [10, 20], .error, 1, (1, 2), (1, 1), (-3, 5)⟩

def plotExampleG (k k' q : Int) (b b' m : Nat) : Int := 1000000 * k + 10000 * k' + 1000 * q + 100 * b + 10 * b' + m

example : (do
    let job ← plotSetup plotExample 3 2
    let f ← plotParallel plotExampleG 3 2 job 2
    applyWrites (List.replicate f.1 0) f.2.reverse) =
    .ok [10111110, 10111111, 10111210, 10111211, 20211110, 20211111, 20211210, 20211211] := by
  decide +kernel

example : (do
    let job ← plotSetup plotExample 3 2
    plotSerial plotExampleG 3 2 job 1) = .ok [0, 0, 0, 0, 0, 0, 0, 0] := by
  decide +kernel

example : plotCacheCalls 5 3 0 = .ok 2 ∧ plotCacheCalls 5 3 1 = .ok 2 ∧ plotCacheCalls 5 3 2 = .ok 2 := by
  decide +kernel

example : plotPairs { plotExample with style := "allToAll" } [1, 2] = [(1, 1), (1, 2), (2, 1), (2, 2)] := by
  decide +kernel

/-- **C170, the file says what it contains**: with the points (of a mesh or a path) and the fixed point given in crystal coordinates, there is one row
for each pair, in the order of the pairs, with the crystal coordinates of the electron and of the phonon; the ranges are those of the bands in the
file, existing bands and not empty. -/
theorem C170_labels (d : Mat3) (cell : Cell) (hcell : makeCell d = .ok cell) (inp : PlotInput Vec3) (nb nm : Nat) (job : PlotJob Vec3)
    (h : plotSetup inp nb nm = .ok job) (xs : List Vec3) (x0 : Vec3)
    (hpts : ∀ mesh, plotMesh inp = .ok mesh → plotPoints inp mesh = .ok (xs.map cell.crystalToCartesian)) (hfix : inp.fixed = cell.crystalToCartesian x0) :
    (plotLabels cell job).pointsPairs.length = job.pairs.length ∧
    (∀ (p : Nat) (k q : Vec3), job.pairs[p]? = some (k, q) → ∃ row : Fin 6 → ℝ, (plotLabels cell job).pointsPairs[p]? = some row ∧
      k = cell.crystalToCartesian ![row 0, row 1, row 2] ∧ q = cell.crystalToCartesian ![row 3, row 4, row 5]) ∧
    (inp.style = "qFixed" → (plotLabels cell job).pointsPairs = xs.map fun x => ![x 0, x 1, x 2, x0 0, x0 1, x0 2]) ∧
    (inp.style = "kFixed" → (plotLabels cell job).pointsPairs = xs.map fun x => ![x0 0, x0 1, x0 2, x 0, x 1, x 2]) ∧
    (inp.style = "allToAll" → (plotLabels cell job).pointsPairs = xs.flatMap fun x => xs.map fun y => ![x 0, x 1, x 2, y 0, y 1, y 2]) ∧
    ∃ a1 b1 a2 b2 a3 b3 : Nat, a1 ≤ b1 ∧ b1 < nb ∧ a2 ≤ b2 ∧ b2 < nb ∧ a3 ≤ b3 ∧ b3 < nm ∧
      (plotLabels cell job).elBandRange1 = [(a1 : Int), (b1 : Int)] ∧ job.r1 = ((a1 : Int), (b1 : Int)) ∧
      (plotLabels cell job).elBandRange2 = [(a2 : Int), (b2 : Int)] ∧ job.r2 = ((a2 : Int), (b2 : Int)) ∧
      (plotLabels cell job).phModeRange = [(a3 : Int), (b3 : Int)] ∧ job.r3 = ((a3 : Int), (b3 : Int)) := by
  obtain ⟨mesh, pts, hm, hp, hpairs, _, _, _, i1, i2, i3, _, _⟩ := plotSetup_val h
  obtain rfl : pts = xs.map cell.crystalToCartesian := by
    rw [hpts mesh hm] at hp
    exact (Outcome.ok.inj hp).symm
  have six (f : Fin 6 → ℝ) : f = ![f 0, f 1, f 2, f 3, f 4, f 5] := by
    funext i
    fin_cases i <;> rfl
  have row (x y : Vec3) : (fun (i : Fin 6) => if h : i.val < 3 then cell.cartesianToCrystal (cell.crystalToCartesian x) ⟨i.val, h⟩ else
      cell.cartesianToCrystal (cell.crystalToCartesian y) ⟨i.val - 3, by omega⟩) = ![x 0, x 1, x 2, y 0, y 1, y 2] := by
    rw [(C69_conversions d cell hcell x).1, (C69_conversions d cell hcell y).1]
    exact six _
  have ends {n : Nat} {r : Int × Int} (hr : InBands n r) : ∃ a b : Nat, a ≤ b ∧ b < n ∧ r = ((a : Int), (b : Int)) := by
    obtain ⟨h1, h2, h3⟩ := hr
    refine ⟨r.1.toNat, r.2.toNat, by omega, by omega, ?_⟩
    ext <;> simp only [Int.ofNat_toNat] <;> omega
  obtain ⟨a1, b1, l1, m1, e1⟩ := ends i1
  obtain ⟨a2, b2, l2, m2, e2⟩ := ends i2
  obtain ⟨a3, b3, l3, m3, e3⟩ := ends i3
  refine ⟨by simp [plotLabels], ?_, ?_, ?_, ?_, a1, b1, a2, b2, a3, b3, l1, m1, l2, m2, l3, m3, by simp [plotLabels, e1], e1, by simp [plotLabels, e2], e2,
    by simp [plotLabels, e3], e3⟩
  · intro p k q hpk
    refine ⟨_, by simp only [plotLabels, List.getElem?_map, hpk, Option.map_some]; rfl, ?_, ?_⟩
    · conv_lhs => rw [← (C69_conversions d cell hcell k).2.1]
      congr 1
      funext i
      fin_cases i <;> rfl
    · conv_lhs => rw [← (C69_conversions d cell hcell q).2.1]
      congr 1
      funext i
      fin_cases i <;> rfl
  · intro hs
    have := (C170_pairs inp (xs.map cell.crystalToCartesian)).1 hs
    simp only [plotLabels]
    rw [hpairs, this, hfix, List.map_map, List.map_map]
    exact List.map_congr_left fun x _ => row x x0
  · intro hs
    have := (C170_pairs inp (xs.map cell.crystalToCartesian)).2.1 hs
    simp only [plotLabels]
    rw [hpairs, this, hfix, List.map_map, List.map_map]
    exact List.map_congr_left fun x _ => row x0 x
  · intro hs
    simp only [plotLabels]
    rw [hpairs]
    unfold plotPairs
    simp only [hs, String.reduceEq, if_false]
    rw [List.flatMap_map, List.map_flatMap]
    refine List.flatMap_congr fun x _ => ?_
    rw [List.map_map, List.map_map]
    exact List.map_congr_left fun y _ => row x y

/-- Two electrons and a fixed phonon in a cubic crystal. -/
example : ∃ (cell : Cell) (inp : PlotInput Vec3) (job : PlotJob Vec3), makeCell 1 = .ok cell ∧ plotSetup inp 3 2 = .ok job ∧
    inp.style = "qFixed" ∧ inp.fixed = cell.crystalToCartesian ![0, 0, 1 / 2] ∧
    (∀ mesh, plotMesh inp = .ok mesh → plotPoints inp mesh = .ok ([![0, 0, 0], ![1 / 2, 0, 0]].map cell.crystalToCartesian)) ∧
    (plotLabels cell job).elBandRange1 = [1, 2] := by
  obtain ⟨cell, hc, _⟩ := (C69_volume 1).1 (by rw [Matrix.det_one]; exact one_ne_zero)
  exact ⟨cell, ⟨"qFixed", "", (1, 1, 1), (1, 1, 1), fun _ => .ok ([![0, 0, 0], ![1 / 2, 0, 0]].map cell.crystalToCartesian), .error,
    cell.crystalToCartesian ![0, 0, 1 / 2], (1, 2), (0, 1), (0, 1)⟩, _, hc, rfl, rfl, rfl, fun _ _ => rfl, rfl⟩

end Verif.Props
