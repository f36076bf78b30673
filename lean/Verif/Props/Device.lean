import Verif.Proofs.Device
import Verif.Props.ThirdState
import Mathlib.Tactic.NormNum

/-!
# C61, C75, C82, C83: device memory

Specification.  C61: the batches of `Interaction3Ph` use at most the available memory.  C75: the registered memory is
the total of the live allocations (`DevState.liveBytes`, Verif/Spec/Device.lean).  C82: `splitToBatches` cuts a list
into consecutive pieces.  C83: the batch size of the Hamiltonians.
-/
namespace Verif.Props
open Verif.Model

/-! ## C61 -/

/-- **C61** (batches, partial): the number of batches is between one and the number of wavevectors, no batch is empty,
and the estimated memory of a batch exceeds the available memory by less than the memory of one wavevector; it does not
exceed it at all when the available memory is a whole number of times the memory of one wavevector.  Missing: that it
never exceeds it, `C61_violated`. -/
theorem C61_batches_partial (n nr3 nb2 : Int) (l : List Nat) (avail : Rat) (N : Int)
    (hn : 0 < n) (hr : 0 ≤ nr3) (hl : l ≠ [])
    (h : estimateNumBatches n nr3 l.length nb2 avail = .ok N) (hfit : (l.length : Int) * N ≤ intMax) :
    1 ≤ N ∧ N ≤ l.length ∧ ∃ per bs, memoryPerWavevector n nr3 nb2 = .ok per ∧ (per : Rat) ≤ avail ∧
      batches l N.toNat = .ok bs ∧ bs.flatten = l ∧
      ∀ b ∈ bs, b ≠ [] ∧ (b.length * per : Rat) < avail + per ∧
        ((∃ k : Int, avail = k * per) → (b.length * per : Rat) ≤ avail) := by
  unfold estimateNumBatches at h
  obtain ⟨per, hper, h⟩ := (Outcome.bind_eq_ok_iff _ _ _).mp h
  have hval := memoryPerWavevector_val _ _ _ _ hper
  have hpos : 0 < per := by rw [hval]; exact perWavevector_pos n nr3 nb2 hn hr
  have hposQ : (0 : Rat) < per := by exact_mod_cast hpos
  have hlen : 0 < l.length := List.length_pos_of_ne_nil hl
  have hlenQ : (0 : Rat) < (l.length : Int) := by exact_mod_cast hlen
  simp only at h
  split at h
  · cases h
  next h0 =>
  obtain ⟨N', hN', h⟩ := (Outcome.bind_eq_ok_iff _ _ _).mp h
  split at h
  · cases h
  next h1 =>
  cases h
  obtain ⟨hNv, _, _⟩ := i32_eq_ok hN'
  have hle : (per : Rat) ≤ avail := by
    by_contra hlt
    apply h1
    refine ⟨by exact_mod_cast hlen.ne', ?_⟩
    rw [mul_comm, mul_div_assoc, div_self hlenQ.ne', mul_one]
    exact not_le.mp hlt
  have hav : 0 < avail := lt_of_lt_of_le hposQ hle
  have hq : (0 : Rat) < ((l.length : Int) : Rat) * per / avail := by positivity
  have hq1 : ((l.length : Int) : Rat) * per / avail ≤ N := by rw [hNv]; exact Int.le_ceil _
  have hq2 : ((l.length : Int) : Rat) * per / avail ≤ ((l.length : Int) : Rat) := by
    rw [div_le_iff₀ hav]
    exact mul_le_mul_of_nonneg_left hle hlenQ.le
  have hN1 : 1 ≤ N := by
    rw [hNv]; exact Int.one_le_ceil_iff.mpr hq
  have hN2 : N ≤ l.length := by
    rw [hNv]; exact Int.ceil_le.mpr hq2
  refine ⟨hN1, hN2, ?_⟩
  have hNn : ((N.toNat : Nat) : Int) = N := Int.toNat_of_nonneg (by omega)
  obtain ⟨bs, hbs, hblen, hflat, hsz⟩ := C60_cover_partial l N.toNat (by omega) (by rw [hNn]; exact hfit)
  refine ⟨per, bs, hper, hle, hbs, hflat, ?_⟩
  intro b hb
  obtain ⟨hb1, _, hb3⟩ := hsz b hb
  have hb3' : (b.length : Rat) * N < l.length + N := by
    have : (b.length : Int) * N < l.length + N := by
      rw [← hNn]; exact_mod_cast hb3
    exact_mod_cast this
  have hNQ : (0 : Rat) < N := by exact_mod_cast hN1
  have hkey : (b.length * per : Rat) < avail + per := by
    have e1 : ((l.length : Int) : Rat) * per ≤ N * avail := by
      rwa [div_le_iff₀ hav] at hq1
    have e2 : (b.length : Rat) * N * per < ((l.length : Rat) + N) * per := by
      exact mul_lt_mul_of_pos_right hb3' hposQ
    push_cast at e1
    have e3 : N * (b.length * per : Rat) < N * (avail + per) := by nlinarith
    exact lt_of_mul_lt_mul_left e3 hNQ.le
  refine ⟨?_, hkey, ?_⟩
  · intro he
    subst he
    have : 1 ≤ l.length / N.toNat := by
      rw [Nat.one_le_div_iff (by omega)]; omega
    simp at hb1; omega
  · rintro ⟨k, hk⟩
    rw [hk] at hkey ⊢
    have : (b.length : Rat) < k + 1 := by
      have : (b.length * per : Rat) < (k + 1) * per := by rw [add_mul, one_mul]; exact hkey
      exact lt_of_mul_lt_mul_right this hposQ.le
    have hi : (b.length : Int) < k + 1 := by exact_mod_cast this
    have hi2 : (b.length : Int) ≤ k := by omega
    exact mul_le_mul_of_nonneg_right (by exact_mod_cast hi2) hposQ.le

/-- **C61** (allocations, partial): the device arrays allocated at the same time for a batch are within the estimate,
apart from 36 bytes per wavevector and the eigenvectors of the second phonon. -/
theorem C61_peak_partial (n nr3 nq nb1 nb2 nb3p nb3m : Nat) (h1 : nb1 ≤ n) (h2 : nb3p ≤ n) (h3 : nb3m ≤ n) (per : Int)
    (h : memoryPerWavevector n nr3 nb2 = .ok per) :
    peakMemory (couplingMemory n nr3 nq nb1 nb2 nb3p nb3m) ≤ nq * per + 36 * nq + 16 * nb2 * n := by
  rw [memoryPerWavevector_val _ _ _ _ h]
  have hq : (0 : Int) ≤ nq := by positivity
  unfold perWavevector
  -- the five products of the estimate, as natural numbers
  have a1 : (nq : Int) * (16 * n * (3 * n)) = ((48 * (nq * n * n) : Nat) : Int) := by push_cast; ring
  have a2 : (nq : Int) * (16 * nr3 + 32 * n * n * n) = ((16 * nq * nr3 + 32 * (nq * n * n * n) : Nat) : Int) := by
    push_cast; ring
  have a3 : (nq : Int) * (64 * n * n * n) = ((64 * (nq * n * n * n) : Nat) : Int) := by push_cast; ring
  have a4 : (nq : Int) * (32 * n * n * n + 32 * n * nb2 * n) =
      ((32 * (nq * n * n * n) + 32 * (nq * n * nb2 * n) : Nat) : Int) := by push_cast; ring
  have a5 : (nq : Int) * (32 * n * nb2 * n + 32 * n * nb2 * n) = ((64 * (nq * n * nb2 * n) : Nat) : Int) := by
    push_cast; ring
  have a6 : (nq : Int) * (64 * n * nb2 * n) = ((64 * (nq * n * nb2 * n) : Nat) : Int) := by push_cast; ring
  rw [mul_add, mul_max_of_nonneg _ _ hq, mul_max_of_nonneg _ _ hq, mul_max_of_nonneg _ _ hq, mul_max_of_nonneg _ _ hq,
    a1, a2, a3, a4, a5, a6]
  -- bounds on the arrays
  have m1 : nq * nb1 * n ≤ nq * n * n := by gcongr
  have m2 : nq * nb3p * n ≤ nq * n * n := by gcongr
  have m3 : nq * nb3m * n ≤ nq * n * n := by gcongr
  have m4 : nq * nb1 * n * n ≤ nq * n * n * n := by gcongr
  have m5 : nq * nb1 * nb2 * n ≤ nq * n * nb2 * n := by gcongr
  have m6 : nq * nb1 * nb2 * nb3p ≤ nq * n * nb2 * n := by gcongr
  have m7 : nq * nb1 * nb2 * nb3m ≤ nq * n * nb2 * n := by gcongr
  unfold peakMemory couplingMemory
  simp only [List.foldl_cons, List.foldl_nil, memStep]
  have e1 : 8 * nq * 3 = 24 * nq := by ring
  have e2 : ∀ a b : Nat, 16 * nq * a * b = 16 * (nq * a * b) := by intros; ring
  have e3 : ∀ a b c : Nat, 16 * nq * a * b * c = 16 * (nq * a * b * c) := by intros; ring
  have e4 : ∀ a b c : Nat, 8 * nq * a * b * c = 8 * (nq * a * b * c) := by intros; ring
  have e5 : (16 : Int) * nb2 * n = ((16 * nb2 * n : Nat) : Int) := by push_cast; ring
  have e6 : (36 : Int) * nq = ((36 * nq : Nat) : Int) := by push_cast; ring
  simp only [e3, e4]
  simp only [e1, e2, e5, e6]
  generalize nq * nb1 * n * n = x4 at *
  generalize nq * nb1 * nb2 * n = x5 at *
  generalize nq * nb1 * nb2 * nb3p = x6 at *
  generalize nq * nb1 * nb2 * nb3m = x7 at *
  generalize nq * nb1 * n = x1 at *
  generalize nq * nb3p * n = x2 at *
  generalize nq * nb3m * n = x3 at *
  generalize nq * n * n * n = y1 at *
  generalize nq * n * nb2 * n = y2 at *
  generalize nq * n * n = y3 at *
  generalize 16 * nb2 * n = y4 at *
  generalize 16 * nq * nr3 = y5 at *
  push_cast
  omega

/-- Non-vacuity: seven wavevectors, room for two and a half at a time. -/
example : memoryPerWavevector 3 1 3 = .ok 2160 ∧ estimateNumBatches 3 1 7 3 5400 = .ok 3 := by
  constructor <;> decide +kernel

/-- **C61** violated: with room for two and a half wavevectors, five are divided into two batches, and the second
batch of three needs more than the available memory (by the estimate and by the arrays allocated). -/
theorem C61_violated : ∃ b ∈ ((batches [0, 1, 2, 3, 4] 2).toOption.getD []), ∃ per : Int,
    memoryPerWavevector 3 1 3 = .ok per ∧ estimateNumBatches 3 1 5 3 5400 = .ok 2 ∧
    (b.length * per : Rat) > 5400 ∧ (peakMemory (couplingMemory 3 1 b.length 3 3 3 3) : Rat) > 5400 := by
  refine ⟨[2, 3, 4], by decide +kernel, 2160, by decide +kernel, by decide +kernel, ?_, ?_⟩
  · norm_num
  · decide +kernel

/-- **C61** violated: for 136 atoms (408 bands) the estimate overflows `int`, whatever the available memory. -/
theorem C61_violated_overflow (nq1 nr3 : Int) (avail : Rat) (h : 0 ≤ nr3) (h2 : nr3 ≤ 100000000) :
    estimateNumBatches 408 nr3 nq1 408 avail = .ub := by
  unfold estimateNumBatches memoryPerWavevector
  have e0 : cadd 408 408 = .ok 816 := by decide
  have e1 : cadd 816 408 = .ok 1224 := by decide
  have e2 : cprod 16 [408, 1224] = .ok 7990272 := by decide +kernel
  have e3 : cprod 16 [nr3] = .ok (16 * nr3) := by
    unfold cprod
    simp only [Outcome.bind_eq]
    rw [cmul_ok (by unfold intMin; omega) (by unfold intMax; omega)]
    rfl
  have e4 : cprod 2 [16, 408, 408, 408] = .ub := by decide +kernel
  simp only [Outcome.bind_eq]
  rw [e0, Outcome.bind_ok, e1, Outcome.bind_ok, e2, Outcome.bind_ok, e3, Outcome.bind_ok, e4]
  rfl

/-! ## C75 -/

/-- **C75** (partial): after every history in which `PhononH0` and `ElectronH0Wannier` objects are not copied, only
`Interaction3Ph` objects are assigned, and interactions sharing their arrays with a copy are not updated, the registered
memory is the total of the live allocations, and is not negative.  Missing: the other histories, `C75_violated_copy`,
`C75_violated_assign`, `C75_violated_negative`. -/
theorem C75_tracked_partial (ops : List DevOp) (h : SafeFrom DevState.init ops) :
    (devRun ops).used = (devRun ops).liveBytes ∧ 0 ≤ (devRun ops).used := by
  have inv := devInv_run DevState.init devInv_init ops h
  refine ⟨inv.used, ?_⟩
  show 0 ≤ (devRun ops).used
  unfold devRun
  rw [inv.used]
  apply Finset.sum_nonneg
  intro i _
  split
  · positivity
  · exact le_rfl

/-- **C75** (release): when all objects of such a history are destroyed nothing is registered any more. -/
theorem C75_released_partial (ops : List DevOp) (h : SafeFrom DevState.init ops)
    (hall : ∀ o ∈ (devRun ops).objs, o = none) : (devRun ops).used = 0 := by
  rw [(C75_tracked_partial ops h).1]
  apply Finset.sum_eq_zero
  intro i _
  rw [if_neg]
  rintro ⟨k, o, ho, _⟩
  have := hall _ (List.mem_of_getElem? ho)
  cases this

/-- A history of four objects, with a shared interaction. -/
def sampleHistory : List DevOp :=
  [.construct .harmonic 100, .construct .elph 50, .update 1 7, .copy 1, .construct .threePh 30, .copy 3, .destroy 1,
   .destroy 3]

/-- Non-vacuity of `C75_tracked_partial`: the history is safe; the copy of the interaction and the phonons are left. -/
example : SafeFrom DevState.init sampleHistory ∧ (devRun sampleHistory).used = 157 := by
  constructor
  · unfold sampleHistory
    refine ⟨trivial, trivial, ?_, ?_, trivial, ?_, trivial, trivial, trivial⟩
    · intro o ho h' o' hne ho'
      simp only [devStep, DevState.init, List.nil_append, List.length_nil, List.cons_append, List.length_cons] at ho ho'
      match h', hne with
      | 0, _ =>
        simp at ho ho'
        subst ho ho'
        simp
      | 1, hne => exact absurd rfl hne
      | n + 2, _ => simp at ho'
    · intro o ho
      have : o.kind = .elph := by
        simp [devStep, DevState.init] at ho
        rw [← ho]
      rw [this]; decide
    · intro o ho
      simp [devStep, DevState.init] at ho
      have : o.kind = .threePh ∨ o.kind = .elph := by
        first
          | (left; rw [← ho])
          | (right; rw [← ho])
      rcases this with h | h <;> rw [h] <;> decide
  · decide +kernel

/-- Live bytes of a state without objects. -/
private theorem liveBytes_zero (s : DevState) (h : ∀ o ∈ s.objs, o = none) : s.liveBytes = 0 := by
  apply Finset.sum_eq_zero
  intro i _
  rw [if_neg]
  rintro ⟨k, o, ho, _⟩
  have := h _ (List.mem_of_getElem? ho)
  cases this

/-- **C75** violated: a copy of a `PhononH0` (for instance the one made by `std::get` from the result of the parser)
registers the shared arrays a second time. -/
theorem C75_violated_copy : ∃ ops : List DevOp,
    (devRun ops).used = 200 ∧ (devRun ops).liveBytes = 100 := by
  classical
  refine ⟨[.construct .harmonic 100, .copy 0], by decide +kernel, ?_⟩
  unfold DevState.liveBytes
  have e : (devRun [.construct .harmonic 100, .copy 0]) =
    ⟨[100, 0], [some ⟨.harmonic, 0, 1⟩, some ⟨.harmonic, 0, 1⟩], 200⟩ := by decide +kernel
  rw [e]
  have h0 : DevState.live ⟨[100, 0], [some ⟨.harmonic, 0, 1⟩, some ⟨.harmonic, 0, 1⟩], 200⟩ 0 :=
    ⟨0, ⟨.harmonic, 0, 1⟩, rfl, Or.inl rfl⟩
  simp [Finset.sum_range_succ, h0]

/-- **C75** violated: after an assignment between two `PhononH0` objects and the destruction of both, memory is still
registered, though nothing is allocated. -/
theorem C75_violated_assign : ∃ ops : List DevOp,
    (devRun ops).used = 100 ∧ (devRun ops).liveBytes = 0 := by
  refine ⟨[.construct .harmonic 100, .construct .harmonic 40, .assign 0 1, .destroy 0, .destroy 1], by decide +kernel, ?_⟩
  apply liveBytes_zero
  decide +kernel

/-- **C75** violated: the registered memory becomes negative when an interaction is copied, the copy updates its cache
with a smaller one and is destroyed first. -/
theorem C75_violated_negative : ∃ ops : List DevOp, (devRun ops).used < 0 := by
  refine ⟨[.construct .elph 100, .update 0 50, .copy 0, .update 1 10, .destroy 1, .destroy 0], by decide +kernel⟩

/-- The formula of `Interaction3Ph` never reports less than the bytes of its arrays when both lists of cells have the
same number of elements. -/
theorem C75_usage3ph_partial (numAtoms nr : Nat) : bytes3Ph numAtoms nr nr ≤ usage3Ph numAtoms nr nr := by
  unfold bytes3Ph usage3Ph
  simp only
  have : 0 ≤ 3 * numAtoms * (3 * numAtoms) * (3 * numAtoms) * nr * nr := Nat.zero_le _
  omega

/-- The formula of `Interaction3Ph` reports more than the bytes of its arrays: the real array `D3_k` is counted as
complex. -/
theorem C75_violated_usage3ph : ∃ numAtoms nr : Nat, bytes3Ph numAtoms nr nr < usage3Ph numAtoms nr nr :=
  ⟨1, 1, by decide⟩

/-! ## C82 -/

/-- **C82** (partial): for every nonempty list and every positive batch size, the batches are consecutive pieces that
together give the list, each has at most the requested number of elements, all but the last have the same number of
elements, and none is empty; the batch size is reduced to the number of elements if it is larger.  Missing: lists without
elements (`C82_violated_empty`), and more than `2^30 - 1` elements (overflow of `int`). -/
theorem C82_pieces_partial {β : Type} (l : List β) (batchSize : Int) (hl : l ≠ []) (hb : 0 < batchSize)
    (hbig : l.length ≤ 1073741823) :
    ∃ bs, splitToBatches l batchSize = .ok (bs, min batchSize l.length) ∧ bs.flatten = l ∧
      (∀ b ∈ bs, b ≠ [] ∧ (b.length : Int) ≤ batchSize) ∧
      (∀ k, k + 1 < bs.length → ((bs[k]?.getD []).length : Int) = min batchSize l.length) := by
  have hlen : 0 < l.length := List.length_pos_of_ne_nil hl
  obtain ⟨b, hbv⟩ : ∃ b : Nat, (b : Int) = min batchSize l.length := ⟨(min batchSize l.length).toNat, by omega⟩
  have hb0 : 0 < b := by omega
  have hbn : b ≤ l.length := by omega
  obtain ⟨N, hNv⟩ : ∃ N : Nat, N = (l.length + b - 1) / b := ⟨_, rfl⟩
  have hdm := Nat.div_add_mod l.length b
  have hmod := Nat.mod_lt l.length hb0
  have hdle : l.length / b ≤ l.length := Nat.div_le_self _ _
  have hq : cdiv (l.length : Int) (b : Int) = .ok ((l.length / b : Nat) : Int) := by
    rw [cdiv_ok (by positivity) (by unfold intMax; omega) (by omega)]; push_cast; rfl
  have hr : crem (l.length : Int) (b : Int) = .ok ((l.length % b : Nat) : Int) := by
    unfold crem
    have e1 : (l.length : Int).tdiv (b : Int) = ((l.length / b : Nat) : Int) := by
      rw [Int.tdiv_eq_ediv_of_nonneg (by positivity)]; push_cast; rfl
    have e2 : (l.length : Int).tmod (b : Int) = ((l.length % b : Nat) : Int) := by
      rw [Int.tmod_eq_emod_of_nonneg (by positivity)]; push_cast; rfl
    have g0 : (0 : Int) ≤ ((l.length / b : Nat) : Int) := Int.natCast_nonneg _
    have g1 : ((l.length / b : Nat) : Int) ≤ l.length := by exact_mod_cast hdle
    have g2 : (0 : Int) ≤ ((l.length % b : Nat) : Int) := Int.natCast_nonneg _
    have g3 : ((l.length % b : Nat) : Int) < b := by exact_mod_cast hmod
    rw [e1, e2, if_neg (by omega)]
    rw [if_neg (by unfold intMin intMax; clear * - g0 g1 hbig; omega)]
    exact i32_ok (by unfold intMin; omega) (by unfold intMax; omega)
  have hN3 : (if ((l.length % b : Nat) : Int) ≠ 0 then cadd ((l.length / b : Nat) : Int) 1
      else .ok ((l.length / b : Nat) : Int) : Outcome Int) = .ok (N : Int) := by
    have hNv' : N = if l.length % b = 0 then l.length / b else l.length / b + 1 := by
      rw [hNv]
      split
      · next h0 =>
        have : l.length + b - 1 = (b - 1) + b * (l.length / b) := by omega
        rw [this, Nat.add_mul_div_left _ _ hb0, Nat.div_eq_of_lt (by omega), zero_add]
      · next h0 =>
        have : l.length + b - 1 = (l.length % b - 1) + b * (l.length / b + 1) := by rw [Nat.mul_add]; omega
        rw [this, Nat.add_mul_div_left _ _ hb0, Nat.div_eq_of_lt (by omega), zero_add]
    by_cases h0 : l.length % b = 0
    · rw [if_neg (by omega), hNv', if_pos h0]
    · have g0 : (0 : Int) ≤ ((l.length / b : Nat) : Int) := Int.natCast_nonneg _
      have g1 : ((l.length / b : Nat) : Int) ≤ l.length := by exact_mod_cast hdle
      rw [if_pos (by omega), hNv', if_neg h0, cadd_ok (by unfold intMin; clear * - g0; omega)
        (by unfold intMax; clear * - g1 hbig; omega)]
      push_cast; rfl
  have hNb1 : l.length ≤ N * b := by
    rw [hNv]
    have := Nat.div_add_mod (l.length + b - 1) b
    have := Nat.mod_lt (l.length + b - 1) hb0
    rw [Nat.mul_comm]; omega
  have hNb2 : (N - 1) * b < l.length := by
    have h1 : N * b ≤ l.length + b - 1 := by rw [hNv]; exact Nat.div_mul_le_self _ _
    rw [Nat.sub_mul, one_mul]; omega
  have hNle : N ≤ l.length := by
    by_contra hc
    have : l.length * 1 ≤ (N - 1) * b := Nat.mul_le_mul (by omega) hb0
    omega
  have hloop := splitLoop_val l b N hb0 hbig hNb2 hNb1 hbn (l.length + 1) 0 (List.replicate N []) (by omega) (by omega)
    (by simp) (by intro k hk; omega)
  have hmin : min (((0 + 1) * b : Nat) : Int) (l.length : Int) = (b : Int) := by
    rw [Nat.zero_add, Nat.one_mul]; omega
  rw [hmin, Nat.zero_mul, Nat.cast_zero] at hloop
  refine ⟨(List.range N).map (piece l b), ?_, ?_, ?_, ?_⟩
  · unfold splitToBatches
    simp only [← hbv, Outcome.bind_eq]
    rw [hq, Outcome.bind_ok, hr, Outcome.bind_ok, hN3, Outcome.bind_ok, if_neg (by omega), Int.toNat_natCast, hloop,
      Outcome.bind_ok]
  · rw [pieces_flatten]; exact List.take_of_length_le hNb1
  · intro p hp
    obtain ⟨k, hk, rfl⟩ := List.mem_map.mp hp
    rw [List.mem_range] at hk
    have hkb : k * b ≤ (N - 1) * b := Nat.mul_le_mul_right b (by omega)
    have hpl : (piece l b k).length = min b (l.length - k * b) := by unfold piece; simp
    constructor
    · intro he
      rw [he] at hpl
      simp at hpl; omega
    · rw [hpl]; omega
  · intro k hk
    simp only [List.length_map, List.length_range] at hk
    have h2 : (k + 1) * b ≤ (N - 1) * b := Nat.mul_le_mul_right b (by omega)
    rw [Nat.succ_mul] at h2
    have hpl : (piece l b k).length = min b (l.length - k * b) := by unfold piece; simp
    have : (((List.range N).map (piece l b))[k]?.getD []) = piece l b k := by
      simp [show k < N by omega]
    rw [this, hpl, ← hbv]; omega

/-- Non-vacuity of `C82_pieces_partial`. -/
example : splitToBatches [5, 6, 7, 8, 9, 10, 11] 3 = .ok ([[5, 6, 7], [8, 9, 10], [11]], 3) := by decide +kernel

/-- **C82** violated: a list without elements (the wavevectors of an MPI process that has none) gives a division by
zero, for every batch size. -/
theorem C82_violated_empty (batchSize : Int) (hb : 0 ≤ batchSize) : splitToBatches ([] : List Nat) batchSize = .ub := by
  unfold splitToBatches
  have : min batchSize (([] : List Nat).length : Int) = 0 := by simp; omega
  simp only [this, Outcome.bind_eq]
  rfl

/-! ## C83 -/

/-- **C83** (partial): a batch of the size chosen for the Hamiltonians takes at most 95% of the available memory, one
more point would take more, and a size is chosen whenever a point takes at most 95% of the available memory and the
number of points that fit is in the range of `int`.  Missing: larger numbers of points, `C83_violated`. -/
theorem C83_size_partial (avail per : Rat) (hper : 0 < per) (ha : 0 ≤ avail) :
    (∀ n, batchSizeOf avail per = .ok n → 1 ≤ n ∧ n * per ≤ avail * (95 / 100) ∧
      avail * (95 / 100) < (n + 1) * per) ∧
    (avail * (95 / 100) < per → batchSizeOf avail per = .error) ∧
    (per ≤ avail * (95 / 100) → avail * (95 / 100) ≤ per * 2147483647 → ∃ n, batchSizeOf avail per = .ok n) := by
  have hx : 0 ≤ avail / per * (95 / 100) := by positivity
  have hv : avail / per * (95 / 100) = avail * (95 / 100) / per := by ring
  have hfl : ∀ n : Int, ⌊avail / per * (95 / 100)⌋ = n ↔ n * per ≤ avail * (95 / 100) ∧ avail * (95 / 100) < (n + 1) * per := by
    intro n
    rw [Int.floor_eq_iff, hv, le_div_iff₀ hper, div_lt_iff₀ hper]
  unfold batchSizeOf doubleToInt
  rw [if_pos hx]
  refine ⟨?_, ?_, ?_⟩
  · intro n h
    obtain ⟨m, hm, h⟩ := (Outcome.bind_eq_ok_iff _ _ _).mp h
    obtain ⟨rfl, _⟩ := i32_eq_ok hm
    split at h
    · cases h
    next hlt =>
    cases h
    exact ⟨by omega, (hfl _).mp rfl⟩
  · intro h
    have : ⌊avail / per * (95 / 100)⌋ = 0 := by
      rw [hfl]; push_cast; constructor
      · rw [zero_mul]; positivity
      · linarith
    rw [this]
    rfl
  · intro h1 h2
    have hl1 : 1 ≤ ⌊avail / per * (95 / 100)⌋ := by
      rw [Int.le_floor, hv, le_div_iff₀ hper]; push_cast; linarith
    have hl2 : ⌊avail / per * (95 / 100)⌋ ≤ 2147483647 := by
      have : ⌊avail / per * (95 / 100)⌋ < 2147483648 := by
        rw [Int.floor_lt, hv, div_lt_iff₀ hper]; push_cast; linarith
      omega
    refine ⟨⌊avail / per * (95 / 100)⌋, ?_⟩
    simp only [Outcome.bind_eq]
    rw [i32_ok (by unfold intMin; omega) (by unfold intMax; omega), Outcome.bind_ok, if_neg (by omega)]

/-- Non-vacuity: two atoms, 16 GB. -/
example : ∃ per, phononMemoryPerPoint 6 100 false = .ok per ∧ batchSizeOf 16000000000 per = .ok 6985294 := by
  refine ⟨2176, by decide +kernel, by decide +kernel⟩

/-- **C83** violated: for one atom and a device memory of 800 GB (the environment variable MAXMEM) the number of
points is out of the range of `int`: undefined behaviour instead of a large batch. -/
theorem C83_violated : ∃ per, phononMemoryPerPoint 3 1 false = .ok per ∧ batchSizeOf 800000000000 per = .ub := by
  refine ⟨336, by decide +kernel, by decide +kernel⟩

end Verif.Props
