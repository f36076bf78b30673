import Verif.Model.ElPhMemory
import Verif.Props.Device

/-!
# C189: device memory of the electron-phonon coupling

Specification.  The wavevectors of a batch are such that the arrays allocated at the same time (`peakMemory`, the highest number
of bytes in use) fit in the memory that is available, which is what is left by the arrays that exist.
-/
namespace Verif.Props
open Verif.Model

/-- The estimate per wavevector, as a formula. -/
def elphPerWavevector (w m p nb1 : Int) : Int :=
  16 * (w * w + m * m) + 16 * (m * nb1 * w) + max (16 * p + 32 * (m * nb1 * w)) (64 * (m * nb1 * w))

theorem elphMemoryPerWavevector_val (w m p nb1 per : Int) (hw : 0 ≤ w) (hm : 0 ≤ m) (hb : 0 ≤ nb1)
    (h : elphMemoryPerWavevector w m p nb1 = .ok per) : per = elphPerWavevector w m p nb1 := by
  unfold elphMemoryPerWavevector at h
  obtain ⟨a, ha, h⟩ := (Outcome.bind_eq_ok_iff _ _ _).mp h
  obtain ⟨b, hb', h⟩ := (Outcome.bind_eq_ok_iff _ _ _).mp h
  obtain ⟨c, hc, h⟩ := (Outcome.bind_eq_ok_iff _ _ _).mp h
  obtain ⟨d, hd, h⟩ := (Outcome.bind_eq_ok_iff _ _ _).mp h
  obtain ⟨e, he, h⟩ := (Outcome.bind_eq_ok_iff _ _ _).mp h
  obtain ⟨f, hf, h⟩ := (Outcome.bind_eq_ok_iff _ _ _).mp h
  obtain ⟨g, hg, h⟩ := (Outcome.bind_eq_ok_iff _ _ _).mp h
  obtain ⟨i, hi, h⟩ := (Outcome.bind_eq_ok_iff _ _ _).mp h
  obtain ⟨j, hj, h⟩ := (Outcome.bind_eq_ok_iff _ _ _).mp h
  obtain ⟨k, hk, h⟩ := (Outcome.bind_eq_ok_iff _ _ _).mp h
  obtain ⟨rfl, _⟩ := i32_eq_ok ha
  obtain ⟨rfl, _⟩ := i32_eq_ok hb'
  obtain ⟨rfl, _⟩ := i32_eq_ok hc
  obtain ⟨rfl, _⟩ := i32_eq_ok hd
  obtain ⟨rfl, _⟩ := i32_eq_ok he
  have hf := cprod_eq_ok _ _ _ hf
  have hg := cprod_eq_ok _ _ _ hg
  have hi := cprod_eq_ok _ _ _ hi
  have hj := cprod_eq_ok _ _ _ hj
  have hk := cprod_eq_ok _ _ _ hk
  simp only [List.prod_cons, List.prod_nil, mul_one] at hf hg hi hj hk
  cases h
  have hA : 0 ≤ m * nb1 * w := by positivity
  have e1 : 2 * (16 * (m * (nb1 * w))) = 32 * (m * nb1 * w) := by ring
  have e2 : 16 * (nb1 * (w * m)) = 16 * (m * nb1 * w) := by ring
  have e3 : 16 * (m * (nb1 * w)) = 16 * (m * nb1 * w) := by ring
  rw [e1] at hf hg hi
  rw [e2] at hj
  rw [e3] at hk
  subst hf hg hi hj hk
  unfold elphPerWavevector
  omega

theorem elphPerWavevector_pos (w m p nb1 : Int) (hw : 0 < w) (hm : 0 ≤ m) (hb : 0 ≤ nb1) : 0 < elphPerWavevector w m p nb1 := by
  have h1 : 0 < w * w := by positivity
  have h2 : 0 ≤ m * m := by positivity
  have h3 : 0 ≤ m * nb1 * w := by positivity
  unfold elphPerWavevector
  omega

/-- The device arrays of a batch are within the estimate at all times. -/
theorem C189_peak (w m p n nb1 b2 : Nat) (hb2 : b2 ≤ w) (hw : 0 < w) (hm : 3 ≤ m) (hb : 0 < nb1) (per : Int)
    (h : elphMemoryPerWavevector w m p nb1 = .ok per) : peakMemory (elphCouplingMemory w m p n nb1 b2) ≤ n * per := by
  rw [elphMemoryPerWavevector_val _ _ _ _ _ (by positivity) (by positivity) (by positivity) h]
  have hn : (0 : Int) ≤ n := by positivity
  unfold elphPerWavevector
  have a1 : (n : Int) * (16 * ((w : Int) * w + m * m)) = ((16 * (n * w * w) + 16 * (n * m * m) : Nat) : Int) := by push_cast; ring
  have a2 : (n : Int) * (16 * ((m : Int) * nb1 * w)) = ((16 * (n * m * nb1 * w) : Nat) : Int) := by push_cast; ring
  have a3 : (n : Int) * (16 * (p : Int) + 32 * (m * nb1 * w)) = ((16 * (n * p) + 32 * (n * m * nb1 * w) : Nat) : Int) := by push_cast; ring
  have a4 : (n : Int) * (64 * ((m : Int) * nb1 * w)) = ((64 * (n * m * nb1 * w) : Nat) : Int) := by push_cast; ring
  rw [mul_add, mul_add, mul_max_of_nonneg _ _ hn, a1, a2, a3, a4]
  have m1 : n * m * nb1 * b2 ≤ n * m * nb1 * w := by gcongr
  have m2 : n * w * b2 ≤ n * w * w := by gcongr
  have m3 : n * m * b2 * nb1 ≤ n * m * nb1 * w := by
    calc n * m * b2 * nb1 = n * m * nb1 * b2 := by ring
      _ ≤ _ := m1
  have m4 : 3 * n ≤ n * m * nb1 * w := by
    calc 3 * n = n * 3 * 1 * 1 := by ring
      _ ≤ n * m * nb1 * w := by gcongr <;> omega
  unfold peakMemory elphCouplingMemory
  simp only [List.foldl_cons, List.foldl_nil, memStep]
  have e1 : 8 * n * 3 = 24 * n := by ring
  have e2 : ∀ a b : Nat, 16 * n * a * b = 16 * (n * a * b) := by intros; ring
  have e3 : ∀ a b c : Nat, 16 * n * a * b * c = 16 * (n * a * b * c) := by intros; ring
  have e4 : ∀ a b c : Nat, 8 * n * a * b * c = 8 * (n * a * b * c) := by intros; ring
  have e5 : 16 * n * p = 16 * (n * p) := by ring
  simp only [e3, e4]
  simp only [e1, e2, e5]
  generalize n * m * nb1 * w = x1 at *
  generalize n * m * nb1 * b2 = x2 at *
  generalize n * m * b2 * nb1 = x3 at *
  generalize n * w * b2 = x4 at *
  generalize n * w * w = x5 at *
  generalize n * m * m = x6 at *
  generalize n * p = x7 at *
  push_cast
  omega

/-- C189 (partial): the number of batches is between one and the number of wavevectors, no batch is empty, together the batches are
the list, and the arrays of a batch exceed the available memory by less than the estimate for one wavevector; they do not exceed
it at all when the available memory is a whole number of times that estimate.  Missing: that they never exceed it
(`C189_violated_batches`). -/
theorem C189_batches_partial (w m p nb1 b2 : Nat) (hb2 : b2 ≤ w) (hw : 0 < w) (hm : 3 ≤ m) (hb : 0 < nb1) (l : List Nat) (avail : Rat)
    (N : Int) (hl : l ≠ []) (h : elphEstimateNumBatches w m p l.length nb1 avail = .ok N) (hfit : (l.length : Int) * N ≤ intMax) :
    1 ≤ N ∧ N ≤ l.length ∧ ∃ per bs, elphMemoryPerWavevector w m p nb1 = .ok per ∧ (per : Rat) ≤ avail ∧
      batches l N.toNat = .ok bs ∧ bs.flatten = l ∧
      ∀ b ∈ bs, b ≠ [] ∧ (peakMemory (elphCouplingMemory w m p b.length nb1 b2) : Rat) < avail + per ∧
        ((∃ k : Int, avail = k * per) → (peakMemory (elphCouplingMemory w m p b.length nb1 b2) : Rat) ≤ avail) := by
  unfold elphEstimateNumBatches at h
  obtain ⟨per, hper, h⟩ := (Outcome.bind_eq_ok_iff _ _ _).mp h
  have hval := elphMemoryPerWavevector_val _ _ _ _ _ (by positivity) (by positivity) (by positivity) hper
  have hpos : 0 < per := by rw [hval]; exact elphPerWavevector_pos _ _ _ _ (by exact_mod_cast hw) (by positivity) (by positivity)
  have hposQ : (0 : Rat) < per := by exact_mod_cast hpos
  have hlen : 0 < l.length := List.length_pos_of_ne_nil hl
  have hlenQ : (0 : Rat) < (l.length : Int) := by exact_mod_cast hlen
  simp only at h
  split at h
  · cases h
  next h0 =>
  obtain ⟨N', hN', h⟩ := (Outcome.bind_eq_ok_iff _ _ _).mp h
  split at h
  · cases h
  next h1 =>
  cases h
  obtain ⟨hNv, _, _⟩ := i32_eq_ok hN'
  have hle : (per : Rat) ≤ avail := by
    by_contra hlt
    apply h1
    refine ⟨by exact_mod_cast hlen.ne', ?_⟩
    rw [mul_comm, mul_div_assoc, div_self hlenQ.ne', mul_one]
    exact not_le.mp hlt
  have hav : 0 < avail := lt_of_lt_of_le hposQ hle
  have hq : (0 : Rat) < ((l.length : Int) : Rat) * per / avail := by positivity
  have hq1 : ((l.length : Int) : Rat) * per / avail ≤ N := by rw [hNv]; exact Int.le_ceil _
  have hq2 : ((l.length : Int) : Rat) * per / avail ≤ ((l.length : Int) : Rat) := by
    rw [div_le_iff₀ hav]
    exact mul_le_mul_of_nonneg_left hle hlenQ.le
  have hN1 : 1 ≤ N := by
    rw [hNv]; exact Int.one_le_ceil_iff.mpr hq
  have hN2 : N ≤ l.length := by
    rw [hNv]; exact Int.ceil_le.mpr hq2
  refine ⟨hN1, hN2, ?_⟩
  have hNn : ((N.toNat : Nat) : Int) = N := Int.toNat_of_nonneg (by omega)
  obtain ⟨bs, hbs, hblen, hflat, hsz⟩ := C60_cover_partial l N.toNat (by omega) (by rw [hNn]; exact hfit)
  refine ⟨per, bs, hper, hle, hbs, hflat, ?_⟩
  intro b hb'
  obtain ⟨hb1, _, hb3⟩ := hsz b hb'
  have hpeak : (peakMemory (elphCouplingMemory w m p b.length nb1 b2) : Rat) ≤ b.length * per := by
    exact_mod_cast C189_peak w m p b.length nb1 b2 hb2 hw hm hb per hper
  have hb3' : (b.length : Rat) * N < l.length + N := by
    have : (b.length : Int) * N < l.length + N := by
      rw [← hNn]; exact_mod_cast hb3
    exact_mod_cast this
  have hNQ : (0 : Rat) < N := by exact_mod_cast hN1
  have hkey : (b.length * per : Rat) < avail + per := by
    have e1 : ((l.length : Int) : Rat) * per ≤ N * avail := by
      rwa [div_le_iff₀ hav] at hq1
    have e2 : (b.length : Rat) * N * per < ((l.length : Rat) + N) * per := by
      exact mul_lt_mul_of_pos_right hb3' hposQ
    push_cast at e1
    have e3 : N * (b.length * per : Rat) < N * (avail + per) := by nlinarith
    exact lt_of_mul_lt_mul_left e3 hNQ.le
  refine ⟨?_, lt_of_le_of_lt hpeak hkey, ?_⟩
  · intro he
    subst he
    have : 1 ≤ l.length / N.toNat := by
      rw [Nat.one_le_div_iff (by omega)]; omega
    simp at hb1; omega
  · rintro ⟨k, hk⟩
    refine le_trans hpeak ?_
    rw [hk] at hkey ⊢
    have : (b.length : Rat) < k + 1 := by
      have : (b.length * per : Rat) < (k + 1) * per := by rw [add_mul, one_mul]; exact hkey
      exact lt_of_mul_lt_mul_right this hposQ.le
    have hi : (b.length : Int) < k + 1 := by exact_mod_cast this
    have hi2 : (b.length : Int) ≤ k := by omega
    exact mul_le_mul_of_nonneg_right (by exact_mod_cast hi2) hposQ.le

/-- The calculation is refused exactly when the estimate for one wavevector exceeds the available memory. -/
theorem C189_refused (w m p nb1 nk2 : Nat) (hk : 0 < nk2) (avail : Rat) (ha : 0 < avail) (per : Int)
    (h : elphMemoryPerWavevector w m p nb1 = .ok per)
    (hlo : intMin ≤ ⌈((nk2 : Int) : Rat) * per / avail⌉) (hhi : ⌈((nk2 : Int) : Rat) * per / avail⌉ ≤ intMax) :
    elphEstimateNumBatches w m p nk2 nb1 avail = if avail < per then .error else .ok ⌈((nk2 : Int) : Rat) * per / avail⌉ := by
  unfold elphEstimateNumBatches
  simp only [Outcome.bind_eq]
  rw [h, Outcome.bind_ok, if_neg ha.ne', i32_ok hlo hhi, Outcome.bind_ok]
  have hkQ : (((nk2 : Int)) : Rat) ≠ 0 := by exact_mod_cast hk.ne'
  have e : (((nk2 : Int)) : Rat) * per / ((nk2 : Int) : Rat) = per := by rw [mul_comm, mul_div_assoc, div_self hkQ, mul_one]
  rw [e]
  have hkI : ((nk2 : Nat) : Int) ≠ 0 := by exact_mod_cast hk.ne'
  by_cases hc : avail < per
  · rw [if_pos ⟨hkI, hc⟩, if_pos hc]
  · rw [if_neg (fun hh => hc hh.2), if_neg hc]

theorem calcs_pool_one (w m p nb1 : Nat) (l : List Nat) (s : ElPhDevice) :
    l.foldl (fun t _ => t.calcCouplingSquared 1 w m p nb1) s = s := by
  induction l with
  | nil => rfl
  | cons a t ih => rw [List.foldl_cons]; exact ih

/-- In a pool of one process, after any history of wavevectors, the memory registered is that of the arrays of the interaction, also
when the batches are chosen for the next wavevector. -/
theorem C189_registered (base w m p : Nat) (work : List (Nat × Nat)) (nb1 : Nat) :
    let s : ElPhDevice := work.foldl (fun s x => s.wavevector base 1 w m p x.1 x.2) ⟨base, 0⟩
    s.registered = base + s.cache ∧
    (s.cacheElPh base 1 w m p nb1).cache = 16 * p * m * nb1 * w ∧
    (s.cacheElPh base 1 w m p nb1).registered = base + ((16 * p * m * nb1 * w : Nat) : Int) := by
  intro s
  have inv : ∀ (work : List (Nat × Nat)) (s : ElPhDevice), s.registered = base + s.cache →
      (work.foldl (fun s x => s.wavevector base 1 w m p x.1 x.2) s).registered =
        base + (work.foldl (fun s x => s.wavevector base 1 w m p x.1 x.2) s).cache := by
    intro work
    induction work with
    | nil => intro s hs; exact hs
    | cons a t ih =>
      intro s hs
      rw [List.foldl_cons]
      refine ih _ ?_
      unfold ElPhDevice.wavevector
      rw [calcs_pool_one]
      simp only [ElPhDevice.cacheElPh, ElPhDevice.usage, if_true]
      omega
  have hs : s.registered = base + s.cache := inv work ⟨base, 0⟩ (by simp)
  refine ⟨hs, by simp [ElPhDevice.cacheElPh], ?_⟩
  simp only [ElPhDevice.cacheElPh, ElPhDevice.usage, if_true]
  omega

/-- C189 is violated in a pool of more processes: whatever the history, the array with the coupling at the current wavevector is not
registered, neither when the batches are chosen nor afterwards. -/
theorem C189_violated_pool (base poolSize w m p : Nat) (hp : 1 < poolSize) (work : List (Nat × Nat)) (nb1 numBatches : Nat) :
    let s : ElPhDevice := work.foldl (fun s x => s.wavevector base poolSize w m p x.1 x.2) ⟨base, 0⟩
    (s.cacheElPh base poolSize w m p nb1).registered = base ∧
    (s.wavevector base poolSize w m p nb1 (numBatches + 1)).registered = base ∧
    (s.wavevector base poolSize w m p nb1 (numBatches + 1)).cache = 16 * p * m * nb1 * w := by
  intro s
  have hcache : ∀ (s : ElPhDevice) (nb1 : Nat), (s.cacheElPh base poolSize w m p nb1).registered = s.registered := by
    intro s nb1
    simp only [ElPhDevice.cacheElPh, ElPhDevice.usage, if_neg (show poolSize ≠ 1 by omega)]
    omega
  have hcalc : ∀ (nb1 : Nat) (l : List Nat) (s : ElPhDevice),
      (l.foldl (fun t _ => t.calcCouplingSquared poolSize w m p nb1) s).registered = s.registered ∧
      (l ≠ [] → (l.foldl (fun t _ => t.calcCouplingSquared poolSize w m p nb1) s).cache = 16 * p * m * nb1 * w) := by
    intro nb1 l
    induction l with
    | nil => intro s; exact ⟨rfl, fun h => absurd rfl h⟩
    | cons a t ih =>
      intro s
      rw [List.foldl_cons]
      have e : s.calcCouplingSquared poolSize w m p nb1 = ⟨s.registered, 16 * p * m * nb1 * w⟩ := by
        unfold ElPhDevice.calcCouplingSquared; rw [if_pos hp]
      rw [e]
      refine ⟨(ih _).1, fun _ => ?_⟩
      by_cases ht : t = []
      · subst ht; rfl
      · exact (ih _).2 ht
  have hwork : ∀ (work : List (Nat × Nat)) (s : ElPhDevice),
      (work.foldl (fun s x => s.wavevector base poolSize w m p x.1 x.2) s).registered = s.registered := by
    intro work
    induction work with
    | nil => intro s; rfl
    | cons a t ih =>
      intro s
      rw [List.foldl_cons, ih]
      unfold ElPhDevice.wavevector
      rw [(hcalc _ _ _).1, hcache]
  have hs : s.registered = base := hwork work ⟨base, 0⟩
  refine ⟨by rw [hcache, hs], ?_, ?_⟩
  · unfold ElPhDevice.wavevector
    rw [(hcalc _ _ _).1, hcache, hs]
  · unfold ElPhDevice.wavevector
    exact (hcalc _ _ _).2 (by simp)

/-- A case that meets the hypotheses of `C189_batches_partial`: seven wavevectors, room for two and a half at a time. -/
example : elphMemoryPerWavevector 2 3 10 1 = .ok 688 ∧ elphEstimateNumBatches 2 3 10 7 1 1720 = .ok 3 ∧
    peakMemory (elphCouplingMemory 2 3 10 3 1 2) ≤ 3 * 688 := by
  refine ⟨by decide +kernel, by decide +kernel, by decide +kernel⟩

/-- C189 is violated: with room for two and a half wavevectors, five are divided into two batches, and the arrays of the second batch,
of three, need more than the available memory (one Wannier function, three modes, a thousand lattice vectors). -/
theorem C189_violated_batches : ∃ b ∈ ((batches [0, 1, 2, 3, 4] 2).toOption.getD []),
    elphMemoryPerWavevector 1 3 1000 1 = .ok 16304 ∧ elphEstimateNumBatches 1 3 1000 5 1 40760 = .ok 2 ∧
    (peakMemory (elphCouplingMemory 1 3 1000 b.length 1 1) : Rat) > 40760 := by
  refine ⟨[2, 3, 4], by decide +kernel, by decide +kernel, by decide +kernel, ?_⟩
  decide +kernel

/-- C189 is violated: for 90 atoms and 500 bands the estimate overflows `int`, whatever the available memory. -/
theorem C189_violated_overflow (p nk2 : Int) (avail : Rat) (h : 0 ≤ p) (h2 : p ≤ 100000000) :
    elphEstimateNumBatches 500 270 p nk2 500 avail = .ub := by
  unfold elphEstimateNumBatches elphMemoryPerWavevector
  have e0 : cmul 500 500 = .ok 250000 := by decide
  have e1 : cmul 270 270 = .ok 72900 := by decide
  have e2 : cadd 250000 72900 = .ok 322900 := by decide
  have e3 : cmul 16 322900 = .ok 5166400 := by decide
  have e4 : cmul 16 p = .ok (16 * p) := cmul_ok (by unfold intMin; omega) (by unfold intMax; omega)
  have e5 : cprod 2 [16, 270, 500, 500] = .ub := by decide +kernel
  simp only [Outcome.bind_eq]
  rw [e0, Outcome.bind_ok, e1, Outcome.bind_ok, e2, Outcome.bind_ok, e3, Outcome.bind_ok, e4, Outcome.bind_ok, e5]
  rfl

end Verif.Props
