import Verif.Model.EpaRates
import Verif.Spec.EpaRates
import Verif.Proofs.Transport
import Verif.Proofs.ScatMatrix
import Verif.Proofs.Input
import Verif.Proofs.Bands
import Verif.Props.Mpi
import Verif.Props.Particle
import Mathlib.Algebra.Order.Floor.Ring

namespace Verif.Model
open Verif.Spec

/-! ## Filling and reducing -/

theorem foldl_addAt {α : Type} [AddCommMonoid α] (l : List (Nat × α)) (acc : Nat → α) (b : Nat) :
    l.foldl (fun data p => addAt data p.1 p.2) acc b = acc b + (l.map fun a => if a.1 = b then a.2 else 0).sum := by
  induction l generalizing acc with
  | nil => simp
  | cons e t ih =>
    rw [List.foldl_cons, ih, addAt_val, List.map_cons, List.sum_cons]
    by_cases hb : e.1 = b
    · simp [hb, add_assoc]
    · simp [hb, Ne.symm hb]

theorem zip_map_fst_self {β γ : Type} (g : β → γ) (l : List β) : l.zip (l.map g) = l.map fun x => (x, g x) := by
  induction l with
  | nil => rfl
  | cons a l ih => simp [ih]

theorem nodup_single_sum {α : Type} [AddCommMonoid α] (g : Nat → α) (l : List Nat) (h : l.Nodup) (b : Nat) :
    (l.map fun j => if j = b then g j else 0).sum = if b ∈ l then g b else 0 := by
  induction l with
  | nil => simp
  | cons a l ih =>
    obtain ⟨h1, h2⟩ := List.nodup_cons.mp h
    rw [List.map_cons, List.sum_cons, ih h2]
    by_cases hab : a = b
    · rw [← hab]; simp [h1]
    · simp [hab, Ne.symm hab]

theorem fillShare_val {α : Type} [AddCommMonoid α] (f : Nat → Outcome α) (g : Nat → α) (n r size : Nat)
    (hfit : n * size < 18446744073709551616) (hr : r < size) (hf : ∀ i < n, f i = .ok (g i)) :
    ∃ w, divideWorkIter n r size = .ok w ∧
      fillShare f n r size = .ok fun i => if i ∈ w then g i else 0 := by
  have hw := divideWorkIter_val hfit hr
  refine ⟨_, hw, ?_⟩
  have hle : head n size (r + 1) ≤ n := by
    have := head_mono n size (show r + 1 ≤ size from hr)
    rwa [head_last n size (by omega)] at this
  have hm : mapOutcome f (List.range' (head n size r) (head n size (r + 1) - head n size r)) =
      .ok ((List.range' (head n size r) (head n size (r + 1) - head n size r)).map g) := by
    apply mapOutcome_eq_map
    intro i hi
    rw [List.mem_range'_1] at hi
    exact hf i (by omega)
  unfold fillShare
  simp only [hw, hm, Outcome.bind_eq, Outcome.bind_ok]
  congr 1
  funext i
  rw [foldl_addAt, zip_map_fst_self, List.map_map, zero_add]
  exact nodup_single_sum g _ List.nodup_range' i

theorem fillReduce_val {α : Type} [AddCommMonoid α] (f : Nat → Outcome α) (g : Nat → α) (n size : Nat) (hs : 0 < size)
    (hfit : n * size < 18446744073709551616) (hf : ∀ i < n, f i = .ok (g i)) :
    ∃ res, fillReduce f n size = .ok res ∧ res.length = size ∧ ∀ h ∈ res, ∀ i < n, h i = g i := by
  have hshare : ∀ r ∈ List.range size, fillShare f n r size =
      .ok ((fun r i => if i ∈ List.range' (head n size r) (head n size (r + 1) - head n size r) then g i else 0) r) := by
    intro r hr
    obtain ⟨w, h1, h2⟩ := fillShare_val f g n r size hfit (List.mem_range.mp hr) hf
    rw [divideWorkIter_val hfit (List.mem_range.mp hr)] at h1
    cases h1
    exact h2
  refine ⟨allReduceSum1 ((List.range size).map fun r i =>
    if i ∈ List.range' (head n size r) (head n size (r + 1) - head n size r) then g i else 0), ?_, ?_, ?_⟩
  · unfold fillReduce
    rw [mapOutcome_eq_map _ _ _ hshare]
    rfl
  · simp [allReduceSum1_length]
  · intro h hh i hi
    obtain ⟨r, hr, rfl⟩ := List.getElem_of_mem hh
    have hlen : r < size := by simpa [allReduceSum1_length] using hr
    obtain ⟨o, h1, h2⟩ := Props.C11_fill_reduce n size hs hfit g ((List.range size).map fun r i =>
      if i ∈ List.range' (head n size r) (head n size (r + 1) - head n size r) then g i else 0) (by simp)
      (by
        intro r hr
        have hr' : r < size := by simpa using hr
        refine ⟨_, divideWorkIter_val hfit hr', fun i => ?_⟩
        simp) r hlen i hi
    rw [List.getElem?_eq_getElem hr] at h1
    rw [Option.some.inj h1]
    exact h2

/-! ## Density of the final states -/

theorem readDos_val (dos : List ℝ) (i : Int) (h0 : 0 ≤ i) (h1 : i < dos.length) :
    readDos dos i = .ok (dos.getD i.toNat 0) := by
  unfold readDos readAt
  have h : i.toNat < dos.length := by omega
  rw [if_pos h0, List.getElem?_eq_getElem h, List.getD_eq_getElem?_getD, List.getElem?_eq_getElem h]
  rfl

/-- The densities for a phonon of positive energy, `j` the integer and `t` the fractional part of the jump. -/
theorem epaFinalDos_val (dos : List ℝ) (step omega : ℝ) (i : Nat) (hs : 0 < step) (hw : 0 ≤ omega)
    (hi : i < dos.length) (hfit : omega / step + dos.length < 2147483647) :
    ∃ j : Nat, (j : ℤ) = ⌊omega / step⌋ ∧ epaFinalDos dos step omega i = .ok
      (if j + 1 ≤ i then dos.getD (i - j - 1) 0 * Int.fract (omega / step) + dos.getD (i - j) 0 * (1 - Int.fract (omega / step)) else 0,
       if i + j + 1 < dos.length then dos.getD (i + j) 0 * (1 - Int.fract (omega / step)) +
        dos.getD (i + j + 1) 0 * Int.fract (omega / step) else 0) := by
  have hq : 0 ≤ omega / step := div_nonneg hw hs.le
  have hf0 : 0 ≤ ⌊omega / step⌋ := Int.floor_nonneg.mpr hq
  refine ⟨⌊omega / step⌋.toNat, Int.toNat_of_nonneg hf0, ?_⟩
  have hfl := Int.floor_le (omega / step)
  have hjb : ⌊omega / step⌋ + (dos.length : Int) < 2147483647 := by
    have : ((⌊omega / step⌋ + (dos.length : Int) : Int) : ℝ) < ((2147483647 : Int) : ℝ) := by push_cast; linarith
    exact_mod_cast this
  have hfr : omega / step - (⌊omega / step⌋ : ℝ) = Int.fract (omega / step) := rfl
  generalize hj : ⌊omega / step⌋ = j at *
  generalize ht : Int.fract (omega / step) = t at *
  have h1 : i32 j = .ok j := by unfold i32; rw [if_pos (by unfold intMin intMax; omega)]
  have h2 : i32 ((i : Int) + j + 1) = .ok ((i : Int) + j + 1) := by unfold i32; rw [if_pos (by unfold intMin intMax; omega)]
  have h3 : i32 ((i : Int) - j - 1) = .ok ((i : Int) - j - 1) := by unfold i32; rw [if_pos (by unfold intMin intMax; omega)]
  unfold epaFinalDos truncInt
  rw [if_neg hs.ne', if_pos hq, hj]
  simp only [h1, h2, h3, Outcome.bind_eq, Outcome.bind_ok, hfr]
  have e1 : ((i : Int) - j - 1).toNat = i - j.toNat - 1 := by omega
  have e2 : ((i : Int) - j).toNat = i - j.toNat := by omega
  have e3 : ((i : Int) + j + 1).toNat = i + j.toNat + 1 := by omega
  have e4 : ((i : Int) + j).toNat = i + j.toNat := by omega
  by_cases h : 0 ≤ (i : Int) - j - 1 <;> by_cases h' : (i : Int) + j + 1 < (dos.length : Int)
  · rw [if_pos h, readDos_val _ _ h (by omega), Outcome.bind_ok, readDos_val _ _ (by omega) (by omega), Outcome.bind_ok, if_pos h',
      readDos_val _ _ (by omega) (by omega), readDos_val _ _ (by omega) (by omega), if_pos (by omega), if_pos (by omega),
      e1, e2, e3, e4]
    rfl
  · rw [if_pos h, readDos_val _ _ h (by omega), Outcome.bind_ok, readDos_val _ _ (by omega) (by omega), Outcome.bind_ok, if_neg h', if_pos (by omega),
      if_neg (by omega), e1, e2]
  · rw [if_neg h, if_pos h', readDos_val _ _ (by omega) (by omega), readDos_val _ _ (by omega) (by omega),
      if_neg (by omega), if_pos (by omega), e3, e4]
    rfl
  · rw [if_neg h, if_neg h', if_neg (by omega), if_neg (by omega)]

theorem interpolated_emission (dos : Nat → ℝ) (n i j : Nat) (q : ℝ) (hj : (j : ℤ) = ⌊q⌋) (hi : i < n) (hedge : (i : ℝ) ≠ q) :
    (if j + 1 ≤ i then dos (i - j - 1) * Int.fract q + dos (i - j) * (1 - Int.fract q) else 0) =
      interpolated dos n (i - q) := by
  have hq : (j : ℝ) ≤ q := by
    have := Int.floor_le q
    rw [← hj] at this
    exact_mod_cast this
  have hq1 : q < j + 1 := by
    have := Int.lt_floor_add_one q
    rw [← hj] at this
    exact_mod_cast this
  have hfr : Int.fract q = q - j := by
    rw [← Int.self_sub_floor, ← hj]; simp
  have hin : (i : ℝ) + 1 ≤ n := by exact_mod_cast hi
  have hj0 : (0 : ℝ) ≤ j := Nat.cast_nonneg j
  unfold interpolated
  by_cases hc : j + 1 ≤ i
  · have hc' : (j : ℝ) + 1 ≤ i := by exact_mod_cast hc
    rw [if_pos hc, if_pos ⟨by linarith, by linarith⟩, hfr]
    rcases hq.eq_or_lt with h | h
    · have hx : (i : ℝ) - q = ((i - j : Nat) : ℝ) := by rw [← h, Nat.cast_sub (by omega)]
      rw [hx, Int.floor_natCast, Int.fract_natCast, Int.toNat_natCast, ← h]
      ring
    · have hfl : ⌊(i : ℝ) - q⌋ = ((i - j - 1 : Nat) : ℤ) := by
        rw [Int.floor_eq_iff]
        have : ((((i - j - 1 : Nat) : ℤ)) : ℝ) = i - j - 1 := by
          rw [show i - j - 1 = i - (j + 1) by omega, Int.cast_natCast, Nat.cast_sub hc]; push_cast; ring
        rw [this]
        constructor <;> linarith
      have hf2 : Int.fract ((i : ℝ) - q) = j + 1 - q := by
        rw [← Int.self_sub_floor, hfl, show i - j - 1 = i - (j + 1) by omega, Int.cast_natCast, Nat.cast_sub hc]
        push_cast; ring
      rw [hf2, hfl, Int.toNat_natCast, show i - j - 1 + 1 = i - j by omega]
      ring
  · have hc' : (i : ℝ) ≤ j := by
      have : i ≤ j := by omega
      exact_mod_cast this
    rw [if_neg hc, if_neg]
    rintro ⟨h1, _⟩
    exact hedge (le_antisymm (hc'.trans hq) (by linarith))

theorem interpolated_absorption (dos : Nat → ℝ) (n i j : Nat) (q : ℝ) (hj : (j : ℤ) = ⌊q⌋)
    (hedge : (n : ℝ) - 1 - i ≠ q) :
    (if i + j + 1 < n then dos (i + j) * (1 - Int.fract q) + dos (i + j + 1) * Int.fract q else 0) =
      interpolated dos n (i + q) := by
  have hq : (j : ℝ) ≤ q := by
    have := Int.floor_le q
    rw [← hj] at this
    exact_mod_cast this
  have hq1 : q < j + 1 := by
    have := Int.lt_floor_add_one q
    rw [← hj] at this
    exact_mod_cast this
  have hj0 : (0 : ℝ) ≤ j := Nat.cast_nonneg j
  have hi0 : (0 : ℝ) ≤ i := Nat.cast_nonneg i
  unfold interpolated
  by_cases hc : i + j + 1 < n
  · have hc' : (i : ℝ) + j + 1 + 1 ≤ n := by exact_mod_cast hc
    have hfl : ⌊(i : ℝ) + q⌋ = ((i + j : Nat) : ℤ) := by
      rw [Int.floor_natCast_add, ← hj]; push_cast; ring
    rw [if_pos hc, if_pos ⟨by linarith, by linarith⟩, Int.fract_natCast_add, hfl, Int.toNat_natCast]
    ring
  · have hc' : (n : ℝ) ≤ i + j + 1 := by
      have : n ≤ i + j + 1 := by omega
      exact_mod_cast this
    rw [if_neg hc, if_neg]
    rintro ⟨_, h1⟩
    exact hedge (le_antisymm (by linarith) (by linarith))

/-- One mode. -/
theorem epaModeRate_val (s : EpaSetup) (dos : List ℝ) (temp chemPot : ℝ) (i nu : Nat) (omega ga ge : ℝ) (hs : 0 < s.step)
    (hw : 0 ≤ omega) (hi : i < dos.length) (hfit : omega / s.step + dos.length < 2147483647)
    (ha : epaCoupling s.elEnergies s.average nu (epaEnergy s i) (epaEnergy s i + omega) = .ok ga)
    (he : epaCoupling s.elEnergies s.average nu (epaEnergy s i) (epaEnergy s i - omega) = .ok ge) :
    ∃ rho : ℝ × ℝ, epaFinalDos dos s.step omega i = .ok rho ∧ epaModeRate s dos temp chemPot i nu omega =
      .ok (2 * Real.pi / (if s.spinOrbit then 1 else 2) * s.volume *
        (ga * (getPopulation .bose omega temp 0 + getPopulation .fermi (epaEnergy s i + omega) temp chemPot) * rho.2 +
         ge * (getPopulation .bose omega temp 0 + 1 - getPopulation .fermi (epaEnergy s i - omega) temp chemPot) * rho.1)) := by
  obtain ⟨j, _, hr⟩ := epaFinalDos_val dos s.step omega i hs hw hi hfit
  refine ⟨_, hr, ?_⟩
  unfold epaModeRate
  simp only [hr, ha, he, Outcome.bind_eq, Outcome.bind_ok]

theorem foldl_add_sum {α : Type} [AddMonoid α] (l : List α) (a : α) : l.foldl (· + ·) a = a + l.sum := by
  induction l generalizing a with
  | nil => simp
  | cons b l ih => rw [List.foldl_cons, ih, List.sum_cons, add_assoc]

/-! ## Energy-projected velocities -/

theorem foldl_map_sum {α β : Type} [AddMonoid α] (l : List β) (f : β → α) (a : α) :
    l.foldl (fun acc x => acc + f x) a = a + (l.map f).sum := by
  induction l generalizing a with
  | nil => simp
  | cons b l ih => rw [List.foldl_cons, ih, List.map_cons, List.sum_cons, add_assoc]

theorem epaVelocityAt_sum (B : BandView) (delta : Nat → ℝ → ℝ) (dim numPoints : Nat) (volume : ℝ)
    (energies : Nat → ℝ) (i : Nat) (a b : Fin 3) :
    epaVelocityAt B delta dim numPoints volume energies i a b = (B.irr.map fun is => ((B.rots is).map fun r =>
      matVec r (B.vel is) a * matVec r (B.vel is) b * delta is (energies i) * ((2 * Real.pi) ^ dim / volume / numPoints)).sum).sum := by
  have h1 : ∀ (l : List Nat) (acc : Mat3), l.foldl (fun acc is => (B.rots is).foldl (fun acc r =>
      acc + epaOuter (matVec r (B.vel is)) (delta is (energies i)) ((2 * Real.pi) ^ dim / volume / numPoints)) acc) acc =
      acc + (l.map fun is => ((B.rots is).map fun r =>
        epaOuter (matVec r (B.vel is)) (delta is (energies i)) ((2 * Real.pi) ^ dim / volume / numPoints)).sum).sum := by
    intro l
    induction l with
    | nil => intro acc; simp
    | cons x l ih =>
      intro acc
      rw [List.foldl_cons, ih, List.map_cons, List.sum_cons, ← add_assoc]
      congr 1
      exact foldl_map_sum _ _ _
  have h2 : epaVelocityAt B delta dim numPoints volume energies i = (B.irr.map fun is => ((B.rots is).map fun r =>
      epaOuter (matVec r (B.vel is)) (delta is (energies i)) ((2 * Real.pi) ^ dim / volume / numPoints)).sum).sum :=
    (h1 B.irr 0).trans (zero_add _)
  rw [h2, mat_sum_apply]
  congr 1
  apply List.map_congr_left
  intro is _
  rw [mat_sum_apply]
  rfl

theorem epaDosAt_sum (B : BandView) (delta : Nat → ℝ → ℝ) (numPoints : Nat) (volume : ℝ) (energies : Nat → ℝ) (i : Nat) :
    epaDosAt B delta numPoints volume energies i = (B.irr.map fun is => ((B.rots is).map fun _ =>
      delta is (energies i) * (1 / volume / numPoints)).sum).sum := by
  unfold epaDosAt
  simp only
  rw [foldl_map_sum, zero_add]
  congr 1
  apply List.map_congr_left
  intro is _
  rw [List.map_const', List.sum_replicate, nsmul_eq_mul]
  ring

end Verif.Model
