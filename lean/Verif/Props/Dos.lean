import Verif.Model.Dos
import Verif.Spec.Dos
import Verif.Spec.Times
import Verif.Props.Points
import Verif.Props.Delta
import Verif.Props.Mpi
import Verif.Proofs.Input
import Mathlib.Analysis.SpecialFunctions.Trigonometric.Basic
import Mathlib.Algebra.BigOperators.Field
import Mathlib.Tactic.IntervalCases

/-!
# C137: densities of states

Specification: Spec/Dos.
-/
namespace Verif.Props
open Verif.Model Verif.Spec MeasureTheory

/-- Number of points of the mesh. -/
def meshSize (mesh : V3 Int) : Nat := (mesh.x * mesh.y * mesh.z).toNat

/-- What the application prepares: energies of a periodic band structure on a mesh, irreducible points and the number of
points each represents. -/
structure DosRun (mesh : V3 Int) (eps : V3 Rat → Nat → ℝ) (energy : Nat → Nat → ℝ) (irr : List Nat) (mult : Nat → Nat) :
    Prop where
  pos : PosMesh mesh
  periodic : PeriodicBands eps
  energies : ∀ k < meshSize mesh, ∀ b, energy k b = eps (meshCoordinates mesh ⟨0, 0, 0⟩ (k : Int)) b
  points : ∀ k ∈ irr, k < meshSize mesh
  cover : (irr.map mult).sum = meshSize mesh

theorem meshSize_pos {mesh : V3 Int} (h : PosMesh mesh) : 0 < mesh.x * mesh.y * mesh.z ∧
    ((meshSize mesh : Nat) : Int) = mesh.x * mesh.y * mesh.z ∧ 0 < meshSize mesh := by
  have := Int.mul_pos (Int.mul_pos h.1 h.2.1) h.2.2
  refine ⟨this, ?_, ?_⟩ <;> unfold meshSize <;> omega

theorem tetraCorner_val {mesh : V3 Int} (hm : PosMesh mesh) {k : Nat} (hk : k < meshSize mesh) {c : Nat} (hc : c < 8) :
    ∃ i, tetraCorner mesh k c = .ok i ∧ i < meshSize mesh ∧
      Equivalent (cellCorner mesh (meshCoordinates mesh ⟨0, 0, 0⟩ (k : Int)) c) (meshCoordinates mesh ⟨0, 0, 0⟩ (i : Int)) := by
  obtain ⟨hN, hcast, _⟩ := meshSize_pos hm
  by_cases h0 : c = 0
  · refine ⟨k, by unfold tetraCorner; rw [if_pos h0], hk, ⟨0, 0, 0⟩, ?_⟩
    rw [h0]
    simp [cellCorner, translate]
  · obtain ⟨a, b, d, hd⟩ := exists_decode hm.1 hm.2.1 hm.2.2 (i := (k : Int)) (by omega) (by omega)
    have hs : subCellShift.getD c (0, 0, 0) = (c % 2, c / 2 % 2, c / 4 % 2) := by
      interval_cases c <;> rfl
    have hcoord := meshCoordinates_decode (offset := ⟨0, 0, 0⟩) hd
    have hp := C12_complete mesh ⟨0, 0, 0⟩ hm ⟨a + (c % 2 : Nat), b + (c / 2 % 2 : Nat), d + (c / 4 % 2 : Nat)⟩
      (cellCorner mesh (meshCoordinates mesh ⟨0, 0, 0⟩ (k : Int)) c) (by
        rw [hcoord]
        simp only [cellCorner, V3.mk.injEq]
        simp only [Int.cast_add, Int.cast_natCast]
        refine ⟨?_, ?_, ?_⟩ <;> ring)
    obtain ⟨h1, h2, h3⟩ := hp
    refine ⟨(isPointStoredMesh mesh ⟨0, 0, 0⟩ (cellCorner mesh (meshCoordinates mesh ⟨0, 0, 0⟩ (k : Int)) c)).toNat, ?_, ?_, ?_⟩
    · unfold tetraCorner
      rw [if_neg h0]
      simp only [hs]
      have : (⟨(meshCoordinates mesh ⟨0, 0, 0⟩ (k : Int)).x + ((c % 2 : Nat) : Rat) * (1 / mesh.x),
          (meshCoordinates mesh ⟨0, 0, 0⟩ (k : Int)).y + ((c / 2 % 2 : Nat) : Rat) * (1 / mesh.y),
          (meshCoordinates mesh ⟨0, 0, 0⟩ (k : Int)).z + ((c / 4 % 2 : Nat) : Rat) * (1 / mesh.z)⟩ : V3 Rat) =
          cellCorner mesh (meshCoordinates mesh ⟨0, 0, 0⟩ (k : Int)) c := by
        simp only [cellCorner, mul_one_div]
      rw [this, if_neg (by omega)]
    · omega
    · rw [Int.toNat_of_nonneg h1]
      exact h3

variable {mesh : V3 Int} {eps : V3 Rat → Nat → ℝ} {energy : Nat → Nat → ℝ} {irr : List Nat} {mult : Nat → Nat}

/-- The energies at the corners of the cell of point `k`. -/
def cellEnergies (mesh : V3 Int) (eps : V3 Rat → Nat → ℝ) (k b : Nat) (c : Nat) : ℝ :=
  eps (cellCorner mesh (meshCoordinates mesh ⟨0, 0, 0⟩ (k : Int)) c) b

theorem tetraSmearing_congr (f g : Nat → ℝ) (h : ∀ c < 8, f c = g c) (e : ℝ) : tetraSmearing f e = tetraSmearing g e := by
  unfold tetraSmearing
  simp only [tetraVertices, List.map_cons, List.map_nil]
  rw [h 0 (by norm_num), h 1 (by norm_num), h 2 (by norm_num), h 3 (by norm_num), h 4 (by norm_num), h 5 (by norm_num),
    h 6 (by norm_num), h 7 (by norm_num)]

theorem tetraStateSmearing_val (h : DosRun mesh eps energy irr mult) {k : Nat} (hk : k < meshSize mesh) (b : Nat) (e : ℝ) :
    tetraStateSmearing mesh (fun k b => .ok (energy k b)) k b e = .ok (tetraSmearing (cellEnergies mesh eps k b) e) := by
  have hc : ∀ c ∈ List.range 8, (do
      let i ← tetraCorner mesh k c
      .ok (energy i b)) = Outcome.ok (cellEnergies mesh eps k b c) := by
    intro c hc
    obtain ⟨i, h1, h2, g, h3⟩ := tetraCorner_val h.pos hk (List.mem_range.mp hc)
    rw [h1]
    simp only [Outcome.bind_eq, Outcome.bind_ok]
    rw [h.energies i h2 b]
    unfold cellEnergies
    rw [h3]
    exact congrArg _ (h.periodic _ g b).symm
  unfold tetraStateSmearing
  rw [mapOutcome_eq_map _ _ _ hc]
  simp only [Outcome.bind_eq, Outcome.bind_ok]
  refine congrArg Outcome.ok (tetraSmearing_congr _ _ ?_ e)
  intro c hc
  simp [hc]

theorem sum_flatMap_pairs (irr : List Nat) (n : Nat) (F : Nat → Nat → ℝ) :
    ((irr.flatMap fun ik => (List.range n).map fun ib => (ik, ib)).map fun s : Nat × Nat => F s.1 s.2).sum =
      (irr.map fun ik => ∑ b ∈ Finset.range n, F ik b).sum := by
  induction irr with
  | nil => rfl
  | cons k t ih =>
    rw [List.flatMap_cons, List.map_append, List.sum_append, ih, List.map_cons, List.sum_cons]
    congr 1
    rw [List.map_map]
    rw [← List.sum_toFinset _ List.nodup_range, List.toFinset_range]
    rfl

theorem tetraDos_val (h : DosRun mesh eps energy irr mult) (numBands : Nat) (e : ℝ) :
    tetraDos mesh numBands energy irr mult e =
      .ok ((irr.map fun k => ∑ b ∈ Finset.range numBands, tetraSmearing (cellEnergies mesh eps k b) e * (mult k : ℝ)).sum /
        (meshSize mesh : ℝ)) := by
  have hc : ∀ s ∈ (irr.flatMap fun ik => (List.range numBands).map fun ib => (ik, ib)), (do
      let m ← (fun k => Outcome.ok (mult k)) s.1
      let w ← tetraStateSmearing mesh (fun k b => .ok (energy k b)) s.1 s.2 e
      .ok (w * (m : ℝ))) = Outcome.ok (tetraSmearing (cellEnergies mesh eps s.1 s.2) e * (mult s.1 : ℝ)) := by
    intro s hs
    obtain ⟨k, hk, hs⟩ := List.mem_flatMap.mp hs
    obtain ⟨b, hb, rfl⟩ := List.mem_map.mp hs
    rw [tetraStateSmearing_val h (h.points k hk)]
    rfl
  unfold tetraDos tetraDosFrom
  rw [mapOutcome_eq_map _ _ _ hc]
  simp only [Outcome.bind_eq, Outcome.bind_ok]
  rw [sum_flatMap_pairs irr numBands (fun k b => tetraSmearing (cellEnergies mesh eps k b) e * (mult k : ℝ))]
  congr 2
  have := (meshSize_pos h.pos).2.1
  rw [← this]
  norm_cast

/-- Without symmetries the density of states is that of the tetrahedra that fill the Brillouin zone, for every periodic
band structure, mesh and energy. -/
theorem C137_value_partial (h : DosRun mesh eps energy (List.range (meshSize mesh)) (fun _ => 1)) (numBands : Nat) (e : ℝ) :
    tetraDos mesh numBands energy (List.range (meshSize mesh)) (fun _ => 1) e = .ok (meshDos mesh numBands eps e) := by
  rw [tetraDos_val h]
  congr 1
  unfold meshDos
  have hcast := (meshSize_pos h.pos).2.1
  rw [← hcast]
  rw [← List.sum_toFinset _ List.nodup_range, List.toFinset_range]
  simp only [Nat.cast_one, mul_one, Int.cast_natCast]
  rfl

/-- The density of states is never negative, and zero above and below all the energies, with or without symmetries. -/
theorem C137_range (h : DosRun mesh eps energy irr mult) (numBands : Nat) (e : ℝ) :
    ∃ d, tetraDos mesh numBands energy irr mult e = .ok d ∧ 0 ≤ d ∧
      (((∀ p, ∀ b < numBands, eps p b < e) ∨ ∀ p, ∀ b < numBands, e < eps p b) → d = 0) := by
  refine ⟨_, tetraDos_val h numBands e, ?_, ?_⟩
  · apply div_nonneg _ (Nat.cast_nonneg _)
    apply List.sum_nonneg
    intro x hx
    obtain ⟨k, _, rfl⟩ := List.mem_map.mp hx
    exact Finset.sum_nonneg fun b _ => mul_nonneg (C43_nonneg _ _) (Nat.cast_nonneg _)
  · intro hout
    have : (irr.map fun k => ∑ b ∈ Finset.range numBands, tetraSmearing (cellEnergies mesh eps k b) e * (mult k : ℝ)) =
        irr.map fun _ => (0 : ℝ) := by
      apply List.map_congr_left
      intro k _
      apply Finset.sum_eq_zero
      intro b hb
      rw [C43_outside, zero_mul]
      rcases hout with h' | h'
      · exact Or.inr fun i _ => h' _ b (Finset.mem_range.mp hb)
      · exact Or.inl fun i _ => h' _ b (Finset.mem_range.mp hb)
    rw [this]
    simp

/-- Partial C137: the density of states counts the bands.  Its integral over an interval that contains all the energies is
the number of bands, up to the weights that are set to zero, with or without symmetries.  Missing: bands that are flat on a
tetrahedron, see `C137_violated_flat`. -/
theorem C137_total_partial (h : DosRun mesh eps energy irr mult) (numBands : Nat) (a b : ℝ) (hle : a ≤ b)
    (hab : ∀ p n, a ≤ eps p n ∧ eps p n ≤ b)
    (hne : ∀ k ∈ irr, ∀ n < numBands, ∀ vs ∈ tetraVertices, ∃ i ∈ vs, ∃ j ∈ vs,
      cellEnergies mesh eps k n i ≠ cellEnergies mesh eps k n j) :
    ∃ d : ℝ → ℝ, (∀ e, tetraDos mesh numBands energy irr mult e = .ok (d e)) ∧ IntervalIntegrable d volume a b ∧
      |(∫ e in a..b, d e) - numBands| ≤ numBands * (1e-12 / 6 * (b - a)) := by
  have hNpos : (0 : ℝ) < meshSize mesh := Nat.cast_pos.mpr (meshSize_pos h.pos).2.2
  refine ⟨_, tetraDos_val h numBands, ?_⟩
  -- one irreducible point
  have hk : ∀ k ∈ irr, IntervalIntegrable (fun e => ∑ n ∈ Finset.range numBands,
        tetraSmearing (cellEnergies mesh eps k n) e * (mult k : ℝ)) volume a b ∧
      |(∫ e in a..b, ∑ n ∈ Finset.range numBands, tetraSmearing (cellEnergies mesh eps k n) e * (mult k : ℝ)) -
        numBands * mult k| ≤ mult k * (numBands * (1e-12 / 6 * (b - a))) := by
    intro k hk
    have hi : ∀ n ∈ Finset.range numBands, IntervalIntegrable (tetraSmearing (cellEnergies mesh eps k n)) volume a b ∧
        |(∫ e in a..b, tetraSmearing (cellEnergies mesh eps k n) e) - 1| ≤ 1e-12 / 6 * (b - a) := fun n hn =>
      C43_integral_partial _ a b hle (fun i _ => hab _ n) (hne k hk n (Finset.mem_range.mp hn))
    refine ⟨?_, ?_⟩
    · have := IntervalIntegrable.sum (Finset.range numBands) (f := fun n e =>
        tetraSmearing (cellEnergies mesh eps k n) e * (mult k : ℝ)) (fun n hn => (hi n hn).1.mul_const _)
      have e0 : (fun e => ∑ n ∈ Finset.range numBands, tetraSmearing (cellEnergies mesh eps k n) e * (mult k : ℝ)) =
          ∑ n ∈ Finset.range numBands, fun e => tetraSmearing (cellEnergies mesh eps k n) e * (mult k : ℝ) := by
        funext e
        simp
      rw [e0]
      exact this
    · rw [intervalIntegral.integral_finsetSum fun n hn => (hi n hn).1.mul_const _]
      simp only [intervalIntegral.integral_mul_const]
      have e1 : (∑ n ∈ Finset.range numBands, (∫ e in a..b, tetraSmearing (cellEnergies mesh eps k n) e) * (mult k : ℝ)) -
          numBands * mult k = ∑ n ∈ Finset.range numBands,
            ((∫ e in a..b, tetraSmearing (cellEnergies mesh eps k n) e) - 1) * (mult k : ℝ) := by
        simp only [sub_mul, Finset.sum_sub_distrib, Finset.sum_const, Finset.card_range, nsmul_eq_mul, one_mul]
      rw [e1]
      refine (Finset.abs_sum_le_sum_abs _ _).trans ?_
      have : ∀ n ∈ Finset.range numBands, |((∫ e in a..b, tetraSmearing (cellEnergies mesh eps k n) e) - 1) * (mult k : ℝ)| ≤
          1e-12 / 6 * (b - a) * mult k := by
        intro n hn
        rw [abs_mul, Nat.abs_cast]
        exact mul_le_mul_of_nonneg_right (hi n hn).2 (Nat.cast_nonneg _)
      refine (Finset.sum_le_sum this).trans (le_of_eq ?_)
      rw [Finset.sum_const, Finset.card_range, nsmul_eq_mul]
      ring
  -- sum over the irreducible points
  have hsum : ∀ l : List Nat, (∀ k ∈ l, k ∈ irr) →
      IntervalIntegrable (fun e => (l.map fun k => ∑ n ∈ Finset.range numBands,
        tetraSmearing (cellEnergies mesh eps k n) e * (mult k : ℝ)).sum) volume a b ∧
      |(∫ e in a..b, (l.map fun k => ∑ n ∈ Finset.range numBands,
        tetraSmearing (cellEnergies mesh eps k n) e * (mult k : ℝ)).sum) - numBands * ((l.map mult).sum : Nat)| ≤
        ((l.map mult).sum : Nat) * (numBands * (1e-12 / 6 * (b - a))) := by
    intro l
    induction l with
    | nil =>
      intro _
      simp
    | cons k t ih =>
      intro hl
      obtain ⟨i1, i2⟩ := ih fun k hk => hl k (by simp [hk])
      obtain ⟨k1, k2⟩ := hk k (hl k (by simp))
      refine ⟨?_, ?_⟩
      · simp only [List.map_cons, List.sum_cons]
        exact k1.add i1
      · simp only [List.map_cons, List.sum_cons]
        rw [intervalIntegral.integral_add k1 i1]
        rw [Nat.cast_add]
        have := abs_add_le ((∫ e in a..b, ∑ n ∈ Finset.range numBands,
          tetraSmearing (cellEnergies mesh eps k n) e * (mult k : ℝ)) - numBands * mult k)
          ((∫ e in a..b, (t.map fun k => ∑ n ∈ Finset.range numBands,
            tetraSmearing (cellEnergies mesh eps k n) e * (mult k : ℝ)).sum) - numBands * ((t.map mult).sum : Nat))
        refine le_trans (le_of_eq ?_) (this.trans (add_le_add k2 i2 |>.trans (le_of_eq ?_)))
        · congr 1; ring
        · ring
  obtain ⟨i1, i2⟩ := hsum irr fun _ h => h
  rw [h.cover] at i2
  refine ⟨i1.div_const _, ?_⟩
  rw [intervalIntegral.integral_div]
  have e2 : ∀ x : ℝ, x / meshSize mesh - numBands = (x - numBands * meshSize mesh) / meshSize mesh := by
    intro x; field_simp
  rw [e2, abs_div, Nat.abs_cast, div_le_iff₀ hNpos]
  linarith [i2]

/-- The file, for any number of processes: the energies from the smallest in equal steps, with the density of states at each,
in the units beside them; the product of a density and an energy does not depend on the units. -/
theorem C137_file (k : TimeConstants) (hk : GoodConstants k) (isPhonon : Bool) (dos : Nat → ℝ → Outcome ℝ) (d : ℝ → ℝ)
    (size : Nat) (hd : ∀ r < size, ∀ e, dos r e = .ok (d e)) (minEnergy maxEnergy delta : ℝ) (hdel : 0 < delta)
    (hle : minEnergy ≤ maxEnergy) (hs : 0 < size) (hfit : (maxEnergy - minEnergy) / delta < intMax)
    (hfit2 : (⌊(maxEnergy - minEnergy) / delta⌋.toNat + 1) * size < sizeTMod) :
    ∃ n t, (∀ i : Nat, i < n ↔ minEnergy + i * delta ≤ maxEnergy) ∧
      calcDos dos minEnergy maxEnergy delta size = .ok t ∧
      t.1 = (List.range n).map (fun i : Nat => (i : ℝ) * delta + minEnergy) ∧
      t.2 = (List.range n).map (fun i : Nat => d ((i : ℝ) * delta + minEnergy)) ∧
      (dosOutput k isPhonon t).1 = t.1.map (fun e => linewidthEv k e / energyUnitEv (!isPhonon)) ∧
      (∀ i j : Nat, i < n → j < n → (dosOutput k isPhonon t).2.getD i 0 * (dosOutput k isPhonon t).1.getD j 0 =
        t.2.getD i 0 * t.1.getD j 0) := by
  have hq : 0 ≤ (maxEnergy - minEnergy) / delta := div_nonneg (by linarith) hdel.le
  have hM : intMax = 2147483647 := rfl
  have hfl0 : 0 ≤ ⌊(maxEnergy - minEnergy) / delta⌋ := Int.floor_nonneg.mpr hq
  have hflM : ⌊(maxEnergy - minEnergy) / delta⌋ < intMax := by
    apply Int.floor_lt.mpr
    exact hfit
  set f := ⌊(maxEnergy - minEnergy) / delta⌋ with hf
  have hnum : dosNumEnergies minEnergy maxEnergy delta = .ok (f.toNat + 1) := by
    unfold dosNumEnergies truncInt
    rw [if_neg hdel.ne']
    simp only
    rw [if_pos hq, if_neg, if_neg (by omega)]
    · congr 1
      omega
    · have : intMin = -2147483648 := rfl
      omega
  set n := f.toNat + 1 with hn
  have hw : ∀ r ∈ List.range size, divideWorkIter n r size =
      .ok (List.range' (head n size r) (head n size (r + 1) - head n size r)) := fun r hr =>
    divideWorkIter_val hfit2 (List.mem_range.mp hr)
  have hg : ∀ F : Nat → ℝ, allGatherv ((List.range size).map fun r =>
      (List.range' (head n size r) (head n size (r + 1) - head n size r)).map F) (List.replicate n 0) =
      .ok ((List.range n).map F) := by
    intro F
    apply C07_gather n size hs hfit2 (by omega) F _ (by simp)
    · intro r hr
      have hr' : r < size := by simpa using hr
      refine ⟨_, hw r (List.mem_range.mpr hr'), by simp⟩
    · simp
  have hcalc : calcDos dos minEnergy maxEnergy delta size = .ok ((List.range n).map (fun i : Nat => (i : ℝ) * delta + minEnergy),
      (List.range n).map (fun i : Nat => d ((i : ℝ) * delta + minEnergy))) := by
    unfold calcDos
    simp only [hnum, Outcome.bind_eq, Outcome.bind_ok]
    rw [mapOutcome_eq_map _ (fun r => (List.range' (head n size r) (head n size (r + 1) - head n size r)).map
      fun i : Nat => (i : ℝ) * delta + minEnergy) _ (fun r hr => by rw [hw r hr]; rfl), Outcome.bind_ok]
    rw [mapOutcome_eq_map _ (fun r => (List.range' (head n size r) (head n size (r + 1) - head n size r)).map
      fun i : Nat => d ((i : ℝ) * delta + minEnergy)) _ (fun r hr => by
        have hr' := List.mem_range.mp hr
        have : readAt ((List.range size).map fun r => (List.range' (head n size r) (head n size (r + 1) - head n size r)).map
            fun i : Nat => (i : ℝ) * delta + minEnergy) r =
            .ok ((List.range' (head n size r) (head n size (r + 1) - head n size r)).map
            fun i : Nat => (i : ℝ) * delta + minEnergy) := by
          unfold readAt
          simp [hr']
        rw [this, Outcome.bind_ok, mapOutcome_eq_map _ d _ fun e _ => hd r hr' e, List.map_map]
        rfl), Outcome.bind_ok]
    rw [hg (fun i : Nat => (i : ℝ) * delta + minEnergy)]
    simp only [Outcome.bind_ok]
    rw [hg (fun i : Nat => d ((i : ℝ) * delta + minEnergy))]
    rfl
  refine ⟨n, _, ?_, hcalc, rfl, rfl, ?_, ?_⟩
  · intro i
    have : i < n ↔ (i : Int) ≤ f := by omega
    rw [this, hf, Int.le_floor, le_div_iff₀ hdel]
    constructor <;> intro h <;> push_cast at * <;> linarith
  · unfold dosOutput
    simp only
    apply List.map_congr_left
    intro e _
    have := hk.electronVolt.ne'
    cases isPhonon
    · simp [linewidthEv, energyUnitEv, energyRyToEvOf]; ring
    · simp only [linewidthEv, energyUnitEv, energyRyToEvOf, if_true, Bool.not_true, Bool.false_eq_true, if_false]
      norm_num
      ring
  · intro i j hi hj
    have hc : (if isPhonon then energyRyToEvOf k * 1000 else energyRyToEvOf k) ≠ 0 := by
      have h1 := hk.rydberg
      have h2 := hk.electronVolt
      unfold energyRyToEvOf
      split <;> positivity
    unfold dosOutput
    simp only [List.map_map]
    generalize (if isPhonon then energyRyToEvOf k * 1000 else energyRyToEvOf k) = c at hc
    simp [hi, hj]
    field_simp

/-- A mesh of energies in the wrong order is refused, and so it is before anything is calculated. -/
theorem C137_order_refused (dos : Nat → ℝ → Outcome ℝ) (minEnergy maxEnergy delta : ℝ) (hdel : 0 < delta)
    (hlt : maxEnergy ≤ minEnergy - 2 * delta) (hfit : (minEnergy - maxEnergy) / delta ≤ intMax) (size : Nat) :
    calcDos dos minEnergy maxEnergy delta size = .error := by
  have hq : (maxEnergy - minEnergy) / delta ≤ -2 := by
    rw [div_le_iff₀ hdel]; linarith
  have hc : ⌈(maxEnergy - minEnergy) / delta⌉ ≤ -2 := Int.ceil_le.mpr (by exact_mod_cast hq)
  have hM : intMax = 2147483647 := rfl
  have hm : intMin = -2147483648 := rfl
  have hlow : -intMax ≤ ⌈(maxEnergy - minEnergy) / delta⌉ := by
    have : (-(intMax : ℝ)) ≤ (maxEnergy - minEnergy) / delta := by
      have e : (maxEnergy - minEnergy) / delta = -((minEnergy - maxEnergy) / delta) := by ring
      rw [e]; linarith
    have := this.trans (Int.le_ceil _)
    exact_mod_cast this
  have : dosNumEnergies minEnergy maxEnergy delta = .error := by
    unfold dosNumEnergies truncInt
    rw [if_neg hdel.ne']
    simp only
    rw [if_neg (not_le.mpr (by linarith : (maxEnergy - minEnergy) / delta < 0)), if_neg (by omega), if_pos (by omega)]
  unfold calcDos
  rw [this]
  rfl

/-! ## Violations -/

/-- A band of nearest neighbours along a line: `1 - cos(2π x)`. -/
noncomputable def cosBand (p : V3 Rat) (_ : Nat) : ℝ := 1 - Real.cos (2 * Real.pi * (p.x : ℝ))

theorem cosBand_periodic : PeriodicBands cosBand := by
  intro p g b
  unfold cosBand
  congr 1
  have : 2 * Real.pi * (((p.x + (g.x : Rat) : Rat)) : ℝ) = 2 * Real.pi * (p.x : ℝ) + g.x * (2 * Real.pi) := by
    push_cast; ring
  simp only
  rw [this, Real.cos_add_int_mul_two_pi]

/-- Inversion symmetry. -/
theorem cosBand_even (p : V3 Rat) (b : Nat) : cosBand ⟨-p.x, -p.y, -p.z⟩ b = cosBand p b := by
  unfold cosBand
  simp only
  push_cast
  rw [mul_neg, Real.cos_neg]

/-- Its energies on four wavevectors. -/
noncomputable def cosEnergy (k b : Nat) : ℝ := cosBand (meshCoordinates ⟨4, 1, 1⟩ ⟨0, 0, 0⟩ (k : Int)) b

theorem cosRun (irr : List Nat) (mult : Nat → Nat) (h1 : ∀ k ∈ irr, k < 4) (h2 : (irr.map mult).sum = 4) :
    DosRun ⟨4, 1, 1⟩ cosBand cosEnergy irr mult :=
  ⟨by simp [PosMesh], cosBand_periodic, fun _ _ _ => rfl, h1, h2⟩

theorem cosCell (k : Nat) (hk : k < 4) (c : Nat) (hc : c < 8) : cellEnergies ⟨4, 1, 1⟩ cosBand k 0 c =
    if (k + c % 2) % 4 = 0 then 0 else if (k + c % 2) % 4 = 2 then 2 else 1 := by
  have h0 : meshCoordinates ⟨4, 1, 1⟩ ⟨0, 0, 0⟩ (k : Int) = ⟨(k : Rat) / 4, 0, 0⟩ := by
    interval_cases k <;> decide +kernel
  unfold cellEnergies cellCorner
  rw [h0]
  unfold cosBand
  simp only
  have e : ∀ n : Nat, n ≤ 4 → 1 - Real.cos (2 * Real.pi * ((n : ℝ) / 4)) =
      if n % 4 = 0 then 0 else if n % 4 = 2 then 2 else 1 := by
    intro n hn
    interval_cases n
    · simp
    · have : 2 * Real.pi * (((1 : Nat) : ℝ) / 4) = Real.pi / 2 := by push_cast; ring
      rw [this, Real.cos_pi_div_two]; norm_num
    · have : 2 * Real.pi * (((2 : Nat) : ℝ) / 4) = Real.pi := by push_cast; ring
      rw [this, Real.cos_pi]; norm_num
    · have : 2 * Real.pi * (((3 : Nat) : ℝ) / 4) = Real.pi + Real.pi / 2 := by push_cast; ring
      rw [this, Real.cos_add, Real.cos_pi, Real.cos_pi_div_two, Real.sin_pi]; norm_num
    · have : 2 * Real.pi * (((4 : Nat) : ℝ) / 4) = 2 * Real.pi := by push_cast; ring
      rw [this, Real.cos_two_pi]; norm_num
  have := e (k + c % 2) (by omega)
  rw [← this]
  congr 3
  push_cast
  ring

/-- The full C137 is violated: with the inversion symmetry of the band, which the application always uses, the density of
states at 1/2 is half of that of the same mesh without symmetries. -/
theorem C137_violated_symmetry :
    DosRun ⟨4, 1, 1⟩ cosBand cosEnergy [0, 1, 2] (fun k => if k = 1 then 2 else 1) ∧
    (∀ p b, cosBand ⟨-p.x, -p.y, -p.z⟩ b = cosBand p b) ∧
    tetraDos ⟨4, 1, 1⟩ 1 cosEnergy [0, 1, 2] (fun k => if k = 1 then 2 else 1) (1 / 2) = .ok (1 / 4) ∧
    meshDos ⟨4, 1, 1⟩ 1 cosBand (1 / 2) = 1 / 2 := by
  have hrun : DosRun ⟨4, 1, 1⟩ cosBand cosEnergy [0, 1, 2] (fun k => if k = 1 then 2 else 1) :=
    cosRun _ _ (by decide) (by decide)
  have w : ∀ k, k < 4 → tetraSmearing (cellEnergies ⟨4, 1, 1⟩ cosBand k 0) (1 / 2) = if k = 0 ∨ k = 3 then 1 else 0 := by
    intro k hk
    rw [tetraSmearing_congr _ _ (cosCell k hk)]
    interval_cases k <;> simp [tetraSmearing, tetraVertices, tetraWeight, List.insertionSort, List.orderedInsert, tetraSorted] <;>
      norm_num
  have hsz : meshSize ⟨4, 1, 1⟩ = 4 := by decide
  refine ⟨hrun, cosBand_even, ?_, ?_⟩
  · rw [tetraDos_val hrun, hsz]
    simp only [List.map_cons, List.map_nil, List.sum_cons, List.sum_nil, Finset.sum_range_one, w 0 (by norm_num),
      w 1 (by norm_num), w 2 (by norm_num)]
    norm_num
  · unfold meshDos
    have : ∀ k b, (fun c => cosBand (cellCorner ⟨4, 1, 1⟩ (meshCoordinates ⟨4, 1, 1⟩ ⟨0, 0, 0⟩ ((k : Nat) : Int)) c) b) =
      cellEnergies ⟨4, 1, 1⟩ cosBand k b := fun _ _ => rfl
    simp only [this]
    have e4 : ((4 : Int) * 1 * 1).toNat = 4 := by decide
    simp only [e4, Finset.sum_range_succ, Finset.sum_range_zero, w 0 (by norm_num), w 1 (by norm_num), w 2 (by norm_num),
      w 3 (by norm_num)]
    norm_num

/-- The same mesh meets the hypotheses of `C137_value_partial` and `C137_total_partial`. -/
example : DosRun ⟨4, 1, 1⟩ cosBand cosEnergy (List.range (meshSize ⟨4, 1, 1⟩)) (fun _ => 1) ∧
    (∀ p n, (0 : ℝ) ≤ cosBand p n ∧ cosBand p n ≤ 2) ∧
    ∀ k ∈ List.range (meshSize ⟨4, 1, 1⟩), ∀ n < 1, ∀ vs ∈ tetraVertices, ∃ i ∈ vs, ∃ j ∈ vs,
      cellEnergies ⟨4, 1, 1⟩ cosBand k n i ≠ cellEnergies ⟨4, 1, 1⟩ cosBand k n j := by
  have hsz : meshSize ⟨4, 1, 1⟩ = 4 := by decide
  refine ⟨cosRun _ _ (by decide) (by decide), ?_, ?_⟩
  · intro p n
    unfold cosBand
    constructor
    · linarith [Real.cos_le_one (2 * Real.pi * (p.x : ℝ))]
    · linarith [Real.neg_one_le_cos (2 * Real.pi * (p.x : ℝ))]
  · intro k hk n hn vs hvs
    rw [hsz] at hk
    have hk := List.mem_range.mp hk
    obtain rfl : n = 0 := by omega
    have hlt : ∀ i ∈ vs, i < 8 := by revert vs; decide
    have hpar : ∃ i ∈ vs, ∃ j ∈ vs, i % 2 = 0 ∧ j % 2 = 1 := by revert vs; decide
    obtain ⟨i, hi, j, hj, h1, h2⟩ := hpar
    refine ⟨i, hi, j, hj, ?_⟩
    rw [cosCell k hk i (hlt i hi), cosCell k hk j (hlt j hj), h1, h2]
    interval_cases k <;> norm_num

/-- The full C137 is violated: the states of a band without dispersion are missing; the density is one quarter at its energy
and zero at all the others, so that its integral is zero. -/
theorem C137_violated_flat (mesh : V3 Int) (hm : PosMesh mesh) (e0 : ℝ) :
    DosRun mesh (fun _ _ => e0) (fun _ _ => e0) (List.range (meshSize mesh)) (fun _ => 1) ∧
    (∀ e, tetraDos mesh 1 (fun _ _ => e0) (List.range (meshSize mesh)) (fun _ => 1) e = .ok (if e = e0 then 1 / 4 else 0)) ∧
    ∀ a b : ℝ, ∫ e in a..b, (if e = e0 then (1 / 4 : ℝ) else 0) = 0 := by
  have hrun : DosRun mesh (fun _ _ => e0) (fun _ _ => e0) (List.range (meshSize mesh)) (fun _ => 1) :=
    ⟨hm, fun _ _ _ => rfl, fun _ _ _ => rfl, fun k hk => List.mem_range.mp hk, by simp⟩
  have hN : (meshSize mesh : ℝ) ≠ 0 := Nat.cast_ne_zero.mpr (meshSize_pos hm).2.2.ne'
  refine ⟨hrun, ?_, ?_⟩
  · intro e
    have w : ∀ k b, tetraSmearing (cellEnergies mesh (fun _ _ => e0) k b) e = if e = e0 then 1 / 4 else 0 := by
      intro k b
      have : cellEnergies mesh (fun _ _ => e0) k b = fun _ => e0 := rfl
      rw [this]
      by_cases h : e = e0
      · rw [if_pos h]
        simp [tetraSmearing, tetraVertices, tetraWeight, List.insertionSort, List.orderedInsert, tetraSorted, h]
        norm_num
      · rw [if_neg h]
        apply C43_outside
        rcases lt_or_gt_of_ne h with h | h
        · exact Or.inl fun _ _ => h
        · exact Or.inr fun _ _ => h
    rw [tetraDos_val hrun]
    simp only [w, Finset.sum_range_one, Nat.cast_one, mul_one, List.map_const', List.length_range, List.sum_replicate,
      nsmul_eq_mul]
    congr 1
    field_simp
  · intro a b
    apply intervalIntegral.integral_zero_ae
    have : ∀ᵐ x : ℝ, x ≠ e0 := by
      simp [ae_iff, measure_singleton]
    filter_upwards [this] with x hx _
    rw [if_neg hx]

end Verif.Props
