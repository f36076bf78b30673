import Verif.Spec.PathThird
import Verif.Proofs.ThirdOrder
import Verif.Proofs.PathPhTimes
import Verif.Props.ThirdOrder
import Verif.Props.Degeneracy
import Verif.Props.Crystal
import Verif.Props.BandsFile

/-! # Lemmas on lifetimes from third-order force constants -/
namespace Verif.Proofs
open Verif.Model Verif.Spec Verif.Props

/-! ## A run depends on the couplings of its wavevectors only -/

section
variable (P : PathPhApp) (p m : Vec3 → Vec3 → Nat → Nat → Nat → ℝ) (pts : List (V3 ℝ))
  (hp : ∀ i j, p (pathWave P.cell P.wrap pts i) (pathWave P.cell P.wrap P.mesh j) = P.plus (pathWave P.cell P.wrap pts i) (pathWave P.cell P.wrap P.mesh j))
  (hm : ∀ i j, m (pathWave P.cell P.wrap pts i) (pathWave P.cell P.wrap P.mesh j) = P.minus (pathWave P.cell P.wrap pts i) (pathWave P.cell P.wrap P.mesh j))
include hp hm

theorem pairRates_congr : ({ P with plus := p, minus := m } : PathPhApp).pairRates pts = P.pairRates pts := by
  funext inner outer ex rank row ik1 ik2
  unfold PathPhApp.pairRates PathPhApp.updates
  have h1 : ({ P with plus := p, minus := m } : PathPhApp).setup = P.setup := rfl
  have h2 : ({ P with plus := p, minus := m } : PathPhApp).third = P.third := rfl
  simp only [h1, h2, hp, hm]

theorem diagonal_congr : ({ P with plus := p, minus := m } : PathPhApp).diagonal pts = P.diagonal pts := by
  have h := pairRates_congr P p m pts hp hm
  have h1 : ({ P with plus := p, minus := m } : PathPhApp).processRates pts = P.processRates pts := by
    funext inner outer ex rank row items
    unfold PathPhApp.processRates
    rw [h]
  have h2 : ({ P with plus := p, minus := m } : PathPhApp).summedRates pts = P.summedRates pts := by
    funext bands size row
    unfold PathPhApp.summedRates
    rw [h1]
  funext bands size sweep
  unfold PathPhApp.diagonal
  rw [h2]

end

theorem run_congr (P : PathPhApp) (p m : Vec3 → Vec3 → Nat → Nat → Nat → ℝ) (segs : List Segment) (delta : ℝ)
    (hp : ∀ pts, pathPoints segs delta = .ok pts → ∀ i j,
      p (pathWave P.cell P.wrap pts i) (pathWave P.cell P.wrap P.mesh j) = P.plus (pathWave P.cell P.wrap pts i) (pathWave P.cell P.wrap P.mesh j))
    (hm : ∀ pts, pathPoints segs delta = .ok pts → ∀ i j,
      m (pathWave P.cell P.wrap pts i) (pathWave P.cell P.wrap P.mesh j) = P.minus (pathWave P.cell P.wrap pts i) (pathWave P.cell P.wrap P.mesh j))
    (u : FileUnits) (ang : ℝ) (c : AtomsView) (batch : Nat → Int) (sched : Nat → List FullStore × List FullStore → List FullStore) (sweep : Sweep) (size : Nat) :
    ({ P with plus := p, minus := m } : PathPhApp).run u ang c segs delta batch sched sweep size = P.run u ang c segs delta batch sched sweep size := by
  unfold PathPhApp.run
  cases h : pathPoints segs delta with
  | ok pts =>
    simp only [Outcome.bind_eq, Outcome.bind_ok]
    rw [diagonal_congr P p m pts (hp pts h) (hm pts h)]
    rfl
  | error => simp only [Outcome.bind_eq, Outcome.bind]
  | ub => simp only [Outcome.bind_eq, Outcome.bind]
  | diverge => simp only [Outcome.bind_eq, Outcome.bind]

/-! ## Wavevectors -/

theorem scal_same {d : Mat3} {cell : Cell} (hcell : makeCell d = .ok cell) {k q : Vec3} (h : SameModLattice cell.reciprocal k q) (a : Fin 3) :
    ∃ z : ℤ, scal k (fun i => d i a) = scal q (fun i => d i a) + 2 * Real.pi * z := by
  obtain ⟨n, hn⟩ := h
  refine ⟨n a, ?_⟩
  have hr := (C69_reciprocal d cell hcell).1
  rw [(makeCell_ok d cell hcell).2.1] at hr
  have e : ∀ b, d 0 a * cell.reciprocal 0 b + d 1 a * cell.reciprocal 1 b + d 2 a * cell.reciprocal 2 b = if a = b then 2 * Real.pi else 0 := fun b => by
    rw [← hr a b, Fin.sum_univ_three]
  have e0 := e 0
  have e1 := e 1
  have e2 := e 2
  have key : scal k (fun i => d i a) = scal q (fun i => d i a) +
      (n 0 * (if a = 0 then 2 * Real.pi else 0) + n 1 * (if a = 1 then 2 * Real.pi else 0) + n 2 * (if a = 2 then 2 * Real.pi else 0)) := by
    rw [← e0, ← e1, ← e2]
    simp only [scal, Fin.sum_univ_three, hn]
    ring
  rw [key]
  fin_cases a <;> simp <;> ring

theorem fits_same {N : V3 Int} {d : Mat3} {cell : Cell} (hcell : makeCell d = .ok cell) {k q : Vec3} (h : SameModLattice cell.reciprocal k q)
    (hq : FitsSupercell N d q) : FitsSupercell N d k := by
  intro a
  obtain ⟨z, hz⟩ := hq a
  obtain ⟨y, hy⟩ := scal_same hcell h a
  refine ⟨z + asFun N a * y, ?_⟩
  rw [hy, mul_add, hz]
  push_cast
  ring

theorem fits_grid {N : V3 Int} {d : Mat3} {cell : Cell} (hcell : makeCell d = .ok cell) {p : V3 ℝ} (h : OnGrid N p) :
    FitsSupercell N d (cartesianOf cell.reciprocal p) := by
  obtain ⟨x, y, z, hx, hy, hz⟩ := h
  have hr := (C69_reciprocal d cell hcell).1
  rw [(makeCell_ok d cell hcell).2.1] at hr
  intro a
  have e : ∀ b, d 0 a * cell.reciprocal 0 b + d 1 a * cell.reciprocal 1 b + d 2 a * cell.reciprocal 2 b = if a = b then 2 * Real.pi else 0 := fun b => by
    rw [← hr a b, Fin.sum_univ_three]
  have e0 := e 0
  have e1 := e 1
  have e2 := e 2
  have key : scal (cartesianOf cell.reciprocal p) (fun i => d i a) =
      p.x * (if a = 0 then 2 * Real.pi else 0) + p.y * (if a = 1 then 2 * Real.pi else 0) + p.z * (if a = 2 then 2 * Real.pi else 0) := by
    rw [← e0, ← e1, ← e2]
    simp only [scal, Fin.sum_univ_three, cartesianOf]
    ring
  rw [key]
  fin_cases a
  · exact ⟨x, by simp [asFun]; linear_combination 2 * Real.pi * hx⟩
  · exact ⟨y, by simp [asFun]; linear_combination 2 * Real.pi * hy⟩
  · exact ⟨z, by simp [asFun]; linear_combination 2 * Real.pi * hz⟩

theorem fits_wave {N : V3 Int} {d : Mat3} {cell : Cell} (hcell : makeCell d = .ok cell) {wrap : Vec3 → Vec3}
    (hw : ∀ q, SameModLattice cell.reciprocal (wrap q) q) {pts : List (V3 ℝ)} (h : ∀ p ∈ pts, OnGrid N p) (i : Nat) :
    FitsSupercell N d (pathWave cell wrap pts i) := by
  have hg : OnGrid N (pts.getD i ⟨0, 0, 0⟩) := by
    rw [List.getD_eq_getElem?_getD]
    cases hi : pts[i]? with
    | none => exact ⟨0, 0, 0, by simp, by simp, by simp⟩
    | some p => exact h p (List.mem_of_getElem? hi)
  have e : pathWave cell wrap pts i = wrap (cartesianOf cell.reciprocal (pts.getD i ⟨0, 0, 0⟩)) := by
    unfold pathWave cartesianOf Cell.crystalToCartesian
    simp only
    congr 1
  rw [e]
  exact fits_same hcell (hw _) (fits_grid hcell hg)

/-! ## Averages -/

theorem meanOver_mode (P : PathPhApp) (k : Vec3) (b : Nat) (f : Nat → ℝ) : meanOver (P.H.energy k) P.bands b f = modeMean P k f b := by
  classical
  unfold meanOver modeMean degenerateWith
  have hn : ((List.range P.bands).filter fun j => |P.H.energy k j - P.H.energy k b| < 1 / 1000000).Nodup := List.nodup_range.filter _
  have hs : ((List.range P.bands).filter fun j => |P.H.energy k j - P.H.energy k b| < 1 / 1000000).toFinset =
      (Finset.range P.bands).filter fun j => |P.H.energy k j - P.H.energy k b| < 1 / 1000000 := by
    ext j
    simp
  rw [← List.sum_toFinset f hn, ← List.toFinset_card_of_nodup hn, hs]

theorem averaged_val (P : PathPhApp) {N : V3 Int} {d : Mat3} (hg : GroupedModes P N d) {q1 q2 q3 : Vec3} (h1 : FitsSupercell N d q1) (h2 : FitsSupercell N d q2)
    (h3 : FitsSupercell N d q3) (t : Tensor3) (ht : t.d0 = P.bands ∧ t.d1 = P.bands ∧ t.d2 = P.bands) (f : Nat → Nat → Nat → ℝ)
    (hf : ∀ b1 < P.bands, ∀ b2 < P.bands, ∀ b3 < P.bands, t.val b1 b2 b3 = f b1 b2 b3) (b1 b2 b3 : Nat) :
    t.averaged (P.H.energy q1) (P.H.energy q2) (P.H.energy q3) b1 b2 b3 =
      if b1 < P.bands ∧ b2 < P.bands ∧ b3 < P.bands then tripleMean P q1 q2 q3 f b1 b2 b3 else 0 := by
  unfold Tensor3.averaged
  rw [ht.1, ht.2.1, ht.2.2]
  by_cases h : b1 < P.bands ∧ b2 < P.bands ∧ b3 < P.bands
  · rw [if_pos h, if_pos h, C52_mean_partial _ _ _ _ _ _ _ (hg q1 h1).1 (hg q2 h2).1 (hg q3 h3).1 (hg q1 h1).2 (hg q2 h2).2 (hg q3 h3).2 _ _ _ h.1 h.2.1 h.2.2]
    simp only [meanOver_mode]
    unfold tripleMean modeMean
    simp only
    refine congrArg (· / _) (Finset.sum_congr rfl fun c3 hc3 => congrArg (· / _) (Finset.sum_congr rfl fun c2 hc2 => congrArg (· / _) (Finset.sum_congr rfl fun c1 hc1 => ?_)))
    rw [Finset.mem_filter, Finset.mem_range] at hc1 hc2 hc3
    exact hf c1 hc1.1 c2 hc2.1 c3 hc3.1
  · rw [if_neg h, if_neg h]

/-! ## The couplings of a parsed file -/

/-- The couplings of `o` at wavevectors of the supercell are those of the crystal. -/
def CouplesAs {A : Nat} (o : Coupling3Ph) (N : V3 Int) (d : Mat3) (conv : ℝ) (Phi : ForceConstants A) : Prop :=
  ∀ (x : CouplingInput) (q2 : Vec3) (ev2 : Nat → Nat → ℂ) (nb2 : Nat), FitsSupercell N d q2 → FitsSupercell N d x.q1 →
    ∃ t, getCouplingsSquared (o.cacheD3 q2) [x] q2 ev2 nb2 = .ok [t] ∧
      IsSuperCoupling t.1 x.nb1 nb2 x.nb3Plus N d conv Phi 1 q2 (fun i => x.q1 i + q2 i) x.ev1 ev2 x.ev3Plus ∧
      IsSuperCoupling t.2 x.nb1 nb2 x.nb3Mins N d conv Phi (-1) q2 (fun i => x.q1 i - q2 i) x.ev1 (fun a b => (starRingEnd ℂ) (ev2 a b)) x.ev3Mins

theorem couplesAs_of {A : Nat} {N : V3 Int} {d : Mat3} {conv : ℝ} {Phi : ForceConstants A} {r : Outcome Coupling3Ph}
    (h : ∀ (x : CouplingInput) (q2 : Vec3) (ev2 : Nat → Nat → ℂ) (nb2 : Nat), FitsSupercell N d q2 → FitsSupercell N d x.q1 →
      ∃ o res, r = .ok o ∧ getCouplingsSquared (o.cacheD3 q2) [x] q2 ev2 nb2 = .ok res ∧ res.length = [x].length ∧
        ∀ (k : Nat) (y : CouplingInput) (t : Tensor3 × Tensor3), [x][k]? = some y → res[k]? = some t →
        IsSuperCoupling t.1 y.nb1 nb2 y.nb3Plus N d conv Phi 1 q2 (fun i => y.q1 i + q2 i) y.ev1 ev2 y.ev3Plus ∧
        IsSuperCoupling t.2 y.nb1 nb2 y.nb3Mins N d conv Phi (-1) q2 (fun i => y.q1 i - q2 i) y.ev1 (fun a b => (starRingEnd ℂ) (ev2 a b)) y.ev3Mins) :
    ∃ o, r = .ok o ∧ CouplesAs o N d conv Phi := by
  have h0 : FitsSupercell N d (fun _ => 0) := fun k => ⟨0, by simp [scal]⟩
  obtain ⟨o, _, ho, _⟩ := h ⟨fun _ => 0, fun _ _ => 0, fun _ _ => 0, fun _ _ => 0, 0, 0, 0⟩ (fun _ => 0) (fun _ _ => 0) 0 h0 h0
  refine ⟨o, ho, fun x q2 ev2 nb2 h2 h1 => ?_⟩
  obtain ⟨o', res, ho', hr, hl, hc⟩ := h x q2 ev2 nb2 h2 h1
  rw [ho] at ho'
  cases ho'
  obtain ⟨t, rfl⟩ := List.length_eq_one_iff.mp hl
  exact ⟨t, hr, hc 0 x t rfl rfl⟩

theorem pairCouplings_val {A : Nat} (P : PathPhApp) {o : Coupling3Ph} {N : V3 Int} {d : Mat3} {conv : ℝ} {Phi : ForceConstants A} (ho : CouplesAs o N d conv Phi)
    (hg : GroupedModes P N d) {q1 q2 : Vec3} (h1 : FitsSupercell N d q1) (h2 : FitsSupercell N d q2) :
    P.pairCouplings o q1 q2 = .ok ((withForces P N d conv Phi).plus q1 q2, (withForces P N d conv Phi).minus q1 q2) := by
  obtain ⟨t, ht, ⟨a0, a1, a2, av⟩, ⟨c0, c1, c2, cv⟩⟩ := ho ⟨q1, P.H.vector q1, P.H.vector fun i => q1 i + q2 i, P.H.vector fun i => q1 i - q2 i, P.bands, P.bands, P.bands⟩
    q2 (P.H.vector q2) P.bands h2 h1
  unfold PathPhApp.pairCouplings
  simp only [Outcome.bind_eq]
  rw [ht, Outcome.bind_ok]
  have hr : readAt [t] 0 = .ok t := rfl
  rw [hr, Outcome.bind_ok]
  congr 1
  refine Prod.ext ?_ ?_
  · funext b1 b2 b3
    exact averaged_val P hg h1 h2 (fits_add h1 h2) t.1 ⟨a0, a1, a2⟩ _ av b1 b2 b3
  · funext b1 b2 b3
    exact averaged_val P hg h1 h2 (fits_sub h1 h2) t.2 ⟨c0, c1, c2⟩ _ cv b1 b2 b3

theorem run_third {A : Nat} (P : PathPhApp) {o : Coupling3Ph} {N : V3 Int} {d : Mat3} {conv : ℝ} {Phi : ForceConstants A} (ho : CouplesAs o N d conv Phi)
    (hcell : makeCell d = .ok P.cell) (hw : ∀ q, SameModLattice P.cell.reciprocal (P.wrap q) q) (hg : GroupedModes P N d) (hmesh : ∀ p ∈ P.mesh, OnGrid N p)
    (segs : List Segment) (delta : ℝ) (hpath : ∀ pts, pathPoints segs delta = .ok pts → ∀ p ∈ pts, OnGrid N p)
    (u : FileUnits) (ang : ℝ) (c : AtomsView) (batch : Nat → Int) (sched : Nat → List FullStore × List FullStore → List FullStore) (sweep : Sweep) (size : Nat) :
    (P.withThird o).run u ang c segs delta batch sched sweep size = (withForces P N d conv Phi).run u ang c segs delta batch sched sweep size := by
  have key : ∀ pts, pathPoints segs delta = .ok pts → ∀ i j, P.pairCouplings o (pathWave P.cell P.wrap pts i) (pathWave P.cell P.wrap P.mesh j) =
      .ok ((withForces P N d conv Phi).plus (pathWave P.cell P.wrap pts i) (pathWave P.cell P.wrap P.mesh j),
        (withForces P N d conv Phi).minus (pathWave P.cell P.wrap pts i) (pathWave P.cell P.wrap P.mesh j)) := fun pts h i j =>
    pairCouplings_val P ho hg (fits_wave hcell hw (hpath pts h) i) (fits_wave hcell hw hmesh j)
  refine run_congr (withForces P N d conv Phi) (P.withThird o).plus (P.withThird o).minus segs delta (fun pts h i j => ?_) (fun pts h i j => ?_)
    u ang c batch sched sweep size
  · funext b1 b2 b3
    have := key pts h i j
    show (match P.pairCouplings o (pathWave P.cell P.wrap pts i) (pathWave P.cell P.wrap P.mesh j) with | .ok c => c.1 b1 b2 b3 | _ => 0) = _
    rw [this]
    rfl
  · funext b1 b2 b3
    have := key pts h i j
    show (match P.pairCouplings o (pathWave P.cell P.wrap pts i) (pathWave P.cell P.wrap P.mesh j) with | .ok c => c.2 b1 b2 b3 | _ => 0) = _
    rw [this]
    rfl

/-! ## Periodicity -/

theorem phase_same {d : Mat3} {cell : Cell} (hcell : makeCell d = .ok cell) {k q : Vec3} (h : SameModLattice cell.reciprocal k q) (n : V3 Int) :
    ∃ z : ℤ, scal k (latVec d n) = scal q (latVec d n) + 2 * Real.pi * z := by
  obtain ⟨z0, h0⟩ := scal_same hcell h 0
  obtain ⟨z1, h1⟩ := scal_same hcell h 1
  obtain ⟨z2, h2⟩ := scal_same hcell h 2
  refine ⟨n.x * z0 + n.y * z1 + n.z * z2, ?_⟩
  rw [scal_latVec, scal_latVec, h0, h1, h2]
  push_cast
  ring

theorem superCoupling_same {A : Nat} {N : V3 Int} {d : Mat3} {cell : Cell} (hcell : makeCell d = .ok cell) (conv : ℝ) (Phi : ForceConstants A) (s : ℤ)
    {k2 q2 k3 q3 : Vec3} (h2 : SameModLattice cell.reciprocal k2 q2) (h3 : SameModLattice cell.reciprocal k3 q3) (e1 e2 e3 : Nat → ℂ) :
    superCoupling N d conv Phi s k2 k3 e1 e2 e3 = superCoupling N d conv Phi s q2 q3 e1 e2 e3 := by
  unfold superCoupling
  refine Finset.sum_congr rfl fun b1 _ => Finset.sum_congr rfl fun i _ => Finset.sum_congr rfl fun b2 _ => Finset.sum_congr rfl fun j _ =>
    Finset.sum_congr rfl fun b3 _ => Finset.sum_congr rfl fun l _ => ?_
  congr 1
  refine Finset.sum_congr rfl fun n _ => Finset.sum_congr rfl fun m _ => ?_
  congr 1
  obtain ⟨z2, e2⟩ := phase_same hcell h2 ⟨n.1, n.2.1, n.2.2⟩
  obtain ⟨z3, e3⟩ := phase_same hcell h3 ⟨m.1, m.2.1, m.2.2⟩
  rw [e2, e3, Complex.exp_eq_exp_iff_exists_int]
  refine ⟨s * z2 - z3, ?_⟩
  push_cast
  ring

theorem tripleMean_same (P : PathPhApp) {k1 q1 k2 q2 k3 q3 : Vec3} (h1 : P.H.energy k1 = P.H.energy q1) (h2 : P.H.energy k2 = P.H.energy q2)
    (h3 : P.H.energy k3 = P.H.energy q3) (f : Nat → Nat → Nat → ℝ) : tripleMean P k1 k2 k3 f = tripleMean P q1 q2 q3 f := by
  funext b1 b2 b3
  unfold tripleMean modeMean
  simp only [h1, h2, h3]

theorem withForces_periodic {A : Nat} (P : PathPhApp) (N : V3 Int) (d : Mat3) (conv : ℝ) (Phi : ForceConstants A) (hcell : makeCell d = .ok P.cell)
    (h : PeriodicModes P) : PeriodicPhonons (withForces P N d conv Phi) := by
  have hadd : ∀ {k q k' q' : Vec3}, SameModLattice P.cell.reciprocal k q → SameModLattice P.cell.reciprocal k' q' →
      SameModLattice P.cell.reciprocal (fun i => k i + k' i) (fun i => q i + q' i) := by
    rintro k q k' q' ⟨n, hn⟩ ⟨n', hn'⟩
    refine ⟨fun j => n j + n' j, fun i => ?_⟩
    simp only [hn, hn', Fin.sum_univ_three]
    push_cast
    ring
  have hsub : ∀ {k q k' q' : Vec3}, SameModLattice P.cell.reciprocal k q → SameModLattice P.cell.reciprocal k' q' →
      SameModLattice P.cell.reciprocal (fun i => k i - k' i) (fun i => q i - q' i) := by
    rintro k q k' q' ⟨n, hn⟩ ⟨n', hn'⟩
    refine ⟨fun j => n j - n' j, fun i => ?_⟩
    simp only [hn, hn', Fin.sum_univ_three]
    push_cast
    ring
  refine ⟨h.energy, h.velocity, fun k q k' q' h1 h2 => ?_, fun k q k' q' h1 h2 => ?_, h.overlap⟩
  · have h3 := hadd h1 h2
    funext b1 b2 b3
    unfold withForces
    simp only
    rw [tripleMean_same P (h.energy _ _ h1) (h.energy _ _ h2) (h.energy _ _ h3), h.vector _ _ h1, h.vector _ _ h2, h.vector _ _ h3]
    have := fun e1 e2 e3 => superCoupling_same (N := N) hcell conv Phi 1 h2 h3 e1 e2 e3
    simp only [Int.cast_one] at this
    simp only [this]
  · have h3 := hsub h1 h2
    funext b1 b2 b3
    unfold withForces
    simp only
    rw [tripleMean_same P (h.energy _ _ h1) (h.energy _ _ h2) (h.energy _ _ h3), h.vector _ _ h1, h.vector _ _ h2, h.vector _ _ h3]
    have := fun e1 e2 e3 => superCoupling_same (N := N) hcell conv Phi (-1) h2 h3 e1 e2 e3
    simp only [Int.cast_neg, Int.cast_one] at this
    simp only [this]

end Verif.Proofs
