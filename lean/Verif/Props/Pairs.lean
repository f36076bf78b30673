import Verif.Proofs.Pairs
import Verif.Props.Mpi
import Verif.Props.IrrPoints

/-! # C50-C51: distribution of the scattering loop -/
namespace Verif.Props
open Verif.Model

/-! ## C50 every needed pair exactly once -/

/-- The pairs (k1, k2) an electron iterator goes through: outer index k1, inner list of k2. -/
def elPairList (it : List PairItem) : List (Int × Int) := it.flatMap fun t => t.1.map fun k2 => (t.2, k2)

/-- The pairs (q1, q2) a phonon iterator goes through: outer index q2, inner list of q1. -/
def phPairList (it : List PairItem) : List (Int × Int) := it.flatMap fun t => t.1.map fun q1 => (q1, t.2)

/-- Electrons, matrix not stored: the lists of the processes one after the other are all pairs of an irreducible point
and a point of the inner mesh, each exactly once. -/
theorem C50_electrons (sym : Bool) (numStates : Nat) (bteToPoint : Nat → Nat) (star : Nat → List Nat)
    (irr : List Nat) (n : Nat) (states : Nat → List (Nat × Nat)) (size : Nat) (hs : 0 < size)
    (hfit : irr.length * size < sizeTMod) :
    ∃ its : Nat → List PairItem,
      (∀ r, r < size → elPairs false sym numStates bteToPoint star irr n (states r) r size = .ok (its r)) ∧
      (List.range size).flatMap (fun r => elPairList (its r)) =
        irr.flatMap fun (k1 : Nat) => (List.range n).map fun (k2 : Nat) => ((k1 : Int), (k2 : Int)) := by
  refine ⟨_, fun r _ => rfl, ?_⟩
  have e : ∀ r, elPairList ((sliceOf irr r size).map fun (ik1 : Nat) =>
      ((List.range n).map fun (k : Nat) => (k : Int), (ik1 : Int))) =
      (sliceOf irr r size).flatMap fun (k1 : Nat) => (List.range n).map fun (k2 : Nat) => ((k1 : Int), (k2 : Int)) := by
    intro r
    unfold elPairList
    rw [List.flatMap_map]
    congr 1
    funext k1
    rw [List.map_map]; rfl
  simp only [e]
  rw [← List.flatMap_assoc, slices_flatten irr size hs hfit]

/-- Phonons, matrix not stored: all pairs of an irreducible point and a point of the inner mesh, each exactly once. -/
theorem C50_phonons (sym : Bool) (numStates : Nat) (bteToPoint : Nat → Nat) (star : Nat → List Nat)
    (irr : List Nat) (n : Nat) (states : Nat → List (Nat × Nat)) (size : Nat) (hs : 0 < size)
    (hfit : n * size < sizeTMod) :
    ∃ its : Nat → List PairItem,
      (∀ r, r < size → phPairs false sym numStates bteToPoint star irr n (states r) r size = .ok (its r)) ∧
      (List.range size).flatMap (fun r => phPairList (its r)) =
        (List.range n).flatMap fun (q2 : Nat) => irr.map fun (q1 : Nat) => ((q1 : Int), (q2 : Int)) := by
  obtain ⟨work, hw, hall⟩ := C06_partition n size hs hfit
  refine ⟨fun r => (work r).map fun (iq2 : Nat) => (irr.map fun (k : Nat) => (k : Int), (iq2 : Int)), ?_, ?_⟩
  · intro r hr
    unfold phPairs
    rw [if_neg (by simp), hw r hr]
    rfl
  · have e : ∀ r, phPairList ((work r).map fun (iq2 : Nat) => (irr.map fun (k : Nat) => (k : Int), (iq2 : Int))) =
        (work r).flatMap fun (q2 : Nat) => irr.map fun (q1 : Nat) => ((q1 : Int), (q2 : Int)) := by
      intro r
      unfold phPairList
      rw [List.flatMap_map]
      congr 1
      funext q2
      rw [List.map_map]; rfl
    simp only [e]
    rw [← List.flatMap_assoc, hall]

/-- Matrix stored: the list of a process has no pair twice, and has exactly the pairs needed by its elements: the
irreducible point of the row and the points of the star of the irreducible point of the column.  The elements may be
processed in any order. -/
theorem C50_matrix (sym : Bool) (numStates : Nat) (bteToPoint : Nat → Nat) (star : Nat → List Nat)
    (irr : List Nat) (n rank size : Nat) (L : Layout) (pr pc : Nat)
    (states : List (Nat × Nat)) (hperm : states.Perm (L.getAllLocalStates pr pc))
    (hfit : ∀ t ∈ L.getAllLocalStates pr pc, (t.1 : Int) ≤ intMax ∧ (t.2 : Int) ≤ intMax) :
    (∃ it, elPairs true sym numStates bteToPoint star irr n states rank size = .ok it ∧ (elPairList it).Nodup ∧
      ∀ k1 k2 : Nat, ((k1 : Int), (k2 : Int)) ∈ elPairList it ↔ ∃ t ∈ L.getAllLocalStates pr pc,
        k1 = bteToPoint (if sym then t.1 / 3 else t.1) ∧ k2 ∈ star (bteToPoint (if sym then t.2 / 3 else t.2))) ∧
    (∃ it, phPairs true sym numStates bteToPoint star irr n states rank size = .ok it ∧ (phPairList it).Nodup ∧
      ∀ q1 q2 : Nat, ((q1 : Int), (q2 : Int)) ∈ phPairList it ↔ ∃ t ∈ L.getAllLocalStates pr pc,
        q1 = bteToPoint (if sym then t.1 / 3 else t.1) ∧ q2 ∈ star (bteToPoint (if sym then t.2 / 3 else t.2))) := by
  obtain ⟨ps, hps, hnd, hmem⟩ := localPairs_val sym numStates bteToPoint star states
    (fun t ht => hfit t (hperm.mem_iff.mp ht))
  have hinj : Function.Injective fun p : Nat × Nat => ((p.1 : Int), (p.2 : Int)) := by
    intro a b h
    simp only [Prod.mk.injEq, Nat.cast_inj] at h
    exact Prod.ext h.1 h.2
  have hmem' : ∀ y, y ∈ ps ↔ ∃ t ∈ L.getAllLocalStates pr pc, y.1 = bteToPoint (if sym then t.1 / 3 else t.1) ∧
        y.2 ∈ star (bteToPoint (if sym then t.2 / 3 else t.2)) := by
    intro y
    rw [hmem]
    constructor
    · rintro ⟨t, ht, h⟩; exact ⟨t, hperm.mem_iff.mp ht, h⟩
    · rintro ⟨t, ht, h⟩; exact ⟨t, hperm.mem_iff.mpr ht, h⟩
  constructor
  · obtain ⟨keys, hk, hkm, hg⟩ := groupPairs_val (·.1) (·.2) ps
    have hp := group_perm (·.1) (·.2) (fun a b => (a, b)) (fun _ => rfl) ps keys hk hkm
    refine ⟨_, by unfold elPairs; rw [if_pos rfl, hps]; exact hg, ?_, ?_⟩
    all_goals
      have e : elPairList (keys.map fun (q : Nat) => ((ps.filter fun p => p.1 = q).map fun p => (p.2 : Int), (q : Int))) =
          (keys.flatMap fun q => ((ps.filter fun p => p.1 = q).map fun p => (q, p.2))).map fun p => ((p.1 : Int), (p.2 : Int)) := by
        unfold elPairList
        rw [List.flatMap_map, List.map_flatMap]
        congr 1
        funext q
        rw [List.map_map, List.map_map]; rfl
      rw [e]
    · exact ((hp.nodup_iff).mpr hnd).map hinj
    · intro k1 k2
      rw [(hp.map _).mem_iff]
      constructor
      · intro h
        obtain ⟨p, hp1, hp2⟩ := List.mem_map.mp h
        have := hinj (a₁ := p) (a₂ := (k1, k2)) hp2
        subst this
        exact (hmem' (k1, k2)).mp hp1
      · intro h
        exact List.mem_map.mpr ⟨(k1, k2), (hmem' (k1, k2)).mpr h, rfl⟩
  · obtain ⟨keys, hk, hkm, hg⟩ := groupPairs_val (·.2) (·.1) ps
    have hp := group_perm (·.2) (·.1) (fun a b => (b, a)) (fun _ => rfl) ps keys hk hkm
    refine ⟨_, by unfold phPairs; rw [if_pos rfl, hps]; exact hg, ?_, ?_⟩
    all_goals
      have e : phPairList (keys.map fun (q : Nat) => ((ps.filter fun p => p.2 = q).map fun p => (p.1 : Int), (q : Int))) =
          (keys.flatMap fun q => ((ps.filter fun p => p.2 = q).map fun p => (p.1, q))).map fun p => ((p.1 : Int), (p.2 : Int)) := by
        unfold phPairList
        rw [List.flatMap_map, List.map_flatMap]
        congr 1
        funext q
        rw [List.map_map, List.map_map]; rfl
      rw [e]
    · exact ((hp.nodup_iff).mpr hnd).map hinj
    · intro k1 k2
      rw [(hp.map _).mem_iff]
      constructor
      · intro h
        obtain ⟨p, hp1, hp2⟩ := List.mem_map.mp h
        have := hinj (a₁ := p) (a₂ := (k1, k2)) hp2
        subst this
        exact (hmem' (k1, k2)).mp hp1
      · intro h
        exact List.mem_map.mpr ⟨(k1, k2), (hmem' (k1, k2)).mpr h, rfl⟩

/-- Three irreducible points 0, 1, 3 of the 2x2x1 mesh with one band and symmetries (a 9x9 matrix) on a 2x2 grid: the
pairs of process (1, 0). -/
example : phPairs true true 3 (fun b => [0, 1, 3].getD b 0) (fun k => if k = 1 then [1, 2] else [k]) [0, 1, 3] 4
    ((⟨9, 9, 4, 4, 2, 2⟩ : Layout).getAllLocalStates 1 0) 2 4 =
    .ok [([1, 3], 0), ([1, 3], 1), ([1, 3], 2), ([1, 3], 3)] := by decide +kernel

example : (∀ t ∈ (⟨9, 9, 4, 4, 2, 2⟩ : Layout).getAllLocalStates 1 0, (t.1 : Int) ≤ intMax ∧ (t.2 : Int) ≤ intMax) ∧
    4 * 4 < sizeTMod := by decide +kernel

/-! ## C51 same number of iterations in a pool -/

/-- The real pairs processed by the loop, in order. -/
def processed (acts : List ElAction) : List (Int × List Int) :=
  acts.filterMap fun a => match a with | .process k l => some (k, l) | .cacheElPh => none

/-- After the padding, all processes of a pool make the same number of iterations and of collective calls, and each
processes exactly the pairs of its own list, in order. -/
theorem C51_pool (its : List (List PairItem)) (hreal : ∀ it ∈ its, ∀ t ∈ it, t.2 ≠ -1) :
    (padPool its).length = its.length ∧
    (∀ a ∈ padPool its, ∀ b ∈ padPool its, a.length = b.length ∧
      (elLoop a).count .cacheElPh = (elLoop b).count .cacheElPh) ∧
    ∀ (p : Nat) (it : List PairItem), its[p]? = some it → ∃ it', (padPool its)[p]? = some it' ∧
      processed (elLoop it') = it.map fun t => (t.2, t.1) := by
  have hc : ∀ it : List PairItem, (elLoop it).count .cacheElPh = it.length := by
    intro it
    induction it with
    | nil => rfl
    | cons t l ih =>
      unfold elLoop at ih ⊢
      rw [List.flatMap_cons, List.count_append, ih, List.length_cons]
      unfold elIteration
      by_cases h : t.2 = -1
      · rw [if_pos h]; simp; omega
      · rw [if_neg h]
        have e : List.count ElAction.cacheElPh [ElAction.cacheElPh, ElAction.process t.2 t.1] = 1 := by
          rw [List.count_cons_self, List.count_cons_of_ne (by simp)]; rfl
        rw [e]; omega
  have happ : ∀ a b : List PairItem, processed (elLoop (a ++ b)) = processed (elLoop a) ++ processed (elLoop b) := by
    intro a b
    simp [processed, elLoop]
  have hreal' : ∀ it : List PairItem, (∀ t ∈ it, t.2 ≠ -1) → processed (elLoop it) = it.map fun t => (t.2, t.1) := by
    intro it hit
    induction it with
    | nil => rfl
    | cons t l ih =>
      have := happ [t] l
      rw [List.singleton_append] at this
      rw [this, ih (fun x hx => hit x (by simp [hx])), List.map_cons]
      have ht := hit t (by simp)
      have e : elLoop [t] = [.cacheElPh, .process t.2 t.1] := by
        unfold elLoop elIteration
        simp [ht]
      rw [e]; rfl
  have hdum : ∀ k, processed (elLoop (List.replicate k dummyItem)) = [] := by
    intro k
    induction k with
    | zero => rfl
    | succ k ih =>
      have := happ [dummyItem] (List.replicate k dummyItem)
      rw [List.singleton_append, ih] at this
      rw [List.replicate_succ, this]; rfl
  by_cases hlen : 1 < its.length
  · have hdef : padPool its = its.map (padTo ((its.map List.length).foldl max 0)) := by
      unfold padPool; rw [if_pos hlen]
    have hl : ∀ a ∈ padPool its, a.length = (its.map List.length).foldl max 0 := by
      intro a ha
      rw [hdef] at ha
      obtain ⟨it, hit, rfl⟩ := List.mem_map.mp ha
      have := (foldl_max_bounds (its.map List.length) 0).2 it.length (List.mem_map.mpr ⟨it, hit, rfl⟩)
      unfold padTo
      rw [List.length_append, List.length_replicate]
      omega
    refine ⟨by rw [hdef]; simp, ?_, ?_⟩
    · intro a ha b hb
      have e := (hl a ha).trans (hl b hb).symm
      exact ⟨e, by rw [hc, hc, e]⟩
    · intro p it hp
      refine ⟨_, by rw [hdef, List.getElem?_map, hp]; rfl, ?_⟩
      unfold padTo
      rw [happ, hdum, List.append_nil]
      exact hreal' it (hreal it (List.mem_of_getElem? hp))
  · have hdef : padPool its = its := by unfold padPool; rw [if_neg hlen]
    rw [hdef]
    refine ⟨rfl, ?_, ?_⟩
    · intro a ha b hb
      have h01 : its.length = 0 ∨ its.length = 1 := by omega
      rcases h01 with h | h
      · rw [List.length_eq_zero_iff.mp h] at ha; simp at ha
      · obtain ⟨x, rfl⟩ := List.length_eq_one_iff.mp h
        simp only [List.mem_singleton] at ha hb
        subst ha hb
        exact ⟨rfl, rfl⟩
    · intro p it hp
      exact ⟨it, hp, hreal' it (hreal it (List.mem_of_getElem? hp))⟩

/-- The lists produced for electrons never contain the dummy index. -/
theorem C51_real (m sym : Bool) (numStates : Nat) (bteToPoint : Nat → Nat) (star : Nat → List Nat)
    (irr : List Nat) (n rank size : Nat) (states : List (Nat × Nat)) (it : List PairItem)
    (h : elPairs m sym numStates bteToPoint star irr n states rank size = .ok it) : ∀ t ∈ it, t.2 ≠ -1 := by
  intro t ht
  cases m with
  | false =>
    unfold elPairs at h
    rw [if_neg (by simp), Outcome.ok.injEq] at h
    subst h
    obtain ⟨k, _, rfl⟩ := List.mem_map.mp ht
    simp only; omega
  | true =>
    unfold elPairs at h
    rw [if_pos rfl] at h
    cases hl : localPairs sym numStates bteToPoint star states with
    | ok ps =>
      rw [hl] at h
      obtain ⟨keys, _, _, hg⟩ := groupPairs_val (·.1) (·.2) ps
      have h' : groupPairs (·.1) (·.2) ps = .ok it := h
      rw [hg, Outcome.ok.injEq] at h'
      subst h'
      obtain ⟨k, _, rfl⟩ := List.mem_map.mp ht
      simp only; omega
    | error => rw [hl] at h; simp [Outcome.bind_eq] at h
    | ub => rw [hl] at h; simp [Outcome.bind_eq] at h
    | diverge => rw [hl] at h; simp [Outcome.bind_eq] at h

/-- A pool of two processes with 2 and 1 points. -/
example : padPool [[([0, 1], 0), ([0, 1], 1)], [([0, 1], 3)]] =
    [[([0, 1], 0), ([0, 1], 1)], [([0, 1], 3), ([-1], -1)]] := by decide

end Verif.Props
